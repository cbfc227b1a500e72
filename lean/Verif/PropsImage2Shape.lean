import Verif.Image2Shape
import Verif.PropsDecodeBatch
import Verif.PropsSolver
import Mathlib.Data.List.OfFn

/-! C92: `Image2Shape`. -/

set_option linter.unusedSimpArgs false

namespace Ocnn
open Spec
variable {F I : Type}

/-- A code channel that is not absurdly large: 27 rows of it fit into the buffer of the convolution. -/
def CodeOk (code : Nat) : Prop := code ≤ 7000000

theorem i2s_ok {code : Nat} (h : CodeOk code) : (i2sCfg code).Ok := ⟨rfl, (by decide : ∀ c ∈ [512, 512, 256, 256, 128, 128, 64, 64, 32, 32], c ≤ 7000000), h⟩

theorem two_pow_eight (full : Nat) : 2 ^ (3 * full) = 8 ^ full := by rw [pow_mul]; norm_num

theorem viewCode_length (n code : Nat) (x : List (Fin (n * code) → ℚ)) : (viewCode n code x).length = n * x.length := by
  unfold viewCode
  induction x with
  | nil => rfl
  | cons v x ih =>
    rw [List.flatMap_cons, List.length_append, ih, List.length_ofFn, List.length_cons]
    ring

theorem viewCode_flatten (n code : Nat) (xs : List (List (Fin (n * code) → ℚ))) : viewCode n code xs.flatten = (xs.map (viewCode n code)).flatten := by
  unfold viewCode
  induction xs with
  | nil => rfl
  | cons x xs ih => rw [List.flatten_cons, List.flatMap_append, ih]; rfl

/-- **C92** The code of an image keeps its numbers and their order when it is cut into rows. -/
theorem C92_view (n code : Nat) (x : List (Fin (n * code) → ℚ)) : (viewCode n code x).flatMap List.ofFn = x.flatMap List.ofFn := by
  unfold viewCode
  rw [List.flatMap_assoc]
  congr 1
  funext v
  rw [List.ofFn_mul]
  rw [List.flatMap_def, List.map_ofFn]
  congr 2
  funext k
  simp only [Function.comp]
  congr 1
  funext i
  congr 1
  apply Fin.ext
  simp [finProdFinEquiv]
  ring

section
variable (P : Params) (code cout : Nat) (hcode : CodeOk code) {depth full : Nat} (hf : 1 ≤ full) (hfd : full ≤ depth) (hd9 : depth ≤ 9)
  (enc : List I → M (List (Fin (2 ^ (3 * full) * code) → ℚ))) (device : Nat) (images : List I) (rows : List (Fin (2 ^ (3 * full) * code) → ℚ))
  (henc : enc images = .ok rows) (hrows : rows.length = images.length)
include hcode hf hfd hd9 henc hrows

/-- **C92** Without update: as many images as samples give two logits per node of the given octree and a signal for its non-empty finest nodes. -/
theorem C92_shapes {o : Octree F} (w : o.Valid depth) (hfull : full ≤ o.fullDepth) (hn : ∀ d, 1 ≤ d → d ≤ depth → NeighExact o.batchSize d o.keys o.neighs)
    (hB : images.length = o.batchSize) :
    ∃ st, image2shape P code cout depth full enc device images (some o) false = .ok st ∧ st.octree = o ∧
      HasShape (.ok st.deconv) (o.nnumNempty depth) cout ∧ st.logits.length = depth + 1 - full ∧
      ∀ d, full ≤ d → d ≤ depth → ∃ l, st.logits[d - full]? = some l ∧ HasShape (.ok l) (o.nnum d) 2 := by
  haveI := i2s_ok hcode
  have L := layers_single P w (le_refl _) hn
  have hbn : ∀ d, full ≤ d → d ≤ depth → BnOk P (ht [o] false d) := fun d h1 h2 => bnOk_of w d (by omega) (by omega)
  have hl : (viewCode (2 ^ (3 * full)) code rows).length = o.nnum full := by
    rw [viewCode_length, hrows, hB, nnum_full w full hfull, two_pow_eight]
  obtain ⟨p, q, h2, h2', ho, -, hr1, hl, -, hr2⟩ := L.aeDecoder (cfg := i2sCfg code) (cout := cout) hf hfd hd9 ⟨Nat.zero_le _, le_refl _⟩ hbn
    (rel_self (c := code) (viewCode (2 ^ (3 * full)) code rows) (by simpa [rowsAt] using hl))
  have epq : q = p := by
    rw [h2] at h2'
    exact (Except.ok.inj h2').symm
  subst epq
  refine ⟨q, ?_, ho, ?_, hl, ?_⟩
  · unfold image2shape
    rw [henc]
    exact h2
  · obtain ⟨y, hy, e, -⟩ := rel_single hr1
    exact ⟨y, by rw [e], hy⟩
  · intro d hd1 hd2
    obtain ⟨a, b, e1, -, hr⟩ := hr2 (d - full) (by omega)
    rw [show full + (d - full) = d by omega] at hr
    obtain ⟨y, hy, e, -⟩ := rel_single hr
    exact ⟨a, e1, y, by rw [e], hy⟩

/-- **C92** With update: a well-formed octree with one sample per image, whatever octree is given. -/
theorem C92_generates (octree : Option (Octree F)) (hne : images ≠ []) (hB : images.length ≤ 2 ^ 15) :
    ∃ st, image2shape P code cout depth full enc device images octree true = .ok st ∧ st.octree.Valid depth ∧ st.octree.depth = depth ∧
      st.octree.fullDepth = full ∧ st.octree.batchSize = images.length ∧ st.octree.device = device ∧
      (∀ d ≤ depth, NeighExact st.octree.batchSize d st.octree.keys st.octree.neighs) ∧ (∀ d ≤ depth, 0 < st.octree.nnumNempty d) ∧
      HasShape (.ok st.deconv) (st.octree.nnumNempty depth) cout ∧ st.logits.length = depth + 1 - full ∧
      ∀ d, full ≤ d → d ≤ depth → ∃ l, st.logits[d - full]? = some l ∧ HasShape (.ok l) (st.octree.nnum d) 2 := by
  haveI := i2s_ok hcode
  obtain ⟨st, y, h2, h3, h4, h5, h6, h7, h8, h9, h10, h11, h12⟩ := ae_decode (F := F) P (i2sCfg code) cout (dev := device) (B := images.length) hf hfd hd9
    (List.length_pos_iff.2 hne) hB (viewCode (2 ^ (3 * full)) code rows) (by rw [viewCode_length, hrows, two_pow_eight])
  refine ⟨st, ?_, h3, h4, h5, h6, (frame_decode h2).2.2.2, h7, h8, ⟨y, by rw [h9], h10⟩, h11, ?_⟩
  · unfold image2shape
    rw [henc]
    exact h2
  · intro d hd1 hd2
    obtain ⟨z, e1, e2⟩ := h12 (d - full) (by omega)
    rw [show full + (d - full) = d by omega] at e2
    exact ⟨_, e1, z, rfl, e2⟩

/-- **C92** Training and generation agree: if the logits of the run on the ground truth octree predict its nodes then generation from the images alone
gives the ground truth octree with the same logits and the same signal. -/
theorem C92_teacher_forcing {t : Octree F} (w : t.Valid depth) (hdep : t.depth = depth) (hfull : full ≤ t.fullDepth) (hB1 : 1 ≤ t.batchSize)
    (hpos : ∀ d ≤ depth, 0 < t.nnumNempty d) (hn : ∀ d, 1 ≤ d → d ≤ depth → NeighExact t.batchSize d t.keys t.neighs) (hB : images.length = t.batchSize) :
    ∃ st, image2shape P code cout depth full enc device images (some t) false = .ok st ∧ (PredictsOctree t full depth st.logits →
      ∃ st', image2shape (F := F) P code cout depth full enc device images none true = .ok st' ∧ SameOctree st'.octree t depth ∧ st'.octree.depth = depth ∧
        st'.octree.batchSize = t.batchSize ∧ st'.logits = st.logits ∧ st'.deconv = st.deconv) := by
  haveI := i2s_ok hcode
  obtain ⟨st, h1, -⟩ := C92_shapes P code cout hcode hf hfd hd9 enc device images rows henc hrows w hfull hn hB
  refine ⟨st, h1, fun H => ?_⟩
  unfold image2shape at h1 ⊢
  rw [henc] at h1 ⊢
  exact C87_decoder P (i2sCfg code) cout hf hd9 w hdep hfull hB1 hpos hn (viewCode (2 ^ (3 * full)) code rows)
    (by rw [viewCode_length, hrows, hB, nnum_full w full hfull, two_pow_eight]) st h1 H

/-- **C92** Without update, a number of images that differs from the number of samples of the octree raises. -/
theorem C92_wrong_batch {o : Octree F} (w : o.Valid depth) (hfull : full ≤ o.fullDepth) (hn : ∀ d, 1 ≤ d → d ≤ depth → NeighExact o.batchSize d o.keys o.neighs)
    (hB : images.length ≠ o.batchSize) :
    image2shape P code cout depth full enc device images (some o) false = .error .assertion := by
  haveI := i2s_ok hcode
  have L := layers_single P w (le_refl _) hn
  have hlen : (viewCode (2 ^ (3 * full)) code rows).length = 8 ^ full * images.length := by
    rw [viewCode_length, hrows, two_pow_eight]
  have hbn : BnOk P [(viewCode (2 ^ (3 * full)) code rows).length] := fun _ => by
    refine ⟨rfl, ?_⟩
    rw [List.sum_singleton, hlen]
    intro h
    have h8 := Nat.eq_one_of_mul_eq_one_right h
    have := Nat.one_lt_pow (n := full) (a := 8) (by omega) (by decide)
    omega
  obtain ⟨c, hc, hc'⟩ : ∃ c, ((i2sCfg code).channels full)[full]? = some c ∧ c = code := ⟨_, channels_full _ full (by omega), rfl⟩
  subst hc'
  obtain ⟨a, b, e1, -, hr⟩ := L.conv1x1BnRelu ("decoder_blks." ++ toString 0 ++ ".resblks." ++ toString 0 ++ ".conv1x1a") (c / 4) hbn
    (rel_self (c := c) (viewCode (2 ^ (3 * full)) c rows) rfl)
  obtain ⟨y, hy, rfl, -⟩ := rel_single hr
  have hconv := conv_wrong_height P w full (by omega) (hn full hf hfd) (c / 4) (c / 4) (by unfold WidthOk; unfold CodeOk at hcode; omega) false
    ("decoder_blks." ++ toString 0 ++ ".resblks." ++ toString 0 ++ ".conv3x3" ++ ".conv") y (by
      show _ ≠ o.nnum full
      rw [hy, hlen, nnum_full w full hfull]
      intro h
      exact hB (Nat.eq_of_mul_eq_mul_left (by positivity) h))
  have hlevel : aeLevel P (i2sCfg c) full o ⟨c, viewCode (2 ^ (3 * full)) c rows⟩ 0 = .error .assertion := by
    have hblk : resBlock P ("decoder_blks." ++ toString 0 ++ ".resblks." ++ toString 0) c c 1 4 false o full ⟨c, viewCode (2 ^ (3 * full)) c rows⟩ = .error .assertion := by
      unfold resBlock
      have h4 : bottleneckChannels c 4 = .ok (c / 4) := rfl
      have h12 : ¬ (1 : Nat) = 2 := by decide
      simp only [h4, if_neg h12, pure_bind]
      show (conv1x1BnRelu P _ c (c / 4) _ >>= _) = _
      rw [e1]
      show (convBnRelu P _ (c / 4) (c / 4) [3] 1 false o full ⟨c / 4, y⟩ >>= _) = _
      unfold convBnRelu
      rw [hconv]
      rfl
    have hblks : resBlocks P .block ("decoder_blks." ++ toString 0) c c 2 4 false o full ⟨c, viewCode (2 ^ (3 * full)) c rows⟩ = .error .assertion := by
      unfold resBlocks
      rw [show List.range 2 = [0, 1] from rfl, List.foldlM_cons]
      unfold resStep oneBlock
      simp only [if_true]
      rw [hblk]
      rfl
    unfold aeLevel
    simp only [Nat.add_zero, getIdx_some hc, lt_irrefl, if_false, pure_bind]
    show (resBlocks P .block ("decoder_blks." ++ toString 0) c c 2 4 false o full _ >>= _) = _
    rw [hblks]
    rfl
  unfold image2shape
  rw [henc]
  show aeDecoder P (i2sCfg c) cout depth full false _ o = _
  unfold aeDecoder
  rw [show depth + 1 - full = (depth - full) + 1 by omega, List.range_succ_eq_map, List.foldlM_cons]
  unfold aeDecStep
  rw [hlevel]
  rfl

end

/-- **C92** Without update and without octree it raises. -/
theorem C92_no_octree (P : Params) (code cout depth full : Nat) (enc : List I → M (List (Fin (2 ^ (3 * full) * code) → ℚ))) (device : Nat) (images : List I)
    (rows : List (Fin (2 ^ (3 * full) * code) → ℚ)) (henc : enc images = .ok rows) :
    image2shape (F := F) P code cout depth full enc device images none false = .error .type := by
  unfold image2shape
  rw [henc]
  rfl

theorem viewCode_map (n code : Nat) (e : I → Fin (n * code) → ℚ) (images : List I) :
    viewCode n code (images.map e) = (images.map fun im => viewCode n code [e im]).flatten := by
  have : images.map e = (images.map fun im => [e im]).flatten := by
    induction images with
    | nil => rfl
    | cons a l ih => rw [List.map_cons, ih]; rfl
  rw [this, viewCode_flatten, List.map_map]
  rfl

/-- **C92** In evaluation mode, with an encoder that treats the images one by one: the run on a merged octree with a batch of images returns, one after the other, what the runs on the
sample octrees with their images return. -/
theorem C92_independent (P : Params) (hP : P.training = false) (code cout : Nat) (hcode : CodeOk code) {depth full D : Nat} (hf : 1 ≤ full) (hfd : full ≤ depth)
    (hd9 : depth ≤ 9) (hD : depth ≤ D) (e : I → Fin (2 ^ (3 * full) * code) → ℚ) (device : Nat) {os : List (Octree F)} {o' : Octree F} (hm : MergedBatch os o' D)
    (hfull : ∀ o ∈ os, full ≤ o.fullDepth) (images : List I) (hlen : images.length = os.length) :
    ∃ st sts, image2shape P code cout depth full (fun l => .ok (l.map e)) device images (some o') false = .ok st ∧
      (os.zip images).mapM (fun p => image2shape P code cout depth full (fun l => .ok (l.map e)) device [p.2] (some p.1) false) = .ok sts ∧
      Concatenated cout st.deconv (sts.map AeState.deconv) ∧
      ∀ d, full ≤ d → d ≤ depth → ∃ l ls, st.logits[d - full]? = some l ∧ sts.map (fun st => st.logits[d - full]?) = ls.map some ∧ Concatenated 2 l ls := by
  haveI := i2s_ok hcode
  obtain ⟨_, _, _, hmg⟩ := hm.mergeable
  have hxl : (images.map fun im => viewCode (2 ^ (3 * full)) code [e im]).map List.length = os.map fun o => height o false full := by
    apply List.ext_getElem?
    intro i
    rcases Nat.lt_or_ge i os.length with hi | hi
    · have hi' : i < images.length := by omega
      simp only [List.getElem?_map, List.getElem?_eq_getElem hi, List.getElem?_eq_getElem hi', Option.map_some]
      have ho := List.getElem_mem hi
      show _ = some (os[i].nnum full)
      rw [nnum_full (hmg.valid _ ho) full (hfull _ ho), hmg.single _ ho, viewCode_length, ← two_pow_eight]
      rfl
    · rw [List.getElem?_eq_none (by simpa [hlen] using hi), List.getElem?_eq_none (by simpa using hi)]
  have hview : viewCode (2 ^ (3 * full)) code (images.map e) = (images.map fun im => viewCode (2 ^ (3 * full)) code [e im]).flatten :=
    viewCode_map _ _ e images
  have key : ∀ (i : Nat) o im, os[i]? = some o → images[i]? = some im →
      Both (fun p q => Rel i (ht os true depth) cout p.deconv q.deconv ∧ AllRel (depth + 1 - full) (fun j => Rel i (ht os false (full + j)) 2) p.logits q.logits)
      (image2shape P code cout depth full (fun l => .ok (l.map e)) device images (some o') false)
      (image2shape P code cout depth full (fun l => .ok (l.map e)) device [im] (some o) false) := by
    intro i o im ho hi
    have L := layers_batch hP hm ho
    have := L.aeDecoder (cfg := i2sCfg code) (cout := cout) hf hfd hd9 ⟨Nat.zero_le _, hD⟩ (fun _ _ _ => bnOk_eval hP _)
      (rel_batch hxl (i := i) (x := viewCode (2 ^ (3 * full)) code [e im]) (by rw [List.getElem?_map, hi]; rfl))
    unfold image2shape
    show Both _ (aeDecoder P (i2sCfg code) cout depth full false ⟨code, viewCode (2 ^ (3 * full)) code (images.map e)⟩ o') _
    rw [hview]
    exact this.mono fun p q h => h.2.2
  have h0 : 0 < os.length := List.length_pos_iff.2 hmg.nonempty
  obtain ⟨p, -, hp, -⟩ := key 0 os[0] (images[0]'(by omega)) (List.getElem?_eq_getElem h0) (List.getElem?_eq_getElem (by omega))
  obtain ⟨sts, hs⟩ : ∃ sts, (os.zip images).mapM (fun p => image2shape P code cout depth full (fun l => .ok (l.map e)) device [p.2] (some p.1) false) = .ok sts := by
    suffices h : _ from (mapM_exists _ (fun _ _ => True) (os.zip images) h).imp fun _ h => h.1
    intro q hq
    obtain ⟨i, hi⟩ := List.mem_iff_getElem?.1 hq
    obtain ⟨h1, h2⟩ := List.getElem?_zip_eq_some.1 hi
    obtain ⟨_, b, -, hb, -⟩ := key i q.1 q.2 h1 h2
    exact ⟨b, hb, trivial⟩
  obtain ⟨hsl, hsg⟩ := mapM_ok_get hs
  have hsl' : sts.length = os.length := by rw [hsl, List.length_zip]; omega
  obtain ⟨c1, c2⟩ := concat_states (p := p) (os := os) (sts := sts) (cout := cout) (depth := depth) (full := full) (N := depth + 1 - full)
    (by intro h; rw [h] at hsl'; simp at hsl'; omega) hsl'.symm (by
      intro i st hi
      obtain ⟨q, hq, hst⟩ := hsg i st hi
      obtain ⟨h1, h2⟩ := List.getElem?_zip_eq_some.1 hq
      obtain ⟨a, b, e1, e2, hab⟩ := key i q.1 q.2 h1 h2
      rw [hp] at e1
      cases e1
      rw [hst] at e2
      cases e2
      exact hab)
  exact ⟨p, sts, hp, hs, c1, fun d h1 h2 => c2 (d - full) (by omega)⟩

/-- **C92** (partial, see C91) In evaluation mode, with an encoder that treats the images one by one: the octree generated from a batch of images is the merge of the octrees generated from
the single images, if for every image every layer has a node that is predicted to have children. -/
theorem C92_generates_batch_partial (P : Params) (hP : P.training = false) (code cout : Nat) (hcode : CodeOk code) {depth full : Nat} (hf : 1 ≤ full) (hfd : full ≤ depth)
    (hd9 : depth ≤ 9) (e : I → Fin (2 ^ (3 * full) * code) → ℚ) (device : Nat) (images : List I) (hne : images ≠ []) (hB : images.length ≤ 2 ^ 15)
    (sts : List (AeState F)) (hs : images.mapM (fun im => image2shape P code cout depth full (fun l => .ok (l.map e)) device [im] none true) = .ok sts)
    (hpos : ∀ st ∈ sts, SplitsEverywhere st) :
    ∃ st o', image2shape P code cout depth full (fun l => .ok (l.map e)) device images none true = .ok st ∧ Octree.merge (sts.map AeState.octree) = .ok o' ∧
      SameOctree st.octree o' depth ∧ st.octree.batchSize = images.length ∧ st.octree.depth = depth ∧
      Concatenated cout st.deconv (sts.map AeState.deconv) ∧ st.logits.length = depth + 1 - full ∧
      ∀ d, full ≤ d → d ≤ depth → ∃ l ls, st.logits[d - full]? = some l ∧ sts.map (fun st => st.logits[d - full]?) = ls.map some ∧ Concatenated 2 l ls := by
  haveI := i2s_ok hcode
  have hview : viewCode (2 ^ (3 * full)) code (images.map e) = (images.map fun im => viewCode (2 ^ (3 * full)) code [e im]).flatten :=
    viewCode_map _ _ e images
  have := C91_decode_batch_partial P hP (i2sCfg code) cout (dev := device) hf hfd hd9 (images.map fun im => viewCode (2 ^ (3 * full)) code [e im])
    (by simpa using hne) (by simpa using hB) (by
      intro x hx
      obtain ⟨im, -, rfl⟩ := List.mem_map.1 hx
      rw [viewCode_length, ← two_pow_eight]
      simp) sts (by rw [List.mapM_map]; exact hs) hpos
  rw [← hview, List.length_map] at this
  exact this

/-- **C92** Zero training error means a right reconstruction: if in the training pass on the octree built from points with normals all accuracies are 1 and the regression
loss is 0, then the evaluation pass, which sees only the images, returns for every image one oriented point for every finest cell occupied by points of its sample. -/
theorem C92_perfect {k : Nat} {L : Type} (P : Params) (nll : (Fin 2 → ℚ) → Bool → ℚ) (nrm : V3 ℚ → V3 ℚ) (divF : ℚ → (Fin k → ℚ) → (Fin k → ℚ)) (o : Octree (Fin k → ℚ))
    (pc : Points ℚ (Fin k → ℚ) L) (samples : List Nat) (h : LegalBuild o pc samples) (hne : pc.points ≠ []) (hnorm : pc.normals ≠ none) {full : Nat} (hf : 1 ≤ full)
    (hfull : full ≤ o.fullDepth) (hd9 : o.depth ≤ 9) (code : Nat) (hcode : CodeOk code) (enc : List I → M (List (Fin (2 ^ (3 * full) * code) → ℚ))) (device : Nat)
    (images : List I) (rows : List (Fin (2 ^ (3 * full) * code) → ℚ)) (henc : enc images = .ok rows) (hrows : rows.length = images.length)
    (hB : images.length = o.batchSize) :
    ∃ o' idx t L, Octree.build nrm divF o pc = .ok (o', idx) ∧ o'.constructAllNeigh = .ok t ∧
      i2sForward P nll code 4 o.depth full enc device images t = .ok L ∧
      ((∀ a ∈ L.accu, a = 1) → L.reg = 0 → ∃ clouds, i2sEval (Fin k → ℚ) P nrm code o.depth full enc device images = .ok clouds ∧ clouds.length = images.length ∧
        ∀ b < images.length, ∃ cs : List Cell, cs.Nodup ∧ (∀ c, c ∈ cs ↔ c.b = b ∧ Occupied pc.points samples o.depth c) ∧
          clouds[b]? = some (cs.map fun c =>
            let n := nrm (sumIn o.depth c (pc.points.zip samples) (pc.normals.getD []))
            orientedPoint o.depth c (nrm n) (dot3 (offsetIn o.depth c (meanPoint o.depth c pc.points samples)) n))) := by
  obtain ⟨o', idx, t, b1, c2, wt, hdep, htb, hB1, hft, hpos, hn, core⟩ := perfect_core nll nrm divF o pc samples h hne hnorm hf hfull
  have hfd := le_trans hfull h.full
  obtain ⟨st, h1, f2⟩ := C92_teacher_forcing P code 4 hcode hf hfd hd9 enc device images rows henc hrows wt hdep hft (by omega) hpos hn (by omega)
  obtain ⟨st1, h1', -, h3, h4, h5⟩ := C92_shapes P code 4 hcode hf hfd hd9 enc device images rows henc hrows wt hft hn (by omega)
  rw [h1] at h1'
  cases h1'
  obtain ⟨L, e1, e2⟩ := core st (image2shape P code 4 o.depth full enc device images none true) h3 h4 h5 (by
    intro st' hst'
    obtain ⟨st'', g1, g2, -⟩ := C92_generates (F := Fin k → ℚ) P code 4 hcode hf hfd hd9 enc device images rows henc hrows none
      (by intro e; rw [e] at hB; simp at hB; omega) (by rw [hB, ← htb]; exact wt.batch_le)
    rw [g1] at hst'
    cases hst'
    exact g2) f2
  rw [hB]
  refine ⟨o', idx, t, L, b1, c2, ?_, e2⟩
  unfold i2sForward
  rw [h1]
  exact e1

/-- The hypotheses of C92 are met: three images, an octree with three samples of depth 5, full depth 2. -/
example (P : Params) : ∃ (o : Octree ℚ), o.Valid 5 ∧ 2 ≤ o.fullDepth ∧ o.batchSize = 3 ∧ (∀ d, 1 ≤ d → d ≤ 5 → NeighExact o.batchSize d o.keys o.neighs) ∧
    (∃ st, image2shape P 32 4 5 2 (fun l => .ok (l.map fun (q : ℚ) i => q + i)) 0 [1, 2, 3] (some o) false = .ok st ∧ st.octree = o) ∧
    image2shape P 32 4 5 2 (fun l => .ok (l.map fun (q : ℚ) i => q + i)) 0 [1, 2] (some o) false = .error .assertion := by
  obtain ⟨st, y, h1, h2, h3, h4, h5, h6, h7, h8, h9, h10, h11⟩ := ae_decode (F := ℚ) (biasNet fun j => j) aeCfg 4 (dev := 0) (depth := 5) (full := 2) (B := 3) (by decide) (by decide)
    (by decide) (by decide) (by decide) (List.replicate 192 1) (by rw [List.length_replicate]; rfl)
  have hc : CodeOk 32 := by unfold CodeOk; decide
  refine ⟨st.octree, h2, by omega, h5, fun d _ h => h6 d h, ?_, ?_⟩
  · obtain ⟨s, e1, e2, -⟩ := C92_shapes P 32 4 hc (full := 2) (by decide) (by decide) (by decide) (fun l => .ok (l.map fun (q : ℚ) i => q + i)) 0 [1, 2, 3] _ rfl (by simp) h2 (by omega)
      (fun d _ h => h6 d h) (by rw [h5]; rfl)
    exact ⟨s, e1, e2⟩
  · exact C92_wrong_batch P 32 4 hc (full := 2) (by decide) (by decide) (by decide) (fun l => .ok (l.map fun (q : ℚ) i => q + i)) 0 [1, 2] _ rfl (by simp) h2 (by omega)
      (fun d _ h => h6 d h) (by rw [h5]; decide)

end Ocnn
