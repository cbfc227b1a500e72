import Verif.PipelineLemmas

/-! C95: what the segmentation and classification programs predict for a sample does not depend on the batch it is in. -/

set_option linter.unusedSimpArgs false

namespace Ocnn
open Spec

variable {L : Type} {k : Nat}

namespace Spec

/-- The clouds have what the feature string asks for, and the network is configured for that number of channels. -/
structure FeatureOk (fl : ModelFlags) (pcs : List (Points ℚ (Fin k → ℚ) L)) : Prop where
  some : AsksSome fl.feature
  normals : Asks fl.feature 'N' 'n' ∨ Asks fl.feature 'D' 'd' → ∀ pc ∈ pcs, pc.normals ≠ none
  features : Asks fl.feature 'F' 'f' → ∀ pc ∈ pcs, pc.features ≠ none
  channel : fl.channel = channelCount fl.feature k
  width : WidthOk fl.channel

/-- The network fits to octrees of depth `D`.  `leaves d` says that the octrees have no empty nodes at depth `d`; SegNet with `nempty=True` needs this
at its bottleneck, see C78. -/
def SegNetworkOk (fl : ModelFlags) (D : Nat) (leaves : Nat → Prop) : Prop :=
  (fl.name.toLower = "unet" ∧ 4 < D) ∨
  (fl.name.toLower = "segnet" ∧ 1 ≤ fl.stages ∧ fl.stages < D ∧ (fl.nempty = true → leaves (D - fl.stages)))

/-- The network fits to octrees of depth `D`. -/
def ClsNetworkOk (fl : ModelFlags) (D : Nat) : Prop :=
  (fl.name.toLower = "lenet" ∧ 1 ≤ fl.stages ∧ D = fl.stages + 2) ∨
  (fl.name.toLower = "resnet" ∧ 1 ≤ fl.stages ∧ 1 ≤ fl.resblockNum ∧ fl.stages ≤ D) ∨
  (fl.name.toLower = "hrnet" ∧ 1 ≤ fl.stages ∧ min fl.stages 4 + 2 ≤ D)

end Spec

/-! ### helpers -/

theorem ofRows_flatten (c : Nat) (xs : List (List (List ℚ))) (h : ∀ x ∈ xs, ∀ r ∈ x, r.length = c) :
    Tensor.ofRows c xs.flatten = .ok ⟨c, (xs.map fun x => x.map fun r i => r.getD i 0).flatten⟩ := by
  unfold Tensor.ofRows
  rw [if_pos]
  · rw [List.map_flatten]
  · intro r hr
    obtain ⟨x, hx, hr⟩ := List.mem_flatten.1 hr
    exact h x hx r hr

theorem query_batch (pcs : List (Points ℚ (Fin k → ℚ) L)) (q : Points ℚ (Fin k → ℚ) L) (h1 : q.points = (pcs.map fun p => p.points).flatten)
    (h2 : q.batchId = some ((pcs.zipIdx.map fun p => List.replicate p.1.npt (p.2 : Int)).flatten)) :
    queryPoints q = .ok (batchPoints (pcs.map fun p => p.points)) := by
  unfold queryPoints
  rw [h2]
  simp only [need, bind, Except.bind]
  have e : ∀ (n : Nat) (l : List (Points ℚ (Fin k → ℚ) L)),
      (l.map fun p => p.points).flatten.length = ((l.zipIdx n).map fun p => List.replicate p.1.npt (p.2 : Int)).flatten.length ∧
      List.zipWith (fun v (b : Int) => (v, (b : ℚ))) (l.map fun p => p.points).flatten
        ((l.zipIdx n).map fun p => List.replicate p.1.npt (p.2 : Int)).flatten =
      (((l.map fun p => p.points).zipIdx n).map fun q => q.1.map fun p => (p, (q.2 : ℚ))).flatten := by
    intro n l
    induction l generalizing n with
    | nil => exact ⟨rfl, rfl⟩
    | cons p ps ih =>
      obtain ⟨i1, i2⟩ := ih (n + 1)
      simp only [List.map_cons, List.flatten_cons, List.zipIdx_cons, List.length_append, List.length_replicate]
      refine ⟨by rw [i1]; rfl, ?_⟩
      rw [List.zipWith_append (by simp [Points.npt]), i2]
      congr 1
      apply List.ext_getElem?
      intro i
      rw [List.getElem?_zipWith, List.getElem?_map, List.getElem?_replicate]
      by_cases hi : i < p.points.length
      · rw [List.getElem?_eq_getElem hi, if_pos (show i < p.npt from hi)]
        simp
      · rw [List.getElem?_eq_none (by omega)]
        rfl
  obtain ⟨e1, e2⟩ := e 0 pcs
  rw [h1, if_pos e1, e2]
  rfl

theorem points_merged {pcs : List (Points ℚ (Fin k → ℚ) L)} {dev : Nat} (h : LegalBatch pcs dev) (hl : ∀ pc ∈ pcs, pc.labels ≠ none) :
    ∃ (q : Points ℚ (Fin k → ℚ) L) (ls : List (List L)), Points.merge pcs true = .ok q ∧ q.points = (pcs.map fun p => p.points).flatten ∧
      q.batchId = some ((pcs.zipIdx.map fun p => List.replicate p.1.npt (p.2 : Int)).flatten) ∧
      pcs.map (fun p => p.labels) = ls.map some ∧ q.labels = some ls.flatten ∧ q.batchNpt = some (pcs.map Points.npt) := by
  obtain ⟨ls, hls⟩ : ∃ ts : List (List L), pcs.map (fun p => p.labels) = ts.map some := by
    rcases attr_cases pcs (fun p => p.labels) (fun p hp q hq => (h.same p hp q hq).2.2) with h' | h'
    · exact h'
    · obtain ⟨p, ps, rfl⟩ := List.exists_cons_of_ne_nil h.nonempty
      exact absurd (h' p (by simp)) (hl p (by simp))
  obtain ⟨p0, rest, e⟩ := List.exists_cons_of_ne_nil h.nonempty
  have h0 : p0 ∈ pcs := by rw [e]; simp
  obtain ⟨rn, n1, n2⟩ := mergeAttr_ok p0 _ h0 (fun p => p.normals) (fun p hp q hq => (h.same p hp q hq).1)
  obtain ⟨rf, f1, f2⟩ := mergeAttr_ok p0 _ h0 (fun p => p.features) (fun p hp q hq => (h.same p hp q hq).2.1)
  obtain ⟨rl, l1, l2, -⟩ := mergeAttr_ok p0 _ h0 (fun p => p.labels) (fun p hp q hq => (h.same p hp q hq).2.2)
  have : Points.merge pcs true = .ok ⟨(pcs.map fun p => p.points).flatten, rn, rf, rl,
      some ((pcs.zipIdx.map fun p => List.replicate p.1.npt (p.2 : Int)).flatten), pcs.length, some (pcs.map Points.npt), p0.device⟩ := by
    subst e
    unfold Points.merge
    simp only [n1, f1, l1, bind, Except.bind, pure, Except.pure, if_true]
  exact ⟨_, ls, this, rfl, rfl, hls, l2 ls hls, rfl⟩

/-- a batch of one sample -/
theorem LegalBatch.one {F : Type} {pcs : List (Points ℚ F L)} {dev : Nat} (h : LegalBatch pcs dev) (pc : Points ℚ F L) (hp : pc ∈ pcs) :
    LegalBatch [pc] dev := by
  refine ⟨by simp, by simp, ?_, ?_, ?_, ?_, ?_⟩
  · simpa using h.aligned pc hp
  · intro p hp' q hq
    simp only [List.mem_cons, List.not_mem_nil, or_false] at hp' hq
    subst hp'; subst hq
    exact ⟨rfl, rfl, rfl⟩
  · simpa using h.inCube pc hp
  · simpa using h.device pc hp
  · simpa using h.single pc hp

section run
variable (P : Params) (hP : P.training = false) (fl : ModelFlags) (nrm : V3 ℚ → V3 ℚ) (divF : ℚ → (Fin k → ℚ) → (Fin k → ℚ)) (D : Nat)
include hP

theorem seg_independent {os : List (Octree (Fin k → ℚ))} {o' : Octree (Fin k → ℚ)} (hm : MergedBatch os o' D)
    (hc : WidthOk fl.channel) (hn : SegNetworkOk fl D fun d => ∀ o ∈ os, o.nnumNempty d = o.nnum d)
    (pss : List (List (V3 ℚ))) (hps : pss.length = os.length) (xs : List (List (Fin fl.channel → ℚ)))
    (hx : xs.map List.length = os.map fun o => height o fl.nempty D) :
    Independent (c' := fl.nout) os xs (pss.map List.length) (segModel P fl o' D (batchPoints pss) ⟨fl.channel, xs.flatten⟩)
      (fun i o x => segModel P fl o D (samplePoints (pss.getD i [])) ⟨fl.channel, x⟩) := by
  unfold segModel
  rcases hn with ⟨h1, h2⟩ | ⟨h1, h2, h3, h4⟩
  · simp only [h1, show ¬ ("unet" = "segnet") by decide, if_false, if_true]
    exact C86_unet P hP hm unetConfig unetConfig_ok D h2 (le_refl _) _ _ hc fl.nempty fl.interp pss hps xs hx
  · simp only [h1, if_true]
    exact C86_segnet P hP hm D fl.stages h2 h3 (le_refl _) _ _ hc fl.nempty h4 fl.interp pss hps xs hx

theorem cls_independent {os : List (Octree (Fin k → ℚ))} {o' : Octree (Fin k → ℚ)} (hm : MergedBatch os o' D)
    (hc : WidthOk fl.channel) (hn : ClsNetworkOk fl D) (xs : List (List (Fin fl.channel → ℚ)))
    (hx : xs.map List.length = os.map fun o => height o fl.nempty D) :
    Independent (c' := fl.nout) os xs (os.map fun _ => 1) (clsModel P fl o' D ⟨fl.channel, xs.flatten⟩)
      (fun _ o x => clsModel P fl o D ⟨fl.channel, x⟩) := by
  unfold clsModel
  rcases hn with ⟨h1, h2, h3⟩ | ⟨h1, h2, h3, h4⟩ | ⟨h1, h2, h3⟩
  · simp only [h1, if_true]
    subst h3
    exact C86_lenet P hP hm fl.stages h2 (le_refl _) _ _ hc fl.nempty xs hx
  · simp only [h1, show ¬ ("resnet" = "lenet") by decide, if_false, if_true]
    exact C86_resnet P hP hm D fl.stages fl.resblockNum h2 h3 h4 (le_refl _) _ _ hc fl.nempty xs hx
  · simp only [h1, show ¬ ("hrnet" = "lenet") by decide, show ¬ ("hrnet" = "resnet") by decide, if_false, if_true]
    exact C86_hrnet P hP hm D fl.stages h2 h3 (le_refl _) _ _ hc fl.nempty xs hx

/-- what a batch gives, in terms of the octrees of the samples -/
theorem seg_run (full dev : Nat) (T : Points ℚ (Fin k → ℚ) Int → Octree (Fin k → ℚ)) (pcs : List (Points ℚ (Fin k → ℚ) Int))
    (h : LegalBatch pcs dev) (hl : ∀ pc ∈ pcs, pc.labels ≠ none) (hfe : FeatureOk fl pcs)
    (hn : SegNetworkOk fl D fun d => ∀ pc ∈ pcs, (T pc).nnumNempty d = (T pc).nnum d) (hT : ∀ pc ∈ pcs, SampleOctree pc D full (T pc))
    (o' : Octree (Fin k → ℚ)) (hb : batchOctree nrm divF D full pcs = .ok o') (hm : MergedBatch (pcs.map T) o' D) (hd : o'.depth = D) :
    ∃ (ys : List (List (Fin fl.nout → ℚ))) (ls : List (List Int)), pcs.map (fun p => p.labels) = ls.map some ∧
      segStep P fl nrm divF D full pcs = .ok
        (⟨fl.nout, (List.zipWith (fun l y => maskSel (l.map fun v => decide (v > fl.mask)) y) ls ys).flatten⟩,
          (ls.map fun l => l.filter fun v => decide (v > fl.mask)).flatten) ∧
      ys.length = pcs.length ∧ ∀ (i : Nat) pc, pcs[i]? = some pc → ∃ y x, ys[i]? = some y ∧ y.length = pc.points.length ∧
        (T pc).inputFeature fl.feature fl.nempty = .ok x ∧
        segModel P fl (T pc) D (samplePoints pc.points) ⟨fl.channel, x.map fun r i => r.getD i 0⟩ = .ok ⟨fl.nout, y⟩ := by
  obtain ⟨q, ls, q1, q2, q3, q4, q5, -⟩ := points_merged h hl
  obtain ⟨xs, x1, x2, x3, x4⟩ := input_batch hm fl.feature hfe.some fl.nempty (by
    intro o ho
    obtain ⟨pc, hp, rfl⟩ := List.mem_map.1 ho
    exact (hT pc hp).rows fl.feature (fun e => hfe.normals e pc hp) (fun e => hfe.features e pc hp))
  rw [← hfe.channel] at x4
  obtain ⟨ys, y1, y2, y3, y4⟩ := seg_independent P hP fl D hm hfe.width (by
    rcases hn with hn | ⟨a, b, c, d⟩
    · exact .inl hn
    · refine .inr ⟨a, b, c, fun e o ho => ?_⟩
      obtain ⟨pc, hp, rfl⟩ := List.mem_map.1 ho
      exact d e pc hp) (pcs.map fun p => p.points) (by simp) (xs.map fun x => x.map fun r i => r.getD i 0) (by
      rw [← x1, List.map_map]
      exact List.map_congr_left fun x _ => by simp)
  have hll : ls.map List.length = ys.map List.length := by
    rw [y2]
    exact attr_length (fun p => p.labels) (fun pc hp => (h.aligned pc hp).labels) ls q4
  have hfl : (ls.map fun l => l.map fun v => decide (v > fl.mask)).map List.length = ys.map List.length := by
    rw [← hll, List.map_map]
    exact List.map_congr_left fun l _ => by simp
  refine ⟨ys, ls, q4, ?_, by rw [y3, List.length_map], fun i pc hi => ?_⟩
  · unfold segStep processBatch
    rw [hb]
    simp only [bind, Except.bind, q1, pure, Except.pure]
    unfold segForward inputTensor
    simp only [bind, Except.bind, x3, ofRows_flatten _ xs x4, query_batch pcs q q2 q3, hd, y1, q5, need, pure, Except.pure]
    have hmap : ls.flatten.map (fun v => decide (v > fl.mask)) = (ls.map fun l => l.map fun v => decide (v > fl.mask)).flatten := by
      rw [List.map_flatten]
    have e1 : boolIndex (ls.flatten.map fun v => decide (v > fl.mask)) ys.flatten =
        .ok (List.zipWith (fun l y => maskSel (l.map fun v => decide (v > fl.mask)) y) ls ys).flatten := by
      unfold boolIndex
      rw [hmap, if_pos (by rw [List.length_flatten, List.length_flatten, hfl]), maskSel_flatten' _ _ hfl, List.zipWith_map_left]
    have e2 : boolIndex (ls.flatten.map fun v => decide (v > fl.mask)) ls.flatten =
        .ok (ls.map fun l => l.filter fun v => decide (v > fl.mask)).flatten := by
      unfold boolIndex
      rw [if_pos (List.length_map _), maskSel_map_decide, List.filter_flatten]
    simp only [e1, e2]
  · have ho : (pcs.map T)[i]? = some (T pc) := by rw [List.getElem?_map, hi]; rfl
    obtain ⟨x, hx, hx'⟩ := x2 i _ ho
    obtain ⟨y, hy, hy'⟩ := y4 i (T pc) (x.map fun r i => r.getD i 0) ho (by rw [List.getElem?_map, hx]; rfl)
    have hp : (pcs.map fun p => p.points).getD i [] = pc.points := by
      rw [List.getD_eq_getElem?_getD, List.getElem?_map, hi]; rfl
    simp only [hp] at hy'
    refine ⟨y, x, hy, ?_, hx', hy'⟩
    have := congrArg (fun l => l[i]?) y2
    simp only [List.getElem?_map, hy, hi, Option.map_some, Option.some.injEq] at this
    exact this

end run

/-! ### C95 -/

/-- **C95** segmentation: in evaluation mode, the logits and labels that the solver computes for a batch of clouds (building the octrees, merging them,
constructing the neighbours, merging the clouds, computing the input features, running the network at the points, dropping the unlabelled points) are
those that it computes for the batches consisting of one cloud each, one after the other.  For every cloud there is one row of logits for each
point whose label is above `mask`, in the order of the points. -/
theorem C95_segmentation (P : Params) (hP : P.training = false) (fl : ModelFlags) (nrm : V3 ℚ → V3 ℚ) (divF : ℚ → (Fin k → ℚ) → (Fin k → ℚ))
    (D full dev : Nat) (hD : D ≤ 16) (hf1 : 1 ≤ full) (hf : full ≤ D) (pcs : List (Points ℚ (Fin k → ℚ) Int)) (h : LegalBatch pcs dev)
    (hl : ∀ pc ∈ pcs, pc.labels ≠ none) (hfe : FeatureOk fl pcs)
    (hn : SegNetworkOk fl D fun d => ∀ pc ∈ pcs, ∀ o idx, Octree.build nrm divF (Octree.new D full 1 0) pc = .ok (o, idx) → o.nnumNempty d = o.nnum d) :
    ∃ outs : List (List (Fin fl.nout → ℚ) × List Int), outs.length = pcs.length ∧
      segStep P fl nrm divF D full pcs = .ok (⟨fl.nout, (outs.map Prod.fst).flatten⟩, (outs.map Prod.snd).flatten) ∧
      ∀ (i : Nat) pc, pcs[i]? = some pc → ∃ out, outs[i]? = some out ∧ segStep P fl nrm divF D full [pc] = .ok (⟨fl.nout, out.1⟩, out.2) ∧
        out.1.length = out.2.length ∧ ∀ l, pc.labels = some l → out.2 = l.filter fun v => decide (fl.mask < v) := by
  obtain ⟨T, hT⟩ := batch_octree (L := Int) nrm divF D full dev hD hf1 hf
  have hn' : ∀ qs : List (Points ℚ (Fin k → ℚ) Int), (∀ q ∈ qs, q ∈ pcs) → SegNetworkOk fl D fun d => ∀ pc ∈ qs, (T pc).nnumNempty d = (T pc).nnum d := by
    intro qs hq
    rcases hn with hn | ⟨a, b, c, d⟩
    · exact .inl hn
    · refine .inr ⟨a, b, c, fun e pc hp => ?_⟩
      obtain ⟨-, o, idx, nb, h1, h2⟩ := (hT pcs h).1 pc (hq pc hp)
      rw [h2]
      exact d e pc (hq pc hp) o idx h1
  obtain ⟨t1, o', t2, t3, t4⟩ := hT pcs h
  obtain ⟨ys, ls, r1, r2, r3, r4⟩ := seg_run P hP fl nrm divF D full dev T pcs h hl hfe (hn' pcs fun _ h => h) (fun pc hp => (t1 pc hp).1) o' t2 t3 t4
  have hlen : ls.length = pcs.length := by simpa using (congrArg List.length r1).symm
  refine ⟨List.zipWith (fun l y => (maskSel (l.map fun v => decide (v > fl.mask)) y, l.filter fun v => decide (v > fl.mask))) ls ys, ?_, ?_, ?_⟩
  · rw [List.length_zipWith, hlen, r3, min_self]
  · rw [r2, List.map_zipWith, List.map_zipWith]
    congr 5
    apply List.ext_getElem?
    intro i
    rw [List.getElem?_zipWith, List.getElem?_map]
    by_cases hi : i < ls.length
    · rw [List.getElem?_eq_getElem hi, List.getElem?_eq_getElem (show i < ys.length by omega)]; rfl
    · rw [List.getElem?_eq_none (by omega)]; rfl
  · intro i pc hi
    have hp := List.mem_of_getElem? hi
    obtain ⟨y, x, h1, h2, h3, h4⟩ := r4 i pc hi
    obtain ⟨l, g1, g2⟩ := attr_at (fun p : Points ℚ (Fin k → ℚ) Int => p.labels) ls r1 i pc hi
    have hone := h.one pc hp
    obtain ⟨u1, o₁, u2, u3, u4⟩ := hT [pc] hone
    obtain ⟨ys₁, ls₁, s1, s2, s3, s4⟩ := seg_run P hP fl nrm divF D full dev T [pc] hone (by simpa using hl pc hp)
      ⟨hfe.some, fun e => by simpa using hfe.normals e pc hp, fun e => by simpa using hfe.features e pc hp, hfe.channel, hfe.width⟩
      (hn' [pc] (by simpa using hp)) (fun pc hp => (u1 pc hp).1) o₁ u2 u3 u4
    obtain ⟨y₁, x₁, k1, -, k3, k4⟩ := s4 0 pc rfl
    rw [h3] at k3
    cases k3
    rw [h4] at k4
    cases k4
    have el : ls₁ = [l] := by
      have : [l].map some = ls₁.map some := by rw [← s1]; simp [g2]
      exact ((List.map_injective_iff.mpr (Option.some_injective _)) this).symm
    have ey : ys₁ = [y] := by
      rw [List.length_singleton] at s3
      obtain ⟨a, rfl⟩ := List.length_eq_one_iff.1 s3
      simp only [List.getElem?_cons_zero, Option.some.injEq] at k1
      rw [k1]
    refine ⟨(maskSel (l.map fun v => decide (v > fl.mask)) y, l.filter fun v => decide (v > fl.mask)), ?_, ?_, ?_, ?_⟩
    · rw [List.getElem?_zipWith, g1, h1]
    · rw [s2, el, ey]
      simp
    · have : l.length = y.length := by rw [h2]; exact (h.aligned pc hp).labels l g2
      rw [maskSel_length _ _ (by rw [List.length_map, this]), ← maskSel_length _ l (by rw [List.length_map]), maskSel_map_decide]
    · intro l' hl'
      rw [hl'] at g2
      cases g2
      rfl

/-- **C95** classification: in evaluation mode, row `i` of the logits that the solver computes for a batch of clouds is the only row of the logits that it
computes for the batch consisting of cloud `i`. -/
theorem C95_classification (P : Params) (hP : P.training = false) (fl : ModelFlags) (nrm : V3 ℚ → V3 ℚ) (divF : ℚ → (Fin k → ℚ) → (Fin k → ℚ))
    (D full dev : Nat) (hD : D ≤ 16) (hf1 : 1 ≤ full) (hf : full ≤ D) (pcs : List (Points ℚ (Fin k → ℚ) L)) (h : LegalBatch pcs dev)
    (hfe : FeatureOk fl pcs) (hn : ClsNetworkOk fl D) :
    ∃ rows : List (Fin fl.nout → ℚ), rows.length = pcs.length ∧ clsStep P fl nrm divF D full pcs = .ok ⟨fl.nout, rows⟩ ∧
      ∀ (i : Nat) pc, pcs[i]? = some pc → ∃ row, rows[i]? = some row ∧ clsStep P fl nrm divF D full [pc] = .ok ⟨fl.nout, [row]⟩ := by
  obtain ⟨T, hT⟩ := batch_octree (L := L) nrm divF D full dev hD hf1 hf
  have run : ∀ qs : List (Points ℚ (Fin k → ℚ) L), LegalBatch qs dev → (∀ q ∈ qs, q ∈ pcs) →
      ∃ rows : List (Fin fl.nout → ℚ), rows.length = qs.length ∧ clsStep P fl nrm divF D full qs = .ok ⟨fl.nout, rows⟩ ∧
        ∀ (i : Nat) pc, qs[i]? = some pc → ∃ row x, rows[i]? = some row ∧ (T pc).inputFeature fl.feature fl.nempty = .ok x ∧
          clsModel P fl (T pc) D ⟨fl.channel, x.map fun r i => r.getD i 0⟩ = .ok ⟨fl.nout, [row]⟩ := by
    intro qs hq hsub
    obtain ⟨t1, o', t2, t3, t4⟩ := hT qs hq
    obtain ⟨xs, x1, x2, x3, x4⟩ := input_batch t3 fl.feature hfe.some fl.nempty (by
      intro o ho
      obtain ⟨pc, hp, rfl⟩ := List.mem_map.1 ho
      exact (t1 pc hp).1.rows fl.feature (fun e => hfe.normals e pc (hsub pc hp)) (fun e => hfe.features e pc (hsub pc hp)))
    rw [← hfe.channel] at x4
    obtain ⟨ys, y1, y2, y3, y4⟩ := cls_independent P hP fl D t3 hfe.width hn (xs.map fun x => x.map fun r i => r.getD i 0) (by
      rw [← x1, List.map_map]
      exact List.map_congr_left fun x _ => by simp)
    have hy1 : ∀ y ∈ ys, y.length = 1 := by
      intro y hy
      have : y.length ∈ ys.map List.length := List.mem_map_of_mem hy
      rw [y2] at this
      obtain ⟨_, -, e⟩ := List.mem_map.1 this
      exact e.symm
    have hflat : ∀ zs : List (List (Fin fl.nout → ℚ)), (∀ y ∈ zs, y.length = 1) → ∃ rows : List (Fin fl.nout → ℚ), zs = rows.map fun r => [r] := by
      intro zs hz
      induction zs with
      | nil => exact ⟨[], rfl⟩
      | cons z zs ih =>
        obtain ⟨rows, rfl⟩ := ih fun y hy => hz y (List.mem_cons_of_mem _ hy)
        obtain ⟨a, rfl⟩ := List.length_eq_one_iff.1 (hz z (by simp))
        exact ⟨a :: rows, rfl⟩
    obtain ⟨rows, rfl⟩ := hflat ys hy1
    have hfs : (rows.map fun r => [r]).flatten = rows := by rw [← List.flatMap_def]; exact List.flatMap_singleton' rows
    rw [hfs] at y1
    refine ⟨rows, by simpa using y3, ?_, fun i pc hi => ?_⟩
    · unfold clsStep
      rw [t2]
      unfold inputTensor
      simp only [bind, Except.bind, x3, ofRows_flatten _ xs x4, t4]
      exact y1
    · have ho : (qs.map T)[i]? = some (T pc) := by rw [List.getElem?_map, hi]; rfl
      obtain ⟨x, hx, hx'⟩ := x2 i _ ho
      obtain ⟨y, hy, hy'⟩ := y4 i (T pc) (x.map fun r i => r.getD i 0) ho (by rw [List.getElem?_map, hx]; rfl)
      rw [List.getElem?_map] at hy
      cases hr : rows[i]? with
      | none => rw [hr] at hy; cases hy
      | some row =>
        rw [hr] at hy
        cases hy
        exact ⟨row, x, rfl, hx', hy'⟩
  obtain ⟨rows, r1, r2, r3⟩ := run pcs h fun _ h => h
  refine ⟨rows, r1, r2, fun i pc hi => ?_⟩
  have hp := List.mem_of_getElem? hi
  obtain ⟨row, x, h1, h2, h3⟩ := r3 i pc hi
  obtain ⟨rows₁, s1, s2, s3⟩ := run [pc] (h.one pc hp) (by simpa using hp)
  obtain ⟨row₁, x₁, k1, k2, k3⟩ := s3 0 pc rfl
  rw [h2] at k2
  cases k2
  rw [h3] at k3
  cases k3
  rw [List.length_singleton] at s1
  obtain ⟨a, rfl⟩ := List.length_eq_one_iff.1 s1
  simp only [List.getElem?_cons_zero, Option.some.injEq] at k1
  subst k1
  exact ⟨a, h1, s2⟩

/-! ### concrete cases -/

/-- Two clouds with normals and labels; the label -1 marks points without label. -/
def cloudP (s : ℚ) : Points ℚ (Fin 1 → ℚ) Int :=
  ⟨[⟨-1 / 2 + s, 1 / 3, 0⟩, ⟨-1 / 4 + s, -1 / 3, 2 / 3⟩], some [⟨1, 0, 0⟩, ⟨0, 1, 0⟩], none, some [-1, 3], none, 1, none, 0⟩

theorem cloudP_legal : LegalBatch [cloudP 0, cloudP 1] 0 := by
  refine ⟨by simp, by simp, ?_, ?_, ?_, ?_, ?_⟩
  · intro p hp
    simp only [List.mem_cons, List.not_mem_nil, or_false] at hp
    rcases hp with rfl | rfl <;> exact ⟨by simp [cloudP], by simp [cloudP], by simp [cloudP], by simp [cloudP]⟩
  · intro p hp q hq
    simp only [List.mem_cons, List.not_mem_nil, or_false] at hp hq
    rcases hp with rfl | rfl <;> rcases hq with rfl | rfl <;> simp [cloudP]
  · intro p hp v hv
    simp only [List.mem_cons, List.not_mem_nil, or_false] at hp
    rcases hp with rfl | rfl <;> simp only [cloudP, List.mem_cons, List.not_mem_nil, or_false] at hv <;> rcases hv with rfl | rfl <;>
      norm_num [InCube]
  · intro p hp
    simp only [List.mem_cons, List.not_mem_nil, or_false] at hp
    rcases hp with rfl | rfl <;> rfl
  · intro p hp
    simp only [List.mem_cons, List.not_mem_nil, or_false] at hp
    rcases hp with rfl | rfl <;> rfl

theorem cloudP_features (name : String) (stages : Nat) (nempty : Bool) :
    FeatureOk ⟨name, 4, 10, stages, 3, "linear", nempty, "ND", -1⟩ [cloudP 0, cloudP 1] := by
  refine ⟨.inl (show Asks "ND" 'N' 'n' by decide +kernel), fun _ p hp => ?_, fun e => absurd e (show ¬ Asks "ND" 'F' 'f' by decide +kernel),
    show 4 = channelCount "ND" 1 by decide +kernel, show 27 * 4 ≤ 200000000 by decide⟩
  simp only [List.mem_cons, List.not_mem_nil, or_false] at hp
  rcases hp with rfl | rfl <;> simp [cloudP]

example (P : Params) (hP : P.training = false) (nrm : V3 ℚ → V3 ℚ) (divF : ℚ → (Fin 1 → ℚ) → (Fin 1 → ℚ)) (nempty : Bool) :
    ∃ outs : List (List (Fin 10 → ℚ) × List Int), outs.length = 2 ∧
      segStep P ⟨"UNet", 4, 10, 0, 3, "linear", nempty, "ND", -1⟩ nrm divF 6 2 [cloudP 0, cloudP 1] =
        .ok (⟨10, (outs.map Prod.fst).flatten⟩, (outs.map Prod.snd).flatten) ∧
      ∀ (i : Nat) pc, [cloudP 0, cloudP 1][i]? = some pc → ∃ out, outs[i]? = some out ∧
        segStep P ⟨"UNet", 4, 10, 0, 3, "linear", nempty, "ND", -1⟩ nrm divF 6 2 [pc] = .ok (⟨10, out.1⟩, out.2) ∧
        out.1.length = out.2.length ∧ ∀ l, pc.labels = some l → out.2 = l.filter fun v => decide (-1 < v) :=
  C95_segmentation P hP ⟨"UNet", 4, 10, 0, 3, "linear", nempty, "ND", -1⟩ nrm divF 6 2 0 (by decide) (by decide) (by decide) _ cloudP_legal
    (by simp [cloudP]) (cloudP_features _ _ _) (.inl ⟨show "UNet".toLower = "unet" by decide +kernel, by decide⟩)

example (P : Params) (hP : P.training = false) (nrm : V3 ℚ → V3 ℚ) (divF : ℚ → (Fin 1 → ℚ) → (Fin 1 → ℚ)) :
    ∃ outs : List (List (Fin 10 → ℚ) × List Int), outs.length = 2 ∧
      segStep P ⟨"SegNet", 4, 10, 4, 3, "linear", false, "ND", -1⟩ nrm divF 6 2 [cloudP 0, cloudP 1] =
        .ok (⟨10, (outs.map Prod.fst).flatten⟩, (outs.map Prod.snd).flatten) ∧
      ∀ (i : Nat) pc, [cloudP 0, cloudP 1][i]? = some pc → ∃ out, outs[i]? = some out ∧
        segStep P ⟨"SegNet", 4, 10, 4, 3, "linear", false, "ND", -1⟩ nrm divF 6 2 [pc] = .ok (⟨10, out.1⟩, out.2) ∧
        out.1.length = out.2.length ∧ ∀ l, pc.labels = some l → out.2 = l.filter fun v => decide (-1 < v) :=
  C95_segmentation P hP ⟨"SegNet", 4, 10, 4, 3, "linear", false, "ND", -1⟩ nrm divF 6 2 0 (by decide) (by decide) (by decide) _ cloudP_legal
    (by simp [cloudP]) (cloudP_features _ _ _) (.inr ⟨by decide +kernel, by decide, by decide, fun h => absurd h (by decide)⟩)

example (P : Params) (hP : P.training = false) (nrm : V3 ℚ → V3 ℚ) (divF : ℚ → (Fin 1 → ℚ) → (Fin 1 → ℚ)) (nempty : Bool) (name : String)
    (hname : name = "LeNet" ∨ name = "ResNet" ∨ name = "HRNet") :
    ∃ rows : List (Fin 10 → ℚ), rows.length = 2 ∧
      clsStep P ⟨name, 4, 10, 3, 3, "linear", nempty, "ND", -1⟩ nrm divF 5 2 [cloudP 0, cloudP 1] = .ok ⟨10, rows⟩ ∧
      ∀ (i : Nat) pc, [cloudP 0, cloudP 1][i]? = some pc → ∃ row, rows[i]? = some row ∧
        clsStep P ⟨name, 4, 10, 3, 3, "linear", nempty, "ND", -1⟩ nrm divF 5 2 [pc] = .ok ⟨10, [row]⟩ :=
  C95_classification P hP ⟨name, 4, 10, 3, 3, "linear", nempty, "ND", -1⟩ nrm divF 5 2 0 (by decide) (by decide) (by decide) _ cloudP_legal
    (cloudP_features _ _ _) (by
      cases nempty <;> rcases hname with rfl | rfl | rfl
      · exact .inl ⟨by decide +kernel, by decide, by decide⟩
      · exact .inr (.inl ⟨by decide +kernel, by decide, by decide, by decide⟩)
      · exact .inr (.inr ⟨by decide +kernel, by decide, by decide⟩)
      · exact .inl ⟨by decide +kernel, by decide, by decide⟩
      · exact .inr (.inl ⟨by decide +kernel, by decide, by decide, by decide⟩)
      · exact .inr (.inr ⟨by decide +kernel, by decide, by decide⟩))

end Ocnn
