import Verif.OUNetProofs

/-! C158: the U-Net for completing shapes. -/

set_option linter.unusedSimpArgs false

namespace Ocnn
open Spec
variable {F : Type}

theorem aeCode_le {full code : Nat} (h : aeChannels[full]? = some code) : code ≤ 512 ∧ full ≤ 9 := by
  have hf : full ≤ 9 := by
    have := (List.getElem?_eq_some_iff.1 h).1
    simp [aeChannels] at this
    omega
  obtain ⟨c, h1, h2⟩ := aeChannels_get full hf
  rw [h] at h1
  cases h1
  exact ⟨h2, hf⟩

/-- The encoder on one octree. -/
theorem ouEncoder_run (P : Params) {i : Octree F} {h : Nat} (w : i.Valid h) {depth full : Nat} (hf : 1 ≤ full) (hfd : full ≤ depth) (hd9 : depth ≤ 9) (hD : depth ≤ h)
    (hn : ∀ d, 1 ≤ d → d ≤ depth → NeighExact i.batchSize d i.keys i.neighs) (cin : Nat) (hc : WidthOk cin) (x : List (Fin cin → ℚ)) (hx : x.length = i.nnum depth) :
    ∃ cv, ouEncoder P cin depth full i ⟨cin, x⟩ = .ok cv ∧ ConvsRel (batchSys P [i] 0) full depth cv cv := by
  have L := layers_single P w hD hn
  obtain ⟨a, b, h1, h2, hr⟩ := L.ouEncoder hf hfd hd9 ⟨Nat.zero_le _, le_refl _⟩ hc (fun d g1 g2 => bnOk_of w d (by omega) (by omega))
    (rel_self x (by simpa [rowsAt] using hx))
  rw [h1] at h2
  cases h2
  exact ⟨a, h1, hr⟩

/-- **C158 is violated**: the decoder starts with the features that the encoder computed at the full depth; their number of channels is never the number
`code_channel = 64` of channels for which `AutoEncoder.__init__` builds the decoder, so `forward` raises for every full depth (even if the constructor did not raise,
see `C79_ounet_violated`), on an octree and a ground truth of any shape. -/
theorem C158_violated (P : Params) {i : Octree F} {h : Nat} (w : i.Valid h) {depth full : Nat} (hf : 1 ≤ full) (hfd : full ≤ depth) (hd9 : depth ≤ 9) (hD : depth ≤ h)
    (hn : ∀ d, 1 ≤ d → d ≤ depth → NeighExact i.batchSize d i.keys i.neighs) (cin cout : Nat) (hc : WidthOk cin) (x : List (Fin cin → ℚ)) (hx : x.length = i.nnum depth)
    (o : Octree F) (update : Bool) : ouNet P 64 cin cout depth full i (some o) update ⟨cin, x⟩ = .error .shape := by
  obtain ⟨cv, h1, hr⟩ := ouEncoder_run P w hf hfd hd9 hD hn cin hc x hx
  obtain ⟨c, a, b, e, ha, -, hab⟩ := hr full (le_refl _) hfd
  have hne : c ≠ 64 := by
    rintro rfl
    have : ∀ f < 10, aeChannels[f]? ≠ some 64 := by decide
    exact this full (by omega) e
  obtain ⟨y, -, rfl, -⟩ := rel_single hab
  have hch : ((ouCfg 64).channels full)[full + 0]? = some 64 := by
    haveI : (ouCfg 64).Ok := ouCfg_ok (by norm_num)
    exact channels_full (ouCfg 64) full (by omega)
  have hlev : ouLevel P (ouCfg 64) full i cv o ⟨c, y⟩ 0 = .error .shape := by
    unfold ouLevel
    simp only [getIdx_some hch]
    unfold resBlocks resStep oneBlock resBlock bottleneckChannels conv1x1BnRelu conv1x1 linear Tensor.on Tensor.as
    simp [List.range_succ, hne, bind, Except.bind, pure, Except.pure, List.foldlM]
  unfold ouNet
  show (ouEncoder P cin depth full i ⟨cin, x⟩ >>= fun convs => ouDecoder P (ouCfg 64) cout depth full update convs i o) = _
  rw [h1]
  show ouDecoder P (ouCfg 64) cout depth full update cv i o = _
  unfold ouDecoder
  simp only [getConv_some ha]
  show levelDecoder _ P _ cout depth full update ⟨c, y⟩ o = _
  unfold levelDecoder
  rw [show depth + 1 - full = (depth - full) + 1 by omega, List.range_succ_eq_map, List.foldlM_cons]
  unfold levelStep
  simp only [hlev]
  rfl

/-- **C158** (partial: for a decoder that starts with as many channels as the encoder ends with, `hcode`) Completing an octree `i` along a given octree `o`: the result
has a logit pair for every octant of the *output* octree at every depth from the full depth on, and a signal for every non-empty octant of it at the finest depth;
the octrees need not share any octant below the full depth. -/
theorem C158_forward_partial (P : Params) {code full : Nat} (hcode : aeChannels[full]? = some code) {i o : Octree F} {h h' : Nat} (w : i.Valid h) (w' : o.Valid h')
    {depth : Nat} (hf : 1 ≤ full) (hfd : full ≤ depth) (hd9 : depth ≤ 9) (hD : depth ≤ h) (hD' : depth ≤ h') (hfull : full ≤ i.fullDepth) (hfull' : full ≤ o.fullDepth)
    (hB : i.batchSize = o.batchSize) (hn : ∀ d, 1 ≤ d → d ≤ depth → NeighExact i.batchSize d i.keys i.neighs)
    (hn' : ∀ d, 1 ≤ d → d ≤ depth → NeighExact o.batchSize d o.keys o.neighs) (hne : ∀ d, full < d → d ≤ depth → 0 < i.nnum d) (cin cout : Nat) (hc : WidthOk cin)
    (x : List (Fin cin → ℚ)) (hx : x.length = i.nnum depth) :
    ∃ st, ouNet P code cin cout depth full i (some o) false ⟨cin, x⟩ = .ok st ∧ st.octree = o ∧
      HasShape (.ok st.deconv) (o.nnumNempty depth) cout ∧ st.logits.length = depth + 1 - full ∧
      ∀ d, full ≤ d → d ≤ depth → ∃ l, st.logits[d - full]? = some l ∧ HasShape (.ok l) (o.nnum d) 2 := by
  have L := layers_single P w hD hn
  have L' := layers_single P w' hD' hn'
  have hnn : i.nnum full = o.nnum full := by rw [nnum_full w full hfull, nnum_full w' full hfull', hB]
  obtain ⟨p, q, h2, h2', ho, -, hr1, hl, -, hr2⟩ := L.ouNet L' (cin := cin) (cout := cout) hcode hf hfd hd9 ⟨Nat.zero_le _, le_refl _⟩ (Nat.zero_le _) hc
    (fun d g1 g2 => bnOk_of w d (by omega) (by omega)) (fun d g1 g2 => bnOk_of w' d (by omega) (by omega))
    (aligns_single P w w' hD hD' fun d g1 g2 => hne d (by omega) g2)
    (by
      intro c t s hts
      obtain ⟨y, hy, rfl, rfl⟩ := rel_single hts
      exact rel_self y (by simpa [rowsAt, hnn] using hy)) (rel_self x (by simpa [rowsAt] using hx))
  have epq : q = p := by
    rw [h2] at h2'
    exact (Except.ok.inj h2').symm
  subst epq
  refine ⟨q, h2, ho, ?_, hl, ?_⟩
  · obtain ⟨y, hy, e, -⟩ := rel_single hr1
    exact ⟨y, by rw [e], hy⟩
  · intro d hd1 hd2
    obtain ⟨a, b, e1, -, hr⟩ := hr2 (d - full) (by omega)
    rw [show full + (d - full) = d by omega] at hr
    obtain ⟨y, hy, e, -⟩ := rel_single hr
    exact ⟨a, e1, y, by rw [e], hy⟩

theorem enc_prefix (P : Params) (depth full e : Nat) (hfe : full ≤ e) (o : Octree F) (n : Nat) (hn : e + n ≤ depth) (t : Tensor) :
    (List.range n).foldlM (aeEncStep P depth full o) t = (List.range n).foldlM (aeEncStep P depth e o) t := by
  induction n with
  | zero => rfl
  | succ n ih =>
    rw [List.range_succ, List.foldlM_append, List.foldlM_append, ih (by omega)]
    congr 1
    funext t
    simp only [List.foldlM_cons, List.foldlM_nil]
    congr 1
    unfold aeEncStep
    dsimp only
    simp only [if_pos (show depth - n > full by omega), if_pos (show depth - n > e by omega)]

theorem enc_steps (P : Params) (depth full : Nat) (o : Octree F) (t0 : Tensor) (n : Nat) (hn : full + n ≤ depth) {cv : Nat → Option Tensor}
    (h : (List.range n).foldlM (ouEncStep P depth full o) (setConv (fun _ => none) depth t0) = .ok cv) :
    (∃ t, (List.range n).foldlM (aeEncStep P depth full o) t0 = .ok t ∧ cv (depth - n) = some t) ∧
      ∀ e, depth - n < e → e ≤ depth → ∃ t, cv e = some t ∧ (List.range (depth + 1 - e)).foldlM (aeEncStep P depth e o) t0 = .ok t := by
  induction n generalizing cv with
  | zero =>
    cases h
    exact ⟨⟨t0, rfl, by simp [setConv]⟩, fun e h1 h2 => absurd h1 (by omega)⟩
  | succ n ih =>
    rw [List.range_succ, List.foldlM_append] at h
    obtain ⟨cv1, h1, h⟩ := bind_ok h
    obtain ⟨⟨t, g1, g2⟩, g3⟩ := ih (by omega) h1
    simp only [List.foldlM_cons, List.foldlM_nil, bind_pure] at h
    unfold ouEncStep at h
    obtain ⟨c, hc, h⟩ := bind_ok h
    rw [getConv_some g2] at h
    obtain ⟨y, hy, h⟩ := bind_ok h
    cases hy
    obtain ⟨y, hy, h⟩ := bind_ok h
    dsimp only at h
    rw [if_pos (show depth - n > full by omega)] at h
    obtain ⟨c', hc', h⟩ := bind_ok h
    obtain ⟨z, hz, h⟩ := bind_ok h
    cases h
    refine ⟨⟨z, ?_, ?_⟩, ?_⟩
    · rw [List.range_succ, List.foldlM_append, g1]
      show List.foldlM (aeEncStep P depth full o) t [n] = _
      simp only [List.foldlM_cons, List.foldlM_nil, bind_pure]
      unfold aeEncStep
      dsimp only
      rw [hc]
      show (resBlocks P .block _ c c 2 4 false o (depth - n) t >>= _) = _
      rw [hy]
      show (if depth - n > full then _ else _) = _
      rw [if_pos (show depth - n > full by omega), hc']
      exact hz
    · simp [setConv, show depth - (n + 1) = depth - n - 1 by omega]
    · intro e h1 h2
      by_cases he : e = depth - n
      · subst he
        refine ⟨y, by simp [setConv, show depth - n ≠ depth - n - 1 by omega], ?_⟩
        rw [show depth + 1 - (depth - n) = n + 1 by omega, List.range_succ, List.foldlM_append, ← enc_prefix P depth full (depth - n) (by omega) o n (by omega), g1]
        show List.foldlM (aeEncStep P depth (depth - n) o) t [n] = _
        simp only [List.foldlM_cons, List.foldlM_nil, bind_pure]
        unfold aeEncStep
        dsimp only
        rw [hc]
        show (resBlocks P .block _ c c 2 4 false o (depth - n) t >>= _) = _
        rw [hy]
        show (if depth - n > depth - n then _ else _) = _
        rw [if_neg (by omega)]
        rfl
      · obtain ⟨te, k1, k2⟩ := g3 e (by omega) h2
        exact ⟨te, by simp [setConv, he, show e ≠ depth - n - 1 by omega, k1], k2⟩

/-- **C158** (partial) What the encoder computes at depth `e` are the features that the `AutoEncoder` of full depth `e` (with the same parameters) projects to its
code. -/
theorem C158_encoder_partial (P : Params) {cin depth full : Nat} (hfd : full ≤ depth) (o : Octree F) (data : Tensor) (hw : data.width = cin) {cv : Nat → Option Tensor}
    (h : ouEncoder P cin depth full o data = .ok cv) (e : Nat) (he : full ≤ e) (hed : e ≤ depth) (c : Nat) (hc : aeChannels[e]? = some c) :
    ∃ t, cv e = some t ∧ aeEncoder P cin depth e o data = (linear P "proj" c 64 true t).map (tanhT P) := by
  unfold ouEncoder at h
  obtain ⟨c0, hc0, h⟩ := bind_ok h
  obtain ⟨t0, ht0, h⟩ := bind_ok h
  have key : ∃ t, cv e = some t ∧ (List.range (depth + 1 - e)).foldlM (aeEncStep P depth e o) t0 = .ok t := by
    rw [show depth + 1 - full = (depth - full) + 1 by omega, List.range_succ, List.foldlM_append] at h
    obtain ⟨cv1, h1, h⟩ := bind_ok h
    obtain ⟨⟨t, g1, g2⟩, g3⟩ := enc_steps P depth full o t0 (depth - full) (by omega) h1
    rw [show depth - (depth - full) = full by omega] at g2 g3
    simp only [List.foldlM_cons, List.foldlM_nil, bind_pure] at h
    unfold ouEncStep at h
    rw [show depth - (depth - full) = full by omega] at h
    obtain ⟨c1, hc1, h⟩ := bind_ok h
    rw [getConv_some g2] at h
    obtain ⟨y, hy, h⟩ := bind_ok h
    cases hy
    obtain ⟨y, hy, h⟩ := bind_ok h
    dsimp only at h
    rw [if_neg (by omega)] at h
    cases h
    by_cases h0 : e = full
    · subst h0
      refine ⟨y, by simp [setConv], ?_⟩
      rw [show depth + 1 - e = (depth - e) + 1 by omega, List.range_succ, List.foldlM_append, g1]
      show List.foldlM (aeEncStep P depth e o) t [depth - e] = _
      simp only [List.foldlM_cons, List.foldlM_nil, bind_pure]
      unfold aeEncStep
      dsimp only
      rw [show depth - (depth - e) = e by omega, hc1]
      show (resBlocks P .block _ c1 c1 2 4 false o e t >>= _) = _
      rw [hy]
      show (if e > e then _ else _) = _
      rw [if_neg (by omega)]
      rfl
    · obtain ⟨te, k1, k2⟩ := g3 e (by omega) hed
      exact ⟨te, by simp [setConv, h0, k1], k2⟩
  obtain ⟨t, h1, h2⟩ := key
  refine ⟨t, h1, ?_⟩
  unfold aeEncoder
  have ok_bind : ∀ {α β : Type} (a : α) (g : α → M β), ((Except.ok a : M α) >>= g) = g a := fun _ _ => rfl
  simp only [hc0, getIdx_some hc, ok_bind, hw, pyAssert, decide_true, if_true, ht0, if_neg (show ¬ e > depth by omega), h2]
  cases linear P "proj" c 64 true t <;> rfl

/-- The channels of the code and its number of rows. -/
theorem ou_code {P : Params} {code full depth : Nat} (hcode : aeChannels[full]? = some code) {i : Octree F} {h : Nat} (w : i.Valid h) (hfull : full ≤ i.fullDepth)
    (hfd : full ≤ depth) {cv : Nat → Option Tensor} (hr : ConvsRel (batchSys P [i] 0) full depth cv cv) :
    ∃ y : List (Fin code → ℚ), cv full = some ⟨code, y⟩ ∧ y.length = 8 ^ full * i.batchSize := by
  obtain ⟨c, a, b, e, ha, -, hab⟩ := hr full (le_refl _) hfd
  rw [hcode] at e
  cases e
  obtain ⟨y, hy, rfl, -⟩ := rel_single hab
  refine ⟨y, ha, ?_⟩
  rw [← nnum_full w full hfull]
  simpa [rowsAt] using hy

theorem ouNet_none (P : Params) (code cin cout depth full : Nat) (i : Octree F) (update : Bool) (t : Tensor) {cv : Nat → Option Tensor}
    (h : ouEncoder P cin depth full i t = .ok cv) (hf : depth < full ∨ full ≤ depth) {y : Tensor} (hy : cv full = some y) :
    ouNet P code cin cout depth full i none update t = levelFree (ouLevel P (ouCfg code) full i cv) P (ouCfg code) cout depth full i.batchSize i.device y := by
  unfold ouNet levelFree
  cases e : Octree.initOctree (F := F) depth full i.batchSize i.device with
  | error er => rfl
  | ok o =>
    show (ouEncoder P cin depth full i t >>= fun convs => ouDecoder P (ouCfg code) cout depth full true convs i o) = _
    rw [h]
    show ouDecoder P (ouCfg code) cout depth full true cv i o = _
    unfold ouDecoder
    simp only [getConv_some hy]
    rfl

theorem ouNet_some (P : Params) (code cin cout depth full : Nat) (i o : Octree F) (update : Bool) (t : Tensor) {cv : Nat → Option Tensor}
    (h : ouEncoder P cin depth full i t = .ok cv) {y : Tensor} (hy : cv full = some y) :
    ouNet P code cin cout depth full i (some o) update t = levelDecoder (ouLevel P (ouCfg code) full i cv) P (ouCfg code) cout depth full update y o := by
  unfold ouNet
  show (ouEncoder P cin depth full i t >>= fun convs => ouDecoder P (ouCfg code) cout depth full update convs i o) = _
  rw [h]
  show ouDecoder P (ouCfg code) cout depth full update cv i o = _
  unfold ouDecoder
  simp only [getConv_some hy]
  rfl

/-- **C158** (partial) Completing an octree freely, `forward(octree_in)`: the generated octree is well-formed, has the depth of the network and the samples of the
input, and is ready for convolutions; logits and signal fit it. -/
theorem C158_generate_partial (P : Params) {code full : Nat} (hcode : aeChannels[full]? = some code) {i : Octree F} {h : Nat} (w : i.Valid h)
    {depth : Nat} (hf : 1 ≤ full) (hfd : full ≤ depth) (hd9 : depth ≤ 9) (hD : depth ≤ h) (hfull : full ≤ i.fullDepth) (hB : 1 ≤ i.batchSize)
    (hn : ∀ d, 1 ≤ d → d ≤ depth → NeighExact i.batchSize d i.keys i.neighs) (hne : ∀ d, full < d → d ≤ depth → 0 < i.nnum d) (cin cout : Nat) (hc : WidthOk cin)
    (x : List (Fin cin → ℚ)) (hx : x.length = i.nnum depth) (update : Bool) :
    ∃ st, ouNet P code cin cout depth full i none update ⟨cin, x⟩ = .ok st ∧ st.octree.Valid depth ∧ st.octree.depth = depth ∧
      st.octree.fullDepth = full ∧ st.octree.batchSize = i.batchSize ∧
      (∀ d ≤ depth, NeighExact st.octree.batchSize d st.octree.keys st.octree.neighs) ∧ (∀ d ≤ depth, 0 < st.octree.nnumNempty d) ∧
      HasShape (.ok st.deconv) (st.octree.nnumNempty depth) cout ∧ st.logits.length = depth + 1 - full ∧
      ∀ d, full ≤ d → d ≤ depth → ∃ l, st.logits[d - full]? = some l ∧ HasShape (.ok l) (st.octree.nnum d) 2 := by
  haveI := ouCfg_ok (aeCode_le hcode).1
  obtain ⟨cv, h1, hr⟩ := ouEncoder_run P w hf hfd hd9 hD hn cin hc x hx
  obtain ⟨y, hy, hyl⟩ := ou_code hcode w hfull hfd hr
  obtain ⟨st, s, g1, g2, g3, g4, g5, g6, g7, g8, g9, g10, g11⟩ := lv_decode P (ouCfg code) cout (dev := i.device) (ouLevel_ok P hf hd9 w hD hne hr i.batchSize)
    hf hfd hd9 hB w.batch_le y hyl
  refine ⟨st, by rw [ouNet_none P code cin cout depth full i update _ h1 (.inr hfd) hy]; exact g1, g2, g3, g4, g5, g6, g7, ⟨s, by rw [g8], g9⟩, g10, ?_⟩
  intro d hd1 hd2
  obtain ⟨z, e1, e2⟩ := g11 (d - full) (by omega)
  rw [show full + (d - full) = d by omega] at e2
  exact ⟨_, e1, z, rfl, e2⟩

/-- **C158** (partial) If the training run of the completion network on the ground truth `t` predicts exactly the non-empty octants of `t`, then completing the input
without the ground truth generates `t`, with the logits and the signal of the training run. -/
theorem C158_teacher_forcing_partial (P : Params) {code full : Nat} (hcode : aeChannels[full]? = some code) {i t : Octree F} {h : Nat} (w : i.Valid h)
    {depth : Nat} (w' : t.Valid depth) (hf : 1 ≤ full) (hd9 : depth ≤ 9) (hD : depth ≤ h) (hfull : full ≤ i.fullDepth) (hfull' : full ≤ t.fullDepth)
    (hB : 1 ≤ i.batchSize) (hB' : t.batchSize = i.batchSize) (hdep : t.depth = depth)
    (hn : ∀ d, 1 ≤ d → d ≤ depth → NeighExact i.batchSize d i.keys i.neighs) (hn' : ∀ d, 1 ≤ d → d ≤ depth → NeighExact t.batchSize d t.keys t.neighs)
    (hne : ∀ d, full < d → d ≤ depth → 0 < i.nnum d) (hpos : ∀ d ≤ depth, 0 < t.nnumNempty d) (cin cout : Nat) (hc : WidthOk cin)
    (x : List (Fin cin → ℚ)) (hx : x.length = i.nnum depth) (st : AeState F)
    (hst : ouNet P code cin cout depth full i (some t) false ⟨cin, x⟩ = .ok st) (H : PredictsOctree t full depth st.logits) (update : Bool) :
    ∃ st', ouNet P code cin cout depth full i none update ⟨cin, x⟩ = .ok st' ∧ SameOctree st'.octree t depth ∧ st'.octree.depth = depth ∧
      st'.octree.batchSize = t.batchSize ∧ st'.logits = st.logits ∧ st'.deconv = st.deconv := by
  haveI := ouCfg_ok (aeCode_le hcode).1
  have hfd : full ≤ depth := le_trans hfull' w'.full_le
  obtain ⟨cv, h1, hr⟩ := ouEncoder_run P w hf hfd hd9 hD hn cin hc x hx
  obtain ⟨y, hy, hyl⟩ := ou_code hcode w hfull hfd hr
  rw [ouNet_some P code cin cout depth full i t false _ h1 hy] at hst
  rw [ouNet_none P code cin cout depth full i update _ h1 (.inr hfd) hy, ← hB']
  exact lv_replay_run P (ouCfg code) cout (ouLevel_ok P hf hd9 w hD hne hr _) (ouLevel_same P hf i cv _) hf hd9 w' hdep hfull' (by omega) hn' y
    (by rw [hyl, nnum_full w' full hfull', hB']) st hst fun k hk => predicts_mask w' (le_refl _) hpos H k hk

/-- **C158** (partial) Conversely, the run along the generated octree gives the logits and the signal of the generation. -/
theorem C158_fixpoint_partial (P : Params) {code full : Nat} (hcode : aeChannels[full]? = some code) {i : Octree F} {h : Nat} (w : i.Valid h)
    {depth : Nat} (hf : 1 ≤ full) (hfd : full ≤ depth) (hd9 : depth ≤ 9) (hD : depth ≤ h) (hfull : full ≤ i.fullDepth) (hB : 1 ≤ i.batchSize)
    (hn : ∀ d, 1 ≤ d → d ≤ depth → NeighExact i.batchSize d i.keys i.neighs) (hne : ∀ d, full < d → d ≤ depth → 0 < i.nnum d) (cin cout : Nat) (hc : WidthOk cin)
    (x : List (Fin cin → ℚ)) (hx : x.length = i.nnum depth) (update : Bool) (st : AeState F)
    (hst : ouNet P code cin cout depth full i none update ⟨cin, x⟩ = .ok st) :
    ouNet P code cin cout depth full i (some st.octree) false ⟨cin, x⟩ = .ok st := by
  haveI := ouCfg_ok (aeCode_le hcode).1
  obtain ⟨cv, h1, hr⟩ := ouEncoder_run P w hf hfd hd9 hD hn cin hc x hx
  obtain ⟨y, hy, hyl⟩ := ou_code hcode w hfull hfd hr
  rw [ouNet_none P code cin cout depth full i update _ h1 (.inr hfd) hy] at hst
  rw [ouNet_some P code cin cout depth full i _ false _ h1 hy]
  exact lv_fixpoint P (ouCfg code) cout (ouLevel_ok P hf hd9 w hD hne hr _) (ouLevel_same P hf i cv _) hf hfd hd9 hB w.batch_le y hyl st hst

/-- **C158** (partial) The output-guided skip connections: below the full depth, the features of the decoder at an octant of the output octree are the upsampled
ones plus those that the encoder computed at the same octant of the input octree; nothing is added at octants that the input octree does not have. -/
theorem C158_skip_partial (P : Params) (code full : Nat) {i o : Octree F} {h h' : Nat} (w : i.Valid h) (w' : o.Valid h') {k c c0 c1 : Nat}
    (hd : full + (k + 1) ≤ h) (hd' : full + (k + 1) ≤ h') (hc0 : ((ouCfg code).channels full)[full + k]? = some c0)
    (hc1 : ((ouCfg code).channels full)[full + (k + 1)]? = some c1) (hne : 0 < i.nnum (full + (k + 1))) (cv : Nat → Option Tensor) (x : List (Fin c → ℚ))
    (hx : cv (full + (k + 1)) = some ⟨c, x⟩) (f : Nat → Int → Int → Int → Fin c → ℚ) (hf : IsField (qc i false (full + (k + 1))) x f) (t : Tensor) :
    ouLevel P (ouCfg code) full i cv o t (k + 1) = (do
      let u ← deconvBnRelu P ("upsample." ++ toString k) c0 c1 [2] 2 false o (full + k) t
      let v ← u.add ⟨c, (qc o false (full + (k + 1))).map fun q => f q.b q.x q.y q.z⟩
      let y ← resBlocks P .block ("decoder_blks." ++ toString (k + 1)) c1 c1 2 4 false o (full + (k + 1)) v
      let logit ← predictModule P ("predict." ++ toString (k + 1)) c1 2 y
      pure (y, logit)) := by
  unfold ouLevel
  have hk0 : 0 < k + 1 := by omega
  have hk1 : full + (k + 1) - 1 = full + k := by omega
  have ok_bind : ∀ {α β : Type} (a : α) (g : α → M β), ((Except.ok a : M α) >>= g) = g a := fun _ _ => rfl
  simp only [getIdx_some hc1, if_pos hk0, hk1, getIdx_some hc0, getConv_some hx, bind_assoc, ok_bind, alignT_field w w' hd hd' hf hne, Nat.add_sub_cancel]

/-- **C158** (partial) Evaluation mode: in a batch every shape is completed as it is alone. -/
theorem C158_batch_partial (P : Params) (hP : P.training = false) {code full : Nat} (hcode : aeChannels[full]? = some code) {is os : List (Octree F)} {i' o' : Octree F}
    {D : Nat} (hm : MergedBatch is i' D) (hm' : MergedBatch os o' D) (hlen : is.length = os.length) {depth : Nat} (hf : 1 ≤ full) (hfd : full ≤ depth) (hd9 : depth ≤ 9)
    (hD : depth ≤ D) (hfull : ∀ o ∈ is ++ os, full ≤ o.fullDepth) (hne : ∀ d, full < d → d ≤ depth → ∀ i ∈ is, 0 < i.nnum d)
    (cin cout : Nat) (hc : WidthOk cin) (xs : List (List (Fin cin → ℚ))) (hx : xs.map List.length = is.map fun o => o.nnum depth) :
    Independent (c' := cout) os xs (os.map fun o => o.nnumNempty depth)
      ((ouNet P code cin cout depth full i' (some o') false ⟨cin, xs.flatten⟩).map AeState.deconv)
      (fun k o x => need is[k]? >>= fun i => (ouNet P code cin cout depth full i (some o) false ⟨cin, x⟩).map AeState.deconv) ∧
    ∀ d, full ≤ d → d ≤ depth → Independent (c' := 2) os xs (os.map fun o => o.nnum d)
      (ouNet P code cin cout depth full i' (some o') false ⟨cin, xs.flatten⟩ >>= fun st => need st.logits[d - full]?)
      (fun k o x => need is[k]? >>= fun i => ouNet P code cin cout depth full i (some o) false ⟨cin, x⟩ >>= fun st => need st.logits[d - full]?) := by
  obtain ⟨_, _, _, hmg⟩ := hm.mergeable
  obtain ⟨_, _, _, hmg'⟩ := hm'.mergeable
  have hxl : xs.length = os.length := by rw [← hlen]; simpa using congrArg List.length hx
  have hht : ht is false full = ht os false full := by
    have h1 : ∀ o ∈ is ++ os, o.nnum full = 8 ^ full := by
      intro o ho
      rcases List.mem_append.1 ho with h | h
      · rw [nnum_full (hmg.valid o h) full (hfull o ho), hmg.single o h, Nat.mul_one]
      · rw [nnum_full (hmg'.valid o h) full (hfull o ho), hmg'.single o h, Nat.mul_one]
    have h2 : ∀ l : List (Octree F), (∀ o ∈ l, o ∈ is ++ os) → ht l false full = List.replicate l.length (8 ^ full) := by
      intro l hl
      refine List.eq_replicate_iff.2 ⟨by simp [ht], fun n hn => ?_⟩
      obtain ⟨o, ho, rfl⟩ := List.mem_map.1 hn
      simpa [rowsAt] using h1 o (hl o ho)
    rw [h2 is fun o h => List.mem_append_left _ h, h2 os fun o h => List.mem_append_right _ h, hlen]
  have key : ∀ k o i x, os[k]? = some o → is[k]? = some i → xs[k]? = some x →
      Both (fun p q => Rel k (ht os true depth) cout p.deconv q.deconv ∧
        AllRel (depth + 1 - full) (fun j => Rel k (ht os false (full + j)) 2) p.logits q.logits)
      (ouNet P code cin cout depth full i' (some o') false ⟨cin, xs.flatten⟩) (ouNet P code cin cout depth full i (some o) false ⟨cin, x⟩) := by
    intro k o i x ho hi hk
    refine ((layers_batch hP hm hi).ouNet (layers_batch hP hm' ho) hcode hf hfd hd9 ⟨Nat.zero_le _, hD⟩ (Nat.zero_le _) hc (fun _ _ _ => bnOk_eval hP _)
      (fun _ _ _ => bnOk_eval hP _) (aligns_batch P hm.batchOf.1 hm'.batchOf.1 hi ho hlen hD fun d g1 g2 => hne d (by omega) g2) ?_
      (rel_batch hx hk)).mono fun p q h => h.2.2
    intro c t s hts
    have : Rel k (ht is false full) c t s := hts
    rw [hht] at this
    exact this
  have hget : ∀ (k : Nat) o, os[k]? = some o → ∃ i, is[k]? = some i := by
    intro k o ho
    have := (List.getElem?_eq_some_iff.1 ho).1
    exact ⟨is[k], List.getElem?_eq_getElem (by omega)⟩
  refine ⟨batch_out hmg'.nonempty hxl (by simp) fun k o x ho hk => ?_, fun d h1 h2 => batch_out hmg'.nonempty hxl (by simp) fun k o x ho hk => ?_⟩
  · obtain ⟨i, hi⟩ := hget k o ho
    obtain ⟨p, q, e1, e2, h1, -⟩ := key k o i x ho hi hk
    exact ⟨_, _, by rw [e1]; rfl, by rw [hi]; show Except.map _ _ = _; rw [e2]; rfl, h1⟩
  · obtain ⟨i, hi⟩ := hget k o ho
    obtain ⟨p, q, e1, e2, -, -, -, h3⟩ := key k o i x ho hi hk
    obtain ⟨a, b, g1, g2, g3⟩ := h3 (d - full) (by omega)
    rw [show full + (d - full) = d by omega] at g3
    exact ⟨a, b, by rw [e1]; show need _ = _; rw [g1]; rfl, by
      rw [hi]
      show (ouNet P code cin cout depth full i (some o) false ⟨cin, x⟩ >>= fun st => need st.logits[d - full]?) = _
      rw [e2]
      show need _ = _
      rw [g2]
      rfl, g3⟩

/-! ### concrete cases -/

theorem ouLevel_logit {P : Params} {cfg : DecCfg} {full : Nat} {i : Octree F} {cv : Nat → Option Tensor} {o : Octree F} {t : Tensor} {k : Nat} {r : Tensor × Tensor}
    (h : ouLevel P cfg full i cv o t k = .ok r) : ∃ name t', linear P name 64 2 true t' = .ok r.2 := by
  unfold ouLevel at h
  obtain ⟨c, -, h⟩ := bind_ok h
  obtain ⟨t1, -, h⟩ := bind_ok h
  obtain ⟨t2, -, h⟩ := bind_ok h
  obtain ⟨l, hl, h⟩ := bind_ok h
  cases h
  unfold predictModule at hl
  obtain ⟨t3, -, hl⟩ := bind_ok hl
  exact ⟨_, t3, hl⟩

/-- With weights zero the logits are the bias. -/
theorem ou_logits_bias (P : Params) (cfg : DecCfg) (hw : ∀ name n k i j, P.weight name n k i j = 0) (b : Nat → ℚ) (hb : ∀ name j, P.bias name j = b j) (depth full : Nat)
    (i : Octree F) (cv : Nat → Option Tensor) (update : Bool) (l : List Nat) : ∀ {st st' : AeState F},
      l.foldlM (levelStep (ouLevel P cfg full i cv) depth full update) st = .ok st' →
      (∀ t ∈ st.logits, ∀ v ∈ t.rows, ∀ i, v i = b i) → ∀ t ∈ st'.logits, ∀ v ∈ t.rows, ∀ i, v i = b i := by
  induction l with
  | nil =>
    intro st st' h h0
    cases h
    exact h0
  | cons k l ih =>
    intro st st' h h0
    rw [List.foldlM_cons] at h
    obtain ⟨s1, h1, h⟩ := bind_ok h
    refine ih h ?_
    unfold levelStep at h1
    obtain ⟨r, hr, h1⟩ := bind_ok h1
    obtain ⟨o, -, h1⟩ := bind_ok h1
    cases h1
    intro t ht
    rcases List.mem_append.1 ht with ht | ht
    · exact h0 t ht
    · obtain rfl : t = r.2 := by simpa using ht
      obtain ⟨name, t', hl⟩ := ouLevel_logit hr
      unfold linear Tensor.on at hl
      obtain ⟨y, -, hl⟩ := bind_ok hl
      obtain ⟨z, hz, hl⟩ := bind_ok hl
      cases hz
      have e := (Except.ok.inj hl).symm
      rw [e]
      intro v hv j
      obtain ⟨u, -, rfl⟩ := List.mem_map.1 hv
      simp [hw, hb]

/-- The hypotheses of `C158_violated`, `C158_forward_partial`, `C158_generate_partial`, `C158_fixpoint_partial` and `C158_teacher_forcing_partial` are met: two
samples, depth 4, full depth 2, the input with every second octant split, the ground truth with all octants split, by the network with weights zero that always
predicts children. -/
example : ∃ (P : Params) (i t : Octree ℚ) (x : List (Fin 4 → ℚ)) (st st' : AeState ℚ), i.Valid 4 ∧ t.Valid 4 ∧ i.batchSize = 2 ∧ t.batchSize = 2 ∧ x.length = i.nnum 4 ∧
    aeChannels[2]? = some 256 ∧ ouNet P 256 4 4 4 2 i (some t) false ⟨4, x⟩ = .ok st ∧ PredictsOctree t 2 4 st.logits ∧
    ouNet P 256 4 4 4 2 i none false ⟨4, x⟩ = .ok st' ∧ SameOctree st'.octree t 4 ∧ ouNet P 64 4 4 4 2 i (some t) false ⟨4, x⟩ = .error .shape := by
  let P : Params := ⟨fun _ _ _ _ => 0, fun _ j => j, fun _ _ => 1, fun _ _ => 0, fun _ _ => 0, fun _ _ => 1, false, fun _ _ _ => 1, id, id⟩
  obtain ⟨i, hi, hd, hfi, hB, hn, hp⟩ := example_deep 4 (by decide) (by decide) 2 (by decide) (by decide)
  have hle : ∀ d ≤ 4, 0 < i.nnum d := by
    intro d hd
    refine lt_of_lt_of_le (hp d hd) ?_
    rw [nnumNempty_eq hi d hd, wf_nnum hi.wf' d hd]
    exact List.count_le_length
  let x : List (Fin 4 → ℚ) := List.replicate (i.nnum 4) 1
  have hx : x.length = i.nnum 4 := by simp [x]
  have hc : WidthOk 4 := by unfold WidthOk; decide
  obtain ⟨st, h1, h2, h3, h4, h5, h6, h7, h8, h9, h10⟩ := C158_generate_partial P (code := 256) (full := 2) rfl hi (depth := 4) (by decide) (by decide) (by decide)
    (by decide) (by omega) (by omega) (fun d _ h => hn d h) (fun d _ h => hle d h) 4 4 hc x hx false
  have hfix := C158_fixpoint_partial P (code := 256) (full := 2) rfl hi (depth := 4) (by decide) (by decide) (by decide)
    (by decide) (by omega) (by omega) (fun d _ h => hn d h) (fun d _ h => hle d h) 4 4 hc x hx false st h1
  have hpred : PredictsOctree st.octree 2 4 st.logits := by
    haveI := ouCfg_ok (code := 256) (by norm_num)
    obtain ⟨cv, e1, hr⟩ := ouEncoder_run P hi (depth := 4) (full := 2) (by decide) (by decide) (by decide) (by decide) (fun d _ h => hn d h) 4 hc x hx
    obtain ⟨y, hy, hyl⟩ := ou_code (code := 256) rfl hi (by omega) (by decide) hr
    rw [ouNet_none P 256 4 4 4 2 i false _ e1 (by decide) hy] at h1
    refine lv_predicts P (ouCfg 256) 4 (ouLevel_ok P (by decide) (by decide) hi (by decide) (fun d _ h => hle d h) hr _) (by decide) (by decide) (by decide) (by omega)
      (by rw [hB]; decide) y hyl st h1 ?_
    intro l hl
    have hb : ∀ t ∈ st.logits, ∀ v ∈ t.rows, ∀ i, v i = ((i.val : Nat) : ℚ) := by
      have h := h1
      unfold levelFree at h
      obtain ⟨o0, -, h⟩ := bind_ok h
      unfold levelDecoder at h
      obtain ⟨s2, hs, h⟩ := bind_ok h
      obtain ⟨c, -, h⟩ := bind_ok h
      obtain ⟨sig, -, h⟩ := bind_ok h
      obtain ⟨sig', -, h⟩ := bind_ok h
      cases h
      have := ou_logits_bias P (ouCfg 256) (fun _ _ _ _ _ => rfl) (fun j => (j : ℚ)) (fun _ _ => rfl) 4 2 i cv true _ hs (by intro t ht; cases ht)
      exact this
    obtain ⟨j, hj, e⟩ := List.mem_iff_getElem.1 hl
    obtain ⟨l', hl1, z, hz1, hz2⟩ := h10 (2 + j) (by omega) (by omega)
    rw [show 2 + j - 2 = j by omega, List.getElem?_eq_getElem hj, e] at hl1
    cases hl1
    cases hz1
    have hpos : 0 < st.octree.nnum (2 + j) := by
      refine lt_of_lt_of_le (h7 (2 + j) (by omega)) ?_
      rw [nnumNempty_eq h2 _ (by omega), wf_nnum h2.wf' _ (by omega)]
      exact List.count_le_length
    obtain ⟨v, l', rfl⟩ : ∃ v l', l = v :: l' := by
      cases l with
      | nil => simp at hz2; omega
      | cons v l' => exact ⟨v, l', rfl⟩
    refine ⟨v, by simp, ?_⟩
    have := hb _ hl v (by simp)
    rw [this 0, this 1]
    norm_num
  obtain ⟨st', g1, g2, -⟩ := C158_teacher_forcing_partial P (code := 256) (full := 2) rfl hi (t := st.octree) (depth := 4) h2 (by decide) (by decide)
    (by decide) (by omega) (by omega) (by omega) (by omega) h3 (fun d _ h => hn d h) (fun d _ h => h6 d h) (fun d _ h => hle d h) h7 4 4 hc x hx st hfix hpred false
  exact ⟨P, i, st.octree, x, st, st', hi, h2, hB, by omega, hx, rfl, hfix, hpred, g1, g2,
    C158_violated P hi (by decide) (by decide) (by decide) (by decide) (fun d _ h => hn d h) 4 4 hc x hx _ _⟩

/-- The hypotheses of `C158_batch_partial` are met: two pairs of octrees of depth 4. -/
example (P : Params) (hP : P.training = false) : ∃ (i i' : Octree ℚ) (x : List (Fin 4 → ℚ)), x ≠ [] ∧
    Independent (c' := 3) [i, i] [x, x] [i.nnumNempty 4, i.nnumNempty 4]
      ((ouNet P 256 4 3 4 2 i' (some i') false ⟨4, [x, x].flatten⟩).map AeState.deconv)
      (fun k o x => need [i, i][k]? >>= fun i => (ouNet P 256 4 3 4 2 i (some o) false ⟨4, x⟩).map AeState.deconv) := by
  obtain ⟨o, h1, hd, hf, hB, hn, hp⟩ := example_deep 4 (by decide) (by decide) 1 (le_refl _) (by decide)
  have hm' : Mergeable [o, o] 4 2 o.device := by
    refine ⟨by simp, by simp, ?_, ?_, ?_, ?_, ?_, ?_, ?_, ?_⟩ <;>
      simp only [List.mem_cons, List.not_mem_nil, or_false, or_self, forall_eq] <;> assumption
  obtain ⟨o', h'⟩ := C58_ready _ 4 2 o.device hm' (by decide) (by
    intro o1 ho1 d h1 hd'
    simp only [List.mem_cons, List.not_mem_nil, or_false, or_self] at ho1
    subst ho1
    exact hn d hd')
  have hle : ∀ d ≤ 4, 0 < o.nnum d := by
    intro d hd
    refine lt_of_lt_of_le (hp d hd) ?_
    rw [nnumNempty_eq h1 d hd, wf_nnum h1.wf' d hd]
    exact List.count_le_length
  refine ⟨o, o', List.replicate (o.nnum 4) 1, ?_, ?_⟩
  · intro e
    have := congrArg List.length e
    have := hle 4 (le_refl _)
    simp at *
    omega
  · exact (C158_batch_partial P hP (code := 256) (full := 2) rfl h' h' rfl (by decide) (by decide) (by decide) (le_refl _) (by
      intro u hu
      simp only [List.cons_append, List.nil_append, List.mem_cons, List.not_mem_nil, or_false, or_self] at hu
      subst hu
      omega) (by
      intro d _ h2 u hu
      simp only [List.mem_cons, List.not_mem_nil, or_false, or_self] at hu
      subst hu
      exact hle d h2) 4 3 (by unfold WidthOk; decide) _ (by simp)).1

end Ocnn
