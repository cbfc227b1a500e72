import Verif.AutoReplay
import Verif.PropsNets

/-! C87: training on the ground truth octree and free generation agree as soon as the predictions are right. -/

set_option linter.unusedSimpArgs false

namespace Ocnn
open Spec
variable {F : Type}

/-- The logits of the depths `full`, ..., `depth` predict exactly the non-empty nodes of `t`: the second logit is larger than the first one at a node
if and only if the node has children. -/
def PredictsOctree (t : Octree F) (full depth : Nat) (logits : List Tensor) : Prop :=
  ∀ d, full ≤ d → d ≤ depth → ∃ (l : List (Fin 2 → ℚ)) (ch : List Int), logits[d - full]? = some ⟨2, l⟩ ∧ t.children d = some ch ∧
    l.map (fun v => decide (v 0 < v 1)) = ch.map (fun c => decide (0 ≤ c))

/-- The layers `0`, ..., `depth` of two octrees are the same. -/
def SameOctree (o t : Octree F) (depth : Nat) : Prop :=
  ∀ d ≤ depth, o.keys d = t.keys d ∧ o.children d = t.children d ∧ o.nnum d = t.nnum d ∧ o.nnumNempty d = t.nnumNempty d

theorem predicts_mask {t : Octree F} {h : Nat} (w : t.Valid h) {full depth : Nat} (hd : depth ≤ h) (hpos : ∀ d ≤ depth, 0 < t.nnumNempty d)
    {logits : List Tensor} (H : PredictsOctree t full depth logits) (k : Nat) (hk : full + k ≤ depth) :
    ∃ x, logits[k]? = some ⟨2, x⟩ ∧ maskOf x = t.masks (full + k) := by
  obtain ⟨l, ch, h1, h2, h3⟩ := H (full + k) (by omega) hk
  rw [show full + k - full = k by omega] at h1
  refine ⟨l, h1, ?_⟩
  have hm : t.masks (full + k) = ch.map (fun c => decide (0 ≤ c)) := by
    unfold Octree.masks
    rw [h2]
    simp
  unfold maskOf
  rw [h3, ← hm, forceFirst_of_pos]
  rw [← w.wf'.nnumNempty _ (by omega)]
  exact hpos _ hk

theorem replay_run (P : Params) (cfg : DecCfg) [cfg.Ok] (cout : Nat) {depth full dev : Nat} (hf : 1 ≤ full) (hd9 : depth ≤ 9) {t : Octree F} (w : t.Valid depth)
    (hdep : t.depth = depth) (hfull : full ≤ t.fullDepth) (hB : 1 ≤ t.batchSize)
    (hn : ∀ d, 1 ≤ d → d ≤ depth → NeighExact t.batchSize d t.keys t.neighs) (x : List (Fin cfg.code → ℚ)) (hx : x.length = t.nnum full) (st : AeState F)
    (hst : aeDecoder P cfg cout depth full false ⟨cfg.code, x⟩ t = .ok st)
    (hlog : ∀ k, full + k ≤ depth → ∃ y, st.logits[k]? = some ⟨2, y⟩ ∧ maskOf y = t.masks (full + k)) :
    ∃ st', aeDecodeCode P cfg cout depth full dev ⟨cfg.code, x⟩ = .ok st' ∧ SameOctree st'.octree t depth ∧ st'.octree.depth = depth ∧
      st'.octree.batchSize = t.batchSize ∧ st'.logits = st.logits ∧ st'.deconv = st.deconv := by
  have hfd : full ≤ depth := le_trans hfull w.full_le
  have hx8 : x.length = 8 ^ full * t.batchSize := by rw [hx]; exact nnum_full w full hfull
  have hdiv : x.length / 2 ^ (3 * full) = t.batchSize := by
    rw [hx8, show 2 ^ (3 * full) = 8 ^ full by rw [pow_mul]; norm_num]
    exact Nat.mul_div_cancel_left _ (by positivity)
  obtain ⟨o0, h0, e1, e2, e3, hI0⟩ := init_inv (F := F) depth full t.batchSize dev hfd (by omega) w.batch_le (by omega)
  have I0 : AeInv cfg depth full t.batchSize 0 (⟨o0, ⟨cfg.code, x⟩, []⟩ : AeState F) := by
    refine ⟨⟨_, hI0⟩, ⟨cfg.code, x, channels_full cfg full (by omega), rfl, ?_⟩, rfl, fun j hj => absurd hj (by omega), e1, e2, e3⟩
    show x.length = o0.nnum full
    rw [nnum_full hI0.wf.valid full (by omega), hx8, e3]
  have hm0 : ∀ i < full, o0.masks i = t.masks i := by
    intro i hi
    rw [masks_of_wf hI0.wf i (by omega), masks_full w i (by omega)]
  -- the run on the ground truth
  unfold aeDecoder at hst
  cases hT : (List.range (depth + 1 - full)).foldlM (aeDecStep P cfg depth full false) ⟨t, ⟨cfg.code, x⟩, []⟩ with
  | error e => simp [hT, bind, Except.bind] at hst
  | ok sT =>
    have hlT : st.logits = sT.logits := by
      rw [hT] at hst
      simp only [bind, Except.bind] at hst
      split at hst <;> try simp at hst
      split at hst <;> try simp at hst
      split at hst <;> try simp at hst
      cases hst
      rfl
    rw [hlT] at hlog
    have hl' : ∀ k, full + k ≤ depth → ∀ s, (List.range (k + 1)).foldlM (aeDecStep P cfg depth full false) ⟨t, ⟨cfg.code, x⟩, []⟩ = .ok s →
        ∃ y, s.logits[k]? = some ⟨2, y⟩ ∧ maskOf y = t.masks (full + k) := by
      intro k hk s hs
      obtain ⟨y, hy1, hy2⟩ := hlog k hk
      refine ⟨y, ?_, hy2⟩
      obtain ⟨s1, g1, g2⟩ := fold_prefix _ (show k + 1 ≤ depth + 1 - full by omega) hT
      rw [hs] at g1
      cases g1
      obtain ⟨ys, hys, -⟩ := fold_logits P depth full false _ g2
      obtain ⟨zs, hzs, hlen⟩ := fold_logits P depth full false _ hs
      rw [hys, List.getElem?_append_left (by rw [hzs]; simp [hlen])] at hy1
      exact hy1
    obtain ⟨s1, q1, I1, hm1, q1'⟩ := loops_same P hf hd9 w hdep hn I0 hm0 (depth - full) (by omega) (fun k hk => hl' k (by omega))
    obtain ⟨masks, hI⟩ := I1.inv
    obtain ⟨c, y, z, e, hc, hy, hz⟩ := ae_level P hf hd9 (by omega) I1
    have e' := e
    rw [level_same P hf (by omega) I1 w hdep hn hm1] at e'
    have hNd : depth + 1 - full = depth - full + 1 := by omega
    have hd : full + (depth - full) = depth := by omega
    have hT' : sT = ⟨t, ⟨c, y⟩, s1.logits ++ [⟨2, z⟩]⟩ := by
      rw [hNd, fold_succ _ q1'] at hT
      unfold aeDecStep at hT
      rw [e'] at hT
      cases hT
      rfl
    -- the last update
    obtain ⟨st1, r1, -⟩ : ∃ st' : AeState F, aeDecodeCode P cfg cout depth full dev ⟨cfg.code, x⟩ = .ok st' ∧ True := by
      obtain ⟨st', y', h, -⟩ := ae_decode (F := F) P cfg cout (dev := dev) hf hfd hd9 hB w.batch_le x hx8
      exact ⟨st', h, trivial⟩
    refine ⟨st1, r1, ?_⟩
    unfold aeDecodeCode at r1
    dsimp only at r1
    rw [hdiv, h0] at r1
    change aeDecoder P cfg cout depth full true ⟨cfg.code, x⟩ o0 = .ok st1 at r1
    unfold aeDecoder at r1
    rw [hNd, fold_succ _ q1] at r1
    unfold aeDecStep at r1
    rw [e] at r1
    cases hu : aeUpdate depth (full + (depth - full)) ⟨2, z⟩ s1.octree with
    | error er => simp [hu, bind, Except.bind] at r1
    | ok o' =>
      obtain ⟨g1, g2, g3, g4, g5⟩ := aeUpdate_masks hI I1.hdepth (by omega) z hz hu
      obtain ⟨x', hx1, hx2⟩ := hlog (depth - full) (by omega)
      have : x' = z := by
        rw [hT'] at hx1
        dsimp only at hx1
        rw [← I1.logits, List.getElem?_append_right (le_refl _)] at hx1
        simpa using hx1.symm
      subst this
      have hmm : ∀ i ≤ depth, o'.masks i = t.masks i := by
        intro i hi
        rcases Nat.lt_or_ge i depth with hlt | hge
        · exact (g1 i (by omega)).trans (hm1 i (by omega))
        · obtain rfl : i = depth := by omega
          rw [hd] at g2 hx2
          exact g2.trans hx2
      have wo : o'.Valid depth := by
        rw [hd] at g5
        exact g5 rfl
      have hdo : o'.depth = depth := g3.trans I1.hdepth
      have hbo : o'.batchSize = t.batchSize := g4.trans I1.hbatch
      have hsp : SameSplit o' t depth := same_split wo w (hdo.trans hdep.symm) (le_refl _) (le_refl _) (hmm _ (le_refl _))
      simp only [bind, Except.bind, pure, Except.pure, if_true, hu, depadT_congr hsp] at r1
      rw [hT, hT'] at hst
      simp only [bind, Except.bind, pure, Except.pure] at hst
      have key : st1.octree = o' ∧ st1.logits = st.logits ∧ st1.deconv = st.deconv := by
        split at hst
        · simp at hst
        · rename_i v hv
          rw [hv] at r1
          dsimp only at r1
          split at hst
          · simp at hst
          · rename_i u hu'
            rw [hu'] at r1
            dsimp only at r1
            split at hst
            · simp at hst
            · rename_i a ha
              rw [ha] at r1
              cases r1
              cases hst
              exact ⟨rfl, rfl, rfl⟩
      obtain ⟨k1, k2, k3⟩ := key
      rw [k1]
      exact ⟨fun d hd' => same_tables wo w hbo hd' hd' fun i hi => hmm i (by omega), hdo, hbo, k2, k3⟩

/-- **C87** Decoder: if the logits of the run on the ground truth octree `t` predict exactly its non-empty nodes, then generating the octree from the same
code gives the same octree, the same logits and the same signal. -/
theorem C87_decoder (P : Params) (cfg : DecCfg) [cfg.Ok] (cout : Nat) {depth full dev : Nat} (hf : 1 ≤ full) (hd9 : depth ≤ 9) {t : Octree F} (w : t.Valid depth)
    (hdep : t.depth = depth) (hfull : full ≤ t.fullDepth) (hB : 1 ≤ t.batchSize) (hpos : ∀ d ≤ depth, 0 < t.nnumNempty d)
    (hn : ∀ d, 1 ≤ d → d ≤ depth → NeighExact t.batchSize d t.keys t.neighs) (x : List (Fin cfg.code → ℚ)) (hx : x.length = t.nnum full) (st : AeState F)
    (hst : aeDecoder P cfg cout depth full false ⟨cfg.code, x⟩ t = .ok st) (H : PredictsOctree t full depth st.logits) :
    ∃ st', aeDecodeCode P cfg cout depth full dev ⟨cfg.code, x⟩ = .ok st' ∧ SameOctree st'.octree t depth ∧ st'.octree.depth = depth ∧
      st'.octree.batchSize = t.batchSize ∧ st'.logits = st.logits ∧ st'.deconv = st.deconv :=
  replay_run P cfg cout hf hd9 w hdep hfull hB hn x hx st hst fun k hk => predicts_mask w (le_refl _) hpos H k hk

/-- **C87** The whole network: `forward(octree, update_octree=False)` and `forward(octree, update_octree=True)`. -/
theorem C87_teacher_forcing (P : Params) (cin cout : Nat) (hc : WidthOk cin) {depth full : Nat} (hf : 1 ≤ full) (hd9 : depth ≤ 9) {t : Octree F}
    (w : t.Valid depth) (hdep : t.depth = depth) (hfull : full ≤ t.fullDepth) (hB : 1 ≤ t.batchSize) (hpos : ∀ d ≤ depth, 0 < t.nnumNempty d)
    (hn : ∀ d, 1 ≤ d → d ≤ depth → NeighExact t.batchSize d t.keys t.neighs) (x : List (Fin cin → ℚ)) (hx : x.length = t.nnum depth) :
    ∃ st, autoEncoder P cin cout depth full t false ⟨cin, x⟩ = .ok st ∧ (PredictsOctree t full depth st.logits →
      ∃ st', autoEncoder P cin cout depth full t true ⟨cin, x⟩ = .ok st' ∧ SameOctree st'.octree t depth ∧ st'.octree.depth = depth ∧
        st'.octree.batchSize = t.batchSize ∧ st'.logits = st.logits ∧ st'.deconv = st.deconv) := by
  have hfd : full ≤ depth := le_trans hfull w.full_le
  have L := layers_single P w (le_refl _) hn
  have hbn : ∀ d, full ≤ d → d ≤ depth → BnOk P (ht [t] false d) := fun d h1 h2 => bnOk_of w d (by omega) (by omega)
  obtain ⟨a, b, h1, -, hr⟩ := L.aeEncoder hf hfd hd9 ⟨Nat.zero_le _, le_refl _⟩ hc hbn (rel_self x (by simpa [rowsAt] using hx))
  obtain ⟨st, hst, -⟩ := C77_autoencoder P w depth full hf hfd hd9 (le_refl _) hn cin cout hc x hx
  refine ⟨st, hst, fun H => ?_⟩
  obtain ⟨x', hx', rfl, rfl⟩ := rel_single hr
  unfold autoEncoder at hst ⊢
  rw [h1] at hst ⊢
  exact C87_decoder P aeCfg cout hf hd9 w hdep hfull hB hpos hn x' (by simpa [rowsAt] using hx') st hst H

/-- **C87** Conversely, the run on the octree that was generated from a code, with the same code, returns the logits and the signal of the generation. -/
theorem C87_fixpoint (P : Params) (cfg : DecCfg) [cfg.Ok] (cout : Nat) {depth full B dev : Nat} (hf : 1 ≤ full) (hfd : full ≤ depth) (hd9 : depth ≤ 9) (hB : 1 ≤ B)
    (hB' : B ≤ 2 ^ 15) (x : List (Fin cfg.code → ℚ)) (hx : x.length = 8 ^ full * B) (st : AeState F)
    (hst : aeDecodeCode P cfg cout depth full dev ⟨cfg.code, x⟩ = .ok st) : aeDecoder P cfg cout depth full false ⟨cfg.code, x⟩ st.octree = .ok st := by
  obtain ⟨st', y, h2, w, hdep, hfull, hbatch, hn, -⟩ := ae_decode (F := F) P cfg cout (dev := dev) hf hfd hd9 hB hB' x hx
  rw [hst] at h2
  cases h2
  have hdiv : x.length / 2 ^ (3 * full) = B := by
    rw [hx, show 2 ^ (3 * full) = 8 ^ full by rw [pow_mul]; norm_num]
    exact Nat.mul_div_cancel_left _ (by positivity)
  obtain ⟨o0, h0, e1, e2, e3, hI0⟩ := init_inv (F := F) depth full B dev hfd (by omega) hB' (by omega)
  have I0 : AeInv cfg depth full B 0 (⟨o0, ⟨cfg.code, x⟩, []⟩ : AeState F) := by
    refine ⟨⟨_, hI0⟩, ⟨cfg.code, x, channels_full cfg full (by omega), rfl, ?_⟩, rfl, fun j hj => absurd hj (by omega), e1, e2, e3⟩
    show x.length = o0.nnum full
    rw [nnum_full hI0.wf.valid full (by omega), hx, e3]
  have hNd : depth + 1 - full = depth - full + 1 := by omega
  obtain ⟨s1, q1, I1⟩ := ae_steps P hf hd9 (depth - full) (by omega) I0
  unfold aeDecodeCode at hst
  dsimp only at hst
  rw [hdiv, h0] at hst
  change aeDecoder P cfg cout depth full true ⟨cfg.code, x⟩ o0 = .ok st at hst
  unfold aeDecoder at hst ⊢
  rw [hNd] at hst ⊢
  rw [fold_succ _ q1] at hst
  cases hs : aeDecStep P cfg depth full true s1 (depth - full) with
  | error e => simp [hs, bind, Except.bind] at hst
  | ok s2 =>
    obtain ⟨g1, c, y, z, e, k1, k2, -⟩ := step_masks P hf hd9 (by omega) I1 hs
    rw [hs] at hst
    simp only [bind, Except.bind, pure, Except.pure] at hst
    have ho : st.octree = s2.octree := by
      split at hst
      · simp at hst
      · split at hst
        · simp at hst
        · split at hst
          · simp at hst
          · cases hst
            rfl
    have hm : ∀ i < full + (depth - full), s1.octree.masks i = st.octree.masks i := by
      rw [ho]
      exact fun i hi => (g1 i hi).symm
    rw [← hbatch] at I0 I1
    have hT := loops_follow P hf hd9 w hdep (fun d _ h => hn d h) I0 (depth - full) (by omega) q1 hm
    dsimp only at hT
    have hstep : aeDecStep P cfg depth full false ⟨st.octree, s1.deconv, s1.logits⟩ (depth - full) = .ok ⟨st.octree, s2.deconv, s2.logits⟩ := by
      unfold aeDecStep
      rw [level_same P hf (by omega) I1 w hdep (fun d _ h => hn d h) hm] at e
      rw [e, k1, k2]
      rfl
    rw [fold_succ _ hT, hstep]
    simp only [bind, Except.bind, pure, Except.pure]
    rw [← hst, ho]

theorem bind_ok {α β : Type} {x : M α} {f : α → M β} {b : β} (h : x >>= f = .ok b) : ∃ a, x = .ok a ∧ f a = .ok b := by
  cases x with
  | error e => cases h
  | ok a => exact ⟨a, rfl, h⟩

/-- The masks of the generated octree are those of the logits, with the first node added where no node is predicted. -/
theorem decode_masks (P : Params) (cfg : DecCfg) [cfg.Ok] (cout : Nat) {depth full B dev : Nat} (hf : 1 ≤ full) (hfd : full ≤ depth) (hd9 : depth ≤ 9) (hB : 1 ≤ B)
    (hB' : B ≤ 2 ^ 15) (x : List (Fin cfg.code → ℚ)) (hx : x.length = 8 ^ full * B) (st : AeState F)
    (hst : aeDecodeCode P cfg cout depth full dev ⟨cfg.code, x⟩ = .ok st) :
    ∀ k ≤ depth - full, ∃ z, st.logits[k]? = some ⟨2, z⟩ ∧ st.octree.masks (full + k) = maskOf z := by
  obtain ⟨st', y, h2, w, hdep, hfull, hbatch, hn, -⟩ := ae_decode (F := F) P cfg cout (dev := dev) hf hfd hd9 hB hB' x hx
  rw [hst] at h2
  cases h2
  have hdiv : x.length / 2 ^ (3 * full) = B := by
    rw [hx, show 2 ^ (3 * full) = 8 ^ full by rw [pow_mul]; norm_num]
    exact Nat.mul_div_cancel_left _ (by positivity)
  obtain ⟨o0, h0, e1, e2, e3, hI0⟩ := init_inv (F := F) depth full B dev hfd (by omega) hB' (by omega)
  have I0 : AeInv cfg depth full B 0 (⟨o0, ⟨cfg.code, x⟩, []⟩ : AeState F) := by
    refine ⟨⟨_, hI0⟩, ⟨cfg.code, x, channels_full cfg full (by omega), rfl, ?_⟩, rfl, fun j hj => absurd hj (by omega), e1, e2, e3⟩
    show x.length = o0.nnum full
    rw [nnum_full hI0.wf.valid full (by omega), hx, e3]
  have hNd : depth + 1 - full = depth - full + 1 := by omega
  obtain ⟨s1, q1, I1⟩ := ae_steps P hf hd9 (depth - full) (by omega) I0
  unfold aeDecodeCode at hst
  dsimp only at hst
  rw [hdiv, h0] at hst
  change aeDecoder P cfg cout depth full true ⟨cfg.code, x⟩ o0 = .ok st at hst
  unfold aeDecoder at hst
  rw [hNd] at hst
  obtain ⟨s2, hs, hst⟩ := bind_ok hst
  obtain ⟨c, -, hst⟩ := bind_ok hst
  obtain ⟨sig, -, hst⟩ := bind_ok hst
  obtain ⟨sig', -, hst⟩ := bind_ok hst
  cases hst
  have hlast := hs
  rw [fold_succ _ q1] at hlast
  -- the logits of layer `full + k` of the final state, and its mask
  intro k hk
  obtain ⟨sk, hk1, Ik⟩ := ae_steps P hf hd9 k (by omega) I0
  obtain ⟨sk', hk2, hk3⟩ := fold_prefix _ (show k + 1 ≤ depth - full + 1 by omega) hs
  have hk4 := hk2
  rw [fold_succ _ hk1] at hk4
  obtain ⟨g1, c, y, z, e, k1, k2, k3⟩ := step_masks P hf hd9 (by omega) Ik hk4
  refine ⟨z, ?_, ?_⟩
  · obtain ⟨ys, hys, -⟩ := fold_logits P depth full true _ hk3
    rw [hys, k2, List.append_assoc, ← Ik.logits, List.getElem?_append_right (le_refl _)]
    simp
  · rw [← k3]
    rcases Nat.lt_or_ge k (depth - full) with hlt | hge
    · rw [(step_masks P hf hd9 (by omega) I1 hlast).1 _ (by omega)]
      exact masks_stable P hf hd9 I0 (depth - full) (k + 1) (by omega) (by omega) hk2 q1 _ (by omega)
    · obtain rfl : k = depth - full := by omega
      rw [hs] at hk2
      cases hk2
      rfl

/-- **C87** The hypothesis of `C87_decoder` is met by every generated octree for which every layer has a node with a larger second logit (so that
`octree_split` does not have to add one). -/
theorem C87_predicts_generated (P : Params) (cfg : DecCfg) [cfg.Ok] (cout : Nat) {depth full B dev : Nat} (hf : 1 ≤ full) (hfd : full ≤ depth) (hd9 : depth ≤ 9) (hB : 1 ≤ B)
    (hB' : B ≤ 2 ^ 15) (x : List (Fin cfg.code → ℚ)) (hx : x.length = 8 ^ full * B) (st : AeState F)
    (hst : aeDecodeCode P cfg cout depth full dev ⟨cfg.code, x⟩ = .ok st)
    (hpos : ∀ (l : List (Fin 2 → ℚ)), (⟨2, l⟩ : Tensor) ∈ st.logits → ∃ v ∈ l, v 0 < v 1) : PredictsOctree st.octree full depth st.logits := by
  obtain ⟨st', y, h2, w, -⟩ := ae_decode (F := F) P cfg cout (dev := dev) hf hfd hd9 hB hB' x hx
  rw [hst] at h2
  cases h2
  have key := decode_masks P cfg cout hf hfd hd9 hB hB' x hx st hst
  intro d hd1 hd2
  obtain ⟨z, h1, h2⟩ := key (d - full) (by omega)
  rw [show full + (d - full) = d by omega] at h2
  refine ⟨z, number 0 (st.octree.masks d), h1, w.wf'.children d hd2, ?_⟩
  obtain ⟨v, hv1, hv2⟩ := hpos z (List.mem_of_getElem? h1)
  have hcount : 0 < (z.map fun v => decide (v 0 < v 1)).count true :=
    List.count_pos_iff.2 (List.mem_map.2 ⟨v, hv1, by simpa using hv2⟩)
  unfold maskOf at h2
  rw [forceFirst_of_pos _ hcount] at h2
  rw [← h2]
  have := masks_of_wf w.wf' d hd2
  unfold Octree.masks at this
  conv => lhs; unfold Octree.masks
  have hc := w.wf'.children d hd2
  rw [hc]
  rfl

theorem aeLevel_logit {P : Params} {cfg : DecCfg} {full : Nat} {o : Octree F} {t : Tensor} {i : Nat} {r : Tensor × Tensor} (h : aeLevel P cfg full o t i = .ok r) :
    ∃ name t', linear P name 64 2 true t' = .ok r.2 := by
  unfold aeLevel at h
  obtain ⟨c, -, h⟩ := bind_ok h
  obtain ⟨t1, -, h⟩ := bind_ok h
  obtain ⟨t2, -, h⟩ := bind_ok h
  obtain ⟨l, hl, h⟩ := bind_ok h
  cases h
  unfold predictModule at hl
  obtain ⟨t3, -, hl⟩ := bind_ok hl
  exact ⟨_, t3, hl⟩

/-- With weights zero the logits are the bias. -/
theorem logits_bias (P : Params) (cfg : DecCfg) (hw : ∀ name n k i j, P.weight name n k i j = 0) (b : Nat → ℚ) (hb : ∀ name j, P.bias name j = b j) (depth full : Nat)
    (update : Bool) (l : List Nat) : ∀ {st st' : AeState F}, l.foldlM (aeDecStep P cfg depth full update) st = .ok st' →
      (∀ t ∈ st.logits, ∀ v ∈ t.rows, ∀ i, v i = b i) → ∀ t ∈ st'.logits, ∀ v ∈ t.rows, ∀ i, v i = b i := by
  induction l with
  | nil =>
    intro st st' h h0
    cases h
    exact h0
  | cons i l ih =>
    intro st st' h h0
    rw [List.foldlM_cons] at h
    obtain ⟨s1, h1, h⟩ := bind_ok h
    refine ih h ?_
    unfold aeDecStep at h1
    obtain ⟨r, hr, h1⟩ := bind_ok h1
    obtain ⟨o, -, h1⟩ := bind_ok h1
    cases h1
    intro t ht
    rcases List.mem_append.1 ht with ht | ht
    · exact h0 t ht
    · obtain rfl : t = r.2 := by simpa using ht
      obtain ⟨name, t', hl⟩ := aeLevel_logit hr
      unfold linear Tensor.on at hl
      obtain ⟨y, -, hl⟩ := bind_ok hl
      obtain ⟨z, hz, hl⟩ := bind_ok hl
      cases hz
      have e := (Except.ok.inj hl).symm
      rw [e]
      intro v hv j
      obtain ⟨u, -, rfl⟩ := List.mem_map.1 hv
      simp [hw, hb]

/-- The hypotheses of C87 are met: a network with weights zero that always predicts children (second logit 1, first logit 0), two samples,
depth 4, full depth 2. -/
example : ∃ (P : Params) (x : List (Fin 64 → ℚ)) (t : Octree ℚ) (st : AeState ℚ), x ≠ [] ∧ t.depth = 4 ∧ t.batchSize = 2 ∧
    aeDecoder P aeCfg 4 4 2 false ⟨64, x⟩ t = .ok st ∧ PredictsOctree t 2 4 st.logits ∧ t.Valid 4 ∧ 2 ≤ t.fullDepth ∧ x.length = t.nnum 2 ∧
    ∀ d ≤ 4, 0 < t.nnumNempty d ∧ NeighExact t.batchSize d t.keys t.neighs := by
  let P : Params := ⟨fun _ _ _ _ => 0, fun _ j => j, fun _ _ => 1, fun _ _ => 0, fun _ _ => 0, fun _ _ => 1, false, fun _ _ _ => 1, id, id⟩
  obtain ⟨st, y, h1, h2, h3, h4, h5, h6, h7, h8, h9, h10, h11⟩ := ae_decode (F := ℚ) P aeCfg 4 (dev := 0) (depth := 4) (full := 2) (B := 2) (by decide) (by decide)
    (by decide) (by decide) (by decide) (List.replicate 128 1) (by simp)
  refine ⟨P, List.replicate 128 1, st.octree, st, by simp, h3, h5, ?_, ?_, h2, by omega, ?_, fun d hd => ⟨h7 d hd, h6 d hd⟩⟩
  · exact C87_fixpoint P aeCfg 4 (B := 2) (by decide) (by decide) (by decide) (by decide) (by decide) _ (by simp) st h1
  · refine C87_predicts_generated P aeCfg 4 (B := 2) (by decide) (by decide) (by decide) (by decide) (by decide) _ (by simp) st h1 ?_
    intro l hl
    have hb : ∀ t ∈ st.logits, ∀ v ∈ t.rows, ∀ i, v i = ((i.val : Nat) : ℚ) := by
      have h := h1
      unfold aeDecodeCode at h
      obtain ⟨o0, -, h⟩ := bind_ok h
      unfold aeDecoder at h
      obtain ⟨s2, hs, h⟩ := bind_ok h
      obtain ⟨c, -, h⟩ := bind_ok h
      obtain ⟨sig, -, h⟩ := bind_ok h
      obtain ⟨sig', -, h⟩ := bind_ok h
      cases h
      have := logits_bias P aeCfg (fun _ _ _ _ _ => rfl) (fun j => (j : ℚ)) (fun _ _ => rfl) 4 2 true _ hs (by intro t ht; cases ht)
      exact this
    obtain ⟨j, hj, e⟩ := List.mem_iff_getElem.1 hl
    obtain ⟨z, hz1, hz2⟩ := h11 j (by omega)
    rw [List.getElem?_eq_getElem hj, e] at hz1
    cases hz1
    have hpos : 0 < st.octree.nnum (2 + j) := by
      have := h7 (2 + j) (by omega)
      rw [h2.wf'.nnumNempty _ (by omega)] at this
      rw [wf_nnum h2.wf' _ (by omega)]
      exact lt_of_lt_of_le this List.count_le_length
    obtain ⟨v, l', rfl⟩ : ∃ v l', l = v :: l' := by
      cases l with
      | nil => simp at hz2; omega
      | cons v l' => exact ⟨v, l', rfl⟩
    refine ⟨v, by simp, ?_⟩
    have := hb _ hl v (by simp)
    rw [this 0, this 1]
    norm_num
  · rw [nnum_full h2 2 (by omega), h5]
    simp

end Ocnn
