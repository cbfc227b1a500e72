import Verif.OUNet
import Verif.PropsReplay

/-! Decoders that run some part of a network in every iteration: the arguments of `AutoProofs`, `AutoReplay` and `PropsReplay` for any such part (`lev`), given that it returns tensors
of the right sizes (`LevelOk`) and reads only the layers of the octree that exist (`LevelSame`). -/

set_option linter.unusedSimpArgs false
set_option linter.unusedVariables false

namespace Ocnn
open Spec
variable {F : Type} {cfg : DecCfg} [cfg.Ok] {lev : Octree F → Tensor → Nat → M (Tensor × Tensor)}

/-- Decoding that starts with a full octree. -/
def levelFree (lev : Octree F → Tensor → Nat → M (Tensor × Tensor)) (P : Params) (cfg : DecCfg) (cout depth full B dev : Nat) (t : Tensor) : M (AeState F) := do
  let o ← Octree.initOctree depth full B dev
  levelDecoder lev P cfg cout depth full true t o

/-- An iteration of the decoder runs and returns tensors of the right sizes. -/
def LevelOk (lev : Octree F → Tensor → Nat → M (Tensor × Tensor)) (cfg : DecCfg) (depth full B : Nat) : Prop :=
  ∀ (k : Nat) (st : AeState F), full + k ≤ depth → AeInv cfg depth full B k st → ∃ (c : Nat) (y : List (Fin c → ℚ)) (x : List (Fin 2 → ℚ)),
    lev st.octree st.deconv k = .ok (⟨c, y⟩, ⟨2, x⟩) ∧ (cfg.channels full)[full + k]? = some c ∧ y.length = st.octree.nnum (full + k) ∧
    x.length = st.octree.nnum (full + k)

/-- An iteration of the decoder computes the same on octrees with the same layers. -/
def LevelSame (lev : Octree F → Tensor → Nat → M (Tensor × Tensor)) (cfg : DecCfg) (depth full B : Nat) : Prop :=
  ∀ t : Octree F, t.Valid depth → t.depth = depth → t.batchSize = B → (∀ d, 1 ≤ d → d ≤ depth → NeighExact t.batchSize d t.keys t.neighs) →
    ∀ (k : Nat) (st : AeState F), full + k ≤ depth → AeInv cfg depth full B k st → (∀ i < full + k, st.octree.masks i = t.masks i) →
    ∀ x, lev st.octree x k = lev t x k

theorem lv_step {depth full B k : Nat} (hlev : LevelOk lev cfg depth full B) (hf : 1 ≤ full) (hd9 : depth ≤ 9) (hk : full + k < depth) {st : AeState F}
    (I : AeInv cfg depth full B k st) : ∃ st', levelStep lev depth full true st k = .ok st' ∧ AeInv cfg depth full B (k + 1) st' := by
  obtain ⟨masks, hI⟩ := I.inv
  obtain ⟨c, y, x, e, hc, hy, hx⟩ := hlev _ _ (by omega) I
  obtain ⟨o', e1, J, f1, f2, f3⟩ := decodeStep_lt hI (fun _ _ => x.map fun v => argmax2 (v 0, v 1)) (by
      intro v hv
      obtain ⟨u, -, rfl⟩ := List.mem_map.1 hv
      exact argmax2_mem _) (by simpa using hx) (by rw [I.hdepth]; exact hk)
  have hu : aeUpdate depth (full + k) ⟨2, x⟩ st.octree = .ok o' := by
    unfold aeUpdate
    rw [splitOf_ok]
    unfold Octree.decodeStep at e1
    rw [← e1]
    obtain ⟨o1, h1, -, e2⟩ := hI.wf.split (x.map fun v => argmax2 (v 0, v 1)) (by
      intro v hv
      obtain ⟨u, -, rfl⟩ := List.mem_map.1 hv
      exact argmax2_mem _) (by simpa using hx) hI.pos
    have hdep : o1.depth = depth := by rw [e2]; exact I.hdepth
    simp only [bind, Except.bind, h1, hdep]
  have hnn : ∀ j ≤ full + k, o'.nnum j = st.octree.nnum j := by
    intro j hj
    rw [wf_nnum J.wf j (by omega), wf_nnum hI.wf j hj]
    unfold upd
    rw [if_neg (by omega)]
    by_cases hjk : j = full + k
    · subst hjk
      rw [if_pos rfl, forceFirst_length, splitMask_length, List.length_map, hx, wf_nnum hI.wf _ hj]
    · rw [if_neg hjk]
  refine ⟨⟨o', ⟨c, y⟩, st.logits ++ [⟨2, x⟩]⟩, ?_, ⟨_, J⟩, ⟨c, y, ?_⟩, ?_, ?_, ?_, ?_, ?_⟩
  · unfold levelStep
    rw [e]
    simp only [bind, Except.bind, if_true, hu]
    rfl
  · rw [show full + (k + 1 - 1) = full + k by omega]
    exact ⟨hc, rfl, by rw [hnn _ (le_refl _)]; exact hy⟩
  · simp [I.logits]
  · intro j hj
    dsimp only
    by_cases hjk : j < k
    · obtain ⟨u, e1, e2⟩ := I.logit j hjk
      exact ⟨u, by rw [List.getElem?_append_left (by rw [I.logits]; exact hjk)]; exact e1, by rw [hnn _ (by omega)]; exact e2⟩
    · obtain rfl : j = k := by omega
      exact ⟨x, by rw [← I.logits, List.getElem?_append_right (le_refl _)]; simp, by rw [hnn _ (le_refl _)]; exact hx⟩
  · exact f1.trans I.hdepth
  · exact f2.trans I.hfull
  · exact f3.trans I.hbatch

theorem lv_steps {depth full B : Nat} (hlev : LevelOk lev cfg depth full B) (hf : 1 ≤ full) (hd9 : depth ≤ 9) (n : Nat) (hn : full + n ≤ depth) {st : AeState F}
    (I : AeInv cfg depth full B 0 st) : ∃ st', (List.range n).foldlM (levelStep lev depth full true) st = .ok st' ∧ AeInv cfg depth full B n st' := by
  induction n with
  | zero => exact ⟨st, rfl, I⟩
  | succ n ih =>
    obtain ⟨st1, e1, I1⟩ := ih (by omega)
    obtain ⟨st2, e2, I2⟩ := lv_step hlev hf hd9 (by omega) I1
    refine ⟨st2, ?_, I2⟩
    rw [List.range_succ, List.foldlM_append, e1]
    show (List.foldlM (levelStep lev depth full true) st1 [n]) = _
    rw [List.foldlM_cons, e2]
    rfl

theorem lv_decode (P : Params) (cfg : DecCfg) [cfg.Ok] (cout : Nat) {depth full B dev : Nat} (hlev : LevelOk lev cfg depth full B) (hf : 1 ≤ full) (hfd : full ≤ depth) (hd9 : depth ≤ 9) (hB : 1 ≤ B) (hB' : B ≤ 2 ^ 15)
    (x : List (Fin cfg.code → ℚ)) (hx : x.length = 8 ^ full * B) : ∃ (st : AeState F) (y : List (Fin cout → ℚ)), levelFree lev P cfg cout depth full B dev ⟨cfg.code, x⟩ = .ok st ∧
      st.octree.Valid depth ∧ st.octree.depth = depth ∧ st.octree.fullDepth = full ∧ st.octree.batchSize = B ∧
      (∀ d ≤ depth, NeighExact st.octree.batchSize d st.octree.keys st.octree.neighs) ∧ (∀ d ≤ depth, 0 < st.octree.nnumNempty d) ∧
      st.deconv = ⟨cout, y⟩ ∧ y.length = st.octree.nnumNempty depth ∧ st.logits.length = depth + 1 - full ∧
      ∀ j < depth + 1 - full, ∃ z : List (Fin 2 → ℚ), st.logits[j]? = some ⟨2, z⟩ ∧ z.length = st.octree.nnum (full + j) := by
  obtain ⟨o0, h0, e1, e2, e3, hI0⟩ := init_inv (F := F) depth full B dev hfd (by omega) hB' (by omega)
  have I0 : AeInv cfg depth full B 0 (⟨o0, ⟨cfg.code, x⟩, []⟩ : AeState F) := by
    refine ⟨⟨_, hI0⟩, ⟨cfg.code, x, channels_full cfg full (by omega), rfl, ?_⟩, rfl, fun j hj => absurd hj (by omega), e1, e2, e3⟩
    show x.length = o0.nnum full
    rw [nnum_full hI0.wf.valid full (by omega), hx, e3]
  obtain ⟨st1, g1, I1⟩ := lv_steps hlev hf hd9 (depth - full) (by omega) I0
  obtain ⟨masks, hI⟩ := I1.inv
  obtain ⟨c, y, z, e, hc, hy, hz⟩ := hlev _ _ (by omega) I1
  have hd : full + (depth - full) = depth := by omega
  rw [hd] at hI hc hy hz
  obtain ⟨o', k1, J, hpos, f1, f2, f3⟩ := decodeStep_last hI (fun _ _ => z.map fun v => argmax2 (v 0, v 1)) (by
      intro v hv
      obtain ⟨u, -, rfl⟩ := List.mem_map.1 hv
      exact argmax2_mem _) (by simpa using hz) I1.hdepth.symm
  have hu : aeUpdate depth depth ⟨2, z⟩ st1.octree = .ok o' := by
    unfold aeUpdate
    rw [splitOf_ok]
    unfold Octree.decodeStep at k1
    rw [← k1]
    obtain ⟨o1, h1, -, e2⟩ := hI.wf.split (z.map fun v => argmax2 (v 0, v 1)) (by
      intro v hv
      obtain ⟨u, -, rfl⟩ := List.mem_map.1 hv
      exact argmax2_mem _) (by simpa using hz) hI.pos
    have hdep : o1.depth = depth := by rw [e2]; exact I1.hdepth
    simp only [bind, Except.bind, h1, hdep]
  have hnn : ∀ j ≤ depth, o'.nnum j = st1.octree.nnum j := by
    intro j hj
    rw [wf_nnum J.wf j (by omega), wf_nnum hI.wf j hj]
    unfold upd
    by_cases hjk : j = depth
    · subst hjk
      rw [if_pos rfl, forceFirst_length, splitMask_length, List.length_map, hz, wf_nnum hI.wf _ hj]
    · rw [if_neg hjk]
  have w := J.wf.valid
  have hne : ∀ d ≤ depth, NeighExact o'.batchSize d o'.keys o'.neighs := fun d h2 => J.wf.neighExact d h2 (Nat.zero_le d) J.neigh
  have L := layers_single P w (le_refl _) (fun d _ h2 => hne d h2)
  have hbn : BnOk P (ht [o'] false depth) := bnOk_of w _ (by omega) (le_refl _)
  have hr : Rel 0 (ht [o'] false depth) c ⟨c, y⟩ ⟨c, y⟩ := rel_self _ (by simpa [rowsAt, hnn depth (le_refl _)] using hy)
  obtain ⟨a, b, q1, -, hab⟩ := L.predictModule "header" cout hbn hr
  obtain ⟨a', b', q2, -, hab'⟩ := L.depadT ⟨Nat.zero_le _, le_refl _⟩ (L.tanhT hab)
  obtain ⟨sig, hs, rfl, -⟩ := rel_single hab'
  refine ⟨⟨o', ⟨cout, sig⟩, st1.logits ++ [⟨2, z⟩]⟩, sig, ?_, w, f1.trans I1.hdepth, f2.trans I1.hfull, f3.trans I1.hbatch, hne, ?_, rfl,
    by simpa [rowsAt] using hs, ?_, ?_⟩
  · unfold levelFree
    show (Octree.initOctree depth full B dev >>= fun o => levelDecoder lev P cfg cout depth full true ⟨cfg.code, x⟩ o) = _
    rw [h0]
    show levelDecoder lev P cfg cout depth full true ⟨cfg.code, x⟩ o0 = _
    unfold levelDecoder
    rw [show depth + 1 - full = (depth - full) + 1 by omega, List.range_succ, List.foldlM_append, g1]
    show (List.foldlM _ st1 [depth - full] >>= _) = _
    rw [List.foldlM_cons]
    have : levelStep lev depth full true st1 (depth - full) = .ok ⟨o', ⟨c, y⟩, st1.logits ++ [⟨2, z⟩]⟩ := by
      unfold levelStep
      rw [e, hd]
      simp only [bind, Except.bind, if_true, hu]
      rfl
    rw [this]
    simp only [List.foldlM_nil, bind, Except.bind, pure, Except.pure, getIdx_some hc, q1, q2]
  · intro d hd'
    rcases Nat.lt_or_ge d depth with h | h
    · exact J.pos_below d h
    · rw [show d = depth by omega]; exact hpos
  · simp [I1.logits]; omega
  · intro j hj
    dsimp only
    by_cases hjk : j < depth - full
    · obtain ⟨u, e1, e2⟩ := I1.logit j hjk
      exact ⟨u, by rw [List.getElem?_append_left (by rw [I1.logits]; exact hjk)]; exact e1, by rw [hnn _ (by omega)]; exact e2⟩
    · obtain rfl : j = depth - full := by omega
      exact ⟨z, by rw [← I1.logits, List.getElem?_append_right (le_refl _)]; simp, by rw [hd, hnn _ (le_refl _)]; exact hz⟩

theorem lv_fold_logits (depth full : Nat) (update : Bool) (l : List Nat) : ∀ {st st' : AeState F},
    l.foldlM (levelStep lev depth full update) st = .ok st' → ∃ ys, st'.logits = st.logits ++ ys ∧ ys.length = l.length := by
  induction l with
  | nil =>
    intro st st' h
    cases h
    exact ⟨[], by simp, rfl⟩
  | cons i l ih =>
    intro st st' h
    rw [List.foldlM_cons] at h
    unfold levelStep at h
    cases h1 : lev st.octree st.deconv i with
    | error e => simp [h1, bind, Except.bind] at h
    | ok r =>
      simp only [h1, bind, Except.bind] at h
      split at h
      · simp at h
      · rename_i st1 h2
        obtain ⟨ys, hy, hlen⟩ := ih h
        split at h2
        · simp at h2
        · cases h2
          exact ⟨r.2 :: ys, by rw [hy]; simp, by simp [hlen]⟩

/-- The two loops side by side: `st` generates its octree, the other run works on `t`. -/
theorem lv_loops_same {depth full : Nat} {t : Octree F} (hlev : LevelOk lev cfg depth full t.batchSize) (hsame : LevelSame lev cfg depth full t.batchSize) (hf : 1 ≤ full) (hd9 : depth ≤ 9) (w : t.Valid depth) (hdep : t.depth = depth)
    (hn : ∀ d, 1 ≤ d → d ≤ depth → NeighExact t.batchSize d t.keys t.neighs) {st : AeState F} (I : AeInv cfg depth full t.batchSize 0 st)
    (hm0 : ∀ i < full, st.octree.masks i = t.masks i) (n : Nat) (hN : full + n ≤ depth)
    (hlog : ∀ k < n, ∀ sT, (List.range (k + 1)).foldlM (levelStep lev depth full false) ⟨t, st.deconv, st.logits⟩ = .ok sT →
      ∃ x, sT.logits[k]? = some ⟨2, x⟩ ∧ maskOf x = t.masks (full + k)) :
    ∃ st', (List.range n).foldlM (levelStep lev depth full true) st = .ok st' ∧ AeInv cfg depth full t.batchSize n st' ∧
      (∀ i < full + n, st'.octree.masks i = t.masks i) ∧
      (List.range n).foldlM (levelStep lev depth full false) ⟨t, st.deconv, st.logits⟩ = .ok ⟨t, st'.deconv, st'.logits⟩ := by
  induction n with
  | zero => exact ⟨st, rfl, I, hm0, rfl⟩
  | succ n ih =>
    obtain ⟨s1, h1, I1, hm1, h1'⟩ := ih (by omega) fun k hk => hlog k (by omega)
    obtain ⟨s2, h2, I2⟩ := lv_step hlev hf hd9 (by omega) I1
    obtain ⟨c, y, x, e, hc, hy, hx⟩ := hlev _ _ (by omega) I1
    have e' := e
    rw [hsame _ w hdep rfl hn _ _ (by omega) I1 hm1] at e'
    have hT : (List.range (n + 1)).foldlM (levelStep lev depth full false) ⟨t, st.deconv, st.logits⟩ = .ok ⟨t, ⟨c, y⟩, s1.logits ++ [⟨2, x⟩]⟩ := by
      rw [fold_succ _ h1']
      unfold levelStep
      rw [e']
      rfl
    have hF : (List.range (n + 1)).foldlM (levelStep lev depth full true) st = .ok s2 := by
      rw [fold_succ _ h1]
      exact h2
    unfold levelStep at h2
    rw [e] at h2
    obtain ⟨masks, hI⟩ := I1.inv
    cases hu : aeUpdate depth (full + n) ⟨2, x⟩ s1.octree with
    | error er => simp [hu, bind, Except.bind] at h2
    | ok o' =>
      simp only [bind, Except.bind, if_true, hu] at h2
      cases h2
      obtain ⟨g1, g2, g3, g4, -⟩ := aeUpdate_masks hI I1.hdepth (by omega) x hx hu
      obtain ⟨x', hx1, hx2⟩ := hlog n (by omega) _ hT
      have : x' = x := by
        dsimp only at hx1
        rw [← I1.logits, List.getElem?_append_right (le_refl _)] at hx1
        simpa using hx1.symm
      subst this
      refine ⟨_, hF, I2, ?_, hT⟩
      intro i hi
      rcases Nat.lt_or_ge i (full + n) with hlt | hge
      · exact (g1 i hlt).trans (hm1 i hlt)
      · obtain rfl : i = full + n := by omega
        exact g2.trans hx2

/-- An iteration keeps the masks of the layers above. -/
theorem lv_step_masks {depth full B k : Nat} (hlev : LevelOk lev cfg depth full B) (hf : 1 ≤ full) (hd9 : depth ≤ 9) (hk : full + k ≤ depth) {st st' : AeState F}
    (I : AeInv cfg depth full B k st) (h : levelStep lev depth full true st k = .ok st') :
    (∀ i < full + k, st'.octree.masks i = st.octree.masks i) ∧
      ∃ c y x, lev st.octree st.deconv k = .ok (⟨c, y⟩, ⟨2, x⟩) ∧ st'.deconv = ⟨c, y⟩ ∧ st'.logits = st.logits ++ [⟨2, x⟩] ∧
        st'.octree.masks (full + k) = maskOf x := by
  obtain ⟨c, y, x, e, hc, hy, hx⟩ := hlev _ _ hk I
  obtain ⟨masks, hI⟩ := I.inv
  unfold levelStep at h
  rw [e] at h
  cases hu : aeUpdate depth (full + k) ⟨2, x⟩ st.octree with
  | error er => simp [hu, bind, Except.bind] at h
  | ok o' =>
    simp only [bind, Except.bind, if_true, hu] at h
    cases h
    have h := aeUpdate_masks hI I.hdepth hk x hx hu
    exact ⟨h.1, c, y, x, e, rfl, rfl, h.2.1⟩

/-- The masks of the generated layers do not change any more. -/
theorem lv_masks_stable {depth full B : Nat} (hlev : LevelOk lev cfg depth full B) (hf : 1 ≤ full) (hd9 : depth ≤ 9) {st : AeState F} (I : AeInv cfg depth full B 0 st) (N n : Nat)
    (hn : n ≤ N) (hN : full + N ≤ depth) {s sN : AeState F} (h : (List.range n).foldlM (levelStep lev depth full true) st = .ok s)
    (h' : (List.range N).foldlM (levelStep lev depth full true) st = .ok sN) : ∀ i < full + n, sN.octree.masks i = s.octree.masks i := by
  induction N generalizing sN with
  | zero =>
    obtain rfl : n = 0 := by omega
    rw [h] at h'
    cases h'
    intro i _
    rfl
  | succ N ih =>
    rcases Nat.lt_or_ge N n with hlt | hge
    · obtain rfl : n = N + 1 := by omega
      rw [h] at h'
      cases h'
      intro i _
      rfl
    · obtain ⟨s1, h1, I1⟩ := lv_steps hlev hf hd9 N (by omega) I
      rw [fold_succ _ h1] at h'
      intro i hi
      exact ((lv_step_masks hlev hf hd9 (by omega) I1 h').1 i (by omega)).trans (ih (by omega) (by omega) h1 i hi)

/-- The run on an octree whose masks agree with the generated ones. -/
theorem lv_loops_follow {depth full : Nat} {t : Octree F} (hlev : LevelOk lev cfg depth full t.batchSize) (hsame : LevelSame lev cfg depth full t.batchSize) (hf : 1 ≤ full) (hd9 : depth ≤ 9) (w : t.Valid depth) (hdep : t.depth = depth)
    (hn : ∀ d, 1 ≤ d → d ≤ depth → NeighExact t.batchSize d t.keys t.neighs) {st : AeState F} (I : AeInv cfg depth full t.batchSize 0 st) (n : Nat)
    (hN : full + n ≤ depth) {s : AeState F} (h : (List.range n).foldlM (levelStep lev depth full true) st = .ok s)
    (hm : ∀ i < full + n, s.octree.masks i = t.masks i) :
    (List.range n).foldlM (levelStep lev depth full false) ⟨t, st.deconv, st.logits⟩ = .ok ⟨t, s.deconv, s.logits⟩ := by
  induction n generalizing s with
  | zero =>
    cases h
    rfl
  | succ n ih =>
    obtain ⟨s1, h1, I1⟩ := lv_steps hlev hf hd9 n (by omega) I
    have h2 := h
    rw [fold_succ _ h1] at h2
    obtain ⟨g1, c, y, x, e, e1, e2, -⟩ := lv_step_masks hlev hf hd9 (by omega) I1 h2
    have hm1 : ∀ i < full + n, s1.octree.masks i = t.masks i := fun i hi => (g1 i hi).symm.trans (hm i (by omega))
    rw [fold_succ _ (ih (by omega) h1 hm1)]
    unfold levelStep
    rw [hsame _ w hdep rfl hn _ _ (by omega) I1 hm1] at e
    rw [e, e1, e2]
    rfl

theorem lv_replay_run (P : Params) (cfg : DecCfg) [cfg.Ok] (cout : Nat) {depth full dev : Nat} {t : Octree F} (hlev : LevelOk lev cfg depth full t.batchSize) (hsame : LevelSame lev cfg depth full t.batchSize) (hf : 1 ≤ full) (hd9 : depth ≤ 9) (w : t.Valid depth)
    (hdep : t.depth = depth) (hfull : full ≤ t.fullDepth) (hB : 1 ≤ t.batchSize)
    (hn : ∀ d, 1 ≤ d → d ≤ depth → NeighExact t.batchSize d t.keys t.neighs) (x : List (Fin cfg.code → ℚ)) (hx : x.length = t.nnum full) (st : AeState F)
    (hst : levelDecoder lev P cfg cout depth full false ⟨cfg.code, x⟩ t = .ok st)
    (hlog : ∀ k, full + k ≤ depth → ∃ y, st.logits[k]? = some ⟨2, y⟩ ∧ maskOf y = t.masks (full + k)) :
    ∃ st', levelFree lev P cfg cout depth full t.batchSize dev ⟨cfg.code, x⟩ = .ok st' ∧ SameOctree st'.octree t depth ∧ st'.octree.depth = depth ∧
      st'.octree.batchSize = t.batchSize ∧ st'.logits = st.logits ∧ st'.deconv = st.deconv := by
  have hfd : full ≤ depth := le_trans hfull w.full_le
  have hx8 : x.length = 8 ^ full * t.batchSize := by rw [hx]; exact nnum_full w full hfull
  obtain ⟨o0, h0, e1, e2, e3, hI0⟩ := init_inv (F := F) depth full t.batchSize dev hfd (by omega) w.batch_le (by omega)
  have I0 : AeInv cfg depth full t.batchSize 0 (⟨o0, ⟨cfg.code, x⟩, []⟩ : AeState F) := by
    refine ⟨⟨_, hI0⟩, ⟨cfg.code, x, channels_full cfg full (by omega), rfl, ?_⟩, rfl, fun j hj => absurd hj (by omega), e1, e2, e3⟩
    show x.length = o0.nnum full
    rw [nnum_full hI0.wf.valid full (by omega), hx8, e3]
  have hm0 : ∀ i < full, o0.masks i = t.masks i := by
    intro i hi
    rw [masks_of_wf hI0.wf i (by omega), masks_full w i (by omega)]
  -- the run on the ground truth
  unfold levelDecoder at hst
  cases hT : (List.range (depth + 1 - full)).foldlM (levelStep lev depth full false) ⟨t, ⟨cfg.code, x⟩, []⟩ with
  | error e => simp [hT, bind, Except.bind] at hst
  | ok sT =>
    have hlT : st.logits = sT.logits := by
      rw [hT] at hst
      simp only [bind, Except.bind] at hst
      split at hst <;> try simp at hst
      split at hst <;> try simp at hst
      split at hst <;> try simp at hst
      cases hst
      rfl
    rw [hlT] at hlog
    have hl' : ∀ k, full + k ≤ depth → ∀ s, (List.range (k + 1)).foldlM (levelStep lev depth full false) ⟨t, ⟨cfg.code, x⟩, []⟩ = .ok s →
        ∃ y, s.logits[k]? = some ⟨2, y⟩ ∧ maskOf y = t.masks (full + k) := by
      intro k hk s hs
      obtain ⟨y, hy1, hy2⟩ := hlog k hk
      refine ⟨y, ?_, hy2⟩
      obtain ⟨s1, g1, g2⟩ := fold_prefix _ (show k + 1 ≤ depth + 1 - full by omega) hT
      rw [hs] at g1
      cases g1
      obtain ⟨ys, hys, -⟩ := lv_fold_logits depth full false _ g2
      obtain ⟨zs, hzs, hlen⟩ := lv_fold_logits depth full false _ hs
      rw [hys, List.getElem?_append_left (by rw [hzs]; simp [hlen])] at hy1
      exact hy1
    obtain ⟨s1, q1, I1, hm1, q1'⟩ := lv_loops_same hlev hsame hf hd9 w hdep hn I0 hm0 (depth - full) (by omega) (fun k hk => hl' k (by omega))
    obtain ⟨masks, hI⟩ := I1.inv
    obtain ⟨c, y, z, e, hc, hy, hz⟩ := hlev _ _ (by omega) I1
    have e' := e
    rw [hsame _ w hdep rfl hn _ _ (by omega) I1 hm1] at e'
    have hNd : depth + 1 - full = depth - full + 1 := by omega
    have hd : full + (depth - full) = depth := by omega
    have hT' : sT = ⟨t, ⟨c, y⟩, s1.logits ++ [⟨2, z⟩]⟩ := by
      rw [hNd, fold_succ _ q1'] at hT
      unfold levelStep at hT
      rw [e'] at hT
      cases hT
      rfl
    -- the last update
    obtain ⟨st1, r1, -⟩ : ∃ st' : AeState F, levelFree lev P cfg cout depth full t.batchSize dev ⟨cfg.code, x⟩ = .ok st' ∧ True := by
      obtain ⟨st', y', h, -⟩ := lv_decode (F := F) P cfg cout hlev (dev := dev) hf hfd hd9 hB w.batch_le x hx8
      exact ⟨st', h, trivial⟩
    refine ⟨st1, r1, ?_⟩
    unfold levelFree at r1
    rw [h0] at r1
    change levelDecoder lev P cfg cout depth full true ⟨cfg.code, x⟩ o0 = .ok st1 at r1
    unfold levelDecoder at r1
    rw [hNd, fold_succ _ q1] at r1
    unfold levelStep at r1
    rw [e] at r1
    cases hu : aeUpdate depth (full + (depth - full)) ⟨2, z⟩ s1.octree with
    | error er => simp [hu, bind, Except.bind] at r1
    | ok o' =>
      obtain ⟨g1, g2, g3, g4, g5⟩ := aeUpdate_masks hI I1.hdepth (by omega) z hz hu
      obtain ⟨x', hx1, hx2⟩ := hlog (depth - full) (by omega)
      have : x' = z := by
        rw [hT'] at hx1
        dsimp only at hx1
        rw [← I1.logits, List.getElem?_append_right (le_refl _)] at hx1
        simpa using hx1.symm
      subst this
      have hmm : ∀ i ≤ depth, o'.masks i = t.masks i := by
        intro i hi
        rcases Nat.lt_or_ge i depth with hlt | hge
        · exact (g1 i (by omega)).trans (hm1 i (by omega))
        · obtain rfl : i = depth := by omega
          rw [hd] at g2 hx2
          exact g2.trans hx2
      have wo : o'.Valid depth := by
        rw [hd] at g5
        exact g5 rfl
      have hdo : o'.depth = depth := g3.trans I1.hdepth
      have hbo : o'.batchSize = t.batchSize := g4.trans I1.hbatch
      have hsp : SameSplit o' t depth := same_split wo w (hdo.trans hdep.symm) (le_refl _) (le_refl _) (hmm _ (le_refl _))
      simp only [bind, Except.bind, pure, Except.pure, if_true, hu, depadT_congr hsp] at r1
      rw [hT, hT'] at hst
      simp only [bind, Except.bind, pure, Except.pure] at hst
      have key : st1.octree = o' ∧ st1.logits = st.logits ∧ st1.deconv = st.deconv := by
        split at hst
        · simp at hst
        · rename_i v hv
          rw [hv] at r1
          dsimp only at r1
          split at hst
          · simp at hst
          · rename_i u hu'
            rw [hu'] at r1
            dsimp only at r1
            split at hst
            · simp at hst
            · rename_i a ha
              rw [ha] at r1
              cases r1
              cases hst
              exact ⟨rfl, rfl, rfl⟩
      obtain ⟨k1, k2, k3⟩ := key
      rw [k1]
      exact ⟨fun d hd' => same_tables wo w hbo hd' hd' fun i hi => hmm i (by omega), hdo, hbo, k2, k3⟩

/-- Conversely, the run on the octree that was generated from a code, with the same code, returns the logits and the signal of the generation. -/
theorem lv_fixpoint (P : Params) (cfg : DecCfg) [cfg.Ok] (cout : Nat) {depth full B dev : Nat} (hlev : LevelOk lev cfg depth full B) (hsame : LevelSame lev cfg depth full B) (hf : 1 ≤ full) (hfd : full ≤ depth) (hd9 : depth ≤ 9) (hB : 1 ≤ B)
    (hB' : B ≤ 2 ^ 15) (x : List (Fin cfg.code → ℚ)) (hx : x.length = 8 ^ full * B) (st : AeState F)
    (hst : levelFree lev P cfg cout depth full B dev ⟨cfg.code, x⟩ = .ok st) : levelDecoder lev P cfg cout depth full false ⟨cfg.code, x⟩ st.octree = .ok st := by
  obtain ⟨st', y, h2, w, hdep, hfull, hbatch, hn, -⟩ := lv_decode (F := F) P cfg cout hlev (dev := dev) hf hfd hd9 hB hB' x hx
  rw [hst] at h2
  cases h2
  obtain ⟨o0, h0, e1, e2, e3, hI0⟩ := init_inv (F := F) depth full B dev hfd (by omega) hB' (by omega)
  have I0 : AeInv cfg depth full B 0 (⟨o0, ⟨cfg.code, x⟩, []⟩ : AeState F) := by
    refine ⟨⟨_, hI0⟩, ⟨cfg.code, x, channels_full cfg full (by omega), rfl, ?_⟩, rfl, fun j hj => absurd hj (by omega), e1, e2, e3⟩
    show x.length = o0.nnum full
    rw [nnum_full hI0.wf.valid full (by omega), hx, e3]
  have hNd : depth + 1 - full = depth - full + 1 := by omega
  obtain ⟨s1, q1, I1⟩ := lv_steps hlev hf hd9 (depth - full) (by omega) I0
  unfold levelFree at hst
  rw [h0] at hst
  change levelDecoder lev P cfg cout depth full true ⟨cfg.code, x⟩ o0 = .ok st at hst
  unfold levelDecoder at hst ⊢
  rw [hNd] at hst ⊢
  rw [fold_succ _ q1] at hst
  cases hs : levelStep lev depth full true s1 (depth - full) with
  | error e => simp [hs, bind, Except.bind] at hst
  | ok s2 =>
    obtain ⟨g1, c, y, z, e, k1, k2, -⟩ := lv_step_masks hlev hf hd9 (by omega) I1 hs
    rw [hs] at hst
    simp only [bind, Except.bind, pure, Except.pure] at hst
    have ho : st.octree = s2.octree := by
      split at hst
      · simp at hst
      · split at hst
        · simp at hst
        · split at hst
          · simp at hst
          · cases hst
            rfl
    have hm : ∀ i < full + (depth - full), s1.octree.masks i = st.octree.masks i := by
      rw [ho]
      exact fun i hi => (g1 i hi).symm
    rw [← hbatch] at I0 I1 hlev hsame
    have hT := lv_loops_follow hlev hsame hf hd9 w hdep (fun d _ h => hn d h) I0 (depth - full) (by omega) q1 hm
    dsimp only at hT
    have hstep : levelStep lev depth full false ⟨st.octree, s1.deconv, s1.logits⟩ (depth - full) = .ok ⟨st.octree, s2.deconv, s2.logits⟩ := by
      unfold levelStep
      rw [hsame _ w hdep rfl (fun d _ h => hn d h) _ _ (by omega) I1 hm] at e
      rw [e, k1, k2]
      rfl
    rw [fold_succ _ hT, hstep]
    simp only [bind, Except.bind, pure, Except.pure]
    rw [← hst, ho]

/-- The masks of the generated octree are those of the logits, with the first node added where no node is predicted. -/
theorem lv_decode_masks (P : Params) (cfg : DecCfg) [cfg.Ok] (cout : Nat) {depth full B dev : Nat} (hlev : LevelOk lev cfg depth full B) (hf : 1 ≤ full) (hfd : full ≤ depth) (hd9 : depth ≤ 9) (hB : 1 ≤ B)
    (hB' : B ≤ 2 ^ 15) (x : List (Fin cfg.code → ℚ)) (hx : x.length = 8 ^ full * B) (st : AeState F)
    (hst : levelFree lev P cfg cout depth full B dev ⟨cfg.code, x⟩ = .ok st) :
    ∀ k ≤ depth - full, ∃ z, st.logits[k]? = some ⟨2, z⟩ ∧ st.octree.masks (full + k) = maskOf z := by
  obtain ⟨st', y, h2, w, hdep, hfull, hbatch, hn, -⟩ := lv_decode (F := F) P cfg cout hlev (dev := dev) hf hfd hd9 hB hB' x hx
  rw [hst] at h2
  cases h2
  obtain ⟨o0, h0, e1, e2, e3, hI0⟩ := init_inv (F := F) depth full B dev hfd (by omega) hB' (by omega)
  have I0 : AeInv cfg depth full B 0 (⟨o0, ⟨cfg.code, x⟩, []⟩ : AeState F) := by
    refine ⟨⟨_, hI0⟩, ⟨cfg.code, x, channels_full cfg full (by omega), rfl, ?_⟩, rfl, fun j hj => absurd hj (by omega), e1, e2, e3⟩
    show x.length = o0.nnum full
    rw [nnum_full hI0.wf.valid full (by omega), hx, e3]
  have hNd : depth + 1 - full = depth - full + 1 := by omega
  obtain ⟨s1, q1, I1⟩ := lv_steps hlev hf hd9 (depth - full) (by omega) I0
  unfold levelFree at hst
  rw [h0] at hst
  change levelDecoder lev P cfg cout depth full true ⟨cfg.code, x⟩ o0 = .ok st at hst
  unfold levelDecoder at hst
  rw [hNd] at hst
  obtain ⟨s2, hs, hst⟩ := bind_ok hst
  obtain ⟨c, -, hst⟩ := bind_ok hst
  obtain ⟨sig, -, hst⟩ := bind_ok hst
  obtain ⟨sig', -, hst⟩ := bind_ok hst
  cases hst
  have hlast := hs
  rw [fold_succ _ q1] at hlast
  -- the logits of layer `full + k` of the final state, and its mask
  intro k hk
  obtain ⟨sk, hk1, Ik⟩ := lv_steps hlev hf hd9 k (by omega) I0
  obtain ⟨sk', hk2, hk3⟩ := fold_prefix _ (show k + 1 ≤ depth - full + 1 by omega) hs
  have hk4 := hk2
  rw [fold_succ _ hk1] at hk4
  obtain ⟨g1, c, y, z, e, k1, k2, k3⟩ := lv_step_masks hlev hf hd9 (by omega) Ik hk4
  refine ⟨z, ?_, ?_⟩
  · obtain ⟨ys, hys, -⟩ := lv_fold_logits depth full true _ hk3
    rw [hys, k2, List.append_assoc, ← Ik.logits, List.getElem?_append_right (le_refl _)]
    simp
  · rw [← k3]
    rcases Nat.lt_or_ge k (depth - full) with hlt | hge
    · rw [(lv_step_masks hlev hf hd9 (by omega) I1 hlast).1 _ (by omega)]
      exact lv_masks_stable hlev hf hd9 I0 (depth - full) (k + 1) (by omega) (by omega) hk2 q1 _ (by omega)
    · obtain rfl : k = depth - full := by omega
      rw [hs] at hk2
      cases hk2
      rfl

/-- The hypothesis of `C87_decoder` is met by every generated octree for which every layer has a node with a larger second logit (so that
`octree_split` does not have to add one). -/
theorem lv_predicts (P : Params) (cfg : DecCfg) [cfg.Ok] (cout : Nat) {depth full B dev : Nat} (hlev : LevelOk lev cfg depth full B) (hf : 1 ≤ full) (hfd : full ≤ depth) (hd9 : depth ≤ 9) (hB : 1 ≤ B)
    (hB' : B ≤ 2 ^ 15) (x : List (Fin cfg.code → ℚ)) (hx : x.length = 8 ^ full * B) (st : AeState F)
    (hst : levelFree lev P cfg cout depth full B dev ⟨cfg.code, x⟩ = .ok st)
    (hpos : ∀ (l : List (Fin 2 → ℚ)), (⟨2, l⟩ : Tensor) ∈ st.logits → ∃ v ∈ l, v 0 < v 1) : PredictsOctree st.octree full depth st.logits := by
  obtain ⟨st', y, h2, w, -⟩ := lv_decode (F := F) P cfg cout hlev (dev := dev) hf hfd hd9 hB hB' x hx
  rw [hst] at h2
  cases h2
  have key := lv_decode_masks P cfg cout hlev hf hfd hd9 hB hB' x hx st hst
  intro d hd1 hd2
  obtain ⟨z, h1, h2⟩ := key (d - full) (by omega)
  rw [show full + (d - full) = d by omega] at h2
  refine ⟨z, number 0 (st.octree.masks d), h1, w.wf'.children d hd2, ?_⟩
  obtain ⟨v, hv1, hv2⟩ := hpos z (List.mem_of_getElem? h1)
  have hcount : 0 < (z.map fun v => decide (v 0 < v 1)).count true :=
    List.count_pos_iff.2 (List.mem_map.2 ⟨v, hv1, by simpa using hv2⟩)
  unfold maskOf at h2
  rw [forceFirst_of_pos _ hcount] at h2
  rw [← h2]
  have := masks_of_wf w.wf' d hd2
  unfold Octree.masks at this
  conv => lhs; unfold Octree.masks
  have hc := w.wf'.children d hd2
  rw [hc]
  rfl

end Ocnn
