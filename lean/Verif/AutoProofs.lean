import Verif.AutoEncoder
import Verif.NetShape
import Verif.PropsSplit

/-! The autoencoder. -/

set_option linter.unusedSimpArgs false

namespace Ocnn
open Spec
variable {F : Type}

theorem aeChannels_get (d : Nat) (hd : d ≤ 9) : ∃ c, aeChannels[d]? = some c ∧ c ≤ 512 := by
  have hlen : d < aeChannels.length := by unfold aeChannels; simp; omega
  refine ⟨aeChannels[d], List.getElem?_eq_getElem hlen, ?_⟩
  have : ∀ c ∈ aeChannels, c ≤ 512 := by unfold aeChannels; decide
  exact this _ (List.getElem_mem hlen)

/-- What the proofs need of the channels of a decoder: channels for the depths up to 9, and input sizes that fit into the buffer of the convolution. -/
class DecCfg.Ok (cfg : DecCfg) : Prop where
  len : cfg.base.length = 10
  le : ∀ c ∈ cfg.base, c ≤ 7000000
  code : cfg.code ≤ 7000000

instance : aeCfg.Ok := ⟨rfl, by unfold aeCfg aeChannels; decide, by unfold aeCfg; decide⟩

theorem channels_get (cfg : DecCfg) [h : cfg.Ok] (full d : Nat) (hd : d ≤ 9) : ∃ c, (cfg.channels full)[d]? = some c ∧ c ≤ 7000000 := by
  have hl := h.len
  unfold DecCfg.channels
  rw [List.getElem?_set]
  by_cases e : full = d
  · subst e
    exact ⟨cfg.code, by simp; omega, h.code⟩
  · have hlt : d < cfg.base.length := by omega
    exact ⟨cfg.base[d], by rw [if_neg e, List.getElem?_eq_getElem hlt], h.le _ (List.getElem_mem hlt)⟩

theorem channels_full (cfg : DecCfg) [h : cfg.Ok] (full : Nat) (hd : full ≤ 9) : (cfg.channels full)[full]? = some cfg.code := by
  have hl := h.len
  unfold DecCfg.channels
  rw [List.getElem?_set]
  simp; omega

namespace Layers
variable {P' P : Params} {cfg : DecCfg} [cfg.Ok] {S : Sys} {o' o : Octree F} {D : Nat}

theorem aeEncoder (L : Layers P' P S o' o D) {cin depth full : Nat} (hf : 1 ≤ full) (hfd : full ≤ depth) (hd9 : depth ≤ 9) (hD : S.lo false ≤ full ∧ depth ≤ D)
    (hc : 27 * cin ≤ maxBuffer) (hbn : ∀ d, full ≤ d → d ≤ depth → S.ok (S.ht false d)) {t s : Tensor}
    (h : S.R (S.ht false depth) cin t s) :
    Both (S.R (S.ht false full) 64) (aeEncoder P' cin depth full o' t) (aeEncoder P cin depth full o s) := by
  unfold Ocnn.aeEncoder
  obtain ⟨c, hcd, hc5⟩ := aeChannels_get depth hd9
  obtain ⟨cf, hcf, hcf5⟩ := aeChannels_get full (by omega)
  have hw : t.width = cin ∧ s.width = cin := by
    exact h.width
  have hgt : ¬ full > depth := by omega
  simp only [getIdx_some hcd, getIdx_some hcf, hw.1, hw.2, pyAssert, if_neg hgt, pure_bind, decide_true, if_true]
  show Both _ (Ocnn.convBnRelu P' _ cin c [3] 1 false o' depth t >>= _) (Ocnn.convBnRelu P _ cin c [3] 1 false o depth s >>= _)
  refine (L.convBnRelu3 _ c (by omega) (by omega) hc (hbn _ (by omega) (by omega)) h).bind fun a b hab => ?_
  have hfold : Both (fun t s => S.R (S.ht false full) cf t s) ((List.range (depth + 1 - full)).foldlM (aeEncStep P' depth full o') a)
      ((List.range (depth + 1 - full)).foldlM (aeEncStep P depth full o) b) := by
    have := Both.fold (fun k t s => ∃ c, aeChannels[max (depth - k) full]? = some c ∧ S.R (S.ht false (max (depth - k) full)) c t s)
      (depth + 1 - full) (aeEncStep P' depth full o') (aeEncStep P depth full o) (a := a) (b := b) ?_ ⟨c, by
        rw [show max (depth - 0) full = depth by omega]; exact ⟨hcd, hab⟩⟩
    · refine this.mono fun a b ⟨c, e, hab⟩ => ?_
      rw [show max (depth - (depth + 1 - full)) full = full by omega] at e hab
      rw [hcf] at e
      cases e
      exact hab
    · rintro k hk a b ⟨c, e, hab⟩
      unfold aeEncStep
      rw [show max (depth - k) full = depth - k by omega] at e hab
      obtain ⟨c1, h1, hc15⟩ := aeChannels_get (depth - k) (by omega)
      rw [e] at h1
      cases h1
      simp only [getIdx_some e]
      show Both _ (Ocnn.resBlocks P' .block _ c c 2 4 false o' (depth - k) a >>= _) (Ocnn.resBlocks P .block _ c c 2 4 false o (depth - k) b >>= _)
      refine (L.resBlocks .block _ c 2 (by omega) (by omega) (by omega) (by unfold maxBuffer; omega) (by unfold maxBuffer; omega)
        (hbn _ (by omega) (by omega)) hab).bind fun a b hab => ?_
      have hab : S.R (S.ht false (depth - k)) c a b := by simpa using hab
      by_cases hlt : depth - k > full
      · obtain ⟨e', he⟩ : ∃ e, depth - k = e + 1 := ⟨depth - k - 1, by omega⟩
        obtain ⟨c2, h2, hc25⟩ := aeChannels_get e' (by omega)
        rw [if_pos hlt, if_pos hlt, show max (depth - (k + 1)) full = e' by omega, he, show e' + 1 - 1 = e' by omega, getIdx_some h2]
        rw [he] at hab
        refine Both.mono (L.convBnRelu2 _ c2 (by omega) (by unfold maxBuffer; omega) (hbn _ (by omega) (by omega)) hab) fun a b hab => ?_
        exact ⟨c2, h2, hab⟩
      · rw [if_neg hlt, if_neg hlt]
        rw [show depth - k = full by omega] at hab e
        rw [show max (depth - (k + 1)) full = full by omega]
        exact Both.pure ⟨c, e, hab⟩
  refine hfold.bind fun a b hab => ?_
  exact (L.linear _ 64 true hab).bind fun a b hab => Both.pure (L.tanhT hab)

theorem predictModule (L : Layers P' P S o' o D) (name : String) {ci : Nat} (co : Nat) {r : S.Idx} (hb : S.ok r) {t s : Tensor}
    (h : S.R r ci t s) : Both (S.R r co) (predictModule P' name ci co t) (predictModule P name ci co s) :=
  (L.conv1x1BnRelu _ 64 hb h).bind fun _ _ h => L.linear _ co true h

theorem aeLevel (L : Layers P' P S o' o D) {full : Nat} (hf : 1 ≤ full) (k : Nat) (hd9 : full + k ≤ 9) (hD : S.lo false ≤ full ∧ full + k ≤ D)
    (hbn : S.ok (S.ht false (full + k))) {t s : Tensor}
    (h : ∃ c, (cfg.channels full)[full + (k - 1)]? = some c ∧ S.R (S.ht false (full + (k - 1))) c t s) :
    Both (fun p q => (∃ c, (cfg.channels full)[full + k]? = some c ∧ S.R (S.ht false (full + k)) c p.1 q.1) ∧
      S.R (S.ht false (full + k)) 2 p.2 q.2) (aeLevel P' cfg full o' t k) (aeLevel P cfg full o s k) := by
  obtain ⟨c0, hc0, hr⟩ := h
  obtain ⟨c, hc, hc5⟩ := channels_get cfg full (full + k) hd9
  have htail : ∀ a b, S.R (S.ht false (full + k)) c a b → Both (fun p q => (∃ c, (cfg.channels full)[full + k]? = some c ∧
      S.R (S.ht false (full + k)) c p.1 q.1) ∧ S.R (S.ht false (full + k)) 2 p.2 q.2)
      (do let t ← Ocnn.resBlocks P' .block ("decoder_blks." ++ toString k) c c 2 4 false o' (full + k) a
          let logit ← Ocnn.predictModule P' ("predict." ++ toString k) c 2 t
          pure (t, logit))
      (do let t ← Ocnn.resBlocks P .block ("decoder_blks." ++ toString k) c c 2 4 false o (full + k) b
          let logit ← Ocnn.predictModule P ("predict." ++ toString k) c 2 t
          pure (t, logit)) := by
    intro a b hab
    refine (L.resBlocks .block _ c 2 (by omega) (by omega) (by omega) (by unfold maxBuffer; omega) (by unfold maxBuffer; omega)
        hbn hab).bind fun a b hab => ?_
    have hab : S.R (S.ht false (full + k)) c a b := by simpa using hab
    refine (L.predictModule _ 2 hbn hab).bind fun x y hxy => ?_
    exact Both.pure ⟨⟨c, hc, hab⟩, hxy⟩
  unfold Ocnn.aeLevel
  simp only [getIdx_some hc]
  cases k with
  | zero =>
    obtain rfl : c0 = c := by
      rw [show full + (0 - 1) = full + 0 by omega, hc] at hc0
      exact (Option.some.inj hc0).symm
    exact htail t s hr
  | succ k =>
    rw [show full + (k + 1 - 1) = full + k by omega] at hc0 hr
    have hk0 : 0 < k + 1 := by omega
    have hk1 : full + (k + 1) - 1 = full + k := by omega
    simp only [if_pos hk0, hk1, getIdx_some hc0]
    refine Both.bind (R := S.R (S.ht false (full + (k + 1))) c) ?_ htail
    exact L.deconvBnRelu2 (d := full + k) _ c0 (by omega) (by unfold maxBuffer; omega) hbn hr

/-- Two states of the decoder without update. -/
def StateRel (cfg : DecCfg) (S : Sys) (o' o : Octree F) (full k : Nat) (p q : AeState F) : Prop :=
  p.octree = o' ∧ q.octree = o ∧
  (∃ c, (cfg.channels full)[full + (k - 1)]? = some c ∧ S.R (S.ht false (full + (k - 1))) c p.deconv q.deconv) ∧
  AllRel k (fun j => S.R (S.ht false (full + j)) 2) p.logits q.logits

theorem aeDecoder (L : Layers P' P S o' o D) {cout depth full : Nat} (hf : 1 ≤ full) (hfd : full ≤ depth) (hd9 : depth ≤ 9) (hD : S.lo false ≤ full ∧ depth ≤ D)
    (hbn : ∀ d, full ≤ d → d ≤ depth → S.ok (S.ht false d)) {t s : Tensor} (h : S.R (S.ht false full) cfg.code t s) :
    Both (fun p q => p.octree = o' ∧ q.octree = o ∧ S.R (S.ht true depth) cout p.deconv q.deconv ∧
      AllRel (depth + 1 - full) (fun j => S.R (S.ht false (full + j)) 2) p.logits q.logits)
      (aeDecoder P' cfg cout depth full false t o') (aeDecoder P cfg cout depth full false s o) := by
  unfold Ocnn.aeDecoder
  refine (Both.fold (StateRel cfg S o' o full) (depth + 1 - full) _ _ ?_
    (a := ⟨o', t, []⟩) (b := ⟨o, s, []⟩) ⟨rfl, rfl, ⟨cfg.code, channels_full cfg full (by omega), h⟩, rfl, rfl, fun k hk => absurd hk (by omega)⟩).bind ?_
  · rintro k hk ⟨_, a, la⟩ ⟨_, b, lb⟩ ⟨rfl, rfl, hab, hl1, hl2, hl3⟩
    unfold aeDecStep
    refine (L.aeLevel hf k (by omega) (by omega) (hbn _ (by omega) (by omega)) hab).bind ?_
    rintro ⟨a, x⟩ ⟨b, y⟩ ⟨hab, hxy⟩
    refine Both.pure ⟨rfl, rfl, hab, ?_, ?_, ?_⟩
    · simpa using hl1
    · simpa using hl2
    · intro j hj
      dsimp only at hl1 hl2 hl3 ⊢
      by_cases hjk : j < k
      · obtain ⟨u, v, e1, e2, e3⟩ := hl3 j hjk
        exact ⟨u, v, by rw [List.getElem?_append_left (by omega)]; exact e1,
          by rw [List.getElem?_append_left (by omega)]; exact e2, e3⟩
      · obtain rfl : j = k := by omega
        exact ⟨x, y, by rw [← hl1, List.getElem?_append_right (by omega)]; simp,
          by rw [← hl2, List.getElem?_append_right (by omega)]; simp, hxy⟩
  · rintro ⟨_, a, la⟩ ⟨_, b, lb⟩ ⟨rfl, rfl, ⟨c, hc, hab⟩, hl⟩
    rw [show full + (depth + 1 - full - 1) = depth by omega] at hc hab
    simp only [getIdx_some hc]
    refine Both.bind (R := S.R (S.ht false depth) cout) (L.predictModule _ cout (hbn _ (by omega) (by omega)) hab) fun a b hab => ?_
    refine (L.depadT (by omega) (L.tanhT hab)).bind fun a b hab => ?_
    exact Both.pure ⟨rfl, rfl, hab, hl⟩

end Layers

/-! ### with update of the octree -/

theorem nnum_zero {o : Octree F} {h : Nat} (w : o.Valid h) : o.nnum 0 = o.batchSize := by
  rw [w.wf'.nnum 0 (by omega)]
  simp [layerCells]

theorem nnum_full {o : Octree F} {h : Nat} (w : o.Valid h) (d : Nat) (hd : d ≤ o.fullDepth) : o.nnum d = 8 ^ d * o.batchSize := by
  have W := w.wf'
  have hf := w.full_le
  induction d with
  | zero => rw [nnum_zero w]; simp
  | succ d ih =>
    rw [eight_of w d (by omega), W.nnumNempty d (by omega), List.count_eq_length.2 (fun b hb => (W.full d (by omega) b hb).symm),
      W.len d (by omega), ← W.nnum d (by omega), ih (by omega), pow_succ]
    ring

theorem splitOf_ok (x : List (Fin 2 → ℚ)) : splitOf ⟨2, x⟩ = .ok (x.map fun v => argmax2 (v 0, v 1)) := by
  unfold splitOf
  rw [Tensor.as_self]
  rfl

theorem argmax2_mem (l : ℚ × ℚ) : argmax2 l = 0 ∨ argmax2 l = 1 := by
  unfold argmax2
  split <;> simp

theorem bnOk_of {P : Params} {o : Octree F} {h : Nat} (w : o.Valid h) (d : Nat) (h1 : 1 ≤ d) (hd : d ≤ h) : BnOk P (ht [o] false d) := by
  intro _
  refine ⟨rfl, ?_⟩
  obtain ⟨e, rfl⟩ : ∃ e, d = e + 1 := ⟨d - 1, by omega⟩
  have := eight_of w e hd
  simp only [ht, rowsAt, List.map_cons, List.map_nil, List.sum_cons, List.sum_nil]
  simp only [Bool.false_eq_true, if_false]
  omega

/-- The state of the decoder that updates its octree, before iteration `k`. -/
structure AeInv (cfg : DecCfg) (depth full B : Nat) (k : Nat) (st : AeState F) : Prop where
  inv : ∃ masks, DecInv st.octree masks (full + k)
  deconv : ∃ c x, (cfg.channels full)[full + (k - 1)]? = some c ∧ st.deconv = ⟨c, x⟩ ∧ x.length = st.octree.nnum (full + (k - 1))
  logits : st.logits.length = k
  logit : ∀ j < k, ∃ x : List (Fin 2 → ℚ), st.logits[j]? = some ⟨2, x⟩ ∧ x.length = st.octree.nnum (full + j)
  hdepth : st.octree.depth = depth
  hfull : st.octree.fullDepth = full
  hbatch : st.octree.batchSize = B

theorem wf_nnum {o : Octree F} {h : Nat} {masks : Nat → List Bool} (w : WF o h masks) (d : Nat) (hd : d ≤ h) : o.nnum d = (masks d).length := by
  rw [w.nnum d hd, w.len d hd]

/-- What the network computes in iteration `k`. -/
theorem ae_level (P : Params) {cfg : DecCfg} [cfg.Ok] {depth full B k : Nat} (hf : 1 ≤ full) (hd9 : depth ≤ 9) (hk : full + k ≤ depth) {st : AeState F}
    (I : AeInv cfg depth full B k st) : ∃ (c : Nat) (y : List (Fin c → ℚ)) (x : List (Fin 2 → ℚ)), Ocnn.aeLevel P cfg full st.octree st.deconv k = .ok (⟨c, y⟩, ⟨2, x⟩) ∧
      (cfg.channels full)[full + k]? = some c ∧ y.length = st.octree.nnum (full + k) ∧ x.length = st.octree.nnum (full + k) := by
  obtain ⟨masks, hI⟩ := I.inv
  have w := hI.wf.valid
  have L := layers_single P w (le_refl _) (fun d h1 h2 => hI.wf.neighExact d h2 (Nat.zero_le d) hI.neigh)
  obtain ⟨c0, x0, h1, h2, h3⟩ := I.deconv
  obtain ⟨p, q, e1, e2, ⟨c, hc, hr⟩, hl⟩ := L.aeLevel hf k (by omega) ⟨Nat.zero_le _, le_refl _⟩ (bnOk_of w _ (by omega) (le_refl _))
    (t := st.deconv) (s := st.deconv) ⟨c0, h1, by rw [h2]; exact rel_self _ (by simpa [rowsAt] using h3)⟩
  rw [e1] at e2
  cases e2
  obtain ⟨y, hy, ey, -⟩ := rel_single hr
  obtain ⟨x, hx, ex, -⟩ := rel_single hl
  refine ⟨c, y, x, ?_, hc, by simpa [rowsAt] using hy, by simpa [rowsAt] using hx⟩
  rw [e1, ← ey, ← ex]

theorem ae_step (P : Params) {cfg : DecCfg} [cfg.Ok] {depth full B k : Nat} (hf : 1 ≤ full) (hd9 : depth ≤ 9) (hk : full + k < depth) {st : AeState F}
    (I : AeInv cfg depth full B k st) : ∃ st', aeDecStep P cfg depth full true st k = .ok st' ∧ AeInv cfg depth full B (k + 1) st' := by
  obtain ⟨masks, hI⟩ := I.inv
  obtain ⟨c, y, x, e, hc, hy, hx⟩ := ae_level P hf hd9 (by omega) I
  obtain ⟨o', e1, J, f1, f2, f3⟩ := decodeStep_lt hI (fun _ _ => x.map fun v => argmax2 (v 0, v 1)) (by
      intro v hv
      obtain ⟨u, -, rfl⟩ := List.mem_map.1 hv
      exact argmax2_mem _) (by simpa using hx) (by rw [I.hdepth]; exact hk)
  have hu : aeUpdate depth (full + k) ⟨2, x⟩ st.octree = .ok o' := by
    unfold aeUpdate
    rw [splitOf_ok]
    unfold Octree.decodeStep at e1
    rw [← e1]
    obtain ⟨o1, h1, -, e2⟩ := hI.wf.split (x.map fun v => argmax2 (v 0, v 1)) (by
      intro v hv
      obtain ⟨u, -, rfl⟩ := List.mem_map.1 hv
      exact argmax2_mem _) (by simpa using hx) hI.pos
    have hdep : o1.depth = depth := by rw [e2]; exact I.hdepth
    simp only [bind, Except.bind, h1, hdep]
  have hnn : ∀ j ≤ full + k, o'.nnum j = st.octree.nnum j := by
    intro j hj
    rw [wf_nnum J.wf j (by omega), wf_nnum hI.wf j hj]
    unfold upd
    rw [if_neg (by omega)]
    by_cases hjk : j = full + k
    · subst hjk
      rw [if_pos rfl, forceFirst_length, splitMask_length, List.length_map, hx, wf_nnum hI.wf _ hj]
    · rw [if_neg hjk]
  refine ⟨⟨o', ⟨c, y⟩, st.logits ++ [⟨2, x⟩]⟩, ?_, ⟨_, J⟩, ⟨c, y, ?_⟩, ?_, ?_, ?_, ?_, ?_⟩
  · unfold aeDecStep
    rw [e]
    simp only [bind, Except.bind, if_true, hu]
    rfl
  · rw [show full + (k + 1 - 1) = full + k by omega]
    exact ⟨hc, rfl, by rw [hnn _ (le_refl _)]; exact hy⟩
  · simp [I.logits]
  · intro j hj
    dsimp only
    by_cases hjk : j < k
    · obtain ⟨u, e1, e2⟩ := I.logit j hjk
      exact ⟨u, by rw [List.getElem?_append_left (by rw [I.logits]; exact hjk)]; exact e1, by rw [hnn _ (by omega)]; exact e2⟩
    · obtain rfl : j = k := by omega
      exact ⟨x, by rw [← I.logits, List.getElem?_append_right (le_refl _)]; simp, by rw [hnn _ (le_refl _)]; exact hx⟩
  · exact f1.trans I.hdepth
  · exact f2.trans I.hfull
  · exact f3.trans I.hbatch

theorem ae_steps (P : Params) {cfg : DecCfg} [cfg.Ok] {depth full B : Nat} (hf : 1 ≤ full) (hd9 : depth ≤ 9) (n : Nat) (hn : full + n ≤ depth) {st : AeState F}
    (I : AeInv cfg depth full B 0 st) : ∃ st', (List.range n).foldlM (aeDecStep P cfg depth full true) st = .ok st' ∧ AeInv cfg depth full B n st' := by
  induction n with
  | zero => exact ⟨st, rfl, I⟩
  | succ n ih =>
    obtain ⟨st1, e1, I1⟩ := ih (by omega)
    obtain ⟨st2, e2, I2⟩ := ae_step P hf hd9 (by omega) I1
    refine ⟨st2, ?_, I2⟩
    rw [List.range_succ, List.foldlM_append, e1]
    show (List.foldlM (aeDecStep P cfg depth full true) st1 [n]) = _
    rw [List.foldlM_cons, e2]
    rfl

theorem ae_decode (P : Params) (cfg : DecCfg) [cfg.Ok] (cout : Nat) {depth full B dev : Nat} (hf : 1 ≤ full) (hfd : full ≤ depth) (hd9 : depth ≤ 9) (hB : 1 ≤ B) (hB' : B ≤ 2 ^ 15)
    (x : List (Fin cfg.code → ℚ)) (hx : x.length = 8 ^ full * B) : ∃ (st : AeState F) (y : List (Fin cout → ℚ)), aeDecodeCode P cfg cout depth full dev ⟨cfg.code, x⟩ = .ok st ∧
      st.octree.Valid depth ∧ st.octree.depth = depth ∧ st.octree.fullDepth = full ∧ st.octree.batchSize = B ∧
      (∀ d ≤ depth, NeighExact st.octree.batchSize d st.octree.keys st.octree.neighs) ∧ (∀ d ≤ depth, 0 < st.octree.nnumNempty d) ∧
      st.deconv = ⟨cout, y⟩ ∧ y.length = st.octree.nnumNempty depth ∧ st.logits.length = depth + 1 - full ∧
      ∀ j < depth + 1 - full, ∃ z : List (Fin 2 → ℚ), st.logits[j]? = some ⟨2, z⟩ ∧ z.length = st.octree.nnum (full + j) := by
  have hdiv : x.length / 2 ^ (3 * full) = B := by
    rw [hx, show 2 ^ (3 * full) = 8 ^ full by rw [pow_mul]; norm_num]
    exact Nat.mul_div_cancel_left B (by positivity)
  obtain ⟨o0, h0, e1, e2, e3, hI0⟩ := init_inv (F := F) depth full B dev hfd (by omega) hB' (by omega)
  have I0 : AeInv cfg depth full B 0 (⟨o0, ⟨cfg.code, x⟩, []⟩ : AeState F) := by
    refine ⟨⟨_, hI0⟩, ⟨cfg.code, x, channels_full cfg full (by omega), rfl, ?_⟩, rfl, fun j hj => absurd hj (by omega), e1, e2, e3⟩
    show x.length = o0.nnum full
    rw [nnum_full hI0.wf.valid full (by omega), hx, e3]
  obtain ⟨st1, g1, I1⟩ := ae_steps P hf hd9 (depth - full) (by omega) I0
  obtain ⟨masks, hI⟩ := I1.inv
  obtain ⟨c, y, z, e, hc, hy, hz⟩ := ae_level P hf hd9 (by omega) I1
  have hd : full + (depth - full) = depth := by omega
  rw [hd] at hI hc hy hz
  obtain ⟨o', k1, J, hpos, f1, f2, f3⟩ := decodeStep_last hI (fun _ _ => z.map fun v => argmax2 (v 0, v 1)) (by
      intro v hv
      obtain ⟨u, -, rfl⟩ := List.mem_map.1 hv
      exact argmax2_mem _) (by simpa using hz) I1.hdepth.symm
  have hu : aeUpdate depth depth ⟨2, z⟩ st1.octree = .ok o' := by
    unfold aeUpdate
    rw [splitOf_ok]
    unfold Octree.decodeStep at k1
    rw [← k1]
    obtain ⟨o1, h1, -, e2⟩ := hI.wf.split (z.map fun v => argmax2 (v 0, v 1)) (by
      intro v hv
      obtain ⟨u, -, rfl⟩ := List.mem_map.1 hv
      exact argmax2_mem _) (by simpa using hz) hI.pos
    have hdep : o1.depth = depth := by rw [e2]; exact I1.hdepth
    simp only [bind, Except.bind, h1, hdep]
  have hnn : ∀ j ≤ depth, o'.nnum j = st1.octree.nnum j := by
    intro j hj
    rw [wf_nnum J.wf j (by omega), wf_nnum hI.wf j hj]
    unfold upd
    by_cases hjk : j = depth
    · subst hjk
      rw [if_pos rfl, forceFirst_length, splitMask_length, List.length_map, hz, wf_nnum hI.wf _ hj]
    · rw [if_neg hjk]
  have w := J.wf.valid
  have hne : ∀ d ≤ depth, NeighExact o'.batchSize d o'.keys o'.neighs := fun d h2 => J.wf.neighExact d h2 (Nat.zero_le d) J.neigh
  have L := layers_single P w (le_refl _) (fun d _ h2 => hne d h2)
  have hbn : BnOk P (ht [o'] false depth) := bnOk_of w _ (by omega) (le_refl _)
  have hr : Rel 0 (ht [o'] false depth) c ⟨c, y⟩ ⟨c, y⟩ := rel_self _ (by simpa [rowsAt, hnn depth (le_refl _)] using hy)
  obtain ⟨a, b, q1, -, hab⟩ := L.predictModule "header" cout hbn hr
  obtain ⟨a', b', q2, -, hab'⟩ := L.depadT ⟨Nat.zero_le _, le_refl _⟩ (L.tanhT hab)
  obtain ⟨sig, hs, rfl, -⟩ := rel_single hab'
  refine ⟨⟨o', ⟨cout, sig⟩, st1.logits ++ [⟨2, z⟩]⟩, sig, ?_, w, f1.trans I1.hdepth, f2.trans I1.hfull, f3.trans I1.hbatch, hne, ?_, rfl,
    by simpa [rowsAt] using hs, ?_, ?_⟩
  · unfold aeDecodeCode
    show (Octree.initOctree depth full (x.length / 2 ^ (3 * full)) dev >>= fun o => Ocnn.aeDecoder P cfg cout depth full true ⟨cfg.code, x⟩ o) = _
    rw [hdiv, h0]
    show Ocnn.aeDecoder P cfg cout depth full true ⟨cfg.code, x⟩ o0 = _
    unfold Ocnn.aeDecoder
    rw [show depth + 1 - full = (depth - full) + 1 by omega, List.range_succ, List.foldlM_append, g1]
    show (List.foldlM _ st1 [depth - full] >>= _) = _
    rw [List.foldlM_cons]
    have : aeDecStep P cfg depth full true st1 (depth - full) = .ok ⟨o', ⟨c, y⟩, st1.logits ++ [⟨2, z⟩]⟩ := by
      unfold aeDecStep
      rw [e, hd]
      simp only [bind, Except.bind, if_true, hu]
      rfl
    rw [this]
    simp only [List.foldlM_nil, bind, Except.bind, pure, Except.pure, getIdx_some hc, q1, q2]
  · intro d hd'
    rcases Nat.lt_or_ge d depth with h | h
    · exact J.pos_below d h
    · rw [show d = depth by omega]; exact hpos
  · simp [I1.logits]; omega
  · intro j hj
    dsimp only
    by_cases hjk : j < depth - full
    · obtain ⟨u, e1, e2⟩ := I1.logit j hjk
      exact ⟨u, by rw [List.getElem?_append_left (by rw [I1.logits]; exact hjk)]; exact e1, by rw [hnn _ (by omega)]; exact e2⟩
    · obtain rfl : j = depth - full := by omega
      exact ⟨z, by rw [← I1.logits, List.getElem?_append_right (le_refl _)]; simp, by rw [hd, hnn _ (le_refl _)]; exact hz⟩

end Ocnn
