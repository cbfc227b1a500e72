import Verif.LevelDecoder
import Verif.NetBatch

/-! The methods of `OUNet`: the relational argument about networks, for two octrees in each run, and what the decoder needs to generate octrees. -/

set_option linter.unusedSimpArgs false

namespace Ocnn
open Spec
variable {F : Type}

theorem getConv_some {convs : Nat → Option Tensor} {d : Nat} {t : Tensor} (h : convs d = some t) : getConv convs d = .ok t := by
  unfold getConv
  rw [h]

theorem ouCfg_ok {code : Nat} (h : code ≤ 512) : (ouCfg code).Ok :=
  ⟨rfl, by intro c hc; simp only [ouCfg, aeChannels, List.mem_cons, List.not_mem_nil, or_false] at hc; omega, by simp only [ouCfg]; omega⟩

/-- The features of all depths are related. -/
def ConvsRel (S : Sys) (lo depth : Nat) (p q : Nat → Option Tensor) : Prop :=
  ∀ d, lo ≤ d → d ≤ depth → ∃ c a b, aeChannels[d]? = some c ∧ p d = some a ∧ q d = some b ∧ S.R (S.ht false d) c a b

/-- Copying features between the octrees respects the relations. -/
def Aligns (S T : Sys) (i' i o' o : Octree F) (lo hi : Nat) : Prop :=
  ∀ d c, lo ≤ d → d ≤ hi → ∀ t s, S.R (S.ht false d) c t s → Both (T.R (T.ht false d) c) (alignT i' o' d t) (alignT i o d s)

namespace Layers
variable {P' P : Params} {S T : Sys} {i' i o' o : Octree F} {D : Nat}

theorem ouEncoder (L : Layers P' P S i' i D) {cin depth full : Nat} (hf : 1 ≤ full) (hfd : full ≤ depth) (hd9 : depth ≤ 9) (hD : S.lo false ≤ full ∧ depth ≤ D)
    (hc : 27 * cin ≤ maxBuffer) (hbn : ∀ d, full ≤ d → d ≤ depth → S.ok (S.ht false d)) {t s : Tensor}
    (h : S.R (S.ht false depth) cin t s) :
    Both (ConvsRel S full depth) (ouEncoder P' cin depth full i' t) (ouEncoder P cin depth full i s) := by
  unfold Ocnn.ouEncoder
  obtain ⟨c, hcd, hc5⟩ := aeChannels_get depth hd9
  simp only [getIdx_some hcd]
  show Both _ (Ocnn.convBnRelu P' _ cin c [3] 1 false i' depth t >>= _) (Ocnn.convBnRelu P _ cin c [3] 1 false i depth s >>= _)
  refine (L.convBnRelu3 _ c (by omega) (by omega) hc (hbn _ (by omega) (by omega)) h).bind fun a b hab => ?_
  have := Both.fold (fun k p q => ConvsRel S (max (depth - k) full) depth p q)
    (depth + 1 - full) (ouEncStep P' depth full i') (ouEncStep P depth full i) (a := setConv (fun _ => none) depth a)
    (b := setConv (fun _ => none) depth b) ?_ ?_
  · refine this.mono fun a b hab => ?_
    rw [show max (depth - (depth + 1 - full)) full = full by omega] at hab
    exact hab
  · intro k hk p q hpq
    unfold ouEncStep
    rw [show max (depth - k) full = depth - k by omega] at hpq
    obtain ⟨c, a, b, e, ha, hb, hab⟩ := hpq (depth - k) (le_refl _) (by omega)
    obtain ⟨c1, h1, hc15⟩ := aeChannels_get (depth - k) (by omega)
    rw [e] at h1
    cases h1
    simp only [getIdx_some e, getConv_some ha, getConv_some hb]
    show Both _ (Ocnn.resBlocks P' .block _ c c 2 4 false i' (depth - k) a >>= _) (Ocnn.resBlocks P .block _ c c 2 4 false i (depth - k) b >>= _)
    refine (L.resBlocks .block _ c 2 (by omega) (by omega) (by omega) (by unfold maxBuffer; omega) (by unfold maxBuffer; omega)
      (hbn _ (by omega) (by omega)) hab).bind fun a b hab => ?_
    have hab : S.R (S.ht false (depth - k)) c a b := by simpa using hab
    by_cases hlt : depth - k > full
    · obtain ⟨e', he⟩ : ∃ e, depth - k = e + 1 := ⟨depth - k - 1, by omega⟩
      obtain ⟨c2, h2, hc25⟩ := aeChannels_get e' (by omega)
      rw [if_pos hlt, if_pos hlt, show max (depth - (k + 1)) full = e' by omega, he, show e' + 1 - 1 = e' by omega, getIdx_some h2]
      rw [he] at hab hpq e
      refine Both.bind (R := S.R (S.ht false e') c2) (L.convBnRelu2 _ c2 (by omega) (by unfold maxBuffer; omega) (hbn _ (by omega) (by omega)) hab)
        fun u v huv => ?_
      refine Both.pure fun d hd1 hd2 => ?_
      unfold setConv
      by_cases e1 : d = e'
      · subst e1
        exact ⟨c2, u, v, h2, if_pos rfl, if_pos rfl, huv⟩
      · by_cases e2 : d = e' + 1
        · subst e2
          exact ⟨c, a, b, e, by simp, by simp, hab⟩
        · obtain ⟨c3, a3, b3, g1, g2, g3, g4⟩ := hpq d (by omega) hd2
          exact ⟨c3, a3, b3, g1, by simp [e1, e2, g2], by simp [e1, e2, g3], g4⟩
    · rw [if_neg hlt, if_neg hlt]
      have hk' : depth - k = full := by omega
      rw [hk'] at hab e hpq ⊢
      rw [show max (depth - (k + 1)) full = full by omega]
      refine Both.pure fun d hd1 hd2 => ?_
      unfold setConv
      by_cases e2 : d = full
      · subst e2
        exact ⟨c, a, b, e, by simp, by simp, hab⟩
      · obtain ⟨c3, a3, b3, g1, g2, g3, g4⟩ := hpq d (by omega) hd2
        exact ⟨c3, a3, b3, g1, by simp [e2, g2], by simp [e2, g3], g4⟩
  · intro d hd1 hd2
    obtain rfl : d = depth := by omega
    exact ⟨c, a, b, hcd, by simp [setConv], by simp [setConv], hab⟩

theorem ouLevel (L : Layers P' P T o' o D) {code full depth : Nat} [(ouCfg code).Ok] (k : Nat) (hA : 0 < k → Aligns S T i' i o' o (full + k) (full + k)) {cv' cv : Nat → Option Tensor}
    (hcv : ConvsRel S full depth cv' cv) (hf : 1 ≤ full) (hd9 : full + k ≤ 9) (hkd : full + k ≤ depth)
    (hD : T.lo false ≤ full ∧ full + k ≤ D) (hbn : T.ok (T.ht false (full + k))) {t s : Tensor}
    (h : ∃ c, ((ouCfg code).channels full)[full + (k - 1)]? = some c ∧ T.R (T.ht false (full + (k - 1))) c t s) :
    Both (fun p q => (∃ c, ((ouCfg code).channels full)[full + k]? = some c ∧ T.R (T.ht false (full + k)) c p.1 q.1) ∧
      T.R (T.ht false (full + k)) 2 p.2 q.2) (ouLevel P' (ouCfg code) full i' cv' o' t k) (ouLevel P (ouCfg code) full i cv o s k) := by
  obtain ⟨c0, hc0, hr⟩ := h
  obtain ⟨c, hc, hc5⟩ := channels_get (ouCfg code) full (full + k) hd9
  have htail : ∀ a b, T.R (T.ht false (full + k)) c a b → Both (fun p q => (∃ c, ((ouCfg code).channels full)[full + k]? = some c ∧
      T.R (T.ht false (full + k)) c p.1 q.1) ∧ T.R (T.ht false (full + k)) 2 p.2 q.2)
      (do let t ← Ocnn.resBlocks P' .block ("decoder_blks." ++ toString k) c c 2 4 false o' (full + k) a
          let logit ← Ocnn.predictModule P' ("predict." ++ toString k) c 2 t
          pure (t, logit))
      (do let t ← Ocnn.resBlocks P .block ("decoder_blks." ++ toString k) c c 2 4 false o (full + k) b
          let logit ← Ocnn.predictModule P ("predict." ++ toString k) c 2 t
          pure (t, logit)) := by
    intro a b hab
    refine (L.resBlocks .block _ c 2 (by omega) (by omega) (by omega) (by unfold maxBuffer; omega) (by unfold maxBuffer; omega)
        hbn hab).bind fun a b hab => ?_
    have hab : T.R (T.ht false (full + k)) c a b := by simpa using hab
    refine (L.predictModule _ 2 hbn hab).bind fun x y hxy => ?_
    exact Both.pure ⟨⟨c, hc, hab⟩, hxy⟩
  unfold Ocnn.ouLevel
  simp only [getIdx_some hc]
  cases k with
  | zero =>
    obtain rfl : c0 = c := by
      rw [show full + (0 - 1) = full + 0 by omega, hc] at hc0
      exact (Option.some.inj hc0).symm
    exact htail t s hr
  | succ k =>
    rw [show full + (k + 1 - 1) = full + k by omega] at hc0 hr
    have hk0 : 0 < k + 1 := by omega
    have hk1 : full + (k + 1) - 1 = full + k := by omega
    simp only [if_pos hk0, hk1, getIdx_some hc0]
    refine Both.bind (R := T.R (T.ht false (full + (k + 1))) c) ?_ htail
    refine Both.bind (R := T.R (T.ht false (full + (k + 1))) c) (L.deconvBnRelu2 (d := full + k) _ c0 (by omega) (by unfold maxBuffer; omega) hbn hr)
      fun u v huv => ?_
    obtain ⟨c1, a, b, e, ha, hb, hab⟩ := hcv (full + (k + 1)) (by omega) hkd
    have hc1 : c1 = c := by
      unfold DecCfg.channels at hc
      rw [List.getElem?_set, if_neg (by omega)] at hc
      change aeChannels[full + (k + 1)]? = some c at hc
      rw [e] at hc
      exact Option.some.inj hc
    subst hc1
    simp only [getConv_some ha, getConv_some hb]
    show Both _ (alignT i' o' (full + (k + 1)) a >>= fun s => u.add s) (alignT i o (full + (k + 1)) b >>= fun s => v.add s)
    refine Both.bind (R := T.R (T.ht false (full + (k + 1))) c1) (hA hk0 _ c1 (le_refl _) (le_refl _) a b hab) fun x y hxy => ?_
    exact huv.add hxy

/-- The decoder without update of the octree. -/
theorem levelDecoder (L : Layers P' P T o' o D) {cfg : DecCfg} [cfg.Ok] {lev' lev : Octree F → Tensor → Nat → M (Tensor × Tensor)} {cout depth full : Nat}
    (hf : 1 ≤ full) (hfd : full ≤ depth) (hd9 : depth ≤ 9) (hD : T.lo false ≤ full ∧ depth ≤ D) (hbn : ∀ d, full ≤ d → d ≤ depth → T.ok (T.ht false d))
    (hlev : ∀ k, full + k ≤ depth → ∀ t s, (∃ c, (cfg.channels full)[full + (k - 1)]? = some c ∧ T.R (T.ht false (full + (k - 1))) c t s) →
      Both (fun p q => (∃ c, (cfg.channels full)[full + k]? = some c ∧ T.R (T.ht false (full + k)) c p.1 q.1) ∧
        T.R (T.ht false (full + k)) 2 p.2 q.2) (lev' o' t k) (lev o s k)) {t s : Tensor} (h : T.R (T.ht false full) cfg.code t s) :
    Both (fun p q => p.octree = o' ∧ q.octree = o ∧ T.R (T.ht true depth) cout p.deconv q.deconv ∧
      AllRel (depth + 1 - full) (fun j => T.R (T.ht false (full + j)) 2) p.logits q.logits)
      (levelDecoder lev' P' cfg cout depth full false t o') (levelDecoder lev P cfg cout depth full false s o) := by
  unfold Ocnn.levelDecoder
  refine (Both.fold (StateRel cfg T o' o full) (depth + 1 - full) _ _ ?_
    (a := ⟨o', t, []⟩) (b := ⟨o, s, []⟩) ⟨rfl, rfl, ⟨cfg.code, channels_full cfg full (by omega), h⟩, rfl, rfl, fun k hk => absurd hk (by omega)⟩).bind ?_
  · rintro k hk ⟨_, a, la⟩ ⟨_, b, lb⟩ ⟨rfl, rfl, hab, hl1, hl2, hl3⟩
    unfold levelStep
    refine (hlev k (by omega) a b hab).bind ?_
    rintro ⟨a, x⟩ ⟨b, y⟩ ⟨hab, hxy⟩
    refine Both.pure ⟨rfl, rfl, hab, ?_, ?_, ?_⟩
    · simpa using hl1
    · simpa using hl2
    · intro j hj
      dsimp only at hl1 hl2 hl3 ⊢
      by_cases hjk : j < k
      · obtain ⟨u, v, e1, e2, e3⟩ := hl3 j hjk
        exact ⟨u, v, by rw [List.getElem?_append_left (by omega)]; exact e1,
          by rw [List.getElem?_append_left (by omega)]; exact e2, e3⟩
      · obtain rfl : j = k := by omega
        exact ⟨x, y, by rw [← hl1, List.getElem?_append_right (by omega)]; simp,
          by rw [← hl2, List.getElem?_append_right (by omega)]; simp, hxy⟩
  · rintro ⟨_, a, la⟩ ⟨_, b, lb⟩ ⟨rfl, rfl, ⟨c, hc, hab⟩, hl⟩
    rw [show full + (depth + 1 - full - 1) = depth by omega] at hc hab
    simp only [getIdx_some hc]
    refine Both.bind (R := T.R (T.ht false depth) cout) (L.predictModule _ cout (hbn _ (by omega) (by omega)) hab) fun a b hab => ?_
    refine (L.depadT (by omega) (L.tanhT hab)).bind fun a b hab => ?_
    exact Both.pure ⟨rfl, rfl, hab, hl⟩

/-- `OUNet.forward` on a given output octree, for a decoder that starts with the channels of the encoder. -/
theorem ouNet (L : Layers P' P S i' i D) (L' : Layers P' P T o' o D) {cin cout depth full code : Nat} (hcode : aeChannels[full]? = some code)
    (hf : 1 ≤ full) (hfd : full ≤ depth) (hd9 : depth ≤ 9) (hD : S.lo false ≤ full ∧ depth ≤ D) (hD' : T.lo false ≤ full)
    (hc : 27 * cin ≤ maxBuffer) (hbn : ∀ d, full ≤ d → d ≤ depth → S.ok (S.ht false d)) (hbn' : ∀ d, full ≤ d → d ≤ depth → T.ok (T.ht false d))
    (hA : Aligns S T i' i o' o (full + 1) depth)
    (hsame : ∀ c t s, S.R (S.ht false full) c t s → T.R (T.ht false full) c t s) {t s : Tensor} (h : S.R (S.ht false depth) cin t s) :
    Both (fun p q => p.octree = o' ∧ q.octree = o ∧ T.R (T.ht true depth) cout p.deconv q.deconv ∧
      AllRel (depth + 1 - full) (fun j => T.R (T.ht false (full + j)) 2) p.logits q.logits)
      (ouNet P' code cin cout depth full i' (some o') false t) (ouNet P code cin cout depth full i (some o) false s) := by
  have hcode5 : code ≤ 512 := by
    obtain ⟨c, h1, h2⟩ := aeChannels_get full (by omega)
    rw [hcode] at h1
    cases h1
    exact h2
  haveI : (ouCfg code).Ok := ouCfg_ok hcode5
  unfold Ocnn.ouNet
  show Both _ (Ocnn.ouEncoder P' cin depth full i' t >>= fun convs => ouDecoder P' (ouCfg code) cout depth full false convs i' o')
    (Ocnn.ouEncoder P cin depth full i s >>= fun convs => ouDecoder P (ouCfg code) cout depth full false convs i o)
  refine (L.ouEncoder hf hfd hd9 hD hc hbn h).bind fun cv' cv hcv => ?_
  obtain ⟨c, a, b, e, ha, hb, hab⟩ := hcv full (le_refl _) hfd
  rw [hcode] at e
  cases e
  unfold ouDecoder
  simp only [getConv_some ha, getConv_some hb]
  exact L'.levelDecoder (cfg := ouCfg code) hf hfd hd9 ⟨hD', hD.2⟩ hbn'
    (fun k hk t s hts => L'.ouLevel (code := code) k (fun h0 d c g1 g2 => hA d c (by omega) (by omega)) hcv hf (by omega) hk ⟨hD', by omega⟩ (hbn' _ (by omega) hk) hts) (hsame _ a b hab)

end Layers

/-! ### copying features between octrees -/

theorem alignT_field {i o : Octree F} {h h' d c : Nat} (w : i.Valid h) (w' : o.Valid h') (hd : d ≤ h) (hd' : d ≤ h') {x : List (Fin c → ℚ)}
    {f : Nat → Int → Int → Int → Fin c → ℚ} (hf : IsField (qc i false d) x f) (hne : 0 < i.nnum d) :
    alignT i o d ⟨c, x⟩ = .ok ⟨c, (qc o false d).map fun q => f q.b q.x q.y q.z⟩ := by
  have W := w.wf'
  have W' := w'.wf'
  rw [← queried_qc w d hd false _ _ (W.cellsOf d hd) (W.children d hd)] at hf
  have := C49_align i h w o h' w' d hd hd' false _ _ _ _ (W.cellsOf d hd) (W.children d hd) (W'.cellsOf d hd') (W'.children d hd') x f hf (by
    intro e
    have := queried_length w d hd false _ _ (W.cellsOf d hd) (W.children d hd)
    rw [e] at this
    simp at this
    omega)
  unfold alignT
  simp only [bind, Except.bind, this, queried_qc w' d hd' false _ _ (W'.cellsOf d hd') (W'.children d hd')]
  rfl

theorem aligns_single (P : Params) {i o : Octree F} {h h' lo hi : Nat} (w : i.Valid h) (w' : o.Valid h') (hd : hi ≤ h) (hd' : hi ≤ h')
    (hne : ∀ d, lo ≤ d → d ≤ hi → 0 < i.nnum d) : Aligns (batchSys P [i] 0) (batchSys P [o] 0) i i o o lo hi := by
  intro d c h1 h2 t s hts
  obtain ⟨x, hx, rfl, rfl⟩ := rel_single hts
  have hx : x.length = i.nnum d := by simpa [rowsAt] using hx
  obtain ⟨f, hf⟩ := exists_field (qc i false d) x (by rw [hx, qc_length w d (by omega)]; rfl) (qc_nodup w d (by omega) false)
  have e := alignT_field w w' (by omega) (by omega) hf (hne d h1 h2)
  refine ⟨_, _, e, e, ?_⟩
  refine rel_self _ ?_
  rw [List.length_map, qc_length w' d (by omega)]
  simp [rowsAt]

/-- A batch of pairs of octrees and one of the pairs. -/
theorem aligns_batch (P : Params) {is os : List (Octree F)} {i' o' i o : Octree F} {D k lo hi : Nat} (hi' : BatchOf is i' D) (ho' : BatchOf os o' D)
    (hk : is[k]? = some i) (hk' : os[k]? = some o) (hlen : is.length = os.length) (hD : hi ≤ D) (hne : ∀ d, lo ≤ d → d ≤ hi → ∀ i ∈ is, 0 < i.nnum d) :
    Aligns (batchSys P is k) (batchSys P os k) i' i o' o lo hi := by
  rintro d c h1 h2 t s ⟨xs, hxs, rfl, x, hx, rfl⟩
  have hxs' : xs.map List.length = is.map fun o => if false then o.nnumNempty d else o.nnum d := hxs
  obtain ⟨f, hf, hfi⟩ := hi'.field d (by omega) false xs hxs'
  have hmem := List.mem_of_getElem? hk
  have hne' : 0 < i'.nnum d := by
    have h0 := hf.1
    rw [qc_length hi'.valid' d (by omega)] at h0
    simp only [Bool.false_eq_true, if_false] at h0
    have h3 : x.length = i.nnum d := by
      have := congrArg (fun l => l[k]?) hxs'
      simpa [hk, hx] using this
    have h4 : 0 < x.length := by rw [h3]; exact hne d h1 h2 i hmem
    rw [h0]
    have hxm := List.mem_of_getElem? hx
    rw [List.length_flatten]
    exact lt_of_lt_of_le h4 (List.single_le_sum (by simp) _ (List.mem_map_of_mem hxm))
  have e := alignT_field hi'.valid' ho'.valid' (by omega) (by omega) hf hne'
  have e' := alignT_field (hi'.valid i hmem) (ho'.valid o (List.mem_of_getElem? hk')) (by omega) (by omega) (hfi k i x hk hx) (hne d h1 h2 i hmem)
  refine ⟨_, _, e, e', ?_⟩
  refine ⟨(List.range os.length).map fun j => ((os[j]?.map fun o => qc o false d).getD []).map fun q => f (j) q.x q.y q.z, ?_, ?_, ?_⟩
  · apply List.ext_getElem?
    intro j
    show _ = (List.map (fun o => rowsAt false d o) os)[j]?
    rw [List.getElem?_map, List.getElem?_map, List.getElem?_map]
    by_cases hj : j < os.length
    · simp only [List.getElem?_range hj, List.getElem?_eq_getElem hj, Option.map_some, Option.getD_some, List.length_map, Option.some.injEq]
      rw [qc_length (ho'.valid _ (List.getElem_mem hj)) d (by omega)]
      rfl
    · rw [List.getElem?_eq_none (by simpa using hj), List.getElem?_eq_none (by omega)]
      rfl
  · congr 1
    rw [ho'.qc d (by omega), map_blocks, List.length_map]
    congr 1
    apply List.map_congr_left
    intro j hj
    have hj := List.mem_range.1 hj
    rw [List.getElem?_map, List.getElem?_eq_getElem hj]
    simp only [Option.map_some, Option.getD_some]
    apply List.map_congr_left
    intro q hq
    rfl
  · have hj := (List.getElem?_eq_some_iff.1 hk').1
    refine ⟨_, ?_, rfl⟩
    rw [List.getElem?_map, List.getElem?_range hj, Option.map_some, hk']
    simp only [Option.map_some, Option.getD_some, Option.some.injEq]
    apply List.map_congr_left
    intro q hq
    have := ho'.b_zero d (by omega) false o (List.mem_of_getElem? hk') q hq
    unfold sampleField
    rw [this]
    rfl

/-! ### generation -/

theorem ouLevel_ok (P : Params) {code depth full : Nat} [(ouCfg code).Ok] (hf : 1 ≤ full) (hd9 : depth ≤ 9) {i : Octree F} {h : Nat} (w : i.Valid h) (hd : depth ≤ h)
    (hne : ∀ d, full < d → d ≤ depth → 0 < i.nnum d) {cv : Nat → Option Tensor} (hcv : ConvsRel (batchSys P [i] 0) full depth cv cv) (B : Nat) :
    LevelOk (ouLevel P (ouCfg code) full i cv) (ouCfg code) depth full B := by
  intro k st hk I
  obtain ⟨masks, hI⟩ := I.inv
  have w' := hI.wf.valid
  have L := layers_single P w' (le_refl _) (fun d h1 h2 => hI.wf.neighExact d h2 (Nat.zero_le d) hI.neigh)
  obtain ⟨c0, x0, h1, h2, h3⟩ := I.deconv
  obtain ⟨p, q, e1, e2, ⟨c, hc, hr⟩, hl⟩ := L.ouLevel (code := code) (full := full) (depth := depth) k
    (fun h0 => aligns_single P w w' (by omega) (le_refl _) fun d g1 g2 => hne d (by omega) (by omega)) hcv hf (by omega) hk
    ⟨Nat.zero_le _, le_refl _⟩ (bnOk_of w' _ (by omega) (le_refl _)) (t := st.deconv) (s := st.deconv)
    ⟨c0, h1, by rw [h2]; exact rel_self _ (by simpa [rowsAt] using h3)⟩
  rw [e1] at e2
  cases e2
  obtain ⟨y, hy, ey, -⟩ := rel_single hr
  obtain ⟨x, hx, ex, -⟩ := rel_single hl
  refine ⟨c, y, x, ?_, hc, by simpa [rowsAt] using hy, by simpa [rowsAt] using hx⟩
  rw [e1, ← ey, ← ex]

theorem alignT_congr (i : Octree F) {o t : Octree F} {d : Nat} (hd : o.depth = t.depth) (hk : o.keys d = t.keys d) (x : Tensor) : alignT i o d x = alignT i t d x := by
  unfold alignT octreeAlign
  have : o.key d false = t.key d false := by
    unfold Octree.key Octree.chk
    rw [hd, hk]
    rfl
  rw [this]

theorem ouLevel_same (P : Params) {code depth full : Nat} [(ouCfg code).Ok] (hf : 1 ≤ full) (i : Octree F) (cv : Nat → Option Tensor) (B : Nat) :
    LevelSame (ouLevel P (ouCfg code) full i cv) (ouCfg code) depth full B := by
  intro t w hdep hB hn k st hk I hm x
  obtain ⟨masks, hI⟩ := I.inv
  have hd : st.octree.depth = t.depth := I.hdepth.trans hdep.symm
  have hb : st.octree.batchSize = t.batchSize := I.hbatch.trans hB.symm
  have hl : SameLayer st.octree t (full + k) :=
    same_layer hI.wf.valid w hb hd (le_refl _) hk hm (hI.wf.neighExact _ (le_refl _) (Nat.zero_le _) hI.neigh) (hn _ (by omega) hk)
  have hkeys : st.octree.keys (full + k) = t.keys (full + k) := by
    rw [hI.wf.valid.wf'.keys _ (le_refl _), w.wf'.keys _ hk, same_cells hb hm]
  unfold ouLevel
  simp only [resBlocks_congr hl]
  cases k with
  | zero => rfl
  | succ k =>
    have hs : SameSplit st.octree t (full + k) := same_split hI.wf.valid w hd (by omega) (by omega) (hm _ (by omega))
    have e : full + (k + 1) - 1 = full + k := by omega
    simp only [e, deconvBnRelu, octreeDeconv_congr (d := full + k) hl hs, alignT_congr i hd hkeys]

end Ocnn
