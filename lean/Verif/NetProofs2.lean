import Verif.NetProofs

/-! `SegNet`, `UNet` and `HRNet` keep a batch and its samples related, given the facts about the layers. -/

set_option linter.unusedSimpArgs false

namespace Ocnn
open Spec
variable {F : Type}

theorem getIdx_neg {α : Type} {t : List α} {n : Nat} {a : α} (h1 : 1 ≤ n) (hn : n ≤ t.length) (h : t[t.length - n]? = some a) :
    getIdx t (-(n : Int)) = .ok a := by
  unfold getIdx normIdx
  rw [if_neg (by omega), if_pos (by omega), show (-(n : Int) + (t.length : Int)).toNat = t.length - n by omega]
  show (match t[t.length - n]? with
    | some v => Except.ok v
    | none => Except.error Err.index) = _
  rw [h]

theorem AllRel.cons {α : Type} {n : Nat} {R : Nat → α → α → Prop} {as bs : List α} (h : AllRel (n + 1) R as bs) :
    ∃ a as' b bs', as = a :: as' ∧ bs = b :: bs' ∧ R 0 a b ∧ AllRel n (fun k => R (k + 1)) as' bs' := by
  obtain ⟨h1, h2, h3⟩ := h
  cases as with
  | nil => cases h1
  | cons a as =>
  cases bs with
  | nil => cases h2
  | cons b bs =>
  obtain ⟨a', b', e1, e2, hr⟩ := h3 0 (by omega)
  cases e1; cases e2
  refine ⟨_, _, _, _, rfl, rfl, hr, by simpa using h1, by simpa using h2, fun k hk => ?_⟩
  exact h3 (k + 1) (by omega)

theorem sumFold {S : Sys} {r : S.Idx} {c : Nat} (n : Nat) (ts ss : List Tensor) (h : AllRel n (fun _ => S.R r c) ts ss) {t s : Tensor}
    (h0 : S.R r c t s) : Both (S.R r c) (ts.foldlM Tensor.add t) (ss.foldlM Tensor.add s) := by
  induction n generalizing ts ss t s with
  | zero =>
    obtain ⟨h1, h2, _⟩ := h
    rw [List.length_eq_zero_iff.1 h1, List.length_eq_zero_iff.1 h2]
    exact Both.pure h0
  | succ n ih =>
    obtain ⟨a, as, b, bs, rfl, rfl, hr, hs⟩ := h.cons
    rw [List.foldlM_cons, List.foldlM_cons]
    exact (h0.add hr).bind fun t s h => ih as bs hs h

theorem Sys.R.sumTensors {S : Sys} {r : S.Idx} {c : Nat} (n : Nat) (ts ss : List Tensor) (h : AllRel (n + 1) (fun _ => S.R r c) ts ss) :
    Both (S.R r c) (sumTensors ts) (sumTensors ss) := by
  obtain ⟨a, as, b, bs, rfl, rfl, hr, hs⟩ := h.cons
  exact sumFold n as bs hs hr

theorem catFold {S : Sys} {r : S.Idx} (cs : List Nat) (ts ss : List Tensor)
    (h : AllRel cs.length (fun j t s => ∃ c, cs[j]? = some c ∧ S.R r c t s) ts ss) {c0 : Nat} {t s : Tensor}
    (h0 : S.R r c0 t s) : Both (S.R r (c0 + cs.sum)) (ts.foldlM Tensor.cat t) (ss.foldlM Tensor.cat s) := by
  induction cs generalizing ts ss t s c0 with
  | nil =>
    obtain ⟨h1, h2, _⟩ := h
    rw [List.length_eq_zero_iff.1 h1, List.length_eq_zero_iff.1 h2]
    exact Both.pure h0
  | cons c cs ih =>
    obtain ⟨a, as, b, bs, rfl, rfl, ⟨c', e, hr⟩, hs⟩ := h.cons
    cases e
    rw [List.foldlM_cons, List.foldlM_cons, List.sum_cons, ← Nat.add_assoc]
    exact (h0.cat hr).bind fun t s h => ih as bs hs h

theorem Sys.R.catTensors {S : Sys} {r : S.Idx} (cs : List Nat) (hne : cs ≠ []) (ts ss : List Tensor)
    (h : AllRel cs.length (fun j t s => ∃ c, cs[j]? = some c ∧ S.R r c t s) ts ss) :
    Both (S.R r cs.sum) (catTensors ts) (catTensors ss) := by
  cases cs with
  | nil => exact absurd rfl hne
  | cons c cs =>
    obtain ⟨a, as, b, bs, rfl, rfl, ⟨c', e, hr⟩, hs⟩ := h.cons
    cases e
    exact catFold cs as bs hs hr

/-- The lists of channels and blocks of a `UNet` fit together. -/
structure UNetConfig.Ok (cfg : UNetConfig) : Prop where
  enc : cfg.encoderChannel.length = cfg.encoderBlocks.length + 1
  dec : cfg.decoderChannel.length = cfg.decoderBlocks.length + 1
  le : cfg.decoderBlocks.length ≤ cfg.encoderBlocks.length
  link : cfg.decoderChannel[0]? = cfg.encoderChannel[cfg.encoderBlocks.length]?
  blocks : ∀ n ∈ cfg.decoderBlocks, 1 ≤ n
  bottleneck : 1 ≤ cfg.bottleneck
  small : ∀ c ∈ cfg.encoderChannel ++ cfg.decoderChannel, 54 * c ≤ maxBuffer

namespace Layers
variable {P' P : Params} {S : Sys} {o' o : Octree F} {D : Nat}

theorem segnetIn_le {cin : Nat} (hc : 27 * cin ≤ maxBuffer) (stages k : Nat) (hk : k ≤ stages) : 27 * segnetIn cin stages k ≤ maxBuffer := by
  unfold segnetIn
  split
  · exact hc
  · exact segnetChannel_le _ _ (by omega)

theorem segnetEncs (L : Layers P' P S o' o D) {cin : Nat} {stages : Nat} {nempty : Bool} {depth : Nat}
    (hds : stages ≤ depth) (hD : S.lo nempty ≤ depth - stages ∧ depth ≤ D) (hc : 27 * cin ≤ maxBuffer)
    (hbn : ∀ d, depth - stages < d → d ≤ depth → S.ok (S.ht nempty d)) {t s : Tensor} (h : S.R (S.ht nempty depth) cin t s) :
    Both (fun (p q : Tensor × (Nat → Option Tensor)) => S.R (S.ht nempty (depth - stages)) (segnetIn cin stages stages) p.1 q.1 ∧
      ∀ j < stages, ∃ u v, p.2 (depth - j) = some u ∧ q.2 (depth - j) = some v ∧ IsIdx u ∧
        S.I (depth - (j + 1)) (segnetIn cin stages (j + 1)) u v)
      ((List.range stages).foldlM (segnetEnc P' cin stages nempty o' depth) (t, fun _ => none))
      ((List.range stages).foldlM (segnetEnc P cin stages nempty o depth) (s, fun _ => none)) := by
  refine Both.fold (fun k (p q : Tensor × (Nat → Option Tensor)) => S.R (S.ht nempty (depth - k)) (segnetIn cin stages k) p.1 q.1 ∧
    ∀ j < k, ∃ u v, p.2 (depth - j) = some u ∧ q.2 (depth - j) = some v ∧ IsIdx u ∧
      S.I (depth - (j + 1)) (segnetIn cin stages (j + 1)) u v) stages _ _ ?_
    (a := (t, fun _ => none)) (b := (s, fun _ => none)) ⟨h, fun j hj => absurd hj (by omega)⟩
  rintro k hk ⟨a, ia⟩ ⟨b, ib⟩ ⟨hab, hix⟩
  unfold segnetEnc
  obtain ⟨e, he⟩ : ∃ e, depth - k = e + 1 := ⟨depth - (k + 1), by omega⟩
  have he' : depth - (k + 1) = e := by omega
  dsimp only at hab hix ⊢
  rw [he] at hab
  rw [he, he']
  refine (L.convBnRelu3 _ (segnetIn cin stages (k + 1)) (by omega) (by omega) (segnetIn_le hc stages k (by omega))
    (hbn _ (by omega) (by omega)) hab).bind fun a b hab => ?_
  obtain ⟨p, q, e1, e2, h1, h2⟩ := L.maxPoolIdx (by omega) hab
  refine ⟨(p.1, _), (q.1, _), by rw [e1]; rfl, by rw [e2]; rfl, h1, fun j hj => ?_⟩
  dsimp only
  by_cases hjk : j = k
  · subst hjk
    exact ⟨p.2, q.2, by rw [if_pos he], by rw [if_pos he], maxPoolIdx_isIdx _ _ _ _ _ e1, by rw [he']; exact h2⟩
  · have : ¬ depth - j = e + 1 := by omega
    rw [if_neg this, if_neg this]
    exact hix j (by omega)

theorem segnet (L : Layers P' P S o' o D) {cin : Nat} (cout : Nat) {stages : Nat} (hst : 1 ≤ stages) (method : String) {nempty : Bool} {depth : Nat}
    (hds : stages < depth) (hD : S.lo nempty ≤ depth - stages ∧ depth ≤ D) (hlo : S.lo false ≤ depth - stages) (hc : 27 * cin ≤ maxBuffer)
    (hunp : S.unp) (hbot : S.ht nempty (depth - stages) = S.ht false (depth - stages))
    (hbn : ∀ d, depth - stages ≤ d → d ≤ depth → S.ok (S.ht nempty d)) {pts' pts : List Pt4} {q : S.Idx}
    (hq : Queries S o' o D pts' pts q) (hbq : S.ok q) {t s : Tensor} (h : S.R (S.ht nempty depth) cin t s) :
    Both (S.R q cout) (segnet P' cin cout stages method nempty o' depth pts' t) (segnet P cin cout stages method nempty o depth pts s) := by
  unfold Ocnn.segnet
  have hs0 : ¬ stages = 0 := by omega
  simp only [if_neg hs0, pure_bind]
  have hch := segnetIn_le hc stages
  have hco : ∀ k ≤ stages, 27 * segnetOut stages k ≤ maxBuffer := by
    intro k hk
    unfold segnetOut
    split <;> exact segnetChannel_le _ _ (by omega)
  refine (L.segnetEncs (by omega) (by omega) hc (fun d h1 h2 => hbn d (by omega) h2) h).bind ?_
  · rintro ⟨a, ia⟩ ⟨b, ib⟩ ⟨hab, hix⟩
    dsimp only at hab hix ⊢
    rw [hbot] at hab
    refine (L.convBnRelu3 _ (segnetIn cin stages stages) (by omega) (by omega) (hch _ (le_refl _)) (by rw [← hbot]; exact hbn _ (by omega) (by omega)) hab).bind
      fun a b hab => ?_
    rw [← hbot] at hab
    have h0 : segnetIn cin stages stages = segnetOut stages 0 := by
      unfold segnetIn segnetOut
      rw [if_neg hs0, if_pos (by omega)]
      rfl
    rw [h0] at hab
    refine (Both.fold (fun k => S.R (S.ht nempty (depth - stages + k)) (segnetOut stages k)) stages _ _ ?_ hab).bind ?_
    · intro k hk a b hab
      unfold segnetDec
      obtain ⟨u, v, e1, e2, hidx, hr⟩ := hix (stages - 1 - k) (by omega)
      have e3 : depth - (stages - 1 - k) = depth - stages + k + 1 := by omega
      have e4 : depth - (stages - 1 - k + 1) = depth - stages + k := by omega
      have e5 : segnetIn cin stages (stages - 1 - k + 1) = segnetOut stages k := by
        unfold segnetIn segnetOut
        rw [if_neg (by omega), if_pos hk]
        rfl
      rw [e3] at e1 e2
      rw [e4, e5] at hr
      unfold getKey
      dsimp only at hab ⊢
      rw [e1, e2]
      refine (L.unpoolT hunp (by omega) hab hr hidx).bind fun a b hab => ?_
      exact L.convBnRelu3 _ _ (by omega) (by omega) (hco k (by omega)) (hbn _ (by omega) (by omega)) hab
    · intro a b hab
      have e1 : depth - stages + stages = depth := by omega
      rw [e1] at hab
      refine (hq method nempty depth _ (by omega) a b hab).bind fun a b hab => ?_
      refine (L.conv1x1BnRelu _ 64 hbq hab).bind fun a b hab => ?_
      exact L.linear _ cout true hab

theorem unet_by (L : Layers P' P S o' o D) {cfg : UNetConfig} (hcfg : cfg.Ok) {cin : Nat} (cout : Nat) (method : String) {nempty : Bool} {depth : Nat}
    (hds : cfg.encoderBlocks.length < depth) (hD : S.lo nempty ≤ depth - cfg.encoderBlocks.length ∧ depth ≤ D) (hc : 27 * cin ≤ maxBuffer)
    (hbn : ∀ d, depth - cfg.encoderBlocks.length ≤ d → d ≤ depth → S.ok (S.ht nempty d)) {pts' pts : List Pt4} {q : S.Idx}
    (hq : QueriesBy method S o' o D pts' pts q) (hbq : S.ok q) {t s : Tensor} (h : S.R (S.ht nempty depth) cin t s) :
    Both (S.R q cout) (unet P' cfg cin cout method nempty o' depth pts' t) (unet P cfg cin cout method nempty o depth pts s) := by
  obtain ⟨E, hE⟩ : ∃ E, E = cfg.encoderBlocks.length := ⟨_, rfl⟩
  obtain ⟨G, hG⟩ : ∃ G, G = cfg.decoderBlocks.length := ⟨_, rfl⟩
  have hle := hcfg.le
  have henc := hcfg.enc
  have hdec := hcfg.dec
  have hlink := hcfg.link
  have hbk := hcfg.bottleneck
  rw [← hE] at hds henc hlink hbn hle hD
  rw [← hG] at hdec hle
  have hes : ∀ (k c : Nat), cfg.encoderChannel[k]? = some c → 54 * c ≤ maxBuffer := fun k c e =>
    hcfg.small c (List.mem_append_left _ (List.mem_of_getElem? e))
  have hdsm : ∀ (k c : Nat), cfg.decoderChannel[k]? = some c → 54 * c ≤ maxBuffer := fun k c e =>
    hcfg.small c (List.mem_append_right _ (List.mem_of_getElem? e))
  have hec : ∀ k ≤ E, ∃ c, cfg.encoderChannel[k]? = some c := fun k hk =>
    ⟨_, List.getElem?_eq_getElem (by omega)⟩
  have hdc : ∀ k ≤ G, ∃ c, cfg.decoderChannel[k]? = some c := fun k hk =>
    ⟨_, List.getElem?_eq_getElem (by omega)⟩
  unfold Ocnn.unet
  rw [← hE, ← hG]
  -- encoder
  have henco : Both (fun (f g : Nat → Option Tensor) => ∀ j ≤ E, ∃ u v c, f (depth - j) = some u ∧ g (depth - j) = some v ∧ cfg.encoderChannel[j]? = some c ∧
      S.R (S.ht nempty (depth - j)) c u v) (unetEncoder P' cfg cin nempty o' depth t) (unetEncoder P cfg cin nempty o depth s) := by
    unfold unetEncoder
    obtain ⟨c0, hc0⟩ := hec 0 (by omega)
    rw [show getIdx cfg.encoderChannel 0 = .ok c0 from getIdx_some hc0, ← hE]
    show Both _ (Ocnn.convBnRelu P' _ cin c0 [3] 1 nempty o' depth t >>= _) (Ocnn.convBnRelu P _ cin c0 [3] 1 nempty o depth s >>= _)
    refine (L.convBnRelu3 _ c0 (by omega) (by omega) hc (hbn _ (by omega) (by omega)) h).bind fun a b hab => ?_
    refine Both.fold (fun k (f g : Nat → Option Tensor) => ∀ j ≤ k, ∃ u v c, f (depth - j) = some u ∧ g (depth - j) = some v ∧ cfg.encoderChannel[j]? = some c ∧
      S.R (S.ht nempty (depth - j)) c u v) E _ _ ?_ ?_
    · intro k hk f g hfg
      unfold unetEnc
      obtain ⟨u, v, c, e1, e2, e3, hr⟩ := hfg k (le_refl _)
      obtain ⟨c1, hc1⟩ := hec (k + 1) (by omega)
      obtain ⟨n, hn⟩ : ∃ n, cfg.encoderBlocks[k]? = some n := ⟨_, List.getElem?_eq_getElem (by omega)⟩
      dsimp only
      rw [getIdx_some e3, show getIdx cfg.encoderChannel ((k : Int) + 1) = .ok c1 from getIdx_some hc1, getIdx_some hn]
      unfold getKey
      rw [e1, e2]
      obtain ⟨e, he⟩ : ∃ e, depth - k = e + 1 := ⟨depth - (k + 1), by omega⟩
      rw [he] at hr
      rw [he]
      show Both _ (Ocnn.convBnRelu P' _ c c1 [2] 2 nempty o' (e + 1) u >>= _) (Ocnn.convBnRelu P _ c c1 [2] 2 nempty o (e + 1) v >>= _)
      have b0 := hes _ _ e3
      have b1 := hes _ _ hc1
      refine (L.convBnRelu2 _ c1 (by omega) (by omega) (hbn _ (by omega) (by omega)) hr).bind fun a b hab => ?_
      refine (L.resBlocks cfg.resblk _ c1 n hbk (by omega) (by omega) (by omega) (by omega) (hbn _ (by omega) (by omega)) hab).bind fun a b hab => ?_
      refine Both.pure fun j hj => ?_
      by_cases hjk : j = k + 1
      · subst hjk
        have he' : depth - (k + 1) = e := by omega
        refine ⟨a, b, c1, ?_, ?_, hc1, ?_⟩
        · rw [if_pos (by omega)]
        · rw [if_pos (by omega)]
        · rw [he']
          simpa using hab
      · have : ¬ depth - j = e + 1 - 1 := by omega
        simp only [if_neg this]
        exact hfg j (by omega)
    · intro j hj
      obtain rfl : j = 0 := by omega
      exact ⟨a, b, c0, by simp, by simp, hc0, hab⟩
  refine henco.bind fun f g hfg => ?_
  -- decoder
  have hdeco : Both (fun t s => ∃ c, cfg.decoderChannel[G]? = some c ∧ S.R (S.ht nempty (depth - E + G)) c t s)
      (unetDecoder P' cfg nempty o' (depth - E) f) (unetDecoder P cfg nempty o (depth - E) g) := by
    unfold unetDecoder
    obtain ⟨u, v, c, e1, e2, e3, hr⟩ := hfg E (le_refl _)
    unfold getKey
    rw [e1, e2, ← hG]
    refine Both.fold (fun k t s => ∃ c, cfg.decoderChannel[k]? = some c ∧ S.R (S.ht nempty (depth - E + k)) c t s) G _ _ ?_
      ⟨c, hlink.trans e3, hr⟩
    rintro k hk a b ⟨c0, hc0, hab⟩
    unfold unetDec
    obtain ⟨c1, hc1⟩ := hdc (k + 1) (by omega)
    obtain ⟨n, hn⟩ : ∃ n, cfg.decoderBlocks[k]? = some n := ⟨_, List.getElem?_eq_getElem (by omega)⟩
    obtain ⟨x, y, e, x1, x2, x3, hxy⟩ := hfg (E - 1 - k) (by omega)
    have hn1 := hcfg.blocks n (List.mem_of_getElem? hn)
    have hneg : getIdx cfg.encoderChannel (-(k : Int) - 2) = .ok e := by
      have : (-(k : Int) - 2) = -((k + 2 : Nat) : Int) := by omega
      rw [this]
      refine getIdx_neg (by omega) (by omega) ?_
      rw [show cfg.encoderChannel.length - (k + 2) = E - 1 - k by omega]
      exact x3
    dsimp only
    rw [getIdx_some hc0, show getIdx cfg.decoderChannel ((k : Int) + 1) = .ok c1 from getIdx_some hc1, hneg, getIdx_some hn]
    show Both _ (Ocnn.deconvBnRelu P' _ c0 c1 [2] 2 nempty o' (depth - E + k) a >>= _) (Ocnn.deconvBnRelu P _ c0 c1 [2] 2 nempty o (depth - E + k) b >>= _)
    have b1 := hdsm _ _ hc1
    have b2 := hes _ _ x3
    refine (L.deconvBnRelu2 _ c0 (by omega) (by omega) (hbn _ (by omega) (by omega)) hab).bind fun a b hab => ?_
    have ed : depth - (E - 1 - k) = depth - E + k + 1 := by omega
    rw [ed] at x1 x2 hxy
    unfold getKey
    rw [x1, x2]
    refine (hxy.cat hab).bind fun a b hab => ?_
    rw [Nat.add_comm e c1] at hab
    refine (L.resBlocks cfg.resblk _ c1 n hbk (by omega) (by omega) (by omega) (by omega) (hbn _ (by omega) (by omega)) hab).mono fun a b hab => ?_
    rw [if_neg (by omega)] at hab
    exact ⟨c1, hc1, hab⟩
  refine hdeco.bind ?_
  rintro a b ⟨c, hcG, hab⟩
  refine (hq nempty _ _ (by omega) a b hab).bind fun a b hab => ?_
  have hneg : getIdx cfg.decoderChannel (-1) = .ok c := by
    refine getIdx_neg (n := 1) (by omega) (by omega) ?_
    rw [hdec]
    exact hcG
  rw [hneg]
  show Both _ (Ocnn.conv1x1BnRelu P' _ c _ a >>= _) (Ocnn.conv1x1BnRelu P _ c _ b >>= _)
  refine (L.conv1x1BnRelu _ cfg.headChannel hbq hab).bind fun a b hab => ?_
  exact L.linear _ cout true hab

theorem unet (L : Layers P' P S o' o D) {cfg : UNetConfig} (hcfg : cfg.Ok) {cin : Nat} (cout : Nat) (method : String) {nempty : Bool} {depth : Nat}
    (hds : cfg.encoderBlocks.length < depth) (hD : S.lo nempty ≤ depth - cfg.encoderBlocks.length ∧ depth ≤ D) (hc : 27 * cin ≤ maxBuffer)
    (hbn : ∀ d, depth - cfg.encoderBlocks.length ≤ d → d ≤ depth → S.ok (S.ht nempty d)) {pts' pts : List Pt4} {q : S.Idx}
    (hq : Queries S o' o D pts' pts q) (hbq : S.ok q) {t s : Tensor} (h : S.R (S.ht nempty depth) cin t s) :
    Both (S.R q cout) (unet P' cfg cin cout method nempty o' depth pts' t) (unet P cfg cin cout method nempty o depth pts s) :=
  L.unet_by hcfg cout method hds hD hc hbn (hq method) hbq h

theorem poolDown (L : Layers P' P S o' o D) {c : Nat} {nempty : Bool} {d : Nat} (n : Nat) (hD : S.lo nempty ≤ d - n ∧ d ≤ D) (hn : n ≤ d) {t s : Tensor}
    (h : S.R (S.ht nempty d) c t s) : Both (S.R (S.ht nempty (d - n)) c) (poolDown nempty o' d n t) (poolDown nempty o d n s) := by
  refine Both.fold (fun k => S.R (S.ht nempty (d - k)) c) n _ _ (fun k hk a b hab => ?_) h
  unfold poolStep
  obtain ⟨e, he⟩ : ∃ e, d - k = e + 1 := ⟨d - (k + 1), by omega⟩
  have he' : d - (k + 1) = e := by omega
  rw [he] at hab
  rw [he, he']
  exact L.maxPool (by omega) hab

theorem upsampleUp (L : Layers P' P S o' o D) {c : Nat} {nempty : Bool} {d : Nat} (n : Nat) (hD : S.lo nempty ≤ d ∧ d + n ≤ D) {t s : Tensor}
    (h : S.R (S.ht nempty d) c t s) : Both (S.R (S.ht nempty (d + n)) c) (upsampleUp nempty o' d n t) (upsampleUp nempty o d n s) := by
  refine Both.fold (fun k => S.R (S.ht nempty (d + k)) c) n _ _ (fun k hk a b hab => ?_) h
  exact L.upsampleT (d := d + k) (by omega) hab

theorem transFunc (L : Layers P' P S o' o D) (name : String) {ci co : Nat} {nempty : Bool} {din dout : Nat} (hi : S.lo nempty ≤ din ∧ din ≤ D) (ho : S.lo nempty ≤ dout ∧ dout ≤ D)
    (hc : din = dout → ci = co) (hb1 : S.ok (S.ht nempty din)) (hb2 : S.ok (S.ht nempty dout)) {t s : Tensor}
    (h : S.R (S.ht nempty din) ci t s) :
    Both (S.R (S.ht nempty dout) co) (transFunc P' name ci co nempty o' din dout t) (transFunc P name ci co nempty o din dout s) := by
  have hconv : ∀ d, S.ok (S.ht nempty d) → ∀ a b, S.R (S.ht nempty d) ci a b → Both (S.R (S.ht nempty d) co)
      (if ci ≠ co then Ocnn.conv1x1BnRelu P' (name ++ ".conv1x1") ci co a else pure a)
      (if ci ≠ co then Ocnn.conv1x1BnRelu P (name ++ ".conv1x1") ci co b else pure b) := by
    intro d hb a b hab
    by_cases e : ci = co
    · subst e
      rw [if_neg (by simp), if_neg (by simp)]
      exact Both.pure hab
    · rw [if_pos e, if_pos e]
      exact L.conv1x1BnRelu _ co hb hab
  unfold Ocnn.transFunc
  rcases Nat.lt_trichotomy din dout with hlt | heq | hgt
  · have h1 : ¬ din > dout := by omega
    simp only [if_neg h1, if_pos hlt, pure_bind]
    refine (hconv _ hb1 _ _ h).bind fun a b hab => ?_
    have := L.upsampleUp (dout - din) (by omega) hab
    rwa [show din + (dout - din) = dout by omega] at this
  · subst heq
    obtain rfl := hc rfl
    simp only [gt_iff_lt, lt_irrefl, if_false, pure_bind]
    exact Both.pure h
  · have h1 : ¬ din < dout := by omega
    simp only [gt_iff_lt, if_pos hgt, if_neg h1, bind_pure]
    have := L.poolDown (din - dout) (by omega) (by omega) h
    rw [show din - (din - dout) = dout by omega] at this
    exact this.bind fun a b hab => hconv _ hb2 _ _ hab

/-- A list of tensors, the `j`-th at depth `depth - j` with the `j`-th number of channels. -/
def Pyramid (S : Sys) (nempty : Bool) (depth : Nat) (cs : List Nat) (ts ss : List Tensor) : Prop :=
  AllRel cs.length (fun j t s => ∃ c, cs[j]? = some c ∧ S.R (S.ht nempty (depth - j)) c t s) ts ss

theorem branches (L : Layers P' P S o' o D) (name : String) {cs : List Nat} {num : Nat} {nempty : Bool} {depth : Nat} (hD : S.lo nempty ≤ depth + 1 - cs.length ∧ depth ≤ D)
    (hlen : cs.length ≤ depth) (hc : ∀ c ∈ cs, 27 * c ≤ maxBuffer) (hbn : ∀ j < cs.length, S.ok (S.ht nempty (depth - j))) {ts ss : List Tensor}
    (h : Pyramid S nempty depth cs ts ss) :
    Both (Pyramid S nempty depth cs) (branches P' name cs num nempty o' depth ts) (branches P name cs num nempty o depth ss) := by
  obtain ⟨h1, h2, h3⟩ := h
  unfold Ocnn.branches pyAssert
  rw [if_pos (by simpa using h1), if_pos (by simpa using h2)]
  show Both _ (List.mapM _ _) (List.mapM _ _)
  refine Both.mapM _ _ _ _ fun k hk => ?_
  obtain ⟨a, b, e1, e2, c, e3, hr⟩ := h3 k hk
  unfold branchAt
  rw [getIdx_some e3, getIdx_some e1, getIdx_some e2]
  have hcc := hc c (List.mem_of_getElem? e3)
  refine (L.resBlocks .block _ c num (by split <;> omega) (by omega) (by omega) hcc hcc (hbn k hk) hr).mono fun a b hab => ?_
  exact ⟨c, e3, by simpa using hab⟩

theorem transitions (L : Layers P' P S o' o D) (name : String) {cs : List Nat} (h2 : 2 ≤ cs.length) {nempty : Bool} {depth : Nat} (hD : S.lo nempty ≤ depth + 1 - cs.length ∧ depth ≤ D)
    (hlen : cs.length ≤ depth) (hbn : ∀ j < cs.length, S.ok (S.ht nempty (depth - j))) {ts ss : List Tensor}
    (h : ∀ j < cs.length - 1, ∃ t s c, ts[j]? = some t ∧ ss[j]? = some s ∧ cs[j]? = some c ∧ S.R (S.ht nempty (depth - j)) c t s) :
    Both (Pyramid S nempty depth cs) (transitions P' name cs nempty o' depth ts) (transitions P name cs nempty o depth ss) := by
  unfold Ocnn.transitions
  refine Both.mapM _ _ _ _ fun j hj => ?_
  unfold transOut transRow
  obtain ⟨cj, hcj⟩ : ∃ c, cs[j]? = some c := ⟨_, List.getElem?_eq_getElem hj⟩
  have := Both.mapM (fun _ => S.R (S.ht nempty (depth - j)) cj) (cs.length - 1) (transAt P' name cs nempty o' depth ts j)
    (transAt P name cs nempty o depth ss j) (fun k hk => by
      obtain ⟨t, s, c, e1, e2, e3, hr⟩ := h k hk
      unfold transAt
      rw [getIdx_some e3, getIdx_some hcj, getIdx_some e1, getIdx_some e2]
      refine L.transFunc _ (by omega) (by omega) (fun e => ?_) (hbn k (by omega)) (hbn j hj) hr
      have : k = j := by omega
      subst this
      rw [e3] at hcj
      exact Option.some.inj hcj)
  refine this.bind fun as bs hab => ?_
  obtain ⟨n, hn⟩ : ∃ n, cs.length - 1 = n + 1 := ⟨cs.length - 2, by omega⟩
  rw [hn] at hab
  exact (Sys.R.sumTensors n as bs hab).mono fun a b hab => ⟨cj, hcj, hab⟩

theorem frontLayer (L : Layers P' P S o' o D) {cin : Nat} {nempty : Bool} {depth : Nat} (hd : 1 ≤ depth) (hD : S.lo nempty ≤ depth ∧ depth + 1 ≤ D)
    (hc : 27 * cin ≤ maxBuffer) (hbn : ∀ d, depth ≤ d → d ≤ depth + 1 → S.ok (S.ht nempty d)) {t s : Tensor}
    (h : S.R (S.ht nempty (depth + 1)) cin t s) :
    Both (S.R (S.ht nempty depth) 128) (frontLayer P' [cin, 32, 128] nempty o' (depth + 1) t) (frontLayer P [cin, 32, 128] nempty o (depth + 1) s) := by
  unfold Ocnn.frontLayer
  have e1 : getIdx [cin, 32, 128] (-2) = .ok 32 := getIdx_neg (n := 2) (by omega) (by simp) rfl
  have e2 : getIdx [cin, 32, 128] (-1) = .ok 128 := getIdx_neg (n := 1) (by omega) (by simp) rfl
  have hs : Both (S.R (S.ht nempty depth) 32) ((List.range ([cin, 32, 128].length - 1 - 1)).foldlM (frontStep P' [cin, 32, 128] nempty o' (depth + 1)) t)
      ((List.range ([cin, 32, 128].length - 1 - 1)).foldlM (frontStep P [cin, 32, 128] nempty o (depth + 1)) s) := by
    show Both _ ((List.range 1).foldlM _ _) ((List.range 1).foldlM _ _)
    rw [show List.range 1 = [0] from rfl, List.foldlM_cons, List.foldlM_cons]
    simp only [List.foldlM_nil, bind_pure]
    unfold frontStep
    rw [getIdx_some (t := [cin, 32, 128]) (i := 0) rfl, show getIdx [cin, 32, 128] (((0 : Nat) : Int) + 1) = .ok 32 from
      getIdx_some (t := [cin, 32, 128]) (i := 1) rfl]
    show Both _ (Ocnn.convBnRelu P' _ cin 32 [3] 1 nempty o' (depth + 1) t >>= _) (Ocnn.convBnRelu P _ cin 32 [3] 1 nempty o (depth + 1) s >>= _)
    exact (L.convBnRelu3 _ 32 (by omega) (by omega) hc (hbn _ (by omega) (by omega)) h).bind fun _ _ h => L.maxPool hD h
  dsimp only
  refine hs.bind fun a b hab => ?_
  rw [e1, e2]
  show Both _ (Ocnn.convBnRelu P' _ 32 128 [3] 1 nempty o' (depth + 1 - 2 + 1) a) (Ocnn.convBnRelu P _ 32 128 [3] 1 nempty o (depth + 1 - 2 + 1) b)
  rw [show depth + 1 - 2 + 1 = depth by omega]
  exact L.convBnRelu3 _ 128 hd (by omega) (by unfold maxBuffer; omega) (hbn _ (by omega) (by omega)) hab

theorem clsHeader (L : Layers P' P S o' o D) {cs : List Nat} (hne : cs ≠ []) (cout : Nat) {nempty : Bool} {depth : Nat} (hD : S.lo nempty ≤ 2 ∧ depth ≤ D)
    (hlen : cs.length + 1 ≤ depth) (hbn : S.ok (S.ht nempty 2)) {ts ss : List Tensor}
    (h : Pyramid S nempty depth cs ts ss) :
    Both (S.R S.hb cout) (clsHeader P' cs cout nempty o' depth ts) (clsHeader P cs cout nempty o depth ss) := by
  obtain ⟨h1, h2, h3⟩ := h
  unfold Ocnn.clsHeader
  rw [h1, h2]
  have := Both.mapM (fun j t s => ∃ c, cs[j]? = some c ∧ S.R (S.ht nempty 2) c t s) cs.length (headerPool nempty o' depth ts)
    (headerPool nempty o depth ss) (fun k hk => by
      obtain ⟨a, b, e1, e2, c, e3, hr⟩ := h3 k hk
      unfold headerPool
      rw [getIdx_some e1, getIdx_some e2]
      refine (L.poolDown (depth - k - 2) (by omega) (by omega) hr).mono fun a b hab => ⟨c, e3, ?_⟩
      rwa [show depth - k - (depth - k - 2) = 2 by omega] at hab)
  refine this.bind fun as bs hab => ?_
  refine (Sys.R.catTensors cs hne as bs hab).bind fun a b hab => ?_
  refine (L.conv1x1BnRelu _ 1024 hbn hab).bind fun a b hab => ?_
  have : 0 < cs.length := List.length_pos_of_ne_nil hne
  refine (L.globalPool (by omega) hab).bind fun a b hab => ?_
  exact L.linear _ cout true hab

theorem hrnet (L : Layers P' P S o' o D) {cin : Nat} (cout : Nat) {stages : Nat} (hst : 1 ≤ stages) {nempty : Bool} {depth : Nat}
    (hds : min stages 4 + 2 ≤ depth) (hD : S.lo nempty ≤ 2 ∧ depth ≤ D) (hc : 27 * cin ≤ maxBuffer)
    (hbn : ∀ d, 2 ≤ d → d ≤ depth → S.ok (S.ht nempty d)) {t s : Tensor}
    (h : S.R (S.ht nempty depth) cin t s) :
    Both (S.R S.hb cout) (hrnet P' cin cout stages nempty o' depth t) (hrnet P cin cout stages nempty o depth s) := by
  obtain ⟨e, rfl⟩ : ∃ e, depth = e + 1 := ⟨depth - 1, by omega⟩
  unfold Ocnn.hrnet
  rw [show e + 1 - 1 = e by omega]
  have hlen : ∀ k, (hrnetChannels.take k).length = min k 4 := fun k => by rw [List.length_take]; rfl
  refine (L.frontLayer (by omega) (by omega) hc (fun d h1 h2 => hbn d (by omega) h2) h).bind fun a b hab => ?_
  refine (Both.fold (fun k => Pyramid S nempty e (hrnetChannels.take (min (k + 1) stages))) stages _ _ ?_ ?_).bind ?_
  · intro k hk ts ss hp
    rw [show min (k + 1) stages = k + 1 by omega] at hp
    unfold hrnetStep
    have hsm : ∀ c ∈ hrnetChannels.take (k + 1), 27 * c ≤ maxBuffer := by
      intro c hc
      have : ∀ c ∈ hrnetChannels, 27 * c ≤ maxBuffer := by unfold hrnetChannels maxBuffer; decide
      exact this c (List.mem_of_mem_take hc)
    refine (L.branches _ (by rw [hlen]; omega) (by rw [hlen]; omega) hsm (fun j hj => by
      rw [hlen] at hj
      exact hbn _ (by omega) (by omega)) hp).bind fun ts ss hp => ?_
    by_cases hk1 : k < stages - 1
    · rw [if_pos hk1, if_pos hk1, show min (k + 1 + 1) stages = k + 2 by omega]
      refine L.transitions _ (by rw [hlen]; omega) (by rw [hlen]; omega) (by rw [hlen]; omega) (fun j hj => by
        rw [hlen] at hj
        exact hbn _ (by omega) (by omega)) fun j hj => ?_
      rw [hlen] at hj
      obtain ⟨_, _, h3⟩ := hp
      obtain ⟨t, s, e1, e2, c, e3, hr⟩ := h3 j (by rw [hlen]; omega)
      refine ⟨t, s, c, e1, e2, ?_, hr⟩
      rw [List.getElem?_take_of_lt (by omega)] at e3 ⊢
      exact e3
    · rw [if_neg hk1, if_neg hk1, show min (k + 1 + 1) stages = k + 1 by omega]
      exact Both.pure hp
  · rw [show min (0 + 1) stages = 1 by omega]
    refine ⟨rfl, rfl, fun k hk => ?_⟩
    obtain rfl : k = 0 := by simpa [hrnetChannels] using hk
    exact ⟨a, b, rfl, rfl, 128, rfl, hab⟩
  · intro ts ss hp
    rw [show min (stages + 1) stages = stages by omega] at hp
    refine L.clsHeader ?_ cout (by omega) (by rw [hlen]; omega) (hbn 2 (by omega) (by omega)) hp
    intro e
    have := congrArg List.length e
    rw [hlen] at this
    simp at this
    omega

end Layers

end Ocnn
