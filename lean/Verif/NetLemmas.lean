import Verif.NetBatchLayers

/-! The modules and networks keep a batch and its samples related, given the facts about the layers. -/

set_option linter.unusedSimpArgs false

namespace Ocnn
open Spec
variable {F : Type}

namespace Layers
variable {P' P : Params} {S : Sys} {o' o : Octree F} {D : Nat}

theorem convBn3 (L : Layers P' P S o' o D) (name : String) {ci : Nat} (co : Nat) {nempty : Bool} {d : Nat} (h1 : 1 ≤ d) (hD : S.lo nempty ≤ d ∧ d ≤ D)
    (hc : 27 * ci ≤ maxBuffer) (hb : S.ok (S.ht nempty d)) {t s : Tensor} (h : S.R (S.ht nempty d) ci t s) :
    Both (S.R (S.ht nempty d) co) (convBn P' name ci co [3] 1 nempty o' d t) (convBn P name ci co [3] 1 nempty o d s) :=
  (L.conv3 _ co h1 hD hc h).bind fun t s h => L.bn _ _ _ hb t s h

theorem convBnRelu3 (L : Layers P' P S o' o D) (name : String) {ci : Nat} (co : Nat) {nempty : Bool} {d : Nat} (h1 : 1 ≤ d) (hD : S.lo nempty ≤ d ∧ d ≤ D)
    (hc : 27 * ci ≤ maxBuffer) (hb : S.ok (S.ht nempty d)) {t s : Tensor} (h : S.R (S.ht nempty d) ci t s) :
    Both (S.R (S.ht nempty d) co) (convBnRelu P' name ci co [3] 1 nempty o' d t) (convBnRelu P name ci co [3] 1 nempty o d s) :=
  (L.conv3 _ co h1 hD hc h).bind fun t s h => (L.bn _ _ _ hb t s h).bind fun _ _ h => Both.pure h.relu

theorem convBnRelu2 (L : Layers P' P S o' o D) (name : String) {ci : Nat} (co : Nat) {nempty : Bool} {d : Nat} (hD : S.lo nempty ≤ d ∧ d + 1 ≤ D)
    (hc : 8 * ci ≤ maxBuffer) (hb : S.ok (S.ht nempty d)) {t s : Tensor} (h : S.R (S.ht nempty (d + 1)) ci t s) :
    Both (S.R (S.ht nempty d) co) (convBnRelu P' name ci co [2] 2 nempty o' (d + 1) t) (convBnRelu P name ci co [2] 2 nempty o (d + 1) s) :=
  (L.conv2 _ co hD hc h).bind fun t s h => (L.bn _ _ _ hb t s h).bind fun _ _ h => Both.pure h.relu

theorem deconvBnRelu2 (L : Layers P' P S o' o D) (name : String) (ci : Nat) {co : Nat} {nempty : Bool} {d : Nat} (hD : S.lo nempty ≤ d ∧ d + 1 ≤ D)
    (hc : 8 * co ≤ maxBuffer) (hb : S.ok (S.ht nempty (d + 1))) {t s : Tensor} (h : S.R (S.ht nempty d) ci t s) :
    Both (S.R (S.ht nempty (d + 1)) co) (deconvBnRelu P' name ci co [2] 2 nempty o' d t) (deconvBnRelu P name ci co [2] 2 nempty o d s) :=
  (L.deconv2 _ ci hD hc h).bind fun t s h => (L.bn _ _ _ hb t s h).bind fun _ _ h => Both.pure h.relu

theorem conv1x1Bn (L : Layers P' P S o' o D) (name : String) {ci : Nat} (co : Nat) {r : S.Idx} (hb : S.ok r) {t s : Tensor}
    (h : S.R r ci t s) : Both (S.R r co) (conv1x1Bn P' name ci co t) (conv1x1Bn P name ci co s) :=
  (L.linear _ co false h).bind fun t s h => L.bn _ _ _ hb t s h

theorem conv1x1BnRelu (L : Layers P' P S o' o D) (name : String) {ci : Nat} (co : Nat) {r : S.Idx} (hb : S.ok r) {t s : Tensor}
    (h : S.R r ci t s) : Both (S.R r co) (conv1x1BnRelu P' name ci co t) (conv1x1BnRelu P name ci co s) :=
  (L.linear _ co false h).bind fun t s h => (L.bn _ _ _ hb t s h).bind fun _ _ h => Both.pure h.relu

theorem fcBnRelu (L : Layers P' P S o' o D) (name : String) {ci : Nat} (co : Nat) {r : S.Idx} (hb : S.ok r) {t s : Tensor}
    (h : S.R r ci t s) : Both (S.R r co) (fcBnRelu P' name ci co t) (fcBnRelu P name ci co s) :=
  (L.linear _ co false h).bind fun t s h => (L.bn _ _ _ hb t s h).bind fun _ _ h => Both.pure h.relu

theorem resBlock (L : Layers P' P S o' o D) (name : String) {ci : Nat} (co : Nat) {bnk : Nat} (hbnk : 0 < bnk) {nempty : Bool} {d : Nat} (h1 : 1 ≤ d) (hD : S.lo nempty ≤ d ∧ d ≤ D)
    (hc : 27 * (co / bnk) ≤ maxBuffer) (hb : S.ok (S.ht nempty d)) {t s : Tensor} (h : S.R (S.ht nempty d) ci t s) :
    Both (S.R (S.ht nempty d) co) (resBlock P' name ci co 1 bnk nempty o' d t) (resBlock P name ci co 1 bnk nempty o d s) := by
  unfold Ocnn.resBlock bottleneckChannels
  rw [if_neg (by omega)]
  show Both _ (Ocnn.conv1x1BnRelu P' _ ci (co / bnk) t >>= _) (Ocnn.conv1x1BnRelu P _ ci (co / bnk) s >>= _)
  refine (L.conv1x1BnRelu _ _ hb h).bind fun a b hab => ?_
  refine (L.convBnRelu3 _ _ h1 hD hc hb hab).bind fun a b hab => ?_
  refine (L.conv1x1Bn _ co hb hab).bind fun a b hab => ?_
  have hd : Both (S.R (S.ht nempty d) co) (if ci ≠ co then Ocnn.conv1x1Bn P' (name ++ ".conv1x1c") ci co t else pure t)
      (if ci ≠ co then Ocnn.conv1x1Bn P (name ++ ".conv1x1c") ci co s else pure s) := by
    by_cases e : ci = co
    · subst e
      rw [if_neg (by simp), if_neg (by simp)]
      exact Both.pure h
    · rw [if_pos e, if_pos e]
      exact L.conv1x1Bn _ co hb h
  refine hd.bind fun c e hce => ?_
  exact (hab.add hce).bind fun _ _ h => Both.pure h.relu

theorem resBlock2 (L : Layers P' P S o' o D) (name : String) {ci : Nat} (co : Nat) {bnk : Nat} (hbnk : 0 < bnk) {nempty : Bool} {d : Nat} (h1 : 1 ≤ d) (hD : S.lo nempty ≤ d ∧ d ≤ D)
    (hci : 27 * ci ≤ maxBuffer) (hc : 27 * (co / bnk) ≤ maxBuffer) (hb : S.ok (S.ht nempty d)) {t s : Tensor} (h : S.R (S.ht nempty d) ci t s) :
    Both (S.R (S.ht nempty d) co) (resBlock2 P' name ci co 1 bnk nempty o' d t) (resBlock2 P name ci co 1 bnk nempty o d s) := by
  unfold Ocnn.resBlock2 bottleneckChannels
  rw [if_neg (by omega)]
  show Both _ (Ocnn.convBnRelu P' _ ci (co / bnk) [3] 1 nempty o' d t >>= _) (Ocnn.convBnRelu P _ ci (co / bnk) [3] 1 nempty o d s >>= _)
  refine (L.convBnRelu3 _ _ h1 hD hci hb h).bind fun a b hab => ?_
  refine (L.convBn3 _ _ h1 hD hc hb hab).bind fun a b hab => ?_
  have hd : Both (S.R (S.ht nempty d) co) (if ci ≠ co then Ocnn.conv1x1Bn P' (name ++ ".conv1x1") ci co t else pure t)
      (if ci ≠ co then Ocnn.conv1x1Bn P (name ++ ".conv1x1") ci co s else pure s) := by
    by_cases e : ci = co
    · subst e
      rw [if_neg (by simp), if_neg (by simp)]
      exact Both.pure h
    · rw [if_pos e, if_pos e]
      exact L.conv1x1Bn _ co hb h
  refine hd.bind fun c e hce => ?_
  exact (hab.add hce).bind fun _ _ h => Both.pure h.relu

/-- `OctreeResBlocks`; without blocks the width stays. -/
theorem resBlocks (L : Layers P' P S o' o D) (kind : BlockKind) (name : String) {ci : Nat} (co num : Nat) {bnk : Nat} (hbnk : 0 < bnk) {nempty : Bool} {d : Nat}
    (h1 : 1 ≤ d) (hD : S.lo nempty ≤ d ∧ d ≤ D) (hci : 27 * ci ≤ maxBuffer) (hc : 27 * co ≤ maxBuffer) (hb : S.ok (S.ht nempty d)) {t s : Tensor}
    (h : S.R (S.ht nempty d) ci t s) :
    Both (S.R (S.ht nempty d) (if num = 0 then ci else co)) (resBlocks P' kind name ci co num bnk nempty o' d t)
      (resBlocks P kind name ci co num bnk nempty o d s) := by
  have hcb : 27 * (co / bnk) ≤ maxBuffer := by
    have := Nat.div_le_self co bnk
    omega
  refine Both.fold (fun k => S.R (S.ht nempty d) (if k = 0 then ci else co)) num _ _ (fun k _ a b hab => ?_) h
  unfold resStep oneBlock
  rw [if_neg (Nat.succ_ne_zero k)]
  cases kind with
  | block => exact L.resBlock _ co hbnk h1 hD hcb hb hab
  | block2 => exact L.resBlock2 _ co hbnk h1 hD (by split <;> assumption) hcb hb hab

theorem maxPool (L : Layers P' P S o' o D) {c : Nat} {nempty : Bool} {d : Nat} (hD : S.lo nempty ≤ d ∧ d + 1 ≤ D) {t s : Tensor}
    (h : S.R (S.ht nempty (d + 1)) c t s) :
    Both (S.R (S.ht nempty d) c) (maxPool nempty o' (d + 1) t) (maxPool nempty o (d + 1) s) :=
  (L.maxPoolIdx hD h).bind fun _ _ h => Both.pure h.1

end Layers

end Ocnn
