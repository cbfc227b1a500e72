import Verif.NetLemmas

/-! Every network keeps a batch and its samples related, given the facts about the layers. -/

set_option linter.unusedSimpArgs false

namespace Ocnn
open Spec
variable {F : Type}

theorem pow_le_of {a b : Nat} (h : a ≤ b) : 2 ^ a ≤ 2 ^ b := Nat.pow_le_pow_right (by omega) h

theorem lenetChannel_le (cin stages k : Nat) (hk : k ≤ stages) (hc : 27 * cin ≤ maxBuffer) :
    27 * lenetChannel cin stages k ≤ maxBuffer := by
  unfold lenetChannel
  split
  · exact hc
  · have : 2 ^ max (k - 1 + 7 - stages) 2 ≤ 2 ^ 6 := pow_le_of (by omega)
    unfold maxBuffer; omega

theorem resnetChannel_le (stages k : Nat) (hk : k < stages) : 27 * resnetChannel stages k ≤ maxBuffer := by
  unfold resnetChannel
  have : 2 ^ max (k + 9 - stages) 2 ≤ 2 ^ 8 := pow_le_of (by omega)
  unfold maxBuffer; omega

theorem segnetChannel_le (stages k : Nat) (hk : k < stages) : 27 * segnetChannel stages k ≤ maxBuffer := by
  unfold segnetChannel
  have : 2 ^ max (k + 8 - stages) 2 ≤ 2 ^ 7 := pow_le_of (by omega)
  unfold maxBuffer; omega

theorem chunk8_mem {α : Type} (n : Nat) (l : List α) (h : l.length = 8 * n) : ∀ g ∈ chunk8 n l, g.length = 8 := by
  intro g hg
  obtain ⟨r, hr⟩ := List.mem_iff_getElem?.1 hg
  have hlt : r < n := by
    have := (List.getElem?_eq_some_iff.1 hr).1
    rwa [chunk8_length] at this
  obtain ⟨g', e, h8, _⟩ := chunk8_spec n l h r hlt
  rw [hr] at e
  cases e
  exact h8

theorem maxPool_idx_lt {α : Type} [LinearOrder α] [OrderBot α] [Zero α] {C : Nat} (x : List (Fin C → α)) (o : Octree F) (d : Nat)
    (nempty : Bool) (r : List (Fin C → α) × List (Fin C → Nat)) (h : octreeMaxPool x o d nempty = .ok r) : ∀ v ∈ r.2, ∀ k, v k < 8 := by
  unfold octreeMaxPool at h
  generalize (if nempty = true then octreePad x o (d + 1) (fun _ => ⊥) else pure x : M (List (Fin C → α))) = A at h
  cases A with
  | error e => cases h
  | ok y =>
  simp only [bind, Except.bind] at h
  unfold view8 at h
  split at h
  · cases h
  · rename_i gs hgs
    split at hgs
    · rename_i hm
      cases hgs
      generalize (if nempty = false then octreePad (List.map (fun g => (maxRows g).1) (chunk8 (y.length / 8) y)) o d (fun _ => 0)
        else pure (List.map (fun g => (maxRows g).1) (chunk8 (y.length / 8) y)) : M (List (Fin C → α))) = A at h
      cases A with
      | error e => cases h
      | ok z =>
        cases h
        intro v hv k
        obtain ⟨g, hg, rfl⟩ := List.mem_map.1 hv
        exact (maxRows_spec g (chunk8_mem _ y (by omega) g hg) k).1
    · cases hgs

theorem maxPoolIdx_isIdx (nempty : Bool) (o : Octree F) (d : Nat) (t : Tensor) (r : Tensor × Tensor) (h : maxPoolIdx nempty o d t = .ok r) :
    IsIdx r.2 := by
  cases d with
  | zero => cases h
  | succ d =>
  unfold maxPoolIdx at h
  dsimp only at h
  cases e : octreeMaxPool (t.rows.map fun v => fun i => ((v i : ℚ) : WithBot ℚ)) o d nempty with
  | error er => rw [e] at h; cases h
  | ok q =>
    rw [e] at h
    cases h
    intro v hv j
    obtain ⟨w, hw, rfl⟩ := List.mem_map.1 hv
    exact ⟨w j, maxPool_idx_lt _ _ _ _ _ e w hw j, rfl⟩

namespace Layers
variable {P' P : Params} {S : Sys} {o' o : Octree F} {D : Nat}

theorem lenetChannel_last (cin : Nat) {stages : Nat} (hst : 1 ≤ stages) : lenetChannel cin stages stages = 64 := by
  unfold lenetChannel
  rw [if_neg (by omega), show max (stages - 1 + 7 - stages) 2 = 6 by omega]
  rfl

theorem lenetConvs (L : Layers P' P S o' o D) {cin : Nat} {stages : Nat} (hst : 1 ≤ stages) {nempty : Bool} {depth : Nat} (hds : stages ≤ depth)
    (hD : S.lo nempty ≤ depth - stages ∧ depth ≤ D) (hc : 27 * cin ≤ maxBuffer) (hbn : ∀ d, depth - stages < d → d ≤ depth → S.ok (S.ht nempty d)) {t s : Tensor}
    (h : S.R (S.ht nempty depth) cin t s) :
    Both (S.R (S.ht nempty (depth - stages)) 64) ((List.range stages).foldlM (lenetStep P' cin stages nempty o' depth) t)
      ((List.range stages).foldlM (lenetStep P cin stages nempty o depth) s) := by
  refine (Both.fold (fun k => S.R (S.ht nempty (depth - k)) (lenetChannel cin stages k)) stages _ _ ?_ h).mono ?_
  · intro k hk a b hab
    unfold lenetStep
    obtain ⟨e, he⟩ : ∃ e, depth - k = e + 1 := ⟨depth - (k + 1), by omega⟩
    have he' : depth - (k + 1) = e := by omega
    dsimp only at hab ⊢
    rw [he] at hab
    rw [he, he']
    exact (L.convBnRelu3 _ _ (by omega) (by omega) (lenetChannel_le cin stages k (by omega) hc) (hbn _ (by omega) (by omega)) hab).bind
      fun _ _ h => L.maxPool (by omega) h
  · intro a b hab
    rw [lenetChannel_last cin hst] at hab
    exact hab

theorem lenet (L : Layers P' P S o' o D) {cin : Nat} (cout : Nat) {stages : Nat} (hst : 1 ≤ stages) {nempty : Bool} (hvox : S.vox) (hlo : S.lo nempty = 0) (hD : stages + 2 ≤ D)
    (hc : 27 * cin ≤ maxBuffer) (hbn : ∀ d, 3 ≤ d → d ≤ stages + 2 → S.ok (S.ht nempty d)) (hbb : S.ok S.hb) {t s : Tensor}
    (h : S.R (S.ht nempty (stages + 2)) cin t s) :
    Both (S.R S.hb cout) (lenet P' cin cout stages nempty o' (stages + 2) t) (lenet P cin cout stages nempty o (stages + 2) s) := by
  unfold Ocnn.lenet
  refine (L.lenetConvs hst (by omega) (by omega) hc (fun d h1 h2 => hbn d (by omega) h2) h).bind ?_
  intro a b hab
  have e2 : stages + 2 - stages = 2 := by omega
  rw [e2] at hab
  rw [e2]
  refine (L.voxelFlat hvox (by omega) hab).bind fun a b hab => ?_
  have := L.drop "header.0" _ _ _ hbb hab
  refine (L.fcBnRelu _ 128 hbb this).bind fun a b hab => ?_
  exact L.linear _ cout true (L.drop "header.2" _ _ _ hbb hab)

theorem resnet (L : Layers P' P S o' o D) {cin : Nat} (cout num : Nat) (hnum : 1 ≤ num) {stages : Nat} (hst : 1 ≤ stages) {nempty : Bool} {depth : Nat}
    (hds : stages ≤ depth) (hD : S.lo nempty ≤ depth - stages ∧ depth ≤ D) (hc : 27 * cin ≤ maxBuffer)
    (hbn : ∀ d, depth - stages < d → d ≤ depth → S.ok (S.ht nempty d)) (hbb : S.ok S.hb) {t s : Tensor}
    (h : S.R (S.ht nempty depth) cin t s) :
    Both (S.R S.hb cout) (resnet P' cin cout num stages nempty o' depth t) (resnet P cin cout num stages nempty o depth s) := by
  unfold Ocnn.resnet
  have hs0 : ¬ stages = 0 := by omega
  simp only [if_neg hs0, pure_bind]
  refine (L.convBnRelu3 _ _ (by omega) (by omega) hc (hbn _ (by omega) (by omega)) h).bind fun a b hab => ?_
  obtain ⟨e, rfl⟩ : ∃ e, depth = e + 1 := ⟨depth - 1, by omega⟩
  refine (L.maxPool (by omega) hab).bind fun a b hab => ?_
  refine (Both.fold (fun k => S.R (S.ht nempty (e - k)) (resnetChannel stages k)) (stages - 1) _ _ ?_ hab).bind ?_
  · intro k hk a b hab
    unfold resnetStep
    obtain ⟨g, hg⟩ : ∃ g, e + 1 - k - 1 = g + 1 := ⟨e - (k + 1), by omega⟩
    have h1 : e - k = g + 1 := by omega
    have h2 : e - (k + 1) = g := by omega
    dsimp only at hab ⊢
    rw [h1] at hab
    rw [hg, h2]
    refine (L.resBlocks .block _ (resnetChannel stages (k + 1)) num (by omega) (by omega) (by omega) (resnetChannel_le _ _ (by omega))
      (resnetChannel_le _ _ (by omega)) (hbn _ (by omega) (by omega)) hab).bind fun _ _ h => ?_
    rw [if_neg (by omega)] at h
    exact L.maxPool (by omega) h
  · intro a b hab
    have h1 : e - (stages - 1) = e + 1 - stages := by omega
    rw [h1] at hab
    refine (L.globalPool (by omega) hab).bind fun a b hab => ?_
    refine (L.fcBnRelu _ 512 hbb hab).bind fun a b hab => ?_
    exact L.linear _ cout true (L.drop _ _ _ _ hbb hab)

end Layers

end Ocnn
