import Verif.ConvMain

/-! Helper lemmas for the pooling properties. -/

set_option linter.unusedSimpArgs false

namespace Ocnn
open Spec

variable {F V : Type}

/-- `v` is the row of `data` belonging to cell `c`. -/
def Spec.HasVal (cells : List Cell) (data : List V) (c : Cell) (v : V) : Prop :=
  ∃ i : Nat, cells[i]? = some c ∧ data[i]? = some v

theorem hasVal_unique {cells : List Cell} (hnd : cells.Nodup) {data : List V} {c : Cell} {v v' : V} (h : HasVal cells data c v)
    (h' : HasVal cells data c v') : v = v' := by
  obtain ⟨i, h1, h2⟩ := h
  obtain ⟨j, h3, h4⟩ := h'
  have := nodup_getElem?_inj hnd h1 h3
  subst this
  rw [h2] at h4
  exact Option.some.inj h4

theorem queried_nodup {o : Octree F} {h : Nat} {masks : Nat → List Bool} (W : WF o h masks) (d : Nat) (hd : d ≤ h) (nempty : Bool) :
    (queried nempty (layerCells o.batchSize masks d) (number 0 (masks d))).Nodup := by
  have h16 := W.depth_le
  have hh := W.h_le
  unfold queried
  rw [nonEmpty_eq _ _ _ (W.len d hd)]
  have := layer_nodup o.batchSize masks d (by omega)
  split
  · exact (maskSel_sublist _ _).nodup this
  · exact this

theorem WF.layer_length {o : Octree F} {h : Nat} {masks : Nat → List Bool} (W : WF o h masks) (d : Nat) (hd : d + 1 ≤ h) :
    (layerCells o.batchSize masks (d + 1)).length = 8 * o.nnumNempty d := by
  rw [W.nnumNempty d (by omega), ← maskSel_length _ _ (W.len d (by omega))]
  simp [layerCells]

theorem queried_length' {o : Octree F} {h : Nat} {masks : Nat → List Bool} (W : WF o h masks) (d : Nat) (hd : d ≤ h) (nempty : Bool) :
    (queried nempty (layerCells o.batchSize masks d) (number 0 (masks d))).length = if nempty then o.nnumNempty d else o.nnum d := by
  unfold queried
  rw [nonEmpty_eq _ _ _ (W.len d hd)]
  cases nempty
  · simp [W.nnum d hd]
  · simp [maskSel_length _ _ (W.len d hd), W.nnumNempty d hd]

/-- The padded tensor, child by child. -/
theorem pool_pre (o : Octree F) (h : Nat) (w : o.Valid h) (d : Nat) (hd : d + 1 ≤ h) (nempty : Bool) (x : List V) (v0 : V)
    (hx : x.length = (queried nempty (layerCells o.batchSize o.masks (d + 1)) (number 0 (o.masks (d + 1)))).length) :
    ∃ P, (if nempty then octreePad x o (d + 1) v0 else pure x : M (List V)) = .ok P ∧ P.length = 8 * o.nnumNempty d ∧
      ∀ (r : Nat) (c : Cell), (maskSel (o.masks d) (layerCells o.batchSize o.masks d))[r]? = some c → ∀ j < 8, ∃ p,
        P[8 * r + j]? = some p ∧
        (HasVal (queried nempty (layerCells o.batchSize o.masks (d + 1)) (number 0 (o.masks (d + 1)))) x (c.child j) p ∨
          (nempty = true ∧ p = v0 ∧
            ∀ u, ¬ HasVal (queried nempty (layerCells o.batchSize o.masks (d + 1)) (number 0 (o.masks (d + 1)))) x (c.child j) u)) := by
  have W := w.wf'
  have hl := W.layer_length d hd
  have hlen := queried_length' W (d + 1) hd nempty
  rw [hlen] at hx
  cases nempty with
  | false =>
    simp only [Bool.false_eq_true, if_false] at hx ⊢
    refine ⟨x, rfl, ?_, ?_⟩
    · rw [hx, W.nnum _ hd, hl]
    · intro r c hc j hj
      have hr := (List.getElem?_eq_some_iff.1 hc).1
      have e : (layerCells o.batchSize o.masks (d + 1))[8 * r + j]? = some (c.child j) := by
        rw [layer_getElem?_succ _ _ _ _ _ hj, hc]; rfl
      have hi := (List.getElem?_eq_some_iff.1 e).1
      have hi' : 8 * r + j < x.length := by rw [hx, W.nnum _ hd]; exact hi
      exact ⟨x[8 * r + j], List.getElem?_eq_getElem hi', Or.inl ⟨8 * r + j, by simpa [queried] using e, List.getElem?_eq_getElem hi'⟩⟩
  | true =>
    simp only [if_true] at hx ⊢
    have hm := W.len (d + 1) hd
    refine ⟨_, pad_ok w (d + 1) hd x v0 hx, ?_, ?_⟩
    · rw [maskFill_length _ _ _ (by simp), List.length_replicate, hm, hl]
    · intro r c hc j hj
      have e : (layerCells o.batchSize o.masks (d + 1))[8 * r + j]? = some (c.child j) := by
        rw [layer_getElem?_succ _ _ _ _ _ hj, hc]; rfl
      have hi := (List.getElem?_eq_some_iff.1 e).1
      have hn := W.nnumNempty (d + 1) hd
      have hmf := maskFill_number (o.masks (d + 1)) 0 x v0 (by omega)
      rw [List.drop_zero] at hmf
      rw [hmf, List.getElem?_map, number_getElem?]
      have hq : queried true (layerCells o.batchSize o.masks (d + 1)) (number 0 (o.masks (d + 1)))
          = maskSel (o.masks (d + 1)) (layerCells o.batchSize o.masks (d + 1)) := by
        unfold queried
        rw [nonEmpty_eq _ _ _ hm]; rfl
      have him : 8 * r + j < (o.masks (d + 1)).length := by rw [hm]; exact hi
      rw [hq, List.getElem?_eq_getElem him]
      cases hb : (o.masks (d + 1))[8 * r + j] with
      | true =>
        have hb' : (o.masks (d + 1))[8 * r + j]? = some true := by rw [List.getElem?_eq_getElem him, hb]
        have hr := rank_lt_count hb'
        have hrx : rank (o.masks (d + 1)) (8 * r + j) < x.length := by omega
        simp only [Option.map_some, if_true, Nat.zero_add, Int.toNat_natCast, Int.natCast_nonneg]
        refine ⟨_, rfl, Or.inl ⟨rank (o.masks (d + 1)) (8 * r + j), ?_, ?_⟩⟩
        · rw [maskSel_getElem?_rank _ _ _ hb', e]
        · rw [List.getElem?_eq_getElem hrx]; rfl
      | false =>
        simp only [Option.map_some, Bool.false_eq_true, if_false, show ¬ (0 : Int) ≤ -1 by omega]
        refine ⟨_, rfl, Or.inr ⟨trivial, rfl, ?_⟩⟩
        rintro u ⟨i, h1, -⟩
        obtain ⟨i', a1, a2, -⟩ := exists_of_maskSel _ _ _ _ h1
        have h16 := w.depth_le
        have hh := w.h_le
        have := nodup_getElem?_inj (layer_nodup o.batchSize o.masks (d + 1) (by omega)) a2 e
        rw [this, List.getElem?_eq_getElem him, hb] at a1
        simp at a1

theorem chunk8_length {α : Type _} (n : Nat) (l : List α) : (chunk8 n l).length = n := by
  induction n generalizing l with
  | zero => rfl
  | succ n ih => simp [chunk8, ih]

theorem chunk8_spec {α : Type _} (n : Nat) (l : List α) (h : l.length = 8 * n) (r : Nat) (hr : r < n) :
    ∃ g, (chunk8 n l)[r]? = some g ∧ g.length = 8 ∧ ∀ j < 8, g[j]? = l[8 * r + j]? := by
  induction n generalizing l r with
  | zero => omega
  | succ n ih =>
    cases r with
    | zero =>
      refine ⟨l.take 8, rfl, by simp; omega, ?_⟩
      intro j hj
      rw [List.getElem?_take, if_pos hj]
      congr 1
      omega
    | succ r =>
      obtain ⟨g, h1, h2, h3⟩ := ih (l.drop 8) (by simp; omega) r (by omega)
      refine ⟨g, by simpa [chunk8] using h1, h2, ?_⟩
      intro j hj
      rw [h3 j hj, List.getElem?_drop]
      congr 1
      omega

theorem chunk8_flatten {α : Type _} (n : Nat) (l : List α) (h : l.length = 8 * n) : (chunk8 n l).flatten = l := by
  induction n generalizing l with
  | zero =>
    have : l = [] := List.length_eq_zero_iff.1 (by omega)
    simp [chunk8, this]
  | succ n ih =>
    rw [chunk8, List.flatten_cons, ih _ (by simp; omega), List.take_append_drop]

theorem maxIdx_spec {α : Type _} [LinearOrder α] (l : List α) (h : l ≠ []) :
    ∃ m i, maxIdx l = some (m, i) ∧ l[i]? = some m ∧ (∀ a ∈ l, a ≤ m) ∧ ∀ (j : Nat) (a : α), j < i → l[j]? = some a → a < m := by
  induction l with
  | nil => exact absurd rfl h
  | cons a l ih =>
    by_cases hl : l = []
    · subst hl
      exact ⟨a, 0, rfl, rfl, by simp, by omega⟩
    · obtain ⟨m, i, h1, h2, h3, h4⟩ := ih hl
      simp only [maxIdx, h1]
      by_cases hlt : a < m
      · rw [if_pos hlt]
        refine ⟨m, i + 1, rfl, by simpa using h2, ?_, ?_⟩
        · intro b hb
          rcases List.mem_cons.1 hb with rfl | hb
          · exact le_of_lt hlt
          · exact h3 b hb
        · intro j b hj hb
          cases j with
          | zero => simp at hb; subst hb; exact hlt
          | succ j => exact h4 j b (by omega) (by simpa using hb)
      · rw [if_neg hlt]
        refine ⟨a, 0, rfl, rfl, ?_, by omega⟩
        intro b hb
        rcases List.mem_cons.1 hb with rfl | hb
        · exact le_refl _
        · exact (h3 b hb).trans (not_lt.1 hlt)

theorem maxRows_spec {α : Type _} [LinearOrder α] [OrderBot α] {C : Nat} (g : List (Fin C → α)) (h : g.length = 8) (k : Fin C) :
    (maxRows g).2 k < 8 ∧ (∃ v, g[(maxRows g).2 k]? = some v ∧ v k = (maxRows g).1 k) ∧
    (∀ v ∈ g, v k ≤ (maxRows g).1 k) ∧
    ∀ (j : Nat) (v : Fin C → α), j < (maxRows g).2 k → g[j]? = some v → v k < (maxRows g).1 k := by
  have hne : (g.map fun v => v k) ≠ [] := by
    intro e
    have := congrArg List.length e
    simp [h] at this
  obtain ⟨m, i, h1, h2, h3, h4⟩ := maxIdx_spec _ hne
  unfold maxRows
  simp only [h1, Option.map_some, Option.getD_some]
  rw [List.getElem?_map] at h2
  refine ⟨?_, ?_, ?_, ?_⟩
  · cases hg : g[i]? with
    | none => rw [hg] at h2; simp at h2
    | some v => have := (List.getElem?_eq_some_iff.1 hg).1; omega
  · cases hg : g[i]? with
    | none => rw [hg] at h2; simp at h2
    | some v => rw [hg] at h2; simp at h2; exact ⟨v, rfl, h2⟩
  · intro v hv
    exact h3 _ (List.mem_map_of_mem hv)
  · intro j v hj hv
    exact h4 j _ hj (by rw [List.getElem?_map, hv]; rfl)

/-- The result of max pooling in terms of the padded tensor. -/
theorem maxPool_ok {α : Type} [LinearOrder α] [OrderBot α] [Zero α] {C : Nat} (o : Octree F) (h : Nat) (w : o.Valid h) (d : Nat)
    (hd : d + 1 ≤ h) (nempty : Bool) (x P : List (Fin C → α))
    (hP : (if nempty then octreePad x o (d + 1) (fun _ => ⊥) else pure x : M (List (Fin C → α))) = .ok P)
    (hl : P.length = 8 * o.nnumNempty d) :
    octreeMaxPool x o d nempty = .ok (
      (if nempty then (chunk8 (o.nnumNempty d) P).map fun g => (maxRows g).1
        else maskFill (o.masks d) (List.replicate (o.masks d).length fun _ => 0) ((chunk8 (o.nnumNempty d) P).map fun g => (maxRows g).1)),
      (chunk8 (o.nnumNempty d) P).map fun g => (maxRows g).2) := by
  unfold octreeMaxPool
  rw [hP]
  simp only [bind, Except.bind, view8, hl, Nat.mul_mod_right, if_true, Nat.mul_div_cancel_left _ (show 0 < 8 by omega)]
  cases nempty with
  | true => rfl
  | false =>
    simp only [if_true, Bool.false_eq_true, if_false]
    rw [pad_ok w d (by omega) _ _ (by simp [chunk8_length])]
    rfl

end Ocnn
