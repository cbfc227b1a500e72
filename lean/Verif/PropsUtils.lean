import Verif.ConvSetup
import Verif.BuildFacts

/-! # C74, C75, C76: the helper functions of utils.py -/

namespace Ocnn
open Spec

variable {V : Type}

/-! ## specification -/

namespace Spec

/-- The sum of the rows whose index is `r`. -/
def sumOfRows [AddMonoid V] (index : List Int) (src : List V) (r : Nat) : V :=
  (((index.zip src).filter fun p => decide (p.1 = (r : Int))).map Prod.snd).sum

end Spec

/-! ## scatter_add -/

theorem scatterIdx_nat (n j : Nat) (h : j < n) : scatterIdx n (j : Int) = .ok j := by
  unfold scatterIdx
  rw [if_pos ⟨by omega, by omega⟩]
  simp

theorem mapM_scatterIdx_err (n : Nat) (index : List Int) (h : ∃ i ∈ index, i < 0 ∨ (n : Int) ≤ i) :
    index.mapM (scatterIdx n) = .error .index := by
  induction index with
  | nil => simp at h
  | cons a l ih =>
    rw [List.mapM_cons]
    by_cases ha : a < 0 ∨ (n : Int) ≤ a
    · have : scatterIdx n a = .error .index := by
        unfold scatterIdx
        rw [if_neg (by omega)]
      rw [this]
      rfl
    · obtain ⟨i, hi, hb⟩ := h
      have hl : ∃ i ∈ l, i < 0 ∨ (n : Int) ≤ i := by
        rcases List.mem_cons.mp hi with e | e
        · subst e; exact absurd hb ha
        · exact ⟨i, e, hb⟩
      have : scatterIdx n a = .ok a.toNat := by
        unfold scatterIdx
        rw [if_pos (by omega)]
      rw [this, ih hl]
      rfl

theorem sumOfRows_nat [AddMonoid V] (js : List Nat) (src : List V) (r : Nat) :
    sumOfRows (js.map Int.ofNat) src r = (((js.zip src).filter fun p => decide (p.1 = r)).map Prod.snd).sum := by
  unfold sumOfRows
  congr 1
  rw [List.zip_map_left, List.filter_map, List.map_map]
  have e : (fun p : Int × V => decide (p.1 = (r : Int))) ∘ Prod.map Int.ofNat id =
      fun p : Nat × V => decide (p.1 = r) := by
    funext p
    simp
  rw [e]
  rfl

theorem scatterAdd_size [AddMonoid V] (src : List V) (index : List Int) (size : Option Nat)
    (hl : index.length = src.length) :
    scatterAdd src index size = scatterAdd src index (some (size.getD (maxPlusOne index))) := by
  cases size with
  | some n => rfl
  | none =>
    unfold scatterAdd
    rw [if_pos hl]
    rfl

theorem scatterAdd_withSize [AddMonoid V] (src : List V) (index : List Int) (n : Nat) (hl : index.length = src.length) :
    scatterAdd src index (some n) = (index.mapM (scatterIdx n)).bind fun js =>
      .ok (scatterAddInto (List.replicate n 0) (js.zip src)) := by
  unfold scatterAdd
  rw [if_pos hl]
  rfl

/-- `scatter_add(src, index, dim=0)`: with valid indices the result has `n` rows (the given size, or one more
than the largest index), and row `r` is the sum of the source rows whose index is `r`. -/
theorem C74_scatter_add [AddMonoid V] (src : List V) (index : List Int) (size : Option Nat) (n : Nat)
    (hl : index.length = src.length) (hi : ∀ i ∈ index, 0 ≤ i ∧ i < (n : Int))
    (hn : size = some n ∨ size = none ∧ (n ≠ 0 → (n : Int) - 1 ∈ index)) :
    ∃ out, scatterAdd src index size = .ok out ∧ out.length = n ∧
      ∀ r < n, out[r]? = some (sumOfRows index src r) := by
  obtain ⟨js, rfl⟩ : ∃ js : List Nat, index = js.map Int.ofNat := by
    refine ⟨index.map Int.toNat, ?_⟩
    rw [List.map_map]
    conv_lhs => rw [← List.map_id index]
    refine List.map_congr_left fun i h => ?_
    have := (hi i h).1
    simp only [id, Function.comp, Int.ofNat_eq_natCast]
    omega
  have hj : ∀ j ∈ js, j < n := fun j h => by
    have := (hi (j : Int) (List.mem_map.mpr ⟨j, h, rfl⟩)).2
    omega
  have hm : (js.map Int.ofNat).mapM (scatterIdx n) = .ok js := by
    rw [List.mapM_map]
    have := mapM_ok (scatterIdx n ∘ Int.ofNat) id js (fun a ha => scatterIdx_nat n a (hj a ha))
    rw [this, List.map_id]
  have hs : size.getD (maxPlusOne (js.map Int.ofNat)) = n := by
    rcases hn with rfl | ⟨rfl, hn⟩
    · rfl
    · refine maxPlusOne_eq js n hj fun n' e => ?_
      obtain ⟨j, h, e'⟩ := List.mem_map.mp (hn (by omega))
      have : j = n' := by simp only [Int.ofNat_eq_natCast] at e'; omega
      exact this ▸ h
  refine ⟨scatterAddInto (List.replicate n 0) (js.zip src), ?_, ?_, ?_⟩
  · rw [scatterAdd_size src _ size hl, hs, scatterAdd_withSize _ _ _ hl, hm]
    rfl
  · rw [scatterAddInto_length, List.length_replicate]
  · intro r hr
    rw [scatterSum_eq, sumOfRows_nat]
    simp [hr]

/-- An index vector with one entry is used for all rows. -/
theorem C74_broadcast [AddMonoid V] (src : List V) (i n : Nat) (hi : i < n) (h1 : src.length ≠ 1) :
    ∃ out, scatterAdd src [(i : Int)] (some n) = .ok out ∧ out.length = n ∧
      ∀ r < n, out[r]? = some (if r = i then src.sum else 0) := by
  have e : scatterAdd src [(i : Int)] (some n) =
      scatterAdd src (List.replicate src.length (i : Int)) (some n) := by
    unfold scatterAdd
    simp [Ne.symm h1]
  rw [e]
  obtain ⟨out, h, hl, hr⟩ := C74_scatter_add src (List.replicate src.length (i : Int)) (some n) n (by simp)
    (fun j hj => by rw [List.eq_of_mem_replicate hj]; omega) (.inl rfl)
  refine ⟨out, h, hl, fun r hr' => ?_⟩
  rw [hr r hr']
  congr 1
  unfold sumOfRows
  have key : ∀ src : List V, (((List.replicate src.length (i : Int)).zip src).filter
      fun p => decide (p.1 = (r : Int))).map Prod.snd = if r = i then src else [] := by
    intro src
    induction src with
    | nil => simp
    | cons a l ih =>
      simp only [List.length_cons, List.replicate_succ, List.zip_cons_cons, List.filter_cons]
      by_cases hri : r = i
      · subst hri
        simp only [if_true] at ih ⊢
        simp [ih]
      · rw [if_neg hri] at ih ⊢
        rw [if_neg (by simp; omega), ih]
  rw [key]
  split <;> simp

/-- Permuting the rows together with their indices does not change the result. -/
theorem C74_order [AddCommMonoid V] (src src' : List V) (index index' : List Int) (size : Option Nat) (n : Nat)
    (hl : index.length = src.length) (hl' : index'.length = src'.length)
    (hi : ∀ i ∈ index, 0 ≤ i ∧ i < (n : Int))
    (hn : size = some n ∨ size = none ∧ (n ≠ 0 → (n : Int) - 1 ∈ index))
    (hp : (index.zip src).Perm (index'.zip src')) :
    scatterAdd src index size = scatterAdd src' index' size := by
  have hpi : index.Perm index' := by
    have := hp.map Prod.fst
    rwa [List.map_fst_zip (by omega), List.map_fst_zip (by omega)] at this
  obtain ⟨out, h, hl, hr⟩ := C74_scatter_add src index size n hl hi hn
  obtain ⟨out', h', hl', hr'⟩ := C74_scatter_add src' index' size n hl'
    (fun i hi' => hi i (hpi.mem_iff.mpr hi')) (hn.imp id fun ⟨a, b⟩ => ⟨a, fun c => hpi.mem_iff.mp (b c)⟩)
  rw [h, h']
  congr 1
  apply List.ext_getElem?
  intro r
  by_cases hrn : r < n
  · rw [hr r hrn, hr' r hrn]
    congr 1
    exact ((hp.filter _).map _).sum_eq
  · rw [List.getElem?_eq_none (by omega), List.getElem?_eq_none (by omega)]

/-- Negative or too large indices raise an exception. -/
theorem C74_bad_index [AddMonoid V] (src : List V) (index : List Int) (n : Nat)
    (hl : index.length = src.length) (hb : ∃ i ∈ index, i < 0 ∨ (n : Int) ≤ i) :
    scatterAdd src index (some n) = .error .index := by
  unfold scatterAdd
  rw [if_pos hl]
  simp only [bind, Except.bind]
  rw [mapM_scatterIdx_err n index hb]

theorem C74_negative_index [AddMonoid V] (src : List V) (index : List Int) (size : Option Nat)
    (hl : index.length = src.length) (hb : ∃ i ∈ index, i < 0) : scatterAdd src index size = .error .index := by
  unfold scatterAdd
  rw [if_pos hl]
  simp only [bind, Except.bind]
  obtain ⟨i, hi, h⟩ := hb
  rw [mapM_scatterIdx_err _ index ⟨i, hi, .inl h⟩]

/-- Index vectors of another length (except 1) raise an exception. -/
theorem C74_bad_length [AddMonoid V] (src : List V) (index : List Int) (size : Option Nat)
    (hl : index.length ≠ src.length) (h1 : index.length ≠ 1) : scatterAdd src index size = .error .shape := by
  unfold scatterAdd
  rw [if_neg hl]
  match index, h1 with
  | [], _ => rfl
  | [_], h => exact absurd rfl h
  | _ :: _ :: _, _ => rfl

/-- The total of the result is the total of the source. -/
theorem C74_total [AddCommMonoid V] (src : List V) (index : List Int) (size : Option Nat) (out : List V)
    (hl : index.length = src.length) (h : scatterAdd src index size = .ok out) : out.sum = src.sum := by
  rw [scatterAdd_size src index size hl] at h
  generalize hn : size.getD (maxPlusOne index) = n at h
  rw [scatterAdd_withSize _ _ _ hl] at h
  cases hm : index.mapM (scatterIdx n) with
  | error e => rw [hm] at h; cases h
  | ok js =>
    rw [hm] at h
    cases h
    have hjs : js.length = index.length ∧ ∀ j ∈ js, j < n := by
      clear hn hl
      induction index generalizing js with
      | nil => cases hm; simp
      | cons a l ih =>
        rw [List.mapM_cons] at hm
        cases ha : scatterIdx n a with
        | error e => rw [ha] at hm; cases hm
        | ok j =>
          rw [ha] at hm
          cases hr : l.mapM (scatterIdx n) with
          | error e => rw [hr] at hm; cases hm
          | ok js' =>
            rw [hr] at hm
            cases hm
            obtain ⟨h1, h2⟩ := ih js' hr
            refine ⟨by simp [h1], fun j' hj' => ?_⟩
            rcases List.mem_cons.mp hj' with e | e
            · subst e
              unfold scatterIdx at ha
              split at ha
              · cases ha; omega
              · cases ha
            · exact h2 j' e
    rw [scatterAddInto_sum]
    · rw [List.map_snd_zip (by omega)]
      simp
    · intro p hp
      rw [List.length_replicate]
      exact hjs.2 p.1 (List.of_mem_zip hp).1

/-! ## cumsum -/

theorem cumsumFrom_at [AddMonoid V] (acc : V) (l : List V) (i : Nat) (h : i < l.length) :
    (cumsumFrom acc l)[i]? = some (acc + (l.take (i + 1)).sum) := by
  induction l generalizing acc i with
  | nil => simp at h
  | cons a l ih =>
    cases i with
    | zero => simp [cumsumFrom]
    | succ i =>
      have := ih (acc + a) i (by simpa using h)
      simp [cumsumFrom, this, add_assoc]

theorem cumsumFrom_length' [Add V] (acc : V) (l : List V) : (cumsumFrom acc l).length = l.length := by
  induction l generalizing acc with
  | nil => rfl
  | cons a l ih => simp [cumsumFrom, ih]

/-- The exclusive cumulative sum has one more entry than the data; entry `i` is the sum of the first `i`
values. -/
theorem C75_exclusive [AddMonoid V] (data : List V) :
    (cumsum data true).length = data.length + 1 ∧
    (∀ i ≤ data.length, (cumsum data true)[i]? = some (data.take i).sum) ∧
    (cumsum data true)[0]? = some 0 ∧ (cumsum data true)[data.length]? = some data.sum := by
  have key : ∀ i ≤ data.length, (cumsum data true)[i]? = some (data.take i).sum := by
    intro i hi
    unfold cumsum
    simp only [if_true]
    cases i with
    | zero => simp
    | succ i => rw [List.getElem?_cons_succ, cumsumFrom_at 0 data i (by omega), zero_add]
  refine ⟨by simp [cumsum, cumsumFrom_length'], key, ?_, ?_⟩
  · have := key 0 (by omega)
    simpa using this
  · have := key data.length le_rfl
    rwa [List.take_length] at this

/-- The inclusive one is the exclusive one without its leading 0. -/
theorem C75_inclusive [AddMonoid V] (data : List V) :
    (cumsum data false).length = data.length ∧
    (∀ i < data.length, (cumsum data false)[i]? = some (data.take (i + 1)).sum) ∧
    cumsum data true = 0 :: cumsum data false := by
  refine ⟨by simp [cumsum, cumsumFrom_length'], fun i hi => ?_, rfl⟩
  unfold cumsum
  simp only [Bool.false_eq_true, if_false]
  rw [cumsumFrom_at 0 data i hi, zero_add]

/-! ## resize_with_last_val and list2str -/

theorem appendLast_ok {α : Type} (l : List α) (v : α) (n : Nat) :
    appendLast (l ++ [v]) n = .ok (l ++ [v] ++ List.replicate n v) := by
  induction n generalizing l with
  | zero => simp [appendLast]
  | succ n ih =>
    unfold appendLast
    rw [List.getLast?_append_cons]
    simp only [List.getLast?_singleton]
    rw [ih (l ++ [v]), List.replicate_succ]
    simp

/-- A non-empty list with at most `num` entries is extended by its last entry to exactly `num` entries. -/
theorem C76_resize {α : Type} (l : List α) (v : α) (num : Nat) (h : (l ++ [v]).length ≤ num) :
    ∃ out, resizeWithLastVal (l ++ [v]) num = .ok out ∧ out.length = num ∧
      (∀ i < (l ++ [v]).length, out[i]? = (l ++ [v])[i]?) ∧
      (∀ i, (l ++ [v]).length ≤ i → i < num → out[i]? = some v) ∧
      resizeWithLastVal out num = .ok out := by
  have key : ∀ (l : List α) (v : α), (l ++ [v]).length ≤ num →
      resizeWithLastVal (l ++ [v]) num = .ok (l ++ [v] ++ List.replicate (num - (l ++ [v]).length) v) := by
    intro l v h
    unfold resizeWithLastVal pyAssert
    rw [if_pos (by omega)]
    simp only [bind, Except.bind]
    exact appendLast_ok l v _
  refine ⟨_, key l v h, ?_, ?_, ?_, ?_⟩
  · rw [List.length_append, List.length_replicate]; omega
  · intro i hi
    rw [List.getElem?_append_left hi]
  · intro i hi hn
    rw [List.getElem?_append_right hi, List.getElem?_replicate, if_pos (by omega)]
  · unfold resizeWithLastVal pyAssert
    rw [if_pos (by simp only [List.length_append, List.length_replicate] at h ⊢; omega)]
    simp only [bind, Except.bind]
    have : num - (l ++ [v] ++ List.replicate (num - (l ++ [v]).length) v).length = 0 := by
      simp only [List.length_append, List.length_replicate] at h ⊢; omega
    rw [this]
    rfl

/-- The empty list and too long lists raise. -/
theorem C76_resize_raises {α : Type} (l : List α) (num : Nat) :
    (num < l.length → resizeWithLastVal l num = .error .assertion) ∧
    (l = [] → 0 < num → resizeWithLastVal l num = .error .index) := by
  refine ⟨fun h => ?_, fun h hn => ?_⟩
  · unfold resizeWithLastVal pyAssert
    rw [if_neg (by omega)]
    rfl
  · subst h
    unfold resizeWithLastVal pyAssert
    obtain ⟨m, rfl⟩ := Nat.exists_eq_succ_of_ne_zero (Nat.pos_iff_ne_zero.mp hn)
    rfl

theorem length_list2str (a b c : Nat) : (list2str [a, b, c]).length = a.repr.length + b.repr.length + c.repr.length := by
  unfold list2str
  simp only [List.map_cons, List.map_nil, String.join_cons, String.join_nil, String.length_append, Nat.toString_eq_repr]
  simp [add_assoc]

/-- the equivalence of `C76_names` as a Boolean -/
def namesOk (a b c : Nat) : Bool :=
  (decide (list2str [a, b, c] = "333") || (lutKernel.lookup (list2str [a, b, c])).isSome) ==
    decide ((a, b, c) ∈ supportedKernels)

theorem namesOk_small : ∀ a < 10, ∀ b < 10, ∀ c < 10, namesOk a b c = true := by
  decide +kernel

theorem names_small (a b c : Nat) (ha : a < 10) (hb : b < 10) (hc : c < 10) :
    (list2str [a, b, c] = "333" ∨ (lutKernel.lookup (list2str [a, b, c])).isSome) ↔ (a, b, c) ∈ supportedKernels := by
  have h := namesOk_small a ha b hb c hc
  unfold namesOk at h
  have h := eq_of_beq h
  rw [← decide_eq_true_iff (p := (a, b, c) ∈ supportedKernels), ← h]
  simp

theorem lookup_length (s : String) (h : (lutKernel.lookup s).isSome) : s.length = 3 := by
  unfold lutKernel at h
  simp only [List.lookup] at h
  repeat' split at h
  all_goals first
    | (rename_i e; rw [eq_of_beq e]; rfl)
    | simp at h

/-- The name built from three kernel sizes is known to `get_neigh` exactly if they are one of the documented
kernels: no other sizes (like 33, 3) produce the same name. -/
theorem C76_names (a b c : Nat) :
    (list2str [a, b, c] = "333" ∨ (lutKernel.lookup (list2str [a, b, c])).isSome) ↔ (a, b, c) ∈ supportedKernels := by
  by_cases hs : a < 10 ∧ b < 10 ∧ c < 10
  · exact names_small a b c hs.1 hs.2.1 hs.2.2
  · have small : ∀ k ∈ supportedKernels, k.1 < 10 ∧ k.2.1 < 10 ∧ k.2.2 < 10 := by decide
    refine ⟨fun h => absurd ?_ hs, fun h => absurd (small _ h) hs⟩
    have hl : (list2str [a, b, c]).length = 3 := by
      rcases h with h | h
      · rw [h]; rfl
      · exact lookup_length _ h
    rw [length_list2str] at hl
    have ha := Nat.length_repr_pos (n := a)
    have hb := Nat.length_repr_pos (n := b)
    have hc := Nat.length_repr_pos (n := c)
    have h1 : a < 10 ^ 1 := (Nat.length_repr_le_iff (by omega)).mp (by omega)
    have h2 : b < 10 ^ 1 := (Nat.length_repr_le_iff (by omega)).mp (by omega)
    have h3 : c < 10 ^ 1 := (Nat.length_repr_le_iff (by omega)).mp (by omega)
    omega

/-- For the documented kernels the name is the three sizes written one after the other. -/
theorem C76_kernel_name (k : Nat × Nat × Nat) (h : k ∈ supportedKernels) :
    list2str [k.1, k.2.1, k.2.2] = kernelName k := (list2str_kernel k h).1

/-! ## examples -/

example : scatterAdd [(1 : ℚ), 2, 3, 4] [2, 0, 2, 0] none = .ok [6, 0, 4] := by decide +kernel
example : scatterAdd [(1 : ℚ), 2, 3, 4] [0, 0, 2, 2] (some 4) = scatterAdd [(2 : ℚ), 3, 1, 4] [0, 2, 0, 2] (some 4) :=
  C74_order _ _ _ _ (some 4) 4 rfl rfl (by decide) (.inl rfl) (by decide)
example : scatterAdd [(1 : ℚ), 2] [0, 5] (some 3) = .error .index := C74_bad_index _ _ 3 rfl ⟨5, by decide, by decide⟩
example : cumsum [3, 1, 4] true = [0, 3, 4, 8] := by decide
example : ∃ out, resizeWithLastVal [3, 1] 3 = .ok out ∧ out.length = 3 := by
  obtain ⟨out, h, hl, _⟩ := C76_resize [3] 1 3 (by decide)
  exact ⟨out, h, hl⟩
example : list2str [33, 3, 1] = "3331" ∧ ¬ (lutKernel.lookup (list2str [33, 3, 1])).isSome := by decide +kernel

end Ocnn
