import Verif.Torch
import Mathlib.Data.List.Basic
import Mathlib.Data.List.Sort
import Mathlib.Tactic.Linarith
import Mathlib.Tactic.Ring

/-! List lemmas about masks, numbering and expansion. -/

set_option linter.unusedSimpArgs false

namespace Ocnn

/-- consecutive numbering of the `true` positions, -1 elsewhere -/
def number (n : Nat) : List Bool → List Int
  | [] => []
  | true :: m => (n : Int) :: number (n + 1) m
  | false :: m => -1 :: number n m

/-- number of `true` among the first `i` -/
def rank (m : List Bool) (i : Nat) : Nat := (m.take i).count true

@[simp] theorem number_length (n : Nat) (m : List Bool) : (number n m).length = m.length := by
  induction m generalizing n with
  | nil => rfl
  | cons b m ih => cases b <;> simp [number, ih]

theorem number_getElem? (n : Nat) (m : List Bool) (i : Nat) :
    (number n m)[i]? = m[i]?.map fun b => if b then ((n + rank m i : Nat) : Int) else -1 := by
  induction m generalizing n i with
  | nil => simp [number]
  | cons b m ih =>
    cases b <;> cases i <;> simp [number, ih, rank, List.count_cons]
    all_goals (congr 1; funext b; cases b <;> simp; try omega)

theorem number_mask (n : Nat) (m : List Bool) : (number n m).map (fun v => decide (v ≥ 0)) = m := by
  induction m generalizing n with
  | nil => rfl
  | cons b m ih => cases b <;> simp [number] <;> exact ih _

theorem number_replicate (n k : Nat) :
    number n (List.replicate k true) = (List.range k).map fun i => ((n + i : Nat) : Int) := by
  induction k generalizing n with
  | zero => rfl
  | succ k ih =>
    rw [List.replicate_succ, number, ih, List.range_succ_eq_map]
    simp only [List.map_cons, List.map_map, Nat.add_zero]
    congr 1
    apply List.map_congr_left
    intro i _
    simp only [Function.comp]
    congr 1
    omega

theorem arange_eq_number (k : Nat) : arange k = number 0 (List.replicate k true) := by
  rw [number_replicate]
  simp [arange]

/-! maskSel -/

@[simp] theorem maskSel_nil_left {α : Type _} (xs : List α) : maskSel [] xs = [] := by
  cases xs <;> rfl
@[simp] theorem maskSel_nil_right {α : Type _} (m : List Bool) : maskSel m ([] : List α) = [] := by
  cases m with
  | nil => rfl
  | cons b m => cases b <;> rfl
@[simp] theorem maskSel_true {α : Type _} (m : List Bool) (x : α) (xs : List α) :
    maskSel (true :: m) (x :: xs) = x :: maskSel m xs := rfl
@[simp] theorem maskSel_false {α : Type _} (m : List Bool) (x : α) (xs : List α) :
    maskSel (false :: m) (x :: xs) = maskSel m xs := rfl

theorem maskSel_length {α : Type _} (m : List Bool) (xs : List α) (h : m.length = xs.length) :
    (maskSel m xs).length = m.count true := by
  induction m generalizing xs with
  | nil => simp
  | cons b m ih =>
    cases xs with
    | nil => simp at h
    | cons x xs =>
      have := ih xs (by simpa using h)
      cases b <;> simp [this]

theorem maskSel_map {α β : Type _} (f : α → β) (m : List Bool) (xs : List α) :
    maskSel m (xs.map f) = (maskSel m xs).map f := by
  induction m generalizing xs with
  | nil => simp
  | cons b m ih =>
    cases xs with
    | nil => simp
    | cons x xs => cases b <;> simp [ih]

theorem maskSel_sublist {α : Type _} (m : List Bool) (xs : List α) : (maskSel m xs).Sublist xs := by
  induction m generalizing xs with
  | nil => simp
  | cons b m ih =>
    cases xs with
    | nil => simp
    | cons x xs =>
      cases b
      · simpa using (ih xs).trans (List.sublist_cons_self x xs)
      · simpa using (ih xs)

theorem maskSel_replicate_true {α : Type _} (xs : List α) :
    maskSel (List.replicate xs.length true) xs = xs := by
  induction xs with
  | nil => rfl
  | cons x xs ih => simp [List.replicate_succ, ih]

theorem maskSel_getElem?_rank {α : Type _} (m : List Bool) (xs : List α) (i : Nat)
    (hi : m[i]? = some true) : (maskSel m xs)[rank m i]? = xs[i]? := by
  induction m generalizing xs i with
  | nil => simp at hi
  | cons b m ih =>
    cases xs with
    | nil => simp
    | cons x xs =>
      cases i with
      | zero =>
        simp at hi; subst hi
        simp [rank]
      | succ i =>
        have hi' : m[i]? = some true := by simpa using hi
        have := ih xs i hi'
        cases b
        · simpa [rank] using this
        · simpa [rank] using this

theorem exists_of_maskSel {α : Type _} (m : List Bool) (xs : List α) (r : Nat) (x : α)
    (h : (maskSel m xs)[r]? = some x) :
    ∃ i : Nat, m[i]? = some true ∧ xs[i]? = some x ∧ rank m i = r := by
  induction m generalizing xs r with
  | nil => simp at h
  | cons b m ih =>
    cases xs with
    | nil => simp at h
    | cons y xs =>
      cases b
      · obtain ⟨i, h1, h2, h3⟩ := ih xs r (by simpa using h)
        exact ⟨i + 1, by simpa using h1, by simpa using h2, by simpa [rank] using h3⟩
      · cases r with
        | zero => exact ⟨0, by simp, by simpa using h, by simp [rank]⟩
        | succ r =>
          obtain ⟨i, h1, h2, h3⟩ := ih xs r (by simpa using h)
          exact ⟨i + 1, by simpa using h1, by simpa using h2, by simpa [rank] using h3⟩

theorem mem_maskSel {α : Type _} (m : List Bool) (xs : List α) (x : α) :
    x ∈ maskSel m xs ↔ ∃ i : Nat, m[i]? = some true ∧ xs[i]? = some x := by
  constructor
  · intro h
    obtain ⟨r, hr⟩ := List.mem_iff_getElem?.mp h
    obtain ⟨i, h1, h2, _⟩ := exists_of_maskSel m xs r x hr
    exact ⟨i, h1, h2⟩
  · rintro ⟨i, h1, h2⟩
    have := maskSel_getElem?_rank m xs i h1
    rw [h2] at this
    exact List.mem_of_getElem? this

/-- selecting by membership -/
theorem maskSel_map_decide {α : Type _} (p : α → Bool) (xs : List α) :
    maskSel (xs.map p) xs = xs.filter p := by
  induction xs with
  | nil => simp
  | cons x xs ih => cases h : p x <;> simp [h, ih]

theorem rank_lt_count {m : List Bool} {i : Nat} (h : m[i]? = some true) : rank m i < m.count true := by
  induction m generalizing i with
  | nil => simp at h
  | cons b m ih =>
    cases i with
    | zero => simp at h; subst h; simp [rank]
    | succ i =>
      have := ih (i := i) (by simpa using h)
      cases b <;> simp [rank] at * <;> omega

/-! expansion: every element replaced by `n` elements -/

/-- each element `a` replaced by `f a 0, ..., f a (n-1)` -/
def expand {α β : Type _} (n : Nat) (f : α → Nat → β) (l : List α) : List β :=
  l.flatMap fun a => (List.range n).map (f a)

@[simp] theorem expand_nil {α β : Type _} (n : Nat) (f : α → Nat → β) : expand n f [] = [] := rfl
theorem expand_cons {α β : Type _} (n : Nat) (f : α → Nat → β) (a : α) (l : List α) :
    expand n f (a :: l) = (List.range n).map (f a) ++ expand n f l := rfl
theorem expand_append {α β : Type _} (n : Nat) (f : α → Nat → β) (l l' : List α) :
    expand n f (l ++ l') = expand n f l ++ expand n f l' := by simp [expand]

@[simp] theorem expand_length {α β : Type _} (n : Nat) (f : α → Nat → β) (l : List α) :
    (expand n f l).length = n * l.length := by
  induction l with
  | nil => simp
  | cons a l ih => simp [expand_cons, ih, Nat.mul_succ]; omega

theorem expand_getElem? {α β : Type _} (n : Nat) (f : α → Nat → β) (l : List α) (r o : Nat)
    (ho : o < n) : (expand n f l)[n * r + o]? = l[r]?.map fun a => f a o := by
  induction l generalizing r with
  | nil => simp
  | cons a l ih =>
    rw [expand_cons]
    cases r with
    | zero =>
      rw [List.getElem?_append_left (by simpa using ho)]
      simp [ho]
    | succ r =>
      rw [List.getElem?_append_right (by simp [Nat.mul_succ]; omega)]
      have : n * (r + 1) + o - ((List.range n).map (f a)).length = n * r + o := by
        simp [Nat.mul_succ]; omega
      rw [this, ih]
      simp

theorem map_expand {α β γ : Type _} (n : Nat) (f : α → Nat → β) (g : β → γ) (l : List α) :
    (expand n f l).map g = expand n (fun a i => g (f a i)) l := by
  simp [expand, List.map_flatMap, Function.comp_def]

theorem expand_map {α β γ : Type _} (n : Nat) (f : β → Nat → γ) (g : α → β) (l : List α) :
    expand n f (l.map g) = expand n (fun a i => f (g a) i) l := by
  simp [expand, List.flatMap_map]

theorem expand_congr {α β : Type _} (n : Nat) (f g : α → Nat → β) (l : List α)
    (h : ∀ a ∈ l, ∀ i < n, f a i = g a i) : expand n f l = expand n g l := by
  unfold expand
  induction l with
  | nil => rfl
  | cons a l ih =>
    simp only [List.flatMap_cons]
    rw [ih (fun a' ha' => h a' (List.mem_cons_of_mem _ ha'))]
    congr 1
    apply List.map_congr_left
    intro i hi
    exact h a (by simp) i (by simpa using hi)

theorem mem_expand {α β : Type _} (n : Nat) (f : α → Nat → β) (l : List α) (b : β) :
    b ∈ expand n f l ↔ ∃ a ∈ l, ∃ i < n, f a i = b := by
  simp [expand]

/-! strictly sorted lists -/

theorem sorted_ext {l l' : List Nat} (h : l.Pairwise (· < ·)) (h' : l'.Pairwise (· < ·))
    (hm : ∀ x, x ∈ l ↔ x ∈ l') : l = l' := by
  have hn : l.Nodup := h.imp (fun h => Nat.ne_of_lt h)
  have hn' : l'.Nodup := h'.imp (fun h => Nat.ne_of_lt h)
  exact List.Perm.eq_of_pairwise (fun a b _ _ h1 h2 => absurd h1 (by omega)) h h'
    ((List.perm_ext_iff_of_nodup hn hn').mpr hm)

theorem sorted_getElem?_lt {l : List Nat} (h : l.Pairwise (· < ·)) {i j a b : Nat}
    (hi : l[i]? = some a) (hj : l[j]? = some b) : a < b ↔ i < j := by
  have hi' := List.getElem?_eq_some_iff.mp hi
  have hj' := List.getElem?_eq_some_iff.mp hj
  obtain ⟨hi1, rfl⟩ := hi'
  obtain ⟨hj1, rfl⟩ := hj'
  constructor
  · intro hlt
    rcases Nat.lt_trichotomy i j with h1 | h1 | h1
    · exact h1
    · subst h1; omega
    · have := List.pairwise_iff_getElem.mp h j i hj1 hi1 h1; omega
  · intro hij
    exact List.pairwise_iff_getElem.mp h i j hi1 hj1 hij

theorem nodup_getElem?_inj {α : Type _} {l : List α} (h : l.Nodup) {i j : Nat} {a : α}
    (hi : l[i]? = some a) (hj : l[j]? = some a) : i = j := by
  have hi' := List.getElem?_eq_some_iff.mp hi
  have hj' := List.getElem?_eq_some_iff.mp hj
  obtain ⟨hi1, e1⟩ := hi'
  obtain ⟨hj1, e2⟩ := hj'
  exact (List.Nodup.getElem_inj_iff h).mp (e1.trans e2.symm)

/-! mapM in Except -/

theorem mapM_ok {α β : Type} (f : α → M β) (g : α → β) (l : List α)
    (h : ∀ a ∈ l, f a = .ok (g a)) : l.mapM f = .ok (l.map g) := by
  induction l with
  | nil => rfl
  | cons a l ih =>
    rw [List.mapM_cons, h a (by simp), ih (fun a' ha' => h a' (List.mem_cons_of_mem _ ha'))]
    rfl

end Ocnn
