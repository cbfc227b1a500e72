import Verif.ListLemmas
import Verif.Utils
import Mathlib.Algebra.BigOperators.Group.List.Basic

/-! Lemmas about sorting, unique, scatter. -/

set_option linter.unusedSimpArgs false

namespace Ocnn

theorem mem_dedupNat (l : List Nat) (x : Nat) : x ∈ dedupNat l ↔ x ∈ l := by
  induction l with
  | nil => simp [dedupNat]
  | cons a l ih =>
    unfold dedupNat
    split
    · rename_i h
      rw [ih, List.mem_cons]
      constructor
      · exact Or.inr
      · rintro (rfl | h')
        · exact h
        · exact h'
    · rw [List.mem_cons, List.mem_cons, ih]

theorem nodup_dedupNat (l : List Nat) : (dedupNat l).Nodup := by
  induction l with
  | nil => simp [dedupNat]
  | cons a l ih =>
    unfold dedupNat
    split
    · exact ih
    · rename_i h
      rw [List.nodup_cons]
      exact ⟨fun h' => h ((mem_dedupNat l a).mp h'), ih⟩

theorem perm_insertNat (a : Nat) (l : List Nat) : (insertNat a l).Perm (a :: l) := by
  induction l with
  | nil => exact List.Perm.refl _
  | cons b l ih =>
    unfold insertNat
    split
    · exact List.Perm.refl _
    · exact (ih.cons b).trans (List.Perm.swap a b l)

theorem perm_sortNat (l : List Nat) : (sortNat l).Perm l := by
  induction l with
  | nil => exact List.Perm.refl _
  | cons a l ih => exact (perm_insertNat a _).trans (ih.cons a)

theorem insertNat_sorted (a : Nat) (l : List Nat) (h : l.Pairwise (· ≤ ·)) : (insertNat a l).Pairwise (· ≤ ·) := by
  induction l with
  | nil => simp [insertNat]
  | cons b l ih =>
    rw [List.pairwise_cons] at h
    unfold insertNat
    split
    · rename_i hab
      rw [List.pairwise_cons]
      refine ⟨?_, List.pairwise_cons.mpr h⟩
      intro c hc
      rcases List.mem_cons.mp hc with rfl | hc
      · exact hab
      · exact le_trans hab (h.1 c hc)
    · rename_i hab
      rw [List.pairwise_cons]
      refine ⟨?_, ih h.2⟩
      intro c hc
      rcases List.mem_cons.mp ((perm_insertNat a l).subset hc) with rfl | hc
      · omega
      · exact h.1 c hc

theorem sortNat_sorted (l : List Nat) : (sortNat l).Pairwise (· ≤ ·) := by
  induction l with
  | nil => simp [sortNat]
  | cons a l ih => exact insertNat_sorted a _ ih

theorem mem_unique (l : List Nat) (x : Nat) : x ∈ unique l ↔ x ∈ l := by
  unfold unique
  rw [(perm_sortNat _).mem_iff, mem_dedupNat]

theorem unique_nodup (l : List Nat) : (unique l).Nodup :=
  (perm_sortNat _).nodup_iff.mpr (nodup_dedupNat l)

theorem unique_sorted (l : List Nat) : (unique l).Pairwise (· < ·) := by
  have h1 := sortNat_sorted (dedupNat l)
  have h2 := unique_nodup l
  exact (h1.and h2).imp (fun h => Nat.lt_of_le_of_ne h.1 h.2)

theorem unique_congr {l l' : List Nat} (h : ∀ x, x ∈ l ↔ x ∈ l') : unique l = unique l' :=
  sorted_ext (unique_sorted l) (unique_sorted l') (fun x => by rw [mem_unique, mem_unique, h])

theorem uniqueInv_spec (l : List Nat) : (uniqueInv l).length = l.length ∧
    ∀ (i : Nat) (x : Nat), l[i]? = some x → ∃ r : Nat, (uniqueInv l)[i]? = some r ∧ (unique l)[r]? = some x := by
  refine ⟨by simp [uniqueInv], ?_⟩
  intro i x hx
  have hm : x ∈ unique l := (mem_unique l x).mpr (List.mem_of_getElem? hx)
  refine ⟨(unique l).idxOf x, ?_, ?_⟩
  · simp [uniqueInv, List.getElem?_map, hx]
  · rw [List.getElem?_eq_getElem (List.idxOf_lt_length_iff.mpr hm)]
    simp

/-! unique_consecutive -/

theorem mem_uniqueConsec (l : List Nat) (x : Nat) : x ∈ uniqueConsec l ↔ x ∈ l := by
  induction l with
  | nil => simp [uniqueConsec]
  | cons a l ih =>
    cases l with
    | nil => simp [uniqueConsec]
    | cons b l =>
      unfold uniqueConsec
      split
      · rename_i h
        subst h
        rw [ih]; simp
      · rw [List.mem_cons, ih]; simp

theorem uniqueConsec_sorted (l : List Nat) (h : l.Pairwise (· ≤ ·)) : (uniqueConsec l).Pairwise (· < ·) := by
  induction l with
  | nil => simp [uniqueConsec]
  | cons a l ih =>
    cases l with
    | nil => simp [uniqueConsec]
    | cons b l =>
      unfold uniqueConsec
      rw [List.pairwise_cons] at h
      split
      · exact ih h.2
      · rename_i hab
        rw [List.pairwise_cons]
        refine ⟨?_, ih h.2⟩
        intro c hc
        rw [mem_uniqueConsec] at hc
        have hab' := h.1 b (by simp)
        rcases List.mem_cons.mp hc with rfl | hc
        · omega
        · have := (List.pairwise_cons.mp h.2).1 c hc
          omega

theorem uniqueConsecInv_spec (l : List Nat) (n : Nat) : (uniqueConsecInv n l).length = l.length ∧
    ∀ (i : Nat) (x : Nat), l[i]? = some x → ∃ r : Nat, (uniqueConsecInv n l)[i]? = some (n + r) ∧
      (uniqueConsec l)[r]? = some x := by
  induction l generalizing n with
  | nil => simp [uniqueConsecInv]
  | cons a l ih =>
    cases l with
    | nil =>
      refine ⟨rfl, ?_⟩
      intro i x hx
      cases i with
      | zero =>
        simp only [List.getElem?_cons_zero, Option.some.injEq] at hx
        exact ⟨0, by simp [uniqueConsecInv], by simp [uniqueConsec, hx]⟩
      | succ i => simp at hx
    | cons b l =>
      unfold uniqueConsecInv uniqueConsec
      split
      · rename_i h
        subst h
        obtain ⟨h1, h2⟩ := ih n
        refine ⟨by simp [h1], ?_⟩
        intro i x hx
        cases i with
        | zero =>
          simp only [List.getElem?_cons_zero, Option.some.injEq] at hx
          subst hx
          obtain ⟨r, h3, h4⟩ := h2 0 a rfl
          have hr : r = 0 := by
            cases l with
            | nil => simp [uniqueConsecInv] at h3; omega
            | cons c l =>
              unfold uniqueConsecInv at h3
              split at h3 <;> simp at h3 <;> omega
          subst hr
          exact ⟨0, by simp, h4⟩
        | succ i =>
          obtain ⟨r, h3, h4⟩ := h2 i x (by simpa using hx)
          exact ⟨r, by simpa using h3, h4⟩
      · obtain ⟨h1, h2⟩ := ih (n + 1)
        refine ⟨by simp [h1], ?_⟩
        intro i x hx
        cases i with
        | zero =>
          simp only [List.getElem?_cons_zero, Option.some.injEq] at hx
          subst hx
          exact ⟨0, by simp, by simp⟩
        | succ i =>
          obtain ⟨r, h3, h4⟩ := h2 i x (by simpa using hx)
          exact ⟨r + 1, by simp [h3]; omega, by simpa using h4⟩

/-! indexed assignment -/

theorem setMany_length {α : Type _} (t : List α) (ps : List (Nat × α)) : (setMany t ps).length = t.length := by
  induction ps generalizing t with
  | nil => rfl
  | cons p ps ih => obtain ⟨i, v⟩ := p; simp [setMany, ih]

theorem setMany_not_mem {α : Type _} (t : List α) (ps : List (Nat × α)) (i : Nat) (h : ∀ p ∈ ps, p.1 ≠ i) :
    (setMany t ps)[i]? = t[i]? := by
  induction ps generalizing t with
  | nil => rfl
  | cons p ps ih =>
    obtain ⟨j, v⟩ := p
    simp only [setMany]
    rw [ih _ (fun p hp => h p (List.mem_cons_of_mem _ hp)), List.getElem?_set_ne (h (j, v) (by simp))]

theorem setMany_mem {α : Type _} (t : List α) (ps : List (Nat × α)) (hnd : (ps.map Prod.fst).Nodup) (i : Nat) (v : α)
    (h : (i, v) ∈ ps) (hi : i < t.length) : (setMany t ps)[i]? = some v := by
  induction ps generalizing t with
  | nil => simp at h
  | cons p ps ih =>
    obtain ⟨j, w⟩ := p
    simp only [List.map_cons, List.nodup_cons] at hnd
    simp only [setMany]
    rcases List.mem_cons.mp h with h | h
    · cases h
      rw [setMany_not_mem]
      · simp [hi]
      · intro p hp e
        exact hnd.1 (List.mem_map.mpr ⟨p, hp, e⟩)
    · exact ih _ hnd.2 h (by simpa using hi)

/-- scattering consecutive numbers to the positions of a sublist numbers the mask -/
theorem setMany_number {α : Type _} (layer : List α) (m : List Bool) (hl : m.length = layer.length)
    (hnd : layer.Nodup) (addr : List Nat) (ha : addr.length = (maskSel m layer).length)
    (h : ∀ j : Nat, ∀ a, addr[j]? = some a → layer[a]? = (maskSel m layer)[j]? ) :
    setMany (List.replicate layer.length (-1)) (addr.zip (arange addr.length)) = number 0 m := by
  have hS : ((maskSel m layer)).Nodup := hnd.sublist (maskSel_sublist _ _)
  have hzip : (addr.zip (arange addr.length)).map Prod.fst = addr := by
    rw [List.map_fst_zip]; simp [arange]
  have hain : ∀ j : Nat, ∀ a, addr[j]? = some a → ∃ s, layer[a]? = some s ∧ (maskSel m layer)[j]? = some s := by
    intro j a hj
    have hjl : j < (maskSel m layer).length := by
      rw [← ha]; exact (List.getElem?_eq_some_iff.mp hj).1
    refine ⟨(maskSel m layer)[j], ?_, List.getElem?_eq_getElem hjl⟩
    rw [h j a hj, List.getElem?_eq_getElem hjl]
  have hand : addr.Nodup := by
    rw [List.nodup_iff_getElem?_ne_getElem?]
    intro i j hij hj e
    have hi : i < addr.length := by omega
    obtain ⟨s, hs1, hs2⟩ := hain i addr[i] (List.getElem?_eq_getElem hi)
    obtain ⟨s', hs1', hs2'⟩ := hain j addr[i] (by rw [← e, List.getElem?_eq_getElem hi])
    rw [hs1] at hs1'
    cases hs1'
    exact absurd (nodup_getElem?_inj hS hs2 hs2') (by omega)
  apply List.ext_getElem?
  intro i
  rw [number_getElem?]
  rcases Nat.lt_or_ge i layer.length with hi | hi
  · have him : i < m.length := by omega
    rw [List.getElem?_eq_getElem him]
    cases hb : m[i] with
    | true =>
      have hmi : m[i]? = some true := by rw [List.getElem?_eq_getElem him, hb]
      have hr := maskSel_getElem?_rank m layer i hmi
      rw [List.getElem?_eq_getElem hi] at hr
      have hrl : rank m i < addr.length := by
        rw [ha]; exact (List.getElem?_eq_some_iff.mp hr).1
      obtain ⟨s, hs1, hs2⟩ := hain (rank m i) addr[rank m i] (List.getElem?_eq_getElem hrl)
      rw [hr] at hs2
      cases hs2
      have e : addr[rank m i] = i := nodup_getElem?_inj hnd hs1 (List.getElem?_eq_getElem hi)
      rw [setMany_mem _ _ (by rw [hzip]; exact hand) i ((rank m i : Nat) : Int)]
      · simp
      · rw [List.mem_iff_getElem?]
        refine ⟨rank m i, ?_⟩
        rw [List.getElem?_zip_eq_some]
        refine ⟨by rw [List.getElem?_eq_getElem hrl, e], ?_⟩
        simp [arange, hrl]
      · simpa using hi
    | false =>
      rw [setMany_not_mem]
      · simp [hi]
      · rintro ⟨a, v⟩ hp e
        simp only at e
        subst e
        obtain ⟨j, hj⟩ := List.mem_iff_getElem?.mp hp
        rw [List.getElem?_zip_eq_some] at hj
        obtain ⟨s, hs1, hs2⟩ := hain j a hj.1
        obtain ⟨k, hk1, hk2, hk3⟩ := exists_of_maskSel _ _ _ _ hs2
        have := nodup_getElem?_inj hnd hk2 hs1
        subst this
        rw [List.getElem?_eq_getElem him, hb] at hk1
        simp at hk1
  · rw [List.getElem?_eq_none (by rw [setMany_length]; simpa using hi), List.getElem?_eq_none (by omega)]
    rfl

theorem normIdx_ok (n : Nat) (i : Nat) (h : i < n) : normIdx n (i : Int) = .ok i := by
  unfold normIdx
  rw [if_pos ⟨by omega, by exact_mod_cast h⟩]
  simp

theorem idxSet_ok {α : Type} (t : List α) (addr : List Nat) (vs : List α) (hl : addr.length = vs.length)
    (h : ∀ a ∈ addr, a < t.length) :
    idxSet t (addr.map Int.ofNat) vs = .ok (setMany t (addr.zip vs)) := by
  unfold idxSet
  have : (addr.map Int.ofNat).mapM (normIdx t.length) = .ok addr := by
    rw [List.mapM_map]
    have := mapM_ok (normIdx t.length ∘ Int.ofNat) id addr (fun a ha => normIdx_ok _ _ (h a ha))
    rw [this]; simp
  simp only [List.length_map, hl, ne_eq, not_true, if_false, bind, Except.bind, this]

/-! scatter_add -/

theorem scatterAddInto_length {V : Type _} [Add V] (out : List V) (ps : List (Nat × V)) :
    (scatterAddInto out ps).length = out.length := by
  induction ps generalizing out with
  | nil => rfl
  | cons p ps ih => obtain ⟨i, v⟩ := p; simp [scatterAddInto, ih]

theorem scatterAddInto_getElem? {V : Type _} [AddMonoid V] (out : List V) (ps : List (Nat × V)) (r : Nat) :
    (scatterAddInto out ps)[r]? =
      out[r]?.map fun a => a + ((ps.filter fun p => decide (p.1 = r)).map Prod.snd).sum := by
  induction ps generalizing out with
  | nil => simp [scatterAddInto]
  | cons p ps ih =>
    obtain ⟨i, v⟩ := p
    simp only [scatterAddInto]
    rw [ih, List.getElem?_modify]
    by_cases h : i = r
    · subst h
      simp [add_assoc, Function.comp_def]
    · simp [h]

end Ocnn
