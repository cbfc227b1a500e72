import Verif.BuildMain
import Mathlib.Algebra.Order.Floor.Semifield
import Mathlib.Algebra.Order.Archimedean.Basic
import Mathlib.Tactic.FieldSimp
import Mathlib.Tactic.Linarith

/-! Geometry: the cells of points in the cube. -/

set_option linter.unusedSimpArgs false

namespace Ocnn
open Spec
variable {F : Type}

theorem long_eq (q : ℚ) (h : 0 ≤ q) : long q = (⌊q⌋₊ : Int) := by
  have h1 : long q = ⌊q⌋ := by
    unfold long
    rw [Rat.floor_def']
    exact Int.tdiv_eq_ediv_of_nonneg (Rat.num_nonneg.mpr h)
  rw [h1, Int.natCast_floor_eq_floor h]

/-- index of the interval containing a coordinate -/
def sideAt (d : Nat) (v : ℚ) : Nat := ⌊(v + 1) * 2 ^ d / 2⌋₊

/-- cell of level `d` containing a point -/
def cellAt (d : Nat) (b : Nat) (p : V3 ℚ) : Cell := ⟨b, sideAt d p.x, sideAt d p.y, sideAt d p.z⟩

theorem sideContains_iff (d n : Nat) (v : ℚ) (h : -1 ≤ v) : SideContains d n v ↔ sideAt d v = n := by
  unfold SideContains sideAt
  have hp : (0 : ℚ) < 2 ^ d := by positivity
  have hq : 0 ≤ (v + 1) * 2 ^ d / 2 := by
    apply div_nonneg (mul_nonneg (by linarith) hp.le) (by norm_num)
  rw [Nat.floor_eq_iff hq]
  have e1 : (-1 + (n : ℚ) * (2 / 2 ^ d) ≤ v) ↔ (n : ℚ) ≤ (v + 1) * 2 ^ d / 2 := by
    rw [le_div_iff₀ (by norm_num)]
    have : (n : ℚ) * (2 / 2 ^ d) = (n * 2) / 2 ^ d := by ring
    rw [this]
    constructor
    · intro h
      have : (n : ℚ) * 2 / 2 ^ d ≤ v + 1 := by linarith
      rwa [div_le_iff₀ hp] at this
    · intro h
      have : (n : ℚ) * 2 / 2 ^ d ≤ v + 1 := by rwa [div_le_iff₀ hp]
      linarith
  have e2 : (v < -1 + ((n : ℚ) + 1) * (2 / 2 ^ d)) ↔ (v + 1) * 2 ^ d / 2 < (n : ℚ) + 1 := by
    rw [div_lt_iff₀ (by norm_num)]
    have : ((n : ℚ) + 1) * (2 / 2 ^ d) = ((n + 1) * 2) / 2 ^ d := by ring
    rw [this]
    constructor
    · intro h
      have : v + 1 < ((n : ℚ) + 1) * 2 / 2 ^ d := by linarith
      rwa [lt_div_iff₀ hp] at this
    · intro h
      have : v + 1 < ((n : ℚ) + 1) * 2 / 2 ^ d := by rwa [lt_div_iff₀ hp]
      linarith
  rw [e1, e2]

theorem cubeContains_iff (d : Nat) (c : Cell) (p : V3 ℚ) (h : InCube p) :
    CubeContains d c p ↔ cellAt d c.b p = c := by
  unfold CubeContains
  rw [sideContains_iff _ _ _ h.1.1, sideContains_iff _ _ _ h.2.1.1, sideContains_iff _ _ _ h.2.2.1]
  obtain ⟨b, x, y, z⟩ := c
  simp [cellAt]

theorem rescale_eq (D : Nat) (p : V3 ℚ) : rescale D p = gridPos D p := by
  have : (2 : ℚ) ^ ((D : ℤ) - 1) = 2 ^ D / 2 := by
    rw [zpow_sub_one₀ (by norm_num), zpow_natCast]; rfl
  unfold rescale gridPos V3.map
  rw [this]
  simp only [mul_div_assoc]

theorem sideAt_lt (d : Nat) (v : ℚ) (h : -1 ≤ v ∧ v < 1) : sideAt d v < 2 ^ d := by
  unfold sideAt
  have hp : (0 : ℚ) < 2 ^ d := by positivity
  rw [Nat.floor_lt (div_nonneg (mul_nonneg (by linarith [h.1]) hp.le) (by norm_num))]
  push_cast
  rw [div_lt_iff₀ (by norm_num)]
  nlinarith [h.2]

theorem long_sideAt (D : Nat) (v : ℚ) (h : -1 ≤ v ∧ v < 1) :
    (long ((v + 1) * 2 ^ D / 2) % 2 ^ D).toNat = sideAt D v := by
  have hp : (0 : ℚ) < 2 ^ D := by positivity
  rw [long_eq _ (div_nonneg (mul_nonneg (by linarith [h.1]) hp.le) (by norm_num))]
  have := sideAt_lt D v h
  unfold sideAt at this ⊢
  have e : ((⌊(v + 1) * 2 ^ D / 2⌋₊ : Int) % 2 ^ D) = (⌊(v + 1) * 2 ^ D / 2⌋₊ : Int) := by
    apply Int.emod_eq_of_lt (by positivity)
    exact_mod_cast this
  rw [e, Int.toNat_natCast]

theorem wrapCell_cellAt (D b : Nat) (p : V3 ℚ) (h : InCube p) : wrapCell D (rescale D p) b = cellAt D b p := by
  rw [rescale_eq]
  unfold wrapCell cellAt gridPos V3.map
  simp only [long_sideAt D _ h.1, long_sideAt D _ h.2.1, long_sideAt D _ h.2.2]

theorem sideAt_div (d n : Nat) (v : ℚ) : sideAt (d + n) v / 2 ^ n = sideAt d v := by
  unfold sideAt
  have : (v + 1) * 2 ^ d / 2 = ((v + 1) * 2 ^ (d + n) / 2) / ((2 ^ n : Nat) : ℚ) := by
    push_cast
    rw [pow_add]
    field_simp
  rw [this, Nat.floor_div_natCast]

theorem cellAt_ancestor (d D b : Nat) (p : V3 ℚ) (hd : d ≤ D) : (cellAt D b p).ancestor (D - d) = cellAt d b p := by
  obtain ⟨n, rfl⟩ := Nat.exists_eq_add_of_le hd
  simp [cellAt, Cell.ancestor, sideAt_div]

theorem mem_zipWith_iff {α β γ : Type _} (f : α → β → γ) (l : List α) (l' : List β) (c : γ) :
    c ∈ List.zipWith f l l' ↔ ∃ (i : Nat) (a : α) (b : β), l[i]? = some a ∧ l'[i]? = some b ∧ f a b = c := by
  rw [List.mem_iff_getElem?]
  constructor
  · rintro ⟨i, hi⟩
    rw [List.getElem?_zipWith] at hi
    cases h1 : l[i]? with
    | none => rw [h1] at hi; simp at hi
    | some a =>
      cases h2 : l'[i]? with
      | none => rw [h1, h2] at hi; simp at hi
      | some b => rw [h1, h2] at hi; exact ⟨i, a, b, h1, h2, by simpa using hi⟩
  · rintro ⟨i, a, b, h1, h2, rfl⟩
    exact ⟨i, by rw [List.getElem?_zipWith, h1, h2]⟩

/-- for points in the cube the cells of the points are the geometric ones -/
theorem pointCells_occupied {L : Type} {D : Nat} {pc : Points ℚ F L} {samples : List Nat}
    (hin : ∀ p ∈ pc.points, InCube p) (d : Nat) (hd : d ≤ D) (c : Cell) :
    (∃ q ∈ pointCells D pc samples, q.ancestor (D - d) = c) ↔ Occupied pc.points samples d c := by
  constructor
  · rintro ⟨q, hq, rfl⟩
    obtain ⟨i, a, b, h1, h2, rfl⟩ := (mem_zipWith_iff _ _ _ _).mp hq
    rw [List.getElem?_map] at h1
    cases hp : pc.points[i]? with
    | none => rw [hp] at h1; simp at h1
    | some p =>
      rw [hp] at h1
      simp only [Option.map_some, Option.some.injEq] at h1
      have hin' := hin p (List.mem_of_getElem? hp)
      refine ⟨i, p, hp, ?_, ?_⟩
      · rw [h2]; rfl
      · rw [cubeContains_iff _ _ _ hin', ← h1, wrapCell_cellAt _ _ _ hin', cellAt_ancestor _ _ _ _ hd]
        rfl
  · rintro ⟨i, p, h1, h2, h3⟩
    have hin' := hin p (List.mem_of_getElem? h1)
    rw [cubeContains_iff _ _ _ hin'] at h3
    refine ⟨cellAt D c.b p, (mem_zipWith_iff _ _ _ _).mpr ⟨i, rescale D p, c.b, ?_, h2, wrapCell_cellAt _ _ _ hin'⟩, ?_⟩
    · rw [List.getElem?_map, h1]; rfl
    · rw [cellAt_ancestor _ _ _ _ hd, h3]

end Ocnn
