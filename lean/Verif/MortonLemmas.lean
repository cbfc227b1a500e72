import Verif.Spec
import Mathlib.Tactic.Linarith
import Mathlib.Tactic.Ring
import Mathlib.Data.Nat.Bitwise

/-! Arithmetic of the Morton recursion. -/

namespace Ocnn.Spec

theorem morton_lt (d x y z : Nat) : morton d x y z < 8 ^ d := by
  induction d generalizing x y z with
  | zero => simp [morton]
  | succ d ih =>
    have := ih (x / 2) (y / 2) (z / 2)
    simp only [morton, pow_succ]
    omega

/-- only the low `d` bits matter -/
theorem morton_mod (d x y z : Nat) :
    morton d (x % 2 ^ d) (y % 2 ^ d) (z % 2 ^ d) = morton d x y z := by
  induction d generalizing x y z with
  | zero => simp [morton]
  | succ d ih =>
    have h : ∀ a : Nat, a % 2 ^ (d + 1) / 2 = (a / 2) % 2 ^ d := by
      intro a
      rw [pow_succ, Nat.mul_comm, Nat.mod_mul_right_div_self]
    have h2 : ∀ a : Nat, a % 2 ^ (d + 1) % 2 = a % 2 := by
      intro a
      exact Nat.mod_mod_of_dvd a (Dvd.intro_left (2 ^ d) rfl)
    simp only [morton, h, h2, ih]

theorem morton_injective {d x y z x' y' z' : Nat}
    (hx : x < 2 ^ d) (hy : y < 2 ^ d) (hz : z < 2 ^ d)
    (hx' : x' < 2 ^ d) (hy' : y' < 2 ^ d) (hz' : z' < 2 ^ d)
    (h : morton d x y z = morton d x' y' z') : x = x' ∧ y = y' ∧ z = z' := by
  induction d generalizing x y z x' y' z' with
  | zero => simp at *; omega
  | succ d ih =>
    simp only [morton, pow_succ] at *
    have h1 : morton d (x / 2) (y / 2) (z / 2) = morton d (x' / 2) (y' / 2) (z' / 2) := by omega
    have := ih (by omega) (by omega) (by omega) (by omega) (by omega) (by omega) h1
    omega

theorem testBit_morton (d x y z j : Nat) :
    (morton d x y z).testBit j =
      (decide (j < 3 * d) && (if j % 3 = 2 then x.testBit (j / 3)
        else if j % 3 = 1 then y.testBit (j / 3) else z.testBit (j / 3))) := by
  induction d generalizing x y z j with
  | zero => simp [morton]
  | succ d ih =>
    simp only [morton]
    by_cases hj : j < 3
    · have hx := Nat.mod_two_eq_zero_or_one x
      have hy := Nat.mod_two_eq_zero_or_one y
      have hz := Nat.mod_two_eq_zero_or_one z
      have e : ∀ A c : Nat, c < 8 → (8 * A + c).testBit j = c.testBit j := by
        intro A c hc
        have h8 : (8 : Nat) = 2 ^ 3 := rfl
        rw [h8, Nat.testBit_two_pow_mul_add A (by simpa using hc)]
        simp [hj]
      rw [e _ _ (by omega)]
      have hd : decide (j < 3 * (d + 1)) = true := by simp; omega
      rw [hd]
      have hj0 : j / 3 = 0 := by omega
      rw [hj0]
      have b0 : ∀ a : Nat, a.testBit 0 = decide (a % 2 = 1) := fun a => by simp
      have : j = 0 ∨ j = 1 ∨ j = 2 := by omega
      rcases this with rfl | rfl | rfl <;> rcases hx with hx | hx <;> rcases hy with hy | hy <;>
        rcases hz with hz | hz <;> simp [hx, hy, hz, b0] <;> decide
    · have h8 : (8 : Nat) = 2 ^ 3 := rfl
      have hlt : 4 * (x % 2) + 2 * (y % 2) + z % 2 < 2 ^ 3 := by
        have : (2:Nat)^3 = 8 := rfl
        omega
      rw [h8, Nat.testBit_two_pow_mul_add _ hlt]
      simp only [hj, if_false]
      rw [ih]
      have h3 : j / 3 = (j - 3) / 3 + 1 := by omega
      have hm : (j - 3) % 3 = j % 3 := by omega
      rw [hm, h3]
      have hd : decide (j - 3 < 3 * d) = decide (j < 3 * (d + 1)) := by
        apply decide_eq_decide.mpr; omega
      rw [hd]
      simp [Nat.testBit_succ]

theorem exists_morton (d m : Nat) (h : m < 8 ^ d) :
    ∃ x y z, x < 2 ^ d ∧ y < 2 ^ d ∧ z < 2 ^ d ∧ morton d x y z = m := by
  induction d generalizing m with
  | zero => exact ⟨0, 0, 0, by simp, by simp, by simp, by simp [morton] at *; omega⟩
  | succ d ih =>
    obtain ⟨x, y, z, hx, hy, hz, e⟩ := ih (m / 8) (by rw [pow_succ] at h; omega)
    refine ⟨2 * x + m / 4 % 2, 2 * y + m / 2 % 2, 2 * z + m % 2, ?_, ?_, ?_, ?_⟩
    · rw [pow_succ]; omega
    · rw [pow_succ]; omega
    · rw [pow_succ]; omega
    · have hh : ∀ a c : Nat, (2 * a + c % 2) / 2 = a := by intro a c; omega
      have hh2 : ∀ a c : Nat, (2 * a + c % 2) % 2 = c % 2 := by intro a c; omega
      simp only [morton, hh, hh2, e]
      omega

theorem morton_ancestor (n d x y z : Nat) :
    morton (d + n) x y z / 8 ^ n = morton d (x / 2 ^ n) (y / 2 ^ n) (z / 2 ^ n) := by
  induction n generalizing x y z with
  | zero => simp
  | succ n ih =>
    have h8 : (8 : Nat) ^ (n + 1) = 8 * 8 ^ n := by rw [pow_succ, Nat.mul_comm]
    have h2 : ∀ a : Nat, a / 2 ^ (n + 1) = a / 2 / 2 ^ n := by
      intro a; rw [pow_succ, Nat.mul_comm, Nat.div_div_eq_div_mul]
    rw [h8, ← Nat.div_div_eq_div_mul, ← Nat.add_assoc]
    simp only [morton, h2]
    rw [← ih]
    congr 1
    omega

theorem morton_zero (d : Nat) : morton d 0 0 0 = 0 := by
  induction d with
  | zero => rfl
  | succ d ih => simp [morton, ih]

/-! cells -/

theorem Cell.key_div (d : Nat) (c : Cell) (hd : d ≤ 16) : c.key d / 2 ^ 48 = c.b := by
  have hm := morton_lt d c.x c.y c.z
  have : (8 : Nat) ^ d ≤ 8 ^ 16 := Nat.pow_le_pow_right (by omega) hd
  have e : (8 : Nat) ^ 16 = 2 ^ 48 := by norm_num
  unfold Cell.key
  omega

theorem Cell.key_mod (d : Nat) (c : Cell) (hd : d ≤ 16) : c.key d % 2 ^ 48 = morton d c.x c.y c.z := by
  have hm := morton_lt d c.x c.y c.z
  have : (8 : Nat) ^ d ≤ 8 ^ 16 := Nat.pow_le_pow_right (by omega) hd
  have e : (8 : Nat) ^ 16 = 2 ^ 48 := by norm_num
  unfold Cell.key
  omega

theorem Cell.key_injective {B d : Nat} {c c' : Cell} (hd : d ≤ 16) (h : c.InRange B d)
    (h' : c'.InRange B d) (e : c.key d = c'.key d) : c = c' := by
  have e1 : c.b = c'.b := by rw [← Cell.key_div d c hd, ← Cell.key_div d c' hd, e]
  have e2 : morton d c.x c.y c.z = morton d c'.x c'.y c'.z := by
    rw [← Cell.key_mod d c hd, ← Cell.key_mod d c' hd, e]
  obtain ⟨_, hx, hy, hz⟩ := h
  obtain ⟨_, hx', hy', hz'⟩ := h'
  obtain ⟨a, b, g⟩ := morton_injective hx hy hz hx' hy' hz' e2
  cases c; cases c'; simp_all

theorem Cell.exists_of_key {B d k : Nat} (hb : k / 2 ^ 48 < B) (hm : k % 2 ^ 48 < 8 ^ d) :
    ∃ c : Cell, c.InRange B d ∧ c.key d = k := by
  obtain ⟨x, y, z, hx, hy, hz, e⟩ := exists_morton d _ hm
  refine ⟨⟨k / 2 ^ 48, x, y, z⟩, ⟨hb, hx, hy, hz⟩, ?_⟩
  simp only [Cell.key, e]
  omega

theorem Cell.parent_inRange {B d : Nat} {c : Cell} (h : c.InRange B (d + 1)) :
    c.parent.InRange B d := by
  obtain ⟨h0, h1, h2, h3⟩ := h
  rw [pow_succ] at h1 h2 h3
  refine ⟨h0, ?_, ?_, ?_⟩ <;> simp only [Cell.parent] <;> omega

theorem Cell.octant_lt (c : Cell) : c.octant < 8 := by unfold Cell.octant; omega

theorem Cell.child_parent (c : Cell) (o : Nat) : (c.child o).parent = c := by
  cases c
  simp only [Cell.child, Cell.parent, Cell.mk.injEq, true_and]
  omega

theorem Cell.child_octant (c : Cell) (o : Nat) (h : o < 8) : (c.child o).octant = o := by
  simp only [Cell.child, Cell.octant]
  omega

theorem Cell.parent_child (c : Cell) : c.parent.child c.octant = c := by
  cases c
  simp only [Cell.child, Cell.parent, Cell.octant, Cell.mk.injEq, true_and]
  omega

theorem Cell.child_inRange {B d : Nat} {c : Cell} (h : c.InRange B d) (o : Nat) :
    (c.child o).InRange B (d + 1) := by
  obtain ⟨h0, h1, h2, h3⟩ := h
  refine ⟨h0, ?_, ?_, ?_⟩ <;> simp only [Cell.child, pow_succ] <;> omega

theorem Cell.key_succ (d : Nat) (c : Cell) :
    c.key (d + 1) = c.b * 2 ^ 48 + (8 * morton d c.parent.x c.parent.y c.parent.z + c.octant) := by
  simp only [Cell.key, morton, Cell.parent, Cell.octant]

theorem Cell.child_key (d : Nat) (c : Cell) (o : Nat) (h : o < 8) :
    (c.child o).key (d + 1) = c.b * 2 ^ 48 + (8 * morton d c.x c.y c.z + o) := by
  rw [Cell.key_succ, Cell.child_parent, Cell.child_octant c o h]
  rfl

end Ocnn.Spec
