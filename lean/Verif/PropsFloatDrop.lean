import Verif.FloatDrop
import Verif.PropsFloatPool
import Verif.PropsVoxel
import Verif.PropsConv

/-! C181: drop path in floating point. -/

set_option linter.unusedSimpArgs false
set_option linter.unusedVariables false

namespace Ocnn
open Spec
variable {F : Type}

/-! ### the order of rounded numbers -/

theorem rne_le_int {z : ℚ} {n : ℤ} (h : z ≤ n) : rne z ≤ n := by
  by_contra hc
  have h1 : (n : ℚ) + 1 ≤ rne z := by exact_mod_cast (by omega : n + 1 ≤ rne z)
  have := rne_nearest z n
  rw [abs_of_nonneg (by linarith), abs_of_nonneg (by linarith)] at this
  linarith

theorem int_le_rne {z : ℚ} {n : ℤ} (h : n ≤ z) : n ≤ rne z := by
  by_contra hc
  have h1 : (rne z : ℚ) + 1 ≤ n := by exact_mod_cast (by omega : rne z + 1 ≤ n)
  have := rne_nearest z n
  rw [abs_of_nonpos (by linarith), abs_of_nonpos (by linarith)] at this
  linarith

theorem roundP_le_mul {p : Nat} {x : ℚ} {n : ℤ} (h : x ≤ n * ulpP p x) : roundP p x ≤ n * ulpP p x := by
  have hu := ulpP_pos p x
  rw [roundP_eq]
  exact mul_le_mul_of_nonneg_right (by exact_mod_cast rne_le_int ((div_le_iff₀ hu).2 h)) hu.le

theorem mul_le_roundP {p : Nat} {x : ℚ} {n : ℤ} (h : n * ulpP p x ≤ x) : n * ulpP p x ≤ roundP p x := by
  have hu := ulpP_pos p x
  rw [roundP_eq]
  exact mul_le_mul_of_nonneg_right (by exact_mod_cast int_le_rne ((le_div_iff₀ hu).2 h)) hu.le

theorem roundP_nonneg (p : Nat) {x : ℚ} (h : 0 ≤ x) : 0 ≤ roundP p x := by
  have := mul_le_roundP (p := p) (x := x) (n := 0) (by simpa using h)
  simpa using this

theorem ulpP_unit (p : Nat) {x : ℚ} (h1 : 1 ≤ x) (h2 : x < 2) : ulpP p x = 2 ^ (1 - (p : ℤ)) := by
  unfold ulpP
  rw [abs_of_pos (by linarith), log_unique (j := 0) (by simpa using h1) (by simpa using h2)]
  congr 1
  ring

/-- Numbers of at most `1 - 2^-p` stay below it. -/
theorem roundP_below {p q : Nat} (hpq : p ≤ q) {x : ℚ} (h0 : 0 ≤ x) (h : x ≤ 1 - 1 / 2 ^ p) : roundP q x ≤ 1 - 1 / 2 ^ p := by
  rcases eq_or_lt_of_le h0 with rfl | h0
  · rw [roundP_zero]; exact h
  have hp : (0 : ℚ) < 1 / 2 ^ p := by positivity
  have hl : Int.log 2 x < 0 := (Int.lt_zpow_iff_log_lt (b := 2) (by norm_num) h0).1 (by norm_num; linarith)
  have key : 1 - 1 / 2 ^ p = (((2 ^ p - 1) * 2 ^ ((q : ℤ) - 1 - p - Int.log 2 x).toNat : ℤ) : ℚ) * ulpP q x := by
    unfold ulpP
    rw [abs_of_pos h0]
    push_cast
    rw [mul_assoc, ← zpow_natCast (2 : ℚ) ((q : ℤ) - 1 - p - Int.log 2 x).toNat, Int.toNat_of_nonneg (by omega), ← zpow_add₀ (by norm_num)]
    rw [show (q : ℤ) - 1 - p - Int.log 2 x + (Int.log 2 x - ((q : ℤ) - 1)) = -(p : ℤ) by ring, zpow_neg, zpow_natCast]
    have : (2 : ℚ) ^ p ≠ 0 := by positivity
    field_simp
  rw [key] at h ⊢
  exact roundP_le_mul h

/-- Numbers between 1 and 2 stay there. -/
theorem roundP_unit {p : Nat} (hp : 1 ≤ p) {x : ℚ} (h1 : 1 ≤ x) (h2 : x ≤ 2) : 1 ≤ roundP p x ∧ roundP p x ≤ 2 := by
  rcases eq_or_lt_of_le h2 with rfl | h2
  · have := roundP_nat hp (n := 2) (by calc 2 = 2 ^ 1 := rfl
      _ ≤ 2 ^ p := Nat.pow_le_pow_right (by norm_num) hp)
    push_cast at this
    rw [this]
    norm_num
  have hu := ulpP_unit p h1 h2
  have e1 : (1 : ℚ) = ((2 ^ (p - 1) : ℤ) : ℚ) * ulpP p x := by
    rw [hu]
    push_cast
    rw [← zpow_natCast, ← zpow_add₀ (by norm_num), show ((p - 1 : ℕ) : ℤ) + (1 - (p : ℤ)) = 0 by omega, zpow_zero]
  have e2 : (2 : ℚ) = ((2 ^ p : ℤ) : ℚ) * ulpP p x := by
    rw [hu]
    push_cast
    rw [← zpow_natCast, ← zpow_add₀ (by norm_num), show (p : ℤ) + (1 - (p : ℤ)) = 1 by omega, zpow_one]
  constructor
  · calc (1 : ℚ) = _ := e1
      _ ≤ _ := mul_le_roundP (e1 ▸ h1)
  · calc _ ≤ _ := roundP_le_mul (e2 ▸ h2.le)
      _ = (2 : ℚ) := e2.symm

/-- Numbers that are closer to `2 - 2^(1-p)` than to 2 are not rounded to 2. -/
theorem roundP_not_two {p : Nat} {x : ℚ} (h1 : 1 ≤ x) (h2 : x < 2 - 1 / 2 ^ p) : roundP p x ≤ 2 - 2 / 2 ^ p := by
  have hp : (0 : ℚ) < 2 ^ p := by positivity
  have hp' : (0 : ℚ) < 1 / 2 ^ p := by positivity
  have hu := ulpP_unit p h1 (by linarith)
  have hu' : ulpP p x = 2 / 2 ^ p := by
    rw [hu, zpow_sub₀ (by norm_num), zpow_one, zpow_natCast]
  have hz : x / ulpP p x < 2 ^ p - 1 / 2 := by
    rw [hu', div_lt_iff₀ (by positivity)]
    calc x < 2 - 1 / 2 ^ p := h2
      _ = _ := by field_simp
  have hr : rne (x / ulpP p x) ≤ 2 ^ p - 1 := by
    have h3 := (abs_le.1 (rne_err (x / ulpP p x))).2
    have h4 : (rne (x / ulpP p x) : ℚ) < ((2 ^ p : ℤ) : ℚ) := by push_cast; linarith
    have h5 : rne (x / ulpP p x) < 2 ^ p := by exact_mod_cast h4
    omega
  have hr' : (rne (x / ulpP p x) : ℚ) ≤ 2 ^ p - 1 := by exact_mod_cast hr
  rw [roundP_eq]
  calc _ ≤ ((2 : ℚ) ^ p - 1) * ulpP p x := mul_le_mul_of_nonneg_right hr' (ulpP_pos p x).le
    _ = 2 - 2 / 2 ^ p := by rw [hu']; field_simp

theorem roundP_ne_zero {p : Nat} (hp : 1 ≤ p) {x : ℚ} (h : x ≠ 0) : roundP p x ≠ 0 := by
  intro e
  have h1 := roundP_rel p x
  rw [e, zero_sub, abs_neg] at h1
  have h2 : 0 < |x| := abs_pos.2 h
  have h3 : (1 : ℚ) / 2 ^ p ≤ 1 / 2 := by
    apply one_div_le_one_div_of_le (by norm_num)
    calc (2 : ℚ) = 2 ^ 1 := by norm_num
      _ ≤ 2 ^ p := pow_le_pow_right₀ (by norm_num) hp
  have : (1 : ℚ) / 2 ^ p * |x| ≤ 1 / 2 * |x| := mul_le_mul_of_nonneg_right h3 h2.le
  linarith

/-! ### the factors -/

/-- The probability to be kept, as it enters the sum. -/
def keepR (q : Nat) (drop : ℚ) : ℚ := roundP q (keepProb64 drop)

theorem roundP_le_one {p : Nat} (hp : 1 ≤ p) {x : ℚ} (h0 : 0 ≤ x) (h : x ≤ 1) : roundP p x ≤ 1 := by
  rcases eq_or_lt_of_le h0 with rfl | h0
  · rw [roundP_zero]; norm_num
  rcases eq_or_lt_of_le h with rfl | h
  · rw [roundP_one hp]
  have hl : Int.log 2 x < 0 := (Int.lt_zpow_iff_log_lt (b := 2) (by norm_num) h0).1 (by norm_num; linarith)
  have key : (1 : ℚ) = ((2 ^ ((p : ℤ) - 1 - Int.log 2 x).toNat : ℤ) : ℚ) * ulpP p x := by
    unfold ulpP
    rw [abs_of_pos h0]
    push_cast
    rw [← zpow_natCast (2 : ℚ) ((p : ℤ) - 1 - Int.log 2 x).toNat, Int.toNat_of_nonneg (by omega), ← zpow_add₀ (by norm_num)]
    rw [show (p : ℤ) - 1 - Int.log 2 x + (Int.log 2 x - ((p : ℤ) - 1)) = 0 by ring, zpow_zero]
  calc _ ≤ _ := roundP_le_mul (key ▸ h.le)
    _ = (1 : ℚ) := key.symm

theorem keep_bounds {q : Nat} (hq : 1 ≤ q) (hq' : q ≤ 53) {drop : ℚ} (h0 : 0 < drop) (h1 : drop < 1) :
    0 < keepProb64 drop ∧ 0 < keepR q drop ∧ keepR q drop ≤ 1 ∧ |keepR q drop - (1 - drop)| ≤ 3 / 2 ^ q := by
  have a1 : 0 ≤ keepProb64 drop := roundP_nonneg _ (by linarith)
  have a2 : keepProb64 drop ≠ 0 := roundP_ne_zero (by norm_num) (by linarith)
  have a3 : 0 < keepProb64 drop := lt_of_le_of_ne a1 (Ne.symm a2)
  have a4 : keepProb64 drop ≤ 1 := roundP_le_one (by norm_num) (by linarith) (by linarith)
  have b1 : 0 ≤ keepR q drop := roundP_nonneg _ a1
  have b2 : keepR q drop ≠ 0 := roundP_ne_zero hq a2
  refine ⟨a3, lt_of_le_of_ne b1 (Ne.symm b2), roundP_le_one hq a1 a4, ?_⟩
  have c1 := roundP_rel 53 (1 - drop)
  have c2 := roundP_rel q (keepProb64 drop)
  rw [abs_of_pos (show 0 < 1 - drop by linarith)] at c1
  rw [abs_of_pos a3] at c2
  have c3 : (1 : ℚ) / 2 ^ 53 ≤ 1 / 2 ^ q := one_div_le_one_div_of_le (by positivity) (pow_le_pow_right₀ (by norm_num) hq')
  have c4 : (0 : ℚ) < 1 / 2 ^ q := by positivity
  have c5 : (1 : ℚ) / 2 ^ 53 * (1 - drop) ≤ 1 / 2 ^ q * 1 := mul_le_mul c3 (by linarith) (by linarith) c4.le
  have c6 : (1 : ℚ) / 2 ^ q * keepProb64 drop ≤ 1 / 2 ^ q * 1 := mul_le_mul_of_nonneg_left a4 c4.le
  have c7 := abs_sub_le (keepR q drop) (keepProb64 drop) (1 - drop)
  have c8 : (3 : ℚ) / 2 ^ q = 3 * (1 / 2 ^ q) := by ring
  unfold keepR at *
  unfold keepProb64 at *
  rw [c8]
  linarith

/-- The two sides of the threshold. -/
theorem dropFloor_sides {p q : Nat} (hp : 1 ≤ p) (hpq : p ≤ q) (hq : q ≤ 53) {drop : ℚ} (h0 : 0 < drop) (h1 : drop < 1) {k : Nat} (hk : k < 2 ^ p) :
    ((k : ℚ) + 1 ≤ 2 ^ p * (1 - keepR q drop) → dropFloor p q drop k = 0) ∧ (2 ^ p * (1 - keepR q drop) ≤ k → 1 ≤ dropFloor p q drop k) := by
  obtain ⟨-, b0, b1, -⟩ := keep_bounds (by omega) hq h0 h1
  have hpp : (0 : ℚ) < 2 ^ p := by positivity
  have hk' : (k : ℚ) + 1 ≤ 2 ^ p := by exact_mod_cast hk
  have hk0 : (0 : ℚ) ≤ (k : ℚ) / 2 ^ p := by positivity
  have hk1 : (k : ℚ) / 2 ^ p ≤ 1 := by rw [div_le_one hpp]; linarith
  constructor
  · intro h
    have h2 : (k : ℚ) / 2 ^ p + keepR q drop ≤ 1 - 1 / 2 ^ p := by
      have : (k : ℚ) / 2 ^ p + 1 / 2 ^ p ≤ 1 - keepR q drop := by
        rw [← add_div, div_le_iff₀ hpp]
        linarith
      linarith
    have h3 := roundP_below hpq (by linarith) h2
    have h3' := roundP_nonneg q (show 0 ≤ (k : ℚ) / 2 ^ p + keepR q drop by linarith)
    have h4 := roundP_below (le_refl p) h3' h3
    have h4' := roundP_nonneg p h3'
    have h5 : (0 : ℚ) < 1 / 2 ^ p := by positivity
    unfold dropFloor
    have : ⌊roundP p (roundP q ((k : ℚ) / 2 ^ p + keepR q drop))⌋ = 0 := by
      rw [Int.floor_eq_iff]
      constructor <;> push_cast <;> linarith
    unfold keepR at this
    rw [this]
    rfl
  · intro h
    have h2 : 1 ≤ (k : ℚ) / 2 ^ p + keepR q drop := by
      have : 1 - keepR q drop ≤ (k : ℚ) / 2 ^ p := by
        rw [le_div_iff₀ hpp]
        linarith
      linarith
    obtain ⟨h3, h3'⟩ := roundP_unit (p := q) (by omega) h2 (by linarith)
    obtain ⟨h4, -⟩ := roundP_unit hp h3 h3'
    have : (1 : ℤ) ≤ ⌊roundP p (roundP q ((k : ℚ) / 2 ^ p + keepR q drop))⌋ := Int.le_floor.2 (by exact_mod_cast h4)
    unfold dropFloor
    unfold keepR at this
    exact_mod_cast this

theorem dropFactor_zero {p q : Nat} (hp : 1 ≤ p) (hpq : p ≤ q) (hq : q ≤ 53) {drop : ℚ} (h0 : 0 < drop) (h1 : drop < 1) (scale : Bool) (k : Nat) :
    dropFactor p q drop scale k = 0 ↔ dropFloor p q drop k = 0 := by
  obtain ⟨a0, b0, -, -⟩ := keep_bounds (q := q) (by omega) hq h0 h1
  unfold dropFactor
  split
  · constructor
    · intro h
      by_contra hc
      exact roundP_ne_zero hp (roundP_ne_zero (by omega) (div_ne_zero hc b0.ne')) h
    · intro h
      rw [h, zero_div, roundP_zero, roundP_zero]
  · rfl

namespace Spec

/-- The fraction of the random numbers for which a sample is dropped: its factor is 0. -/
def dropRate (p q : Nat) (drop : ℚ) (scale : Bool) : ℚ := (((Finset.range (2 ^ p)).filter fun k => dropFactor p q drop scale k = 0).card : ℚ) / 2 ^ p

end Spec

/-- **C181.** In floating point a sample is dropped with the requested probability, up to `2^-p + 3 * 2^-q` (`p` bits of the features, `q` bits of the arithmetic
with Python numbers). -/
theorem C181_rate_partial {p q : Nat} (hp : 1 ≤ p) (hpq : p ≤ q) (hq : q ≤ 53) {drop : ℚ} (h0 : 0 < drop) (h1 : drop < 1) (scale : Bool) :
    |dropRate p q drop scale - drop| ≤ 1 / 2 ^ p + 3 / 2 ^ q := by
  obtain ⟨-, b0, b1, b2⟩ := keep_bounds (q := q) (by omega) hq h0 h1
  have hpp : (0 : ℚ) < 2 ^ p := by positivity
  set t : ℚ := 2 ^ p * (1 - keepR q drop) with ht
  have t0 : 0 ≤ t := mul_nonneg hpp.le (by linarith)
  have t1 : t ≤ 2 ^ p := by nlinarith
  have lo : Finset.range ⌊t⌋₊ ⊆ (Finset.range (2 ^ p)).filter fun k => dropFactor p q drop scale k = 0 := by
    intro k hk
    rw [Finset.mem_range] at hk
    have e : ((k + 1 : ℕ) : ℚ) ≤ t := (Nat.cast_le.2 hk).trans (Nat.floor_le t0)
    have hk2 : k < 2 ^ p := by
      have : ((k + 1 : ℕ) : ℚ) ≤ ((2 ^ p : ℕ) : ℚ) := by push_cast at e ⊢; linarith
      exact Nat.lt_of_succ_le (by exact_mod_cast this)
    rw [Finset.mem_filter, Finset.mem_range]
    exact ⟨hk2, (dropFactor_zero hp hpq hq h0 h1 scale k).2 ((dropFloor_sides hp hpq hq h0 h1 hk2).1 (by push_cast at e; exact e))⟩
  have hi : ((Finset.range (2 ^ p)).filter fun k => dropFactor p q drop scale k = 0) ⊆ Finset.range ⌈t⌉₊ := by
    intro k hk
    rw [Finset.mem_filter, Finset.mem_range] at hk
    rw [Finset.mem_range]
    by_contra hc
    have e : t ≤ k := (Nat.le_ceil t).trans (Nat.cast_le.2 (by omega))
    have := (dropFloor_sides hp hpq hq h0 h1 hk.1).2 e
    rw [(dropFactor_zero hp hpq hq h0 h1 scale k).1 hk.2] at this
    norm_num at this
  have c1 := Finset.card_le_card lo
  have c2 := Finset.card_le_card hi
  rw [Finset.card_range] at c1 c2
  unfold dropRate
  generalize ((Finset.range (2 ^ p)).filter fun k => dropFactor p q drop scale k = 0).card = D at c1 c2
  have d1 : t - 1 ≤ D := by
    have := Nat.lt_floor_add_one t
    have : ((⌊t⌋₊ : ℕ) : ℚ) ≤ D := Nat.cast_le.2 c1
    linarith
  have d2 : (D : ℚ) ≤ t + 1 := by
    have := Nat.ceil_lt_add_one t0
    have : (D : ℚ) ≤ ((⌈t⌉₊ : ℕ) : ℚ) := Nat.cast_le.2 c2
    linarith
  have e1 : |(D : ℚ) / 2 ^ p - (1 - keepR q drop)| ≤ 1 / 2 ^ p := by
    have : (D : ℚ) / 2 ^ p - (1 - keepR q drop) = (D - t) / 2 ^ p := by rw [ht]; field_simp
    rw [this, abs_div, abs_of_pos hpp]
    exact div_le_div_of_nonneg_right (abs_le.2 ⟨by linarith, by linarith⟩) hpp.le
  have e2 := abs_sub_le ((D : ℚ) / 2 ^ p) (1 - keepR q drop) drop
  have e3 : |1 - keepR q drop - drop| = |keepR q drop - (1 - drop)| := by rw [← abs_neg]; congr 1; ring
  rw [e3] at e2
  linarith

/-- **C181**, the factors: for a drop probability of at least `2^(1-q)` every factor is 0 or the common factor of the kept samples. -/
theorem C181_values_partial {p q : Nat} (hp : 1 ≤ p) (hpq : p ≤ q) (hq2 : 2 ≤ q) (hq : q ≤ 53) {drop : ℚ} (h0 : 2 / 2 ^ q ≤ drop) (h1 : drop < 1) (scale : Bool) {k : Nat}
    (hk : k < 2 ^ p) :
    dropFactor p q drop scale k = 0 ∨
      dropFactor p q drop scale k = if scale then roundP p (roundP q (1 / roundP q (roundP 53 (1 - drop)))) else 1 := by
  have hqq : (0 : ℚ) < 2 / 2 ^ q := by positivity
  obtain ⟨a0, b0, b1, -⟩ := keep_bounds (q := q) (by omega) hq (lt_of_lt_of_le hqq h0) h1
  have hpp : (0 : ℚ) < 2 ^ p := by positivity
  have hk' : (k : ℚ) + 1 ≤ 2 ^ p := by exact_mod_cast hk
  have eq : (2 : ℚ) / 2 ^ q = 1 / 2 ^ (q - 1) := by
    obtain ⟨r, rfl⟩ : ∃ r, q = r + 1 := ⟨q - 1, by omega⟩
    rw [Nat.add_sub_cancel, pow_succ]
    have : (2 : ℚ) ^ r ≠ 0 := by positivity
    field_simp
  have kle : keepR q drop ≤ 1 - 2 / 2 ^ q := by
    rw [eq] at h0 ⊢
    unfold keepR keepProb64
    exact roundP_below (by omega) (roundP_nonneg _ (by linarith)) (roundP_below (by omega) (by linarith) (by linarith))
  have hx : (k : ℚ) / 2 ^ p ≤ 1 - 1 / 2 ^ p := by
    rw [div_le_iff₀ hpp, sub_mul, one_mul, div_mul_cancel₀ _ hpp.ne']
    linarith
  have hk0 : (0 : ℚ) ≤ (k : ℚ) / 2 ^ p := by positivity
  have hfl : dropFloor p q drop k = 0 ∨ dropFloor p q drop k = 1 := by
    have hS : (k : ℚ) / 2 ^ p + keepR q drop ≤ 2 - 1 / 2 ^ p - 2 / 2 ^ q := by linarith
    have hS0 : 0 ≤ (k : ℚ) / 2 ^ p + keepR q drop := by linarith
    unfold dropFloor
    change ((⌊roundP p (roundP q ((k : ℚ) / 2 ^ p + keepR q drop))⌋ : ℤ) : ℚ) = 0 ∨ ((⌊roundP p (roundP q ((k : ℚ) / 2 ^ p + keepR q drop))⌋ : ℤ) : ℚ) = 1
    generalize (k : ℚ) / 2 ^ p + keepR q drop = S at *
    have hT0 := roundP_nonneg q hS0
    have hR0 := roundP_nonneg p hT0
    have hR2 : roundP p (roundP q S) < 2 := by
      by_cases hS1 : S ≤ 1
      · have := roundP_le_one hp hT0 (roundP_le_one (by omega) hS0 hS1)
        linarith
      · rw [not_le] at hS1
        have hp' : (0 : ℚ) < 1 / 2 ^ p := by positivity
        have hu := ulpP_unit q hS1.le (by linarith)
        have hu' : ulpP q S = 2 / 2 ^ q := by rw [hu, zpow_sub₀ (by norm_num), zpow_one, zpow_natCast]
        have hT1 := (roundP_unit (p := q) (by omega) hS1.le (by linarith)).1
        have hT : roundP q S < 2 - 1 / 2 ^ p := by
          rcases Nat.lt_or_ge p q with hlt | hge
          · have key : (2 : ℚ) - 1 / 2 ^ p - 2 / 2 ^ q = ((2 ^ q - 2 ^ (q - 1 - p) - 1 : ℤ) : ℚ) * ulpP q S := by
              rw [hu']
              obtain ⟨r, rfl⟩ : ∃ r, q = p + 1 + r := ⟨q - 1 - p, by omega⟩
              rw [show p + 1 + r - 1 - p = r by omega]
              push_cast
              have e1 : (2 : ℚ) ^ r ≠ 0 := by positivity
              have e2 : (2 : ℚ) ^ p ≠ 0 := by positivity
              rw [pow_add, pow_add]
              field_simp
            have := roundP_le_mul (key ▸ hS)
            rw [← key] at this
            linarith
          · obtain rfl : p = q := by omega
            have := roundP_not_two (p := p) hS1.le (by linarith)
            have e : (2 : ℚ) / 2 ^ p = 2 * (1 / 2 ^ p) := by ring
            linarith
        have := roundP_not_two hT1 hT
        have e : (0 : ℚ) < 2 / 2 ^ p := by positivity
        linarith
    have f0 : 0 ≤ ⌊roundP p (roundP q S)⌋ := Int.floor_nonneg.2 hR0
    have f2 : ⌊roundP p (roundP q S)⌋ < 2 := Int.floor_lt.2 (by exact_mod_cast hR2)
    have : ⌊roundP p (roundP q S)⌋ = 0 ∨ ⌊roundP p (roundP q S)⌋ = 1 := by omega
    rcases this with e | e
    · left; rw [e]; rfl
    · right; rw [e]; rfl
  rcases hfl with e | e
  · exact .inl ((dropFactor_zero hp hpq hq (lt_of_lt_of_le hqq h0) h1 scale k).2 e)
  · right
    unfold dropFactor
    rw [e]
    cases scale
    · simp
    · simp only [and_true, if_true]
      rw [if_pos a0]
      rfl

/-- **C181**, the layer: every row of a sample is multiplied by the factor of the sample, and rounded. -/
theorem C181_layer {C : Nat} (p q : Nat) {drop : ℚ} (h0 : 0 < drop) (scale nempty : Bool) (o : Octree F) (h : Nat) (w : o.Valid h) (d : Nat)
    (hd : d ≤ h) (cells : List Cell) (ch : List Int) (hc : CellsOf o.batchSize d o.keys cells) (hch : o.children d = some ch)
    (ks : List Nat) (hks : ks.length = o.batchSize) (x : List (Fin C → ℚ)) (hx : x.length = (queried nempty cells ch).length) :
    ∃ y, dropPathP p q drop true scale nempty ks x o d none = .ok y ∧ y.length = x.length ∧
      ∀ (i : Nat) (c : Cell) (k : Nat) (v u : Fin C → ℚ), (queried nempty cells ch)[i]? = some c → ks[c.b]? = some k → x[i]? = some v →
        y[i]? = some u → ∀ j, u j = roundP p (v j * dropFactor p q drop scale k) := by
  obtain ⟨hr', -, -, hid, -⟩ := C27_xyzb o h w d hd cells hc ch hch nempty
  revert hr' hid hx
  generalize queried nempty cells ch = Q
  intro hx hQ hid
  set t : Nat → ℚ := dropFactor p q drop scale with ht
  have hg : gatherIdx (ks.map t) ((Q.map Cell.b).map Int.ofNat) = .ok (Q.map fun c => ((ks.map t)[c.b]?).getD 0) := by
    unfold gatherIdx
    rw [List.map_map, List.mapM_map]
    apply mapM_ok
    intro c hcQ
    have := (hQ c hcQ).1
    simp only [Function.comp, Int.ofNat_eq_natCast]
    rw [getIdx_getD _ _ (by omega) (by simp; omega) 0]
    simp
  refine ⟨(List.zipWith (fun v m => fun c => v c * m) x (Q.map fun c => ((ks.map t)[c.b]?).getD 0)).map fun v => fun c => roundP p (v c), ?_, by simp [hx], ?_⟩
  · unfold dropPathP
    rw [if_neg (by simp [h0])]
    simp only [hid, bind, Except.bind, pure, Except.pure, ← ht, hg, mulRows, List.length_map, hx, if_true]
  · intro i c k v u hc' hr'' hv hu j
    rw [List.getElem?_map, List.getElem?_zipWith, hv, List.getElem?_map, hc'] at hu
    simp only [Option.map_some, List.getElem?_map, hr'', Option.getD_some, Option.some.injEq] at hu
    rw [← hu]

/-- Non-vacuity of the layer: a valid octree with one row per node of depth 2. -/
example : ∃ (o : Octree Unit) (cells : List Cell) (ch : List Int) (x : List (Fin 2 → ℚ)) (ks : List Nat), o.Valid 2 ∧
    CellsOf o.batchSize 2 o.keys cells ∧ o.children 2 = some ch ∧ x.length = (queried false cells ch).length ∧ ks.length = o.batchSize := by
  obtain ⟨o, h1, hb, -, -, h16, -, h2⟩ := example_valid'
  have W := h1.wf'
  exact ⟨o, _, _, List.replicate (queried false (layerCells o.batchSize o.masks 2) (number 0 (o.masks 2))).length (fun _ => 3), [12345], h1,
    W.cellsOf 2 (by omega), W.children 2 (by omega), by simp, by rw [hb]; rfl⟩

/-- Non-vacuity: a drop probability of 1/10 in the four precisions. -/
example : (1 ≤ 24 ∧ 24 ≤ 53) ∧ (2 : ℚ) / 2 ^ 24 ≤ 1 / 10 ∧ (1 : ℚ) / 10 < 1 ∧ dropFactor 24 24 (1 / 10) true 0 = 0 ∧
    dropFactor 24 24 (1 / 10) true (2 ^ 23) = 9320676 / 2 ^ 23 ∧ dropFactor 11 24 (1 / 10) false 205 = 1 ∧ dropFactor 11 24 (1 / 10) false 203 = 0 := by decide +kernel

/-- **C181, violated** for tiny drop probabilities: with a drop probability of `2^-26` in float32 the sum rounds to 2 for the largest random number, and the features of
the sample are doubled instead of kept. -/
theorem C181_violated : dropFloor 24 24 (1 / 2 ^ 26) (2 ^ 24 - 1) = 2 ∧ dropFactor 24 24 (1 / 2 ^ 26) true (2 ^ 24 - 1) = 2 ∧
    dropFactor 24 24 (1 / 2 ^ 26) true 0 = 1 ∧ ∀ scale, dropFactor 11 24 (1 / 2 ^ 24) scale (2 ^ 11 - 1) = 2 := by decide +kernel

end Ocnn
