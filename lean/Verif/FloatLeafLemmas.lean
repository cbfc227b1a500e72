import Verif.FloatLeaves
import Verif.PropsFloat
import Verif.PropsFloatConv

/-! Sums and averages in single precision. -/

set_option linter.unusedSimpArgs false

namespace Ocnn
open Spec

theorem isF32_nat {n : Nat} (h : n ≤ 2 ^ 24) : IsF32 (n : ℚ) := by
  rcases Nat.lt_or_ge n (2 ^ 24) with h1 | h1
  · exact ⟨n, 0, by rw [abs_of_nonneg (by positivity)]; exact_mod_cast h1, by simp⟩
  · have : n = 2 ^ 24 := by omega
    subst this
    exact ⟨1, 24, by norm_num, by norm_num⟩

theorem f32_le {x y : ℚ} (hy : IsF32 y) (h : x ≤ y) : f32 x ≤ y := by
  by_contra hc
  rw [not_le] at hc
  have := f32_nearest x y hy
  rw [abs_of_nonneg (by linarith), abs_of_nonneg (by linarith)] at this
  linarith

theorem le_f32 {x y : ℚ} (hy : IsF32 y) (h : y ≤ x) : y ≤ f32 x := by
  by_contra hc
  rw [not_le] at hc
  have := f32_nearest x y hy
  rw [abs_of_nonpos (by linarith), abs_of_nonpos (by linarith)] at this
  linarith

/-- the distance from the natural number `N` to the next smaller single precision number -/
def gap (N : Nat) : ℚ := 2 ^ ((Nat.clog 2 N : ℤ) - 24)

theorem gap_pos (N : Nat) : 0 < gap N := zpow_pos (by norm_num) _

theorem clog_le_24 {N : Nat} (h : N ≤ 2 ^ 24) : Nat.clog 2 N ≤ 24 := Nat.clog_le_of_le_pow h

/-- `2^c` as a multiple of the gap -/
theorem pow_clog_gap (N : Nat) : (2 : ℚ) ^ Nat.clog 2 N = 2 ^ 24 * gap N := by
  unfold gap
  rw [← zpow_natCast, ← zpow_natCast, ← zpow_add₀ (by norm_num)]
  congr 1
  push_cast
  ring

theorem gap_ge (N : Nat) : (N : ℚ) ≤ 2 ^ 24 * gap N := by
  rw [← pow_clog_gap]
  exact_mod_cast Nat.le_pow_clog (by norm_num) N

theorem gap_lt {N : Nat} (h : 1 ≤ N) : 2 ^ 23 * gap N < N := by
  rcases Nat.lt_or_ge 1 N with h1 | h1
  · have h2 := Nat.pow_pred_clog_lt_self (b := 2) (by norm_num) h1
    have h3 : 1 ≤ Nat.clog 2 N := Nat.clog_pos (by norm_num) h1
    have e : (2 : ℚ) ^ 23 * gap N = ((2 ^ (Nat.clog 2 N - 1) : Nat) : ℚ) := by
      have := pow_clog_gap N
      obtain ⟨c, hc⟩ : ∃ c, Nat.clog 2 N = c + 1 := ⟨Nat.clog 2 N - 1, by omega⟩
      rw [hc, pow_succ] at this
      rw [hc]
      rw [Nat.add_sub_cancel]
      push_cast
      linarith
    rw [e]
    exact_mod_cast h2
  · have : N = 1 := by omega
    subst this
    norm_num [gap]

/-- `N` is a multiple of its gap -/
theorem nat_gap {N : Nat} (h : N ≤ 2 ^ 24) : (N : ℚ) = ((N * 2 ^ (24 - Nat.clog 2 N) : ℕ) : ℚ) * gap N := by
  have h1 := clog_le_24 h
  unfold gap
  push_cast
  have : (2 : ℚ) ^ (24 - Nat.clog 2 N) = 2 ^ (24 - (Nat.clog 2 N : ℤ)) := by
    rw [← zpow_natCast]
    congr 1
    omega
  rw [this, mul_assoc, ← zpow_add₀ (by norm_num)]
  have e : 24 - (Nat.clog 2 N : ℤ) + ((Nat.clog 2 N : ℤ) - 24) = 0 := by ring
  rw [e, zpow_zero, mul_one]

theorem isF32_pred {N : Nat} (h1 : 1 ≤ N) (h : N ≤ 2 ^ 24) : IsF32 (N - gap N) := by
  have e := nat_gap h
  have hle := gap_ge N
  have hg := gap_pos N
  refine ⟨(N * 2 ^ (24 - Nat.clog 2 N) : ℕ) - 1, (Nat.clog 2 N : ℤ) - 24, ?_, ?_⟩
  · have hn : 1 ≤ N * 2 ^ (24 - Nat.clog 2 N) := Nat.mul_pos h1 (by positivity)
    rw [abs_of_nonneg (by omega)]
    have : ((N * 2 ^ (24 - Nat.clog 2 N) : ℕ) : ℚ) ≤ 2 ^ 24 := by
      rw [e] at hle
      exact le_of_mul_le_mul_right hle hg
    have : N * 2 ^ (24 - Nat.clog 2 N) ≤ 2 ^ 24 := by exact_mod_cast this
    omega
  · rw [Int.cast_sub, Int.cast_natCast, sub_mul, Int.cast_one, one_mul]
    show _ = _ * gap N - gap N
    rw [← e]

theorem le_pred {N : Nat} (h1 : 1 ≤ N) (h : N ≤ 2 ^ 24) {y : ℚ} (hy : IsF32 y) (hlt : y < N) : y ≤ N - gap N := by
  have hg := gap_pos N
  by_cases hb : y ≤ 2 ^ 23 * gap N
  · -- a number of a smaller binade
    have e := nat_gap h
    have hl := gap_lt h1
    rw [e] at hl
    have h2 : (2 : ℚ) ^ 23 < ((N * 2 ^ (24 - Nat.clog 2 N) : ℕ) : ℚ) := lt_of_mul_lt_mul_right hl hg.le
    have h3 : 2 ^ 23 + 1 ≤ N * 2 ^ (24 - Nat.clog 2 N) := by
      have : 2 ^ 23 < N * 2 ^ (24 - Nat.clog 2 N) := by exact_mod_cast h2
      omega
    have h4 : (2 : ℚ) ^ 23 + 1 ≤ ((N * 2 ^ (24 - Nat.clog 2 N) : ℕ) : ℚ) := by exact_mod_cast h3
    have h5 := mul_le_mul_of_nonneg_right h4 hg.le
    rw [← e] at h5
    linarith
  · rw [not_le] at hb
    have hy0 : 0 < y := lt_trans (by positivity) hb
    have hlog : Int.log 2 |y| = (Nat.clog 2 N : ℤ) - 1 := by
      rw [abs_of_pos hy0]
      apply log_unique
      · refine le_trans (le_of_eq ?_) hb.le
        unfold gap
        rw [← zpow_natCast, ← zpow_add₀ (by norm_num)]
        congr 1
        push_cast
        ring
      · rw [sub_add_cancel, zpow_natCast, pow_clog_gap]
        exact lt_of_lt_of_le hlt (gap_ge N)
    have hu : ulp y = gap N := by
      unfold ulp gap
      rw [hlog]
      congr 1
      ring
    obtain ⟨n, hn⟩ := hy.multiple
    rw [hu] at hn
    have e := nat_gap h
    rw [e, hn] at hlt
    have h2 : (n : ℚ) < ((N * 2 ^ (24 - Nat.clog 2 N) : ℕ) : ℚ) := lt_of_mul_lt_mul_right hlt hg.le
    have h3 : n + 1 ≤ ((N * 2 ^ (24 - Nat.clog 2 N) : ℕ) : ℤ) := by
      have : n < ((N * 2 ^ (24 - Nat.clog 2 N) : ℕ) : ℤ) := by exact_mod_cast h2
      omega
    have h4 : (n : ℚ) + 1 ≤ ((N * 2 ^ (24 - Nat.clog 2 N) : ℕ) : ℚ) := by exact_mod_cast h3
    have h5 := mul_le_mul_of_nonneg_right h4 hg.le
    rw [← e] at h5
    rw [hn]
    linarith

/-- a number closer to the predecessor of `N` than to `N` is rounded to a number below `N` -/
theorem f32_lt {N : Nat} (h1 : 1 ≤ N) (h : N ≤ 2 ^ 24) {x : ℚ} (hx : x < N - gap N / 2) : f32 x ≤ N - gap N := by
  apply le_pred h1 h (f32_isF32 x)
  have hp := isF32_pred h1 h
  have hg := gap_pos N
  rcases le_total x (N - gap N) with hle | hge
  · have := f32_le hp hle
    linarith
  · by_contra hc
    rw [not_lt] at hc
    have := f32_nearest x _ hp
    rw [abs_of_nonneg (by linarith), abs_of_nonpos (by linarith)] at this
    linarith

theorem gap_add {a b : Nat} (hb : b ≤ a) (ha : 1 ≤ a) : gap (a + b) ≤ 2 * gap a := by
  have h : Nat.clog 2 (a + b) ≤ Nat.clog 2 a + 1 := by
    apply Nat.clog_le_of_le_pow
    have := Nat.le_pow_clog (b := 2) (by norm_num) a
    rw [pow_succ]
    omega
  unfold gap
  have e : (2 : ℚ) * 2 ^ ((Nat.clog 2 a : ℤ) - 24) = 2 ^ ((Nat.clog 2 a : ℤ) + 1 - 24) := by
    rw [show (Nat.clog 2 a : ℤ) + 1 - 24 = 1 + ((Nat.clog 2 a : ℤ) - 24) by ring, zpow_add₀ (by norm_num), zpow_one]
  rw [e]
  apply zpow_le_zpow_right₀ (by norm_num)
  omega

/-- adding numbers below `a` and below `b` in single precision gives a number below `a + b` -/
theorem add_lt_gap {a b : Nat} (ha : 1 ≤ a) (hb : 1 ≤ b) (h : a + b ≤ 2 ^ 24) {x y : ℚ} (hx : x ≤ a - gap a) (hy : y ≤ b - gap b) :
    f32 (x + y) ≤ (a + b : ℕ) - gap (a + b) := by
  apply f32_lt (by omega) h
  push_cast
  rcases le_total b a with hl | hl
  · have := gap_add hl ha
    have := gap_pos b
    linarith
  · have h1 := gap_add hl hb
    have h2 := gap_pos a
    rw [Nat.add_comm b a] at h1
    linarith

/-- dividing a number below `k M` by `k` in single precision gives a number below `M` -/
theorem div_lt_gap {k M : Nat} (hk : 1 ≤ k) (hM : 1 ≤ M) (h : k * M ≤ 2 ^ 24) {x : ℚ} (hx : x ≤ (k * M : ℕ) - gap (k * M)) :
    f32 (x / k) ≤ M - gap M := by
  have hM' : M ≤ 2 ^ 24 := le_trans (Nat.le_mul_of_pos_left M hk) h
  apply f32_lt hM hM'
  have hk0 : (0 : ℚ) < k := by exact_mod_cast hk
  rw [div_lt_iff₀ hk0]
  have h1 := gap_ge (k * M)
  have h2 := gap_lt hM
  have h3 : (k : ℚ) * (2 ^ 23 * gap M) < k * M := mul_lt_mul_of_pos_left h2 hk0
  push_cast at h1 hx
  nlinarith

/-- sums of numbers in `[m, m + 1)` -/
theorem sumF32_inside {m : Nat} {s : Multiset ℚ} {v : ℚ} (h : SumF32 s v) (hs : ∀ a ∈ s, IsF32 a ∧ (m : ℚ) ≤ a ∧ a < m + 1)
    (hc : s.card * (m + 1) ≤ 2 ^ 24) :
    1 ≤ s.card ∧ ((s.card * m : ℕ) : ℚ) ≤ v ∧ v ≤ (s.card * (m + 1) : ℕ) - gap (s.card * (m + 1)) := by
  induction h with
  | single a =>
    obtain ⟨h1, h2, h3⟩ := hs a (by simp)
    simp only [Multiset.card_singleton, one_mul, le_refl, true_and] at hc ⊢
    refine ⟨h2, ?_⟩
    apply le_pred (by omega) hc h1
    push_cast
    exact h3
  | add s t a b h1 h2 ih1 ih2 =>
    rw [Multiset.card_add] at hc ⊢
    rw [Nat.add_mul] at hc
    obtain ⟨i1, i2, i3⟩ := ih1 (fun x hx => hs x (Multiset.mem_add.mpr (.inl hx))) (by omega)
    obtain ⟨j1, j2, j3⟩ := ih2 (fun x hx => hs x (Multiset.mem_add.mpr (.inr hx))) (by omega)
    refine ⟨by omega, ?_, ?_⟩
    · apply le_f32 (isF32_nat ?_)
      · rw [Nat.add_mul]
        push_cast at i2 j2 ⊢
        linarith
      · have : (s.card + t.card) * m ≤ (s.card + t.card) * (m + 1) := Nat.mul_le_mul_left _ (by omega)
        rw [Nat.add_mul _ _ (m + 1)] at this
        omega
    · rw [Nat.add_mul]
      have p1 : 1 ≤ s.card * (m + 1) := Nat.mul_pos i1 (by omega)
      have p2 : 1 ≤ t.card * (m + 1) := Nat.mul_pos j1 (by omega)
      exact add_lt_gap p1 p2 hc i3 j3

/-- averages of numbers in `[m, m + 1)` -/
theorem averageF32_inside {m : Nat} {s : Multiset ℚ} {v : ℚ} (h : AverageF32 s s.card v) (hs : ∀ a ∈ s, IsF32 a ∧ (m : ℚ) ≤ a ∧ a < m + 1)
    (hc : s.card * (m + 1) ≤ 2 ^ 24) : (m : ℚ) ≤ v ∧ v < m + 1 := by
  obtain ⟨t, ht, rfl⟩ := h
  obtain ⟨h1, h2, h3⟩ := sumF32_inside ht hs hc
  have hcard : s.card ≤ 2 ^ 24 := le_trans (Nat.le_mul_of_pos_right _ (by omega)) hc
  have hm : m + 1 ≤ 2 ^ 24 := le_trans (Nat.le_mul_of_pos_left _ h1) hc
  rw [f32_exact (isF32_nat hcard)]
  have hk0 : (0 : ℚ) < s.card := by exact_mod_cast h1
  constructor
  · apply le_f32 (isF32_nat (by omega))
    rw [le_div_iff₀ hk0]
    push_cast at h2
    linarith
  · have := div_lt_gap h1 (by omega) hc h3
    push_cast at this
    have := gap_pos (m + 1)
    linarith

/-! ### errors -/

theorem f32_rel (x : ℚ) : |f32 x - x| ≤ 1 / 2 ^ 24 * |x| := by
  by_cases hx : x = 0
  · subst hx; rw [f32_zero]; simp
  have h1 := f32_err x
  have h2 := (ulp_bounds hx).1
  have : ulp x / 2 ≤ 1 / 2 ^ 24 * |x| := by
    rw [div_mul_eq_mul_div, one_mul, le_div_iff₀ (by positivity)]
    linarith
  linarith

theorem sumF32_ne {s : Multiset ℚ} {v : ℚ} (h : SumF32 s v) : s ≠ 0 := by
  induction h with
  | single a => simp
  | add s t a b _ _ ih1 _ => intro e; exact ih1 (Multiset.le_zero.mp (e ▸ Multiset.le_add_right s t))

theorem sumF32_rounded {s : Multiset ℚ} {v : ℚ} (h : SumF32 s v) : Rounded (1 / 2 ^ 24) 0 (s.map Term.const) v := by
  induction h with
  | single a => exact .const a
  | add s t a b h1 h2 ih1 ih2 =>
    rw [Multiset.map_add]
    refine .add _ _ _ _ _ ?_ ?_ ih1 ih2 ?_
    · simpa using sumF32_ne h1
    · simpa using sumF32_ne h2
    · simpa using f32_rel (a + b)

theorem averageF32_error {s : Multiset ℚ} {v : ℚ} (h : AverageF32 s s.card v) (hc : s.card ≤ 2 ^ 24) :
    |v - s.sum / s.card| ≤ ((1 + 1 / 2 ^ 24) ^ (s.card + 1) - 1) * ((s.map fun a => |a|).sum / s.card) := by
  obtain ⟨t, ht, rfl⟩ := h
  have hne : 0 < s.card := Multiset.card_pos.mpr (sumF32_ne ht)
  have hk0 : (0 : ℚ) < s.card := by exact_mod_cast hne
  rw [f32_exact (isF32_nat hc)]
  have h1 := rounded_error (by norm_num) (le_refl 0) (sumF32_rounded ht)
  have e1 : termSum (s.map Term.const) = s.sum := by
    show ((s.map Term.const).map Term.val).sum = _
    rw [Multiset.map_map]
    exact congrArg Multiset.sum (Multiset.map_id s)
  have e2 : termAbs (s.map Term.const) = (s.map fun a => |a|).sum := by
    show ((s.map Term.const).map fun t => |t.val|).sum = _
    rw [Multiset.map_map]
    rfl
  have hle := termSum_le (s.map Term.const)
  rw [e1, e2] at h1 hle
  unfold errBound at h1
  rw [Multiset.card_map] at h1
  simp only [mul_zero, zero_mul, add_zero] at h1
  generalize (s.map fun a => |a|).sum = A at *
  generalize s.sum = S at *
  generalize hn : s.card = n at *
  have h2 := f32_rel (t / n)
  have h3 : |t| ≤ A + ((1 + 1 / 2 ^ 24) ^ n - 1) * A := by
    have : t = S + (t - S) := by ring
    rw [this]
    exact (abs_add_le _ _).trans (add_le_add hle h1)
  have h4 : |f32 (t / n) - S / n| ≤ |f32 (t / n) - t / n| + |t / n - S / n| := by
    have : f32 (t / n) - S / n = (f32 (t / n) - t / n) + (t / n - S / n) := by ring
    rw [this]; exact abs_add_le _ _
  have h5 : |t / n - S / n| = |t - S| / n := by rw [← sub_div, abs_div, abs_of_pos hk0]
  have h6 : |t / n| = |t| / n := by rw [abs_div, abs_of_pos hk0]
  rw [h5] at h4
  rw [h6] at h2
  refine h4.trans ((add_le_add h2 (div_le_div_of_nonneg_right h1 hk0.le)).trans ?_)
  have h7 : |t| / n ≤ (A + ((1 + 1 / 2 ^ 24) ^ n - 1) * A) / n := div_le_div_of_nonneg_right h3 hk0.le
  have h8 : 1 / 2 ^ 24 * (|t| / (n : ℚ)) ≤ 1 / 2 ^ 24 * ((A + ((1 + 1 / 2 ^ 24) ^ n - 1) * A) / n) := mul_le_mul_of_nonneg_left h7 (by positivity)
  refine (add_le_add h8 le_rfl).trans (le_of_eq ?_)
  rw [pow_succ]
  field_simp
  ring

end Ocnn
