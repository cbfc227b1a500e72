import Verif.FloatLinear
import Verif.FloatLeafLemmas
import Verif.PropsLinear
import Verif.PropsFloatConv

/-! C174: linear interpolation in single precision. -/

set_option linter.unusedSimpArgs false
set_option linter.unusedVariables false

namespace Ocnn
open Spec
variable {F : Type}

namespace Spec

/-- Points with single precision coordinates in a cube of the finest possible octree. -/
def SingleCoords (pts : List Pt4) : Prop := ∀ p ∈ pts, ∀ a : Points.Axis, IsF32 (p.1.along a) ∧ 0 ≤ p.1.along a ∧ p.1.along a ≤ 2 ^ 16

end Spec

/-! ### one coordinate -/

/-- Multiples of `2^-k` that are small enough are representable. -/
theorem isF32_dyadic {m : ℤ} {k : Nat} (h : |m| < 2 ^ 24) : IsF32 ((m : ℚ) / 2 ^ k) :=
  ⟨m, -(k : ℤ), h, by rw [zpow_neg, zpow_natCast]; rfl⟩

theorem isF32_neg {x : ℚ} (h : IsF32 x) : IsF32 (-x) := by
  obtain ⟨m, e, h1, h2⟩ := h
  exact ⟨-m, e, by rwa [abs_neg], by rw [h2]; push_cast; ring⟩

/-- A float32 number between 1/2 and `2^16` is a multiple of a power of two between `2^-24` and `1/2`. -/
theorem isF32_steps {v : ℚ} (h : IsF32 v) (h1 : 1 / 2 ≤ v) (h2 : v ≤ 2 ^ 16) : ∃ (m : ℤ) (k : Nat), 0 ≤ m ∧ m < 2 ^ 24 ∧ v = m / 2 ^ (k + 1) := by
  obtain ⟨n, hn⟩ := h.multiple
  have hv : v ≠ 0 := by linarith
  obtain ⟨b1, b2⟩ := ulp_bounds hv
  rw [abs_of_nonneg (by linarith)] at b1 b2
  have hp := ulp_pos v
  have e1 : (2 : ℚ) ^ (-25 : ℤ) < ulp v := by
    have : (2 : ℚ) ^ (-25 : ℤ) * 2 ^ 24 < ulp v * 2 ^ 24 := by
      rw [mul_comm (ulp v)]
      refine lt_of_le_of_lt ?_ b2
      norm_num
      linarith
    exact lt_of_mul_lt_mul_right this (by positivity)
  have e2 : ulp v < (2 : ℚ) ^ (0 : ℤ) := by
    have : ulp v * 2 ^ 23 < 1 * 2 ^ 23 := by
      rw [mul_comm (ulp v)]
      refine lt_of_le_of_lt (b1.trans h2) ?_
      norm_num
    norm_num
    linarith
  unfold ulp at e1 e2
  rw [zpow_lt_zpow_iff_right₀ (by norm_num)] at e1 e2
  obtain ⟨k, hk⟩ : ∃ k : Nat, Int.log 2 |v| - 23 = -((k + 1 : ℕ) : ℤ) := ⟨(-(Int.log 2 |v| - 23) - 1).toNat, by omega⟩
  have hu : ulp v = 1 / 2 ^ (k + 1) := by
    unfold ulp
    rw [hk, zpow_neg, zpow_natCast, one_div]
  refine ⟨n, k, ?_, ?_, ?_⟩
  · have : (0 : ℚ) ≤ n := by
      by_contra hc
      have : (n : ℚ) * ulp v < 0 := mul_neg_of_neg_of_pos (by linarith) hp
      linarith
    exact_mod_cast this
  · have : (n : ℚ) < 2 ^ 24 := by
      rw [hn] at b2
      have hu' : ulp ((n : ℚ) * ulp v) = ulp v := by rw [← hn]
      rw [hu'] at b2
      exact lt_of_mul_lt_mul_right b2 hp.le
    exact_mod_cast this
  · rw [hn, hu]
    have : ulp ((n : ℚ) * (1 / 2 ^ (k + 1))) = ulp v := by rw [← hu, ← hn]
    ring

/-- One coordinate: the corner is exact, and the factor of a corner inside has a small relative error. -/
theorem axis {v : ℚ} (hf : IsF32 v) (h0 : 0 ≤ v) (h1 : v ≤ 2 ^ 16) :
    ⌊linSub32 v⌋ = ⌊v - 1 / 2⌋ ∧ ∀ g : ℚ, g = 0 ∨ g = 1 →
      f32 (((⌊v - 1 / 2⌋ : ℤ) : ℚ) + g) = ((⌊v - 1 / 2⌋ : ℤ) : ℚ) + g ∧
      (0 ≤ ((⌊v - 1 / 2⌋ : ℤ) : ℚ) + g → |f32 ((1 - g) - f32 (linSub32 v - ((⌊linSub32 v⌋ : ℤ) : ℚ))) - ((1 - g) - (v - 1 / 2 - ((⌊v - 1 / 2⌋ : ℤ) : ℚ)))|
        ≤ 1 / 2 ^ 22 * |(1 - g) - (v - 1 / 2 - ((⌊v - 1 / 2⌋ : ℤ) : ℚ))|) := by
  rcases le_or_gt (1 / 2) v with hv | hv
  · obtain ⟨m, k, m0, m1, hm⟩ := isF32_steps hf hv h1
    set n := ⌊v - 1 / 2⌋ with hn
    have n1 := Int.floor_le (v - 1 / 2)
    have n2 := Int.lt_floor_add_one (v - 1 / 2)
    have n0 : 0 ≤ n := Int.floor_nonneg.2 (by linarith)
    rw [← hn] at n1 n2
    have pk : (0 : ℚ) < 2 ^ (k + 1) := by positivity
    have e1 : v - 1 / 2 = ((m - 2 ^ k : ℤ) : ℚ) / 2 ^ (k + 1) := by
      rw [hm]
      push_cast
      field_simp
      ring
    have b1 : (0 : ℤ) ≤ m - 2 ^ k := by
      have : (0 : ℚ) ≤ ((m - 2 ^ k : ℤ) : ℚ) / 2 ^ (k + 1) := by rw [← e1]; linarith
      rw [le_div_iff₀ pk, zero_mul] at this
      exact_mod_cast this
    have pk' : (0 : ℤ) < 2 ^ k := by positivity
    have hs : linSub32 v = v - 1 / 2 := by
      unfold linSub32
      rw [e1]
      refine f32_exact (isF32_dyadic ?_)
      rw [abs_of_nonneg b1]
      omega
    have e2 : v - 1 / 2 - n = ((m - 2 ^ k - n * 2 ^ (k + 1) : ℤ) : ℚ) / 2 ^ (k + 1) := by
      rw [e1]
      push_cast
      field_simp
    have hfr : IsF32 (v - 1 / 2 - n) := by
      rw [e2]
      refine isF32_dyadic ?_
      have : (0 : ℤ) ≤ m - 2 ^ k - n * 2 ^ (k + 1) := by
        have : (0 : ℚ) ≤ ((m - 2 ^ k - n * 2 ^ (k + 1) : ℤ) : ℚ) / 2 ^ (k + 1) := by rw [← e2]; linarith
        rw [le_div_iff₀ pk, zero_mul] at this
        exact_mod_cast this
      rw [abs_of_nonneg this]
      have : 0 ≤ n * 2 ^ (k + 1) := by positivity
      omega
    rw [hs, ← hn]
    refine ⟨rfl, fun g hg => ⟨?_, fun _ => ?_⟩⟩
    · have hb : n ≤ 2 ^ 16 := by
        have : (n : ℚ) ≤ 2 ^ 16 := by linarith
        exact_mod_cast this
      obtain ⟨j, hj⟩ := Int.eq_ofNat_of_zero_le n0
      rcases hg with rfl | rfl
      · have := isF32_nat (n := j) (by omega)
        rw [hj, add_zero]
        exact_mod_cast f32_exact this
      · have := f32_exact (isF32_nat (n := j + 1) (by omega))
        rw [hj]
        push_cast at this ⊢
        exact this
    · rw [f32_exact hfr]
      rcases hg with rfl | rfl
      · refine (f32_rel _).trans ?_
        gcongr <;> norm_num
      · have : (1 : ℚ) - 1 - (v - 1 / 2 - n) = -(v - 1 / 2 - n) := by ring
        rw [this, f32_exact (isF32_neg hfr), sub_self, abs_zero]
        positivity
  · have hn : ⌊v - 1 / 2⌋ = -1 := by
      rw [Int.floor_eq_iff]
      push_cast
      constructor <;> linarith
    have hr := f32_rel (v - 1 / 2)
    rw [abs_of_neg (show v - 1 / 2 < 0 by linarith)] at hr
    obtain ⟨r1, r2⟩ := abs_le.1 hr
    have hs : ⌊linSub32 v⌋ = -1 := by
      unfold linSub32
      rw [Int.floor_eq_iff]
      push_cast
      constructor <;> linarith
    rw [hs, hn]
    refine ⟨rfl, fun g hg => ⟨?_, fun h => ?_⟩⟩
    · rcases hg with rfl | rfl
      · refine f32_exact ⟨-1, 0, by norm_num, by norm_num⟩
      · refine f32_exact ⟨0, 0, by norm_num, by norm_num⟩
    · rcases hg with rfl | rfl
      · norm_num at h
      · have hz : (1 : ℚ) - 1 = 0 := by norm_num
        rw [hz, zero_sub, zero_sub, f32_exact (isF32_neg (f32_isF32 _)), abs_neg]
        push_cast
        have hr' := f32_rel (linSub32 v - -1)
        unfold linSub32 at hr' ⊢
        rw [abs_of_pos (show (0 : ℚ) < f32 (v - 1 / 2) - -1 by linarith)] at hr'
        obtain ⟨q1, q2⟩ := abs_le.1 hr'
        rw [abs_of_pos (show (0 : ℚ) < v - 1 / 2 - -1 by linarith)]
        rw [abs_le]
        constructor <;> linarith

/-! ### the weights -/

theorem rel_mul {a b A B α β : ℚ} (hα : 0 ≤ α) (ha : |a - A| ≤ α * |A|) (hb : |b - B| ≤ β * |B|) : |a * b - A * B| ≤ (α + β + α * β) * |A * B| := by
  have e : a * b - A * B = (a - A) * (b - B) + (a - A) * B + A * (b - B) := by ring
  rw [e, abs_mul A B]
  have h1 : |(a - A) * (b - B)| ≤ (α * |A|) * (β * |B|) := by
    rw [abs_mul]
    exact mul_le_mul ha hb (abs_nonneg _) (by positivity)
  have h2 : |(a - A) * B| ≤ (α * |A|) * |B| := by
    rw [abs_mul]
    exact mul_le_mul_of_nonneg_right ha (abs_nonneg _)
  have h3 : |A * (b - B)| ≤ |A| * (β * |B|) := by
    rw [abs_mul]
    exact mul_le_mul_of_nonneg_left hb (abs_nonneg _)
  have := (abs_add_le ((a - A) * (b - B) + (a - A) * B) (A * (b - B))).trans (add_le_add (abs_add_le _ _) (le_refl _))
  nlinarith

theorem rel_f32 {a A α : ℚ} (ha : |a - A| ≤ α * |A|) : |f32 a - A| ≤ (α + 1 / 2 ^ 24 * (1 + α)) * |A| := by
  have h1 := f32_rel a
  have h2 : |a| ≤ (1 + α) * |A| := by
    have := abs_add_le (a - A) A
    rw [sub_add_cancel] at this
    linarith
  have h3 : |f32 a - A| ≤ |f32 a - a| + |a - A| := abs_sub_le _ _ _
  nlinarith

/-- Two weights that are equal up to a small relative error. -/
def Near (γ w w' : ℚ) : Prop := 0 ≤ w ∧ 0 ≤ w' ∧ |w' - w| ≤ γ * w

theorem weight_near {p : V3 ℚ} (hp : ∀ a : Points.Axis, IsF32 (p.along a) ∧ 0 ≤ p.along a ∧ p.along a ≤ 2 ^ 16) :
    linCorners32 p = linCorners p ∧ ∀ (d : Nat), ∀ z ∈ (linCorners p).zip ((linWeights p).zip (linWeights32 p)), inBound d z.1 = true → Near (1 / 2 ^ 20) z.2.1 z.2.2 := by
  obtain ⟨x1, x2, x3⟩ := hp .x
  obtain ⟨y1, y2, y3⟩ := hp .y
  obtain ⟨z1, z2, z3⟩ := hp .z
  obtain ⟨ax, bx⟩ := axis x1 x2 x3
  obtain ⟨ay, by_⟩ := axis y1 y2 y3
  obtain ⟨az, bz⟩ := axis z1 z2 z3
  simp only [V3.along] at ax bx ay by_ az bz
  have hg : ∀ g ∈ grid, (g.x = 0 ∨ g.x = 1) ∧ (g.y = 0 ∨ g.y = 1) ∧ (g.z = 0 ∨ g.z = 1) := by
    intro g hg
    simp only [grid, List.mem_cons, List.not_mem_nil, or_false] at hg
    rcases hg with rfl | rfl | rfl | rfl | rfl | rfl | rfl | rfl <;> simp
  constructor
  · unfold linCorners32 linCorners
    refine List.map_congr_left fun g h => ?_
    obtain ⟨gx, gy, gz⟩ := hg g h
    simp only [linInt32, linInt, V3.map, ax, ay, az]
    rw [(bx _ gx).1, (by_ _ gy).1, (bz _ gz).1]
  · intro d z hz hin
    have : (linCorners p).zip ((linWeights p).zip (linWeights32 p)) = grid.map fun g =>
        (⟨(linInt p).x + g.x, (linInt p).y + g.y, (linInt p).z + g.z⟩,
          |((1 - g.x) - (linFrac p).x) * ((1 - g.y) - (linFrac p).y) * ((1 - g.z) - (linFrac p).z)|,
          |f32 (f32 (f32 ((1 - g.x) - (linFrac32 p).x) * f32 ((1 - g.y) - (linFrac32 p).y)) * f32 ((1 - g.z) - (linFrac32 p).z))|) := by
      unfold linCorners linWeights linWeights32
      rw [List.zip_map', List.zip_map']
    rw [this, List.mem_map] at hz
    obtain ⟨g, h, rfl⟩ := hz
    obtain ⟨gx, gy, gz⟩ := hg g h
    rw [inBound_iff] at hin
    obtain ⟨⟨i1, -⟩, ⟨i2, -⟩, i3, -⟩ := hin
    have fx := (bx _ gx).2 i1
    have fy := (by_ _ gy).2 i2
    have fz := (bz _ gz).2 i3
    refine ⟨abs_nonneg _, abs_nonneg _, (abs_abs_sub_abs_le _ _).trans ?_⟩
    simp only [linFrac, linFrac32, V3.map]
    have m1 := rel_f32 (rel_mul (by norm_num) fx fy)
    have m2 := rel_f32 (rel_mul (by norm_num) m1 fz)
    refine m2.trans ?_
    gcongr
    norm_num

/-! ### one row of the product -/

theorem errBound_small {n : Nat} (hn : n ≤ 8) {a : ℚ} (ha : 0 ≤ a) : errBound (1 / 2 ^ 24) (1 / 2 ^ 149) n a ≤ 1 / 2 ^ 20 * a + 1 / 2 ^ 140 := by
  have h1 : (1 + 1 / 2 ^ 24 : ℚ) ^ n ≤ (1 + 1 / 2 ^ 24) ^ 8 := pow_le_pow_right₀ (by norm_num) hn
  have h2 : (1 + 1 / 2 ^ 24 : ℚ) ^ 8 ≤ 1 + 1 / 2 ^ 20 := by norm_num
  have h3 : (n : ℚ) ≤ 8 := by exact_mod_cast hn
  have h4 : (0 : ℚ) ≤ n := Nat.cast_nonneg n
  unfold errBound
  have h5 : ((1 + 1 / 2 ^ 24 : ℚ) ^ n - 1) * a ≤ 1 / 2 ^ 20 * a := mul_le_mul_of_nonneg_right (by linarith) ha
  have h6 : (n : ℚ) * (1 / 2 ^ 149) * (1 + 1 / 2 ^ 24) ^ n ≤ 8 * (1 / 2 ^ 149) * 2 := by
    gcongr
    exact h1.trans (h2.trans (by norm_num))
  have h7 : (8 : ℚ) * (1 / 2 ^ 149) * 2 ≤ 1 / 2 ^ 140 := by norm_num
  linarith

theorem row_sums {γ m : ℚ} (hγ : 0 ≤ γ) (hm : 0 ≤ m) {E : List (ℚ × ℚ × ℚ)} (hE : ∀ e ∈ E, Near γ e.1 e.2.1 ∧ |e.2.2| ≤ m) :
    0 ≤ (E.map fun e => e.1).sum ∧ |(E.map fun e => e.1 * e.2.2).sum| ≤ m * (E.map fun e => e.1).sum ∧
    |(E.map fun e => e.2.1 * e.2.2).sum - (E.map fun e => e.1 * e.2.2).sum| ≤ γ * m * (E.map fun e => e.1).sum ∧
    (E.map fun e => |e.2.1 * e.2.2|).sum ≤ (1 + γ) * m * (E.map fun e => e.1).sum ∧
    0 ≤ (E.map fun e => |e.2.1 * e.2.2|).sum := by
  induction E with
  | nil => simp
  | cons e E ih =>
    obtain ⟨h1, h2, h3, h4, h5⟩ := ih fun e he => hE e (List.mem_cons_of_mem _ he)
    obtain ⟨⟨w0, w1, w2⟩, hf⟩ := hE e (by simp)
    simp only [List.map_cons, List.sum_cons]
    have f1 : |e.1 * e.2.2| ≤ e.1 * m := by
      rw [abs_mul, abs_of_nonneg w0]
      exact mul_le_mul_of_nonneg_left hf w0
    have f2 : |e.2.1 * e.2.2 - e.1 * e.2.2| ≤ γ * e.1 * m := by
      rw [← sub_mul, abs_mul]
      exact mul_le_mul w2 hf (abs_nonneg _) (by positivity)
    have f3 : |e.2.1 * e.2.2| ≤ (1 + γ) * e.1 * m := by
      have := abs_add_le (e.2.1 * e.2.2 - e.1 * e.2.2) (e.1 * e.2.2)
      rw [sub_add_cancel] at this
      linarith
    refine ⟨by linarith, ?_, ?_, ?_, by positivity⟩
    · refine (abs_add_le _ _).trans ?_
      linarith
    · have : e.2.1 * e.2.2 + (E.map fun e => e.2.1 * e.2.2).sum - (e.1 * e.2.2 + (E.map fun e => e.1 * e.2.2).sum)
          = (e.2.1 * e.2.2 - e.1 * e.2.2) + ((E.map fun e => e.2.1 * e.2.2).sum - (E.map fun e => e.1 * e.2.2).sum) := by ring
      rw [this]
      refine (abs_add_le _ _).trans ?_
      linarith
    · linarith

theorem row_rounded {m : ℚ} (hm : 0 ≤ m) {E : List (ℚ × ℚ × ℚ)} (hE : ∀ e ∈ E, Near (1 / 2 ^ 20) e.1 e.2.1 ∧ |e.2.2| ≤ m) (hl : E.length ≤ 8) {a : ℚ}
    (h : Rounded (1 / 2 ^ 24) (1 / 2 ^ 149) ((E.map fun e => Term.prod e.2.1 e.2.2 : List Term)) a) :
    |a - (E.map fun e => e.1 * e.2.2).sum| ≤ 3 / 2 ^ 20 * m * (E.map fun e => e.1).sum + 1 / 2 ^ 140 := by
  obtain ⟨h1, h2, h3, h4, h5⟩ := row_sums (by norm_num) hm hE
  have h6 := rounded_error (by norm_num) (by norm_num) h
  have t1 : termSum ((E.map fun e => Term.prod e.2.1 e.2.2 : List Term)) = (E.map fun e => e.2.1 * e.2.2).sum := by
    show (Multiset.map Term.val (Multiset.ofList _)).sum = _
    rw [Multiset.map_coe, Multiset.sum_coe, List.map_map]
    rfl
  have t2 : termAbs ((E.map fun e => Term.prod e.2.1 e.2.2 : List Term)) = (E.map fun e => |e.2.1 * e.2.2|).sum := by
    show (Multiset.map (fun t => |Term.val t|) (Multiset.ofList _)).sum = _
    rw [Multiset.map_coe, Multiset.sum_coe, List.map_map]
    rfl
  rw [t1, t2] at h6
  have h7 := h6.trans (errBound_small (by simpa using hl) h5)
  have h8 := abs_sub_le a (E.map fun e => e.2.1 * e.2.2).sum (E.map fun e => e.1 * e.2.2).sum
  have h9 : 1 / 2 ^ 20 * (E.map fun e => |e.2.1 * e.2.2|).sum ≤ 1 / 2 ^ 20 * ((1 + 1 / 2 ^ 20) * m * (E.map fun e => e.1).sum) :=
    mul_le_mul_of_nonneg_left h4 (by norm_num)
  have h10 : 0 ≤ m * (E.map fun e => e.1).sum := mul_nonneg hm h1
  linarith

theorem linear_core {m : ℚ} (hm : 0 ≤ m) {E : List (ℚ × ℚ × ℚ)} (hE : ∀ e ∈ E, Near (1 / 2 ^ 20) e.1 e.2.1 ∧ |e.2.2| ≤ m) (hl : E.length ≤ 8) {y : ℚ}
    (h : LinearF32 ((E.map fun e => Term.prod e.2.1 e.2.2 : List Term)) ((E.map fun e => Term.prod e.2.1 1 : List Term)) y) :
    |y - (E.map fun e => e.1 * e.2.2).sum / ((E.map fun e => e.1 * 1).sum + 1 / 10 ^ 12)| ≤ 1 / 2 ^ 17 * m + 1 / 2 ^ 90 ∧
    |(E.map fun e => e.1 * e.2.2).sum / ((E.map fun e => e.1 * 1).sum + 1 / 10 ^ 12)| ≤ m := by
  obtain ⟨a, b, t, ha, hb, ht, hy⟩ := h
  obtain ⟨h1, h2, -, -, -⟩ := row_sums (by norm_num) hm hE
  have ra := row_rounded hm hE hl ha
  have rb := row_rounded (m := 1) (E := E.map fun e => (e.1, e.2.1, 1)) (by norm_num) (by
    intro e he
    rw [List.mem_map] at he
    obtain ⟨e', he', rfl⟩ := he
    exact ⟨(hE e' he').1, by norm_num⟩) (by simpa using hl) (a := b) (by
      rw [List.map_map]
      exact hb)
  rw [List.map_map, List.map_map] at rb
  simp only [Function.comp_def, mul_one] at rb ⊢
  have he := f32_rel (1 / 10 ^ 12)
  rw [abs_of_pos (show (0 : ℚ) < 1 / 10 ^ 12 by norm_num)] at he
  generalize f32 (1 / 10 ^ 12) = ε' at he ht
  generalize (E.map fun e => e.1 * e.2.2).sum = S at *
  generalize (E.map fun e => e.1).sum = N at *
  have ε0 : (1 : ℚ) / 10 ^ 12 > 1 / 2 ^ 40 := by norm_num
  have ε1 : (1 : ℚ) / 10 ^ 12 > 0 := by norm_num
  generalize (1 : ℚ) / 10 ^ 12 = ε at *
  obtain ⟨b1, b2⟩ := abs_le.1 rb
  obtain ⟨e1, e2⟩ := abs_le.1 he
  have T0 : 0 < N + ε := by linarith
  have p1 : 0 ≤ b + ε' := by linarith
  rw [abs_of_nonneg p1] at ht
  obtain ⟨t1, t2⟩ := abs_le.1 ht
  have k1 : t - (N + ε) ≤ 1 / 2 ^ 18 * (N + ε) := by linarith
  have k2 : -(1 / 2 ^ 18 * (N + ε)) ≤ t - (N + ε) := by linarith
  have k3 : |t - (N + ε)| ≤ 1 / 2 ^ 18 * (N + ε) := abs_le.2 ⟨k2, k1⟩
  generalize hT : N + ε = T at *
  have t0 : 0 < t := by linarith
  have eS : |S / T| ≤ m := by
    rw [abs_div, abs_of_pos T0, div_le_iff₀ T0]
    exact h2.trans (mul_le_mul_of_nonneg_left (by linarith) hm)
  refine ⟨?_, eS⟩
  have eq : a / t - S / T = ((a - S) - S / T * (t - T)) / t := by
    field_simp
    ring
  have n1 : |(a - S) - S / T * (t - T)| ≤ (3 / 2 ^ 20 * m * T + 1 / 2 ^ 100 * T) + m * (1 / 2 ^ 18 * T) := by
    refine (abs_sub _ _).trans (add_le_add (ra.trans (add_le_add ?_ ?_)) ?_)
    · exact mul_le_mul_of_nonneg_left (by linarith) (by positivity)
    · linarith
    · rw [abs_mul]
      exact mul_le_mul eS k3 (abs_nonneg _) hm
  have n2 : |a / t - S / T| ≤ (8 / 2 ^ 20 - 1 / 2 ^ 21) * m + 1 / 2 ^ 99 := by
    rw [eq, abs_div, abs_of_pos t0, div_le_iff₀ t0]
    refine n1.trans ?_
    have q1 : (1 - 1 / 2 ^ 18) * T ≤ t := by linarith
    have q2 : ((8 / 2 ^ 20 - 1 / 2 ^ 21) * m + 1 / 2 ^ 99) * ((1 - 1 / 2 ^ 18) * T) ≤ ((8 / 2 ^ 20 - 1 / 2 ^ 21) * m + 1 / 2 ^ 99) * t :=
      mul_le_mul_of_nonneg_left q1 (by positivity)
    refine le_trans ?_ q2
    have q3 : 0 ≤ m * T := by positivity
    nlinarith
  have n3 : |a / t| ≤ 2 * m + 1 / 2 ^ 99 := by
    have := abs_add_le (a / t - S / T) (S / T)
    rw [sub_add_cancel] at this
    linarith
  have n4 := abs_sub_le y (a / t) (S / T)
  have n5 : (1 : ℚ) / 2 ^ 24 * |a / t| ≤ 1 / 2 ^ 24 * (2 * m + 1 / 2 ^ 99) := mul_le_mul_of_nonneg_left n3 (by norm_num)
  linarith

/-! ### the entries of the matrix -/

theorem sel_zip {α β : Type} (v : List Bool) (l : List α) (r : List β) : (maskSel v l).zip (maskSel v r) = maskSel v (l.zip r) ∨ l.length ≠ r.length := by
  by_cases h : l.length = r.length
  · left
    induction v generalizing l r with
    | nil => simp
    | cons b v ih =>
      cases l with
      | nil => simp
      | cons a l =>
        cases r with
        | nil => simp at h
        | cons c r => cases b <;> simp [ih l r (by simpa using h)]
  · exact .inr h

theorem sel_mem {α : Type} {v : List Bool} {l : List α} {a : α} (h : a ∈ maskSel v l) : (true, a) ∈ v.zip l := by
  induction v generalizing l with
  | nil => simp at h
  | cons b v ih =>
    cases l with
    | nil => simp at h
    | cons c l =>
      cases b
      · simp only [maskSel_false] at h
        exact List.mem_cons_of_mem _ (ih h)
      · simp only [maskSel_true, List.mem_cons] at h
        rcases h with rfl | h
        · simp
        · exact List.mem_cons_of_mem _ (ih h)

theorem count_ids (n i : Nat) : ((List.range n).flatMap fun i => List.replicate 8 i).count i ≤ 8 := by
  have : ((List.range n).flatMap fun i => List.replicate 8 i).count i = if i < n then 8 else 0 := by
    induction n with
    | zero => simp
    | succ n ih =>
      rw [List.range_succ, List.flatMap_append, List.count_append, ih]
      simp only [List.flatMap_cons, List.flatMap_nil, List.append_nil, List.count_replicate, beq_iff_eq]
      by_cases h1 : i < n
      · simp [h1, show i ≠ n by omega, show ¬ n = i by omega, show i < n + 1 by omega]
      · by_cases h2 : n = i
        · subst h2; simp
        · simp [h1, h2, show ¬ i < n + 1 by omega]
  rw [this]
  split <;> omega

/-- At most eight entries of a row. -/
theorem row_eight {β : Type} {n : Nat} {v : List Bool} {J : List (Nat × β)} (h : J.map Prod.fst = (List.range n).flatMap fun i => List.replicate 8 i) (i : Nat) :
    ((maskSel v J).filter fun e => decide (e.1 = i)).length ≤ 8 := by
  have h1 : ((maskSel v J).filter fun e => decide (e.1 = i)).length ≤ (J.filter fun e => decide (e.1 = i)).length :=
    ((maskSel_sublist v J).filter _).length_le
  have h2 : (J.filter fun e => decide (e.1 = i)).length = (J.map Prod.fst).count i := by
    rw [List.count, List.countP_map, List.countP_eq_length_filter]
    congr 2
  rw [h2, h] at h1
  exact h1.trans (count_ids n i)

theorem flat_len {α : Type} (pts : List Pt4) (f : V3 ℚ → List α) (h : ∀ p, (f p).length = 8) : (pts.flatMap fun p => f p.1).length = 8 * pts.length := by
  induction pts with
  | nil => rfl
  | cons p pts ih =>
    rw [List.flatMap_cons, List.length_append, ih, h, List.length_cons]
    ring

theorem flat_zip {α β : Type} (pts : List Pt4) (f : V3 ℚ → List α) (g : V3 ℚ → List β) (h : ∀ p, (f p).length = (g p).length) :
    (pts.flatMap fun p => f p.1).zip (pts.flatMap fun p => g p.1) = pts.flatMap fun p => (f p.1).zip (g p.1) := by
  induction pts with
  | nil => rfl
  | cons p pts ih => rw [List.flatMap_cons, List.flatMap_cons, List.flatMap_cons, List.zip_append (h p.1), ih]

theorem ids_len (n : Nat) : ((List.range n).flatMap fun i => List.replicate 8 i).length = 8 * n := by
  induction n with
  | zero => rfl
  | succ n ih =>
    rw [List.range_succ, List.flatMap_append, List.length_append, ih]
    simp
    ring

theorem boolIndex_eq {α : Type} {v : List Bool} {l r : List α} (h : boolIndex v l = .ok r) : v.length = l.length ∧ r = maskSel v l := by
  unfold boolIndex at h
  split at h
  · next e => exact ⟨e, (Except.ok.inj h).symm⟩
  · cases h

theorem pyAssert_ok {p : Prop} [Decidable p] {u : Unit} (h : pyAssert p = .ok u) : p := by
  unfold pyAssert at h
  split at h
  · assumption
  · cases h

theorem mbind {α β : Type} {x : M α} {f : α → M β} {b : β} (h : x >>= f = .ok b) : ∃ a, x = .ok a ∧ f a = .ok b := by
  cases x with
  | error e => cases h
  | ok a => exact ⟨a, rfl, h⟩

theorem zip3 {α β γ δ : Type} (a : List α) (b : List β) (c : List γ) (c' : List δ) (h : c.length = c'.length) :
    (a.zip b).zip c = (a.zip (b.zip (c.zip c'))).map (fun j => ((j.1, j.2.1), j.2.2.1)) ∧
    (a.zip b).zip c' = (a.zip (b.zip (c.zip c'))).map fun j => ((j.1, j.2.1), j.2.2.2) := by
  induction a generalizing b c c' with
  | nil => simp
  | cons x a ih =>
    cases b with
    | nil => simp
    | cons y b =>
      cases c with
      | nil => cases c' with
        | nil => simp
        | cons => simp at h
      | cons z c => cases c' with
        | nil => simp at h
        | cons z' c' =>
          obtain ⟨h1, h2⟩ := ih b c c' (by simpa using h)
          simp [h1, h2]

/-- The entries: number of the point, column, exact weight, computed weight. -/
theorem runs {C : Nat} (x : List (Fin C → ℚ)) (o : Octree F) (d : Nat) (pts : List Pt4) (nempty bc : Bool) (out : List (Fin C → ℚ))
    (hcor : (pts.flatMap fun p => linCorners32 p.1) = pts.flatMap fun p => linCorners p.1)
    (h : octreeLinearPts x o d pts nempty bc = .ok out) :
    ∃ (v : List Bool) (J : List (Nat × Int × ℚ × ℚ)), v.length = J.length ∧ J.map Prod.fst = (List.range pts.length).flatMap (fun i => List.replicate 8 i) ∧
      J.map (fun j => j.2.2) = (pts.flatMap fun p => linWeights p.1).zip (pts.flatMap fun p => linWeights32 p.1) ∧
      (bc = true → ∀ z ∈ v.zip (pts.flatMap fun p => linCorners p.1), z.1 = true → inBound d z.2 = true) ∧
      (∀ j ∈ maskSel v J, j.2.1.toNat < x.length) ∧
      out = (List.range pts.length).map (fun i => fun c =>
        (((maskSel v J).filter fun e => decide (e.1 = i)).map fun e => e.2.2.1 * ((x[e.2.1.toNat]?).getD 0) c).sum /
          ((((maskSel v J).filter fun e => decide (e.1 = i)).map fun e => e.2.2.1 * 1).sum + 1 / 10 ^ 12)) ∧
      octreeLinearTerms x o d pts nempty bc = .ok ((List.range pts.length).map fun i =>
        ((fun c => ((((maskSel v J).filter fun e => decide (e.1 = i)).map fun e => Term.prod e.2.2.2 (((x[e.2.1.toNat]?).getD 0) c) : List Term) : Multiset Term)),
          ((((maskSel v J).filter fun e => decide (e.1 = i)).map fun e => Term.prod e.2.2.2 1 : List Term) : Multiset Term))) := by
  unfold octreeLinearPts at h
  obtain ⟨n, h1, h⟩ := mbind h
  obtain ⟨u, h2, h⟩ := mbind h
  obtain ⟨idx, h3, h⟩ := mbind h
  obtain ⟨idx', h4, h⟩ := mbind h
  obtain ⟨ids', h5, h⟩ := mbind h
  obtain ⟨w', h6, h⟩ := mbind h
  obtain ⟨r1, h7, h⟩ := mbind h
  obtain ⟨r2, h8, h⟩ := mbind h
  obtain ⟨l4, rfl⟩ := boolIndex_eq h4
  obtain ⟨l5, rfl⟩ := boolIndex_eq h5
  obtain ⟨l6, rfl⟩ := boolIndex_eq h6
  set v := validMask bc d idx (pts.flatMap fun p => linCorners p.1) with hv
  set W := pts.flatMap fun p => linWeights p.1 with hW
  set W' := pts.flatMap fun p => linWeights32 p.1 with hW'
  have lW : W.length = 8 * pts.length := flat_len _ _ (by intro p; simp [linWeights, grid])
  have lW' : W'.length = 8 * pts.length := flat_len _ _ (by intro p; simp [linWeights32, grid])
  have lI := ids_len pts.length
  set ids := (List.range pts.length).flatMap fun i => List.replicate 8 i with hids
  have lx : idx.length = 8 * pts.length := by omega
  have z1 : (maskSel v ids).zip (maskSel v idx) = maskSel v (ids.zip idx) := (sel_zip v ids idx).resolve_right (by omega)
  have z2 : (maskSel v (ids.zip idx)).zip (maskSel v W) = maskSel v ((ids.zip idx).zip W) :=
    (sel_zip v _ _).resolve_right (by rw [List.length_zip]; omega)
  have z3 : (maskSel v (ids.zip idx)).zip (maskSel v W') = maskSel v ((ids.zip idx).zip W') :=
    (sel_zip v _ _).resolve_right (by rw [List.length_zip]; omega)
  set J : List (Nat × Int × ℚ × ℚ) := ids.zip (idx.zip (W.zip W')) with hJ
  have jl : J.length = 8 * pts.length := by
    simp only [hJ, List.length_zip]
    omega
  obtain ⟨j1, j2⟩ := zip3 ids idx W W' (by omega)
  rw [z1, z2, j1, maskSel_map] at h7 h8
  rw [← hJ] at h7 h8
  unfold sparseMM at h7 h8
  obtain ⟨u7, a7, h7⟩ := mbind h7
  obtain ⟨u8, a8, h8⟩ := mbind h8
  have c7 := pyAssert_ok a7
  have c8 := pyAssert_ok a8
  cases h7
  cases h8
  cases h
  have hr : ∀ j ∈ maskSel v J, j.2.1.toNat < x.length := by
    intro j hj
    have := c7 _ (List.mem_map_of_mem (f := fun j : Nat × Int × ℚ × ℚ => ((j.1, j.2.1), j.2.2.1)) hj)
    simp only at this
    omega
  have one : ∀ j ∈ maskSel v J, ∀ i : Fin 1, ((List.replicate x.length (fun _ : Fin 1 => (1 : ℚ)))[j.2.1.toNat]?).getD 0 i = 1 := by
    intro j hj i
    rw [List.getElem?_replicate, if_pos (hr j hj)]
    rfl
  refine ⟨v, J, by omega, ?_, ?_, ?_, hr, ?_, ?_⟩
  · rw [hJ, List.map_fst_zip]
    rw [List.length_zip, List.length_zip]
    omega
  · rw [hJ]
    have : (fun j : Nat × Int × ℚ × ℚ => j.2.2) = Prod.snd ∘ Prod.snd := rfl
    rw [this, ← List.map_map, List.map_snd_zip, List.map_snd_zip]
    · rw [List.length_zip]; omega
    · rw [List.length_zip, List.length_zip]; omega
  · intro hbc z hz hz1
    subst hbc
    rw [hv] at hz
    unfold validMask at hz
    rw [if_pos rfl] at hz
    obtain ⟨k, hk⟩ := List.mem_iff_getElem?.1 hz
    rw [List.getElem?_zip_eq_some, List.getElem?_zipWith] at hk
    obtain ⟨k1, k2⟩ := hk
    rw [k2] at k1
    cases e : idx[k]? with
    | none => rw [e] at k1; simp at k1
    | some q =>
      rw [e] at k1
      simp only [Option.some.injEq] at k1
      rw [hz1] at k1
      rw [Bool.and_eq_true] at k1
      exact k1.2
  · rw [List.zipWith_map_left, List.zipWith_map_right, List.zipWith_self]
    refine List.map_congr_left fun i _ => ?_
    funext c
    dsimp only
    rw [List.filter_map, List.map_map, List.map_map]
    have e : ∀ {α : Type} (f g : Nat × Int × ℚ × ℚ → α), (∀ j ∈ maskSel v J, f j = g j) →
        ((maskSel v J).filter fun e => decide (e.1 = i)).map f = ((maskSel v J).filter fun e => decide (e.1 = i)).map g :=
      fun f g hfg => List.map_congr_left fun j hj => hfg j (List.mem_of_mem_filter hj)
    congr 2
    congr 1
    refine e _ _ fun j hj => ?_
    simp only [Function.comp_def]
    rw [one j hj]
  · unfold octreeLinearTerms
    rw [hcor, h1]
    have b6 : boolIndex v W' = .ok (maskSel v W') := by
      unfold boolIndex
      rw [if_pos (by omega)]
    simp only [bind, Except.bind, h2, h3, ← hv, h4]
    rw [← hids, ← hW', h5]
    dsimp only
    rw [b6]
    dsimp only
    rw [z1, z3, j2, ← hJ, maskSel_map]
    unfold sparseTerms
    have p7 : ∀ e ∈ ((maskSel v J).map fun j => ((j.1, j.2.1), j.2.2.2)), e.1.1 < pts.length ∧ 0 ≤ e.1.2 ∧ e.1.2 < (x.length : Int) := by
      intro e he
      obtain ⟨j, hj, rfl⟩ := List.mem_map.1 he
      exact c7 ((j.1, j.2.1), j.2.2.1) (List.mem_map_of_mem (f := fun j : Nat × Int × ℚ × ℚ => ((j.1, j.2.1), j.2.2.1)) hj)
    have p8 : ∀ e ∈ ((maskSel v J).map fun j => ((j.1, j.2.1), j.2.2.2)), e.1.1 < pts.length ∧ 0 ≤ e.1.2 ∧
        e.1.2 < ((List.replicate x.length (fun _ : Fin 1 => (1 : ℚ))).length : Int) := by
      rw [List.length_replicate]
      exact p7
    simp only [pyAssert]
    rw [if_pos p7, if_pos p8]
    simp only [pure, Except.pure, bind, Except.bind]
    congr 1
    rw [List.zipWith_map_left, List.zipWith_map_right, List.zipWith_self]
    refine List.map_congr_left fun i _ => ?_
    dsimp only
    rw [List.filter_map]
    simp only [List.map_map]
    congr 1
    congr 1
    refine List.map_congr_left fun j hj => ?_
    simp only [Function.comp_def]
    rw [one j (List.mem_of_mem_filter hj)]

theorem corners32_eq {pts : List Pt4} (hp : SingleCoords pts) : (pts.flatMap fun p => linCorners32 p.1) = pts.flatMap fun p => linCorners p.1 := by
  rw [List.flatMap_def, List.flatMap_def]
  congr 1
  exact List.map_congr_left fun p h => (weight_near (hp p h)).1

theorem getD_bound {C : Nat} {x : List (Fin C → ℚ)} {c : Fin C} {m : ℚ} (hx : ∀ r ∈ x, |r c| ≤ m) {k : Nat} (hk : k < x.length) : |((x[k]?).getD 0) c| ≤ m := by
  rw [List.getElem?_eq_getElem hk]
  exact hx _ (List.getElem_mem hk)

/-- **C174, the error.** With `bound_check`, linear interpolation in single precision at points with single precision coordinates differs from exact linear
interpolation by at most `2^-17` times the largest feature of the channel (up to `2^-90`), in whatever order torch adds up. -/
theorem C174_error {C : Nat} (x : List (Fin C → ℚ)) (o : Octree F) (d : Nat) (pts : List Pt4) (hp : SingleCoords pts) (nempty : Bool) (out : List (Fin C → ℚ))
    (h : octreeLinearPts x o d pts nempty true = .ok out) :
    ∃ terms, octreeLinearTerms x o d pts nempty true = .ok terms ∧ terms.length = out.length ∧
      ∀ (i : Nat) (t : (Fin C → Multiset Term) × Multiset Term) (v : Fin C → ℚ), terms[i]? = some t → out[i]? = some v →
        ∀ (c : Fin C) (m : ℚ), 0 ≤ m → (∀ r ∈ x, |r c| ≤ m) → ∀ y, LinearF32 (t.1 c) t.2 y → |y - v c| ≤ 1 / 2 ^ 17 * m + 1 / 2 ^ 90 := by
  obtain ⟨v, J, hl, hi, hw, hb, hr, ho, ht⟩ := runs x o d pts nempty true out (corners32_eq hp) h
  refine ⟨_, ht, by rw [ho, List.length_map, List.length_map], ?_⟩
  intro i t out' h1 h2 c m hm hx y hy
  rw [ho] at h2
  rw [List.getElem?_map] at h1 h2
  cases e : (List.range pts.length)[i]? with
  | none => rw [e] at h1; cases h1
  | some i' =>
    rw [e] at h1 h2
    simp only [Option.map_some, Option.some.injEq] at h1 h2
    subst h1 h2
    have near : ∀ j ∈ maskSel v J, Near (1 / 2 ^ 20) j.2.2.1 j.2.2.2 := by
      intro j hj
      obtain ⟨k, k1, k2⟩ := (mem_maskSel v J j).1 hj
      have l1 : (pts.flatMap fun p => linCorners p.1).length = 8 * pts.length := flat_len _ _ (by intro p; simp [linCorners, grid])
      have l2 : J.length = 8 * pts.length := by
        have := congrArg List.length hi
        rw [List.length_map, ids_len] at this
        exact this
      have k3 : k < (pts.flatMap fun p => linCorners p.1).length := by
        have := (List.getElem?_eq_some_iff.1 k2).1
        omega
      have k4 : ((pts.flatMap fun p => linWeights p.1).zip (pts.flatMap fun p => linWeights32 p.1))[k]? = some j.2.2 := by
        rw [← hw, List.getElem?_map, k2]
        rfl
      have k5 := List.getElem?_eq_getElem k3
      have inb := hb rfl (true, (pts.flatMap fun p => linCorners p.1)[k]) (List.mem_iff_getElem?.2 ⟨k, by rw [List.getElem?_zip_eq_some]; exact ⟨k1, k5⟩⟩) rfl
      have mem : ((pts.flatMap fun p => linCorners p.1)[k], j.2.2) ∈
          (pts.flatMap fun p => linCorners p.1).zip ((pts.flatMap fun p => linWeights p.1).zip (pts.flatMap fun p => linWeights32 p.1)) :=
        List.mem_iff_getElem?.2 ⟨k, by rw [List.getElem?_zip_eq_some]; exact ⟨k5, k4⟩⟩
      rw [flat_zip _ _ _ (by intro p; simp [linWeights, linWeights32, grid]),
        flat_zip pts linCorners (fun p => (linWeights p).zip (linWeights32 p)) (by intro p; simp [linWeights, linWeights32, linCorners, grid]),
        List.mem_flatMap] at mem
      obtain ⟨p, p1, p2⟩ := mem
      exact (weight_near (hp p p1)).2 d _ p2 inb
    have core := linear_core hm (E := ((maskSel v J).filter fun e => decide (e.1 = i')).map fun e => (e.2.2.1, e.2.2.2, ((x[e.2.1.toNat]?).getD 0) c)) (by
      intro e he
      obtain ⟨j, hj, rfl⟩ := List.mem_map.1 he
      have hj' := List.mem_of_mem_filter hj
      exact ⟨near j hj', getD_bound hx (hr j hj')⟩) (by rw [List.length_map]; exact row_eight hi i') (y := y) (by
        rw [List.map_map, List.map_map]
        exact hy)
    rw [List.map_map, List.map_map] at core
    exact core.1

/-- **C174, the range.** At points with single precision coordinates, with or without `bound_check`, a linearly interpolated value exceeds the largest absolute
value of the features of its channel by at most the factor `1 + 2^-17` (up to `2^-90`): tiny total weights do not blow up the result. -/
theorem C174_range {C : Nat} (x : List (Fin C → ℚ)) (o : Octree F) (d : Nat) (pts : List Pt4) (hp : SingleCoords pts) (nempty bc : Bool) (out : List (Fin C → ℚ))
    (h : octreeLinearPts x o d pts nempty bc = .ok out) :
    ∃ terms, octreeLinearTerms x o d pts nempty bc = .ok terms ∧ terms.length = pts.length ∧
      ∀ t ∈ terms, ∀ (c : Fin C) (m : ℚ), 0 ≤ m → (∀ r ∈ x, |r c| ≤ m) → ∀ y, LinearF32 (t.1 c) t.2 y → |y| ≤ (1 + 1 / 2 ^ 17) * m + 1 / 2 ^ 90 := by
  obtain ⟨v, J, hl, hi, hw, hb, hr, ho, ht⟩ := runs x o d pts nempty bc out (corners32_eq hp) h
  refine ⟨_, ht, by simp, ?_⟩
  intro t h1 c m hm hx y hy
  obtain ⟨i', -, rfl⟩ := List.mem_map.1 h1
  have near : ∀ j ∈ maskSel v J, 0 ≤ j.2.2.2 := by
    intro j hj
    have : j.2.2 ∈ J.map fun j => j.2.2 := List.mem_map_of_mem (f := fun j : Nat × Int × ℚ × ℚ => j.2.2) ((maskSel_sublist v J).mem hj)
    rw [hw] at this
    have := (List.of_mem_zip this).2
    obtain ⟨p, -, p2⟩ := List.mem_flatMap.1 this
    unfold linWeights32 at p2
    obtain ⟨g, -, e⟩ := List.mem_map.1 p2
    rw [← e]
    exact abs_nonneg _
  have core := linear_core hm (E := ((maskSel v J).filter fun e => decide (e.1 = i')).map fun e => (e.2.2.2, e.2.2.2, ((x[e.2.1.toNat]?).getD 0) c)) (by
    intro e he
    obtain ⟨j, hj, rfl⟩ := List.mem_map.1 he
    have hj' := List.mem_of_mem_filter hj
    refine ⟨⟨near j hj', near j hj', ?_⟩, getD_bound hx (hr j hj')⟩
    rw [sub_self, abs_zero]
    exact mul_nonneg (by norm_num) (near j hj')) (by rw [List.length_map]; exact row_eight hi i') (y := y) (by
      rw [List.map_map, List.map_map]
      exact hy)
  have := abs_add_le (y - _) _ |>.trans (add_le_add core.1 core.2)
  rw [sub_add_cancel] at this
  linarith

/-- Non-vacuity: on the octree of the examples, with one row per node of depth 2, there are a point near the border and one inside with single precision
coordinates, at which interpolation succeeds. -/
example : ∃ (o : Octree Unit) (x : List (Fin 2 → ℚ)) (pts : List Pt4) (out : List (Fin 2 → ℚ)), SingleCoords pts ∧ pts.length = 2 ∧ x.length = 16 ∧
    octreeLinearPts x o 2 pts false true = .ok out := by
  obtain ⟨o, h1, -, h3, h4, h5, -⟩ := example_valid'
  have hc := h1.wf'.cellsOf 2 (by omega)
  have hch := h1.wf'.children 2 (by omega)
  obtain ⟨out, ho, -⟩ := C53_none o 2 h1 2 (le_refl _) _ _ hc hch false true (List.replicate 16 (fun k => (k.val : ℚ)))
    (by rw [queried_length h1 2 (by omega) false _ _ hc hch, if_neg (by simp), h5]; simp) [(⟨1 / 8, 3 / 4, 5 / 2⟩, 0), (⟨5 / 4, 9 / 8, 2⟩, 0)] (by simp)
  refine ⟨o, _, _, out, ?_, by simp, by simp, ho⟩
  have key : ∀ (m : ℤ) (k : Nat), |m| < 2 ^ 24 → 0 ≤ (m : ℚ) / 2 ^ k → (m : ℚ) / 2 ^ k ≤ 2 ^ 16 → IsF32 ((m : ℚ) / 2 ^ k) ∧ 0 ≤ (m : ℚ) / 2 ^ k ∧ (m : ℚ) / 2 ^ k ≤ 2 ^ 16 :=
    fun m k h1 h2 h3 => ⟨isF32_dyadic h1, h2, h3⟩
  intro p hp a
  simp only [List.map_cons, List.map_nil, row4, List.mem_cons, List.not_mem_nil, or_false] at hp
  rcases hp with rfl | rfl <;> cases a <;> simp only [V3.along]
  · have := key 1 3 (by norm_num) (by norm_num) (by norm_num)
    norm_num at this ⊢
    exact this
  · have := key 3 2 (by norm_num) (by norm_num) (by norm_num)
    norm_num at this ⊢
    exact this
  · have := key 5 1 (by norm_num) (by norm_num) (by norm_num)
    norm_num at this ⊢
    exact this
  · have := key 5 2 (by norm_num) (by norm_num) (by norm_num)
    norm_num at this ⊢
    exact this
  · have := key 9 3 (by norm_num) (by norm_num) (by norm_num)
    norm_num at this ⊢
    exact this
  · have := key 2 0 (by norm_num) (by norm_num) (by norm_num)
    norm_num at this ⊢
    exact this

end Ocnn
