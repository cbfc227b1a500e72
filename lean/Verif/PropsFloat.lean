import Verif.Float32
import Verif.PropsBuild

/-! C97: building an octree in single precision. -/

namespace Ocnn
open Spec

variable {F L : Type}

/-! ### rounding -/

namespace Spec

/-- `x` is a number with at most 24 significant bits. -/
def IsF32 (x : ℚ) : Prop := ∃ (m e : ℤ), |m| < 2 ^ 24 ∧ x = m * 2 ^ e

end Spec

theorem rne_err (x : ℚ) : |(rne x : ℚ) - x| ≤ 1 / 2 := by
  have h1 := Int.floor_le x
  have h2 := Int.lt_floor_add_one x
  unfold rne
  rw [abs_le]
  split_ifs <;> push_cast <;> constructor <;> linarith

theorem rne_int (n : ℤ) : rne (n : ℚ) = n := by
  unfold rne
  rw [Int.floor_intCast, sub_self, if_pos (by norm_num)]

/-- The nearest integer is at least as close as any integer. -/
theorem rne_nearest (x : ℚ) (n : ℤ) : |(rne x : ℚ) - x| ≤ |(n : ℚ) - x| := by
  have h1 := Int.floor_le x
  have h2 := Int.lt_floor_add_one x
  rcases lt_or_ge n (⌊x⌋ + 1) with hn | hn
  · have hn' : (n : ℚ) ≤ (⌊x⌋ : ℚ) := by exact_mod_cast Int.lt_add_one_iff.1 hn
    rw [abs_sub_comm (n : ℚ), abs_of_nonneg (by linarith : (0 : ℚ) ≤ x - n)]
    unfold rne
    rw [abs_le]
    split_ifs <;> push_cast <;> constructor <;> linarith
  · have hn' : (⌊x⌋ : ℚ) + 1 ≤ (n : ℚ) := by exact_mod_cast hn
    rw [abs_of_nonneg (by linarith : (0 : ℚ) ≤ n - x)]
    unfold rne
    rw [abs_le]
    split_ifs <;> push_cast <;> constructor <;> linarith

theorem log_unique {r : ℚ} {j : ℤ} (h1 : (2 : ℚ) ^ j ≤ r) (h2 : r < (2 : ℚ) ^ (j + 1)) : Int.log 2 r = j := by
  have h0 : 0 < r := lt_of_lt_of_le (zpow_pos (by norm_num) _) h1
  apply le_antisymm
  · exact Int.lt_add_one_iff.1 ((Int.lt_zpow_iff_log_lt (b := 2) (by norm_num) h0).1 (by exact_mod_cast h2))
  · exact (Int.zpow_le_iff_le_log (b := 2) (by norm_num) h0).1 (by exact_mod_cast h1)

theorem ulp_pos (x : ℚ) : 0 < ulp x := zpow_pos (by norm_num) _

/-- `|x|` is between `2 ^ 23` and `2 ^ 24` times the spacing. -/
theorem ulp_bounds {x : ℚ} (hx : x ≠ 0) : 2 ^ 23 * ulp x ≤ |x| ∧ |x| < 2 ^ 24 * ulp x := by
  have h0 : 0 < |x| := abs_pos.2 hx
  have h1 := Int.zpow_log_le_self (b := 2) (by norm_num) h0
  have h2 := Int.lt_zpow_succ_log_self (b := 2) (by norm_num) |x|
  have e : ∀ n : ℕ, (2 : ℚ) ^ n * ulp x = 2 ^ (Int.log 2 |x| - 23 + n) := by
    intro n
    rw [ulp, zpow_add₀ (by norm_num), zpow_natCast, mul_comm]
  rw [e 23, e 24]
  constructor
  · have : Int.log 2 |x| - 23 + ((23 : ℕ) : ℤ) = Int.log 2 |x| := by push_cast; ring
    rw [this]
    exact_mod_cast h1
  · have : Int.log 2 |x| - 23 + ((24 : ℕ) : ℤ) = Int.log 2 |x| + 1 := by push_cast; ring
    rw [this]
    exact_mod_cast h2

theorem ulp_scale {x : ℚ} (hx : x ≠ 0) (n : ℤ) : ulp (x * 2 ^ n) = ulp x * 2 ^ n := by
  have h0 : 0 < |x| := abs_pos.2 hx
  have h1 := Int.zpow_log_le_self (b := 2) (by norm_num) h0
  have h2 := Int.lt_zpow_succ_log_self (b := 2) (by norm_num) |x|
  have hp : (0 : ℚ) < 2 ^ n := zpow_pos (by norm_num) _
  have e : Int.log 2 |x * 2 ^ n| = Int.log 2 |x| + n := by
    rw [abs_mul, abs_of_pos hp]
    apply log_unique
    · rw [zpow_add₀ (by norm_num)]
      exact mul_le_mul_of_nonneg_right (by exact_mod_cast h1) hp.le
    · rw [add_right_comm, zpow_add₀ (by norm_num : (2 : ℚ) ≠ 0) _ n]
      exact mul_lt_mul_of_pos_right (by exact_mod_cast h2) hp
  rw [ulp, e, ulp, ← zpow_add₀ (by norm_num)]
  congr 1
  ring

theorem f32_zero : f32 0 = 0 := by
  unfold f32
  rw [zero_div, show (0 : ℚ) = ((0 : ℤ) : ℚ) by simp, rne_int]
  simp

/-- Scaling by a power of two commutes with rounding. -/
theorem f32_scale (x : ℚ) (n : ℤ) : f32 (x * 2 ^ n) = f32 x * 2 ^ n := by
  by_cases hx : x = 0
  · subst hx; rw [zero_mul, f32_zero, zero_mul]
  · unfold f32
    rw [ulp_scale hx, mul_div_mul_right _ _ (zpow_ne_zero n (by norm_num : (2 : ℚ) ≠ 0)), mul_assoc]

/-- The error of one rounding. -/
theorem f32_err (x : ℚ) : |f32 x - x| ≤ ulp x / 2 := by
  have hu := ulp_pos x
  have e : f32 x - x = ((rne (x / ulp x) : ℚ) - x / ulp x) * ulp x := by
    unfold f32
    rw [sub_mul, div_mul_cancel₀ _ hu.ne']
  rw [e, abs_mul, abs_of_pos hu]
  calc _ ≤ 1 / 2 * ulp x := mul_le_mul_of_nonneg_right (rne_err _) hu.le
    _ = ulp x / 2 := by ring

/-- A number with at most 24 significant bits is an integer multiple of its spacing. -/
theorem Spec.IsF32.multiple {x : ℚ} (h : IsF32 x) : ∃ n : ℤ, x = n * ulp x := by
  obtain ⟨m, e, h1, rfl⟩ := h
  by_cases hm : m = 0
  · exact ⟨0, by simp [hm]⟩
  · have hm' : (m : ℚ) ≠ 0 := by exact_mod_cast hm
    have hb := (ulp_bounds hm').1
    have h24 : |(m : ℚ)| < 2 ^ 24 := by exact_mod_cast h1
    have hl : Int.log 2 |(m : ℚ)| ≤ 23 := by
      have := (Int.lt_zpow_iff_log_lt (b := 2) (r := |(m : ℚ)|) (x := 24) (by norm_num) (abs_pos.2 hm')).1 (by exact_mod_cast h24)
      omega
    refine ⟨m * 2 ^ (23 - Int.log 2 |(m : ℚ)|).toNat, ?_⟩
    rw [ulp_scale hm']
    have : ((m * 2 ^ (23 - Int.log 2 |(m : ℚ)|).toNat : ℤ) : ℚ) * (ulp (m : ℚ) * 2 ^ e) = m * ((2 : ℚ) ^ (23 - Int.log 2 |(m : ℚ)|).toNat * ulp (m : ℚ)) * 2 ^ e := by
      push_cast
      ring
    rw [this]
    have h1 : (2 : ℚ) ^ (23 - Int.log 2 |(m : ℚ)|).toNat * ulp (m : ℚ) = 1 := by
      rw [ulp, ← zpow_natCast, Int.toNat_of_nonneg (by omega), ← zpow_add₀ (by norm_num)]
      rw [show 23 - Int.log 2 |(m : ℚ)| + (Int.log 2 |(m : ℚ)| - 23) = 0 by ring, zpow_zero]
    rw [h1, mul_one]

/-- Numbers with at most 24 significant bits are not changed. -/
theorem f32_exact {x : ℚ} (h : IsF32 x) : f32 x = x := by
  obtain ⟨n, hn⟩ := h.multiple
  have hu := ulp_pos x
  have e : x / ulp x = n := by rw [div_eq_iff hu.ne', ← hn]
  unfold f32
  rw [e, rne_int, ← hn]

/-- The result of a rounding is a number with at most 24 significant bits. -/
theorem f32_isF32 (x : ℚ) : IsF32 (f32 x) := by
  by_cases hx : x = 0
  · subst hx; rw [f32_zero]; exact ⟨0, 0, by norm_num, by simp⟩
  · have hu := ulp_pos x
    obtain ⟨-, h2⟩ := ulp_bounds hx
    have hq : |x / ulp x| < 2 ^ 24 := by rw [abs_div, abs_of_pos hu, div_lt_iff₀ hu]; exact h2
    have hle : |rne (x / ulp x)| ≤ 2 ^ 24 := by
      have h3 := rne_err (x / ulp x)
      have h4 : |(rne (x / ulp x) : ℚ)| < 2 ^ 24 + 1 := by
        calc _ = |((rne (x / ulp x) : ℚ) - x / ulp x) + x / ulp x| := by rw [sub_add_cancel]
          _ ≤ _ := abs_add_le _ _
          _ < 1 / 2 + 2 ^ 24 := add_lt_add_of_le_of_lt h3 hq
          _ < _ := by norm_num
      have h5 : |rne (x / ulp x)| < 2 ^ 24 + 1 := by exact_mod_cast h4
      omega
    rcases lt_or_eq_of_le hle with h | h
    · exact ⟨rne (x / ulp x), Int.log 2 |x| - 23, h, rfl⟩
    · rcases (abs_eq (by norm_num)).1 h with h | h
      · refine ⟨1, Int.log 2 |x| - 23 + 24, by norm_num, ?_⟩
        unfold f32
        rw [h, ulp, zpow_add₀ (by norm_num)]
        push_cast
        norm_num
        ring
      · refine ⟨-1, Int.log 2 |x| - 23 + 24, by norm_num, ?_⟩
        unfold f32
        rw [h, ulp, zpow_add₀ (by norm_num)]
        push_cast
        norm_num
        ring

/-- `f32` rounds to a nearest number with 24 significant bits: no other such number is closer. -/
theorem f32_nearest (x y : ℚ) (hy : IsF32 y) : |f32 x - x| ≤ |y - x| := by
  by_cases hx : x = 0
  · subst hx; rw [f32_zero]; simp
  have hu := ulp_pos x
  have key : ∀ n : ℤ, |f32 x - x| ≤ |(n : ℚ) * ulp x - x| := by
    intro n
    have e : ∀ q : ℚ, q * ulp x - x = (q - x / ulp x) * ulp x := by
      intro q
      rw [sub_mul, div_mul_cancel₀ _ hu.ne']
    unfold f32
    rw [e, e, abs_mul, abs_mul, abs_of_pos hu]
    exact mul_le_mul_of_nonneg_right (rne_nearest _ n) hu.le
  obtain ⟨h1, h2⟩ := ulp_bounds hx
  by_cases hb : 2 ^ 23 * ulp x ≤ |y|
  · -- a number at least as large as the binade of `x` is a multiple of its spacing
    have hy0 : y ≠ 0 := by
      rintro rfl
      rw [abs_zero] at hb
      have : 0 < 2 ^ 23 * ulp x := by positivity
      linarith
    obtain ⟨n, hn⟩ := hy.multiple
    have hlog : Int.log 2 |x| ≤ Int.log 2 |y| := by
      refine (Int.zpow_le_iff_le_log (b := 2) (by norm_num) (abs_pos.2 hy0)).1 ?_
      have e : (2 : ℚ) ^ 23 * ulp x = 2 ^ Int.log 2 |x| := by
        rw [ulp, ← zpow_natCast, ← zpow_add₀ (by norm_num)]
        congr 1
        push_cast
        ring
      rw [Nat.cast_ofNat, ← e]
      exact hb
    have : y = ((n * 2 ^ (Int.log 2 |y| - Int.log 2 |x|).toNat : ℤ) : ℚ) * ulp x := by
      push_cast
      rw [mul_assoc, ← zpow_natCast, Int.toNat_of_nonneg (by omega), ulp, ← zpow_add₀ (by norm_num)]
      rw [show Int.log 2 |y| - Int.log 2 |x| + (Int.log 2 |x| - 23) = Int.log 2 |y| - 23 by ring]
      exact hn
    rw [this]
    exact key _
  · -- a smaller number is further away than the bound of the binade
    rw [not_le] at hb
    rcases le_total 0 x with h0 | h0
    · rw [abs_of_nonneg h0] at h1
      refine (key (2 ^ 23)).trans ?_
      push_cast
      rw [abs_sub_comm, abs_of_nonneg (by linarith), abs_sub_comm]
      have := le_abs_self y
      refine le_trans ?_ (le_abs_self _)
      linarith
    · rw [abs_of_nonpos h0] at h1
      refine (key (-2 ^ 23)).trans ?_
      push_cast
      rw [abs_of_nonneg (by linarith)]
      have := neg_abs_le y
      refine le_trans ?_ (le_abs_self _)
      linarith

/-! ### coordinates -/

/-- The coordinate whose exact image is the rounded image of `v`. -/
def roundCoord (v : ℚ) : ℚ := f32 (v + 1) - 1

theorem scaleF32_eq (D : Nat) (v : ℚ) : scaleF32 D v = (roundCoord v + 1) * 2 ^ ((D : ℤ) - 1) := by
  unfold scaleF32 roundCoord
  rw [f32_scale, f32_exact (f32_isF32 _), sub_add_cancel]

theorem ulp_le {x : ℚ} (hx : x ≠ 0) (h : |x| < 2) : ulp x ≤ 1 / 2 ^ 23 := by
  have h0 : 0 < |x| := abs_pos.2 hx
  have : Int.log 2 |x| < 1 := (Int.lt_zpow_iff_log_lt (b := 2) (by norm_num) h0).1 (by simpa using h)
  unfold ulp
  calc (2 : ℚ) ^ (Int.log 2 |x| - 23) ≤ 2 ^ (-23 : ℤ) := zpow_le_zpow_right₀ (by norm_num) (by omega)
    _ = 1 / 2 ^ 23 := by norm_num

/-- The rounding moves a coordinate by at most `2 ^ -24`. -/
theorem roundCoord_err (v : ℚ) (h1 : -1 ≤ v) (h2 : v < 1) : |roundCoord v - v| ≤ 1 / 2 ^ 24 := by
  have e : roundCoord v - v = f32 (v + 1) - (v + 1) := by unfold roundCoord; ring
  rw [e]
  by_cases h0 : v + 1 = 0
  · rw [h0, f32_zero]; norm_num
  · refine (f32_err _).trans ?_
    have := ulp_le h0 (by rw [abs_of_nonneg (by linarith)]; linarith)
    linarith

/-- Coordinates on the grid of width `2 ^ -23` are not moved. -/
theorem roundCoord_grid (v : ℚ) (n : ℤ) (hv : v = n / 2 ^ 23) (h1 : -1 ≤ v) (h2 : v < 1) : roundCoord v = v := by
  have hn1 : -2 ^ 23 ≤ n := by
    rw [hv, le_div_iff₀ (by norm_num)] at h1
    have : (-1 * 2 ^ 23 : ℚ) ≤ n := h1
    have : ((-2 ^ 23 : ℤ) : ℚ) ≤ (n : ℚ) := by push_cast; linarith
    exact_mod_cast this
  have hn2 : n < 2 ^ 23 := by
    rw [hv, div_lt_iff₀ (by norm_num)] at h2
    have : (n : ℚ) < ((2 ^ 23 : ℤ) : ℚ) := by push_cast; linarith
    exact_mod_cast this
  unfold roundCoord
  rw [f32_exact ⟨n + 2 ^ 23, -23, by rw [abs_of_nonneg (by omega)]; omega, by
    rw [hv, zpow_neg]
    push_cast
    norm_num
    ring⟩, add_sub_cancel_right]

/-- Below `1 - 2 ^ -24` a coordinate stays in the range. -/
theorem roundCoord_range (v : ℚ) (h1 : -1 ≤ v) (h2 : v < 1 - 1 / 2 ^ 24) : -1 ≤ roundCoord v ∧ roundCoord v < 1 := by
  have hf : 0 ≤ f32 (v + 1) := by
    have := f32_nearest (v + 1) 0 ⟨0, 0, by norm_num, by simp⟩
    rw [zero_sub, abs_neg, abs_of_nonneg (by linarith : (0 : ℚ) ≤ v + 1)] at this
    have := (abs_le.1 this).1
    linarith
  refine ⟨by unfold roundCoord; linarith, ?_⟩
  -- `2 - 2 ^ -23` is closer than 2
  have hy : IsF32 (2 - 1 / 2 ^ 23) := ⟨2 ^ 24 - 1, -23, by norm_num, by rw [zpow_neg]; norm_num⟩
  have := f32_nearest (v + 1) _ hy
  unfold roundCoord
  have h3 := (le_abs_self _).trans this
  by_contra hc
  rw [not_lt] at hc
  rcases abs_cases (2 - 1 / 2 ^ 23 - (v + 1)) with ⟨e, -⟩ | ⟨e, -⟩ <;> rw [e] at h3 <;> norm_num at h2 h3 hc <;> linarith

/-- The largest number below 1 is moved to 1. -/
theorem roundCoord_top : roundCoord (1 - 1 / 2 ^ 24) = 1 := by
  have hl : Int.log 2 |(1 - 1 / 2 ^ 24 + 1 : ℚ)| = 0 := log_unique (by rw [abs_of_pos (by norm_num)]; norm_num) (by rw [abs_of_pos (by norm_num)]; norm_num)
  have hf : ⌊(1 - 1 / 2 ^ 24 + 1 : ℚ) / 2 ^ ((0 : ℤ) - 23)⌋ = 2 ^ 24 - 1 := by
    rw [Int.floor_eq_iff]
    norm_num
  unfold roundCoord f32 ulp
  rw [hl, rne, hf]
  norm_num

/-! ### octrees -/

/-- Building in single precision is building from the moved points. -/
theorem buildF32_eq [AddCommMonoid F] (nrm : V3 ℚ → V3 ℚ) (divF : ℚ → F → F) (o : Octree F) (pc : Points ℚ F L) :
    Octree.buildF32 nrm divF o pc = Octree.build nrm divF o { pc with points := pc.points.map (V3.map roundCoord) } := by
  unfold Octree.buildF32 Octree.build
  have : ∀ D : Nat, (pc.points.map fun p => p.map (scaleF32 D)) =
      (pc.points.map (V3.map roundCoord)).map fun p => p.map fun v => (v + 1) * 2 ^ ((D : ℤ) - 1) := by
    intro D
    rw [List.map_map]
    refine List.map_congr_left fun p _ => ?_
    simp [V3.map, scaleF32_eq]
  simp only [this]
  rfl

namespace Spec

/-- Some point whose coordinates differ by at most `e` from those of `p` lies in the cube of the cell. -/
def NearlyContains (e : ℚ) (d : Nat) (c : Cell) (p : V3 ℚ) : Prop :=
  ∃ q : V3 ℚ, |q.x - p.x| ≤ e ∧ |q.y - p.y| ≤ e ∧ |q.z - p.z| ≤ e ∧ CubeContains d c q

/-- All coordinates are at least -1 and less than `1 - 2 ^ -24`. -/
def BelowTop (p : V3 ℚ) : Prop :=
  (-1 ≤ p.x ∧ p.x < 1 - 1 / 2 ^ 24) ∧ (-1 ≤ p.y ∧ p.y < 1 - 1 / 2 ^ 24) ∧ (-1 ≤ p.z ∧ p.z < 1 - 1 / 2 ^ 24)

/-- All coordinates are multiples of `2 ^ -23`. -/
def OnGrid (p : V3 ℚ) : Prop := ∃ a b c : ℤ, p.x = a / 2 ^ 23 ∧ p.y = b / 2 ^ 23 ∧ p.z = c / 2 ^ 23

end Spec

/-- **C97** for coordinates below `1 - 2 ^ -24`: in single precision, building succeeds, and every point is stored in a leaf of its sample whose cube contains
the point moved by at most `2 ^ -24` along each axis.
Missing: the coordinate `1 - 2 ^ -24`, the largest single precision number below 1, for which the property fails (`C97_violated`). -/
theorem C97_partial [AddCommMonoid F] (nrm : V3 ℚ → V3 ℚ) (divF : ℚ → F → F) (o : Octree F) (pc : Points ℚ F L) (samples : List Nat)
    (h : LegalBuild o pc samples) (ht : ∀ p ∈ pc.points, BelowTop p) :
    ∃ o' idx cells ch, Octree.buildF32 nrm divF o pc = .ok (o', idx) ∧ CellsOf o.batchSize o.depth o'.keys cells ∧ o'.children o.depth = some ch ∧
      idx.length = pc.points.length ∧
      ∀ (i : Nat) (p : V3 ℚ) (b : Nat), pc.points[i]? = some p → samples[i]? = some b →
        ∃ (r : Nat) (c : Cell), idx[i]? = some r ∧ (nonEmpty cells ch)[r]? = some c ∧ c.b = b ∧ NearlyContains (1 / 2 ^ 24) o.depth c p := by
  have hb : LegalBuild o { pc with points := pc.points.map (V3.map roundCoord) } samples := by
    refine ⟨h.depth, h.full, h.batch, h.same_batch, ⟨by simp [h.cloud.length], h.cloud.lt, h.cloud.ids, ?_, ?_⟩, ?_⟩
    · intro n hn
      simpa using h.cloud.normals n hn
    · intro f hf
      simpa using h.cloud.features f hf
    · intro p hp
      obtain ⟨q, hq, rfl⟩ := List.mem_map.1 hp
      obtain ⟨hx, hy, hz⟩ := ht q hq
      exact ⟨roundCoord_range _ hx.1 hx.2, roundCoord_range _ hy.1 hy.2, roundCoord_range _ hz.1 hz.2⟩
  obtain ⟨o', idx, cells, ch, h1, h2, h3, h4, h5⟩ := C08_leaf_index nrm divF o _ samples hb
  refine ⟨o', idx, cells, ch, by rw [buildF32_eq, h1], h2, h3, by simpa using h4, ?_⟩
  intro i p b hp hs
  obtain ⟨r, c, g1, g2, g3, g4⟩ := h5 i (p.map roundCoord) b (by simp [hp]) hs
  have hc := h.inCube p (List.mem_of_getElem? hp)
  exact ⟨r, c, g1, g2, g3, p.map roundCoord, roundCoord_err _ hc.1.1 hc.1.2, roundCoord_err _ hc.2.1.1 hc.2.1.2, roundCoord_err _ hc.2.2.1 hc.2.2.2, g4⟩

/-- **C97** on the grid: for points in the cube whose coordinates are multiples of `2 ^ -23`, building in single precision gives the octree of exact arithmetic. -/
theorem C97_grid [AddCommMonoid F] (nrm : V3 ℚ → V3 ℚ) (divF : ℚ → F → F) (o : Octree F) (pc : Points ℚ F L) (hc : ∀ p ∈ pc.points, InCube p)
    (hg : ∀ p ∈ pc.points, OnGrid p) : Octree.buildF32 nrm divF o pc = Octree.build nrm divF o pc := by
  rw [buildF32_eq]
  have : pc.points.map (V3.map roundCoord) = pc.points := by
    conv_rhs => rw [← List.map_id pc.points]
    refine List.map_congr_left fun p hp => ?_
    obtain ⟨a, b, c, ha, hb, hc'⟩ := hg p hp
    obtain ⟨hx, hy, hz⟩ := hc p hp
    simp only [V3.map, id]
    rw [roundCoord_grid _ a ha hx.1 hx.2, roundCoord_grid _ b hb hy.1 hy.2, roundCoord_grid _ c hc' hz.1 hz.2]
  rw [this]

/-- C97 is violated by a point of the half-open cube with single precision coordinates: at every depth it is stored in the cell at the opposite corner. -/
theorem C97_violated (D full : Nat) (hD : D ≤ 16) (hD1 : 1 ≤ D) (hf : full ≤ D) :
    ∃ v : ℚ, IsF32 v ∧ InCube ⟨v, v, v⟩ ∧ ∃ (o' : Octree ℚ) (idx : List Nat) (cells : List Cell) (ch : List Int),
      Octree.buildF32 (F := ℚ) (L := Unit) id (fun c v => v / c) (Octree.new D full 1 0)
        ⟨[⟨v, v, v⟩], none, none, none, none, 1, none, 0⟩ = .ok (o', idx) ∧
      CellsOf 1 D o'.keys cells ∧ o'.children D = some ch ∧ nonEmpty cells ch ≠ [] ∧
      ∀ c ∈ nonEmpty cells ch, c = ⟨0, 0, 0, 0⟩ ∧ ¬ NearlyContains (1 / 2 ^ 24) D c ⟨v, v, v⟩ := by
  refine ⟨1 - 1 / 2 ^ 24, ⟨2 ^ 24 - 1, -24, by norm_num, by rw [zpow_neg]; norm_num⟩, by norm_num [InCube], ?_⟩
  obtain ⟨o', idx, cells, ch, h1, h2, h3, h4, h5⟩ := C14_violated D full hD hD1 hf
  refine ⟨o', idx, cells, ch, ?_, h2, h3, h4, fun c hc => ⟨(h5 c hc).1, ?_⟩⟩
  · rw [buildF32_eq, ← h1]
    simp only [List.map_cons, List.map_nil, V3.map, roundCoord_top]
  · rintro ⟨q, hx, -, -, hq, -, -⟩
    rw [(h5 c hc).1] at hq
    have hq2 := hq.2
    simp only [Nat.cast_zero, zero_add, one_mul] at hq2
    have hs : (2 : ℚ) / 2 ^ D ≤ 1 := by
      rw [div_le_one (by positivity)]
      calc (2 : ℚ) = 2 ^ 1 := by norm_num
        _ ≤ 2 ^ D := pow_le_pow_right₀ (by norm_num) hD1
    have := (abs_le.1 hx).1
    norm_num at this
    linarith

/-! ### a concrete case -/

/-- A cloud with a coordinate that is moved by the rounding: `1/4 + 2 ^ -25` is a single precision number, its sum with 1 is not. -/
def cloudF : Points ℚ ℚ Unit := ⟨[⟨1 / 4 + 1 / 2 ^ 25, -1, 3 / 4⟩, ⟨0, 1 / 8, -1 / 2⟩], none, none, none, none, 1, none, 0⟩

example : ∃ o' idx cells ch, Octree.buildF32 id (fun c v => v / c) (Octree.new 6 2 1 0) cloudF = .ok (o', idx) ∧ CellsOf 1 6 o'.keys cells ∧
    o'.children 6 = some ch ∧ idx.length = 2 ∧
      ∀ (i : Nat) (p : V3 ℚ) (b : Nat), cloudF.points[i]? = some p → [0, 0][i]? = some b →
        ∃ (r : Nat) (c : Cell), idx[i]? = some r ∧ (nonEmpty cells ch)[r]? = some c ∧ c.b = b ∧ NearlyContains (1 / 2 ^ 24) 6 c p :=
  C97_partial id _ _ cloudF [0, 0] ⟨by decide, by decide, by decide, rfl, ⟨rfl, by simp [Octree.new], by simp [Octree.new], by simp [cloudF], by simp [cloudF]⟩, by
      intro p hp
      simp only [cloudF, List.mem_cons, List.not_mem_nil, or_false] at hp
      rcases hp with rfl | rfl <;> norm_num [InCube]⟩ (by
    intro p hp
    simp only [cloudF, List.mem_cons, List.not_mem_nil, or_false] at hp
    rcases hp with rfl | rfl <;> norm_num [BelowTop])

example : IsF32 (1 / 4 + 1 / 2 ^ 25) ∧ ¬ IsF32 (1 / 4 + 1 / 2 ^ 25 + 1) := by
  refine ⟨⟨2 ^ 23 + 1, -25, by norm_num, by rw [zpow_neg]; norm_num⟩, fun h => ?_⟩
  have e := f32_exact h
  have hl : Int.log 2 |(1 / 4 + 1 / 2 ^ 25 + 1 : ℚ)| = 0 := log_unique (by rw [abs_of_pos (by norm_num)]; norm_num) (by rw [abs_of_pos (by norm_num)]; norm_num)
  have hf : ⌊(1 / 4 + 1 / 2 ^ 25 + 1 : ℚ) / 2 ^ ((0 : ℤ) - 23)⌋ = 5 * 2 ^ 21 := by
    rw [Int.floor_eq_iff]
    norm_num
  unfold f32 ulp at e
  rw [hl, rne, hf] at e
  norm_num at e

example : OnGrid (⟨0, 1 / 8, -1 / 2⟩ : V3 ℚ) := ⟨0, 2 ^ 20, -2 ^ 22, by norm_num, by norm_num, by norm_num⟩

end Ocnn
