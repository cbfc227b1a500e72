import Verif.FloatNormalize
import Verif.FloatLeafLemmas
import Verif.PropsNormalize
import Verif.PropsFloatPool

/-! Property C164: normalising in single precision. -/

set_option linter.unusedSimpArgs false
set_option linter.unusedVariables false

namespace Ocnn
open Spec

variable {F L : Type}

namespace Spec

/-- The cloud normalised by its own bounding box in single precision; minima and maxima do not round. -/
def normalisedF32 (p : Points ℚ F L) (sc : ℚ) : M (Points ℚ F L) :=
  match p.bbox with
  | .ok (lo, hi) => .ok (p.normalizeF32 lo hi sc)
  | .error e => .error e

/-- No two points are further apart than `w` along an axis, and the sum of two coordinates along the same axis is at most `m` in absolute value. -/
structure NearOrigin (p : Points ℚ F L) (w m : ℚ) : Prop where
  apart : HasExtent p w
  far : ∀ u ∈ p.points, ∀ v ∈ p.points, ∀ a : Points.Axis, |u.along a + v.along a| ≤ m

end Spec

theorem f32_abs_le (x : ℚ) : |f32 x| ≤ (1 + 1 / 2 ^ 24) * |x| := by
  have h := f32_rel x
  have e : f32 x = x + (f32 x - x) := by ring
  rw [e]
  refine (abs_add_le _ _).trans ?_
  linarith

theorem f32_ge {x : ℚ} (hx : 0 ≤ x) : (1 - 1 / 2 ^ 24) * x ≤ f32 x := by
  have h := f32_rel x
  rw [abs_of_nonneg hx] at h
  have := (abs_le.1 h).1
  linarith

theorem f32_nonneg {x : ℚ} (hx : 0 ≤ x) : 0 ≤ f32 x := le_trans (mul_nonneg (by norm_num) hx) (f32_ge hx)

/-- The error of the centre. -/
theorem center_err (lo hi : ℚ) : |Points.centerF32 lo hi - (lo + hi) / 2| ≤ 1 / 2 ^ 25 * |lo + hi| := by
  have h := f32_rel (lo + hi)
  have e : Points.centerF32 lo hi = f32 (lo + hi) / 2 := by
    unfold Points.centerF32
    have := f32_scale (f32 (lo + hi)) (-1)
    rw [f32_exact (f32_isF32 _)] at this
    rw [show (1 / 2 : ℚ) = 2 ^ (-1 : ℤ) by norm_num, this, zpow_neg_one]
    rfl
  rw [e, ← sub_div, abs_div, abs_of_pos (by norm_num : (0 : ℚ) < 2), div_le_iff₀ (by norm_num)]
  linarith

theorem box_ge (lo hi : V3 ℚ) (w : ℚ) (hw : 0 ≤ w) (h : ∃ a : Points.Axis, w = hi.along a - lo.along a) :
    (1 - 1 / 2 ^ 24) ^ 2 * (w + 1 / 10 ^ 6) ≤ Points.boxSizeF32 lo hi := by
  have h1 : (1 - 1 / 2 ^ 24) * w ≤ max (max (f32 (hi.x - lo.x)) (f32 (hi.y - lo.y))) (f32 (hi.z - lo.z)) := by
    obtain ⟨a, rfl⟩ := h
    refine (f32_ge hw).trans ?_
    cases a
    · exact le_trans (le_max_left _ _) (le_max_left _ _)
    · exact le_trans (le_max_right _ _) (le_max_left _ _)
    · exact le_max_right _ _
  have h2 : (1 - 1 / 2 ^ 24) * (1 / 10 ^ 6 : ℚ) ≤ f32 (1 / 10 ^ 6) := f32_ge (by norm_num)
  have h3 : (1 - 1 / 2 ^ 24) * (w + 1 / 10 ^ 6) ≤ max (max (f32 (hi.x - lo.x)) (f32 (hi.y - lo.y))) (f32 (hi.z - lo.z)) + f32 (1 / 10 ^ 6) := by linarith
  have h0 : (0 : ℚ) ≤ (1 - 1 / 2 ^ 24) * (w + 1 / 10 ^ 6) := mul_nonneg (by norm_num) (by positivity)
  refine le_trans ?_ (f32_ge (le_trans h0 h3))
  rw [pow_two, mul_assoc]
  exact mul_le_mul_of_nonneg_left h3 (by norm_num)

/-- one coordinate of a normalised point -/
theorem coord_bound (lo hi : V3 ℚ) (w sc : ℚ) (hw : 0 ≤ w) (hsc : 0 < sc) (h : ∃ a : Points.Axis, w = hi.along a - lo.along a) (l g v m : ℚ) (hl : l ≤ v) (hg : v ≤ g)
    (hlg : g - l ≤ w) (hm : |l + g| ≤ m) :
    |f32 (f32 (v - Points.centerF32 l g) * Points.factorF32 lo hi sc)| ≤ sc * ((1 + 1 / 2 ^ 21) * (w + 1 / 2 ^ 24 * m) / (w + 1 / 10 ^ 6)) := by
  have hbox := box_ge lo hi w hw h
  have hW : (0 : ℚ) < w + 1 / 10 ^ 6 := by positivity
  have hb0 : 0 < Points.boxSizeF32 lo hi := lt_of_lt_of_le (mul_pos (by norm_num) hW) hbox
  have hc := center_err l g
  have h1 : |v - Points.centerF32 l g| ≤ (w + 1 / 2 ^ 24 * m) / 2 := by
    have e : v - Points.centerF32 l g = (v - (l + g) / 2) - (Points.centerF32 l g - (l + g) / 2) := by ring
    rw [e]
    refine (abs_sub _ _).trans ?_
    have : |v - (l + g) / 2| ≤ w / 2 := by rw [abs_le]; constructor <;> linarith
    linarith
  have h2 : |f32 (v - Points.centerF32 l g)| ≤ (1 + 1 / 2 ^ 24) * ((w + 1 / 2 ^ 24 * m) / 2) :=
    (f32_abs_le _).trans (mul_le_mul_of_nonneg_left h1 (by norm_num))
  have hA : 0 ≤ w + 1 / 2 ^ 24 * m := by
    have := (abs_nonneg _).trans h1
    linarith
  have h3 : |f32 (1 / Points.boxSizeF32 lo hi)| ≤ (1 + 1 / 2 ^ 24) * (1 / ((1 - 1 / 2 ^ 24) ^ 2 * (w + 1 / 10 ^ 6))) := by
    refine (f32_abs_le _).trans (mul_le_mul_of_nonneg_left ?_ (by norm_num))
    rw [abs_of_pos (by positivity)]
    exact one_div_le_one_div_of_le (mul_pos (by norm_num) hW) hbox
  have h4 : |f32 (2 * sc)| ≤ (1 + 1 / 2 ^ 24) * (2 * sc) := by
    have := f32_abs_le (2 * sc)
    rwa [abs_of_pos (by positivity : (0 : ℚ) < 2 * sc)] at this
  have h5 : |Points.factorF32 lo hi sc| ≤ (1 + 1 / 2 ^ 24) * ((1 + 1 / 2 ^ 24) * (1 / ((1 - 1 / 2 ^ 24) ^ 2 * (w + 1 / 10 ^ 6))) * ((1 + 1 / 2 ^ 24) * (2 * sc))) := by
    unfold Points.factorF32
    refine (f32_abs_le _).trans (mul_le_mul_of_nonneg_left ?_ (by norm_num))
    rw [abs_mul]
    exact mul_le_mul h3 h4 (abs_nonneg _) (by positivity)
  have h6 := (f32_abs_le (f32 (v - Points.centerF32 l g) * Points.factorF32 lo hi sc)).trans
    (mul_le_mul_of_nonneg_left ((abs_mul _ _).le.trans (mul_le_mul h2 h5 (abs_nonneg _) (by positivity))) (by norm_num))
  refine h6.trans ?_
  have e : (1 + 1 / 2 ^ 24) * ((1 + 1 / 2 ^ 24) * ((w + 1 / 2 ^ 24 * m) / 2) *
      ((1 + 1 / 2 ^ 24) * ((1 + 1 / 2 ^ 24) * (1 / ((1 - 1 / 2 ^ 24) ^ 2 * (w + 1 / 10 ^ 6))) * ((1 + 1 / 2 ^ 24) * (2 * sc)))))
      = ((1 + 1 / 2 ^ 24) ^ 5 / (1 - 1 / 2 ^ 24) ^ 2) * (sc * ((w + 1 / 2 ^ 24 * m) / (w + 1 / 10 ^ 6))) := by
    field_simp
  rw [e]
  have e2 : sc * ((1 + 1 / 2 ^ 21) * (w + 1 / 2 ^ 24 * m) / (w + 1 / 10 ^ 6)) = (1 + 1 / 2 ^ 21) * (sc * ((w + 1 / 2 ^ 24 * m) / (w + 1 / 10 ^ 6))) := by ring
  rw [e2]
  exact mul_le_mul_of_nonneg_right (by norm_num) (by positivity)

/-- **C164, the bound.** A cloud of extent `w` whose coordinates sum up to at most `m` is normalised, in single precision, to coordinates of absolute value at most
`scale * (1 + 2^-21) * (w + 2^-24 * m) / (w + 10^-6)`; everything else is as it was. -/
theorem C164_bound (p : Points ℚ F L) (hne : p.points ≠ []) (w m sc : ℚ) (hp : NearOrigin p w m) (hsc : 0 < sc) :
    ∃ q, normalisedF32 p sc = .ok q ∧ q = { p with points := q.points } ∧ q.points.length = p.points.length ∧
      ∀ v ∈ q.points, ∀ a : Points.Axis, |v.along a| ≤ sc * ((1 + 1 / 2 ^ 21) * (w + 1 / 2 ^ 24 * m) / (w + 1 / 10 ^ 6)) := by
  obtain ⟨lo, hi, hb, hbox⟩ := C64_bbox p hne
  refine ⟨_, by rw [normalisedF32, hb], rfl, by simp [Points.normalizeF32], ?_⟩
  have hw0 : 0 ≤ w := by
    obtain ⟨v, vs, h⟩ := List.exists_cons_of_ne_nil hne
    have := hp.apart.le v (by rw [h]; simp) v (by rw [h]; simp) .x
    simpa using this
  have hle : ∀ a : Points.Axis, hi.along a - lo.along a ≤ w := by
    intro a
    obtain ⟨-, ⟨u, hu, eu⟩, ⟨v, hv, ev⟩⟩ := hbox a
    rw [eu, ev]
    exact hp.apart.le v hv u hu a
  have hat : ∃ a : Points.Axis, w = hi.along a - lo.along a := by
    obtain ⟨u, hu, v, hv, a, e⟩ := hp.apart.attained
    refine ⟨a, le_antisymm ?_ (hle a)⟩
    rw [← e]
    have h1 := ((hbox a).1 u hu).2
    have h2 := ((hbox a).1 v hv).1
    linarith
  have hm : ∀ a : Points.Axis, |lo.along a + hi.along a| ≤ m := by
    intro a
    obtain ⟨-, ⟨u, hu, eu⟩, ⟨v, hv, ev⟩⟩ := hbox a
    rw [eu, ev]
    exact hp.far u hu v hv a
  intro v hv a
  obtain ⟨u, hu, rfl⟩ := List.mem_map.1 hv
  have hb' := (hbox a).1 u hu
  have := coord_bound lo hi w sc hw0 hsc hat (lo.along a) (hi.along a) (u.along a) m hb'.1 hb'.2 (hle a) (hm a)
  cases a <;> exact this

theorem belowTop_of {v : V3 ℚ} (h : ∀ a : Points.Axis, |v.along a| < 1 - 1 / 2 ^ 24) : BelowTop v := by
  have hx := abs_lt.1 (h .x)
  have hy := abs_lt.1 (h .y)
  have hz := abs_lt.1 (h .z)
  refine ⟨⟨?_, hx.2⟩, ⟨?_, hy.2⟩, ⟨?_, hz.2⟩⟩
  · have : -(1 - 1 / 2 ^ 24) < v.x := hx.1
    linarith
  · have : -(1 - 1 / 2 ^ 24) < v.y := hy.1
    linarith
  · have : -(1 - 1 / 2 ^ 24) < v.z := hz.1
    linarith

/-- When the bound of `C164_bound` is below 1. -/
def SmallEnough (sc w m : ℚ) : Prop := (sc = 1 ∧ 9 * w + 2 * m ≤ 16) ∨ (sc ≤ 99 / 100 ∧ m ≤ 2 ^ 16 * (w + 1 / 10 ^ 6))

theorem small_bound {sc w m : ℚ} (hw : 0 ≤ w) (hm : 0 ≤ m) (hsc : 0 < sc) (h : SmallEnough sc w m) :
    sc * ((1 + 1 / 2 ^ 21) * (w + 1 / 2 ^ 24 * m) / (w + 1 / 10 ^ 6)) < 1 - 1 / 2 ^ 24 := by
  have hW : (0 : ℚ) < w + 1 / 10 ^ 6 := by positivity
  rcases h with ⟨rfl, h⟩ | ⟨h1, h2⟩
  · rw [one_mul, div_lt_iff₀ hW]
    nlinarith
  · have h3 : (1 + 1 / 2 ^ 21) * (w + 1 / 2 ^ 24 * m) / (w + 1 / 10 ^ 6) ≤ (1 + 1 / 2 ^ 21) * (1 + 1 / 2 ^ 8) := by
      rw [div_le_iff₀ hW, mul_assoc]
      refine mul_le_mul_of_nonneg_left ?_ (by norm_num)
      linarith
    calc sc * ((1 + 1 / 2 ^ 21) * (w + 1 / 2 ^ 24 * m) / (w + 1 / 10 ^ 6)) ≤ 99 / 100 * ((1 + 1 / 2 ^ 21) * (1 + 1 / 2 ^ 8)) :=
          mul_le_mul h1 h3 (by positivity) (by norm_num)
      _ < 1 - 1 / 2 ^ 24 := by norm_num

/-- **C164** for clouds that are small and near the origin, or a scale of at most 0.99 and clouds that are not further from the origin than `2^16` times their extent:
in single precision, normalising by the own bounding box and building an octree stores every point in a leaf of its sample whose cube contains the normalised point moved by
at most `2^-24`.  Missing: larger clouds and clouds far from the origin, for which the claim is false, see `C164_violated_large` and `C164_violated_far`. -/
theorem C164_partial [AddCommMonoid F] (nrm : V3 ℚ → V3 ℚ) (divF : ℚ → F → F) (o : Octree F) (pc : Points ℚ F L) (samples : List Nat) (hne : pc.points ≠ [])
    (hD : o.depth ≤ 16) (hf : o.fullDepth ≤ o.depth) (hB : o.batchSize ≤ 2 ^ 15) (hb : pc.batchSize = o.batchSize) (hs : Samples o.batchSize pc samples)
    (w m sc : ℚ) (hp : NearOrigin pc w m) (hsc : 0 < sc) (hsmall : SmallEnough sc w m) :
    ∃ q o' idx cells ch, normalisedF32 pc sc = .ok q ∧ q.points.length = pc.points.length ∧ (∀ v ∈ q.points, BelowTop v) ∧
      Octree.buildF32 nrm divF o q = .ok (o', idx) ∧ CellsOf o.batchSize o.depth o'.keys cells ∧ o'.children o.depth = some ch ∧ idx.length = pc.points.length ∧
      ∀ (i : Nat) (v : V3 ℚ) (b : Nat), q.points[i]? = some v → samples[i]? = some b →
        ∃ (r : Nat) (c : Cell), idx[i]? = some r ∧ (nonEmpty cells ch)[r]? = some c ∧ c.b = b ∧ NearlyContains (1 / 2 ^ 24) o.depth c v := by
  obtain ⟨q, h1, h2, h3, h4⟩ := C164_bound pc hne w m sc hp hsc
  have hw0 : 0 ≤ w := by
    obtain ⟨v, vs, h⟩ := List.exists_cons_of_ne_nil hne
    have := hp.apart.le v (by rw [h]; simp) v (by rw [h]; simp) .x
    simpa using this
  have hm0 : 0 ≤ m := by
    obtain ⟨v, vs, h⟩ := List.exists_cons_of_ne_nil hne
    exact (abs_nonneg _).trans (hp.far v (by rw [h]; simp) v (by rw [h]; simp) .x)
  have hlt := small_bound hw0 hm0 hsc hsmall
  have ht : ∀ v ∈ q.points, BelowTop v := fun v hv => belowTop_of fun a => lt_of_le_of_lt (h4 v hv a) hlt
  have hl : LegalBuild o q samples := by
    refine ⟨hD, hf, hB, ?_, ⟨by rw [hs.length, h3], hs.lt, ?_, ?_, ?_⟩, ?_⟩
    · rw [h2]; exact hb
    · rw [h2]; exact hs.ids
    · rw [h2]
      intro n hn
      show n.length = q.points.length
      rw [hs.normals n hn, h3]
    · rw [h2]
      intro f hf'
      show f.length = q.points.length
      rw [hs.features f hf', h3]
    · intro v hv
      obtain ⟨⟨a1, a2⟩, ⟨a3, a4⟩, ⟨a5, a6⟩⟩ := ht v hv
      exact ⟨⟨a1, by linarith⟩, ⟨a3, by linarith⟩, ⟨a5, by linarith⟩⟩
  obtain ⟨o', idx, cells, ch, g1, g2, g3, g4, g5⟩ := C97_partial nrm divF o q samples hl ht
  exact ⟨q, o', idx, cells, ch, h1, h3, ht, g1, g2, g3, g4.trans h3, g5⟩

/-! ### what fails -/

theorem isF32_pow (k : ℤ) : IsF32 ((2 : ℚ) ^ k) := ⟨1, k, by norm_num, by simp⟩

/-- what is added to a power of two is lost when it is less than half the spacing -/
theorem f32_absorb {n : ℕ} {e : ℚ} (h0 : 0 ≤ e) (h1 : e * 2 ^ 24 < 2 ^ n) : f32 (2 ^ n + e) = 2 ^ n := by
  have hp : (0 : ℚ) < 2 ^ n := by positivity
  have hl : Int.log 2 |(2 ^ n + e : ℚ)| = n := by
    rw [abs_of_pos (by positivity)]
    apply log_unique
    · rw [zpow_natCast]; linarith
    · rw [zpow_add₀ (by norm_num), zpow_natCast, zpow_one]; linarith
  unfold f32 ulp
  rw [hl]
  have hu : (2 : ℚ) ^ ((n : ℤ) - 23) = 2 ^ n / 2 ^ 23 := by
    rw [zpow_sub₀ (by norm_num), zpow_natCast]
    norm_num
  rw [hu]
  have e1 : (2 ^ n + e : ℚ) / (2 ^ n / 2 ^ 23) = ((2 ^ 23 : ℤ) : ℚ) + e * 2 ^ 23 / 2 ^ n := by
    push_cast
    field_simp
    ring
  have e2 : e * 2 ^ 23 / 2 ^ n < 1 / 2 := by
    rw [div_lt_iff₀ hp]; linarith
  have e3 : 0 ≤ e * 2 ^ 23 / 2 ^ n := by positivity
  have hfl : ⌊((2 ^ 23 : ℤ) : ℚ) + e * 2 ^ 23 / 2 ^ n⌋ = 2 ^ 23 := by
    rw [Int.floor_eq_iff]
    constructor <;> linarith
  rw [e1, rne, hfl, if_pos (by linarith)]
  push_cast
  field_simp
  norm_num

/-- Two points, at opposite corners of a cube of side `2^(k+1)`. -/
def cornerPair (k : Nat) : Points ℚ ℚ Unit := ⟨[⟨-2 ^ k, -2 ^ k, -2 ^ k⟩, ⟨2 ^ k, 2 ^ k, 2 ^ k⟩], none, none, none, none, 1, none, 0⟩

theorem cornerPair_normal {k : Nat} (hk : 4 ≤ k) :
    normalisedF32 (cornerPair k) 1 = .ok { cornerPair k with points := [⟨-1, -1, -1⟩, ⟨1, 1, 1⟩] } := by
  have hp : (0 : ℚ) < 2 ^ k := by positivity
  have hb : (cornerPair k).bbox = .ok (⟨-2 ^ k, -2 ^ k, -2 ^ k⟩, ⟨2 ^ k, 2 ^ k, 2 ^ k⟩) := by
    unfold Points.bbox cornerPair
    simp only [List.foldl_cons, List.foldl_nil]
    rw [min_eq_left (by linarith), max_eq_right (by linarith)]
  have hc : Points.centerF32 (-2 ^ k) (2 ^ k) = 0 := by
    unfold Points.centerF32
    rw [neg_add_cancel, f32_zero, zero_mul, f32_zero]
  have hs : f32 (2 ^ k - -2 ^ k) = 2 ^ (k + 1) := by
    have : (2 : ℚ) ^ k - -2 ^ k = 2 ^ ((k + 1 : ℕ) : ℤ) := by rw [zpow_natCast, pow_succ]; ring
    rw [this, f32_exact (isF32_pow _), zpow_natCast]
  have hbox : Points.boxSizeF32 ⟨-2 ^ k, -2 ^ k, -2 ^ k⟩ ⟨2 ^ k, 2 ^ k, 2 ^ k⟩ = 2 ^ (k + 1) := by
    unfold Points.boxSizeF32
    simp only [hs, max_self]
    refine f32_absorb (f32_nonneg (by norm_num)) ?_
    have h1 := f32_abs_le (1 / 10 ^ 6 : ℚ)
    have h2 := (le_abs_self _).trans h1
    rw [abs_of_pos (by norm_num)] at h2
    have h3 : (2 : ℚ) ^ 5 ≤ 2 ^ (k + 1) := pow_le_pow_right₀ (by norm_num) (by omega)
    linarith
  have hfac : Points.factorF32 ⟨-2 ^ k, -2 ^ k, -2 ^ k⟩ ⟨2 ^ k, 2 ^ k, 2 ^ k⟩ 1 = 2 ^ (-(k : ℤ)) := by
    unfold Points.factorF32
    rw [hbox]
    have e1 : (1 : ℚ) / 2 ^ (k + 1) = 2 ^ (-((k + 1 : ℕ) : ℤ)) := by rw [zpow_neg, zpow_natCast, one_div]
    have e2 : (2 : ℚ) * 1 = 2 ^ (1 : ℤ) := by norm_num
    rw [e1, f32_exact (isF32_pow _), e2, f32_exact (isF32_pow _), ← zpow_add₀ (by norm_num), f32_exact (isF32_pow _)]
    congr 1
    push_cast
    ring
  have hpos : f32 (f32 (2 ^ k - 0) * 2 ^ (-(k : ℤ))) = 1 := by
    have e1 : (2 : ℚ) ^ k - 0 = 2 ^ (k : ℤ) := by rw [zpow_natCast, sub_zero]
    rw [e1, f32_exact (isF32_pow _), ← zpow_add₀ (by norm_num), add_neg_cancel, f32_exact (isF32_pow _), zpow_zero]
  have hneg : f32 (f32 (-2 ^ k - 0) * 2 ^ (-(k : ℤ))) = -1 := by
    have e1 : -(2 : ℚ) ^ k - 0 = -2 ^ (k : ℤ) := by rw [zpow_natCast, sub_zero]
    have h1 : ∀ j : ℤ, IsF32 (-(2 : ℚ) ^ j) := fun j => ⟨-1, j, by norm_num, by simp⟩
    rw [e1, f32_exact (h1 _), neg_mul, ← zpow_add₀ (by norm_num), add_neg_cancel, f32_exact (h1 _), zpow_zero]
  unfold normalisedF32
  rw [hb]
  simp only [Points.normalizeF32, cornerPair, hc, hfac, List.map_cons, List.map_nil, hpos, hneg]

/-- **C164 does not hold for large clouds.** In single precision the two opposite corners of a cube of side 32, 64, 128, ... are normalised to `(-1, -1, -1)` and
`(1, 1, 1)`, on the faces of the cube, and building then stores both in the same leaf, whatever the depth. -/
theorem C164_violated_large (k : Nat) (hk : 4 ≤ k) (D full : Nat) (hD : D ≤ 16) (hf : full ≤ D) :
    ∃ (q : Points ℚ ℚ Unit) (o' : Octree ℚ) (idx : List Nat) (cells : List Cell) (ch : List Int), normalisedF32 (cornerPair k) 1 = .ok q ∧
      q.points = [⟨-1, -1, -1⟩, ⟨1, 1, 1⟩] ∧ Octree.buildF32 id (fun c v => v / c) (Octree.new D full 1 0) q = .ok (o', idx) ∧
      CellsOf 1 D o'.keys cells ∧ o'.children D = some ch ∧ ∀ c ∈ nonEmpty cells ch, c = ⟨0, 0, 0, 0⟩ := by
  have r1 : roundCoord 1 = 1 := by
    unfold roundCoord
    have : (1 : ℚ) + 1 = 2 ^ (1 : ℤ) := by norm_num
    rw [this, f32_exact (isF32_pow _)]; norm_num
  have r2 : roundCoord (-1) = -1 := by
    unfold roundCoord
    rw [neg_add_cancel, f32_zero]; norm_num
  obtain ⟨o', idx, cells, ch, h1, h2, h3, h4⟩ := C14_wraps (F := ℚ) (L := Unit) id (fun c v => v / c) (Octree.new D full 1 0)
    { cornerPair k with points := [⟨-1, -1, -1⟩, ⟨1, 1, 1⟩] } [0, 0]
    ⟨rfl, by simp [Octree.new], by simp [Octree.new], by simp [cornerPair], by simp [cornerPair]⟩ rfl hD hf (by simp [Octree.new])
    (by intro p hp; simp only [List.mem_cons, List.not_mem_nil, or_false] at hp; rcases hp with rfl | rfl <;> decide +kernel)
  refine ⟨_, o', idx, cells, ch, cornerPair_normal hk, rfl, ?_, h2, h3, ?_⟩
  · rw [buildF32_eq]
    simpa only [List.map_cons, List.map_nil, V3.map, r1, r2] using h1
  · intro c hc
    obtain ⟨i, p, hp, hb, hx, hy, hz⟩ := (h4 c).1 hc
    have hpt : [(⟨-1, -1, -1⟩ : V3 ℚ), ⟨1, 1, 1⟩].map (V3.map wrapFace) = [⟨-1, -1, -1⟩, ⟨-1, -1, -1⟩] := by decide +kernel
    rw [hpt] at hp
    have hp' : p = ⟨-1, -1, -1⟩ ∧ c.b = 0 := by
      rcases i with _ | _ | i
      · simp only [List.getElem?_cons_zero, Option.some.injEq] at hp hb
        exact ⟨hp.symm, hb.symm⟩
      · simp only [List.getElem?_cons_succ, List.getElem?_cons_zero, Option.some.injEq] at hp hb
        exact ⟨hp.symm, hb.symm⟩
      · simp at hp
    obtain ⟨rfl, hb0⟩ := hp'
    have hs0 : ∀ n : Nat, SideContains D n (-1) → n = 0 := by
      rintro n ⟨a1, -⟩
      by_contra hn
      have : (1 : ℚ) ≤ n := by exact_mod_cast Nat.one_le_iff_ne_zero.mpr hn
      have : (0 : ℚ) < 2 / 2 ^ D := by positivity
      nlinarith
    have ex := hs0 _ hx
    have ey := hs0 _ hy
    have ez := hs0 _ hz
    cases c
    simp only at ex ey ez hb0
    rw [ex, ey, ez, hb0]

/-- Two points far from the origin. -/
def farPair : Points ℚ ℚ Unit := ⟨[⟨2 ^ 24, 2 ^ 24, 2 ^ 24⟩, ⟨2 ^ 24 + 2, 2 ^ 24 + 2, 2 ^ 24 + 2⟩], none, none, none, none, 1, none, 0⟩

/-- **C164 does not hold far from the origin.** There is a cloud of two points with single precision coordinates that is normalised with scale 1 to a cloud with
coordinates above 1.99. -/
theorem C164_violated_far : (∀ v ∈ farPair.points, ∀ a : Points.Axis, IsF32 (v.along a)) ∧
    ∃ q, normalisedF32 farPair 1 = .ok q ∧ ∃ v ∈ q.points, ∀ a : Points.Axis, 199 / 100 < v.along a := by
  constructor
  · have h1 : IsF32 (2 ^ 24) := ⟨1, 24, by norm_num, by norm_num⟩
    have h2 : IsF32 (2 ^ 24 + 2) := ⟨2 ^ 23 + 1, 1, by norm_num, by norm_num⟩
    intro v hv a
    simp only [farPair, List.mem_cons, List.not_mem_nil, or_false] at hv
    rcases hv with rfl | rfl <;> cases a <;> assumption
  have hb : farPair.bbox = .ok (⟨2 ^ 24, 2 ^ 24, 2 ^ 24⟩, ⟨2 ^ 24 + 2, 2 ^ 24 + 2, 2 ^ 24 + 2⟩) := by
    unfold Points.bbox farPair
    simp only [List.foldl_cons, List.foldl_nil]
    rw [min_eq_left (by norm_num), max_eq_right (by norm_num)]
  have hc : Points.centerF32 (2 ^ 24) (2 ^ 24 + 2) = 2 ^ 24 := by
    unfold Points.centerF32
    have h1 := roundP_odd (p := 24) (by norm_num)
    rw [roundP_f32] at h1
    have h2 : (2 : ℚ) ^ 24 + (2 ^ 24 + 2) = (2 ^ 24 + 1) * 2 ^ (1 : ℤ) := by norm_num
    rw [h2, f32_scale, h1]
    have h3 : (2 : ℚ) ^ 24 * 2 ^ (1 : ℤ) * (1 / 2) = 2 ^ (24 : ℤ) := by norm_num
    rw [h3, f32_exact (isF32_pow _)]
    norm_num
  have f2 : f32 2 = 2 := by
    have : (2 : ℚ) = 2 ^ (1 : ℤ) := by norm_num
    rw [this, f32_exact (isF32_pow _)]
  have hd : (2 : ℚ) ^ 24 + 2 - 2 ^ 24 = 2 := by norm_num
  have he : f32 (1 / 10 ^ 6) ≤ 2 / 10 ^ 6 := by
    have h1 := (le_abs_self _).trans (f32_abs_le (1 / 10 ^ 6 : ℚ))
    rw [abs_of_pos (by norm_num)] at h1
    refine h1.trans (by norm_num)
  have he0 : 0 ≤ f32 (1 / 10 ^ 6) := f32_nonneg (by norm_num)
  have hbox : Points.boxSizeF32 ⟨2 ^ 24, 2 ^ 24, 2 ^ 24⟩ ⟨2 ^ 24 + 2, 2 ^ 24 + 2, 2 ^ 24 + 2⟩ ≤ 2001 / 1000 ∧
      1 < Points.boxSizeF32 ⟨2 ^ 24, 2 ^ 24, 2 ^ 24⟩ ⟨2 ^ 24 + 2, 2 ^ 24 + 2, 2 ^ 24 + 2⟩ := by
    unfold Points.boxSizeF32
    simp only [hd, f2, max_self]
    generalize f32 (1 / 10 ^ 6) = e at *
    constructor
    · have h1 := (le_abs_self _).trans (f32_abs_le (2 + e))
      rw [abs_of_pos (by linarith)] at h1
      linarith
    · have h1 := f32_ge (x := 2 + e) (by linarith)
      linarith
  have hfac : 998 / 1000 < Points.factorF32 ⟨2 ^ 24, 2 ^ 24, 2 ^ 24⟩ ⟨2 ^ 24 + 2, 2 ^ 24 + 2, 2 ^ 24 + 2⟩ 1 := by
    unfold Points.factorF32
    generalize Points.boxSizeF32 ⟨2 ^ 24, 2 ^ 24, 2 ^ 24⟩ ⟨2 ^ 24 + 2, 2 ^ 24 + 2, 2 ^ 24 + 2⟩ = B at *
    have h1 : (1000 / 2001 : ℚ) ≤ 1 / B := by
      rw [le_div_iff₀ (by linarith)]
      linarith [hbox.1]
    have h2 := f32_ge (x := 1 / B) (by linarith)
    rw [mul_one, f2]
    have h3 := f32_ge (x := f32 (1 / B) * 2) (by linarith)
    linarith
  refine ⟨_, by rw [normalisedF32, hb], ⟨f32 (2 * Points.factorF32 ⟨2 ^ 24, 2 ^ 24, 2 ^ 24⟩ ⟨2 ^ 24 + 2, 2 ^ 24 + 2, 2 ^ 24 + 2⟩ 1),
    f32 (2 * Points.factorF32 ⟨2 ^ 24, 2 ^ 24, 2 ^ 24⟩ ⟨2 ^ 24 + 2, 2 ^ 24 + 2, 2 ^ 24 + 2⟩ 1), f32 (2 * Points.factorF32 ⟨2 ^ 24, 2 ^ 24, 2 ^ 24⟩ ⟨2 ^ 24 + 2, 2 ^ 24 + 2, 2 ^ 24 + 2⟩ 1)⟩, ?_, ?_⟩
  · simp only [Points.normalizeF32, farPair, List.map_cons, List.map_nil, hc, hd, f2, List.mem_cons, true_or, or_true]
  · generalize Points.factorF32 ⟨2 ^ 24, 2 ^ 24, 2 ^ 24⟩ ⟨2 ^ 24 + 2, 2 ^ 24 + 2, 2 ^ 24 + 2⟩ 1 = g at *
    have h := f32_ge (x := 2 * g) (by linarith)
    have h' : 199 / 100 < f32 (2 * g) := by linarith
    intro a
    cases a <;> exact h'

/-- The hypotheses of `C164_partial` are met: a cloud of two points in a cube of side 1. -/
def smallPair : Points ℚ ℚ Unit := ⟨[⟨0, 1 / 4, 1 / 2⟩, ⟨1, 1, 3 / 4⟩], none, none, none, none, 1, none, 0⟩

theorem smallPair_within : NearOrigin smallPair 1 2 := by
  refine ⟨⟨?_, ⟨1, 1, 3 / 4⟩, by simp [smallPair], ⟨0, 1 / 4, 1 / 2⟩, by simp [smallPair], .x, ?_⟩, ?_⟩
  · intro u hu v hv a
    simp only [smallPair, List.mem_cons, List.not_mem_nil, or_false] at hu hv
    rcases hu with rfl | rfl <;> rcases hv with rfl | rfl <;> cases a <;> norm_num [V3.along]
  · norm_num [V3.along]
  · intro u hu v hv a
    simp only [smallPair, List.mem_cons, List.not_mem_nil, or_false] at hu hv
    rcases hu with rfl | rfl <;> rcases hv with rfl | rfl <;> cases a <;> norm_num [V3.along, abs_of_pos]

example : SmallEnough 1 1 2 := Or.inl ⟨rfl, by norm_num⟩

/-- a LiDAR scan: extent 200 metres around the origin, with scale 0.9 -/
example : SmallEnough (9 / 10) 200 400 := Or.inr ⟨by norm_num, by norm_num⟩

example : ∃ q o' idx, normalisedF32 smallPair 1 = .ok q ∧ (∀ v ∈ q.points, BelowTop v) ∧ Octree.buildF32 id (fun c v => v / c) (Octree.new 6 2 1 0) q = .ok (o', idx) ∧
    idx.length = 2 := by
  obtain ⟨q, o', idx, -, -, h1, -, h2, h3, -, -, h4, -⟩ := C164_partial id (fun c v => v / c) (Octree.new 6 2 1 0) smallPair [0, 0] (by simp [smallPair])
    (by simp [Octree.new]) (by simp [Octree.new]) (by simp [Octree.new]) rfl
    ⟨rfl, by simp [Octree.new], by simp [Octree.new], by simp [smallPair], by simp [smallPair]⟩ 1 2 1 smallPair_within (by norm_num) (Or.inl ⟨rfl, by norm_num⟩)
  exact ⟨q, o', idx, h1, h2, h3, h4⟩

end Ocnn
