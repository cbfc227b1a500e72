import Verif.ScanNet
import Mathlib.Tactic.Positivity
import Mathlib.Tactic.FieldSimp
import Mathlib.Tactic.Linarith
import Mathlib.Algebra.Order.Floor.Ring

/-! Lemmas about the elastic distortion of the ScanNet data. -/

namespace Ocnn

namespace Grid

/-- All entries are at most `B` in size. -/
def Bounded (g : Grid) (B : ℚ) : Prop := ∀ i j k, |g.get i j k| ≤ B

/-- Neighbouring entries along an axis differ by at most `D`. -/
def SlopeX (g : Grid) (D : ℚ) : Prop := ∀ i j k : Int, 0 ≤ i → i + 1 < g.nx → |g.get (i + 1) j k - g.get i j k| ≤ D
def SlopeY (g : Grid) (D : ℚ) : Prop := ∀ i j k : Int, 0 ≤ j → j + 1 < g.ny → |g.get i (j + 1) k - g.get i j k| ≤ D
def SlopeZ (g : Grid) (D : ℚ) : Prop := ∀ i j k : Int, 0 ≤ k → k + 1 < g.nz → |g.get i j (k + 1) - g.get i j k| ≤ D

theorem mean3 {a b c B : ℚ} (ha : |a| ≤ B) (hb : |b| ≤ B) (hc : |c| ≤ B) : |(a + b + c) / 3| ≤ B := by
  rw [abs_le] at *
  constructor <;> linarith [ha.1, ha.2, hb.1, hb.2, hc.1, hc.2]

theorem get_blurX (g : Grid) (i j k : Int) :
    g.blurX.get i j k = if g.InRange i j k then (g.get (i - 1) j k + g.get i j k + g.get (i + 1) j k) / 3 else 0 := rfl
theorem get_blurY (g : Grid) (i j k : Int) :
    g.blurY.get i j k = if g.InRange i j k then (g.get i (j - 1) k + g.get i j k + g.get i (j + 1) k) / 3 else 0 := rfl
theorem get_blurZ (g : Grid) (i j k : Int) :
    g.blurZ.get i j k = if g.InRange i j k then (g.get i j (k - 1) + g.get i j k + g.get i j (k + 1)) / 3 else 0 := rfl

theorem bounded_blurX {g : Grid} {B : ℚ} (hB : 0 ≤ B) (h : g.Bounded B) : g.blurX.Bounded B := by
  intro i j k
  rw [get_blurX]
  split
  · exact mean3 (h _ _ _) (h _ _ _) (h _ _ _)
  · simpa using hB

theorem bounded_blurY {g : Grid} {B : ℚ} (hB : 0 ≤ B) (h : g.Bounded B) : g.blurY.Bounded B := by
  intro i j k
  rw [get_blurY]
  split
  · exact mean3 (h _ _ _) (h _ _ _) (h _ _ _)
  · simpa using hB

theorem bounded_blurZ {g : Grid} {B : ℚ} (hB : 0 ≤ B) (h : g.Bounded B) : g.blurZ.Bounded B := by
  intro i j k
  rw [get_blurZ]
  split
  · exact mean3 (h _ _ _) (h _ _ _) (h _ _ _)
  · simpa using hB

theorem ends3 {a b c d B : ℚ} (ha : |a| ≤ B) (hd : |d| ≤ B) : |(b + c + d) / 3 - (a + b + c) / 3| ≤ 2 * B / 3 := by
  rw [abs_le] at *
  constructor <;> linarith [ha.1, ha.2, hd.1, hd.2]

theorem diff3 {a b c a' b' c' D : ℚ} (ha : |a' - a| ≤ D) (hb : |b' - b| ≤ D) (hc : |c' - c| ≤ D) :
    |(a' + b' + c') / 3 - (a + b + c) / 3| ≤ D := by
  rw [abs_le] at *
  constructor <;> linarith [ha.1, ha.2, hb.1, hb.2, hc.1, hc.2]

theorem slope_blurX {g : Grid} {B : ℚ} (hB : 0 ≤ B) (h : g.Bounded B) : g.blurX.SlopeX (2 * B / 3) := by
  intro i j k h0 h1
  change i + 1 < g.nx at h1
  rw [get_blurX, get_blurX]
  by_cases hr : g.InRange i j k
  · rw [if_pos hr, if_pos ⟨⟨by omega, h1⟩, hr.2⟩]
    have e : i + 1 - 1 = i := by omega
    rw [e]
    exact ends3 (h _ _ _) (h _ _ _)
  · rw [if_neg hr, if_neg (fun hc => hr ⟨⟨h0, by omega⟩, hc.2⟩)]
    simp only [sub_self, abs_zero]
    positivity

theorem slope_blurY {g : Grid} {B : ℚ} (hB : 0 ≤ B) (h : g.Bounded B) : g.blurY.SlopeY (2 * B / 3) := by
  intro i j k h0 h1
  change j + 1 < g.ny at h1
  rw [get_blurY, get_blurY]
  by_cases hr : g.InRange i j k
  · rw [if_pos hr, if_pos ⟨hr.1, ⟨by omega, h1⟩, hr.2.2⟩]
    have e : j + 1 - 1 = j := by omega
    rw [e]
    exact ends3 (h _ _ _) (h _ _ _)
  · rw [if_neg hr, if_neg (fun hc => hr ⟨hc.1, ⟨h0, by omega⟩, hc.2.2⟩)]
    simp only [sub_self, abs_zero]
    positivity

theorem slope_blurZ {g : Grid} {B : ℚ} (hB : 0 ≤ B) (h : g.Bounded B) : g.blurZ.SlopeZ (2 * B / 3) := by
  intro i j k h0 h1
  change k + 1 < g.nz at h1
  rw [get_blurZ, get_blurZ]
  by_cases hr : g.InRange i j k
  · rw [if_pos hr, if_pos ⟨hr.1, hr.2.1, by omega, h1⟩]
    have e : k + 1 - 1 = k := by omega
    rw [e]
    exact ends3 (h _ _ _) (h _ _ _)
  · rw [if_neg hr, if_neg (fun hc => hr ⟨hc.1, hc.2.1, h0, by omega⟩)]
    simp only [sub_self, abs_zero]
    positivity

theorem slopeX_blurY {g : Grid} {D : ℚ} (hD : 0 ≤ D) (h : g.SlopeX D) : g.blurY.SlopeX D := by
  intro i j k h0 h1
  change i + 1 < g.nx at h1
  rw [get_blurY, get_blurY]
  by_cases hr : g.InRange i j k
  · rw [if_pos hr, if_pos ⟨⟨by omega, h1⟩, hr.2⟩]
    exact diff3 (h _ _ _ h0 h1) (h _ _ _ h0 h1) (h _ _ _ h0 h1)
  · rw [if_neg hr, if_neg (fun hc => hr ⟨⟨h0, by omega⟩, hc.2⟩)]
    simpa using hD

theorem slopeX_blurZ {g : Grid} {D : ℚ} (hD : 0 ≤ D) (h : g.SlopeX D) : g.blurZ.SlopeX D := by
  intro i j k h0 h1
  change i + 1 < g.nx at h1
  rw [get_blurZ, get_blurZ]
  by_cases hr : g.InRange i j k
  · rw [if_pos hr, if_pos ⟨⟨by omega, h1⟩, hr.2⟩]
    exact diff3 (h _ _ _ h0 h1) (h _ _ _ h0 h1) (h _ _ _ h0 h1)
  · rw [if_neg hr, if_neg (fun hc => hr ⟨⟨h0, by omega⟩, hc.2⟩)]
    simpa using hD

theorem slopeY_blurZ {g : Grid} {D : ℚ} (hD : 0 ≤ D) (h : g.SlopeY D) : g.blurZ.SlopeY D := by
  intro i j k h0 h1
  change j + 1 < g.ny at h1
  rw [get_blurZ, get_blurZ]
  by_cases hr : g.InRange i j k
  · rw [if_pos hr, if_pos ⟨hr.1, ⟨by omega, h1⟩, hr.2.2⟩]
    exact diff3 (h _ _ _ h0 h1) (h _ _ _ h0 h1) (h _ _ _ h0 h1)
  · rw [if_neg hr, if_neg (fun hc => hr ⟨hc.1, ⟨h0, by omega⟩, hc.2.2⟩)]
    simpa using hD

/-- The smoothed noise is no larger than the noise, and has small slopes. -/
theorem smooth_spec {g : Grid} {B : ℚ} (hB : 0 ≤ B) (h : g.Bounded B) :
    g.smooth.Bounded B ∧ g.smooth.SlopeX (2 * B / 3) ∧ g.smooth.SlopeY (2 * B / 3) ∧ g.smooth.SlopeZ (2 * B / 3) := by
  have h3 := bounded_blurZ hB (bounded_blurY hB (bounded_blurX hB h))
  have h4 := bounded_blurX hB h3
  have h5 := bounded_blurY hB h4
  have hD : 0 ≤ 2 * B / 3 := by positivity
  exact ⟨bounded_blurZ hB h5, slopeX_blurZ hD (slopeX_blurY hD (slope_blurX hB h3)), slopeY_blurZ hD (slope_blurY hB h4), slope_blurZ hB h5⟩

end Grid

/-! ### Linear interpolation -/

/-- Interpolation of a sequence whose entry `i + 1` belongs to the number `i`. -/
def lin (φ : Int → ℚ) (s : ℚ) : ℚ := lerp (Int.fract s) (φ (⌊s⌋ + 1)) (φ (⌊s⌋ + 2))

theorem lerp_close {t a b a' b' E : ℚ} (h0 : 0 ≤ t) (h1 : t ≤ 1) (ha : |a - a'| ≤ E) (hb : |b - b'| ≤ E) : |lerp t a b - lerp t a' b'| ≤ E := by
  have e : lerp t a b - lerp t a' b' = (1 - t) * (a - a') + t * (b - b') := by unfold lerp; ring
  rw [e]
  calc |(1 - t) * (a - a') + t * (b - b')| ≤ |(1 - t) * (a - a')| + |t * (b - b')| := abs_add_le _ _
    _ = (1 - t) * |a - a'| + t * |b - b'| := by rw [abs_mul, abs_mul, abs_of_nonneg h0, abs_of_nonneg (by linarith : 0 ≤ 1 - t)]
    _ ≤ (1 - t) * E + t * E := add_le_add (mul_le_mul_of_nonneg_left ha (by linarith)) (mul_le_mul_of_nonneg_left hb h0)
    _ = E := by ring

theorem lin_close {φ ψ : Int → ℚ} {E : ℚ} (s : ℚ) (h : ∀ i, |φ i - ψ i| ≤ E) : |lin φ s - lin ψ s| ≤ E :=
  lerp_close (Int.fract_nonneg s) (Int.fract_lt_one s).le (h _) (h _)

theorem lin_bound {φ : Int → ℚ} {B : ℚ} (s : ℚ) (h : ∀ i, |φ i| ≤ B) : |lin φ s| ≤ B := by
  have := lin_close (φ := φ) (ψ := fun _ => 0) s (fun i => by simpa using h i)
  simpa [lin, lerp] using this

theorem steps_close {φ : Int → ℚ} {D : ℚ} {n : Int} (h : ∀ i, 0 ≤ i → i + 1 < n → |φ (i + 1) - φ i| ≤ D) (i : Int) (hi : 0 ≤ i) :
    ∀ m : Nat, i + m < n → |φ (i + m) - φ i| ≤ D * m := by
  intro m
  induction m with
  | zero => intro _; simp
  | succ m ih =>
    intro hm
    have h1 := ih (by push_cast at hm; omega)
    have h2 := h (i + m) (by omega) (by push_cast at hm; omega)
    have e : i + ((m + 1 : Nat) : Int) = i + m + 1 := by push_cast; ring
    rw [e]
    push_cast
    rw [abs_le] at *
    constructor <;> linarith [h1.1, h1.2, h2.1, h2.2]

theorem lin_slope_le {φ : Int → ℚ} {D : ℚ} {n : Int} (hD : 0 ≤ D) (h : ∀ i, 0 ≤ i → i + 1 < n → |φ (i + 1) - φ i| ≤ D) {s t : ℚ} (h0 : 0 ≤ s) (hst : s ≤ t)
    (ht : ⌊t⌋ + 2 < n) : |lin φ t - lin φ s| ≤ D * (t - s) := by
  have f0 : 0 ≤ ⌊s⌋ := Int.floor_nonneg.mpr h0
  have fm : ⌊s⌋ ≤ ⌊t⌋ := Int.floor_le_floor hst
  have es : (⌊s⌋ : ℚ) + Int.fract s = s := Int.floor_add_fract s
  have et : (⌊t⌋ : ℚ) + Int.fract t = t := Int.floor_add_fract t
  have ps := Int.fract_nonneg s
  have qs := (Int.fract_lt_one s).le
  have pt := Int.fract_nonneg t
  have e2 : ∀ f : Int, f + 2 = f + 1 + 1 := fun f => by ring
  unfold lin lerp
  rcases eq_or_lt_of_le fm with e | hlt
  · rw [← e] at et ht ⊢
    have hd := h (⌊s⌋ + 1) (by omega) (by omega)
    rw [e2]
    have : (1 - Int.fract t) * φ (⌊s⌋ + 1) + Int.fract t * φ (⌊s⌋ + 1 + 1) - ((1 - Int.fract s) * φ (⌊s⌋ + 1) + Int.fract s * φ (⌊s⌋ + 1 + 1)) =
        (t - s) * (φ (⌊s⌋ + 1 + 1) - φ (⌊s⌋ + 1)) := by
      have : Int.fract t - Int.fract s = t - s := by linarith
      rw [← this]; ring
    rw [this, abs_mul, abs_of_nonneg (by linarith : 0 ≤ t - s), mul_comm]
    exact mul_le_mul_of_nonneg_right hd (by linarith)
  · obtain ⟨m, hm⟩ := Int.eq_ofNat_of_zero_le (by omega : 0 ≤ ⌊t⌋ - ⌊s⌋ - 1)
    have hd1 := h (⌊s⌋ + 1) (by omega) (by omega)
    have hd3 := h (⌊t⌋ + 1) (by omega) (by omega)
    have hd2 := steps_close h (⌊s⌋ + 2) (by omega) m (by omega)
    have em : ⌊s⌋ + 2 + (m : Int) = ⌊t⌋ + 1 := by omega
    rw [em] at hd2
    rw [e2 ⌊t⌋]
    rw [e2 ⌊s⌋] at hd2 ⊢
    have emq : (m : ℚ) = ⌊t⌋ - ⌊s⌋ - 1 := by exact_mod_cast hm.symm
    rw [emq] at hd2
    generalize φ (⌊s⌋ + 1 + 1) = b at *
    generalize φ (⌊s⌋ + 1) = a at *
    generalize φ (⌊t⌋ + 1 + 1) = d at *
    generalize φ (⌊t⌋ + 1) = c at *
    have e : (1 - Int.fract t) * c + Int.fract t * d - ((1 - Int.fract s) * a + Int.fract s * b) = Int.fract t * (d - c) + (c - b) + (1 - Int.fract s) * (b - a) := by ring
    rw [e]
    calc _ ≤ |Int.fract t * (d - c) + (c - b)| + |(1 - Int.fract s) * (b - a)| := abs_add_le _ _
      _ ≤ |Int.fract t * (d - c)| + |c - b| + |(1 - Int.fract s) * (b - a)| := add_le_add (abs_add_le _ _) le_rfl
      _ = Int.fract t * |d - c| + |c - b| + (1 - Int.fract s) * |b - a| := by
          rw [abs_mul, abs_mul, abs_of_nonneg pt, abs_of_nonneg (by linarith : 0 ≤ 1 - Int.fract s)]
      _ ≤ Int.fract t * D + D * (⌊t⌋ - ⌊s⌋ - 1) + (1 - Int.fract s) * D :=
          add_le_add (add_le_add (mul_le_mul_of_nonneg_left hd3 pt) hd2) (mul_le_mul_of_nonneg_left hd1 (by linarith))
      _ = D * (t - s) := by
          have : t - s = Int.fract t + (⌊t⌋ - ⌊s⌋ - 1) + (1 - Int.fract s) := by linarith
          rw [this]; ring

theorem lin_slope {φ : Int → ℚ} {D : ℚ} {n : Int} (hD : 0 ≤ D) (h : ∀ i, 0 ≤ i → i + 1 < n → |φ (i + 1) - φ i| ≤ D) {s t : ℚ} (hs : 0 ≤ s ∧ ⌊s⌋ + 2 < n)
    (ht : 0 ≤ t ∧ ⌊t⌋ + 2 < n) : |lin φ s - lin φ t| ≤ D * |s - t| := by
  rcases le_total s t with hle | hle
  · rw [abs_sub_comm, abs_sub_comm s, abs_of_nonneg (by linarith : 0 ≤ t - s)]
    exact lin_slope_le hD h hs.1 hle ht.2
  · rw [abs_of_nonneg (by linarith : 0 ≤ s - t)]
    exact lin_slope_le hD h ht.1 hle hs.2

/-- Interpolation in three dimensions. -/
def tri (h : Int → Int → Int → ℚ) (s t u : ℚ) : ℚ := lin (fun i => lin (fun j => lin (fun k => h i j k) u) t) s

theorem tri_bound {h : Int → Int → Int → ℚ} {B : ℚ} (hB : ∀ i j k, |h i j k| ≤ B) (s t u : ℚ) : |tri h s t u| ≤ B :=
  lin_bound s fun i => lin_bound t fun j => lin_bound u fun k => hB i j k

theorem tri_slope (g : Grid) {D : ℚ} (hD : 0 ≤ D) (hx : g.SlopeX D) (hy : g.SlopeY D) (hz : g.SlopeZ D) {s t u s' t' u' : ℚ}
    (hs : 0 ≤ s ∧ ⌊s⌋ + 2 < g.nx) (ht : 0 ≤ t ∧ ⌊t⌋ + 2 < g.ny) (hu : 0 ≤ u ∧ ⌊u⌋ + 2 < g.nz)
    (hs' : 0 ≤ s' ∧ ⌊s'⌋ + 2 < g.nx) (ht' : 0 ≤ t' ∧ ⌊t'⌋ + 2 < g.ny) (hu' : 0 ≤ u' ∧ ⌊u'⌋ + 2 < g.nz) :
    |tri g.get s t u - tri g.get s' t' u'| ≤ D * (|s - s'| + |t - t'| + |u - u'|) := by
  have h1 : |tri g.get s t u - tri g.get s' t u| ≤ D * |s - s'| := by
    apply lin_slope hD _ hs hs'
    intro i h0 h1
    exact lin_close t fun j => lin_close u fun k => hx i j k h0 h1
  have h2 : |tri g.get s' t u - tri g.get s' t' u| ≤ D * |t - t'| := by
    apply lin_close s'
    intro i
    apply lin_slope hD _ ht ht'
    intro j h0 h1
    exact lin_close u fun k => hy i j k h0 h1
  have h3 : |tri g.get s' t' u - tri g.get s' t' u'| ≤ D * |u - u'| := by
    apply lin_close s'
    intro i
    apply lin_close t'
    intro j
    apply lin_slope hD _ hu hu'
    intro k h0 h1
    exact hz i j k h0 h1
  calc _ = |(tri g.get s t u - tri g.get s' t u) + (tri g.get s' t u - tri g.get s' t' u) + (tri g.get s' t' u - tri g.get s' t' u')| := by
          congr 1; ring
    _ ≤ _ := (abs_add_le _ _).trans (add_le_add (abs_add_le _ _) le_rfl)
    _ ≤ D * |s - s'| + D * |t - t'| + D * |u - u'| := add_le_add (add_le_add h1 h2) h3
    _ = _ := by ring

/-! ### The grid covers the points -/

/-- The position of a number on the grid along an axis. -/
theorem gridAxis_spec (lo hi gran x : ℚ) (hg : 0 < gran) (hx : lo ≤ x ∧ x ≤ hi) :
    (gridAxis lo hi gran).headD 0 ≤ x ∧ x ≤ (gridAxis lo hi gran).getLastD 0 ∧
      (interval (gridAxis lo hi gran) x : Int) = ⌊(x - lo) / gran⌋ + 1 ∧
      weight (gridAxis lo hi gran) (interval (gridAxis lo hi gran) x) x = Int.fract ((x - lo) / gran) ∧
      0 ≤ (x - lo) / gran ∧ ⌊(x - lo) / gran⌋ + 2 < (noiseDim lo hi gran : Int) := by
  have hs : 0 ≤ (x - lo) / gran := div_nonneg (by linarith) hg.le
  have hm : (x - lo) / gran ≤ (hi - lo) / gran := div_le_div_of_nonneg_right (by linarith) hg.le
  have f0 : 0 ≤ ⌊(x - lo) / gran⌋ := Int.floor_nonneg.mpr hs
  have fm : ⌊(x - lo) / gran⌋ ≤ ⌊(hi - lo) / gran⌋ := Int.floor_le_floor hm
  have hn : (noiseDim lo hi gran : Int) = ⌊(hi - lo) / gran⌋ + 3 := by
    unfold noiseDim
    rw [Int.toNat_of_nonneg (by omega)]
  have exs : x = lo + gran * ((x - lo) / gran) := by field_simp; ring
  generalize hsdef : (x - lo) / gran = s at *
  generalize hndef : noiseDim lo hi gran = n at *
  have hn3 : 3 ≤ n := by omega
  have hax : gridAxis lo hi gran = (List.range n).map fun i : Nat => lo + ((i : ℚ) - 1) * gran := by
    unfold gridAxis linspace
    rw [hndef]
    apply List.map_congr_left
    intro i _
    have hq : ((n - 1 : Nat) : ℚ) = (n : ℚ) - 1 := by rw [Nat.cast_sub (by omega)]; simp
    have hq0 : (n : ℚ) - 1 ≠ 0 := by
      have : (3 : ℚ) ≤ n := by exact_mod_cast hn3
      linarith
    rw [hq]
    field_simp
    ring
  have hget : ∀ i, i < n → (gridAxis lo hi gran).getD i 0 = lo + ((i : ℚ) - 1) * gran := by
    intro i hi
    rw [hax, List.getD_eq_getElem?_getD, List.getElem?_map, List.getElem?_range hi]
    rfl
  obtain ⟨f, hf⟩ := Int.eq_ofNat_of_zero_le f0
  have hcount : ((gridAxis lo hi gran).filter (· ≤ x)).length = f + 2 := by
    rw [hax, List.filter_map, List.length_map]
    have key : ∀ m : Nat, ((List.range m).filter ((fun y => decide (y ≤ x)) ∘ fun i : Nat => lo + ((i : ℚ) - 1) * gran)).length = min m (f + 2) := by
      intro m
      induction m with
      | zero => simp
      | succ m ih =>
        rw [List.range_succ, List.filter_append, List.length_append, ih]
        by_cases hle : m ≤ f + 1
        · have hc : lo + ((m : ℚ) - 1) * gran ≤ x := by
            have : ((m : ℚ) - 1) ≤ s := by
              have h1 : (((m : Int) - 1 : Int) : ℚ) ≤ s := Int.le_floor.mp (by rw [hf]; omega)
              push_cast at h1
              exact h1
            have := mul_le_mul_of_nonneg_right this hg.le
            linarith
          simp only [List.filter_cons, Function.comp, hc, decide_true, if_true, List.filter_nil, List.length_cons, List.length_nil]
          omega
        · have hc : ¬ lo + ((m : ℚ) - 1) * gran ≤ x := by
            rw [not_le]
            have : s < (m : ℚ) - 1 := by
              have h1 : s < (((m : Int) - 1 : Int) : ℚ) := Int.floor_lt.mp (by rw [hf]; omega)
              push_cast at h1
              exact h1
            have := mul_lt_mul_of_pos_right this hg
            linarith
          simp only [List.filter_cons, Function.comp, hc, decide_false, Bool.false_eq_true, if_false, List.filter_nil, List.length_nil]
          omega
    rw [key]
    omega
  have hlen : (gridAxis lo hi gran).length = n := by rw [hax]; simp
  have hint : interval (gridAxis lo hi gran) x = f + 1 := by
    unfold interval
    rw [hcount, hlen]
    omega
  refine ⟨?_, ?_, by rw [hint, hf]; rfl, ?_, hs, by omega⟩
  · have : (gridAxis lo hi gran).headD 0 = (gridAxis lo hi gran).getD 0 0 := by
      cases gridAxis lo hi gran <;> rfl
    rw [this, hget 0 (by omega)]
    push_cast
    linarith [hx.1]
  · have : (gridAxis lo hi gran).getLastD 0 = (gridAxis lo hi gran).getD (n - 1) 0 := by
      rw [← hlen, List.getLastD_eq_getLast?, List.getLast?_eq_getElem?, List.getD_eq_getElem?_getD]
    rw [this, hget (n - 1) (by omega)]
    have h1 : s ≤ (((n : Int) - 2 : Int) : ℚ) := by
      have h2 := (Int.lt_floor_add_one s).le
      refine h2.trans ?_
      have : ⌊s⌋ + 1 ≤ (n : Int) - 2 := by omega
      exact_mod_cast this
    have hq : ((n - 1 : Nat) : ℚ) = (n : ℚ) - 1 := by rw [Nat.cast_sub (by omega)]; simp
    rw [hq]
    push_cast at h1
    have := mul_le_mul_of_nonneg_right h1 hg.le
    linarith
  · rw [hint]
    unfold weight
    rw [hget (f + 1) (by omega), hget (f + 1 + 1) (by omega)]
    have hfq : (⌊s⌋ : ℚ) = f := by rw [hf]; simp
    have : Int.fract s = s - f := by rw [Int.fract, hfq]
    rw [this]
    have e : lo + (((f + 1 + 1 : Nat) : ℚ) - 1) * gran - (lo + (((f + 1 : Nat) : ℚ) - 1) * gran) = gran := by push_cast; ring
    rw [e, div_eq_iff hg.ne']
    push_cast
    linarith

/-- On the points the interpolator is the interpolation in three dimensions. -/
theorem gridInterp_tri (xl xh yl yh zl zh gran : ℚ) (g : Grid) (v : V3 ℚ) (hg : 0 < gran) (hx : xl ≤ v.x ∧ v.x ≤ xh) (hy : yl ≤ v.y ∧ v.y ≤ yh)
    (hz : zl ≤ v.z ∧ v.z ≤ zh) :
    gridInterp (gridAxis xl xh gran) (gridAxis yl yh gran) (gridAxis zl zh gran) g v =
      tri g.get ((v.x - xl) / gran) ((v.y - yl) / gran) ((v.z - zl) / gran) := by
  obtain ⟨x1, x2, x3, x4, -, -⟩ := gridAxis_spec xl xh gran v.x hg hx
  obtain ⟨y1, y2, y3, y4, -, -⟩ := gridAxis_spec yl yh gran v.y hg hy
  obtain ⟨z1, z2, z3, z4, -, -⟩ := gridAxis_spec zl zh gran v.z hg hz
  unfold gridInterp
  simp only [x1, x2, y1, y2, z1, z2, decide_true, Bool.and_self, if_true, x3, x4, y3, y4, z3, z4]
  unfold tri lin
  have e : ∀ f : Int, f + 1 + 1 = f + 2 := fun f => by ring
  simp only [e]

end Ocnn
