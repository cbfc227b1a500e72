import Verif.PropsPoints
import Mathlib.Tactic.Positivity
import Mathlib.Algebra.Order.Ring.Abs

/-! Property C160: normalising a cloud by its own bounding box. -/

set_option linter.unusedSimpArgs false

namespace Ocnn
open Spec
variable {K F L : Type}

namespace Spec

/-- The usual recipe: the cloud normalised by its own bounding box, `points.normalize(*points.bbox(), scale)`. -/
def normalised [Field K] [LinearOrder K] (p : Points K F L) (sc : K) : M (Points K F L) :=
  match p.bbox with
  | .ok (lo, hi) => .ok (p.normalize lo hi sc)
  | .error e => .error e

/-- Every point of the cloud moved by `t` and magnified by `s`, everything else as it is. -/
def magnified [Field K] (s : K) (t : V3 K) (p : Points K F L) : Points K F L :=
  { p with points := p.points.map fun v => ⟨s * v.x + t.x, s * v.y + t.y, s * v.z + t.z⟩ }

/-- The extent of a cloud is `w`: no two points are further apart than `w` along an axis, and two are `w` apart. -/
structure HasExtent [Field K] [LinearOrder K] (p : Points K F L) (w : K) : Prop where
  le : ∀ u ∈ p.points, ∀ v ∈ p.points, ∀ a : Points.Axis, u.along a - v.along a ≤ w
  attained : ∃ u ∈ p.points, ∃ v ∈ p.points, ∃ a : Points.Axis, u.along a - v.along a = w

end Spec

variable [Field K] [LinearOrder K] [IsStrictOrderedRing K]

theorem fold_min_similar (s : K) (hs : 0 < s) (t : V3 K) (vs : List (V3 K)) (v : V3 K) :
    (vs.map fun v => (⟨s * v.x + t.x, s * v.y + t.y, s * v.z + t.z⟩ : V3 K)).foldl
      (fun a b => ⟨min a.x b.x, min a.y b.y, min a.z b.z⟩) ⟨s * v.x + t.x, s * v.y + t.y, s * v.z + t.z⟩
    = (fun v : V3 K => (⟨s * v.x + t.x, s * v.y + t.y, s * v.z + t.z⟩ : V3 K))
        (vs.foldl (fun a b => ⟨min a.x b.x, min a.y b.y, min a.z b.z⟩) v) := by
  induction vs generalizing v with
  | nil => rfl
  | cons w vs ih =>
    rw [List.map_cons, List.foldl_cons, List.foldl_cons, ← ih]
    have h : ∀ a b c : K, min (s * a + c) (s * b + c) = s * min a b + c := by
      intro a b c
      rw [min_add_add_right, mul_min_of_nonneg _ _ hs.le]
    simp only [h]

theorem fold_max_similar (s : K) (hs : 0 < s) (t : V3 K) (vs : List (V3 K)) (v : V3 K) :
    (vs.map fun v => (⟨s * v.x + t.x, s * v.y + t.y, s * v.z + t.z⟩ : V3 K)).foldl
      (fun a b => ⟨max a.x b.x, max a.y b.y, max a.z b.z⟩) ⟨s * v.x + t.x, s * v.y + t.y, s * v.z + t.z⟩
    = (fun v : V3 K => (⟨s * v.x + t.x, s * v.y + t.y, s * v.z + t.z⟩ : V3 K))
        (vs.foldl (fun a b => ⟨max a.x b.x, max a.y b.y, max a.z b.z⟩) v) := by
  induction vs generalizing v with
  | nil => rfl
  | cons w vs ih =>
    rw [List.map_cons, List.foldl_cons, List.foldl_cons, ← ih]
    have h : ∀ a b c : K, max (s * a + c) (s * b + c) = s * max a b + c := by
      intro a b c
      rw [max_add_add_right, mul_max_of_nonneg _ _ hs.le]
    simp only [h]

theorem bbox_similar (s : K) (hs : 0 < s) (t : V3 K) (p : Points K F L) (lo hi : V3 K) (h : p.bbox = .ok (lo, hi)) :
    (magnified s t p).bbox = .ok (⟨s * lo.x + t.x, s * lo.y + t.y, s * lo.z + t.z⟩,
      ⟨s * hi.x + t.x, s * hi.y + t.y, s * hi.z + t.z⟩) := by
  unfold Points.bbox at h ⊢
  cases hp : p.points with
  | nil => rw [hp] at h; exact absurd h (by simp)
  | cons v vs =>
    rw [hp] at h
    simp only [Except.ok.injEq, Prod.mk.injEq] at h
    simp only [magnified, hp, List.map_cons]
    rw [fold_min_similar s hs t vs v, fold_max_similar s hs t vs v, h.1, h.2]

/-- the normalised cloud in closed form -/
theorem normalised_eq (p : Points K F L) (hne : p.points ≠ []) (sc w : K) (hw : HasExtent p w) :
    ∃ c : V3 K, (∀ a : Points.Axis, ∃ u ∈ p.points, ∃ v ∈ p.points, c.along a = (u.along a + v.along a) / 2 ∧
        ∀ q ∈ p.points, u.along a ≤ q.along a ∧ q.along a ≤ v.along a) ∧
      normalised p sc = .ok { p with points := p.points.map fun v =>
        ⟨2 * sc / (w + 1 / 10 ^ 6) * (v.x - c.x), 2 * sc / (w + 1 / 10 ^ 6) * (v.y - c.y),
          2 * sc / (w + 1 / 10 ^ 6) * (v.z - c.z)⟩ } := by
  obtain ⟨lo, hi, hb, hbox⟩ := C64_bbox p hne
  have hww : max (max (hi.x - lo.x) (hi.y - lo.y)) (hi.z - lo.z) = w := by
    apply le_antisymm
    · have : ∀ a : Points.Axis, hi.along a - lo.along a ≤ w := by
        intro a
        obtain ⟨_, ⟨u, hu, eu⟩, ⟨v, hv, ev⟩⟩ := hbox a
        rw [eu, ev]
        exact hw.le v hv u hu a
      exact max_le (max_le (this .x) (this .y)) (this .z)
    · obtain ⟨u, hu, v, hv, a, e⟩ := hw.attained
      have h1 := ((hbox a).1 u hu).2
      have h2 := ((hbox a).1 v hv).1
      have h3 : w ≤ hi.along a - lo.along a := by rw [← e]; linarith
      refine le_trans h3 ?_
      cases a
      · exact le_trans (le_max_left _ _) (le_max_left _ _)
      · exact le_trans (le_max_right _ _) (le_max_left _ _)
      · exact le_max_right _ _
  refine ⟨⟨(lo.x + hi.x) / 2, (lo.y + hi.y) / 2, (lo.z + hi.z) / 2⟩, ?_, ?_⟩
  · intro a
    obtain ⟨h0, ⟨u, hu, eu⟩, ⟨v, hv, ev⟩⟩ := hbox a
    refine ⟨u, hu, v, hv, ?_, ?_⟩
    · rw [← eu, ← ev]; cases a <;> rfl
    · intro q hq; rw [← eu, ← ev]; exact h0 q hq
  · unfold normalised
    rw [hb]
    simp only [Points.normalize, hww, V3.map, V3.add_x, V3.add_y, V3.add_z]
    congr 2
    apply List.map_congr_left
    intro v _
    ext <;> simp only <;> ring

/-- The extent exists and is unique. -/
theorem C160_extent (p : Points K F L) (hne : p.points ≠ []) : ∃! w, HasExtent p w := by
  obtain ⟨lo, hi, hb, hbox⟩ := C64_bbox p hne
  refine ⟨max (max (hi.x - lo.x) (hi.y - lo.y)) (hi.z - lo.z), ⟨?_, ?_⟩, ?_⟩
  · intro u hu v hv a
    have h1 := ((hbox a).1 u hu).2
    have h2 := ((hbox a).1 v hv).1
    have h3 : u.along a - v.along a ≤ hi.along a - lo.along a := by linarith
    refine le_trans h3 ?_
    cases a
    · exact le_trans (le_max_left _ _) (le_max_left _ _)
    · exact le_trans (le_max_right _ _) (le_max_left _ _)
    · exact le_max_right _ _
  · have : ∀ a : Points.Axis, ∃ u ∈ p.points, ∃ v ∈ p.points, u.along a - v.along a = hi.along a - lo.along a := by
      intro a
      obtain ⟨_, ⟨u, hu, eu⟩, ⟨v, hv, ev⟩⟩ := hbox a
      exact ⟨v, hv, u, hu, by rw [eu, ev]⟩
    rcases max_choice (max (hi.x - lo.x) (hi.y - lo.y)) (hi.z - lo.z) with h | h
    · rw [h]
      rcases max_choice (hi.x - lo.x) (hi.y - lo.y) with h | h
      · rw [h]; obtain ⟨u, hu, v, hv, e⟩ := this .x; exact ⟨u, hu, v, hv, .x, e⟩
      · rw [h]; obtain ⟨u, hu, v, hv, e⟩ := this .y; exact ⟨u, hu, v, hv, .y, e⟩
    · rw [h]; obtain ⟨u, hu, v, hv, e⟩ := this .z; exact ⟨u, hu, v, hv, .z, e⟩
  · intro w' hw'
    have hu : ∀ w₁ w₂, HasExtent p w₁ → HasExtent p w₂ → w₁ ≤ w₂ := by
      rintro w₁ w₂ h₁ h₂
      obtain ⟨u, hu, v, hv, a, e⟩ := h₁.attained
      rw [← e]; exact h₂.le u hu v hv a
    obtain ⟨c, _, _⟩ := normalised_eq p hne 1 w' hw'
    apply le_antisymm
    · obtain ⟨u, hu, v, hv, a, e⟩ := hw'.attained
      have h1 := ((hbox a).1 u hu).2
      have h2 := ((hbox a).1 v hv).1
      have h3 : w' ≤ hi.along a - lo.along a := by rw [← e]; linarith
      refine le_trans h3 ?_
      cases a
      · exact le_trans (le_max_left _ _) (le_max_left _ _)
      · exact le_trans (le_max_right _ _) (le_max_left _ _)
      · exact le_max_right _ _
    · have : ∀ a : Points.Axis, hi.along a - lo.along a ≤ w' := by
        intro a
        obtain ⟨_, ⟨u, hu, eu⟩, ⟨v, hv, ev⟩⟩ := hbox a
        rw [eu, ev]
        exact hw'.le v hv u hu a
      exact max_le (max_le (this .x) (this .y)) (this .z)

/-- **C160, position.** Moving a cloud changes nothing in the normalised cloud. -/
theorem C160_translate (p : Points K F L) (t : V3 K) (sc : K) :
    normalised (p.translate t) sc = normalised p sc := by
  by_cases hne : p.points = []
  · have : p.translate t = p := by
      cases p
      simp only at hne
      subst hne
      rfl
    rw [this]
  · obtain ⟨lo, hi, hb, -⟩ := C64_bbox p hne
    have he : p.translate t = magnified 1 t p := by
      unfold Points.translate magnified
      congr 1
      apply List.map_congr_left
      intro v _
      ext <;> simp
    rw [he]
    have hb' := bbox_similar 1 one_pos t p lo hi hb
    unfold normalised
    rw [hb, hb']
    simp only [Points.normalize, magnified, V3.map, V3.add_x, V3.add_y, V3.add_z, List.map_map, one_mul,
      add_sub_add_right_eq_sub]
    congr 2
    apply List.map_congr_left
    intro v _
    ext <;> simp only [Function.comp] <;> ring

/-- **C160, size.** Magnifying a cloud of extent `w` by `s > 0` multiplies the normalised cloud by
`s (w + ε) / (s w + ε)` with `ε = 10⁻⁶`. -/
theorem C160_scale (p : Points K F L) (s : K) (hs : 0 < s) (sc w : K) (hne : p.points ≠ []) (hw : HasExtent p w) :
    ∃ q, normalised p sc = .ok q ∧ normalised (magnified s ⟨0, 0, 0⟩ p) sc
      = .ok (magnified (s * (w + 1 / 10 ^ 6) / (s * w + 1 / 10 ^ 6)) ⟨0, 0, 0⟩ q) := by
  have hw0 : 0 ≤ w := by
    obtain ⟨v, vs, h⟩ := List.exists_cons_of_ne_nil hne
    have := hw.le v (by rw [h]; simp) v (by rw [h]; simp) .x
    simpa using this
  have hd : 0 < w + 1 / 10 ^ 6 := by positivity
  have hd' : 0 < s * w + 1 / 10 ^ 6 := by positivity
  obtain ⟨lo, hi, hb, -⟩ := C64_bbox p hne
  have hb' := bbox_similar s hs ⟨0, 0, 0⟩ p lo hi hb
  have hww : max (max (hi.x - lo.x) (hi.y - lo.y)) (hi.z - lo.z) = w := by
    obtain ⟨lo', hi', hb'', hbox⟩ := C64_bbox p hne
    rw [hb] at hb''
    obtain ⟨rfl, rfl⟩ := Prod.mk.inj (Except.ok.inj hb'')
    apply le_antisymm
    · have : ∀ a : Points.Axis, hi.along a - lo.along a ≤ w := by
        intro a
        obtain ⟨_, ⟨u, hu, eu⟩, ⟨v, hv, ev⟩⟩ := hbox a
        rw [eu, ev]
        exact hw.le v hv u hu a
      exact max_le (max_le (this .x) (this .y)) (this .z)
    · obtain ⟨u, hu, v, hv, a, e⟩ := hw.attained
      have h1 := ((hbox a).1 u hu).2
      have h2 := ((hbox a).1 v hv).1
      have h3 : w ≤ hi.along a - lo.along a := by rw [← e]; linarith
      refine le_trans h3 ?_
      cases a
      · exact le_trans (le_max_left _ _) (le_max_left _ _)
      · exact le_trans (le_max_right _ _) (le_max_left _ _)
      · exact le_max_right _ _
  have hww' : max (max (s * hi.x + 0 - (s * lo.x + 0)) (s * hi.y + 0 - (s * lo.y + 0))) (s * hi.z + 0 - (s * lo.z + 0))
      = s * w := by
    rw [← hww, mul_max_of_nonneg _ _ hs.le, mul_max_of_nonneg _ _ hs.le]
    congr 1
    · congr 1 <;> ring
    · ring
  refine ⟨p.normalize lo hi sc, by unfold normalised; rw [hb], ?_⟩
  unfold normalised
  rw [hb']
  simp only [Points.normalize, magnified, V3.map, V3.add_x, V3.add_y, V3.add_z, List.map_map, hww, hww']
  congr 2
  apply List.map_congr_left
  intro v _
  ext <;> simp only [Function.comp] <;> field_simp <;> ring

/-- **C160, how far the size matters.** For a cloud of extent `w` normalised to `[-scale, scale]`, magnifying it by `s`
moves no coordinate by more than `scale · |s - 1| · 10⁻⁶ / (s w + 10⁻⁶)`. -/
theorem C160_bound (p : Points K F L) (s : K) (hs : 0 < s) (sc w : K) (hsc : 0 < sc) (hne : p.points ≠ [])
    (hw : HasExtent p w) :
    ∃ q q', normalised p sc = .ok q ∧ normalised (magnified s ⟨0, 0, 0⟩ p) sc = .ok q' ∧
      q.points.length = q'.points.length ∧
      ∀ (i : Nat) (u v : V3 K), q.points[i]? = some u → q'.points[i]? = some v → ∀ a : Points.Axis,
        |v.along a - u.along a| ≤ sc * (|s - 1| * (1 / 10 ^ 6) / (s * w + 1 / 10 ^ 6)) := by
  obtain ⟨q, h1, h2⟩ := C160_scale p s hs sc w hne hw
  have hw0 : 0 ≤ w := by
    obtain ⟨v, vs, h⟩ := List.exists_cons_of_ne_nil hne
    have := hw.le v (by rw [h]; simp) v (by rw [h]; simp) .x
    simpa using this
  have hd : 0 < s * w + 1 / 10 ^ 6 := by positivity
  refine ⟨q, _, h1, h2, by simp [magnified], ?_⟩
  intro i u v hu hv a
  have hv' : v = ⟨s * (w + 1 / 10 ^ 6) / (s * w + 1 / 10 ^ 6) * u.x + 0,
      s * (w + 1 / 10 ^ 6) / (s * w + 1 / 10 ^ 6) * u.y + 0,
      s * (w + 1 / 10 ^ 6) / (s * w + 1 / 10 ^ 6) * u.z + 0⟩ := by
    simp only [magnified, List.getElem?_map, hu, Option.map_some, Option.some.injEq] at hv
    exact hv.symm
  obtain ⟨lo, hi, hb, -⟩ := C64_bbox p hne
  have hq : q = p.normalize lo hi sc := by
    unfold normalised at h1
    rw [hb] at h1
    exact (Except.ok.inj h1).symm
  obtain ⟨_, _, _, _, hbd⟩ := C64_normalize p lo hi sc hsc hne hb
  have hua := hbd u (by rw [← hq]; exact List.mem_of_getElem? hu) a
  have habs : |u.along a| ≤ sc := abs_le.mpr hua
  have hfac : s * (w + 1 / 10 ^ 6) / (s * w + 1 / 10 ^ 6) - 1 = (s - 1) * (1 / 10 ^ 6) / (s * w + 1 / 10 ^ 6) := by
    field_simp; ring
  have hdiff : v.along a - u.along a = (s - 1) * (1 / 10 ^ 6) / (s * w + 1 / 10 ^ 6) * u.along a := by
    rw [← hfac, hv']
    cases a <;> simp only [V3.along] <;> ring
  rw [hdiff, abs_mul, abs_div, abs_mul, abs_of_pos hd, abs_of_pos (show (0 : K) < 1 / 10 ^ 6 by positivity), mul_comm sc]
  exact mul_le_mul_of_nonneg_left habs (by positivity)

/-- **C160 is violated.** The normalised cloud does depend on the size of the cloud. -/
theorem C160_violated : ∃ p : Points ℚ Unit Unit, p.points ≠ [] ∧
    normalised (magnified 2 ⟨0, 0, 0⟩ p) 1 ≠ normalised p 1 := by
  refine ⟨⟨[⟨0, 0, 0⟩, ⟨1, 0, 0⟩], none, none, none, none, 1, none, 0⟩, by decide, ?_⟩
  intro h
  have := congrArg (fun m : M (Points ℚ Unit Unit) => match m with | .ok q => q.points | .error _ => []) h
  revert this
  decide +kernel

/-- C160 for moved clouds: normalising succeeds before and after the move, with the same result.  Missing: equality for
magnified clouds, which fails (`C160_violated`); how far it fails is `C160_bound`. -/
theorem C160_partial (p : Points K F L) (t : V3 K) (sc : K) (hne : p.points ≠ []) :
    ∃ q, normalised p sc = .ok q ∧ normalised (p.translate t) sc = .ok q := by
  obtain ⟨lo, hi, hb, -⟩ := C64_bbox p hne
  refine ⟨p.normalize lo hi sc, by unfold normalised; rw [hb], ?_⟩
  rw [C160_translate]
  unfold normalised
  rw [hb]

/-! ### the hypotheses are satisfiable -/

example : HasExtent (⟨[⟨0, 0, 0⟩, ⟨1, 2, 0⟩], none, none, none, none, 1, none, 0⟩ : Points ℚ Unit Unit) 2 := by
  refine ⟨?_, ⟨1, 2, 0⟩, by simp, ⟨0, 0, 0⟩, by simp, .y, by norm_num [V3.along]⟩
  intro u hu v hv a
  simp only [List.mem_cons, List.not_mem_nil, or_false] at hu hv
  rcases hu with rfl | rfl <;> rcases hv with rfl | rfl <;> cases a <;> norm_num [V3.along]

example : (match normalised (⟨[⟨0, 0, 0⟩, ⟨1, 2, 0⟩], none, none, none, none, 1, none, 0⟩ : Points ℚ Unit Unit) 1 with
    | .ok q => q.points.map (fun v => (v.y < 1, v.y < -999999 / 1000000)) | .error _ => [])
    = [(True, True), (True, False)] := by
  norm_num [normalised, Points.bbox, Points.normalize, V3.map]

end Ocnn
