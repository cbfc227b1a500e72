import Verif.ScanNet
import Verif.PropsCompletion
import Verif.ElasticLemmas
import Mathlib.Tactic.Positivity
import Mathlib.Tactic.FieldSimp

/-! Theorems about the ScanNet data: C102-C104. -/

namespace Ocnn

open Spec

/-! ## C102 -/

theorem channelRange_ok (c : List ℚ) (h : c ≠ []) :
    ∃ lo hi, channelRange c = .ok (lo, hi) ∧ (∀ v ∈ c, lo ≤ v ∧ v ≤ hi) ∧ lo ∈ c ∧ hi ∈ c := by
  obtain ⟨v, vs, rfl⟩ := List.exists_cons_of_ne_nil h
  clear h
  have key : ∀ (vs : List ℚ) (v : ℚ), (∀ w ∈ v :: vs, vs.foldl min v ≤ w) ∧ vs.foldl min v ∈ v :: vs ∧
      (∀ w ∈ v :: vs, w ≤ vs.foldl max v) ∧ vs.foldl max v ∈ v :: vs := by
    intro vs
    induction vs with
    | nil => intro v; simp
    | cons u vs ih =>
      intro v
      obtain ⟨a1, a2, -, -⟩ := ih (min v u)
      obtain ⟨-, -, b1, b2⟩ := ih (max v u)
      simp only [List.foldl_cons]
      refine ⟨?_, ?_, ?_, ?_⟩
      · intro w hw
        have := a1 (min v u) (by simp)
        simp only [List.mem_cons] at hw
        rcases hw with rfl | rfl | hw
        · exact this.trans (min_le_left _ _)
        · exact this.trans (min_le_right _ _)
        · exact a1 w (by simp [hw])
      · rcases List.mem_cons.mp a2 with e | e
        · rw [e]
          rcases min_choice v u with h | h <;> rw [h] <;> simp
        · simp [e]
      · intro w hw
        have := b1 (max v u) (by simp)
        simp only [List.mem_cons] at hw
        rcases hw with rfl | rfl | hw
        · exact (le_max_left _ _).trans this
        · exact (le_max_right _ _).trans this
        · exact b1 w (by simp [hw])
      · rcases List.mem_cons.mp b2 with e | e
        · rw [e]
          rcases max_choice v u with h | h <;> rw [h] <;> simp
        · simp [e]
  obtain ⟨h1, h2, h3, h4⟩ := key vs v
  exact ⟨_, _, rfl, fun w hw => ⟨h1 w hw, h3 w hw⟩, h2, h4⟩

namespace Spec

/-- Every colour has numbers in `[0, 1]`. -/
def Colours (l : List (V3 ℚ)) : Prop := ∀ v ∈ l, ∀ ax : Points.Axis, 0 ≤ v.along ax ∧ v.along ax ≤ 1

/-- The colours are not all almost black: some channel of some colour is more than 1 of 255. -/
def Bright (l : List (V3 ℚ)) : Prop := ∃ v ∈ l, ∃ ax : Points.Axis, 1 < v.along ax * 255

/-- A channel takes at least two values. -/
def Varies (l : List (V3 ℚ)) (ax : Points.Axis) : Prop := ∃ u ∈ l, ∃ v ∈ l, u.along ax < v.along ax

/-- A row of numbers. -/
def numeric (v : V3 ℚ) : V3 (Option ℚ) := ⟨some v.x, some v.y, some v.z⟩

end Spec

/-- One value of the result. -/
def colorOne (d : ColorDraw) (ratio std lo hi u v n : ℚ) : MaybeNum :=
  (colorJitter d std n (colorShift d ratio u (contrast d.blend lo hi v))).map (· / 255)

theorem colorRow_along (d : ColorDraw) (ratio std : ℚ) (lo hi v n : V3 ℚ) (ax : Points.Axis) :
    (colorRow d ratio std lo hi v n).along ax = colorOne d ratio std (lo.along ax) (hi.along ax) (d.shift.along ax) (v.along ax) (n.along ax) := by
  cases ax <;> rfl

/-- The run of `color_distort` up to the rows. -/
theorem colorDistort_rows (d : ColorDraw) (ratio std : ℚ) (color : List (V3 ℚ)) (hne : color ≠ []) (hb : Bright color)
    (hn : d.noise.length = color.length) :
    ∃ lo hi : V3 ℚ, (∀ ax : Points.Axis, (∀ v ∈ color, lo.along ax ≤ v.along ax * 255 ∧ v.along ax * 255 ≤ hi.along ax) ∧
        (∃ v ∈ color, lo.along ax = v.along ax * 255) ∧ (∃ v ∈ color, hi.along ax = v.along ax * 255)) ∧
      colorDistort d ratio std color = .ok (List.zipWith (fun v n => colorRow d ratio std lo hi (v.map (· * 255)) n) color d.noise) := by
  have hm : ∀ f : V3 ℚ → ℚ, (color.map fun v => v.map (· * 255)).map f ≠ [] := by simpa using hne
  obtain ⟨xl, xh, x1, x2, x3, x4⟩ := channelRange_ok _ (hm V3.x)
  obtain ⟨yl, yh, y1, y2, y3, y4⟩ := channelRange_ok _ (hm V3.y)
  obtain ⟨zl, zh, z1, z2, z3, z4⟩ := channelRange_ok _ (hm V3.z)
  have hal : ∀ ax : Points.Axis, (∀ v ∈ color, (V3.mk xl yl zl).along ax ≤ v.along ax * 255 ∧ v.along ax * 255 ≤ (V3.mk xh yh zh).along ax) ∧
        (∃ v ∈ color, (V3.mk xl yl zl).along ax = v.along ax * 255) ∧ (∃ v ∈ color, (V3.mk xh yh zh).along ax = v.along ax * 255) := by
    have mem : ∀ (f : V3 ℚ → ℚ) (a : ℚ), a ∈ (color.map fun v => v.map (· * 255)).map f → ∃ v ∈ color, a = f (v.map (· * 255)) := by
      intro f a ha
      rw [List.map_map] at ha
      obtain ⟨v, hv, rfl⟩ := List.mem_map.mp ha
      exact ⟨v, hv, rfl⟩
    have bnd : ∀ (f : V3 ℚ → ℚ) (l h : ℚ), (∀ v ∈ (color.map fun v => v.map (· * 255)).map f, l ≤ v ∧ v ≤ h) →
        ∀ v ∈ color, l ≤ f (v.map (· * 255)) ∧ f (v.map (· * 255)) ≤ h := by
      intro f l h hb v hv
      exact hb _ (by rw [List.map_map]; exact List.mem_map.mpr ⟨v, hv, rfl⟩)
    intro ax
    cases ax
    · exact ⟨bnd V3.x xl xh x2, mem V3.x xl x3, mem V3.x xh x4⟩
    · exact ⟨bnd V3.y yl yh y2, mem V3.y yl y3, mem V3.y yh y4⟩
    · exact ⟨bnd V3.z zl zh z2, mem V3.z zl z3, mem V3.z zh z4⟩
  refine ⟨⟨xl, yl, zl⟩, ⟨xh, yh, zh⟩, hal, ?_⟩
  have hgt : max (max xh yh) zh > 1 := by
    obtain ⟨v, hv, ax, h⟩ := hb
    have h2 := ((hal ax).1 v hv).2
    have : (V3.mk xh yh zh).along ax ≤ max (max xh yh) zh := by
      cases ax
      · exact (le_max_left _ _).trans (le_max_left _ _)
      · exact (le_max_right _ _).trans (le_max_left _ _)
      · exact le_max_right _ _
    linarith
  unfold colorDistort
  simp only [bind, Except.bind, x1, y1, z1, pyAssert, if_pos hgt, List.length_map, hn, ne_eq, not_true_eq_false, if_false, pure, Except.pure,
    List.zipWith_map_left]

theorem contrast_range (b lo hi v : ℚ) (hb : 0 ≤ b ∧ b ≤ 1) (h0 : 0 ≤ lo) (h255 : hi ≤ 255) (hlt : lo < hi) (hv : lo ≤ v ∧ v ≤ hi) :
    ∃ w, contrast b lo hi v = some w ∧ 0 ≤ w ∧ w ≤ 255 := by
  have hd : 0 < hi - lo := by linarith
  refine ⟨_, if_neg hd.ne', ?_, ?_⟩
  · have h1 : 0 ≤ (v - lo) * (255 / (hi - lo)) := mul_nonneg (by linarith) (by positivity)
    have h2 : 0 ≤ (1 - b) * v := mul_nonneg (by linarith) (by linarith)
    have h3 := mul_nonneg hb.1 h1
    linarith
  · have h1 : (v - lo) * (255 / (hi - lo)) ≤ 255 := by
      rw [mul_div_assoc', div_le_iff₀ hd]
      nlinarith
    have h2 : (1 - b) * v ≤ (1 - b) * 255 := mul_le_mul_of_nonneg_left (by linarith) (by linarith)
    have h3 := mul_le_mul_of_nonneg_left h1 hb.1
    linarith

theorem clip255_range (w : ℚ) : ∃ u, clip255 (some w) = some u ∧ 0 ≤ u ∧ u ≤ 255 :=
  ⟨_, rfl, le_min (le_max_right _ _) (by norm_num), min_le_right _ _⟩

theorem colorOne_range (d : ColorDraw) (ratio std lo hi u v n : ℚ) (hb : 0 ≤ d.blend ∧ d.blend ≤ 1) (h0 : 0 ≤ lo) (h255 : hi ≤ 255) (hlt : lo < hi)
    (hv : lo ≤ v ∧ v ≤ hi) : ∃ w, colorOne d ratio std lo hi u v n = some w ∧ 0 ≤ w ∧ w ≤ 1 := by
  obtain ⟨a, e1, a1, a2⟩ := contrast_range d.blend lo hi v hb h0 h255 hlt hv
  have s2 : ∃ b, colorShift d ratio u (some a) = some b ∧ 0 ≤ b ∧ b ≤ 255 := by
    unfold colorShift
    split
    · exact clip255_range _
    · exact ⟨a, rfl, a1, a2⟩
  obtain ⟨b, e2, b1, b2⟩ := s2
  have s3 : ∃ c, colorJitter d std n (some b) = some c ∧ 0 ≤ c ∧ c ≤ 255 := by
    unfold colorJitter
    split
    · exact clip255_range _
    · exact ⟨b, rfl, b1, b2⟩
  obtain ⟨c, e3, c1, c2⟩ := s3
  refine ⟨c / 255, by rw [colorOne, e1, e2, e3]; rfl, by positivity, by rw [div_le_one (by norm_num)]; exact c2⟩

/-- **C102.** If every channel takes at least two values and not everything is almost black, the augmented colours are numbers in `[0, 1]`, one colour per point.
Missing: clouds with a constant channel, for which the property fails (`C102_violated`), and almost black clouds, which raise (`C102_dark`). -/
theorem C102_partial (d : ColorDraw) (ratio std : ℚ) (color : List (V3 ℚ)) (hne : color ≠ []) (hc : Colours color) (hb : Bright color)
    (hv : ∀ ax, Varies color ax) (hd : 0 ≤ d.blend ∧ d.blend ≤ 1) (hn : d.noise.length = color.length) :
    ∃ rows : List (V3 ℚ), colorDistort d ratio std color = .ok (rows.map numeric) ∧ rows.length = color.length ∧ Colours rows := by
  obtain ⟨lo, hi, h1, h2⟩ := colorDistort_rows d ratio std color hne hb hn
  have key : ∀ v ∈ color, ∀ n, ∃ w : V3 ℚ, colorRow d ratio std lo hi (v.map (· * 255)) n = numeric w ∧ ∀ ax : Points.Axis, 0 ≤ w.along ax ∧ w.along ax ≤ 1 := by
    intro v hv' n
    have one : ∀ ax : Points.Axis, ∃ w, colorOne d ratio std (lo.along ax) (hi.along ax) (d.shift.along ax) ((v.map (· * 255)).along ax) (n.along ax) = some w ∧
        0 ≤ w ∧ w ≤ 1 := by
      intro ax
      obtain ⟨b1, ⟨p, hp, ep⟩, ⟨q, hq, eq⟩⟩ := h1 ax
      obtain ⟨s, hs, t, ht, hst⟩ := hv ax
      have e : (v.map (· * 255)).along ax = v.along ax * 255 := by cases ax <;> rfl
      rw [e]
      refine colorOne_range d ratio std _ _ _ _ _ hd ?_ ?_ ?_ (b1 v hv')
      · rw [ep]; have := (hc p hp ax).1; positivity
      · rw [eq]; have := (hc q hq ax).2; linarith
      · have := (b1 s hs).1
        have := (b1 t ht).2
        linarith
    obtain ⟨x, x1, x2⟩ := one .x
    obtain ⟨y, y1, y2⟩ := one .y
    obtain ⟨z, z1, z2⟩ := one .z
    refine ⟨⟨x, y, z⟩, ?_, fun ax => by cases ax; exacts [x2, y2, z2]⟩
    have hx := colorRow_along d ratio std lo hi (v.map (· * 255)) n .x
    have hy := colorRow_along d ratio std lo hi (v.map (· * 255)) n .y
    have hz := colorRow_along d ratio std lo hi (v.map (· * 255)) n .z
    rw [x1] at hx
    rw [y1] at hy
    rw [z1] at hz
    ext1
    exacts [hx, hy, hz]
  rw [h2]
  clear h2
  generalize d.noise = ns at hn
  have : ∀ (l : List (V3 ℚ)) (ns : List (V3 ℚ)), ns.length = l.length → (∀ v ∈ l, v ∈ color) →
      ∃ rows : List (V3 ℚ), List.zipWith (fun v n => colorRow d ratio std lo hi (v.map (· * 255)) n) l ns = rows.map numeric ∧ rows.length = l.length ∧ Colours rows := by
    intro l
    induction l with
    | nil => intro ns _ _; exact ⟨[], by simp, rfl, by intro v hv; cases hv⟩
    | cons v l ih =>
      intro ns hl hm
      obtain ⟨n, ns, rfl⟩ : ∃ a b, ns = a :: b := by
        cases ns with
        | nil => simp at hl
        | cons a b => exact ⟨a, b, rfl⟩
      obtain ⟨rows, r1, r2, r3⟩ := ih ns (by simpa using hl) fun u hu => hm u (by simp [hu])
      obtain ⟨w, w1, w2⟩ := key v (hm v (by simp)) n
      refine ⟨w :: rows, by rw [List.zipWith_cons_cons, w1, r1, List.map_cons], by simp [r2], ?_⟩
      intro u hu
      rcases List.mem_cons.mp hu with rfl | hu
      · exact w2
      · exact r3 u hu
  obtain ⟨rows, r1, r2, r3⟩ := this color ns hn fun v hv => hv
  exact ⟨rows, by rw [r1], r2, r3⟩

/-- **C102 is violated** by every cloud with a constant channel: whatever is drawn, that channel is not a number for any point. -/
theorem C102_violated (d : ColorDraw) (ratio std : ℚ) (color : List (V3 ℚ)) (hne : color ≠ []) (hb : Bright color) (ax : Points.Axis)
    (hv : ¬ Varies color ax) (hn : d.noise.length = color.length) :
    ∃ rows, colorDistort d ratio std color = .ok rows ∧ rows.length = color.length ∧ ∀ w ∈ rows, w.along ax = none := by
  obtain ⟨lo, hi, h1, h2⟩ := colorDistort_rows d ratio std color hne hb hn
  refine ⟨_, h2, by simp [hn], ?_⟩
  obtain ⟨b1, ⟨p, hp, ep⟩, ⟨q, hq, eq⟩⟩ := h1 ax
  have e : hi.along ax - lo.along ax = 0 := by
    rw [ep, eq]
    by_contra hc
    have h3 := (b1 q hq).1
    rw [ep, eq] at *
    exact hv ⟨p, hp, q, hq, lt_of_le_of_ne (by linarith) fun h => hc (by rw [h]; ring)⟩
  intro w hw
  obtain ⟨i, hi', rfl⟩ := List.getElem_of_mem hw
  rw [List.getElem_zipWith, colorRow_along]
  have : ∀ v, contrast d.blend (lo.along ax) (hi.along ax) v = none := fun v => if_pos e
  unfold colorOne
  rw [this]
  unfold colorJitter colorShift clip255
  split <;> split <;> rfl

/-- C102: colours that are all almost black raise AssertionError. -/
theorem C102_dark (d : ColorDraw) (ratio std : ℚ) (color : List (V3 ℚ)) (hne : color ≠ []) (hb : ¬ Bright color) :
    colorDistort d ratio std color = .error .assertion := by
  have hm : ∀ f : V3 ℚ → ℚ, (color.map fun v => v.map (· * 255)).map f ≠ [] := by simpa using hne
  obtain ⟨xl, xh, x1, x2, x3, x4⟩ := channelRange_ok _ (hm V3.x)
  obtain ⟨yl, yh, y1, y2, y3, y4⟩ := channelRange_ok _ (hm V3.y)
  obtain ⟨zl, zh, z1, z2, z3, z4⟩ := channelRange_ok _ (hm V3.z)
  have small : ∀ (ax : Points.Axis) (a : ℚ), a ∈ (color.map fun v => v.map (· * 255)).map (fun v => v.along ax) → a ≤ 1 := by
    intro ax a ha
    rw [List.map_map] at ha
    obtain ⟨v, hv, rfl⟩ := List.mem_map.mp ha
    by_contra hc
    refine hb ⟨v, hv, ax, ?_⟩
    rw [not_le] at hc
    cases ax <;> exact hc
  have hgt : ¬ max (max xh yh) zh > 1 := by
    rw [gt_iff_lt, not_lt]
    exact max_le (max_le (small .x _ x4) (small .y _ y4)) (small .z _ z4)
  unfold colorDistort
  simp only [bind, Except.bind, x1, y1, z1, pyAssert, if_neg hgt]

theorem clip255_mono {a b : ℚ} (h : a ≤ b) : min (max a 0) 255 ≤ min (max b 0) 255 := min_le_min_right _ (max_le_max_right _ h)

/-- **C102, order.** Without jitter a channel keeps its order: of two points the one with the larger value does not get the smaller one. -/
theorem C102_order (d : ColorDraw) (ratio std : ℚ) (color : List (V3 ℚ)) (hne : color ≠ []) (hb : Bright color) (hd : 0 ≤ d.blend ∧ d.blend ≤ 1)
    (hn : d.noise.length = color.length) (hj : 95 / 100 ≤ d.coin') (rows : List (V3 ℚ)) (hr : colorDistort d ratio std color = .ok (rows.map numeric))
    (ax : Points.Axis) (i j : Nat) (u v u' v' : V3 ℚ) (hu : color[i]? = some u) (hv : color[j]? = some v) (hu' : rows[i]? = some u') (hv' : rows[j]? = some v')
    (hle : u.along ax ≤ v.along ax) : u'.along ax ≤ v'.along ax := by
  obtain ⟨lo, hi, h1, h2⟩ := colorDistort_rows d ratio std color hne hb hn
  rw [h2] at hr
  have hr := Except.ok.inj hr
  have val : ∀ (i : Nat) (u u' : V3 ℚ), color[i]? = some u → rows[i]? = some u' → ∃ n : ℚ,
      colorOne d ratio std (lo.along ax) (hi.along ax) (d.shift.along ax) (u.along ax * 255) n = some (u'.along ax) := by
    intro i u u' h h'
    have hi' : i < d.noise.length := by rw [hn]; exact (List.getElem?_eq_some_iff.mp h).1
    have e := congrArg (fun l => (l[i]?)) hr
    simp only [List.getElem?_zipWith, h, List.getElem?_eq_getElem hi', List.getElem?_map, h', Option.map_some, Option.some.injEq] at e
    refine ⟨(d.noise[i]).along ax, ?_⟩
    have e' := congrArg (fun w => w.along ax) e
    simp only [colorRow_along] at e'
    have : (u.map (· * 255)).along ax = u.along ax * 255 := by cases ax <;> rfl
    rw [this] at e'
    rw [e']
    cases ax <;> rfl
  obtain ⟨n, e1⟩ := val i u u' hu hu'
  obtain ⟨n', e2⟩ := val j v v' hv hv'
  unfold colorOne colorJitter at e1 e2
  rw [if_neg (by linarith)] at e1 e2
  have b := (h1 ax).1
  have bu := b u (List.mem_of_getElem? hu)
  generalize lo.along ax = l at *
  generalize hi.along ax = h at *
  unfold contrast at e1 e2
  by_cases hz : h - l = 0
  · rw [if_pos hz] at e1
    unfold colorShift clip255 at e1
    split at e1 <;> cases e1
  · rw [if_neg hz] at e1 e2
    have hpos : 0 < h - l := lt_of_le_of_ne (by linarith [bu.1, bu.2]) (Ne.symm hz)
    have mono : (1 - d.blend) * (u.along ax * 255) + d.blend * ((u.along ax * 255 - l) * (255 / (h - l))) ≤
        (1 - d.blend) * (v.along ax * 255) + d.blend * ((v.along ax * 255 - l) * (255 / (h - l))) := by
      apply add_le_add
      · exact mul_le_mul_of_nonneg_left (by linarith) (by linarith)
      · exact mul_le_mul_of_nonneg_left (mul_le_mul_of_nonneg_right (by linarith) (by positivity)) hd.1
    unfold colorShift clip255 at e1 e2
    split at e1
    · rename_i hcoin
      rw [if_pos hcoin] at e2
      simp only [Option.map_some, Option.some.injEq] at e1 e2
      rw [← e1, ← e2]
      exact div_le_div_of_nonneg_right (clip255_mono (by linarith)) (by norm_num)
    · rename_i hcoin
      rw [if_neg hcoin] at e2
      simp only [Option.map_some, Option.some.injEq] at e1 e2
      rw [← e1, ← e2]
      exact div_le_div_of_nonneg_right mono (by norm_num)

/-- Colours that meet the hypotheses of `C102_partial`, and the result for a full stretch of the contrast without shift and jitter; a constant channel. -/
example : ((colorDistort ⟨1, 1, ⟨0, 0, 0⟩, 1, [⟨0, 0, 0⟩, ⟨0, 0, 0⟩]⟩ (1 / 10) (5 / 100) [⟨1 / 5, 1 / 2, 0⟩, ⟨3 / 5, 1 / 4, 1⟩]).toOption =
    some [⟨some 0, some 1, some 0⟩, ⟨some 1, some 0, some 1⟩]) ∧
    ((colorDistort ⟨0, 1, ⟨0, 0, 0⟩, 1, [⟨0, 0, 0⟩, ⟨0, 0, 0⟩]⟩ (1 / 10) (5 / 100) [⟨1 / 5, 1 / 2, 0⟩, ⟨1 / 5, 1 / 4, 1⟩]).toOption =
    some [⟨none, some (1 / 2), some 0⟩, ⟨none, some (1 / 4), some 1⟩]) := by
  constructor <;> decide +kernel

example : Colours [⟨1 / 5, 1 / 2, 0⟩, ⟨3 / 5, 1 / 4, 1⟩] ∧ Bright [⟨1 / 5, 1 / 2, 0⟩, ⟨3 / 5, 1 / 4, 1⟩] ∧ (∀ ax, Varies [⟨1 / 5, 1 / 2, 0⟩, ⟨3 / 5, 1 / 4, 1⟩] ax) ∧
    ¬ Varies [⟨1 / 5, 1 / 2, 0⟩, ⟨1 / 5, 1 / 4, 1⟩] .x := by
  refine ⟨?_, ⟨⟨1 / 5, 1 / 2, 0⟩, by simp, .x, by norm_num [V3.along]⟩, ?_, ?_⟩
  · intro v hv ax
    simp only [List.mem_cons, List.not_mem_nil, or_false] at hv
    rcases hv with rfl | rfl <;> cases ax <;> norm_num [V3.along]
  · intro ax
    cases ax
    · exact ⟨⟨1 / 5, 1 / 2, 0⟩, by simp, ⟨3 / 5, 1 / 4, 1⟩, by simp, by norm_num [V3.along]⟩
    · exact ⟨⟨3 / 5, 1 / 4, 1⟩, by simp, ⟨1 / 5, 1 / 2, 0⟩, by simp, by norm_num [V3.along]⟩
    · exact ⟨⟨1 / 5, 1 / 2, 0⟩, by simp, ⟨3 / 5, 1 / 4, 1⟩, by simp, by norm_num [V3.along]⟩
  · rintro ⟨u, hu, v, hv, h⟩
    simp only [List.mem_cons, List.not_mem_nil, or_false] at hu hv
    rcases hu with rfl | rfl <;> rcases hv with rfl | rfl <;> norm_num [V3.along] at h

/-! ## C103 -/

namespace Spec

/-- All numbers of an array of random vectors are at most `B` in size. -/
def AtMost (noise : V3 (Int → Int → Int → ℚ)) (B : ℚ) : Prop := ∀ i j k, |noise.x i j k| ≤ B ∧ |noise.y i j k| ≤ B ∧ |noise.z i j k| ≤ B

/-- The distance of two points: the sum of the distances along the axes. -/
def apart (u v : V3 ℚ) : ℚ := |u.x - v.x| + |u.y - v.y| + |u.z - v.z|

/-- A cloud moved point by point, in order, each point by at most `E` along every axis. -/
def MovedBy (E : ℚ) (pts out : List (V3 ℚ)) : Prop :=
  out.length = pts.length ∧ ∀ (i : Nat) (v w : V3 ℚ), pts[i]? = some v → out[i]? = some w → ∀ ax : Points.Axis, |w.along ax - v.along ax| ≤ E

/-- The displacement changes by at most `L` times the distance from a point to another. -/
def Smooth (L : ℚ) (pts out : List (V3 ℚ)) : Prop :=
  ∀ (i j : Nat) (v w v' w' : V3 ℚ), pts[i]? = some v → out[i]? = some w → pts[j]? = some v' → out[j]? = some w' →
    ∀ ax : Points.Axis, |(w.along ax - v.along ax) - (w'.along ax - v'.along ax)| ≤ L * apart v v'

end Spec

/-- The interpolated component of the noise at a point, on the grid over a box. -/
theorem interp_spec (xl xh yl yh zl zh gran B : ℚ) (hg : 0 < gran) (hB : 0 ≤ B) (f : Int → Int → Int → ℚ) (hf : ∀ i j k, |f i j k| ≤ B) :
    let g := Grid.smooth ⟨noiseDim xl xh gran, noiseDim yl yh gran, noiseDim zl zh gran, f⟩
    let I := gridInterp (gridAxis xl xh gran) (gridAxis yl yh gran) (gridAxis zl zh gran) g
    let In := fun v : V3 ℚ => (xl ≤ v.x ∧ v.x ≤ xh) ∧ (yl ≤ v.y ∧ v.y ≤ yh) ∧ (zl ≤ v.z ∧ v.z ≤ zh)
    (∀ v, In v → |I v| ≤ B) ∧ (∀ v v', In v → In v' → |I v - I v'| ≤ 2 * B / (3 * gran) * apart v v') := by
  intro g I In
  have hb : (⟨noiseDim xl xh gran, noiseDim yl yh gran, noiseDim zl zh gran, f⟩ : Grid).Bounded B := by
    intro i j k
    unfold Grid.get
    split
    · exact hf i j k
    · simpa using hB
  obtain ⟨s1, s2, s3, s4⟩ := Grid.smooth_spec hB hb
  have eI : ∀ v, In v → I v = tri g.get ((v.x - xl) / gran) ((v.y - yl) / gran) ((v.z - zl) / gran) := fun v hv =>
    gridInterp_tri xl xh yl yh zl zh gran g v hg hv.1 hv.2.1 hv.2.2
  constructor
  · intro v hv
    rw [eI v hv]
    exact tri_bound s1 _ _ _
  · intro v v' hv hv'
    rw [eI v hv, eI v' hv']
    obtain ⟨-, -, -, -, x1, x2⟩ := gridAxis_spec xl xh gran v.x hg hv.1
    obtain ⟨-, -, -, -, y1, y2⟩ := gridAxis_spec yl yh gran v.y hg hv.2.1
    obtain ⟨-, -, -, -, z1, z2⟩ := gridAxis_spec zl zh gran v.z hg hv.2.2
    obtain ⟨-, -, -, -, x1', x2'⟩ := gridAxis_spec xl xh gran v'.x hg hv'.1
    obtain ⟨-, -, -, -, y1', y2'⟩ := gridAxis_spec yl yh gran v'.y hg hv'.2.1
    obtain ⟨-, -, -, -, z1', z2'⟩ := gridAxis_spec zl zh gran v'.z hg hv'.2.2
    have := tri_slope g (by positivity : (0 : ℚ) ≤ 2 * B / 3) s2 s3 s4 ⟨x1, x2⟩ ⟨y1, y2⟩ ⟨z1, z2⟩ ⟨x1', x2'⟩ ⟨y1', y2'⟩ ⟨z1', z2'⟩
    refine this.trans (le_of_eq ?_)
    have e : ∀ a b l : ℚ, |(a - l) / gran - (b - l) / gran| = |a - b| / gran := by
      intro a b l
      rw [← sub_div, abs_div, abs_of_pos hg]
      congr 2
      ring
    rw [e, e, e, apart]
    field_simp

/-- **C103, one pass.** A pass of the elastic distortion accepts every non-empty cloud; it moves each point, in order, by at most the magnitude times the largest random number along
every axis, and smoothly: from point to point the displacement changes by at most `2/3` of that per grid spacing. -/
theorem C103_pass (gran mag B : ℚ) (noise : V3 (Int → Int → Int → ℚ)) (pts : List (V3 ℚ)) (hg : 0 < gran) (hne : pts ≠ []) (hn : AtMost noise B) :
    ∃ out, elasticStep gran mag noise pts = .ok out ∧ MovedBy (|mag| * B) pts out ∧ Smooth (|mag| * (2 * B / (3 * gran))) pts out := by
  have hB : 0 ≤ B := (abs_nonneg _).trans (hn 0 0 0).1
  have hm : ∀ f : V3 ℚ → ℚ, pts.map f ≠ [] := by simpa using hne
  obtain ⟨xl, xh, x1, x2, -, -⟩ := channelRange_ok _ (hm V3.x)
  obtain ⟨yl, yh, y1, y2, -, -⟩ := channelRange_ok _ (hm V3.y)
  obtain ⟨zl, zh, z1, z2, -, -⟩ := channelRange_ok _ (hm V3.z)
  have hin : ∀ v ∈ pts, (xl ≤ v.x ∧ v.x ≤ xh) ∧ (yl ≤ v.y ∧ v.y ≤ yh) ∧ (zl ≤ v.z ∧ v.z ≤ zh) := fun v hv =>
    ⟨x2 _ (List.mem_map_of_mem hv), y2 _ (List.mem_map_of_mem hv), z2 _ (List.mem_map_of_mem hv)⟩
  obtain ⟨bx, sx⟩ := interp_spec xl xh yl yh zl zh gran B hg hB noise.x fun i j k => (hn i j k).1
  obtain ⟨by', sy⟩ := interp_spec xl xh yl yh zl zh gran B hg hB noise.y fun i j k => (hn i j k).2.1
  obtain ⟨bz, sz⟩ := interp_spec xl xh yl yh zl zh gran B hg hB noise.z fun i j k => (hn i j k).2.2
  refine ⟨_, (by unfold elasticStep; simp only [bind, Except.bind, x1, y1, z1, pure, Except.pure]; rfl), ⟨by simp, ?_⟩, ?_⟩
  · intro i v w hv hw ax
    have hvm := hin v (List.mem_of_getElem? hv)
    rw [List.getElem?_map, hv] at hw
    cases hw
    have one : ∀ a I : ℚ, |I| ≤ B → |a + I * mag - a| ≤ |mag| * B := by
      intro a I hI
      rw [add_sub_cancel_left, abs_mul, mul_comm]
      exact mul_le_mul_of_nonneg_left hI (abs_nonneg _)
    cases ax
    exacts [one _ _ (bx v hvm), one _ _ (by' v hvm), one _ _ (bz v hvm)]
  · intro i j v w v' w' hv hw hv' hw' ax
    have hvm := hin v (List.mem_of_getElem? hv)
    have hvm' := hin v' (List.mem_of_getElem? hv')
    rw [List.getElem?_map, hv] at hw
    rw [List.getElem?_map, hv'] at hw'
    cases hw
    cases hw'
    have one : ∀ a a' I I' : ℚ, |I - I'| ≤ 2 * B / (3 * gran) * apart v v' →
        |(a + I * mag - a) - (a' + I' * mag - a')| ≤ |mag| * (2 * B / (3 * gran)) * apart v v' := by
      intro a a' I I' hI
      have e : (a + I * mag - a) - (a' + I' * mag - a') = mag * (I - I') := by ring
      rw [e, abs_mul, mul_assoc]
      exact mul_le_mul_of_nonneg_left hI (abs_nonneg _)
    cases ax
    exacts [one _ _ _ _ (sx v v' hvm hvm'), one _ _ _ _ (sy v v' hvm hvm'), one _ _ _ _ (sz v v' hvm hvm')]

/-- **C103.** The elastic distortion with any number of passes accepts every non-empty cloud, and moves each point, in order, by at most the sum over the passes of the magnitude times
the largest random number; with the coin at 0.95 or above nothing moves. -/
theorem C103_elastic (coin : ℚ) (params : List (ℚ × ℚ × V3 (Int → Int → Int → ℚ))) (bounds : List ℚ) (hlen : bounds.length = params.length)
    (hp : ∀ (i : Nat) p B, params[i]? = some p → bounds[i]? = some B → 0 < p.1 ∧ AtMost p.2.2 B) (pts : List (V3 ℚ)) (hne : pts ≠ []) :
    (coin < 95 / 100 → ∃ out, elasticDistort coin params pts = .ok out ∧ MovedBy (List.zipWith (fun p B => |p.2.1| * B) params bounds).sum pts out) ∧
    (95 / 100 ≤ coin → elasticDistort coin params pts = .ok pts) := by
  constructor
  · intro hc
    unfold elasticDistort
    rw [if_pos hc]
    induction params generalizing pts bounds with
    | nil =>
      refine ⟨pts, rfl, rfl, ?_⟩
      intro i v w hv hw ax
      rw [hv] at hw
      cases hw
      simp
    | cons p ps ih =>
      obtain ⟨B, bs, rfl⟩ : ∃ B bs, bounds = B :: bs := by
        cases bounds with
        | nil => simp at hlen
        | cons a b => exact ⟨a, b, rfl⟩
      obtain ⟨g1, g2⟩ := hp 0 p B rfl rfl
      obtain ⟨mid, m1, ⟨m2, m3⟩, -⟩ := C103_pass p.1 p.2.1 B p.2.2 pts g1 hne g2
      obtain ⟨out, o1, o2, o3⟩ := ih bs (by simpa using hlen) (fun i q C hq hC => hp (i + 1) q C (by simpa using hq) (by simpa using hC)) mid
        (by intro h; rw [h] at m2; exact hne (List.length_eq_zero_iff.mp m2.symm))
      refine ⟨out, ?_, by rw [o2, m2], ?_⟩
      · rw [List.foldlM_cons, m1]
        exact o1
      · intro i v w hv hw ax
        have hi : i < mid.length := by rw [m2]; exact (List.getElem?_eq_some_iff.mp hv).1
        have a1 := m3 i v _ hv (List.getElem?_eq_getElem hi) ax
        have a2 := o3 i _ w (List.getElem?_eq_getElem hi) hw ax
        rw [List.zipWith_cons_cons, List.sum_cons]
        rw [abs_le] at *
        constructor <;> linarith [a1.1, a1.2, a2.1, a2.2]
  · intro hc
    unfold elasticDistort
    rw [if_neg (by linarith)]
    rfl

/-- C103: the empty cloud raises ValueError as soon as there is a pass. -/
theorem C103_empty (coin : ℚ) (p : ℚ × ℚ × V3 (Int → Int → Int → ℚ)) (ps : List (ℚ × ℚ × V3 (Int → Int → Int → ℚ))) (hc : coin < 95 / 100) :
    elasticDistort coin (p :: ps) [] = .error .value := by
  unfold elasticDistort
  rw [if_pos hc]
  rfl

/-- A pass with grid spacing 1 over two points; along the third axis the noise is 1 in the first layer only. -/
example : ((elasticStep 1 1 ⟨fun _ _ _ => 1, fun _ _ _ => 0, fun i _ _ => if i = 0 then 1 else 0⟩ [⟨0, 0, 0⟩, ⟨5 / 2, 0, 0⟩]).toOption =
    some [⟨392 / 729, 0, 98 / 729⟩, ⟨2141 / 729, 0, 0⟩]) := by decide +kernel

/-! ## C104 -/

namespace Spec

/-- The position in a room, in units of 10.24 metres: relative to the middle of the box along the first two axes, to the height 0.5 along the third. -/
def inRoom (ctr v : V3 ℚ) : V3 ℚ := ⟨(v.x - ctr.x) / 10.24, (v.y - ctr.y) / 10.24, (v.z - 0.5) / 10.24⟩

/-- Colours as stored, from 0 to 255. -/
def Bytes (l : List (V3 ℚ)) : Prop := ∀ v ∈ l, ∀ ax : Points.Axis, 0 ≤ v.along ax ∧ v.along ax ≤ 255

/-- The stored colours as numbers in `[0, 1]`. -/
def unit (l : List (V3 ℚ)) : List (V3 ℚ) := l.map fun v => ⟨v.x / 255, v.y / 255, v.z / 255⟩

end Spec

theorem scanNetNormalize_ok (xyz : List (V3 ℚ)) (hne : xyz ≠ []) : ∃ ctr, BoxCentre xyz ctr ∧ scanNetNormalize xyz = .ok (xyz.map (inRoom ctr)) := by
  have hm : ∀ f : V3 ℚ → ℚ, xyz.map f ≠ [] := by simpa using hne
  obtain ⟨xl, xh, x1, x2, x3, x4⟩ := channelRange_ok _ (hm V3.x)
  obtain ⟨yl, yh, y1, y2, y3, y4⟩ := channelRange_ok _ (hm V3.y)
  obtain ⟨zl, zh, z1, z2, z3, z4⟩ := channelRange_ok _ (hm V3.z)
  have mid : ∀ (f : V3 ℚ → ℚ) (l h : ℚ), (∀ v ∈ xyz.map f, l ≤ v ∧ v ≤ h) → l ∈ xyz.map f → h ∈ xyz.map f →
      ∃ lo ∈ xyz, ∃ hi ∈ xyz, (∀ v ∈ xyz, f lo ≤ f v ∧ f v ≤ f hi) ∧ (l + h) / 2 = (f lo + f hi) / 2 := by
    intro f l h hb hl hh
    obtain ⟨a, ha, rfl⟩ := List.mem_map.mp hl
    obtain ⟨b, hb', rfl⟩ := List.mem_map.mp hh
    exact ⟨a, ha, b, hb', fun v hv => hb _ (List.mem_map_of_mem hv), rfl⟩
  refine ⟨⟨(xl + xh) / 2, (yl + yh) / 2, (zl + zh) / 2⟩, ⟨fun ax => ?_⟩, ?_⟩
  · cases ax
    exacts [mid V3.x xl xh x2 x3 x4, mid V3.y yl yh y2 y3 y4, mid V3.z zl zh z2 z3 z4]
  · unfold scanNetNormalize
    simp only [bind, Except.bind, x1, y1, z1, pure, Except.pure]
    congr 1
    apply List.map_congr_left
    intro v _
    simp only [V3.map, inRoom]
    norm_num

/-- **C104.** A scene with one normal, colour and label per point is prepared without exception (with augmentation: if its colours meet the conditions of C102).  The points are the
positions in the room, with augmentation displaced by at most `0.2 B₁ + 0.8 B₂` for random numbers of size at most `B₁`, `B₂` in the two passes, then moved by the transform; exactly
those that end strictly inside `(-0.99, 0.99)³` are kept, in order, each with its colour in `[0, 1]` and its label. -/
theorem C104_scannet (rt cosF sinF : ℚ → ℚ) (t : Transform) (r : Drawn) (hs : Sensible t) (hr : InRanges t r) (d : ColorDraw) (coin B₁ B₂ : ℚ)
    (noise : V3 (Int → Int → Int → ℚ) × V3 (Int → Int → Int → ℚ)) (h₁ : AtMost noise.1 B₁) (h₂ : AtMost noise.2 B₂)
    (xyz normals colors : List (V3 ℚ)) (labels : List Int) (hne : xyz ≠ []) (hn : normals.length = xyz.length) (hc : colors.length = xyz.length)
    (hl : labels.length = xyz.length) (hb : Bytes colors)
    (hd : t.distort = true → Bright (unit colors) ∧ (∀ ax, Varies (unit colors) ax) ∧ (0 ≤ d.blend ∧ d.blend ≤ 1) ∧ d.noise.length = colors.length) :
    ∃ (ctr a : V3 ℚ) (pts cols : List (V3 ℚ)) (q : Points ℚ (V3 MaybeNum) Int) (mask : List Bool),
      BoxCentre xyz ctr ∧ t.rndAngle r = .ok a ∧ scanNetCall rt cosF sinF t r d coin noise xyz normals colors labels = .ok (q, mask) ∧
      MovedBy (if t.distort ∧ coin < 0.95 then 0.2 * B₁ + 0.8 * B₂ else 0) (xyz.map (inRoom ctr)) pts ∧
      cols.length = xyz.length ∧ Colours cols ∧ (t.distort = false → cols = unit colors) ∧
      (t.distort = true → colorDistort d 0.1 0.05 (unit colors) = .ok (cols.map numeric)) ∧
      mask.length = xyz.length ∧
      (∀ (i : Nat) (v : V3 ℚ), pts[i]? = some v → (mask[i]? = some true ↔ ∀ ax : Points.Axis,
        -0.99 < (placed t r cosF sinF a v).along ax ∧ (placed t r cosF sinF a v).along ax < 0.99)) ∧
      q.points = rowsAt (pts.map (placed t r cosF sinF a)) (positions mask) ∧
      q.features = some (rowsAt (cols.map numeric) (positions mask)) ∧ q.labels = some (rowsAt labels (positions mask)) ∧
      q.normals.isSome = true ∧ q.batchId = none ∧ q.batchSize = 1 ∧ Aligned q := by
  obtain ⟨ctr, c1, c2⟩ := scanNetNormalize_ok xyz hne
  have hun : (colors.map fun v : V3 ℚ => v.map (· / 255)) = unit colors := rfl
  have hul : (unit colors).length = xyz.length := by rw [unit, List.length_map, hc]
  have hu : Colours (unit colors) := by
    intro w hw ax
    obtain ⟨v, hv, rfl⟩ := List.mem_map.mp hw
    have := hb v hv ax
    cases ax <;> exact ⟨div_nonneg this.1 (by norm_num), (div_le_one (by norm_num)).mpr this.2⟩
  obtain ⟨cols, k1, k2, k3, k4, k5⟩ : ∃ cols : List (V3 ℚ),
      (if t.distort then colorDistort d (1 / 10) (5 / 100) (unit colors) else pure ((unit colors).map fun v => ⟨some v.x, some v.y, some v.z⟩) : M (List (V3 MaybeNum))) =
        .ok (cols.map numeric) ∧ cols.length = xyz.length ∧ Colours cols ∧ (t.distort = false → cols = unit colors) ∧
      (t.distort = true → colorDistort d 0.1 0.05 (unit colors) = .ok (cols.map numeric)) := by
    by_cases hdt : t.distort = true
    · obtain ⟨d1, d2, d3, d4⟩ := hd hdt
      obtain ⟨rows, r1, r2, r3⟩ := C102_partial d (1 / 10) (5 / 100) (unit colors) (by intro h; rw [h] at hul; exact hne (List.length_eq_zero_iff.mp hul.symm))
        hu d1 d2 d3 (by rw [d4, hc, hul])
      refine ⟨rows, by rw [if_pos hdt]; exact r1, by rw [r2, hul], r3, fun h => (by rw [hdt] at h; cases h), fun _ => ?_⟩
      rw [← r1]
      norm_num
    · exact ⟨unit colors, by rw [if_neg hdt]; rfl, hul, hu, fun _ => rfl, fun h => absurd h hdt⟩
  obtain ⟨pts, e1, e2⟩ : ∃ pts : List (V3 ℚ),
      (if t.distort then elasticDistort coin [(1 / 10, 2 / 10, noise.1), (4 / 10, 8 / 10, noise.2)] (xyz.map (inRoom ctr)) else pure (xyz.map (inRoom ctr)) : M (List (V3 ℚ))) =
        .ok pts ∧ MovedBy (if t.distort ∧ coin < 0.95 then 0.2 * B₁ + 0.8 * B₂ else 0) (xyz.map (inRoom ctr)) pts := by
    have still : MovedBy 0 (xyz.map (inRoom ctr)) (xyz.map (inRoom ctr)) := by
      refine ⟨rfl, fun i v w hv hw ax => ?_⟩
      rw [hv] at hw
      cases hw
      simp
    obtain ⟨m1, m2⟩ := C103_elastic coin [(1 / 10, 2 / 10, noise.1), (4 / 10, 8 / 10, noise.2)] [B₁, B₂] rfl
      (by
        intro i p B hp hB
        match i with
        | 0 => cases hp; cases hB; exact ⟨by norm_num, h₁⟩
        | 1 => cases hp; cases hB; exact ⟨by norm_num, h₂⟩
        | i + 2 => simp at hp)
      (xyz.map (inRoom ctr)) (by simpa using hne)
    by_cases hdt : t.distort = true
    · by_cases hco : coin < 95 / 100
      · obtain ⟨out, o1, o2⟩ := m1 hco
        refine ⟨out, by rw [if_pos hdt]; exact o1, ?_⟩
        rw [if_pos ⟨hdt, by norm_num at hco ⊢; exact hco⟩]
        convert o2 using 1
        simp only [List.zipWith_cons_cons, List.zipWith_nil_left, List.sum_cons, List.sum_nil]
        norm_num [abs_of_pos]
      · refine ⟨_, by rw [if_pos hdt]; exact m2 (not_lt.mp hco), ?_⟩
        rw [if_neg (fun h => hco (by have := h.2; norm_num at this ⊢; exact this))]
        exact still
    · refine ⟨_, by rw [if_neg hdt]; rfl, ?_⟩
      rw [if_neg (fun h => hdt h.1)]
      exact still
  have hpl : pts.length = xyz.length := by rw [e2.1, List.length_map]
  obtain ⟨a, q, mask, b1, b2, b3, b4, b5, b6, b7, b8, b9, b10, b11, -⟩ := transform_any rt cosF sinF t r hs hr
    (⟨pts, some normals, some (cols.map numeric), some labels, none, 1, none, 0⟩ : Points ℚ (V3 MaybeNum) Int)
    ⟨fun n h => (by cases h; rw [hn, hpl]), fun n h => (by cases h; rw [List.length_map, k2, hpl]), fun n h => (by cases h; rw [hl, hpl]), fun n h => (by cases h)⟩
  refine ⟨ctr, a, pts, cols, q, mask, c1, b1, ?_, e2, k2, k3, k4, k5, by rw [b3, hpl], b4, b5, b7, b8, by rw [b6]; rfl, b9, b10, b11⟩
  have p1 : Points.init pts (some normals) (some (cols.map numeric)) (some labels) none 1 0 =
      .ok (⟨pts, some normals, some (cols.map numeric), some labels, none, 1, none, 0⟩ : Points ℚ (V3 MaybeNum) Int) := by
    simp [Points.init, pyAssert, hn, hl, k2, hpl, bind, Except.bind, pure, Except.pure]
  unfold scanNetCall
  rw [c2]
  simp only [bind, Except.bind, hun]
  rw [k1]
  simp only
  rw [e1]
  simp only [p1]
  exact b2

/-- **C104, range.** Without augmentation exactly the points less than 10.1376 metres from the middle of the box along the first two axes, and between the heights -9.6376 and 10.6376,
are kept. -/
theorem C104_range (t : Transform) (r : Drawn) (cosF sinF : ℚ → ℚ) (a ctr v : V3 ℚ) (hd : t.distort = false) :
    (∀ ax : Points.Axis, -0.99 < (placed t r cosF sinF a (inRoom ctr v)).along ax ∧ (placed t r cosF sinF a (inRoom ctr v)).along ax < 0.99) ↔
      |v.x - ctr.x| < 10.1376 ∧ |v.y - ctr.y| < 10.1376 ∧ -9.6376 < v.z ∧ v.z < 10.6376 := by
  have e : placed t r cosF sinF a = id := by unfold placed; rw [hd]; rfl
  rw [e]
  have one : ∀ u : ℚ, (-0.99 < u / 10.24 ∧ u / 10.24 < 0.99) ↔ (-10.1376 < u ∧ u < 10.1376) := by
    intro u
    constructor <;> rintro ⟨h1, h2⟩ <;> constructor <;> norm_num at h1 h2 ⊢ <;> linarith
  have hz : (-10.1376 < v.z - 0.5 ∧ v.z - 0.5 < 10.1376) ↔ (-9.6376 < v.z ∧ v.z < 10.6376) := by
    constructor <;> rintro ⟨h1, h2⟩ <;> constructor <;> norm_num at h1 h2 ⊢ <;> linarith
  rw [abs_lt, abs_lt, ← hz, ← one, ← one, ← one]
  constructor
  · intro h
    exact ⟨h .x, h .y, h .z⟩
  · rintro ⟨h1, h2, h3⟩ ax
    cases ax
    exacts [h1, h2, h3]

/-- C104: the empty scene raises ValueError. -/
theorem C104_empty (rt cosF sinF : ℚ → ℚ) (t : Transform) (r : Drawn) (d : ColorDraw) (coin : ℚ) (noise : V3 (Int → Int → Int → ℚ) × V3 (Int → Int → Int → ℚ))
    (normals colors : List (V3 ℚ)) (labels : List Int) : scanNetCall rt cosF sinF t r d coin noise [] normals colors labels = .error .value := rfl

/-- Stored colours that meet the hypotheses of `C104_scannet` with augmentation. -/
example : Bytes [⟨51, 102, 0⟩, ⟨153, 51, 255⟩] ∧ Bright (unit [⟨51, 102, 0⟩, ⟨153, 51, 255⟩]) ∧ (∀ ax, Varies (unit [⟨51, 102, 0⟩, ⟨153, 51, 255⟩]) ax) ∧
    AtMost ⟨fun _ _ _ => 1, fun i _ _ => if i = 0 then -2 else 0, fun _ _ _ => 1 / 2⟩ 2 := by
  refine ⟨?_, ⟨⟨51 / 255, 102 / 255, 0 / 255⟩, by simp [unit], .x, by norm_num [V3.along]⟩, ?_, ?_⟩
  · intro v hv ax
    simp only [List.mem_cons, List.not_mem_nil, or_false] at hv
    rcases hv with rfl | rfl <;> cases ax <;> norm_num [V3.along]
  · intro ax
    cases ax
    · exact ⟨⟨51 / 255, 102 / 255, 0 / 255⟩, by simp [unit], ⟨153 / 255, 51 / 255, 255 / 255⟩, by simp [unit], by norm_num [V3.along]⟩
    · exact ⟨⟨153 / 255, 51 / 255, 255 / 255⟩, by simp [unit], ⟨51 / 255, 102 / 255, 0 / 255⟩, by simp [unit], by norm_num [V3.along]⟩
    · exact ⟨⟨51 / 255, 102 / 255, 0 / 255⟩, by simp [unit], ⟨153 / 255, 51 / 255, 255 / 255⟩, by simp [unit], by norm_num [V3.along]⟩
  · intro i j k
    refine ⟨by norm_num, ?_, by norm_num⟩
    dsimp only
    split <;> norm_num

end Ocnn
