import Verif.Completion
import Verif.PropsKitti

/-! Theorems about the data of the completion program: C101. -/

namespace Ocnn

namespace Spec

/-- The largest extent of a cloud along an axis. -/
structure Extent (pts : List (V3 ℚ)) (e : ℚ) : Prop where
  attained : ∃ ax : Points.Axis, ∃ u ∈ pts, ∃ v ∈ pts, v.along ax - u.along ax = e
  bound : ∀ ax : Points.Axis, ∀ u ∈ pts, ∀ v ∈ pts, v.along ax - u.along ax ≤ e

/-- A point relative to a centre, scaled. -/
def about (s : ℚ) (ctr v : V3 ℚ) : V3 ℚ := ⟨s * (v.x - ctr.x), s * (v.y - ctr.y), s * (v.z - ctr.z)⟩

/-- Strictly inside the cube `(-0.99, 0.99)³`. -/
def InFrame (v : V3 ℚ) : Prop := ∀ ax : Points.Axis, -0.99 < v.along ax ∧ v.along ax < 0.99

end Spec

open Spec
variable {F L : Type}

/-- The box of the code is the box of the specification. -/
theorem box_spec (p : V3 ℚ) (ps : List (V3 ℚ)) (lo hi : V3 ℚ) (hlo : ps.foldl (fun a b => (⟨min a.x b.x, min a.y b.y, min a.z b.z⟩ : V3 ℚ)) p = lo)
    (hhi : ps.foldl (fun a b => (⟨max a.x b.x, max a.y b.y, max a.z b.z⟩ : V3 ℚ)) p = hi) :
    BoxCentre (p :: ps) ((lo + hi).map (· / 2)) ∧ Extent (p :: ps) (max (max (hi.x - lo.x) (hi.y - lo.y)) (hi.z - lo.z)) ∧
      ∀ ax : Points.Axis, ∀ v ∈ p :: ps, lo.along ax ≤ v.along ax ∧ v.along ax ≤ hi.along ax := by
  have hmin := fun a => fold_min_le ps p a
  have hmax := fun a => fold_max_ge ps p a
  have hmin' := fun a => fold_min_mem ps p a
  have hmax' := fun a => fold_max_mem ps p a
  rw [hlo] at hmin hmin'
  rw [hhi] at hmax hmax'
  have hw : ∀ ax : Points.Axis, hi.along ax - lo.along ax ≤ max (max (hi.x - lo.x) (hi.y - lo.y)) (hi.z - lo.z) := by
    intro ax
    cases ax
    · exact le_trans (le_max_left _ _) (le_max_left _ _)
    · exact le_trans (le_max_right _ _) (le_max_left _ _)
    · exact le_max_right _ _
  have hw' : ∃ ax : Points.Axis, hi.along ax - lo.along ax = max (max (hi.x - lo.x) (hi.y - lo.y)) (hi.z - lo.z) := by
    rcases max_choice (max (hi.x - lo.x) (hi.y - lo.y)) (hi.z - lo.z) with h | h
    · rcases max_choice (hi.x - lo.x) (hi.y - lo.y) with h' | h'
      · exact ⟨.x, by rw [h, h']; rfl⟩
      · exact ⟨.y, by rw [h, h']; rfl⟩
    · exact ⟨.z, by rw [h]; rfl⟩
  refine ⟨⟨fun ax => ?_⟩, ⟨?_, ?_⟩, fun ax v hv => ⟨hmin ax v hv, hmax ax v hv⟩⟩
  · obtain ⟨u, hu, e1⟩ := hmin' ax
    obtain ⟨v, hv, e2⟩ := hmax' ax
    refine ⟨u, hu, v, hv, fun w hw => ⟨by rw [← e1]; exact hmin ax w hw, by rw [← e2]; exact hmax ax w hw⟩, ?_⟩
    rw [← e1, ← e2]
    cases ax <;> rfl
  · obtain ⟨ax, h⟩ := hw'
    obtain ⟨u, hu, e1⟩ := hmin' ax
    obtain ⟨v, hv, e2⟩ := hmax' ax
    exact ⟨ax, u, hu, v, hv, by rw [← h, e1, e2]⟩
  · intro ax u hu v hv
    have := hw ax
    have := hmin ax u hu
    have := hmax ax v hv
    linarith

theorem completionNormalize_ok (xyz : List (V3 ℚ)) (hne : xyz ≠ []) :
    ∃ (ctr : V3 ℚ) (e s : ℚ), BoxCentre xyz ctr ∧ Extent xyz e ∧ 0 < s ∧ s * (e + 1 / 10 ^ 6) = 1.9 ∧
      completionNormalize xyz = .ok (xyz.map (about s ctr)) ∧ ∀ v ∈ xyz, ∀ ax : Points.Axis, |(about s ctr v).along ax| ≤ 0.95 := by
  obtain ⟨p, ps, rfl⟩ := List.exists_cons_of_ne_nil hne
  obtain ⟨h1, h2, h3⟩ := box_spec p ps _ _ rfl rfl
  unfold completionNormalize
  simp only [bind, Except.bind, pure, Except.pure, List.map_map]
  generalize ps.foldl (fun a b => (⟨min a.x b.x, min a.y b.y, min a.z b.z⟩ : V3 ℚ)) p = lo at *
  generalize ps.foldl (fun a b => (⟨max a.x b.x, max a.y b.y, max a.z b.z⟩ : V3 ℚ)) p = hi at *
  generalize max (max (hi.x - lo.x) (hi.y - lo.y)) (hi.z - lo.z) = e at *
  have he : 0 ≤ e := by
    have := h2.bound .x p (by simp) p (by simp)
    linarith
  have hd : 0 < e + 1 / 10 ^ 6 := by positivity
  have hs : 0 < 2 / (e + 1 / 10 ^ 6) * (95 / 100) := by positivity
  refine ⟨_, e, 2 / (e + 1 / 10 ^ 6) * (95 / 100), h1, h2, hs, ?_, ?_, ?_⟩
  · have : (2 : ℚ) / (e + 1 / 10 ^ 6) * (e + 1 / 10 ^ 6) = 2 := div_mul_cancel₀ _ hd.ne'
    linear_combination 0.95 * this
  · congr 1
    apply List.map_congr_left
    intro v _
    simp only [Function.comp, V3.map, about]
    ext <;> simp only <;> ring
  · intro v hv ax
    have hctr := h1.middle ax
    obtain ⟨u, hu, w, hw, hb, hc⟩ := hctr
    have h4 := hb v hv
    have h5 := h2.bound ax u hu w hw
    have hal : (about (2 / (e + 1 / 10 ^ 6) * (95 / 100)) ((lo + hi).map (· / 2)) v).along ax =
        2 / (e + 1 / 10 ^ 6) * (95 / 100) * (v.along ax - ((lo + hi).map (· / 2)).along ax) := by cases ax <;> rfl
    rw [hal, hc, abs_mul, abs_of_pos hs]
    have h6 : |v.along ax - (u.along ax + w.along ax) / 2| ≤ (e + 1 / 10 ^ 6) / 2 := by
      rw [abs_le]
      have : (0 : ℚ) < 1 / 10 ^ 6 := by positivity
      constructor <;> linarith
    calc _ ≤ 2 / (e + 1 / 10 ^ 6) * (95 / 100) * ((e + 1 / 10 ^ 6) / 2) := mul_le_mul_of_nonneg_left h6 hs.le
      _ = 0.95 := by field_simp; norm_num

instance (v : V3 ℚ) : Decidable (InFrame v) :=
  decidable_of_iff ((-0.99 < v.x ∧ v.x < 0.99) ∧ (-0.99 < v.y ∧ v.y < 0.99) ∧ (-0.99 < v.z ∧ v.z < 0.99))
    ⟨fun h ax => by cases ax; exacts [h.1, h.2.1, h.2.2], fun h => ⟨h .x, h .y, h .z⟩⟩

theorem inside_mask (p : Points ℚ F L) : p.inboxMask ⟨-1 + 1 / 100, -1 + 1 / 100, -1 + 1 / 100⟩ ⟨1 - 1 / 100, 1 - 1 / 100, 1 - 1 / 100⟩ =
    p.points.map fun v => decide (InFrame v) := by
  unfold Points.inboxMask
  apply List.map_congr_left
  intro v _
  rw [← Bool.decide_and, decide_eq_decide]
  constructor
  · rintro ⟨⟨a, b, c⟩, d, e, f⟩ ax
    cases ax <;> norm_num [V3.along] at * <;> constructor <;> assumption
  · intro h
    have hx := h .x
    have hy := h .y
    have hz := h .z
    norm_num [V3.along] at *
    exact ⟨⟨hx.1, hy.1, hz.1⟩, hx.2, hy.2, hz.2⟩

/-- Clipping a cloud with points and perhaps normals. -/
theorem clip_inside (p : Points ℚ F L) (ha : Aligned p) :
    ∃ q mask, p.clip (-1) 1 (1 / 100) = .ok (q, mask) ∧ q.points = p.points.filter (fun v => decide (InFrame v)) ∧ Aligned q ∧
      q.batchSize = p.batchSize ∧ (p.normals = none → q.normals = none) ∧ ((∀ v ∈ p.points, InFrame v) → q.normals = p.normals) := by
  have hl : (p.inboxMask ⟨-1 + 1 / 100, -1 + 1 / 100, -1 + 1 / 100⟩ ⟨1 - 1 / 100, 1 - 1 / 100, 1 - 1 / 100⟩).length = p.points.length := by
    simp [Points.inboxMask]
  refine ⟨_, _, clip_eq p ha (-1) 1 (1 / 100), ?_, slice_aligned p ha _ fun i hi => by rw [← hl]; exact positions_lt _ i hi, rfl, ?_, ?_⟩
  · show rowsAt p.points _ = _
    rw [← maskSel_rows _ _ hl, inside_mask, maskSel_map_decide]
  · intro h
    show p.normals.map _ = none
    rw [h]; rfl
  · intro h
    show p.normals.map _ = p.normals
    cases hn : p.normals with
    | none => rfl
    | some ns =>
      have e : (p.points.map fun v => decide (InFrame v)) = List.replicate p.points.length true :=
        List.eq_replicate_iff.mpr ⟨by simp, fun b hb => by
          obtain ⟨v, hv, rfl⟩ := List.mem_map.mp hb
          exact decide_eq_true (h v hv)⟩
      rw [inside_mask, e, positions_true, ← ha.normals ns hn]
      simp only [Option.map_some, rowsAt_range]

theorem gather_chosen {α : Type} (l : List α) (idx : List Nat) (h : ∀ i ∈ idx, i < l.length) :
    ∃ r, gatherIdx l (idx.map Int.ofNat) = .ok r ∧ r.length = idx.length ∧ ∀ (i k : Nat), idx[i]? = some k → r[i]? = l[k]? ∧ k < l.length := by
  induction idx with
  | nil => exact ⟨[], rfl, rfl, fun i k h => by simp at h⟩
  | cons a idx ih =>
    obtain ⟨r, h1, h2, h3⟩ := ih fun i hi => h i (by simp [hi])
    have ha := h a (by simp)
    have e : getIdx l (Int.ofNat a) = .ok l[a] := by
      unfold getIdx normIdx
      rw [if_pos ⟨by simp, by simpa using ha⟩]
      simp [bind, Except.bind, ha]
    refine ⟨l[a] :: r, ?_, by simp [h2], ?_⟩
    · unfold gatherIdx at h1 ⊢
      rw [List.map_cons, List.mapM_cons, e, h1]
      rfl
    · intro i k hi
      cases i with
      | zero =>
        simp only [List.getElem?_cons_zero, Option.some.injEq] at hi
        subst hi
        exact ⟨by simp [ha], ha⟩
      | succ i =>
        simp only [List.getElem?_cons_succ] at hi ⊢
        exact h3 i k hi

/-- **C101.** Every non-empty cloud with one normal per point is prepared without exception, whatever is drawn.  The ground truth is the whole cloud, in order and with its
normals, moved by one similarity: the middle of the box to the origin, the largest extent (plus `10⁻⁶`) to 1.9; no point is dropped and no coordinate exceeds 0.95.
The input consists of the chosen ground-truth points displaced by 0.0095 times the noise, without those outside `(-0.99, 0.99)³`.  Both octrees store their clouds. -/
theorem C101_completion [AddCommMonoid F] (nrm : V3 ℚ → V3 ℚ) (divF : ℚ → F → F) (depth full : Nat) (hd : depth ≤ 16) (hf : full ≤ depth)
    (noise : List (V3 ℚ)) (chosen : List Nat) (xyz normals : List (V3 ℚ)) (hne : xyz ≠ []) (hl : normals.length = xyz.length)
    (hc : ∀ i ∈ chosen, i < xyz.length) (hn : noise.length = chosen.length) :
    ∃ (ctr : V3 ℚ) (e s : ℚ) (noisy : List (V3 ℚ)) (r : CompletionSample F L),
      BoxCentre xyz ctr ∧ Extent xyz e ∧ 0 < s ∧ s * (e + 1 / 10 ^ 6) = 1.9 ∧
      completionCall nrm divF depth full noise chosen xyz normals = .ok r ∧
      r.pointsGt.points = xyz.map (about s ctr) ∧ r.pointsGt.normals = some normals ∧
      (∀ v ∈ r.pointsGt.points, ∀ ax : Points.Axis, |v.along ax| ≤ 0.95) ∧ Stores depth full r.pointsGt.points r.octreeGt ∧
      noisy.length = chosen.length ∧
      (∀ (i k : Nat) (n : V3 ℚ), chosen[i]? = some k → noise[i]? = some n → ∃ g, r.pointsGt.points[k]? = some g ∧
        noisy[i]? = some ⟨g.x + 0.0095 * n.x, g.y + 0.0095 * n.y, g.z + 0.0095 * n.z⟩) ∧
      r.points.points = noisy.filter (fun v => decide (InFrame v)) ∧ r.points.normals = none ∧ Stores depth full r.points.points r.octree := by
  obtain ⟨ctr, e, s, h1, h2, h3, h4, h5, h6⟩ := completionNormalize_ok xyz hne
  obtain ⟨smp, g1, g2, g3⟩ := gather_chosen (xyz.map (about s ctr)) chosen (by simpa using hc)
  generalize hny : List.zipWith (fun v (n : V3 ℚ) => v + n.map (· * (1 / 100 * (95 / 100)))) smp noise = noisy
  have inframe : ∀ v ∈ xyz.map (about s ctr), InFrame v := by
    intro v hv ax
    obtain ⟨u, hu, rfl⟩ := List.mem_map.mp hv
    have := abs_le.mp (h6 u hu ax)
    constructor <;> [have := this.1; have := this.2] <;> norm_num at this ⊢ <;> linarith
  have cube : ∀ v : V3 ℚ, InFrame v → InCube v := by
    intro v hv
    have hx := hv .x
    have hy := hv .y
    have hz := hv .z
    simp only [V3.along] at hx hy hz
    refine ⟨⟨?_, ?_⟩, ⟨?_, ?_⟩, ⟨?_, ?_⟩⟩ <;> norm_num at hx hy hz <;> linarith [hx.1, hx.2, hy.1, hy.2, hz.1, hz.2]
  obtain ⟨gt, m1, k1, k2, k3, k4, -, k6⟩ := clip_inside (⟨xyz.map (about s ctr), some normals, none, none, none, 1, none, 0⟩ : Points ℚ F L)
    ⟨fun n h => (by cases h; simpa using hl), fun n h => (by cases h), fun n h => (by cases h), fun n h => (by cases h)⟩
  have hgt : gt.points = xyz.map (about s ctr) := by
    rw [k2]
    exact List.filter_eq_self.mpr fun v hv => decide_eq_true (inframe v hv)
  obtain ⟨ogt, i1, b1, b2⟩ := build_single nrm divF depth full hd hf gt k3 k4 (fun v hv => cube v (inframe v (by rw [← hgt]; exact hv)))
  obtain ⟨pin, m2, l1, l2, l3, l4, l5, -⟩ := clip_inside (⟨noisy, none, none, none, none, 1, none, 0⟩ : Points ℚ F L)
    ⟨fun n h => (by cases h), fun n h => (by cases h), fun n h => (by cases h), fun n h => (by cases h)⟩
  obtain ⟨oin, i2, b3, b4⟩ := build_single nrm divF depth full hd hf pin l3 l4 (fun v hv => cube v (by
    rw [l2] at hv
    simpa using (List.mem_filter.mp hv).2))
  refine ⟨ctr, e, s, noisy, ⟨oin, pin, ogt, gt⟩, h1, h2, h3, h4, ?_, hgt, k6 inframe, ?_, b2, ?_, ?_, l2, l5 rfl, b4⟩
  · have p1 : Points.init (F := F) (L := L) (xyz.map (about s ctr)) (some normals) none none none 1 0 =
        .ok ⟨xyz.map (about s ctr), some normals, none, none, none, 1, none, 0⟩ := by
      simp [Points.init, pyAssert, hl, bind, Except.bind, pure, Except.pure]
    have p2 : Points.init (F := F) (L := L) noisy none none none none 1 0 = .ok ⟨noisy, none, none, none, none, 1, none, 0⟩ := rfl
    unfold completionCall
    rw [h5]
    simp only [bind, Except.bind]
    rw [g1]
    simp only
    rw [if_neg (by rw [g2, hn]; simp)]
    simp only [hny, pure, Except.pure, p1, k1, points2octree, bind, Except.bind, b1, p2, l1, b3]
  · intro v hv ax
    simp only [hgt] at hv
    obtain ⟨u, hu, rfl⟩ := List.mem_map.mp hv
    exact h6 u hu ax
  · rw [← hny, List.length_zipWith, g2, hn, Nat.min_self]
  · intro i k n hi hni
    obtain ⟨q1, q2⟩ := g3 i k hi
    refine ⟨_, by rw [hgt]; exact List.getElem?_eq_getElem q2, ?_⟩
    rw [← hny, List.getElem?_zipWith, q1, List.getElem?_eq_getElem q2, hni]
    simp only [Option.some.injEq]
    ext <;> simp only [V3.add_x, V3.add_y, V3.add_z, V3.map] <;> ring

/-- **C101, nothing lost.** If no coordinate of the noise exceeds 4.2 standard deviations, the input has all the chosen points. -/
theorem C101_all_kept (noise : V3 ℚ) (g : V3 ℚ) (hg : ∀ ax : Points.Axis, |g.along ax| ≤ 0.95) (hn : ∀ ax : Points.Axis, |noise.along ax| ≤ 4.2) :
    InFrame ⟨g.x + 0.0095 * noise.x, g.y + 0.0095 * noise.y, g.z + 0.0095 * noise.z⟩ := by
  have key : ∀ a b : ℚ, |a| ≤ 0.95 → |b| ≤ 4.2 → -0.99 < a + 0.0095 * b ∧ a + 0.0095 * b < 0.99 := by
    intro a b ha hb
    have ha := abs_le.mp ha
    have hb := abs_le.mp hb
    norm_num at ha hb ⊢
    constructor <;> linarith [ha.1, ha.2, hb.1, hb.2]
  intro ax
  cases ax
  exacts [key _ _ (hg .x) (hn .x), key _ _ (hg .y) (hn .y), key _ _ (hg .z) (hn .z)]

/-- **C101, refused.** An empty cloud and a wrong number of normals raise. -/
theorem C101_refused [AddCommMonoid F] (nrm : V3 ℚ → V3 ℚ) (divF : ℚ → F → F) (depth full : Nat) (noise : List (V3 ℚ)) (chosen : List Nat)
    (xyz normals : List (V3 ℚ)) :
    (xyz = [] → completionCall (L := L) nrm divF depth full noise chosen xyz normals = .error .value) ∧
    (xyz ≠ [] → normals.length ≠ xyz.length → (∀ i ∈ chosen, i < xyz.length) → noise.length = chosen.length →
      completionCall (L := L) nrm divF depth full noise chosen xyz normals = .error .assertion) := by
  constructor
  · rintro rfl
    rfl
  · intro hne hl hc hn
    obtain ⟨ctr, e, s, h1, h2, h3, h4, h5, h6⟩ := completionNormalize_ok xyz hne
    obtain ⟨smp, g1, g2, g3⟩ := gather_chosen (xyz.map (about s ctr)) chosen (by simpa using hc)
    unfold completionCall
    rw [h5]
    simp only [bind, Except.bind]
    rw [g1]
    simp only
    rw [if_neg (by rw [g2, hn]; simp)]
    simp [pure, Except.pure, Points.init, pyAssert, hl, bind, Except.bind]

/-- Two points 8 apart and one noisy copy of the second. -/
example : ((completionCall (F := ℚ) (L := Unit) id (fun c v => v / c) 2 1 [⟨1, 0, 0⟩] [1] [⟨0, 0, 0⟩, ⟨8, 0, 0⟩] [⟨1, 0, 0⟩, ⟨0, 1, 0⟩]).toOption.map
    fun r => (r.pointsGt.points.length, r.points.points.length, r.octreeGt.nnumNempty 2, r.octree.nnumNempty 2)) = some (2, 1, 2, 1) := by
  decide +kernel

end Ocnn
