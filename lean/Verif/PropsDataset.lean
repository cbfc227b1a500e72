import Verif.Dataset
import Verif.PropsPoints
import Verif.PropsBuild
import Verif.PropsPerSample

/-! Theorems about the data pipeline: C71, C72. -/

namespace Ocnn

namespace Spec

/-- The random numbers respect the documented ranges of the generators: integers of absolute value at most the number
of intervals in the angle, numbers in `[0, 1)`. -/
structure InRanges (t : Transform) (r : Drawn) : Prop where
  turns : |r.turns.x * t.interval.x| ≤ t.angle.x ∧ |r.turns.y * t.interval.y| ≤ t.angle.y ∧
    |r.turns.z * t.interval.z| ≤ t.angle.z
  scale : (0 ≤ r.scale.x ∧ r.scale.x < 1) ∧ (0 ≤ r.scale.y ∧ r.scale.y < 1) ∧ (0 ≤ r.scale.z ∧ r.scale.z < 1)
  jitter : (0 ≤ r.jitter.x ∧ r.jitter.x < 1) ∧ (0 ≤ r.jitter.y ∧ r.jitter.y < 1) ∧ (0 ≤ r.jitter.z ∧ r.jitter.z < 1)

/-- Sensible settings of the augmentation: positive intervals, no negative angles, relative scale below one, a known
axis for the orientation of the normals. -/
structure Sensible (t : Transform) : Prop where
  depth : t.depth ≤ 16
  full : t.fullDepth ≤ t.depth
  interval : 0 < t.interval.x ∧ 0 < t.interval.y ∧ 0 < t.interval.z
  angle : 0 ≤ t.angle.x ∧ 0 ≤ t.angle.y ∧ 0 ≤ t.angle.z
  scale : 0 ≤ t.scale ∧ t.scale < 1
  jitter : 0 ≤ t.jitter
  axis : t.orientNormal = "" ∨ t.orientNormal = "x" ∨ t.orientNormal = "y" ∨ t.orientNormal = "z" ∨
    t.orientNormal = "xyz"

/-- A number, negated if asked for. -/
def negIf (b : Prop) [Decidable b] (v : ℚ) : ℚ := if b then -v else v

/-- Where a point is moved: flipped along the axes whose coin shows it, rotated, displaced and scaled. -/
def moved (flips : Bool × Bool × Bool) (c s dis f : V3 ℚ) (v : V3 ℚ) : V3 ℚ :=
  let w := turnZ c.z s.z (turnY c.y s.y (turnX c.x s.x
    ⟨negIf (flips.1 = true) v.x, negIf (flips.2.1 = true) v.y, negIf (flips.2.2 = true) v.z⟩))
  ⟨f.x * (w.x + dis.x), f.y * (w.y + dis.y), f.z * (w.z + dis.z)⟩

end Spec

open Spec
variable {F L X T : Type}

/-! ## C71 -/

theorem rndAngle_ok (t : Transform) (r : Drawn) (hs : Sensible t) :
    t.rndAngle r = .ok ⟨r.turns.x * t.interval.x * (314159265 / 100000000 / 180),
      r.turns.y * t.interval.y * (314159265 / 100000000 / 180),
      r.turns.z * t.interval.z * (314159265 / 100000000 / 180)⟩ := by
  have h1 : ∀ a i n : Int, 0 < i → 0 ≤ a →
      Transform.rndAngle1 a i n = .ok (n * i * (314159265 / 100000000 / 180)) := by
    intro a i n hi ha
    have := Int.fdiv_nonneg ha hi.le
    unfold Transform.rndAngle1 Transform.rotNum
    rw [if_neg (by omega)]
    simp only [bind, Except.bind, pure, Except.pure]
    rw [if_neg (by omega)]
  obtain ⟨i1, i2, i3⟩ := hs.interval
  obtain ⟨a1, a2, a3⟩ := hs.angle
  unfold Transform.rndAngle
  rw [h1 _ _ _ i1 a1, h1 _ _ _ i2 a2, h1 _ _ _ i3 a3]
  rfl

/-- The drawn parameters are within the configured ranges: angles of at most `angle` degrees, relative scales within
`[1 - scale, 1 + scale)` (the same along the three axes if `uniform`), displacements within `[-jitter, jitter)`. -/
theorem C71_parameters (t : Transform) (r : Drawn) (hs : Sensible t) (hr : InRanges t r) :
    (∃ a, t.rndAngle r = .ok a ∧
      |a.x| ≤ t.angle.x * (3.14159265 / 180) ∧ |a.y| ≤ t.angle.y * (3.14159265 / 180) ∧
      |a.z| ≤ t.angle.z * (3.14159265 / 180)) ∧
    (∀ ax : Points.Axis, 1 - t.scale ≤ (t.rndScale r).along ax ∧ (t.rndScale r).along ax ≤ 1 + t.scale ∧
      0 < (t.rndScale r).along ax) ∧
    (t.uniform = true → ∀ ax : Points.Axis, (t.rndScale r).along ax = (t.rndScale r).x) ∧
    (∀ ax : Points.Axis, -t.jitter ≤ (t.rndJitter r).along ax ∧ (t.rndJitter r).along ax ≤ t.jitter) := by
  have habs : ∀ n i a : Int, |n * i| ≤ a →
      |(n : ℚ) * i * (314159265 / 100000000 / 180)| ≤ a * (3.14159265 / 180) := by
    intro n i a h
    rw [abs_mul]
    have h' : |(n : ℚ) * i| ≤ a := by exact_mod_cast h
    norm_num at h' ⊢
    linarith
  have hsc : ∀ u : ℚ, 0 ≤ u ∧ u < 1 → 1 - t.scale ≤ u * (2 * t.scale) - t.scale + 1 ∧
      u * (2 * t.scale) - t.scale + 1 ≤ 1 + t.scale ∧ 0 < u * (2 * t.scale) - t.scale + 1 := by
    intro u hu
    have h0 := mul_nonneg hu.1 hs.scale.1
    have h1 : u * t.scale ≤ 1 * t.scale := mul_le_mul_of_nonneg_right hu.2.le hs.scale.1
    have := hs.scale.2
    refine ⟨?_, ?_, ?_⟩ <;> nlinarith
  have hj : ∀ u : ℚ, 0 ≤ u ∧ u < 1 → -t.jitter ≤ u * (2 * t.jitter) - t.jitter ∧
      u * (2 * t.jitter) - t.jitter ≤ t.jitter := by
    intro u hu
    have h0 := mul_nonneg hu.1 hs.jitter
    have h1 : u * t.jitter ≤ 1 * t.jitter := mul_le_mul_of_nonneg_right hu.2.le hs.jitter
    constructor <;> nlinarith
  refine ⟨⟨_, rndAngle_ok t r hs, habs _ _ _ hr.turns.1, habs _ _ _ hr.turns.2.1, habs _ _ _ hr.turns.2.2⟩, ?_, ?_, ?_⟩
  · intro ax
    unfold Transform.rndScale
    cases t.uniform <;> cases ax <;>
      simp only [if_true, Bool.false_eq_true, if_false, V3.map, V3.along]
    exacts [hsc _ hr.scale.1, hsc _ hr.scale.2.1, hsc _ hr.scale.2.2, hsc _ hr.scale.1, hsc _ hr.scale.1, hsc _ hr.scale.1]
  · intro hu ax
    unfold Transform.rndScale
    rw [hu]
    cases ax <;> rfl
  · intro ax
    unfold Transform.rndJitter
    cases ax
    exacts [hj _ hr.jitter.1, hj _ hr.jitter.2.1, hj _ hr.jitter.2.2]

theorem flipped_rnd (t : Transform) (r : Drawn) (v : V3 ℚ) :
    flipped (t.rndFlip r).toList v = ⟨negIf (r.coins.x < t.flip.x) v.x, negIf (r.coins.y < t.flip.y) v.y,
      negIf (r.coins.z < t.flip.z) v.z⟩ := by
  unfold Transform.rndFlip flipped flipSign negIf
  rw [String.toList_ofList]
  ext
  all_goals
    by_cases hx : r.coins.x < t.flip.x <;> by_cases hy : r.coins.y < t.flip.y <;>
      by_cases hz : r.coins.z < t.flip.z <;> simp [hx, hy, hz]

theorem rndFlip_letters (t : Transform) (r : Drawn) : ∀ c ∈ (t.rndFlip r).toList, c = 'x' ∨ c = 'y' ∨ c = 'z' := by
  unfold Transform.rndFlip
  rw [String.toList_ofList]
  intro c hc
  simp only [List.mem_append] at hc
  rcases hc with (hc | hc) | hc <;> split at hc <;> simp at hc <;> simp [hc]

/-- What the augmentation and the orientation of normals leave of a new cloud: the points moved, one normal per point. -/
structure Moved (T : V3 ℚ → V3 ℚ) (p q : Points ℚ F L) : Prop where
  points : q.points = p.points.map T
  normals : ∃ ns, q.normals = some ns ∧ ns.length = q.points.length
  features : q.features = p.features
  labels : q.labels = p.labels
  batchId : q.batchId = p.batchId
  batchSize : q.batchSize = p.batchSize

theorem augment_ok (rt cosF sinF : ℚ → ℚ) (t : Transform) (r : Drawn) (hs : Sensible t) (hr : InRanges t r)
    (p : Points ℚ F L) (ns : List (V3 ℚ)) (hn : p.normals = some ns) (hl : ns.length = p.points.length) :
    ∃ a q, t.rndAngle r = .ok a ∧ t.augment rt cosF sinF r p = .ok q ∧
      Moved (moved (decide (r.coins.x < t.flip.x), decide (r.coins.y < t.flip.y), decide (r.coins.z < t.flip.z))
        (a.map cosF) (a.map sinF) (t.rndJitter r) (t.rndScale r)) p q := by
  obtain ⟨⟨a, ha, _⟩, h2, _, _⟩ := C71_parameters t r hs hr
  have hf : (t.rndScale r).x ≠ 0 ∧ (t.rndScale r).y ≠ 0 ∧ (t.rndScale r).z ≠ 0 :=
    ⟨(h2 .x).2.2.ne', (h2 .y).2.2.ne', (h2 .z).2.2.ne'⟩
  have e1 := C62_flip p (t.rndFlip r) (rndFlip_letters t r)
  generalize hp1 : ({ p with
    points := p.points.map (flipped (t.rndFlip r).toList)
    normals := p.normals.map (List.map (flipped (t.rndFlip r).toList)) } : Points ℚ F L) = p1 at e1
  obtain ⟨q, hq, q1, q2, q3, q4, q5, q6, q7, _, q8⟩ := C63_scale rt
    ((p1.rotate (a.map cosF) (a.map sinF)).translate (t.rndJitter r)) (t.rndScale r) hf
  refine ⟨a, q, ha, ?_, ?_, ?_, ?_, ?_, ?_, ?_⟩
  · unfold Transform.augment
    rw [ha]
    simp only [bind, Except.bind, e1]
    exact hq
  · rw [q1]
    simp only [Points.translate, Points.rotate, ← hp1, List.map_map]
    refine List.map_congr_left fun v _ => ?_
    simp only [Function.comp, rotMat_apply, flipped_rnd, moved, decide_eq_true_eq]
    rfl
  · have hn1 : ((p1.rotate (a.map cosF) (a.map sinF)).translate (t.rndJitter r)).normals =
        some ((ns.map (flipped (t.rndFlip r).toList)).map fun v => v.mulMat (Points.rotMat (a.map cosF) (a.map sinF))) := by
      simp only [Points.translate, Points.rotate, ← hp1, hn, Option.map_some]
    obtain ⟨ms, m1, m2, _⟩ := q8 _ hn1
    refine ⟨ms, m1, ?_⟩
    rw [m2, q1]
    simp [Points.translate, Points.rotate, ← hp1, hl]
  · rw [q2, ← hp1]; rfl
  · rw [q3, ← hp1]; rfl
  · rw [q4, ← hp1]; rfl
  · rw [q5, ← hp1]; rfl

theorem orient_ok (t : Transform) (hs : Sensible t) (p : Points ℚ F L) (ns : List (V3 ℚ)) (hn : p.normals = some ns)
    (hl : ns.length = p.points.length) :
    ∃ q, (if t.orientNormal ≠ "" then p.orientNormal t.orientNormal else pure p : M (Points ℚ F L)) = .ok q ∧
      Moved id p q := by
  have key : ∀ a : Points.Axis, ∃ q, p.orientNormal (axisName a) = .ok q ∧ Moved id p q := by
    intro a
    obtain ⟨ms, h1, h2, _⟩ := C65_orient p a ns hn
    exact ⟨_, h1, by simp, ⟨ms, rfl, by rw [h2, hl]⟩, rfl, rfl, rfl, rfl⟩
  rcases hs.axis with h | h | h | h | h
  · exact ⟨p, by rw [h]; rfl, by simp, ⟨ns, hn, hl⟩, rfl, rfl, rfl, rfl⟩
  · obtain ⟨q, h1, h2⟩ := key .x
    exact ⟨q, by rw [if_pos (by rw [h]; decide), h]; exact h1, h2⟩
  · obtain ⟨q, h1, h2⟩ := key .y
    exact ⟨q, by rw [if_pos (by rw [h]; decide), h]; exact h1, h2⟩
  · obtain ⟨q, h1, h2⟩ := key .z
    exact ⟨q, by rw [if_pos (by rw [h]; decide), h]; exact h1, h2⟩
  · have h1 := C65_orient_xyz p ns hn
    rw [← h] at h1
    have hne : t.orientNormal ≠ "" := by rw [h]; decide
    exact ⟨_, (if_pos hne).trans h1, by simp, ⟨_, rfl, by simp [hl]⟩, rfl, rfl, rfl, rfl⟩

/-- **C71.** Whatever is drawn, a call of `Transform` succeeds on every cloud with one normal per point. The kept points
are exactly the moved points strictly inside `(-0.99, 0.99)³`, in order, as told by the mask; the octree built from
them is well-formed, its non-empty nodes are exactly those containing a kept point, and every kept point lies in one. -/
theorem C71_transform [AddCommMonoid F] (nrm : V3 ℚ → V3 ℚ) (divF : ℚ → F → F) (rt cosF sinF : ℚ → ℚ) (t : Transform)
    (r : Drawn) (hs : Sensible t) (hr : InRanges t r) (xyz normals : List (V3 ℚ)) (hl : normals.length = xyz.length) :
    ∃ (a : V3 ℚ) (q : Points ℚ F L) (mask : List Bool) (o : Octree F) (cells : List Cell) (ch : List Int) (pos : V3 ℚ → V3 ℚ),
      t.rndAngle r = .ok a ∧
      t.call nrm divF rt cosF sinF r xyz normals = .ok (q, mask, o) ∧
      (pos = if t.distort then
          moved (decide (r.coins.x < t.flip.x), decide (r.coins.y < t.flip.y), decide (r.coins.z < t.flip.z))
            (a.map cosF) (a.map sinF) (t.rndJitter r) (t.rndScale r)
        else id) ∧
      mask.length = xyz.length ∧
      (∀ (i : Nat) (v : V3 ℚ), xyz[i]? = some v →
        (mask[i]? = some true ↔ ∀ ax : Points.Axis, -0.99 < (pos v).along ax ∧ (pos v).along ax < 0.99)) ∧
      q.points = rowsAt (xyz.map pos) (positions mask) ∧
      (∀ v ∈ q.points, ∀ ax : Points.Axis, -0.99 < v.along ax ∧ v.along ax < 0.99) ∧
      Aligned q ∧ q.normals.isSome ∧
      o.Valid t.depth ∧ o.depth = t.depth ∧ o.fullDepth = t.fullDepth ∧ o.batchSize = 1 ∧
      CellsOf 1 t.depth o.keys cells ∧ o.children t.depth = some ch ∧
      (∀ c, c ∈ nonEmpty cells ch ↔ c.b = 0 ∧ ∃ v ∈ q.points, CubeContains t.depth c v) ∧
      (∀ v ∈ q.points, ∃ c ∈ nonEmpty cells ch, CubeContains t.depth c v) := by
  let p0 : Points ℚ F L := ⟨xyz, some normals, none, none, none, 1, none, 0⟩
  have hp0 : Transform.preprocess (F := F) (L := L) xyz normals = .ok p0 := by
    simp [Transform.preprocess, Points.init, pyAssert, hl, bind, Except.bind, pure, Except.pure, p0]
  obtain ⟨a, q1, ha, hq1, m1⟩ : ∃ a q1, t.rndAngle r = .ok a ∧
      (if t.distort then t.augment rt cosF sinF r p0 else pure p0 : M (Points ℚ F L)) = .ok q1 ∧
      Moved (if t.distort then
          moved (decide (r.coins.x < t.flip.x), decide (r.coins.y < t.flip.y), decide (r.coins.z < t.flip.z))
            (a.map cosF) (a.map sinF) (t.rndJitter r) (t.rndScale r)
        else id) p0 q1 := by
    obtain ⟨a, q, h1, h2, h3⟩ := augment_ok rt cosF sinF t r hs hr p0 normals rfl hl
    by_cases hd : t.distort = true
    · exact ⟨a, q, h1, by rw [if_pos hd]; exact h2, by rw [if_pos hd]; exact h3⟩
    · exact ⟨a, p0, h1, by rw [if_neg hd]; rfl, by rw [if_neg hd]; exact ⟨by simp, ⟨normals, rfl, hl⟩, rfl, rfl, rfl, rfl⟩⟩
  generalize hpos : (if t.distort then
          moved (decide (r.coins.x < t.flip.x), decide (r.coins.y < t.flip.y), decide (r.coins.z < t.flip.z))
            (a.map cosF) (a.map sinF) (t.rndJitter r) (t.rndScale r)
        else id) = pos at m1
  obtain ⟨ns1, n1, n1l⟩ := m1.normals
  obtain ⟨q2, hq2, m2⟩ := orient_ok t hs q1 ns1 n1 n1l
  obtain ⟨ns2, n2, n2l⟩ := m2.normals
  have hpts : q2.points = xyz.map pos := by rw [m2.points, m1.points, List.map_id]
  have hal : Aligned q2 := by
    refine ⟨?_, ?_, ?_, ?_⟩
    · intro n hn; rw [n2] at hn; cases hn; exact n2l
    · intro n hn; rw [m2.features, m1.features] at hn; cases hn
    · intro n hn; rw [m2.labels, m1.labels] at hn; cases hn
    · intro n hn; rw [m2.batchId, m1.batchId] at hn; cases hn
  obtain ⟨q, mask, c1, c2, c3, c4, c5, c6, _⟩ := C59_clip q2 hal (-1) 1 (1 / 100)
  have hin : ∀ v ∈ q.points, InCube v := by
    intro v hv
    have hx := c6 v hv .x
    have hy := c6 v hv .y
    have hz := c6 v hv .z
    simp only [V3.along] at hx hy hz
    refine ⟨⟨?_, ?_⟩, ⟨?_, ?_⟩, ⟨?_, ?_⟩⟩ <;> linarith [hx.1, hx.2, hy.1, hy.2, hz.1, hz.2]
  have hleg : LegalBuild (Octree.new t.depth t.fullDepth 1 0 : Octree F) q (List.replicate q.points.length 0) := by
    refine ⟨hs.depth, hs.full, by simp [Octree.new], ?_, ⟨by simp, by simp [Octree.new], ?_, c5.normals, c5.features⟩, hin⟩
    · rw [c4]
      show q2.batchSize = 1
      rw [m2.batchSize, m1.batchSize]
    · intro h; exact absurd rfl h
  obtain ⟨o, idx, b1, b2, b3, b4, b5, cells, ch, b6⟩ := C07_build nrm divF _ q _ hleg
  obtain ⟨d1, d2, d3, _⟩ := b6 t.depth le_rfl
  have d3' := d3 hs.full
  have occ : ∀ c, c ∈ nonEmpty (cells t.depth) (ch t.depth) ↔ c.b = 0 ∧ ∃ v ∈ q.points, CubeContains t.depth c v := by
    intro c
    rw [d3', occupied_iff_mem]
    constructor
    · rintro ⟨v, hv, hc⟩
      rw [zip_zeros] at hv
      obtain ⟨w, hw, e⟩ := List.mem_map.mp hv
      obtain ⟨rfl, e2⟩ := Prod.mk.inj e
      exact ⟨e2.symm, w, hw, hc⟩
    · rintro ⟨hb, v, hv, hc⟩
      refine ⟨v, ?_, hc⟩
      rw [zip_zeros, hb]
      exact List.mem_map.mpr ⟨v, hv, rfl⟩
  refine ⟨a, q, mask, o, cells t.depth, ch t.depth, pos, ha, ?_, hpos.symm, ?_, ?_, ?_, ?_, c5, ?_, b5, b2, b3, b4, d1, d2,
    occ, ?_⟩
  · unfold Transform.call
    rw [hp0]
    simp only [bind, Except.bind]
    unfold Transform.transform
    rw [hq1]
    simp only [bind, Except.bind]
    rw [hq2]
    simp only [c1]
    unfold Transform.points2octree
    rw [b1]
    rfl
  · rw [c2, hpts, List.length_map]
  · intro i v hv
    have := c3 i (pos v) (by rw [hpts, List.getElem?_map, hv]; rfl)
    rw [this]
    norm_num
  · rw [c4]
    show rowsAt q2.points _ = _
    rw [hpts]
  · intro v hv ax
    have := c6 v hv ax
    constructor <;> [have := this.1; have := this.2] <;> norm_num at this ⊢ <;> linarith
  · rw [c4]
    show (q2.normals.map _).isSome
    rw [n2]; rfl
  · intro v hv
    have hc := (cubeContains_iff t.depth (cellAt t.depth 0 v) v (hin v hv)).mpr rfl
    exact ⟨_, (occ _).mpr ⟨rfl, v, hv, hc⟩, hc⟩

/-- Settings and draws meeting the hypotheses of `C71_transform`. -/
def exampleTransform : Transform :=
  ⟨2, 1, true, ⟨0, 180, 0⟩, ⟨1, 90, 1⟩, 1 / 4, false, 1 / 8, ⟨1 / 2, 0, 1 / 2⟩, "y"⟩
/-- See `exampleTransform`. -/
def exampleDrawn : Drawn := ⟨⟨0, 2, 0⟩, ⟨1 / 2, 1 / 4, 3 / 4⟩, ⟨1 / 4, 3 / 4, 3 / 4⟩, ⟨1 / 2, 0, 1 / 2⟩⟩

example : Sensible exampleTransform ∧ InRanges exampleTransform exampleDrawn := by
  constructor
  · constructor <;> simp [exampleTransform]
    norm_num
  · constructor <;> simp [exampleTransform, exampleDrawn] <;> norm_num

/-- The result for a cloud of two points, with the cosine and sine of the second angle replaced by `0` and `1` (of a
quarter turn): the second point is clipped. -/
example : ((Transform.call (F := ℚ) (L := Unit) id (fun c v => v / c) id (fun a => if a = 0 then 1 else 0)
    (fun a => if a = 0 then 0 else 1) exampleTransform exampleDrawn [⟨1 / 2, 1 / 4, 1 / 8⟩, ⟨1 / 2, 2, 1 / 8⟩]
    [⟨1, 0, 0⟩, ⟨0, 1, 0⟩]).toOption.map fun r => (r.1.points, r.2.1, r.2.2.nnumNempty 2)) =
    some ([⟨1 / 8, 7 / 64, 9 / 16⟩], [true, false], 1) := by
  decide +kernel

/-! ## C72 -/

namespace Spec

/-- The name contains the word. -/
def Mentions (key word : String) : Prop := word.toList <:+: key.toList

/-- The entries of a sequence of samples under a name are these. -/
def Column (batch : List (Dict (Entry F L X))) (key : String) (vs : List (Entry F L X)) : Prop :=
  batch.map (fun b => b.lookup key) = vs.map some

end Spec

theorem hasSub_iff (sub key : String) : hasSub sub key = true ↔ Mentions key sub := by
  unfold hasSub Mentions
  rw [List.any_eq_true, List.infix_iff_prefix_suffix]
  constructor
  · rintro ⟨t, h1, h2⟩
    exact ⟨t, List.isPrefixOf_iff_prefix.mp h2, (List.mem_tails _ _).mp h1⟩
  · rintro ⟨t, h1, h2⟩
    exact ⟨t, (List.mem_tails _ _).mpr h2, List.isPrefixOf_iff_prefix.mpr h1⟩

instance (key word : String) : Decidable (Mentions key word) := decidable_of_iff _ (hasSub_iff word key)

theorem Dict.lookup_set {α : Type} (d : Dict α) (k : String) (v : α) (k' : String) :
    (d.set k v).lookup k' = if k' = k then some v else d.lookup k' := by
  have hc : ∀ (k1 : String) (w : α) (d : Dict α), List.lookup k' ((k1, w) :: d) = if k' = k1 then some w else d.lookup k' := by
    intro k1 w d
    rw [List.lookup_cons]
    by_cases h : k' = k1
    · simp [h]
    · rw [if_neg h, beq_eq_false_iff_ne.mpr h]
  induction d with
  | nil =>
    unfold Dict.set
    rw [hc]
  | cons e d ih =>
    obtain ⟨k1, w⟩ := e
    unfold Dict.set
    by_cases h1 : k1 = k
    · subst h1
      rw [if_pos rfl, hc, hc]
      by_cases h : k' = k1 <;> simp [h]
    · rw [if_neg h1, hc, hc, ih]
      by_cases h : k' = k1
      · subst h; simp [h1]
      · simp [h]

/-- The loop of the collation, for entries that are all collated without an exception. -/
theorem collate_fold (toTensor : List X → M T) (mp : Bool) (batch : List (Dict (Entry F L X)))
    (E lab : String → Collated F L X T) (ks : List String) (d : Dict (Collated F L X T))
    (h : ∀ key ∈ ks, ∀ d, collateKey toTensor mp batch d key =
      .ok (if hasSub "label" key then (d.set key (E key)).set "label" (lab key) else d.set key (E key))) :
    ∃ out, ks.foldlM (collateKey toTensor mp batch) d = .ok out ∧
      (∀ key, key ≠ "label" → out.lookup key = if key ∈ ks then some (E key) else d.lookup key) ∧
      out.lookup "label" = ((ks.filter fun k => hasSub "label" k).getLast?.map lab).or
        (d.lookup "label") := by
  induction ks generalizing d with
  | nil => exact ⟨d, rfl, by simp, by simp⟩
  | cons k ks ih =>
    have hk := h k (by simp) d
    obtain ⟨out, h1, h2, h3⟩ := ih (if hasSub "label" k then (d.set k (E k)).set "label" (lab k) else d.set k (E k))
      (fun key hkey => h key (by simp [hkey]))
    refine ⟨out, by rw [List.foldlM_cons, hk]; exact h1, ?_, ?_⟩
    · intro key hne
      rw [h2 key hne]
      have : (if hasSub "label" k then (d.set k (E k)).set "label" (lab k) else d.set k (E k)).lookup key =
          if key = k then some (E k) else d.lookup key := by
        split
        · rw [Dict.lookup_set, if_neg hne, Dict.lookup_set]
        · rw [Dict.lookup_set]
      rw [this]
      by_cases h4 : key ∈ ks
      · simp [h4]
      · by_cases h5 : key = k
        · subst h5; simp
        · simp [h4, h5]
    · rw [h3]
      by_cases hl : hasSub "label" k = true
      · rw [if_pos hl, Dict.lookup_set, if_pos rfl, List.filter_cons_of_pos hl, List.getLast?_cons]
        cases (ks.filter fun k => hasSub "label" k).getLast? <;> simp
      · rw [if_neg hl, Dict.lookup_set, List.filter_cons_of_neg hl, if_neg]
        intro e
        subst e
        exact hl (by decide)

theorem column_get {batch : List (Dict (Entry F L X))} {key : String} {vs : List (Entry F L X)}
    (h : Column batch key vs) : batch.mapM (fun b => Dict.get b key) = .ok vs := by
  unfold Column at h
  induction batch generalizing vs with
  | nil =>
    cases vs with
    | nil => rfl
    | cons v vs => simp at h
  | cons b batch ih =>
    cases vs with
    | nil => simp at h
    | cons v vs =>
      rw [List.map_cons, List.map_cons, List.cons.injEq] at h
      rw [List.mapM_cons, ih h.2]
      unfold Dict.get
      rw [h.1]
      rfl

theorem mapM_asOctree (os : List (Octree F)) :
    (os.map Entry.octree).mapM (Entry.asOctree (F := F) (L := L) (X := X)) = .ok os := by
  induction os with
  | nil => rfl
  | cons o os ih => rw [List.map_cons, List.mapM_cons, ih]; rfl

theorem mapM_asPoints (ps : List (Points ℚ F L)) :
    (ps.map Entry.points).mapM (Entry.asPoints (F := F) (L := L) (X := X)) = .ok ps := by
  induction ps with
  | nil => rfl
  | cons o os ih => rw [List.map_cons, List.mapM_cons, ih]; rfl

theorem mapM_asOther (xs : List X) :
    (xs.map Entry.other).mapM (Entry.asOther (F := F) (L := L) (X := X)) = .ok xs := by
  induction xs with
  | nil => rfl
  | cons o os ih => rw [List.map_cons, List.mapM_cons, ih]; rfl

namespace Spec

/-- A batch that can be collated: every name of the first sample occurs in all samples; under names mentioning
"octree" there are octrees that can be merged, with `full_depth` at least 1; under names mentioning "points" there
are, if they are to be merged, point clouds with the same attributes on the same device; under names mentioning
"label" there are values that make up a tensor; no name mentions two of the words. -/
structure Collatable (toTensor : List X → M T) (mp : Bool) (b0 : Dict (Entry F L X)) (bs : List (Dict (Entry F L X))) :
    Prop where
  column : ∀ key ∈ b0.map Prod.fst, ∃ vs, Column (b0 :: bs) key vs
  octree : ∀ key ∈ b0.map Prod.fst, Mentions key "octree" → ∀ vs, Column (b0 :: bs) key vs →
    ∃ os D full dev, vs = os.map Entry.octree ∧ Mergeable os D full dev ∧ 1 ≤ full
  points : mp = true → ∀ key ∈ b0.map Prod.fst, Mentions key "points" → ∀ vs, Column (b0 :: bs) key vs →
    ∃ ps dev, vs = ps.map Entry.points ∧ SameAttributes ps ∧ ∀ p ∈ ps, p.device = dev
  label : ∀ key ∈ b0.map Prod.fst, Mentions key "label" → ∀ vs, Column (b0 :: bs) key vs →
    ∃ xs t, vs = xs.map Entry.other ∧ toTensor xs = .ok t
  one : ∀ key ∈ b0.map Prod.fst, ¬ (Mentions key "octree" ∧ Mentions key "points" ∧ mp = true) ∧
    ¬ (Mentions key "octree" ∧ Mentions key "label") ∧ ¬ (Mentions key "points" ∧ Mentions key "label" ∧ mp = true)

/-- The last name mentioning "label". -/
def lastLabel (keys : List String) : Option String := (keys.filter fun k => decide (Mentions k "label")).getLast?

end Spec

theorem column_unique {batch : List (Dict (Entry F L X))} {key : String} {vs vs' : List (Entry F L X)}
    (h : Column batch key vs) (h' : Column batch key vs') : vs = vs' := by
  unfold Column at h h'
  rw [h] at h'
  exact (List.map_injective_iff.mpr (Option.some_injective _)) h'

/-- **C72.** Collating a batch succeeds. Entries mentioning "octree" become the merged octree of the samples with
exact neighbour tables; entries mentioning "points" become, on request, the merged point cloud; the tensor of the last
entry mentioning "label" is stored under "label"; all other entries are the lists of the values of the samples. There
are no other entries. -/
theorem C72_collate (toTensor : List X → M T) (mp : Bool) (b0 : Dict (Entry F L X)) (bs : List (Dict (Entry F L X)))
    (h : Collatable toTensor mp b0 bs) :
    ∃ out, collate toTensor mp (b0 :: bs) = .ok out ∧
      (∀ key ∈ b0.map Prod.fst, ∀ os, Mentions key "octree" → Column (b0 :: bs) key (os.map Entry.octree) →
        ∃ o nb, Octree.merge os = .ok o ∧ out.lookup key = some (.octree { o with neighs := nb }) ∧
          o.batchSize = bs.length + 1 ∧ o.Valid o.depth ∧
          ∀ d, 1 ≤ d → d ≤ o.depth → NeighExact o.batchSize d o.keys nb) ∧
      (mp = true → ∀ key ∈ b0.map Prod.fst, ∀ ps, Mentions key "points" → Column (b0 :: bs) key (ps.map Entry.points) →
        ∃ p, Points.merge ps true = .ok p ∧ out.lookup key = some (.points p)) ∧
      (∀ key ∈ b0.map Prod.fst, ∀ vs, ¬ Mentions key "octree" → ¬ (Mentions key "points" ∧ mp = true) → key ≠ "label" →
        Column (b0 :: bs) key vs → out.lookup key = some (.list vs)) ∧
      (∀ key xs t, lastLabel (b0.map Prod.fst) = some key → Column (b0 :: bs) key (xs.map Entry.other) →
        toTensor xs = .ok t → out.lookup "label" = some (.tensor t)) ∧
      (∀ key, out.lookup key ≠ none → key ∈ b0.map Prod.fst ∨ key = "label" ∧ lastLabel (b0.map Prod.fst) ≠ none) := by
  have hE : ∀ key, ∃ e l : Collated F L X T, key ∈ b0.map Prod.fst →
      (∀ d, collateKey toTensor mp (b0 :: bs) d key =
        .ok (if hasSub "label" key then (d.set key e).set "label" l else d.set key e)) ∧
      (Mentions key "octree" → ∀ os, Column (b0 :: bs) key (os.map Entry.octree) →
        ∃ o nb, Octree.merge os = .ok o ∧ e = .octree { o with neighs := nb } ∧ o.batchSize = bs.length + 1 ∧
          o.Valid o.depth ∧ ∀ d, 1 ≤ d → d ≤ o.depth → NeighExact o.batchSize d o.keys nb) ∧
      (mp = true → Mentions key "points" → ∀ ps, Column (b0 :: bs) key (ps.map Entry.points) →
        ∃ p, Points.merge ps true = .ok p ∧ e = .points p) ∧
      (¬ Mentions key "octree" → ¬ (Mentions key "points" ∧ mp = true) → ∀ vs, Column (b0 :: bs) key vs → e = .list vs) ∧
      (Mentions key "label" → ∀ xs t, Column (b0 :: bs) key (xs.map Entry.other) → toTensor xs = .ok t → l = .tensor t) := by
    intro key
    by_cases hk : key ∈ b0.map Prod.fst
    swap
    · exact ⟨.list [], .list [], fun h => absurd h hk⟩
    obtain ⟨vs, hvs⟩ := h.column key hk
    obtain ⟨o1, o2, o3⟩ := h.one key hk
    have hlen : vs.length = bs.length + 1 := by
      have := congrArg List.length hvs
      simpa using this.symm
    by_cases ho : Mentions key "octree"
    · obtain ⟨os, D, full, dev, rfl, hm, hf⟩ := h.octree key hk ho vs hvs
      obtain ⟨o, g1, g2, g3, g4, g5, g6, _⟩ := C16_merge os D full dev hm
      obtain ⟨nb, n1, n2⟩ := C21_neigh_exact o (by rw [g2]; exact g6) (by rw [g3]; exact hf)
      refine ⟨.octree { o with neighs := nb }, .list [], fun _ => ⟨?_, ?_, ?_, ?_, ?_⟩⟩
      · intro d
        unfold collateKey
        rw [column_get hvs]
        simp only [bind, Except.bind]
        unfold collateOctree
        rw [if_pos ((hasSub_iff _ _).mpr ho), mapM_asOctree]
        simp only [bind, Except.bind, g1, n1, pure, Except.pure]
        unfold collatePoints
        rw [if_neg (by
          rw [Bool.and_eq_true, hasSub_iff]
          exact fun hh => o1 ⟨ho, hh.1, hh.2⟩)]
        simp only [pure, Except.pure]
        unfold collateLabel
        have : ¬ hasSub "label" key = true := by
          rw [hasSub_iff]
          exact fun hh => o2 ⟨ho, hh⟩
        rw [if_neg this, if_neg this]
        rfl
      · intro _ os' hos'
        have := column_unique hos' hvs
        have inj : Function.Injective (Entry.octree (F := F) (L := L) (X := X)) := fun a b hab => by injection hab
        obtain rfl := (List.map_injective_iff.mpr inj) this
        refine ⟨o, nb, g1, rfl, ?_, by rw [g2]; exact g6, n2⟩
        rw [g5]
        simpa using hlen
      · intro hmp hp
        exact absurd ⟨ho, hp, hmp⟩ o1
      · intro hn; exact absurd ho hn
      · intro hl; exact absurd ⟨ho, hl⟩ o2
    have hno : collateOctree key vs = (pure (.list vs) : M (Collated F L X T)) := by
      unfold collateOctree
      rw [if_neg (by rw [hasSub_iff]; exact ho)]
    by_cases hp : Mentions key "points" ∧ mp = true
    · obtain ⟨hp, hmp⟩ := hp
      obtain ⟨ps, dev, rfl, ha, hd⟩ := h.points hmp key hk hp vs hvs
      have hne : ps ≠ [] := by
        intro e
        subst e
        simp at hlen
      obtain ⟨q, hm⟩ : ∃ q, Points.merge ps true = .ok q := by
        obtain ⟨rn, rf, rl, hm, _⟩ := pointsMerge_ok ps hne ha dev hd
        exact ⟨_, hm⟩
      refine ⟨.points q, .list [], fun _ => ⟨?_, ?_, ?_, ?_, ?_⟩⟩
      rotate_left
      · intro hh; exact absurd hh ho
      · intro _ _ ps' hps'
        have := column_unique hps' hvs
        have inj : Function.Injective (Entry.points (F := F) (L := L) (X := X)) := fun a b hab => by injection hab
        obtain rfl := (List.map_injective_iff.mpr inj) this
        exact ⟨_, hm, rfl⟩
      · intro _ hn; exact absurd ⟨hp, hmp⟩ hn
      · intro hl; exact absurd ⟨hp, hl, hmp⟩ o3
      · intro d
        unfold collateKey
        rw [column_get hvs]
        simp only [bind, Except.bind]
        rw [hno]
        simp only [pure, Except.pure]
        unfold collatePoints
        rw [if_pos (by
          rw [Bool.and_eq_true, hasSub_iff]
          exact ⟨hp, hmp⟩)]
        simp only [mapM_asPoints, bind, Except.bind, hm, pure, Except.pure]
        unfold collateLabel
        have : ¬ hasSub "label" key = true := by
          rw [hasSub_iff]
          exact fun hh => o3 ⟨hp, hh, hmp⟩
        rw [if_neg this, if_neg this]
        rfl
    · have hnp : collatePoints mp key (.list vs) = (pure (.list vs) : M (Collated F L X T)) := by
        unfold collatePoints
        rw [if_neg (by
          rw [Bool.and_eq_true, hasSub_iff]
          exact hp)]
      by_cases hl : Mentions key "label"
      · obtain ⟨xs, t, rfl, ht⟩ := h.label key hk hl vs hvs
        refine ⟨.list (xs.map Entry.other), .tensor t, fun _ => ⟨?_, ?_, ?_, ?_, ?_⟩⟩
        · intro d
          unfold collateKey
          rw [column_get hvs]
          simp only [bind, Except.bind]
          rw [hno]
          simp only [pure, Except.pure]
          rw [hnp]
          simp only [pure, Except.pure]
          unfold collateLabel
          rw [if_pos ((hasSub_iff _ _).mpr hl), if_pos ((hasSub_iff _ _).mpr hl)]
          simp only [mapM_asOther, bind, Except.bind, ht, pure, Except.pure]
        · intro hh; exact absurd hh ho
        · intro h1 h2; exact absurd ⟨h2, h1⟩ hp
        · intro _ _ vs' hvs'; rw [column_unique hvs hvs']
        · intro _ xs' t' hxs' ht'
          have := column_unique hxs' hvs
          have inj : Function.Injective (Entry.other (F := F) (L := L) (X := X)) := fun a b hab => by injection hab
          obtain rfl := (List.map_injective_iff.mpr inj) this
          rw [ht] at ht'
          cases ht'
          rfl
      · refine ⟨.list vs, .list [], fun _ => ⟨?_, ?_, ?_, ?_, ?_⟩⟩
        · intro d
          unfold collateKey
          rw [column_get hvs]
          simp only [bind, Except.bind]
          rw [hno]
          simp only [pure, Except.pure]
          rw [hnp]
          simp only [pure, Except.pure]
          unfold collateLabel
          have : ¬ hasSub "label" key = true := by rw [hasSub_iff]; exact hl
          rw [if_neg this, if_neg this]
          rfl
        · intro hh; exact absurd hh ho
        · intro h1 h2; exact absurd ⟨h2, h1⟩ hp
        · intro _ _ vs' hvs'; rw [column_unique hvs hvs']
        · intro hh; exact absurd hh hl
  choose E lab hE using hE
  obtain ⟨out, f1, f2, f3⟩ := collate_fold toTensor mp (b0 :: bs) E lab (b0.map Prod.fst) [] fun key hk => (hE key hk).1
  have hnl : ∀ key, Mentions key "octree" ∨ Mentions key "points" → key ≠ "label" := by
    rintro key hm rfl
    revert hm
    decide
  have hll : lastLabel (b0.map Prod.fst) = ((b0.map Prod.fst).filter fun k => hasSub "label" k).getLast? := by
    unfold lastLabel
    congr 2
    funext k
    rw [Bool.eq_iff_iff, decide_eq_true_eq, hasSub_iff]
  refine ⟨out, f1, ?_, ?_, ?_, ?_, ?_⟩
  · intro key hk os hm hc
    obtain ⟨o, nb, h1, h2, h3⟩ := (hE key hk).2.1 hm os hc
    exact ⟨o, nb, h1, by rw [f2 key (hnl key (.inl hm)), if_pos hk, h2], h3⟩
  · intro hmp key hk ps hm hc
    obtain ⟨p, h1, h2⟩ := (hE key hk).2.2.1 hmp hm ps hc
    exact ⟨p, h1, by rw [f2 key (hnl key (.inr hm)), if_pos hk, h2]⟩
  · intro key hk vs h1 h2 h3 hc
    rw [f2 key h3, if_pos hk, (hE key hk).2.2.2.1 h1 h2 vs hc]
  · intro key xs t hlast hc ht
    rw [f3, ← hll, hlast]
    have hmem : key ∈ (b0.map Prod.fst).filter fun k => decide (Mentions k "label") := List.mem_of_getLast? hlast
    rw [List.mem_filter] at hmem
    have := (hE key hmem.1).2.2.2.2 (by simpa using hmem.2) xs t hc ht
    simp [this]
  · intro key hk
    by_cases hl : key = "label"
    · subst hl
      right
      refine ⟨rfl, ?_⟩
      rw [f3, ← hll] at hk
      intro e
      rw [e] at hk
      simp at hk
    · left
      by_contra hn
      rw [f2 key hl, if_neg hn] at hk
      exact hk rfl

/-- An empty batch raises. -/
theorem C72_empty (toTensor : List X → M T) (mp : Bool) :
    collate toTensor mp ([] : List (Dict (Entry F L X))) = .error .index := rfl

/-- A batch whose samples have a name missing in a later sample raises KeyError. -/
theorem C72_missing (toTensor : List X → M T) (mp : Bool) (b0 b1 : Dict (Entry F L X)) (key : String) (v : Entry F L X)
    (h0 : b0.head? = some (key, v)) (h1 : b1.lookup key = none) : collate toTensor mp [b0, b1] = .error .key := by
  cases b0 with
  | nil => cases h0
  | cons e b0 =>
    simp only [List.head?_cons, Option.some.injEq] at h0
    subst h0
    unfold collate
    simp only [List.map_cons, List.foldlM_cons]
    unfold collateKey
    simp [Dict.get, h1, bind, Except.bind, pure, Except.pure]

/-- **A later entry mentioning "label" replaces the entry named "label"**: the labels of the samples are lost although
no exception is raised. -/
theorem C72_label_lost (xs ys : X × X) (hxy : [ys.1, ys.2] ≠ [xs.1, xs.2]) :
    ∃ out : Dict (Collated F L X (List X)), collate (fun l => .ok l) false
      [[("label", .other xs.1), ("label_weight", .other ys.1)], [("label", .other xs.2), ("label_weight", .other ys.2)]] = .ok out ∧
      out.lookup "label" = some (.tensor [ys.1, ys.2]) ∧ out.lookup "label" ≠ some (.tensor [xs.1, xs.2]) := by
  have hc : Collatable (F := F) (L := L) (fun l => (.ok l : M (List X))) false
      [("label", .other xs.1), ("label_weight", .other ys.1)] [[("label", .other xs.2), ("label_weight", .other ys.2)]] := by
    refine ⟨?_, ?_, (fun h => by cases h), ?_, ?_⟩
    · intro key hk
      simp only [List.map_cons, List.map_nil, List.mem_cons, List.not_mem_nil, or_false] at hk
      rcases hk with rfl | rfl
      · exact ⟨[.other xs.1, .other xs.2], rfl⟩
      · exact ⟨[.other ys.1, .other ys.2], rfl⟩
    · intro key hk hm
      simp only [List.map_cons, List.map_nil, List.mem_cons, List.not_mem_nil, or_false] at hk
      rcases hk with rfl | rfl <;> exact absurd hm (by decide)
    · intro key hk hm vs hvs
      simp only [List.map_cons, List.map_nil, List.mem_cons, List.not_mem_nil, or_false] at hk
      rcases hk with rfl | rfl
      · exact ⟨[xs.1, xs.2], _, column_unique (vs' := [.other xs.1, .other xs.2]) hvs rfl, rfl⟩
      · exact ⟨[ys.1, ys.2], _, column_unique (vs' := [.other ys.1, .other ys.2]) hvs rfl, rfl⟩
    · intro key hk
      simp only [List.map_cons, List.map_nil, List.mem_cons, List.not_mem_nil, or_false] at hk
      rcases hk with rfl | rfl <;> decide
  obtain ⟨out, h1, _, _, _, h2, _⟩ := C72_collate _ _ _ _ hc
  have h3 := h2 "label_weight" [ys.1, ys.2] [ys.1, ys.2] (by
    show lastLabel ["label", "label_weight"] = _
    decide +kernel) rfl rfl
  refine ⟨out, h1, h3, ?_⟩
  rw [h3]
  intro hh
  injection hh with hh
  injection hh with hh
  exact hxy hh

/-- The hypotheses of `C72_collate` hold for a batch of two samples with an octree, a point cloud, a label and a file
name each. -/
example : ∃ (o : Octree ℚ), Collatable (L := Unit) (X := String) (T := List String) (fun l => .ok l) true
    [("octree", .octree o), ("points", .points cloudE), ("label", .other "3"), ("filename", .other "a.ply")]
    [[("octree", .octree o), ("points", .points cloudE), ("label", .other "5"), ("filename", .other "b.ply")]] := by
  obtain ⟨o, idx, h0, h1, h2, h3⟩ := example_mergeable
  refine ⟨o, ?_, ?_, ?_, ?_, ?_⟩
  · intro key hk
    simp only [List.map_cons, List.map_nil, List.mem_cons, List.not_mem_nil, or_false] at hk
    rcases hk with rfl | rfl | rfl | rfl
    · exact ⟨[.octree o, .octree o], rfl⟩
    · exact ⟨[.points cloudE, .points cloudE], rfl⟩
    · exact ⟨[.other "3", .other "5"], rfl⟩
    · exact ⟨[.other "a.ply", .other "b.ply"], rfl⟩
  · intro key hk hm vs hvs
    simp only [List.map_cons, List.map_nil, List.mem_cons, List.not_mem_nil, or_false] at hk
    rcases hk with rfl | rfl | rfl | rfl
    · refine ⟨[o, o], 2, 1, o.device, (column_unique (vs' := [.octree o, .octree o]) hvs rfl), h1, le_rfl⟩
    all_goals (exact absurd hm (by decide))
  · intro _ key hk hm vs hvs
    simp only [List.map_cons, List.map_nil, List.mem_cons, List.not_mem_nil, or_false] at hk
    rcases hk with rfl | rfl | rfl | rfl
    · exact absurd hm (by decide)
    · refine ⟨[cloudE, cloudE], 0, (column_unique (vs' := [.points cloudE, .points cloudE]) hvs rfl), ?_, ?_⟩
      · intro p hp p' hp'; simp at hp hp'; subst hp; subst hp'; simp
      · intro p hp; simp at hp; subst hp; rfl
    all_goals (exact absurd hm (by decide))
  · intro key hk hm vs hvs
    simp only [List.map_cons, List.map_nil, List.mem_cons, List.not_mem_nil, or_false] at hk
    rcases hk with rfl | rfl | rfl | rfl
    · exact absurd hm (by decide)
    · exact absurd hm (by decide)
    · exact ⟨["3", "5"], _, (column_unique (vs' := [.other "3", .other "5"]) hvs rfl), rfl⟩
    · exact absurd hm (by decide)
  · intro key hk
    simp only [List.map_cons, List.map_nil, List.mem_cons, List.not_mem_nil, or_false] at hk
    rcases hk with rfl | rfl | rfl | rfl <;> decide

end Ocnn
