import Verif.PropsDataset

/-! `Transform.transform` on clouds with any attributes. -/

namespace Ocnn

namespace Spec

/-- Where `transform` moves a point, for the angles `a`. -/
def placed (t : Transform) (r : Drawn) (cosF sinF : ℚ → ℚ) (a : V3 ℚ) : V3 ℚ → V3 ℚ :=
  if t.distort then moved (decide (r.coins.x < t.flip.x), decide (r.coins.y < t.flip.y), decide (r.coins.z < t.flip.z))
    (a.map cosF) (a.map sinF) (t.rndJitter r) (t.rndScale r)
  else id

/-- An octree of one sample that stores a cloud: well-formed, and its finest non-empty nodes are exactly the cells that contain a point. -/
def Stores {F : Type} (depth full : Nat) (pts : List (V3 ℚ)) (o : Octree F) : Prop :=
  o.Valid depth ∧ o.depth = depth ∧ o.fullDepth = full ∧ o.batchSize = 1 ∧
  ∃ (cells : List Cell) (ch : List Int), CellsOf 1 depth o.keys cells ∧ o.children depth = some ch ∧
    (∀ c, c ∈ nonEmpty cells ch ↔ c.b = 0 ∧ ∃ v ∈ pts, CubeContains depth c v) ∧
    (∀ v ∈ pts, ∃ c ∈ nonEmpty cells ch, CubeContains depth c v)

end Spec

open Spec
variable {F L : Type}

/-- The points are moved, the other attributes kept, the normals replaced by as many. -/
structure MovedTo (T : V3 ℚ → V3 ℚ) (p q : Points ℚ F L) : Prop where
  points : q.points = p.points.map T
  some : q.normals.isSome = p.normals.isSome
  length : ∀ ns, q.normals = Option.some ns → ns.length = q.points.length
  features : q.features = p.features
  labels : q.labels = p.labels
  batchId : q.batchId = p.batchId
  batchSize : q.batchSize = p.batchSize

theorem Moved.to {T : V3 ℚ → V3 ℚ} {p q : Points ℚ F L} (h : Moved T p q) (hp : p.normals.isSome = true) : MovedTo T p q := by
  obtain ⟨ns, n1, n2⟩ := h.normals
  refine ⟨h.points, by rw [n1, hp]; rfl, fun m hm => ?_, h.features, h.labels, h.batchId, h.batchSize⟩
  rw [n1] at hm
  cases hm
  exact n2

theorem augment_any (rt cosF sinF : ℚ → ℚ) (t : Transform) (r : Drawn) (hs : Sensible t) (hr : InRanges t r) (p : Points ℚ F L)
    (ha : Aligned p) :
    ∃ a q, t.rndAngle r = .ok a ∧ t.augment rt cosF sinF r p = .ok q ∧
      MovedTo (moved (decide (r.coins.x < t.flip.x), decide (r.coins.y < t.flip.y), decide (r.coins.z < t.flip.z))
        (a.map cosF) (a.map sinF) (t.rndJitter r) (t.rndScale r)) p q := by
  cases hn : p.normals with
  | some ns =>
    obtain ⟨a, q, h1, h2, h3⟩ := augment_ok rt cosF sinF t r hs hr p ns hn (ha.normals ns hn)
    exact ⟨a, q, h1, h2, h3.to (by rw [hn]; rfl)⟩
  | none =>
    obtain ⟨⟨a, ha', _⟩, h2, _, _⟩ := C71_parameters t r hs hr
    have hf : (t.rndScale r).x ≠ 0 ∧ (t.rndScale r).y ≠ 0 ∧ (t.rndScale r).z ≠ 0 :=
      ⟨(h2 .x).2.2.ne', (h2 .y).2.2.ne', (h2 .z).2.2.ne'⟩
    have e1 := C62_flip p (t.rndFlip r) (rndFlip_letters t r)
    generalize hp1 : ({ p with
      points := p.points.map (flipped (t.rndFlip r).toList)
      normals := p.normals.map (List.map (flipped (t.rndFlip r).toList)) } : Points ℚ F L) = p1 at e1
    obtain ⟨q, hq, q1, q2, q3, q4, q5, q6, q7, q8, _⟩ := C63_scale rt
      ((p1.rotate (a.map cosF) (a.map sinF)).translate (t.rndJitter r)) (t.rndScale r) hf
    have hqn : q.normals = none := q8 (by simp only [Points.translate, Points.rotate, ← hp1, hn, Option.map_none])
    refine ⟨a, q, ha', ?_, ⟨?_, by rw [hqn, hn], fun ns h => (by rw [hqn] at h; cases h), ?_, ?_, ?_, ?_⟩⟩
    · unfold Transform.augment
      rw [ha']
      simp only [bind, Except.bind, e1]
      exact hq
    · rw [q1]
      simp only [Points.translate, Points.rotate, ← hp1, List.map_map]
      refine List.map_congr_left fun v _ => ?_
      simp only [Function.comp, rotMat_apply, flipped_rnd, moved, decide_eq_true_eq]
      rfl
    · rw [q2, ← hp1]; rfl
    · rw [q3, ← hp1]; rfl
    · rw [q4, ← hp1]; rfl
    · rw [q5, ← hp1]; rfl

theorem orient_any (t : Transform) (hs : Sensible t) (p : Points ℚ F L) (hl : ∀ ns, p.normals = some ns → ns.length = p.points.length) :
    ∃ q, (if t.orientNormal ≠ "" then p.orientNormal t.orientNormal else pure p : M (Points ℚ F L)) = .ok q ∧ MovedTo id p q := by
  cases hn : p.normals with
  | some ns =>
    obtain ⟨q, h1, h2⟩ := orient_ok t hs p ns hn (hl ns hn)
    exact ⟨q, h1, h2.to (by rw [hn]; rfl)⟩
  | none =>
    refine ⟨p, ?_, by simp, rfl, hl, rfl, rfl, rfl, rfl⟩
    split
    · exact C65_no_normals p _ hn
    · rfl

/-- `transform` succeeds on every cloud; it keeps exactly the moved points strictly inside `(-0.99, 0.99)³`, in order, with their features and labels. -/
theorem transform_any (rt cosF sinF : ℚ → ℚ) (t : Transform) (r : Drawn) (hs : Sensible t) (hr : InRanges t r) (p : Points ℚ F L)
    (ha : Aligned p) :
    ∃ (a : V3 ℚ) (q : Points ℚ F L) (mask : List Bool), t.rndAngle r = .ok a ∧ t.transform rt cosF sinF r p = .ok (q, mask) ∧
      mask.length = p.points.length ∧
      (∀ (i : Nat) (v : V3 ℚ), p.points[i]? = some v → (mask[i]? = some true ↔ ∀ ax : Points.Axis,
        -0.99 < (placed t r cosF sinF a v).along ax ∧ (placed t r cosF sinF a v).along ax < 0.99)) ∧
      q.points = rowsAt (p.points.map (placed t r cosF sinF a)) (positions mask) ∧
      q.normals.isSome = p.normals.isSome ∧
      q.features = p.features.map (rowsAt · (positions mask)) ∧ q.labels = p.labels.map (rowsAt · (positions mask)) ∧
      q.batchId = p.batchId.map (rowsAt · (positions mask)) ∧ q.batchSize = p.batchSize ∧ Aligned q ∧
      (∀ v ∈ q.points, ∀ ax : Points.Axis, -0.99 < v.along ax ∧ v.along ax < 0.99) := by
  obtain ⟨a, q1, ha1, hq1, m1⟩ : ∃ a q1, t.rndAngle r = .ok a ∧
      (if t.distort then t.augment rt cosF sinF r p else pure p : M (Points ℚ F L)) = .ok q1 ∧ MovedTo (placed t r cosF sinF a) p q1 := by
    obtain ⟨a, q, h1, h2, h3⟩ := augment_any rt cosF sinF t r hs hr p ha
    unfold placed
    by_cases hd : t.distort = true
    · exact ⟨a, q, h1, by rw [if_pos hd]; exact h2, by rw [if_pos hd]; exact h3⟩
    · exact ⟨a, p, h1, by rw [if_neg hd]; rfl, by rw [if_neg hd]; exact ⟨by simp, rfl, ha.normals, rfl, rfl, rfl, rfl⟩⟩
  obtain ⟨q2, hq2, m2⟩ := orient_any t hs q1 m1.length
  have hpts : q2.points = p.points.map (placed t r cosF sinF a) := by rw [m2.points, m1.points, List.map_id]
  have hlen : q2.points.length = p.points.length := by rw [hpts, List.length_map]
  have hal : Aligned q2 := by
    refine ⟨m2.length, ?_, ?_, ?_⟩
    · intro n hn; rw [m2.features, m1.features] at hn; rw [hlen]; exact ha.features n hn
    · intro n hn; rw [m2.labels, m1.labels] at hn; rw [hlen]; exact ha.labels n hn
    · intro n hn; rw [m2.batchId, m1.batchId] at hn; rw [hlen]; exact ha.ids n hn
  obtain ⟨q, mask, c1, c2, c3, c4, c5, c6, _⟩ := C59_clip q2 hal (-1) 1 (1 / 100)
  refine ⟨a, q, mask, ha1, ?_, by rw [c2, hlen], ?_, ?_, ?_, ?_, ?_, ?_, ?_, c5, ?_⟩
  · unfold Transform.transform
    rw [hq1]
    simp only [bind, Except.bind]
    rw [hq2]
    exact c1
  · intro i v hv
    rw [c3 i _ (by rw [hpts, List.getElem?_map, hv]; rfl)]
    norm_num
  · rw [c4]
    show rowsAt q2.points _ = _
    rw [hpts]
  · rw [c4]
    show (q2.normals.map _).isSome = _
    rw [Option.isSome_map, m2.some, m1.some]
  · rw [c4]
    show q2.features.map _ = _
    rw [m2.features, m1.features]
  · rw [c4]
    show q2.labels.map _ = _
    rw [m2.labels, m1.labels]
  · rw [c4]
    show q2.batchId.map _ = _
    rw [m2.batchId, m1.batchId]
  · rw [c4]
    show q2.batchSize = _
    rw [m2.batchSize, m1.batchSize]
  · intro v hv ax
    have := c6 v hv ax
    norm_num at this ⊢
    exact this

theorem build_single [AddCommMonoid F] (nrm : V3 ℚ → V3 ℚ) (divF : ℚ → F → F) (depth full : Nat) (hd : depth ≤ 16) (hf : full ≤ depth)
    (q : Points ℚ F L) (ha : Aligned q) (hb : q.batchSize = 1) (hin : ∀ v ∈ q.points, InCube v) :
    ∃ o idx, Octree.build nrm divF (Octree.new depth full 1 0) q = .ok (o, idx) ∧ Stores depth full q.points o := by
  have hleg : LegalBuild (Octree.new depth full 1 0 : Octree F) q (List.replicate q.points.length 0) :=
    ⟨hd, hf, by simp [Octree.new], hb, ⟨by simp, by simp [Octree.new], fun h => absurd rfl h, ha.normals, ha.features⟩, hin⟩
  obtain ⟨o, idx, b1, b2, b3, b4, b5, cells, ch, b6⟩ := C07_build nrm divF _ q _ hleg
  obtain ⟨d1, d2, d3, _⟩ := b6 depth le_rfl
  have d3' := d3 hf
  have occ : ∀ c, c ∈ nonEmpty (cells depth) (ch depth) ↔ c.b = 0 ∧ ∃ v ∈ q.points, CubeContains depth c v := by
    intro c
    rw [d3', occupied_iff_mem]
    constructor
    · rintro ⟨v, hv, hc⟩
      rw [zip_zeros] at hv
      obtain ⟨w, hw, e⟩ := List.mem_map.mp hv
      obtain ⟨rfl, e2⟩ := Prod.mk.inj e
      exact ⟨e2.symm, w, hw, hc⟩
    · rintro ⟨hb, v, hv, hc⟩
      refine ⟨v, ?_, hc⟩
      rw [zip_zeros, hb]
      exact List.mem_map.mpr ⟨v, hv, rfl⟩
  refine ⟨o, idx, b1, b5, b2, b3, b4, cells depth, ch depth, d1, d2, occ, fun v hv => ?_⟩
  have hc := (cubeContains_iff depth (cellAt depth 0 v) v (hin v hv)).mpr rfl
  exact ⟨_, (occ _).mpr ⟨rfl, v, hv, hc⟩, hc⟩

end Ocnn
