import Verif.PropsFloatNormalize

/-! Property C165: clipping makes any cloud fit for building in single precision. -/

set_option linter.unusedSimpArgs false
set_option linter.unusedVariables false

namespace Ocnn
open Spec

variable {F L : Type}

theorem clipF32_eq (p : Points ℚ F L) (mn mx esp : ℚ) : p.clipF32 mn mx esp = p.clip (f32 (mn + esp)) (f32 (mx - esp)) 0 := by
  unfold Points.clipF32 Points.clip
  rw [add_zero, sub_zero]

theorem rowsAt_map {α β : Type} (f : α → β) (l : List α) (pos : List Nat) : Spec.rowsAt (l.map f) pos = (Spec.rowsAt l pos).map f := by
  unfold Spec.rowsAt
  rw [List.map_filterMap]
  congr 1
  funext i
  simp

/-- The bounds that `clip(-1, 1, esp)` uses are inside the cube, away from its upper faces. -/
theorem clip_bounds {esp : ℚ} (h1 : 1 / 2 ^ 22 ≤ esp) (h2 : esp ≤ 1) : -1 ≤ f32 (-1 + esp) ∧ f32 (1 - esp) < 1 - 1 / 2 ^ 24 := by
  have a := f32_abs_le (-1 + esp)
  have b := (le_abs_self _).trans (f32_abs_le (1 - esp))
  have a' := (abs_le.1 a).1
  rw [abs_of_nonpos (by linarith)] at a'
  rw [abs_of_nonneg (by linarith)] at b
  constructor
  · nlinarith
  · nlinarith

/-- **C165.** Whatever the coordinates of a cloud are, after `clip(min=-1, max=1, esp)` with a margin between `2^-22` and 1 the octree can be built in single precision:
the clipped cloud consists of the points whose coordinates are between the rounded bounds, with their attributes and samples, all of them are in the cube, and every
one of them is stored in a leaf of its sample whose cube contains it up to `2^-24`. -/
theorem C165_clip [AddCommMonoid F] (nrm : V3 ℚ → V3 ℚ) (divF : ℚ → F → F) (o : Octree F) (p : Points ℚ F L) (samples : List Nat) (ha : Aligned p)
    (hD : o.depth ≤ 16) (hf : o.fullDepth ≤ o.depth) (hB : o.batchSize ≤ 2 ^ 15) (hb : p.batchSize = o.batchSize) (hs : Samples o.batchSize p samples)
    (esp : ℚ) (h1 : 1 / 2 ^ 22 ≤ esp) (h2 : esp ≤ 1) :
    ∃ q mask o' idx cells ch, p.clipF32 (-1) 1 esp = .ok (q, mask) ∧ mask.length = p.points.length ∧
      (∀ (i : Nat) (v : V3 ℚ), p.points[i]? = some v → (mask[i]? = some true ↔ ∀ a : Points.Axis, f32 (-1 + esp) < v.along a ∧ v.along a < f32 (1 - esp))) ∧
      q = Spec.slice p (positions mask) ∧ (∀ v ∈ q.points, BelowTop v) ∧
      Octree.buildF32 nrm divF o q = .ok (o', idx) ∧ CellsOf o.batchSize o.depth o'.keys cells ∧ o'.children o.depth = some ch ∧ idx.length = q.points.length ∧
      ∀ (i : Nat) (v : V3 ℚ) (b : Nat), q.points[i]? = some v → (Spec.rowsAt samples (positions mask))[i]? = some b →
        ∃ (r : Nat) (c : Cell), idx[i]? = some r ∧ (nonEmpty cells ch)[r]? = some c ∧ c.b = b ∧ NearlyContains (1 / 2 ^ 24) o.depth c v := by
  obtain ⟨hl, hu⟩ := clip_bounds h1 h2
  obtain ⟨q, mask, c1, c2, c3, c4, c5, c6, -⟩ := C59_clip p ha (f32 (-1 + esp)) (f32 (1 - esp)) 0
  simp only [add_zero, sub_zero] at c3 c6
  have ht : ∀ v ∈ q.points, BelowTop v := by
    intro v hv
    have hx := c6 v hv .x
    have hy := c6 v hv .y
    have hz := c6 v hv .z
    simp only [V3.along] at hx hy hz
    refine ⟨⟨?_, ?_⟩, ⟨?_, ?_⟩, ⟨?_, ?_⟩⟩ <;> linarith [hx.1, hx.2, hy.1, hy.2, hz.1, hz.2]
  have hpos : ∀ i ∈ positions mask, i < p.points.length := by
    intro i hi; rw [← c2]; exact positions_lt _ i hi
  have hlen : (Spec.rowsAt samples (positions mask)).length = q.points.length := by
    rw [rowsAt_length _ _ (by rw [hs.length]; exact hpos), c4]
    exact (rowsAt_length p.points _ hpos).symm
  have hleg : LegalBuild o q (Spec.rowsAt samples (positions mask)) := by
    refine ⟨hD, hf, hB, by rw [c4]; exact hb, ⟨hlen, ?_, ?_, c5.normals, c5.features⟩, ?_⟩
    · intro b hb'
      obtain ⟨i, -, hi⟩ := mem_rowsAt hb'
      exact hs.lt b (List.mem_of_getElem? hi)
    · intro hB1
      rw [c4]
      show p.batchId.map (Spec.rowsAt · (positions mask)) = _
      rw [hs.ids hB1, Option.map_some, rowsAt_map]
    · intro v hv
      obtain ⟨⟨a1, a2⟩, ⟨a3, a4⟩, ⟨a5, a6⟩⟩ := ht v hv
      exact ⟨⟨a1, by linarith⟩, ⟨a3, by linarith⟩, ⟨a5, by linarith⟩⟩
  obtain ⟨o', idx, cells, ch, g1, g2, g3, g4, g5⟩ := C97_partial nrm divF o q _ hleg ht
  exact ⟨q, mask, o', idx, cells, ch, by rw [clipF32_eq, c1], c2, c3, c4, ht, g1, g2, g3, g4, g5⟩

/-- The margin is needed: with `esp = 0` there is a point that is not removed and that is stored far away from itself. -/
theorem C165_margin (D full : Nat) (hD : D ≤ 16) (hD1 : 1 ≤ D) (hf : full ≤ D) :
    ∃ (v : ℚ) (q : Points ℚ ℚ Unit) (o' : Octree ℚ) (idx : List Nat) (cells : List Cell) (ch : List Int), IsF32 v ∧
      (⟨[⟨v, v, v⟩], none, none, none, none, 1, none, 0⟩ : Points ℚ ℚ Unit).clipF32 (-1) 1 0 = .ok (q, [true]) ∧ q.points = [⟨v, v, v⟩] ∧
      Octree.buildF32 id (fun c v => v / c) (Octree.new D full 1 0) q = .ok (o', idx) ∧ CellsOf 1 D o'.keys cells ∧ o'.children D = some ch ∧
      ∀ c ∈ nonEmpty cells ch, ¬ NearlyContains (1 / 2 ^ 24) D c ⟨v, v, v⟩ := by
  obtain ⟨v, hv, hc, o', idx, cells, ch, h1, h2, h3, h4, h5⟩ := C97_violated D full hD hD1 hf
  have f1 : f32 (1 - 0) = 1 := by
    have : (1 : ℚ) - 0 = 2 ^ (0 : ℤ) := by norm_num
    rw [this, f32_exact (isF32_pow _)]; norm_num
  have f2 : f32 (-1 + 0) = -1 := by
    have : IsF32 (-1 + 0) := ⟨-1, 0, by norm_num, by norm_num⟩
    rw [f32_exact this]; norm_num
  have hne : -1 < v := by
    rcases lt_or_eq_of_le hc.1.1 with h | h
    · exact h
    · exfalso
      obtain ⟨c, hcc⟩ := List.exists_mem_of_ne_nil _ h4
      obtain ⟨e, hn⟩ := h5 c hcc
      refine hn ⟨⟨v, v, v⟩, by simp, by simp, by simp, ?_⟩
      rw [e]
      have h' : v = -1 := h.symm
      rw [h']
      have hp : (0 : ℚ) < 2 / 2 ^ D := by positivity
      have : SideContains D 0 (-1) := ⟨by simp, by simpa using hp⟩
      exact ⟨this, this, this⟩
  have hlt : v < 1 := hc.1.2
  refine ⟨v, ⟨[⟨v, v, v⟩], none, none, none, none, 1, none, 0⟩, o', idx, cells, ch, hv, ?_, rfl, h1, h2, h3, fun c hcc => (h5 c hcc).2⟩
  unfold Points.clipF32
  rw [f1, f2]
  simp [Points.inboxMask, hne, hlt, Points.getItem, boolIndex, Points.sliceAttr, bind, Except.bind, pure, Except.pure, maskSel]

/-- The default margin of the data pipeline, 0.01, is large enough. -/
example : (1 : ℚ) / 2 ^ 22 ≤ 1 / 100 ∧ (1 : ℚ) / 100 ≤ 1 := by norm_num

/-- The cloud with the large coordinates of `C164_violated_large` is clipped to nothing; one with a point inside keeps it. -/
example : ∃ (q : Points ℚ ℚ Unit) (mask : List Bool) (o' : Octree ℚ) (idx : List Nat),
    (⟨[⟨1 / 2, 1 / 4, -1 / 2⟩, ⟨1, 0, 0⟩], none, none, none, none, 1, none, 0⟩ : Points ℚ ℚ Unit).clipF32 (-1) 1 (1 / 100) = .ok (q, mask) ∧ mask.length = 2 ∧
    Octree.buildF32 id (fun c v => v / c) (Octree.new 6 2 1 0) q = .ok (o', idx) ∧ (∀ v ∈ q.points, BelowTop v) := by
  obtain ⟨q, mask, o', idx, -, -, h1, h2, -, -, h5, h6, -⟩ := C165_clip id (fun c v => v / c) (Octree.new 6 2 1 0)
    (⟨[⟨1 / 2, 1 / 4, -1 / 2⟩, ⟨1, 0, 0⟩], none, none, none, none, 1, none, 0⟩ : Points ℚ ℚ Unit) [0, 0] ⟨by simp, by simp, by simp, by simp⟩
    (by simp [Octree.new]) (by simp [Octree.new]) (by simp [Octree.new]) rfl ⟨rfl, by simp [Octree.new], by simp [Octree.new], by simp, by simp⟩ (1 / 100)
    (by norm_num) (by norm_num)
  exact ⟨q, mask, o', idx, h1, h2, h6, h5⟩

end Ocnn
