import Verif.BuildFacts
import Verif.PropsQuery
import Mathlib.Data.List.Perm.Basic

/-! Properties C07, C08, C09, C10, C11, C12, C13, C14, C28, C29: building an octree from a point cloud. -/

set_option linter.unusedSimpArgs false

namespace Ocnn
open Spec
variable {F L : Type}

/-- A legal call of `build_octree`: the limits of the key format, one sample index per point, matching signal
heights, all points in `[-1, 1)³`. -/
structure LegalBuild (o : Octree F) (pc : Points ℚ F L) (samples : List Nat) : Prop where
  depth : o.depth ≤ 16
  full : o.fullDepth ≤ o.depth
  batch : o.batchSize ≤ 2 ^ 15
  same_batch : pc.batchSize = o.batchSize
  cloud : Samples o.batchSize pc samples
  inCube : ∀ p ∈ pc.points, InCube p

/-- C07 (and C09, C10): building succeeds; the octree is well-formed; at every depth from `full_depth` on the
non-empty nodes are exactly the cells containing a point of their sample; below `full_depth` a node exists iff its
parent is non-empty; up to `full_depth` every cell is a node. -/
theorem C07_build [AddCommMonoid F] (nrm : V3 ℚ → V3 ℚ) (divF : ℚ → F → F) (o : Octree F) (pc : Points ℚ F L)
    (samples : List Nat) (h : LegalBuild o pc samples) :
    ∃ o' idx, Octree.build nrm divF o pc = .ok (o', idx) ∧
      o'.depth = o.depth ∧ o'.fullDepth = o.fullDepth ∧ o'.batchSize = o.batchSize ∧ o'.Valid o.depth ∧
      ∃ (cells : Nat → List Cell) (ch : Nat → List Int), ∀ d ≤ o.depth,
        CellsOf o.batchSize d o'.keys (cells d) ∧ o'.children d = some (ch d) ∧
        (o.fullDepth ≤ d → ∀ c, c ∈ nonEmpty (cells d) (ch d) ↔ Occupied pc.points samples d c) ∧
        (d ≤ o.fullDepth → ∀ c, c ∈ cells d ↔ c.InRange o.batchSize d) ∧
        (d < o.depth → ∀ c, c ∈ cells (d + 1) ↔ c.parent ∈ nonEmpty (cells d) (ch d)) := by
  obtain ⟨S, hO, hm, hS, hb⟩ := build_cube nrm divF o pc samples h.cloud h.same_batch h.inCube h.depth h.full h.batch
  have w := builtState_wf nrm divF o pc h.depth h.full h.batch S hO
    ((pointCells o.depth pc samples).map (Cell.key o.depth))
  refine ⟨_, _, hb, rfl, rfl, rfl, w.valid, layerCells o.batchSize (occMasks o.batchSize o.fullDepth S),
    fun d => number 0 (occMasks o.batchSize o.fullDepth S d), ?_⟩
  intro d hd
  refine ⟨w.cellsOf d hd, w.children d hd, ?_, ?_, ?_⟩
  · intro hf c
    rw [hO.nempty d hd hf, hm d hd c]
  · intro hf c
    rw [(hO.layers d hd).1, occLayer_le hf]
    exact full_mem _ _ _ (fun i _ => fullMasks_true _ i) (fun i _ => fullMasks_len _ i) c
  · intro hd' c
    rw [mem_layer_succ, nonEmpty_eq _ _ _ (occMasks_length hO d hd)]

/-- C09 (and C10 for built octrees): the octree is well-formed in the sense of `Spec.WellFormed`, up to its finest
layer, and its full layers list every cell of every sample in key order. -/
theorem C09_invariants [AddCommMonoid F] (nrm : V3 ℚ → V3 ℚ) (divF : ℚ → F → F) (o : Octree F) (pc : Points ℚ F L)
    (samples : List Nat) (h : LegalBuild o pc samples) :
    ∃ o' idx, Octree.build nrm divF o pc = .ok (o', idx) ∧
      WellFormed o.batchSize o.fullDepth o.depth o'.keys o'.children o'.nnum o'.nnumNempty ∧
      ∀ d ≤ o.fullDepth, ∃ ks, o'.keys d = some ks ∧ ks.length = o.batchSize * 8 ^ d ∧
        ∀ b < o.batchSize, ∀ m < 8 ^ d, ks[b * 8 ^ d + m]? = some (b * 2 ^ 48 + m) := by
  obtain ⟨o', idx, h1, h2, h3, h4, h5, _⟩ := C07_build nrm divF o pc samples h
  have hw := h5.wf
  have hdense := C10_dense o' _ h5
  rw [h3, h4] at hw hdense
  exact ⟨o', idx, h1, hw, hdense⟩

/-- C08: one index per point, the position of the point's leaf among the non-empty finest nodes. -/
theorem C08_leaf_index [AddCommMonoid F] (nrm : V3 ℚ → V3 ℚ) (divF : ℚ → F → F) (o : Octree F) (pc : Points ℚ F L)
    (samples : List Nat) (h : LegalBuild o pc samples) :
    ∃ o' idx cells ch, Octree.build nrm divF o pc = .ok (o', idx) ∧
      CellsOf o.batchSize o.depth o'.keys cells ∧ o'.children o.depth = some ch ∧
      idx.length = pc.points.length ∧
      ∀ (i : Nat) (p : V3 ℚ) (b : Nat), pc.points[i]? = some p → samples[i]? = some b →
        ∃ (r : Nat) (c : Cell), idx[i]? = some r ∧ (nonEmpty cells ch)[r]? = some c ∧ c.b = b ∧
          CubeContains o.depth c p := by
  obtain ⟨S, hO, hm, hS, hb⟩ := build_cube nrm divF o pc samples h.cloud h.same_batch h.inCube h.depth h.full h.batch
  have w := builtState_wf nrm divF o pc h.depth h.full h.batch S hO
    ((pointCells o.depth pc samples).map (Cell.key o.depth))
  refine ⟨_, _, layerCells o.batchSize (occMasks o.batchSize o.fullDepth S) o.depth, _, hb, w.cellsOf _ (le_refl _),
    w.children _ (le_refl _), ?_, ?_⟩
  · simp [uniqueInv, pointCells_length h.cloud]
  · intro i p b hp hbi
    rw [hO.nempty o.depth (le_refl _) h.full]
    have hcell : (pointCells o.depth pc samples)[i]? = some (wrapCell o.depth (rescale o.depth p) b) := by
      simp [pointCells, List.getElem?_zipWith, hp, hbi]
    obtain ⟨r, hr1, hr2⟩ := (uniqueInv_spec ((pointCells o.depth pc samples).map (Cell.key o.depth))).2 i
      ((wrapCell o.depth (rescale o.depth p) b).key o.depth) (by rw [List.getElem?_map, hcell]; rfl)
    rw [← hS, List.getElem?_map] at hr2
    cases hc : (S o.depth)[r]? with
    | none => rw [hc] at hr2; simp at hr2
    | some c =>
      rw [hc] at hr2
      simp only [Option.map_some, Option.some.injEq] at hr2
      have hin := h.inCube p (List.mem_of_getElem? hp)
      have e := Cell.key_injective h.depth (hO.range _ (le_refl _) c (List.mem_of_getElem? hc))
        (wrapCell_inRange o.depth o.batchSize _ b (h.cloud.lt b (List.mem_of_getElem? hbi))) hr2
      rw [wrapCell_cellAt _ _ _ hin] at e
      have eb : c.b = b := by rw [e]; rfl
      refine ⟨r, c, hr1, hc, eb, ?_⟩
      rw [cubeContains_iff _ _ _ hin, eb, e]

/-- C11: the stored positions, features and normals of the non-empty finest nodes are the means (for normals: the
normalised sums) over exactly the points in the node. -/
theorem C11_averages [AddCommMonoid F] (nrm : V3 ℚ → V3 ℚ) (divF : ℚ → F → F) (o : Octree F) (pc : Points ℚ F L)
    (samples : List Nat) (h : LegalBuild o pc samples) :
    ∃ o' idx cells ch, Octree.build nrm divF o pc = .ok (o', idx) ∧
      CellsOf o.batchSize o.depth o'.keys cells ∧ o'.children o.depth = some ch ∧
      (∀ c ∈ nonEmpty cells ch, 0 < countIn o.depth c (pc.points.zip samples)) ∧
      o'.points o.depth = some ((nonEmpty cells ch).map fun c =>
        (sumIn o.depth c (pc.points.zip samples) (pc.points.map (gridPos o.depth))).map
          (· / (countIn o.depth c (pc.points.zip samples) : ℚ))) ∧
      (∀ f, pc.features = some f → o'.features o.depth = some ((nonEmpty cells ch).map fun c =>
        divF (countIn o.depth c (pc.points.zip samples) : ℚ) (sumIn o.depth c (pc.points.zip samples) f)) ∧
        ((nonEmpty cells ch).map fun c => sumIn o.depth c (pc.points.zip samples) f).sum = f.sum) ∧
      (∀ n, pc.normals = some n → o'.normals o.depth = some ((nonEmpty cells ch).map fun c =>
        nrm (sumIn o.depth c (pc.points.zip samples) n))) ∧
      ((nonEmpty cells ch).map fun c => sumIn o.depth c (pc.points.zip samples) (pc.points.map (gridPos o.depth))).sum
        = (pc.points.map (gridPos o.depth)).sum ∧
      ((nonEmpty cells ch).map fun c => countIn o.depth c (pc.points.zip samples)).sum = pc.points.length := by
  obtain ⟨S, hO, hm, hS, hb⟩ := build_cube nrm divF o pc samples h.cloud h.same_batch h.inCube h.depth h.full h.batch
  have w := builtState_wf nrm divF o pc h.depth h.full h.batch S hO
    ((pointCells o.depth pc samples).map (Cell.key o.depth))
  have hne := hO.nempty o.depth (le_refl _) h.full
  have hr := hO.range o.depth (le_refl _)
  have hlen : ((pointCells o.depth pc samples).map (Cell.key o.depth)).length = pc.points.length := by
    rw [List.length_map, pointCells_length h.cloud]
  have hresc : rescale o.depth = gridPos o.depth := funext (rescale_eq o.depth)
  refine ⟨_, _, layerCells o.batchSize (occMasks o.batchSize o.fullDepth S) o.depth, _, hb, w.cellsOf _ (le_refl _),
    w.children _ (le_refl _), ?_⟩
  rw [hne]
  refine ⟨?_, ?_, ?_, ?_, ?_, ?_⟩
  · intro c hc
    exact occupied_countIn ((hm _ (le_refl _) c).mp hc)
  · simp only [builtState, upd, if_true]
    rw [map_unique_keys hS, hresc]
    congr 1
    apply List.map_congr_left
    intro c hc
    rw [sumAt_eq h.depth h.cloud h.inCube (hr c hc), count_eq h.depth h.cloud h.inCube (hr c hc)]
  · intro f hf
    constructor
    · simp only [builtState, hf, upd, if_true]
      rw [map_unique_keys hS]
      congr 1
      apply List.map_congr_left
      intro c hc
      rw [sumAt_eq h.depth h.cloud h.inCube (hr c hc), count_eq h.depth h.cloud h.inCube (hr c hc)]
    · rw [← total_unique ((pointCells o.depth pc samples).map (Cell.key o.depth)) f
        (by rw [hlen, h.cloud.features f hf]), map_unique_keys hS]
      congr 1
      apply List.map_congr_left
      intro c hc
      rw [sumAt_eq h.depth h.cloud h.inCube (hr c hc)]
  · intro n hn
    simp only [builtState, hn, upd, if_true]
    rw [map_unique_keys hS]
    congr 1
    apply List.map_congr_left
    intro c hc
    rw [sumAt_eq h.depth h.cloud h.inCube (hr c hc)]
  · rw [← total_unique ((pointCells o.depth pc samples).map (Cell.key o.depth)) (pc.points.map (gridPos o.depth))
        (by rw [hlen, List.length_map]), map_unique_keys hS]
    congr 1
    apply List.map_congr_left
    intro c hc
    rw [sumAt_eq h.depth h.cloud h.inCube (hr c hc)]
  · have ht := total_unique ((pointCells o.depth pc samples).map (Cell.key o.depth))
      (List.replicate pc.points.length (1 : Nat)) (by rw [hlen, List.length_replicate])
    rw [List.sum_replicate, smul_eq_mul, mul_one, map_unique_keys hS] at ht
    rw [← ht]
    congr 1
    apply List.map_congr_left
    intro c hc
    rw [← count_eq h.depth h.cloud h.inCube (hr c hc)]
    generalize (pointCells o.depth pc samples).map (Cell.key o.depth) = ks at hlen
    rw [← hlen]
    unfold sumAt
    clear hlen
    induction ks with
    | nil => rfl
    | cons a ks ih =>
      simp only [List.length_cons, List.replicate_succ, List.zip_cons_cons, List.filter_cons, List.count_cons]
      by_cases e : a = c.key o.depth
      · simp [e, ih, Nat.add_comm]
      · simp [e, ih]

/-- C12, first half: the averaged position of a non-empty finest node lies in its half-open cell. -/
theorem C12_inside [AddCommMonoid F] (nrm : V3 ℚ → V3 ℚ) (divF : ℚ → F → F) (o : Octree F) (pc : Points ℚ F L)
    (samples : List Nat) (h : LegalBuild o pc samples) :
    ∃ o' idx cells ch pts, Octree.build nrm divF o pc = .ok (o', idx) ∧
      CellsOf o.batchSize o.depth o'.keys cells ∧ o'.children o.depth = some ch ∧
      o'.points o.depth = some pts ∧ pts.length = (nonEmpty cells ch).length ∧
      ∀ (r : Nat) (c : Cell) (v : V3 ℚ), (nonEmpty cells ch)[r]? = some c → pts[r]? = some v →
        ((c.x : ℚ) ≤ v.x ∧ v.x < c.x + 1) ∧ ((c.y : ℚ) ≤ v.y ∧ v.y < c.y + 1) ∧ ((c.z : ℚ) ≤ v.z ∧ v.z < c.z + 1) := by
  obtain ⟨o', idx, cells, ch, h1, h2, h3, h4, h5, _⟩ := C11_averages nrm divF o pc samples h
  refine ⟨o', idx, cells, ch, _, h1, h2, h3, h5, by simp, ?_⟩
  intro r c v hc hv
  rw [List.getElem?_map, hc] at hv
  simp only [Option.map_some, Option.some.injEq] at hv
  subst hv
  exact mean_in_cell o.depth c pc.points samples h.cloud.length (h4 c (List.mem_of_getElem? hc))

theorem gridPos_gridPoint (d : Nat) (v : ℚ) : ((v * 2 / 2 ^ d - 1) + 1) * 2 ^ d / 2 = v := by
  have hp : (2 : ℚ) ^ d ≠ 0 := by positivity
  field_simp
  ring

/-- C12, second half: building again from the averaged points gives the same keys, children and node counts at
every depth. -/
theorem C12_rebuild [AddCommMonoid F] {L' : Type} (nrm : V3 ℚ → V3 ℚ) (divF : ℚ → F → F) (o : Octree F)
    (pc : Points ℚ F L) (samples : List Nat) (h : LegalBuild o pc samples) (o2 : Octree F) (pc2 : Points ℚ F L')
    (hd2 : o2.depth = o.depth) (hf2 : o2.fullDepth = o.fullDepth) (hB2 : o2.batchSize = o.batchSize) :
    ∃ o' idx cells ch pts, Octree.build nrm divF o pc = .ok (o', idx) ∧
      CellsOf o.batchSize o.depth o'.keys cells ∧ o'.children o.depth = some ch ∧ o'.points o.depth = some pts ∧
      (pc2.points = pts.map (gridPoint o.depth) → pc2.batchSize = o.batchSize →
        Samples o.batchSize pc2 ((nonEmpty cells ch).map Cell.b) →
        LegalBuild o2 pc2 ((nonEmpty cells ch).map Cell.b) ∧
        ∃ o'' idx2, Octree.build nrm divF o2 pc2 = .ok (o'', idx2) ∧ ∀ d ≤ o.depth,
          o''.keys d = o'.keys d ∧ o''.children d = o'.children d ∧ o''.nnum d = o'.nnum d ∧
          o''.nnumNempty d = o'.nnumNempty d) := by
  obtain ⟨S, hO, hm, hS, hb⟩ := build_cube nrm divF o pc samples h.cloud h.same_batch h.inCube h.depth h.full h.batch
  have w := builtState_wf nrm divF o pc h.depth h.full h.batch S hO
    ((pointCells o.depth pc samples).map (Cell.key o.depth))
  obtain ⟨o', idx, cells, ch, pts, h1, h2, h3, h4, h5, h6⟩ := C12_inside nrm divF o pc samples h
  rw [hb] at h1
  have e1 : builtState nrm divF o pc S ((pointCells o.depth pc samples).map (Cell.key o.depth)) = o' := by
    have := Except.ok.inj h1
    exact congrArg Prod.fst this
  subst e1
  have ecells := cells_unique h.depth h2 (w.cellsOf _ (le_refl _))
  have ech : ch = number 0 (occMasks o.batchSize o.fullDepth S o.depth) := by
    have := w.children _ (le_refl _)
    rw [this] at h3
    exact (Option.some.inj h3).symm
  have hne : nonEmpty cells ch = S o.depth := by
    rw [ecells, ech]
    exact hO.nempty o.depth (le_refl _) h.full
  refine ⟨_, _, cells, ch, pts, hb, h2, h3, h4, ?_⟩
  intro hp2 hb2 hs2
  rw [hne] at h5 h6 hs2 ⊢
  -- every averaged point is in the cell of its node
  have hcell : ∀ (r : Nat) (c : Cell) (v : V3 ℚ), (S o.depth)[r]? = some c → pts[r]? = some v →
      CubeContains o.depth c (gridPoint o.depth v) := by
    intro r c v hc hv
    obtain ⟨a1, a2, a3⟩ := h6 r c v hc hv
    unfold CubeContains gridPoint V3.map
    simp only [sideContains_grid, gridPos_gridPoint]
    exact ⟨a1, a2, a3⟩
  have hin2 : ∀ p ∈ pc2.points, InCube p := by
    intro p hp
    rw [hp2] at hp
    obtain ⟨v, hv, rfl⟩ := List.mem_map.mp hp
    obtain ⟨r, hr⟩ := List.mem_iff_getElem?.mp hv
    have hrl : r < (S o.depth).length := by rw [← h5]; exact (List.getElem?_eq_some_iff.mp hr).1
    have hc := List.getElem?_eq_getElem hrl
    obtain ⟨a1, a2, a3⟩ := h6 r _ v hc hr
    obtain ⟨_, b1, b2, b3⟩ := hO.range _ (le_refl _) _ (List.getElem_mem hrl)
    have hp : (0 : ℚ) < 2 ^ o.depth := by positivity
    have key : ∀ (n : Nat) (x : ℚ), n < 2 ^ o.depth → ((n : ℚ) ≤ x ∧ x < n + 1) →
        -1 ≤ x * 2 / 2 ^ o.depth - 1 ∧ x * 2 / 2 ^ o.depth - 1 < 1 := by
      intro n x hn hx
      have hn' : (n : ℚ) + 1 ≤ 2 ^ o.depth := by exact_mod_cast hn
      have hn0 : (0 : ℚ) ≤ n := by positivity
      constructor
      · have : 0 ≤ x * 2 / 2 ^ o.depth := div_nonneg (by linarith [hx.1]) hp.le
        linarith
      · have : x * 2 / 2 ^ o.depth < 2 := by
          rw [div_lt_iff₀ hp]; linarith [hx.2]
        linarith
    exact ⟨key _ _ b1 a1, key _ _ b2 a2, key _ _ b3 a3⟩
  have hl2 : LegalBuild o2 pc2 ((S o.depth).map Cell.b) :=
    ⟨by rw [hd2]; exact h.depth, by rw [hd2, hf2]; exact h.full, by rw [hB2]; exact h.batch, by rw [hB2]; exact hb2,
      by rw [hB2]; exact hs2, hin2⟩
  refine ⟨hl2, ?_⟩
  obtain ⟨S2, hO2, hm2, hS2, hbuild2⟩ := build_cube nrm divF o2 pc2 _ hl2.cloud hl2.same_batch hl2.inCube hl2.depth
    hl2.full hl2.batch
  rw [hd2, hf2, hB2] at hO2
  rw [hd2] at hm2
  have hocc : ∀ d ≤ o.depth, S d = S2 d := by
    intro d hd
    apply occ_ext hO hO2 d hd
    intro c
    rw [hm2 d hd c]
    have hanc : ∀ c, c ∈ S d ↔ ∃ s ∈ S o.depth, s.ancestor (o.depth - d) = c := by
      intro c
      rw [hm d hd c, ← pointCells_occupied h.inCube d hd c]
      constructor
      · rintro ⟨q, hq, rfl⟩
        refine ⟨q, ?_, rfl⟩
        rw [hm _ (le_refl _), ← pointCells_occupied h.inCube _ (le_refl _)]
        exact ⟨q, hq, by rw [Nat.sub_self, Cell.ancestor_zero]⟩
      · rintro ⟨s, hs, rfl⟩
        rw [hm _ (le_refl _), ← pointCells_occupied h.inCube _ (le_refl _)] at hs
        obtain ⟨q, hq, rfl⟩ := hs
        exact ⟨q, hq, by rw [Nat.sub_self, Cell.ancestor_zero]⟩
    rw [hanc]
    constructor
    · rintro ⟨s, hs, rfl⟩
      obtain ⟨r, hr⟩ := List.mem_iff_getElem?.mp hs
      have hrl : r < pts.length := by rw [h5]; exact (List.getElem?_eq_some_iff.mp hr).1
      have hv := List.getElem?_eq_getElem hrl
      have hp : pc2.points[r]? = some (gridPoint o.depth pts[r]) := by
        rw [hp2, List.getElem?_map, hv]; rfl
      have hinp := hin2 _ (List.mem_of_getElem? hp)
      refine ⟨r, _, hp, ?_, ?_⟩
      · rw [List.getElem?_map, hr]; rfl
      · have := hcell r s _ hr hv
        rw [cubeContains_iff _ _ _ hinp] at this ⊢
        have e := cellAt_ancestor d o.depth s.b (gridPoint o.depth pts[r]) hd
        rw [this] at e
        exact e.symm
    · rintro ⟨r, p, hp, hbr, hcc⟩
      have hinp := hin2 _ (List.mem_of_getElem? hp)
      rw [List.getElem?_map] at hbr
      cases hs : (S o.depth)[r]? with
      | none => rw [hs] at hbr; simp at hbr
      | some s =>
        rw [hs] at hbr
        simp only [Option.map_some, Option.some.injEq] at hbr
        rw [hp2, List.getElem?_map] at hp
        cases hv : pts[r]? with
        | none => rw [hv] at hp; simp at hp
        | some v =>
          rw [hv] at hp
          simp only [Option.map_some, Option.some.injEq] at hp
          subst hp
          have := hcell r s v hs hv
          rw [cubeContains_iff _ _ _ hinp] at this hcc
          refine ⟨s, List.mem_of_getElem? hs, ?_⟩
          rw [← this, cellAt_ancestor _ _ _ _ hd, hbr, hcc]
  refine ⟨_, _, hbuild2, ?_⟩
  intro d hd
  obtain ⟨e1, e2, e3, e4⟩ := builtState_congr (nrm := nrm) (nrm' := nrm) (divF := divF) (divF' := divF) (pc := pc)
    (pc' := pc2) (ks := (pointCells o.depth pc samples).map (Cell.key o.depth))
    (ks' := (pointCells o2.depth pc2 ((S o.depth).map Cell.b)).map (Cell.key o2.depth)) hB2 hd2 hf2 hocc d hd
  exact ⟨e1.symm, e2.symm, e3.symm, e4.symm⟩

/-! ### C13: order and duplicates -/

/-- A point cloud lists the entries `(position, sample, normal, feature)` of `E` in order; normals and features are
present according to `n` and `f`. -/
structure Lists (E : List (V3 ℚ × Nat × V3 ℚ × F)) (n f : Bool) (pc : Points ℚ F L) (samples : List Nat) : Prop where
  points : pc.points = E.map fun e => e.1
  samples : samples = E.map fun e => e.2.1
  normals : pc.normals = if n then some (E.map fun e => e.2.2.1) else none
  features : pc.features = if f then some (E.map fun e => e.2.2.2) else none

theorem Lists.keys {E : List (V3 ℚ × Nat × V3 ℚ × F)} {n f : Bool} {pc : Points ℚ F L} {samples : List Nat}
    (h : Lists E n f pc samples) (D : Nat) :
    pointCells D pc samples = E.map fun e => wrapCell D (rescale D e.1) e.2.1 := by
  rw [pointCells, h.points, h.samples]
  clear h
  induction E with
  | nil => rfl
  | cons e E ih => simp

theorem sumAt_map {α V : Type} [Add V] [Zero V] (E : List α) (g : α → Nat) (v : α → V) (k : Nat) :
    sumAt (E.map g) (E.map v) k = ((E.filter fun e => decide (g e = k)).map v).sum := by
  unfold sumAt
  congr 1
  induction E with
  | nil => rfl
  | cons e E ih =>
    simp only [List.map_cons, List.zip_cons_cons, List.filter_cons]
    by_cases he : g e = k
    · simp [he, ih]
    · simp [he, ih]

theorem sumAt_perm {α V : Type} [AddCommMonoid V] {E E' : List α} (h : E.Perm E') (g : α → Nat) (v : α → V) (k : Nat) :
    sumAt (E.map g) (E.map v) k = sumAt (E'.map g) (E'.map v) k := by
  rw [sumAt_map, sumAt_map]
  exact ((h.filter _).map _).sum_eq

theorem builtState_eq {L L' : Type} [AddCommMonoid F] {nrm : V3 ℚ → V3 ℚ} {divF : ℚ → F → F} {o : Octree F}
    {pc : Points ℚ F L} {pc' : Points ℚ F L'} {S S' : Nat → List Cell} {ks ks' : List Nat}
    (h : ∀ d ≤ o.depth, S d = S' d) (hdev : pc'.device = pc.device)
    (hp : (builtState nrm divF o pc S ks).points = (builtState nrm divF o pc' S' ks').points)
    (hn : (builtState nrm divF o pc S ks).normals = (builtState nrm divF o pc' S' ks').normals)
    (hf : (builtState nrm divF o pc S ks).features = (builtState nrm divF o pc' S' ks').features) :
    builtState nrm divF o pc S ks = builtState nrm divF o pc' S' ks' := by
  have hc := builtState_congr (nrm := nrm) (nrm' := nrm) (divF := divF) (divF' := divF) (o := o) (o' := o) (pc := pc)
    (pc' := pc') (ks := ks) (ks' := ks') rfl rfl rfl h
  have e : ∀ {a b : Octree F}, a.depth = b.depth → a.fullDepth = b.fullDepth → a.batchSize = b.batchSize →
      a.device = b.device → a.keys = b.keys → a.children = b.children → a.neighs = b.neighs →
      a.features = b.features → a.normals = b.normals → a.points = b.points → a.nnum = b.nnum →
      a.nnumNempty = b.nnumNempty → a.batchNnum = b.batchNnum → a.batchNnumNempty = b.batchNnumNempty → a = b := by
    intro a b h1 h2 h3 h4 h5 h6 h7 h8 h9 h10 h11 h12 h13 h14
    cases a; cases b
    simp only at h1 h2 h3 h4 h5 h6 h7 h8 h9 h10 h11 h12 h13 h14
    subst h1 h2 h3 h4 h5 h6 h7 h8 h9 h10 h11 h12 h13 h14
    rfl
  refine e rfl rfl rfl hdev.symm ?_ ?_ rfl hf hn hp ?_ ?_ rfl rfl
  · funext d
    by_cases hd : d ≤ o.depth
    · exact (hc d hd).1
    · simp [builtState, hd]
  · funext d
    by_cases hd : d ≤ o.depth
    · exact (hc d hd).2.1
    · simp [builtState, hd]
  · funext d
    by_cases hd : d ≤ o.depth
    · exact (hc d hd).2.2.1
    · simp [builtState, hd]
  · funext d
    by_cases hd : d ≤ o.depth
    · exact (hc d hd).2.2.2
    · simp [builtState, hd]

/-- C13, order: permuting the points together with their signals gives exactly the same octree, and every point is
assigned to the same leaf as before. -/
theorem C13_order [AddCommMonoid F] (nrm : V3 ℚ → V3 ℚ) (divF : ℚ → F → F) (o : Octree F)
    (pc pc' : Points ℚ F L) (samples samples' : List Nat) (h : LegalBuild o pc samples)
    (h' : LegalBuild o pc' samples') (hdev : pc'.device = pc.device)
    (E E' : List (V3 ℚ × Nat × V3 ℚ × F)) (n f : Bool) (hE : Lists E n f pc samples) (hE' : Lists E' n f pc' samples')
    (hperm : E.Perm E') :
    ∃ o1 idx idx', Octree.build nrm divF o pc = .ok (o1, idx) ∧ Octree.build nrm divF o pc' = .ok (o1, idx') ∧
      idx.length = E.length ∧ idx'.length = E'.length ∧ (E.zip idx).Perm (E'.zip idx') := by
  obtain ⟨S, hO, hm, hS, hb⟩ := build_any nrm divF o pc samples h.cloud h.same_batch h.depth h.full h.batch
  obtain ⟨S', hO', hm', hS', hb'⟩ := build_any nrm divF o pc' samples' h'.cloud h'.same_batch h'.depth h'.full h'.batch
  have hk : (pointCells o.depth pc samples).map (Cell.key o.depth)
      = E.map (fun e => (wrapCell o.depth (rescale o.depth e.1) e.2.1).key o.depth) := by
    rw [hE.keys, List.map_map]; simp only [Function.comp_def]
  have hk' : (pointCells o.depth pc' samples').map (Cell.key o.depth)
      = E'.map (fun e => (wrapCell o.depth (rescale o.depth e.1) e.2.1).key o.depth) := by
    rw [hE'.keys, List.map_map]; simp only [Function.comp_def]
  have hmem : ∀ q, q ∈ pointCells o.depth pc samples ↔ q ∈ pointCells o.depth pc' samples' := by
    intro q
    rw [hE.keys, hE'.keys]
    exact (hperm.map _).mem_iff
  have hSS : ∀ d ≤ o.depth, S d = S' d := by
    intro d hd
    apply occ_ext hO hO' d hd
    intro c
    rw [hm d hd, hm' d hd]
    simp only [hmem]
  rw [hk] at hb
  rw [hk'] at hb'
  generalize (fun e : V3 ℚ × Nat × V3 ℚ × F => (wrapCell o.depth (rescale o.depth e.1) e.2.1).key o.depth) = g at hb hb'
  have hu : unique (E.map g) = unique (E'.map g) := unique_congr (fun x => (hperm.map g).mem_iff)
  have hcnt : ∀ k, (E.map g).count k = (E'.map g).count k := fun k => (hperm.map g).count_eq k
  have hstate : builtState nrm divF o pc' S' (E'.map g) = builtState nrm divF o pc S (E.map g) := by
    symm
    apply builtState_eq hSS hdev
    · simp only [builtState]
      rw [hu, hE.points, hE'.points, List.map_map, List.map_map]
      simp only [hcnt, sumAt_perm hperm g _]
    · simp only [builtState]
      rw [hE.normals, hE'.normals, hu]
      cases n
      · rfl
      · simp only [if_true, sumAt_perm hperm g _]
    · simp only [builtState]
      rw [hE.features, hE'.features, hu]
      cases f
      · rfl
      · simp only [if_true, hcnt, sumAt_perm hperm g _]
  refine ⟨_, _, _, hb, by rw [hb', hstate], by simp [uniqueInv], by simp [uniqueInv], ?_⟩
  have hz : ∀ (l : List (V3 ℚ × Nat × V3 ℚ × F)) (u : List Nat),
      l.zip ((l.map g).map fun x => u.idxOf x) = l.map fun e => (e, u.idxOf (g e)) := by
    intro l u
    induction l with
    | nil => rfl
    | cons a l ih => simp only [List.map_cons, List.zip_cons_cons, ih]
  unfold uniqueInv
  rw [hz, hz, hu]
  exact hperm.map _

/-- C13, duplicates: two point clouds with the same set of (position, sample) pairs, with any repetitions and in any
order, have the same keys, children and node counts at every depth. -/
theorem C13_duplicates [AddCommMonoid F] {L' : Type} (nrm : V3 ℚ → V3 ℚ) (divF : ℚ → F → F) (o : Octree F)
    (pc : Points ℚ F L) (pc' : Points ℚ F L') (samples samples' : List Nat) (h : LegalBuild o pc samples)
    (h' : LegalBuild o pc' samples') (hset : ∀ e, e ∈ pc.points.zip samples ↔ e ∈ pc'.points.zip samples') :
    ∃ o1 o2 idx idx', Octree.build nrm divF o pc = .ok (o1, idx) ∧ Octree.build nrm divF o pc' = .ok (o2, idx') ∧
      ∀ d ≤ o.depth, o2.keys d = o1.keys d ∧ o2.children d = o1.children d ∧ o2.nnum d = o1.nnum d ∧
        o2.nnumNempty d = o1.nnumNempty d := by
  obtain ⟨S, hO, hm, hS, hb⟩ := build_any nrm divF o pc samples h.cloud h.same_batch h.depth h.full h.batch
  obtain ⟨S', hO', hm', hS', hb'⟩ := build_any nrm divF o pc' samples' h'.cloud h'.same_batch h'.depth h'.full h'.batch
  have hz : ∀ {M : Type} (q : Cell) (p : Points ℚ F M) (s : List Nat), q ∈ pointCells o.depth p s ↔
      ∃ e ∈ p.points.zip s, wrapCell o.depth (rescale o.depth e.1) e.2 = q := by
    intro M q p s
    unfold pointCells
    generalize p.points = l
    induction l generalizing s with
    | nil => simp
    | cons a l ih =>
      cases s with
      | nil => simp
      | cons b s => simp [ih, eq_comm]
  have hSS : ∀ d ≤ o.depth, S d = S' d := by
    intro d hd
    apply occ_ext hO hO' d hd
    intro c
    rw [hm d hd, hm' d hd]
    simp only [hz, hset]
  refine ⟨_, _, _, _, hb, hb', ?_⟩
  intro d hd
  obtain ⟨e1, e2, e3, e4⟩ := builtState_congr (nrm := nrm) (nrm' := nrm) (divF := divF) (divF' := divF) (o := o) (o' := o)
    (pc := pc) (pc' := pc') (ks := (pointCells o.depth pc samples).map (Cell.key o.depth))
    (ks' := (pointCells o.depth pc' samples').map (Cell.key o.depth)) rfl rfl rfl hSS d hd
  exact ⟨e1.symm, e2.symm, e3.symm, e4.symm⟩

/-! ### C14: the upper face -/

/-- A coordinate on the upper face of the cube replaced by the one on the lower face. -/
def wrapFace (v : ℚ) : ℚ := if v = 1 then -1 else v

/-- C14, what happens: every point of the closed cube is stored where its image under `1 ↦ -1` belongs. -/
theorem C14_wraps [AddCommMonoid F] (nrm : V3 ℚ → V3 ℚ) (divF : ℚ → F → F) (o : Octree F) (pc : Points ℚ F L)
    (samples : List Nat) (hs : Samples o.batchSize pc samples) (hpb : pc.batchSize = o.batchSize) (hD : o.depth ≤ 16)
    (hf : o.fullDepth ≤ o.depth) (hB : o.batchSize ≤ 2 ^ 15)
    (hin : ∀ p ∈ pc.points, InCube (p.map wrapFace)) :
    ∃ o' idx cells ch, Octree.build nrm divF o pc = .ok (o', idx) ∧ CellsOf o.batchSize o.depth o'.keys cells ∧
      o'.children o.depth = some ch ∧
      ∀ c, c ∈ nonEmpty cells ch ↔ Occupied (pc.points.map (V3.map wrapFace)) samples o.depth c := by
  obtain ⟨S, hO, hm, hS, hb⟩ := build_any nrm divF o pc samples hs hpb hD hf hB
  have w := builtState_wf nrm divF o pc hD hf hB S hO ((pointCells o.depth pc samples).map (Cell.key o.depth))
  refine ⟨_, _, layerCells o.batchSize (occMasks o.batchSize o.fullDepth S) o.depth, _, hb, w.cellsOf _ (le_refl _),
    w.children _ (le_refl _), ?_⟩
  intro c
  rw [hO.nempty o.depth (le_refl _) hf, hm _ (le_refl _) c]
  have hpc : pointCells o.depth pc samples
      = pointCells o.depth { pc with points := pc.points.map (V3.map wrapFace) } samples := by
    have hstep : ∀ (p : V3 ℚ) (b : Nat), wrapCell o.depth (rescale o.depth p) b
        = wrapCell o.depth (rescale o.depth (p.map wrapFace)) b := by
      intro p b
      have hside : ∀ v : ℚ, long ((v + 1) * 2 ^ ((o.depth : ℤ) - 1)) % 2 ^ o.depth
          = long ((wrapFace v + 1) * 2 ^ ((o.depth : ℤ) - 1)) % 2 ^ o.depth := by
        intro v
        unfold wrapFace
        split
        · rename_i hv
          subst hv
          have e : ((1 : ℚ) + 1) * 2 ^ ((o.depth : ℤ) - 1) = ((2 ^ o.depth : ℤ) : ℚ) := by
            rw [zpow_sub_one₀ (by norm_num)]
            push_cast
            rw [zpow_natCast]
            ring
          rw [e]
          have l1 : long ((2 ^ o.depth : ℤ) : ℚ) = 2 ^ o.depth := by
            unfold long; rw [Rat.num_intCast, Rat.den_intCast]; simp
          have l2 : long ((-1 + 1) * 2 ^ ((o.depth : ℤ) - 1)) = 0 := by
            rw [neg_add_cancel, zero_mul]; rfl
          rw [l1, l2]
          simp
        · rfl
      unfold wrapCell rescale V3.map
      simp only [hside p.x, hside p.y, hside p.z]
    unfold pointCells
    simp only
    clear hm hb w hS hs hin
    generalize pc.points = l
    induction l generalizing samples with
    | nil => rfl
    | cons a l ih =>
      cases samples with
      | nil => rfl
      | cons b s => simp only [List.map_cons, List.zipWith_cons_cons, ih, List.cons.injEq, and_true]; exact hstep a b
  rw [hpc]
  refine pointCells_occupied (pc := { pc with points := pc.points.map (V3.map wrapFace) }) ?_ o.depth (le_refl _) c
  intro p hp
  obtain ⟨q, hq, rfl⟩ := List.mem_map.mp hp
  exact hin q hq

/-- C14 is violated: the corner `(1, 1, 1)` of the legal range is stored, at every depth, in the cell at the opposite
corner, whose closed cube does not contain it. -/
theorem C14_violated (D full : Nat) (hD : D ≤ 16) (hD1 : 1 ≤ D) (hf : full ≤ D) :
    ∃ (o' : Octree ℚ) (idx : List Nat) (cells : List Cell) (ch : List Int),
      Octree.build (F := ℚ) (L := Unit) id (fun c v => v / c) (Octree.new D full 1 0)
        ⟨[⟨1, 1, 1⟩], none, none, none, none, 1, none, 0⟩ = .ok (o', idx) ∧
      CellsOf 1 D o'.keys cells ∧ o'.children D = some ch ∧ nonEmpty cells ch ≠ [] ∧
      ∀ c ∈ nonEmpty cells ch, c = ⟨0, 0, 0, 0⟩ ∧ ¬ ((-1 + c.x * (2 / 2 ^ D) : ℚ) ≤ 1 ∧ 1 ≤ -1 + (c.x + 1 : ℚ) * (2 / 2 ^ D)) := by
  obtain ⟨o', idx, cells, ch, h1, h2, h3, h4⟩ := C14_wraps (F := ℚ) (L := Unit) id (fun c v => v / c) (Octree.new D full 1 0)
    ⟨[⟨1, 1, 1⟩], none, none, none, none, 1, none, 0⟩ [0]
    ⟨rfl, by simp [Octree.new], by simp [Octree.new], by simp, by simp⟩ rfl hD hf (by simp [Octree.new])
    (by intro p hp; simp only [List.mem_singleton] at hp; subst hp; decide +kernel)
  have hpow : (2 : ℚ) ≤ 2 ^ D := by
    calc (2 : ℚ) = 2 ^ 1 := by norm_num
      _ ≤ 2 ^ D := pow_le_pow_right₀ (by norm_num) hD1
  have hside : 0 < (2 : ℚ) / 2 ^ D ∧ (2 : ℚ) / 2 ^ D ≤ 1 := by
    refine ⟨by positivity, ?_⟩
    rw [div_le_one (by positivity)]; exact hpow
  have hpt : (V3.map wrapFace ⟨1, 1, 1⟩ : V3 ℚ) = ⟨-1, -1, -1⟩ := by decide +kernel
  have h4' : ∀ c, c ∈ nonEmpty cells ch ↔ Occupied [⟨-1, -1, -1⟩] [0] D c := by
    intro c
    rw [h4 c]
    simp only [List.map_cons, List.map_nil, hpt]
    rfl
  have hzero : ∀ c, Occupied [⟨-1, -1, -1⟩] [0] D c ↔ c = ⟨0, 0, 0, 0⟩ := by
    have hs0 : ∀ n : Nat, SideContains D n (-1) ↔ n = 0 := by
      intro n
      unfold SideContains
      constructor
      · rintro ⟨a1, a2⟩
        by_contra hn
        have : (1 : ℚ) ≤ n := by exact_mod_cast Nat.one_le_iff_ne_zero.mpr hn
        nlinarith [hside.1]
      · rintro rfl
        constructor
        · simp
        · simpa using hside.1
    intro c
    constructor
    · rintro ⟨i, p, hp, hb, hx, hy, hz⟩
      have hi : i = 0 := by
        have := (List.getElem?_eq_some_iff.mp hp).1
        simp at this; exact this
      subst hi
      simp only [List.getElem?_cons_zero, Option.some.injEq] at hp hb
      subst hp
      rw [hs0] at hx hy hz
      cases c
      simp only at hx hy hz hb
      subst hx hy hz hb
      rfl
    · rintro rfl
      exact ⟨0, _, rfl, rfl, (hs0 0).mpr rfl, (hs0 0).mpr rfl, (hs0 0).mpr rfl⟩
  refine ⟨o', idx, cells, ch, h1, h2, h3, ?_, ?_⟩
  · have : (⟨0, 0, 0, 0⟩ : Cell) ∈ nonEmpty cells ch := (h4' _).mpr ((hzero _).mpr rfl)
    exact List.ne_nil_of_mem this
  · intro c hc
    have e := (hzero c).mp ((h4' c).mp hc)
    refine ⟨e, ?_⟩
    subst e
    rintro ⟨_, h⟩
    simp only [Nat.cast_zero, zero_add, one_mul] at h
    linarith [hside.2]

/-- C14 for points below the upper faces: every point is stored in the node whose half-open cube contains it.
Missing: points with a coordinate equal to 1, for which the property fails (`C14_violated`). -/
theorem C14_partial [AddCommMonoid F] (nrm : V3 ℚ → V3 ℚ) (divF : ℚ → F → F) (o : Octree F) (pc : Points ℚ F L)
    (samples : List Nat) (h : LegalBuild o pc samples) (i : Nat) (p : V3 ℚ) (b : Nat) (hp : pc.points[i]? = some p)
    (hb : samples[i]? = some b) :
    ∃ o' idx cells ch r c, Octree.build nrm divF o pc = .ok (o', idx) ∧
      CellsOf o.batchSize o.depth o'.keys cells ∧ o'.children o.depth = some ch ∧
      idx[i]? = some r ∧ (nonEmpty cells ch)[r]? = some c ∧ c.b = b ∧ CubeContains o.depth c p := by
  obtain ⟨o', idx, cells, ch, h1, h2, h3, _, h5⟩ := C08_leaf_index nrm divF o pc samples h
  obtain ⟨r, c, h6, h7, h8, h9⟩ := h5 i p b hp hb
  exact ⟨o', idx, cells, ch, r, c, h1, h2, h3, h6, h7, h8, h9⟩

/-! ### C28 and C29 -/

/-- C28 for `full_depth ≥ 1`: the neighbour tables of a built octree can be constructed and are exact.
Missing: `full_depth = 0`, for which the call raises (`C28_violated`). -/
theorem C28_partial [AddCommMonoid F] (nrm : V3 ℚ → V3 ℚ) (divF : ℚ → F → F) (o : Octree F) (pc : Points ℚ F L)
    (samples : List Nat) (h : LegalBuild o pc samples) (hf : 1 ≤ o.fullDepth) :
    ∃ o' idx nb, Octree.build nrm divF o pc = .ok (o', idx) ∧ o'.constructAllNeigh = .ok { o' with neighs := nb } ∧
      ∀ d, 1 ≤ d → d ≤ o.depth → NeighExact o.batchSize d o'.keys nb := by
  obtain ⟨o', idx, h1, h2, h3, h4, h5, _⟩ := C07_build nrm divF o pc samples h
  obtain ⟨nb, h6, h7⟩ := C21_neigh_exact o' (by rw [h2]; exact h5) (by rw [h3]; exact hf)
  rw [h2, h4] at h7
  exact ⟨o', idx, nb, h1, h6, h7⟩

/-- C28 is violated: for every legal point cloud and every depth from 1 on, building a new octree with
`full_depth = 0` succeeds and `construct_all_neigh` then raises. -/
theorem C28_violated [AddCommMonoid F] (nrm : V3 ℚ → V3 ℚ) (divF : ℚ → F → F) (D B dev : Nat) (hD : 1 ≤ D)
    (pc : Points ℚ F L) (samples : List Nat) (h : LegalBuild (Octree.new D 0 B dev) pc samples) :
    ∃ o' idx, Octree.build nrm divF (Octree.new D 0 B dev) pc = .ok (o', idx) ∧
      o'.constructAllNeigh = .error .type := by
  obtain ⟨S, hO, hm, hS, hb⟩ := build_any nrm divF _ pc samples h.cloud h.same_batch h.depth h.full h.batch
  have w := builtState_wf nrm divF (Octree.new D 0 B dev) pc h.depth h.full h.batch S hO
    ((pointCells D pc samples).map (Cell.key D))
  refine ⟨_, _, hb, C28_full_depth_zero_raises _ _ w.valid rfl hD rfl⟩

/-- C29, what is right: after another build on a used octree, all structure and the positions describe the new point
cloud only, as do the normals and features which the new point cloud has.
Missing: normals and features the new point cloud does not have, and the neighbour tables (`C29_stale`). -/
theorem C29_partial [AddCommMonoid F] (nrm : V3 ℚ → V3 ℚ) (divF : ℚ → F → F) (o : Octree F) (pc : Points ℚ F L)
    (samples : List Nat) (h : LegalBuild o pc samples) (dev : Nat) :
    ∃ o1 o2 idx, Octree.build nrm divF o pc = .ok (o1, idx) ∧
      Octree.build nrm divF (Octree.new o.depth o.fullDepth o.batchSize dev) pc = .ok (o2, idx) ∧
      o1.device = o2.device ∧
      (∀ d ≤ o.depth, o1.keys d = o2.keys d ∧ o1.children d = o2.children d ∧ o1.nnum d = o2.nnum d ∧
        o1.nnumNempty d = o2.nnumNempty d) ∧
      o1.points o.depth = o2.points o.depth ∧
      (pc.normals ≠ none → o1.normals o.depth = o2.normals o.depth) ∧
      (pc.features ≠ none → o1.features o.depth = o2.features o.depth) := by
  obtain ⟨S, hO, hm, hS, hb⟩ := build_any nrm divF o pc samples h.cloud h.same_batch h.depth h.full h.batch
  have hb2 := build_state nrm divF (Octree.new o.depth o.fullDepth o.batchSize dev) pc samples h.cloud h.same_batch
    h.depth h.full h.batch S hO hS
  refine ⟨_, _, _, hb, hb2, rfl, ?_, ?_, ?_, ?_⟩
  · intro d hd
    exact builtState_congr (nrm := nrm) (nrm' := nrm) (divF := divF) (divF' := divF) (o := o)
      (o' := Octree.new o.depth o.fullDepth o.batchSize dev) (pc := pc)
      (pc' := pc) (ks := (pointCells o.depth pc samples).map (Cell.key o.depth))
      (ks' := (pointCells o.depth pc samples).map (Cell.key o.depth)) rfl rfl rfl (fun _ _ => rfl) d hd
  · simp [builtState, upd, Octree.new]
  · intro hn
    cases e : pc.normals with
    | none => exact absurd e hn
    | some n => simp [builtState, upd, Octree.new, e]
  · intro hn
    cases e : pc.features with
    | none => exact absurd e hn
    | some n => simp [builtState, upd, Octree.new, e]

/-- C29 is violated: a second build keeps the neighbour tables of the first, and the features (normals) if the second
point cloud has none. -/
theorem C29_stale [AddCommMonoid F] (nrm : V3 ℚ → V3 ℚ) (divF : ℚ → F → F) (o : Octree F) (pc : Points ℚ F L)
    (samples : List Nat) (h : LegalBuild o pc samples) :
    ∃ o' idx, Octree.build nrm divF o pc = .ok (o', idx) ∧ o'.neighs = o.neighs ∧
      (pc.features = none → o'.features = o.features) ∧ (pc.normals = none → o'.normals = o.normals) := by
  obtain ⟨S, hO, hm, hS, hb⟩ := build_any nrm divF o pc samples h.cloud h.same_batch h.depth h.full h.batch
  refine ⟨_, _, hb, rfl, ?_, ?_⟩
  · intro e; simp [builtState, e]
  · intro e; simp [builtState, e]

/-- A cloud with one point (with feature `7`) and a cloud with two points in different octants (without features). -/
def cloudA : Points ℚ ℚ Unit := ⟨[⟨1/2, 1/2, 1/2⟩], none, some [7], none, none, 1, none, 0⟩
/-- See `cloudA`. -/
def cloudB : Points ℚ ℚ Unit := ⟨[⟨1/2, 1/2, 1/2⟩, ⟨-1/2, 1/2, -1/4⟩], none, none, none, none, 1, none, 0⟩

theorem cloudA_legal (o : Octree ℚ) (hd : o.depth ≤ 16) (hf : o.fullDepth ≤ o.depth) (hb : o.batchSize = 1) :
    LegalBuild o cloudA [0] := by
  refine ⟨hd, hf, by omega, hb.symm, ⟨rfl, by simp [hb], by simp [hb], by simp [cloudA], by simp [cloudA]⟩, ?_⟩
  intro p hp; simp only [cloudA, List.mem_singleton] at hp; subst hp; decide +kernel

theorem cloudB_legal (o : Octree ℚ) (hd : o.depth ≤ 16) (hf : o.fullDepth ≤ o.depth) (hb : o.batchSize = 1) :
    LegalBuild o cloudB [0, 0] := by
  refine ⟨hd, hf, by omega, hb.symm, ⟨rfl, by simp [hb], by simp [hb], by simp [cloudB], by simp [cloudB]⟩, ?_⟩
  intro p hp; simp only [cloudB, List.mem_cons, List.not_mem_nil, or_false] at hp
  rcases hp with rfl | rfl <;> decide +kernel

/-- C29 is violated by a concrete history: after building `cloudA` and then `cloudB` on the same object the octree
has two finest non-empty nodes but carries the single feature of `cloudA`, which a new octree would not. -/
theorem C29_violated : ∃ (o1 o2 o3 : Octree ℚ) (i1 i2 i3 : List Nat),
    Octree.build id (fun c v => v / c) (Octree.new 2 1 1 0) cloudA = .ok (o1, i1) ∧
    Octree.build id (fun c v => v / c) o1 cloudB = .ok (o2, i2) ∧
    Octree.build id (fun c v => v / c) (Octree.new 2 1 1 0) cloudB = .ok (o3, i3) ∧
    (∃ v, o2.features 2 = some [v]) ∧ o3.features 2 = none ∧ o2.nnumNempty 2 = 2 := by
  have hA := cloudA_legal (Octree.new 2 1 1 0) (by simp [Octree.new]) (by simp [Octree.new]) rfl
  have hB := cloudB_legal (Octree.new 2 1 1 0) (by simp [Octree.new]) (by simp [Octree.new]) rfl
  obtain ⟨o1, i1, h1, e1, e2, e3, _⟩ := C07_build id (fun c v => v / c) _ cloudA [0] hA
  have hB' := cloudB_legal o1 (by rw [e1]; simp [Octree.new]) (by rw [e1, e2]; simp [Octree.new]) (by rw [e3]; rfl)
  obtain ⟨o2, i2, h2, s1, s2, _⟩ := C29_stale id (fun c v => v / c) o1 cloudB [0, 0] hB'
  obtain ⟨o3, i3, h3, t1, t2, _⟩ := C29_stale id (fun c v => v / c) _ cloudB [0, 0] hB
  have dec1 : ((Octree.build id (fun c v => v / c) (Octree.new 2 1 1 0) cloudA).toOption.map fun r =>
      r.1.features 2) = some (some [7]) := by decide +kernel
  have dec2 : ((Octree.build id (fun c v => v / c) (Octree.new 2 1 1 0) cloudB).toOption.map fun r =>
      r.1.nnumNempty 2) = some 2 := by decide +kernel
  rw [h1] at dec1
  rw [h3] at dec2
  simp only [Except.toOption, Option.map_some, Option.some.injEq] at dec1 dec2
  refine ⟨o1, o2, o3, i1, i2, i3, h1, h2, h3, ⟨7, by rw [s2 rfl, dec1]⟩, by rw [t2 rfl]; rfl, ?_⟩
  obtain ⟨p1, p2, _, q1, q2, _, q3, _⟩ := C29_partial id (fun c v => v / c) o1 cloudB [0, 0] hB' 0
  rw [h2] at q1
  rw [e1, e2, e3] at q2
  have q2' : Octree.build id (fun c v => v / c) (Octree.new 2 1 1 0) cloudB = _ := q2
  rw [h3] at q2'
  have f1 := congrArg Prod.fst (Except.ok.inj q1)
  have f2 := congrArg Prod.fst (Except.ok.inj q2')
  simp only at f1 f2
  have := (q3 2 (by rw [e1]; simp [Octree.new])).2.2.2
  rw [f1, this, ← f2, dec2]

/-! ### the hypotheses are satisfiable -/

example : LegalBuild (Octree.new 5 2 1 0) cloudA [0] :=
  cloudA_legal _ (by simp [Octree.new]) (by simp [Octree.new]) rfl

/-- A batch of two samples with features. -/
def cloudC : Points ℚ ℚ Unit :=
  ⟨[⟨1/2, 1/2, 1/2⟩, ⟨-1/2, 1/2, -1/4⟩, ⟨1/2, 5/8, 1/2⟩], none, some [1, 2, 3], none, some [0, 1, 0], 2, none, 0⟩

theorem cloudC_legal : LegalBuild (Octree.new 2 1 2 0) cloudC [0, 1, 0] := by
  refine ⟨by simp [Octree.new], by simp [Octree.new], by simp [Octree.new], rfl,
    ⟨rfl, by simp [Octree.new], by simp [cloudC], by simp [cloudC], by simp [cloudC]⟩, ?_⟩
  intro p hp; simp only [cloudC, List.mem_cons, List.not_mem_nil, or_false] at hp
  rcases hp with rfl | rfl | rfl <;> decide +kernel

example : ((Octree.build id (fun c v => v / c) (Octree.new 2 1 2 0) cloudC).toOption.map fun r =>
    (r.1.nnum 2, r.1.nnumNempty 2, r.1.features 2, r.2)) = some (16, 2, some [2, 2], [0, 1, 0]) := by decide +kernel

example : Lists [(⟨1/2, 1/2, 1/2⟩, 0, 0, 1), (⟨-1/2, 1/2, -1/4⟩, 1, 0, 2), (⟨1/2, 5/8, 1/2⟩, 0, 0, 3)] false true cloudC
    [0, 1, 0] := ⟨rfl, rfl, rfl, rfl⟩

example : ∀ p ∈ [(⟨1, 1, 1⟩ : V3 ℚ), ⟨-1, 1, 0⟩], InCube (p.map wrapFace) := by decide +kernel

end Ocnn
