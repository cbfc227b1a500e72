import Verif.PropsBuild

/-! Property C119: the parameters `depth` and `full_depth` of an octree set its resolution and nothing else. -/

namespace Ocnn
open Spec
variable {F L : Type}

/-- the layers of two built octrees with the same occupied cells, whatever their depths -/
theorem builtState_depth [AddCommMonoid F] {L' : Type} {nrm nrm' : V3 ℚ → V3 ℚ} {divF divF' : ℚ → F → F}
    {o o' : Octree F} {pc : Points ℚ F L} {pc' : Points ℚ F L'} {S S' : Nat → List Cell} {ks ks' : List Nat}
    (hB : o'.batchSize = o.batchSize) (d : Nat) (hd : d ≤ o.depth) (hd' : d ≤ o'.depth)
    (hm : occMasks o.batchSize o.fullDepth S d = occMasks o.batchSize o'.fullDepth S' d)
    (hc : layerCells o.batchSize (occMasks o.batchSize o.fullDepth S) d = layerCells o.batchSize (occMasks o.batchSize o'.fullDepth S') d) :
    (builtState nrm divF o pc S ks).keys d = (builtState nrm' divF' o' pc' S' ks').keys d ∧
    (builtState nrm divF o pc S ks).children d = (builtState nrm' divF' o' pc' S' ks').children d ∧
    (builtState nrm divF o pc S ks).nnum d = (builtState nrm' divF' o' pc' S' ks').nnum d ∧
    (builtState nrm divF o pc S ks).nnumNempty d = (builtState nrm' divF' o' pc' S' ks').nnumNempty d := by
  simp only [builtState, hB, hd, hd', if_true, hm, hc, and_self]

/-- C119, depth: octrees of one point cloud with different depths have the same keys, children and counters at every
depth that both of them have. -/
theorem C119_depth [AddCommMonoid F] (nrm : V3 ℚ → V3 ℚ) (divF : ℚ → F → F) (o₁ o₂ : Octree F) (pc : Points ℚ F L)
    (samples : List Nat) (h₁ : LegalBuild o₁ pc samples) (h₂ : LegalBuild o₂ pc samples) (hf : o₂.fullDepth = o₁.fullDepth) :
    ∃ r₁ r₂ idx₁ idx₂, Octree.build nrm divF o₁ pc = .ok (r₁, idx₁) ∧ Octree.build nrm divF o₂ pc = .ok (r₂, idx₂) ∧
      ∀ d ≤ o₁.depth, d ≤ o₂.depth →
        r₂.keys d = r₁.keys d ∧ r₂.children d = r₁.children d ∧ r₂.nnum d = r₁.nnum d ∧ r₂.nnumNempty d = r₁.nnumNempty d := by
  obtain ⟨S, hO, hm, hS, hb⟩ := build_cube nrm divF o₁ pc samples h₁.cloud h₁.same_batch h₁.inCube h₁.depth h₁.full h₁.batch
  obtain ⟨S', hO', hm', hS', hb'⟩ := build_cube nrm divF o₂ pc samples h₂.cloud h₂.same_batch h₂.inCube h₂.depth h₂.full h₂.batch
  have hB : o₁.batchSize = o₂.batchSize := h₁.same_batch.symm.trans h₂.same_batch
  refine ⟨_, _, _, _, hb, hb', fun d hd hd' => ?_⟩
  have hSS : ∀ i ≤ d, S' i = S i := by
    intro i hi
    apply keySorted_ext (B := o₁.batchSize) (by have := h₁.depth; omega) (hO'.sorted i (by omega)) (hO.sorted i (by omega)) (by rw [hB]; exact hO'.range i (by omega)) (hO.range i (by omega))
    intro c
    rw [hm' i (by omega), hm i (by omega)]
  have e := occMasks_congr (B := o₂.batchSize) (full := o₂.fullDepth) hSS
  apply builtState_depth hB d hd' hd
  · rw [e d (le_refl _), hf]
  · rw [← hf]
    exact layerCells_congr _ _ _ d (fun i hi => e i (by omega))

/-- C119, full depth: octrees of one point cloud with different `full_depth` have the same keys, children and counters
at every depth below both full layers, the same non-empty nodes from the deeper one of the full layers on, and, if the
depths agree, the same leaf signals and the same index of the leaf of each point. -/
theorem C119_full [AddCommMonoid F] (nrm : V3 ℚ → V3 ℚ) (divF : ℚ → F → F) (o₁ o₂ : Octree F) (pc : Points ℚ F L)
    (samples : List Nat) (h₁ : LegalBuild o₁ pc samples) (h₂ : LegalBuild o₂ pc samples) :
    ∃ r₁ r₂ idx₁ idx₂, Octree.build nrm divF o₁ pc = .ok (r₁, idx₁) ∧ Octree.build nrm divF o₂ pc = .ok (r₂, idx₂) ∧
      (∀ d ≤ o₁.depth, d ≤ o₂.depth → o₁.fullDepth < d → o₂.fullDepth < d →
        r₂.keys d = r₁.keys d ∧ r₂.children d = r₁.children d ∧ r₂.nnum d = r₁.nnum d ∧ r₂.nnumNempty d = r₁.nnumNempty d) ∧
      (∀ d ≤ o₁.depth, d ≤ o₂.depth → o₁.fullDepth ≤ d → o₂.fullDepth ≤ d →
        ∃ cells₁ ch₁ cells₂ ch₂, CellsOf o₁.batchSize d r₁.keys cells₁ ∧ r₁.children d = some ch₁ ∧
          CellsOf o₁.batchSize d r₂.keys cells₂ ∧ r₂.children d = some ch₂ ∧ nonEmpty cells₁ ch₁ = nonEmpty cells₂ ch₂) ∧
      (o₁.depth = o₂.depth → idx₁ = idx₂ ∧ r₁.points o₁.depth = r₂.points o₁.depth ∧
        (pc.normals.isSome → r₁.normals o₁.depth = r₂.normals o₁.depth) ∧
        (pc.features.isSome → r₁.features o₁.depth = r₂.features o₁.depth)) := by
  obtain ⟨S, hO, hm, hS, hb⟩ := build_cube nrm divF o₁ pc samples h₁.cloud h₁.same_batch h₁.inCube h₁.depth h₁.full h₁.batch
  obtain ⟨S', hO', hm', hS', hb'⟩ := build_cube nrm divF o₂ pc samples h₂.cloud h₂.same_batch h₂.inCube h₂.depth h₂.full h₂.batch
  have hB : o₁.batchSize = o₂.batchSize := h₁.same_batch.symm.trans h₂.same_batch
  have w := builtState_wf nrm divF o₁ pc h₁.depth h₁.full h₁.batch S hO ((pointCells o₁.depth pc samples).map (Cell.key o₁.depth))
  have w' := builtState_wf nrm divF o₂ pc h₂.depth h₂.full h₂.batch S' hO' ((pointCells o₂.depth pc samples).map (Cell.key o₂.depth))
  have hSS : ∀ i ≤ o₁.depth, i ≤ o₂.depth → S' i = S i := by
    intro i hi hi'
    apply keySorted_ext (B := o₁.batchSize) (by have := h₁.depth; omega) (hO'.sorted i (by omega)) (hO.sorted i (by omega)) (by rw [hB]; exact hO'.range i (by omega)) (hO.range i (by omega))
    intro c
    rw [hm' i (by omega), hm i (by omega)]
  refine ⟨_, _, _, _, hb, hb', ?_, ?_, ?_⟩
  · intro d hd hd' hf hf'
    obtain ⟨n, rfl⟩ : ∃ n, d = n + 1 := ⟨d - 1, by omega⟩
    have hl : occLayer o₂.batchSize o₂.fullDepth S' (n + 1) = occLayer o₂.batchSize o₁.fullDepth S (n + 1) := by
      rw [occLayer_gt (by omega), occLayer_gt (by omega), hSS n (by omega) (by omega)]
    apply builtState_depth hB (n + 1) hd' hd
    · unfold occMasks
      rw [if_neg (by omega), if_neg (by omega), hl, hSS _ hd hd']
    · rw [(hO'.layers _ hd').1, hl]
      have := (hO.layers _ hd).1
      rw [hB] at this
      exact this.symm
  · intro d hd hd' hf hf'
    refine ⟨_, _, layerCells o₂.batchSize (occMasks o₂.batchSize o₂.fullDepth S') d, _, w.cellsOf d hd, w.children d hd, ?_,
      w'.children d hd', ?_⟩
    · have := w'.cellsOf d hd'
      rw [hB]
      exact this
    · rw [hO'.nempty d hd' hf', hSS d hd hd', ← hO.nempty d hd hf]
      rfl
  · intro hD
    refine ⟨by rw [hD], ?_, ?_, ?_⟩
    · simp only [builtState, upd, hD, if_true]
    · intro hn
      obtain ⟨n, hn⟩ := Option.isSome_iff_exists.mp hn
      simp only [builtState, upd, hn, hD, if_true]
    · intro hn
      obtain ⟨n, hn⟩ := Option.isSome_iff_exists.mp hn
      simp only [builtState, upd, hn, hD, if_true]

/-- C119, more points: adding points to a cloud never removes a node or empties one. -/
theorem C119_more [AddCommMonoid F] {L' : Type} (nrm : V3 ℚ → V3 ℚ) (divF : ℚ → F → F) (o : Octree F) (pc : Points ℚ F L) (pc' : Points ℚ F L')
    (samples samples' : List Nat) (h : LegalBuild o pc samples) (h' : LegalBuild o pc' samples')
    (hsub : ∀ e ∈ pc.points.zip samples, e ∈ pc'.points.zip samples') :
    ∃ r r' idx idx', Octree.build nrm divF o pc = .ok (r, idx) ∧ Octree.build nrm divF o pc' = .ok (r', idx') ∧
      ∃ (cells cells' : Nat → List Cell) (ch ch' : Nat → List Int), ∀ d ≤ o.depth,
        CellsOf o.batchSize d r.keys (cells d) ∧ r.children d = some (ch d) ∧
        CellsOf o.batchSize d r'.keys (cells' d) ∧ r'.children d = some (ch' d) ∧
        (∀ c ∈ cells d, c ∈ cells' d) ∧ ∀ c ∈ nonEmpty (cells d) (ch d), c ∈ nonEmpty (cells' d) (ch' d) := by
  obtain ⟨S, hO, hm, hS, hb⟩ := build_cube nrm divF o pc samples h.cloud h.same_batch h.inCube h.depth h.full h.batch
  obtain ⟨S', hO', hm', hS', hb'⟩ := build_cube nrm divF o pc' samples' h'.cloud h'.same_batch h'.inCube h'.depth h'.full h'.batch
  have w := builtState_wf nrm divF o pc h.depth h.full h.batch S hO ((pointCells o.depth pc samples).map (Cell.key o.depth))
  have w' := builtState_wf nrm divF o pc' h'.depth h'.full h'.batch S' hO' ((pointCells o.depth pc' samples').map (Cell.key o.depth))
  have hSS : ∀ i ≤ o.depth, ∀ c ∈ S i, c ∈ S' i := by
    intro i hi c hc
    rw [hm i hi] at hc
    rw [hm' i hi]
    obtain ⟨j, p, hp, hs, hcc⟩ := hc
    have : (p, c.b) ∈ pc.points.zip samples := by
      apply List.mem_of_getElem? (i := j)
      rw [List.getElem?_zip_eq_some]
      exact ⟨hp, hs⟩
    obtain ⟨j', hj'⟩ := List.getElem?_of_mem (hsub _ this)
    rw [List.getElem?_zip_eq_some] at hj'
    exact ⟨j', p, hj'.1, hj'.2, hcc⟩
  refine ⟨_, _, _, _, hb, hb', layerCells o.batchSize (occMasks o.batchSize o.fullDepth S), layerCells o.batchSize (occMasks o.batchSize o.fullDepth S'),
    fun d => number 0 (occMasks o.batchSize o.fullDepth S d), fun d => number 0 (occMasks o.batchSize o.fullDepth S' d), fun d hd => ?_⟩
  have hcells : ∀ c ∈ layerCells o.batchSize (occMasks o.batchSize o.fullDepth S) d, c ∈ layerCells o.batchSize (occMasks o.batchSize o.fullDepth S') d := by
    intro c hc
    rw [(hO.layers d hd).1] at hc
    rw [(hO'.layers d hd).1]
    rcases Nat.lt_or_ge o.fullDepth d with hf | hf
    · obtain ⟨n, rfl⟩ : ∃ n, d = n + 1 := ⟨d - 1, by omega⟩
      rw [occLayer_gt hf, mem_expand] at hc ⊢
      obtain ⟨s, hs, r⟩ := hc
      exact ⟨s, hSS n (by omega) s hs, r⟩
    · rw [occLayer_le hf] at hc ⊢
      exact hc
  refine ⟨w.cellsOf d hd, w.children d hd, w'.cellsOf d hd, w'.children d hd, hcells, ?_⟩
  intro c hc
  rcases Nat.lt_or_ge d o.fullDepth with hf | hf
  · rw [hO.nempty_lt d hd hf] at hc
    rw [hO'.nempty_lt d hd hf]
    exact hcells c hc
  · rw [hO.nempty d hd hf] at hc
    rw [hO'.nempty d hd hf]
    exact hSS d hd c hc

/-- The hypotheses hold for octrees of a batch of two samples with depths 2 and 5 and full depths 1 and 2. -/
example : LegalBuild (Octree.new 2 1 2 0) cloudC [0, 1, 0] ∧ LegalBuild (Octree.new 5 2 2 0) cloudC [0, 1, 0] := by
  have h := cloudC_legal
  exact ⟨h, by simp [Octree.new], by simp [Octree.new], h.batch, h.same_batch, h.cloud, h.inCube⟩

example : ((Octree.build id (fun c v => v / c) (Octree.new 2 1 2 0) cloudC).toOption.map fun r => (r.1.keys 2, r.1.nnumNempty 2))
    = ((Octree.build id (fun c v => v / c) (Octree.new 3 1 2 0) cloudC).toOption.map fun r => (r.1.keys 2, r.1.nnumNempty 2)) := by
  decide +kernel

end Ocnn
