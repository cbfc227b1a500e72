import Verif.FloatInterp
import Verif.PropsInterpPoints
import Verif.PropsFloatLeaves

/-! Property C162: a point of the cloud finds the ancestor of its leaf at every depth, in exact arithmetic and in single precision. -/

set_option linter.unusedVariables false

namespace Ocnn
open Spec

variable {F L V : Type}

theorem cubeContains_ancestor {D d : Nat} (hd : d ≤ D) {c : Cell} {p : V3 ℚ} (hp : InCube p) (h : CubeContains D c p) :
    CubeContains d (c.ancestor (D - d)) p := by
  rw [cubeContains_iff _ _ _ hp] at h
  rw [cubeContains_iff _ _ _ hp]
  have e := cellAt_ancestor d D c.b p hd
  rw [h] at e
  exact e.symm

/-- the nodes above an occupied leaf are non-empty nodes -/
theorem ancestor_nonEmpty [AddCommMonoid F] {o : Octree F} {points : List (V3 ℚ)} {samples : List Nat} {cells : Nat → List Cell} {ch : Nat → List Int}
    (hc : ∀ d ≤ o.depth,
        (o.fullDepth ≤ d → ∀ c, c ∈ nonEmpty (cells d) (ch d) ↔ Occupied points samples d c) ∧
        (d ≤ o.fullDepth → ∀ c, c ∈ cells d ↔ c.InRange o.batchSize d) ∧
        (d < o.depth → ∀ c, c ∈ cells (d + 1) ↔ c.parent ∈ nonEmpty (cells d) (ch d)))
    (hf : o.fullDepth ≤ o.depth) {c : Cell} (hr : c.InRange o.batchSize o.depth) {i : Nat} {p : V3 ℚ} (hi : points[i]? = some p)
    (hs : samples[i]? = some c.b) (hp : InCube p) (h : CubeContains o.depth c p) (d : Nat) (hd : d ≤ o.depth) :
    c.ancestor (o.depth - d) ∈ nonEmpty (cells d) (ch d) := by
  rcases Nat.lt_or_ge d o.fullDepth with hlt | hge
  · have h1 := ((hc (d + 1) (by omega)).2.1 (by omega) (c.ancestor (o.depth - (d + 1)))).2 (by
      obtain ⟨a1, a2, a3, a4⟩ := hr
      have hpow : 2 ^ o.depth = 2 ^ (d + 1) * 2 ^ (o.depth - (d + 1)) := by rw [← pow_add]; congr 1; omega
      rw [hpow] at a2 a3 a4
      exact ⟨a1, Nat.div_lt_of_lt_mul (by rwa [mul_comm]), Nat.div_lt_of_lt_mul (by rwa [mul_comm]), Nat.div_lt_of_lt_mul (by rwa [mul_comm])⟩)
    have h2 := ((hc d hd).2.2 (by omega) _).1 h1
    rw [Cell.parent_ancestor] at h2
    have e : o.depth - (d + 1) + 1 = o.depth - d := by omega
    rwa [e] at h2
  · exact ((hc d hd).1 hge _).2 ⟨i, p, hi, hs, cubeContains_ancestor hd hp h⟩

/-- The scaled query rows of a cloud at depth `d`. -/
def scaledRows (d : Nat) (points : List (V3 ℚ)) (samples : List Nat) : List Pt4 :=
  (queryRows points samples).map fun p => (p.1.map fun v => (v + 1) * (2 : ℚ) ^ ((d : ℤ) - 1), p.2)

theorem layers_core [AddCommMonoid F] (nrm : V3 ℚ → V3 ℚ) (divF : ℚ → F → F) (o : Octree F) (pc : Points ℚ F L) (samples : List Nat)
    (h : LegalBuild o pc samples) :
    ∃ o' idx cells ch, Octree.build nrm divF o pc = .ok (o', idx) ∧ CellsOf o.batchSize o.depth o'.keys cells ∧ o'.children o.depth = some ch ∧
      idx.length = pc.points.length ∧
      ∀ d ≤ o.depth, ∀ (dcells : List Cell) (dch : List Int), CellsOf o.batchSize d o'.keys dcells → o'.children d = some dch →
        ∀ (W : Type) [Zero W] (nempty bc : Bool) (x : List W), x.length = (queried nempty dcells dch).length →
          ∃ out, octreeNearestPts x o' d (scaledRows d pc.points samples) nempty bc = .ok out ∧ out.length = pc.points.length ∧
            ∀ (i r : Nat) (c : Cell), idx[i]? = some r → (nonEmpty cells ch)[r]? = some c →
              ∃ v, out[i]? = some v ∧ HasVal (queried nempty dcells dch) x (c.ancestor (o.depth - d)) v := by
  obtain ⟨o', idx, h1, hdep, hfull, hB, hv, lcells, lch, hlay⟩ := C07_build nrm divF o pc samples h
  obtain ⟨o2, idx2, cells, ch, h2, hc, hch, hlen, hleaf⟩ := C08_leaf_index nrm divF o pc samples h
  obtain ⟨rfl, rfl⟩ : o' = o2 ∧ idx = idx2 := by
    rw [h1] at h2
    have := Except.ok.inj h2
    exact ⟨congrArg Prod.fst this, congrArg Prod.snd this⟩
  have hsl : samples.length = pc.points.length := h.cloud.length
  refine ⟨o', idx, cells, ch, h1, hc, hch, hlen, fun d hd dcells dch hdc hdch W _ nempty bc x hx => ?_⟩
  have hd16 : d ≤ 16 := le_trans hd h.depth
  obtain rfl : lcells d = dcells := cells_unique hd16 (hlay d hd).1 hdc
  obtain rfl : lch d = dch := Option.some.inj ((hlay d hd).2.1.symm.trans hdch)
  let qs : List (V3 ℚ × Nat) := List.zipWith (fun p b => (p.map fun v => (v + 1) * (2 : ℚ) ^ ((d : ℤ) - 1), b)) pc.points samples
  have hqs : scaledRows d pc.points samples = qs.map row4 := by
    simp only [scaledRows, queryRows, qs, List.map_zipWith, row4]
  have hqlen : qs.length = pc.points.length := by simp [qs, hsl]
  have hqb : ∀ q ∈ qs, q.2 < 2 ^ 15 := by
    intro q hq
    obtain ⟨i, hi⟩ := List.getElem?_of_mem hq
    simp only [qs, List.getElem?_zipWith] at hi
    cases hp : pc.points[i]? with
    | none => rw [hp] at hi; simp at hi
    | some p =>
      cases hs : samples[i]? with
      | none => rw [hp, hs] at hi; simp at hi
      | some b =>
        rw [hp, hs] at hi
        simp only [Option.some.injEq] at hi
        have := h.cloud.lt b (List.mem_of_getElem? hs)
        have hb := h.batch
        rw [← hi]
        show b < 2 ^ 15
        omega
  rw [← hB] at hdc
  obtain ⟨out, ho1, ho2, ho3⟩ := C50_nearest o' o.depth hv d hd (lcells d) (lch d) hdc hdch nempty bc x hx qs hqb
  refine ⟨out, by rw [hqs]; exact ho1, by omega, fun i r c hir hrc => ?_⟩
  have hi : i < pc.points.length := by
    rw [← hlen]; exact (List.getElem?_eq_some_iff.mp hir).1
  have hp := List.getElem?_eq_getElem hi
  have hs := List.getElem?_eq_getElem (l := samples) (i := i) (by omega)
  obtain ⟨r', c', hr1, hr2, hcb, hcc⟩ := hleaf i _ _ hp hs
  rw [hir] at hr1
  obtain rfl := Option.some.inj hr1
  rw [hrc] at hr2
  obtain rfl := Option.some.inj hr2
  have hout : i < out.length := by omega
  have hq : qs[i]? = some ((pc.points[i]).map fun v => (v + 1) * (2 : ℚ) ^ ((d : ℤ) - 1), samples[i]) := by
    simp only [qs, List.getElem?_zipWith, hp, hs]
  have hin := h.inCube _ (List.getElem_mem hi)
  have hinC : InCells d ((pc.points[i]).map fun v => (v + 1) * (2 : ℚ) ^ ((d : ℤ) - 1)) :=
    ⟨grid_in _ hin.1.1 hin.1.2, grid_in _ hin.2.1.1 hin.2.1.2, grid_in _ hin.2.2.1 hin.2.2.2⟩
  have hca := cubeContains_ancestor hd hin hcc
  have hH : Holds (c.ancestor (o.depth - d)) ((pc.points[i]).map fun v => (v + 1) * (2 : ℚ) ^ ((d : ℤ) - 1)) samples[i] :=
    ⟨hcb, side_grid _ _ _ hca.1, side_grid _ _ _ hca.2.1, side_grid _ _ _ hca.2.2⟩
  have hcr : c.InRange o.batchSize o.depth := by
    refine hc.1 c ?_
    obtain ⟨-, hne, -⟩ := layer_masks o' o.depth hv o.depth (le_refl _) cells ch (by rw [hB]; exact hc) hch
    have := List.mem_of_getElem? hrc
    rw [hne] at this
    exact (maskSel_sublist _ _).mem this
  have hmem := ancestor_nonEmpty (o := o) (points := pc.points) (samples := samples) (fun d hd => (hlay d hd).2.2) h.full hcr hp
    (by rw [hcb]; exact hs) hin hcc d hd
  have hcmem : c.ancestor (o.depth - d) ∈ queried nempty (lcells d) (lch d) := by
    unfold queried
    split
    · exact hmem
    · obtain ⟨-, hne, -⟩ := layer_masks o' o.depth hv d hd (lcells d) (lch d) hdc hdch
      rw [hne] at hmem
      exact (maskSel_sublist _ _).mem hmem
  refine ⟨out[i], List.getElem?_eq_getElem hout, ?_⟩
  rcases ho3 i _ _ _ hq hinC (List.getElem?_eq_getElem hout) with ⟨c', hc', hval⟩ | ⟨hno, -⟩
  · have : c' = c.ancestor (o.depth - d) := by
      rw [← torusCell_eq_iff hinC] at hc' hH
      exact hc'.symm.trans hH
    rw [this] at hval
    exact hval
  · exact absurd hH (hno _ hcmem)

/-- **C162**: with the octree and the indices that `build_octree` returns for a cloud, nearest interpolation of the features of the layer of any depth at the
points of the cloud gives each point the row of the ancestor of its leaf. -/
theorem C162_layers [AddCommMonoid F] (nrm : V3 ℚ → V3 ℚ) (divF : ℚ → F → F) (o : Octree F) (pc : Points ℚ F L) (samples : List Nat)
    (h : LegalBuild o pc samples) (method : String) (hmeth : method ≠ "linear") {C : Nat} :
    ∃ o' idx cells ch, Octree.build nrm divF o pc = .ok (o', idx) ∧ CellsOf o.batchSize o.depth o'.keys cells ∧ o'.children o.depth = some ch ∧
      idx.length = pc.points.length ∧
      ∀ d ≤ o.depth, ∀ (dcells : List Cell) (dch : List Int), CellsOf o.batchSize d o'.keys dcells → o'.children d = some dch →
        ∀ (nempty bc : Bool) (x : List (Fin C → ℚ)), x.length = (queried nempty dcells dch).length →
          ∃ out, (octreeInterp method nempty bc true x o' d (queryRows pc.points samples)).1 = .ok out ∧ out.length = pc.points.length ∧
            ∀ (i r : Nat) (c : Cell), idx[i]? = some r → (nonEmpty cells ch)[r]? = some c →
              ∃ v, out[i]? = some v ∧ HasVal (queried nempty dcells dch) x (c.ancestor (o.depth - d)) v := by
  obtain ⟨o', idx, cells, ch, h1, h2, h3, h4, h5⟩ := layers_core nrm divF o pc samples h
  refine ⟨o', idx, cells, ch, h1, h2, h3, h4, fun d hd dcells dch hdc hdch nempty bc x hx => ?_⟩
  obtain ⟨out, a1, a2, a3⟩ := h5 d hd dcells dch hdc hdch (Fin C → ℚ) nempty bc x hx
  refine ⟨out, ?_, a2, a3⟩
  unfold octreeInterp interpFunc
  simp only [if_true, if_neg hmeth]
  exact a1

/-- **C162** in single precision, for coordinates below `1 - 2^-24`: although both building and interpolating round the coordinates, and interpolation scales
them by another factor at every depth, the point finds the ancestor of the leaf in which it was stored. -/
theorem C162_single [AddCommMonoid F] (nrm : V3 ℚ → V3 ℚ) (divF : ℚ → F → F) (o : Octree F) (pc : Points ℚ F L) (samples : List Nat)
    (h : LegalBuild o pc samples) (ht : ∀ p ∈ pc.points, BelowTop p) :
    ∃ o' idx cells ch, Octree.buildF32 nrm divF o pc = .ok (o', idx) ∧ CellsOf o.batchSize o.depth o'.keys cells ∧ o'.children o.depth = some ch ∧
      idx.length = pc.points.length ∧
      ∀ d ≤ o.depth, ∀ (dcells : List Cell) (dch : List Int), CellsOf o.batchSize d o'.keys dcells → o'.children d = some dch →
        ∀ (W : Type) [Zero W] (nempty bc : Bool) (x : List W), x.length = (queried nempty dcells dch).length →
          ∃ out, (octreeNearestF32 nempty bc x o' d (queryRows pc.points samples)).1 = .ok out ∧ out.length = pc.points.length ∧
            ∀ (i r : Nat) (c : Cell), idx[i]? = some r → (nonEmpty cells ch)[r]? = some c →
              ∃ v, out[i]? = some v ∧ HasVal (queried nempty dcells dch) x (c.ancestor (o.depth - d)) v := by
  obtain ⟨o', idx, cells, ch, h1, h2, h3, h4, h5⟩ := layers_core nrm divF o _ samples (legal_rounded h ht)
  have hl : ∀ (l : List (V3 ℚ)), (l.map (V3.map roundCoord)).length = l.length := fun l => List.length_map _
  refine ⟨o', idx, cells, ch, by rw [buildF32_eq, h1], h2, h3, by rw [h4, hl], fun d hd dcells dch hdc hdch W _ nempty bc x hx => ?_⟩
  obtain ⟨out, a1, a2, a3⟩ := h5 d hd dcells dch hdc hdch W nempty bc x hx
  refine ⟨out, ?_, by rw [a2, hl], a3⟩
  unfold octreeNearestF32
  rw [← a1]
  congr 2
  simp only [scaledRows, queryRows, List.map_zipWith, List.zipWith_map_left]
  have e : (fun (x : V3 ℚ) (y : Nat) => (V3.map (scaleF32 d) x, (y : ℚ))) =
      fun (x : V3 ℚ) (y : Nat) => (V3.map (fun v => (v + 1) * (2 : ℚ) ^ ((d : ℤ) - 1)) (V3.map roundCoord x), (y : ℚ)) := by
    funext p b
    simp [V3.map, scaleF32_eq]
  rw [e]

/-! ### concrete cases -/

theorem cloudF_legal : LegalBuild (Octree.new 6 2 1 0) cloudF [0, 0] :=
  ⟨by decide, by decide, by decide, rfl, ⟨rfl, by simp [Octree.new], by simp [Octree.new], by simp [cloudF], by simp [cloudF]⟩, by
      intro p hp
      simp only [cloudF, List.mem_cons, List.not_mem_nil, or_false] at hp
      rcases hp with rfl | rfl <;> norm_num [InCube]⟩

/-- `C162_single` speaks about a cloud with a coordinate that is moved by the rounding. -/
example : ∃ (o' : Octree ℚ) (idx : List Nat), Octree.buildF32 id (fun c v => v / c) (Octree.new 6 2 1 0) cloudF = .ok (o', idx) ∧ idx.length = 2 := by
  obtain ⟨o', idx, -, -, h1, -, -, h4, -⟩ := C162_single id (fun c v => v / c) (Octree.new 6 2 1 0) cloudF [0, 0] cloudF_legal (by
    intro p hp
    simp only [cloudF, List.mem_cons, List.not_mem_nil, or_false] at hp
    rcases hp with rfl | rfl <;> norm_num [BelowTop])
  exact ⟨o', idx, h1, h4⟩

/-- `C162_layers`: the coarsest layer, where every point finds the root of its sample. -/
example : ∃ (o' : Octree ℚ) (idx : List Nat) (cells : List Cell) (ch : List Int), Octree.build id (fun c v => v / c) (Octree.new 6 2 1 0) cloudF = .ok (o', idx) ∧
    ∀ (dcells : List Cell) (dch : List Int), CellsOf 1 0 o'.keys dcells → o'.children 0 = some dch →
      ∀ x : List (Fin 3 → ℚ), x.length = dcells.length →
        ∃ out, (octreeInterp "nearest" false true true x o' 0 (queryRows cloudF.points [0, 0])).1 = .ok out ∧ out.length = 2 ∧
          ∀ (i r : Nat) (c : Cell), idx[i]? = some r → (nonEmpty cells ch)[r]? = some c → ∃ v, out[i]? = some v ∧ HasVal dcells x (c.ancestor 6) v := by
  obtain ⟨o', idx, cells, ch, h1, -, -, -, h5⟩ := C162_layers id (fun c v => v / c) (Octree.new 6 2 1 0) cloudF [0, 0] cloudF_legal "nearest" (by decide) (C := 3)
  exact ⟨o', idx, cells, ch, h1, fun dcells dch a b x hx => h5 0 (Nat.zero_le _) dcells dch a b false true x hx⟩

end Ocnn
