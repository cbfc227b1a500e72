import Verif.PropsInterp
import Verif.PropsBuild
import Verif.PropsDense
import Verif.PropsResolution

/-! Property C128: nearest interpolation at the points of the cloud agrees with the leaf indices of `build_octree`. -/

namespace Ocnn
open Spec

variable {F L : Type}

/-- A point of the cube in units of cells. -/
theorem grid_in (d : Nat) {v : ℚ} (h1 : -1 ≤ v) (h2 : v < 1) : 0 ≤ (v + 1) * 2 ^ ((d : ℤ) - 1) ∧ (v + 1) * 2 ^ ((d : ℤ) - 1) < 2 ^ d := by
  have e : (2 : ℚ) ^ ((d : ℤ) - 1) = 2 ^ d / 2 := by
    rw [zpow_sub₀ (by norm_num), zpow_natCast, zpow_one]
  have hp : (0 : ℚ) < 2 ^ d := by positivity
  rw [e]
  constructor
  · have : 0 ≤ v + 1 := by linarith
    positivity
  · nlinarith

theorem side_grid (d n : Nat) (v : ℚ) (h : SideContains d n v) :
    (n : ℚ) ≤ (v + 1) * 2 ^ ((d : ℤ) - 1) ∧ (v + 1) * 2 ^ ((d : ℤ) - 1) < n + 1 := by
  have e : (2 : ℚ) ^ ((d : ℤ) - 1) = 2 ^ d / 2 := by
    rw [zpow_sub₀ (by norm_num), zpow_natCast, zpow_one]
  have hp : (0 : ℚ) < 2 ^ d := by positivity
  obtain ⟨h1, h2⟩ := h
  rw [e]
  have e1 : (-1 + n * (2 / 2 ^ d) + 1) * (2 ^ d / 2) = (n : ℚ) := by field_simp; ring
  have e2 : (-1 + (n + 1) * (2 / 2 ^ d) + 1) * (2 ^ d / 2) = (n : ℚ) + 1 := by field_simp; ring
  have hp2 : (0 : ℚ) < 2 ^ d / 2 := by positivity
  constructor
  · rw [← e1]
    exact mul_le_mul_of_nonneg_right (by linarith) hp2.le
  · rw [← e2]
    exact mul_lt_mul_of_pos_right (by linarith) hp2

/-- Rows of all nodes and the rows of the non-empty ones. -/
theorem depad_hasVal {V : Type} (o : Octree F) (h : Nat) (w : o.Valid h) (d : Nat) (hd : d ≤ h) (cells : List Cell) (ch : List Int)
    (hc : CellsOf o.batchSize d o.keys cells) (hch : o.children d = some ch) (y : List V) (hy : y.length = cells.length) :
    ∃ x, octreeDepad y o d = .ok x ∧ x.length = (nonEmpty cells ch).length ∧
      ∀ c ∈ nonEmpty cells ch, ∀ v, HasVal cells y c v → HasVal (nonEmpty cells ch) x c v := by
  have hnd := nodes_nodup o h w d hd false 1 _ _ (.one d cells ch hc hch)
  rcases y with _ | ⟨v0, y'⟩
  · have : cells = [] := List.length_eq_zero_iff.mp (by simpa using hy.symm)
    subst this
    refine ⟨[], ?_, ?_, ?_⟩
    · obtain ⟨hm, hne, -, -, hl⟩ := layer_masks o h w d hd [] ch hc hch
      rw [depad_ok w d hd _ (by simpa using hl)]
      simp
    · obtain ⟨hm, hne, -, -, hl⟩ := layer_masks o h w d hd [] ch hc hch
      rw [hne]; simp
    · intro c hcm
      obtain ⟨hm, hne, -, -, hl⟩ := layer_masks o h w d hd [] ch hc hch
      rw [hne] at hcm; simp at hcm
  · generalize hyy : v0 :: y' = y at *
    -- the rows are a function of the cells
    let g : Cell → V := fun c => (y[cells.idxOf c]?).getD v0
    have hnd' : cells.Nodup := by simpa [queried] using hnd
    have hg : y = cells.map g := by
      apply List.ext_getElem?
      intro i
      rw [List.getElem?_map]
      rcases Nat.lt_or_ge i cells.length with hi | hi
      · have e : cells.idxOf cells[i] = i := hnd'.idxOf_getElem i hi
        rw [List.getElem?_eq_getElem hi]
        simp only [Option.map_some, g, e]
        rw [List.getElem?_eq_getElem (by omega)]
        simp
      · rw [List.getElem?_eq_none (by omega), List.getElem?_eq_none (by omega)]
        rfl
    refine ⟨(nonEmpty cells ch).map g, by rw [hg]; exact depad_rows o h w d hd cells ch hc hch g, by simp, ?_⟩
    rintro c hcm v ⟨i, h1, h2⟩
    obtain ⟨j, hj⟩ := List.getElem?_of_mem hcm
    refine ⟨j, hj, ?_⟩
    rw [hg, List.getElem?_map, h1] at h2
    rw [List.getElem?_map, hj]
    exact h2

/-- The query tensor of a cloud: one row per point with the number of its sample. -/
def Spec.queryRows (points : List (V3 ℚ)) (samples : List Nat) : List (V3 ℚ × ℚ) :=
  List.zipWith (fun (p : V3 ℚ) (b : Nat) => (p, (b : ℚ))) points samples

/-- C128: with the octree and the indices that `build_octree` returns for a cloud, nearest interpolation of the features of the
finest layer at the points of the cloud gives each point the row of its index; for features of the non-empty nodes, and
for features of all nodes the row of its index among the rows of the non-empty nodes. -/
theorem C128_points [AddCommMonoid F] (nrm : V3 ℚ → V3 ℚ) (divF : ℚ → F → F) (o : Octree F) (pc : Points ℚ F L) (samples : List Nat)
    (h : LegalBuild o pc samples) (bc : Bool) (method : String) (hmeth : method ≠ "linear") {C : Nat} :
    ∃ o' idx, Octree.build nrm divF o pc = .ok (o', idx) ∧ idx.length = pc.points.length ∧
      (∀ x : List (Fin C → ℚ), x.length = o'.nnumNempty o.depth →
        ∃ out, (octreeInterp method true bc true x o' o.depth (queryRows pc.points samples)).1 = .ok out ∧
          out.length = pc.points.length ∧ ∀ i r : Nat, idx[i]? = some r → r < x.length ∧ out[i]? = x[r]?) ∧
      (∀ y : List (Fin C → ℚ), y.length = o'.nnum o.depth →
        ∃ x out, octreeDepad y o' o.depth = .ok x ∧
          (octreeInterp method false bc true y o' o.depth (queryRows pc.points samples)).1 = .ok out ∧
          out.length = pc.points.length ∧ ∀ i r : Nat, idx[i]? = some r → r < x.length ∧ out[i]? = x[r]?) := by
  obtain ⟨o', idx, h1, hdep, hfull, hB, hv, -⟩ := C07_build nrm divF o pc samples h
  obtain ⟨o2, idx2, cells, ch, h2, hc, hch, hlen, hleaf⟩ := C08_leaf_index nrm divF o pc samples h
  obtain ⟨rfl, rfl⟩ : o' = o2 ∧ idx = idx2 := by
    rw [h1] at h2
    have := Except.ok.inj h2
    exact ⟨congrArg Prod.fst this, congrArg Prod.snd this⟩
  have hsl : samples.length = pc.points.length := h.cloud.length
  rw [← hB] at hc
  have hd : o.depth ≤ o.depth := le_refl _
  -- the rows that the interpolation sees
  let qs : List (V3 ℚ × Nat) := List.zipWith (fun p b => (p.map fun v => (v + 1) * (2 : ℚ) ^ ((o.depth : ℤ) - 1), b)) pc.points samples
  have hqs : (queryRows pc.points samples).map (fun p => (p.1.map fun v => (v + 1) * (2 : ℚ) ^ ((o.depth : ℤ) - 1), p.2)) = qs.map row4 := by
    simp only [queryRows, qs, List.map_zipWith, row4]
  have hqlen : qs.length = pc.points.length := by simp [qs, hsl]
  have hqb : ∀ q ∈ qs, q.2 < 2 ^ 15 := by
    intro q hq
    obtain ⟨i, hi⟩ := List.getElem?_of_mem hq
    simp only [qs, List.getElem?_zipWith] at hi
    cases hp : pc.points[i]? with
    | none => rw [hp] at hi; simp at hi
    | some p =>
      cases hs : samples[i]? with
      | none => rw [hp, hs] at hi; simp at hi
      | some b =>
        rw [hp, hs] at hi
        simp only [Option.some.injEq] at hi
        have := h.cloud.lt b (List.mem_of_getElem? hs)
        have hb := h.batch
        rw [← hi]
        show b < 2 ^ 15
        omega
  have key : ∀ (nempty : Bool) (x : List (Fin C → ℚ)), x.length = (queried nempty cells ch).length →
      ∃ out, (octreeInterp method nempty bc true x o' o.depth (queryRows pc.points samples)).1 = .ok out ∧
        out.length = pc.points.length ∧ ∀ i r : Nat, idx[i]? = some r →
          ∃ c v, (nonEmpty cells ch)[r]? = some c ∧ out[i]? = some v ∧ HasVal (queried nempty cells ch) x c v := by
    intro nempty x hx
    obtain ⟨out, ho1, ho2, ho3⟩ := C50_nearest o' o.depth hv o.depth hd cells ch hc hch nempty bc x hx qs hqb
    refine ⟨out, ?_, by omega, ?_⟩
    · unfold octreeInterp interpFunc
      simp only [if_true, if_neg hmeth]
      rw [hqs]
      exact ho1
    · intro i r hir
      have hi : i < pc.points.length := by
        rw [← hlen]; exact (List.getElem?_eq_some_iff.mp hir).1
      have hp := List.getElem?_eq_getElem hi
      have hs := List.getElem?_eq_getElem (l := samples) (i := i) (by omega)
      obtain ⟨r', c, hr1, hr2, hcb, hcc⟩ := hleaf i _ _ hp hs
      rw [hir] at hr1
      obtain rfl := Option.some.inj hr1
      have hout : i < out.length := by omega
      have hq : qs[i]? = some ((pc.points[i]).map fun v => (v + 1) * (2 : ℚ) ^ ((o.depth : ℤ) - 1), samples[i]) := by
        simp only [qs, List.getElem?_zipWith, hp, hs]
      have hin := h.inCube _ (List.getElem_mem hi)
      have hinC : InCells o.depth ((pc.points[i]).map fun v => (v + 1) * (2 : ℚ) ^ ((o.depth : ℤ) - 1)) :=
        ⟨grid_in _ hin.1.1 hin.1.2, grid_in _ hin.2.1.1 hin.2.1.2, grid_in _ hin.2.2.1 hin.2.2.2⟩
      have hH : Holds c ((pc.points[i]).map fun v => (v + 1) * (2 : ℚ) ^ ((o.depth : ℤ) - 1)) samples[i] :=
        ⟨hcb, side_grid _ _ _ hcc.1, side_grid _ _ _ hcc.2.1, side_grid _ _ _ hcc.2.2⟩
      have hcmem : c ∈ queried nempty cells ch := by
        have := List.mem_of_getElem? hr2
        unfold queried
        split
        · exact this
        · obtain ⟨-, hne, -⟩ := layer_masks o' o.depth hv o.depth hd cells ch hc hch
          rw [hne] at this
          exact (maskSel_sublist _ _).mem this
      refine ⟨c, out[i], hr2, List.getElem?_eq_getElem hout, ?_⟩
      rcases ho3 i _ _ _ hq hinC (List.getElem?_eq_getElem hout) with ⟨c', hc', hval⟩ | ⟨hno, -⟩
      · have : c' = c := by
          rw [← torusCell_eq_iff hinC] at hc' hH
          exact hc'.symm.trans hH
        rw [this] at hval
        exact hval
      · exact absurd hH (hno c hcmem)
  refine ⟨o', idx, h1, hlen, ?_, ?_⟩
  · intro x hx
    have hx' : x.length = (queried true cells ch).length := by
      rw [hx]
      exact (queried_length hv o.depth hd true cells ch hc hch).symm
    obtain ⟨out, a1, a2, a3⟩ := key true x hx'
    refine ⟨out, a1, a2, fun i r hir => ?_⟩
    obtain ⟨c, v, b1, b2, j, b3, b4⟩ := a3 i r hir
    have hnd := nodes_nodup o' o.depth hv o.depth hd true 1 _ _ (.one o.depth cells ch hc hch)
    have : j = r := nodup_getElem?_inj hnd b3 (by simpa [queried] using b1)
    subst this
    exact ⟨(List.getElem?_eq_some_iff.mp b4).1, b2.trans b4.symm⟩
  · intro y hy
    have hy' : y.length = (queried false cells ch).length := by
      rw [hy]
      exact (queried_length hv o.depth hd false cells ch hc hch).symm
    obtain ⟨out, a1, a2, a3⟩ := key false y hy'
    obtain ⟨x, e1, e2, e3⟩ := depad_hasVal o' o.depth hv o.depth hd cells ch hc hch y (by simpa [queried] using hy')
    refine ⟨x, out, e1, a1, a2, fun i r hir => ?_⟩
    obtain ⟨c, v, b1, b2, b3⟩ := a3 i r hir
    obtain ⟨j, c3, c4⟩ := e3 c (List.mem_of_getElem? b1) v (by simpa [queried] using b3)
    have hnd := nodes_nodup o' o.depth hv o.depth hd true 1 _ _ (.one o.depth cells ch hc hch)
    have : j = r := nodup_getElem?_inj (by simpa [queried] using hnd) c3 b1
    subst this
    exact ⟨(List.getElem?_eq_some_iff.mp c4).1, b2.trans c4.symm⟩

/-- C128, leaves: interpolation at the averaged points that the octree stores, without rescaling, gives back the features. -/
theorem C128_leaves [AddCommMonoid F] (nrm : V3 ℚ → V3 ℚ) (divF : ℚ → F → F) (o : Octree F) (pc : Points ℚ F L) (samples : List Nat)
    (h : LegalBuild o pc samples) (bc : Bool) (method : String) (hmeth : method ≠ "linear") {C : Nat} :
    ∃ o' idx pts ids, Octree.build nrm divF o pc = .ok (o', idx) ∧ o'.points o.depth = some pts ∧ o'.batchId o.depth true = .ok ids ∧
      ∀ x : List (Fin C → ℚ), x.length = o'.nnumNempty o.depth →
        (octreeInterp method true bc false x o' o.depth (queryRows pts ids)).1 = .ok x := by
  obtain ⟨o', idx, h1, hdep, hfull, hB, hv, -⟩ := C07_build nrm divF o pc samples h
  obtain ⟨o2, idx2, cells, ch, pts, h2, hc, hch, hpts, hlen, hin⟩ := C12_inside nrm divF o pc samples h
  obtain ⟨rfl, rfl⟩ : o' = o2 ∧ idx = idx2 := by
    rw [h1] at h2
    have := Except.ok.inj h2
    exact ⟨congrArg Prod.fst this, congrArg Prod.snd this⟩
  rw [← hB] at hc
  have hd : o.depth ≤ o.depth := le_refl _
  obtain ⟨hr, -, -, hb, -⟩ := C27_xyzb o' o.depth hv o.depth hd cells hc ch hch true
  have hq : queried true cells ch = nonEmpty cells ch := by simp [queried]
  rw [hq] at hr hb
  refine ⟨o', idx, pts, _, h1, hpts, hb, fun x hx => ?_⟩
  have hx' : x.length = (queried true cells ch).length := by
    rw [hx]
    exact (queried_length hv o.depth hd true cells ch hc hch).symm
  let qs : List (V3 ℚ × Nat) := List.zipWith (fun (p : V3 ℚ) (b : Nat) => (p, b)) pts ((nonEmpty cells ch).map Cell.b)
  have hqs : queryRows pts ((nonEmpty cells ch).map Cell.b) = qs.map row4 := by
    simp only [queryRows, qs, List.map_zipWith, row4]
  have hqlen : qs.length = x.length := by simp [qs, hlen, hx', hq]
  have hget : ∀ (i : Nat) (c : Cell), (nonEmpty cells ch)[i]? = some c → ∃ p, pts[i]? = some p ∧ qs[i]? = some (p, c.b) := by
    intro i c hi
    have hlt : i < pts.length := by rw [hlen]; exact (List.getElem?_eq_some_iff.mp hi).1
    refine ⟨pts[i], List.getElem?_eq_getElem hlt, ?_⟩
    simp only [qs, List.getElem?_zipWith, List.getElem?_eq_getElem hlt, List.getElem?_map, hi, Option.map_some]
  have hqb : ∀ q ∈ qs, q.2 < 2 ^ 15 := by
    intro q hq'
    obtain ⟨i, hi⟩ := List.getElem?_of_mem hq'
    have hlt : i < (nonEmpty cells ch).length := by
      have := (List.getElem?_eq_some_iff.mp hi).1
      rw [hqlen, hx', hq] at this
      exact this
    obtain ⟨p, -, h4⟩ := hget i _ (List.getElem?_eq_getElem hlt)
    rw [hi] at h4
    obtain rfl := Option.some.inj h4
    have := (hr _ (List.getElem_mem hlt)).1
    have hb := h.batch
    rw [hB] at this
    show (nonEmpty cells ch)[i].b < 2 ^ 15
    omega
  obtain ⟨out, ho1, ho2, ho3⟩ := C50_nearest o' o.depth hv o.depth hd cells ch hc hch true bc x hx' qs hqb
  have hout : out = x := by
    apply List.ext_getElem?
    intro i
    rcases Nat.lt_or_ge i out.length with hi | hi
    · have hlt : i < (nonEmpty cells ch).length := by rw [← hq, ← hx', ← hqlen, ← ho2]; exact hi
      have hci := List.getElem?_eq_getElem hlt
      obtain ⟨p, h3, h4⟩ := hget i _ hci
      obtain ⟨b1, b2, b3⟩ := hin i _ p hci h3
      have hrange := hr _ (List.getElem_mem hlt)
      have up : ∀ n : Nat, n < 2 ^ o.depth → (n : ℚ) + 1 ≤ 2 ^ o.depth := by
        intro n hn
        exact_mod_cast hn
      have hinC : InCells o.depth p := by
        refine ⟨⟨?_, ?_⟩, ⟨?_, ?_⟩, ?_, ?_⟩
        · exact le_trans (Nat.cast_nonneg _) b1.1
        · exact lt_of_lt_of_le b1.2 (up _ hrange.2.1)
        · exact le_trans (Nat.cast_nonneg _) b2.1
        · exact lt_of_lt_of_le b2.2 (up _ hrange.2.2.1)
        · exact le_trans (Nat.cast_nonneg _) b3.1
        · exact lt_of_lt_of_le b3.2 (up _ hrange.2.2.2)
      have hH : Holds (nonEmpty cells ch)[i] p (nonEmpty cells ch)[i].b := ⟨rfl, b1, b2, b3⟩
      rcases ho3 i _ _ _ h4 hinC (List.getElem?_eq_getElem hi) with ⟨c', hc', j, hj1, hj2⟩ | ⟨hno, -⟩
      · have : c' = (nonEmpty cells ch)[i] := by
          rw [← torusCell_eq_iff hinC] at hc' hH
          exact hc'.symm.trans hH
        subst this
        rw [hq] at hj1
        have hnd := nodes_nodup o' o.depth hv o.depth hd true 1 _ _ (.one o.depth cells ch hc hch)
        have : j = i := nodup_getElem?_inj (by simpa [queried] using hnd) hj1 hci
        subst this
        rw [List.getElem?_eq_getElem hi, hj2]
      · exact absurd hH (hno _ (by rw [hq]; exact List.getElem_mem hlt))
    · rw [List.getElem?_eq_none hi, List.getElem?_eq_none (by omega)]
  unfold octreeInterp interpFunc
  simp only [if_neg hmeth, Bool.false_eq_true, if_false]
  rw [hqs, ho1, hout]

/-- The hypotheses hold for a batch of two samples, and the interpolation is not trivial. -/
example : LegalBuild (Octree.new 2 1 2 0) cloudC [0, 1, 0] ∧
    ((do let r ← Octree.build id (fun c v => v / c) (Octree.new 2 1 2 0) cloudC
         let y ← (octreeInterp "nearest" true false true ((List.range (r.1.nnumNempty 2)).map fun n : Nat => fun _ : Fin 1 => (n : ℚ)) r.1 2
          (queryRows cloudC.points [0, 1, 0])).1
         pure (y.map (fun v : Fin 1 → ℚ => v 0), r.2) : M (List ℚ × List Nat))).toOption = some ([0, 1, 0], [0, 1, 0]) := by
  exact ⟨cloudC_legal, by decide +kernel⟩

end Ocnn
