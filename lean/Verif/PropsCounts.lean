import Verif.PropsDense
import Verif.PropsBuild
import Mathlib.Data.List.Dedup

/-! Property C142: how many nodes an octree has. -/

namespace Ocnn
open Spec

variable {F L : Type}

theorem length_le_of_subset {α : Type} {l l' : List α} (h : l.Nodup) (hs : ∀ a ∈ l, a ∈ l') : l.length ≤ l'.length :=
  (h.subperm hs).length_le

/-- The cells of the points. -/
theorem mem_cells {points : List (V3 ℚ)} {samples : List Nat} (hin : ∀ p ∈ points, InCube p) (d : Nat) (c : Cell) :
    c ∈ List.zipWith (fun p b => cellAt d b p) points samples ↔ Occupied points samples d c := by
  rw [mem_zipWith_iff]
  constructor
  · rintro ⟨i, p, b, h1, h2, rfl⟩
    exact ⟨i, p, h1, h2, (cubeContains_iff d _ p (hin p (List.mem_of_getElem? h1))).2 rfl⟩
  · rintro ⟨i, p, h1, h2, h3⟩
    exact ⟨i, p, c.b, h1, h2, (cubeContains_iff d _ p (hin p (List.mem_of_getElem? h1))).1 h3⟩

/-- **C142.** The numbers of nodes of a built octree: full layers have all nodes; each further layer has eight nodes for each non-empty node above; from
`full_depth` on the non-empty nodes are the occupied cells, not more than the points and not fewer from layer to layer; there are as many leaves as points exactly if no
two points of a sample are in the same finest cell. -/
theorem C142_counts [AddCommMonoid F] (nrm : V3 ℚ → V3 ℚ) (divF : ℚ → F → F) (o : Octree F) (pc : Points ℚ F L) (samples : List Nat)
    (h : LegalBuild o pc samples) :
    ∃ o' idx, Octree.build nrm divF o pc = .ok (o', idx) ∧
      (∀ d ≤ o.fullDepth, o'.nnum d = o.batchSize * 8 ^ d) ∧
      (∀ d < o.fullDepth, o'.nnumNempty d = o'.nnum d) ∧
      (∀ d < o.depth, o'.nnum (d + 1) = 8 * o'.nnumNempty d) ∧
      (∀ d ≤ o.depth, o.fullDepth ≤ d → o'.nnumNempty d ≤ pc.points.length ∧ o'.nnumNempty d ≤ o'.nnum d ∧
        ∃ cs : List Cell, cs.Nodup ∧ cs.length = o'.nnumNempty d ∧ ∀ c, c ∈ cs ↔ Occupied pc.points samples d c) ∧
      (∀ d < o.depth, o.fullDepth ≤ d → o'.nnumNempty d ≤ o'.nnumNempty (d + 1)) ∧
      (∀ d ≤ o.depth, o.fullDepth < d → o'.nnum d ≤ 8 * pc.points.length) ∧
      (o'.nnumNempty o.depth = pc.points.length ↔ ∀ (i j : Nat) (p q : V3 ℚ) (c : Cell), i < j → pc.points[i]? = some p → pc.points[j]? = some q →
        samples[i]? = some c.b → samples[j]? = some c.b → CubeContains o.depth c p → ¬ CubeContains o.depth c q) := by
  obtain ⟨o', idx, h1, h2, h3, h4, h5, cells, ch, h6⟩ := C07_build nrm divF o pc samples h
  have W := h5.wf'
  have hlen : ∀ d ≤ o.depth, (nonEmpty (cells d) (ch d)).length = o'.nnumNempty d ∧ (nonEmpty (cells d) (ch d)).Nodup ∧ (cells d).length = o'.nnum d ∧
      o'.nnumNempty d ≤ o'.nnum d := by
    intro d hd
    obtain ⟨a1, a2, -⟩ := h6 d hd
    have hc : CellsOf o'.batchSize d o'.keys (cells d) := by rw [h4]; exact a1
    obtain ⟨m1, m2, m3, m4, m5⟩ := layer_masks o' _ h5 d hd _ _ hc a2
    have hl := queried_length h5 d hd true _ _ hc a2
    simp only [if_true] at hl
    have hsub : ((nonEmpty (cells d) (ch d))).Sublist (cells d) := by
      rw [m2]
      exact maskSel_sublist _ _
    exact ⟨hl, m3.sublist hsub, m5, by rw [← hl, ← m5]; exact hsub.length_le⟩
  have hchild : ∀ d < o.depth, o'.nnum (d + 1) = 8 * o'.nnumNempty d := by
    intro d hd
    rw [W.nnum (d + 1) hd, W.nnumNempty d (by omega)]
    show (expand 8 Cell.child (maskSel (o'.masks d) (layerCells o'.batchSize o'.masks d))).length = _
    rw [expand_length, maskSel_length _ _ (W.len d (by omega))]
  have hmem : ∀ d ≤ o.depth, o.fullDepth ≤ d → ∀ c, c ∈ nonEmpty (cells d) (ch d) ↔ Occupied pc.points samples d c := fun d hd hf => (h6 d hd).2.2.1 hf
  have hle : ∀ d ≤ o.depth, o.fullDepth ≤ d → o'.nnumNempty d ≤ pc.points.length := by
    intro d hd hf
    obtain ⟨b1, b2, -⟩ := hlen d hd
    rw [← b1]
    have := length_le_of_subset b2 (l' := List.zipWith (fun p b => cellAt d b p) pc.points samples) (by
      intro c hc
      rw [mem_cells h.inCube]
      exact (hmem d hd hf c).1 hc)
    refine le_trans this ?_
    rw [List.length_zipWith]
    exact Nat.min_le_left _ _
  refine ⟨o', idx, h1, ?_, ?_, hchild, ?_, ?_, ?_, ?_⟩
  · intro d hd
    obtain ⟨ks, k1, k2, -⟩ := C10_dense o' _ h5 d (by rw [h3]; exact hd)
    have hd' : d ≤ o.depth := le_trans hd h.full
    have hk := W.keys d hd'
    rw [k1] at hk
    rw [W.nnum d hd', ← h4, ← k2, Option.some.inj hk, List.length_map]
  · intro d hd
    have hd' : d ≤ o.depth := le_trans (le_of_lt hd) h.full
    rw [W.nnumNempty d hd', W.nnum d hd', ← W.len d hd', List.count_eq_length]
    intro b hb
    exact (W.full d (by rw [h3]; exact hd) b hb).symm
  · intro d hd hf
    obtain ⟨b1, b2, b3, b4⟩ := hlen d hd
    exact ⟨hle d hd hf, b4, _, b2, b1, hmem d hd hf⟩
  · intro d hd hf
    obtain ⟨b1, b2, -⟩ := hlen d (by omega)
    obtain ⟨c1, -⟩ := hlen (d + 1) hd
    rw [← b1, ← c1, ← List.length_map (f := Cell.parent) (as := nonEmpty (cells (d + 1)) (ch (d + 1)))]
    apply length_le_of_subset b2
    intro c hc
    obtain ⟨i, p, e1, e2, e3⟩ := (hmem d (by omega) hf c).1 hc
    have hp := h.inCube p (List.mem_of_getElem? e1)
    rw [cubeContains_iff _ _ _ hp] at e3
    have hn : cellAt (d + 1) c.b p ∈ nonEmpty (cells (d + 1)) (ch (d + 1)) :=
      (hmem (d + 1) hd (by omega) _).2 ⟨i, p, e1, e2, (cubeContains_iff _ _ _ hp).2 rfl⟩
    refine List.mem_map.2 ⟨_, hn, ?_⟩
    have := cellAt_ancestor d (d + 1) c.b p (by omega)
    rw [show d + 1 - d = 1 by omega] at this
    rw [e3] at this
    refine Eq.trans ?_ this
    simp only [Cell.ancestor, Cell.parent, pow_one]
  · intro d hd hf
    obtain ⟨e, rfl⟩ : ∃ e, d = e + 1 := ⟨d - 1, by omega⟩
    rw [hchild e (by omega)]
    exact Nat.mul_le_mul_left _ (hle e (by omega) (by omega))
  · obtain ⟨b1, b2, -⟩ := hlen o.depth (le_refl _)
    set l := List.zipWith (fun p b => cellAt o.depth b p) pc.points samples with hl
    have hll : l.length = pc.points.length := by rw [hl, List.length_zipWith, h.cloud.length, min_self]
    have hperm : (nonEmpty (cells o.depth) (ch o.depth)).length = l.dedup.length := by
      apply List.Perm.length_eq
      rw [List.perm_ext_iff_of_nodup b2 (List.nodup_dedup l)]
      intro c
      rw [List.mem_dedup, hl, mem_cells h.inCube]
      exact hmem o.depth (le_refl _) h.full c
    have hget : ∀ (i : Nat) (p : V3 ℚ) (b : Nat), pc.points[i]? = some p → samples[i]? = some b → l[i]? = some (cellAt o.depth b p) := by
      intro i p b e1 e2
      rw [hl, List.getElem?_zipWith, e1, e2]
    rw [← b1, hperm, ← hll]
    constructor
    · intro e i j p q c hij e1 e2 e3 e4 e5 e6
      have hnd : l.Nodup := by
        rw [← (List.dedup_sublist l).eq_of_length e]
        exact List.nodup_dedup l
      have hj : j < l.length := by rw [hll]; exact (List.getElem?_eq_some_iff.1 e2).1
      rw [List.nodup_iff_getElem?_ne_getElem?] at hnd
      apply hnd i j hij hj
      rw [hget i p _ e1 e3, hget j q _ e2 e4, (cubeContains_iff _ _ _ (h.inCube p (List.mem_of_getElem? e1))).1 e5,
        (cubeContains_iff _ _ _ (h.inCube q (List.mem_of_getElem? e2))).1 e6]
    · intro H
      have hnd : l.Nodup := by
        rw [List.nodup_iff_getElem?_ne_getElem?]
        intro i j hij hj e
        have hj' : j < pc.points.length := by omega
        have hi' : i < pc.points.length := by omega
        have hs := h.cloud.length
        have e1 := List.getElem?_eq_getElem hi'
        have e2 := List.getElem?_eq_getElem hj'
        have e3 := List.getElem?_eq_getElem (show i < samples.length by omega)
        have e4 := List.getElem?_eq_getElem (show j < samples.length by omega)
        rw [hget i _ _ e1 e3, hget j _ _ e2 e4] at e
        have e := Option.some.inj e
        refine H i j _ _ (cellAt o.depth samples[i] pc.points[i]) hij e1 e2 e3 ?_ ((cubeContains_iff _ _ _ (h.inCube _ (List.getElem_mem _))).2 rfl) ?_
        · rw [e]
          exact e4
        · rw [e]
          exact (cubeContains_iff _ _ _ (h.inCube _ (List.getElem_mem _))).2 rfl
      rw [hnd.dedup]

/-- The conditions are met by three points of two samples. -/
example : ∃ o' idx, Octree.build (id : V3 ℚ → V3 ℚ) (fun q x => x / q) (Octree.new 2 1 2 0) cloudC = .ok (o', idx) ∧ o'.nnum 1 = 16 ∧ o'.nnumNempty 2 ≤ 3 := by
  obtain ⟨o', idx, h1, h2, -, -, h5, -⟩ := C142_counts (id : V3 ℚ → V3 ℚ) (fun q x => x / q) _ _ _ cloudC_legal
  exact ⟨o', idx, h1, h2 1 (by decide), (h5 2 (by decide) (by decide)).1⟩

end Ocnn
