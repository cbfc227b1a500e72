import Verif.PropsPoolAvg
import Verif.PropsInterp
import Verif.PropsBlocks

/-! Property C182: pooling undoes nearest-neighbour upsampling. -/

set_option linter.unusedSimpArgs false

namespace Ocnn
open Spec

variable {F V : Type}

theorem child_parent (c : Cell) (j : Nat) (hj : j < 8) : (c.child j).parent = c := by
  cases c
  simp only [Cell.parent, Cell.child, Cell.mk.injEq, true_and]
  omega

theorem fieldAt_eq [Zero V] {Q : List Cell} {x : List V} {f : Nat → Int → Int → Int → V} (hf : IsField Q x f) {i : Nat} {c : Cell} {v : V}
    (hc : Q[i]? = some c) (hv : x[i]? = some v) : fieldAt f c = v := hf.2.1 i c v hc hv

/-- **C182.** Nearest upsampling from depth `d` to depth `d + 1` followed by max pooling: a non-empty node with a child among the upsampled rows gets its own row back, and the returned
index is the first such child; an empty node gets 0; a non-empty node none of whose children is among the upsampled rows (only possible with `nempty`) gets the least value. -/
theorem C182_max {α : Type} [LinearOrder α] [OrderBot α] [Zero α] {C : Nat} (o : Octree F) (h : Nat) (w : o.Valid h)
    (d : Nat) (hd : d + 1 ≤ h) (nempty : Bool) (cells cells1 : List Cell) (ch ch1 : List Int)
    (hc : CellsOf o.batchSize d o.keys cells) (hch : o.children d = some ch)
    (hc1 : CellsOf o.batchSize (d + 1) o.keys cells1) (hch1 : o.children (d + 1) = some ch1)
    (x : List (Fin C → α)) (hx : x.length = (queried nempty cells ch).length) :
    ∃ u y ix, octreeNearestUpsample x o d nempty = .ok u ∧ octreeMaxPool u o d nempty = .ok (y, ix) ∧ y.length = x.length ∧
      (∀ (i : Nat) (c : Cell) (v : Fin C → α), (queried nempty cells ch)[i]? = some c → x[i]? = some v → ∃ v', y[i]? = some v' ∧
        (c ∈ nonEmpty cells ch → (∃ j < 8, c.child j ∈ queried nempty cells1 ch1) → v' = v) ∧
        (c ∈ nonEmpty cells ch → (∀ j < 8, c.child j ∉ queried nempty cells1 ch1) → v' = fun _ => ⊥) ∧
        (c ∉ nonEmpty cells ch → v' = 0)) ∧
      (∀ (i r : Nat) (c : Cell) (v : Fin C → α), (queried nempty cells ch)[i]? = some c → x[i]? = some v → (nonEmpty cells ch)[r]? = some c →
        (∃ j < 8, c.child j ∈ queried nempty cells1 ch1) → ∃ q, ix[r]? = some q ∧ ∀ k, v k ≠ ⊥ →
          q k < 8 ∧ c.child (q k) ∈ queried nempty cells1 ch1 ∧ ∀ j < q k, c.child j ∉ queried nempty cells1 ch1) := by
  obtain ⟨f, hf⟩ := exists_field (queried nempty cells ch) x hx.symm (nodes_nodup o h w d (by omega) nempty 1 _ _ (.one d cells ch hc hch))
  have e := C52_nearest_upsample o h w d hd nempty cells cells1 ch ch1 hc hch hc1 hch1 x f hf
  obtain ⟨y, ix, h1, h2, h3, h4, h5⟩ := C42_max_pool o h w d hd nempty cells cells1 ch ch1 hc hch hc1 hch1
    ((queried nempty cells1 ch1).map fun c => fieldAt f c.parent) (by simp)
  have hv1 : ∀ (c : Cell) (u : Fin C → α) (j : Nat), j < 8 →
      (HasVal (queried nempty cells1 ch1) ((queried nempty cells1 ch1).map fun c => fieldAt f c.parent) (c.child j) u ↔
        c.child j ∈ queried nempty cells1 ch1 ∧ u = fieldAt f c) := by
    intro c u j hj
    constructor
    · rintro ⟨r, a, b⟩
      rw [List.getElem?_map, a] at b
      simp only [Option.map_some, Option.some.injEq, child_parent c j hj] at b
      exact ⟨List.mem_of_getElem? a, b.symm⟩
    · rintro ⟨a, rfl⟩
      obtain ⟨r, hr⟩ := List.getElem?_of_mem a
      exact ⟨r, hr, by rw [List.getElem?_map, hr]; simp [child_parent c j hj]⟩
  refine ⟨_, y, ix, e, h1, by omega, ?_, ?_⟩
  · intro i c v hi hv
    have hfv := fieldAt_eq hf hi hv
    obtain ⟨v', a1, a2, a3⟩ := h4 i c hi
    refine ⟨v', a1, ?_, ?_, a2⟩
    · rintro hne ⟨j, hj, hm⟩
      funext k
      have := a3 hne k
      have hs : {a | ∃ j < 8, ∃ u, HasVal (queried nempty cells1 ch1) ((queried nempty cells1 ch1).map fun c => fieldAt f c.parent) (c.child j) u ∧ a = u k} = {v k} := by
        ext a
        simp only [Set.mem_setOf_eq, Set.mem_singleton_iff]
        constructor
        · rintro ⟨j', hj', u, hu, rfl⟩
          rw [((hv1 c u j' hj').1 hu).2, hfv]
        · rintro rfl
          exact ⟨j, hj, v, (hv1 c v j hj).2 ⟨hm, hfv.symm⟩, rfl⟩
      rw [hs] at this
      exact this.unique isLUB_singleton
    · intro hne hm
      funext k
      have := a3 hne k
      have hs : {a | ∃ j < 8, ∃ u, HasVal (queried nempty cells1 ch1) ((queried nempty cells1 ch1).map fun c => fieldAt f c.parent) (c.child j) u ∧ a = u k} = ∅ := by
        ext a
        simp only [Set.mem_setOf_eq, Set.mem_empty_iff_false, iff_false]
        rintro ⟨j', hj', u, hu, rfl⟩
        exact hm j' hj' ((hv1 c u j' hj').1 hu).1
      rw [hs] at this
      exact this.unique isLUB_empty
  · rintro i r c v hi hv hr ⟨j, hj, hm⟩
    have hfv := fieldAt_eq hf hi hv
    obtain ⟨q, q1, q2⟩ := h5 r c hr
    refine ⟨q, q1, ?_⟩
    intro k hk
    obtain ⟨b1, b2⟩ := q2 k
    obtain ⟨u, u1, -, u3⟩ := b2 ⟨j, hj, v, (hv1 c v j hj).2 ⟨hm, hfv.symm⟩, hk⟩
    obtain ⟨m1, rfl⟩ := (hv1 c u _ b1).1 u1
    refine ⟨b1, m1, ?_⟩
    intro j' hj' hm'
    exact absurd (u3 j' hj' _ ((hv1 c _ j' (by omega)).2 ⟨hm', rfl⟩)) (lt_irrefl _)

/-- **C182**, without `nempty`: every non-empty node gets its row back, the others get zeros. -/
theorem C182_all {α : Type} [LinearOrder α] [OrderBot α] [Zero α] {C : Nat} (o : Octree F) (h : Nat) (w : o.Valid h)
    (d : Nat) (hd : d + 1 ≤ h) (cells : List Cell) (ch : List Int) (hc : CellsOf o.batchSize d o.keys cells) (hch : o.children d = some ch)
    (x : List (Fin C → α)) (hx : x.length = cells.length) :
    ∃ u y ix, octreeNearestUpsample x o d false = .ok u ∧ octreeMaxPool u o d false = .ok (y, ix) ∧ y.length = x.length ∧
      ∀ (i : Nat) (c : Cell) (v : Fin C → α), cells[i]? = some c → x[i]? = some v → y[i]? = some (if c ∈ nonEmpty cells ch then v else 0) := by
  have W := w.wf'
  have hc1 := W.cellsOf (d + 1) hd
  have hch1 := W.children (d + 1) hd
  obtain ⟨u, y, ix, h1, h2, h3, h4, -⟩ := C182_max o h w d hd false cells _ ch _ hc hch hc1 hch1 x (by simpa [queried] using hx)
  refine ⟨u, y, ix, h1, h2, h3, ?_⟩
  intro i c v hi hv
  obtain ⟨v', a1, a2, -, a4⟩ := h4 i c v (by simpa [queried] using hi) hv
  rw [a1]
  split
  · next hne =>
    rw [a2 hne ⟨0, by omega, ?_⟩]
    have e := child_row o h w d hd _ cells _ ch hc1 hch1 hc hch
    simp only [queried, Bool.false_eq_true, if_false]
    rw [e]
    exact (mem_expand _ _ _ _).2 ⟨c, hne, 0, by omega, rfl⟩
  · next hne => rw [a4 hne]

/-- **C182**, with `nempty`: for an octree built from points, at and below the full layers, upsampling and pooling return the input. -/
theorem C182_built {α L : Type} [LinearOrder α] [OrderBot α] [Zero α] {C : Nat} [AddCommMonoid F] (nrm : V3 ℚ → V3 ℚ) (divF : ℚ → F → F) (o : Octree F)
    (pc : Points ℚ F L) (samples : List Nat) (hb : LegalBuild o pc samples) :
    ∃ o' idx, Octree.build nrm divF o pc = .ok (o', idx) ∧ ∀ d, o.fullDepth ≤ d → d + 1 ≤ o.depth →
      ∀ x : List (Fin C → α), x.length = o'.nnumNempty d →
        ∃ u ix, octreeNearestUpsample x o' d true = .ok u ∧ octreeMaxPool u o' d true = .ok (x, ix) := by
  obtain ⟨o', idx, h1, h2, h3, h4, w, cells, ch, h5⟩ := C07_build nrm divF o pc samples hb
  refine ⟨o', idx, h1, ?_⟩
  intro d hf hd x hx
  obtain ⟨a1, a2, a3, -, -⟩ := h5 d (by omega)
  obtain ⟨b1, b2, b3, -, -⟩ := h5 (d + 1) hd
  rw [← h4] at a1 b1
  have hq := queried_length w d (by omega) true _ _ a1 a2
  simp only [queried, if_true] at hq
  obtain ⟨u, y, ix, e1, e2, e3, e4, -⟩ := C182_max o' _ w d hd true _ _ _ _ a1 a2 b1 b2 x (by simp only [queried, if_true]; omega)
  have : y = x := by
    apply List.ext_getElem e3
    intro i hi hi'
    have hc := List.getElem?_eq_getElem (show i < (nonEmpty (cells d) (ch d)).length by omega)
    have hm := List.mem_of_getElem? hc
    obtain ⟨v', c1, c2, -, -⟩ := e4 i _ _ (by rw [queried, if_pos rfl]; exact hc) (List.getElem?_eq_getElem hi')
    rw [List.getElem?_eq_getElem hi] at c1
    rw [Option.some.inj c1]
    refine c2 hm ?_
    obtain ⟨j, hj, hjo⟩ := occupied_child hb.inCube d _ ((a3 hf _).1 hm)
    exact ⟨j, hj, by simpa [queried] using (b3 (by omega) _).2 hjo⟩
  subst this
  exact ⟨u, ix, e1, e2⟩

/-- **C182**, pooling, upsampling and pooling again is the same as pooling once. -/
theorem C182_again {α : Type} [LinearOrder α] [OrderBot α] [Zero α] {C : Nat} (o : Octree F) (h : Nat) (w : o.Valid h)
    (d : Nat) (hd : d + 1 ≤ h) (nempty : Bool) (x : List (Fin C → α)) (hx : x.length = if nempty then o.nnumNempty (d + 1) else o.nnum (d + 1)) :
    ∃ y ix u ix', octreeMaxPool x o d nempty = .ok (y, ix) ∧ octreeNearestUpsample y o d nempty = .ok u ∧ octreeMaxPool u o d nempty = .ok (y, ix') := by
  have W := w.wf'
  have hc := W.cellsOf d (by omega)
  have hch := W.children d (by omega)
  have hc1 := W.cellsOf (d + 1) hd
  have hch1 := W.children (d + 1) hd
  have hq := queried_length w (d + 1) hd nempty _ _ hc1 hch1
  obtain ⟨y, ix, h1, h2, h3, h4, -⟩ := C42_max_pool o h w d hd nempty _ _ _ _ hc hch hc1 hch1 x (by rw [hq, hx])
  obtain ⟨u, y', ix', k1, k2, k3, k4, -⟩ := C182_max o h w d hd nempty _ _ _ _ hc hch hc1 hch1 y h2
  have : y' = y := by
    apply List.ext_getElem k3
    intro i hi hi'
    have hq' := List.getElem?_eq_getElem (show i < (queried nempty (layerCells o.batchSize o.masks d) (number 0 (o.masks d))).length by omega)
    have hy := List.getElem?_eq_getElem hi'
    obtain ⟨v', a1, a2, a3, a4⟩ := k4 i _ _ hq' hy
    obtain ⟨v, b1, b2, b3⟩ := h4 i _ hq'
    rw [List.getElem?_eq_getElem hi] at a1
    rw [hy] at b1
    cases a1
    generalize (queried nempty (layerCells o.batchSize o.masks d) (number 0 (o.masks d)))[i]'(by omega) = c at *
    by_cases hne : c ∈ nonEmpty (layerCells o.batchSize o.masks d) (number 0 (o.masks d))
    · by_cases hm : ∃ j < 8, c.child j ∈ queried nempty (layerCells o.batchSize o.masks (d + 1)) (number 0 (o.masks (d + 1)))
      · exact a2 hne hm
      · have hm' : ∀ j < 8, c.child j ∉ queried nempty (layerCells o.batchSize o.masks (d + 1)) (number 0 (o.masks (d + 1))) := fun j hj hh => hm ⟨j, hj, hh⟩
        rw [a3 hne hm']
        have e := Option.some.inj b1
        rw [e]
        funext k
        have := b3 hne k
        have hs : {a | ∃ j < 8, ∃ u, HasVal (queried nempty (layerCells o.batchSize o.masks (d + 1)) (number 0 (o.masks (d + 1)))) x (c.child j) u ∧ a = u k} = ∅ := by
          ext a
          simp only [Set.mem_setOf_eq, Set.mem_empty_iff_false, iff_false]
          rintro ⟨j', hj', u, ⟨r, hr, -⟩, -⟩
          exact hm' j' hj' (List.mem_of_getElem? hr)
        rw [hs] at this
        exact (this.unique isLUB_empty).symm
    · rw [a4 hne, Option.some.inj b1, b2 hne]
  subst this
  exact ⟨y', ix, u, ix', h1, k1, k2⟩

/-- The kernel of size 2 around the first child reaches exactly the eight children. -/
theorem child_offsets (c : Cell) : (kernelOffsets (2, 2, 2)).map (fun g => ((c.b, (firstChild c).x + g.1, (firstChild c).y + g.2.1, (firstChild c).z + g.2.2) : Nat × Int × Int × Int))
    = (List.range 8).map fun j => ((c.child j).b, ((c.child j).x : Int), ((c.child j).y : Int), ((c.child j).z : Int)) := by
  rw [offsets2]
  simp [List.range_succ, firstChild, Cell.child]

/-- The number of children of a node among the given cells. -/
def Spec.childCount (Q : List Cell) (c : Cell) : Nat := (List.range 8).countP fun j => decide (c.child j ∈ Q)

theorem existing_children (Q : List Cell) (c : Cell) : existing Q (kernelOffsets (2, 2, 2)) (firstChild c) = childCount Q c := by
  have e := congrArg (List.countP fun q => decide (∃ c' ∈ Q, c'.b = q.1 ∧ (c'.x : Int) = q.2.1 ∧ (c'.y : Int) = q.2.2.1 ∧ (c'.z : Int) = q.2.2.2)) (child_offsets c)
  rw [List.countP_map, List.countP_map] at e
  refine Eq.trans ?_ (e.trans ?_)
  · rfl
  · apply List.countP_congr
    intro j _
    simp only [Function.comp, decide_eq_true_eq]
    constructor
    · rintro ⟨c', hc', e1, e2, e3, e4⟩
      have : c' = c.child j := by
        cases c'
        simp only at e1 e2 e3 e4
        cases hj : c.child j
        rw [hj] at e1 e2 e3 e4
        simp only at e1 e2 e3 e4
        simp only [Cell.mk.injEq]
        omega
      rwa [← this]
    · intro hm
      exact ⟨_, hm, rfl, rfl, rfl, rfl⟩

/-- **C182**, average pooling: a non-empty node gets its row multiplied by `n / (n + 1e-8)`, where `n` is the number of its upsampled children. -/
theorem C182_avg {K : Type} [Field K] [LinearOrder K] [IsStrictOrderedRing K] {C : Nat} (o : Octree F) (h : Nat) (w : o.Valid h)
    (d : Nat) (hd : d + 1 ≤ h) (hn : NeighExact o.batchSize (d + 1) o.keys o.neighs) (nempty : Bool) (cells cells1 : List Cell) (ch ch1 : List Int)
    (hc : CellsOf o.batchSize d o.keys cells) (hch : o.children d = some ch)
    (hc1 : CellsOf o.batchSize (d + 1) o.keys cells1) (hch1 : o.children (d + 1) = some ch1)
    (x : List (Fin C → K)) (hx : x.length = (queried nempty cells ch).length) :
    ∃ u y, octreeNearestUpsample x o d nempty = .ok u ∧ octreeAvgPool u o (d + 1) "222" 2 nempty = .ok y ∧ y.length = (nonEmpty cells ch).length ∧
      ∀ (i r : Nat) (c : Cell) (v : Fin C → K), (queried nempty cells ch)[i]? = some c → x[i]? = some v → (nonEmpty cells ch)[r]? = some c →
        ∃ v', y[r]? = some v' ∧
          (∀ k, v' k = v k * ((childCount (queried nempty cells1 ch1) c : K) / ((childCount (queried nempty cells1 ch1) c : K) + 1 / 10 ^ 8))) ∧
          ((∃ j < 8, c.child j ∈ queried nempty cells1 ch1) → ∀ k, |v' k - v k| ≤ |v k| / 10 ^ 8) := by
  obtain ⟨f, hf⟩ := exists_field (queried nempty cells ch) x hx.symm (nodes_nodup o h w d (by omega) nempty 1 _ _ (.one d cells ch hc hch))
  have e := C52_nearest_upsample o h w d hd nempty cells cells1 ch ch1 hc hch hc1 hch1 x f hf
  have hN := Nodes.two (o := o) (nempty := nempty) d cells1 ch1 cells ch hc1 hch1 hc hch
  have hnd := nodes_nodup o h w (d + 1) hd nempty 2 _ _ hN
  obtain ⟨g, hg⟩ := exists_field (queried nempty cells1 ch1) ((queried nempty cells1 ch1).map fun c => fieldAt f c.parent) (by simp) hnd
  have ea := C46_avg_pool o h w (d + 1) hd hn (2, 2, 2) (by decide) nempty 2 _ _ hN _ g hg
  refine ⟨_, _, e, ea, by simp, ?_⟩
  intro i r c v hi hv hr
  have hfv := fieldAt_eq hf hi hv
  refine ⟨_, by rw [List.getElem?_map, List.getElem?_map, hr]; rfl, ?_⟩
  beta_reduce
  rw [existing_children]
  have hsum : ∀ k, ((kernelOffsets (2, 2, 2)).map fun q => around g (firstChild c) q k).sum = v k * (childCount (queried nempty cells1 ch1) c : K) := by
    intro k
    have e1 := congrArg (List.map fun q => g q.1 q.2.1 q.2.2.1 q.2.2.2 k) (child_offsets c)
    rw [List.map_map, List.map_map] at e1
    have e2 : ((kernelOffsets (2, 2, 2)).map fun q => around g (firstChild c) q k) = (List.range 8).map fun j => if c.child j ∈ queried nempty cells1 ch1 then v k else 0 := by
      refine Eq.trans ?_ (e1.trans ?_)
      · rfl
      · apply List.map_congr_left
        intro j hj
        have hj := List.mem_range.1 hj
        simp only [Function.comp]
        split
        · next hm =>
          obtain ⟨s, hs⟩ := List.getElem?_of_mem hm
          have := hg.2.1 s (c.child j) v hs (by rw [List.getElem?_map, hs]; simp [child_parent c j hj, hfv])
          rw [this]
        · next hm =>
          rw [hg.2.2 _ _ _ _ ?_]
          · rfl
          · rintro c' hc' ⟨e1, e2, e3, e4⟩
            apply hm
            have : c' = c.child j := by
              cases c'
              simp only at e1 e2 e3 e4
              cases hj : c.child j
              rw [hj] at e1 e2 e3 e4
              simp only at e1 e2 e3 e4
              simp only [Cell.mk.injEq]
              omega
            rwa [← this]
    rw [e2]
    unfold childCount
    generalize List.range 8 = l
    induction l with
    | nil => simp
    | cons a l ih =>
      rw [List.map_cons, List.sum_cons, ih, List.countP_cons]
      by_cases hm : c.child a ∈ queried nempty cells1 ch1
      · simp [hm]; ring
      · simp [hm]
  have key : ∀ k, ((kernelOffsets (2, 2, 2)).map fun q => around g (firstChild c) q k).sum / ((childCount (queried nempty cells1 ch1) c : K) + 1 / 10 ^ 8) =
      v k * ((childCount (queried nempty cells1 ch1) c : K) / ((childCount (queried nempty cells1 ch1) c : K) + 1 / 10 ^ 8)) := by
    intro k
    rw [hsum]
    ring
  refine ⟨key, ?_⟩
  rintro ⟨j, hj, hm⟩ k
  show |((kernelOffsets (2, 2, 2)).map fun q => around g (firstChild c) q k).sum / _ - v k| ≤ _
  rw [key k]
  have h1 : 1 ≤ childCount (queried nempty cells1 ch1) c := by
    unfold childCount
    exact List.countP_pos_iff.2 ⟨j, List.mem_range.2 hj, by simpa using hm⟩
  generalize childCount (queried nempty cells1 ch1) c = n at *
  have h1' : (1 : K) ≤ n := by exact_mod_cast h1
  have hp : (0 : K) < (n : K) + 1 / 10 ^ 8 := by positivity
  have e3 : v k * ((n : K) / ((n : K) + 1 / 10 ^ 8)) - v k = -(v k * ((1 / 10 ^ 8) / ((n : K) + 1 / 10 ^ 8))) := by
    field_simp
    ring
  rw [e3, abs_neg, abs_mul, abs_of_pos (div_pos (by norm_num) hp), div_eq_mul_one_div (|v k|)]
  apply mul_le_mul_of_nonneg_left _ (abs_nonneg _)
  rw [div_le_iff₀ hp]
  have : (0 : K) ≤ 1 / 10 ^ 8 := by norm_num
  nlinarith

/-- The hypotheses are met by an octree of depth 2 with 16 nodes, rows of which belong to empty and to non-empty nodes. -/
example : ∃ (o : Octree Unit) (cells cells1 : List Cell) (ch ch1 : List Int), o.Valid 2 ∧ NeighExact o.batchSize 2 o.keys o.neighs ∧
    CellsOf o.batchSize 1 o.keys cells ∧ o.children 1 = some ch ∧ CellsOf o.batchSize 2 o.keys cells1 ∧ o.children 2 = some ch1 ∧ o.nnum 2 = 16 := by
  obtain ⟨o, h1, -, h3, h4, h5, h6, -⟩ := example_valid'
  exact ⟨o, _, _, _, _, h1, h3 2 (le_refl _), h1.wf'.cellsOf 1 (by omega), h1.wf'.children 1 (by omega), h1.wf'.cellsOf 2 (le_refl _), h1.wf'.children 2 (le_refl _), h5⟩

example : LegalBuild (Octree.new 5 2 1 0) cloudA [0] ∧ (Octree.new 5 2 1 0 : Octree ℚ).fullDepth ≤ 3 ∧ 3 + 1 ≤ (Octree.new 5 2 1 0 : Octree ℚ).depth :=
  ⟨⟨by decide, by decide, by decide, rfl, ⟨rfl, by simp [Octree.new], by simp [Octree.new, cloudA], by simp [cloudA], by simp [cloudA]⟩, by decide +kernel⟩, by decide, by decide⟩

end Ocnn
