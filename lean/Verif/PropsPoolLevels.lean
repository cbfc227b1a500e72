import Verif.PropsPool
import Verif.PropsInterp
import Verif.PropsFlip

/-! Property C130: max pooling over several levels, and pooling after upsampling. -/

namespace Ocnn
open Spec

variable {F : Type}

/-- Max pooling from depth `d + n` to depth `d`, one level after the other (only the pooled tensors are kept). -/
def repeatPool {V : Type} (pool : Nat → List V → M (List V)) (d : Nat) : Nat → List V → M (List V)
  | 0, x => .ok x
  | n + 1, x => do
    let y ← pool (d + n) x
    repeatPool pool d n y

theorem layer_data (o : Octree F) (h : Nat) (w : o.Valid h) (d : Nat) (hd : d ≤ h) (cells : List Cell) (ch : List Int)
    (hc : CellsOf o.batchSize d o.keys cells) (hch : o.children d = some ch) :
    cells = layerCells o.batchSize o.masks d ∧ ch = number 0 (o.masks d) := by
  have W := w.wf'
  have h16 := w.depth_le
  have hh := w.h_le
  refine ⟨cells_unique (by omega) hc (W.cellsOf d hd), ?_⟩
  rw [W.children d hd] at hch
  exact (Option.some.inj hch).symm

/-- **C130, several levels.** Pooling over the non-empty nodes from depth `d + n` to depth `d` level by level gives at each non-empty node,
channel by channel, the least upper bound of the values of the non-empty nodes of depth `d + n` below it. -/
theorem C130_levels {α : Type} [LinearOrder α] [OrderBot α] [Zero α] {C : Nat} (o : Octree F) (h : Nat) (w : o.Valid h)
    (d n : Nat) (hd : d + n ≤ h) (cells cells' : List Cell) (ch ch' : List Int)
    (hc : CellsOf o.batchSize d o.keys cells) (hch : o.children d = some ch)
    (hc' : CellsOf o.batchSize (d + n) o.keys cells') (hch' : o.children (d + n) = some ch')
    (x : List (Fin C → α)) (hx : x.length = (nonEmpty cells' ch').length) :
    ∃ y, repeatPool (fun d' x => (octreeMaxPool x o d' true).map Prod.fst) d n x = .ok y ∧
      y.length = (nonEmpty cells ch).length ∧
      ∀ (c : Cell) (v : Fin C → α), HasVal (nonEmpty cells ch) y c v → ∀ k,
        IsLUB {a | ∃ c' u, HasVal (nonEmpty cells' ch') x c' u ∧ c'.ancestor n = c ∧ a = u k} (v k) := by
  have W := w.wf'
  induction n generalizing x cells' ch' with
  | zero =>
    obtain ⟨rfl, rfl⟩ := layer_data o h w d (by omega) cells ch hc hch
    obtain ⟨rfl, rfl⟩ := layer_data o h w d (by omega) cells' ch' hc' hch'
    refine ⟨x, rfl, hx, ?_⟩
    intro c v hv k
    have hnd := nodes_nodup o h w d (by omega) true 1 _ _ (.one d _ _ hc hch)
    constructor
    · rintro a ⟨c', u, h1, h2, rfl⟩
      rw [Cell.ancestor_zero] at h2
      subst h2
      rw [hasVal_unique hnd h1 hv]
    · intro b hb
      exact hb ⟨c, v, hv, Cell.ancestor_zero c, rfl⟩
  | succ n ih =>
    have a1 := W.cellsOf (d + n) (by omega)
    have a2 := W.children (d + n) (by omega)
    obtain ⟨y1, ix, h1, h2, h3, h4, h5⟩ := C42_max_pool o h w (d + n) (by omega) true _ cells' _ ch' a1 a2 hc' hch' x hx
    obtain ⟨y, g1, g2, g3⟩ := ih (by omega) _ _ a1 a2 y1 h2
    refine ⟨y, ?_, g2, ?_⟩
    · rw [repeatPool]
      simp only [h1, Except.map, bind, Except.bind]
      exact g1
    · intro c v hv k
      have hl := g3 c v hv k
      obtain ⟨e1, e2⟩ := layer_data o h w (d + n + 1) (by omega) cells' ch' hc' hch'
      have val : ∀ c1 u1, HasVal (nonEmpty (layerCells o.batchSize o.masks (d + n)) (number 0 (o.masks (d + n)))) y1 c1 u1 →
          IsLUB {a | ∃ j < 8, ∃ u, HasVal (queried true cells' ch') x (c1.child j) u ∧ a = u k} (u1 k) := by
        rintro c1 u1 ⟨i, i1, i2⟩
        obtain ⟨v', v1, -, v3⟩ := h4 i c1 i1
        rw [i2] at v1
        cases v1
        exact v3 (List.mem_of_getElem? i1) k
      constructor
      · rintro a ⟨c', u, u1, u2, rfl⟩
        have hp := parent_queried W (d + n) (by omega) true c' (by
          subst e1 e2
          exact List.mem_of_getElem? u1.choose_spec.1)
        obtain ⟨i, hi⟩ := List.getElem?_of_mem hp
        obtain ⟨v', v1, -, -⟩ := h4 i _ hi
        have hv' : HasVal (nonEmpty (layerCells o.batchSize o.masks (d + n)) (number 0 (o.masks (d + n)))) y1 c'.parent v' := ⟨i, hi, v1⟩
        refine le_trans ((val _ _ hv').1 ⟨c'.octant, ?_, u, ?_, rfl⟩) (hl.1 ⟨c'.parent, v', hv', ?_, rfl⟩)
        · unfold Cell.octant; omega
        · rw [Cell.parent_child]; exact u1
        · rw [← u2]
          cases c'
          simp only [Cell.parent, Cell.ancestor, Cell.mk.injEq, true_and, Nat.div_div_eq_div_mul, pow_succ']
      · intro b hb
        apply hl.2
        rintro a ⟨c1, u1, k1, k2, rfl⟩
        apply (val _ _ k1).2
        rintro a ⟨j, hj, u, hu, rfl⟩
        refine hb ⟨c1.child j, u, hu, ?_, rfl⟩
        rw [← k2]
        have := Cell.child_parent c1 j
        conv_rhs => rw [← this]
        cases c1
        simp only [Cell.child, Cell.parent, Cell.ancestor, Cell.mk.injEq, true_and, Nat.div_div_eq_div_mul, pow_succ']

/-- **C130, pooling after upsampling.** Upsampling by one level and max pooling back: a non-empty node with a (with `nempty`, non-empty) child
gets its own feature back, an empty node gets 0. -/
theorem C130_up_down {α : Type} [LinearOrder α] [OrderBot α] [Zero α] {C : Nat} (o : Octree F) (h : Nat) (w : o.Valid h)
    (d : Nat) (hd : d + 1 ≤ h) (nempty : Bool) (cells cells1 : List Cell) (ch ch1 : List Int)
    (hc : CellsOf o.batchSize d o.keys cells) (hch : o.children d = some ch)
    (hc1 : CellsOf o.batchSize (d + 1) o.keys cells1) (hch1 : o.children (d + 1) = some ch1)
    (x : List (Fin C → α)) (hx : x.length = (queried nempty cells ch).length) :
    ∃ u y ix, octreeNearestUpsample x o d nempty = .ok u ∧ octreeMaxPool u o d nempty = .ok (y, ix) ∧ y.length = x.length ∧
      ∀ (c : Cell) (v v' : Fin C → α), HasVal (queried nempty cells ch) x c v → HasVal (queried nempty cells ch) y c v' →
        (c ∉ nonEmpty cells ch → v' = 0) ∧
        (c ∈ nonEmpty cells ch → (∃ j < 8, c.child j ∈ queried nempty cells1 ch1) → v' = v) := by
  have hnd := nodes_nodup o h w d (by omega) nempty 1 _ _ (.one d cells ch hc hch)
  obtain ⟨f, hf⟩ := exists_field _ x hx.symm hnd
  have hu := C52_nearest_upsample o h w d hd nempty cells cells1 ch ch1 hc hch hc1 hch1 x f hf
  obtain ⟨y, ix, h1, h2, h3, h4, h5⟩ := C42_max_pool o h w d hd nempty _ cells1 _ ch1 hc hch hc1 hch1 _ (List.length_map (as := queried nempty cells1 ch1) (fun c => fieldAt f c.parent))
  refine ⟨_, y, ix, hu, h1, by rw [h2, hx], ?_⟩
  rintro c v v' hv ⟨i, i1, i2⟩
  obtain ⟨v'', v1, v2, v3⟩ := h4 i c i1
  rw [i2] at v1
  cases v1
  refine ⟨v2, ?_⟩
  rintro hm ⟨j, hj, hjc⟩
  have hfv : fieldAt f c = v := by
    obtain ⟨i', j1, j2⟩ := hv
    exact hf.2.1 i' c v j1 j2
  funext k
  have hl := v3 hm k
  have hs : {a | ∃ j < 8, ∃ u, HasVal (queried nempty cells1 ch1) ((queried nempty cells1 ch1).map fun c => fieldAt f c.parent) (c.child j) u ∧ a = u k} = {v k} := by
    ext a
    simp only [Set.mem_setOf_eq, Set.mem_singleton_iff]
    constructor
    · rintro ⟨j, -, u, hu, rfl⟩
      rw [(hasVal_map.1 hu).2, Cell.child_parent, hfv]
    · rintro rfl
      exact ⟨j, hj, v, hasVal_map.2 ⟨hjc, by rw [Cell.child_parent, hfv]⟩, rfl⟩
  rw [hs] at hl
  exact hl.unique isLUB_singleton

/-- **C130** for octrees built from points: from `full_depth` on, upsampling the features of the non-empty nodes and max pooling them back is
the identity. -/
theorem C130_built {L : Type} [AddCommMonoid F] (nrm : V3 ℚ → V3 ℚ) (divF : ℚ → F → F) (o : Octree F) (pc : Points ℚ F L)
    (samples : List Nat) (h : LegalBuild o pc samples) {α : Type} [LinearOrder α] [OrderBot α] [Zero α] {C : Nat}
    (d : Nat) (hf : o.fullDepth ≤ d) (hd : d + 1 ≤ o.depth) :
    ∃ o' idx, Octree.build nrm divF o pc = .ok (o', idx) ∧
      ∀ x : List (Fin C → α), x.length = o'.nnumNempty d →
        ∃ u ix, octreeNearestUpsample x o' d true = .ok u ∧ octreeMaxPool u o' d true = .ok (x, ix) := by
  obtain ⟨o', idx, h1, h2, h3, h4, h5, cells, ch, h6⟩ := C07_build nrm divF o pc samples h
  refine ⟨o', idx, h1, ?_⟩
  intro x hx
  obtain ⟨a1, a2, a3, -, -⟩ := h6 d (by omega)
  obtain ⟨b1, b2, b3, -, -⟩ := h6 (d + 1) hd
  rw [← h4] at a1 b1
  have hq := queried_length h5 d (by omega) true _ _ a1 a2
  have hx' : x.length = (queried true (cells d) (ch d)).length := by rw [hx]; simpa using hq.symm
  obtain ⟨u, y, ix, k1, k2, k3, k4⟩ := C130_up_down o' o.depth h5 d hd true _ _ _ _ a1 a2 b1 b2 x hx'
  refine ⟨u, ix, k1, ?_⟩
  rw [k2]
  congr 2
  apply List.ext_getElem k3
  intro i hi hi'
  have hc := List.getElem?_eq_getElem (l := queried true (cells d) (ch d)) (i := i) (by omega)
  refine (k4 _ _ _ ⟨i, hc, List.getElem?_eq_getElem hi'⟩ ⟨i, hc, List.getElem?_eq_getElem hi⟩).2 (List.mem_of_getElem? hc) ?_
  obtain ⟨j, hj, ho⟩ := occupied_child h.inCube d _ ((a3 hf _).1 (List.mem_of_getElem? hc))
  exact ⟨j, hj, (b3 (by omega) _).2 ho⟩

/-- `C130_built` covers a cloud of two samples. -/
example : ∃ o' idx, Octree.build id (fun c v => v / c) (Octree.new 2 1 2 0) cloudC = .ok (o', idx) ∧
      ∀ x : List (Fin 3 → WithBot ℤ), x.length = o'.nnumNempty 1 →
        ∃ u ix, octreeNearestUpsample x o' 1 true = .ok u ∧ octreeMaxPool u o' 1 true = .ok (x, ix) :=
  C130_built _ _ _ _ _ cloudC_legal 1 (by decide) (by decide)

/-- `C130_levels` covers pooling from the leaves of that octree to its roots. -/
example : ∃ o' idx, Octree.build id (fun c v => v / c) (Octree.new 2 1 2 0) cloudC = .ok (o', idx) ∧
      ∀ x : List (Fin 3 → WithBot ℤ), x.length = o'.nnumNempty 2 →
        ∃ y, repeatPool (fun d' x => (octreeMaxPool x o' d' true).map Prod.fst) 0 2 x = .ok y := by
  obtain ⟨o, idx, h1, h2, h3, h4, h5, cells, ch, h6⟩ := C07_build id (fun c v => v / c) (Octree.new 2 1 2 0) cloudC [0, 1, 0] cloudC_legal
  refine ⟨o, idx, h1, fun x hx => ?_⟩
  obtain ⟨a1, a2, -⟩ := h6 0 (by decide)
  obtain ⟨b1, b2, -⟩ := h6 2 (by decide)
  rw [← h4] at a1 b1
  have hq := queried_length h5 2 (by decide) true _ _ b1 b2
  obtain ⟨y, hy, -⟩ := C130_levels o 2 h5 0 2 (by decide) _ _ _ _ a1 a2 b1 b2 x (by rw [hx]; simpa [queried] using hq.symm)
  exact ⟨y, hy⟩

end Ocnn
