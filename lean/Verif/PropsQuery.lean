import Verif.QueryLemmas
import Verif.PropsSplit

/-! Properties C22-C24, C26-C28 (neighbourhood queries and searches). -/

set_option linter.unusedSimpArgs false

namespace Ocnn
open Spec
variable {F : Type}

theorem disp_center : disp 13 = (0, 0, 0) := by decide

theorem disp_opposite : ∀ k < 27, disp (26 - k) = (-(disp k).1, -(disp k).2.1, -(disp k).2.2) := by decide

theorem isShift_symm {c c' : Cell} {k : Nat} (hk : k < 27) (h : IsShift c c' (disp k)) :
    IsShift c' c (disp (26 - k)) := by
  rw [disp_opposite k hk]
  obtain ⟨h1, h2, h3, h4⟩ := h
  refine ⟨h1.symm, ?_, ?_, ?_⟩ <;> simp only <;> omega

theorem neighTable_entry {cells : List Cell} {rows : List (List Int)} (h : NeighTable cells rows)
    {i k : Nat} {c : Cell} (hi : cells[i]? = some c) (hk : k < 27) :
    ∃ v, entry rows i k = some v ∧ RefersTo cells c (disp k) v := by
  have hlt : i < rows.length := by rw [h.1]; exact (List.getElem?_eq_some_iff.mp hi).1
  obtain ⟨h1, h2⟩ := h.2 i c rows[i] hi (List.getElem?_eq_getElem hlt)
  have hk' : k < rows[i].length := by omega
  refine ⟨rows[i][k], ?_, h2 k _ (List.getElem?_eq_getElem hk')⟩
  simp [entry, List.getElem?_eq_getElem hlt, List.getElem?_eq_getElem hk']

theorem entry_lt {cells : List Cell} {rows : List (List Int)} (h : NeighTable cells rows) {i k : Nat} {v : Int}
    (he : entry rows i k = some v) : ∃ c, cells[i]? = some c ∧ k < 27 := by
  unfold entry at he
  cases hr : rows[i]? with
  | none => rw [hr] at he; simp at he
  | some row =>
    rw [hr] at he
    simp only [Option.bind_some] at he
    have hlt : i < cells.length := by rw [← h.1]; exact (List.getElem?_eq_some_iff.mp hr).1
    have := (h.2 i cells[i] row (List.getElem?_eq_getElem hlt) hr).1
    exact ⟨cells[i], List.getElem?_eq_getElem hlt, by
      rw [← this]; exact (List.getElem?_eq_some_iff.mp he).1⟩

theorem key_shift (d : Nat) (c : Cell) (hd : d ≤ 16) : c.key d >>> 48 = c.b :=
  (Nat.shiftRight_eq_div_pow _ _).trans (Cell.key_div d c hd)

theorem keys_shift (d : Nat) (cells : List Cell) (hd : d ≤ 16) :
    (cells.map (Cell.key d)).map (fun k => k >>> 48) = cells.map Cell.b := by
  simp only [List.map_map, Function.comp_def, key_shift d _ hd]

theorem WF.batchId_all {o : Octree F} {h : Nat} {masks : Nat → List Bool} (w : WF o h masks) (d : Nat)
    (hd : d ≤ h) : o.batchId d false = .ok ((layerCells o.batchSize masks d).map Cell.b) := by
  have h16 := w.depth_le
  have hh := w.h_le
  have hd' : d ≤ o.depth := by omega
  unfold Octree.batchId
  rw [w.keys d hd]
  simp only [Octree.chk, hd', if_true, bind, Except.bind, need, pure, Except.pure, Bool.false_eq_true, if_false]
  rw [keys_shift d _ (by omega)]

theorem WF.batchId_nempty {o : Octree F} {h : Nat} {masks : Nat → List Bool} (w : WF o h masks) (d : Nat)
    (hd : d ≤ h) : o.batchId d true = .ok ((maskSel (masks d) (layerCells o.batchSize masks d)).map Cell.b) := by
  have h16 := w.depth_le
  have hh := w.h_le
  have hd' : d ≤ o.depth := by omega
  unfold Octree.batchId Octree.nemptyMask
  rw [w.keys d hd, w.children d hd]
  simp only [Octree.chk, hd', if_true, bind, Except.bind, need, pure, Except.pure, number_mask]
  rw [keys_shift d _ (by omega), boolIndex_ok _ _ (by rw [w.len d hd, List.length_map]), maskSel_map]

/-- **C22.** In an exact neighbour table every node is its own centre, the relation is symmetric under opposite
offsets, and neighbours have the same batch index. -/
theorem C22_symmetric (o : Octree F) (h : Nat) (w : o.Valid h) (d : Nat) (hd : d ≤ h)
    (hn : NeighExact o.batchSize d o.keys o.neighs) :
    ∃ rows ids, o.neighs d = some rows ∧ o.batchId d false = .ok ids ∧ rows.length = o.nnum d ∧
      (∀ i < o.nnum d, entry rows i 13 = some (i : Int)) ∧
      ∀ i k j : Nat, entry rows i k = some (j : Int) →
        entry rows j (26 - k) = some (i : Int) ∧ ids[i]? = ids[j]? ∧ ids[j]?.isSome := by
  have W := w.wf'
  have h16 := w.depth_le
  have hh := w.h_le
  obtain ⟨rows, hr, ht⟩ := hn _ (W.cellsOf d hd)
  have hnd := layer_nodup o.batchSize o.masks d (by omega)
  refine ⟨rows, _, hr, W.batchId_all d hd, by rw [ht.1, W.nnum d hd], ?_, ?_⟩
  · intro i hi
    rw [W.nnum d hd] at hi
    obtain ⟨v, h1, h2⟩ := neighTable_entry ht (List.getElem?_eq_getElem hi) (show 13 < 27 by omega)
    rw [h1]
    rcases h2 with ⟨j, c', rfl, hj, hs⟩ | ⟨_, hno⟩
    · rw [disp_center] at hs
      have : c' = (layerCells o.batchSize o.masks d)[i] := by
        obtain ⟨s1, s2, s3, s4⟩ := hs
        cases c'
        cases hc : (layerCells o.batchSize o.masks d)[i]
        rw [hc] at s1 s2 s3 s4
        simp only at s1 s2 s3 s4
        simp only [Cell.mk.injEq]
        omega
      subst this
      have := nodup_getElem?_inj hnd hj (List.getElem?_eq_getElem hi)
      subst this
      rfl
    · exfalso
      apply hno _ (List.getElem_mem hi)
      rw [disp_center]
      exact ⟨rfl, by simp, by simp, by simp⟩
  · intro i k j he
    obtain ⟨c, hc, hk⟩ := entry_lt ht he
    obtain ⟨v, h1, h2⟩ := neighTable_entry ht hc hk
    rw [he] at h1
    cases h1
    rcases h2 with ⟨j', c', e, hj, hs⟩ | ⟨e, _⟩
    · have e' : j = j' := by exact_mod_cast e
      subst e'
      have hs' := isShift_symm hk hs
      refine ⟨?_, ?_, ?_⟩
      · obtain ⟨v, h3, h4⟩ := neighTable_entry ht hj (show 26 - k < 27 by omega)
        rw [h3]
        rcases h4 with ⟨i', c'', rfl, hi', hs''⟩ | ⟨_, hno⟩
        · have : c'' = c := isShift_unique hs'' hs'
          subst this
          rw [nodup_getElem?_inj hnd hi' hc]
        · exact absurd hs' (hno c (List.mem_of_getElem? hc))
      · rw [List.getElem?_map, List.getElem?_map, hc, hj]
        simp [hs.1]
      · rw [List.getElem?_map, hj]; rfl
    · omega

example : ∃ (o : Octree Unit) (rows : List (List Int)), o.Valid 2 ∧ o.neighs 2 = some rows ∧ rows.length = o.nnum 2 := by
  obtain ⟨o, _, h1, h2, h3, h4, h5, h6⟩ := example_valid
  rw [h3] at h1
  obtain ⟨rows, _, h7, _, h8, _⟩ := C22_symmetric o 2 h1 2 (le_refl _) (h5 2 (le_refl _))
  exact ⟨o, rows, h1, h7, h8⟩

/-- **C23/C24.** `get_neigh` with stride 1 for every documented kernel shape: the table of the kernel's offsets
among all nodes, or among the non-empty nodes if `nempty`. -/
theorem C24_get_neigh_stride1 (o : Octree F) (h : Nat) (w : o.Valid h) (d : Nat) (hd : d ≤ h)
    (hn : NeighExact o.batchSize d o.keys o.neighs) (k : Nat × Nat × Nat) (hk : k ∈ supportedKernels)
    (cells : List Cell) (hc : CellsOf o.batchSize d o.keys cells) (ch : List Int) (hch : o.children d = some ch)
    (nempty : Bool) :
    ∃ R, o.getNeigh d (kernelName k) 1 nempty = .ok R ∧
      KernelTable (if nempty then nonEmpty cells ch else cells) (if nempty then nonEmpty cells ch else cells)
        (kernelOffsets k) R := by
  have W := w.wf'
  have h16 := w.depth_le
  have hh := w.h_le
  have e := cells_unique (by omega) hc (W.cellsOf d hd)
  subst e
  obtain ⟨rows, hr, ht⟩ := hn _ hc
  rw [W.children d hd] at hch
  cases hch
  rw [nonEmpty_eq _ _ _ (W.len d hd)]
  exact (getNeigh_spec W d hd rows hr ht k hk nempty).1

/-- **C23.** `get_neigh` with stride 2 (depth at least 1): row `i` is the neighbourhood of node `8i`. -/
theorem C23_get_neigh_stride2 (o : Octree F) (h : Nat) (w : o.Valid h) (d : Nat) (hd1 : 1 ≤ d) (hd : d ≤ h)
    (hn : NeighExact o.batchSize d o.keys o.neighs) (k : Nat × Nat × Nat) (hk : k ∈ supportedKernels)
    (cells : List Cell) (hc : CellsOf o.batchSize d o.keys cells) (ch : List Int) (hch : o.children d = some ch)
    (nempty : Bool) :
    ∃ R firsts, FirstSiblings cells firsts ∧ firsts.length = o.nnumNempty (d - 1) ∧
      o.getNeigh d (kernelName k) 2 nempty = .ok R ∧
      KernelTable (if nempty then nonEmpty cells ch else cells) firsts (kernelOffsets k) R := by
  have W := w.wf'
  have h16 := w.depth_le
  have hh := w.h_le
  have e := cells_unique (by omega) hc (W.cellsOf d hd)
  subst e
  obtain ⟨rows, hr, ht⟩ := hn _ hc
  rw [W.children d hd] at hch
  cases hch
  rw [nonEmpty_eq _ _ _ (W.len d hd)]
  obtain ⟨e, rfl⟩ : ∃ e, d = e + 1 := ⟨d - 1, by omega⟩
  have hl := layer_length_succ o.batchSize o.masks e (W.len e (by omega))
  have h8 : (layerCells o.batchSize o.masks (e + 1)).length % 8 = 0 := by omega
  obtain ⟨R, h1, h2⟩ := (getNeigh_spec W (e + 1) hd rows hr ht k hk nempty).2 h8
  obtain ⟨h3, h4⟩ := every8_spec (layerCells o.batchSize o.masks (e + 1)) ((o.masks e).count true) (by omega)
  refine ⟨R, _, ⟨by rw [h3]; omega, fun i hi => h4 i (by omega)⟩, ?_, h1, h2⟩
  rw [h3, Nat.add_sub_cancel, W.nnumNempty e (by omega)]

/-- **C23.** Unsupported strides raise a ValueError. -/
theorem C23_bad_stride (o : Octree F) (d : Nat) (k : String) (stride : Nat) (nempty : Bool) (h1 : stride ≠ 1)
    (h2 : stride ≠ 2) : o.getNeigh d k stride nempty = .error .value := by
  unfold Octree.getNeigh
  simp [h1, h2, bind, Except.bind]

/-- **C23.** Unsupported kernel shapes raise. -/
theorem C23_bad_kernel (o : Octree F) (d : Nat) (name : String) (stride : Nat) (nempty : Bool)
    (hk : ∀ k ∈ supportedKernels, name ≠ kernelName k) : ∃ e, o.getNeigh d name stride nempty = .error e := by
  have h0 : name ≠ "333" := hk (3, 3, 3) (by decide)
  have hl : lutKernel.lookup name = none := by
    have h1 := hk (3, 1, 1) (by decide)
    have h2 := hk (1, 3, 1) (by decide)
    have h3 := hk (1, 1, 3) (by decide)
    have h4 := hk (2, 2, 2) (by decide)
    have h5 := hk (3, 3, 1) (by decide)
    have h6 := hk (1, 3, 3) (by decide)
    have h7 := hk (3, 1, 3) (by decide)
    have e1 : kernelName (3, 1, 1) = "311" := by decide
    have e2 : kernelName (1, 3, 1) = "131" := by decide
    have e3 : kernelName (1, 1, 3) = "113" := by decide
    have e4 : kernelName (2, 2, 2) = "222" := by decide
    have e5 : kernelName (3, 3, 1) = "331" := by decide
    have e6 : kernelName (1, 3, 3) = "133" := by decide
    have e7 : kernelName (3, 1, 3) = "313" := by decide
    rw [e1] at h1; rw [e2] at h2; rw [e3] at h3; rw [e4] at h4; rw [e5] at h5; rw [e6] at h6; rw [e7] at h7
    have b : ∀ s : String, name ≠ s → (name == s) = false := fun s h => by simpa using h
    simp only [lutKernel, List.lookup, b _ h1, b _ h2, b _ h3, b _ h4, b _ h5, b _ h6, b _ h7]
  unfold Octree.getNeigh
  simp only [bind, Except.bind]
  split
  · exact ⟨_, rfl⟩
  · split
    · exact ⟨_, rfl⟩
    · rw [if_neg h0, hl]
      exact ⟨_, rfl⟩

example : ∀ k ∈ supportedKernels, "555" ≠ kernelName k := by decide

/-- The nodes a query function returns: all nodes of the layer, or the non-empty ones. -/
def queried (nempty : Bool) (cells : List Cell) (ch : List Int) : List Cell :=
  if nempty then nonEmpty cells ch else cells

theorem WF.key_queried {o : Octree F} {h : Nat} {masks : Nat → List Bool} (w : WF o h masks) (d : Nat)
    (hd : d ≤ h) (nempty : Bool) :
    o.key d nempty = .ok ((queried nempty (layerCells o.batchSize masks d) (number 0 (masks d))).map (Cell.key d)) := by
  unfold queried
  cases nempty
  · simpa using w.key_all d hd
  · rw [if_pos rfl, nonEmpty_eq _ _ _ (w.len d hd)]
    exact w.key_nempty d hd

theorem queried_sublist {nempty : Bool} {cells : List Cell} {m : List Bool} (h : m.length = cells.length) :
    (queried nempty cells (number 0 m)).Sublist cells := by
  unfold queried
  cases nempty
  · exact List.Sublist.refl _
  · rw [if_pos rfl, nonEmpty_eq _ _ _ h]
    exact maskSel_sublist _ _

/-- **C26.** `search_key` returns, for each query, the unique position whose key equals the query, and -1 if there
is none. -/
theorem C26_search_key (o : Octree F) (h : Nat) (w : o.Valid h) (d : Nat) (hd : d ≤ h) (qs : List Nat)
    (nempty : Bool) :
    ∃ key r, o.key d nempty = .ok key ∧ o.searchKey qs d nempty = .ok r ∧ r.length = qs.length ∧
      ∀ (i : Nat) (q : Nat) (v : Int), qs[i]? = some q → r[i]? = some v →
        (∃ j : Nat, v = j ∧ key[j]? = some q ∧ ∀ j', key[j']? = some q → j' = j) ∨ (v = -1 ∧ q ∉ key) := by
  have W := w.wf'
  have h16 := w.depth_le
  have hh := w.h_le
  have hkey := W.key_queried d hd nempty
  have hsub := queried_sublist (nempty := nempty) (W.len d hd)
  have hsort : ((queried nempty (layerCells o.batchSize o.masks d) (number 0 (o.masks d))).map
      (Cell.key d)).Pairwise (· < ·) := by
    rw [List.pairwise_map]
    exact (layer_sorted o.batchSize o.masks d (by omega)).sublist hsub
  generalize (queried nempty (layerCells o.batchSize o.masks d) (number 0 (o.masks d))).map (Cell.key d) = l at *
  refine ⟨l, qs.map fun q => match l[bucketize l q]? with
      | some k => if k = q then (bucketize l q : Int) else -1
      | none => -1, hkey, ?_, by simp, ?_⟩
  · unfold Octree.searchKey
    rw [hkey]
    rfl
  · intro i q v hq hv
    rw [List.getElem?_map, hq] at hv
    simp only [Option.map_some, Option.some.injEq] at hv
    have := search_spec hsort q
    subst hv
    rcases this with ⟨j, h1, h2⟩ | h1
    · left
      refine ⟨j, h1, h2, ?_⟩
      intro j' hj'
      exact nodup_getElem?_inj (hsort.imp (fun h => Nat.ne_of_lt h)) hj' h2
    · exact Or.inr h1

/-- **C26.** `search_xyzb` on cells inside the cube: the position of the cell among the (non-empty) nodes, or -1
if the cell is not among them. -/
theorem C26_search_xyzb (o : Octree F) (h : Nat) (w : o.Valid h) (d : Nat) (hd : d ≤ h)
    (cells : List Cell) (hc : CellsOf o.batchSize d o.keys cells) (ch : List Int) (hch : o.children d = some ch)
    (qs : List Cell) (hq : ∀ q ∈ qs, q.InRange (2 ^ 15) d) (nempty : Bool) :
    ∃ r, o.searchXyzb (qs.map fun q => ((q.x : Int), (q.y : Int), (q.z : Int), (q.b : Int))) d nempty = .ok r ∧
      r.length = qs.length ∧
      ∀ (i : Nat) (q : Cell) (v : Int), qs[i]? = some q → r[i]? = some v →
        (∃ j : Nat, v = j ∧ (queried nempty cells ch)[j]? = some q) ∨
        (v = -1 ∧ q ∉ queried nempty cells ch) := by
  have W := w.wf'
  have h16 := w.depth_le
  have hh := w.h_le
  have hB := w.batch_le
  have e := cells_unique (by omega) hc (W.cellsOf d hd)
  subst e
  rw [W.children d hd] at hch
  cases hch
  have hsub := queried_sublist (nempty := nempty) (W.len d hd)
  have hin : ∀ c ∈ queried nempty (layerCells o.batchSize o.masks d) (number 0 (o.masks d)), c.InRange (2 ^ 15) d := by
    intro c hc'
    have := hc.1 c (hsub.subset hc')
    exact ⟨by have := this.1; omega, this.2⟩
  have hkeys : (qs.map fun q => ((q.x : Int), (q.y : Int), (q.z : Int), (q.b : Int))).mapM
      (fun q => xyz2key q.1 q.2.1 q.2.2.1 (some q.2.2.2) d) = .ok (qs.map (Cell.key d)) := by
    rw [List.mapM_map]
    apply mapM_ok
    intro q hq'
    obtain ⟨q0, q1, q2, q3⟩ := hq q hq'
    simp only [Function.comp]
    rw [xyz2key_some _ _ _ _ _ (by omega) q0]
    have m : ∀ x : Nat, x < 2 ^ d → ((x : Int) % 2 ^ d).toNat = x := by
      intro x hx
      rw [Int.emod_eq_of_lt (by omega) (by exact_mod_cast hx)]
      simp
    rw [m _ q1, m _ q2, m _ q3]
  obtain ⟨key, r, h1, h2, h3, h4⟩ := C26_search_key o h w d hd (qs.map (Cell.key d)) nempty
  rw [W.key_queried d hd nempty] at h1
  cases h1
  refine ⟨r, ?_, by simpa using h3, ?_⟩
  · unfold Octree.searchXyzb
    rw [hkeys]
    exact h2
  · intro i q v hqi hv
    have hqr := hq q (List.mem_of_getElem? hqi)
    rcases h4 i (q.key d) v (by rw [List.getElem?_map, hqi]; rfl) hv with ⟨j, hj1, hj2, _⟩ | ⟨hj1, hj2⟩
    · left
      refine ⟨j, hj1, ?_⟩
      rw [List.getElem?_map] at hj2
      cases hx : (queried nempty (layerCells o.batchSize o.masks d) (number 0 (o.masks d)))[j]? with
      | none => rw [hx] at hj2; simp at hj2
      | some c =>
        rw [hx] at hj2
        simp only [Option.map_some, Option.some.injEq] at hj2
        rw [Cell.key_injective (by omega) (hin c (List.mem_of_getElem? hx)) hqr hj2]
    · right
      refine ⟨hj1, ?_⟩
      intro hmem
      exact hj2 (List.mem_map.mpr ⟨q, hmem, rfl⟩)

/-- **C27.** `xyzb`, `key` and `batch_id` describe the same cells, all inside the cube and the batch; looking the
result of `xyzb` up with `search_xyzb` gives 0, 1, 2, ... -/
theorem C27_xyzb (o : Octree F) (h : Nat) (w : o.Valid h) (d : Nat) (hd : d ≤ h)
    (cells : List Cell) (hc : CellsOf o.batchSize d o.keys cells) (ch : List Int) (hch : o.children d = some ch)
    (nempty : Bool) :
    (∀ c ∈ queried nempty cells ch, c.InRange o.batchSize d) ∧
    o.xyzb d nempty = .ok ((queried nempty cells ch).map fun c => ((c.x : Int), (c.y : Int), (c.z : Int), (c.b : Int))) ∧
    o.key d nempty = .ok ((queried nempty cells ch).map (Cell.key d)) ∧
    o.batchId d nempty = .ok ((queried nempty cells ch).map Cell.b) ∧
    ∃ r, o.xyzb d nempty = .ok r ∧
      o.searchXyzb r d nempty = .ok ((List.range r.length).map fun (i : Nat) => (i : Int)) := by
  have W := w.wf'
  have h16 := w.depth_le
  have hh := w.h_le
  have hB := w.batch_le
  have hc0 := hc
  have hch0 := hch
  have e := cells_unique (by omega) hc (W.cellsOf d hd)
  subst e
  rw [W.children d hd] at hch
  cases hch
  have hsub := queried_sublist (nempty := nempty) (W.len d hd)
  have hin : ∀ c ∈ queried nempty (layerCells o.batchSize o.masks d) (number 0 (o.masks d)),
      c.InRange o.batchSize d := fun c hc' => hc.1 c (hsub.subset hc')
  have hkey := W.key_queried d hd nempty
  have hx : o.xyzb d nempty = .ok ((queried nempty (layerCells o.batchSize o.masks d)
      (number 0 (o.masks d))).map fun c => ((c.x : Int), (c.y : Int), (c.z : Int), (c.b : Int))) := by
    unfold Octree.xyzb
    rw [hkey]
    simp only [bind, Except.bind]
    rw [List.mapM_map]
    apply mapM_ok
    intro c hc'
    simp only [Function.comp]
    exact key2xyz_cell (by omega) hB (hin c hc')
  refine ⟨hin, hx, hkey, ?_, _, hx, ?_⟩
  · unfold queried
    cases nempty
    · simpa using W.batchId_all d hd
    · rw [if_pos rfl, nonEmpty_eq _ _ _ (W.len d hd)]
      exact W.batchId_nempty d hd
  · obtain ⟨r, h1, h2, h3⟩ := C26_search_xyzb o h w d hd _ hc0 _ hch0 _
      (fun q hq => ⟨by have := (hin q hq).1; omega, (hin q hq).2⟩) nempty
    rw [h1]
    congr 1
    apply List.ext_getElem?
    intro i
    rw [List.getElem?_map, List.length_map]
    rcases Nat.lt_or_ge i r.length with hi | hi
    · have hi' : i < (queried nempty (layerCells o.batchSize o.masks d) (number 0 (o.masks d))).length := by omega
      rw [List.getElem?_range hi']
      have hnd := (layer_nodup o.batchSize o.masks d (by omega)).sublist hsub
      rcases h3 i _ r[i] (List.getElem?_eq_getElem hi') (List.getElem?_eq_getElem hi) with ⟨j, hj1, hj2⟩ | ⟨_, hj2⟩
      · rw [List.getElem?_eq_getElem hi, hj1]
        have := nodup_getElem?_inj hnd hj2 (List.getElem?_eq_getElem hi')
        rw [this]
        rfl
      · exact absurd (List.getElem_mem hi') hj2
    · rw [List.getElem?_eq_none hi, List.getElem?_eq_none (by simp; omega)]
      rfl

example : ∃ (o : Octree Unit) (cells : List Cell) (ch : List Int), o.Valid 2 ∧ CellsOf o.batchSize 2 o.keys cells ∧
    o.children 2 = some ch := by
  obtain ⟨o, _, h1, h2, h3, h4, h5, h6⟩ := example_valid
  rw [h3] at h1
  exact ⟨o, _, _, h1, h1.wf'.cellsOf 2 (le_refl _), h1.wf'.children 2 (le_refl _)⟩

/-- **C28 is violated.** With `full_depth = 0` and no layer-0 table (the state `build_octree` leaves), every
`construct_all_neigh` of an octree of depth at least 1 raises. -/
theorem C28_full_depth_zero_raises (o : Octree F) (h : Nat) (w : o.Valid h) (hf : o.fullDepth = 0) (hd : 1 ≤ o.depth)
    (hn : o.neighs 0 = none) : o.constructAllNeigh = .error .type := by
  have W := w.wf'
  have hh := w.h_le
  unfold Octree.constructAllNeigh
  obtain ⟨n, hn'⟩ : ∃ n, o.depth = n + 1 := ⟨o.depth - 1, by omega⟩
  have hstep : o.constructNeigh 1 = .error .type := by
    unfold Octree.constructNeigh
    rw [if_neg (by omega)]
    simp only [Octree.chk, hd, if_true, bind, Except.bind, Nat.sub_self, W.children 0 (by omega), need, hn]
  rw [hn', List.range_succ_eq_map, List.foldlM_cons]
  rw [hstep]
  rfl

end Ocnn
