import Verif.PropsVoxel

/-! Property C49, continued: carrying data over by way of another octree. -/

namespace Ocnn
open Spec
variable {F V : Type}

/-- **C49**: data carried from one octree to a third one by way of a second arrives at the nodes that all three share;
every other node gets 0. -/
theorem C49_via [Zero V] {G H : Type} (o : Octree F) (h : Nat) (w : o.Valid h) (q : Octree G) (h' : Nat) (w' : q.Valid h')
    (r : Octree H) (h'' : Nat) (w'' : r.Valid h'') (d : Nat) (hd : d ≤ h) (hd' : d ≤ h') (hd'' : d ≤ h'') (nempty : Bool)
    (cells qcells rcells : List Cell) (ch qch rch : List Int)
    (hc : CellsOf o.batchSize d o.keys cells) (hch : o.children d = some ch)
    (hqc : CellsOf q.batchSize d q.keys qcells) (hqch : q.children d = some qch)
    (hrc : CellsOf r.batchSize d r.keys rcells) (hrch : r.children d = some rch)
    (x : List V) (f : Nat → Int → Int → Int → V) (hf : IsField (queried nempty cells ch) x f)
    (hne : queried nempty cells ch ≠ []) (hqne : queried nempty qcells qch ≠ []) :
    ∃ y z, octreeAlign x o q d nempty = .ok y ∧ octreeAlign y q r d nempty = .ok z ∧
      z.length = (queried nempty rcells rch).length ∧
      ∀ (i : Nat) (c : Cell), (queried nempty rcells rch)[i]? = some c →
        (c ∈ queried nempty qcells qch → z[i]? = some (f c.b c.x c.y c.z)) ∧
        (c ∉ queried nempty qcells qch → z[i]? = some 0) := by
  classical
  have h1 := C49_align o h w q h' w' d hd hd' nempty cells qcells ch qch hc hch hqc hqch x f hf hne
  have hg : IsField (queried nempty qcells qch) ((queried nempty qcells qch).map fun c => f c.b c.x c.y c.z)
      (fun b x y z => if ∃ c ∈ queried nempty qcells qch, c.b = b ∧ (c.x : Int) = x ∧ (c.y : Int) = y ∧ (c.z : Int) = z
        then f b x y z else 0) := by
    refine ⟨by simp, ?_, ?_⟩
    · intro i c v hi hv
      rw [List.getElem?_map, hi] at hv
      simp only [Option.map_some, Option.some.injEq] at hv
      beta_reduce
      rw [if_pos ⟨c, List.mem_of_getElem? hi, rfl, rfl, rfl, rfl⟩]
      exact hv
    · intro b x y z hno
      beta_reduce
      rw [if_neg]
      rintro ⟨c, hcm, e⟩
      exact hno c hcm e
  have h2 := C49_align q h' w' r h'' w'' d hd' hd'' nempty qcells rcells qch rch hqc hqch hrc hrch _ _ hg hqne
  refine ⟨_, _, h1, h2, by simp, ?_⟩
  intro i c hi
  rw [List.getElem?_map, hi]
  simp only [Option.map_some, Option.some.injEq]
  constructor
  · intro hm
    rw [if_pos ⟨c, hm, rfl, rfl, rfl, rfl⟩]
  · intro hm
    rw [if_neg]
    rintro ⟨⟨b, x', y', z'⟩, hcm, e1, e2, e3, e4⟩
    apply hm
    obtain ⟨b', x'', y'', z''⟩ := c
    simp only [Nat.cast_inj] at e1 e2 e3 e4
    subst e1 e2 e3 e4
    exact hcm

/-- **C49**: data carried to another octree and back are unchanged at the nodes both octrees have and 0 at the others;
if the other octree has every node of the first, nothing is lost. -/
theorem C49_back [Zero V] {G : Type} (o : Octree F) (h : Nat) (w : o.Valid h) (q : Octree G) (h' : Nat) (w' : q.Valid h')
    (d : Nat) (hd : d ≤ h) (hd' : d ≤ h') (nempty : Bool) (cells qcells : List Cell) (ch qch : List Int)
    (hc : CellsOf o.batchSize d o.keys cells) (hch : o.children d = some ch)
    (hqc : CellsOf q.batchSize d q.keys qcells) (hqch : q.children d = some qch)
    (x : List V) (hx : x.length = (queried nempty cells ch).length)
    (hne : queried nempty cells ch ≠ []) (hqne : queried nempty qcells qch ≠ []) :
    ∃ y z, octreeAlign x o q d nempty = .ok y ∧ octreeAlign y q o d nempty = .ok z ∧ z.length = x.length ∧
      (∀ (i : Nat) (c : Cell), (queried nempty cells ch)[i]? = some c →
        (c ∈ queried nempty qcells qch → z[i]? = x[i]?) ∧ (c ∉ queried nempty qcells qch → z[i]? = some 0)) ∧
      ((∀ c ∈ queried nempty cells ch, c ∈ queried nempty qcells qch) → z = x) := by
  have W := w.wf'
  have h16 := w.depth_le
  have hh := w.h_le
  have hnd : (queried nempty cells ch).Nodup := by
    have e := cells_unique (by omega) hc (W.cellsOf d hd)
    subst e
    rw [W.children d hd] at hch; cases hch
    exact queried_nodup W d hd nempty
  obtain ⟨f, hf⟩ := exists_field _ x hx.symm hnd
  obtain ⟨y, z, h1, h2, h3, h4⟩ := C49_via o h w q h' w' o h w d hd hd' hd nempty cells qcells cells ch qch ch hc hch hqc hqch
    hc hch x f hf hne hqne
  have hval : ∀ (i : Nat) (c : Cell), (queried nempty cells ch)[i]? = some c → x[i]? = some (f c.b c.x c.y c.z) := by
    intro i c hi
    have hl : i < x.length := by rw [hx]; exact (List.getElem?_eq_some_iff.mp hi).1
    have e := List.getElem?_eq_getElem hl
    rw [e, hf.2.1 i c _ hi e]
  refine ⟨y, z, h1, h2, by omega, ?_, ?_⟩
  · intro i c hi
    exact ⟨fun hm => by rw [(h4 i c hi).1 hm, hval i c hi], (h4 i c hi).2⟩
  · intro hall
    apply List.ext_getElem?
    intro i
    by_cases hi : i < (queried nempty cells ch).length
    · have e := List.getElem?_eq_getElem hi
      rw [(h4 i _ e).1 (hall _ (List.mem_of_getElem? e)), hval i _ e]
    · rw [List.getElem?_eq_none (by omega), List.getElem?_eq_none (by omega)]

/-- the hypotheses are met: an octree and itself, with 16 nodes of depth 2 -/
example (nempty : Bool) : ∃ (o : Octree Unit) (cells : List Cell) (ch : List Int) (x : List ℚ), o.Valid 2 ∧
    CellsOf o.batchSize 2 o.keys cells ∧ o.children 2 = some ch ∧ x.length = (queried nempty cells ch).length ∧
    queried nempty cells ch ≠ [] := by
  obtain ⟨o, h1, -, -, -, h16, -, h2⟩ := example_valid'
  have W := h1.wf'
  refine ⟨o, _, _, List.replicate (queried nempty (layerCells o.batchSize o.masks 2) (number 0 (o.masks 2))).length (3 : ℚ), h1,
    W.cellsOf 2 (by omega), W.children 2 (by omega), by simp, ?_⟩
  intro e
  have := queried_length' W 2 (le_refl _) nempty
  rw [e] at this
  cases nempty <;> simp [h16, h2] at this

end Ocnn
