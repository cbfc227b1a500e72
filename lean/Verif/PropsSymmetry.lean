import Verif.PropsConv
import Verif.PropsBuild

/-! Property C93: convolution commutes with the motions of the voxel grid. -/

namespace Ocnn
open Spec

variable {F V R : Type}

namespace Spec

/-- A motion of the voxel grids of all samples: the samples are renumbered, every voxel position is turned by `lin` and shifted. -/
structure Motion where
  sample : Nat → Nat
  lin : Int × Int × Int → Int × Int × Int
  shift : Int × Int × Int

/-- The motion is one-to-one and turns differences of positions by `lin`. -/
structure Motion.Legal (m : Motion) : Prop where
  sample : Function.Injective m.sample
  lin : Function.Injective m.lin
  add : ∀ a b, m.lin (a + b) = m.lin a + m.lin b

/-- The position of a cell. -/
def pos (c : Cell) : Int × Int × Int := ((c.x : Int), (c.y : Int), (c.z : Int))

/-- `c'` is where the motion takes `c`. -/
def Motion.Moves (m : Motion) (c c' : Cell) : Prop := c'.b = m.sample c.b ∧ pos c' = m.lin (pos c) + m.shift

/-- The second list of cells arises from the first by the motion; the order may differ. -/
def CellsMoved (m : Motion) (cells cells' : List Cell) : Prop :=
  cells.length = cells'.length ∧ ∀ c ∈ cells, ∃ c' ∈ cells', m.Moves c c'

/-- The second list of cells with features arises from the first by the motion; the order may differ. -/
def Moved {V : Type} (m : Motion) (cells : List Cell) (x : List V) (cells' : List Cell) (x' : List V) : Prop :=
  cells.length = x.length ∧ cells'.length = x'.length ∧ cells.length = cells'.length ∧
  ∀ (i : Nat) (c : Cell) (v : V), cells[i]? = some c → x[i]? = some v →
    ∃ (j : Nat) (c' : Cell), cells'[j]? = some c' ∧ m.Moves c c' ∧ x'[j]? = some v

/-- The translation by `t`. -/
def translation (t : Int × Int × Int) : Motion := ⟨id, id, t⟩

/-- The reflection of the first axis of the cube of level `d`. -/
def reflection (d : Nat) : Motion := ⟨id, fun p => (-p.1, p.2), (2 ^ d - 1, 0, 0)⟩

/-- The exchange of the first two axes. -/
def exchange : Motion := ⟨id, fun p => (p.2.1, p.1, p.2.2), 0⟩

/-- Another order of the samples. -/
def reorder (s : Nat → Nat) : Motion := ⟨s, id, 0⟩

/-- The point moved by `t` cells of level `e`. -/
def shiftPoint (e : Nat) (t : Int × Int × Int) (p : V3 ℚ) : V3 ℚ :=
  ⟨p.x + t.1 * (2 / 2 ^ e), p.y + t.2.1 * (2 / 2 ^ e), p.z + t.2.2 * (2 / 2 ^ e)⟩

/-- The matrix that belongs to an offset in `ws` belongs to the turned offset in `ws'`. -/
def Turned {W : Type} (m : Motion) (offs : List (Int × Int × Int)) (ws ws' : List W) : Prop :=
  ((offs.map m.lin).zip ws).Perm (offs.zip ws')

end Spec

theorem translation_legal (t : Int × Int × Int) : (translation t).Legal :=
  ⟨Function.injective_id, Function.injective_id, fun _ _ => rfl⟩

theorem reflection_legal (d : Nat) : (reflection d).Legal := by
  refine ⟨Function.injective_id, ?_, ?_⟩
  · rintro ⟨a, b⟩ ⟨c, e⟩ h
    simpa [reflection] using h
  · rintro ⟨a, b⟩ ⟨c, e⟩
    simp [reflection, add_comm]

theorem exchange_legal : exchange.Legal := by
  refine ⟨Function.injective_id, ?_, ?_⟩
  · rintro ⟨a, b, c⟩ ⟨a', b', c'⟩ h
    simp only [exchange, Prod.mk.injEq] at h ⊢
    exact ⟨h.2.1, h.1, h.2.2⟩
  · rintro ⟨a, b, c⟩ ⟨a', b', c'⟩
    rfl

theorem reorder_legal (s : Nat → Nat) (h : Function.Injective s) : (reorder s).Legal :=
  ⟨h, Function.injective_id, fun _ _ => rfl⟩

theorem cell_ext {c c' : Cell} (h : c.b = c'.b) (h' : pos c = pos c') : c = c' := by
  cases c; cases c'
  simp only [pos, Prod.mk.injEq, Int.natCast_inj] at h h'
  simp [h, h']

theorem Moves.unique {m : Motion} {c c₁ c₂ : Cell} (h₁ : m.Moves c c₁) (h₂ : m.Moves c c₂) : c₁ = c₂ :=
  cell_ext (h₁.1.trans h₂.1.symm) (h₁.2.trans h₂.2.symm)

theorem Moves.inj {m : Motion} (hm : m.Legal) {c₁ c₂ c : Cell} (h₁ : m.Moves c₁ c) (h₂ : m.Moves c₂ c) : c₁ = c₂ :=
  cell_ext (hm.sample (h₁.1.symm.trans h₂.1)) (hm.lin (add_right_cancel (h₁.2.symm.trans h₂.2)))

theorem Spec.Moved.cells {m : Motion} {cells cells' : List Cell} {x x' : List V} (h : Moved m cells x cells' x') :
    CellsMoved m cells cells' := by
  obtain ⟨h1, h2, h3, h4⟩ := h
  refine ⟨h3, fun c hc => ?_⟩
  obtain ⟨i, hi⟩ := List.mem_iff_getElem?.1 hc
  have hlt := (List.getElem?_eq_some_iff.1 hi).1
  obtain ⟨j, c', hj, hmv, -⟩ := h4 i c (x[i]'(by omega)) hi (List.getElem?_eq_getElem (by omega))
  exact ⟨c', List.mem_of_getElem? hj, hmv⟩

/-- every cell of the second list comes from a cell of the first one -/
theorem Spec.Moved.back {m : Motion} (hm : m.Legal) {cells cells' : List Cell} {x x' : List V} (h : Moved m cells x cells' x')
    (hn : cells.Nodup) (hn' : cells'.Nodup) (c' : Cell) (hc' : c' ∈ cells') : ∃ c ∈ cells, m.Moves c c' := by
  obtain ⟨h3, key⟩ := h.cells
  choose! g hg1 hg2 using key
  have himg : (cells.map g).Nodup := by
    refine List.Nodup.map_on ?_ hn
    intro a ha b hb e
    exact Moves.inj hm (hg2 a ha) (e ▸ hg2 b hb)
  have hsub : cells.map g ⊆ cells' := by
    intro c hc
    obtain ⟨a, ha, rfl⟩ := List.mem_map.1 hc
    exact hg1 a ha
  have hperm : (cells.map g).Perm cells' := by
    refine (himg.subperm hsub).perm_of_length_le ?_
    simp [h3]
  obtain ⟨c, hc, rfl⟩ := List.mem_map.1 (hperm.mem_iff.2 hc')
  exact ⟨c, hc, hg2 c hc⟩

/-- the fields of moved features -/
theorem Spec.Moved.field {m : Motion} (hm : m.Legal) [Zero V] {cells cells' : List Cell} {x x' : List V} (h : Moved m cells x cells' x')
    (hn : cells.Nodup) (hn' : cells'.Nodup) {f f' : Nat → Int → Int → Int → V} (hf : IsField cells x f) (hf' : IsField cells' x' f')
    (b : Nat) (p q : Int × Int × Int) (hq : q = m.lin p + m.shift) : f' (m.sample b) q.1 q.2.1 q.2.2 = f b p.1 p.2.1 p.2.2 := by
  by_cases hc : ∃ c ∈ cells, c.b = b ∧ pos c = p
  · obtain ⟨c, hc, rfl, rfl⟩ := hc
    obtain ⟨i, hi⟩ := List.mem_iff_getElem?.1 hc
    have hlt : i < x.length := by have := (List.getElem?_eq_some_iff.1 hi).1; have := h.1; omega
    have hv : x[i]? = some x[i] := List.getElem?_eq_getElem hlt
    obtain ⟨j, c', hj, hmv, hv'⟩ := h.2.2.2 i c _ hi hv
    have e1 := hf.2.1 i c _ hi hv
    have e2 := hf'.2.1 j c' _ hj hv'
    have hp : pos c' = q := hmv.2.trans hq.symm
    rw [← hp, ← hmv.1]
    exact e2.trans e1.symm
  · rw [hf.2.2, hf'.2.2]
    · rintro c' hc' ⟨h1, h2, h3, h4⟩
      obtain ⟨c, hcm, hmv⟩ := h.back hm hn hn' c' hc'
      refine hc ⟨c, hcm, hm.sample (hmv.1.symm.trans h1), hm.lin (add_right_cancel (b := m.shift) ?_)⟩
      rw [← hmv.2, ← hq]
      exact Prod.ext h2 (Prod.ext h3 h4)
    · rintro c hcm ⟨h1, h2, h3, h4⟩
      exact hc ⟨c, hcm, h1, Prod.ext h2 (Prod.ext h3 h4)⟩

theorem Spec.Moved.convAt [CommSemiring R] {ci co : Nat} {m : Motion} (hm : m.Legal) {cells cells' : List Cell} {x x' : List (Fin ci → R)}
    (h : Moved m cells x cells' x') (hn : cells.Nodup) (hn' : cells'.Nodup) {f f' : Nat → Int → Int → Int → Fin ci → R}
    (hf : IsField cells x f) (hf' : IsField cells' x' f') (offs : List (Int × Int × Int)) (ws ws' : List (Fin ci → Fin co → R))
    (hw : Turned m offs ws ws') {c c' : Cell} (hc : m.Moves c c') : convAt f offs ws c = Spec.convAt f' offs ws' c' := by
  have e : ∀ (g : Int × Int × Int), around f c g = around f' c' (m.lin g) := by
    intro g
    have := h.field hm hn hn' hf hf' c.b (pos c + g) (pos c' + m.lin g) (by rw [hc.2, hm.add]; abel)
    unfold around
    rw [hc.1]
    exact this.symm
  have z : ∀ (f : Nat → Int → Int → Int → Fin ci → R) (offs : List (Int × Int × Int)) (ws : List (Fin ci → Fin co → R)) (c : Cell),
      Spec.convAt f offs ws c = ((offs.zip ws).map fun p => vecMat (around f c p.1) p.2).sum := by
    intro f offs ws c
    unfold Spec.convAt
    rw [List.map_zip_eq_zipWith]
    rfl
  rw [z, z, ← (hw.map _).sum_eq, List.map_zip_eq_zipWith, List.map_zip_eq_zipWith, List.zipWith_map_left]
  congr 1
  simp only [e]
  rfl

theorem Spec.CellsMoved.map {W : Type} {m : Motion} {cells cells' : List Cell} (h : CellsMoved m cells cells')
    (g g' : Cell → W) (hg : ∀ c c', m.Moves c c' → g c = g' c') : Moved m cells (cells.map g) cells' (cells'.map g') := by
  obtain ⟨h1, h2⟩ := h
  refine ⟨by simp, by simp, h1, ?_⟩
  intro i c v hi hv
  obtain ⟨c', hc', hmv⟩ := h2 c (List.mem_of_getElem? hi)
  obtain ⟨j, hj⟩ := List.mem_iff_getElem?.1 hc'
  refine ⟨j, c', hj, hmv, ?_⟩
  rw [List.getElem?_map, hi] at hv
  rw [List.getElem?_map, hj, Option.map_some, ← hg c c' hmv]
  exact hv

/-- **C93**, stride 1.  If the nodes that a layer works on and their features are moved, with the matrices turned accordingly, then
its output is moved in the same way: translations (same matrices), reflections, exchange of axes, another order of the samples.  The
two octrees may have different depths and batch sizes. -/
theorem C93_stride1 [CommSemiring R] {ci co : Nat} (o o' : Octree F) (h h' : Nat) (w : o.Valid h) (w' : o'.Valid h') (d d' : Nat)
    (hd : d ≤ h) (hd' : d' ≤ h') (hn : NeighExact o.batchSize d o.keys o.neighs) (hn' : NeighExact o'.batchSize d' o'.keys o'.neighs)
    (k : Nat × Nat × Nat) (hk : k ∈ supportedKernels) (nempty : Bool)
    (cells cells' : List Cell) (hc : CellsOf o.batchSize d o.keys cells) (hc' : CellsOf o'.batchSize d' o'.keys cells')
    (ch ch' : List Int) (hch : o.children d = some ch) (hch' : o'.children d' = some ch')
    (ks : List Nat) (mb : Nat) (L L' : ConvModule (Fin co → R) (Fin ci → Fin co → R)) (ha : KernelArg ks k)
    (hi : ConvBase.init true ci co ks 1 nempty mb = .ok L.base) (hi' : ConvBase.init true ci co ks 1 nempty mb = .ok L'.base)
    (hb : (kernelOffsets k).length * ci ≤ mb)
    (hw : L.weights.length = (kernelOffsets k).length) (hw' : L'.weights.length = (kernelOffsets k).length) (hbias : L.bias = L'.bias)
    (m : Motion) (hm : m.Legal) (ht : Turned m (kernelOffsets k) L.weights L'.weights)
    (x x' : List (Fin ci → R)) (hx : Moved m (queried nempty cells ch) x (queried nempty cells' ch') x') :
    ∃ y y', L.forward (denseKernel R ci co) x o d = .ok y ∧ L'.forward (denseKernel R ci co) x' o' d' = .ok y' ∧
      Moved m (queried nempty cells ch) y (queried nempty cells' ch') y' := by
  have nd := nodes_nodup o h w d hd nempty 1 _ _ (.one d cells ch hc hch)
  have nd' := nodes_nodup o' h' w' d' hd' nempty 1 _ _ (.one d' cells' ch' hc' hch')
  obtain ⟨f, hf⟩ := exists_field _ x hx.1 nd
  obtain ⟨f', hf'⟩ := exists_field _ x' hx.2.1 nd'
  refine ⟨_, _, C34_stride1 o h w d hd hn k hk nempty cells hc ch hch ks mb L ha hi (fun _ => hb) hw x f hf,
    C34_stride1 o' h' w' d' hd' hn' k hk nempty cells' hc' ch' hch' ks mb L' ha hi' (fun _ => hb) hw' x' f' hf', ?_⟩
  refine hx.cells.map _ _ fun c c' hcc => ?_
  rw [hx.convAt hm nd nd' hf hf' _ _ _ ht hcc, hbias]

/-- **C93**, stride 2 on the non-empty nodes: if the motion `n` of the coarse nodes fits the motion `m` of the fine ones (for example
translations by `t` and `2 t`), the output at the coarse nodes is moved by `n`. -/
theorem C93_stride2 [CommSemiring R] {ci co : Nat} (o o' : Octree F) (h h' : Nat) (w : o.Valid h) (w' : o'.Valid h') (d d' : Nat)
    (hd : d + 1 ≤ h) (hd' : d' + 1 ≤ h') (hn : NeighExact o.batchSize (d + 1) o.keys o.neighs)
    (hn' : NeighExact o'.batchSize (d' + 1) o'.keys o'.neighs) (k : Nat × Nat × Nat) (hk : k ∈ supportedKernels)
    (cells cells' : List Cell) (hc : CellsOf o.batchSize (d + 1) o.keys cells) (hc' : CellsOf o'.batchSize (d' + 1) o'.keys cells')
    (ch ch' : List Int) (hch : o.children (d + 1) = some ch) (hch' : o'.children (d' + 1) = some ch')
    (pcells pcells' : List Cell) (hp : CellsOf o.batchSize d o.keys pcells) (hp' : CellsOf o'.batchSize d' o'.keys pcells')
    (pch pch' : List Int) (hpc : o.children d = some pch) (hpc' : o'.children d' = some pch')
    (ks : List Nat) (mb : Nat) (L L' : ConvModule (Fin co → R) (Fin ci → Fin co → R)) (ha : KernelArg ks k)
    (hi : ConvBase.init true ci co ks 2 true mb = .ok L.base) (hi' : ConvBase.init true ci co ks 2 true mb = .ok L'.base)
    (hb : (kernelOffsets k).length * ci ≤ mb)
    (hw : L.weights.length = (kernelOffsets k).length) (hw' : L'.weights.length = (kernelOffsets k).length) (hbias : L.bias = L'.bias)
    (m n : Motion) (hm : m.Legal) (hmn : ∀ p p', n.Moves p p' → m.Moves (firstChild p) (firstChild p'))
    (ht : Turned m (kernelOffsets k) L.weights L'.weights)
    (x x' : List (Fin ci → R)) (hx : Moved m (nonEmpty cells ch) x (nonEmpty cells' ch') x')
    (hq : CellsMoved n (nonEmpty pcells pch) (nonEmpty pcells' pch')) :
    ∃ y y', L.forward (denseKernel R ci co) x o (d + 1) = .ok y ∧ L'.forward (denseKernel R ci co) x' o' (d' + 1) = .ok y' ∧
      Moved n (nonEmpty pcells pch) y (nonEmpty pcells' pch') y' := by
  have nd := nodes_nodup o h w (d + 1) hd true 1 _ _ (.one (d + 1) cells ch hc hch)
  have nd' := nodes_nodup o' h' w' (d' + 1) hd' true 1 _ _ (.one (d' + 1) cells' ch' hc' hch')
  obtain ⟨f, hf⟩ := exists_field _ x hx.1 nd
  obtain ⟨f', hf'⟩ := exists_field _ x' hx.2.1 nd'
  refine ⟨_, _, C34_stride2 o h w d hd hn k hk true cells hc ch hch pcells hp pch hpc ks mb L ha hi (fun _ => hb) hw x f hf,
    C34_stride2 o' h' w' d' hd' hn' k hk true cells' hc' ch' hch' pcells' hp' pch' hpc' ks mb L' ha hi' (fun _ => hb) hw' x' f' hf', ?_⟩
  simp only [if_true]
  refine hq.map _ _ fun c c' hcc => ?_
  rw [hx.convAt hm nd nd' hf hf' _ _ _ ht (hmn c c' hcc), hbias]

theorem cellsMoved_of {m : Motion} (hm : m.Legal) {A B : List Cell} (hA : A.Nodup) (hB : B.Nodup)
    (h1 : ∀ c ∈ A, ∃ c' ∈ B, m.Moves c c') (h2 : ∀ c' ∈ B, ∃ c ∈ A, m.Moves c c') : CellsMoved m A B := by
  refine ⟨?_, h1⟩
  choose! g hg1 hg2 using h1
  have himg : (A.map g).Nodup := by
    refine List.Nodup.map_on ?_ hA
    intro a ha b hb e
    exact Moves.inj hm (hg2 a ha) (e ▸ hg2 b hb)
  have hperm : (A.map g).Perm B := by
    rw [List.perm_ext_iff_of_nodup himg hB]
    intro c'
    constructor
    · intro h
      obtain ⟨c, hc, rfl⟩ := List.mem_map.1 h
      exact hg1 c hc
    · intro h
      obtain ⟨c, hc, hmv⟩ := h2 c' h
      exact List.mem_map.2 ⟨c, hc, Moves.unique (hg2 c hc) hmv⟩
  have := hperm.length_eq
  simpa using this

theorem side_shift {d e n n' : Nat} {t : Int} {v : ℚ} (he : e ≤ d) (h : SideContains d n v)
    (h' : SideContains d n' (v + t * (2 / 2 ^ e))) : (n' : Int) = n + 2 ^ (d - e) * t := by
  rw [sideContains_grid] at h h'
  have e1 : (v + t * (2 / 2 ^ e) + 1) * 2 ^ d / 2 = (v + 1) * 2 ^ d / 2 + 2 ^ (d - e) * t := by
    have : (2 : ℚ) ^ d = 2 ^ (d - e) * 2 ^ e := by rw [← pow_add]; congr 1; omega
    have h0 : (2 : ℚ) ^ e ≠ 0 := by positivity
    rw [this]
    field_simp
    ring
  rw [e1] at h'
  have a : ((n' : Int) : ℚ) < ((n + 2 ^ (d - e) * t + 1 : Int) : ℚ) := by push_cast; linarith [h.2, h'.1]
  have b : ((n + 2 ^ (d - e) * t : Int) : ℚ) < ((n' + 1 : Int) : ℚ) := by push_cast; linarith [h.1, h'.2]
  have a := Int.cast_lt.1 a
  have b := Int.cast_lt.1 b
  omega

theorem cube_exists (B d b : Nat) (hb : b < B) (p : V3 ℚ) (hp : InCube p) : ∃ c : Cell, c.b = b ∧ c.InRange B d ∧ CubeContains d c p := by
  have side : ∀ v : ℚ, -1 ≤ v ∧ v < 1 → ∃ n, n < 2 ^ d ∧ SideContains d n v := by
    intro v hv
    have h0 : (0 : ℚ) ≤ (v + 1) * 2 ^ d / 2 := by
      have : (0 : ℚ) ≤ v + 1 := by linarith
      positivity
    refine ⟨⌊(v + 1) * 2 ^ d / 2⌋₊, ?_, (sideContains_grid _ _ _).2 ⟨Nat.floor_le h0, Nat.lt_floor_add_one _⟩⟩
    rw [Nat.floor_lt h0]
    have : (0 : ℚ) < 2 ^ d := by positivity
    push_cast
    nlinarith
  obtain ⟨x, hx, hx'⟩ := side p.x hp.1
  obtain ⟨y, hy, hy'⟩ := side p.y hp.2.1
  obtain ⟨z, hz, hz'⟩ := side p.z hp.2.2
  exact ⟨⟨b, x, y, z⟩, rfl, ⟨hb, hx, hy, hz⟩, hx', hy', hz'⟩

theorem cube_shift {d e : Nat} {t : Int × Int × Int} {p : V3 ℚ} {c c' : Cell} (he : e ≤ d) (hb : c'.b = c.b) (h : CubeContains d c p)
    (h' : CubeContains d c' (shiftPoint e t p)) : (translation (2 ^ (d - e) * t.1, 2 ^ (d - e) * t.2.1, 2 ^ (d - e) * t.2.2)).Moves c c' := by
  refine ⟨hb, ?_⟩
  have a := side_shift he h.1 h'.1
  have b := side_shift he h.2.1 h'.2.1
  have c := side_shift he h.2.2 h'.2.2
  exact Prod.ext a (Prod.ext b c)

/-- **C93**, point clouds: if all points are moved by `t` cells of level `e ≥ full_depth`, then in all layers `d` from `e` on the
non-empty nodes of the octree are moved by `2^(d-e) t`, and so are all nodes in the layers after `e`. -/
theorem C93_points {L : Type} [AddCommMonoid F] (nrm : V3 ℚ → V3 ℚ) (divF : ℚ → F → F) (o : Octree F) (pc pc' : Points ℚ F L)
    (samples : List Nat) (h : LegalBuild o pc samples) (h' : LegalBuild o pc' samples) (e : Nat) (t : Int × Int × Int)
    (he : o.fullDepth ≤ e) (hp : pc'.points = pc.points.map (shiftPoint e t)) :
    ∃ o₁ i₁ o₂ i₂, Octree.build nrm divF o pc = .ok (o₁, i₁) ∧ Octree.build nrm divF o pc' = .ok (o₂, i₂) ∧
      ∀ d, e ≤ d → d ≤ o.depth → ∀ cells ch cells' ch', CellsOf o.batchSize d o₁.keys cells → o₁.children d = some ch →
        CellsOf o.batchSize d o₂.keys cells' → o₂.children d = some ch' →
        CellsMoved (translation (2 ^ (d - e) * t.1, 2 ^ (d - e) * t.2.1, 2 ^ (d - e) * t.2.2)) (nonEmpty cells ch) (nonEmpty cells' ch') ∧
        (e < d → CellsMoved (translation (2 ^ (d - e) * t.1, 2 ^ (d - e) * t.2.1, 2 ^ (d - e) * t.2.2)) cells cells') := by
  obtain ⟨o₁, i₁, hb₁, h11, h12, h13, w₁, cs, chs, H⟩ := C07_build nrm divF o pc samples h
  obtain ⟨o₂, i₂, hb₂, h21, h22, h23, w₂, cs', chs', H'⟩ := C07_build nrm divF o pc' samples h'
  refine ⟨o₁, i₁, o₂, i₂, hb₁, hb₂, ?_⟩
  have h16 := h.depth
  -- moved cells are occupied by moved points
  have fwd : ∀ d, e ≤ d → d ≤ o.depth → ∀ c ∈ nonEmpty (cs d) (chs d), ∃ c' ∈ nonEmpty (cs' d) (chs' d),
      (translation (2 ^ (d - e) * t.1, 2 ^ (d - e) * t.2.1, 2 ^ (d - e) * t.2.2)).Moves c c' := by
    intro d hd hdd c hc
    obtain ⟨i, p, h1, h2, h3⟩ := ((H d hdd).2.2.1 (by omega) c).1 hc
    have hp' : pc'.points[i]? = some (shiftPoint e t p) := by rw [hp, List.getElem?_map, h1]; rfl
    have hlt : c.b < o.batchSize := h.cloud.lt c.b (List.mem_of_getElem? h2)
    obtain ⟨c', e1, -, e3⟩ := cube_exists o.batchSize d c.b hlt _ (h'.inCube _ (List.mem_of_getElem? hp'))
    exact ⟨c', ((H' d hdd).2.2.1 (by omega) c').2 ⟨i, _, hp', by rw [e1]; exact h2, e3⟩, cube_shift hd e1 h3 e3⟩
  have bwd : ∀ d, e ≤ d → d ≤ o.depth → ∀ c' ∈ nonEmpty (cs' d) (chs' d), ∃ c ∈ nonEmpty (cs d) (chs d),
      (translation (2 ^ (d - e) * t.1, 2 ^ (d - e) * t.2.1, 2 ^ (d - e) * t.2.2)).Moves c c' := by
    intro d hd hdd c' hc'
    obtain ⟨i, p', h1, h2, h3⟩ := ((H' d hdd).2.2.1 (by omega) c').1 hc'
    rw [hp, List.getElem?_map, Option.map_eq_some_iff] at h1
    obtain ⟨p, h1, rfl⟩ := h1
    have hlt : c'.b < o.batchSize := h.cloud.lt c'.b (List.mem_of_getElem? h2)
    obtain ⟨c, e1, -, e3⟩ := cube_exists o.batchSize d c'.b hlt _ (h.inCube _ (List.mem_of_getElem? h1))
    exact ⟨c, ((H d hdd).2.2.1 (by omega) c).2 ⟨i, _, h1, by rw [e1]; exact h2, e3⟩, cube_shift hd e1.symm e3 h3⟩
  have nd₁ : ∀ d ≤ o.depth, ∀ nempty, (queried nempty (cs d) (chs d)).Nodup := fun d hd nempty =>
    nodes_nodup o₁ o.depth w₁ d hd nempty 1 _ _ (.one d _ _ (h13 ▸ (H d hd).1) (H d hd).2.1)
  have nd₂ : ∀ d ≤ o.depth, ∀ nempty, (queried nempty (cs' d) (chs' d)).Nodup := fun d hd nempty =>
    nodes_nodup o₂ o.depth w₂ d hd nempty 1 _ _ (.one d _ _ (h23 ▸ (H' d hd).1) (H' d hd).2.1)
  intro d hd hdd cells ch cells' ch' q1 q2 q3 q4
  obtain rfl := cells_unique (by omega) q1 (H d hdd).1
  obtain rfl := cells_unique (by omega) q3 (H' d hdd).1
  rw [(H d hdd).2.1] at q2
  rw [(H' d hdd).2.1] at q4
  cases q2; cases q4
  refine ⟨cellsMoved_of (translation_legal _) (nd₁ d hdd true) (nd₂ d hdd true) (fwd d hd hdd) (bwd d hd hdd), fun hlt => ?_⟩
  obtain ⟨d, rfl⟩ : ∃ g, d = g + 1 := ⟨d - 1, by omega⟩
  have pw : (2 : Int) ^ (d + 1 - e) = 2 * 2 ^ (d - e) := by rw [show d + 1 - e = (d - e) + 1 by omega, pow_succ]; ring
  -- a child of a moved node
  have child : ∀ (c c' q : Cell), c = q.parent → (translation (2 ^ (d - e) * t.1, 2 ^ (d - e) * t.2.1, 2 ^ (d - e) * t.2.2)).Moves c c' →
      ∃ q' : Cell, q'.parent = c' ∧
        (translation (2 ^ (d + 1 - e) * t.1, 2 ^ (d + 1 - e) * t.2.1, 2 ^ (d + 1 - e) * t.2.2)).Moves q q' := by
    rintro c c' q rfl ⟨m1, m2⟩
    simp only [pos, translation, id, Cell.parent, Prod.ext_iff, Prod.fst_add, Prod.snd_add] at m1 m2
    refine ⟨⟨c'.b, 2 * c'.x + q.x % 2, 2 * c'.y + q.y % 2, 2 * c'.z + q.z % 2⟩, ?_, m1, ?_⟩
    · simp only [Cell.parent]
      congr 1 <;> omega
    · simp only [pos, translation, id, Prod.ext_iff, Prod.fst_add, Prod.snd_add, pw]
      obtain ⟨a, b, c⟩ := m2
      push_cast at a b c ⊢
      refine ⟨?_, ?_, ?_⟩
      · rw [a]; have := Int.mul_ediv_add_emod (q.x : Int) 2; linarith
      · rw [b]; have := Int.mul_ediv_add_emod (q.y : Int) 2; linarith
      · rw [c]; have := Int.mul_ediv_add_emod (q.z : Int) 2; linarith
  have child' : ∀ (c c' q' : Cell), c' = q'.parent → (translation (2 ^ (d - e) * t.1, 2 ^ (d - e) * t.2.1, 2 ^ (d - e) * t.2.2)).Moves c c' →
      ∃ q : Cell, q.parent = c ∧
        (translation (2 ^ (d + 1 - e) * t.1, 2 ^ (d + 1 - e) * t.2.1, 2 ^ (d + 1 - e) * t.2.2)).Moves q q' := by
    rintro c c' q rfl ⟨m1, m2⟩
    simp only [pos, translation, id, Cell.parent, Prod.ext_iff, Prod.fst_add, Prod.snd_add] at m1 m2
    refine ⟨⟨c.b, 2 * c.x + q.x % 2, 2 * c.y + q.y % 2, 2 * c.z + q.z % 2⟩, ?_, m1, ?_⟩
    · simp only [Cell.parent]
      congr 1 <;> omega
    · simp only [pos, translation, id, Prod.ext_iff, Prod.fst_add, Prod.snd_add, pw]
      obtain ⟨a, b, c⟩ := m2
      push_cast at a b c ⊢
      refine ⟨?_, ?_, ?_⟩
      · have := Int.mul_ediv_add_emod (q.x : Int) 2; linarith
      · have := Int.mul_ediv_add_emod (q.y : Int) 2; linarith
      · have := Int.mul_ediv_add_emod (q.z : Int) 2; linarith
  refine cellsMoved_of (translation_legal _) (nd₁ _ hdd false) (nd₂ _ hdd false) ?_ ?_
  · intro q hq
    obtain ⟨c', hc', hm⟩ := fwd d (by omega) (by omega) _ (((H d (by omega)).2.2.2.2 (by omega) q).1 hq)
    obtain ⟨q', e1, e2⟩ := child _ c' q rfl hm
    exact ⟨q', ((H' d (by omega)).2.2.2.2 (by omega) q').2 (by rw [e1]; exact hc'), e2⟩
  · intro q' hq'
    obtain ⟨c, hc, hm⟩ := bwd d (by omega) (by omega) _ (((H' d (by omega)).2.2.2.2 (by omega) q').1 hq')
    obtain ⟨q, e1, e2⟩ := child' c _ q' rfl hm
    exact ⟨q, ((H d (by omega)).2.2.2.2 (by omega) q).2 (by rw [e1]; exact hc), e2⟩

/-- Translations need no change of the matrices; for reflections and exchanged axes there are turned matrices. -/
example : Turned (translation (2, 0, -4)) (kernelOffsets (3, 3, 3)) (List.range 27) (List.range 27) ∧
    Turned (reflection 5) (kernelOffsets (3, 1, 1)) [1, 2, 3] [3, 2, 1] ∧
    Turned exchange (kernelOffsets (3, 3, 1)) [1, 2, 3, 4, 5, 6, 7, 8, 9] [1, 4, 7, 2, 5, 8, 3, 6, 9] := by
  unfold Turned
  decide +kernel

/-- A reflected and a translated cell. -/
example : (reflection 3).Moves ⟨0, 1, 2, 3⟩ ⟨0, 6, 2, 3⟩ ∧ (translation (2, 0, -1)).Moves ⟨1, 1, 2, 3⟩ ⟨1, 3, 2, 2⟩ := by
  constructor <;> constructor <;> rfl

end Ocnn
