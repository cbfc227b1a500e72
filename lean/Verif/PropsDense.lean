import Verif.PropsConv
import Verif.PropsVoxel
import Verif.NetMoved
import Verif.PropsAffine

/-! Properties C115 and C116: convolution of the non-empty nodes is convolution of the padded features, and both are the convolution of the voxel grid. -/

namespace Ocnn
open Spec

variable {F V R : Type}

theorem field_rows [Zero V] (cells : List Cell) (x : List V) (f : Nat → Int → Int → Int → V) (hf : IsField cells x f) : x = cells.map fun c => f c.b c.x c.y c.z := by
  obtain ⟨h1, h2, -⟩ := hf
  apply List.ext_getElem
  · rw [List.length_map, h1]
  · intro i h3 h4
    rw [List.getElem_map]
    exact (h2 i _ _ (List.getElem?_eq_getElem (by omega)) (List.getElem?_eq_getElem h3)).symm

theorem field_of_rows [Zero V] (cells : List Cell) (f : Nat → Int → Int → Int → V)
    (h : ∀ (b : Nat) (x y z : Int), (∀ c ∈ cells, ¬ (c.b = b ∧ (c.x : Int) = x ∧ (c.y : Int) = y ∧ (c.z : Int) = z)) → f b x y z = 0) :
    IsField cells (cells.map fun c => f c.b c.x c.y c.z) f := by
  refine ⟨by simp, ?_, h⟩
  intro i c v hc hv
  rw [List.getElem?_map, hc] at hv
  exact Option.some.inj hv

theorem layer_masks (o : Octree F) (h : Nat) (w : o.Valid h) (d : Nat) (hd : d ≤ h) (cells : List Cell) (ch : List Int)
    (hc : CellsOf o.batchSize d o.keys cells) (hch : o.children d = some ch) :
    (o.masks d).length = cells.length ∧ nonEmpty cells ch = maskSel (o.masks d) cells ∧ cells.Nodup ∧ ch = number 0 (o.masks d) ∧ cells.length = o.nnum d := by
  have W := w.wf'
  have h16 := w.depth_le
  have hh := w.h_le
  have e := cells_unique (by omega) hc (W.cellsOf d hd)
  subst e
  rw [W.children d hd] at hch
  cases hch
  refine ⟨W.len d hd, nonEmpty_eq _ _ _ (W.len d hd), ?_, rfl, ?_⟩
  · have := queried_nodup W d hd false
    simpa [queried] using this
  · rw [← W.len d hd]
    exact (mask_of w d hd).2

/-- The padded features are the same field. -/
theorem pad_field [Zero V] (o : Octree F) (h : Nat) (w : o.Valid h) (d : Nat) (hd : d ≤ h) (cells : List Cell) (ch : List Int)
    (hc : CellsOf o.batchSize d o.keys cells) (hch : o.children d = some ch) (x : List V) (f : Nat → Int → Int → Int → V) (hf : IsField (nonEmpty cells ch) x f) :
    ∃ xp, octreePad x o d 0 = .ok xp ∧ IsField cells xp f := by
  obtain ⟨hm, hne, hnd, -, -⟩ := layer_masks o h w d hd cells ch hc hch
  have hx := field_rows _ _ _ hf
  have hz := hf.2.2
  rw [hne] at hx hz
  refine ⟨_, pad_ok w d hd x 0 (by rw [nnumNempty_eq w d hd, hx, List.length_map, maskSel_length _ _ hm]), ?_⟩
  have hzero : ∀ c ∈ cells, c ∉ maskSel (o.masks d) cells → f c.b c.x c.y c.z = 0 := by
    intro c _ hcn
    apply hz
    rintro c' hc' ⟨e1, e2, e3, e4⟩
    have : c' = c := by
      cases c; cases c'
      simp only [Cell.mk.injEq]
      simp only at e1 e2 e3 e4
      exact ⟨e1, by omega, by omega, by omega⟩
    exact hcn (this ▸ hc')
  have e : maskFill (o.masks d) (List.replicate (o.masks d).length 0) x = cells.map fun c => f c.b c.x c.y c.z := by
    rw [hx, maskFill_mem _ _ hnd hm]
    apply List.map_congr_left
    intro c hc
    split
    · rfl
    · next hcn => exact (hzero c hc hcn).symm
  rw [e]
  apply field_of_rows
  intro b x y z hno
  apply hz
  intro c hc
  exact hno c ((maskSel_sublist _ _).mem hc)

theorem depad_rows (o : Octree F) (h : Nat) (w : o.Valid h) (d : Nat) (hd : d ≤ h) (cells : List Cell) (ch : List Int)
    (hc : CellsOf o.batchSize d o.keys cells) (hch : o.children d = some ch) (g : Cell → V) :
    octreeDepad (cells.map g) o d = .ok ((nonEmpty cells ch).map g) := by
  obtain ⟨hm, hne, -, -, hl⟩ := layer_masks o h w d hd cells ch hc hch
  rw [depad_ok w d hd _ (by rw [List.length_map, hl]), hne, maskSel_map]

/-- **C115.** Convolving the features of the non-empty nodes is the same as filling in zeros at the empty nodes, convolving all nodes with the same weights, and taking the rows of the non-empty nodes; for stride 1 ... -/
theorem C115_stride1 [CommSemiring R] {ci co : Nat} (o : Octree F) (h : Nat) (w : o.Valid h) (d : Nat) (hd : d ≤ h)
    (hn : NeighExact o.batchSize d o.keys o.neighs) (k : Nat × Nat × Nat) (hk : k ∈ supportedKernels)
    (ks : List Nat) (mb mb' : Nat) (m m' : ConvModule (Fin co → R) (Fin ci → Fin co → R)) (ha : KernelArg ks k)
    (hi : ConvBase.init true ci co ks 1 true mb = .ok m.base) (hi' : ConvBase.init true ci co ks 1 false mb' = .ok m'.base)
    (hb : m.directMethod = false → (kernelOffsets k).length * ci ≤ mb) (hb' : m'.directMethod = false → (kernelOffsets k).length * ci ≤ mb')
    (hw : m.weights.length = (kernelOffsets k).length) (hw' : m'.weights = m.weights) (hbias : m'.bias = m.bias)
    (x : List (Fin ci → R)) (hx : x.length = o.nnumNempty d) :
    ∃ xp Y Yp, octreePad x o d 0 = .ok xp ∧ m.forward (denseKernel R ci co) x o d = .ok Y ∧ m'.forward (denseKernel R ci co) xp o d = .ok Yp ∧
      octreeDepad Yp o d = .ok Y := by
  have W := w.wf'
  have hc := W.cellsOf d hd
  have hch := W.children d hd
  generalize layerCells o.batchSize o.masks d = cells at hc
  generalize number 0 (o.masks d) = ch at hch
  have hlen := queried_length w d hd true cells ch hc hch
  obtain ⟨f, hf⟩ := exists_field (queried true cells ch) x (by rw [hlen, hx]; rfl) (nodes_nodup o h w d hd true 1 _ _ (.one d cells ch hc hch))
  obtain ⟨xp, hp, hpf⟩ := pad_field o h w d hd cells ch hc hch x f (by simpa [queried] using hf)
  refine ⟨xp, _, _, hp, C34_stride1 o h w d hd hn k hk true cells hc ch hch ks mb m ha hi hb hw x f hf,
    C34_stride1 o h w d hd hn k hk false cells hc ch hch ks mb' m' ha hi' hb' (by rw [hw', hw]) xp f (by simpa [queried] using hpf), ?_⟩
  rw [hw', hbias]
  exact depad_rows o h w d hd cells ch hc hch _

/-- **C115**, ... and for stride 2, where the output belongs to the layer above. -/
theorem C115_stride2 [CommSemiring R] {ci co : Nat} (o : Octree F) (h : Nat) (w : o.Valid h) (d : Nat) (hd : d + 1 ≤ h)
    (hn : NeighExact o.batchSize (d + 1) o.keys o.neighs) (k : Nat × Nat × Nat) (hk : k ∈ supportedKernels)
    (ks : List Nat) (mb mb' : Nat) (m m' : ConvModule (Fin co → R) (Fin ci → Fin co → R)) (ha : KernelArg ks k)
    (hi : ConvBase.init true ci co ks 2 true mb = .ok m.base) (hi' : ConvBase.init true ci co ks 2 false mb' = .ok m'.base)
    (hb : m.directMethod = false → (kernelOffsets k).length * ci ≤ mb) (hb' : m'.directMethod = false → (kernelOffsets k).length * ci ≤ mb')
    (hw : m.weights.length = (kernelOffsets k).length) (hw' : m'.weights = m.weights) (hbias : m'.bias = m.bias)
    (x : List (Fin ci → R)) (hx : x.length = o.nnumNempty (d + 1)) :
    ∃ xp Y Yp, octreePad x o (d + 1) 0 = .ok xp ∧ m.forward (denseKernel R ci co) x o (d + 1) = .ok Y ∧ m'.forward (denseKernel R ci co) xp o (d + 1) = .ok Yp ∧
      octreeDepad Yp o d = .ok Y := by
  have W := w.wf'
  have hc := W.cellsOf (d + 1) hd
  have hch := W.children (d + 1) hd
  generalize layerCells o.batchSize o.masks (d + 1) = cells at hc
  generalize number 0 (o.masks (d + 1)) = ch at hch
  have hp := W.cellsOf d (by omega)
  have hpc := W.children d (by omega)
  generalize layerCells o.batchSize o.masks d = pcells at hp
  generalize number 0 (o.masks d) = pch at hpc
  have hlen := queried_length w (d + 1) hd true cells ch hc hch
  obtain ⟨f, hf⟩ := exists_field (queried true cells ch) x (by rw [hlen, hx]; rfl) (nodes_nodup o h w (d + 1) hd true 1 _ _ (.one (d + 1) cells ch hc hch))
  obtain ⟨xp, hpad, hpf⟩ := pad_field o h w (d + 1) hd cells ch hc hch x f (by simpa [queried] using hf)
  have e1 := C34_stride2 o h w d hd hn k hk true cells hc ch hch pcells hp pch hpc ks mb m ha hi hb hw x f hf
  have e2 := C34_stride2 o h w d hd hn k hk false cells hc ch hch pcells hp pch hpc ks mb' m' ha hi' hb' (by rw [hw', hw]) xp f (by simpa [queried] using hpf)
  refine ⟨xp, _, _, hpad, e1, e2, ?_⟩
  simp only [if_true, Bool.false_eq_true, if_false, hw', hbias]
  obtain ⟨hm, hne, -, hnum, hl⟩ := layer_masks o h w d (by omega) pcells pch hp hpc
  rw [hnum, ← maskFill_map _ 0 pcells (fun p => convAt f (kernelOffsets k) m.weights (firstChild p) + m.bias.getD 0) 0 hm,
    depad_ok w d (by omega) _ (by rw [maskFill_length _ _ _ (by simp), List.length_replicate, hm, hl]),
    maskSel_maskFill _ _ _ (by simp) (by rw [List.length_map, maskSel_length _ _ hm]), nonEmpty_eq _ _ _ hm]

/-! ### C116 -/

namespace Spec

/-- The entry of a tensor of shape `(B, n, n, n, C)` at a position of the grid, with zeros outside of it. -/
def voxelAt [Zero V] (n : Nat) (vox : List V) (b : Nat) (x y z : Int) : V :=
  if 0 ≤ x ∧ x < n ∧ 0 ≤ y ∧ y < n ∧ 0 ≤ z ∧ z < n then vox.getD (((b * n + x.toNat) * n + y.toNat) * n + z.toNat) 0 else 0

/-- The value at a position of the convolution of a grid, with zero padding. -/
def conv3dAt [CommSemiring R] {ci co : Nat} (n : Nat) (vox : List (Fin ci → R)) (offs : List (Int × Int × Int)) (ws : List (Fin ci → Fin co → R)) (b : Nat) (x y z : Int) : Fin co → R :=
  (List.zipWith (fun g w => vecMat (voxelAt n vox b (x + g.1) (y + g.2.1) (z + g.2.2)) w) offs ws).sum

end Spec

/-- Voxels of a field. -/
theorem voxels_field [Zero V] (o : Octree F) (h : Nat) (w : o.Valid h) (d : Nat) (hd : d ≤ h) (nempty : Bool) (cells : List Cell)
    (ch : List Int) (hc : CellsOf o.batchSize d o.keys cells) (hch : o.children d = some ch) (x : List V)
    (f : Nat → Int → Int → Int → V) (hf : IsField (queried nempty cells ch) x f) :
    ∃ vox, octree2voxel x o d nempty = .ok vox ∧ vox.length = o.batchSize * 2 ^ d * 2 ^ d * 2 ^ d ∧ ∀ b < o.batchSize, ∀ x y z : Int, voxelAt (2 ^ d) vox b x y z = f b x y z := by
  obtain ⟨vox, h1, h2, h3⟩ := C48_voxel o h w d hd nempty cells ch hc hch x f hf
  refine ⟨vox, h1, h2, ?_⟩
  intro b hb x y z
  obtain ⟨hr, -⟩ := C27_xyzb o h w d hd cells hc ch hch nempty
  unfold voxelAt
  split
  · next hin =>
    obtain ⟨a1, a2, a3, a4, a5, a6⟩ := hin
    have := h3 b hb x.toNat (by omega) y.toNat (by omega) z.toNat (by omega)
    rw [List.getD_eq_getElem?_getD, this, Option.getD_some, Int.toNat_of_nonneg a1, Int.toNat_of_nonneg a3, Int.toNat_of_nonneg a5]
  · next hout =>
    symm
    apply hf.2.2
    rintro c hcm ⟨e1, e2, e3, e4⟩
    obtain ⟨r1, r2, r3, r4⟩ := hr c hcm
    apply hout
    have : ((2 ^ d : Nat) : Int) = 2 ^ d := by push_cast; rfl
    refine ⟨by omega, by omega, by omega, by omega, by omega, by omega⟩

/-- **C116.** Turning the result of a convolution with stride 1 into voxels gives the convolution, with zero padding, of the voxels of its input, at the nodes, and zero elsewhere; in particular the two commute
where all nodes exist. -/
theorem C116_stride1 [CommSemiring R] {ci co : Nat} (o : Octree F) (h : Nat) (w : o.Valid h) (d : Nat) (hd : d ≤ h)
    (hn : NeighExact o.batchSize d o.keys o.neighs) (k : Nat × Nat × Nat) (hk : k ∈ supportedKernels) (nempty : Bool)
    (cells : List Cell) (hc : CellsOf o.batchSize d o.keys cells) (ch : List Int) (hch : o.children d = some ch)
    (ks : List Nat) (mb : Nat) (m : ConvModule (Fin co → R) (Fin ci → Fin co → R)) (ha : KernelArg ks k)
    (hi : ConvBase.init true ci co ks 1 nempty mb = .ok m.base)
    (hb : m.directMethod = false → (kernelOffsets k).length * ci ≤ mb)
    (hw : m.weights.length = (kernelOffsets k).length) (x : List (Fin ci → R)) (hx : x.length = (queried nempty cells ch).length) :
    ∃ vox Y vox', octree2voxel x o d nempty = .ok vox ∧ m.forward (denseKernel R ci co) x o d = .ok Y ∧ octree2voxel Y o d nempty = .ok vox' ∧
      vox'.length = o.batchSize * 2 ^ d * 2 ^ d * 2 ^ d ∧
      ∀ b < o.batchSize, ∀ i < 2 ^ d, ∀ j < 2 ^ d, ∀ l < 2 ^ d, vox'[((b * 2 ^ d + i) * 2 ^ d + j) * 2 ^ d + l]? =
        some (if (⟨b, i, j, l⟩ : Cell) ∈ queried nempty cells ch then conv3dAt (2 ^ d) vox (kernelOffsets k) m.weights b i j l + m.bias.getD 0 else 0) := by
  have hnd := nodes_nodup o h w d hd nempty 1 _ _ (.one d cells ch hc hch)
  obtain ⟨f, hf⟩ := exists_field (queried nempty cells ch) x hx.symm hnd
  obtain ⟨vox, v1, -, v2⟩ := voxels_field o h w d hd nempty cells ch hc hch x f hf
  have hY := C34_stride1 o h w d hd hn k hk nempty cells hc ch hch ks mb m ha hi hb hw x f hf
  obtain ⟨f', hf'⟩ := exists_field (queried nempty cells ch) ((queried nempty cells ch).map fun c => convAt f (kernelOffsets k) m.weights c + m.bias.getD 0) (by simp) hnd
  obtain ⟨vox', w1, w2, w3⟩ := C48_voxel o h w d hd nempty cells ch hc hch _ f' hf'
  refine ⟨vox, _, vox', v1, hY, w1, w2, ?_⟩
  intro b hb i hi j hj l hl
  rw [w3 b hb i hi j hj l hl]
  congr 1
  split
  · next hm =>
    obtain ⟨p, hp⟩ := List.mem_iff_getElem?.mp hm
    rw [hf'.2.1 p ⟨b, i, j, l⟩ _ hp (by rw [List.getElem?_map, hp]; rfl)]
    congr 1
    unfold convAt conv3dAt around
    simp only [v2 b hb]
  · next hm =>
    apply hf'.2.2
    rintro c hcm ⟨e1, e2, e3, e4⟩
    apply hm
    have : c = ⟨b, i, j, l⟩ := by
      cases c
      simp only [Cell.mk.injEq]
      simp only at e1 e2 e3 e4
      exact ⟨e1, by omega, by omega, by omega⟩
    exact this ▸ hcm

/-- **C116**, stride 2: position `(i, j, l)` of the coarser grid gets the value at `(2 i, 2 j, 2 l)` of the convolution, if the node there is not empty. -/
theorem C116_stride2 [CommSemiring R] {ci co : Nat} (o : Octree F) (h : Nat) (w : o.Valid h) (d : Nat) (hd : d + 1 ≤ h)
    (hn : NeighExact o.batchSize (d + 1) o.keys o.neighs) (k : Nat × Nat × Nat) (hk : k ∈ supportedKernels) (nempty : Bool)
    (cells : List Cell) (hc : CellsOf o.batchSize (d + 1) o.keys cells) (ch : List Int) (hch : o.children (d + 1) = some ch)
    (pcells : List Cell) (hp : CellsOf o.batchSize d o.keys pcells) (pch : List Int) (hpc : o.children d = some pch)
    (ks : List Nat) (mb : Nat) (m : ConvModule (Fin co → R) (Fin ci → Fin co → R)) (ha : KernelArg ks k)
    (hi : ConvBase.init true ci co ks 2 nempty mb = .ok m.base)
    (hb : m.directMethod = false → (kernelOffsets k).length * ci ≤ mb)
    (hw : m.weights.length = (kernelOffsets k).length) (x : List (Fin ci → R)) (hx : x.length = (queried nempty cells ch).length) :
    ∃ vox Y vox', octree2voxel x o (d + 1) nempty = .ok vox ∧ m.forward (denseKernel R ci co) x o (d + 1) = .ok Y ∧ octree2voxel Y o d nempty = .ok vox' ∧
      vox'.length = o.batchSize * 2 ^ d * 2 ^ d * 2 ^ d ∧
      ∀ b < o.batchSize, ∀ i < 2 ^ d, ∀ j < 2 ^ d, ∀ l < 2 ^ d, vox'[((b * 2 ^ d + i) * 2 ^ d + j) * 2 ^ d + l]? =
        some (if (⟨b, i, j, l⟩ : Cell) ∈ nonEmpty pcells pch then conv3dAt (2 ^ (d + 1)) vox (kernelOffsets k) m.weights b (2 * i) (2 * j) (2 * l) + m.bias.getD 0 else 0) := by
  have hnd := nodes_nodup o h w (d + 1) hd nempty 1 _ _ (.one (d + 1) cells ch hc hch)
  have hnd' := nodes_nodup o h w d (by omega) nempty 1 _ _ (.one d pcells pch hp hpc)
  obtain ⟨hm, hne, hpn, hnum, hl⟩ := layer_masks o h w d (by omega) pcells pch hp hpc
  obtain ⟨f, hf⟩ := exists_field (queried nempty cells ch) x hx.symm hnd
  obtain ⟨vox, v1, -, v2⟩ := voxels_field o h w (d + 1) hd nempty cells ch hc hch x f hf
  have hY := C34_stride2 o h w d hd hn k hk nempty cells hc ch hch pcells hp pch hpc ks mb m ha hi hb hw x f hf
  have hYe : (if nempty then
          (nonEmpty pcells pch).map fun p => convAt f (kernelOffsets k) m.weights (firstChild p) + m.bias.getD 0
        else (pcells.zip pch).map fun p =>
          if 0 ≤ p.2 then convAt f (kernelOffsets k) m.weights (firstChild p.1) + m.bias.getD 0 else 0) =
      (queried nempty pcells pch).map fun p => if p ∈ nonEmpty pcells pch then convAt f (kernelOffsets k) m.weights (firstChild p) + m.bias.getD 0 else 0 := by
    cases nempty
    · simp only [Bool.false_eq_true, if_false, queried]
      rw [hne, ← maskFill_mem _ _ hpn hm, hnum, maskFill_map _ 0 _ _ _ hm]
    · simp only [if_true, queried]
      apply List.map_congr_left
      intro p hp
      rw [if_pos hp]
  rw [hYe] at hY
  obtain ⟨f', hf'⟩ := exists_field (queried nempty pcells pch) ((queried nempty pcells pch).map fun p => if p ∈ nonEmpty pcells pch then convAt f (kernelOffsets k) m.weights (firstChild p) + m.bias.getD 0 else 0)
    (by simp) hnd'
  obtain ⟨vox', w1, w2, w3⟩ := C48_voxel o h w d (by omega) nempty pcells pch hp hpc _ f' hf'
  refine ⟨vox, _, vox', v1, hY, w1, w2, ?_⟩
  intro b hb i hi j hj l hl
  rw [w3 b hb i hi j hj l hl]
  congr 1
  by_cases hq : (⟨b, i, j, l⟩ : Cell) ∈ queried nempty pcells pch
  · obtain ⟨p, hp⟩ := List.mem_iff_getElem?.mp hq
    rw [hf'.2.1 p ⟨b, i, j, l⟩ _ hp (by rw [List.getElem?_map, hp]; rfl)]
    by_cases hq2 : (⟨b, i, j, l⟩ : Cell) ∈ nonEmpty pcells pch
    · simp only [if_pos hq2]
      congr 1
      unfold convAt conv3dAt around firstChild
      simp only [v2 b hb]
      push_cast
      rfl
    · simp only [if_neg hq2]
  · have hq' : (⟨b, i, j, l⟩ : Cell) ∉ nonEmpty pcells pch := by
      intro hne'
      apply hq
      cases nempty
      · simp only [queried, Bool.false_eq_true, if_false]
        rw [hne] at hne'
        exact (maskSel_sublist _ _).mem hne'
      · simpa only [queried, if_true] using hne'
    rw [if_neg hq']
    apply hf'.2.2
    rintro c hcm ⟨e1, e2, e3, e4⟩
    apply hq
    have : c = ⟨b, i, j, l⟩ := by
      cases c
      simp only [Cell.mk.injEq]
      simp only at e1 e2 e3 e4
      exact ⟨e1, by omega, by omega, by omega⟩
    exact this ▸ hcm

/-- **C116, full layers.** In the layers up to `full_depth` the convolution of all nodes is the convolution of the voxel grid. -/
theorem C116_full [CommSemiring R] {ci co : Nat} (o : Octree F) (h : Nat) (w : o.Valid h) (d : Nat) (hd : d ≤ o.fullDepth)
    (hn : NeighExact o.batchSize d o.keys o.neighs) (k : Nat × Nat × Nat) (hk : k ∈ supportedKernels)
    (ks : List Nat) (mb : Nat) (m : ConvModule (Fin co → R) (Fin ci → Fin co → R)) (ha : KernelArg ks k)
    (hi : ConvBase.init true ci co ks 1 false mb = .ok m.base)
    (hb : m.directMethod = false → (kernelOffsets k).length * ci ≤ mb)
    (hw : m.weights.length = (kernelOffsets k).length) (x : List (Fin ci → R)) (hx : x.length = o.nnum d) :
    ∃ vox Y vox', octree2voxel x o d false = .ok vox ∧ m.forward (denseKernel R ci co) x o d = .ok Y ∧ octree2voxel Y o d false = .ok vox' ∧
      vox'.length = o.batchSize * 2 ^ d * 2 ^ d * 2 ^ d ∧
      ∀ b < o.batchSize, ∀ i < 2 ^ d, ∀ j < 2 ^ d, ∀ l < 2 ^ d, vox'[((b * 2 ^ d + i) * 2 ^ d + j) * 2 ^ d + l]? =
        some (conv3dAt (2 ^ d) vox (kernelOffsets k) m.weights b i j l + m.bias.getD 0) := by
  have h1 := w.full_le
  have h2 := w.h_le
  have hdh : d ≤ h := by omega
  have hc := w.wf'.cellsOf d hdh
  have hch := w.wf'.children d hdh
  generalize layerCells o.batchSize o.masks d = cells at hc
  generalize number 0 (o.masks d) = ch at hch
  obtain ⟨vox, Y, vox', e1, e2, e3, e4, e5⟩ := C116_stride1 o h w d hdh hn k hk false cells hc ch hch ks mb m ha hi hb hw x
    (by rw [hx, queried_length w d hdh false cells ch hc hch]; rfl)
  refine ⟨vox, Y, vox', e1, e2, e3, e4, ?_⟩
  intro b hb i hi j hj l hl
  rw [e5 b hb i hi j hj l hl, if_pos]
  simp only [queried, Bool.false_eq_true, if_false]
  rw [full_cells o h w d hd cells hc]
  exact ⟨hb, hi, hj, hl⟩

/-- The hypotheses of C115 and C116 are met by the octree and the layers of the examples. -/
example : ∃ (o : Octree Unit) (x : List (Fin 3 → ℚ)), o.Valid 2 ∧ NeighExact o.batchSize 2 o.keys o.neighs ∧ x.length = o.nnumNempty 2 ∧ o.nnumNempty 2 = 2 ∧ o.nnum 2 = 16 ∧
    ConvBase.init true 3 2 [3] 1 true 100 = .ok (exampleModule 1 true).base ∧ ConvBase.init true 3 2 [3] 1 false 100 = .ok (exampleModule 1 false).base ∧
    (exampleModule 1 false).weights = (exampleModule 1 true).weights ∧ (exampleModule 1 true).weights.length = (kernelOffsets (3, 3, 3)).length := by
  obtain ⟨o, h1, -, h5, -, h6, -, h7⟩ := example_valid'
  refine ⟨o, List.replicate 2 fun i => (i.val : ℚ), h1, h5 2 (le_refl _), by rw [h7]; rfl, h7, h6, ?_, ?_, rfl, by decide⟩
  · rw [init_ok true 3 2 [3] 1 true 100 (3, 3, 3) (by decide) (Or.inr (Or.inr ⟨rfl, rfl, rfl⟩))]
    simp [exampleModule]
    decide
  · rw [init_ok true 3 2 [3] 1 false 100 (3, 3, 3) (by decide) (Or.inr (Or.inr ⟨rfl, rfl, rfl⟩))]
    simp [exampleModule]
    decide

end Ocnn
