import Verif.Nn

/-! Model of ocnn/nn/octree_interp.py.  Query points are rows `(x, y, z, batch)` of rational numbers. -/

namespace Ocnn
variable {F V : Type}

/-- A row of the query tensor of shape `(N, 4)`. -/
abbrev Pt4 := V3 ℚ × ℚ

/-- `search_xyzb`, octree.py 355-369, on a float tensor: `xyz2key` converts with `.long()`
(shuffled_key.py 77 and 87). -/
def searchPts (o : Octree F) (pts : List Pt4) (d : Nat) (nempty : Bool) : M (List Int) :=
  o.searchXyzb (pts.map fun p => (long p.1.x, long p.1.y, long p.1.z, long p.2)) d nempty

/-- `octree.nnum_nempty[depth] if nempty else octree.nnum[depth]` -/
def nnumOf (o : Octree F) (d : Nat) (nempty : Bool) : M Nat := do
  o.chk d
  pure (if nempty then o.nnumNempty d else o.nnum d)

/-- `torch.logical_and(v >= 0, v < 2**depth).all(1)` for one row. -/
def inBound (d : Nat) (v : V3 ℚ) : Bool :=
  decide (0 ≤ v.x ∧ v.x < 2 ^ d ∧ 0 ≤ v.y ∧ v.y < 2 ^ d ∧ 0 ≤ v.z ∧ v.z < 2 ^ d)

/-- `valid = idx > -1`, and with the bounds if `bound_check` (octree_interp.py 39-42, 74-77). -/
def validMask (boundCheck : Bool) (d : Nat) (idx : List Int) (xyz : List (V3 ℚ)) : List Bool :=
  if boundCheck then List.zipWith (fun i v => decide (i > -1) && inBound d v) idx xyz
  else idx.map fun i => decide (i > -1)

/-- `octree_nearest_pts`, octree_interp.py 16-47 -/
def octreeNearestPts [Zero V] (data : List V) (o : Octree F) (d : Nat) (pts : List Pt4) (nempty boundCheck : Bool) :
    M (List V) := do
  let nnum ← nnumOf o d nempty
  pyAssert (data.length = nnum)
  let idx ← searchPts o pts d nempty
  let valid := validMask boundCheck d idx (pts.map Prod.fst)
  let out := List.replicate pts.length 0
  let sel ← boolIndex valid idx
  let vals ← gatherIdx data sel
  boolSet valid out vals

/-- `grid`, octree_interp.py 62-64 -/
def grid : List (V3 ℚ) :=
  [⟨0, 0, 0⟩, ⟨0, 0, 1⟩, ⟨0, 1, 0⟩, ⟨0, 1, 1⟩, ⟨1, 0, 0⟩, ⟨1, 0, 1⟩, ⟨1, 1, 0⟩, ⟨1, 1, 1⟩]

/-- `xyzi`, the integer part of `pts[:, :3] - 0.5` (octree_interp.py 67-68). -/
def linInt (p : V3 ℚ) : V3 ℚ := p.map fun v => ((⌊v - 1 / 2⌋ : ℤ) : ℚ)

/-- `frac`, the fraction part (octree_interp.py 69). -/
def linFrac (p : V3 ℚ) : V3 ℚ := p.map fun v => (v - 1 / 2) - ((⌊v - 1 / 2⌋ : ℤ) : ℚ)

/-- `xyzn`, octree_interp.py 71: eight corners per point. -/
def linCorners (p : V3 ℚ) : List (V3 ℚ) :=
  grid.map fun g => ⟨(linInt p).x + g.x, (linInt p).y + g.y, (linInt p).z + g.z⟩

/-- `weight`, octree_interp.py 87-88: eight weights per point. -/
def linWeights (p : V3 ℚ) : List ℚ :=
  grid.map fun g => |((1 - g.x) - (linFrac p).x) * ((1 - g.y) - (linFrac p).y) * ((1 - g.z) - (linFrac p).z)|

/-- `torch.sparse.mm(mat, data)` for `mat = sparse_coo_tensor(indices, weight, [npt, h])` with entries
`(row, column, weight)`, octree_interp.py 92-97: repeated entries are added; an index out of range raises. -/
def sparseMM {C : Nat} (npt : Nat) (entries : List ((Nat × Int) × ℚ)) (data : List (Fin C → ℚ)) : M (List (Fin C → ℚ)) := do
  pyAssert (∀ e ∈ entries, e.1.1 < npt ∧ 0 ≤ e.1.2 ∧ e.1.2 < data.length)
  pure ((List.range npt).map fun i => fun c =>
    ((entries.filter fun e => decide (e.1.1 = i)).map fun e => e.2 * ((data[e.1.2.toNat]?).getD 0) c).sum)

/-- `octree_linear_pts`, octree_interp.py 50-99 -/
def octreeLinearPts {C : Nat} (data : List (Fin C → ℚ)) (o : Octree F) (d : Nat) (pts : List Pt4) (nempty boundCheck : Bool) :
    M (List (Fin C → ℚ)) := do
  let nnum ← nnumOf o d nempty
  pyAssert (data.length = nnum)
  let xyzn := pts.flatMap fun p => linCorners p.1
  let batch := pts.flatMap fun p => List.replicate 8 p.2
  let idx ← searchPts o (xyzn.zip batch) d nempty
  let valid := validMask boundCheck d idx xyzn
  let idx ← boolIndex valid idx
  let npt := pts.length
  let ids := (List.range npt).flatMap fun i => List.replicate 8 i
  let ids ← boolIndex valid ids
  let weight := pts.flatMap fun p => linWeights p.1
  let weight ← boolIndex valid weight
  let entries := (ids.zip idx).zip weight
  let output ← sparseMM npt entries data
  let norm ← sparseMM npt entries (List.replicate data.length (fun _ : Fin 1 => 1))
  pure (List.zipWith (fun v n => fun c => v c / (n 0 + 1 / 10 ^ 12)) output norm)

/-- The two methods (`self.func`, octree_interp.py 115 and 172): everything but `'linear'` is nearest. -/
def interpFunc {C : Nat} (method : String) (data : List (Fin C → ℚ)) (o : Octree F) (d : Nat) (pts : List Pt4)
    (nempty boundCheck : Bool) : M (List (Fin C → ℚ)) :=
  if method = "linear" then octreeLinearPts data o d pts nempty boundCheck
  else octreeNearestPts data o d pts nempty boundCheck

/-- `OctreeInterp.forward`, octree_interp.py 117-126.  The assignment `pts[:, :3] = ...` overwrites the caller's
tensor, so the model returns the result together with the new contents of that tensor.  `2 ** (depth - 1)` is
the float 0.5 for depth 0. -/
def octreeInterp {C : Nat} (method : String) (nempty boundCheck rescale : Bool) (data : List (Fin C → ℚ)) (o : Octree F) (d : Nat)
    (pts : List Pt4) : M (List (Fin C → ℚ)) × List Pt4 :=
  let scale : ℚ := 2 ^ ((d : ℤ) - 1)
  let pts := if rescale then pts.map fun p => (p.1.map fun v => (v + 1) * scale, p.2) else pts
  (interpFunc method data o d pts nempty boundCheck, pts)

/-- `octree_nearest_upsample`, octree_interp.py 136-158 -/
def octreeNearestUpsample (data : List V) (o : Octree F) (d : Nat) (nempty : Bool) : M (List V) := do
  let nnum ← nnumOf o d nempty
  pyAssert (data.length = nnum)
  let out ← (if nempty = false then octreeDepad data o d else pure data : M (List V))
  let out := out.flatMap fun v => List.replicate 8 v
  if nempty then octreeDepad out o (d + 1) else pure out

/-- The centres of the nodes of `target_depth` in the units of `depth` (octree_interp.py 187-189). -/
def nodeCentres (d t : Nat) (xyzb : List (Int × Int × Int × Int)) : List Pt4 :=
  xyzb.map fun q => (⟨((q.1 : ℚ) + 1 / 2) * 2 ^ ((d : ℤ) - t), ((q.2.1 : ℚ) + 1 / 2) * 2 ^ ((d : ℤ) - t),
    ((q.2.2.1 : ℚ) + 1 / 2) * 2 ^ ((d : ℤ) - t)⟩, (q.2.2.2 : ℚ))

/-- `OctreeUpsample.forward`, octree_interp.py 174-190 -/
def octreeUpsample {C : Nat} (method : String) (nempty : Bool) (data : List (Fin C → ℚ)) (o : Octree F) (d : Nat)
    (target : Option Nat) : M (List (Fin C → ℚ)) := do
  let t := target.getD (d + 1)
  if t = d then pure data
  else do
    pyAssert (t ≥ d)
    if t = d + 1 ∧ method = "nearest" then octreeNearestUpsample data o d nempty
    else do
      let xyzb ← o.xyzb t nempty
      interpFunc method data o d (nodeCentres d t xyzb) nempty false

end Ocnn
