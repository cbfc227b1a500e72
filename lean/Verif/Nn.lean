import Verif.Octree

/-! Model of the tensor operations of ocnn/nn that are not convolutions: padding, gathering, voxels,
alignment, pooling, normalisation, dropping.  A tensor of shape `(N, C)` is a list of `N` rows; a row is an
element of a type `V` where the operation treats rows as a whole, and a function `Fin C → K` where it works
per channel.  The number of channels is thus fixed by the type: channel mismatches are not modelled. -/

namespace Ocnn
variable {F V : Type}

/-! ### octree_pad.py -/

/-- `octree_pad`, octree_pad.py 13-29; `val` is the row filled with the padding value. -/
def octreePad (data : List V) (o : Octree F) (d : Nat) (val : V) : M (List V) := do
  let mask ← o.nemptyMask d
  boolSet mask (List.replicate (o.nnum d) val) data

/-- `octree_depad`, octree_pad.py 32-39 -/
def octreeDepad (data : List V) (o : Octree F) (d : Nat) : M (List V) := do
  let mask ← o.nemptyMask d
  boolIndex mask data

/-! ### octree2col.py -/

/-- `out = zeros; out[neigh >= 0] = data[neigh[neigh >= 0]]` (octree2col.py 36-38, octree_conv.py 133-136),
written entry by entry: masked assignment of a masked gather. -/
def gatherCols [Zero V] (neigh : List (List Int)) (data : List V) : M (List (List V)) :=
  neigh.mapM fun row => row.mapM fun n => if n ≥ 0 then getIdx data n else pure 0

/-- `octree2col`, octree2col.py 15-39 -/
def octree2col [Zero V] (data : List V) (o : Octree F) (d : Nat) (kernel : String) (stride : Nat)
    (nempty : Bool) : M (List (List V)) := do
  let neigh ← o.getNeigh d kernel stride nempty
  gatherCols neigh data

/-- `data[valid]` for a column tensor and `valid = neigh >= 0`: IndexError if the shapes differ. -/
def validRows (neigh : List (List Int)) (data : List (List V)) : M (List V) :=
  if neigh.map List.length = data.map List.length then
    .ok (maskSel (neigh.flatten.map fun n => decide (n ≥ 0)) data.flatten)
  else .error .index

/-- `neigh[valid]` -/
def validIdx (neigh : List (List Int)) : List Int := neigh.flatten.filter fun n => decide (n ≥ 0)

/-- `col2octree`, octree2col.py 42-53 -/
def col2octree [Add V] [Zero V] (data : List (List V)) (o : Octree F) (d : Nat) (kernel : String) (stride : Nat)
    (nempty : Bool) : M (List V) := do
  let neigh ← o.getNeigh d kernel stride nempty
  o.chk d
  let dimSize := if nempty then o.nnumNempty d else o.nnum d
  let src ← validRows neigh data
  scatterAdd src (validIdx neigh) (some dimSize)

/-! ### octree2vox.py -/

/-- `octree2voxel`, octree2vox.py 13-31.  The tensor of shape `(B, n, n, n, C)` is the list of its rows in
row-major order. -/
def octree2voxel [Zero V] (data : List V) (o : Octree F) (d : Nat) (nempty : Bool) : M (List V) := do
  let xyzb ← o.xyzb d nempty
  let num := 1 <<< d
  let idx ← xyzb.mapM fun (x, y, z, b) => do
    let b ← normIdx o.batchSize b
    let x ← normIdx num x
    let y ← normIdx num y
    let z ← normIdx num z
    pure (((((b * num + x) * num + y) * num + z : Nat)) : Int)
  let data := match data with
    | [v] => List.replicate idx.length v
    | _ => data
  idxSet (List.replicate (o.batchSize * num * num * num) 0) idx data

/-! ### octree_align.py -/

/-- `search_value`, octree_align.py 13-35.  `torch.searchsorted` is `bucketize`. -/
def searchValue [Zero V] (value : List V) (key : List Nat) (query : List Nat) : M (List V) := do
  let last ← getIdx key (-1)
  query.mapM fun q => do
    let idx : Int := if q > last then -1 else bucketize key q
    let k ← getIdx key idx
    if k = q then getIdx value idx else pure 0

/-- `octree_align`, octree_align.py 38-46 -/
def octreeAlign {G : Type} [Zero V] (value : List V) (o : Octree F) (oq : Octree G) (d : Nat) (nempty : Bool) :
    M (List V) := do
  let key ← o.key d nempty
  let query ← oq.key d nempty
  pyAssert (key.length = value.length)
  searchValue value key query

/-! ### octree_drop.py -/

/-- `data * mask` for a mask with one column: the numbers of rows must agree, or one of them is 1. -/
def mulRows {K : Type} [Mul K] {C : Nat} (data : List (Fin C → K)) (mask : List K) : M (List (Fin C → K)) :=
  if data.length = mask.length then .ok (List.zipWith (fun v m => fun c => v c * m) data mask)
  else match data, mask with
    | _, [m] => .ok (data.map fun v => fun c => v c * m)
    | [v], _ => .ok (mask.map fun m => fun c => v c * m)
    | _, _ => .error .shape

/-- `OctreeDropPath.forward`, octree_drop.py 33-51; `rnd` are the values drawn by `torch.rand`, one per
sample. -/
def dropPath {C : Nat} (dropProb : ℚ) (training scaleByKeep nempty : Bool) (rnd : List ℚ)
    (data : List (Fin C → ℚ)) (o : Octree F) (d : Nat) (batchId : Option (List Nat)) : M (List (Fin C → ℚ)) := do
  if dropProb ≤ 0 ∨ training = false then pure data
  else
    let keepProb := 1 - dropProb
    let rnd := rnd.map fun r => ((⌊r + keepProb⌋ : ℤ) : ℚ)
    let rnd := if keepProb > 0 ∧ scaleByKeep = true then rnd.map (· / keepProb) else rnd
    let batchId ← (match batchId with
      | some b => pure b
      | none => o.batchId d nempty : M (List Nat))
    let mask ← gatherIdx rnd (batchId.map Int.ofNat)
    mulRows data mask

/-! ### octree_norm.py -/

/-- The constructor check of `OctreeGroupNorm`, octree_norm.py 29-30: the number of channels per group. -/
def groupNormInit (inChannels group : Nat) : M Nat := do
  if group = 0 then .error .zeroDiv
  pyAssert (inChannels % group = 0)
  pure (inChannels / group)

/-- `_adjust_for_group`, octree_norm.py 62-71: every channel gets the sum over its group of `cpg` channels. -/
def adjustForGroup {K : Type} [AddCommMonoid K] {C : Nat} (cpg : Nat) (t : Fin C → K) : Fin C → K :=
  if cpg > 1 then fun c => (((List.finRange C).filter fun c' => decide (c'.val / cpg = c.val / cpg)).map t).sum
  else t

/-- `t.index_select(0, idx)`: IndexError for indices out of range. -/
def indexSelect (t : List V) (idx : List Nat) : M (List V) :=
  idx.mapM fun i => match t[i]? with
    | some v => .ok v
    | none => .error .index

/-- `OctreeGroupNorm.forward`, octree_norm.py 40-60; `rt` is the square root. -/
def groupNorm {K : Type} [Field K] {C : Nat} (rt : K → K) (eps : K) (cpg : Nat) (nempty : Bool)
    (weights bias : Fin C → K) (data : List (Fin C → K)) (o : Octree F) (d : Nat) : M (List (Fin C → K)) := do
  let batchId ← o.batchId d nempty
  let ids := batchId.map Int.ofNat
  let count ← scatterAdd (List.replicate data.length (1 : K)) ids (some o.batchSize)
  let invCount := count.map fun n => 1 / (n * (cpg : K) + eps)
  let sum ← scatterAdd data ids (some o.batchSize)
  let mean := List.zipWith (fun s i => adjustForGroup cpg fun c => s c * i) sum invCount
  let meanSel ← indexSelect mean batchId
  if meanSel.length ≠ data.length then .error .shape
  let out := List.zipWith (fun x m => fun c => x c - m c) data meanSel
  let sq ← scatterAdd (out.map fun x => fun c => x c ^ 2) ids (some o.batchSize)
  let var := List.zipWith (fun s i => adjustForGroup cpg fun c => s c * i) sq invCount
  let invStd := var.map fun v => fun c => 1 / rt (v c + eps)
  let stdSel ← indexSelect invStd batchId
  if stdSel.length ≠ out.length then .error .shape
  let out := List.zipWith (fun x s => fun c => x c * s c) out stdSel
  pure (out.map fun x => fun c => x c * weights c + bias c)

/-! ### octree_pool.py -/

/-- The first `n` groups of 8 rows. -/
def chunk8 {α : Type _} : Nat → List α → List (List α)
  | 0, _ => []
  | n + 1, l => l.take 8 :: chunk8 n (l.drop 8)

/-- `data.view(-1, 8, C)`: the number of rows must be a multiple of 8. -/
def view8 {α : Type _} (data : List α) : M (List (List α)) :=
  if data.length % 8 = 0 then .ok (chunk8 (data.length / 8) data) else .error .shape

/-- `max(dim)` of a list: the maximum and the position of its first occurrence. -/
def maxIdx {α : Type _} [LinearOrder α] : List α → Option (α × Nat)
  | [] => none
  | a :: l => match maxIdx l with
    | none => some (a, 0)
    | some (b, j) => if a < b then some (b, j + 1) else some (a, 0)

/-- `max(dim=1)` of one group of rows, per channel. -/
def maxRows {α : Type _} [LinearOrder α] [OrderBot α] {C : Nat} (g : List (Fin C → α)) :
    (Fin C → α) × (Fin C → Nat) :=
  (fun c => ((maxIdx (g.map fun v => v c)).map Prod.fst).getD ⊥,
   fun c => ((maxIdx (g.map fun v => v c)).map Prod.snd).getD 0)

/-- `octree_max_pool` with `return_indices=True`, octree_pool.py 17-38, for `depth = d + 1`; `⊥` is
`float('-inf')`.  The code's pooling of depth 0 is not modelled. -/
def octreeMaxPool {α : Type} [LinearOrder α] [OrderBot α] [Zero α] {C : Nat} (data : List (Fin C → α))
    (o : Octree F) (d : Nat) (nempty : Bool) : M (List (Fin C → α) × List (Fin C → Nat)) := do
  let data ← (if nempty then octreePad data o (d + 1) (fun _ => ⊥) else pure data : M (List (Fin C → α)))
  let groups ← view8 data
  let out := groups.map fun g => (maxRows g).1
  let indices := groups.map fun g => (maxRows g).2
  let out ← (if nempty = false then octreePad out o d (fun _ => 0) else pure out : M (List (Fin C → α)))
  pure (out, indices)

/-- `octree_max_unpool`, octree_pool.py 41-65.  `out[i, indices, k] = data` is written group by group; the
broadcasting of `indices` with a different number of rows is not modelled (shape error). -/
def octreeMaxUnpool {α : Type} [Zero α] {C : Nat} (data : List (Fin C → α)) (indices : List (Fin C → Nat))
    (o : Octree F) (d : Nat) (nempty : Bool) : M (List (Fin C → α)) := do
  let data ← (if nempty = false then octreeDepad data o d else pure data : M (List (Fin C → α)))
  if indices.length ≠ data.length then .error .shape
  if ∃ r ∈ indices, ∃ c, ¬ r c < 8 then .error .index
  let groups := List.zipWith (fun v ix => (List.range 8).map fun j => fun c => if ix c = j then v c else 0)
    data indices
  let out := groups.flatten
  if nempty then octreeDepad out o (d + 1) else pure out

/-- `1e-8`, octree_pool.py 89 -/
def eps8 {K : Type} [Field K] : K := 1 / 100000000

/-- One row of the sparse matrix product of `octree_avg_pool`, octree_pool.py 88-100: the existing
neighbours, each with weight `1 / (number + 1e-8)`; a column index out of range raises. -/
def avgRow {K : Type} [Field K] {C : Nat} (data : List (Fin C → K)) (row : List Int) : M (Fin C → K) := do
  let cols := row.filter fun n => decide (n ≥ 0)
  let val : K := 1 / ((cols.length : K) + eps8)
  let rows ← indexSelect data (cols.map Int.toNat)
  pure fun c => (rows.map fun r => val * r c).sum

/-- `octree_avg_pool`, octree_pool.py 68-101 -/
def octreeAvgPool {K : Type} [Field K] {C : Nat} (data : List (Fin C → K)) (o : Octree F) (d : Nat)
    (kernel : String) (stride : Nat) (nempty : Bool) : M (List (Fin C → K)) := do
  let neigh ← o.getNeigh d kernel stride nempty
  neigh.mapM (avgRow data)

/-- `octree_global_pool`, octree_pool.py 104-124 -/
def octreeGlobalPool {K : Type} [Field K] [LinearOrder K] {C : Nat} (data : List (Fin C → K)) (o : Octree F)
    (d : Nat) (nempty : Bool) : M (List (Fin C → K)) := do
  let batchId ← o.batchId d nempty
  let ids := batchId.map Int.ofNat
  let count ← scatterAdd (List.replicate data.length (1 : K)) ids (some o.batchSize)
  let count := count.map fun n => if n < 1 then 1 else n
  let out ← scatterAdd data ids (some o.batchSize)
  pure (List.zipWith (fun s n => fun c => s c / n) out count)

end Ocnn
