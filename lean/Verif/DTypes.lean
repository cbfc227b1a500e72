import Verif.Torch

/-! The element types of the feature tensors: a model of the operations of ocnn/nn which keeps of every tensor only its `dtype`.

The rules of torch that are assumed here: `new_zeros`, `new_ones`, indexing, `view`, `repeat`, `max` and arithmetic with Python numbers keep
the type of a floating-point tensor; arithmetic of two tensors promotes; `t[start:stop] = x` and `t += x` cast to the type of `t`;
`t[mask] = x` and `scatter_add_` raise when the types differ; matrix products raise when the types differ, after `autocast` has cast
the operands of type float16, bfloat16 and float32 to its own type; in-place products are not changed by `autocast`. -/

namespace Ocnn

/-- The floating-point types of torch that are used for features. -/
inductive DType
  | f16 | bf16 | f32 | f64
  deriving DecidableEq, Repr

/-- `torch.promote_types` on floating-point types. -/
def DType.promote : DType → DType → DType
  | .f64, _ => .f64
  | _, .f64 => .f64
  | .f32, _ => .f32
  | _, .f32 => .f32
  | .f16, .f16 => .f16
  | .bf16, .bf16 => .bf16
  | .f16, .bf16 => .f32
  | .bf16, .f16 => .f32

/-- What `autocast` does to an operand of a matrix product: `none` outside of an `autocast` region, `some t` inside of a region with
type `t`.  Operands of type float64 are left as they are. -/
def autocast (ac : Option DType) (d : DType) : DType :=
  match ac with
  | none => d
  | some t => if d = .f64 then .f64 else t

/-- `torch.mm`. -/
def mmD (ac : Option DType) (a b : DType) : M DType :=
  if autocast ac a = autocast ac b then .ok (autocast ac a) else .error .type

/-- `torch.sparse.mm`, which is not in the lists of `autocast`. -/
def sparseMmD (a b : DType) : M DType := if a = b then .ok a else .error .type

/-- `out.addmm_(a, b)`. -/
def addmmD (out a b : DType) : M DType := if a = out ∧ b = out then .ok out else .error .type

/-- `dst[mask] = src` and `dst[i, j, k] = src`. -/
def indexPutD (dst src : DType) : M DType := if dst = src then .ok dst else .error .type

/-- `out.scatter_add_(dim, index, src)`, utils.py 147. -/
def scatterAddD (out src : DType) : M DType := if out = src then .ok out else .error .type

/-- `dst[start:stop] = src` and `dst += src`: the result is cast to the type of `dst`. -/
def castInto (dst _src : DType) : DType := dst

/-- `scatter_add` without `out`, utils.py 117-147: a tensor of zeros of the type of `src` is used. -/
def scatterAddNewD (src : DType) : M DType := scatterAddD src src

/-- `octree2col`, octree2col.py 34-39. -/
def octree2colD (data : DType) : M DType := indexPutD data data

/-- `col2octree`, octree2col.py 49-53. -/
def col2octreeD (col : DType) : M DType := scatterAddNewD col

/-- `octree_pad`, octree_pad.py 25-29. -/
def octreePadD (data : DType) : M DType := indexPutD data data

/-- `octree_depad`, octree_pad.py 32-39. -/
def octreeDepadD (data : DType) : M DType := .ok data

/-- `octree_nearest_pts`, octree_interp.py 34-47: the type of the points does not matter. -/
def nearestPtsD (data _pts : DType) : M DType := indexPutD data data

/-- `octree_linear_pts`, octree_interp.py 66-99.  The subtraction `1.0 - grid` of an integer tensor gives the default type, which is
promoted with the type of the points. -/
def linearPtsD (dflt data pts : DType) : M DType := do
  let xyzf := pts
  let frac := xyzf.promote xyzf
  let frac := dflt.promote frac
  let weight := frac
  let output ← sparseMmD weight data
  let norm ← sparseMmD weight data
  pure (output.promote norm)

/-- `OctreeInterp.forward`, octree_interp.py 117-126: the rescaling is an assignment to a slice of the points. -/
def octreeInterpD (linear rescale : Bool) (dflt data pts : DType) : M DType :=
  let pts := if rescale then castInto pts pts else pts
  if linear then linearPtsD dflt data pts else nearestPtsD data pts

/-- `octree_nearest_upsample`, octree_interp.py 152-158. -/
def nearestUpsampleD (nempty : Bool) (data : DType) : M DType := do
  let out ← if nempty then pure data else octreeDepadD data
  if nempty then octreeDepadD out else pure out

/-- `OctreeUpsample.forward`, octree_interp.py 178-190: the points are made by `.float()`. -/
def octreeUpsampleD (linear nempty : Bool) (dflt data : DType) (depth target : Nat) : M DType :=
  if target = depth then .ok data
  else if target < depth then .error .assertion
  else if target = depth + 1 ∧ linear = false then nearestUpsampleD nempty data
  else
    let pts := castInto DType.f32 DType.f32
    if linear then linearPtsD dflt data pts else nearestPtsD data pts

/-- `octree_max_pool`, octree_pool.py 31-37. -/
def maxPoolD (nempty : Bool) (data : DType) : M DType := do
  let data ← if nempty then octreePadD data else pure data
  if nempty then pure data else octreePadD data

/-- `octree_max_unpool`, octree_pool.py 54-66. -/
def maxUnpoolD (nempty : Bool) (data : DType) : M DType := do
  let data ← if nempty then pure data else octreeDepadD data
  let out ← indexPutD data data
  if nempty then octreeDepadD out else pure out

/-- `octree_avg_pool`, octree_pool.py 84-103: `1.0 / (torch.sum(mask, dim=1) + 1e-8)` is computed from integers and has the default
type. -/
def avgPoolD (dflt data : DType) : M DType := sparseMmD dflt data

/-- `octree_global_pool`, octree_pool.py 116-124. -/
def globalPoolD (data : DType) : M DType := do
  let ones := data
  let count ← scatterAddNewD ones
  let out ← scatterAddNewD data
  pure (out.promote count)

/-- `OctreeGroupNorm.forward`, octree_norm.py 41-60. -/
def groupNormD (data weights bias : DType) : M DType := do
  let ones := data
  let count ← scatterAddNewD ones
  let invCount := count
  let mean ← scatterAddNewD data
  let mean := mean.promote invCount
  let out := data.promote mean
  let var ← scatterAddNewD out
  let var := var.promote invCount
  let invStd := var
  let out := out.promote invStd
  pure ((out.promote weights).promote bias)

/-- `octree2voxel`, octree2vox.py 25-31. -/
def octree2voxelD (data : DType) : M DType := indexPutD data data

/-- `OctreeDropPath.forward`, octree_drop.py 37-51: the random numbers are drawn in the type of the data. -/
def dropPathD (active : Bool) (data : DType) : M DType :=
  if active then .ok (data.promote data) else .ok data

/-- `search_value`, octree_align.py 22-35: `torch.zeros` is called without a type. -/
def searchValueD (dflt value : DType) : M DType := indexPutD dflt value

/-- `octree_align`, octree_align.py 38-46. -/
def octreeAlignD (dflt value : DType) : M DType := searchValueD dflt value

/-! Convolution -/

/-- `if x.dtype != out.dtype: x = x.to(out.dtype)`, octree_conv.py 113-116, 149-152, 181-184. -/
def typeCheck (out x : DType) : DType := if x ≠ out then out else x

/-- `forward_gemm`, octree_conv.py 107-141, with `n` chunks. -/
def forwardGemmD (ac : Option DType) (out data weights : DType) (n : Nat) : M DType := do
  let data := typeCheck out data
  let weights := typeCheck out weights
  let buffer := data
  (List.range n).foldlM (fun out _ => do
    let buffer ← indexPutD buffer data
    let r ← mmD ac buffer weights
    pure (castInto out r)) out

/-- `backward_gemm`, octree_conv.py 143-173, with `n` chunks. -/
def backwardGemmD (ac : Option DType) (out grad weights : DType) (n : Nat) : M DType := do
  let grad := typeCheck out grad
  let weights := typeCheck out weights
  (List.range n).foldlM (fun out' _ => do
    let r ← mmD ac grad weights
    let buffer := typeCheck out' r
    scatterAddD out' buffer) out

/-- `weight_gemm`, octree_conv.py 175-213, with `n` chunks. -/
def weightGemmD (out data grad : DType) (n : Nat) : M DType := do
  let data := typeCheck out data
  let grad := typeCheck out grad
  let buffer := data
  (List.range n).foldlM (fun out' _ => do
    let buffer ← indexPutD buffer data
    addmmD out' buffer grad) out

/-- `OctreeConvFunction.forward`, octree_conv.py 235-247, with `check_and_init`, 104. -/
def convFnD (ac : Option DType) (data weights : DType) (n : Nat) : M DType :=
  let out := data
  forwardGemmD ac out data weights n

/-- `OctreeConvFunction.backward`, octree_conv.py 248-264: the gradients of the data and of the weights, when both are needed. -/
def convFnBackD (ac : Option DType) (data weights grad : DType) (n : Nat) : M (DType × DType) := do
  let gradOut ← backwardGemmD ac data grad weights n
  let gradW ← weightGemmD weights data grad n
  pure (gradOut, gradW)

/-- `OctreeDeconvFunction.forward`, octree_conv.py 271-283. -/
def deconvFnD (ac : Option DType) (data weights : DType) (n : Nat) : M DType :=
  let out := data
  backwardGemmD ac out data weights n

/-- `OctreeDeconvFunction.backward`, octree_conv.py 285-301. -/
def deconvFnBackD (ac : Option DType) (data weights grad : DType) (n : Nat) : M (DType × DType) := do
  let gradOut ← forwardGemmD ac data grad weights n
  let gradW ← weightGemmD weights grad data n
  pure (gradOut, gradW)

/-- `OctreeConv.forward`, octree_conv.py 361-385. -/
def convLayerD (ac : Option DType) (direct : Bool) (bias : Option DType) (stride2 nempty : Bool) (data weights : DType) (n : Nat) :
    M DType := do
  let out ← if direct then (do
      let col ← octree2colD data
      mmD ac col weights)
    else convFnD ac data weights n
  let out := match bias with
    | some b => castInto out b
    | none => out
  if stride2 = true ∧ nempty = false then octreePadD out else pure out

/-- `OctreeDeconv.forward`, octree_conv.py 404-429. -/
def deconvLayerD (ac : Option DType) (direct : Bool) (bias : Option DType) (stride2 nempty : Bool) (data weights : DType) (n : Nat) :
    M DType := do
  let data ← if stride2 = true ∧ nempty = false then octreeDepadD data else pure data
  let out ← if direct then (do
      let col ← mmD ac data weights
      col2octreeD col)
    else deconvFnD ac data weights n
  pure (match bias with
    | some b => castInto out b
    | none => out)

/-- `OctreeDWConvBase.forward_gemm`, octree_dwconv.py 30-64, outside of `autocast`. -/
def dwForwardD (out data weights : DType) (n : Nat) : M DType := do
  let data := typeCheck out data
  let weights := typeCheck out weights
  let buffer := data
  (List.range n).foldlM (fun out _ => do
    let buffer ← indexPutD buffer data
    let r ← mmD none buffer weights
    pure (castInto out r)) out

/-- `OctreeDWConvBase.backward_gemm`, octree_dwconv.py 66-97, outside of `autocast`. -/
def dwBackwardD (out grad weights : DType) (n : Nat) : M DType := do
  let grad := typeCheck out grad
  let weights := typeCheck out weights
  (List.range n).foldlM (fun out' _ => do
    let buffer ← mmD none grad weights
    scatterAddD out' buffer) out

/-- `OctreeDWConvBase.weight_gemm`, octree_dwconv.py 99-136, outside of `autocast`. -/
def dwWeightD (out data grad : DType) (n : Nat) : M DType := do
  let data := typeCheck out data
  let grad := typeCheck out grad
  let buffer := data
  (List.range n).foldlM (fun out' _ => do
    let buffer ← indexPutD buffer data
    let r ← mmD none buffer grad
    pure (castInto out' r)) out

/-- `OctreeDWConvFunction.forward`, octree_dwconv.py 144-155, outside of `autocast`: the type of the result. -/
def dwFnD (data weights : DType) (n : Nat) : M DType :=
  let out := data
  dwForwardD out data weights n

/-- `OctreeDWConvFunction.backward`, octree_dwconv.py 157-172, outside of `autocast`. -/
def dwFnBackD (data weights grad : DType) (n : Nat) : M (DType × DType) := do
  let gradOut ← dwBackwardD data grad weights n
  let gradW ← dwWeightD weights data grad n
  pure (gradOut, gradW)

/-- `OctreeDWConv.forward`, octree_dwconv.py 205-217, outside of `autocast`. -/
def dwLayerD (bias : Option DType) (stride2 nempty : Bool) (data weights : DType) (n : Nat) : M DType := do
  let out ← dwFnD data weights n
  let out := match bias with
    | some b => castInto out b
    | none => out
  if stride2 = true ∧ nempty = false then octreePadD out else pure out

end Ocnn
