import Verif.Conv
import Verif.Interp

/-! Model of the layers that the networks are made of: ocnn/modules/modules.py, ocnn/modules/resblocks.py, the modules
of ocnn/nn and the used modules of torch.nn.

A tensor of shape `(N, C)` is a list of rows together with `C`, so that a wrong number of channels is an error at run
time as in the code. Constructor and `forward` of a module are one function: it takes the constructor arguments, the name of
the module in the network (which selects its parameters), then the arguments of `forward`; an error of the constructor
becomes an error of the first call. Channel and depth computations are on natural numbers. -/

namespace Ocnn
variable {F : Type}

/-- A tensor of shape `(rows.length, width)`. -/
structure Tensor where
  width : Nat
  rows : List (Fin width → ℚ)

/-- The parameters and buffers of a network by the name of the module (weights: also by the number of matrices, which is 1 for
`torch.nn.Linear`, and the number of the matrix), and what torch adds to it: the mode, the masks
drawn by dropout (including the factor 1/(1-p)), square root and tanh. -/
structure Params where
  weight : String → Nat → Nat → Nat → Nat → ℚ
  bias : String → Nat → ℚ
  bnWeight : String → Nat → ℚ
  bnBias : String → Nat → ℚ
  bnMean : String → Nat → ℚ
  bnVar : String → Nat → ℚ
  training : Bool
  drop : String → Nat → Nat → ℚ
  rt : ℚ → ℚ
  tanh : ℚ → ℚ

/-- The rows of a tensor that must have `c` channels. -/
def Tensor.as (t : Tensor) (c : Nat) (e : Err) : M (List (Fin c → ℚ)) :=
  if h : t.width = c then .ok (h ▸ t.rows) else .error e

/-- Applies `f` to a tensor that must have `c` channels. -/
def Tensor.on (t : Tensor) (c c' : Nat) (e : Err) (f : List (Fin c → ℚ) → M (List (Fin c' → ℚ))) : M Tensor := do
  let x ← t.as c e
  let y ← f x
  pure ⟨c', y⟩

/-- `torch.nn.ReLU` -/
def relu (t : Tensor) : Tensor := ⟨t.width, t.rows.map fun v => fun i => max (v i) 0⟩

/-- `torch.tanh` -/
def tanhT (P : Params) (t : Tensor) : Tensor := ⟨t.width, t.rows.map fun v => fun i => P.tanh (v i)⟩

/-- `torch.nn.Linear(ci, co, bias)` -/
def linear (P : Params) (name : String) (ci co : Nat) (useBias : Bool) (t : Tensor) : M Tensor :=
  t.on ci co .shape fun x => .ok (x.map fun v => fun j =>
    (∑ i : Fin ci, v i * P.weight name 1 0 i j) + if useBias then P.bias name j else 0)

/-- The mean of column `i`. -/
def colMean {c : Nat} (x : List (Fin c → ℚ)) (i : Fin c) : ℚ := (x.map fun v => v i).sum / x.length

/-- The biased variance of column `i`. -/
def colVar {c : Nat} (x : List (Fin c → ℚ)) (i : Fin c) : ℚ :=
  (x.map fun v => (v i - colMean x i) * (v i - colMean x i)).sum / x.length

/-- `torch.nn.BatchNorm1d(c)`: with the statistics of the batch when training, where a single row raises ValueError, and
with the running statistics otherwise.  The update of the running statistics is not modelled. -/
def batchNorm (P : Params) (name : String) (c : Nat) (t : Tensor) : M Tensor :=
  t.on c c .shape fun x =>
    if P.training then
      if x.length = 1 then .error .value
      else .ok (x.map fun v => fun i =>
        (v i - colMean x i) / P.rt (colVar x i + 1 / 100000) * P.bnWeight name i + P.bnBias name i)
    else .ok (x.map fun v => fun i =>
      (v i - P.bnMean name i) / P.rt (P.bnVar name i + 1 / 100000) * P.bnWeight name i + P.bnBias name i)

/-- `torch.nn.Dropout` -/
def dropout (P : Params) (name : String) (t : Tensor) : Tensor :=
  if P.training then ⟨t.width, t.rows.zipIdx.map fun v => fun i => v.1 i * P.drop name v.2 i⟩ else t

/-- `a + b`.  The broadcasting of a single row or channel is not modelled (shape error). -/
def Tensor.add (a b : Tensor) : M Tensor := do
  let y ← b.as a.width .shape
  if a.rows.length = y.length then pure ⟨a.width, List.zipWith (fun v w => fun i => v i + w i) a.rows y⟩
  else .error .shape

/-- `torch.cat([a, b], dim=1)` -/
def Tensor.cat (a b : Tensor) : M Tensor :=
  if a.rows.length = b.rows.length then
    .ok ⟨a.width + b.width, List.zipWith (fun v w => Fin.append v w) a.rows b.rows⟩
  else .error .shape

/-! ### ocnn/nn as modules -/

/-- `max_buffer`, octree_conv.py 23. -/
def maxBuffer : Nat := 200000000

/-- The weights of a convolution, octree_conv.py 349: `kdim` matrices. -/
def convWeights (P : Params) (name : String) (kdim a b : Nat) : List (Fin a → Fin b → ℚ) :=
  (List.range kdim).map fun k => fun i j => P.weight name kdim k i j

/-- `OctreeConv(ci, co, ks, stride, nempty)`, octree_conv.py 340-385.  A wrong number of channels fails the assertion on
the shape, octree_conv.py 99-100. -/
def octreeConv (P : Params) (name : String) (ci co : Nat) (ks : List Nat) (stride : Nat) (nempty : Bool) (o : Octree F)
    (d : Nat) (t : Tensor) : M Tensor := do
  let base ← ConvBase.init true ci co ks stride nempty maxBuffer
  t.on ci co .assertion fun x => ConvModule.forward (denseKernel ℚ ci co)
    { base := base, directMethod := false, weights := convWeights P name base.kdim ci co, bias := none } x o d

/-- `OctreeDeconv(ci, co, ks, stride, nempty)`, octree_conv.py 396-429. -/
def octreeDeconv (P : Params) (name : String) (ci co : Nat) (ks : List Nat) (stride : Nat) (nempty : Bool) (o : Octree F)
    (d : Nat) (t : Tensor) : M Tensor := do
  let base ← ConvBase.init false ci co ks stride nempty maxBuffer
  t.on ci co .assertion fun x => ConvModule.deconvForward (denseKernel ℚ co ci)
    { base := base, directMethod := false, weights := convWeights P name base.kdim co ci, bias := none } x o d

/-- `OctreeMaxPool(nempty, return_indices=True)`, octree_pool.py 143-156, at depth `d`: the pooled tensor and the indices, as a
tensor of integers.  The value `float('-inf')` of an octant without data becomes 0 here; the
pooling of depth 0 is not modelled. -/
def maxPoolIdx (nempty : Bool) (o : Octree F) (d : Nat) (t : Tensor) : M (Tensor × Tensor) :=
  match d with
  | 0 => .error .domain
  | d + 1 => do
    let r ← octreeMaxPool (t.rows.map fun v => fun i => ((v i : ℚ) : WithBot ℚ)) o d nempty
    pure (⟨t.width, r.1.map fun v => fun i => (v i).unbotD 0⟩, ⟨t.width, r.2.map fun v => fun i => (v i : ℚ)⟩)

/-- `OctreeMaxPool(nempty)`, octree_pool.py 143-156. -/
def maxPool (nempty : Bool) (o : Octree F) (d : Nat) (t : Tensor) : M Tensor := do
  let r ← maxPoolIdx nempty o d t
  pure r.1

/-- `OctreeMaxUnpool(nempty)`, octree_pool.py 159-172. -/
def maxUnpool (nempty : Bool) (o : Octree F) (d : Nat) (indices t : Tensor) : M Tensor := do
  let ix ← indices.as t.width .shape
  let y ← octreeMaxUnpool t.rows (ix.map fun v => fun i => ⌊v i⌋.toNat) o d nempty
  pure ⟨t.width, y⟩

/-- `OctreeGlobalPool(nempty)`, octree_pool.py 175-187. -/
def globalPool (nempty : Bool) (o : Octree F) (d : Nat) (t : Tensor) : M Tensor := do
  let y ← octreeGlobalPool t.rows o d nempty
  pure ⟨t.width, y⟩

/-- `OctreeUpsample('nearest', nempty)`, octree_interp.py 161-196, with the default `target_depth`. -/
def upsample (nempty : Bool) (o : Octree F) (d : Nat) (t : Tensor) : M Tensor := do
  let y ← octreeUpsample "nearest" nempty t.rows o d none
  pure ⟨t.width, y⟩

/-- `OctreeInterp(method, nempty)`, octree_interp.py 102-133.  The query points that it overwrites are not returned. -/
def interp (method : String) (nempty : Bool) (o : Octree F) (d : Nat) (pts : List Pt4) (t : Tensor) : M Tensor := do
  let y ← (octreeInterp method nempty false true t.rows o d pts).1
  pure ⟨t.width, y⟩

/-- `octree_depad`, octree_pad.py 32-39, on a tensor. -/
def depad (o : Octree F) (d : Nat) (t : Tensor) : M Tensor := do
  let y ← octreeDepad t.rows o d
  pure ⟨t.width, y⟩

/-- `Flatten(start_dim=1)` of a tensor of shape `(B, n, n, n, C)` given as the list of its `B * n * n * n` rows:
`b` rows of `m * C` numbers. -/
def flattenRows (b m c : Nat) (rows : List (Fin c → ℚ)) : List (Fin (m * c) → ℚ) :=
  (List.range b).map fun k => fun (j : Fin (m * c)) =>
    let p := finProdFinEquiv.symm j
    ((rows[k * m + p.1.val]?).getD 0) p.2

/-- `Octree2Voxel(nempty)`, octree2vox.py 34-50, and the flattening of the voxels, modules.py 161. -/
def voxelFlat (nempty : Bool) (o : Octree F) (d : Nat) (t : Tensor) : M Tensor := do
  let y ← octree2voxel t.rows o d nempty
  pure ⟨2 ^ d * 2 ^ d * 2 ^ d * t.width, flattenRows o.batchSize (2 ^ d * 2 ^ d * 2 ^ d) t.width y⟩

/-! ### ocnn/modules/modules.py -/

/-- `OctreeConvBn`, modules.py 31-50. -/
def convBn (P : Params) (name : String) (ci co : Nat) (ks : List Nat) (stride : Nat) (nempty : Bool) (o : Octree F) (d : Nat)
    (t : Tensor) : M Tensor := do
  let t ← octreeConv P (name ++ ".conv") ci co ks stride nempty o d t
  batchNorm P (name ++ ".bn") co t

/-- `OctreeConvBnRelu`, modules.py 53-74. -/
def convBnRelu (P : Params) (name : String) (ci co : Nat) (ks : List Nat) (stride : Nat) (nempty : Bool) (o : Octree F)
    (d : Nat) (t : Tensor) : M Tensor := do
  let t ← octreeConv P (name ++ ".conv") ci co ks stride nempty o d t
  let t ← batchNorm P (name ++ ".bn") co t
  pure (relu t)

/-- `OctreeDeconvBnRelu`, modules.py 77-98. -/
def deconvBnRelu (P : Params) (name : String) (ci co : Nat) (ks : List Nat) (stride : Nat) (nempty : Bool) (o : Octree F)
    (d : Nat) (t : Tensor) : M Tensor := do
  let t ← octreeDeconv P (name ++ ".deconv") ci co ks stride nempty o d t
  let t ← batchNorm P (name ++ ".bn") co t
  pure (relu t)

/-- `Conv1x1`, modules.py 101-116. -/
def conv1x1 (P : Params) (name : String) (ci co : Nat) (useBias : Bool) (t : Tensor) : M Tensor :=
  linear P (name ++ ".linear") ci co useBias t

/-- `Conv1x1Bn`, modules.py 119-133. -/
def conv1x1Bn (P : Params) (name : String) (ci co : Nat) (t : Tensor) : M Tensor := do
  let t ← conv1x1 P (name ++ ".conv") ci co false t
  batchNorm P (name ++ ".bn") co t

/-- `Conv1x1BnRelu`, modules.py 136-152. -/
def conv1x1BnRelu (P : Params) (name : String) (ci co : Nat) (t : Tensor) : M Tensor := do
  let t ← conv1x1 P (name ++ ".conv") ci co false t
  let t ← batchNorm P (name ++ ".bn") co t
  pure (relu t)

/-- `FcBnRelu`, modules.py 155-173, for an input of shape `(N, C)`. -/
def fcBnRelu (P : Params) (name : String) (ci co : Nat) (t : Tensor) : M Tensor := do
  let t ← linear P (name ++ ".fc") ci co false t
  let t ← batchNorm P (name ++ ".bn") co t
  pure (relu t)

/-! ### ocnn/modules/resblocks.py -/

/-- `int(out_channels / bottleneck)`, resblocks.py 37 and 76; only positive integers are modelled. -/
def bottleneckChannels (co bottleneck : Nat) : M Nat := if bottleneck = 0 then .error .zeroDiv else .ok (co / bottleneck)

/-- `OctreeResBlock`, resblocks.py 16-60. -/
def resBlock (P : Params) (name : String) (ci co stride bottleneck : Nat) (nempty : Bool) (o : Octree F) (d : Nat)
    (t : Tensor) : M Tensor := do
  let cb ← bottleneckChannels co bottleneck
  let data ← (if stride = 2 then maxPool nempty o d t else pure t : M Tensor)
  let d := if stride = 2 then d - 1 else d
  let conv1 ← conv1x1BnRelu P (name ++ ".conv1x1a") ci cb data
  let conv2 ← convBnRelu P (name ++ ".conv3x3") cb cb [3] 1 nempty o d conv1
  let conv3 ← conv1x1Bn P (name ++ ".conv1x1b") cb co conv2
  let data ← (if ci ≠ co then conv1x1Bn P (name ++ ".conv1x1c") ci co data else pure data : M Tensor)
  let out ← conv3.add data
  pure (relu out)

/-- `OctreeResBlock2`, resblocks.py 63-97.  With stride 2 the constructor reads the missing attribute `self.depth`,
line 79. -/
def resBlock2 (P : Params) (name : String) (ci co stride bottleneck : Nat) (nempty : Bool) (o : Octree F) (d : Nat)
    (t : Tensor) : M Tensor := do
  let cb ← bottleneckChannels co bottleneck
  if stride = 2 then .error .type
  let conv1 ← convBnRelu P (name ++ ".conv3x3a") ci cb [3] 1 nempty o d t
  let conv2 ← convBn P (name ++ ".conv3x3b") cb co [3] 1 nempty o d conv1
  let data ← (if ci ≠ co then conv1x1Bn P (name ++ ".conv1x1") ci co t else pure t : M Tensor)
  let out ← conv2.add data
  pure (relu out)

/-- The argument `resblk` of `OctreeResBlocks`. -/
inductive BlockKind where
  | block
  | block2
  deriving DecidableEq

/-- One block of `OctreeResBlocks`. -/
def oneBlock (P : Params) (kind : BlockKind) (name : String) (ci co stride bottleneck : Nat) (nempty : Bool) (o : Octree F)
    (d : Nat) (t : Tensor) : M Tensor :=
  match kind with
  | .block => resBlock P name ci co stride bottleneck nempty o d t
  | .block2 => resBlock2 P name ci co stride bottleneck nempty o d t

/-- One iteration of the loop of `OctreeResBlocks.forward`: the `i`-th entry of `[ci] + [co] * num` is the input width. -/
def resStep (P : Params) (kind : BlockKind) (name : String) (ci co bottleneck : Nat) (nempty : Bool) (o : Octree F) (d : Nat)
    (t : Tensor) (i : Nat) : M Tensor :=
  oneBlock P kind (name ++ ".resblks." ++ toString i) (if i = 0 then ci else co) co 1 bottleneck nempty o d t

/-- `OctreeResBlocks`, resblocks.py 100-124; checkpointing does not change the values. -/
def resBlocks (P : Params) (kind : BlockKind) (name : String) (ci co num bottleneck : Nat) (nempty : Bool) (o : Octree F)
    (d : Nat) (t : Tensor) : M Tensor :=
  (List.range num).foldlM (resStep P kind name ci co bottleneck nempty o d) t

end Ocnn
