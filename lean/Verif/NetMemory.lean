import Verif.AutoEncoder

/-! Model of the forward passes with tensors as references into a memory.  In `NetLayers`, `Networks` and `AutoEncoder` a tensor is a
value; in the code it is a reference, several names may refer to the same memory (`convd[d]`, the argument `data` of a residual
block, the result of a layer that returns its argument), and some operations overwrite the memory of their argument:
`torch.nn.ReLU(inplace=True)` (modules.py 66, 90, 144, 164, resblocks.py 46, 84) and `out += self.bias` (octree_conv.py 381, 428).

A cell of the memory is the storage of a tensor with the version counter of torch, which every in-place operation increments. The
list `saved` is what autograd keeps for the backward pass: which cells, at which version.  `backward` raises a RuntimeError when a saved
cell has another version by then.  Every operation that is not in place is taken to keep all its arguments, which is at least what torch
keeps; batch normalization, convolutions and linear layers do not keep their results, the activations do.  Operations that return new
memory: all of ocnn.nn (`data[mask]`, `torch.full`, `torch.zeros`, `torch.mm`, the outputs of the autograd functions, ...), `BatchNorm1d`,
`Linear`, `+`, `torch.cat`, `torch.stack(...).sum`, `torch.tanh`, and `Dropout` when training.  `Dropout` otherwise and `Flatten` of
a matrix return their argument.  The values are those of `NetLayers`; memory that is not referred to any more is not freed. -/

namespace Ocnn
namespace Mem
variable {F : Type}

/-- The storage of a tensor and its version counter. -/
structure Slot where
  value : Tensor
  version : Nat

/-- The memory: all storages, and the cells with versions that are saved for the backward pass. -/
structure Store where
  slots : List Slot
  saved : List (Nat × Nat)

/-- The check of `backward`: a RuntimeError ("one of the variables needed for gradient computation has been modified by an inplace
operation") when a saved tensor has another version than when it was saved. -/
def Store.backward (m : Store) : M Unit :=
  if m.saved.all fun p => (m.slots[p.1]?).map Slot.version == some p.2 then .ok () else .error .value

/-- A computation with references to tensors: it changes the memory and returns a value or raises.  What was written before an exception
remains written. -/
def Prog (α : Type) := Store → M α × Store

instance : Monad Prog where
  pure a := fun m => (.ok a, m)
  bind p q := fun m => match p m with
    | (.ok a, m') => q a m'
    | (.error e, m') => (.error e, m')

/-- A computation without tensors. -/
def lift {α : Type} (x : M α) : Prog α := fun m => (x, m)

/-- The value of the tensor at a reference. -/
def read (r : Nat) : Prog Tensor := fun m =>
  match m.slots[r]? with
  | some c => (.ok c.value, m)
  | none => (.error .domain, m)

/-- `save_for_backward` -/
def save (r : Nat) : Prog Unit := fun m =>
  match m.slots[r]? with
  | some c => (.ok (), { m with saved := m.saved ++ [(r, c.version)] })
  | none => (.error .domain, m)

/-- A new tensor. -/
def alloc (t : Tensor) : Prog Nat := fun m => (.ok m.slots.length, { m with slots := m.slots ++ [⟨t, 0⟩] })

/-- Overwrites a tensor. -/
def write (r : Nat) (t : Tensor) : Prog Unit := fun m =>
  match m.slots[r]? with
  | some c => (.ok (), { m with slots := m.slots.set r ⟨t, c.version + 1⟩ })
  | none => (.error .domain, m)

/-- An operation with one argument that returns a new tensor. -/
def op (f : Tensor → M Tensor) (r : Nat) : Prog Nat := do
  let t ← read r
  let y ← lift (f t)
  save r
  alloc y

/-- An operation with two arguments that returns a new tensor. -/
def op2 (f : Tensor → Tensor → M Tensor) (r s : Nat) : Prog Nat := do
  let t ← read r
  let u ← read s
  let y ← lift (f t u)
  save r
  save s
  alloc y

/-- An operation on a list of tensors that returns a new tensor. -/
def opList (f : List Tensor → M Tensor) (rs : List Nat) : Prog Nat := do
  let ts ← rs.mapM read
  let y ← lift (f ts)
  rs.forM save
  alloc y

/-- `torch.nn.ReLU(inplace=True)`: overwrites its argument, keeps the result for the backward pass and returns it. -/
def reluI (r : Nat) : Prog Nat := do
  let t ← read r
  write r (relu t)
  save r
  pure r

/-- `torch.tanh`, which keeps its result. -/
def tanhN (P : Params) (r : Nat) : Prog Nat := do
  let t ← read r
  let s ← alloc (tanhT P t)
  save s
  pure s

/-- `out += self.bias`, octree_conv.py 381 and 428. -/
def biasI (b : Nat → ℚ) (r : Nat) : Prog Nat := do
  let t ← read r
  write r ⟨t.width, t.rows.map fun v => fun i => v i + b i⟩
  pure r

/-- `torch.nn.Dropout`: its argument itself unless training. -/
def dropoutR (P : Params) (name : String) (r : Nat) : Prog Nat :=
  if P.training then op (fun t => .ok (dropout P name t)) r else pure r

/-! ### octree_conv.py -/

/-- The result of a convolution before the bias and the padding, octree_conv.py 370-378. -/
def convRaw (P : Params) (name : String) (ci co : Nat) (base : ConvBase) (direct : Bool) (o : Octree F) (d : Nat) (t : Tensor) : M Tensor :=
  t.on ci co .assertion fun x =>
    if direct then do
      let col ← octree2col x o d base.kernel base.stride base.nempty
      mmCols (denseKernel ℚ ci co) (convWeights P name base.kdim ci co) col
    else convForward (denseKernel ℚ ci co) base x (convWeights P name base.kdim ci co) o d

/-- `octree_pad(out, octree, depth-1)`, octree_conv.py 384; the depth 0 is not modelled. -/
def padBelow (o : Octree F) (d : Nat) (t : Tensor) : M Tensor :=
  if d = 0 then .error .domain else do
    let y ← octreePad t.rows o (d - 1) 0
    pure ⟨t.width, y⟩

/-- `OctreeConv.forward`, octree_conv.py 361-385. -/
def octreeConvR (P : Params) (name : String) (ci co : Nat) (ks : List Nat) (stride : Nat) (nempty direct useBias : Bool) (o : Octree F)
    (d : Nat) (data : Nat) : Prog Nat := do
  let base ← lift (ConvBase.init true ci co ks stride nempty maxBuffer)
  let out ← op (convRaw P name ci co base direct o d) data
  let out ← (if useBias then biasI (P.bias name) out else pure out : Prog Nat)
  if base.stride = 2 ∧ base.nempty = false then op (padBelow o d) out else pure out

/-- The result of a deconvolution before the bias, octree_conv.py 416-425. -/
def deconvRaw (P : Params) (name : String) (ci co : Nat) (base : ConvBase) (direct : Bool) (o : Octree F) (d : Nat) (t : Tensor) : M Tensor :=
  t.on ci co .assertion fun x =>
    if direct then
      col2octree (x.map fun g => (convWeights P name base.kdim co ci).map fun w => (denseKernel ℚ co ci).apT g w) o
        (if base.stride = 2 then d + 1 else d) base.kernel base.stride base.nempty
    else deconvForward (denseKernel ℚ co ci) base x (convWeights P name base.kdim co ci) o d

/-- `OctreeDeconv.forward`, octree_conv.py 404-429.  A wrong number of channels is reported before the rows of the empty nodes are
removed, which makes no difference for the memory. -/
def octreeDeconvR (P : Params) (name : String) (ci co : Nat) (ks : List Nat) (stride : Nat) (nempty direct useBias : Bool) (o : Octree F)
    (d : Nat) (data : Nat) : Prog Nat := do
  let base ← lift (ConvBase.init false ci co ks stride nempty maxBuffer)
  let data ← (if base.stride = 2 ∧ base.nempty = false then op (fun t => t.on ci ci .assertion fun x => octreeDepad x o d) data
    else pure data : Prog Nat)
  let out ← op (deconvRaw P name ci co base direct o d) data
  if useBias then biasI (P.bias name) out else pure out

/-! ### modules.py -/

/-- `OctreeConvBn.forward`, modules.py 45-50. -/
def convBnR (P : Params) (name : String) (ci co : Nat) (ks : List Nat) (stride : Nat) (nempty : Bool) (o : Octree F) (d : Nat)
    (data : Nat) : Prog Nat := do
  let out ← octreeConvR P (name ++ ".conv") ci co ks stride nempty false false o d data
  op (batchNorm P (name ++ ".bn") co) out

/-- `OctreeConvBnRelu.forward`, modules.py 68-74. -/
def convBnReluR (P : Params) (name : String) (ci co : Nat) (ks : List Nat) (stride : Nat) (nempty : Bool) (o : Octree F)
    (d : Nat) (data : Nat) : Prog Nat := do
  let out ← octreeConvR P (name ++ ".conv") ci co ks stride nempty false false o d data
  let out ← op (batchNorm P (name ++ ".bn") co) out
  reluI out

/-- `OctreeDeconvBnRelu.forward`, modules.py 92-98. -/
def deconvBnReluR (P : Params) (name : String) (ci co : Nat) (ks : List Nat) (stride : Nat) (nempty : Bool) (o : Octree F)
    (d : Nat) (data : Nat) : Prog Nat := do
  let out ← octreeDeconvR P (name ++ ".deconv") ci co ks stride nempty false false o d data
  let out ← op (batchNorm P (name ++ ".bn") co) out
  reluI out

/-- `Conv1x1.forward`, modules.py 113-116. -/
def conv1x1R (P : Params) (name : String) (ci co : Nat) (useBias : Bool) (data : Nat) : Prog Nat :=
  op (linear P (name ++ ".linear") ci co useBias) data

/-- `Conv1x1Bn.forward`, modules.py 128-133. -/
def conv1x1BnR (P : Params) (name : String) (ci co : Nat) (data : Nat) : Prog Nat := do
  let out ← conv1x1R P (name ++ ".conv") ci co false data
  op (batchNorm P (name ++ ".bn") co) out

/-- `Conv1x1BnRelu.forward`, modules.py 146-152. -/
def conv1x1BnReluR (P : Params) (name : String) (ci co : Nat) (data : Nat) : Prog Nat := do
  let out ← conv1x1R P (name ++ ".conv") ci co false data
  let out ← op (batchNorm P (name ++ ".bn") co) out
  reluI out

/-- `FcBnRelu.forward`, modules.py 166-173; `flatten` returns its argument. -/
def fcBnReluR (P : Params) (name : String) (ci co : Nat) (data : Nat) : Prog Nat := do
  let out ← op (linear P (name ++ ".fc") ci co false) data
  let out ← op (batchNorm P (name ++ ".bn") co) out
  reluI out

/-! ### resblocks.py -/

/-- `OctreeResBlock.forward`, resblocks.py 48-60: when no projection is needed, `data` is the tensor of the caller. -/
def resBlockR (P : Params) (name : String) (ci co stride bottleneck : Nat) (nempty : Bool) (o : Octree F) (d : Nat)
    (data : Nat) : Prog Nat := do
  let cb ← lift (bottleneckChannels co bottleneck)
  let data ← (if stride = 2 then op (maxPool nempty o d) data else pure data : Prog Nat)
  let d := if stride = 2 then d - 1 else d
  let conv1 ← conv1x1BnReluR P (name ++ ".conv1x1a") ci cb data
  let conv2 ← convBnReluR P (name ++ ".conv3x3") cb cb [3] 1 nempty o d conv1
  let conv3 ← conv1x1BnR P (name ++ ".conv1x1b") cb co conv2
  let data ← (if ci ≠ co then conv1x1BnR P (name ++ ".conv1x1c") ci co data else pure data : Prog Nat)
  let out ← op2 Tensor.add conv3 data
  reluI out

/-- `OctreeResBlock2.forward`, resblocks.py 86-97. -/
def resBlock2R (P : Params) (name : String) (ci co stride bottleneck : Nat) (nempty : Bool) (o : Octree F) (d : Nat)
    (data : Nat) : Prog Nat := do
  let cb ← lift (bottleneckChannels co bottleneck)
  lift (if stride = 2 then .error .type else pure ())
  let conv1 ← convBnReluR P (name ++ ".conv3x3a") ci cb [3] 1 nempty o d data
  let conv2 ← convBnR P (name ++ ".conv3x3b") cb co [3] 1 nempty o d conv1
  let data ← (if ci ≠ co then conv1x1BnR P (name ++ ".conv1x1") ci co data else pure data : Prog Nat)
  let out ← op2 Tensor.add conv2 data
  reluI out

/-- One block of `OctreeResBlocks`. -/
def oneBlockR (P : Params) (kind : BlockKind) (name : String) (ci co stride bottleneck : Nat) (nempty : Bool) (o : Octree F)
    (d : Nat) (data : Nat) : Prog Nat :=
  match kind with
  | .block => resBlockR P name ci co stride bottleneck nempty o d data
  | .block2 => resBlock2R P name ci co stride bottleneck nempty o d data

/-- One iteration of the loop of `OctreeResBlocks.forward`, resblocks.py 118-123. -/
def resStepR (P : Params) (kind : BlockKind) (name : String) (ci co bottleneck : Nat) (nempty : Bool) (o : Octree F) (d : Nat)
    (data : Nat) (i : Nat) : Prog Nat :=
  oneBlockR P kind (name ++ ".resblks." ++ toString i) (if i = 0 then ci else co) co 1 bottleneck nempty o d data

/-- `OctreeResBlocks.forward`, resblocks.py 115-124; without blocks it returns its argument. -/
def resBlocksR (P : Params) (kind : BlockKind) (name : String) (ci co num bottleneck : Nat) (nempty : Bool) (o : Octree F)
    (d : Nat) (data : Nat) : Prog Nat :=
  (List.range num).foldlM (resStepR P kind name ci co bottleneck nempty o d) data

/-! ### lenet.py, resnet.py -/

/-- One iteration of the loop of `LeNet.forward`, lenet.py 40-43. -/
def lenetStepR (P : Params) (cin stages : Nat) (nempty : Bool) (o : Octree F) (depth : Nat) (data : Nat) (i : Nat) : Prog Nat := do
  let d := depth - i
  let data ← convBnReluR P ("convs." ++ toString i) (lenetChannel cin stages i) (lenetChannel cin stages (i + 1)) [3] 1 nempty o d data
  op (maxPool nempty o d) data

/-- `LeNet.forward`, lenet.py 37-46; the voxels and their flattening share their memory. -/
def lenetR (P : Params) (cin cout stages : Nat) (nempty : Bool) (o : Octree F) (depth : Nat) (data : Nat) : Prog Nat := do
  let data ← (List.range stages).foldlM (lenetStepR P cin stages nempty o depth) data
  let data ← op (voxelFlat nempty o (depth - stages)) data
  let data ← dropoutR P "header.0" data
  let data ← fcBnReluR P "header.1" (64 * 64) 128 data
  let data ← dropoutR P "header.2" data
  op (linear P "header.3" 128 cout true) data

/-- One iteration of the loop of `ResNet.forward`, resnet.py 47-50. -/
def resnetStepR (P : Params) (num stages : Nat) (nempty : Bool) (o : Octree F) (depth : Nat) (data : Nat) (i : Nat) : Prog Nat := do
  let d := depth - i - 1
  let data ← resBlocksR P .block ("resblocks." ++ toString i) (resnetChannel stages i) (resnetChannel stages (i + 1)) num 4 nempty o d data
  op (maxPool nempty o d) data

/-- `ResNet.forward`, resnet.py 42-53. -/
def resnetR (P : Params) (cin cout num stages : Nat) (nempty : Bool) (o : Octree F) (depth : Nat) (data : Nat) : Prog Nat := do
  lift (if stages = 0 then .error .index else pure ())
  let data ← convBnReluR P "conv1" cin (resnetChannel stages 0) [3] 1 nempty o depth data
  let data ← op (maxPool nempty o depth) data
  let data ← (List.range (stages - 1)).foldlM (resnetStepR P num stages nempty o depth) data
  let data ← op (globalPool nempty o (depth - stages)) data
  let data ← fcBnReluR P "header.0" (resnetChannel stages (stages - 1)) 512 data
  let data ← dropoutR P "header.1" data
  op (linear P "header.2" 512 cout true) data

/-! ### segnet.py -/

/-- `OctreeMaxPool(nempty, return_indices=True)`: two new tensors. -/
def maxPoolIdxR (nempty : Bool) (o : Octree F) (d : Nat) (data : Nat) : Prog (Nat × Nat) := do
  let t ← read data
  let y ← lift (maxPoolIdx nempty o d t)
  save data
  let out ← alloc y.1
  let indices ← alloc y.2
  pure (out, indices)

/-- One iteration of the encoder loop, segnet.py 54-57. -/
def segnetEncR (P : Params) (cin stages : Nat) (nempty : Bool) (o : Octree F) (depth : Nat)
    (s : Nat × (Nat → Option Nat)) (i : Nat) : Prog (Nat × (Nat → Option Nat)) := do
  let d := depth - i
  let data ← convBnReluR P ("convs." ++ toString i) (segnetIn cin stages i) (segnetIn cin stages (i + 1)) [3] 1 nempty o d s.1
  let r ← maxPoolIdxR nempty o d data
  pure (r.1, fun k => if k = d then some r.2 else s.2 k)

/-- One iteration of the decoder loop, segnet.py 63-66. -/
def segnetDecR (P : Params) (stages : Nat) (nempty : Bool) (o : Octree F) (depth : Nat) (indices : Nat → Option Nat)
    (data : Nat) (i : Nat) : Prog Nat := do
  let d := depth - stages + i
  let ix ← lift (getKey indices (d + 1))
  let data ← op2 (maxUnpool nempty o d) ix data
  convBnReluR P ("deconvs." ++ toString i) (segnetOut stages i) (segnetOut stages (i + 1)) [3] 1 nempty o (d + 1) data

/-- `SegNet.forward`, segnet.py 48-72. -/
def segnetR (P : Params) (cin cout stages : Nat) (method : String) (nempty : Bool) (o : Octree F) (depth : Nat)
    (pts : List Pt4) (data : Nat) : Prog Nat := do
  lift (if stages = 0 then .error .index else pure ())
  let s ← (List.range stages).foldlM (segnetEncR P cin stages nempty o depth) (data, fun _ => none)
  let data ← convBnReluR P "bottleneck" (segnetIn cin stages stages) (segnetIn cin stages stages) [3] 1 false o (depth - stages) s.1
  let data ← (List.range stages).foldlM (segnetDecR P stages nempty o depth s.2) data
  let data ← op (interp method nempty o depth pts) data
  let data ← conv1x1BnReluR P "header.0" (segnetOut stages stages) 64 data
  conv1x1R P "header.1" 64 cout true data

/-! ### unet.py -/

/-- One iteration of the loop of `unet_encoder`, unet.py 77-80: `convd` holds references. -/
def unetEncR (P : Params) (cfg : UNetConfig) (nempty : Bool) (o : Octree F) (depth : Nat) (convd : Nat → Option Nat)
    (i : Nat) : Prog (Nat → Option Nat) := do
  let d := depth - i
  let c0 ← lift (getIdx cfg.encoderChannel (i : Int))
  let c1 ← lift (getIdx cfg.encoderChannel ((i : Int) + 1))
  let n ← lift (getIdx cfg.encoderBlocks (i : Int))
  let x ← lift (getKey convd d)
  let conv ← convBnReluR P ("downsample." ++ toString i) c0 c1 [2] 2 nempty o d x
  let y ← resBlocksR P cfg.resblk ("encoder." ++ toString i) c1 c1 n cfg.bottleneck nempty o (d - 1) conv
  pure fun k => if k = d - 1 then some y else convd k

/-- `unet_encoder`, unet.py 71-81. -/
def unetEncoderR (P : Params) (cfg : UNetConfig) (cin : Nat) (nempty : Bool) (o : Octree F) (depth : Nat) (data : Nat) :
    Prog (Nat → Option Nat) := do
  let c0 ← lift (getIdx cfg.encoderChannel 0)
  let x ← convBnReluR P "conv1" cin c0 [3] 1 nempty o depth data
  (List.range cfg.encoderBlocks.length).foldlM (unetEncR P cfg nempty o depth) fun k => if k = depth then some x else none

/-- One iteration of the loop of `unet_decoder`, unet.py 88-92. -/
def unetDecR (P : Params) (cfg : UNetConfig) (nempty : Bool) (o : Octree F) (depth : Nat) (convd : Nat → Option Nat)
    (deconv : Nat) (i : Nat) : Prog Nat := do
  let d := depth + i
  let c0 ← lift (getIdx cfg.decoderChannel (i : Int))
  let c1 ← lift (getIdx cfg.decoderChannel ((i : Int) + 1))
  let e ← lift (getIdx cfg.encoderChannel (-(i : Int) - 2))
  let n ← lift (getIdx cfg.decoderBlocks (i : Int))
  let deconv ← deconvBnReluR P ("upsample." ++ toString i) c0 c1 [2] 2 nempty o d deconv
  let skip ← lift (getKey convd (d + 1))
  let deconv ← op2 Tensor.cat skip deconv
  resBlocksR P cfg.resblk ("decoder." ++ toString i) (c1 + e) c1 n cfg.bottleneck nempty o (d + 1) deconv

/-- `unet_decoder`, unet.py 83-93. -/
def unetDecoderR (P : Params) (cfg : UNetConfig) (nempty : Bool) (o : Octree F) (depth : Nat) (convd : Nat → Option Nat) :
    Prog Nat := do
  let x ← lift (getKey convd depth)
  (List.range cfg.decoderBlocks.length).foldlM (unetDecR P cfg nempty o depth convd) x

/-- `UNet.forward`, unet.py 95-105. -/
def unetR (P : Params) (cfg : UNetConfig) (cin cout : Nat) (method : String) (nempty : Bool) (o : Octree F) (depth : Nat)
    (pts : List Pt4) (data : Nat) : Prog Nat := do
  let convd ← unetEncoderR P cfg cin nempty o depth data
  let deconv ← unetDecoderR P cfg nempty o (depth - cfg.encoderBlocks.length) convd
  let feature ← op (interp method nempty o (depth - cfg.encoderBlocks.length + cfg.decoderBlocks.length) pts) deconv
  let c ← lift (getIdx cfg.decoderChannel (-1))
  let t ← conv1x1BnReluR P "header.0" c cfg.headChannel feature
  conv1x1R P "header.1" cfg.headChannel cout true t

/-! ### hrnet.py -/

/-- One iteration of the loop of `Branches.forward`, hrnet.py 31-33. -/
def branchAtR (P : Params) (name : String) (channels : List Nat) (num : Nat) (nempty : Bool) (o : Octree F) (depth : Nat)
    (datas : List Nat) (i : Nat) : Prog Nat := do
  let c ← lift (getIdx channels (i : Int))
  let x ← lift (getIdx datas (i : Int))
  resBlocksR P .block (name ++ ".resblocks." ++ toString i) c c num (if c < 256 then 4 else 8) nempty o (depth - i) x

/-- `Branches.forward`, hrnet.py 26-34. -/
def branchesR (P : Params) (name : String) (channels : List Nat) (num : Nat) (nempty : Bool) (o : Octree F) (depth : Nat)
    (datas : List Nat) : Prog (List Nat) := do
  lift (pyAssert (datas.length = channels.length))
  (List.range channels.length).mapM (branchAtR P name channels num nempty o depth datas)

/-- One pooling of hrnet.py 54 and 147. -/
def poolStepR (nempty : Bool) (o : Octree F) (d : Nat) (data : Nat) (i : Nat) : Prog Nat := op (maxPool nempty o (d - i)) data

/-- One upsampling of hrnet.py 62. -/
def upStepR (nempty : Bool) (o : Octree F) (d : Nat) (data : Nat) (i : Nat) : Prog Nat := op (upsample nempty o (d + i)) data

/-- The first loop of `TransFunc.forward`, hrnet.py 53-54. -/
def poolDownR (nempty : Bool) (o : Octree F) (d n : Nat) (data : Nat) : Prog Nat :=
  (List.range n).foldlM (poolStepR nempty o d) data

/-- The second loop of `TransFunc.forward`, hrnet.py 61-62. -/
def upsampleUpR (nempty : Bool) (o : Octree F) (d n : Nat) (data : Nat) : Prog Nat :=
  (List.range n).foldlM (upStepR nempty o d) data

/-- `TransFunc.forward`, hrnet.py 48-63: with equal depths it returns its argument. -/
def transFuncR (P : Params) (name : String) (ci co : Nat) (nempty : Bool) (o : Octree F) (din dout : Nat) (data : Nat) :
    Prog Nat := do
  let out ← (if din > dout then do
      let out ← poolDownR nempty o din (din - dout) data
      if ci ≠ co then conv1x1BnReluR P (name ++ ".conv1x1") ci co out else pure out
    else pure data : Prog Nat)
  if din < dout then do
    let out ← (if ci ≠ co then conv1x1BnReluR P (name ++ ".conv1x1") ci co out else pure out : Prog Nat)
    upsampleUpR nempty o din (dout - din) out
  else pure out

/-- `features[j][i]`, hrnet.py 84-88. -/
def transAtR (P : Params) (name : String) (channels : List Nat) (nempty : Bool) (o : Octree F) (depth : Nat) (data : List Nat)
    (j i : Nat) : Prog Nat := do
  let ci ← lift (getIdx channels (i : Int))
  let cj ← lift (getIdx channels (j : Int))
  let x ← lift (getIdx data (i : Int))
  transFuncR P (name ++ ".trans_func." ++ toString (i * channels.length + j)) ci cj nempty o (depth - i) (depth - j) x

/-- `features[j]`, hrnet.py 82-88. -/
def transRowR (P : Params) (name : String) (channels : List Nat) (nempty : Bool) (o : Octree F) (depth : Nat) (data : List Nat)
    (j : Nat) : Prog (List Nat) :=
  (List.range (channels.length - 1)).mapM (transAtR P name channels nempty o depth data j)

/-- `out[j]`, hrnet.py 93. -/
def transOutR (P : Params) (name : String) (channels : List Nat) (nempty : Bool) (o : Octree F) (depth : Nat) (data : List Nat)
    (j : Nat) : Prog Nat := do
  let fs ← transRowR P name channels nempty o depth data j
  opList sumTensors fs

/-- `Transitions.forward`, hrnet.py 78-94, output by output as in `transitions`. -/
def transitionsR (P : Params) (name : String) (channels : List Nat) (nempty : Bool) (o : Octree F) (depth : Nat) (data : List Nat) :
    Prog (List Nat) :=
  (List.range channels.length).mapM (transOutR P name channels nempty o depth data)

/-- One iteration of the loop of `FrontLayer.forward`, hrnet.py 113-116. -/
def frontStepR (P : Params) (channels : List Nat) (nempty : Bool) (o : Octree F) (depth : Nat) (data : Nat) (i : Nat) : Prog Nat := do
  let c0 ← lift (getIdx channels (i : Int))
  let c1 ← lift (getIdx channels ((i : Int) + 1))
  let data ← convBnReluR P ("front.conv." ++ toString i) c0 c1 [3] 1 nempty o (depth - i) data
  op (maxPool nempty o (depth - i)) data

/-- `FrontLayer.forward`, hrnet.py 111-118. -/
def frontLayerR (P : Params) (channels : List Nat) (nempty : Bool) (o : Octree F) (depth : Nat) (data : Nat) : Prog Nat := do
  let num := channels.length - 1
  let data ← (List.range (num - 1)).foldlM (frontStepR P channels nempty o depth) data
  let c0 ← lift (getIdx channels (-2))
  let c1 ← lift (getIdx channels (-1))
  convBnReluR P ("front.conv." ++ toString (num - 1)) c0 c1 [3] 1 nempty o (depth - num + 1) data

/-- One iteration of the outer loop of `ClsHeader.forward`, hrnet.py 144-147. -/
def headerPoolR (nempty : Bool) (o : Octree F) (depth : Nat) (data : List Nat) (i : Nat) : Prog Nat := do
  let x ← lift (getIdx data (i : Int))
  poolDownR nempty o (depth - i) (depth - i - 2) x

/-- `ClsHeader.forward`, hrnet.py 140-153; `Flatten` returns its argument. -/
def clsHeaderR (P : Params) (channels : List Nat) (cout : Nat) (nempty : Bool) (o : Octree F) (depth : Nat) (data : List Nat) :
    Prog Nat := do
  let outs ← (List.range data.length).mapM (headerPoolR nempty o depth data)
  let out ← opList catTensors outs
  let out ← conv1x1BnReluR P "cls_header.conv1x1" channels.sum 1024 out
  let out ← op (globalPool nempty o 2) out
  op (linear P "cls_header.header.1" 1024 cout true) out

/-- One iteration of the loop of `HRNet.forward`, hrnet.py 185-188. -/
def hrnetStepR (P : Params) (channels : List Nat) (num stages : Nat) (nempty : Bool) (o : Octree F) (depth : Nat) (convs : List Nat)
    (i : Nat) : Prog (List Nat) := do
  let convs ← branchesR P ("branches." ++ toString i) (channels.take (i + 1)) num nempty o depth convs
  if i < stages - 1 then transitionsR P ("transitions." ++ toString i) (channels.take (i + 2)) nempty o depth convs
  else pure convs

/-- `HRNet.forward`, hrnet.py 181-192. -/
def hrnetR (P : Params) (cin cout stages : Nat) (nempty : Bool) (o : Octree F) (depth : Nat) (data : Nat) : Prog Nat := do
  let t ← frontLayerR P [cin, 32, 128] nempty o depth data
  let convs ← (List.range stages).foldlM (hrnetStepR P hrnetChannels 3 stages nempty o (depth - 1)) [t]
  clsHeaderR P (hrnetChannels.take stages) cout nempty o (depth - 1) convs

/-! ### autoencoder.py -/

/-- One iteration of the loop of `AutoEncoder.encoder`, autoencoder.py 80-83. -/
def aeEncStepR (P : Params) (depth full : Nat) (o : Octree F) (data : Nat) (i : Nat) : Prog Nat := do
  let d := depth - i
  let c ← lift (getIdx aeChannels (d : Int))
  let data ← resBlocksR P .block ("encoder_blks." ++ toString i) c c 2 4 false o d data
  if d > full then do
    let c' ← lift (getIdx aeChannels ((d - 1 : Nat) : Int))
    convBnReluR P ("downsample." ++ toString i) c c' [2] 2 false o d data
  else pure data

/-- `AutoEncoder.encoder`, autoencoder.py 71-87. -/
def aeEncoderR (P : Params) (cin depth full : Nat) (o : Octree F) (data : Nat) : Prog Nat := do
  let c ← lift (getIdx aeChannels (depth : Int))
  let cf ← lift (getIdx aeChannels (full : Int))
  let x ← read data
  lift (pyAssert (x.width = cin))
  let t ← convBnReluR P "conv1" cin c [3] 1 false o depth data
  lift (if full > depth then .error .key else pure ())
  let t ← (List.range (depth + 1 - full)).foldlM (aeEncStepR P depth full o) t
  let code ← op (linear P "proj" cf 64 true) t
  tanhN P code

/-- `_make_predict_module(ci, co)`, autoencoder.py 66-69. -/
def predictModuleR (P : Params) (name : String) (ci co : Nat) (data : Nat) : Prog Nat := do
  let t ← conv1x1BnReluR P (name ++ ".0") ci 64 data
  conv1x1R P (name ++ ".1") 64 co true t

/-- The part of an iteration of the loop of `AutoEncoder.decoder` that runs the network, autoencoder.py 97-104. -/
def aeLevelR (P : Params) (cfg : DecCfg) (full : Nat) (o : Octree F) (data : Nat) (i : Nat) : Prog (Nat × Nat) := do
  let d := full + i
  let c ← lift (getIdx (cfg.channels full) (d : Int))
  let t ← (if 0 < i then do
      let c0 ← lift (getIdx (cfg.channels full) ((d - 1 : Nat) : Int))
      deconvBnReluR P ("upsample." ++ toString (i - 1)) c0 c [2] 2 false o (d - 1) data
    else pure data : Prog Nat)
  let t ← resBlocksR P .block ("decoder_blks." ++ toString i) c c 2 4 false o d t
  let logit ← predictModuleR P ("predict." ++ toString i) c 2 t
  pure (t, logit)

/-- The octree, the features and the logits of the depths done so far. -/
structure AeStateR (F : Type) where
  octree : Octree F
  deconv : Nat
  logits : List Nat

/-- One iteration of the loop of `AutoEncoder.decoder`, autoencoder.py 97-111. -/
def aeDecStepR (P : Params) (cfg : DecCfg) (depth full : Nat) (update : Bool) (st : AeStateR F) (i : Nat) : Prog (AeStateR F) := do
  let r ← aeLevelR P cfg full st.octree st.deconv i
  let o ← (if update then do
      let logit ← read r.2
      lift (aeUpdate depth (full + i) logit st.octree)
    else pure st.octree : Prog (Octree F))
  pure ⟨o, r.1, st.logits ++ [r.2]⟩

/-- `AutoEncoder.decoder`, autoencoder.py 89-121. -/
def aeDecoderR (P : Params) (cfg : DecCfg) (cout depth full : Nat) (update : Bool) (code : Nat) (o : Octree F) : Prog (AeStateR F) := do
  let st ← (List.range (depth + 1 - full)).foldlM (aeDecStepR P cfg depth full update) ⟨o, code, []⟩
  let c ← lift (getIdx (cfg.channels full) (depth : Int))
  let signal ← predictModuleR P "header" c cout st.deconv
  let signal ← tanhN P signal
  let signal ← op (depad st.octree depth) signal
  pure ⟨st.octree, signal, st.logits⟩

/-- `AutoEncoder.decode_code` with `init_octree`, autoencoder.py 123-146. -/
def aeDecodeCodeR (P : Params) (cfg : DecCfg) (cout depth full device : Nat) (code : Nat) : Prog (AeStateR F) := do
  let x ← read code
  let o ← lift (Octree.initOctree depth full (x.rows.length / 2 ^ (3 * full)) device)
  aeDecoderR P cfg cout depth full true code o

/-- `AutoEncoder.forward`, autoencoder.py 148-155. -/
def autoEncoderR (P : Params) (cin cout depth full : Nat) (o : Octree F) (update : Bool) (data : Nat) : Prog (AeStateR F) := do
  let code ← aeEncoderR P cin depth full o data
  if update then aeDecodeCodeR P aeCfg cout depth full o.device code
  else aeDecoderR P aeCfg cout depth full false code o

end Mem
end Ocnn
