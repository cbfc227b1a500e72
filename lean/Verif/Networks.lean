import Verif.NetLayers
import Verif.OctreeIO
import Verif.Decoder

/-! Model of the networks, ocnn/models. -/

namespace Ocnn
variable {F : Type}

/-! ### lenet.py -/

/-- `channels`, lenet.py 24. -/
def lenetChannel (cin stages i : Nat) : Nat := if i = 0 then cin else 2 ^ max (i - 1 + 7 - stages) 2

/-- One iteration of the loop of `LeNet.forward`, lenet.py 40-43. -/
def lenetStep (P : Params) (cin stages : Nat) (nempty : Bool) (o : Octree F) (depth : Nat) (t : Tensor) (i : Nat) : M Tensor := do
  let d := depth - i
  let t ← convBnRelu P ("convs." ++ toString i) (lenetChannel cin stages i) (lenetChannel cin stages (i + 1)) [3] 1 nempty o d t
  maxPool nempty o d t

/-- `LeNet(cin, cout, stages, nempty)`, lenet.py 13-46. -/
def lenet (P : Params) (cin cout stages : Nat) (nempty : Bool) (o : Octree F) (depth : Nat) (t : Tensor) : M Tensor := do
  let t ← (List.range stages).foldlM (lenetStep P cin stages nempty o depth) t
  let t ← voxelFlat nempty o (depth - stages) t
  let t ← fcBnRelu P "header.1" (64 * 64) 128 (dropout P "header.0" t)
  linear P "header.3" 128 cout true (dropout P "header.2" t)

/-! ### resnet.py -/

/-- `channels`, resnet.py 25. -/
def resnetChannel (stages i : Nat) : Nat := 2 ^ max (i + 9 - stages) 2

/-- One iteration of the loop of `ResNet.forward`, resnet.py 47-50. -/
def resnetStep (P : Params) (num stages : Nat) (nempty : Bool) (o : Octree F) (depth : Nat) (t : Tensor) (i : Nat) : M Tensor := do
  let d := depth - i - 1
  let t ← resBlocks P .block ("resblocks." ++ toString i) (resnetChannel stages i) (resnetChannel stages (i + 1)) num 4 nempty o d t
  maxPool nempty o d t

/-- `ResNet(cin, cout, num, stages, nempty)`, resnet.py 13-53; without stages the constructor raises at `channels[0]`. -/
def resnet (P : Params) (cin cout num stages : Nat) (nempty : Bool) (o : Octree F) (depth : Nat) (t : Tensor) : M Tensor := do
  if stages = 0 then .error .index
  let t ← convBnRelu P "conv1" cin (resnetChannel stages 0) [3] 1 nempty o depth t
  let t ← maxPool nempty o depth t
  let t ← (List.range (stages - 1)).foldlM (resnetStep P num stages nempty o depth) t
  let t ← globalPool nempty o (depth - stages) t
  let t ← fcBnRelu P "header.0" (resnetChannel stages (stages - 1)) 512 t
  linear P "header.2" 512 cout true (dropout P "header.1" t)

/-! ### segnet.py -/

/-- `channels_stages`, segnet.py 26. -/
def segnetChannel (stages i : Nat) : Nat := 2 ^ max (i + 8 - stages) 2

/-- `[in_channels] + channels_stages`, segnet.py 27. -/
def segnetIn (cin stages i : Nat) : Nat := if i = 0 then cin else segnetChannel stages (i - 1)

/-- `channels_stages[::-1] + [channels_stages[0]]`, segnet.py 36. -/
def segnetOut (stages i : Nat) : Nat := if i < stages then segnetChannel stages (stages - 1 - i) else segnetChannel stages 0

/-- One iteration of the encoder loop, segnet.py 54-57; the dictionary `indices` is a function. -/
def segnetEnc (P : Params) (cin stages : Nat) (nempty : Bool) (o : Octree F) (depth : Nat)
    (s : Tensor × (Nat → Option Tensor)) (i : Nat) : M (Tensor × (Nat → Option Tensor)) := do
  let d := depth - i
  let t ← convBnRelu P ("convs." ++ toString i) (segnetIn cin stages i) (segnetIn cin stages (i + 1)) [3] 1 nempty o d s.1
  let r ← maxPoolIdx nempty o d t
  pure (r.1, fun k => if k = d then some r.2 else s.2 k)

/-- A dictionary lookup `dict[k]`. -/
def getKey {α : Type} (dict : Nat → Option α) (k : Nat) : M α :=
  match dict k with
  | some v => .ok v
  | none => .error .key

/-- One iteration of the decoder loop, segnet.py 63-66. -/
def segnetDec (P : Params) (stages : Nat) (nempty : Bool) (o : Octree F) (depth : Nat) (indices : Nat → Option Tensor)
    (t : Tensor) (i : Nat) : M Tensor := do
  let d := depth - stages + i
  let ix ← getKey indices (d + 1)
  let t ← maxUnpool nempty o d ix t
  convBnRelu P ("deconvs." ++ toString i) (segnetOut stages i) (segnetOut stages (i + 1)) [3] 1 nempty o (d + 1) t

/-- `SegNet(cin, cout, stages, interp, nempty)`, segnet.py 13-72; the bottleneck is constructed without `nempty`, line 34;
without stages `channels_stages[0]` raises. -/
def segnet (P : Params) (cin cout stages : Nat) (method : String) (nempty : Bool) (o : Octree F) (depth : Nat)
    (pts : List Pt4) (t : Tensor) : M Tensor := do
  if stages = 0 then .error .index
  let s ← (List.range stages).foldlM (segnetEnc P cin stages nempty o depth) (t, fun _ => none)
  let t ← convBnRelu P "bottleneck" (segnetIn cin stages stages) (segnetIn cin stages stages) [3] 1 false o (depth - stages) s.1
  let t ← (List.range stages).foldlM (segnetDec P stages nempty o depth s.2) t
  let t ← interp method nempty o depth pts t
  let t ← conv1x1BnRelu P "header.0" (segnetOut stages stages) 64 t
  conv1x1 P "header.1" 64 cout true t

/-! ### unet.py -/

/-- The attributes set by `config_network`, unet.py 59-69 (subclasses may override it). -/
structure UNetConfig where
  encoderChannel : List Nat
  decoderChannel : List Nat
  encoderBlocks : List Nat
  decoderBlocks : List Nat
  headChannel : Nat
  bottleneck : Nat
  resblk : BlockKind

/-- `UNet.config_network`, unet.py 59-69. -/
def unetConfig : UNetConfig where
  encoderChannel := [32, 32, 64, 128, 256]
  decoderChannel := [256, 256, 128, 96, 96]
  encoderBlocks := [2, 3, 4, 6]
  decoderBlocks := [2, 2, 2, 2]
  headChannel := 64
  bottleneck := 1
  resblk := .block2

/-- One iteration of the loop of `unet_encoder`, unet.py 77-80. -/
def unetEnc (P : Params) (cfg : UNetConfig) (nempty : Bool) (o : Octree F) (depth : Nat) (convd : Nat → Option Tensor)
    (i : Nat) : M (Nat → Option Tensor) := do
  let d := depth - i
  let c0 ← getIdx cfg.encoderChannel (i : Int)
  let c1 ← getIdx cfg.encoderChannel ((i : Int) + 1)
  let n ← getIdx cfg.encoderBlocks (i : Int)
  let x ← getKey convd d
  let conv ← convBnRelu P ("downsample." ++ toString i) c0 c1 [2] 2 nempty o d x
  let y ← resBlocks P cfg.resblk ("encoder." ++ toString i) c1 c1 n cfg.bottleneck nempty o (d - 1) conv
  pure fun k => if k = d - 1 then some y else convd k

/-- `unet_encoder`, unet.py 71-81. -/
def unetEncoder (P : Params) (cfg : UNetConfig) (cin : Nat) (nempty : Bool) (o : Octree F) (depth : Nat) (t : Tensor) :
    M (Nat → Option Tensor) := do
  let c0 ← getIdx cfg.encoderChannel 0
  let x ← convBnRelu P "conv1" cin c0 [3] 1 nempty o depth t
  (List.range cfg.encoderBlocks.length).foldlM (unetEnc P cfg nempty o depth) fun k => if k = depth then some x else none

/-- One iteration of the loop of `unet_decoder`, unet.py 88-92, with `channel[i]` of lines 42-43. -/
def unetDec (P : Params) (cfg : UNetConfig) (nempty : Bool) (o : Octree F) (depth : Nat) (convd : Nat → Option Tensor)
    (t : Tensor) (i : Nat) : M Tensor := do
  let d := depth + i
  let c0 ← getIdx cfg.decoderChannel (i : Int)
  let c1 ← getIdx cfg.decoderChannel ((i : Int) + 1)
  let e ← getIdx cfg.encoderChannel (-(i : Int) - 2)
  let n ← getIdx cfg.decoderBlocks (i : Int)
  let t ← deconvBnRelu P ("upsample." ++ toString i) c0 c1 [2] 2 nempty o d t
  let skip ← getKey convd (d + 1)
  let t ← skip.cat t
  resBlocks P cfg.resblk ("decoder." ++ toString i) (c1 + e) c1 n cfg.bottleneck nempty o (d + 1) t

/-- `unet_decoder`, unet.py 83-93. -/
def unetDecoder (P : Params) (cfg : UNetConfig) (nempty : Bool) (o : Octree F) (depth : Nat) (convd : Nat → Option Tensor) :
    M Tensor := do
  let x ← getKey convd depth
  (List.range cfg.decoderBlocks.length).foldlM (unetDec P cfg nempty o depth convd) x

/-- `UNet(cin, cout, interp, nempty)`, unet.py 16-105. -/
def unet (P : Params) (cfg : UNetConfig) (cin cout : Nat) (method : String) (nempty : Bool) (o : Octree F) (depth : Nat)
    (pts : List Pt4) (t : Tensor) : M Tensor := do
  let convd ← unetEncoder P cfg cin nempty o depth t
  let deconv ← unetDecoder P cfg nempty o (depth - cfg.encoderBlocks.length) convd
  let feature ← interp method nempty o (depth - cfg.encoderBlocks.length + cfg.decoderBlocks.length) pts deconv
  let c ← getIdx cfg.decoderChannel (-1)
  let t ← conv1x1BnRelu P "header.0" c cfg.headChannel feature
  conv1x1 P "header.1" cfg.headChannel cout true t

/-! ### hrnet.py -/

/-- One iteration of the loop of `Branches.forward`, hrnet.py 31-33. -/
def branchAt (P : Params) (name : String) (channels : List Nat) (num : Nat) (nempty : Bool) (o : Octree F) (depth : Nat)
    (datas : List Tensor) (i : Nat) : M Tensor := do
  let c ← getIdx channels (i : Int)
  let x ← getIdx datas (i : Int)
  resBlocks P .block (name ++ ".resblocks." ++ toString i) c c num (if c < 256 then 4 else 8) nempty o (depth - i) x

/-- `Branches(channels, num, nempty)`, hrnet.py 15-34. -/
def branches (P : Params) (name : String) (channels : List Nat) (num : Nat) (nempty : Bool) (o : Octree F) (depth : Nat)
    (datas : List Tensor) : M (List Tensor) := do
  pyAssert (datas.length = channels.length)
  (List.range channels.length).mapM (branchAt P name channels num nempty o depth datas)

/-- One pooling of hrnet.py 54 and 147. -/
def poolStep (nempty : Bool) (o : Octree F) (d : Nat) (t : Tensor) (i : Nat) : M Tensor := maxPool nempty o (d - i) t

/-- One upsampling of hrnet.py 62. -/
def upStep (nempty : Bool) (o : Octree F) (d : Nat) (t : Tensor) (i : Nat) : M Tensor := upsample nempty o (d + i) t

/-- The first loop of `TransFunc.forward`, hrnet.py 53-54: `n` poolings from depth `d`. -/
def poolDown (nempty : Bool) (o : Octree F) (d n : Nat) (t : Tensor) : M Tensor :=
  (List.range n).foldlM (poolStep nempty o d) t

/-- The second loop of `TransFunc.forward`, hrnet.py 61-62: `n` upsamplings from depth `d`. -/
def upsampleUp (nempty : Bool) (o : Octree F) (d n : Nat) (t : Tensor) : M Tensor :=
  (List.range n).foldlM (upStep nempty o d) t

/-- `TransFunc(ci, co, nempty)`, hrnet.py 37-63. -/
def transFunc (P : Params) (name : String) (ci co : Nat) (nempty : Bool) (o : Octree F) (din dout : Nat) (t : Tensor) :
    M Tensor := do
  let out ← (if din > dout then do
      let out ← poolDown nempty o din (din - dout) t
      if ci ≠ co then conv1x1BnRelu P (name ++ ".conv1x1") ci co out else pure out
    else pure t : M Tensor)
  if din < dout then do
    let out ← (if ci ≠ co then conv1x1BnRelu P (name ++ ".conv1x1") ci co out else pure out : M Tensor)
    upsampleUp nempty o din (dout - din) out
  else pure out

/-- `torch.stack(features, dim=0).sum(dim=0)` -/
def sumTensors : List Tensor → M Tensor
  | [] => .error .shape
  | t :: ts => ts.foldlM Tensor.add t

/-- `features[j][i]`, hrnet.py 84-88. -/
def transAt (P : Params) (name : String) (channels : List Nat) (nempty : Bool) (o : Octree F) (depth : Nat) (data : List Tensor)
    (j i : Nat) : M Tensor := do
  let ci ← getIdx channels (i : Int)
  let cj ← getIdx channels (j : Int)
  let x ← getIdx data (i : Int)
  transFunc P (name ++ ".trans_func." ++ toString (i * channels.length + j)) ci cj nempty o (depth - i) (depth - j) x

/-- `features[j]`, hrnet.py 82-88: all inputs but the last brought to depth `depth - j`. -/
def transRow (P : Params) (name : String) (channels : List Nat) (nempty : Bool) (o : Octree F) (depth : Nat) (data : List Tensor)
    (j : Nat) : M (List Tensor) :=
  (List.range (channels.length - 1)).mapM (transAt P name channels nempty o depth data j)

/-- `out[j]`, hrnet.py 93. -/
def transOut (P : Params) (name : String) (channels : List Nat) (nempty : Bool) (o : Octree F) (depth : Nat) (data : List Tensor)
    (j : Nat) : M Tensor := do
  let fs ← transRow P name channels nempty o depth data j
  sumTensors fs

/-- `Transitions(channels, nempty)`, hrnet.py 66-94.  The features are computed output by output (the code: input by
input; the calls are independent). -/
def transitions (P : Params) (name : String) (channels : List Nat) (nempty : Bool) (o : Octree F) (depth : Nat) (data : List Tensor) :
    M (List Tensor) :=
  (List.range channels.length).mapM (transOut P name channels nempty o depth data)

/-- One iteration of the loop of `FrontLayer.forward`, hrnet.py 113-116. -/
def frontStep (P : Params) (channels : List Nat) (nempty : Bool) (o : Octree F) (depth : Nat) (t : Tensor) (i : Nat) : M Tensor := do
  let c0 ← getIdx channels (i : Int)
  let c1 ← getIdx channels ((i : Int) + 1)
  let t ← convBnRelu P ("front.conv." ++ toString i) c0 c1 [3] 1 nempty o (depth - i) t
  maxPool nempty o (depth - i) t

/-- `FrontLayer(channels, nempty)`, hrnet.py 97-118. -/
def frontLayer (P : Params) (channels : List Nat) (nempty : Bool) (o : Octree F) (depth : Nat) (t : Tensor) : M Tensor := do
  let num := channels.length - 1
  let t ← (List.range (num - 1)).foldlM (frontStep P channels nempty o depth) t
  let c0 ← getIdx channels (-2)
  let c1 ← getIdx channels (-1)
  convBnRelu P ("front.conv." ++ toString (num - 1)) c0 c1 [3] 1 nempty o (depth - num + 1) t

/-- `torch.cat(outs, dim=1)` -/
def catTensors : List Tensor → M Tensor
  | [] => .error .value
  | t :: ts => ts.foldlM Tensor.cat t

/-- One iteration of the outer loop of `ClsHeader.forward`, hrnet.py 144-147: pooling down to depth 2. -/
def headerPool (nempty : Bool) (o : Octree F) (depth : Nat) (data : List Tensor) (i : Nat) : M Tensor := do
  let x ← getIdx data (i : Int)
  poolDown nempty o (depth - i) (depth - i - 2) x

/-- `ClsHeader(channels, cout, nempty)`, hrnet.py 121-153. -/
def clsHeader (P : Params) (channels : List Nat) (cout : Nat) (nempty : Bool) (o : Octree F) (depth : Nat) (data : List Tensor) :
    M Tensor := do
  let outs ← (List.range data.length).mapM (headerPool nempty o depth data)
  let out ← catTensors outs
  let out ← conv1x1BnRelu P "cls_header.conv1x1" channels.sum 1024 out
  let out ← globalPool nempty o 2 out
  linear P "cls_header.header.1" 1024 cout true out

/-- One iteration of the loop of `HRNet.forward`, hrnet.py 185-188. -/
def hrnetStep (P : Params) (channels : List Nat) (num stages : Nat) (nempty : Bool) (o : Octree F) (depth : Nat) (convs : List Tensor)
    (i : Nat) : M (List Tensor) := do
  let convs ← branches P ("branches." ++ toString i) (channels.take (i + 1)) num nempty o depth convs
  if i < stages - 1 then transitions P ("transitions." ++ toString i) (channels.take (i + 2)) nempty o depth convs
  else pure convs

/-- `self.channels`, hrnet.py 169. -/
def hrnetChannels : List Nat := [128, 256, 512, 512]

/-- `HRNet(cin, cout, stages, interp, nempty)`, hrnet.py 156-192. -/
def hrnet (P : Params) (cin cout stages : Nat) (nempty : Bool) (o : Octree F) (depth : Nat) (t : Tensor) : M Tensor := do
  let t ← frontLayer P [cin, 32, 128] nempty o depth t
  let convs ← (List.range stages).foldlM (hrnetStep P hrnetChannels 3 stages nempty o (depth - 1)) [t]
  clsHeader P (hrnetChannels.take stages) cout nempty o (depth - 1) convs

end Ocnn
