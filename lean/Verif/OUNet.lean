import Verif.AutoEncoder

/-! Model of ocnn/models/ounet.py, which derives from `AutoEncoder`.  The constructor (`ounetInit` in `AutoEncoder`) raises; the methods are modelled for an object
that has the layers of `AutoEncoder` (with a channel number `code` at the full depth of the decoder).  The input feature is an argument: `encoder` (line 31) asks for it
by `self.get_input_feature`, a method that neither `OUNet` nor `AutoEncoder` has.  The assignment `octree_out.features[depth] = signal` (line 71) is not modelled,
the signal is returned. -/

namespace Ocnn
variable {F : Type}

/-- `convs[d]` of a dictionary from depths to tensors (ounet.py 32): KeyError if there is no entry. -/
def getConv (convs : Nat → Option Tensor) (d : Nat) : M Tensor :=
  match convs d with
  | some t => .ok t
  | none => .error .key

/-- `convs[d] = t`, ounet.py 32-36. -/
def setConv (convs : Nat → Option Tensor) (d : Nat) (t : Tensor) : Nat → Option Tensor := fun e => if e = d then some t else convs e

/-- One iteration of the loop of `OUNet.encoder`, ounet.py 33-36. -/
def ouEncStep (P : Params) (depth full : Nat) (o : Octree F) (convs : Nat → Option Tensor) (i : Nat) : M (Nat → Option Tensor) := do
  let d := depth - i
  let c ← getIdx aeChannels (d : Int)
  let t ← getConv convs d
  let t ← resBlocks P .block ("encoder_blks." ++ toString i) c c 2 4 false o d t
  let convs := setConv convs d t
  if d > full then do
    let c' ← getIdx aeChannels ((d - 1 : Nat) : Int)
    let s ← convBnRelu P ("downsample." ++ toString i) c c' [2] 2 false o d t
    pure (setConv convs (d - 1) s)
  else pure convs

/-- `OUNet.encoder`, ounet.py 25-37: the features of all depths. -/
def ouEncoder (P : Params) (cin depth full : Nat) (o : Octree F) (data : Tensor) : M (Nat → Option Tensor) := do
  let c ← getIdx aeChannels (depth : Int)
  let t ← convBnRelu P "conv1" cin c [3] 1 false o depth data
  (List.range (depth + 1 - full)).foldlM (ouEncStep P depth full o) (setConv (fun _ => none) depth t)

/-- `octree_align(t, octree_in, octree_out, d)`, ounet.py 50. -/
def alignT (oin oout : Octree F) (d : Nat) (t : Tensor) : M Tensor := do
  let y ← octreeAlign t.rows oin oout d false
  pure ⟨t.width, y⟩

/-- The part of an iteration of the loop of `OUNet.decoder` that runs the network, ounet.py 47-56: the features and the logits of depth `full + i`. -/
def ouLevel (P : Params) (cfg : DecCfg) (full : Nat) (oin : Octree F) (convs : Nat → Option Tensor) (o : Octree F) (t : Tensor) (i : Nat) : M (Tensor × Tensor) := do
  let d := full + i
  let c ← getIdx (cfg.channels full) (d : Int)
  let t ← (if 0 < i then do
      let c0 ← getIdx (cfg.channels full) ((d - 1 : Nat) : Int)
      let t ← deconvBnRelu P ("upsample." ++ toString (i - 1)) c0 c [2] 2 false o (d - 1) t
      let s ← getConv convs d
      let s ← alignT oin o d s
      t.add s
    else pure t : M Tensor)
  let t ← resBlocks P .block ("decoder_blks." ++ toString i) c c 2 4 false o d t
  let logit ← predictModule P ("predict." ++ toString i) c 2 t
  pure (t, logit)

/-- One iteration of the loop of `OUNet.decoder`, ounet.py 47-63, for the part `lev` that runs the network. -/
def levelStep (lev : Octree F → Tensor → Nat → M (Tensor × Tensor)) (depth full : Nat) (update : Bool) (st : AeState F) (i : Nat) : M (AeState F) := do
  let r ← lev st.octree st.deconv i
  let o ← (if update then aeUpdate depth (full + i) r.2 st.octree else pure st.octree : M (Octree F))
  pure ⟨o, r.1, st.logits ++ [r.2]⟩

/-- The loop of `OUNet.decoder`, ounet.py 47-71, for the part `lev` that runs the network; the header runs in the last iteration, after the update. -/
def levelDecoder (lev : Octree F → Tensor → Nat → M (Tensor × Tensor)) (P : Params) (cfg : DecCfg) (cout depth full : Nat) (update : Bool) (t : Tensor)
    (o : Octree F) : M (AeState F) := do
  let st ← (List.range (depth + 1 - full)).foldlM (levelStep lev depth full update) ⟨o, t, []⟩
  let c ← getIdx (cfg.channels full) (depth : Int)
  let signal ← predictModule P "header" c cout st.deconv
  let signal ← depad st.octree depth (tanhT P signal)
  pure ⟨st.octree, signal, st.logits⟩

/-- `OUNet.decoder`, ounet.py 39-73. With `full_depth > depth` there is no `convs[full_depth]`. -/
def ouDecoder (P : Params) (cfg : DecCfg) (cout depth full : Nat) (update : Bool) (convs : Nat → Option Tensor) (oin oout : Octree F) : M (AeState F) := do
  let t ← getConv convs full
  levelDecoder (ouLevel P cfg full oin convs) P cfg cout depth full update t oout

/-- The channels of an `OUNet` whose decoder starts with `code` channels: those of `AutoEncoder.__init__` (autoencoder.py 38, 53), which is called by ounet.py 21-22. -/
@[reducible] def ouCfg (code : Nat) : DecCfg := ⟨aeChannels, code⟩

/-- `OUNet.forward`, ounet.py 86-94, with `init_octree`, ounet.py 75-84. -/
def ouNet (P : Params) (code cin cout depth full : Nat) (oin : Octree F) (oout : Option (Octree F)) (update : Bool) (data : Tensor) : M (AeState F) := do
  let r ← (match oout with
    | some o => pure (update, o)
    | none => do
      let o ← Octree.initOctree depth full oin.batchSize oin.device
      pure (true, o) : M (Bool × Octree F))
  let convs ← ouEncoder P cin depth full oin data
  ouDecoder P (ouCfg code) cout depth full r.1 convs oin r.2

end Ocnn
