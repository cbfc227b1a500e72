import Verif.Networks

/-! Model of ocnn/models/autoencoder.py.  The input feature (`get_input_feature`, modelled in `Utils`) is an argument. The
assignment `octree.features[depth] = signal` (line 119) is not modelled; the signal is returned. -/

namespace Ocnn
variable {F : Type}

/-- `self.channels`, autoencoder.py 38. -/
def aeChannels : List Nat := [512, 512, 256, 256, 128, 128, 32, 32, 16, 16]

/-- The channels of a decoder: those of the constructor and `code_channel`.  The decoders of `AutoEncoder` (autoencoder.py 53-64, 89-121) and of `Image2Shape`
(image2shape.py 41-58, 60-92) are the same program with different channels. -/
structure DecCfg where
  base : List Nat
  code : Nat

/-- `self.channels` after `self.channels[full_depth] = self.code_channel`, autoencoder.py 53, image2shape.py 42. -/
def DecCfg.channels (cfg : DecCfg) (full : Nat) : List Nat := cfg.base.set full cfg.code

/-- The channels of `AutoEncoder`, autoencoder.py 37-38. -/
@[reducible] def aeCfg : DecCfg := ⟨aeChannels, 64⟩

/-- One iteration of the loop of `AutoEncoder.encoder`, autoencoder.py 80-83.  Of the dictionary `convs` only the last
entry is read, so it is the state. -/
def aeEncStep (P : Params) (depth full : Nat) (o : Octree F) (t : Tensor) (i : Nat) : M Tensor := do
  let d := depth - i
  let c ← getIdx aeChannels (d : Int)
  let t ← resBlocks P .block ("encoder_blks." ++ toString i) c c 2 4 false o d t
  if d > full then do
    let c' ← getIdx aeChannels ((d - 1 : Nat) : Int)
    convBnRelu P ("downsample." ++ toString i) c c' [2] 2 false o d t
  else pure t

/-- `AutoEncoder.encoder`, autoencoder.py 71-87. With `full_depth > depth` there is no `convs[full_depth]`. -/
def aeEncoder (P : Params) (cin depth full : Nat) (o : Octree F) (data : Tensor) : M Tensor := do
  let c ← getIdx aeChannels (depth : Int)
  let cf ← getIdx aeChannels (full : Int)
  pyAssert (data.width = cin)
  let t ← convBnRelu P "conv1" cin c [3] 1 false o depth data
  if full > depth then .error .key
  let t ← (List.range (depth + 1 - full)).foldlM (aeEncStep P depth full o) t
  let code ← linear P "proj" cf 64 true t
  pure (tanhT P code)

/-- `_make_predict_module(ci, co)`, autoencoder.py 66-69. -/
def predictModule (P : Params) (name : String) (ci co : Nat) (t : Tensor) : M Tensor := do
  let t ← conv1x1BnRelu P (name ++ ".0") ci 64 t
  conv1x1 P (name ++ ".1") 64 co true t

/-- The part of an iteration of the loop of `AutoEncoder.decoder` that runs the network, autoencoder.py 97-104: the features and the
logits of depth `full + i`. -/
def aeLevel (P : Params) (cfg : DecCfg) (full : Nat) (o : Octree F) (t : Tensor) (i : Nat) : M (Tensor × Tensor) := do
  let d := full + i
  let c ← getIdx (cfg.channels full) (d : Int)
  let t ← (if 0 < i then do
      let c0 ← getIdx (cfg.channels full) ((d - 1 : Nat) : Int)
      deconvBnRelu P ("upsample." ++ toString (i - 1)) c0 c [2] 2 false o (d - 1) t
    else pure t : M Tensor)
  let t ← resBlocks P .block ("decoder_blks." ++ toString i) c c 2 4 false o d t
  let logit ← predictModule P ("predict." ++ toString i) c 2 t
  pure (t, logit)

/-- `logit.argmax(1).int()`, autoencoder.py 108. -/
def splitOf (logit : Tensor) : M (List Int) := do
  let x ← logit.as 2 .shape
  pure (x.map fun v => argmax2 (v 0, v 1))

/-- The update of the octree, autoencoder.py 107-111. -/
def aeUpdate (depth d : Nat) (logit : Tensor) (o : Octree F) : M (Octree F) := do
  let split ← splitOf logit
  let o ← o.split split d
  if d < depth then o.grow d true else pure o

/-- The octree, the features and the logits of the depths done so far. -/
structure AeState (F : Type) where
  octree : Octree F
  deconv : Tensor
  logits : List Tensor

/-- One iteration of the loop of `AutoEncoder.decoder`, autoencoder.py 97-111. -/
def aeDecStep (P : Params) (cfg : DecCfg) (depth full : Nat) (update : Bool) (st : AeState F) (i : Nat) : M (AeState F) := do
  let r ← aeLevel P cfg full st.octree st.deconv i
  let o ← (if update then aeUpdate depth (full + i) r.2 st.octree else pure st.octree : M (Octree F))
  pure ⟨o, r.1, st.logits ++ [r.2]⟩

/-- `AutoEncoder.decoder`, autoencoder.py 89-121: the octree, the signal and the logits of the depths `full_depth`, ..., `depth`. -/
def aeDecoder (P : Params) (cfg : DecCfg) (cout depth full : Nat) (update : Bool) (code : Tensor) (o : Octree F) : M (AeState F) := do
  let st ← (List.range (depth + 1 - full)).foldlM (aeDecStep P cfg depth full update) ⟨o, code, []⟩
  let c ← getIdx (cfg.channels full) (depth : Int)
  let signal ← predictModule P "header" c cout st.deconv
  let signal ← depad st.octree depth (tanhT P signal)
  pure ⟨st.octree, signal, st.logits⟩

/-- `AutoEncoder.decode_code` with `init_octree`, autoencoder.py 123-146. -/
def aeDecodeCode (P : Params) (cfg : DecCfg) (cout depth full device : Nat) (code : Tensor) : M (AeState F) := do
  let o ← Octree.initOctree depth full (code.rows.length / 2 ^ (3 * full)) device
  aeDecoder P cfg cout depth full true code o

/-- `AutoEncoder.forward`, autoencoder.py 148-155. -/
def autoEncoder (P : Params) (cin cout depth full : Nat) (o : Octree F) (update : Bool) (data : Tensor) : M (AeState F) := do
  let code ← aeEncoder P cin depth full o data
  if update then aeDecodeCode P aeCfg cout depth full o.device code
  else aeDecoder P aeCfg cout depth full false code o

/-! ### ounet.py, the constructor -/

/-- How Python binds the arguments of a call to the parameters of a function without `*args` and `**kwargs`: `params` are the names
with a mark for those that have a default value, `npos` the number of positional arguments, `kw` the names of the keyword arguments.
TypeError for too many arguments, for an unknown or repeated name, and for a missing argument. -/
def pyBind (params : List (String × Bool)) (npos : Nat) (kw : List String) : M Unit :=
  if params.length < npos then .error .type
  else if (kw.all fun k => ((params.drop npos).map Prod.fst).contains k) = false then .error .type
  else if ((params.drop npos).all fun p => p.2 || kw.contains p.1) = false then .error .type
  else .ok ()

/-- The parameters of `AutoEncoder.__init__` and of `OUNet.__init__` (the same), autoencoder.py 28-29 and ounet.py 19-20. -/
def aeParams : List (String × Bool) :=
  [("channel_in", false), ("channel_out", false), ("depth", false), ("full_depth", true), ("feature", true)]

/-- `OUNet(...)`, ounet.py 19-23, up to the binding of the arguments of `super().__init__`. -/
def ounetInit (npos : Nat) (kw : List String) : M Unit := do
  pyBind aeParams npos kw
  pyBind aeParams 5 ["code_channel"]

end Ocnn
