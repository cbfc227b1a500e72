import Verif.NetLayers

/-! Model of training steps of `OctreeResBlocks` with the running statistics of batch normalization, which `NetLayers` leaves out, and with
`torch.utils.checkpoint` (resblocks.py 118-123).  A checkpointed block keeps only its input; in the backward pass the block is run again on it.
The values of weights and gradients are not modelled: a step is the forward pass and what the backward pass runs again. -/

namespace Ocnn
variable {F : Type}

/-- The buffers `running_mean` and `running_var` of the batch normalizations, by the name of the module. -/
structure RunStats where
  mean : String → Nat → ℚ
  var : String → Nat → ℚ

/-- The unbiased variance of column `i`. -/
def colVarU {c : Nat} (x : List (Fin c → ℚ)) (i : Fin c) : ℚ :=
  (x.map fun v => (v i - colMean x i) * (v i - colMean x i)).sum / ((x.length : ℚ) - 1)

/-- The update of the buffers by `torch.nn.BatchNorm1d` when training, with the default momentum 0.1: the mean and the unbiased variance of
the input. -/
def RunStats.update (s : RunStats) (name : String) (t : Tensor) : RunStats where
  mean n i := if h : n = name ∧ i < t.width then (1 - 1 / 10) * s.mean n i + 1 / 10 * colMean t.rows ⟨i, h.2⟩ else s.mean n i
  var n i := if h : n = name ∧ i < t.width then (1 - 1 / 10) * s.var n i + 1 / 10 * colVarU t.rows ⟨i, h.2⟩ else s.var n i

/-- The parameters with the current buffers. -/
def Params.withStats (P : Params) (s : RunStats) : Params := { P with bnMean := s.mean, bnVar := s.var }

/-- Computations that read and update the buffers. -/
abbrev Tr (α : Type) := StateT RunStats (Except Err) α

/-- A layer without buffers. -/
def plainLayer (x : M Tensor) : Tr Tensor := fun s => x >>= fun y => .ok (y, s)

/-- `torch.nn.BatchNorm1d(c)` with its buffers; the check for a single row comes before the update. -/
def batchNormS (P : Params) (name : String) (c : Nat) (t : Tensor) : Tr Tensor := fun s => do
  let y ← batchNorm (P.withStats s) name c t
  pure (y, if P.training then s.update name t else s)

/-- `OctreeConvBn.forward`, modules.py 45-50. -/
def convBnS (P : Params) (name : String) (ci co : Nat) (nempty : Bool) (o : Octree F) (d : Nat) (t : Tensor) : Tr Tensor := do
  let t ← plainLayer (octreeConv P (name ++ ".conv") ci co [3] 1 nempty o d t)
  batchNormS P (name ++ ".bn") co t

/-- `OctreeConvBnRelu.forward`, modules.py 68-74. -/
def convBnReluS (P : Params) (name : String) (ci co : Nat) (nempty : Bool) (o : Octree F) (d : Nat) (t : Tensor) : Tr Tensor := do
  let t ← plainLayer (octreeConv P (name ++ ".conv") ci co [3] 1 nempty o d t)
  let t ← batchNormS P (name ++ ".bn") co t
  pure (relu t)

/-- `Conv1x1Bn.forward`, modules.py 128-133. -/
def conv1x1BnS (P : Params) (name : String) (ci co : Nat) (t : Tensor) : Tr Tensor := do
  let t ← plainLayer (conv1x1 P (name ++ ".conv") ci co false t)
  batchNormS P (name ++ ".bn") co t

/-- `Conv1x1BnRelu.forward`, modules.py 146-152. -/
def conv1x1BnReluS (P : Params) (name : String) (ci co : Nat) (t : Tensor) : Tr Tensor := do
  let t ← plainLayer (conv1x1 P (name ++ ".conv") ci co false t)
  let t ← batchNormS P (name ++ ".bn") co t
  pure (relu t)

/-- `OctreeResBlock.forward` with stride 1, resblocks.py 48-60. -/
def resBlockS (P : Params) (name : String) (ci co bottleneck : Nat) (nempty : Bool) (o : Octree F) (d : Nat) (t : Tensor) : Tr Tensor := do
  let cb ← (bottleneckChannels co bottleneck : M Nat)
  let conv1 ← conv1x1BnReluS P (name ++ ".conv1x1a") ci cb t
  let conv2 ← convBnReluS P (name ++ ".conv3x3") cb cb nempty o d conv1
  let conv3 ← conv1x1BnS P (name ++ ".conv1x1b") cb co conv2
  let data ← (if ci ≠ co then conv1x1BnS P (name ++ ".conv1x1c") ci co t else pure t : Tr Tensor)
  let out ← plainLayer (conv3.add data)
  pure (relu out)

/-- `OctreeResBlock2.forward` with stride 1, resblocks.py 86-97. -/
def resBlock2S (P : Params) (name : String) (ci co bottleneck : Nat) (nempty : Bool) (o : Octree F) (d : Nat) (t : Tensor) : Tr Tensor := do
  let cb ← (bottleneckChannels co bottleneck : M Nat)
  let conv1 ← convBnReluS P (name ++ ".conv3x3a") ci cb nempty o d t
  let conv2 ← convBnS P (name ++ ".conv3x3b") cb co nempty o d conv1
  let data ← (if ci ≠ co then conv1x1BnS P (name ++ ".conv1x1") ci co t else pure t : Tr Tensor)
  let out ← plainLayer (conv2.add data)
  pure (relu out)

/-- Block `i` of `OctreeResBlocks`, resblocks.py 110-113. -/
def blockS (P : Params) (kind : BlockKind) (name : String) (ci co bottleneck : Nat) (nempty : Bool) (o : Octree F) (d : Nat)
    (t : Tensor) (i : Nat) : Tr Tensor :=
  match kind with
  | .block => resBlockS P (name ++ ".resblks." ++ toString i) (if i = 0 then ci else co) co bottleneck nempty o d t
  | .block2 => resBlock2S P (name ++ ".resblks." ++ toString i) (if i = 0 then ci else co) co bottleneck nempty o d t

/-- The forward pass of `OctreeResBlocks`, resblocks.py 115-124: the output and the inputs of the blocks with their numbers, the last block
first, which is what the checkpoints keep. -/
def blocksS (P : Params) (kind : BlockKind) (name : String) (ci co num bottleneck : Nat) (nempty : Bool) (o : Octree F) (d : Nat)
    (t : Tensor) : Tr (Tensor × List (Nat × Tensor)) :=
  (List.range num).foldlM (fun st i => do
    let y ← blockS P kind name ci co bottleneck nempty o d st.1 i
    pure (y, (i, st.1) :: st.2)) (t, [])

/-- A step of training or evaluation with the output of `OctreeResBlocks(..., use_checkpoint)` and the backward pass: the output, and the
outputs of the blocks that are run again, the last block first. -/
def stepS (P : Params) (kind : BlockKind) (name : String) (ci co num bottleneck : Nat) (nempty : Bool) (o : Octree F) (d : Nat)
    (useCheckpoint : Bool) (t : Tensor) : Tr (Tensor × List Tensor) := do
  let r ← blocksS P kind name ci co num bottleneck nempty o d t
  let again ← (if useCheckpoint then r.2.mapM fun p => blockS P kind name ci co bottleneck nempty o d p.2 p.1 else pure [] : Tr (List Tensor))
  pure (r.1, again)

end Ocnn
