import Verif.Octree

/-! Model of the octree generation in the decoders (ocnn/models/autoencoder.py). -/

namespace Ocnn
variable {F : Type}

/-- `logit.argmax(1).int()` for two logits per node (autoencoder.py 108): 1 iff the second logit is
strictly larger (torch returns the first maximal index; ties are implementation-defined in torch and are
resolved here to 0). -/
def argmax2 (l : ℚ × ℚ) : Int := if l.1 < l.2 then 1 else 0

namespace Octree

/-- One iteration of the loop in `AutoEncoder.decoder` with `update_octree=True`, autoencoder.py 97-111.
`predict` stands for the network: an arbitrary function of the octree built so far and the depth. -/
def decodeStep (predict : Octree F → Nat → List Int) (o : Octree F) (d : Nat) : M (Octree F) := do
  let o ← o.split (predict o d) d
  if d < o.depth then o.grow d true else pure o

/-- The first `n` iterations, autoencoder.py 97. -/
def decode (predict : Octree F → Nat → List Int) (n : Nat) (o : Octree F) : M (Octree F) :=
  (List.range n).foldlM (fun o i => decodeStep predict o (o.fullDepth + i)) o

/-- `decode_code`: `init_octree` followed by all iterations, autoencoder.py 123-146. -/
def decodeCode (predict : Octree F → Nat → List Int) (depth fullDepth batchSize device : Nat) :
    M (Octree F) := do
  let o ← initOctree depth fullDepth batchSize device
  decode predict (depth + 1 - fullDepth) o

end Octree
end Ocnn
