import Verif.Solver
import Mathlib.Logic.Equiv.Fin.Basic

/-! Model of ocnn/models/image2shape.py and projects/image2shape.py.  The image encoder (torchvision's `resnet18` with the replaced last layer) is an arbitrary function from a batch of
images to rows.  The decoder is the one of the autoencoder with other channels. -/

namespace Ocnn
variable {F I : Type}

/-- The channels of `Image2Shape`, image2shape.py 33-34. -/
@[reducible] def i2sCfg (code : Nat) : DecCfg := ⟨[512, 512, 256, 256, 128, 128, 64, 64, 32, 32], code⟩

/-- `shape_code.view(-1, code_channel)`, image2shape.py 124, for rows of `n * code` numbers (`n = 2 ** (3 * full_depth)`, image2shape.py 38-39): the
`k`-th row that comes from a row `v` has the numbers `v[k * code]`, ..., `v[k * code + code - 1]`. -/
def viewCode (n code : Nat) (x : List (Fin (n * code) → ℚ)) : List (Fin code → ℚ) :=
  x.flatMap fun v => List.ofFn fun k : Fin n => fun i => v (finProdFinEquiv (k, i))

/-- `Image2Shape.forward(image, octree, update_octree)`, image2shape.py 119-128, with `decoder` (60-92) and `init_octree` (105-117). Without an octree and without
update the decoder raises AttributeError. -/
def image2shape (P : Params) (code cout depth full : Nat) (enc : List I → M (List (Fin (2 ^ (3 * full) * code) → ℚ))) (device : Nat)
    (images : List I) (octree : Option (Octree F)) (update : Bool) : M (AeState F) := do
  let rows ← enc images
  let x := viewCode (2 ^ (3 * full)) code rows
  if update then aeDecodeCode P (i2sCfg code) cout depth full device ⟨code, x⟩
  else do
    let o ← (match octree with | some o => .ok o | none => .error .type : M (Octree F))
    aeDecoder P (i2sCfg code) cout depth full false ⟨code, x⟩ o

/-- `Image2ShapeSolver.model_forward(batch)`, projects/image2shape.py 31-36. -/
def i2sForward {k : Nat} (P : Params) (nll : (Fin 2 → ℚ) → Bool → ℚ) (code cout depth full : Nat) (enc : List I → M (List (Fin (2 ^ (3 * full) * code) → ℚ)))
    (device : Nat) (images : List I) (o : Octree (Fin k → ℚ)) : M AeLoss := do
  let st ← image2shape P code cout depth full enc device images (some o) false
  computeLoss nll full o st.logits st.deconv

/-- The point clouds of `Image2ShapeSolver.eval_step(batch)`, projects/image2shape.py 38-42: `model(image, update_octree=True)` and `octree2pts` (`channel_out = 4`). -/
def i2sEval (F : Type) (P : Params) (nrm : V3 ℚ → V3 ℚ) (code depth full : Nat) (enc : List I → M (List (Fin (2 ^ (3 * full) * code) → ℚ)))
    (device : Nat) (images : List I) : M (List (List (V3 ℚ × V3 ℚ))) :=
  evalClouds nrm depth (image2shape (F := F) P code 4 depth full enc device images none true)

end Ocnn
