import Verif.Tensors
import Verif.Kitti
import Verif.FileLists
import Verif.Dataset

/-! Model of the tools for checkpoints: projects/tools/upgrade_ckpt.py, cleanup_ckpt.py and parse_ckpt.py. -/

namespace Ocnn

/-- A stored tensor: its shape and its entries in row-major order. -/
structure Stored where
  shape : List Nat
  data : List ℚ
  deriving DecidableEq

/-- `val.view(val.shape[0], -1, last_dim)`, upgrade_ckpt.py 19: the entries stay in place.  The size of the second
dimension is inferred; this raises if the number of entries does not fit or if the other sizes multiply to 0. -/
def viewLast (val : Stored) (last : Nat) : M Stored := do
  let s0 ← getIdx val.shape 0
  if s0 * last = 0 ∨ val.data.length % (s0 * last) ≠ 0 then .error .shape
  pure ⟨[s0, val.data.length / (s0 * last), last], val.data⟩

/-- `.permute(2, 1, 0)` of a tensor with three dimensions, upgrade_ckpt.py 19: entry `(k, i, o)` of the result is entry
`(o, i, k)` of the tensor. -/
def permute210 (val : Stored) : M Stored :=
  match val.shape with
  | [a, b, c] => .ok ⟨[c, b, a], (List.range c).flatMap fun k => (List.range b).flatMap fun i => (List.range a).map fun o =>
      val.data.getD ((o * b + i) * c + k) 0⟩
  | _ => .error .shape

/-- `val.squeeze(2)`, upgrade_ckpt.py 26: a third dimension of size 1 is removed, other sizes are left alone. -/
def squeeze2 (val : Stored) : M Stored := do
  let s ← getIdx val.shape 2
  pure (if s = 1 then ⟨val.shape.eraseIdx 2, val.data⟩ else val)

/-- The loop body of upgrade_ckpt.py 14-33: the new name and the new tensor. -/
def upgradeEntry (key : String) (val : Stored) : M (String × Stored) :=
  if hasSub "conv.weight" key then do
    let last := if hasSub "downsample" key || hasSub "upsample" key then 8 else 27
    let v ← viewLast val last
    let v ← permute210 v
    pure (key, v)
  else if hasSub "conv1x1.weight" key then do
    let newKey := if hasSub "conv1x1.conv1x1" key then strReplace key "conv1x1.conv1x1" "conv.linear" else strReplace key "conv1x1" "linear"
    let v ← squeeze2 val
    pure (newKey, v)
  else if hasSub "conv1x1.bias" key then
    pure (strReplace key "conv1x1.bias" "linear.bias", val)
  else pure (key, val)

/-- upgrade_ckpt.py 13-33: the dictionary that is saved. -/
def upgradeCkpt (weights : Dict Stored) : M (Dict Stored) := do
  let entries ← weights.mapM fun e => upgradeEntry e.1 e.2
  pure (entries.foldl (fun d e => Dict.set d e.1 e.2) [])

/-- cleanup_ckpt.py 24-29 for one folder of checkpoints: the files that are removed. `ckpts[:-2] + ckpts[-1:]`. -/
def cleanupRemoved (listdir : List String) : List String :=
  let ckpts := pySorted listdir
  if ckpts.length = 1 then []
  else ckpts.take (ckpts.length - 2) ++ ckpts.drop (ckpts.length - 1)

/-- The loop of `list_var`, parse_ckpt.py 28-43: the lines `counter, name, shape, number` and the total. The variables
`total_num` and `counter` are the accumulators. -/
def listVarLoop (skips : List String) : List (String × List Nat) → Nat → Nat → List (Nat × String × List Nat × Nat) × Nat
  | [], _, total => ([], total)
  | (name, shape) :: vars, counter, total =>
    if skips.any fun s => hasSub s name then listVarLoop skips vars counter total
    else
      let r := listVarLoop skips vars (counter + 1) (total + shape.prod)
      ((counter, name, shape, shape.prod) :: r.1, r.2)

/-- `list_var()`, parse_ckpt.py 24-45: the printed lines and the printed total. -/
def listVar (skips : List String) (vars : List (String × List Nat)) : List (Nat × String × List Nat × Nat) × Nat :=
  listVarLoop skips vars 0 0

end Ocnn
