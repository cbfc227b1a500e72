import Verif.AutoEncoder
import Verif.OctreeIO
import Verif.Projects

/-! Model of projects/autoencoder.py: the losses and the reconstructed point clouds of `AutoEncoderSolver`. -/

namespace Ocnn

variable {F : Type} {k : Nat}

/-! ### octree2pts -/

/-- One row of `point_cloud`, autoencoder.py 94-100: the point and its normal from the coordinates of the octant and the four channels of
the signal; `nrm` is `F.normalize`. -/
def decodePoint (nrm : V3 ℚ → V3 ℚ) (depth : Nat) (v : Int × Int × Int × Int) (s : Fin 4 → ℚ) : V3 ℚ × V3 ℚ :=
  let normal := nrm ⟨s 0, s 1, s 2⟩
  let xyz : V3 ℚ := ⟨(v.1 : ℚ) + 1 / 2 + s 3 * normal.x, (v.2.1 : ℚ) + 1 / 2 + s 3 * normal.y, (v.2.2.1 : ℚ) + 1 / 2 + s 3 * normal.z⟩
  (xyz.map fun q => q / (2 : ℚ) ^ ((depth : ℤ) - 1) - 1, normal)

/-- `octree2pts(octree)`, autoencoder.py 89-105, for a signal with four channels.  If the numbers of rows of the coordinates and of the signal
differ, the addition, `torch.cat` or `torch.split` raises RuntimeError. -/
def octree2pts (nrm : V3 ℚ → V3 ℚ) (o : Octree (Fin 4 → ℚ)) : M (List (List (V3 ℚ × V3 ℚ))) := do
  let signal ← need (o.features o.depth)
  let t ← o.xyzb o.depth true
  let cloud ← (if t.length = signal.length then .ok (List.zipWith (decodePoint nrm o.depth) t signal) else .error .shape : M (List (V3 ℚ × V3 ℚ)))
  let b ← o.batchId o.depth true
  torchSplit cloud ((List.range o.batchSize).map fun i => b.countP (· == i))

/-- `octree.features[depth] = signal`, models/autoencoder.py 118-119, for an octree made by `init_octree`, which has no other features. -/
def withSignal (o : Octree F) (depth : Nat) (s : List (Fin 4 → ℚ)) : Octree (Fin 4 → ℚ) :=
  { depth := o.depth, fullDepth := o.fullDepth, batchSize := o.batchSize, device := o.device, keys := o.keys, children := o.children,
    neighs := o.neighs, features := fun d => if d = depth then some s else none, normals := o.normals, points := o.points, nnum := o.nnum,
    nnumNempty := o.nnumNempty, batchNnum := o.batchNnum, batchNnumNempty := o.batchNnumNempty }

/-- `octree2pts(output['octree_out'])` for the output of a run of a decoder with `channel_out = 4`, projects/autoencoder.py 71-73, projects/image2shape.py 41-42. -/
def evalClouds (nrm : V3 ℚ → V3 ℚ) (depth : Nat) (run : M (AeState F)) : M (List (List (V3 ℚ × V3 ℚ))) := do
  let st ← run
  let s ← st.deconv.as 4 .shape
  octree2pts nrm (withSignal st.octree depth s)

/-- The point clouds of `eval_step(batch)`, autoencoder.py 69-73: `model(octree, update_octree=True)` and `octree2pts` (`channel_out = 4`). -/
def aeEval (P : Params) (nrm : V3 ℚ → V3 ℚ) (cin depth full : Nat) (o : Octree F) (data : Tensor) : M (List (List (V3 ℚ × V3 ℚ))) :=
  evalClouds nrm depth (autoEncoder P cin 4 depth full o true data)

/-! ### compute_loss -/

/-- The results of `compute_loss`: `loss_d` and `accu_d` for the depths `full`, ..., `depth`, and `loss_reg`. -/
structure AeLoss where
  loss : List ℚ
  accu : List ℚ
  reg : ℚ

/-- The dictionary `output` before line 50 of autoencoder.py, with its keys in the order of insertion (37-46); `full` is the first depth. -/
def AeLoss.items (full : Nat) (l : AeLoss) : Dict ℚ :=
  ((l.loss.zip l.accu).zipIdx.flatMap fun p => [("loss_" ++ toString (full + p.2), p.1.1), ("accu_" ++ toString (full + p.2), p.1.2)]) ++ [("loss_reg", l.reg)]

/-- `output['loss']`, autoencoder.py 49-50: the sum of the values whose key contains `loss`. -/
def AeLoss.total (full : Nat) (l : AeLoss) : ℚ := (((l.items full).filter fun e => hasSub "loss" e.1).map Prod.snd).sum

/-- The mean of a tensor; the mean over nothing is not a number: `.domain`. -/
def meanOf (t : List ℚ) : M ℚ := if t.length = 0 then .error .domain else .ok (t.sum / (t.length : ℚ))

/-- `F.cross_entropy(logit, label)` for two classes and labels 0 and 1, autoencoder.py 40; `nll` is the negative log-likelihood of one row. -/
def crossEntropy (nll : (Fin 2 → ℚ) → Bool → ℚ) (logit : List (Fin 2 → ℚ)) (label : List Bool) : M ℚ :=
  if logit.length = label.length then meanOf (List.zipWith nll logit label) else .error .value

/-- `logit.argmax(1).eq(label).float().mean()`, autoencoder.py 41. -/
def splitAccuracy (logit : List (Fin 2 → ℚ)) (label : List Bool) : M ℚ :=
  if logit.length = label.length then
    meanOf (List.zipWith (fun v b => if argmax2 (v 0, v 1) = (if b then 1 else 0) then 1 else 0) logit label)
  else .error .shape

/-- The loop of `compute_loss` at depth `d`, autoencoder.py 37-41. -/
def lossAt (nll : (Fin 2 → ℚ) → Bool → ℚ) (o : Octree F) (d : Nat) (logit : Tensor) : M (ℚ × ℚ) := do
  let x ← logit.as 2 .value
  let label ← o.nemptyMask d
  let l ← crossEntropy nll x label
  let a ← splitAccuracy x label
  pure (l, a)

/-- `torch.mean(torch.sum((signal_gt - signal)**2, dim=1))`, autoencoder.py 46.  Simplified: tensors of different shapes raise; PyTorch broadcasts
a tensor with one row or one column. -/
def regLoss (gt : List (List ℚ)) (signal : Tensor) : M ℚ :=
  if gt.length = signal.rows.length ∧ (gt.all fun r => r.length == signal.width) = true then
    meanOf (List.zipWith (fun (g : List ℚ) v => (List.zipWith (fun a b => (a - b) ^ 2) g (List.ofFn v)).sum) gt signal.rows)
  else .error .shape

/-- `compute_loss(octree, model_out)`, autoencoder.py 33-51; the keys of `logits` are `full`, `full + 1`, ... -/
def computeLoss (nll : (Fin 2 → ℚ) → Bool → ℚ) (full : Nat) (o : Octree (Fin k → ℚ)) (logits : List Tensor) (signal : Tensor) : M AeLoss := do
  let r ← logits.zipIdx.mapM fun p => lossAt nll o (full + p.2) p.1
  let gt ← o.inputFeature "ND" true
  let reg ← regLoss gt signal
  pure ⟨r.map Prod.fst, r.map Prod.snd, reg⟩

/-- `model_forward(batch)`, autoencoder.py 53-57. -/
def aeForward (P : Params) (nll : (Fin 2 → ℚ) → Bool → ℚ) (cin cout depth full : Nat) (o : Octree (Fin k → ℚ)) (data : Tensor) : M AeLoss := do
  let st ← autoEncoder P cin cout depth full o false data
  computeLoss nll full o st.logits st.deconv

end Ocnn
