import Verif.Networks
import Verif.OctreeIO
import Verif.Projects

/-! Model of the steps of projects/segmentation.py and projects/classification.py that lead from a batch of point clouds to the predictions of
the network. -/

namespace Ocnn

variable {F L : Type} {k : Nat}

/-- The options of the model section of the configuration file: `FLAGS.MODEL`, and `FLAGS.LOSS.mask`. -/
structure ModelFlags where
  name : String
  channel : Nat
  nout : Nat
  stages : Nat
  resblockNum : Nat
  interp : String
  nempty : Bool
  feature : String
  mask : Int

/-- Octree of one sample: `Octree(depth, full_depth)` and `build_octree(points)`, segmentation.py 53-56 (also `points2octree` of
dataset.py 98-104, for the other projects); device 0 is the cpu, the default of the constructor. -/
def points2octree [AddCommMonoid F] (nrm : V3 ℚ → V3 ℚ) (divF : ℚ → F → F) (depth full : Nat) (pc : Points ℚ F L) : M (Octree F) := do
  let r ← Octree.build nrm divF (Octree.new depth full 1 0) pc
  pure r.1

/-- The octree of a batch, segmentation.py 63-65 (`CollateBatch`, dataset.py 143-150, in the other projects). -/
def batchOctree [AddCommMonoid F] (nrm : V3 ℚ → V3 ℚ) (divF : ℚ → F → F) (depth full : Nat) (pcs : List (Points ℚ F L)) : M (Octree F) := do
  let os ← pcs.mapM (points2octree nrm divF depth full)
  let o ← Octree.merge os
  o.constructAllNeigh

/-- `SegSolver.process_batch`, segmentation.py 52-68, for a batch that contains the point clouds only; moving the tensors to the GPU is left out. -/
def processBatch [AddCommMonoid F] (nrm : V3 ℚ → V3 ℚ) (divF : ℚ → F → F) (depth full : Nat) (pcs : List (Points ℚ F L)) :
    M (Octree F × Points ℚ F L) := do
  let o ← batchOctree nrm divF depth full pcs
  let p ← Points.merge pcs true
  pure (o, p)

/-- Rows of numbers as a tensor of width `c`; the first layer of a network raises when the width is a different one. -/
def Tensor.ofRows (c : Nat) (rows : List (List ℚ)) : M Tensor :=
  if ∀ r ∈ rows, r.length = c then .ok ⟨c, rows.map fun r i => r.getD i 0⟩ else .error .shape

/-- `get_input_feature`, segmentation.py 46-50 and classification.py 36-40. -/
def inputTensor (fl : ModelFlags) (o : Octree (Fin k → ℚ)) : M Tensor := do
  let rows ← o.inputFeature fl.feature fl.nempty
  Tensor.ofRows fl.channel rows

/-- `torch.cat([points.points, points.batch_id], dim=1)`, segmentation.py 73. -/
def queryPoints (p : Points ℚ F L) : M (List Pt4) := do
  let ids ← need p.batchId
  if p.points.length = ids.length then .ok (List.zipWith (fun v (b : Int) => (v, (b : ℚ))) p.points ids) else .error .shape

/-- `SegSolver.get_model`, segmentation.py 25-34, and the call of the model. -/
def segModel (P : Params) (fl : ModelFlags) (o : Octree F) (depth : Nat) (pts : List Pt4) (t : Tensor) : M Tensor :=
  if fl.name.toLower = "segnet" then segnet P fl.channel fl.nout fl.stages fl.interp fl.nempty o depth pts t
  else if fl.name.toLower = "unet" then unet P unetConfig fl.channel fl.nout fl.interp fl.nempty o depth pts t
  else .error .value

/-- `SegSolver.model_forward`, segmentation.py 70-78. -/
def segForward (P : Params) (fl : ModelFlags) (b : Octree (Fin k → ℚ) × Points ℚ (Fin k → ℚ) Int) : M (Tensor × List Int) := do
  let data ← inputTensor fl b.1
  let pts ← queryPoints b.2
  let logit ← segModel P fl b.1 b.1.depth pts data
  let labels ← need b.2.labels
  let mask := labels.map fun l => decide (l > fl.mask)
  let rows ← boolIndex mask logit.rows
  let label ← boolIndex mask labels
  pure (⟨logit.width, rows⟩, label)

/-- The computation of the logits and labels in `train_step`, `test_step` and `eval_step`, segmentation.py 81-82, 88-90, 103-105. -/
def segStep (P : Params) (fl : ModelFlags) (nrm : V3 ℚ → V3 ℚ) (divF : ℚ → (Fin k → ℚ) → (Fin k → ℚ)) (depth full : Nat)
    (pcs : List (Points ℚ (Fin k → ℚ) Int)) : M (Tensor × List Int) := do
  let b ← processBatch nrm divF depth full pcs
  segForward P fl b

/-- `ClsSolver.get_model`, classification.py 19-31, and the call of the model. -/
def clsModel (P : Params) (fl : ModelFlags) (o : Octree F) (depth : Nat) (t : Tensor) : M Tensor :=
  if fl.name.toLower = "lenet" then lenet P fl.channel fl.nout fl.stages fl.nempty o depth t
  else if fl.name.toLower = "resnet" then resnet P fl.channel fl.nout fl.resblockNum fl.stages fl.nempty o depth t
  else if fl.name.toLower = "hrnet" then hrnet P fl.channel fl.nout fl.stages fl.nempty o depth t
  else .error .value

/-- The logits of `ClsSolver.forward`, classification.py 48-50, for the octree of a batch of clouds. -/
def clsStep (P : Params) (fl : ModelFlags) (nrm : V3 ℚ → V3 ℚ) (divF : ℚ → (Fin k → ℚ) → (Fin k → ℚ)) (depth full : Nat)
    (pcs : List (Points ℚ (Fin k → ℚ) L)) : M Tensor := do
  let o ← batchOctree nrm divF depth full pcs
  let data ← inputTensor fl o
  clsModel P fl o o.depth data

end Ocnn
