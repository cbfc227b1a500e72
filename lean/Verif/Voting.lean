import Verif.Projects
import Verif.ScanTools

/-! Model of the evaluation of ScanNet by voting: the files written by `eval_step` (projects/segmentation.py), the labels
written by `generate_output_seg` and the numbers printed by `calc_iou` (projects/tools/seg_scannet.py), in the order of
`validate` (projects/scripts/run_seg_scannet.py). -/

namespace Ocnn

/-- The state of the solver in an evaluation, segmentation.py 126-135: the attribute `eval_rst` and the files
`<name>.eval.npz` that were written, by `<name>`. -/
structure EvalState (V : Type) where
  rst : Dict (List V)
  files : Dict (List V)

section
variable {V : Type} [Add V] [Zero V]

/-- The loop body of `eval_step`, segmentation.py 115-135: the sums of a file are written in the last epoch.  Simplified:
the file is known by `filename[:-4]`, the folder and the suffix `.eval.npz` are left out. -/
def evalSampleSave (evalEpoch epoch : Int) (probs : List (List V)) (b : EvalBatch V) (st : EvalState V) (i : Nat) :
    M (EvalState V) := do
  let rst ← evalSample probs b st.rst i
  let filename ← getIdx b.filename i
  if evalEpoch - 1 = epoch then
    match rst.lookup filename with
    | some t => pure ⟨rst, st.files.set (dropLast filename 4) t⟩
    | none => .error .key
  else pure ⟨rst, st.files⟩

/-- `eval_step(batch)`, segmentation.py 102-135, with the epoch `batch['epoch']`. -/
def evalStepSave (softmax : V → V) (mask : Int) (evalEpoch epoch : Int) (st : EvalState V) (b : EvalBatch V) :
    M (EvalState V) := do
  let logit ← modelForward mask b
  let probs ← torchSplit (logit.map softmax) b.npts
  (List.range b.inbox.length).foldlM (evalSampleSave evalEpoch epoch probs b) st

/-- The calls of `eval_step` (segmentation.py 102-135) by the solver, which is not part of the repository: epochs 0, 1, …
up to `eval_epoch`, and in each the batches of the test data. -/
def evalAll (softmax : V → V) (mask : Int) (epochs : List (List (EvalBatch V))) : M (EvalState V) :=
  epochs.zipIdx.foldlM (fun st p => p.1.foldlM (evalStepSave softmax mask epochs.length p.2) st) ⟨[], []⟩

end

/-- `generate_output_seg()`, seg_scannet.py 258-296: the labels written for each scene.  `words` are the first words of
the lines of the file list, `pred` and `maskOf` read the prediction and the mask of a file, a row of probabilities is a
function on the classes. -/
def outputSeg {n : Nat} {K : Type} [Field K] [LinearOrder K] (ids : List Nat) (pred : String → M (List (Fin n → K)))
    (maskOf : String → M (List Bool)) (words : List String) : M (Dict (List Nat)) := do
  let probs ← generateOutput pred maskOf (words.map fun w => dropLast w 4)
  probs.mapM fun p => do
    let label ← p.2.mapM fun r => argmax (List.ofFn r)
    let label ← unmapLabels ids (label.map fun c : Nat => (c : Int))
    pure (p.1, label)

/-- `np.load(path_pred/<name>.eval.npz)`, seg_scannet.py 273-274: a missing file raises. -/
def loadNpz {V : Type} (files : Dict V) (name : String) : M V :=
  match files.lookup name with
  | some t => .ok t
  | none => .error .value

/-- `calc_iou()`, seg_scannet.py 299-333, on the files of a folder: the sorted names of the folder (307-308), and for each
the labels in the folder and the true labels (310-311). -/
def calcIouFolder (ids : List Nat) (folder : Dict (List Nat)) (gt : String → M (List Int)) : M (Option ℚ × ℚ) := do
  let files ← ((folder.map (·.1)).mergeSort fun a b => decide (a ≤ b)).mapM fun name => do
    let l ← loadNpz folder name
    let g ← gt name
    pure (l.map fun c : Nat => (c : Int), g)
  calcIou ids files

/-- `validate()`, run_seg_scannet.py 71-106, and the first two commands of `test()`, 46-69: evaluation with voting, then
labels. -/
def scanTest {n : Nat} {K : Type} [Field K] [LinearOrder K] (softmax : (Fin n → K) → Fin n → K) (mask : Int) (ids : List Nat)
    (maskOf : String → M (List Bool)) (words : List String) (epochs : List (List (EvalBatch (Fin n → K)))) :
    M (Dict (List Nat)) := do
  let st ← evalAll softmax mask epochs
  outputSeg ids (loadNpz st.files) maskOf words

/-- `validate()`, run_seg_scannet.py 71-106: voting, labels, and the printed accuracy and IoU. -/
def scanValidate {n : Nat} {K : Type} [Field K] [LinearOrder K] (softmax : (Fin n → K) → Fin n → K) (mask : Int) (ids : List Nat)
    (maskOf : String → M (List Bool)) (words : List String) (gt : String → M (List Int))
    (epochs : List (List (EvalBatch (Fin n → K)))) : M (Option ℚ × ℚ) := do
  let folder ← scanTest softmax mask ids maskOf words epochs
  calcIouFolder ids folder gt

end Ocnn
