import Verif.Projects
import Mathlib.Analysis.SpecialFunctions.Log.Basic

/-! Model of the losses and probabilities that the classification and segmentation programs compute. -/

namespace Ocnn

/-- `torch.nn.functional.softmax(logit, dim=1)` on a row, segmentation.py 106. -/
noncomputable def softmaxRow {n : Nat} (row : Fin n → ℝ) : Fin n → ℝ :=
  fun c => Real.exp (row c) / (List.ofFn fun i => Real.exp (row i)).sum

/-- The term of a row in `torch.nn.CrossEntropyLoss()`: `none` for the label -100, which PyTorch ignores; any other label outside the row raises. -/
noncomputable def nllRow (row : List ℝ) (label : Int) : M (Option ℝ) :=
  if label = -100 then .ok none
  else if label < 0 then .error .index
  else match row[label.toNat]? with
    | some v => .ok (some (Real.log (row.map Real.exp).sum - v))
    | none => .error .index

/-- `loss_function(logit, label)`, classification.py 43-46 and segmentation.py 155-158: the mean over the rows whose label is not ignored; the mean over no rows is
not a number (`.domain`).  PyTorch computes the logarithm of the sum of exponentials stably; here it is exact. -/
noncomputable def crossEntropyLoss (logit : List (List ℝ)) (label : List Int) : M ℝ := do
  if logit.length ≠ label.length then .error .value
  else
    let terms ← (logit.zip label).mapM fun e => nllRow e.1 e.2
    let vals := terms.filterMap id
    if vals.length = 0 then .error .domain
    else pure (vals.sum / (vals.length : ℝ))

/-- The end of `ClsSolver.forward`, classification.py 52-55, which `train_step` and `test_step` (57-64) return under names: loss and accuracy of the logits. -/
noncomputable def clsMetrics (logit : List (List ℝ)) (label : List Int) : M (ℝ × ℝ) := do
  let loss ← crossEntropyLoss logit label
  let accu ← accuracy logit label
  pure (loss, accu)

end Ocnn
