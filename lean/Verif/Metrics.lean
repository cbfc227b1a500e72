import Verif.Pipelines

/-! Model of the metrics that projects/segmentation.py reports in a test epoch. -/

namespace Ocnn

variable {k : Nat}

/-- The dictionary returned by `test_step`, segmentation.py 96-100, without the loss.  `accu = none` stands for "not a number": the mean over no points. -/
structure TestResult where
  accu : Option ℚ
  miou : ℚ
  intsc : List ℚ
  union : List ℚ

/-- The metrics of `test_step`, segmentation.py 92-94, of the logits and labels of a batch. -/
def testMetrics (nclass : Nat) (logit : List (List ℚ)) (label : List Int) : M TestResult := do
  let accu ← match accuracy logit label with
    | .ok a => .ok (some a)
    | .error .domain => .ok none
    | .error e => .error e
  let r ← iouPerShape logit label nclass
  pure ⟨accu, r.1, r.2.1, r.2.2⟩

/-- `SegSolver.test_step`, segmentation.py 87-100; the cross entropy loss is left out. -/
def testStep (P : Params) (fl : ModelFlags) (nrm : V3 ℚ → V3 ℚ) (divF : ℚ → (Fin k → ℚ) → (Fin k → ℚ)) (depth full nclass : Nat)
    (pcs : List (Points ℚ (Fin k → ℚ) Int)) : M TestResult := do
  let b ← segStep P fl nrm divF depth full pcs
  testMetrics nclass (b.1.rows.map List.ofFn) b.2

/-- The entry of one class in the values written by `test_step`. -/
def trackerEntry (i : Nat) (r : List ℚ) : M ℚ :=
  match r[i]? with
  | some v => .ok v
  | none => .error .key

/-- `avg['test/...']`, segmentation.py 139, 146-147: the tracker of the external package thsolver averages the values of an entry over the batches; an entry
that no batch has written raises KeyError. -/
def trackerAverage (rs : List (List ℚ)) (i : Int) : M ℚ := do
  if i < 0 ∨ rs = [] then .error .key
  else
    let vs ← rs.mapM (trackerEntry i.toNat)
    pure (vs.sum / (vs.length : ℚ))

/-- `SegSolver.result_callback`, segmentation.py 135-153: the value written to `test/mIoU_part`. -/
def resultCallback (lossMask : Int) (nclass : Nat) (rs : List TestResult) : M ℚ := do
  let mask := lossMask + 1
  let s ← ((List.range ((nclass : Int) - mask).toNat).map fun (j : Nat) => mask + (j : Int)).foldlM (fun (acc : ℚ) i => do
    let a ← trackerAverage (rs.map TestResult.intsc) i
    let u ← trackerAverage (rs.map TestResult.union) i
    pure (acc + a / (u + 1 / 10 ^ 10))) 0
  if (nclass : Int) - mask = 0 then .error .zeroDiv else pure (s / (((nclass : Int) - mask : Int) : ℚ))

/-- A test epoch over the batches of the data loader, followed by `result_callback`; the loop is that of the external package thsolver. -/
def testEpoch (P : Params) (fl : ModelFlags) (nrm : V3 ℚ → V3 ℚ) (divF : ℚ → (Fin k → ℚ) → (Fin k → ℚ)) (depth full nclass : Nat)
    (batches : List (List (Points ℚ (Fin k → ℚ) Int))) : M ℚ := do
  let rs ← batches.mapM (testStep P fl nrm divF depth full nclass)
  resultCallback fl.mask nclass rs

end Ocnn
