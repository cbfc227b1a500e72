import Verif.Projects
import Verif.MeshTools
import Verif.Float32

/-! Model of projects/tools/seg_scannet.py (labels, IoU, files), of projects/tools/utils.py and of the readers in projects/datascts/utils.py. -/

namespace Ocnn

/-- An entry of `segGroups`, seg_scannet.py 163-166: the label and the segments. -/
structure SegGroup where
  label : String
  segments : List Int

/-- `label_group`, seg_scannet.py 170-172, for the table as pairs `(raw_category, id)`. -/
def groupLabel (table : List (String × Int)) (g : SegGroup) : Int :=
  let labelId := (table.filter fun r => r.1 = g.label).map (·.2)
  let l := match labelId with
    | [] => 0
    | i :: _ => i
  if l ∈ classIds200.map (fun c : Nat => (c : Int)) then l else 0

/-- `generate_point_labels200`, seg_scannet.py 157-176, for the contents of the files. -/
def pointLabels200 (table : List (String × Int)) (segIndices : List Int) (segGroups : List SegGroup) : List Int :=
  segGroups.foldl (fun label g => List.zipWith (fun s l => if s ∈ g.segments then groupLabel table g else l) segIndices label) (segIndices.map fun _ => 0)

/-- The variables of `calc_iou`, seg_scannet.py 301-304: `intsc` and `union` for the classes `class_ids[1:]` in order, and `accu`, where `none` is not-a-number. -/
structure IouSums where
  intsc : List ℚ
  union : List ℚ
  accu : Option ℚ

/-- The number of indices where both masks, or one of them, hold, as in `np.sum(np.logical_and(a, b).astype(np.float32))`, seg_scannet.py 323-325.  Simplified: the sum is exact. -/
def maskSum (f : Bool → Bool → Bool) (a b : List Bool) : ℚ := ((List.zipWith f a b).count true : ℚ)

/-- The loop body of `calc_iou`, seg_scannet.py 309-325, for the predicted and the true labels of a file; the mean of an empty array is not a number. -/
def iouFile (ids : List Nat) (s : IouSums) (file : List Int × List Int) : M IouSums := do
  let mask := file.2.map fun l => decide (l ∈ ids.tail.map (fun c : Nat => (c : Int)))
  let pred ← boolIndex mask file.1
  let gt ← boolIndex mask file.2
  let ac : Option ℚ := if gt.isEmpty then none else some (((List.zipWith (fun g p => decide (g = p)) gt pred).count true : ℚ) / gt.length)
  let pk (k : Nat) := pred.map fun l => decide (l = (k : Int))
  let lk (k : Nat) := gt.map fun l => decide (l = (k : Int))
  pure { intsc := List.zipWith (fun k v => v + maskSum and (pk k) (lk k)) ids.tail s.intsc
         union := List.zipWith (fun k v => v + maskSum or (pk k) (lk k)) ids.tail s.union
         accu := s.accu.bind fun a => ac.map fun c => a + c }

/-- `calc_iou()`, seg_scannet.py 299-333, for the contents of the files: the printed accuracy and IoU.  No files raise ZeroDivisionError. -/
def calcIou (ids : List Nat) (files : List (List Int × List Int)) : M (Option ℚ × ℚ) := do
  let s ← files.foldlM (iouFile ids) ⟨ids.tail.map fun _ => 0, ids.tail.map fun _ => 0, some 0⟩
  let iouPart : ℚ := (List.zipWith (fun (i u : ℚ) => i / (u + 1 / 10 ^ 10)) s.intsc s.union).sum
  let iou := iouPart / ids.tail.length
  if files.isEmpty then .error .zeroDiv else pure (s.accu.map fun a => a / files.length, iou)

end Ocnn
