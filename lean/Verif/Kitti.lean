import Verif.Dataset

/-! Model of projects/datascts/semantic_kitti.py. -/

namespace Ocnn

/-- `label_name_mapping`, semantic_kitti.py 18-28. -/
def kittiNames : List (Nat × String) :=
  [(0, "unlabeled"), (1, "outlier"), (10, "car"), (11, "bicycle"), (13, "bus"), (15, "motorcycle"), (16, "on-rails"), (18, "truck"),
   (20, "other-vehicle"), (30, "person"), (31, "bicyclist"), (32, "motorcyclist"), (40, "road"), (44, "parking"), (48, "sidewalk"),
   (49, "other-ground"), (50, "building"), (51, "fence"), (52, "other-structure"), (60, "lane-marking"), (70, "vegetation"),
   (71, "trunk"), (72, "terrain"), (80, "pole"), (81, "traffic-sign"), (99, "other-object"), (252, "moving-car"),
   (253, "moving-bicyclist"), (254, "moving-person"), (255, "moving-motorcyclist"), (256, "moving-on-rails"), (257, "moving-bus"),
   (258, "moving-truck"), (259, "moving-other-vehicle")]

/-- `kept_labels`, semantic_kitti.py 30-34. -/
def kittiKept : List String :=
  ["road", "sidewalk", "parking", "other-ground", "building", "car", "truck", "bicycle", "motorcycle", "other-vehicle", "vegetation",
   "trunk", "terrain", "person", "bicyclist", "motorcyclist", "fence", "pole", "traffic-sign"]

/-- The characters of `str.replace(old, new)` for a non-empty `old`: occurrences are searched from left to right and do not overlap; the number counts
the characters of the current occurrence that are still to be skipped. -/
def replaceAux (old new : List Char) : Nat → List Char → List Char
  | _, [] => []
  | n + 1, _ :: cs => replaceAux old new n cs
  | 0, c :: cs => if old.isPrefixOf (c :: cs) then new ++ replaceAux old new (old.length - 1) cs else c :: replaceAux old new 0 cs

/-- `s.replace(old, new)`, semantic_kitti.py 44, 79. -/
def strReplace (s old new : String) : String := String.ofList (replaceAux old.toList new.toList 0 s.toList)

/-- `dict(zip(kept_labels, label_ids)).get(name, 0)` with `label_ids = 1, 2, ...`, semantic_kitti.py 38-40, 45. -/
def kittiClass (name : String) : Nat := ((kittiKept.zip ((List.range kittiKept.length).map (· + 1))).lookup name).getD 0

/-- `get_label_map()`, semantic_kitti.py 37-46. -/
def kittiLabelMap : List Nat :=
  kittiNames.foldl (fun m p => m.set p.1 (kittiClass (strReplace p.2 "moving-" ""))) (List.replicate 260 0)

/-- `self.label_map[labels & 0xFFFF]` for one label (a 32-bit integer), semantic_kitti.py 68; IndexError if the index is out of range. -/
def kittiLabel (w : BitVec 32) : M Nat := getIdx kittiLabelMap (w &&& 0xFFFF#32).toNat

/-- `KittiTransform.preprocess(sample, idx)`, semantic_kitti.py 57-73: the rows of `sample['points']` are the coordinates and the intensity of
a point.  The labels are stored as floats by the code. The minimum over no points raises ValueError. -/
def kittiPreprocess (rows : List (V3 ℚ × ℚ)) (labels : List (BitVec 32)) : M (Points ℚ ℚ Int) := do
  let xyz := rows.map Prod.fst
  let density := rows.map Prod.snd
  let b ← (match xyz with
    | [] => .error .value
    | v :: vs => .ok (vs.foldl (fun a b => ⟨min a.x b.x, min a.y b.y, min a.z b.z⟩) v,
        vs.foldl (fun a b => ⟨max a.x b.x, max a.y b.y, max a.z b.z⟩) v) : M (V3 ℚ × V3 ℚ))
  let center : V3 ℚ := (b.1 + b.2).map (· / 2)
  let xyz := xyz.map fun v => (V3.mk (v.x - center.x) (v.y - center.y) (v.z - center.z)).map (· / 100)
  let labels ← labels.mapM kittiLabel
  Points.init xyz none (some density) (some (labels.map Int.ofNat)) none 1 0

/-- The name of the file with the labels, semantic_kitti.py 79. -/
def kittiLabelFile (filename : String) : String := strReplace (strReplace filename "velodyne" "labels") ".bin" ".label"

/-- `read_file(filename)`, semantic_kitti.py 76-85: the labels; `files` are the label files that exist, with their contents, `npt` is the number of points
of the scan. -/
def kittiReadLabels (files : String → Option (List (BitVec 32))) (npt : Nat) (filename : String) : List (BitVec 32) :=
  match files (kittiLabelFile filename) with
  | some l => l
  | none => List.replicate npt 0#32

/-- `KittiTransform.__call__` up to the octree: `preprocess` and `transform` (dataset.py 59-63). -/
def kittiPrepare (rt cosF sinF : ℚ → ℚ) (t : Transform) (r : Drawn) (rows : List (V3 ℚ × ℚ)) (labels : List (BitVec 32)) :
    M (Points ℚ ℚ Int × List Bool) := do
  let p ← kittiPreprocess rows labels
  t.transform rt cosF sinF r p

end Ocnn
