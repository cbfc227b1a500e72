import Verif.CloudFiles
import Verif.Kitti
import Mathlib.Data.String.Basic

/-! Model of the file lists written by projects/tools: seg_shapenet.py, cls_modelnet.py, seg_kitti.py, image2shape.py.  A directory tree is given by `listdir`, the result of `os.listdir` for
a path; files are lists of lines. -/

namespace Ocnn

/-! ### seg_shapenet.py -/

/-- `categories`, seg_shapenet.py 34-37. -/
def shapeCats : List String :=
  ["02691156", "02773838", "02954340", "02958343", "03001627", "03261776", "03467517", "03624134", "03636649", "03642806", "03790512", "03797390", "03948459", "04099429", "04225987", "04379243"]

/-- `seg_num`, seg_shapenet.py 42, and projects/scripts/run_seg_shapenet.py 42, from which it sets `MODEL.nout`. -/
def segNum : List Nat := [4, 2, 2, 4, 4, 3, 3, 2, 4, 2, 6, 2, 3, 3, 3, 3]

/-- `dis`, seg_shapenet.py 43. -/
def segDis : List Nat := [0, 4, 6, 8, 12, 16, 19, 22, 24, 28, 30, 36, 38, 41, 44, 47]

/-- The conversion of a file of the category `i` in `txt_to_ply`, seg_shapenet.py 75-81, for rows of position, normal and label. -/
def txtToPly (i : Nat) (raw : List (V3 ℚ × V3 ℚ × ℚ)) : M (Dict (List ℚ)) := do
  let d ← getIdx segDis i
  savePoints (raw.map (·.1)) (some (raw.map (·.2.1))) none (some (raw.map fun r => r.2.2 - (d : ℚ)))

/-- The entries of some lines in the list of the category `i` with the name `c`, seg_shapenet.py 103-104, 109. -/
def partEntries (i : Nat) (c : String) (lines : List String) : List String :=
  (lines.filter fun line => hasSub c line).map fun line => String.ofList (line.toList.drop 11) ++ ".ply " ++ toString i

/-- `generate_filelist`, seg_shapenet.py 85-112: per category the lists for training and testing. -/
def partFilelists (train val test : List String) : List (List String × List String) :=
  shapeCats.zipIdx.map fun p => (partEntries p.2 p.1 train ++ partEntries p.2 p.1 val, partEntries p.2 p.1 test)

/-! ### cls_modelnet.py -/

/-- `sorted` on strings. -/
def pySorted (l : List String) : List String := l.mergeSort (fun a b => decide (a ≤ b))

/-- `os.path.join(a, b)` for a non-empty `a` without a slash at the end and a relative `b`. -/
def pathJoin (a b : String) : String := a ++ "/" ++ b

/-- `s.endswith(suffix)`. -/
def hasSuffix (suffix s : String) : Bool := suffix.toList.isSuffixOf s.toList

/-- `get_filelist(root_folder, train, suffix, ratio)`, cls_modelnet.py 81-94: the pairs of `filelist` and `category`.  `fl` is the rounding of the product of `len(filenames)` and `ratio`. -/
def getFilelist (fl : ℚ → ℚ) (listdir : String → List String) (root : String) (train : Bool) (suffix : String) (ratio : ℚ) : M (List (String × Nat)) := do
  let folders := pySorted (listdir root)
  pyAssert (folders.length = 40)
  let subfolder := if train then "train" else "test"
  let parts ← folders.zipIdx.mapM fun p => do
    let filenames := pySorted (listdir (pathJoin (pathJoin root p.1) subfolder))
    let filenames := filenames.filter (hasSuffix suffix)
    let totalNum := ⌈fl ((filenames.length : ℚ) * ratio)⌉.toNat
    (List.range totalNum).mapM fun i : Nat => do
      let f ← getIdx filenames (i : Int)
      pure (pathJoin (pathJoin p.1 subfolder) f, p.2)
  pure parts.flatten

/-! ### seg_kitti.py -/

/-- `split`, seg_kitti.py 28-33. -/
def kittiSplit : List (String × List String) :=
  let train := ["00", "01", "02", "03", "04", "05", "06", "07", "09", "10"]
  let val := ["08"]
  [("train", train), ("val", val), ("test", ["11", "12", "13", "14", "15", "16", "17", "18", "19", "20", "21"]), ("train_val", train ++ val)]

/-- `generate_file_list`, seg_kitti.py 25-46: the lines of each list, without the line breaks. -/
def kittiFilelists (listdir : String → List String) (root : String) : List (String × List String) :=
  let dataFolder := "dataset/sequences"
  kittiSplit.map fun kv =>
    let filenames := kv.2.flatMap fun seq =>
      (pySorted (listdir (pathJoin (pathJoin (pathJoin root dataFolder) seq) "velodyne"))).map fun x => pathJoin (pathJoin (pathJoin dataFolder seq) "velodyne") x
    (kv.1, filenames.map fun f => f ++ " 0")

/-! ### image2shape.py -/

/-- `create_filelist`, projects/tools/image2shape.py 79-109: the lists for training and testing.  `fl` is the rounding of the product of `len(filenames)` and 0.8. -/
def imageFilelists (fl : ℚ → ℚ) (listdir : String → List String) (root : String) (categories : List String) : List String × List String :=
  categories.foldl (fun lists category =>
    let img := pySorted (listdir (pathJoin (pathJoin root "renderings") category))
    let pts := pySorted (listdir (pathJoin (pathJoin root "points.ply") category))
    let filenames := (img.filter fun f => decide (f ++ ".ply" ∈ pts)).map fun f => category ++ "/" ++ f
    let num := ⌊fl ((filenames.length : ℚ) * (8 / 10))⌋.toNat
    (lists.1 ++ filenames.take num, lists.2 ++ filenames.drop num)) ([], [])

end Ocnn
