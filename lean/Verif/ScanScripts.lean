import Verif.Dataset
import Verif.Projects

/-! Model of the commands of projects/scripts/run_seg_scannet.py: which files they read and write.  The contents of point clouds, predictions and
checkpoints are left out; file lists have lines. -/

namespace Ocnn
namespace Script

/-- The files on the disk by their paths; a text file has lines, other files have none. -/
abbrev Disk := Dict (List String)

/-- Opening a file: FileNotFoundError if it does not exist. -/
def openFile (fs : Disk) (path : String) : M (List String) :=
  match fs.lookup path with
  | some l => .ok l
  | none => .error .value

/-- `os.path.join(a, b)` for a relative path `b`. -/
def osJoin (a b : String) : String := if a = "" ∨ a.toList.getLast? = some '/' then a ++ b else a ++ "/" ++ b

/-- The first word of a line of a file list. -/
def firstWord (line : String) : String := String.ofList (line.toList.takeWhile fun c => !c.isWhitespace)

/-- What `process_scannet` leaves on the disk, seg_scannet.py 59-73 and 215-255, for `--suffix_out .ply`: the entries of the downloaded file
`filelist.zip`, the archive itself, one file per scene, and the labels of the training scenes. -/
def processScannet (pathOut : String) (zip : Disk) (train test : List String) : Disk :=
  [(osJoin pathOut "filelist.zip", [])] ++ zip.map (fun e => (osJoin pathOut e.1, e.2)) ++
  train.flatMap (fun s => [(osJoin (osJoin pathOut "train") s ++ ".txt", []), (osJoin (osJoin pathOut "train") s ++ ".ply", [])]) ++
  test.map fun s => (osJoin (osJoin pathOut "test") s ++ ".ply", [])

/-- The default of `--path_out`, seg_scannet.py 21, with which the documentation runs the tool (docs/source/notes/segmentation.rst 16). -/
def defaultOut : String := "data/scannet.ply"

/-- projects/configs/seg_scannet.yaml 8-62, the entries with paths. -/
def trainConfig : Dict String := [("SOLVER.run", "train"), ("SOLVER.logdir", "logs/scannet/D10_2cm"), ("SOLVER.alias", ""), ("SOLVER.ckpt", ""),
  ("DATA.train.location", "data/scannet.ply/train"), ("DATA.train.filelist", "data/scannet.ply/scannetv2_train.txt"),
  ("DATA.test.location", "data/scannet.ply/train"), ("DATA.test.filelist", "data/scannet.ply/scannetv2_val.txt")]

/-- projects/configs/seg_scannet_eval.yaml 8-32, the entries with paths. -/
def evalConfig : Dict String := [("SOLVER.run", "evaluate"), ("SOLVER.logdir", "logs/scannet/D10_2cm_eval"), ("SOLVER.alias", ""),
  ("SOLVER.ckpt", "logs/scannet/D10_2cm/checkpoints/00600.model.pth"), ("DATA.test.location", "data/scannet/test"),
  ("DATA.test.filelist", "data/scannet/scannetv2_test.txt")]

/-- The options at the end of the command line, which replace entries of the configuration in pairs.  The parser is part of the package `thsolver`. -/
def mergeOpts : Dict String → List String → M (Dict String)
  | c, [] => .ok c
  | _, [_] => .error .assertion
  | c, k :: v :: r => mergeOpts (c.set k v) r

/-- The folder of a run in `thsolver`: `logdir`, and `_` with the alias.  The scripts rely on this rule. -/
def logFolder (c : Dict String) : M String := do
  let logdir ← c.get "SOLVER.logdir"
  let al ← c.get "SOLVER.alias"
  pure (logdir ++ "_" ++ al)

/-- The data set reads the file list and the files that it names in the folder `location`; the names. -/
def readData (fs : Disk) (c : Dict String) (flag : String) : M (List String) := do
  let location ← c.get ("DATA." ++ flag ++ ".location")
  let filelist ← c.get ("DATA." ++ flag ++ ".filelist")
  let lines ← openFile fs filelist
  let names := lines.map firstWord
  let _ ← names.mapM fun n => openFile fs (osJoin location n)
  pure names

/-- `python segmentation.py --config <config> <opts>`: training with 600 epochs reads the data for training and test and writes the last checkpoint;
evaluation reads the checkpoint and the data for test and writes one file per name (segmentation.py 131-135). -/
def segmentationPy (config : Dict String) (opts : List String) (fs : Disk) : M Disk := do
  let c ← mergeOpts config opts
  let run ← c.get "SOLVER.run"
  let logs ← logFolder c
  if run = "train" then
    let _ ← readData fs c "train"
    let _ ← readData fs c "test"
    pure (fs.set (osJoin logs "checkpoints/00600.model.pth") [])
  else
    let ckpt ← c.get "SOLVER.ckpt"
    let _ ← openFile fs ckpt
    let names ← readData fs c "test"
    pure (names.foldl (fun fs n => fs.set (osJoin logs (dropLast n 4 ++ ".eval.npz")) []) fs)

/-- `generate_output_seg()`, seg_scannet.py 258-296, for lists of whole scenes (`process_scannet` makes no chunks): reads the list and the
predictions and writes the labels. -/
def outputSegPy (pathPred pathOut filelist : String) (fs : Disk) : M Disk := do
  let lines ← openFile fs filelist
  let scans := lines.map fun l => dropLast (firstWord l) 4
  let _ ← scans.mapM fun s => openFile fs (osJoin pathPred (s ++ ".eval.npz"))
  pure (scans.foldl (fun fs s => fs.set (osJoin pathOut (s ++ ".txt")) []) fs)

/-- `calc_iou()`, seg_scannet.py 299-333: the true labels are read for the scenes whose labels are in the folder `path_pred`; `scenes` are these. -/
def calcIouPy (pathIn pathPred : String) (scenes : List String) (fs : Disk) : M Unit := do
  let _ ← scenes.mapM fun s => do
    let _ ← openFile fs (osJoin pathPred (s ++ ".txt"))
    openFile fs (osJoin pathIn (s ++ ".txt"))
  pure ()

/-- `train()`, run_seg_scannet.py 26-33. -/
def train (gpu al port : String) (fs : Disk) : M Disk :=
  segmentationPy trainConfig ["SOLVER.gpu", gpu ++ ",", "SOLVER.alias", al, "SOLVER.port", port] fs

/-- `train_all()`, run_seg_scannet.py 36-44. -/
def trainAll (gpu al port : String) (fs : Disk) : M Disk :=
  segmentationPy trainConfig ["SOLVER.gpu", gpu ++ ",", "SOLVER.alias", al, "SOLVER.port", port,
    "DATA.train.filelist", "data/scannet/scannetv2_train_val.txt"] fs

/-- The checkpoint of `test()` and `validate()`, run_seg_scannet.py 49-50 and 74-75; `none` stands for the default of `--ckpt`. -/
def ckptOf (al : String) (ckpt : Option String) : String := ckpt.getD ("logs/scannet/D10_2cm_" ++ al ++ "/checkpoints/00600.model.pth")

/-- `test()`, run_seg_scannet.py 47-69.  A command that fails does not stop the script in reality; here the error is the result. -/
def test (gpu al : String) (ckpt : Option String) (fs : Disk) : M Disk := do
  let fs ← segmentationPy evalConfig ["SOLVER.gpu", gpu ++ ",", "SOLVER.eval_epoch", "72", "SOLVER.alias", "test_" ++ al, "SOLVER.ckpt", ckptOf al ckpt,
    "DATA.test.distort", "True"] fs
  outputSegPy ("logs/scannet/D10_2cm_eval_test_" ++ al) ("logs/scannet/D10_2cm_eval_test_seg_" ++ al) "data/scannet/scannetv2_test.txt" fs

/-- `validate()`, run_seg_scannet.py 72-104, likewise.  Simplified: the last command lists its folder; here the scenes are those of the file list, which is
the same in a new folder. -/
def validate (gpu al : String) (ckpt : Option String) (fs : Disk) : M Disk := do
  let fs ← segmentationPy evalConfig ["SOLVER.gpu", gpu ++ ",", "SOLVER.eval_epoch", "12", "SOLVER.alias", "val_" ++ al, "SOLVER.ckpt", ckptOf al ckpt,
    "DATA.test.distort", "True", "DATA.test.location", "data/scannet/train", "DATA.test.filelist", "data/scannet/scannetv2_val.txt"] fs
  let fs ← outputSegPy ("logs/scannet/D10_2cm_eval_val_" ++ al) ("logs/scannet/D10_2cm_eval_val_seg_" ++ al) "data/scannet/scannetv2_val.txt" fs
  let lines ← openFile fs "data/scannet/scannetv2_val.txt"
  calcIouPy "data/scannet/train" ("logs/scannet/D10_2cm_eval_val_seg_" ++ al) (lines.map fun l => dropLast (firstWord l) 4) fs
  pure fs

end Script
end Ocnn
