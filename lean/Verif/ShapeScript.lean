import Verif.FileLists
import Verif.ScanScripts

/-! Model of projects/scripts/run_seg_shapenet.py: the commands it runs and the table it makes of their logs.  The products and quotients of its
schedule are taken in exact arithmetic. -/

namespace Ocnn
namespace ShapeScript
open Script (Disk osJoin openFile)

/-- `names`, run_seg_shapenet.py 38-41. -/
def names : List String := ["Aero", "Bag", "Cap", "Car", "Chair", "EarPhone", "Guitar", "Knife", "Lamp", "Laptop", "Motor", "Mug", "Pistol", "Rocket",
  "Skate", "Table"]

/-- `train_num`, run_seg_shapenet.py 43-44. -/
def trainNum : List Nat := [2348, 62, 44, 717, 3052, 55, 626, 312, 1261, 367, 151, 146, 234, 54, 121, 4421]

/-- `test_num`, run_seg_shapenet.py 45-46. -/
def testNum : List Nat := [341, 14, 11, 153, 693, 14, 159, 80, 285, 78, 51, 38, 41, 12, 31, 842]

/-- `max_epoches`, run_seg_shapenet.py 47-48. -/
def maxEpoches : List Nat := [300, 1800, 2400, 600, 300, 2000, 600, 600, 300, 600, 1200, 1200, 600, 1800, 1200, 200]

/-- The options of the script, run_seg_shapenet.py 13-26.  `fmt` is the format `{:.2f}` of the ratios. -/
structure Args where
  alia : String := "segnet_d5"
  gpu : String := "0"
  depth : Nat := 5
  model : String := "segnet"
  ckpt : String := "''"
  ratios : List ℚ := [1]
  fmt : ℚ → String

/-- `logdir`, run_seg_shapenet.py 32. -/
def logdir : String := "logs/seg_shapenet"

/-- `data`, run_seg_shapenet.py 31. -/
def data : String := "data/shapenet_segmentation"

/-- `mul` and `max_epoch`, run_seg_shapenet.py 56-57, for a ratio that is not negative. -/
def maxEpoch (epoches : Nat) (ratio : ℚ) : Nat := ⌊(epoches : ℚ) * ratio * (if ratio < 1 / 10 then 2 else 1)⌋₊

/-- `milestone1`, `milestone2`, run_seg_shapenet.py 58. -/
def milestones (maxEpoch : Nat) : Nat × Nat := (⌊(1 / 2 : ℚ) * maxEpoch⌋₊, ⌊(1 / 4 : ℚ) * maxEpoch⌋₊)

/-- `test_every_epoch`, run_seg_shapenet.py 59. -/
def testEvery (maxEpoch : Nat) : Nat := ⌈(maxEpoch : ℚ) * (2 / 100)⌉₊

/-- `take`, run_seg_shapenet.py 60. -/
def take (trainNum : Nat) (ratio : ℚ) : Nat := ⌈(trainNum : ℚ) * ratio⌉₊

/-- `'{}/{}_{}/ratio_{:.2f}'.format(alias, cat, names[k], ratio)`, run_seg_shapenet.py 62. -/
def runName (a : Args) (cat name : String) (ratio : ℚ) : String := a.alia ++ "/" ++ cat ++ "_" ++ name ++ "/ratio_" ++ a.fmt ratio

/-- `logs`, run_seg_shapenet.py 61-62. -/
def logs (a : Args) (cat name : String) (ratio : ℚ) : String := osJoin logdir (runName a cat name ratio)

/-- One command, run_seg_shapenet.py 55-81: the options behind the name of the configuration file, split into words. -/
def command (a : Args) (ratio : ℚ) (k : Nat) : M (List String) := do
  let cat ← getIdx shapeCats k
  let epoches ← getIdx maxEpoches k
  let e := maxEpoch epoches ratio
  let train ← getIdx trainNum k
  let name ← getIdx names k
  let seg ← getIdx segNum k
  pure ["SOLVER.gpu", a.gpu ++ ",", "SOLVER.logdir", logs a cat name ratio, "SOLVER.max_epoch", toString e,
    "SOLVER.milestones", toString (milestones e).1 ++ "," ++ toString (milestones e).2, "SOLVER.test_every_epoch", toString (testEvery e),
    "SOLVER.ckpt", a.ckpt, "DATA.train.depth", toString a.depth, "DATA.train.filelist", data ++ "/filelist/" ++ cat ++ "_train_val.txt",
    "DATA.train.take", toString (take train ratio), "DATA.test.depth", toString a.depth, "DATA.test.filelist", data ++ "/filelist/" ++ cat ++ "_test.txt",
    "MODEL.stages", toString ((a.depth : Int) - 2), "MODEL.nout", toString seg, "MODEL.name", a.model, "LOSS.num_class", toString seg]

/-- The value behind a key on the command line. -/
def optOf (key : String) : List String → Option String
  | k :: v :: r => if k = key then some v else optOf key r
  | _ => none

/-- `os.system(cmd)`, run_seg_shapenet.py 83-85: `run` gives the lines that the program appends to the file `log.csv` of its folder.  The program is
segmentation.py; that the log is `log.csv` in the folder `SOLVER.logdir` (there is no alias) is a rule of the package `thsolver`. -/
def system (run : List String → List String) (fs : Disk) (opts : List String) : M Disk := do
  let dir ← need (optOf "SOLVER.logdir" opts)
  let old := (fs.lookup (dir ++ "/log.csv")).getD []
  pure (fs.set (dir ++ "/log.csv") (old ++ run opts))

/-- The loops over the ratios and the categories, run_seg_shapenet.py 53-85. -/
def trainAll (a : Args) (run : List String → List String) (fs : Disk) : M Disk :=
  a.ratios.foldlM (fun fs r => (List.range shapeCats.length).foldlM (fun fs k => do
    let c ← command a r k
    system run fs c) fs) fs

/-- `s.find(pat)`; `none` stands for -1. -/
def findSub (pat : List Char) : List Char → Option Nat
  | [] => if pat.isPrefixOf [] then some 0 else none
  | c :: s => if pat.isPrefixOf (c :: s) then some 0 else (findSub pat s).map (· + 1)

/-- The text of the IoU in a line of the log, run_seg_shapenet.py 99-100. -/
def iouText (line : String) : List Char :=
  let pos : Int := match findSub "test/mIoU:".toList line.toList with
    | some i => i
    | none => -1
  (line.toList.drop (pos + 11).toNat).take 5

/-- The IoU of a ratio and a category, run_seg_shapenet.py 93-100; `parse` is `float`. -/
def readIou (a : Args) (parse : List Char → M ℚ) (fs : Disk) (ratio : ℚ) (j : Nat) : M ℚ := do
  let cat ← getIdx shapeCats j
  let name ← getIdx names j
  let lines ← openFile fs (logdir ++ "/" ++ a.alia ++ "/" ++ cat ++ "_" ++ name ++ "/ratio_" ++ a.fmt ratio ++ "/log.csv")
  let last ← need lines.getLast?
  parse (iouText last)

/-- The means over the categories and over the shapes, run_seg_shapenet.py 101-102. -/
def means (ious : List ℚ) : ℚ × ℚ :=
  (ious.sum / (ious.length : ℚ), ((ious.zip testNum).map fun p => p.1 * (p.2 : ℚ)).sum / (testNum.sum : ℚ))

/-- The rows of the summary, run_seg_shapenet.py 92-106, the last ratio first: the IoU of each category and the two means. -/
def summary (a : Args) (parse : List Char → M ℚ) (fs : Disk) : M (List (List ℚ × ℚ × ℚ)) :=
  a.ratios.reverse.mapM fun r => do
    let ious ← (List.range shapeCats.length).mapM fun j => readIou a parse fs r j
    pure (ious, means ious)

end ShapeScript
end Ocnn
