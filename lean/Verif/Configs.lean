import Verif.Pipelines
import Verif.FileLists

/-! The configuration files of the classification and segmentation projects. -/

namespace Ocnn

/-- The entries of a configuration file that decide whether the network fits to the data. -/
structure ShippedConfig where
  flags : ModelFlags
  trainDepth : Nat
  trainFull : Nat
  testDepth : Nat
  testFull : Nat
  /-- `LOSS.num_class` -/
  numClass : Nat

/-- projects/configs/cls_m40.yaml 23-78.  Entries that the file leaves out have the defaults of the solver package, which is not modelled: they are
arguments here; LeNet and HRNet do not use them. -/
def clsM40 (resblockNum : Nat) (interp : String) (mask : Int) : ShippedConfig :=
  ⟨⟨"lenet", 4, 40, 3, resblockNum, interp, false, "ND", mask⟩, 5, 2, 5, 2, 40⟩

/-- projects/configs/cls_m40_hrnet.yaml 23-80. -/
def clsM40Hrnet (resblockNum : Nat) (interp : String) (mask : Int) : ShippedConfig :=
  ⟨⟨"hrnet", 4, 40, 3, resblockNum, interp, false, "ND", mask⟩, 6, 2, 6, 2, 40⟩

/-- projects/configs/seg_scannet.yaml 24-82; the colours are features of width 3 (scannet.py). -/
def segScannet (stages resblockNum : Nat) : ShippedConfig :=
  ⟨⟨"unet", 7, 21, stages, resblockNum, "nearest", true, "NDF", 0⟩, 10, 2, 10, 2, 21⟩

/-- projects/configs/seg_kitti.yaml 25-80; the lidar intensity is a feature of width 1 (kitti.py). -/
def segKitti (stages resblockNum : Nat) : ShippedConfig :=
  ⟨⟨"unet", 4, 20, stages, resblockNum, "nearest", true, "PF", 0⟩, 12, 2, 12, 2, 20⟩

/-- projects/configs/seg_shapenet.yaml 22-86; `nempty` is left out and false by default. -/
def segShapenet (resblockNum : Nat) : ShippedConfig :=
  ⟨⟨"segnet", 4, 4, 3, resblockNum, "linear", false, "ND", -1⟩, 5, 2, 5, 2, 4⟩

/-- The configuration of a training run for category `k` of ShapeNet with the options `--depth` and `--model`: seg_shapenet.yaml with the entries that
projects/scripts/run_seg_shapenet.py 64-81 sets (`seg_num` is `segNum`). -/
def runSegShapenet (resblockNum depth : Nat) (model : String) (k : Nat) : M ShippedConfig := do
  let n ← getIdx segNum k
  let c := segShapenet resblockNum
  pure { c with flags := { c.flags with stages := depth - 2, nout := n, name := model }, trainDepth := depth, testDepth := depth, numClass := n }

end Ocnn
