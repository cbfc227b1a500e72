import Verif.Dataset

/-! A second model of the methods of `Points` (ocnn/octree/points.py), of `Transform` (ocnn/dataset.py) and of the `preprocess` methods of
projects/datascts, in which the coordinates and the normals are storages on a heap, so that sharing with the arrays of the dataset and assignments
in place are visible.  `torch.from_numpy` and the constructor of `Points` share the storage. No method assigns to features, labels or batch
indices in place; they are values here as in `Points`. -/

namespace Ocnn

/-- The storages with numbers below `next` exist. -/
structure PHeap (K : Type) where
  next : Nat
  mem : Nat → List (V3 K)

/-- Computations on the heap; the heap survives exceptions. -/
abbrev PM (K : Type) := ExceptT Err (StateM (PHeap K))

variable {K F L : Type}

/-- Reads a tensor. -/
def readP (s : Nat) : PM K (List (V3 K)) := do
  let h ← get
  pure (h.mem s)

/-- A new tensor with the given rows. -/
def allocP (rows : List (V3 K)) : PM K Nat := do
  let h ← get
  set ({ next := h.next + 1, mem := fun s => if s = h.next then rows else h.mem s } : PHeap K)
  pure h.next

/-- Assigns all rows of a tensor in place. -/
def writeP (s : Nat) (rows : List (V3 K)) : PM K Unit := do
  let h ← get
  set ({ next := h.next, mem := fun i => if i = s then rows else h.mem i } : PHeap K)

/-- A computation that does not touch the heap. -/
def liftP {α : Type} (m : M α) : PM K α := ExceptT.mk (pure m)

/-- `Points`, points.py 13-44, with tensors on the heap. -/
structure HPoints (F L : Type) where
  points : Nat
  normals : Option Nat
  features : Option (List F)
  labels : Option (List L)
  batchId : Option (List Int)
  batchSize : Nat
  batchNpt : Option (List Nat)
  device : Nat

namespace HPoints

/-- `self.normals = f(self.normals)` if there are normals, for an `f` that returns a new tensor. -/
def mapNormals (H : HPoints F L) (f : V3 K → V3 K) : PM K (HPoints F L) :=
  match H.normals with
  | none => pure H
  | some n => do
    let x ← readP n
    let n' ← allocP (x.map f)
    pure { H with normals := some n' }

/-- `self.points = f(self.points)`, for an `f` that returns a new tensor. -/
def mapPoints (H : HPoints F L) (f : V3 K → V3 K) : PM K (HPoints F L) := do
  let x ← readP H.points
  let p ← allocP (x.map f)
  pure { H with points := p }

/-- `orient_normal(axis)`, points.py 74-92: line 90 makes a new tensor, `abs_()` in line 92 works in place. -/
def orientNormal [Field K] [LinearOrder K] (H : HPoints F L) (axis : String) : PM K (HPoints F L) :=
  match H.normals with
  | none => pure H
  | some n =>
    let along (a : Points.Axis) : PM K (HPoints F L) :=
      H.mapNormals fun v => v.map (· * (if v.along a > 0 then 1 * 2 - 1 else 0 * 2 - 1))
    match axis with
    | "x" => along .x
    | "y" => along .y
    | "z" => along .z
    | "xyz" => do
      let x ← readP n
      writeP n (x.map fun v => v.map fun w => max w (-w))
      pure H
    | _ => throw Err.key

/-- `scale(factor)`, points.py 94-113: new tensors. -/
def scale [Field K] [LinearOrder K] (rt : K → K) (H : HPoints F L) (f : V3 K) : PM K (HPoints F L) := do
  liftP (pyAssert (f.x ≠ 0 ∧ f.y ≠ 0 ∧ f.z ≠ 0))
  if f.x = 1 ∧ f.y = 1 ∧ f.z = 1 then pure H
  else do
    let H ← H.mapPoints fun v => v.scaleBy f
    if f.x ≠ f.x ∨ f.y ≠ f.x ∨ f.z ≠ f.x then
      H.mapNormals fun n =>
        let m := n.scaleBy (f.map (1 / ·))
        let norm2 := rt (m.x ^ 2 + m.y ^ 2 + m.z ^ 2)
        m.map (· / max norm2 (1 / 10 ^ 12))
    else pure H

/-- `rotate(angle)`, points.py 115-132: new tensors. -/
def rotate [Field K] (H : HPoints F L) (c s : V3 K) : PM K (HPoints F L) := do
  let H ← H.mapPoints fun v => v.mulMat (Points.rotMat c s)
  H.mapNormals fun v => v.mulMat (Points.rotMat c s)

/-- `translate(dis)`, points.py 134-142: a new tensor. -/
def translate [Add K] (H : HPoints F L) (dis : V3 K) : PM K (HPoints F L) := H.mapPoints (· + dis)

/-- One step of `flip`, points.py 153-156: `*=` works in place. -/
def flipAxis [Field K] (H : HPoints F L) (c : Char) : PM K (HPoints F L) := do
  let a ← liftP (Points.axisOf c)
  let x ← readP H.points
  writeP H.points (x.map (Points.negAt · a))
  (match H.normals with
    | none => pure ()
    | some n => do
      let x ← readP n
      writeP n (x.map (Points.negAt · a)) : PM K Unit)
  pure H

/-- `flip(axis)`, points.py 144-156. -/
def flip [Field K] (H : HPoints F L) (axis : String) : PM K (HPoints F L) := axis.toList.foldlM flipAxis H

/-- `out.normals = self.normals[mask]`: a copy. -/
def sliceNormals (mask : List Bool) (n : Option Nat) : PM K (Option Nat) :=
  match n with
  | none => pure none
  | some n => do
    let x ← readP n
    let r ← liftP (boolIndex mask x)
    let n' ← allocP r
    pure (some n')

/-- `self[mask]` for a boolean mask, points.py 172-188: copies. -/
def getItem (H : HPoints F L) (mask : List Bool) : PM K (HPoints F L) := do
  let x ← readP H.points
  let r ← liftP (boolIndex mask x)
  let points ← allocP r
  let normals ← sliceNormals mask H.normals
  let features ← liftP (Points.sliceAttr mask H.features)
  let labels ← liftP (Points.sliceAttr mask H.labels)
  let batchId ← liftP (Points.sliceAttr mask H.batchId)
  pure ⟨points, normals, features, labels, batchId, H.batchSize, none, H.device⟩

/-- `clip(min, max, esp)`, points.py 158-170: the object gets the tensors of the copy. -/
def clip [Field K] [LinearOrder K] (H : HPoints F L) (mn mx esp : K) : PM K (HPoints F L × List Bool) := do
  let x ← readP H.points
  let mask := x.map fun v => decide (v.x > mn + esp ∧ v.y > mn + esp ∧ v.z > mn + esp) &&
    decide (v.x < mx - esp ∧ v.y < mx - esp ∧ v.z < mx - esp)
  let tmp ← H.getItem mask
  pure (tmp, mask)

/-- `normalize(bbmin, bbmax, scale)`, points.py 210-222: a new tensor. -/
def normalize [Field K] [LinearOrder K] (H : HPoints F L) (bbmin bbmax : V3 K) (scale : K) : PM K (HPoints F L) :=
  let center : V3 K := (bbmin + bbmax).map (· * (1 / 2))
  let boxSize := max (max (bbmax.x - bbmin.x) (bbmax.y - bbmin.y)) (bbmax.z - bbmin.z) + 1 / 10 ^ 6
  H.mapPoints fun v => (V3.mk (v.x - center.x) (v.y - center.y) (v.z - center.z)).map (· * (2 * scale / boxSize))

/-- `Points(points, normals)`, points.py 31-68: shares the tensors. -/
def init (points : Nat) (normals : Option Nat) : PM K (HPoints F L) := do
  let x ← readP points
  (match normals with
    | none => pure ()
    | some n => do
      let y ← readP n
      liftP (pyAssert (y.length = x.length)) : PM K Unit)
  pure ⟨points, normals, none, none, none, 1, none, 0⟩

end HPoints

namespace Transform

/-- The augmentation, dataset.py 83-87. -/
def augmentH (rt cosF sinF : ℚ → ℚ) (t : Transform) (r : Drawn) (H : HPoints F L) : PM ℚ (HPoints F L) := do
  let angle ← liftP (t.rndAngle r)
  let H ← H.flip (t.rndFlip r)
  let H ← H.rotate (angle.map cosF) (angle.map sinF)
  let H ← H.translate (t.rndJitter r)
  H.scale rt (t.rndScale r)

/-- `transform(sample, idx)`, dataset.py 77-96. -/
def transformH (rt cosF sinF : ℚ → ℚ) (t : Transform) (r : Drawn) (H : HPoints F L) : PM ℚ (HPoints F L × List Bool) := do
  let H ← (if t.distort then t.augmentH rt cosF sinF r H else pure H : PM ℚ (HPoints F L))
  let H ← (if t.orientNormal ≠ "" then H.orientNormal t.orientNormal else pure H : PM ℚ (HPoints F L))
  H.clip (-1) 1 (1 / 100)

end Transform

/-- A sample of the dataset: the arrays of the coordinates and of the normals. -/
structure HSample where
  points : Nat
  normals : Option Nat

/-- The `preprocess` methods. -/
inductive Preprocess where
  /-- ocnn/dataset.py 67-75: both arrays are shared.  That the arrays are removed from the dictionary is not modelled. -/
  | base
  /-- projects/datascts/ae_shapenet.py 22-28 and image2shape.py 26-34 without the image: the coordinates are divided by `points_scale`, the
  normals are shared.  Division of a tensor by zero does not raise in PyTorch; a positive `points_scale` is assumed by the users of this model. -/
  | rescaled (pointsScale : ℚ)
  /-- projects/datascts/seg_shapenet.py 17-28: `normalize` with scale 0.8 (the labels are not modelled), the normals are shared (`.float()` of
  a float32 array is the array). -/
  | normalized
  /-- projects/datascts/semantic_kitti.py 57-74: centred and scaled coordinates, no normals (density and labels are not modelled). -/
  | kitti (scaleFactor : ℚ)

/-- `sample['normals']`. -/
def HSample.getNormals (s : HSample) : PM ℚ Nat :=
  match s.normals with
  | some n => pure n
  | none => throw Err.key

/-- `preprocess(sample, idx)`. -/
def Preprocess.run (pre : Preprocess) (s : HSample) : PM ℚ (HPoints F L) :=
  match pre with
  | .base => do
    let n ← s.getNormals
    HPoints.init s.points (some n)
  | .rescaled q => do
    let n ← s.getNormals
    let x ← readP s.points
    let p ← allocP (x.map fun v => v.map (· / q))
    HPoints.init p (some n)
  | .normalized => do
    let n ← s.getNormals
    let H : HPoints F L ← HPoints.init s.points (some n)
    let x ← readP H.points
    let b ← liftP (Points.bbox (F := F) (L := L) ⟨x, none, none, none, none, 1, none, 0⟩)
    H.normalize b.1 b.2 (8 / 10)
  | .kitti q => do
    let x ← readP s.points
    let b ← liftP (Points.bbox (F := F) (L := L) ⟨x, none, none, none, none, 1, none, 0⟩)
    let center : V3 ℚ := (b.1 + b.2).map (· / 2)
    let p ← allocP (x.map fun v => (V3.mk (v.x - center.x) (v.y - center.y) (v.z - center.z)).map (· / q))
    HPoints.init p none

/-- `preprocess` and `transform` of `__call__`, dataset.py 59-63. -/
def prepareH (rt cosF sinF : ℚ → ℚ) (pre : Preprocess) (t : Transform) (r : Drawn) (s : HSample) : PM ℚ (HPoints F L × List Bool) := do
  let H ← pre.run s
  t.transformH rt cosF sinF r H

end Ocnn
