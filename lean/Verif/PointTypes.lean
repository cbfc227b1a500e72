import Verif.DTypes

/-! The element types of point clouds through the augmentation, the construction of the octree and the input features.  The rules of
torch are those of the module `DTypes`; `torch.Tensor([...])`, `torch.rand` and `torch.randint(...) * number` give the default type, `.float()`
gives float32, and a 0-dimensional tensor does not promote. -/

namespace Ocnn

/-- The types of the tensors of a `Points` object, points.py 31-45. -/
structure PointTypes where
  points : DType
  normals : Option DType
  features : Option DType
  deriving DecidableEq

/-- `t @ rot` for the attributes of a cloud. -/
def rotateAttr (dflt : DType) : Option DType → M (Option DType)
  | none => .ok none
  | some n => do
    let n ← mmD none n dflt
    pure (some n)

/-- `Points.rotate`, points.py 122-132: the matrices are made by `torch.Tensor([...])`, whatever the type of the angles. -/
def PointTypes.rotate (dflt : DType) (p : PointTypes) : M PointTypes := do
  let rot := dflt
  let points ← mmD none p.points rot
  let normals ← rotateAttr rot p.normals
  pure { p with points := points, normals := normals }

/-- `Points.flip`, points.py 150-156: in place. -/
def PointTypes.flip (p : PointTypes) : PointTypes :=
  { p with points := castInto p.points p.points, normals := p.normals.map fun n => castInto n n }

/-- `Points.translate`, points.py 141-142. -/
def PointTypes.translate (dis : DType) (p : PointTypes) : PointTypes := { p with points := p.points.promote dis }

/-- `Points.scale`, points.py 101-114. -/
def PointTypes.scale (factor : DType) (allOnes nonUniform : Bool) (p : PointTypes) : PointTypes :=
  if allOnes then p
  else
    { p with
      points := p.points.promote factor
      normals := if nonUniform then p.normals.map fun n => (n.promote factor).promote (n.promote factor) else p.normals }

/-- `Points.orient_normal`, points.py 82-92: for one axis the flags are made by `.float()`, for `xyz` the normals are changed in place. -/
def PointTypes.orientNormal (xyz : Bool) (p : PointTypes) : PointTypes :=
  { p with normals := p.normals.map fun n => if xyz then n else n.promote .f32 }

/-- `Points.normalize`, points.py 221-223: the scale is 0-dimensional. -/
def PointTypes.normalize (bbmin bbmax : DType) (p : PointTypes) : PointTypes := { p with points := p.points.promote (bbmin.promote bbmax) }

/-- `Points.clip`, points.py 167-170, 176-187. -/
def PointTypes.clip (p : PointTypes) : PointTypes := p

/-- `Transform.transform`, dataset.py 77-97, with the random numbers of `rnd_parameters` (107-131): `allOnes` and `nonUniform` describe the
random scale, `orient` is `none` for an empty `orient_normal`. -/
def transformTypes (dflt : DType) (distort : Bool) (allOnes nonUniform : Bool) (orient : Option Bool) (p : PointTypes) : M PointTypes := do
  let p ← if distort then (do
      let p := p.flip
      let p ← p.rotate dflt
      let p := p.translate dflt
      pure (p.scale dflt allOnes nonUniform))
    else pure p
  let p := match orient with
    | some xyz => p.orientNormal xyz
    | none => p
  pure p.clip

/-- The signals of the octree, octree.py 160-162 and 215-224: the counts are integers. -/
def octreeTypes (p : PointTypes) : M PointTypes := do
  let points ← scatterAddNewD p.points
  let normals ← (match p.normals with
    | none => .ok none
    | some n => do
      let n ← scatterAddNewD n
      pure (some n) : M (Option DType))
  let features ← (match p.features with
    | none => .ok none
    | some n => do
      let n ← scatterAddNewD n
      pure (some n) : M (Option DType))
  pure ⟨points, normals, features⟩

/-- An attribute that is used although it may be `None`. -/
def needType : Option DType → M DType
  | none => .error .type
  | some d => .ok d

/-- `torch.cat`: the types are promoted; an empty list raises. -/
def catTypes : List DType → M DType
  | [] => .error .value
  | d :: ds => .ok (ds.foldl DType.promote d)

/-- `get_input_feature`, octree.py 449-476, for the letters in the string `feature`. -/
def inputFeatureTypes (fN fD fL fP fF : Bool) (nempty : Bool) (o : PointTypes) : M DType := do
  let a ← (if fN then do pure [← needType o.normals] else pure [] : M (List DType))
  let localPoints := o.points
  let b ← (if fD then do
      let n ← needType o.normals
      pure [localPoints.promote n]
    else pure [] : M (List DType))
  let c := if fL then [localPoints] else []
  let d := if fP then [o.points] else []
  let e ← (if fF then do pure [← needType o.features] else pure [] : M (List DType))
  let out ← catTypes (a ++ b ++ c ++ d ++ e)
  if nempty then pure out else octreePadD out

end Ocnn
