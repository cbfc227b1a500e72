import Verif.ScanTools

/-! Model of the files with point clouds: `save_ply`, `save_npz` and `process_scannet` in projects/tools/seg_scannet.py, `save_points_to_ply` in projects/tools/utils.py and the readers in
projects/datascts/utils.py. -/

namespace Ocnn

/-- A value stored with the type `u1`, after `int` has cut off the digits, seg_scannet.py 111-115, 121 and utils.py 27-30.  Values outside of the range, which numpy rejects or wraps
depending on its version, are not modelled (`.domain`). -/
def toByte (v : ℚ) : M ℚ :=
  let n : ℤ := if 0 ≤ v then ⌊v⌋ else ⌈v⌉
  if 0 ≤ n ∧ n < 256 then pure (n : ℚ) else .error .domain

/-- The fields of `save_ply` with whether they are of the type `u1`, seg_scannet.py 113-116. -/
def plyFields : List (String × Bool) :=
  [("x", false), ("y", false), ("z", false), ("nx", false), ("ny", false), ("nz", false), ("red", true), ("green", true), ("blue", true), ("label", true)]

/-- `save_ply(point_cloud, filename)`, seg_scannet.py 109-126: the columns of the element `vertex`.  Simplified: the structured array is a list of columns. -/
def savePly (ncols : Nat) (pointCloud : List (List ℚ)) : M (Dict (List ℚ)) :=
  ((plyFields.take ncols).zipIdx).mapM fun f => do
    let col ← pointCloud.mapM fun row => do
      let v ← getIdx row f.2
      if f.1.2 then toByte v else pure (f32 v)
    pure (f.1.1, col)

/-- The columns of a part with three fields, utils.py 20-27. -/
def threeCols (byte : Bool) (names : V3 String) (rows : List (V3 ℚ)) : M (Dict (List ℚ)) := do
  let conv (v : ℚ) : M ℚ := if byte then toByte v else pure (f32 v)
  let a ← rows.mapM fun r => conv r.x
  let b ← rows.mapM fun r => conv r.y
  let c ← rows.mapM fun r => conv r.z
  pure [(names.x, a), (names.y, b), (names.z, c)]

/-- `save_points_to_ply(filename, points, normals, colors, labels)`, projects/tools/utils.py 14-40: the columns of the element `vertex`; `np.concatenate` asks for equal heights.
Simplified: the structured array is a list of columns. -/
def savePoints (points : List (V3 ℚ)) (normals colors : Option (List (V3 ℚ))) (labels : Option (List ℚ)) : M (Dict (List ℚ)) := do
  let same (n : Option Nat) : Bool := n.all (· = points.length)
  if same (normals.map List.length) && same (colors.map List.length) && same (labels.map List.length) then do
    let a ← threeCols false ⟨"x", "y", "z"⟩ points
    let b ← match normals with
      | some ns => threeCols false ⟨"nx", "ny", "nz"⟩ ns
      | none => pure []
    let c ← match colors with
      | some cs => threeCols true ⟨"red", "green", "blue"⟩ cs
      | none => pure []
    let d ← match labels with
      | some ls => do
        let l ← ls.mapM toByte
        pure [("label", l)]
      | none => pure []
    pure (a ++ b ++ c ++ d)
  else .error .value

/-- A file written by `np.savez`. -/
structure Npz where
  points : List (V3 ℚ)
  normals : Option (List (V3 ℚ))
  colors : Option (List (V3 ℚ))
  labels : Option (List ℚ)

/-- Three columns of the rows, seg_scannet.py 130-132. -/
def colsFrom (j : Nat) (rows : List (List ℚ)) : M (List (V3 ℚ)) :=
  rows.mapM fun r => do
    let a ← getIdx r j
    let b ← getIdx r (j + 1 : Nat)
    let c ← getIdx r (j + 2 : Nat)
    pure ⟨a, b, c⟩

/-- `save_npz(point_cloud, filename)`, seg_scannet.py 129-135, for clouds of at least 9 columns; `astype(np.int32)` cuts off the digits. -/
def saveNpz (ncols : Nat) (pointCloud : List (List ℚ)) : M Npz := do
  let p ← colsFrom 0 pointCloud
  let n ← colsFrom 3 pointCloud
  let c ← colsFrom 6 pointCloud
  let l ← (if ncols = 10 then do
    let l ← pointCloud.mapM fun r => getIdx r 9
    pure (some (l.map fun v => (((if 0 ≤ v then ⌊v⌋ else ⌈v⌉ : ℤ)) : ℚ)))
  else pure none : M (Option (List ℚ)))
  pure ⟨p.map (·.map f32), some (n.map (·.map f32)), some (c.map (·.map f32)), l⟩

/-- What the readers return, projects/datascts/utils.py 25-37. -/
structure CloudOut where
  points : List (V3 ℚ)
  normals : Option (List (V3 ℚ))
  colors : Option (List (V3 ℚ))
  labels : Option (List Int)
  deriving DecidableEq

/-- The switches of the readers, projects/datascts/utils.py 15-19. -/
structure ReadFlags where
  hasNormal : Bool
  hasColor : Bool
  hasLabel : Bool

/-- `np.stack([a, b, c], axis=1)` for three columns of a file. -/
def stack3 (a b c : List ℚ) : List (V3 ℚ) := List.zipWith (fun x yz => ⟨x, yz.1, yz.2⟩) a (b.zip c)

/-- `ReadPly.__call__`, projects/datascts/utils.py 21-37, for the columns of the element `vertex`; a missing column raises (plyfile: ValueError). -/
def readPly (flags : ReadFlags) (vtx : Dict (List ℚ)) : M CloudOut := do
  let col (name : String) : M (List ℚ) := match vtx.lookup name with
    | some c => pure c
    | none => .error .value
  let x ← col "x"
  let y ← col "y"
  let z ← col "z"
  let normals ← (if flags.hasNormal then do
    let a ← col "nx"
    let b ← col "ny"
    let c ← col "nz"
    pure (some ((stack3 a b c).map (·.map f32)))
  else pure none : M (Option (List (V3 ℚ))))
  let colors ← (if flags.hasColor then do
    let a ← col "red"
    let b ← col "green"
    let c ← col "blue"
    pure (some ((stack3 a b c).map (·.map f32)))
  else pure none : M (Option (List (V3 ℚ))))
  let labels ← (if flags.hasLabel then do
    let a ← col "label"
    pure (some (a.map fun v => if 0 ≤ v then ⌊v⌋ else ⌈v⌉))
  else pure none : M (Option (List Int)))
  pure ⟨(stack3 x y z).map (·.map f32), normals, colors, labels⟩

/-- `ReadNpz.__call__`, projects/datascts/utils.py 48-59; a missing array raises KeyError. -/
def readNpz (flags : ReadFlags) (raw : Npz) : M CloudOut := do
  let entry {α : Type} (o : Option α) : M α := match o with
    | some v => pure v
    | none => .error .key
  let normals ← (if flags.hasNormal then do
    let n ← entry raw.normals
    pure (some (n.map (·.map f32)))
  else pure none : M (Option (List (V3 ℚ))))
  let colors ← (if flags.hasColor then do
    let c ← entry raw.colors
    pure (some (c.map (·.map f32)))
  else pure none : M (Option (List (V3 ℚ))))
  let labels ← (if flags.hasLabel then do
    let l ← entry raw.labels
    pure (some (l.map fun v => if 0 ≤ v then ⌊v⌋ else ⌈v⌉))
  else pure none : M (Option (List Int)))
  pure ⟨raw.points.map (·.map f32), normals, colors, labels⟩

/-- `filename.split('.')[-1]`, projects/datascts/utils.py 71: what follows the last dot. -/
def lastPart (filename : String) : String := String.ofList ((filename.toList.reverse.takeWhile (· ≠ '.')).reverse)

/-- `ReadFile.__call__`, projects/datascts/utils.py 69-72, for a file system given by the contents of its ply and npz files; a missing file raises (here `.index`). -/
def readFile (flags : ReadFlags) (ply : String → Option (Dict (List ℚ))) (npz : String → Option Npz) (filename : String) : M CloudOut :=
  if lastPart filename = "npz" then
    match npz filename with
    | some raw => readNpz flags raw
    | none => .error .index
  else if lastPart filename = "ply" then
    match ply filename with
    | some vtx => readPly flags vtx
    | none => .error .index
  else .error .key

/-- One scene of `process_scannet`, seg_scannet.py 233-252: the rows of `pointcloud`.  `props` are the colours and the last column of the file, `raw` the original labels of a training
scene, `align` the lines of the alignment file with `--align_axis`.  Simplified: a single label, which numpy would broadcast, is not special. -/
def processScene (rt : ℚ → ℚ) (ids : List Nat) (align : Option (List (String × V3 (V3 ℚ × ℚ)))) (vertex : List (V3 ℚ)) (face : List (V3 Int)) (props : List (V3 ℚ × ℚ))
    (raw : Option (List Int)) : M (List (List ℚ)) := do
  pyAssert ((props.map (·.2)).dedup.length = 1)
  let vertex := align.elim vertex fun lines => alignToAxis lines vertex
  let nv ← vertexNormal rt vertex face
  let last ← match raw with
    | some raw => do
      let new ← mapLabels ids raw
      if new.length = vertex.length then pure (new.map fun c : Nat => (c : ℚ)) else .error .value
    | none => pure (props.map (·.2))
  if props.length = vertex.length then
    pure (List.zipWith (fun (v : V3 ℚ × V3 ℚ) (p : V3 ℚ × ℚ) => [v.1.x, v.1.y, v.1.z, v.2.x, v.2.y, v.2.z, p.1.x, p.1.y, p.1.z, p.2]) (vertex.zip nv)
      ((props.map (·.1)).zip last))
  else .error .value

end Ocnn
