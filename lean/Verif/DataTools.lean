import Verif.FileLists
import Verif.Kitti

/-! Model of projects/tools/cls_modelnet.py (cleaning, normalising, sampling), projects/tools/ae_shapenet.py, and the functions of
projects/datascts that read the files (modelnet40.py, completion.py, image2shape.py). -/

namespace Ocnn

/-- `s[:-n]` for positive `n`. -/
def cutEnd (n : Nat) (s : String) : String := String.ofList (s.toList.take (s.toList.length - n))

/-! ### cls_modelnet.py -/

/-- `_clean_off_file(filename)`, cls_modelnet.py 58-69: the content of the file after the call. -/
def cleanOff (s : String) : String :=
  if s.toList.take 3 ≠ "OFF".toList then s
  else if s.toList.take 4 ≠ "OFF\n".toList then String.ofList (s.toList.take 3 ++ '\n' :: s.toList.drop 3)
  else s

/-- A row vector times a 3x3 matrix given by its rows. -/
def rowTimes {K : Type} [Field K] (v : V3 K) (m : V3 (V3 K)) : V3 K :=
  ⟨v.x * m.x.x + v.y * m.y.x + v.z * m.z.x, v.x * m.x.y + v.y * m.y.y + v.z * m.z.y, v.x * m.x.z + v.y * m.y.z + v.z * m.z.z⟩

/-- The option `--align_y` for one vertex, cls_modelnet.py 146-147. -/
def alignY {K : Type} [Field K] (v : V3 K) : V3 K := rowTimes v ⟨⟨0, 0, 1⟩, ⟨1, 0, 0⟩, ⟨0, 1, 0⟩⟩

/-- `(points - center) * (1.0 / radius)`, cls_modelnet.py 160, 166. -/
def centredBy {K : Type} [Field K] (center : V3 K) (radius : K) (points : List (V3 K)) : List (V3 K) :=
  points.map fun v => (V3.mk (v.x - center.x) (v.y - center.y) (v.z - center.z)).map (· * (1 / radius))

/-- The option `--normalize`, cls_modelnet.py 153-168; `ball` is `cyminiball.compute`: centre, squared radius and `info['is_valid']`; `rt` is the
square root.  The minimum over no points raises ValueError; a ball of radius 0 is a division by zero (numpy goes on with infinite numbers). -/
def meshNormalize {K : Type} [Field K] [LinearOrder K] (rt : K → K) (ball : List (V3 K) → V3 K × K × Bool) (points : List (V3 K)) :
    M (List (V3 K)) := do
  let b ← (match points with
    | [] => .error .value
    | v :: vs => .ok (vs.foldl (fun a b => ⟨min a.x b.x, min a.y b.y, min a.z b.z⟩) v,
        vs.foldl (fun a b => ⟨max a.x b.x, max a.y b.y, max a.z b.z⟩) v) : M (V3 K × V3 K))
  let center : V3 K := (b.1 + b.2).map (· / 2)
  let radius : K := max (max (b.2.x - b.1.x) (b.2.y - b.1.y)) (b.2.z - b.1.z) * (1 / 2) + 1 / 10 ^ 6
  let points := centredBy center radius points
  let r := ball points
  if r.2.2 then
    if rt r.2.1 = 0 then .error .zeroDiv
    pure (centredBy r.1 (rt r.2.1) points)
  else pure points

/-- The loop over the meshes, cls_modelnet.py 137-173: the files that are written, in order.  `sample` gives the points and normals sampled on the mesh of a
file, normalised or not. -/
def convertMeshes (sample : String → M (List (V3 ℚ) × List (V3 ℚ))) (plyFolder : String) (filelist : List String) :
    M (List (String × Dict (List ℚ))) :=
  filelist.mapM fun filename => do
    let s ← sample filename
    let cols ← savePoints s.1 (some s.2) none none
    pure (pathJoin plyFolder (cutEnd 3 filename ++ "ply"), cols)

/-! ### readers -/

/-- `read_file(filename)`, projects/datascts/modelnet40.py 33-43, for a file system given by the contents of its ply and npz files; a missing file raises
(here `.index`), a missing array KeyError. -/
def m40ReadFile (ply : String → Option (Dict (List ℚ))) (npz : String → Option Npz) (filename : String) : M (List (V3 ℚ) × List (V3 ℚ)) :=
  let filename := strReplace filename "\\" "/"
  if hasSuffix ".ply" filename then
    match ply filename with
    | some vtx => do
      let out ← readPly ⟨true, false, false⟩ vtx
      match out.normals with
      | some n => pure (out.points, n)
      | none => .error .key
    | none => .error .index
  else if hasSuffix ".npz" filename then
    match npz filename with
    | some raw => match raw.normals with
      | some n => .ok (raw.points, n)
      | none => .error .key
    | none => .error .index
  else .error .value

/-- `ReadFile.__call__(filename)`, projects/datascts/completion.py 61-68, with `has_normal=True`, followed by `point_cloud['points']` and
`point_cloud['normals']`, completion.py 28. -/
def completionReadFile (ply : String → Option (Dict (List ℚ))) (npz : String → Option Npz) (filename : String) : M (List (V3 ℚ) × List (V3 ℚ)) :=
  if hasSuffix ".npz" filename then
    match npz filename with
    | some raw => match raw.normals with
      | some n => .ok (raw.points, n)
      | none => .error .key
    | none => .error .index
  else if hasSuffix ".ply" filename then
    match ply filename with
    | some vtx => do
      let out ← readPly ⟨true, false, false⟩ vtx
      match out.normals with
      | some n => pure (out.points, n)
      | none => .error .key
    | none => .error .index
  else .error .value

/-- `ReadPoints.__call__(filename)`, projects/datascts/image2shape.py 42-50, with `has_normal=True`, followed by the look-up of both arrays,
image2shape.py 26-27. -/
def readPoints (filetype : String) (ply : String → Option (Dict (List ℚ))) (npz : String → Option Npz) (filename : String) :
    M (List (V3 ℚ) × List (V3 ℚ)) :=
  if filetype = "ply" then
    match ply (filename ++ ".ply") with
    | some vtx => do
      let out ← readPly ⟨true, false, false⟩ vtx
      match out.normals with
      | some n => pure (out.points, n)
      | none => .error .key
    | none => .error .index
  else if filetype = "npz" then
    match npz (filename ++ ".npz") with
    | some raw => match raw.normals with
      | some n => .ok (raw.points.map (·.map f32), n.map (·.map f32))
      | none => .error .key
    | none => .error .index
  else .error .value

/-- A number below 100 as `%02d`, image2shape.py 66. -/
def twoDigits (n : Nat) : String := String.ofList [Nat.digitChar (n / 10), Nat.digitChar (n % 10)]

/-- The name of the image, projects/datascts/image2shape.py 64-66; `rnd` is the random number below 24. -/
def renderingFile (filetype filename : String) (rnd : Nat) : String :=
  strReplace filename ("points." ++ filetype) "renderings" ++ ("/rendering/" ++ twoDigits rnd ++ ".png")

/-! ### ae_shapenet.py -/

/-- `_convert_ply_to_numpy(prefix)`, ae_shapenet.py 55-76: the files that are written, in order.  `_read_ply`, ae_shapenet.py 47-52, reads the same columns as
`ReadPly` with normals. -/
def convertPly (listdir : String → List String) (ply : String → Option (Dict (List ℚ))) (root pre : String) : M (List (String × Npz)) := do
  let plyFolder := pathJoin root (pre ++ ".ply")
  let npyFolder := pathJoin root (pre ++ ".npz")
  let parts ← (listdir plyFolder).mapM fun folder =>
    ((listdir (pathJoin plyFolder folder)).filter (hasSuffix ".ply")).mapM fun filename => do
      match ply (pathJoin (pathJoin plyFolder folder) filename) with
      | some vtx => do
        let out ← readPly ⟨true, false, false⟩ vtx
        pure (pathJoin (pathJoin npyFolder folder) (cutEnd 4 filename ++ ".npz"), (⟨out.points, out.normals, none, none⟩ : Npz))
      | none => .error .index
  pure parts.flatten

/-- `_create_filelist(filename, suffix)`, ae_shapenet.py 84-93: the name of the new list and its lines. -/
def createFilelist (filename suffix : String) (lines : List String) : String × List String :=
  (cutEnd 4 filename ++ suffix ++ ".txt", lines.map fun line => strReplace line ".points" suffix)

end Ocnn
