import Verif.Points

/-! Model of the meshes in projects/tools/seg_scannet.py: normals and alignment.  Numbers are exact; `rt` is `np.sqrt`. -/

namespace Ocnn

/-- `np.cross` of two rows, seg_scannet.py 89. -/
def vcross (a b : V3 ℚ) : V3 ℚ := ⟨a.y * b.z - a.z * b.y, a.z * b.x - a.x * b.z, a.x * b.y - a.y * b.x⟩

/-- The difference of two rows, seg_scannet.py 87-88. -/
def vdiff (a b : V3 ℚ) : V3 ℚ := ⟨a.x - b.x, a.y - b.y, a.z - b.z⟩

/-- `np.sqrt(np.sum(v**2)) + 1.0e-8` for a row, seg_scannet.py 90, 104. -/
def softNorm (rt : ℚ → ℚ) (v : V3 ℚ) : ℚ := rt (v.x * v.x + v.y * v.y + v.z * v.z) + 1 / 10 ^ 8

/-- `face_normal(vertex, face)` for one face, seg_scannet.py 86-93: the normal and the area. -/
def faceNormal (rt : ℚ → ℚ) (vertex : List (V3 ℚ)) (f : V3 Int) : M (V3 ℚ × ℚ) := do
  let v0 ← getIdx vertex f.x
  let v1 ← getIdx vertex f.y
  let v2 ← getIdx vertex f.z
  let vec := vcross (vdiff v1 v0) (vdiff v2 v0)
  let length := softNorm rt vec
  pure (vec.map (· / length), length * (1 / 2))

/-- `nv[f] += v` for the three indices of a face, seg_scannet.py 102: numpy reads the three rows, adds, and writes the three rows, so that an index that occurs twice
is increased once. -/
def addAtFace (nv : List (V3 ℚ)) (f : V3 Int) (v : V3 ℚ) : M (List (V3 ℚ)) := do
  let i ← normIdx nv.length f.x
  let j ← normIdx nv.length f.y
  let k ← normIdx nv.length f.z
  let a ← getIdx nv f.x
  let b ← getIdx nv f.y
  let c ← getIdx nv f.z
  pure (((nv.set i (a + v)).set j (b + v)).set k (c + v))

/-- `vertex_normal(vertex, face)`, seg_scannet.py 96-106. -/
def vertexNormal (rt : ℚ → ℚ) (vertex : List (V3 ℚ)) (face : List (V3 Int)) : M (List (V3 ℚ)) := do
  let fs ← face.mapM (faceNormal rt vertex)
  let nf := fs.map fun p => p.1.map (· * p.2)
  let nv ← (face.zip nf).foldlM (fun nv p => addAtFace nv p.1 p.2) (List.replicate vertex.length 0)
  pure (nv.map fun v => v.map (· / softNorm rt v))

/-- `align_to_axis(filename_ply, vertex)`, seg_scannet.py 139-148, for the lines of the file as pairs of a key and the three rows of numbers `(a, b, c, t)` of the matrix (the
fourth row is not used; a line that is not a pair, which raises, is not modelled): the first line with the key `axisAlignment` moves the vertices. -/
def alignToAxis (lines : List (String × V3 (V3 ℚ × ℚ))) (vertex : List (V3 ℚ)) : List (V3 ℚ) :=
  match lines with
  | [] => vertex
  | (key, m) :: rest =>
    if key = "axisAlignment" then
      let row (r : V3 ℚ × ℚ) (v : V3 ℚ) : ℚ := v.x * r.1.x + v.y * r.1.y + v.z * r.1.z + r.2
      vertex.map fun v => ⟨row m.x v, row m.y v, row m.z v⟩
    else alignToAxis rest vertex

end Ocnn
