import Verif.DataTools
import Verif.Float32

/-! Model of projects/tools/image2shape.py: sampling the meshes and storing the clouds in half precision. -/

namespace Ocnn

/-- The spacing of the float16 numbers in the binade of `x`; below `2 ^ -14` the numbers are subnormal. -/
def ulp16 (x : ℚ) : ℚ := max (2 ^ (Int.log 2 |x| - 10)) (2 ^ (-24 : ℤ))

/-- `x.astype(np.float16)`, image2shape.py 67-68.  Simplified: numbers from 65520 on become infinite in numpy; here the exponent has no upper bound. -/
def f16 (x : ℚ) : ℚ := (rne (x / ulp16 x) : ℚ) * ulp16 x

/-- `mesh2points()`, projects/tools/image2shape.py 26-49: the files that are written, in order.  `sample` gives the points and normals sampled on the mesh of a file. -/
def mesh2points (sample : String → M (List (V3 ℚ) × List (V3 ℚ))) (listdir : String → List String) (root : String) (categories : List String) :
    M (List (String × Dict (List ℚ))) := do
  let parts ← categories.mapM fun category =>
    let meshPath := pathJoin (pathJoin root "shapenet.mesh") category
    let ptsPath := pathJoin (pathJoin root "points.ply") category
    (pySorted (listdir meshPath)).mapM fun filename => do
      let s ← sample (pathJoin meshPath filename)
      let cols ← savePoints s.1 (some s.2) none none
      pure (pathJoin ptsPath (cutEnd 3 filename ++ "ply"), cols)
  pure parts.flatten

/-- `ply2npz()`, projects/tools/image2shape.py 52-68, with `read_ply`, 71-75: the files that are written, in order. -/
def ply2npz (listdir : String → List String) (ply : String → Option (Dict (List ℚ))) (root : String) (categories : List String) :
    M (List (String × Npz)) := do
  let parts ← categories.mapM fun category =>
    let plyPath := pathJoin (pathJoin root "points.ply") category
    let npzPath := pathJoin (pathJoin root "points.npz") category
    (pySorted (listdir plyPath)).mapM fun filename => do
      match ply (pathJoin plyPath filename) with
      | some vtx => do
        let out ← readPly ⟨true, false, false⟩ vtx
        pure (pathJoin npzPath (cutEnd 3 filename ++ "npz"),
          (⟨out.points.map (·.map f16), out.normals.map fun n => n.map (·.map f16), none, none⟩ : Npz))
      | none => .error .index
  pure parts.flatten

end Ocnn
