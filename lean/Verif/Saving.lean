import Verif.Dataset
import Verif.FileLists
import Verif.OctreeIO

/-! Model of `Points.save`, ocnn/octree/points.py 265-295, and of `build_example_octree`, ocnn/utils.py 189-205. -/

namespace Ocnn

/-- What `Points.save` writes: a file of named arrays, or a text file of numbers. -/
inductive SavedPoints where
  | npz (path : String) (arrays : Dict (List (List ℚ)))
  | xyz (path : String) (rows : List (List ℚ))
  deriving DecidableEq

/-- `mapping[key]`, points.py 274-277 and 281: the name and the rows of an attribute, KeyError for other letters.  The
rows of features and labels are lists of numbers, so that the `unsqueeze` of flat tensors (284-285) is part of the type. -/
def saveEntry (p : Points ℚ (List ℚ) (List ℚ)) : Char → M (String × Option (List (List ℚ)))
  | 'P' => .ok ("points", some (p.points.map V3.toRow))
  | 'N' => .ok ("normals", p.normals.map fun l => l.map V3.toRow)
  | 'F' => .ok ("features", p.features)
  | 'L' => .ok ("labels", p.labels)
  | 'B' => .ok ("batch_id", p.batchId.map fun l => l.map fun b : Int => [(b : ℚ)])
  | _ => .error .key

/-- `np.concatenate(outs, axis=1)`, points.py 292: ValueError for no arrays or for arrays of different heights. -/
def npConcat : List (List (List ℚ)) → M (List (List ℚ))
  | [] => .error .value
  | [a] => .ok a
  | a :: rest => do
    let r ← npConcat rest
    if a.length = r.length then .ok (List.zipWith (· ++ ·) a r) else .error .value

/-- `Points.save(filename, info)`, points.py 265-295: the loop over the letters (279-286), `np.savez` (288-290), which
appends `.npz` to a name without this extension, and `np.savetxt` with six decimals (291-293, `rnd`). Simplified:
`info.upper()` for ASCII letters; the file is returned instead of written. -/
def Points.save (rnd : ℚ → ℚ) (p : Points ℚ (List ℚ) (List ℚ)) (filename : String) (info : String := "PNFL") : M SavedPoints := do
  let entries ← (info.toList.map Char.toUpper).mapM (saveEntry p)
  let outs := entries.filterMap fun e => e.2.map fun rows => (e.1, rows)
  if hasSuffix "npz" filename then
    pure (.npz (if hasSuffix ".npz" filename then filename else filename ++ ".npz")
      (outs.foldl (fun d e => d.set e.1 e.2) []))
  else if hasSuffix "xyz" filename then do
    let rows ← npConcat (outs.map Prod.snd)
    pure (.xyz filename (rows.map fun r => r.map rnd))
  else .error .value

/-- The three points of `build_example_octree`, utils.py 193. -/
def examplePoints : List (V3 ℚ) := [⟨-1, -1, -1⟩, ⟨0, 0, -1⟩, ⟨1 / 16, 1 / 16, -1⟩]

/-- The normals, features and labels, utils.py 194-196. -/
def exampleNormals : List (V3 ℚ) := [⟨1, 0, 0⟩, ⟨-1, 0, 0⟩, ⟨0, 1, 0⟩]
@[inherit_doc exampleNormals] def exampleFeatures : List (ℚ × ℚ) := [(1, -1), (2, -2), (3, -3)]
@[inherit_doc exampleNormals] def exampleLabels : List ℚ := [0, 2, 2]

/-- `build_example_octree(depth, full_depth, pt_num)`, utils.py 189-205. -/
def buildExampleOctree (nrm : V3 ℚ → V3 ℚ) (depth fullDepth : Nat) (ptNum : Int) : M (Octree (ℚ × ℚ)) := do
  pyAssert (ptNum ≤ 3 ∧ 0 < ptNum)
  let n := ptNum.toNat
  let pc ← Points.init (examplePoints.take n) (some (exampleNormals.take n)) (some (exampleFeatures.take n))
    (some (exampleLabels.take n)) none 1 0
  let r ← Octree.build nrm (fun c v => (v.1 / c, v.2 / c)) (Octree.new depth fullDepth 1 0) pc
  pure r.1

end Ocnn
