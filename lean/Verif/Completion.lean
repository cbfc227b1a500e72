import Verif.Pipelines

/-! Model of projects/datascts/completion.py. -/

namespace Ocnn

/-- The result of `Transform.__call__`, completion.py 52-53. -/
structure CompletionSample (F L : Type) where
  octree : Octree F
  points : Points ℚ F L
  octreeGt : Octree F
  pointsGt : Points ℚ F L

/-- The normalised coordinates, completion.py 31-35: box of the cloud, centre and radius.  The minimum over no points raises ValueError. -/
def completionNormalize (pts : List (V3 ℚ)) : M (List (V3 ℚ)) := do
  let b ← (match pts with
    | [] => .error .value
    | v :: vs => .ok (vs.foldl (fun a b => ⟨min a.x b.x, min a.y b.y, min a.z b.z⟩) v,
        vs.foldl (fun a b => ⟨max a.x b.x, max a.y b.y, max a.z b.z⟩) v) : M (V3 ℚ × V3 ℚ))
  let center : V3 ℚ := (b.1 + b.2).map (· / 2)
  let radius : ℚ := 2 / (max (max (b.2.x - b.1.x) (b.2.y - b.1.y)) (b.2.z - b.1.z) + 1 / 10 ^ 6)
  let pts := pts.map fun v => (V3.mk (v.x - center.x) (v.y - center.y) (v.z - center.z)).map (· * radius)
  pure (pts.map fun v => v.map (· * (95 / 100)))

/-- `Transform.__call__(point_cloud, idx)`, completion.py 26-53.  `noise` are the rows of `np.random.randn(points_number, 3)` and `chosen` the indices drawn by
`np.random.choice`; the code draws 3000 of both.  The conversions to single precision are left out. -/
def completionCall {F L : Type} [AddCommMonoid F] (nrm : V3 ℚ → V3 ℚ) (divF : ℚ → F → F) (depth full : Nat) (noise : List (V3 ℚ)) (chosen : List Nat)
    (xyz normals : List (V3 ℚ)) : M (CompletionSample F L) := do
  let pts ← completionNormalize xyz
  let sampled ← gatherIdx pts (chosen.map Int.ofNat)
  if sampled.length ≠ noise.length then .error .shape
  let noisy := List.zipWith (fun v (n : V3 ℚ) => v + n.map (· * (1 / 100 * (95 / 100)))) sampled noise
  let gt : Points ℚ F L ← Points.init pts (some normals) none none none 1 0
  let gt ← gt.clip (-1) 1 (1 / 100)
  let ogt ← points2octree nrm divF depth full gt.1
  let pin : Points ℚ F L ← Points.init noisy none none none none 1 0
  let pin ← pin.clip (-1) 1 (1 / 100)
  let oin ← points2octree nrm divF depth full pin.1
  pure ⟨oin, pin.1, ogt, gt.1⟩

end Ocnn
