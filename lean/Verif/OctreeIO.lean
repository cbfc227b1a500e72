import Verif.Nn

/-! Model of the input/output methods of ocnn/octree/octree.py: `get_input_feature`, `to_points`, `to`. -/

namespace Ocnn

/-- `frac()`: the fractional part with truncation towards zero, octree.py 457. -/
def frac (q : ℚ) : ℚ := q - (long q : ℚ)

/-- `c in feature.upper()` for a letter `c`, octree.py 452-473 (upper-casing of ASCII letters). -/
def wants (feature : String) (c : Char) : Bool := (feature.toList.map Char.toUpper).contains c

/-- The three columns of a row of coordinates. -/
def V3.toRow {K : Type} (a : V3 K) : List K := [a.x, a.y, a.z]

/-- Two tensors side by side, `torch.cat([a, b], dim=1)`: the heights must agree. -/
def catCols2 {K : Type} (a b : List (List K)) : M (List (List K)) :=
  if a.length = b.length then .ok (List.zipWith (· ++ ·) a b) else .error .shape

/-- `torch.cat(features, dim=1)`, octree.py 475: the empty list raises, `None` entries raise TypeError. -/
def catCols {K : Type} (ts : List (Option (List (List K)))) : M (List (List K)) := do
  let ts ← ts.mapM need
  match ts with
  | [] => .error .value
  | t :: ts => ts.foldlM catCols2 t

namespace Octree
variable {F : Type} {k : Nat}

/-- `self.points[depth].frac() - 0.5`, octree.py 457 (AttributeError without points). -/
def localPoints (o : Octree F) : M (List (V3 ℚ)) := do
  let p ← need (o.points o.depth)
  pure (p.map fun v => v.map fun q => frac q - 1 / 2)

/-- `torch.sum(local_points * self.normals[depth], dim=1, keepdim=True)`, octree.py 460. -/
def displacement (o : Octree F) (l : List (V3 ℚ)) : M (List (List ℚ)) := do
  let n ← need (o.normals o.depth)
  if l.length = n.length then
    .ok (List.zipWith (fun (a b : V3 ℚ) => [a.x * b.x + a.y * b.y + a.z * b.z]) l n)
  else .error .shape

/-- `2 ** (1 - depth)`, octree.py 467, 498. -/
def scaleOf (o : Octree F) : ℚ := (2 : ℚ) ^ (1 - (o.depth : ℤ))

/-- `self.points[depth] * scale - 1.0`, octree.py 467-468. -/
def globalPoints (o : Octree F) : M (List (V3 ℚ)) := do
  let p ← need (o.points o.depth)
  pure (p.map fun v => v.map fun q => q * o.scaleOf - 1)

/-- The list `features` of `get_input_feature`, octree.py 451-473; `None` where an attribute is missing. -/
def inputColumns (o : Octree (Fin k → ℚ)) (feature : String) : M (List (Option (List (List ℚ)))) := do
  let n := if wants feature 'N' then [(o.normals o.depth).map fun t => t.map V3.toRow] else []
  let l ← (if wants feature 'L' || wants feature 'D' then o.localPoints else pure [] : M (List (V3 ℚ)))
  let d ← (if wants feature 'D' then do
      let t ← o.displacement l
      pure [some t]
    else pure [] : M (List (Option (List (List ℚ)))))
  let l := if wants feature 'L' then [some (l.map V3.toRow)] else []
  let p ← (if wants feature 'P' then do
      let t ← o.globalPoints
      pure [some (t.map V3.toRow)]
    else pure [] : M (List (Option (List (List ℚ)))))
  let f := if wants feature 'F' then [(o.features o.depth).map fun t => t.map List.ofFn] else []
  pure (n ++ d ++ l ++ p ++ f)

/-- The number of channels of the result. -/
def inputWidth (k : Nat) (feature : String) : Nat :=
  (if wants feature 'N' then 3 else 0) + (if wants feature 'D' then 1 else 0) + (if wants feature 'L' then 3 else 0) +
    (if wants feature 'P' then 3 else 0) + (if wants feature 'F' then k else 0)

/-- `get_input_feature(feature, nempty)`, octree.py 433-478, and `InputFeature.forward`, modules.py 184-186. -/
def inputFeature (o : Octree (Fin k → ℚ)) (feature : String) (nempty : Bool) : M (List (List ℚ)) := do
  let ts ← o.inputColumns feature
  let out ← catCols ts
  if nempty then pure out else octreePad out o o.depth (List.replicate (inputWidth k feature) 0)

/-- The coordinates and batch indices computed by `to_points`, octree.py 487-501. -/
def toPointsXyz (o : Octree F) (rescale : Bool) : M (List (V3 ℚ) × List Int) := do
  let b ← o.batchId o.depth true
  let xb ← (match o.points o.depth with
    | some xyz => pure (xyz, b.map Int.ofNat)
    | none => do
      let t ← o.xyzb o.depth true
      pure (t.map fun v => V3.mk ((v.1 : ℚ) + 1 / 2) ((v.2.1 : ℚ) + 1 / 2) ((v.2.2.1 : ℚ) + 1 / 2),
        t.map fun v => v.2.2.2) : M (List (V3 ℚ) × List Int))
  if rescale then pure (xb.1.map fun v => v.map fun q => q * o.scaleOf - 1, xb.2) else pure xb

/-- `to_points(rescale)`, octree.py 480-506: the batch indices are passed to `Points` as a flat tensor. -/
def toPoints {L : Type} (o : Octree F) (rescale : Bool) : M (Points ℚ F L) := do
  let xb ← o.toPointsXyz rescale
  Points.init xb.1 (o.normals o.depth) (o.features o.depth) none (some (.flat xb.2)) o.batchSize o.device

/-- `list_to_device`, octree.py 525-527, for a per-layer list of length `depth + 1`. -/
def listTo {α : Type} (o : Octree F) (prop : Nat → Option α) : Nat → Option α :=
  fun d => if d ≤ o.depth then prop d else none

/-- `to(device)`, octree.py 508-541; the copies are equal tensors. -/
def toDevice (o : Octree F) (device : Nat) : Octree F :=
  if o.device = device then o
  else
    { (new o.depth o.fullDepth o.batchSize device : Octree F) with
      keys := o.listTo o.keys
      children := o.listTo o.children
      neighs := o.listTo o.neighs
      features := o.listTo o.features
      normals := o.listTo o.normals
      points := o.listTo o.points
      nnum := o.nnum
      nnumNempty := o.nnumNempty
      batchNnum := o.batchNnum
      batchNnumNempty := o.batchNnumNempty }

end Octree
end Ocnn
