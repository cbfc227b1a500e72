import Verif.Utils
import Mathlib.Algebra.Field.Defs
import Mathlib.Algebra.Order.Field.Basic

/-! Model of ocnn/octree/points.py. -/

namespace Ocnn

/-- A row of an `(N, 3)` tensor. -/
@[ext] structure V3 (K : Type) where
  x : K
  y : K
  z : K
  deriving DecidableEq, Repr

namespace V3
variable {K : Type}

instance [Add K] : Add (V3 K) := ⟨fun a b => ⟨a.x + b.x, a.y + b.y, a.z + b.z⟩⟩
instance [Zero K] : Zero (V3 K) := ⟨⟨0, 0, 0⟩⟩
/-- component-wise map -/
def map (f : K → K) (a : V3 K) : V3 K := ⟨f a.x, f a.y, f a.z⟩
/-- component `i` -/
def get (a : V3 K) (i : Fin 3) : K := match i with | 0 => a.x | 1 => a.y | 2 => a.z

@[simp] theorem add_x [Add K] (a b : V3 K) : (a + b).x = a.x + b.x := rfl
@[simp] theorem add_y [Add K] (a b : V3 K) : (a + b).y = a.y + b.y := rfl
@[simp] theorem add_z [Add K] (a b : V3 K) : (a + b).z = a.z + b.z := rfl
@[simp] theorem zero_x [Zero K] : (0 : V3 K).x = 0 := rfl
@[simp] theorem zero_y [Zero K] : (0 : V3 K).y = 0 := rfl
@[simp] theorem zero_z [Zero K] : (0 : V3 K).z = 0 := rfl
end V3

/-- `Points`, points.py 13-44.  `labels` rows and `features` rows are opaque; the `(N, 1)` tensor
`batch_id` is a list of integers; `device` is a tag. -/
structure Points (K F L : Type) where
  points : List (V3 K)
  normals : Option (List (V3 K))
  features : Option (List F)
  labels : Option (List L)
  batchId : Option (List Int)
  batchSize : Nat
  batchNpt : Option (List Nat)
  device : Nat

namespace Points
variable {K F L : Type}

/-- `npt`, points.py 70-72 -/
def npt (p : Points K F L) : Nat := p.points.length

/-- The `batch_id` argument of the constructor: a tensor of shape `(N,)` or of shape `(N, w)`. -/
inductive BatchArg where
  | flat (ids : List Int)
  | rows (w : Nat) (ids : List (List Int))

/-- `Points(points, normals, features, labels, batch_id, batch_size)` with `check_input`, points.py 31-68.  The
points and normals have three columns by type; label rows are opaque, so that the `unsqueeze` of flat labels is not
visible.  `batch_id.size(1)` of a flat tensor raises IndexError. -/
def init (points : List (V3 K)) (normals : Option (List (V3 K))) (features : Option (List F)) (labels : Option (List L))
    (batchId : Option BatchArg) (batchSize device : Nat) : M (Points K F L) := do
  (match normals with
    | some n => pyAssert (n.length = points.length)
    | none => pure () : M Unit)
  (match features with
    | some f => pyAssert (f.length = points.length)
    | none => pure () : M Unit)
  (match labels with
    | some l => pyAssert (l.length = points.length)
    | none => pure () : M Unit)
  let b ← (match batchId with
    | none => pure none
    | some (.flat ids) => do
      pyAssert (ids.length = points.length)
      .error .index
    | some (.rows w ids) => do
      pyAssert (ids.length = points.length)
      pyAssert (w = 1)
      pure (some ids.flatten) : M (Option (List Int)))
  pure ⟨points, normals, features, labels, b, batchSize, none, device⟩

/-- The names of the axes, points.py 85, 151. -/
inductive Axis where
  | x | y | z
  deriving DecidableEq, Repr

/-- `axis_map[c]` for one letter, points.py 151: KeyError for unknown letters. -/
def axisOf : Char → M Axis
  | 'x' => .ok .x
  | 'y' => .ok .y
  | 'z' => .ok .z
  | _ => .error .key

end Points

namespace V3
variable {K : Type}

/-- The component along an axis. -/
def along (a : V3 K) : Points.Axis → K
  | .x => a.x
  | .y => a.y
  | .z => a.z

/-- Component-wise product with a row of three numbers. -/
def scaleBy [Mul K] (a f : V3 K) : V3 K := ⟨a.x * f.x, a.y * f.y, a.z * f.z⟩

/-- Product of a row with a matrix given by its rows. -/
def mulMat [Mul K] [Add K] (a : V3 K) (m : V3 (V3 K)) : V3 K :=
  ⟨a.x * m.x.x + a.y * m.y.x + a.z * m.z.x, a.x * m.x.y + a.y * m.y.y + a.z * m.z.y,
    a.x * m.x.z + a.y * m.y.z + a.z * m.z.z⟩

/-- Product of two matrices given by their rows. -/
def matMul [Mul K] [Add K] (a b : V3 (V3 K)) : V3 (V3 K) := ⟨a.x.mulMat b, a.y.mulMat b, a.z.mulMat b⟩

end V3

namespace Points
variable {K F L : Type}

/-- `orient_normal(axis)`, points.py 74-92.  `flags` is 1 for positive components and -1 otherwise. -/
def orientNormal [Field K] [LinearOrder K] (p : Points K F L) (axis : String) : M (Points K F L) :=
  match p.normals with
  | none => .ok p
  | some ns =>
    let along (a : Axis) : Points K F L :=
      { p with normals := some (ns.map fun n => n.map (· * (if n.along a > 0 then 1 * 2 - 1 else 0 * 2 - 1))) }
    match axis with
    | "x" => .ok (along .x)
    | "y" => .ok (along .y)
    | "z" => .ok (along .z)
    | "xyz" => .ok { p with normals := some (ns.map fun n => n.map fun v => max v (-v)) }
    | _ => .error .key

/-- `scale(factor)`, points.py 94-113.  `rt` is the square root. -/
def scale [Field K] [LinearOrder K] (rt : K → K) (p : Points K F L) (f : V3 K) : M (Points K F L) := do
  pyAssert (f.x ≠ 0 ∧ f.y ≠ 0 ∧ f.z ≠ 0)
  if f.x = 1 ∧ f.y = 1 ∧ f.z = 1 then pure p
  else
    let points := p.points.map fun (v : V3 K) => v.scaleBy f
    let normals := match p.normals with
      | none => none
      | some ns =>
        if f.x ≠ f.x ∨ f.y ≠ f.x ∨ f.z ≠ f.x then
          some (ns.map fun (n : V3 K) =>
            let m := n.scaleBy (f.map (1 / ·))
            let norm2 := rt (m.x ^ 2 + m.y ^ 2 + m.z ^ 2)
            m.map (· / max norm2 (1 / 10 ^ 12)))
        else some ns
    pure { p with points := points, normals := normals }

/-- The matrix of `rotate`, points.py 122-127, from the cosines and sines of the three angles. -/
def rotMat [Field K] (c s : V3 K) : V3 (V3 K) :=
  let rotx : V3 (V3 K) := ⟨⟨1, 0, 0⟩, ⟨0, c.x, s.x⟩, ⟨0, -s.x, c.x⟩⟩
  let roty : V3 (V3 K) := ⟨⟨c.y, 0, -s.y⟩, ⟨0, 1, 0⟩, ⟨s.y, 0, c.y⟩⟩
  let rotz : V3 (V3 K) := ⟨⟨c.z, s.z, 0⟩, ⟨-s.z, c.z, 0⟩, ⟨0, 0, 1⟩⟩
  V3.matMul (V3.matMul rotx roty) rotz

/-- `rotate(angle)`, points.py 115-132; the cosines `c` and sines `s` of the angles are arguments. -/
def rotate [Field K] (p : Points K F L) (c s : V3 K) : Points K F L :=
  let rot := rotMat c s
  { p with
    points := p.points.map fun v => v.mulMat rot
    normals := p.normals.map fun ns => ns.map fun v => v.mulMat rot }

/-- `translate(dis)`, points.py 134-142 -/
def translate [Add K] (p : Points K F L) (dis : V3 K) : Points K F L := { p with points := p.points.map (· + dis) }

/-- `t[:, idx] *= -1.0` on one row. -/
def negAt [Field K] (v : V3 K) : Axis → V3 K
  | .x => { v with x := v.x * -1 }
  | .y => { v with y := v.y * -1 }
  | .z => { v with z := v.z * -1 }

/-- One step of `flip`, points.py 153-156. -/
def flipAxis [Field K] (p : Points K F L) (c : Char) : M (Points K F L) := do
  let a ← axisOf c
  pure { p with
    points := p.points.map (negAt · a)
    normals := p.normals.map fun ns => ns.map (negAt · a) }

/-- `flip(axis)`, points.py 144-156.  The real method works in place on the tensors; the object after the call is
returned here (sharing of tensors with other objects is not modelled here). -/
def flip [Field K] (p : Points K F L) (axis : String) : M (Points K F L) := axis.toList.foldlM flipAxis p

/-- `out.attr = self.attr[mask]` if the attribute is present, points.py 179-187. -/
def sliceAttr {α : Type} (mask : List Bool) : Option (List α) → M (Option (List α))
  | none => .ok none
  | some t => do
    let r ← boolIndex mask t
    pure (some r)

/-- `self[mask]` for a boolean mask, points.py 172-188.  The result is a new object: `batch_npt` is None. -/
def getItem (p : Points K F L) (mask : List Bool) : M (Points K F L) := do
  let points ← boolIndex mask p.points
  let normals ← sliceAttr mask p.normals
  let features ← sliceAttr mask p.features
  let labels ← sliceAttr mask p.labels
  let batchId ← sliceAttr mask p.batchId
  pure ⟨points, normals, features, labels, batchId, p.batchSize, none, p.device⟩

/-- `inbox_mask(bbmin, bbmax)`, points.py 190-199 -/
def inboxMask [LinearOrder K] (p : Points K F L) (bbmin bbmax : V3 K) : List Bool :=
  p.points.map fun v =>
    decide (v.x > bbmin.x ∧ v.y > bbmin.y ∧ v.z > bbmin.z) && decide (v.x < bbmax.x ∧ v.y < bbmax.y ∧ v.z < bbmax.z)

/-- `clip(min, max, esp)`, points.py 158-170: the new state of the object and the returned mask. -/
def clip [Field K] [LinearOrder K] (p : Points K F L) (mn mx esp : K) : M (Points K F L × List Bool) := do
  let mask := p.inboxMask ⟨mn + esp, mn + esp, mn + esp⟩ ⟨mx - esp, mx - esp, mx - esp⟩
  let tmp ← p.getItem mask
  pure (tmp, mask)

/-- `bbox()`, points.py 201-208: reductions over an empty dimension raise. -/
def bbox [LinearOrder K] (p : Points K F L) : M (V3 K × V3 K) :=
  match p.points with
  | [] => .error .index
  | v :: vs =>
    .ok (vs.foldl (fun a b => ⟨min a.x b.x, min a.y b.y, min a.z b.z⟩) v,
      vs.foldl (fun a b => ⟨max a.x b.x, max a.y b.y, max a.z b.z⟩) v)

/-- `normalize(bbmin, bbmax, scale)`, points.py 210-222 -/
def normalize [Field K] [LinearOrder K] (p : Points K F L) (bbmin bbmax : V3 K) (scale : K) : Points K F L :=
  let center : V3 K := (bbmin + bbmax).map (· * (1 / 2))
  let boxSize := max (max (bbmax.x - bbmin.x) (bbmax.y - bbmin.y)) (bbmax.z - bbmin.z) + 1 / 10 ^ 6
  { p with points := p.points.map fun v =>
      (V3.mk (v.x - center.x) (v.y - center.y) (v.z - center.z)).map (· * (2 * scale / boxSize)) }

/-- `to(device)`, points.py 224-253: a new object built by `Points(zeros(1, 3))`, whose batch size is the default 1. -/
def toDevice (p : Points K F L) (device : Nat) : Points K F L :=
  if p.device = device then p
  else ⟨p.points, p.normals, p.features, p.labels, p.batchId, 1, p.batchNpt, device⟩

/-- `torch.cat([p.attr for p in points])` with a possibly missing attribute (None raises TypeError). -/
def catAttr {α : Type} (ps : List (Points K F L)) (attr : Points K F L → Option (List α)) : M (List α) := do
  let ts ← ps.mapM fun p => need (attr p)
  pure ts.flatten

/-- `if points[0].attr is not None: out.attr = torch.cat([p.attr for p in points])`, points.py 309-314. -/
def mergeAttr {α : Type} (p0 : Points K F L) (ps : List (Points K F L)) (attr : Points K F L → Option (List α)) :
    M (Option (List α)) :=
  if (attr p0).isSome then do
    let t ← catAttr ps attr
    pure (some t)
  else pure none

/-- `merge_points(points, update_batch_info)`, points.py 298-322.  The batch indices are stored as floats by the
code, here as integers.  `torch.cat` of an empty list raises. -/
def merge (ps : List (Points K F L)) (updateBatchInfo : Bool) : M (Points K F L) :=
  match ps with
  | [] => .error .shape
  | p0 :: _ => do
    let points := (ps.map (·.points)).flatten
    let normals ← mergeAttr p0 ps (·.normals)
    let features ← mergeAttr p0 ps (·.features)
    let labels ← mergeAttr p0 ps (·.labels)
    let out : Points K F L := ⟨points, normals, features, labels, none, 1, none, p0.device⟩
    if updateBatchInfo then
      pure { out with
        batchSize := ps.length
        batchNpt := some (ps.map npt)
        batchId := some ((ps.zipIdx.map fun (p, i) => List.replicate p.npt (i : Int)).flatten) }
    else pure out

end Points

end Ocnn
