import Verif.Octree
import Verif.Decoder

/-! Model of ocnn/dataset.py. -/

namespace Ocnn

/-- The attributes of `Transform`, dataset.py 38-57.  Angles and intervals are integers (degrees). -/
structure Transform where
  depth : Nat
  fullDepth : Nat
  distort : Bool
  angle : V3 Int
  interval : V3 Int
  scale : ℚ
  uniform : Bool
  jitter : ℚ
  flip : V3 ℚ
  orientNormal : String

/-- What the random generator returns in one call of `rnd_parameters`, dataset.py 110-127: three integers of
`torch.randint` and three rows of `torch.rand`. -/
structure Drawn where
  turns : V3 Int
  scale : V3 ℚ
  coins : V3 ℚ
  jitter : V3 ℚ

namespace Transform

/-- `self.angle[i] // self.interval[i]`, dataset.py 112. -/
def rotNum (a i : Int) : M Int := if i = 0 then .error .zeroDiv else .ok (a.fdiv i)

/-- One rotation angle, dataset.py 111-114: `torch.randint` raises for an empty range. -/
def rndAngle1 (a i n : Int) : M ℚ := do
  let rn ← rotNum a i
  if -rn ≥ rn + 1 then .error .value else pure (n * i * (314159265 / 100000000 / 180))

/-- `rnd_angle`, dataset.py 110-115. -/
def rndAngle (t : Transform) (r : Drawn) : M (V3 ℚ) := do
  let x ← rndAngle1 t.angle.x t.interval.x r.turns.x
  let y ← rndAngle1 t.angle.y t.interval.y r.turns.y
  let z ← rndAngle1 t.angle.z t.interval.z r.turns.z
  pure ⟨x, y, z⟩

/-- `rnd_scale`, dataset.py 117-120. -/
def rndScale (t : Transform) (r : Drawn) : V3 ℚ :=
  let s := r.scale.map fun u => u * (2 * t.scale) - t.scale + 1
  if t.uniform then ⟨s.x, s.x, s.x⟩ else s

/-- `rnd_flip`, dataset.py 122-125. -/
def rndFlip (t : Transform) (r : Drawn) : String :=
  String.ofList ((if r.coins.x < t.flip.x then ['x'] else []) ++ (if r.coins.y < t.flip.y then ['y'] else []) ++
    (if r.coins.z < t.flip.z then ['z'] else []))

/-- `rnd_jitter`, dataset.py 127. -/
def rndJitter (t : Transform) (r : Drawn) : V3 ℚ := r.jitter.map fun u => u * (2 * t.jitter) - t.jitter

variable {F L : Type}

/-- The augmentation, dataset.py 83-87; `rt`, `cosF` and `sinF` are the square root, cosine and sine. -/
def augment (rt cosF sinF : ℚ → ℚ) (t : Transform) (r : Drawn) (p : Points ℚ F L) : M (Points ℚ F L) := do
  let angle ← t.rndAngle r
  let p ← p.flip (t.rndFlip r)
  let p := p.rotate (angle.map cosF) (angle.map sinF)
  let p := p.translate (t.rndJitter r)
  p.scale rt (t.rndScale r)

/-- `transform(sample, idx)`, dataset.py 77-96: the new points and the mask. -/
def transform (rt cosF sinF : ℚ → ℚ) (t : Transform) (r : Drawn) (p : Points ℚ F L) : M (Points ℚ F L × List Bool) := do
  let p ← (if t.distort then t.augment rt cosF sinF r p else pure p : M (Points ℚ F L))
  let p ← (if t.orientNormal ≠ "" then p.orientNormal t.orientNormal else pure p : M (Points ℚ F L))
  p.clip (-1) 1 (1 / 100)

/-- `preprocess(sample, idx)`, dataset.py 67-75. -/
def preprocess (xyz normals : List (V3 ℚ)) : M (Points ℚ F L) :=
  Points.init xyz (some normals) none none none 1 0

/-- `points2octree(points)`, dataset.py 98-104. -/
def points2octree [Add F] [Zero F] (nrm : V3 ℚ → V3 ℚ) (divF : ℚ → F → F) (t : Transform) (p : Points ℚ F L) :
    M (Octree F) := do
  let r ← Octree.build nrm divF (Octree.new t.depth t.fullDepth 1 0) p
  pure r.1

/-- `__call__(sample, idx)`, dataset.py 59-65: the entries `points`, `inbox_mask` and `octree` of the result.  The
other entries of the sample are passed through. -/
def call [Add F] [Zero F] (nrm : V3 ℚ → V3 ℚ) (divF : ℚ → F → F) (rt cosF sinF : ℚ → ℚ) (t : Transform) (r : Drawn)
    (xyz normals : List (V3 ℚ)) : M (Points ℚ F L × List Bool × Octree F) := do
  let p ← preprocess xyz normals
  let pm ← t.transform rt cosF sinF r p
  let o ← t.points2octree nrm divF pm.1
  pure (pm.1, pm.2, o)

end Transform

/-! ### CollateBatch -/

/-- `sub in key` for strings, dataset.py 147, 154, 158. -/
def hasSub (sub key : String) : Bool := key.toList.tails.any fun t => sub.toList.isPrefixOf t

/-- A dictionary with its keys in insertion order. -/
abbrev Dict (α : Type) := List (String × α)

/-- `d[key]`, KeyError if missing. -/
def Dict.get {α : Type} (d : Dict α) (key : String) : M α :=
  match d.lookup key with
  | some v => .ok v
  | none => .error .key

/-- `d[key] = v`: an existing key keeps its position. -/
def Dict.set {α : Type} : Dict α → String → α → Dict α
  | [], key, v => [(key, v)]
  | (k, w) :: d, key, v => if k = key then (k, v) :: d else (k, w) :: Dict.set d key v

/-- A value of a sample: an octree, a point cloud or something else. -/
inductive Entry (F L X : Type) where
  | octree (o : Octree F)
  | points (p : Points ℚ F L)
  | other (x : X)

/-- A value of the collated batch. -/
inductive Collated (F L X T : Type) where
  | list (vs : List (Entry F L X))
  | octree (o : Octree F)
  | points (p : Points ℚ F L)
  | tensor (t : T)

section Collate
variable {F L X T : Type}

/-- The octree in an entry; other values have no octree attributes. -/
def Entry.asOctree : Entry F L X → M (Octree F)
  | .octree o => .ok o
  | _ => .error .type

/-- The point cloud in an entry. -/
def Entry.asPoints : Entry F L X → M (Points ℚ F L)
  | .points p => .ok p
  | _ => .error .type

/-- The value of an entry that may be a label; `torch.tensor` of octrees or point clouds raises. -/
def Entry.asOther : Entry F L X → M X
  | .other x => .ok x
  | _ => .error .type

/-- Lines 147-151 of dataset.py. -/
def collateOctree (key : String) (vs : List (Entry F L X)) : M (Collated F L X T) :=
  if hasSub "octree" key then do
    let os ← vs.mapM Entry.asOctree
    let o ← Octree.merge os
    let o ← o.constructAllNeigh
    pure (.octree o)
  else pure (.list vs)

/-- Lines 154-155 of dataset.py; iterating over a merged octree raises. -/
def collatePoints (mergePoints : Bool) (key : String) (v : Collated F L X T) : M (Collated F L X T) :=
  if hasSub "points" key && mergePoints then
    match v with
    | .list vs => do
      let ps ← vs.mapM Entry.asPoints
      let p ← Points.merge ps true
      pure (.points p)
    | _ => .error .type
  else pure v

/-- Lines 158-159 of dataset.py; `toTensor` is `torch.tensor` on a list of values. -/
def collateLabel (toTensor : List X → M T) (key : String) (v : Collated F L X T) (outputs : Dict (Collated F L X T)) :
    M (Dict (Collated F L X T)) :=
  if hasSub "label" key then
    match v with
    | .list vs => do
      let xs ← vs.mapM Entry.asOther
      let t ← toTensor xs
      pure (outputs.set "label" (.tensor t))
    | _ => .error .type
  else pure outputs

/-- The loop body of `CollateBatch.__call__`, dataset.py 142-159. -/
def collateKey (toTensor : List X → M T) (mergePoints : Bool) (batch : List (Dict (Entry F L X)))
    (outputs : Dict (Collated F L X T)) (key : String) : M (Dict (Collated F L X T)) := do
  let vs ← batch.mapM fun b => b.get key
  let v ← collateOctree key vs
  let v ← collatePoints mergePoints key v
  collateLabel toTensor key v (outputs.set key v)

/-- `CollateBatch(merge_points)(batch)`, dataset.py 138-161. -/
def collate (toTensor : List X → M T) (mergePoints : Bool) (batch : List (Dict (Entry F L X))) :
    M (Dict (Collated F L X T)) :=
  match batch with
  | [] => .error .index
  | b0 :: _ => (b0.map Prod.fst).foldlM (collateKey toTensor mergePoints batch) []

end Collate

end Ocnn
