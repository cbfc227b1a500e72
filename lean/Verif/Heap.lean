import Verif.Octree

/-! A second model of `get_neigh`, `search_key`, `key` and `merge_octrees` (ocnn/octree/octree.py) in which tensors are views of storages
on a heap, so that aliasing and in-place assignments are visible.

A storage is a list of rows of scalars; a scalar of any dtype is an integer (for the floating point signals, which are only
copied, its bit pattern). Storages are never freed. Temporary tensors that are not assigned to in place are plain values. -/

namespace Ocnn

/-- The storages with numbers below `next` exist. -/
structure Heap where
  next : Nat
  mem : Nat → List (List Int)

/-- A tensor: the rows number `pos` of the storage `sid`.  A 1-D tensor has rows of one element. -/
structure View where
  sid : Nat
  pos : List Nat

/-- Computations on the heap; the heap survives exceptions. -/
abbrev HM := ExceptT Err (StateM Heap)

/-- The value of a tensor. -/
def Heap.read (h : Heap) (v : View) : List (List Int) := v.pos.map fun i => ((h.mem v.sid)[i]?).getD []

/-- Reads a tensor. -/
def readV (v : View) : HM (List (List Int)) := do
  let h ← get
  pure (h.read v)

/-- A new tensor with the given rows. -/
def alloc (rows : List (List Int)) : HM View := do
  let h ← get
  set ({ next := h.next + 1, mem := fun s => if s = h.next then rows else h.mem s } : Heap)
  pure ⟨h.next, List.range rows.length⟩

/-- Assigns all rows of a tensor in place. -/
def writeV (v : View) (rows : List (List Int)) : HM Unit := do
  let h ← get
  set ({ next := h.next, mem := fun s => if s = v.sid then setMany (h.mem s) (v.pos.zip rows) else h.mem s } : Heap)

/-- `t.clone()` -/
def cloneV (v : View) : HM View := do
  let r ← readV v
  alloc r

/-- A computation that does not touch the heap. -/
def liftE {α : Type} (m : M α) : HM α := ExceptT.mk (pure m)

/-- `t[::8]` is a view. -/
def View.every8 (v : View) : View := ⟨v.sid, Octree.every8 v.pos⟩

/-- The element of a 1-D tensor. -/
def scalar (r : List Int) : Int := r.headD 0

/-- The values of a 1-D tensor. -/
def flat (t : List (List Int)) : List Int := t.map scalar

/-- The tensors held by an octree, octree.py 55-71. -/
structure HOctree where
  depth : Nat
  fullDepth : Nat
  batchSize : Nat
  device : Nat
  keys : Nat → Option View
  children : Nat → Option View
  neighs : Nat → Option View
  features : Nat → Option View
  normals : Nat → Option View
  points : Nat → Option View
  nnum : View
  nnumNempty : View
  batchNnum : View
  batchNnumNempty : View

namespace HOctree

/-- Access to layer `d` of a per-layer list of length `depth + 1`. -/
def layer (o : HOctree) (l : Nat → Option View) (d : Nat) : HM View := do
  if d ≤ o.depth then pure () else throw Err.index
  liftE (need (l d))

/-- `child >= 0` -/
def maskOf (child : List (List Int)) : List Bool := (flat child).map fun v => decide (v ≥ 0)

/-- `child[neigh[valid]]` at the places `valid = neigh >= 0`, the old values elsewhere, octree.py 421-422. -/
def remap (child : List Int) (neigh : List (List Int)) : M (List (List Int)) :=
  neigh.mapM fun row => row.mapM fun v => if v ≥ 0 then getIdx child v else pure v

/-- The branches on the stride in `get_neigh`, octree.py 409-415. -/
def neighOf (o : HOctree) (d stride : Nat) : HM View :=
  if stride = 1 then o.layer o.neighs d
  else if stride = 2 then do
    let v ← o.layer o.neighs d
    cloneV v.every8
  else throw Err.value

/-- The selection of the non-empty nodes in `get_neigh`, octree.py 419-420: boolean indexing copies. -/
def pickRows (child neigh : View) (stride : Nat) : HM View :=
  if stride = 1 then do
    let c ← readV child
    let n ← readV neigh
    let r ← liftE (boolIndex (maskOf c) n)
    alloc r
  else pure neigh

/-- The renumbering of the non-empty nodes in `get_neigh`, octree.py 417-422. -/
def neighNempty (o : HOctree) (d stride : Nat) (neigh : View) : HM View := do
  let child ← o.layer o.children d
  let neigh ← pickRows child neigh stride
  let c ← readV child
  let n ← readV neigh
  let n' ← liftE (remap (flat c) n)
  writeV neigh n'
  pure neigh

/-- The selection of the columns in `get_neigh`, octree.py 424-430. -/
def pickCols (neigh : View) (kernel : String) : HM View :=
  if kernel = "333" then pure neigh
  else match lutKernel.lookup kernel with
    | some lut => do
      let n ← readV neigh
      let r ← liftE (n.mapM fun row => gatherIdx row lut)
      alloc r
    | none => throw Err.value

/-- `get_neigh`, octree.py 394-431. -/
def getNeigh (o : HOctree) (d : Nat) (kernel : String) (stride : Nat) (nempty : Bool) : HM View := do
  let neigh ← o.neighOf d stride
  let neigh ← (if nempty then o.neighNempty d stride neigh else pure neigh : HM View)
  pickCols neigh kernel

/-- `key`, octree.py 98-110: the tensor held by the octree itself, or a copy of some of its rows. -/
def key (o : HOctree) (d : Nat) (nempty : Bool) : HM View := do
  let key ← o.layer o.keys d
  if nempty then do
    let child ← o.layer o.children d
    let c ← readV child
    let k ← readV key
    let r ← liftE (boolIndex (maskOf c) k)
    alloc r
  else pure key

/-- `torch.bucketize(query, key)` for one query. -/
def bucket (key : List Int) (q : Int) : Nat := key.countP fun k => decide (k < q)

/-- `search_key`, octree.py 371-392.  `found`, line 389, is taken at all valid positions. -/
def searchKey (o : HOctree) (query : View) (d : Nat) (nempty : Bool) : HM View := do
  let keyV ← o.key d nempty
  let key ← readV keyV
  let q ← readV query
  let key := flat key
  let idx ← alloc ((flat q).map fun a => [(bucket key a : Int)])
  let i1 ← readV idx
  let valid ← alloc ((flat i1).map fun (i : Int) => [if i < (key.length : Int) then 1 else 0])
  let v1 ← readV valid
  -- `valid[valid.clone()] = found`
  writeV valid (List.zipWith (fun (v : Int) (p : Int × Int) =>
    [if v = 1 then (if key[p.1.toNat]? = some p.2 then 1 else 0) else v]) (flat v1) ((flat i1).zip (flat q)))
  -- `idx[valid.logical_not()] = -1`
  let v2 ← readV valid
  writeV idx (List.zipWith (fun (i v : Int) => [if v = 0 then -1 else i]) (flat i1) (flat v2))
  pure idx

/-! ### `merge_octrees` -/

/-- `torch.cat(ts, dim=0)`: always a new tensor. -/
def catV (ts : List View) : HM View := do
  let rs ← ts.mapM readV
  alloc rs.flatten

/-- The key of sample `i`, octree.py 589-590: the result of `|` is a new tensor. -/
def mergeKey (d : Nat) (p : HOctree × Nat) : HM View := do
  let k ← liftE (need (p.1.keys d))
  let r ← readV k
  alloc (r.map fun row => [(Octree.relabel p.2 (scalar row).toNat : Int)])

/-- The children of sample `i`, octree.py 596-599. -/
def mergeChild (cum : List Int) (d : Nat) (p : HOctree × Nat) : HM View := do
  let c ← liftE (need (p.1.children d))
  let child ← cloneV c
  let r ← readV child
  let off ← liftE (getIdx cum p.2)
  writeV child (r.map fun row => [if scalar row ≥ 0 then scalar row + off else scalar row])
  pure child

/-- One of features, normals, points, octree.py 602-615. -/
def mergeSig (sel : HOctree → Nat → Option View) (octrees : List HOctree) (depth d : Nat) : HM (Option View) :=
  match octrees with
  | [] => pure none
  | o :: _ =>
    if (sel o d).isSome ∧ d = depth then do
      let l ← liftE (octrees.mapM fun o => need (sel o d))
      let v ← catV l
      pure (some v)
    else pure none

/-- One iteration of the loop over the layers, octree.py 582-615; `cum` are the rows of `nnum_cum`. -/
def mergeStep (octrees : List HOctree) (cum : List (List Int)) (octree : HOctree) (d : Nat) : HM HOctree := do
  let ks ← octrees.zipIdx.mapM (mergeKey d)
  let key ← catV ks
  let cs ← octrees.zipIdx.mapM (mergeChild ((cum[d]?).getD []) d)
  let child ← catV cs
  let features ← mergeSig HOctree.features octrees octree.depth d
  let normals ← mergeSig HOctree.normals octrees octree.depth d
  let points ← mergeSig HOctree.points octrees octree.depth d
  pure { octree with
    keys := upd octree.keys d (some key)
    children := upd octree.children d (some child)
    features := upd octree.features d features
    normals := upd octree.normals d normals
    points := upd octree.points d points }

/-- The table with rows = layers and columns = samples, `torch.stack(nums, dim=1)`, octree.py 570-573. -/
def stackNum (depth : Nat) (nums : List (List Int)) : List (List Int) :=
  (List.range (depth + 1)).map fun d => nums.map fun n => (n[d]?).getD 0

/-- The counters of all octrees as values. -/
def readNums (vs : List View) : HM (List (List Int)) := vs.mapM fun v => do
  let r ← readV v
  pure (flat r)

/-- `cumsum(batch_nnum_nempty, dim=1, exclusive=True)`, octree.py 578, row by row. -/
def cumRow (r : List Int) : List Int := cumsum r true

/-- `merge_octrees`, octree.py 554-617. -/
def merge (octrees : List HOctree) : HM HOctree := do
  let o0 ← liftE (getIdx octrees 0)
  liftE (pyAssert (∀ o ∈ octrees.drop 1, o.depth = o0.depth ∧ o.fullDepth = o0.fullDepth ∧ o.device = o0.device))
  let nums ← readNums (octrees.map HOctree.nnum)
  let nums' ← readNums (octrees.map HOctree.nnumNempty)
  let bn ← alloc (stackNum o0.depth nums)
  let bn' ← alloc (stackNum o0.depth nums')
  let n ← alloc ((stackNum o0.depth nums).map fun r => [r.sum])
  let n' ← alloc ((stackNum o0.depth nums').map fun r => [r.sum])
  (List.range (o0.depth + 1)).foldlM (mergeStep octrees ((stackNum o0.depth nums').map cumRow))
    { depth := o0.depth, fullDepth := o0.fullDepth, batchSize := octrees.length, device := o0.device,
      keys := fun _ => none, children := fun _ => none, neighs := fun _ => none, features := fun _ => none,
      normals := fun _ => none, points := fun _ => none, nnum := n, nnumNempty := n', batchNnum := bn, batchNnumNempty := bn' }

end HOctree
end Ocnn
