import Verif.ShuffledKey
import Verif.Utils
import Verif.Points

/-! Model of ocnn/octree/octree.py. -/

namespace Ocnn

/-- An int64 key used as a natural number.  Keys with the sign bit set (batch index ≥ 32768) are outside of
the modelled range. -/
def keyOf (k : I64) : M Nat := if k.msb then .error .domain else .ok k.toNat

/-- `xyz2key` (shuffled_key.py 60-90) on integer coordinates. -/
def xyz2key (x y z : Int) (b : Option Int) (depth : Nat) : M Nat := do
  let k ← xyz2key64 (BitVec.ofInt 64 x) (BitVec.ofInt 64 y) (BitVec.ofInt 64 z)
    (b.map (BitVec.ofInt 64)) depth
  keyOf k

/-- `key2xyz` (shuffled_key.py 93-115) on a non-negative key. -/
def key2xyz (key : Nat) (depth : Nat) : M (Int × Int × Int × Int) := do
  let r ← key2xyz64 (BitVec.ofNat 64 key) depth
  pure (r.1.toInt, r.2.1.toInt, r.2.2.1.toInt, r.2.2.2.toInt)

/-- `.long()` of a float: truncation towards zero (shuffled_key.py 77). -/
def long (q : ℚ) : Int := q.num.tdiv q.den

/-- `Octree`, octree.py 15-96.  The per-layer Python lists of length `depth + 1` are functions of the layer
number; every access goes through `chk`, which raises IndexError for layers beyond `depth`.  `None` is
`none`.  int32 counters and child indices are unbounded here (see Int32.lean).  `F` is the type of feature rows. -/
structure Octree (F : Type) where
  depth : Nat
  fullDepth : Nat
  batchSize : Nat
  device : Nat
  keys : Nat → Option (List Nat)
  children : Nat → Option (List Int)
  neighs : Nat → Option (List (List Int))
  features : Nat → Option (List F)
  normals : Nat → Option (List (V3 ℚ))
  points : Nat → Option (List (V3 ℚ))
  nnum : Nat → Nat
  nnumNempty : Nat → Nat
  batchNnum : Nat → List Nat
  batchNnumNempty : Nat → List Nat

/-- Assignment to one layer of a per-layer list. -/
def upd {α : Type _} (f : Nat → α) (d : Nat) (v : α) : Nat → α := fun i => if i = d then v else f i

/-! ### look-up tables, `Octree.reset`, octree.py 73-96 -/

/-- `lut_parent`, octree.py 75-82: rows = children, columns = displacements. -/
def lutParent : List (List Int) :=
  (rangeGrid 2 3).map fun c => (rangeGrid (-1) 1).map fun g =>
    9 * truncDiv (c.1 + g.1) 2 + 3 * truncDiv (c.2.1 + g.2.1) 2 + 1 * truncDiv (c.2.2 + g.2.2) 2

/-- `lut_child`, octree.py 75-84. -/
def lutChild : List (List Int) :=
  (rangeGrid 2 3).map fun c => (rangeGrid (-1) 1).map fun g =>
    4 * ((c.1 + g.1) % 2) + 2 * ((c.2.1 + g.2.1) % 2) + 1 * ((c.2.2 + g.2.2) % 2)

/-- `lut_kernel`, octree.py 87-96. -/
def lutKernel : List (String × List Int) :=
  [("222", [13, 14, 16, 17, 22, 23, 25, 26]),
   ("311", [4, 13, 22]),
   ("131", [10, 13, 16]),
   ("113", [12, 13, 14]),
   ("331", [1, 4, 7, 10, 13, 16, 19, 22, 25]),
   ("313", [3, 4, 5, 12, 13, 14, 21, 22, 23]),
   ("133", [9, 10, 11, 12, 13, 14, 15, 16, 17])]

namespace Octree
variable {F : Type}

/-- `Octree(depth, full_depth, batch_size, device)` with `reset`, octree.py 41-71. -/
def new (depth fullDepth batchSize device : Nat) : Octree F where
  depth := depth
  fullDepth := fullDepth
  batchSize := batchSize
  device := device
  keys := fun _ => none
  children := fun _ => none
  neighs := fun _ => none
  features := fun _ => none
  normals := fun _ => none
  points := fun _ => none
  nnum := fun _ => 0
  nnumNempty := fun _ => 0
  batchNnum := fun _ => List.replicate batchSize 0
  batchNnumNempty := fun _ => List.replicate batchSize 0

/-- Access to layer `d` of a per-layer list of length `depth + 1`. -/
def chk (o : Octree F) (d : Nat) : M Unit := if d ≤ o.depth then .ok () else .error .index

/-- `nempty_mask`, octree.py 137-145 -/
def nemptyMask (o : Octree F) (d : Nat) : M (List Bool) := do
  o.chk d
  let c ← need (o.children d)
  pure (c.map fun v => decide (v ≥ 0))

/-- `key`, octree.py 98-110 -/
def key (o : Octree F) (d : Nat) (nempty : Bool) : M (List Nat) := do
  o.chk d
  let key ← need (o.keys d)
  if nempty then
    let mask ← o.nemptyMask d
    boolIndex mask key
  else pure key

/-- `xyzb`, octree.py 112-121: the list of `(x, y, z, b)`. -/
def xyzb (o : Octree F) (d : Nat) (nempty : Bool) : M (List (Int × Int × Int × Int)) := do
  let key ← o.key d nempty
  key.mapM fun k => key2xyz k d

/-- `batch_id`, octree.py 123-135 -/
def batchId (o : Octree F) (d : Nat) (nempty : Bool) : M (List Nat) := do
  o.chk d
  let ks ← need (o.keys d)
  let b := ks.map fun k => k >>> 48
  if nempty then
    let mask ← o.nemptyMask d
    boolIndex mask b
  else pure b

/-- `construct_neigh`, first branch, for one node of the dense grid: the 27 neighbours of `key` in
sample 0, before the batch offset is added; `none` = invalid (octree.py 318-333). -/
def fullRow (depth key : Nat) : M (List (Option Nat)) := do
  let r ← key2xyz key depth
  (rangeGrid (-1) 1).mapM fun g => do
    let x := r.1 + g.1
    let y := r.2.1 + g.2.1
    let z := r.2.2.1 + g.2.2
    let n ← xyz2key x y z none depth
    let bound : Int := ((1 <<< depth : Nat) : Int)
    if x < 0 ∨ y < 0 ∨ z < 0 ∨ x ≥ bound ∨ y ≥ bound ∨ z ≥ bound then pure none else pure (some n)

/-- `construct_neigh`, second branch, for one non-empty parent with neighbour row `r`
(octree.py 337-345): the eight rows of its children. -/
def deepRows (childP : List Int) (r : List Int) : M (List (List Int)) :=
  (lutParent.zip lutChild).mapM fun (lp, lc) =>
    (lp.zip lc).mapM fun (p, c) => do
      let n ← getIdx r p
      let ch ← getIdx childP n
      if ch < 0 ∨ n < 0 then pure (-1) else pure (ch * 8 + c)

/-- `construct_neigh`, octree.py 311-346 -/
def constructNeigh (o : Octree F) (d : Nat) : M (Octree F) := do
  if d ≤ o.fullDepth then
    let nnum := 1 <<< (3 * d)
    let rows ← (List.range nnum).mapM (fullRow d)
    let neigh := (List.range o.batchSize).flatMap fun b =>
      rows.map fun row => row.map fun v => match v with
        | some n => ((n + b * nnum : Nat) : Int)
        | none => -1
    o.chk d
    pure { o with neighs := upd o.neighs d (some neigh) }
  else
    o.chk d
    let childP ← need (o.children (d - 1))
    let nempty := childP.map fun v => decide (v ≥ 0)
    let neighP ← need (o.neighs (d - 1))
    let sel ← boolIndex nempty neighP
    let rows ← sel.mapM (deepRows childP)
    pure { o with neighs := upd o.neighs d (some rows.flatten) }

/-- `construct_all_neigh`, octree.py 348-353 -/
def constructAllNeigh (o : Octree F) : M (Octree F) :=
  (List.range o.depth).foldlM (fun o i => constructNeigh o (i + 1)) o

/-- `octree_grow_full`, octree.py 226-254.  `bs << 48` leaves the modelled range for more than 32768
samples. -/
def growFull (o : Octree F) (d : Nat) (updateNeigh : Bool) : M (Octree F) := do
  pyAssert (d ≤ o.fullDepth)
  let num := 1 <<< (3 * d)
  o.chk d
  if 2 ^ 15 < o.batchSize then .error .domain
  let key := (List.range o.batchSize).flatMap fun b =>
    (List.range num).map fun k => k ||| (b <<< 48)
  let o := { o with
    nnum := upd o.nnum d (num * o.batchSize)
    nnumNempty := upd o.nnumNempty d (num * o.batchSize)
    keys := upd o.keys d (some key)
    children := upd o.children d (some (arange (num * o.batchSize))) }
  if updateNeigh then constructNeigh o d else pure o

/-- `octree_split`, octree.py 256-278 -/
def split (o : Octree F) (split : List Int) (d : Nat) : M (Octree F) := do
  let empty := split.map fun s => decide (s = 0)
  let sum := cumsum split true
  let children := sum.take split.length
  let nnumNempty ← getIdx (sum.drop split.length) 0
  let children ← boolSetScalar empty children (-1)
  let r ← (if nnumNempty = 0 then do
      let j ← normIdx children.length 0
      pure (1, children.set j 0)
    else pure (nnumNempty, children) : M (Int × List Int))
  o.chk d
  pure { o with
    children := upd o.children d (some r.2)
    nnumNempty := upd o.nnumNempty d r.1.toNat }

/-- `octree_grow(d + 1)`, octree.py 280-309.  The argument is the parent layer `d`; the code's
`octree_grow(0)` (which wraps around to the last layer) is not modelled. -/
def grow (o : Octree F) (d : Nat) (updateNeigh : Bool) : M (Octree F) := do
  o.chk (d + 1)
  let nnum := o.nnumNempty d * 8
  let o := { o with
    nnum := upd o.nnum (d + 1) nnum
    nnumNempty := upd o.nnumNempty (d + 1) nnum }
  let key ← o.key d true
  let key := key.flatMap fun k =>
    let batch := (k >>> 48) <<< 48
    let k := (k &&& ((1 <<< 48) - 1)) <<< 3
    (List.range 8).map fun i => (k ||| batch) + i
  let o := { o with
    keys := upd o.keys (d + 1) (some key)
    children := upd o.children (d + 1) (some (arange nnum)) }
  if updateNeigh then constructNeigh o (d + 1) else pure o

/-- The keys of the points, octree.py 163-170. -/
def pointKeys (points : List (V3 ℚ)) (b : Option (List Int)) (depth : Nat) : M (List Nat) :=
  match b with
  | none => points.mapM fun p => xyz2key (long p.x) (long p.y) (long p.z) none depth
  | some bs =>
    if bs.length = points.length then
      (points.zip bs).mapM fun (p, b) => xyz2key (long p.x) (long p.y) (long p.z) (some b) depth
    else .error .shape

/-- One iteration of the loop over the layers from `depth` down to `full_depth + 1`,
octree.py 179-203: stores layer `d` and returns the node keys of layer `d - 1`. -/
def buildLevel (o : Octree F) (nodeKey : List Nat) (d : Nat) : M (Octree F × List Nat) := do
  let pk := nodeKey.map fun k => k >>> 3
  let pkey := uniqueConsec pk
  let pidx := uniqueConsecInv 0 pk
  let key := pkey.flatMap fun p => (List.range 8).map fun i => (p <<< 3) + i
  o.chk d
  let addr := List.zipWith (fun p k => (((p <<< 3) ||| (k % 8) : Nat) : Int)) pidx nodeKey
  let children ← idxSet (List.replicate key.length (-1)) addr (arange nodeKey.length)
  let o := { o with
    keys := upd o.keys d (some key)
    nnum := upd o.nnum d key.length
    nnumNempty := upd o.nnumNempty d nodeKey.length
    children := upd o.children d (some children) }
  let next := if o.batchSize = 1 then pkey
    else pkey.map fun p => ((p >>> 45) <<< 48) ||| (p &&& ((1 <<< 45) - 1))
  pure (o, next)

/-- The loop, octree.py 179-203: layers `d = full + n, ..., full + 1`. -/
def buildLoop (o : Octree F) (nodeKey : List Nat) (full : Nat) : Nat → M (Octree F × List Nat)
  | 0 => pure (o, nodeKey)
  | n + 1 => do
    let r ← buildLevel o nodeKey (full + n + 1)
    buildLoop r.1 r.2 full n

/-- Averaging of a signal over the nodes, octree.py 217-218 and 222-224. -/
def average {V : Type} [Add V] [Zero V] (divBy : ℚ → V → V) (src : List V) (idx : List Nat)
    (counts : List Nat) : M (List V) := do
  let s ← scatterAdd src (idx.map Int.ofNat) none
  if s.length = counts.length then
    pure (List.zipWith (fun v (c : Nat) => divBy (c : ℚ) v) s counts)
  else .error .shape

/-- `build_octree`, octree.py 147-224; returns the octree and the index vector.  `nrm` is
`F.normalize` on one normal, `divF c v` is the division of a feature row by a number. -/
def build [Add F] [Zero F] {L : Type} (nrm : V3 ℚ → V3 ℚ) (divF : ℚ → F → F)
    (o : Octree F) (pc : Points ℚ F L) : M (Octree F × List Nat) := do
  let o := { o with device := pc.device }
  pyAssert (pc.batchSize = o.batchSize)
  let scale : ℚ := 2 ^ ((o.depth : ℤ) - 1)
  let points := pc.points.map fun p => p.map fun v => (v + 1) * scale
  let b ← (if o.batchSize = 1 then pure none else do
    let b ← need pc.batchId
    pure (some b) : M (Option (List Int)))
  let key ← pointKeys points b o.depth
  let nodeKey := unique key
  let idx := uniqueInv key
  let counts := uniqueCounts key
  let o ← (List.range (o.fullDepth + 1)).foldlM (fun o d => growFull o d false) o
  let r ← buildLoop o nodeKey o.fullDepth (o.depth - o.fullDepth)
  let o := r.1
  let nodeKey := r.2
  let d := o.fullDepth
  let old ← need (o.children d)
  let nemptyIdx := if o.batchSize = 1 then nodeKey
    else nodeKey.map fun k => ((k >>> 48) <<< (3 * d)) ||| (k &&& ((1 <<< 48) - 1))
  let children ← idxSet (List.replicate old.length (-1)) (nemptyIdx.map Int.ofNat)
    (arange nodeKey.length)
  let o := { o with
    children := upd o.children d (some children)
    nnumNempty := upd o.nnumNempty d nodeKey.length }
  let d := o.depth
  let pts ← average (fun c (v : V3 ℚ) => v.map (· / c)) points idx counts
  let o := { o with points := upd o.points d (some pts) }
  let o ← (match pc.normals with
    | some normals => do
      let s ← scatterAdd normals (idx.map Int.ofNat) none
      pure { o with normals := upd o.normals d (some (s.map nrm)) }
    | none => pure o : M (Octree F))
  let o ← (match pc.features with
    | some features => do
      let s ← average divF features idx counts
      pure { o with features := upd o.features d (some s) }
    | none => pure o : M (Octree F))
  pure (o, idx)

/-- `search_key`, octree.py 371-392 -/
def searchKey (o : Octree F) (query : List Nat) (d : Nat) (nempty : Bool) : M (List Int) := do
  let key ← o.key d nempty
  pure (query.map fun q =>
    let idx := bucketize key q
    match key[idx]? with
    | some k => if k = q then (idx : Int) else -1
    | none => -1)

/-- `search_xyzb`, octree.py 355-369, on integer queries. -/
def searchXyzb (o : Octree F) (query : List (Int × Int × Int × Int)) (d : Nat) (nempty : Bool) :
    M (List Int) := do
  let key ← query.mapM fun q => xyz2key q.1 q.2.1 q.2.2.1 (some q.2.2.2) d
  o.searchKey key d nempty

/-- `t[::8]` -/
def every8 {α : Type _} (t : List α) : List α :=
  (List.range ((t.length + 7) / 8)).filterMap fun i => t[8 * i]?

/-- `get_neigh`, octree.py 394-431 -/
def getNeigh (o : Octree F) (d : Nat) (kernel : String) (stride : Nat) (nempty : Bool) :
    M (List (List Int)) := do
  let neigh ← (if stride = 1 then do
      o.chk d
      need (o.neighs d)
    else if stride = 2 then do
      o.chk d
      let n ← need (o.neighs d)
      pure (every8 n)
    else .error .value : M (List (List Int)))
  let neigh ← (if nempty then do
      o.chk d
      let child ← need (o.children d)
      let neigh ← (if stride = 1 then boolIndex (child.map fun v => decide (v ≥ 0)) neigh
        else pure neigh : M (List (List Int)))
      neigh.mapM fun row => row.mapM fun v =>
        if v ≥ 0 then getIdx child v else pure v
    else pure neigh : M (List (List Int)))
  if kernel = "333" then pure neigh
  else match lutKernel.lookup kernel with
    | some lut => neigh.mapM fun row => gatherIdx row lut
    | none => .error .value

/-- `init_octree`, octree.py 620-639 -/
def initOctree (depth fullDepth batchSize device : Nat) : M (Octree F) :=
  (List.range (fullDepth + 1)).foldlM (fun o d => growFull o d true)
    (new depth fullDepth batchSize device)

/-- One property (features, normals or points) in `merge_octrees`, octree.py 602-615: only layer
`depth`, only if the first octree has it; a `None` in another octree raises in `torch.cat`. -/
def mergeSignal {α : Type} (sel : Octree F → Nat → Option (List α)) (octrees : List (Octree F))
    (depth d : Nat) : M (Option (List α)) :=
  match octrees with
  | [] => pure none
  | o :: _ =>
    if (sel o d).isSome ∧ d = depth then do
      let l ← octrees.mapM fun o => need (sel o d)
      pure (some l.flatten)
    else pure none

/-- The key of a node after its octree became sample `i` of the merged octree, octree.py 589-590. -/
def relabel (i k : Nat) : Nat := (k &&& ((1 <<< 48) - 1)) ||| (i <<< 48)

/-- One iteration of the loop over the layers in `merge_octrees`, octree.py 582-615. -/
def mergeLayer (octrees : List (Octree F)) (octree : Octree F) (d : Nat) : M (Octree F) := do
  let nnumCum := cumsum (octree.batchNnumNempty d) true
  let keys ← octrees.zipIdx.mapM fun (o, i) => do
    let ks ← need (o.keys d)
    pure (ks.map (relabel i))
  let children ← octrees.zipIdx.mapM fun (o, i) => do
    let child ← need (o.children d)
    let off ← getIdx nnumCum i
    pure (child.map fun v => if v ≥ 0 then v + (off : Int) else v)
  let features ← mergeSignal Octree.features octrees octree.depth d
  let normals ← mergeSignal Octree.normals octrees octree.depth d
  let points ← mergeSignal Octree.points octrees octree.depth d
  pure { octree with
    keys := upd octree.keys d (some keys.flatten)
    children := upd octree.children d (some children.flatten)
    features := upd octree.features d features
    normals := upd octree.normals d normals
    points := upd octree.points d points }

/-- `merge_octrees`, octree.py 554-617.  `i << 48` leaves the modelled range beyond 32768 samples. -/
def merge (octrees : List (Octree F)) : M (Octree F) := do
  let o0 ← getIdx octrees 0
  let octree : Octree F := new o0.depth o0.fullDepth octrees.length o0.device
  pyAssert (∀ o ∈ octrees.drop 1,
    o.depth = octree.depth ∧ o.fullDepth = octree.fullDepth ∧ o.device = octree.device)
  if 2 ^ 15 < octrees.length then .error .domain
  (List.range (octree.depth + 1)).foldlM (mergeLayer octrees) { octree with
    nnum := fun d => (octrees.map fun o => o.nnum d).sum
    nnumNempty := fun d => (octrees.map fun o => o.nnumNempty d).sum
    batchNnum := fun d => octrees.map fun o => o.nnum d
    batchNnumNempty := fun d => octrees.map fun o => o.nnumNempty d }

end Octree
end Ocnn
