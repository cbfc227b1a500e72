import Verif.Decoder

/-! Model of the 32-bit arithmetic of ocnn/octree/octree.py.  The node counters `nnum`, `nnum_nempty` and the child
indices `children` are int32 tensors (octree.py 63-64, 191-194, 213-214, 249-250, 303-304), which the model in
Octree.lean leaves unbounded.  Here the same functions are modelled with the conversions of torch: arithmetic on int32
tensors wraps around, a Python integer or an operand that does not fit into an int32 element raises. -/

namespace Ocnn
variable {F : Type}

/-- The int32 value with the same low 32 bits: results of int32 arithmetic and conversions of int64 tensors. -/
def w32 (v : Int) : Int := (BitVec.ofInt 32 v).toInt

/-- `t[i] = n` for an int32 tensor and a Python integer: RuntimeError if `n` does not fit. -/
def fit32 (n : Nat) : M Unit := if n < 2 ^ 31 then .ok () else .error .value

namespace Octree

/-- `construct_neigh`, second branch, octree.py 337-345: `child_p * 8` is int32, the sum with the int64 table is int64. -/
def deepRows32 (childP : List Int) (r : List Int) : M (List (List Int)) :=
  (lutParent.zip lutChild).mapM fun (lp, lc) =>
    (lp.zip lc).mapM fun (p, c) => do
      let n ← getIdx r p
      let ch ← getIdx childP n
      if ch < 0 ∨ n < 0 then pure (-1) else pure (w32 (ch * 8) + c)

/-- `construct_neigh`, octree.py 311-346: `bs.unsqueeze(1) * nnum` (328-329) is int32, the sum with the int64 keys is int64. -/
def constructNeigh32 (o : Octree F) (d : Nat) : M (Octree F) := do
  if d ≤ o.fullDepth then
    let nnum := 1 <<< (3 * d)
    let rows ← (List.range nnum).mapM (fullRow d)
    let neigh := (List.range o.batchSize).flatMap fun b =>
      rows.map fun row => row.map fun v => match v with
        | some n => (n : Int) + w32 ((b * nnum : Nat) : Int)
        | none => -1
    o.chk d
    pure { o with neighs := upd o.neighs d (some neigh) }
  else
    o.chk d
    let childP ← need (o.children (d - 1))
    let nempty := childP.map fun v => decide (v ≥ 0)
    let neighP ← need (o.neighs (d - 1))
    let sel ← boolIndex nempty neighP
    let rows ← sel.mapM (deepRows32 childP)
    pure { o with neighs := upd o.neighs d (some rows.flatten) }

/-- `construct_all_neigh`, octree.py 348-353 -/
def constructAllNeigh32 (o : Octree F) : M (Octree F) :=
  (List.range o.depth).foldlM (fun o i => constructNeigh32 o (i + 1)) o

/-- `octree_grow_full`, octree.py 226-254: the counters are assigned Python integers. -/
def growFull32 (o : Octree F) (d : Nat) (updateNeigh : Bool) : M (Octree F) := do
  pyAssert (d ≤ o.fullDepth)
  let num := 1 <<< (3 * d)
  o.chk d
  fit32 (num * o.batchSize)
  if 2 ^ 15 < o.batchSize then .error .domain
  let key := (List.range o.batchSize).flatMap fun b =>
    (List.range num).map fun k => k ||| (b <<< 48)
  let o := { o with
    nnum := upd o.nnum d (num * o.batchSize)
    nnumNempty := upd o.nnumNempty d (num * o.batchSize)
    keys := upd o.keys d (some key)
    children := upd o.children d (some (arange (num * o.batchSize))) }
  if updateNeigh then constructNeigh32 o d else pure o

/-- `octree_split`, octree.py 256-278: the sums are int64, `children.int()` and the assignment to the counter keep the
low 32 bits.  A negative counter is outside of the model. -/
def split32 (o : Octree F) (split : List Int) (d : Nat) : M (Octree F) := do
  let empty := split.map fun s => decide (s = 0)
  let sum := cumsum split true
  let children := sum.take split.length
  let nnumNempty ← getIdx (sum.drop split.length) 0
  let children ← boolSetScalar empty children (-1)
  let r ← (if nnumNempty = 0 then do
      let j ← normIdx children.length 0
      pure (1, children.set j 0)
    else pure (nnumNempty, children) : M (Int × List Int))
  o.chk d
  if w32 r.1 < 0 then .error .domain
  pure { o with
    children := upd o.children d (some (r.2.map w32))
    nnumNempty := upd o.nnumNempty d (w32 r.1).toNat }

/-- `octree_grow(d + 1)`, octree.py 280-309: `nnum_nempty[depth-1] * 8` is int32; `torch.arange` of a negative number
raises. -/
def grow32 (o : Octree F) (d : Nat) (updateNeigh : Bool) : M (Octree F) := do
  o.chk (d + 1)
  let n := w32 ((o.nnumNempty d : Int) * 8)
  if n < 0 then .error .value
  let nnum := n.toNat
  let o := { o with
    nnum := upd o.nnum (d + 1) nnum
    nnumNempty := upd o.nnumNempty (d + 1) nnum }
  let key ← o.key d true
  let key := key.flatMap fun k =>
    let batch := (k >>> 48) <<< 48
    let k := (k &&& ((1 <<< 48) - 1)) <<< 3
    (List.range 8).map fun i => (k ||| batch) + i
  let o := { o with
    keys := upd o.keys (d + 1) (some key)
    children := upd o.children (d + 1) (some (arange nnum)) }
  if updateNeigh then constructNeigh32 o (d + 1) else pure o

/-- One iteration of the loop of `build_octree`, octree.py 179-203: the counters are assigned the Python integers
`numel()`. -/
def buildLevel32 (o : Octree F) (nodeKey : List Nat) (d : Nat) : M (Octree F × List Nat) := do
  let pk := nodeKey.map fun k => k >>> 3
  let pkey := uniqueConsec pk
  let pidx := uniqueConsecInv 0 pk
  let key := pkey.flatMap fun p => (List.range 8).map fun i => (p <<< 3) + i
  o.chk d
  fit32 key.length
  fit32 nodeKey.length
  let addr := List.zipWith (fun p k => (((p <<< 3) ||| (k % 8) : Nat) : Int)) pidx nodeKey
  let children ← idxSet (List.replicate key.length (-1)) addr (arange nodeKey.length)
  let o := { o with
    keys := upd o.keys d (some key)
    nnum := upd o.nnum d key.length
    nnumNempty := upd o.nnumNempty d nodeKey.length
    children := upd o.children d (some children) }
  let next := if o.batchSize = 1 then pkey
    else pkey.map fun p => ((p >>> 45) <<< 48) ||| (p &&& ((1 <<< 45) - 1))
  pure (o, next)

/-- The loop, octree.py 179-203. -/
def buildLoop32 (o : Octree F) (nodeKey : List Nat) (full : Nat) : Nat → M (Octree F × List Nat)
  | 0 => pure (o, nodeKey)
  | n + 1 => do
    let r ← buildLevel32 o nodeKey (full + n + 1)
    buildLoop32 r.1 r.2 full n

/-- `build_octree`, octree.py 147-224 -/
def build32 [Add F] [Zero F] {L : Type} (nrm : V3 ℚ → V3 ℚ) (divF : ℚ → F → F)
    (o : Octree F) (pc : Points ℚ F L) : M (Octree F × List Nat) := do
  let o := { o with device := pc.device }
  pyAssert (pc.batchSize = o.batchSize)
  let scale : ℚ := 2 ^ ((o.depth : ℤ) - 1)
  let points := pc.points.map fun p => p.map fun v => (v + 1) * scale
  let b ← (if o.batchSize = 1 then pure none else do
    let b ← need pc.batchId
    pure (some b) : M (Option (List Int)))
  let key ← pointKeys points b o.depth
  let nodeKey := unique key
  let idx := uniqueInv key
  let counts := uniqueCounts key
  let o ← (List.range (o.fullDepth + 1)).foldlM (fun o d => growFull32 o d false) o
  let r ← buildLoop32 o nodeKey o.fullDepth (o.depth - o.fullDepth)
  let o := r.1
  let nodeKey := r.2
  let d := o.fullDepth
  let old ← need (o.children d)
  let nemptyIdx := if o.batchSize = 1 then nodeKey
    else nodeKey.map fun k => ((k >>> 48) <<< (3 * d)) ||| (k &&& ((1 <<< 48) - 1))
  let children ← idxSet (List.replicate old.length (-1)) (nemptyIdx.map Int.ofNat)
    (arange nodeKey.length)
  fit32 nodeKey.length
  let o := { o with
    children := upd o.children d (some children)
    nnumNempty := upd o.nnumNempty d nodeKey.length }
  let d := o.depth
  let pts ← average (fun c (v : V3 ℚ) => v.map (· / c)) points idx counts
  let o := { o with points := upd o.points d (some pts) }
  let o ← (match pc.normals with
    | some normals => do
      let s ← scatterAdd normals (idx.map Int.ofNat) none
      pure { o with normals := upd o.normals d (some (s.map nrm)) }
    | none => pure o : M (Octree F))
  let o ← (match pc.features with
    | some features => do
      let s ← average divF features idx counts
      pure { o with features := upd o.features d (some s) }
    | none => pure o : M (Octree F))
  pure (o, idx)

/-- One iteration of the loop over the layers in `merge_octrees`, octree.py 582-615: the sum of the int32 child indices and
of an element of `nnum_cum` is int32. -/
def mergeLayer32 (octrees : List (Octree F)) (octree : Octree F) (d : Nat) : M (Octree F) := do
  let nnumCum := cumsum (octree.batchNnumNempty d) true
  let keys ← octrees.zipIdx.mapM fun (o, i) => do
    let ks ← need (o.keys d)
    pure (ks.map (relabel i))
  let children ← octrees.zipIdx.mapM fun (o, i) => do
    let child ← need (o.children d)
    let off ← getIdx nnumCum i
    pure (child.map fun v => if v ≥ 0 then w32 (v + (off : Int)) else v)
  let features ← mergeSignal Octree.features octrees octree.depth d
  let normals ← mergeSignal Octree.normals octrees octree.depth d
  let points ← mergeSignal Octree.points octrees octree.depth d
  pure { octree with
    keys := upd octree.keys d (some keys.flatten)
    children := upd octree.children d (some children.flatten)
    features := upd octree.features d features
    normals := upd octree.normals d normals
    points := upd octree.points d points }

/-- `merge_octrees`, octree.py 554-617.  `torch.sum` and `torch.cumsum` of int32 tensors give int64 tensors, so that the
counters of the merged octree do not wrap around. -/
def merge32 (octrees : List (Octree F)) : M (Octree F) := do
  let o0 ← getIdx octrees 0
  let octree : Octree F := new o0.depth o0.fullDepth octrees.length o0.device
  pyAssert (∀ o ∈ octrees.drop 1,
    o.depth = octree.depth ∧ o.fullDepth = octree.fullDepth ∧ o.device = octree.device)
  if 2 ^ 15 < octrees.length then .error .domain
  (List.range (octree.depth + 1)).foldlM (mergeLayer32 octrees) { octree with
    nnum := fun d => (octrees.map fun o => o.nnum d).sum
    nnumNempty := fun d => (octrees.map fun o => o.nnumNempty d).sum
    batchNnum := fun d => octrees.map fun o => o.nnum d
    batchNnumNempty := fun d => octrees.map fun o => o.nnumNempty d }

/-- `init_octree`, octree.py 620-639 -/
def initOctree32 (depth fullDepth batchSize device : Nat) : M (Octree F) :=
  (List.range (fullDepth + 1)).foldlM (fun o d => growFull32 o d true)
    (new depth fullDepth batchSize device)

/-- One iteration of the loop in `AutoEncoder.decoder` with `update_octree=True`, autoencoder.py 97-111. -/
def decodeStep32 (predict : Octree F → Nat → List Int) (o : Octree F) (d : Nat) : M (Octree F) := do
  let o ← o.split32 (predict o d) d
  if d < o.depth then o.grow32 d true else pure o

/-- The first `n` iterations, autoencoder.py 97. -/
def decode32 (predict : Octree F → Nat → List Int) (n : Nat) (o : Octree F) : M (Octree F) :=
  (List.range n).foldlM (fun o i => decodeStep32 predict o (o.fullDepth + i)) o

/-- `decode_code`, autoencoder.py 123-146. -/
def decodeCode32 (predict : Octree F → Nat → List Int) (depth fullDepth batchSize device : Nat) :
    M (Octree F) := do
  let o ← initOctree32 depth fullDepth batchSize device
  decode32 predict (depth + 1 - fullDepth) o

end Octree
end Ocnn
