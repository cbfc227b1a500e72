import Verif.Torch

/-! The devices on which the tensors of an octree are placed (ocnn/octree/octree.py).  Of every tensor only its device is kept.

The rules of torch that are assumed here: elementwise operations and `torch.cat` raise when their operands (of at least one dimension) are
on different devices; an index or mask may be on the CPU or on the device of the indexed tensor; `torch.device` objects compare equal only if
both type and index agree, and never to a string. -/

namespace Ocnn

/-- The device of a tensor: `tensor.device` always has an index for CUDA. -/
inductive TDev
  | cpu
  | cuda (i : Nat)
  deriving DecidableEq, Repr

/-- What can be written as a device: `cpu`, `cuda` and `cuda:i`. -/
inductive DevName
  | cpu
  | cuda
  | cudaAt (i : Nat)
  deriving DecidableEq, Repr

/-- The value of an argument or attribute `device`: a string or a `torch.device` object. -/
structure DevVal where
  isStr : Bool
  name : DevName
  deriving DecidableEq, Repr

/-- Where a tensor created with `device=d` is placed; `cur` is the current CUDA device. -/
def DevVal.place (cur : Nat) (d : DevVal) : TDev :=
  match d.name with
  | .cpu => .cpu
  | .cuda => .cuda cur
  | .cudaAt i => .cuda i

/-- `tensor.device` -/
def TDev.val : TDev → DevVal
  | .cpu => ⟨false, .cpu⟩
  | .cuda i => ⟨false, .cudaAt i⟩

/-- The octree: the attribute `device`, the device of the look-up tables and of the tensors of every layer. -/
structure OctDev where
  depth : Nat
  fullDepth : Nat
  device : DevVal
  lut : TDev
  children : Nat → Option TDev
  neighs : Nat → Option TDev

/-- `f[d] = v` for the layers. -/
def setLayer (f : Nat → Option TDev) (d : Nat) (v : TDev) : Nat → Option TDev := fun i => if i = d then some v else f i

/-- Reading a layer that may be `None`. -/
def needDev : Option TDev → M TDev
  | none => .error .type
  | some d => .ok d

/-- `t[index]` -/
def indexDev (t index : TDev) : M TDev := if index = .cpu ∨ index = t then .ok t else .error .type

/-- `a + b` and `torch.cat([a, b])`. -/
def pairDev (a b : TDev) : M TDev := if a = b then .ok a else .error .type

/-- `Octree.__init__` with `reset`, octree.py 41-96. -/
def OctDev.init (cur depth fullDepth : Nat) (device : DevVal) : OctDev :=
  ⟨depth, fullDepth, device, device.place cur, fun _ => none, fun _ => none⟩

/-- `octree_grow_full`, octree.py 226-254, without the neighbours. -/
def OctDev.growFull (cur : Nat) (o : OctDev) (d : Nat) : OctDev := { o with children := setLayer o.children d (o.device.place cur) }

/-- `build_octree`, octree.py 147-224: the attribute `device` becomes the device of the points; the look-up tables stay.  All tensors are
created on that device, in the layers 0 to `depth`. -/
def OctDev.build (cur : Nat) (o : OctDev) (points : TDev) : OctDev :=
  let o := { o with device := points.val }
  let o := (List.range (o.fullDepth + 1)).foldl (fun o d => o.growFull cur d) o
  (List.range (o.depth - o.fullDepth)).foldl (fun o i => { o with children := setLayer o.children (o.depth - i) (o.device.place cur) }) o

/-- `construct_neigh`, octree.py 311-346. -/
def OctDev.constructNeigh (cur : Nat) (o : OctDev) (depth : Nat) : M OctDev :=
  if depth ≤ o.fullDepth then .ok { o with neighs := setLayer o.neighs depth (o.device.place cur) }
  else do
    let childP ← needDev (o.children (depth - 1))
    let nempty := childP
    let neighP ← needDev (o.neighs (depth - 1))
    let neighP ← indexDev neighP nempty
    let neighP ← indexDev neighP o.lut
    let childP ← indexDev childP neighP
    let _ ← pairDev childP neighP
    let neigh ← pairDev childP o.lut
    pure { o with neighs := setLayer o.neighs depth neigh }

/-- `construct_all_neigh`, octree.py 348-353. -/
def OctDev.constructAllNeigh (cur : Nat) (o : OctDev) : M OctDev :=
  (List.range o.depth).foldlM (fun o d => o.constructNeigh cur (d + 1)) o

/-- `Octree.to`, octree.py 508-541. -/
def OctDev.to (cur : Nat) (o : OctDev) (device : DevVal) : OctDev :=
  let device : DevVal := ⟨false, device.name⟩
  if o.device = device then o
  else
    { OctDev.init cur o.depth o.fullDepth device with
      children := fun d => (o.children d).map fun _ => device.place cur
      neighs := fun d => (o.neighs d).map fun _ => device.place cur }

/-- `torch.cat` of one tensor of every octree. -/
def catDev (l : List (Option TDev)) : M TDev :=
  match l with
  | [] => .error .value
  | d :: ds => do
    let d ← needDev d
    ds.foldlM (fun a b => do pairDev a (← needDev b)) d

/-- The layers of `merge_octrees`, octree.py 585-615 (keys and children are on the same device). -/
def mergeLayers (os : List OctDev) : Nat → OctDev → M OctDev
  | 0, o => do
    let c ← catDev (os.map fun x => x.children 0)
    pure { o with children := setLayer o.children 0 c }
  | d + 1, o => do
    let o ← mergeLayers os d o
    let c ← catDev (os.map fun x => x.children (d + 1))
    pure { o with children := setLayer o.children (d + 1) c }

/-- `merge_octrees`, octree.py 554-617. -/
def OctDev.merge (cur : Nat) (os : List OctDev) : M OctDev :=
  match os with
  | [] => .error .index
  | o0 :: rest => do
    let o := OctDev.init cur o0.depth o0.fullDepth o0.device
    pyAssert (∀ x ∈ rest, x.depth = o.depth ∧ x.fullDepth = o.fullDepth ∧ x.device = o.device)
    mergeLayers (o0 :: rest) o.depth o

/-- `init_octree`, octree.py 620-641: the full layers with their neighbours. -/
def OctDev.initOctree (cur depth fullDepth : Nat) (device : DevVal) : M OctDev :=
  (List.range (fullDepth + 1)).foldlM (fun o d => (o.growFull cur d).constructNeigh cur d) (OctDev.init cur depth fullDepth device)

end Ocnn
