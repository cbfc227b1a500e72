import Verif.Utils

/-! Python lists as objects: the argument `kernel_size` of the convolution layers, which `resize_with_last_val` extends in place and the
layers keep (ocnn/nn/octree_conv.py, octree_dwconv.py, octree_pool.py).  The default value `[3]` is one such object for all calls. -/

namespace Ocnn

/-- The list objects of the program, by address. -/
abbrev ListHeap := List (List Nat)

/-- `resize_with_last_val(list_in)`, utils.py 169-178: the entries are appended to the object itself, which is returned.  Both errors are
raised before anything is appended. -/
def resizeObject (h : ListHeap) (a : Nat) : M (ListHeap × List Nat) := do
  let l ← getIdx h a
  let l' ← resizeWithLastVal l
  pure (h.set a l', l')

/-- What a layer keeps of its kernel: the list object, the name and the number of elements, octree_conv.py 27-33. -/
structure KernelLayer where
  addr : Nat
  kernel : String
  kdim : Nat
  direct : Bool
  deriving DecidableEq

/-- `OctreeConvBase.__init__`, octree_conv.py 27-33: `kernel_size`, `kernel` and `kdim`. -/
def KernelLayer.init (h : ListHeap) (a : Nat) (direct : Bool) : M (ListHeap × KernelLayer) := do
  let (h, ks) ← resizeObject h a
  let k0 ← getIdx ks 0
  let k1 ← getIdx ks 1
  let k2 ← getIdx ks 2
  pure (h, ⟨a, list2str ks, k0 * k1 * k2, direct⟩)

/-- The kernel that `forward` uses.  The direct method passes the name to `octree2col`, octree_conv.py 370-373; the other method passes
the list object to `octree_conv` (374-378), which constructs a layer from it (237-241); the depth-wise convolution does so too,
octree_dwconv.py 205-210 and 145-149. -/
def KernelLayer.use (l : KernelLayer) (h : ListHeap) : M (ListHeap × String × Nat) :=
  if l.direct then pure (h, l.kernel, l.kdim)
  else do
    let (h, l') ← KernelLayer.init h l.addr l.direct
    pure (h, l'.kernel, l'.kdim)

/-- What a program does with layers and lists: construct a layer, run a layer, change a list. -/
inductive ListOp where
  | new (a : Nat) (direct : Bool)
  | use (i : Nat)
  | edit (a : Nat) (l : List Nat)

/-- One step: the list objects, the layers, and the kernel used or kept.  A constructor that raises leaves everything as it was. -/
def listStep (st : ListHeap × List KernelLayer) : ListOp → (ListHeap × List KernelLayer) × M (String × Nat)
  | .new a direct => match KernelLayer.init st.1 a direct with
    | .ok (h, l) => ((h, st.2 ++ [l]), .ok (l.kernel, l.kdim))
    | .error e => (st, .error e)
  | .use i => match st.2[i]? with
    | some l => match l.use st.1 with
      | .ok (h, k) => ((h, st.2), .ok k)
      | .error e => (st, .error e)
    | none => (st, .error .index)
  | .edit a l => ((st.1.set a l, st.2), .ok ("", 0))

/-- The results of a sequence of steps. -/
def listRun : ListHeap × List KernelLayer → List ListOp → List (M (String × Nat))
  | _, [] => []
  | st, op :: ops => (listStep st op).2 :: listRun (listStep st op).1 ops

/-- The list objects after a sequence of steps. -/
def listHeap : ListHeap × List KernelLayer → List ListOp → ListHeap
  | st, [] => st.1
  | st, op :: ops => listHeap (listStep st op).1 ops

end Ocnn
