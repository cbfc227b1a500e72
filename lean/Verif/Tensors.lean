import Verif.Utils
import Mathlib.Algebra.Field.Rat

/-! Model of `broadcast`, of `scatter_add` along any dimension of tensors with any number of dimensions, and of
`xavier_uniform_`, ocnn/utils.py. -/

namespace Ocnn

/-- A tensor with any number of dimensions: its shape and its entry at every position.  Entries at positions outside
of the shape have no meaning. -/
structure Nd (V : Type) where
  shape : List Nat
  get : List Nat → V

/-- All positions of a tensor of the given shape, the last dimension running fastest. -/
def ndPositions : List Nat → List (List Nat)
  | [] => [[]]
  | n :: s => (List.range n).flatMap fun k => (ndPositions s).map (k :: ·)

namespace Nd
variable {V : Type}

/-- `src.unsqueeze(0)`, utils.py 109 -/
def unsqueezeFirst (t : Nd V) : Nd V := ⟨1 :: t.shape, fun i => t.get i.tail⟩

/-- `src.unsqueeze(-1)`, utils.py 111 -/
def unsqueezeLast (t : Nd V) : Nd V := ⟨t.shape ++ [1], fun i => t.get i.dropLast⟩

/-- `src.expand_as(other)`, utils.py 113, for tensors with at least as many dimensions as `other` (which is the case
in `broadcast`): dimensions of size 1 are repeated, other sizes must agree. -/
def expandAs (t : Nd V) (shape : List Nat) : M (Nd V) :=
  if t.shape.length = shape.length ∧ ∀ p ∈ t.shape.zip shape, p.1 = p.2 ∨ p.1 = 1 then
    .ok ⟨shape, fun i => t.get (List.zipWith (fun n k => if n = 1 then 0 else k) t.shape i)⟩
  else .error .shape

end Nd

/-- `broadcast(src, other, dim)`, utils.py 99-114: lines 104-105, 107-109, 110-111 and 113. -/
def broadcast {V : Type} (src : Nd V) (other : List Nat) (dim : Int) : M (Nd V) :=
  let dim := if dim < 0 then other.length + dim else dim
  let src := if src.shape.length = 1 then Nd.unsqueezeFirst^[dim.toNat] src else src
  let src := Nd.unsqueezeLast^[other.length - src.shape.length] src
  src.expandAs other

/-- `scatter_add(src, index, dim, dim_size=..)`, utils.py 117-147, with `out=None`.  `int(index.max()) + 1` (line 144) is
cut off at 0, which makes no difference since negative indices raise in any case. -/
def scatterAddNd {V : Type} [AddCommMonoid V] (src : Nd V) (index : Nd Int) (dim : Int) (dimSize : Option Nat) : M (Nd V) := do
  let index ← broadcast index src.shape dim
  let d : Int := if dim < 0 then src.shape.length + dim else dim
  if d < 0 ∨ (src.shape.length : Int) ≤ d then .error .index
  let d := d.toNat
  let n := dimSize.getD (maxPlusOne ((ndPositions index.shape).map index.get))
  if ∃ i ∈ (ndPositions index.shape).map index.get, i < 0 ∨ (n : Int) ≤ i then .error .index
  pure ⟨src.shape.set d n, fun q =>
    (((ndPositions src.shape).filter fun p => decide (p.set d (index.get p).toNat = q)).map src.get).sum⟩

/-- The bound `a` of `xavier_uniform_(weights)`, utils.py 160-164; `rt` is the square root.  `shape[2]` raises for
tensors with fewer than three dimensions, the division raises for tensors without elements. -/
def xavierBound {K : Type} [Field K] (rt : K → K) (shape : List Nat) : M K := do
  let s0 ← getIdx shape 0
  let s1 ← getIdx shape 1
  let s2 ← getIdx shape 2
  let fanIn := s0 * s1
  let fanOut := s0 * s2
  if fanIn + fanOut = 0 then .error .zeroDiv
  let std := rt (2 / ((fanIn + fanOut : Nat) : K))
  pure (rt 3 * std)

/-- `xavier_uniform_(weights)`, utils.py 150-166: `uniform_(-a, a)` maps a random number `u ∈ [0, 1)` of each entry to
`u * (a - (-a)) + (-a)`. -/
def xavierUniform {K : Type} [Field K] (rt : K → K) (shape : List Nat) (u : List Nat → K) : M (Nd K) := do
  let a ← xavierBound rt shape
  pure ⟨shape, fun i => u i * (a - (-a)) + (-a)⟩

end Ocnn
