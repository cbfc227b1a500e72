import Verif.Float32
import Verif.Nn
import Mathlib.Algebra.Order.Group.Multiset

/-! Global pooling and the counts of the normalisation layers in floating point of a given precision. -/

namespace Ocnn
variable {F V : Type}

/-- The number with `p` significant bits that represents the exact result `x` of an operation, rounding to nearest, ties to even: `p` is 24 for float32,
11 for float16 and 8 for bfloat16.  Simplified: the exponent is not bounded. -/
def roundP (p : Nat) (x : ℚ) : ℚ := (rne (x / 2 ^ (Int.log 2 |x| - ((p : ℤ) - 1))) : ℚ) * 2 ^ (Int.log 2 |x| - ((p : ℤ) - 1))

/-- The results that adding up the given numbers with `p` significant bits can have: `scatter_add` (utils.py 117-147) starts from 0, which is exact, and adds the
summands of one row in an order that torch does not specify; every addition rounds. -/
inductive SumP (p : Nat) : Multiset ℚ → ℚ → Prop
  | zero : SumP p 0 0
  | single (a : ℚ) : SumP p {a} a
  | add (s t : Multiset ℚ) (a b : ℚ) : s ≠ 0 → t ≠ 0 → SumP p s a → SumP p t b → SumP p (s + t) (roundP p (a + b))

/-- Adding up in the order of the rows, as `scatter_add` does on the CPU. -/
def seqSum (p : Nat) (l : List ℚ) : ℚ := l.foldl (fun a b => roundP p (a + b)) 0

/-- The summands of the sums and of the counts of `octree_global_pool`, octree_pool.py 115-121, for every sample: the code is run on multisets of summands in
place of sums.  The counts are sums of ones that have the precision of the features (`data.new_ones`); the counts of `OctreeGroupNorm`, octree_norm.py 44-46,
are computed by the same statements. -/
def globalPoolTerms (data : List V) (o : Octree F) (d : Nat) (nempty : Bool) : M (List (Multiset V × Multiset ℚ)) := do
  let batchId ← o.batchId d nempty
  let ids := batchId.map Int.ofNat
  let count ← scatterAdd (List.replicate data.length ({1} : Multiset ℚ)) ids (some o.batchSize)
  let out ← scatterAdd (data.map fun v => ({v} : Multiset V)) ids (some o.batchSize)
  pure (out.zip count)

/-- The results that the pooled value of a sample can have, octree_pool.py 118-122, for one channel: `s` and `c` are the summands of the sum and of the count. -/
def PooledP (p : Nat) (s c : Multiset ℚ) (v : ℚ) : Prop :=
  ∃ a n, SumP p s a ∧ SumP p c n ∧ v = roundP p (a / (if n < 1 then 1 else n))

end Ocnn
