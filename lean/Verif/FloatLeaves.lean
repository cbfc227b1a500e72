import Verif.Float32
import Mathlib.Algebra.Order.Group.Multiset

/-! The averages over the points of a leaf in single precision. -/

namespace Ocnn

/-- The results that adding up the given numbers in single precision can have: `scatter_add` (utils.py 117-147) starts from 0, which is exact,
and adds the summands of one row in an order that torch does not specify; every addition rounds.  On the CPU the order is that of the rows, a parallel
reduction first adds up parts. -/
inductive SumF32 : Multiset ℚ → ℚ → Prop
  | single (a : ℚ) : SumF32 {a} a
  | add (s t : Multiset ℚ) (a b : ℚ) : SumF32 s a → SumF32 t b → SumF32 (s + t) (f32 (a + b))

/-- The results that the average of a row can have, octree.py 217-218 and 223-224: the sum is divided by the number of points, which is converted to single
precision; the division rounds. -/
def AverageF32 (s : Multiset ℚ) (count : Nat) (v : ℚ) : Prop := ∃ t, SumF32 s t ∧ v = f32 (t / f32 count)

namespace Octree
variable {F : Type}

/-- The summands of the averages of a signal with the rows `src`, and the numbers by which the sums are divided, for every non-empty node of the finest
layer: octree.py 160-170, 217-218, 223-224.  The code is run on multisets of summands in place of sums. -/
def leafTerms {L V : Type} (o : Octree F) (pc : Points ℚ F L) (src : List V) : M (List (Multiset V × Nat)) := do
  let points := pc.points.map fun p => p.map (scaleF32 o.depth)
  let b ← (if o.batchSize = 1 then pure none else do
    let b ← need pc.batchId
    pure (some b) : M (Option (List Int)))
  let key ← pointKeys points b o.depth
  let idx := uniqueInv key
  let counts := uniqueCounts key
  let s ← scatterAdd (src.map fun v => ({v} : Multiset V)) (idx.map Int.ofNat) none
  if s.length = counts.length then pure (s.zip counts) else .error .shape

end Octree

end Ocnn
