import Verif.Float32
import Verif.FloatConv
import Verif.Nn

/-! Average pooling in single precision: ocnn/nn/octree_pool.py 68-103. -/

namespace Ocnn
variable {F : Type}

/-- `val = 1.0 / (torch.sum(mask, dim=1) + 1e-8)`, octree_pool.py 89, for a row with `n` existing neighbours: the sum of a boolean mask is an integer tensor, which
becomes single precision when the Python float is added. -/
def avgVal32 (n : Nat) : ℚ := f32 (1 / f32 (f32 n + f32 (1 / 10 ^ 8)))

/-- The summands of one row of `torch.sparse.mm(mat, data)`, octree_pool.py 88-102, for every channel. -/
def avgRowTerms {C : Nat} (data : List (Fin C → ℚ)) (row : List Int) : M (Fin C → Multiset Term) := do
  let cols := row.filter fun n => decide (n ≥ 0)
  let rows ← indexSelect data (cols.map Int.toNat)
  pure fun c => (rows.map fun r => Term.prod (avgVal32 cols.length) (r c) : List Term)

/-- `octree_avg_pool`, octree_pool.py 68-103, in single precision: the summands of every row. -/
def octreeAvgTerms {C : Nat} (data : List (Fin C → ℚ)) (o : Octree F) (d : Nat) (kernel : String) (stride : Nat) (nempty : Bool) :
    M (List (Fin C → Multiset Term)) := do
  let neigh ← o.getNeigh d kernel stride nempty
  neigh.mapM (avgRowTerms data)

/-- One row of `torch.sparse.mm(mat, data)`, octree_pool.py 102, when the products are rounded and added one after the other in the order of the columns.  Simplified:
one of the orders the library may use. -/
def addInOrder : List Term → ℚ
  | l => l.foldl (fun a t => f32 (a + f32 (match t with | .prod x w => x * w | .const b => b))) 0

end Ocnn
