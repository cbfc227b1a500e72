import Verif.Conv
import Mathlib.Algebra.Order.Ring.Rat
import Mathlib.Algebra.BigOperators.Group.Multiset.Basic
import Mathlib.Algebra.Order.BigOperators.Group.Multiset

/-! Floating-point model of the convolutions of ocnn/nn/octree_conv.py.

The arithmetic of the rest of the model is exact.  Here the model of `Conv` is instantiated with formal sums: a number of
the output is the multiset of the products that the code adds up, so that the same functions say which products are
formed, and a relation says which numbers a floating-point unit may return for such a sum. -/

namespace Ocnn

/-- A summand: a product of two stored numbers, or a stored number. -/
inductive Term where
  | prod (x w : ℚ)
  | const (b : ℚ)
  deriving DecidableEq

/-- The exact value of a summand. -/
def Term.val : Term → ℚ
  | .prod x w => x * w
  | .const b => b

/-- `v` is a floating-point result of adding up the summands `s`, with relative error at most `u` per operation and an
absolute error of at most `e` for products (underflow).  Any order of additions, any rounding and fused multiply-add
are allowed; overflow is not.  Adding a sum without summands (an initial zero) is exact. -/
inductive Rounded (u e : ℚ) : Multiset Term → ℚ → Prop
  | zero : Rounded u e 0 0
  | const (b : ℚ) : Rounded u e {.const b} b
  | prod (x w v : ℚ) : |v - x * w| ≤ u * |x * w| + e → Rounded u e {.prod x w} v
  | add (s t : Multiset Term) (a b v : ℚ) : s ≠ 0 → t ≠ 0 → Rounded u e s a → Rounded u e t b →
      |v - (a + b)| ≤ u * |a + b| → Rounded u e (s + t) v
  | fma (s : Multiset Term) (x w a v : ℚ) : Rounded u e s a → |v - (x * w + a)| ≤ u * |x * w + a| + e →
      Rounded u e (.prod x w ::ₘ s) v

/-- The summands of one row of `torch.mm(buffer, weights)`, octree_conv.py 139 and 372 (the other products are not used
with this instance). -/
def termKernel (ci co : Nat) : Kernel (Fin ci → ℚ) (Fin co → Multiset Term) (Fin ci → Fin co → ℚ) where
  ap v w := fun c => Finset.univ.val.map fun j => .prod (v j) (w j c)
  apT _ _ := 0
  outer _ _ := 0

/-- The summands of `torch.mm(grad, weights.t())` and `scatter_add`, octree_conv.py 160 and 168. -/
def termKernelT (ci co : Nat) : Kernel (Fin ci → Multiset Term) (Fin co → ℚ) (Fin ci → Fin co → ℚ) where
  ap _ _ := 0
  apT g w := fun j => Finset.univ.val.map fun c => .prod (g c) (w j c)
  outer _ _ := 0

/-- The summands of `out.addmm_(buffer.t(), grad)`, octree_conv.py 211. -/
def termKernelW (ci co : Nat) : Kernel (Fin ci → ℚ) (Fin co → ℚ) (Fin ci → Fin co → Multiset Term) where
  ap _ _ := 0
  apT _ _ := 0
  outer v g := fun j c => {.prod (v j) (g c)}

/-- The module with its bias as a summand of every row, octree_conv.py 376-377 (`out += self.bias`). -/
def ConvModule.terms {co : Nat} {W : Type} (m : ConvModule (Fin co → ℚ) W) : ConvModule (Fin co → Multiset Term) W :=
  { base := m.base, directMethod := m.directMethod, weights := m.weights,
    bias := m.bias.map fun b => fun c => {.const (b c)} }

end Ocnn
