import Verif.Torch
import Mathlib.Algebra.Field.Rat
import Mathlib.Algebra.Order.Ring.Rat
import Mathlib.Algebra.Module.Defs
import Mathlib.Data.Rat.Floor

/-! Model of ocnn/utils.py. -/

namespace Ocnn

/-- `range_grid(min, max)`, utils.py 46-74: all integer triples in lexicographic order. -/
def rangeGrid (lo hi : Int) : List (Int × Int × Int) :=
  let rng := (List.range (hi + 1 - lo).toNat).map fun (i : Nat) => lo + i
  rng.flatMap fun x => rng.flatMap fun y => rng.map fun z => (x, y, z)

/-- `trunc_div`, utils.py 21-31 (torch > 1.7.1). -/
def truncDiv (a b : Int) : Int := a.tdiv b

/-- `torch.cumsum(data, 0)` with start value `acc`. -/
def cumsumFrom {V : Type _} [Add V] (acc : V) : List V → List V
  | [] => []
  | a :: l => (acc + a) :: cumsumFrom (acc + a) l

/-- `cumsum(data, dim=0, exclusive)`, utils.py 77-96, for a one-dimensional tensor. -/
def cumsum {V : Type _} [Add V] [Zero V] (data : List V) (exclusive : Bool) : List V :=
  let out := cumsumFrom 0 data
  if exclusive then 0 :: out else out

/-- `out.scatter_add_(0, index, src)` at valid positions. -/
def scatterAddInto {V : Type _} [Add V] : List V → List (Nat × V) → List V
  | out, [] => out
  | out, (i, v) :: ps => scatterAddInto (out.modify i (· + v)) ps

/-- index check of `scatter_add_`: negative or too large indices raise. -/
def scatterIdx (n : Nat) (i : Int) : M Nat :=
  if 0 ≤ i ∧ i < n then .ok i.toNat else .error .index

/-- `int(index.max()) + 1` as a size (0 for an empty index), utils.py 141-144. -/
def maxPlusOne (index : List Int) : Nat := index.foldl (fun m i => max m (i + 1).toNat) 0

/-- `scatter_add(src, index, dim=0, dim_size=..)`, utils.py 117-147, for a tensor of rows.
`broadcast` (99-114) expands the index along the trailing dimensions; an index of length 1 is expanded
to all rows; other length mismatches raise. -/
def scatterAdd {V : Type _} [Add V] [Zero V] (src : List V) (index : List Int)
    (dimSize : Option Nat) : M (List V) := do
  let index ← (if index.length = src.length then .ok index
    else match index with
      | [i] => .ok (List.replicate src.length i)
      | _ => .error .shape : M (List Int))
  let n := match dimSize with
    | some n => n
    | none => maxPlusOne index
  let js ← index.mapM (scatterIdx n)
  pure (scatterAddInto (List.replicate n 0) (js.zip src))

/-- The loop of `resize_with_last_val`: append the last value `n` times (`list_in[-1]` raises IndexError
on the empty list). -/
def appendLast {α : Type _} (l : List α) : Nat → M (List α)
  | 0 => .ok l
  | n + 1 => match l.getLast? with
    | some v => appendLast (l ++ [v]) n
    | none => .error .index

/-- `resize_with_last_val(list_in, num)`, utils.py 169-178. -/
def resizeWithLastVal {α : Type _} (l : List α) (num : Nat := 3) : M (List α) := do
  pyAssert (l.length < num + 1)
  appendLast l (num - l.length)

/-- `list2str(list_in)` for lists of non-negative integers, utils.py 181-186. -/
def list2str (l : List Nat) : String := String.join (l.map toString)

end Ocnn
