/-
  Basic torch / Python primitives used by the modelled code, as total functions on lists.
  Exceptions are values: `M α = Except Err α`.
-/

namespace Ocnn

/-- The exceptions the modelled code can raise.  `domain` is not an exception of the code: the model
returns it where the real computation would leave the range in which the model is faithful
(int64 values with the sign bit set). -/
inductive Err where
  | assertion   -- AssertionError
  | index       -- IndexError
  | shape       -- RuntimeError because of mismatching tensor shapes
  | type        -- TypeError / AttributeError (operation on None, unknown attribute)
  | value       -- ValueError
  | key         -- KeyError
  | zeroDiv     -- ZeroDivisionError
  | domain      -- outside of the modelled value range
  deriving DecidableEq, Repr

/-- Python computations that may raise. -/
abbrev M (α : Type _) := Except Err α

/-- Python/torch normalisation of an index into a dimension of size `n`:
`-n ≤ i < n`, negative indices count from the end; otherwise IndexError. -/
def normIdx (n : Nat) (i : Int) : M Nat :=
  if 0 ≤ i ∧ i < n then .ok i.toNat
  else if i < 0 ∧ -(n : Int) ≤ i then .ok (i + n).toNat
  else .error .index

/-- `t[i]` for a 1-D tensor or list. -/
def getIdx {α : Type _} (t : List α) (i : Int) : M α := do
  let j ← normIdx t.length i
  match t[j]? with
  | some v => .ok v
  | none => .error .index

/-- `t[idx]` (advanced indexing with an integer tensor). -/
def gatherIdx {α : Type _} (t : List α) (idx : List Int) : M (List α) :=
  idx.mapM (getIdx t)

/-- The rows of `xs` selected by `mask` (rows beyond the shorter list are dropped). -/
def maskSel {α : Type _} : List Bool → List α → List α
  | true :: ms, x :: xs => x :: maskSel ms xs
  | false :: ms, _ :: xs => maskSel ms xs
  | _, _ => []

/-- `t[mask]` (boolean indexing): IndexError if the sizes differ. -/
def boolIndex {α : Type _} (mask : List Bool) (t : List α) : M (List α) :=
  if mask.length = t.length then .ok (maskSel mask t) else .error .index

/-- Fill the masked positions of `t` with successive elements of `vs`. -/
def maskFill {α : Type _} : List Bool → List α → List α → List α
  | true :: ms, _ :: ts, v :: vs => v :: maskFill ms ts vs
  | true :: ms, t :: ts, [] => t :: maskFill ms ts []
  | false :: ms, t :: ts, vs => t :: maskFill ms ts vs
  | [], ts, _ => ts
  | _, [], _ => []

/-- `t[mask] = vs` for a tensor `vs` of rows: the number of rows must be the number of selected
rows, or 1 (then it is broadcast); otherwise a RuntimeError. -/
def boolSet {α : Type _} (mask : List Bool) (t : List α) (vs : List α) : M (List α) :=
  if mask.length = t.length then
    if vs.length = mask.count true then .ok (maskFill mask t vs)
    else match vs with
      | [v] => .ok (maskFill mask t (List.replicate (mask.count true) v))
      | _ => .error .shape
  else .error .index

/-- `t[mask] = c` for a scalar `c`. -/
def boolSetScalar {α : Type _} (mask : List Bool) (t : List α) (c : α) : M (List α) :=
  if mask.length = t.length then .ok (List.zipWith (fun m v => if m then c else v) mask t)
  else .error .index

/-- Sequential assignment `t[i₀] = v₀; t[i₁] = v₁; ...` at already normalised positions. -/
def setMany {α : Type _} : List α → List (Nat × α) → List α
  | t, [] => t
  | t, (i, v) :: ps => setMany (t.set i v) ps

/-- `t[idx] = vs` with an integer index tensor; RuntimeError if the lengths differ. -/
def idxSet {α : Type _} (t : List α) (idx : List Int) (vs : List α) : M (List α) := do
  if idx.length ≠ vs.length then .error .shape
  let js ← idx.mapM (normIdx t.length)
  .ok (setMany t (js.zip vs))

/-- `torch.arange(n)`. -/
def arange (n : Nat) : List Int := (List.range n).map Int.ofNat

/-- `torch.unique_consecutive` : runs collapsed to one element. -/
def uniqueConsec : List Nat → List Nat
  | [] => []
  | [a] => [a]
  | a :: b :: l => if a = b then uniqueConsec (b :: l) else a :: uniqueConsec (b :: l)

/-- `torch.unique_consecutive(..., return_inverse=True)[1]`, started at run number `n`. -/
def uniqueConsecInv (n : Nat) : List Nat → List Nat
  | [] => []
  | [_] => [n]
  | a :: b :: l =>
      if a = b then n :: uniqueConsecInv n (b :: l) else n :: uniqueConsecInv (n + 1) (b :: l)

/-- Remove duplicates (keeping the last occurrences). -/
def dedupNat : List Nat → List Nat
  | [] => []
  | a :: l => if a ∈ l then dedupNat l else a :: dedupNat l

/-- Insertion into a list sorted by `≤`. -/
def insertNat (a : Nat) : List Nat → List Nat
  | [] => [a]
  | b :: l => if a ≤ b then a :: b :: l else b :: insertNat a l

/-- Sort ascending. -/
def sortNat : List Nat → List Nat
  | [] => []
  | a :: l => insertNat a (sortNat l)

/-- `torch.unique(key, sorted=True)[0]`: the distinct values in ascending order. -/
def unique (xs : List Nat) : List Nat := sortNat (dedupNat xs)

/-- `torch.unique(key, return_inverse=True)[1]`: position of each element in `unique xs`. -/
def uniqueInv (xs : List Nat) : List Nat := xs.map fun x => (unique xs).idxOf x

/-- `torch.unique(key, return_counts=True)[2]`. -/
def uniqueCounts (xs : List Nat) : List Nat := (unique xs).map fun u => xs.count u

/-- `torch.bucketize(q, key)` (right=False) for one query and an ascending `key`:
the number of boundaries smaller than the query. -/
def bucketize (key : List Nat) (q : Nat) : Nat := key.countP (fun k => k < q)

/-- Python's `assert`. -/
def pyAssert (c : Prop) [Decidable c] : M Unit := if c then .ok () else .error .assertion

/-- Use of a value that may be `None` where a tensor is needed. -/
def need {α : Type _} : Option α → M α
  | some v => .ok v
  | none => .error .type

end Ocnn
