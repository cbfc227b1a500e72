/-
  Specification vocabulary.  Nothing here refers to the model of the code; these are the
  mathematical notions in which the properties are stated.
-/

namespace Ocnn.Spec

/-- Morton (z-order) code of the cell `(x, y, z)` of the `2^d × 2^d × 2^d` grid, defined by recursion
over the octree levels: the code of the parent cell followed by the octant number `4·x₀ + 2·y₀ + z₀`. -/
def morton : Nat → Nat → Nat → Nat → Nat
  | 0, _, _, _ => 0
  | d + 1, x, y, z => 8 * morton d (x / 2) (y / 2) (z / 2) + (4 * (x % 2) + 2 * (y % 2) + z % 2)

/-- A cell of sample `b` at some octree level. -/
structure Cell where
  b : Nat
  x : Nat
  y : Nat
  z : Nat
  deriving DecidableEq, Repr

/-- The cell lies in the cube of level `d` of a batch of `B` samples. -/
def Cell.InRange (B d : Nat) (c : Cell) : Prop :=
  c.b < B ∧ c.x < 2 ^ d ∧ c.y < 2 ^ d ∧ c.z < 2 ^ d

instance (B d : Nat) (c : Cell) : Decidable (c.InRange B d) := by
  unfold Cell.InRange; infer_instance

/-- The key of a cell: sample index in the bits from 48 up, Morton code below. -/
def Cell.key (d : Nat) (c : Cell) : Nat := c.b * 2 ^ 48 + morton d c.x c.y c.z

/-- The cell of the next coarser level containing `c`. -/
def Cell.parent (c : Cell) : Cell := ⟨c.b, c.x / 2, c.y / 2, c.z / 2⟩

/-- The octant of the parent in which `c` lies. -/
def Cell.octant (c : Cell) : Nat := 4 * (c.x % 2) + 2 * (c.y % 2) + c.z % 2

/-- The child of `c` in octant `o` (`o < 8`). -/
def Cell.child (c : Cell) (o : Nat) : Cell :=
  ⟨c.b, 2 * c.x + o / 4 % 2, 2 * c.y + o / 2 % 2, 2 * c.z + o % 2⟩

/-- The ancestor `n` levels up. -/
def Cell.ancestor (n : Nat) (c : Cell) : Cell := ⟨c.b, c.x / 2 ^ n, c.y / 2 ^ n, c.z / 2 ^ n⟩

/-- A legal key of level `d` for batches of at most 32768 samples. -/
def LegalKey (d k : Nat) : Prop := k / 2 ^ 48 < 2 ^ 15 ∧ k % 2 ^ 48 < 8 ^ d

/-- Ascending without repetition. -/
def StrictlySorted (l : List Nat) : Prop := l.Pairwise (· < ·)

/-- The `k`-th displacement of the 3×3×3 neighbourhood (`k < 27`), lexicographic in `{-1,0,1}³`. -/
def disp (k : Nat) : Int × Int × Int :=
  (((k / 9 % 3 : Nat) : Int) - 1, ((k / 3 % 3 : Nat) : Int) - 1, ((k % 3 : Nat) : Int) - 1)

/-- `c'` is the cell of the same sample displaced from `c` by `g`. -/
def IsShift (c c' : Cell) (g : Int × Int × Int) : Prop :=
  c'.b = c.b ∧ (c'.x : Int) = c.x + g.1 ∧ (c'.y : Int) = c.y + g.2.1 ∧ (c'.z : Int) = c.z + g.2.2

instance (c c' : Cell) (g : Int × Int × Int) : Decidable (IsShift c c' g) := by
  unfold IsShift; infer_instance

/-- Position `v` refers to the cell displaced by `g` from `c` in the list of cells: either it is
the index of that cell, or it is -1 and the displaced cell is not in the list (in particular when it is
outside of the cube). -/
def RefersTo (cells : List Cell) (c : Cell) (g : Int × Int × Int) (v : Int) : Prop :=
  (∃ (j : Nat) (c' : Cell), v = j ∧ cells[j]? = some c' ∧ IsShift c c' g) ∨
  (v = -1 ∧ ∀ c' ∈ cells, ¬ IsShift c c' g)

/-- `rows` is the exact table of the 27 neighbours of `cells`. -/
def NeighTable (cells : List Cell) (rows : List (List Int)) : Prop :=
  rows.length = cells.length ∧
  ∀ (i : Nat) (c : Cell) (row : List Int), cells[i]? = some c → rows[i]? = some row →
    row.length = 27 ∧ ∀ (k : Nat) (v : Int), row[k]? = some v → RefersTo cells c (disp k) v

end Ocnn.Spec
