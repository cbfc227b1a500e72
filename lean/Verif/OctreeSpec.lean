import Verif.Spec

/-! What a well-formed octree is, in terms of the public per-layer tensors only.  Nothing here refers to the
model of the code. -/

namespace Ocnn.Spec

/-- Child indices: the non-empty nodes are numbered 0, 1, 2, ... in node order, empty nodes have -1. -/
def Numbered (ch : List Int) : Prop :=
  ∀ (i : Nat) (v : Int), ch[i]? = some v →
    v = -1 ∨ v = (((ch.take i).countP fun w => decide (0 ≤ w) : Nat) : Int)

/-- One layer `d` of an octree with `B` samples: keys `ks`, child indices `ch`, `n` nodes, `ne` of them
non-empty. -/
structure LayerOK (B d : Nat) (ks : List Nat) (ch : List Int) (n ne : Nat) : Prop where
  /-- keys ascend strictly -/
  sorted : StrictlySorted ks
  /-- every key is the key of a cell of the cube of one of the samples -/
  legal : ∀ k ∈ ks, ∃ c : Cell, c.InRange B d ∧ c.key d = k
  /-- one child index per node -/
  same_length : ch.length = ks.length
  /-- child indices are consecutive -/
  numbered : Numbered ch
  /-- the node counter -/
  count : n = ks.length
  /-- the counter of non-empty nodes -/
  count_nempty : ne = ch.countP fun v => decide (0 ≤ v)

/-- A well-formed octree up to layer `h`: batch size `B`, full layers up to `full`. -/
structure WellFormed (B full h : Nat) (keys : Nat → Option (List Nat)) (children : Nat → Option (List Int))
    (nnum nnumNempty : Nat → Nat) : Prop where
  /-- every layer exists and is legal -/
  layer : ∀ d ≤ h, ∃ ks ch, keys d = some ks ∧ children d = some ch ∧
    LayerOK B d ks ch (nnum d) (nnumNempty d)
  /-- layers up to `full` contain every cell of every sample -/
  dense : ∀ d ≤ full, ∀ ks, keys d = some ks → ∀ c : Cell, c.InRange B d → c.key d ∈ ks
  /-- nodes above the full layer are non-empty -/
  upper_nempty : ∀ d < full, ∀ ch, children d = some ch → ∀ v ∈ ch, 0 ≤ v
  /-- the next layer has eight nodes per non-empty node -/
  eight : ∀ d < h, nnum (d + 1) = 8 * nnumNempty d
  /-- the children of the node with child index `v` are the nodes `8v .. 8v+7` of the next layer -/
  link : ∀ d < h, ∀ ks ch ks', keys d = some ks → children d = some ch → keys (d + 1) = some ks' →
    ∀ (i v j : Nat) (c : Cell), c.InRange B d → ks[i]? = some (c.key d) → ch[i]? = some (v : Int) → j < 8 →
      ks'[8 * v + j]? = some ((c.child j).key (d + 1))

/-- `cells` are the cells of the nodes of layer `d`, in node order. -/
def CellsOf (B d : Nat) (keys : Nat → Option (List Nat)) (cells : List Cell) : Prop :=
  (∀ c ∈ cells, c.InRange B d) ∧ keys d = some (cells.map (Cell.key d))

/-- The neighbour table of layer `d` is exact. -/
def NeighExact (B d : Nat) (keys : Nat → Option (List Nat)) (neighs : Nat → Option (List (List Int))) : Prop :=
  ∀ cells, CellsOf B d keys cells → ∃ rows, neighs d = some rows ∧ NeighTable cells rows

/-- The offsets along one axis covered by a kernel of the given size. -/
def axisOffsets : Nat → List Int
  | 2 => [0, 1]
  | 3 => [-1, 0, 1]
  | _ => [0]

/-- The offsets covered by an `a × b × c` kernel, in row-major order. -/
def kernelOffsets (k : Nat × Nat × Nat) : List (Int × Int × Int) :=
  (axisOffsets k.1).flatMap fun x => (axisOffsets k.2.1).flatMap fun y => (axisOffsets k.2.2).map fun z => (x, y, z)

/-- The documented kernel shapes. -/
def supportedKernels : List (Nat × Nat × Nat) :=
  [(3, 3, 3), (3, 1, 1), (1, 3, 1), (1, 1, 3), (2, 2, 2), (3, 3, 1), (1, 3, 3), (3, 1, 3)]

/-- The name of a kernel shape. -/
def kernelName (k : Nat × Nat × Nat) : String := toString k.1 ++ toString k.2.1 ++ toString k.2.2

/-- `rows` lists, for each target cell and each offset, the position in `cells` of the displaced cell, or -1
if the displaced cell is not in `cells`. -/
def KernelTable (cells targets : List Cell) (offs : List (Int × Int × Int)) (rows : List (List Int)) : Prop :=
  rows.length = targets.length ∧
  ∀ (i : Nat) (c : Cell) (row : List Int), targets[i]? = some c → rows[i]? = some row →
    row.length = offs.length ∧
    ∀ (k : Nat) (g : Int × Int × Int) (v : Int), offs[k]? = some g → row[k]? = some v → RefersTo cells c g v

/-- The non-empty ones among the cells of a layer with child indices `ch`. -/
def nonEmpty (cells : List Cell) (ch : List Int) : List Cell :=
  (cells.zip ch).filterMap fun p => if 0 ≤ p.2 then some p.1 else none

/-- `firsts` are the nodes number 0, 8, 16, ... of `cells`. -/
def FirstSiblings (cells firsts : List Cell) : Prop :=
  cells.length = 8 * firsts.length ∧ ∀ i < firsts.length, firsts[i]? = cells[8 * i]?

/-- Entry `(i, k)` of a table. -/
def entry (rows : List (List Int)) (i k : Nat) : Option Int := rows[i]?.bind fun r => r[k]?

end Ocnn.Spec
