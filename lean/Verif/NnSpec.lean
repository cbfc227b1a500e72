import Verif.OctreeSpec
import Mathlib.Algebra.BigOperators.Group.List.Basic
import Mathlib.Algebra.BigOperators.Ring.Finset
import Mathlib.Data.Fintype.BigOperators

/-! Specification vocabulary for the neural network operations: feature fields, inner products.  Nothing here
refers to the model of the code. -/

namespace Ocnn.Spec

/-- `f` is the feature field on the integer grid of every sample whose values at the cells are the rows of
`data` and which vanishes elsewhere. -/
def IsField {V : Type} [Zero V] (cells : List Cell) (data : List V) (f : Nat → Int → Int → Int → V) : Prop :=
  cells.length = data.length ∧
  (∀ (i : Nat) (c : Cell) (v : V), cells[i]? = some c → data[i]? = some v → f c.b c.x c.y c.z = v) ∧
  ∀ (b : Nat) (x y z : Int), (∀ c ∈ cells, ¬ (c.b = b ∧ (c.x : Int) = x ∧ (c.y : Int) = y ∧ (c.z : Int) = z)) →
    f b x y z = 0

/-- The value of a field at the cell displaced from `c` by `g`. -/
def around {V : Type} (f : Nat → Int → Int → Int → V) (c : Cell) (g : Int × Int × Int) : V :=
  f c.b (c.x + g.1) (c.y + g.2.1) (c.z + g.2.2)

/-- The first child cell. -/
def firstChild (c : Cell) : Cell := ⟨c.b, 2 * c.x, 2 * c.y, 2 * c.z⟩

/-- Inner product of two rows. -/
def dot {R : Type} [CommSemiring R] {c : Nat} (a b : Fin c → R) : R := ∑ j, a j * b j

/-- Inner product of two matrices. -/
def dot2 {R : Type} [CommSemiring R] {m n : Nat} (a b : Fin m → Fin n → R) : R := ∑ i, ∑ j, a i j * b i j

/-- Inner product of two lists of rows (of equal length), for a given inner product of rows. -/
def inner {R X Y : Type} [AddCommMonoid R] (p : X → Y → R) (a : List X) (b : List Y) : R := (List.zipWith p a b).sum

/-- A row times a matrix. -/
def vecMat {R : Type} [CommSemiring R] {m n : Nat} (v : Fin m → R) (w : Fin m → Fin n → R) : Fin n → R :=
  fun c => ∑ j, v j * w j c

/-- A row times the transpose of a matrix. -/
def vecMatT {R : Type} [CommSemiring R] {m n : Nat} (g : Fin n → R) (w : Fin m → Fin n → R) : Fin m → R :=
  fun j => ∑ c, g c * w j c

/-- The value at cell `c` of the convolution of the field `f` with one matrix per offset. -/
def convAt {R : Type} [CommSemiring R] {m n : Nat} (f : Nat → Int → Int → Int → Fin m → R)
    (offs : List (Int × Int × Int)) (ws : List (Fin m → Fin n → R)) (c : Cell) : Fin n → R :=
  (List.zipWith (fun g w => vecMat (around f c g) w) offs ws).sum

/-- The value at cell `c` of the transposed convolution of rows `xs` at cells `ts`: every row contributes to
every cell displaced from its own one, through the transposed matrix of the offset. -/
def deconvAt {R : Type} [CommSemiring R] {m n : Nat} (ts : List Cell) (xs : List (Fin n → R))
    (offs : List (Int × Int × Int)) (ws : List (Fin m → Fin n → R)) (c : Cell) : Fin m → R :=
  (List.zipWith (fun t x => (List.zipWith (fun g w => if IsShift t c g then vecMatT x w else 0) offs ws).sum) ts xs).sum

/-- The diagonal matrix of a row. -/
def diag {R : Type} [CommSemiring R] {c : Nat} (w : Fin c → R) : Fin c → Fin c → R := fun i j => if i = j then w i else 0

/-- The diagonal of a matrix. -/
def diagOf {R : Type} {c : Nat} (m : Fin c → Fin c → R) : Fin c → R := fun i => m i i

/-- The block-diagonal matrix of `n` matrices: channel `g * a + i` belongs to block `g`. -/
def blockDiag {R : Type} [CommSemiring R] {n a b : Nat} (ms : Fin n → Fin a → Fin b → R) : Fin (n * a) → Fin (n * b) → R :=
  fun i j => if i.divNat = j.divNat then ms i.divNat i.modNat j.modNat else 0

/-- The concatenation of `n` rows. -/
def catRow {R : Type} {n b : Nat} (vs : Fin n → Fin b → R) : Fin (n * b) → R := fun j => vs j.divNat j.modNat

/-- The field of a list of cells with features exists (if no cell is repeated). -/
theorem exists_field {V : Type} [Zero V] (cells : List Cell) (data : List V) (hl : cells.length = data.length)
    (hn : cells.Nodup) : ∃ f, IsField cells data f := by
  classical
  refine ⟨fun b x y z => if h : ∃ j : Nat, ∃ c, cells[j]? = some c ∧ c.b = b ∧ (c.x : Int) = x ∧ (c.y : Int) = y ∧ (c.z : Int) = z
    then (data[h.choose]?).getD 0 else 0, hl, ?_, ?_⟩
  · intro i c v hc hv
    have h : ∃ j : Nat, ∃ c', cells[j]? = some c' ∧ c'.b = c.b ∧ (c'.x : Int) = c.x ∧ (c'.y : Int) = c.y ∧ (c'.z : Int) = c.z :=
      ⟨i, c, hc, rfl, rfl, rfl, rfl⟩
    simp only [dif_pos h]
    obtain ⟨c', h1, h2, h3, h4, h5⟩ := h.choose_spec
    have e : c' = c := by
      cases c; cases c'; simp_all
    rw [e] at h1
    have : h.choose = i := by
      obtain ⟨hi1, e1⟩ := List.getElem?_eq_some_iff.1 h1
      obtain ⟨hi2, e2⟩ := List.getElem?_eq_some_iff.1 hc
      exact (List.Nodup.getElem_inj_iff hn).1 (e1.trans e2.symm)
    rw [this, hv]; rfl
  · intro b x y z h
    apply dif_neg
    rintro ⟨j, c, h1, h2⟩
    exact h c (List.mem_of_getElem? h1) h2

end Ocnn.Spec
