import Verif.NetMoved
import Mathlib.Logic.Equiv.Fin.Basic
import Mathlib.Tactic.IntervalCases

/-! The 48 symmetries of the cube, what they do to cells and octants, and which parameters of a network they exchange. -/

set_option linter.unusedSimpArgs false

namespace Ocnn
open Spec

namespace Spec

/-- The coordinate of an axis. -/
def coord {α : Type} (p : α × α × α) : Fin 3 → α
  | 0 => p.1
  | 1 => p.2.1
  | 2 => p.2.2

/-- The triple of three coordinates. -/
def triple {α : Type} (f : Fin 3 → α) : α × α × α := (f 0, f 1, f 2)

/-- A symmetry of the cube: coordinate `i` of the image is coordinate `source i`, reversed if `mirror i`. -/
structure Symmetry where
  source : Equiv.Perm (Fin 3)
  mirror : Fin 3 → Bool

/-- The image of a vector. -/
def Symmetry.turn {α : Type} [Neg α] (s : Symmetry) (p : α × α × α) : α × α × α :=
  triple fun i => if s.mirror i then - coord p (s.source i) else coord p (s.source i)

/-- The image of a point of the cube `[-1, 1]^3`. -/
def Symmetry.point (s : Symmetry) (p : V3 ℚ) : V3 ℚ :=
  let q := s.turn (p.x, p.y, p.z)
  ⟨q.1, q.2.1, q.2.2⟩

/-- The motion of the voxels of level `d`; a reversed axis is counted from its other end. -/
def Symmetry.motion (s : Symmetry) (d : Nat) : Motion :=
  ⟨id, s.turn, triple fun i => if s.mirror i then 2 ^ d - 1 else 0⟩

/-- On which side of the axis the octant lies; octants are numbered `4 x + 2 y + z`. -/
def octantSide (j : Nat) : Fin 3 → Nat
  | 0 => j / 4 % 2
  | 1 => j / 2 % 2
  | 2 => j % 2

/-- The image of an octant. -/
def Symmetry.octant (s : Symmetry) (j : Nat) : Nat :=
  let f := fun i => if s.mirror i then 1 - octantSide j (s.source i) else octantSide j (s.source i)
  4 * f 0 + 2 * f 1 + f 2

/-- The parameters `P'` are the parameters `P` with all kernels turned: the matrix of an offset of a 3x3x3 kernel is the matrix of the turned offset, the
matrix of an octant of a 2x2x2 kernel is the matrix of the turned octant.  All other parameters agree. -/
structure TurnedParams (s : Symmetry) (P' P : Params) : Prop where
  kernel3 : ∀ name, ∀ g ∈ kernelOffsets (3, 3, 3), ∀ i j,
    P'.weight name 27 ((kernelOffsets (3, 3, 3)).idxOf (s.turn g)) i j = P.weight name 27 ((kernelOffsets (3, 3, 3)).idxOf g) i j
  kernel2 : ∀ name, ∀ k < 8, ∀ i j, P'.weight name 8 (s.octant k) i j = P.weight name 8 k i j
  linear : ∀ name i j, P'.weight name 1 0 i j = P.weight name 1 0 i j
  others : ({ P' with weight := P.weight } : Params) = P

end Spec

theorem coord_triple {α : Type} (f : Fin 3 → α) (i : Fin 3) : coord (triple f) i = f i := by
  fin_cases i <;> rfl

theorem coord_ext {α : Type} {p q : α × α × α} (h : ∀ i, coord p i = coord q i) : p = q := by
  have h0 := h 0
  have h1 := h 1
  have h2 := h 2
  obtain ⟨a, b, c⟩ := p
  obtain ⟨a', b', c'⟩ := q
  simp only [coord] at h0 h1 h2
  rw [h0, h1, h2]

theorem coord_add (p q : Int × Int × Int) (i : Fin 3) : coord (p + q) i = coord p i + coord q i := by
  fin_cases i <;> rfl

theorem coord_turn {α : Type} [Neg α] (s : Symmetry) (p : α × α × α) (i : Fin 3) :
    coord (s.turn p) i = if s.mirror i then - coord p (s.source i) else coord p (s.source i) := coord_triple _ _

theorem motion_iff {s : Symmetry} {d : Nat} {c c' : Cell} : (s.motion d).Moves c c' ↔ c'.b = c.b ∧
    ∀ i, coord (pos c') i = if s.mirror i then 2 ^ d - 1 - coord (pos c) (s.source i) else coord (pos c) (s.source i) := by
  have key : ∀ i, coord (s.turn (pos c) + (s.motion d).shift) i =
      if s.mirror i then 2 ^ d - 1 - coord (pos c) (s.source i) else coord (pos c) (s.source i) := by
    intro i
    rw [coord_add, coord_turn]
    simp only [Symmetry.motion, coord_triple]
    split <;> ring
  constructor
  · rintro ⟨h1, h2⟩
    refine ⟨h1, fun i => ?_⟩
    rw [h2]
    exact key i
  · rintro ⟨h1, h2⟩
    refine ⟨h1, coord_ext fun i => ?_⟩
    rw [h2]
    exact (key i).symm

theorem turn_injective (s : Symmetry) : Function.Injective (s.turn : Int × Int × Int → _) := by
  intro p q e
  refine coord_ext fun j => ?_
  have := congrArg (fun v => coord v (s.source.symm j)) e
  simp only [coord_turn, Equiv.apply_symm_apply] at this
  split at this
  · omega
  · exact this

theorem motion_legal (s : Symmetry) (d : Nat) : (s.motion d).Legal := by
  refine ⟨Function.injective_id, turn_injective s, fun a b => coord_ext fun i => ?_⟩
  show coord (s.turn (a + b)) i = coord (s.turn a + s.turn b) i
  rw [coord_add, coord_turn, coord_turn, coord_turn, coord_add]
  split <;> ring

/-! ### octants -/

theorem octantSide_lt (j : Nat) (i : Fin 3) : octantSide j i < 2 := by
  fin_cases i <;> exact Nat.mod_lt _ (by decide)

theorem octantSide_mk {f : Fin 3 → Nat} (h : ∀ i, f i < 2) (i : Fin 3) : octantSide (4 * f 0 + 2 * f 1 + f 2) i = f i := by
  have h0 := h 0
  have h1 := h 1
  have h2 := h 2
  fin_cases i
  · show (4 * f 0 + 2 * f 1 + f 2) / 4 % 2 = f 0
    omega
  · show (4 * f 0 + 2 * f 1 + f 2) / 2 % 2 = f 1
    omega
  · show (4 * f 0 + 2 * f 1 + f 2) % 2 = f 2
    omega

theorem octantSide_ext {j k : Nat} (hj : j < 8) (hk : k < 8) (h : ∀ i, octantSide j i = octantSide k i) : j = k := by
  have h0 : j / 4 % 2 = k / 4 % 2 := h 0
  have h1 : j / 2 % 2 = k / 2 % 2 := h 1
  have h2 : j % 2 = k % 2 := h 2
  omega

theorem side_octant (s : Symmetry) (j : Nat) (i : Fin 3) :
    octantSide (s.octant j) i = if s.mirror i then 1 - octantSide j (s.source i) else octantSide j (s.source i) := by
  refine octantSide_mk (f := fun i => if s.mirror i then 1 - octantSide j (s.source i) else octantSide j (s.source i)) (fun i => ?_) i
  have := octantSide_lt j (s.source i)
  split <;> omega

theorem octant_lt (s : Symmetry) (j : Nat) : s.octant j < 8 := by
  have h : ∀ i, (if s.mirror i then 1 - octantSide j (s.source i) else octantSide j (s.source i)) < 2 := by
    intro i
    have := octantSide_lt j (s.source i)
    split <;> omega
  have h0 := h 0
  have h1 := h 1
  have h2 := h 2
  simp only [Symmetry.octant]
  omega

theorem octant_inj (s : Symmetry) {j k : Nat} (hj : j < 8) (hk : k < 8) (h : s.octant j = s.octant k) : j = k := by
  refine octantSide_ext hj hk fun i => ?_
  have := congrArg (fun v => octantSide v (s.source.symm i)) h
  simp only [side_octant, Equiv.apply_symm_apply] at this
  have h1 := octantSide_lt j i
  have h2 := octantSide_lt k i
  split at this <;> omega

/-- A symmetry permutes the octants. -/
theorem octant_perm (s : Symmetry) : ((List.range 8).map s.octant).Perm (List.range 8) := by
  have hn : ((List.range 8).map s.octant).Nodup :=
    List.Nodup.map_on (fun a ha b hb e => octant_inj s (List.mem_range.1 ha) (List.mem_range.1 hb) e) List.nodup_range
  refine (hn.subperm ?_).perm_of_length_le (by simp)
  intro c hc
  obtain ⟨j, -, rfl⟩ := List.mem_map.1 hc
  exact List.mem_range.2 (octant_lt s j)

theorem coord_child (c : Cell) (j : Nat) (i : Fin 3) : coord (pos (c.child j)) i = 2 * coord (pos c) i + (octantSide j i : Nat) := by
  fin_cases i <;> simp [coord, pos, Cell.child, octantSide]

theorem coord_parent (c : Cell) (i : Fin 3) : coord (pos c.parent) i = coord (pos c) i / 2 := by
  fin_cases i <;> simp [coord, pos, Cell.parent]

theorem side_of_octant (c : Cell) (i : Fin 3) : (octantSide c.octant i : Int) = coord (pos c) i % 2 := by
  have h := octantSide_mk (f := fun i => match i with | 0 => c.x % 2 | 1 => c.y % 2 | 2 => c.z % 2) (by
    intro i
    fin_cases i <;> exact Nat.mod_lt _ (by decide)) i
  have : c.octant = 4 * (c.x % 2) + 2 * (c.y % 2) + c.z % 2 := rfl
  rw [this]
  simp only at h
  rw [h]
  fin_cases i <;> simp [coord, pos]

theorem turn_child {s : Symmetry} {d : Nat} {c c' : Cell} (h : (s.motion d).Moves c c') (j : Nat) :
    (s.motion (d + 1)).Moves (c.child j) (c'.child (s.octant j)) := by
  rw [motion_iff] at h ⊢
  refine ⟨h.1, fun i => ?_⟩
  have h1 := h.2 i
  have hl := octantSide_lt j (s.source i)
  rw [coord_child, coord_child, side_octant, h1]
  split
  · rw [pow_succ]
    push_cast [Nat.cast_sub (show octantSide j (s.source i) ≤ 1 by omega)]
    ring
  · rfl

theorem turn_parent {s : Symmetry} {d : Nat} {c c' : Cell} (h : (s.motion (d + 1)).Moves c c') :
    (s.motion d).Moves c.parent c'.parent ∧ c'.octant = s.octant c.octant := by
  rw [motion_iff] at h ⊢
  obtain ⟨h1, h2⟩ := h
  refine ⟨⟨h1, fun i => ?_⟩, ?_⟩
  · have := h2 i
    rw [coord_parent, coord_parent, this, pow_succ]
    split <;> omega
  · have o8 : ∀ c : Cell, c.octant < 8 := by
      intro c
      unfold Cell.octant
      omega
    refine octantSide_ext (o8 _) (octant_lt _ _) fun i => ?_
    have := h2 i
    have e1 := side_of_octant c' i
    have e2 := side_of_octant c (s.source i)
    have hl := octantSide_lt c.octant (s.source i)
    rw [pow_succ] at this
    rw [side_octant]
    split at this
    · rename_i hm
      rw [if_pos hm]
      omega
    · rename_i hm
      rw [if_neg hm]
      omega

/-- A node has the child in the octant `j` exactly if the turned node has the child in the turned octant. -/
theorem turn_child_iff {s : Symmetry} {d : Nat} {a a' q q' : Cell} (ha : (s.motion d).Moves a a') (hq : (s.motion (d + 1)).Moves q q') (j : Nat) :
    q = a.child j ↔ q' = a'.child (s.octant j) := by
  have hc := turn_child ha j
  constructor
  · rintro rfl
    exact Moves.unique hq hc
  · rintro rfl
    exact Moves.inj (motion_legal s (d + 1)) hq hc

/-! ### kernels -/

theorem mem_offsets3 (g : Int × Int × Int) : g ∈ kernelOffsets (3, 3, 3) ↔ ∀ i, -1 ≤ coord g i ∧ coord g i ≤ 1 := by
  constructor
  · intro h
    have : ∀ g ∈ kernelOffsets (3, 3, 3), ∀ i, -1 ≤ coord g i ∧ coord g i ≤ 1 := by decide
    exact this g h
  · intro h
    obtain ⟨a, b, c⟩ := g
    have h0 := h 0
    have h1 := h 1
    have h2 := h 2
    simp only [coord] at h0 h1 h2
    obtain ⟨a0, a1⟩ := h0
    obtain ⟨b0, b1⟩ := h1
    obtain ⟨c0, c1⟩ := h2
    interval_cases a <;> interval_cases b <;> interval_cases c <;> decide

theorem offsets3_perm (s : Symmetry) : ((kernelOffsets (3, 3, 3)).map s.turn).Perm (kernelOffsets (3, 3, 3)) := by
  have hn : ((kernelOffsets (3, 3, 3)).map s.turn).Nodup := List.Nodup.map (turn_injective s) (by decide)
  refine (hn.subperm ?_).perm_of_length_le (by simp)
  intro c hc
  obtain ⟨g, hg, rfl⟩ := List.mem_map.1 hc
  rw [mem_offsets3] at hg ⊢
  intro i
  have := hg (s.source i)
  rw [coord_turn]
  split <;> omega

theorem weights3 (P : Params) (name : String) (a b : Nat) : convWeights P name 27 a b = (kernelOffsets (3, 3, 3)).map fun g => fun (i : Fin a) (j : Fin b) =>
    P.weight name 27 ((kernelOffsets (3, 3, 3)).idxOf g) i j := by
  have : List.range 27 = (kernelOffsets (3, 3, 3)).map fun g => (kernelOffsets (3, 3, 3)).idxOf g := by decide +kernel
  unfold convWeights
  rw [this, List.map_map]
  rfl

theorem turned3 {s : Symmetry} {P' P : Params} (h : TurnedParams s P' P) (name : String) (a b d : Nat) :
    Turned (s.motion d) (kernelOffsets (3, 3, 3)) (convWeights P name 27 a b) (convWeights P' name 27 a b) := by
  unfold Turned
  rw [weights3, weights3, zip_map_self]
  refine List.Perm.trans ?_ ((offsets3_perm s).map _)
  refine List.Perm.of_eq ?_
  rw [List.map_map, List.zip_map', ]
  refine List.map_congr_left fun g hg => ?_
  simp only [Function.comp]
  refine Prod.ext rfl ?_
  funext i j
  exact (h.kernel3 name g hg i j).symm

/-- The offset of the children from the first child. -/
theorem kernelOffsets2 : kernelOffsets (2, 2, 2) = (List.range 8).map fun j => (((j / 4 % 2 : Nat) : Int), ((j / 2 % 2 : Nat) : Int), ((j % 2 : Nat) : Int)) := by decide

theorem isShift_octant (a q : Cell) (j : Nat) :
    IsShift (firstChild a) q (((j / 4 % 2 : Nat) : Int), ((j / 2 % 2 : Nat) : Int), ((j % 2 : Nat) : Int)) ↔ q = a.child j := by
  unfold IsShift firstChild Cell.child
  constructor
  · rintro ⟨h1, h2, h3, h4⟩
    obtain ⟨qb, qx, qy, qz⟩ := q
    simp only at h1 h2 h3 h4 ⊢
    simp only [Cell.mk.injEq]
    refine ⟨h1, ?_, ?_, ?_⟩ <;> omega
  · rintro rfl
    refine ⟨rfl, ?_, ?_, ?_⟩ <;> simp

theorem convAt2 {m n : Nat} (f : Nat → Int → Int → Int → Fin m → ℚ) (P : Params) (name : String) (c : Cell) :
    convAt f (kernelOffsets (2, 2, 2)) (convWeights P name 8 m n) (firstChild c)
      = ((List.range 8).map fun j => vecMat (fieldAt f (c.child j)) fun (i : Fin m) (k : Fin n) => P.weight name 8 j i k).sum := by
  unfold convAt convWeights
  rw [kernelOffsets2, List.zipWith_map, List.zipWith_self]
  congr 1

theorem deconvAt2 {m n : Nat} (A : List Cell) (x : List (Fin n → ℚ)) (P : Params) (name : String) (q : Cell) :
    deconvAt (A.map firstChild) x (kernelOffsets (2, 2, 2)) (convWeights P name 8 m n) q
      = ((A.zip x).map fun r => ((List.range 8).map fun j => if q = r.1.child j then vecMatT r.2 (fun (i : Fin m) (k : Fin n) => P.weight name 8 j i k) else 0).sum).sum := by
  unfold deconvAt convWeights
  rw [List.zipWith_map_left, List.map_zip_eq_zipWith]
  congr 1
  congr 1
  funext a v
  rw [kernelOffsets2, List.zipWith_map, List.zipWith_self]
  simp only [Function.curry]
  congr 1
  refine List.map_congr_left fun j _ => ?_
  exact if_congr (isShift_octant a q j) rfl rfl

/-- Every set of parameters can be turned. -/
theorem turned_exists (s : Symmetry) (P : Params) : ∃ P', TurnedParams s P' P := by
  have h3 : ∀ g ∈ kernelOffsets (3, 3, 3), ∃ g' ∈ kernelOffsets (3, 3, 3), s.turn g' = g := by
    intro g hg
    have := (offsets3_perm s).mem_iff.2 hg
    obtain ⟨g', h1, h2⟩ := List.mem_map.1 this
    exact ⟨g', h1, h2⟩
  choose! back hb1 hb2 using h3
  have h2 : ∀ k < 8, ∃ j < 8, s.octant j = k := by
    intro k hk
    have := (octant_perm s).mem_iff.2 (List.mem_range.2 hk)
    obtain ⟨j, h1, h2⟩ := List.mem_map.1 this
    exact ⟨j, List.mem_range.1 h1, h2⟩
  choose! oct ho1 ho2 using h2
  have hget : ∀ g ∈ kernelOffsets (3, 3, 3), (kernelOffsets (3, 3, 3)).getD ((kernelOffsets (3, 3, 3)).idxOf g) 0 = g := by decide +kernel
  refine ⟨{ P with weight := fun name kdim k i j =>
    if kdim = 27 then P.weight name 27 ((kernelOffsets (3, 3, 3)).idxOf (back ((kernelOffsets (3, 3, 3)).getD k 0))) i j
    else if kdim = 8 then P.weight name 8 (oct k) i j else P.weight name kdim k i j }, ?_, ?_, ?_, rfl⟩
  · intro name g hg i j
    have hm : s.turn g ∈ kernelOffsets (3, 3, 3) := (offsets3_perm s).mem_iff.1 (List.mem_map_of_mem hg)
    simp only [if_true, hget _ hm]
    rw [turn_injective s (hb2 _ hm)]
  · intro name k hk i j
    have h8 := octant_lt s k
    have : oct (s.octant k) = k := octant_inj s (ho1 _ h8) hk (ho2 _ h8)
    simp [this]
  · intro name i j
    simp

end Ocnn
