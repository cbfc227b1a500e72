import Verif.Interp
import Verif.PoolLemmas
import Mathlib.Algebra.Order.Floor.Ring
import Mathlib.Data.Rat.Floor

/-! Lemmas about the point queries of octree_interp.py. -/

set_option linter.unusedSimpArgs false

namespace Ocnn
open Spec

variable {F V : Type}

/-- The cell found for integer coordinates: they are taken modulo `2 ^ d`. -/
def torusCell (d b : Nat) (x y z : Int) : Cell := ⟨b, (x % 2 ^ d).toNat, (y % 2 ^ d).toNat, (z % 2 ^ d).toNat⟩

theorem wrap_toNat (d : Nat) (x : Int) : (((x % 2 ^ d).toNat : Nat) : Int) = x % 2 ^ d :=
  Int.toNat_of_nonneg (Int.emod_nonneg _ (by positivity))

theorem torusCell_inRange (d b : Nat) (x y z : Int) (hb : b < 2 ^ 15) : (torusCell d b x y z).InRange (2 ^ 15) d := by
  have h : ∀ v : Int, (v % 2 ^ d).toNat < 2 ^ d := by
    intro v
    have h1 := wrap_toNat d v
    have h2 := Int.emod_lt_of_pos v (show (0 : Int) < 2 ^ d by positivity)
    have : (((v % 2 ^ d).toNat : Nat) : Int) < ((2 ^ d : Nat) : Int) := by rw [h1]; exact_mod_cast h2
    exact_mod_cast this
  exact ⟨hb, h x, h y, h z⟩

/-- The search is a function of the query row: the position of the wrapped cell, or -1. -/
theorem search_loc (o : Octree F) (h : Nat) (w : o.Valid h) (d : Nat) (hd : d ≤ h) (cells : List Cell) (ch : List Int)
    (hc : CellsOf o.batchSize d o.keys cells) (hch : o.children d = some ch) (nempty : Bool) :
    ∃ loc : Cell → Int,
      (∀ qs : List (Int × Int × Int × Nat), (∀ q ∈ qs, q.2.2.2 < 2 ^ 15) →
        o.searchXyzb (qs.map fun q => (q.1, q.2.1, q.2.2.1, (q.2.2.2 : Int))) d nempty
          = .ok (qs.map fun q => loc (torusCell d q.2.2.2 q.1 q.2.1 q.2.2.1))) ∧
      ∀ c : Cell, c.InRange (2 ^ 15) d → (∃ j : Nat, loc c = j ∧ (queried nempty cells ch)[j]? = some c) ∨
        (loc c = -1 ∧ c ∉ queried nempty cells ch) := by
  obtain ⟨-, -, hkey, -, -⟩ := C27_xyzb o h w d hd cells hc ch hch nempty
  have h16 := w.depth_le
  have hh := w.h_le
  let loc : Cell → Int := fun c =>
    match ((queried nempty cells ch).map (Cell.key d))[bucketize ((queried nempty cells ch).map (Cell.key d)) (c.key d)]? with
    | some k => if k = c.key d then (bucketize ((queried nempty cells ch).map (Cell.key d)) (c.key d) : Int) else -1
    | none => -1
  have hs : ∀ qs : List (Int × Int × Int × Nat), (∀ q ∈ qs, q.2.2.2 < 2 ^ 15) →
        o.searchXyzb (qs.map fun q => (q.1, q.2.1, q.2.2.1, (q.2.2.2 : Int))) d nempty
          = .ok (qs.map fun q => loc (torusCell d q.2.2.2 q.1 q.2.1 q.2.2.1)) := by
    intro qs hqs
    unfold Octree.searchXyzb
    rw [List.mapM_map, mapM_ok _ (fun q : Int × Int × Int × Nat => Cell.key d (torusCell d q.2.2.2 q.1 q.2.1 q.2.2.1))]
    · simp only [bind, Except.bind]
      unfold Octree.searchKey
      rw [hkey]
      simp only [bind, Except.bind, pure, Except.pure, List.map_map]
      rfl
    · intro q hq
      exact xyz2key_some _ _ _ _ _ (by omega) (hqs q hq)
  refine ⟨loc, hs, ?_⟩
  intro c hcr
  obtain ⟨r, h1, h2, h3⟩ := C26_search_xyzb o h w d hd cells hc ch hch [c] (by simpa using hcr) nempty
  have h4 := hs [((c.x : Int), (c.y : Int), (c.z : Int), c.b)] (by simpa using hcr.1)
  have m : ∀ x : Nat, x < 2 ^ d → ((x : Int) % 2 ^ d).toNat = x := by
    intro x hx
    rw [Int.emod_eq_of_lt (by omega) (by exact_mod_cast hx)]
    simp
  have e : torusCell d c.b c.x c.y c.z = c := by
    unfold torusCell
    rw [m _ hcr.2.1, m _ hcr.2.2.1, m _ hcr.2.2.2]
  simp only [List.map_cons, List.map_nil, e] at h4 h1
  rw [h4] at h1
  cases h1
  exact h3 0 c (loc c) rfl rfl

theorem long_of_nonneg (q : ℚ) (h : 0 ≤ q) : long q = ⌊q⌋ := by
  unfold long
  rw [Rat.floor_def', Int.tdiv_eq_ediv_of_nonneg (Rat.num_nonneg.2 h)]

theorem long_int (n : Int) : long (n : ℚ) = n := by
  unfold long
  simp

theorem long_nat (n : Nat) : long (n : ℚ) = n := by
  have := long_int (n : Int)
  exact_mod_cast this

theorem maskFill_zipWith {X : Type} (m : List Bool) (xs : List X) (g : X → V) (v : V) (h : m.length = xs.length) :
    maskFill m (List.replicate m.length v) ((maskSel m xs).map g) = List.zipWith (fun b x => if b then g x else v) m xs := by
  induction m generalizing xs with
  | nil => simp [maskFill]
  | cons b m ih =>
    cases xs with
    | nil => simp at h
    | cons x xs =>
      cases b <;> simp [maskSel, maskFill, List.replicate_succ, ih xs (by simpa using h)]

theorem zipWith_map_same {X A B D : Type} (f : A → B → D) (g : X → A) (g' : X → B) (l : List X) :
    List.zipWith f (l.map g) (l.map g') = l.map fun x => f (g x) (g' x) := by
  induction l with
  | nil => rfl
  | cons a l ih => simp [ih]

theorem maskSel_map_map {X A : Type} (p : X → Bool) (g : X → A) (l : List X) :
    maskSel (l.map p) (l.map g) = (l.filter p).map g := by
  rw [maskSel_map, maskSel_map_decide]

theorem nnumOf_ok (o : Octree F) (h : Nat) (w : o.Valid h) (d : Nat) (hd : d ≤ h) (cells : List Cell) (ch : List Int)
    (hc : CellsOf o.batchSize d o.keys cells) (hch : o.children d = some ch) (nempty : Bool) :
    nnumOf o d nempty = .ok (queried nempty cells ch).length := by
  unfold nnumOf
  rw [chk_ok w d hd, queried_length w d hd nempty cells ch hc hch]
  rfl

theorem validMask_map {X : Type} (bc : Bool) (d : Nat) (g : X → Int) (p : X → V3 ℚ) (l : List X) :
    validMask bc d (l.map g) (l.map p) = l.map fun x => decide (g x > -1) && (!bc || inBound d (p x)) := by
  unfold validMask
  cases bc
  · simp
  · simp only [if_true, zipWith_map_same]
    simp

/-- The value of a field at the cell found for integer coordinates. -/
theorem field_at_loc [Zero V] {Q : List Cell} {x : List V} {f : Nat → Int → Int → Int → V} (hf : IsField Q x f) {loc : Cell → Int} {c : Cell}
    (h : (∃ j : Nat, loc c = j ∧ Q[j]? = some c) ∨ (loc c = -1 ∧ c ∉ Q)) :
    (loc c > -1 ∧ c ∈ Q ∧ loc c < x.length ∧ x[(loc c).toNat]? = some (f c.b c.x c.y c.z)) ∨
    (¬ loc c > -1 ∧ c ∉ Q ∧ f c.b c.x c.y c.z = 0) := by
  obtain ⟨hl, h1, h2⟩ := hf
  rcases h with ⟨j, e, hj⟩ | ⟨e, hn⟩
  · left
    have hjl : j < Q.length := (List.getElem?_eq_some_iff.1 hj).1
    refine ⟨by omega, List.mem_of_getElem? hj, by omega, ?_⟩
    rw [e, Int.toNat_natCast]
    have : j < x.length := by omega
    rw [List.getElem?_eq_getElem this]
    rw [h1 j c x[j] hj (List.getElem?_eq_getElem this)]
  · right
    refine ⟨by omega, hn, h2 _ _ _ _ ?_⟩
    rintro c' hc' ⟨e1, e2, e3, e4⟩
    have : c' = c := by
      cases c; cases c'
      simp only [Int.natCast_inj] at *
      simp_all
    exact hn (this ▸ hc')

end Ocnn
