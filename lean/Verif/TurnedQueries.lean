import Verif.NetTurned
import Verif.PropsFlip

/-! Interpolation at turned points. -/

set_option linter.unusedSimpArgs false

namespace Ocnn
open Spec
variable {F : Type}

namespace Spec

/-- The coordinates of a point. -/
def axes3 (p : V3 ℚ) : ℚ × ℚ × ℚ := (p.x, p.y, p.z)

/-- No coordinate of the point that the symmetry reverses lies on a plane between two cells of level `d`. -/
def Symmetry.OffFaces (s : Symmetry) (d : Nat) (p : V3 ℚ) : Prop :=
  ∀ i, s.mirror i = true → ∀ k : Int, coord (axes3 p) (s.source i) ≠ -1 + k * (2 / 2 ^ d)

/-- The image of integer coordinates of level `d`. -/
def Symmetry.grid (s : Symmetry) (d : Nat) (g : Int × Int × Int) : Int × Int × Int :=
  triple fun i => if s.mirror i then 2 ^ d - 1 - coord g (s.source i) else coord g (s.source i)

end Spec

theorem coord_point (s : Symmetry) (p : V3 ℚ) (i : Fin 3) :
    coord (axes3 (s.point p)) i = if s.mirror i then - coord (axes3 p) (s.source i) else coord (axes3 p) (s.source i) := by
  have : axes3 (s.point p) = s.turn (axes3 p) := rfl
  rw [this, coord_turn]

theorem coord_scaled (p : V3 ℚ) (f : ℚ → ℚ) (i : Fin 3) : coord (axes3 (p.map f)) i = f (coord (axes3 p) i) := by
  fin_cases i <;> rfl

theorem grid_bijective (s : Symmetry) (d : Nat) : Function.Bijective (s.grid d) := by
  constructor
  · intro p q e
    refine coord_ext fun j => ?_
    have := congrArg (fun v => coord v (s.source.symm j)) e
    simp only [Symmetry.grid, coord_triple, Equiv.apply_symm_apply] at this
    split at this <;> omega
  · intro q
    refine ⟨triple fun j => if s.mirror (s.source.symm j) then 2 ^ d - 1 - coord q (s.source.symm j) else coord q (s.source.symm j), ?_⟩
    refine coord_ext fun i => ?_
    simp only [Symmetry.grid, coord_triple, Equiv.symm_apply_apply]
    split <;> ring

theorem tent3_prod (p : V3 ℚ) (g : Int × Int × Int) : tent3 p g = ∏ i, tent (coord (axes3 p) i - (coord g i + 1 / 2)) := by
  rw [Fin.prod_univ_three]
  rfl

theorem tent_neg (t : ℚ) : tent (-t) = tent t := by
  unfold tent
  rw [abs_neg]

/-- `2^d` as the code computes it -/
theorem scale_two (d : Nat) : 2 * (2 ^ ((d : ℤ) - 1) : ℚ) = 2 ^ d := by
  have h2 : (2 : ℚ) ≠ 0 := by norm_num
  rw [zpow_sub₀ h2, zpow_natCast, zpow_one]
  field_simp

theorem scaled_turn (s : Symmetry) (d : Nat) (p : V3 ℚ) (i : Fin 3) :
    coord (axes3 ((s.point p).map fun v => (v + 1) * (2 ^ ((d : ℤ) - 1) : ℚ))) i =
      if s.mirror i then 2 ^ d - coord (axes3 (p.map fun v => (v + 1) * (2 ^ ((d : ℤ) - 1) : ℚ))) (s.source i)
      else coord (axes3 (p.map fun v => (v + 1) * (2 ^ ((d : ℤ) - 1) : ℚ))) (s.source i) := by
  rw [coord_scaled, coord_scaled, coord_point]
  split
  · rw [← scale_two d]; ring
  · rfl

theorem tent3_turn (s : Symmetry) (d : Nat) (p : V3 ℚ) (g : Int × Int × Int) :
    tent3 ((s.point p).map fun v => (v + 1) * (2 ^ ((d : ℤ) - 1) : ℚ)) (s.grid d g) =
      tent3 (p.map fun v => (v + 1) * (2 ^ ((d : ℤ) - 1) : ℚ)) g := by
  rw [tent3_prod, tent3_prod]
  rw [← Equiv.prod_comp s.source fun i => tent (coord (axes3 (p.map fun v => (v + 1) * (2 ^ ((d : ℤ) - 1) : ℚ))) i - (coord g i + 1 / 2))]
  refine Finset.prod_congr rfl fun i _ => ?_
  rw [scaled_turn]
  simp only [Symmetry.grid, coord_triple]
  split
  · rw [← tent_neg]
    congr 1
    push_cast
    ring
  · rfl

/-- The weighted sum over the eight corners is a sum over the whole grid. -/
theorem corners_sum (p : V3 ℚ) (G : Int × Int × Int → ℚ) : ((corners p).map fun g => tent3 p g * G g).sum = ∑ᶠ g, tent3 p g * G g := by
  rw [finsum_eq_sum_of_support_subset (s := (corners p).toFinset)]
  · rw [List.sum_toFinset _ (corners_nodup p)]
  · intro g hg
    rw [Function.mem_support] at hg
    simp only [List.coe_toFinset, Set.mem_setOf_eq]
    exact mem_corners_of_ne (left_ne_zero_of_mul hg)

theorem sum_filter_weight {α : Type} (l : List α) (q : α → Bool) (w : α → ℚ) :
    ((l.filter q).map w).sum = (l.map fun a => w a * if q a then 1 else 0).sum := by
  induction l with
  | nil => rfl
  | cons a l ih =>
    rw [List.filter_cons, List.map_cons, List.sum_cons, ← ih]
    cases q a <;> simp

theorem corners_turn (s : Symmetry) (d : Nat) (p : V3 ℚ) (G' G : Int × Int × Int → ℚ) (h : ∀ g, G' (s.grid d g) = G g) :
    ((corners ((s.point p).map fun v => (v + 1) * (2 ^ ((d : ℤ) - 1) : ℚ))).map fun g =>
        tent3 ((s.point p).map fun v => (v + 1) * (2 ^ ((d : ℤ) - 1) : ℚ)) g * G' g).sum =
      ((corners (p.map fun v => (v + 1) * (2 ^ ((d : ℤ) - 1) : ℚ))).map fun g => tent3 (p.map fun v => (v + 1) * (2 ^ ((d : ℤ) - 1) : ℚ)) g * G g).sum := by
  rw [corners_sum, corners_sum, ← finsum_comp (s.grid d) (grid_bijective s d)]
  refine finsum_congr fun g => ?_
  rw [tent3_turn, h]

theorem coord_torus (d b : Nat) (g : Int × Int × Int) (i : Fin 3) : coord (pos (torusCell d b g.1 g.2.1 g.2.2)) i = coord g i % 2 ^ d := by
  fin_cases i <;> exact wrap_toNat _ _

theorem torus_turn (s : Symmetry) (d b : Nat) (g : Int × Int × Int) :
    (s.motion d).Moves (torusCell d b g.1 g.2.1 g.2.2) (torusCell d b (s.grid d g).1 (s.grid d g).2.1 (s.grid d g).2.2) := by
  rw [motion_iff]
  refine ⟨rfl, fun i => ?_⟩
  rw [coord_torus, coord_torus]
  simp only [Symmetry.grid, coord_triple]
  split
  · have hpos : (0 : Int) < 2 ^ d := by positivity
    have h1 := Int.emod_nonneg (coord g (s.source i)) hpos.ne'
    have h2 := Int.emod_lt_of_pos (coord g (s.source i)) hpos
    rw [← Int.emod_eq_of_lt (a := 2 ^ d - 1 - coord g (s.source i) % 2 ^ d) (b := 2 ^ d) (by omega) (by omega)]
    rw [Int.sub_emod, Int.sub_emod (2 ^ d - 1) (coord g (s.source i) % 2 ^ d), Int.emod_emod]
  · rfl

/-- Which cell a coordinate in units of cells lies in. -/
theorem long_turn (s : Symmetry) {d D : Nat} (hd : d ≤ D) (p : V3 ℚ) (hp : InCube p) (ho : s.OffFaces D p) :
    let w := p.map fun v => (v + 1) * (2 ^ ((d : ℤ) - 1) : ℚ)
    let w' := (s.point p).map fun v => (v + 1) * (2 ^ ((d : ℤ) - 1) : ℚ)
    (long w'.x, long w'.y, long w'.z) = s.grid d (long w.x, long w.y, long w.z) := by
  intro w w'
  have key : ∀ (p : V3 ℚ) (i : Fin 3), coord (long p.x, long p.y, long p.z) i = long (coord (axes3 p) i) := by
    intro p i
    fin_cases i <;> rfl
  have hc : ∀ i, -1 ≤ coord (axes3 p) i ∧ coord (axes3 p) i < 1 := by
    intro i
    fin_cases i
    · exact hp.1
    · exact hp.2.1
    · exact hp.2.2
  have hz : (0 : ℚ) < 2 ^ ((d : ℤ) - 1) := zpow_pos (by norm_num) _
  have h2 := scale_two d
  refine coord_ext fun i => ?_
  rw [key]
  simp only [Symmetry.grid, coord_triple]
  rw [key]
  have e := scaled_turn s d p i
  have e : coord (axes3 w') i = if s.mirror i then 2 ^ d - coord (axes3 w) (s.source i) else coord (axes3 w) (s.source i) := e
  rw [e]
  split
  · rename_i hm
    have ew : coord (axes3 w) (s.source i) = (coord (axes3 p) (s.source i) + 1) * (2 ^ ((d : ℤ) - 1) : ℚ) := coord_scaled _ _ _
    obtain ⟨c1, c2⟩ := hc (s.source i)
    have hoff := offGrid_le hd (ho i hm)
    generalize coord (axes3 w) (s.source i) = a at *
    generalize coord (axes3 p) (s.source i) = v at *
    have a0 : 0 ≤ a := by rw [ew]; exact mul_nonneg (by linarith) hz.le
    have a1 : a ≤ 2 ^ d := by
      rw [ew, ← h2]
      have := mul_le_mul_of_nonneg_right (show v + 1 ≤ 2 by linarith) hz.le
      exact this
    rw [long_of_nonneg _ (by linarith), long_of_nonneg _ a0]
    have hne : (⌊a⌋ : ℚ) ≠ a := by
      intro hfl
      apply hoff ⌊a⌋
      rw [hfl, ew, ← h2]
      field_simp
      ring
    have f1 := Int.floor_le a
    have f2 := Int.lt_floor_add_one a
    have f3 := lt_of_le_of_ne f1 hne
    rw [Int.floor_eq_iff]
    push_cast
    constructor <;> linarith
  · rfl

namespace TurnedPair
variable {o o' : Octree F} {s : Symmetry} {D : Nat} {Q : Params}

theorem queries (p : TurnedPair o o' s D) (method : String) (qs : List (V3 ℚ × Nat)) (hb : ∀ q ∈ qs, q.2 < o.batchSize)
    (hi : method ≠ "linear" → ∀ q ∈ qs, InCube q.1 ∧ s.OffFaces D q.1) :
    QueriesBy method (turnedSys Q o o' s) o' o D ((qs.map fun q => (s.point q.1, q.2)).map row4) (qs.map row4)
      (sampleCells qs.length, sampleCells qs.length, reorder id) := by
  intro nempty d c hD x y h
  obtain ⟨u, v, rfl, rfl, hM, hn, hn', hm⟩ := h
  have hM : Moved (s.motion d) (qc o nempty d) v (qc o' nempty d) u := hM
  obtain ⟨f, hf⟩ := exists_field _ v hM.1 hn
  obtain ⟨f', hf'⟩ := exists_field _ u hM.2.1 hn'
  have hd := hD.2
  have w := p.valid
  have w' := p.valid'
  have Q1 := queried_qc w d hd nempty _ _ (w.wf'.cellsOf d hd) (w.wf'.children d hd)
  have Q' := queried_qc w' d hd nempty _ _ (w'.wf'.cellsOf d hd) (w'.wf'.children d hd)
  have hf0 : IsField (qc o nempty d) v f := hf
  have hf0' : IsField (qc o' nempty d) u f' := hf'
  have hf : IsField (qc o nempty d) v f := hf
  have hf' : IsField (qc o' nempty d) u f' := hf'
  rw [← Q1] at hf0
  rw [← Q'] at hf0'
  have hB := w.batch_le
  unfold interp octreeInterp interpFunc
  dsimp only
  rw [if_pos rfl, if_pos rfl, interp_pts, interp_pts]
  have hq : ∀ q ∈ (qs.map fun q : V3 ℚ × Nat => (q.1.map fun v => (v + 1) * (2 ^ ((d : ℤ) - 1) : ℚ), q.2)), q.2 < 2 ^ 15 := by
    intro q hqm
    obtain ⟨q', h1, rfl⟩ := List.mem_map.1 hqm
    have := hb q' h1
    show q'.2 < 2 ^ 15
    omega
  have hq' : ∀ q ∈ ((qs.map fun q => (s.point q.1, q.2)).map fun q : V3 ℚ × Nat => (q.1.map fun v => (v + 1) * (2 ^ ((d : ℤ) - 1) : ℚ), q.2)),
      q.2 < 2 ^ 15 := by
    intro q hqm
    obtain ⟨q', h1, rfl⟩ := List.mem_map.1 hqm
    obtain ⟨q'', h2, rfl⟩ := List.mem_map.1 h1
    have := hb q'' h2
    show q''.2 < 2 ^ 15
    omega
  have fin : ∀ (G' G : V3 ℚ × Nat → Fin c → ℚ),
      (∀ q ∈ qs, G' ((s.point q.1).map fun v => (v + 1) * (2 ^ ((d : ℤ) - 1) : ℚ), q.2) =
        G (q.1.map fun v => (v + 1) * (2 ^ ((d : ℤ) - 1) : ℚ), q.2)) →
      (turnedSys Q o o' s).R (sampleCells qs.length, sampleCells qs.length, reorder id) c
        ⟨c, ((qs.map fun q => (s.point q.1, q.2)).map fun q : V3 ℚ × Nat => (q.1.map fun v => (v + 1) * (2 ^ ((d : ℤ) - 1) : ℚ), q.2)).map G'⟩
        ⟨c, (qs.map fun q : V3 ℚ × Nat => (q.1.map fun v => (v + 1) * (2 ^ ((d : ℤ) - 1) : ℚ), q.2)).map G⟩ := by
    intro G' G hG
    refine ⟨_, _, rfl, rfl, ?_, sampleCells_nodup _, sampleCells_nodup _, reorder_legal id Function.injective_id⟩
    simp only [List.map_map]
    refine ⟨by simp [sampleCells], by simp [sampleCells], rfl, ?_⟩
    intro i c v hi hv
    refine ⟨i, c, hi, ⟨rfl, by simp [reorder]⟩, ?_⟩
    rw [← hv]
    simp only [List.getElem?_map]
    cases hqi : qs[i]? with
    | none => rfl
    | some q =>
      simp only [Option.map_some, Function.comp]
      rw [← hG q (List.mem_of_getElem? hqi)]
  by_cases hmth : method = "linear"
  · rw [if_pos hmth, if_pos hmth,
      C53_linear o' D w' d hd _ _ (w'.wf'.cellsOf d hd) (w'.wf'.children d hd) nempty false _ f' hf0' _ hq',
      C53_linear o D w d hd _ _ (w.wf'.cellsOf d hd) (w.wf'.children d hd) nempty false _ f hf0 _ hq]
    refine Both.pure (fin _ _ fun q hqm => ?_)
    funext k
    dsimp only
    rw [Q1, Q', sum_filter_weight, sum_filter_weight]
    have hval : ∀ g : Int × Int × Int, valueAt false d q.2 f' (s.grid d g) k = valueAt false d q.2 f g k := by
      intro g
      have := fieldAt_eq hM hn hn' hf hf' (torus_turn s d q.2 g)
      unfold valueAt lookup
      simp only [Bool.false_eq_true, false_and, if_false]
      exact congrFun this k
    have hfd : ∀ g : Int × Int × Int, found (qc o' nempty d) false d q.2 (s.grid d g) = found (qc o nempty d) false d q.2 g := by
      intro g
      unfold found lookup
      simp only [Bool.false_eq_true, false_and, if_false]
      exact decide_eq_decide.2 (p.back nempty hd (torus_turn s d q.2 g)).symm
    rw [corners_turn s d q.1 (fun g => valueAt false d q.2 f' g k) (fun g => valueAt false d q.2 f g k) hval,
      corners_turn s d q.1 (fun g => if found (qc o' nempty d) false d q.2 g then 1 else 0)
        (fun g => if found (qc o nempty d) false d q.2 g then 1 else 0) (fun g => by rw [hfd])]
  · rw [if_neg hmth, if_neg hmth,
      nearest_main o' D w' d hd _ _ (w'.wf'.cellsOf d hd) (w'.wf'.children d hd) nempty false _ f' hf0' _ hq',
      nearest_main o D w d hd _ _ (w.wf'.cellsOf d hd) (w.wf'.children d hd) nempty false _ f hf0 _ hq]
    refine Both.pure (fin _ _ fun q hqm => ?_)
    obtain ⟨h1, h2⟩ := hi hmth q hqm
    simp only [Bool.false_eq_true, false_and, if_false]
    have hl := long_turn s hd q.1 h1 h2
    have ht := torus_turn s d q.2 (long (q.1.map fun v => (v + 1) * (2 ^ ((d : ℤ) - 1) : ℚ)).x,
      long (q.1.map fun v => (v + 1) * (2 ^ ((d : ℤ) - 1) : ℚ)).y, long (q.1.map fun v => (v + 1) * (2 ^ ((d : ℤ) - 1) : ℚ)).z)
    dsimp only at hl
    rw [← hl] at ht
    exact fieldAt_eq hM hn hn' hf hf' ht

end TurnedPair

end Ocnn
