import Verif.PropsInterp

/-! Properties C53 and C54: linear interpolation. -/

set_option linter.unusedSimpArgs false

namespace Ocnn
open Spec

variable {F V : Type}

/-! ### specification -/

/-- The hat function. -/
def Spec.tent (t : ℚ) : ℚ := max 0 (1 - |t|)

/-- The weight of the cell with integer coordinates `g`, whose centre is `g + 1/2`, at the point `p`. -/
def Spec.tent3 (p : V3 ℚ) (g : Int × Int × Int) : ℚ :=
  tent (p.x - (g.1 + 1 / 2)) * tent (p.y - (g.2.1 + 1 / 2)) * tent (p.z - (g.2.2 + 1 / 2))

/-- The eight cells whose centres are the corners of the unit cube around `p`. -/
def Spec.corners (p : V3 ℚ) : List (Int × Int × Int) :=
  [(0, 0, 0), (0, 0, 1), (0, 1, 0), (0, 1, 1), (1, 0, 0), (1, 0, 1), (1, 1, 0), (1, 1, 1)].map fun e =>
    (⌊p.x - 1 / 2⌋ + e.1, ⌊p.y - 1 / 2⌋ + e.2.1, ⌊p.z - 1 / 2⌋ + e.2.2)

/-- Integer coordinates inside the cube. -/
def Spec.InGrid (d : Nat) (g : Int × Int × Int) : Prop :=
  (0 ≤ g.1 ∧ g.1 < 2 ^ d) ∧ (0 ≤ g.2.1 ∧ g.2.1 < 2 ^ d) ∧ (0 ≤ g.2.2 ∧ g.2.2 < 2 ^ d)

instance (d : Nat) (g : Int × Int × Int) : Decidable (InGrid d g) := by unfold InGrid; infer_instance

/-- The cell of sample `b` looked up for integer coordinates: none outside the cube with `bound_check`, otherwise modulo `2^d`. -/
def Spec.lookup (bc : Bool) (d b : Nat) (g : Int × Int × Int) : Option Cell :=
  if bc = true ∧ ¬ InGrid d g then none
  else some ⟨b, (g.1 % 2 ^ d).toNat, (g.2.1 % 2 ^ d).toNat, (g.2.2 % 2 ^ d).toNat⟩

/-- The value of the field at the cell looked up, 0 if there is none. -/
def Spec.valueAt [Zero V] (bc : Bool) (d b : Nat) (f : Nat → Int → Int → Int → V) (g : Int × Int × Int) : V :=
  match lookup bc d b g with
  | some c => fieldAt f c
  | none => 0

/-- The cell looked up is a node. -/
def Spec.found (Q : List Cell) (bc : Bool) (d b : Nat) (g : Int × Int × Int) : Bool :=
  match lookup bc d b g with
  | some c => decide (c ∈ Q)
  | none => false

/-! ### the weights -/

theorem tent_corner (v : ℚ) : tent (v - (((⌊v - 1 / 2⌋ + 0 : ℤ) : ℚ) + 1 / 2)) = |1 - 0 - (v - 1 / 2 - ((⌊v - 1 / 2⌋ : ℤ) : ℚ))| ∧
    tent (v - (((⌊v - 1 / 2⌋ + 1 : ℤ) : ℚ) + 1 / 2)) = |1 - 1 - (v - 1 / 2 - ((⌊v - 1 / 2⌋ : ℤ) : ℚ))| := by
  have h1 := Int.floor_le (v - 1 / 2)
  have h2 := Int.lt_floor_add_one (v - 1 / 2)
  generalize ((⌊v - 1 / 2⌋ : ℤ)) = n at *
  unfold tent
  push_cast
  constructor
  · rw [abs_of_nonneg (show (0 : ℚ) ≤ v - (n + 0 + 1 / 2) by linarith), abs_of_nonneg (show (0 : ℚ) ≤ 1 - 0 - (v - 1 / 2 - n) by linarith),
      max_eq_right (by linarith)]
    ring
  · rw [abs_of_nonpos (show v - (n + 1 + 1 / 2) ≤ (0 : ℚ) by linarith), abs_of_nonpos (show (1 : ℚ) - 1 - (v - 1 / 2 - n) ≤ 0 by linarith),
      max_eq_right (by linarith)]
    ring

theorem tent_sum (v : ℚ) : tent (v - (((⌊v - 1 / 2⌋ + 0 : ℤ) : ℚ) + 1 / 2)) + tent (v - (((⌊v - 1 / 2⌋ + 1 : ℤ) : ℚ) + 1 / 2)) = 1 := by
  obtain ⟨h3, h4⟩ := tent_corner v
  rw [h3, h4]
  have h1 := Int.floor_le (v - 1 / 2)
  have h2 := Int.lt_floor_add_one (v - 1 / 2)
  generalize ((⌊v - 1 / 2⌋ : ℤ)) = n at *
  rw [abs_of_nonneg (show (0 : ℚ) ≤ 1 - 0 - (v - 1 / 2 - n) by linarith), abs_of_nonpos (show (1 : ℚ) - 1 - (v - 1 / 2 - n) ≤ 0 by linarith)]
  ring

theorem tent_nonneg (t : ℚ) : 0 ≤ tent t := le_max_left _ _

theorem tent3_nonneg (p : V3 ℚ) (g : Int × Int × Int) : 0 ≤ tent3 p g :=
  mul_nonneg (mul_nonneg (tent_nonneg _) (tent_nonneg _)) (tent_nonneg _)

theorem linWeights_eq (p : V3 ℚ) : linWeights p = (corners p).map (tent3 p) := by
  obtain ⟨x0, x1⟩ := tent_corner p.x
  obtain ⟨y0, y1⟩ := tent_corner p.y
  obtain ⟨z0, z1⟩ := tent_corner p.z
  simp only [linWeights, grid, corners, tent3, List.map_cons, List.map_nil, linFrac, V3.map, abs_mul, x0, x1, y0, y1, z0, z1]

theorem linCorners_eq (p : V3 ℚ) : linCorners p = (corners p).map fun g => ⟨(g.1 : ℚ), (g.2.1 : ℚ), (g.2.2 : ℚ)⟩ := by
  simp [linCorners, grid, corners, linInt, V3.map]

/-- **C53, the weights.** The weights of the eight corners are non-negative and add up to 1. -/
theorem C53_weights (p : V3 ℚ) : (∀ g ∈ corners p, 0 ≤ tent3 p g) ∧ ((corners p).map (tent3 p)).sum = 1 := by
  refine ⟨fun g _ => tent3_nonneg p g, ?_⟩
  have hx := tent_sum p.x
  have hy := tent_sum p.y
  have hz := tent_sum p.z
  simp only [corners, tent3, List.map_cons, List.map_nil, List.sum_cons, List.sum_nil]
  generalize tent (p.x - (((⌊p.x - 1 / 2⌋ + 0 : ℤ) : ℚ) + 1 / 2)) = x0 at *
  generalize tent (p.y - (((⌊p.y - 1 / 2⌋ + 0 : ℤ) : ℚ) + 1 / 2)) = y0 at *
  generalize tent (p.z - (((⌊p.z - 1 / 2⌋ + 0 : ℤ) : ℚ) + 1 / 2)) = z0 at *
  generalize tent (p.x - (((⌊p.x - 1 / 2⌋ + 1 : ℤ) : ℚ) + 1 / 2)) = x1 at *
  generalize tent (p.y - (((⌊p.y - 1 / 2⌋ + 1 : ℤ) : ℚ) + 1 / 2)) = y1 at *
  generalize tent (p.z - (((⌊p.z - 1 / 2⌋ + 1 : ℤ) : ℚ) + 1 / 2)) = z1 at *
  have : (x0 + x1) * (y0 + y1) * (z0 + z1) = 1 := by rw [hx, hy, hz]; norm_num
  linarith

/-! ### the result -/

/-- One entry per point and corner: number of the point, sample, corner, weight. -/
def linEntries (qs : List (V3 ℚ × Nat)) (n : Nat) : List (Nat × Nat × (Int × Int × Int) × ℚ) :=
  (qs.zipIdx n).flatMap fun q => (corners q.1.1).map fun g => (q.2, q.1.2, g, tent3 q.1.1 g)

theorem linEntries_cons (q : V3 ℚ × Nat) (qs : List (V3 ℚ × Nat)) (n : Nat) :
    linEntries (q :: qs) n = ((corners q.1).map fun g => (n, q.2, g, tent3 q.1 g)) ++ linEntries qs (n + 1) := by
  simp [linEntries, List.zipIdx_cons]

theorem corners_length (p : V3 ℚ) : (corners p).length = 8 := by simp [corners]

theorem entries_xyzn (qs : List (V3 ℚ × Nat)) (n : Nat) : (qs.map row4).flatMap (fun p => linCorners p.1)
    = (linEntries qs n).map fun e => ⟨(e.2.2.1.1 : ℚ), (e.2.2.1.2.1 : ℚ), (e.2.2.1.2.2 : ℚ)⟩ := by
  induction qs generalizing n with
  | nil => rfl
  | cons q qs ih =>
    rw [linEntries_cons, List.map_append, List.map_cons, List.flatMap_cons, ← ih (n + 1), row4, linCorners_eq, List.map_map]
    rfl

theorem entries_batch (qs : List (V3 ℚ × Nat)) (n : Nat) : (qs.map row4).flatMap (fun p => List.replicate 8 p.2)
    = (linEntries qs n).map fun e => (e.2.1 : ℚ) := by
  induction qs generalizing n with
  | nil => rfl
  | cons q qs ih =>
    rw [linEntries_cons, List.map_append, List.map_cons, List.flatMap_cons, ← ih (n + 1), row4, List.map_map]
    congr 1

theorem entries_weight (qs : List (V3 ℚ × Nat)) (n : Nat) : (qs.map row4).flatMap (fun p => linWeights p.1)
    = (linEntries qs n).map fun e => e.2.2.2 := by
  induction qs generalizing n with
  | nil => rfl
  | cons q qs ih =>
    rw [linEntries_cons, List.map_append, List.map_cons, List.flatMap_cons, ← ih (n + 1), row4, linWeights_eq, List.map_map]
    rfl

theorem entries_ids (qs : List (V3 ℚ × Nat)) (n : Nat) : (List.range' n qs.length).flatMap (fun i => List.replicate 8 i)
    = (linEntries qs n).map fun e => e.1 := by
  induction qs generalizing n with
  | nil => rfl
  | cons q qs ih =>
    rw [linEntries_cons, List.map_append, List.length_cons, List.range'_succ, List.flatMap_cons, ih (n + 1), List.map_map]
    congr 1

theorem entries_filter (qs : List (V3 ℚ × Nat)) (n i : Nat) (p : V3 ℚ) (b : Nat) (h : qs[i]? = some (p, b)) :
    ((linEntries qs n).filter fun e => decide (e.1 = n + i)) = (corners p).map fun g => (n + i, b, g, tent3 p g) := by
  have hbig : ∀ (qs : List (V3 ℚ × Nat)) (n m : Nat), m < n → ((linEntries qs n).filter fun e => decide (e.1 = m)) = [] := by
    intro qs
    induction qs with
    | nil => intro n m _; rfl
    | cons q qs ih =>
      intro n m hm
      rw [linEntries_cons, List.filter_append, ih (n + 1) m (by omega), List.append_nil, List.filter_eq_nil_iff]
      intro e he
      obtain ⟨g, -, rfl⟩ := List.mem_map.1 he
      simp
      omega
  induction qs generalizing n i with
  | nil => simp at h
  | cons q qs ih =>
    rw [linEntries_cons, List.filter_append]
    cases i with
    | zero =>
      simp only [List.getElem?_cons_zero, Option.some.injEq] at h
      subst h
      rw [hbig qs (n + 1) (n + 0) (by omega), List.append_nil, List.filter_eq_self.2]
      · rfl
      · intro e he
        obtain ⟨g, -, rfl⟩ := List.mem_map.1 he
        simp
    | succ i =>
      rw [List.getElem?_cons_succ] at h
      have := ih (n + 1) i h
      rw [show n + (i + 1) = n + 1 + i by omega, this]
      rw [List.filter_eq_nil_iff.2, List.nil_append]
      intro e he
      obtain ⟨g, -, rfl⟩ := List.mem_map.1 he
      simp
      omega

theorem entries_mem (qs : List (V3 ℚ × Nat)) (n : Nat) (e : Nat × Nat × (Int × Int × Int) × ℚ) (h : e ∈ linEntries qs n) :
    n ≤ e.1 ∧ e.1 < n + qs.length ∧ ∃ q ∈ qs, e.2.1 = q.2 := by
  induction qs generalizing n with
  | nil => simp [linEntries] at h
  | cons q qs ih =>
    rw [linEntries_cons, List.mem_append] at h
    rcases h with h | h
    · obtain ⟨g, -, rfl⟩ := List.mem_map.1 h
      refine ⟨le_refl _, by simp, q, List.mem_cons_self, rfl⟩
    · obtain ⟨h1, h2, q', h3, h4⟩ := ih (n + 1) h
      refine ⟨by omega, by rw [List.length_cons]; omega, q', List.mem_cons_of_mem _ h3, h4⟩

theorem inBound_cast (d : Nat) (g : Int × Int × Int) : inBound d ⟨(g.1 : ℚ), (g.2.1 : ℚ), (g.2.2 : ℚ)⟩ = decide (InGrid d g) := by
  unfold inBound
  rw [decide_eq_decide]
  unfold InGrid
  have h : ∀ v : Int, ((0 : ℚ) ≤ v ↔ 0 ≤ v) ∧ ((v : ℚ) < 2 ^ d ↔ v < 2 ^ d) := by
    intro v
    constructor
    · exact_mod_cast Iff.rfl
    · exact_mod_cast Iff.rfl
  simp only [(h g.1).1, (h g.2.1).1, (h g.2.2).1, (h g.1).2, (h g.2.1).2, (h g.2.2).2]
  tauto

theorem sum_filter_ite {α : Type} (l : List α) (p : α → Bool) (t s : α → ℚ) (h1 : ∀ a ∈ l, p a = true → t a = s a)
    (h2 : ∀ a ∈ l, p a = false → s a = 0) : ((l.filter p).map t).sum = (l.map s).sum := by
  induction l with
  | nil => rfl
  | cons a l ih =>
    have ih := ih (fun a ha => h1 a (List.mem_cons_of_mem _ ha)) (fun a ha => h2 a (List.mem_cons_of_mem _ ha))
    rw [List.filter_cons]
    cases hp : p a
    · simp [ih, h2 a List.mem_cons_self hp]
    · simp [ih, h1 a List.mem_cons_self hp]

theorem row_sum (E : List (Nat × Nat × (Int × Int × Int) × ℚ)) (vm : Nat → Int × Int × Int → Bool) (idx : Nat → Int × Int × Int → Int)
    (val : Int → ℚ) (i b : Nat) (p : V3 ℚ) (hE : (E.filter fun e => decide (e.1 = i)) = (corners p).map fun g => (i, b, g, tent3 p g)) :
    (((((E.filter fun e => vm e.2.1 e.2.2.1).map fun e => ((e.1, idx e.2.1 e.2.2.1), e.2.2.2)).filter fun e => decide (e.1.1 = i)).map
      fun e => e.2 * val e.1.2).sum)
      = (((corners p).filter (vm b)).map fun g => tent3 p g * val (idx b g)).sum := by
  rw [List.filter_map, List.map_map]
  have e1 : List.filter ((fun e : (Nat × Int) × ℚ => decide (e.1.1 = i)) ∘ fun e => ((e.1, idx e.2.1 e.2.2.1), e.2.2.2)) (E.filter fun e => vm e.2.1 e.2.2.1)
      = (E.filter fun e => decide (e.1 = i)).filter fun e => vm e.2.1 e.2.2.1 := by
    rw [List.filter_filter, List.filter_filter]
    apply List.filter_congr
    intro e _
    simp [Bool.and_comm]
  rw [e1, hE, List.filter_map, List.map_map]
  rfl

/-- **C53, the value.** At every point the result is the weighted sum of the features of the corners that are nodes, divided by their total
weight plus `1e-12`. -/
theorem C53_linear {C : Nat} (o : Octree F) (h : Nat) (w : o.Valid h) (d : Nat) (hd : d ≤ h) (cells : List Cell) (ch : List Int)
    (hc : CellsOf o.batchSize d o.keys cells) (hch : o.children d = some ch) (nempty bc : Bool) (x : List (Fin C → ℚ))
    (f : Nat → Int → Int → Int → Fin C → ℚ) (hf : IsField (queried nempty cells ch) x f) (qs : List (V3 ℚ × Nat)) (hq : ∀ q ∈ qs, q.2 < 2 ^ 15) :
    octreeLinearPts x o d (qs.map row4) nempty bc = .ok (qs.map fun q => fun k =>
      ((corners q.1).map fun g => tent3 q.1 g * valueAt bc d q.2 f g k).sum /
      ((((corners q.1).filter (found (queried nempty cells ch) bc d q.2)).map (tent3 q.1)).sum + 1 / 10 ^ 12)) := by
  obtain ⟨loc, h1, h2⟩ := search_loc o h w d hd cells ch hc hch nempty
  have hn := nnumOf_ok o h w d hd cells ch hc hch nempty
  revert hf h2 hn
  generalize queried nempty cells ch = Q
  intro hf h2 hn
  have hloc := fun b (g : Int × Int × Int) (hb : b < 2 ^ 15) => field_at_loc hf
    (h2 (torusCell d b g.1 g.2.1 g.2.2) (torusCell_inRange _ _ _ _ _ hb))
  have hE := entries_mem qs 0
  have hEb : ∀ e ∈ linEntries qs 0, e.2.1 < 2 ^ 15 := by
    intro e he
    obtain ⟨-, -, q, hqm, hqe⟩ := hE e he
    rw [hqe]
    exact hq q hqm
  have hs : searchPts o (((linEntries qs 0).map fun e => (⟨(e.2.2.1.1 : ℚ), (e.2.2.1.2.1 : ℚ), (e.2.2.1.2.2 : ℚ)⟩ : V3 ℚ)).zip
      ((linEntries qs 0).map fun e => (e.2.1 : ℚ))) d nempty
      = .ok ((linEntries qs 0).map fun e => loc (torusCell d e.2.1 e.2.2.1.1 e.2.2.1.2.1 e.2.2.1.2.2)) := by
    have := h1 ((linEntries qs 0).map fun e => (e.2.2.1.1, e.2.2.1.2.1, e.2.2.1.2.2, e.2.1)) (by
      intro q hqm
      obtain ⟨e, he, rfl⟩ := List.mem_map.1 hqm
      exact hEb e he)
    simp only [List.map_map, Function.comp_def] at this
    unfold searchPts
    rw [← this, List.zip_map', List.map_map]
    simp only [Function.comp_def, long_nat, long_int]
  have hfound : ∀ b g, b < 2 ^ 15 → (decide (loc (torusCell d b g.1 g.2.1 g.2.2) > -1) && (!bc || decide (InGrid d g))) = found Q bc d b g := by
    intro b g hb
    have e0 : torusCell d b g.1 g.2.1 g.2.2 = ⟨b, (g.1 % 2 ^ d).toNat, (g.2.1 % 2 ^ d).toNat, (g.2.2 % 2 ^ d).toNat⟩ := rfl
    unfold found lookup
    rw [← e0]
    by_cases hbc : bc = true ∧ ¬ InGrid d g
    · rw [if_pos hbc]
      simp [hbc.1, hbc.2]
    · rw [if_neg hbc]
      have : (!bc || decide (InGrid d g)) = true := by
        cases bc <;> simp_all
      rw [this, Bool.and_true]
      show _ = decide (torusCell d b g.1 g.2.1 g.2.2 ∈ Q)
      rw [decide_eq_decide]
      rcases hloc b g hb with ⟨a1, a2, -⟩ | ⟨a1, a2, -⟩
      · exact ⟨fun _ => a2, fun _ => a1⟩
      · exact ⟨fun h => absurd h a1, fun h => absurd h a2⟩
  have hfilt : (linEntries qs 0).filter (fun e => decide (loc (torusCell d e.2.1 e.2.2.1.1 e.2.2.1.2.1 e.2.2.1.2.2) > -1) &&
      (!bc || inBound d ⟨(e.2.2.1.1 : ℚ), (e.2.2.1.2.1 : ℚ), (e.2.2.1.2.2 : ℚ)⟩)) = (linEntries qs 0).filter fun e => found Q bc d e.2.1 e.2.2.1 := by
    apply List.filter_congr
    intro e he
    rw [inBound_cast, hfound _ _ (hEb e he)]
  have hval : ∀ b g, b < 2 ^ 15 → found Q bc d b g = true →
      loc (torusCell d b g.1 g.2.1 g.2.2) > -1 ∧ loc (torusCell d b g.1 g.2.1 g.2.2) < x.length ∧
      x[(loc (torusCell d b g.1 g.2.1 g.2.2)).toNat]? = some (valueAt bc d b f g) := by
    intro b g hb hfd
    have e0 : torusCell d b g.1 g.2.1 g.2.2 = ⟨b, (g.1 % 2 ^ d).toNat, (g.2.1 % 2 ^ d).toNat, (g.2.2 % 2 ^ d).toNat⟩ := rfl
    unfold found lookup at hfd
    unfold valueAt lookup
    rw [← e0] at hfd ⊢
    by_cases hbc : bc = true ∧ ¬ InGrid d g
    · rw [if_pos hbc] at hfd; simp at hfd
    · rw [if_neg hbc] at hfd ⊢
      simp only [decide_eq_true_eq] at hfd
      rcases hloc b g hb with ⟨a1, a2, a3, a4⟩ | ⟨a1, a2, -⟩
      · exact ⟨a1, a3, a4⟩
      · exact absurd hfd a2
  have hval0 : ∀ b g, b < 2 ^ 15 → found Q bc d b g = false → valueAt bc d b f g = 0 := by
    intro b g hb hfd
    have e0 : torusCell d b g.1 g.2.1 g.2.2 = ⟨b, (g.1 % 2 ^ d).toNat, (g.2.1 % 2 ^ d).toNat, (g.2.2 % 2 ^ d).toNat⟩ := rfl
    unfold found lookup at hfd
    unfold valueAt lookup
    rw [← e0] at hfd ⊢
    by_cases hbc : bc = true ∧ ¬ InGrid d g
    · rw [if_pos hbc]
    · rw [if_neg hbc] at hfd ⊢
      simp only [decide_eq_false_iff_not] at hfd
      rcases hloc b g hb with ⟨a1, a2, a3, a4⟩ | ⟨a1, a2, a3⟩
      · exact absurd a2 hfd
      · exact a3
  unfold octreeLinearPts
  simp only [hn, bind, Except.bind, pyAssert, hf.1.symm, if_true]
  rw [entries_xyzn qs 0, entries_batch qs 0, hs, entries_weight qs 0, List.length_map, List.range_eq_range', entries_ids qs 0]
  simp only []
  rw [validMask_map]
  unfold boolIndex
  simp only [List.length_map, if_true, maskSel_map_map, hfilt, List.zip_map']
  have hass : ∀ n : Nat, n = x.length → ∀ e ∈ ((linEntries qs 0).filter fun e => found Q bc d e.2.1 e.2.2.1).map (fun e =>
      ((e.1, loc (torusCell d e.2.1 e.2.2.1.1 e.2.2.1.2.1 e.2.2.1.2.2)), e.2.2.2)), e.1.1 < qs.length ∧ 0 ≤ e.1.2 ∧ e.1.2 < (n : Int) := by
    intro n hnx e he
    obtain ⟨e', he', rfl⟩ := List.mem_map.1 he
    obtain ⟨hm, hfd⟩ := List.mem_filter.1 he'
    obtain ⟨-, b2, -⟩ := hE e' hm
    obtain ⟨b3, b4, -⟩ := hval _ _ (hEb e' hm) hfd
    exact ⟨by simpa using b2, by show 0 ≤ loc _; omega, by rw [hnx]; exact b4⟩
  unfold sparseMM
  simp only [pyAssert, bind, Except.bind]
  rw [if_pos (hass _ rfl)]
  simp only [pure, Except.pure]
  rw [if_pos (hass _ (by simp [hf.1]))]
  simp only [zipWith_map_same]
  congr 1
  apply List.ext_getElem?
  intro i
  rw [List.getElem?_map, List.getElem?_map]
  by_cases hi : i < qs.length
  · rw [List.getElem?_range hi, List.getElem?_eq_getElem hi]
    simp only [Option.map_some, Option.some.injEq]
    have hfi := entries_filter qs 0 i qs[i].1 qs[i].2 (List.getElem?_eq_getElem hi)
    rw [Nat.zero_add] at hfi
    have hb := hq qs[i] (List.getElem_mem hi)
    have R := fun val : Int → ℚ => row_sum (linEntries qs 0) (fun b g => found Q bc d b g) (fun b g => loc (torusCell d b g.1 g.2.1 g.2.2)) val i
      qs[i].2 qs[i].1 hfi
    funext k
    have R1 := R (fun j => ((x[j.toNat]?).getD 0) k)
    have R2 := R (fun j => (((List.replicate x.length (fun _ : Fin 1 => (1 : ℚ)))[j.toNat]?).getD 0) 0)
    simp only [Nat.one_mul, Nat.zero_add, hf.1] at R1 R2 ⊢
    rw [R1, R2]
    congr 1
    · apply sum_filter_ite
      · intro g _ hfd
        rw [(hval _ _ hb hfd).2.2]
        rfl
      · intro g _ hfd
        rw [hval0 _ _ hb hfd]
        simp
    · congr 2
      apply List.map_congr_left
      intro g hg
      obtain ⟨-, hfd⟩ := List.mem_filter.1 hg
      obtain ⟨b1, b2, -⟩ := hval _ _ hb hfd
      rw [List.getElem?_replicate, if_pos (by omega)]
      simp
  · rw [List.getElem?_eq_none (by simp; omega), List.getElem?_eq_none (by omega)]
    rfl

/-- **C53, no corner.** A point none of whose corners is a node gets 0. -/
theorem C53_none {C : Nat} (o : Octree F) (h : Nat) (w : o.Valid h) (d : Nat) (hd : d ≤ h) (cells : List Cell) (ch : List Int)
    (hc : CellsOf o.batchSize d o.keys cells) (hch : o.children d = some ch) (nempty bc : Bool) (x : List (Fin C → ℚ))
    (hx : x.length = (queried nempty cells ch).length) (qs : List (V3 ℚ × Nat)) (hq : ∀ q ∈ qs, q.2 < 2 ^ 15) :
    ∃ out, octreeLinearPts x o d (qs.map row4) nempty bc = .ok out ∧ out.length = qs.length ∧
      ∀ (i : Nat) (p : V3 ℚ) (b : Nat) (v : Fin C → ℚ), qs[i]? = some (p, b) → out[i]? = some v →
        (∀ g ∈ corners p, ∀ c, lookup bc d b g = some c → c ∉ queried nempty cells ch) → v = 0 := by
  have hnd := nodes_nodup o h w d hd nempty 1 _ _ (.one d cells ch hc hch)
  obtain ⟨f, hf⟩ := exists_field _ x hx.symm hnd
  refine ⟨_, C53_linear o h w d hd cells ch hc hch nempty bc x f hf qs hq, by simp, ?_⟩
  intro i p b v hi hv hno
  rw [List.getElem?_map, hi] at hv
  simp only [Option.map_some, Option.some.injEq] at hv
  subst hv
  funext k
  have : ((corners p).map fun g => tent3 p g * valueAt bc d b f g k).sum = 0 := by
    apply List.sum_eq_zero
    intro t ht
    obtain ⟨g, hg, rfl⟩ := List.mem_map.1 ht
    have h0 : valueAt bc d b f g = 0 := by
      unfold valueAt
      cases hl : lookup bc d b g with
      | none => rfl
      | some c =>
        apply hf.2.2
        rintro c' hc' ⟨e1, e2, e3, e4⟩
        apply hno g hg c hl
        have : c' = c := by
          cases c; cases c'
          simp only [Int.natCast_inj] at *
          simp_all
        exact this ▸ hc'
    rw [h0]
    simp
  show _ / _ = (0 : ℚ)
  rw [this, zero_div]

/-- The centre of a cell. -/
def Spec.centre (c : Cell) : V3 ℚ := ⟨(c.x : ℚ) + 1 / 2, (c.y : ℚ) + 1 / 2, (c.z : ℚ) + 1 / 2⟩

/-- **C53, node centres.** At the centre of a node the result is the feature of the node divided by `1 + 1e-12`. -/
theorem C53_centre {C : Nat} (o : Octree F) (h : Nat) (w : o.Valid h) (d : Nat) (hd : d ≤ h) (cells : List Cell) (ch : List Int)
    (hc : CellsOf o.batchSize d o.keys cells) (hch : o.children d = some ch) (nempty bc : Bool) (x : List (Fin C → ℚ))
    (hx : x.length = (queried nempty cells ch).length) :
    octreeLinearPts x o d ((queried nempty cells ch).map fun c => row4 (centre c, c.b)) nempty bc
      = .ok (x.map fun v => fun k => v k / (1 + 1 / 10 ^ 12)) := by
  have hnd := nodes_nodup o h w d hd nempty 1 _ _ (.one d cells ch hc hch)
  obtain ⟨f, hf⟩ := exists_field _ x hx.symm hnd
  obtain ⟨hr, -⟩ := C27_xyzb o h w d hd cells hc ch hch nempty
  have hB := w.batch_le
  have := C53_linear o h w d hd cells ch hc hch nempty bc x f hf ((queried nempty cells ch).map fun c => (centre c, c.b)) (by
    intro q hq
    obtain ⟨c, hcm, rfl⟩ := List.mem_map.1 hq
    have := (hr c hcm).1
    show c.b < 2 ^ 15
    omega)
  rw [List.map_map] at this
  simp only [Function.comp_def] at this
  rw [this, field_map hf, List.map_map, List.map_map]
  congr 1
  apply List.map_congr_left
  intro c hcm
  simp only [Function.comp_def]
  funext k
  obtain ⟨-, h1, h2, h3⟩ := hr c hcm
  have hin : InGrid d ((c.x : Int), (c.y : Int), (c.z : Int)) :=
    ⟨⟨by simp, by dsimp only; exact_mod_cast h1⟩, ⟨by simp, by dsimp only; exact_mod_cast h2⟩, ⟨by simp, by dsimp only; exact_mod_cast h3⟩⟩
  have hl : lookup bc d c.b ((c.x : Int), (c.y : Int), (c.z : Int)) = some c := by
    unfold lookup
    rw [if_neg (fun e => e.2 hin)]
    congr 1
    have m : ∀ v : Nat, v < 2 ^ d → ((v : Int) % 2 ^ d).toNat = v := by
      intro v hv
      rw [Int.emod_eq_of_lt (by omega) (by exact_mod_cast hv)]
      simp
    simp only [m _ h1, m _ h2, m _ h3]
  have t0 : tent 0 = 1 := by unfold tent; norm_num
  have t1 : ∀ n : Nat, tent ((n : ℚ) + 1 / 2 - ((n : ℚ) + 1 + 1 / 2)) = 0 := by
    intro n
    unfold tent
    rw [show (n : ℚ) + 1 / 2 - ((n : ℚ) + 1 + 1 / 2) = -1 by ring]
    norm_num
  have hfl : ∀ n : Nat, ⌊(n : ℚ) + 1 / 2 - 1 / 2⌋ = (n : Int) := by
    intro n
    rw [show (n : ℚ) + 1 / 2 - 1 / 2 = ((n : Int) : ℚ) by push_cast; ring]
    exact Int.floor_intCast _
  have hw : ∀ g ∈ (corners (centre c)).tail, tent3 (centre c) g = 0 := by
    intro g hg
    simp only [corners, centre, List.map_cons, List.map_nil, List.tail_cons, hfl, List.mem_cons, List.not_mem_nil, or_false] at hg
    rcases hg with rfl | rfl | rfl | rfl | rfl | rfl | rfl <;>
      simp only [tent3, centre, Int.cast_add, Int.cast_natCast, Int.cast_one, t1, mul_zero, zero_mul]
  have hh : corners (centre c) = ((c.x : Int), (c.y : Int), (c.z : Int)) :: (corners (centre c)).tail := by
    simp [corners, centre, hfl]
  have hw0 : tent3 (centre c) ((c.x : Int), (c.y : Int), (c.z : Int)) = 1 := by
    simp [tent3, centre, t0]
  rw [hh, List.map_cons, List.sum_cons, List.filter_cons]
  have hfd : found (queried nempty cells ch) bc d c.b ((c.x : Int), (c.y : Int), (c.z : Int)) = true := by
    unfold found
    rw [hl]
    simpa using hcm
  rw [if_pos hfd, List.map_cons, List.sum_cons, hw0]
  rw [List.sum_eq_zero (l := List.map _ (corners (centre c)).tail), List.sum_eq_zero (l := List.map _ (List.filter _ _))]
  · rw [one_mul, add_zero, add_zero, valueAt, hl]
  · intro t ht
    obtain ⟨g, hg, rfl⟩ := List.mem_map.1 ht
    exact hw g (List.mem_filter.1 hg).1
  · intro t ht
    obtain ⟨g, hg, rfl⟩ := List.mem_map.1 ht
    rw [hw g hg, zero_mul]

/-! ### locality -/

/-- The integer coordinates of a cell. -/
def Spec.coords (c : Cell) : Int × Int × Int := ((c.x : Int), (c.y : Int), (c.z : Int))

/-- The point is at least half a cell away from the boundary of the cube. -/
def Spec.Interior (d : Nat) (p : V3 ℚ) : Prop :=
  (1 / 2 ≤ p.x ∧ p.x ≤ 2 ^ d - 1 / 2) ∧ (1 / 2 ≤ p.y ∧ p.y ≤ 2 ^ d - 1 / 2) ∧ (1 / 2 ≤ p.z ∧ p.z ≤ 2 ^ d - 1 / 2)

theorem tent_ne_zero (t : ℚ) : tent t ≠ 0 ↔ |t| < 1 := by
  unfold tent
  constructor
  · intro h
    by_contra hn
    exact h (max_eq_left (by linarith))
  · intro h
    rw [max_eq_right (by linarith)]
    intro e
    linarith

/-- **C54, what "adjacent" means for the weights.** The weight of a cell is non-zero exactly if its centre is less than one cell away along
every axis. -/
theorem C54_support (p : V3 ℚ) (g : Int × Int × Int) : tent3 p g ≠ 0 ↔
    |p.x - (g.1 + 1 / 2)| < 1 ∧ |p.y - (g.2.1 + 1 / 2)| < 1 ∧ |p.z - (g.2.2 + 1 / 2)| < 1 := by
  unfold tent3
  rw [mul_ne_zero_iff, mul_ne_zero_iff, tent_ne_zero, tent_ne_zero, tent_ne_zero, and_assoc]

theorem near_floor {v : ℚ} {n : Int} (h : |v - (n + 1 / 2)| < 1) : n = ⌊v - 1 / 2⌋ ∨ n = ⌊v - 1 / 2⌋ + 1 := by
  obtain ⟨h1, h2⟩ := abs_lt.1 h
  have a1 := Int.floor_le (v - 1 / 2)
  have a2 := Int.lt_floor_add_one (v - 1 / 2)
  generalize ((⌊v - 1 / 2⌋ : ℤ)) = m at *
  have b1 : (n : ℚ) < m + 2 := by linarith
  have b2 : (m : ℚ) < n + 1 := by linarith
  have b1' : n < m + 2 := by exact_mod_cast b1
  have b2' : m < n + 1 := by exact_mod_cast b2
  omega

theorem mem_corners_of_ne {p : V3 ℚ} {g : Int × Int × Int} (h : tent3 p g ≠ 0) : g ∈ corners p := by
  obtain ⟨h1, h2, h3⟩ := (C54_support p g).1 h
  obtain ⟨g1, g2, g3⟩ := g
  simp only at h1 h2 h3
  simp only [corners, List.map_cons, List.map_nil, List.mem_cons, List.not_mem_nil, or_false, Prod.mk.injEq]
  rcases near_floor h1 with e1 | e1 <;> rcases near_floor h2 with e2 | e2 <;> rcases near_floor h3 with e3 | e3 <;>
    subst e1 e2 e3 <;> simp

theorem corners_nodup (p : V3 ℚ) : (corners p).Nodup := by
  unfold corners
  apply List.Nodup.map
  · rintro ⟨a, b, c⟩ ⟨a', b', c'⟩ e
    simp only [Prod.mk.injEq] at e ⊢
    omega
  · decide

theorem interior_floor {d : Nat} {v : ℚ} (h : 1 / 2 ≤ v ∧ v ≤ 2 ^ d - 1 / 2) (e : Int) (he : e = 0 ∨ e = 1) :
    (0 ≤ ⌊v - 1 / 2⌋ + e ∧ ⌊v - 1 / 2⌋ + e < 2 ^ d) ∨ tent (v - (((⌊v - 1 / 2⌋ + e : ℤ) : ℚ) + 1 / 2)) = 0 := by
  have h1 : 0 ≤ ⌊v - 1 / 2⌋ := Int.floor_nonneg.2 (by linarith [h.1])
  by_cases h2 : ⌊v - 1 / 2⌋ + e < 2 ^ d
  · left
    rcases he with rfl | rfl <;> constructor <;> omega
  · right
    by_contra hne
    have h3 := (abs_lt.1 ((tent_ne_zero _).1 hne)).1
    have h4 : (2 ^ d : ℤ) ≤ ⌊v - 1 / 2⌋ + e := by omega
    have h5 : ((2 ^ d : ℤ) : ℚ) ≤ ((⌊v - 1 / 2⌋ + e : ℤ) : ℚ) := by exact_mod_cast h4
    push_cast at h5 h3
    linarith [h.2]

theorem interior_corner {d : Nat} {p : V3 ℚ} (h : Interior d p) {g : Int × Int × Int} (hg : g ∈ corners p) : InGrid d g ∨ tent3 p g = 0 := by
  unfold corners at hg
  obtain ⟨⟨e1, e2, e3⟩, he, rfl⟩ := List.mem_map.1 hg
  have he' : (e1 = 0 ∨ e1 = 1) ∧ (e2 = 0 ∨ e2 = 1) ∧ (e3 = 0 ∨ e3 = 1) := by
    simp only [List.mem_cons, List.not_mem_nil, or_false, Prod.mk.injEq] at he
    omega
  rcases interior_floor h.1 e1 he'.1 with a | a
  · rcases interior_floor h.2.1 e2 he'.2.1 with b | b
    · rcases interior_floor h.2.2 e3 he'.2.2 with c | c
      · exact Or.inl ⟨a, b, c⟩
      · right; simp only [tent3, c, mul_zero]
    · right; simp only [tent3, b, mul_zero, zero_mul]
  · right; simp only [tent3, a, zero_mul]

theorem sum_support {α : Type} [DecidableEq α] (S T : List α) (hS : S.Nodup) (hT : T.Nodup) (t : α → ℚ) (hs : ∀ a, t a ≠ 0 → a ∈ S) :
    (T.map t).sum = (S.map fun a => if a ∈ T then t a else 0).sum := by
  rw [← List.sum_toFinset t hT, ← List.sum_toFinset _ hS]
  rw [Finset.sum_ite, Finset.sum_const_zero, add_zero]
  symm
  apply Finset.sum_subset
  · intro a ha
    rw [Finset.mem_filter] at ha
    exact List.mem_toFinset.2 ha.2
  · intro a ha hn
    by_contra hne
    apply hn
    rw [Finset.mem_filter]
    exact ⟨List.mem_toFinset.2 (hs a hne), List.mem_toFinset.1 ha⟩

/-- **C54, the part that holds.** With `bound_check`, or at points at least half a cell away from the boundary of the cube, the result is the
sum of the features of *all* nodes of the sample, weighted by the hat functions at their centres, divided by the sum of the weights plus `1e-12`;
by `C54_support` only nodes with centre less than one cell away contribute.  Missing: in-range points near the boundary with the default
`bound_check=False` (`C54_violated`). -/
theorem C54_partial {C : Nat} (o : Octree F) (h : Nat) (w : o.Valid h) (d : Nat) (hd : d ≤ h) (cells : List Cell) (ch : List Int)
    (hc : CellsOf o.batchSize d o.keys cells) (hch : o.children d = some ch) (nempty bc : Bool) (x : List (Fin C → ℚ))
    (f : Nat → Int → Int → Int → Fin C → ℚ) (hf : IsField (queried nempty cells ch) x f) (qs : List (V3 ℚ × Nat)) (hq : ∀ q ∈ qs, q.2 < 2 ^ 15)
    (hin : bc = true ∨ ∀ q ∈ qs, Interior d q.1) :
    octreeLinearPts x o d (qs.map row4) nempty bc = .ok (qs.map fun q => fun k =>
      (((queried nempty cells ch).filter fun c => decide (c.b = q.2)).map fun c => tent3 q.1 (coords c) * fieldAt f c k).sum /
      ((((queried nempty cells ch).filter fun c => decide (c.b = q.2)).map fun c => tent3 q.1 (coords c)).sum + 1 / 10 ^ 12)) := by
  have hnd := nodes_nodup o h w d hd nempty 1 _ _ (.one d cells ch hc hch)
  obtain ⟨hr, -⟩ := C27_xyzb o h w d hd cells hc ch hch nempty
  rw [C53_linear o h w d hd cells ch hc hch nempty bc x f hf qs hq]
  revert hf hnd hr
  generalize queried nempty cells ch = Q
  intro hf hnd hr
  congr 1
  apply List.map_congr_left
  rintro ⟨p, b⟩ hqm
  simp only []
  have hin' : bc = true ∨ Interior d p := by
    rcases hin with h1 | h1
    · exact Or.inl h1
    · exact Or.inr (h1 _ hqm)
  have hT : ((Q.filter fun c => decide (c.b = b)).map coords).Nodup := by
    rw [List.nodup_map_iff_inj_on (hnd.filter _)]
    intro c hcm c' hcm' e
    have h1 := (List.mem_filter.1 hcm).2
    have h2 := (List.mem_filter.1 hcm').2
    simp only [decide_eq_true_eq] at h1 h2
    cases c; cases c'
    simp only [coords, Prod.mk.injEq, Int.natCast_inj] at e h1 h2 ⊢
    simp_all
  have hmem : ∀ g, g ∈ (Q.filter fun c => decide (c.b = b)).map coords ↔ ∃ c ∈ Q, c.b = b ∧ coords c = g := by
    intro g
    simp only [List.mem_map, List.mem_filter, decide_eq_true_eq, and_assoc]
  have hgrid : ∀ g, InGrid d g → lookup bc d b g = some ⟨b, g.1.toNat, g.2.1.toNat, g.2.2.toNat⟩ := by
    intro g hg
    unfold lookup
    rw [if_neg (fun e => e.2 hg)]
    rw [Int.emod_eq_of_lt hg.1.1 hg.1.2, Int.emod_eq_of_lt hg.2.1.1 hg.2.1.2, Int.emod_eq_of_lt hg.2.2.1 hg.2.2.2]
  have hQ : ∀ c ∈ Q, InGrid d (coords c) := by
    intro c hcm
    obtain ⟨-, h1, h2, h3⟩ := hr c hcm
    exact ⟨⟨by simp [coords], by simp only [coords]; exact_mod_cast h1⟩, ⟨by simp [coords], by simp only [coords]; exact_mod_cast h2⟩,
      ⟨by simp [coords], by simp only [coords]; exact_mod_cast h3⟩⟩
  have hcell : ∀ g, InGrid d g → (g ∈ (Q.filter fun c => decide (c.b = b)).map coords ↔ (⟨b, g.1.toNat, g.2.1.toNat, g.2.2.toNat⟩ : Cell) ∈ Q) := by
    intro g hg
    rw [hmem]
    constructor
    · rintro ⟨c, hcm, rfl, rfl⟩
      simpa [coords] using hcm
    · intro hcm
      refine ⟨_, hcm, rfl, ?_⟩
      obtain ⟨g1, g2, g3⟩ := g
      have := hg.1.1; have := hg.2.1.1; have := hg.2.2.1
      simp only [coords, Prod.mk.injEq] at *
      omega
  have hnot : ∀ g, ¬ InGrid d g → g ∉ (Q.filter fun c => decide (c.b = b)).map coords := by
    intro g hg hm
    obtain ⟨c, hcm, -, rfl⟩ := (hmem g).1 hm
    exact hg (hQ c hcm)
  funext k
  congr 1
  · have := sum_support (corners p) ((Q.filter fun c => decide (c.b = b)).map coords) (corners_nodup p) hT
      (fun g => tent3 p g * f b g.1 g.2.1 g.2.2 k) (fun g hne => mem_corners_of_ne (left_ne_zero_of_mul hne))
    rw [List.map_map] at this
    have e1 : List.map ((fun g => tent3 p g * f b g.1 g.2.1 g.2.2 k) ∘ coords) (Q.filter fun c => decide (c.b = b))
        = List.map (fun c => tent3 p (coords c) * fieldAt f c k) (Q.filter fun c => decide (c.b = b)) := by
      apply List.map_congr_left
      intro c hcm
      have h1 := (List.mem_filter.1 hcm).2
      simp only [decide_eq_true_eq] at h1
      simp only [Function.comp, fieldAt, coords, h1]
    rw [← e1, this]
    congr 1
    apply List.map_congr_left
    intro g hg
    by_cases hgr : InGrid d g
    · unfold valueAt
      rw [hgrid g hgr]
      simp only [fieldAt]
      have e2 : f b (g.1.toNat : Int) (g.2.1.toNat : Int) (g.2.2.toNat : Int) = f b g.1 g.2.1 g.2.2 := by
        rw [Int.toNat_of_nonneg hgr.1.1, Int.toNat_of_nonneg hgr.2.1.1, Int.toNat_of_nonneg hgr.2.2.1]
      rw [e2]
      split
      · rfl
      · next hm =>
        rw [hcell g hgr] at hm
        have : f b g.1 g.2.1 g.2.2 = 0 := by
          apply hf.2.2
          rintro c hcm ⟨a1, a2, a3, a4⟩
          apply hm
          rw [← a1, ← a2, ← a3, ← a4]
          simpa using hcm
        rw [this]
        simp
    · rw [if_neg (hnot g hgr)]
      rcases hin' with hb | hb
      · unfold valueAt lookup
        rw [if_pos ⟨hb, hgr⟩]
        simp
      · rcases interior_corner hb hg with h1 | h1
        · exact absurd h1 hgr
        · rw [h1, zero_mul]
  · congr 1
    have := sum_support (corners p) ((Q.filter fun c => decide (c.b = b)).map coords) (corners_nodup p) hT
      (fun g => tent3 p g) (fun g hne => mem_corners_of_ne hne)
    rw [List.map_map] at this
    have e1 : List.map ((fun g => tent3 p g) ∘ coords) (Q.filter fun c => decide (c.b = b))
        = List.map (fun c => tent3 p (coords c)) (Q.filter fun c => decide (c.b = b)) := rfl
    rw [← e1, this]
    rw [sum_filter_ite (corners p) (found Q bc d b) (tent3 p) (fun g => if found Q bc d b g = true then tent3 p g else 0)
      (fun a _ h => by simp [h]) (fun a _ h => by simp [h])]
    congr 1
    apply List.map_congr_left
    intro g hg
    by_cases hgr : InGrid d g
    · unfold found
      rw [hgrid g hgr]
      simp only [decide_eq_true_eq]
      by_cases hm : (⟨b, g.1.toNat, g.2.1.toNat, g.2.2.toNat⟩ : Cell) ∈ Q
      · rw [if_pos hm, if_pos ((hcell g hgr).2 hm)]
      · rw [if_neg hm, if_neg (fun e => hm ((hcell g hgr).1 e))]
    · rw [if_neg (hnot g hgr)]
      rcases hin' with hb | hb
      · have : found Q bc d b g = false := by
          unfold found lookup
          rw [if_pos ⟨hb, hgr⟩]
        rw [this]
        simp
      · rcases interior_corner hb hg with h1 | h1
        · exact absurd h1 hgr
        · rw [h1]; simp

/-- **C54 is violated**: with default arguments an in-range point gets a value from a node more than one cell away (on the other side of the
cube): two feature tensors that differ only at a node whose centre is 1.4 cells away give different results. -/
theorem C54_violated : ∃ (o : Octree Unit) (cells : List Cell) (ch : List Int) (x x' y y' : List (Fin 1 → ℚ)) (p : V3 ℚ), o.Valid 2 ∧
    CellsOf o.batchSize 1 o.keys cells ∧ o.children 1 = some ch ∧ InCells 1 p ∧
    (∀ c v v', HasVal (queried false cells ch) x c v → HasVal (queried false cells ch) x' c v' → v ≠ v' → 1 < |p.x - (c.x + 1 / 2)|) ∧
    octreeLinearPts x o 1 [row4 (p, 0)] false false = .ok y ∧ octreeLinearPts x' o 1 [row4 (p, 0)] false false = .ok y' ∧ y ≠ y' := by
  obtain ⟨o, h0, h1, -, h3, -, -, -⟩ := example_valid
  rw [h3] at h1
  have hc := h1.wf'.cellsOf 1 (by omega)
  have hch := h1.wf'.children 1 (by omega)
  obtain ⟨-, hx, -⟩ := C27_xyzb o 2 h1 1 (by omega) _ hc _ hch false
  have hl := queried_length h1 1 (by omega) false _ _ hc hch
  have hcnt := example_counts
  rw [h0] at hcnt
  simp only [Except.toOption, Option.map_some, Option.some.injEq, Prod.mk.injEq] at hcnt
  rw [if_neg (by simp), hcnt.1] at hl
  have h4 : (exampleOctree.bind fun o => o.xyzb 1 false).toOption.map (fun l => l[4]?) = some (some (1, 0, 0, 0)) := by decide +kernel
  have hp : (exampleOctree.bind fun o => octreeLinearPts ([0, 0, 0, 0, 0, 0, 0, 0].map fun v : ℚ => fun _ : Fin 1 => v) o 1
      [row4 (⟨1 / 10, 1 / 2, 1 / 2⟩, 0)] false false).toOption.map (fun r => r.map fun v => decide (v 0 = 0)) = some [true] := by decide +kernel
  have hp2 : (exampleOctree.bind fun o => octreeLinearPts ([0, 0, 0, 0, 1, 0, 0, 0].map fun v : ℚ => fun _ : Fin 1 => v) o 1
      [row4 (⟨1 / 10, 1 / 2, 1 / 2⟩, 0)] false false).toOption.map (fun r => r.map fun v => decide (v 0 = 0)) = some [false] := by decide +kernel
  rw [h0] at hp hp2 h4
  simp only [Except.bind] at hp hp2 h4
  rw [hx] at h4
  simp only [Except.toOption, Option.map_some, Option.some.injEq] at h4
  cases hq : octreeLinearPts ([0, 0, 0, 0, 0, 0, 0, 0].map fun v : ℚ => fun _ : Fin 1 => v) o 1 [row4 (⟨1 / 10, 1 / 2, 1 / 2⟩, 0)] false false with
  | error e => rw [hq] at hp; simp [Except.toOption] at hp
  | ok r =>
    cases hq2 : octreeLinearPts ([0, 0, 0, 0, 1, 0, 0, 0].map fun v : ℚ => fun _ : Fin 1 => v) o 1 [row4 (⟨1 / 10, 1 / 2, 1 / 2⟩, 0)] false false with
    | error e => rw [hq2] at hp2; simp [Except.toOption] at hp2
    | ok r2 =>
      rw [hq] at hp
      rw [hq2] at hp2
      simp only [Except.toOption, Option.map_some, Option.some.injEq] at hp hp2
      refine ⟨o, _, _, _, _, r, r2, ⟨1 / 10, 1 / 2, 1 / 2⟩, h1, hc, hch, by unfold InCells; norm_num, ?_, hq, hq2, ?_⟩
      · rintro c v v' ⟨j, hj1, hj2⟩ ⟨j', hj1', hj2'⟩ hne
        have hnd := nodes_nodup o 2 h1 1 (by omega) false 1 _ _ (.one 1 _ _ hc hch)
        have ej := nodup_getElem?_inj hnd hj1 hj1'
        subst ej
        have hj : j < 8 := by
          have := (List.getElem?_eq_some_iff.1 hj1).1
          omega
        have hj4 : j = 4 := by
          by_contra hj4
          apply hne
          have : j = 0 ∨ j = 1 ∨ j = 2 ∨ j = 3 ∨ j = 5 ∨ j = 6 ∨ j = 7 := by omega
          rcases this with rfl | rfl | rfl | rfl | rfl | rfl | rfl <;> simp at hj2 hj2' <;> rw [← hj2, ← hj2']
        subst hj4
        rw [List.getElem?_map, hj1] at h4
        simp only [Option.map_some, Option.some.injEq, Prod.mk.injEq] at h4
        have hcx : c.x = 1 := by omega
        rw [hcx]
        rw [abs_of_neg (by norm_num)]
        norm_num
      · intro e
        rw [e, hp2] at hp
        simp at hp

/-- Non-vacuity of C53 and C54: the octree of `example_valid'`, with points in the interior and near the boundary. -/
example : ∃ (o : Octree Unit) (cells : List Cell) (ch : List Int) (x : List (Fin 3 → ℚ)) (f : Nat → Int → Int → Int → Fin 3 → ℚ)
    (qs : List (V3 ℚ × Nat)), o.Valid 2 ∧ CellsOf o.batchSize 1 o.keys cells ∧ o.children 1 = some ch ∧ x.length = 8 ∧
    IsField (queried false cells ch) x f ∧ (∀ q ∈ qs, q.2 < 2 ^ 15) ∧ (∀ q ∈ qs, Interior 1 q.1) ∧ qs.length = 2 := by
  obtain ⟨o, h1, -, -, h4, -⟩ := example_valid'
  have hc := h1.wf'.cellsOf 1 (by omega)
  have hch := h1.wf'.children 1 (by omega)
  have hq := queried_length h1 1 (by omega) false _ _ hc hch
  rw [if_neg (by simp), h4] at hq
  have hnd := nodes_nodup o 2 h1 1 (by omega) false 1 _ _ (.one 1 _ _ hc hch)
  obtain ⟨f, hf⟩ := exists_field _ (List.replicate 8 (fun _ : Fin 3 => (1 : ℚ))) (by rw [hq]; rfl) hnd
  refine ⟨o, _, _, _, f, [(⟨1 / 2, 3 / 2, 1⟩, 0), (⟨2 / 3, 1, 5 / 4⟩, 0)], h1, hc, hch, by simp, hf, by simp, ?_, rfl⟩
  intro q hqm
  simp only [List.mem_cons, List.not_mem_nil, or_false] at hqm
  rcases hqm with rfl | rfl <;> (unfold Interior; norm_num)

end Ocnn
