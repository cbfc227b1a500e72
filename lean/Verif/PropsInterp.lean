import Verif.InterpLemmas
import Verif.PropsConv

/-! Properties C50, C51, C52 and C55: nearest interpolation, upsampling, `OctreeInterp`. -/

set_option linter.unusedSimpArgs false

namespace Ocnn
open Spec

variable {F V : Type}

/-! ### specification -/

/-- The point `p` (in units of cells) of sample `b` lies in the cell `c`. -/
def Spec.Holds (c : Cell) (p : V3 ℚ) (b : Nat) : Prop :=
  c.b = b ∧ ((c.x : ℚ) ≤ p.x ∧ p.x < c.x + 1) ∧ ((c.y : ℚ) ≤ p.y ∧ p.y < c.y + 1) ∧ ((c.z : ℚ) ≤ p.z ∧ p.z < c.z + 1)

/-- `p` lies in the cube `[0, 2^d)^3`. -/
def Spec.InCells (d : Nat) (p : V3 ℚ) : Prop :=
  (0 ≤ p.x ∧ p.x < 2 ^ d) ∧ (0 ≤ p.y ∧ p.y < 2 ^ d) ∧ (0 ≤ p.z ∧ p.z < 2 ^ d)

/-- The query row of a point and a sample number. -/
def Spec.row4 (q : V3 ℚ × Nat) : V3 ℚ × ℚ := (q.1, (q.2 : ℚ))

/-- The value of a field at a cell. -/
def Spec.fieldAt (f : Nat → Int → Int → Int → V) (c : Cell) : V := f c.b c.x c.y c.z

/-! ### nearest -/

theorem inBound_iff (d : Nat) (p : V3 ℚ) : inBound d p = true ↔ InCells d p := by
  unfold inBound InCells
  simp only [decide_eq_true_eq]
  tauto

/-- The result of `octree_nearest_pts`, in terms of `long` and the cell found. -/
theorem nearest_main [Zero V] (o : Octree F) (h : Nat) (w : o.Valid h) (d : Nat) (hd : d ≤ h) (cells : List Cell) (ch : List Int)
    (hc : CellsOf o.batchSize d o.keys cells) (hch : o.children d = some ch) (nempty bc : Bool) (x : List V)
    (f : Nat → Int → Int → Int → V) (hf : IsField (queried nempty cells ch) x f) (qs : List (V3 ℚ × Nat)) (hq : ∀ q ∈ qs, q.2 < 2 ^ 15) :
    octreeNearestPts x o d (qs.map row4) nempty bc = .ok (qs.map fun q =>
      if bc = true ∧ inBound d q.1 = false then 0 else fieldAt f (torusCell d q.2 (long q.1.x) (long q.1.y) (long q.1.z))) := by
  obtain ⟨loc, h1, h2⟩ := search_loc o h w d hd cells ch hc hch nempty
  have hn := nnumOf_ok o h w d hd cells ch hc hch nempty
  revert hf h2 hn
  generalize queried nempty cells ch = Q
  intro hf h2 hn
  have hloc := fun q (hqm : q ∈ qs) => field_at_loc hf
    (h2 (torusCell d q.2 (long q.1.x) (long q.1.y) (long q.1.z)) (torusCell_inRange _ _ _ _ _ (hq q hqm)))
  have hs : searchPts o (qs.map row4) d nempty
      = .ok (qs.map fun q => loc (torusCell d q.2 (long q.1.x) (long q.1.y) (long q.1.z))) := by
    have := h1 (qs.map fun q => (long q.1.x, long q.1.y, long q.1.z, q.2)) (by
      intro q hqm
      obtain ⟨q', hq', rfl⟩ := List.mem_map.1 hqm
      exact hq q' hq')
    simp only [List.map_map, Function.comp_def] at this
    unfold searchPts
    rw [← this, List.map_map]
    simp only [Function.comp_def, row4, long_nat]
  unfold octreeNearestPts
  simp only [hn, bind, Except.bind, pyAssert, hf.1.symm, if_true, hs, List.map_map]
  rw [validMask_map]
  simp only [Function.comp_def, row4]
  unfold boolIndex
  simp only [List.length_map, if_true, maskSel_map_map]
  have hg : gatherIdx x (List.map (fun q : V3 ℚ × Nat => loc (torusCell d q.2 (long q.1.x) (long q.1.y) (long q.1.z)))
      (List.filter (fun q => decide (loc (torusCell d q.2 (long q.1.x) (long q.1.y) (long q.1.z)) > -1) && (!bc || inBound d q.1)) qs))
      = .ok ((List.filter (fun q => decide (loc (torusCell d q.2 (long q.1.x) (long q.1.y) (long q.1.z)) > -1) && (!bc || inBound d q.1)) qs).map
        fun q => fieldAt f (torusCell d q.2 (long q.1.x) (long q.1.y) (long q.1.z))) := by
    unfold gatherIdx
    rw [List.mapM_map]
    apply mapM_ok
    intro q hqf
    obtain ⟨hqm, hqv⟩ := List.mem_filter.1 hqf
    simp only [Bool.and_eq_true, decide_eq_true_eq] at hqv
    rcases hloc q hqm with ⟨a1, a2, a3, a4⟩ | ⟨a1, -⟩
    · simp only [Function.comp]
      obtain ⟨m, hm⟩ : ∃ m : Nat, loc (torusCell d q.2 (long q.1.x) (long q.1.y) (long q.1.z)) = m := ⟨_, (Int.toNat_of_nonneg (by omega)).symm⟩
      rw [hm, Int.toNat_natCast] at a4
      rw [hm] at a3 ⊢
      unfold getIdx
      rw [normIdx_ok x.length m (by omega)]
      simp only [bind, Except.bind]
      rw [a4]
      rfl
    · exact absurd hqv.1 a1
  rw [hg]
  simp only []
  rw [← maskSel_map_map]
  unfold boolSet
  simp only [List.length_map, List.length_replicate, if_true]
  rw [maskSel_length _ _ (by simp)]
  simp only [if_true]
  have e := maskFill_zipWith (qs.map fun q => decide (loc (torusCell d q.2 (long q.1.x) (long q.1.y) (long q.1.z)) > -1) && (!bc || inBound d q.1))
    (qs.map fun q => fieldAt f (torusCell d q.2 (long q.1.x) (long q.1.y) (long q.1.z))) id 0 (by simp)
  rw [List.map_id, List.length_map] at e
  rw [e, zipWith_map_same]
  congr 1
  apply List.map_congr_left
  intro q hqm
  rcases hloc q hqm with ⟨a1, a2, a3, a4⟩ | ⟨a1, a2, a3⟩
  · simp only [a1, decide_true, Bool.true_and, Bool.or_eq_true, Bool.not_eq_true', id]
    cases bc <;> cases inBound d q.1 <;> simp
  · have : fieldAt f (torusCell d q.2 (long q.1.x) (long q.1.y) (long q.1.z)) = 0 := a3
    rw [this]
    simp

theorem floor_cell {d : Nat} {v : ℚ} (h : 0 ≤ v ∧ v < 2 ^ d) (c : Nat) : (long v % 2 ^ d).toNat = c ↔ ((c : ℚ) ≤ v ∧ v < c + 1) := by
  rw [long_of_nonneg v h.1]
  have h1 : (0 : Int) ≤ ⌊v⌋ := Int.floor_nonneg.2 h.1
  have h2 : ⌊v⌋ < 2 ^ d := by
    rw [Int.floor_lt]
    exact_mod_cast h.2
  rw [Int.emod_eq_of_lt h1 h2]
  constructor
  · intro e
    have e' : ⌊v⌋ = (c : Int) := by omega
    have := Int.floor_eq_iff.1 e'
    exact_mod_cast this
  · intro e
    have : ⌊v⌋ = (c : Int) := Int.floor_eq_iff.2 (by exact_mod_cast e)
    omega

theorem torusCell_eq_iff {d : Nat} {p : V3 ℚ} (h : InCells d p) (b : Nat) (c : Cell) :
    torusCell d b (long p.x) (long p.y) (long p.z) = c ↔ Holds c p b := by
  unfold Holds
  rw [← floor_cell h.1, ← floor_cell h.2.1, ← floor_cell h.2.2]
  unfold torusCell
  constructor
  · rintro rfl
    exact ⟨rfl, rfl, rfl, rfl⟩
  · rintro ⟨h1, h2, h3, h4⟩
    cases c
    simp_all

/-- **C50.** A query point inside `[0, 2^d)^3` gets the feature of the node whose cell holds it, 0 if there is none.  (The other points of the
query may be anywhere.) -/
theorem C50_nearest [Zero V] (o : Octree F) (h : Nat) (w : o.Valid h) (d : Nat) (hd : d ≤ h) (cells : List Cell) (ch : List Int)
    (hc : CellsOf o.batchSize d o.keys cells) (hch : o.children d = some ch) (nempty bc : Bool) (x : List V)
    (hx : x.length = (queried nempty cells ch).length) (qs : List (V3 ℚ × Nat)) (hq : ∀ q ∈ qs, q.2 < 2 ^ 15) :
    ∃ out, octreeNearestPts x o d (qs.map row4) nempty bc = .ok out ∧ out.length = qs.length ∧
      ∀ (i : Nat) (p : V3 ℚ) (b : Nat) (v : V), qs[i]? = some (p, b) → InCells d p → out[i]? = some v →
        (∃ c, Holds c p b ∧ HasVal (queried nempty cells ch) x c v) ∨ ((∀ c ∈ queried nempty cells ch, ¬ Holds c p b) ∧ v = 0) := by
  have hnd := nodes_nodup o h w d hd nempty 1 _ _ (.one d cells ch hc hch)
  obtain ⟨f, hf⟩ := exists_field _ x hx.symm hnd
  refine ⟨_, nearest_main o h w d hd cells ch hc hch nempty bc x f hf qs hq, by simp, ?_⟩
  intro i p b v hi hp hv
  rw [List.getElem?_map, hi] at hv
  simp only [Option.map_some, Option.some.injEq] at hv
  rw [if_neg (by rw [(inBound_iff d p).2 hp]; simp)] at hv
  subst hv
  by_cases hm : torusCell d b (long p.x) (long p.y) (long p.z) ∈ queried nempty cells ch
  · left
    refine ⟨_, (torusCell_eq_iff hp b _).1 rfl, ?_⟩
    obtain ⟨j, hj⟩ := List.getElem?_of_mem hm
    have hjl : j < x.length := by rw [hx]; exact (List.getElem?_eq_some_iff.1 hj).1
    refine ⟨j, hj, ?_⟩
    rw [List.getElem?_eq_getElem hjl]
    rw [fieldAt, hf.2.1 j _ x[j] hj (List.getElem?_eq_getElem hjl)]
  · right
    constructor
    · intro c hcm hH
      rw [← (torusCell_eq_iff hp b c)] at hH
      exact hm (hH ▸ hcm)
    · apply hf.2.2
      rintro c hcm ⟨e1, e2, e3, e4⟩
      apply hm
      have : torusCell d b (long p.x) (long p.y) (long p.z) = c := by
        generalize torusCell d b (long p.x) (long p.y) (long p.z) = c' at *
        cases c; cases c'
        simp only [Int.natCast_inj] at *
        simp_all
      exact this ▸ hcm

/-- **C51.** With `bound_check` a query point outside `[0, 2^d)^3` gets 0. -/
theorem C51_bound_check [Zero V] (o : Octree F) (h : Nat) (w : o.Valid h) (d : Nat) (hd : d ≤ h) (cells : List Cell) (ch : List Int)
    (hc : CellsOf o.batchSize d o.keys cells) (hch : o.children d = some ch) (nempty : Bool) (x : List V)
    (hx : x.length = (queried nempty cells ch).length) (qs : List (V3 ℚ × Nat)) (hq : ∀ q ∈ qs, q.2 < 2 ^ 15) :
    ∃ out, octreeNearestPts x o d (qs.map row4) nempty true = .ok out ∧ out.length = qs.length ∧
      ∀ (i : Nat) (p : V3 ℚ) (b : Nat) (v : V), qs[i]? = some (p, b) → ¬ InCells d p → out[i]? = some v → v = 0 := by
  have hnd := nodes_nodup o h w d hd nempty 1 _ _ (.one d cells ch hc hch)
  obtain ⟨f, hf⟩ := exists_field _ x hx.symm hnd
  refine ⟨_, nearest_main o h w d hd cells ch hc hch nempty true x f hf qs hq, by simp, ?_⟩
  intro i p b v hi hp hv
  rw [List.getElem?_map, hi] at hv
  simp only [Option.map_some, Option.some.injEq] at hv
  rw [if_pos ⟨trivial, by rw [← inBound_iff] at hp; simpa using hp⟩] at hv
  exact hv.symm

/-! ### upsampling -/

theorem field_map [Zero V] {Q : List Cell} {x : List V} {f : Nat → Int → Int → Int → V} (hf : IsField Q x f) : x = Q.map (fieldAt f) := by
  obtain ⟨h1, h2, -⟩ := hf
  apply List.ext_getElem (by simp [h1])
  intro i hi hi'
  rw [List.getElem_map]
  exact (h2 i Q[i] x[i] (List.getElem?_eq_getElem _) (List.getElem?_eq_getElem _)).symm

theorem flatMap_replicate_expand (g : Cell → V) (l : List Cell) :
    (l.map g).flatMap (fun v => List.replicate 8 v) = (expand 8 Cell.child l).map fun c => g c.parent := by
  induction l with
  | nil => rfl
  | cons c l ih =>
    rw [List.map_cons, List.flatMap_cons, ih, expand_cons, List.map_append, List.map_map]
    congr 1
    symm
    rw [List.eq_replicate_iff]
    refine ⟨by simp, ?_⟩
    intro v hv
    obtain ⟨j, hj, rfl⟩ := List.mem_map.1 hv
    simp only [Function.comp]
    congr 1
    cases c
    simp only [Cell.parent, Cell.child, Cell.mk.injEq, true_and]
    omega

/-- **C52, one level.** Every node of depth `d + 1` gets the feature of its parent. -/
theorem C52_nearest_upsample [Zero V] (o : Octree F) (h : Nat) (w : o.Valid h) (d : Nat) (hd : d + 1 ≤ h) (nempty : Bool)
    (cells cells' : List Cell) (ch ch' : List Int) (hc : CellsOf o.batchSize d o.keys cells) (hch : o.children d = some ch)
    (hc' : CellsOf o.batchSize (d + 1) o.keys cells') (hch' : o.children (d + 1) = some ch') (x : List V)
    (f : Nat → Int → Int → Int → V) (hf : IsField (queried nempty cells ch) x f) :
    octreeNearestUpsample x o d nempty = .ok ((queried nempty cells' ch').map fun c => fieldAt f c.parent) := by
  have hn := nnumOf_ok o h w d (by omega) cells ch hc hch nempty
  have hq := queried_length w d (by omega) nempty cells ch hc hch
  have W := w.wf'
  have h16 := w.depth_le
  have hh := w.h_le
  have e := cells_unique (by omega) hc (W.cellsOf d (by omega))
  have e' := cells_unique (by omega) hc' (W.cellsOf (d + 1) hd)
  subst e e'
  rw [W.children d (by omega)] at hch
  rw [W.children (d + 1) hd] at hch'
  cases hch; cases hch'
  have hl := hf.1
  unfold octreeNearestUpsample
  simp only [hn, bind, Except.bind, pyAssert, hl.symm, if_true]
  cases nempty with
  | false =>
    simp only [queried, Bool.false_eq_true, if_false, if_true] at hf hq hl ⊢
    rw [depad_ok w d (by omega) x (by rw [← hl, hq])]
    simp only []
    have hx := field_map hf
    rw [hx, maskSel_map, flatMap_replicate_expand, layerCells]
    rfl
  | true =>
    simp only [queried, if_true, Bool.true_eq_false, if_false, pure, Except.pure] at hf hq hl ⊢
    rw [nonEmpty_eq _ _ _ (W.len d (by omega))] at hf hq hl
    rw [nonEmpty_eq _ _ _ (W.len (d + 1) hd)]
    have hx := field_map hf
    rw [hx, flatMap_replicate_expand]
    have hlc : expand 8 Cell.child (maskSel (o.masks d) (layerCells o.batchSize o.masks d)) = layerCells o.batchSize o.masks (d + 1) := rfl
    rw [hlc]
    rw [depad_ok w (d + 1) hd _ (by rw [List.length_map, W.nnum (d + 1) hd]), maskSel_map]

theorem centre_div (x n d t : Nat) (e : t = d + n) : long (((x : ℚ) + 1 / 2) * 2 ^ ((d : ℤ) - t)) = (x / 2 ^ n : Nat) := by
  have hz : (2 : ℚ) ^ ((d : ℤ) - t) = 1 / 2 ^ n := by
    rw [show (d : ℤ) - t = -(n : ℤ) by omega, zpow_neg, zpow_natCast, one_div]
  rw [hz, long_of_nonneg _ (by positivity)]
  rw [Int.floor_eq_iff]
  have hp : (0 : ℚ) < 2 ^ n := by positivity
  have h1 := Nat.div_add_mod x (2 ^ n)
  have h2 := Nat.mod_lt x (show 0 < 2 ^ n by positivity)
  constructor
  · rw [mul_one_div, le_div_iff₀ hp]
    have : (x / 2 ^ n) * 2 ^ n ≤ x := Nat.div_mul_le_self x (2 ^ n)
    have : (((x / 2 ^ n : Nat) : ℚ)) * 2 ^ n ≤ x := by exact_mod_cast this
    rw [Int.cast_natCast]
    linarith
  · rw [mul_one_div, div_lt_iff₀ hp]
    have : x + 1 ≤ (x / 2 ^ n + 1) * 2 ^ n := by
      rw [Nat.add_mul, Nat.mul_comm]
      omega
    have : (x : ℚ) + 1 ≤ (((x / 2 ^ n : Nat) : ℚ) + 1) * 2 ^ n := by exact_mod_cast this
    rw [Int.cast_natCast]
    linarith

/-- **C52, node centres.** `octree_nearest_pts` at the centres of the nodes of depth `d + n` gives the feature of the ancestor at depth `d`. -/
theorem C52_centres [Zero V] (o : Octree F) (h : Nat) (w : o.Valid h) (d n : Nat) (hd : d + n ≤ h) (nempty bc : Bool)
    (cells cells' : List Cell) (ch ch' : List Int) (hc : CellsOf o.batchSize d o.keys cells) (hch : o.children d = some ch)
    (hc' : CellsOf o.batchSize (d + n) o.keys cells') (hch' : o.children (d + n) = some ch') (x : List V)
    (f : Nat → Int → Int → Int → V) (hf : IsField (queried nempty cells ch) x f) :
    octreeNearestPts x o d ((queried nempty cells' ch').map fun c =>
        (⟨((c.x : ℚ) + 1 / 2) * 2 ^ ((d : ℤ) - (d + n : Nat)), ((c.y : ℚ) + 1 / 2) * 2 ^ ((d : ℤ) - (d + n : Nat)),
          ((c.z : ℚ) + 1 / 2) * 2 ^ ((d : ℤ) - (d + n : Nat))⟩, (c.b : ℚ))) nempty bc
      = .ok ((queried nempty cells' ch').map fun c => fieldAt f (c.ancestor n)) := by
  obtain ⟨hr, -⟩ := C27_xyzb o h w (d + n) hd cells' hc' ch' hch' nempty
  have hB := w.batch_le
  have := nearest_main o h w d (by omega) cells ch hc hch nempty bc x f hf
    ((queried nempty cells' ch').map fun c =>
        (⟨((c.x : ℚ) + 1 / 2) * 2 ^ ((d : ℤ) - (d + n : Nat)), ((c.y : ℚ) + 1 / 2) * 2 ^ ((d : ℤ) - (d + n : Nat)),
          ((c.z : ℚ) + 1 / 2) * 2 ^ ((d : ℤ) - (d + n : Nat))⟩, c.b)) (by
      intro q hq
      obtain ⟨c, hcm, rfl⟩ := List.mem_map.1 hq
      have := (hr c hcm).1
      show c.b < 2 ^ 15
      omega)
  rw [List.map_map, List.map_map] at this
  simp only [Function.comp_def, row4] at this
  rw [this]
  congr 1
  apply List.map_congr_left
  intro c hcm
  obtain ⟨h0, h1, h2, h3⟩ := hr c hcm
  have key : ∀ v : Nat, v < 2 ^ (d + n) → (0 : ℚ) ≤ ((v : ℚ) + 1 / 2) * 2 ^ ((d : ℤ) - (d + n : Nat)) ∧
      ((v : ℚ) + 1 / 2) * 2 ^ ((d : ℤ) - (d + n : Nat)) < 2 ^ d := by
    intro v hv
    have hz : (2 : ℚ) ^ ((d : ℤ) - (d + n : Nat)) = 1 / 2 ^ n := by
      rw [show (d : ℤ) - (d + n : Nat) = -(n : ℤ) by omega, zpow_neg, zpow_natCast, one_div]
    rw [hz]
    refine ⟨by positivity, ?_⟩
    have hp : (0 : ℚ) < 2 ^ n := by positivity
    rw [mul_one_div, div_lt_iff₀ hp, ← pow_add]
    have : ((v + 1 : Nat) : ℚ) ≤ ((2 ^ (d + n) : Nat) : ℚ) := by exact_mod_cast hv
    push_cast at this
    linarith
  have hdiv : ∀ v : Nat, v < 2 ^ (d + n) → v / 2 ^ n < 2 ^ d := by
    intro v hv
    rw [Nat.div_lt_iff_lt_mul (by positivity), ← pow_add]
    exact hv
  rw [if_neg]
  · congr 1
    unfold torusCell Cell.ancestor
    rw [centre_div c.x n d (d + n) rfl, centre_div c.y n d (d + n) rfl, centre_div c.z n d (d + n) rfl]
    have m : ∀ v : Nat, v < 2 ^ d → ((v : Int) % 2 ^ d).toNat = v := by
      intro v hv
      rw [Int.emod_eq_of_lt (by omega) (by exact_mod_cast hv)]
      simp
    rw [m _ (hdiv _ h1), m _ (hdiv _ h2), m _ (hdiv _ h3)]
  · rw [(inBound_iff d _).2 ⟨key _ h1, key _ h2, key _ h3⟩]
    simp

/-- **C52, `OctreeUpsample`.** Every node of depth `d + n` gets the feature of its ancestor at depth `d`. -/
theorem C52_upsample {C : Nat} (o : Octree F) (h : Nat) (w : o.Valid h) (d n : Nat) (hd : d + n ≤ h) (nempty : Bool)
    (cells cells' : List Cell) (ch ch' : List Int) (hc : CellsOf o.batchSize d o.keys cells) (hch : o.children d = some ch)
    (hc' : CellsOf o.batchSize (d + n) o.keys cells') (hch' : o.children (d + n) = some ch') (x : List (Fin C → ℚ))
    (f : Nat → Int → Int → Int → Fin C → ℚ) (hf : IsField (queried nempty cells ch) x f) :
    octreeUpsample "nearest" nempty x o d (some (d + n)) = .ok ((queried nempty cells' ch').map fun c => fieldAt f (c.ancestor n)) := by
  unfold octreeUpsample
  simp only [Option.getD_some]
  have h16 := w.depth_le
  have hh := w.h_le
  by_cases h0 : n = 0
  · subst h0
    rw [if_pos (Nat.add_zero d)]
    have e := cells_unique (by omega) hc hc'
    subst e
    rw [Nat.add_zero, hch] at hch'
    cases hch'
    show Except.ok x = _
    congr 1
    rw [field_map hf]
    apply List.map_congr_left
    intro c _
    cases c
    simp [fieldAt, Cell.ancestor]
  · rw [if_neg (by omega)]
    simp only [pyAssert, bind, Except.bind]
    rw [if_pos (by omega)]
    simp only []
    by_cases h1 : n = 1
    · subst h1
      rw [if_pos ⟨rfl, trivial⟩]
      rw [C52_nearest_upsample o h w d hd nempty cells cells' ch ch' hc hch hc' hch' x f hf]
      simp [Cell.parent, Cell.ancestor]
    · rw [if_neg (by omega)]
      obtain ⟨-, hx, -⟩ := C27_xyzb o h w (d + n) hd cells' hc' ch' hch' nempty
      rw [hx]
      simp only []
      have := C52_centres o h w d n hd nempty false cells cells' ch ch' hc hch hc' hch' x f hf
      unfold interpFunc nodeCentres
      rw [if_neg (by decide), List.map_map]
      simp only [Function.comp_def, Int.cast_natCast]
      exact this

/-- `n` upsamplings by one level, from depth `d`. -/
def Spec.repeatUpsample {C : Nat} (up : Nat → List (Fin C → ℚ) → M (List (Fin C → ℚ))) (d : Nat) : Nat → List (Fin C → ℚ) → M (List (Fin C → ℚ))
  | 0, x => .ok x
  | n + 1, x => repeatUpsample up d n x >>= up (d + n)

theorem parent_queried {o : Octree F} {h : Nat} {masks : Nat → List Bool} (W : WF o h masks) (d : Nat) (hd : d + 1 ≤ h) (nempty : Bool) :
    ∀ c ∈ queried nempty (layerCells o.batchSize masks (d + 1)) (number 0 (masks (d + 1))),
      c.parent ∈ queried nempty (layerCells o.batchSize masks d) (number 0 (masks d)) := by
  intro c hc
  have h1 := (queried_sublist (nempty := nempty) (W.len (d + 1) hd)).subset hc
  rw [layerCells] at h1
  unfold expand at h1
  obtain ⟨p, hp, hj⟩ := List.mem_flatMap.1 h1
  obtain ⟨j, -, rfl⟩ := List.mem_map.1 hj
  have e : (p.child j).parent = p := by
    cases p
    simp only [Cell.parent, Cell.child, Cell.mk.injEq, true_and]
    omega
  rw [e]
  cases nempty
  · exact (maskSel_sublist _ _).subset hp
  · simp only [queried, if_true]
    rw [nonEmpty_eq _ _ _ (W.len d (by omega))]
    exact hp

/-- **C52, several levels.** Upsampling by `n` levels at once equals `n` upsamplings by one level. -/
theorem C52_repeated {C : Nat} (o : Octree F) (h : Nat) (w : o.Valid h) (d n : Nat) (hd : d + n ≤ h) (nempty : Bool)
    (cells : List Cell) (ch : List Int) (hc : CellsOf o.batchSize d o.keys cells) (hch : o.children d = some ch) (x : List (Fin C → ℚ))
    (hx : x.length = (queried nempty cells ch).length) :
    repeatUpsample (fun d' x => octreeUpsample "nearest" nempty x o d' none) d n x = octreeUpsample "nearest" nempty x o d (some (d + n)) := by
  have hnd := nodes_nodup o h w d (by omega) nempty 1 _ _ (.one d cells ch hc hch)
  obtain ⟨f, hf⟩ := exists_field _ x hx.symm hnd
  have W := w.wf'
  induction n with
  | zero =>
    unfold octreeUpsample
    simp only [Option.getD_some]
    rw [if_pos (Nat.add_zero d)]
    rfl
  | succ n ih =>
    rw [repeatUpsample, ih (by omega)]
    have hn1 := C52_upsample o h w d n (by omega) nempty cells _ ch _ hc hch (W.cellsOf (d + n) (by omega)) (W.children (d + n) (by omega)) x f hf
    have hn2 := C52_upsample o h w d (n + 1) hd nempty cells _ ch _ hc hch (W.cellsOf (d + (n + 1)) hd) (W.children (d + (n + 1)) hd) x f hf
    rw [hn1, hn2]
    simp only [bind, Except.bind]
    have hnd' := nodes_nodup o h w (d + n) (by omega) nempty 1 _ _ (.one (d + n) _ _ (W.cellsOf (d + n) (by omega)) (W.children (d + n) (by omega)))
    obtain ⟨g, hg⟩ := exists_field _ ((queried nempty (layerCells o.batchSize o.masks (d + n)) (number 0 (o.masks (d + n)))).map
      fun c => fieldAt f (c.ancestor n)) (by simp) hnd'
    have hup := C52_upsample o h w (d + n) 1 (by omega) nempty _ _ _ _ (W.cellsOf (d + n) (by omega)) (W.children (d + n) (by omega))
      (W.cellsOf (d + n + 1) (by omega)) (W.children (d + n + 1) (by omega)) _ g hg
    have e0 : octreeUpsample "nearest" nempty ((queried nempty (layerCells o.batchSize o.masks (d + n)) (number 0 (o.masks (d + n)))).map
      fun c => fieldAt f (c.ancestor n)) o (d + n) none = octreeUpsample "nearest" nempty ((queried nempty (layerCells o.batchSize o.masks (d + n)) (number 0 (o.masks (d + n)))).map
      fun c => fieldAt f (c.ancestor n)) o (d + n) (some (d + n + 1)) := rfl
    rw [e0, hup]
    congr 1
    apply List.map_congr_left
    intro c hcm
    have hp := parent_queried W (d + n) (by omega) nempty c hcm
    have hgm := field_map hg
    have := (List.map_inj_left.1 hgm) _ hp
    have e1 : c.ancestor 1 = c.parent := by simp [Cell.ancestor, Cell.parent]
    rw [e1, ← this]
    congr 1
    cases c
    simp only [Cell.parent, Cell.ancestor, Cell.mk.injEq, true_and, Nat.div_div_eq_div_mul]
    rw [pow_succ, Nat.mul_comm]
    simp

/-! ### `OctreeInterp` -/

/-- **C55, the part that holds.** Without `rescale_pts` the query tensor is unchanged, so a second call gives the same result.  Missing: the
default `rescale_pts=True` (`C55_violated`). -/
theorem C55_partial {C : Nat} (method : String) (nempty bc : Bool) (x : List (Fin C → ℚ)) (o : Octree F) (d : Nat) (pts : List Pt4) :
    (octreeInterp method nempty bc false x o d pts).2 = pts ∧
    (octreeInterp method nempty bc false x o d (octreeInterp method nempty bc false x o d pts).2).1
      = (octreeInterp method nempty bc false x o d pts).1 := ⟨rfl, rfl⟩

/-- What `rescale_pts` does: the result is that of the interpolation at `(p + 1) * 2^(d-1)`, and the query tensor holds these points afterwards. -/
theorem C55_rescaled {C : Nat} (method : String) (nempty bc : Bool) (x : List (Fin C → ℚ)) (o : Octree F) (d : Nat) (pts : List Pt4) :
    octreeInterp method nempty bc true x o (d + 1) pts
      = (interpFunc method x o (d + 1) (pts.map fun p => (⟨(p.1.x + 1) * 2 ^ d, (p.1.y + 1) * 2 ^ d, (p.1.z + 1) * 2 ^ d⟩, p.2)) nempty bc,
         pts.map fun p => (⟨(p.1.x + 1) * 2 ^ d, (p.1.y + 1) * 2 ^ d, (p.1.z + 1) * 2 ^ d⟩, p.2)) := by
  unfold octreeInterp
  have : (2 : ℚ) ^ (((d + 1 : Nat) : ℤ) - 1) = 2 ^ d := by
    rw [show ((d + 1 : Nat) : ℤ) - 1 = (d : ℤ) by omega, zpow_natCast]
  simp only [this, if_true, V3.map]

/-- **C55 is violated**: the same query tensor, passed twice, gives two different results. -/
theorem C55_violated : ∃ (o : Octree Unit) (x y z : List (Fin 1 → ℚ)) (pts : List Pt4), o.Valid 2 ∧ x.length = o.nnum 1 ∧
    (octreeInterp "nearest" false false true x o 1 pts).1 = .ok y ∧
    (octreeInterp "nearest" false false true x o 1 (octreeInterp "nearest" false false true x o 1 pts).2).1 = .ok z ∧ y ≠ z := by
  obtain ⟨o, h0, h1, -, h3, -, -, -⟩ := example_valid
  rw [h3] at h1
  have hc := example_counts
  rw [h0] at hc
  simp only [Except.toOption, Option.map_some, Option.some.injEq, Prod.mk.injEq] at hc
  have hp : (exampleOctree.bind fun o => (octreeInterp "nearest" false false true
      ([0, 1, 2, 3, 4, 5, 6, 7].map fun v : ℚ => fun _ : Fin 1 => v) o 1 [(⟨0, 0, 0⟩, 0)]).1).toOption.map
      (fun r => r.map fun v => v 0) = some [7] := by decide +kernel
  have hp2 : (exampleOctree.bind fun o => (octreeInterp "nearest" false false true
      ([0, 1, 2, 3, 4, 5, 6, 7].map fun v : ℚ => fun _ : Fin 1 => v) o 1 (octreeInterp "nearest" false false true
      ([0, 1, 2, 3, 4, 5, 6, 7].map fun v : ℚ => fun _ : Fin 1 => v) o 1 [(⟨0, 0, 0⟩, 0)]).2).1).toOption.map
      (fun r => r.map fun v => v 0) = some [0] := by decide +kernel
  rw [h0] at hp hp2
  simp only [Except.bind] at hp hp2
  cases hq : (octreeInterp "nearest" false false true
      ([0, 1, 2, 3, 4, 5, 6, 7].map fun v : ℚ => fun _ : Fin 1 => v) o 1 [(⟨0, 0, 0⟩, 0)]).1 with
  | error e => rw [hq] at hp; simp [Except.toOption] at hp
  | ok r =>
    cases hq2 : (octreeInterp "nearest" false false true
      ([0, 1, 2, 3, 4, 5, 6, 7].map fun v : ℚ => fun _ : Fin 1 => v) o 1 (octreeInterp "nearest" false false true
      ([0, 1, 2, 3, 4, 5, 6, 7].map fun v : ℚ => fun _ : Fin 1 => v) o 1 [(⟨0, 0, 0⟩, 0)]).2).1 with
    | error e => rw [hq2] at hp2; simp [Except.toOption] at hp2
    | ok r2 =>
      rw [hq] at hp
      rw [hq2] at hp2
      simp only [Except.toOption, Option.map_some, Option.some.injEq] at hp hp2
      refine ⟨o, _, r, r2, [(⟨0, 0, 0⟩, 0)], h1, by rw [hc.1]; rfl, hq, hq2, ?_⟩
      intro e
      rw [e, hp2] at hp
      simp at hp

/-- Non-vacuity of C50 to C52: the octree of `example_valid'`, a feature field on the 16 nodes of depth 2, and query points inside and
outside the cube. -/
example : ∃ (o : Octree Unit) (cells : List Cell) (ch : List Int) (x : List (Fin 3 → ℚ)) (f : Nat → Int → Int → Int → Fin 3 → ℚ)
    (qs : List (V3 ℚ × Nat)), o.Valid 2 ∧ CellsOf o.batchSize 1 o.keys cells ∧ o.children 1 = some ch ∧ x.length = 8 ∧
    IsField (queried false cells ch) x f ∧ (∀ q ∈ qs, q.2 < 2 ^ 15) ∧ (∃ q ∈ qs, InCells 1 q.1) ∧ ∃ q ∈ qs, ¬ InCells 1 q.1 := by
  obtain ⟨o, h1, -, -, h4, -⟩ := example_valid'
  have hc := h1.wf'.cellsOf 1 (by omega)
  have hch := h1.wf'.children 1 (by omega)
  have hq := queried_length h1 1 (by omega) false _ _ hc hch
  rw [if_neg (by simp), h4] at hq
  have hnd := nodes_nodup o 2 h1 1 (by omega) false 1 _ _ (.one 1 _ _ hc hch)
  obtain ⟨f, hf⟩ := exists_field _ (List.replicate 8 (fun _ : Fin 3 => (1 : ℚ))) (by rw [hq]; rfl) hnd
  refine ⟨o, _, _, _, f, [(⟨1 / 2, 3 / 2, 0⟩, 0), (⟨-1 / 2, 3 / 2, 0⟩, 0)], h1, hc, hch, by simp, hf, by simp, ⟨_, List.mem_cons_self, ?_⟩,
    ⟨_, List.mem_cons_of_mem _ List.mem_cons_self, ?_⟩⟩
  · unfold InCells; norm_num
  · unfold InCells; norm_num

end Ocnn
