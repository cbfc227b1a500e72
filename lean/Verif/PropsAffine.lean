import Verif.PropsLinear

/-! Property C117: linear interpolation of a linear field is exact, and it never leaves the range of the features. -/

set_option linter.unusedSimpArgs false

namespace Ocnn
open Spec

variable {F V : Type}

namespace Spec

/-- An affine function of the position. -/
def affine (a₀ a₁ a₂ a₃ : ℚ) (p : V3 ℚ) : ℚ := a₀ + a₁ * p.x + a₂ * p.y + a₃ * p.z

end Spec

theorem tent_mean (v : ℚ) : tent (v - (((⌊v - 1 / 2⌋ + 0 : ℤ) : ℚ) + 1 / 2)) * (((⌊v - 1 / 2⌋ + 0 : ℤ) : ℚ) + 1 / 2) +
    tent (v - (((⌊v - 1 / 2⌋ + 1 : ℤ) : ℚ) + 1 / 2)) * (((⌊v - 1 / 2⌋ + 1 : ℤ) : ℚ) + 1 / 2) = v := by
  obtain ⟨h3, h4⟩ := tent_corner v
  rw [h3, h4]
  have h1 := Int.floor_le (v - 1 / 2)
  have h2 := Int.lt_floor_add_one (v - 1 / 2)
  generalize ((⌊v - 1 / 2⌋ : ℤ)) = n at *
  rw [abs_of_nonneg (show (0 : ℚ) ≤ 1 - 0 - (v - 1 / 2 - n) by linarith), abs_of_nonpos (show (1 : ℚ) - 1 - (v - 1 / 2 - n) ≤ 0 by linarith)]
  push_cast
  ring

/-- The weighted mean of an affine function over the centres of the corner cells is its value at the point. -/
theorem corners_affine (p : V3 ℚ) (a₀ a₁ a₂ a₃ : ℚ) :
    ((corners p).map fun g => tent3 p g * affine a₀ a₁ a₂ a₃ ⟨(g.1 : ℚ) + 1 / 2, (g.2.1 : ℚ) + 1 / 2, (g.2.2 : ℚ) + 1 / 2⟩).sum = affine a₀ a₁ a₂ a₃ p := by
  have hx := tent_sum p.x
  have hy := tent_sum p.y
  have hz := tent_sum p.z
  have mx := tent_mean p.x
  have my := tent_mean p.y
  have mz := tent_mean p.z
  simp only [corners, tent3, affine, List.map_cons, List.map_nil, List.sum_cons, List.sum_nil]
  generalize tent (p.x - (((⌊p.x - 1 / 2⌋ + 0 : ℤ) : ℚ) + 1 / 2)) = x0 at *
  generalize tent (p.y - (((⌊p.y - 1 / 2⌋ + 0 : ℤ) : ℚ) + 1 / 2)) = y0 at *
  generalize tent (p.z - (((⌊p.z - 1 / 2⌋ + 0 : ℤ) : ℚ) + 1 / 2)) = z0 at *
  generalize tent (p.x - (((⌊p.x - 1 / 2⌋ + 1 : ℤ) : ℚ) + 1 / 2)) = x1 at *
  generalize tent (p.y - (((⌊p.y - 1 / 2⌋ + 1 : ℤ) : ℚ) + 1 / 2)) = y1 at *
  generalize tent (p.z - (((⌊p.z - 1 / 2⌋ + 1 : ℤ) : ℚ) + 1 / 2)) = z1 at *
  generalize (((⌊p.x - 1 / 2⌋ + 0 : ℤ) : ℚ) + 1 / 2) = u0 at *
  generalize (((⌊p.y - 1 / 2⌋ + 0 : ℤ) : ℚ) + 1 / 2) = v0 at *
  generalize (((⌊p.z - 1 / 2⌋ + 0 : ℤ) : ℚ) + 1 / 2) = w0 at *
  generalize (((⌊p.x - 1 / 2⌋ + 1 : ℤ) : ℚ) + 1 / 2) = u1 at *
  generalize (((⌊p.y - 1 / 2⌋ + 1 : ℤ) : ℚ) + 1 / 2) = v1 at *
  generalize (((⌊p.z - 1 / 2⌋ + 1 : ℤ) : ℚ) + 1 / 2) = w1 at *
  have ex : x1 = 1 - x0 := by linarith
  have ey : y1 = 1 - y0 := by linarith
  have ez : z1 = 1 - z0 := by linarith
  rw [← mx, ← my, ← mz, ex, ey, ez]
  ring

theorem lookup_grid (bc : Bool) (d b : Nat) (g : Int × Int × Int) (h : InGrid d g) : lookup bc d b g = some ⟨b, g.1.toNat, g.2.1.toNat, g.2.2.toNat⟩ := by
  unfold lookup
  rw [if_neg (fun e => e.2 h)]
  obtain ⟨⟨a1, a2⟩, ⟨a3, a4⟩, a5, a6⟩ := h
  rw [Int.emod_eq_of_lt a1 a2, Int.emod_eq_of_lt a3 a4, Int.emod_eq_of_lt a5 a6]

/-- **C117.** If the features are an affine function of the centres of the nodes, the result at a point is that function of the point (divided by `1 + 1e-12`), provided the cells with non-zero weight are nodes:
interpolation then is exact, with no dependence on where in the cell the point is. -/
theorem C117_affine {C : Nat} (o : Octree F) (h : Nat) (w : o.Valid h) (d : Nat) (hd : d ≤ h) (cells : List Cell) (ch : List Int)
    (hc : CellsOf o.batchSize d o.keys cells) (hch : o.children d = some ch) (nempty bc : Bool) (a₀ a₁ a₂ a₃ : Fin C → ℚ)
    (qs : List (V3 ℚ × Nat)) (hq : ∀ q ∈ qs, q.2 < 2 ^ 15)
    (hin : ∀ q ∈ qs, ∀ g ∈ corners q.1, tent3 q.1 g ≠ 0 → InGrid d g ∧ (⟨q.2, g.1.toNat, g.2.1.toNat, g.2.2.toNat⟩ : Cell) ∈ queried nempty cells ch) :
    octreeLinearPts ((queried nempty cells ch).map fun c => fun k => affine (a₀ k) (a₁ k) (a₂ k) (a₃ k) (centre c)) o d (qs.map row4) nempty bc
      = .ok (qs.map fun q => fun k => affine (a₀ k) (a₁ k) (a₂ k) (a₃ k) q.1 / (1 + 1 / 10 ^ 12)) := by
  have hnd := nodes_nodup o h w d hd nempty 1 _ _ (.one d cells ch hc hch)
  obtain ⟨f, hf⟩ := exists_field (queried nempty cells ch) ((queried nempty cells ch).map fun c => fun k => affine (a₀ k) (a₁ k) (a₂ k) (a₃ k) (centre c)) (by simp) hnd
  rw [C53_linear o h w d hd cells ch hc hch nempty bc _ f hf qs hq]
  congr 1
  apply List.map_congr_left
  intro q hqm
  funext k
  have hin' := hin q hqm
  have hnum : ((corners q.1).map fun g => tent3 q.1 g * valueAt bc d q.2 f g k).sum = affine (a₀ k) (a₁ k) (a₂ k) (a₃ k) q.1 := by
    rw [← corners_affine q.1 (a₀ k) (a₁ k) (a₂ k) (a₃ k)]
    congr 1
    apply List.map_congr_left
    intro g hg
    by_cases h0 : tent3 q.1 g = 0
    · rw [h0, zero_mul, zero_mul]
    · obtain ⟨hgr, hm⟩ := hin' g hg h0
      congr 1
      unfold valueAt
      rw [lookup_grid bc d q.2 g hgr]
      obtain ⟨i, hi⟩ := List.mem_iff_getElem?.mp hm
      have := hf.2.1 i _ _ hi (by rw [List.getElem?_map, hi]; rfl)
      show fieldAt f _ k = _
      unfold fieldAt
      rw [this]
      obtain ⟨⟨b1, -⟩, ⟨b2, -⟩, b3, -⟩ := hgr
      have c1 : ((g.1.toNat : Nat) : ℚ) = (g.1 : ℚ) := by exact_mod_cast Int.toNat_of_nonneg b1
      have c2 : ((g.2.1.toNat : Nat) : ℚ) = (g.2.1 : ℚ) := by exact_mod_cast Int.toNat_of_nonneg b2
      have c3 : ((g.2.2.toNat : Nat) : ℚ) = (g.2.2 : ℚ) := by exact_mod_cast Int.toNat_of_nonneg b3
      simp only [centre, c1, c2, c3]
  have hden : (((corners q.1).filter (found (queried nempty cells ch) bc d q.2)).map (tent3 q.1)).sum = 1 := by
    rw [← (C53_weights q.1).2]
    generalize hcs : corners q.1 = cs at hin'
    clear hcs hnum
    induction cs with
    | nil => rfl
    | cons g cs ih =>
      have ih' := ih fun g' hg' => hin' g' (List.mem_cons_of_mem _ hg')
      rw [List.filter_cons]
      by_cases h0 : tent3 q.1 g = 0
      · split
        · rw [List.map_cons, List.sum_cons, List.map_cons, List.sum_cons, ih']
        · rw [List.map_cons, List.sum_cons, ih', h0, zero_add]
      · obtain ⟨hgr, hm⟩ := hin' g List.mem_cons_self h0
        rw [if_pos (by unfold found; rw [lookup_grid bc d q.2 g hgr]; simpa using hm), List.map_cons, List.sum_cons, List.map_cons, List.sum_cons, ih']
  rw [hnum, hden]

/-- **C117, range.** The results lie between the smallest and the largest feature, or zero. -/
theorem C117_range {C : Nat} (o : Octree F) (h : Nat) (w : o.Valid h) (d : Nat) (hd : d ≤ h) (cells : List Cell) (ch : List Int)
    (hc : CellsOf o.batchSize d o.keys cells) (hch : o.children d = some ch) (nempty bc : Bool) (x : List (Fin C → ℚ))
    (hx : x.length = (queried nempty cells ch).length) (qs : List (V3 ℚ × Nat)) (hq : ∀ q ∈ qs, q.2 < 2 ^ 15) (k : Fin C) (lo hi : ℚ) (hlo : lo ≤ 0) (hhi : 0 ≤ hi)
    (hr : ∀ v ∈ x, lo ≤ v k ∧ v k ≤ hi) :
    ∃ out, octreeLinearPts x o d (qs.map row4) nempty bc = .ok out ∧ out.length = qs.length ∧ ∀ v ∈ out, lo ≤ v k ∧ v k ≤ hi := by
  have hnd := nodes_nodup o h w d hd nempty 1 _ _ (.one d cells ch hc hch)
  obtain ⟨f, hf⟩ := exists_field _ x hx.symm hnd
  refine ⟨_, C53_linear o h w d hd cells ch hc hch nempty bc x f hf qs hq, by simp, ?_⟩
  intro v hv
  obtain ⟨q, hqm, rfl⟩ := List.mem_map.mp hv
  have hval : ∀ g, (found (queried nempty cells ch) bc d q.2 g = true → lo ≤ valueAt bc d q.2 f g k ∧ valueAt bc d q.2 f g k ≤ hi) ∧
      (found (queried nempty cells ch) bc d q.2 g = false → valueAt bc d q.2 f g k = 0) := by
    intro g
    unfold found valueAt
    cases lookup bc d q.2 g with
    | none => exact ⟨fun e => by simp at e, fun _ => rfl⟩
    | some c =>
      constructor
      · intro e
        have hm : c ∈ queried nempty cells ch := by simpa using e
        obtain ⟨i, hi'⟩ := List.mem_iff_getElem?.mp hm
        have hil : i < x.length := by
          rw [hx]
          exact (List.getElem?_eq_some_iff.mp hi').1
        have := hf.2.1 i c _ hi' (List.getElem?_eq_getElem hil)
        show lo ≤ fieldAt f c k ∧ fieldAt f c k ≤ hi
        unfold fieldAt
        rw [this]
        exact hr _ (List.getElem_mem hil)
      · intro e
        have hm : c ∉ queried nempty cells ch := by simpa using e
        show fieldAt f c k = 0
        unfold fieldAt
        rw [hf.2.2]
        · rfl
        · rintro c' hc' ⟨e1, e2, e3, e4⟩
          apply hm
          have : c' = c := by
            cases c; cases c'
            simp only [Cell.mk.injEq]
            simp only at e1 e2 e3 e4
            exact ⟨e1, by omega, by omega, by omega⟩
          exact this ▸ hc'
  have hsum : ∀ cs : List (Int × Int × Int), 0 ≤ ((cs.filter (found (queried nempty cells ch) bc d q.2)).map (tent3 q.1)).sum ∧
      lo * ((cs.filter (found (queried nempty cells ch) bc d q.2)).map (tent3 q.1)).sum ≤ (cs.map fun g => tent3 q.1 g * valueAt bc d q.2 f g k).sum ∧
      (cs.map fun g => tent3 q.1 g * valueAt bc d q.2 f g k).sum ≤ hi * ((cs.filter (found (queried nempty cells ch) bc d q.2)).map (tent3 q.1)).sum := by
    intro cs
    induction cs with
    | nil => simp
    | cons g cs ih =>
      have ht := tent3_nonneg q.1 g
      rw [List.filter_cons, List.map_cons, List.sum_cons]
      cases hfd : found (queried nempty cells ch) bc d q.2 g with
      | false =>
        rw [(hval g).2 hfd]
        simpa using ih
      | true =>
        obtain ⟨h1, h2⟩ := (hval g).1 hfd
        simp only [if_true, List.map_cons, List.sum_cons]
        refine ⟨by linarith [ih.1], ?_, ?_⟩
        · nlinarith [ih.2.1, mul_le_mul_of_nonneg_left h1 ht]
        · nlinarith [ih.2.2, mul_le_mul_of_nonneg_left h2 ht]
  obtain ⟨h0, h1, h2⟩ := hsum (corners q.1)
  dsimp only
  generalize (((corners q.1).filter (found (queried nempty cells ch) bc d q.2)).map (tent3 q.1)).sum = S at *
  generalize ((corners q.1).map fun g => tent3 q.1 g * valueAt bc d q.2 f g k).sum = N at *
  show lo ≤ N / (S + 1 / 10 ^ 12) ∧ N / (S + 1 / 10 ^ 12) ≤ hi
  have hpos : (0 : ℚ) < S + 1 / 10 ^ 12 := by positivity
  rw [le_div_iff₀ hpos, div_le_iff₀ hpos]
  constructor
  · nlinarith [show (0 : ℚ) < 1 / 10 ^ 12 by positivity]
  · nlinarith [show (0 : ℚ) < 1 / 10 ^ 12 by positivity]

theorem full_cells (o : Octree F) (h : Nat) (w : o.Valid h) (d : Nat) (hd : d ≤ o.fullDepth) (cells : List Cell) (hc : CellsOf o.batchSize d o.keys cells) (c : Cell) :
    c ∈ cells ↔ c.InRange o.batchSize d := by
  have W := w.wf'
  have h1 := w.full_le
  have h2 := w.h_le
  have h3 := w.depth_le
  have e := cells_unique (by omega) hc (W.cellsOf d (by omega))
  subst e
  exact full_mem _ _ d (fun j hj => W.full j (by omega)) (fun j hj => W.len j (by omega)) c

/-- **C117, full layers.** In the layers up to `full_depth` the interpolation of an affine function is exact at all points at least half a cell away from the boundary. -/
theorem C117_full {C : Nat} (o : Octree F) (h : Nat) (w : o.Valid h) (d : Nat) (hd : d ≤ o.fullDepth) (cells : List Cell)
    (hc : CellsOf o.batchSize d o.keys cells) (bc : Bool) (a₀ a₁ a₂ a₃ : Fin C → ℚ)
    (qs : List (V3 ℚ × Nat)) (hq : ∀ q ∈ qs, q.2 < o.batchSize ∧ Interior d q.1) :
    octreeLinearPts (cells.map fun c => fun k => affine (a₀ k) (a₁ k) (a₂ k) (a₃ k) (centre c)) o d (qs.map row4) false bc
      = .ok (qs.map fun q => fun k => affine (a₀ k) (a₁ k) (a₂ k) (a₃ k) q.1 / (1 + 1 / 10 ^ 12)) := by
  have h1 := w.full_le
  have h2 := w.h_le
  have hB := w.batch_le
  have hch := w.wf'.children d (by omega)
  have := C117_affine o h w d (by omega) cells _ hc hch false bc a₀ a₁ a₂ a₃ qs (fun q hqm => by have := (hq q hqm).1; omega) (by
    intro q hqm g hg h0
    rcases interior_corner (hq q hqm).2 hg with hgr | e
    · refine ⟨hgr, ?_⟩
      simp only [queried, Bool.false_eq_true, if_false]
      rw [full_cells o h w d hd cells hc]
      obtain ⟨⟨a1, a2⟩, ⟨a3, a4⟩, a5, a6⟩ := hgr
      have e2 : ((2 ^ d : Nat) : Int) = 2 ^ d := by push_cast; rfl
      exact ⟨(hq q hqm).1, by show g.1.toNat < 2 ^ d; omega, by show g.2.1.toNat < 2 ^ d; omega, by show g.2.2.toNat < 2 ^ d; omega⟩
    · exact absurd e h0)
  simpa only [queried, Bool.false_eq_true, if_false] using this

/-- The octree of the examples with two points in its layer of depth 1. -/
example : ∃ (o : Octree Unit) (cells : List Cell) (qs : List (V3 ℚ × Nat)), o.Valid 2 ∧ 1 ≤ o.fullDepth ∧ CellsOf o.batchSize 1 o.keys cells ∧
    (∀ q ∈ qs, q.2 < o.batchSize ∧ Interior 1 q.1) ∧ qs.length = 2 := by
  obtain ⟨o, -, h1, h2, h3, h4, -, -⟩ := example_valid
  rw [h3] at h1
  refine ⟨o, _, [(⟨3 / 4, 5 / 4, 1⟩, 0), (⟨1 / 2, 1, 3 / 2⟩, 0)], h1, by omega, h1.wf'.cellsOf 1 (by omega), ?_, rfl⟩
  intro q hq
  simp only [List.mem_cons, List.not_mem_nil, or_false] at hq
  rcases hq with rfl | rfl <;> exact ⟨by rw [h4]; decide, by unfold Interior; norm_num⟩

end Ocnn
