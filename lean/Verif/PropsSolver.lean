import Verif.Solver
import Verif.PropsReplay
import Verif.PropsProjects
import Verif.PropsIO

/-! # C89, C90: losses and reconstructions of the autoencoder -/

namespace Ocnn
open Spec

variable {F L : Type} {k : Nat}

namespace Spec

/-- The point with offset `l` from the centre of a cell, in units of the side of the cell. -/
def pointAt (d : Nat) (c : Cell) (l : V3 ℚ) : V3 ℚ :=
  ⟨((c.x : ℚ) + 1 / 2 + l.x) * 2 / 2 ^ d - 1, ((c.y : ℚ) + 1 / 2 + l.y) * 2 / 2 ^ d - 1, ((c.z : ℚ) + 1 / 2 + l.z) * 2 / 2 ^ d - 1⟩

/-- The difference. -/
def diff (a b : V3 ℚ) : V3 ℚ := ⟨a.x - b.x, a.y - b.y, a.z - b.z⟩

/-- The oriented point described by a normal and a displacement in a cell: the point at the given distance from the centre along the normal. -/
def orientedPoint (d : Nat) (c : Cell) (n : V3 ℚ) (h : ℚ) : V3 ℚ × V3 ℚ := (pointAt d c ⟨h * n.x, h * n.y, h * n.z⟩, n)

end Spec

/-! ## lemmas -/

theorem sorted_take {α : Type} (f : α → Nat) (s : Nat) (l : List α) (hs : (l.map f).Pairwise (· ≤ ·)) (hl : ∀ a ∈ l, s ≤ f a) :
    l.take ((l.map f).countP (· == s)) = l.filter (fun a => f a = s) ∧
      l.drop ((l.map f).countP (· == s)) = l.filter (fun a => ¬ f a = s) := by
  induction l with
  | nil => simp
  | cons a l ih =>
    rw [List.map_cons, List.pairwise_cons] at hs
    obtain ⟨i1, i2⟩ := ih hs.2 fun b hb => hl b (by simp [hb])
    by_cases ha : f a = s
    · simp only [List.map_cons, List.countP_cons, ha, beq_self_eq_true, if_true, List.take_succ_cons, List.drop_succ_cons, i1, i2]
      simp [ha]
    · have h0 : ∀ b ∈ l, f b ≠ s := by
        intro b hb
        have h1 := hs.1 (f b) (List.mem_map_of_mem hb)
        have h2 := hl a (by simp)
        omega
      have h1 : (l.map f).countP (· == s) = 0 := by
        rw [List.countP_eq_zero]
        intro x hx
        obtain ⟨b, hb, rfl⟩ := List.mem_map.mp hx
        simpa using h0 b hb
      have h2 : l.filter (fun a => f a = s) = [] := by
        rw [List.filter_eq_nil_iff]
        intro b hb
        simpa using h0 b hb
      have h3 : l.filter (fun a => ¬ f a = s) = l := by
        rw [List.filter_eq_self]
        intro b hb
        simpa using h0 b hb
      simp only [List.map_cons, List.countP_cons, h1]
      rw [List.filter_cons, List.filter_cons, h2, h3]
      simp [ha]

/-- Splitting rows sorted by sample into the numbers of rows of the samples gives the rows of each sample. -/
theorem split_sorted {α β : Type} (f : α → Nat) (g : α → β) (n s : Nat) (l : List α) (hs : (l.map f).Pairwise (· ≤ ·))
    (hl : ∀ a ∈ l, s ≤ f a ∧ f a < s + n) :
    ((List.range' s n).map fun i => (l.map f).countP (· == i)).sum = l.length ∧
    torchSplit.go ((List.range' s n).map fun i => (l.map f).countP (· == i)) (l.map g) =
      (List.range' s n).map fun i => (l.filter fun a => f a = i).map g := by
  induction n generalizing s l with
  | zero =>
    cases l with
    | nil => simp [torchSplit.go]
    | cons a l => have := hl a (by simp); omega
  | succ n ih =>
    obtain ⟨h1, h2⟩ := sorted_take f s l hs fun a ha => (hl a ha).1
    have h3 : (l.filter fun a => ¬ f a = s).Sublist l := List.filter_sublist
    obtain ⟨i1, i2⟩ := ih (s + 1) (l.filter fun a => ¬ f a = s) (hs.sublist (h3.map f)) (by
      intro a ha
      rw [List.mem_filter] at ha
      have h4 := hl a ha.1
      have h5 : f a ≠ s := by simpa using ha.2
      omega)
    have hcnt : (List.range' (s + 1) n).map (fun i => ((l.filter fun a => ¬ f a = s).map f).countP (· == i)) =
        (List.range' (s + 1) n).map fun i => (l.map f).countP (· == i) := by
      apply List.map_congr_left
      intro i hi
      rw [List.mem_range'_1] at hi
      rw [List.countP_map, List.countP_map, List.countP_filter]
      apply List.countP_congr
      intro a _
      simp only [Function.comp, beq_iff_eq, Bool.and_eq_true, decide_eq_true_eq]
      constructor
      · exact fun h => h.1
      · exact fun h => ⟨h, by omega⟩
    rw [hcnt] at i1 i2
    rw [List.range'_succ, List.map_cons, List.map_cons, List.sum_cons, torchSplit.go, i1]
    refine ⟨?_, ?_⟩
    · rw [← h2, List.length_drop]
      have : (l.map f).countP (· == s) ≤ (l.map f).length := List.countP_le_length
      rw [List.length_map] at this
      omega
    · rw [← List.map_take, ← List.map_drop, h1, h2, i2]
      congr 1
      apply List.map_congr_left
      intro i hi
      rw [List.mem_range'_1] at hi
      rw [List.filter_filter]
      congr 1
      apply List.filter_congr
      intro a _
      rw [Bool.eq_iff_iff]
      simp only [Bool.and_eq_true, decide_eq_true_eq]
      constructor
      · exact fun h => h.1
      · exact fun h => ⟨h, by omega⟩

theorem nonEmpty_keys {o : Octree F} {h : Nat} (w : o.Valid h) {d : Nat} (hd : d ≤ h) {cells : List Cell} {ch : List Int}
    (hc : CellsOf o.batchSize d o.keys cells) (hch : o.children d = some ch) : (nonEmpty cells ch).Pairwise fun a b => a.key d < b.key d := by
  have W := w.wf'
  have h16 := w.depth_le
  have hh := w.h_le
  have e := cells_unique (by omega) hc (W.cellsOf d hd)
  subst e
  rw [W.children d hd] at hch; cases hch
  exact (layer_sorted o.batchSize o.masks d (by omega)).sublist (queried_sublist (nempty := true) (W.len d hd))

theorem nonEmpty_sorted {o : Octree F} {h : Nat} (w : o.Valid h) {d : Nat} (hd : d ≤ h) {cells : List Cell} {ch : List Int}
    (hc : CellsOf o.batchSize d o.keys cells) (hch : o.children d = some ch) : ((nonEmpty cells ch).map Cell.b).Pairwise (· ≤ ·) := by
  have h16 := w.depth_le
  have hh := w.h_le
  rw [List.pairwise_map]
  refine (nonEmpty_keys w hd hc hch).imp ?_
  intro a b hab
  by_contra hlt
  have m1 := morton_lt d a.x a.y a.z
  have m2 := morton_lt d b.x b.y b.z
  have m3 : 8 ^ d ≤ 8 ^ 16 := Nat.pow_le_pow_right (by omega) (by omega)
  have m4 : (8 : Nat) ^ 16 = 2 ^ 48 := by norm_num
  unfold Cell.key at hab
  have : (b.b + 1) * 2 ^ 48 ≤ a.b * 2 ^ 48 := Nat.mul_le_mul_right _ (by omega)
  omega

theorem decodePoint_eq (nrm : V3 ℚ → V3 ℚ) {d : Nat} (c : Cell) (s : Fin 4 → ℚ) :
    decodePoint nrm d ((c.x : Int), (c.y : Int), (c.z : Int), (c.b : Int)) s = orientedPoint d c (nrm ⟨s 0, s 1, s 2⟩) (s 3) := by
  have h : (2 : ℚ) ^ ((d : ℤ) - 1) = 2 ^ d / 2 := by
    rw [zpow_sub₀ (by norm_num), zpow_natCast, zpow_one]
  unfold decodePoint orientedPoint pointAt
  simp only [h, V3.map, Int.cast_natCast]
  congr 2 <;> field_simp

/-! ## C89 -/

/-- **C89** The point clouds reconstructed from an octree with a four-channel signal: one cloud per sample, with one oriented point per non-empty node of
the sample at the finest depth, in the order of the nodes; the point lies at the distance given by the last channel from the centre of the node along the normal. -/
theorem C89_octree2pts (nrm : V3 ℚ → V3 ℚ) (o : Octree (Fin 4 → ℚ)) (w : o.Valid o.depth) (cells : List Cell) (ch : List Int)
    (hc : CellsOf o.batchSize o.depth o.keys cells) (hch : o.children o.depth = some ch) (signal : List (Fin 4 → ℚ))
    (hs : o.features o.depth = some signal) (hl : signal.length = (nonEmpty cells ch).length) :
    octree2pts nrm o = .ok ((List.range o.batchSize).map fun b =>
      (((nonEmpty cells ch).zip signal).filter fun p => p.1.b = b).map fun p => orientedPoint o.depth p.1 (nrm ⟨p.2 0, p.2 1, p.2 2⟩) (p.2 3)) := by
  obtain ⟨hr, hx, -, hb, -⟩ := C27_xyzb o o.depth w o.depth (le_refl _) cells hc ch hch true
  have hq : queried true cells ch = nonEmpty cells ch := rfl
  rw [hq] at hr hx hb
  have hsort := nonEmpty_sorted w (le_refl _) hc hch
  generalize nonEmpty cells ch = N at *
  have e1 : N.map Cell.b = (N.zip signal).map fun p => p.1.b := by
    rw [show (fun p : Cell × (Fin 4 → ℚ) => p.1.b) = Cell.b ∘ Prod.fst from rfl, ← List.map_map, List.map_fst_zip (by omega)]
  have e2 : List.zipWith (decodePoint nrm o.depth) (N.map fun c => ((c.x : Int), (c.y : Int), (c.z : Int), (c.b : Int))) signal =
      (N.zip signal).map fun p => orientedPoint o.depth p.1 (nrm ⟨p.2 0, p.2 1, p.2 2⟩) (p.2 3) := by
    rw [List.zipWith_map_left, List.zip, List.map_zipWith]
    congr 1
    funext c s
    exact decodePoint_eq nrm c s
  obtain ⟨s1, s2⟩ := split_sorted (fun p : Cell × (Fin 4 → ℚ) => p.1.b)
    (fun p => orientedPoint o.depth p.1 (nrm ⟨p.2 0, p.2 1, p.2 2⟩) (p.2 3)) o.batchSize 0 (N.zip signal) (by rw [← e1]; exact hsort)
    (by
      intro p hp
      have := (hr p.1 (List.of_mem_zip (a := p.1) (b := p.2) hp).1).1
      omega)
  unfold octree2pts
  rw [hs, hx, hb]
  simp only [need, bind, Except.bind]
  rw [if_pos (by rw [List.length_map, hl]), e2, e1]
  simp only [List.range_eq_range']
  unfold torchSplit
  rw [s1, s2, if_pos (by rw [List.length_map])]

/-- **C89** A signal with a wrong number of rows is refused. -/
theorem C89_mismatch (nrm : V3 ℚ → V3 ℚ) (o : Octree (Fin 4 → ℚ)) (w : o.Valid o.depth) (cells : List Cell) (ch : List Int)
    (hc : CellsOf o.batchSize o.depth o.keys cells) (hch : o.children o.depth = some ch) (signal : List (Fin 4 → ℚ))
    (hs : o.features o.depth = some signal) (hl : signal.length ≠ (nonEmpty cells ch).length) : octree2pts nrm o = .error .shape := by
  obtain ⟨hr, hx, -, hb, -⟩ := C27_xyzb o o.depth w o.depth (le_refl _) cells hc ch hch true
  have hq : queried true cells ch = nonEmpty cells ch := rfl
  rw [hq] at hx
  unfold octree2pts
  rw [hs, hx]
  simp only [need, bind, Except.bind]
  rw [if_neg (by rw [List.length_map]; exact fun h => hl h.symm)]

/-- **C89** If the last channel is the displacement of a point `m` from the centre of the node along the unit normal `n`, then the reconstructed point
lies in the plane through `m` orthogonal to `n`, and it is the point of this plane next to the centre of the node. -/
theorem C89_tangent (d : Nat) (c : Cell) (m n : V3 ℚ) (hn : dot3 n n = 1) :
    let p := (orientedPoint d c n (dot3 (offsetIn d c m) n)).1
    dot3 (diff p m) n = 0 ∧ ∀ q : V3 ℚ, dot3 (diff q m) n = 0 →
      dot3 (diff p (pointAt d c 0)) (diff p (pointAt d c 0)) ≤ dot3 (diff q (pointAt d c 0)) (diff q (pointAt d c 0)) := by
  have hp : (2 : ℚ) ^ d ≠ 0 := by positivity
  have hs : (2 : ℚ) / 2 ^ d * (2 ^ d / 2) = 1 := by field_simp
  obtain ⟨nx, ny, nz⟩ := n
  obtain ⟨mx, my, mz⟩ := m
  simp only [dot3] at hn
  simp only [orientedPoint, pointAt, dot3, diff, offsetIn, mul_div_assoc]
  generalize (2 : ℚ) / 2 ^ d = s at *
  generalize (2 : ℚ) ^ d / 2 = t at *
  generalize (c.x : ℚ) = cx at *
  generalize (c.y : ℚ) = cy at *
  generalize (c.z : ℚ) = cz at *
  have h0 : (0 : V3 ℚ).x = 0 ∧ (0 : V3 ℚ).y = 0 ∧ (0 : V3 ℚ).z = 0 := ⟨rfl, rfl, rfl⟩
  rw [h0.1, h0.2.1, h0.2.2]
  generalize hh : ((mx + 1) * t - (cx + 1 / 2)) * nx + ((my + 1) * t - (cy + 1 / 2)) * ny + ((mz + 1) * t - (cz + 1 / 2)) * nz = h
  -- the displacement of the point from the centre
  have hm : (mx - ((cx + 1 / 2) * s - 1)) * nx + (my - ((cy + 1 / 2) * s - 1)) * ny + (mz - ((cz + 1 / 2) * s - 1)) * nz = s * h := by
    rw [← hh]
    linear_combination (-(mx + 1) * nx - (my + 1) * ny - (mz + 1) * nz) * hs
  constructor
  · linear_combination s * h * hn - hm
  · rintro ⟨qx, qy, qz⟩ hq
    simp only at hq ⊢
    have hu : (qx - ((cx + 1 / 2) * s - 1)) * nx + (qy - ((cy + 1 / 2) * s - 1)) * ny + (qz - ((cz + 1 / 2) * s - 1)) * nz = s * h := by
      linear_combination hq + hm
    simp only [add_zero]
    have hl : ((cx + 1 / 2 + h * nx) * s - 1 - ((cx + 1 / 2) * s - 1)) * ((cx + 1 / 2 + h * nx) * s - 1 - ((cx + 1 / 2) * s - 1)) +
        ((cy + 1 / 2 + h * ny) * s - 1 - ((cy + 1 / 2) * s - 1)) * ((cy + 1 / 2 + h * ny) * s - 1 - ((cy + 1 / 2) * s - 1)) +
        ((cz + 1 / 2 + h * nz) * s - 1 - ((cz + 1 / 2) * s - 1)) * ((cz + 1 / 2 + h * nz) * s - 1 - ((cz + 1 / 2) * s - 1)) = (s * h) ^ 2 := by
      linear_combination (s * h) ^ 2 * hn
    rw [hl, ← hu]
    generalize qx - ((cx + 1 / 2) * s - 1) = ux
    generalize qy - ((cy + 1 / 2) * s - 1) = uy
    generalize qz - ((cz + 1 / 2) * s - 1) = uz
    nlinarith [sq_nonneg (ux * ny - uy * nx), sq_nonneg (uy * nz - uz * ny), sq_nonneg (ux * nz - uz * nx), hn]

/-! ## lemmas on the losses -/

theorem sum_bits (t : List ℚ) (h : ∀ x ∈ t, x = 0 ∨ x = 1) : 0 ≤ t.sum ∧ t.sum ≤ t.length ∧ (t.sum = t.length ↔ ∀ x ∈ t, x = 1) := by
  induction t with
  | nil => simp
  | cons a t ih =>
    obtain ⟨h1, h2, h3⟩ := ih fun x hx => h x (by simp [hx])
    rw [List.sum_cons, List.length_cons]
    push_cast
    rcases h a (by simp) with rfl | rfl
    · refine ⟨by linarith, by linarith, ?_⟩
      constructor
      · intro e; linarith
      · intro e
        exact absurd (e 0 (by simp)) (by norm_num)
    · refine ⟨by linarith, by linarith, ?_⟩
      simp only [List.forall_mem_cons, true_and]
      rw [← h3]
      constructor <;> intro e <;> linarith

theorem sum_nonneg_zero (t : List ℚ) (h : ∀ x ∈ t, 0 ≤ x) : 0 ≤ t.sum ∧ (t.sum = 0 ↔ ∀ x ∈ t, x = 0) := by
  induction t with
  | nil => simp
  | cons a t ih =>
    obtain ⟨h1, h2⟩ := ih fun x hx => h x (by simp [hx])
    have ha := h a (by simp)
    rw [List.sum_cons]
    refine ⟨by linarith, ?_⟩
    simp only [List.forall_mem_cons]
    rw [← h2]
    constructor
    · intro e; exact ⟨by linarith, by linarith⟩
    · rintro ⟨e1, e2⟩; rw [e1, e2]; norm_num

theorem meanOf_ok (t : List ℚ) (h : 0 < t.length) : meanOf t = .ok (t.sum / t.length) := by
  unfold meanOf
  rw [if_neg (by omega)]

/-- The accuracy of the predicted splits is the proportion of the nodes whose larger logit is the right one. -/
theorem accuracy_spec (l : List (Fin 2 → ℚ)) (m : List Bool) (hl : l.length = m.length) (hp : 0 < l.length) :
    ∃ a, splitAccuracy l m = .ok a ∧ a * l.length = ((l.zip m).countP fun p => decide (p.1 0 < p.1 1) == p.2) ∧ 0 ≤ a ∧ a ≤ 1 ∧
      (a = 1 ↔ l.map (fun v => decide (v 0 < v 1)) = m) := by
  have hpq : (0 : ℚ) < l.length := by exact_mod_cast hp
  have e : List.zipWith (fun (v : Fin 2 → ℚ) b => if argmax2 (v 0, v 1) = (if b then 1 else 0) then (1 : ℚ) else 0) l m =
      (l.zip m).map fun p => if (decide (p.1 0 < p.1 1) == p.2) = true then 1 else 0 := by
    rw [List.zip, List.map_zipWith]
    congr 1
    funext v b
    unfold argmax2
    cases b <;> by_cases hv : v 0 < v 1 <;> simp [hv]
  have hlen : (l.zip m).length = l.length := by rw [List.length_zip]; omega
  have hs : ((l.zip m).map fun p => if (decide (p.1 0 < p.1 1) == p.2) = true then (1 : ℚ) else 0).sum =
      ((l.zip m).countP fun p => decide (p.1 0 < p.1 1) == p.2) := by
    generalize l.zip m = z
    induction z with
    | nil => simp
    | cons p z ih =>
      rw [List.map_cons, List.sum_cons, ih, List.countP_cons]
      split
      · push_cast; ring
      · push_cast; ring
  have hcl : (l.zip m).countP (fun p => decide (p.1 0 < p.1 1) == p.2) ≤ l.length := by
    have : (l.zip m).countP (fun p => decide (p.1 0 < p.1 1) == p.2) ≤ (l.zip m).length := List.countP_le_length
    omega
  refine ⟨((l.zip m).countP fun p => decide (p.1 0 < p.1 1) == p.2 : ℕ) / l.length, ?_, ?_, ?_, ?_, ?_⟩
  · unfold splitAccuracy
    rw [if_pos hl, e, meanOf_ok _ (by rw [List.length_map, hlen]; exact hp), hs, List.length_map, hlen]
  · field_simp
  · positivity
  · rw [div_le_one hpq]
    exact_mod_cast hcl
  · rw [div_eq_one_iff_eq hpq.ne', Nat.cast_inj]
    rw [← hlen, List.countP_eq_length]
    constructor
    · intro h
      apply List.ext_getElem (by simpa using hl)
      intro i h1 h2
      have h3 := h (l[i]'(by simpa using h1), m[i]) (by
        rw [List.mem_iff_getElem]
        exact ⟨i, by rw [hlen]; simpa using h1, by simp⟩)
      simpa using h3
    · rintro rfl p hp'
      obtain ⟨i, hi, rfl⟩ := List.mem_iff_getElem.1 hp'
      simp

theorem sq_row (g h : List ℚ) (hl : g.length = h.length) :
    0 ≤ (List.zipWith (fun a b => (a - b) ^ 2) g h).sum ∧ ((List.zipWith (fun a b => (a - b) ^ 2) g h).sum = 0 ↔ g = h) := by
  induction g generalizing h with
  | nil =>
    cases h with
    | nil => simp
    | cons b h => simp at hl
  | cons a g ih =>
    cases h with
    | nil => simp at hl
    | cons b h =>
      obtain ⟨i1, i2⟩ := ih h (by simpa using hl)
      rw [List.zipWith_cons_cons, List.sum_cons, List.cons.injEq, ← i2]
      have := sq_nonneg (a - b)
      refine ⟨by linarith, ?_⟩
      constructor
      · intro e
        have h1 : (a - b) ^ 2 = 0 := by linarith
        exact ⟨by have := pow_eq_zero_iff (two_ne_zero) |>.1 h1; linarith, by linarith⟩
      · rintro ⟨rfl, e⟩
        rw [e]; ring

theorem reg_spec (gt : List (List ℚ)) (c : Nat) (s : List (Fin c → ℚ)) (hl : gt.length = s.length) (hw : ∀ r ∈ gt, r.length = c) (hp : 0 < gt.length) :
    ∃ r, regLoss gt ⟨c, s⟩ = .ok r ∧ 0 ≤ r ∧ (r = 0 ↔ gt = s.map List.ofFn) ∧
      ∀ (i : Nat) (g : List ℚ) v, gt[i]? = some g → s[i]? = some v → (List.zipWith (fun a b => (a - b) ^ 2) g (List.ofFn v)).sum ≤ r * gt.length := by
  have hpq : (0 : ℚ) < gt.length := by exact_mod_cast hp
  set z := List.zipWith (fun (g : List ℚ) (v : Fin c → ℚ) => (List.zipWith (fun a b => (a - b) ^ 2) g (List.ofFn v)).sum) gt s with hz
  have hzl : z.length = gt.length := by rw [hz, List.length_zipWith]; omega
  have hz0 : 0 ≤ z.sum ∧ (z.sum = 0 ↔ gt = s.map List.ofFn) := by
    clear hzl hpq hp
    rw [hz]
    clear hz
    clear z
    induction gt generalizing s with
    | nil =>
      cases s with
      | nil => simp
      | cons b h => simp at hl
    | cons a g ih =>
      cases s with
      | nil => simp at hl
      | cons b h =>
        obtain ⟨i1, i2⟩ := ih h (by simpa using hl) (fun r hr => hw r (by simp [hr]))
        obtain ⟨j1, j2⟩ := sq_row a (List.ofFn b) (by rw [List.length_ofFn]; exact hw a (by simp))
        rw [List.zipWith_cons_cons, List.sum_cons, List.map_cons, List.cons.injEq, ← i2, ← j2]
        refine ⟨by linarith, ?_⟩
        constructor
        · intro e; exact ⟨by linarith, by linarith⟩
        · rintro ⟨e1, e2⟩; linarith
  have hznn : ∀ y ∈ z, 0 ≤ y := by
    intro y hy
    rw [hz, List.mem_iff_getElem] at hy
    obtain ⟨i, hi, rfl⟩ := hy
    rw [List.length_zipWith] at hi
    rw [List.getElem_zipWith]
    exact (sq_row _ _ (by rw [List.length_ofFn]; exact hw _ (List.getElem_mem _))).1
  refine ⟨z.sum / gt.length, ?_, div_nonneg hz0.1 hpq.le, ?_, ?_⟩
  · unfold regLoss
    rw [if_pos ⟨hl, by rw [List.all_eq_true]; intro r hr; simpa using hw r hr⟩, ← hz, meanOf_ok _ (by omega), hzl]
  · rw [div_eq_zero_iff, ← hz0.2]
    simp [hpq.ne']
  · intro i g v hg hv
    rw [div_mul_cancel₀ _ hpq.ne']
    apply List.single_le_sum hznn
    rw [hz, List.mem_iff_getElem?]
    exact ⟨i, by rw [List.getElem?_zipWith, hg, hv]⟩

/-! ## C89: evaluation -/

theorem valid_withSignal {o : Octree F} {h : Nat} (w : o.Valid h) (depth : Nat) (s : List (Fin 4 → ℚ)) : (withSignal o depth s).Valid h :=
  ⟨w.depth_le, w.h_le, w.full_le, w.batch_le, w.wf⟩

theorem aeEval_run (nrm : V3 ℚ → V3 ℚ) {depth : Nat} {run : M (AeState F)} {st : AeState F} (hst : run = .ok st) (w : st.octree.Valid depth) (hd : st.octree.depth = depth) (signal : List (Fin 4 → ℚ))
    (hs : st.deconv = ⟨4, signal⟩) (cells : List Cell) (ch : List Int) (hc : CellsOf st.octree.batchSize depth st.octree.keys cells)
    (hch : st.octree.children depth = some ch) (hl : signal.length = (nonEmpty cells ch).length) :
    evalClouds nrm depth run = .ok ((List.range st.octree.batchSize).map fun b =>
      (((nonEmpty cells ch).zip signal).filter fun p => p.1.b = b).map fun p => orientedPoint depth p.1 (nrm ⟨p.2 0, p.2 1, p.2 2⟩) (p.2 3)) := by
  subst hd
  have := C89_octree2pts nrm (withSignal st.octree st.octree.depth signal) (valid_withSignal w _ _) cells ch hc hch signal (by simp [withSignal]) hl
  unfold evalClouds
  rw [hst]
  simp only [bind, Except.bind]
  rw [hs]
  exact this

/-- **C89** The evaluation of the autoencoder returns, for every octree of the input, one cloud per sample; the clouds consist of one oriented point per
non-empty node of the generated octree at the finest depth. -/
theorem C89_eval (P : Params) (nrm : V3 ℚ → V3 ℚ) {o : Octree F} {h : Nat} (w : o.Valid h) (depth full : Nat) (hf : 1 ≤ full) (hfd : full ≤ depth) (hd9 : depth ≤ 9)
    (hD : depth ≤ h) (hfull : full ≤ o.fullDepth) (hB : 1 ≤ o.batchSize)
    (hn : ∀ d, 1 ≤ d → d ≤ depth → NeighExact o.batchSize d o.keys o.neighs) (cin : Nat) (hc : WidthOk cin) (x : List (Fin cin → ℚ))
    (hx : x.length = o.nnum depth) :
    ∃ st cells ch signal, autoEncoder P cin 4 depth full o true ⟨cin, x⟩ = .ok st ∧ st.octree.Valid depth ∧ st.deconv = ⟨4, signal⟩ ∧
      CellsOf o.batchSize depth st.octree.keys cells ∧ st.octree.children depth = some ch ∧ signal.length = (nonEmpty cells ch).length ∧
      aeEval P nrm cin depth full o ⟨cin, x⟩ = .ok ((List.range o.batchSize).map fun b =>
        (((nonEmpty cells ch).zip signal).filter fun p => p.1.b = b).map fun p => orientedPoint depth p.1 (nrm ⟨p.2 0, p.2 1, p.2 2⟩) (p.2 3)) := by
  obtain ⟨st, h1, h2, h3, h4, h5, h6, h7, ⟨s, h8, h9⟩, -⟩ := C77_autoencoder_update P w depth full hf hfd hd9 hD hfull hB hn cin 4 hc x hx
  have e8 := Except.ok.inj h8
  have hcells := h2.wf'.cellsOf depth (le_refl _)
  have hch := h2.wf'.children depth (le_refl _)
  have hl : s.length = (nonEmpty (layerCells st.octree.batchSize st.octree.masks depth) (number 0 (st.octree.masks depth))).length := by
    have := queried_length h2 depth (le_refl _) true _ _ hcells hch
    rw [h9]
    exact this.symm
  have := aeEval_run nrm h1 h2 h3 s e8 _ _ hcells hch hl
  rw [h5] at this hcells hl
  rw [h5] at *
  exact ⟨st, _, _, s, h1, h2, e8, hcells, hch, hl, this⟩

/-! ## C90 -/

theorem lossAt_spec (nll : (Fin 2 → ℚ) → Bool → ℚ) (t : Octree F) (d : Nat) (hd : d ≤ t.depth) (ch : List Int) (hch : t.children d = some ch)
    (l : List (Fin 2 → ℚ)) (hl : l.length = ch.length) (hp : 0 < l.length) :
    ∃ a, lossAt nll t d ⟨2, l⟩ = .ok ((List.zipWith nll l (ch.map fun c => decide (0 ≤ c))).sum / l.length, a) ∧
      splitAccuracy l (ch.map fun c => decide (0 ≤ c)) = .ok a := by
  obtain ⟨a, ha, -⟩ := accuracy_spec l (ch.map fun c => decide (0 ≤ c)) (by simpa using hl) hp
  refine ⟨a, ?_, ha⟩
  have hm : t.nemptyMask d = .ok (ch.map fun c => decide (0 ≤ c)) := by
    unfold Octree.nemptyMask Octree.chk
    rw [if_pos hd, hch]
    rfl
  have hce : crossEntropy nll l (ch.map fun c => decide (0 ≤ c)) = .ok ((List.zipWith nll l (ch.map fun c => decide (0 ≤ c))).sum / l.length) := by
    unfold crossEntropy
    rw [if_pos (by simpa using hl), meanOf_ok _ (by simp; omega)]
    simp [hl]
  unfold lossAt
  rw [hm]
  simp only [Tensor.as, dite_true, bind, Except.bind, hce, ha]
  rfl

/-- The losses of a run with the given shapes. -/
theorem loss_core (nll : (Fin 2 → ℚ) → Bool → ℚ) (cout : Nat) {depth full : Nat}
    {t : Octree (Fin k → ℚ)} (w : t.Valid depth) (hpos : ∀ d ≤ depth, 0 < t.nnumNempty d)
    (gt : List (List ℚ)) (hg : t.inputFeature "ND" true = .ok gt) (hgl : gt.length = t.nnumNempty depth) (hgw : ∀ r ∈ gt, r.length = cout)
    (st : AeState (Fin k → ℚ)) (hs : HasShape (.ok st.deconv) (t.nnumNempty depth) cout) (h4 : st.logits.length = depth + 1 - full)
    (h5 : ∀ d, full ≤ d → d ≤ depth → ∃ l, st.logits[d - full]? = some l ∧ HasShape (.ok l) (t.nnum d) 2) :
    ∃ L signal, st.deconv = ⟨cout, signal⟩ ∧
      computeLoss nll full t st.logits st.deconv = .ok L ∧ L.loss.length = depth + 1 - full ∧ L.accu.length = depth + 1 - full ∧
      (∀ d, full ≤ d → d ≤ depth → ∃ l ch loss a, st.logits[d - full]? = some ⟨2, l⟩ ∧ t.children d = some ch ∧ l.length = ch.length ∧
        L.loss[d - full]? = some loss ∧ L.accu[d - full]? = some a ∧
        loss * ch.length = (List.zipWith nll l (ch.map fun c => decide (0 ≤ c))).sum ∧
        a * ch.length = ((l.zip ch).countP fun p => decide (p.1 0 < p.1 1) == decide (0 ≤ p.2)) ∧ 0 ≤ a ∧ a ≤ 1) ∧
      ((∀ a ∈ L.accu, a = 1) ↔ PredictsOctree t full depth st.logits) ∧
      0 ≤ L.reg ∧ (L.reg = 0 ↔ gt = signal.map List.ofFn) ∧ ∀ (i : Nat) (g : List ℚ) v, gt[i]? = some g → signal[i]? = some v →
        (List.zipWith (fun a b => (a - b) ^ 2) g (List.ofFn v)).sum ≤ L.reg * gt.length := by
  obtain ⟨s, h3, h3'⟩ := hs
  have e3 := Except.ok.inj h3
  obtain ⟨reg, r1, r2, r3, r4⟩ := reg_spec gt cout s (by omega) hgw (by rw [hgl]; exact hpos _ (le_refl _))
  -- the layers
  have hlay : ∀ d, full ≤ d → d ≤ depth → ∃ l ch loss a, st.logits[d - full]? = some ⟨2, l⟩ ∧ t.children d = some ch ∧ l.length = ch.length ∧
      lossAt nll t d ⟨2, l⟩ = .ok (loss, a) ∧ loss * ch.length = (List.zipWith nll l (ch.map fun c => decide (0 ≤ c))).sum ∧
        a * ch.length = ((l.zip ch).countP fun p => decide (p.1 0 < p.1 1) == decide (0 ≤ p.2)) ∧ 0 ≤ a ∧ a ≤ 1 ∧
        (a = 1 ↔ l.map (fun v => decide (v 0 < v 1)) = ch.map fun c => decide (0 ≤ c)) := by
    intro d hd1 hd2
    obtain ⟨T, hT, l, hl, hl'⟩ := h5 d hd1 hd2
    have eT := Except.ok.inj hl
    subst eT
    have hch := w.wf'.children d hd2
    have hnn := wf_nnum w.wf' d hd2
    have hlen : (number 0 (t.masks d)).length = (t.masks d).length := by simp
    have hp : 0 < l.length := by
      have h0 := hpos d hd2
      rw [w.wf'.nnumNempty _ hd2] at h0
      rw [hl', hnn]
      exact lt_of_lt_of_le h0 List.count_le_length
    generalize number 0 (t.masks d) = ch at *
    have hlc : l.length = ch.length := by omega
    obtain ⟨a, ha1, ha2⟩ := lossAt_spec nll t d (le_trans hd2 w.h_le) ch hch l hlc hp
    obtain ⟨a', hb1, hb2, hb3, hb4, hb5⟩ := accuracy_spec l (ch.map fun c => decide (0 ≤ c)) (by simpa using hlc) hp
    rw [ha2] at hb1
    cases hb1
    refine ⟨l, ch, _, a, hT, hch, hlc, ha1, ?_, ?_, hb3, hb4, hb5⟩
    · rw [← hlc]
      have : (l.length : ℚ) ≠ 0 := by exact_mod_cast hp.ne'
      field_simp
    · rw [← hlc, hb2, List.zip_map_right, List.countP_map]
      rfl
  -- the loop
  choose! l ch loss a g1 g2 g3 g4 g5 g6 g7 g8 g9 using hlay
  have hmap : st.logits.zipIdx.mapM (fun p => lossAt nll t (full + p.2) p.1) =
      .ok (st.logits.zipIdx.map fun p => (loss (full + p.2), a (full + p.2))) := by
    apply mapM_zipIdx_ok
    intro i T hT
    have hi : i < st.logits.length := (List.getElem?_eq_some_iff.1 hT).1
    have h := g1 (full + i) (by omega) (by omega)
    rw [show full + i - full = i by omega, hT] at h
    cases h
    exact g4 (full + i) (by omega) (by omega)
  have hrun : computeLoss nll full t st.logits st.deconv = .ok ⟨(st.logits.zipIdx.map fun p => (loss (full + p.2), a (full + p.2))).map Prod.fst,
      (st.logits.zipIdx.map fun p => (loss (full + p.2), a (full + p.2))).map Prod.snd, reg⟩ := by
    unfold computeLoss
    simp only [bind, Except.bind, hmap, hg]
    rw [e3, r1]
    rfl
  have hget : ∀ d, full ≤ d → d ≤ depth → (st.logits.zipIdx.map fun p => (loss (full + p.2), a (full + p.2)))[d - full]? = some (loss d, a d) := by
    intro d hd1 hd2
    rw [List.getElem?_map, List.getElem?_zipIdx, g1 d hd1 hd2]
    simp only [Option.map_some, Nat.zero_add]
    rw [show full + (d - full) = d by omega]
  refine ⟨_, s, e3, hrun, by simpa using h4, by simpa using h4, ?_, ?_, r2, r3, r4⟩
  · intro d hd1 hd2
    refine ⟨l d, ch d, loss d, a d, g1 d hd1 hd2, g2 d hd1 hd2, g3 d hd1 hd2, ?_, ?_, g5 d hd1 hd2, g6 d hd1 hd2, g7 d hd1 hd2, g8 d hd1 hd2⟩
    · rw [List.getElem?_map, hget d hd1 hd2]; rfl
    · rw [List.getElem?_map, hget d hd1 hd2]; rfl
  · constructor
    · intro H d hd1 hd2
      refine ⟨l d, ch d, g1 d hd1 hd2, g2 d hd1 hd2, (g9 d hd1 hd2).1 (H _ ?_)⟩
      rw [List.mem_iff_getElem?]
      exact ⟨d - full, by rw [List.getElem?_map, hget d hd1 hd2]; rfl⟩
    · intro H b hb
      obtain ⟨i, hi⟩ := List.mem_iff_getElem?.1 hb
      have hil : i < st.logits.length := by
        have := (List.getElem?_eq_some_iff.1 hi).1
        simpa using this
      have hgi := hget (full + i) (by omega) (by omega)
      rw [show full + i - full = i by omega] at hgi
      rw [List.getElem?_map, hgi] at hi
      cases hi
      obtain ⟨l', ch', e1, e2, e4⟩ := H (full + i) (by omega) (by omega)
      rw [g1 (full + i) (by omega) (by omega)] at e1
      rw [g2 (full + i) (by omega) (by omega)] at e2
      cases e1
      cases e2
      exact (g9 (full + i) (by omega) (by omega)).2 e4

/-- **C90** The training loss of the autoencoder: on every octree without empty layers the loss is computed; there is one split loss and one accuracy per
depth; the accuracy is the proportion of the nodes of the layer whose split is predicted correctly; the regression loss is 0 if and only if the
predicted signal is the normal and displacement signal of the octree, and the squared error at a leaf is at most the regression loss times the number of leaves. -/
theorem C90_loss (P : Params) (nll : (Fin 2 → ℚ) → Bool → ℚ) (cin cout : Nat) (hc : WidthOk cin) {depth full : Nat} (hf : 1 ≤ full) (hfd : full ≤ depth)
    (hd9 : depth ≤ 9) {t : Octree (Fin k → ℚ)} (w : t.Valid depth) (hpos : ∀ d ≤ depth, 0 < t.nnumNempty d)
    (hn : ∀ d, 1 ≤ d → d ≤ depth → NeighExact t.batchSize d t.keys t.neighs) (x : List (Fin cin → ℚ)) (hx : x.length = t.nnum depth)
    (gt : List (List ℚ)) (hg : t.inputFeature "ND" true = .ok gt) (hgl : gt.length = t.nnumNempty depth) (hgw : ∀ r ∈ gt, r.length = cout) :
    ∃ st L signal, autoEncoder P cin cout depth full t false ⟨cin, x⟩ = .ok st ∧ st.deconv = ⟨cout, signal⟩ ∧
      aeForward P nll cin cout depth full t ⟨cin, x⟩ = .ok L ∧ L.loss.length = depth + 1 - full ∧ L.accu.length = depth + 1 - full ∧
      (∀ d, full ≤ d → d ≤ depth → ∃ l ch loss a, st.logits[d - full]? = some ⟨2, l⟩ ∧ t.children d = some ch ∧ l.length = ch.length ∧
        L.loss[d - full]? = some loss ∧ L.accu[d - full]? = some a ∧
        loss * ch.length = (List.zipWith nll l (ch.map fun c => decide (0 ≤ c))).sum ∧
        a * ch.length = ((l.zip ch).countP fun p => decide (p.1 0 < p.1 1) == decide (0 ≤ p.2)) ∧ 0 ≤ a ∧ a ≤ 1) ∧
      ((∀ a ∈ L.accu, a = 1) ↔ PredictsOctree t full depth st.logits) ∧
      0 ≤ L.reg ∧ (L.reg = 0 ↔ gt = signal.map List.ofFn) ∧ ∀ (i : Nat) (g : List ℚ) v, gt[i]? = some g → signal[i]? = some v →
        (List.zipWith (fun a b => (a - b) ^ 2) g (List.ofFn v)).sum ≤ L.reg * gt.length := by
  obtain ⟨st, h1, h2, h3, h4, h5⟩ := C77_autoencoder P w depth full hf hfd hd9 (le_refl _) hn cin cout hc x hx
  obtain ⟨L, signal, e1, e2, e3⟩ := loss_core nll cout w hpos gt hg hgl hgw st h3 h4 h5
  refine ⟨st, L, signal, h1, e1, ?_, e3⟩
  unfold aeForward
  rw [h1]
  exact e2

/-- **C90** A small loss means a right prediction: if a wrong prediction at a node costs at least `c` (for the cross entropy `log 2`) and the split loss of a
depth is below `c` divided by the number of its nodes, then its accuracy is 1. -/
theorem C90_small_loss (nll : (Fin 2 → ℚ) → Bool → ℚ) (hnll : ∀ v b, 0 ≤ nll v b) (c : ℚ) (hwrong : ∀ v b, decide (v 0 < v 1) ≠ b → c ≤ nll v b)
    (t : Octree F) (d : Nat) (hd : d ≤ t.depth) (ch : List Int) (hch : t.children d = some ch) (l : List (Fin 2 → ℚ)) (hl : l.length = ch.length)
    (hp : 0 < l.length) : ∃ loss a, lossAt nll t d ⟨2, l⟩ = .ok (loss, a) ∧ 0 ≤ loss ∧ (loss < c / ch.length → a = 1) := by
  obtain ⟨a, h1, h2⟩ := lossAt_spec nll t d hd ch hch l hl hp
  obtain ⟨a', h3, -, -, -, h4⟩ := accuracy_spec l (ch.map fun c => decide (0 ≤ c)) (by simpa using hl) hp
  rw [h2] at h3
  cases h3
  have hpq : (0 : ℚ) < ch.length := by rw [← hl]; exact_mod_cast hp
  have hnn : ∀ x ∈ List.zipWith nll l (ch.map fun c => decide (0 ≤ c)), 0 ≤ x := by
    intro x hx
    rw [List.mem_iff_getElem] at hx
    obtain ⟨i, hi, rfl⟩ := hx
    rw [List.getElem_zipWith]
    exact hnll _ _
  refine ⟨_, a, h1, ?_, ?_⟩
  · exact div_nonneg (sum_nonneg_zero _ hnn).1 (Nat.cast_nonneg _)
  · intro hlt
    rw [hl, div_lt_div_iff_of_pos_right hpq] at hlt
    rw [h4]
    by_contra hne
    have : ∃ i, ∃ (h1 : i < l.length) (h2 : i < ch.length), decide (l[i] 0 < l[i] 1) ≠ decide (0 ≤ ch[i]) := by
      by_contra hno
      push Not at hno
      apply hne
      apply List.ext_getElem (by simpa using hl)
      intro i h1 h2
      simpa using hno i (by simpa using h1) (by simpa using h2)
    obtain ⟨i, hi1, hi2, hi3⟩ := this
    have hm : nll l[i] (decide (0 ≤ ch[i])) ∈ List.zipWith nll l (ch.map fun c => decide (0 ≤ c)) := by
      rw [List.mem_iff_getElem]
      exact ⟨i, by simp; omega, by simp⟩
    have := List.single_le_sum hnn _ hm
    have := hwrong _ _ hi3
    linarith

theorem loss_key (s : String) : hasSub "loss" ("loss_" ++ s) = true := by
  rw [hasSub_iff]
  refine ⟨[], '_' :: s.toList, ?_⟩
  rw [String.toList_append]
  rfl

theorem accu_key (n : Nat) : hasSub "loss" ("accu_" ++ toString n) = false := by
  rw [Bool.eq_false_iff, ne_eq, hasSub_iff]
  intro h
  have hl : 'l' ∈ ("accu_" ++ toString n).toList := h.subset (by decide)
  rw [String.toList_append, List.mem_append] at hl
  rcases hl with hl | hl
  · exact absurd hl (by decide)
  · rw [Nat.toString_eq_repr, Nat.repr_eq_ofList_toDigits, String.toList_ofList] at hl
    exact absurd (Nat.isDigit_of_mem_toDigits (by decide) (by decide) hl) (by decide)

/-- **C90** The total loss that is minimised is the sum of the split losses of all depths and of the regression loss: the accuracies, which are reported in
the same dictionary, are not in it. -/
theorem C90_total (full : Nat) (L : AeLoss) (h : L.loss.length = L.accu.length) : L.total full = L.loss.sum + L.reg := by
  have key : ∀ (z : List (ℚ × ℚ)) (i : Nat),
      (((z.zipIdx i).flatMap fun p => [("loss_" ++ toString (full + p.2), p.1.1), ("accu_" ++ toString (full + p.2), p.1.2)]).filter fun e => hasSub "loss" e.1).map Prod.snd
        = z.map Prod.fst := by
    intro z
    induction z with
    | nil => intro i; rfl
    | cons a z ih =>
      intro i
      rw [List.zipIdx_cons, List.flatMap_cons, List.filter_append, List.map_append, ih (i + 1), List.filter_cons, List.filter_cons]
      simp only [loss_key, accu_key, if_true]
      rfl
  unfold AeLoss.total AeLoss.items
  rw [List.filter_append, List.map_append, List.sum_append, key, List.map_fst_zip (by omega)]
  rw [List.filter_cons, if_pos (show hasSub "loss" "loss_reg" = true from loss_key "reg")]
  simp

/-- **C90** A small total loss means that every split is predicted right and bounds the error of the signal at every leaf: `c` is the least cost of a wrong
prediction (for the cross entropy `log 2`). -/
theorem C90_small_total (P : Params) (nll : (Fin 2 → ℚ) → Bool → ℚ) (hnll : ∀ v b, 0 ≤ nll v b) (c : ℚ) (hwrong : ∀ v b, decide (v 0 < v 1) ≠ b → c ≤ nll v b)
    (cin cout : Nat) (hc : WidthOk cin) {depth full : Nat} (hf : 1 ≤ full) (hfd : full ≤ depth)
    (hd9 : depth ≤ 9) {t : Octree (Fin k → ℚ)} (w : t.Valid depth) (hpos : ∀ d ≤ depth, 0 < t.nnumNempty d)
    (hn : ∀ d, 1 ≤ d → d ≤ depth → NeighExact t.batchSize d t.keys t.neighs) (x : List (Fin cin → ℚ)) (hx : x.length = t.nnum depth)
    (gt : List (List ℚ)) (hg : t.inputFeature "ND" true = .ok gt) (hgl : gt.length = t.nnumNempty depth) (hgw : ∀ r ∈ gt, r.length = cout) :
    ∃ st L signal, autoEncoder P cin cout depth full t false ⟨cin, x⟩ = .ok st ∧ st.deconv = ⟨cout, signal⟩ ∧
      aeForward P nll cin cout depth full t ⟨cin, x⟩ = .ok L ∧ 0 ≤ L.total full ∧
      ((∀ d, full ≤ d → d ≤ depth → L.total full < c / t.nnum d) → PredictsOctree t full depth st.logits) ∧
      ∀ (i : Nat) (g : List ℚ) v, gt[i]? = some g → signal[i]? = some v →
        (List.zipWith (fun a b => (a - b) ^ 2) g (List.ofFn v)).sum ≤ L.total full * gt.length := by
  obtain ⟨st, L, signal, e1, e2, e3, e4, e5, e6, e7, e8, -, e10⟩ := C90_loss P nll cin cout hc hf hfd hd9 w hpos hn x hx gt hg hgl hgw
  have htot := C90_total full L (by omega)
  have hlen : ∀ d ≤ depth, ∀ ch, t.children d = some ch → ch.length = t.nnum d ∧ 0 < ch.length := by
    intro d hd ch hch
    have h0 := hpos d hd
    rw [w.wf'.nnumNempty _ hd] at h0
    rw [w.wf'.children d hd] at hch
    rw [wf_nnum w.wf' d hd, ← Option.some.inj hch]
    exact ⟨by simp, by simpa using lt_of_lt_of_le h0 List.count_le_length⟩
  have hnn : ∀ (l : List (Fin 2 → ℚ)) (m : List Bool), 0 ≤ (List.zipWith nll l m).sum := by
    intro l m
    apply List.sum_nonneg
    intro y hy
    rw [List.mem_iff_getElem] at hy
    obtain ⟨j, hj, rfl⟩ := hy
    rw [List.getElem_zipWith]
    exact hnll _ _
  have hloss : ∀ v ∈ L.loss, 0 ≤ v := by
    intro v hv
    obtain ⟨i, hi, rfl⟩ := List.getElem_of_mem hv
    obtain ⟨l, ch, loss, a, -, f2, f3, f4, -, f6, -⟩ := e6 (full + i) (by omega) (by omega)
    rw [show full + i - full = i by omega, List.getElem?_eq_getElem hi] at f4
    rw [Option.some.inj f4]
    have h0 := hnn l (ch.map fun c => decide (0 ≤ c))
    have hl0 : (0 : ℚ) < ch.length := by exact_mod_cast (hlen (full + i) (by omega) ch f2).2
    by_contra hneg
    have : loss * ch.length < 0 := mul_neg_of_neg_of_pos (not_le.1 hneg) hl0
    linarith
  have hsum : 0 ≤ L.loss.sum := List.sum_nonneg hloss
  refine ⟨st, L, signal, e1, e2, e3, by rw [htot]; linarith, fun H => ?_, fun i g v h1 h2 => ?_⟩
  · apply e7.1
    intro a ha
    obtain ⟨i, hi, rfl⟩ := List.getElem_of_mem ha
    obtain ⟨l, ch, loss, a, -, f2, f3, f4, f5, f6, f7, -⟩ := e6 (full + i) (by omega) (by omega)
    obtain ⟨g1, g2⟩ := hlen (full + i) (by omega) ch f2
    rw [show full + i - full = i by omega] at f4 f5
    rw [List.getElem?_eq_getElem hi] at f5
    rw [Option.some.inj f5]
    have hq : (ch.length : ℚ) ≠ 0 := by exact_mod_cast g2.ne'
    obtain ⟨loss', a', k1, k2, k3⟩ := C90_small_loss nll hnll c hwrong t (full + i) (le_trans (by omega) w.h_le) ch f2 l f3 (by omega)
    obtain ⟨a2, m1, m2⟩ := lossAt_spec nll t (full + i) (le_trans (by omega) w.h_le) ch f2 l f3 (by omega)
    obtain ⟨a3, n1, n2, -⟩ := accuracy_spec l (ch.map fun c => decide (0 ≤ c)) (by simpa using f3) (by omega)
    rw [m1] at k1
    obtain ⟨rfl, rfl⟩ := Prod.mk.inj (Except.ok.inj k1)
    rw [m2] at n1
    have n1 := Except.ok.inj n1
    subst n1
    have hle : loss ≤ L.loss.sum := List.single_le_sum hloss _ (List.mem_of_getElem? f4)
    have hH := H (full + i) (by omega) (by omega)
    have hl' : (List.zipWith nll l (ch.map fun c => decide (0 ≤ c))).sum / (l.length : ℚ) = loss := by
      rw [f3, ← f6]
      field_simp
    have ha1 : a2 = 1 := k3 (by rw [hl', g1]; rw [htot] at hH; linarith)
    have heq : a * ch.length = a2 * ch.length := by
      rw [f7, ← f3, n2, List.zip_map_right, List.countP_map]
      rfl
    rw [← ha1]
    exact mul_right_cancel₀ hq heq
  · refine le_trans (e10 i g v h1 h2) ?_
    rw [htot]
    apply mul_le_mul_of_nonneg_right _ (Nat.cast_nonneg _)
    linarith

theorem built_pos [AddCommMonoid F] (nrm : V3 ℚ → V3 ℚ) (divF : ℚ → F → F) (o : Octree F)
    (pc : Points ℚ F L) (samples : List Nat) (h : LegalBuild o pc samples) (hne : pc.points ≠ []) {o' : Octree F} {idx : List Nat}
    (hb : Octree.build nrm divF o pc = .ok (o', idx)) : 1 ≤ o.batchSize ∧ ∀ d ≤ o.depth, 0 < o'.nnumNempty d := by
  obtain ⟨o1, idx1, cells, ch, a1, a2, a3, -, a4⟩ := C08_leaf_index nrm divF o pc samples h
  rw [hb] at a1
  cases a1
  obtain ⟨o1, idx1, b1, b2, b3, b4, b5, cellsF, chF, b6⟩ := C07_build nrm divF o pc samples h
  rw [hb] at b1
  cases b1
  have hl : 0 < pc.points.length := List.length_pos_iff.2 hne
  obtain ⟨r, c, -, hc, -⟩ := a4 0 _ _ (List.getElem?_eq_getElem hl) (List.getElem?_eq_getElem (by rw [h.cloud.length]; exact hl))
  have hcm := List.mem_of_getElem? hc
  have key : ∀ j ≤ o.depth, ∃ c, c ∈ nonEmpty (cellsF (o.depth - j)) (chF (o.depth - j)) := by
    intro j
    induction j with
    | zero =>
      intro _
      obtain ⟨u1, u2, -⟩ := b6 o.depth (le_refl _)
      rw [cells_unique (by have := h.depth; omega) a2 u1] at hcm
      rw [a3] at u2
      rw [Option.some.inj u2] at hcm
      exact ⟨c, hcm⟩
    | succ j ih =>
      intro hj
      obtain ⟨c', hc'⟩ := ih (by omega)
      obtain ⟨u1, u2, -, -, -⟩ := b6 (o.depth - j) (by omega)
      obtain ⟨v1, v2, -, -, v3⟩ := b6 (o.depth - (j + 1)) (by omega)
      rw [show o.depth - (j + 1) + 1 = o.depth - j by omega] at v3
      have hin : c' ∈ cellsF (o.depth - j) := by
        unfold nonEmpty at hc'
        rw [List.mem_filterMap] at hc'
        obtain ⟨p, hp, hp'⟩ := hc'
        split at hp'
        · cases hp'
          exact (List.of_mem_zip (a := p.1) (b := p.2) hp).1
        · cases hp'
      exact ⟨_, (v3 (by omega) c').1 hin⟩
  refine ⟨?_, fun d hd => ?_⟩
  · have := h.cloud.lt _ (List.getElem_mem (by rw [h.cloud.length]; exact hl))
    omega
  · obtain ⟨c', hc'⟩ := key (o.depth - d) (by omega)
    rw [show o.depth - (o.depth - d) = d by omega] at hc'
    obtain ⟨u1, u2, -⟩ := b6 d hd
    have := queried_length b5 d hd true _ _ (by rw [b4]; exact u1) u2
    simp only [if_true] at this
    rw [← this]
    exact List.length_pos_of_mem hc'

/-- Zero training error for two runs of a decoder, one on the octree and one that generates an octree. -/
theorem perfect_core (nll : (Fin 2 → ℚ) → Bool → ℚ) (nrm : V3 ℚ → V3 ℚ) (divF : ℚ → (Fin k → ℚ) → (Fin k → ℚ)) (o : Octree (Fin k → ℚ))
    (pc : Points ℚ (Fin k → ℚ) L) (samples : List Nat) (h : LegalBuild o pc samples) (hne : pc.points ≠ []) (hnorm : pc.normals ≠ none) {full : Nat} (hf : 1 ≤ full)
    (hfull : full ≤ o.fullDepth) :
    ∃ o' idx t, Octree.build nrm divF o pc = .ok (o', idx) ∧ o'.constructAllNeigh = .ok t ∧ t.Valid o.depth ∧ t.depth = o.depth ∧ t.batchSize = o.batchSize ∧
      1 ≤ o.batchSize ∧ full ≤ t.fullDepth ∧ (∀ d ≤ o.depth, 0 < t.nnumNempty d) ∧ (∀ d, 1 ≤ d → d ≤ o.depth → NeighExact t.batchSize d t.keys t.neighs) ∧
      ∀ (st : AeState (Fin k → ℚ)) (run : M (AeState (Fin k → ℚ))), HasShape (.ok st.deconv) (t.nnumNempty o.depth) 4 → st.logits.length = o.depth + 1 - full →
        (∀ d, full ≤ d → d ≤ o.depth → ∃ l, st.logits[d - full]? = some l ∧ HasShape (.ok l) (t.nnum d) 2) →
        (∀ st', run = .ok st' → st'.octree.Valid o.depth) →
        (PredictsOctree t full o.depth st.logits → ∃ st', run = .ok st' ∧ SameOctree st'.octree t o.depth ∧ st'.octree.depth = o.depth ∧
          st'.octree.batchSize = t.batchSize ∧ st'.logits = st.logits ∧ st'.deconv = st.deconv) →
        ∃ L, computeLoss nll full t st.logits st.deconv = .ok L ∧
        ((∀ a ∈ L.accu, a = 1) → L.reg = 0 → ∃ clouds, evalClouds nrm o.depth run = .ok clouds ∧ clouds.length = o.batchSize ∧
          ∀ b < o.batchSize, ∃ cs : List Cell, cs.Nodup ∧ (∀ c, c ∈ cs ↔ c.b = b ∧ Occupied pc.points samples o.depth c) ∧
            clouds[b]? = some (cs.map fun c =>
              let n := nrm (sumIn o.depth c (pc.points.zip samples) (pc.normals.getD []))
              orientedPoint o.depth c (nrm n) (dot3 (offsetIn o.depth c (meanPoint o.depth c pc.points samples)) n))) := by
  obtain ⟨o', idx, b1, b2, b3, b4, b5, cellsF, chF, b6⟩ := C07_build nrm divF o pc samples h
  obtain ⟨o'', idx'', nb, c1, c2, c3⟩ := C28_partial nrm divF o pc samples h (le_trans hf hfull)
  rw [b1] at c1
  cases c1
  obtain ⟨o'', idx'', cells, ch, row, d1, d2, d3, d4, -, d5⟩ := C73_input_feature nrm divF o pc samples h "ND" (fun _ => hnorm)
    (by intro hF; exact absurd hF (by decide)) (by left; decide)
  rw [b1] at d1
  cases d1
  obtain ⟨hB, hpos⟩ := built_pos nrm divF o pc samples h hne b1
  set t : Octree (Fin k → ℚ) := { o' with neighs := nb } with ht
  have wt : t.Valid o.depth := ⟨b5.depth_le, b5.h_le, b5.full_le, b5.batch_le, b5.wf⟩
  have htb : t.batchSize = o.batchSize := b4
  have hlN : (nonEmpty cells ch).length = t.nnumNempty o.depth := queried_length wt o.depth (le_refl _) true cells ch (by rw [htb]; exact d2) d3
  have hrow : ∀ c ∈ nonEmpty cells ch, (row c).length = 4 := by
    intro c hc'
    rw [(d5 c hc').1]
    rfl
  refine ⟨o', idx, t, b1, c2, wt, b2, htb, hB, (by show full ≤ o'.fullDepth; omega), hpos, (by rw [htb]; exact c3), fun st run s1 s2 s3 hval f2 => ?_⟩
  obtain ⟨L, s, e2, e3, -, -, -, e4, -, e5, -⟩ := loss_core nll 4 wt hpos ((nonEmpty cells ch).map row) d4 (by rw [List.length_map]; exact hlN)
    (by intro r hr; obtain ⟨c, hc', rfl⟩ := List.mem_map.1 hr; exact hrow c hc') st s1 s2 s3
  refine ⟨L, e3, fun hacc hreg => ?_⟩
  obtain ⟨st', g1, g2, g3, g4, -, g5⟩ := f2 (e4.1 hacc)
  have g6 := hval _ g1
  obtain ⟨k1, k2, -⟩ := g2 o.depth (le_refl _)
  have hreg' := e5.1 hreg
  have hsl : s.length = (nonEmpty cells ch).length := by
    have := congrArg List.length hreg'
    simpa using this.symm
  have hev := aeEval_run nrm g1 g6 g3 s (by rw [g5, e2]) cells ch
    (by rw [g4, htb]; exact ⟨d2.1, by rw [k1]; exact d2.2⟩) (by rw [k2]; exact d3) hsl
  rw [g4, htb] at hev
  -- the signal
  have hs : s = (nonEmpty cells ch).map fun c i => (row c).getD i.val 0 := by
    apply List.ext_getElem (by simpa using hsl)
    intro i h1 h2
    have h3 : i < (nonEmpty cells ch).length := by simpa using h2
    have h4 : row (nonEmpty cells ch)[i] = List.ofFn s[i] := by
      have := List.getElem_of_eq hreg' (i := i) (by simpa using h3)
      simpa using this
    funext j
    rw [List.getElem_map, h4]
    fin_cases j <;> rfl
  obtain ⟨u1, u2, u3, -⟩ := b6 o.depth (le_refl _)
  have ecells := cells_unique (by have := h.depth; omega) u1 d2
  rw [d3] at u2
  rw [ecells, ← Option.some.inj u2] at u3
  have hnd : (nonEmpty cells ch).Nodup :=
    (nonEmpty_keys wt (le_refl _) (by rw [htb]; exact d2) d3).imp fun hlt e => by rw [e] at hlt; exact lt_irrefl _ hlt
  refine ⟨_, hev, by simp, fun b hb => ⟨(nonEmpty cells ch).filter fun c => c.b = b, hnd.filter _, ?_, ?_⟩⟩
  · intro c
    rw [List.mem_filter, u3 h.full c]
    simp [and_comm]
  · rw [List.getElem?_map, List.getElem?_range hb]
    simp only [Option.map_some]
    congr 1
    rw [hs, ← List.map_prod_left_eq_zip, List.filter_map, List.map_map]
    apply List.map_congr_left
    intro c hc'
    have hr := (d5 c (List.mem_filter.1 hc').1).1
    simp only [Function.comp, hr]
    rfl

/-- **C90** Zero training error means a right reconstruction.  For an octree built from points with normals: if all split accuracies are 1 and the
regression loss is 0 in the training pass, then the evaluation pass, which sees only the code, returns for every sample one oriented point for every
finest cell occupied by points of the sample; it is computed from the normal of the cell and the displacement of the average of the points along it. -/
theorem C90_perfect (P : Params) (nll : (Fin 2 → ℚ) → Bool → ℚ) (nrm : V3 ℚ → V3 ℚ) (divF : ℚ → (Fin k → ℚ) → (Fin k → ℚ)) (o : Octree (Fin k → ℚ))
    (pc : Points ℚ (Fin k → ℚ) L) (samples : List Nat) (h : LegalBuild o pc samples) (hne : pc.points ≠ []) (hnorm : pc.normals ≠ none) {full : Nat} (hf : 1 ≤ full)
    (hfull : full ≤ o.fullDepth) (hd9 : o.depth ≤ 9) (cin : Nat) (hc : WidthOk cin) :
    ∃ o' idx t, Octree.build nrm divF o pc = .ok (o', idx) ∧ o'.constructAllNeigh = .ok t ∧
      ∀ x : List (Fin cin → ℚ), x.length = t.nnum o.depth → ∃ L, aeForward P nll cin 4 o.depth full t ⟨cin, x⟩ = .ok L ∧
        ((∀ a ∈ L.accu, a = 1) → L.reg = 0 → ∃ clouds, aeEval P nrm cin o.depth full t ⟨cin, x⟩ = .ok clouds ∧ clouds.length = o.batchSize ∧
          ∀ b < o.batchSize, ∃ cs : List Cell, cs.Nodup ∧ (∀ c, c ∈ cs ↔ c.b = b ∧ Occupied pc.points samples o.depth c) ∧
            clouds[b]? = some (cs.map fun c =>
              let n := nrm (sumIn o.depth c (pc.points.zip samples) (pc.normals.getD []))
              orientedPoint o.depth c (nrm n) (dot3 (offsetIn o.depth c (meanPoint o.depth c pc.points samples)) n))) := by
  obtain ⟨o', idx, t, b1, c2, wt, hdep, htb, hB, hft, hpos, hn, core⟩ := perfect_core nll nrm divF o pc samples h hne hnorm hf hfull
  refine ⟨o', idx, t, b1, c2, fun x hx => ?_⟩
  obtain ⟨st, h1, f2⟩ := C87_teacher_forcing P cin 4 hc hf hd9 wt hdep hft (by omega) hpos hn x hx
  obtain ⟨st1, h1', -, h3, h4, h5⟩ := C77_autoencoder P wt o.depth full hf (le_trans hfull h.full) hd9 (le_refl _) hn cin 4 hc x hx
  rw [h1] at h1'
  cases h1'
  obtain ⟨L, e1, e2⟩ := core st (autoEncoder P cin 4 o.depth full t true ⟨cin, x⟩) h3 h4 h5 (by
    intro st' hst'
    obtain ⟨st'', g1, g2, -⟩ := C77_autoencoder_update P wt o.depth full hf (le_trans hfull h.full) hd9 (le_refl _) hft (by omega) hn cin 4 hc x hx
    rw [g1] at hst'
    cases hst'
    exact g2) f2
  refine ⟨L, ?_, e2⟩
  unfold aeForward
  rw [h1]
  exact e1

/-! ## examples -/

/-- A cloud with a point with the normal `(0, 1, 0)` at the centre of every cell of depth 1. -/
def cloudG : Points ℚ (Fin 1 → ℚ) Unit :=
  ⟨[⟨-1/2, -1/2, -1/2⟩, ⟨-1/2, -1/2, 1/2⟩, ⟨-1/2, 1/2, -1/2⟩, ⟨-1/2, 1/2, 1/2⟩, ⟨1/2, -1/2, -1/2⟩, ⟨1/2, -1/2, 1/2⟩, ⟨1/2, 1/2, -1/2⟩, ⟨1/2, 1/2, 1/2⟩],
    some (List.replicate 8 ⟨0, 1, 0⟩), none, none, none, 1, none, 0⟩

theorem cloudG_legal : LegalBuild (Octree.new 1 1 1 0) cloudG (List.replicate 8 0) := by
  refine ⟨by simp [Octree.new], by simp [Octree.new], by simp [Octree.new], rfl,
    ⟨rfl, by simp [Octree.new], by simp [Octree.new], by simp [cloudG], by simp [cloudG]⟩, ?_⟩
  intro p hp; simp only [cloudG, List.mem_cons, List.not_mem_nil, or_false] at hp
  rcases hp with rfl | rfl | rfl | rfl | rfl | rfl | rfl | rfl <;> decide +kernel

theorem boolIndex_mem {α : Type} {m : List Bool} {xs w : List α} (h : boolIndex m xs = .ok w) : ∀ v ∈ w, v ∈ xs := by
  unfold boolIndex at h
  split at h
  · cases h
    exact fun v hv => (maskSel_sublist _ _).subset hv
  · cases h

/-- With weights zero the signal is the bias. -/
theorem signal_bias {P : Params} {cfg : DecCfg} (hw : ∀ name n k i j, P.weight name n k i j = 0) (ht : ∀ v, P.tanh v = v) {b : Nat → ℚ} (hb : ∀ name j, P.bias name j = b j)
    {cout depth full : Nat} {update : Bool} {code : Tensor} {o : Octree F} {st : AeState F} (h : aeDecoder P cfg cout depth full update code o = .ok st) :
    ∀ v ∈ st.deconv.rows, ∀ i, v i = b i := by
  unfold aeDecoder at h
  obtain ⟨s2, -, h⟩ := bind_ok h
  obtain ⟨c, -, h⟩ := bind_ok h
  obtain ⟨sig, h1, h⟩ := bind_ok h
  obtain ⟨sig', h2, h⟩ := bind_ok h
  cases h
  unfold predictModule at h1
  obtain ⟨t3, -, h1⟩ := bind_ok h1
  unfold conv1x1 linear Tensor.on at h1
  obtain ⟨y, -, h1⟩ := bind_ok h1
  obtain ⟨z, hz, h1⟩ := bind_ok h1
  cases hz
  have e := (Except.ok.inj h1).symm
  subst e
  unfold depad octreeDepad at h2
  obtain ⟨w, h3, h2⟩ := bind_ok h2
  obtain ⟨m, -, h3⟩ := bind_ok h3
  have e := (Except.ok.inj h2).symm
  subst e
  intro v hv i
  have := boolIndex_mem h3 v hv
  simp only [tanhT, List.map_map] at this
  obtain ⟨u, -, rfl⟩ := List.mem_map.1 this
  simp [Function.comp, ht, hw, hb]

/-- The hypotheses of C90 and C89 are met, with accuracy 1 and regression loss 0: the network with weights zero that always predicts children and the normal
`(0, 1, 0)`, on the octree of this cloud. -/
example : ∃ (P : Params) (nll : (Fin 2 → ℚ) → Bool → ℚ) (o' t : Octree (Fin 1 → ℚ)) (idx : List Nat) (x : List (Fin 4 → ℚ)) (L : AeLoss),
    Octree.build id (fun c v i => v i / c) (Octree.new 1 1 1 0) cloudG = .ok (o', idx) ∧ o'.constructAllNeigh = .ok t ∧ x.length = t.nnum 1 ∧
      aeForward P nll 4 4 1 1 t ⟨4, x⟩ = .ok L ∧ (∀ a ∈ L.accu, a = 1) ∧ L.accu.length = 1 ∧ L.reg = 0 := by
  let P : Params := ⟨fun _ _ _ _ => 0, fun _ j => if j = 1 then 1 else 0, fun _ _ => 1, fun _ _ => 0, fun _ _ => 0, fun _ _ => 1, false, fun _ _ _ => 1, id, id⟩
  obtain ⟨o', idx, b1, b2, b3, b4, b5, -⟩ := C07_build id (fun c v i => v i / c) _ cloudG _ cloudG_legal
  obtain ⟨o'', idx'', nb, c1, c2, c3⟩ := C28_partial id (fun c v i => v i / c) _ cloudG _ cloudG_legal (by simp [Octree.new])
  rw [b1] at c1
  cases c1
  obtain ⟨-, hpos⟩ := built_pos id (fun c v i => v i / c) _ cloudG _ cloudG_legal (by simp [cloudG]) b1
  have hdata : ((Octree.build id (fun c v i => v i / c) (Octree.new 1 1 1 0) cloudG).toOption.map fun r => (r.1.nnum 1, r.1.nnumNempty 1, r.1.children 1)) =
      some (8, 8, some [0, 1, 2, 3, 4, 5, 6, 7]) := by decide +kernel
  have n4 : ((do
      let r ← Octree.build id (fun c v i => v i / c) (Octree.new 1 1 1 0) cloudG
      r.1.inputFeature "ND" true) : M (List (List ℚ))).toOption = some (List.replicate 8 [0, 1, 0, 0]) := by decide +kernel
  rw [b1] at hdata n4
  simp only [Except.toOption, Option.map_some, Option.some.injEq, Prod.mk.injEq, bind, Except.bind] at hdata n4
  obtain ⟨n1, n2, n3⟩ := hdata
  set t : Octree (Fin 1 → ℚ) := { o' with neighs := nb } with ht
  have wt : t.Valid 1 := ⟨b5.depth_le, b5.h_le, b5.full_le, b5.batch_le, b5.wf⟩
  have hg : t.inputFeature "ND" true = .ok (List.replicate 8 [0, 1, 0, 0]) := by
    show o'.inputFeature "ND" true = _
    cases e : o'.inputFeature "ND" true with
    | error _ => rw [e] at n4; cases n4
    | ok v =>
      rw [e] at n4
      simp only [Option.some.injEq] at n4
      rw [n4]
  obtain ⟨st, L, s, e1, e2, e3, -, e6, e7, e4, -, e5, -⟩ := C90_loss P (fun _ _ => 0) 4 4 (by unfold WidthOk; norm_num) (depth := 1) (full := 1) (le_refl _) (le_refl _)
    (by norm_num) wt hpos (by show ∀ d, 1 ≤ d → d ≤ 1 → NeighExact o'.batchSize d o'.keys nb; rw [b4]; exact c3) (List.replicate 8 0) (by simp [ht, n1]) _ hg
    (by simp [ht, n2]) (by intro r hr; rw [List.eq_of_mem_replicate hr]; rfl)
  have hdec : ∃ code, aeDecoder P aeCfg 4 1 1 false code t = .ok st := by
    unfold autoEncoder at e1
    obtain ⟨code, -, e1⟩ := bind_ok e1
    exact ⟨code, e1⟩
  obtain ⟨code, hdec⟩ := hdec
  have hsig := signal_bias (P := P) (fun _ _ _ _ _ => rfl) (fun _ => rfl) (b := fun j => if j = 1 then 1 else 0) (fun _ _ => rfl) hdec
  refine ⟨P, fun _ _ => 0, o', t, idx, List.replicate 8 0, L, b1, c2, by simp [ht, n1], e3, ?_, e6, ?_⟩
  · apply e4.2
    have hlog : ∀ t ∈ st.logits, ∀ v ∈ t.rows, ∀ i : Fin t.width, v i = if i.val = 1 then 1 else 0 := by
      have h := hdec
      unfold aeDecoder at h
      obtain ⟨s2, hs, h⟩ := bind_ok h
      obtain ⟨c, -, h⟩ := bind_ok h
      obtain ⟨sig, -, h⟩ := bind_ok h
      obtain ⟨sig', -, h⟩ := bind_ok h
      cases h
      have := logits_bias P aeCfg (fun _ _ _ _ _ => rfl) (fun j => if j = 1 then 1 else 0) (fun _ _ => rfl) 1 1 false _ hs
      exact this (by simp)
    intro d hd1 hd2
    obtain rfl : d = 1 := by omega
    obtain ⟨l, ch, loss, a, l1, l2, l3, -⟩ := e7 1 (le_refl _) (le_refl _)
    refine ⟨l, ch, l1, l2, ?_⟩
    have l2' : ch = [0, 1, 2, 3, 4, 5, 6, 7] := by
      have : o'.children 1 = some ch := l2
      rw [n3] at this
      exact (Option.some.inj this).symm
    have hv : ∀ v ∈ l, v 0 < v 1 := by
      intro v hv
      have h := hlog _ (List.mem_of_getElem? l1) v hv
      rw [h 0, h 1]
      norm_num
    have : l.map (fun v => decide (v 0 < v 1)) = List.replicate l.length true := by
      rw [List.eq_replicate_iff]
      refine ⟨by simp, ?_⟩
      intro b hb
      obtain ⟨v, hv', rfl⟩ := List.mem_map.1 hb
      simpa using hv v hv'
    rw [this, l3, l2']
    rfl
  · rw [e5]
    obtain ⟨st0, q1, -, ⟨y, q2, q3⟩, -⟩ := C77_autoencoder P wt 1 1 (le_refl _) (le_refl _) (by norm_num) (le_refl _)
      (by show ∀ d, 1 ≤ d → d ≤ 1 → NeighExact o'.batchSize d o'.keys nb; rw [b4]; exact c3) 4 4 (by unfold WidthOk; norm_num) (List.replicate 8 0) (by simp [ht, n1])
    rw [e1] at q1
    cases q1
    rw [e2] at q2 hsig
    cases q2
    symm
    rw [List.eq_replicate_iff]
    refine ⟨by rw [List.length_map, q3]; exact n2, ?_⟩
    intro r hr
    obtain ⟨v, hv, rfl⟩ := List.mem_map.1 hr
    have hv' := hsig v hv
    simp only at hv'
    simp [List.ofFn_succ, hv']

/-- The unit normal of the tangency theorem: `(3/5, 0, 4/5)`. -/
example : dot3 (⟨3/5, 0, 4/5⟩ : V3 ℚ) ⟨3/5, 0, 4/5⟩ = 1 := by decide +kernel

/-- The hypothesis of `C90_small_loss`: a loss that is 1 for a wrong prediction. -/
example : ∀ (v : Fin 2 → ℚ) b, decide (v 0 < v 1) ≠ b → (1 : ℚ) ≤ (fun (v : Fin 2 → ℚ) b => if decide (v 0 < v 1) = b then 0 else 1) v b := by
  intro v b h
  simp [h]

end Ocnn
