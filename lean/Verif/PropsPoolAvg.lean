import Verif.PropsPool
import Mathlib.Algebra.Order.BigOperators.Group.List
import Mathlib.Tactic.FieldSimp
import Mathlib.Tactic.Positivity

/-! Properties C45-C47: average and global pooling. -/

set_option linter.unusedSimpArgs false

namespace Ocnn
open Spec

variable {F V : Type}

theorem listSum_apply {R : Type} [AddCommMonoid R] {C : Nat} (l : List (Fin C → R)) (j : Fin C) : l.sum j = (l.map fun v => v j).sum := by
  induction l with
  | nil => rfl
  | cons v l ih => simp [ih]

theorem indexSelect_ok {t : List V} (idx : List Nat) (h : ∀ i ∈ idx, i < t.length) (v0 : V) :
    indexSelect t idx = .ok (idx.map fun i => (t[i]?).getD v0) := by
  unfold indexSelect
  apply mapM_ok
  intro i hi
  rw [List.getElem?_eq_getElem (h i hi)]
  rfl

theorem avgRow_ok {K : Type} [Field K] {C : Nat} (data : List (Fin C → K)) (row : List Int) (h : ∀ v ∈ row, v < (data.length : Int)) :
    avgRow data row = .ok fun c => (row.map fun n => valAt data n c).sum / (((row.filter fun n => decide (n ≥ 0)).length : K) + eps8) := by
  unfold avgRow
  have hin : ∀ i ∈ (row.filter fun n => decide (n ≥ 0)).map Int.toNat, i < data.length := by
    intro i hi
    obtain ⟨n, hn, rfl⟩ := List.mem_map.1 hi
    obtain ⟨h1, h2⟩ := List.mem_filter.1 hn
    have := h n h1
    have := of_decide_eq_true h2
    omega
  simp only [indexSelect_ok _ hin (0 : Fin C → K), bind, Except.bind, pure, Except.pure, List.map_map]
  congr 1
  funext c
  simp only [one_div]
  rw [div_eq_mul_inv, mul_comm _ (_)⁻¹]
  generalize (((row.filter fun n => decide (n ≥ 0)).length : K) + eps8)⁻¹ = q
  clear h hin
  induction row with
  | nil => simp
  | cons n row ih =>
    simp only [List.filter_cons, List.map_cons, List.sum_cons, mul_add]
    by_cases hn : n ≥ 0
    · simp only [hn, decide_true, if_true, List.map_cons, List.sum_cons, ih, valAt, Function.comp]
    · simp only [hn, decide_false, Bool.false_eq_true, if_false, ih, valAt]
      simp

/-- The number of the offsets at which there is a cell. -/
def Spec.existing (srcs : List Cell) (offs : List (Int × Int × Int)) (c : Cell) : Nat :=
  offs.countP fun g => decide (∃ c' ∈ srcs, IsShift c c' g)

theorem table_existing {srcs targets : List Cell} {offs : List (Int × Int × Int)} {rows : List (List Int)}
    (h : KernelTable srcs targets offs rows) (i : Nat) (c : Cell) (row : List Int) (hc : targets[i]? = some c) (hr : rows[i]? = some row) :
    (row.filter fun n => decide (n ≥ 0)).length = existing srcs offs c := by
  obtain ⟨h1, h2⟩ := h.2 i c row hc hr
  unfold existing
  rw [← List.countP_eq_length_filter]
  clear h hc hr
  induction row generalizing offs with
  | nil => cases offs with
    | nil => rfl
    | cons g offs => simp at h1
  | cons n row ih => cases offs with
    | nil => simp at h1
    | cons g offs =>
      rw [List.countP_cons, List.countP_cons, ih (by simpa using h1) (fun k g' v hg hv => h2 (k + 1) g' v (by simpa using hg) (by simpa using hv))]
      congr 1
      have := h2 0 g n rfl rfl
      rcases this with ⟨j, c', e, e1, e2⟩ | ⟨e, e1⟩
      · have hx : ∃ c' ∈ srcs, IsShift c c' g := ⟨c', List.mem_of_getElem? e1, e2⟩
        simp [hx, e]
      · have hx : ¬ ∃ c' ∈ srcs, IsShift c c' g := fun ⟨c', a, b⟩ => e1 c' a b
        simp [hx, e]

/-- **C46.** Row `i` of the average pooling is the sum of the field over the kernel around target `i`, divided by
the number of existing neighbours plus `1e-8`. -/
theorem C46_avg_pool {K : Type} [Field K] {C : Nat} (o : Octree F) (h : Nat) (w : o.Valid h) (d : Nat) (hd : d ≤ h)
    (hn : NeighExact o.batchSize d o.keys o.neighs) (k : Nat × Nat × Nat) (hk : k ∈ supportedKernels) (nempty : Bool)
    (s : Nat) (srcs targets : List Cell) (hN : Nodes o nempty d s srcs targets) (x : List (Fin C → K))
    (f : Nat → Int → Int → Int → Fin C → K) (hf : IsField srcs x f) :
    octreeAvgPool x o d (kernelName k) s nempty = .ok (targets.map fun c => fun i =>
      ((kernelOffsets k).map fun g => around f c g i).sum / ((existing srcs (kernelOffsets k) c : K) + 1 / 10 ^ 8)) := by
  obtain ⟨⟨rows, e1, e2⟩, -, -⟩ := nodes_table o h w d hd hn k hk nempty s srcs targets hN
  obtain ⟨h1, h2⟩ := table_vals e2 hf
  unfold octreeAvgPool
  simp only [e1, bind, Except.bind]
  have h3 := mapM_ok (avgRow x) (fun row => fun c => (row.map fun n => valAt x n c).sum / (((row.filter fun n => decide (n ≥ 0)).length : K) + eps8)) rows
    (fun row hr => avgRow_ok x row (h1 row hr))
  rw [h3]
  congr 1
  have hl := e2.1
  apply List.ext_getElem?
  intro i
  rw [List.getElem?_map, List.getElem?_map]
  by_cases hi : i < rows.length
  · have hr := List.getElem?_eq_getElem hi
    have ht := List.getElem?_eq_getElem (show i < targets.length by omega)
    rw [hr, ht]
    simp only [Option.map_some, Option.some.injEq]
    funext c
    rw [table_existing e2 i _ _ ht hr]
    have := congrArg (fun l => l[i]?) h2
    simp only [List.getElem?_map, hr, ht, Option.map_some, Option.some.injEq] at this
    have h4 := congrArg (List.map fun v : Fin C → K => v c) this
    simp only [List.map_map, Function.comp_def] at h4
    rw [h4]
    norm_num [eps8]
  · rw [List.getElem?_eq_none (by omega), List.getElem?_eq_none (by omega)]
    rfl

theorem sum_le_count {K : Type} [Field K] [LinearOrder K] [IsStrictOrderedRing K] {α : Type} (l : List α) (v : α → K) (P : α → Bool) (m : K)
    (h0 : ∀ a ∈ l, P a = false → v a = 0) (h1 : ∀ a ∈ l, P a = true → 0 ≤ v a ∧ v a ≤ m) :
    0 ≤ (l.map v).sum ∧ (l.map v).sum ≤ m * (l.countP P : K) := by
  induction l with
  | nil => simp
  | cons a l ih =>
    obtain ⟨i1, i2⟩ := ih (fun a ha => h0 a (List.mem_cons_of_mem _ ha)) (fun a ha => h1 a (List.mem_cons_of_mem _ ha))
    rw [List.map_cons, List.sum_cons, List.countP_cons]
    cases hp : P a with
    | true =>
      obtain ⟨a1, a2⟩ := h1 a List.mem_cons_self hp
      simp only [if_true, Nat.cast_add, Nat.cast_one, mul_add, mul_one]
      constructor <;> linarith
    | false =>
      rw [h0 a List.mem_cons_self hp]
      simp only [Bool.false_eq_true, if_false, zero_add, Nat.add_zero]
      exact ⟨i1, i2⟩

/-- **C46**, the bounds: features in `[0, m]` give averages in `[0, m]`. -/
theorem C46_bounds {K : Type} [Field K] [LinearOrder K] [IsStrictOrderedRing K] {C : Nat} (o : Octree F) (h : Nat) (w : o.Valid h) (d : Nat)
    (hd : d ≤ h) (hn : NeighExact o.batchSize d o.keys o.neighs) (k : Nat × Nat × Nat) (hk : k ∈ supportedKernels) (nempty : Bool)
    (s : Nat) (srcs targets : List Cell) (hN : Nodes o nempty d s srcs targets) (x : List (Fin C → K)) (hx : x.length = srcs.length)
    (m : K) (hm : 0 ≤ m) (hb : ∀ v ∈ x, ∀ i, 0 ≤ v i ∧ v i ≤ m) :
    ∃ y, octreeAvgPool x o d (kernelName k) s nempty = .ok y ∧ y.length = targets.length ∧ ∀ v ∈ y, ∀ i, 0 ≤ v i ∧ v i ≤ m := by
  have hnd := nodes_nodup o h w d hd nempty s srcs targets hN
  obtain ⟨f, hf⟩ := exists_field srcs x hx.symm hnd
  refine ⟨_, C46_avg_pool o h w d hd hn k hk nempty s srcs targets hN x f hf, by simp, ?_⟩
  intro v hv i
  obtain ⟨c, -, rfl⟩ := List.mem_map.1 hv
  obtain ⟨a, b⟩ := sum_le_count (kernelOffsets k) (fun g => around f c g i) (fun g => decide (∃ c' ∈ srcs, IsShift c c' g)) m
    (by
      intro g _ hg
      have hg := of_decide_eq_false hg
      unfold around
      rw [hf.2.2 _ _ _ _ (fun c' hc' he => hg ⟨c', hc', he⟩)]
      rfl)
    (by
      intro g _ hg
      obtain ⟨c', hc', e1, e2, e3, e4⟩ := of_decide_eq_true hg
      obtain ⟨r, hr⟩ := List.getElem?_of_mem hc'
      have hlt : r < x.length := by rw [hx]; exact (List.getElem?_eq_some_iff.1 hr).1
      have := hf.2.1 r c' x[r] hr (List.getElem?_eq_getElem hlt)
      unfold around
      rw [← e1, ← e2, ← e3, ← e4, this]
      exact hb _ (List.getElem_mem hlt) i)
  have hpos : (0 : K) < (existing srcs (kernelOffsets k) c : K) + 1 / 10 ^ 8 := by positivity
  constructor
  · exact div_nonneg a hpos.le
  · rw [div_le_iff₀ hpos]
    unfold existing
    have : (0 : K) ≤ m * (1 / 10 ^ 8) := by positivity
    rw [mul_add]
    linarith

/-- **C45, the part that holds.** With `nempty` (or without empty nodes) the height is the number of nodes of the
coarser layer.  Missing: empty nodes get no row (`C45_height`, `C45_violated`). -/
theorem C45_partial {K : Type} [Field K] {C : Nat} (o : Octree F) (h : Nat) (w : o.Valid h) (d : Nat) (hd : d + 1 ≤ h)
    (hn : NeighExact o.batchSize (d + 1) o.keys o.neighs) (k : Nat × Nat × Nat) (hk : k ∈ supportedKernels)
    (x : List (Fin C → K)) (hx : x.length = o.nnumNempty (d + 1)) :
    ∃ y, octreeAvgPool x o (d + 1) (kernelName k) 2 true = .ok y ∧ y.length = o.nnumNempty d := by
  obtain ⟨srcs, targets, hN⟩ := nodes_two_exists o h w d hd true
  obtain ⟨-, h2, h3 | h3⟩ := nodes_table o h w (d + 1) hd hn k hk true 2 srcs targets hN
  · omega
  · have hnd := nodes_nodup o h w (d + 1) hd true 2 srcs targets hN
    obtain ⟨f, hf⟩ := exists_field srcs x (by rw [hx]; simpa using h2) hnd
    exact ⟨_, C46_avg_pool o h w (d + 1) hd hn k hk true 2 srcs targets hN x f hf, by simpa using h3.2.2⟩

/-- The height with `nempty=False` is the number of *non-empty* nodes of the coarser layer. -/
theorem C45_height {K : Type} [Field K] {C : Nat} (o : Octree F) (h : Nat) (w : o.Valid h) (d : Nat) (hd : d + 1 ≤ h)
    (hn : NeighExact o.batchSize (d + 1) o.keys o.neighs) (k : Nat × Nat × Nat) (hk : k ∈ supportedKernels)
    (x : List (Fin C → K)) (hx : x.length = o.nnum (d + 1)) :
    ∃ y, octreeAvgPool x o (d + 1) (kernelName k) 2 false = .ok y ∧ y.length = o.nnumNempty d := by
  obtain ⟨srcs, targets, hN⟩ := nodes_two_exists o h w d hd false
  obtain ⟨-, h2, h3 | h3⟩ := nodes_table o h w (d + 1) hd hn k hk false 2 srcs targets hN
  · omega
  · have hnd := nodes_nodup o h w (d + 1) hd false 2 srcs targets hN
    obtain ⟨f, hf⟩ := exists_field srcs x (by rw [hx]; simpa using h2) hnd
    exact ⟨_, C46_avg_pool o h w (d + 1) hd hn k hk false 2 srcs targets hN x f hf, by simpa using h3.2.2⟩

/-- **C45 is violated**: with `nempty=False` on an octree with empty nodes the result has too few rows. -/
theorem C45_violated : ∃ (o : Octree Unit) (x y : List (Fin 1 → ℚ)), o.Valid 2 ∧ NeighExact o.batchSize 2 o.keys o.neighs ∧
    x.length = o.nnum 2 ∧ octreeAvgPool x o 2 "222" 2 false = .ok y ∧ y.length ≠ o.nnum 1 := by
  obtain ⟨o, h1, -, h3, h4, h5, h6, -⟩ := example_valid'
  obtain ⟨y, hy, hl⟩ := C45_height o 2 h1 1 (le_refl _) (h3 2 (le_refl _)) (2, 2, 2) (by decide)
    (List.replicate (o.nnum 2) (fun _ : Fin 1 => (1 : ℚ))) (by simp)
  exact ⟨o, _, y, h1, h3 2 (le_refl _), by simp, hy, by rw [hl, h4, h6]; decide⟩

/-! ### global pooling -/

theorem scatterAdd_some [AddMonoid V] (src : List V) (js : List Nat) (n : Nat) (hl : js.length = src.length) (h1 : ∀ x ∈ js, x < n) :
    scatterAdd src (js.map Int.ofNat) (some n) = .ok ((List.range n).map fun r => (((js.zip src).filter fun p => decide (p.1 = r)).map Prod.snd).sum) := by
  have hm : (js.map Int.ofNat).mapM (scatterIdx n) = .ok js := by
    rw [List.mapM_map]
    have := mapM_ok (scatterIdx n ∘ Int.ofNat) id js (fun a ha => by
      simp only [Function.comp, scatterIdx, Int.ofNat_eq_natCast]
      rw [if_pos ⟨by omega, by exact_mod_cast h1 a ha⟩]
      simp)
    simpa using this
  unfold scatterAdd
  simp only [List.length_map, hl, if_true, bind, Except.bind, hm, pure, Except.pure]
  rw [scatterSum_eq]

theorem batchId_queried {o : Octree F} {h : Nat} {masks : Nat → List Bool} (W : WF o h masks) (d : Nat) (hd : d ≤ h) (nempty : Bool) :
    o.batchId d nempty = .ok ((queried nempty (layerCells o.batchSize masks d) (number 0 (masks d))).map Cell.b) := by
  unfold queried
  rw [nonEmpty_eq _ _ _ (W.len d hd)]
  cases nempty with
  | true => exact W.batchId_nempty d hd
  | false => exact W.batchId_all d hd

theorem queried_b {o : Octree F} {h : Nat} {masks : Nat → List Bool} (W : WF o h masks) (d : Nat) (hd : d ≤ h) (nempty : Bool) :
    ∀ c ∈ queried nempty (layerCells o.batchSize masks d) (number 0 (masks d)), c.InRange o.batchSize d := by
  intro c hc
  unfold queried at hc
  rw [nonEmpty_eq _ _ _ (W.len d hd)] at hc
  apply layer_inRange o.batchSize masks d
  split at hc
  · exact (maskSel_sublist _ _).subset hc
  · exact hc

/-- The rows of the nodes of sample `b`. -/
def Spec.rowsOf (cells : List Cell) (x : List V) (b : Nat) : List V :=
  ((cells.zip x).filter fun p => decide (p.1.b = b)).map Prod.snd

theorem rowsOf_eq (cells : List Cell) (x : List V) (b : Nat) :
    (((cells.map Cell.b).zip x).filter fun p => decide (p.1 = b)).map Prod.snd = rowsOf cells x b := by
  unfold rowsOf
  induction cells generalizing x with
  | nil => rfl
  | cons c cells ih =>
    cases x with
    | nil => rfl
    | cons v x =>
      simp only [List.map_cons, List.zip_cons_cons, List.filter_cons]
      by_cases hb : c.b = b
      · simp [hb, ih x]
      · simp [hb, ih x]

theorem rowsOf_length (cells : List Cell) (x : List V) (b : Nat) {W : Type} (y : List W) (h : x.length = y.length) :
    (rowsOf cells x b).length = (rowsOf cells y b).length := by
  unfold rowsOf
  induction cells generalizing x y with
  | nil => rfl
  | cons c cells ih =>
    cases x with
    | nil => cases y with
      | nil => rfl
      | cons _ _ => simp at h
    | cons v x => cases y with
      | nil => simp at h
      | cons u y =>
        have := ih x y (by simpa using h)
        simp only [List.zip_cons_cons, List.filter_cons]
        by_cases hb : c.b = b <;> simp [hb] at this ⊢ <;> exact this

theorem rowsOf_mem {cells : List Cell} {x : List V} {b : Nat} {v : V} (h : v ∈ rowsOf cells x b) : v ∈ x := by
  unfold rowsOf at h
  obtain ⟨p, hp, rfl⟩ := List.mem_map.1 h
  exact (List.of_mem_zip (List.mem_filter.1 hp).1).2

/-- **C47.** Global pooling: the mean of the rows of every sample, 0 for a sample without rows. -/
theorem C47_global_pool {K : Type} [Field K] [LinearOrder K] [IsStrictOrderedRing K] {C : Nat} (o : Octree F) (h : Nat) (w : o.Valid h)
    (d : Nat) (hd : d ≤ h) (nempty : Bool) (cells : List Cell) (ch : List Int) (hc : CellsOf o.batchSize d o.keys cells)
    (hch : o.children d = some ch) (x : List (Fin C → K)) (hx : x.length = (queried nempty cells ch).length) :
    octreeGlobalPool x o d nempty = .ok ((List.range o.batchSize).map fun b => fun i =>
      if rowsOf (queried nempty cells ch) x b = [] then 0
      else ((rowsOf (queried nempty cells ch) x b).map fun v => v i).sum / ((rowsOf (queried nempty cells ch) x b).length : K)) := by
  have W := w.wf'
  have h16 := w.depth_le
  have hh := w.h_le
  have e := cells_unique (by omega) hc (W.cellsOf d hd)
  subst e
  rw [W.children d hd] at hch; cases hch
  have hid := batchId_queried W d hd nempty
  have hib := queried_b W d hd nempty
  revert hid hib hx
  generalize queried nempty (layerCells o.batchSize o.masks d) (number 0 (o.masks d)) = Q
  intro hx hid hib
  have hlt : ∀ b ∈ Q.map Cell.b, b < o.batchSize := by
    intro b hb
    obtain ⟨c, hc, rfl⟩ := List.mem_map.1 hb
    exact (hib c hc).1
  unfold octreeGlobalPool
  simp only [hid, bind, Except.bind]
  rw [scatterAdd_some (List.replicate x.length (1 : K)) (Q.map Cell.b) o.batchSize (by simp [hx]) hlt]
  simp only []
  rw [scatterAdd_some x (Q.map Cell.b) o.batchSize (by simp [hx]) hlt]
  simp only [pure, Except.pure, Except.ok.injEq, List.map_map]
  apply List.ext_getElem
  · simp
  · intro b h1 h2
    simp only [List.length_map, List.length_range, List.length_zipWith, Nat.min_self] at h1 h2
    simp only [List.getElem_zipWith, List.getElem_map, List.getElem_range, Function.comp]
    funext i
    rw [rowsOf_eq, rowsOf_eq, listSum_apply]
    have hcnt : (rowsOf Q (List.replicate x.length (1 : K)) b).sum = ((rowsOf Q x b).length : K) := by
      rw [← rowsOf_length Q (List.replicate x.length (1 : K)) b x (by simp)]
      have hall : ∀ v ∈ rowsOf Q (List.replicate x.length (1 : K)) b, v = 1 := fun v hv => List.eq_of_mem_replicate (rowsOf_mem hv)
      have := List.eq_replicate_of_mem hall
      rw [this]
      simp
    rw [hcnt]
    by_cases he : rowsOf Q x b = []
    · simp [he]
    · have hpos : 0 < (rowsOf Q x b).length := List.length_pos_iff.2 he
      rw [if_neg he, if_neg]
      have : (1 : K) ≤ ((rowsOf Q x b).length : K) := by exact_mod_cast hpos
      exact not_lt.2 this

/-- Non-vacuity of C46 and C47: the octree of `example_valid'`, with its neighbour tables, and one row per node of depth 2. -/
example : ∃ (o : Octree Unit) (cells : List Cell) (ch : List Int) (x : List (Fin 4 → ℚ)), o.Valid 2 ∧
    NeighExact o.batchSize 2 o.keys o.neighs ∧ CellsOf o.batchSize 2 o.keys cells ∧
    o.children 2 = some ch ∧ x.length = (queried false cells ch).length ∧ x.length = 16 ∧ (3, 3, 3) ∈ supportedKernels := by
  obtain ⟨o, h1, -, h3, h4, h5, -⟩ := example_valid'
  have hc := h1.wf'.cellsOf 2 (by omega)
  have hch := h1.wf'.children 2 (by omega)
  refine ⟨o, _, _, List.replicate 16 (fun k => (k.val : ℚ)), h1, h3 2 (le_refl _), hc, hch, ?_, by simp, by decide⟩
  rw [queried_length h1 2 (by omega) false _ _ hc hch, if_neg (by simp), h5]
  simp

end Ocnn
