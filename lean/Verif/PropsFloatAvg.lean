import Verif.FloatAvg
import Verif.PropsFloatLinear
import Verif.PropsPoolAvg

/-! C180: average pooling in single precision. -/

set_option linter.unusedSimpArgs false
set_option linter.unusedVariables false

namespace Ocnn
open Spec
variable {F : Type}

/-- The constant `1e-8` is lost for every possible number of neighbours: the weight is the rounded reciprocal. -/
theorem avgVal_eq : ∀ n ∈ List.range 28, n ≠ 0 → avgVal32 n = f32 (1 / n) := by decide +kernel

theorem avgVal_near {n : Nat} (h0 : n ≠ 0) (h : n ≤ 27) : Near (1 / 2 ^ 24) (1 / n) (avgVal32 n) := by
  rw [avgVal_eq n (List.mem_range.2 (by omega)) h0]
  have hp : (0 : ℚ) < 1 / n := by positivity
  have h1 := f32_rel (1 / (n : ℚ))
  rw [abs_of_pos hp] at h1
  refine ⟨hp.le, ?_, h1⟩
  have := (abs_le.1 h1).1
  linarith

theorem errBound_27 {n : Nat} (hn : n ≤ 27) {a : ℚ} (ha : 0 ≤ a) :
    errBound (1 / 2 ^ 24) (1 / 2 ^ 149) n a ≤ (27 / 2 ^ 24 + 1 / 2 ^ 30) * a + 1 / 2 ^ 144 := by
  have h1 : (1 + 1 / 2 ^ 24 : ℚ) ^ n ≤ (1 + 1 / 2 ^ 24) ^ 27 := pow_le_pow_right₀ (by norm_num) hn
  have h2 : (1 + 1 / 2 ^ 24 : ℚ) ^ 27 ≤ 1 + (27 / 2 ^ 24 + 1 / 2 ^ 30) := by norm_num
  have h3 : (n : ℚ) ≤ 27 := by exact_mod_cast hn
  have h4 : (0 : ℚ) ≤ n := Nat.cast_nonneg n
  unfold errBound
  have h5 : ((1 + 1 / 2 ^ 24 : ℚ) ^ n - 1) * a ≤ (27 / 2 ^ 24 + 1 / 2 ^ 30) * a := mul_le_mul_of_nonneg_right (by linarith) ha
  have h6 : (n : ℚ) * (1 / 2 ^ 149) * (1 + 1 / 2 ^ 24) ^ n ≤ 27 * (1 / 2 ^ 149) * (1 + (27 / 2 ^ 24 + 1 / 2 ^ 30)) := by
    gcongr
    exact h1.trans h2
  have h7 : (27 : ℚ) * (1 / 2 ^ 149) * (1 + (27 / 2 ^ 24 + 1 / 2 ^ 30)) ≤ 1 / 2 ^ 144 := by norm_num
  linarith

/-- One row: the rounded sum of `n` products with the common weight. -/
theorem avg_core {m : ℚ} (hm : 0 ≤ m) {l : List ℚ} (hl : l.length ≤ 27) (hx : ∀ v ∈ l, |v| ≤ m) {y : ℚ}
    (h : Rounded (1 / 2 ^ 24) (1 / 2 ^ 149) ((l.map fun v => Term.prod (avgVal32 l.length) v : List Term)) y) :
    |y - l.sum / l.length| ≤ 29 / 2 ^ 24 * m + 1 / 2 ^ 144 := by
  by_cases h0 : l = []
  · subst h0
    have := rounded_error (by norm_num) (by norm_num) h
    simp [errBound, termSum, termAbs] at this
    subst this
    simp
    positivity
  have hn : l.length ≠ 0 := by simpa using h0
  have hnear := avgVal_near hn hl
  generalize hw : avgVal32 l.length = w at *
  set E : List (ℚ × ℚ × ℚ) := l.map fun v => (1 / (l.length : ℚ), w, v) with hE
  have hE' : ∀ e ∈ E, Near (1 / 2 ^ 24) e.1 e.2.1 ∧ |e.2.2| ≤ m := by
    intro e he
    obtain ⟨v, hv, rfl⟩ := List.mem_map.1 he
    exact ⟨hnear, hx v hv⟩
  obtain ⟨h1, h2, h3, h4, h5⟩ := row_sums (by norm_num) hm hE'
  have s1 : (E.map fun e => e.1).sum = 1 := by
    rw [hE, List.map_map]
    simp only [Function.comp_def, List.map_const', List.sum_replicate, nsmul_eq_mul]
    field_simp
  have s2 : (E.map fun e => e.1 * e.2.2).sum = l.sum / l.length := by
    rw [hE, List.map_map]
    simp only [Function.comp_def]
    rw [List.sum_map_mul_left, List.map_id']
    ring
  have h6 := rounded_error (by norm_num) (by norm_num) h
  have t1 : termSum ((l.map fun v => Term.prod w v : List Term)) = (E.map fun e => e.2.1 * e.2.2).sum := by
    show (Multiset.map Term.val (Multiset.ofList _)).sum = _
    rw [Multiset.map_coe, Multiset.sum_coe, List.map_map, hE, List.map_map]
    rfl
  have t2 : termAbs ((l.map fun v => Term.prod w v : List Term)) = (E.map fun e => |e.2.1 * e.2.2|).sum := by
    show (Multiset.map (fun t => |Term.val t|) (Multiset.ofList _)).sum = _
    rw [Multiset.map_coe, Multiset.sum_coe, List.map_map, hE, List.map_map]
    rfl
  rw [t1, t2] at h6
  have h7 := h6.trans (errBound_27 (by simpa using hl) h5)
  rw [s2, s1] at h3
  rw [s1] at h4
  have h8 := abs_sub_le y (E.map fun e => e.2.1 * e.2.2).sum (l.sum / l.length)
  have h9 : (27 / 2 ^ 24 + 1 / 2 ^ 30) * (E.map fun e => |e.2.1 * e.2.2|).sum ≤ (27 / 2 ^ 24 + 1 / 2 ^ 30) * ((1 + 1 / 2 ^ 24) * m * 1) :=
    mul_le_mul_of_nonneg_left h4 (by norm_num)
  linarith

theorem offsets_27 : ∀ k ∈ supportedKernels, (kernelOffsets k).length ≤ 27 := by decide

theorem avgRowTerms_ok {C : Nat} (data : List (Fin C → ℚ)) (row : List Int) (h : ∀ v ∈ row, v < (data.length : Int)) :
    avgRowTerms data row = .ok fun c => (((row.filter fun n => decide (n ≥ 0)).map fun n => valAt data n c).map fun v =>
      Term.prod (avgVal32 (row.filter fun n => decide (n ≥ 0)).length) v : List Term) := by
  unfold avgRowTerms
  have hin : ∀ i ∈ (row.filter fun n => decide (n ≥ 0)).map Int.toNat, i < data.length := by
    intro i hi
    obtain ⟨n, hn, rfl⟩ := List.mem_map.1 hi
    obtain ⟨h1, h2⟩ := List.mem_filter.1 hn
    have := h n h1
    have := of_decide_eq_true h2
    omega
  simp only [indexSelect_ok _ hin (0 : Fin C → ℚ), bind, Except.bind, pure, Except.pure, List.map_map]
  congr 1
  funext c
  congr 1
  apply List.map_congr_left
  intro n hn
  have := of_decide_eq_true (List.mem_filter.1 hn).2
  simp [Function.comp, valAt, this]

theorem sum_existing {C : Nat} (data : List (Fin C → ℚ)) (row : List Int) (c : Fin C) :
    ((row.filter fun n => decide (n ≥ 0)).map fun n => valAt data n c).sum = (row.map fun n => valAt data n c).sum := by
  induction row with
  | nil => rfl
  | cons n row ih =>
    by_cases hn : n ≥ 0
    · simp [List.filter_cons, hn, ih]
    · rw [List.filter_cons, if_neg (by simpa using hn), ih, List.map_cons, List.sum_cons]
      simp [valAt, hn]

/-- **C180.** Average pooling in single precision succeeds whenever exact pooling does, and every result it can return lies within `29 / 2^24` of the largest feature
(and an absolute `2^-144` for underflow) of the true mean over the existing neighbours: the constant `1e-8` in the code has no effect. -/
theorem C180_mean {C : Nat} (o : Octree F) (h : Nat) (w : o.Valid h) (d : Nat) (hd : d ≤ h)
    (hn : NeighExact o.batchSize d o.keys o.neighs) (k : Nat × Nat × Nat) (hk : k ∈ supportedKernels) (nempty : Bool)
    (s : Nat) (srcs targets : List Cell) (hN : Nodes o nempty d s srcs targets) (x : List (Fin C → ℚ))
    (f : Nat → Int → Int → Int → Fin C → ℚ) (hf : IsField srcs x f) :
    ∃ T, octreeAvgTerms x o d (kernelName k) s nempty = .ok T ∧ T.length = targets.length ∧
      ∀ (i : Nat) (c : Cell) (t : Fin C → Multiset Term), targets[i]? = some c → T[i]? = some t →
        ∀ (j : Fin C) (y m : ℚ), Rounded (1 / 2 ^ 24) (1 / 2 ^ 149) (t j) y → 0 ≤ m → (∀ v ∈ x, |v j| ≤ m) →
          (t j).card = existing srcs (kernelOffsets k) c ∧
          |y - ((kernelOffsets k).map fun g => around f c g j).sum / existing srcs (kernelOffsets k) c| ≤ 29 / 2 ^ 24 * m + 1 / 2 ^ 144 := by
  obtain ⟨⟨rows, e1, e2⟩, -, -⟩ := nodes_table o h w d hd hn k hk nempty s srcs targets hN
  obtain ⟨h1, h2⟩ := table_vals e2 hf
  have h0 : octreeAvgTerms x o d (kernelName k) s nempty = .ok (rows.map fun row => fun c => (((row.filter fun n => decide (n ≥ 0)).map fun n => valAt x n c).map fun v =>
      Term.prod (avgVal32 (row.filter fun n => decide (n ≥ 0)).length) v : List Term)) := by
    unfold octreeAvgTerms
    simp only [e1, bind, Except.bind]
    exact mapM_ok (avgRowTerms x) _ rows (fun row hr => avgRowTerms_ok x row (h1 row hr))
  refine ⟨_, h0, by simpa using e2.1, ?_⟩
  · intro i c t hc ht j y m hy hm hb
    rw [List.getElem?_map] at ht
    obtain ⟨row, hr, rfl⟩ := Option.map_eq_some_iff.1 ht
    have hx := table_existing e2 i _ _ hc hr
    have h3 := congrArg (fun l => l[i]?) h2
    simp only [List.getElem?_map, hr, hc, Option.map_some, Option.some.injEq] at h3
    have h4 := congrArg (List.map fun v : Fin C → ℚ => v j) h3
    simp only [List.map_map, Function.comp_def] at h4
    have hl : existing srcs (kernelOffsets k) c ≤ 27 := (List.countP_le_length).trans (offsets_27 k hk)
    rw [← h4, ← sum_existing, ← hx]
    refine ⟨by simp, ?_⟩
    have key := avg_core hm (l := (row.filter fun n => decide (n ≥ 0)).map fun n => valAt x n j) (by simpa [hx] using hl) (by
      intro v hv
      obtain ⟨n, hn, rfl⟩ := List.mem_map.1 hv
      obtain ⟨hn1, hn2⟩ := List.mem_filter.1 hn
      have a1 := h1 row (List.mem_of_getElem? hr) n hn1
      have a2 := of_decide_eq_true hn2
      have a3 : n.toNat < x.length := by omega
      simp only [valAt, a2, if_true, List.getElem?_eq_getElem a3, Option.getD_some]
      exact hb _ (List.getElem_mem a3)) (y := y) (by simpa using hy)
    simpa using key

/-- Results of average pooling whose products and sums are rounded to nearest and added in the order of the row: one of the results `C180_mean` is about. -/
theorem addInOrder_rounded (w : ℚ) (l : List ℚ) :
    Rounded (1 / 2 ^ 24) (1 / 2 ^ 149) ((l.map fun v => Term.prod w v : List Term)) (addInOrder (l.map fun v => Term.prod w v)) := by
  induction l using List.reverseRecOn with
  | nil => exact .zero
  | append_singleton l v ih =>
    unfold addInOrder at ih ⊢
    simp only [List.map_append, List.map_cons, List.map_nil, List.foldl_append, List.foldl_cons, List.foldl_nil]
    have hp : Rounded (1 / 2 ^ 24) (1 / 2 ^ 149) {Term.prod w v} (f32 (w * v)) := .prod _ _ _ ((f32_rel _).trans (by linarith [show (0 : ℚ) < 1 / 2 ^ 149 by norm_num]))
    rw [← Multiset.coe_add]
    by_cases hl : l = []
    · subst hl
      simp only [List.map_nil, List.foldl_nil, zero_add, f32_exact (f32_isF32 _)]
      simpa using hp
    · refine .add _ _ _ _ _ (by simpa using hl) (by simp) ih (by simpa using hp) ?_
      exact f32_rel _

theorem ones_table : ∀ n ∈ List.range 28, n ≠ 0 → n ≤ 9 → addInOrder (List.replicate n (Term.prod (avgVal32 n) 1)) = 1 := by decide +kernel

theorem ones_27 : addInOrder (List.replicate 27 (Term.prod (avgVal32 27) 1)) = 1 - 1 / 2 ^ 22 := by decide +kernel

theorem row_ones {C : Nat} (data : List (Fin C → ℚ)) (j : Fin C) (hx : ∀ v ∈ data, v j = 1) (row : List Int) (h : ∀ v ∈ row, v < (data.length : Int)) :
    ∃ t l, avgRowTerms data row = .ok t ∧ t j = ((l : List Term) : Multiset Term) ∧
      l = List.replicate (row.countP fun v => decide (v ≥ 0)) (Term.prod (avgVal32 (row.countP fun v => decide (v ≥ 0))) 1) := by
  refine ⟨_, _, avgRowTerms_ok data row h, rfl, ?_⟩
  rw [List.countP_eq_length_filter]
  rw [List.eq_replicate_iff]
  refine ⟨by simp, ?_⟩
  intro b hb
  simp only [List.map_map, List.mem_map, Function.comp] at hb
  obtain ⟨n, hn, rfl⟩ := hb
  obtain ⟨h1, h2⟩ := List.mem_filter.1 hn
  have a2 := of_decide_eq_true h2
  have a3 : n.toNat < data.length := by have := h n h1; omega
  congr 1
  simp only [valAt, a2, if_true, List.getElem?_eq_getElem a3, Option.getD_some]
  exact hx _ (List.getElem_mem a3)

/-- **C180**, few neighbours: with at most nine existing neighbours (every kernel but `333`; with `222` pooling blocks have at most eight) a channel that is 1 everywhere
stays exactly 1 when the row is added in order. -/
theorem C180_few {C : Nat} (data : List (Fin C → ℚ)) (j : Fin C) (hx : ∀ v ∈ data, v j = 1) (row : List Int) (h : ∀ v ∈ row, v < (data.length : Int))
    (h1 : ∃ v ∈ row, v ≥ 0) (h9 : row.length ≤ 9) :
    ∃ t l, avgRowTerms data row = .ok t ∧ t j = ((l : List Term) : Multiset Term) ∧ addInOrder l = 1 := by
  obtain ⟨t, l, e1, e2, e3⟩ := row_ones data j hx row h
  refine ⟨t, l, e1, e2, ?_⟩
  have hle : row.countP (fun v => decide (v ≥ 0)) ≤ 9 := List.countP_le_length.trans h9
  rw [e3]
  refine ones_table _ (List.mem_range.2 (by omega)) ?_ hle
  have : 0 < row.countP (fun v => decide (v ≥ 0)) := List.countP_pos_iff.2 (by simpa using h1)
  omega

/-- **C180**, the bound is of the right order: at a node all of whose 27 neighbours exist a channel that is 1 everywhere does not stay 1; added in order the result is
`1 - 2^-22`. -/
theorem C180_interior {C : Nat} (data : List (Fin C → ℚ)) (j : Fin C) (hx : ∀ v ∈ data, v j = 1) (row : List Int) (h : ∀ v ∈ row, 0 ≤ v ∧ v < (data.length : Int))
    (h27 : row.length = 27) :
    ∃ t l, avgRowTerms data row = .ok t ∧ t j = ((l : List Term) : Multiset Term) ∧ addInOrder l = 1 - 1 / 2 ^ 22 ∧
      Rounded (1 / 2 ^ 24) (1 / 2 ^ 149) (t j) (1 - 1 / 2 ^ 22) := by
  obtain ⟨t, l, e1, e2, e3⟩ := row_ones data j hx row fun v hv => (h v hv).2
  have hc : row.countP (fun v => decide (v ≥ 0)) = 27 := by
    rw [← h27, List.countP_eq_length]
    intro v hv
    simpa using (h v hv).1
  rw [hc] at e3
  have e4 : addInOrder l = 1 - 1 / 2 ^ 22 := by rw [e3]; exact ones_27
  refine ⟨t, l, e1, e2, e4, ?_⟩
  rw [e2, ← e4]
  have := addInOrder_rounded (avgVal32 27) (List.replicate 27 1)
  rw [List.map_replicate, ← e3] at this
  exact this

/-- Non-vacuity: on the octree of the examples, depth 2 with 16 nodes, kernel `333` and stride 1. -/
example : ∃ (o : Octree Unit) (srcs : List Cell) (x : List (Fin 4 → ℚ)) (f : Nat → Int → Int → Int → Fin 4 → ℚ), o.Valid 2 ∧
    NeighExact o.batchSize 2 o.keys o.neighs ∧ Nodes o false 2 1 srcs srcs ∧ IsField srcs x f ∧ x.length = 16 ∧ ∀ v ∈ x, ∀ j, |v j| ≤ 3 := by
  obtain ⟨o, h1, -, h3, h4, h5, -⟩ := example_valid'
  have hc := h1.wf'.cellsOf 2 (by omega)
  have hch := h1.wf'.children 2 (by omega)
  have hN := Nodes.one (o := o) (nempty := false) 2 _ _ hc hch
  have hlen : (List.replicate 16 (fun k : Fin 4 => (k.val : ℚ))).length = (queried false (layerCells o.batchSize o.masks 2) (number 0 (o.masks 2))).length := by
    rw [queried_length h1 2 (by omega) false _ _ hc hch, if_neg (by simp), h5]
    simp
  obtain ⟨f, hf⟩ := exists_field _ _ hlen.symm (nodes_nodup o 2 h1 2 (by omega) false 1 _ _ hN)
  refine ⟨o, _, _, f, h1, h3 2 (le_refl _), hN, hf, by simp, ?_⟩
  intro v hv j
  rw [List.eq_of_mem_replicate hv, abs_of_nonneg (by positivity)]
  have := j.2
  show ((j.val : Nat) : ℚ) ≤ 3
  exact_mod_cast (by omega : j.val ≤ 3)

end Ocnn
