import Verif.PropsFold

/-! Property C190: batch normalisation in training mode. -/

namespace Ocnn
open Spec
variable {F : Type}

/-! ### lemmas -/

theorem colMean_shift {c : Nat} (x : List (Fin c → ℚ)) (b : Fin c → ℚ) (hx : x ≠ []) (i : Fin c) :
    colMean (x.map fun v => v + b) i = colMean x i + b i := by
  have h0 : (x.length : ℚ) ≠ 0 := by
    have := List.length_pos_of_ne_nil hx
    positivity
  have e : ∀ l : List (Fin c → ℚ), (l.map fun v => v i + b i).sum = (l.map fun v => v i).sum + l.length * b i := by
    intro l
    induction l with
    | nil => simp
    | cons v l ih =>
      simp only [List.map_cons, List.sum_cons, List.length_cons]
      rw [ih]
      push_cast
      ring
  unfold colMean
  rw [List.map_map, List.length_map]
  have : ((fun v : Fin c → ℚ => v i) ∘ fun v => v + b) = fun v => v i + b i := rfl
  rw [this, e]
  field_simp

theorem colVar_shift {c : Nat} (x : List (Fin c → ℚ)) (b : Fin c → ℚ) (hx : x ≠ []) (i : Fin c) :
    colVar (x.map fun v => v + b) i = colVar x i := by
  unfold colVar
  rw [List.map_map, List.length_map]
  congr 2
  apply List.map_congr_left
  intro v _
  simp only [Function.comp]
  rw [colMean_shift x b hx]
  simp only [Pi.add_apply]
  ring

theorem colVar_nonneg {c : Nat} (x : List (Fin c → ℚ)) (i : Fin c) : 0 ≤ colVar x i := by
  unfold colVar
  apply div_nonneg _ (by positivity)
  apply List.sum_nonneg
  intro v hv
  obtain ⟨u, -, rfl⟩ := List.mem_map.1 hv
  exact mul_self_nonneg _

theorem sum_linear {A : Type} (l : List A) (f : A → ℚ) (a b : ℚ) : (l.map fun v => f v * a + b).sum = (l.map f).sum * a + l.length * b := by
  induction l with
  | nil => simp
  | cons v l ih =>
    simp only [List.map_cons, List.sum_cons, List.length_cons]
    rw [ih]
    push_cast
    ring

/-! ### C190 -/

/-- **C190, constants.** A batch normalisation in training mode does not see a constant added to all rows. -/
theorem C190_shift (P : Params) (hP : P.training = true) (name : String) {c : Nat} (x : List (Fin c → ℚ)) (b : Fin c → ℚ) :
    batchNorm P name c ⟨c, x.map fun v => v + b⟩ = batchNorm P name c ⟨c, x⟩ := by
  unfold batchNorm
  rw [Tensor.on_self, Tensor.on_self]
  simp only [hP, if_true, List.length_map]
  by_cases h1 : x.length = 1
  · simp [h1]
  · simp only [if_neg h1]
    by_cases hx : x = []
    · subst hx; rfl
    · rw [List.map_map]
      congr 2
      apply List.map_congr_left
      intro v _
      funext i
      simp only [Function.comp]
      rw [colMean_shift x b hx, colVar_shift x b hx]
      simp only [Pi.add_apply]
      ring

/-- **C190, bias (partial).** In front of a batch normalisation in training mode the bias of an `OctreeConv` has no effect: with the same matrices and any bias the result is the one
of the layer without bias, which is what the modules use.  Partial: with stride 2 and `nempty=False` only when no node of the coarser layer is empty (see `C190_violated`). -/
theorem C190_bias_partial (P : Params) (hP : P.training = true) (name : String) {ci co : Nat} (o : Octree F) (h : Nat) (w : o.Valid h) (d s : Nat) (hd : d ≤ h)
    (hn : NeighExact o.batchSize d o.keys o.neighs) (k : Nat × Nat × Nat) (nempty : Bool) (srcs targets : List Cell) (hN : Nodes o nempty d s srcs targets)
    (hs : s = 1 ∨ nempty = true ∨ ∀ ch, o.children (d - 1) = some ch → ∀ v ∈ ch, 0 ≤ v)
    (m m' : ConvModule (Fin co → ℚ) (Fin ci → Fin co → ℚ)) (l : ConvLayer k s nempty m) (l' : ConvLayer k s nempty m')
    (hw : m'.weights = m.weights) (hb : m.bias = none) (x : List (Fin ci → ℚ)) (hx : srcs.length = x.length) :
    ∃ y y', m.forward (denseKernel ℚ ci co) x o d = .ok y ∧ m'.forward (denseKernel ℚ ci co) x o d = .ok y' ∧
      batchNorm P name co ⟨co, y'⟩ = batchNorm P name co ⟨co, y⟩ := by
  obtain ⟨outs, hO⟩ := nodes_outs hN
  obtain ⟨f, hf⟩ := exists_field srcs x hx (nodes_nodup o h w d hd nempty s srcs targets hN)
  refine ⟨_, _, layer_forward o h w d s hd hn k nempty srcs outs hO m l x f hf, layer_forward o h w d s hd hn k nempty srcs outs hO m' l' x f hf, ?_⟩
  refine Eq.trans ?_ (C190_shift P hP name _ (m'.bias.getD 0))
  rw [List.map_map]
  congr 2
  apply List.map_congr_left
  intro t ht
  cases t with
  | some c =>
    show _ = convAt f (kernelOffsets k) m.weights c + m.bias.getD 0 + m'.bias.getD 0
    rw [hb, Option.getD_none, add_zero, ← hw]
  | none =>
    exfalso
    cases hO with
    | one d cells ch h1 h2 => simp at ht
    | two d cells ch pcells pch h1 h2 h3 h4 =>
      cases nempty with
      | true => simp at ht
      | false =>
        simp only [Bool.false_eq_true, if_false] at ht
        obtain ⟨p, hp, e⟩ := List.mem_map.1 ht
        have : 0 ≤ p.2 := by
          rcases hs with hs | hs | hs
          · omega
          · simp at hs
          · exact hs pch (by simpa using h4) _ (List.of_mem_zip hp).2
        simp [this] at e

/-- **C190, statistics.** Of at least two rows every channel is given the mean `bias` and the variance `weight² · v / (v + eps)`, where `v` is the variance of the channel before; a single row raises
ValueError.  The square root is assumed to be exact. -/
theorem C190_statistics (P : Params) (hP : P.training = true) (name : String) {c : Nat} (x : List (Fin c → ℚ)) (hx : 2 ≤ x.length) :
    ∃ y, batchNorm P name c ⟨c, x⟩ = .ok ⟨c, y⟩ ∧ y.length = x.length ∧ ∀ (i : Fin c) (a v : ℚ), a = (x.map fun r => r i).sum / x.length →
      v = (x.map fun r => (r i - a) * (r i - a)).sum / x.length → P.rt (v + 1 / 100000) * P.rt (v + 1 / 100000) = v + 1 / 100000 →
      (y.map fun r => r i).sum / y.length = P.bnBias name i ∧
      (y.map fun r => (r i - P.bnBias name i) * (r i - P.bnBias name i)).sum / y.length = P.bnWeight name i * P.bnWeight name i * v / (v + 1 / 100000) := by
  have h0 : (x.length : ℚ) ≠ 0 := by
    have : 0 < x.length := by omega
    positivity
  refine ⟨x.map fun v => fun i => (v i - colMean x i) / P.rt (colVar x i + 1 / 100000) * P.bnWeight name i + P.bnBias name i, ?_, by simp, ?_⟩
  · unfold batchNorm
    rw [Tensor.on_self]
    simp only [hP, if_true, if_neg (show ¬ x.length = 1 by omega)]
    rfl
  · intro i a v ha hv hr
    have ea : colMean x i = a := ha.symm
    have ev : colVar x i = v := by
      rw [hv, ← ea]
      rfl
    have hv0 : 0 ≤ v := ev ▸ colVar_nonneg x i
    have hp : v + 1 / 100000 ≠ 0 := by positivity
    have hr0 : P.rt (v + 1 / 100000) ≠ 0 := by
      intro e
      rw [e] at hr
      exact hp (by linarith)
    simp only [List.map_map, List.length_map, ea, ev, Function.comp_def]
    have hsum : (x.map fun r => r i).sum = a * x.length := by rw [ha]; field_simp
    constructor
    · have e : (x.map fun r : Fin c → ℚ => (r i - a) / P.rt (v + 1 / 100000) * P.bnWeight name i + P.bnBias name i)
          = x.map fun r => r i * (P.bnWeight name i / P.rt (v + 1 / 100000)) + (P.bnBias name i - a * (P.bnWeight name i / P.rt (v + 1 / 100000))) := by
        apply List.map_congr_left
        intro r _
        field_simp
        ring
      rw [e, sum_linear, hsum]
      field_simp
      ring
    · have e : (x.map fun r : Fin c → ℚ => ((r i - a) / P.rt (v + 1 / 100000) * P.bnWeight name i + P.bnBias name i - P.bnBias name i) *
            ((r i - a) / P.rt (v + 1 / 100000) * P.bnWeight name i + P.bnBias name i - P.bnBias name i))
          = x.map fun r => ((r i - a) * (r i - a)) * (P.bnWeight name i * P.bnWeight name i / (v + 1 / 100000)) + 0 := by
        apply List.map_congr_left
        intro r _
        generalize P.rt (v + 1 / 100000) = q at hr hr0
        rw [← hr]
        field_simp
        ring
      have hs2 : (x.map fun r => (r i - a) * (r i - a)).sum = v * x.length := by rw [hv]; field_simp
      rw [e, sum_linear, hs2]
      field_simp
      ring

/-- **C190, one row.** -/
theorem C190_single (P : Params) (hP : P.training = true) (name : String) {c : Nat} (r : Fin c → ℚ) : batchNorm P name c ⟨c, [r]⟩ = .error .value := by
  unfold batchNorm
  rw [Tensor.on_self]
  simp only [hP, if_true, List.length_singleton]
  rfl

/-! ### the violation; the hypotheses can be met -/

/-- parameters in training mode -/
def trainParams : Params := { foldParams with training := true }

/-- a layer with zero matrices and the given bias -/
def biasLayer (k : Nat × Nat × Nat) (s : Nat) (nempty : Bool) (b : Option (Fin 3 → ℚ)) : ConvModule (Fin 3 → ℚ) (Fin 2 → Fin 3 → ℚ) :=
  { layerWith k s nempty fun g i j => 0 * (g.1 + i.val - j.val) with bias := b }

theorem biasLayer_layer (k : Nat × Nat × Nat) (hk : k ∈ supportedKernels) (s : Nat) (nempty : Bool) (b : Option (Fin 3 → ℚ)) :
    ConvLayer k s nempty (biasLayer k s nempty b) := by
  have l := layerWith_layer (ci := 2) (co := 3) k hk s nempty fun g i j => 0 * (g.1 + i.val - j.val)
  exact ⟨l.supported, l.made, l.weights⟩

theorem convAt_zeros {ci co : Nat} (f : Nat → Int → Int → Int → Fin ci → ℚ) (offs : List (Int × Int × Int)) (ws : List (Fin ci → Fin co → ℚ)) (hz : ∀ w ∈ ws, w = 0)
    (c : Cell) : convAt f offs ws c = 0 := by
  unfold convAt
  apply List.sum_eq_zero
  intro v hv
  obtain ⟨i, hi, rfl⟩ := List.mem_iff_getElem.1 hv
  rw [List.getElem_zipWith, hz _ (List.getElem_mem _)]
  funext j
  simp [vecMat]

theorem exists_full (m : List Bool) (n : Nat) (h : 0 < m.count true) : ∃ (i : Nat) (v : Int), (number n m)[i]? = some v ∧ 0 ≤ v := by
  induction m generalizing n with
  | nil => simp at h
  | cons b m ih =>
    cases b with
    | true => exact ⟨0, n, rfl, by omega⟩
    | false =>
      obtain ⟨i, v, h1, h2⟩ := ih n (by simpa using h)
      exact ⟨i + 1, v, by simpa [number] using h1, h2⟩

theorem bn_differs (y' y : List (Fin 3 → ℚ)) (i j : Nat) (hl : y'.length = y.length) (h2 : 2 ≤ y.length) (hy : ∀ r ∈ y, r = 0) (hi : y'[i]? = some 0) (hj : y'[j]? = some 1) :
    batchNorm trainParams "bn" 3 ⟨3, y'⟩ ≠ batchNorm trainParams "bn" 3 ⟨3, y⟩ := by
  have ht : trainParams.training = true := rfl
  unfold batchNorm
  rw [Tensor.on_self, Tensor.on_self]
  simp only [ht, if_true, if_neg (show ¬ y'.length = 1 by omega), if_neg (show ¬ y.length = 1 by omega)]
  intro he
  have he := Except.ok.inj he
  simp only [Tensor.mk.injEq, heq_eq_eq, true_and] at he
  have li : i < y.length := by have := (List.getElem?_eq_some_iff.1 hi).1; omega
  have lj : j < y.length := by have := (List.getElem?_eq_some_iff.1 hj).1; omega
  have ei := congrArg (fun l => l[i]?) he
  have ej := congrArg (fun l => l[j]?) he
  simp only [List.getElem?_map, hi, hj, List.getElem?_eq_getElem li, List.getElem?_eq_getElem lj, hy _ (List.getElem_mem _), Option.map_some] at ei ej
  rw [← ei] at ej
  have e := congrFun (Option.some.inj ej) 0
  have hp := colVar_nonneg y' 0
  simp only [trainParams, foldParams, Pi.one_apply, Pi.zero_apply] at e
  generalize colVar y' 0 = q at e hp
  have hq : q + 1 / 100000 ≠ 0 := by positivity
  simp only [Fin.val_zero, Nat.cast_zero, zero_add] at e
  have h : (2 : ℚ) / (q + 1 / 100000) = 0 := by linear_combination e
  rw [div_eq_zero_iff] at h
  rcases h with h | h
  · norm_num at h
  · exact hq h

/-- **C190, violated.** With stride 2 and `nempty=False` the bias changes the normalised result, as it does not reach the rows of the empty nodes. -/
theorem C190_violated : ∃ (P : Params) (o : Octree Unit) (m m' : ConvModule (Fin 3 → ℚ) (Fin 2 → Fin 3 → ℚ)) (x : List (Fin 2 → ℚ)) (y y' : List (Fin 3 → ℚ)),
    P.training = true ∧ o.Valid 2 ∧ NeighExact o.batchSize 2 o.keys o.neighs ∧ ConvLayer (3, 3, 3) 2 false m ∧ ConvLayer (3, 3, 3) 2 false m' ∧
    m'.weights = m.weights ∧ m.bias = none ∧ x.length = o.nnum 2 ∧
    m.forward (denseKernel ℚ 2 3) x o 2 = .ok y ∧ m'.forward (denseKernel ℚ 2 3) x o 2 = .ok y' ∧
    batchNorm P "bn" 3 ⟨3, y'⟩ ≠ batchNorm P "bn" 3 ⟨3, y⟩ := by
  obtain ⟨o, h1, h2, h3, h4, h5, h6, h7⟩ := example_valid'
  have W := h1.wf'
  have hN : Nodes o false 2 2 _ _ := .two 1 _ _ _ _ (W.cellsOf 2 (by omega)) (W.children 2 (by omega)) (W.cellsOf 1 (by omega)) (W.children 1 (by omega))
  have hO : Outs o false 2 2 _ _ := .two 1 _ _ _ _ (W.cellsOf 2 (by omega)) (W.children 2 (by omega)) (W.cellsOf 1 (by omega)) (W.children 1 (by omega))
  have hq : (queried false (layerCells o.batchSize o.masks 2) (number 0 (o.masks 2))).length = (List.replicate (o.nnum 2) (1 : Fin 2 → ℚ)).length := by
    rw [queried, if_neg (by decide), List.length_replicate, W.nnum _ (by omega)]
  obtain ⟨f, hf⟩ := exists_field _ _ hq (nodes_nodup o 2 h1 2 le_rfl false 2 _ _ hN)
  have l1 := biasLayer_layer (3, 3, 3) (by decide) 2 false none
  have l2 := biasLayer_layer (3, 3, 3) (by decide) 2 false (some 1)
  have e1 := layer_forward o 2 h1 2 2 le_rfl (h3 2 le_rfl) (3, 3, 3) false _ _ hO _ l1 _ f hf
  have e2 := layer_forward o 2 h1 2 2 le_rfl (h3 2 le_rfl) (3, 3, 3) false _ _ hO _ l2 _ f hf
  refine ⟨trainParams, o, _, _, _, _, _, rfl, h1, h3 2 le_rfl, l1, l2, rfl, rfl, by simp, e1, e2, ?_⟩
  have hz : ∀ b, ∀ w ∈ (biasLayer (3, 3, 3) 2 false b).weights, w = 0 := by
    intro b w hw
    obtain ⟨g, -, rfl⟩ := List.mem_map.1 hw
    funext i j
    simp
  have a1 := W.nnumNempty 1 (by omega)
  have a2 := W.nnum 1 (by omega)
  have a3 := W.len 1 (by omega)
  obtain ⟨i, v, hi, hv⟩ := exists_empty (o.masks 1) 0 (by omega)
  obtain ⟨j, u, hj, hu⟩ := exists_full (o.masks 1) 0 (by omega)
  have li : i < (o.masks 1).length := by simpa using (List.getElem?_eq_some_iff.1 hi).1
  have lj : j < (o.masks 1).length := by simpa using (List.getElem?_eq_some_iff.1 hj).1
  have zi : ((layerCells o.batchSize o.masks 1).zip (number 0 (o.masks 1)))[i]? = some ((layerCells o.batchSize o.masks 1)[i]'(by omega), v) := by
    rw [List.getElem?_zip_eq_some]
    exact ⟨List.getElem?_eq_getElem _, hi⟩
  have zj : ((layerCells o.batchSize o.masks 1).zip (number 0 (o.masks 1)))[j]? = some ((layerCells o.batchSize o.masks 1)[j]'(by omega), u) := by
    rw [List.getElem?_zip_eq_some]
    exact ⟨List.getElem?_eq_getElem _, hj⟩
  refine bn_differs _ _ i j ?_ ?_ ?_ ?_ ?_
  · simp
  · simp only [Bool.false_eq_true, if_false, List.length_map, List.length_zip, number_length]
    omega
  · intro r hr
    obtain ⟨t, -, rfl⟩ := List.mem_map.1 hr
    cases t with
    | none => rfl
    | some c =>
      show convAt _ _ _ _ + _ = _
      rw [convAt_zeros _ _ _ (hz none)]
      simp [biasLayer]
  · simp only [Bool.false_eq_true, if_false, List.getElem?_map, zi, Option.map_some]
    simp [show ¬ (0 : Int) ≤ v by omega]
  · simp only [Bool.false_eq_true, if_false, List.getElem?_map, zj, Option.map_some, if_pos hu]
    rw [convAt_zeros _ _ _ (hz (some 1))]
    simp [biasLayer]

/-- The hypotheses of `C190_bias_partial`. -/
example (s : Nat) (hs : s = 1 ∨ s = 2) (b : Fin 3 → ℚ) : ∃ (P : Params) (o : Octree Unit) (m m' : ConvModule (Fin 3 → ℚ) (Fin 2 → Fin 3 → ℚ)) (srcs targets : List Cell),
    P.training = true ∧ o.Valid 2 ∧ NeighExact o.batchSize 2 o.keys o.neighs ∧ Nodes o true 2 s srcs targets ∧ ConvLayer (3, 3, 3) s true m ∧ ConvLayer (3, 3, 3) s true m' ∧
    m'.weights = m.weights ∧ m.bias = none ∧ m'.bias = some b ∧ m.weights[26]? = some fun i j => (1 + i.val - j.val : ℚ) := by
  obtain ⟨o, h1, h2, h3, h4, h5, h6, h7⟩ := example_valid'
  have W := h1.wf'
  have l := layerWith_layer (ci := 2) (co := 3) (3, 3, 3) (by decide) s true fun g i j => g.1 + i.val - j.val
  have hN : ∃ srcs targets, Nodes o true 2 s srcs targets := by
    rcases hs with rfl | rfl
    · exact ⟨_, _, .one 2 _ _ (W.cellsOf 2 (by omega)) (W.children 2 (by omega))⟩
    · exact ⟨_, _, .two 1 _ _ _ _ (W.cellsOf 2 (by omega)) (W.children 2 (by omega)) (W.cellsOf 1 (by omega)) (W.children 1 (by omega))⟩
  obtain ⟨srcs, targets, hN⟩ := hN
  refine ⟨trainParams, o, _, { layerWith (ci := 2) (co := 3) (3, 3, 3) s true fun g i j => g.1 + i.val - j.val with bias := some b }, srcs, targets, rfl, h1, h3 2 le_rfl, hN, l,
    ⟨l.supported, l.made, l.weights⟩, rfl, rfl, rfl, ?_⟩
  have e : (kernelOffsets (3, 3, 3))[26]? = some (1, 1, 1) := by decide
  simp [layerWith, List.getElem?_map, e]

/-- The hypotheses of `C190_statistics`: two rows whose variance plus eps is the square of a rational number. -/
example : ∃ (P : Params) (x : List (Fin 1 → ℚ)) (a v : ℚ), P.training = true ∧ 2 ≤ x.length ∧ a = (x.map fun r => r 0).sum / x.length ∧
    v = (x.map fun r => (r 0 - a) * (r 0 - a)).sum / x.length ∧ 0 < v ∧ P.rt (v + 1 / 100000) * P.rt (v + 1 / 100000) = v + 1 / 100000 := by
  refine ⟨{ trainParams with rt := fun _ => 11 / 2000 }, [fun _ => 9 / 2000, fun _ => -9 / 2000], 0, 81 / 4000000, rfl, by simp, ?_, ?_, ?_, ?_⟩ <;> norm_num

end Ocnn
