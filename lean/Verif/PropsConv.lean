import Verif.ConvMain

/-! Properties C30 – C38, C41 and C84: padding, gathering, convolution and transposed convolution. -/

set_option linter.unusedSimpArgs false

namespace Ocnn
open Spec

variable {F V R : Type}

/-- **C30.** `octree_pad` puts the row of the non-empty node with child index `c` at that node and the fill value
at empty nodes; `octree_depad` takes it back. -/
theorem C30_pad_depad (o : Octree F) (h : Nat) (w : o.Valid h) (d : Nat) (hd : d ≤ h) (ch : List Int)
    (hch : o.children d = some ch) (x : List V) (v : V) (hx : x.length = o.nnumNempty d) :
    ∃ y, octreePad x o d v = .ok y ∧ y.length = o.nnum d ∧ octreeDepad y o d = .ok x ∧
      y = ch.map fun c => if 0 ≤ c then (x[c.toNat]?).getD v else v := by
  have W := w.wf'
  rw [W.children d hd] at hch
  cases hch
  have hl := (mask_of w d hd).2
  have hlen : (maskFill (o.masks d) (List.replicate (o.masks d).length v) x).length = o.nnum d := by
    rw [maskFill_length _ _ _ (by simp)]; simpa using hl
  refine ⟨_, pad_ok w d hd x v hx, hlen, ?_, ?_⟩
  · rw [depad_ok w d hd _ hlen, maskSel_maskFill _ _ _ (by simp) (by rw [hx, nnumNempty_eq w d hd])]
  · have := maskFill_number (o.masks d) 0 x v (by rw [hx, nnumNempty_eq w d hd]; omega)
    simpa using this

/-- **C30.** `octree_depad` followed by `octree_pad` keeps the rows of non-empty nodes and overwrites the others. -/
theorem C30_depad_pad (o : Octree F) (h : Nat) (w : o.Valid h) (d : Nat) (hd : d ≤ h) (ch : List Int)
    (hch : o.children d = some ch) (y : List V) (v : V) (hy : y.length = o.nnum d) :
    ∃ x, octreeDepad y o d = .ok x ∧ x.length = o.nnumNempty d ∧
      octreePad x o d v = .ok (List.zipWith (fun c r => if 0 ≤ c then r else v) ch y) := by
  have W := w.wf'
  rw [W.children d hd] at hch
  cases hch
  have hl := (mask_of w d hd).2
  have hlen : (maskSel (o.masks d) y).length = o.nnumNempty d := by
    rw [maskSel_length _ _ (by omega), nnumNempty_eq w d hd]
  refine ⟨_, depad_ok w d hd y hy, hlen, ?_⟩
  rw [pad_ok w d hd _ v hlen, maskFill_maskSel _ 0 _ _ (by omega)]

example : ∃ (o : Octree Unit) (ch : List Int), o.Valid 2 ∧ o.children 2 = some ch ∧ 0 < o.nnumNempty 2 ∧
    (List.replicate (o.nnumNempty 2) (1 : ℚ)).length = o.nnumNempty 2 := by
  obtain ⟨o, _, h1, h2, h3, h4, h5, h6⟩ := example_valid
  rw [h3] at h1
  exact ⟨o, _, h1, h1.wf'.children 2 (le_refl _), h6 2 (le_refl _), by simp⟩

/-- **C31, the part that holds.** A tensor whose height is neither the number of non-empty nodes nor 1 is
rejected.  Missing: a single row is accepted whatever the number of non-empty nodes (`C31_violated`). -/
theorem C31_partial (o : Octree F) (h : Nat) (w : o.Valid h) (d : Nat) (hd : d ≤ h) (x : List V) (v : V)
    (hx : x.length ≠ o.nnumNempty d) (hx1 : x.length ≠ 1) : octreePad x o d v = .error .shape := by
  obtain ⟨h1, h2⟩ := mask_of w d hd
  unfold octreePad
  simp only [h1, bind, Except.bind, boolSet, List.length_replicate, h2, if_true]
  rw [if_neg (by rw [← nnumNempty_eq w d hd]; exact hx)]
  match x with
  | [] => rfl
  | [_] => simp at hx1
  | _ :: _ :: _ => rfl

/-- **C31 is violated.** One row is accepted by every octree and repeated for every non-empty node. -/
theorem C31_one_row (o : Octree F) (h : Nat) (w : o.Valid h) (d : Nat) (hd : d ≤ h) (ch : List Int)
    (hch : o.children d = some ch) (r v : V) :
    octreePad [r] o d v = .ok (ch.map fun c => if 0 ≤ c then r else v) := by
  have W := w.wf'
  rw [W.children d hd] at hch
  cases hch
  obtain ⟨h1, h2⟩ := mask_of w d hd
  have key : maskFill (o.masks d) (List.replicate (o.masks d).length v) (List.replicate ((o.masks d).count true) r)
      = (number 0 (o.masks d)).map fun c => if 0 ≤ c then r else v := by
    have := maskFill_number (o.masks d) 0 (List.replicate ((o.masks d).count true) r) v (by simp)
    rw [List.drop_zero] at this
    rw [this]
    apply List.map_congr_left
    intro c hc
    by_cases h0 : 0 ≤ c
    · rw [if_pos h0, if_pos h0]
      obtain ⟨i, hi⟩ := List.getElem?_of_mem hc
      rw [number_getElem?] at hi
      cases hm : (o.masks d)[i]? with
      | none => rw [hm] at hi; cases hi
      | some b =>
        rw [hm] at hi
        cases b
        · simp at hi; omega
        · simp only [Option.map_some, if_true, Nat.zero_add, Option.some.injEq] at hi
          have := rank_lt_count hm
          rw [List.getElem?_replicate, if_pos (by omega)]
          rfl
    · rw [if_neg h0, if_neg h0]
  unfold octreePad
  simp only [h1, bind, Except.bind, boolSet, List.length_replicate, h2, if_true]
  by_cases hc : [r].length = (o.masks d).count true
  · rw [if_pos hc, ← key, ← hc, ← h2]
    rfl
  · rw [if_neg hc, ← key, h2]

theorem example_counts : exampleOctree.toOption.map (fun o => (o.nnum 1, o.nnum 2, o.nnumNempty 1, o.nnumNempty 2))
    = some (8, 16, 2, 2) := by decide +kernel

/-- The octree of the examples, with its node counts. -/
theorem example_valid' : ∃ o : Octree Unit, o.Valid 2 ∧ o.batchSize = 1 ∧ (∀ d ≤ 2, NeighExact o.batchSize d o.keys o.neighs) ∧
    o.nnum 1 = 8 ∧ o.nnum 2 = 16 ∧ o.nnumNempty 1 = 2 ∧ o.nnumNempty 2 = 2 := by
  obtain ⟨o, h0, h1, h2, h3, h4, h5, h6⟩ := example_valid
  rw [h3] at h1
  have := example_counts
  rw [h0] at this
  simp only [Except.toOption, Option.map_some, Option.some.injEq, Prod.mk.injEq] at this
  exact ⟨o, h1, h4, h5, this.1, this.2.1, this.2.2.1, this.2.2.2⟩

/-- **C31 is violated.** An octree with several non-empty nodes accepts a tensor with a single row. -/
theorem C31_violated : ∃ (o : Octree Unit) (x y : List Nat), o.Valid 2 ∧ x.length ≠ o.nnumNempty 1 ∧ octreePad x o 1 0 = .ok y := by
  obtain ⟨o, h1, -, -, -, -, h6, -⟩ := example_valid'
  exact ⟨o, [5], _, h1, by rw [h6]; decide, C31_one_row o 2 h1 1 (by omega) _ (h1.wf'.children 1 (by omega)) 5 0⟩

example : ∃ (o : Octree Unit) (x : List Nat), o.Valid 2 ∧ x.length ≠ o.nnumNempty 1 ∧ x.length ≠ 1 := by
  obtain ⟨o, h1, -, -, -, -, h6, -⟩ := example_valid'
  exact ⟨o, [1, 2, 3], h1, by rw [h6]; decide, by decide⟩

/-- **C32.** `octree2col`: entry `(i, k)` is the value of the feature field at target `i` displaced by offset `k`
(zero where there is no node, or no non-empty node if `nempty`). -/
theorem C32_octree2col [AddCommMonoid V] (o : Octree F) (h : Nat) (w : o.Valid h) (d : Nat) (hd : d ≤ h)
    (hn : NeighExact o.batchSize d o.keys o.neighs) (k : Nat × Nat × Nat) (hk : k ∈ supportedKernels) (nempty : Bool)
    (s : Nat) (srcs targets : List Cell) (hN : Nodes o nempty d s srcs targets) (x : List V)
    (f : Nat → Int → Int → Int → V) (hf : IsField srcs x f) :
    octree2col x o d (kernelName k) s nempty = .ok (targets.map fun c => (kernelOffsets k).map fun g => around f c g) := by
  obtain ⟨⟨rows, e1, e2⟩, -, -⟩ := nodes_table o h w d hd hn k hk nempty s srcs targets hN
  unfold octree2col
  simp only [e1, bind, Except.bind]
  obtain ⟨h1, h2⟩ := table_vals e2 hf
  rw [gatherCols_ok rows x h1, h2]

/-- Both strides have instances, and every tensor of the right height is a field. -/
theorem nodes_field_exists (o : Octree F) (h : Nat) (w : o.Valid h) (d : Nat) (hd : d + 1 ≤ h) (nempty : Bool) (v : V) [Zero V] :
    (∃ srcs, ∃ x f, Nodes o nempty (d + 1) 1 srcs srcs ∧ IsField srcs x f ∧ ∀ r ∈ x, r = v) ∧
    ∃ srcs targets, ∃ x f, Nodes o nempty (d + 1) 2 srcs targets ∧ IsField srcs x f ∧ ∀ r ∈ x, r = v := by
  constructor
  · obtain ⟨srcs, hN⟩ := nodes_one_exists o h w (d + 1) hd nempty
    obtain ⟨f, hf⟩ := exists_field srcs (List.replicate srcs.length v) (by simp) (nodes_nodup o h w _ hd nempty _ _ _ hN)
    exact ⟨srcs, _, f, hN, hf, fun r hr => List.eq_of_mem_replicate hr⟩
  · obtain ⟨srcs, targets, hN⟩ := nodes_two_exists o h w d hd nempty
    obtain ⟨f, hf⟩ := exists_field srcs (List.replicate srcs.length v) (by simp) (nodes_nodup o h w _ hd nempty _ _ _ hN)
    exact ⟨srcs, targets, _, f, hN, hf, fun r hr => List.eq_of_mem_replicate hr⟩

/-- the hypotheses of the theorems below are met -/
example : ∃ (o : Octree Unit) (srcs targets : List Cell) (x : List (Fin 3 → ℚ)) (f : Nat → Int → Int → Int → Fin 3 → ℚ),
    o.Valid 2 ∧ NeighExact o.batchSize 2 o.keys o.neighs ∧ Nodes o false 2 2 srcs targets ∧ IsField srcs x f ∧
    (2, 2, 2) ∈ supportedKernels ∧ targets.length = 2 := by
  obtain ⟨o, h1, -, h5, -, -, h6, -⟩ := example_valid'
  obtain ⟨-, srcs, targets, x, f, hN, hf, -⟩ := nodes_field_exists o 2 h1 1 (le_refl _) false (fun _ : Fin 3 => (1 : ℚ))
  refine ⟨o, srcs, targets, x, f, h1, h5 2 (le_refl _), hN, hf, by decide, ?_⟩
  obtain ⟨-, -, h | h⟩ := nodes_table o 2 h1 2 (le_refl _) (h5 2 (le_refl _)) (3, 3, 3) (by decide) false 2 srcs targets hN
  · omega
  · rw [h.2.2, h6]

theorem flatPairs_sum' [AddCommMonoid V] [AddCommMonoid R] (p : V → V → R) (h0 : ∀ v, p 0 v = 0) (x : List V) (row : List Int) (col : List V) :
    ((flatPairs row col).map fun q => p ((x[q.1]?).getD 0) q.2).sum
      = (List.zipWith (fun n v => p (valAt x n) v) row col).sum := by
  induction row generalizing col with
  | nil => simp [flatPairs]
  | cons n row ih =>
    cases col with
    | nil => simp [flatPairs]
    | cons v col =>
      have := ih col
      unfold flatPairs at this ⊢
      simp only [List.zip_cons_cons, List.filterMap_cons, List.zipWith_cons_cons, List.sum_cons]
      by_cases hn : n ≥ 0
      · simp only [hn, if_true, List.map_cons, List.sum_cons]
        rw [this, valAt, if_pos hn]
      · simp only [hn, if_false]
        rw [this, valAt, if_neg hn, h0, zero_add]

theorem scatterPairs_sum [AddCommMonoid V] [AddCommMonoid R] (p : V → V → R) (h0 : ∀ v, p 0 v = 0) (x : List V)
    (rows : List (List Int)) (cols : List (List V)) (h : rows.map List.length = cols.map List.length) :
    ((scatterPairs rows cols).map fun q => p ((x[q.1]?).getD 0) q.2).sum
      = inner (inner p) (rows.map fun row => row.map (valAt x)) cols := by
  induction rows generalizing cols with
  | nil => simp [scatterPairs, flatPairs, inner]
  | cons row rows ih =>
    cases cols with
    | nil => simp at h
    | cons col cols =>
      simp only [List.map_cons, List.cons.injEq] at h
      have := scatterPairs_append [row] rows [col] cols (by simp [h.1])
      simp only [List.singleton_append] at this
      rw [this, List.map_append, List.sum_append, ih cols h.2]
      have e : scatterPairs [row] [col] = flatPairs row col := by simp [scatterPairs]
      rw [e, flatPairs_sum' p h0]
      simp only [inner, List.map_cons, List.zipWith_cons_cons, List.sum_cons, List.zipWith_map_left]

/-- **C33.** `col2octree` is the adjoint of `octree2col`, for every kernel, stride and flag. -/
theorem C33_adjoint [CommSemiring R] {C : Nat} (o : Octree F) (h : Nat) (w : o.Valid h) (d : Nat) (hd : d ≤ h)
    (hn : NeighExact o.batchSize d o.keys o.neighs) (k : Nat × Nat × Nat) (hk : k ∈ supportedKernels) (nempty : Bool)
    (s : Nat) (srcs targets : List Cell) (hN : Nodes o nempty d s srcs targets)
    (x : List (Fin C → R)) (hx : x.length = srcs.length)
    (y : List (List (Fin C → R))) (hy : y.length = targets.length) (hyk : ∀ r ∈ y, r.length = (kernelOffsets k).length) :
    ∃ X Y, octree2col x o d (kernelName k) s nempty = .ok X ∧ col2octree y o d (kernelName k) s nempty = .ok Y ∧
      Y.length = x.length ∧ inner (inner dot) X y = inner dot x Y := by
  obtain ⟨⟨rows, e1, e2⟩, hl, -⟩ := nodes_table o h w d hd hn k hk nempty s srcs targets hN
  have hnd := nodes_nodup o h w d hd nempty s srcs targets hN
  have hin := table_inside e2 hnd
  have hsh : rows.map List.length = y.map List.length := by
    rw [map_length_const rows _ (table_width e2), map_length_const y _ hyk, e2.1, hy]
  refine ⟨rows.map fun row => row.map (valAt x), _, ?_, col2octree_ok o d _ s nempty srcs targets _ rows e1 e2 hnd (chk_ok w d hd) hl y hsh, ?_, ?_⟩
  · unfold octree2col
    simp only [e1, bind, Except.bind]
    exact gatherCols_ok rows x (hx ▸ hin)
  · rw [scatterAddInto_length, List.length_replicate, hx]
  · rw [inner_scatter (densePairing R C C).A_add _ _ _ (by simp [hx]) (by rw [hx]; exact scatterPairs_lt _ _ _ hin),
      inner_zero_right (densePairing R C C).A_zero, zero_add, scatterPairs_sum dot (densePairing R C C).A_zero_left _ _ _ hsh]

/-- **C34**, stride 1: row `i` of the output is the sum over the kernel offsets of the feature of the displaced
node (zero if absent) times the matrix of the offset, plus the bias; for the buffered and the direct method. -/
theorem C34_stride1 [CommSemiring R] {ci co : Nat} (o : Octree F) (h : Nat) (w : o.Valid h) (d : Nat) (hd : d ≤ h)
    (hn : NeighExact o.batchSize d o.keys o.neighs) (k : Nat × Nat × Nat) (hk : k ∈ supportedKernels) (nempty : Bool)
    (cells : List Cell) (hc : CellsOf o.batchSize d o.keys cells) (ch : List Int) (hch : o.children d = some ch)
    (ks : List Nat) (mb : Nat) (m : ConvModule (Fin co → R) (Fin ci → Fin co → R)) (ha : KernelArg ks k)
    (hi : ConvBase.init true ci co ks 1 nempty mb = .ok m.base)
    (hb : m.directMethod = false → (kernelOffsets k).length * ci ≤ mb)
    (hw : m.weights.length = (kernelOffsets k).length) (x : List (Fin ci → R)) (f : Nat → Int → Int → Int → Fin ci → R)
    (hf : IsField (queried nempty cells ch) x f) :
    m.forward (denseKernel R ci co) x o d
      = .ok ((queried nempty cells ch).map fun c => convAt f (kernelOffsets k) m.weights c + m.bias.getD 0) := by
  rw [forward_uniform o h w d hd hn k hk nempty 1 _ _ (.one d cells ch hc hch) ((queried nempty cells ch).map some) (by simp)
    (denseKernel R ci co) ci co ks mb m ha hi hb hw x f hf]
  rw [List.map_map]
  rfl

/-- **C34**, stride 2: the kernel is applied at the first child of every non-empty node of the layer above; with
`nempty = False` the rows of empty nodes are zero. -/
theorem C34_stride2 [CommSemiring R] {ci co : Nat} (o : Octree F) (h : Nat) (w : o.Valid h) (d : Nat) (hd : d + 1 ≤ h)
    (hn : NeighExact o.batchSize (d + 1) o.keys o.neighs) (k : Nat × Nat × Nat) (hk : k ∈ supportedKernels) (nempty : Bool)
    (cells : List Cell) (hc : CellsOf o.batchSize (d + 1) o.keys cells) (ch : List Int) (hch : o.children (d + 1) = some ch)
    (pcells : List Cell) (hp : CellsOf o.batchSize d o.keys pcells) (pch : List Int) (hpc : o.children d = some pch)
    (ks : List Nat) (mb : Nat) (m : ConvModule (Fin co → R) (Fin ci → Fin co → R)) (ha : KernelArg ks k)
    (hi : ConvBase.init true ci co ks 2 nempty mb = .ok m.base)
    (hb : m.directMethod = false → (kernelOffsets k).length * ci ≤ mb)
    (hw : m.weights.length = (kernelOffsets k).length) (x : List (Fin ci → R)) (f : Nat → Int → Int → Int → Fin ci → R)
    (hf : IsField (queried nempty cells ch) x f) :
    m.forward (denseKernel R ci co) x o (d + 1)
      = .ok (if nempty then
          (nonEmpty pcells pch).map fun p => convAt f (kernelOffsets k) m.weights (firstChild p) + m.bias.getD 0
        else (pcells.zip pch).map fun p =>
          if 0 ≤ p.2 then convAt f (kernelOffsets k) m.weights (firstChild p.1) + m.bias.getD 0 else 0) := by
  cases nempty
  · rw [forward_uniform o h w (d + 1) hd hn k hk false 2 _ _ (.two d cells ch pcells pch hc hch hp hpc)
      ((pcells.zip pch).map fun p => if 0 ≤ p.2 then some (firstChild p.1) else none)
      (by simp only [and_self, if_true, Nat.add_sub_cancel]; exact ⟨pcells, pch, hp, hpc, rfl⟩)
      (denseKernel R ci co) ci co ks mb m ha hi hb hw x f hf]
    rw [List.map_map]
    simp only [Bool.false_eq_true, if_false]
    congr 1
    apply List.map_congr_left
    rintro ⟨c, v⟩ _
    simp only [Function.comp]
    by_cases hv : 0 ≤ v
    · simp only [hv, if_true]; rfl
    · simp only [hv, if_false]
  · rw [forward_uniform o h w (d + 1) hd hn k hk true 2 _ _ (.two d cells ch pcells pch hc hch hp hpc)
      (((nonEmpty pcells pch).map firstChild).map some) (by simp)
      (denseKernel R ci co) ci co ks mb m ha hi hb hw x f hf]
    rw [List.map_map, List.map_map]
    rfl

/-- a layer with 3 input and 2 output channels, kernel `[3]`, with bias -/
def exampleModule (s : Nat) (nempty : Bool) : ConvModule (Fin 2 → ℚ) (Fin 3 → Fin 2 → ℚ) where
  base := { isConv := true, inChannels := 3, outChannels := 2, kernelSize := [3, 3, 3], kernel := "333", stride := s,
            nempty := nempty, maxBuffer := 100, kdim := 27, inConv := 3 }
  directMethod := false
  weights := (List.range 27).map fun n => fun i j => (n : ℚ) + 10 * i.val - j.val
  bias := some fun _ => 7

example (s : Nat) (nempty : Bool) : KernelArg [3] (3, 3, 3) ∧
    ConvBase.init true 3 2 [3] s nempty 100 = .ok (exampleModule s nempty).base ∧
    (kernelOffsets (3, 3, 3)).length * 3 ≤ 100 ∧
    (exampleModule s nempty).weights.length = (kernelOffsets (3, 3, 3)).length := by
  refine ⟨Or.inr (Or.inr ⟨rfl, rfl, rfl⟩), ?_, by decide, by simp [exampleModule]; decide⟩
  rw [init_ok true 3 2 [3] s nempty 100 (3, 3, 3) (by decide) (Or.inr (Or.inr ⟨rfl, rfl, rfl⟩))]
  simp [exampleModule]
  decide

/-- **C35**, the chunks.  If the buffer can hold one row, the chunk size is found; the chunks `[i h, (i+1) h)`
partition the rows, none is empty (if there are rows), and the buffer has at most `max_buffer` elements. -/
theorem C35_chunks (rows kdim inConv mb : Nat) (hm : kdim * inConv ≤ mb) :
    ∃ n h, bufferSize rows kdim inConv mb = .ok (n, h) ∧ h * kdim * inConv ≤ mb ∧
      (List.range n).flatMap (fun i => (List.range rows).filter fun r => decide (i * h ≤ r ∧ r < (i + 1) * h)) = List.range rows ∧
      (0 < rows → ∀ i < n, ∃ r < rows, i * h ≤ r ∧ r < (i + 1) * h) := by
  obtain ⟨n, h, e, hc, h1, h2⟩ := bufferSize_ok rows kdim inConv mb hm
  refine ⟨n, h, e, h2, ?_, ?_⟩
  · have key : ∀ m, (List.range m).flatMap (fun i => (List.range rows).filter fun r => decide (i * h ≤ r ∧ r < (i + 1) * h))
        = (List.range rows).filter fun r => decide (r < m * h) := by
      intro m
      induction m with
      | zero => simp
      | succ m ih =>
        rw [List.range_succ, List.flatMap_append, ih]
        simp only [List.flatMap_cons, List.flatMap_nil, List.append_nil]
        have hmh : m * h ≤ (m + 1) * h := Nat.mul_le_mul_right _ (by omega)
        generalize m * h = a at *
        generalize (m + 1) * h = b at *
        clear * - hmh
        apply sorted_ext
        · rw [List.pairwise_append]
          refine ⟨List.pairwise_lt_range.filter _, List.pairwise_lt_range.filter _, ?_⟩
          intro x hx y hy
          simp only [List.mem_filter, decide_eq_true_eq] at hx hy
          omega
        · exact List.pairwise_lt_range.filter _
        · intro x
          simp only [List.mem_append, List.mem_filter, decide_eq_true_eq, List.mem_range]
          omega
    rw [key n, List.filter_eq_self]
    intro r hr
    have := hc.cover
    rw [List.mem_range] at hr
    simp only [decide_eq_true_eq]
    omega
  · intro h0 i hi
    have h3 := h1 h0
    have h4 : i * h ≤ (n - 1) * h := Nat.mul_le_mul_right _ (by omega)
    have hh : 0 < h := by
      rcases Nat.eq_zero_or_pos h with h5 | h5
      · have := hc.cover
        subst h5
        omega
      · exact h5
    refine ⟨i * h, by omega, le_refl _, ?_⟩
    rw [Nat.succ_mul]
    omega

example : bufferSize 10 27 3 200 = .ok (5, 2) := by decide

/-- **C35**, the results.  With any buffer that can hold one row, the three loops give what they give with a
single chunk, for every table with `kdim` columns whose entries are rows of the tensor or negative. -/
theorem C35_chunked_eq_direct {A B W : Type} [AddCommMonoid A] [AddCommMonoid B] [AddCommMonoid W] (K : Kernel A B W)
    (neigh : List (List Int)) (kdim inConv inH outH mb : Nat) (hm : kdim * inConv ≤ mb)
    (hw : ∀ r ∈ neigh, r.length = kdim) (x : List A) (hin : ∀ row ∈ neigh, ∀ v ∈ row, v < (x.length : Int))
    (ws : List W) (hws : ws.length = kdim) (g : List B) (hg : g.length = neigh.length) :
    ∃ n h, bufferSize neigh.length kdim inConv mb = .ok (n, h) ∧
      ∃ Y gx gw,
        (∀ nh ∈ [(n, h), (1, neigh.length)],
          forwardGemm K { inH := inH, outH := outH, neigh := neigh, kdim := kdim, bufferN := nh.1, bufferH := nh.2 }
            (List.replicate neigh.length 0) x ws = .ok Y ∧
          backwardGemm K { inH := inH, outH := outH, neigh := neigh, kdim := kdim, bufferN := nh.1, bufferH := nh.2 }
            (List.replicate x.length 0) g ws = .ok gx ∧
          weightGemm K { inH := inH, outH := outH, neigh := neigh, kdim := kdim, bufferN := nh.1, bufferH := nh.2 }
            (List.replicate ws.length 0) x g = .ok gw) ∧
        Y.length = neigh.length ∧ gx.length = x.length ∧ gw.length = ws.length := by
  obtain ⟨n, h, e, hc, -, -⟩ := bufferSize_ok neigh.length kdim inConv mb hm
  refine ⟨n, h, e, directRows K neigh x ws, scatterAddInto (List.replicate x.length 0) (scatterPairs neigh (backCols K ws g)),
    List.zipWith (· + ·) (List.replicate ws.length 0) (outerSum K kdim (fwdCols neigh x) g), ?_, directRows_length _ _ _ _, ?_, ?_⟩
  rotate_left
  · rw [scatterAddInto_length, List.length_replicate]
  · rw [List.length_zipWith, List.length_replicate, outerSum_length, hws, min_self]
  · intro nh hnh
    have hc' : Chunked nh.1 nh.2 neigh.length := by
      simp only [List.mem_cons, List.not_mem_nil, or_false] at hnh
      rcases hnh with rfl | rfl
      · exact hc
      · exact ⟨by simp, by simp, by simp⟩
    refine ⟨forwardGemm_ok K _ _ x ws hc' hw hin hws (by simp), ?_, ?_⟩
    · exact backwardGemm_ok K _ _ g ws hc' hw (by rw [List.length_replicate]; exact hin) hws hg
    · exact weightGemm_ok K _ _ x g hc' hw hin (by rw [List.length_replicate]; exact hws) hg

/-- **C36, the part that holds**: a buffer for one row is enough (`C35_chunks`, `C41_conv`).  Missing: smaller
positive buffers raise (`C36_violated`). -/
theorem C36_partial (rows kdim inConv mb : Nat) (hm : kdim * inConv ≤ mb) : ∃ b, bufferSize rows kdim inConv mb = .ok b := by
  obtain ⟨n, h, e, -⟩ := C35_chunks rows kdim inConv mb hm
  exact ⟨_, e⟩

/-- **C36 is violated.** On every well-formed octree with at least one output row, every `max_buffer` smaller than
one row of the buffer raises ZeroDivisionError (both strides, both flags, forward of the buffered layer). -/
theorem C36_small_buffer_raises {A B W : Type} [AddCommMonoid A] [AddCommMonoid B] (K : Kernel A B W)
    (o : Octree F) (h : Nat) (w : o.Valid h) (d : Nat) (hd : d ≤ h)
    (hn : NeighExact o.batchSize d o.keys o.neighs) (k : Nat × Nat × Nat) (hk : k ∈ supportedKernels) (nempty : Bool)
    (s : Nat) (srcs targets : List Cell) (hN : Nodes o nempty d s srcs targets) (ht : targets ≠ [])
    (ci co : Nat) (ks : List Nat) (mb : Nat) (m : ConvModule B W) (ha : KernelArg ks k)
    (hi : ConvBase.init true ci co ks s nempty mb = .ok m.base) (hdm : m.directMethod = false)
    (hb : mb < (kernelOffsets k).length * ci) (x : List A) : m.forward K x o d = .error .zeroDiv := by
  have hbase := hi
  rw [init_ok true ci co ks s nempty mb k hk ha] at hbase
  have hbase : m.base = _ := (Except.ok.inj hbase).symm
  obtain ⟨⟨rows, e1, e2⟩, hl, hst⟩ := nodes_table o h w d hd hn k hk nempty s srcs targets hN
  have hpos : 0 < rows.length := by
    rw [e2.1]; exact List.length_pos_iff.2 ht
  have hz := bufferSize_zeroDiv rows.length (kernelOffsets k).length ci mb hb hpos
  have hs : m.base.setup o d = .error .zeroDiv := by
    rw [hbase]
    unfold ConvBase.setup
    rcases hst with ⟨rfl, -⟩ | ⟨rfl, hd1, -⟩
    · simp only [show ¬ (1 : Nat) = 2 by decide, false_and, if_false, if_true, chk_ok w d hd, bind, Except.bind, pure, Except.pure, e1, hz]
    · simp only [true_and, show ¬ d = 0 by omega, if_false, if_true, chk_ok w d hd, chk_ok w (d - 1) (by omega), bind, Except.bind, pure,
        Except.pure, e1, hz, Bool.true_eq_false, and_false]
  unfold ConvModule.forward convForward
  rw [hdm, hs]
  rfl

/-- **C36 is violated**: a concrete octree, layer and positive buffer size. -/
theorem C36_violated : ∃ (o : Octree Unit) (m : ConvModule (Fin 2 → ℚ) (Fin 3 → Fin 2 → ℚ)) (mb : Nat), 0 < mb ∧ o.Valid 2 ∧
    ConvBase.init true 3 2 [3] 1 false mb = .ok m.base ∧ m.directMethod = false ∧ m.weights.length = 27 ∧
    ∀ x : List (Fin 3 → ℚ), x.length = o.nnum 2 → m.forward (denseKernel ℚ 3 2) x o 2 = .error .zeroDiv := by
  obtain ⟨o, h1, -, h5, -, h7, h6, -⟩ := example_valid'
  have hk : ((3, 3, 3) : Nat × Nat × Nat) ∈ supportedKernels := by decide
  have ha : KernelArg [3] (3, 3, 3) := Or.inr (Or.inr ⟨rfl, rfl, rfl⟩)
  have hi := init_ok true 3 2 [3] 1 false 80 (3, 3, 3) hk ha
  refine ⟨o, { base := _, directMethod := false, weights := List.replicate 27 0, bias := none }, 80, by decide, h1, hi, rfl, by simp, ?_⟩
  intro x hx
  obtain ⟨srcs, hN⟩ := nodes_one_exists o 2 h1 2 (le_refl _) false
  obtain ⟨-, hl, -⟩ := nodes_table o 2 h1 2 (le_refl _) (h5 2 (le_refl _)) _ hk false 1 srcs srcs hN
  refine C36_small_buffer_raises (denseKernel ℚ 3 2) o 2 h1 2 (le_refl _) (h5 2 (le_refl _)) (3, 3, 3) hk false 1 srcs srcs hN ?_
    3 2 [3] 80 _ ha hi rfl (by decide) x
  intro e
  rw [e] at hl
  simp [h7] at hl

theorem refersTo_unique {cells : List Cell} (hnd : cells.Nodup) {c : Cell} {g : Int × Int × Int} {v v' : Int}
    (h : RefersTo cells c g v) (h' : RefersTo cells c g v') : v = v' := by
  rcases h with ⟨j, c2, rfl, h1, h2⟩ | ⟨rfl, h2⟩
  · exact ((refersTo_iff hnd h' h1).2 h2).symm
  · rcases h' with ⟨j, c2, rfl, h1, h3⟩ | ⟨rfl, -⟩
    · exact absurd h3 (h2 c2 (List.mem_of_getElem? h1))
    · rfl

theorem table_unique {cells targets : List Cell} {offs : List (Int × Int × Int)} {rows rows' : List (List Int)}
    (h : KernelTable cells targets offs rows) (h' : KernelTable cells targets offs rows') (hnd : cells.Nodup) : rows = rows' := by
  apply List.ext_getElem (h.1.trans h'.1.symm)
  intro i h1 h2
  have hi : i < targets.length := by rw [← h.1]; exact h1
  obtain ⟨a1, a2⟩ := h.2 i _ _ (List.getElem?_eq_getElem hi) (List.getElem?_eq_getElem h1)
  obtain ⟨b1, b2⟩ := h'.2 i _ _ (List.getElem?_eq_getElem hi) (List.getElem?_eq_getElem h2)
  apply List.ext_getElem (a1.trans b1.symm)
  intro j j1 j2
  have hj : j < offs.length := by rw [← a1]; exact j1
  exact refersTo_unique hnd (a2 j _ _ (List.getElem?_eq_getElem hj) (List.getElem?_eq_getElem j1))
    (b2 j _ _ (List.getElem?_eq_getElem hj) (List.getElem?_eq_getElem j2))

theorem inner_comm_dot [CommSemiring R] {C : Nat} (a b : List (Fin C → R)) : inner dot a b = inner dot b a := by
  unfold inner
  rw [List.zipWith_comm]
  congr 2
  funext x y
  simp only [dot, mul_comm]

/-- **C37.** The backward pass returns, for every upstream gradient `g` and every chunking, tensors `gx`, `gw` with
`⟨conv(x'; W), g⟩ = ⟨x', gx⟩` for all `x'` and `⟨conv(x; W'), g⟩ = ⟨W', gw⟩` for all `W'`.  As the convolution is
bilinear (`C37_bilinear`), these are the exact derivatives. -/
theorem C37_gradients [CommSemiring R] {ci co : Nat} (o : Octree F) (h : Nat) (w : o.Valid h) (d : Nat) (hd : d ≤ h)
    (hn : NeighExact o.batchSize d o.keys o.neighs) (k : Nat × Nat × Nat) (hk : k ∈ supportedKernels) (nempty : Bool)
    (s : Nat) (srcs targets : List Cell) (hN : Nodes o nempty d s srcs targets)
    (ks : List Nat) (mb : Nat) (c : ConvBase) (ha : KernelArg ks k) (hi : ConvBase.init true ci co ks s nempty mb = .ok c)
    (hb : (kernelOffsets k).length * ci ≤ mb)
    (x : List (Fin ci → R)) (hx : x.length = srcs.length)
    (ws : List (Fin ci → Fin co → R)) (hw : ws.length = (kernelOffsets k).length)
    (g : List (Fin co → R)) (hg : g.length = targets.length) :
    ∃ gx gw, convBackward (denseKernel R ci co) c x ws o d g = .ok (gx, gw) ∧ gx.length = x.length ∧ gw.length = ws.length ∧
      (∀ x', x'.length = x.length → ∃ Y, convForward (denseKernel R ci co) c x' ws o d = .ok Y ∧ Y.length = g.length ∧
        inner dot Y g = inner dot x' gx) ∧
      (∀ ws', ws'.length = ws.length → ∃ Y, convForward (denseKernel R ci co) c x ws' o d = .ok Y ∧ Y.length = g.length ∧
        inner dot Y g = inner dot2 ws' gw) := by
  obtain ⟨st, e1, e2, e3, e4⟩ := conv_setup o h w d hd hn k hk nempty s srcs targets hN ci co ks mb c ha hi hb
  have hnd := nodes_nodup o h w d hd nempty s srcs targets hN
  have hin := table_inside e2.table hnd
  have P := densePairing R ci co
  refine ⟨_, _, convBackward_ok _ c o d st srcs targets _ e1 e2 hnd x hx ws hw g hg, ?_, ?_, ?_, ?_⟩
  · rw [scatterAddInto_length, List.length_replicate]
  · rw [outerSum_length]
  · intro x' hx'
    refine ⟨_, convForward_ok _ c o d st srcs targets _ e1 e2 hnd e3 e4 x' (hx'.trans hx) ws hw, ?_, ?_⟩
    · rw [directRows_length, e2.rows, hg]
    · rw [inner_forward P, ← hx', inner_backward P _ _ _ _ (by rw [hx', hx]; exact hin) (by rw [e2.rows, hg])
        (by rw [hw]; exact table_width e2.table)]
  · intro ws' hw'
    refine ⟨_, convForward_ok _ c o d st srcs targets _ e1 e2 hnd e3 e4 x hx ws' (hw'.trans hw), ?_, ?_⟩
    · rw [directRows_length, e2.rows, hg]
    · rw [inner_forward P, ← hw', inner_weight P _ _ _ _ (by rw [e2.rows, hg]) (by rw [hw', hw]; exact table_width e2.table)]

theorem valAt_add [AddCommMonoid V] (x x' : List V) (h : x.length = x'.length) (n : Int) :
    valAt (List.zipWith (· + ·) x x') n = valAt x n + valAt x' n := by
  unfold valAt
  by_cases hn : n ≥ 0
  · simp only [if_pos hn]
    rw [List.getElem?_zipWith]
    rcases Nat.lt_or_ge n.toNat x.length with hl | hl
    · rw [List.getElem?_eq_getElem hl, List.getElem?_eq_getElem (h ▸ hl)]; rfl
    · rw [List.getElem?_eq_none hl, List.getElem?_eq_none (h ▸ hl)]; simp
  · simp only [if_neg hn, add_zero]

theorem valAt_smul [CommSemiring R] {C : Nat} (r : R) (x : List (Fin C → R)) (n : Int) :
    valAt (x.map fun v => fun c => r * v c) n = fun c => r * valAt x n c := by
  unfold valAt
  by_cases hn : n ≥ 0
  · simp only [if_pos hn, List.getElem?_map]
    cases x[n.toNat]? with
    | none => funext c; simp
    | some v => rfl
  · simp only [if_neg hn]; funext c; simp

theorem mmRow_cons {A B W : Type} [AddCommMonoid B] (K : Kernel A B W) (a : A) (row : List A) (w : W) (ws : List W) :
    mmRow K (w :: ws) (a :: row) = K.ap a w + mmRow K ws row := by simp [mmRow]

theorem zipWith_map_map {α : Type _} [Add V] (f g : α → V) (l : List α) :
    List.zipWith (· + ·) (l.map f) (l.map g) = l.map fun a => f a + g a := by
  induction l with
  | nil => rfl
  | cons a l ih => simp [ih]

theorem directRows_lin [CommSemiring R] {ci co : Nat} (neigh : List (List Int)) (r : R) (x x' : List (Fin ci → R))
    (h : x.length = x'.length) (ws : List (Fin ci → Fin co → R)) :
    directRows (denseKernel R ci co) neigh (List.zipWith (· + ·) (x.map fun v => fun c => r * v c) x') ws
      = List.zipWith (· + ·) ((directRows (denseKernel R ci co) neigh x ws).map fun v => fun c => r * v c)
          (directRows (denseKernel R ci co) neigh x' ws) := by
  unfold directRows
  rw [List.map_map, zipWith_map_map]
  apply List.map_congr_left
  intro row hrow
  clear hrow
  simp only [Function.comp]
  induction row generalizing ws with
  | nil => funext c; simp [mmRow]
  | cons n row ih =>
    cases ws with
    | nil => funext c; simp [mmRow]
    | cons w ws =>
      simp only [List.map_cons, mmRow_cons, ih ws]
      rw [valAt_add _ _ (by simpa using h), valAt_smul]
      funext c
      have e : (denseKernel R ci co).ap ((fun c => r * valAt x n c) + valAt x' n) w c
          = r * (denseKernel R ci co).ap (valAt x n) w c + (denseKernel R ci co).ap (valAt x' n) w c := by
        simp only [denseKernel, Pi.add_apply, add_mul, Finset.sum_add_distrib, Finset.mul_sum, mul_assoc]
      simp only [Pi.add_apply, e, mul_add]
      ring

theorem directRows_lin_w [CommSemiring R] {ci co : Nat} (neigh : List (List Int)) (r : R) (x : List (Fin ci → R))
    (ws ws' : List (Fin ci → Fin co → R)) (h : ws.length = ws'.length) :
    directRows (denseKernel R ci co) neigh x (List.zipWith (· + ·) (ws.map fun w => fun i j => r * w i j) ws')
      = List.zipWith (· + ·) ((directRows (denseKernel R ci co) neigh x ws).map fun v => fun c => r * v c)
          (directRows (denseKernel R ci co) neigh x ws') := by
  unfold directRows
  rw [List.map_map, zipWith_map_map]
  apply List.map_congr_left
  intro row hrow
  clear hrow
  simp only [Function.comp]
  induction row generalizing ws ws' with
  | nil => funext c; simp [mmRow]
  | cons n row ih =>
    cases ws with
    | nil => funext c; cases ws' with
      | nil => simp [mmRow]
      | cons _ _ => simp at h
    | cons w ws => cases ws' with
      | nil => simp at h
      | cons w' ws' =>
        simp only [List.map_cons, List.zipWith_cons_cons, mmRow_cons, ih ws ws' (by simpa using h)]
        funext c
        have e : (denseKernel R ci co).ap (valAt x n) ((fun i j => r * w i j) + w') c
            = r * (denseKernel R ci co).ap (valAt x n) w c + (denseKernel R ci co).ap (valAt x n) w' c := by
          simp only [denseKernel, Pi.add_apply, mul_add, Finset.sum_add_distrib, Finset.mul_sum]
          congr 1
          apply Finset.sum_congr rfl
          intro j _
          ring
        simp only [Pi.add_apply, e, mul_add]
        ring

/-- **C37.** The convolution is linear in the data and in the weights. -/
theorem C37_bilinear [CommSemiring R] {ci co : Nat} (o : Octree F) (h : Nat) (w : o.Valid h) (d : Nat) (hd : d ≤ h)
    (hn : NeighExact o.batchSize d o.keys o.neighs) (k : Nat × Nat × Nat) (hk : k ∈ supportedKernels) (nempty : Bool)
    (s : Nat) (srcs targets : List Cell) (hN : Nodes o nempty d s srcs targets)
    (ks : List Nat) (mb : Nat) (c : ConvBase) (ha : KernelArg ks k) (hi : ConvBase.init true ci co ks s nempty mb = .ok c)
    (hb : (kernelOffsets k).length * ci ≤ mb) (r : R)
    (x x' : List (Fin ci → R)) (hx : x.length = srcs.length) (hx' : x'.length = srcs.length)
    (ws ws' : List (Fin ci → Fin co → R)) (hw : ws.length = (kernelOffsets k).length) (hw' : ws'.length = (kernelOffsets k).length) :
    ∃ Y Yx Yw, convForward (denseKernel R ci co) c x ws o d = .ok Y ∧ convForward (denseKernel R ci co) c x' ws o d = .ok Yx ∧
      convForward (denseKernel R ci co) c x ws' o d = .ok Yw ∧
      convForward (denseKernel R ci co) c (List.zipWith (· + ·) (x.map fun v => fun i => r * v i) x') ws o d
        = .ok (List.zipWith (· + ·) (Y.map fun v => fun j => r * v j) Yx) ∧
      convForward (denseKernel R ci co) c x (List.zipWith (· + ·) (ws.map fun v => fun i j => r * v i j) ws') o d
        = .ok (List.zipWith (· + ·) (Y.map fun v => fun j => r * v j) Yw) := by
  obtain ⟨st, e1, e2, e3, e4⟩ := conv_setup o h w d hd hn k hk nempty s srcs targets hN ci co ks mb c ha hi hb
  have hnd := nodes_nodup o h w d hd nempty s srcs targets hN
  have key := fun y hy v hv => convForward_ok (denseKernel R ci co) c o d st srcs targets _ e1 e2 hnd e3 e4 y hy v hv
  refine ⟨_, _, _, key x hx ws hw, key x' hx' ws hw, key x hx ws' hw', ?_, ?_⟩
  · rw [key _ (by simp [hx, hx']) ws hw, directRows_lin _ _ _ _ (by omega)]
  · rw [key x hx _ (by simp [hw, hw']), directRows_lin_w _ _ _ _ _ (by omega)]

/-- **C38.** `octree_deconv` is the transpose of `octree_conv` for the same neighbourhood. -/
theorem C38_transpose [CommSemiring R] {ci co : Nat} (o : Octree F) (h : Nat) (w : o.Valid h) (d : Nat) (hd : d ≤ h)
    (hn : NeighExact o.batchSize d o.keys o.neighs) (k : Nat × Nat × Nat) (hk : k ∈ supportedKernels) (nempty : Bool)
    (s : Nat) (srcs targets : List Cell) (hN : Nodes o nempty d s srcs targets)
    (ks ks' : List Nat) (mb mb' : Nat) (c c' : ConvBase) (ha : KernelArg ks k) (ha' : KernelArg ks' k)
    (hi : ConvBase.init true ci co ks s nempty mb = .ok c) (hi' : ConvBase.init false co ci ks' s nempty mb' = .ok c')
    (hb : (kernelOffsets k).length * ci ≤ mb) (hb' : (kernelOffsets k).length * ci ≤ mb')
    (x : List (Fin co → R)) (hx : x.length = targets.length) (y : List (Fin ci → R)) (hy : y.length = srcs.length)
    (ws : List (Fin ci → Fin co → R)) (hw : ws.length = (kernelOffsets k).length) :
    ∃ D Y, deconvForward (denseKernel R ci co) c' x ws o (if s = 2 then d - 1 else d) = .ok D ∧
      convForward (denseKernel R ci co) c y ws o d = .ok Y ∧ D.length = y.length ∧ Y.length = x.length ∧
      inner dot D y = inner dot x Y := by
  obtain ⟨st, e1, e2, e3, e4⟩ := conv_setup o h w d hd hn k hk nempty s srcs targets hN ci co ks mb c ha hi hb
  obtain ⟨st', e1', e2', e3', e4'⟩ := deconv_setup o h w d hd hn k hk nempty s srcs targets hN co ci ks' mb' c' ha' hi' hb'
  have hnd := nodes_nodup o h w d hd nempty s srcs targets hN
  have P := densePairing R ci co
  have hneigh : st'.neigh = st.neigh := by
    have h1 := e2.table
    have h2 := e2'.table
    exact table_unique h2 h1 hnd
  refine ⟨_, _, deconvForward_ok _ c' o _ st' srcs targets _ e1' e2' hnd e3' e4' x hx ws hw,
    convForward_ok _ c o d st srcs targets _ e1 e2 hnd e3 e4 y hy ws hw, ?_, ?_, ?_⟩
  · rw [scatterAddInto_length, List.length_replicate, hy]
  · rw [directRows_length, e2.rows, hx]
  · rw [inner_comm_dot, inner_comm_dot x, inner_forward P, ← hy, hneigh,
      inner_backward P _ _ _ _ (by rw [hy]; exact table_inside e2.table hnd) (by rw [e2.rows, hx]) (by rw [hw]; exact table_width e2.table)]

/-- **C38.** The backward pass of `octree_deconv` returns the exact gradients. -/
theorem C38_gradients [CommSemiring R] {ci co : Nat} (o : Octree F) (h : Nat) (w : o.Valid h) (d : Nat) (hd : d ≤ h)
    (hn : NeighExact o.batchSize d o.keys o.neighs) (k : Nat × Nat × Nat) (hk : k ∈ supportedKernels) (nempty : Bool)
    (s : Nat) (srcs targets : List Cell) (hN : Nodes o nempty d s srcs targets)
    (ks : List Nat) (mb : Nat) (c : ConvBase) (ha : KernelArg ks k) (hi : ConvBase.init false co ci ks s nempty mb = .ok c)
    (hb : (kernelOffsets k).length * ci ≤ mb)
    (x : List (Fin co → R)) (hx : x.length = targets.length)
    (ws : List (Fin ci → Fin co → R)) (hw : ws.length = (kernelOffsets k).length)
    (g : List (Fin ci → R)) (hg : g.length = srcs.length) :
    ∃ gx gw, deconvBackward (denseKernel R ci co) c x ws o (if s = 2 then d - 1 else d) g = .ok (gx, gw) ∧
      gx.length = x.length ∧ gw.length = ws.length ∧
      (∀ x', x'.length = x.length → ∃ Y, deconvForward (denseKernel R ci co) c x' ws o (if s = 2 then d - 1 else d) = .ok Y ∧
        Y.length = g.length ∧ inner dot Y g = inner dot x' gx) ∧
      (∀ ws', ws'.length = ws.length → ∃ Y, deconvForward (denseKernel R ci co) c x ws' o (if s = 2 then d - 1 else d) = .ok Y ∧
        Y.length = g.length ∧ inner dot Y g = inner dot2 ws' gw) := by
  obtain ⟨st, e1, e2, e3, e4⟩ := deconv_setup o h w d hd hn k hk nempty s srcs targets hN co ci ks mb c ha hi hb
  have hnd := nodes_nodup o h w d hd nempty s srcs targets hN
  have hin := table_inside e2.table hnd
  have P := densePairing R ci co
  refine ⟨_, _, deconvBackward_ok _ c o _ st srcs targets _ e1 e2 hnd x hx ws hw g hg, ?_, ?_, ?_, ?_⟩
  · rw [directRows_length, e2.rows, hx]
  · rw [outerSum_length]
  · intro x' hx'
    refine ⟨_, deconvForward_ok _ c o _ st srcs targets _ e1 e2 hnd e3 e4 x' (hx'.trans hx) ws hw, ?_, ?_⟩
    · rw [scatterAddInto_length, List.length_replicate, hg]
    · rw [inner_comm_dot, inner_comm_dot x', inner_forward P, ← hg, inner_backward P _ _ _ _ (by rw [hg]; exact hin) (by rw [e2.rows, hx', hx])
        (by rw [hw]; exact table_width e2.table)]
  · intro ws' hw'
    refine ⟨_, deconvForward_ok _ c o _ st srcs targets _ e1 e2 hnd e3 e4 x hx ws' (hw'.trans hw), ?_, ?_⟩
    · rw [scatterAddInto_length, List.length_replicate, hg]
    · rw [inner_comm_dot, ← hg, inner_backward P _ _ _ _ (by rw [hg]; exact hin) (by rw [e2.rows, hx])
        (by rw [hw', hw]; exact table_width e2.table), ← hw',
        inner_weight P _ _ _ _ (by rw [e2.rows, hx]) (by rw [hw', hw]; exact table_width e2.table)]

/-- **C84.** `OctreeDeconv` at a layer: every input row contributes to every displaced node of the output layer,
through the transposed matrix of the offset; plus the bias. -/
theorem C84_deconv [CommSemiring R] {ci co : Nat} (o : Octree F) (h : Nat) (w : o.Valid h) (d : Nat) (hd : d ≤ h)
    (hn : NeighExact o.batchSize d o.keys o.neighs) (k : Nat × Nat × Nat) (hk : k ∈ supportedKernels) (nempty : Bool)
    (s : Nat) (srcs targets : List Cell) (hN : Nodes o nempty d s srcs targets)
    (ks : List Nat) (mb : Nat) (m : ConvModule (Fin ci → R) (Fin ci → Fin co → R)) (ha : KernelArg ks k)
    (hi : ConvBase.init false co ci ks s nempty mb = .ok m.base)
    (hb : m.directMethod = false → (kernelOffsets k).length * ci ≤ mb)
    (hw : m.weights.length = (kernelOffsets k).length)
    (x x' : List (Fin co → R)) (hx : x'.length = targets.length)
    (hpre : (if s = 2 ∧ nempty = false then octreeDepad x o (d - 1) else .ok x) = .ok x') :
    m.deconvForward (denseKernel R ci co) x o (if s = 2 then d - 1 else d)
      = .ok (srcs.map fun c => deconvAt targets x' (kernelOffsets k) m.weights c + m.bias.getD 0) :=
  deconv_forward_ok o h w d hd hn k hk nempty s srcs targets hN (denseKernel R ci co) co ci ks mb m ha hi hb hw x x' hx hpre

/-- **C41**, convolution: heights in and out are the documented node counts, and nothing raises. -/
theorem C41_conv {A B W : Type} [AddCommMonoid A] [AddCommMonoid B] (K : Kernel A B W)
    (o : Octree F) (h : Nat) (w : o.Valid h) (d : Nat) (hd : d ≤ h)
    (hn : NeighExact o.batchSize d o.keys o.neighs) (k : Nat × Nat × Nat) (hk : k ∈ supportedKernels) (nempty : Bool)
    (s : Nat) (hs : s = 1 ∨ s = 2 ∧ 1 ≤ d) (ci co : Nat) (ks : List Nat) (mb : Nat) (m : ConvModule B W) (ha : KernelArg ks k)
    (hi : ConvBase.init true ci co ks s nempty mb = .ok m.base)
    (hb : m.directMethod = false → (kernelOffsets k).length * ci ≤ mb)
    (hw : m.weights.length = (kernelOffsets k).length) (x : List A)
    (hx : x.length = if nempty then o.nnumNempty d else o.nnum d) :
    ∃ y, m.forward K x o d = .ok y ∧
      y.length = if nempty then o.nnumNempty (if s = 2 then d - 1 else d) else o.nnum (if s = 2 then d - 1 else d) := by
  have W := w.wf'
  have h16 := w.depth_le
  have hh := w.h_le
  obtain ⟨srcs, targets, hN⟩ : ∃ srcs targets, Nodes o nempty d s srcs targets := by
    rcases hs with rfl | ⟨rfl, hd1⟩
    · obtain ⟨a, b⟩ := nodes_one_exists o h w d hd nempty; exact ⟨a, a, b⟩
    · obtain ⟨e, rfl⟩ : ∃ e, d = e + 1 := ⟨d - 1, by omega⟩
      exact nodes_two_exists o h w e hd nempty
  obtain ⟨-, hl, hst⟩ := nodes_table o h w d hd hn k hk nempty s srcs targets hN
  have hnd := nodes_nodup o h w d hd nempty s srcs targets hN
  obtain ⟨f, hf⟩ := exists_field srcs x (by rw [hl, hx]) hnd
  obtain ⟨outs, ho⟩ := outs_exists o h w d hd nempty s targets
  refine ⟨_, forward_uniform o h w d hd hn k hk nempty s srcs targets hN outs ho K ci co ks mb m ha hi hb hw x f hf, ?_⟩
  rw [List.length_map]
  by_cases hc : s = 2 ∧ nempty = false
  · rw [if_pos hc] at ho
    obtain ⟨pcells, pch, hp, hpc, rfl⟩ := ho
    obtain ⟨rfl, rfl⟩ := hc
    have e := cells_unique (by omega) hp (W.cellsOf (d - 1) (by omega))
    subst e
    rw [W.children (d - 1) (by omega)] at hpc
    cases hpc
    simp only [List.length_map, List.length_zip, Bool.false_eq_true, if_false, if_true, W.nnum (d - 1) (by omega)]
    rw [min_eq_left]
    rw [← W.len (d - 1) (by omega)]
    have := congrArg List.length (number_mask 0 (o.masks (d - 1)))
    rw [List.length_map] at this
    omega
  · rw [if_neg hc] at ho
    subst ho
    rw [List.length_map]
    rcases hst with ⟨rfl, rfl⟩ | ⟨rfl, h1, h2⟩
    · simp only [show ¬ (1 : Nat) = 2 by decide, if_false, hl]
    · have : nempty = true := by
        cases nempty
        · exact absurd ⟨rfl, rfl⟩ hc
        · rfl
      subst this
      simp only [if_true, h2]

/-- **C41**, deconvolution. -/
theorem C41_deconv {A B W : Type} [AddCommMonoid A] [AddCommMonoid B] (K : Kernel A B W)
    (o : Octree F) (h : Nat) (w : o.Valid h) (d : Nat) (s : Nat) (hs : s = 1 ∨ s = 2)
    (hd : (if s = 2 then d + 1 else d) ≤ h)
    (hn : NeighExact o.batchSize (if s = 2 then d + 1 else d) o.keys o.neighs)
    (k : Nat × Nat × Nat) (hk : k ∈ supportedKernels) (nempty : Bool)
    (ci co : Nat) (ks : List Nat) (mb : Nat) (m : ConvModule A W) (ha : KernelArg ks k)
    (hi : ConvBase.init false ci co ks s nempty mb = .ok m.base)
    (hb : m.directMethod = false → (kernelOffsets k).length * co ≤ mb)
    (hw : m.weights.length = (kernelOffsets k).length) (x : List B)
    (hx : x.length = if nempty then o.nnumNempty d else o.nnum d) :
    ∃ y, m.deconvForward K x o d = .ok y ∧
      y.length = if nempty then o.nnumNempty (if s = 2 then d + 1 else d) else o.nnum (if s = 2 then d + 1 else d) := by
  rcases hs with rfl | rfl
  · simp only [show ¬ (1 : Nat) = 2 by decide, if_false] at *
    obtain ⟨srcs, hN⟩ := nodes_one_exists o h w d hd nempty
    obtain ⟨-, hl, -⟩ := nodes_table o h w d hd hn k hk nempty 1 srcs srcs hN
    have := deconv_forward_ok o h w d hd hn k hk nempty 1 srcs srcs hN K ci co ks mb m ha hi hb hw x x (by rw [hl, hx]) (by simp)
    simp only [show ¬ (1 : Nat) = 2 by decide, if_false] at this
    exact ⟨_, this, by rw [List.length_map, hl]⟩
  · simp only [if_true] at *
    obtain ⟨srcs, targets, hN⟩ := nodes_two_exists o h w d hd nempty
    obtain ⟨-, hl, hst⟩ := nodes_table o h w (d + 1) hd hn k hk nempty 2 srcs targets hN
    have ht : targets.length = o.nnumNempty d := by
      rcases hst with h' | h'
      · omega
      · simpa using h'.2.2
    cases nempty
    · simp only [Bool.false_eq_true, if_false] at hx hl
      obtain ⟨x', h1, h2, -⟩ := C30_depad_pad o h w d (by omega) _ (w.wf'.children d (by omega)) x (0 : B) hx
      have := deconv_forward_ok o h w (d + 1) hd hn k hk false 2 srcs targets hN K ci co ks mb m ha hi hb hw x x' (by rw [h2, ht])
        (by simpa using h1)
      simp only [if_true, Nat.add_sub_cancel] at this
      exact ⟨_, this, by rw [List.length_map, hl]; rfl⟩
    · simp only [if_true] at hx hl
      have := deconv_forward_ok o h w (d + 1) hd hn k hk true 2 srcs targets hN K ci co ks mb m ha hi hb hw x x (by rw [hx, ht])
        (by simp)
      simp only [if_true, Nat.add_sub_cancel] at this
      exact ⟨_, this, by rw [List.length_map, hl]; rfl⟩

end Ocnn
