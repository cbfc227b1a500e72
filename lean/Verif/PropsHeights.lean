import Verif.PropsPoolAvg
import Verif.PropsPool
import Verif.PropsConv
import Verif.Interp

/-! C173: feature tensors of the wrong height. -/

set_option linter.unusedSimpArgs false
set_option linter.unusedVariables false

namespace Ocnn
open Spec
variable {F V A B W : Type}

namespace Spec

/-- The number of rows of a feature tensor of layer `d`. -/
def rowsOfLayer (o : Octree F) (d : Nat) (nempty : Bool) : Nat := if nempty then o.nnumNempty d else o.nnum d

end Spec

/-! ### operations that check the height -/

/-- **C173, convolution.** Convolution layers of the default method, depth-wise ones included, raise for every tensor of the wrong height. -/
theorem C173_conv_partial [AddCommMonoid A] [AddCommMonoid B] (K : Kernel A B W) (o : Octree F) (h : Nat) (w : o.Valid h) (d : Nat) (hd : d ≤ h)
    (hn : NeighExact o.batchSize d o.keys o.neighs) (k : Nat × Nat × Nat) (hk : k ∈ supportedKernels) (nempty : Bool)
    (s : Nat) (hs : s = 1 ∨ (s = 2 ∧ 1 ≤ d)) (ci co : Nat) (ks : List Nat) (mb : Nat) (m : ConvModule B W) (ha : KernelArg ks k)
    (hi : ConvBase.init true ci co ks s nempty mb = .ok m.base) (hdm : m.directMethod = false) (hb : (kernelOffsets k).length * ci ≤ mb)
    (x : List A) (hx : x.length ≠ rowsOfLayer o d nempty) : m.forward K x o d = .error .assertion := by
  have key : ∃ srcs targets, Nodes o nempty d s srcs targets := by
    rcases hs with rfl | ⟨rfl, h1⟩
    · obtain ⟨srcs, h⟩ := nodes_one_exists o h w d hd nempty
      exact ⟨srcs, srcs, h⟩
    · obtain ⟨e, rfl⟩ : ∃ e, d = e + 1 := ⟨d - 1, by omega⟩
      exact nodes_two_exists o h w e hd nempty
  obtain ⟨srcs, targets, hN⟩ := key
  obtain ⟨st, h1, h2, h3, h4⟩ := conv_setup o h w d hd hn k hk nempty s srcs targets hN ci co ks mb m.base ha hi hb
  obtain ⟨-, h5, -⟩ := nodes_table o h w d hd hn k hk nempty s srcs targets hN
  have h6 : ¬ x.length = st.inH := by
    rw [h3, h5]
    exact hx
  unfold ConvModule.forward
  simp only [hdm, Bool.false_eq_true, if_false, convForward, h1, ConvSetup.checkAndInit, pyAssert, if_neg h6, bind, Except.bind]

/-- **C173, transposed convolution.** The same for transposed convolutions of the default method; the strided ones on all nodes raise when they remove the
rows of the empty nodes. -/
theorem C173_deconv_partial [AddCommMonoid A] [AddCommMonoid B] (K : Kernel A B W) (o : Octree F) (h : Nat) (w : o.Valid h) (d : Nat)
    (k : Nat × Nat × Nat) (hk : k ∈ supportedKernels) (nempty : Bool)
    (s : Nat) (hs : (s = 1 ∧ d ≤ h ∧ NeighExact o.batchSize d o.keys o.neighs) ∨ (s = 2 ∧ d + 1 ≤ h ∧ NeighExact o.batchSize (d + 1) o.keys o.neighs))
    (ci co : Nat) (ks : List Nat) (mb : Nat) (m : ConvModule A W) (ha : KernelArg ks k)
    (hi : ConvBase.init false ci co ks s nempty mb = .ok m.base) (hdm : m.directMethod = false) (hb : (kernelOffsets k).length * co ≤ mb)
    (x : List B) (hx : x.length ≠ rowsOfLayer o d nempty) : ∃ e, m.deconvForward K x o d = .error e ∧ (e = .assertion ∨ e = .index) := by
  have hbase := init_ok false ci co ks s nempty mb k hk ha
  rw [hbase] at hi
  have hbs : m.base.stride = s := by rw [← Except.ok.inj hi]
  have hbn : m.base.nempty = nempty := by rw [← Except.ok.inj hi]
  rw [← hbase] at hi
  rcases hs with ⟨rfl, hd, hn⟩ | ⟨rfl, hd, hn⟩
  · obtain ⟨srcs, hN⟩ := nodes_one_exists o h w d hd nempty
    obtain ⟨st, h1, h2, h3, h4⟩ := deconv_setup o h w d hd hn k hk nempty 1 srcs srcs hN ci co ks mb m.base ha hi hb
    obtain ⟨-, h5, -⟩ := nodes_table o h w d hd hn k hk nempty 1 srcs srcs hN
    have h6 : ¬ x.length = st.inH := by
      rw [h3, h5]
      exact hx
    refine ⟨.assertion, ?_, .inl rfl⟩
    simp only [show ¬ (1 : Nat) = 2 by decide, if_false] at h1
    unfold ConvModule.deconvForward
    simp only [hbs, show ¬ (1 : Nat) = 2 by decide, false_and, hdm, Bool.false_eq_true, if_false, Ocnn.deconvForward, h1, ConvSetup.checkAndInit, pyAssert,
      if_neg h6, bind, Except.bind, pure, Except.pure]
  · obtain ⟨srcs, targets, hN⟩ := nodes_two_exists o h w d hd nempty
    obtain ⟨st, h1, h2, h3, h4⟩ := deconv_setup o h w (d + 1) hd hn k hk nempty 2 srcs targets hN ci co ks mb m.base ha hi hb
    obtain ⟨-, h5, h6⟩ := nodes_table o h w (d + 1) hd hn k hk nempty 2 srcs targets hN
    cases nempty with
    | true =>
      have h7 : ¬ x.length = st.inH := by
        rcases h6 with ⟨h6, -⟩ | ⟨-, -, h6⟩
        · omega
        · rw [h3, h6]
          exact hx
      refine ⟨.assertion, ?_, .inl rfl⟩
      simp only [if_true, Nat.add_sub_cancel] at h1
      unfold ConvModule.deconvForward
      simp only [hbs, hbn, Bool.true_eq_false, and_false, hdm, Bool.false_eq_true, if_false, Ocnn.deconvForward, h1, ConvSetup.checkAndInit, pyAssert,
        if_neg h7, bind, Except.bind, pure, Except.pure]
    | false =>
      refine ⟨.index, ?_, .inr rfl⟩
      unfold ConvModule.deconvForward
      have : octreeDepad x o d = .error .index := by
        unfold octreeDepad
        obtain ⟨e1, e2⟩ := mask_of w d (by omega)
        rw [e1]
        simp only [bind, Except.bind, boolIndex]
        rw [if_neg]
        rw [e2]
        exact fun e => hx e.symm
      simp only [hbs, hbn, and_self, if_true, this, bind, Except.bind]

/-- **C173, interpolation and padding.** Nearest and linear interpolation, nearest upsampling, `octree_align` and `octree_depad` raise for every tensor
of the wrong height. -/
theorem C173_interp_partial {C : Nat} [Zero V] (o : Octree F) (h : Nat) (w : o.Valid h) (d : Nat) (hd : d ≤ h) (pts : List Pt4) (nempty boundCheck : Bool)
    (x : List (Fin C → ℚ)) (y : List V) (hx : x.length ≠ rowsOfLayer o d nempty) (hy : y.length ≠ rowsOfLayer o d nempty) :
    octreeNearestPts y o d pts nempty boundCheck = .error .assertion ∧
    octreeLinearPts x o d pts nempty boundCheck = .error .assertion ∧
    octreeNearestUpsample y o d nempty = .error .assertion := by
  have hc := chk_ok w d hd
  have e : nnumOf o d nempty = .ok (rowsOfLayer o d nempty) := by
    unfold nnumOf
    rw [hc]
    rfl
  refine ⟨?_, ?_, ?_⟩
  · unfold octreeNearestPts
    simp only [e, bind, Except.bind, pyAssert, if_neg hy]
  · unfold octreeLinearPts
    simp only [e, bind, Except.bind, pyAssert, if_neg hx]
  · unfold octreeNearestUpsample
    simp only [e, bind, Except.bind, pyAssert, if_neg hy]

/-- **C173, padding.** `octree_depad` raises for every tensor of the wrong height, and `octree_pad` for every one that has not a single row either. -/
theorem C173_pad_partial (o : Octree F) (h : Nat) (w : o.Valid h) (d : Nat) (hd : d ≤ h) (x : List V) (v : V) :
    (x.length ≠ o.nnum d → octreeDepad x o d = .error .index) ∧
    (x.length ≠ o.nnumNempty d → x.length ≠ 1 → octreePad x o d v = .error .shape) := by
  obtain ⟨e1, e2⟩ := mask_of w d hd
  refine ⟨fun hx => ?_, fun hx h1 => ?_⟩
  · unfold octreeDepad
    simp only [e1, bind, Except.bind, boolIndex]
    rw [if_neg]
    rw [e2]
    exact fun e => hx e.symm
  · unfold octreePad
    simp only [e1, bind, Except.bind, boolSet, List.length_replicate, e2, if_true]
    rw [if_neg (by rw [← nnumNempty_eq w d hd]; exact hx)]
    match x, h1 with
    | [], _ => rfl
    | [_], h => exact absurd rfl h
    | _ :: _ :: _, _ => rfl

/-- **C173, align.** `octree_align` raises for every tensor of the wrong height. -/
theorem C173_align_partial {G : Type} [Zero V] (o : Octree F) (h : Nat) (w : o.Valid h) (oq : Octree G) (h' : Nat) (w' : oq.Valid h') (d : Nat) (hd : d ≤ h)
    (hd' : d ≤ h') (nempty : Bool) (x : List V) (hx : x.length ≠ rowsOfLayer o d nempty) : octreeAlign x o oq d nempty = .error .assertion := by
  have W := w.wf'
  have W' := w'.wf'
  have a := (C27_xyzb o h w d hd _ (W.cellsOf d hd) _ (W.children d hd) nempty).2.2.1
  have a' := (C27_xyzb oq h' w' d hd' _ (W'.cellsOf d hd') _ (W'.children d hd') nempty).2.2.1
  have l := queried_length w d hd nempty _ _ (W.cellsOf d hd) (W.children d hd)
  unfold octreeAlign
  simp only [a, a', bind, Except.bind, pyAssert, List.length_map]
  rw [if_neg]
  rw [l]
  exact fun e => hx e.symm

/-- **C173, global pooling.** `octree_global_pool` raises for every tensor of the wrong height, unless the layer has a single row. -/
theorem C173_global_partial {K : Type} [Field K] [LinearOrder K] {C : Nat} (o : Octree F) (h : Nat) (w : o.Valid h) (d : Nat) (hd : d ≤ h) (nempty : Bool)
    (x : List (Fin C → K)) (hx : x.length ≠ rowsOfLayer o d nempty) (h1 : rowsOfLayer o d nempty ≠ 1) :
    octreeGlobalPool x o d nempty = .error .shape := by
  have W := w.wf'
  have a := (C27_xyzb o h w d hd _ (W.cellsOf d hd) _ (W.children d hd) nempty).2.2.2.1
  have l := queried_length w d hd nempty _ _ (W.cellsOf d hd) (W.children d hd)
  unfold octreeGlobalPool
  change _ = rowsOfLayer o d nempty at l
  rw [← l] at hx h1
  generalize queried nempty (layerCells o.batchSize o.masks d) (number 0 (o.masks d)) = q at a hx h1
  simp only [a, bind, Except.bind, scatterAdd, List.length_map, List.length_replicate]
  rw [if_neg fun e => hx e.symm]
  match q, h1 with
  | [], _ => rfl
  | [_], h => exact absurd rfl h
  | _ :: _ :: _, _ => rfl

/-! ### operations that do not -/

theorem mapM_mono {X Y : Type} {f g : X → M Y} {l : List X} {r : List Y} (h : l.mapM f = .ok r) (hfg : ∀ x ∈ l, ∀ y, f x = .ok y → g x = .ok y) :
    l.mapM g = .ok r := by
  induction l generalizing r with
  | nil => simpa using h
  | cons a l ih =>
    rw [List.mapM_cons] at h ⊢
    cases e : f a with
    | error e' => rw [e] at h; simp [bind, Except.bind] at h
    | ok y =>
      rw [e] at h
      cases e2 : l.mapM f with
      | error e' => rw [e2] at h; simp [bind, Except.bind] at h
      | ok ys =>
        rw [e2] at h
        rw [hfg a (by simp) y e, ih e2 fun x hx => hfg x (List.mem_cons_of_mem _ hx)]
        exact h

theorem getIdx_append (x e : List V) (n : Int) (hn : 0 ≤ n) (v : V) (h : getIdx x n = .ok v) : getIdx (x ++ e) n = .ok v := by
  unfold getIdx normIdx at h ⊢
  by_cases c : n < x.length
  · rw [if_pos ⟨hn, c⟩] at h
    rw [if_pos ⟨hn, by simp; omega⟩]
    simp only [bind, Except.bind] at h ⊢
    rw [List.getElem?_append_left (by omega)]
    exact h
  · rw [if_neg (by omega), if_neg (by omega)] at h
    simp [bind, Except.bind] at h

theorem indexSelect_append (x e : List V) (idx : List Nat) (r : List V) (h : indexSelect x idx = .ok r) : indexSelect (x ++ e) idx = .ok r := by
  unfold indexSelect at h ⊢
  refine mapM_mono h fun i _ y hy => ?_
  cases c : x[i]? with
  | none => rw [c] at hy; cases hy
  | some v =>
    rw [c] at hy
    rw [List.getElem?_append_left (by by_contra k; rw [List.getElem?_eq_none (by omega)] at c; cases c), c]
    exact hy

/-- **C173 is violated, direct convolution.** A convolution with `direct_method=True` computes the same for a tensor with additional rows: they are
ignored silently. -/
theorem C173_violated_direct [Zero A] [AddCommMonoid B] (K : Kernel A B W) (m : ConvModule B W) (hm : m.directMethod = true) (o : Octree F) (d : Nat)
    (x extra : List A) (y : List B) (h : m.forward K x o d = .ok y) : m.forward K (x ++ extra) o d = .ok y := by
  have key : ∀ kn st ne r, octree2col x o d kn st ne = .ok r → octree2col (x ++ extra) o d kn st ne = .ok r := by
    intro kn st ne r hr
    unfold octree2col at hr ⊢
    cases e : o.getNeigh d kn st ne with
    | error e' => rw [e] at hr; simp [bind, Except.bind] at hr
    | ok t =>
      rw [e] at hr
      simp only [bind, Except.bind, gatherCols] at hr ⊢
      refine mapM_mono hr fun row _ y hy => mapM_mono hy fun n _ v hv => ?_
      split at hv
      · next c => rw [if_pos c]; exact getIdx_append _ _ _ c _ hv
      · next c => rw [if_neg c]; exact hv
  unfold ConvModule.forward at h ⊢
  simp only [hm, if_true] at h ⊢
  cases e : octree2col x o d m.base.kernel m.base.stride m.base.nempty with
  | error e' => rw [e] at h; simp [bind, Except.bind] at h
  | ok col => rw [e] at h; rw [key _ _ _ _ e]; exact h

/-- **C173 is violated, average pooling.** Average pooling ignores additional rows silently. -/
theorem C173_violated_avg {K : Type} [Field K] {C : Nat} (o : Octree F) (d : Nat) (kernel : String) (stride : Nat) (nempty : Bool)
    (x extra : List (Fin C → K)) (y : List (Fin C → K)) (h : octreeAvgPool x o d kernel stride nempty = .ok y) :
    octreeAvgPool (x ++ extra) o d kernel stride nempty = .ok y := by
  unfold octreeAvgPool at h ⊢
  cases e : o.getNeigh d kernel stride nempty with
  | error e' => rw [e] at h; simp [bind, Except.bind] at h
  | ok t =>
    rw [e] at h
    simp only [bind, Except.bind] at h ⊢
    refine mapM_mono h fun row _ y hy => ?_
    unfold avgRow at hy ⊢
    simp only at hy ⊢
    cases e2 : indexSelect x ((row.filter fun n => decide (n ≥ 0)).map Int.toNat) with
    | error e' => rw [e2] at hy; simp [bind, Except.bind] at hy
    | ok rs => rw [e2] at hy; rw [indexSelect_append _ _ _ _ e2]; exact hy

/-- **C173 is violated, max pooling.** Max pooling on all nodes accepts any tensor of eight rows: whatever the number of nodes, all of the non-empty
nodes one level up get the maximum over these eight rows. -/
theorem C173_violated_max {α : Type} [LinearOrder α] [OrderBot α] [Zero α] {C : Nat} (o : Octree F) (h : Nat) (w : o.Valid h) (d : Nat) (hd : d + 1 ≤ h)
    (x : List (Fin C → α)) (hx : x.length = 8) : ∃ y m ch, octreeMaxPool x o d false = .ok y ∧ o.children d = some ch ∧ ch.length = o.nnum d ∧
      y.1 = ch.map fun c => if 0 ≤ c then m else fun _ => 0 := by
  obtain ⟨e1, e2⟩ := mask_of w d (by omega)
  unfold octreeMaxPool
  simp only [Bool.false_eq_true, if_false, pure, Except.pure, bind, Except.bind, view8, hx, if_true]
  simp only [show 8 % 8 = 0 from rfl, show 8 / 8 = 1 from rfl, if_true, chunk8, List.map_cons, List.map_nil]
  rw [C31_one_row o h w d (by omega) _ (w.wf'.children d (by omega))]
  exact ⟨_, _, _, rfl, w.wf'.children d (by omega), by simpa using e2, rfl⟩

/-- **C173 is violated.** There is an octree with 16 nodes of depth 2 and a tensor of eight rows that max pooling accepts. -/
theorem C173_violated : ∃ (o : Octree Unit) (x : List (Fin 1 → WithBot ℚ)) (y : List (Fin 1 → WithBot ℚ) × List (Fin 1 → Nat)),
    o.Valid 2 ∧ rowsOfLayer o 2 false = 16 ∧ x.length = 8 ∧ octreeMaxPool x o 1 false = .ok y := by
  obtain ⟨o, h1, -, -, -, h5, -⟩ := example_valid'
  obtain ⟨y, -, -, h, -⟩ := C173_violated_max o 2 h1 1 (by omega) (List.replicate 8 (fun _ : Fin 1 => (0 : WithBot ℚ))) (by simp)
  exact ⟨o, _, y, h1, by simp [rowsOfLayer, h5], by simp, h⟩

/-- Non-vacuity: the octree of the examples has 16 nodes of depth 2, two of them non-empty, and 8 of depth 1; tensors of three rows are wrong everywhere,
and a layer of the default method exists. -/
example : ∃ (o : Octree Unit) (x : List (Fin 3 → ℚ)) (m : ConvModule (Fin 2 → ℚ) (Fin 3 → Fin 2 → ℚ)), o.Valid 2 ∧ NeighExact o.batchSize 2 o.keys o.neighs ∧
    (∀ nempty, x.length ≠ rowsOfLayer o 2 nempty ∧ rowsOfLayer o 2 nempty ≠ 1) ∧ ConvBase.init true 3 2 [3] 2 false 1000 = .ok m.base ∧
    m.directMethod = false ∧ KernelArg [3] (3, 3, 3) ∧ (kernelOffsets (3, 3, 3)).length * 3 ≤ 1000 := by
  obtain ⟨o, h1, -, h3, -, h5, -, h7⟩ := example_valid'
  have ha : KernelArg [3] (3, 3, 3) := by unfold KernelArg; decide
  refine ⟨o, List.replicate 3 0, ⟨_, false, [], none⟩, h1, h3 2 (le_refl _), fun nempty => ?_, init_ok true 3 2 [3] 2 false 1000 (3, 3, 3) (by decide) ha, rfl, ha,
    by decide⟩
  cases nempty <;> simp [rowsOfLayer, h5, h7]

end Ocnn
