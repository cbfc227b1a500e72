import Verif.PropsConv

/-! Properties C39 and C40: depth-wise and group convolution. -/

set_option linter.unusedSimpArgs false

namespace Ocnn
open Spec

variable {F V R : Type}

/-! ### depth-wise convolution -/

theorem ap_diag [CommSemiring R] {c : Nat} (v w : Fin c → R) : (denseKernel R c c).ap v (diag w) = (dwKernel R c).ap v w := by
  funext i
  simp [denseKernel, dwKernel, diag]

theorem apT_diag [CommSemiring R] {c : Nat} (g w : Fin c → R) : (denseKernel R c c).apT g (diag w) = (dwKernel R c).apT g w := by
  funext i
  simp [denseKernel, dwKernel, diag]

theorem mmRow_diag [CommSemiring R] {c : Nat} (ws row : List (Fin c → R)) :
    mmRow (denseKernel R c c) (ws.map diag) row = mmRow (dwKernel R c) ws row := by
  unfold mmRow
  rw [List.zipWith_map_right]
  congr 2
  funext v w
  exact ap_diag v w

theorem forwardStep_diag [CommSemiring R] {c : Nat} (s : ConvSetup) (x ws : List (Fin c → R)) :
    forwardStep (denseKernel R c c) s x (ws.map diag) = forwardStep (dwKernel R c) s x ws := by
  funext st i
  unfold forwardStep
  rw [List.length_map, show mmRow (denseKernel R c c) (ws.map diag) = mmRow (dwKernel R c) ws from funext (mmRow_diag ws)]

theorem backwardStep_diag [CommSemiring R] {c : Nat} (s : ConvSetup) (g ws : List (Fin c → R)) :
    backwardStep (denseKernel R c c) s g (ws.map diag) = backwardStep (dwKernel R c) s g ws := by
  funext st i
  unfold backwardStep
  simp only [List.length_map, List.map_map]
  have e : ∀ y : Fin c → R, ws.map ((fun w => (denseKernel R c c).apT y w) ∘ diag) = ws.map (fun w => (dwKernel R c).apT y w) :=
    fun y => List.map_congr_left fun w _ => apT_diag y w
  simp only [e]

theorem outerSum_diag [CommSemiring R] {c : Nat} (n : Nat) (buf : List (List (Fin c → R))) (g : List (Fin c → R)) :
    (outerSum (denseKernel R c c) n buf g).map diagOf = outerSum (dwKernel R c) n buf g := by
  unfold outerSum
  rw [List.map_map]
  apply List.map_congr_left
  intro k _
  simp only [Function.comp]
  induction buf generalizing g with
  | nil => simp; rfl
  | cons r buf ih =>
    cases g with
    | nil => simp; rfl
    | cons y g =>
      simp only [List.zipWith_cons_cons, List.sum_cons]
      rw [← ih g]
      funext i
      simp [diagOf, denseKernel, dwKernel]

theorem weightStep_diag [CommSemiring R] {c : Nat} (s : ConvSetup) (x g : List (Fin c → R)) (st : Nat × List (Fin c → Fin c → R)) (i : Nat) :
    weightStep (dwKernel R c) s x g (st.1, st.2.map diagOf) i
      = (weightStep (denseKernel R c c) s x g st i).map fun p => (p.1, p.2.map diagOf) := by
  unfold weightStep
  cases chunkEnd s st.1 i with
  | error e => rfl
  | ok e =>
    simp only [bind, Except.bind]
    cases fillBuffer s e.2 (slice s.neigh (i * s.bufferH) e.1) x with
    | error e => rfl
    | ok buf =>
      simp only [List.length_map]
      split
      · simp only [pure, Except.pure, Except.map]
        rw [← outerSum_diag, List.map_zipWith, List.zipWith_map]
        rfl
      · rfl

theorem weightLoop_diag [CommSemiring R] {c : Nat} (s : ConvSetup) (x g : List (Fin c → R)) (l : List Nat) (st : Nat × List (Fin c → Fin c → R)) :
    l.foldlM (weightStep (dwKernel R c) s x g) (st.1, st.2.map diagOf)
      = (l.foldlM (weightStep (denseKernel R c c) s x g) st).map fun p => (p.1, p.2.map diagOf) := by
  induction l generalizing st with
  | nil => rfl
  | cons i l ih =>
    rw [List.foldlM_cons, List.foldlM_cons, weightStep_diag]
    cases weightStep (denseKernel R c c) s x g st i with
    | error e => rfl
    | ok st' => exact ih st'

/-- **C39.** The depth-wise convolution with weights `w` is the convolution with the matrices `diag(w_k)`: the
outputs and data gradients are equal and the weight gradient is the diagonal of the one of the convolution; for
all inputs, whatever the outcome (errors included). -/
theorem C39_depthwise [CommSemiring R] {c : Nat} (b : ConvBase) (o : Octree F) (d : Nat) (x ws : List (Fin c → R))
    (g : List (Fin c → R)) :
    convForward (dwKernel R c) b x ws o d = convForward (denseKernel R c c) b x (ws.map diag) o d ∧
    convBackward (dwKernel R c) b x ws o d g
      = (convBackward (denseKernel R c c) b x (ws.map diag) o d g).map fun p => (p.1, p.2.map diagOf) := by
  constructor
  · unfold convForward forwardGemm
    simp only [forwardStep_diag]
  · unfold convBackward backwardGemm weightGemm
    simp only [backwardStep_diag]
    cases b.setup o d with
    | error e => rfl
    | ok s =>
      simp only [bind, Except.bind]
      cases List.foldlM (backwardStep (dwKernel R c) s g ws) (List.replicate x.length 0) (List.range s.bufferN) with
      | error e => rfl
      | ok gx =>
        simp only [List.length_map]
        have := weightLoop_diag s x g (List.range s.bufferN) (s.bufferH, List.replicate ws.length (0 : Fin c → Fin c → R))
        have e0 : (List.replicate ws.length (0 : Fin c → Fin c → R)).map diagOf = List.replicate ws.length (0 : Fin c → R) := by
          rw [List.map_replicate]; rfl
        simp only [e0] at this
        rw [this]
        cases List.foldlM (weightStep (denseKernel R c c) s x g) (s.bufferH, List.replicate ws.length 0) (List.range s.bufferN) with
        | error e => rfl
        | ok r => rfl

/-- **C39** for the modules: same bias, same padding. -/
theorem C39_module [CommSemiring R] {c : Nat} (m : ConvModule (Fin c → R) (Fin c → R)) (hm : m.directMethod = false)
    (x : List (Fin c → R)) (o : Octree F) (d : Nat) :
    m.forward (dwKernel R c) x o d
      = ConvModule.forward (denseKernel R c c) { base := m.base, directMethod := false, weights := m.weights.map diag, bias := m.bias } x o d := by
  unfold ConvModule.forward
  rw [hm]
  simp only [Bool.false_eq_true, if_false]
  rw [(C39_depthwise m.base o d x m.weights []).1]

/-! ### group convolution -/

theorem sum_apply [AddCommMonoid R] {C : Nat} (l : List (Fin C → R)) (j : Fin C) : l.sum j = (l.map fun v => v j).sum := by
  induction l with
  | nil => rfl
  | cons v l ih => simp [ih]

/-- the matrices of the single convolution -/
def blockWeights [CommSemiring R] {n ci co : Nat} (len : Nat) (ws : Fin n → List (Fin ci → Fin co → R)) :
    List (Fin (n * ci) → Fin (n * co) → R) :=
  (List.range len).map fun k => blockDiag fun g => ((ws g)[k]?).getD 0

theorem vecMat_block [CommSemiring R] {n ci co : Nat} (ms : Fin n → Fin ci → Fin co → R) (v : Fin (n * ci) → R) (j : Fin (n * co)) :
    vecMat v (blockDiag ms) j = vecMat (groupSlice j.divNat v) (ms j.divNat) j.modNat := by
  unfold vecMat blockDiag
  rw [← Equiv.sum_comp finProdFinEquiv, Fintype.sum_prod_type]
  rw [Finset.sum_eq_single j.divNat]
  · apply Finset.sum_congr rfl
    intro i _
    have h1 : (finProdFinEquiv (j.divNat, i)).divNat = j.divNat := by
      have := finProdFinEquiv.symm_apply_apply (j.divNat, i)
      exact congrArg Prod.fst this
    have h2 : (finProdFinEquiv (j.divNat, i)).modNat = i := by
      have := finProdFinEquiv.symm_apply_apply (j.divNat, i)
      exact congrArg Prod.snd this
    rw [h1, h2, if_pos rfl]
    rfl
  · intro g _ hg
    apply Finset.sum_eq_zero
    intro i _
    have h1 : (finProdFinEquiv (g, i)).divNat = g := by
      have := finProdFinEquiv.symm_apply_apply (g, i)
      exact congrArg Prod.fst this
    rw [h1, if_neg hg, mul_zero]
  · intro h; exact absurd (Finset.mem_univ _) h

theorem convAt_block [CommSemiring R] {n ci co : Nat} (ws : Fin n → List (Fin ci → Fin co → R)) (offs : List (Int × Int × Int))
    (hw : ∀ g, (ws g).length = offs.length) (f : Nat → Int → Int → Int → Fin (n * ci) → R) (c : Cell) (j : Fin (n * co)) :
    convAt f offs (blockWeights offs.length ws) c j
      = convAt (fun b x y z => groupSlice j.divNat (f b x y z)) offs (ws j.divNat) c j.modNat := by
  unfold convAt
  rw [sum_apply, sum_apply]
  congr 1
  apply List.ext_getElem
  · simp [blockWeights, hw]
  · intro i h1 h2
    simp only [List.length_map, List.length_zipWith] at h1 h2
    have hi : i < offs.length := by omega
    have hi2 : i < (ws j.divNat).length := by rw [hw]; exact hi
    simp only [List.getElem_map, List.getElem_zipWith, blockWeights, List.getElem_range]
    rw [vecMat_block]
    simp only [List.getElem?_eq_getElem hi2, Option.getD_some]
    rfl

theorem isField_slice [CommSemiring R] {n ci : Nat} (g : Fin n) {cells : List Cell} {x : List (Fin (n * ci) → R)}
    {f : Nat → Int → Int → Int → Fin (n * ci) → R} (h : IsField cells x f) :
    IsField cells (x.map (groupSlice g)) (fun b a y z => groupSlice g (f b a y z)) := by
  obtain ⟨h1, h2, h3⟩ := h
  refine ⟨by simpa using h1, ?_, ?_⟩
  · intro i c v hc hv
    rw [List.getElem?_map] at hv
    cases hx : x[i]? with
    | none => rw [hx] at hv; cases hv
    | some r =>
      rw [hx] at hv
      simp only [Option.map_some, Option.some.injEq] at hv
      show groupSlice g (f c.b c.x c.y c.z) = v
      rw [h2 i c r hc hx, hv]
  · intro b a y z hc
    show groupSlice g (f b a y z) = 0
    rw [h3 b a y z hc]
    rfl

/-- **C40.** The constructor raises unless the number of groups divides both channel counts. -/
theorem C40_init (inC outC group : Nat) :
    (group = 0 → groupConvInit inC outC group = .error .zeroDiv) ∧
    (0 < group → ¬ (group ∣ inC ∧ group ∣ outC) → groupConvInit inC outC group = .error .assertion) ∧
    (0 < group → ∀ a b, inC = group * a → outC = group * b → groupConvInit inC outC group = .ok (a, b)) := by
  refine ⟨?_, ?_, ?_⟩
  · rintro rfl
    rfl
  · intro h0 h
    have : ¬ (inC % group = 0 ∧ outC % group = 0) := by
      rwa [Nat.dvd_iff_mod_eq_zero, Nat.dvd_iff_mod_eq_zero] at h
    unfold groupConvInit pyAssert
    simp only [show ¬ group = 0 by omega, if_false, this, bind, Except.bind, pure, Except.pure, decide_false, Bool.false_eq_true]
  · rintro h0 a b rfl rfl
    unfold groupConvInit pyAssert
    simp only [show ¬ group = 0 by omega, if_false, bind, Except.bind, pure, Except.pure, Nat.mul_mod_right, and_self, decide_true,
      if_true, Nat.mul_div_cancel_left _ h0]

example : groupConvInit 6 4 2 = .ok (3, 2) ∧ groupConvInit 6 5 2 = .error .assertion := by decide

/-- **C40.** On every well-formed octree, both strides and flags: the group convolution is the convolution with
block-diagonal matrices (and the concatenated bias). -/
theorem C40_group [CommSemiring R] {n ci co : Nat} (hn0 : 0 < n) (o : Octree F) (h : Nat) (w : o.Valid h) (d : Nat) (hd : d ≤ h)
    (hn : NeighExact o.batchSize d o.keys o.neighs) (k : Nat × Nat × Nat) (hk : k ∈ supportedKernels) (nempty : Bool)
    (s : Nat) (srcs targets : List Cell) (hN : Nodes o nempty d s srcs targets)
    (ks : List Nat) (mb mb' : Nat) (ha : KernelArg ks k)
    (convs : Fin n → ConvModule (Fin co → R) (Fin ci → Fin co → R)) (single : ConvModule (Fin (n * co) → R) (Fin (n * ci) → Fin (n * co) → R))
    (hc : ∀ g, ConvBase.init true ci co ks s nempty mb = .ok (convs g).base)
    (hs : ConvBase.init true (n * ci) (n * co) ks s nempty mb' = .ok single.base)
    (hb : (kernelOffsets k).length * ci ≤ mb) (hb' : (kernelOffsets k).length * (n * ci) ≤ mb')
    (hw : ∀ g, (convs g).weights.length = (kernelOffsets k).length)
    (hsw : single.weights = blockWeights (kernelOffsets k).length fun g => (convs g).weights)
    (useBias : Bool) (bias : Fin n → Fin co → R) (hbias : ∀ g, (convs g).bias = if useBias then some (bias g) else none)
    (hsb : single.bias = if useBias then some (catRow bias) else none)
    (x : List (Fin (n * ci) → R)) (hx : x.length = srcs.length) :
    ∃ Y, groupConvForward convs x o d = .ok Y ∧ single.forward (denseKernel R (n * ci) (n * co)) x o d = .ok Y := by
  have hnd := nodes_nodup o h w d hd nempty s srcs targets hN
  obtain ⟨f, hf⟩ := exists_field srcs x hx.symm hnd
  obtain ⟨outs, ho⟩ := outs_exists o h w d hd nempty s targets
  refine ⟨_, ?_, forward_uniform o h w d hd hn k hk nempty s srcs targets hN outs ho (denseKernel R (n * ci) (n * co)) _ _ ks mb' single ha hs
    (fun _ => hb') (by rw [hsw]; simp [blockWeights]) x f hf⟩
  have hg : ∀ g, (convs g).forward (denseKernel R ci co) (x.map (groupSlice g)) o d = .ok (outs.map fun oc => match oc with
      | some c => convOf (denseKernel R ci co) (fun b a y z => groupSlice g (f b a y z)) (kernelOffsets k) (convs g).weights c + (convs g).bias.getD 0
      | none => 0) := fun g =>
    forward_uniform o h w d hd hn k hk nempty s srcs targets hN outs ho (denseKernel R ci co) ci co ks mb (convs g) ha (hc g)
      (fun _ => hb) (hw g) _ _ (isField_slice g hf)
  unfold groupConvForward
  rw [mapM_ok _ _ _ (fun g _ => hg g)]
  simp only [bind, Except.bind]
  unfold catChannels
  rw [List.map_map]
  have hlen : ∀ h' ∈ (List.finRange n).map (List.length ∘ fun g => outs.map fun oc => match oc with
      | some c => convOf (denseKernel R ci co) (fun b a y z => groupSlice g (f b a y z)) (kernelOffsets k) (convs g).weights c + (convs g).bias.getD 0
      | none => 0), h' = outs.length := by
    intro h' hh'
    obtain ⟨g, -, rfl⟩ := List.mem_map.1 hh'
    simp
  revert hlen
  generalize hL : ((List.finRange n).map (List.length ∘ fun g => outs.map fun oc => match oc with
      | some c => convOf (denseKernel R ci co) (fun b a y z => groupSlice g (f b a y z)) (kernelOffsets k) (convs g).weights c + (convs g).bias.getD 0
      | none => 0)) = L
  intro hlen
  have hLlen : L.length = n := by rw [← hL]; simp
  match L, hLlen, hlen with
  | [], h0, _ => simp at h0; omega
  | l :: ls, _, hlen =>
    have h1 : l = outs.length := hlen l List.mem_cons_self
    have h2 : ∀ h' ∈ ls, h' = l := fun h' hh => (hlen h' (List.mem_cons_of_mem _ hh)).trans h1.symm
    simp only [if_pos h2]
    congr 1
    apply List.ext_getElem
    · simp [h1]
    · intro i i1 i2
      simp only [List.length_map, List.length_range] at i1 i2
      simp only [List.getElem_map, List.getElem_range]
      funext j
      have hj : (finProdFinEquiv.symm j).1 = j.divNat := rfl
      have hj2 : (finProdFinEquiv.symm j).2 = j.modNat := rfl
      simp only [hj, hj2, List.getElem?_map]
      rw [List.getElem?_eq_getElem (show (j.divNat : Fin n).val < (List.finRange n).length by rw [List.length_finRange]; exact (j.divNat : Fin n).isLt)]
      simp only [Option.map_some, Option.getD_some, List.getElem_finRange, Fin.cast_mk, List.getElem?_map, List.getElem?_eq_getElem i2]
      cases hoc : outs[i] with
      | none => rfl
      | some c =>
        simp only [Pi.add_apply]
        have e1 := convAt_block (fun g => (convs g).weights) (kernelOffsets k) hw f c j
        have e2 : convOf (denseKernel R (n * ci) (n * co)) f (kernelOffsets k) single.weights c j
            = convAt f (kernelOffsets k) (blockWeights (kernelOffsets k).length fun g => (convs g).weights) c j := by
          rw [hsw]; rfl
        rw [e2, e1, hbias, hsb]
        congr 1
        cases useBias <;> rfl

/-- The two convolutions of a group convolution with 2 groups, 6 input and 4 output channels. -/
def exampleGroup (s : Nat) (nempty : Bool) (g : Fin 2) : ConvModule (Fin 2 → ℚ) (Fin 3 → Fin 2 → ℚ) :=
  { exampleModule s nempty with weights := (exampleModule s nempty).weights.map fun m i j => m i j * (g.val + 1) }

/-- The single convolution it is compared with. -/
def exampleSingle (s : Nat) (nempty : Bool) : ConvModule (Fin (2 * 2) → ℚ) (Fin (2 * 3) → Fin (2 * 2) → ℚ) where
  base := { isConv := true, inChannels := 6, outChannels := 4, kernelSize := [3, 3, 3], kernel := "333", stride := s,
            nempty := nempty, maxBuffer := 200, kdim := 27, inConv := 6 }
  directMethod := false
  weights := blockWeights 27 fun g => (exampleGroup s nempty g).weights
  bias := some (catRow fun _ _ => 7)

/-- the hypotheses of `C40_group` on an octree, with stride 2 -/
example (nempty : Bool) : ∃ (o : Octree Unit) (srcs targets : List Cell) (x : List (Fin (2 * 3) → ℚ)), o.Valid 2 ∧
    NeighExact o.batchSize 2 o.keys o.neighs ∧ Nodes o nempty 2 2 srcs targets ∧ x.length = srcs.length ∧
    (∀ g, ConvBase.init true 3 2 [3] 2 nempty 100 = .ok (exampleGroup 2 nempty g).base) ∧
    ConvBase.init true (2 * 3) (2 * 2) [3] 2 nempty 200 = .ok (exampleSingle 2 nempty).base ∧
    (∀ g, (exampleGroup 2 nempty g).weights.length = (kernelOffsets (3, 3, 3)).length) ∧
    (exampleSingle 2 nempty).weights = blockWeights (kernelOffsets (3, 3, 3)).length (fun g => (exampleGroup 2 nempty g).weights) ∧
    (∀ g, (exampleGroup 2 nempty g).bias = if true then some (fun _ => 7) else none) ∧
    (exampleSingle 2 nempty).bias = if true then some (catRow fun _ _ => 7) else none := by
  obtain ⟨o, h1, -, h5, -, -, h6, -⟩ := example_valid'
  obtain ⟨-, srcs, targets, x, f, hN, hf, -⟩ := nodes_field_exists o 2 h1 1 (le_refl _) nempty (fun _ : Fin (2 * 3) => (1 : ℚ))
  have hl : (kernelOffsets (3, 3, 3)).length = 27 := by decide
  refine ⟨o, srcs, targets, x, h1, h5 2 (le_refl _), hN, hf.1.symm, ?_, ?_, ?_, ?_, ?_, rfl⟩
  · intro g
    rw [init_ok true 3 2 [3] 2 nempty 100 (3, 3, 3) (by decide) (Or.inr (Or.inr ⟨rfl, rfl, rfl⟩))]
    simp [exampleGroup, exampleModule]
    decide
  · rw [init_ok true _ _ [3] 2 nempty 200 (3, 3, 3) (by decide) (Or.inr (Or.inr ⟨rfl, rfl, rfl⟩))]
    simp [exampleSingle]
    decide
  · intro g
    rw [hl]
    simp [exampleGroup, exampleModule]
  · rw [hl]; rfl
  · intro g; rfl

end Ocnn
