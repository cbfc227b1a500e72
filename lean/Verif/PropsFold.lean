import Verif.PropsMirror
import Verif.NetMoved

/-! Property C189: batch normalisation in evaluation mode and the bias of the layer before it. -/

namespace Ocnn
open Spec
variable {F : Type}

/-! ### specification -/

/-- The factor of channel `i` of a batch normalisation in evaluation mode. -/
def Spec.bnScale (P : Params) (name : String) {c : Nat} : Fin c → ℚ := fun i => P.bnWeight name i / P.rt (P.bnVar name i + 1 / 100000)

/-- The constant of channel `i` of a batch normalisation in evaluation mode. -/
def Spec.bnShift (P : Params) (name : String) {c : Nat} : Fin c → ℚ := fun i => P.bnBias name i - P.bnMean name i * bnScale P name i

/-! ### lemmas -/

theorem batchNorm_eval (P : Params) (hP : P.training = false) (name : String) {c : Nat} (x : List (Fin c → ℚ)) :
    batchNorm P name c ⟨c, x⟩ = .ok ⟨c, x.map fun v i => v i * bnScale P name i + bnShift P name i⟩ := by
  unfold batchNorm
  rw [Tensor.on_self]
  simp only [hP, Bool.false_eq_true, if_false]
  show (Except.ok _ : M Tensor) = _
  congr 2
  apply List.map_congr_left
  intro v _
  funext i
  simp only [bnScale, bnShift, div_eq_mul_inv]
  ring

theorem convAt_scale {ci co : Nat} (f : Nat → Int → Int → Int → Fin ci → ℚ) (offs : List (Int × Int × Int)) (ws : List (Fin ci → Fin co → ℚ)) (s : Fin co → ℚ)
    (c : Cell) (j : Fin co) : convAt f offs (ws.map fun w a b => w a b * s b) c j = convAt f offs ws c j * s j := by
  unfold convAt
  induction offs generalizing ws with
  | nil => simp
  | cons g offs ih =>
    cases ws with
    | nil => simp
    | cons a ws =>
      simp only [List.map_cons, List.zipWith_cons_cons, List.sum_cons, Pi.add_apply]
      rw [ih, add_mul]
      congr 1
      simp only [vecMat, Finset.sum_mul]
      exact Finset.sum_congr rfl fun i _ => by ring

theorem deconvAt_scale {ci co : Nat} (ts : List Cell) (xs : List (Fin ci → ℚ)) (offs : List (Int × Int × Int)) (ws : List (Fin co → Fin ci → ℚ)) (s : Fin co → ℚ)
    (c : Cell) (j : Fin co) : deconvAt ts xs offs (ws.map fun w a b => w a b * s a) c j = deconvAt ts xs offs ws c j * s j := by
  unfold deconvAt
  have inner : ∀ (t : Cell) (x : Fin ci → ℚ) (ws : List (Fin co → Fin ci → ℚ)),
      (List.zipWith (fun g w => if IsShift t c g then vecMatT x w else 0) offs (ws.map fun w a b => w a b * s a)).sum j
        = (List.zipWith (fun g w => if IsShift t c g then vecMatT x w else 0) offs ws).sum j * s j := by
    intro t x ws
    induction offs generalizing ws with
    | nil => simp
    | cons g offs ih =>
      cases ws with
      | nil => simp
      | cons a ws =>
        simp only [List.map_cons, List.zipWith_cons_cons, List.sum_cons, Pi.add_apply]
        rw [ih, add_mul]
        congr 1
        by_cases hs : IsShift t c g
        · simp only [if_pos hs, vecMatT, Finset.sum_mul]
          exact Finset.sum_congr rfl fun i _ => by ring
        · simp [if_neg hs]
  induction ts generalizing xs with
  | nil => simp
  | cons t ts ih =>
    cases xs with
    | nil => simp
    | cons x xs =>
      simp only [List.zipWith_cons_cons, List.sum_cons, Pi.add_apply]
      rw [ih, inner, add_mul]

/-- the matrices of the folded layer are the scaled matrices of the module -/
theorem folded_weights {A B : Nat} (P : Params) (name : String) (n : Nat) (G : (Fin A → Fin B → ℚ) → Fin A → Fin B → ℚ) (ws : List (Fin A → Fin B → ℚ)) (hl : ws.length = n)
    (hw : ∀ j, j < n → ws[j]? = some (G fun a b => P.weight name n j a b)) : ws = (convWeights P name n A B).map G := by
  apply List.ext_getElem?
  intro j
  by_cases hj : j < n
  · rw [hw j hj]
    simp [convWeights, hj]
  · rw [List.getElem?_eq_none (by omega), List.getElem?_eq_none (by simp [convWeights]; omega)]

/-- `OctreeConvBn` in evaluation mode, row by row -/
theorem convBn_eval (P : Params) (hP : P.training = false) (name : String) {ci co : Nat} (o : Octree F) (h : Nat) (w : o.Valid h) (d s : Nat) (hd : d ≤ h)
    (hn : NeighExact o.batchSize d o.keys o.neighs) (k : Nat × Nat × Nat) (hk : k ∈ supportedKernels) (ks : List Nat) (ha : KernelArg ks k) (nempty : Bool)
    (hc : (kernelOffsets k).length * ci ≤ maxBuffer) (srcs : List Cell) (outs : List (Option Cell)) (hO : Outs o nempty d s srcs outs)
    (x : List (Fin ci → ℚ)) (f : Nat → Int → Int → Int → Fin ci → ℚ) (hf : IsField srcs x f) :
    convBn P name ci co ks s nempty o d ⟨ci, x⟩ = .ok ⟨co, outs.map fun t => match t with
      | some c => fun i => convAt f (kernelOffsets k) (convWeights P (name ++ ".conv") (kernelOffsets k).length ci co) c i * bnScale P (name ++ ".bn") i
          + bnShift P (name ++ ".bn") i
      | none => bnShift P (name ++ ".bn")⟩ := by
  have e := init_ok true ci co ks s nempty maxBuffer k hk ha
  unfold convBn octreeConv
  rw [e]
  simp only [if_true]
  have := layer_forward (co := co) o h w d s hd hn k nempty srcs outs hO
    { base := { isConv := true, inChannels := ci, outChannels := co, kernelSize := [k.1, k.2.1, k.2.2], kernel := kernelName k,
                stride := s, nempty := nempty, maxBuffer := maxBuffer, kdim := (kernelOffsets k).length, inConv := ci },
      directMethod := false, weights := convWeights P (name ++ ".conv") (kernelOffsets k).length ci co, bias := none }
    ⟨hk, ⟨ks, maxBuffer, ha, e, fun _ => hc⟩, by simp [convWeights]⟩ x f hf
  show (Tensor.on _ _ _ _ _ >>= _) = _
  rw [Tensor.on_self, this]
  show batchNorm _ _ _ _ = _
  rw [batchNorm_eval P hP, List.map_map]
  congr 2
  apply List.map_congr_left
  intro t _
  cases t with
  | none => funext i; simp
  | some c => funext i; simp

/-! ### C189 -/

/-- **C189, folding (partial).** In evaluation mode `OctreeConvBn` is one `OctreeConv` with a bias: the matrices with output channel `i` times the factor of
channel `i` of the normalisation, and the constants of the normalisation as bias.  Partial: with stride 2 and `nempty=False` only when no node of the coarser layer is
empty (see `C189_strided`, `C189_violated`). -/
theorem C189_fold_partial (P : Params) (hP : P.training = false) (name : String) {ci co : Nat} (o : Octree F) (h : Nat) (w : o.Valid h) (d s : Nat) (hd : d ≤ h)
    (hn : NeighExact o.batchSize d o.keys o.neighs) (k : Nat × Nat × Nat) (ks : List Nat) (ha : KernelArg ks k) (nempty : Bool)
    (hc : (kernelOffsets k).length * ci ≤ maxBuffer) (srcs targets : List Cell) (hN : Nodes o nempty d s srcs targets)
    (hs : s = 1 ∨ nempty = true ∨ ∀ ch, o.children (d - 1) = some ch → ∀ v ∈ ch, 0 ≤ v)
    (m : ConvModule (Fin co → ℚ) (Fin ci → Fin co → ℚ)) (l : ConvLayer k s nempty m)
    (hw : ∀ j, j < (kernelOffsets k).length → m.weights[j]? = some fun (a : Fin ci) (b : Fin co) => P.weight (name ++ ".conv") (kernelOffsets k).length j a b * bnScale P (name ++ ".bn") b)
    (hb : m.bias = some (bnShift P (name ++ ".bn"))) (x : List (Fin ci → ℚ)) (hx : srcs.length = x.length) :
    ∃ y, convBn P name ci co ks s nempty o d ⟨ci, x⟩ = .ok ⟨co, y⟩ ∧ m.forward (denseKernel ℚ ci co) x o d = .ok y := by
  obtain ⟨outs, hO⟩ := nodes_outs hN
  obtain ⟨f, hf⟩ := exists_field srcs x hx (nodes_nodup o h w d hd nempty s srcs targets hN)
  refine ⟨_, convBn_eval P hP name o h w d s hd hn k l.supported ks ha nempty hc srcs outs hO x f hf, ?_⟩
  rw [layer_forward o h w d s hd hn k nempty srcs outs hO m l x f hf]
  congr 1
  apply List.map_congr_left
  intro t ht
  cases t with
  | some c =>
    funext i
    simp only [hb, Option.getD_some, Pi.add_apply]
    rw [folded_weights P (name ++ ".conv") _ (fun w a b => w a b * bnScale P (name ++ ".bn") b) m.weights l.weights hw, convAt_scale]
  | none =>
    exfalso
    cases hO with
    | one d cells ch h1 h2 => simp at ht
    | two d cells ch pcells pch h1 h2 h3 h4 =>
      cases nempty with
      | true => simp at ht
      | false =>
        simp only [Bool.false_eq_true, if_false] at ht
        obtain ⟨p, hp, e⟩ := List.mem_map.1 ht
        have : 0 ≤ p.2 := by
          rcases hs with hs | hs | hs
          · omega
          · simp at hs
          · exact hs pch (by simpa using h4) _ (List.of_mem_zip hp).2
        simp [this] at e

/-- **C189, stride 2 with all nodes.** `OctreeConv` adds the bias before it fills in the empty nodes, and `OctreeConvBn` normalises afterwards.  The two agree at the non-empty
nodes; at the empty nodes the folded layer gives 0 and `OctreeConvBn` the constants of the normalisation. -/
theorem C189_strided (P : Params) (hP : P.training = false) (name : String) {ci co : Nat} (o : Octree F) (h : Nat) (w : o.Valid h) (d : Nat) (hd : d + 1 ≤ h)
    (hn : NeighExact o.batchSize (d + 1) o.keys o.neighs) (k : Nat × Nat × Nat) (ks : List Nat) (ha : KernelArg ks k)
    (hc : (kernelOffsets k).length * ci ≤ maxBuffer) (pch : List Int) (hp : o.children d = some pch)
    (m : ConvModule (Fin co → ℚ) (Fin ci → Fin co → ℚ)) (l : ConvLayer k 2 false m)
    (hw : ∀ j, j < (kernelOffsets k).length → m.weights[j]? = some fun (a : Fin ci) (b : Fin co) => P.weight (name ++ ".conv") (kernelOffsets k).length j a b * bnScale P (name ++ ".bn") b)
    (hb : m.bias = some (bnShift P (name ++ ".bn"))) (x : List (Fin ci → ℚ)) (hx : x.length = o.nnum (d + 1)) :
    ∃ y y', convBn P name ci co ks 2 false o (d + 1) ⟨ci, x⟩ = .ok ⟨co, y⟩ ∧ m.forward (denseKernel ℚ ci co) x o (d + 1) = .ok y' ∧
      y.length = pch.length ∧ y'.length = pch.length ∧ ∀ (i : Nat) (v : Int), pch[i]? = some v →
        (0 ≤ v → y[i]? = y'[i]?) ∧ (v < 0 → y[i]? = some (bnShift P (name ++ ".bn")) ∧ y'[i]? = some 0) := by
  have W := w.wf'
  have hN : Nodes o false (d + 1) 2 _ _ := .two d _ _ _ _ (W.cellsOf _ hd) (W.children _ hd) (W.cellsOf d (by omega)) hp
  have hO : Outs o false (d + 1) 2 _ _ := .two d _ _ _ _ (W.cellsOf _ hd) (W.children _ hd) (W.cellsOf d (by omega)) hp
  have hq : (queried false (layerCells o.batchSize o.masks (d + 1)) (number 0 (o.masks (d + 1)))).length = x.length := by
    rw [queried, if_neg (by decide), hx, W.nnum _ hd]
  obtain ⟨f, hf⟩ := exists_field _ x hq (nodes_nodup o h w (d + 1) hd false 2 _ _ hN)
  have hl : (layerCells o.batchSize o.masks d).length = pch.length := by
    have e := W.children d (by omega)
    rw [hp] at e
    cases e
    rw [number_length, W.len d (by omega)]
  refine ⟨_, _, convBn_eval P hP name o h w (d + 1) 2 hd hn k l.supported ks ha false hc _ _ hO x f hf,
    layer_forward o h w (d + 1) 2 hd hn k false _ _ hO m l x f hf, by simp [hl], by simp [hl], ?_⟩
  intro i v hv
  have hi : i < pch.length := (List.getElem?_eq_some_iff.1 hv).1
  have e : ((layerCells o.batchSize o.masks d).zip pch)[i]? = some ((layerCells o.batchSize o.masks d)[i]'(by omega), v) := by
    rw [List.getElem?_zip_eq_some]
    exact ⟨List.getElem?_eq_getElem _, hv⟩
  simp only [Bool.false_eq_true, if_false, List.getElem?_map, e, Option.map_some]
  constructor
  · intro h0
    simp only [if_pos h0, Option.some.injEq]
    funext j
    simp only [hb, Option.getD_some, Pi.add_apply]
    rw [folded_weights P (name ++ ".conv") _ (fun w a b => w a b * bnScale P (name ++ ".bn") b) m.weights l.weights hw, convAt_scale]
  · intro h0
    simp [show ¬ (0 : Int) ≤ v by omega]

/-- **C189, transposed convolutions.** In evaluation mode `OctreeDeconvBnRelu` is one `OctreeDeconv` with a bias and a ReLU, for every stride and both values of `nempty`. -/
theorem C189_deconv (P : Params) (hP : P.training = false) (name : String) {ci co : Nat} (o : Octree F) (h : Nat) (w : o.Valid h) (d s : Nat) (hd : d ≤ h)
    (hn : NeighExact o.batchSize d o.keys o.neighs) (k : Nat × Nat × Nat) (ks : List Nat) (ha : KernelArg ks k) (nempty : Bool)
    (hc : (kernelOffsets k).length * co ≤ maxBuffer) (srcs targets : List Cell) (hN : Nodes o nempty d s srcs targets)
    (m : ConvModule (Fin co → ℚ) (Fin co → Fin ci → ℚ)) (l : DeconvLayer k s nempty m)
    (hw : ∀ j, j < (kernelOffsets k).length → m.weights[j]? = some fun (a : Fin co) (b : Fin ci) => P.weight (name ++ ".deconv") (kernelOffsets k).length j a b * bnScale P (name ++ ".bn") a)
    (hb : m.bias = some (bnShift P (name ++ ".bn"))) (x x' : List (Fin ci → ℚ)) (hx : x'.length = targets.length)
    (hpre : (if s = 2 ∧ nempty = false then octreeDepad x o (d - 1) else .ok x) = .ok x') :
    ∃ y, deconvBnRelu P name ci co ks s nempty o (if s = 2 then d - 1 else d) ⟨ci, x⟩ = .ok ⟨co, y.map fun v i => max (v i) 0⟩ ∧
      m.deconvForward (denseKernel ℚ co ci) x o (if s = 2 then d - 1 else d) = .ok y := by
  obtain ⟨ks', mb, ha', hi, hmb⟩ := l.made
  refine ⟨_, ?_, C84_deconv o h w d hd hn k l.supported nempty s srcs targets hN ks' mb m ha' hi hmb l.weights x x' hx hpre⟩
  have e := init_ok false ci co ks s nempty maxBuffer k l.supported ha
  unfold deconvBnRelu octreeDeconv
  rw [e]
  have := C84_deconv o h w d hd hn k l.supported nempty s srcs targets hN ks maxBuffer
    { base := { isConv := false, inChannels := ci, outChannels := co, kernelSize := [k.1, k.2.1, k.2.2], kernel := kernelName k,
                stride := s, nempty := nempty, maxBuffer := maxBuffer, kdim := (kernelOffsets k).length, inConv := co },
      directMethod := false, weights := convWeights P (name ++ ".deconv") (kernelOffsets k).length co ci, bias := none }
    ha e (fun _ => hc) (by simp [convWeights]) x x' hx hpre
  show (Tensor.on _ _ _ _ _ >>= _) = _
  rw [Tensor.on_self]
  simp only [Bool.false_eq_true, if_false]
  rw [this]
  show (batchNorm _ _ _ _ >>= _) = _
  rw [batchNorm_eval P hP]
  show (Except.ok _ : M Tensor) = _
  unfold relu
  simp only [List.map_map]
  congr 2
  apply List.map_congr_left
  intro c _
  funext i
  simp only [Function.comp, hb, Option.getD_some, Option.getD_none, Pi.add_apply, Pi.zero_apply, add_zero]
  rw [folded_weights P (name ++ ".deconv") _ (fun w a b => w a b * bnScale P (name ++ ".bn") a) m.weights l.weights hw, deconvAt_scale]

/-- **C189, linear layers.** In evaluation mode `Conv1x1Bn` is one `Conv1x1` with a bias. -/
theorem C189_linear (P Q : Params) (hP : P.training = false) (name name' : String) {ci co : Nat}
    (hw : ∀ (i : Fin ci) (j : Fin co), Q.weight (name' ++ ".linear") 1 0 i j = P.weight (name ++ ".conv" ++ ".linear") 1 0 i j * bnScale P (name ++ ".bn") j)
    (hb : ∀ j : Fin co, Q.bias (name' ++ ".linear") j = bnShift P (name ++ ".bn") j) (x : List (Fin ci → ℚ)) :
    ∃ y, conv1x1Bn P name ci co ⟨ci, x⟩ = .ok ⟨co, y⟩ ∧ conv1x1 Q name' ci co true ⟨ci, x⟩ = .ok ⟨co, y⟩ ∧ y.length = x.length := by
  unfold conv1x1Bn conv1x1 linear
  rw [Tensor.on_self, Tensor.on_self]
  refine ⟨_, batchNorm_eval P hP _ _, ?_, by simp⟩
  show (Except.ok _ : M Tensor) = _
  rw [List.map_map]
  congr 2
  apply List.map_congr_left
  intro v _
  funext j
  simp only [Function.comp, if_true, Bool.false_eq_true, if_false, add_zero, hb, Finset.sum_mul]
  congr 1
  exact Finset.sum_congr rfl fun i _ => by rw [hw]; ring

/-! ### the hypotheses can be met; the violation -/

/-- the layer that `OctreeConvBn` is folded into -/
def foldedLayer (P : Params) (name : String) (ci co : Nat) (k : Nat × Nat × Nat) (s : Nat) (nempty : Bool) : ConvModule (Fin co → ℚ) (Fin ci → Fin co → ℚ) where
  base := { isConv := true, inChannels := ci, outChannels := co, kernelSize := [k.1, k.2.1, k.2.2], kernel := kernelName k, stride := s,
            nempty := nempty, maxBuffer := 27 * ci, kdim := (kernelOffsets k).length, inConv := ci }
  directMethod := false
  weights := (List.range (kernelOffsets k).length).map fun j a b => P.weight (name ++ ".conv") (kernelOffsets k).length j a b * bnScale P (name ++ ".bn") b
  bias := some (bnShift P (name ++ ".bn"))

theorem foldedLayer_layer (P : Params) (name : String) (ci co : Nat) (k : Nat × Nat × Nat) (hk : k ∈ supportedKernels) (s : Nat) (nempty : Bool) :
    ConvLayer k s nempty (foldedLayer P name ci co k s nempty) ∧ (∀ j, j < (kernelOffsets k).length → (foldedLayer P name ci co k s nempty).weights[j]?
      = some fun (a : Fin ci) (b : Fin co) => P.weight (name ++ ".conv") (kernelOffsets k).length j a b * bnScale P (name ++ ".bn") b) ∧
    (foldedLayer P name ci co k s nempty).bias = some (bnShift P (name ++ ".bn")) := by
  refine ⟨⟨hk, ⟨[k.1, k.2.1, k.2.2], 27 * ci, Or.inl rfl, ?_, ?_⟩, by simp [foldedLayer]⟩, ?_, rfl⟩
  · rw [init_ok true ci co _ s nempty (27 * ci) k hk (Or.inl rfl)]
    rfl
  · intro _
    have : ∀ k ∈ supportedKernels, (kernelOffsets k).length ≤ 27 := by decide
    exact Nat.mul_le_mul_right _ (this k hk)
  · intro j hj
    simp [foldedLayer, hj]

/-- parameters in evaluation mode whose normalisation is not the identity and has a constant -/
def foldParams : Params where
  weight := fun _ _ k i j => k + 2 * i - j
  bias := fun _ _ => 0
  bnWeight := fun _ i => i + 2
  bnBias := fun _ _ => 3
  bnMean := fun _ _ => 0
  bnVar := fun _ i => i + 1
  training := false
  drop := fun _ _ _ => 0
  rt := fun v => v
  tanh := fun v => v

theorem foldParams_shift (name : String) {c : Nat} (i : Fin c) : bnShift foldParams name i = 3 := by
  simp [bnShift, foldParams]

theorem exists_empty (m : List Bool) (n : Nat) (h : m.count true < m.length) : ∃ (i : Nat) (v : Int), (number n m)[i]? = some v ∧ v < 0 := by
  induction m generalizing n with
  | nil => simp at h
  | cons b m ih =>
    cases b with
    | false => exact ⟨0, -1, rfl, by omega⟩
    | true =>
      obtain ⟨i, v, h1, h2⟩ := ih (n + 1) (by simpa using h)
      exact ⟨i + 1, v, by simpa [number] using h1, h2⟩

/-- **C189, violated.** With stride 2 and `nempty=False` the layer with the scaled matrices and the constants as bias is not `OctreeConvBn` in evaluation mode. -/
theorem C189_violated : ∃ (P : Params) (o : Octree Unit) (m : ConvModule (Fin 3 → ℚ) (Fin 2 → Fin 3 → ℚ)) (x : List (Fin 2 → ℚ)) (y y' : List (Fin 3 → ℚ)),
    P.training = false ∧ o.Valid 2 ∧ NeighExact o.batchSize 2 o.keys o.neighs ∧ ConvLayer (3, 3, 3) 2 false m ∧
    (∀ j, j < (kernelOffsets (3, 3, 3)).length → m.weights[j]?
      = some fun (a : Fin 2) (b : Fin 3) => P.weight ("c" ++ ".conv") (kernelOffsets (3, 3, 3)).length j a b * bnScale P ("c" ++ ".bn") b) ∧
    m.bias = some (bnShift P ("c" ++ ".bn")) ∧ x.length = o.nnum 2 ∧
    convBn P "c" 2 3 [3] 2 false o 2 ⟨2, x⟩ = .ok ⟨3, y⟩ ∧ m.forward (denseKernel ℚ 2 3) x o 2 = .ok y' ∧ y ≠ y' := by
  obtain ⟨o, h1, h2, h3, h4, h5, h6, h7⟩ := example_valid'
  obtain ⟨l1, l2, l3⟩ := foldedLayer_layer foldParams "c" 2 3 (3, 3, 3) (by decide) 2 false
  have W := h1.wf'
  obtain ⟨y, y', e1, e2, -, -, e3⟩ := C189_strided foldParams rfl "c" o 2 h1 1 le_rfl (h3 2 le_rfl) (3, 3, 3) [3] (Or.inr (Or.inr ⟨rfl, rfl, rfl⟩)) (by decide) _
    (W.children 1 (by omega)) _ l1 l2 l3 (List.replicate (o.nnum 2) 1) (by simp)
  refine ⟨foldParams, o, _, _, y, y', rfl, h1, h3 2 le_rfl, l1, l2, l3, by simp, e1, e2, ?_⟩
  have hc : (o.masks 1).count true < (o.masks 1).length := by
    have a1 := W.nnumNempty 1 (by omega)
    have a2 := W.nnum 1 (by omega)
    have a3 := W.len 1 (by omega)
    omega
  obtain ⟨i, v, hi, hv⟩ := exists_empty (o.masks 1) 0 hc
  obtain ⟨b1, b2⟩ := (e3 i v hi).2 hv
  intro he
  rw [he, b2] at b1
  have := congrFun (Option.some.inj b1) 0
  rw [foldParams_shift] at this
  norm_num at this

/-- The hypotheses of `C189_fold_partial`: an octree with empty nodes, strides 1 and 2, a kernel of 27 offsets. -/
example (s : Nat) (hs : s = 1 ∨ s = 2) : ∃ (P : Params) (o : Octree Unit) (m : ConvModule (Fin 3 → ℚ) (Fin 2 → Fin 3 → ℚ)) (srcs targets : List Cell),
    P.training = false ∧ o.Valid 2 ∧ NeighExact o.batchSize 2 o.keys o.neighs ∧ Nodes o true 2 s srcs targets ∧ ConvLayer (3, 3, 3) s true m ∧
    (∀ j, j < (kernelOffsets (3, 3, 3)).length → m.weights[j]?
      = some fun (a : Fin 2) (b : Fin 3) => P.weight ("c" ++ ".conv") (kernelOffsets (3, 3, 3)).length j a b * bnScale P ("c" ++ ".bn") b) ∧
    m.bias = some (bnShift P ("c" ++ ".bn")) ∧ bnScale P ("c" ++ ".bn") (0 : Fin 3) ≠ 1 ∧ bnShift P ("c" ++ ".bn") (0 : Fin 3) ≠ 0 := by
  obtain ⟨o, h1, h2, h3, h4, h5, h6, h7⟩ := example_valid'
  obtain ⟨l1, l2, l3⟩ := foldedLayer_layer foldParams "c" 2 3 (3, 3, 3) (by decide) s true
  have W := h1.wf'
  have hN : ∃ srcs targets, Nodes o true 2 s srcs targets := by
    rcases hs with rfl | rfl
    · exact ⟨_, _, .one 2 _ _ (W.cellsOf 2 (by omega)) (W.children 2 (by omega))⟩
    · exact ⟨_, _, .two 1 _ _ _ _ (W.cellsOf 2 (by omega)) (W.children 2 (by omega)) (W.cellsOf 1 (by omega)) (W.children 1 (by omega))⟩
  obtain ⟨srcs, targets, hN⟩ := hN
  refine ⟨foldParams, o, _, srcs, targets, rfl, h1, h3 2 le_rfl, hN, l1, l2, l3, ?_, ?_⟩
  · simp only [bnScale, foldParams]
    norm_num
  · rw [foldParams_shift]
    norm_num

/-- The hypotheses of `C189_deconv`. -/
example (s : Nat) (nempty : Bool) : ∃ (P : Params) (m : ConvModule (Fin 3 → ℚ) (Fin 3 → Fin 2 → ℚ)), P.training = false ∧ DeconvLayer (2, 2, 2) s nempty m ∧
    (∀ j, j < (kernelOffsets (2, 2, 2)).length → m.weights[j]?
      = some fun (a : Fin 3) (b : Fin 2) => P.weight ("c" ++ ".deconv") (kernelOffsets (2, 2, 2)).length j a b * bnScale P ("c" ++ ".bn") a) ∧
    m.bias = some (bnShift P ("c" ++ ".bn")) := by
  have l := deconvWith_layer (ci := 3) (co := 2) (2, 2, 2) (by decide) s nempty fun _ => 0
  refine ⟨foldParams, { deconvWith (ci := 3) (co := 2) (2, 2, 2) s nempty fun _ => 0 with
    weights := (List.range (kernelOffsets (2, 2, 2)).length).map fun j (a : Fin 3) (b : Fin 2) =>
      foldParams.weight ("c" ++ ".deconv") (kernelOffsets (2, 2, 2)).length j a b * bnScale foldParams ("c" ++ ".bn") a,
    bias := some (bnShift foldParams ("c" ++ ".bn")) }, rfl, ⟨l.supported, l.made, by simp⟩, ?_, rfl⟩
  intro j hj
  simp [hj]

/-- The hypotheses of `C189_linear`. -/
example : ∃ P Q : Params, P.training = false ∧
    (∀ (i : Fin 2) (j : Fin 3), Q.weight ("q" ++ ".linear") 1 0 i j = P.weight ("p" ++ ".conv" ++ ".linear") 1 0 i j * bnScale P ("p" ++ ".bn") j) ∧
    ∀ j : Fin 3, Q.bias ("q" ++ ".linear") j = bnShift P ("p" ++ ".bn") j :=
  ⟨foldParams, { foldParams with
    weight := fun _ n k i j => foldParams.weight "" n k i j * (foldParams.bnWeight "" j / foldParams.rt (foldParams.bnVar "" j + 1 / 100000))
    bias := fun _ j => foldParams.bnBias "" j - foldParams.bnMean "" j * (foldParams.bnWeight "" j / foldParams.rt (foldParams.bnVar "" j + 1 / 100000)) },
    rfl, fun _ _ => rfl, fun _ => rfl⟩

end Ocnn
