import Verif.PropsDTypes

/-! Property C176: convolution with features and weights of different floating-point types, inside and outside of `autocast`. -/

namespace Ocnn

/-- A loop whose body keeps the state. -/
theorem foldlM_fixed {σ β : Type} (f : σ → β → M σ) (s : σ) (h : ∀ b, f s b = .ok s) (l : List β) : l.foldlM f s = .ok s := by
  induction l with
  | nil => rfl
  | cons b l ih => simp only [List.foldlM, h b, bind, Except.bind]; exact ih

theorem typeCheck_eq (out x : DType) : typeCheck out x = out := by
  unfold typeCheck; split
  · rfl
  · rename_i h; exact Decidable.not_not.mp h

theorem mmD_same (ac : Option DType) (d : DType) : mmD ac d d = .ok (autocast ac d) := by simp [mmD]

theorem forwardGemmD_ok (ac : Option DType) (out data weights : DType) (n : Nat) : forwardGemmD ac out data weights n = .ok out := by
  unfold forwardGemmD
  simp only [typeCheck_eq]
  refine foldlM_fixed _ _ (fun _ => ?_) _
  simp [indexPutD_self, mmD_same, castInto, bind, Except.bind, pure, Except.pure]

theorem backwardGemmD_ok (ac : Option DType) (out grad weights : DType) (n : Nat) : backwardGemmD ac out grad weights n = .ok out := by
  unfold backwardGemmD
  simp only [typeCheck_eq]
  refine foldlM_fixed _ _ (fun _ => ?_) _
  simp [scatterAddD_self, mmD_same, bind, Except.bind]

theorem weightGemmD_ok (out data grad : DType) (n : Nat) : weightGemmD out data grad n = .ok out := by
  unfold weightGemmD
  simp only [typeCheck_eq]
  refine foldlM_fixed _ _ (fun _ => ?_) _
  simp [indexPutD_self, addmmD, bind, Except.bind]

/-- The memory-saving convolution and deconvolution never fail because of element types: for all types of the features, the weights and
the incoming gradient, for every `autocast` setting of the forward and of the backward pass and for every number of chunks, the result and
the gradient of the features have the type of the features, and the gradient of the weights has the type of the weights. -/
theorem C176_function (ac ac' : Option DType) (data weights grad : DType) (n : Nat) :
    convFnD ac data weights n = .ok data ∧ convFnBackD ac' data weights grad n = .ok (data, weights) ∧
    deconvFnD ac data weights n = .ok data ∧ deconvFnBackD ac' data weights grad n = .ok (data, weights) := by
  refine ⟨forwardGemmD_ok _ _ _ _ _, ?_, backwardGemmD_ok _ _ _ _ _, ?_⟩
  · simp [convFnBackD, backwardGemmD_ok, weightGemmD_ok, bind, Except.bind, pure, Except.pure]
  · simp [deconvFnBackD, forwardGemmD_ok, weightGemmD_ok, bind, Except.bind, pure, Except.pure]

/-- The same for the layers, with a bias of any type, every stride and both kinds of features. -/
theorem C176_layer (ac : Option DType) (bias : Option DType) (stride2 nempty : Bool) (data weights : DType) (n : Nat) :
    convLayerD ac false bias stride2 nempty data weights n = .ok data ∧
    deconvLayerD ac false bias stride2 nempty data weights n = .ok data := by
  constructor
  · unfold convLayerD
    cases bias <;> cases stride2 <;> cases nempty <;>
      simp [convFnD, forwardGemmD_ok, octreePadD, indexPutD_self, castInto, bind, Except.bind, pure, Except.pure]
  · unfold deconvLayerD
    cases bias <;> cases stride2 <;> cases nempty <;>
      simp [deconvFnD, backwardGemmD_ok, octreeDepadD, castInto, bind, Except.bind, pure, Except.pure]

/-- The depth-wise convolution, outside of `autocast`. -/
theorem C176_depthwise (bias : Option DType) (stride2 nempty : Bool) (data weights grad : DType) (n : Nat) :
    dwLayerD bias stride2 nempty data weights n = .ok data ∧ dwFnBackD data weights grad n = .ok (data, weights) := by
  have hf : ∀ out data weights : DType, dwForwardD out data weights n = .ok out := by
    intro out data weights
    unfold dwForwardD
    simp only [typeCheck_eq]
    refine foldlM_fixed _ _ (fun _ => ?_) _
    simp [indexPutD_self, mmD_same, castInto, bind, Except.bind, pure, Except.pure]
  have hb : ∀ out grad weights : DType, dwBackwardD out grad weights n = .ok out := by
    intro out grad weights
    unfold dwBackwardD
    simp only [typeCheck_eq]
    refine foldlM_fixed _ _ (fun _ => ?_) _
    simp [mmD_same, autocast, scatterAddD_self, bind, Except.bind]
  have hw : ∀ out data grad : DType, dwWeightD out data grad n = .ok out := by
    intro out data grad
    unfold dwWeightD
    simp only [typeCheck_eq]
    refine foldlM_fixed _ _ (fun _ => ?_) _
    simp [indexPutD_self, mmD_same, castInto, bind, Except.bind, pure, Except.pure]
  constructor
  · unfold dwLayerD
    cases bias <;> cases stride2 <;> cases nempty <;>
      simp [dwFnD, hf, octreePadD, indexPutD_self, castInto, bind, Except.bind, pure, Except.pure]
  · simp [dwFnBackD, hb, hw, bind, Except.bind, pure, Except.pure]

/-- With `direct_method` the layers work exactly when the features and the weights have the same type after `autocast`, and the result
then has that type, not the type of the features. -/
theorem C176_direct (ac : Option DType) (bias : Option DType) (stride2 nempty : Bool) (data weights : DType) (n : Nat) :
    convLayerD ac true bias stride2 nempty data weights n =
      (if autocast ac data = autocast ac weights then .ok (autocast ac data) else .error .type) ∧
    deconvLayerD ac true bias stride2 nempty data weights n =
      (if autocast ac data = autocast ac weights then .ok (autocast ac data) else .error .type) := by
  constructor
  · unfold convLayerD
    by_cases h : autocast ac data = autocast ac weights <;> cases bias <;> cases stride2 <;> cases nempty <;>
      simp [octree2colD, mmD, h, octreePadD, indexPutD_self, castInto, bind, Except.bind, pure, Except.pure]
  · unfold deconvLayerD
    by_cases h : autocast ac data = autocast ac weights <;> cases bias <;> cases stride2 <;> cases nempty <;>
      simp [col2octreeD, scatterAddNewD, mmD, h, octreeDepadD, scatterAddD_self, castInto, bind, Except.bind, pure, Except.pure]

/-- So the two methods agree on the type of the result exactly when `autocast` changes neither type and both types are equal. -/
theorem C176_agree (ac : Option DType) (bias : Option DType) (stride2 nempty : Bool) (data weights : DType) (n : Nat) :
    convLayerD ac true bias stride2 nempty data weights n = convLayerD ac false bias stride2 nempty data weights n ↔
      autocast ac data = data ∧ autocast ac weights = data := by
  rw [(C176_direct ac bias stride2 nempty data weights n).1, (C176_layer ac bias stride2 nempty data weights n).1]
  by_cases h : autocast ac data = autocast ac weights
  · rw [if_pos h]
    constructor
    · intro e; have e := Except.ok.inj e; exact ⟨e, h ▸ e⟩
    · rintro ⟨e, -⟩; rw [e]
  · rw [if_neg h]
    constructor
    · intro e; cases e
    · rintro ⟨e, e'⟩; exact absurd (e.trans e'.symm) h

/-- Half-precision features and float32 weights, outside of `autocast`, in three chunks: the memory-saving method works, the direct method
raises.  Under `autocast` the first gives float32 and the second float16. -/
example : convLayerD none false (some .f32) true false .f16 .f32 3 = .ok .f16 ∧
    convLayerD none true (some .f32) true false .f16 .f32 3 = .error .type ∧
    convLayerD (some .f16) false none false true .f32 .f32 3 = .ok .f32 ∧
    convLayerD (some .f16) true none false true .f32 .f32 3 = .ok .f16 := ⟨rfl, rfl, rfl, rfl⟩

end Ocnn
