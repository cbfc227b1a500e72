import Verif.DTypes

/-! Property C175: which operations work on features of every floating-point type and give a result of that type. -/

namespace Ocnn

/-- An operation works on tensors of every floating-point type, and the result has the type of its input. -/
def Spec.KeepsType (f : DType → M DType) : Prop := ∀ d, f d = .ok d

/-- The bits of the exponent and of the mantissa of a floating-point type. -/
def Spec.formatBits : DType → Nat × Nat
  | .f16 => (5, 10)
  | .bf16 => (8, 7)
  | .f32 => (8, 23)
  | .f64 => (11, 52)

/-- Every number of type `a` is a number of type `b`. -/
def Spec.TypeIncluded (a b : DType) : Prop := (formatBits a).1 ≤ (formatBits b).1 ∧ (formatBits a).2 ≤ (formatBits b).2

theorem indexPutD_self (d : DType) : indexPutD d d = .ok d := by simp [indexPutD]
theorem scatterAddD_self (d : DType) : scatterAddD d d = .ok d := by simp [scatterAddD]
theorem promote_self (d : DType) : d.promote d = d := by cases d <;> rfl

/-- The type of the arithmetic of two tensors is the smallest type that has the numbers of both. -/
theorem C175_promote (a b : DType) : Spec.TypeIncluded a (a.promote b) ∧ Spec.TypeIncluded b (a.promote b) ∧
    ∀ c, Spec.TypeIncluded a c → Spec.TypeIncluded b c → Spec.TypeIncluded (a.promote b) c := by
  cases a <;> cases b <;> simp [Spec.TypeIncluded, Spec.formatBits, DType.promote] <;> intro c <;> cases c <;> simp

example : DType.promote .f16 .bf16 = .f32 ∧ Spec.TypeIncluded .bf16 .f32 ∧ ¬ Spec.TypeIncluded .bf16 .f16 := by
  simp [DType.promote, Spec.TypeIncluded, Spec.formatBits]

/-- Padding and its inverse, gathering and scattering of columns, conversion to voxels, pooling, nearest-neighbour interpolation at points
of any type, nearest-neighbour upsampling to any depth and stochastic depth keep the type of the features. -/
theorem C175_keeps_partial :
    Spec.KeepsType octreePadD ∧ Spec.KeepsType octreeDepadD ∧ Spec.KeepsType octree2colD ∧ Spec.KeepsType col2octreeD ∧
    Spec.KeepsType octree2voxelD ∧ (∀ nempty, Spec.KeepsType (maxPoolD nempty)) ∧ (∀ nempty, Spec.KeepsType (maxUnpoolD nempty)) ∧
    Spec.KeepsType globalPoolD ∧ (∀ active, Spec.KeepsType (dropPathD active)) ∧
    (∀ rescale dflt pts, Spec.KeepsType (fun d => octreeInterpD false rescale dflt d pts)) ∧
    (∀ nempty dflt depth target, depth ≤ target → Spec.KeepsType (fun d => octreeUpsampleD false nempty dflt d depth target)) := by
  refine ⟨indexPutD_self, fun _ => rfl, indexPutD_self, scatterAddD_self, indexPutD_self, ?_, ?_, ?_, ?_, ?_, ?_⟩
  · intro nempty d
    cases nempty <;> cases d <;> rfl
  · intro nempty d
    cases nempty <;> cases d <;> rfl
  · intro d; cases d <;> rfl
  · intro a d; cases a <;> cases d <;> rfl
  · intro r dflt pts d
    simp [octreeInterpD, nearestPtsD, indexPutD_self]
  · intro nempty dflt depth target h d
    show octreeUpsampleD false nempty dflt d depth target = .ok d
    unfold octreeUpsampleD
    split
    · rfl
    · rw [if_neg (by omega)]
      split
      · cases nempty <;> rfl
      · simp [nearestPtsD, indexPutD_self]

/-- Group normalisation keeps the type of the features when its parameters have that type, and gives the larger of the two types otherwise
(here for float32 parameters). -/
theorem C175_norm_partial (d : DType) :
    groupNormD d d d = .ok d ∧ groupNormD d .f32 .f32 = .ok (if d = .f64 then .f64 else .f32) := by
  cases d <;> exact ⟨rfl, rfl⟩

/-- Alignment of two octrees works for features of torch's default type, and for no others. -/
theorem C175_align_partial (dflt d : DType) :
    octreeAlignD dflt d = if d = dflt then .ok d else .error .type := by
  cases dflt <;> cases d <;> rfl

/-- Average pooling works for features of torch's default type, and for no others. -/
theorem C175_avg_partial (dflt d : DType) :
    avgPoolD dflt d = if d = dflt then .ok d else .error .type := by
  cases dflt <;> cases d <;> rfl

/-- With float32 as default type, linear interpolation of features of type `d` at points of type `p` works when both are float64, or when
the features are float32 and the points are not float64; it raises in all other cases. -/
theorem C175_linear_partial (rescale : Bool) (d p : DType) :
    octreeInterpD true rescale .f32 d p =
      if (d = .f64 ∧ p = .f64) ∨ (d = .f32 ∧ p ≠ .f64) then .ok d else .error .type := by
  cases rescale <;> cases d <;> cases p <;> rfl

/-- With float32 as default type, linear upsampling to a deeper layer works for float32 features only. -/
theorem C175_upsample_partial (nempty : Bool) (d : DType) (depth target : Nat) (h : depth < target) :
    octreeUpsampleD true nempty .f32 d depth target = if d = .f32 then .ok d else .error .type := by
  unfold octreeUpsampleD
  rw [if_neg (by omega), if_neg (by omega), if_neg (by simp)]
  cases d <;> rfl

/-- Half-precision and double-precision features are rejected by `octree_align`, by average pooling and by linear upsampling, and
half-precision features at half-precision points by linear interpolation. -/
theorem C175_violated :
    ¬ Spec.KeepsType (octreeAlignD .f32) ∧ ¬ Spec.KeepsType (avgPoolD .f32) ∧
    (∀ nempty depth target, depth < target → ¬ Spec.KeepsType (fun d => octreeUpsampleD true nempty .f32 d depth target)) ∧
    ¬ Spec.KeepsType (fun d => octreeInterpD true true .f32 d d) := by
  refine ⟨?_, ?_, ?_, ?_⟩
  · intro h; have := h .f16; cases this
  · intro h; have := h .f64; cases this
  · intro nempty depth target hlt h
    have := h .f16
    simp only [C175_upsample_partial nempty .f16 depth target hlt] at this
    cases this
  · intro h; have := h .f16; cases this

/-- The operations on a half-precision tensor, one after the other. -/
example : (octreePadD .f16 >>= maxPoolD false >>= globalPoolD) = .ok .f16 ∧ octreeAlignD .f32 .f16 = .error .type ∧
    octreeUpsampleD true true .f32 .f64 3 4 = .error .type ∧ octreeUpsampleD false true .f32 .f64 3 5 = .ok .f64 := ⟨rfl, rfl, rfl, rfl⟩

end Ocnn
