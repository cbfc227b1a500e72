import Verif.PropsPipelines
import Mathlib.Algebra.BigOperators.Group.List.Basic

/-! The networks for segmentation give every query point a row that does not depend on the order of the query points: the relational argument of
`NetSys` for one octree compared with itself and for two lists of query points that are permutations of each other. -/

set_option linter.unusedSimpArgs false

namespace Ocnn
open Spec
variable {F : Type}

/-- The tensors of the two runs are equal, and the rows for the query points are given by the same function. -/
def orderSys (P : Params) (o : Octree F) (qs' qs : List (V3 ℚ × Nat)) : Sys where
  Idx := Option (List Nat)
  ht := fun n d => some (ht [o] n d)
  hb := some (hb [o])
  R := fun r c t s => match r with
    | some ns => Rel 0 ns c t s
    | none => ∃ f : V3 ℚ × Nat → Fin c → ℚ, t = ⟨c, qs'.map f⟩ ∧ s = ⟨c, qs.map f⟩
  ok := fun r => match r with
    | some ns => BnOk P ns
    | none => P.training = true → qs.length ≠ 1
  lo := fun _ => 0
  vox := True
  map := by
    intro r c c' x y g h
    cases r with
    | some ns => exact h.map g
    | none =>
      obtain ⟨f, rfl, rfl⟩ := h
      exact ⟨_, _, rfl, rfl, fun q => g (f q), by simp, by simp⟩
  zip := by
    intro r a b c x y x' y' g h h'
    cases r with
    | some ns => exact h.zip g h'
    | none =>
      obtain ⟨f, rfl, rfl⟩ := h
      obtain ⟨f', rfl, rfl⟩ := h'
      exact ⟨_, _, _, _, rfl, rfl, rfl, rfl, by simp, by simp, fun q => g (f q) (f' q), by simp [zipWith_map_same], by simp [zipWith_map_same]⟩

theorem colMean_perm {c : Nat} {x y : List (Fin c → ℚ)} (h : x.Perm y) (i : Fin c) : colMean x i = colMean y i := by
  unfold colMean
  rw [(h.map _).sum_eq, h.length_eq]

theorem colVar_perm {c : Nat} {x y : List (Fin c → ℚ)} (h : x.Perm y) (i : Fin c) : colVar x i = colVar y i := by
  unfold colVar
  rw [(h.map _).sum_eq, h.length_eq, colMean_perm h]

theorem layers_order {P : Params} {o : Octree F} {D : Nat} (L : Layers P P (batchSys P [o] 0) o o D)
    {qs' qs : List (V3 ℚ × Nat)} (hp : qs'.Perm qs) : Layers P P (orderSys P o qs' qs) o o D where
  conv3 := fun name {_} co {_ _} h1 hD hc {_ _} h => L.conv3 name co h1 hD hc h
  conv2 := fun name {_} co {_ _} hD hc {_ _} h => L.conv2 name co hD hc h
  deconv2 := fun name ci {_ _ _} hD hc {_ _} h => L.deconv2 name ci hD hc h
  maxPoolIdx := fun {_ _ _} hD {_ _} h => L.maxPoolIdx hD h
  globalPool := fun {_ _ _} hD {_ _} h => L.globalPool hD h
  upsampleT := fun {_ _ _} hD {_ _} h => L.upsampleT hD h
  depadT := fun {_ _} hD {_ _} h => L.depadT hD h
  unpoolT := fun {_ _ _} _ hD {_ _ _ _} h h' hi => L.unpoolT trivial hD h h' hi
  voxelFlat := fun {_ _ _} hv hD {_ _} h => L.voxelFlat hv hD h
  bn := by
    intro name c r hok t s h
    cases r with
    | some ns => exact L.bn name c ns hok t s h
    | none =>
      obtain ⟨f, rfl, rfl⟩ := h
      unfold batchNorm
      rw [Tensor.on_self, Tensor.on_self]
      by_cases hP : P.training = true
      · have h1 : ¬ (qs.map f).length = 1 := by rw [List.length_map]; exact hok hP
        have h2 : ¬ (qs'.map f).length = 1 := by rw [List.length_map, hp.length_eq]; exact hok hP
        rw [if_pos hP, if_pos hP, if_neg h1, if_neg h2]
        refine Both.pure ⟨fun q i => (f q i - colMean (qs.map f) i) / P.rt (colVar (qs.map f) i + 1 / 100000) * P.bnWeight name i + P.bnBias name i, ?_, ?_⟩
        · simp only [List.map_map, Function.comp_def, colMean_perm (hp.map f), colVar_perm (hp.map f)]
        · simp only [List.map_map, Function.comp_def]
      · rw [if_neg hP, if_neg hP]
        refine Both.pure ⟨fun q i => (f q i - P.bnMean name i) / P.rt (P.bnVar name i + 1 / 100000) * P.bnWeight name i + P.bnBias name i, ?_, ?_⟩ <;>
          simp only [List.map_map, Function.comp_def]
  drop := fun name c t s hok h => L.drop name c t s hok h

theorem queries_order (P : Params) {o : Octree F} {D : Nat} (w : o.Valid D) {qs' qs : List (V3 ℚ × Nat)} (hp : qs'.Perm qs)
    (hq : ∀ q ∈ qs, q.2 < 2 ^ 15) : Queries (orderSys P o qs' qs) o o D (qs'.map row4) (qs.map row4) none := by
  intro method nempty d c hD t s hr
  have hd := hD.2
  obtain ⟨x, hx, rfl, rfl⟩ := rel_single hr
  have W := w.wf'
  have hl := queried_length w d (by omega) nempty _ _ (W.cellsOf d (by omega)) (W.children d (by omega))
  obtain ⟨f, hf⟩ := exists_field _ x (hl.trans hx.symm) (queried_nodup W d (by omega) nempty)
  have hq2 : ∀ (l : List (V3 ℚ × Nat)), (∀ q ∈ l, q.2 < 2 ^ 15) →
      ∀ q ∈ (l.map fun q : V3 ℚ × Nat => (q.1.map fun v => (v + 1) * (2 ^ ((d : ℤ) - 1) : ℚ), q.2)), q.2 < 2 ^ 15 := by
    intro l hl q hqm
    obtain ⟨q', h1, rfl⟩ := List.mem_map.1 hqm
    exact hl q' h1
  have h1 := hq2 qs hq
  have h2 := hq2 qs' fun q hm => hq q (hp.mem_iff.1 hm)
  unfold interp octreeInterp interpFunc
  dsimp only
  rw [if_pos rfl, if_pos rfl, interp_pts, interp_pts]
  by_cases hm : method = "linear"
  · rw [if_pos hm, if_pos hm, C53_linear o D w d hd _ _ (W.cellsOf d hd) (W.children d hd) nempty false _ f hf _ h1,
      C53_linear o D w d hd _ _ (W.cellsOf d hd) (W.children d hd) nempty false _ f hf _ h2]
    exact Both.pure ⟨_, by rw [List.map_map], by rw [List.map_map]⟩
  · rw [if_neg hm, if_neg hm, nearest_main o D w d hd _ _ (W.cellsOf d hd) (W.children d hd) nempty false _ f hf _ h1,
      nearest_main o D w d hd _ _ (W.cellsOf d hd) (W.children d hd) nempty false _ f hf _ h2]
    exact Both.pure ⟨_, by rw [List.map_map], by rw [List.map_map]⟩

/-- The same parameters without dropout. -/
def noDrop (P : Params) : Params := { P with drop := fun _ _ _ => 1 }

/-- The networks for segmentation contain no dropout layers. -/
theorem segModel_noDrop (P : Params) (fl : ModelFlags) (o : Octree F) (D : Nat) (pts : List Pt4) (t : Tensor) :
    segModel (noDrop P) fl o D pts t = segModel P fl o D pts t := by
  rfl

end Ocnn
