import Verif.PropsFold

/-! Property C191: pointwise linear layers before and after a convolution. -/

namespace Ocnn
open Spec
variable {F : Type}

/-! ### specification -/

/-- The product of two matrices. -/
def Spec.matProduct {a b c : Nat} (A : Fin a → Fin b → ℚ) (B : Fin b → Fin c → ℚ) : Fin a → Fin c → ℚ := fun i j => ∑ e, A i e * B e j

/-- The matrix of a `Conv1x1`. -/
def Spec.pointMatrix (P : Params) (name : String) (a b : Nat) : Fin a → Fin b → ℚ := fun i j => P.weight (name ++ ".linear") 1 0 i j

/-! ### lemmas -/

theorem vecMat_matProduct {a b c : Nat} (v : Fin a → ℚ) (A : Fin a → Fin b → ℚ) (B : Fin b → Fin c → ℚ) : vecMat (vecMat v A) B = vecMat v (matProduct A B) := by
  funext j
  simp only [vecMat, matProduct, Finset.sum_mul, Finset.mul_sum]
  rw [Finset.sum_comm]
  exact Finset.sum_congr rfl fun _ _ => Finset.sum_congr rfl fun _ _ => by ring

theorem vecMat_plus {a b : Nat} (v w : Fin a → ℚ) (A : Fin a → Fin b → ℚ) : vecMat (v + w) A = vecMat v A + vecMat w A := by
  funext j
  simp only [vecMat, Pi.add_apply, ← Finset.sum_add_distrib]
  exact Finset.sum_congr rfl fun _ _ => by ring

theorem vecMat_nought {a b : Nat} (A : Fin a → Fin b → ℚ) : vecMat (0 : Fin a → ℚ) A = 0 := by
  funext j
  simp [vecMat]

theorem conv1x1_eval (P : Params) (name : String) {a b : Nat} (x : List (Fin a → ℚ)) :
    conv1x1 P name a b false ⟨a, x⟩ = .ok ⟨b, x.map fun v => vecMat v (pointMatrix P name a b)⟩ := by
  unfold conv1x1 linear
  rw [Tensor.on_self]
  show (Except.ok _ : M Tensor) = _
  congr 2
  apply List.map_congr_left
  intro v _
  funext j
  simp [vecMat, pointMatrix]

theorem convAt_after {ci co c2 : Nat} (f : Nat → Int → Int → Int → Fin ci → ℚ) (offs : List (Int × Int × Int)) (ws : List (Fin ci → Fin co → ℚ)) (A : Fin co → Fin c2 → ℚ)
    (c : Cell) : convAt f offs (ws.map fun w => matProduct w A) c = vecMat (convAt f offs ws c) A := by
  unfold convAt
  induction offs generalizing ws with
  | nil => simp [vecMat_nought]
  | cons g offs ih =>
    cases ws with
    | nil => simp [vecMat_nought]
    | cons a ws =>
      simp only [List.map_cons, List.zipWith_cons_cons, List.sum_cons]
      rw [ih, vecMat_plus, vecMat_matProduct]

theorem convAt_before {c0 ci co : Nat} (f : Nat → Int → Int → Int → Fin c0 → ℚ) (offs : List (Int × Int × Int)) (ws : List (Fin ci → Fin co → ℚ)) (A : Fin c0 → Fin ci → ℚ)
    (c : Cell) : convAt f offs (ws.map fun w => matProduct A w) c = convAt (fun b x y z => vecMat (f b x y z) A) offs ws c := by
  unfold convAt
  rw [List.zipWith_map_right]
  congr 1
  apply congrArg (fun h => List.zipWith h offs ws)
  funext g w
  exact (vecMat_matProduct _ _ _).symm

/-! ### C191 -/

/-- **C191, after.** A `Conv1x1` without bias behind an `OctreeConv` is one `OctreeConv` with the products of the matrices, and the bias multiplied by the matrix; for both strides and
both values of `nempty`. -/
theorem C191_after (P : Params) (name : String) {ci co c2 : Nat} (o : Octree F) (h : Nat) (w : o.Valid h) (d s : Nat) (hd : d ≤ h)
    (hn : NeighExact o.batchSize d o.keys o.neighs) (k : Nat × Nat × Nat) (nempty : Bool) (srcs targets : List Cell) (hN : Nodes o nempty d s srcs targets)
    (m : ConvModule (Fin co → ℚ) (Fin ci → Fin co → ℚ)) (l : ConvLayer k s nempty m) (m2 : ConvModule (Fin c2 → ℚ) (Fin ci → Fin c2 → ℚ)) (l2 : ConvLayer k s nempty m2)
    (hw : ∀ (j : Nat) (v : Fin ci → Fin co → ℚ), m.weights[j]? = some v → m2.weights[j]? = some (matProduct v (pointMatrix P name co c2)))
    (hb : m2.bias = m.bias.map fun b => vecMat b (pointMatrix P name co c2)) (x : List (Fin ci → ℚ)) (hx : srcs.length = x.length) :
    ∃ y z, m.forward (denseKernel ℚ ci co) x o d = .ok y ∧ conv1x1 P name co c2 false ⟨co, y⟩ = .ok ⟨c2, z⟩ ∧ m2.forward (denseKernel ℚ ci c2) x o d = .ok z := by
  obtain ⟨outs, hO⟩ := nodes_outs hN
  obtain ⟨f, hf⟩ := exists_field srcs x hx (nodes_nodup o h w d hd nempty s srcs targets hN)
  refine ⟨_, _, layer_forward o h w d s hd hn k nempty srcs outs hO m l x f hf, conv1x1_eval P name _, ?_⟩
  rw [layer_forward o h w d s hd hn k nempty srcs outs hO m2 l2 x f hf, List.map_map]
  have ew : m2.weights = m.weights.map fun v => matProduct v (pointMatrix P name co c2) := by
    apply List.ext_getElem?
    intro j
    rw [List.getElem?_map]
    by_cases hj : j < m.weights.length
    · rw [List.getElem?_eq_getElem hj]
      exact hw j _ (List.getElem?_eq_getElem hj)
    · have := l.weights
      have := l2.weights
      rw [List.getElem?_eq_none (by omega), List.getElem?_eq_none (by omega)]
      rfl
  congr 1
  apply List.map_congr_left
  intro t _
  cases t with
  | none => exact (vecMat_nought _).symm
  | some c =>
    show convAt _ _ _ _ + _ = vecMat (_ + _) _
    rw [ew, convAt_after, vecMat_plus, hb]
    congr 1
    cases m.bias with
    | none => exact (vecMat_nought _).symm
    | some b => rfl

/-- **C191, before.** A `Conv1x1` without bias in front of an `OctreeConv` is one `OctreeConv` with the products of the matrices and the same bias; for both strides and both values of
`nempty`. -/
theorem C191_before (P : Params) (name : String) {c0 ci co : Nat} (o : Octree F) (h : Nat) (w : o.Valid h) (d s : Nat) (hd : d ≤ h)
    (hn : NeighExact o.batchSize d o.keys o.neighs) (k : Nat × Nat × Nat) (nempty : Bool) (srcs targets : List Cell) (hN : Nodes o nempty d s srcs targets)
    (m : ConvModule (Fin co → ℚ) (Fin ci → Fin co → ℚ)) (l : ConvLayer k s nempty m) (m2 : ConvModule (Fin co → ℚ) (Fin c0 → Fin co → ℚ)) (l2 : ConvLayer k s nempty m2)
    (hw : ∀ (j : Nat) (v : Fin ci → Fin co → ℚ), m.weights[j]? = some v → m2.weights[j]? = some (matProduct (pointMatrix P name c0 ci) v))
    (hb : m2.bias = m.bias) (x : List (Fin c0 → ℚ)) (hx : srcs.length = x.length) :
    ∃ u z, conv1x1 P name c0 ci false ⟨c0, x⟩ = .ok ⟨ci, u⟩ ∧ m.forward (denseKernel ℚ ci co) u o d = .ok z ∧ m2.forward (denseKernel ℚ c0 co) x o d = .ok z := by
  obtain ⟨outs, hO⟩ := nodes_outs hN
  obtain ⟨f, hf⟩ := exists_field srcs x hx (nodes_nodup o h w d hd nempty s srcs targets hN)
  have hg : IsField srcs (x.map fun v => vecMat v (pointMatrix P name c0 ci)) (fun b x y z => vecMat (f b x y z) (pointMatrix P name c0 ci)) := by
    obtain ⟨a1, a2, a3⟩ := hf
    refine ⟨by simpa using a1, ?_, ?_⟩
    · intro i c v hi hv
      rw [List.getElem?_map] at hv
      obtain ⟨r, hr, rfl⟩ := Option.map_eq_some_iff.1 hv
      show vecMat (f _ _ _ _) _ = _
      rw [a2 i c r hi hr]
    · intro b x y z hne
      show vecMat (f _ _ _ _) _ = _
      rw [a3 b x y z hne, vecMat_nought]
  refine ⟨_, _, conv1x1_eval P name _, layer_forward o h w d s hd hn k nempty srcs outs hO m l _ _ hg, ?_⟩
  rw [layer_forward o h w d s hd hn k nempty srcs outs hO m2 l2 x f hf]
  have ew : m2.weights = m.weights.map fun v => matProduct (pointMatrix P name c0 ci) v := by
    apply List.ext_getElem?
    intro j
    rw [List.getElem?_map]
    by_cases hj : j < m.weights.length
    · rw [List.getElem?_eq_getElem hj]
      exact hw j _ (List.getElem?_eq_getElem hj)
    · have := l.weights
      have := l2.weights
      rw [List.getElem?_eq_none (by omega), List.getElem?_eq_none (by omega)]
      rfl
  congr 1
  apply List.map_congr_left
  intro t _
  cases t with
  | none => rfl
  | some c =>
    show convAt _ _ _ _ + _ = _
    rw [ew, convAt_before, hb]

/-! ### the hypotheses can be met -/

/-- Matrices that are not trivial, strides 1 and 2, both values of `nempty`; before and after. -/
example (s : Nat) (hs : s = 1 ∨ s = 2) (nempty : Bool) : ∃ (P : Params) (o : Octree Unit) (srcs targets : List Cell) (m : ConvModule (Fin 3 → ℚ) (Fin 2 → Fin 3 → ℚ))
    (m2 : ConvModule (Fin 4 → ℚ) (Fin 2 → Fin 4 → ℚ)) (m3 : ConvModule (Fin 3 → ℚ) (Fin 5 → Fin 3 → ℚ)),
    o.Valid 2 ∧ NeighExact o.batchSize 2 o.keys o.neighs ∧ Nodes o nempty 2 s srcs targets ∧ ConvLayer (3, 3, 3) s nempty m ∧ ConvLayer (3, 3, 3) s nempty m2 ∧
    ConvLayer (3, 3, 3) s nempty m3 ∧ m.bias = some 1 ∧
    (∀ (j : Nat) (v : Fin 2 → Fin 3 → ℚ), m.weights[j]? = some v → m2.weights[j]? = some (matProduct v (pointMatrix P "p" 3 4))) ∧
    m2.bias = (m.bias.map fun b => vecMat b (pointMatrix P "p" 3 4)) ∧
    (∀ (j : Nat) (v : Fin 2 → Fin 3 → ℚ), m.weights[j]? = some v → m3.weights[j]? = some (matProduct (pointMatrix P "p" 5 2) v)) ∧ m3.bias = m.bias ∧
    pointMatrix P "p" 3 4 1 0 = 2 := by
  obtain ⟨o, h1, h2, h3, h4, h5, h6, h7⟩ := example_valid'
  have W := h1.wf'
  let wt : Int × Int × Int → Fin 2 → Fin 3 → ℚ := fun g i j => g.1 + i.val - j.val
  have hk : (3, 3, 3) ∈ supportedKernels := by decide
  have l := layerWith_layer (3, 3, 3) hk s nempty wt
  have l2 := layerWith_layer (3, 3, 3) hk s nempty fun g => matProduct (wt g) (pointMatrix foldParams "p" 3 4)
  have l3 := layerWith_layer (3, 3, 3) hk s nempty fun g => matProduct (pointMatrix foldParams "p" 5 2) (wt g)
  have hN : ∃ srcs targets, Nodes o nempty 2 s srcs targets := by
    rcases hs with rfl | rfl
    · exact ⟨_, _, .one 2 _ _ (W.cellsOf 2 (by omega)) (W.children 2 (by omega))⟩
    · exact ⟨_, _, .two 1 _ _ _ _ (W.cellsOf 2 (by omega)) (W.children 2 (by omega)) (W.cellsOf 1 (by omega)) (W.children 1 (by omega))⟩
  obtain ⟨srcs, targets, hN⟩ := hN
  refine ⟨foldParams, o, srcs, targets, { layerWith (3, 3, 3) s nempty wt with bias := some 1 },
    { layerWith (3, 3, 3) s nempty fun g => matProduct (wt g) (pointMatrix foldParams "p" 3 4) with bias := some (vecMat 1 (pointMatrix foldParams "p" 3 4)) },
    { layerWith (3, 3, 3) s nempty fun g => matProduct (pointMatrix foldParams "p" 5 2) (wt g) with bias := some 1 },
    h1, h3 2 le_rfl, hN, ⟨l.supported, l.made, l.weights⟩, ⟨l2.supported, l2.made, l2.weights⟩, ⟨l3.supported, l3.made, l3.weights⟩, rfl, ?_, rfl, ?_, rfl, ?_⟩
  · intro j v hv
    simp only [layerWith, List.getElem?_map] at hv ⊢
    obtain ⟨g, hg, rfl⟩ := Option.map_eq_some_iff.1 hv
    rw [hg]
    rfl
  · intro j v hv
    simp only [layerWith, List.getElem?_map] at hv ⊢
    obtain ⟨g, hg, rfl⟩ := Option.map_eq_some_iff.1 hv
    rw [hg]
    rfl
  · simp [pointMatrix, foldParams]

end Ocnn
