import Verif.PropsSymmetry
import Verif.NetProofs2
import Verif.NetBatch

/-! The argument about networks for an octree and the same octree moved by whole voxels, with another order of the samples. -/

set_option linter.unusedSimpArgs false

namespace Ocnn
open Spec
variable {F V W : Type}

/-- The motion of level `d` when the voxels of level `e` move by `t` and the samples are renumbered by `σ`. -/
def Spec.shiftBy (σ : Nat → Nat) (e : Nat) (t : Int × Int × Int) (d : Nat) : Motion :=
  ⟨σ, id, (2 ^ (d - e) * t.1, 2 ^ (d - e) * t.2.1, 2 ^ (d - e) * t.2.2)⟩

theorem shiftBy_legal {σ : Nat → Nat} (hσ : Function.Injective σ) (e : Nat) (t : Int × Int × Int) (d : Nat) : (shiftBy σ e t d).Legal :=
  ⟨hσ, Function.injective_id, fun _ _ => rfl⟩

theorem shiftBy_iff {σ : Nat → Nat} {e : Nat} {t : Int × Int × Int} {d : Nat} {c c' : Cell} : (shiftBy σ e t d).Moves c c' ↔
    c'.b = σ c.b ∧ (c'.x : Int) = c.x + 2 ^ (d - e) * t.1 ∧ (c'.y : Int) = c.y + 2 ^ (d - e) * t.2.1 ∧
      (c'.z : Int) = c.z + 2 ^ (d - e) * t.2.2 := by
  unfold Motion.Moves shiftBy pos
  simp only [id, Prod.ext_iff, Prod.fst_add, Prod.snd_add]

theorem pow_step {d e : Nat} (h : e ≤ d) : (2 : Int) ^ (d + 1 - e) = 2 * 2 ^ (d - e) := by
  rw [Nat.succ_sub h, pow_succ]; ring

theorem child_moves {σ : Nat → Nat} {e : Nat} {t : Int × Int × Int} {d : Nat} (he : e ≤ d) {c c' : Cell} (h : (shiftBy σ e t d).Moves c c')
    (j : Nat) : (shiftBy σ e t (d + 1)).Moves (c.child j) (c'.child j) := by
  rw [shiftBy_iff] at h ⊢
  obtain ⟨h1, h2, h3, h4⟩ := h
  rw [pow_step he]
  refine ⟨h1, ?_, ?_, ?_⟩ <;> simp only [Cell.child] <;> push_cast <;> [rw [h2]; rw [h3]; rw [h4]] <;> ring

theorem child_zero (c : Cell) : c.child 0 = firstChild c := rfl

theorem parent_moves {σ : Nat → Nat} {e : Nat} {t : Int × Int × Int} {d : Nat} (he : e ≤ d) {c c' : Cell}
    (h : (shiftBy σ e t (d + 1)).Moves c c') : (shiftBy σ e t d).Moves c.parent c'.parent ∧ c.octant = c'.octant := by
  rw [shiftBy_iff] at h ⊢
  obtain ⟨h1, h2, h3, h4⟩ := h
  rw [pow_step he] at h2 h3 h4
  generalize (2 : Int) ^ (d - e) = w at *
  rw [mul_assoc] at h2 h3 h4
  refine ⟨⟨h1, ?_, ?_, ?_⟩, ?_⟩
  · simp only [Cell.parent]; push_cast; rw [h2]; omega
  · simp only [Cell.parent]; push_cast; rw [h3]; omega
  · simp only [Cell.parent]; push_cast; rw [h4]; omega
  · unfold Cell.octant
    generalize w * t.1 = a at *
    generalize w * t.2.1 = b at *
    generalize w * t.2.2 = g at *
    omega

/-! ### the row of a cell -/

/-- The row of `c`, `v0` if there is none. -/
def rowAt (A : List Cell) (x : List V) (v0 : V) (c : Cell) : V := (x[A.idxOf c]?).getD v0

theorem rowAt_some {A : List Cell} (hA : A.Nodup) {x : List V} (v0 : V) {i : Nat} {c : Cell} {v : V} (hi : A[i]? = some c) (hv : x[i]? = some v) :
    rowAt A x v0 c = v := by
  have hc : c ∈ A := List.mem_of_getElem? hi
  have : A[A.idxOf c]? = some c := List.getElem?_idxOf hc
  rw [nodup_getElem?_inj hA hi this] at hv
  unfold rowAt
  rw [hv]; rfl

theorem rowAt_none {A : List Cell} {x : List V} (v0 : V) {c : Cell} (hl : A.length = x.length) (hc : c ∉ A) : rowAt A x v0 c = v0 := by
  unfold rowAt
  rw [List.idxOf_eq_length hc, hl, List.getElem?_eq_none (le_refl _)]
  rfl

theorem rowAt_map {A : List Cell} (hA : A.Nodup) {x : List V} (hl : A.length = x.length) (v0 : V) : A.map (rowAt A x v0) = x := by
  apply List.ext_getElem?
  intro i
  rw [List.getElem?_map]
  cases hi : A[i]? with
  | none =>
    rw [List.getElem?_eq_none_iff] at hi
    rw [Option.map_none, List.getElem?_eq_none (by omega)]
  | some c =>
    have hlt := (List.getElem?_eq_some_iff.1 hi).1
    rw [Option.map_some, rowAt_some hA v0 hi (List.getElem?_eq_getElem (by omega)), List.getElem?_eq_getElem]

theorem Spec.Moved.rowAt {m : Motion} (hm : m.Legal) {A A' : List Cell} {x x' : List V} (h : Moved m A x A' x') (hn : A.Nodup) (hn' : A'.Nodup)
    (v0 : V) {c c' : Cell} (hc : m.Moves c c') : Ocnn.rowAt A x v0 c = Ocnn.rowAt A' x' v0 c' := by
  by_cases hcA : c ∈ A
  · obtain ⟨i, hi⟩ := List.mem_iff_getElem?.1 hcA
    have hlt : i < x.length := by have := (List.getElem?_eq_some_iff.1 hi).1; have := h.1; omega
    have hv : x[i]? = some x[i] := List.getElem?_eq_getElem hlt
    obtain ⟨j, c₁, hj, hmv, hv'⟩ := h.2.2.2 i c _ hi hv
    rw [Moves.unique hmv hc] at hj
    rw [rowAt_some hn v0 hi hv, rowAt_some hn' v0 hj hv']
  · rw [rowAt_none v0 h.1 hcA, rowAt_none v0 h.2.1]
    intro hc'
    obtain ⟨c₁, h1, h2⟩ := h.back hm hn hn' c' hc'
    rw [Moves.inj hm h2 hc] at h1
    exact hcA h1

theorem cellsMoved_map {m : Motion} {A A' : List Cell} (h : CellsMoved m A A') (g g' : Cell → W)
    (hg : ∀ c ∈ A, ∀ c' ∈ A', m.Moves c c' → g c = g' c') : Moved m A (A.map g) A' (A'.map g') := by
  obtain ⟨h1, h2⟩ := h
  refine ⟨by simp, by simp, h1, ?_⟩
  intro i c v hi hv
  have hc := List.mem_of_getElem? hi
  obtain ⟨c', hc', hmv⟩ := h2 c hc
  obtain ⟨j, hj⟩ := List.mem_iff_getElem?.1 hc'
  refine ⟨j, c', hj, hmv, ?_⟩
  rw [List.getElem?_map, hi] at hv
  rw [List.getElem?_map, hj, Option.map_some, ← hg c hc c' hc' hmv]
  exact hv

theorem Spec.Moved.map {m : Motion} {A A' : List Cell} {x x' : List V} (h : Moved m A x A' x') (g : V → W) :
    Moved m A (x.map g) A' (x'.map g) := by
  obtain ⟨h1, h2, h3, h4⟩ := h
  refine ⟨by simpa, by simpa, h3, ?_⟩
  intro i c v hi hv
  rw [List.getElem?_map, Option.map_eq_some_iff] at hv
  obtain ⟨u, hu, rfl⟩ := hv
  obtain ⟨j, c', a, b, c⟩ := h4 i c u hi hu
  exact ⟨j, c', a, b, by rw [List.getElem?_map, c]; rfl⟩

theorem Spec.Moved.zipWith {U : Type} {m : Motion} {A A' : List Cell} (hn' : A'.Nodup) {x x' : List V} {y y' : List U}
    (h : Moved m A x A' x') (k : Moved m A y A' y') (g : V → U → W) :
    Moved m A (List.zipWith g x y) A' (List.zipWith g x' y') := by
  obtain ⟨h1, h2, h3, h4⟩ := h
  obtain ⟨k1, k2, k3, k4⟩ := k
  refine ⟨by rw [List.length_zipWith]; omega, by rw [List.length_zipWith]; omega, h3, ?_⟩
  intro i c v hi hv
  rw [List.getElem?_zipWith] at hv
  cases e1 : x[i]? <;> cases e2 : y[i]? <;> rw [e1, e2] at hv <;> cases hv
  obtain ⟨j, c', a, b, c1⟩ := h4 i c _ hi e1
  obtain ⟨j', c'', a', b', c1'⟩ := k4 i c _ hi e2
  rw [Moves.unique b' b] at a'
  rw [nodup_getElem?_inj hn' a' a] at c1'
  exact ⟨j, c', a, b, by rw [List.getElem?_zipWith, c1, c1']⟩

theorem zip_map_self {α β : Type} (l : List α) (f : α → β) : l.zip (l.map f) = l.map fun a => (a, f a) := by
  induction l with
  | nil => rfl
  | cons a l ih => simp [ih]

/-- The cells with their rows are the moved cells with their rows. -/
theorem Spec.Moved.perm {m : Motion} (hm : m.Legal) {A A' : List Cell} {x x' : List V} (h : Moved m A x A' x') (hn : A.Nodup) (hn' : A'.Nodup) :
    ∃ g : Cell → Cell, (∀ c ∈ A, m.Moves c (g c)) ∧ ((A.zip x).map fun p => (g p.1, p.2)).Perm (A'.zip x') := by
  have hc := h.cells
  choose! g hg1 hg2 using hc.2
  refine ⟨g, hg2, ?_⟩
  have hA : A.map g ⊆ A' := by
    intro c hc
    obtain ⟨a, ha, rfl⟩ := List.mem_map.1 hc
    exact hg1 a ha
  have hnd : (A.map g).Nodup := by
    refine List.Nodup.map_on ?_ hn
    intro a ha b hb e
    exact Moves.inj hm (hg2 a ha) (e ▸ hg2 b hb)
  have hp : (A.map g).Perm A' := (hnd.subperm hA).perm_of_length_le (by simp [hc.1])
  by_cases hx : x = []
  · have : A' = [] := by
      have := h.1; have := h.2.2.1
      rw [hx] at *
      exact List.length_eq_zero_iff.1 (by simp_all)
    rw [hx, this]
    simp
  obtain ⟨v0, -⟩ := List.exists_mem_of_ne_nil x hx
  have e1 : (A.zip x).map (fun p => (g p.1, p.2)) = (A.map g).map fun c => (c, Ocnn.rowAt A' x' v0 c) := by
    conv_lhs => rw [← rowAt_map hn h.1 v0]
    rw [List.map_map]
    rw [zip_map_self, List.map_map]
    refine List.map_congr_left fun c hc => ?_
    simp only [Function.comp]
    rw [h.rowAt hm hn hn' v0 (hg2 c hc)]
  have e2 : A'.zip x' = A'.map fun c => (c, Ocnn.rowAt A' x' v0 c) := by
    conv_lhs => rw [← rowAt_map hn' h.2.1 v0]
    rw [zip_map_self]
  rw [e1, e2]
  exact hp.map _

/-! ### what the layers compute, cell by cell -/

theorem qc_true (o : Octree F) (d : Nat) : qc o true d = maskSel (o.masks d) (qc o false d) := rfl

theorem qc_succ (o : Octree F) (d : Nat) : qc o false (d + 1) = expand 8 Cell.child (qc o true d) := rfl

theorem maskFill_mem {α : Type} [DecidableEq α] (m : List Bool) (l : List α) (hn : l.Nodup) (h : m.length = l.length) (g : α → V) (v : V) :
    maskFill m (List.replicate m.length v) ((maskSel m l).map g) = l.map fun c => if c ∈ maskSel m l then g c else v := by
  induction m generalizing l with
  | nil =>
    cases l with
    | nil => rfl
    | cons a l => simp at h
  | cons b m ih =>
    cases l with
    | nil => simp at h
    | cons a l =>
      have hn' := List.nodup_cons.1 hn
      have ih := ih l hn'.2 (by simpa using h)
      have hna : a ∉ maskSel m l := fun h => hn'.1 ((maskSel_sublist _ _).subset h)
      cases b
      · simp only [maskSel, List.length_cons, List.replicate_succ, maskFill, List.map_cons, hna, if_false, ih]
        rfl
      · simp only [maskSel, List.length_cons, List.replicate_succ, maskFill, List.map_cons, List.mem_cons, true_or, if_true, ih]
        congr 1
        refine List.map_congr_left fun c hc => ?_
        have : c ≠ a := fun e => hn'.1 (e ▸ hc)
        simp [this]

theorem depad_map {o : Octree F} {h : Nat} (w : o.Valid h) {d : Nat} (hd : d ≤ h) (g : Cell → V) :
    octreeDepad ((qc o false d).map g) o d = .ok ((qc o true d).map g) := by
  rw [depad_ok w d hd _ (by rw [List.length_map, qc_length w d hd]; rfl), maskSel_map]
  rfl

theorem conv3_eq (P : Params) (name : String) {ci : Nat} (co : Nat) {nempty : Bool} {o : Octree F} {h d : Nat} (w : o.Valid h) (hd : d ≤ h)
    (hn : NeighExact o.batchSize d o.keys o.neighs) (hc : 27 * ci ≤ maxBuffer) {x : List (Fin ci → ℚ)} {f : Nat → Int → Int → Int → Fin ci → ℚ}
    (hf : IsField (qc o nempty d) x f) : octreeConv P name ci co [3] 1 nempty o d ⟨ci, x⟩
      = .ok ⟨co, (qc o nempty d).map fun c => convAt f (kernelOffsets (3, 3, 3)) (convWeights P name 27 ci co) c + 0⟩ := by
  have W := w.wf'
  have e := queried_qc w d hd nempty _ _ (W.cellsOf d hd) (W.children d hd)
  obtain ⟨b, e1, hk⟩ := init3 true ci co nempty
  rw [← e] at hf ⊢
  unfold octreeConv
  rw [e1]
  show Tensor.on _ _ _ _ _ = _
  rw [Tensor.on_self]
  have := C34_stride1 o h w d hd hn (3, 3, 3) (by decide) nempty _ (W.cellsOf d hd) _ (W.children d hd) [3] maxBuffer
    { base := b, directMethod := false, weights := convWeights P name b.kdim ci co, bias := none } (Or.inr (Or.inr ⟨rfl, rfl, rfl⟩)) e1
    (fun _ => hc) (by rw [convWeights_length, hk]) x f hf
  rw [this, hk]
  rfl

theorem conv2_eq (P : Params) (name : String) {ci : Nat} (co : Nat) {nempty : Bool} {o : Octree F} {h d : Nat} (w : o.Valid h) (hd : d + 1 ≤ h)
    (hn : NeighExact o.batchSize (d + 1) o.keys o.neighs) (hc : 8 * ci ≤ maxBuffer) {x : List (Fin ci → ℚ)}
    {f : Nat → Int → Int → Int → Fin ci → ℚ} (hf : IsField (qc o nempty (d + 1)) x f) :
    octreeConv P name ci co [2] 2 nempty o (d + 1) ⟨ci, x⟩ = .ok ⟨co, (qc o nempty d).map fun c =>
      if c ∈ qc o true d then convAt f (kernelOffsets (2, 2, 2)) (convWeights P name 8 ci co) (firstChild c) + 0 else 0⟩ := by
  have W := w.wf'
  have e := queried_qc w (d + 1) hd nempty _ _ (W.cellsOf _ hd) (W.children _ hd)
  obtain ⟨b, e1, hk⟩ := init2 true ci co nempty
  rw [← e] at hf
  unfold octreeConv
  rw [e1]
  show Tensor.on _ _ _ _ _ = _
  rw [Tensor.on_self]
  have := C34_stride2 o h w d hd hn (2, 2, 2) (by decide) nempty _ (W.cellsOf _ hd) _ (W.children _ hd) _ (W.cellsOf d (by omega)) _
    (W.children d (by omega)) [2] maxBuffer
    { base := b, directMethod := false, weights := convWeights P name b.kdim ci co, bias := none } (Or.inr (Or.inr ⟨rfl, rfl, rfl⟩)) e1
    (fun _ => hc) (by rw [convWeights_length, hk]) x f hf
  rw [this, hk]
  show (Except.ok _ : M Tensor) = _
  congr 2
  cases nempty with
  | true =>
    simp only [if_true]
    rw [nonEmpty_eq _ _ _ (W.len d (by omega))]
    refine List.map_congr_left fun c hcm => ?_
    exact (if_pos hcm).symm
  | false =>
    simp only [Bool.false_eq_true, if_false]
    show _ = (layerCells o.batchSize o.masks d).map _
    have hnd := qc_nodup w d (show d ≤ h by omega) false
    have hl := W.len d (show d ≤ h by omega)
    change (layerCells o.batchSize o.masks d).Nodup at hnd
    rw [qc_true]
    change _ = (layerCells o.batchSize o.masks d).map fun c => if c ∈ maskSel (o.masks d) (layerCells o.batchSize o.masks d) then _ else _
    rw [← maskFill_mem _ _ hnd hl, maskFill_map _ 0 _ _ _ hl]
    rfl

theorem deconv2_eq (P : Params) (name : String) (ci : Nat) {co : Nat} {nempty : Bool} {o : Octree F} {h d : Nat} (w : o.Valid h) (hd : d + 1 ≤ h)
    (hn : NeighExact o.batchSize (d + 1) o.keys o.neighs) (hc : 8 * co ≤ maxBuffer) (g : Cell → Fin ci → ℚ) :
    octreeDeconv P name ci co [2] 2 nempty o d ⟨ci, (qc o nempty d).map g⟩ = .ok ⟨co, (qc o nempty (d + 1)).map fun c =>
      deconvAt ((qc o true d).map firstChild) ((qc o true d).map g) (kernelOffsets (2, 2, 2)) (convWeights P name 8 co ci) c + 0⟩ := by
  have W := w.wf'
  have e := queried_qc w (d + 1) hd nempty _ _ (W.cellsOf _ hd) (W.children _ hd)
  obtain ⟨b, e1, hk⟩ := init2 false ci co nempty
  unfold octreeDeconv
  rw [e1]
  show Tensor.on _ _ _ _ _ = _
  rw [Tensor.on_self]
  have hne := nonEmpty_eq (layerCells o.batchSize o.masks d) _ 0 (W.len d (show d ≤ h by omega))
  have := C84_deconv o h w (d + 1) hd hn (2, 2, 2) (by decide) nempty 2 _ _
    (.two d _ _ _ _ (W.cellsOf _ hd) (W.children _ hd) (W.cellsOf d (by omega)) (W.children d (by omega))) [2] maxBuffer
    { base := b, directMethod := false, weights := convWeights P name b.kdim co ci, bias := none } (Or.inr (Or.inr ⟨rfl, rfl, rfl⟩)) e1
    (fun _ => hc) (by rw [convWeights_length, hk]) ((qc o nempty d).map g) ((qc o true d).map g)
    (by rw [hne]; simp [qc]) (by
      cases nempty with
      | true => simp
      | false => simp only [and_self, if_true, Nat.add_sub_cancel]; exact depad_map w (by omega) g)
  simp only [if_true, Nat.add_sub_cancel] at this
  rw [this, hk, e, hne]
  rfl

theorem chunk8_eq {o : Octree F} {h : Nat} (w : o.Valid h) {d : Nat} (hd : d + 1 ≤ h) {nempty : Bool} (x : List V) (v0 : V)
    (hx : x.length = (qc o nempty (d + 1)).length) : ∃ P, (if nempty then octreePad x o (d + 1) v0 else pure x : M (List V)) = .ok P ∧
      P.length = 8 * o.nnumNempty d ∧
      chunk8 (o.nnumNempty d) P = (qc o true d).map fun c => (List.range 8).map fun j => rowAt (qc o nempty (d + 1)) x v0 (c.child j) := by
  have W := w.wf'
  have e := queried_qc w (d + 1) hd nempty _ _ (W.cellsOf _ hd) (W.children _ hd)
  obtain ⟨P, h1, h2, h3⟩ := pool_pre o h w d hd nempty x v0 (by rw [e]; exact hx)
  refine ⟨P, h1, h2, ?_⟩
  rw [e] at h3
  have hl := qc_length w d (show d ≤ h by omega) true
  simp only [if_true] at hl
  have hnd := qc_nodup w (d + 1) hd nempty
  apply List.ext_getElem?
  intro r
  by_cases hr : r < o.nnumNempty d
  · obtain ⟨g, g1, g2, g3⟩ := chunk8_spec _ P h2 r hr
    have hc : (qc o true d)[r]? = some (qc o true d)[r] := List.getElem?_eq_getElem (by omega)
    rw [g1, List.getElem?_map, hc, Option.map_some]
    congr 1
    apply List.ext_getElem?
    intro j
    by_cases hj : j < 8
    · rw [g3 j hj, List.getElem?_map, List.getElem?_range hj, Option.map_some]
      obtain ⟨p, p1, p2⟩ := h3 r _ hc j hj
      rw [p1]
      congr 1
      rcases p2 with ⟨i, q1, q2⟩ | ⟨-, rfl, q⟩
      · exact (rowAt_some hnd v0 q1 q2).symm
      · refine (rowAt_none _ hx.symm ?_).symm
        intro hm
        obtain ⟨i, hi⟩ := List.mem_iff_getElem?.1 hm
        have hlt : i < x.length := by have := (List.getElem?_eq_some_iff.1 hi).1; omega
        exact q _ ⟨i, hi, List.getElem?_eq_getElem hlt⟩
    · rw [List.getElem?_eq_none (by omega), List.getElem?_eq_none (by simp; omega)]
  · have : (chunk8 (o.nnumNempty d) P).length = o.nnumNempty d := by
      generalize o.nnumNempty d = n
      clear h1 h2 h3
      induction n generalizing P with
      | zero => rfl
      | succ n ih => rw [chunk8, List.length_cons, ih]
    rw [List.getElem?_eq_none (by omega), List.getElem?_eq_none (by simp; omega)]

/-- The eight values below a node. -/
def below {c : Nat} (A : List Cell) (x : List (Fin c → ℚ)) (q : Cell) : List (Fin c → WithBot ℚ) :=
  (List.range 8).map fun j => rowAt A (x.map fun v => fun i => ((v i : ℚ) : WithBot ℚ)) (fun _ => ⊥) (q.child j)

theorem maxPoolIdx_eq {c : Nat} {nempty : Bool} {o : Octree F} {h d : Nat} (w : o.Valid h) (hd : d + 1 ≤ h) (x : List (Fin c → ℚ))
    (hx : x.length = (qc o nempty (d + 1)).length) : maxPoolIdx nempty o (d + 1) ⟨c, x⟩ = .ok (
      ⟨c, (qc o nempty d).map fun q => fun i =>
        if q ∈ qc o true d then ((maxRows (below (qc o nempty (d + 1)) x q)).1 i).unbotD 0 else 0⟩,
      ⟨c, (qc o true d).map fun q => fun i => ((maxRows (below (qc o nempty (d + 1)) x q)).2 i : ℚ)⟩) := by
  obtain ⟨P, h1, h2, h3⟩ := chunk8_eq (nempty := nempty) w hd (x.map fun v => fun i => ((v i : ℚ) : WithBot ℚ)) (fun _ => ⊥) (by simpa using hx)
  unfold maxPoolIdx
  dsimp only
  rw [maxPool_ok o h w d hd nempty _ P h1 h2, h3]
  show (Except.ok _ : M _) = _
  congr 2
  · congr 1
    cases nempty with
    | true =>
      simp only [if_true, List.map_map]
      refine List.map_congr_left fun q hq => ?_
      simp only [Function.comp, if_pos hq]
      rfl
    | false =>
      simp only [Bool.false_eq_true, if_false]
      rw [List.map_map, qc_true, maskFill_mem _ _ (qc_nodup w d (show d ≤ h by omega) false) (w.wf'.len d (by omega)), List.map_map]
      refine List.map_congr_left fun q hq => ?_
      simp only [Function.comp]
      split
      · rfl
      · rfl
  · rw [List.map_map, List.map_map]
    rfl

theorem unpool_eq {c : Nat} {nempty : Bool} {o : Octree F} {h d : Nat} (w : o.Valid h) (hd : d + 1 ≤ h) (y ix : Cell → Fin c → ℚ)
    (hix : IsIdx ⟨c, (qc o true d).map ix⟩) :
    maxUnpool nempty o d ⟨c, (qc o true d).map ix⟩ ⟨c, (qc o nempty d).map y⟩ = .ok
      ⟨c, (qc o nempty (d + 1)).map fun q => fun i => if ⌊ix q.parent i⌋.toNat = q.octant then y q.parent i else 0⟩ := by
  have key : (List.zipWith (fun v ix => (List.range 8).map fun j => fun c => if ix c = j then v c else 0) ((qc o true d).map y)
      (((qc o true d).map ix).map fun v => fun i => ⌊v i⌋.toNat)).flatten
      = (qc o false (d + 1)).map fun q => fun i => if ⌊ix q.parent i⌋.toNat = q.octant then y q.parent i else 0 := by
    rw [qc_succ]
    generalize qc o true d = l
    induction l with
    | nil => rfl
    | cons a l ih =>
      simp only [List.map_cons, List.zipWith_cons_cons, List.flatten_cons, expand_cons, List.map_append, List.map_map]
      congr 1
      · refine List.map_congr_left fun j hj => ?_
        simp only [Function.comp, Cell.child_parent, Cell.child_octant a j (List.mem_range.1 hj)]
      · simpa [List.map_map] using ih
  unfold maxUnpool octreeMaxUnpool
  rw [Tensor.as_self]
  have hfl := hix.floor
  cases nempty with
  | false =>
    simp only [if_true, depad_map w (show d ≤ h by omega) y, List.length_map, ne_eq, not_true_eq_false, if_false, bind, Except.bind, hfl, pure,
      Except.pure, key, Bool.false_eq_true]
  | true =>
    simp only [if_true, List.length_map, ne_eq, not_true_eq_false, if_false, bind, Except.bind, hfl, pure,
      Except.pure, key, Bool.true_eq_false, depad_map w hd]

theorem upsample_eq {c : Nat} {nempty : Bool} {o : Octree F} {h d : Nat} (w : o.Valid h) (hd : d + 1 ≤ h) {x : List (Fin c → ℚ)}
    {f : Nat → Int → Int → Int → Fin c → ℚ} (hf : IsField (qc o nempty d) x f) :
    upsample nempty o d ⟨c, x⟩ = .ok ⟨c, (qc o nempty (d + 1)).map fun q => fieldAt f q.parent⟩ := by
  have W := w.wf'
  have e := queried_qc w d (by omega) nempty _ _ (W.cellsOf d (by omega)) (W.children d (by omega))
  have e' := queried_qc w (d + 1) hd nempty _ _ (W.cellsOf _ hd) (W.children _ hd)
  rw [← e] at hf
  have := C52_nearest_upsample o h w d hd nempty _ _ _ _ (W.cellsOf d (by omega)) (W.children d (by omega)) (W.cellsOf _ hd) (W.children _ hd) x f hf
  unfold upsample octreeUpsample
  simp only [pyAssert, bind, Except.bind, if_true, Option.getD]
  simp [this, e', pure, Except.pure, bind, Except.bind]

theorem globalPool_eq {c : Nat} {nempty : Bool} {o : Octree F} {h d : Nat} (w : o.Valid h) (hd : d ≤ h) {x : List (Fin c → ℚ)}
    (hx : x.length = (qc o nempty d).length) :
    globalPool nempty o d ⟨c, x⟩ = .ok ⟨c, (List.range o.batchSize).map fun b => fun i =>
      if rowsOf (qc o nempty d) x b = [] then 0
      else ((rowsOf (qc o nempty d) x b).map fun v => v i).sum / ((rowsOf (qc o nempty d) x b).length : ℚ)⟩ := by
  have W := w.wf'
  have e := queried_qc w d hd nempty _ _ (W.cellsOf d hd) (W.children d hd)
  rw [← e] at hx ⊢
  unfold globalPool
  dsimp only
  rw [C47_global_pool o h w d hd nempty _ _ (W.cellsOf d hd) (W.children d hd) x hx]
  rfl

/-! ### the moved octree -/

/-- The non-empty nodes of `o'` from level `e` to level `D` are those of `o`, moved by `t` voxels of level `e`, with the samples in
another order. -/
structure Spec.Shifted (o o' : Octree F) (σ : Nat → Nat) (e : Nat) (t : Int × Int × Int) (D : Nat) : Prop where
  sample : Function.Injective σ
  size : o'.batchSize = o.batchSize
  range : ∀ b < o.batchSize, σ b < o.batchSize
  moved : ∀ d, e ≤ d → d ≤ D → ∀ cells ch cells' ch', CellsOf o.batchSize d o.keys cells → o.children d = some ch →
    CellsOf o'.batchSize d o'.keys cells' → o'.children d = some ch' →
    CellsMoved (shiftBy σ e t d) (nonEmpty cells ch) (nonEmpty cells' ch')

/-- Two octrees that are usable up to depth `D`, one the moved other. -/
structure MovedPair (o o' : Octree F) (σ : Nat → Nat) (e : Nat) (t : Int × Int × Int) (D : Nat) : Prop where
  valid : o.Valid D
  valid' : o'.Valid D
  neigh : ∀ d, 1 ≤ d → d ≤ D → NeighExact o.batchSize d o.keys o.neighs
  neigh' : ∀ d, 1 ≤ d → d ≤ D → NeighExact o'.batchSize d o'.keys o'.neighs
  shifted : Shifted o o' σ e t D

/-- One cell per sample. -/
def sampleCells (B : Nat) : List Cell := (List.range B).map fun b => ⟨b, 0, 0, 0⟩

theorem sampleCells_nodup (B : Nat) : (sampleCells B).Nodup := by
  refine List.Nodup.map ?_ List.nodup_range
  intro a b e
  exact congrArg Cell.b e

/-- The tensors of the run on `o` (second argument of `R`) and of the run on the moved octree (first argument). -/
def movedSys (o o' : Octree F) (σ : Nat → Nat) (e : Nat) (t : Int × Int × Int) : Sys where
  Idx := List Cell × List Cell × Motion
  ht nempty d := (qc o nempty d, qc o' nempty d, shiftBy σ e t d)
  hb := (sampleCells o.batchSize, sampleCells o.batchSize, reorder σ)
  R r c x y := ∃ u v, x = ⟨c, u⟩ ∧ y = ⟨c, v⟩ ∧ Moved r.2.2 r.1 v r.2.1 u ∧ r.1.Nodup ∧ r.2.1.Nodup ∧ r.2.2.Legal
  ok _ := True
  lo nempty := if nempty then e else e + 1
  vox := False
  map := by
    rintro r c c' x y g ⟨u, v, rfl, rfl, h, hn⟩
    exact ⟨u, v, rfl, rfl, _, _, rfl, rfl, h.map g, hn⟩
  zip := by
    rintro r a b c x y x' y' g ⟨u, v, rfl, rfl, h, hn, hn', hm⟩ ⟨u', v', rfl, rfl, h', -⟩
    refine ⟨u, v, u', v', rfl, rfl, rfl, rfl, ?_, ?_, _, _, rfl, rfl, h.zipWith hn' h' g, hn, hn', hm⟩
    · rw [← h.2.1, ← h'.2.1]
    · rw [← h.1, ← h'.1]

namespace MovedPair
variable {o o' : Octree F} {σ : Nat → Nat} {e : Nat} {t : Int × Int × Int} {D : Nat}

theorem nonEmpty_moved (p : MovedPair o o' σ e t D) {d : Nat} (h1 : e ≤ d) (h2 : d ≤ D) :
    CellsMoved (shiftBy σ e t d) (qc o true d) (qc o' true d) := by
  have W := p.valid.wf'
  have W' := p.valid'.wf'
  have := p.shifted.moved d h1 h2 _ _ _ _ (W.cellsOf d h2) (W.children d h2) (W'.cellsOf d h2) (W'.children d h2)
  rw [nonEmpty_eq _ _ _ (W.len d h2), nonEmpty_eq _ _ _ (W'.len d h2)] at this
  exact this

theorem cells (p : MovedPair o o' σ e t D) {d : Nat} {nempty : Bool} (h : (movedSys o o' σ e t).lo nempty ≤ d ∧ d ≤ D) :
    CellsMoved (shiftBy σ e t d) (qc o nempty d) (qc o' nempty d) := by
  obtain ⟨h1, h2⟩ := h
  cases nempty with
  | true => exact p.nonEmpty_moved h1 h2
  | false =>
    have h1 : e + 1 ≤ d := h1
    obtain ⟨d, rfl⟩ : ∃ k, d = k + 1 := ⟨d - 1, by omega⟩
    obtain ⟨a, b⟩ := p.nonEmpty_moved (show e ≤ d by omega) (by omega)
    rw [qc_succ, qc_succ]
    refine ⟨by rw [expand_length, expand_length, a], fun c hc => ?_⟩
    obtain ⟨q, hq, j, hj, rfl⟩ := (mem_expand _ _ _ _).1 hc
    obtain ⟨q', hq', hmv⟩ := b q hq
    exact ⟨q'.child j, (mem_expand _ _ _ _).2 ⟨q', hq', j, hj, rfl⟩, child_moves (by omega) hmv j⟩

theorem lo_le (h : (movedSys o o' σ e t).lo nempty ≤ d) : e ≤ d := by
  cases nempty
  · have h : e + 1 ≤ d := h
    omega
  · exact h

theorem legal (p : MovedPair o o' σ e t D) (d : Nat) : (shiftBy σ e t d).Legal := shiftBy_legal p.shifted.sample e t d

theorem back (p : MovedPair o o' σ e t D) {d : Nat} (h1 : e ≤ d) (h2 : d ≤ D) {c c' : Cell} (hm : (shiftBy σ e t d).Moves c c') :
    c ∈ qc o true d ↔ c' ∈ qc o' true d := by
  have h := p.nonEmpty_moved h1 h2
  constructor
  · intro hc
    obtain ⟨c'', a, b⟩ := h.2 c hc
    rwa [Moves.unique b hm] at a
  · intro hc
    have hM : Moved (shiftBy σ e t d) (qc o true d) ((qc o true d).map fun _ => ()) (qc o' true d) ((qc o' true d).map fun _ => ()) :=
      cellsMoved_map h _ _ fun _ _ _ _ _ => rfl
    obtain ⟨c₁, a, b⟩ := hM.back (p.legal d) (qc_nodup p.valid d h2 true) (qc_nodup p.valid' d h2 true) c' hc
    rwa [Moves.inj (p.legal d) b hm] at a

/-- Functions of the cells give related tensors. -/
theorem mk_map (p : MovedPair o o' σ e t D) {d c : Nat} {nempty : Bool} (h : (movedSys o o' σ e t).lo nempty ≤ d ∧ d ≤ D)
    (g g' : Cell → Fin c → ℚ) (hg : ∀ q ∈ qc o nempty d, ∀ q' ∈ qc o' nempty d, (shiftBy σ e t d).Moves q q' → g q = g' q') :
    (movedSys o o' σ e t).R ((movedSys o o' σ e t).ht nempty d) c ⟨c, (qc o' nempty d).map g'⟩ ⟨c, (qc o nempty d).map g⟩ :=
  ⟨_, _, rfl, rfl, cellsMoved_map (p.cells h) g g' hg, qc_nodup p.valid d h.2 nempty, qc_nodup p.valid' d h.2 nempty, p.legal d⟩

theorem turned_refl {W : Type} (σ : Nat → Nat) (e : Nat) (t : Int × Int × Int) (d : Nat) (offs : List (Int × Int × Int)) (ws : List W) :
    Turned (shiftBy σ e t d) offs ws ws := by
  unfold Turned shiftBy
  simp

/-- related tensors as functions of the cells -/
theorem elim_map (p : MovedPair o o' σ e t D) {d c : Nat} {nempty : Bool} (hd : d ≤ D) {x y : Tensor}
    (h : (movedSys o o' σ e t).R ((movedSys o o' σ e t).ht nempty d) c x y) :
    ∃ g' g : Cell → Fin c → ℚ, x = ⟨c, (qc o' nempty d).map g'⟩ ∧ y = ⟨c, (qc o nempty d).map g⟩ ∧
      ∀ q q', (shiftBy σ e t d).Moves q q' → g q = g' q' := by
  obtain ⟨u, v, rfl, rfl, hM, hn, hn', hm⟩ := h
  have hM : Moved (shiftBy σ e t d) (qc o nempty d) v (qc o' nempty d) u := hM
  refine ⟨rowAt (qc o' nempty d) u 0, rowAt (qc o nempty d) v 0, ?_, ?_, fun q q' hq => hM.rowAt hm hn hn' 0 hq⟩
  · have := rowAt_map (A := qc o' nempty d) hn' hM.2.1 0
    rw [this]
  · have := rowAt_map (A := qc o nempty d) hn hM.1 0
    rw [this]

theorem conv3 (p : MovedPair o o' σ e t D) (P : Params) (name : String) {ci : Nat} (co : Nat) {nempty : Bool} {d : Nat} (h1 : 1 ≤ d)
    (hD : (movedSys o o' σ e t).lo nempty ≤ d ∧ d ≤ D) (hc : 27 * ci ≤ maxBuffer) {x y : Tensor}
    (h : (movedSys o o' σ e t).R ((movedSys o o' σ e t).ht nempty d) ci x y) :
    Both ((movedSys o o' σ e t).R ((movedSys o o' σ e t).ht nempty d) co) (octreeConv P name ci co [3] 1 nempty o' d x)
      (octreeConv P name ci co [3] 1 nempty o d y) := by
  obtain ⟨u, v, rfl, rfl, hM, hn, hn', hm⟩ := h
  obtain ⟨f, hf⟩ := exists_field _ v hM.1 hn
  obtain ⟨f', hf'⟩ := exists_field _ u hM.2.1 hn'
  rw [conv3_eq P name co p.valid hD.2 (p.neigh d h1 hD.2) hc hf, conv3_eq P name co p.valid' hD.2 (p.neigh' d h1 hD.2) hc hf']
  refine Both.pure (p.mk_map hD _ _ fun q _ q' _ hq => ?_)
  rw [hM.convAt hm hn hn' hf hf' _ _ _ (turned_refl σ e t d _ _) hq]

theorem conv2 (p : MovedPair o o' σ e t D) (P : Params) (name : String) {ci : Nat} (co : Nat) {nempty : Bool} {d : Nat}
    (hD : (movedSys o o' σ e t).lo nempty ≤ d ∧ d + 1 ≤ D) (hc : 8 * ci ≤ maxBuffer) {x y : Tensor}
    (h : (movedSys o o' σ e t).R ((movedSys o o' σ e t).ht nempty (d + 1)) ci x y) :
    Both ((movedSys o o' σ e t).R ((movedSys o o' σ e t).ht nempty d) co) (octreeConv P name ci co [2] 2 nempty o' (d + 1) x)
      (octreeConv P name ci co [2] 2 nempty o (d + 1) y) := by
  obtain ⟨u, v, rfl, rfl, hM, hn, hn', hm⟩ := h
  obtain ⟨f, hf⟩ := exists_field _ v hM.1 hn
  obtain ⟨f', hf'⟩ := exists_field _ u hM.2.1 hn'
  have he := lo_le hD.1
  rw [conv2_eq P name co p.valid hD.2 (p.neigh _ (by omega) hD.2) hc hf, conv2_eq P name co p.valid' hD.2 (p.neigh' _ (by omega) hD.2) hc hf']
  refine Both.pure (p.mk_map ⟨hD.1, by omega⟩ _ _ fun q _ q' _ hq => ?_)
  simp only [p.back he (by omega) hq]
  have := hM.convAt hm hn hn' hf hf' _ _ _ (turned_refl σ e t (d + 1) (kernelOffsets (2, 2, 2)) (convWeights P name 8 ci co)) (child_moves he hq 0)
  rw [child_zero, child_zero] at this
  rw [this]

theorem isShift_moves {m : Motion} (hm : m.Legal) (hl : m.lin = id) {a a' b b' : Cell} (ha : m.Moves a a') (hb : m.Moves b b')
    (g : Int × Int × Int) : IsShift a b g ↔ IsShift a' b' g := by
  have e1 : ∀ c c' : Cell, IsShift c c' g ↔ c'.b = c.b ∧ pos c' = pos c + g := by
    intro c c'
    unfold IsShift pos
    simp only [Prod.ext_iff, Prod.fst_add, Prod.snd_add]
  rw [e1, e1, ha.1, hb.1, ha.2, hb.2, hl]
  constructor
  · rintro ⟨h1, h2⟩
    refine ⟨by rw [h1], ?_⟩
    simp only [id]
    rw [h2]
    abel
  · rintro ⟨h1, h2⟩
    refine ⟨hm.sample h1, ?_⟩
    simp only [id] at h2
    have : pos b + m.shift = (pos a + g) + m.shift := by rw [h2]; abel
    exact add_right_cancel this

theorem deconv2 (p : MovedPair o o' σ e t D) (P : Params) (name : String) (ci : Nat) {co : Nat} {nempty : Bool} {d : Nat}
    (hD : (movedSys o o' σ e t).lo nempty ≤ d ∧ d + 1 ≤ D) (hc : 8 * co ≤ maxBuffer) {x y : Tensor}
    (h : (movedSys o o' σ e t).R ((movedSys o o' σ e t).ht nempty d) ci x y) :
    Both ((movedSys o o' σ e t).R ((movedSys o o' σ e t).ht nempty (d + 1)) co) (octreeDeconv P name ci co [2] 2 nempty o' d x)
      (octreeDeconv P name ci co [2] 2 nempty o d y) := by
  obtain ⟨g', g, rfl, rfl, hg⟩ := p.elim_map (by omega) h
  have he := lo_le hD.1
  rw [deconv2_eq P name ci p.valid hD.2 (p.neigh _ (by omega) hD.2) hc, deconv2_eq P name ci p.valid' hD.2 (p.neigh' _ (by omega) hD.2) hc]
  refine Both.pure (p.mk_map ⟨by have := hD.1; omega, hD.2⟩ _ _ fun q _ q' _ hq => ?_)
  have hM : Moved (shiftBy σ e t d) (qc o true d) ((qc o true d).map g) (qc o' true d) ((qc o' true d).map g') :=
    cellsMoved_map (p.nonEmpty_moved he (by omega)) _ _ fun a _ b _ hab => hg a b hab
  obtain ⟨m, hm1, hm2⟩ := hM.perm (p.legal d) (qc_nodup p.valid d (by omega) true) (qc_nodup p.valid' d (by omega) true)
  congr 1
  have z : ∀ (A : List Cell) (x : List (Fin ci → ℚ)) (q : Cell), deconvAt (A.map firstChild) x (kernelOffsets (2, 2, 2)) (convWeights P name 8 co ci) q
      = ((A.zip x).map fun r => (List.zipWith (fun g w => if IsShift (firstChild r.1) q g then vecMatT r.2 w else 0) (kernelOffsets (2, 2, 2))
        (convWeights P name 8 co ci)).sum).sum := by
    intro A x q
    unfold deconvAt
    rw [List.zipWith_map_left, List.map_zip_eq_zipWith]
    rfl
  rw [z, z, ← (hm2.map _).sum_eq, List.map_map]
  congr 1
  refine List.map_congr_left fun r hr => ?_
  have := isShift_moves (p.legal (d + 1)) rfl (child_moves he (hm1 r.1 (List.of_mem_zip hr).1) 0) hq
  simp only [Function.comp]
  congr 2
  funext g w
  exact if_congr (this g) rfl rfl

theorem maxPoolIdx (p : MovedPair o o' σ e t D) {c : Nat} {nempty : Bool} {d : Nat}
    (hD : (movedSys o o' σ e t).lo nempty ≤ d ∧ d + 1 ≤ D) {x y : Tensor}
    (h : (movedSys o o' σ e t).R ((movedSys o o' σ e t).ht nempty (d + 1)) c x y) :
    Both (fun a b => (movedSys o o' σ e t).R ((movedSys o o' σ e t).ht nempty d) c a.1 b.1 ∧
        (movedSys o o' σ e t).R ((movedSys o o' σ e t).ht true d) c a.2 b.2)
      (maxPoolIdx nempty o' (d + 1) x) (maxPoolIdx nempty o (d + 1) y) := by
  obtain ⟨u, v, rfl, rfl, hM, hn, hn', hm⟩ := h
  have hM : Moved (shiftBy σ e t (d + 1)) (qc o nempty (d + 1)) v (qc o' nempty (d + 1)) u := hM
  have he := lo_le hD.1
  have hb : ∀ q q', (shiftBy σ e t d).Moves q q' → below (qc o nempty (d + 1)) v q = below (qc o' nempty (d + 1)) u q' := by
    intro q q' hq
    unfold below
    refine List.map_congr_left fun j _ => ?_
    exact (hM.map _).rowAt hm hn hn' _ (child_moves he hq j)
  rw [maxPoolIdx_eq p.valid hD.2 v hM.1.symm, maxPoolIdx_eq p.valid' hD.2 u hM.2.1.symm]
  refine Both.pure ⟨p.mk_map ⟨hD.1, by omega⟩ _ _ fun q _ q' _ hq => ?_, p.mk_map (nempty := true) ⟨he, by omega⟩ _ _ fun q _ q' _ hq => ?_⟩
  · simp only [p.back he (by omega) hq, hb q q' hq]
  · simp only [hb q q' hq]

theorem isIdx {c : Nat} {r : (movedSys o o' σ e t).Idx} {x y : Tensor} (h : (movedSys o o' σ e t).R r c x y) (hx : IsIdx x) : IsIdx y := by
  obtain ⟨u, v, rfl, rfl, hM, -⟩ := h
  intro w hw j
  obtain ⟨i, hi⟩ := List.mem_iff_getElem?.1 hw
  have hlt : i < r.1.length := by have : i < v.length := (List.getElem?_eq_some_iff.1 hi).1; have := hM.1; omega
  obtain ⟨k, -, -, -, hk⟩ := hM.2.2.2 i _ w (List.getElem?_eq_getElem hlt) hi
  exact hx w (List.mem_of_getElem? hk) j

theorem unpoolT (p : MovedPair o o' σ e t D) {c : Nat} {nempty : Bool} {d : Nat}
    (hD : (movedSys o o' σ e t).lo nempty ≤ d ∧ d + 1 ≤ D) {x y ix ix' : Tensor}
    (h : (movedSys o o' σ e t).R ((movedSys o o' σ e t).ht nempty d) c x y)
    (hi : (movedSys o o' σ e t).R ((movedSys o o' σ e t).ht true d) c ix ix') (hs : IsIdx ix) :
    Both ((movedSys o o' σ e t).R ((movedSys o o' σ e t).ht nempty (d + 1)) c) (maxUnpool nempty o' d ix x) (maxUnpool nempty o d ix' y) := by
  have hs' := isIdx hi hs
  have he := lo_le hD.1
  obtain ⟨g', g, rfl, rfl, hg⟩ := p.elim_map (by omega) h
  obtain ⟨k', k, rfl, rfl, hk⟩ := p.elim_map (by omega) hi
  rw [unpool_eq p.valid hD.2 g k hs', unpool_eq p.valid' hD.2 g' k' hs]
  refine Both.pure (p.mk_map ⟨by have := hD.1; omega, hD.2⟩ _ _ fun q _ q' _ hq => ?_)
  obtain ⟨h1, h2⟩ := parent_moves he hq
  rw [hg _ _ h1, hk _ _ h1, h2]

theorem upsampleT (p : MovedPair o o' σ e t D) {c : Nat} {nempty : Bool} {d : Nat}
    (hD : (movedSys o o' σ e t).lo nempty ≤ d ∧ d + 1 ≤ D) {x y : Tensor}
    (h : (movedSys o o' σ e t).R ((movedSys o o' σ e t).ht nempty d) c x y) :
    Both ((movedSys o o' σ e t).R ((movedSys o o' σ e t).ht nempty (d + 1)) c) (upsample nempty o' d x) (upsample nempty o d y) := by
  obtain ⟨u, v, rfl, rfl, hM, hn, hn', hm⟩ := h
  obtain ⟨f, hf⟩ := exists_field _ v hM.1 hn
  obtain ⟨f', hf'⟩ := exists_field _ u hM.2.1 hn'
  have he := lo_le hD.1
  rw [upsample_eq p.valid hD.2 hf, upsample_eq p.valid' hD.2 hf']
  refine Both.pure (p.mk_map ⟨by have := hD.1; omega, hD.2⟩ _ _ fun q _ q' _ hq => ?_)
  obtain ⟨h1, -⟩ := parent_moves he hq
  have := hM.field hm hn hn' hf hf' q.parent.b (pos q.parent) (pos q'.parent) h1.2
  unfold fieldAt
  rw [h1.1]
  exact this.symm

theorem depadT (p : MovedPair o o' σ e t D) {c : Nat} {d : Nat} (hD : (movedSys o o' σ e t).lo false ≤ d ∧ d ≤ D) {x y : Tensor}
    (h : (movedSys o o' σ e t).R ((movedSys o o' σ e t).ht false d) c x y) :
    Both ((movedSys o o' σ e t).R ((movedSys o o' σ e t).ht true d) c) (depad o' d x) (depad o d y) := by
  obtain ⟨g', g, rfl, rfl, hg⟩ := p.elim_map hD.2 h
  have he := lo_le hD.1
  unfold depad
  dsimp only
  rw [depad_map p.valid hD.2, depad_map p.valid' hD.2]
  exact Both.pure (p.mk_map (nempty := true) ⟨he, hD.2⟩ _ _ fun q _ q' _ hq => hg q q' hq)

theorem sampleCells_moved (p : MovedPair o o' σ e t D) : CellsMoved (reorder σ) (sampleCells o.batchSize) (sampleCells o.batchSize) := by
  refine ⟨rfl, fun c hc => ?_⟩
  obtain ⟨b, hb, rfl⟩ := List.mem_map.1 hc
  exact ⟨⟨σ b, 0, 0, 0⟩, List.mem_map.2 ⟨σ b, List.mem_range.2 (p.shifted.range b (List.mem_range.1 hb)), rfl⟩, rfl, rfl⟩

theorem globalPool (p : MovedPair o o' σ e t D) {c : Nat} {nempty : Bool} {d : Nat}
    (hD : (movedSys o o' σ e t).lo nempty ≤ d ∧ d ≤ D) {x y : Tensor}
    (h : (movedSys o o' σ e t).R ((movedSys o o' σ e t).ht nempty d) c x y) :
    Both ((movedSys o o' σ e t).R (movedSys o o' σ e t).hb c) (globalPool nempty o' d x) (globalPool nempty o d y) := by
  obtain ⟨u, v, rfl, rfl, hM, hn, hn', hm⟩ := h
  have hM : Moved (shiftBy σ e t d) (qc o nempty d) v (qc o' nempty d) u := hM
  rw [globalPool_eq p.valid hD.2 hM.1.symm, globalPool_eq p.valid' hD.2 hM.2.1.symm, p.shifted.size]
  obtain ⟨m, hm1, hm2⟩ := hM.perm hm hn hn'
  have hr : ∀ b, (rowsOf (qc o nempty d) v b).Perm (rowsOf (qc o' nempty d) u (σ b)) := by
    intro b
    unfold rowsOf
    refine List.Perm.trans ?_ ((hm2.filter _).map _)
    rw [List.filter_map, List.map_map]
    refine List.Perm.of_eq ?_
    have : ((qc o nempty d).zip v).filter (fun q => decide (q.1.b = b))
        = ((qc o nempty d).zip v).filter ((fun q : Cell × (Fin c → ℚ) => decide (q.1.b = σ b)) ∘ fun q => (m q.1, q.2)) := by
      refine List.filter_congr fun q hq => ?_
      have hb := (hm1 q.1 (List.of_mem_zip hq).1).1
      have hb : (m q.1).b = σ q.1.b := hb
      simp only [Function.comp, hb, p.shifted.sample.eq_iff]
    rw [this]
    rfl
  have hR : ∀ (B : Nat) (G : Nat → Fin c → ℚ), (List.range B).map G = (sampleCells B).map fun q => G q.b := by
    intro B G
    unfold sampleCells
    rw [List.map_map]
    rfl
  rw [hR, hR]
  refine Both.pure ⟨_, _, rfl, rfl, cellsMoved_map p.sampleCells_moved _ _ fun q _ q' _ hq => ?_, sampleCells_nodup _, sampleCells_nodup _,
    reorder_legal σ p.shifted.sample⟩
  funext i
  have hb : q'.b = σ q.b := hq.1
  have hp := hr q.b
  rw [← hb] at hp
  have e1 : rowsOf (qc o nempty d) v q.b = [] ↔ rowsOf (qc o' nempty d) u q'.b = [] :=
    ⟨fun h => by rw [h] at hp; exact hp.nil_eq.symm, fun h => by rw [h] at hp; exact hp.eq_nil⟩
  simp only [e1, hp.length_eq, (hp.map fun v => v i).sum_eq]

theorem layers (p : MovedPair o o' σ e t D) {P : Params} (hP : P.training = false) : Layers P P (movedSys o o' σ e t) o' o D where
  conv3 := fun name {_} co {_ _} h1 hD hc {_ _} h => p.conv3 P name co h1 hD hc h
  conv2 := fun name {_} co {_ _} hD hc {_ _} h => p.conv2 P name co hD hc h
  deconv2 := fun name ci {_ _ _} hD hc {_ _} h => p.deconv2 P name ci hD hc h
  maxPoolIdx := fun {_ _ _} hD {_ _} h => p.maxPoolIdx hD h
  globalPool := fun {_ _ _} hD {_ _} h => p.globalPool hD h
  upsampleT := fun {_ _ _} hD {_ _} h => p.upsampleT hD h
  depadT := fun {_ _} hD {_ _} h => p.depadT hD h
  unpoolT := fun {_ _ _} _ hD {_ _ _ _} h hi hs => p.unpoolT hD h hi hs
  voxelFlat := fun h => h.elim
  bn := by
    intro name c r _ x y h
    obtain ⟨u, v, rfl, rfl, h2⟩ := (movedSys o o' σ e t).map (c' := c)
      (fun v i => (v i - P.bnMean name i) / P.rt (P.bnVar name i + 1 / 100000) * P.bnWeight name i + P.bnBias name i) h
    unfold batchNorm
    rw [Tensor.on_self, Tensor.on_self]
    simp only [hP, Bool.false_eq_true, if_false]
    exact Both.pure h2
  drop := by
    intro name c x y _ h
    unfold dropout
    simpa [hP] using h

/-! ### interpolation -/

theorem emod_shift {n a s w : Int} (hw : 0 < n) (h : 0 ≤ w) (h' : w < n) (e : w = a % n + s) : w = (a + s) % n := by
  have : (a + s) % n = w % n := by rw [e, Int.emod_add_emod]
  rw [this, Int.emod_eq_of_lt h h']

/-- A lookup modulo `2^d` finds a node if and only if the moved lookup finds the moved node. -/
theorem torus_moves (p : MovedPair o o' σ e t D) {d : Nat} {nempty : Bool} (hD : (movedSys o o' σ e t).lo nempty ≤ d ∧ d ≤ D) (b : Nat)
    (x y z : Int) :
    (torusCell d b x y z ∈ qc o nempty d ∨
      torusCell d (σ b) (x + 2 ^ (d - e) * t.1) (y + 2 ^ (d - e) * t.2.1) (z + 2 ^ (d - e) * t.2.2) ∈ qc o' nempty d) →
    (shiftBy σ e t d).Moves (torusCell d b x y z)
        (torusCell d (σ b) (x + 2 ^ (d - e) * t.1) (y + 2 ^ (d - e) * t.2.1) (z + 2 ^ (d - e) * t.2.2)) ∧
      torusCell d b x y z ∈ qc o nempty d ∧
      torusCell d (σ b) (x + 2 ^ (d - e) * t.1) (y + 2 ^ (d - e) * t.2.1) (z + 2 ^ (d - e) * t.2.2) ∈ qc o' nempty d := by
  have hM : Moved (shiftBy σ e t d) (qc o nempty d) ((qc o nempty d).map fun _ => ()) (qc o' nempty d) ((qc o' nempty d).map fun _ => ()) :=
    cellsMoved_map (p.cells hD) _ _ fun _ _ _ _ _ => rfl
  have hpos : (0 : Int) < 2 ^ d := by positivity
  have up : ∀ v : Nat, v < 2 ^ d → (v : Int) < 2 ^ d := by intro v hv; exact_mod_cast hv
  rintro (h | h)
  · obtain ⟨c', hc', hmv⟩ := (p.cells hD).2 _ h
    have hr := qc_inRange p.valid' d hD.2 nempty c' hc'
    obtain ⟨-, r1, r2, r3⟩ := hr
    have hmv' := hmv
    rw [shiftBy_iff] at hmv'
    obtain ⟨e0, e1, e2, e3⟩ := hmv'
    simp only [torusCell, wrap_toNat] at e0 e1 e2 e3
    have : c' = torusCell d (σ b) (x + 2 ^ (d - e) * t.1) (y + 2 ^ (d - e) * t.2.1) (z + 2 ^ (d - e) * t.2.2) := by
      unfold torusCell
      rw [← emod_shift hpos (Int.natCast_nonneg _) (up _ r1) e1, ← emod_shift hpos (Int.natCast_nonneg _) (up _ r2) e2,
        ← emod_shift hpos (Int.natCast_nonneg _) (up _ r3) e3, ← e0]
      rfl
    rw [this] at hmv hc'
    exact ⟨hmv, h, hc'⟩
  · obtain ⟨c, hc, hmv⟩ := hM.back (p.legal d) (qc_nodup p.valid d hD.2 nempty) (qc_nodup p.valid' d hD.2 nempty) _ h
    have hr := qc_inRange p.valid d hD.2 nempty c hc
    obtain ⟨-, r1, r2, r3⟩ := hr
    have hmv' := hmv
    rw [shiftBy_iff] at hmv'
    obtain ⟨e0, e1, e2, e3⟩ := hmv'
    simp only [torusCell, wrap_toNat] at e0 e1 e2 e3
    have e0 := p.shifted.sample e0
    have k : ∀ (v : Nat) (a s : Int), v < 2 ^ d → (a + s) % 2 ^ d = (v : Int) + s → (v : Int) = a % 2 ^ d := by
      intro v a s hv he
      have := emod_shift (s := -s) hpos (Int.natCast_nonneg v) (up _ hv) (a := a + s) (by omega)
      rwa [show a + s + -s = a by ring] at this
    have : c = torusCell d b x y z := by
      unfold torusCell
      rw [← k _ _ _ r1 e1, ← k _ _ _ r2 e2, ← k _ _ _ r3 e3, e0]
      rfl
    rw [this] at hmv hc
    exact ⟨hmv, hc, h⟩

theorem field_out {V : Type} [Zero V] {A : List Cell} {x : List V} {f : Nat → Int → Int → Int → V} (hf : IsField A x f) {c : Cell} (hc : c ∉ A) :
    fieldAt f c = 0 := by
  refine hf.2.2 _ _ _ _ fun q hq h => hc ?_
  obtain ⟨h1, h2, h3, h4⟩ := h
  have : q = c := by
    cases q; cases c
    simp only [Nat.cast_inj] at h1 h2 h3 h4
    subst h1 h2 h3 h4
    rfl
  rwa [← this]

theorem torus_value (p : MovedPair o o' σ e t D) {d : Nat} {nempty : Bool} (hD : (movedSys o o' σ e t).lo nempty ≤ d ∧ d ≤ D) {c : Nat}
    {u v : List (Fin c → ℚ)} {f f' : Nat → Int → Int → Int → Fin c → ℚ} (hM : Moved (shiftBy σ e t d) (qc o nempty d) v (qc o' nempty d) u)
    (hf : IsField (qc o nempty d) v f) (hf' : IsField (qc o' nempty d) u f') (b : Nat) (x y z : Int) :
    fieldAt f' (torusCell d (σ b) (x + 2 ^ (d - e) * t.1) (y + 2 ^ (d - e) * t.2.1) (z + 2 ^ (d - e) * t.2.2)) =
      fieldAt f (torusCell d b x y z) := by
  have key := p.torus_moves hD b x y z
  by_cases h : torusCell d b x y z ∈ qc o nempty d ∨
      torusCell d (σ b) (x + 2 ^ (d - e) * t.1) (y + 2 ^ (d - e) * t.2.1) (z + 2 ^ (d - e) * t.2.2) ∈ qc o' nempty d
  · obtain ⟨hmv, -, -⟩ := key h
    exact hM.field (p.legal d) (qc_nodup p.valid d hD.2 nempty) (qc_nodup p.valid' d hD.2 nempty) hf hf' b _ _ hmv.2
  · rw [not_or] at h
    rw [field_out hf h.1, field_out hf' h.2]

theorem torus_found (p : MovedPair o o' σ e t D) {d : Nat} {nempty : Bool} (hD : (movedSys o o' σ e t).lo nempty ≤ d ∧ d ≤ D) (b : Nat)
    (x y z : Int) :
    found (qc o' nempty d) false d (σ b) (x + 2 ^ (d - e) * t.1, y + 2 ^ (d - e) * t.2.1, z + 2 ^ (d - e) * t.2.2) =
      found (qc o nempty d) false d b (x, y, z) := by
  have key := p.torus_moves hD b x y z
  unfold found lookup
  simp only [Bool.false_eq_true, false_and, if_false]
  refine decide_eq_decide.2 ⟨fun h => (key (.inr h)).2.1, fun h => (key (.inl h)).2.2⟩

theorem scale_shift {e d : Nat} (h : e ≤ d) (v : ℚ) (t : Int) :
    (v + t * (2 / 2 ^ e) + 1) * (2 ^ ((d : ℤ) - 1) : ℚ) = (v + 1) * (2 ^ ((d : ℤ) - 1) : ℚ) + ((2 ^ (d - e) * t : Int) : ℚ) := by
  obtain ⟨k, rfl⟩ := Nat.exists_eq_add_of_le h
  have h2 : (2 : ℚ) ≠ 0 := by norm_num
  have e1 : (2 : ℚ) ^ (((e + k : Nat) : ℤ) - 1) = 2 ^ e * 2 ^ k / 2 := by
    rw [zpow_sub₀ h2, zpow_natCast, pow_add, zpow_one]
  rw [e1, show e + k - e = k by omega]
  have : (2 : ℚ) ^ e ≠ 0 := by positivity
  push_cast
  field_simp
  ring

theorem queries (p : MovedPair o o' σ e t D) (qs : List (V3 ℚ × Nat)) (hb : ∀ q ∈ qs, q.2 < o.batchSize)
    (hi : ∀ q ∈ qs, InCube q.1 ∧ InCube (shiftPoint e t q.1)) :
    Queries (movedSys o o' σ e t) o' o D ((qs.map fun q => (shiftPoint e t q.1, σ q.2)).map row4) (qs.map row4)
      (sampleCells qs.length, sampleCells qs.length, reorder id) := by
  intro method nempty d c hD x y h
  obtain ⟨u, v, rfl, rfl, hM, hn, hn', hm⟩ := h
  have hM : Moved (shiftBy σ e t d) (qc o nempty d) v (qc o' nempty d) u := hM
  obtain ⟨f, hf⟩ := exists_field _ v hM.1 hn
  obtain ⟨f', hf'⟩ := exists_field _ u hM.2.1 hn'
  have hd := hD.2
  have w := p.valid
  have w' := p.valid'
  have Q := queried_qc w d hd nempty _ _ (w.wf'.cellsOf d hd) (w.wf'.children d hd)
  have Q' := queried_qc w' d hd nempty _ _ (w'.wf'.cellsOf d hd) (w'.wf'.children d hd)
  have hf0 : IsField (qc o nempty d) v f := hf
  have hf0' : IsField (qc o' nempty d) u f' := hf'
  have hf : IsField (qc o nempty d) v f := hf
  have hf' : IsField (qc o' nempty d) u f' := hf'
  rw [← Q] at hf0
  rw [← Q'] at hf0'
  have hB := w.batch_le
  have he := lo_le hD.1
  unfold interp octreeInterp interpFunc
  dsimp only
  rw [if_pos rfl, if_pos rfl, interp_pts, interp_pts]
  have hq : ∀ q ∈ (qs.map fun q : V3 ℚ × Nat => (q.1.map fun v => (v + 1) * (2 ^ ((d : ℤ) - 1) : ℚ), q.2)), q.2 < 2 ^ 15 := by
    intro q hqm
    obtain ⟨q', h1, rfl⟩ := List.mem_map.1 hqm
    have := hb q' h1
    show q'.2 < 2 ^ 15
    omega
  have hq' : ∀ q ∈ ((qs.map fun q => (shiftPoint e t q.1, σ q.2)).map fun q : V3 ℚ × Nat => (q.1.map fun v => (v + 1) * (2 ^ ((d : ℤ) - 1) : ℚ), q.2)),
      q.2 < 2 ^ 15 := by
    intro q hqm
    obtain ⟨q', h1, rfl⟩ := List.mem_map.1 hqm
    obtain ⟨q'', h2, rfl⟩ := List.mem_map.1 h1
    have := p.shifted.range _ (hb q'' h2)
    show σ q''.2 < 2 ^ 15
    omega
  have fin : ∀ (G' G : V3 ℚ × Nat → Fin c → ℚ),
      (∀ q ∈ qs, G' ((shiftPoint e t q.1).map fun v => (v + 1) * (2 ^ ((d : ℤ) - 1) : ℚ), σ q.2) =
        G (q.1.map fun v => (v + 1) * (2 ^ ((d : ℤ) - 1) : ℚ), q.2)) →
      (movedSys o o' σ e t).R (sampleCells qs.length, sampleCells qs.length, reorder id) c
        ⟨c, ((qs.map fun q => (shiftPoint e t q.1, σ q.2)).map fun q : V3 ℚ × Nat => (q.1.map fun v => (v + 1) * (2 ^ ((d : ℤ) - 1) : ℚ), q.2)).map G'⟩
        ⟨c, (qs.map fun q : V3 ℚ × Nat => (q.1.map fun v => (v + 1) * (2 ^ ((d : ℤ) - 1) : ℚ), q.2)).map G⟩ := by
    intro G' G hG
    refine ⟨_, _, rfl, rfl, ?_, sampleCells_nodup _, sampleCells_nodup _, reorder_legal id Function.injective_id⟩
    simp only [List.map_map]
    refine ⟨by simp [sampleCells], by simp [sampleCells], rfl, ?_⟩
    intro i c v hi hv
    refine ⟨i, c, hi, ⟨rfl, by simp [reorder]⟩, ?_⟩
    rw [← hv]
    simp only [List.getElem?_map]
    cases hqi : qs[i]? with
    | none => rfl
    | some q =>
      simp only [Option.map_some, Function.comp]
      rw [← hG q (List.mem_of_getElem? hqi)]
  have fl : ∀ (v : ℚ) (s : Int), ⌊v + (s : ℚ) - 1 / 2⌋ = ⌊v - 1 / 2⌋ + s := by
    intro v s
    rw [← Int.floor_add_intCast]
    congr 1
    ring
  by_cases hmth : method = "linear"
  · rw [if_pos hmth, if_pos hmth,
      C53_linear o' D w' d hd _ _ (w'.wf'.cellsOf d hd) (w'.wf'.children d hd) nempty false _ f' hf0' _ hq',
      C53_linear o D w d hd _ _ (w.wf'.cellsOf d hd) (w.wf'.children d hd) nempty false _ f hf0 _ hq]
    refine Both.pure (fin _ _ fun q hqm => ?_)
    funext k
    dsimp only
    rw [Q, Q']
    have hcor : corners ((shiftPoint e t q.1).map fun v => (v + 1) * (2 ^ ((d : ℤ) - 1) : ℚ)) =
        (corners (q.1.map fun v => (v + 1) * (2 ^ ((d : ℤ) - 1) : ℚ))).map fun g =>
          (g.1 + 2 ^ (d - e) * t.1, g.2.1 + 2 ^ (d - e) * t.2.1, g.2.2 + 2 ^ (d - e) * t.2.2) := by
      unfold corners
      rw [List.map_map]
      refine List.map_congr_left fun r _ => ?_
      simp only [V3.map, shiftPoint, Function.comp, scale_shift he, fl]
      simp only [Prod.mk.injEq]
      refine ⟨?_, ?_, ?_⟩ <;> ring
    have htent : ∀ g : Int × Int × Int, tent3 ((shiftPoint e t q.1).map fun v => (v + 1) * (2 ^ ((d : ℤ) - 1) : ℚ))
          (g.1 + 2 ^ (d - e) * t.1, g.2.1 + 2 ^ (d - e) * t.2.1, g.2.2 + 2 ^ (d - e) * t.2.2) =
        tent3 (q.1.map fun v => (v + 1) * (2 ^ ((d : ℤ) - 1) : ℚ)) g := by
      intro g
      unfold tent3
      simp only [V3.map, shiftPoint, scale_shift he]
      congr 1
      · congr 1
        · congr 1; push_cast; ring
        · congr 1; push_cast; ring
      · congr 1; push_cast; ring
    have hval : ∀ g : Int × Int × Int, valueAt false d (σ q.2) f' (g.1 + 2 ^ (d - e) * t.1, g.2.1 + 2 ^ (d - e) * t.2.1, g.2.2 + 2 ^ (d - e) * t.2.2) =
        valueAt false d q.2 f g := by
      intro g
      have := p.torus_value hD hM hf hf' q.2 g.1 g.2.1 g.2.2
      unfold valueAt lookup
      simp only [Bool.false_eq_true, false_and, if_false]
      exact this
    rw [hcor, List.map_map, List.filter_map, List.map_map]
    simp only [Function.comp_def, htent, hval]
    have hfd : ∀ g : Int × Int × Int, found (qc o' nempty d) false d (σ q.2)
        (g.1 + 2 ^ (d - e) * t.1, g.2.1 + 2 ^ (d - e) * t.2.1, g.2.2 + 2 ^ (d - e) * t.2.2) = found (qc o nempty d) false d q.2 g :=
      fun g => p.torus_found hD q.2 g.1 g.2.1 g.2.2
    simp only [hfd]
  · rw [if_neg hmth, if_neg hmth,
      nearest_main o' D w' d hd _ _ (w'.wf'.cellsOf d hd) (w'.wf'.children d hd) nempty false _ f' hf0' _ hq',
      nearest_main o D w d hd _ _ (w.wf'.cellsOf d hd) (w.wf'.children d hd) nempty false _ f hf0 _ hq]
    refine Both.pure (fin _ _ fun q hqm => ?_)
    obtain ⟨h1, h2⟩ := hi q hqm
    simp only [Bool.false_eq_true, false_and, if_false]
    have hl : ∀ (v : ℚ) (s : Int), -1 ≤ v → -1 ≤ v + s * (2 / 2 ^ e) →
        long ((v + s * (2 / 2 ^ e) + 1) * (2 ^ ((d : ℤ) - 1) : ℚ)) = long ((v + 1) * (2 ^ ((d : ℤ) - 1) : ℚ)) + 2 ^ (d - e) * s := by
      intro v s h3 h4
      have hz : (0 : ℚ) < 2 ^ ((d : ℤ) - 1) := zpow_pos (by norm_num) _
      rw [long_of_nonneg _ (mul_nonneg (by linarith) hz.le), long_of_nonneg _ (mul_nonneg (by linarith) hz.le), scale_shift he, Int.floor_add_intCast]
    simp only [V3.map, shiftPoint] at h2 ⊢
    rw [hl _ _ h1.1.1 h2.1.1, hl _ _ h1.2.1.1 h2.2.1.1, hl _ _ h1.2.2.1 h2.2.2.1]
    exact p.torus_value hD hM hf hf' q.2 _ _ _

end MovedPair

end Ocnn
