import Verif.PropsPoolLevels
import Verif.PropsDense

/-! Property C138: down- and upsampling with kernel 2 is a linear layer on the blocks of eight rows that are stored one after
the other. -/

set_option linter.unusedSimpArgs false

namespace Ocnn
open Spec

variable {F R : Type}

/-- Block `j` of eight successive rows, joined to one row of `8 * ci` numbers, times the matrix of `8 * ci` rows that the
eight weight matrices form. -/
def Spec.blockTimes [CommSemiring R] {ci co : Nat} (x : List (Fin ci → R)) (ws : List (Fin ci → Fin co → R)) (j : Nat) : Fin co → R :=
  fun c => ∑ k : Fin 8, ∑ i : Fin ci, (x[8 * j + k]?.getD 0) i * (ws[(k : Nat)]?.getD 0) i c

theorem eight_list {α : Type} (l : List α) (h : l.length = 8) : ∃ a0 a1 a2 a3 a4 a5 a6 a7, l = [a0, a1, a2, a3, a4, a5, a6, a7] := by
  match l, h with
  | [a0, a1, a2, a3, a4, a5, a6, a7], _ => exact ⟨_, _, _, _, _, _, _, _, rfl⟩

theorem offsets2 : kernelOffsets (2, 2, 2) = [(0, 0, 0), (0, 0, 1), (0, 1, 0), (0, 1, 1), (1, 0, 0), (1, 0, 1), (1, 1, 0), (1, 1, 1)] := by decide

/-- A sum with at most one term that is not zero. -/
theorem zipWith_sum_single {A B V : Type} [AddCommMonoid V] (g : A → B → V) (as : List A) (bs : List B) (j : Nat) (a : A) (b : B)
    (ha : as[j]? = some a) (hb : bs[j]? = some b)
    (h0 : ∀ i, i ≠ j → ∀ a' b', as[i]? = some a' → bs[i]? = some b' → g a' b' = 0) : (List.zipWith g as bs).sum = g a b := by
  induction as generalizing bs j with
  | nil => simp at ha
  | cons a0 as ih =>
    cases bs with
    | nil => simp at hb
    | cons b0 bs =>
      rw [List.zipWith_cons_cons, List.sum_cons]
      cases j with
      | zero =>
        simp only [List.getElem?_cons_zero, Option.some.injEq] at ha hb
        subst ha hb
        have : (List.zipWith g as bs).sum = 0 := by
          apply List.sum_eq_zero
          intro v hv
          obtain ⟨i, hi⟩ := List.mem_iff_getElem?.1 hv
          rw [List.getElem?_zipWith] at hi
          cases h1 : as[i]? with
          | none => simp [h1] at hi
          | some a' =>
            cases h2 : bs[i]? with
            | none => simp [h1, h2] at hi
            | some b' =>
              simp only [h1, h2, Option.some.injEq] at hi
              rw [← hi]
              exact h0 (i + 1) (by omega) a' b' (by simpa using h1) (by simpa using h2)
        rw [this, add_zero]
      | succ j =>
        rw [h0 0 (by omega) a0 b0 rfl rfl, zero_add]
        exact ih bs j (by simpa using ha) (by simpa using hb) (fun i hi a' b' h1 h2 => h0 (i + 1) (by omega) a' b' (by simpa using h1) (by simpa using h2))

/-- The layer below is the list of the children of the non-empty nodes. -/
theorem child_row (o : Octree F) (h : Nat) (w : o.Valid h) (d : Nat) (hd : d + 1 ≤ h) (cells pcells : List Cell) (ch pch : List Int)
    (hc : CellsOf o.batchSize (d + 1) o.keys cells) (hch : o.children (d + 1) = some ch)
    (hp : CellsOf o.batchSize d o.keys pcells) (hpc : o.children d = some pch) :
    cells = expand 8 Cell.child (nonEmpty pcells pch) := by
  obtain ⟨-, hne, -⟩ := layer_masks o h w d (by omega) pcells pch hp hpc
  obtain ⟨e, -⟩ := layer_data o h w (d + 1) hd cells ch hc hch
  obtain ⟨e', -⟩ := layer_data o h w d (by omega) pcells pch hp hpc
  rw [hne, e, e']
  rfl

theorem off_child (p : Cell) (k : Nat) (hk : k < 8) :
    IsShift (firstChild p) (p.child k) ((kernelOffsets (2, 2, 2))[k]'(by rw [offsets2]; exact hk)) := by
  have : ∀ k : Fin 8, (kernelOffsets (2, 2, 2))[(k : Nat)]'(by rw [offsets2]; exact k.isLt) = (((k / 4 % 2 : Nat) : Int), ((k / 2 % 2 : Nat) : Int), ((k % 2 : Nat) : Int)) := by
    decide
  rw [this ⟨k, hk⟩]
  simp [IsShift, firstChild, Cell.child]

/-- **C138, convolution.** With kernel size 2 and stride 2, on all nodes, row `j` of the non-empty nodes of the layer above is the
block of rows `8 j, ..., 8 j + 7` times the weights, plus the bias; empty nodes get zero. -/
theorem C138_conv [CommSemiring R] {ci co : Nat} (o : Octree F) (h : Nat) (w : o.Valid h) (d : Nat) (hd : d + 1 ≤ h)
    (hn : NeighExact o.batchSize (d + 1) o.keys o.neighs)
    (ks : List Nat) (mb : Nat) (m : ConvModule (Fin co → R) (Fin ci → Fin co → R)) (ha : KernelArg ks (2, 2, 2))
    (hi : ConvBase.init true ci co ks 2 false mb = .ok m.base) (hb : m.directMethod = false → 8 * ci ≤ mb)
    (hw : m.weights.length = 8) (x : List (Fin ci → R)) (hx : x.length = o.nnum (d + 1)) :
    x.length = 8 * o.nnumNempty d ∧
    ∃ Y, m.forward (denseKernel R ci co) x o (d + 1) = .ok Y ∧
      octreePad ((List.range (o.nnumNempty d)).map fun j => blockTimes x m.weights j + m.bias.getD 0) o d 0 = .ok Y := by
  have W := w.wf'
  have hc := W.cellsOf (d + 1) hd
  have hch := W.children (d + 1) hd
  generalize layerCells o.batchSize o.masks (d + 1) = cells at hc
  generalize number 0 (o.masks (d + 1)) = ch at hch
  have hp := W.cellsOf d (by omega)
  have hpc := W.children d (by omega)
  generalize layerCells o.batchSize o.masks d = pcells at hp
  generalize number 0 (o.masks d) = pch at hpc
  have hlen := queried_length w (d + 1) hd false cells ch hc hch
  have hplen := queried_length w d (by omega) true pcells pch hp hpc
  simp only [queried, Bool.false_eq_true, if_false, if_true] at hlen hplen
  obtain ⟨f, hf⟩ := exists_field (queried false cells ch) x (by simp only [queried, Bool.false_eq_true, if_false]; rw [hlen, hx])
    (nodes_nodup o h w (d + 1) hd false 1 _ _ (.one (d + 1) cells ch hc hch))
  have hcells := child_row o h w d hd cells pcells ch pch hc hch hp hpc
  have h8 : x.length = 8 * o.nnumNempty d := by rw [hx, ← hlen, hcells, expand_length, hplen, Nat.mul_comm]
  have e := C34_stride2 o h w d hd hn (2, 2, 2) (by decide) false cells hc ch hch pcells hp pch hpc ks mb m ha hi
    (by rw [offsets2]; exact hb) (by rw [offsets2, hw]; rfl) x f hf
  refine ⟨h8, _, e, ?_⟩
  simp only [Bool.false_eq_true, if_false]
  obtain ⟨hm, hne, hnd, hnum, hl⟩ := layer_masks o h w d (by omega) pcells pch hp hpc
  rw [pad_ok w d (by omega) _ _ (by simp), hnum]
  have hrow : ((List.range (o.nnumNempty d)).map fun j => blockTimes x m.weights j + m.bias.getD 0)
      = (maskSel (o.masks d) pcells).map fun p => convAt f (kernelOffsets (2, 2, 2)) m.weights (firstChild p) + m.bias.getD 0 := by
    rw [← hne]
    apply List.ext_getElem?
    intro j
    rw [List.getElem?_map, List.getElem?_map]
    by_cases hj : j < o.nnumNempty d
    · obtain ⟨p, hpj⟩ : ∃ p, (nonEmpty pcells pch)[j]? = some p := ⟨_, List.getElem?_eq_getElem (by rw [hplen]; exact hj)⟩
      rw [List.getElem?_range hj, hpj]
      simp only [Option.map_some, Option.some.injEq]
      congr 1
      have hval : ∀ k, k < 8 → x[8 * j + k]?.getD 0 = f p.b (2 * p.x + (k / 4 % 2 : Nat) : Int) (2 * p.y + (k / 2 % 2 : Nat) : Int) (2 * p.z + (k % 2 : Nat) : Int) := by
        intro k hk
        have hcell : cells[8 * j + k]? = some (p.child k) := by
          rw [hcells]
          rw [expand_getElem? 8 _ _ j k hk, hpj]
          rfl
        obtain ⟨v, hv⟩ : ∃ v, x[8 * j + k]? = some v := ⟨_, List.getElem?_eq_getElem (by omega)⟩
        have := hf.2.1 (8 * j + k) (p.child k) v (by simpa [queried] using hcell) hv
        rw [hv, Option.getD_some, ← this]
        simp [Cell.child]
      obtain ⟨w0, w1, w2, w3, w4, w5, w6, w7, hws⟩ := eight_list _ hw
      funext c
      unfold blockTimes convAt
      rw [offsets2, hws]
      simp only [Fin.sum_univ_eight, List.zipWith, List.sum_cons, List.sum_nil, add_zero, around, firstChild, Pi.add_apply, vecMat]
      have q0 := hval 0 (by omega)
      have q1 := hval 1 (by omega)
      have q2 := hval 2 (by omega)
      have q3 := hval 3 (by omega)
      have q4 := hval 4 (by omega)
      have q5 := hval 5 (by omega)
      have q6 := hval 6 (by omega)
      have q7 := hval 7 (by omega)
      norm_num at q0 q1 q2 q3 q4 q5 q6 q7
      simp [q0, q1, q2, q3, q4, q5, q6, q7]
      ring
    · rw [List.getElem?_eq_none (by simp; omega), List.getElem?_eq_none (by rw [hplen]; omega)]
      rfl
  rw [hrow, maskFill_map _ 0 _ _ _ hm]
/-- **C138, transposed convolution.** With kernel size 2 and stride 2, on all nodes, row `8 j + k` of the output is row `j` of the
non-empty nodes of the input times the transposed matrix `k`, plus the bias. -/
theorem C138_deconv [CommSemiring R] {ci co : Nat} (o : Octree F) (h : Nat) (w : o.Valid h) (d : Nat) (hd : d + 1 ≤ h)
    (hn : NeighExact o.batchSize (d + 1) o.keys o.neighs)
    (ks : List Nat) (mb : Nat) (m : ConvModule (Fin ci → R) (Fin ci → Fin co → R)) (ha : KernelArg ks (2, 2, 2))
    (hi : ConvBase.init false co ci ks 2 false mb = .ok m.base) (hb : m.directMethod = false → 8 * ci ≤ mb)
    (hw : m.weights.length = 8) (x : List (Fin co → R)) (hx : x.length = o.nnum d) :
    ∃ x' Y, octreeDepad x o d = .ok x' ∧ m.deconvForward (denseKernel R ci co) x o d = .ok Y ∧ Y.length = 8 * x'.length ∧
      ∀ (j k : Nat) (v : Fin co → R) (wk : Fin ci → Fin co → R), x'[j]? = some v → m.weights[k]? = some wk →
        Y[8 * j + k]? = some ((fun i => ∑ c : Fin co, v c * wk i c) + m.bias.getD 0) := by
  have W := w.wf'
  have hc := W.cellsOf (d + 1) hd
  have hch := W.children (d + 1) hd
  generalize layerCells o.batchSize o.masks (d + 1) = cells at hc
  generalize number 0 (o.masks (d + 1)) = ch at hch
  have hp := W.cellsOf d (by omega)
  have hpc := W.children d (by omega)
  generalize layerCells o.batchSize o.masks d = pcells at hp
  generalize number 0 (o.masks d) = pch at hpc
  have hplen := queried_length w d (by omega) true pcells pch hp hpc
  simp only [queried, Bool.false_eq_true, if_false, if_true] at hplen
  have hcells := child_row o h w d hd cells pcells ch pch hc hch hp hpc
  obtain ⟨x', hx', hxl, -⟩ := C30_depad_pad o h w d (by omega) pch hpc x 0 hx
  have hN := Nodes.two (o := o) (nempty := false) d cells ch pcells pch hc hch hp hpc
  have hnd : (nonEmpty pcells pch).Nodup := by
    have := nodes_nodup o h w d (by omega) true 1 _ _ (.one d pcells pch hp hpc)
    simpa [queried] using this
  have e := C84_deconv o h w (d + 1) hd hn (2, 2, 2) (by decide) false 2 _ _ hN ks mb m ha hi (by rw [offsets2]; exact hb)
    (by rw [offsets2, hw]; rfl) x x' (by rw [List.length_map, hplen, hxl]) (by simpa using hx')
  simp only [if_true, Nat.add_sub_cancel, queried, Bool.false_eq_true, if_false] at e
  refine ⟨x', _, hx', e, by rw [List.length_map, hcells, expand_length, hplen, hxl], ?_⟩
  intro j k v wk hv hwk
  have hk : k < 8 := by rw [← hw]; exact (List.getElem?_eq_some_iff.1 hwk).1
  have hj : j < x'.length := (List.getElem?_eq_some_iff.1 hv).1
  obtain ⟨p, hpj⟩ : ∃ p, (nonEmpty pcells pch)[j]? = some p := ⟨_, List.getElem?_eq_getElem (by omega)⟩
  rw [List.getElem?_map, hcells, expand_getElem? 8 _ _ j k hk, hpj]
  simp only [Option.map_some, Option.some.injEq]
  congr 1
  unfold deconvAt
  rw [zipWith_sum_single _ _ _ j (firstChild p) v (by rw [List.getElem?_map, hpj]; rfl) hv]
  · rw [zipWith_sum_single _ _ _ k ((kernelOffsets (2, 2, 2))[k]'(by rw [offsets2]; exact hk)) wk (List.getElem?_eq_getElem _) hwk]
    · rw [if_pos (off_child p k hk)]
      rfl
    · intro i hi g wi hg hwi
      rw [if_neg]
      intro hs
      have hi8 : i < 8 := by rw [← hw]; exact (List.getElem?_eq_some_iff.1 hwi).1
      apply hi
      have e1 : (kernelOffsets (2, 2, 2))[i]? = some ((kernelOffsets (2, 2, 2))[i]'(by rw [offsets2]; exact hi8)) := List.getElem?_eq_getElem _
      rw [e1] at hg
      cases hg
      have h1 := off_child p i hi8
      obtain ⟨-, a1, a2, a3⟩ := h1
      obtain ⟨-, b1, b2, b3⟩ := hs
      have c1 : (p.child i).x = (p.child k).x := by omega
      have c2 : (p.child i).y = (p.child k).y := by omega
      have c3 : (p.child i).z = (p.child k).z := by omega
      simp only [Cell.child] at c1 c2 c3
      omega
  · intro i hi t xi ht hxi
    apply List.sum_eq_zero
    intro u hu
    obtain ⟨n, hn'⟩ := List.mem_iff_getElem?.1 hu
    rw [List.getElem?_zipWith] at hn'
    cases h1 : (kernelOffsets (2, 2, 2))[n]? with
    | none => simp [h1] at hn'
    | some g =>
      cases h2 : m.weights[n]? with
      | none => simp [h1, h2] at hn'
      | some wn =>
        simp only [h1, h2, Option.some.injEq] at hn'
        rw [← hn', if_neg]
        intro hs
        have hn8 : n < 8 := by rw [← hw]; exact (List.getElem?_eq_some_iff.1 h2).1
        rw [List.getElem?_map] at ht
        cases hq : (nonEmpty pcells pch)[i]? with
        | none => simp [hq] at ht
        | some q =>
          rw [hq] at ht
          simp only [Option.map_some, Option.some.injEq] at ht
          subst ht
          have e1 : (kernelOffsets (2, 2, 2))[n]? = some ((kernelOffsets (2, 2, 2))[n]'(by rw [offsets2]; exact hn8)) := List.getElem?_eq_getElem _
          rw [e1] at h1
          cases h1
          obtain ⟨a0, a1, a2, a3⟩ := off_child q n hn8
          obtain ⟨b0, b1, b2, b3⟩ := hs
          have hqp : q = p := by
            have c0 : q.b = p.b := b0.symm
            have c1 : (q.child n).x = (p.child k).x := by omega
            have c2 : (q.child n).y = (p.child k).y := by omega
            have c3 : (q.child n).z = (p.child k).z := by omega
            simp only [Cell.child] at c1 c2 c3
            cases q
            cases p
            simp only [Cell.mk.injEq]
            simp only at c0 c1 c2 c3
            exact ⟨c0, by omega, by omega, by omega⟩
          subst hqp
          apply hi
          exact (List.getElem?_inj (List.getElem?_eq_some_iff.1 hq).1 hnd).1 (hq.trans hpj.symm)

/-- A downsampling layer from 3 to 2 channels. -/
def downModule : ConvModule (Fin 2 → ℚ) (Fin 3 → Fin 2 → ℚ) where
  base := { isConv := true, inChannels := 3, outChannels := 2, kernelSize := [2, 2, 2], kernel := "222", stride := 2,
            nempty := false, maxBuffer := 100, kdim := 8, inConv := 3 }
  directMethod := false
  weights := (List.range 8).map fun k => fun i j => (k : ℚ) + i.val - j.val
  bias := some fun j => j.val

/-- The hypotheses are met by the octree of the examples and a layer with different weights. -/
example : ∃ (o : Octree Unit) (x : List (Fin 3 → ℚ)), o.Valid 2 ∧ NeighExact o.batchSize 2 o.keys o.neighs ∧ x.length = o.nnum 2 ∧ o.nnum 2 = 16 ∧
    ConvBase.init true 3 2 [2] 2 false 100 = .ok downModule.base ∧ downModule.weights.length = 8 ∧ KernelArg [2] (2, 2, 2) := by
  obtain ⟨o, h1, -, h5, -, h6, -, h7⟩ := example_valid'
  refine ⟨o, List.replicate 16 fun i => (i.val : ℚ), h1, h5 2 (le_refl _), by rw [h6]; rfl, h6, ?_, by decide, Or.inr (Or.inr ⟨rfl, rfl, rfl⟩)⟩
  rw [init_ok true 3 2 [2] 2 false 100 (2, 2, 2) (by decide) (Or.inr (Or.inr ⟨rfl, rfl, rfl⟩))]
  simp [downModule]
  decide

end Ocnn
