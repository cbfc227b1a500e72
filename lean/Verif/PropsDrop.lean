import Verif.PropsVoxel
import Mathlib.Algebra.BigOperators.Field
import Mathlib.Data.Fintype.BigOperators
import Mathlib.Algebra.BigOperators.Pi

/-! Property C137: drop path changes the features only by chance, their mean stays. -/

set_option linter.unusedSimpArgs false

namespace Ocnn
open Spec

variable {F : Type}

/-- One draw of `torch.rand(B, 1)`: the generator returns multiples of `1 / N` in `[0, 1)`, all equally likely (`N = 2 ^ 24`
for single precision). -/
def Spec.draws (N : Nat) {B : Nat} (f : Fin B → Fin N) : List ℚ := (List.finRange B).map fun b => ((f b : Nat) : ℚ) / N

/-- The mean over all draws. -/
def Spec.meanOver (N B : Nat) (g : (Fin B → Fin N) → ℚ) : ℚ := (∑ f, g f) / (N : ℚ) ^ B

/-- A quantity that depends on one coordinate only has the mean of that coordinate. -/
theorem meanOver_coord (N B : Nat) (hN : 0 < N) (b : Fin B) (g : Fin N → ℚ) :
    meanOver N B (fun f => g (f b)) = (∑ j, g j) / N := by
  unfold meanOver
  have h1 : ∑ f : Fin B → Fin N, g (f b) = (N : ℚ) ^ (B - 1) * ∑ j, g j := by
    rw [← (Equiv.funSplitAt b (Fin N)).symm.sum_comp, Fintype.sum_prod_type]
    have : ∀ (x : Fin N) (y : { j // j ≠ b } → Fin N), g ((Equiv.funSplitAt b (Fin N)).symm (x, y) b) = g x := by
      intro x y
      simp [Equiv.funSplitAt, Equiv.piSplitAt]
    simp only [this, Finset.sum_const, nsmul_eq_mul, Finset.card_univ, Fintype.card_fun, Fintype.card_fin,
      Fintype.card_subtype_compl, Fintype.card_unique]
    rw [Finset.mul_sum]
    push_cast
    rfl
  have hB : 0 < B := b.pos
  have hN' : (N : ℚ) ≠ 0 := by positivity
  rw [h1]
  obtain ⟨B', rfl⟩ : ∃ B', B = B' + 1 := ⟨B - 1, by omega⟩
  rw [Nat.add_sub_cancel, pow_succ]
  field_simp

/-- The number of kept draws. -/
theorem count_kept (N m : Nat) (hm : m ≤ N) : ∑ j : Fin N, (if (j : Nat) < m then (0 : ℚ) else 1) = N - m := by
  rw [Fin.sum_univ_eq_sum_range (fun j => if j < m then (0 : ℚ) else 1) N]
  induction N with
  | zero => simp at hm; simp [hm]
  | succ N ih =>
    rw [Finset.sum_range_succ]
    rcases Nat.lt_or_ge N m with h | h
    · have hmN : m = N + 1 := by omega
      have : ∑ j ∈ Finset.range N, (if j < m then (0 : ℚ) else 1) = 0 := by
        apply Finset.sum_eq_zero
        intro j hj
        rw [if_pos (by have := Finset.mem_range.1 hj; omega)]
      rw [this, if_pos h, hmN]
      push_cast
      ring
    · rw [ih h, if_neg (by omega)]
      push_cast
      ring

/-- **C137.** In training mode with `drop_prob = m / N` strictly between 0 and 1, every draw succeeds, and the mean of each
output entry over all draws is the input entry; without scaling it is `keep_prob` times the entry. -/
theorem C137_mean {C : Nat} (N m : Nat) (hm0 : 0 < m) (hmN : m < N) (scale nempty : Bool) (o : Octree F) (h : Nat) (w : o.Valid h) (d : Nat)
    (hd : d ≤ h) (cells : List Cell) (ch : List Int) (hc : CellsOf o.batchSize d o.keys cells) (hch : o.children d = some ch)
    (x : List (Fin C → ℚ)) (hx : x.length = (queried nempty cells ch).length) :
    ∃ y : (Fin o.batchSize → Fin N) → List (Fin C → ℚ),
      (∀ f, dropPath ((m : ℚ) / N) true scale nempty (draws N f) x o d none = .ok (y f) ∧ (y f).length = x.length) ∧
      ∀ (i : Nat) (v : Fin C → ℚ), x[i]? = some v → ∀ k,
        meanOver N o.batchSize (fun f => ((y f)[i]?.getD 0) k) = v k * (if scale then 1 else 1 - (m : ℚ) / N) := by
  have hN : (0 : ℚ) < N := by exact_mod_cast (by omega : 0 < N)
  have hm : (0 : ℚ) < m := by exact_mod_cast hm0
  have hlt : (m : ℚ) < N := by exact_mod_cast hmN
  have hp0 : (0 : ℚ) < (m : ℚ) / N := div_pos hm hN
  have hp1 : (m : ℚ) / N < 1 := (div_lt_one hN).2 hlt
  have key := fun f : Fin o.batchSize → Fin N => C57_drop ((m : ℚ) / N) hp0 hp1.le scale nempty o h w d hd cells ch hc hch (draws N f)
    (by simp [draws]) (by
      intro r hr
      obtain ⟨b, -, rfl⟩ := List.mem_map.1 hr
      exact ⟨by positivity, (div_lt_one hN).2 (by exact_mod_cast (f b).isLt)⟩) x hx
  choose y h1 h2 h3 using key
  refine ⟨y, fun f => ⟨h1 f, h2 f⟩, ?_⟩
  intro i v hv k
  have hi : i < x.length := (List.getElem?_eq_some_iff.1 hv).1
  obtain ⟨c, hcq⟩ : ∃ c, (queried nempty cells ch)[i]? = some c := ⟨_, List.getElem?_eq_getElem (by omega)⟩
  obtain ⟨hr, -⟩ := C27_xyzb o h w d hd cells hc ch hch nempty
  have hb : c.b < o.batchSize := (hr c (List.mem_of_getElem? hcq)).1
  have hval : ∀ f, ((y f)[i]?.getD 0) k = (fun j : Fin N => v k * ((if (j : Nat) < m then 0 else 1) * (if scale then 1 / (1 - (m : ℚ) / N) else 1)))
      (f ⟨c.b, hb⟩) := by
    intro f
    have hu : (y f)[i]? = some ((y f)[i]'(by rw [h2]; exact hi)) := List.getElem?_eq_getElem _
    have hdraw : (draws N f)[c.b]? = some ((((f ⟨c.b, hb⟩ : Fin N) : Nat) : ℚ) / N) := by
      unfold draws
      rw [List.getElem?_map, List.getElem?_eq_getElem (by simpa using hb)]
      simp
    rw [hu, Option.getD_some, h3 f i c _ v _ hcq hdraw hv hu k]
    simp only
    simp only [div_lt_div_iff_of_pos_right hN, Nat.cast_lt]
    split <;> simp
  simp only [hval]
  rw [meanOver_coord N _ (by omega) ⟨c.b, hb⟩ (fun j : Fin N => v k * ((if (j : Nat) < m then 0 else 1) * (if scale then 1 / (1 - (m : ℚ) / N) else 1)))]
  rw [← Finset.mul_sum, ← Finset.sum_mul, count_kept N m hmN.le]
  have : (N : ℚ) - m ≠ 0 := by linarith
  cases scale
  · simp only [Bool.false_eq_true, if_false]
    field_simp
  · simp only [if_true]
    have h4 : 1 - (m : ℚ) / N = (N - m) / N := by field_simp
    rw [h4]
    field_simp

/-- A valid octree with features of its nodes, dropped with probability 1/4. -/
example : ∃ (o : Octree Unit) (cells : List Cell) (ch : List Int) (x : List (Fin 2 → ℚ)), o.Valid 2 ∧
    CellsOf o.batchSize 2 o.keys cells ∧ o.children 2 = some ch ∧ x.length = (queried false cells ch).length ∧ x ≠ [] ∧ 0 < 2 ^ 22 ∧ 2 ^ 22 < 2 ^ 24 := by
  obtain ⟨o, h1, hb, -, -, h16, -, h2⟩ := example_valid'
  have W := h1.wf'
  have hl := queried_length' W 2 (le_refl _) false
  refine ⟨o, _, _, List.replicate (queried false (layerCells o.batchSize o.masks 2) (number 0 (o.masks 2))).length (fun _ => 3), h1,
    W.cellsOf 2 (by omega), W.children 2 (by omega), by simp, ?_, by norm_num, by norm_num⟩
  intro e
  have := congrArg List.length e
  rw [List.length_replicate, hl] at this
  simp [h16, h2] at this

end Ocnn
