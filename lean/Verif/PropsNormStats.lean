import Verif.PropsNorm
import Mathlib.Algebra.Order.BigOperators.Group.List
import Mathlib.Algebra.Order.BigOperators.Ring.Finset
import Mathlib.Algebra.BigOperators.Field
import Mathlib.Analysis.SpecialFunctions.Sqrt
import Mathlib.Tactic.Positivity
import Mathlib.Tactic.FieldSimp
import Mathlib.Tactic.Ring
import Mathlib.Tactic.Linarith

/-! Property C131: the statistics of the output of group normalisation. -/

namespace Ocnn
open Spec

variable {F K : Type}

/-- `reset_parameters`, octree_norm.py 36-38: the initial weights. -/
def normWeights {C : Nat} [One K] : Fin C → K := fun _ => 1

/-- `reset_parameters`, octree_norm.py 36-38: the initial bias. -/
def normBias {C : Nat} [Zero K] : Fin C → K := fun _ => 0

namespace Spec

/-- The sum over the rows and over the channels of the group of channel `k`. -/
def groupTotal [AddCommMonoid K] {C : Nat} (cpg : Nat) (G : List (Fin C → K)) (k : Fin C) : K :=
  (G.map fun v => ∑ k', if k'.val / cpg = k.val / cpg then v k' else 0).sum

/-- The sum of the squares over the rows and over the channels of the group of channel `k`. -/
def groupTotalSq [Semiring K] {C : Nat} (cpg : Nat) (G : List (Fin C → K)) (k : Fin C) : K :=
  (G.map fun v => ∑ k', if k'.val / cpg = k.val / cpg then v k' ^ 2 else 0).sum

end Spec

theorem group_card [Semiring K] {C cpg : Nat} (hd : cpg ∣ C) (k : Fin C) (a : K) :
    (∑ k' : Fin C, if k'.val / cpg = k.val / cpg then a else 0) = cpg * a := by
  have hk := k.isLt
  have hp : 0 < cpg := Nat.pos_of_dvd_of_pos hd (by omega)
  rw [Finset.sum_ite, Finset.sum_const, Finset.sum_const_zero, add_zero, nsmul_eq_mul]
  congr 2
  have h1 : (Finset.univ.filter fun k' : Fin C => k'.val / cpg = k.val / cpg).card
      = (Finset.Ico (cpg * (k.val / cpg)) (cpg * (k.val / cpg) + cpg)).card := by
    apply Finset.card_bij (fun (k' : Fin C) _ => k'.val)
    · intro a ha
      have ha := (Finset.mem_filter.1 ha).2
      rw [Finset.mem_Ico]
      have := Nat.div_add_mod a.val cpg
      have := Nat.mod_lt a.val hp
      rw [ha] at *
      omega
    · intro a _ b _ h
      exact Fin.ext h
    · intro b hb
      rw [Finset.mem_Ico] at hb
      obtain ⟨m, rfl⟩ := hd
      have hq : k.val / cpg < m := Nat.div_lt_of_lt_mul hk
      have hb' : b < cpg * m := by
        have : cpg * (k.val / cpg) + cpg ≤ cpg * m := by
          have := Nat.mul_le_mul_left cpg hq
          rw [Nat.succ_eq_add_one, Nat.mul_add, Nat.mul_one] at this
          exact this
        omega
      refine ⟨⟨b, hb'⟩, ?_, rfl⟩
      rw [Finset.mem_filter]
      refine ⟨Finset.mem_univ _, ?_⟩
      show b / cpg = k.val / cpg
      apply Nat.div_eq_of_lt_le
      · rw [Nat.mul_comm]; exact hb.1
      · rw [Nat.mul_comm, Nat.mul_add, Nat.mul_one]; exact hb.2
  rw [h1, Nat.card_Ico]
  omega

theorem total_eq [AddCommMonoid K] {C : Nat} (cpg : Nat) (G : List (Fin C → K)) (k : Fin C) (g : (Fin C → K) → Fin C → K) :
    groupSum cpg (fun k' => (G.map fun v => g v k').sum) k
      = (G.map fun v => ∑ k' : Fin C, if k'.val / cpg = k.val / cpg then g v k' else 0).sum := by
  unfold groupSum
  induction G with
  | nil => simp
  | cons v G ih =>
    simp only [List.map_cons, List.sum_cons]
    rw [← ih, ← Finset.sum_add_distrib]
    apply Finset.sum_congr rfl
    intro k' _
    split <;> simp

theorem groupMean_congr [Field K] {C : Nat} (eps : K) (cpg : Nat) (G : List (Fin C → K)) (k k' : Fin C) (h : k'.val / cpg = k.val / cpg) :
    groupMean eps cpg G k' = groupMean eps cpg G k := by
  unfold groupMean groupSum
  simp only [h]

theorem groupVar_congr [Field K] {C : Nat} (eps : K) (cpg : Nat) (G : List (Fin C → K)) (k k' : Fin C) (h : k'.val / cpg = k.val / cpg) :
    groupVar eps cpg G k' = groupVar eps cpg G k := by
  unfold groupVar groupSum
  simp only [h]

theorem groupVar_nonneg [Field K] [LinearOrder K] [IsStrictOrderedRing K] {C : Nat} (eps : K) (he : 0 < eps) (cpg : Nat) (G : List (Fin C → K))
    (k : Fin C) : 0 ≤ groupVar eps cpg G k := by
  unfold groupVar
  rw [total_eq cpg G k (fun v k' => (v k' - groupMean eps cpg G k') ^ 2)]
  apply div_nonneg
  · apply List.sum_nonneg
    intro a ha
    obtain ⟨v, -, rfl⟩ := List.mem_map.1 ha
    apply Finset.sum_nonneg
    intro k' _
    split
    · positivity
    · exact le_rfl
  · positivity

/-- The statistics of the rows `G` normalised with the initial weights. -/
theorem norm_stats [Field K] [LinearOrder K] [IsStrictOrderedRing K] {C : Nat} (rt : K → K)
    (hrt : ∀ q, 0 ≤ q → 0 ≤ rt q ∧ rt q ^ 2 = q) (eps : K) (he : 0 < eps) (cpg : Nat) (hd : cpg ∣ C) (G : List (Fin C → K)) (k : Fin C) :
    groupTotal cpg (G.map (normRow rt eps cpg normWeights normBias G)) k
      = groupTotal cpg G k * (eps / (G.length * cpg + eps)) / rt (groupVar eps cpg G k + eps) ∧
    groupTotalSq cpg (G.map (normRow rt eps cpg normWeights normBias G)) k
      = (G.length * cpg + eps) * (groupVar eps cpg G k / (groupVar eps cpg G k + eps)) := by
  have hv := groupVar_nonneg eps he cpg G k
  obtain ⟨s0, s1⟩ := hrt (groupVar eps cpg G k + eps) (by linarith)
  have spos : 0 < rt (groupVar eps cpg G k + eps) := by
    rcases s0.lt_or_eq with h | h
    · exact h
    · rw [← h] at s1; linarith [show (0 : K) ^ 2 = 0 by ring]
  have hN : (0 : K) < G.length * cpg + eps := by positivity
  have hrow : ∀ (v : Fin C → K) (k' : Fin C), k'.val / cpg = k.val / cpg →
      normRow rt eps cpg normWeights normBias G v k' = (v k' - groupMean eps cpg G k) / rt (groupVar eps cpg G k + eps) := by
    intro v k' h
    unfold normRow normWeights normBias
    rw [groupMean_congr eps cpg G k k' h, groupVar_congr eps cpg G k k' h, mul_one, add_zero]
  constructor
  · have hm : groupTotal cpg G k = groupMean eps cpg G k * (G.length * cpg + eps) := by
      unfold groupMean
      rw [total_eq cpg G k (fun v k' => v k'), div_mul_cancel₀ _ hN.ne']
      rfl
    have h1 : ∀ v : Fin C → K, (∑ k' : Fin C, if k'.val / cpg = k.val / cpg then normRow rt eps cpg normWeights normBias G v k' else 0)
        = ((∑ k' : Fin C, if k'.val / cpg = k.val / cpg then v k' else 0) - cpg * groupMean eps cpg G k) / rt (groupVar eps cpg G k + eps) := by
      intro v
      rw [← group_card hd k, ← Finset.sum_sub_distrib, Finset.sum_div]
      apply Finset.sum_congr rfl
      intro k' _
      split
      · rename_i h; rw [hrow v k' h]
      · simp
    have h2 : ∀ H : List (Fin C → K), (H.map fun v => ((∑ k' : Fin C, if k'.val / cpg = k.val / cpg then v k' else 0)
        - cpg * groupMean eps cpg G k) / rt (groupVar eps cpg G k + eps)).sum
        = (groupTotal cpg H k - H.length * cpg * groupMean eps cpg G k) / rt (groupVar eps cpg G k + eps) := by
      intro H
      unfold groupTotal
      induction H with
      | nil => simp
      | cons v H ih =>
        simp only [List.map_cons, List.sum_cons, List.length_cons, Nat.cast_add, Nat.cast_one]
        rw [ih]
        ring
    have h3 : groupTotal cpg (G.map (normRow rt eps cpg normWeights normBias G)) k
        = (groupTotal cpg G k - G.length * cpg * groupMean eps cpg G k) / rt (groupVar eps cpg G k + eps) := by
      rw [← h2 G, groupTotal, List.map_map]
      congr 1
      apply List.map_congr_left
      intro v _
      exact h1 v
    rw [h3, hm]
    congr 1
    field_simp
    ring
  · have hvar : groupVar eps cpg G k * (G.length * cpg + eps)
        = (G.map fun v => ∑ k' : Fin C, if k'.val / cpg = k.val / cpg then (v k' - groupMean eps cpg G k) ^ 2 else 0).sum := by
      rw [groupVar, total_eq cpg G k (fun v k' => (v k' - groupMean eps cpg G k') ^ 2), div_mul_cancel₀ _ hN.ne']
      congr 1
      apply List.map_congr_left
      intro v _
      apply Finset.sum_congr rfl
      intro k' _
      split
      · rename_i h; rw [groupMean_congr eps cpg G k k' h]
      · rfl
    have h1 : ∀ v : Fin C → K, (∑ k' : Fin C, if k'.val / cpg = k.val / cpg then normRow rt eps cpg normWeights normBias G v k' ^ 2 else 0)
        = (∑ k' : Fin C, if k'.val / cpg = k.val / cpg then (v k' - groupMean eps cpg G k) ^ 2 else 0) * (1 / (groupVar eps cpg G k + eps)) := by
      intro v
      rw [Finset.sum_mul]
      apply Finset.sum_congr rfl
      intro k' _
      split
      · rename_i h; rw [hrow v k' h, div_pow, s1, mul_one_div]
      · simp
    have h3 : groupTotalSq cpg (G.map (normRow rt eps cpg normWeights normBias G)) k
        = groupVar eps cpg G k * (G.length * cpg + eps) * (1 / (groupVar eps cpg G k + eps)) := by
      rw [hvar, ← List.sum_map_mul_right, groupTotalSq, List.map_map]
      congr 1
      apply List.map_congr_left
      intro v _
      exact h1 v
    rw [h3]
    ring

/-- **C131.** Group normalisation with its initial parameters, for each sample and each group of channels with `n` entries: the sum of the
output is the sum of the input times `eps / (n + eps)` over the standard deviation, the sum of its squares is `(n + eps) * var / (var + eps)`
where `var` is the variance of the input, so it is less than `n + eps`, and no entry is larger than the square root of `n + eps`. -/
theorem C131_stats [Field K] [LinearOrder K] [IsStrictOrderedRing K] {C : Nat} (rt : K → K)
    (hrt : ∀ q, 0 ≤ q → 0 ≤ rt q ∧ rt q ^ 2 = q) (eps : K) (he : 0 < eps) (group cpg : Nat) (hC : 0 < C) (hg : groupNormInit C group = .ok cpg)
    (nempty : Bool) (o : Octree F) (h : Nat) (w : o.Valid h) (d : Nat) (hd : d ≤ h) (cells : List Cell) (ch : List Int)
    (hc : CellsOf o.batchSize d o.keys cells) (hch : o.children d = some ch) (x : List (Fin C → K))
    (hx : x.length = (queried nempty cells ch).length) :
    ∃ y, groupNorm rt eps cpg nempty normWeights normBias x o d = .ok y ∧ y.length = x.length ∧
      ∀ (b : Nat) (k : Fin C), ∃ n var : K, n = (rowsOf (queried nempty cells ch) x b).length * cpg ∧ 0 ≤ var ∧
        (n + eps) * var = ((rowsOf (queried nempty cells ch) x b).map fun v => ∑ k' : Fin C, if k'.val / cpg = k.val / cpg then
          (v k' - groupTotal cpg (rowsOf (queried nempty cells ch) x b) k / (n + eps)) ^ 2 else 0).sum ∧
        groupTotal cpg (rowsOf (queried nempty cells ch) y b) k = groupTotal cpg (rowsOf (queried nempty cells ch) x b) k * (eps / (n + eps)) / rt (var + eps) ∧
        groupTotalSq cpg (rowsOf (queried nempty cells ch) y b) k = (n + eps) * (var / (var + eps)) ∧
        groupTotalSq cpg (rowsOf (queried nempty cells ch) y b) k < n + eps ∧
        ∀ v ∈ rowsOf (queried nempty cells ch) y b, v k ^ 2 < n + eps := by
  have hg' : cpg ∣ C ∧ 0 < cpg := by
    unfold groupNormInit at hg
    split at hg
    · cases hg
    · simp only [pyAssert] at hg
      split at hg
      · rename_i h1 h2
        cases hg
        have := Nat.dvd_of_mod_eq_zero h2
        exact ⟨Nat.div_dvd_of_dvd this, Nat.div_pos (Nat.le_of_dvd hC this) (by omega)⟩
      · cases hg
  refine ⟨_, C56_group_norm rt eps cpg hg'.2 nempty normWeights normBias o h w d hd cells ch hc hch x hx, ?_, ?_⟩
  · rw [List.length_zipWith, ← hx, Nat.min_self]
  · intro b k
    rw [rowsOf_zipWith_left (queried nempty cells ch) x (fun b v => normRow rt eps cpg normWeights normBias (rowsOf (queried nempty cells ch) x b) v)]
    generalize rowsOf (queried nempty cells ch) x b = G
    obtain ⟨a1, a2⟩ := norm_stats rt hrt eps he cpg hg'.1 G k
    have hv := groupVar_nonneg eps he cpg G k
    have hN : (0 : K) < G.length * cpg + eps := by positivity
    have hlt : groupTotalSq cpg (G.map (normRow rt eps cpg normWeights normBias G)) k < G.length * cpg + eps := by
      rw [a2]
      have : groupVar eps cpg G k / (groupVar eps cpg G k + eps) < 1 := by
        rw [div_lt_one (by linarith)]; linarith
      nlinarith
    refine ⟨_, groupVar eps cpg G k, rfl, hv, ?_, a1, a2, hlt, ?_⟩
    · rw [mul_comm, groupVar, total_eq cpg G k (fun v k' => (v k' - groupMean eps cpg G k') ^ 2), div_mul_cancel₀ _ hN.ne']
      congr 1
      apply List.map_congr_left
      intro v _
      apply Finset.sum_congr rfl
      intro k' _
      split
      · rename_i h
        rw [groupMean_congr eps cpg G k k' h, groupMean, total_eq cpg G k (fun v k' => v k')]
        rfl
      · rfl
    · intro v hv
      refine lt_of_le_of_lt ?_ hlt
      have hnn : ∀ v : Fin C → K, ∀ k' : Fin C, (0 : K) ≤ if k'.val / cpg = k.val / cpg then v k' ^ 2 else 0 := by
        intro v k'
        split
        · positivity
        · exact le_rfl
      have h1 : v k ^ 2 ≤ ∑ k' : Fin C, if k'.val / cpg = k.val / cpg then v k' ^ 2 else 0 := by
        have := Finset.single_le_sum (f := fun k' : Fin C => if k'.val / cpg = k.val / cpg then v k' ^ 2 else 0) (fun k' _ => hnn v k')
          (Finset.mem_univ k)
        simpa using this
      refine le_trans h1 ?_
      unfold groupTotalSq
      apply List.single_le_sum
      · intro a ha
        obtain ⟨u, -, rfl⟩ := List.mem_map.1 ha
        exact Finset.sum_nonneg fun k' _ => hnn u k'
      · exact List.mem_map.2 ⟨v, hv, rfl⟩

/-- The real square root and an octree with eight rows of four channels in two groups meet the hypotheses. -/
example : ∃ (o : Octree Unit) (cells : List Cell) (ch : List Int) (x : List (Fin 4 → ℝ)), (∀ q : ℝ, 0 ≤ q → 0 ≤ Real.sqrt q ∧ Real.sqrt q ^ 2 = q) ∧
    groupNormInit 4 2 = .ok 2 ∧ o.Valid 2 ∧ CellsOf o.batchSize 1 o.keys cells ∧ o.children 1 = some ch ∧
    x.length = (queried false cells ch).length ∧ x.length = 8 ∧ x[3]? = some fun k => (3 : ℝ) + k.val := by
  obtain ⟨o, h1, -, -, h4, -⟩ := example_valid'
  have hc := h1.wf'.cellsOf 1 (by omega)
  have hch := h1.wf'.children 1 (by omega)
  refine ⟨o, _, _, (List.range 8).map (fun i k => (i : ℝ) + (k.val : ℝ)), fun q hq => ⟨Real.sqrt_nonneg q, Real.sq_sqrt hq⟩, rfl, h1, hc, hch, ?_, by simp, rfl⟩
  rw [queried_length h1 1 (by omega) false _ _ hc hch, if_neg (by simp), h4]
  simp

end Ocnn
