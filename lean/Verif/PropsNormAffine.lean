import Verif.PropsNormStats

/-! Property C183: group normalisation of scaled and shifted features. -/

set_option linter.unusedSimpArgs false

namespace Ocnn
open Spec

variable {F V K : Type}

namespace Spec

/-- Constant on the groups of channels. -/
def PerGroup {C : Nat} (cpg : Nat) (t : Fin C → K) : Prop := ∀ k k' : Fin C, k'.val / cpg = k.val / cpg → t k' = t k

/-- The sum of the squared distances to `m` over the rows and over the channels of the group of channel `k`. -/
def groupSpread [Field K] {C : Nat} (cpg : Nat) (G : List (Fin C → K)) (k : Fin C) (m : K) : K :=
  (G.map fun v => ∑ k', if k'.val / cpg = k.val / cpg then (v k' - m) ^ 2 else 0).sum

/-- The features of every sample multiplied by `a` and shifted by `t`, where `a` and `t` depend on the sample and the channel. -/
def rescaled [Field K] {C : Nat} (a t : Nat → Fin C → K) (Q : List Cell) (x : List (Fin C → K)) : List (Fin C → K) :=
  List.zipWith (fun c v => fun k => a c.b k * v k + t c.b k) Q x

end Spec

section
variable [Field K] [LinearOrder K] [IsStrictOrderedRing K] {C : Nat}

theorem total_const (cpg : Nat) (hd : cpg ∣ C) (G : List (Fin C → K)) (k : Fin C) (g : (Fin C → K) → Fin C → K) (r s : K)
    (h : ∀ v k', k'.val / cpg = k.val / cpg → g v k' = r * v k' + s) :
    groupSum cpg (fun k' => (G.map fun v => g v k').sum) k = r * groupTotal cpg G k + (G.length * cpg : K) * s := by
  rw [total_eq cpg G k g]
  unfold groupTotal
  induction G with
  | nil => simp
  | cons v G ih =>
    simp only [List.map_cons, List.sum_cons, List.length_cons, Nat.cast_add, Nat.cast_one]
    rw [ih]
    have : (∑ k' : Fin C, if k'.val / cpg = k.val / cpg then g v k' else 0)
        = r * (∑ k' : Fin C, if k'.val / cpg = k.val / cpg then v k' else 0) + cpg * s := by
      rw [← group_card hd k s, Finset.mul_sum, ← Finset.sum_add_distrib]
      apply Finset.sum_congr rfl
      intro k' _
      split
      · next h' => exact h v k' h'
      · simp
    rw [this]
    ring

theorem mean_affine (eps : K) (he : 0 < eps) (cpg : Nat) (hd : cpg ∣ C) (a t : Fin C → K) (ha : PerGroup cpg a) (ht : PerGroup cpg t)
    (G : List (Fin C → K)) (k : Fin C) (v : Fin C → K) :
    a k * v k + t k - groupMean eps cpg (G.map fun v k => a k * v k + t k) k
      = a k * (v k - groupMean eps cpg G k) + t k * (eps / (G.length * cpg + eps)) := by
  have hN : (0 : K) < G.length * cpg + eps := by positivity
  have h1 : groupSum cpg (fun k' => ((G.map fun v k => a k * v k + t k).map fun v => v k').sum) k = a k * groupTotal cpg G k + (G.length * cpg : K) * t k := by
    simp only [List.map_map, Function.comp_def]
    exact total_const cpg hd G k (fun v k' => a k' * v k' + t k') _ _ (fun v k' h => by rw [ha k k' h, ht k k' h])
  have h2 : groupSum cpg (fun k' => (G.map fun v => v k').sum) k = groupTotal cpg G k := by
    rw [total_eq cpg G k (fun v k' => v k')]; rfl
  unfold groupMean
  rw [h1, h2, List.length_map]
  field_simp
  ring

theorem var_affine (eps : K) (he : 0 < eps) (cpg : Nat) (hd : cpg ∣ C) (a t : Fin C → K) (ha : PerGroup cpg a) (ht : PerGroup cpg t)
    (G : List (Fin C → K)) (k : Fin C) :
    groupVar eps cpg (G.map fun v k => a k * v k + t k) k = a k ^ 2 * groupVar eps cpg G k +
      (eps / (G.length * cpg + eps)) ^ 2 * t k * (2 * a k * groupTotal cpg G k + G.length * cpg * t k) / (G.length * cpg + eps) := by
  have hN : (0 : K) < G.length * cpg + eps := by positivity
  generalize hδ : eps / (G.length * cpg + eps) = δ
  have key : ∀ H : List (Fin C → K), (H.map fun v => ∑ k' : Fin C, if k'.val / cpg = k.val / cpg then (a k' * (v k' - groupMean eps cpg G k') + t k' * δ) ^ 2 else 0).sum
      = a k ^ 2 * (H.map fun v => ∑ k' : Fin C, if k'.val / cpg = k.val / cpg then (v k' - groupMean eps cpg G k') ^ 2 else 0).sum
        + 2 * a k * t k * δ * (groupTotal cpg H k - H.length * cpg * groupMean eps cpg G k) + H.length * cpg * (t k * δ) ^ 2 := by
    intro H
    unfold groupTotal
    induction H with
    | nil => simp
    | cons v H ih =>
      simp only [List.map_cons, List.sum_cons, List.length_cons, Nat.cast_add, Nat.cast_one]
      rw [ih]
      have : (∑ k' : Fin C, if k'.val / cpg = k.val / cpg then (a k' * (v k' - groupMean eps cpg G k') + t k' * δ) ^ 2 else 0)
          = a k ^ 2 * (∑ k' : Fin C, if k'.val / cpg = k.val / cpg then (v k' - groupMean eps cpg G k') ^ 2 else 0)
            + 2 * a k * t k * δ * ((∑ k' : Fin C, if k'.val / cpg = k.val / cpg then v k' else 0) - cpg * groupMean eps cpg G k) + cpg * (t k * δ) ^ 2 := by
        rw [← group_card hd k (groupMean eps cpg G k), ← group_card hd k ((t k * δ) ^ 2), ← Finset.sum_sub_distrib, Finset.mul_sum, Finset.mul_sum,
          ← Finset.sum_add_distrib, ← Finset.sum_add_distrib]
        apply Finset.sum_congr rfl
        intro k' _
        split
        · next h' =>
          rw [ha k k' h', ht k k' h', groupMean_congr eps cpg G k k' h']
          ring
        · simp
      rw [this]
      ring
  have hm : groupTotal cpg G k = groupMean eps cpg G k * (G.length * cpg + eps) := by
    unfold groupMean
    rw [total_eq cpg G k (fun v k' => v k'), div_mul_cancel₀ _ hN.ne']
    rfl
  have hc : ∀ (v : Fin C → K) (k' : Fin C), a k' * v k' + t k' - groupMean eps cpg (G.map fun v k => a k * v k + t k) k' = a k' * (v k' - groupMean eps cpg G k') + t k' * δ := by
    intro v k'
    rw [← hδ]
    exact mean_affine eps he cpg hd a t ha ht G k' v
  unfold groupVar
  rw [total_eq cpg (G.map fun v k => a k * v k + t k) k (fun v k' => (v k' - groupMean eps cpg (G.map fun v k => a k * v k + t k) k') ^ 2),
    total_eq cpg G k (fun v k' => (v k' - groupMean eps cpg G k') ^ 2), List.map_map, List.length_map]
  simp only [Function.comp_def, hc]
  rw [key G]
  have e1 : groupTotal cpg G k - G.length * cpg * groupMean eps cpg G k = groupTotal cpg G k * δ := by
    rw [hm, ← hδ]
    field_simp
    ring
  rw [e1]
  field_simp
  ring

theorem groupVar_spec (eps : K) (he : 0 < eps) (cpg : Nat) (G : List (Fin C → K)) (k : Fin C) :
    (G.length * cpg + eps) * groupVar eps cpg G k = groupSpread cpg G k (groupTotal cpg G k / (G.length * cpg + eps)) := by
  have hN : (0 : K) < G.length * cpg + eps := by positivity
  rw [mul_comm, groupVar, total_eq cpg G k (fun v k' => (v k' - groupMean eps cpg G k') ^ 2), div_mul_cancel₀ _ hN.ne']
  unfold groupSpread
  congr 1
  apply List.map_congr_left
  intro v _
  apply Finset.sum_congr rfl
  intro k' _
  split
  · next h =>
    rw [groupMean_congr eps cpg G k k' h, groupMean, total_eq cpg G k (fun v k' => v k')]
    rfl
  · rfl

theorem rt_pos (rt : K → K) (hrt : ∀ q, 0 ≤ q → 0 ≤ rt q ∧ rt q ^ 2 = q) {q : K} (hq : 0 < q) : 0 < rt q := by
  obtain ⟨s0, s1⟩ := hrt q hq.le
  rcases s0.lt_or_eq with h | h
  · exact h
  · rw [← h] at s1; linarith [show (0 : K) ^ 2 = 0 by ring]

/-- **C183, the part that holds.** Group normalisation of features that are scaled and shifted per sample and group: the output is that of features which are scaled by the same factor, not
shifted, but whose centred values are moved by `eps / (n + eps)` times the shift, `n` being the number of entries of the group; the variance changes accordingly.  Missing: the output should be
unchanged (`C183_violated`); this term and the `eps` added to the variance prevent that. -/
theorem C183_affine_partial (rt : K → K) (hrt : ∀ q, 0 ≤ q → 0 ≤ rt q ∧ rt q ^ 2 = q) (eps : K) (he : 0 < eps) (cpg : Nat) (hcpg : 0 < cpg) (hC : cpg ∣ C)
    (nempty : Bool) (weights bias : Fin C → K) (o : Octree F) (h : Nat) (w : o.Valid h) (d : Nat) (hd : d ≤ h) (cells : List Cell) (ch : List Int)
    (hc : CellsOf o.batchSize d o.keys cells) (hch : o.children d = some ch) (x : List (Fin C → K)) (hx : x.length = (queried nempty cells ch).length)
    (a t : Nat → Fin C → K) (ha : ∀ b, PerGroup cpg (a b)) (ht : ∀ b, PerGroup cpg (t b)) :
    ∃ y y', groupNorm rt eps cpg nempty weights bias x o d = .ok y ∧ groupNorm rt eps cpg nempty weights bias (rescaled a t (queried nempty cells ch) x) o d = .ok y' ∧
      ∀ (i : Nat) (c : Cell) (v : Fin C → K), (queried nempty cells ch)[i]? = some c → x[i]? = some v → ∃ u u', y[i]? = some u ∧ y'[i]? = some u' ∧
        ∀ k, ∃ n S var var' z s s' : K, n = (rowsOf (queried nempty cells ch) x c.b).length * cpg ∧ S = groupTotal cpg (rowsOf (queried nempty cells ch) x c.b) k ∧
          (n + eps) * var = groupSpread cpg (rowsOf (queried nempty cells ch) x c.b) k (S / (n + eps)) ∧ 0 ≤ var ∧ 0 ≤ var' ∧
          var' = a c.b k ^ 2 * var + (eps / (n + eps)) ^ 2 * t c.b k * (2 * a c.b k * S + n * t c.b k) / (n + eps) ∧
          0 < s ∧ 0 < s' ∧ s ^ 2 = var + eps ∧ s' ^ 2 = var' + eps ∧
          z = v k - S / (n + eps) ∧ u k = z / s * weights k + bias k ∧ u' k = (a c.b k * z + t c.b k * (eps / (n + eps))) / s' * weights k + bias k := by
  have e := C56_group_norm rt eps cpg hcpg nempty weights bias o h w d hd cells ch hc hch x hx
  have e' := C56_group_norm rt eps cpg hcpg nempty weights bias o h w d hd cells ch hc hch (rescaled a t (queried nempty cells ch) x) (by
    unfold rescaled; rw [List.length_zipWith, hx, Nat.min_self])
  refine ⟨_, _, e, e', ?_⟩
  intro i c v hi hv
  have ev : (rescaled a t (queried nempty cells ch) x)[i]? = some fun k => a c.b k * v k + t c.b k := by
    unfold rescaled; rw [List.getElem?_zipWith, hi, hv]
  have er : ∀ b, rowsOf (queried nempty cells ch) (rescaled a t (queried nempty cells ch) x) b
      = (rowsOf (queried nempty cells ch) x b).map fun v k => a b k * v k + t b k := by
    intro b
    exact rowsOf_zipWith_left (queried nempty cells ch) x (fun b v k => a b k * v k + t b k) b
  refine ⟨_, _, by rw [List.getElem?_zipWith, hi, hv], by rw [List.getElem?_zipWith, hi, ev], ?_⟩
  intro k
  rw [er]
  generalize rowsOf (queried nempty cells ch) x c.b = G
  have hv0 := groupVar_nonneg eps he cpg G k
  have hv1 := groupVar_nonneg eps he cpg (G.map fun v k => a c.b k * v k + t c.b k) k
  refine ⟨_, _, groupVar eps cpg G k, groupVar eps cpg (G.map fun v k => a c.b k * v k + t c.b k) k, v k - groupMean eps cpg G k, _, _, rfl, rfl, groupVar_spec eps he cpg G k, hv0, hv1,
    var_affine eps he cpg hC _ _ (ha _) (ht _) G k, rt_pos rt hrt (show 0 < groupVar eps cpg G k + eps by linarith),
    rt_pos rt hrt (show 0 < groupVar eps cpg (G.map fun v k => a c.b k * v k + t c.b k) k + eps by linarith), (hrt _ (by linarith)).2, (hrt _ (by linarith)).2, ?_, rfl, ?_⟩
  · unfold groupMean
    rw [total_eq cpg G k (fun v k' => v k')]
    rfl
  · unfold normRow
    rw [mean_affine eps he cpg hC _ _ (ha _) (ht _) G k v]

/-- **C183, the part that holds**, scaling: multiplying the features of a sample and group by a factor `a ≥ 1` moves the normalised values `z` away from 0, by a factor of at most
`sqrt (1 + eps / var)`, and keeps their signs. -/
theorem C183_scale_partial (rt : K → K) (hrt : ∀ q, 0 ≤ q → 0 ≤ rt q ∧ rt q ^ 2 = q) (eps : K) (he : 0 < eps) (cpg : Nat) (hcpg : 0 < cpg) (hC : cpg ∣ C)
    (nempty : Bool) (weights bias : Fin C → K) (o : Octree F) (h : Nat) (w : o.Valid h) (d : Nat) (hd : d ≤ h) (cells : List Cell) (ch : List Int)
    (hc : CellsOf o.batchSize d o.keys cells) (hch : o.children d = some ch) (x : List (Fin C → K)) (hx : x.length = (queried nempty cells ch).length)
    (a : Nat → Fin C → K) (ha : ∀ b, PerGroup cpg (a b)) (ha1 : ∀ b k, 1 ≤ a b k) :
    ∃ y y', groupNorm rt eps cpg nempty weights bias x o d = .ok y ∧
      groupNorm rt eps cpg nempty weights bias (rescaled a (fun _ _ => 0) (queried nempty cells ch) x) o d = .ok y' ∧
      ∀ (i : Nat) (c : Cell) (v : Fin C → K), (queried nempty cells ch)[i]? = some c → x[i]? = some v → ∃ u u', y[i]? = some u ∧ y'[i]? = some u' ∧
        ∀ k, ∃ n m z z' var : K, n = (rowsOf (queried nempty cells ch) x c.b).length * cpg ∧ m = groupTotal cpg (rowsOf (queried nempty cells ch) x c.b) k / (n + eps) ∧
          (n + eps) * var = groupSpread cpg (rowsOf (queried nempty cells ch) x c.b) k m ∧
          u k = z * weights k + bias k ∧ u' k = z' * weights k + bias k ∧ 0 ≤ var ∧ 0 ≤ z * z' ∧
          z ^ 2 ≤ z' ^ 2 ∧ z' ^ 2 * var ≤ z ^ 2 * (var + eps) := by
  obtain ⟨y, y', h1, h2, h3⟩ := C183_affine_partial rt hrt eps he cpg hcpg hC nempty weights bias o h w d hd cells ch hc hch x hx a (fun _ _ => 0) ha
    (fun _ _ _ _ => rfl)
  refine ⟨y, y', h1, h2, ?_⟩
  intro i c v hi hv
  obtain ⟨u, u', g1, g2, g3⟩ := h3 i c v hi hv
  refine ⟨u, u', g1, g2, ?_⟩
  intro k
  obtain ⟨n, S, var, var', z, s, s', c1, c2, c3, b1, b2, b3, b4, b5, b6, b7, -, b8, b9⟩ := g3 k
  have ha0 : 1 ≤ a c.b k := ha1 c.b k
  generalize a c.b k = q at *
  simp only [mul_zero, zero_mul, zero_div, add_zero] at b3 b9
  have hq2 : 1 ≤ q ^ 2 := by nlinarith
  have e1 : (z / s) ^ 2 = z ^ 2 / (var + eps) := by rw [div_pow, b6]
  have e2 : (q * z / s') ^ 2 = q ^ 2 * z ^ 2 / (q ^ 2 * var + eps) := by rw [div_pow, b7, b3]; ring
  have p1 : 0 < var + eps := by linarith
  have p2 : 0 < q ^ 2 * var + eps := by positivity
  refine ⟨n, S / (n + eps), z / s, q * z / s', var, c1, by rw [c2], c3, b8, b9, b1, ?_, ?_, ?_⟩
  · have : z / s * (q * z / s') = q * z ^ 2 / (s * s') := by field_simp
    rw [this]
    positivity
  · rw [e1, e2, div_le_div_iff₀ p1 p2]
    have : 0 ≤ z ^ 2 * eps := by positivity
    nlinarith
  · rw [e1, e2, div_mul_cancel₀ _ p1.ne', div_mul_eq_mul_div, div_le_iff₀ p2]
    have : 0 ≤ z ^ 2 * eps := by positivity
    nlinarith

/-- **C183, the part that holds**, constant features: if all entries of a sample and group are `t`, the square of the normalised value (which should be 0) is at most
`t² eps / (n + eps)²`. -/
theorem C183_constant_partial (rt : K → K) (hrt : ∀ q, 0 ≤ q → 0 ≤ rt q ∧ rt q ^ 2 = q) (eps : K) (he : 0 < eps) (cpg : Nat) (hcpg : 0 < cpg) (hC : cpg ∣ C)
    (nempty : Bool) (weights bias : Fin C → K) (o : Octree F) (h : Nat) (w : o.Valid h) (d : Nat) (hd : d ≤ h) (cells : List Cell) (ch : List Int)
    (hc : CellsOf o.batchSize d o.keys cells) (hch : o.children d = some ch) (t : Nat → Fin C → K) (ht : ∀ b, PerGroup cpg (t b)) :
    ∃ y, groupNorm rt eps cpg nempty weights bias ((queried nempty cells ch).map fun c => t c.b) o d = .ok y ∧
      ∀ (i : Nat) (c : Cell), (queried nempty cells ch)[i]? = some c → ∃ u, y[i]? = some u ∧
        ∀ k, ∃ n z s : K, n = ((queried nempty cells ch).countP fun c' => decide (c'.b = c.b)) * cpg ∧ u k = z * weights k + bias k ∧
          0 < s ∧ z = t c.b k * (eps / (n + eps)) / s ∧ s ^ 2 = (eps / (n + eps)) ^ 2 * t c.b k ^ 2 * n / (n + eps) + eps ∧ z ^ 2 ≤ t c.b k ^ 2 * eps / (n + eps) ^ 2 := by
  have hz : rescaled (fun _ _ => (1 : K)) t (queried nempty cells ch) ((queried nempty cells ch).map fun _ _ => 0) = (queried nempty cells ch).map fun c => t c.b := by
    unfold rescaled
    rw [List.zipWith_map_right, List.zipWith_self]
    simp
  obtain ⟨y, y', -, h2, h3⟩ := C183_affine_partial rt hrt eps he cpg hcpg hC nempty weights bias o h w d hd cells ch hc hch
    ((queried nempty cells ch).map fun _ _ => 0) (by simp) (fun _ _ => 1) t (fun _ _ _ _ => rfl) ht
  rw [hz] at h2
  refine ⟨y', h2, ?_⟩
  intro i c hi
  obtain ⟨u, u', -, g2, g3⟩ := h3 i c (fun _ => 0) hi (by rw [List.getElem?_map, hi]; rfl)
  refine ⟨u', g2, ?_⟩
  intro k
  obtain ⟨n, S, var, var', z, s, s', b0, bS, bv, b1, b2, b3, b4, b5, b6, b7, bz, b8, b9⟩ := g3 k
  have hrows : rowsOf (queried nempty cells ch) ((queried nempty cells ch).map fun _ => (fun _ => 0 : Fin C → K)) c.b
      = List.replicate ((queried nempty cells ch).countP fun c' => decide (c'.b = c.b)) (fun _ => 0) := by
    generalize queried nempty cells ch = Q
    clear * -
    unfold rowsOf
    induction Q with
    | nil => rfl
    | cons q Q ih =>
      simp only [List.map_cons, List.zip_cons_cons, List.filter_cons, List.countP_cons]
      by_cases hq : q.b = c.b
      · simp only [hq, decide_true, if_true, List.replicate_succ]
        rw [List.map_cons, ih]
      · simp only [hq, decide_false, Bool.false_eq_true, if_false, Nat.add_zero]
        exact ih
  rw [hrows] at b0 bS bv
  have hS : S = 0 := by
    rw [bS]
    unfold groupTotal
    simp
  subst hS
  have hvar : var = 0 := by
    have hn : 0 < n + eps := by rw [b0]; positivity
    have : (n + eps) * var = 0 := by
      rw [bv]
      unfold groupSpread
      simp
    rcases mul_eq_zero.1 this with h | h
    · linarith
    · exact h
  subst hvar
  have hn : 0 ≤ n := by rw [b0]; positivity
  have hN : 0 < n + eps := by linarith
  simp only [zero_div, sub_zero] at bz
  subst bz
  refine ⟨n, t c.b k * (eps / (n + eps)) / s', s', by rw [b0, List.length_replicate], by rw [b9]; simp, b5, rfl, ?_, ?_⟩
  · rw [b7, b3]
    ring
  · rw [div_pow, b7, mul_pow, div_le_iff₀ (by linarith)]
    have e1 : t c.b k ^ 2 * (eps / (n + eps)) ^ 2 = t c.b k ^ 2 * eps / (n + eps) ^ 2 * eps := by
      field_simp
    rw [e1]
    have : 0 ≤ t c.b k ^ 2 * eps / (n + eps) ^ 2 * var' := by positivity
    linarith
end

/-- **C183 is violated**: a sample of one node with one channel, constant features.  The normalised value is 0 for the feature 0 and larger than 0.95 for the feature 1000. -/
theorem C183_violated : ∃ (o : Octree Unit) (y y' : List (Fin 1 → ℝ)), o.Valid 2 ∧ o.batchSize = 1 ∧
    groupNorm Real.sqrt (1 / 10 ^ 5) 1 false normWeights normBias [fun _ => (0 : ℝ)] o 0 = .ok y ∧
    groupNorm Real.sqrt (1 / 10 ^ 5) 1 false normWeights normBias [fun _ => (1000 : ℝ)] o 0 = .ok y' ∧
    y = [fun _ => 0] ∧ ∃ v, y' = [v] ∧ 95 / 100 < v 0 := by
  obtain ⟨o, h1, hB, -⟩ := example_valid'
  have hc := h1.wf'.cellsOf 0 (by omega)
  have hch := h1.wf'.children 0 (by omega)
  have hl : layerCells o.batchSize o.masks 0 = [⟨0, 0, 0, 0⟩] := by
    rw [hB]; rfl
  rw [hl] at hc
  have main : ∀ r : ℝ, ∃ (y : List (Fin 1 → ℝ)) (v : Fin 1 → ℝ) (s : ℝ), groupNorm Real.sqrt (1 / 10 ^ 5) 1 false normWeights normBias [fun _ => r] o 0 = .ok y ∧ y = [v] ∧
      0 < s ∧ v 0 = r * (1 / 10 ^ 5 / (1 + 1 / 10 ^ 5)) / s ∧ s ^ 2 = (1 / 10 ^ 5 / (1 + 1 / 10 ^ 5)) ^ 2 * r ^ 2 * 1 / (1 + 1 / 10 ^ 5) + 1 / 10 ^ 5 := by
    intro r
    obtain ⟨y, e1, e2⟩ := C183_constant_partial (K := ℝ) (C := 1) Real.sqrt (fun q hq => ⟨Real.sqrt_nonneg q, Real.sq_sqrt hq⟩) (1 / 10 ^ 5) (by norm_num) 1 (by norm_num)
      (by norm_num) false normWeights normBias o 2 h1 0 (by omega) _ _ hc hch (fun _ _ => r) (fun _ _ _ _ => rfl)
    have e3 := e1
    rw [C56_group_norm Real.sqrt (1 / 10 ^ 5) 1 (by norm_num) false normWeights normBias o 2 h1 0 (by omega) _ _ hc hch _ (by simp)] at e3
    have hy := Except.ok.inj e3
    obtain ⟨u, u1, u2⟩ := e2 0 ⟨0, 0, 0, 0⟩ (by simp [queried])
    obtain ⟨n, z, s, b1, b2, b3, b4, b5, -⟩ := u2 0
    have hn : n = 1 := by rw [b1]; simp [queried]
    subst hn
    refine ⟨y, u, s, by simpa [queried] using e1, ?_, b3, ?_, by linarith⟩
    · have hlen : y.length = 1 := by rw [← hy]; simp [queried]
      obtain ⟨a, rfl⟩ := List.length_eq_one_iff.1 hlen
      simpa using u1
    · rw [b2, b4]; simp [normWeights, normBias]
  obtain ⟨y, v, s, a1, a2, a3, a4, a5⟩ := main 0
  obtain ⟨y', v', s', c1, c2, c3, c4, c5⟩ := main 1000
  refine ⟨o, y, y', h1, hB, a1, c1, ?_, v', c2, ?_⟩
  · rw [a2]
    congr 1
    funext k
    rw [Subsingleton.elim k 0, a4]
    simp
  · rw [c4, lt_div_iff₀ c3]
    have h2 : s' ^ 2 < (105 / 10 ^ 4) ^ 2 := by rw [c5]; norm_num
    have h3 : s' < 105 / 10 ^ 4 := lt_of_pow_lt_pow_left₀ 2 (by norm_num) h2
    norm_num at *
    linarith

/-- The real square root and an octree with eight rows of four channels in two groups meet the hypotheses, with a factor 2 and a shift 3 in the first group. -/
example : ∃ (o : Octree Unit) (cells : List Cell) (ch : List Int) (x : List (Fin 4 → ℝ)) (a t : Nat → Fin 4 → ℝ), (∀ q : ℝ, 0 ≤ q → 0 ≤ Real.sqrt q ∧ Real.sqrt q ^ 2 = q) ∧
    2 ∣ 4 ∧ o.Valid 2 ∧ CellsOf o.batchSize 1 o.keys cells ∧ o.children 1 = some ch ∧
    x.length = (queried false cells ch).length ∧ x.length = 8 ∧ (∀ b, PerGroup 2 (a b)) ∧ (∀ b, PerGroup 2 (t b)) ∧ (∀ b k, 1 ≤ a b k) ∧ a 0 0 = 2 ∧ t 0 1 = 3 := by
  obtain ⟨o, h1, -, -, h4, -⟩ := example_valid'
  have hc := h1.wf'.cellsOf 1 (by omega)
  have hch := h1.wf'.children 1 (by omega)
  refine ⟨o, _, _, (List.range 8).map (fun i k => (i : ℝ) + (k.val : ℝ)), fun _ k => if k.val / 2 = 0 then 2 else 1, fun _ k => if k.val / 2 = 0 then 3 else 0,
    fun q hq => ⟨Real.sqrt_nonneg q, Real.sq_sqrt hq⟩, by norm_num, h1, hc, hch, ?_, by simp, ?_, ?_, ?_, by norm_num, by norm_num⟩
  · rw [queried_length h1 1 (by omega) false _ _ hc hch, if_neg (by simp), h4]
    simp
  · intro b k k' h; simp only [h]
  · intro b k k' h; simp only [h]
  · intro b k; beta_reduce; split <;> norm_num

end Ocnn
