import Verif.PropsPoolAvg

/-! Property C56: group and instance normalisation. -/

set_option linter.unusedSimpArgs false

namespace Ocnn
open Spec

variable {F V K : Type}

/-! ### specification -/

/-- The sum over the channels of the group of channel `k`. -/
def Spec.groupSum [AddCommMonoid K] {C : Nat} (cpg : Nat) (t : Fin C → K) (k : Fin C) : K :=
  ∑ k', if k'.val / cpg = k.val / cpg then t k' else 0

/-- The mean of the group of channel `k` over the rows `G` (with `eps` in the denominator). -/
def Spec.groupMean [Field K] {C : Nat} (eps : K) (cpg : Nat) (G : List (Fin C → K)) (k : Fin C) : K :=
  groupSum cpg (fun k' => (G.map fun v => v k').sum) k / ((G.length : K) * cpg + eps)

/-- The variance of the group of channel `k` over the rows `G`. -/
def Spec.groupVar [Field K] {C : Nat} (eps : K) (cpg : Nat) (G : List (Fin C → K)) (k : Fin C) : K :=
  groupSum cpg (fun k' => (G.map fun v => (v k' - groupMean eps cpg G k') ^ 2).sum) k / ((G.length : K) * cpg + eps)

/-- Row `v` normalised with the statistics of the rows `G`. -/
def Spec.normRow [Field K] {C : Nat} (rt : K → K) (eps : K) (cpg : Nat) (weights bias : Fin C → K) (G : List (Fin C → K)) (v : Fin C → K) :
    Fin C → K :=
  fun k => (v k - groupMean eps cpg G k) / rt (groupVar eps cpg G k + eps) * weights k + bias k

/-! ### lemmas -/

theorem filter_sum [AddCommMonoid K] {α : Type} (l : List α) (p : α → Bool) (t : α → K) :
    ((l.filter p).map t).sum = (l.map fun a => if p a then t a else 0).sum := by
  induction l with
  | nil => rfl
  | cons a l ih =>
    rw [List.filter_cons]
    cases hp : p a <;> simp [hp, ih]

theorem adjust_eq [AddCommMonoid K] {C : Nat} (cpg : Nat) (h : 0 < cpg) (t : Fin C → K) : adjustForGroup cpg t = groupSum cpg t := by
  funext k
  unfold adjustForGroup groupSum
  split
  · show ((List.filter _ _).map t).sum = _
    rw [Fin.sum_univ_def, filter_sum]
    simp
  · have : cpg = 1 := by omega
    subst this
    rw [Finset.sum_eq_single k]
    · simp
    · intro k' _ hne
      rw [if_neg]
      simp only [Nat.div_one]
      exact fun e => hne (Fin.ext e)
    · intro hn; exact absurd (Finset.mem_univ _) hn

theorem groupSum_mul [CommSemiring K] {C : Nat} (cpg : Nat) (t : Fin C → K) (i : K) (k : Fin C) :
    groupSum cpg (fun c => t c * i) k = groupSum cpg t k * i := by
  unfold groupSum
  rw [Finset.sum_mul]
  apply Finset.sum_congr rfl
  intro k' _
  split <;> simp

theorem rowsOf_zipWith {A B : Type} (Q : List Cell) (x : List V) (g : V → A → B) (m : Nat → A) (b : Nat) :
    rowsOf Q (List.zipWith g x (Q.map fun c => m c.b)) b = (rowsOf Q x b).map fun v => g v (m b) := by
  unfold rowsOf
  induction Q generalizing x with
  | nil => rfl
  | cons c Q ih =>
    cases x with
    | nil => simp
    | cons v x =>
      simp only [List.map_cons, List.zipWith_cons_cons, List.zip_cons_cons, List.filter_cons]
      by_cases hb : c.b = b
      · simp only [hb, decide_true, if_true, List.map_cons, List.cons.injEq, true_and]
        exact ih x
      · simp only [hb, decide_false, Bool.false_eq_true, if_false]
        exact ih x

theorem rowsOf_map {A : Type} (Q : List Cell) (x : List V) (g : V → A) (b : Nat) : rowsOf Q (x.map g) b = (rowsOf Q x b).map g := by
  unfold rowsOf
  induction Q generalizing x with
  | nil => rfl
  | cons c Q ih =>
    cases x with
    | nil => rfl
    | cons v x =>
      simp only [List.map_cons, List.zip_cons_cons, List.filter_cons]
      by_cases hb : c.b = b
      · simp only [hb, decide_true, if_true, List.map_cons, ih x]
      · simp only [hb, decide_false, Bool.false_eq_true, if_false, ih x]

theorem rowsOf_ones [Semiring K] (Q : List Cell) (x : List V) (b : Nat) :
    (rowsOf Q (List.replicate x.length (1 : K)) b).sum = ((rowsOf Q x b).length : K) := by
  rw [← rowsOf_length Q (List.replicate x.length (1 : K)) b x (by simp)]
  have hall : ∀ v ∈ rowsOf Q (List.replicate x.length (1 : K)) b, v = 1 := fun v hv => List.eq_of_mem_replicate (rowsOf_mem hv)
  rw [List.eq_replicate_of_mem hall]
  simp

theorem indexSelect_range {A : Type} (n : Nat) (g : Nat → A) (ids : List Nat) (h : ∀ i ∈ ids, i < n) :
    indexSelect ((List.range n).map g) ids = .ok (ids.map g) := by
  unfold indexSelect
  apply mapM_ok
  intro i hi
  rw [List.getElem?_map, List.getElem?_range (h i hi)]
  rfl

theorem zipWith_range {A B D : Type} (n : Nat) (f : A → B → D) (g : Nat → A) (g' : Nat → B) :
    List.zipWith f ((List.range n).map g) ((List.range n).map g') = (List.range n).map fun i => f (g i) (g' i) := by
  induction List.range n with
  | nil => rfl
  | cons a l ih => simp [ih]

/-! ### the property -/

/-- **C56.** Every row of the output is the input row normalised with the statistics of its own sample's rows. -/
theorem C56_group_norm [Field K] {C : Nat} (rt : K → K) (eps : K) (cpg : Nat) (hcpg : 0 < cpg) (nempty : Bool) (weights bias : Fin C → K)
    (o : Octree F) (h : Nat) (w : o.Valid h) (d : Nat) (hd : d ≤ h) (cells : List Cell) (ch : List Int)
    (hc : CellsOf o.batchSize d o.keys cells) (hch : o.children d = some ch) (x : List (Fin C → K))
    (hx : x.length = (queried nempty cells ch).length) :
    groupNorm rt eps cpg nempty weights bias x o d = .ok (List.zipWith (fun c v =>
      normRow rt eps cpg weights bias (rowsOf (queried nempty cells ch) x c.b) v) (queried nempty cells ch) x) := by
  obtain ⟨hr', -, -, hid, -⟩ := C27_xyzb o h w d hd cells hc ch hch nempty
  revert hr' hid hx
  generalize queried nempty cells ch = Q
  intro hx hQ hid
  have hlt : ∀ b ∈ Q.map Cell.b, b < o.batchSize := by
    intro b hb
    obtain ⟨c, hc, rfl⟩ := List.mem_map.1 hb
    exact (hQ c hc).1
  have hmean : ∀ b : Nat, adjustForGroup cpg (fun c => (rowsOf Q x b).sum c * (1 / (((rowsOf Q x b).length : K) * (cpg : K) + eps)))
      = groupMean eps cpg (rowsOf Q x b) := by
    intro b
    rw [adjust_eq cpg hcpg]
    funext k
    rw [groupSum_mul, groupMean, mul_one_div]
    congr 2
    funext k'
    rw [listSum_apply]
  have hvar : ∀ b : Nat, adjustForGroup cpg (fun c => ((rowsOf Q x b).map fun v => fun c => (v c - groupMean eps cpg (rowsOf Q x b) c) ^ 2).sum c
        * (1 / (((rowsOf Q x b).length : K) * (cpg : K) + eps))) = groupVar eps cpg (rowsOf Q x b) := by
    intro b
    rw [adjust_eq cpg hcpg]
    funext k
    rw [groupSum_mul, groupVar, mul_one_div]
    congr 2
    funext k'
    rw [listSum_apply, List.map_map]
    rfl
  unfold groupNorm
  simp only [hid, bind, Except.bind]
  rw [scatterAdd_some (List.replicate x.length (1 : K)) (Q.map Cell.b) o.batchSize (by simp [hx]) hlt]
  simp only []
  rw [scatterAdd_some x (Q.map Cell.b) o.batchSize (by simp [hx]) hlt]
  simp only [rowsOf_eq, rowsOf_ones, List.map_map, Function.comp_def, zipWith_range, hmean]
  rw [indexSelect_range _ _ _ hlt]
  simp only [List.map_map, Function.comp_def, List.length_map, hx, ne_eq, not_true, if_false]
  rw [show (Q.map fun c => Int.ofNat c.b) = (Q.map Cell.b).map Int.ofNat by rw [List.map_map]; rfl]
  rw [scatterAdd_some _ (Q.map Cell.b) o.batchSize (by simp [hx]) hlt]
  simp only [rowsOf_eq, rowsOf_map, rowsOf_zipWith Q x (fun x m => fun c => x c - m c) (fun b => groupMean eps cpg (rowsOf Q x b)),
    List.map_map, Function.comp_def, zipWith_range, hvar]
  rw [indexSelect_range _ _ _ hlt]
  simp only [List.map_map, Function.comp_def, List.length_map, List.length_zipWith, hx, Nat.min_self, ne_eq, not_true, if_false, pure, Except.pure]
  congr 1
  apply List.ext_getElem
  · simp [hx]
  · intro i h1 h2
    simp only [List.getElem_map, List.getElem_zipWith]
    funext k
    simp only [normRow]
    rw [mul_one_div]

theorem rowsOf_zipWith_left {B : Type} (Q : List Cell) (x : List V) (g : Nat → V → B) (b : Nat) :
    rowsOf Q (List.zipWith (fun c v => g c.b v) Q x) b = (rowsOf Q x b).map (g b) := by
  unfold rowsOf
  induction Q generalizing x with
  | nil => rfl
  | cons c Q ih =>
    cases x with
    | nil => simp
    | cons v x =>
      simp only [List.zipWith_cons_cons, List.zip_cons_cons, List.filter_cons]
      by_cases hb : c.b = b
      · simp only [hb, decide_true, if_true, List.map_cons, List.cons.injEq, true_and]
        exact ih x
      · simp only [hb, decide_false, Bool.false_eq_true, if_false]
        exact ih x

theorem rowsOf_single (Q : List Cell) (x : List V) (h : x.length = Q.length) (b : Nat) (hb : ∀ c ∈ Q, c.b = b) : rowsOf Q x b = x := by
  unfold rowsOf
  induction Q generalizing x with
  | nil => cases x with
    | nil => rfl
    | cons v x => simp at h
  | cons c Q ih =>
    cases x with
    | nil => rfl
    | cons v x =>
      simp only [List.zip_cons_cons, List.filter_cons, hb c List.mem_cons_self, decide_true, if_true, List.map_cons, List.cons.injEq, true_and]
      exact ih x (by simpa using h) (fun c hc => hb c (List.mem_cons_of_mem _ hc))

theorem zipWith_const {B : Type} (Q : List Cell) (x : List V) (h : x.length = Q.length) (b : Nat) (hb : ∀ c ∈ Q, c.b = b) (g : Nat → V → B) :
    List.zipWith (fun c v => g c.b v) Q x = x.map (g b) := by
  induction Q generalizing x with
  | nil => cases x with
    | nil => rfl
    | cons v x => simp at h
  | cons c Q ih =>
    cases x with
    | nil => rfl
    | cons v x =>
      simp only [List.zipWith_cons_cons, List.map_cons, hb c List.mem_cons_self, List.cons.injEq, true_and]
      exact ih x (by simpa using h) (fun c hc => hb c (List.mem_cons_of_mem _ hc))

/-- **C56, sample by sample.** The rows of sample `b` in the output are the output for these rows alone, i.e. for an octree of one
sample with that many nodes. -/
theorem C56_alone [Field K] {C : Nat} (rt : K → K) (eps : K) (cpg : Nat) (hcpg : 0 < cpg) (nempty : Bool) (weights bias : Fin C → K)
    (o : Octree F) (h : Nat) (w : o.Valid h) (d : Nat) (hd : d ≤ h) (cells : List Cell) (ch : List Int)
    (hc : CellsOf o.batchSize d o.keys cells) (hch : o.children d = some ch) (x : List (Fin C → K))
    (hx : x.length = (queried nempty cells ch).length) (b : Nat)
    (o1 : Octree F) (h1 : Nat) (w1 : o1.Valid h1) (hb1 : o1.batchSize = 1) (hd1 : d ≤ h1) (cells1 : List Cell) (ch1 : List Int)
    (hc1 : CellsOf o1.batchSize d o1.keys cells1) (hch1 : o1.children d = some ch1)
    (hn : (queried nempty cells1 ch1).length = (rowsOf (queried nempty cells ch) x b).length) :
    ∃ out, groupNorm rt eps cpg nempty weights bias x o d = .ok out ∧
      groupNorm rt eps cpg nempty weights bias (rowsOf (queried nempty cells ch) x b) o1 d
        = .ok (rowsOf (queried nempty cells ch) out b) := by
  refine ⟨_, C56_group_norm rt eps cpg hcpg nempty weights bias o h w d hd cells ch hc hch x hx, ?_⟩
  rw [C56_group_norm rt eps cpg hcpg nempty weights bias o1 h1 w1 d hd1 cells1 ch1 hc1 hch1 _ hn.symm]
  obtain ⟨hr1, -⟩ := C27_xyzb o1 h1 w1 d hd1 cells1 hc1 ch1 hch1 nempty
  revert hr1 hn
  generalize queried nempty cells1 ch1 = Q1
  generalize queried nempty cells ch = Q
  intro hn hr1
  have hb : ∀ c ∈ Q1, c.b = 0 := by
    intro c hc
    have := (hr1 c hc).1
    omega
  rw [rowsOf_zipWith_left Q x (fun b v => normRow rt eps cpg weights bias (rowsOf Q x b) v)]
  rw [zipWith_const Q1 _ hn.symm 0 hb (fun b' v => normRow rt eps cpg weights bias (rowsOf Q1 (rowsOf Q x b) b') v)]
  rw [rowsOf_single Q1 _ hn.symm 0 hb]

/-- **C56, the constructor.** A channel count not divisible by the group count is rejected, any other accepted. -/
theorem C56_init (c g : Nat) (hg : 0 < g) : (g ∣ c → ∃ cpg, groupNormInit c g = .ok cpg ∧ cpg * g = c) ∧
    (¬ g ∣ c → groupNormInit c g = .error .assertion) := by
  unfold groupNormInit
  rw [if_neg (by omega)]
  constructor
  · intro hdvd
    refine ⟨c / g, ?_, Nat.div_mul_cancel hdvd⟩
    rw [pyAssert, if_pos (Nat.mod_eq_zero_of_dvd hdvd)]
    rfl
  · intro hdvd
    rw [pyAssert, if_neg (fun e => hdvd (Nat.dvd_of_mod_eq_zero e))]
    rfl

/-- **C56, instance normalisation** (`OctreeInstanceNorm` has as many groups as channels): one channel per group, so every channel is
normalised with its own mean and variance. -/
theorem C56_instance [Field K] {C : Nat} (hC : 0 < C) (rt : K → K) (eps : K) (weights bias : Fin C → K) (G : List (Fin C → K)) (v : Fin C → K)
    (k : Fin C) : groupNormInit C C = .ok 1 ∧
    normRow rt eps 1 weights bias G v k =
      (let mean := (G.map fun v => v k).sum / ((G.length : K) + eps)
       let var := (G.map fun v => (v k - mean) ^ 2).sum / ((G.length : K) + eps)
       (v k - mean) / rt (var + eps) * weights k + bias k) := by
  constructor
  · obtain ⟨cpg, h1, h2⟩ := (C56_init C C hC).1 dvd_rfl
    rw [h1]
    have : cpg * C = 1 * C := by omega
    rw [Nat.eq_of_mul_eq_mul_right hC this]
  · have hs : ∀ t : Fin C → K, groupSum 1 t = t := by
      intro t
      rw [← adjust_eq 1 (by omega)]
      unfold adjustForGroup
      rw [if_neg (by omega)]
    simp only [normRow, groupMean, groupVar, hs, Nat.cast_one, mul_one]

/-- Non-vacuity: the octree of `example_valid'` with one row per node of depth 1. -/
example : ∃ (o : Octree Unit) (cells : List Cell) (ch : List Int) (x : List (Fin 4 → ℚ)), o.Valid 2 ∧ CellsOf o.batchSize 1 o.keys cells ∧
    o.children 1 = some ch ∧ x.length = (queried false cells ch).length ∧ x.length = 8 ∧ groupNormInit 4 2 = .ok 2 := by
  obtain ⟨o, h1, -, -, h4, -⟩ := example_valid'
  have hc := h1.wf'.cellsOf 1 (by omega)
  have hch := h1.wf'.children 1 (by omega)
  refine ⟨o, _, _, List.replicate 8 (fun k => (k.val : ℚ)), h1, hc, hch, ?_, by simp, rfl⟩
  rw [queried_length h1 1 (by omega) false _ _ hc hch, if_neg (by simp), h4]
  simp

end Ocnn
