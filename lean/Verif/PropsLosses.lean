import Verif.Losses
import Verif.PropsCloudFiles
import Mathlib.Algebra.BigOperators.Field
import Verif.PropsProjects

/-! Properties C140 and C141: the reported losses and the accumulated probabilities. -/

namespace Ocnn
open Spec

namespace Spec

/-- The probability of class `c` in the Boltzmann distribution with the given scores. -/
noncomputable def prob (row : List ℝ) (c : Nat) : ℝ := Real.exp (row.getD c 0) / (row.map Real.exp).sum

/-- Rows and labels of a batch: at least one row, and every label is a class. -/
structure LegalRows (logit : List (List ℝ)) (label : List Int) : Prop where
  length : logit.length = label.length
  pos : logit ≠ []
  range : ∀ e ∈ logit.zip label, 0 ≤ e.2 ∧ e.2 < (e.1.length : Int)

end Spec

theorem exp_sum_nonneg (row : List ℝ) : 0 ≤ (row.map Real.exp).sum := by
  apply List.sum_nonneg
  intro x hx
  obtain ⟨y, -, rfl⟩ := List.mem_map.1 hx
  exact (Real.exp_pos y).le

theorem exp_le_sum (row : List ℝ) (i : Nat) (v : ℝ) (h : row[i]? = some v) : Real.exp v ≤ (row.map Real.exp).sum := by
  induction row generalizing i with
  | nil => simp at h
  | cons x xs ih =>
    rw [List.map_cons, List.sum_cons]
    have h0 := exp_sum_nonneg xs
    have h1 := (Real.exp_pos x).le
    cases i with
    | zero =>
      simp only [List.getElem?_cons_zero, Option.some.injEq] at h
      subst h
      linarith
    | succ i =>
      rw [List.getElem?_cons_succ] at h
      have := ih i h
      linarith

theorem exp_two_le_sum (row : List ℝ) (i j : Nat) (v w : ℝ) (hi : row[i]? = some v) (hj : row[j]? = some w) (hij : i ≠ j) :
    Real.exp v + Real.exp w ≤ (row.map Real.exp).sum := by
  induction row generalizing i j with
  | nil => simp at hi
  | cons x xs ih =>
    rw [List.map_cons, List.sum_cons]
    have h1 := (Real.exp_pos x).le
    cases i with
    | zero =>
      cases j with
      | zero => exact absurd rfl hij
      | succ j =>
        simp only [List.getElem?_cons_zero, Option.some.injEq] at hi
        subst hi
        rw [List.getElem?_cons_succ] at hj
        have := exp_le_sum xs j w hj
        linarith
    | succ i =>
      rw [List.getElem?_cons_succ] at hi
      cases j with
      | zero =>
        simp only [List.getElem?_cons_zero, Option.some.injEq] at hj
        subst hj
        have := exp_le_sum xs i v hi
        linarith
      | succ j =>
        rw [List.getElem?_cons_succ] at hj
        have := ih i j hi hj (by omega)
        linarith

theorem nllRow_ok (row : List ℝ) (l : Int) (h0 : 0 ≤ l) (h1 : l < (row.length : Int)) :
    nllRow row l = .ok (some (- Real.log (prob row l.toNat))) := by
  obtain ⟨n, rfl⟩ := Int.eq_ofNat_of_zero_le h0
  have hn : n < row.length := by omega
  obtain ⟨v, hv⟩ : ∃ v, row[n]? = some v := ⟨_, List.getElem?_eq_getElem hn⟩
  unfold nllRow
  rw [if_neg (by omega), if_neg (by omega), Int.toNat_natCast, hv]
  simp only [Except.ok.injEq, Option.some.injEq]
  have hs : 0 < (row.map Real.exp).sum := lt_of_lt_of_le (Real.exp_pos v) (exp_le_sum row n v hv)
  unfold prob
  rw [List.getD_eq_getElem?_getD, hv, Option.getD_some, Real.log_div (Real.exp_pos v).ne' hs.ne', Real.log_exp]
  ring

theorem prob_le_one (row : List ℝ) (n : Nat) (hn : n < row.length) : 0 < prob row n ∧ prob row n ≤ 1 := by
  obtain ⟨v, hv⟩ : ∃ v, row[n]? = some v := ⟨_, List.getElem?_eq_getElem hn⟩
  have h1 := exp_le_sum row n v hv
  have h2 := Real.exp_pos v
  unfold prob
  rw [List.getD_eq_getElem?_getD, hv, Option.getD_some]
  have hs : 0 < (row.map Real.exp).sum := by linarith
  exact ⟨div_pos h2 hs, (div_le_one hs).2 h1⟩

/-- A class that is not the first best one has at most half the probability. -/
theorem prob_le_half (row : List ℝ) (n p : Nat) (hn : n < row.length) (hp : IsArgmax row p) (h : p ≠ n) : prob row n ≤ 1 / 2 := by
  obtain ⟨v, hv⟩ : ∃ v, row[n]? = some v := ⟨_, List.getElem?_eq_getElem hn⟩
  obtain ⟨m, hm, hle, -⟩ := hp
  have h1 := exp_two_le_sum row p n m v hm hv h
  have h2 := Real.exp_le_exp.2 (hle n v hv)
  have h3 := Real.exp_pos v
  unfold prob
  rw [List.getD_eq_getElem?_getD, hv, Option.getD_some, div_le_iff₀ (by linarith)]
  linarith

theorem crossEntropyLoss_ok (logit : List (List ℝ)) (label : List Int) (h : LegalRows logit label) :
    crossEntropyLoss logit label = .ok (((logit.zip label).map fun e => - Real.log (prob e.1 e.2.toNat)).sum / (logit.length : ℝ)) := by
  have hm : (logit.zip label).mapM (fun e => nllRow e.1 e.2) = .ok ((logit.zip label).map fun e => some (- Real.log (prob e.1 e.2.toNat))) :=
    mapM_pure _ _ _ fun e he => nllRow_ok e.1 e.2 (h.range e he).1 (h.range e he).2
  have hz : (logit.zip label).length = logit.length := by rw [List.length_zip, h.length, min_self]
  have hf : ((logit.zip label).map fun e => some (- Real.log (prob e.1 e.2.toNat))).filterMap id = (logit.zip label).map fun e => - Real.log (prob e.1 e.2.toNat) := by
    rw [List.filterMap_map]
    exact congrFun List.filterMap_eq_map _
  unfold crossEntropyLoss
  rw [if_neg (by rw [h.length]; exact fun e => e rfl), hm]
  simp only [bind, Except.bind]
  rw [hf, List.length_map, hz, if_neg (by have := List.length_pos_of_ne_nil h.pos; omega)]
  rfl

theorem wrong_count (logit : List (List ℝ)) (label : List Int) (pred : List Nat) (hl : logit.length = label.length) (hp : List.Forall₂ IsArgmax logit pred)
    (hr : ∀ e ∈ logit.zip label, 0 ≤ e.2 ∧ e.2 < (e.1.length : Int)) :
    ((logit.length : ℝ) - ((pred.zip label).countP fun p => decide ((p.1 : Int) = p.2) : Nat)) * Real.log 2
      ≤ ((logit.zip label).map fun e => - Real.log (prob e.1 e.2.toNat)).sum := by
  induction hp generalizing label with
  | nil => simp
  | @cons row p rows ps h1 h2 ih =>
    cases label with
    | nil => simp at hl
    | cons l ls =>
      have hh := hr (row, l) (by simp)
      have ht := ih ls (by simpa using hl) fun e he => hr e (by rw [List.zip_cons_cons]; exact List.mem_cons_of_mem _ he)
      have hlog : 0 < Real.log 2 := Real.log_pos (by norm_num)
      obtain ⟨n, rfl⟩ := Int.eq_ofNat_of_zero_le hh.1
      have hn : n < row.length := by simpa using hh.2
      have hb := prob_le_one row n hn
      have h0 : 0 ≤ - Real.log (prob row n) := by
        have := Real.log_nonpos hb.1.le hb.2
        linarith
      rw [List.zip_cons_cons, List.zip_cons_cons, List.map_cons, List.sum_cons, List.countP_cons, List.length_cons]
      simp only [Int.toNat_natCast]
      by_cases hpn : p = n
      · subst hpn
        simp only [decide_true, if_true]
        push_cast
        nlinarith
      · have hk := prob_le_half row n p hn h1 hpn
        have : Real.log 2 ≤ - Real.log (prob row n) := by
          have h5 := Real.log_le_log hb.1 hk
          rw [show (1 / 2 : ℝ) = 2⁻¹ by norm_num, Real.log_inv] at h5
          linarith
        rw [if_neg (by simpa using hpn)]
        push_cast
        nlinarith

/-- **C140.** The loss is the mean of the negative logarithms of the probabilities of the right classes; it is not negative, and it bounds the proportion of wrong
predictions: `(1 - accuracy) * log 2 ≤ loss`. -/
theorem C140_loss (logit : List (List ℝ)) (label : List Int) (h : LegalRows logit label) :
    ∃ loss accu, clsMetrics logit label = .ok (loss, accu) ∧
      loss = ((logit.zip label).map fun e => - Real.log (prob e.1 e.2.toNat)).sum / (logit.length : ℝ) ∧
      0 ≤ loss ∧ 0 ≤ accu ∧ accu ≤ 1 ∧ (1 - accu) * Real.log 2 ≤ loss := by
  have hne : ∀ r ∈ logit, r ≠ [] := by
    intro r hr e
    obtain ⟨i, hi, rfl⟩ := List.getElem_of_mem hr
    have := h.range (logit[i], label[i]'(by have := h.length; omega)) (by
      rw [List.mem_iff_getElem?]
      exact ⟨i, by rw [List.getElem?_zip_eq_some]; exact ⟨List.getElem?_eq_getElem hi, List.getElem?_eq_getElem _⟩⟩)
    simp only [e, List.length_nil] at this
    omega
  obtain ⟨pred, a, h1, h2, h3, h4, h5⟩ := C81_accuracy logit label hne h.length h.pos
  have hw := wrong_count logit label pred h.length h1 h.range
  have hpos : (0 : ℝ) < logit.length := by exact_mod_cast List.length_pos_of_ne_nil h.pos
  have hlog : 0 < Real.log 2 := Real.log_pos (by norm_num)
  refine ⟨_, a, by unfold clsMetrics; rw [crossEntropyLoss_ok logit label h, h2]; rfl, rfl, ?_, h4, h5, ?_⟩
  · apply div_nonneg _ hpos.le
    apply List.sum_nonneg
    intro x hx
    obtain ⟨e, he, rfl⟩ := List.mem_map.1 hx
    have hr := h.range e he
    have hb := prob_le_one e.1 e.2.toNat (by omega)
    have := Real.log_nonpos hb.1.le hb.2
    linarith
  · rw [le_div_iff₀ hpos]
    refine le_trans (le_of_eq ?_) hw
    rw [h3, ← h.length]
    field_simp

/-- **C140.** If the sum of the losses of a batch is below `log 2`, every prediction of the batch is right. -/
theorem C140_all_right (logit : List (List ℝ)) (label : List Int) (h : LegalRows logit label) (loss accu : ℝ)
    (he : clsMetrics logit label = .ok (loss, accu)) (hs : logit.length * loss < Real.log 2) : accu = 1 := by
  obtain ⟨l, a, h1, -, -, -, h5, h6⟩ := C140_loss logit label h
  rw [he] at h1
  obtain ⟨rfl, rfl⟩ := Prod.mk.inj (Except.ok.inj h1)
  have hne : ∀ r ∈ logit, r ≠ [] := by
    intro r hr e
    obtain ⟨i, hi, rfl⟩ := List.getElem_of_mem hr
    have := h.range (logit[i], label[i]'(by have := h.length; omega)) (by
      rw [List.mem_iff_getElem?]
      exact ⟨i, by rw [List.getElem?_zip_eq_some]; exact ⟨List.getElem?_eq_getElem hi, List.getElem?_eq_getElem _⟩⟩)
    simp only [e, List.length_nil] at this
    omega
  obtain ⟨pred, a, k1, k2, k3, k4, k5⟩ := C81_accuracy logit label hne h.length h.pos
  have ha : accu = a := by
    unfold clsMetrics at he
    rw [crossEntropyLoss_ok logit label h, k2] at he
    exact (Prod.mk.inj (Except.ok.inj he)).2.symm
  subst ha
  have hpos : (0 : ℝ) < logit.length := by exact_mod_cast List.length_pos_of_ne_nil h.pos
  have hlog : 0 < Real.log 2 := Real.log_pos (by norm_num)
  have hle : (pred.zip label).countP (fun p => decide ((p.1 : Int) = p.2)) ≤ label.length := by
    refine le_trans List.countP_le_length ?_
    rw [List.length_zip]
    exact Nat.min_le_right _ _
  rcases Nat.lt_or_ge ((pred.zip label).countP fun p => decide ((p.1 : Int) = p.2)) label.length with hlt | hge
  · exfalso
    have h7 : (((pred.zip label).countP fun p => decide ((p.1 : Int) = p.2) : Nat) : ℝ) + 1 ≤ logit.length := by
      rw [h.length]
      exact_mod_cast hlt
    have h8 : logit.length * ((1 - accu) * Real.log 2) ≤ logit.length * loss := mul_le_mul_of_nonneg_left h6 hpos.le
    have h9 : logit.length * (1 - accu) = logit.length - (((pred.zip label).countP fun p => decide ((p.1 : Int) = p.2) : Nat) : ℝ) := by
      rw [k3, ← h.length]
      field_simp
    have h10 : logit.length * ((1 - accu) * Real.log 2) = (logit.length * (1 - accu)) * Real.log 2 := by ring
    rw [h10, h9] at h8
    nlinarith
  · rw [k3, le_antisymm hle hge, ← h.length]
    exact div_self hpos.ne'

theorem argmax_shift (row : List ℝ) (c : ℝ) : argmax (row.map (· + c)) = argmax row := by
  have key : ∀ (xs : List ℝ) (b : ℝ) (bi i : Nat), argmaxFrom (b + c) bi i (xs.map (· + c)) = argmaxFrom b bi i xs := by
    intro xs
    induction xs with
    | nil => intros; rfl
    | cons x xs ih =>
      intro b bi i
      rw [List.map_cons, argmaxFrom, argmaxFrom, ih, ih]
      by_cases h : b < x
      · rw [if_pos h, if_pos (by linarith)]
      · rw [if_neg h, if_neg (by linarith)]
  cases row with
  | nil => rfl
  | cons x xs => rw [List.map_cons, argmax, argmax, key]

theorem nllRow_shift (row : List ℝ) (c : ℝ) (l : Int) : nllRow (row.map (· + c)) l = nllRow row l := by
  unfold nllRow
  split
  · rfl
  split
  · rfl
  rw [List.getElem?_map]
  cases hv : row[l.toNat]? with
  | none => rfl
  | some v =>
    have hs : 0 < (row.map Real.exp).sum := lt_of_lt_of_le (Real.exp_pos v) (exp_le_sum row _ v hv)
    have e : ((row.map (· + c)).map Real.exp).sum = (row.map Real.exp).sum * Real.exp c := by
      rw [List.map_map, ← List.sum_map_mul_right]
      congr 1
      apply List.map_congr_left
      intro x _
      exact Real.exp_add x c
    simp only [Option.map_some, Except.ok.injEq, Option.some.injEq]
    rw [e, Real.log_mul hs.ne' (Real.exp_pos c).ne', Real.log_exp]
    ring

/-- **C140.** Adding a constant to all scores of a row changes neither loss nor accuracy. -/
theorem C140_shift (logit : List (List ℝ)) (cs : List ℝ) (label : List Int) (hc : cs.length = logit.length) :
    clsMetrics (List.zipWith (fun row c => row.map (· + c)) logit cs) label = clsMetrics logit label := by
  have hlen : (List.zipWith (fun (row : List ℝ) (c : ℝ) => row.map (· + c)) logit cs).length = logit.length := by
    rw [List.length_zipWith, hc, min_self]
  have e1 : ∀ (logit : List (List ℝ)) (cs : List ℝ) (label : List Int), cs.length = logit.length →
      ((List.zipWith (fun (row : List ℝ) (c : ℝ) => row.map (· + c)) logit cs).zip label).mapM (fun e => nllRow e.1 e.2)
        = (logit.zip label).mapM fun e => nllRow e.1 e.2 := by
    intro logit
    induction logit with
    | nil => intros; simp
    | cons r rs ih =>
      intro cs label h
      cases cs with
      | nil => simp at h
      | cons c cs =>
        cases label with
        | nil => simp
        | cons l ls =>
          rw [List.zipWith_cons_cons, List.zip_cons_cons, List.zip_cons_cons, List.mapM_cons, List.mapM_cons, ih cs ls (by simpa using h)]
          simp only [nllRow_shift]
  have e2 : ∀ (logit : List (List ℝ)) (cs : List ℝ), cs.length = logit.length →
      (List.zipWith (fun (row : List ℝ) (c : ℝ) => row.map (· + c)) logit cs).mapM argmax = logit.mapM argmax := by
    intro logit
    induction logit with
    | nil => intros; simp
    | cons r rs ih =>
      intro cs h
      cases cs with
      | nil => simp at h
      | cons c cs =>
        rw [List.zipWith_cons_cons, List.mapM_cons, List.mapM_cons, argmax_shift, ih cs (by simpa using h)]
  unfold clsMetrics crossEntropyLoss accuracy
  rw [hlen, e1 _ _ _ hc, e2 _ _ hc]

/-- **C140.** A label that is not a class raises, except the label -100, whose row does not count in the loss. -/
theorem C140_labels (logit : List (List ℝ)) (label : List Int) (hl : logit.length = label.length) :
    (∀ e ∈ logit.zip label, (e.2 < 0 ∨ (e.1.length : Int) ≤ e.2) → e.2 ≠ -100 → crossEntropyLoss logit label = .error .index) ∧
    (∀ (row : List ℝ), crossEntropyLoss (row :: logit) (-100 :: label) = crossEntropyLoss logit label) := by
  refine ⟨fun e he h1 h2 => ?_, fun row => ?_⟩
  · have hx : ∀ (row : List ℝ) (l : Int), nllRow row l = .error .index ∨ ∃ v, nllRow row l = .ok v := by
      intro row l
      unfold nllRow
      split
      · exact Or.inr ⟨_, rfl⟩
      split
      · exact Or.inl rfl
      cases row[l.toNat]? with
      | none => exact Or.inl rfl
      | some v => exact Or.inr ⟨_, rfl⟩
    have hbad : nllRow e.1 e.2 = .error .index := by
      unfold nllRow
      rw [if_neg h2]
      split
      · rfl
      · rw [List.getElem?_eq_none (by omega)]
    have hm : ∀ es : List (List ℝ × Int), e ∈ es → es.mapM (fun e => nllRow e.1 e.2) = .error .index := by
      intro es
      induction es with
      | nil => intro h; simp at h
      | cons a es ih =>
        intro h
        rw [List.mapM_cons]
        rcases hx a.1 a.2 with h3 | ⟨v, h3⟩
        · rw [h3]; rfl
        · rw [h3]
          rcases List.mem_cons.1 h with rfl | h
          · rw [h3] at hbad; cases hbad
          · rw [ih h]; rfl
    unfold crossEntropyLoss
    rw [if_neg (by rw [hl]; exact fun e => e rfl), hm _ he]
    rfl
  · unfold crossEntropyLoss
    rw [if_neg (by rw [List.length_cons, List.length_cons, hl]; exact fun e => e rfl), if_neg (by rw [hl]; exact fun e => e rfl), List.zip_cons_cons, List.mapM_cons]
    have : nllRow row (-100) = .ok none := by unfold nllRow; rw [if_pos rfl]
    simp only [this]
    cases (logit.zip label).mapM fun e => nllRow e.1 e.2 with
    | error e => rfl
    | ok v => rfl

/-! ### probabilities -/

theorem softmax_sum {n : Nat} (row : Fin n → ℝ) (hn : 0 < n) :
    (∀ c, 0 < softmaxRow row c) ∧ ∑ c, softmaxRow row c = 1 := by
  have hs : (List.ofFn fun i => Real.exp (row i)).sum = ∑ i, Real.exp (row i) := List.sum_ofFn
  have hp : 0 < ∑ i, Real.exp (row i) := by
    apply Finset.sum_pos
    · intro i _
      exact Real.exp_pos _
    · exact ⟨⟨0, hn⟩, Finset.mem_univ _⟩
  unfold softmaxRow
  rw [hs]
  refine ⟨fun c => div_pos (Real.exp_pos _) hp, ?_⟩
  rw [← Finset.sum_div]
  exact div_self hp.ne'

/-- **C141.** The probabilities of a row are positive, add up to 1 and are in the order of the scores. -/
theorem C141_softmax {n : Nat} (row : Fin n → ℝ) (hn : 0 < n) :
    (∀ c, 0 < softmaxRow row c) ∧ ∑ c, softmaxRow row c = 1 ∧ ∀ c c', softmaxRow row c ≤ softmaxRow row c' ↔ row c ≤ row c' := by
  refine ⟨(softmax_sum row hn).1, (softmax_sum row hn).2, fun c c' => ?_⟩
  have hs : (List.ofFn fun i => Real.exp (row i)).sum = ∑ i, Real.exp (row i) := List.sum_ofFn
  have hp : 0 < ∑ i, Real.exp (row i) := by
    apply Finset.sum_pos
    · intro i _
      exact Real.exp_pos _
    · exact ⟨⟨0, hn⟩, Finset.mem_univ _⟩
  unfold softmaxRow
  rw [hs, div_le_div_iff_of_pos_right hp, Real.exp_le_exp]

namespace Spec

/-- How often a batch has a prediction for point `j` of a file. -/
def seen {V : Type} (f : String) (j : Nat) (b : EvalBatch V) : Nat :=
  (b.filename.zip b.inbox).countP fun e => decide (e.1 = f ∧ e.2[j]? = some true)

end Spec

theorem splitBy_mem {V : Type} (sizes : List Nat) (t : List V) (i : Nat) (r : List V) (hr : (splitBy sizes t)[i]? = some r) : ∀ v ∈ r, v ∈ t := by
  induction sizes generalizing t i with
  | nil => simp [splitBy] at hr
  | cons m ns ih =>
    cases i with
    | zero =>
      simp only [splitBy, List.getElem?_cons_zero, Option.some.injEq] at hr
      subst hr
      exact fun v hv => List.mem_of_mem_take hv
    | succ i =>
      simp only [splitBy, List.getElem?_cons_succ] at hr
      exact fun v hv => List.mem_of_mem_drop (ih (t.drop m) i hr v hv)

theorem range_getElem? {α : Type} (l : List α) : (List.range l.length).map (fun i => l[i]?) = l.map some := by
  apply List.ext_getElem?
  intro i
  by_cases h : i < l.length
  · simp [h]
  · simp [h]

/-- What one sample of a batch adds to the scores of a point. -/
theorem score_sum {n : Nat} (hn : 0 < n) {mask : Int} {b : EvalBatch (Fin n → ℝ)} (h : LegalEval mask b) (f : String) (j i : Nat) (hi : i < b.filename.length) :
    (∀ c, 0 ≤ (if b.filename[i]? = some f then score softmaxRow b i j else 0) c) ∧
    ∑ c, (if b.filename[i]? = some f then score softmaxRow b i j else 0) c
      = if ((b.filename.zip b.inbox)[i]?.any fun e => decide (e.1 = f ∧ e.2[j]? = some true)) then 1 else 0 := by
  have hi2 : i < b.npts.length := by rw [← h.names]; exact hi
  have hi3 : i < b.inbox.length := by rw [h.masks]; exact hi2
  have hz : (b.filename.zip b.inbox)[i]? = some (b.filename[i], b.inbox[i]) := by
    rw [List.getElem?_zip_eq_some]
    exact ⟨List.getElem?_eq_getElem hi, List.getElem?_eq_getElem hi3⟩
  rw [hz, List.getElem?_eq_getElem hi]
  simp only [Option.some.injEq, Option.any_some, decide_eq_true_eq]
  by_cases hf : b.filename[i] = f
  · rw [if_pos hf]
    unfold score
    have hsl : i < (splitBy b.npts (b.logit.map softmaxRow)).length := by rw [splitBy_length]; exact hi2
    rw [List.getElem?_eq_getElem hi3, List.getElem?_eq_getElem hsl]
    simp only [hf, true_and]
    by_cases hm : (b.inbox[i])[j]? = some true
    · rw [if_pos hm]
      simp only [hm, if_true]
      have hlen := splitBy_get_length b.npts (b.logit.map softmaxRow) (by rw [h.total, List.length_map]) i _ _ (List.getElem?_eq_getElem hi2) (List.getElem?_eq_getElem hsl)
      have hcnt := h.counts i _ _ (List.getElem?_eq_getElem hi3) (List.getElem?_eq_getElem hi2)
      have hlt : (b.inbox[i].take j).count true < b.inbox[i].count true := by
        conv_rhs => rw [← List.take_append_drop j b.inbox[i], List.count_append]
        have : 0 < (b.inbox[i].drop j).count true := by
          rw [List.count_pos_iff, List.mem_iff_getElem?]
          exact ⟨0, by rw [List.getElem?_drop]; exact hm⟩
        omega
      have hlt2 : (b.inbox[i].take j).count true < ((splitBy b.npts (b.logit.map softmaxRow))[i]).length := by omega
      rw [List.getElem?_eq_getElem hlt2, Option.getD_some]
      have hmem := splitBy_mem _ _ _ _ (List.getElem?_eq_getElem hsl) _ (List.getElem_mem hlt2)
      obtain ⟨r, -, hr⟩ := List.mem_map.1 hmem
      rw [← hr]
      exact ⟨fun c => ((softmax_sum r hn).1 c).le, (softmax_sum r hn).2⟩
    · rw [if_neg hm]
      rw [if_neg hm]
      simp
  · rw [if_neg hf, if_neg (fun e => hf e.1)]
    simp

theorem sum_rows {n : Nat} (l : List (Fin n → ℝ)) : (∀ c, l.sum c = (l.map fun r => r c).sum) ∧ ∑ c, l.sum c = (l.map fun r => ∑ c, r c).sum := by
  induction l with
  | nil => simp
  | cons r l ih =>
    refine ⟨fun c => by rw [List.sum_cons, Pi.add_apply, ih.1 c, List.map_cons, List.sum_cons], ?_⟩
    rw [List.sum_cons, List.map_cons, List.sum_cons, ← ih.2, ← Finset.sum_add_distrib]
    rfl

theorem sum_rows_nonneg {n : Nat} (l : List (Fin n → ℝ)) (h : ∀ r ∈ l, ∀ c, 0 ≤ r c) (c : Fin n) : 0 ≤ l.sum c := by
  rw [(sum_rows l).1 c]
  apply List.sum_nonneg
  intro x hx
  obtain ⟨r, hr, rfl⟩ := List.mem_map.1 hx
  exact h r hr c

theorem batch_sum {n : Nat} (hn : 0 < n) {mask : Int} {b : EvalBatch (Fin n → ℝ)} (h : LegalEval mask b) (f : String) (j : Nat) :
    (∀ c, 0 ≤ ((List.range b.filename.length).map fun i => if b.filename[i]? = some f then score softmaxRow b i j else 0).sum c) ∧
    ∑ c, ((List.range b.filename.length).map fun i => if b.filename[i]? = some f then score softmaxRow b i j else 0).sum c = (seen f j b : ℝ) := by
  constructor
  · apply sum_rows_nonneg
    intro r hr
    obtain ⟨i, hi, rfl⟩ := List.mem_map.1 hr
    exact (score_sum hn h f j i (List.mem_range.1 hi)).1
  · rw [(sum_rows _).2, List.map_map]
    have hl : (b.filename.zip b.inbox).length = b.filename.length := by rw [List.length_zip, h.masks, h.names, min_self]
    have e : (List.range b.filename.length).map ((fun r : Fin n → ℝ => ∑ c, r c) ∘ fun i => if b.filename[i]? = some f then score softmaxRow b i j else 0)
        = ((b.filename.zip b.inbox).map some).map fun o => if (o.any fun e => decide (e.1 = f ∧ e.2[j]? = some true)) then (1 : ℝ) else 0 := by
      rw [← range_getElem?, hl, List.map_map]
      apply List.map_congr_left
      intro i hi
      exact (score_sum hn h f j i (List.mem_range.1 hi)).2
    rw [e, List.map_map]
    unfold seen
    generalize b.filename.zip b.inbox = z
    induction z with
    | nil => simp
    | cons a z ih =>
      rw [List.map_cons, List.sum_cons, ih, List.countP_cons]
      simp only [Function.comp_apply, Option.any_some]
      split
      · push_cast; ring
      · simp

/-- **C141.** After an evaluation the accumulated scores of each point of each file are not negative and add up to the number of times the point was
inside the clipped cloud. -/
theorem C141_votes {n : Nat} (hn : 0 < n) (mask : Int) (bs : List (EvalBatch (Fin n → ℝ))) (h : ∀ b ∈ bs, LegalEval mask b) (size : String → Nat)
    (hsize : ∀ b ∈ bs, ∀ (i : Nat) (f : String) (m : List Bool), b.filename[i]? = some f → b.inbox[i]? = some m → m.length = size f) :
    ∃ rst, evalRun softmaxRow mask bs = .ok rst ∧ ∀ f, (∃ b ∈ bs, f ∈ b.filename) → ∃ t, rst.lookup f = some t ∧ t.length = size f ∧
      ∀ j < size f, ∃ row, t[j]? = some row ∧ (∀ c, 0 ≤ row c) ∧ ∑ c, row c = ((bs.map (seen f j)).sum : ℕ) := by
  obtain ⟨rst, h1, h2⟩ := C80_aggregate softmaxRow mask bs h size hsize
  refine ⟨rst, h1, fun f hf => ?_⟩
  obtain ⟨t, h3, h4, h5⟩ := (h2 f).2 hf
  refine ⟨t, h3, h4, fun j hj => ⟨_, h5 j hj, ?_⟩⟩
  constructor
  · apply sum_rows_nonneg
    intro r hr
    obtain ⟨b, hb, rfl⟩ := List.mem_map.1 hr
    exact (batch_sum hn (h b hb) f j).1
  · rw [(sum_rows _).2, List.map_map]
    have : bs.map ((fun r : Fin n → ℝ => ∑ c, r c) ∘ fun b => ((List.range b.filename.length).map fun i =>
        if b.filename[i]? = some f then score softmaxRow b i j else 0).sum) = bs.map fun b => (seen f j b : ℝ) := by
      apply List.map_congr_left
      intro b hb
      exact (batch_sum hn (h b hb) f j).2
    rw [this]
    generalize bs = l
    induction l with
    | nil => simp
    | cons a l ih => rw [List.map_cons, List.sum_cons, ih, List.map_cons, List.sum_cons]; push_cast; ring

/-- A batch of two samples of one file meets the hypotheses of the theorem about votes. -/
example : LegalEval 0 (⟨[fun _ => 0, fun _ => 1], [1, 2], [1, 1], [[true, false], [false, true]], ["a.ply", "a.ply"]⟩ : EvalBatch (Fin 2 → ℝ)) :=
  ⟨rfl, by simp, rfl, rfl, rfl, by
    intro i m n h1 h2
    match i with
    | 0 => cases h1; cases h2; rfl
    | 1 => cases h1; cases h2; rfl
    | i + 2 => simp at h1⟩

/-- Two rows with right labels meet the hypotheses. -/
example : LegalRows [[1, 2], [0, -1, 3]] [1, 2] :=
  ⟨rfl, by simp, by intro e he; simp at he; rcases he with rfl | rfl <;> simp⟩

end Ocnn
