import Verif.Projects
import Verif.PropsDataset
import Mathlib.Algebra.BigOperators.Group.List.Basic

/-! Theorems about the evaluation of segmentation networks and the chunks of ScanNet scenes: C80, C81, C82, C83, C85. -/

namespace Ocnn

namespace Spec

/-- The row that sample `i` of a batch gives to point `j` of its file: that of the `r`-th kept point if `j` is the
`r`-th point kept by the mask, 0 if `j` was clipped. -/
def score {V : Type} [Zero V] (softmax : V → V) (b : EvalBatch V) (i j : Nat) : V :=
  match b.inbox[i]?, (splitBy b.npts (b.logit.map softmax))[i]? with
  | some m, some rows => if m[j]? = some true then (rows[(m.take j).count true]?).getD 0 else 0
  | _, _ => 0

/-- A batch as produced by the data pipeline: one label per point, all above the ignored label; one mask, one number
of points and one file name per sample; each mask keeps as many points as the sample has. -/
structure LegalEval {V : Type} (mask : Int) (b : EvalBatch V) : Prop where
  labels : b.labels.length = b.logit.length
  kept : ∀ l ∈ b.labels, mask < l
  masks : b.inbox.length = b.npts.length
  names : b.filename.length = b.npts.length
  total : b.npts.sum = b.logit.length
  counts : ∀ (i : Nat) (m : List Bool) (n : Nat), b.inbox[i]? = some m → b.npts[i]? = some n → m.count true = n

end Spec

open Spec
variable {V K : Type}

theorem torchSplit_go (sizes : List Nat) (t : List V) : torchSplit.go sizes t = splitBy sizes t := by
  induction sizes generalizing t with
  | nil => rfl
  | cons n ns ih => simp [torchSplit.go, splitBy, ih]

theorem splitBy_length (sizes : List Nat) (t : List V) : (splitBy sizes t).length = sizes.length := by
  induction sizes generalizing t with
  | nil => rfl
  | cons n ns ih => simp [splitBy, ih]

theorem splitBy_get_length (sizes : List Nat) (t : List V) (h : sizes.sum ≤ t.length) (i n : Nat) (r : List V)
    (hn : sizes[i]? = some n) (hr : (splitBy sizes t)[i]? = some r) : r.length = n := by
  induction sizes generalizing t i with
  | nil => simp at hn
  | cons m ns ih =>
    rw [List.sum_cons] at h
    cases i with
    | zero =>
      simp only [splitBy, List.getElem?_cons_zero, Option.some.injEq] at hn hr
      subst hn; subst hr
      rw [List.length_take]
      omega
    | succ i =>
      simp only [splitBy, List.getElem?_cons_succ] at hn hr
      exact ih (t.drop m) (by rw [List.length_drop]; omega) i hn hr

theorem zipWith_add_get [AddMonoid V] (a b : List V) (h : a.length = b.length) (j : Nat) :
    (List.zipWith (· + ·) a b).getD j 0 = a.getD j 0 + b.getD j 0 := by
  rw [List.getD_eq_getElem?_getD, List.getD_eq_getElem?_getD, List.getD_eq_getElem?_getD]
  by_cases hj : j < a.length
  · have hj' : j < b.length := by omega
    simp [hj, hj']
  · have e1 : (List.zipWith (· + ·) a b)[j]? = none := List.getElem?_eq_none (by simp; omega)
    have e2 : a[j]? = none := List.getElem?_eq_none (by omega)
    have e3 : b[j]? = none := List.getElem?_eq_none (by omega)
    simp [e1, e2, e3]

/-- Accumulating tensors under names. -/
theorem acc_fold [AddMonoid V] (size : String → Nat) (items : List (String × List V))
    (h : ∀ it ∈ items, it.2.length = size it.1) :
    ∃ out, items.foldlM (fun d (it : String × List V) => accRows d it.1 it.2) [] = .ok out ∧
      ∀ name, ((∀ it ∈ items, it.1 ≠ name) → out.lookup name = none) ∧
        ((∃ it ∈ items, it.1 = name) → ∃ t, out.lookup name = some t ∧ t.length = size name ∧
          ∀ j, t.getD j 0 = (items.map fun it => if it.1 = name then it.2.getD j 0 else 0).sum) := by
  induction items using List.reverseRecOn with
  | nil => exact ⟨[], rfl, by simp⟩
  | append_singleton items it ih =>
    obtain ⟨out, h1, h2⟩ := ih (fun x hx => h x (by simp [hx]))
    have hit := h it (by simp)
    rw [List.foldlM_append, h1]
    simp only [bind, Except.bind, List.foldlM_cons, List.foldlM_nil, pure, Except.pure]
    by_cases hex : ∃ x ∈ items, x.1 = it.1
    · obtain ⟨t, t1, t2, t3⟩ := (h2 it.1).2 hex
      refine ⟨out.set it.1 (List.zipWith (· + ·) t it.2), ?_, ?_⟩
      · unfold accRows
        rw [t1]
        have : addRows t it.2 = .ok (List.zipWith (· + ·) t it.2) := by
          unfold addRows
          rw [if_pos (by rw [t2, hit])]
        simp only [this, bind, Except.bind, pure, Except.pure]
      · intro name
        by_cases hn : name = it.1
        · subst hn
          refine ⟨fun hh => absurd rfl (hh it (by simp)), fun _ => ⟨_, by rw [Dict.lookup_set, if_pos rfl], ?_, ?_⟩⟩
          · simp [t2, hit]
          · intro j
            rw [zipWith_add_get _ _ (by rw [t2, hit]), t3 j]
            simp
        · rw [Dict.lookup_set, if_neg hn]
          refine ⟨fun hh => (h2 name).1 fun x hx => hh x (by simp [hx]), ?_⟩
          rintro ⟨x, hx, e⟩
          rw [List.mem_append, List.mem_singleton] at hx
          rcases hx with hx | rfl
          · obtain ⟨s, s1, s2, s3⟩ := (h2 name).2 ⟨x, hx, e⟩
            refine ⟨s, s1, s2, fun j => ?_⟩
            rw [s3 j]
            simp [Ne.symm hn]
          · exact absurd e.symm hn
    · push Not at hex
      refine ⟨out.set it.1 it.2, ?_, ?_⟩
      · unfold accRows
        rw [(h2 it.1).1 hex]
      · intro name
        by_cases hn : name = it.1
        · subst hn
          refine ⟨fun hh => absurd rfl (hh it (by simp)), fun _ => ⟨_, by rw [Dict.lookup_set, if_pos rfl], hit, ?_⟩⟩
          intro j
          have : (items.map fun x => if x.1 = it.1 then x.2.getD j 0 else 0).sum = 0 := by
            apply List.sum_eq_zero
            intro v hv
            obtain ⟨x, hx, rfl⟩ := List.mem_map.mp hv
            rw [if_neg (hex x hx)]
          rw [List.map_append, List.sum_append, this]
          simp
        · rw [Dict.lookup_set, if_neg hn]
          refine ⟨fun hh => (h2 name).1 fun x hx => hh x (by simp [hx]), ?_⟩
          rintro ⟨x, hx, e⟩
          rw [List.mem_append, List.mem_singleton] at hx
          rcases hx with hx | rfl
          · obtain ⟨s, s1, s2, s3⟩ := (h2 name).2 ⟨x, hx, e⟩
            refine ⟨s, s1, s2, fun j => ?_⟩
            rw [s3 j]
            simp [Ne.symm hn]
          · exact absurd e.symm hn

theorem maskFill_getD [Zero V] (m : List Bool) (rows : List V) (h : rows.length = m.count true) (j : Nat) :
    (maskFill m (List.replicate m.length 0) rows).getD j 0 =
      if m[j]? = some true then (rows[(m.take j).count true]?).getD 0 else 0 := by
  induction m generalizing rows j with
  | nil => simp [maskFill]
  | cons b m ih =>
    cases b with
    | false =>
      rw [List.count_cons_of_ne (by simp)] at h
      rw [List.length_cons, List.replicate_succ]
      cases rows with
      | nil =>
        rw [maskFill]
        cases j with
        | zero => simp
        | succ j =>
          rw [List.getD_cons_succ, ih [] h j]
          simp
      | cons v rows =>
        rw [maskFill]
        cases j with
        | zero => simp
        | succ j =>
          rw [List.getD_cons_succ, ih (v :: rows) h j]
          simp
    | true =>
      rw [List.count_cons_self] at h
      rw [List.length_cons, List.replicate_succ]
      cases rows with
      | nil => simp at h
      | cons v rows =>
        rw [maskFill]
        cases j with
        | zero => simp
        | succ j =>
          rw [List.getD_cons_succ, ih rows (by simpa using h) j]
          simp

theorem boolSet_fill [Zero V] (m : List Bool) (rows : List V) (h : rows.length = m.count true) :
    boolSet m (List.replicate m.length 0) rows = .ok (maskFill m (List.replicate m.length 0) rows) := by
  unfold boolSet
  simp [h]

theorem fill_length [Zero V] (m : List Bool) (rows : List V) :
    (maskFill m (List.replicate m.length (0 : V)) rows).length = m.length := by
  rw [maskFill_length _ _ _ (by simp)]
  simp

/-- The tensors added by the samples of a batch. -/
def evalItems [Zero V] (softmax : V → V) (b : EvalBatch V) : List (String × List V) :=
  (List.range b.inbox.length).map fun i => (b.filename.getD i "",
    maskFill (b.inbox.getD i []) (List.replicate (b.inbox.getD i []).length 0)
      ((splitBy b.npts (b.logit.map softmax)).getD i []))

theorem getIdx_nat {α : Type} (t : List α) (i : Nat) (a : α) (h : t[i]? = some a) : getIdx t (i : Int) = .ok a := by
  unfold getIdx normIdx
  obtain ⟨hi, rfl⟩ := List.getElem?_eq_some_iff.mp h
  simp [bind, Except.bind, hi]

theorem foldlM_congr_mem {α β : Type} (f g : β → α → M β) (l : List α) (b : β) (h : ∀ a ∈ l, ∀ b, f b a = g b a) :
    l.foldlM f b = l.foldlM g b := by
  induction l generalizing b with
  | nil => rfl
  | cons a l ih =>
    rw [List.foldlM_cons, List.foldlM_cons, h a (by simp)]
    congr 1
    funext x
    exact ih x fun a ha => h a (by simp [ha])

theorem foldlM_map' {α β γ : Type} (f : β → γ → M β) (g : α → γ) (l : List α) (b : β) :
    (l.map g).foldlM f b = l.foldlM (fun b a => f b (g a)) b := by
  induction l generalizing b with
  | nil => rfl
  | cons a l ih =>
    rw [List.map_cons, List.foldlM_cons, List.foldlM_cons]
    congr 1
    funext x
    exact ih x

theorem evalStep_items [AddMonoid V] (softmax : V → V) (mask : Int) (rst : Dict (List V)) (b : EvalBatch V)
    (h : LegalEval mask b) :
    evalStep softmax mask rst b = (evalItems softmax b).foldlM (fun d (it : String × List V) => accRows d it.1 it.2) rst := by
  have hall : (b.labels.map fun l => decide (l > mask)) = List.replicate b.logit.length true := by
    rw [← h.labels, List.eq_replicate_iff]
    refine ⟨by simp, ?_⟩
    intro x hx
    obtain ⟨l, hl, rfl⟩ := List.mem_map.mp hx
    simpa using h.kept l hl
  have hm : modelForward mask b = .ok b.logit := by
    unfold modelForward boolIndex
    rw [hall, if_pos (by simp), maskSel_replicate_true]
  unfold evalStep
  rw [hm]
  simp only [bind, Except.bind]
  unfold torchSplit
  rw [if_pos (by rw [List.length_map]; exact h.total)]
  simp only [torchSplit_go]
  unfold evalItems
  rw [foldlM_map']
  apply foldlM_congr_mem
  intro i hi d
  rw [List.mem_range] at hi
  have hi2 : i < b.npts.length := by rw [← h.masks]; exact hi
  have hi3 : i < b.filename.length := by rw [h.names]; exact hi2
  have hi4 : i < (splitBy b.npts (b.logit.map softmax)).length := by rw [splitBy_length]; exact hi2
  have e1 := List.getElem?_eq_getElem hi
  have e2 := List.getElem?_eq_getElem hi2
  have e3 := List.getElem?_eq_getElem hi3
  have e4 := List.getElem?_eq_getElem hi4
  have hc := h.counts i _ _ e1 e2
  have hr := splitBy_get_length _ _ (by rw [List.length_map, h.total]) i _ _ e2 e4
  unfold evalSample
  rw [getIdx_nat _ _ _ e4, getIdx_nat _ _ _ e1, getIdx_nat _ _ _ e3]
  simp only [bind, Except.bind]
  rw [boolSet_fill _ _ (by rw [hr, hc])]
  simp only [List.getD_eq_getElem?_getD, e1, e3, e4, Option.getD_some]

theorem evalRun_items [AddMonoid V] (softmax : V → V) (mask : Int) (bs : List (EvalBatch V))
    (h : ∀ b ∈ bs, LegalEval mask b) :
    evalRun softmax mask bs = (bs.flatMap (evalItems softmax)).foldlM
      (fun d (it : String × List V) => accRows d it.1 it.2) [] := by
  unfold evalRun
  generalize ([] : Dict (List V)) = d
  induction bs generalizing d with
  | nil => rfl
  | cons b bs ih =>
    rw [List.foldlM_cons, List.flatMap_cons, List.foldlM_append, evalStep_items softmax mask d b (h b (by simp))]
    congr 1
    funext x
    exact ih (fun b hb => h b (by simp [hb])) x

/-! ## C80 -/

/-- **C80.** After any number of batches and epochs the aggregate of a file has one row per point, and the row of a
point is the sum, over all the samples of this file, of the probabilities given to the point where it was kept and of 0
where it was clipped. Files that never occurred have no aggregate. -/
theorem C80_aggregate [AddMonoid V] (softmax : V → V) (mask : Int) (bs : List (EvalBatch V))
    (h : ∀ b ∈ bs, LegalEval mask b) (size : String → Nat)
    (hsize : ∀ b ∈ bs, ∀ (i : Nat) (f : String) (m : List Bool), b.filename[i]? = some f → b.inbox[i]? = some m →
      m.length = size f) :
    ∃ rst, evalRun softmax mask bs = .ok rst ∧ ∀ f,
      ((∀ b ∈ bs, f ∉ b.filename) → rst.lookup f = none) ∧
      ((∃ b ∈ bs, f ∈ b.filename) → ∃ t, rst.lookup f = some t ∧ t.length = size f ∧
        ∀ j < size f, t[j]? = some ((bs.map fun b => ((List.range b.filename.length).map fun i =>
          if b.filename[i]? = some f then score softmax b i j else 0).sum).sum)) := by
  have hlen : ∀ it ∈ bs.flatMap (evalItems softmax), it.2.length = size it.1 := by
    intro it hit
    rw [List.mem_flatMap] at hit
    obtain ⟨b, hb, hit⟩ := hit
    unfold evalItems at hit
    obtain ⟨i, hi, rfl⟩ := List.mem_map.mp hit
    rw [List.mem_range] at hi
    have hi3 : i < b.filename.length := by rw [(h b hb).names, ← (h b hb).masks]; exact hi
    simp only [fill_length]
    have := hsize b hb i _ _ (List.getElem?_eq_getElem hi3) (List.getElem?_eq_getElem hi)
    rw [List.getD_eq_getElem?_getD, List.getD_eq_getElem?_getD, List.getElem?_eq_getElem hi, List.getElem?_eq_getElem hi3]
    exact this
  obtain ⟨rst, h1, h2⟩ := acc_fold size _ hlen
  have hmem : ∀ f, (∃ it ∈ bs.flatMap (evalItems softmax), it.1 = f) ↔ ∃ b ∈ bs, f ∈ b.filename := by
    intro f
    constructor
    · rintro ⟨it, hit, rfl⟩
      rw [List.mem_flatMap] at hit
      obtain ⟨b, hb, hit⟩ := hit
      unfold evalItems at hit
      obtain ⟨i, hi, rfl⟩ := List.mem_map.mp hit
      rw [List.mem_range] at hi
      have hi3 : i < b.filename.length := by rw [(h b hb).names, ← (h b hb).masks]; exact hi
      refine ⟨b, hb, ?_⟩
      simp only [List.getD_eq_getElem?_getD, List.getElem?_eq_getElem hi3, Option.getD_some]
      exact List.getElem_mem hi3
    · rintro ⟨b, hb, hf⟩
      obtain ⟨i, hi, rfl⟩ := List.getElem_of_mem hf
      have hi1 : i < b.inbox.length := by rw [(h b hb).masks, ← (h b hb).names]; exact hi
      refine ⟨_, List.mem_flatMap.mpr ⟨b, hb, List.mem_map.mpr ⟨i, List.mem_range.mpr hi1, rfl⟩⟩, ?_⟩
      simp only [List.getD_eq_getElem?_getD, List.getElem?_eq_getElem hi, Option.getD_some]
  refine ⟨rst, by rw [evalRun_items softmax mask bs h]; exact h1, ?_⟩
  intro f
  refine ⟨?_, ?_⟩
  · intro hf
    refine (h2 f).1 ?_
    intro it hit e
    obtain ⟨b, hb, hfb⟩ := (hmem f).mp ⟨it, hit, e⟩
    exact hf b hb hfb
  · intro hf
    obtain ⟨t, t1, t2, t3⟩ := (h2 f).2 ((hmem f).mpr hf)
    refine ⟨t, t1, t2, ?_⟩
    intro j hj
    have hj' : j < t.length := by rw [t2]; exact hj
    have := t3 j
    rw [List.getD_eq_getElem?_getD, List.getElem?_eq_getElem hj', Option.getD_some] at this
    rw [List.getElem?_eq_getElem hj', this]
    congr 1
    clear this t3 t2 t1 hj' h2 h1 hmem hlen hsize hf
    induction bs with
    | nil => rfl
    | cons b bs ih =>
      rw [List.flatMap_cons, List.map_append, List.sum_append, List.map_cons, List.sum_cons,
        ih (fun b hb => h b (by simp [hb]))]
      congr 1
      have hb := h b (by simp)
      unfold evalItems
      rw [List.map_map, hb.names, ← hb.masks]
      congr 1
      refine List.map_congr_left fun i hi => ?_
      rw [List.mem_range] at hi
      have hi2 : i < b.npts.length := by rw [← hb.masks]; exact hi
      have hi3 : i < b.filename.length := by rw [hb.names]; exact hi2
      have hi4 : i < (splitBy b.npts (b.logit.map softmax)).length := by rw [splitBy_length]; exact hi2
      have e1 := List.getElem?_eq_getElem hi
      have e2 := List.getElem?_eq_getElem hi2
      have e3 := List.getElem?_eq_getElem hi3
      have e4 := List.getElem?_eq_getElem hi4
      have hc := hb.counts i _ _ e1 e2
      have hr := splitBy_get_length _ _ (by rw [List.length_map, hb.total]) i _ _ e2 e4
      simp only [Function.comp, List.getD_eq_getElem?_getD, e1, e3, e4, Option.getD_some, Option.some.injEq, score]
      rw [← List.getD_eq_getElem?_getD, maskFill_getD _ _ (by rw [hr, hc])]

/-- If a point has an ignored label, the step raises: the rows cannot be split into the samples, so no row is put on a
wrong point. -/
theorem C80_filtered [AddMonoid V] (softmax : V → V) (mask : Int) (rst : Dict (List V)) (b : EvalBatch V)
    (hl : b.labels.length = b.logit.length) (ht : b.npts.sum = b.logit.length) (hf : ∃ l ∈ b.labels, l ≤ mask) :
    evalStep softmax mask rst b = .error .shape := by
  have hm : modelForward mask b = .ok (maskSel (b.labels.map fun l => decide (l > mask)) b.logit) := by
    unfold modelForward boolIndex
    rw [if_pos (by simp [hl])]
  unfold evalStep
  rw [hm]
  simp only [bind, Except.bind]
  unfold torchSplit
  rw [if_neg]
  rw [List.length_map, maskSel_length _ _ (by simp [hl]), ht, ← hl]
  obtain ⟨l, h1, h2⟩ := hf
  intro e
  have : (b.labels.map fun l => decide (l > mask)).count true = (b.labels.map fun l => decide (l > mask)).length := by
    rw [← e, List.length_map]
  rw [List.count_eq_length] at this
  have := this _ (List.mem_map.mpr ⟨l, h1, rfl⟩)
  simp at this
  omega

/-- Two epochs over one file with different clipped points. -/
example : ((evalRun (V := ℚ) id (-1) [
    ⟨[10, 20, 5], [0, 1, 0], [2, 1], [[true, false, true], [true]], ["a", "b"]⟩,
    ⟨[1, 2, 3, 7], [0, 1, 1, 0], [3, 1], [[true, true, true], [true]], ["a", "b"]⟩]).toOption.map fun d =>
      (d.lookup "a", d.lookup "b")) = some (some [11, 2, 23], some [12]) := by
  decide +kernel

example : LegalEval (-1) (⟨[10, 20, 5], [0, 1, 0], [2, 1], [[true, false, true], [true]], ["a", "b"]⟩ : EvalBatch ℚ) := by
  refine ⟨rfl, by simp, rfl, rfl, rfl, ?_⟩
  intro i m n hm hn
  match i with
  | 0 => simp at hm hn; subst hm; subst hn; rfl
  | 1 => simp at hm hn; subst hm; subst hn; rfl
  | i + 2 => simp at hm

/-! ## C81 -/

namespace Spec

/-- The number of points predicted as and labelled with class `k`. -/
def both (pred label : List Int) (k : Nat) : Nat := (pred.zip label).countP fun p => decide (p.1 = (k : Int) ∧ p.2 = (k : Int))

/-- The number of points predicted as or labelled with class `k`. -/
def either (pred label : List Int) (k : Nat) : Nat := (pred.zip label).countP fun p => decide (p.1 = (k : Int) ∨ p.2 = (k : Int))

/-- `i` is the first position of a largest entry of the row. -/
def IsArgmax [LinearOrder K] (row : List K) (i : Nat) : Prop :=
  ∃ v, row[i]? = some v ∧ (∀ (j : Nat) (w : K), row[j]? = some w → w ≤ v) ∧
    ∀ (j : Nat) (w : K), j < i → row[j]? = some w → w < v

end Spec

theorem argmaxFrom_spec [LinearOrder K] (pre xs : List K) (best : K) (bi : Nat) (hb : pre[bi]? = some best)
    (h1 : ∀ (j : Nat) (w : K), pre[j]? = some w → w ≤ best)
    (h2 : ∀ (j : Nat) (w : K), j < bi → pre[j]? = some w → w < best) :
    IsArgmax (pre ++ xs) (argmaxFrom best bi pre.length xs) := by
  induction xs generalizing pre best bi with
  | nil => simpa [argmaxFrom, IsArgmax] using ⟨best, hb, h1, h2⟩
  | cons x xs ih =>
    have e : pre ++ x :: xs = (pre ++ [x]) ++ xs := by simp
    have hbi : bi < pre.length := (List.getElem?_eq_some_iff.mp hb).1
    unfold argmaxFrom
    rw [e]
    have hl : pre.length + 1 = (pre ++ [x]).length := by simp
    by_cases hx : best < x
    · rw [if_pos hx, hl]
      refine ih (pre ++ [x]) x pre.length (by simp) ?_ ?_
      · intro j w hw
        by_cases hj : j < pre.length
        · rw [List.getElem?_append_left hj] at hw
          exact (h1 j w hw).trans hx.le
        · rw [List.getElem?_append_right (by omega)] at hw
          rw [List.getElem?_singleton] at hw
          split at hw
          · cases hw; exact le_rfl
          · cases hw
      · intro j w hj hw
        rw [List.getElem?_append_left hj] at hw
        exact (h1 j w hw).trans_lt hx
    · rw [if_neg hx, hl]
      refine ih (pre ++ [x]) best bi (by rw [List.getElem?_append_left hbi]; exact hb) ?_ ?_
      · intro j w hw
        by_cases hj : j < pre.length
        · rw [List.getElem?_append_left hj] at hw
          exact h1 j w hw
        · rw [List.getElem?_append_right (by omega), List.getElem?_singleton] at hw
          split at hw
          · cases hw; exact not_lt.mp hx
          · cases hw
      · intro j w hj hw
        rw [List.getElem?_append_left (by omega)] at hw
        exact h2 j w hj hw

theorem argmax_spec [LinearOrder K] (row : List K) (h : row ≠ []) : ∃ i, argmax row = .ok i ∧ IsArgmax row i := by
  cases row with
  | nil => exact absurd rfl h
  | cons x xs =>
    refine ⟨_, rfl, ?_⟩
    have := argmaxFrom_spec [x] xs x 0 rfl (by
      intro j w hw
      rw [List.getElem?_singleton] at hw
      split at hw
      · cases hw; exact le_rfl
      · cases hw) (by intro j w hj; omega)
    simpa using this

theorem mapM_argmax [LinearOrder K] (logit : List (List K)) (h : ∀ r ∈ logit, r ≠ []) :
    ∃ pred : List Nat, logit.mapM argmax = .ok pred ∧ List.Forall₂ IsArgmax logit pred := by
  induction logit with
  | nil => exact ⟨[], rfl, .nil⟩
  | cons r l ih =>
    obtain ⟨i, h1, h2⟩ := argmax_spec r (h r (by simp))
    obtain ⟨p, h3, h4⟩ := ih fun r hr => h r (by simp [hr])
    exact ⟨i :: p, by rw [List.mapM_cons, h1, h3]; rfl, .cons h2 h4⟩

theorem sumMask_both [Field K] (pred label : List Int) (k : Nat) :
    (sumMask (List.zipWith (· && ·) (pred.map fun v => decide (v = (k : Int))) (label.map fun v => decide (v = (k : Int)))) : K)
      = both pred label k := by
  unfold sumMask both
  induction pred generalizing label with
  | nil => simp
  | cons p pred ih =>
    cases label with
    | nil => simp
    | cons l label =>
      simp only [List.map_cons, List.zipWith_cons_cons, List.sum_cons, List.zip_cons_cons, List.countP_cons, ih]
      by_cases hp : p = (k : Int) <;> by_cases hl : l = (k : Int) <;> simp [hp, hl, add_comm]

theorem sumMask_either [Field K] (pred label : List Int) (k : Nat) :
    (sumMask (List.zipWith (· || ·) (pred.map fun v => decide (v = (k : Int))) (label.map fun v => decide (v = (k : Int)))) : K)
      = either pred label k := by
  unfold sumMask either
  induction pred generalizing label with
  | nil => simp
  | cons p pred ih =>
    cases label with
    | nil => simp
    | cons l label =>
      simp only [List.map_cons, List.zipWith_cons_cons, List.sum_cons, List.zip_cons_cons, List.countP_cons, ih]
      by_cases hp : p = (k : Int) <;> by_cases hl : l = (k : Int) <;> simp [hp, hl, add_comm]

theorem iou_fold [Field K] [LinearOrder K] (esp : K) (pred label : List Int) (n : Nat) :
    (List.range n).foldl (iouStep esp pred label) ⟨0, 0, [], []⟩ =
      ⟨((List.range n).map fun k : Nat => if (k : Int) ∈ label then
          (both pred label k : K) / ((either pred label k : K) + esp) else 0).sum,
        (((List.range n).filter fun k : Nat => decide ((k : Int) ∈ label)).length : K),
        (List.range n).map fun k => (both pred label k : K), (List.range n).map fun k => (either pred label k : K)⟩ := by
  induction n with
  | zero => simp
  | succ n ih =>
    have hany : ((label.map fun v => decide (v = (n : Int))).any id = true) ↔ (n : Int) ∈ label := by
      simp
    rw [List.range_succ, List.foldl_append, ih]
    simp only [List.foldl_cons, List.foldl_nil]
    unfold iouStep
    simp only [sumMask_both, sumMask_either]
    by_cases hn : (n : Int) ∈ label
    · rw [if_pos (hany.mpr hn)]
      simp [hn]
    · rw [if_neg (fun hh => hn (hany.mp hh))]
      simp [hn]

/-- **C81.** For any predictions and labels of the same number: the intersections and unions are the numbers of points
in both and in either of predicted and labelled class, intersections are not larger than unions, and the mean IoU, taken
over the classes that occur in the labels, lies in `[0, 1]`. -/
theorem C81_iou [Field K] [LinearOrder K] [IsStrictOrderedRing K] (logit : List (List K)) (label : List Int) (n : Nat)
    (h : ∀ r ∈ logit, r ≠ []) (hl : logit.length = label.length) :
    ∃ (pred : List Nat) (iou : K) (intsc union : List K), List.Forall₂ IsArgmax logit pred ∧
      iouPerShape logit label n = .ok (iou, intsc, union) ∧
      intsc = (List.range n).map (fun k => (both (pred.map Int.ofNat) label k : K)) ∧
      union = (List.range n).map (fun k => (either (pred.map Int.ofNat) label k : K)) ∧
      (∀ (k : Nat) (i u : K), intsc[k]? = some i → union[k]? = some u → 0 ≤ i ∧ i ≤ u ∧ u ≤ label.length) ∧
      iou = ((List.range n).map fun k : Nat => if (k : Int) ∈ label then (both (pred.map Int.ofNat) label k : K) /
        ((either (pred.map Int.ofNat) label k : K) + 1 / 10 ^ 10) else 0).sum /
        ((((List.range n).filter fun k : Nat => decide ((k : Int) ∈ label)).length : K) + 1 / 10 ^ 10) ∧
      0 ≤ iou ∧ iou ≤ 1 := by
  obtain ⟨pred, h1, h2⟩ := mapM_argmax logit h
  have hlen : pred.length = label.length := by rw [← h2.length_eq, hl]
  have hle : ∀ k, both (pred.map Int.ofNat) label k ≤ either (pred.map Int.ofNat) label k := by
    intro k
    unfold both either
    apply List.countP_mono_left
    intro p _ hp
    simp only [decide_eq_true_eq] at hp ⊢
    exact .inl hp.1
  have heps : (0 : K) < 1 / 10 ^ 10 := by positivity
  refine ⟨pred, _, _, _, h2, ?_, rfl, rfl, ?_, rfl, ?_, ?_⟩
  · unfold iouPerShape
    rw [h1]
    simp only [bind, Except.bind]
    rw [if_neg (by simp [hlen]), iou_fold]
    rfl
  · intro k i u hi hu
    rw [List.getElem?_map] at hi hu
    cases hk : (List.range n)[k]? with
    | none => rw [hk] at hi; cases hi
    | some j =>
      rw [hk] at hi hu
      simp only [Option.map_some, Option.some.injEq] at hi hu
      subst hi; subst hu
      refine ⟨Nat.cast_nonneg _, Nat.cast_le.mpr (hle j), Nat.cast_le.mpr ?_⟩
      unfold either
      refine List.countP_le_length.trans ?_
      simp [hlen]
  · apply div_nonneg
    · apply List.sum_nonneg
      intro v hv
      obtain ⟨k, _, rfl⟩ := List.mem_map.mp hv
      split
      · positivity
      · exact le_rfl
    · positivity
  · rw [div_le_one (by positivity)]
    refine le_trans ?_ (le_add_of_nonneg_right heps.le)
    generalize List.range n = ks
    induction ks with
    | nil => simp
    | cons k ks ih =>
      rw [List.map_cons, List.sum_cons]
      by_cases hk : (k : Int) ∈ label
      · rw [if_pos hk, List.filter_cons_of_pos (by simpa using hk), List.length_cons, Nat.cast_succ, add_comm]
        refine add_le_add ih ?_
        rw [div_le_one (by positivity)]
        exact (Nat.cast_le.mpr (hle k)).trans (le_add_of_nonneg_right heps.le)
      · rw [if_neg hk, List.filter_cons_of_neg (by simpa using hk), zero_add]
        exact ih

/-- The accuracy is the fraction of the points whose predicted class is their label. -/
theorem C81_accuracy [Field K] [LinearOrder K] [IsStrictOrderedRing K] (logit : List (List K)) (label : List Int)
    (h : ∀ r ∈ logit, r ≠ []) (hl : logit.length = label.length) (h0 : logit ≠ []) :
    ∃ (pred : List Nat) (a : K), List.Forall₂ IsArgmax logit pred ∧ accuracy logit label = .ok a ∧
      a = ((pred.zip label).countP fun p => decide ((p.1 : Int) = p.2) : Nat) / (label.length : K) ∧ 0 ≤ a ∧ a ≤ 1 := by
  obtain ⟨pred, h1, h2⟩ := mapM_argmax logit h
  have hlen : pred.length = label.length := by rw [← h2.length_eq, hl]
  have hpos : 0 < label.length := by
    rw [← hl]
    exact List.length_pos_of_ne_nil h0
  have hcount : ∀ (pred : List Nat) (label : List Int),
      (sumMask (List.zipWith (fun (p : Nat) (l : Int) => decide ((p : Int) = l)) pred label) : K) =
      ((pred.zip label).countP fun p => decide ((p.1 : Int) = p.2) : Nat) := by
    intro pred label
    unfold sumMask
    induction pred generalizing label with
    | nil => simp
    | cons p pred ih =>
      cases label with
      | nil => simp
      | cons l label =>
        simp only [List.zipWith_cons_cons, List.map_cons, List.sum_cons, List.zip_cons_cons, List.countP_cons, ih]
        by_cases hp : (p : Int) = l <;> simp [hp, add_comm]
  refine ⟨pred, _, h2, ?_, rfl, by positivity, ?_⟩
  · unfold accuracy
    rw [h1]
    simp only [bind, Except.bind]
    rw [if_neg (by simp [hlen]), if_neg (by omega), hcount, hlen]
    rfl
  · rw [div_le_one (by exact_mod_cast hpos)]
    have : ((pred.zip label).countP fun p => decide ((p.1 : Int) = p.2)) ≤ label.length := by
      refine List.countP_le_length.trans ?_
      simp [hlen]
    exact_mod_cast this

/-- Three points and two classes. -/
example : (iouPerShape (K := ℚ) [[1, 2], [3, 0], [5, 4]] [1, 0, 1] 3).toOption.map (fun r => (r.2.1, r.2.2)) =
    some ([1, 1, 0], [2, 2, 0]) := by decide +kernel

/-! ## C82 -/

theorem corner_min_le (v : V3 ℚ) (vs : List (V3 ℚ)) (p : V3 ℚ) (hp : p ∈ v :: vs) :
    (corner min v vs).x ≤ p.x ∧ (corner min v vs).y ≤ p.y ∧ (corner min v vs).z ≤ p.z := by
  induction vs generalizing v p with
  | nil =>
    rw [List.mem_singleton] at hp
    subst hp
    exact ⟨le_rfl, le_rfl, le_rfl⟩
  | cons w vs ih =>
    have step : corner min v (w :: vs) = corner min ⟨min v.x w.x, min v.y w.y, min v.z w.z⟩ vs := rfl
    rw [step]
    rw [List.mem_cons, List.mem_cons] at hp
    have h0 := ih ⟨min v.x w.x, min v.y w.y, min v.z w.z⟩ ⟨min v.x w.x, min v.y w.y, min v.z w.z⟩ (by simp)
    rcases hp with rfl | rfl | hp
    · exact ⟨h0.1.trans (min_le_left _ _), h0.2.1.trans (min_le_left _ _), h0.2.2.trans (min_le_left _ _)⟩
    · exact ⟨h0.1.trans (min_le_right _ _), h0.2.1.trans (min_le_right _ _), h0.2.2.trans (min_le_right _ _)⟩
    · exact ih _ p (by simp [hp])

theorem le_corner_max (v : V3 ℚ) (vs : List (V3 ℚ)) (p : V3 ℚ) (hp : p ∈ v :: vs) :
    p.x ≤ (corner max v vs).x ∧ p.y ≤ (corner max v vs).y ∧ p.z ≤ (corner max v vs).z := by
  induction vs generalizing v p with
  | nil =>
    rw [List.mem_singleton] at hp
    subst hp
    exact ⟨le_rfl, le_rfl, le_rfl⟩
  | cons w vs ih =>
    have step : corner max v (w :: vs) = corner max ⟨max v.x w.x, max v.y w.y, max v.z w.z⟩ vs := rfl
    rw [step]
    rw [List.mem_cons, List.mem_cons] at hp
    have h0 := ih ⟨max v.x w.x, max v.y w.y, max v.z w.z⟩ ⟨max v.x w.x, max v.y w.y, max v.z w.z⟩ (by simp)
    rcases hp with rfl | rfl | hp
    · exact ⟨(le_max_left _ _).trans h0.1, (le_max_left _ _).trans h0.2.1, (le_max_left _ _).trans h0.2.2⟩
    · exact ⟨(le_max_right _ _).trans h0.1, (le_max_right _ _).trans h0.2.1, (le_max_right _ _).trans h0.2.2⟩
    · exact ih _ p (by simp [hp])

/-- The smallest coordinates are attained. -/
theorem corner_min_nonneg (v : V3 ℚ) (vs : List (V3 ℚ)) (h : ∀ p ∈ v :: vs, 0 ≤ p.x ∧ 0 ≤ p.y ∧ 0 ≤ p.z) :
    0 ≤ (corner min v vs).x ∧ 0 ≤ (corner min v vs).y ∧ 0 ≤ (corner min v vs).z := by
  induction vs generalizing v with
  | nil => exact h v (by simp)
  | cons w vs ih =>
    have step : corner min v (w :: vs) = corner min ⟨min v.x w.x, min v.y w.y, min v.z w.z⟩ vs := rfl
    rw [step]
    apply ih
    intro p hp
    rw [List.mem_cons] at hp
    rcases hp with rfl | hp
    · have h1 := h v (by simp)
      have h2 := h w (by simp)
      exact ⟨le_min h1.1 h2.1, le_min h1.2.1 h2.2.1, le_min h1.2.2 h2.2.2⟩
    · exact h p (by simp [hp])

/-- Along one axis the crops cover everything up to the largest coordinate if the smallest is not negative. -/
theorem axis_cover (crop stride lo hi v : ℚ) (h0 : 0 ≤ lo) (h1 : 0 < stride) (h2 : stride ≤ crop) (h3 : lo ≤ v)
    (h4 : v ≤ hi) : ∃ i < chunkNum crop stride hi, lo + (i : ℚ) * stride ≤ v ∧ v ≤ lo + (i : ℚ) * stride + crop := by
  unfold chunkNum
  by_cases hv : v - lo ≤ crop
  · refine ⟨0, ?_, by simpa using h3, by push_cast; linarith⟩
    have : 0 ≤ ⌈max (hi - crop) 0 / stride⌉ := Int.ceil_nonneg (div_nonneg (le_max_right _ _) h1.le)
    omega
  · push Not at hv
    have hx : 0 < (v - lo - crop) / stride := div_pos (by linarith) h1
    have hc := Int.ceil_pos.mpr hx
    have hle : ⌈(v - lo - crop) / stride⌉ ≤ ⌈max (hi - crop) 0 / stride⌉ := by
      apply Int.ceil_le_ceil
      rw [div_le_div_iff_of_pos_right h1]
      exact le_max_of_le_left (by linarith)
    refine ⟨⌈(v - lo - crop) / stride⌉.toNat, by omega, ?_⟩
    have e : ((⌈(v - lo - crop) / stride⌉.toNat : Nat) : ℚ) = (⌈(v - lo - crop) / stride⌉ : ℚ) := by
      have : ((⌈(v - lo - crop) / stride⌉.toNat : Nat) : Int) = ⌈(v - lo - crop) / stride⌉ := Int.toNat_of_nonneg hc.le
      exact_mod_cast this
    rw [e]
    have a1 := Int.le_ceil ((v - lo - crop) / stride)
    have a2 := Int.ceil_lt_add_one ((v - lo - crop) / stride)
    rw [div_le_iff₀ h1] at a1
    have a3 : (⌈(v - lo - crop) / stride⌉ : ℚ) * stride < v - lo - crop + stride := by
      have := mul_lt_mul_of_pos_right a2 h1
      rwa [add_mul, one_mul, div_mul_cancel₀ _ h1.ne'] at this
    constructor <;> linarith

namespace Spec

/-- The vertices that lie in the axis-aligned box of the given side above the lower corner `c`. -/
def inBox (side : ℚ) (c p : V3 ℚ) : Bool :=
  decide ((c.x ≤ p.x ∧ p.x ≤ c.x + side) ∧ (c.y ≤ p.y ∧ p.y ≤ c.y + side) ∧ c.z ≤ p.z ∧ p.z ≤ c.z + side)

/-- A scene fits in the crop size along every axis. -/
def Small (side : ℚ) (vs : List (V3 ℚ)) : Prop :=
  ∀ p ∈ vs, ∀ q ∈ vs, p.x - q.x < side ∧ p.y - q.y < side ∧ p.z - q.z < side

end Spec

theorem inCrop_eq (side : ℚ) (c p : V3 ℚ) : inCrop side c p = inBox side c p := by
  unfold inCrop inBox
  rw [Bool.eq_iff_iff]
  simp only [Bool.and_eq_true, decide_eq_true_eq]
  tauto

theorem corner_max_attained (v : V3 ℚ) (vs : List (V3 ℚ)) :
    (∃ p ∈ v :: vs, (corner max v vs).x = p.x) ∧ (∃ p ∈ v :: vs, (corner max v vs).y = p.y) ∧
      ∃ p ∈ v :: vs, (corner max v vs).z = p.z := by
  induction vs generalizing v with
  | nil => exact ⟨⟨v, by simp, rfl⟩, ⟨v, by simp, rfl⟩, ⟨v, by simp, rfl⟩⟩
  | cons w vs ih =>
    have step : corner max v (w :: vs) = corner max ⟨max v.x w.x, max v.y w.y, max v.z w.z⟩ vs := rfl
    rw [step]
    obtain ⟨⟨p, hp, ep⟩, ⟨q, hq, eq⟩, ⟨r, hr, er⟩⟩ := ih ⟨max v.x w.x, max v.y w.y, max v.z w.z⟩
    refine ⟨?_, ?_, ?_⟩
    · rw [List.mem_cons] at hp
      rcases hp with rfl | hp
      · rw [ep]
        rcases max_choice v.x w.x with e | e
        · exact ⟨v, by simp, e⟩
        · exact ⟨w, by simp, e⟩
      · exact ⟨p, by simp [hp], ep⟩
    · rw [List.mem_cons] at hq
      rcases hq with rfl | hq
      · rw [eq]
        rcases max_choice v.y w.y with e | e
        · exact ⟨v, by simp, e⟩
        · exact ⟨w, by simp, e⟩
      · exact ⟨q, by simp [hq], eq⟩
    · rw [List.mem_cons] at hr
      rcases hr with rfl | hr
      · rw [er]
        rcases max_choice v.z w.z with e | e
        · exact ⟨v, by simp, e⟩
        · exact ⟨w, by simp, e⟩
      · exact ⟨r, by simp [hr], er⟩

theorem corner_min_attained (v : V3 ℚ) (vs : List (V3 ℚ)) :
    (∃ p ∈ v :: vs, (corner min v vs).x = p.x) ∧ (∃ p ∈ v :: vs, (corner min v vs).y = p.y) ∧
      ∃ p ∈ v :: vs, (corner min v vs).z = p.z := by
  induction vs generalizing v with
  | nil => exact ⟨⟨v, by simp, rfl⟩, ⟨v, by simp, rfl⟩, ⟨v, by simp, rfl⟩⟩
  | cons w vs ih =>
    have step : corner min v (w :: vs) = corner min ⟨min v.x w.x, min v.y w.y, min v.z w.z⟩ vs := rfl
    rw [step]
    obtain ⟨⟨p, hp, ep⟩, ⟨q, hq, eq⟩, ⟨r, hr, er⟩⟩ := ih ⟨min v.x w.x, min v.y w.y, min v.z w.z⟩
    refine ⟨?_, ?_, ?_⟩
    · rw [List.mem_cons] at hp
      rcases hp with rfl | hp
      · rw [ep]
        rcases min_choice v.x w.x with e | e
        · exact ⟨v, by simp, e⟩
        · exact ⟨w, by simp, e⟩
      · exact ⟨p, by simp [hp], ep⟩
    · rw [List.mem_cons] at hq
      rcases hq with rfl | hq
      · rw [eq]
        rcases min_choice v.y w.y with e | e
        · exact ⟨v, by simp, e⟩
        · exact ⟨w, by simp, e⟩
      · exact ⟨q, by simp [hq], eq⟩
    · rw [List.mem_cons] at hr
      rcases hr with rfl | hr
      · rw [er]
        rcases min_choice v.z w.z with e | e
        · exact ⟨v, by simp, e⟩
        · exact ⟨w, by simp, e⟩
      · exact ⟨r, by simp [hr], er⟩

theorem small_iff (side : ℚ) (v : V3 ℚ) (vs : List (V3 ℚ)) : Small side (v :: vs) ↔
    (corner max v vs).x - (corner min v vs).x < side ∧ (corner max v vs).y - (corner min v vs).y < side ∧
      (corner max v vs).z - (corner min v vs).z < side := by
  constructor
  · intro h
    obtain ⟨⟨p, hp, ep⟩, ⟨q, hq, eq⟩, ⟨r, hr, er⟩⟩ := corner_max_attained v vs
    obtain ⟨⟨p', hp', ep'⟩, ⟨q', hq', eq'⟩, ⟨r', hr', er'⟩⟩ := corner_min_attained v vs
    rw [ep, eq, er, ep', eq', er']
    exact ⟨(h p hp p' hp').1, (h q hq q' hq').2.1, (h r hr r' hr').2.2⟩
  · rintro ⟨h1, h2, h3⟩ p hp q hq
    have a := le_corner_max v vs p hp
    have b := corner_min_le v vs q hq
    refine ⟨?_, ?_, ?_⟩
    · linarith [a.1, b.1]
    · linarith [a.2.1, b.2.1]
    · linarith [a.2.2, b.2.2]

/-- A scene that fits in the crop size is not cut, whatever its position. -/
theorem C82_small (side stride : ℚ) (minSize : Nat) (vs : List (V3 ℚ)) (h0 : vs ≠ []) (h : Small side vs) :
    generateChunks side stride minSize vs = .ok [] := by
  cases vs with
  | nil => exact absurd rfl h0
  | cons v vs =>
    unfold generateChunks
    dsimp only
    rw [if_pos ((small_iff side v vs).mp h)]

/-- **C82 (partial).** Full statement: for all scenes larger than the crop size every vertex is in a saved crop. What is
missing: the coordinates must not be negative, and crops with fewer than `minSize` (3000) vertices are dropped; see
`C82_violated` and `C82_dropped`. Proved: every saved chunk is the set of vertices in a box of the crop size and has at
least `minSize` of them; and for every vertex there is such a box around it that is saved if it has `minSize` vertices. -/
theorem C82_cover_partial (side stride : ℚ) (minSize : Nat) (vs : List (V3 ℚ)) (hs : 0 < stride) (hc : stride ≤ side)
    (h0 : vs ≠ []) (h : ¬ Small side vs) (hpos : ∀ p ∈ vs, 0 ≤ p.x ∧ 0 ≤ p.y ∧ 0 ≤ p.z) :
    ∃ masks, generateChunks side stride minSize vs = .ok masks ∧
      (∀ m ∈ masks, ∃ c : V3 ℚ, m = vs.map (inBox side c) ∧ minSize ≤ m.count true) ∧
      ∀ p ∈ vs, ∃ c : V3 ℚ, inBox side c p = true ∧
        (minSize ≤ vs.countP (inBox side c) → vs.map (inBox side c) ∈ masks) := by
  cases vs with
  | nil => exact absurd rfl h0
  | cons v vs =>
    unfold generateChunks
    dsimp only
    rw [if_neg (fun hh => h ((small_iff side v vs).mpr hh))]
    refine ⟨_, rfl, ?_, ?_⟩
    · intro m hm
      rw [List.mem_filter] at hm
      obtain ⟨hm1, hm2⟩ := hm
      rw [List.mem_map] at hm1
      obtain ⟨o, _, rfl⟩ := hm1
      refine ⟨_, List.map_congr_left fun p _ => inCrop_eq _ _ _, ?_⟩
      simpa using hm2
    · intro p hp
      have a := corner_min_le v vs p hp
      have b := le_corner_max v vs p hp
      have n := corner_min_nonneg v vs hpos
      obtain ⟨i, hi, i1, i2⟩ := axis_cover side stride _ _ _ n.1 hs hc a.1 b.1
      obtain ⟨j, hj, j1, j2⟩ := axis_cover side stride _ _ _ n.2.1 hs hc a.2.1 b.2.1
      obtain ⟨k, hk, k1, k2⟩ := axis_cover side stride _ _ _ n.2.2 hs hc a.2.2 b.2.2
      refine ⟨⟨(corner min v vs).x + i * stride, (corner min v vs).y + j * stride, (corner min v vs).z + k * stride⟩,
        by simpa [inBox] using ⟨⟨i1, i2⟩, ⟨j1, j2⟩, k1, k2⟩, ?_⟩
      intro hm
      rw [List.mem_filter]
      refine ⟨?_, ?_⟩
      · rw [List.mem_map]
        refine ⟨(i, j, k), ?_, List.map_congr_left fun p _ => inCrop_eq _ _ _⟩
        rw [List.mem_flatMap]
        refine ⟨i, List.mem_range.mpr hi, ?_⟩
        rw [List.mem_flatMap]
        exact ⟨j, List.mem_range.mpr hj, List.mem_map.mpr ⟨k, List.mem_range.mpr hk, rfl⟩⟩
      · have e : ((v :: vs).map (inBox side ⟨(corner min v vs).x + i * stride, (corner min v vs).y + j * stride,
            (corner min v vs).z + k * stride⟩)).count true = (v :: vs).countP (inBox side
            ⟨(corner min v vs).x + i * stride, (corner min v vs).y + j * stride, (corner min v vs).z + k * stride⟩) := by
          rw [List.count, List.countP_map]
          congr 1
          funext q
          simp
        rw [e]
        simpa using hm

/-- A scene of 15 x 1 x 1 at the origin. -/
example : ¬ Small 10 [(⟨0, 0, 0⟩ : V3 ℚ), ⟨8, 1, 0⟩, ⟨15, 0, 1⟩] ∧
    (∀ p ∈ [(⟨0, 0, 0⟩ : V3 ℚ), ⟨8, 1, 0⟩, ⟨15, 0, 1⟩], 0 ≤ p.x ∧ 0 ≤ p.y ∧ 0 ≤ p.z) ∧
    (generateChunks 10 5 2 [⟨0, 0, 0⟩, ⟨8, 1, 0⟩, ⟨15, 0, 1⟩]).toOption = some [[true, true, false], [false, true, true]] := by
  refine ⟨fun h => ?_, ?_, by decide +kernel⟩
  · have := (h ⟨15, 0, 1⟩ (by simp) ⟨0, 0, 0⟩ (by simp)).1
    norm_num at this
  · intro p hp
    simp only [List.mem_cons, List.not_mem_nil, or_false] at hp
    rcases hp with rfl | rfl | rfl <;> norm_num

/-- **C82 is violated** for negative coordinates: for every crop size and stride there is a scene larger than the crop
size with a vertex in none of the crops, however few vertices are asked of a crop. -/
theorem C82_violated (side stride : ℚ) (hs : 0 < side) : ∃ (vs : List (V3 ℚ)) (p : Nat), ¬ Small side vs ∧
    p < vs.length ∧ ∀ minSize, ∃ masks, generateChunks side stride minSize vs = .ok masks ∧
      ∀ m ∈ masks, m[p]? = some false := by
  refine ⟨[⟨-(2 * side), 0, 0⟩, ⟨0, 0, 0⟩], 1, ?_, by simp, ?_⟩
  · intro h
    have := (h ⟨0, 0, 0⟩ (by simp) ⟨-(2 * side), 0, 0⟩ (by simp)).1
    simp only [zero_sub, neg_neg] at this
    linarith
  · intro minSize
    have cmin : corner min (⟨-(2 * side), 0, 0⟩ : V3 ℚ) [⟨0, 0, 0⟩] = ⟨-(2 * side), 0, 0⟩ := by
      simp [corner, min_eq_left (by linarith : -(2 * side) ≤ 0)]
    have cmax : corner max (⟨-(2 * side), 0, 0⟩ : V3 ℚ) [⟨0, 0, 0⟩] = ⟨0, 0, 0⟩ := by
      simp [corner, max_eq_right (by linarith : -(2 * side) ≤ 0)]
    have hn : chunkNum side stride 0 = 1 := by
      simp [chunkNum, max_eq_right (by linarith : (0 : ℚ) - side ≤ 0), hs.le]
    unfold generateChunks
    dsimp only
    rw [cmin, cmax]
    rw [if_neg (by rintro ⟨h1, _⟩; simp only [zero_sub, neg_neg] at h1; linarith)]
    refine ⟨_, rfl, ?_⟩
    intro m hm
    rw [List.mem_filter] at hm
    obtain ⟨hm1, -⟩ := hm
    simp only [hn] at hm1
    simp only [List.range_one, List.flatMap_cons, List.flatMap_nil, List.map_cons, List.map_nil, List.append_nil,
      List.mem_singleton] at hm1
    subst hm1
    simp only [List.getElem?_cons_succ, List.getElem?_cons_zero, Option.some.injEq, inCrop]
    rw [Bool.and_eq_false_iff]
    left
    simp only [decide_eq_false_iff_not, not_and_or, not_le]
    left
    push_cast
    linarith

/-- Crops with few vertices are dropped: a scene of fewer than 3000 vertices larger than the crop size leaves none. -/
theorem C82_dropped (side stride : ℚ) (minSize : Nat) (vs : List (V3 ℚ)) (h0 : vs ≠ []) (h : vs.length < minSize) :
    generateChunks side stride minSize vs = .ok [] := by
  cases vs with
  | nil => exact absurd rfl h0
  | cons v vs =>
    unfold generateChunks
    dsimp only
    split
    · rfl
    · congr 1
      rw [List.filter_eq_nil_iff]
      intro m hm
      rw [List.mem_map] at hm
      obtain ⟨o, _, rfl⟩ := hm
      simp only [not_lt, decide_eq_true_eq, not_le]
      refine lt_of_le_of_lt List.count_le_length ?_
      rw [List.length_map]
      exact h

/-! ## C83 -/

namespace Spec

/-- A prediction file: the scene it belongs to and the number of the chunk, or none for a whole scene. -/
structure PredFile where
  scene : String
  chunk : Option Nat

/-- The name under which the tools know the file. -/
def PredFile.name (f : PredFile) : String :=
  match f.chunk with
  | some i => f.scene ++ ".chunk_" ++ toString i
  | none => f.scene

/-- The row that a prediction gives to vertex `j` of the scene: that of the `r`-th vertex of the chunk if `j` is the
`r`-th, 0 if `j` is not in the chunk. -/
def PredFile.row {V : Type} [Zero V] (f : PredFile) (rows : List V) (mask : List Bool) (j : Nat) : V :=
  match f.chunk with
  | some _ => if mask[j]? = some true then (rows[(mask.take j).count true]?).getD 0 else 0
  | none => (rows[j]?).getD 0

end Spec

theorem repr_length_one (i : Nat) (h : i < 10) : (toString i).toList.length = 1 := by
  have : ∀ i : Fin 10, (toString i.val).toList.length = 1 := by decide
  exact this ⟨i, h⟩

theorem repr_length_two (i : Nat) (h : 10 ≤ i) : 2 ≤ (toString i).toList.length := by
  have e : (toString i) = Nat.repr i := rfl
  rw [e, String.length_toList]
  by_contra hh
  have := (Nat.length_repr_le_iff (n := i) (k := 1) (by omega)).mp (by omega)
  omega

theorem chunkName_toList (stem : String) (i : Nat) :
    (chunkName stem i).toList = stem.toList ++ (".chunk_".toList ++ (toString i).toList) := by
  unfold chunkName
  rw [String.toList_append, String.toList_append, List.append_assoc]

theorem dropLast_chunkName (stem : String) (i : Nat) (h : i < 10) : dropLast (chunkName stem i) 8 = stem := by
  unfold dropLast
  rw [chunkName_toList]
  have h1 := repr_length_one i h
  have h2 : ".chunk_".toList.length = 7 := by decide
  rw [List.length_append, List.length_append, h1, h2]
  rw [List.take_left' (by omega)]
  exact String.ofList_toList

theorem dropLast_chunkName_ne (stem : String) (i : Nat) (h : 10 ≤ i) : dropLast (chunkName stem i) 8 ≠ stem := by
  intro e
  have e2 := congrArg (fun s => s.toList.length) e
  simp only [dropLast] at e2
  rw [String.toList_ofList, chunkName_toList, List.length_take] at e2
  have h1 := repr_length_two i h
  have h2 : ".chunk_".toList.length = 7 := by decide
  rw [List.length_append, List.length_append, h2] at e2
  omega

theorem hasSub_chunkName (stem : String) (i : Nat) : hasSub "chunk" (chunkName stem i) = true := by
  rw [hasSub_iff, Mentions, chunkName_toList]
  refine ⟨stem.toList ++ ".".toList, "_".toList ++ (toString i).toList, ?_⟩
  have : ".chunk_".toList = ".".toList ++ "chunk".toList ++ "_".toList := by decide
  rw [this]
  simp

/-- **C83 (partial).** Full statement: for any number of chunks the predictions of a scene are added under its name.
What is missing: chunk numbers from 10 on, see `C83_violated`. Proved: for any list of prediction files of whole scenes
(whose name does not mention "chunk") and of chunks 0 to 9, with masks of the length of the scene and one row per vertex
of the chunk, each scene gets one row per vertex, the sum of what its files give to the vertex. -/
theorem C83_merge_partial [AddMonoid V] (files : List PredFile) (rows : PredFile → List V)
    (mask : PredFile → List Bool) (pred : String → M (List V)) (maskOf : String → M (List Bool)) (size : String → Nat)
    (hp : ∀ f ∈ files, pred f.name = .ok (rows f)) (hm : ∀ f ∈ files, maskOf f.name = .ok (mask f))
    (hc : ∀ f ∈ files, ∀ i, f.chunk = some i → i < 10 ∧ (mask f).length = size f.scene ∧
      (rows f).length = (mask f).count true)
    (hw : ∀ f ∈ files, f.chunk = none → ¬ Mentions f.scene "chunk" ∧ (rows f).length = size f.scene) :
    ∃ out, generateOutput pred maskOf (files.map PredFile.name) = .ok out ∧ ∀ s,
      ((∀ f ∈ files, f.scene ≠ s) → out.lookup s = none) ∧
      ((∃ f ∈ files, f.scene = s) → ∃ t, out.lookup s = some t ∧ t.length = size s ∧
        ∀ j < size s, t[j]? = some ((files.map fun f => if f.scene = s then f.row (rows f) (mask f) j else 0).sum)) := by
  let tensor : PredFile → List V := fun f => match f.chunk with
    | some _ => maskFill (mask f) (List.replicate (mask f).length 0) (rows f)
    | none => rows f
  have hstep : ∀ f ∈ files, ∀ d, mergePred pred maskOf d f.name = accRows d f.scene (tensor f) := by
    intro f hf d
    unfold mergePred
    rw [hp f hf]
    simp only [bind, Except.bind]
    cases hch : f.chunk with
    | some i =>
      obtain ⟨h1, h2, h3⟩ := hc f hf i hch
      have en : f.name = chunkName f.scene i := by simp [PredFile.name, hch, chunkName]
      rw [if_pos (by rw [en]; exact hasSub_chunkName _ _), hm f hf]
      simp only
      rw [boolSet_fill _ _ h3]
      simp only [pure, Except.pure, tensor, hch]
      rw [en, dropLast_chunkName _ _ h1]
    | none =>
      obtain ⟨h1, h2⟩ := hw f hf hch
      have en : f.name = f.scene := by simp [PredFile.name, hch]
      rw [if_neg (by rw [en]; intro hh; exact h1 ((hasSub_iff _ _).mp hh))]
      simp only [pure, Except.pure, tensor, hch, en]
  have hlen : ∀ it ∈ files.map (fun f => (f.scene, tensor f)), it.2.length = size it.1 := by
    intro it hit
    obtain ⟨f, hf, rfl⟩ := List.mem_map.mp hit
    simp only [tensor]
    cases hch : f.chunk with
    | some i =>
      simp only
      rw [fill_length]
      exact (hc f hf i hch).2.1
    | none => exact (hw f hf hch).2
  obtain ⟨out, h1, h2⟩ := acc_fold size _ hlen
  refine ⟨out, ?_, ?_⟩
  · unfold generateOutput
    rw [foldlM_map', ← h1, foldlM_map']
    exact foldlM_congr_mem _ _ _ _ hstep
  · intro s
    refine ⟨fun h => (h2 s).1 ?_, fun h => ?_⟩
    · intro it hit
      obtain ⟨f, hf, rfl⟩ := List.mem_map.mp hit
      exact h f hf
    · obtain ⟨f, hf, hs⟩ := h
      obtain ⟨t, t1, t2, t3⟩ := (h2 s).2 ⟨_, List.mem_map.mpr ⟨f, hf, rfl⟩, hs⟩
      refine ⟨t, t1, t2, ?_⟩
      intro j hj
      have hj' : j < t.length := by rw [t2]; exact hj
      have := t3 j
      rw [List.getD_eq_getElem?_getD, List.getElem?_eq_getElem hj', Option.getD_some] at this
      rw [List.getElem?_eq_getElem hj', this, List.map_map]
      congr 2
      refine List.map_congr_left fun f hf => ?_
      simp only [Function.comp, PredFile.row, tensor]
      cases hch : f.chunk with
      | some i =>
        simp only
        rw [maskFill_getD _ _ (hc f hf i hch).2.2]
      | none => simp only [List.getD_eq_getElem?_getD]

/-- Two chunks and one whole scene. -/
example : ((generateOutput (V := ℚ) (fun n => .ok (if n = "s.chunk_0" then [1, 2] else if n = "s.chunk_1" then [5] else [7]))
    (fun n => .ok (if n = "s.chunk_0" then [true, true, false] else [false, true, false]))
    ([⟨"s", some 0⟩, ⟨"t", none⟩, ⟨"s", some 1⟩].map PredFile.name)).toOption.map fun d =>
      (d.lookup "s", d.lookup "t")) = some (some [1, 7, 0], some [7]) := by
  decide +kernel

/-- **C83 is violated** from the eleventh chunk on: the prediction of such a chunk is not put under the scene's name. -/
theorem C83_violated [AddMonoid V] (scene : String) (i : Nat) (hi : 10 ≤ i) (pred : String → M (List V))
    (maskOf : String → M (List Bool)) (rows : List V) (mask : List Bool)
    (hp : pred (PredFile.name ⟨scene, some i⟩) = .ok rows) (hm : maskOf (PredFile.name ⟨scene, some i⟩) = .ok mask)
    (hr : rows.length = mask.count true) :
    ∃ out, generateOutput pred maskOf [PredFile.name ⟨scene, some i⟩] = .ok out ∧ out.lookup scene = none := by
  have en : PredFile.name ⟨scene, some i⟩ = chunkName scene i := rfl
  rw [en] at hp hm
  rw [en]
  unfold generateOutput
  simp only [List.foldlM_cons, List.foldlM_nil, bind, Except.bind, pure, Except.pure]
  unfold mergePred
  rw [hp]
  simp only [bind, Except.bind]
  rw [if_pos (hasSub_chunkName _ _), hm]
  simp only
  rw [boolSet_fill _ _ hr]
  simp only [pure, Except.pure]
  refine ⟨_, rfl, ?_⟩
  have := dropLast_chunkName_ne scene i hi
  rw [Dict.lookup_set, if_neg (Ne.symm this)]
  rfl

example : (PredFile.name ⟨"scene0000_00", some 10⟩) = "scene0000_00.chunk_10" ∧
    dropLast "scene0000_00.chunk_10" 8 = "scene0000_00." := by decide +kernel

/-! ## C85 -/

theorem labelDict_get (ids : List Nat) (hn : ids.Nodup) (hb : ∀ c ∈ ids, c < 2048) (l : Nat) (hl : l < 2048) :
    (labelDict ids)[l]? = some (if l ∈ ids then ids.idxOf l else 0) := by
  unfold labelDict
  by_cases h : l ∈ ids
  · rw [if_pos h]
    apply setMany_mem
    · rw [List.zipIdx_map_fst]
      exact hn
    · rw [List.mem_zipIdx_iff_getElem?]
      have := List.idxOf_lt_length_of_mem h
      rw [List.getElem?_eq_getElem this, List.getElem_idxOf]
    · rw [List.length_replicate]; exact hl
  · rw [if_neg h, setMany_not_mem]
    · rw [List.getElem?_replicate, if_pos hl]
    · rintro ⟨a, b⟩ hp e
      have := List.mem_zipIdx hp
      simp only at e
      subst e
      exact h (by
        rw [List.mem_zipIdx_iff_getElem?] at hp
        exact List.mem_of_getElem? hp)

theorem gather_nat {α : Type} (t : List α) (idx : List Int) (f : Int → α)
    (h : ∀ i ∈ idx, 0 ≤ i ∧ t[i.toNat]? = some (f i)) : gatherIdx t idx = .ok (idx.map f) := by
  unfold gatherIdx
  induction idx with
  | nil => rfl
  | cons i idx ih =>
    obtain ⟨h1, h2⟩ := h i (by simp)
    have : getIdx t i = .ok (f i) := by
      have := getIdx_nat t i.toNat _ h2
      rwa [Int.toNat_of_nonneg h1] at this
    rw [List.mapM_cons, this, ih fun i hi => h i (by simp [hi])]
    rfl

/-- **C85.** With either table of classes: the training labels of any list of raw labels are class numbers smaller than
the number of classes; a raw label outside the table becomes class 0; and writing out the classes gives back the raw
label of every label in the table, and 0 for the others. -/
theorem C85_labels (ids : List Nat) (h : ids = classIds20 ∨ ids = classIds200) (raw : List Int)
    (hr : ∀ l ∈ raw, 0 ≤ l ∧ l < 2048) :
    ∃ cls, mapLabels ids raw = .ok cls ∧ cls.length = raw.length ∧
      (∀ c ∈ cls, c < ids.length) ∧
      (∀ (i : Nat) (l : Int) (c : Nat), raw[i]? = some l → cls[i]? = some c → l.toNat ∉ ids → c = 0) ∧
      unmapLabels ids (cls.map fun c : Nat => (c : Int)) = .ok (raw.map fun l => if l.toNat ∈ ids then l.toNat else 0) := by
  have hn : ids.Nodup := by rcases h with rfl | rfl <;> decide +kernel
  have hb : ∀ c ∈ ids, c < 2048 := by rcases h with rfl | rfl <;> decide +kernel
  have h0 : ids[0]? = some 0 := by rcases h with rfl | rfl <;> decide +kernel
  have hlen : 0 < ids.length := (List.getElem?_eq_some_iff.mp h0).1
  refine ⟨_, gather_nat _ _ (fun l => if l.toNat ∈ ids then ids.idxOf l.toNat else 0) ?_, by simp, ?_, ?_, ?_⟩
  · intro l hl
    have := hr l hl
    exact ⟨this.1, labelDict_get ids hn hb _ (by omega)⟩
  · intro c hc
    obtain ⟨l, _, rfl⟩ := List.mem_map.mp hc
    split
    · next hm => exact List.idxOf_lt_length_of_mem hm
    · exact hlen
  · intro i l c h1 h2 h3
    rw [List.getElem?_map, h1, Option.map_some, if_neg h3] at h2
    exact (Option.some.inj h2).symm
  · unfold unmapLabels
    rw [List.map_map]
    have := gather_nat ids (raw.map ((fun c : Nat => (c : Int)) ∘ fun l : Int => if l.toNat ∈ ids then ids.idxOf l.toNat else 0))
      (fun c => ids.getD c.toNat 0) (by
        intro c hc
        obtain ⟨l, _, rfl⟩ := List.mem_map.mp hc
        refine ⟨Int.natCast_nonneg _, ?_⟩
        have : (if l.toNat ∈ ids then ids.idxOf l.toNat else 0) < ids.length := by
          split
          · next hm => exact List.idxOf_lt_length_of_mem hm
          · exact hlen
        simp only [Function.comp, Int.toNat_natCast, List.getD_eq_getElem?_getD, List.getElem?_eq_getElem this, Option.getD_some])
    rw [this, List.map_map]
    congr 1
    refine List.map_congr_left fun l _ => ?_
    simp only [Function.comp, Int.toNat_natCast]
    by_cases hm : l.toNat ∈ ids
    · rw [if_pos hm, if_pos hm, List.getD_eq_getElem?_getD,
        List.getElem?_eq_getElem (List.idxOf_lt_length_of_mem hm), List.getElem_idxOf]
      rfl
    · rw [if_neg hm, if_neg hm, List.getD_eq_getElem?_getD, h0]
      rfl

example : (mapLabels classIds20 [39, 13, 1, 24]).toOption = some [20, 0, 1, 15] ∧
    (mapLabels classIds200 [1191, 12, 1, 24]).toOption = some [200, 0, 1, 22] := by decide +kernel

end Ocnn
