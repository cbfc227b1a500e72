import Verif.Metrics
import Verif.PropsPipelines
import Verif.PropsProjects
import Mathlib.Algebra.BigOperators.Intervals
import Mathlib.Algebra.Order.BigOperators.Group.Finset

/-! C96: the metrics of a test epoch do not depend on how the samples are grouped into batches. -/

namespace Ocnn
open Spec

variable {k : Nat}

/-! ### metrics of concatenated batches -/

/-- The predicted class of a row of logits. -/
def classOf {n : Nat} (r : Fin n → ℚ) : Nat :=
  match argmax (List.ofFn r) with
  | .ok i => i
  | .error _ => 0

theorem mapM_classOf {n : Nat} (hn : 1 ≤ n) (rows : List (Fin n → ℚ)) : (rows.map List.ofFn).mapM argmax = .ok (rows.map classOf) := by
  induction rows with
  | nil => rfl
  | cons r rows ih =>
    rw [List.map_cons, List.mapM_cons, ih]
    obtain ⟨i, h, -⟩ := argmax_spec (List.ofFn r) (by
      intro h
      have := congrArg List.length h
      rw [List.length_ofFn, List.length_nil] at this
      omega)
    rw [List.map_cons, show classOf r = i by unfold classOf; rw [h], h]
    rfl

/-- The number of correct predictions. -/
def hits (pred : List Nat) (label : List Int) : Nat := (pred.zip label).countP fun p => decide ((p.1 : Int) = p.2)

theorem sumMask_hits (pred : List Nat) (label : List Int) :
    (sumMask (List.zipWith (fun (p : Nat) (l : Int) => decide ((p : Int) = l)) pred label) : ℚ) = hits pred label := by
  unfold sumMask hits
  induction pred generalizing label with
  | nil => simp
  | cons p pred ih =>
    cases label with
    | nil => simp
    | cons l label =>
      simp only [List.zipWith_cons_cons, List.map_cons, List.sum_cons, List.zip_cons_cons, List.countP_cons, ih]
      by_cases hp : (p : Int) = l <;> simp [hp, add_comm]

/-- The intersections, unions and the accuracy. -/
theorem testMetrics_eq {n : Nat} (hn : 1 ≤ n) (nclass : Nat) (rows : List (Fin n → ℚ)) (label : List Int) (hl : rows.length = label.length) :
    ∃ m : ℚ, testMetrics nclass (rows.map List.ofFn) label = .ok
      ⟨if label.length = 0 then none else some ((hits (rows.map classOf) label : ℚ) / (label.length : ℚ)), m,
        (List.range nclass).map fun c => (both ((rows.map classOf).map Int.ofNat) label c : ℚ),
        (List.range nclass).map fun c => (either ((rows.map classOf).map Int.ofNat) label c : ℚ)⟩ := by
  have hlen : (rows.map classOf).length = label.length := by rw [List.length_map, hl]
  have hi : ∃ m : ℚ, iouPerShape (rows.map List.ofFn) label nclass = .ok (m,
      (List.range nclass).map fun c => (both ((rows.map classOf).map Int.ofNat) label c : ℚ),
      (List.range nclass).map fun c => (either ((rows.map classOf).map Int.ofNat) label c : ℚ)) := by
    unfold iouPerShape
    rw [mapM_classOf hn]
    simp only [bind, Except.bind]
    rw [if_neg (not_not.2 hlen), iou_fold]
    exact ⟨_, rfl⟩
  have ha : accuracy (rows.map List.ofFn) label = if label.length = 0 then .error .domain else
      (.ok ((hits (rows.map classOf) label : ℚ) / (label.length : ℚ)) : M ℚ) := by
    unfold accuracy
    rw [mapM_classOf hn]
    simp only [bind, Except.bind]
    rw [if_neg (not_not.2 hlen), hlen, sumMask_hits]
    rfl
  obtain ⟨m, hm⟩ := hi
  refine ⟨m, ?_⟩
  unfold testMetrics
  rw [ha, hm]
  by_cases h0 : label.length = 0
  · rw [if_pos h0, if_pos h0]
    rfl
  · rw [if_neg h0, if_neg h0]
    rfl

theorem both_append (p₁ p₂ l₁ l₂ : List Int) (h : p₁.length = l₁.length) (c : Nat) :
    both (p₁ ++ p₂) (l₁ ++ l₂) c = both p₁ l₁ c + both p₂ l₂ c := by
  unfold both; rw [List.zip_append h, List.countP_append]

theorem either_append (p₁ p₂ l₁ l₂ : List Int) (h : p₁.length = l₁.length) (c : Nat) :
    either (p₁ ++ p₂) (l₁ ++ l₂) c = either p₁ l₁ c + either p₂ l₂ c := by
  unfold either; rw [List.zip_append h, List.countP_append]

theorem hits_append (p₁ p₂ : List Nat) (l₁ l₂ : List Int) (h : p₁.length = l₁.length) :
    hits (p₁ ++ p₂) (l₁ ++ l₂) = hits p₁ l₁ + hits p₂ l₂ := by
  unfold hits; rw [List.zip_append h, List.countP_append]

section flat
variable {n : Nat} (outs : List (List (Fin n → ℚ) × List Int)) (h : ∀ o ∈ outs, o.1.length = o.2.length)
include h

theorem both_flatten (c : Nat) :
    both ((((outs.map Prod.fst).flatten).map classOf).map Int.ofNat) (outs.map Prod.snd).flatten c =
      (outs.map fun o => both ((o.1.map classOf).map Int.ofNat) o.2 c).sum := by
  induction outs with
  | nil => simp [both]
  | cons o outs ih =>
    simp only [List.map_cons, List.flatten_cons, List.map_append, List.sum_cons]
    rw [both_append _ _ _ _ (by simpa using h o (by simp)), ih fun o ho => h o (by simp [ho])]

theorem either_flatten (c : Nat) :
    either ((((outs.map Prod.fst).flatten).map classOf).map Int.ofNat) (outs.map Prod.snd).flatten c =
      (outs.map fun o => either ((o.1.map classOf).map Int.ofNat) o.2 c).sum := by
  induction outs with
  | nil => simp [either]
  | cons o outs ih =>
    simp only [List.map_cons, List.flatten_cons, List.map_append, List.sum_cons]
    rw [either_append _ _ _ _ (by simpa using h o (by simp)), ih fun o ho => h o (by simp [ho])]

theorem hits_flatten :
    hits (((outs.map Prod.fst).flatten).map classOf) (outs.map Prod.snd).flatten = (outs.map fun o => hits (o.1.map classOf) o.2).sum := by
  induction outs with
  | nil => simp [hits]
  | cons o outs ih =>
    simp only [List.map_cons, List.flatten_cons, List.map_append, List.sum_cons]
    rw [hits_append _ _ _ _ (by simpa using h o (by simp)), ih fun o ho => h o (by simp [ho])]

theorem length_flatten_pairs : (outs.map Prod.fst).flatten.length = (outs.map Prod.snd).flatten.length := by
  rw [List.length_flatten, List.length_flatten, List.map_map, List.map_map]
  congr 1
  exact List.map_congr_left fun o ho => h o ho

end flat

theorem both_le_either (p l : List Int) (c : Nat) : both p l c ≤ either p l c := by
  unfold both either
  apply List.countP_mono_left
  intro p _ hp
  simp only [decide_eq_true_eq] at hp ⊢
  exact .inl hp.1

namespace Spec

/-- What is assumed of the clouds, the options and the network: those of C95, and that there is at least one logit. -/
structure TestOk (P : Params) (fl : ModelFlags) (nrm : V3 ℚ → V3 ℚ) (divF : ℚ → (Fin k → ℚ) → (Fin k → ℚ)) (D full dev : Nat)
    (pcs : List (Points ℚ (Fin k → ℚ) Int)) : Prop where
  eval : P.training = false
  depth : D ≤ 16
  fullDepth : 1 ≤ full ∧ full ≤ D
  legal : LegalBatch pcs dev
  labels : ∀ pc ∈ pcs, pc.labels ≠ none
  features : FeatureOk fl pcs
  network : SegNetworkOk fl D fun d => ∀ pc ∈ pcs, ∀ o idx, Octree.build nrm divF (Octree.new D full 1 0) pc = .ok (o, idx) → o.nnumNempty d = o.nnum d
  logits : 1 ≤ fl.nout

/-- The number of points of a cloud that have a label above the mask. -/
def labelled (fl : ModelFlags) (pc : Points ℚ (Fin k → ℚ) Int) : Nat := ((pc.labels.getD []).filter fun v => decide (fl.mask < v)).length

end Spec

namespace Spec

/-- The metrics of the batch that consists of one cloud. -/
def alone (P : Params) (fl : ModelFlags) (nrm : V3 ℚ → V3 ℚ) (divF : ℚ → (Fin k → ℚ) → (Fin k → ℚ)) (D full nclass : Nat)
    (pc : Points ℚ (Fin k → ℚ) Int) : TestResult :=
  match testStep P fl nrm divF D full nclass [pc] with
  | .ok r => r
  | .error _ => ⟨none, 0, [], []⟩

end Spec

theorem map_eq_of_forall₂ {α β γ : Type} {R : α → β → Prop} {f : α → γ} {g : β → γ} {as : List α} {bs : List β} (h : List.Forall₂ R as bs)
    (hR : ∀ a b, R a b → f a = g b) : as.map f = bs.map g := by
  induction h with
  | nil => rfl
  | cons h _ ih => rw [List.map_cons, List.map_cons, hR _ _ h, ih]

/-- What the samples and the batch have in common. -/
theorem test_outs {P : Params} {fl : ModelFlags} {nrm : V3 ℚ → V3 ℚ} {divF : ℚ → (Fin k → ℚ) → (Fin k → ℚ)} {D full dev : Nat} (nclass : Nat)
    {pcs : List (Points ℚ (Fin k → ℚ) Int)} (h : TestOk P fl nrm divF D full dev pcs) :
    ∃ outs : List (List (Fin fl.nout → ℚ) × List Int), (∀ o ∈ outs, o.1.length = o.2.length) ∧
      segStep P fl nrm divF D full pcs = .ok (⟨fl.nout, (outs.map Prod.fst).flatten⟩, (outs.map Prod.snd).flatten) ∧
      List.Forall₂ (fun pc out => testStep P fl nrm divF D full nclass [pc] = .ok (alone P fl nrm divF D full nclass pc) ∧
        out.2.length = labelled fl pc ∧
        (alone P fl nrm divF D full nclass pc).intsc = ((List.range nclass).map fun c => (both ((out.1.map classOf).map Int.ofNat) out.2 c : ℚ)) ∧
        (alone P fl nrm divF D full nclass pc).union = ((List.range nclass).map fun c => (either ((out.1.map classOf).map Int.ofNat) out.2 c : ℚ)) ∧
        (alone P fl nrm divF D full nclass pc).accu.getD 0 * (labelled fl pc : ℚ) = hits (out.1.map classOf) out.2) pcs outs := by
  obtain ⟨outs, h1, h2, h3⟩ := C95_segmentation P h.eval fl nrm divF D full dev h.depth h.fullDepth.1 h.fullDepth.2 pcs h.legal h.labels h.features h.network
  refine ⟨outs, ?_, h2, ?_⟩
  · intro o ho
    obtain ⟨i, hi⟩ := List.mem_iff_getElem?.1 ho
    have hlt : i < pcs.length := by rw [← h1]; exact (List.getElem?_eq_some_iff.1 hi).1
    obtain ⟨out, a, -, b, -⟩ := h3 i _ (List.getElem?_eq_getElem hlt)
    rw [hi] at a
    cases a
    exact b
  · rw [List.forall₂_iff_get]
    refine ⟨h1.symm, fun i hi hi' => ?_⟩
    obtain ⟨out, a, b, c, d⟩ := h3 i _ (List.getElem?_eq_getElem hi)
    rw [List.getElem?_eq_getElem hi'] at a
    simp only [Option.some.injEq] at a
    simp only [List.get_eq_getElem]
    rw [a]
    set pc := pcs[i] with hpc
    have hp : pc ∈ pcs := List.getElem_mem hi
    obtain ⟨m, hm⟩ := testMetrics_eq h.logits nclass out.1 out.2 c
    rw [← show testStep P fl nrm divF D full nclass [pc] = testMetrics nclass (out.1.map List.ofFn) out.2 by unfold testStep; rw [b]; rfl] at hm
    have ha : testStep P fl nrm divF D full nclass [pc] = .ok (alone P fl nrm divF D full nclass pc) := by simp only [alone, hm]
    have hs := ha
    rw [hm] at ha
    simp only [Except.ok.injEq] at ha
    have hlab : out.2.length = labelled fl pc := by
      obtain ⟨l, hl⟩ := Option.ne_none_iff_exists'.1 (h.labels pc hp)
      rw [d l hl, labelled, hl]
      rfl
    refine ⟨hs, hlab, by rw [← ha], by rw [← ha], ?_⟩
    rw [← ha, ← hlab]
    by_cases h0 : out.2.length = 0
    · have : out.2 = [] := List.length_eq_zero_iff.1 h0
      simp [this, hits]
    · rw [if_neg h0, Option.getD_some, div_mul_cancel₀]
      exact_mod_cast h0

/-- **C96** one batch: the metrics can be computed, and the numbers of points of the batch that are predicted as and labelled with a class, that are predicted
as or labelled with a class, and that are predicted correctly are the sums of those of the samples of the batch. -/
theorem C96_counts {P : Params} {fl : ModelFlags} {nrm : V3 ℚ → V3 ℚ} {divF : ℚ → (Fin k → ℚ) → (Fin k → ℚ)} {D full dev : Nat} (nclass : Nat)
    (pcs : List (Points ℚ (Fin k → ℚ) Int)) (h : TestOk P fl nrm divF D full dev pcs) :
    (∀ pc ∈ pcs, testStep P fl nrm divF D full nclass [pc] = .ok (alone P fl nrm divF D full nclass pc)) ∧
    ∃ r : TestResult, testStep P fl nrm divF D full nclass pcs = .ok r ∧ r.intsc.length = nclass ∧ r.union.length = nclass ∧
      (∀ c < nclass, r.intsc[c]? = some (pcs.map fun pc => (alone P fl nrm divF D full nclass pc).intsc.getD c 0).sum ∧
        r.union[c]? = some (pcs.map fun pc => (alone P fl nrm divF D full nclass pc).union.getD c 0).sum) ∧
      (r.accu = none ↔ (pcs.map (labelled fl)).sum = 0) ∧
      r.accu.getD 0 * ((pcs.map (labelled fl)).sum : ℚ) =
        (pcs.map fun pc => (alone P fl nrm divF D full nclass pc).accu.getD 0 * (labelled fl pc : ℚ)).sum := by
  obtain ⟨outs, h1, h2, h3⟩ := test_outs nclass h
  obtain ⟨m, hm⟩ := testMetrics_eq h.logits nclass _ _ (length_flatten_pairs outs h1)
  have hlen : (outs.map Prod.snd).flatten.length = (pcs.map (labelled fl)).sum := by
    rw [List.length_flatten, List.map_map]
    exact congrArg List.sum (map_eq_of_forall₂ h3 fun a b hab => hab.2.1.symm).symm
  refine ⟨?_, _, by unfold testStep; rw [h2]; exact hm, by simp, by simp, fun c hc => ⟨?_, ?_⟩, ?_, ?_⟩
  · intro pc hp
    obtain ⟨i, hi, rfl⟩ := List.mem_iff_getElem.1 hp
    exact (List.forall₂_iff_get.1 h3).2 i hi (by rw [← h3.length_eq]; exact hi) |>.1
  · rw [List.getElem?_map, List.getElem?_range hc, Option.map_some, both_flatten outs h1, Nat.cast_list_sum, List.map_map]
    refine congrArg (fun l => some (List.sum l)) (map_eq_of_forall₂ h3 fun a b hab => ?_).symm
    rw [hab.2.2.1]
    simp [hc]
  · rw [List.getElem?_map, List.getElem?_range hc, Option.map_some, either_flatten outs h1, Nat.cast_list_sum, List.map_map]
    refine congrArg (fun l => some (List.sum l)) (map_eq_of_forall₂ h3 fun a b hab => ?_).symm
    rw [hab.2.2.2.1]
    simp [hc]
  · rw [← hlen]
    by_cases h0 : (outs.map Prod.snd).flatten.length = 0
    · exact ⟨fun _ => h0, fun _ => if_pos h0⟩
    · exact ⟨fun e => (by rw [if_neg h0] at e; cases e), fun e => absurd e h0⟩
  · have e : ((outs.map fun b => (hits (b.1.map classOf) b.2 : ℚ)).sum) =
        (hits (((outs.map Prod.fst).flatten).map classOf) (outs.map Prod.snd).flatten : ℚ) := by
      rw [hits_flatten outs h1, Nat.cast_list_sum, List.map_map]
      rfl
    rw [map_eq_of_forall₂ h3 fun a b hab => hab.2.2.2.2, ← hlen, e]
    by_cases h0 : (outs.map Prod.snd).flatten.length = 0
    · have h00 : (outs.map Prod.snd).flatten = [] := List.length_eq_zero_iff.1 h0
      rw [h00]
      simp [hits]
    · simp only [if_neg h0, Option.getD_some]
      rw [div_mul_cancel₀ _ (by exact_mod_cast h0)]

/-! ### test epochs -/

namespace Spec

/-- The number of points, over all clouds, that are predicted as and labelled with class `c`. -/
def totalBoth (P : Params) (fl : ModelFlags) (nrm : V3 ℚ → V3 ℚ) (divF : ℚ → (Fin k → ℚ) → (Fin k → ℚ)) (D full nclass : Nat)
    (pcs : List (Points ℚ (Fin k → ℚ) Int)) (c : Nat) : ℚ :=
  (pcs.map fun pc => (alone P fl nrm divF D full nclass pc).intsc.getD c 0).sum

/-- The number of points, over all clouds, that are predicted as or labelled with class `c`. -/
def totalEither (P : Params) (fl : ModelFlags) (nrm : V3 ℚ → V3 ℚ) (divF : ℚ → (Fin k → ℚ) → (Fin k → ℚ)) (D full nclass : Nat)
    (pcs : List (Points ℚ (Fin k → ℚ) Int)) (c : Nat) : ℚ :=
  (pcs.map fun pc => (alone P fl nrm divF D full nclass pc).union.getD c 0).sum

end Spec

theorem trackerAverage_ok (rs : List (List ℚ)) (hr : rs ≠ []) (c : Nat) (h : ∀ r ∈ rs, c < r.length) :
    trackerAverage rs (c : Int) = .ok ((rs.map fun r => r.getD c 0).sum / (rs.length : ℚ)) := by
  have hm : ∀ l : List (List ℚ), (∀ r ∈ l, c < r.length) → l.mapM (trackerEntry c) = .ok (l.map fun r => r.getD c 0) := by
    intro l hl
    induction l with
    | nil => rfl
    | cons r l ih =>
      rw [List.mapM_cons, ih fun r hr => hl r (by simp [hr])]
      unfold trackerEntry
      rw [List.getElem?_eq_getElem (hl r (by simp))]
      simp [bind, Except.bind, pure, Except.pure, hl r (by simp)]
  unfold trackerAverage
  rw [if_neg (by simp [hr]), Int.toNat_natCast, hm rs h]
  simp [bind, Except.bind, pure, Except.pure]

theorem callback_fold (F G : Int → M ℚ) (f g : Int → ℚ) (l : List Int) (hF : ∀ i ∈ l, F i = .ok (f i)) (hG : ∀ i ∈ l, G i = .ok (g i)) (z : ℚ) :
    l.foldlM (fun (acc : ℚ) i => do
      let a ← F i
      let u ← G i
      pure (acc + a / (u + 1 / 10 ^ 10))) z = (.ok (z + (l.map fun i => f i / (g i + 1 / 10 ^ 10)).sum) : M ℚ) := by
  induction l generalizing z with
  | nil => simp [pure, Except.pure]
  | cons i l ih =>
    rw [List.foldlM_cons, hF i (by simp), hG i (by simp)]
    simp only [bind, Except.bind, pure, Except.pure] at ih ⊢
    rw [ih (fun j hj => hF j (by simp [hj])) (fun j hj => hG j (by simp [hj])), List.map_cons, List.sum_cons, add_assoc]

section epoch
variable {P : Params} {fl : ModelFlags} {nrm : V3 ℚ → V3 ℚ} {divF : ℚ → (Fin k → ℚ) → (Fin k → ℚ)} {D full dev : Nat}

theorem epoch_results (nclass : Nat) (bs : List (List (Points ℚ (Fin k → ℚ) Int))) (h : ∀ b ∈ bs, TestOk P fl nrm divF D full dev b) :
    ∃ rs : List TestResult, bs.mapM (testStep P fl nrm divF D full nclass) = .ok rs ∧ rs.length = bs.length ∧
      (∀ r ∈ rs, r.intsc.length = nclass ∧ r.union.length = nclass) ∧
      ∀ c < nclass, (rs.map fun r => r.intsc.getD c 0).sum = totalBoth P fl nrm divF D full nclass bs.flatten c ∧
        (rs.map fun r => r.union.getD c 0).sum = totalEither P fl nrm divF D full nclass bs.flatten c := by
  induction bs with
  | nil => exact ⟨[], rfl, rfl, by simp, fun c _ => by simp [totalBoth, totalEither]⟩
  | cons b bs ih =>
    obtain ⟨rs, h1, h2, h3, h4⟩ := ih fun b hb => h b (by simp [hb])
    obtain ⟨-, r, k1, k2, k3, k4, -, -⟩ := C96_counts nclass b (h b (by simp))
    refine ⟨r :: rs, by rw [List.mapM_cons, k1, h1]; rfl, by simp [h2], ?_, fun c hc => ?_⟩
    · intro q hq
      rcases List.mem_cons.1 hq with rfl | hq
      · exact ⟨k2, k3⟩
      · exact h3 q hq
    · obtain ⟨a1, a2⟩ := h4 c hc
      obtain ⟨b1, b2⟩ := k4 c hc
      simp only [List.map_cons, List.sum_cons, a1, a2, totalBoth, totalEither, List.flatten_cons, List.map_append, List.sum_append]
      rw [List.getD_eq_getElem?_getD, List.getD_eq_getElem?_getD, b1, b2]
      exact ⟨rfl, rfl⟩

/-- **C96** test epoch: the part mIoU that is reported at the end of a test epoch is the mean, over the classes above the mask, of the ratio of the numbers
of points of all clouds in both and in either of predicted and labelled class; the number of batches enters only through the term that avoids divisions by zero. -/
theorem C96_epoch (nclass m : Nat) (hm : fl.mask + 1 = (m : Int)) (hc : m < nclass) (bs : List (List (Points ℚ (Fin k → ℚ) Int))) (hb : bs ≠ [])
    (h : ∀ b ∈ bs, TestOk P fl nrm divF D full dev b) :
    testEpoch P fl nrm divF D full nclass bs = .ok ((∑ c ∈ Finset.Ico m nclass, totalBoth P fl nrm divF D full nclass bs.flatten c /
      (totalEither P fl nrm divF D full nclass bs.flatten c + (bs.length : ℚ) / 10 ^ 10)) / ((nclass - m : Nat) : ℚ)) := by
  obtain ⟨rs, h1, h2, h3, h4⟩ := epoch_results nclass bs h
  have hr : rs ≠ [] := by
    rintro rfl
    exact hb (List.length_eq_zero_iff.1 h2.symm)
  have hN : (0 : ℚ) < (bs.length : ℚ) := by
    have := List.length_pos_iff.2 hb
    exact_mod_cast this
  have ht : ((nclass : Int) - (m : Int)).toNat = nclass - m := by omega
  unfold testEpoch resultCallback
  rw [h1]
  simp only [bind, Except.bind, hm]
  have hfold := callback_fold (fun i => trackerAverage (rs.map TestResult.intsc) i) (fun i => trackerAverage (rs.map TestResult.union) i)
    (fun i => totalBoth P fl nrm divF D full nclass bs.flatten i.toNat / (bs.length : ℚ))
    (fun i => totalEither P fl nrm divF D full nclass bs.flatten i.toNat / (bs.length : ℚ))
    ((List.range ((nclass : Int) - (m : Int)).toNat).map fun (j : Nat) => (m : Int) + (j : Int)) (by
      intro i hi
      obtain ⟨j, hj, rfl⟩ := List.mem_map.1 hi
      rw [ht, List.mem_range] at hj
      rw [← Nat.cast_add, trackerAverage_ok _ (by simpa using hr) _ (by
        intro r hr
        obtain ⟨q, hq, rfl⟩ := List.mem_map.1 hr
        rw [(h3 q hq).1]; omega), List.map_map, List.length_map, h2, Int.toNat_natCast, ← (h4 (m + j) (by omega)).1]
      rfl) (by
      intro i hi
      obtain ⟨j, hj, rfl⟩ := List.mem_map.1 hi
      rw [ht, List.mem_range] at hj
      rw [← Nat.cast_add, trackerAverage_ok _ (by simpa using hr) _ (by
        intro r hr
        obtain ⟨q, hq, rfl⟩ := List.mem_map.1 hr
        rw [(h3 q hq).2]; omega), List.map_map, List.length_map, h2, Int.toNat_natCast, ← (h4 (m + j) (by omega)).2]
      rfl) 0
  simp only [bind, Except.bind] at hfold
  rw [hfold]
  simp only []
  rw [if_neg (by omega), ht, List.map_map, zero_add]
  simp only [pure, Except.pure]
  congr 2
  · rw [Finset.sum_Ico_eq_sum_range, Finset.sum_range, ← List.sum_ofFn]
    congr 1
    rw [List.ofFn_eq_map, ← List.map_coe_finRange_eq_range, List.map_map]
    refine List.map_congr_left fun j _ => ?_
    simp only [Function.comp]
    rw [← Nat.cast_add, Int.toNat_natCast]
    field_simp
  · rw [Nat.cast_sub hc.le]
    push_cast
    ring

/-- The totals are numbers of points. -/
theorem totals_nat (nclass : Nat) (bs : List (List (Points ℚ (Fin k → ℚ) Int))) (h : ∀ b ∈ bs, TestOk P fl nrm divF D full dev b) (c : Nat) (hc : c < nclass) :
    ∃ a u : Nat, totalBoth P fl nrm divF D full nclass bs.flatten c = (a : ℚ) ∧ totalEither P fl nrm divF D full nclass bs.flatten c = (u : ℚ) ∧ a ≤ u := by
  have one : ∀ pc ∈ bs.flatten, ∃ a u : Nat, (alone P fl nrm divF D full nclass pc).intsc.getD c 0 = (a : ℚ) ∧
      (alone P fl nrm divF D full nclass pc).union.getD c 0 = (u : ℚ) ∧ a ≤ u := by
    intro pc hp
    obtain ⟨b, hb, hp⟩ := List.mem_flatten.1 hp
    obtain ⟨outs, h1, -, h3⟩ := test_outs nclass (h b hb)
    obtain ⟨i, hi, rfl⟩ := List.mem_iff_getElem.1 hp
    have hi' : i < outs.length := by rw [← h3.length_eq]; exact hi
    obtain ⟨-, -, e1, e2, -⟩ := (List.forall₂_iff_get.1 h3).2 i hi hi'
    simp only [List.get_eq_getElem] at e1 e2
    refine ⟨both ((outs[i].1.map classOf).map Int.ofNat) outs[i].2 c, either ((outs[i].1.map classOf).map Int.ofNat) outs[i].2 c, ?_, ?_, both_le_either _ _ _⟩
    · rw [e1, List.getD_eq_getElem?_getD, List.getElem?_map, List.getElem?_range hc]
      rfl
    · rw [e2, List.getD_eq_getElem?_getD, List.getElem?_map, List.getElem?_range hc]
      rfl
  unfold totalBoth totalEither
  generalize bs.flatten = l at one
  induction l with
  | nil => exact ⟨0, 0, by simp, by simp, le_rfl⟩
  | cons pc l ih =>
    obtain ⟨a, u, h1, h2, h3⟩ := ih fun pc hp => one pc (by simp [hp])
    obtain ⟨a', u', k1, k2, k3⟩ := one pc (by simp)
    exact ⟨a' + a, u' + u, by simp only [List.map_cons, List.sum_cons, h1, k1, Nat.cast_add],
      by simp only [List.map_cons, List.sum_cons, h2, k2, Nat.cast_add], by omega⟩

/-- **C96** range: the part mIoU of a test epoch is at least 0 and at most the fraction of the classes above the mask that are predicted for or label some
point.  So a class that does not occur counts as a class that is predicted wrongly: the part mIoU of perfect predictions is below 1. -/
theorem C96_range (nclass m : Nat) (hm : fl.mask + 1 = (m : Int)) (hc : m < nclass) (bs : List (List (Points ℚ (Fin k → ℚ) Int))) (hb : bs ≠ [])
    (h : ∀ b ∈ bs, TestOk P fl nrm divF D full dev b) :
    ∃ v, testEpoch P fl nrm divF D full nclass bs = .ok v ∧ 0 ≤ v ∧
      v ≤ (((Finset.Ico m nclass).filter fun c => totalEither P fl nrm divF D full nclass bs.flatten c ≠ 0).card : ℚ) / ((nclass - m : Nat) : ℚ) ∧ v ≤ 1 := by
  have hN : (0 : ℚ) < (bs.length : ℚ) := by
    have := List.length_pos_iff.2 hb
    exact_mod_cast this
  have hd : (0 : ℚ) < ((nclass - m : Nat) : ℚ) := by
    have : 0 < nclass - m := by omega
    exact_mod_cast this
  have hcard : (((Finset.Ico m nclass).filter fun c => totalEither P fl nrm divF D full nclass bs.flatten c ≠ 0).card : ℚ) / ((nclass - m : Nat) : ℚ) ≤ 1 := by
    rw [div_le_one hd]
    have := Finset.card_filter_le (Finset.Ico m nclass) fun c => totalEither P fl nrm divF D full nclass bs.flatten c ≠ 0
    rw [Nat.card_Ico] at this
    exact_mod_cast this
  refine ⟨_, C96_epoch nclass m hm hc bs hb h, ?_, ?_, ?_⟩
  · apply div_nonneg _ hd.le
    apply Finset.sum_nonneg
    intro c hcm
    obtain ⟨a, u, e1, e2, -⟩ := totals_nat nclass bs h c (Finset.mem_Ico.1 hcm).2
    rw [e1, e2]
    positivity
  all_goals
    try refine le_trans ?_ hcard
    apply div_le_div_of_nonneg_right _ hd.le
    rw [Finset.card_filter, Nat.cast_sum]
    apply Finset.sum_le_sum
    intro c hcm
    obtain ⟨a, u, e1, e2, e3⟩ := totals_nat nclass bs h c (Finset.mem_Ico.1 hcm).2
    rw [e1, e2]
    by_cases hu : u = 0
    · subst hu
      have : a = 0 := by omega
      subst this
      simp
    · rw [if_pos (by exact_mod_cast hu), div_le_iff₀ (by positivity), Nat.cast_one, one_mul]
      have : (a : ℚ) ≤ u := by exact_mod_cast e3
      refine this.trans (le_add_of_nonneg_right (by positivity))

/-- **C96** batching: two test epochs over the same clouds, in any order and with any batches, report part mIoUs that differ by at most `10⁻¹⁰` times the
difference of the numbers of batches; they are equal when the numbers of batches are. -/
theorem C96_rebatched (nclass m : Nat) (hm : fl.mask + 1 = (m : Int)) (hc : m < nclass) (bs bs' : List (List (Points ℚ (Fin k → ℚ) Int))) (hb : bs ≠ [])
    (hb' : bs' ≠ []) (h : ∀ b ∈ bs, TestOk P fl nrm divF D full dev b) (h' : ∀ b ∈ bs', TestOk P fl nrm divF D full dev b)
    (hp : bs.flatten.Perm bs'.flatten) :
    ∃ v v', testEpoch P fl nrm divF D full nclass bs = .ok v ∧ testEpoch P fl nrm divF D full nclass bs' = .ok v' ∧
      |v - v'| ≤ |(bs.length : ℚ) - bs'.length| / 10 ^ 10 := by
  have hN : (0 : ℚ) < (bs.length : ℚ) := by
    have := List.length_pos_iff.2 hb
    exact_mod_cast this
  have hN' : (0 : ℚ) < (bs'.length : ℚ) := by
    have := List.length_pos_iff.2 hb'
    exact_mod_cast this
  have hd : (0 : ℚ) < ((nclass - m : Nat) : ℚ) := by
    have : 0 < nclass - m := by omega
    exact_mod_cast this
  refine ⟨_, _, C96_epoch nclass m hm hc bs hb h, C96_epoch nclass m hm hc bs' hb' h', ?_⟩
  rw [← sub_div, ← Finset.sum_sub_distrib, abs_div, abs_of_pos hd, div_le_iff₀ hd]
  refine (Finset.abs_sum_le_sum_abs _ _).trans ?_
  have hcard : ((nclass - m : Nat) : ℚ) = ((Finset.Ico m nclass).card : ℚ) := by rw [Nat.card_Ico]
  rw [hcard, mul_comm, ← nsmul_eq_mul]
  refine Finset.sum_le_card_nsmul _ _ _ fun c hcm => ?_
  obtain ⟨a, u, e1, e2, e3⟩ := totals_nat nclass bs h c (Finset.mem_Ico.1 hcm).2
  have p1 : totalBoth P fl nrm divF D full nclass bs'.flatten c = totalBoth P fl nrm divF D full nclass bs.flatten c := (hp.map _).sum_eq.symm
  have p2 : totalEither P fl nrm divF D full nclass bs'.flatten c = totalEither P fl nrm divF D full nclass bs.flatten c := (hp.map _).sum_eq.symm
  rw [p1, p2, e1, e2]
  have hau : (a : ℚ) ≤ u := by exact_mod_cast e3
  by_cases hu : u = 0
  · subst hu
    have : a = 0 := by omega
    subst this
    simp only [Nat.cast_zero, zero_div, sub_self, abs_zero]
    positivity
  · have hu1 : (1 : ℚ) ≤ u := by exact_mod_cast Nat.one_le_iff_ne_zero.2 hu
    have x1 : (0 : ℚ) < u + (bs.length : ℚ) / 10 ^ 10 := by positivity
    have x2 : (0 : ℚ) < u + (bs'.length : ℚ) / 10 ^ 10 := by positivity
    rw [div_sub_div _ _ x1.ne' x2.ne', abs_div, abs_of_pos (mul_pos x1 x2), div_le_iff₀ (mul_pos x1 x2)]
    have e : (a : ℚ) * (u + (bs'.length : ℚ) / 10 ^ 10) - (u + (bs.length : ℚ) / 10 ^ 10) * a = a * (((bs'.length : ℚ) - bs.length) / 10 ^ 10) := by ring
    rw [e, abs_mul, abs_div, abs_sub_comm, abs_of_nonneg (Nat.cast_nonneg a : (0 : ℚ) ≤ a), abs_of_pos (by positivity : (0 : ℚ) < 10 ^ 10), mul_comm]
    refine mul_le_mul_of_nonneg_left ?_ (by positivity)
    refine hau.trans ?_
    have y1 : (u : ℚ) ≤ u + (bs.length : ℚ) / 10 ^ 10 := le_add_of_nonneg_right (by positivity)
    have y2 : (1 : ℚ) ≤ u + (bs'.length : ℚ) / 10 ^ 10 := hu1.trans (le_add_of_nonneg_right (by positivity))
    calc (u : ℚ) = u * 1 := (mul_one _).symm
      _ ≤ _ := mul_le_mul y1 y2 zero_le_one x1.le

end epoch

/-! ### a concrete case -/

theorem cloudP_test (P : Params) (hP : P.training = false) (nrm : V3 ℚ → V3 ℚ) (divF : ℚ → (Fin 1 → ℚ) → (Fin 1 → ℚ)) (nempty : Bool) :
    TestOk P ⟨"UNet", 4, 10, 0, 3, "linear", nempty, "ND", -1⟩ nrm divF 6 2 0 [cloudP 0, cloudP 1] :=
  ⟨hP, by decide, by decide, cloudP_legal, by simp [cloudP], cloudP_features _ _ _, .inl ⟨show "UNet".toLower = "unet" by decide +kernel, by decide⟩,
    show 1 ≤ 10 by decide⟩

theorem Spec.TestOk.one {P : Params} {fl : ModelFlags} {nrm : V3 ℚ → V3 ℚ} {divF : ℚ → (Fin k → ℚ) → (Fin k → ℚ)} {D full dev : Nat}
    {pcs : List (Points ℚ (Fin k → ℚ) Int)} (h : TestOk P fl nrm divF D full dev pcs) (pc : Points ℚ (Fin k → ℚ) Int) (hp : pc ∈ pcs) :
    TestOk P fl nrm divF D full dev [pc] := by
  have hs : ∀ q ∈ [pc], q ∈ pcs := by simpa using hp
  refine ⟨h.eval, h.depth, h.fullDepth, h.legal.one pc hp, fun q hq => h.labels q (hs q hq), ?_, ?_, h.logits⟩
  · obtain ⟨a, b, c, d, e⟩ := h.features
    exact ⟨a, fun x q hq => b x q (hs q hq), fun x q hq => c x q (hs q hq), d, e⟩
  · rcases h.network with hn | ⟨a, b, c, d⟩
    · exact .inl hn
    · exact .inr ⟨a, b, c, fun e q hq => d e q (hs q hq)⟩

example (P : Params) (hP : P.training = false) (nrm : V3 ℚ → V3 ℚ) (divF : ℚ → (Fin 1 → ℚ) → (Fin 1 → ℚ)) (nempty : Bool) :
    ∃ v v', testEpoch P ⟨"UNet", 4, 10, 0, 3, "linear", nempty, "ND", -1⟩ nrm divF 6 2 10 [[cloudP 0, cloudP 1]] = .ok v ∧
      testEpoch P ⟨"UNet", 4, 10, 0, 3, "linear", nempty, "ND", -1⟩ nrm divF 6 2 10 [[cloudP 1], [cloudP 0]] = .ok v' ∧ |v - v'| ≤ 1 / 10 ^ 10 := by
  have h := cloudP_test P hP nrm divF nempty
  obtain ⟨v, v', h1, h2, h3⟩ := C96_rebatched (dev := 0) 10 0 (show (-1 : Int) + 1 = 0 by decide) (by decide) [[cloudP 0, cloudP 1]] [[cloudP 1], [cloudP 0]]
    (by simp) (by simp) (by simpa using h) (by
      intro b hb
      simp only [List.mem_cons, List.not_mem_nil, or_false] at hb
      rcases hb with rfl | rfl
      · exact h.one _ (by simp)
      · exact h.one _ (by simp)) (List.Perm.swap _ _ _)
  refine ⟨v, v', h1, h2, h3.trans ?_⟩
  norm_num [abs_le]

end Ocnn
