import Verif.ScanTools
import Verif.PropsProjects
import Mathlib.Tactic.Positivity
import Mathlib.Tactic.FieldSimp
import Mathlib.Algebra.Order.BigOperators.Group.List
import Mathlib.Algebra.BigOperators.Group.List.Basic

/-! Theorems about the labels and the IoU of projects/tools/seg_scannet.py: C106 and C107. -/

namespace Ocnn

namespace Spec

/-- The id of a name: that of the first row with the name if it is among the 200 classes, else 0. -/
inductive NameId (table : List (String × Int)) (name : String) : Int → Prop
  | listed (pre post : List (String × Int)) (i : Nat) : table = pre ++ (name, (i : Int)) :: post → (∀ r ∈ pre, r.1 ≠ name) → i ∈ classIds200 → NameId table name i
  | unlisted (pre post : List (String × Int)) (i : Int) : table = pre ++ (name, i) :: post → (∀ r ∈ pre, r.1 ≠ name) → (∀ c ∈ classIds200, i ≠ (c : Int)) → NameId table name 0
  | unknown : (∀ r ∈ table, r.1 ≠ name) → NameId table name 0

/-- The label of a segment: that of the last group that contains it, else 0. -/
inductive SegmentLabel (table : List (String × Int)) (groups : List SegGroup) (s : Int) : Int → Prop
  | last (pre post : List SegGroup) (g : SegGroup) (l : Int) : groups = pre ++ g :: post → s ∈ g.segments → (∀ g' ∈ post, s ∉ g'.segments) → NameId table g.label l →
      SegmentLabel table groups s l
  | free : (∀ g ∈ groups, s ∉ g.segments) → SegmentLabel table groups s 0

/-- The points of all files, as pairs of the predicted and the true label. -/
def allPairs (files : List (List Int × List Int)) : List (Int × Int) := files.flatMap fun f => f.1.zip f.2

/-- A point with a true label among the classes. -/
def ValidPair (ids : List Nat) (p : Int × Int) : Prop := ∃ c ∈ ids.tail, p.2 = (c : Int)

instance (ids : List Nat) (p : Int × Int) : Decidable (ValidPair ids p) := inferInstanceAs (Decidable (∃ c ∈ ids.tail, p.2 = (c : Int)))

/-- The valid points that are of the class and predicted as such. -/
def agreePair (ids : List Nat) (ps : List (Int × Int)) (k : Nat) : Nat := ps.countP fun p => ValidPair ids p ∧ p.1 = (k : Int) ∧ p.2 = (k : Int)

/-- The valid points that are of the class or predicted as such. -/
def eitherPair (ids : List Nat) (ps : List (Int × Int)) (k : Nat) : Nat := ps.countP fun p => ValidPair ids p ∧ (p.1 = (k : Int) ∨ p.2 = (k : Int))

/-- The mean over the classes of the intersections over the unions. -/
def meanIou (ids : List Nat) (ps : List (Int × Int)) : ℚ :=
  (ids.tail.map fun k => (agreePair ids ps k : ℚ) / ((eitherPair ids ps k : ℚ) + 1 / 10 ^ 10)).sum / ids.tail.length

/-- The share of right predictions among the valid points. -/
def shareRight (ids : List Nat) (ps : List (Int × Int)) : ℚ := (ps.countP fun p => ValidPair ids p ∧ p.2 = p.1 : ℚ) / (ps.countP fun p => ValidPair ids p : ℚ)

end Spec

open Spec

theorem zero_listed : (0 : Nat) ∈ classIds200 := by decide +kernel

theorem groupLabel_spec (table : List (String × Int)) (g : SegGroup) : NameId table g.label (groupLabel table g) := by
  unfold groupLabel
  have hz : (0 : Int) ∈ classIds200.map (fun c : Nat => (c : Int)) := List.mem_map.mpr ⟨0, zero_listed, rfl⟩
  cases h : table.filter (fun r => r.1 = g.label) with
  | nil =>
    simp only [List.map_nil, if_pos hz]
    refine .unknown fun r hr e => ?_
    have : r ∈ table.filter (fun r => r.1 = g.label) := List.mem_filter.mpr ⟨hr, by simpa using e⟩
    rw [h] at this
    simp at this
  | cons r rest =>
    rw [List.filter_eq_cons_iff] at h
    obtain ⟨pre, post, e, h1, h2, -⟩ := h
    have hr : r = (g.label, r.2) := by
      obtain ⟨a, b⟩ := r
      simp only [decide_eq_true_eq] at h2
      rw [h2]
    have hpre : ∀ q ∈ pre, q.1 ≠ g.label := fun q hq => by simpa using h1 q hq
    simp only [List.map_cons]
    split
    · next hm =>
      obtain ⟨c, hc, ec⟩ := List.mem_map.mp hm
      rw [← ec]
      refine .listed pre post c ?_ hpre hc
      rw [e, hr, ← ec]
    · next hm =>
      refine .unlisted pre post r.2 (by rw [e, ← hr]) hpre fun c hc ec => hm ?_
      exact List.mem_map.mpr ⟨c, hc, ec.symm⟩

theorem pointLabels_map (table : List (String × Int)) (segs : List Int) (groups : List SegGroup) :
    pointLabels200 table segs groups = segs.map fun s => groups.foldl (fun l g => if s ∈ g.segments then groupLabel table g else l) 0 := by
  have h : ∀ (groups : List SegGroup) (f : Int → Int), groups.foldl (fun label g => List.zipWith (fun s l => if s ∈ g.segments then groupLabel table g else l) segs label) (segs.map f) =
      segs.map fun s => groups.foldl (fun l g => if s ∈ g.segments then groupLabel table g else l) (f s) := by
    intro groups
    induction groups with
    | nil => intro f; rfl
    | cons g gs ih =>
      intro f
      rw [List.foldl_cons, List.zipWith_map_right, List.zipWith_self, ih]
      rfl
  exact h groups _

theorem fold_last (table : List (String × Int)) (s : Int) (groups : List SegGroup) :
    SegmentLabel table groups s (groups.foldl (fun l g => if s ∈ g.segments then groupLabel table g else l) 0) := by
  induction groups using List.reverseRecOn with
  | nil => exact .free (by simp)
  | append_singleton gs g ih =>
    rw [List.foldl_append, List.foldl_cons, List.foldl_nil]
    split
    · next h => exact .last gs [] g _ rfl h (by simp) (groupLabel_spec table g)
    · next h =>
      generalize gs.foldl (fun l g => if s ∈ g.segments then groupLabel table g else l) 0 = v at ih ⊢
      cases ih with
      | last pre post g' l e h1 h2 h3 =>
        refine .last pre (post ++ [g]) g' _ (by rw [e]; simp) h1 ?_ h3
        intro q hq
        rcases List.mem_append.mp hq with hq | hq
        · exact h2 q hq
        · rw [List.mem_singleton.mp hq]; exact h
      | free h1 =>
        refine .free fun q hq => ?_
        rcases List.mem_append.mp hq with hq | hq
        · exact h1 q hq
        · rw [List.mem_singleton.mp hq]; exact h

/-- **C106.** Every vertex gets the id of the last group that contains its segment, 0 if there is none or the name has no listed id. -/
theorem C106_labels (table : List (String × Int)) (segs : List Int) (groups : List SegGroup) :
    (pointLabels200 table segs groups).length = segs.length ∧
      ∀ (i : Nat) (s l : Int), segs[i]? = some s → (pointLabels200 table segs groups)[i]? = some l → SegmentLabel table groups s l := by
  rw [pointLabels_map]
  refine ⟨by simp, ?_⟩
  intro i s l h1 h2
  rw [List.getElem?_map, h1, Option.map_some] at h2
  rw [← Option.some.inj h2]
  exact fold_last table s groups

theorem nameId_mem {table : List (String × Int)} {name : String} {l : Int} (h : NameId table name l) : 0 ≤ l ∧ l.toNat ∈ classIds200 := by
  cases h with
  | listed _ _ i _ _ h => exact ⟨Int.natCast_nonneg _, by simpa using h⟩
  | unlisted => exact ⟨le_refl _, zero_listed⟩
  | unknown => exact ⟨le_refl _, zero_listed⟩

theorem nameId_unique {table : List (String × Int)} {name : String} {a b : Int} (ha : NameId table name a) (hb : NameId table name b) : a = b := by
  have first : ∀ (table pre pre' post post' : List (String × Int)) (i i' : Int), table = pre ++ (name, i) :: post → table = pre' ++ (name, i') :: post' →
      (∀ r ∈ pre, r.1 ≠ name) → (∀ r ∈ pre', r.1 ≠ name) → i = i' := by
    intro table pre
    induction pre generalizing table with
    | nil =>
      intro pre' post post' i i' e e' _ h'
      cases pre' with
      | nil =>
        rw [e] at e'
        simp only [List.nil_append, List.cons.injEq, Prod.mk.injEq, true_and] at e'
        exact e'.1
      | cons r pre' =>
        rw [e] at e'
        simp only [List.nil_append, List.cons_append, List.cons.injEq] at e'
        exact absurd (by rw [← e'.1]) (h' r (by simp))
    | cons r pre ih =>
      intro pre' post post' i i' e e' h h'
      cases pre' with
      | nil =>
        rw [e] at e'
        simp only [List.nil_append, List.cons_append, List.cons.injEq] at e'
        exact absurd (by rw [e'.1]) (h r (by simp))
      | cons r' pre' =>
        rw [e] at e'
        simp only [List.cons_append, List.cons.injEq] at e'
        exact ih (pre ++ (name, i) :: post) pre' post post' i i' rfl e'.2 (fun q hq => h q (by simp [hq])) (fun q hq => h' q (by simp [hq]))
  cases ha with
  | listed pre post i e h hi =>
    cases hb with
    | listed pre' post' i' e' h' hi' => exact first _ _ _ _ _ _ _ e e' h h'
    | unlisted pre' post' i' e' h' hi' => exact absurd (first _ _ _ _ _ _ _ e' e h' h) (hi' i hi)
    | unknown h' => exact absurd rfl (h' (name, (i : Int)) (by rw [e]; simp))
  | unlisted pre post i e h hi =>
    cases hb with
    | listed pre' post' i' e' h' hi' => exact absurd (first _ _ _ _ _ _ _ e e' h h') (hi i' hi')
    | unlisted => rfl
    | unknown => rfl
  | unknown h =>
    cases hb with
    | listed pre' post' i' e' h' hi' => exact absurd rfl (h (name, (i' : Int)) (by rw [e']; simp))
    | unlisted => rfl
    | unknown => rfl

/-- **C106, training labels.** The labels are among the 200 classes, so that the mapping to training labels and back is exact. -/
theorem C106_mapped (table : List (String × Int)) (segs : List Int) (groups : List SegGroup) :
    ∃ cls, mapLabels classIds200 (pointLabels200 table segs groups) = .ok cls ∧ cls.length = segs.length ∧ (∀ c ∈ cls, c < 201) ∧
      unmapLabels classIds200 (cls.map fun c : Nat => (c : Int)) = .ok ((pointLabels200 table segs groups).map Int.toNat) := by
  have hmem : ∀ l ∈ pointLabels200 table segs groups, 0 ≤ l ∧ l.toNat ∈ classIds200 := by
    rw [pointLabels_map]
    intro l hl
    obtain ⟨s, _, rfl⟩ := List.mem_map.mp hl
    have hv := fold_last table s groups
    generalize groups.foldl (fun l g => if s ∈ g.segments then groupLabel table g else l) 0 = v at hv ⊢
    cases hv with
    | last pre post g l e h1 h2 h3 => exact nameId_mem h3
    | free h => exact ⟨le_refl _, zero_listed⟩
  have hb : ∀ c ∈ classIds200, c < 2048 := by decide +kernel
  obtain ⟨cls, h1, h2, h3, _, h5⟩ := C85_labels classIds200 (Or.inr rfl) (pointLabels200 table segs groups) fun l hl => by
    have := hmem l hl
    have := hb _ this.2
    omega
  refine ⟨cls, h1, by rw [h2]; exact (C106_labels table segs groups).1, fun c hc => ?_, ?_⟩
  · have := h3 c hc
    have e : classIds200.length = 201 := by decide +kernel
    omega
  · rw [h5]
    congr 1
    apply List.map_congr_left
    intro l hl
    rw [if_pos (hmem l hl).2]

/-- C106: if no segment is in two groups, the order of the groups plays no role. -/
theorem C106_order (table : List (String × Int)) (segs : List Int) (groups groups' : List SegGroup) (hp : groups.Perm groups')
    (hd : groups.Pairwise fun g g' => ∀ s ∈ g.segments, s ∉ g'.segments) : pointLabels200 table segs groups' = pointLabels200 table segs groups := by
  rw [pointLabels_map, pointLabels_map]
  apply List.map_congr_left
  intro s _
  have uniq : ∀ g ∈ groups, ∀ g' ∈ groups, s ∈ g.segments → s ∈ g'.segments → g = g' := by
    intro g hg g' hg' h h'
    by_contra hne
    have hsym : ∀ a b : SegGroup, (fun g g' : SegGroup => ∀ s ∈ g.segments, s ∉ g'.segments) a b → (fun g g' : SegGroup => ∀ s ∈ g.segments, s ∉ g'.segments) b a := fun a b h s hs hs' => h s hs' hs
    haveI : Std.Symm fun g g' : SegGroup => ∀ s ∈ g.segments, s ∉ g'.segments := ⟨hsym⟩
    exact hd.forall hg hg' hne s h h'
  have hv := fold_last table s groups
  have hv' := fold_last table s groups'
  generalize groups.foldl (fun l g => if s ∈ g.segments then groupLabel table g else l) 0 = v at hv ⊢
  generalize groups'.foldl (fun l g => if s ∈ g.segments then groupLabel table g else l) 0 = v' at hv' ⊢
  cases hv with
  | last pre post g l e h1 h2 h3 =>
    have hg : g ∈ groups := by rw [e]; simp
    cases hv' with
    | last pre' post' g' l' e' h1' h2' h3' =>
      have hg' : g' ∈ groups := hp.mem_iff.mpr (by rw [e']; simp)
      have := uniq g hg g' hg' h1 h1'
      subst this
      exact nameId_unique h3' h3
    | free h => exact absurd h1 (h g (hp.mem_iff.mp hg))
  | free h =>
    cases hv' with
    | last pre' post' g' l' e' h1' h2' h3' => exact absurd h1' (h g' (hp.mem_iff.mpr (by rw [e']; simp)))
    | free _ => rfl

example : pointLabels200 [("wall", 1), ("wall", 5), ("odd", 12), ("chair", 2)] [7, 8, 9, 10, 7] [⟨"wall", [7, 9]⟩, ⟨"chair", [9]⟩, ⟨"odd", [10]⟩] = [1, 0, 2, 0, 1] := by
  decide +kernel

/-! ### C107 -/

theorem maskSel_zip (q : Int → Bool) (pred gt : List Int) (h : pred.length = gt.length) :
    maskSel (gt.map q) pred = ((pred.zip gt).filter fun p => q p.2).map (·.1) ∧ maskSel (gt.map q) gt = ((pred.zip gt).filter fun p => q p.2).map (·.2) := by
  induction gt generalizing pred with
  | nil =>
    cases pred with
    | nil => exact ⟨rfl, rfl⟩
    | cons => simp at h
  | cons g gt ih =>
    cases pred with
    | nil => simp at h
    | cons p pred =>
      obtain ⟨h1, h2⟩ := ih pred (by simpa using h)
      rw [List.zip_cons_cons, List.filter_cons, List.map_cons]
      cases hq : q g with
      | true =>
        simp only [maskSel, hq, if_true, List.map_cons]
        exact ⟨by rw [h1], by rw [h2]⟩
      | false =>
        simp only [maskSel, hq]
        exact ⟨h1, h2⟩

theorem maskSum_pairs (f : Bool → Bool → Bool) (a b : Int → Bool) (ps : List (Int × Int)) :
    maskSum f ((ps.map (·.1)).map a) ((ps.map (·.2)).map b) = (ps.countP fun p => f (a p.1) (b p.2) : ℚ) := by
  unfold maskSum
  rw [List.map_map, List.map_map, List.zipWith_map, List.zipWith_self, List.count, List.countP_map]
  congr 1
  apply List.countP_congr
  intro p _
  simp

theorem iouFile_ok (ids : List Nat) (s : IouSums) (file : List Int × List Int) (h : file.1.length = file.2.length) :
    iouFile ids s file = .ok
      { intsc := List.zipWith (fun k v => v + (agreePair ids (file.1.zip file.2) k : ℚ)) ids.tail s.intsc
        union := List.zipWith (fun k v => v + (eitherPair ids (file.1.zip file.2) k : ℚ)) ids.tail s.union
        accu := s.accu.bind fun a => if (file.1.zip file.2).countP (fun p => ValidPair ids p) = 0 then none else some (a + shareRight ids (file.1.zip file.2)) } := by
  obtain ⟨pred, gt⟩ := file
  simp only at h
  unfold iouFile
  have hq : ∀ p : Int × Int, decide (p.2 ∈ ids.tail.map (fun c : Nat => (c : Int))) = decide (ValidPair ids p) := by
    intro p
    apply decide_eq_decide.mpr
    rw [List.mem_map]
    exact ⟨fun ⟨c, h1, h2⟩ => ⟨c, h1, h2.symm⟩, fun ⟨c, h1, h2⟩ => ⟨c, h1, h2.symm⟩⟩
  obtain ⟨m1, m2⟩ := maskSel_zip (fun l => decide (l ∈ ids.tail.map (fun c : Nat => (c : Int)))) pred gt h
  simp only [hq] at m1 m2
  have b1 : boolIndex (gt.map fun l => decide (l ∈ ids.tail.map (fun c : Nat => (c : Int)))) pred = .ok (((pred.zip gt).filter fun p => ValidPair ids p).map (·.1)) := by
    rw [← m1]; exact boolIndex_ok _ _ (by simpa using h.symm)
  have b2 : boolIndex (gt.map fun l => decide (l ∈ ids.tail.map (fun c : Nat => (c : Int)))) gt = .ok (((pred.zip gt).filter fun p => ValidPair ids p).map (·.2)) := by
    rw [← m2]; exact boolIndex_ok _ _ (by simp)
  simp only [b1, b2, bind, Except.bind, pure, Except.pure]
  congr 1
  simp only [IouSums.mk.injEq]
  refine ⟨?_, ?_, ?_⟩
  · congr 1
    funext k v
    rw [maskSum_pairs, List.countP_filter, agreePair]
    congr 2
    apply List.countP_congr
    intro p _
    simp only [Bool.and_eq_true, decide_eq_true_eq]
    tauto
  · congr 1
    funext k v
    rw [maskSum_pairs, List.countP_filter, eitherPair]
    congr 2
    apply List.countP_congr
    intro p _
    simp only [Bool.and_eq_true, Bool.or_eq_true, decide_eq_true_eq]
    tauto
  · congr 1
    funext a
    rw [List.isEmpty_map, List.countP_eq_length_filter]
    by_cases he : (pred.zip gt).filter (fun p => ValidPair ids p) = []
    · rw [he]; simp
    · rw [if_neg (by simpa using he), if_neg (by simpa using he)]
      simp only [Option.map_some, Option.some.injEq, add_right_inj]
      rw [shareRight, List.length_map, ← List.countP_eq_length_filter, List.zipWith_map, List.zipWith_self, List.count, List.countP_map, List.countP_filter]
      congr 2
      apply List.countP_congr
      intro p _
      simp only [Function.comp, Bool.and_eq_true, decide_eq_true_eq, beq_iff_eq]
      tauto

/-- The accuracies of the files, summed. -/
def accSum (ids : List Nat) : Option ℚ → List (List Int × List Int) → Option ℚ
  | a, [] => a
  | a, f :: fs => accSum ids (a.bind fun a => if (f.1.zip f.2).countP (fun p => ValidPair ids p) = 0 then none else some (a + shareRight ids (f.1.zip f.2))) fs

theorem calc_fold (ids : List Nat) (files : List (List Int × List Int)) (h : ∀ f ∈ files, f.1.length = f.2.length) :
    ∀ (fi fu : Nat → ℚ) (a : Option ℚ), files.foldlM (iouFile ids) ⟨ids.tail.map fi, ids.tail.map fu, a⟩ = .ok
      ⟨ids.tail.map fun k => fi k + (agreePair ids (allPairs files) k : ℚ), ids.tail.map fun k => fu k + (eitherPair ids (allPairs files) k : ℚ), accSum ids a files⟩ := by
  induction files with
  | nil =>
    intro fi fu a
    simp [allPairs, agreePair, eitherPair, accSum, pure, Except.pure]
  | cons f fs ih =>
    intro fi fu a
    rw [List.foldlM_cons, iouFile_ok ids _ f (h f (by simp))]
    simp only [bind, Except.bind, List.zipWith_map_right, List.zipWith_self]
    rw [ih (fun f hf => h f (by simp [hf]))]
    simp only [allPairs, List.flatMap_cons, agreePair, eitherPair, List.countP_append, Nat.cast_add, accSum, add_assoc]

theorem calcIou_ok (ids : List Nat) (files : List (List Int × List Int)) (hne : files ≠ []) (h : ∀ f ∈ files, f.1.length = f.2.length) :
    calcIou ids files = .ok ((accSum ids (some 0) files).map fun a => a / files.length, meanIou ids (allPairs files)) := by
  unfold calcIou
  rw [calc_fold ids files h]
  simp only [bind, Except.bind, List.zipWith_map, List.zipWith_self]
  rw [if_neg (by simpa using hne)]
  simp [meanIou, pure, Except.pure]

theorem accSum_some (ids : List Nat) (files : List (List Int × List Int)) (h : ∀ f ∈ files, ∃ p ∈ f.1.zip f.2, ValidPair ids p) (a : ℚ) :
    accSum ids (some a) files = some (a + (files.map fun f => shareRight ids (f.1.zip f.2)).sum) := by
  induction files generalizing a with
  | nil => simp [accSum]
  | cons f fs ih =>
    obtain ⟨p, hp, hv⟩ := h f (by simp)
    have : (f.1.zip f.2).countP (fun p => ValidPair ids p) ≠ 0 := by
      rw [Ne, List.countP_eq_zero]
      push_neg
      exact ⟨p, hp, by simpa using hv⟩
    rw [accSum, Option.bind_some, if_neg this, ih fun f hf => h f (by simp [hf])]
    simp [add_assoc]

theorem accSum_none (ids : List Nat) (files : List (List Int × List Int)) : accSum ids none files = none := by
  induction files with
  | nil => rfl
  | cons f fs ih => exact ih

/-- **C107 (partial).** Full statement: the printed accuracy is the mean over the files of the share of right valid points, and the printed IoU the mean of intersection over union, over
the points of all files together; perfect predictions give (up to `10⁻¹⁰`) 1.  Proved: if every file has a point of a class (else the accuracy is not a number, `C107_nan`), and the last
sentence if every class occurs (else it fails, `C107_violated`). -/
theorem C107_partial (ids : List Nat) (files : List (List Int × List Int)) (hne : files ≠ []) (h : ∀ f ∈ files, f.1.length = f.2.length)
    (hv : ∀ f ∈ files, ∃ p ∈ f.1.zip f.2, ValidPair ids p) :
    calcIou ids files = .ok (some ((files.map fun f => shareRight ids (f.1.zip f.2)).sum / files.length), meanIou ids (allPairs files)) ∧
      ((∀ p ∈ allPairs files, p.1 = p.2) → (∀ k ∈ ids.tail, ∃ p ∈ allPairs files, p.2 = (k : Int)) → ids.tail ≠ [] →
        1 - 1 / 10 ^ 10 ≤ meanIou ids (allPairs files) ∧ (files.map fun f => shareRight ids (f.1.zip f.2)).sum / files.length = 1) := by
  have hpos : (0 : ℚ) < files.length := by
    have := List.length_pos_of_ne_nil hne
    exact_mod_cast this
  refine ⟨?_, ?_⟩
  · rw [calcIou_ok ids files hne h, accSum_some ids files hv, zero_add]
    rfl
  · intro hp hk hids
    have hn : (0 : ℚ) < ids.tail.length := by
      have := List.length_pos_of_ne_nil hids
      exact_mod_cast this
    constructor
    · have hterm : ∀ k ∈ ids.tail, 1 - 1 / 10 ^ 10 ≤ (agreePair ids (allPairs files) k : ℚ) / ((eitherPair ids (allPairs files) k : ℚ) + 1 / 10 ^ 10) := by
        intro k hk'
        have e : agreePair ids (allPairs files) k = eitherPair ids (allPairs files) k := by
          unfold agreePair eitherPair
          apply List.countP_congr
          intro p hpm
          have := hp p hpm
          simp only [decide_eq_true_eq]
          rw [this]
          tauto
        have h1 : 1 ≤ eitherPair ids (allPairs files) k := by
          obtain ⟨p, hpm, e⟩ := hk k hk'
          unfold eitherPair
          rw [Nat.one_le_iff_ne_zero, Ne, List.countP_eq_zero]
          push_neg
          exact ⟨p, hpm, by simp only [decide_eq_true_eq]; exact ⟨⟨k, hk', e⟩, Or.inr e⟩⟩
        have h1' : (1 : ℚ) ≤ (eitherPair ids (allPairs files) k : ℚ) := by exact_mod_cast h1
        rw [e, le_div_iff₀ (by positivity)]
        nlinarith
      unfold meanIou
      rw [le_div_iff₀ hn]
      have : ∀ (l : List Nat) (g : Nat → ℚ) (c : ℚ), (∀ k ∈ l, c ≤ g k) → c * l.length ≤ (l.map g).sum := by
        intro l g c hc
        induction l with
        | nil => simp
        | cons a l ih =>
          have := ih fun k hk => hc k (by simp [hk])
          have := hc a (by simp)
          simp only [List.length_cons, Nat.cast_add, Nat.cast_one, List.map_cons, List.sum_cons]
          linarith
      exact this _ _ _ hterm
    · have : ∀ f ∈ files, shareRight ids (f.1.zip f.2) = 1 := by
        intro f hf
        obtain ⟨p, hpm, hpv⟩ := hv f hf
        have e : (f.1.zip f.2).countP (fun p => ValidPair ids p ∧ p.2 = p.1) = (f.1.zip f.2).countP (fun p => ValidPair ids p) := by
          apply List.countP_congr
          intro q hq
          have := hp q (List.mem_flatMap.mpr ⟨f, hf, hq⟩)
          simp only [decide_eq_true_eq]
          rw [this]
          tauto
        have hc : (f.1.zip f.2).countP (fun p => ValidPair ids p) ≠ 0 := by
          rw [Ne, List.countP_eq_zero]
          push_neg
          exact ⟨p, hpm, by simpa using hpv⟩
        unfold shareRight
        rw [e, div_self (by exact_mod_cast hc)]
      rw [List.map_congr_left this]
      simp only [List.map_const', List.sum_replicate, nsmul_eq_mul, mul_one]
      exact div_self (ne_of_gt hpos)

theorem meanIou_valid (ids : List Nat) (ps : List (Int × Int)) : meanIou ids (ps.filter fun p => ValidPair ids p) = meanIou ids ps := by
  unfold meanIou agreePair eitherPair
  simp only [List.countP_filter]
  have e : ∀ (k : Nat), (ps.countP fun p => decide (ValidPair ids p ∧ p.1 = (k : Int) ∧ p.2 = (k : Int)) && decide (ValidPair ids p)) =
      ps.countP fun p => ValidPair ids p ∧ p.1 = (k : Int) ∧ p.2 = (k : Int) := by
    intro k
    apply List.countP_congr
    intro p _
    simp only [Bool.and_eq_true, decide_eq_true_eq]
    tauto
  have e' : ∀ (k : Nat), (ps.countP fun p => decide (ValidPair ids p ∧ (p.1 = (k : Int) ∨ p.2 = (k : Int))) && decide (ValidPair ids p)) =
      ps.countP fun p => ValidPair ids p ∧ (p.1 = (k : Int) ∨ p.2 = (k : Int)) := by
    intro k
    apply List.countP_congr
    intro p _
    simp only [Bool.and_eq_true, decide_eq_true_eq]
    tauto
  simp only [e, e']

/-- **C107**: for the IoU only the points of a class count, and how they are spread over files plays no role. -/
theorem C107_regroup (ids : List Nat) (files files' : List (List Int × List Int)) (hne : files ≠ []) (hne' : files' ≠ []) (h : ∀ f ∈ files, f.1.length = f.2.length)
    (h' : ∀ f ∈ files', f.1.length = f.2.length) (hp : ((allPairs files).filter fun p => ValidPair ids p).Perm ((allPairs files').filter fun p => ValidPair ids p)) :
    ∃ a a' v, calcIou ids files = .ok (a, v) ∧ calcIou ids files' = .ok (a', v) := by
  refine ⟨_, (accSum ids (some 0) files').map fun a => a / files'.length, _, calcIou_ok ids files hne h, ?_⟩
  rw [calcIou_ok ids files' hne' h']
  have : meanIou ids (allPairs files') = meanIou ids (allPairs files) := by
    rw [← meanIou_valid ids (allPairs files), ← meanIou_valid ids (allPairs files')]
    unfold meanIou agreePair eitherPair
    simp only [hp.countP_eq]
  rw [this]

/-- C107: the IoU is at least 0 and less than 1. -/
theorem C107_range (ids : List Nat) (hids : ids.tail ≠ []) (ps : List (Int × Int)) : 0 ≤ meanIou ids ps ∧ meanIou ids ps < 1 := by
  have hn : (0 : ℚ) < ids.tail.length := by
    have := List.length_pos_of_ne_nil hids
    exact_mod_cast this
  have hterm : ∀ k, 0 ≤ (agreePair ids ps k : ℚ) / ((eitherPair ids ps k : ℚ) + 1 / 10 ^ 10) ∧ (agreePair ids ps k : ℚ) / ((eitherPair ids ps k : ℚ) + 1 / 10 ^ 10) < 1 := by
    intro k
    have hle : agreePair ids ps k ≤ eitherPair ids ps k := by
      unfold agreePair eitherPair
      apply List.countP_mono_left
      intro p _
      simp only [decide_eq_true_eq]
      tauto
    have hle' : (agreePair ids ps k : ℚ) ≤ eitherPair ids ps k := by exact_mod_cast hle
    refine ⟨by positivity, ?_⟩
    rw [div_lt_one (by positivity)]
    have : (0 : ℚ) < 1 / 10 ^ 10 := by positivity
    linarith
  unfold meanIou
  constructor
  · apply div_nonneg _ (le_of_lt hn)
    apply List.sum_nonneg
    intro x hx
    obtain ⟨k, _, rfl⟩ := List.mem_map.mp hx
    exact (hterm k).1
  · rw [div_lt_one hn]
    have : ∀ (l : List Nat) (g : Nat → ℚ), l ≠ [] → (∀ k, g k < 1) → (l.map g).sum < l.length := by
      intro l g hl hg
      induction l with
      | nil => exact absurd rfl hl
      | cons a l ih =>
        simp only [List.length_cons, Nat.cast_add, Nat.cast_one, List.map_cons, List.sum_cons]
        have := hg a
        by_cases hl' : l = []
        · subst hl'; simpa using this
        · have := ih hl'
          linarith
    exact this _ _ hids fun k => (hterm k).2

/-- **C107 fails**: one file without a point of a class makes the accuracy not-a-number, whatever the others are. -/
theorem C107_nan (ids : List Nat) (files : List (List Int × List Int)) (h : ∀ f ∈ files, f.1.length = f.2.length) (f : List Int × List Int) (hf : f ∈ files)
    (hv : ∀ p ∈ f.1.zip f.2, ¬ ValidPair ids p) : ∃ v, calcIou ids files = .ok (none, v) := by
  refine ⟨meanIou ids (allPairs files), ?_⟩
  rw [calcIou_ok ids files (List.ne_nil_of_mem hf) h]
  have : ∀ (files : List (List Int × List Int)) (a : Option ℚ), f ∈ files → accSum ids a files = none := by
    intro files
    induction files with
    | nil => intro a h; simp at h
    | cons g gs ih =>
      intro a hm
      rcases List.mem_cons.mp hm with rfl | hm
      · have : (f.1.zip f.2).countP (fun p => ValidPair ids p) = 0 := by
          rw [List.countP_eq_zero]
          intro p hp
          simpa using hv p hp
        rw [accSum]
        simp only [this, if_true]
        have e : (a.bind fun _ => (none : Option ℚ)) = none := by cases a <;> rfl
        rw [e, accSum_none]
      · exact ih _ hm
  rw [this files _ hf]
  rfl

/-- **C107 fails**: if a class does not occur, the IoU is at most the share of the other classes, also for perfect predictions. -/
theorem C107_absent (ids : List Nat) (files : List (List Int × List Int)) (hne : files ≠ []) (h : ∀ f ∈ files, f.1.length = f.2.length) (k : Nat) (hk : k ∈ ids.tail)
    (ha : ∀ p ∈ allPairs files, p.2 ≠ (k : Int)) : ∃ a v, calcIou ids files = .ok (a, v) ∧ v ≤ (ids.tail.length - 1) / ids.tail.length := by
  refine ⟨_, _, calcIou_ok ids files hne h, ?_⟩
  generalize allPairs files = ps at ha
  have hn : (0 : ℚ) < ids.tail.length := by
    have := List.length_pos_of_mem hk
    exact_mod_cast this
  unfold meanIou
  apply div_le_div_of_nonneg_right _ (le_of_lt hn)
  have h0 : agreePair ids ps k = 0 := by
    unfold agreePair
    rw [List.countP_eq_zero]
    intro p hpm
    have := ha p hpm
    simp only [decide_eq_true_eq]
    tauto
  have hle : ∀ j, (agreePair ids ps j : ℚ) / ((eitherPair ids ps j : ℚ) + 1 / 10 ^ 10) ≤ 1 := by
    intro j
    have hle : agreePair ids ps j ≤ eitherPair ids ps j := by
      unfold agreePair eitherPair
      apply List.countP_mono_left
      intro p _
      simp only [decide_eq_true_eq]
      tauto
    have hle' : (agreePair ids ps j : ℚ) ≤ eitherPair ids ps j := by exact_mod_cast hle
    rw [div_le_one (by positivity)]
    have : (0 : ℚ) < 1 / 10 ^ 10 := by positivity
    linarith
  have hsum : ∀ (l : List Nat) (g : Nat → ℚ), (∀ j, g j ≤ 1) → (l.map g).sum ≤ l.length := by
    intro l g hg
    induction l with
    | nil => simp
    | cons a l ih =>
      simp only [List.length_cons, Nat.cast_add, Nat.cast_one, List.map_cons, List.sum_cons]
      have := hg a
      linarith
  obtain ⟨a, b, e⟩ := List.append_of_mem hk
  rw [e, List.map_append, List.map_cons, List.sum_append, List.sum_cons, h0]
  have h1 := hsum a _ hle
  have h2 := hsum b _ hle
  simp only [List.length_append, List.length_cons, Nat.cast_add, Nat.cast_one, Nat.cast_zero, zero_div]
  linarith

/-- C107: no file raises ZeroDivisionError; different numbers of labels raise IndexError. -/
theorem C107_errors (ids : List Nat) : calcIou ids [] = .error .zeroDiv ∧
    ∀ (f : List Int × List Int) (fs : List (List Int × List Int)), f.1.length ≠ f.2.length → calcIou ids (f :: fs) = .error .index := by
  refine ⟨rfl, ?_⟩
  intro f fs h
  unfold calcIou
  simp only [List.foldlM_cons, iouFile, boolIndex, List.length_map, bind, Except.bind]
  rw [if_neg (Ne.symm h)]

/-- **C107 fails**: perfect predictions of two of twenty classes have an IoU below 1/8; a second file without a point of a class makes the accuracy not-a-number. -/
theorem C107_violated : (calcIou classIds20 [([1, 2, 5], [1, 2, 13])]).toOption.map (fun r => (r.1, decide (r.2 < 1 / 8))) = some (some 1, true) ∧
    (calcIou classIds20 [([1], [1]), ([1], [0])]).toOption.map (·.1) = some none := by decide +kernel

/-- The hypotheses of `C107_partial` hold for two files with all classes, with and without errors. -/
example : (∀ f ∈ [([1, 2, 1], [1, 2, 2]), ([2], [2])], ∃ p ∈ List.zip f.1 f.2, ValidPair [0, 1, 2] p) ∧
    (calcIou [0, 1, 2] [([1, 2, 1], [1, 2, 2]), ([2], [2])]).toOption.map (·.1) = some (some (5 / 6)) := by decide +kernel

end Ocnn
