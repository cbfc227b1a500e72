import Verif.Voting
import Verif.PropsScanTools
import Verif.PropsCloudFiles

/-! Theorems about the evaluation of ScanNet by voting: C149. -/

namespace Ocnn

namespace Spec
variable {V : Type}

/-- The votes that the evaluation gives to point `j` of the file `g`: the scores of all samples of this file in all epochs. -/
def votes [AddMonoid V] (softmax : V → V) (epochs : List (List (EvalBatch V))) (g : String) (j : Nat) : V :=
  (epochs.flatten.map fun b => ((List.range b.filename.length).map fun i =>
    if b.filename[i]? = some g then score softmax b i j else 0).sum).sum

/-- The votes for vertex `j` of the scene `s`: those of the file of the scene, or of the files of its chunks, where the vertex is known by its rank in the chunk. -/
def sceneVotes [AddMonoid V] (softmax : V → V) (epochs : List (List (EvalBatch V))) (sfx : String) (files : List PredFile) (mask : PredFile → List Bool)
    (s : String) (j : Nat) : V :=
  (files.map fun f => if f.scene = s then
    (match f.chunk with
      | some _ => if (mask f)[j]? = some true then votes softmax epochs (f.name ++ sfx) (((mask f).take j).count true) else 0
      | none => votes softmax epochs (f.name ++ sfx) j) else 0).sum

/-- A file list of a test set and an evaluation of it with at least one epoch: all batches are legal, all samples of a file have the number of points of the file,
each file is evaluated in the last epoch, chunks have numbers below 10 and masks on their scene. -/
structure LegalVote (mask0 : Int) (epochs : List (List (EvalBatch V))) (sfx : String) (files : List PredFile) (mask : PredFile → List Bool) (size : String → Nat) : Prop where
  batch : ∀ b ∈ epochs.flatten, LegalEval mask0 b
  suffix : sfx.toList.length = 4
  name : ∀ b ∈ epochs.flatten, ∀ g ∈ b.filename, ∃ f ∈ files, g = f.name ++ sfx
  points : ∀ b ∈ epochs.flatten, ∀ (i : Nat) (f : PredFile) (m : List Bool), f ∈ files → b.filename[i]? = some (f.name ++ sfx) → b.inbox[i]? = some m →
    m.length = match f.chunk with
      | some _ => (mask f).count true
      | none => size f.scene
  last : ∃ es ∈ epochs.getLast?, ∀ f ∈ files, ∃ b ∈ es, f.name ++ sfx ∈ b.filename
  chunk : ∀ f ∈ files, ∀ i, f.chunk = some i → i < 10 ∧ (mask f).length = size f.scene
  whole : ∀ f ∈ files, f.chunk = none → ¬ Mentions f.scene "chunk"

end Spec

open Spec
variable {V K : Type}

/-! ### The saved files -/

theorem accRows_set [Add V] (d : Dict (List V)) (k : String) (t : List V) (d' : Dict (List V)) (h : accRows d k t = .ok d') : ∃ v, d' = d.set k v := by
  unfold accRows at h
  split at h
  · exact ⟨t, (Except.ok.inj h).symm⟩
  · cases hs : addRows ‹List V› t with
    | error e => rw [hs] at h; exact absurd h (by simp [bind, Except.bind])
    | ok s => rw [hs] at h; exact ⟨s, (Except.ok.inj h).symm⟩

/-- One addition to the sums, with the file written or not. -/
def saveItem [Add V] (last : Bool) (st : EvalState V) (it : String × List V) : M (EvalState V) := do
  let rst ← accRows st.rst it.1 it.2
  if last = true then
    match rst.lookup it.1 with
    | some t => pure ⟨rst, st.files.set (dropLast it.1 4) t⟩
    | none => .error .key
  else pure ⟨rst, st.files⟩

theorem evalStepSave_items [AddMonoid V] (softmax : V → V) (mask e k : Int) (st : EvalState V) (b : EvalBatch V) (h : LegalEval mask b) :
    evalStepSave softmax mask e k st b = (evalItems softmax b).foldlM (saveItem (decide (e - 1 = k))) st := by
  have hall : (b.labels.map fun l => decide (l > mask)) = List.replicate b.logit.length true := by
    rw [← h.labels, List.eq_replicate_iff]
    refine ⟨by simp, ?_⟩
    intro x hx
    obtain ⟨l, hl, rfl⟩ := List.mem_map.mp hx
    simpa using h.kept l hl
  have hm : modelForward mask b = .ok b.logit := by
    unfold modelForward boolIndex
    rw [hall, if_pos (by simp), maskSel_replicate_true]
  unfold evalStepSave
  rw [hm]
  simp only [bind, Except.bind]
  unfold torchSplit
  rw [if_pos (by rw [List.length_map]; exact h.total)]
  simp only [torchSplit_go]
  unfold evalItems
  rw [foldlM_map']
  apply foldlM_congr_mem
  intro i hi d
  rw [List.mem_range] at hi
  have hi2 : i < b.npts.length := by rw [← h.masks]; exact hi
  have hi3 : i < b.filename.length := by rw [h.names]; exact hi2
  have hi4 : i < (splitBy b.npts (b.logit.map softmax)).length := by rw [splitBy_length]; exact hi2
  have e1 := List.getElem?_eq_getElem hi
  have e2 := List.getElem?_eq_getElem hi2
  have e3 := List.getElem?_eq_getElem hi3
  have e4 := List.getElem?_eq_getElem hi4
  have hc := h.counts i _ _ e1 e2
  have hr := splitBy_get_length _ _ (by rw [List.length_map, h.total]) i _ _ e2 e4
  unfold evalSampleSave saveItem evalSample
  rw [getIdx_nat _ _ _ e4, getIdx_nat _ _ _ e1, getIdx_nat _ _ _ e3]
  simp only [bind, Except.bind]
  rw [boolSet_fill _ _ (by rw [hr, hc])]
  simp only [List.getD_eq_getElem?_getD, e1, e3, e4, Option.getD_some, decide_eq_true_eq]
  rfl

theorem epochSave_items [AddMonoid V] (softmax : V → V) (mask e k : Int) (st : EvalState V) (bs : List (EvalBatch V)) (h : ∀ b ∈ bs, LegalEval mask b) :
    bs.foldlM (evalStepSave softmax mask e k) st = (bs.flatMap (evalItems softmax)).foldlM (saveItem (decide (e - 1 = k))) st := by
  induction bs generalizing st with
  | nil => rfl
  | cons b bs ih =>
    rw [List.foldlM_cons, List.flatMap_cons, List.foldlM_append, evalStepSave_items softmax mask e k st b (h b (by simp))]
    congr 1
    funext x
    exact ih x fun b hb => h b (by simp [hb])

theorem save_false [Add V] (items : List (String × List V)) (st : EvalState V) (d : Dict (List V))
    (h : items.foldlM (fun d (it : String × List V) => accRows d it.1 it.2) st.rst = .ok d) :
    items.foldlM (saveItem false) st = .ok ⟨d, st.files⟩ := by
  induction items generalizing st with
  | nil =>
    have : st.rst = d := Except.ok.inj h
    rw [← this]
    rfl
  | cons it items ih =>
    rw [List.foldlM_cons] at h ⊢
    cases hs : accRows st.rst it.1 it.2 with
    | error e => rw [hs] at h; exact absurd h (by simp [bind, Except.bind])
    | ok s =>
      rw [hs] at h
      have : saveItem false st it = .ok ⟨s, st.files⟩ := by
        unfold saveItem
        rw [hs]
        rfl
      rw [this]
      exact ih ⟨s, st.files⟩ h

theorem save_true [Add V] (items : List (String × List V)) (st : EvalState V) (d : Dict (List V))
    (h : items.foldlM (fun d (it : String × List V) => accRows d it.1 it.2) st.rst = .ok d)
    (hinj : ∀ a ∈ items, ∀ b ∈ items, dropLast a.1 4 = dropLast b.1 4 → a.1 = b.1) :
    ∃ fs, items.foldlM (saveItem true) st = .ok ⟨d, fs⟩ ∧ ∀ it ∈ items, fs.lookup (dropLast it.1 4) = d.lookup it.1 := by
  induction items using List.reverseRecOn generalizing d with
  | nil =>
    have : st.rst = d := Except.ok.inj h
    rw [← this]
    exact ⟨st.files, rfl, by simp⟩
  | append_singleton items it ih =>
    rw [List.foldlM_append] at h
    cases hs : items.foldlM (fun d (it : String × List V) => accRows d it.1 it.2) st.rst with
    | error e => rw [hs] at h; exact absurd h (by simp [bind, Except.bind])
    | ok s =>
      rw [hs] at h
      simp only [bind, Except.bind, List.foldlM_cons, List.foldlM_nil, pure, Except.pure] at h
      obtain ⟨fs, h1, h2⟩ := ih s hs (fun a ha b hb => hinj a (by simp [ha]) b (by simp [hb]))
      have ha : accRows s it.1 it.2 = .ok d := by
        cases hx : accRows s it.1 it.2 with
        | error e => rw [hx] at h; exact absurd h (by simp)
        | ok x => rw [hx] at h; exact h
      obtain ⟨v, rfl⟩ := accRows_set _ _ _ _ ha
      have hl : (s.set it.1 v).lookup it.1 = some v := by rw [Dict.lookup_set, if_pos rfl]
      refine ⟨fs.set (dropLast it.1 4) v, ?_, ?_⟩
      · rw [List.foldlM_append, h1]
        simp only [bind, Except.bind, List.foldlM_cons, List.foldlM_nil, saveItem, ha, hl, if_true, pure, Except.pure]
      · intro x hx
        rw [Dict.lookup_set, Dict.lookup_set]
        by_cases hn : x.1 = it.1
        · rw [if_pos (by rw [hn]), if_pos hn]
        · rw [if_neg (fun e => hn (hinj x hx it (by simp) e)), if_neg hn]
          rw [List.mem_append, List.mem_singleton] at hx
          rcases hx with hx | rfl
          · exact h2 x hx
          · exact absurd rfl hn

theorem evalAll_items [AddMonoid V] (softmax : V → V) (mask : Int) (init : List (List (EvalBatch V))) (last : List (EvalBatch V))
    (h : ∀ b ∈ (init ++ [last]).flatten, LegalEval mask b) :
    evalAll softmax mask (init ++ [last]) = (do
      let st ← (init.flatten.flatMap (evalItems softmax)).foldlM (saveItem false) ⟨[], []⟩
      (last.flatMap (evalItems softmax)).foldlM (saveItem true) st) := by
  unfold evalAll
  rw [List.zipIdx_append, List.foldlM_append]
  have hf : ∀ (st : EvalState V), (init.zipIdx).foldlM (fun st p => p.1.foldlM (evalStepSave softmax mask ((init ++ [last]).length : Nat) (p.2 : Nat)) st) st
      = (init.flatten.flatMap (evalItems softmax)).foldlM (saveItem false) st := by
    intro st
    have e : (init.zipIdx).foldlM (fun st p => p.1.foldlM (evalStepSave softmax mask ((init ++ [last]).length : Nat) (p.2 : Nat)) st) st
        = (init.zipIdx).foldlM (fun st p => (p.1.flatMap (evalItems softmax)).foldlM (saveItem false) st) st := by
      apply foldlM_congr_mem
      rintro ⟨bs, k⟩ hp st
      have hk := List.mem_zipIdx hp
      rw [epochSave_items]
      · congr 2
        rw [decide_eq_false_iff_not]
        simp only [List.length_append, List.length_cons, List.length_nil]
        omega
      · intro b hb
        apply h
        rw [List.flatten_append, List.mem_append]
        left
        have : bs ∈ init := by rw [hk.2.2]; exact List.getElem_mem _
        exact List.mem_flatten.mpr ⟨bs, this, hb⟩
    rw [e]
    have e2 := foldlM_map' (fun (st : EvalState V) (bs : List (EvalBatch V)) => (bs.flatMap (evalItems softmax)).foldlM (saveItem false) st) Prod.fst init.zipIdx st
    rw [← e2, List.zipIdx_map_fst]
    clear e e2 h
    induction init generalizing st with
    | nil => rfl
    | cons a l ih =>
      rw [List.foldlM_cons, List.flatten_cons, List.flatMap_append, List.foldlM_append]
      congr 1
      funext x
      exact ih x
  rw [hf]
  congr 1
  funext st
  simp only [List.zipIdx_cons, List.zipIdx_nil, List.foldlM_cons, List.foldlM_nil]
  rw [epochSave_items]
  · have : decide ((((init ++ [last]).length : Nat) : Int) - 1 = ((init.length + 0 : Nat) : Int)) = true := by
      rw [decide_eq_true_eq]
      simp
    simp only [Nat.zero_add, Nat.add_zero] at this ⊢
    rw [this]
    exact bind_pure _
  · intro b hb
    apply h
    rw [List.flatten_append, List.mem_append]
    right
    simpa using hb

/-- After an evaluation the file of each sample of the last epoch holds the sums over all epochs. -/
theorem evalAll_saved [AddMonoid V] (softmax : V → V) (mask : Int) (init : List (List (EvalBatch V))) (last : List (EvalBatch V))
    (h : ∀ b ∈ (init ++ [last]).flatten, LegalEval mask b) (size : String → Nat)
    (hsize : ∀ b ∈ (init ++ [last]).flatten, ∀ (i : Nat) (f : String) (m : List Bool), b.filename[i]? = some f → b.inbox[i]? = some m → m.length = size f)
    (hinj : ∀ b ∈ last, ∀ f ∈ b.filename, ∀ b' ∈ last, ∀ f' ∈ b'.filename, dropLast f 4 = dropLast f' 4 → f = f') :
    ∃ st, evalAll softmax mask (init ++ [last]) = .ok st ∧ ∀ b ∈ last, ∀ f ∈ b.filename, ∃ t, st.files.lookup (dropLast f 4) = some t ∧ t.length = size f ∧
      ∀ j < size f, t[j]? = some (votes softmax (init ++ [last]) f j) := by
  obtain ⟨rst, h1, h2⟩ := C80_aggregate softmax mask _ h size hsize
  rw [evalRun_items softmax mask _ h, List.flatten_append, List.flatMap_append, List.foldlM_append] at h1
  have el : [last].flatten = last := by simp
  rw [el] at h1
  cases hs : (init.flatten.flatMap (evalItems softmax)).foldlM (fun d (it : String × List V) => accRows d it.1 it.2) [] with
  | error e => rw [hs] at h1; exact absurd h1 (by simp [bind, Except.bind])
  | ok s =>
    rw [hs] at h1
    have h1' : (last.flatMap (evalItems softmax)).foldlM (fun d (it : String × List V) => accRows d it.1 it.2) s = .ok rst := h1
    have hmem : ∀ it ∈ last.flatMap (evalItems softmax), ∃ b ∈ last, it.1 ∈ b.filename := by
      intro it hit
      rw [List.mem_flatMap] at hit
      obtain ⟨b, hb, hit⟩ := hit
      unfold evalItems at hit
      obtain ⟨i, hi, rfl⟩ := List.mem_map.mp hit
      rw [List.mem_range] at hi
      have hb' := h b (by rw [List.flatten_append, List.mem_append, el]; exact Or.inr hb)
      have hi3 : i < b.filename.length := by rw [hb'.names, ← hb'.masks]; exact hi
      refine ⟨b, hb, ?_⟩
      simp only [List.getD_eq_getElem?_getD, List.getElem?_eq_getElem hi3, Option.getD_some]
      exact List.getElem_mem hi3
    obtain ⟨fs, h3, h4⟩ := save_true (last.flatMap (evalItems softmax)) ⟨s, []⟩ rst h1' (by
      intro a ha b hb e
      obtain ⟨x, hx, hxa⟩ := hmem a ha
      obtain ⟨y, hy, hyb⟩ := hmem b hb
      exact hinj x hx _ hxa y hy _ hyb e)
    refine ⟨⟨rst, fs⟩, ?_, ?_⟩
    · rw [evalAll_items softmax mask init last h, save_false _ ⟨[], []⟩ s hs]
      exact h3
    · intro b hb f hf
      have hb0 : b ∈ (init ++ [last]).flatten := by rw [List.flatten_append, List.mem_append, el]; exact Or.inr hb
      obtain ⟨t, t1, t2, t3⟩ := (h2 f).2 ⟨b, hb0, hf⟩
      refine ⟨t, ?_, t2, t3⟩
      have hb' := h b hb0
      obtain ⟨i, hi, rfl⟩ := List.getElem_of_mem hf
      have hi1 : i < b.inbox.length := by rw [hb'.masks, ← hb'.names]; exact hi
      have := h4 _ (List.mem_flatMap.mpr ⟨b, hb, List.mem_map.mpr ⟨i, List.mem_range.mpr hi1, rfl⟩⟩)
      simp only [List.getD_eq_getElem?_getD, List.getElem?_eq_getElem hi, Option.getD_some] at this
      rw [this, t1]

theorem dropLast_suffix (a sfx : String) (h : sfx.toList.length = 4) : dropLast (a ++ sfx) 4 = a := by
  unfold dropLast
  rw [String.toList_append, List.length_append, h, Nat.add_sub_cancel, List.take_left, String.ofList_toList]

theorem rank_lt (m : List Bool) (j : Nat) (h : m[j]? = some true) : (m.take j).count true < m.count true := by
  obtain ⟨hj, e⟩ := List.getElem?_eq_some_iff.mp h
  have : (m.take j ++ m.drop j).count true = m.count true := by rw [List.take_append_drop]
  rw [List.count_append, List.drop_eq_getElem_cons hj, e, List.count_cons_self] at this
  omega

/-! ### Labels -/

theorem lookup_mapM (f : String × V → M (String × K)) (hk : ∀ p q, f p = .ok q → q.1 = p.1) : ∀ (d : Dict V) (r : Dict K), d.mapM f = .ok r →
    r.map (·.1) = d.map (·.1) ∧ ∀ (s : String) (t : V), d.lookup s = some t → ∃ q, f (s, t) = .ok (s, q) ∧ r.lookup s = some q := by
  intro d
  induction d with
  | nil =>
    intro r h
    rw [List.mapM_nil] at h
    rw [← Except.ok.inj h]
    exact ⟨rfl, fun s t h => by simp at h⟩
  | cons p d ih =>
    intro r h
    rw [List.mapM_cons] at h
    cases hp : f p with
    | error e => rw [hp] at h; exact absurd h (by simp [bind, Except.bind])
    | ok q =>
      cases hd : d.mapM f with
      | error e => rw [hp, hd] at h; exact absurd h (by simp [bind, Except.bind])
      | ok r' =>
        rw [hp, hd] at h
        have hr : r = q :: r' := (Except.ok.inj h).symm
        obtain ⟨h1, h2⟩ := ih r' hd
        have hq := hk p q hp
        obtain ⟨p1, p2⟩ := p
        obtain ⟨q1, q2⟩ := q
        simp only at hq
        subst hq hr
        refine ⟨by simp [h1], ?_⟩
        intro s t hs
        rw [List.lookup_cons] at hs ⊢
        by_cases e : s = q1
        · subst e
          simp only [beq_self_eq_true] at hs ⊢
          obtain rfl := Option.some.inj hs
          exact ⟨q2, hp, rfl⟩
        · have : (s == q1) = false := by simpa using e
          rw [this] at hs ⊢
          exact h2 s t hs

theorem lookup_of_key (d : Dict V) (s : String) (h : s ∈ d.map (·.1)) : ∃ t, d.lookup s = some t := by
  induction d with
  | nil => simp at h
  | cons p d ih =>
    rw [List.lookup_cons]
    by_cases e : s = p.1
    · subst e
      exact ⟨p.2, by simp⟩
    · have : (s == p.1) = false := by simpa using e
      rw [this]
      exact ih (by simpa [e] using h)

theorem mem_of_lookup (d : Dict V) (s : String) (t : V) (h : d.lookup s = some t) : (s, t) ∈ d := by
  induction d with
  | nil => simp at h
  | cons p d ih =>
    rw [List.lookup_cons] at h
    by_cases e : s = p.1
    · subst e
      simp only [beq_self_eq_true] at h
      obtain rfl := Option.some.inj h
      simp
    · have : (s == p.1) = false := by simpa using e
      rw [this] at h
      exact List.mem_cons_of_mem _ (ih h)

/-- **C149.** For every legal evaluation by voting the tools write one file per scene with one label per vertex, the raw id of the first class with the most votes of the
vertex over all epochs and all chunks. -/
theorem C149_labels {n : Nat} (hn : 0 < n) [Field K] [LinearOrder K] (softmax : (Fin n → K) → Fin n → K) (mask0 : Int) (ids : List Nat) (hids : n ≤ ids.length)
    (epochs : List (List (EvalBatch (Fin n → K)))) (sfx : String) (files : List PredFile) (mask : PredFile → List Bool) (size : String → Nat)
    (h : LegalVote mask0 epochs sfx files mask size) (maskOf : String → M (List Bool)) (hm : ∀ f ∈ files, maskOf f.name = .ok (mask f)) :
    ∃ out, scanTest softmax mask0 ids maskOf (files.map fun f => f.name ++ sfx) epochs = .ok out ∧ ∀ s,
      ((∀ f ∈ files, f.scene ≠ s) → out.lookup s = none) ∧
      ((∃ f ∈ files, f.scene = s) → ∃ labels : List Nat, out.lookup s = some labels ∧ labels.length = size s ∧
        ∀ j < size s, ∃ c : Nat, IsArgmax (List.ofFn (sceneVotes softmax epochs sfx files mask s j)) c ∧ labels[j]? = ids[c]?) := by
  obtain ⟨last, hl1, hl2⟩ := h.last
  have hne : epochs ≠ [] := by rintro rfl; simp at hl1
  obtain ⟨init, last', rfl⟩ : ∃ init last', epochs = init ++ [last'] := ⟨epochs.dropLast, epochs.getLast hne, (List.dropLast_append_getLast hne).symm⟩
  have : last' = last := by simpa using hl1
  subst this
  let np : PredFile → Nat := fun f => match f.chunk with
      | some _ => (mask f).count true
      | none => size f.scene
  let fsize : String → Nat := fun g => (files.find? fun f => decide (f.name ++ sfx = g)).elim 0 np
  have hpts : ∀ b ∈ (init ++ [last']).flatten, ∀ (i : Nat) (f : PredFile) (m : List Bool), f ∈ files → b.filename[i]? = some (f.name ++ sfx) → b.inbox[i]? = some m →
      m.length = np f := h.points
  have hsize : ∀ b ∈ (init ++ [last']).flatten, ∀ (i : Nat) (g : String) (m : List Bool), b.filename[i]? = some g → b.inbox[i]? = some m → m.length = fsize g := by
    intro b hb i g m hg hm'
    obtain ⟨f, hf, rfl⟩ := h.name b hb g (List.mem_of_getElem? hg)
    have hex : ∃ f0, files.find? (fun f' => decide (f'.name ++ sfx = f.name ++ sfx)) = some f0 := by
      rw [← Option.isSome_iff_exists, List.find?_isSome]
      exact ⟨f, hf, by simp⟩
    obtain ⟨f0, hf0⟩ := hex
    have e0 := List.find?_some hf0
    simp only [decide_eq_true_eq] at e0
    rw [← e0] at hg
    have := hpts b hb i f0 m (List.mem_of_find?_eq_some hf0) hg hm'
    rw [this]
    simp only [fsize, hf0, Option.elim]
  have hbl : ∀ b ∈ last', b ∈ (init ++ [last']).flatten := by
    intro b hb
    rw [List.flatten_append, List.mem_append]
    right
    simpa using hb
  have hnp : ∀ f ∈ files, fsize (f.name ++ sfx) = np f := by
    intro f hf
    obtain ⟨b, hb, hg⟩ := hl2 f hf
    obtain ⟨i, hi, e⟩ := List.getElem_of_mem hg
    have hb' := h.batch b (hbl b hb)
    have hi1 : i < b.inbox.length := by rw [hb'.masks, ← hb'.names]; exact hi
    have e3 : b.filename[i]? = some (f.name ++ sfx) := by rw [List.getElem?_eq_getElem hi, e]
    have e1 := List.getElem?_eq_getElem hi1
    rw [← hsize b (hbl b hb) i _ _ e3 e1, hpts b (hbl b hb) i f _ hf e3 e1]
  obtain ⟨st, hst, hsaved⟩ := evalAll_saved softmax mask0 init last' h.batch fsize hsize (by
    intro b hb g hg b' hb' g' hg' e
    obtain ⟨f, hf, rfl⟩ := h.name b (hbl b hb) g hg
    obtain ⟨f', hf', rfl⟩ := h.name b' (hbl b' hb') g' hg'
    rw [dropLast_suffix _ _ h.suffix, dropLast_suffix _ _ h.suffix] at e
    rw [e])
  let rows : PredFile → List (Fin n → K) := fun f => (st.files.lookup f.name).getD []
  have hrows : ∀ f ∈ files, st.files.lookup f.name = some (rows f) ∧ (rows f).length = np f ∧ ∀ j < np f, (rows f)[j]? = some (votes softmax (init ++ [last']) (f.name ++ sfx) j) := by
    intro f hf
    obtain ⟨b, hb, hg⟩ := hl2 f hf
    obtain ⟨t, t1, t2, t3⟩ := hsaved b hb _ hg
    rw [dropLast_suffix _ _ h.suffix] at t1
    rw [hnp f hf] at t2 t3
    have : rows f = t := by simp only [rows, t1, Option.getD_some]
    rw [this]
    exact ⟨t1, t2, t3⟩
  obtain ⟨d, hd, hd2⟩ := C83_merge_partial files rows mask (loadNpz st.files) maskOf size
    (fun f hf => by unfold loadNpz; rw [(hrows f hf).1]) hm
    (fun f hf i hi => ⟨(h.chunk f hf i hi).1, (h.chunk f hf i hi).2, by rw [(hrows f hf).2.1]; simp only [np, hi]⟩)
    (fun f hf hc => ⟨h.whole f hf hc, by rw [(hrows f hf).2.1]; simp only [np, hc]⟩)
  have hwords : (files.map fun f => f.name ++ sfx).map (fun w => dropLast w 4) = files.map PredFile.name := by
    rw [List.map_map]
    exact List.map_congr_left fun f _ => dropLast_suffix _ _ h.suffix
  have hrowne : ∀ r : Fin n → K, List.ofFn r ≠ [] := by
    intro r e
    have := congrArg List.length e
    simp at this
    omega
  have hstep : ∀ p : String × List (Fin n → K), ∃ labels : List Nat, (do
      let label ← p.2.mapM fun r => argmax (List.ofFn r)
      let label ← unmapLabels ids (label.map fun c : Nat => (c : Int))
      pure (p.1, label) : M (String × List Nat)) = .ok (p.1, labels) ∧ labels.length = p.2.length ∧
      ∀ (j : Nat) (r : Fin n → K), p.2[j]? = some r → ∃ c : Nat, IsArgmax (List.ofFn r) c ∧ labels[j]? = ids[c]? := by
    intro p
    let cls : (Fin n → K) → Nat := fun r => (argmax (List.ofFn r)).toOption.getD 0
    have hcls : ∀ r, argmax (List.ofFn r) = .ok (cls r) ∧ IsArgmax (List.ofFn r) (cls r) := by
      intro r
      obtain ⟨i, h1, h2⟩ := argmax_spec (List.ofFn r) (hrowne r)
      have : cls r = i := by simp only [cls, h1]; rfl
      rw [this]
      exact ⟨h1, h2⟩
    have hlt : ∀ r, cls r < ids.length := by
      intro r
      obtain ⟨v, hv, _⟩ := (hcls r).2
      have := (List.getElem?_eq_some_iff.mp hv).1
      rw [List.length_ofFn] at this
      omega
    refine ⟨p.2.map fun r => ids.getD (cls r) 0, ?_, by simp, ?_⟩
    · rw [mapM_pure _ cls _ fun r _ => (hcls r).1]
      simp only [bind, Except.bind]
      unfold unmapLabels gatherIdx
      rw [mapM_pure _ (fun i : Int => ids.getD i.toNat 0) _ (by
        intro i hi
        obtain ⟨c, hc, rfl⟩ := List.mem_map.mp hi
        obtain ⟨r, _, rfl⟩ := List.mem_map.mp hc
        exact getIdx_nat _ _ _ (by simp [hlt r]))]
      simp only [List.map_map]
      rfl
    · intro j r hr
      refine ⟨cls r, (hcls r).2, ?_⟩
      rw [List.getElem?_map, hr]
      simp [hlt r]
  obtain ⟨out, hout⟩ : ∃ out, (d.mapM fun p => do
      let label ← p.2.mapM fun r => argmax (List.ofFn r)
      let label ← unmapLabels ids (label.map fun c : Nat => (c : Int))
      pure (p.1, label) : M (Dict (List Nat))) = .ok out := ⟨_, mapM_pure _ (fun p => (p.1, Classical.choose (hstep p))) _ fun p _ => (Classical.choose_spec (hstep p)).1⟩
  obtain ⟨hk, hlook⟩ := lookup_mapM _ (by
    intro p q hq
    obtain ⟨labels, e, _⟩ := hstep p
    rw [e] at hq
    rw [← Except.ok.inj hq]) d out hout
  refine ⟨out, ?_, ?_⟩
  · unfold scanTest
    rw [hst]
    simp only [bind, Except.bind]
    unfold outputSeg
    rw [hwords, hd]
    exact hout
  · intro s
    refine ⟨?_, ?_⟩
    · intro hs
      cases hx : out.lookup s with
      | none => rfl
      | some t =>
        exfalso
        have h1 : s ∈ out.map (·.1) := List.mem_map.mpr ⟨_, mem_of_lookup _ _ _ hx, rfl⟩
        rw [hk] at h1
        obtain ⟨t, ht⟩ := lookup_of_key _ _ h1
        rw [(hd2 s).1 hs] at ht
        simp at ht
    · intro hs
      obtain ⟨t, t1, t2, t3⟩ := (hd2 s).2 hs
      obtain ⟨q, q1, q2⟩ := hlook s t t1
      obtain ⟨labels, e, l1, l2⟩ := hstep (s, t)
      have : labels = q := by
        have := e.symm.trans q1
        exact (Prod.mk.inj (Except.ok.inj this)).2
      subst this
      refine ⟨labels, q2, by rw [l1]; exact t2, ?_⟩
      intro j hj
      obtain ⟨c, c1, c2⟩ := l2 j _ (t3 j hj)
      refine ⟨c, ?_, c2⟩
      have ev : sceneVotes softmax (init ++ [last']) sfx files mask s j = (files.map fun f => if f.scene = s then f.row (rows f) (mask f) j else 0).sum := by
        unfold sceneVotes
        congr 1
        refine List.map_congr_left fun f hf => ?_
        split
        · rename_i hsc
          unfold PredFile.row
          obtain ⟨r1, r2, r3⟩ := hrows f hf
          cases hch : f.chunk with
          | some i =>
            simp only
            split
            · rename_i hj1
              rw [r3 _ (by simp only [np, hch]; exact rank_lt _ _ hj1)]
              rfl
            · rfl
          | none =>
            simp only
            rw [r3 j (by simp only [np, hch]; rw [hsc]; exact hj)]
            rfl
        · rfl
      rw [ev]
      exact c1

/-- The first class is the first with the most votes if there are no votes. -/
theorem argmax_zero {n : Nat} (hn : 0 < n) [Field K] [LinearOrder K] (c : Nat) (v : Fin n → K) (hv : v = 0) (h : IsArgmax (List.ofFn v) c) : c = 0 := by
  subst hv
  obtain ⟨x, h1, _, h3⟩ := h
  by_contra hc
  have := h3 0 0 (by omega) (by simp [hn])
  rw [List.getElem?_ofFn] at h1
  split at h1
  · simp only [Pi.zero_apply, Option.some.injEq] at h1
    rw [← h1] at this
    exact lt_irrefl _ this
  · simp at h1

/-- A class with more votes than any other is the first with the most votes. -/
theorem argmax_unique {n : Nat} [LinearOrder K] (v : Fin n → K) (k : Fin n) (hk : ∀ i, i ≠ k → v i < v k) (c : Nat) (h : IsArgmax (List.ofFn v) c) : c = k := by
  obtain ⟨x, h1, h2, _⟩ := h
  rw [List.getElem?_ofFn] at h1
  split at h1
  · rename_i hc
    by_contra hne
    have e1 := hk ⟨c, hc⟩ (fun e => hne (by rw [← e]))
    have e2 := h2 k (v k) (by simp)
    rw [← Option.some.inj h1] at e2
    exact absurd e1 (not_lt.mpr e2)
  · simp at h1

/-- **C149.** A vertex of a scene that was clipped in all samples, of all epochs and chunks, gets the first raw id. -/
theorem C149_unseen {n : Nat} (hn : 0 < n) [Field K] [LinearOrder K] (softmax : (Fin n → K) → Fin n → K) (mask0 : Int) (ids : List Nat) (hids : n ≤ ids.length)
    (epochs : List (List (EvalBatch (Fin n → K)))) (sfx : String) (files : List PredFile) (mask : PredFile → List Bool) (size : String → Nat)
    (h : LegalVote mask0 epochs sfx files mask size) (maskOf : String → M (List Bool)) (hm : ∀ f ∈ files, maskOf f.name = .ok (mask f))
    (s : String) (hs : ∃ f ∈ files, f.scene = s) (j : Nat) (hj : j < size s)
    (hclip : ∀ b ∈ epochs.flatten, ∀ (i : Nat) (f : PredFile) (m : List Bool), f ∈ files → f.scene = s → b.filename[i]? = some (f.name ++ sfx) → b.inbox[i]? = some m →
      match f.chunk with
      | some _ => (mask f)[j]? = some true → m[((mask f).take j).count true]? = some false
      | none => m[j]? = some false) :
    ∃ out labels, scanTest softmax mask0 ids maskOf (files.map fun f => f.name ++ sfx) epochs = .ok out ∧ out.lookup s = some labels ∧ labels[j]? = ids[0]? := by
  obtain ⟨out, h1, h2⟩ := C149_labels hn softmax mask0 ids hids epochs sfx files mask size h maskOf hm
  obtain ⟨labels, l1, _, l3⟩ := (h2 s).2 hs
  obtain ⟨c, c1, c2⟩ := l3 j hj
  have hvotes : ∀ f ∈ files, ∀ r, (∀ b ∈ epochs.flatten, ∀ (i : Nat) (m : List Bool), b.filename[i]? = some (f.name ++ sfx) → b.inbox[i]? = some m → m[r]? = some false) →
      votes softmax epochs (f.name ++ sfx) r = 0 := by
    intro f hf r hr
    unfold votes
    apply List.sum_eq_zero
    intro v hv
    obtain ⟨b, hb, rfl⟩ := List.mem_map.mp hv
    apply List.sum_eq_zero
    intro v hv
    obtain ⟨i, hi, rfl⟩ := List.mem_map.mp hv
    rw [List.mem_range] at hi
    split
    · rename_i hname
      have hb' := h.batch b hb
      have hi1 : i < b.inbox.length := by rw [hb'.masks, ← hb'.names]; exact hi
      have := hr b hb i _ hname (List.getElem?_eq_getElem hi1)
      unfold score
      rw [List.getElem?_eq_getElem hi1]
      split
      · rename_i m rows em er
        obtain rfl := Option.some.inj em
        rw [this, if_neg (by simp)]
      · rfl
    · rfl
  have hz : sceneVotes softmax epochs sfx files mask s j = 0 := by
    unfold sceneVotes
    apply List.sum_eq_zero
    intro v hv
    obtain ⟨f, hf, rfl⟩ := List.mem_map.mp hv
    split
    · rename_i hsc
      cases hch : f.chunk with
      | some i =>
        simp only
        split
        · rename_i hmj
          apply hvotes f hf
          intro b hb i m e1 e2
          have := hclip b hb i f m hf hsc e1 e2
          rw [hch] at this
          exact this hmj
        · rfl
      | none =>
        apply hvotes f hf
        intro b hb i m e1 e2
        have := hclip b hb i f m hf hsc e1 e2
        rw [hch] at this
        exact this
    · rfl
  refine ⟨out, labels, h1, l1, ?_⟩
  rw [c2, argmax_zero hn c _ hz c1]

theorem set_keys (d : Dict V) (k : String) (v : V) : (d.set k v).map (·.1) = if k ∈ d.map (·.1) then d.map (·.1) else d.map (·.1) ++ [k] := by
  induction d with
  | nil => rfl
  | cons p d ih =>
    obtain ⟨a, w⟩ := p
    rw [Dict.set]
    by_cases e : a = k
    · rw [if_pos e]
      simp [e]
    · rw [if_neg e, List.map_cons, ih]
      have : ¬ k = a := fun h => e h.symm
      simp only [List.map_cons, List.mem_cons, this, false_or]
      split <;> rfl

theorem set_nodup (d : Dict V) (k : String) (v : V) (h : (d.map (·.1)).Nodup) : ((d.set k v).map (·.1)).Nodup := by
  rw [set_keys]
  split
  · exact h
  · rename_i hk
    rw [List.nodup_append]
    refine ⟨h, by simp, ?_⟩
    intro a ha b hb e
    rw [List.mem_singleton] at hb
    exact hk (by rw [← hb, ← e]; exact ha)

theorem generateOutput_nodup [Add V] [Zero V] (pred : String → M (List V)) (maskOf : String → M (List Bool)) (scans : List String) (d : Dict (List V))
    (h : generateOutput pred maskOf scans = .ok d) : (d.map (·.1)).Nodup := by
  unfold generateOutput at h
  have key : ∀ (scans : List String) (d0 d : Dict (List V)), (d0.map (·.1)).Nodup → scans.foldlM (mergePred pred maskOf) d0 = .ok d → (d.map (·.1)).Nodup := by
    intro scans
    induction scans with
    | nil =>
      intro d0 d h0 h
      rw [← Except.ok.inj h]
      exact h0
    | cons s scans ih =>
      intro d0 d h0 h
      rw [List.foldlM_cons] at h
      cases hx : mergePred pred maskOf d0 s with
      | error e => rw [hx] at h; exact absurd h (by simp [bind, Except.bind])
      | ok d1 =>
        rw [hx] at h
        refine ih d1 d ?_ h
        unfold mergePred at hx
        cases hp : pred s with
        | error e => rw [hp] at hx; exact absurd hx (by simp [bind, Except.bind])
        | ok p =>
          rw [hp] at hx
          simp only [bind, Except.bind] at hx
          split at hx
          · simp at hx
          · obtain ⟨v, rfl⟩ := accRows_set _ _ _ _ hx
            exact set_nodup _ _ _ h0
  exact key scans [] d (by simp) h

/-- The names of the folder that `generate_output_seg` writes are distinct. -/
theorem scanTest_nodup {n : Nat} [Field K] [LinearOrder K] (softmax : (Fin n → K) → Fin n → K) (mask0 : Int) (ids : List Nat) (maskOf : String → M (List Bool))
    (words : List String) (epochs : List (List (EvalBatch (Fin n → K)))) (out : Dict (List Nat)) (h : scanTest softmax mask0 ids maskOf words epochs = .ok out) :
    (out.map (·.1)).Nodup := by
  unfold scanTest at h
  cases hs : evalAll softmax mask0 epochs with
  | error e => rw [hs] at h; exact absurd h (by simp [bind, Except.bind])
  | ok st =>
    rw [hs] at h
    simp only [bind, Except.bind] at h
    unfold outputSeg at h
    cases hd : generateOutput (loadNpz st.files) maskOf (words.map fun w => dropLast w 4) with
    | error e => rw [hd] at h; exact absurd h (by simp [bind, Except.bind])
    | ok d =>
      rw [hd] at h
      obtain ⟨hk, _⟩ := lookup_mapM _ (by
        intro p q hq
        cases h1 : p.2.mapM fun r => argmax (List.ofFn r) with
        | error e => rw [h1] at hq; exact absurd hq (by simp [bind, Except.bind])
        | ok l =>
          rw [h1] at hq
          simp only [bind, Except.bind] at hq
          cases h2 : unmapLabels ids (l.map fun c : Nat => (c : Int)) with
          | error e => rw [h2] at hq; exact absurd hq (by simp)
          | ok l' =>
            rw [h2] at hq
            rw [← Except.ok.inj hq]) d out h
      rw [hk]
      exact generateOutput_nodup _ _ _ _ hd

/-- **C149.** `validate` prints the mean over the scenes of the share of right labels, and the mean over the classes of the ratio of intersection and union over the vertices of
all scenes, for the labels given by the votes; each scene of the file list counts once, however many chunks it has. -/
theorem C149_validate {n : Nat} (hn : 0 < n) [Field K] [LinearOrder K] (softmax : (Fin n → K) → Fin n → K) (mask0 : Int) (ids : List Nat) (hids : n ≤ ids.length)
    (epochs : List (List (EvalBatch (Fin n → K)))) (sfx : String) (files : List PredFile) (hf : files ≠ []) (mask : PredFile → List Bool) (size : String → Nat)
    (h : LegalVote mask0 epochs sfx files mask size) (maskOf : String → M (List Bool)) (hm : ∀ f ∈ files, maskOf f.name = .ok (mask f))
    (gt : String → M (List Int)) (gts : String → List Int) (hg : ∀ f ∈ files, gt f.scene = .ok (gts f.scene) ∧ (gts f.scene).length = size f.scene)
    (hv : ∀ f ∈ files, ∃ l ∈ gts f.scene, ∃ c ∈ ids.tail, l = (c : Int)) :
    ∃ (names : List String) (labels : String → List Int), names.Nodup ∧ (∀ s, s ∈ names ↔ ∃ f ∈ files, f.scene = s) ∧
      (∀ s ∈ names, (labels s).length = size s ∧ ∀ j < size s, ∃ (c i : Nat), IsArgmax (List.ofFn (sceneVotes softmax epochs sfx files mask s j)) c ∧ ids[c]? = some i ∧
        (labels s)[j]? = some (i : Int)) ∧
      scanValidate softmax mask0 ids maskOf (files.map fun f => f.name ++ sfx) gt epochs =
        .ok (some ((names.map fun s => shareRight ids ((labels s).zip (gts s))).sum / names.length), meanIou ids (names.flatMap fun s => (labels s).zip (gts s))) := by
  obtain ⟨out, ho, ho2⟩ := C149_labels hn softmax mask0 ids hids epochs sfx files mask size h maskOf hm
  have hnd := scanTest_nodup _ _ _ _ _ _ _ ho
  let names := (out.map (·.1)).mergeSort fun a b => decide (a ≤ b)
  let labels : String → List Int := fun s => ((out.lookup s).getD []).map fun c : Nat => (c : Int)
  have hperm : names.Perm (out.map (·.1)) := List.mergeSort_perm _ _
  have hmem : ∀ s, s ∈ names ↔ ∃ f ∈ files, f.scene = s := by
    intro s
    rw [hperm.mem_iff]
    constructor
    · intro hs
      by_contra hc
      push Not at hc
      obtain ⟨t, ht⟩ := lookup_of_key _ _ hs
      rw [(ho2 s).1 hc] at ht
      simp at ht
    · intro hs
      obtain ⟨l, h1, _⟩ := (ho2 s).2 hs
      exact List.mem_map.mpr ⟨_, mem_of_lookup _ _ _ h1, rfl⟩
  have hlab : ∀ s ∈ names, (labels s).length = size s ∧ ∀ j < size s, ∃ (c i : Nat), IsArgmax (List.ofFn (sceneVotes softmax epochs sfx files mask s j)) c ∧ ids[c]? = some i ∧
      (labels s)[j]? = some (i : Int) := by
    intro s hs
    obtain ⟨l, h1, h2, h3⟩ := (ho2 s).2 ((hmem s).mp hs)
    have e : labels s = l.map fun c : Nat => (c : Int) := by simp only [labels, h1, Option.getD_some]
    rw [e]
    refine ⟨by simpa using h2, ?_⟩
    intro j hj
    obtain ⟨c, c1, c2⟩ := h3 j hj
    have hjl : j < l.length := by omega
    refine ⟨c, l[j], c1, ?_, ?_⟩
    · rw [← c2, List.getElem?_eq_getElem hjl]
    · rw [List.getElem?_map, List.getElem?_eq_getElem hjl]
      rfl
  have hgs : ∀ s ∈ names, gt s = .ok (gts s) ∧ (gts s).length = size s := by
    intro s hs
    obtain ⟨f, hf, rfl⟩ := (hmem s).mp hs
    exact hg f hf
  refine ⟨names, labels, hperm.nodup_iff.mpr hnd, hmem, hlab, ?_⟩
  unfold scanValidate
  rw [ho]
  simp only [bind, Except.bind]
  unfold calcIouFolder
  rw [mapM_pure _ (fun s => (labels s, gts s)) _ (by
    intro s hs
    obtain ⟨l, h1, _⟩ := (ho2 s).2 ((hmem s).mp hs)
    unfold loadNpz
    rw [h1, (hgs s hs).1]
    simp only [bind, Except.bind, pure, Except.pure, labels, h1, Option.getD_some])]
  simp only [bind, Except.bind]
  have := (C107_partial ids (names.map fun s => (labels s, gts s)) (by
    obtain ⟨f, hf⟩ := List.exists_mem_of_ne_nil _ hf
    intro e
    have := (hmem f.scene).mpr ⟨f, hf, rfl⟩
    rw [List.map_eq_nil_iff.mp e] at this
    simp at this) (by
    intro f hf
    obtain ⟨s, hs, rfl⟩ := List.mem_map.mp hf
    rw [(hlab s hs).1, (hgs s hs).2]) (by
    intro f hf
    obtain ⟨s, hs, rfl⟩ := List.mem_map.mp hf
    obtain ⟨f', hf', rfl⟩ := (hmem s).mp hs
    obtain ⟨l, hl, c, hc, rfl⟩ := hv f' hf'
    obtain ⟨j, hj, e⟩ := List.getElem_of_mem hl
    have hj' : j < (labels f'.scene).length := by rw [(hlab _ hs).1, ← (hgs _ hs).2]; exact hj
    refine ⟨((labels f'.scene)[j], (gts f'.scene)[j]), ?_, c, hc, e⟩
    rw [← List.getElem_zip (h := by simp [hj, hj'])]
    exact List.getElem_mem _)).1
  rw [this]
  simp only [List.map_map, List.length_map, allPairs, List.flatMap_map]
  rfl

theorem zip_of_filter (ps : List (Int × Int)) : (ps.map Prod.fst).zip (ps.map Prod.snd) = ps := by
  induction ps with
  | nil => rfl
  | cons p ps ih => simp [ih]

/-- **C149.** If at each labelled vertex the true class gets more votes than any other class, and each class occurs, then the printed accuracy is 1 and the printed IoU is 1 up to
the regularisation. -/
theorem C149_right {n : Nat} [Field K] [LinearOrder K] (softmax : (Fin n → K) → Fin n → K) (mask0 : Int) (ids : List Nat) (hids : n = ids.length) (hids2 : 2 ≤ n)
    (epochs : List (List (EvalBatch (Fin n → K)))) (sfx : String) (files : List PredFile) (hf : files ≠ []) (mask : PredFile → List Bool) (size : String → Nat)
    (h : LegalVote mask0 epochs sfx files mask size) (maskOf : String → M (List Bool)) (hm : ∀ f ∈ files, maskOf f.name = .ok (mask f))
    (gt : String → M (List Int)) (gts : String → List Int) (hg : ∀ f ∈ files, gt f.scene = .ok (gts f.scene) ∧ (gts f.scene).length = size f.scene)
    (hv : ∀ f ∈ files, ∃ l ∈ gts f.scene, ∃ c ∈ ids.tail, l = (c : Int))
    (hall : ∀ k ∈ ids.tail, ∃ f ∈ files, (k : Int) ∈ gts f.scene)
    (hr : ∀ f ∈ files, ∀ (j : Nat) (k : Fin n), 0 < k.val → (gts f.scene)[j]? = some ((ids[k.val]'(by rw [← hids]; exact k.isLt) : Nat) : Int) → ∀ i, i ≠ k →
      sceneVotes softmax epochs sfx files mask f.scene j i < sceneVotes softmax epochs sfx files mask f.scene j k) :
    ∃ iou, scanValidate softmax mask0 ids maskOf (files.map fun f => f.name ++ sfx) gt epochs = .ok (some 1, iou) ∧ 1 - 1 / 10 ^ 10 ≤ iou := by
  obtain ⟨names, labels, h1, h2, h3, h4⟩ := C149_validate (by omega) softmax mask0 ids (le_of_eq hids) epochs sfx files hf mask size h maskOf hm gt gts hg hv
  have hgs : ∀ s ∈ names, (gts s).length = size s := by
    intro s hs
    obtain ⟨f, hf, rfl⟩ := (h2 s).mp hs
    exact (hg f hf).2
  have htail : ids.tail ≠ [] := by
    intro e
    have := congrArg List.length e
    simp at this
    omega
  -- valid pairs agree
  have hagree : ∀ s ∈ names, ∀ p ∈ (labels s).zip (gts s), ValidPair ids p → p.1 = p.2 := by
    intro s hs p hp hvp
    obtain ⟨j, hj, rfl⟩ := List.getElem_of_mem hp
    rw [List.length_zip] at hj
    rw [List.getElem_zip] at hvp ⊢
    simp only at hvp ⊢
    have hjs : j < size s := by rw [← hgs s hs]; omega
    obtain ⟨c, i, c1, c2, c3⟩ := (h3 s hs).2 j hjs
    obtain ⟨k, hk, e⟩ := hvp
    simp only at e
    obtain ⟨m, hm', em⟩ := List.getElem_of_mem hk
    rw [List.length_tail] at hm'
    rw [List.getElem_tail] at em
    obtain ⟨f, hf', rfl⟩ := (h2 s).mp hs
    have hc := argmax_unique _ (⟨m + 1, by omega⟩ : Fin n) (fun i hi => hr f hf' j ⟨m + 1, by omega⟩ (by simp) (by
      rw [List.getElem?_eq_getElem (by omega), e, em]) i hi) c c1
    simp only at hc
    subst hc
    rw [List.getElem?_eq_getElem (by omega), em] at c2
    obtain rfl := Option.some.inj c2
    rw [List.getElem?_eq_getElem (by omega)] at c3
    rw [Option.some.inj c3, e]
  have hpair : ∀ s ∈ names, ∀ l ∈ gts s, ∃ p ∈ (labels s).zip (gts s), p.2 = l := by
    intro s hs l hl
    obtain ⟨j, hj, e⟩ := List.getElem_of_mem hl
    have hj' : j < (labels s).length := by rw [(h3 _ hs).1, ← hgs _ hs]; exact hj
    refine ⟨((labels s)[j], (gts s)[j]), ?_, e⟩
    rw [← List.getElem_zip (h := by simp [hj, hj'])]
    exact List.getElem_mem _
  have hne : names ≠ [] := by
    obtain ⟨f, hf⟩ := List.exists_mem_of_ne_nil _ hf
    exact List.ne_nil_of_mem ((h2 f.scene).mpr ⟨f, hf, rfl⟩)
  have hacc : (names.map fun s => shareRight ids ((labels s).zip (gts s))).sum / (names.length : ℚ) = 1 := by
    have : (names.map fun s => shareRight ids ((labels s).zip (gts s))) = names.map fun _ => (1 : ℚ) := by
      refine List.map_congr_left fun s hs => ?_
      unfold shareRight
      have e : ((labels s).zip (gts s)).countP (fun p => ValidPair ids p ∧ p.2 = p.1) = ((labels s).zip (gts s)).countP (fun p => ValidPair ids p) := by
        apply List.countP_congr
        intro p hp
        simp only [decide_eq_true_eq, and_iff_left_iff_imp]
        exact fun hvp => (hagree s hs p hp hvp).symm
      rw [e]
      apply div_self
      obtain ⟨f, hf', rfl⟩ := (h2 s).mp hs
      obtain ⟨l, hl, c, hc, rfl⟩ := hv f hf'
      obtain ⟨p, hp, e2⟩ := hpair _ hs _ hl
      have : 0 < ((labels f.scene).zip (gts f.scene)).countP (fun p => ValidPair ids p) := by
        rw [List.countP_pos_iff]
        exact ⟨p, hp, by rw [decide_eq_true_eq]; exact ⟨c, hc, e2⟩⟩
      exact_mod_cast this.ne'
    rw [this]
    have hl : (names.length : ℚ) ≠ 0 := by
      have := List.length_pos_of_ne_nil hne
      exact_mod_cast this.ne'
    simp [hl]
  refine ⟨_, by rw [h4, hacc], ?_⟩
  rw [← meanIou_valid]
  set ps := (names.flatMap fun s => (labels s).zip (gts s)).filter fun p => ValidPair ids p with hps
  have hk : ∀ k ∈ ids.tail, ∃ p ∈ ps, p.2 = (k : Int) := by
    intro k hk
    obtain ⟨f, hf', hl⟩ := hall k hk
    have hs := (h2 f.scene).mpr ⟨f, hf', rfl⟩
    obtain ⟨p, hp, e⟩ := hpair _ hs _ hl
    refine ⟨p, ?_, e⟩
    rw [hps, List.mem_filter, List.mem_flatMap]
    exact ⟨⟨_, hs, hp⟩, by rw [decide_eq_true_eq]; exact ⟨k, hk, e⟩⟩
  have hmem : ∀ p ∈ ps, ValidPair ids p ∧ p.1 = p.2 := by
    intro p hp
    rw [hps, List.mem_filter, List.mem_flatMap, decide_eq_true_eq] at hp
    obtain ⟨⟨s, hs, hp⟩, hvp⟩ := hp
    exact ⟨hvp, hagree s hs p hp hvp⟩
  have hall' : allPairs [(ps.map Prod.fst, ps.map Prod.snd)] = ps := by
    simp only [allPairs, List.flatMap_cons, List.flatMap_nil, List.append_nil]
    exact zip_of_filter ps
  obtain ⟨k, hkt⟩ := List.exists_mem_of_ne_nil _ htail
  obtain ⟨p, hp, _⟩ := hk k hkt
  have := (C107_partial ids [(ps.map Prod.fst, ps.map Prod.snd)] (by simp) (by simp) (by
    intro f hf
    rw [List.mem_singleton] at hf
    subst hf
    refine ⟨p, ?_, (hmem p hp).1⟩
    simp only
    rw [zip_of_filter]
    exact hp)).2
  rw [hall'] at this
  exact (this (fun p hp => (hmem p hp).2) hk htail).1

/-- Two epochs of one whole scene and two chunks of another one. -/
def voteExample : List (List (EvalBatch (Fin 3 → ℚ))) :=
  let row (a b c : ℚ) : Fin 3 → ℚ := fun i => if i = 0 then a else if i = 1 then b else c
  [[⟨[row 0 1 0, row 0 0 1, row 0 1 0], [0, 0, 0], [2, 1], [[true, true], [true, false]], ["a.ply", "b.chunk_0.ply"]⟩, ⟨[row 0 1 0], [0], [1], [[true]], ["b.chunk_1.ply"]⟩],
   [⟨[row 0 0 2, row 0 0 3, row 0 0 3], [0, 0, 0], [1, 2], [[true], [true, true]], ["b.chunk_1.ply", "a.ply"]⟩, ⟨[row 0 1 0], [0], [1], [[true, false]], ["b.chunk_0.ply"]⟩]]

/-- The masks of the chunks of the example. -/
def voteMask : PredFile → List Bool
  | ⟨"b", some 0⟩ => [true, false, true, false]
  | ⟨"b", some 1⟩ => [false, true, false, false]
  | _ => []

/-- The files of the example. -/
def voteFiles : List PredFile := [⟨"a", none⟩, ⟨"b", some 0⟩, ⟨"b", some 1⟩]

/-- The labels of the example: the last two vertices of the second scene got no vote. -/
example : (scanTest id (-1) [0, 4, 7] (fun s => .ok (if s = "b.chunk_0" then [true, false, true, false] else [false, true, false, false]))
    (voteFiles.map fun f => f.name ++ ".ply") voteExample).toOption = some [("a", [7, 7]), ("b", [4, 7, 0, 0])] := by decide +kernel

/-- The example is legal. -/
example : LegalVote (-1) voteExample ".ply" voteFiles voteMask (fun s => if s = "a" then 2 else 4) where
  batch := by
    intro b hb
    simp only [voteExample, List.flatten_cons, List.flatten_nil, List.append_nil, List.cons_append, List.nil_append, List.mem_cons, List.not_mem_nil, or_false] at hb
    rcases hb with rfl | rfl | rfl | rfl <;>
    exact ⟨rfl, by decide, rfl, rfl, rfl, by
      intro i m n h1 h2
      match i with
      | 0 => simp at h1 h2; subst h1 h2; rfl
      | 1 => simp at h1 h2; try (subst h1 h2; rfl)
      | (k + 2) => simp at h1⟩
  suffix := by decide
  name := by decide +kernel
  points := by
    intro b hb i f m hf h1 h2
    simp only [voteExample, List.flatten_cons, List.flatten_nil, List.append_nil, List.cons_append, List.nil_append, List.mem_cons, List.not_mem_nil, or_false] at hb
    simp only [voteFiles, List.mem_cons, List.not_mem_nil, or_false] at hf
    rcases hb with rfl | rfl | rfl | rfl <;> rcases hf with rfl | rfl | rfl <;>
    (match i with
      | 0 => revert h1; simp only [List.getElem?_cons_zero, Option.some.injEq] at h2; subst h2; decide +kernel
      | 1 => revert h1; simp at h2; try (subst h2; decide +kernel)
      | (k + 2) => simp at h2)
  last := ⟨_, rfl, by decide +kernel⟩
  chunk := by
    intro f hf i hi
    simp only [voteFiles, List.mem_cons, List.not_mem_nil, or_false] at hf
    rcases hf with rfl | rfl | rfl
    · simp at hi
    · simp only [Option.some.injEq] at hi
      subst hi
      exact ⟨by decide, by decide +kernel⟩
    · simp only [Option.some.injEq] at hi
      subst hi
      exact ⟨by decide, by decide +kernel⟩
  whole := by
    intro f hf hc
    simp only [voteFiles, List.mem_cons, List.not_mem_nil, or_false] at hf
    rcases hf with rfl | rfl | rfl
    · rw [← hasSub_iff]; decide +kernel
    · simp at hc
    · simp at hc

end Ocnn
