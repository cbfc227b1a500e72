import Verif.ScanScripts
import Verif.PropsDataset
import Verif.RunningStatsLemmas

/-! C168: the commands of the documented ScanNet workflow find their files. -/

namespace Ocnn
open Script

namespace Spec

/-- The entries of a list name scenes of `scenes`: lines `<scene>.ply ...`. -/
def Names (scenes : List String) (lines : List String) : Prop := ∀ l ∈ lines, ∃ s ∈ scenes, firstWord l = s ++ ".ply"

/-- The downloaded archive has the four lists, which name scenes of the data set. -/
structure Archive (zip : Disk) (train test : List String) : Prop where
  trainList : ∃ l, ("scannetv2_train.txt", l) ∈ zip ∧ Names train l
  valList : ∃ l, ("scannetv2_val.txt", l) ∈ zip ∧ Names train l
  trainValList : ∃ l, ("scannetv2_train_val.txt", l) ∈ zip ∧ Names train l
  testList : ∃ l, ("scannetv2_test.txt", l) ∈ zip ∧ Names test l

/-- The disk has the files that `process_scannet` writes to the folder `root`. -/
def Prepared (fs : Disk) (root : String) (zip : Disk) (train test : List String) : Prop :=
  ∀ e ∈ processScannet root zip train test, fs.lookup e.1 = some e.2

end Spec
open Spec

namespace Script

/-- No file of `fs` is lost, and the data are unchanged: commands write below `logs`. -/
structure Grows (fs fs' : Disk) : Prop where
  some : ∀ p, (fs.lookup p).isSome → (fs'.lookup p).isSome
  data : ∀ p : String, p.toList.head? = Option.some 'd' → fs'.lookup p = fs.lookup p

theorem Grows.refl (fs : Disk) : Grows fs fs := ⟨fun _ h => h, fun _ _ => rfl⟩

theorem Grows.trans {a b c : Disk} (h : Grows a b) (h' : Grows b c) : Grows a c := ⟨fun p hp => h'.some p (h.some p hp), fun p hp => (h'.data p hp).trans (h.data p hp)⟩

theorem Grows.set (fs : Disk) {k : String} (hk : k.toList.head? = Option.some 'l') (v : List String) : Grows fs (fs.set k v) := by
  refine ⟨fun p hp => ?_, fun p hp => ?_⟩
  · rw [Dict.lookup_set]
    split
    · rfl
    · exact hp
  · rw [Dict.lookup_set, if_neg]
    rintro rfl
    rw [hk] at hp
    cases hp

theorem Grows.foldl {α : Type} (L : List α) (f : α → String) (hf : ∀ a ∈ L, (f a).toList.head? = Option.some 'l') (fs : Disk) :
    Grows fs (L.foldl (fun fs a => fs.set (f a) []) fs) ∧ ∀ a ∈ L, ((L.foldl (fun fs a => fs.set (f a) []) fs).lookup (f a)).isSome := by
  induction L generalizing fs with
  | nil => exact ⟨Grows.refl fs, fun a ha => absurd ha (List.not_mem_nil)⟩
  | cons a L ih =>
    obtain ⟨h1, h2⟩ := ih (fun b hb => hf b (List.mem_cons_of_mem _ hb)) (fs.set (f a) [])
    refine ⟨(Grows.set fs (hf a List.mem_cons_self) []).trans h1, fun b hb => ?_⟩
    rcases List.mem_cons.1 hb with rfl | hb
    · refine h1.some _ ?_
      rw [Dict.lookup_set, if_pos rfl]
      rfl
    · exact h2 b hb

theorem head_osJoin {a b : String} {c : Char} (h : a.toList.head? = Option.some c) : (osJoin a b).toList.head? = Option.some c := by
  unfold osJoin
  split <;> simp [String.toList_append, List.head?_append, h]

theorem open_ok {fs : Disk} {p : String} (h : (fs.lookup p).isSome) : ∃ l, openFile fs p = .ok l := by
  unfold openFile
  cases hl : fs.lookup p with
  | none => rw [hl] at h; cases h
  | some l => exact ⟨l, rfl⟩

theorem mapM_open {α β : Type} (L : List α) (f : α → M β) (h : ∀ a ∈ L, ∃ l, f a = .ok l) : ∃ r, L.mapM f = .ok r := by
  induction L with
  | nil => exact ⟨[], rfl⟩
  | cons a L ih =>
    obtain ⟨l, hl⟩ := h a List.mem_cons_self
    obtain ⟨r, hr⟩ := ih fun b hb => h b (List.mem_cons_of_mem _ hb)
    exact ⟨l :: r, by rw [List.mapM_cons, hl, hr]; rfl⟩

theorem drop_ply (s : String) : dropLast (s ++ ".ply") 4 = s := by
  unfold dropLast
  have : (s ++ ".ply").toList = s.toList ++ ['.', 'p', 'l', 'y'] := by rw [String.toList_append]; rfl
  rw [this]
  simp

/-- A folder of the processed data. -/
structure Folder (fs : Disk) (list location : String) (scenes : List String) : Prop where
  list : ∃ l, fs.lookup list = some l ∧ Names scenes l
  ply : ∀ s ∈ scenes, (fs.lookup (osJoin location (s ++ ".ply"))).isSome

theorem Folder.grows {fs fs' : Disk} {list location : String} {scenes : List String} (h : Folder fs list location scenes) (g : Grows fs fs')
    (hl : list.toList.head? = Option.some 'd') : Folder fs' list location scenes := by
  obtain ⟨⟨l, h1, h2⟩, h3⟩ := h
  exact ⟨⟨l, by rw [g.data _ hl, h1], h2⟩, fun s hs => g.some _ (h3 s hs)⟩

theorem readData_ok {fs : Disk} {c : Dict String} {flag list location : String} {scenes : List String} (h : Folder fs list location scenes)
    (h1 : c.get ("DATA." ++ flag ++ ".location") = .ok location) (h2 : c.get ("DATA." ++ flag ++ ".filelist") = .ok list) :
    ∃ l, fs.lookup list = some l ∧ Names scenes l ∧ readData fs c flag = .ok (l.map firstWord) := by
  obtain ⟨⟨l, h3, h4⟩, h5⟩ := h
  refine ⟨l, h3, h4, ?_⟩
  unfold readData
  simp only [h1, h2, bind, Except.bind, openFile, h3]
  obtain ⟨r, hr⟩ := mapM_open (l.map firstWord) (fun n => openFile fs (osJoin location n)) fun n hn => by
    obtain ⟨x, hx, rfl⟩ := List.mem_map.1 hn
    obtain ⟨s, hs, e⟩ := h4 x hx
    rw [e]
    exact open_ok (h5 s hs)
  unfold openFile at hr
  rw [hr]
  rfl

theorem get_of {c : Dict String} {k v : String} (h : c.lookup k = some v) : c.get k = .ok v := by
  unfold Dict.get
  rw [h]

theorem seg_train {config c : Dict String} {opts : List String} {fs : Disk} {logdir al l1 d1 l2 d2 : String} {scenes : List String}
    (hc : mergeOpts config opts = .ok c) (hr : c.get "SOLVER.run" = .ok "train") (hl : c.get "SOLVER.logdir" = .ok logdir) (ha : c.get "SOLVER.alias" = .ok al)
    (h1 : c.get "DATA.train.location" = .ok d1) (h2 : c.get "DATA.train.filelist" = .ok l1) (h3 : c.get "DATA.test.location" = .ok d2)
    (h4 : c.get "DATA.test.filelist" = .ok l2) (f1 : Folder fs l1 d1 scenes) (f2 : Folder fs l2 d2 scenes) :
    segmentationPy config opts fs = .ok (fs.set (osJoin (logdir ++ "_" ++ al) "checkpoints/00600.model.pth") []) := by
  obtain ⟨a, -, -, ra⟩ := readData_ok (flag := "train") f1 h1 h2
  obtain ⟨b, -, -, rb⟩ := readData_ok (flag := "test") f2 h3 h4
  unfold segmentationPy logFolder
  simp only [hc, hr, hl, ha, bind, Except.bind, pure, Except.pure, if_true, ra, rb]

theorem seg_eval {config c : Dict String} {opts : List String} {fs : Disk} {logdir al ck l2 d2 : String} {scenes : List String}
    (hc : mergeOpts config opts = .ok c) (hr : c.get "SOLVER.run" = .ok "evaluate") (hl : c.get "SOLVER.logdir" = .ok logdir) (ha : c.get "SOLVER.alias" = .ok al)
    (hk : c.get "SOLVER.ckpt" = .ok ck) (h3 : c.get "DATA.test.location" = .ok d2) (h4 : c.get "DATA.test.filelist" = .ok l2)
    (f2 : Folder fs l2 d2 scenes) (hck : (fs.lookup ck).isSome) (hlog : logdir.toList.head? = Option.some 'l') :
    ∃ l fs', fs.lookup l2 = some l ∧ Names scenes l ∧ segmentationPy config opts fs = .ok fs' ∧ Grows fs fs' ∧
      ∀ x ∈ l, (fs'.lookup (osJoin (logdir ++ "_" ++ al) (dropLast (firstWord x) 4 ++ ".eval.npz"))).isSome := by
  obtain ⟨b, hb, hn, rb⟩ := readData_ok (flag := "test") f2 h3 h4
  obtain ⟨k, hk'⟩ := open_ok hck
  have hlog' : (logdir ++ "_" ++ al).toList.head? = Option.some 'l' := by simp [String.toList_append, List.head?_append, hlog]
  obtain ⟨g1, g2⟩ := Grows.foldl (b.map firstWord) (fun n => osJoin (logdir ++ "_" ++ al) (dropLast n 4 ++ ".eval.npz")) (fun _ _ => head_osJoin hlog') fs
  refine ⟨b, _, hb, hn, ?_, g1, fun x hx => g2 _ (List.mem_map_of_mem hx)⟩
  unfold segmentationPy logFolder
  simp only [hc, hr, hl, ha, hk, hk', bind, Except.bind, pure, Except.pure, rb]
  rfl

theorem output_ok {fs : Disk} {pred out list : String} {scenes l : List String} (hl : fs.lookup list = some l) (hn : Names scenes l)
    (hp : ∀ x ∈ l, (fs.lookup (osJoin pred (dropLast (firstWord x) 4 ++ ".eval.npz"))).isSome) (ho : out.toList.head? = Option.some 'l') :
    ∃ fs', outputSegPy pred out list fs = .ok fs' ∧ Grows fs fs' ∧ ∀ x ∈ l, (fs'.lookup (osJoin out (dropLast (firstWord x) 4 ++ ".txt"))).isSome := by
  obtain ⟨g1, g2⟩ := Grows.foldl (l.map fun x => dropLast (firstWord x) 4) (fun s => osJoin out (s ++ ".txt")) (fun _ _ => head_osJoin ho) fs
  obtain ⟨r, hr⟩ := mapM_open (l.map fun x => dropLast (firstWord x) 4) (fun s => openFile fs (osJoin pred (s ++ ".eval.npz"))) fun n hn => by
    obtain ⟨x, hx, rfl⟩ := List.mem_map.1 hn
    exact open_ok (hp x hx)
  refine ⟨_, ?_, g1, fun x hx => g2 _ (List.mem_map_of_mem hx)⟩
  unfold outputSegPy
  rw [show openFile fs list = .ok l by unfold openFile; rw [hl]]
  simp only [bind, Except.bind, hr]
  rfl

theorem iou_ok {fs : Disk} {inp pred : String} {names : List String} (h1 : ∀ s ∈ names, (fs.lookup (osJoin pred (s ++ ".txt"))).isSome)
    (h2 : ∀ s ∈ names, (fs.lookup (osJoin inp (s ++ ".txt"))).isSome) : calcIouPy inp pred names fs = .ok () := by
  obtain ⟨r, hr⟩ := mapM_open names (fun s => do
    let _ ← openFile fs (osJoin pred (s ++ ".txt"))
    openFile fs (osJoin inp (s ++ ".txt"))) fun s hs => by
      obtain ⟨a, ha⟩ := open_ok (h1 s hs)
      obtain ⟨b, hb⟩ := open_ok (h2 s hs)
      exact ⟨b, by rw [ha]; exact hb⟩
  unfold calcIouPy
  rw [hr]
  rfl

theorem ckpt_path {al : String} (h : '/' ∉ al.toList) :
    osJoin ("logs/scannet/D10_2cm" ++ "_" ++ al) "checkpoints/00600.model.pth" = ckptOf al none := by
  unfold osJoin ckptOf
  rw [if_neg]
  · apply String.toList_inj.1
    simp [String.toList_append]
  · rintro (e | e)
    · have := congrArg String.toList e
      simp [String.toList_append] at this
    · rw [String.toList_append, List.getLast?_append] at e
      cases hl : al.toList.getLast? with
      | none =>
        rw [hl] at e
        revert e
        decide
      | some c =>
        rw [hl] at e
        obtain rfl : c = '/' := by simpa using e
        exact h (List.mem_of_getLast? hl)

theorem osJoin_append (a b c : String) : osJoin a b ++ c = osJoin a (b ++ c) := by
  unfold osJoin
  split <;> simp only [String.append_assoc]

theorem prepared_list {fs zip : Disk} {root n : String} {tr te l : List String} (h : Prepared fs root zip tr te) (hz : (n, l) ∈ zip) :
    fs.lookup (osJoin root n) = some l :=
  h (osJoin root n, l) (by simp only [processScannet, List.mem_append]; exact Or.inl (Or.inl (Or.inr (List.mem_map.2 ⟨_, hz, rfl⟩))))

theorem prepared_train {fs zip : Disk} {root s : String} {tr te : List String} (h : Prepared fs root zip tr te) (hs : s ∈ tr) :
    (fs.lookup (osJoin (osJoin root "train") (s ++ ".ply"))).isSome ∧ (fs.lookup (osJoin (osJoin root "train") (s ++ ".txt"))).isSome := by
  rw [← osJoin_append, ← osJoin_append]
  constructor
  · rw [h (osJoin (osJoin root "train") s ++ ".ply", [])
      (by simp only [processScannet, List.mem_append]; exact Or.inl (Or.inr (List.mem_flatMap.2 ⟨s, hs, by simp⟩)))]
    rfl
  · rw [h (osJoin (osJoin root "train") s ++ ".txt", [])
      (by simp only [processScannet, List.mem_append]; exact Or.inl (Or.inr (List.mem_flatMap.2 ⟨s, hs, by simp⟩)))]
    rfl

theorem prepared_test {fs zip : Disk} {root s : String} {tr te : List String} (h : Prepared fs root zip tr te) (hs : s ∈ te) :
    (fs.lookup (osJoin (osJoin root "test") (s ++ ".ply"))).isSome := by
  rw [← osJoin_append]
  rw [h (osJoin (osJoin root "test") s ++ ".ply", [])
    (by simp only [processScannet, List.mem_append]; exact Or.inr (List.mem_map.2 ⟨s, hs, rfl⟩))]
  rfl

theorem train_folder {fs zip : Disk} {root n : String} {tr te : List String} (h : Prepared fs root zip tr te) (hz : ∃ l, (n, l) ∈ zip ∧ Names tr l) :
    Folder fs (osJoin root n) (osJoin root "train") tr := by
  obtain ⟨l, h1, h2⟩ := hz
  exact ⟨⟨l, prepared_list h h1, h2⟩, fun s hs => (prepared_train h hs).1⟩

theorem test_folder {fs zip : Disk} {root n : String} {tr te : List String} (h : Prepared fs root zip tr te) (hz : ∃ l, (n, l) ∈ zip ∧ Names te l) :
    Folder fs (osJoin root n) (osJoin root "test") te := by
  obtain ⟨l, h1, h2⟩ := hz
  exact ⟨⟨l, prepared_list h h1, h2⟩, fun s hs => prepared_test h hs⟩

/-- The folder of a path. -/
def dirOf (l : List Char) : List Char := (l.reverse.dropWhile (· != '/')).reverse

theorem dirOf_append {D x : List Char} (hx : '/' ∉ x) (hD : D = [] ∨ D.getLast? = some '/') : dirOf (D ++ x) = D := by
  unfold dirOf
  rw [List.reverse_append, List.dropWhile_append_of_pos]
  · rcases hD with rfl | h
    · rfl
    · obtain ⟨E, rfl⟩ : ∃ E, D = E ++ ['/'] := by
        obtain ⟨E, a, rfl⟩ := (List.eq_nil_or_concat D).resolve_left (by rintro rfl; cases h)
        rw [List.concat_eq_append] at h ⊢
        simp only [List.getLast?_append, List.getLast?_singleton, Option.some_or, Option.some.injEq] at h
        exact ⟨E, by rw [h]⟩
      simp
  · intro a ha
    have : a ≠ '/' := by
      rintro rfl
      exact hx (List.mem_reverse.1 ha)
    simpa using this

/-- The folder that `os.path.join` puts a file into. -/
def dirJoin (a : String) : List Char := if a = "" ∨ a.toList.getLast? = some '/' then a.toList else a.toList ++ ['/']

theorem osJoin_toList (a b : String) : (osJoin a b).toList = dirJoin a ++ b.toList := by
  unfold osJoin dirJoin
  split <;> simp [String.toList_append]

theorem dirJoin_end (a : String) : dirJoin a = [] ∨ (dirJoin a).getLast? = some '/' := by
  unfold dirJoin
  split
  · rename_i h
    rcases h with rfl | h
    · exact Or.inl rfl
    · exact Or.inr h
  · right
    simp

theorem dirOf_osJoin {a b : String} (hb : '/' ∉ b.toList) : dirOf (osJoin a b).toList = dirJoin a := by
  rw [osJoin_toList, dirOf_append hb (dirJoin_end a)]

theorem dirJoin_osJoin (a b : String) (hb : b ≠ "" ∧ '/' ∉ b.toList) : dirJoin (osJoin a b) = dirJoin a ++ (b.toList ++ ['/']) := by
  rw [dirJoin, if_neg, osJoin_toList, List.append_assoc]
  have hb' : b.toList ≠ [] := fun h => hb.1 (String.toList_inj.1 h)
  rintro (h | h)
  · have := congrArg String.toList h
    rw [osJoin_toList] at this
    exact hb' (List.append_eq_nil_iff.1 this).2
  · rw [osJoin_toList, List.getLast?_append] at h
    obtain ⟨c, hc⟩ : ∃ c, b.toList.getLast? = some c := by
      cases h' : b.toList.getLast? with
      | none => exact absurd (List.getLast?_eq_none_iff.1 h') hb'
      | some c => exact ⟨c, rfl⟩
    rw [hc] at h
    obtain rfl : c = '/' := by simpa using h
    exact hb.2 (List.mem_of_getLast? hc)

/-- The folders of the files that the preparation of the data writes. -/
theorem processed_dir {root p : String} {zip : Disk} {tr te : List String} (hz : ∀ e ∈ zip, '/' ∉ e.1.toList) (htr : ∀ s ∈ tr, '/' ∉ s.toList)
    (hte : ∀ s ∈ te, '/' ∉ s.toList) (h : ((processScannet root zip tr te).lookup p).isSome) :
    dirOf p.toList = dirJoin root ∨ dirOf p.toList = dirJoin root ++ "train/".toList ∨ dirOf p.toList = dirJoin root ++ "test/".toList := by
  have hmem : ∃ l, (p, l) ∈ processScannet root zip tr te := by
    obtain ⟨l, hl⟩ := Option.isSome_iff_exists.1 h
    obtain ⟨a, b, e, -⟩ := List.lookup_eq_some_iff.1 hl
    exact ⟨l, by rw [e]; simp⟩
  obtain ⟨l, hm⟩ := hmem
  have suffix : ∀ s t : String, '/' ∉ s.toList → '/' ∉ t.toList → '/' ∉ (s ++ t).toList := by
    intro s t h1 h2
    rw [String.toList_append, List.mem_append]
    exact fun h => h.elim h1 h2
  simp only [processScannet, List.mem_append, List.mem_singleton, List.mem_map, List.mem_flatMap, List.mem_cons, List.not_mem_nil, or_false,
    Prod.mk.injEq] at hm
  rcases hm with ((⟨rfl, -⟩ | ⟨e, he, rfl, -⟩) | ⟨s, hs, h⟩) | ⟨s, hs, rfl, -⟩
  · exact Or.inl (dirOf_osJoin (by decide))
  · exact Or.inl (dirOf_osJoin (hz e he))
  · refine Or.inr (Or.inl ?_)
    rcases h with ⟨rfl, -⟩ | ⟨rfl, -⟩
    · rw [osJoin_append, dirOf_osJoin (suffix _ _ (htr s hs) (by decide)), dirJoin_osJoin _ _ (by decide)]
      rfl
    · rw [osJoin_append, dirOf_osJoin (suffix _ _ (htr s hs) (by decide)), dirJoin_osJoin _ _ (by decide)]
      rfl
  · refine Or.inr (Or.inr ?_)
    rw [osJoin_append, dirOf_osJoin (suffix _ _ (hte s hs) (by decide)), dirJoin_osJoin _ _ (by decide)]
    rfl

theorem readData_list {fs : Disk} {c : Dict String} {flag list : String} {r : List String} (h : readData fs c flag = .ok r)
    (h2 : c.get ("DATA." ++ flag ++ ".filelist") = .ok list) : (fs.lookup list).isSome := by
  unfold readData at h
  simp only [h2, bind, Except.bind] at h
  cases hd : c.get ("DATA." ++ flag ++ ".location") with
  | error e => rw [hd] at h; cases h
  | ok d =>
    rw [hd] at h
    simp only [openFile] at h
    cases hl : fs.lookup list with
    | none => rw [hl] at h; cases h
    | some l => rfl

/-- Without the file list of the test data an evaluation fails. -/
theorem seg_eval_missing {config c : Dict String} {opts : List String} {fs fs' : Disk} {l2 : String} (hc : mergeOpts config opts = .ok c)
    (hr : c.get "SOLVER.run" = .ok "evaluate") (h4 : c.get "DATA.test.filelist" = .ok l2) (h : segmentationPy config opts fs = .ok fs') :
    (fs.lookup l2).isSome := by
  unfold segmentationPy at h
  simp only [hc, hr, bind, Except.bind] at h
  cases h1 : logFolder c with
  | error e => rw [h1] at h; cases h
  | ok a =>
    rw [h1] at h
    simp only [show ("evaluate" = "train") = False by simp, if_false] at h
    cases h2 : c.get "SOLVER.ckpt" with
    | error e => rw [h2] at h; cases h
    | ok b =>
      rw [h2] at h
      simp only at h
      cases h3 : openFile fs b with
      | error e => rw [h3] at h; cases h
      | ok d =>
        rw [h3] at h
        simp only at h
        cases h5 : readData fs c "test" with
        | error e => rw [h5] at h; cases h
        | ok r => exact readData_list h5 h4

/-- Without one of the two file lists a training fails. -/
theorem seg_train_missing {config c : Dict String} {opts : List String} {fs fs' : Disk} {l1 l2 : String} (hc : mergeOpts config opts = .ok c)
    (hr : c.get "SOLVER.run" = .ok "train") (h2 : c.get "DATA.train.filelist" = .ok l1) (h4 : c.get "DATA.test.filelist" = .ok l2)
    (h : segmentationPy config opts fs = .ok fs') : (fs.lookup l1).isSome ∧ (fs.lookup l2).isSome := by
  unfold segmentationPy at h
  simp only [hc, hr, bind, Except.bind] at h
  cases h1 : logFolder c with
  | error e => rw [h1] at h; cases h
  | ok a =>
    rw [h1] at h
    simp only [if_true] at h
    cases h3 : readData fs c "train" with
    | error e => rw [h3] at h; cases h
    | ok r =>
      rw [h3] at h
      simp only at h
      cases h5 : readData fs c "test" with
      | error e => rw [h5] at h; cases h
      | ok r' => exact ⟨readData_list h3 h2, readData_list h5 h4⟩

theorem train_ok {fs zip : Disk} {tr te : List String} (hA : Archive zip tr te) (hp : Prepared fs "data/scannet.ply" zip tr te) (gpu al port : String)
    (ha : '/' ∉ al.toList) : train gpu al port fs = .ok (fs.set (ckptOf al none) []) := by
  rw [← ckpt_path ha]
  have f1 := train_folder hp hA.trainList
  have f2 := train_folder hp hA.valList
  exact seg_train (config := trainConfig) (logdir := "logs/scannet/D10_2cm") (al := al) rfl rfl rfl rfl rfl rfl rfl rfl f1 f2

theorem trainAll_ok {fs zip : Disk} {tr te : List String} (hA : Archive zip tr te) (hp : Prepared fs "data/scannet.ply" zip tr te)
    (hp' : Prepared fs "data/scannet" zip tr te) (gpu al port : String)
    (ha : '/' ∉ al.toList) : trainAll gpu al port fs = .ok (fs.set (ckptOf al none) []) := by
  rw [← ckpt_path ha]
  have f1 : Folder fs (osJoin "data/scannet" "scannetv2_train_val.txt") (osJoin "data/scannet.ply" "train") tr :=
    ⟨(train_folder hp' hA.trainValList).list, (train_folder hp hA.valList).ply⟩
  have f2 := train_folder hp hA.valList
  exact seg_train (config := trainConfig) (logdir := "logs/scannet/D10_2cm") (al := al) rfl rfl rfl rfl rfl rfl rfl rfl f1 f2

end Script

/-- **C168 (what holds).**  If the data are prepared in both folders `data/scannet.ply` and `data/scannet`, then for every GPU, alias and port the
training succeeds, the validation after it finds the checkpoint, the data, the predictions and the true labels and leaves the labels of every listed
scene, and likewise the training on all scenes followed by the test. -/
theorem C168_partial {fs zip : Disk} {tr te : List String} (hA : Archive zip tr te) (hp : Prepared fs "data/scannet.ply" zip tr te)
    (hp' : Prepared fs "data/scannet" zip tr te) (gpu al port : String) (ha : '/' ∉ al.toList) :
    (∃ fs₁, train gpu al port fs = .ok fs₁ ∧ ∃ fs₂, validate gpu al none fs₁ = .ok fs₂ ∧
      ∀ l, ("scannetv2_val.txt", l) ∈ zip → ∀ s, (∃ x ∈ l, firstWord x = s ++ ".ply") →
        (fs₂.lookup (osJoin ("logs/scannet/D10_2cm_eval_val_seg_" ++ al) (s ++ ".txt"))).isSome) ∧
    (∃ fs₁, trainAll gpu al port fs = .ok fs₁ ∧ ∃ fs₂, test gpu al none fs₁ = .ok fs₂ ∧
      ∀ l, ("scannetv2_test.txt", l) ∈ zip → ∀ s, (∃ x ∈ l, firstWord x = s ++ ".ply") →
        (fs₂.lookup (osJoin ("logs/scannet/D10_2cm_eval_test_seg_" ++ al) (s ++ ".txt"))).isSome) := by
  have hck : (ckptOf al none).toList.head? = Option.some 'l' := by
    simp [ckptOf, String.toList_append, List.head?_append]
  have g := Grows.set fs hck []
  have hsome : ((fs.set (ckptOf al none) []).lookup (ckptOf al none)).isSome := by
    rw [Dict.lookup_set, if_pos rfl]
    rfl
  refine ⟨⟨_, train_ok hA hp gpu al port ha, ?_⟩, ⟨_, trainAll_ok hA hp hp' gpu al port ha, ?_⟩⟩
  · have f := (train_folder hp' hA.valList).grows g (by decide)
    obtain ⟨l, fs₁, hl, hn, e1, g1, k1⟩ := seg_eval (config := evalConfig) (opts := ["SOLVER.gpu", gpu ++ ",", "SOLVER.eval_epoch", "12", "SOLVER.alias", "val_" ++ al, "SOLVER.ckpt", ckptOf al none,
      "DATA.test.distort", "True", "DATA.test.location", "data/scannet/train", "DATA.test.filelist", "data/scannet/scannetv2_val.txt"])
      (logdir := "logs/scannet/D10_2cm_eval") (al := "val_" ++ al) rfl rfl rfl rfl rfl rfl rfl f hsome (by decide)
    have ep : "logs/scannet/D10_2cm_eval" ++ "_" ++ ("val_" ++ al) = "logs/scannet/D10_2cm_eval_val_" ++ al := by
      apply String.toList_inj.1
      simp [String.toList_append]
    rw [ep] at k1
    have hl' : fs₁.lookup "data/scannet/scannetv2_val.txt" = some l := (g1.data _ (by decide)).trans hl
    obtain ⟨fs₂, e2, g2, k2⟩ := output_ok (out := "logs/scannet/D10_2cm_eval_val_seg_" ++ al) hl' hn k1 (by simp [String.toList_append, List.head?_append])
    have hl2 : fs₂.lookup "data/scannet/scannetv2_val.txt" = some l := (g2.data _ (by decide)).trans hl'
    refine ⟨fs₂, ?_, fun l' hl0 s hs => ?_⟩
    · unfold validate
      simp only [e1, e2, bind, Except.bind, openFile, hl2]
      rw [iou_ok]
      · rfl
      · intro s hs
        obtain ⟨x, hx, rfl⟩ := List.mem_map.1 hs
        exact k2 x hx
      · intro s hs
        obtain ⟨x, hx, rfl⟩ := List.mem_map.1 hs
        obtain ⟨s, hs, e⟩ := hn x hx
        rw [e, drop_ply]
        exact g2.some _ (g1.some _ (g.some _ (prepared_train hp' hs).2))
    · obtain ⟨x, hx, e⟩ := hs
      have : l' = l := by
        have h1 := prepared_list hp' hl0
        have h2 : (fs.set (ckptOf al none) []).lookup (osJoin "data/scannet" "scannetv2_val.txt") = some l := hl
        rw [g.data _ (by decide), h1] at h2
        exact Option.some.inj h2
      subst this
      have := k2 x hx
      rwa [e, drop_ply] at this
  · have f := (test_folder hp' hA.testList).grows g (by decide)
    obtain ⟨l, fs₁, hl, hn, e1, g1, k1⟩ := seg_eval (config := evalConfig) (opts := ["SOLVER.gpu", gpu ++ ",", "SOLVER.eval_epoch", "72", "SOLVER.alias", "test_" ++ al, "SOLVER.ckpt", ckptOf al none,
      "DATA.test.distort", "True"])
      (logdir := "logs/scannet/D10_2cm_eval") (al := "test_" ++ al) rfl rfl rfl rfl rfl rfl rfl f hsome (by decide)
    have ep : "logs/scannet/D10_2cm_eval" ++ "_" ++ ("test_" ++ al) = "logs/scannet/D10_2cm_eval_test_" ++ al := by
      apply String.toList_inj.1
      simp [String.toList_append]
    rw [ep] at k1
    have hl' : fs₁.lookup "data/scannet/scannetv2_test.txt" = some l := (g1.data _ (by decide)).trans hl
    obtain ⟨fs₂, e2, g2, k2⟩ := output_ok (out := "logs/scannet/D10_2cm_eval_test_seg_" ++ al) hl' hn k1 (by simp [String.toList_append, List.head?_append])
    refine ⟨fs₂, ?_, fun l' hl0 s hs => ?_⟩
    · unfold test
      simp only [e1, e2, bind, Except.bind]
    · obtain ⟨x, hx, e⟩ := hs
      have : l' = l := by
        have h1 := prepared_list hp' hl0
        have h2 : (fs.set (ckptOf al none) []).lookup (osJoin "data/scannet" "scannetv2_test.txt") = some l := hl
        rw [g.data _ (by decide), h1] at h2
        exact Option.some.inj h2
      subst this
      have := k2 x hx
      rwa [e, drop_ply] at this

/-- **C168 (a single folder is never enough).**  Whatever folder `process_scannet` writes to, `train_all` does not find its files afterwards: one of its
lists is in `data/scannet`, the other in `data/scannet.ply`. -/
theorem C168_no_folder (zip : Disk) (tr te : List String) (hz : ∀ e ∈ zip, '/' ∉ e.1.toList) (htr : ∀ s ∈ tr, '/' ∉ s.toList)
    (hte : ∀ s ∈ te, '/' ∉ s.toList) (root gpu al port : String) (fs' : Disk) : trainAll gpu al port (processScannet root zip tr te) ≠ .ok fs' := by
  intro h
  obtain ⟨h1, h2⟩ := seg_train_missing (config := trainConfig) (l1 := "data/scannet/scannetv2_train_val.txt") (l2 := "data/scannet.ply/scannetv2_val.txt")
    rfl rfl rfl rfl h
  have d1 : dirOf "data/scannet/scannetv2_train_val.txt".toList = "data/scannet/".toList := by decide
  have d2 : dirOf "data/scannet.ply/scannetv2_val.txt".toList = "data/scannet.ply/".toList := by decide
  have h1 := processed_dir hz htr hte h1
  have h2 := processed_dir hz htr hte h2
  rw [d1] at h1
  rw [d2] at h2
  generalize dirJoin root = D at h1 h2
  have key : ∀ a b : List Char, a.reverse ≠ (D ++ b).reverse → a ≠ D ++ b := fun a b h e => h (by rw [e])
  have c1 : "data/scannet/".toList ≠ D ++ "train/".toList := key _ _ (by simp)
  have c2 : "data/scannet/".toList ≠ D ++ "test/".toList := key _ _ (by simp)
  have c3 : "data/scannet.ply/".toList ≠ D ++ "train/".toList := key _ _ (by simp)
  have c4 : "data/scannet.ply/".toList ≠ D ++ "test/".toList := key _ _ (by simp)
  rcases h1 with h1 | h1 | h1
  · rcases h2 with h2 | h2 | h2
    · rw [← h1] at h2
      revert h2
      decide
    · exact c3 h2
    · exact c4 h2
  · exact c1 h1
  · exact c2 h1

/-- **C168 (the documented commands).**  After `process_scannet` with its default folder the training succeeds, but then neither the validation nor the
test does, with whatever checkpoint. -/
theorem C168_default (zip : Disk) (tr te : List String) (hA : Archive zip tr te) (hz : ∀ e ∈ zip, '/' ∉ e.1.toList) (htr : ∀ s ∈ tr, '/' ∉ s.toList)
    (hte : ∀ s ∈ te, '/' ∉ s.toList) (hp : Prepared (processScannet defaultOut zip tr te) defaultOut zip tr te) (gpu al port : String) (ha : '/' ∉ al.toList) :
    ∃ fs₁, train gpu al port (processScannet defaultOut zip tr te) = .ok fs₁ ∧
      ∀ ckpt fs₂, validate gpu al ckpt fs₁ ≠ .ok fs₂ ∧ test gpu al ckpt fs₁ ≠ .ok fs₂ := by
  have hck : (ckptOf al none).toList.head? = Option.some 'l' := by
    simp [ckptOf, String.toList_append, List.head?_append]
  have none_of : ∀ p : String, p.toList.head? = Option.some 'd' → dirOf p.toList = "data/scannet/".toList →
      ¬ (((processScannet defaultOut zip tr te).set (ckptOf al none) []).lookup p).isSome := by
    intro p h1 h2 h
    rw [(Grows.set _ hck []).data p h1] at h
    have h := processed_dir hz htr hte h
    rw [h2] at h
    revert h
    decide
  refine ⟨_, train_ok hA hp gpu al port ha, fun ckpt fs₂ => ⟨fun h => ?_, fun h => ?_⟩⟩
  · unfold validate at h
    obtain ⟨a, h1, -⟩ := Stat.ok_of_bind (show _ >>= _ = _ from h)
    exact none_of _ (by decide) (by decide) (seg_eval_missing (config := evalConfig) (l2 := "data/scannet/scannetv2_val.txt") rfl rfl rfl h1)
  · unfold test at h
    obtain ⟨a, h1, -⟩ := Stat.ok_of_bind (show _ >>= _ = _ from h)
    exact none_of _ (by decide) (by decide) (seg_eval_missing (config := evalConfig) (l2 := "data/scannet/scannetv2_test.txt") rfl rfl rfl h1)

namespace Script

/-- A small archive of lists and its scenes. -/
def zipE : Disk := [("scannetv2_train.txt", ["scene0000_00.ply"]), ("scannetv2_val.txt", ["scene0011_00.ply"]),
  ("scannetv2_train_val.txt", ["scene0000_00.ply", "scene0011_00.ply"]), ("scannetv2_test.txt", ["scene0707_00.ply"])]

theorem archiveE : Archive zipE ["scene0000_00", "scene0011_00"] ["scene0707_00"] := by
  refine ⟨⟨_, List.mem_cons_self, ?_⟩, ⟨_, List.mem_cons_of_mem _ List.mem_cons_self, ?_⟩,
    ⟨_, List.mem_cons_of_mem _ (List.mem_cons_of_mem _ List.mem_cons_self), ?_⟩,
    ⟨_, List.mem_cons_of_mem _ (List.mem_cons_of_mem _ (List.mem_cons_of_mem _ List.mem_cons_self)), ?_⟩⟩ <;> unfold Names <;> decide +kernel

theorem preparedE : Prepared (processScannet defaultOut zipE ["scene0000_00", "scene0011_00"] ["scene0707_00"]) defaultOut zipE
    ["scene0000_00", "scene0011_00"] ["scene0707_00"] := by
  unfold Prepared
  decide +kernel

end Script

/-- **C168 (violated).**  There is a data set for which the documented commands fail: the preparation and the training succeed, the validation, the test
and the training on all scenes do not. -/
theorem C168_violated : ∃ (zip : Disk) (tr te : List String), Archive zip tr te ∧ Prepared (processScannet defaultOut zip tr te) defaultOut zip tr te ∧
    ∃ fs₁, train "0" "scannet" "10001" (processScannet defaultOut zip tr te) = .ok fs₁ ∧
      (∀ fs₂, validate "0" "scannet" none fs₁ ≠ .ok fs₂) ∧ (∀ fs₂, test "0" "scannet" none fs₁ ≠ .ok fs₂) ∧
      ∀ fs₂, trainAll "0" "scannet" "10001" (processScannet defaultOut zip tr te) ≠ .ok fs₂ := by
  obtain ⟨fs₁, h1, h2⟩ := C168_default zipE _ _ archiveE (by decide +kernel) (by decide +kernel) (by decide +kernel) preparedE "0" "scannet" "10001" (by decide +kernel)
  exact ⟨_, _, _, archiveE, preparedE, fs₁, h1, fun fs₂ => (h2 none fs₂).1, fun fs₂ => (h2 none fs₂).2,
    C168_no_folder _ _ _ (by decide +kernel) (by decide +kernel) (by decide +kernel) _ _ _ _⟩

/-- Non-vacuity: a disk on which both folders are prepared. -/
example : let fs := processScannet "data/scannet.ply" zipE ["scene0000_00", "scene0011_00"] ["scene0707_00"] ++
      processScannet "data/scannet" zipE ["scene0000_00", "scene0011_00"] ["scene0707_00"]
    Prepared fs "data/scannet.ply" zipE ["scene0000_00", "scene0011_00"] ["scene0707_00"] ∧
    Prepared fs "data/scannet" zipE ["scene0000_00", "scene0011_00"] ["scene0707_00"] ∧
    (validate "0" "a" none (fs.set "logs/scannet/D10_2cm_a/checkpoints/00600.model.pth" [])).toOption.map
      (·.lookup "logs/scannet/D10_2cm_eval_val_seg_a/scene0011_00.txt") = some (some []) := by
  unfold Prepared
  decide +kernel

end Ocnn
