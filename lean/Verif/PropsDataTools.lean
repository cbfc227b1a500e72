import Verif.DataTools
import Verif.PropsFileLists
import Verif.PropsCheckpoints

/-! Properties C133-C136: the files of ModelNet40 and of the completion and image data. -/

namespace Ocnn
open Spec

/-! ### C133 -/

/-- **C133.** A file that begins with `OFF` gets exactly one line break after it if there is none; all other files and characters are kept. -/
theorem C133_clean (rest : String) :
    cleanOff ("OFF\n" ++ rest) = "OFF\n" ++ rest ∧
    (rest.toList.head? ≠ some '\n' → cleanOff ("OFF" ++ rest) = "OFF\n" ++ rest) ∧
    (∀ s : String, ¬ "OFF".toList <+: s.toList → cleanOff s = s) := by
  refine ⟨?_, ?_, ?_⟩
  · unfold cleanOff
    simp [String.toList_append]
  · intro h
    unfold cleanOff
    have e3 : ("OFF" ++ rest).toList.take 3 = "OFF".toList := by simp [String.toList_append]
    have e4 : ("OFF" ++ rest).toList.take 4 ≠ "OFF\n".toList := by
      cases hr : rest.toList with
      | nil => simp [String.toList_append, hr]
      | cons c cs =>
        rw [hr] at h
        simp [String.toList_append, hr]
        simpa using h
    rw [if_neg (not_not.2 e3), if_pos e4]
    apply String.toList_injective
    rw [String.toList_ofList, e3]
    simp [String.toList_append]
  · intro s h
    unfold cleanOff
    rw [if_pos]
    intro e
    exact h ⟨s.toList.drop 3, by rw [← e, List.take_append_drop]⟩

/-- **C133, idempotence.** Cleaning a second time changes nothing. -/
theorem C133_again (s : String) : cleanOff (cleanOff s) = cleanOff s := by
  by_cases h : "OFF".toList <+: s.toList
  · obtain ⟨t, ht⟩ := h
    have e : s = "OFF" ++ String.ofList t := by
      apply String.toList_injective
      rw [← ht, String.toList_append]
      simp
    by_cases hn : t.head? = some '\n'
    · cases t with
      | nil => simp at hn
      | cons c t =>
        simp only [List.head?_cons, Option.some.injEq] at hn
        subst hn
        have e' : s = "OFF\n" ++ String.ofList t := by
          rw [e]
          apply String.toList_injective
          simp [String.toList_append]
        rw [e', (C133_clean _).1, (C133_clean _).1]
    · rw [e, (C133_clean (String.ofList t)).2.1 (by rw [String.toList_ofList]; exact hn), (C133_clean _).1]
  · rw [(C133_clean "").2.2 s h, (C133_clean "").2.2 s h]

example : cleanOff "OFF490 518 0\n1 2 3\n" = "OFF\n490 518 0\n1 2 3\n" := by decide +kernel

/-! ### lemmas on names -/

theorem hasSuffix_append (a suffix : String) : hasSuffix suffix (a ++ suffix) = true := by
  unfold hasSuffix
  rw [List.isSuffixOf_iff_suffix, String.toList_append]
  exact List.suffix_append _ _

theorem cutEnd_append (n : Nat) (a b : String) (h : b.toList.length = n) : cutEnd n (a ++ b) = a := by
  unfold cutEnd
  apply String.toList_injective
  rw [String.toList_ofList, String.toList_append, List.length_append, h, Nat.add_sub_cancel]
  exact List.take_left

theorem hasSuffix_split {suffix s : String} (h : hasSuffix suffix s = true) : ∃ a, s = a ++ suffix := by
  unfold hasSuffix at h
  rw [List.isSuffixOf_iff_suffix] at h
  obtain ⟨t, ht⟩ := h
  refine ⟨String.ofList t, ?_⟩
  apply String.toList_injective
  rw [String.toList_append, String.toList_ofList, ht]

theorem replaceAux_none (old new l : List Char) (hne : old ≠ []) (h : ¬ old <:+: l) : replaceAux old new 0 l = l := by
  induction l with
  | nil => rfl
  | cons c l ih =>
    have h1 : ¬ old.isPrefixOf (c :: l) = true := by
      rw [List.isPrefixOf_iff_prefix]
      exact fun hp => h hp.isInfix
    rw [replaceAux, if_neg h1, ih]
    intro hi
    exact h (hi.trans (List.suffix_cons c l).isInfix)

theorem strReplace_none (s old new : String) (hne : old.toList ≠ []) (h : ¬ Mentions s old) : strReplace s old new = s := by
  unfold strReplace
  rw [replaceAux_none _ _ _ hne h, String.ofList_toList]

theorem strReplace_one (p q old new : String) (hne : old.toList ≠ []) (hp : ¬ Mentions p old) (hq : ¬ Mentions q old)
    (hb : ∀ t < old.toList.length, 0 < t → ¬ old.toList.drop t <+: old.toList) : strReplace (p ++ old ++ q) old new = p ++ new ++ q := by
  unfold strReplace
  apply String.toList_injective
  rw [String.toList_ofList, String.toList_append, String.toList_append, String.toList_append, String.toList_append, List.append_assoc]
  rw [replaceAux_first _ _ _ _ hne (fun j hj => no_early hp hb j hj), replaceAux_none _ _ _ hne hq, List.append_assoc]

theorem lookup_of_mem {A B : Type} [BEq A] [LawfulBEq A] {l : List (A × B)} {k : A} {v : B} (h : (k, v) ∈ l) (hu : ∀ v', (k, v') ∈ l → v' = v) :
    l.lookup k = some v := by
  induction l with
  | nil => simp at h
  | cons a l ih =>
    obtain ⟨k', v'⟩ := a
    rw [List.lookup_cons]
    by_cases e : k = k'
    · subst e
      simp only [BEq.rfl]
      rw [hu v' (List.mem_cons_self ..)]
    · rw [beq_false_of_ne e]
      simp only
      apply ih
      · rcases List.mem_cons.1 h with h | h
        · exact absurd (Prod.mk.inj h).1 e
        · exact h
      · exact fun v'' hv => hu v'' (List.mem_cons_of_mem _ hv)

/-- Folder and file of a path are determined if the file has no slash. -/
theorem path_inj {a a' b b' : List Char} (hb : '/' ∉ b) (hb' : '/' ∉ b') (h : a ++ '/' :: b = a' ++ '/' :: b') : a = a' ∧ b = b' := by
  have hr := congrArg List.reverse h
  simp only [List.reverse_append, List.reverse_cons, List.append_assoc, List.singleton_append] at hr
  have hb : '/' ∉ b.reverse := by simpa using hb
  have hb' : '/' ∉ b'.reverse := by simpa using hb'
  have key : ∀ (x x' y y' : List Char), '/' ∉ x → '/' ∉ x' → x ++ '/' :: y = x' ++ '/' :: y' → x = x' ∧ y = y' := by
    intro x
    induction x with
    | nil =>
      intro x' y y' _ h2 e
      cases x' with
      | nil => exact ⟨rfl, by simpa using e⟩
      | cons c x' =>
        simp only [List.nil_append, List.cons_append, List.cons.injEq] at e
        exact absurd (e.1 ▸ List.mem_cons_self ..) h2
    | cons c x ih =>
      intro x' y y' h1 h2 e
      cases x' with
      | nil =>
        simp only [List.nil_append, List.cons_append, List.cons.injEq] at e
        exact absurd (e.1 ▸ List.mem_cons_self ..) h1
      | cons c' x' =>
        simp only [List.cons_append, List.cons.injEq] at e
        obtain ⟨rfl, e⟩ := e
        obtain ⟨rfl, rfl⟩ := ih x' y y' (fun h => h1 (List.mem_cons_of_mem _ h)) (fun h => h2 (List.mem_cons_of_mem _ h)) e
        exact ⟨rfl, rfl⟩
  obtain ⟨e1, e2⟩ := key _ _ _ _ hb hb' hr
  exact ⟨List.reverse_injective e2, List.reverse_injective e1⟩

theorem pathJoin_inj {a a' b b' : String} (hb : '/' ∉ b.toList) (hb' : '/' ∉ b'.toList) (h : pathJoin a b = pathJoin a' b') : a = a' ∧ b = b' := by
  have := congrArg String.toList h
  simp only [pathJoin, String.toList_append] at this
  have e : "/".toList = ['/'] := rfl
  rw [e] at this
  simp only [List.append_assoc, List.singleton_append] at this
  obtain ⟨h1, h2⟩ := path_inj hb hb' this
  exact ⟨String.toList_injective h1, String.toList_injective h2⟩

theorem append_right_cancel' {a b c : String} (h : a ++ c = b ++ c) : a = b := by
  have := congrArg String.toList h
  simp only [String.toList_append] at this
  exact String.toList_injective (List.append_cancel_right this)

theorem append_left_cancel' {a b c : String} (h : c ++ a = c ++ b) : a = b := by
  have := congrArg String.toList h
  simp only [String.toList_append] at this
  exact String.toList_injective (List.append_cancel_left this)

/-- The columns written for points with normals are read back in single precision. -/
theorem saved_normals (pts nrm : List (V3 ℚ)) (h : nrm.length = pts.length) :
    ∃ file, savePoints pts (some nrm) none none = .ok file ∧
      readPly ⟨true, false, false⟩ file = .ok ⟨pts.map (·.map f32), some (nrm.map (·.map f32)), none, none⟩ := by
  obtain ⟨file, h1, h2⟩ := C108_points ((pts.zip nrm).map fun p => (⟨p.1, p.2, ⟨0, 0, 0⟩, 0⟩ : CloudPoint)) (by
    intro q hq
    obtain ⟨p, hp, rfl⟩ := List.mem_map.1 hq
    simp [CloudPoint.Fits]) ⟨true, false, false⟩ ⟨true, false, false⟩
  have e1 : ((pts.zip nrm).map fun p => (⟨p.1, p.2, ⟨0, 0, 0⟩, 0⟩ : CloudPoint)).map (fun p => p.pos) = pts := by
    rw [List.map_map]
    exact List.map_fst_zip (by omega)
  have e2 : ((pts.zip nrm).map fun p => (⟨p.1, p.2, ⟨0, 0, 0⟩, 0⟩ : CloudPoint)).map (fun p => p.nrm) = nrm := by
    rw [List.map_map]
    exact List.map_snd_zip (by omega)
  simp only [if_true, Bool.false_eq_true, if_false, e1, e2] at h1
  refine ⟨file, h1, ?_⟩
  rw [h2]
  simp only [Bool.not_true, Bool.and_false, Bool.not_false, Bool.and_true, Bool.or_self, Bool.false_eq_true, if_false, readBack, if_true]
  have e3 : ((pts.zip nrm).map fun p => (⟨p.1, p.2, ⟨0, 0, 0⟩, 0⟩ : CloudPoint)).map (fun p => p.pos.map f32) = pts.map (·.map f32) := by
    conv_rhs => rw [← e1]
    rw [List.map_map, List.map_map, List.map_map]
    rfl
  have e4 : ((pts.zip nrm).map fun p => (⟨p.1, p.2, ⟨0, 0, 0⟩, 0⟩ : CloudPoint)).map (fun p => p.nrm.map f32) = nrm.map (·.map f32) := by
    conv_rhs => rw [← e2]
    rw [List.map_map, List.map_map, List.map_map]
    rfl
  rw [e3, e4]

/-! ### C134 -/

/-- **C134.** For a list of meshes with different names that end with `.off`, the tool writes one file for each mesh, and reading the file with the same name and
the ending `.ply` with the data set's `read_file` returns the sampled points and normals in single precision. -/
theorem C134_modelnet (sample : String → M (List (V3 ℚ) × List (V3 ℚ))) (folder : String) (stems : List String) (pts nrm : String → List (V3 ℚ))
    (hs : ∀ stem ∈ stems, sample (stem ++ ".off") = .ok (pts stem, nrm stem)) (hl : ∀ stem ∈ stems, (nrm stem).length = (pts stem).length)
    (hb : '\\' ∉ folder.toList ∧ ∀ stem ∈ stems, '\\' ∉ stem.toList) (npz : String → Option Npz) :
    ∃ files, convertMeshes sample folder (stems.map (· ++ ".off")) = .ok files ∧
      files.map Prod.fst = stems.map (fun stem => folder ++ "/" ++ stem ++ ".ply") ∧
      ∀ stem ∈ stems, m40ReadFile (fun n => files.lookup n) npz (folder ++ "/" ++ stem ++ ".ply")
        = .ok ((pts stem).map (·.map f32), (nrm stem).map (·.map f32)) := by
  have hfile : ∀ stem : String, ∃ file, (stem ∈ stems → savePoints (pts stem) (some (nrm stem)) none none = .ok file ∧
      readPly ⟨true, false, false⟩ file = .ok ⟨(pts stem).map (·.map f32), some ((nrm stem).map (·.map f32)), none, none⟩) := by
    intro stem
    by_cases hm : stem ∈ stems
    · obtain ⟨f, f1⟩ := saved_normals (pts stem) (nrm stem) (hl stem hm)
      exact ⟨f, fun _ => f1⟩
    · exact ⟨[], fun h => absurd h hm⟩
  choose file hf using hfile
  have hcut : ∀ stem : String, cutEnd 3 (stem ++ ".off") ++ "ply" = stem ++ ".ply" := by
    intro stem
    have : stem ++ ".off" = (stem ++ ".") ++ "off" := by
      apply String.toList_injective
      simp [String.toList_append]
    rw [this, cutEnd_append 3 _ _ rfl]
    apply String.toList_injective
    simp [String.toList_append]
  have hname : ∀ stem : String, pathJoin folder (stem ++ ".ply") = folder ++ "/" ++ stem ++ ".ply" := by
    intro stem
    unfold pathJoin
    apply String.toList_injective
    simp [String.toList_append]
  have hconv : convertMeshes sample folder (stems.map (· ++ ".off")) = .ok (stems.map fun stem => (folder ++ "/" ++ stem ++ ".ply", file stem)) := by
    unfold convertMeshes
    rw [List.mapM_map]
    refine mapM_pure _ (fun stem => (folder ++ "/" ++ stem ++ ".ply", file stem)) _ ?_
    intro stem hstem
    simp only [Function.comp, hs stem hstem, bind, Except.bind, (hf stem hstem).1, pure, Except.pure, hcut, hname]
  refine ⟨_, hconv, by rw [List.map_map]; rfl, ?_⟩
  intro stem hstem
  have hlook : (stems.map fun stem => (folder ++ "/" ++ stem ++ ".ply", file stem)).lookup (folder ++ "/" ++ stem ++ ".ply") = some (file stem) := by
    apply lookup_of_mem
    · exact List.mem_map.2 ⟨stem, hstem, rfl⟩
    · intro v' hv'
      obtain ⟨stem', hm', e⟩ := List.mem_map.1 hv'
      obtain ⟨e1, e2⟩ := Prod.mk.inj e
      have e3 := append_right_cancel' e1
      rw [String.append_assoc, String.append_assoc] at e3
      have e4 := append_left_cancel' (append_left_cancel' e3)
      rw [← e2, e4]
  have hno : strReplace (folder ++ "/" ++ stem ++ ".ply") "\\" "/" = folder ++ "/" ++ stem ++ ".ply" := by
    apply strReplace_none _ _ _ (by decide)
    unfold Mentions
    intro hi
    have : '\\' ∈ (folder ++ "/" ++ stem ++ ".ply").toList := hi.subset (by decide)
    simp only [String.toList_append, List.mem_append] at this
    rcases this with ((h | h) | h) | h
    · exact hb.1 h
    · exact absurd h (by decide)
    · exact hb.2 stem hstem h
    · exact absurd h (by decide)
  unfold m40ReadFile
  simp only [hno, hasSuffix_append, if_true, hlook, (hf stem hstem).2, bind, Except.bind]
  rfl

/-- Two meshes with one sampled point each meet the hypotheses. -/
example : (∀ stem ∈ ["chair/train/chair_0001", "car/test/car_0198"],
      (fun n => if n = "chair/train/chair_0001.off" then .ok ([⟨1, 2, 3⟩], [⟨0, 0, 1⟩]) else if n = "car/test/car_0198.off" then .ok ([⟨4, 5, 6⟩], [⟨0, 1, 0⟩])
        else .error .key : String → M (List (V3 ℚ) × List (V3 ℚ))) (stem ++ ".off")
        = .ok (if stem = "chair/train/chair_0001" then ([⟨1, 2, 3⟩], [⟨0, 0, 1⟩]) else ([⟨4, 5, 6⟩], [⟨0, 1, 0⟩]))) ∧
    '\\' ∉ "ModelNet40.ply".toList ∧ ∀ stem ∈ ["chair/train/chair_0001", "car/test/car_0198"], '\\' ∉ stem.toList := by
  refine ⟨?_, by decide +kernel, by decide +kernel⟩
  intro stem hs
  rcases List.mem_cons.1 hs with rfl | hs
  · rfl
  · rw [List.mem_singleton.1 hs]
    rfl

/-- Other file types raise ValueError. -/
theorem C134_type (ply : String → Option (Dict (List ℚ))) (npz : String → Option Npz) (filename : String) (hb : '\\' ∉ filename.toList)
    (h1 : ¬ ".ply".toList <:+ filename.toList) (h2 : ¬ ".npz".toList <:+ filename.toList) : m40ReadFile ply npz filename = .error .value := by
  have hno : strReplace filename "\\" "/" = filename := by
    apply strReplace_none _ _ _ (by decide)
    intro hi
    exact hb (hi.subset (by decide))
  have e1 : hasSuffix ".ply" filename = false := by
    rw [Bool.eq_false_iff]
    intro h
    exact h1 (List.isSuffixOf_iff_suffix.1 h)
  have e2 : hasSuffix ".npz" filename = false := by
    rw [Bool.eq_false_iff]
    intro h
    exact h2 (List.isSuffixOf_iff_suffix.1 h)
  unfold m40ReadFile
  simp only [hno, e1, e2, Bool.false_eq_true, if_false]

/-! ### C135 -/

/-- **C135, the lists.** In a list for the original files, each line with one path that ends with `.points` becomes the same line with the new ending; the new list has the ending
in its name. -/
theorem C135_lists (stem suffix : String) (entries : List (String × String))
    (h : ∀ e ∈ entries, ¬ Mentions e.1 ".points" ∧ ¬ Mentions e.2 ".points") :
    createFilelist (stem ++ ".txt") suffix (entries.map fun e => e.1 ++ ".points" ++ e.2)
      = (stem ++ suffix ++ ".txt", entries.map fun e => e.1 ++ suffix ++ e.2) := by
  unfold createFilelist
  rw [cutEnd_append 4 _ _ rfl, List.map_map]
  congr 1
  apply List.map_congr_left
  intro e he
  exact strReplace_one _ _ _ _ (by decide) (h e he).1 (h e he).2 (by decide)

/-- **C135, the files.** If the folder holds point clouds with normals, saved as ply files, in sub-folders, then the conversion succeeds; reading the entry `folder/name.npz` of
the new list with the data set's reader returns the points and normals of `folder/name.ply` in single precision, and nothing else is written. -/
theorem C135_files (listdir : String → List String) (ply : String → Option (Dict (List ℚ))) (root pre : String) (cloud : String → List (V3 ℚ) × List (V3 ℚ))
    (hslash : ∀ folder ∈ listdir (root ++ "/" ++ pre ++ ".ply"), '/' ∉ folder.toList ∧ ∀ f ∈ listdir (root ++ "/" ++ pre ++ ".ply/" ++ folder), '/' ∉ f.toList)
    (hfiles : ∀ folder ∈ listdir (root ++ "/" ++ pre ++ ".ply"), ∀ name, name ++ ".ply" ∈ listdir (root ++ "/" ++ pre ++ ".ply/" ++ folder) →
      (cloud (folder ++ "/" ++ name)).2.length = (cloud (folder ++ "/" ++ name)).1.length ∧
      ∃ file, savePoints (cloud (folder ++ "/" ++ name)).1 (some (cloud (folder ++ "/" ++ name)).2) none none = .ok file ∧
        ply (root ++ "/" ++ pre ++ ".ply/" ++ folder ++ "/" ++ name ++ ".ply") = some file) :
    ∃ out, convertPly listdir ply root pre = .ok out ∧
      (∀ n z, (n, z) ∈ out → ∃ folder ∈ listdir (root ++ "/" ++ pre ++ ".ply"), ∃ name, name ++ ".ply" ∈ listdir (root ++ "/" ++ pre ++ ".ply/" ++ folder) ∧
        n = root ++ "/" ++ pre ++ ".npz/" ++ folder ++ "/" ++ name ++ ".npz") ∧
      ∀ folder ∈ listdir (root ++ "/" ++ pre ++ ".ply"), ∀ name, name ++ ".ply" ∈ listdir (root ++ "/" ++ pre ++ ".ply/" ++ folder) →
        completionReadFile ply (fun n => out.lookup n) (root ++ "/" ++ pre ++ ".npz/" ++ folder ++ "/" ++ name ++ ".npz")
          = .ok ((cloud (folder ++ "/" ++ name)).1.map (·.map f32), (cloud (folder ++ "/" ++ name)).2.map (·.map f32)) := by
  have p1 : ∀ suffix : String, pathJoin root (pre ++ suffix) = root ++ "/" ++ pre ++ suffix := by
    intro suffix
    apply String.toList_injective
    simp [pathJoin, String.toList_append]
  have p2 : ∀ folder : String, pathJoin (root ++ "/" ++ pre ++ ".ply") folder = root ++ "/" ++ pre ++ ".ply/" ++ folder := by
    intro folder
    apply String.toList_injective
    simp [pathJoin, String.toList_append]
  have p3 : ∀ folder name : String, pathJoin (root ++ "/" ++ pre ++ ".ply/" ++ folder) (name ++ ".ply") = root ++ "/" ++ pre ++ ".ply/" ++ folder ++ "/" ++ name ++ ".ply" := by
    intro folder name
    apply String.toList_injective
    simp [pathJoin, String.toList_append]
  have p4 : ∀ folder name : String, pathJoin (pathJoin (root ++ "/" ++ pre ++ ".npz") folder) (name ++ ".npz") = root ++ "/" ++ pre ++ ".npz/" ++ folder ++ "/" ++ name ++ ".npz" := by
    intro folder name
    apply String.toList_injective
    simp [pathJoin, String.toList_append]
  let G (folder : String) : List (String × Npz) := ((listdir (root ++ "/" ++ pre ++ ".ply/" ++ folder)).filter (hasSuffix ".ply")).map fun f =>
    (pathJoin (pathJoin (root ++ "/" ++ pre ++ ".npz") folder) (cutEnd 4 f ++ ".npz"),
      (⟨(cloud (folder ++ "/" ++ cutEnd 4 f)).1.map (·.map f32), some ((cloud (folder ++ "/" ++ cutEnd 4 f)).2.map (·.map f32)), none, none⟩ : Npz))
  have hconv : convertPly listdir ply root pre = .ok ((listdir (root ++ "/" ++ pre ++ ".ply")).map G).flatten := by
    unfold convertPly
    simp only [p1, p2]
    rw [mapM_pure _ G]
    · rfl
    · intro folder hfo
      refine mapM_pure _ _ _ ?_
      intro f hf
      obtain ⟨hf1, hf2⟩ := List.mem_filter.1 hf
      obtain ⟨name, rfl⟩ := hasSuffix_split hf2
      obtain ⟨hl, file, s1, s2⟩ := hfiles folder hfo name hf1
      obtain ⟨file', r1, r2⟩ := saved_normals _ _ hl
      rw [s1] at r1
      cases r1
      simp only [p3, s2, r2, bind, Except.bind, cutEnd_append 4 name ".ply" rfl]
      rfl
  refine ⟨_, hconv, ?_, ?_⟩
  · intro n z hm
    obtain ⟨l, hl, hm⟩ := List.mem_flatten.1 hm
    obtain ⟨folder, hfo, rfl⟩ := List.mem_map.1 hl
    obtain ⟨f, hf, e⟩ := List.mem_map.1 hm
    obtain ⟨hf1, hf2⟩ := List.mem_filter.1 hf
    obtain ⟨name, rfl⟩ := hasSuffix_split hf2
    rw [cutEnd_append 4 name ".ply" rfl, p4] at e
    exact ⟨folder, hfo, name, hf1, (Prod.mk.inj e).1.symm⟩
  · intro folder hfo name hname
    have hlook : ((listdir (root ++ "/" ++ pre ++ ".ply")).map G).flatten.lookup (root ++ "/" ++ pre ++ ".npz/" ++ folder ++ "/" ++ name ++ ".npz")
        = some (⟨(cloud (folder ++ "/" ++ name)).1.map (·.map f32), some ((cloud (folder ++ "/" ++ name)).2.map (·.map f32)), none, none⟩ : Npz) := by
      apply lookup_of_mem
      · refine List.mem_flatten.2 ⟨G folder, List.mem_map.2 ⟨folder, hfo, rfl⟩, List.mem_map.2 ⟨name ++ ".ply", List.mem_filter.2 ⟨hname, hasSuffix_append _ _⟩, ?_⟩⟩
        rw [cutEnd_append 4 name ".ply" rfl, p4]
      · intro v' hm
        obtain ⟨l, hl, hm⟩ := List.mem_flatten.1 hm
        obtain ⟨folder', hfo', rfl⟩ := List.mem_map.1 hl
        obtain ⟨f, hf, e⟩ := List.mem_map.1 hm
        obtain ⟨hf1, hf2⟩ := List.mem_filter.1 hf
        obtain ⟨name', rfl⟩ := hasSuffix_split hf2
        rw [cutEnd_append 4 name' ".ply" rfl, ← p4] at e
        obtain ⟨e1, e2⟩ := Prod.mk.inj e
        have sl : ∀ folder ∈ listdir (root ++ "/" ++ pre ++ ".ply"), ∀ name : String, name ++ ".ply" ∈ listdir (root ++ "/" ++ pre ++ ".ply/" ++ folder) →
            '/' ∉ (name ++ ".npz").toList := by
          intro folder hfo name hname hs
          have := (hslash folder hfo).2 _ hname
          rw [String.toList_append, List.mem_append] at this hs
          rcases hs with hs | hs
          · exact this (Or.inl hs)
          · exact absurd hs (by decide)
        obtain ⟨g1, g2⟩ := pathJoin_inj (sl folder' hfo' name' hf1) (sl folder hfo name hname) e1
        obtain ⟨-, rfl⟩ := pathJoin_inj (hslash folder' hfo').1 (hslash folder hfo).1 g1
        have g3 := append_right_cancel' g2
        subst g3
        exact e2.symm
    unfold completionReadFile
    simp only [hasSuffix_append, if_true, hlook]

/-! ### C136 -/

/-- **C136, the images.** For an entry of a data set in a folder `.../points.npz` (or `.ply`), the image is taken from the folder with the same name in `renderings`, with the
random number in two digits. -/
theorem C136_images (filetype loc entry : String) (hf : filetype = "npz" ∨ filetype = "ply") (h1 : ¬ Mentions loc ("points." ++ filetype))
    (h2 : ¬ Mentions entry ("points." ++ filetype)) (rnd : Nat) :
    renderingFile filetype (loc ++ ("points." ++ filetype) ++ entry) rnd = loc ++ "renderings" ++ entry ++ ("/rendering/" ++ twoDigits rnd ++ ".png") := by
  unfold renderingFile
  rw [strReplace_one]
  · rcases hf with rfl | rfl <;> decide
  · exact h1
  · exact h2
  · rcases hf with rfl | rfl <;> decide

/-- The numbers are written as two decimal digits, so that different numbers name different images. -/
theorem C136_digits (n : Nat) (hn : n < 24) : (twoDigits n).toList = [Nat.digitChar (n / 10), Nat.digitChar (n % 10)] ∧
    ∀ m < 24, twoDigits m = twoDigits n → m = n := by
  refine ⟨by simp [twoDigits], ?_⟩
  have : ∀ n < 24, ∀ m < 24, twoDigits m = twoDigits n → m = n := by decide +kernel
  exact this n hn

/-- **C136, the points.** Both file types of a cloud with normals give the same points and normals, in single precision; other types raise ValueError. -/
theorem C136_points (pts nrm : List (V3 ℚ)) (h : nrm.length = pts.length) (file : Dict (List ℚ)) (hf : savePoints pts (some nrm) none none = .ok file) (filename : String)
    (ply : String → Option (Dict (List ℚ))) (npz : String → Option Npz) (h1 : ply (filename ++ ".ply") = some file) (h2 : npz (filename ++ ".npz") = some ⟨pts, some nrm, none, none⟩) :
    readPoints "ply" ply npz filename = .ok (pts.map (·.map f32), nrm.map (·.map f32)) ∧
    readPoints "npz" ply npz filename = .ok (pts.map (·.map f32), nrm.map (·.map f32)) ∧
    ∀ t : String, t ≠ "ply" → t ≠ "npz" → readPoints t ply npz filename = .error .value := by
  obtain ⟨file', r1, r2⟩ := saved_normals _ _ h
  rw [hf] at r1
  cases r1
  refine ⟨?_, ?_, ?_⟩
  · unfold readPoints
    simp only [if_true, h1, r2, bind, Except.bind]
    rfl
  · unfold readPoints
    rw [if_neg (by decide), if_pos rfl, h2]
  · intro t h3 h4
    unfold readPoints
    rw [if_neg h3, if_neg h4]

/-- A list of two meshes, a data folder with one cloud and the folder of the images meet the hypotheses. -/
example : (∀ e ∈ [("02691156/10155655850468db", " 0\n"), ("02691156/1a04e3eab45ca15d", " 0\n")], ¬ Mentions e.1 ".points" ∧ ¬ Mentions e.2 ".points") ∧
    ¬ Mentions "data/ShapeNetV1/" ("points." ++ "npz") ∧
    renderingFile "npz" "data/ShapeNetV1/points.npz/02691156/1a04" 7 = "data/ShapeNetV1/renderings/02691156/1a04/rendering/07.png" := by
  refine ⟨?_, ?_, by decide +kernel⟩
  · simp only [← hasSub_iff]; decide +kernel
  · simp only [← hasSub_iff]; decide +kernel

example : let listdir : String → List String := fun n => if n = "d/shape.ply" then ["02691156"] else if n = "d/shape.ply/02691156" then ["a.ply", "b.txt"] else []
    (∀ folder ∈ listdir ("d" ++ "/" ++ "shape" ++ ".ply"), '/' ∉ folder.toList ∧ ∀ f ∈ listdir ("d" ++ "/" ++ "shape" ++ ".ply/" ++ folder), '/' ∉ f.toList) ∧
    "a" ++ ".ply" ∈ listdir ("d" ++ "/" ++ "shape" ++ ".ply/" ++ "02691156") := by decide +kernel

end Ocnn
