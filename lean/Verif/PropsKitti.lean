import Verif.Kitti
import Verif.TransformLemmas

/-! Theorems about the SemanticKITTI data: C99, C100. -/

namespace Ocnn

namespace Spec

/-- The classes of the benchmark in the order of their indices 1, ..., 19, with the semantic ids of the label files that belong to them: the id
of the class and, where there is one, that of its moving variant. -/
def kittiIds : List (String × List Nat) :=
  [("road", [40]), ("sidewalk", [48]), ("parking", [44]), ("other-ground", [49]), ("building", [50]), ("car", [10, 252]), ("truck", [18, 258]),
   ("bicycle", [11]), ("motorcycle", [15]), ("other-vehicle", [20, 259]), ("vegetation", [70]), ("trunk", [71]), ("terrain", [72]),
   ("person", [30, 254]), ("bicyclist", [31, 253]), ("motorcyclist", [32, 255]), ("fence", [51]), ("pole", [80]), ("traffic-sign", [81])]

/-- The semantic id of a word of a label file: its lower 16 bits.  The upper 16 bits are the number of the instance. -/
def semantic (w : BitVec 32) : Nat := w.toNat % 2 ^ 16

/-- The semantic id belongs to the class with the index `k` (from 1). -/
def InClass (k s : Nat) : Prop := ∃ (j : Nat) (e : String × List Nat), k = j + 1 ∧ kittiIds[j]? = some e ∧ s ∈ e.2

/-- The middle of the bounding box of a scan. -/
structure BoxCentre (pts : List (V3 ℚ)) (ctr : V3 ℚ) : Prop where
  middle : ∀ ax : Points.Axis, ∃ lo ∈ pts, ∃ hi ∈ pts, (∀ v ∈ pts, lo.along ax ≤ v.along ax ∧ v.along ax ≤ hi.along ax) ∧
    ctr.along ax = (lo.along ax + hi.along ax) / 2

end Spec

open Spec

/-! ## C99 -/

theorem semantic_and (w : BitVec 32) : (w &&& 0xFFFF#32).toNat = semantic w := by
  rw [BitVec.toNat_and]
  show w.toNat &&& 65535 = w.toNat % 65536
  exact Nat.and_two_pow_sub_one_eq_mod w.toNat 16

theorem kittiLabelMap_length : kittiLabelMap.length = 260 := by decide +kernel

theorem kittiLabel_eq (w : BitVec 32) : kittiLabel w =
    if semantic w < 260 then .ok (kittiLabelMap.getD (semantic w) 0) else .error .index := by
  unfold kittiLabel getIdx
  rw [semantic_and, kittiLabelMap_length]
  generalize semantic w = s
  unfold normIdx
  by_cases h : s < 260
  · rw [if_pos h, if_pos ⟨by omega, by omega⟩]
    simp only [bind, Except.bind, Int.toNat_natCast, List.getD_eq_getElem?_getD]
    rw [List.getElem?_eq_getElem (by rw [kittiLabelMap_length]; exact h)]
    rfl
  · rw [if_neg h, if_neg (by omega), if_neg (by omega)]
    rfl

/-- The table, checked entry by entry. -/
theorem kittiTable : ∀ s < 260, kittiLabelMap.getD s 0 ≤ 19 ∧ ∀ j < 19, (kittiLabelMap.getD s 0 = j + 1 ↔ s ∈ (kittiIds.getD j ("", [])).2) := by
  decide +kernel

theorem inClass_iff (j s : Nat) (hj : j < 19) : InClass (j + 1) s ↔ s ∈ (kittiIds.getD j ("", [])).2 := by
  have hl : kittiIds.length = 19 := rfl
  have e : kittiIds[j]? = some (kittiIds.getD j ("", [])) := by
    rw [List.getD_eq_getElem?_getD, List.getElem?_eq_getElem (by omega)]
    rfl
  constructor
  · rintro ⟨i, e', h1, h2, h3⟩
    obtain rfl : j = i := by omega
    rw [e] at h2
    cases h2
    exact h3
  · exact fun h => ⟨j, _, rfl, e, h⟩

theorem inClass_le {k s : Nat} (h : InClass k s) : 1 ≤ k ∧ k ≤ 19 := by
  obtain ⟨j, e, rfl, h2, -⟩ := h
  have : j < kittiIds.length := (List.getElem?_eq_some_iff.mp h2).1
  have hl : kittiIds.length = 19 := rfl
  omega

/-- The number of a class whose ids are listed, and 0 for the other ids. -/
theorem kittiEntry (s : Nat) (hs : s < 260) (k : Nat) :
    kittiLabelMap.getD s 0 = k ↔ InClass k s ∨ (k = 0 ∧ ∀ j, ¬ InClass j s) := by
  obtain ⟨h1, h2⟩ := kittiTable s hs
  generalize kittiLabelMap.getD s 0 = m at *
  have h3 : ∀ j, InClass j s → m = j := by
    intro j hj
    obtain ⟨a, b⟩ := inClass_le hj
    obtain ⟨i, rfl⟩ : ∃ i, j = i + 1 := ⟨j - 1, by omega⟩
    exact (h2 i (by omega)).mpr ((inClass_iff i s (by omega)).mp hj)
  constructor
  · rintro rfl
    cases m with
    | zero =>
      refine .inr ⟨rfl, fun j hj => ?_⟩
      have := h3 j hj
      have := inClass_le hj
      omega
    | succ i => exact .inl ((inClass_iff i s (by omega)).mpr ((h2 i (by omega)).mp rfl))
  · rintro (h | ⟨rfl, h⟩)
    · exact h3 k h
    · cases m with
      | zero => rfl
      | succ i => exact absurd ((inClass_iff i s (by omega)).mpr ((h2 i (by omega)).mp rfl)) (h _)

/-- **C99, labels.** A word of a label file gets the index of the class to which its semantic id belongs, 0 if it belongs to none of the nineteen classes;
the instance number in the upper half of the word plays no role. An id above 259 raises IndexError. -/
theorem C99_label (w : BitVec 32) :
    (semantic w < 260 → ∃ k, kittiLabel w = .ok k ∧ k ≤ 19 ∧ ∀ j, k = j ↔ InClass j (semantic w) ∨ (j = 0 ∧ ∀ i, ¬ InClass i (semantic w))) ∧
    (260 ≤ semantic w → kittiLabel w = .error .index) := by
  rw [kittiLabel_eq]
  constructor
  · intro h
    rw [if_pos h]
    exact ⟨_, rfl, (kittiTable _ h).1, kittiEntry _ h⟩
  · intro h
    rw [if_neg (by omega)]

/-- **C99, instances.** Words that differ in the instance number only get the same label. -/
theorem C99_instances (w w' : BitVec 32) (h : semantic w = semantic w') : kittiLabel w = kittiLabel w' := by
  rw [kittiLabel_eq, kittiLabel_eq, h]

/-- **C99, names.** A named id belongs to a class exactly if its name is that of the class or of its moving variant. -/
theorem C99_names : kittiIds.map Prod.fst = kittiKept ∧
    ∀ p ∈ kittiNames, ∀ e ∈ kittiIds, (p.1 ∈ e.2 ↔ p.2 = e.1 ∨ p.2 = "moving-" ++ e.1) := by
  constructor <;> decide +kernel

/-- A moving car of instance 40000 (the word is negative as a 32-bit integer) is a car, class 6. -/
example : kittiLabel (BitVec.ofInt 32 (40000 * 65536 + 252 - 2 ^ 32)) = .ok 6 ∧ InClass 6 252 ∧ kittiLabel 256#32 = .ok 0 ∧
    kittiLabel 300#32 = .error .index := by
  refine ⟨by decide +kernel, ⟨5, ("car", [10, 252]), rfl, rfl, by simp⟩, by decide +kernel, by decide +kernel⟩

theorem mapM_labels (ls : List (BitVec 32)) (h : ∀ w ∈ ls, semantic w < 260) :
    ls.mapM kittiLabel = .ok (ls.map fun w => kittiLabelMap.getD (semantic w) 0) := by
  induction ls with
  | nil => rfl
  | cons w ls ih =>
    rw [List.mapM_cons, ih fun v hv => h v (by simp [hv]), kittiLabel_eq, if_pos (h w (by simp))]
    rfl

/-- The coordinates of a point relative to a centre, in units of 100 metres. -/
def Spec.centred (ctr v : V3 ℚ) : V3 ℚ := ⟨(v.x - ctr.x) / 100, (v.y - ctr.y) / 100, (v.z - ctr.z) / 100⟩

theorem kittiPreprocess_ok (rows : List (V3 ℚ × ℚ)) (labels : List (BitVec 32)) (hne : rows ≠ []) (hl : labels.length = rows.length)
    (hid : ∀ w ∈ labels, semantic w < 260) :
    ∃ ctr, BoxCentre (rows.map Prod.fst) ctr ∧ kittiPreprocess rows labels = .ok
      ⟨rows.map fun p => centred ctr p.1, none, some (rows.map Prod.snd),
        some (labels.map fun w => ((kittiLabelMap.getD (semantic w) 0 : Nat) : Int)), none, 1, none, 0⟩ := by
  obtain ⟨p, ps, rfl⟩ := List.exists_cons_of_ne_nil hne
  have hmin := fun a => fold_min_le (ps.map Prod.fst) p.1 a
  have hmax := fun a => fold_max_ge (ps.map Prod.fst) p.1 a
  have hmin' := fun a => fold_min_mem (ps.map Prod.fst) p.1 a
  have hmax' := fun a => fold_max_mem (ps.map Prod.fst) p.1 a
  unfold kittiPreprocess
  simp only [List.map_cons]
  generalize (ps.map Prod.fst).foldl (fun a b => (⟨min a.x b.x, min a.y b.y, min a.z b.z⟩ : V3 ℚ)) p.1 = lo at *
  generalize (ps.map Prod.fst).foldl (fun a b => (⟨max a.x b.x, max a.y b.y, max a.z b.z⟩ : V3 ℚ)) p.1 = hi at *
  refine ⟨(lo + hi).map (· / 2), ⟨fun ax => ?_⟩, ?_⟩
  · obtain ⟨u, hu, e1⟩ := hmin' ax
    obtain ⟨v, hv, e2⟩ := hmax' ax
    refine ⟨u, hu, v, hv, fun w hw => ⟨by rw [← e1]; exact hmin ax w hw, by rw [← e2]; exact hmax ax w hw⟩, ?_⟩
    rw [← e1, ← e2]
    cases ax <;> rfl
  · simp only [bind, Except.bind, mapM_labels labels hid]
    simp only [Points.init, pyAssert, List.length_cons, List.length_map, hl, if_true, bind, Except.bind, pure, Except.pure, List.map_map]
    rfl

/-- **C99, points.** A scan with a known semantic id per point is prepared without exception.  The points are moved by the transform from their positions relative to the
middle of the box of the scan, in units of 100 metres; exactly those that end strictly inside `(-0.99, 0.99)³` are kept, in order, each with its
intensity and the index of its class. -/
theorem C99_points (rt cosF sinF : ℚ → ℚ) (t : Transform) (r : Drawn) (hs : Sensible t) (hr : InRanges t r) (rows : List (V3 ℚ × ℚ))
    (labels : List (BitVec 32)) (hne : rows ≠ []) (hl : labels.length = rows.length) (hid : ∀ w ∈ labels, semantic w < 260) :
    ∃ (ctr a : V3 ℚ) (q : Points ℚ ℚ Int) (mask : List Bool) (cls : List Nat),
      BoxCentre (rows.map Prod.fst) ctr ∧ t.rndAngle r = .ok a ∧ kittiPrepare rt cosF sinF t r rows labels = .ok (q, mask) ∧
      mask.length = rows.length ∧
      (∀ (i : Nat) (p : V3 ℚ × ℚ), rows[i]? = some p → (mask[i]? = some true ↔ ∀ ax : Points.Axis,
        -0.99 < (placed t r cosF sinF a (centred ctr p.1)).along ax ∧ (placed t r cosF sinF a (centred ctr p.1)).along ax < 0.99)) ∧
      q.points = rowsAt (rows.map fun p => placed t r cosF sinF a (centred ctr p.1)) (positions mask) ∧
      q.features = some (rowsAt (rows.map Prod.snd) (positions mask)) ∧
      q.labels = some (rowsAt (cls.map Int.ofNat) (positions mask)) ∧ cls.length = rows.length ∧
      (∀ (i : Nat) (w : BitVec 32), labels[i]? = some w → ∃ k, cls[i]? = some k ∧ k ≤ 19 ∧
        ∀ j, k = j ↔ InClass j (semantic w) ∨ (j = 0 ∧ ∀ m, ¬ InClass m (semantic w))) ∧
      q.normals = none ∧ q.batchId = none ∧ q.batchSize = 1 ∧ Aligned q := by
  obtain ⟨ctr, h1, h2⟩ := kittiPreprocess_ok rows labels hne hl hid
  obtain ⟨a, q, mask, b1, b2, b3, b4, b5, b6, b7, b8, b9, b10, b11, -⟩ := transform_any rt cosF sinF t r hs hr
    (⟨rows.map fun p => centred ctr p.1, none, some (rows.map Prod.snd),
        some (labels.map fun w => ((kittiLabelMap.getD (semantic w) 0 : Nat) : Int)), none, 1, none, 0⟩ : Points ℚ ℚ Int)
    (by
      constructor
      · intro n h; cases h
      · intro n h; cases h; simp
      · intro n h; cases h; simp [hl]
      · intro n h; cases h)
  refine ⟨ctr, a, q, mask, labels.map fun w => kittiLabelMap.getD (semantic w) 0, h1, b1, ?_, by simpa using b3, ?_, ?_, b7, ?_, by simp [hl], ?_, ?_, b9, b10, b11⟩
  · unfold kittiPrepare
    rw [h2]
    exact b2
  · intro i p hp
    exact b4 i (centred ctr p.1) (by simp [hp])
  · rw [b5, List.map_map]
    rfl
  · rw [b8, List.map_map]
    rfl
  · intro i w hw
    have hlt := hid w (List.mem_of_getElem? hw)
    exact ⟨_, by rw [List.getElem?_map, hw]; rfl, (kittiTable _ hlt).1, kittiEntry _ hlt⟩
  · exact Option.isSome_eq_false_iff.mp (by rw [b6]; rfl) |> Option.isNone_iff_eq_none.mp

/-- **C99, range.** Without augmentation exactly the points less than 99 metres from the middle of the box along every axis are kept. -/
theorem C99_range (t : Transform) (r : Drawn) (cosF sinF : ℚ → ℚ) (a ctr v : V3 ℚ) (hd : t.distort = false) :
    (∀ ax : Points.Axis, -0.99 < (placed t r cosF sinF a (centred ctr v)).along ax ∧ (placed t r cosF sinF a (centred ctr v)).along ax < 0.99) ↔
      ∀ ax : Points.Axis, |v.along ax - ctr.along ax| < 99 := by
  have e : placed t r cosF sinF a = id := by unfold placed; rw [hd]; rfl
  rw [e]
  refine forall_congr' fun ax => ?_
  have h : (id (centred ctr v)).along ax = (v.along ax - ctr.along ax) / 100 := by cases ax <;> rfl
  rw [h, abs_lt, lt_div_iff₀ (by norm_num), div_lt_iff₀ (by norm_num)]
  norm_num

/-- **C99, refused.** An empty scan, an unknown semantic id and a number of labels that differs from that of the points raise. -/
theorem C99_refused (rt cosF sinF : ℚ → ℚ) (t : Transform) (r : Drawn) (rows : List (V3 ℚ × ℚ)) (labels : List (BitVec 32)) :
    (rows = [] → kittiPrepare rt cosF sinF t r rows labels = .error .value) ∧
    (rows ≠ [] → (∃ w ∈ labels, 260 ≤ semantic w) → kittiPrepare rt cosF sinF t r rows labels = .error .index) ∧
    (rows ≠ [] → (∀ w ∈ labels, semantic w < 260) → labels.length ≠ rows.length →
      kittiPrepare rt cosF sinF t r rows labels = .error .assertion) := by
  refine ⟨?_, ?_, ?_⟩
  · rintro rfl
    rfl
  · intro hne hw
    have hm : labels.mapM kittiLabel = .error .index := by
      clear hne
      induction labels with
      | nil => obtain ⟨w, h, -⟩ := hw; cases h
      | cons v vs ih =>
        rw [List.mapM_cons, kittiLabel_eq]
        by_cases hv : semantic v < 260
        · rw [if_pos hv]
          obtain ⟨w, h, h'⟩ := hw
          rcases List.mem_cons.mp h with rfl | h
          · omega
          · simp only [bind, Except.bind]
            rw [ih ⟨w, h, h'⟩]
        · rw [if_neg hv]
          rfl
    obtain ⟨p, ps, rfl⟩ := List.exists_cons_of_ne_nil hne
    unfold kittiPrepare kittiPreprocess
    simp only [List.map_cons, bind, Except.bind, hm]
  · intro hne hid hl
    obtain ⟨p, ps, rfl⟩ := List.exists_cons_of_ne_nil hne
    unfold kittiPrepare kittiPreprocess
    simp only [List.map_cons, bind, Except.bind, mapM_labels labels hid]
    simp only [Points.init, pyAssert, List.length_cons, List.length_map, if_true, bind, Except.bind, pure, Except.pure] at hl ⊢
    rw [if_neg (by simpa using hl)]

/-- A scan of three points; the transform of `exampleTransform` without augmentation drops the first two. -/
example : (∀ w ∈ [252#32, 65546#32, 99#32], semantic w < 260) ∧
    ((kittiPrepare id id id { exampleTransform with distort := false } exampleDrawn
      [(⟨-150, 0, 0⟩, 1 / 2), (⟨150, 10, 4⟩, 1 / 4), (⟨20, 5, 1⟩, 1)] [252#32, 65546#32, 10#32]).toOption.map
      fun x => (x.1.points, x.1.features, x.1.labels, x.2)) = some ([⟨1 / 5, 0, -1 / 100⟩], some [1], some [6], [false, false, true]) := by
  refine ⟨?_, by decide +kernel⟩
  intro w hw
  simp only [List.mem_cons, List.not_mem_nil, or_false] at hw
  rcases hw with rfl | rfl | rfl <;> decide +kernel

/-! ## C100 -/

theorem isPrefixOf_sep (c0 : Char) (old : List Char) (h : c0 ∉ old) (a b : List Char) : old.isPrefixOf (a ++ c0 :: b) = old.isPrefixOf a := by
  induction old generalizing a with
  | nil => simp [List.isPrefixOf]
  | cons c cs ih =>
    have hc : c ≠ c0 := fun e => h (by rw [e]; simp)
    cases a with
    | nil => simp [List.isPrefixOf, hc]
    | cons d a => simp only [List.cons_append, List.isPrefixOf, ih (fun e => h (by simp [e])) a]

/-- A word without the separator is replaced in the parts of a name one by one. -/
theorem replaceAux_sep (c0 : Char) (old new : List Char) (hne : old ≠ []) (h : c0 ∉ old) (a b : List Char) (n : Nat) (hn : n ≤ a.length) :
    replaceAux old new n (a ++ c0 :: b) = replaceAux old new n a ++ c0 :: replaceAux old new 0 b := by
  induction a generalizing n with
  | nil =>
    obtain rfl : n = 0 := by simpa using hn
    have e : old.isPrefixOf (c0 :: b) = old.isPrefixOf [] := isPrefixOf_sep c0 old h [] b
    simp only [List.nil_append, replaceAux]
    cases old with
    | nil => exact absurd rfl hne
    | cons c cs => rw [e]; simp [List.isPrefixOf]
  | cons c a ih =>
    cases n with
    | succ n => simpa [replaceAux] using ih n (by simpa using hn)
    | zero =>
      have e := isPrefixOf_sep c0 old h (c :: a) b
      rw [List.cons_append] at e
      simp only [List.cons_append, replaceAux, e]
      split
      · rename_i hp
        have := (List.isPrefixOf_iff_prefix.mp hp).length_le
        rw [ih _ (by simp at this; omega), List.append_assoc]
      · rw [ih 0 (by simp), List.cons_append]

/-- Where the word does not occur, nothing is replaced. -/
theorem replaceAux_absent (old new : List Char) (s : List Char) (h : ¬ old <:+: s) : replaceAux old new 0 s = s := by
  induction s with
  | nil => rfl
  | cons c s ih =>
    rw [replaceAux, if_neg, ih fun h' => h (h'.trans (List.suffix_cons c s).isInfix)]
    intro hp
    exact h (List.isPrefixOf_iff_prefix.mp hp).isInfix

theorem replaceAux_dot (scan new : List Char) (h : '.' ∉ scan) :
    replaceAux ['.', 'b', 'i', 'n'] new 0 (scan ++ ['.', 'b', 'i', 'n']) = scan ++ new := by
  induction scan with
  | nil => simp [replaceAux, List.isPrefixOf]
  | cons c s ih =>
    have hc : '.' ≠ c := fun e => h (by rw [e]; simp)
    rw [List.cons_append, replaceAux, if_neg (by simp [List.isPrefixOf, hc]), ih fun e => h (by simp [e]), List.cons_append]

theorem kittiLabelFile_eq (dir scan : String) (hd : ¬ Mentions dir "velodyne") (hd' : ¬ Mentions dir ".bin")
    (hs : ¬ Mentions scan "velodyne") (hs' : '.' ∉ scan.toList) :
    kittiLabelFile (dir ++ "/velodyne/" ++ scan ++ ".bin") = dir ++ "/labels/" ++ scan ++ ".label" := by
  unfold kittiLabelFile strReplace
  apply String.toList_inj.mp
  simp only [String.toList_append, String.toList_ofList]
  have w1 : "velodyne".toList = ['v', 'e', 'l', 'o', 'd', 'y', 'n', 'e'] := by decide +kernel
  have w2 : "/velodyne/".toList = '/' :: (['v', 'e', 'l', 'o', 'd', 'y', 'n', 'e'] ++ ['/']) := by decide +kernel
  have w3 : ".bin".toList = ['.', 'b', 'i', 'n'] := by decide +kernel
  have w4 : "labels".toList = ['l', 'a', 'b', 'e', 'l', 's'] := by decide +kernel
  have w5 : "/labels/".toList = '/' :: (['l', 'a', 'b', 'e', 'l', 's'] ++ ['/']) := by decide +kernel
  unfold Mentions at hd hd' hs
  rw [w1] at hd hs
  rw [w3] at hd'
  rw [w1, w2, w3, w4, w5]
  generalize ".label".toList = lab
  generalize dir.toList = D at *
  generalize scan.toList = S at *
  have e1 : D ++ '/' :: (['v', 'e', 'l', 'o', 'd', 'y', 'n', 'e'] ++ ['/']) ++ S ++ ['.', 'b', 'i', 'n'] =
      D ++ '/' :: (['v', 'e', 'l', 'o', 'd', 'y', 'n', 'e'] ++ '/' :: (S ++ '.' :: ['b', 'i', 'n'])) := by simp
  have e2 : replaceAux ['v', 'e', 'l', 'o', 'd', 'y', 'n', 'e'] ['l', 'a', 'b', 'e', 'l', 's'] 0 ['v', 'e', 'l', 'o', 'd', 'y', 'n', 'e'] =
      ['l', 'a', 'b', 'e', 'l', 's'] := by decide +kernel
  have e3 : replaceAux ['v', 'e', 'l', 'o', 'd', 'y', 'n', 'e'] ['l', 'a', 'b', 'e', 'l', 's'] 0 ['b', 'i', 'n'] = ['b', 'i', 'n'] := by decide +kernel
  have e4 : replaceAux ['.', 'b', 'i', 'n'] lab 0 ['l', 'a', 'b', 'e', 'l', 's'] = ['l', 'a', 'b', 'e', 'l', 's'] := by
    simp [replaceAux, List.isPrefixOf]
  have e5 : replaceAux ['v', 'e', 'l', 'o', 'd', 'y', 'n', 'e'] ['l', 'a', 'b', 'e', 'l', 's'] 0
      (D ++ '/' :: (['v', 'e', 'l', 'o', 'd', 'y', 'n', 'e'] ++ '/' :: (S ++ '.' :: ['b', 'i', 'n']))) =
      D ++ '/' :: (['l', 'a', 'b', 'e', 'l', 's'] ++ '/' :: (S ++ ['.', 'b', 'i', 'n'])) := by
    rw [replaceAux_sep '/' _ _ (by simp) (by decide) _ _ 0 (by simp), replaceAux_absent _ _ D hd,
      replaceAux_sep '/' _ _ (by simp) (by decide) _ _ 0 (by simp), replaceAux_sep '.' _ _ (by simp) (by decide) S ['b', 'i', 'n'] 0 (by simp),
      replaceAux_absent _ _ S hs, e2, e3]
  rw [e1, e5, replaceAux_sep '/' _ _ (by simp) (by decide) _ _ 0 (by simp), replaceAux_absent _ _ D hd',
    replaceAux_sep '/' _ _ (by simp) (by decide) _ _ 0 (by simp), e4, replaceAux_dot S lab hs']
  simp

/-- **C100.** A scan `<dir>/velodyne/<scan>.bin` is read with the labels of the file `<dir>/labels/<scan>.label` if there is one; without it all points are
unlabelled (class 0). The directory must not contain `velodyne` or `.bin`, the name of the scan neither `velodyne` nor a dot.
Missing: other directories, for which the property fails (`C100_violated`). -/
theorem C100_partial (dir scan : String) (hd : ¬ Mentions dir "velodyne") (hd' : ¬ Mentions dir ".bin")
    (hs : ¬ Mentions scan "velodyne") (hs' : '.' ∉ scan.toList) (files : String → Option (List (BitVec 32))) (npt : Nat) :
    (∀ labels, files (dir ++ "/labels/" ++ scan ++ ".label") = some labels →
      kittiReadLabels files npt (dir ++ "/velodyne/" ++ scan ++ ".bin") = labels) ∧
    (files (dir ++ "/labels/" ++ scan ++ ".label") = none →
      (kittiReadLabels files npt (dir ++ "/velodyne/" ++ scan ++ ".bin")).mapM kittiLabel = .ok (List.replicate npt 0)) := by
  unfold kittiReadLabels
  rw [kittiLabelFile_eq dir scan hd hd' hs hs']
  constructor
  · intro labels h
    rw [h]
  · intro h
    rw [h]
    have h0 : semantic 0#32 = 0 := rfl
    show List.mapM kittiLabel (List.replicate npt 0#32) = _
    rw [mapM_labels _ (by intro w hw; rw [List.eq_of_mem_replicate hw]; decide +kernel), List.map_replicate, h0]
    have : kittiLabelMap.getD 0 0 = 0 := by decide +kernel
    rw [this]

example : ¬ Mentions "data/SemanticKITTI/dataset/sequences/08" "velodyne" ∧ ¬ Mentions "data/SemanticKITTI/dataset/sequences/08" ".bin" ∧
    ¬ Mentions "000123" "velodyne" ∧ '.' ∉ "000123".toList := by
  simp only [← hasSub_iff]
  decide +kernel

/-- **C100 is violated** by directories that contain the word `velodyne`: there is a label file, and the points are silently unlabelled. -/
theorem C100_violated : ∃ (dir scan : String) (files : String → Option (List (BitVec 32))) (labels : List (BitVec 32)),
    files (dir ++ "/labels/" ++ scan ++ ".label") = some labels ∧ labels.mapM kittiLabel = .ok [6, 1] ∧
    (kittiReadLabels files 2 (dir ++ "/velodyne/" ++ scan ++ ".bin")).mapM kittiLabel = .ok [0, 0] := by
  refine ⟨"/data/velodyne_scans/sequences/08", "000123",
    fun f => if f = "/data/velodyne_scans/sequences/08/labels/000123.label" then some [10#32, 40#32] else none, [10#32, 40#32], ?_, ?_, ?_⟩ <;>
  decide +kernel

end Ocnn
