import Verif.Saving
import Verif.PropsCloudFiles
import Verif.PropsPoints
import Verif.PropsBuild
import Verif.PropsIO
import Verif.ConvSetup

/-! Properties C122 (saving point clouds) and C123 (the example octree). -/

namespace Ocnn
open Spec

namespace Spec

/-- The documented letters of `Points.save` with the names under which the attributes are saved, and the rows of the
attributes of a point cloud. -/
def attributes (p : Points ℚ (List ℚ) (List ℚ)) : List (Char × String × Option (List (List ℚ))) :=
  [('P', "points", some (p.points.map fun v => [v.x, v.y, v.z])),
   ('N', "normals", p.normals.map fun l => l.map fun v => [v.x, v.y, v.z]),
   ('F', "features", p.features),
   ('L', "labels", p.labels),
   ('B', "batch_id", p.batchId.map fun l => l.map fun b : Int => [(b : ℚ)])]

/-- A documented letter, in upper or lower case. -/
def Letter (c : Char) : Prop := c ∈ ['P', 'N', 'F', 'L', 'B', 'p', 'n', 'f', 'l', 'b']

instance (c : Char) : Decidable (Letter c) := by unfold Letter; infer_instance

/-- The saved rows of the attribute that a letter stands for. -/
def rowsFor (p : Points ℚ (List ℚ) (List ℚ)) (c : Char) : Option (List (List ℚ)) :=
  ((attributes p).find? fun e => e.1 = c.toUpper).bind fun e => e.2.2

end Spec

/-! ### the loop over the letters -/

/-- the name of a letter -/
def nameFor : Char → String
  | 'P' => "points"
  | 'N' => "normals"
  | 'F' => "features"
  | 'L' => "labels"
  | _ => "batch_id"

theorem saveEntry_ok (p : Points ℚ (List ℚ) (List ℚ)) (c : Char) (h : Letter c) :
    saveEntry p c.toUpper = .ok (nameFor c.toUpper, rowsFor p c) := by
  unfold Letter at h
  simp only [List.mem_cons, List.not_mem_nil, or_false] at h
  rcases h with rfl | rfl | rfl | rfl | rfl | rfl | rfl | rfl | rfl | rfl <;> rfl

theorem toUpper_letter (c : Char) (h : c.toUpper ∈ ['P', 'N', 'F', 'L', 'B']) : Letter c := by
  have key : ∀ up low : Char, 65 ≤ up.toNat ∧ up.toNat ≤ 90 → low.toNat = up.toNat + 32 → c.toUpper = up → c = up ∨ c = low :=
    fun up low h1 h2 h3 => (toUpper_eq c up low h1 h2).mp h3
  unfold Letter
  simp only [List.mem_cons, List.not_mem_nil, or_false] at h ⊢
  rcases h with h | h | h | h | h
  · rcases key 'P' 'p' (by decide) (by decide) h with e | e <;> simp [e]
  · rcases key 'N' 'n' (by decide) (by decide) h with e | e <;> simp [e]
  · rcases key 'F' 'f' (by decide) (by decide) h with e | e <;> simp [e]
  · rcases key 'L' 'l' (by decide) (by decide) h with e | e <;> simp [e]
  · rcases key 'B' 'b' (by decide) (by decide) h with e | e <;> simp [e]

theorem saveEntry_bad (p : Points ℚ (List ℚ) (List ℚ)) (c : Char) (h : ¬ Letter c) : saveEntry p c.toUpper = .error .key := by
  have h1 : c.toUpper ∉ ['P', 'N', 'F', 'L', 'B'] := fun h2 => h (toUpper_letter c h2)
  simp only [List.mem_cons, List.not_mem_nil, or_false, not_or] at h1
  generalize c.toUpper = u at h1
  unfold saveEntry
  split <;> first | rfl | (exfalso; simp_all)

/-- the entries of the requested attributes that the cloud has -/
def wanted (p : Points ℚ (List ℚ) (List ℚ)) (info : String) : List (String × List (List ℚ)) :=
  info.toList.filterMap fun c => (rowsFor p c).map fun rows => (nameFor c.toUpper, rows)

theorem save_entries (p : Points ℚ (List ℚ) (List ℚ)) (info : String) (h : ∀ c ∈ info.toList, Letter c) :
    (info.toList.map Char.toUpper).mapM (saveEntry p) = .ok (info.toList.map fun c => (nameFor c.toUpper, rowsFor p c)) := by
  have : (info.toList.map Char.toUpper).mapM (saveEntry p) = info.toList.mapM fun c => saveEntry p c.toUpper := by
    generalize info.toList = l
    induction l with
    | nil => rfl
    | cons a l ih => simp only [List.map_cons, List.mapM_cons, ih]
  rw [this]
  exact mapM_pure _ _ _ fun c hc => saveEntry_ok p c (h c hc)

/-! ### the dictionary -/

theorem lookup_set {α : Type} (d : Dict α) (k k' : String) (v : α) :
    List.lookup k' (Dict.set d k v) = if k' = k then some v else List.lookup k' d := by
  induction d with
  | nil =>
    simp only [Dict.set, List.lookup_cons, List.lookup_nil]
    by_cases e : k' = k
    · simp [e]
    · simp [e, beq_eq_false_iff_ne.mpr e]
  | cons a d ih =>
    obtain ⟨k0, w⟩ := a
    unfold Dict.set
    by_cases e0 : k0 = k
    · rw [if_pos e0]
      subst e0
      by_cases e : k' = k0
      · simp [List.lookup_cons, e]
      · simp [List.lookup_cons, e, beq_eq_false_iff_ne.mpr e]
    · rw [if_neg e0, List.lookup_cons, List.lookup_cons, ih]
      by_cases e : k' = k0
      · subst e
        simp [e0]
      · simp only [beq_eq_false_iff_ne.mpr e]

theorem lookup_foldl {α : Type} (l : List (String × α)) (d : Dict α) (k : String) (v : Option α)
    (h : ∀ e ∈ l, e.1 = k → v = some e.2) :
    List.lookup k (l.foldl (fun d e => Dict.set d e.1 e.2) d) = if k ∈ l.map Prod.fst then v else List.lookup k d := by
  induction l generalizing d with
  | nil => simp
  | cons a l ih =>
    rw [List.foldl_cons, ih _ (fun e he => h e (List.mem_cons_of_mem _ he)), lookup_set]
    by_cases h1 : k ∈ l.map Prod.fst
    · simp [h1]
    · by_cases h2 : k = a.1
      · rw [if_neg h1, if_pos h2, if_pos (by simp [h2]), h a (by simp) h2.symm]
      · rw [if_neg h1, if_neg h2, if_neg (by simp only [List.map_cons, List.mem_cons, not_or]; exact ⟨h2, h1⟩)]

/-- C122, npz: for any sequence of documented letters the saved file has the array of each attribute that is requested
and present, under its name, with exactly the rows of the cloud, and no others. -/
theorem C122_npz (rnd : ℚ → ℚ) (p : Points ℚ (List ℚ) (List ℚ)) (stem info : String) (h : ∀ c ∈ info.toList, Letter c) :
    ∃ arrays, p.save rnd (stem ++ ".npz") info = .ok (.npz (stem ++ ".npz") arrays) ∧
      (∀ e ∈ attributes p, List.lookup e.2.1 arrays = if ∃ c ∈ info.toList, c.toUpper = e.1 then e.2.2 else none) ∧
      ∀ name, name ∉ (attributes p).map (fun e => e.2.1) → List.lookup name arrays = none := by
  have hsuf : hasSuffix "npz" (stem ++ ".npz") = true := by
    unfold hasSuffix
    rw [List.isSuffixOf_iff_suffix, String.toList_append]
    exact ⟨stem.toList ++ ['.'], by simp [show (".npz" : String).toList = ['.', 'n', 'p', 'z'] from by decide, show ("npz" : String).toList = ['n', 'p', 'z'] from by decide]⟩
  have hsuf' : hasSuffix ".npz" (stem ++ ".npz") = true := by
    unfold hasSuffix
    rw [List.isSuffixOf_iff_suffix, String.toList_append]
    exact ⟨stem.toList, rfl⟩
  refine ⟨(wanted p info).foldl (fun d e => Dict.set d e.1 e.2) [], ?_, ?_, ?_⟩
  · unfold Points.save
    rw [save_entries p info h]
    simp only [bind, Except.bind, pure, Except.pure]
    rw [if_pos hsuf, if_pos hsuf', wanted, List.filterMap_map]
    rfl
  · have hname : ∀ c, Letter c → ∀ e ∈ attributes p, (nameFor c.toUpper = e.2.1 ↔ c.toUpper = e.1) ∧ (c.toUpper = e.1 → rowsFor p c = e.2.2) := by
      intro c hc e he
      unfold Letter at hc
      simp only [List.mem_cons, List.not_mem_nil, or_false] at hc
      unfold attributes at he
      simp only [List.mem_cons, List.not_mem_nil, or_false] at he
      rcases hc with rfl | rfl | rfl | rfl | rfl | rfl | rfl | rfl | rfl | rfl <;>
        rcases he with rfl | rfl | rfl | rfl | rfl <;>
        first
          | exact ⟨⟨fun _ => by dsimp only; decide, fun _ => by dsimp only; decide⟩, fun _ => rfl⟩
          | exact ⟨⟨fun h => absurd h (by dsimp only; decide), fun h => absurd h (by dsimp only; decide)⟩, fun h => absurd h (by dsimp only; decide)⟩
    intro e he
    rw [lookup_foldl (wanted p info) [] e.2.1 e.2.2]
    · by_cases hex : ∃ c ∈ info.toList, c.toUpper = e.1
      · rw [if_pos hex]
        obtain ⟨c, hc, hce⟩ := hex
        cases hv : e.2.2 with
        | none => simp
        | some rows =>
          rw [if_pos]
          rw [List.mem_map]
          refine ⟨(nameFor c.toUpper, rows), ?_, ((hname c (h c hc) e he).1).mpr hce⟩
          unfold wanted
          rw [List.mem_filterMap]
          exact ⟨c, hc, by rw [(hname c (h c hc) e he).2 hce, hv]; rfl⟩
      · rw [if_neg hex, if_neg]
        · rfl
        · intro hm
          obtain ⟨x, hx, hx'⟩ := List.mem_map.mp hm
          unfold wanted at hx
          obtain ⟨c, hc, hcx⟩ := List.mem_filterMap.mp hx
          obtain ⟨rows, _, rfl⟩ := Option.map_eq_some_iff.mp hcx
          exact hex ⟨c, hc, ((hname c (h c hc) e he).1).mp hx'⟩
    · intro x hx hx'
      unfold wanted at hx
      obtain ⟨c, hc, hcx⟩ := List.mem_filterMap.mp hx
      obtain ⟨rows, hrows, rfl⟩ := Option.map_eq_some_iff.mp hcx
      have := hname c (h c hc) e he
      rw [← this.2 (this.1.mp hx'), hrows]
  · intro name hn
    rw [lookup_foldl (wanted p info) [] name none]
    · simp
    · intro x hx hx'
      exfalso
      unfold wanted at hx
      obtain ⟨c, hc, hcx⟩ := List.mem_filterMap.mp hx
      obtain ⟨rows, hrows, rfl⟩ := Option.map_eq_some_iff.mp hcx
      apply hn
      rw [← hx']
      have hc := h c hc
      unfold Letter at hc
      simp only [List.mem_cons, List.not_mem_nil, or_false] at hc
      unfold attributes
      rcases hc with rfl | rfl | rfl | rfl | rfl | rfl | rfl | rfl | rfl | rfl <;> (dsimp only [List.map]; decide)

/-! ### text files -/

theorem npConcat_ok (n : Nat) (ts : List (List (List ℚ))) (hne : ts ≠ []) (h : ∀ t ∈ ts, t.length = n) :
    npConcat ts = .ok ((List.range n).map fun i => ts.flatMap fun t => t.getD i []) := by
  induction ts with
  | nil => exact absurd rfl hne
  | cons a rest ih =>
    have ha := h a (by simp)
    have hrow : a = (List.range n).map fun i => a.getD i [] := by
      apply List.ext_getElem
      · simp [ha]
      · intro i h1 h2
        simp [List.getD_eq_getElem?_getD, List.getElem?_eq_getElem h1]
    cases rest with
    | nil =>
      simp only [npConcat, List.flatMap_cons, List.flatMap_nil, List.append_nil]
      rw [← hrow]
    | cons b rest =>
      rw [npConcat, ih (by simp) (fun t ht => h t (List.mem_cons_of_mem _ ht))]
      · simp only [bind, Except.bind]
        rw [if_pos (by simp [ha])]
        congr 1
        conv_lhs => rw [hrow]
        rw [List.zipWith_map_left, List.zipWith_map_right, List.zipWith_self]
        simp
      · simp

/-- C122, xyz: the text file has one line per point, made of the requested attributes that are present, in the order of
the letters, each number rounded. -/
theorem C122_xyz (rnd : ℚ → ℚ) (p : Points ℚ (List ℚ) (List ℚ)) (ha : Aligned p) (stem info : String) (h : ∀ c ∈ info.toList, Letter c)
    (hne : ∃ c ∈ info.toList, (rowsFor p c).isSome) :
    p.save rnd (stem ++ ".xyz") info = .ok (.xyz (stem ++ ".xyz")
      ((List.range p.points.length).map fun i => (info.toList.flatMap fun c => ((rowsFor p c).bind fun rows => rows[i]?).getD []).map rnd)) := by
  have hsuf : hasSuffix "npz" (stem ++ ".xyz") = false := by
    unfold hasSuffix
    rw [Bool.eq_false_iff]
    intro hh
    rw [List.isSuffixOf_iff_suffix, String.toList_append] at hh
    have h2 : (".xyz" : String).toList.length ≥ ("npz" : String).toList.length := by decide
    have := List.suffix_of_suffix_length_le hh (List.suffix_append stem.toList (".xyz" : String).toList) h2
    revert this
    decide
  have hsuf' : hasSuffix "xyz" (stem ++ ".xyz") = true := by
    unfold hasSuffix
    rw [List.isSuffixOf_iff_suffix, String.toList_append]
    exact ⟨stem.toList ++ ['.'], by simp [show (".xyz" : String).toList = ['.', 'x', 'y', 'z'] from by decide, show ("xyz" : String).toList = ['x', 'y', 'z'] from by decide]⟩
  have hrows : ∀ c rows, rowsFor p c = some rows → rows.length = p.points.length := by
    intro c rows hr
    unfold rowsFor at hr
    obtain ⟨e, he, her⟩ := Option.bind_eq_some_iff.mp hr
    have hm := List.mem_of_find?_eq_some he
    unfold attributes at hm
    simp only [List.mem_cons, List.not_mem_nil, or_false] at hm
    rcases hm with rfl | rfl | rfl | rfl | rfl
    · simp only [Option.some.injEq] at her
      simp [← her]
    · obtain ⟨l, hl, rfl⟩ := Option.map_eq_some_iff.mp her
      simp [ha.normals l hl]
    · exact ha.features rows her
    · exact ha.labels rows her
    · obtain ⟨l, hl, rfl⟩ := Option.map_eq_some_iff.mp her
      simp [ha.ids l hl]
  unfold Points.save
  rw [save_entries p info h]
  simp only [bind, Except.bind, pure, Except.pure]
  rw [if_neg (by simp [hsuf]), if_pos hsuf', List.filterMap_map]
  have hsnd : (info.toList.filterMap ((fun e : String × Option (List (List ℚ)) => e.2.map fun rows => (e.1, rows)) ∘ fun c => (nameFor c.toUpper, rowsFor p c))).map Prod.snd
      = info.toList.filterMap (rowsFor p) := by
    rw [List.map_filterMap]
    congr 1
    funext c
    simp only [Function.comp, Option.map_map]
    cases rowsFor p c <;> rfl
  rw [hsnd, npConcat_ok p.points.length]
  · simp only [List.map_map, Except.ok.injEq, SavedPoints.xyz.injEq, true_and]
    apply List.map_congr_left
    intro i hi
    simp only [Function.comp]
    congr 1
    generalize info.toList = l
    induction l with
    | nil => rfl
    | cons c l ih =>
      rw [List.flatMap_cons, List.filterMap_cons]
      cases hc : rowsFor p c with
      | none => simpa using ih
      | some rows =>
        simp only [List.flatMap_cons, ih, Option.bind_some]
        rfl
  · obtain ⟨c, hc, hs⟩ := hne
    obtain ⟨rows, hr⟩ := Option.isSome_iff_exists.mp hs
    exact List.ne_nil_of_mem (List.mem_filterMap.mpr ⟨c, hc, hr⟩)
  · intro t ht
    obtain ⟨c, _, hr⟩ := List.mem_filterMap.mp ht
    exact hrows c t hr

/-- C122, rejected: another letter raises KeyError for every file name, another extension raises ValueError. -/
theorem C122_rejected (rnd : ℚ → ℚ) (p : Points ℚ (List ℚ) (List ℚ)) (filename info : String) :
    ((∃ c ∈ info.toList, ¬ Letter c) → p.save rnd filename info = .error .key) ∧
    ((∀ c ∈ info.toList, Letter c) → hasSuffix "npz" filename = false → hasSuffix "xyz" filename = false →
      p.save rnd filename info = .error .value) := by
  constructor
  · rintro ⟨c, hc, hbad⟩
    have : (info.toList.map Char.toUpper).mapM (saveEntry p) = .error .key := by
      revert hc
      generalize info.toList = l
      induction l with
      | nil => intro hc; simp at hc
      | cons a l ih =>
        intro hc
        rw [List.map_cons, List.mapM_cons]
        by_cases ha : Letter a
        · rw [saveEntry_ok p a ha]
          have hc' : c ∈ l := by
            rcases List.mem_cons.mp hc with rfl | h
            · exact absurd ha hbad
            · exact h
          simp only [bind, Except.bind, ih hc']
        · rw [saveEntry_bad p a ha]
          rfl
    unfold Points.save
    rw [this]
    rfl
  · intro h h1 h2
    unfold Points.save
    rw [save_entries p info h]
    simp only [bind, Except.bind, pure, Except.pure]
    rw [if_neg (by simp [h1]), if_neg (by simp [h2])]

/-- A cloud of two points with labels, and the line of its first point. -/
def savedCloud : Points ℚ (List ℚ) (List ℚ) := ⟨[⟨1, 2, 3⟩, ⟨4, 5, 6⟩], none, none, some [[7], [8]], some [0, 0], 1, none, 0⟩

example : Aligned savedCloud := ⟨by simp [savedCloud], by simp [savedCloud], by simp [savedCloud], by simp [savedCloud]⟩

example : savedCloud.save id "a.xyz" "lNp" = .ok (.xyz "a.xyz" [[7, 1, 2, 3], [8, 4, 5, 6]]) := by decide +kernel

example : savedCloud.save id "a.npz" = .ok (.npz "a.npz" [("points", [[1, 2, 3], [4, 5, 6]]), ("labels", [[7], [8]])]) := by decide +kernel

/-! ### the example octree -/

namespace Spec

/-- The cells of the points of the example at level `d`: the corner cell; the cell at the middle of the lower face; and
the cell displaced by a thirty-second of the side, which is another one from level 5 on. -/
def exampleCells (d : Nat) (ptNum : Nat) : List Cell :=
  [⟨0, 0, 0, 0⟩] ++ (if 2 ≤ ptNum ∧ 1 ≤ d then [⟨0, 2 ^ (d - 1), 2 ^ (d - 1), 0⟩] else []) ++
    (if 3 ≤ ptNum ∧ 5 ≤ d then [⟨0, 17 * 2 ^ (d - 5), 17 * 2 ^ (d - 5), 0⟩] else [])

end Spec

theorem sideAt_neg_one (d : Nat) : sideAt d (-1) = 0 := by
  unfold sideAt
  norm_num

theorem sideAt_zero (d : Nat) : sideAt d 0 = 2 ^ d / 2 := by
  unfold sideAt
  have : ((0 : ℚ) + 1) * 2 ^ d / 2 = ((2 ^ d : Nat) : ℚ) / ((2 : Nat) : ℚ) := by push_cast; ring
  rw [this, Nat.floor_div_eq_div]

theorem sideAt_sixteenth (d : Nat) : sideAt d (1 / 16) = 17 * 2 ^ d / 32 := by
  unfold sideAt
  have : ((1 / 16 : ℚ) + 1) * 2 ^ d / 2 = ((17 * 2 ^ d : Nat) : ℚ) / ((32 : Nat) : ℚ) := by push_cast; ring
  rw [this, Nat.floor_div_eq_div]

theorem half_pow (d : Nat) : 2 ^ d / 2 = if 1 ≤ d then 2 ^ (d - 1) else 0 := by
  cases d with
  | zero => rfl
  | succ d => simp [Nat.pow_succ]

theorem sixteenth_pow (d : Nat) : 17 * 2 ^ d / 32 = if 5 ≤ d then 17 * 2 ^ (d - 5) else 2 ^ d / 2 := by
  split
  · obtain ⟨n, rfl⟩ : ∃ n, d = n + 5 := ⟨d - 5, by omega⟩
    rw [Nat.add_sub_cancel, Nat.pow_add]
    omega
  · have : d = 0 ∨ d = 1 ∨ d = 2 ∨ d = 3 ∨ d = 4 := by omega
    rcases this with rfl | rfl | rfl | rfl | rfl <;> rfl

theorem cellAt_example (d : Nat) (c : Cell) (k : Nat) (hk : 1 ≤ k) (hk' : k ≤ 3) :
    (∃ p ∈ examplePoints.take k, cellAt d 0 p = c) ↔ c ∈ Spec.exampleCells d k := by
  have e1 : cellAt d 0 ⟨-1, -1, -1⟩ = ⟨0, 0, 0, 0⟩ := by simp [cellAt, sideAt_neg_one]
  have e2 : cellAt d 0 ⟨0, 0, -1⟩ = if 1 ≤ d then ⟨0, 2 ^ (d - 1), 2 ^ (d - 1), 0⟩ else ⟨0, 0, 0, 0⟩ := by
    simp only [cellAt, sideAt_neg_one, sideAt_zero, half_pow]
    split <;> rfl
  have e3 : cellAt d 0 ⟨1 / 16, 1 / 16, -1⟩ = if 5 ≤ d then ⟨0, 17 * 2 ^ (d - 5), 17 * 2 ^ (d - 5), 0⟩ else cellAt d 0 ⟨0, 0, -1⟩ := by
    simp only [cellAt, sideAt_neg_one, sideAt_zero, sideAt_sixteenth, sixteenth_pow]
    split <;> rfl
  have h3 : k = 1 ∨ k = 2 ∨ k = 3 := by omega
  unfold Spec.exampleCells
  by_cases d1 : 1 ≤ d <;> by_cases d5 : 5 ≤ d <;> rcases h3 with rfl | rfl | rfl <;>
    simp only [examplePoints, List.take, e1, e2, e3, d1, d5, List.mem_cons, List.not_mem_nil, or_false, exists_eq_or_imp, exists_eq_left,
      if_true, if_false, and_true, and_false, List.append_nil, List.nil_append, List.cons_append, List.mem_append, le_refl,
      show ¬ (2 : Nat) ≤ 1 by omega, show ¬ (3 : Nat) ≤ 1 by omega, show ¬ (3 : Nat) ≤ 2 by omega, show (2 : Nat) ≤ 3 by omega, false_and, true_and] <;>
    grind

/-- C123: `build_example_octree` accepts 1, 2 or 3 points and all legal depths; from the full layer on, the non-empty
nodes are the cells of the points. -/
theorem C123_example (nrm : V3 ℚ → V3 ℚ) (depth full : Nat) (k : Int) (hd : depth ≤ 16) (hf : full ≤ depth) :
    (¬ (1 ≤ k ∧ k ≤ 3) → buildExampleOctree nrm depth full k = .error .assertion) ∧
    (1 ≤ k ∧ k ≤ 3 → ∃ o, buildExampleOctree nrm depth full k = .ok o ∧ o.depth = depth ∧ o.fullDepth = full ∧ o.batchSize = 1 ∧ o.Valid depth ∧
      ∀ d, full ≤ d → d ≤ depth → o.nnumNempty d = (Spec.exampleCells d k.toNat).length ∧
        ∃ cells ch, CellsOf 1 d o.keys cells ∧ o.children d = some ch ∧ ∀ c, c ∈ nonEmpty cells ch ↔ c ∈ Spec.exampleCells d k.toNat) := by
  constructor
  · intro hk
    unfold buildExampleOctree
    rw [pyAssert, if_neg (by omega)]
    rfl
  · intro hk
    obtain ⟨n, rfl⟩ : ∃ n : Nat, k = n := ⟨k.toNat, by omega⟩
    have hn1 : 1 ≤ n := by omega
    have hn3 : n ≤ 3 := by omega
    have hlen : (examplePoints.take n).length = n := by simp [examplePoints]; omega
    have hinit : Points.init (examplePoints.take n) (some (exampleNormals.take n)) (some (exampleFeatures.take n))
        (some (exampleLabels.take n)) none 1 0 = .ok ⟨examplePoints.take n, some (exampleNormals.take n), some (exampleFeatures.take n),
          some (exampleLabels.take n), none, 1, none, 0⟩ := by
      have h3 : n = 1 ∨ n = 2 ∨ n = 3 := by omega
      rcases h3 with rfl | rfl | rfl <;> rfl
    have hcube : ∀ p ∈ examplePoints.take n, InCube p := by
      intro p hp
      have := List.mem_of_mem_take hp
      unfold examplePoints at this
      simp only [List.mem_cons, List.not_mem_nil, or_false] at this
      rcases this with rfl | rfl | rfl <;> decide +kernel
    have hlegal : LegalBuild (Octree.new depth full 1 0) (⟨examplePoints.take n, some (exampleNormals.take n), some (exampleFeatures.take n),
          some (exampleLabels.take n), none, 1, none, 0⟩ : Points ℚ (ℚ × ℚ) ℚ) (List.replicate n 0) := by
      refine ⟨hd, hf, by simp [Octree.new], rfl, ⟨by simp only [List.length_replicate, hlen], ?_, fun h => absurd rfl h, ?_, ?_⟩, hcube⟩
      · intro b hb
        rw [List.eq_of_mem_replicate hb]
        exact Nat.one_pos
      · intro l hl
        simp only [Option.some.injEq] at hl
        rw [← hl, hlen]
        simp [exampleNormals]; omega
      · intro l hl
        simp only [Option.some.injEq] at hl
        rw [← hl, hlen]
        simp [exampleFeatures]; omega
    obtain ⟨o, idx, hb, h1, h2, h3, hv, cells, ch, hall⟩ := C07_build nrm (fun c v => (v.1 / c, v.2 / c)) _ _ _ hlegal
    refine ⟨o, ?_, h1, h2, h3, hv, ?_⟩
    · unfold buildExampleOctree
      rw [pyAssert, if_pos (by omega)]
      simp only [bind, Except.bind, Int.toNat_natCast, hinit, hb]
      rfl
    · intro d hfd hdd
      obtain ⟨hc, hch, hne, -, -⟩ := hall d hdd
      have hmem : ∀ c, c ∈ nonEmpty (cells d) (ch d) ↔ c ∈ Spec.exampleCells d n := by
        intro c
        rw [hne hfd, ← cellAt_example d c n hn1 hn3]
        unfold Occupied
        constructor
        · rintro ⟨i, p, hp, hs, hcc⟩
          have hpm := List.mem_of_getElem? hp
          have hb0 : c.b = 0 := (List.eq_of_mem_replicate (List.mem_of_getElem? hs))
          refine ⟨p, hpm, ?_⟩
          rw [cubeContains_iff _ _ _ (hcube p hpm), hb0] at hcc
          exact hcc
        · rintro ⟨p, hpm, rfl⟩
          obtain ⟨i, hi⟩ := List.getElem?_of_mem hpm
          have hilt : i < n := by
            have := (List.getElem?_eq_some_iff.mp hi).1
            rwa [hlen] at this
          refine ⟨i, p, hi, by simp [cellAt, hilt], ?_⟩
          rw [cubeContains_iff _ _ _ (hcube p hpm)]
          rfl
      refine ⟨?_, cells d, ch d, hc, hch, by simpa using hmem⟩
      have hc' : CellsOf o.batchSize d o.keys (cells d) := by rw [h3]; exact hc
      have hq := queried_length hv d hdd true (cells d) (ch d) hc' hch
      have hnd := nodes_nodup o _ hv d hdd true 1 _ _ (.one d (cells d) (ch d) hc' hch)
      simp only [queried, if_true] at hq hnd
      rw [← hq, Int.toNat_natCast]
      apply List.Perm.length_eq
      rw [List.perm_ext_iff_of_nodup hnd]
      · exact hmem
      · unfold Spec.exampleCells
        have h12 : 17 * 2 ^ (d - 5) ≠ 2 ^ (d - 1) ∨ ¬ 5 ≤ d := by
          by_cases h5 : 5 ≤ d
          · left
            obtain ⟨m, rfl⟩ : ∃ m, d = m + 5 := ⟨d - 5, by omega⟩
            rw [Nat.add_sub_cancel, show m + 5 - 1 = m + 4 by omega, Nat.pow_add]
            have := Nat.two_pow_pos m
            omega
          · exact Or.inr h5
        have hp : ∀ m : Nat, (2 : Nat) ^ m ≠ 0 := fun m => (Nat.two_pow_pos m).ne'
        have h5 : ¬ (3 ≤ n ∧ 5 ≤ d) ∨ 17 * 2 ^ (d - 5) ≠ 2 ^ (d - 1) := by
          rcases h12 with h | h
          · exact Or.inr h
          · exact Or.inl fun hh => h hh.2
        rcases h5 with h5 | h5
        · rw [if_neg h5]
          split <;> simp [Cell.mk.injEq, (hp _).symm]
        · split <;> split <;> simp [Cell.mk.injEq, (hp _).symm, h5.symm]

/-- The octree of the unit tests: depth 5, full depth 2, three points. -/
example : (buildExampleOctree id 5 2 3).toOption.map (fun o => (o.nnumNempty 2, o.nnumNempty 4, o.nnumNempty 5, o.nnum 5)) = some (2, 2, 3, 16) := by
  decide +kernel

end Ocnn
