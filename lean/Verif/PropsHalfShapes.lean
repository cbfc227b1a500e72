import Verif.HalfShapes
import Verif.PropsDataTools
import Verif.PropsFloat
import Verif.PropsLocal

/-! C171: shapes that are stored in half precision. -/

set_option linter.unusedSimpArgs false
set_option linter.unusedVariables false

namespace Ocnn
open Spec

/-! ### half precision -/

theorem ulp16_pos (x : ℚ) : 0 < ulp16 x := lt_max_of_lt_left (zpow_pos (by norm_num) _)

theorem f16_err (x : ℚ) : |f16 x - x| ≤ ulp16 x / 2 := by
  have h := ulp16_pos x
  have e : f16 x - x = ((rne (x / ulp16 x) : ℚ) - x / ulp16 x) * ulp16 x := by
    unfold f16
    field_simp
  rw [e, abs_mul, abs_of_pos h]
  have := mul_le_mul_of_nonneg_right (rne_err (x / ulp16 x)) h.le
  linarith

theorem f16_zero : f16 0 = 0 := by
  unfold f16
  have : rne 0 = 0 := by simpa using rne_int 0
  simp [this]

theorem ulp16_le {x : ℚ} {k : ℤ} (hk : -14 ≤ k) (hx : x ≠ 0) (h : |x| < 2 ^ (k + 1)) : ulp16 x ≤ 2 ^ (k - 10) := by
  unfold ulp16
  have h0 : 0 < |x| := abs_pos.2 hx
  apply max_le
  · have : Int.log 2 |x| < k + 1 := by
      apply (Int.lt_zpow_iff_log_lt (by norm_num) h0).1
      exact_mod_cast h
    exact zpow_le_zpow_right₀ (by norm_num) (by omega)
  · exact zpow_le_zpow_right₀ (by norm_num) (by omega)

/-- The error of storing a number between `-2 ^ k` and `2 ^ k`. -/
theorem f16_near {x : ℚ} {k : ℤ} (hk : -13 ≤ k) (h : |x| ≤ 2 ^ k) : |f16 x - x| ≤ 2 ^ (k - 12) := by
  by_cases h0 : x = 0
  · rw [h0, f16_zero]
    simpa using (zpow_pos (by norm_num : (0 : ℚ) < 2) (k - 12)).le
  by_cases h1 : |x| < 2 ^ k
  · have := ulp16_le (k := k - 1) (by omega) h0 (by simpa using h1)
    have e : (2 : ℚ) ^ (k - 1 - 10) = 2 * 2 ^ (k - 12) := by
      rw [← zpow_one_add₀ (by norm_num)]
      congr 1
      ring
    have := f16_err x
    linarith
  · have hx : |x| = 2 ^ k := le_antisymm h (not_lt.1 h1)
    have hl : Int.log 2 |x| = k := by
      rw [hx]
      exact_mod_cast Int.log_zpow (R := ℚ) (b := 2) (by norm_num) k
    have hu : ulp16 x = 2 ^ (k - 10) := by
      unfold ulp16
      rw [hl, max_eq_left (zpow_le_zpow_right₀ (by norm_num) (by omega))]
    have hp : (0 : ℚ) < 2 ^ (k - 10) := zpow_pos (by norm_num) _
    have e10 : (2 : ℚ) ^ k = 2 ^ 10 * 2 ^ (k - 10) := by
      rw [← zpow_natCast, ← zpow_add₀ (by norm_num)]
      congr 1
      push_cast
      ring
    have : f16 x = x := by
      unfold f16
      rw [hu]
      rcases abs_eq (zpow_pos (by norm_num : (0 : ℚ) < 2) k).le |>.1 hx with e | e
      · have : x / 2 ^ (k - 10) = ((2 ^ 10 : ℤ) : ℚ) := by rw [e, e10]; field_simp; norm_num
        rw [this, rne_int, e, e10]; norm_num
      · have : x / 2 ^ (k - 10) = ((-2 ^ 10 : ℤ) : ℚ) := by rw [e, e10]; field_simp; norm_num
        rw [this, rne_int, e, e10]; norm_num
    rw [this, sub_self, abs_zero]
    exact (zpow_pos (by norm_num) _).le

/-- A float16 number is a float32 number. -/
theorem f16_isF32 (x : ℚ) : IsF32 (f16 x) := by
  by_cases h0 : x = 0
  · rw [h0, f16_zero]
    exact ⟨0, 0, by norm_num, by norm_num⟩
  obtain ⟨e, he⟩ : ∃ e : ℤ, ulp16 x = 2 ^ e := by
    unfold ulp16
    rcases max_choice ((2 : ℚ) ^ (Int.log 2 |x| - 10)) (2 ^ (-24 : ℤ)) with h | h
    · exact ⟨_, h⟩
    · exact ⟨_, h⟩
  refine ⟨rne (x / ulp16 x), e, ?_, by unfold f16; rw [he]⟩
  have hb : |x / ulp16 x| < 2 ^ 11 := by
    have hu := ulp16_pos x
    rw [abs_div, abs_of_pos hu, div_lt_iff₀ hu]
    have h1 : |x| < 2 ^ (Int.log 2 |x| + 1) := by exact_mod_cast Int.lt_zpow_succ_log_self (b := 2) (by norm_num) |x|
    have h2 : (2 : ℚ) ^ (Int.log 2 |x| + 1) = 2 ^ 11 * 2 ^ (Int.log 2 |x| - 10) := by
      rw [← zpow_natCast, ← zpow_add₀ (by norm_num)]
      congr 1
      push_cast
      ring
    have h3 : (2 : ℚ) ^ (Int.log 2 |x| - 10) ≤ ulp16 x := le_max_left _ _
    have := mul_le_mul_of_nonneg_left h3 (by norm_num : (0 : ℚ) ≤ 2 ^ 11)
    linarith
  have hr := rne_err (x / ulp16 x)
  have : |(rne (x / ulp16 x) : ℚ)| < 2 ^ 24 := by
    have := abs_sub_abs_le_abs_sub (rne (x / ulp16 x) : ℚ) (x / ulp16 x)
    norm_num at hb ⊢
    linarith
  exact_mod_cast this

theorem f32_f16 (x : ℚ) : f32 (f16 x) = f16 x := f32_exact (f16_isF32 x)

/-! ### files -/

/-- Files that are written for each category are found again. -/
theorem lookup_files {B : Type} (root ext : String) (hext : '/' ∉ ext.toList) (cats : List String) (names : String → List String) (val : String → String → B)
    (hc : ∀ cat ∈ cats, '/' ∉ cat.toList) (hn : ∀ cat ∈ cats, ∀ n ∈ names cat, '/' ∉ n.toList) {cat name : String} (h1 : cat ∈ cats) (h2 : name ∈ names cat) :
    (cats.map fun cat => (names cat).map fun n => (pathJoin (pathJoin root cat) (n ++ ext), val cat n)).flatten.lookup (pathJoin (pathJoin root cat) (name ++ ext))
      = some (val cat name) := by
  apply lookup_of_mem
  · exact List.mem_flatten.2 ⟨_, List.mem_map.2 ⟨cat, h1, rfl⟩, List.mem_map.2 ⟨name, h2, rfl⟩⟩
  · intro v hv
    obtain ⟨l, hl, hm⟩ := List.mem_flatten.1 hv
    obtain ⟨cat', hc', rfl⟩ := List.mem_map.1 hl
    obtain ⟨n', hn', e⟩ := List.mem_map.1 hm
    obtain ⟨e1, e2⟩ := Prod.mk.inj e
    have sl : ∀ cat ∈ cats, ∀ n ∈ names cat, '/' ∉ (n ++ ext).toList := by
      intro cat hcat n hnm h
      rw [String.toList_append, List.mem_append] at h
      rcases h with h | h
      · exact hn cat hcat n hnm h
      · exact hext h
    obtain ⟨g1, g2⟩ := pathJoin_inj (sl _ hc' _ hn') (sl _ h1 _ h2) e1
    obtain ⟨-, rfl⟩ := pathJoin_inj (hc _ hc') (hc _ h1) g1
    have g3 := append_right_cancel' g2
    subst g3
    exact e2.symm

/-- **C171, files.** After `mesh2points` and `ply2npz` the data set reads for every mesh `category/name.obj` the sampled cloud: from the ply file in single
precision, from the npz file in half precision, with as many points and normals in the same order.  `listdir'` is the folder of the ply files after the first
command. -/
theorem C171_files (sample : String → M (List (V3 ℚ) × List (V3 ℚ))) (listdir listdir' : String → List String) (root : String) (categories : List String)
    (meshes : String → List String) (cloud : String → List (V3 ℚ) × List (V3 ℚ)) (hcat : ∀ cat ∈ categories, '/' ∉ cat.toList)
    (hslash : ∀ cat ∈ categories, ∀ n ∈ meshes cat, '/' ∉ n.toList)
    (hdir : ∀ cat ∈ categories, (listdir (root ++ "/shapenet.mesh/" ++ cat)).Perm ((meshes cat).map (· ++ ".obj")))
    (hdir' : ∀ cat ∈ categories, (listdir' (root ++ "/points.ply/" ++ cat)).Perm ((meshes cat).map (· ++ ".ply")))
    (hs : ∀ cat ∈ categories, ∀ n ∈ meshes cat, sample (root ++ "/shapenet.mesh/" ++ cat ++ "/" ++ n ++ ".obj") = .ok (cloud (cat ++ "/" ++ n)) ∧
      (cloud (cat ++ "/" ++ n)).2.length = (cloud (cat ++ "/" ++ n)).1.length) :
    ∃ plys npzs, mesh2points sample listdir root categories = .ok plys ∧ ply2npz listdir' (fun f => plys.lookup f) root categories = .ok npzs ∧
      ∀ cat ∈ categories, ∀ n ∈ meshes cat,
        readPoints "ply" (fun f => plys.lookup f) (fun f => npzs.lookup f) (root ++ "/points.ply/" ++ cat ++ "/" ++ n) =
          .ok ((cloud (cat ++ "/" ++ n)).1.map (·.map f32), (cloud (cat ++ "/" ++ n)).2.map (·.map f32)) ∧
        readPoints "npz" (fun f => plys.lookup f) (fun f => npzs.lookup f) (root ++ "/points.npz/" ++ cat ++ "/" ++ n) =
          .ok ((cloud (cat ++ "/" ++ n)).1.map fun v => (v.map f32).map f16, (cloud (cat ++ "/" ++ n)).2.map fun v => (v.map f32).map f16) := by
  have p1 : ∀ a b : String, pathJoin (pathJoin root a) b = root ++ "/" ++ a ++ "/" ++ b := by
    intro a b
    apply String.toList_injective
    simp [pathJoin, String.toList_append]
  have p2 : ∀ a b c d : String, pathJoin (root ++ "/" ++ a ++ "/" ++ b) (c ++ d) = root ++ "/" ++ a ++ "/" ++ b ++ "/" ++ c ++ d := by
    intro a b c d
    apply String.toList_injective
    simp [pathJoin, String.toList_append]
  have q1 : ∀ b : String, root ++ "/" ++ "shapenet.mesh" ++ "/" ++ b = root ++ "/shapenet.mesh/" ++ b := by
    intro b
    apply String.toList_injective
    simp [String.toList_append]
  have q2 : ∀ b : String, root ++ "/" ++ "points.ply" ++ "/" ++ b = root ++ "/points.ply/" ++ b := by
    intro b
    apply String.toList_injective
    simp [String.toList_append]
  have q3 : ∀ b : String, root ++ "/" ++ "points.npz" ++ "/" ++ b = root ++ "/points.npz/" ++ b := by
    intro b
    apply String.toList_injective
    simp [String.toList_append]
  have dot : ∀ n e e' : String, n ++ (e ++ e') = (n ++ e) ++ e' := fun n e e' => by
    apply String.toList_injective
    simp [String.toList_append]
  have cut : ∀ (n e e' : String), e.toList.length = 3 → cutEnd 3 (n ++ ("." ++ e)) ++ e' = n ++ ("." ++ e') := by
    intro n e e' he
    rw [dot, cutEnd_append 3 _ _ he, dot]
  choose! file hf1 hf2 using fun (p : String) (h : (cloud p).2.length = (cloud p).1.length) => saved_normals (cloud p).1 (cloud p).2 h
  -- the names in the order of the loops
  let ord (ld : String → List String) (dir cat : String) : List String := (pySorted (ld (root ++ dir ++ cat))).map (cutEnd 4)
  have hord : ∀ (ld : String → List String) (dir ext : String), ext.toList.length = 4 → (∀ cat ∈ categories, (ld (root ++ dir ++ cat)).Perm ((meshes cat).map (· ++ ext))) →
      ∀ cat ∈ categories, (∀ n, n ∈ ord ld dir cat ↔ n ∈ meshes cat) ∧ pySorted (ld (root ++ dir ++ cat)) = (ord ld dir cat).map (· ++ ext) := by
    intro ld dir ext he hd cat hc
    have hp := (pySorted_perm _).trans (hd cat hc)
    have hm : ∀ f, f ∈ pySorted (ld (root ++ dir ++ cat)) ↔ ∃ n ∈ meshes cat, n ++ ext = f := by
      intro f
      rw [hp.mem_iff, List.mem_map]
    constructor
    · intro n
      show n ∈ List.map _ _ ↔ _
      rw [List.mem_map]
      constructor
      · rintro ⟨f, hf, rfl⟩
        obtain ⟨n, hn, rfl⟩ := (hm f).1 hf
        rwa [cutEnd_append 4 _ _ he]
      · intro hn
        exact ⟨n ++ ext, (hm _).2 ⟨n, hn, rfl⟩, cutEnd_append 4 _ _ he⟩
    · show _ = List.map _ (List.map _ _)
      rw [List.map_map]
      conv_lhs => rw [← List.map_id (pySorted _)]
      apply List.map_congr_left
      intro f hf
      obtain ⟨n, hn, rfl⟩ := (hm f).1 hf
      simp only [id, Function.comp, cutEnd_append 4 _ _ he]
  have o1 := hord listdir "/shapenet.mesh/" ".obj" rfl hdir
  have o2 := hord listdir' "/points.ply/" ".ply" rfl hdir'
  have m1 : mesh2points sample listdir root categories = .ok ((categories.map fun cat => (ord listdir "/shapenet.mesh/" cat).map fun n =>
      (pathJoin (pathJoin (pathJoin root "points.ply") cat) (n ++ ".ply"), file (cat ++ "/" ++ n))).flatten) := by
    unfold mesh2points
    rw [mapM_pure _ fun cat => (ord listdir "/shapenet.mesh/" cat).map fun n =>
      (pathJoin (pathJoin (pathJoin root "points.ply") cat) (n ++ ".ply"), file (cat ++ "/" ++ n))]
    · rfl
    · intro cat hc
      dsimp only
      simp only [p1, q1, q2]
      rw [(o1 cat hc).2, List.mapM_map]
      apply mapM_pure
      intro n hn
      have hn := ((o1 cat hc).1 n).1 hn
      obtain ⟨s1, s2⟩ := hs cat hc n hn
      have e : pathJoin (root ++ "/shapenet.mesh/" ++ cat) (n ++ ".obj") = root ++ "/shapenet.mesh/" ++ cat ++ "/" ++ n ++ ".obj" := by
        rw [← q1, p2]
      simp only [Function.comp]
      rw [e, s1]
      simp only [bind, Except.bind]
      rw [hf1 _ s2]
      have := cut n "obj" "ply" rfl
      simp only [pure, Except.pure]
      rw [show (".obj" : String) = "." ++ "obj" from rfl, this]
      rfl
  have l1 : ∀ cat ∈ categories, ∀ n ∈ meshes cat, ((categories.map fun cat => (ord listdir "/shapenet.mesh/" cat).map fun n =>
      (pathJoin (pathJoin (pathJoin root "points.ply") cat) (n ++ ".ply"), file (cat ++ "/" ++ n))).flatten).lookup
        (root ++ "/points.ply/" ++ cat ++ "/" ++ n ++ ".ply") = some (file (cat ++ "/" ++ n)) := by
    intro cat hc n hn
    have := lookup_files (pathJoin root "points.ply") ".ply" (by decide) categories (ord listdir "/shapenet.mesh/") (fun cat n => file (cat ++ "/" ++ n)) hcat
      (fun cat hc n hn => hslash cat hc n (((o1 cat hc).1 n).1 hn)) hc (((o1 cat hc).1 n).2 hn)
    rw [p1, p2, q2] at this
    exact this
  generalize ((categories.map fun cat => (ord listdir "/shapenet.mesh/" cat).map fun n =>
      (pathJoin (pathJoin (pathJoin root "points.ply") cat) (n ++ ".ply"), file (cat ++ "/" ++ n))).flatten) = plys at m1 l1
  have m2 : ply2npz listdir' (fun f => plys.lookup f) root categories = .ok ((categories.map fun cat => (ord listdir' "/points.ply/" cat).map fun n =>
      (pathJoin (pathJoin (pathJoin root "points.npz") cat) (n ++ ".npz"), (⟨(cloud (cat ++ "/" ++ n)).1.map fun v => (v.map f32).map f16,
        some ((cloud (cat ++ "/" ++ n)).2.map fun v => (v.map f32).map f16), none, none⟩ : Npz))).flatten) := by
    unfold ply2npz
    rw [mapM_pure _ fun cat => (ord listdir' "/points.ply/" cat).map fun n =>
      (pathJoin (pathJoin (pathJoin root "points.npz") cat) (n ++ ".npz"), (⟨(cloud (cat ++ "/" ++ n)).1.map fun v => (v.map f32).map f16,
        some ((cloud (cat ++ "/" ++ n)).2.map fun v => (v.map f32).map f16), none, none⟩ : Npz))]
    · rfl
    · intro cat hc
      dsimp only
      simp only [p1, q2, q3]
      rw [(o2 cat hc).2, List.mapM_map]
      apply mapM_pure
      intro n hn
      have hn := ((o2 cat hc).1 n).1 hn
      obtain ⟨s1, s2⟩ := hs cat hc n hn
      have e : pathJoin (root ++ "/points.ply/" ++ cat) (n ++ ".ply") = root ++ "/points.ply/" ++ cat ++ "/" ++ n ++ ".ply" := by
        rw [← q2, p2]
      simp only [Function.comp]
      rw [e, l1 cat hc n hn]
      simp only [bind, Except.bind, hf2 _ s2, pure, Except.pure, List.map_map, Option.map_some]
      have := cut n "ply" "npz" rfl
      rw [show (".ply" : String) = "." ++ "ply" from rfl, this]
      rfl
  refine ⟨plys, _, m1, m2, ?_⟩
  intro cat hc n hn
  have l2 := lookup_files (pathJoin root "points.npz") ".npz" (by decide) categories (ord listdir' "/points.ply/")
    (fun cat n => (⟨(cloud (cat ++ "/" ++ n)).1.map fun v => (v.map f32).map f16, some ((cloud (cat ++ "/" ++ n)).2.map fun v => (v.map f32).map f16), none, none⟩ : Npz)) hcat
    (fun cat hc n hn => hslash cat hc n (((o2 cat hc).1 n).1 hn)) hc (((o2 cat hc).1 n).2 hn)
  rw [p1, p2, q3] at l2
  obtain ⟨s1, s2⟩ := hs cat hc n hn
  constructor
  · unfold readPoints
    rw [if_pos rfl]
    simp only [l1 cat hc n hn, hf2 _ s2, bind, Except.bind]
    rfl
  · unfold readPoints
    rw [if_neg (by decide), if_pos rfl]
    simp only [l2]
    simp only [List.map_map, Except.ok.injEq, Prod.mk.injEq]
    constructor <;> refine List.map_congr_left fun v _ => ?_ <;> simp only [Function.comp, V3.map, f32_f16]

/-! ### the size of the error -/

/-- **C171, error.** Coordinates between -1/2 and 1/2 are stored with an error of at most `2 ^ -13`, components of normals with an error of at most `2 ^ -12`;
what is read back is exactly what is stored. -/
theorem C171_error (x : ℚ) : (|x| ≤ 1 / 2 → |f16 x - x| ≤ 1 / 2 ^ 13) ∧ (|x| ≤ 1 → |f16 x - x| ≤ 1 / 2 ^ 12) ∧ f32 (f16 x) = f16 x := by
  refine ⟨fun h => ?_, fun h => ?_, f32_f16 x⟩
  · have := f16_near (k := -1) (by norm_num) (x := x) (by norm_num at h ⊢; exact h)
    norm_num at this ⊢
    exact this
  · have := f16_near (k := 0) (by norm_num) (x := x) (by norm_num at h ⊢; exact h)
    norm_num at this ⊢
    exact this

/-! ### the octrees -/

namespace Spec

/-- The two cells are the same or touch. -/
def Touch (c c' : Cell) : Prop := c.b = c'.b ∧ |(c.x : ℤ) - c'.x| ≤ 1 ∧ |(c.y : ℤ) - c'.y| ≤ 1 ∧ |(c.z : ℤ) - c'.z| ≤ 1

/-- Point by point, the coordinates of the two clouds differ by at most `e`. -/
def Nearby (e : ℚ) (l l' : List (V3 ℚ)) : Prop :=
  l.length = l'.length ∧ ∀ (i : Nat) (p p' : V3 ℚ), l[i]? = some p → l'[i]? = some p' → |p.x - p'.x| ≤ e ∧ |p.y - p'.y| ≤ e ∧ |p.z - p'.z| ≤ e

end Spec

theorem side_touch {d n m : Nat} {v w : ℚ} (h : SideContains d n v) (h' : SideContains d m w) (hvw : |v - w| ≤ 2 / 2 ^ d) : |(n : ℤ) - m| ≤ 1 := by
  unfold SideContains at h h'
  have hs : (0 : ℚ) < 2 / 2 ^ d := by positivity
  generalize (2 : ℚ) / 2 ^ d = s at h h' hvw hs
  obtain ⟨a1, a2⟩ := abs_le.1 hvw
  have b1 : ((n : ℚ) - m) < 2 := by nlinarith
  have b2 : ((m : ℚ) - n) < 2 := by nlinarith
  have c1 : (n : ℤ) - m < 2 := by exact_mod_cast b1
  have c2 : (m : ℤ) - n < 2 := by exact_mod_cast b2
  exact abs_le.2 ⟨by omega, by omega⟩

theorem occupied_near {d : Nat} {e : ℚ} (he : e ≤ 2 / 2 ^ d) {l l' : List (V3 ℚ)} {samples : List Nat} (hn : Nearby e l l') (hc : ∀ p ∈ l', InCube p) {c : Cell}
    (h : Occupied l samples d c) : ∃ c', Occupied l' samples d c' ∧ Touch c c' := by
  obtain ⟨i, p, h1, h2, h3⟩ := h
  have hi : i < l'.length := by
    rw [← hn.1]
    exact (List.getElem?_eq_some_iff.1 h1).1
  obtain ⟨p', hp'⟩ : ∃ p', l'[i]? = some p' := ⟨_, List.getElem?_eq_getElem hi⟩
  have hcell : CubeContains d (cellAt d c.b p') p' := (cubeContains_iff _ _ _ (hc p' (List.mem_of_getElem? hp'))).2 rfl
  obtain ⟨n1, n2, n3⟩ := hn.2 i p p' h1 hp'
  refine ⟨cellAt d c.b p', ⟨i, p', hp', h2, hcell⟩, rfl, ?_, ?_, ?_⟩
  · exact side_touch h3.1 hcell.1 (n1.trans he)
  · exact side_touch h3.2.1 hcell.2.1 (n2.trans he)
  · exact side_touch h3.2.2 hcell.2.2 (n3.trans he)

theorem nearby_symm {e : ℚ} {l l' : List (V3 ℚ)} (h : Nearby e l l') : Nearby e l' l :=
  ⟨h.1.symm, fun i p p' h1 h2 => by simpa only [abs_sub_comm] using h.2 i p' p h2 h1⟩

theorem touch_symm {c c' : Cell} (h : Touch c c') : Touch c' c := by
  obtain ⟨h1, h2, h3, h4⟩ := h
  exact ⟨h1.symm, by rwa [abs_sub_comm], by rwa [abs_sub_comm], by rwa [abs_sub_comm]⟩

/-- **C171, octrees.** If the points of a cloud are moved by at most the side of a cell of level `d`, every non-empty node of that level of one octree touches
a non-empty node of the other. -/
theorem C171_moved {F L : Type} [AddCommMonoid F] (nrm : V3 ℚ → V3 ℚ) (divF : ℚ → F → F) (o : Octree F) (pc pc' : Points ℚ F L) (samples : List Nat)
    (h : LegalBuild o pc samples) (h' : LegalBuild o pc' samples) {e : ℚ} (hn : Nearby e pc.points pc'.points) :
    ∃ o₁ i₁ o₂ i₂, Octree.build nrm divF o pc = .ok (o₁, i₁) ∧ Octree.build nrm divF o pc' = .ok (o₂, i₂) ∧
      ∀ d, o.fullDepth ≤ d → d ≤ o.depth → e ≤ 2 / 2 ^ d → ∃ cells ch cells' ch', CellsOf o.batchSize d o₁.keys cells ∧ o₁.children d = some ch ∧
        CellsOf o.batchSize d o₂.keys cells' ∧ o₂.children d = some ch' ∧
        (∀ c ∈ nonEmpty cells ch, ∃ c' ∈ nonEmpty cells' ch', Touch c c') ∧ (∀ c' ∈ nonEmpty cells' ch', ∃ c ∈ nonEmpty cells ch, Touch c c') := by
  obtain ⟨o₁, i₁, b₁, -, -, B₁, w₁, cs₁, hs₁, C₁⟩ := C07_build nrm divF o pc samples h
  obtain ⟨o₂, i₂, b₂, -, -, B₂, w₂, cs₂, hs₂, C₂⟩ := C07_build nrm divF o pc' samples h'
  refine ⟨o₁, i₁, o₂, i₂, b₁, b₂, ?_⟩
  intro d hf hd he
  refine ⟨cs₁ d, hs₁ d, cs₂ d, hs₂ d, (C₁ d hd).1, (C₁ d hd).2.1, (C₂ d hd).1, (C₂ d hd).2.1, ?_, ?_⟩
  · intro c hc
    obtain ⟨c', g1, g2⟩ := occupied_near he hn h'.inCube (((C₁ d hd).2.2.1 hf c).1 hc)
    exact ⟨c', ((C₂ d hd).2.2.1 hf c').2 g1, g2⟩
  · intro c hc
    obtain ⟨c', g1, g2⟩ := occupied_near he (nearby_symm hn) h.inCube (((C₂ d hd).2.2.1 hf c).1 hc)
    exact ⟨c', ((C₁ d hd).2.2.1 hf c').2 g1, touch_symm g2⟩

/-- **C171, shapes.** The octree that the data set builds from the archive in half precision and the one it builds from the ply file, at any depth up to 13:
the coordinates of the shape lie in the cube of side 1 and are divided by the scale 1/2.  Both octrees are built, and at each level from the full depth on
every non-empty node of one touches a non-empty node of the other. -/
theorem C171_shapes {F L : Type} [AddCommMonoid F] (nrm : V3 ℚ → V3 ℚ) (divF : ℚ → F → F) (depth full : Nat) (hd : depth ≤ 13) (hf : full ≤ depth)
    (pts normals : List (V3 ℚ)) (hn : normals.length = pts.length)
    (hp : ∀ p ∈ pts, |p.x| < 1 / 2 - 1 / 2 ^ 12 ∧ |p.y| < 1 / 2 - 1 / 2 ^ 12 ∧ |p.z| < 1 / 2 - 1 / 2 ^ 12) :
    ∃ o₁ i₁ o₂ i₂,
      Octree.build nrm divF (Octree.new depth full 1 0) (⟨pts.map (·.map (· / (1 / 2))), some normals, none, none, none, 1, none, 0⟩ : Points ℚ F L) = .ok (o₁, i₁) ∧
      Octree.build nrm divF (Octree.new depth full 1 0) (⟨(pts.map (·.map f16)).map (·.map (· / (1 / 2))), some (normals.map (·.map f16)), none, none, none, 1, none, 0⟩ : Points ℚ F L) = .ok (o₂, i₂) ∧
      ∀ d, full ≤ d → d ≤ depth → ∃ cells ch cells' ch', CellsOf 1 d o₁.keys cells ∧ o₁.children d = some ch ∧
        CellsOf 1 d o₂.keys cells' ∧ o₂.children d = some ch' ∧
        (∀ c ∈ nonEmpty cells ch, ∃ c' ∈ nonEmpty cells' ch', Touch c c') ∧ (∀ c' ∈ nonEmpty cells' ch', ∃ c ∈ nonEmpty cells ch, Touch c c') := by
  have near : ∀ x : ℚ, |x| < 1 / 2 - 1 / 2 ^ 12 → |x / (1 / 2) - f16 x / (1 / 2)| ≤ 1 / 2 ^ 12 ∧ (-1 ≤ x / (1 / 2) ∧ x / (1 / 2) < 1) ∧
      (-1 ≤ f16 x / (1 / 2) ∧ f16 x / (1 / 2) < 1) := by
    intro x hx
    have h := abs_le.1 ((C171_error x).1 (by norm_num at hx ⊢; linarith))
    have hx := abs_lt.1 hx
    norm_num at h hx ⊢
    refine ⟨abs_le.2 ⟨?_, ?_⟩, ⟨?_, ?_⟩, ?_, ?_⟩ <;> linarith
  have legal : ∀ (l n : List (V3 ℚ)), n.length = l.length → (∀ p ∈ l, InCube p) →
      LegalBuild (Octree.new depth full 1 0 : Octree F) (⟨l, some n, none, none, none, 1, none, 0⟩ : Points ℚ F L) (List.replicate l.length 0) := by
    intro l n hl hc
    refine ⟨show depth ≤ 16 by omega, hf, show 1 ≤ 2 ^ 15 by norm_num, rfl, ⟨List.length_replicate, ?_, fun h => absurd rfl h, ?_, ?_⟩, hc⟩
    · intro b hb
      rw [(List.mem_replicate.1 hb).2]
      exact Nat.one_pos
    · rintro _ ⟨⟩
      exact hl
    · rintro _ ⟨⟩
  have L1 := legal (pts.map (·.map (· / (1 / 2)))) normals (by rw [List.length_map, hn]) (by
    intro p hm
    obtain ⟨q, hq, rfl⟩ := List.mem_map.1 hm
    obtain ⟨a, b, c⟩ := hp q hq
    exact ⟨(near _ a).2.1, (near _ b).2.1, (near _ c).2.1⟩)
  have L2 := legal ((pts.map (·.map f16)).map (·.map (· / (1 / 2)))) (normals.map (·.map f16)) (by simp [hn]) (by
    intro p hm
    obtain ⟨q', hq', rfl⟩ := List.mem_map.1 hm
    obtain ⟨q, hq, rfl⟩ := List.mem_map.1 hq'
    obtain ⟨a, b, c⟩ := hp q hq
    exact ⟨(near _ a).2.2, (near _ b).2.2, (near _ c).2.2⟩)
  simp only [List.length_map] at L1 L2
  obtain ⟨o₁, i₁, o₂, i₂, h1, h2, h3⟩ := C171_moved nrm divF _ _ _ _ L1 L2 (e := 1 / 2 ^ 12) ⟨by simp, by
    intro i p p' g1 g2
    simp only [List.getElem?_map, Option.map_map, Option.map_eq_some_iff] at g1 g2
    obtain ⟨q, e1, rfl⟩ := g1
    obtain ⟨q', e2, rfl⟩ := g2
    rw [e1] at e2
    obtain rfl := Option.some.inj e2
    obtain ⟨a, b, c⟩ := hp q (List.mem_of_getElem? e1)
    exact ⟨(near _ a).1, (near _ b).1, (near _ c).1⟩⟩
  refine ⟨o₁, i₁, o₂, i₂, h1, h2, fun d g1 g2 => h3 d g1 g2 ?_⟩
  have : (2 : ℚ) ^ d ≤ 2 ^ 13 := pow_le_pow_right₀ (by norm_num) (g2.trans hd)
  rw [div_le_div_iff₀ (by norm_num) (by positivity)]
  norm_num at this ⊢
  linarith

/-- The bound is reached: this coordinate, halfway between two float16 numbers, is stored `2 ^ -13` away. -/
example : f16 (1 / 4 + 1 / 2 ^ 13) = 1 / 4 ∧ |f16 (1 / 4 + 1 / 2 ^ 13) - (1 / 4 + 1 / 2 ^ 13)| = 1 / 2 ^ 13 := by
  have hl : Int.log 2 |(1 / 4 + 1 / 2 ^ 13 : ℚ)| = -2 := log_unique (by norm_num [abs_of_pos]) (by norm_num [abs_of_pos])
  have hu : ulp16 (1 / 4 + 1 / 2 ^ 13) = 1 / 2 ^ 12 := by
    unfold ulp16
    rw [hl]
    norm_num
  have hf : f16 (1 / 4 + 1 / 2 ^ 13) = 1 / 4 := by
    unfold f16
    rw [hu]
    have : rne ((1 / 4 + 1 / 2 ^ 13) / (1 / 2 ^ 12)) = 1024 := by decide +kernel
    rw [this]
    norm_num
  refine ⟨hf, ?_⟩
  rw [hf]
  norm_num

/-- The hypotheses of `C171_files` are met by a data set with two meshes, which the folder lists in different orders. -/
example : ∃ plys npzs,
    mesh2points (fun f => if f = "d/shapenet.mesh/02691156/a.obj" then .ok ([⟨1 / 3, 0, 0⟩], [⟨0, 0, 1⟩]) else if f = "d/shapenet.mesh/02691156/b.obj" then
      .ok ([⟨1 / 4, 0, 0⟩, ⟨0, 1 / 5, 0⟩], [⟨0, 0, 1⟩, ⟨0, 1, 0⟩]) else .error .index) (fun _ => ["b.obj", "a.obj"]) "d" ["02691156"] = .ok plys ∧
    ply2npz (fun _ => ["a.ply", "b.ply"]) (fun f => plys.lookup f) "d" ["02691156"] = .ok npzs ∧
    readPoints "npz" (fun f => plys.lookup f) (fun f => npzs.lookup f) "d/points.npz/02691156/a" = .ok ([⟨f16 (f32 (1 / 3)), f16 (f32 0), f16 (f32 0)⟩], [⟨f16 (f32 0), f16 (f32 0), f16 (f32 1)⟩]) := by
  obtain ⟨plys, npzs, h1, h2, h3⟩ := C171_files (fun f => if f = "d/shapenet.mesh/02691156/a.obj" then .ok ([⟨1 / 3, 0, 0⟩], [⟨0, 0, 1⟩]) else
    if f = "d/shapenet.mesh/02691156/b.obj" then .ok ([⟨1 / 4, 0, 0⟩, ⟨0, 1 / 5, 0⟩], [⟨0, 0, 1⟩, ⟨0, 1, 0⟩]) else .error .index) (fun _ => ["b.obj", "a.obj"])
    (fun _ => ["a.ply", "b.ply"]) "d" ["02691156"] (fun _ => ["a", "b"])
    (fun p => if p = "02691156/a" then ([⟨1 / 3, 0, 0⟩], [⟨0, 0, 1⟩]) else ([⟨1 / 4, 0, 0⟩, ⟨0, 1 / 5, 0⟩], [⟨0, 0, 1⟩, ⟨0, 1, 0⟩]))
    (by decide) (by decide) (by decide) (by decide) (by decide +kernel)
  exact ⟨plys, npzs, h1, h2, (h3 "02691156" (by simp) "a" (by simp)).2⟩

end Ocnn
