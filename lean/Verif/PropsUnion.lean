import Verif.PropsLocal

/-! C170: the octree of the union of two clouds. -/

set_option linter.unusedSimpArgs false
set_option linter.unusedVariables false

namespace Ocnn
open Spec
variable {F L : Type}

namespace Spec

/-- `pc` lists the points of `pc₁` and then those of `pc₂`, with their features. -/
structure IsUnion (pc pc₁ pc₂ : Points ℚ F L) : Prop where
  points : pc.points = pc₁.points ++ pc₂.points
  features : ∀ f₁ f₂, pc₁.features = some f₁ → pc₂.features = some f₂ → pc.features = some (f₁ ++ f₂)

end Spec

theorem occupied_union {points₁ points₂ : List (V3 ℚ)} {s₁ s₂ : List Nat} (h₁ : s₁.length = points₁.length) {d : Nat} {c : Cell} :
    Occupied (points₁ ++ points₂) (s₁ ++ s₂) d c ↔ Occupied points₁ s₁ d c ∨ Occupied points₂ s₂ d c := by
  simp only [occupied_iff, List.zip_append h₁.symm, List.mem_append, or_and_right, exists_or]

/-- **C170, nodes.** At every level the octree of the union of two clouds has the nodes of both octrees and no others, and a node is non-empty if it is
non-empty in one of them.  So adding points adds nodes and removes none. -/
theorem C170_nodes [AddCommMonoid F] (nrm : V3 ℚ → V3 ℚ) (divF : ℚ → F → F) (o : Octree F) (pc pc₁ pc₂ : Points ℚ F L) (s₁ s₂ : List Nat)
    (h : LegalBuild o pc (s₁ ++ s₂)) (h₁ : LegalBuild o pc₁ s₁) (h₂ : LegalBuild o pc₂ s₂) (hu : IsUnion pc pc₁ pc₂) :
    ∃ o' i' o₁ i₁ o₂ i₂, Octree.build nrm divF o pc = .ok (o', i') ∧ Octree.build nrm divF o pc₁ = .ok (o₁, i₁) ∧
      Octree.build nrm divF o pc₂ = .ok (o₂, i₂) ∧
      ∀ d ≤ o.depth, ∃ cells ch cells₁ ch₁ cells₂ ch₂, CellsOf o.batchSize d o'.keys cells ∧ o'.children d = some ch ∧
        CellsOf o.batchSize d o₁.keys cells₁ ∧ o₁.children d = some ch₁ ∧ CellsOf o.batchSize d o₂.keys cells₂ ∧ o₂.children d = some ch₂ ∧
        (∀ c, c ∈ cells ↔ c ∈ cells₁ ∨ c ∈ cells₂) ∧ (∀ c, c ∈ nonEmpty cells ch ↔ c ∈ nonEmpty cells₁ ch₁ ∨ c ∈ nonEmpty cells₂ ch₂) ∧
        cells₁.length ≤ cells.length ∧ cells₂.length ≤ cells.length ∧ cells.length ≤ cells₁.length + cells₂.length := by
  obtain ⟨o', i', b, -, -, B, w, cs, hs, C⟩ := C07_build nrm divF o pc (s₁ ++ s₂) h
  obtain ⟨o₁, i₁, b₁, -, -, B₁, w₁, cs₁, hs₁, C₁⟩ := C07_build nrm divF o pc₁ s₁ h₁
  obtain ⟨o₂, i₂, b₂, -, -, B₂, w₂, cs₂, hs₂, C₂⟩ := C07_build nrm divF o pc₂ s₂ h₂
  have ne : ∀ d ≤ o.depth, o.fullDepth ≤ d → ∀ c, c ∈ nonEmpty (cs d) (hs d) ↔ c ∈ nonEmpty (cs₁ d) (hs₁ d) ∨ c ∈ nonEmpty (cs₂ d) (hs₂ d) := by
    intro d hd hf c
    rw [(C d hd).2.2.1 hf, (C₁ d hd).2.2.1 hf, (C₂ d hd).2.2.1 hf, hu.points, occupied_union h₁.cloud.length]
  have nodes : ∀ d ≤ o.depth, ∀ c, c ∈ cs d ↔ c ∈ cs₁ d ∨ c ∈ cs₂ d := by
    intro d hd c
    by_cases hf : d ≤ o.fullDepth
    · rw [(C d hd).2.2.2.1 hf, (C₁ d hd).2.2.2.1 hf, (C₂ d hd).2.2.2.1 hf, or_self]
    · obtain ⟨d, rfl⟩ : ∃ e, d = e + 1 := ⟨d - 1, by omega⟩
      rw [(C d (by omega)).2.2.2.2 hd, (C₁ d (by omega)).2.2.2.2 hd, (C₂ d (by omega)).2.2.2.2 hd, ne d (by omega) (by omega)]
  have ne' : ∀ d ≤ o.depth, ∀ c, c ∈ nonEmpty (cs d) (hs d) ↔ c ∈ nonEmpty (cs₁ d) (hs₁ d) ∨ c ∈ nonEmpty (cs₂ d) (hs₂ d) := by
    intro d hd c
    by_cases hf : o.fullDepth ≤ d
    · exact ne d hd hf c
    · have hd' : d < o.depth := by have := h.full; omega
      -- a node above the full depth is the parent of its first child
      rw [← Cell.child_parent c 0, ← (C d hd).2.2.2.2 hd', ← (C₁ d hd).2.2.2.2 hd', ← (C₂ d hd).2.2.2.2 hd', nodes (d + 1) hd']
  refine ⟨o', i', o₁, i₁, o₂, i₂, b, b₁, b₂, ?_⟩
  intro d hd
  have nd : ∀ {o' : Octree F}, o'.Valid o.depth → o'.batchSize = o.batchSize → ∀ {cells : List Cell} {ch : List Int},
      CellsOf o.batchSize d o'.keys cells → o'.children d = some ch → cells.Nodup := by
    intro o' w hB cells ch hc hch
    rw [← hB] at hc
    exact nodes_nodup o' o.depth w d hd false 1 _ _ (.one _ _ _ hc hch)
  have n := nd w B (C d hd).1 (C d hd).2.1
  have n₁ := nd w₁ B₁ (C₁ d hd).1 (C₁ d hd).2.1
  have n₂ := nd w₂ B₂ (C₂ d hd).1 (C₂ d hd).2.1
  refine ⟨cs d, hs d, cs₁ d, hs₁ d, cs₂ d, hs₂ d, (C d hd).1, (C d hd).2.1, (C₁ d hd).1, (C₁ d hd).2.1, (C₂ d hd).1, (C₂ d hd).2.1, nodes d hd, ne' d hd,
    ?_, ?_, ?_⟩
  · exact (n₁.subperm fun c hc => (nodes d hd c).2 (.inl hc)).length_le
  · exact (n₂.subperm fun c hc => (nodes d hd c).2 (.inr hc)).length_le
  · rw [← List.length_append]
    exact (n.subperm fun c hc => List.mem_append.2 ((nodes d hd c).1 hc)).length_le

/-! ### averages -/

theorem sumIn_union {V : Type} [AddCommMonoid V] {d : Nat} {c : Cell} {points₁ points₂ : List (V3 ℚ)} {s₁ s₂ : List Nat}
    (h₁ : s₁.length = points₁.length) {v₁ v₂ : List V} (hv : v₁.length = points₁.length) :
    sumIn d c ((points₁ ++ points₂).zip (s₁ ++ s₂)) (v₁ ++ v₂) = sumIn d c (points₁.zip s₁) v₁ + sumIn d c (points₂.zip s₂) v₂ := by
  unfold sumIn
  rw [List.zip_append h₁.symm, List.zip_append (by rw [List.length_zip, h₁, hv, min_self]), List.filter_append, List.map_append, List.sum_append]

theorem countIn_union {d : Nat} {c : Cell} {points₁ points₂ : List (V3 ℚ)} {s₁ s₂ : List Nat} (h₁ : s₁.length = points₁.length) :
    countIn d c ((points₁ ++ points₂).zip (s₁ ++ s₂)) = countIn d c (points₁.zip s₁) + countIn d c (points₂.zip s₂) := by
  unfold countIn
  rw [List.zip_append h₁.symm, List.countP_append]

theorem countIn_pos {d : Nat} {c : Cell} {points : List (V3 ℚ)} {s : List Nat} : 0 < countIn d c (points.zip s) ↔ Occupied points s d c := by
  unfold countIn
  rw [occupied_iff, List.countP_pos_iff]

theorem sumIn_none {V : Type} [AddCommMonoid V] {d : Nat} {c : Cell} {cloud : List (V3 ℚ × Nat)} {v : List V} (h : countIn d c cloud = 0) :
    sumIn d c cloud v = 0 := by
  unfold countIn at h
  rw [List.countP_eq_zero] at h
  unfold sumIn
  rw [List.filter_eq_nil_iff.2]
  · rfl
  · rintro ⟨e, x⟩ he
    exact h e (List.of_mem_zip he).1

/-- **C170, leaf averages.** The position stored for a leaf of the union is the mean of the two stored positions, weighted by the numbers of points of the two
clouds in the leaf, and likewise for the features; the position of a leaf that is empty in one octree counts with weight zero. -/
theorem C170_averages [AddCommGroup F] [Module ℚ F] (nrm : V3 ℚ → V3 ℚ) (o : Octree F) (pc pc₁ pc₂ : Points ℚ F L) (s₁ s₂ : List Nat)
    (h : LegalBuild o pc (s₁ ++ s₂)) (h₁ : LegalBuild o pc₁ s₁) (h₂ : LegalBuild o pc₂ s₂) (hu : IsUnion pc pc₁ pc₂) :
    ∃ o' i' o₁ i₁ o₂ i₂ cells ch cells₁ ch₁ cells₂ ch₂, Octree.build nrm (fun c v => c⁻¹ • v) o pc = .ok (o', i') ∧
      Octree.build nrm (fun c v => c⁻¹ • v) o pc₁ = .ok (o₁, i₁) ∧ Octree.build nrm (fun c v => c⁻¹ • v) o pc₂ = .ok (o₂, i₂) ∧
      CellsOf o.batchSize o.depth o'.keys cells ∧ o'.children o.depth = some ch ∧ CellsOf o.batchSize o.depth o₁.keys cells₁ ∧
      o₁.children o.depth = some ch₁ ∧ CellsOf o.batchSize o.depth o₂.keys cells₂ ∧ o₂.children o.depth = some ch₂ ∧
      ∃ n₁ n₂ : Cell → Nat, (∀ c, n₁ c = countIn o.depth c (pc₁.points.zip s₁)) ∧ (∀ c, n₂ c = countIn o.depth c (pc₂.points.zip s₂)) ∧
      (∀ c, c ∈ nonEmpty cells ch ↔ 0 < n₁ c + n₂ c) ∧ (∀ c, c ∈ nonEmpty cells₁ ch₁ ↔ 0 < n₁ c) ∧ (∀ c, c ∈ nonEmpty cells₂ ch₂ ↔ 0 < n₂ c) ∧
      (∃ P P₁ P₂ : Cell → V3 ℚ, o'.points o.depth = some ((nonEmpty cells ch).map P) ∧ o₁.points o.depth = some ((nonEmpty cells₁ ch₁).map P₁) ∧
        o₂.points o.depth = some ((nonEmpty cells₂ ch₂).map P₂) ∧
        ∀ c ∈ nonEmpty cells ch, (P c).map (((n₁ c + n₂ c : Nat) : ℚ) * ·) = (P₁ c).map ((n₁ c : ℚ) * ·) + (P₂ c).map ((n₂ c : ℚ) * ·)) ∧
      (pc₁.features ≠ none → pc₂.features ≠ none → ∃ f f₁ f₂ : Cell → F, o'.features o.depth = some ((nonEmpty cells ch).map f) ∧
        o₁.features o.depth = some ((nonEmpty cells₁ ch₁).map f₁) ∧ o₂.features o.depth = some ((nonEmpty cells₂ ch₂).map f₂) ∧
        ∀ c ∈ nonEmpty cells ch, ((n₁ c + n₂ c : Nat) : ℚ) • f c = (n₁ c : ℚ) • f₁ c + (n₂ c : ℚ) • f₂ c) := by
  obtain ⟨o', i', cells, ch, b, c1, c2, -, p, f, -⟩ := C11_averages nrm (fun c v => c⁻¹ • v) o pc (s₁ ++ s₂) h
  obtain ⟨o₁, i₁, cells₁, ch₁, b₁, c1₁, c2₁, -, p₁, f₁, -⟩ := C11_averages nrm (fun c v => c⁻¹ • v) o pc₁ s₁ h₁
  obtain ⟨o₂, i₂, cells₂, ch₂, b₂, c1₂, c2₂, -, p₂, f₂, -⟩ := C11_averages nrm (fun c v => c⁻¹ • v) o pc₂ s₂ h₂
  have ne : ∀ (pc : Points ℚ F L) (s : List Nat) (h : LegalBuild o pc s) (o' : Octree F) (i' : List Nat) (cells : List Cell) (ch : List Int),
      Octree.build nrm (fun c v => c⁻¹ • v) o pc = .ok (o', i') → CellsOf o.batchSize o.depth o'.keys cells → o'.children o.depth = some ch →
      ∀ c, c ∈ nonEmpty cells ch ↔ 0 < countIn o.depth c (pc.points.zip s) := by
    intro pc s h o' i' cells ch b c1 c2 c
    obtain ⟨_, _, b', -, -, -, -, cs, hs, C⟩ := C07_build nrm (fun c v => c⁻¹ • v) o pc s h
    rw [b] at b'; cases b'
    obtain ⟨C1, C2, C3, -⟩ := C o.depth (le_refl _)
    rw [C2] at c2; cases c2
    have e : cells = cs o.depth := cells_unique h.depth c1 C1
    rw [e, C3 h.full, countIn_pos]
  refine ⟨o', i', o₁, i₁, o₂, i₂, cells, ch, cells₁, ch₁, cells₂, ch₂, b, b₁, b₂, c1, c2, c1₁, c2₁, c1₂, c2₂,
    fun c => countIn o.depth c (pc₁.points.zip s₁), fun c => countIn o.depth c (pc₂.points.zip s₂), fun _ => rfl, fun _ => rfl, ?_,
    ne pc₁ s₁ h₁ _ _ _ _ b₁ c1₁ c2₁, ne pc₂ s₂ h₂ _ _ _ _ b₂ c1₂ c2₂, ?_, ?_⟩
  · intro c
    rw [ne pc _ h _ _ _ _ b c1 c2, hu.points, countIn_union h₁.cloud.length]
  · refine ⟨_, _, _, p, p₁, p₂, ?_⟩
    intro c hc
    have hn := (ne pc _ h _ _ _ _ b c1 c2 c).1 hc
    rw [hu.points, List.map_append, sumIn_union h₁.cloud.length (by simp), countIn_union h₁.cloud.length]
    rw [hu.points, countIn_union h₁.cloud.length] at hn
    have back : ∀ (pts : List (V3 ℚ)) (s : List Nat) (v : List (V3 ℚ)), ((sumIn o.depth c (pts.zip s) v).map (· / (countIn o.depth c (pts.zip s) : ℚ))).map
        ((countIn o.depth c (pts.zip s) : ℚ) * ·) = sumIn o.depth c (pts.zip s) v := by
      intro pts s v
      by_cases h0 : countIn o.depth c (pts.zip s) = 0
      · rw [sumIn_none h0, h0]
        show (⟨_, _, _⟩ : V3 ℚ) = ⟨_, _, _⟩
        simp
      · have : (countIn o.depth c (pts.zip s) : ℚ) ≠ 0 := by exact_mod_cast h0
        generalize sumIn o.depth c (pts.zip s) v = u
        cases u
        simp only [V3.map, V3.mk.injEq]
        refine ⟨?_, ?_, ?_⟩ <;> field_simp
    rw [back, back]
    have : ((countIn o.depth c (pc₁.points.zip s₁) + countIn o.depth c (pc₂.points.zip s₂) : Nat) : ℚ) ≠ 0 := by exact_mod_cast hn.ne'
    generalize sumIn o.depth c (pc₁.points.zip s₁) (pc₁.points.map (gridPos o.depth)) +
      sumIn o.depth c (pc₂.points.zip s₂) (pc₂.points.map (gridPos o.depth)) = u
    generalize countIn o.depth c (pc₁.points.zip s₁) + countIn o.depth c (pc₂.points.zip s₂) = n at *
    cases u
    simp only [V3.map, V3.mk.injEq]
    refine ⟨?_, ?_, ?_⟩ <;> field_simp
  · intro hf₁ hf₂
    obtain ⟨g₁, hg₁⟩ := Option.ne_none_iff_exists'.1 hf₁
    obtain ⟨g₂, hg₂⟩ := Option.ne_none_iff_exists'.1 hf₂
    refine ⟨_, _, _, (f _ (hu.features _ _ hg₁ hg₂)).1, (f₁ _ hg₁).1, (f₂ _ hg₂).1, ?_⟩
    intro c hc
    have hn := (ne pc _ h _ _ _ _ b c1 c2 c).1 hc
    rw [hu.points, sumIn_union h₁.cloud.length (h₁.cloud.features _ hg₁), countIn_union h₁.cloud.length]
    rw [hu.points, countIn_union h₁.cloud.length] at hn
    have back : ∀ (pts : List (V3 ℚ)) (s : List Nat) (v : List F), (countIn o.depth c (pts.zip s) : ℚ) • (countIn o.depth c (pts.zip s) : ℚ)⁻¹ •
        sumIn o.depth c (pts.zip s) v = sumIn o.depth c (pts.zip s) v := by
      intro pts s v
      by_cases h0 : countIn o.depth c (pts.zip s) = 0
      · rw [sumIn_none h0]
        simp
      · have : (countIn o.depth c (pts.zip s) : ℚ) ≠ 0 := by exact_mod_cast h0
        rw [smul_smul, mul_inv_cancel₀ this, one_smul]
    rw [back, back]
    have : ((countIn o.depth c (pc₁.points.zip s₁) + countIn o.depth c (pc₂.points.zip s₂) : Nat) : ℚ) ≠ 0 := by exact_mod_cast hn.ne'
    rw [smul_smul, mul_inv_cancel₀ this, one_smul]

/-- The hypotheses are met by two clouds, one with a point in a leaf of the other. -/
example : ∃ pc pc₁ pc₂ : Points ℚ ℚ Unit, LegalBuild (Octree.new 5 2 1 0) pc ([0] ++ [0, 0]) ∧ LegalBuild (Octree.new 5 2 1 0) pc₁ [0] ∧
    LegalBuild (Octree.new 5 2 1 0) pc₂ [0, 0] ∧ IsUnion pc pc₁ pc₂ := by
  refine ⟨⟨[⟨0, 0, 0⟩, ⟨1 / 100, 0, 0⟩, ⟨-1 / 2, 0, 0⟩], none, some [1, 2, 3], none, none, 1, none, 0⟩, ⟨[⟨0, 0, 0⟩], none, some [1], none, none, 1, none, 0⟩,
    ⟨[⟨1 / 100, 0, 0⟩, ⟨-1 / 2, 0, 0⟩], none, some [2, 3], none, none, 1, none, 0⟩, ?_, ?_, ?_, ?_⟩
  all_goals first | exact ⟨rfl, by rintro _ _ ⟨⟩ ⟨⟩; rfl⟩ | skip
  all_goals
    refine ⟨by simp [Octree.new], by simp [Octree.new], by simp [Octree.new], rfl, ⟨rfl, by simp [Octree.new], by simp [Octree.new], by simp, ?_⟩, ?_⟩
    · rintro _ ⟨⟩; rfl
    · decide +kernel

end Ocnn
