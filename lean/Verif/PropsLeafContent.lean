import Verif.PropsUnion
import Verif.PropsInterpLayers

/-! C172: what an octree knows of its point cloud. -/

set_option linter.unusedSimpArgs false
set_option linter.unusedVariables false

namespace Ocnn
open Spec
variable {F L L' : Type}

namespace Spec

/-- The two clouds occupy the same cells of level `D`, and in each of these cells they have the same mean position, the same normalised sum of normals and the
same mean feature. -/
structure SameLeaves [AddCommMonoid F] (nrm : V3 ℚ → V3 ℚ) (divF : ℚ → F → F) (D : Nat) (pc : Points ℚ F L) (samples : List Nat) (pc' : Points ℚ F L')
    (samples' : List Nat) : Prop where
  cells : ∀ c, Occupied pc.points samples D c ↔ Occupied pc'.points samples' D c
  positions : ∀ c, Occupied pc.points samples D c → meanPoint D c pc.points samples = meanPoint D c pc'.points samples'
  normals : ∀ c, Occupied pc.points samples D c → (pc.normals.map fun n => nrm (sumIn D c (pc.points.zip samples) n)) =
    pc'.normals.map fun n => nrm (sumIn D c (pc'.points.zip samples') n)
  features : ∀ c, Occupied pc.points samples D c →
    (pc.features.map fun f => divF (countIn D c (pc.points.zip samples) : ℚ) (sumIn D c (pc.points.zip samples) f)) =
      pc'.features.map fun f => divF (countIn D c (pc'.points.zip samples') : ℚ) (sumIn D c (pc'.points.zip samples') f)
  has : pc.normals.isSome = pc'.normals.isSome ∧ pc.features.isSome = pc'.features.isSome

/-- `pc'` has one point per cell of the list: the mean of the points of `pc` in the cell, with their normalised sum of normals and their mean feature. -/
structure Reduced [AddCommMonoid F] (nrm : V3 ℚ → V3 ℚ) (divF : ℚ → F → F) (D : Nat) (pc : Points ℚ F L) (samples : List Nat) (leaves : List Cell)
    (pc' : Points ℚ F L') : Prop where
  points : pc'.points = leaves.map fun c => meanPoint D c pc.points samples
  normals : pc'.normals = pc.normals.map fun n => leaves.map fun c => nrm (sumIn D c (pc.points.zip samples) n)
  features : pc'.features = pc.features.map fun f => leaves.map fun c =>
    divF (countIn D c (pc.points.zip samples) : ℚ) (sumIn D c (pc.points.zip samples) f)
  batch : pc'.batchSize = pc.batchSize
  ids : pc.batchSize ≠ 1 → pc'.batchId = some (leaves.map fun c => (c.b : ℤ))
  device : pc'.device = pc.device

end Spec

theorem occupied_up {points points' : List (V3 ℚ)} {samples samples' : List Nat} {D d : Nat} (hd : d ≤ D) (hc : ∀ p ∈ points, InCube p)
    (hc' : ∀ p ∈ points', InCube p) (h : ∀ c, Occupied points samples D c → Occupied points' samples' D c) {c : Cell} (ho : Occupied points samples d c) :
    Occupied points' samples' d c := by
  obtain ⟨i, p, h1, h2, h3⟩ := ho
  have hp := hc p (List.mem_of_getElem? h1)
  have hD : CubeContains D (cellAt D c.b p) p := (cubeContains_iff _ _ _ hp).2 rfl
  obtain ⟨j, q, g1, g2, g3⟩ := h (cellAt D c.b p) ⟨i, p, h1, h2, hD⟩
  have hq := hc' q (List.mem_of_getElem? g1)
  have e1 := (cubeContains_iff _ _ _ hp).1 (cubeContains_ancestor hd hp hD)
  have e2 := cubeContains_ancestor hd hq g3
  have e3 := (cubeContains_iff _ _ _ hp).1 h3
  have hb : ((cellAt D c.b p).ancestor (D - d)).b = c.b := by rw [← e1]; rw [← e1]; rfl
  rw [hb, e3] at e1
  rw [← e1] at e2
  exact ⟨j, q, g1, g2, e2⟩

/-- What is known about the finest level of a built octree. -/
theorem built_leaves [AddCommMonoid F] (nrm : V3 ℚ → V3 ℚ) (divF : ℚ → F → F) (o : Octree F) (pc : Points ℚ F L) (samples : List Nat) (h : LegalBuild o pc samples) :
    ∃ o' idx cells ch, Octree.build nrm divF o pc = .ok (o', idx) ∧ CellsOf o.batchSize o.depth o'.keys cells ∧ o'.children o.depth = some ch ∧
      (nonEmpty cells ch).Nodup ∧ (∀ c, c ∈ nonEmpty cells ch ↔ Occupied pc.points samples o.depth c) ∧
      o'.points o.depth = some ((nonEmpty cells ch).map fun c => gridPos o.depth (meanPoint o.depth c pc.points samples)) ∧
      (∀ f, pc.features = some f → o'.features o.depth = some ((nonEmpty cells ch).map fun c =>
        divF (countIn o.depth c (pc.points.zip samples) : ℚ) (sumIn o.depth c (pc.points.zip samples) f))) ∧
      (∀ n, pc.normals = some n → o'.normals o.depth = some ((nonEmpty cells ch).map fun c => nrm (sumIn o.depth c (pc.points.zip samples) n))) := by
  obtain ⟨o', idx, cells, ch, h1, h2, h3, h4, h5, h6, h7, _⟩ := C11_averages nrm divF o pc samples h
  obtain ⟨o'', idx', g1, -, -, g4, g5, cs, hs, C⟩ := C07_build nrm divF o pc samples h
  rw [h1] at g1
  obtain ⟨rfl, rfl⟩ := Prod.mk.inj (Except.ok.inj g1)
  have e := cells_unique h.depth h2 (C o.depth le_rfl).1
  subst e
  have e := Option.some.inj (h3.symm.trans (C o.depth le_rfl).2.1)
  subst e
  refine ⟨_, _, _, _, h1, h2, h3, ?_, (C o.depth le_rfl).2.2.1 h.full, ?_, fun f hf => (h6 f hf).1, h7⟩
  · have h2' : CellsOf o'.batchSize o.depth o'.keys (cs o.depth) := by rw [g4]; exact h2
    exact nodes_nodup o' o.depth g5 o.depth le_rfl true 1 _ _ (.one _ _ _ h2' h3)
  · rw [h5]
    congr 1
    exact List.map_congr_left fun c hc => mean_gridPos _ _ _ _ h.cloud.length (h4 c hc)

/-- **C172, same content.** Two clouds that occupy the same leaves with the same means give the same octree: equal in every attribute, at every level.  So
everything computed from the octrees, such as the predictions of a network, is equal. -/
theorem C172_same [AddCommMonoid F] (nrm : V3 ℚ → V3 ℚ) (divF : ℚ → F → F) (o : Octree F) (pc : Points ℚ F L) (pc' : Points ℚ F L') (samples samples' : List Nat)
    (h : LegalBuild o pc samples) (h' : LegalBuild o pc' samples') (hdev : pc'.device = pc.device) (hs : SameLeaves nrm divF o.depth pc samples pc' samples') :
    ∃ o₁ idx idx', Octree.build nrm divF o pc = .ok (o₁, idx) ∧ Octree.build nrm divF o pc' = .ok (o₁, idx') := by
  obtain ⟨S, hO, hm, hS, hb⟩ := build_cube nrm divF o pc samples h.cloud h.same_batch h.inCube h.depth h.full h.batch
  obtain ⟨S', hO', hm', hS', hb'⟩ := build_cube nrm divF o pc' samples' h'.cloud h'.same_batch h'.inCube h'.depth h'.full h'.batch
  have hSS : ∀ d ≤ o.depth, S d = S' d := by
    intro d hd
    apply occ_ext hO hO' d hd
    intro c
    rw [hm d hd, hm' d hd]
    exact ⟨occupied_up hd h.inCube h'.inCube fun c => (hs.cells c).1, occupied_up hd h'.inCube h.inCube fun c => (hs.cells c).2⟩
  obtain ⟨o₁, i₁, cells, ch, g1, g2, g3, -, g4, g5, g6, g7⟩ := built_leaves nrm divF o pc samples h
  obtain ⟨o₂, i₂, cells', ch', k1, k2, k3, -, k4, k5, k6, k7⟩ := built_leaves nrm divF o pc' samples' h'
  have e1 := (Prod.mk.inj (Except.ok.inj (g1.symm.trans hb))).1
  have e2 := (Prod.mk.inj (Except.ok.inj (k1.symm.trans hb'))).1
  obtain ⟨c1, c2, -, -⟩ := builtState_congr (nrm := nrm) (nrm' := nrm) (divF := divF) (divF' := divF) (o := o) (o' := o) (pc := pc) (pc' := pc')
    (ks := (pointCells o.depth pc samples).map (Cell.key o.depth)) (ks' := (pointCells o.depth pc' samples').map (Cell.key o.depth)) rfl rfl rfl hSS o.depth le_rfl
  rw [← e1, ← e2] at c1 c2
  have ec : cells' = cells := by
    apply cells_unique h.depth (keys := o₂.keys) k2
    exact ⟨g2.1, by rw [← c1]; exact g2.2⟩
  subst ec
  have eh : ch' = ch := Option.some.inj (k3.symm.trans (c2.symm.trans g3))
  subst eh
  have hstate : o₁ = o₂ := by
    rw [e1, e2]
    apply builtState_eq hSS hdev
    · funext d
      by_cases hd : d = o.depth
      · subst hd
        rw [← e1, ← e2, g5, k5]
        congr 1
        exact List.map_congr_left fun c hc => by rw [hs.positions c ((g4 c).1 hc)]
      · simp only [builtState, upd, if_neg hd]
    · funext d
      by_cases hd : d = o.depth
      · subst hd
        rw [← e1, ← e2]
        cases hn : pc.normals with
        | none =>
          have hn' : pc'.normals = none := by have := hs.has.1; rw [hn] at this; simpa using this.symm
          rw [e1, e2]
          simp only [builtState, hn, hn']
        | some n =>
          obtain ⟨n', hn'⟩ : ∃ n', pc'.normals = some n' := by
            have := hs.has.1; rw [hn] at this; exact Option.isSome_iff_exists.1 this.symm
          rw [g7 n hn, k7 n' hn']
          congr 1
          refine List.map_congr_left fun c hc => ?_
          have := hs.normals c ((g4 c).1 hc)
          rw [hn, hn'] at this
          exact Option.some.inj this
      · cases hn : pc.normals with
        | none =>
          have hn' : pc'.normals = none := by have := hs.has.1; rw [hn] at this; simpa using this.symm
          simp only [builtState, hn, hn']
        | some n =>
          obtain ⟨n', hn'⟩ : ∃ n', pc'.normals = some n' := by
            have := hs.has.1; rw [hn] at this; exact Option.isSome_iff_exists.1 this.symm
          simp only [builtState, hn, hn', upd, if_neg hd]
    · funext d
      by_cases hd : d = o.depth
      · subst hd
        rw [← e1, ← e2]
        cases hn : pc.features with
        | none =>
          have hn' : pc'.features = none := by have := hs.has.2; rw [hn] at this; simpa using this.symm
          rw [e1, e2]
          simp only [builtState, hn, hn']
        | some n =>
          obtain ⟨n', hn'⟩ : ∃ n', pc'.features = some n' := by
            have := hs.has.2; rw [hn] at this; exact Option.isSome_iff_exists.1 this.symm
          rw [g6 n hn, k6 n' hn']
          congr 1
          refine List.map_congr_left fun c hc => ?_
          have := hs.features c ((g4 c).1 hc)
          rw [hn, hn'] at this
          exact Option.some.inj this
      · cases hn : pc.features with
        | none =>
          have hn' : pc'.features = none := by have := hs.has.2; rw [hn] at this; simpa using this.symm
          simp only [builtState, hn, hn']
        | some n =>
          obtain ⟨n', hn'⟩ : ∃ n', pc'.features = some n' := by
            have := hs.has.2; rw [hn] at this; exact Option.isSome_iff_exists.1 this.symm
          simp only [builtState, hn, hn', upd, if_neg hd]
  exact ⟨o₁, i₁, i₂, g1, by rw [hstate]; exact k1⟩

theorem map_eq_on {A B : Type} {f g : A → B} {l : List A} (h : l.map f = l.map g) : ∀ a ∈ l, f a = g a := List.map_inj_left.1 h

theorem gridPos_inj {D : Nat} {p q : V3 ℚ} (h : gridPos D p = gridPos D q) : p = q := by
  unfold gridPos V3.map at h
  simp only [V3.mk.injEq] at h
  have hp : (2 : ℚ) ^ D / 2 ≠ 0 := by positivity
  have key : ∀ a b : ℚ, (a + 1) * 2 ^ D / 2 = (b + 1) * 2 ^ D / 2 → a = b := by
    intro a b e
    rw [mul_div_assoc, mul_div_assoc] at e
    have := mul_right_cancel₀ hp e
    linarith
  ext
  · exact key _ _ h.1
  · exact key _ _ h.2.1
  · exact key _ _ h.2.2

/-- **C172, nothing more is lost.** Conversely, if two clouds with the same kinds of attributes give the same octree, they occupy the same leaves with the
same means: the octree determines these, and by `C172_same` nothing else of the cloud. -/
theorem C172_determines [AddCommMonoid F] (nrm : V3 ℚ → V3 ℚ) (divF : ℚ → F → F) (o : Octree F) (pc : Points ℚ F L) (pc' : Points ℚ F L') (samples samples' : List Nat)
    (h : LegalBuild o pc samples) (h' : LegalBuild o pc' samples') (hn : pc.normals.isSome = pc'.normals.isSome) (hf : pc.features.isSome = pc'.features.isSome)
    (o₁ : Octree F) (idx idx' : List Nat) (hb : Octree.build nrm divF o pc = .ok (o₁, idx)) (hb' : Octree.build nrm divF o pc' = .ok (o₁, idx')) :
    SameLeaves nrm divF o.depth pc samples pc' samples' := by
  obtain ⟨p₁, i₁, cells, ch, g1, g2, g3, -, g4, g5, g6, g7⟩ := built_leaves nrm divF o pc samples h
  obtain ⟨p₂, i₂, cells', ch', k1, k2, k3, -, k4, k5, k6, k7⟩ := built_leaves nrm divF o pc' samples' h'
  have e1 := (Prod.mk.inj (Except.ok.inj (g1.symm.trans hb))).1
  have e2 := (Prod.mk.inj (Except.ok.inj (k1.symm.trans hb'))).1
  subst e1 e2
  have ec := cells_unique h.depth k2 g2
  subst ec
  have eh : ch' = ch := Option.some.inj (k3.symm.trans g3)
  subst eh
  refine ⟨fun c => (g4 c).symm.trans (k4 c), ?_, ?_, ?_, hn, hf⟩
  · intro c hc
    exact gridPos_inj (map_eq_on (Option.some.inj (g5.symm.trans k5)) c ((g4 c).2 hc))
  · intro c hc
    cases e : pc.normals with
    | none =>
      rw [e] at hn
      have : pc'.normals = none := by simpa using hn.symm
      rw [this]
      rfl
    | some n =>
      rw [e] at hn
      obtain ⟨n', e'⟩ := Option.isSome_iff_exists.1 hn.symm
      rw [e']
      exact congrArg some (map_eq_on (Option.some.inj ((g7 n e).symm.trans (k7 n' e'))) c ((g4 c).2 hc))
  · intro c hc
    cases e : pc.features with
    | none =>
      rw [e] at hf
      have : pc'.features = none := by simpa using hf.symm
      rw [this]
      rfl
    | some n =>
      rw [e] at hf
      obtain ⟨n', e'⟩ := Option.isSome_iff_exists.1 hf.symm
      rw [e']
      exact congrArg some (map_eq_on (Option.some.inj ((g6 n e).symm.trans (k6 n' e'))) c ((g4 c).2 hc))

/-! ### one point per leaf -/

theorem filter_one {leaves : List Cell} (hn : leaves.Nodup) {D : Nat} {mean : Cell → V3 ℚ} (hm : ∀ c ∈ leaves, CubeContains D c (mean c))
    (hin : ∀ c ∈ leaves, InCube (mean c)) {c : Cell} (hc : c ∈ leaves) : leaves.filter (fun c' => belongs D c (mean c', c'.b)) = [c] := by
  have : leaves.filter (fun c' => belongs D c (mean c', c'.b)) = leaves.filter (fun c' => c' == c) := by
    apply List.filter_congr
    intro c' hc'
    have h1 := (cubeContains_iff _ _ _ (hin c' hc')).1 (hm c' hc')
    unfold belongs
    rw [Bool.eq_iff_iff, decide_eq_true_iff, beq_iff_eq]
    constructor
    · rintro ⟨e1, e2⟩
      have h2 := (cubeContains_iff _ _ _ (hin c' hc')).1 e2
      rw [← h1, ← h2]
      simp only at e1
      rw [e1]
    · rintro rfl
      exact ⟨rfl, hm c' hc'⟩
  rw [this, List.filter_beq, List.count_eq_one_of_mem hn hc]
  rfl

theorem sumIn_one {V : Type} [AddCommMonoid V] {leaves : List Cell} (hn : leaves.Nodup) {D : Nat} {mean : Cell → V3 ℚ} (hm : ∀ c ∈ leaves, CubeContains D c (mean c))
    (hin : ∀ c ∈ leaves, InCube (mean c)) (v : Cell → V) {c : Cell} (hc : c ∈ leaves) :
    sumIn D c ((leaves.map mean).zip (leaves.map (·.b))) (leaves.map v) = v c := by
  unfold sumIn
  rw [List.zip_map', List.zip_map', List.filter_map]
  have : ((fun e : (V3 ℚ × Nat) × V => belongs D c e.1) ∘ fun c' => ((mean c', c'.b), v c')) = fun c' => belongs D c (mean c', c'.b) := rfl
  rw [this, filter_one hn hm hin hc]
  simp

theorem countIn_one {leaves : List Cell} (hn : leaves.Nodup) {D : Nat} {mean : Cell → V3 ℚ} (hm : ∀ c ∈ leaves, CubeContains D c (mean c))
    (hin : ∀ c ∈ leaves, InCube (mean c)) {c : Cell} (hc : c ∈ leaves) : countIn D c ((leaves.map mean).zip (leaves.map (·.b))) = 1 := by
  unfold countIn
  rw [List.zip_map', List.countP_map, List.countP_eq_length_filter]
  have : (belongs D c ∘ fun c' => (mean c', c'.b)) = fun c' => belongs D c (mean c', c'.b) := rfl
  rw [this, filter_one hn hm hin hc]
  rfl

/-- **C172, reduction.** Replacing the points of every leaf by one point, their mean with the normalised sum of their normals and their mean feature, gives
exactly the same octree, and the new points are numbered by the leaves: a cloud may be thinned out to the resolution of the octree without any effect on what
is computed from the octree.  Dividing by one changes no feature, and normalising twice is normalising once. -/
theorem C172_reduced [AddCommMonoid F] (nrm : V3 ℚ → V3 ℚ) (divF : ℚ → F → F) (hdiv : ∀ f, divF 1 f = f) (o : Octree F) (pc : Points ℚ F L) (samples : List Nat)
    (h : LegalBuild o pc samples)
    (hnrm : ∀ n, pc.normals = some n → ∀ c, Occupied pc.points samples o.depth c → nrm (nrm (sumIn o.depth c (pc.points.zip samples) n)) =
      nrm (sumIn o.depth c (pc.points.zip samples) n)) :
    ∃ o₁ idx cells ch, Octree.build nrm divF o pc = .ok (o₁, idx) ∧ CellsOf o.batchSize o.depth o₁.keys cells ∧ o₁.children o.depth = some ch ∧
      ∀ pc' : Points ℚ F L', Reduced nrm divF o.depth pc samples (nonEmpty cells ch) pc' →
        Octree.build nrm divF o pc' = .ok (o₁, List.range (nonEmpty cells ch).length) := by
  obtain ⟨o₁, i₁, cells, ch, g1, g2, g3, nd, g4, g5, g6, g7⟩ := built_leaves nrm divF o pc samples h
  refine ⟨o₁, i₁, cells, ch, g1, g2, g3, ?_⟩
  intro pc' hr
  generalize hne : nonEmpty cells ch = leaves at hr nd g4
  have hcube : ∀ c ∈ leaves, CubeContains o.depth c (meanPoint o.depth c pc.points samples) := fun c hc =>
    cube_mean _ _ _ _ h.cloud.length (occupied_countIn ((g4 c).1 hc))
  obtain ⟨o₃, i₃, b₃, -, -, B₃, w₃, cs₃, hs₃, C₃⟩ := C07_build nrm divF o pc samples h
  have hrange : ∀ c ∈ leaves, c.InRange o.batchSize o.depth := by
    intro c hc
    have e := (Prod.mk.inj (Except.ok.inj (g1.symm.trans b₃))).1
    subst e
    have : c ∈ cells := by
      rw [← hne] at hc
      obtain ⟨⟨a, b⟩, hm, he⟩ := List.mem_filterMap.1 hc
      simp only at he
      split at he
      · rw [← Option.some.inj he]
        exact (List.of_mem_zip hm).1
      · cases he
    exact g2.1 c this
  have hin : ∀ c ∈ leaves, InCube (meanPoint o.depth c pc.points samples) := by
    intro c hc
    obtain ⟨r1, r2, r3, r4⟩ := hrange c hc
    obtain ⟨c1, c2, c3⟩ := hcube c hc
    exact ⟨side_range _ _ _ r2 c1, side_range _ _ _ r3 c2, side_range _ _ _ r4 c3⟩
  have hsam : (leaves.map fun c => (c.b : ℤ)) = (leaves.map (·.b)).map Int.ofNat := by
    rw [List.map_map]
    rfl
  have h' : LegalBuild o pc' (leaves.map (·.b)) := by
    refine ⟨h.depth, h.full, h.batch, by rw [hr.batch, h.same_batch], ⟨by rw [hr.points]; simp, ?_, ?_, ?_, ?_⟩, ?_⟩
    · intro b hb
      obtain ⟨c, hc, rfl⟩ := List.mem_map.1 hb
      exact (hrange c hc).1
    · intro hB
      rw [hr.ids (by rw [h.same_batch]; exact hB), hsam]
    · intro n hn
      rw [hr.normals] at hn
      obtain ⟨m, -, rfl⟩ := Option.map_eq_some_iff.1 hn
      rw [hr.points]
      simp
    · intro n hn
      rw [hr.features] at hn
      obtain ⟨m, -, rfl⟩ := Option.map_eq_some_iff.1 hn
      rw [hr.points]
      simp
    · intro p hp
      rw [hr.points] at hp
      obtain ⟨c, hc, rfl⟩ := List.mem_map.1 hp
      exact hin c hc
  have hocc : ∀ c, Occupied pc.points samples o.depth c ↔ Occupied pc'.points (leaves.map (·.b)) o.depth c := by
    intro c
    rw [← g4, ← countIn_pos, hr.points]
    constructor
    · intro hc
      rw [countIn_one nd hcube hin hc]
      exact Nat.one_pos
    · intro hc
      obtain ⟨e, he, hb⟩ := occupied_iff.1 (countIn_pos.1 hc)
      rw [List.zip_map', List.mem_map] at he
      obtain ⟨c', hc', rfl⟩ := he
      obtain ⟨e1, e2⟩ := of_decide_eq_true hb
      have h1 := (cubeContains_iff _ _ _ (hin c' hc')).1 (hcube c' hc')
      have h2 := (cubeContains_iff _ _ _ (hin c' hc')).1 e2
      simp only at e1
      rw [← h2, ← e1, h1]
      exact hc'
  have hs : SameLeaves nrm divF o.depth pc samples pc' (leaves.map (·.b)) := by
    refine ⟨hocc, ?_, ?_, ?_, by rw [hr.normals]; simp, by rw [hr.features]; simp⟩
    · intro c hc
      have hc' := (g4 c).2 hc
      conv_rhs => unfold meanPoint
      rw [hr.points, sumIn_one nd hcube hin _ hc', countIn_one nd hcube hin hc']
      show _ = (⟨_, _, _⟩ : V3 ℚ)
      ext <;> simp [V3.map]
    · intro c hc
      have hc' := (g4 c).2 hc
      rw [hr.normals, hr.points]
      cases e : pc.normals with
      | none => rfl
      | some n =>
        simp only [Option.map_some]
        rw [sumIn_one nd hcube hin _ hc', hnrm n e c hc]
    · intro c hc
      have hc' := (g4 c).2 hc
      rw [hr.features, hr.points]
      cases e : pc.features with
      | none => rfl
      | some n =>
        simp only [Option.map_some]
        rw [sumIn_one nd hcube hin _ hc', countIn_one nd hcube hin hc', Nat.cast_one, hdiv]
  obtain ⟨o₂, j, j', k1, k2⟩ := C172_same nrm divF o pc pc' samples (leaves.map (·.b)) h h' hr.device hs
  have e := (Prod.mk.inj (Except.ok.inj (g1.symm.trans k1))).1
  subst e
  rw [k2]
  obtain ⟨o₄, i₄, cells', ch', q1, q2, q3, q4, q5⟩ := C08_leaf_index nrm divF o pc' (leaves.map (·.b)) h'
  obtain ⟨r1, r2⟩ := Prod.mk.inj (Except.ok.inj (k2.symm.trans q1))
  subst r1 r2
  have e := cells_unique h.depth q2 g2
  subst e
  have e := Option.some.inj (q3.symm.trans g3)
  subst e
  rw [hne] at q5
  congr 2
  have hl : j'.length = leaves.length := by rw [q4, hr.points, List.length_map]
  apply List.ext_getElem?
  intro i
  by_cases hi : i < leaves.length
  · obtain ⟨r, c, a1, a2, a3, a4⟩ := q5 i _ _ (by rw [hr.points, List.getElem?_map, List.getElem?_eq_getElem hi]; rfl)
      (by rw [List.getElem?_map, List.getElem?_eq_getElem hi]; rfl)
    have m := List.getElem_mem hi
    have h1 := (cubeContains_iff _ _ _ (hin _ m)).1 (hcube _ m)
    have h2 := (cubeContains_iff _ _ _ (hin _ m)).1 a4
    rw [a3, h1] at h2
    obtain ⟨hrl, hre⟩ := List.getElem?_eq_some_iff.1 a2
    have : r = i := (nd.getElem_inj_iff).1 (hre.trans h2.symm)
    rw [a1, this, List.getElem?_range hi]
  · rw [List.getElem?_eq_none (by omega), List.getElem?_eq_none (by simp; omega)]

/-- The hypotheses are met by a cloud with two points in one leaf and a third elsewhere, with normals and features; `nrm` sends upward vectors to the unit vector.
A reduced cloud exists for any list of leaves. -/
example : ∃ (nrm : V3 ℚ → V3 ℚ) (divF : ℚ → ℚ → ℚ) (pc : Points ℚ ℚ Unit), (∀ f, divF 1 f = f) ∧ LegalBuild (Octree.new 5 2 1 0) pc [0, 0, 0] ∧
    Occupied pc.points [0, 0, 0] 5 ⟨0, 16, 16, 16⟩ ∧ countIn 5 ⟨0, 16, 16, 16⟩ (pc.points.zip [0, 0, 0]) = 2 ∧
    (∀ n, pc.normals = some n → ∀ c, Occupied pc.points [0, 0, 0] 5 c → nrm (nrm (sumIn 5 c (pc.points.zip [0, 0, 0]) n)) = nrm (sumIn 5 c (pc.points.zip [0, 0, 0]) n)) ∧
    ∀ leaves, ∃ pc' : Points ℚ ℚ Unit, Reduced nrm divF 5 pc [0, 0, 0] leaves pc' := by
  refine ⟨fun v => if 0 < v.z then ⟨0, 0, 1⟩ else v, fun q f => f / q,
    ⟨[⟨0, 0, 0⟩, ⟨1 / 100, 0, 0⟩, ⟨-1 / 2, 0, 0⟩], some [⟨0, 0, 1⟩, ⟨0, 1, 1⟩, ⟨1, 0, 0⟩], some [1, 2, 3], none, none, 1, none, 0⟩, by simp, ?_, ?_, by decide +kernel, ?_, ?_⟩
  · refine ⟨by simp [Octree.new], by simp [Octree.new], by simp [Octree.new], rfl, ⟨rfl, by simp [Octree.new], by simp [Octree.new], ?_, ?_⟩, ?_⟩
    · rintro _ ⟨⟩; rfl
    · rintro _ ⟨⟩; rfl
    · decide +kernel
  · exact ⟨0, ⟨0, 0, 0⟩, rfl, rfl, by decide +kernel⟩
  · intro n _ c _
    generalize sumIn 5 c _ n = v
    by_cases h : 0 < v.z
    · simp [h]
    · simp [h]
  · intro leaves
    exact ⟨⟨leaves.map fun c => _, some (leaves.map fun c => _), some (leaves.map fun c => _), none, some (leaves.map fun c => (c.b : ℤ)), 1, none, 0⟩,
      rfl, rfl, rfl, rfl, fun _ => rfl, rfl⟩

end Ocnn
