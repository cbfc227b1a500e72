import Verif.FloatLeafLemmas
import Verif.PropsBuild

/-! The averages over the points of a leaf in single precision: which points they combine, when they stay inside the node, and how far they are from the exact
averages (C161). -/

set_option linter.unusedSimpArgs false
set_option linter.unusedVariables false

namespace Ocnn
open Spec

variable {F L V : Type}

namespace Spec

/-- The values of the points whose leaf is `r`, with repetitions. -/
def valuesOf (idx : List Nat) (vals : List V) (r : Nat) : Multiset V := ((((idx.zip vals).filter fun e => decide (e.1 = r)).map Prod.snd : List V) : Multiset V)

/-- The single precision average of the given positions is a point of the closed-open unit cube at `c`, in whatever order every coordinate is added up. -/
def AverageInside (c : Cell) (s : Multiset (V3 ℚ)) (n : Nat) : Prop :=
  (∀ v, AverageF32 (s.map V3.x) n v → (c.x : ℚ) ≤ v ∧ v < c.x + 1) ∧
  (∀ v, AverageF32 (s.map V3.y) n v → (c.y : ℚ) ≤ v ∧ v < c.y + 1) ∧
  (∀ v, AverageF32 (s.map V3.z) n v → (c.z : ℚ) ≤ v ∧ v < c.z + 1)

end Spec

/-! ### the summands of a leaf -/

theorem sum_singletons (l : List V) : (l.map fun v => ({v} : Multiset V)).sum = (l : Multiset V) := by
  induction l with
  | nil => rfl
  | cons a l ih => rw [List.map_cons, List.sum_cons, ih]; rfl

theorem filter_zip_vals {W : Type} (f : V → W) (js : List Nat) (src : List V) (r : Nat) :
    ((js.zip (src.map f)).filter fun p => decide (p.1 = r)).map Prod.snd = (((js.zip src).filter fun p => decide (p.1 = r)).map Prod.snd).map f := by
  induction js generalizing src with
  | nil => rfl
  | cons a js ih =>
    cases src with
    | nil => rfl
    | cons b src =>
      have ih' := ih src
      simp only [List.map_cons, List.zip_cons_cons, List.filter_cons]
      by_cases h : a = r <;> simp [h, ih']

theorem count_filter_zip (ks : List Nat) (src : List V) (hl : ks.length = src.length) (k : Nat) :
    (((ks.zip src).filter fun p => decide (p.1 = k)).map Prod.snd).length = ks.count k := by
  induction ks generalizing src with
  | nil => simp
  | cons a ks ih =>
    cases src with
    | nil => simp at hl
    | cons b src =>
      have ih' := ih src (by simpa using hl)
      simp only [List.length_map] at ih' ⊢
      simp only [List.zip_cons_cons, List.filter_cons, List.count_cons]
      by_cases h : a = k <;> simp [h, ih']

/-- the cloud whose points are those that the code sees after rounding -/
theorem legal_rounded {o : Octree F} {pc : Points ℚ F L} {samples : List Nat} (h : LegalBuild o pc samples) (ht : ∀ p ∈ pc.points, BelowTop p) :
    LegalBuild o { pc with points := pc.points.map (V3.map roundCoord) } samples := by
  refine ⟨h.depth, h.full, h.batch, h.same_batch, ⟨by simp [h.cloud.length], h.cloud.lt, h.cloud.ids, ?_, ?_⟩, ?_⟩
  · intro n hn
    simpa using h.cloud.normals n hn
  · intro f hf
    simpa using h.cloud.features f hf
  · intro p hp
    obtain ⟨q, hq, rfl⟩ := List.mem_map.1 hp
    obtain ⟨hx, hy, hz⟩ := ht q hq
    exact ⟨roundCoord_range _ hx.1 hx.2, roundCoord_range _ hy.1 hy.2, roundCoord_range _ hz.1 hz.2⟩

theorem leafTerms_ok [AddCommMonoid F] (nrm : V3 ℚ → V3 ℚ) (divF : ℚ → F → F) (o : Octree F) (pc : Points ℚ F L) (samples : List Nat)
    (h : LegalBuild o pc samples) (ht : ∀ p ∈ pc.points, BelowTop p) (src : List V) (hl : src.length = pc.points.length) :
    ∃ o' idx cells ch, Octree.buildF32 nrm divF o pc = .ok (o', idx) ∧ CellsOf o.batchSize o.depth o'.keys cells ∧ o'.children o.depth = some ch ∧
      Octree.leafTerms o pc src = .ok ((List.range (nonEmpty cells ch).length).map fun r => (valuesOf idx src r, (valuesOf idx src r).card)) ∧
      idx.length = pc.points.length ∧
      (∀ c ∈ nonEmpty cells ch, c.x < 2 ^ o.depth ∧ c.y < 2 ^ o.depth ∧ c.z < 2 ^ o.depth) ∧
      (∀ (i : Nat) (p : V3 ℚ) (b : Nat), pc.points[i]? = some p → samples[i]? = some b →
        ∃ (r : Nat) (c : Cell), idx[i]? = some r ∧ (nonEmpty cells ch)[r]? = some c ∧ c.b = b ∧ CubeContains o.depth c (p.map roundCoord)) ∧
      (∀ r < (nonEmpty cells ch).length, r ∈ idx) ∧ (nonEmpty cells ch).Nodup := by
  have hb' := legal_rounded h ht
  set pc' : Points ℚ F L := { pc with points := pc.points.map (V3.map roundCoord) } with hpc
  obtain ⟨S, hO, hm, hS, hb⟩ := build_cube nrm divF o pc' samples hb'.cloud hb'.same_batch hb'.inCube hb'.depth hb'.full hb'.batch
  have w := builtState_wf nrm divF o pc' h.depth h.full h.batch S hO ((pointCells o.depth pc' samples).map (Cell.key o.depth))
  have hpts : pc'.points.map (rescale o.depth) = pc.points.map fun p => p.map (scaleF32 o.depth) := by
    simp only [hpc, List.map_map]
    refine List.map_congr_left fun p _ => ?_
    simp [rescale, V3.map, scaleF32_eq]
  set ks := (pointCells o.depth pc' samples).map (Cell.key o.depth) with hks
  have hlen : ks.length = src.length := by rw [hks, List.length_map, pointCells_length hb'.cloud, hl]; simp [hpc]
  have hbid : ∃ bid, (if o.batchSize = 1 then pure none else do
      let b ← need pc.batchId
      pure (some b) : M (Option (List Int))) = .ok bid ∧
      ((o.batchSize = 1 ∧ bid = none) ∨ bid = some (samples.map Int.ofNat)) := by
    by_cases h1 : o.batchSize = 1
    · exact ⟨none, by simp [h1, pure, Except.pure], Or.inl ⟨h1, rfl⟩⟩
    · refine ⟨some (samples.map Int.ofNat), ?_, Or.inr rfl⟩
      rw [if_neg h1, h.cloud.ids h1]
      rfl
  obtain ⟨bid, hbid, hbid'⟩ := hbid
  have hkeys : Octree.pointKeys (pc.points.map fun p => p.map (scaleF32 o.depth)) bid o.depth = .ok ks := by
    rw [← hpts]
    exact pointKeys_ok o.depth o.batchSize h.depth h.batch _ samples (by rw [List.length_map]; exact hb'.cloud.length) h.cloud.lt bid hbid'
  have hn : (S o.depth).length = (unique ks).length := by rw [← hS, List.length_map]
  refine ⟨_, _, layerCells o.batchSize (occMasks o.batchSize o.fullDepth S) o.depth, _, by rw [buildF32_eq, hb], w.cellsOf _ (le_refl _),
    w.children _ (le_refl _), ?_, ?_, ?_, ?_, ?_, ?_⟩
  · rw [hO.nempty o.depth (le_refl _) h.full, hn]
    unfold Octree.leafTerms
    simp only [bind, Except.bind] at hbid ⊢
    rw [hbid]
    dsimp only
    rw [hkeys]
    dsimp only
    rw [scatterAdd_ok _ (uniqueInv ks) (unique ks).length (by simp [uniqueInv, hlen]) (uniqueInv_lt ks) (uniqueInv_surj ks), scatterSum_eq]
    dsimp only
    rw [if_pos (by simp [uniqueCounts])]
    simp only [pure, Except.pure]
    congr 1
    apply List.ext_getElem?
    intro r
    by_cases hr : r < (unique ks).length
    · have hv : (((((uniqueInv ks).zip (src.map fun v => ({v} : Multiset V))).filter fun p => decide (p.1 = r)).map Prod.snd).sum) =
          valuesOf (uniqueInv ks) src r := by
        rw [filter_zip_vals, sum_singletons]
        rfl
      have hcard : (valuesOf (uniqueInv ks) src r).card = ks.count ((unique ks)[r]) := by
        unfold valuesOf uniqueInv
        rw [Multiset.coe_card, filter_inv ks (unique ks) (unique_nodup ks) (fun k hk => (mem_unique ks k).mpr hk) src r _
          (List.getElem?_eq_getElem hr), count_filter_zip ks src hlen]
      rw [List.zip_eq_zipWith, List.getElem?_zipWith]
      simp only [List.getElem?_map, List.getElem?_range hr, Option.map_some, uniqueCounts, List.getElem?_eq_getElem hr, hv, hcard]
    · rw [List.getElem?_eq_none (by simp [uniqueCounts]; omega), List.getElem?_eq_none (by simp; omega)]
  · rw [uniqueInv, List.length_map, hlen, hl]
  · intro c hc
    rw [hO.nempty o.depth (le_refl _) h.full] at hc
    exact (hO.range _ (le_refl _) c hc).2
  · intro i p b hp hbi
    rw [hO.nempty o.depth (le_refl _) h.full]
    have hp' : pc'.points[i]? = some (p.map roundCoord) := by simp [hpc, hp]
    have hcell : (pointCells o.depth pc' samples)[i]? = some (wrapCell o.depth (rescale o.depth (p.map roundCoord)) b) := by
      simp [pointCells, List.getElem?_zipWith, hp', hbi]
    obtain ⟨r, hr1, hr2⟩ := (uniqueInv_spec ks).2 i
      ((wrapCell o.depth (rescale o.depth (p.map roundCoord)) b).key o.depth) (by rw [hks, List.getElem?_map, hcell]; rfl)
    rw [← hS, List.getElem?_map] at hr2
    cases hc : (S o.depth)[r]? with
    | none => rw [hc] at hr2; simp at hr2
    | some c =>
      rw [hc] at hr2
      simp only [Option.map_some, Option.some.injEq] at hr2
      have hin := hb'.inCube _ (List.mem_of_getElem? hp')
      have e := Cell.key_injective h.depth (hO.range _ (le_refl _) c (List.mem_of_getElem? hc))
        (wrapCell_inRange o.depth o.batchSize _ b (h.cloud.lt b (List.mem_of_getElem? hbi))) hr2
      rw [wrapCell_cellAt _ _ _ hin] at e
      have eb : c.b = b := by rw [e]; rfl
      refine ⟨r, c, hr1, hc, eb, ?_⟩
      rw [cubeContains_iff _ _ _ hin, eb, e]
  · intro r hr
    rw [hO.nempty o.depth (le_refl _) h.full, hn] at hr
    have hm : (unique ks)[r] ∈ ks := (mem_unique ks _).mp (List.getElem_mem hr)
    refine List.mem_map.mpr ⟨_, hm, ?_⟩
    exact (unique_nodup ks).idxOf_getElem r hr
  · rw [hO.nempty o.depth (le_refl _) h.full]
    exact List.Nodup.of_map (Cell.key o.depth) (hS ▸ unique_nodup ks)

/-! ### the property -/

/-- **C161**, the summands: for a cloud with coordinates below `1 - 2^-24`, in single precision every non-empty finest node averages exactly the values of the
points that the returned index assigns to it, each of them once, divides by the number of these points, and this number is not 0. -/
theorem C161_terms [AddCommMonoid F] (nrm : V3 ℚ → V3 ℚ) (divF : ℚ → F → F) (o : Octree F) (pc : Points ℚ F L) (samples : List Nat)
    (h : LegalBuild o pc samples) (ht : ∀ p ∈ pc.points, BelowTop p) (src : List V) (hl : src.length = pc.points.length) :
    ∃ o' idx cells ch, Octree.buildF32 nrm divF o pc = .ok (o', idx) ∧ CellsOf o.batchSize o.depth o'.keys cells ∧ o'.children o.depth = some ch ∧
      Octree.leafTerms o pc src = .ok ((List.range (nonEmpty cells ch).length).map fun r => (valuesOf idx src r, (valuesOf idx src r).card)) ∧
      ∀ r < (nonEmpty cells ch).length, 0 < (valuesOf idx src r).card := by
  obtain ⟨o', idx, cells, ch, h1, h2, h3, h4, h5, h6, h7, h8, -⟩ := leafTerms_ok nrm divF o pc samples h ht src hl
  refine ⟨o', idx, cells, ch, h1, h2, h3, h4, fun r hr => ?_⟩
  obtain ⟨i, hi, e⟩ := List.mem_iff_getElem.mp (h8 r hr)
  rw [Multiset.card_pos_iff_exists_mem]
  refine ⟨src[i]'(by omega), ?_⟩
  unfold valuesOf
  rw [Multiset.mem_coe, List.mem_map]
  refine ⟨(r, src[i]'(by omega)), List.mem_filter.mpr ⟨?_, by simp⟩, rfl⟩
  rw [List.mem_iff_getElem]
  exact ⟨i, by simp; omega, by simp [e]⟩

theorem valuesOf_mem {idx : List Nat} {vals : List V} {r : Nat} {v : V} (h : v ∈ valuesOf idx vals r) : ∃ i : Nat, idx[i]? = some r ∧ vals[i]? = some v := by
  unfold valuesOf at h
  rw [Multiset.mem_coe, List.mem_map] at h
  obtain ⟨⟨a, b⟩, hm, rfl⟩ := h
  obtain ⟨hm', he⟩ := List.mem_filter.mp hm
  have he : a = r := by simpa using he
  subst he
  obtain ⟨i, hi⟩ := List.mem_iff_getElem?.mp hm'
  rw [List.zip_eq_zipWith, List.getElem?_zipWith] at hi
  refine ⟨i, ?_⟩
  cases h1 : idx[i]? with
  | none => rw [h1] at hi; simp at hi
  | some x =>
    cases h2 : vals[i]? with
    | none => rw [h1, h2] at hi; simp at hi
    | some y => rw [h1, h2] at hi; simp at hi; simp [hi.1, hi.2]

theorem average_side {D m n : Nat} (hm : m < 2 ^ D) (s : Multiset ℚ) (hc : s.card = n) (hn : n * 2 ^ D ≤ 2 ^ 24)
    (hs : ∀ a ∈ s, ∃ u : ℚ, a = scaleF32 D u ∧ SideContains D m (roundCoord u)) (v : ℚ) (hv : AverageF32 s n v) : (m : ℚ) ≤ v ∧ v < m + 1 := by
  subst hc
  refine averageF32_inside hv (fun a ha => ?_) (le_trans (Nat.mul_le_mul_left _ hm) hn)
  obtain ⟨u, rfl, hu⟩ := hs a ha
  refine ⟨f32_isF32 _, ?_⟩
  rw [scaleF32_eq]
  rw [sideContains_grid] at hu
  have e : (roundCoord u + 1) * 2 ^ ((D : ℤ) - 1) = (roundCoord u + 1) * 2 ^ D / 2 := by
    rw [zpow_sub₀ (by norm_num), zpow_natCast, zpow_one, mul_div_assoc]
  rw [e]
  exact hu

/-- **C161** for nodes with few points: in single precision the stored position of a non-empty finest node with `n` points is inside the node when
`n * 2^depth ≤ 2^24`, in whatever order the coordinates are added up.  Missing: nodes with more points, for which the claim is false, see `C161_violated`. -/
theorem C161_partial [AddCommMonoid F] (nrm : V3 ℚ → V3 ℚ) (divF : ℚ → F → F) (o : Octree F) (pc : Points ℚ F L) (samples : List Nat)
    (h : LegalBuild o pc samples) (ht : ∀ p ∈ pc.points, BelowTop p) :
    ∃ o' idx cells ch leaves, Octree.buildF32 nrm divF o pc = .ok (o', idx) ∧ CellsOf o.batchSize o.depth o'.keys cells ∧
      o'.children o.depth = some ch ∧ Octree.leafTerms o pc (pc.points.map fun p => p.map (scaleF32 o.depth)) = .ok leaves ∧
      leaves.length = (nonEmpty cells ch).length ∧
      ∀ (r : Nat) (c : Cell) (s : Multiset (V3 ℚ)) (n : Nat), (nonEmpty cells ch)[r]? = some c → leaves[r]? = some (s, n) →
        n * 2 ^ o.depth ≤ 2 ^ 24 → AverageInside c s n := by
  obtain ⟨o', idx, cells, ch, h1, h2, h3, h4, h5, h6, h7, h8, -⟩ := leafTerms_ok nrm divF o pc samples h ht (pc.points.map fun p => p.map (scaleF32 o.depth)) (by simp)
  refine ⟨o', idx, cells, ch, _, h1, h2, h3, h4, by simp, fun r c s n hc hs hn => ?_⟩
  have hr : r < (nonEmpty cells ch).length := (List.getElem?_eq_some_iff.mp hc).1
  rw [List.getElem?_map, List.getElem?_range hr] at hs
  simp only [Option.map_some, Option.some.injEq, Prod.mk.injEq] at hs
  obtain ⟨rfl, rfl⟩ := hs
  have hmem : ∀ q ∈ valuesOf idx (pc.points.map fun p => p.map (scaleF32 o.depth)) r, ∃ p : V3 ℚ, q = p.map (scaleF32 o.depth) ∧
      CubeContains o.depth c (p.map roundCoord) := by
    intro q hq
    obtain ⟨i, hi, hv⟩ := valuesOf_mem hq
    rw [List.getElem?_map] at hv
    cases hp : pc.points[i]? with
    | none => rw [hp] at hv; simp at hv
    | some p =>
      rw [hp] at hv
      simp only [Option.map_some, Option.some.injEq] at hv
      have hi' : i < samples.length := by rw [h.cloud.length]; exact (List.getElem?_eq_some_iff.mp hp).1
      obtain ⟨r', c', g1, g2, g3, g4⟩ := h7 i p _ hp (List.getElem?_eq_getElem hi')
      rw [hi] at g1
      simp only [Option.some.injEq] at g1
      subst g1
      rw [hc] at g2
      simp only [Option.some.injEq] at g2
      subst g2
      exact ⟨p, hv.symm, g4⟩
  obtain ⟨hx, hy, hz⟩ := h6 c (List.mem_of_getElem? hc)
  refine ⟨fun v hv => ?_, fun v hv => ?_, fun v hv => ?_⟩
  · refine average_side hx _ (by simp) hn (fun a ha => ?_) v hv
    obtain ⟨q, hq, rfl⟩ := Multiset.mem_map.mp ha
    obtain ⟨p, rfl, hp⟩ := hmem q hq
    exact ⟨p.x, rfl, hp.1⟩
  · refine average_side hy _ (by simp) hn (fun a ha => ?_) v hv
    obtain ⟨q, hq, rfl⟩ := Multiset.mem_map.mp ha
    obtain ⟨p, rfl, hp⟩ := hmem q hq
    exact ⟨p.y, rfl, hp.2.1⟩
  · refine average_side hz _ (by simp) hn (fun a ha => ?_) v hv
    obtain ⟨q, hq, rfl⟩ := Multiset.mem_map.mp ha
    obtain ⟨p, rfl, hp⟩ := hmem q hq
    exact ⟨p.z, rfl, hp.2.2⟩

/-- **C161**, the error: for a signal with one number per point - a coordinate or a channel of the features - and a node with `n ≤ 2^24` points, the single
precision average differs from the exact average by at most `(1 + 2^-24)^(n + 1) - 1` times the average of the absolute values, in whatever order the values
are added up. -/
theorem C161_error (o : Octree F) (pc : Points ℚ F L) (samples : List Nat) (h : LegalBuild o pc samples) (ht : ∀ p ∈ pc.points, BelowTop p)
    (src : List ℚ) (hl : src.length = pc.points.length) :
    ∃ leaves, Octree.leafTerms o pc src = .ok leaves ∧
      ∀ s n, (s, n) ∈ leaves → n = s.card ∧ 0 < n ∧ (n ≤ 2 ^ 24 → ∀ v, AverageF32 s n v →
        |v - s.sum / n| ≤ ((1 + 1 / 2 ^ 24) ^ (n + 1) - 1) * ((s.map fun a => |a|).sum / n)) := by
  obtain ⟨_, idx, cells, ch, -, -, -, h4, h5⟩ := C161_terms (F := Unit) (L := L) id (fun _ v => v) (Octree.new o.depth o.fullDepth o.batchSize 0)
    ⟨pc.points, pc.normals, none, none, pc.batchId, pc.batchSize, none, 0⟩ samples
    ⟨h.depth, h.full, h.batch, h.same_batch, ⟨h.cloud.length, h.cloud.lt, h.cloud.ids, h.cloud.normals, by simp⟩, h.inCube⟩ ht src hl
  refine ⟨_, h4, fun s n hm => ?_⟩
  obtain ⟨r, hr, e⟩ := List.mem_map.mp hm
  simp only [Prod.mk.injEq] at e
  obtain ⟨rfl, rfl⟩ := e
  exact ⟨rfl, h5 r (by simpa using hr), fun hc v hv => averageF32_error hv hc⟩

/-! ### the violation -/

/-- `n` copies of 65533 added up one after the other: exact up to `n = 256` -/
theorem sum_copies : ∀ n : Nat, n + 1 ≤ 256 → SumF32 (Multiset.replicate (n + 1) 65533) ((n + 1 : ℕ) * 65533)
  | 0, _ => by simpa using SumF32.single 65533
  | n + 1, h => by
    have ih := sum_copies n (by omega)
    have := SumF32.add _ _ _ _ ih (SumF32.single 65533)
    have e : f32 (((n + 1 : ℕ) : ℚ) * 65533 + 65533) = ((n + 1 + 1 : ℕ) : ℚ) * 65533 := by
      have e1 : ((n + 1 : ℕ) : ℚ) * 65533 + 65533 = (((n + 1 + 1) * 65533 : ℕ) : ℚ) := by push_cast; ring
      rw [e1, f32_exact (isF32_nat (by omega))]
      push_cast
      ring
    rw [e] at this
    have e2 : Multiset.replicate (n + 1) (65533 : ℚ) + {65533} = Multiset.replicate (n + 1 + 1) 65533 := by
      rw [← Multiset.replicate_one, ← Multiset.replicate_add]
    rwa [e2] at this

theorem f32_odd : f32 16841981 = 16841980 := by
  have hl : Int.log 2 |(16841981 : ℚ)| = 24 := log_unique (by rw [abs_of_pos (by norm_num)]; norm_num) (by rw [abs_of_pos (by norm_num)]; norm_num)
  have hf : ⌊(16841981 : ℚ) / 2 ^ ((24 : ℤ) - 23)⌋ = 8420990 := by
    rw [Int.floor_eq_iff]
    norm_num
  unfold f32 ulp
  rw [hl, rne, hf]
  norm_num

/-- the average of 257 copies of 65533 can be less than 65533 -/
theorem average_below : ∃ v, AverageF32 (Multiset.replicate 257 65533) 257 v ∧ v < 65533 := by
  have h1 := SumF32.add _ _ _ _ (sum_copies 255 (by norm_num)) (SumF32.single 65533)
  have e2 : Multiset.replicate (255 + 1) (65533 : ℚ) + {65533} = Multiset.replicate 257 65533 := by
    rw [← Multiset.replicate_one, ← Multiset.replicate_add]
  have e3 : (((255 + 1 : ℕ) : ℚ) * 65533 + 65533) = 16841981 := by norm_num
  rw [e2, e3, f32_odd] at h1
  refine ⟨_, ⟨_, h1, rfl⟩, ?_⟩
  have e4 : f32 ((257 : ℕ) : ℚ) = 257 := by rw [f32_exact (isF32_nat (by norm_num))]; norm_num
  rw [e4]
  have hc : Nat.clog 2 65533 = 16 := by
    decide +kernel
  have hg : gap 65533 = 1 / 256 := by
    unfold gap
    rw [hc]
    norm_num
  have := f32_lt (N := 65533) (by norm_num) (by norm_num) (x := 16841980 / 257) (by rw [hg]; norm_num)
  rw [hg] at this
  refine lt_of_le_of_lt this (by norm_num)

/-- A cloud of 257 equal points. -/
def crowd : Points ℚ ℚ Unit := ⟨List.replicate 257 ⟨32765 / 32768, 32765 / 32768, 32765 / 32768⟩, none, none, none, none, 1, none, 0⟩

theorem crowd_legal (full : Nat) (hf : full ≤ 16) : LegalBuild (Octree.new 16 full 1 0) crowd (List.replicate 257 0) := by
  refine ⟨by simp [Octree.new], hf, by simp [Octree.new], rfl, ⟨by rw [crowd, List.length_replicate, List.length_replicate], ?_, fun h => absurd rfl h,
    fun n hn => absurd (show (none : Option (List (V3 ℚ))) = some n from hn) (Option.some_ne_none n).symm,
    fun f hf => absurd (show (none : Option (List ℚ)) = some f from hf) (Option.some_ne_none f).symm⟩, ?_⟩
  · intro b hb
    rw [List.mem_replicate] at hb
    simp [Octree.new, hb.2]
  · intro p hp
    simp only [crowd] at hp
    rw [List.mem_replicate] at hp
    rw [hp.2]
    norm_num [InCube]

theorem crowd_below : ∀ p ∈ crowd.points, BelowTop p := by
  intro p hp
  simp only [crowd] at hp
  rw [List.mem_replicate] at hp
  rw [hp.2]
  norm_num [BelowTop]

theorem crowd_round : roundCoord (32765 / 32768) = 32765 / 32768 := by
  unfold roundCoord
  rw [f32_exact ⟨65533, -15, by norm_num, by rw [zpow_neg]; norm_num⟩]
  norm_num

theorem crowd_scaled : scaleF32 16 (32765 / 32768) = 65533 := by
  rw [scaleF32_eq, crowd_round]
  norm_num

/-- C161 is violated by a node with many points: of 257 equal points at depth 16, whose position in units of the finest nodes has the coordinates 65533, the single
precision average can be less than 65533 - adding up the points in their order gives it -, so that it lies outside the node. -/
theorem C161_violated (full : Nat) (hf : full ≤ 16) :
    ∃ (o' : Octree ℚ) (idx : List Nat) (cells : List Cell) (ch : List Int) (leaves : List (Multiset (V3 ℚ) × Nat)),
      Octree.buildF32 id (fun c v => v / c) (Octree.new 16 full 1 0) crowd = .ok (o', idx) ∧ CellsOf 1 16 o'.keys cells ∧ o'.children 16 = some ch ∧
      Octree.leafTerms (Octree.new 16 full 1 0 : Octree ℚ) crowd (crowd.points.map fun p => p.map (scaleF32 16)) = .ok leaves ∧
      ∃ (r : Nat) (s : Multiset (V3 ℚ)), (nonEmpty cells ch)[r]? = some ⟨0, 65533, 65533, 65533⟩ ∧ leaves[r]? = some (s, 257) ∧
        s = Multiset.replicate 257 ⟨65533, 65533, 65533⟩ ∧ (∃ v, AverageF32 (s.map V3.x) 257 v ∧ v < 65533) ∧ ¬ AverageInside ⟨0, 65533, 65533, 65533⟩ s 257 := by
  have hl := crowd_legal full hf
  obtain ⟨o', idx, cells, ch, h1, h2, h3, h4, h5, -, h7, -, h9⟩ := leafTerms_ok id (fun c v => v / c) (Octree.new 16 full 1 0) crowd (List.replicate 257 0) hl
    crowd_below (crowd.points.map fun p => p.map (scaleF32 16)) (by simp)
  refine ⟨o', idx, cells, ch, _, h1, h2, h3, h4, ?_⟩
  have hside : ∀ n : Nat, SideContains 16 n (32765 / 32768) → n = 65533 := by
    intro n hn
    rw [sideContains_grid] at hn
    have e : ((32765 / 32768 + 1) * 2 ^ 16 / 2 : ℚ) = (65533 : ℕ) := by norm_num
    rw [e] at hn
    have a1 : n ≤ 65533 := by exact_mod_cast hn.1
    have a2 : 65533 < n + 1 := by exact_mod_cast hn.2
    omega
  have hall : ∀ i < 257, ∃ r : Nat, idx[i]? = some r ∧ (nonEmpty cells ch)[r]? = some ⟨0, 65533, 65533, 65533⟩ := by
    intro i hi
    obtain ⟨r, c, g1, g2, g3, g4⟩ := h7 i ⟨32765 / 32768, 32765 / 32768, 32765 / 32768⟩ 0 (by rw [crowd, List.getElem?_replicate, if_pos hi])
      (by rw [List.getElem?_replicate, if_pos hi])
    simp only [V3.map, crowd_round] at g4
    obtain ⟨a1, a2, a3⟩ := g4
    refine ⟨r, g1, ?_⟩
    rw [g2]
    obtain ⟨cb, cx, cy, cz⟩ := c
    rw [Option.some.injEq, Cell.mk.injEq]
    exact ⟨g3, hside _ a1, hside _ a2, hside _ a3⟩
  obtain ⟨r, -, hr⟩ := hall 0 (by norm_num)
  have hidx : idx = List.replicate 257 r := by
    rw [List.eq_replicate_iff]
    have hlen : idx.length = 257 := by rw [h5, crowd, List.length_replicate]
    refine ⟨hlen, fun a ha => ?_⟩
    obtain ⟨i, hi, e⟩ := List.mem_iff_getElem.mp ha
    obtain ⟨r', g1, g2⟩ := hall i (by omega)
    rw [List.getElem?_eq_getElem hi, e] at g1
    simp only [Option.some.injEq] at g1
    subst g1
    obtain ⟨hr1, hr2⟩ := List.getElem?_eq_some_iff.mp hr
    obtain ⟨g3, g4⟩ := List.getElem?_eq_some_iff.mp g2
    exact (List.Nodup.getElem_inj_iff h9).mp (g4.trans hr2.symm)
  have hs : valuesOf idx (crowd.points.map fun p => p.map (scaleF32 16)) r = Multiset.replicate 257 ⟨65533, 65533, 65533⟩ := by
    unfold valuesOf
    rw [hidx]
    simp only [crowd, List.map_replicate, V3.map, crowd_scaled, List.zip_replicate', List.filter_replicate, decide_true, if_true, Multiset.coe_replicate]
  have hlt : r < (nonEmpty cells ch).length := (List.getElem?_eq_some_iff.mp hr).1
  obtain ⟨v, hv, hv'⟩ := average_below
  have hx : (Multiset.replicate 257 (⟨65533, 65533, 65533⟩ : V3 ℚ)).map V3.x = Multiset.replicate 257 65533 := by
    rw [Multiset.map_replicate]
  refine ⟨r, _, hr, ?_, hs, ⟨v, ?_, hv'⟩, ?_⟩
  · rw [List.getElem?_map, List.getElem?_range hlt]
    simp only [Option.map_some, hs, Multiset.card_replicate]
  · rw [hs, hx]; exact hv
  · intro hin
    have := (hin.1 v (by rw [hs, hx]; exact hv)).1
    push_cast at this
    linarith

/-! ### concrete cases -/

/-- `C161_partial` speaks about the cloud of `cloudF`: every node has at most 2 points, and `2 * 2^6 ≤ 2^24`. -/
example : ∃ o' idx cells ch leaves, Octree.buildF32 id (fun c v => v / c) (Octree.new 6 2 1 0) cloudF = .ok (o', idx) ∧ CellsOf 1 6 o'.keys cells ∧
    o'.children 6 = some ch ∧ Octree.leafTerms (Octree.new 6 2 1 0 : Octree ℚ) cloudF (cloudF.points.map fun p => p.map (scaleF32 6)) = .ok leaves ∧
    leaves.length = (nonEmpty cells ch).length ∧
      ∀ (r : Nat) (c : Cell) (s : Multiset (V3 ℚ)) (n : Nat), (nonEmpty cells ch)[r]? = some c → leaves[r]? = some (s, n) → n * 2 ^ 6 ≤ 2 ^ 24 →
        AverageInside c s n :=
  C161_partial id _ _ cloudF [0, 0] ⟨by decide, by decide, by decide, rfl, ⟨rfl, by simp [Octree.new], by simp [Octree.new], by simp [cloudF], by simp [cloudF]⟩, by
      intro p hp
      simp only [cloudF, List.mem_cons, List.not_mem_nil, or_false] at hp
      rcases hp with rfl | rfl <;> norm_num [InCube]⟩ (by
    intro p hp
    simp only [cloudF, List.mem_cons, List.not_mem_nil, or_false] at hp
    rcases hp with rfl | rfl <;> norm_num [BelowTop])

/-- The bound on the number of points is met by 256 points at depth 16 and missed by the 257 points of `crowd`. -/
example : 256 * 2 ^ 16 ≤ 2 ^ 24 ∧ ¬ 257 * 2 ^ 16 ≤ 2 ^ 24 := by decide

/-- A sum of three numbers whose result depends on the order: `2^24 + (1 + 1)` and `(2^24 + 1) + 1`. -/
example : SumF32 ({2 ^ 24} + ({1} + {1})) (f32 (2 ^ 24 + f32 (1 + 1))) ∧ SumF32 (({2 ^ 24} + {1}) + {1}) (f32 (f32 (2 ^ 24 + 1) + 1)) :=
  ⟨.add _ _ _ _ (.single _) (.add _ _ _ _ (.single _) (.single _)), .add _ _ _ _ (.add _ _ _ _ (.single _) (.single _)) (.single _)⟩

/-- `C161_terms` and `C161_error` speak about the 257 points. -/
example : ∃ leaves, Octree.leafTerms (Octree.new 16 2 1 0 : Octree ℚ) crowd (List.replicate 257 (1 / 3 : ℚ)) = .ok leaves ∧
    ∀ s n, (s, n) ∈ leaves → n = s.card ∧ 0 < n ∧ (n ≤ 2 ^ 24 → ∀ v, AverageF32 s n v →
      |v - s.sum / n| ≤ ((1 + 1 / 2 ^ 24) ^ (n + 1) - 1) * ((s.map fun a => |a|).sum / n)) :=
  C161_error _ crowd _ (crowd_legal 2 (by norm_num)) crowd_below _ (by rw [crowd, List.length_replicate, List.length_replicate])

end Ocnn
