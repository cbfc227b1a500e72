import Verif.PropsMerge

/-! Property C15: building a batch equals merging the octrees of the samples. -/

set_option linter.unusedSimpArgs false

namespace Ocnn
open Spec
variable {F L : Type}

theorem mask_eq_mem (u : List Bool) (l : List Cell) (hu : u.length = l.length) (hn : l.Nodup) :
    u = l.map fun c => decide (c ∈ maskSel u l) := by
  induction u generalizing l with
  | nil =>
    cases l with
    | nil => rfl
    | cons c l => simp at hu
  | cons b u ih =>
    cases l with
    | nil => simp at hu
    | cons c l =>
      have hc := (List.nodup_cons.mp hn).1
      have ih := ih l (by simpa using hu) (List.nodup_cons.mp hn).2
      have hcs : c ∉ maskSel u l := fun hm => hc ((maskSel_sublist u l).subset hm)
      cases b with
      | false =>
        simp only [maskSel, List.map_cons, hcs, decide_false]
        exact congrArg _ ih
      | true =>
        simp only [maskSel, List.map_cons, List.mem_cons, true_or, decide_true]
        congr 1
        refine ih.trans ?_
        apply List.map_congr_left
        intro c' hc'
        have : c' ≠ c := fun e => hc (e ▸ hc')
        simp [this]

/-- two octrees in layered form with the same non-empty nodes -/
theorem masks_ext {B full D : Nat} {m m' : Nat → List Bool} (hD : D ≤ 16)
    (hl : ∀ d ≤ D, (m d).length = (layerCells B m d).length) (hl' : ∀ d ≤ D, (m' d).length = (layerCells B m' d).length)
    (hf : ∀ d < full, ∀ b ∈ m d, b = true) (hf' : ∀ d < full, ∀ b ∈ m' d, b = true)
    (h : ∀ d ≤ D, full ≤ d → ∀ c, c ∈ maskSel (m d) (layerCells B m d) ↔ c ∈ maskSel (m' d) (layerCells B m' d)) :
    ∀ d ≤ D, m d = m' d := by
  intro d
  induction d using Nat.strong_induction_on with
  | _ d ih =>
    intro hd
    have hc : layerCells B m d = layerCells B m' d := layerCells_congr B m m' d (fun i hi => ih i hi (by omega))
    have h1 := hl d hd
    have h2 := hl' d hd
    rw [← hc] at h2
    by_cases hfd : d < full
    · rw [List.eq_replicate_of_mem (hf d hfd), List.eq_replicate_of_mem (hf' d hfd), h1, h2]
    · have hm := h d hd (by omega)
      rw [← hc] at hm
      have hnd := layer_nodup B m d (by omega)
      rw [mask_eq_mem (m d) _ h1 hnd, mask_eq_mem (m' d) _ h2 hnd]
      apply List.map_congr_left
      intro c _
      exact decide_eq_decide.mpr (hm c)

/-! sums over a batch of clouds -/

/-- the points of the clouds with the numbers of their clouds, counting from `k` -/
def cloudOf (k : Nat) (ps : List (List (V3 ℚ))) : List (V3 ℚ × Nat) :=
  ((ps.zipIdx k).map fun p => p.1.map fun v => (v, p.2)).flatten

theorem cloudOf_cons (k : Nat) (p : List (V3 ℚ)) (ps : List (List (V3 ℚ))) :
    cloudOf k (p :: ps) = (p.map fun v => (v, k)) ++ cloudOf (k + 1) ps := by
  simp [cloudOf, List.zipIdx_cons]

theorem cloudOf_ge (k : Nat) (ps : List (List (V3 ℚ))) : ∀ e ∈ cloudOf k ps, k ≤ e.2 := by
  induction ps generalizing k with
  | nil => simp [cloudOf]
  | cons p ps ih =>
    rw [cloudOf_cons]
    intro e he
    rcases List.mem_append.mp he with h | h
    · obtain ⟨v, _, rfl⟩ := List.mem_map.mp h; exact le_refl _
    · exact le_trans (by omega) (ih (k + 1) e h)

theorem sumIn_append {V : Type} [AddMonoid V] (d : Nat) (c : Cell) (e e' : List (V3 ℚ × Nat)) (v v' : List V)
    (h : e.length = v.length) : sumIn d c (e ++ e') (v ++ v') = sumIn d c e v + sumIn d c e' v' := by
  unfold sumIn
  rw [List.zip_append h, List.filter_append, List.map_append, List.sum_append]

theorem sumIn_zero {V : Type} [AddMonoid V] (d : Nat) (c : Cell) (e : List (V3 ℚ × Nat)) (v : List V)
    (h : ∀ x ∈ e, x.2 ≠ c.b) : sumIn d c e v = 0 := by
  unfold sumIn
  rw [List.filter_eq_nil_iff.mpr]
  · rfl
  · intro a ha
    have := h a.1 (List.of_mem_zip ha).1
    simp [belongs, this]

theorem sumIn_sample {V : Type} [Add V] [Zero V] (d i j : Nat) (c : Cell) (p : List (V3 ℚ)) (v : List V) :
    sumIn d (Cell.inSample i c) (p.map fun v => (v, i)) v = sumIn d (Cell.inSample j c) (p.map fun v => (v, j)) v := by
  unfold sumIn
  rw [List.zip_map_left, List.zip_map_left, List.filter_map, List.filter_map, List.map_map, List.map_map]
  congr 2
  apply List.filter_congr
  intro a _
  simp [belongs, Cell.inSample, CubeContains]

theorem sumIn_cloud {V : Type} [AddMonoid V] (d : Nat) (c : Cell) (k : Nat) (ps : List (List (V3 ℚ))) (vs : List (List V))
    (hl : vs.map List.length = ps.map List.length) (i : Nat) (p : List (V3 ℚ)) (v : List V) (hp : ps[i]? = some p)
    (hv : vs[i]? = some v) :
    sumIn d (Cell.inSample (k + i) c) (cloudOf k ps) vs.flatten = sumIn d (Cell.inSample 0 c) (p.map fun v => (v, 0)) v := by
  induction ps generalizing k vs i with
  | nil => simp at hp
  | cons p0 ps ih =>
    cases vs with
    | nil => simp at hv
    | cons v0 vs =>
      simp only [List.map_cons, List.cons.injEq] at hl
      rw [cloudOf_cons, List.flatten_cons, sumIn_append _ _ _ _ _ _ (by simp [hl.1])]
      cases i with
      | zero =>
        simp only [List.getElem?_cons_zero, Option.some.injEq] at hp hv
        subst hp; subst hv
        rw [sumIn_zero d _ (cloudOf (k + 1) ps), add_zero, Nat.add_zero, sumIn_sample d k 0]
        intro x hx
        have := cloudOf_ge (k + 1) ps x hx
        simp only [Cell.inSample]
        omega
      | succ i =>
        simp only [List.getElem?_cons_succ] at hp hv
        rw [sumIn_zero d _ (p0.map _), zero_add]
        · have := ih (k + 1) vs hl.2 i hp hv
          rw [← this, Nat.add_assoc, Nat.add_comm 1 i]
        · intro x hx
          obtain ⟨v, _, rfl⟩ := List.mem_map.mp hx
          simp only [Cell.inSample]
          omega

theorem countIn_cloud (d : Nat) (c : Cell) (k : Nat) (ps : List (List (V3 ℚ))) (i : Nat) (p : List (V3 ℚ))
    (hp : ps[i]? = some p) :
    countIn d (Cell.inSample (k + i) c) (cloudOf k ps) = countIn d (Cell.inSample 0 c) (p.map fun v => (v, 0)) := by
  have zero : ∀ (b : Nat) (e : List (V3 ℚ × Nat)), (∀ x ∈ e, x.2 ≠ b) → countIn d (Cell.inSample b c) e = 0 := by
    intro b e h
    unfold countIn
    rw [List.countP_eq_zero]
    intro x hx
    simp [belongs, Cell.inSample, h x hx]
  induction ps generalizing k i with
  | nil => simp at hp
  | cons p0 ps ih =>
    rw [cloudOf_cons]
    have : ∀ (c : Cell) (a b : List (V3 ℚ × Nat)), countIn d c (a ++ b) = countIn d c a + countIn d c b := by
      intro c a b; unfold countIn; rw [List.countP_append]
    rw [this]
    cases i with
    | zero =>
      simp only [List.getElem?_cons_zero, Option.some.injEq] at hp
      subst hp
      rw [zero _ (cloudOf (k + 1) ps), Nat.add_zero, Nat.add_zero]
      · unfold countIn
        rw [List.countP_map, List.countP_map]
        apply List.countP_congr
        intro a _
        simp [belongs, Cell.inSample, CubeContains]
      · intro x hx
        have := cloudOf_ge (k + 1) ps x hx
        omega
    | succ i =>
      simp only [List.getElem?_cons_succ] at hp
      rw [zero _ (p0.map _), Nat.zero_add]
      · have := ih (k + 1) i hp
        rw [← this, Nat.add_assoc, Nat.add_comm 1 i]
      · intro x hx
        obtain ⟨v, _, rfl⟩ := List.mem_map.mp hx
        simp only
        omega

theorem cloudOf_zip (k : Nat) (ps : List (List (V3 ℚ))) :
    ps.flatten.zip ((ps.zipIdx k).map fun p => List.replicate p.1.length p.2).flatten = cloudOf k ps := by
  induction ps generalizing k with
  | nil => rfl
  | cons p ps ih =>
    rw [cloudOf_cons, List.flatten_cons, List.zipIdx_cons, List.map_cons, List.flatten_cons,
      List.zip_append (by simp), ih (k + 1)]
    congr 1
    apply List.ext_getElem?
    intro i
    simp only [List.getElem?_zip_eq_some, List.getElem?_map]
    by_cases hi : i < p.length
    · rw [List.getElem?_eq_getElem (by simp; omega), List.getElem?_eq_getElem hi]; simp
    · rw [List.getElem?_eq_none (by simp; omega), List.getElem?_eq_none (by omega)]; rfl

theorem mem_cloudOf (k : Nat) (ps : List (List (V3 ℚ))) (v : V3 ℚ) (b : Nat) :
    (v, b) ∈ cloudOf k ps ↔ ∃ i p, b = k + i ∧ ps[i]? = some p ∧ v ∈ p := by
  induction ps generalizing k with
  | nil => simp [cloudOf]
  | cons p ps ih =>
    rw [cloudOf_cons, List.mem_append, ih (k + 1)]
    constructor
    · rintro (h | ⟨i, q, rfl, h1, h2⟩)
      · obtain ⟨w, hw, e⟩ := List.mem_map.mp h
        simp only [Prod.mk.injEq] at e
        exact ⟨0, p, by omega, rfl, e.1 ▸ hw⟩
      · exact ⟨i + 1, q, by omega, h1, h2⟩
    · rintro ⟨i, q, rfl, h1, h2⟩
      cases i with
      | zero =>
        simp only [List.getElem?_cons_zero, Option.some.injEq] at h1
        subst h1
        exact Or.inl (List.mem_map.mpr ⟨v, h2, by simp⟩)
      | succ i => exact Or.inr ⟨i, q, by omega, h1, h2⟩

theorem occupied_iff_mem (points : List (V3 ℚ)) (samples : List Nat) (d : Nat) (c : Cell) :
    Occupied points samples d c ↔ ∃ v, (v, c.b) ∈ points.zip samples ∧ CubeContains d c v := by
  unfold Occupied
  constructor
  · rintro ⟨i, p, h1, h2, h3⟩
    exact ⟨p, List.mem_of_getElem? (i := i) (List.getElem?_zip_eq_some.mpr ⟨h1, h2⟩), h3⟩
  · rintro ⟨v, h1, h2⟩
    obtain ⟨i, hi⟩ := List.getElem?_of_mem h1
    obtain ⟨a, b⟩ := List.getElem?_zip_eq_some.mp hi
    exact ⟨i, v, a, b, h2⟩

/-! merging point clouds, explicitly -/

theorem mergeAttr_some {K F L : Type} {α : Type} (p0 : Points K F L) (ps : List (Points K F L)) (h0 : p0 ∈ ps)
    (attr : Points K F L → Option (List α)) (ts : List (List α)) (h : ps.map attr = ts.map some) :
    Points.mergeAttr p0 ps attr = .ok (some ts.flatten) := by
  have hs : ∀ p ∈ ps, (attr p).isSome := by
    intro p hp
    have : attr p ∈ ps.map attr := List.mem_map_of_mem hp
    rw [h] at this
    obtain ⟨t, _, e⟩ := List.mem_map.mp this
    rw [← e]; rfl
  obtain ⟨ts', h1, h2⟩ := catAttr_ok ps attr hs
  have e : ts' = ts := by
    rw [h] at h2
    exact (List.map_injective_iff.mpr (Option.some_injective _)) h2.symm
  unfold Points.mergeAttr
  rw [if_pos (hs p0 h0), h1, e]
  rfl

theorem mergeAttr_none {K F L : Type} {α : Type} (p0 : Points K F L) (ps : List (Points K F L)) (h0 : p0 ∈ ps)
    (attr : Points K F L → Option (List α)) (h : ∀ p ∈ ps, attr p = none) :
    Points.mergeAttr p0 ps attr = .ok none := by
  unfold Points.mergeAttr
  rw [h p0 h0]
  rfl

/-- either all clouds have the attribute or none has -/
theorem attr_cases {K F L : Type} {α : Type} (ps : List (Points K F L)) (attr : Points K F L → Option (List α))
    (h : ∀ p ∈ ps, ∀ q ∈ ps, (attr p).isSome = (attr q).isSome) :
    (∃ ts : List (List α), ps.map attr = ts.map some) ∨ ∀ p ∈ ps, attr p = none := by
  by_cases hn : ∃ p ∈ ps, attr p = none
  · right
    obtain ⟨p, hp, e⟩ := hn
    intro q hq
    have := h q hq p hp
    rw [e] at this
    simpa using this
  · left
    push Not at hn
    refine ⟨ps.map fun p => (attr p).getD [], ?_⟩
    rw [List.map_map]
    apply List.map_congr_left
    intro p hp
    cases hv : attr p with
    | none => exact absurd hv (hn p hp)
    | some v => simp [hv]

theorem mergeAttr_ok {K F L : Type} {α : Type} (p0 : Points K F L) (ps : List (Points K F L)) (h0 : p0 ∈ ps)
    (attr : Points K F L → Option (List α)) (h : ∀ p ∈ ps, ∀ q ∈ ps, (attr p).isSome = (attr q).isSome) :
    ∃ r, Points.mergeAttr p0 ps attr = .ok r ∧ (∀ ts : List (List α), ps.map attr = ts.map some → r = some ts.flatten) ∧
      ((∀ p ∈ ps, attr p = none) → r = none) := by
  rcases attr_cases ps attr h with ⟨ts, hts⟩ | hn
  · refine ⟨_, mergeAttr_some p0 ps h0 attr ts hts, ?_, ?_⟩
    · intro ts' h'
      rw [hts] at h'
      rw [(List.map_injective_iff.mpr (Option.some_injective _)) h']
    · intro hn
      have : attr p0 ∈ ps.map attr := List.mem_map_of_mem h0
      rw [hts, hn p0 h0] at this
      simp at this
  · refine ⟨_, mergeAttr_none p0 ps h0 attr hn, ?_, fun _ => rfl⟩
    intro ts h'
    have : attr p0 ∈ ps.map attr := List.mem_map_of_mem h0
    rw [h', hn p0 h0] at this
    simp at this

theorem pointsMerge_ok {K F L : Type} (ps : List (Points K F L)) (hne : ps ≠ []) (hs : SameAttributes ps) (dev : Nat)
    (hdev : ∀ p ∈ ps, p.device = dev) :
    ∃ rn rf rl, Points.merge ps true = .ok
      { points := (ps.map fun p => p.points).flatten, normals := rn, features := rf, labels := rl
        batchId := some ((ps.zipIdx.map fun p => List.replicate p.1.npt (p.2 : Int)).flatten)
        batchSize := ps.length, batchNpt := some (ps.map Points.npt), device := dev } ∧
      ((∀ ts : List (List (V3 K)), (ps.map fun p => p.normals) = ts.map some → rn = some ts.flatten) ∧
        ((∀ p ∈ ps, p.normals = none) → rn = none)) ∧
      ((∀ ts : List (List F), (ps.map fun p => p.features) = ts.map some → rf = some ts.flatten) ∧
        ((∀ p ∈ ps, p.features = none) → rf = none)) := by
  obtain ⟨p0, rest, rfl⟩ := List.exists_cons_of_ne_nil hne
  have h0 : p0 ∈ p0 :: rest := by simp
  obtain ⟨rn, n1, n2⟩ := mergeAttr_ok p0 _ h0 (fun p => p.normals) (fun p hp q hq => (hs p hp q hq).1)
  obtain ⟨rf, f1, f2⟩ := mergeAttr_ok p0 _ h0 (fun p => p.features) (fun p hp q hq => (hs p hp q hq).2.1)
  obtain ⟨rl, l1, l2⟩ := mergeAttr_ok p0 _ h0 (fun p => p.labels) (fun p hp q hq => (hs p hp q hq).2.2)
  refine ⟨rn, rf, rl, ?_, n2, f2⟩
  unfold Points.merge
  rw [← hdev p0 h0]
  simp only [n1, f1, l1, bind, Except.bind, pure, Except.pure, if_true]

/-! ### C15 -/

/-- the samples of the points of a merged cloud -/
def samplesOf (pcs : List (Points ℚ F L)) : List Nat :=
  (pcs.zipIdx.map fun p => List.replicate p.1.points.length p.2).flatten

theorem samplesOf_zip (pcs : List (Points ℚ F L)) :
    (pcs.map fun p => p.points).flatten.zip (samplesOf pcs) = cloudOf 0 (pcs.map fun p => p.points) := by
  rw [← cloudOf_zip, List.zipIdx_map, List.map_map]
  rfl

theorem zip_zeros (l : List (V3 ℚ)) (i : Nat) : l.zip (List.replicate l.length i) = l.map fun v => (v, i) := by
  apply List.ext_getElem?
  intro j
  by_cases hi : j < l.length
  · rw [List.getElem?_eq_getElem (by simp; omega), List.getElem?_map, List.getElem?_eq_getElem hi]; simp
  · rw [List.getElem?_eq_none (by simp; omega), List.getElem?_eq_none (by simp; omega)]

/-- A batch of legal clouds: each a single sample inside of the cube, with matching attribute heights, on the same
device and with the same kinds of attributes. -/
structure LegalBatch (pcs : List (Points ℚ F L)) (dev : Nat) : Prop where
  nonempty : pcs ≠ []
  number : pcs.length ≤ 2 ^ 15
  aligned : ∀ pc ∈ pcs, Aligned pc
  same : SameAttributes pcs
  inCube : ∀ pc ∈ pcs, ∀ p ∈ pc.points, InCube p
  device : ∀ pc ∈ pcs, pc.device = dev
  single : ∀ pc ∈ pcs, pc.batchSize = 1

theorem LegalBatch.legal {pcs : List (Points ℚ F L)} {dev : Nat} (h : LegalBatch pcs dev) (D full : Nat) (hD : D ≤ 16)
    (hf : full ≤ D) (pc : Points ℚ F L) (hp : pc ∈ pcs) :
    LegalBuild (Octree.new D full 1 dev : Octree F) pc (List.replicate pc.points.length 0) where
  depth := hD
  full := hf
  batch := (by show 1 ≤ 2 ^ 15; norm_num)
  same_batch := h.single pc hp
  inCube := h.inCube pc hp
  cloud :=
    { length := by simp
      lt := by intro b hb; rw [(List.mem_replicate.mp hb).2]; exact Nat.one_pos
      ids := fun hc => absurd rfl hc
      normals := (h.aligned pc hp).normals
      features := (h.aligned pc hp).features }

theorem attr_length {pcs : List (Points ℚ F L)} {α : Type} (attr : Points ℚ F L → Option (List α))
    (ha : ∀ pc ∈ pcs, ∀ t, attr pc = some t → t.length = pc.points.length) (ts : List (List α))
    (h : pcs.map attr = ts.map some) : ts.map List.length = (pcs.map fun p => p.points).map List.length := by
  apply List.ext_getElem?
  intro i
  have h' := congrArg (fun l => l[i]?) h
  simp only [List.getElem?_map] at h' ⊢
  cases hp : pcs[i]? with
  | none => rw [hp] at h'; cases ht : ts[i]? <;> simp_all
  | some p =>
    rw [hp] at h'
    cases ht : ts[i]? with
    | none => rw [ht] at h'; simp at h'
    | some t =>
      rw [ht] at h'
      simp only [Option.map_some, Option.some.injEq] at h' ⊢
      exact ha p (List.mem_of_getElem? hp) t h'

theorem flatten_lengths {α β : Type} {ts : List (List α)} {ps : List (List β)}
    (h : ts.map List.length = ps.map List.length) : ts.flatten.length = ps.flatten.length := by
  rw [List.length_flatten, List.length_flatten, h]

theorem attr_at {pcs : List (Points ℚ F L)} {α : Type} (attr : Points ℚ F L → Option (List α)) (ts : List (List α))
    (h : pcs.map attr = ts.map some) (i : Nat) (pc : Points ℚ F L) (hi : pcs[i]? = some pc) :
    ∃ t, ts[i]? = some t ∧ attr pc = some t := by
  have h' := congrArg (fun l => l[i]?) h
  simp only [List.getElem?_map, hi] at h'
  cases ht : ts[i]? with
  | none => rw [ht] at h'; simp at h'
  | some t =>
    rw [ht] at h'
    simp only [Option.map_some, Option.some.injEq] at h'
    exact ⟨t, rfl, h'⟩

theorem blocks_map {α V : Type} (pcs : List α) (S : α → List Cell) (G : Cell → V) (g : α → Cell → V)
    (h : ∀ i pc, pcs[i]? = some pc → ∀ c ∈ S pc, G (Cell.inSample i c) = g pc c) :
    ((pcs.zipIdx.map fun p => (S p.1).map (Cell.inSample p.2)).flatten).map G
      = (pcs.map fun pc => (S pc).map fun c => g pc c).flatten := by
  rw [List.map_flatten, List.map_map, zipIdx_map_fst pcs]
  congr 1
  apply List.map_congr_left
  rintro ⟨pc, i⟩ hp
  simp only [Function.comp_apply, List.map_map]
  apply List.map_congr_left
  intro c hc
  exact h i pc (List.mem_zipIdx_iff_getElem?.mp hp) c hc

/-- **C15.** Building the octree of the merged clouds gives the same octree as merging the octrees of the single
clouds: the same keys, child indices and node counts at every depth, and the same averaged signals. -/
theorem C15_batch [AddCommMonoid F] (nrm : V3 ℚ → V3 ℚ) (divF : ℚ → F → F) (D full dev : Nat) (hD : D ≤ 16)
    (hf : full ≤ D) (pcs : List (Points ℚ F L)) (h : LegalBatch pcs dev) :
    ∃ (q : Points ℚ F L) (O : Octree F) (idx : List Nat) (os : List (Octree F × List Nat)) (O' : Octree F),
      Points.merge pcs true = .ok q ∧
      Octree.build nrm divF (Octree.new D full pcs.length dev) q = .ok (O, idx) ∧
      pcs.mapM (fun pc => Octree.build nrm divF (Octree.new D full 1 dev) pc) = .ok os ∧
      Octree.merge (os.map Prod.fst) = .ok O' ∧
      O.depth = O'.depth ∧ O.fullDepth = O'.fullDepth ∧ O.batchSize = O'.batchSize ∧ O.device = O'.device ∧
      (∀ d ≤ D, O.keys d = O'.keys d ∧ O.children d = O'.children d ∧ O.nnum d = O'.nnum d ∧
        O.nnumNempty d = O'.nnumNempty d) ∧
      O.points D = O'.points D ∧ O.normals D = O'.normals D ∧ O.features D = O'.features D := by
  obtain ⟨rn, rf, rl, hq, hqn, hqf⟩ := pointsMerge_ok pcs h.nonempty h.same dev h.device
  have hrn : ∀ t, rn = some t → ∃ ts : List (List (V3 ℚ)), (pcs.map fun p => p.normals) = ts.map some ∧ t = ts.flatten := by
    intro t ht
    rcases attr_cases pcs (fun p => p.normals) (fun p hp q hq => (h.same p hp q hq).1) with ⟨ts, hts⟩ | hn
    · exact ⟨ts, hts, by rw [hqn.1 ts hts] at ht; exact (Option.some.inj ht).symm⟩
    · rw [hqn.2 hn] at ht; cases ht
  have hrf : ∀ t, rf = some t → ∃ ts : List (List F), (pcs.map fun p => p.features) = ts.map some ∧ t = ts.flatten := by
    intro t ht
    rcases attr_cases pcs (fun p => p.features) (fun p hp q hq => (h.same p hp q hq).2.1) with ⟨ts, hts⟩ | hn
    · exact ⟨ts, hts, by rw [hqf.1 ts hts] at ht; exact (Option.some.inj ht).symm⟩
    · rw [hqf.2 hn] at ht; cases ht
  have hsl : (samplesOf pcs).length = (pcs.map fun p => p.points).flatten.length := by
    unfold samplesOf
    rw [List.length_flatten, List.length_flatten, List.map_map, List.map_map, zipIdx_map_fst pcs]
    congr 1
    apply List.map_congr_left
    intro p _
    simp
  -- the batch
  generalize hQ : (⟨(pcs.map fun p => p.points).flatten, rn, rf, rl,
    some ((pcs.zipIdx.map fun p => List.replicate p.1.npt (p.2 : Int)).flatten), pcs.length,
    some (pcs.map Points.npt), dev⟩ : Points ℚ F L) = q at hq
  have q1 : q.points = (pcs.map fun p => p.points).flatten := by rw [← hQ]
  have q2 : q.normals = rn := by rw [← hQ]
  have q3 : q.features = rf := by rw [← hQ]
  have q4 : q.batchId = some ((pcs.zipIdx.map fun p => List.replicate p.1.npt (p.2 : Int)).flatten) := by rw [← hQ]
  have q5 : q.batchSize = pcs.length := by rw [← hQ]
  have q6 : q.device = dev := by rw [← hQ]
  have hlegal : LegalBuild (Octree.new D full pcs.length dev : Octree F) q (samplesOf pcs) := by
    refine ⟨hD, hf, h.number, q5, ⟨?_, ?_, ?_, ?_, ?_⟩, ?_⟩
    · rw [hsl, q1]
    · intro b hb
      unfold samplesOf at hb
      obtain ⟨l, hl, hb⟩ := List.mem_flatten.mp hb
      obtain ⟨⟨p, i⟩, hp, rfl⟩ := List.mem_map.mp hl
      have hi := List.mem_zipIdx_iff_getElem?.mp hp
      rw [(List.mem_replicate.mp hb).2]
      by_contra hc
      have hc : pcs.length ≤ i := not_lt.mp hc
      rw [List.getElem?_eq_none hc] at hi
      cases hi
    · intro _
      rw [q4]
      unfold samplesOf
      rw [List.map_flatten, List.map_map]
      congr 2
      apply List.map_congr_left
      intro p _
      simp [Points.npt]
    · intro n hn
      rw [q2] at hn
      obtain ⟨ts, h1, rfl⟩ := hrn n hn
      rw [q1]
      exact flatten_lengths (attr_length (fun p => p.normals) (fun pc hp => (h.aligned pc hp).normals) ts h1)
    · intro n hn
      rw [q3] at hn
      obtain ⟨ts, h1, rfl⟩ := hrf n hn
      rw [q1]
      exact flatten_lengths (attr_length (fun p => p.features) (fun pc hp => (h.aligned pc hp).features) ts h1)
    · rw [q1]
      intro p hp
      obtain ⟨l, hl, hp⟩ := List.mem_flatten.mp hp
      obtain ⟨pc, hpc, rfl⟩ := List.mem_map.mp hl
      exact h.inCube pc hpc p hp
  obtain ⟨S', hO', hm', hS', hb'⟩ := build_cube nrm divF (Octree.new D full pcs.length dev) q (samplesOf pcs) hlegal.cloud
    hlegal.same_batch hlegal.inCube hD hf h.number
  have hO' : Occ pcs.length full D S' := hO'
  have W' := builtState_wf nrm divF (Octree.new D full pcs.length dev) q hD hf h.number S' hO'
    ((pointCells D q (samplesOf pcs)).map (Cell.key D))
  obtain ⟨O, idx, cells, ch, a1, a2, a3, -, a5, a6, a7, -, -⟩ := C11_averages nrm divF _ q (samplesOf pcs) hlegal
  rw [a1] at hb'
  simp only [Except.ok.injEq, Prod.mk.injEq] at hb'
  obtain ⟨eO, -⟩ := hb'
  have eO : O = builtState nrm divF (Octree.new D full pcs.length dev) q S'
    ((pointCells D q (samplesOf pcs)).map (Cell.key D)) := eO
  -- the samples
  have hex : ∀ pc : Points ℚ F L, ∃ S : Nat → List Cell, pc ∈ pcs →
      Occ 1 full D S ∧ (∀ d ≤ D, ∀ c, c ∈ S d ↔ Occupied pc.points (List.replicate pc.points.length 0) d c) ∧
      Octree.build nrm divF (Octree.new D full 1 dev) pc = .ok (builtState nrm divF (Octree.new D full 1 dev) pc S
        ((pointCells D pc (List.replicate pc.points.length 0)).map (Cell.key D)),
        uniqueInv ((pointCells D pc (List.replicate pc.points.length 0)).map (Cell.key D))) := by
    intro pc
    by_cases hp : pc ∈ pcs
    · have hl := h.legal D full hD hf pc hp
      obtain ⟨S, hO, hm, hS, hb⟩ := build_cube nrm divF (Octree.new D full 1 dev) pc _ hl.cloud hl.same_batch hl.inCube
        hD hf hl.batch
      exact ⟨S, fun _ => ⟨hO, hm, hb⟩⟩
    · exact ⟨fun _ => [], fun hc => absurd hc hp⟩
  choose S hS using hex
  let bld := fun pc : Points ℚ F L => builtState nrm divF (Octree.new D full 1 dev) pc (S pc)
    ((pointCells D pc (List.replicate pc.points.length 0)).map (Cell.key D))
  have hbld : ∀ pc ∈ pcs, WF (bld pc) D (occMasks 1 full (S pc)) := fun pc hp =>
    builtState_wf nrm divF (Octree.new D full 1 dev) pc hD hf (by norm_num [Octree.new]) (S pc) (hS pc hp).1 _
  have hmap : pcs.mapM (fun pc => Octree.build nrm divF (Octree.new D full 1 dev) pc)
      = .ok (pcs.map fun pc => (bld pc, uniqueInv ((pointCells D pc (List.replicate pc.points.length 0)).map (Cell.key D)))) :=
    mapM_ok _ _ _ fun pc hp => (hS pc hp).2.2
  have hos : (pcs.map fun pc => (bld pc, uniqueInv ((pointCells D pc (List.replicate pc.points.length 0)).map (Cell.key D)))).map
      Prod.fst = pcs.map bld := by rw [List.map_map]; rfl
  have hN : ∀ pc, ((bld pc).normals D).isSome = pc.normals.isSome := by
    intro pc
    simp only [bld, builtState]
    cases pc.normals <;> simp [Octree.new, upd]
  have hFt : ∀ pc, ((bld pc).features D).isSome = pc.features.isSome := by
    intro pc
    simp only [bld, builtState]
    cases pc.features <;> simp [Octree.new, upd]
  have hM : Mergeable (pcs.map bld) D full dev := by
    refine ⟨by simp [h.nonempty], by rw [List.length_map]; exact h.number, ?_, ?_, ?_, ?_, ?_, ?_, ?_, ?_⟩
    · intro o ho; obtain ⟨pc, hp, rfl⟩ := List.mem_map.mp ho; rfl
    · intro o ho; obtain ⟨pc, hp, rfl⟩ := List.mem_map.mp ho; rfl
    · intro o ho; obtain ⟨pc, hp, rfl⟩ := List.mem_map.mp ho; rfl
    · intro o ho; obtain ⟨pc, hp, rfl⟩ := List.mem_map.mp ho; exact h.device pc hp
    · intro o ho; obtain ⟨pc, hp, rfl⟩ := List.mem_map.mp ho; exact (hbld pc hp).valid
    · intro o ho o' ho'
      obtain ⟨pc, hp, rfl⟩ := List.mem_map.mp ho
      obtain ⟨pc', hp', rfl⟩ := List.mem_map.mp ho'
      rw [hFt, hFt]; exact (h.same pc hp pc' hp').2.1
    · intro o ho o' ho'
      obtain ⟨pc, hp, rfl⟩ := List.mem_map.mp ho
      obtain ⟨pc', hp', rfl⟩ := List.mem_map.mp ho'
      rw [hN, hN]; exact (h.same pc hp pc' hp').1
    · intro o ho o' ho'
      obtain ⟨pc, hp, rfl⟩ := List.mem_map.mp ho
      obtain ⟨pc', hp', rfl⟩ := List.mem_map.mp ho'
      simp [bld, builtState, upd, Octree.new]
  have WM := merged_wf hM
  have hmasks : ∀ pc ∈ pcs, ∀ d ≤ D, (bld pc).masks d = occMasks 1 full (S pc) d := by
    intro pc hp d hd
    unfold Octree.masks
    rw [(hbld pc hp).children d hd]
    simp only [Option.getD_some, number_mask]
  -- the non-empty nodes
  have hT : ∀ d ≤ D, full ≤ d → maskSel (mergedMasks ((pcs.map bld).map Octree.masks) d)
      (layerCells pcs.length (mergedMasks ((pcs.map bld).map Octree.masks)) d)
      = (pcs.zipIdx.map fun p => (S p.1 d).map (Cell.inSample p.2)).flatten := by
    intro d hd hfd
    have hc := hM.cells d hd
    rw [List.length_map] at hc
    rw [hc, maskSel_merged _ 0 d (by
      intro m hm
      obtain ⟨o, ho, rfl⟩ := List.mem_map.mp hm
      have := (hM.wf o ho).len d hd
      rwa [hM.single o ho] at this), List.zipIdx_map, List.zipIdx_map, List.map_map, List.map_map]
    congr 1
    apply List.map_congr_left
    rintro ⟨pc, i⟩ hp
    have hp := List.mem_of_getElem? (List.mem_zipIdx_iff_getElem?.mp hp)
    simp only [Function.comp_apply, Prod.map_apply, id]
    rw [layerCells_congr 1 _ (occMasks 1 full (S pc)) d (fun j hj => hmasks pc hp j (by omega)), hmasks pc hp d hd,
      ← nonEmpty_eq _ _ 0 (occMasks_length (hS pc hp).1 d hd), (hS pc hp).1.nempty d hd hfd]
  have hcellS : ∀ pc ∈ pcs, ∀ d ≤ D, ∀ c, c ∈ S pc d ↔ c.b = 0 ∧ ∃ v ∈ pc.points, CubeContains d c v := by
    intro pc hp d hd c
    rw [(hS pc hp).2.1 d hd, occupied_iff_mem, zip_zeros]
    constructor
    · rintro ⟨v, h1, h2⟩
      obtain ⟨w, hw, e⟩ := List.mem_map.mp h1
      simp only [Prod.mk.injEq] at e
      exact ⟨e.2.symm, v, e.1 ▸ hw, h2⟩
    · rintro ⟨h1, v, h2, h3⟩
      exact ⟨v, List.mem_map.mpr ⟨v, h2, by rw [h1]⟩, h3⟩
  have hmem : ∀ d ≤ D, ∀ c, c ∈ S' d ↔ c ∈ (pcs.zipIdx.map fun p => (S p.1 d).map (Cell.inSample p.2)).flatten := by
    intro d hd c
    rw [hm' d hd, q1, occupied_iff_mem, samplesOf_zip]
    simp only [mem_cloudOf, List.mem_flatten, List.mem_map]
    constructor
    · rintro ⟨v, ⟨i, p, e, hi, hv⟩, hc⟩
      rw [List.getElem?_map, Option.map_eq_some_iff] at hi
      obtain ⟨pc, hi, rfl⟩ := hi
      refine ⟨_, ⟨(pc, i), List.mem_zipIdx_iff_getElem?.mpr hi, rfl⟩, ?_⟩
      refine List.mem_map.mpr ⟨Cell.inSample 0 c, (hcellS pc (List.mem_of_getElem? hi) d hd _).mpr ⟨rfl, v, hv, hc⟩, ?_⟩
      have : c.b = i := by omega
      subst this
      rfl
    · rintro ⟨l, ⟨⟨pc, i⟩, hp, rfl⟩, hc⟩
      obtain ⟨c0, hc0, rfl⟩ := List.mem_map.mp hc
      have hi := List.mem_zipIdx_iff_getElem?.mp hp
      obtain ⟨e, v, hv, hcc⟩ := (hcellS pc (List.mem_of_getElem? hi) d hd c0).mp hc0
      refine ⟨v, ⟨i, pc.points, by simp [Cell.inSample], ?_, hv⟩, hcc⟩
      rw [List.getElem?_map, Option.map_eq_some_iff]
      exact ⟨pc, hi, rfl⟩
  have hmask : ∀ d ≤ D, occMasks pcs.length full S' d = mergedMasks ((pcs.map bld).map Octree.masks) d := by
    have wl := WM.len
    have wf := WM.full
    have hbs : (mergedState (pcs.map bld) D full dev (D + 1)).batchSize = pcs.length := by
      show (pcs.map bld).length = _
      simp
    have hfs : (mergedState (pcs.map bld) D full dev (D + 1)).fullDepth = full := rfl
    rw [hbs] at wl
    rw [hfs] at wf
    refine masks_ext (B := pcs.length) hD (fun d hd => occMasks_length hO' d hd) wl W'.full wf ?_
    intro d hd hfd c
    rw [hT d hd hfd, ← hmem d hd c, ← nonEmpty_eq _ _ 0 (occMasks_length hO' d hd)]
    exact iff_of_eq (congrArg _ (hO'.nempty d hd hfd))
  have hlayer : ∀ d ≤ D, layerCells pcs.length (occMasks pcs.length full S') d
      = layerCells pcs.length (mergedMasks ((pcs.map bld).map Octree.masks)) d :=
    fun d hd => layerCells_congr _ _ _ d (fun i hi => hmask i (by omega))
  have hST : S' D = (pcs.zipIdx.map fun p => (S p.1 D).map (Cell.inSample p.2)).flatten := by
    rw [← hT D (le_refl _) hf, ← hlayer D (le_refl _), ← hmask D (le_refl _),
      ← nonEmpty_eq _ _ 0 (occMasks_length hO' D (le_refl _))]
    exact (hO'.nempty D (le_refl _) hf).symm
  -- the signals
  have hne' : nonEmpty cells ch = S' D := by
    have hcO := W'.cellsOf D (le_refl _)
    rw [← eO] at hcO
    have ebs : O.batchSize = pcs.length := by rw [eO]; rfl
    rw [ebs] at hcO
    have e := cells_unique hD a2 hcO
    have e2 := W'.children D (le_refl _)
    rw [← eO] at e2
    rw [show O.children D = some ch from a3] at e2
    cases e2
    rw [e]
    exact hO'.nempty D (le_refl _) hf
  rw [hne', q1, samplesOf_zip] at a5 a6 a7
  have hsig : ∀ pc ∈ pcs,
      (bld pc).points D = some ((S pc D).map fun c =>
        (sumIn D c (pc.points.map fun v => (v, 0)) (pc.points.map (gridPos D))).map
          (· / (countIn D c (pc.points.map fun v => (v, 0)) : ℚ))) ∧
      (∀ f, pc.features = some f → (bld pc).features D = some ((S pc D).map fun c =>
        divF (countIn D c (pc.points.map fun v => (v, 0)) : ℚ) (sumIn D c (pc.points.map fun v => (v, 0)) f))) ∧
      (∀ n, pc.normals = some n → (bld pc).normals D = some ((S pc D).map fun c =>
        nrm (sumIn D c (pc.points.map fun v => (v, 0)) n))) := by
    intro pc hp
    obtain ⟨O1, idx1, cells1, ch1, b1, b2, b3, -, b5, b6, b7, -, -⟩ :=
      C11_averages nrm divF _ pc _ (h.legal D full hD hf pc hp)
    rw [(hS pc hp).2.2] at b1
    simp only [Except.ok.injEq, Prod.mk.injEq] at b1
    obtain ⟨eO1, -⟩ := b1
    have eO1 : bld pc = O1 := eO1
    subst eO1
    have e := cells_unique hD b2 ((hbld pc hp).cellsOf D (le_refl _))
    have e2 := (hbld pc hp).children D (le_refl _)
    have b3 : (bld pc).children D = some ch1 := b3
    rw [b3] at e2
    cases e2
    have e3 : nonEmpty cells1 (number 0 (occMasks 1 full (S pc) D)) = S pc D := by
      rw [e]
      exact (hS pc hp).1.nempty D (le_refl _) hf
    rw [zip_zeros, e3] at b5 b6 b7
    exact ⟨b5, fun f hfe => (b6 f hfe).1, b7⟩
  have h0c : ∀ pc ∈ pcs, ∀ c ∈ S pc D, Cell.inSample 0 c = c := by
    intro pc hp c hc
    have := ((hcellS pc hp D (le_refl _) c).mp hc).1
    cases c
    simp only at this
    subst this
    rfl
  have hcnt : ∀ i pc, pcs[i]? = some pc → ∀ c ∈ S pc D,
      countIn D (Cell.inSample i c) (cloudOf 0 (pcs.map fun p => p.points)) = countIn D c (pc.points.map fun v => (v, 0)) := by
    intro i pc hi c hc
    have := countIn_cloud D c 0 (pcs.map fun p => p.points) i pc.points (by rw [List.getElem?_map, hi]; rfl)
    rwa [Nat.zero_add, h0c pc (List.mem_of_getElem? hi) c hc] at this
  have hsum : ∀ {V : Type} [AddMonoid V] (vs : List (List V)), vs.map List.length = (pcs.map fun p => p.points).map List.length →
      ∀ i pc v, pcs[i]? = some pc → vs[i]? = some v → ∀ c ∈ S pc D,
      sumIn D (Cell.inSample i c) (cloudOf 0 (pcs.map fun p => p.points)) vs.flatten
        = sumIn D c (pc.points.map fun v => (v, 0)) v := by
    intro V _ vs hl i pc v hi hv c hc
    have := sumIn_cloud D c 0 (pcs.map fun p => p.points) vs hl i pc.points v (by rw [List.getElem?_map, hi]; rfl) hv
    rwa [Nat.zero_add, h0c pc (List.mem_of_getElem? hi) c hc] at this
  have hMs : ∀ {α : Type} (sel : Octree F → Nat → Option (List α)),
      (if D < D + 1 then mergedSignal sel (pcs.map bld) D D else none) = mergedSignal sel (pcs.map bld) D D :=
    fun sel => if_pos (by omega)
  have hne2 : pcs.map bld ≠ [] := by simp [h.nonempty]
  refine ⟨q, O, idx, _, mergedState (pcs.map bld) D full dev (D + 1), hq, a1, hmap, ?_, ?_, ?_, ?_, ?_, ?_, ?_, ?_, ?_⟩
  · rw [hos]; exact merge_ok hM
  · rw [eO]; rfl
  · rw [eO]; rfl
  · rw [eO]; show pcs.length = (pcs.map bld).length; simp
  · rw [eO]; exact q6
  · intro d hd
    have hbs : (mergedState (pcs.map bld) D full dev (D + 1)).batchSize = pcs.length := by
      show (pcs.map bld).length = _
      simp
    have k1 := WM.keys d hd
    have k2 := WM.nnum d hd
    rw [hbs, ← hlayer d hd] at k1 k2
    rw [k1, WM.children d hd, k2, WM.nnumNempty d hd, ← hmask d hd, eO]
    exact ⟨W'.keys d hd, W'.children d hd, W'.nnum d hd, W'.nnumNempty d hd⟩
  · rw [show O.points D = _ from a5, hST]
    refine Eq.trans ?_ (Eq.symm ((hMs Octree.points).trans (mergedSignal_some _ _ D hne2 (pcs.map fun pc => (S pc D).map fun c =>
        (sumIn D c (pc.points.map fun v => (v, 0)) (pc.points.map (gridPos D))).map
          (· / (countIn D c (pc.points.map fun v => (v, 0)) : ℚ))) ?_)))
    · congr 1
      refine blocks_map pcs (fun pc => S pc D) _ (fun pc c => (sumIn D c (pc.points.map fun v => (v, 0)) (pc.points.map (gridPos D))).map
          (· / (countIn D c (pc.points.map fun v => (v, 0)) : ℚ))) ?_
      intro i pc hi c hc
      show V3.map (· / (countIn D _ _ : ℚ)) (sumIn D _ _ _) = _
      rw [hcnt i pc hi c hc]
      congr 1
      rw [List.map_flatten, List.map_map]
      exact hsum _ (by rw [List.map_map, List.map_map]; simp) i pc _ hi (by rw [List.getElem?_map, hi]; rfl) c hc
    · rw [List.map_map, List.map_map]
      apply List.map_congr_left
      intro pc hp
      exact (hsig pc hp).1
  · rcases attr_cases pcs (fun p => p.normals) (fun p hp q hq => (h.same p hp q hq).1) with ⟨ts, hts⟩ | hn
    · rw [show O.normals D = _ from a7 ts.flatten (by rw [q2]; exact hqn.1 ts hts), hST]
      have hl := attr_length (fun p => p.normals) (fun pc hp => (h.aligned pc hp).normals) ts hts
      refine Eq.trans ?_ (Eq.symm ((hMs Octree.normals).trans (mergedSignal_some _ _ D hne2 (pcs.map fun pc =>
        (S pc D).map fun c => nrm (sumIn D c (pc.points.map fun v => (v, 0)) (pc.normals.getD []))) ?_)))
      · congr 1
        refine blocks_map pcs (fun pc => S pc D) _ (fun pc c => nrm (sumIn D c (pc.points.map fun v => (v, 0)) (pc.normals.getD []))) ?_
        intro i pc hi c hc
        obtain ⟨t, ht, e⟩ := attr_at (fun p => p.normals) ts hts i pc hi
        have e : pc.normals = some t := e
        rw [e]
        exact congrArg nrm (hsum ts hl i pc t hi ht c hc)
      · rw [List.map_map, List.map_map]
        apply List.map_congr_left
        intro pc hp
        obtain ⟨i, hi⟩ := List.getElem?_of_mem hp
        obtain ⟨t, ht, e⟩ := attr_at (fun p => p.normals) ts hts i pc hi
        have e : pc.normals = some t := e
        simp only [Function.comp_apply]
        rw [(hsig pc hp).2.2 t e, e]
        rfl
    · have e1 : O.normals D = none := by
        rw [eO]
        simp only [builtState, q2, hqn.2 hn]
        rfl
      rw [e1]
      refine Eq.symm ((hMs Octree.normals).trans (mergedSignal_none _ _ D ?_))
      intro o ho
      obtain ⟨pc, hp, rfl⟩ := List.mem_map.mp ho
      have := hN pc
      rw [hn pc hp] at this
      simpa using this
  · rcases attr_cases pcs (fun p => p.features) (fun p hp q hq => (h.same p hp q hq).2.1) with ⟨ts, hts⟩ | hn
    · rw [show O.features D = _ from (a6 ts.flatten (by rw [q3]; exact hqf.1 ts hts)).1, hST]
      have hl := attr_length (fun p => p.features) (fun pc hp => (h.aligned pc hp).features) ts hts
      refine Eq.trans ?_ (Eq.symm ((hMs Octree.features).trans (mergedSignal_some _ _ D hne2 (pcs.map fun pc =>
        (S pc D).map fun c => divF (countIn D c (pc.points.map fun v => (v, 0)) : ℚ)
          (sumIn D c (pc.points.map fun v => (v, 0)) (pc.features.getD []))) ?_)))
      · congr 1
        refine blocks_map pcs (fun pc => S pc D) _ (fun pc c => divF (countIn D c (pc.points.map fun v => (v, 0)) : ℚ)
          (sumIn D c (pc.points.map fun v => (v, 0)) (pc.features.getD []))) ?_
        intro i pc hi c hc
        obtain ⟨t, ht, e⟩ := attr_at (fun p => p.features) ts hts i pc hi
        have e : pc.features = some t := e
        rw [e]
        show divF (countIn D _ _ : ℚ) (sumIn D _ _ _) = _
        rw [hcnt i pc hi c hc]
        exact congrArg _ (hsum ts hl i pc t hi ht c hc)
      · rw [List.map_map, List.map_map]
        apply List.map_congr_left
        intro pc hp
        obtain ⟨i, hi⟩ := List.getElem?_of_mem hp
        obtain ⟨t, ht, e⟩ := attr_at (fun p => p.features) ts hts i pc hi
        have e : pc.features = some t := e
        simp only [Function.comp_apply]
        rw [(hsig pc hp).2.1 t e, e]
        rfl
    · have e1 : O.features D = none := by
        rw [eO]
        simp only [builtState, q3, hqf.2 hn]
        rfl
      rw [e1]
      refine Eq.symm ((hMs Octree.features).trans (mergedSignal_none _ _ D ?_))
      intro o ho
      obtain ⟨pc, hp, rfl⟩ := List.mem_map.mp ho
      have := hFt pc
      rw [hn pc hp] at this
      simpa using this

/-! ### the hypotheses can be met -/

/-- Two points with features. -/
def cloudE : Points ℚ ℚ Unit := ⟨[⟨1/2, 1/2, 1/2⟩, ⟨-1/2, 1/2, -1/4⟩], none, some [3, 4], none, none, 1, none, 0⟩

theorem batch_legal : LegalBatch [cloudA, cloudE] 0 := by
  refine ⟨by simp, by simp, ?_, ?_, ?_, ?_, ?_⟩
  · intro pc hp
    simp only [List.mem_cons, List.not_mem_nil, or_false] at hp
    rcases hp with rfl | rfl <;> constructor <;> simp [cloudA, cloudE]
  · intro p hp q hq
    simp only [List.mem_cons, List.not_mem_nil, or_false] at hp hq
    rcases hp with rfl | rfl <;> rcases hq with rfl | rfl <;> simp [cloudA, cloudE]
  · intro pc hp
    simp only [List.mem_cons, List.not_mem_nil, or_false] at hp
    rcases hp with rfl | rfl <;> decide +kernel
  · intro pc hp
    simp only [List.mem_cons, List.not_mem_nil, or_false] at hp
    rcases hp with rfl | rfl <;> rfl
  · intro pc hp
    simp only [List.mem_cons, List.not_mem_nil, or_false] at hp
    rcases hp with rfl | rfl <;> rfl

example : LegalBatch [cloudA, cloudE] 0 := batch_legal

/-- The octree of `cloudE`, twice. -/
theorem example_mergeable : ∃ (o : Octree ℚ) (idx : List Nat),
    Octree.build id (fun c v => v / c) (Octree.new 2 1 1 0) cloudE = .ok (o, idx) ∧ Mergeable [o, o] 2 1 o.device ∧
      (o.features 2).isSome ∧ o.nnum 2 = 16 := by
  obtain ⟨o, idx, h1, h2, h3, h4, h5, _⟩ := C07_build id (fun c v => v / c) (Octree.new 2 1 1 0) cloudE [0, 0]
    (batch_legal.legal 2 1 (by norm_num) (by norm_num) cloudE (by simp))
  have dec : ((Octree.build id (fun c v => v / c) (Octree.new 2 1 1 0) cloudE).toOption.map fun r =>
      ((r.1.features 2).isSome, r.1.nnum 2)) = some (true, 16) := by decide +kernel
  rw [h1] at dec
  simp only [Except.toOption, Option.map_some, Option.some.injEq, Prod.mk.injEq] at dec
  refine ⟨o, idx, h1, ⟨by simp, by simp, ?_, ?_, ?_, ?_, ?_, ?_, ?_, ?_⟩, dec⟩ <;>
    simp only [List.mem_cons, List.not_mem_nil, or_false, or_self, forall_eq]
  · exact h4
  · exact h2
  · exact h3
  · exact h5

example : ∃ o : Octree ℚ, Combinable [o, o] 2 1 o.device ∧ o ∈ [o, o] ∧ 2 ≤ o.batchSize := by
  obtain ⟨o, idx, h1, h2, h3, h4, h5, _⟩ := C07_build id (fun c v => v / c) (Octree.new 2 1 2 0) cloudC [0, 1, 0]
    cloudC_legal
  refine ⟨o, ⟨by simp, by simp, ?_, ?_, ?_, ?_, ?_, ?_, ?_⟩, by simp, by rw [h4]; exact le_refl _⟩ <;>
    simp only [List.mem_cons, List.not_mem_nil, or_false, or_self, forall_eq]
  · exact h2
  · exact h3
  · exact h5

end Ocnn
