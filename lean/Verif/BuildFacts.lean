import Verif.CubeLemmas
import Verif.QueryLemmas

/-! Consequences of the description of the built octree. -/

set_option linter.unusedSimpArgs false

namespace Ocnn
open Spec
variable {F : Type}

/-- building succeeds for all coordinates -/
theorem build_any {L : Type} [AddCommMonoid F] (nrm : V3 ℚ → V3 ℚ) (divF : ℚ → F → F) (o : Octree F)
    (pc : Points ℚ F L) (samples : List Nat) (hs : Samples o.batchSize pc samples) (hpb : pc.batchSize = o.batchSize)
    (hD : o.depth ≤ 16) (hf : o.fullDepth ≤ o.depth) (hB : o.batchSize ≤ 2 ^ 15) :
    ∃ S, Occ o.batchSize o.fullDepth o.depth S ∧
      (∀ d ≤ o.depth, ∀ c, c ∈ S d ↔ ∃ q ∈ pointCells o.depth pc samples, q.ancestor (o.depth - d) = c) ∧
      (S o.depth).map (Cell.key o.depth) = unique ((pointCells o.depth pc samples).map (Cell.key o.depth)) ∧
      Octree.build nrm divF o pc = .ok (builtState nrm divF o pc S
        ((pointCells o.depth pc samples).map (Cell.key o.depth)),
        uniqueInv ((pointCells o.depth pc samples).map (Cell.key o.depth))) := by
  obtain ⟨S, hO, hm, hS⟩ := exists_occ hD hf (pointCells o.depth pc samples) (pointCells_inRange hs)
  exact ⟨S, hO, hm, hS, build_state nrm divF o pc samples hs hpb hD hf hB S hO hS⟩

theorem build_cube {L : Type} [AddCommMonoid F] (nrm : V3 ℚ → V3 ℚ) (divF : ℚ → F → F) (o : Octree F)
    (pc : Points ℚ F L) (samples : List Nat) (hs : Samples o.batchSize pc samples) (hpb : pc.batchSize = o.batchSize)
    (hin : ∀ p ∈ pc.points, InCube p)
    (hD : o.depth ≤ 16) (hf : o.fullDepth ≤ o.depth) (hB : o.batchSize ≤ 2 ^ 15) :
    ∃ S, Occ o.batchSize o.fullDepth o.depth S ∧
      (∀ d ≤ o.depth, ∀ c, c ∈ S d ↔ Occupied pc.points samples d c) ∧
      (S o.depth).map (Cell.key o.depth) = unique ((pointCells o.depth pc samples).map (Cell.key o.depth)) ∧
      Octree.build nrm divF o pc = .ok (builtState nrm divF o pc S
        ((pointCells o.depth pc samples).map (Cell.key o.depth)),
        uniqueInv ((pointCells o.depth pc samples).map (Cell.key o.depth))) := by
  obtain ⟨S, hO, hm, hS, hb⟩ := build_any nrm divF o pc samples hs hpb hD hf hB
  exact ⟨S, hO, fun d hd c => (hm d hd c).trans (pointCells_occupied hin d hd c), hS, hb⟩

/-- the nodes of a built octree -/
theorem Occ.nempty {B full D : Nat} {S : Nat → List Cell} (h : Occ B full D S) (d : Nat) (hd : d ≤ D)
    (hf : full ≤ d) :
    nonEmpty (layerCells B (occMasks B full S) d) (number 0 (occMasks B full S d)) = S d := by
  rw [nonEmpty_eq _ _ _ (occMasks_length h d hd), (h.layers d hd).1, (h.layers d hd).2 hf]

theorem Occ.nempty_lt {B full D : Nat} {S : Nat → List Cell} (h : Occ B full D S) (d : Nat) (hd : d ≤ D)
    (hf : d < full) :
    nonEmpty (layerCells B (occMasks B full S) d) (number 0 (occMasks B full S d)) =
      layerCells B (occMasks B full S) d := by
  rw [nonEmpty_eq _ _ _ (occMasks_length h d hd), maskSel_all_true _ _ _ (occMasks_length h d hd)]
  intro b hb
  unfold occMasks at hb
  rw [if_pos hf] at hb
  exact fullMasks_true _ d b hb

theorem occ_ext {B full D : Nat} {S S' : Nat → List Cell} (h : Occ B full D S) (h' : Occ B full D S') (d : Nat)
    (hd : d ≤ D) (hm : ∀ c, c ∈ S d ↔ c ∈ S' d) : S d = S' d :=
  keySorted_ext (le_trans hd h.depth) (h.sorted d hd) (h'.sorted d hd) (h.range d hd) (h'.range d hd) hm

theorem occMasks_congr {B full D : Nat} {S S' : Nat → List Cell} (h : ∀ d ≤ D, S d = S' d) (d : Nat) (hd : d ≤ D) :
    occMasks B full S d = occMasks B full S' d := by
  unfold occMasks
  have e : occLayer B full S d = occLayer B full S' d := by
    cases d with
    | zero => rfl
    | succ d => simp only [occLayer]; rw [h d (by omega)]
  rw [e, h d hd]

/-- the layers of a built octree depend on the occupied cells only -/
theorem builtState_congr {L L' : Type} [AddCommMonoid F] {nrm nrm' : V3 ℚ → V3 ℚ} {divF divF' : ℚ → F → F}
    {o o' : Octree F} {pc : Points ℚ F L} {pc' : Points ℚ F L'} {S S' : Nat → List Cell} {ks ks' : List Nat}
    (hB : o'.batchSize = o.batchSize) (hD : o'.depth = o.depth) (hf : o'.fullDepth = o.fullDepth)
    (h : ∀ d ≤ o.depth, S d = S' d) (d : Nat) (hd : d ≤ o.depth) :
    (builtState nrm divF o pc S ks).keys d = (builtState nrm' divF' o' pc' S' ks').keys d ∧
    (builtState nrm divF o pc S ks).children d = (builtState nrm' divF' o' pc' S' ks').children d ∧
    (builtState nrm divF o pc S ks).nnum d = (builtState nrm' divF' o' pc' S' ks').nnum d ∧
    (builtState nrm divF o pc S ks).nnumNempty d = (builtState nrm' divF' o' pc' S' ks').nnumNempty d := by
  have e := occMasks_congr (B := o.batchSize) (full := o.fullDepth) h
  have eL : layerCells o.batchSize (occMasks o.batchSize o.fullDepth S) d =
      layerCells o.batchSize (occMasks o.batchSize o.fullDepth S') d :=
    layerCells_congr _ _ _ d (fun i hi => e i (by omega))
  simp only [builtState, hB, hD, hf, hd, if_true, eL, e d hd, and_self]

/-! ### sums over cells -/

theorem filter_zip_map {α β V : Type} (f : α → β) (l : List α) (src : List V) (P : α → Bool) (Q : β → Bool)
    (h : ∀ a ∈ l, Q (f a) = P a) :
    (((l.map f).zip src).filter fun p => Q p.1).map Prod.snd =
      ((l.zip src).filter fun e => P e.1).map Prod.snd := by
  induction l generalizing src with
  | nil => rfl
  | cons a l ih =>
    cases src with
    | nil => rfl
    | cons v src =>
      have ih' := ih src (fun a ha => h a (List.mem_cons_of_mem _ ha))
      simp only [List.map_cons, List.zip_cons_cons, List.filter_cons, h a (by simp)]
      cases P a <;> simp [ih']

theorem pointKeys_eq_map {L : Type} (D : Nat) (pc : Points ℚ F L) (samples : List Nat) :
    (pointCells D pc samples).map (Cell.key D) =
      (pc.points.zip samples).map fun e => (wrapCell D (rescale D e.1) e.2).key D := by
  unfold pointCells
  rw [List.zipWith_map_left, List.map_zipWith, ← List.map_uncurry_zip_eq_zipWith]
  rfl

theorem belongs_iff {D B : Nat} (hD : D ≤ 16) {c : Cell} (hc : c.InRange B D) (e : V3 ℚ × Nat) (he : InCube e.1)
    (hb : e.2 < B) : decide ((wrapCell D (rescale D e.1) e.2).key D = c.key D) = belongs D c e := by
  unfold belongs
  rw [decide_eq_decide]
  constructor
  · intro h
    have := Cell.key_injective hD (wrapCell_inRange D B _ _ hb) hc h
    rw [wrapCell_cellAt _ _ _ he] at this
    have hb' : e.2 = c.b := by rw [← this]; rfl
    refine ⟨hb', ?_⟩
    rw [cubeContains_iff _ _ _ he, ← hb', this]
  · rintro ⟨hb', h⟩
    rw [cubeContains_iff _ _ _ he, ← hb'] at h
    rw [wrapCell_cellAt _ _ _ he, h]

theorem sumAt_eq {L V : Type} [Add V] [Zero V] {D B : Nat} (hD : D ≤ 16) {pc : Points ℚ F L} {samples : List Nat}
    (hs : Samples B pc samples) (hin : ∀ p ∈ pc.points, InCube p) {c : Cell} (hc : c.InRange B D) (src : List V) :
    sumAt ((pointCells D pc samples).map (Cell.key D)) src (c.key D) = sumIn D c (pc.points.zip samples) src := by
  unfold sumAt sumIn
  rw [pointKeys_eq_map]
  rw [filter_zip_map (fun e : V3 ℚ × Nat => (wrapCell D (rescale D e.1) e.2).key D) (pc.points.zip samples) src
    (belongs D c) (fun k => decide (k = c.key D))]
  rintro ⟨p, b⟩ he
  have := List.of_mem_zip he
  exact belongs_iff hD hc _ (hin p this.1) (hs.lt b this.2)

theorem count_map_congr {α : Type} (f : α → Nat) (l : List α) (k : Nat) (P : α → Bool)
    (h : ∀ a ∈ l, decide (f a = k) = P a) : (l.map f).count k = l.countP P := by
  induction l with
  | nil => rfl
  | cons a l ih =>
    rw [List.map_cons, List.count_cons, List.countP_cons, ih (fun a ha => h a (List.mem_cons_of_mem _ ha)),
      ← h a (by simp)]
    simp

theorem count_eq {L : Type} {D B : Nat} (hD : D ≤ 16) {pc : Points ℚ F L} {samples : List Nat}
    (hs : Samples B pc samples) (hin : ∀ p ∈ pc.points, InCube p) {c : Cell} (hc : c.InRange B D) :
    ((pointCells D pc samples).map (Cell.key D)).count (c.key D) = countIn D c (pc.points.zip samples) := by
  rw [pointKeys_eq_map]
  unfold countIn
  apply count_map_congr
  rintro ⟨p, b⟩ he
  have := List.of_mem_zip he
  exact belongs_iff hD hc (p, b) (hin p this.1) (hs.lt b this.2)

theorem occupied_countIn {points : List (V3 ℚ)} {samples : List Nat} {d : Nat} {c : Cell}
    (h : Occupied points samples d c) : 0 < countIn d c (points.zip samples) := by
  obtain ⟨i, p, h1, h2, h3⟩ := h
  unfold countIn
  rw [List.countP_pos_iff]
  exact ⟨(p, c.b), List.mem_iff_getElem?.mpr ⟨i, zip_getElem?' _ _ _ _ _ h1 h2⟩, by simp [belongs, h3]⟩

/-! totals -/

theorem sum_modify {V : Type} [AddCommMonoid V] (out : List V) (i : Nat) (v : V) (hi : i < out.length) :
    (out.modify i (· + v)).sum = out.sum + v := by
  induction out generalizing i with
  | nil => simp at hi
  | cons a out ih =>
    cases i with
    | zero => simp [add_right_comm]
    | succ i => simp [ih i (by simpa using hi), add_assoc]

theorem scatterAddInto_sum {V : Type} [AddCommMonoid V] (out : List V) (ps : List (Nat × V))
    (h : ∀ p ∈ ps, p.1 < out.length) : (scatterAddInto out ps).sum = out.sum + (ps.map Prod.snd).sum := by
  induction ps generalizing out with
  | nil => simp [scatterAddInto]
  | cons p ps ih =>
    obtain ⟨i, v⟩ := p
    simp only [scatterAddInto]
    rw [ih _ (by simpa using fun a b hp => h (a, b) (List.mem_cons_of_mem _ hp)), sum_modify _ _ _ (h (i, v) (by simp))]
    simp [add_assoc]

theorem total_unique {V : Type} [AddCommMonoid V] (ks : List Nat) (src : List V) (hl : ks.length = src.length) :
    ((unique ks).map (sumAt ks src)).sum = src.sum := by
  have h1 := scatterAdd_unique ks src hl
  rw [scatterAdd_ok src (uniqueInv ks) (unique ks).length (by simp [uniqueInv, hl]) (uniqueInv_lt ks)
    (uniqueInv_surj ks)] at h1
  have h2 := Except.ok.inj h1
  rw [← h2, scatterAddInto_sum]
  · rw [List.map_snd_zip (by simp [uniqueInv, hl])]
    simp
  · rintro ⟨i, v⟩ hp
    rw [List.length_replicate]
    exact uniqueInv_lt ks i (List.of_mem_zip hp).1

/-! means -/

theorem mean_bounds (l : List ℚ) (lo hi : ℚ) (hne : l ≠ []) (h : ∀ v ∈ l, lo ≤ v ∧ v < hi) :
    lo ≤ l.sum / l.length ∧ l.sum / l.length < hi := by
  have hpos : (0 : ℚ) < l.length := by
    have : 0 < l.length := List.length_pos_of_ne_nil hne
    exact_mod_cast this
  have h1 : lo * l.length ≤ l.sum := by
    clear hne hpos
    induction l with
    | nil => simp
    | cons a l ih =>
      have := ih (fun v hv => h v (List.mem_cons_of_mem _ hv))
      have := (h a (by simp)).1
      simp only [List.length_cons, List.sum_cons]
      push_cast
      linarith
  have h2 : l.sum < hi * l.length := by
    cases l with
    | nil => exact absurd rfl hne
    | cons a l =>
      have h3 : l.sum ≤ hi * l.length := by
        have hl : ∀ v ∈ l, v < hi := fun v hv => (h v (List.mem_cons_of_mem _ hv)).2
        clear h h1 hpos hne
        induction l with
        | nil => simp
        | cons b l ih =>
          have := ih (fun v hv => hl v (List.mem_cons_of_mem _ hv))
          have := hl b (by simp)
          simp only [List.length_cons, List.sum_cons]
          push_cast
          linarith
      have := (h a (by simp)).2
      simp only [List.length_cons, List.sum_cons]
      push_cast
      linarith
  constructor
  · rw [le_div_iff₀ hpos]; exact h1
  · rw [div_lt_iff₀ hpos]; exact h2

theorem sum_x (l : List (V3 ℚ)) : l.sum.x = (l.map V3.x).sum := by
  induction l with
  | nil => rfl
  | cons a l ih => simp [ih]

theorem sum_y (l : List (V3 ℚ)) : l.sum.y = (l.map V3.y).sum := by
  induction l with
  | nil => rfl
  | cons a l ih => simp [ih]

theorem sum_z (l : List (V3 ℚ)) : l.sum.z = (l.map V3.z).sum := by
  induction l with
  | nil => rfl
  | cons a l ih => simp [ih]

/-- filtering points zipped with a function of themselves -/
theorem filter_zip_self (D : Nat) (c : Cell) (points : List (V3 ℚ)) (samples : List Nat)
    (hl : samples.length = points.length) (g : V3 ℚ → V3 ℚ) :
    ((((points.zip samples).zip (points.map g)).filter fun e => belongs D c e.1).map Prod.snd) =
      ((points.zip samples).filter (belongs D c)).map fun e => g e.1 := by
  induction points generalizing samples with
  | nil => rfl
  | cons p points ih =>
    cases samples with
    | nil => simp at hl
    | cons b samples =>
      have ih' := ih samples (by simpa using hl)
      simp only [List.zip_cons_cons, List.map_cons, List.filter_cons]
      cases belongs D c (p, b) <;> simp [ih']

theorem sideContains_grid (d n : Nat) (v : ℚ) : SideContains d n v ↔ (n : ℚ) ≤ (v + 1) * 2 ^ d / 2 ∧ (v + 1) * 2 ^ d / 2 < n + 1 := by
  unfold SideContains
  have hp : (0 : ℚ) < 2 ^ d := by positivity
  constructor
  · rintro ⟨h1, h2⟩
    have e1 : (n : ℚ) * (2 / 2 ^ d) ≤ v + 1 := by linarith
    have e2 : v + 1 < ((n : ℚ) + 1) * (2 / 2 ^ d) := by linarith
    rw [mul_div_assoc', div_le_iff₀ hp] at e1
    rw [mul_div_assoc', lt_div_iff₀ hp] at e2
    constructor <;> linarith
  · rintro ⟨h1, h2⟩
    have e1 : (n : ℚ) * (2 / 2 ^ d) ≤ v + 1 := by
      rw [mul_div_assoc', div_le_iff₀ hp]; linarith
    have e2 : v + 1 < ((n : ℚ) + 1) * (2 / 2 ^ d) := by
      rw [mul_div_assoc', lt_div_iff₀ hp]; linarith
    constructor <;> linarith

/-- the mean position of the points of a cell lies in the cell -/
theorem mean_in_cell (D : Nat) (c : Cell) (points : List (V3 ℚ)) (samples : List Nat)
    (hl : samples.length = points.length) (hpos : 0 < countIn D c (points.zip samples)) :
    let v := (sumIn D c (points.zip samples) (points.map (gridPos D))).map
      (· / (countIn D c (points.zip samples) : ℚ))
    ((c.x : ℚ) ≤ v.x ∧ v.x < c.x + 1) ∧ ((c.y : ℚ) ≤ v.y ∧ v.y < c.y + 1) ∧ ((c.z : ℚ) ≤ v.z ∧ v.z < c.z + 1) := by
  intro v
  have hcount : countIn D c (points.zip samples) = ((points.zip samples).filter (belongs D c)).length := by
    unfold countIn; rw [List.countP_eq_length_filter]
  have hsum : sumIn D c (points.zip samples) (points.map (gridPos D)) =
      (((points.zip samples).filter (belongs D c)).map fun e => gridPos D e.1).sum := by
    unfold sumIn; rw [filter_zip_self D c points samples hl]
  have hb : ∀ e ∈ (points.zip samples).filter (belongs D c), CubeContains D c e.1 := by
    intro e he
    have := (List.mem_filter.mp he).2
    unfold belongs at this
    rw [decide_eq_true_eq] at this
    exact this.2
  have hv : v = (((points.zip samples).filter (belongs D c)).map fun e => gridPos D e.1).sum.map
      (· / (((points.zip samples).filter (belongs D c)).length : ℚ)) := by
    simp only [v, hsum, hcount]
  have hne : (points.zip samples).filter (belongs D c) ≠ [] := by
    intro e; rw [hcount, e] at hpos; simp at hpos
  generalize (points.zip samples).filter (belongs D c) = M at *
  rw [hv]
  simp only [V3.map, sum_x, sum_y, sum_z, List.map_map]
  have hx := mean_bounds (M.map (V3.x ∘ fun e => gridPos D e.1)) c.x (c.x + 1) (by simpa using hne) (by
    intro w hw
    obtain ⟨e, he, rfl⟩ := List.mem_map.mp hw
    exact (sideContains_grid D c.x e.1.x).mp (hb e he).1)
  have hy := mean_bounds (M.map (V3.y ∘ fun e => gridPos D e.1)) c.y (c.y + 1) (by simpa using hne) (by
    intro w hw
    obtain ⟨e, he, rfl⟩ := List.mem_map.mp hw
    exact (sideContains_grid D c.y e.1.y).mp (hb e he).2.1)
  have hz := mean_bounds (M.map (V3.z ∘ fun e => gridPos D e.1)) c.z (c.z + 1) (by simpa using hne) (by
    intro w hw
    obtain ⟨e, he, rfl⟩ := List.mem_map.mp hw
    exact (sideContains_grid D c.z e.1.z).mp (hb e he).2.2)
  simp only [List.length_map] at hx hy hz
  exact ⟨hx, hy, hz⟩

/-- rows of the signals of the built octree, one per occupied finest cell -/
theorem map_unique_keys {D : Nat} {S : List Cell} {ks : List Nat} (hS : S.map (Cell.key D) = unique ks) {V : Type _}
    (f : Nat → V) : (unique ks).map f = S.map fun c => f (c.key D) := by
  rw [← hS, List.map_map]; rfl

end Ocnn
