import Verif.BuildLemmas
import Verif.Valid
import Verif.BuildSpec

/-! `build_octree` as a whole: the resulting octree in terms of the cells of the points. -/

set_option linter.unusedSimpArgs false

namespace Ocnn
open Spec
variable {F : Type}

/-! ### point keys -/

/-- the point coordinates rescaled to `[0, 2^depth]` -/
def rescale (D : Nat) (p : V3 ℚ) : V3 ℚ := p.map fun v => (v + 1) * 2 ^ ((D : ℤ) - 1)

/-- the cell into which the code puts a rescaled point: coordinates wrap around -/
def wrapCell (D : Nat) (q : V3 ℚ) (b : Nat) : Cell :=
  ⟨b, (long q.x % 2 ^ D).toNat, (long q.y % 2 ^ D).toNat, (long q.z % 2 ^ D).toNat⟩

theorem mod_lt_pow (x : Int) (D : Nat) : (x % 2 ^ D).toNat < 2 ^ D := by
  have h1 : (0 : Int) < 2 ^ D := by positivity
  have h2 := Int.emod_lt_of_pos x h1
  have h3 := Int.emod_nonneg x (ne_of_gt h1)
  have : ((x % 2 ^ D).toNat : Int) < ((2 ^ D : Nat) : Int) := by
    rw [Int.toNat_of_nonneg h3]; push_cast; exact h2
  exact_mod_cast this

theorem wrapCell_inRange (D B : Nat) (q : V3 ℚ) (b : Nat) (hb : b < B) : (wrapCell D q b).InRange B D :=
  ⟨hb, mod_lt_pow _ _, mod_lt_pow _ _, mod_lt_pow _ _⟩

theorem mapM_zip_ok {α β γ : Type} (f : α → β → M γ) (g : α → β → γ) (l : List α) (l' : List β)
    (h : ∀ a, ∀ b ∈ l', f a b = .ok (g a b)) :
    (l.zip l').mapM (fun p => f p.1 p.2) = .ok (List.zipWith g l l') := by
  rw [mapM_ok _ (fun p => g p.1 p.2)]
  · rw [← List.map_uncurry_zip_eq_zipWith]
    rfl
  · rintro ⟨a, b⟩ hp
    exact h a b (List.of_mem_zip hp).2

theorem pointKeys_ok (D B : Nat) (hD : D ≤ 16) (hB : B ≤ 2 ^ 15) (qs : List (V3 ℚ)) (samples : List Nat)
    (hl : samples.length = qs.length) (hlt : ∀ b ∈ samples, b < B) (bid : Option (List Int))
    (hb : (B = 1 ∧ bid = none) ∨ bid = some (samples.map Int.ofNat)) :
    Octree.pointKeys qs bid D = .ok ((List.zipWith (wrapCell D) qs samples).map (Cell.key D)) := by
  rcases hb with ⟨h1, rfl⟩ | rfl
  · simp only [Octree.pointKeys]
    have hs : samples = List.replicate qs.length 0 := by
      rw [← hl]
      apply List.eq_replicate_of_mem
      intro b hb
      have := hlt b hb
      omega
    rw [mapM_ok _ (fun p => Cell.key D (wrapCell D p 0))]
    · congr 1
      rw [hs]
      have : ∀ l : List (V3 ℚ), List.zipWith (wrapCell D) l (List.replicate l.length 0) =
          l.map fun p => wrapCell D p 0 := by
        intro l
        induction l with
        | nil => rfl
        | cons a l ih => simp only [List.length_cons, List.replicate_succ, List.zipWith_cons_cons, ih, List.map_cons]
      rw [this, List.map_map]
      rfl
    · intro p _
      exact xyz2key_none _ _ _ D hD
  · simp only [Octree.pointKeys, List.length_map, hl, if_true]
    rw [List.zip_map_right, List.mapM_map]
    have := mapM_zip_ok (fun (p : V3 ℚ) (b : Nat) => xyz2key (long p.x) (long p.y) (long p.z) (some (Int.ofNat b)) D)
      (fun p b => Cell.key D (wrapCell D p b)) qs samples (by
        intro p b hb
        have := hlt b hb
        exact xyz2key_some _ _ _ b D hD (by omega))
    rw [List.map_zipWith]
    exact this

/-! ### ancestors -/

theorem Cell.parent_ancestor (n : Nat) (c : Cell) : (c.ancestor n).parent = c.ancestor (n + 1) := by
  simp only [Cell.ancestor, Cell.parent, Nat.div_div_eq_div_mul, Nat.pow_succ]

theorem Cell.ancestor_zero (c : Cell) : c.ancestor 0 = c := by
  simp [Cell.ancestor]

theorem Cell.ancestor_inRange {B d n : Nat} {c : Cell} (h : c.InRange B (d + n)) : (c.ancestor n).InRange B d := by
  obtain ⟨h1, h2, h3, h4⟩ := h
  rw [Nat.pow_add] at h2 h3 h4
  exact ⟨h1, Nat.div_lt_of_lt_mul (by rwa [Nat.mul_comm]), Nat.div_lt_of_lt_mul (by rwa [Nat.mul_comm]),
    Nat.div_lt_of_lt_mul (by rwa [Nat.mul_comm])⟩

/-- the occupied cells of all levels -/
theorem exists_occ {B full D : Nat} (hD : D ≤ 16) (hf : full ≤ D) (P : List Cell) (hP : ∀ c ∈ P, c.InRange B D) :
    ∃ S, Occ B full D S ∧ (∀ d ≤ D, ∀ c, c ∈ S d ↔ ∃ p ∈ P, p.ancestor (D - d) = c) ∧
      (S D).map (Cell.key D) = unique (P.map (Cell.key D)) := by
  have hr : ∀ d ≤ D, ∀ c ∈ P.map (Cell.ancestor (D - d)), c.InRange B d := by
    intro d hd c hc
    obtain ⟨p, hp, rfl⟩ := List.mem_map.mp hc
    apply Cell.ancestor_inRange
    rw [Nat.add_sub_cancel' hd]
    exact hP p hp
  have hex : ∀ d, ∃ S, d ≤ D → (KeySorted d S ∧ (∀ c, c ∈ S ↔ c ∈ P.map (Cell.ancestor (D - d))) ∧
      S.map (Cell.key d) = unique ((P.map (Cell.ancestor (D - d))).map (Cell.key d))) := by
    intro d
    by_cases hd : d ≤ D
    · obtain ⟨S, hS⟩ := exists_sorted_cells (B := B) (d := d) (by omega) _ (hr d hd)
      exact ⟨S, fun _ => hS⟩
    · exact ⟨[], fun h => absurd h hd⟩
  choose S hS using hex
  refine ⟨S, ⟨hD, hf, fun d hd => (hS d hd).1, ?_, ?_⟩, ?_, ?_⟩
  · intro d hd c hc
    exact hr d hd c (((hS d hd).2.1 c).mp hc)
  · intro d hd c
    rw [(hS d (by omega)).2.1 c]
    simp only [(hS (d + 1) hd).2.1, List.mem_map]
    have e : D - d = D - (d + 1) + 1 := by omega
    constructor
    · rintro ⟨p, hp, rfl⟩
      exact ⟨_, ⟨p, hp, rfl⟩, by rw [Cell.parent_ancestor, e]⟩
    · rintro ⟨s, ⟨p, hp, rfl⟩, rfl⟩
      exact ⟨p, hp, by rw [Cell.parent_ancestor, e]⟩
  · intro d hd c
    rw [(hS d hd).2.1 c, List.mem_map]
  · have := (hS D (le_refl _)).2.2
    rw [this, Nat.sub_self]
    congr 2
    simp [Cell.ancestor_zero, Function.comp_def, funext Cell.ancestor_zero]

/-! ### averages -/

instance {K : Type} [AddCommMonoid K] : AddCommMonoid (V3 K) where
  add_assoc a b c := by ext <;> simp [add_assoc]
  zero_add a := by ext <;> simp
  add_zero a := by ext <;> simp
  add_comm a b := by ext <;> simp [add_comm]
  nsmul := nsmulRec

theorem foldl_max_ge (l : List Int) (m : Nat) : m ≤ l.foldl (fun m i => max m (i + 1).toNat) m ∧
    ∀ x ∈ l, (x + 1).toNat ≤ l.foldl (fun m i => max m (i + 1).toNat) m := by
  induction l generalizing m with
  | nil => simp
  | cons a l ih =>
    simp only [List.foldl_cons]
    obtain ⟨h1, h2⟩ := ih (max m (a + 1).toNat)
    refine ⟨le_trans (le_max_left _ _) h1, ?_⟩
    intro x hx
    rcases List.mem_cons.mp hx with rfl | hx
    · exact le_trans (le_max_right _ _) h1
    · exact h2 x hx

theorem foldl_max_le (l : List Int) (m n : Nat) (hm : m ≤ n) (h : ∀ x ∈ l, (x + 1).toNat ≤ n) :
    l.foldl (fun m i => max m (i + 1).toNat) m ≤ n := by
  induction l generalizing m with
  | nil => simpa
  | cons a l ih =>
    simp only [List.foldl_cons]
    exact ih _ (max_le hm (h a (by simp))) (fun x hx => h x (List.mem_cons_of_mem _ hx))

theorem maxPlusOne_eq (l : List Nat) (n : Nat) (h1 : ∀ x ∈ l, x < n) (h2 : ∀ n', n = n' + 1 → n' ∈ l) :
    maxPlusOne (l.map Int.ofNat) = n := by
  unfold maxPlusOne
  apply le_antisymm
  · apply foldl_max_le _ _ _ (Nat.zero_le _)
    intro x hx
    obtain ⟨y, hy, rfl⟩ := List.mem_map.mp hx
    have := h1 y hy
    simp only [Int.ofNat_eq_natCast]
    omega
  · cases n with
    | zero => exact Nat.zero_le _
    | succ n =>
      have := (foldl_max_ge (l.map Int.ofNat) 0).2 (n : Int) (List.mem_map.mpr ⟨n, h2 n rfl, rfl⟩)
      omega

theorem scatterAdd_ok {V : Type} [AddMonoid V] (src : List V) (js : List Nat) (n : Nat)
    (hl : js.length = src.length) (h1 : ∀ x ∈ js, x < n) (h2 : ∀ n', n = n' + 1 → n' ∈ js) :
    scatterAdd src (js.map Int.ofNat) none = .ok (scatterAddInto (List.replicate n 0) (js.zip src)) := by
  have hm : (js.map Int.ofNat).mapM (scatterIdx n) = .ok js := by
    rw [List.mapM_map]
    have := mapM_ok (scatterIdx n ∘ Int.ofNat) id js (fun a ha => by
      simp only [Function.comp, scatterIdx, Int.ofNat_eq_natCast]
      rw [if_pos ⟨by omega, by exact_mod_cast h1 a ha⟩]
      simp)
    rw [this, List.map_id]
  unfold scatterAdd
  simp only [List.length_map, hl, if_true, bind, Except.bind, maxPlusOne_eq js n h1 h2, hm, pure, Except.pure]

theorem scatterSum_eq {V : Type} [AddMonoid V] (src : List V) (js : List Nat) (n : Nat) :
    scatterAddInto (List.replicate n 0) (js.zip src) =
      (List.range n).map fun r => (((js.zip src).filter fun p => decide (p.1 = r)).map Prod.snd).sum := by
  apply List.ext_getElem?
  intro r
  rw [scatterAddInto_getElem?]
  by_cases hr : r < n
  · simp [hr]
  · rw [List.getElem?_eq_none (by simp; omega), List.getElem?_eq_none (by simp; omega)]
    rfl

theorem uniqueInv_lt (l : List Nat) : ∀ x ∈ uniqueInv l, x < (unique l).length := by
  intro x hx
  obtain ⟨k, hk, rfl⟩ := List.mem_map.mp hx
  exact List.idxOf_lt_length_iff.mpr ((mem_unique l k).mpr hk)

theorem uniqueInv_surj (l : List Nat) (n' : Nat) (h : (unique l).length = n' + 1) : n' ∈ uniqueInv l := by
  have hlt : n' < (unique l).length := by omega
  have hm : (unique l)[n'] ∈ l := (mem_unique l _).mp (List.getElem_mem hlt)
  refine List.mem_map.mpr ⟨_, hm, ?_⟩
  exact (unique_nodup l).idxOf_getElem n' hlt

/-- the sum of the values of the rows whose key is `k` -/
def sumAt {V : Type} [Add V] [Zero V] (ks : List Nat) (src : List V) (k : Nat) : V :=
  (((ks.zip src).filter fun p => decide (p.1 = k)).map Prod.snd).sum

theorem filter_inv {V : Type} (ks : List Nat) (U : List Nat) (hU : U.Nodup) (hsub : ∀ k ∈ ks, k ∈ U) (src : List V)
    (r k : Nat) (hr : U[r]? = some k) :
    (((ks.map fun x => U.idxOf x).zip src).filter fun p => decide (p.1 = r)).map Prod.snd =
      ((ks.zip src).filter fun p => decide (p.1 = k)).map Prod.snd := by
  induction ks generalizing src with
  | nil => rfl
  | cons a ks ih =>
    cases src with
    | nil => rfl
    | cons v src =>
      have ih' := ih (fun k hk => hsub k (List.mem_cons_of_mem _ hk)) src
      have ha := hsub a (by simp)
      have hiff : U.idxOf a = r ↔ a = k := by
        constructor
        · intro e
          have hlt := List.idxOf_lt_length_iff.mpr ha
          have h2 : U[U.idxOf a]? = some a := by
            rw [List.getElem?_eq_getElem hlt]; simp
          rw [e, hr] at h2
          exact (Option.some.inj h2).symm
        · rintro rfl
          obtain ⟨hlt, hget⟩ := List.getElem?_eq_some_iff.mp hr
          rw [← hget]
          exact hU.idxOf_getElem r hlt
      simp only [List.map_cons, List.zip_cons_cons, List.filter_cons]
      by_cases e : a = k
      · have e' := hiff.mpr e
        simp only [e, e', decide_true, if_true, List.map_cons, ih']
        subst e
        simp [e', ih']
      · have e' : ¬ U.idxOf a = r := fun h => e (hiff.mp h)
        simp [e, e', ih']

/-- `scatter_add` with the inverse indices of `unique` sums the rows of equal keys -/
theorem scatterAdd_unique {V : Type} [AddMonoid V] (ks : List Nat) (src : List V) (hl : ks.length = src.length) :
    scatterAdd src ((uniqueInv ks).map Int.ofNat) none = .ok ((unique ks).map (sumAt ks src)) := by
  rw [scatterAdd_ok src (uniqueInv ks) (unique ks).length (by simp [uniqueInv, hl]) (uniqueInv_lt ks)
    (uniqueInv_surj ks), scatterSum_eq]
  congr 1
  apply List.ext_getElem?
  intro r
  simp only [List.getElem?_map]
  by_cases hr : r < (unique ks).length
  · rw [List.getElem?_range hr, List.getElem?_eq_getElem hr]
    simp only [Option.map_some, sumAt, uniqueInv]
    rw [filter_inv ks (unique ks) (unique_nodup ks) (fun k hk => (mem_unique ks k).mpr hk) src r _
      (List.getElem?_eq_getElem hr)]
  · rw [List.getElem?_eq_none (by simp; omega), List.getElem?_eq_none (by omega)]
    rfl

theorem average_unique {V : Type} [AddMonoid V] (divBy : ℚ → V → V) (ks : List Nat) (src : List V)
    (hl : ks.length = src.length) :
    Octree.average divBy src (uniqueInv ks) (uniqueCounts ks) =
      .ok ((unique ks).map fun k => divBy (ks.count k : ℚ) (sumAt ks src k)) := by
  unfold Octree.average
  simp only [scatterAdd_unique ks src hl, bind, Except.bind, List.length_map, uniqueCounts, if_true, pure, Except.pure]
  congr 1
  rw [List.zipWith_map]
  simp [List.zipWith_self]

/-! ### the whole function -/

/-- the octree after building -/
def builtState {L : Type} [AddCommMonoid F] (nrm : V3 ℚ → V3 ℚ) (divF : ℚ → F → F) (o : Octree F)
    (pc : Points ℚ F L) (S : Nat → List Cell) (ks : List Nat) : Octree F :=
  { o with
    device := pc.device
    keys := fun d => if d ≤ o.depth then
      some ((layerCells o.batchSize (occMasks o.batchSize o.fullDepth S) d).map (Cell.key d)) else o.keys d
    nnum := fun d => if d ≤ o.depth then
      (layerCells o.batchSize (occMasks o.batchSize o.fullDepth S) d).length else o.nnum d
    nnumNempty := fun d => if d ≤ o.depth then (occMasks o.batchSize o.fullDepth S d).count true else o.nnumNempty d
    children := fun d => if d ≤ o.depth then some (number 0 (occMasks o.batchSize o.fullDepth S d)) else o.children d
    points := upd o.points o.depth (some ((unique ks).map fun k =>
      (sumAt ks (pc.points.map (rescale o.depth)) k).map (· / (ks.count k : ℚ))))
    normals := match pc.normals with
      | some n => upd o.normals o.depth (some ((unique ks).map fun k => nrm (sumAt ks n k)))
      | none => o.normals
    features := match pc.features with
      | some f => upd o.features o.depth (some ((unique ks).map fun k => divF (ks.count k : ℚ) (sumAt ks f k)))
      | none => o.features }

theorem occMasks_length {B full D : Nat} {S : Nat → List Cell} (h : Occ B full D S) (d : Nat) (hd : d ≤ D) :
    (occMasks B full S d).length = (layerCells B (occMasks B full S) d).length := by
  rw [(h.layers d hd).1]
  unfold occMasks
  split
  · rw [occLayer_le (by omega)]; exact fullMasks_len B d
  · simp

theorem occMasks_count {B full D : Nat} {S : Nat → List Cell} (h : Occ B full D S) (d : Nat) (hd : d ≤ D)
    (hf : full ≤ d) : (occMasks B full S d).count true = (S d).length := by
  rw [← (h.layers d hd).2 hf, maskSel_length]
  rw [occMasks_length h d hd, (h.layers d hd).1]

theorem fold_state_fun {α : Type _} (full D : Nat) (hf : full ≤ D) (f g orig : Nat → α) (h : ℕ → α)
    (h1 : ∀ d ≤ full, f d = h d) (h2 : ∀ d, full < d → g d = h d) :
    (fun d => if full < d ∧ d ≤ full + (D - full) then g d else if d < full + 1 then f d else orig d) =
      fun d => if d ≤ D then h d else orig d := by
  funext d
  by_cases a : full < d ∧ d ≤ full + (D - full)
  · rw [if_pos a, if_pos (by omega), h2 d a.1]
  · rw [if_neg a]
    by_cases b : d < full + 1
    · rw [if_pos b, if_pos (by omega), h1 d (by omega)]
    · rw [if_neg b, if_neg (by omega)]

theorem upd_if {α : Type _} (D full : Nat) (hf : full ≤ D) (h h' orig : Nat → α)
    (hne : ∀ d, d ≠ full → h d = h' d) :
    upd (fun d => if d ≤ D then h d else orig d) full (h' full) = fun d => if d ≤ D then h' d else orig d := by
  funext d
  unfold upd
  by_cases e : d = full
  · subst e; rw [if_pos rfl, if_pos hf]
  · rw [if_neg e]; simp only [hne d e]

/-- the cells of the points -/
def pointCells {L : Type} (D : Nat) (pc : Points ℚ F L) (samples : List Nat) : List Cell :=
  List.zipWith (wrapCell D) (pc.points.map (rescale D)) samples

theorem pointCells_inRange {L : Type} {D B : Nat} {pc : Points ℚ F L} {samples : List Nat} (h : Samples B pc samples) :
    ∀ c ∈ pointCells D pc samples, c.InRange B D := by
  intro c hc
  unfold pointCells at hc
  rw [← List.map_uncurry_zip_eq_zipWith] at hc
  obtain ⟨⟨q, b⟩, hp, rfl⟩ := List.mem_map.mp hc
  exact wrapCell_inRange D B q b (h.lt b (List.of_mem_zip hp).2)

theorem pointCells_length {L : Type} {D B : Nat} {pc : Points ℚ F L} {samples : List Nat} (h : Samples B pc samples) :
    (pointCells D pc samples).length = pc.points.length := by
  simp [pointCells, h.length]

set_option simprocs false in
theorem build_state {L : Type} [AddCommMonoid F] (nrm : V3 ℚ → V3 ℚ) (divF : ℚ → F → F) (o : Octree F)
    (pc : Points ℚ F L) (samples : List Nat) (hs : Samples o.batchSize pc samples) (hpb : pc.batchSize = o.batchSize)
    (hD : o.depth ≤ 16) (hf : o.fullDepth ≤ o.depth) (hB : o.batchSize ≤ 2 ^ 15) (S : Nat → List Cell)
    (hO : Occ o.batchSize o.fullDepth o.depth S)
    (hS : (S o.depth).map (Cell.key o.depth) = unique ((pointCells o.depth pc samples).map (Cell.key o.depth))) :
    Octree.build nrm divF o pc = .ok (builtState nrm divF o pc S
      ((pointCells o.depth pc samples).map (Cell.key o.depth)),
      uniqueInv ((pointCells o.depth pc samples).map (Cell.key o.depth))) := by
  have hpts : (pc.points.map fun p => p.map fun v => (v + 1) * (2 : ℚ) ^ ((o.depth : ℤ) - 1)) =
      pc.points.map (rescale o.depth) := rfl
  have hkeys : ∀ bid, ((o.batchSize = 1 ∧ bid = none) ∨ bid = some (samples.map Int.ofNat)) →
      Octree.pointKeys (pc.points.map (rescale o.depth)) bid o.depth =
        .ok ((pointCells o.depth pc samples).map (Cell.key o.depth)) := by
    intro bid hb
    exact pointKeys_ok o.depth o.batchSize hD hB _ samples (by simp [hs.length]) hs.lt bid hb
  have hlen : ((pointCells o.depth pc samples).map (Cell.key o.depth)).length = pc.points.length := by
    rw [List.length_map, pointCells_length hs]
  unfold Octree.build builtState
  generalize hks : (pointCells o.depth pc samples).map (Cell.key o.depth) = ks at *
  have hb : ∃ bid, (if o.batchSize = 1 then pure none else do
      let b ← need pc.batchId
      pure (some b) : M (Option (List Int))) = .ok bid ∧
      ((o.batchSize = 1 ∧ bid = none) ∨ bid = some (samples.map Int.ofNat)) := by
    by_cases h1 : o.batchSize = 1
    · exact ⟨none, by simp [h1, pure, Except.pure], Or.inl ⟨h1, rfl⟩⟩
    · refine ⟨some (samples.map Int.ofNat), ?_, Or.inr rfl⟩
      rw [if_neg h1, hs.ids h1]
      rfl
  obtain ⟨bid, hbid, hbid'⟩ := hb
  have hgrow := growFull_fold { o with device := pc.device } (o.fullDepth + 1) (le_refl _) hf hD hB
  have hloop := buildLoop_ok hO (o.depth - o.fullDepth) (by omega)
    (fullState { o with device := pc.device } (o.fullDepth + 1)) rfl rfl
  rw [Nat.add_sub_cancel' hf, hS] at hloop
  have hch : (loopState o.batchSize o.fullDepth S (o.depth - o.fullDepth)
      (fullState { o with device := pc.device } (o.fullDepth + 1))).children o.fullDepth =
      some (number 0 (fullMasks o.batchSize o.fullDepth)) := by
    simp only [loopState, fullState]
    rw [if_neg (by omega), if_pos (by omega)]
  have hfc := full_children hO
  rw [← fullMasks_len] at hfc
  have hnl : (number 0 (fullMasks o.batchSize o.fullDepth)).length = (fullMasks o.batchSize o.fullDepth).length := by
    simp
  simp only [hpts, bind, Except.bind, pyAssert, hpb, if_true]
  simp only [bind, Except.bind] at hbid
  rw [hbid]
  simp only [hkeys bid hbid']
  rw [hgrow]
  simp only [Except.bind]
  have hfd : (fullState { o with device := pc.device } (o.fullDepth + 1)).fullDepth = o.fullDepth := rfl
  have hdd : (fullState { o with device := pc.device } (o.fullDepth + 1)).depth = o.depth := rfl
  rw [hfd, hdd, hloop]
  simp only [Except.bind]
  have hfd2 : (loopState o.batchSize o.fullDepth S (o.depth - o.fullDepth)
      (fullState { o with device := pc.device } (o.fullDepth + 1))).fullDepth = o.fullDepth := rfl
  have hdd2 : (loopState o.batchSize o.fullDepth S (o.depth - o.fullDepth)
      (fullState { o with device := pc.device } (o.fullDepth + 1))).depth = o.depth := rfl
  have hbb2 : (loopState o.batchSize o.fullDepth S (o.depth - o.fullDepth)
      (fullState { o with device := pc.device } (o.fullDepth + 1))).batchSize = o.batchSize := rfl
  rw [hfd2, hdd2, hbb2, hch]
  simp only [need, Except.bind, hnl]
  rw [hfc]
  simp only [Except.bind]
  rw [average_unique _ _ _ (by rw [hlen, List.length_map])]
  simp only [Except.bind]
  -- the fields
  have ekeys : (loopState o.batchSize o.fullDepth S (o.depth - o.fullDepth)
      (fullState { o with device := pc.device } (o.fullDepth + 1))).keys =
      fun d => if d ≤ o.depth then
      some ((layerCells o.batchSize (occMasks o.batchSize o.fullDepth S) d).map (Cell.key d)) else o.keys d := by
    funext d
    simp only [loopState, fullState]
    by_cases hd : d ≤ o.depth
    · rw [if_pos hd, (hO.layers d hd).1]
      by_cases a : o.fullDepth < d
      · rw [if_pos (by omega)]
      · rw [if_neg (by omega), if_pos (by omega), occLayer_le (by omega), layer_fullMasks_keys _ _ (by omega)]
    · rw [if_neg (by omega), if_neg (by omega), if_neg hd]
  have ennum : (loopState o.batchSize o.fullDepth S (o.depth - o.fullDepth)
      (fullState { o with device := pc.device } (o.fullDepth + 1))).nnum =
      fun d => if d ≤ o.depth then
      (layerCells o.batchSize (occMasks o.batchSize o.fullDepth S) d).length else o.nnum d := by
    funext d
    simp only [loopState, fullState]
    by_cases hd : d ≤ o.depth
    · rw [if_pos hd, (hO.layers d hd).1]
      by_cases a : o.fullDepth < d
      · rw [if_pos (by omega)]
      · rw [if_neg (by omega), if_pos (by omega), occLayer_le (by omega), ← fullMasks_len]
        simp [fullMasks]
    · rw [if_neg (by omega), if_neg (by omega), if_neg hd]
  have enn : upd (loopState o.batchSize o.fullDepth S (o.depth - o.fullDepth)
      (fullState { o with device := pc.device } (o.fullDepth + 1))).nnumNempty o.fullDepth
        ((S o.fullDepth).map (Cell.key o.fullDepth)).length =
      fun d => if d ≤ o.depth then (occMasks o.batchSize o.fullDepth S d).count true else o.nnumNempty d := by
    funext d
    simp only [loopState, fullState, upd]
    by_cases hd : d ≤ o.depth
    · rw [if_pos hd]
      by_cases e : d = o.fullDepth
      · subst e
        rw [if_pos rfl, occMasks_count hO _ hd (le_refl _), List.length_map]
      · rw [if_neg e]
        by_cases a : o.fullDepth < d
        · rw [if_pos (by omega), occMasks_count hO _ hd (by omega)]
        · rw [if_neg (by omega), if_pos (by omega)]
          unfold occMasks
          rw [if_pos (by omega)]
          simp [fullMasks]
    · rw [if_neg (by omega), if_neg (by omega), if_neg (by omega), if_neg hd]
  have ech : upd (loopState o.batchSize o.fullDepth S (o.depth - o.fullDepth)
      (fullState { o with device := pc.device } (o.fullDepth + 1))).children o.fullDepth
        (some (number 0 (occMasks o.batchSize o.fullDepth S o.fullDepth))) =
      fun d => if d ≤ o.depth then some (number 0 (occMasks o.batchSize o.fullDepth S d)) else o.children d := by
    funext d
    simp only [loopState, fullState, upd]
    by_cases hd : d ≤ o.depth
    · rw [if_pos hd]
      by_cases e : d = o.fullDepth
      · subst e
        rw [if_pos rfl]
      · rw [if_neg e]
        by_cases a : o.fullDepth < d
        · rw [if_pos (by omega)]
        · rw [if_neg (by omega), if_pos (by omega)]
          have : occMasks o.batchSize o.fullDepth S d = fullMasks o.batchSize d := by
            unfold occMasks
            rw [if_pos (by omega)]
          rw [this]
    · rw [if_neg (by omega), if_neg (by omega), if_neg (by omega), if_neg hd]
  rw [enn, ech, ekeys, ennum]
  cases hn : pc.normals with
  | none =>
    cases hft : pc.features with
    | none => rfl
    | some f =>
      simp only [pure, Except.pure, Except.bind]
      rw [average_unique _ _ _ (by rw [hlen, hs.features f hft])]
      rfl
  | some n =>
    simp only [Except.bind]
    rw [scatterAdd_unique _ _ (by rw [hlen, hs.normals n hn])]
    simp only [pure, Except.pure, Except.bind, List.map_map, Function.comp_def]
    cases hft : pc.features with
    | none => rfl
    | some f =>
      simp only [pure, Except.pure, Except.bind]
      rw [average_unique _ _ _ (by rw [hlen, hs.features f hft])]
      rfl

theorem builtState_wf {L : Type} [AddCommMonoid F] (nrm : V3 ℚ → V3 ℚ) (divF : ℚ → F → F) (o : Octree F)
    (pc : Points ℚ F L) (hD : o.depth ≤ 16) (hf : o.fullDepth ≤ o.depth) (hB : o.batchSize ≤ 2 ^ 15)
    (S : Nat → List Cell) (hO : Occ o.batchSize o.fullDepth o.depth S) (ks : List Nat) :
    WF (builtState nrm divF o pc S ks) o.depth (occMasks o.batchSize o.fullDepth S) where
  depth_le := hD
  h_le := le_refl _
  full_le := hf
  batch_le := hB
  len := fun d hd => occMasks_length hO d hd
  full := by
    intro d hd b hb
    have hd' : d < o.fullDepth := hd
    unfold occMasks at hb
    rw [if_pos hd'] at hb
    exact fullMasks_true _ d b hb
  keys := fun d hd => by simp only [builtState]; rw [if_pos hd]
  children := fun d hd => by simp only [builtState]; rw [if_pos hd]
  nnum := fun d hd => by simp only [builtState]; rw [if_pos hd]
  nnumNempty := fun d hd => by simp only [builtState]; rw [if_pos hd]

end Ocnn
