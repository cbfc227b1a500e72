import Verif.SortLemmas
import Verif.GrowLemmas

/-! Lemmas about `build_octree`: the loop over the layers. -/

set_option linter.unusedSimpArgs false

namespace Ocnn
open Spec
variable {F : Type}

/-- strictly ascending by key -/
def KeySorted (d : Nat) (S : List Cell) : Prop := S.Pairwise fun a b => a.key d < b.key d

theorem KeySorted.keys {d : Nat} {S : List Cell} (h : KeySorted d S) : (S.map (Cell.key d)).Pairwise (· < ·) := by
  rw [List.pairwise_map]; exact h

theorem keySorted_ext {B d : Nat} (hd : d ≤ 16) {S S' : List Cell} (h : KeySorted d S) (h' : KeySorted d S')
    (hr : ∀ c ∈ S, c.InRange B d) (hr' : ∀ c ∈ S', c.InRange B d) (hm : ∀ c, c ∈ S ↔ c ∈ S') : S = S' := by
  have e : S.map (Cell.key d) = S'.map (Cell.key d) := by
    apply sorted_ext h.keys h'.keys
    intro x
    simp only [List.mem_map]
    constructor
    · rintro ⟨c, hc, rfl⟩; exact ⟨c, (hm c).mp hc, rfl⟩
    · rintro ⟨c, hc, rfl⟩; exact ⟨c, (hm c).mpr hc, rfl⟩
  apply List.ext_getElem?
  intro i
  have ei := congrArg (fun l : List Nat => l[i]?) e
  simp only [List.getElem?_map] at ei
  cases h1 : S[i]? with
  | none =>
    rw [h1] at ei
    cases h2 : S'[i]? with
    | none => rfl
    | some c => rw [h2] at ei; simp at ei
  | some a =>
    rw [h1] at ei
    cases h2 : S'[i]? with
    | none => rw [h2] at ei; simp at ei
    | some c =>
      rw [h2] at ei
      simp only [Option.map_some, Option.some.injEq] at ei
      rw [Cell.key_injective hd (hr a (List.mem_of_getElem? h1)) (hr' c (List.mem_of_getElem? h2)) ei]

theorem exists_map_of_forall {α β : Type _} (f : α → β) (P : α → Prop) (l : List β)
    (h : ∀ b ∈ l, ∃ a, P a ∧ f a = b) : ∃ S : List α, S.map f = l ∧ ∀ a ∈ S, P a := by
  induction l with
  | nil => exact ⟨[], rfl, by simp⟩
  | cons b l ih =>
    obtain ⟨a, ha, e⟩ := h b (by simp)
    obtain ⟨S, hS, hP⟩ := ih (fun b hb => h b (List.mem_cons_of_mem _ hb))
    refine ⟨a :: S, by simp [e, hS], ?_⟩
    intro x hx
    rcases List.mem_cons.mp hx with rfl | hx
    · exact ha
    · exact hP x hx

/-- the distinct cells of a list, ascending by key; their keys are `unique` of the keys -/
theorem exists_sorted_cells {B d : Nat} (hd : d ≤ 16) (l : List Cell) (hr : ∀ c ∈ l, c.InRange B d) :
    ∃ S, KeySorted d S ∧ (∀ c, c ∈ S ↔ c ∈ l) ∧ S.map (Cell.key d) = unique (l.map (Cell.key d)) := by
  obtain ⟨S, hS, hP⟩ := exists_map_of_forall (Cell.key d) (fun c => c ∈ l) (unique (l.map (Cell.key d))) (by
    intro b hb
    rw [mem_unique, List.mem_map] at hb
    exact hb)
  refine ⟨S, ?_, ?_, hS⟩
  · have := unique_sorted (l.map (Cell.key d))
    rw [← hS, List.pairwise_map] at this
    exact this
  · intro c
    refine ⟨hP c, fun hc => ?_⟩
    have : c.key d ∈ unique (l.map (Cell.key d)) := (mem_unique _ _).mpr (List.mem_map_of_mem hc)
    rw [← hS, List.mem_map] at this
    obtain ⟨c', hc', e⟩ := this
    rwa [← Cell.key_injective hd (hr c' (hP c' hc')) (hr c hc) e]

/-! ### one level -/

/-- keys of parents as the loop sees them -/
def key45 (d : Nat) (c : Cell) : Nat := c.b * 2 ^ 45 + morton d c.x c.y c.z

theorem morton_lt45 (d : Nat) (hd : d + 1 ≤ 16) (x y z : Nat) : morton d x y z < 2 ^ 45 := by
  have := morton_lt d x y z
  have h8 : (8 : Nat) ^ d ≤ 8 ^ 15 := Nat.pow_le_pow_right (by omega) (by omega)
  norm_num at h8 ⊢
  omega

theorem key_shr3 (d : Nat) (c : Cell) : c.key (d + 1) >>> 3 = key45 d c.parent := by
  rw [Cell.key_succ]
  have := c.octant_lt
  unfold key45
  have hb : c.parent.b = c.b := rfl
  rw [hb, Nat.shiftRight_eq_div_pow]
  omega

theorem key_mod8 (d : Nat) (c : Cell) : c.key (d + 1) % 8 = c.octant := by
  rw [Cell.key_succ]
  have := c.octant_lt
  omega

theorem key45_child (d : Nat) (c : Cell) (i : Nat) (hi : i < 8) : (key45 d c <<< 3) + i = (c.child i).key (d + 1) := by
  rw [Cell.child_key _ _ _ hi, Nat.shiftLeft_eq]
  unfold key45
  omega

theorem key45_lt_iff (d : Nat) (hd : d + 1 ≤ 16) (a b : Cell) : key45 d a < key45 d b ↔ a.key d < b.key d := by
  have ha := morton_lt45 d hd a.x a.y a.z
  have hb := morton_lt45 d hd b.x b.y b.z
  unfold key45 Cell.key
  omega

theorem key45_next (d : Nat) (hd : d + 1 ≤ 16) (c : Cell) :
    ((key45 d c >>> 45) <<< 48) ||| (key45 d c &&& ((1 <<< 45) - 1)) = c.key d := by
  have hm := morton_lt45 d hd c.x c.y c.z
  have h1 : key45 d c >>> 45 = c.b := by
    rw [Nat.shiftRight_eq_div_pow]; unfold key45; omega
  have h2 : key45 d c &&& ((1 <<< 45) - 1) = morton d c.x c.y c.z := by
    rw [Nat.one_shiftLeft, Nat.and_two_pow_sub_one_eq_mod]; unfold key45; omega
  rw [h1, h2, Nat.shiftLeft_eq, Nat.mul_comm]
  unfold Cell.key
  rw [Nat.mul_comm c.b]
  exact (Nat.two_pow_add_eq_or_of_lt (by omega) c.b).symm

theorem key45_b0 (d : Nat) (c : Cell) (h : c.b = 0) : key45 d c = c.key d := by
  unfold key45 Cell.key; rw [h]; omega

/-- the parents of a sorted list of cells -/
theorem parents_sorted (d : Nat) {S : List Cell} (h : KeySorted (d + 1) S) :
    (S.map fun c => key45 d c.parent).Pairwise (· ≤ ·) := by
  rw [List.pairwise_map]
  apply h.imp
  intro a b hab
  rw [← key_shr3, ← key_shr3, Nat.shiftRight_eq_div_pow, Nat.shiftRight_eq_div_pow]
  exact Nat.div_le_div_right hab.le

set_option simprocs false in
theorem buildLevel_ok {B d : Nat} (hd : d + 1 ≤ 16) (o : Octree F) (hB : o.batchSize = B) (hdo : d + 1 ≤ o.depth)
    (S S' : List Cell) (hS : KeySorted (d + 1) S) (hS' : KeySorted d S')
    (hr' : ∀ c ∈ S', c.InRange B d) (hm : ∀ c, c ∈ S' ↔ ∃ s ∈ S, s.parent = c) :
    o.buildLevel (S.map (Cell.key (d + 1))) (d + 1) = .ok ({ o with
      keys := upd o.keys (d + 1) (some ((expand 8 Cell.child S').map (Cell.key (d + 1))))
      nnum := upd o.nnum (d + 1) (expand 8 Cell.child S').length
      nnumNempty := upd o.nnumNempty (d + 1) S.length
      children := upd o.children (d + 1)
        (some (number 0 ((expand 8 Cell.child S').map fun c => decide (c ∈ S)))) }, S'.map (Cell.key d)) := by
  have epk : (S.map (Cell.key (d + 1))).map (fun k => k >>> 3) = S.map fun c => key45 d c.parent := by
    simp only [List.map_map, Function.comp_def, key_shr3]
  have epkey : uniqueConsec (S.map fun c => key45 d c.parent) = S'.map (key45 d) := by
    apply sorted_ext (uniqueConsec_sorted _ (parents_sorted d hS))
    · rw [List.pairwise_map]
      exact hS'.imp (fun h => (key45_lt_iff d hd _ _).mpr h)
    · intro x
      rw [mem_uniqueConsec]
      simp only [List.mem_map]
      constructor
      · rintro ⟨s, hs, rfl⟩
        exact ⟨s.parent, (hm _).mpr ⟨s, hs, rfl⟩, rfl⟩
      · rintro ⟨c, hc, rfl⟩
        obtain ⟨s, hs, rfl⟩ := (hm c).mp hc
        exact ⟨s, hs, rfl⟩
  have ekey : ((S'.map (key45 d)).flatMap fun p => (List.range 8).map fun i => (p <<< 3) + i) =
      (expand 8 Cell.child S').map (Cell.key (d + 1)) := by
    rw [map_expand]
    unfold expand
    rw [List.flatMap_map]
    congr 1
    funext c
    apply List.map_congr_left
    intro i hi
    exact key45_child d c i (by simpa using hi)
  obtain ⟨hil, hi⟩ := uniqueConsecInv_spec (S.map fun c => key45 d c.parent) 0
  rw [epkey] at hi
  -- the addresses
  have hsel : maskSel ((expand 8 Cell.child S').map fun c => decide (c ∈ S)) (expand 8 Cell.child S') = S := by
    rw [maskSel_map_decide]
    have hex := expand_sorted d hd S' hS'
    apply keySorted_ext (B := B) hd (List.Pairwise.filter _ hex) hS
    · intro c hc
      have := (List.mem_filter.mp hc).1
      rw [mem_expand] at this
      obtain ⟨p, hp, i, hi8, rfl⟩ := this
      exact Cell.child_inRange (hr' p hp) i
    · intro c hc
      have := Cell.child_inRange (hr' c.parent ((hm _).mpr ⟨c, hc, rfl⟩)) c.octant
      rwa [Cell.parent_child] at this
    · intro c
      simp only [List.mem_filter, decide_eq_true_eq, mem_expand]
      constructor
      · exact fun h => h.2
      · intro h
        exact ⟨⟨c.parent, (hm _).mpr ⟨c, h, rfl⟩, c.octant, c.octant_lt, c.parent_child⟩, h⟩
  have hnd : (expand 8 Cell.child S').Nodup := by
    apply (expand_sorted d hd S' hS').imp
    intro a b h e
    subst e
    exact absurd h (lt_irrefl _)
  set pidx := uniqueConsecInv 0 (S.map fun c => key45 d c.parent) with hpidx
  let addr : List Nat := List.zipWith (fun p k => (p <<< 3) ||| (k % 8)) pidx (S.map (Cell.key (d + 1)))
  have haddr : List.zipWith (fun p k => (((p <<< 3) ||| (k % 8) : Nat) : Int)) pidx (S.map (Cell.key (d + 1))) =
      addr.map Int.ofNat := by
    simp only [addr, List.map_zipWith]
    rfl
  have hal : addr.length = S.length := by
    simp only [addr, List.length_zipWith, hil, List.length_map, Nat.min_self]
  have hat : ∀ j : Nat, ∀ a, addr[j]? = some a → ∃ s, S[j]? = some s ∧ (expand 8 Cell.child S')[a]? = some s := by
    intro j a hj
    have hjl : j < S.length := by rw [← hal]; exact (List.getElem?_eq_some_iff.mp hj).1
    have hsj : S[j]? = some S[j] := List.getElem?_eq_getElem hjl
    obtain ⟨r, hr1, hr2⟩ := hi j (key45 d S[j].parent) (by rw [List.getElem?_map, hsj]; rfl)
    rw [Nat.zero_add] at hr1
    simp only [addr, List.getElem?_zipWith, hr1, List.getElem?_map, hsj, Option.map_some] at hj
    simp only [Option.some.injEq] at hj
    rw [key_mod8] at hj
    have ho := S[j].octant_lt
    have e8 : (r <<< 3) ||| S[j].octant = 8 * r + S[j].octant := by
      rw [Nat.shiftLeft_eq, Nat.mul_comm]
      exact (Nat.two_pow_add_eq_or_of_lt (i := 3) (by omega) r).symm
    rw [e8] at hj
    subst hj
    refine ⟨S[j], hsj, ?_⟩
    rw [expand_getElem? _ _ _ _ _ ho]
    rw [List.getElem?_map] at hr2
    cases hc : S'[r]? with
    | none => rw [hc, Option.map_none] at hr2; cases hr2
    | some c =>
      rw [hc] at hr2
      simp only [Option.map_some, Option.some.injEq] at hr2
      have hcp : c = S[j].parent := by
        have h1 := hr' c (List.mem_of_getElem? hc)
        have h2 := hr' S[j].parent ((hm _).mpr ⟨S[j], List.getElem_mem hjl, rfl⟩)
        apply Cell.key_injective (by omega) h1 h2
        have := key45_lt_iff d hd c S[j].parent
        have := key45_lt_iff d hd S[j].parent c
        omega
      simp only [Option.map_some, hcp, Cell.parent_child]
  have hset : setMany (List.replicate (expand 8 Cell.child S').length (-1)) (addr.zip (arange addr.length)) =
      number 0 ((expand 8 Cell.child S').map fun c => decide (c ∈ S)) := by
    apply setMany_number _ _ (by simp) hnd
    · rw [hal, hsel]
    · intro j a hj
      obtain ⟨s, h1, h2⟩ := hat j a hj
      rw [hsel, h1, h2]
  have hnext : (if o.batchSize = 1 then S'.map (key45 d) else (S'.map (key45 d)).map fun p =>
      ((p >>> 45) <<< 48) ||| (p &&& ((1 <<< 45) - 1))) = S'.map (Cell.key d) := by
    split
    · rename_i h1
      apply List.map_congr_left
      intro c hc
      apply key45_b0
      have := (hr' c hc).1
      omega
    · simp only [List.map_map, Function.comp_def, key45_next d hd]
  unfold Octree.buildLevel
  simp only [epk, epkey, ekey, ← hpidx]
  rw [haddr]
  simp only [List.length_map, Octree.chk, hdo, if_true, bind, Except.bind]
  rw [← hal, idxSet_ok _ _ _ (by simp [arange])]
  · simp only [hset, pure, Except.pure, Except.bind]
    rw [hnext]
  · intro a ha
    obtain ⟨j, hj⟩ := List.mem_iff_getElem?.mp ha
    obtain ⟨s, _, h2⟩ := hat j a hj
    rw [List.length_replicate]
    exact (List.getElem?_eq_some_iff.mp h2).1

/-! ### the occupied cells of every level -/

/-- `S d` lists the occupied cells of level `d`, for `full ≤ d ≤ D`. -/
structure Occ (B full D : Nat) (S : Nat → List Cell) : Prop where
  depth : D ≤ 16
  full : full ≤ D
  sorted : ∀ d ≤ D, KeySorted d (S d)
  range : ∀ d ≤ D, ∀ c ∈ S d, c.InRange B d
  parent : ∀ d, d + 1 ≤ D → ∀ c, c ∈ S d ↔ ∃ s ∈ S (d + 1), s.parent = c

/-- cells of the layers of the octree to be built -/
def occLayer (B full : Nat) (S : Nat → List Cell) : Nat → List Cell
  | 0 => layerCells B (fullMasks B) 0
  | d + 1 => if d + 1 ≤ full then layerCells B (fullMasks B) (d + 1) else expand 8 Cell.child (S d)

/-- masks of the octree to be built -/
def occMasks (B full : Nat) (S : Nat → List Cell) (d : Nat) : List Bool :=
  if d < full then fullMasks B d else (occLayer B full S d).map fun c => decide (c ∈ S d)

theorem occLayer_le {B full : Nat} {S : Nat → List Cell} {d : Nat} (h : d ≤ full) :
    occLayer B full S d = layerCells B (fullMasks B) d := by
  cases d with
  | zero => rfl
  | succ d => simp [occLayer, h]

theorem occLayer_gt {B full : Nat} {S : Nat → List Cell} {d : Nat} (h : full < d + 1) :
    occLayer B full S (d + 1) = expand 8 Cell.child (S d) := by
  simp only [occLayer]
  rw [if_neg (by omega)]

theorem Occ.layers {B full D : Nat} {S : Nat → List Cell} (h : Occ B full D S) (d : Nat) (hd : d ≤ D) :
    layerCells B (occMasks B full S) d = occLayer B full S d ∧
    (full ≤ d → maskSel (occMasks B full S d) (occLayer B full S d) = S d) := by
  induction d with
  | zero =>
    have e0 : layerCells B (occMasks B full S) 0 = occLayer B full S 0 := rfl
    refine ⟨e0, ?_⟩
    intro hf
    have : ¬ 0 < full := by omega
    simp only [occMasks, this, if_false, maskSel_map_decide]
    apply keySorted_ext (B := B) (by omega) (List.Pairwise.filter _ ?_) (h.sorted 0 hd)
    · intro c hc
      have := (List.mem_filter.mp hc).1
      exact layer_inRange B (fullMasks B) 0 c this
    · exact h.range 0 hd
    · intro c
      simp only [List.mem_filter, decide_eq_true_eq]
      refine ⟨fun h => h.2, fun hc => ⟨?_, hc⟩⟩
      exact (full_mem B (fullMasks B) 0 (by omega) (by omega) c).mpr (h.range 0 hd c hc)
    · exact layer_sorted B (fullMasks B) 0 (by omega)
  | succ d ih =>
    obtain ⟨ih1, ih2⟩ := ih (by omega)
    have e1 : layerCells B (occMasks B full S) (d + 1) = occLayer B full S (d + 1) := by
      rcases Nat.lt_or_ge full (d + 1) with hf | hf
      · rw [occLayer_gt hf]
        simp only [layerCells]
        rw [ih1, ih2 (by omega)]
      · rw [occLayer_le hf]
        apply layerCells_congr
        intro i hi
        unfold occMasks
        rw [if_pos (by omega)]
    refine ⟨e1, ?_⟩
    intro hf
    have : ¬ d + 1 < full := by omega
    have h16 := h.depth
    simp only [occMasks, this, if_false, maskSel_map_decide]
    have hsorted := layer_sorted B (occMasks B full S) (d + 1) (by omega)
    rw [e1] at hsorted
    apply keySorted_ext (B := B) (by omega) (List.Pairwise.filter _ hsorted) (h.sorted _ hd)
    · intro c hc
      have := (List.mem_filter.mp hc).1
      rw [← e1] at this
      exact layer_inRange B _ _ c this
    · exact h.range _ hd
    · intro c
      simp only [List.mem_filter, decide_eq_true_eq]
      refine ⟨fun h => h.2, fun hc => ⟨?_, hc⟩⟩
      rcases Nat.lt_or_ge full (d + 1) with hf' | hf'
      · rw [occLayer_gt hf', mem_expand]
        exact ⟨c.parent, (h.parent d hd _).mpr ⟨c, hc, rfl⟩, c.octant, c.octant_lt, c.parent_child⟩
      · rw [occLayer_le hf']
        exact (full_mem B (fullMasks B) (d + 1) (fun i _ => fullMasks_true B i) (fun i _ => fullMasks_len B i) c).mpr
          (h.range _ hd c hc)

/-- the state after the loop over the layers `full + n, ..., full + 1` -/
def loopState (B full : Nat) (S : Nat → List Cell) (n : Nat) (o : Octree F) : Octree F := { o with
  keys := fun d => if full < d ∧ d ≤ full + n then some ((occLayer B full S d).map (Cell.key d)) else o.keys d
  nnum := fun d => if full < d ∧ d ≤ full + n then (occLayer B full S d).length else o.nnum d
  nnumNempty := fun d => if full < d ∧ d ≤ full + n then (S d).length else o.nnumNempty d
  children := fun d => if full < d ∧ d ≤ full + n then some (number 0 (occMasks B full S d)) else o.children d }

theorem upd_between {α : Type _} (f g : Nat → α) (full n : Nat) :
    (fun d => if full < d ∧ d ≤ full + n then g d else (upd f (full + n + 1) (g (full + n + 1))) d) =
      fun d => if full < d ∧ d ≤ full + (n + 1) then g d else f d := by
  funext d
  unfold upd
  by_cases h1 : full < d ∧ d ≤ full + n
  · rw [if_pos h1, if_pos (by omega)]
  · by_cases h2 : d = full + n + 1
    · subst h2
      rw [if_neg h1, if_pos rfl, if_pos (by omega)]
    · rw [if_neg h1, if_neg h2, if_neg (by omega)]

theorem buildLoop_ok {B full D : Nat} {S : Nat → List Cell} (h : Occ B full D S) (n : Nat) (hn : full + n ≤ D)
    (o : Octree F) (hB : o.batchSize = B) (hD : o.depth = D) :
    o.buildLoop ((S (full + n)).map (Cell.key (full + n))) full n =
      .ok (loopState B full S n o, (S full).map (Cell.key full)) := by
  induction n generalizing o with
  | zero =>
    unfold Octree.buildLoop
    simp only [Nat.add_zero, pure, Except.pure]
    congr 2
    unfold loopState
    have : ∀ d, ¬ (full < d ∧ d ≤ full + 0) := by omega
    simp only [this, if_false]
  | succ n ih =>
    have h16 := h.depth
    unfold Octree.buildLoop
    have hl := buildLevel_ok (F := F) (B := B) (d := full + n) (by omega) o hB (by omega)
      (S (full + n + 1)) (S (full + n)) (h.sorted _ (by omega)) (h.sorted _ (by omega)) (h.range _ (by omega))
      (h.parent _ (by omega))
    have e : full + (n + 1) = full + n + 1 := by omega
    rw [e, hl]
    simp only [bind, Except.bind]
    rw [ih (by omega) _ (by exact hB) (by exact hD)]
    congr 2
    have eL : expand 8 Cell.child (S (full + n)) = occLayer B full S (full + n + 1) :=
      (occLayer_gt (by omega)).symm
    have eM : ((expand 8 Cell.child (S (full + n))).map fun c => decide (c ∈ S (full + n + 1))) =
        occMasks B full S (full + n + 1) := by
      unfold occMasks
      rw [if_neg (by omega), eL]
    rw [eM, eL]
    unfold loopState
    simp only
    rw [upd_between o.keys (fun d => some ((occLayer B full S d).map (Cell.key d))),
      upd_between o.nnum (fun d => (occLayer B full S d).length),
      upd_between o.nnumNempty (fun d => (S d).length),
      upd_between o.children (fun d => some (number 0 (occMasks B full S d)))]

/-- position of a cell in a dense layer -/
theorem full_position (B d : Nat) (hd : d ≤ 16) (c : Cell) (hc : c.InRange B d) :
    (layerCells B (fullMasks B) d)[8 ^ d * c.b + morton d c.x c.y c.z]? = some c := by
  have hk := layer_fullMasks_keys B d hd
  have hm := morton_lt d c.x c.y c.z
  have h1 : (fullKeys B d)[8 ^ d * c.b + morton d c.x c.y c.z]? = some (c.key d) := by
    unfold fullKeys
    rw [expand_getElem? _ _ _ _ _ hm, List.getElem?_range hc.1]
    rfl
  rw [← hk, List.getElem?_map] at h1
  cases h2 : (layerCells B (fullMasks B) d)[8 ^ d * c.b + morton d c.x c.y c.z]? with
  | none => rw [h2] at h1; simp at h1
  | some c' =>
    rw [h2] at h1
    simp only [Option.map_some, Option.some.injEq] at h1
    rw [Cell.key_injective hd (layer_inRange _ _ _ _ (List.mem_of_getElem? h2)) hc h1]

theorem full_addr (d : Nat) (hd : d ≤ 16) (c : Cell) :
    ((c.key d >>> 48) <<< (3 * d)) ||| (c.key d &&& ((1 <<< 48) - 1)) = 8 ^ d * c.b + morton d c.x c.y c.z := by
  have h1 : c.key d >>> 48 = c.b := (Nat.shiftRight_eq_div_pow _ _).trans (Cell.key_div d c hd)
  have h2 : c.key d &&& ((1 <<< 48) - 1) = morton d c.x c.y c.z := by
    rw [Nat.one_shiftLeft, Nat.and_two_pow_sub_one_eq_mod]
    exact Cell.key_mod d c hd
  rw [h1, h2, Nat.shiftLeft_eq, Nat.mul_comm, Nat.pow_mul]
  have hm := morton_lt d c.x c.y c.z
  have e : (2 ^ 3) ^ d = (2 : Nat) ^ (3 * d) := (Nat.pow_mul 2 3 d).symm
  have e' : (8 : Nat) ^ d = 2 ^ (3 * d) := by rw [← e]; norm_num
  rw [e, e']
  exact (Nat.two_pow_add_eq_or_of_lt (by rw [← e']; exact hm) c.b).symm

set_option simprocs false in
/-- the children of the last dense layer -/
theorem full_children {B full D : Nat} {S : Nat → List Cell} (h : Occ B full D S) :
    idxSet (List.replicate (layerCells B (fullMasks B) full).length (-1))
      ((if B = 1 then (S full).map (Cell.key full) else ((S full).map (Cell.key full)).map fun k =>
        ((k >>> 48) <<< (3 * full)) ||| (k &&& ((1 <<< 48) - 1))).map Int.ofNat)
      (arange ((S full).map (Cell.key full)).length) = .ok (number 0 (occMasks B full S full)) := by
  have h16 := h.depth
  have hfD := h.full
  have haddr : (if B = 1 then (S full).map (Cell.key full) else ((S full).map (Cell.key full)).map fun k =>
        ((k >>> 48) <<< (3 * full)) ||| (k &&& ((1 <<< 48) - 1))) =
      (S full).map fun c => 8 ^ full * c.b + morton full c.x c.y c.z := by
    split
    · rename_i hB
      apply List.map_congr_left
      intro c hc
      have hb : c.b = 0 := by have := (h.range full hfD c hc).1; omega
      unfold Cell.key; rw [hb]; omega
    · simp only [List.map_map, Function.comp_def, full_addr full (by omega : full ≤ 16)]
  rw [haddr]
  have hpos : ∀ c ∈ S full, (layerCells B (fullMasks B) full)[8 ^ full * c.b + morton full c.x c.y c.z]? = some c :=
    fun c hc => full_position B full (by omega) c (h.range full hfD c hc)
  rw [idxSet_ok]
  · congr 1
    obtain ⟨e1, e2⟩ := h.layers full hfD
    have e3 := e2 (le_refl _)
    rw [occLayer_le (le_refl _)] at e3
    have hlen : ((S full).map (Cell.key full)).length =
        ((S full).map fun c => 8 ^ full * c.b + morton full c.x c.y c.z).length := by simp
    rw [hlen]
    apply setMany_number
    · simp [occMasks, occLayer_le]
    · exact layer_nodup _ _ _ (by omega)
    · rw [e3]; simp
    · intro j a hj
      rw [e3]
      rw [List.getElem?_map] at hj
      cases hs : (S full)[j]? with
      | none => rw [hs, Option.map_none] at hj; cases hj
      | some s =>
        rw [hs] at hj
        simp only [Option.map_some, Option.some.injEq] at hj
        rw [← hj, hpos s (List.mem_of_getElem? hs)]
  · simp [arange]
  · intro a ha
    obtain ⟨c, hc, rfl⟩ := List.mem_map.mp ha
    rw [List.length_replicate]
    exact (List.getElem?_eq_some_iff.mp (hpos c hc)).1

end Ocnn
