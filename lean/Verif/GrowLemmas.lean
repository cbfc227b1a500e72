import Verif.DeepLemmas

/-! `init_octree`, `octree_split`, `octree_grow`, `construct_all_neigh` on layered octrees. -/

set_option linter.unusedSimpArgs false

namespace Ocnn
open Spec

variable {F : Type}

/-- exact neighbour tables for the layers `lo ≤ d ≤ h` -/
def NeighOK (o : Octree F) (masks : Nat → List Bool) (lo h : Nat) : Prop :=
  ∀ d, lo ≤ d → d ≤ h → ∃ rows, o.neighs d = some rows ∧ NeighTable (layerCells o.batchSize masks d) rows

theorem WF.neigh_full {o : Octree F} {h : Nat} {masks : Nat → List Bool} (w : WF o h masks) (d : Nat)
    (hd : d ≤ o.fullDepth) : NeighTable (layerCells o.batchSize masks d) (fullNeigh o.batchSize d) := by
  have h1 := w.depth_le
  have h2 := w.h_le
  have h3 := w.full_le
  exact neighTable_full _ _ _ (by omega) w.batch_le
    (fun i hi => w.full i (by omega)) (fun i hi => w.len i (by omega))

theorem WF.with_neighs {o : Octree F} {h : Nat} {masks : Nat → List Bool} (w : WF o h masks)
    (nb : Nat → Option (List (List Int))) : WF { o with neighs := nb } h masks :=
  ⟨w.depth_le, w.h_le, w.full_le, w.batch_le, w.len, w.full, w.keys, w.children, w.nnum, w.nnumNempty⟩

/-- one step of `construct_neigh` on a layered octree -/
theorem WF.constructNeigh {o : Octree F} {h : Nat} {masks : Nat → List Bool} (w : WF o h masks) (d : Nat)
    (hd : d ≤ h)
    (hprev : o.fullDepth < d → ∃ rows, o.neighs (d - 1) = some rows ∧
      NeighTable (layerCells o.batchSize masks (d - 1)) rows) :
    ∃ rows, o.constructNeigh d = .ok { o with neighs := upd o.neighs d (some rows) } ∧
      NeighTable (layerCells o.batchSize masks d) rows := by
  have h1 := w.depth_le
  have h2 := w.h_le
  by_cases hf : d ≤ o.fullDepth
  · exact ⟨_, constructNeigh_full o d hf (by omega) (by omega), w.neigh_full d hf⟩
  · obtain ⟨rowsP, hr, ht⟩ := hprev (by omega)
    obtain ⟨e, rfl⟩ : ∃ e, d = e + 1 := ⟨d - 1, by omega⟩
    simp only [Nat.add_sub_cancel] at hr ht
    obtain ⟨rows, h3, h4⟩ := constructNeigh_deep o e (by omega) (by omega)
      (layerCells o.batchSize masks e) (masks e) (layer_nodup _ _ _ (by omega)) (w.len e (by omega)) rowsP ht
      (w.children e (by omega)) hr
    exact ⟨rows, h3, h4⟩

theorem constructAll_aux {o : Octree F} {masks : Nat → List Bool} (w : WF o o.depth masks)
    (hf : 1 ≤ o.fullDepth) (n : Nat) (hn : n ≤ o.depth) :
    ∃ nb, (List.range n).foldlM (fun o i => Octree.constructNeigh o (i + 1)) o
        = .ok { o with neighs := nb } ∧
      NeighOK { o with neighs := nb } masks 1 n := by
  induction n with
  | zero =>
    refine ⟨o.neighs, rfl, ?_⟩
    intro d h1 h2
    omega
  | succ n ih =>
    obtain ⟨nb, h1, h2⟩ := ih (by omega)
    rw [List.range_succ, List.foldlM_append, h1]
    have w' := w.with_neighs nb
    obtain ⟨rows, h3, h4⟩ := w'.constructNeigh (n + 1) (by simpa using hn) (by
      intro hlt
      simp only at hlt
      have : n + 1 - 1 = n := by omega
      rw [this]
      exact h2 n (by omega) (by omega))
    refine ⟨upd nb (n + 1) (some rows), ?_, ?_⟩
    · simp only [bind, Except.bind, List.foldlM_cons, List.foldlM_nil, pure, Except.pure, h3]
    · intro d hd1 hd2
      by_cases hd : d = n + 1
      · subst hd
        exact ⟨rows, by simp [upd], h4⟩
      · obtain ⟨r, hr, ht⟩ := h2 d hd1 (by omega)
        exact ⟨r, by simp [upd, hd]; exact hr, ht⟩

/-- `construct_all_neigh` on a layered octree -/
theorem constructAll_ok {o : Octree F} {masks : Nat → List Bool} (w : WF o o.depth masks)
    (hf : 1 ≤ o.fullDepth) :
    ∃ nb, o.constructAllNeigh = .ok { o with neighs := nb } ∧
      NeighOK { o with neighs := nb } masks 1 o.depth :=
  constructAll_aux w hf o.depth (le_refl _)

/-! ### octree_grow_full and init_octree -/

theorem growFull_false (o : Octree F) (d : Nat) (hd : d ≤ o.fullDepth) (hd' : d ≤ o.depth)
    (h16 : d ≤ 16) (hB : o.batchSize ≤ 2 ^ 15) :
    o.growFull d false = .ok { o with
      nnum := upd o.nnum d (8 ^ d * o.batchSize)
      nnumNempty := upd o.nnumNempty d (8 ^ d * o.batchSize)
      keys := upd o.keys d (some (fullKeys o.batchSize d))
      children := upd o.children d (some (number 0 (fullMasks o.batchSize d))) } := by
  unfold Octree.growFull
  have hB' : ¬ (2 ^ 15 < o.batchSize) := by omega
  simp only [pyAssert, hd, if_true, bind, Except.bind, Octree.chk, hd', hB', if_false, pure, Except.pure,
    growFull_keys _ _ h16, arange_eq_number, fullMasks]
  simp only [pow8]
  rfl

theorem growFull_true (o : Octree F) (d : Nat) (hd : d ≤ o.fullDepth) (hd' : d ≤ o.depth)
    (h16 : d ≤ 16) (hB : o.batchSize ≤ 2 ^ 15) :
    o.growFull d true = .ok { o with
      nnum := upd o.nnum d (8 ^ d * o.batchSize)
      nnumNempty := upd o.nnumNempty d (8 ^ d * o.batchSize)
      keys := upd o.keys d (some (fullKeys o.batchSize d))
      children := upd o.children d (some (number 0 (fullMasks o.batchSize d)))
      neighs := upd o.neighs d (some (fullNeigh o.batchSize d)) } := by
  unfold Octree.growFull
  have hB' : ¬ (2 ^ 15 < o.batchSize) := by omega
  simp only [pyAssert, hd, if_true, bind, Except.bind, Octree.chk, hd', hB', if_false, pure, Except.pure,
    growFull_keys _ _ h16, arange_eq_number, fullMasks]
  simp only [pow8]
  exact constructNeigh_full _ _ hd hd' h16

/-- the state after growing the layers `0 .. n-1` densely -/
def fullState (o : Octree F) (n : Nat) : Octree F := { o with
  nnum := fun d => if d < n then 8 ^ d * o.batchSize else o.nnum d
  nnumNempty := fun d => if d < n then 8 ^ d * o.batchSize else o.nnumNempty d
  keys := fun d => if d < n then some (fullKeys o.batchSize d) else o.keys d
  children := fun d => if d < n then some (number 0 (fullMasks o.batchSize d)) else o.children d }

/-- the same with neighbour tables -/
def fullStateN (o : Octree F) (n : Nat) : Octree F := { fullState o n with
  neighs := fun d => if d < n then some (fullNeigh o.batchSize d) else o.neighs d }

theorem upd_lt {α : Type _} (f : Nat → α) (g : Nat → α) (n : Nat) :
    upd (fun d => if d < n then g d else f d) n (g n) = fun d => if d < n + 1 then g d else f d := by
  funext d
  unfold upd
  by_cases h : d = n
  · subst h; simp
  · by_cases h2 : d < n
    · have : d < n + 1 := by omega
      simp [h, h2, this]
    · have : ¬ d < n + 1 := by omega
      simp [h, h2, this]

theorem growFull_fold (o : Octree F) (n : Nat) (hn : n ≤ o.fullDepth + 1) (hd : o.fullDepth ≤ o.depth)
    (h16 : o.depth ≤ 16) (hB : o.batchSize ≤ 2 ^ 15) :
    (List.range n).foldlM (fun o d => Octree.growFull o d false) o = .ok (fullState o n) := by
  induction n with
  | zero => simp [fullState, pure, Except.pure]
  | succ n ih =>
    rw [List.range_succ, List.foldlM_append, ih (by omega)]
    simp only [bind, Except.bind, List.foldlM_cons, List.foldlM_nil, pure, Except.pure]
    rw [growFull_false _ n (by simp [fullState]; omega) (by simp [fullState]; omega) (by omega)
      (by simpa [fullState] using hB)]
    simp only [fullState]
    rw [upd_lt o.nnum (fun d => 8 ^ d * o.batchSize), upd_lt o.nnumNempty (fun d => 8 ^ d * o.batchSize),
      upd_lt o.keys (fun d => some (fullKeys o.batchSize d)),
      upd_lt o.children (fun d => some (number 0 (fullMasks o.batchSize d)))]

theorem growFullN_fold (o : Octree F) (n : Nat) (hn : n ≤ o.fullDepth + 1) (hd : o.fullDepth ≤ o.depth)
    (h16 : o.depth ≤ 16) (hB : o.batchSize ≤ 2 ^ 15) :
    (List.range n).foldlM (fun o d => Octree.growFull o d true) o = .ok (fullStateN o n) := by
  induction n with
  | zero => simp [fullState, fullStateN, pure, Except.pure]
  | succ n ih =>
    rw [List.range_succ, List.foldlM_append, ih (by omega)]
    simp only [bind, Except.bind, List.foldlM_cons, List.foldlM_nil, pure, Except.pure]
    rw [growFull_true _ n (by simp [fullState, fullStateN]; omega) (by simp [fullState, fullStateN]; omega)
      (by omega) (by simpa [fullState, fullStateN] using hB)]
    simp only [fullState, fullStateN]
    rw [upd_lt o.nnum (fun d => 8 ^ d * o.batchSize), upd_lt o.nnumNempty (fun d => 8 ^ d * o.batchSize),
      upd_lt o.keys (fun d => some (fullKeys o.batchSize d)),
      upd_lt o.children (fun d => some (number 0 (fullMasks o.batchSize d))),
      upd_lt o.neighs (fun d => some (fullNeigh o.batchSize d))]

theorem fullState_wf (o : Octree F) (hd : o.fullDepth ≤ o.depth)
    (h16 : o.depth ≤ 16) (hB : o.batchSize ≤ 2 ^ 15) :
    WF (fullState o (o.fullDepth + 1)) o.fullDepth (fullMasks o.batchSize) where
  depth_le := h16
  h_le := hd
  full_le := le_refl _
  batch_le := hB
  len := fun d _ => fullMasks_len _ d
  full := fun d _ => fullMasks_true _ d
  keys := fun d h => by
    have : d < o.fullDepth + 1 := by omega
    simp only [fullState, this, if_true]
    rw [layer_fullMasks_keys _ _ (by omega)]
  children := fun d h => by
    have : d < o.fullDepth + 1 := by omega
    simp only [fullState, this, if_true]
  nnum := fun d h => by
    have : d < o.fullDepth + 1 := by omega
    simp only [fullState, this, if_true]
    rw [← fullMasks_len]; simp [fullMasks]
  nnumNempty := fun d h => by
    have : d < o.fullDepth + 1 := by omega
    simp only [fullState, this, if_true]
    simp [fullMasks]

/-- `init_octree` -/
theorem initOctree_ok (depth full B dev : Nat) (hd : full ≤ depth) (h16 : depth ≤ 16) (hB : B ≤ 2 ^ 15) :
    ∃ o : Octree F, Octree.initOctree depth full B dev = .ok o ∧ o.depth = depth ∧ o.fullDepth = full ∧
      o.batchSize = B ∧ WF o full (fullMasks B) ∧ NeighOK o (fullMasks B) 0 full := by
  refine ⟨fullStateN (Octree.new depth full B dev) (full + 1), ?_, rfl, rfl, rfl, ?_, ?_⟩
  · exact growFullN_fold (Octree.new depth full B dev) (full + 1) (le_refl _) hd h16 hB
  · have := fullState_wf (Octree.new (F := F) depth full B dev) hd h16 hB
    exact this.with_neighs _
  · intro d _ h2
    have hlt : d < full + 1 := by omega
    refine ⟨fullNeigh B d, by simp [fullStateN, hlt, Octree.new], ?_⟩
    exact neighTable_full B d _ (by omega) hB (fun i _ => fullMasks_true B i) (fun i _ => fullMasks_len B i)

/-! ### octree_split -/

/-- the mask set by a 0/1 vector -/
def splitMask (s : List Int) : List Bool := s.map fun v => decide (v ≠ 0)

theorem cumsum_number (s : List Int) (h01 : ∀ v ∈ s, v = 0 ∨ v = 1) (n : Nat) :
    List.zipWith (fun (m : Bool) v => if m then (-1 : Int) else v) (s.map fun v => decide (v = 0))
      (((n : Int) :: cumsumFrom (n : Int) s).take s.length) = number n (splitMask s) := by
  induction s generalizing n with
  | nil => rfl
  | cons v s ih =>
    have ih' := ih (fun v hv => h01 v (List.mem_cons_of_mem _ hv))
    simp only [cumsumFrom, List.length_cons, List.take_succ_cons, List.map_cons, List.zipWith_cons_cons,
      splitMask]
    rcases h01 v (by simp) with rfl | rfl
    · have := ih' n
      simp only [splitMask] at this
      simp only [add_zero, decide_true, if_true, ne_eq, not_true, decide_false, number, this]
    · have := ih' (n + 1)
      simp only [splitMask] at this
      push_cast at this
      simp only [one_ne_zero, decide_false, ne_eq, not_false_iff, decide_true, number, this]
      simp

theorem cumsumFrom_length {V : Type _} [Add V] (acc : V) (s : List V) : (cumsumFrom acc s).length = s.length := by
  induction s generalizing acc with
  | nil => rfl
  | cons v s ih => simp [cumsumFrom, ih]

theorem cumsum_last (s : List Int) (h01 : ∀ v ∈ s, v = 0 ∨ v = 1) (n : Nat) :
    ((n : Int) :: cumsumFrom (n : Int) s).drop s.length = [((n + (splitMask s).count true : Nat) : Int)] := by
  induction s generalizing n with
  | nil => simp [cumsumFrom, splitMask]
  | cons v s ih =>
    have ih' := ih (fun v hv => h01 v (List.mem_cons_of_mem _ hv))
    simp only [cumsumFrom, List.length_cons, List.drop_succ_cons]
    rcases h01 v (by simp) with rfl | rfl
    · have := ih' n
      simp only [add_zero, this, splitMask, List.map_cons]
      simp
    · have := ih' (n + 1)
      push_cast at this
      simp only [this, splitMask, List.map_cons]
      simp
      omega

/-- the mask produced by `octree_split`: if nothing is split the first node is -/
def forceFirst (m : List Bool) : List Bool := if m.count true = 0 then m.set 0 true else m

theorem number_set_zero (m : List Bool) (h : m.count true = 0) :
    (number 0 m).set 0 0 = number 0 (m.set 0 true) := by
  cases m with
  | nil => rfl
  | cons b m =>
    have hall : ∀ b' ∈ b :: m, b' = false := by
      intro b' hb'
      by_contra hne
      have : b' = true := by simpa using hne
      subst this
      exact absurd h (Nat.ne_of_gt (List.count_pos_iff.mpr hb'))
    have hb : b = false := hall b (by simp)
    subst hb
    have : ∀ n k : Nat, ∀ l : List Bool, (∀ b' ∈ l, b' = false) → number n l = number k l := by
      intro n k l
      induction l with
      | nil => intro _; rfl
      | cons c l ih =>
        intro hl
        have hc : c = false := hl c (by simp)
        subst hc
        simp [number, ih (fun b' hb' => hl b' (List.mem_cons_of_mem _ hb'))]
    simp only [number, List.set_cons_zero]
    rw [this 0 (0 + 1) m (fun b' hb' => hall b' (List.mem_cons_of_mem _ hb'))]
    rfl

theorem split_ok (o : Octree F) (s : List Int) (d : Nat) (h01 : ∀ v ∈ s, v = 0 ∨ v = 1) (hs : s ≠ [])
    (hd : d ≤ o.depth) :
    o.split s d = .ok { o with
      children := upd o.children d (some (number 0 (forceFirst (splitMask s))))
      nnumNempty := upd o.nnumNempty d ((forceFirst (splitMask s)).count true) } := by
  unfold Octree.split
  have e1 := cumsum_number s h01 0
  have e2 := cumsum_last s h01 0
  simp only [Nat.cast_zero, Nat.zero_add] at e1 e2
  have hlen : (s.map fun v => decide (v = 0)).length = ((0 :: cumsumFrom 0 s).take s.length).length := by
    simp [cumsumFrom_length]
  simp only [cumsum, if_true, e2, boolSetScalar, hlen, e1, bind, Except.bind]
  have e3 : getIdx [(((splitMask s).count true : Nat) : Int)] 0 = .ok (((splitMask s).count true : Nat) : Int) :=
    getIdx_ok _ 0 (by simp)
  rw [e3]
  simp only
  have hpos : 0 < s.length := List.length_pos_iff.mpr hs
  by_cases hc : (splitMask s).count true = 0
  · have hc' : ((List.count true (splitMask s) : Nat) : Int) = 0 := by rw [hc]; rfl
    have hn : normIdx (number 0 (splitMask s)).length 0 = .ok 0 := by
      unfold normIdx
      rw [if_pos (by simp [splitMask]; omega)]
      rfl
    simp only [hc', if_true, hn, pure, Except.pure, Octree.chk, hd]
    simp only [forceFirst, hc, if_true]
    rw [number_set_zero _ hc]
    have hcount : ((splitMask s).set 0 true).count true = 1 := by
      cases s with
      | nil => exact absurd rfl hs
      | cons v s =>
        simp only [splitMask, List.map_cons, List.set_cons_zero, List.count_cons_self]
        simp only [splitMask, List.map_cons, List.count_cons] at hc
        omega
    rw [hcount]
    rfl
  · have hc' : ¬ ((List.count true (splitMask s) : Nat) : Int) = 0 := by exact_mod_cast hc
    simp only [hc', if_false, pure, Except.pure, Octree.chk, hd, if_true, forceFirst, hc, Int.toNat_natCast]

/-- replacing the mask of the finest layer -/
theorem WF.set_mask {o : Octree F} {h : Nat} {masks : Nat → List Bool} (w : WF o h masks)
    (hf : o.fullDepth ≤ h) (m : List Bool) (hm : m.length = (masks h).length) :
    WF { o with
      children := upd o.children h (some (number 0 m))
      nnumNempty := upd o.nnumNempty h (m.count true) } h (upd masks h m) := by
  have hc : ∀ d ≤ h, layerCells o.batchSize (upd masks h m) d = layerCells o.batchSize masks d := by
    intro d hd
    apply layerCells_congr
    intro i hi
    simp [upd, show i ≠ h by omega]
  refine ⟨w.depth_le, w.h_le, w.full_le, w.batch_le, ?_, ?_, ?_, ?_, ?_, ?_⟩
  · intro d hd
    simp only [hc d hd]
    by_cases e : d = h
    · subst e; simp [upd, hm, w.len d hd]
    · simp [upd, e, w.len d hd]
  · intro d hd
    simp only at hd
    have e : d ≠ h := by omega
    simp only [upd, e, if_false]
    exact w.full d hd
  · intro d hd; simp only [hc d hd]; exact w.keys d hd
  · intro d hd
    by_cases e : d = h
    · subst e; simp [upd]
    · simp [upd, e, w.children d hd]
  · intro d hd; simp only [hc d hd]; exact w.nnum d hd
  · intro d hd
    by_cases e : d = h
    · subst e; simp [upd]
    · simp [upd, e, w.nnumNempty d hd]

/-! ### octree_grow -/

theorem grow_key (d : Nat) (c : Cell) (i : Nat) (hd : d + 1 ≤ 16) (hi : i < 8) :
    (((c.key d &&& ((1 <<< 48) - 1)) <<< 3) ||| ((c.key d >>> 48) <<< 48)) + i
      = (c.child i).key (d + 1) := by
  rw [Cell.child_key _ _ _ hi, Nat.one_shiftLeft, Nat.and_two_pow_sub_one_eq_mod, Cell.key_mod _ _ (by omega),
    Nat.shiftRight_eq_div_pow, Cell.key_div _ _ (by omega), Nat.shiftLeft_eq, Nat.shiftLeft_eq]
  have hm := morton_lt d c.x c.y c.z
  have h8 : (8 : Nat) ^ d ≤ 8 ^ 15 := Nat.pow_le_pow_right (by omega) (by omega)
  norm_num at h8
  rw [Nat.or_comm, Nat.mul_comm c.b, ← Nat.two_pow_add_eq_or_of_lt (by omega)]
  omega

theorem boolIndex_ok {α : Type _} (m : List Bool) (xs : List α) (h : m.length = xs.length) :
    boolIndex m xs = .ok (maskSel m xs) := by
  simp [boolIndex, h]

theorem WF.key_nempty {o : Octree F} {h : Nat} {masks : Nat → List Bool} (w : WF o h masks) (d : Nat)
    (hd : d ≤ h) : o.key d true =
      .ok ((maskSel (masks d) (layerCells o.batchSize masks d)).map (Cell.key d)) := by
  have h2 := w.h_le
  have hd' : d ≤ o.depth := by omega
  unfold Octree.key Octree.nemptyMask
  simp only [Octree.chk, hd', if_true, bind, Except.bind, w.keys d hd, w.children d hd, need, pure, Except.pure,
    number_mask]
  rw [boolIndex_ok _ _ (by rw [List.length_map, w.len d hd]), maskSel_map]

theorem WF.key_all {o : Octree F} {h : Nat} {masks : Nat → List Bool} (w : WF o h masks) (d : Nat)
    (hd : d ≤ h) : o.key d false = .ok ((layerCells o.batchSize masks d).map (Cell.key d)) := by
  have h2 := w.h_le
  have hd' : d ≤ o.depth := by omega
  unfold Octree.key
  simp [Octree.chk, hd', bind, Except.bind, w.keys d hd, need, pure, Except.pure]

theorem layer_length_succ (B : Nat) (masks : Nat → List Bool) (d : Nat)
    (hl : (masks d).length = (layerCells B masks d).length) :
    (layerCells B masks (d + 1)).length = (masks d).count true * 8 := by
  rw [layerCells, expand_length, maskSel_length _ _ hl, Nat.mul_comm]

/-- `octree_grow(h+1)` without neighbours -/
theorem grow_false {o : Octree F} {h : Nat} {masks : Nat → List Bool} (w : WF o h masks)
    (hh : h + 1 ≤ o.depth) :
    ∃ o', o.grow h false = .ok o' ∧ WF o' (h + 1)
        (upd masks (h + 1) (List.replicate (8 * (masks h).count true) true)) ∧
      o'.depth = o.depth ∧ o'.fullDepth = o.fullDepth ∧ o'.batchSize = o.batchSize ∧
      o'.neighs = o.neighs := by
  have h16 := w.depth_le
  have hfull := w.full_le
  have hkey : (Octree.key { o with
      nnum := upd o.nnum (h + 1) (o.nnumNempty h * 8)
      nnumNempty := upd o.nnumNempty (h + 1) (o.nnumNempty h * 8) } h true : M (List Nat)) = o.key h true := rfl
  unfold Octree.grow
  simp only [Octree.chk, hh, if_true, bind, Except.bind, hkey, w.key_nempty h (le_refl _), pure, Except.pure]
  refine ⟨_, rfl, ?_, rfl, rfl, rfl, rfl⟩
  have hc : ∀ d ≤ h + 1, layerCells o.batchSize (upd masks (h + 1)
      (List.replicate (8 * (masks h).count true) true)) d = layerCells o.batchSize masks d := by
    intro d hd
    apply layerCells_congr
    intro i hi
    simp [upd, show i ≠ h + 1 by omega]
  have hlen := layer_length_succ o.batchSize masks h (w.len h (le_refl _))
  refine ⟨h16, hh, by simp only; omega, w.batch_le, ?_, ?_, ?_, ?_, ?_, ?_⟩
  · intro d hd
    simp only [hc d hd]
    by_cases e : d = h + 1
    · subst e; simp only [upd, if_true, List.length_replicate]; omega
    · simp only [upd, e, if_false]; exact w.len d (by omega)
  · intro d hd
    simp only at hd
    have e : d ≠ h + 1 := by omega
    simp only [upd, e, if_false]
    exact w.full d hd
  · intro d hd
    simp only [hc d hd]
    by_cases e : d = h + 1
    · subst e
      simp only [upd, if_true, layerCells]
      congr 1
      have := map_expand 8 Cell.child (Cell.key (h + 1)) (maskSel (masks h) (layerCells o.batchSize masks h))
      rw [this]
      rw [List.flatMap_map]
      unfold expand
      congr 1
      funext c
      apply List.map_congr_left
      intro i hi
      exact grow_key h c i (by omega) (by simpa using hi)
    · simp only [upd, e, if_false]; exact w.keys d (by omega)
  · intro d hd
    by_cases e : d = h + 1
    · subst e
      simp only [upd, if_true, arange_eq_number, w.nnumNempty h (le_refl _), Nat.mul_comm]
    · simp only [upd, e, if_false]; exact w.children d (by omega)
  · intro d hd
    simp only [hc d hd]
    by_cases e : d = h + 1
    · subst e; simp only [upd, if_true, w.nnumNempty h (le_refl _), hlen]
    · simp only [upd, e, if_false]; exact w.nnum d (by omega)
  · intro d hd
    by_cases e : d = h + 1
    · subst e; simp [upd, w.nnumNempty h (le_refl _), Nat.mul_comm]
    · simp only [upd, e, if_false]; exact w.nnumNempty d (by omega)

/-- `octree_grow(h+1)` with neighbours -/
theorem grow_true {o : Octree F} {h lo : Nat} {masks : Nat → List Bool} (w : WF o h masks)
    (hh : h + 1 ≤ o.depth) (hn : NeighOK o masks lo h) (hlo : lo ≤ h) :
    ∃ o', o.grow h true = .ok o' ∧ WF o' (h + 1)
        (upd masks (h + 1) (List.replicate (8 * (masks h).count true) true)) ∧
      NeighOK o' (upd masks (h + 1) (List.replicate (8 * (masks h).count true) true)) lo (h + 1) ∧
      o'.depth = o.depth ∧ o'.fullDepth = o.fullDepth ∧ o'.batchSize = o.batchSize := by
  obtain ⟨o1, h1, w1, e1, e2, e3, e4⟩ := grow_false w hh
  have hg : o.grow h true = (o.grow h false).bind fun o' => o'.constructNeigh (h + 1) := by
    unfold Octree.grow
    simp only [Octree.chk, hh, if_true, bind, Except.bind]
    cases (Octree.key { o with
      nnum := upd o.nnum (h + 1) (o.nnumNempty h * 8)
      nnumNempty := upd o.nnumNempty (h + 1) (o.nnumNempty h * 8) } h true : M (List Nat)) with
    | error e => rfl
    | ok v => simp [pure, Except.pure]
  rw [hg, h1]
  simp only [Except.bind]
  have hc : ∀ d ≤ h + 1, layerCells o.batchSize (upd masks (h + 1)
      (List.replicate (8 * (masks h).count true) true)) d = layerCells o.batchSize masks d := by
    intro d hd
    apply layerCells_congr
    intro i hi
    simp [upd, show i ≠ h + 1 by omega]
  obtain ⟨rows, h2, h3⟩ := w1.constructNeigh (h + 1) (le_refl _) (by
    intro _
    rw [e4, e3, Nat.add_sub_cancel, hc h (by omega)]
    exact hn h hlo (le_refl _))
  refine ⟨_, h2, w1.with_neighs _, ?_, e1, e2, e3⟩
  intro d hd1 hd2
  by_cases e : d = h + 1
  · subst e
    exact ⟨rows, by simp [upd], h3⟩
  · obtain ⟨r, hr, ht⟩ := hn d hd1 (by omega)
    refine ⟨r, by simp only [upd, e, if_false, e4]; exact hr, ?_⟩
    rw [e3, hc d hd2]
    exact ht

end Ocnn
