import Verif.Valid

/-! Lemmas about `get_neigh`, `search_key`, `xyzb`. -/

set_option linter.unusedSimpArgs false

namespace Ocnn
open Spec
variable {F : Type}

theorem nonEmpty_eq (cells : List Cell) (m : List Bool) (n : Nat) (h : m.length = cells.length) :
    nonEmpty cells (number n m) = maskSel m cells := by
  induction m generalizing cells n with
  | nil =>
    cases cells with
    | nil => rfl
    | cons c cs => simp at h
  | cons b m ih =>
    cases cells with
    | nil => simp at h
    | cons c cs =>
      have ih' := ih cs
      have hl : m.length = cs.length := by simpa using h
      cases b
      · have := ih' n hl
        simp only [nonEmpty] at this
        simp [nonEmpty, number, this]
      · have := ih' (n + 1) hl
        simp only [nonEmpty] at this
        simp [nonEmpty, number, this]


theorem filterMap_range_some {α : Type _} (f : Nat → Option α) (n : Nat) (h : ∀ i < n, (f i).isSome) :
    ((List.range n).filterMap f).length = n ∧ ∀ i < n, ((List.range n).filterMap f)[i]? = f i := by
  induction n with
  | zero => exact ⟨rfl, fun i hi => absurd hi (by omega)⟩
  | succ n ih =>
    obtain ⟨h1, h2⟩ := ih (fun i hi => h i (by omega))
    obtain ⟨v, hv⟩ := Option.isSome_iff_exists.mp (h n (by omega))
    rw [List.range_succ, List.filterMap_append]
    have e : [n].filterMap f = [v] := by simp [hv]
    rw [e]
    refine ⟨by simp [h1], ?_⟩
    intro i hi
    rcases Nat.lt_or_ge i n with hlt | hge
    · rw [List.getElem?_append_left (by omega), h2 i hlt]
    · have : i = n := by omega
      subst this
      rw [List.getElem?_append_right (by omega), h1, hv]
      simp

theorem every8_spec {α : Type _} (l : List α) (n : Nat) (h : l.length = 8 * n) :
    (Octree.every8 l).length = n ∧ ∀ i < n, (Octree.every8 l)[i]? = l[8 * i]? := by
  have e : (l.length + 7) / 8 = n := by omega
  have := filterMap_range_some (fun i => l[8 * i]?) n (by
    intro i hi
    rw [List.getElem?_eq_getElem (by omega)]
    rfl)
  unfold Octree.every8
  rw [e]
  exact this

/-- one entry of the remapping to non-empty nodes -/
def remap (child : List Int) (v : Int) : M Int := if v ≥ 0 then getIdx child v else pure v

theorem remap_spec (cells : List Cell) (m : List Bool) (hlen : m.length = cells.length) (hnd : cells.Nodup)
    (c : Cell) (g : Int × Int × Int) (v : Int) (h : RefersTo cells c g v) :
    ∃ w, remap (number 0 m) v = .ok w ∧ RefersTo (maskSel m cells) c g w := by
  unfold remap
  rcases h with ⟨j, c', rfl, hj, hs⟩ | ⟨rfl, hno⟩
  · rw [if_pos (by omega)]
    have hjl : j < m.length := by
      rw [hlen]
      exact (List.getElem?_eq_some_iff.mp hj).1
    have hg : (number 0 m)[j]? = some (if m[j] then ((rank m j : Nat) : Int) else -1) := by
      rw [number_getElem?, List.getElem?_eq_getElem hjl]
      simp
    refine ⟨_, getIdx_of_getElem? hg, ?_⟩
    cases hb : m[j] with
    | true =>
      left
      refine ⟨rank m j, c', by simp, ?_, hs⟩
      rw [maskSel_getElem?_rank _ _ _ (by rw [List.getElem?_eq_getElem hjl, hb]), hj]
    | false =>
      right
      refine ⟨by simp, ?_⟩
      intro c'' hc'' hs''
      obtain ⟨i, hi1, hi2⟩ := (mem_maskSel _ _ _).mp hc''
      have : c'' = c' := isShift_unique hs'' hs
      subst this
      have := nodup_getElem?_inj hnd hi2 hj
      subst this
      rw [List.getElem?_eq_getElem hjl, hb] at hi1
      simp at hi1
  · rw [if_neg (by omega)]
    refine ⟨-1, rfl, Or.inr ⟨rfl, ?_⟩⟩
    intro c' hc'
    exact hno c' ((maskSel_sublist _ _).subset hc')

theorem mapM_exists {α β : Type} (f : α → M β) (P : α → β → Prop) (l : List α)
    (h : ∀ a ∈ l, ∃ b, f a = .ok b ∧ P a b) :
    ∃ r, l.mapM f = .ok r ∧ r.length = l.length ∧
      ∀ (i : Nat) (a : α) (b : β), l[i]? = some a → r[i]? = some b → P a b := by
  induction l with
  | nil => exact ⟨[], rfl, rfl, by simp⟩
  | cons a l ih =>
    obtain ⟨r, h1, h2, h3⟩ := ih (fun a' ha' => h a' (List.mem_cons_of_mem _ ha'))
    obtain ⟨b, hb, hP⟩ := h a (by simp)
    refine ⟨b :: r, ?_, by simp [h2], ?_⟩
    · rw [List.mapM_cons, hb, h1]; rfl
    · intro i a' b' ha' hb'
      cases i with
      | zero =>
        simp only [List.getElem?_cons_zero, Option.some.injEq] at ha' hb'
        subst ha'; subst hb'
        exact hP
      | succ i => exact h3 i a' b' (by simpa using ha') (by simpa using hb')

/-- a table of the 27 neighbours of `targets` -/
def Table27 (cells targets : List Cell) (rows : List (List Int)) : Prop :=
  KernelTable cells targets ((List.range 27).map disp) rows

theorem table27_of_neigh {cells : List Cell} {rows : List (List Int)} (h : NeighTable cells rows) :
    Table27 cells cells rows := by
  refine ⟨h.1, ?_⟩
  intro i c row h1 h2
  obtain ⟨h3, h4⟩ := h.2 i c row h1 h2
  refine ⟨by simpa using h3, ?_⟩
  intro k g v hg hv
  rw [List.getElem?_map] at hg
  rcases Nat.lt_or_ge k 27 with hk | hk
  · rw [List.getElem?_range hk] at hg
    simp only [Option.map_some, Option.some.injEq] at hg
    subst hg
    exact h4 k v hv
  · rw [List.getElem?_eq_none (by simpa using hk)] at hg
    simp at hg

theorem table_remap {cells targets : List Cell} {offs} {rows : List (List Int)} (h : KernelTable cells targets offs rows)
    (m : List Bool) (hlen : m.length = cells.length) (hnd : cells.Nodup) :
    ∃ rows', rows.mapM (fun row => row.mapM (remap (number 0 m))) = .ok rows' ∧
      KernelTable (maskSel m cells) targets offs rows' := by
  have key := mapM_exists (fun row => row.mapM (remap (number 0 m)))
    (fun row row' => row'.length = row.length ∧ ∀ (k : Nat) v w, row[k]? = some v → row'[k]? = some w →
      remap (number 0 m) v = .ok w) rows (by
    intro row hrow
    obtain ⟨i, hi⟩ := List.mem_iff_getElem?.mp hrow
    have hit : i < targets.length := by
      rw [← h.1]; exact (List.getElem?_eq_some_iff.mp hi).1
    obtain ⟨h3, h4⟩ := h.2 i targets[i] row (List.getElem?_eq_getElem hit) hi
    obtain ⟨r, hr1, hr2, hr3⟩ := mapM_exists (remap (number 0 m)) (fun v w => remap (number 0 m) v = .ok w) row (by
      intro v hv
      obtain ⟨k, hk⟩ := List.mem_iff_getElem?.mp hv
      have hko : k < offs.length := by
        rw [← h3]; exact (List.getElem?_eq_some_iff.mp hk).1
      obtain ⟨w, hw, _⟩ := remap_spec cells m hlen hnd targets[i] offs[k] v
        (h4 k offs[k] v (List.getElem?_eq_getElem hko) hk)
      exact ⟨w, hw, hw⟩)
    exact ⟨r, hr1, hr2, hr3⟩)
  obtain ⟨rows', h1, h2, h3⟩ := key
  refine ⟨rows', h1, by rw [h2, h.1], ?_⟩
  intro i c row' hc hrow'
  have hi : i < rows.length := by rw [← h2]; exact (List.getElem?_eq_some_iff.mp hrow').1
  obtain ⟨h5, h6⟩ := h3 i rows[i] row' (List.getElem?_eq_getElem hi) hrow'
  obtain ⟨h7, h8⟩ := h.2 i c rows[i] hc (List.getElem?_eq_getElem hi)
  refine ⟨by rw [h5, h7], ?_⟩
  intro k g w hg hw
  have hk : k < rows[i].length := by rw [← h5]; exact (List.getElem?_eq_some_iff.mp hw).1
  obtain ⟨w', hw', hR⟩ := remap_spec cells m hlen hnd c g _ (h8 k g _ hg (List.getElem?_eq_getElem hk))
  have := h6 k _ w (List.getElem?_eq_getElem hk) hw
  rw [this] at hw'
  cases hw'
  exact hR

theorem table_mask {cells targets : List Cell} {offs} {rows : List (List Int)} (h : KernelTable cells targets offs rows)
    (m : List Bool) (hlen : m.length = targets.length) :
    KernelTable cells (maskSel m targets) offs (maskSel m rows) := by
  refine ⟨by rw [maskSel_length _ _ (by rw [hlen, h.1]), maskSel_length _ _ hlen], ?_⟩
  intro r c row hc hrow
  obtain ⟨i, h1, h2, h3⟩ := exists_of_maskSel _ _ _ _ hc
  obtain ⟨j, h4, h5, h6⟩ := exists_of_maskSel _ _ _ _ hrow
  have hij : i = j := by
    by_contra hne
    have : rank m i ≠ rank m j := by
      intro e
      rcases Nat.lt_or_gt_of_ne hne with hlt | hlt
      · have h7 := maskSel_getElem?_rank m (List.range m.length) i h1
        have h8 := maskSel_getElem?_rank m (List.range m.length) j h4
        rw [e, h8] at h7
        have hi := (List.getElem?_eq_some_iff.mp h1).1
        have hj := (List.getElem?_eq_some_iff.mp h4).1
        rw [List.getElem?_range hi, List.getElem?_range hj] at h7
        simp at h7
        omega
      · have h7 := maskSel_getElem?_rank m (List.range m.length) i h1
        have h8 := maskSel_getElem?_rank m (List.range m.length) j h4
        rw [e, h8] at h7
        have hi := (List.getElem?_eq_some_iff.mp h1).1
        have hj := (List.getElem?_eq_some_iff.mp h4).1
        rw [List.getElem?_range hi, List.getElem?_range hj] at h7
        simp at h7
        omega
    exact this (h3.trans h6.symm)
  subst hij
  exact h.2 i c row h2 h5

theorem table_every8 {cells targets : List Cell} {offs} {rows : List (List Int)} (h : KernelTable cells targets offs rows)
    (n : Nat) (hn : targets.length = 8 * n) :
    KernelTable cells (Octree.every8 targets) offs (Octree.every8 rows) := by
  obtain ⟨h1, h2⟩ := every8_spec targets n hn
  obtain ⟨h3, h4⟩ := every8_spec rows n (by rw [h.1, hn])
  refine ⟨by rw [h1, h3], ?_⟩
  intro i c row hc hrow
  have hi : i < n := by rw [← h1]; exact (List.getElem?_eq_some_iff.mp hc).1
  rw [h2 i hi] at hc
  rw [h4 i hi] at hrow
  exact h.2 _ c row hc hrow

/-- the columns of a supported kernel -/
theorem lutKernel_spec : ∀ k ∈ supportedKernels, kernelName k ≠ "333" →
    ∃ lut, lutKernel.lookup (kernelName k) = some lut ∧
      lut.length = (kernelOffsets k).length ∧
      ∀ i < lut.length, ∃ j : Nat, j < 27 ∧ lut[i]? = some (j : Int) ∧ (kernelOffsets k)[i]? = some (disp j) := by
  intro k hk hne
  simp only [supportedKernels, List.mem_cons, List.not_mem_nil, or_false] at hk
  rcases hk with rfl | rfl | rfl | rfl | rfl | rfl | rfl | rfl
  · exact absurd (by decide) hne
  all_goals
    refine ⟨_, rfl, by decide, ?_⟩
    decide

theorem table_gather {cells targets : List Cell} {rows : List (List Int)} (h : Table27 cells targets rows)
    (lut : List Int) (offs : List (Int × Int × Int)) (hl : lut.length = offs.length)
    (hs : ∀ i < lut.length, ∃ j : Nat, j < 27 ∧ lut[i]? = some (j : Int) ∧ offs[i]? = some (disp j)) :
    ∃ rows', rows.mapM (fun row => gatherIdx row lut) = .ok rows' ∧ KernelTable cells targets offs rows' := by
  have key := mapM_exists (fun row => gatherIdx row lut)
    (fun row row' => row'.length = lut.length ∧ ∀ (k : Nat) i w, lut[k]? = some i → row'[k]? = some w →
      getIdx row i = .ok w) rows (by
    intro row hrow
    obtain ⟨i, hi⟩ := List.mem_iff_getElem?.mp hrow
    have hit : i < targets.length := by
      rw [← h.1]; exact (List.getElem?_eq_some_iff.mp hi).1
    obtain ⟨h3, h4⟩ := h.2 i targets[i] row (List.getElem?_eq_getElem hit) hi
    have h3' : row.length = 27 := by simpa using h3
    obtain ⟨r, hr1, hr2, hr3⟩ := mapM_exists (getIdx row) (fun v w => getIdx row v = .ok w) lut (by
      intro v hv
      obtain ⟨k, hk⟩ := List.mem_iff_getElem?.mp hv
      obtain ⟨j, hj, hj1, _⟩ := hs k (List.getElem?_eq_some_iff.mp hk).1
      rw [hk] at hj1
      cases hj1
      refine ⟨row[j], getIdx_of_getElem? (List.getElem?_eq_getElem (by omega)),
        getIdx_of_getElem? (List.getElem?_eq_getElem (by omega))⟩)
    exact ⟨r, hr1, hr2, hr3⟩)
  obtain ⟨rows', h1, h2, h3⟩ := key
  refine ⟨rows', h1, by rw [h2, h.1], ?_⟩
  intro i c row' hc hrow'
  have hi : i < rows.length := by rw [← h2]; exact (List.getElem?_eq_some_iff.mp hrow').1
  obtain ⟨h5, h6⟩ := h3 i rows[i] row' (List.getElem?_eq_getElem hi) hrow'
  obtain ⟨h7, h8⟩ := h.2 i c rows[i] hc (List.getElem?_eq_getElem hi)
  have h7' : rows[i].length = 27 := by simpa using h7
  refine ⟨by rw [h5, hl], ?_⟩
  intro k g w hg hw
  have hk : k < lut.length := by rw [← h5]; exact (List.getElem?_eq_some_iff.mp hw).1
  obtain ⟨j, hj, hj1, hj2⟩ := hs k hk
  rw [hg] at hj2
  cases hj2
  have := h6 k _ w hj1 hw
  have hgj : rows[i][j]? = some rows[i][j] := List.getElem?_eq_getElem (by omega)
  rw [getIdx_of_getElem? hgj] at this
  cases this
  exact h8 j (disp j) _ (by rw [List.getElem?_map, List.getElem?_range hj]; rfl) hgj

theorem kernelOffsets_333 : kernelOffsets (3, 3, 3) = (List.range 27).map disp := by decide

/-- `get_neigh` in all documented modes on a layered octree -/
theorem getNeigh_spec {o : Octree F} {h : Nat} {masks : Nat → List Bool} (w : WF o h masks) (d : Nat) (hd : d ≤ h)
    (rows : List (List Int)) (hr : o.neighs d = some rows)
    (ht : NeighTable (layerCells o.batchSize masks d) rows) (k : Nat × Nat × Nat) (hk : k ∈ supportedKernels)
    (nempty : Bool) :
    (∃ R, o.getNeigh d (kernelName k) 1 nempty = .ok R ∧
      KernelTable (if nempty then maskSel (masks d) (layerCells o.batchSize masks d) else layerCells o.batchSize masks d)
        (if nempty then maskSel (masks d) (layerCells o.batchSize masks d) else layerCells o.batchSize masks d)
        (kernelOffsets k) R) ∧
    ((layerCells o.batchSize masks d).length % 8 = 0 →
      ∃ R, o.getNeigh d (kernelName k) 2 nempty = .ok R ∧
      KernelTable (if nempty then maskSel (masks d) (layerCells o.batchSize masks d) else layerCells o.batchSize masks d)
        (Octree.every8 (layerCells o.batchSize masks d)) (kernelOffsets k) R) := by
  have h16 := w.depth_le
  have hh := w.h_le
  have hd' : d ≤ o.depth := by omega
  have hnd := layer_nodup o.batchSize masks d (by omega)
  have hlen := w.len d hd
  generalize hcells : layerCells o.batchSize masks d = cells at *
  have T := table27_of_neigh ht
  have fin : ∀ (cells' targets : List Cell) (R : List (List Int)), Table27 cells' targets R →
      ∃ R', (if kernelName k = "333" then (pure R : M (List (List Int))) else
        match lutKernel.lookup (kernelName k) with
        | some lut => R.mapM fun row => gatherIdx row lut
        | none => .error .value) = .ok R' ∧ KernelTable cells' targets (kernelOffsets k) R' := by
    intro cells' targets R hT
    by_cases h3 : kernelName k = "333"
    · rw [if_pos h3]
      refine ⟨R, rfl, ?_⟩
      have : k = (3, 3, 3) := by
        simp only [supportedKernels, List.mem_cons, List.not_mem_nil, or_false] at hk
        rcases hk with rfl | rfl | rfl | rfl | rfl | rfl | rfl | rfl
        · rfl
        all_goals exact absurd h3 (by decide)
      subst this
      rw [kernelOffsets_333]
      exact hT
    · rw [if_neg h3]
      obtain ⟨lut, e1, e2, e3⟩ := lutKernel_spec k hk h3
      rw [e1]
      exact table_gather hT lut _ e2 e3
  have hch := w.children d hd
  constructor
  · unfold Octree.getNeigh
    simp only [if_true, Octree.chk, hd', hr, need, bind, Except.bind]
    cases nempty with
    | false =>
      simp only [Bool.false_eq_true, if_false, pure, Except.pure]
      exact fin _ _ _ T
    | true =>
      simp only [if_true, hch, pure, Except.pure, number_mask]
      rw [boolIndex_ok _ _ (by rw [hlen, ht.1])]
      simp only
      obtain ⟨R', h1, h2⟩ := table_remap (table_mask T (masks d) hlen) (masks d) hlen hnd
      have h1' : (maskSel (masks d) rows).mapM (fun row => row.mapM fun v =>
          if v ≥ 0 then getIdx (number 0 (masks d)) v else Except.ok v) = .ok R' := h1
      rw [h1']
      simp only
      exact fin _ _ _ h2
  · intro h8
    have hn : cells.length = 8 * (cells.length / 8) := by omega
    have T8 := table_every8 T _ hn
    unfold Octree.getNeigh
    simp only [show ¬ (2 : Nat) = 1 by omega, if_false, if_true, Octree.chk, hd', hr, need, bind, Except.bind]
    cases nempty with
    | false =>
      simp only [Bool.false_eq_true, if_false, pure, Except.pure]
      exact fin _ _ _ T8
    | true =>
      simp only [if_true, hch, pure, Except.pure]
      obtain ⟨R', h1, h2⟩ := table_remap T8 (masks d) hlen hnd
      have h1' : (Octree.every8 rows).mapM (fun row => row.mapM fun v =>
          if v ≥ 0 then getIdx (number 0 (masks d)) v else Except.ok v) = .ok R' := h1
      rw [h1']
      simp only
      exact fin _ _ _ h2

/-! search -/

theorem countP_lt_of_sorted {l : List Nat} (h : l.Pairwise (· < ·)) {j q : Nat} (hj : l[j]? = some q) :
    l.countP (fun k => decide (k < q)) = j := by
  induction l generalizing j with
  | nil => simp at hj
  | cons a l ih =>
    rw [List.pairwise_cons] at h
    cases j with
    | zero =>
      simp only [List.getElem?_cons_zero, Option.some.injEq] at hj
      subst hj
      rw [List.countP_eq_zero]
      intro b hb
      rcases List.mem_cons.mp hb with rfl | hb
      · simp
      · have := h.1 b hb
        simp; omega
    | succ j =>
      have hj' : l[j]? = some q := by simpa using hj
      have := h.1 q (List.mem_of_getElem? hj')
      rw [List.countP_cons, ih h.2 hj']
      simp [this]

/-- the search of one key in a strictly sorted list -/
theorem search_spec {l : List Nat} (h : l.Pairwise (· < ·)) (q : Nat) :
    let v : Int := match l[bucketize l q]? with
      | some k => if k = q then (bucketize l q : Int) else -1
      | none => -1
    (∃ j : Nat, v = j ∧ l[j]? = some q) ∨ (v = -1 ∧ q ∉ l) := by
  intro v
  by_cases hq : q ∈ l
  · obtain ⟨j, hj⟩ := List.mem_iff_getElem?.mp hq
    have hb : bucketize l q = j := countP_lt_of_sorted h hj
    left
    refine ⟨j, ?_, hj⟩
    simp only [v, hb, hj, if_true]
  · right
    refine ⟨?_, hq⟩
    simp only [v]
    split
    · rename_i k hk
      rw [if_neg]
      rintro rfl
      exact hq (List.mem_of_getElem? hk)
    · rfl

theorem maskSel_sorted {l : List Nat} (h : l.Pairwise (· < ·)) (m : List Bool) :
    (maskSel m l).Pairwise (· < ·) := h.sublist (maskSel_sublist _ _)

end Ocnn
