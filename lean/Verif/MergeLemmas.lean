import Verif.Valid
import Verif.PropsPoints

/-! Facts about `merge_octrees`. -/

set_option linter.unusedSimpArgs false

namespace Ocnn
open Spec
variable {F : Type}

namespace Spec

/-- The same cell in sample `i`. -/
def Cell.inSample (i : Nat) (c : Cell) : Cell := ⟨i, c.x, c.y, c.z⟩

end Spec

theorem inSample_child (i j : Nat) (c : Cell) : (Cell.inSample i c).child j = Cell.inSample i (c.child j) := rfl

theorem inSample_key (i d : Nat) (c : Cell) (hd : d ≤ 16) :
    Octree.relabel i (c.key d) = (Cell.inSample i c).key d := by
  unfold Octree.relabel
  have hm := morton_lt d c.x c.y c.z
  have h8 : (8 : Nat) ^ d ≤ 8 ^ 16 := Nat.pow_le_pow_right (by omega) hd
  have h48 : (8 : Nat) ^ 16 = 2 ^ 48 := by norm_num
  rw [Nat.shiftLeft_eq 1, Nat.one_mul, Nat.and_two_pow_sub_one_eq_mod, Nat.or_comm]
  have e : c.key d % 2 ^ 48 = morton d c.x c.y c.z := by
    unfold Cell.key
    rw [Nat.mul_comm, Nat.mul_add_mod, Nat.mod_eq_of_lt (by omega)]
  rw [e, ← Nat.shiftLeft_add_eq_or_of_lt (by omega), Nat.shiftLeft_eq]
  rfl

/-- the masks of the merged octree -/
def mergedMasks (ms : List (Nat → List Bool)) (d : Nat) : List Bool := (ms.map fun m => m d).flatten

/-- the cells of the merged octree -/
def mergedCells (ms : List (Nat → List Bool)) (k d : Nat) : List Cell :=
  ((ms.zipIdx k).map fun p => (layerCells 1 p.1 d).map (Cell.inSample p.2)).flatten

theorem maskSel_append {α : Type _} (m m' : List Bool) (xs xs' : List α) (h : m.length = xs.length) :
    maskSel (m ++ m') (xs ++ xs') = maskSel m xs ++ maskSel m' xs' := by
  induction m generalizing xs with
  | nil => cases xs with
    | nil => cases m' <;> cases xs' <;> simp [maskSel]
    | cons x xs => simp at h
  | cons b m ih => cases xs with
    | nil => simp at h
    | cons x xs =>
      have := ih xs (by simpa using h)
      cases b <;> simp [maskSel, this]

theorem maskSel_merged (ms : List (Nat → List Bool)) (k d : Nat)
    (hl : ∀ m ∈ ms, (m d).length = (layerCells 1 m d).length) :
    maskSel (mergedMasks ms d) (mergedCells ms k d)
      = ((ms.zipIdx k).map fun p => (maskSel (p.1 d) (layerCells 1 p.1 d)).map (Cell.inSample p.2)).flatten := by
  induction ms generalizing k with
  | nil => simp [mergedMasks, mergedCells, maskSel]
  | cons m ms ih =>
    have h1 := hl m (by simp)
    have h2 := ih (k + 1) (fun m' hm' => hl m' (by simp [hm']))
    unfold mergedMasks mergedCells at h2 ⊢
    rw [List.zipIdx_cons]
    simp only [List.map_cons, List.flatten_cons]
    rw [maskSel_append _ _ _ _ (by simpa using h1), h2, maskSel_map]

theorem expand_flatten {α β : Type _} (n : Nat) (f : α → Nat → β) (ls : List (List α)) :
    expand n f ls.flatten = (ls.map (expand n f)).flatten := by
  induction ls with
  | nil => rfl
  | cons l ls ih => simp [expand_append, ih]

theorem layerCells_merged (ms : List (Nat → List Bool)) (d : Nat)
    (hl : ∀ m ∈ ms, ∀ i < d, (m i).length = (layerCells 1 m i).length) :
    layerCells ms.length (mergedMasks ms) d = mergedCells ms 0 d := by
  induction d with
  | zero =>
    have : ∀ k, mergedCells ms k 0 = (List.range' k ms.length).map fun b => (⟨b, 0, 0, 0⟩ : Cell) := by
      induction ms with
      | nil => intro k; rfl
      | cons m ms ih =>
        intro k
        have := ih (by intro m' hm' i hi; omega) (k + 1)
        unfold mergedCells at this ⊢
        rw [List.zipIdx_cons]
        simp only [List.map_cons, List.flatten_cons, List.length_cons, List.range'_succ, this]
        rfl
    rw [this, layerCells, List.range_eq_range']
  | succ d ih =>
    rw [layerCells, ih (fun m hm i hi => hl m hm i (by omega)),
      maskSel_merged ms 0 d (fun m hm => hl m hm d (by omega)), expand_flatten, List.map_map]
    unfold mergedCells
    congr 1
    apply List.map_congr_left
    intro p _
    simp only [Function.comp_apply, expand_map, layerCells, map_expand, inSample_child]

theorem number_append (n : Nat) (m m' : List Bool) : number n (m ++ m') = number n m ++ number (n + m.count true) m' := by
  induction m generalizing n with
  | nil => simp [number]
  | cons b m ih =>
    cases b
    · simp [number, ih]
    · simp only [List.cons_append, number, ih, List.count_cons_self, List.cons.injEq, true_and]
      congr 2; omega

theorem number_shift (n k : Nat) (m : List Bool) :
    (number n m).map (fun v => if v ≥ 0 then v + (k : Int) else v) = number (n + k) m := by
  induction m generalizing n with
  | nil => rfl
  | cons b m ih =>
    cases b
    · simp [number, ih]
    · simp only [number, List.map_cons, ih]
      rw [if_pos (by omega)]
      congr 2
      omega

theorem number_flatten (n : Nat) (ls : List (List Bool)) :
    number n ls.flatten
      = (ls.zipIdx.map fun p => number (n + ((ls.take p.2).map fun l => l.count true).sum) p.1).flatten := by
  induction ls generalizing n with
  | nil => rfl
  | cons l ls ih =>
    rw [List.flatten_cons, number_append, ih, List.zipIdx_cons]
    simp only [List.map_cons, List.flatten_cons, List.take_zero, List.map_nil, List.sum_nil, Nat.add_zero]
    congr 2
    rw [List.zipIdx_succ, List.map_map]
    apply List.map_congr_left
    intro p _
    simp only [Function.comp_apply, List.take_succ_cons, List.map_cons, List.sum_cons]
    congr 1
    omega

theorem cumsumFrom_getElem? (acc : Nat) (l : List Nat) (i : Nat) (hi : i ≤ l.length) :
    (acc :: cumsumFrom acc l)[i]? = some (acc + (l.take i).sum) := by
  induction l generalizing acc i with
  | nil =>
    have : i = 0 := by simpa using hi
    subst this; simp
  | cons a l ih =>
    cases i with
    | zero => simp
    | succ i =>
      rw [List.getElem?_cons_succ, cumsumFrom, ih (acc + a) i (by simpa using hi)]
      simp [Nat.add_assoc]

theorem mapM_zipIdx_ok {α β : Type} (f : α × Nat → M β) (g : α × Nat → β) (l : List α)
    (h : ∀ i a, l[i]? = some a → f (a, i) = .ok (g (a, i))) : l.zipIdx.mapM f = .ok (l.zipIdx.map g) := by
  apply mapM_ok
  rintro ⟨a, i⟩ hp
  apply h
  rw [List.mem_zipIdx_iff_getElem?] at hp
  exact hp

/-- Octrees that can be merged: one sample each, complete, the same depth, full depth and device, and either all
or none of them carry each signal. -/
structure Mergeable (os : List (Octree F)) (D full dev : Nat) : Prop where
  nonempty : os ≠ []
  number : os.length ≤ 2 ^ 15
  single : ∀ o ∈ os, o.batchSize = 1
  depth : ∀ o ∈ os, o.depth = D
  fullDepth : ∀ o ∈ os, o.fullDepth = full
  device : ∀ o ∈ os, o.device = dev
  valid : ∀ o ∈ os, o.Valid D
  features : ∀ o ∈ os, ∀ o' ∈ os, (o.features D).isSome = (o'.features D).isSome
  normals : ∀ o ∈ os, ∀ o' ∈ os, (o.normals D).isSome = (o'.normals D).isSome
  points : ∀ o ∈ os, ∀ o' ∈ os, (o.points D).isSome = (o'.points D).isSome

theorem mapM_need {α β : Type} (sel : β → Option α) (l : List β) (h : ∀ o ∈ l, (sel o).isSome) :
    ∃ ts : List α, l.mapM (fun o => need (sel o)) = .ok ts ∧ l.map sel = ts.map some := by
  induction l with
  | nil => exact ⟨[], rfl, rfl⟩
  | cons p ps ih =>
    obtain ⟨t, ht⟩ := Option.isSome_iff_exists.mp (h p (by simp))
    obtain ⟨ts, h1, h2⟩ := ih (fun q hq => h q (by simp [hq]))
    refine ⟨t :: ts, ?_, by simp [ht, h2]⟩
    rw [List.mapM_cons, ht, h1]
    rfl

/-- result of merging one signal -/
def mergedSignal {α : Type} (sel : Octree F → Nat → Option (List α)) (os : List (Octree F)) (D d : Nat) :
    Option (List α) :=
  match os with
  | [] => none
  | o :: _ => if (sel o d).isSome ∧ d = D then some ((os.map fun o => (sel o d).getD []).flatten) else none

theorem mergeSignal_ok {α : Type} (sel : Octree F → Nat → Option (List α)) (os : List (Octree F)) (D d : Nat)
    (h : ∀ o ∈ os, ∀ o' ∈ os, (sel o D).isSome = (sel o' D).isSome) :
    Octree.mergeSignal sel os D d = .ok (mergedSignal sel os D d) := by
  unfold Octree.mergeSignal mergedSignal
  cases os with
  | nil => rfl
  | cons o os =>
    simp only
    split
    · next hc =>
      obtain ⟨h1, rfl⟩ := hc
      obtain ⟨ts, e1, e2⟩ := mapM_need (fun o => sel o d) (o :: os)
        (fun o' ho' => by rw [h o' ho' o (by simp)]; exact h1)
      rw [e1]
      simp only [bind, Except.bind, pure, Except.pure]
      congr 3
      have := congrArg (List.map fun t => Option.getD t []) e2
      rw [List.map_map, List.map_map] at this
      have e3 : ((fun t : Option (List α) => t.getD []) ∘ some) = id := rfl
      rw [e3, List.map_id] at this
      exact this.symm
    · rfl

/-- state after merging `n` layers -/
def mergedState (os : List (Octree F)) (D full dev n : Nat) : Octree F :=
  { (Octree.new D full os.length dev : Octree F) with
    nnum := fun d => (os.map fun o => o.nnum d).sum
    nnumNempty := fun d => (os.map fun o => o.nnumNempty d).sum
    batchNnum := fun d => os.map fun o => o.nnum d
    batchNnumNempty := fun d => os.map fun o => o.nnumNempty d
    keys := fun d => if d < n then some ((layerCells os.length (mergedMasks (os.map Octree.masks)) d).map (Cell.key d)) else none
    children := fun d => if d < n then some (number 0 (mergedMasks (os.map Octree.masks) d)) else none
    features := fun d => if d < n then mergedSignal Octree.features os D d else none
    normals := fun d => if d < n then mergedSignal Octree.normals os D d else none
    points := fun d => if d < n then mergedSignal Octree.points os D d else none }

theorem Mergeable.wf {os : List (Octree F)} {D full dev : Nat} (h : Mergeable os D full dev) :
    ∀ o ∈ os, WF o D o.masks := fun o ho => (h.valid o ho).wf'

theorem Mergeable.cells {os : List (Octree F)} {D full dev : Nat} (h : Mergeable os D full dev) (d : Nat) (hd : d ≤ D) :
    layerCells os.length (mergedMasks (os.map Octree.masks)) d = mergedCells (os.map Octree.masks) 0 d := by
  have := layerCells_merged (os.map Octree.masks) d (by
    intro m hm i hi
    obtain ⟨o, ho, rfl⟩ := List.mem_map.mp hm
    have w := h.wf o ho
    have := w.len i (by omega)
    rwa [h.single o ho] at this)
  rwa [List.length_map] at this

theorem Mergeable.depth_le {os : List (Octree F)} {D full dev : Nat} (h : Mergeable os D full dev) : D ≤ 16 := by
  obtain ⟨o, os', rfl⟩ := List.exists_cons_of_ne_nil h.nonempty
  have := (h.wf o (by simp)).depth_le
  rwa [h.depth o (by simp)] at this

theorem relabel_step (ks : Option (List Nat)) (cells : List Cell) (key : Cell → Nat) (rl : Nat → Nat) (g : Cell → Cell)
    (hk : ks = some (cells.map key)) (h : ∀ c, rl (key c) = key (g c)) :
    (need ks >>= fun ks => pure (ks.map rl) : M (List Nat)) = .ok ((cells.map g).map key) := by
  subst hk
  show Except.ok _ = Except.ok _
  rw [List.map_map, List.map_map]
  congr 2
  exact funext h

theorem mergeLayer_ok {os : List (Octree F)} {D full dev : Nat} (h : Mergeable os D full dev) (n : Nat) (hn : n ≤ D) :
    Octree.mergeLayer os (mergedState os D full dev n) n = .ok (mergedState os D full dev (n + 1)) := by
  unfold Octree.mergeLayer
  have hD := h.depth_le
  rw [mapM_zipIdx_ok _ (fun p => ((layerCells 1 p.1.masks n).map (Cell.inSample p.2)).map (Cell.key n)) os
    (by
      intro i o hi
      have ho := List.mem_of_getElem? hi
      have w := h.wf o ho
      have e := w.keys n hn
      rw [h.single o ho] at e
      exact relabel_step (o.keys n) _ (Cell.key n) (Octree.relabel i) (Cell.inSample i) e
        (fun c => inSample_key i n c (by omega)))]
  simp only [bind, Except.bind]
  have hc : (mergedState os D full dev n).batchNnumNempty n = os.map fun o => o.nnumNempty n := rfl
  rw [mapM_zipIdx_ok _ (fun p => number (0 + ((os.take p.2).map fun o => (o.masks n).count true).sum) (p.1.masks n)) os
    (by
      intro i o hi
      have ho := List.mem_of_getElem? hi
      have w := h.wf o ho
      have hlt : i < os.length := by
        by_contra hc
        rw [List.getElem?_eq_none (by omega)] at hi
        cases hi
      have hg : getIdx (cumsum ((mergedState os D full dev n).batchNnumNempty n) true) (i : Int)
          = .ok (((os.take i).map fun o => (o.masks n).count true).sum) := by
        unfold getIdx
        rw [normIdx_ok _ _ (by simp only [cumsum, if_true, hc]; simp [cumsumFrom_length]; omega)]
        simp only [bind, Except.bind, cumsum, if_true, hc]
        rw [cumsumFrom_getElem? 0 _ i (by simp; omega)]
        simp only [Nat.zero_add, ← List.map_take]
        congr 2
        apply List.map_congr_left
        intro o' ho'
        exact (h.wf o' (List.mem_of_mem_take ho')).nnumNempty n hn
      simp only [w.children n hn, need, hg, pure, Except.pure]
      rw [number_shift])]
  have hd : (mergedState os D full dev n).depth = D := rfl
  simp only [hd, mergeSignal_ok Octree.features os D n h.features, mergeSignal_ok Octree.normals os D n h.normals,
    mergeSignal_ok Octree.points os D n h.points, pure, Except.pure]
  have e1 : (os.zipIdx.map fun p => ((layerCells 1 p.1.masks n).map (Cell.inSample p.2)).map (Cell.key n)).flatten
      = (layerCells os.length (mergedMasks (os.map Octree.masks)) n).map (Cell.key n) := by
    rw [h.cells n hn]
    unfold mergedCells
    rw [List.map_flatten, List.zipIdx_map, List.map_map, List.map_map]
    rfl
  have e2 : (os.zipIdx.map fun p => number (0 + ((os.take p.2).map fun o => (o.masks n).count true).sum) (p.1.masks n)).flatten
      = number 0 (mergedMasks (os.map Octree.masks) n) := by
    unfold mergedMasks
    rw [number_flatten, List.map_map, List.zipIdx_map, List.map_map]
    congr 1
    apply List.map_congr_left
    intro p _
    simp only [Function.comp_apply, Prod.map_apply, id, ← List.map_take, List.map_map]
    rfl
  rw [e1, e2]
  congr 1
  unfold mergedState
  rw [upd_lt, upd_lt, upd_lt, upd_lt, upd_lt]
  rfl

theorem merge_ok {os : List (Octree F)} {D full dev : Nat} (h : Mergeable os D full dev) :
    Octree.merge os = .ok (mergedState os D full dev (D + 1)) := by
  obtain ⟨o0, os', e⟩ := List.exists_cons_of_ne_nil h.nonempty
  have h0 : o0 ∈ os := by rw [e]; simp
  unfold Octree.merge
  have hg : getIdx os 0 = .ok o0 := by rw [e]; simp [getIdx, normIdx_ok _ 0, normIdx, bind, Except.bind]
  have ha : ∀ o ∈ os.drop 1, o.depth = o0.depth ∧ o.fullDepth = o0.fullDepth ∧ o.device = o0.device := by
    intro o ho
    have ho := List.mem_of_mem_drop ho
    exact ⟨by rw [h.depth o ho, h.depth o0 h0], by rw [h.fullDepth o ho, h.fullDepth o0 h0],
      by rw [h.device o ho, h.device o0 h0]⟩
  rw [hg]
  simp only [bind, Except.bind]
  have hp : pyAssert (∀ o ∈ os.drop 1, o.depth = (Octree.new o0.depth o0.fullDepth os.length o0.device : Octree F).depth ∧
      o.fullDepth = (Octree.new o0.depth o0.fullDepth os.length o0.device : Octree F).fullDepth ∧
      o.device = (Octree.new o0.depth o0.fullDepth os.length o0.device : Octree F).device) = .ok () := if_pos ha
  rw [hp]
  simp only [pure, Except.pure, if_neg (show ¬ 2 ^ 15 < os.length from by have := h.number; omega)]
  have hf : ∀ n, n ≤ D + 1 → (List.range n).foldlM (Octree.mergeLayer os) (mergedState os D full dev 0)
      = .ok (mergedState os D full dev n) := by
    intro n hn
    induction n with
    | zero => rfl
    | succ n ih =>
      rw [List.range_succ, List.foldlM_append, ih (by omega)]
      simp only [bind, Except.bind, List.foldlM_cons, List.foldlM_nil, mergeLayer_ok h n (by omega), pure, Except.pure]
  have := hf (D + 1) (le_refl _)
  rw [h.depth o0 h0, h.fullDepth o0 h0, h.device o0 h0]
  exact this

theorem merged_wf {os : List (Octree F)} {D full dev : Nat} (h : Mergeable os D full dev) :
    WF (mergedState os D full dev (D + 1)) D (mergedMasks (os.map Octree.masks)) := by
  have hD := h.depth_le
  have hlen : ∀ d ≤ D, (mergedMasks (os.map Octree.masks) d).length
      = (layerCells os.length (mergedMasks (os.map Octree.masks)) d).length ∧
      (os.map fun o => o.nnum d).sum = (layerCells os.length (mergedMasks (os.map Octree.masks)) d).length := by
    intro d hd
    rw [h.cells d hd]
    unfold mergedMasks mergedCells
    rw [List.length_flatten, List.length_flatten, List.map_map, List.map_map, List.map_map, List.zipIdx_map, List.map_map]
    have e : ∀ f : Octree F → Nat, (os.map f) = os.zipIdx.map fun p => f p.1 := by
      intro f
      apply List.ext_getElem?
      intro i
      simp only [List.getElem?_map, List.getElem?_zipIdx, Option.map_map]
      rfl
    rw [e, e]
    constructor
    · congr 1
      apply List.map_congr_left
      rintro ⟨o, i⟩ hp
      have ho := List.mem_of_getElem? (List.mem_zipIdx_iff_getElem?.mp hp)
      have := (h.wf o ho).len d hd
      rw [h.single o ho] at this
      simpa using this
    · congr 1
      apply List.map_congr_left
      rintro ⟨o, i⟩ hp
      have ho := List.mem_of_getElem? (List.mem_zipIdx_iff_getElem?.mp hp)
      have := (h.wf o ho).nnum d hd
      rw [h.single o ho] at this
      simpa using this
  constructor
  · exact hD
  · exact le_refl _
  · obtain ⟨o, os', rfl⟩ := List.exists_cons_of_ne_nil h.nonempty
    have := (h.wf o (by simp)).full_le
    rwa [h.fullDepth o (by simp)] at this
  · exact h.number
  · intro d hd; exact (hlen d hd).1
  · intro d hd b hb
    unfold mergedMasks at hb
    rw [List.mem_flatten] at hb
    obtain ⟨l, hl, hb⟩ := hb
    rw [List.map_map, List.mem_map] at hl
    obtain ⟨o, ho, rfl⟩ := hl
    exact (h.wf o ho).full d (by rw [h.fullDepth o ho]; exact hd) b hb
  · intro d hd; simp only [mergedState, if_pos (show d < D + 1 by omega)]; rfl
  · intro d hd; simp only [mergedState, if_pos (show d < D + 1 by omega)]
  · intro d hd; exact (hlen d hd).2
  · intro d hd
    show (os.map fun o => o.nnumNempty d).sum = _
    unfold mergedMasks
    rw [List.count_flatten, List.map_map, List.map_map]
    congr 1
    apply List.map_congr_left
    intro o ho
    exact (h.wf o ho).nnumNempty d hd

end Ocnn
