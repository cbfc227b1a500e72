import Verif.MergeLemmas
import Verif.PropsBuild

/-! Properties C15, C16, C17: merging octrees into a batch. -/

set_option linter.unusedSimpArgs false

namespace Ocnn
open Spec
variable {F L : Type}

/-! ### C16 -/

theorem zipIdx_map_fst {α β : Type _} (l : List α) (f : α → β) : l.map f = l.zipIdx.map fun p => f p.1 := by
  apply List.ext_getElem?
  intro i
  simp only [List.getElem?_map, List.getElem?_zipIdx, Option.map_map]
  rfl

theorem splitBy_blocks {α β : Type} (os : List β) (size : β → Nat) (f : β × Nat → List α)
    (h : ∀ i o, os[i]? = some o → (f (o, i)).length = size o) :
    splitBy (os.map size) (os.zipIdx.map f).flatten = os.zipIdx.map f := by
  have : os.map size = (os.zipIdx.map f).map List.length := by
    rw [zipIdx_map_fst, List.map_map]
    apply List.map_congr_left
    rintro ⟨o, i⟩ hp
    exact (h i o (List.mem_zipIdx_iff_getElem?.mp hp)).symm
  rw [this, splitBy_flatten]

theorem blocks_getElem? {α β : Type} (os : List β) (f : β × Nat → List α) (i : Nat) (o : β) (hi : os[i]? = some o) :
    (os.zipIdx.map f)[i]? = some (f (o, i)) := by
  simp [List.getElem?_map, List.getElem?_zipIdx, hi]

theorem mergedSignal_some {α : Type} (sel : Octree F → Nat → Option (List α)) (os : List (Octree F)) (D : Nat)
    (hne : os ≠ []) (ts : List (List α)) (h : (os.map fun o => sel o D) = ts.map some) :
    mergedSignal sel os D D = some ts.flatten := by
  obtain ⟨o, os', rfl⟩ := List.exists_cons_of_ne_nil hne
  unfold mergedSignal
  cases ts with
  | nil => simp at h
  | cons t ts =>
    have h0 : sel o D = some t := by simp at h; exact h.1
    simp only [h0, Option.isSome_some, true_and, if_true]
    have := congrArg (List.map fun t => Option.getD t []) h
    rw [List.map_map, List.map_map] at this
    have e3 : ((fun t : Option (List α) => t.getD []) ∘ some) = id := rfl
    rw [e3, List.map_id] at this
    rw [← this]
    rfl

theorem mergedSignal_none {α : Type} (sel : Octree F → Nat → Option (List α)) (os : List (Octree F)) (D : Nat)
    (h : ∀ o ∈ os, sel o D = none) : mergedSignal sel os D D = none := by
  unfold mergedSignal
  cases os with
  | nil => rfl
  | cons o os => simp [h o (by simp)]

theorem mergedSignal_other {α : Type} (sel : Octree F → Nat → Option (List α)) (os : List (Octree F)) (D d : Nat)
    (h : d ≠ D) : mergedSignal sel os D d = none := by
  unfold mergedSignal
  cases os with
  | nil => rfl
  | cons o os => simp [h]

/-- **C16.** Merging single-sample octrees succeeds and gives a well-formed octree with one sample per octree.  At
every depth, cutting the list of nodes into blocks of the sizes recorded in `batch_nnum` gives, as block `i`, the
cells of octree `i` in sample `i`, with the child indices shifted by the number of non-empty nodes of the earlier
octrees (so the same nodes are empty); the non-empty nodes likewise.  The signals of the finest layer are
concatenated in order. -/
theorem C16_merge (os : List (Octree F)) (D full dev : Nat) (h : Mergeable os D full dev) :
    ∃ o', Octree.merge os = .ok o' ∧ o'.depth = D ∧ o'.fullDepth = full ∧ o'.device = dev ∧
      o'.batchSize = os.length ∧ o'.Valid D ∧
      (∀ d ≤ D, o'.batchNnum d = os.map (fun o => o.nnum d) ∧ o'.batchNnumNempty d = os.map (fun o => o.nnumNempty d) ∧
        ∃ cells' ch', CellsOf os.length d o'.keys cells' ∧ o'.children d = some ch' ∧
          ∀ i o cells ch, os[i]? = some o → CellsOf 1 d o.keys cells → o.children d = some ch →
            (splitBy (os.map fun o => o.nnum d) cells')[i]? = some (cells.map (Cell.inSample i)) ∧
            (splitBy (os.map fun o => o.nnum d) ch')[i]? = some (ch.map fun v =>
              if v < 0 then v else v + (((os.take i).map fun o => o.nnumNempty d).sum : Nat)) ∧
            (splitBy (os.map fun o => o.nnumNempty d) (nonEmpty cells' ch'))[i]?
              = some ((nonEmpty cells ch).map (Cell.inSample i))) ∧
      (∀ ts : List (List F), (os.map fun o => o.features D) = ts.map some → o'.features D = some ts.flatten) ∧
      (∀ ts : List (List (V3 ℚ)), (os.map fun o => o.normals D) = ts.map some → o'.normals D = some ts.flatten) ∧
      (∀ ts : List (List (V3 ℚ)), (os.map fun o => o.points D) = ts.map some → o'.points D = some ts.flatten) ∧
      ((∀ o ∈ os, o.features D = none) → o'.features D = none) ∧
      ((∀ o ∈ os, o.normals D = none) → o'.normals D = none) ∧
      ((∀ o ∈ os, o.points D = none) → o'.points D = none) := by
  have W := merged_wf h
  have hsig : ∀ {α : Type} (sel : Octree F → Nat → Option (List α)),
      (if D < D + 1 then mergedSignal sel os D D else none) = mergedSignal sel os D D := fun sel => if_pos (by omega)
  refine ⟨_, merge_ok h, rfl, rfl, rfl, rfl, W.valid, ?_, ?_, ?_, ?_, ?_, ?_, ?_⟩
  · intro d hd
    refine ⟨rfl, rfl, _, _, W.cellsOf d hd, W.children d hd, ?_⟩
    have hcells := h.cells d hd
    have hlenm : ∀ o ∈ os, (o.masks d).length = (layerCells 1 o.masks d).length := by
      intro o ho
      have := (h.wf o ho).len d hd
      rwa [h.single o ho] at this
    have hsel := maskSel_merged (os.map Octree.masks) 0 d (by
      intro m hm
      obtain ⟨o, ho, rfl⟩ := List.mem_map.mp hm
      exact hlenm o ho)
    have hnn : ∀ o ∈ os, o.nnum d = (layerCells 1 o.masks d).length := by
      intro o ho
      have := (h.wf o ho).nnum d hd
      rwa [h.single o ho] at this
    intro i o cells ch hi hc hch
    have ho := List.mem_of_getElem? hi
    have w := h.wf o ho
    have hc' := w.cellsOf d hd
    rw [h.single o ho] at hc'
    have e := cells_unique (le_trans hd h.depth_le) hc hc'
    subst e
    rw [w.children d hd] at hch
    cases hch
    have hbs : (mergedState os D full dev (D + 1)).batchSize = os.length := rfl
    rw [nonEmpty_eq _ _ _ (W.len d hd), nonEmpty_eq _ _ _ (hlenm o ho), hbs, hcells, hsel]
    unfold mergedCells
    rw [List.zipIdx_map, List.map_map, List.map_map]
    refine ⟨?_, ?_, ?_⟩
    · rw [splitBy_blocks os _ _ (by
        intro j o' hj
        simp [hnn o' (List.mem_of_getElem? hj)]), blocks_getElem? _ _ _ _ hi]
      rfl
    · unfold mergedMasks
      rw [number_flatten, List.map_map, List.zipIdx_map, List.map_map, splitBy_blocks os _ _ (by
        intro j o' hj
        have ho' := List.mem_of_getElem? hj
        rw [hnn o' ho', ← hlenm o' ho']
        simp [number_length]), blocks_getElem? _ _ _ _ hi]
      simp only [Function.comp_apply, Prod.map_apply, id]
      congr 1
      rw [← List.map_take, List.map_map]
      have es : ((os.take i).map ((fun l => List.count true l) ∘ (fun m : Nat → List Bool => m d) ∘ Octree.masks)).sum
          = ((os.take i).map fun o => o.nnumNempty d).sum := by
        congr 1
        apply List.map_congr_left
        intro o' ho'
        exact ((h.wf o' (List.mem_of_mem_take ho')).nnumNempty d hd).symm
      have := number_shift 0 (((os.take i).map fun o => o.nnumNempty d).sum) (o.masks d)
      rw [Nat.zero_add] at this ⊢
      refine Eq.trans ?_ (this.symm.trans ?_)
      · congr 1
      · apply List.map_congr_left
        intro v _
        by_cases hv : v < 0
        · rw [if_pos hv, if_neg (by omega)]
        · rw [if_neg hv, if_pos (by omega)]
    · rw [splitBy_blocks os _ _ (by
        intro j o' hj
        have ho' := List.mem_of_getElem? hj
        simp [maskSel_length _ _ (hlenm o' ho'), (h.wf o' ho').nnumNempty d hd]), blocks_getElem? _ _ _ _ hi]
      rfl
  · intro ts e; exact (hsig _).trans (mergedSignal_some _ os D h.nonempty ts e)
  · intro ts e; exact (hsig _).trans (mergedSignal_some _ os D h.nonempty ts e)
  · intro ts e; exact (hsig _).trans (mergedSignal_some _ os D h.nonempty ts e)
  · intro e; exact (hsig _).trans (mergedSignal_none _ os D e)
  · intro e; exact (hsig _).trans (mergedSignal_none _ os D e)
  · intro e; exact (hsig _).trans (mergedSignal_none _ os D e)

/-! ### C17 -/

/-- Complete octrees of the same depth, full depth and device with the same signals, of any batch sizes. -/
structure Combinable (os : List (Octree F)) (D full dev : Nat) : Prop where
  nonempty : os ≠ []
  number : os.length ≤ 2 ^ 15
  depth : ∀ o ∈ os, o.depth = D
  fullDepth : ∀ o ∈ os, o.fullDepth = full
  device : ∀ o ∈ os, o.device = dev
  valid : ∀ o ∈ os, o.Valid D
  features : ∀ o ∈ os, ∀ o' ∈ os, (o.features D).isSome = (o'.features D).isSome
  normals : ∀ o ∈ os, ∀ o' ∈ os, (o.normals D).isSome = (o'.normals D).isSome
  points : ∀ o ∈ os, ∀ o' ∈ os, (o.points D).isSome = (o'.points D).isSome

theorem mergeLayer_keys {os : List (Octree F)} {D full dev : Nat} (h : Combinable os D full dev) (s : Octree F) (n : Nat)
    (hn : n ≤ D) (hd : s.depth = D) (hb : (s.batchNnumNempty n).length = os.length) :
    ∃ s', Octree.mergeLayer os s n = .ok s' ∧ s'.depth = s.depth ∧ s'.batchNnumNempty = s.batchNnumNempty ∧
      s'.keys = upd s.keys n (some ((os.zipIdx.map fun p => ((p.1.keys n).getD []).map (Octree.relabel p.2)).flatten)) := by
  unfold Octree.mergeLayer
  rw [mapM_zipIdx_ok _ (fun p => ((p.1.keys n).getD []).map (Octree.relabel p.2)) os
    (by
      intro i o hi
      have w := (h.valid o (List.mem_of_getElem? hi)).wf'
      show (need (o.keys n) >>= fun ks => pure (ks.map (Octree.relabel i))) = _
      rw [w.keys n hn]
      rfl)]
  simp only [bind, Except.bind]
  rw [mapM_zipIdx_ok _ (fun p => ((p.1.children n).getD []).map fun v =>
      if v ≥ 0 then v + (((s.batchNnumNempty n).take p.2).sum : Int) else v) os
    (by
      intro i o hi
      have w := (h.valid o (List.mem_of_getElem? hi)).wf'
      have hlt : i < os.length := by
        by_contra hc
        rw [List.getElem?_eq_none (by omega)] at hi
        cases hi
      have hg : getIdx (cumsum (s.batchNnumNempty n) true) (i : Int) = .ok (((s.batchNnumNempty n).take i).sum) := by
        unfold getIdx
        rw [normIdx_ok _ _ (by simp only [cumsum, if_true]; simp [cumsumFrom_length]; omega)]
        simp only [bind, Except.bind, cumsum, if_true]
        rw [cumsumFrom_getElem? 0 _ i (by omega)]
        simp only [Nat.zero_add]
      simp only [w.children n hn, need, hg, pure, Except.pure, Option.getD_some])]
  simp only [hd, mergeSignal_ok Octree.features os D n h.features, mergeSignal_ok Octree.normals os D n h.normals,
    mergeSignal_ok Octree.points os D n h.points, pure, Except.pure]
  exact ⟨_, rfl, rfl, rfl, rfl⟩

theorem merge_keys {os : List (Octree F)} {D full dev : Nat} (h : Combinable os D full dev) :
    ∃ o', Octree.merge os = .ok o' ∧ ∀ d ≤ D,
      o'.keys d = some ((os.zipIdx.map fun p => ((p.1.keys d).getD []).map (Octree.relabel p.2)).flatten) := by
  obtain ⟨o0, os', e⟩ := List.exists_cons_of_ne_nil h.nonempty
  have h0 : o0 ∈ os := by rw [e]; simp
  unfold Octree.merge
  have hg : getIdx os 0 = .ok o0 := by rw [e]; simp [getIdx, normIdx_ok _ 0, normIdx, bind, Except.bind]
  have ha : ∀ o ∈ os.drop 1, o.depth = o0.depth ∧ o.fullDepth = o0.fullDepth ∧ o.device = o0.device := by
    intro o ho
    have ho := List.mem_of_mem_drop ho
    exact ⟨by rw [h.depth o ho, h.depth o0 h0], by rw [h.fullDepth o ho, h.fullDepth o0 h0],
      by rw [h.device o ho, h.device o0 h0]⟩
  rw [hg]
  simp only [bind, Except.bind]
  have hp : pyAssert (∀ o ∈ os.drop 1, o.depth = (Octree.new o0.depth o0.fullDepth os.length o0.device : Octree F).depth ∧
      o.fullDepth = (Octree.new o0.depth o0.fullDepth os.length o0.device : Octree F).fullDepth ∧
      o.device = (Octree.new o0.depth o0.fullDepth os.length o0.device : Octree F).device) = .ok () := if_pos ha
  rw [hp]
  simp only [pure, Except.pure, if_neg (show ¬ 2 ^ 15 < os.length from by have := h.number; omega)]
  rw [h.depth o0 h0, h.fullDepth o0 h0, h.device o0 h0]
  have hf : ∀ (s0 : Octree F), s0.depth = D → (∀ d, (s0.batchNnumNempty d).length = os.length) → ∀ n, n ≤ D + 1 →
      ∃ s, (List.range n).foldlM (Octree.mergeLayer os) s0 = .ok s ∧ s.depth = D ∧
        s.batchNnumNempty = s0.batchNnumNempty ∧ ∀ d < n,
        s.keys d = some ((os.zipIdx.map fun p => ((p.1.keys d).getD []).map (Octree.relabel p.2)).flatten) := by
    intro s0 hs0 hb n hn
    induction n with
    | zero => exact ⟨s0, rfl, hs0, rfl, by omega⟩
    | succ n ih =>
      obtain ⟨s, h1, h2, h3, h4⟩ := ih (by omega)
      obtain ⟨s', g1, g2, g3, g4⟩ := mergeLayer_keys h s n (by omega) h2 (by rw [h3]; exact hb n)
      refine ⟨s', ?_, by rw [g2, h2], by rw [g3, h3], ?_⟩
      · rw [List.range_succ, List.foldlM_append, h1]
        simp only [bind, Except.bind, List.foldlM_cons, List.foldlM_nil, g1, pure, Except.pure]
      · intro d hd
        rw [g4]
        unfold upd
        by_cases hdn : d = n
        · subst hdn; simp
        · rw [if_neg hdn]; exact h4 d (by omega)
  obtain ⟨s, h1, _, _, h4⟩ := hf (mergedState os D full dev 0) rfl (fun d => by simp [mergedState]) (D + 1) (le_refl _)
  exact ⟨s, h1, fun d hd => h4 d (by omega)⟩

theorem relabel_pos (i n : Nat) (ks : List Nat) (a b : Nat) (hab : a < b) (ka kb : Nat) (ha : ks[a]? = some ka)
    (hb : ks[b]? = some kb) (f : Nat → Nat) (h : f ka = f kb) : ¬ (ks.map f).Nodup := by
  intro hn
  have := nodup_getElem?_inj hn (i := a) (j := b) (a := f ka) (by simp [ha]) (by simp [hb, h])
  omega

/-- **C17** (violated).  Merging octrees one of which is already a batch of several samples succeeds but does not keep
the samples apart: already the roots get equal keys, and the result is not a well-formed octree. -/
theorem C17_violated (os : List (Octree F)) (D full dev : Nat) (h : Combinable os D full dev) (o : Octree F)
    (ho : o ∈ os) (hb : 2 ≤ o.batchSize) :
    ∃ o' ks, Octree.merge os = .ok o' ∧ o'.keys 0 = some ks ∧ ¬ ks.Nodup ∧ ∀ h, ¬ o'.Valid h := by
  obtain ⟨o', h1, h2⟩ := merge_keys h
  have h3 := h2 0 (by omega)
  obtain ⟨i, hi⟩ := List.getElem?_of_mem ho
  have w := (h.valid o ho).wf'
  have hk := w.keys 0 (by omega)
  have hnd : ¬ ((os.zipIdx.map fun p => ((p.1.keys 0).getD []).map (Octree.relabel p.2)).flatten).Nodup := by
    intro hn
    have := (List.nodup_flatten.mp hn).1 (((o.keys 0).getD []).map (Octree.relabel i))
      (List.mem_of_getElem? (blocks_getElem? os (fun p => ((p.1.keys 0).getD []).map (Octree.relabel p.2)) i o hi))
    rw [hk, Option.getD_some] at this
    have g : ∀ b < o.batchSize, (layerCells o.batchSize o.masks 0)[b]? = some ⟨b, 0, 0, 0⟩ := by
      intro b hb'
      simp [layerCells, hb']
    have e : ∀ b, Octree.relabel i (Cell.key 0 ⟨b, 0, 0, 0⟩) = Cell.key 0 ⟨i, 0, 0, 0⟩ :=
      fun b => inSample_key i 0 ⟨b, 0, 0, 0⟩ (by omega)
    exact relabel_pos i 0 _ 0 1 (by omega) _ _ (by rw [List.getElem?_map, g 0 (by omega)]; rfl)
      (by rw [List.getElem?_map, g 1 (by omega)]; rfl) _ (by rw [e, e]) this
  refine ⟨o', _, h1, h3, hnd, ?_⟩
  intro hh hv
  obtain ⟨ks, ch, e1, _, e3⟩ := hv.wf.layer 0 (by omega)
  rw [h3] at e1
  cases e1
  exact hnd (e3.sorted.imp fun hlt => by omega)

/-- C17, partial: what is missing is exactly `C17_violated`.  For octrees of one sample each, the merged octree keeps
the samples apart: the node of octree `i` gets sample index `i` and nodes never share a key. -/
theorem C17_partial (os : List (Octree F)) (D full dev : Nat) (h : Mergeable os D full dev) (d : Nat) (hd : d ≤ D) :
    ∃ o' ks, Octree.merge os = .ok o' ∧ o'.keys d = some ks ∧ ks.Nodup ∧
      o'.batchId d false = .ok ((os.zipIdx.map fun p => List.replicate (p.1.nnum d) p.2).flatten) := by
  have W := merged_wf h
  refine ⟨_, _, merge_ok h, W.keys d hd, ?_, ?_⟩
  · exact (layer_keys_sorted _ _ d (le_trans hd h.depth_le)).imp fun hlt => by omega
  · rw [W.batchId_all d hd]
    congr 1
    have hbs : (mergedState os D full dev (D + 1)).batchSize = os.length := rfl
    rw [hbs, h.cells d hd]
    unfold mergedCells
    rw [List.zipIdx_map, List.map_flatten, List.map_map, List.map_map]
    congr 1
    apply List.map_congr_left
    rintro ⟨o, i⟩ hp
    have ho := List.mem_of_getElem? (List.mem_zipIdx_iff_getElem?.mp hp)
    have := (h.wf o ho).nnum d hd
    rw [h.single o ho] at this
    simp only [Function.comp_apply, Prod.map_apply, id, List.map_map]
    rw [this]
    apply List.ext_getElem?
    intro j
    simp only [List.getElem?_map, List.getElem?_replicate]
    split
    · next hj => rw [List.getElem?_eq_getElem hj]; rfl
    · next hj => rw [List.getElem?_eq_none (by omega)]; rfl

end Ocnn
