import Verif.AutoProofs
import Verif.PropsConv

/-! The layers of the autoencoder read only the tables of the layers they work on, so runs on octrees that agree on these tables agree. -/

set_option linter.unusedSimpArgs false

namespace Ocnn
open Spec
variable {F : Type} {cfg : DecCfg} [cfg.Ok]

/-- Layer `d` of two octrees has the same number of nodes and the same neighbour table. -/
structure SameLayer (o t : Octree F) (d : Nat) : Prop where
  depth : o.depth = t.depth
  nnum : o.nnum d = t.nnum d
  neighs : o.neighs d = t.neighs d

/-- Layer `d` of two octrees has the same children. -/
structure SameSplit (o t : Octree F) (d : Nat) : Prop where
  depth : o.depth = t.depth
  children : o.children d = t.children d
  nempty : o.nnumNempty d = t.nnumNempty d

theorem chk_congr {o t : Octree F} (h : o.depth = t.depth) (d : Nat) : o.chk d = t.chk d := by
  unfold Octree.chk
  rw [h]

theorem getNeigh_congr {o t : Octree F} {d : Nat} (h : SameLayer o t d) (kernel : String) (s : Nat) :
    o.getNeigh d kernel s false = t.getNeigh d kernel s false := by
  unfold Octree.getNeigh
  simp only [chk_congr h.depth, h.neighs, Bool.false_eq_true, if_false]

theorem octreeConv_congr {o t : Octree F} {d : Nat} (h : SameLayer o t d) (P : Params) (name : String) (ci co : Nat) (x : Tensor) :
    octreeConv P name ci co [3] 1 false o d x = octreeConv P name ci co [3] 1 false t d x := by
  unfold octreeConv
  rw [init_ok true ci co [3] 1 false maxBuffer (3, 3, 3) (by decide) (Or.inr (Or.inr ⟨rfl, rfl, rfl⟩))]
  simp only [bind, Except.bind]
  congr 1
  funext y
  unfold ConvModule.forward convForward ConvBase.setup
  simp only [chk_congr h.depth, h.nnum, getNeigh_congr h, Bool.false_eq_true, if_false, OfNat.one_ne_ofNat, false_and]

theorem depad_congr {V : Type} {o t : Octree F} {d : Nat} (h : SameSplit o t d) (x : List V) : octreeDepad x o d = octreeDepad x t d := by
  unfold octreeDepad Octree.nemptyMask
  rw [chk_congr h.depth, h.children]

theorem depadT_congr {o t : Octree F} {d : Nat} (h : SameSplit o t d) (x : Tensor) : depad o d x = depad t d x := by
  unfold depad
  rw [depad_congr h]

theorem octreeDeconv_congr {o t : Octree F} {d : Nat} (h : SameLayer o t (d + 1)) (hs : SameSplit o t d) (P : Params) (name : String) (ci co : Nat)
    (x : Tensor) : octreeDeconv P name ci co [2] 2 false o d x = octreeDeconv P name ci co [2] 2 false t d x := by
  unfold octreeDeconv
  rw [init_ok false ci co [2] 2 false maxBuffer (2, 2, 2) (by decide) (Or.inr (Or.inr ⟨rfl, rfl, rfl⟩))]
  simp only [bind, Except.bind]
  congr 1
  funext y
  unfold ConvModule.deconvForward deconvForward ConvBase.setup
  simp only [chk_congr h.depth, h.nnum, hs.nempty, getNeigh_congr h, depad_congr hs, Bool.false_eq_true, if_false, if_true, false_and, and_false, and_true,
    true_and, and_self]

theorem resBlocks_congr {o t : Octree F} {d : Nat} (h : SameLayer o t d) (P : Params) (name : String) (ci co num b : Nat) (x : Tensor) :
    resBlocks P .block name ci co num b false o d x = resBlocks P .block name ci co num b false t d x := by
  unfold resBlocks
  congr 1
  funext x i
  unfold resStep oneBlock resBlock convBnRelu
  simp only [OfNat.one_ne_ofNat, if_false, octreeConv_congr h]

theorem aeLevel_congr (P : Params) (full : Nat) {o t : Octree F} (k : Nat) (h : SameLayer o t (full + k))
    (hs : 0 < k → SameSplit o t (full + (k - 1))) (x : Tensor) : aeLevel P cfg full o x k = aeLevel P cfg full t x k := by
  unfold aeLevel
  simp only [resBlocks_congr h]
  cases k with
  | zero => rfl
  | succ k =>
    have e : full + (k + 1) - 1 = full + k := by omega
    simp only [e, deconvBnRelu, octreeDeconv_congr (d := full + k) h (hs (by omega))]

/-! ### octrees with the same masks -/

theorem masks_of_wf {o : Octree F} {h : Nat} {masks : Nat → List Bool} (w : WF o h masks) (d : Nat) (hd : d ≤ h) : o.masks d = masks d := by
  have := w.children d hd
  unfold Octree.masks
  rw [this]
  apply List.ext_getElem?
  intro i
  simp only [Option.getD_some, List.getElem?_map, number_getElem?]
  cases hm : (masks d)[i]? with
  | none => simp
  | some b => cases b <;> simp

theorem same_cells {o t : Octree F} (hb : o.batchSize = t.batchSize) {d : Nat} (hm : ∀ i < d, o.masks i = t.masks i) :
    layerCells o.batchSize o.masks d = layerCells t.batchSize t.masks d := by
  rw [hb, layerCells_congr _ o.masks t.masks d hm]

theorem same_layer {o t : Octree F} {h h' : Nat} (w : o.Valid h) (w' : t.Valid h') (hb : o.batchSize = t.batchSize) (hdep : o.depth = t.depth) {d : Nat}
    (hd : d ≤ h) (hd' : d ≤ h') (hm : ∀ i < d, o.masks i = t.masks i) (hn : NeighExact o.batchSize d o.keys o.neighs)
    (hn' : NeighExact t.batchSize d t.keys t.neighs) : SameLayer o t d := by
  have hc := same_cells hb hm
  refine ⟨hdep, ?_, ?_⟩
  · rw [w.wf'.nnum d hd, w'.wf'.nnum d hd', hc]
  · obtain ⟨r, h1, h2⟩ := hn _ (w.wf'.cellsOf d hd)
    obtain ⟨r', h1', h2'⟩ := hn' _ (w'.wf'.cellsOf d hd')
    rw [h1, h1', hc] at *
    congr 1
    have hle := w.h_le
    have hle2 := w.depth_le
    have hnd := layer_nodup t.batchSize t.masks d (by omega)
    apply List.ext_getElem (h2.1.trans h2'.1.symm)
    intro i h3 h4
    have hi : i < (layerCells t.batchSize t.masks d).length := by rw [← h2.1]; exact h3
    obtain ⟨a1, a2⟩ := h2.2 i _ _ (List.getElem?_eq_getElem hi) (List.getElem?_eq_getElem h3)
    obtain ⟨b1, b2⟩ := h2'.2 i _ _ (List.getElem?_eq_getElem hi) (List.getElem?_eq_getElem h4)
    apply List.ext_getElem (a1.trans b1.symm)
    intro j j1 j2
    exact refersTo_unique hnd (a2 j _ (List.getElem?_eq_getElem j1)) (b2 j _ (List.getElem?_eq_getElem j2))

theorem same_split {o t : Octree F} {h h' : Nat} (w : o.Valid h) (w' : t.Valid h') (hdep : o.depth = t.depth) {d : Nat}
    (hd : d ≤ h) (hd' : d ≤ h') (hm : o.masks d = t.masks d) : SameSplit o t d :=
  ⟨hdep, by rw [w.wf'.children d hd, w'.wf'.children d hd', hm], by rw [w.wf'.nnumNempty d hd, w'.wf'.nnumNempty d hd', hm]⟩

theorem same_tables {o t : Octree F} {h h' : Nat} (w : o.Valid h) (w' : t.Valid h') (hb : o.batchSize = t.batchSize) {d : Nat}
    (hd : d ≤ h) (hd' : d ≤ h') (hm : ∀ i ≤ d, o.masks i = t.masks i) :
    o.keys d = t.keys d ∧ o.children d = t.children d ∧ o.nnum d = t.nnum d ∧ o.nnumNempty d = t.nnumNempty d := by
  have hc := same_cells hb (d := d) fun i hi => hm i (by omega)
  refine ⟨?_, ?_, ?_, ?_⟩
  · rw [w.wf'.keys d hd, w'.wf'.keys d hd', hc]
  · rw [w.wf'.children d hd, w'.wf'.children d hd', hm d (le_refl _)]
  · rw [w.wf'.nnum d hd, w'.wf'.nnum d hd', hc]
  · rw [w.wf'.nnumNempty d hd, w'.wf'.nnumNempty d hd', hm d (le_refl _)]

/-- Up to the full depth all nodes are non-empty. -/
theorem masks_full {t : Octree F} {h : Nat} (w : t.Valid h) (i : Nat) (hi : i < t.fullDepth) : t.masks i = fullMasks t.batchSize i := by
  have hle := w.full_le
  have hlen : (t.masks i).length = 8 ^ i * t.batchSize := by
    rw [← wf_nnum w.wf' i (by omega)]
    exact nnum_full w i (by omega)
  rw [fullMasks, ← hlen]
  exact List.eq_replicate_of_mem fun b hb => w.wf'.full i hi b hb

/-! ### the update in one iteration -/

theorem argmax_mask (x : List (Fin 2 → ℚ)) : splitMask (x.map fun v => argmax2 (v 0, v 1)) = x.map fun v => decide (v 0 < v 1) := by
  unfold splitMask
  rw [List.map_map]
  apply List.map_congr_left
  intro v _
  simp only [Function.comp, argmax2]
  by_cases h : v 0 < v 1 <;> simp [h]

/-- The predicted mask of a layer, with the first node forced to be non-empty if there is no other. -/
def maskOf (x : List (Fin 2 → ℚ)) : List Bool := forceFirst (x.map fun v => decide (v 0 < v 1))

theorem decodeStep_masks {o o' : Octree F} {masks : Nat → List Bool} {d : Nat} (hI : DecInv o masks d) (hd : d ≤ o.depth) (s : List Int)
    (h01 : ∀ v ∈ s, v = 0 ∨ v = 1) (hs : s.length = o.nnum d) (e : Octree.decodeStep (fun _ _ => s) o d = .ok o') :
    (∀ i < d, o'.masks i = o.masks i) ∧ o'.masks d = forceFirst (splitMask s) ∧ o'.depth = o.depth ∧ o'.batchSize = o.batchSize ∧
      (d = o.depth → o'.Valid d) := by
  have hold : ∀ i < d, o.masks i = masks i := fun i hi => masks_of_wf hI.wf i (by omega)
  rcases Nat.lt_or_ge d o.depth with hlt | hge
  · obtain ⟨o2, e1, J, f1, f2, f3⟩ := decodeStep_lt hI (fun _ _ => s) h01 hs hlt
    rw [e1] at e
    cases e
    refine ⟨fun i hi => ?_, ?_, f1, f3, fun h => absurd h (by omega)⟩
    · rw [masks_of_wf J.wf i (by omega), hold i hi]
      simp only [upd, show i ≠ d + 1 by omega, show i ≠ d by omega, if_false]
    · rw [masks_of_wf J.wf d (by omega)]
      simp only [upd, show d ≠ d + 1 by omega, if_false, if_true]
  · obtain ⟨o2, e1, J, -, f1, f2, f3⟩ := decodeStep_last hI (fun _ _ => s) h01 hs (by omega)
    rw [e1] at e
    cases e
    refine ⟨fun i hi => ?_, ?_, f1, f3, fun _ => J.wf.valid⟩
    · rw [masks_of_wf J.wf i (by omega), hold i hi]
      simp only [upd, show i ≠ d by omega, if_false]
    · rw [masks_of_wf J.wf d (by omega)]
      simp only [upd, if_true]

theorem decodeStep_eq {o : Octree F} {masks : Nat → List Bool} {d depth : Nat} (hI : DecInv o masks d) (hdep : o.depth = depth) (s : List Int)
    (h01 : ∀ v ∈ s, v = 0 ∨ v = 1) (hs : s.length = o.nnum d) :
    Octree.decodeStep (fun _ _ => s) o d = (do let o ← o.split s d; if d < depth then o.grow d true else pure o) := by
  unfold Octree.decodeStep
  obtain ⟨o1, h1, -, e⟩ := hI.wf.split s h01 hs hI.pos
  have : o1.depth = depth := by rw [e]; exact hdep
  simp only [bind, Except.bind, h1, this]

theorem aeUpdate_masks {o o' : Octree F} {masks : Nat → List Bool} {d depth : Nat} (hI : DecInv o masks d) (hdep : o.depth = depth) (hd : d ≤ depth)
    (x : List (Fin 2 → ℚ)) (hx : x.length = o.nnum d) (e : aeUpdate depth d ⟨2, x⟩ o = .ok o') :
    (∀ i < d, o'.masks i = o.masks i) ∧ o'.masks d = maskOf x ∧ o'.depth = o.depth ∧ o'.batchSize = o.batchSize ∧
      (d = depth → o'.Valid d) := by
  unfold aeUpdate at e
  rw [splitOf_ok] at e
  unfold maskOf
  rw [← argmax_mask]
  have h01 : ∀ v ∈ x.map fun v => argmax2 (v 0, v 1), v = 0 ∨ v = 1 := by
    intro v hv
    obtain ⟨u, -, rfl⟩ := List.mem_map.1 hv
    exact argmax2_mem _
  have hs : (x.map fun v => argmax2 (v 0, v 1)).length = o.nnum d := by rw [List.length_map]; exact hx
  generalize (x.map fun v => argmax2 (v 0, v 1)) = s at *
  rw [← hdep]
  refine decodeStep_masks hI (by omega) s h01 hs ?_
  rw [← e]
  exact decodeStep_eq hI hdep s h01 hs

/-! ### the loop -/

theorem fold_logits (P : Params) (depth full : Nat) (update : Bool) (l : List Nat) : ∀ {st st' : AeState F},
    l.foldlM (aeDecStep P cfg depth full update) st = .ok st' → ∃ ys, st'.logits = st.logits ++ ys ∧ ys.length = l.length := by
  induction l with
  | nil =>
    intro st st' h
    cases h
    exact ⟨[], by simp, rfl⟩
  | cons i l ih =>
    intro st st' h
    rw [List.foldlM_cons] at h
    unfold aeDecStep at h
    cases h1 : aeLevel P cfg full st.octree st.deconv i with
    | error e => simp [h1, bind, Except.bind] at h
    | ok r =>
      simp only [h1, bind, Except.bind] at h
      split at h
      · simp at h
      · rename_i st1 h2
        obtain ⟨ys, hy, hlen⟩ := ih h
        split at h2
        · simp at h2
        · cases h2
          exact ⟨r.2 :: ys, by rw [hy]; simp, by simp [hlen]⟩

/-- The first iterations of a loop that succeeds. -/
theorem fold_prefix {S : Type} (f : S → Nat → M S) {N n : Nat} (hn : n ≤ N) {s s' : S} (h : (List.range N).foldlM f s = .ok s') :
    ∃ s1, (List.range n).foldlM f s = .ok s1 ∧ ((List.range (N - n)).map (n + ·)).foldlM f s1 = .ok s' := by
  obtain ⟨m, rfl⟩ : ∃ m, N = n + m := ⟨N - n, by omega⟩
  rw [List.range_add, List.foldlM_append] at h
  cases h1 : (List.range n).foldlM f s with
  | error e => simp [h1, bind, Except.bind] at h
  | ok s1 =>
    rw [h1] at h
    exact ⟨s1, rfl, by rw [show n + m - n = m by omega]; exact h⟩

theorem fold_succ {S : Type} (f : S → Nat → M S) {n : Nat} {s s1 : S} (h : (List.range n).foldlM f s = .ok s1) :
    (List.range (n + 1)).foldlM f s = f s1 n := by
  rw [List.range_succ, List.foldlM_append, h]
  show (List.foldlM f s1 [n]) = _
  rw [List.foldlM_cons]
  show (f s1 n >>= pure) = _
  exact bind_pure _

/-- While the masks of the generated layers agree with those of `t`, the network computes the same on both octrees. -/
theorem level_same (P : Params) {depth full k : Nat} (hf : 1 ≤ full) (hk : full + k ≤ depth) {t : Octree F} {st : AeState F}
    (I : AeInv cfg depth full t.batchSize k st) (w : t.Valid depth) (hdep : t.depth = depth)
    (hn : ∀ d, 1 ≤ d → d ≤ depth → NeighExact t.batchSize d t.keys t.neighs) (hm : ∀ i < full + k, st.octree.masks i = t.masks i) (x : Tensor) :
    aeLevel P cfg full st.octree x k = aeLevel P cfg full t x k := by
  obtain ⟨masks, hI⟩ := I.inv
  have hd : st.octree.depth = t.depth := I.hdepth.trans hdep.symm
  refine aeLevel_congr P full k ?_ (fun h0 => ?_) x
  · exact same_layer hI.wf.valid w I.hbatch hd (le_refl _) hk hm (hI.wf.neighExact _ (le_refl _) (Nat.zero_le _) hI.neigh) (hn _ (by omega) hk)
  · exact same_split hI.wf.valid w hd (by omega) (by omega) (hm _ (by omega))

/-- The two loops side by side: `st` generates its octree, the other run works on `t`. -/
theorem loops_same (P : Params) {depth full : Nat} (hf : 1 ≤ full) (hd9 : depth ≤ 9) {t : Octree F} (w : t.Valid depth) (hdep : t.depth = depth)
    (hn : ∀ d, 1 ≤ d → d ≤ depth → NeighExact t.batchSize d t.keys t.neighs) {st : AeState F} (I : AeInv cfg depth full t.batchSize 0 st)
    (hm0 : ∀ i < full, st.octree.masks i = t.masks i) (n : Nat) (hN : full + n ≤ depth)
    (hlog : ∀ k < n, ∀ sT, (List.range (k + 1)).foldlM (aeDecStep P cfg depth full false) ⟨t, st.deconv, st.logits⟩ = .ok sT →
      ∃ x, sT.logits[k]? = some ⟨2, x⟩ ∧ maskOf x = t.masks (full + k)) :
    ∃ st', (List.range n).foldlM (aeDecStep P cfg depth full true) st = .ok st' ∧ AeInv cfg depth full t.batchSize n st' ∧
      (∀ i < full + n, st'.octree.masks i = t.masks i) ∧
      (List.range n).foldlM (aeDecStep P cfg depth full false) ⟨t, st.deconv, st.logits⟩ = .ok ⟨t, st'.deconv, st'.logits⟩ := by
  induction n with
  | zero => exact ⟨st, rfl, I, hm0, rfl⟩
  | succ n ih =>
    obtain ⟨s1, h1, I1, hm1, h1'⟩ := ih (by omega) fun k hk => hlog k (by omega)
    obtain ⟨s2, h2, I2⟩ := ae_step P hf hd9 (by omega) I1
    obtain ⟨c, y, x, e, hc, hy, hx⟩ := ae_level P hf hd9 (by omega) I1
    have e' := e
    rw [level_same P hf (by omega) I1 w hdep hn hm1] at e'
    have hT : (List.range (n + 1)).foldlM (aeDecStep P cfg depth full false) ⟨t, st.deconv, st.logits⟩ = .ok ⟨t, ⟨c, y⟩, s1.logits ++ [⟨2, x⟩]⟩ := by
      rw [fold_succ _ h1']
      unfold aeDecStep
      rw [e']
      rfl
    have hF : (List.range (n + 1)).foldlM (aeDecStep P cfg depth full true) st = .ok s2 := by
      rw [fold_succ _ h1]
      exact h2
    unfold aeDecStep at h2
    rw [e] at h2
    obtain ⟨masks, hI⟩ := I1.inv
    cases hu : aeUpdate depth (full + n) ⟨2, x⟩ s1.octree with
    | error er => simp [hu, bind, Except.bind] at h2
    | ok o' =>
      simp only [bind, Except.bind, if_true, hu] at h2
      cases h2
      obtain ⟨g1, g2, g3, g4, -⟩ := aeUpdate_masks hI I1.hdepth (by omega) x hx hu
      obtain ⟨x', hx1, hx2⟩ := hlog n (by omega) _ hT
      have : x' = x := by
        dsimp only at hx1
        rw [← I1.logits, List.getElem?_append_right (le_refl _)] at hx1
        simpa using hx1.symm
      subst this
      refine ⟨_, hF, I2, ?_, hT⟩
      intro i hi
      rcases Nat.lt_or_ge i (full + n) with hlt | hge
      · exact (g1 i hlt).trans (hm1 i hlt)
      · obtain rfl : i = full + n := by omega
        exact g2.trans hx2

/-- An iteration keeps the masks of the layers above. -/
theorem step_masks (P : Params) {depth full B k : Nat} (hf : 1 ≤ full) (hd9 : depth ≤ 9) (hk : full + k ≤ depth) {st st' : AeState F}
    (I : AeInv cfg depth full B k st) (h : aeDecStep P cfg depth full true st k = .ok st') :
    (∀ i < full + k, st'.octree.masks i = st.octree.masks i) ∧
      ∃ c y x, aeLevel P cfg full st.octree st.deconv k = .ok (⟨c, y⟩, ⟨2, x⟩) ∧ st'.deconv = ⟨c, y⟩ ∧ st'.logits = st.logits ++ [⟨2, x⟩] ∧
        st'.octree.masks (full + k) = maskOf x := by
  obtain ⟨c, y, x, e, hc, hy, hx⟩ := ae_level P hf hd9 hk I
  obtain ⟨masks, hI⟩ := I.inv
  unfold aeDecStep at h
  rw [e] at h
  cases hu : aeUpdate depth (full + k) ⟨2, x⟩ st.octree with
  | error er => simp [hu, bind, Except.bind] at h
  | ok o' =>
    simp only [bind, Except.bind, if_true, hu] at h
    cases h
    have h := aeUpdate_masks hI I.hdepth hk x hx hu
    exact ⟨h.1, c, y, x, e, rfl, rfl, h.2.1⟩

/-- The masks of the generated layers do not change any more. -/
theorem masks_stable (P : Params) {depth full B : Nat} (hf : 1 ≤ full) (hd9 : depth ≤ 9) {st : AeState F} (I : AeInv cfg depth full B 0 st) (N n : Nat)
    (hn : n ≤ N) (hN : full + N ≤ depth) {s sN : AeState F} (h : (List.range n).foldlM (aeDecStep P cfg depth full true) st = .ok s)
    (h' : (List.range N).foldlM (aeDecStep P cfg depth full true) st = .ok sN) : ∀ i < full + n, sN.octree.masks i = s.octree.masks i := by
  induction N generalizing sN with
  | zero =>
    obtain rfl : n = 0 := by omega
    rw [h] at h'
    cases h'
    intro i _
    rfl
  | succ N ih =>
    rcases Nat.lt_or_ge N n with hlt | hge
    · obtain rfl : n = N + 1 := by omega
      rw [h] at h'
      cases h'
      intro i _
      rfl
    · obtain ⟨s1, h1, I1⟩ := ae_steps P hf hd9 N (by omega) I
      rw [fold_succ _ h1] at h'
      intro i hi
      exact ((step_masks P hf hd9 (by omega) I1 h').1 i (by omega)).trans (ih (by omega) (by omega) h1 i hi)

/-- The run on an octree whose masks agree with the generated ones. -/
theorem loops_follow (P : Params) {depth full : Nat} (hf : 1 ≤ full) (hd9 : depth ≤ 9) {t : Octree F} (w : t.Valid depth) (hdep : t.depth = depth)
    (hn : ∀ d, 1 ≤ d → d ≤ depth → NeighExact t.batchSize d t.keys t.neighs) {st : AeState F} (I : AeInv cfg depth full t.batchSize 0 st) (n : Nat)
    (hN : full + n ≤ depth) {s : AeState F} (h : (List.range n).foldlM (aeDecStep P cfg depth full true) st = .ok s)
    (hm : ∀ i < full + n, s.octree.masks i = t.masks i) :
    (List.range n).foldlM (aeDecStep P cfg depth full false) ⟨t, st.deconv, st.logits⟩ = .ok ⟨t, s.deconv, s.logits⟩ := by
  induction n generalizing s with
  | zero =>
    cases h
    rfl
  | succ n ih =>
    obtain ⟨s1, h1, I1⟩ := ae_steps P hf hd9 n (by omega) I
    have h2 := h
    rw [fold_succ _ h1] at h2
    obtain ⟨g1, c, y, x, e, e1, e2, -⟩ := step_masks P hf hd9 (by omega) I1 h2
    have hm1 : ∀ i < full + n, s1.octree.masks i = t.masks i := fun i hi => (g1 i hi).symm.trans (hm i (by omega))
    rw [fold_succ _ (ih (by omega) h1 hm1)]
    unfold aeDecStep
    rw [level_same P hf (by omega) I1 w hdep hn hm1] at e
    rw [e, e1, e2]
    rfl

end Ocnn
