import Verif.TurnedGen

/-! Properties C155 (networks that predict octrees) and C157: generating a turned shape. -/

set_option linter.unusedSimpArgs false

namespace Ocnn
open Spec
variable {F : Type}

namespace Spec

/-- `x` and `x'` are rows of numbers at the nodes of layer `d` of two octrees; the second are the turned first. -/
def TurnedRows {V : Type} (s : Symmetry) (nempty : Bool) (d : Nat) (o o' : Octree F) (x x' : List V) : Prop :=
  ∃ cells ch cells' ch', CellsOf o.batchSize d o.keys cells ∧ o.children d = some ch ∧ CellsOf o'.batchSize d o'.keys cells' ∧ o'.children d = some ch' ∧
    Moved (s.motion d) (queried nempty cells ch) x (queried nempty cells' ch') x'

/-- The signals of two runs at the nodes of the finest layer, and the logits of all layers, belong to two octrees of which one is the turned other. -/
def TurnedOutput (s : Symmetry) (cout depth full : Nat) (o o' : Octree F) (st st' : AeState F) : Prop :=
  (∃ y y' : List (Fin cout → ℚ), st.deconv = ⟨cout, y⟩ ∧ st'.deconv = ⟨cout, y'⟩ ∧ TurnedRows s true depth o o' y y') ∧
  st.logits.length = depth + 1 - full ∧ st'.logits.length = depth + 1 - full ∧
  ∀ d, full ≤ d → d ≤ depth → ∃ l l' : List (Fin 2 → ℚ), st.logits[d - full]? = some ⟨2, l⟩ ∧ st'.logits[d - full]? = some ⟨2, l'⟩ ∧
    TurnedRows s false d o o' l l'

end Spec

section two
variable {P' P : Params} {o o' : Octree F} {s : Symmetry} {D : Nat}

theorem turnedRows_of (p : TurnedPair o o' s D) {nempty : Bool} {d c : Nat} (hd : d ≤ D) {t u : Tensor}
    (h : (turnedSys P o o' s).R ((turnedSys P o o' s).ht nempty d) c t u) :
    ∃ y y' : List (Fin c → ℚ), u = ⟨c, y⟩ ∧ t = ⟨c, y'⟩ ∧ TurnedRows s nempty d o o' y y' := by
  obtain ⟨y', y, rfl, rfl, hM, -⟩ := h
  have W := p.valid.wf'
  have W' := p.valid'.wf'
  refine ⟨y, y', rfl, rfl, _, _, _, _, W.cellsOf d hd, W.children d hd, W'.cellsOf d hd, W'.children d hd, ?_⟩
  rw [queried_qc p.valid d hd nempty _ _ (W.cellsOf d hd) (W.children d hd), queried_qc p.valid' d hd nempty _ _ (W'.cellsOf d hd) (W'.children d hd)]
  exact hM

theorem rel_of_rows (p : TurnedPair o o' s D) {nempty : Bool} {d c : Nat} (hd : d ≤ D) {x x' : List (Fin c → ℚ)} (h : TurnedRows s nempty d o o' x x') :
    (turnedSys P o o' s).R ((turnedSys P o o' s).ht nempty d) c ⟨c, x'⟩ ⟨c, x⟩ := by
  obtain ⟨_, _, _, _, h1, h2, h3, h4, hx⟩ := h
  exact rel_turned p hd h1 h2 h3 h4 hx

theorem notSingle_all (a b : Nat) : NotSingle P o false a b := by
  intro _ h
  cases h

/-- **C155** Decoder on a given octree (`update_octree=False`): for the turned code on the turned octree, with turned kernels, the turned logits of all
layers and the turned signal. -/
theorem C155_decoder (p : TurnedPair o o' s D) (hP : TurnedParams s P' P) (cfg : DecCfg) [cfg.Ok] (cout : Nat) {depth full : Nat} (hf : 1 ≤ full)
    (hfd : full ≤ depth) (hd9 : depth ≤ 9) (hD : depth ≤ D) (x x' : List (Fin cfg.code → ℚ)) (hx : TurnedRows s false full o o' x x') :
    ∃ st st', aeDecoder P cfg cout depth full false ⟨cfg.code, x⟩ o = .ok st ∧ aeDecoder P' cfg cout depth full false ⟨cfg.code, x'⟩ o' = .ok st' ∧
      TurnedOutput s cout depth full o o' st st' := by
  obtain ⟨st', st, h1, h2, -, -, h3, h4, h5, h6⟩ := (p.layers hP).aeDecoder (cfg := cfg) (cout := cout) hf hfd hd9 ⟨Nat.zero_le _, hD⟩
    (fun d a b => turned_ok p.valid hf hD (notSingle_all full depth) d a b) (rel_of_rows p (by omega) hx)
  refine ⟨st, st', h2, h1, ?_, h5, h4, fun d a b => ?_⟩
  · exact turnedRows_of p hD h3
  · obtain ⟨l', l, e1, e2, hr⟩ := h6 (d - full) (by omega)
    rw [show full + (d - full) = d by omega] at hr
    obtain ⟨y, y', rfl, rfl, hy⟩ := turnedRows_of p (by omega) hr
    exact ⟨y, y', e2, e1, hy⟩

/-- **C155** AutoEncoder on a given octree (`update_octree=False`). -/
theorem C155_autoencoder (p : TurnedPair o o' s D) (hP : TurnedParams s P' P) (cin cout : Nat) (hc : WidthOk cin) {depth full : Nat} (hf : 1 ≤ full)
    (hfd : full ≤ depth) (hd9 : depth ≤ 9) (hD : depth ≤ D) (x x' : List (Fin cin → ℚ)) (hx : TurnedRows s false depth o o' x x') :
    ∃ st st', autoEncoder P cin cout depth full o false ⟨cin, x⟩ = .ok st ∧ autoEncoder P' cin cout depth full o' false ⟨cin, x'⟩ = .ok st' ∧
      TurnedOutput s cout depth full o o' st st' := by
  obtain ⟨t, u, h1, h2, hr⟩ := (p.layers hP).aeEncoder hf hfd hd9 ⟨Nat.zero_le _, hD⟩ hc
    (fun d a b => turned_ok p.valid hf hD (notSingle_all full depth) d a b) (rel_of_rows p hD hx)
  obtain ⟨y, y', rfl, rfl, hy⟩ := turnedRows_of p (by omega) hr
  obtain ⟨st, st', g1, g2, g3⟩ := C155_decoder p hP aeCfg cout hf hfd hd9 hD y y' hy
  refine ⟨st, st', ?_, ?_, g3⟩
  · unfold autoEncoder
    rw [h2]
    exact g1
  · unfold autoEncoder
    rw [h1]
    exact g2

theorem mask_of_mem {α : Type} [DecidableEq α] (m : List Bool) (l : List α) (hn : l.Nodup) (h : m.length = l.length) :
    m = l.map fun c => decide (c ∈ maskSel m l) := by
  induction m generalizing l with
  | nil =>
    cases l with
    | nil => rfl
    | cons a l => simp at h
  | cons b m ih =>
    cases l with
    | nil => simp at h
    | cons a l =>
      rw [List.nodup_cons] at hn
      have hsub : a ∉ maskSel m l := fun h => hn.1 ((maskSel_sublist m l).subset h)
      have e := ih l hn.2 (by simpa using h)
      cases b with
      | true =>
        simp only [maskSel, List.map_cons, List.mem_cons, true_or, decide_true, List.cons.injEq, true_and]
        conv_lhs => rw [e]
        refine List.map_congr_left fun c hc => ?_
        have : c ≠ a := fun h => hn.1 (h ▸ hc)
        simp [this]
      | false =>
        simp only [maskSel, List.map_cons, hsub, decide_false, List.cons.injEq, true_and]
        exact e

/-- Right predictions stay right. -/
theorem predicts_turned (P : Params) (p : TurnedPair o o' s D) {cout depth full : Nat} (hD : depth ≤ D) {st st' : AeState F} (h : TurnedOutput s cout depth full o o' st st')
    (H : PredictsOctree o full depth st.logits) : PredictsOctree o' full depth st'.logits := by
  intro d h1 h2
  obtain ⟨l, l', e1, e2, hl⟩ := h.2.2.2 d h1 h2
  obtain ⟨z, ch, g1, g2, g3⟩ := H d h1 h2
  rw [e1] at g1
  simp only [Option.some.injEq, Tensor.mk.injEq, heq_eq_eq, true_and] at g1
  subst g1
  have hd : d ≤ D := by omega
  have W := p.valid.wf'
  have W' := p.valid'.wf'
  refine ⟨l', _, e2, W'.children d hd, ?_⟩
  obtain ⟨f', f, k1, k2, k3⟩ := p.elim_map (rel_of_rows (P := P) p hd hl)
  simp only [Tensor.mk.injEq, heq_eq_eq, true_and] at k1 k2
  subst k1 k2
  have m1 : ch.map (fun c => decide (0 ≤ c)) = o.masks d := by
    unfold Octree.masks
    rw [g2]
    simp
  have m2 : (number 0 (o'.masks d)).map (fun c => decide (0 ≤ c)) = o'.masks d := by
    conv_rhs => unfold Octree.masks
    rw [W'.children d hd]
    simp
  rw [m1, List.map_map] at g3
  rw [m2, List.map_map]
  have q : qc o true d = (qc o false d).filter ((fun v : Fin 2 → ℚ => decide (v 0 < v 1)) ∘ f) := by
    show maskSel (o.masks d) _ = _
    rw [← g3]
    exact maskSel_map_decide _ _
  conv_rhs => rw [mask_of_mem (o'.masks d) (qc o' false d) (qc_nodup p.valid' d hd false) (W'.len d hd)]
  refine List.map_congr_left fun c' hc' => ?_
  obtain ⟨c, hm⟩ := moves_exists_back s (qc_inRange p.valid' d hd false c' hc')
  have hc := (p.back false hd hm).2 hc'
  have e : (c' ∈ maskSel (o'.masks d) (qc o' false d)) ↔ f c 0 < f c 1 := by
    refine (p.back true hd hm).symm.trans ?_
    rw [q, List.mem_filter]
    simp [hc]
  simp only [Function.comp, e, k3 c c' hm]

end two

/-! ### generating shapes -/

theorem same_layers {o t : Octree F} {depth : Nat} (h : SameOctree t o depth) (hb : t.batchSize = o.batchSize) {d : Nat} (hd : d ≤ depth) {cells : List Cell} :
    CellsOf t.batchSize d t.keys cells ↔ CellsOf o.batchSize d o.keys cells := by
  unfold CellsOf
  rw [(h d hd).1, hb]

theorem same_rows {V : Type} {s : Symmetry} {nempty : Bool} {d depth : Nat} {o o' t : Octree F} {x x' : List V} (h : SameOctree t o' depth)
    (hb : t.batchSize = o'.batchSize) (hd : d ≤ depth) (hx : TurnedRows s nempty d o o' x x') : TurnedRows s nempty d o t x x' := by
  obtain ⟨c, ch, c', ch', h1, h2, h3, h4, h5⟩ := hx
  exact ⟨c, ch, c', ch', h1, h2, (same_layers h hb hd).2 h3, (h d hd).2.1.trans h4, h5⟩

theorem full_cells_same {o t : Octree F} {D D' full : Nat} (w : o.Valid D) (w' : t.Valid D') (h : full ≤ o.fullDepth) (h' : full ≤ t.fullDepth) (hb : t.batchSize = o.batchSize) :
    layerCells t.batchSize t.masks full = layerCells o.batchSize o.masks full := by
  rw [hb]
  refine layerCells_congr _ _ _ _ fun i hi => ?_
  rw [masks_full w' i (by omega), masks_full w i (by omega), hb]

/-- **C157** Generating a shape from the turned code with turned kernels gives the turned shape: the turned octree, the turned logits of all layers and the turned signal.
The layers need a node that is predicted to be non-empty; otherwise `octree_split` adds the first node, wherever it is. -/
theorem C157_generation {P' P : Params} {s : Symmetry} (hP : TurnedParams s P' P) (cfg : DecCfg) [cfg.Ok] (cout : Nat) {depth full B dev dev' : Nat} (hf : 1 ≤ full)
    (hfd : full ≤ depth) (hd9 : depth ≤ 9) (hB : 1 ≤ B) (hB' : B ≤ 2 ^ 15) (x x' : List (Fin cfg.code → ℚ)) (hx : x.length = 8 ^ full * B) (st : AeState F)
    (hst : aeDecodeCode P cfg cout depth full dev ⟨cfg.code, x⟩ = .ok st)
    (hpos : ∀ (l : List (Fin 2 → ℚ)), (⟨2, l⟩ : Tensor) ∈ st.logits → ∃ v ∈ l, v 0 < v 1)
    (hx' : TurnedRows s false full st.octree st.octree x x') :
    ∃ st', aeDecodeCode P' cfg cout depth full dev' ⟨cfg.code, x'⟩ = .ok st' ∧ st'.octree.Valid depth ∧ TurnedTree st.octree st'.octree s depth ∧
      TurnedOutput s cout depth full st.octree st'.octree st st' := by
  obtain ⟨st0, y0, h2, w, hdep, hfull, hbatch, hn, hne, -⟩ := ae_decode (F := F) P cfg cout (dev := dev) hf hfd hd9 hB hB' x hx
  rw [hst] at h2
  cases h2
  obtain ⟨t, p, t1, t2, t3⟩ := turned_tree st.octree s w hdep (by omega) fun d _ h => hn d h
  have hsame := C87_fixpoint P cfg cout hf hfd hd9 hB hB' x hx st hst
  -- the code on the turned octree
  have hxt : TurnedRows s false full st.octree t x x' := by
    obtain ⟨c, ch, c', ch', g1, g2, g3, g4, g5⟩ := hx'
    have Wt := p.valid'.wf'
    have e : layerCells t.batchSize t.masks full = layerCells st.octree.batchSize st.octree.masks full :=
      full_cells_same w p.valid' (by omega) (by omega) t3
    refine ⟨c, ch, _, _, g1, g2, Wt.cellsOf full (by omega), Wt.children full (by omega), ?_⟩
    have e' : c' = layerCells st.octree.batchSize st.octree.masks full := cells_unique (by omega) g3 (w.wf'.cellsOf full (by omega))
    simp only [queried, Bool.false_eq_true, if_false] at g5 ⊢
    rw [e, ← e']
    exact g5
  obtain ⟨s1, st', k1, k2, k3⟩ := C155_decoder p hP cfg cout hf hfd hd9 (le_refl _) x x' hxt
  rw [hsame] at k1
  cases k1
  have hpred := predicts_turned P p (le_refl _) k3 (C87_predicts_generated P cfg cout hf hfd hd9 hB hB' x hx st hst hpos)
  have hpos' : ∀ d ≤ depth, 0 < t.nnumNempty d := by
    intro d hd
    have a := qc_length p.valid d hd true
    have b := qc_length p.valid' d hd true
    rw [← (p.cells true hd).1] at b
    have := hne d hd
    simp only [if_true] at a b
    omega
  have hlen : x'.length = t.nnum full := by
    obtain ⟨c, ch, c', ch', g1, g2, g3, g4, g5⟩ := hxt
    rw [← g5.2.1, queried_qc p.valid' full (by omega) false _ _ g3 g4]
    exact qc_length p.valid' full (by omega) false
  obtain ⟨r, r1, r2, r3, r4, r5, r6⟩ := C87_decoder P' cfg cout (dev := dev') hf hd9 p.valid' (t1.trans hdep) (by omega) (by omega) hpos' p.neigh' x' hlen st' k2 hpred
  have hr : r.octree.Valid depth := by
    obtain ⟨r0, -, h2, w', -⟩ := ae_decode (F := F) P' cfg cout (dev := dev') hf hfd hd9 hB hB' x' (by rw [hlen, nnum_full p.valid' full (by omega), t3, hbatch])
    rw [r1] at h2
    cases h2
    exact w'
  refine ⟨r, r1, hr, ⟨by rw [r4]; exact p.turned.size, ?_⟩, ?_, k3.2.1, by rw [r5]; exact k3.2.2.1, ?_⟩
  · intro d hd cells ch cells' ch' h1 h2 h3 h4
    exact p.turned.moved d hd cells ch cells' ch' h1 h2 ((same_layers r2 r4 hd).1 h3) ((r2 d hd).2.1.symm.trans h4)
  · obtain ⟨y, y', e1, e2, e3⟩ := k3.1
    exact ⟨y, y', e1, by rw [r6]; exact e2, same_rows r2 r4 (le_refl _) e3⟩
  · intro d a b
    obtain ⟨l, l', e1, e2, e3⟩ := k3.2.2.2 d a b
    exact ⟨l, l', e1, by rw [r5]; exact e2, same_rows r2 r4 b e3⟩

/-- **C157** AutoEncoder with `update_octree=True`: the shape generated for the turned octree is the turned shape. -/
theorem C157_autoencoder {P' P : Params} {o o' : Octree F} {s : Symmetry} {D : Nat} (p : TurnedPair o o' s D) (hP : TurnedParams s P' P) (cin cout : Nat)
    (hc : WidthOk cin) {depth full : Nat} (hf : 1 ≤ full) (hfd : full ≤ depth) (hd9 : depth ≤ 9) (hD : depth ≤ D) (hfull : full ≤ o.fullDepth)
    (hfull' : full ≤ o'.fullDepth) (hB : 1 ≤ o.batchSize) (x x' : List (Fin cin → ℚ)) (hx : TurnedRows s false depth o o' x x') (st : AeState F)
    (hst : autoEncoder P cin cout depth full o true ⟨cin, x⟩ = .ok st)
    (hpos : ∀ (l : List (Fin 2 → ℚ)), (⟨2, l⟩ : Tensor) ∈ st.logits → ∃ v ∈ l, v 0 < v 1) :
    ∃ st', autoEncoder P' cin cout depth full o' true ⟨cin, x'⟩ = .ok st' ∧ st'.octree.Valid depth ∧ TurnedTree st.octree st'.octree s depth ∧
      TurnedOutput s cout depth full st.octree st'.octree st st' := by
  obtain ⟨t, u, h1, h2, hr⟩ := (p.layers hP).aeEncoder hf hfd hd9 ⟨Nat.zero_le _, hD⟩ hc
    (fun d a b => turned_ok p.valid hf hD (notSingle_all full depth) d a b) (rel_of_rows p hD hx)
  obtain ⟨y, y', rfl, rfl, hy⟩ := turnedRows_of p (by omega) hr
  unfold autoEncoder at hst ⊢
  rw [h2] at hst
  rw [h1]
  have hst : aeDecodeCode P aeCfg cout depth full o.device ⟨64, y⟩ = .ok st := hst
  show ∃ st', aeDecodeCode P' aeCfg cout depth full o'.device ⟨64, y'⟩ = .ok st' ∧ _
  have hle := p.valid.full_le
  have h16 := p.valid.depth_le
  have hh := p.valid.h_le
  obtain ⟨c, ch, c', ch', g1, g2, g3, g4, g5⟩ := hy
  have hlen : y.length = 8 ^ full * o.batchSize := by
    rw [← nnum_full p.valid full hfull, ← g5.1, queried_qc p.valid full (by omega) false _ _ g1 g2]
    exact qc_length p.valid full (by omega) false
  refine C157_generation hP aeCfg cout hf hfd hd9 hB p.valid.batch_le y y' hlen st hst hpos ?_
  obtain ⟨st0, y0, e, w, hdep, hfl, hbatch, -⟩ := ae_decode (F := F) P aeCfg cout (dev := o.device) hf hfd hd9 hB p.valid.batch_le y hlen
  rw [hst] at e
  cases e
  have a1 := full_cells_same p.valid w hfull (by omega) hbatch
  have a2 := full_cells_same p.valid' w hfull' (by omega) (hbatch.trans p.turned.size.symm)
  refine ⟨_, _, _, _, w.wf'.cellsOf full hfd, w.wf'.children full hfd, w.wf'.cellsOf full hfd, w.wf'.children full hfd, ?_⟩
  rw [queried_qc p.valid full (by omega) false _ _ g1 g2, queried_qc p.valid' full (by omega) false _ _ g3 g4] at g5
  rw [queried_qc w full hfd false _ _ (w.wf'.cellsOf full hfd) (w.wf'.children full hfd)]
  have b1 : qc st.octree false full = qc o false full := a1
  have b2 : qc st.octree false full = qc o' false full := a2
  conv => arg 2; rw [b1]
  conv => arg 4; rw [b2]
  exact g5

/-! ### a concrete case -/

theorem rows_exist {o o' : Octree F} {s : Symmetry} {D : Nat} (p : TurnedPair o o' s D) {nempty : Bool} {d c : Nat} (hd : d ≤ D) (x : List (Fin c → ℚ))
    (hx : x.length = (qc o nempty d).length) : ∃ x', TurnedRows s nempty d o o' x x' := by
  classical
  have W := p.valid.wf'
  have W' := p.valid'.wf'
  let g : Cell → Fin c → ℚ := rowAt (qc o nempty d) x 0
  let g' : Cell → Fin c → ℚ := fun c' => if h : ∃ c, (s.motion d).Moves c c' then g h.choose else 0
  have e : x = (qc o nempty d).map g := (rowAt_map (qc_nodup p.valid d hd nempty) hx.symm 0).symm
  refine ⟨(qc o' nempty d).map g', _, _, _, _, W.cellsOf d hd, W.children d hd, W'.cellsOf d hd, W'.children d hd, ?_⟩
  rw [queried_qc p.valid d hd nempty _ _ (W.cellsOf d hd) (W.children d hd), queried_qc p.valid' d hd nempty _ _ (W'.cellsOf d hd) (W'.children d hd)]
  conv => arg 3; rw [e]
  refine cellsMoved_map (p.cells nempty hd) _ _ fun q _ q' _ hm => ?_
  have h : ∃ c, (s.motion d).Moves c q' := ⟨q, hm⟩
  simp only [g', dif_pos h]
  rw [Moves.inj (motion_legal s d) hm h.choose_spec]

/-- A network with weights zero that always predicts children. -/
def splitting : Params := ⟨fun _ _ _ _ => 0, fun _ j => j, fun _ _ => 1, fun _ _ => 0, fun _ _ => 0, fun _ _ => 1, false, fun _ _ _ => 1, id, id⟩

theorem splitting_pos {cout depth full B dev : Nat} (hf : 1 ≤ full) (hfd : full ≤ depth) (hd9 : depth ≤ 9) (hB : 1 ≤ B) (hB' : B ≤ 2 ^ 15)
    (x : List (Fin 64 → ℚ)) (hx : x.length = 8 ^ full * B) (st : AeState F) (hst : aeDecodeCode splitting aeCfg cout depth full dev ⟨64, x⟩ = .ok st)
    (l : List (Fin 2 → ℚ)) (hl : (⟨2, l⟩ : Tensor) ∈ st.logits) : ∃ v ∈ l, v 0 < v 1 := by
  obtain ⟨st0, y, h1, h2, h3, h4, h5, h6, h7, h8, h9, h10, h11⟩ := ae_decode (F := F) splitting aeCfg cout (dev := dev) hf hfd hd9 hB hB' x hx
  rw [hst] at h1
  cases h1
  have hb : ∀ t ∈ st.logits, ∀ v ∈ t.rows, ∀ i, v i = ((i.val : Nat) : ℚ) := by
    have h := hst
    unfold aeDecodeCode at h
    obtain ⟨o0, -, h⟩ := bind_ok h
    unfold aeDecoder at h
    obtain ⟨s2, hs, h⟩ := bind_ok h
    obtain ⟨c, -, h⟩ := bind_ok h
    obtain ⟨sig, -, h⟩ := bind_ok h
    obtain ⟨sig', -, h⟩ := bind_ok h
    cases h
    have := logits_bias splitting aeCfg (fun _ _ _ _ _ => rfl) (fun j => (j : ℚ)) (fun _ _ => rfl) depth full true _ hs (by intro t ht; cases ht)
    exact this
  obtain ⟨j, hj, e⟩ := List.mem_iff_getElem.1 hl
  obtain ⟨z, hz1, hz2⟩ := h11 j (by omega)
  rw [List.getElem?_eq_getElem hj, e] at hz1
  cases hz1
  have hpos : 0 < st.octree.nnum (full + j) := by
    have := h7 (full + j) (by omega)
    rw [h2.wf'.nnumNempty _ (by omega)] at this
    rw [wf_nnum h2.wf' _ (by omega)]
    exact lt_of_lt_of_le this List.count_le_length
  obtain ⟨v, l', rfl⟩ : ∃ v l', l = v :: l' := by
    cases l with
    | nil => simp at hz2; omega
    | cons v l' => exact ⟨v, l', rfl⟩
  refine ⟨v, by simp, ?_⟩
  have := hb _ hl v (by simp)
  rw [this 0, this 1]
  norm_num

/-- The hypotheses of C155 and C157 are met by an octree of depth 5 with two samples and features that differ at all nodes, its octree turned by any symmetry, and a network
that predicts children everywhere. -/
example (s : Symmetry) : ∃ (P' : Params) (o o' : Octree ℚ) (x x' : List (Fin 4 → ℚ)) (st : AeState ℚ), TurnedParams s P' splitting ∧ TurnedPair o o' s 5 ∧ o.batchSize = 2 ∧
    x.Nodup ∧ x ≠ [] ∧ TurnedRows s false 5 o o' x x' ∧
    autoEncoder splitting 4 4 5 2 o true ⟨4, x⟩ = .ok st ∧ (∀ (l : List (Fin 2 → ℚ)), (⟨2, l⟩ : Tensor) ∈ st.logits → ∃ v ∈ l, v 0 < v 1) ∧
    2 ≤ o.fullDepth ∧ 2 ≤ o'.fullDepth ∧ WidthOk 4 := by
  obtain ⟨o, w, hdep, hfull, hB, hn, hpos⟩ := example_deep 5 (by decide) (by decide) 2 (by decide) (by decide)
  obtain ⟨o', p, t1, t2, t3⟩ := turned_tree o s w hdep (by omega) fun d _ h => hn d h
  obtain ⟨P', hP⟩ := turned_exists s splitting
  let x : List (Fin 4 → ℚ) := (List.range (qc o false 5).length).map fun (i : Nat) (_ : Fin 4) => ((i : Nat) : ℚ)
  obtain ⟨x', hx'⟩ := rows_exist p (nempty := false) (d := 5) (le_refl _) x (by simp [x])
  have hxl : x.length = o.nnum 5 := by
    simp only [x, List.length_map, List.length_range]
    exact qc_length w 5 (le_refl _) false
  have L := layers_single splitting w (le_refl _) fun d _ h => hn d h
  have hbn : ∀ d, 2 ≤ d → d ≤ 5 → BnOk splitting (ht [o] false d) := fun d h1 h2 => bnOk_of w d (by omega) (by omega)
  obtain ⟨a, b, h1, -, hr⟩ := L.aeEncoder (depth := 5) (full := 2) (by decide) (by decide) (by decide) ⟨Nat.zero_le _, le_refl _⟩ (by decide) hbn (rel_self x (by simpa [rowsAt] using hxl))
  obtain ⟨y, hy, rfl, rfl⟩ := rel_single hr
  have hyl : y.length = 8 ^ 2 * 2 := by
    have : y.length = o.nnum 2 := by simpa [rowsAt] using hy
    rw [this, nnum_full w 2 (by omega), hB]
  obtain ⟨st, -, h2, -⟩ := ae_decode (F := ℚ) splitting aeCfg 4 (dev := o.device) (depth := 5) (full := 2) (B := 2) (by decide) (by decide) (by decide) (by decide) (by decide) y hyl
  refine ⟨P', o, o', x, x', st, hP, p, hB, ?_, ?_, hx', ?_, splitting_pos (by decide) (by decide) (by decide) (by decide) (by decide) y hyl st h2, by omega, by omega, by unfold WidthOk; decide⟩
  · refine List.Nodup.map (fun i j e => ?_) List.nodup_range
    have := congrFun e 0
    simpa using this
  · intro e
    have h5 := hpos 5 (le_refl _)
    rw [w.wf'.nnumNempty _ (by omega)] at h5
    have h6 := wf_nnum w.wf' 5 (by omega)
    have h7 := List.count_le_length (a := true) (l := o.masks 5)
    rw [e, List.length_nil] at hxl
    omega
  · unfold autoEncoder
    rw [h1]
    exact h2

end Ocnn
