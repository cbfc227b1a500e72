import Verif.CubeSym
import Verif.PointOrder
import Verif.SampleOrder
import Mathlib.Algebra.BigOperators.Finprod

/-! The argument about networks for an octree and the same octree turned by a symmetry of the cube, with turned kernels. -/

set_option linter.unusedSimpArgs false

namespace Ocnn
open Spec
variable {F : Type}

/-- The non-empty nodes of `o'` of all levels up to `D` are those of `o`, turned. -/
structure Spec.TurnedTree (o o' : Octree F) (s : Symmetry) (D : Nat) : Prop where
  size : o'.batchSize = o.batchSize
  moved : ∀ d ≤ D, ∀ cells ch cells' ch', CellsOf o.batchSize d o.keys cells → o.children d = some ch →
    CellsOf o'.batchSize d o'.keys cells' → o'.children d = some ch' →
    CellsMoved (s.motion d) (nonEmpty cells ch) (nonEmpty cells' ch')

/-- Two octrees that are usable up to depth `D`, one the turned other. -/
structure TurnedPair (o o' : Octree F) (s : Symmetry) (D : Nat) : Prop where
  valid : o.Valid D
  valid' : o'.Valid D
  neigh : ∀ d, 1 ≤ d → d ≤ D → NeighExact o.batchSize d o.keys o.neighs
  neigh' : ∀ d, 1 ≤ d → d ≤ D → NeighExact o'.batchSize d o'.keys o'.neighs
  turned : TurnedTree o o' s D

/-- The tensors of the run on `o` (second argument of `R`) and of the run on the turned octree (first argument); in training mode the tensors that
are normalised must not have a single row.  Nothing is said about the indices of max-pooling. -/
def turnedSys (P : Params) (o o' : Octree F) (s : Symmetry) : Sys where
  Idx := List Cell × List Cell × Motion
  ht nempty d := (qc o nempty d, qc o' nempty d, s.motion d)
  hb := (sampleCells o.batchSize, sampleCells o.batchSize, reorder id)
  R r c x y := ∃ u v, x = ⟨c, u⟩ ∧ y = ⟨c, v⟩ ∧ Moved r.2.2 r.1 v r.2.1 u ∧ r.1.Nodup ∧ r.2.1.Nodup ∧ r.2.2.Legal
  ok r := P.training = true → r.1.length ≠ 1
  lo _ := 0
  vox := False
  I _ _ _ _ := True
  unp := False
  map := by
    rintro r c c' x y g ⟨u, v, rfl, rfl, h, hn⟩
    exact ⟨u, v, rfl, rfl, _, _, rfl, rfl, h.map g, hn⟩
  zip := by
    rintro r a b c x y x' y' g ⟨u, v, rfl, rfl, h, hn, hn', hm⟩ ⟨u', v', rfl, rfl, h', -⟩
    refine ⟨u, v, u', v', rfl, rfl, rfl, rfl, ?_, ?_, _, _, rfl, rfl, h.zipWith hn' h' g, hn, hn', hm⟩
    · rw [← h.2.1, ← h'.2.1]
    · rw [← h.1, ← h'.1]

/-- The greatest values do not depend on the order of the rows. -/
theorem maxRows_perm {c : Nat} {g g' : List (Fin c → WithBot ℚ)} (h : g.length = 8) (hp : g.Perm g') : (maxRows g).1 = (maxRows g').1 := by
  funext k
  obtain ⟨-, ⟨v, h1, h2⟩, h3, -⟩ := maxRows_spec g h k
  obtain ⟨-, ⟨v', h1', h2'⟩, h3', -⟩ := maxRows_spec g' (hp.length_eq ▸ h) k
  refine le_antisymm ?_ ?_
  · rw [← h2]
    exact h3' v (hp.mem_iff.1 (List.mem_of_getElem? h1))
  · rw [← h2']
    exact h3 v' (hp.mem_iff.2 (List.mem_of_getElem? h1'))

namespace TurnedPair
variable {o o' : Octree F} {s : Symmetry} {D : Nat} {Q P' P : Params}

theorem nonEmpty_moved (p : TurnedPair o o' s D) {d : Nat} (h2 : d ≤ D) : CellsMoved (s.motion d) (qc o true d) (qc o' true d) := by
  have W := p.valid.wf'
  have W' := p.valid'.wf'
  have := p.turned.moved d h2 _ _ _ _ (W.cellsOf d h2) (W.children d h2) (W'.cellsOf d h2) (W'.children d h2)
  rw [nonEmpty_eq _ _ _ (W.len d h2), nonEmpty_eq _ _ _ (W'.len d h2)] at this
  exact this

theorem cells (p : TurnedPair o o' s D) {d : Nat} (nempty : Bool) (h2 : d ≤ D) : CellsMoved (s.motion d) (qc o nempty d) (qc o' nempty d) := by
  cases nempty with
  | true => exact p.nonEmpty_moved h2
  | false =>
    cases d with
    | zero =>
      have e : ∀ o : Octree F, qc o false 0 = sampleCells o.batchSize := fun o => rfl
      rw [e, e, p.turned.size]
      refine ⟨rfl, fun c hc => ?_⟩
      obtain ⟨b, hb, rfl⟩ := List.mem_map.1 hc
      refine ⟨_, hc, motion_iff.2 ⟨rfl, fun i => ?_⟩⟩
      have z : ∀ i, coord (pos ⟨b, 0, 0, 0⟩) i = 0 := by intro i; fin_cases i <;> rfl
      simp [z]
    | succ d =>
      obtain ⟨a, b⟩ := p.nonEmpty_moved (show d ≤ D by omega)
      rw [qc_succ, qc_succ]
      refine ⟨by rw [expand_length, expand_length, a], fun c hc => ?_⟩
      obtain ⟨q, hq, j, hj, rfl⟩ := (mem_expand _ _ _ _).1 hc
      obtain ⟨q', hq', hmv⟩ := b q hq
      exact ⟨q'.child (s.octant j), (mem_expand _ _ _ _).2 ⟨q', hq', _, octant_lt s j, rfl⟩, turn_child hmv j⟩

theorem back (p : TurnedPair o o' s D) {d : Nat} (nempty : Bool) (h2 : d ≤ D) {c c' : Cell} (hm : (s.motion d).Moves c c') :
    c ∈ qc o nempty d ↔ c' ∈ qc o' nempty d := by
  have h := p.cells nempty h2
  constructor
  · intro hc
    obtain ⟨c'', a, b⟩ := h.2 c hc
    rwa [Moves.unique b hm] at a
  · intro hc
    have hM : Moved (s.motion d) (qc o nempty d) ((qc o nempty d).map fun _ => ()) (qc o' nempty d) ((qc o' nempty d).map fun _ => ()) :=
      cellsMoved_map h _ _ fun _ _ _ _ _ => rfl
    obtain ⟨c₁, a, b⟩ := hM.back (motion_legal s d) (qc_nodup p.valid d h2 nempty) (qc_nodup p.valid' d h2 nempty) c' hc
    rwa [Moves.inj (motion_legal s d) b hm] at a

/-- Functions of the cells give related tensors. -/
theorem mk_map (p : TurnedPair o o' s D) {d c : Nat} {nempty : Bool} (h : d ≤ D)
    (g g' : Cell → Fin c → ℚ) (hg : ∀ q ∈ qc o nempty d, ∀ q' ∈ qc o' nempty d, (s.motion d).Moves q q' → g q = g' q') :
    (turnedSys Q o o' s).R ((turnedSys Q o o' s).ht nempty d) c ⟨c, (qc o' nempty d).map g'⟩ ⟨c, (qc o nempty d).map g⟩ :=
  ⟨_, _, rfl, rfl, cellsMoved_map (p.cells nempty h) g g' hg, qc_nodup p.valid d h nempty, qc_nodup p.valid' d h nempty, motion_legal s d⟩

/-- related tensors as functions of the cells -/
theorem elim_map (_p : TurnedPair o o' s D) {d c : Nat} {nempty : Bool} {x y : Tensor}
    (h : (turnedSys Q o o' s).R ((turnedSys Q o o' s).ht nempty d) c x y) :
    ∃ g' g : Cell → Fin c → ℚ, x = ⟨c, (qc o' nempty d).map g'⟩ ∧ y = ⟨c, (qc o nempty d).map g⟩ ∧
      ∀ q q', (s.motion d).Moves q q' → g q = g' q' := by
  obtain ⟨u, v, rfl, rfl, hM, hn, hn', hm⟩ := h
  have hM : Moved (s.motion d) (qc o nempty d) v (qc o' nempty d) u := hM
  refine ⟨rowAt (qc o' nempty d) u 0, rowAt (qc o nempty d) v 0, ?_, ?_, fun q q' hq => hM.rowAt hm hn hn' 0 hq⟩
  · have := rowAt_map (A := qc o' nempty d) hn' hM.2.1 0
    rw [this]
  · have := rowAt_map (A := qc o nempty d) hn hM.1 0
    rw [this]

/-- The values at a cell and at the turned cell agree. -/
theorem fieldAt_eq {d c : Nat} {A A' : List Cell} {u v : List (Fin c → ℚ)} {f f' : Nat → Int → Int → Int → Fin c → ℚ}
    (hM : Moved (s.motion d) A v A' u) (hn : A.Nodup) (hn' : A'.Nodup) (hf : IsField A v f) (hf' : IsField A' u f') {q q' : Cell}
    (hq : (s.motion d).Moves q q') : fieldAt f' q' = fieldAt f q := by
  have := hM.field (motion_legal s d) hn hn' hf hf' q.b (pos q) (pos q') hq.2
  unfold fieldAt
  rw [hq.1]
  exact this

theorem conv3 (p : TurnedPair o o' s D) (hP : TurnedParams s P' P) (name : String) {ci : Nat} (co : Nat) {nempty : Bool} {d : Nat} (h1 : 1 ≤ d)
    (hD : d ≤ D) (hc : 27 * ci ≤ maxBuffer) {x y : Tensor} (h : (turnedSys Q o o' s).R ((turnedSys Q o o' s).ht nempty d) ci x y) :
    Both ((turnedSys Q o o' s).R ((turnedSys Q o o' s).ht nempty d) co) (octreeConv P' name ci co [3] 1 nempty o' d x)
      (octreeConv P name ci co [3] 1 nempty o d y) := by
  obtain ⟨u, v, rfl, rfl, hM, hn, hn', hm⟩ := h
  obtain ⟨f, hf⟩ := exists_field _ v hM.1 hn
  obtain ⟨f', hf'⟩ := exists_field _ u hM.2.1 hn'
  rw [conv3_eq P name co p.valid hD (p.neigh d h1 hD) hc hf, conv3_eq P' name co p.valid' hD (p.neigh' d h1 hD) hc hf']
  refine Both.pure (p.mk_map hD _ _ fun q _ q' _ hq => ?_)
  rw [hM.convAt hm hn hn' hf hf' _ _ _ (turned3 hP name ci co d) hq]

theorem conv2 (p : TurnedPair o o' s D) (hP : TurnedParams s P' P) (name : String) {ci : Nat} (co : Nat) {nempty : Bool} {d : Nat}
    (hD : d + 1 ≤ D) (hc : 8 * ci ≤ maxBuffer) {x y : Tensor} (h : (turnedSys Q o o' s).R ((turnedSys Q o o' s).ht nempty (d + 1)) ci x y) :
    Both ((turnedSys Q o o' s).R ((turnedSys Q o o' s).ht nempty d) co) (octreeConv P' name ci co [2] 2 nempty o' (d + 1) x)
      (octreeConv P name ci co [2] 2 nempty o (d + 1) y) := by
  obtain ⟨u, v, rfl, rfl, hM, hn, hn', hm⟩ := h
  obtain ⟨f, hf⟩ := exists_field _ v hM.1 hn
  obtain ⟨f', hf'⟩ := exists_field _ u hM.2.1 hn'
  rw [conv2_eq P name co p.valid hD (p.neigh _ (by omega) hD) hc hf, conv2_eq P' name co p.valid' hD (p.neigh' _ (by omega) hD) hc hf']
  refine Both.pure (p.mk_map (by omega) _ _ fun q _ q' _ hq => ?_)
  simp only [p.back true (show d ≤ D by omega) hq]
  rw [convAt2, convAt2]
  conv_rhs => rw [← ((octant_perm s).map _).sum_eq, List.map_map]
  congr 3
  refine List.map_congr_left fun j hj => ?_
  simp only [Function.comp]
  rw [fieldAt_eq hM hn hn' hf hf' (turn_child hq j)]
  congr 1
  funext i k
  exact (hP.kernel2 name j (List.mem_range.1 hj) i k).symm

theorem deconv2 (p : TurnedPair o o' s D) (hP : TurnedParams s P' P) (name : String) (ci : Nat) {co : Nat} {nempty : Bool} {d : Nat}
    (hD : d + 1 ≤ D) (hc : 8 * co ≤ maxBuffer) {x y : Tensor} (h : (turnedSys Q o o' s).R ((turnedSys Q o o' s).ht nempty d) ci x y) :
    Both ((turnedSys Q o o' s).R ((turnedSys Q o o' s).ht nempty (d + 1)) co) (octreeDeconv P' name ci co [2] 2 nempty o' d x)
      (octreeDeconv P name ci co [2] 2 nempty o d y) := by
  obtain ⟨g', g, rfl, rfl, hg⟩ := p.elim_map h
  rw [deconv2_eq P name ci p.valid hD (p.neigh _ (by omega) hD) hc, deconv2_eq P' name ci p.valid' hD (p.neigh' _ (by omega) hD) hc]
  refine Both.pure (p.mk_map hD _ _ fun q _ q' _ hq => ?_)
  have hM : Moved (s.motion d) (qc o true d) ((qc o true d).map g) (qc o' true d) ((qc o' true d).map g') :=
    cellsMoved_map (p.nonEmpty_moved (by omega)) _ _ fun a _ b _ hab => hg a b hab
  obtain ⟨m, hm1, hm2⟩ := hM.perm (motion_legal s d) (qc_nodup p.valid d (by omega) true) (qc_nodup p.valid' d (by omega) true)
  congr 1
  rw [deconvAt2, deconvAt2, ← (hm2.map _).sum_eq, List.map_map]
  congr 1
  refine List.map_congr_left fun r hr => ?_
  simp only [Function.comp]
  conv_rhs => rw [← ((octant_perm s).map _).sum_eq, List.map_map]
  congr 1
  refine List.map_congr_left fun j hj => ?_
  simp only [Function.comp]
  refine if_congr (turn_child_iff (hm1 r.1 (List.of_mem_zip hr).1) hq j) ?_ rfl
  congr 1
  funext i k
  exact (hP.kernel2 name j (List.mem_range.1 hj) i k).symm

theorem maxPoolIdx (p : TurnedPair o o' s D) {c : Nat} {nempty : Bool} {d : Nat}
    (hD : d + 1 ≤ D) {x y : Tensor} (h : (turnedSys Q o o' s).R ((turnedSys Q o o' s).ht nempty (d + 1)) c x y) :
    Both (fun a b => (turnedSys Q o o' s).R ((turnedSys Q o o' s).ht nempty d) c a.1 b.1 ∧ (turnedSys Q o o' s).I d c a.2 b.2)
      (maxPoolIdx nempty o' (d + 1) x) (maxPoolIdx nempty o (d + 1) y) := by
  obtain ⟨u, v, rfl, rfl, hM, hn, hn', hm⟩ := h
  have hM : Moved (s.motion (d + 1)) (qc o nempty (d + 1)) v (qc o' nempty (d + 1)) u := hM
  have hb : ∀ q q', (s.motion d).Moves q q' →
      (maxRows (below (qc o nempty (d + 1)) v q)).1 = (maxRows (below (qc o' nempty (d + 1)) u q')).1 := by
    intro q q' hq
    refine maxRows_perm (by simp [below]) ?_
    unfold below
    refine List.Perm.trans ?_ ((octant_perm s).map _)
    refine List.Perm.of_eq ?_
    rw [List.map_map]
    refine List.map_congr_left fun j _ => ?_
    exact (hM.map _).rowAt hm hn hn' _ (turn_child hq j)
  rw [maxPoolIdx_eq p.valid hD v hM.1.symm, maxPoolIdx_eq p.valid' hD u hM.2.1.symm]
  refine Both.pure ⟨p.mk_map (by omega) _ _ fun q _ q' _ hq => ?_, trivial⟩
  simp only [p.back true (show d ≤ D by omega) hq, hb q q' hq]

theorem upsampleT (p : TurnedPair o o' s D) {c : Nat} {nempty : Bool} {d : Nat} (hD : d + 1 ≤ D) {x y : Tensor}
    (h : (turnedSys Q o o' s).R ((turnedSys Q o o' s).ht nempty d) c x y) :
    Both ((turnedSys Q o o' s).R ((turnedSys Q o o' s).ht nempty (d + 1)) c) (upsample nempty o' d x) (upsample nempty o d y) := by
  obtain ⟨u, v, rfl, rfl, hM, hn, hn', hm⟩ := h
  obtain ⟨f, hf⟩ := exists_field _ v hM.1 hn
  obtain ⟨f', hf'⟩ := exists_field _ u hM.2.1 hn'
  rw [upsample_eq p.valid hD hf, upsample_eq p.valid' hD hf']
  refine Both.pure (p.mk_map hD _ _ fun q _ q' _ hq => ?_)
  exact (fieldAt_eq hM hn hn' hf hf' (turn_parent hq).1).symm

theorem depadT (p : TurnedPair o o' s D) {c : Nat} {d : Nat} (hD : d ≤ D) {x y : Tensor}
    (h : (turnedSys Q o o' s).R ((turnedSys Q o o' s).ht false d) c x y) :
    Both ((turnedSys Q o o' s).R ((turnedSys Q o o' s).ht true d) c) (depad o' d x) (depad o d y) := by
  obtain ⟨g', g, rfl, rfl, hg⟩ := p.elim_map h
  unfold depad
  dsimp only
  rw [depad_map p.valid hD, depad_map p.valid' hD]
  exact Both.pure (p.mk_map (nempty := true) hD _ _ fun q _ q' _ hq => hg q q' hq)

theorem globalPool (p : TurnedPair o o' s D) {c : Nat} {nempty : Bool} {d : Nat} (hD : d ≤ D) {x y : Tensor}
    (h : (turnedSys Q o o' s).R ((turnedSys Q o o' s).ht nempty d) c x y) :
    Both ((turnedSys Q o o' s).R (turnedSys Q o o' s).hb c) (globalPool nempty o' d x) (globalPool nempty o d y) := by
  obtain ⟨u, v, rfl, rfl, hM, hn, hn', hm⟩ := h
  have hM : Moved (s.motion d) (qc o nempty d) v (qc o' nempty d) u := hM
  rw [globalPool_eq p.valid hD hM.1.symm, globalPool_eq p.valid' hD hM.2.1.symm, p.turned.size]
  obtain ⟨m, hm1, hm2⟩ := hM.perm hm hn hn'
  have hr : ∀ b, (rowsOf (qc o nempty d) v b).Perm (rowsOf (qc o' nempty d) u b) := by
    intro b
    unfold rowsOf
    refine List.Perm.trans ?_ ((hm2.filter _).map _)
    rw [List.filter_map, List.map_map]
    refine List.Perm.of_eq ?_
    have : ((qc o nempty d).zip v).filter (fun q => decide (q.1.b = b))
        = ((qc o nempty d).zip v).filter ((fun q : Cell × (Fin c → ℚ) => decide (q.1.b = b)) ∘ fun q => (m q.1, q.2)) := by
      refine List.filter_congr fun q hq => ?_
      have hb := (hm1 q.1 (List.of_mem_zip hq).1).1
      have hb : (m q.1).b = q.1.b := hb
      simp only [Function.comp, hb]
    rw [this]
    rfl
  have hR : ∀ (B : Nat) (G : Nat → Fin c → ℚ), (List.range B).map G = (sampleCells B).map fun q => G q.b := by
    intro B G
    unfold sampleCells
    rw [List.map_map]
    rfl
  rw [hR, hR]
  have hs : CellsMoved (reorder id) (sampleCells o.batchSize) (sampleCells o.batchSize) :=
    ⟨rfl, fun c hc => ⟨c, hc, rfl, by simp [reorder]⟩⟩
  refine Both.pure ⟨_, _, rfl, rfl, cellsMoved_map hs _ _ fun q _ q' _ hq => ?_, sampleCells_nodup _, sampleCells_nodup _,
    reorder_legal id Function.injective_id⟩
  funext i
  have hb : q'.b = q.b := hq.1
  have hp := hr q.b
  rw [hb]
  have e1 : rowsOf (qc o nempty d) v q.b = [] ↔ rowsOf (qc o' nempty d) u q.b = [] :=
    ⟨fun h => by rw [h] at hp; exact hp.nil_eq.symm, fun h => by rw [h] at hp; exact hp.eq_nil⟩
  simp only [e1, hp.length_eq, (hp.map fun v => v i).sum_eq]

/-- Rows in the same order are equal. -/
theorem rows_eq {n : Nat} {V : Type} {u v : List V} (h : Moved (reorder id) (sampleCells n) v (sampleCells n) u) : u = v := by
  obtain ⟨h1, h2, -, h4⟩ := h
  apply List.ext_getElem?
  intro i
  by_cases hi : i < v.length
  · have hi' : i < (sampleCells n).length := by omega
    obtain ⟨j, c', a, b, c⟩ := h4 i _ v[i] (List.getElem?_eq_getElem hi') (List.getElem?_eq_getElem hi)
    have hb : c'.b = (sampleCells n)[i].b := b.1
    have hj : j < (sampleCells n).length := (List.getElem?_eq_some_iff.1 a).1
    rw [List.getElem?_eq_getElem hj, Option.some_inj] at a
    have : j = i := by
      rw [← a] at hb
      simpa [sampleCells] using hb
    rw [← this, c, this, List.getElem?_eq_getElem hi]
  · rw [List.getElem?_eq_none (by omega), List.getElem?_eq_none (by omega)]

theorem layers (p : TurnedPair o o' s D) (hP : TurnedParams s P' P) : Layers P' P (turnedSys P o o' s) o' o D where
  conv3 := fun name {_} co {_ _} h1 hD hc {_ _} h => p.conv3 hP name co h1 hD.2 hc h
  conv2 := fun name {_} co {_ _} hD hc {_ _} h => p.conv2 hP name co hD.2 hc h
  deconv2 := fun name ci {_ _ _} hD hc {_ _} h => p.deconv2 hP name ci hD.2 hc h
  maxPoolIdx := fun {_ _ _} hD {_ _} h => p.maxPoolIdx hD.2 h
  globalPool := fun {_ _ _} hD {_ _} h => p.globalPool hD.2 h
  upsampleT := fun {_ _ _} hD {_ _} h => p.upsampleT hD.2 h
  depadT := fun {_ _} hD {_ _} h => p.depadT hD.2 h
  unpoolT := fun h => h.elim
  voxelFlat := fun h => h.elim
  bn := by
    intro name c r hok x y h
    have e : ∀ t, batchNorm P' name c t = batchNorm P name c t := by
      intro t
      have := hP.others
      conv_rhs => rw [← this]
      rfl
    rw [e]
    obtain ⟨u, v, rfl, rfl, hM, hn, hn', hm⟩ := h
    have hp := hM.rows_perm hm hn hn'
    unfold batchNorm
    rw [Tensor.on_self, Tensor.on_self]
    by_cases hT : P.training = true
    · have h1 : ¬ v.length = 1 := by rw [← hM.1]; exact hok hT
      have h2 : ¬ u.length = 1 := by rw [← hp.length_eq]; exact h1
      rw [if_pos hT, if_pos hT, if_neg h1, if_neg h2]
      refine Both.pure ⟨_, _, rfl, rfl, ?_, hn, hn', hm⟩
      simp only [colMean_perm hp, colVar_perm hp]
      exact hM.map _
    · rw [if_neg hT, if_neg hT]
      exact Both.pure ⟨_, _, rfl, rfl, hM.map _, hn, hn', hm⟩
  drop := by
    intro name c t t' _ h
    have e : ∀ t, dropout P' name t = dropout P name t := by
      intro t
      have := hP.others
      conv_rhs => rw [← this]
      rfl
    rw [e]
    obtain ⟨u, v, rfl, rfl, hM, hn, hn', hm⟩ := h
    have hM : Moved (reorder id) (sampleCells o.batchSize) v (sampleCells o.batchSize) u := hM
    obtain rfl := rows_eq hM
    have key : ∀ x : List (Fin c → ℚ), x.length = (sampleCells o.batchSize).length →
        (turnedSys P o o' s).R (turnedSys P o o' s).hb c ⟨c, x⟩ ⟨c, x⟩ := by
      intro x hx
      refine ⟨_, _, rfl, rfl, ⟨hx.symm, hx.symm, rfl, ?_⟩, hn, hn', hm⟩
      intro i q v hi hv
      exact ⟨i, q, hi, ⟨rfl, by simp [turnedSys, reorder]⟩, hv⟩
    unfold dropout
    by_cases hT : P.training = true
    · rw [if_pos hT]
      exact key _ (by simpa using hM.1.symm)
    · rw [if_neg hT]
      exact key _ hM.1.symm
  weight := hP.linear
  bias := by rw [← hP.others]
  tanh := by rw [← hP.others]

end TurnedPair

end Ocnn
