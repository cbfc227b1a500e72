import Verif.PropsTranslate
import Verif.PointOrder
import Verif.PropsVoxel

/-! The order of the samples in a batch: the relational argument of `NetSys` for two batches with the same samples in another order, in training mode
too. -/

set_option linter.unusedSimpArgs false

namespace Ocnn
open Spec
variable {F : Type}

namespace Spec

/-- The second list has the same members in another order: member `b` of the first is member `σ b` of the second. -/
structure Shuffled {α : Type} (σ : Nat → Nat) (l l' : List α) : Prop where
  injective : Function.Injective σ
  length : l'.length = l.length
  range : ∀ b < l.length, σ b < l.length
  same : ∀ b < l.length, l'[σ b]? = l[b]?

/-- The same network with other numbers drawn by dropout. -/
def withDrop (P : Params) (d : (name : String) → Nat → Nat → ℚ) : Params := { P with drop := d }

end Spec

theorem Spec.Shuffled.map {α β : Type} {σ : Nat → Nat} {l l' : List α} (h : Shuffled σ l l') (g : α → β) : Shuffled σ (l.map g) (l'.map g) := by
  refine ⟨h.injective, by simpa using h.length, by simpa using h.range, fun b hb => ?_⟩
  rw [List.length_map] at hb
  rw [List.getElem?_map, List.getElem?_map, h.same b hb]

theorem range_shuffled {σ : Nat → Nat} (hσ : Function.Injective σ) {n : Nat} (h : ∀ b < n, σ b < n) : ((List.range n).map σ).Perm (List.range n) := by
  have hn : ((List.range n).map σ).Nodup := List.nodup_range.map hσ
  refine (List.subperm_of_subset hn ?_).perm_of_length_le (by simp)
  intro v hv
  obtain ⟨b, hb, rfl⟩ := List.mem_map.1 hv
  exact List.mem_range.2 (h b (List.mem_range.1 hb))

theorem Spec.Shuffled.perm {α : Type} {σ : Nat → Nat} {l l' : List α} (h : Shuffled σ l l') : l.Perm l' := by
  have e : ∀ m : List α, (List.range m.length).map (fun b => m[b]?) = m.map some := by
    intro m
    apply List.ext_getElem?
    intro i
    rw [List.getElem?_map, List.getElem?_map]
    by_cases hi : i < m.length
    · rw [List.getElem?_range hi, Option.map_some, List.getElem?_eq_getElem hi, Option.map_some]
    · rw [List.getElem?_eq_none (by simpa using hi), List.getElem?_eq_none (by simpa using hi)]
      rfl
  have h1 := ((range_shuffled h.injective h.range).map fun b => l'[b]?)
  rw [List.map_map] at h1
  have e1 : (List.range l.length).map ((fun b => l'[b]?) ∘ σ) = l.map some := by
    rw [← e l]
    exact List.map_congr_left fun b hb => h.same b (List.mem_range.1 hb)
  have e2 := e l'
  rw [h.length] at e2
  rw [e1, e2] at h1
  have := h1.filterMap id
  simpa using this

theorem Spec.Shuffled.back {α : Type} {σ : Nat → Nat} {l l' : List α} (h : Shuffled σ l l') {i : Nat} (hi : i < l.length) : ∃ b < l.length, σ b = i := by
  have : i ∈ (List.range l.length).map σ := (range_shuffled h.injective h.range).mem_iff.2 (List.mem_range.2 hi)
  obtain ⟨b, hb, e⟩ := List.mem_map.1 this
  exact ⟨b, List.mem_range.1 hb, e⟩

/-! ### the cells of two batches -/

theorem moves_inSample (σ : Nat → Nat) (d b : Nat) (c : Cell) :
    (shiftBy σ 0 (0, 0, 0) d).Moves (Cell.inSample b c) (Cell.inSample (σ b) c) := by
  rw [shiftBy_iff]
  simp [Cell.inSample]

theorem blocks_moved {V : Type} {σ : Nat → Nat} (d : Nat) {As As' : List (List Cell)} (hA : Shuffled σ As As') {xs xs' : List (List V)}
    (hx : Shuffled σ xs xs') (hl : As.map List.length = xs.map List.length) :
    Moved (shiftBy σ 0 (0, 0, 0) d) (blocks Cell.inSample As) xs.flatten (blocks Cell.inSample As') xs'.flatten := by
  have hl0 : As.length = xs.length := by simpa using congrArg List.length hl
  have sumA : As.flatten.length = As'.flatten.length := hA.perm.flatten.length_eq
  have sumx : xs.flatten.length = xs'.flatten.length := hx.perm.flatten.length_eq
  have e1 : As.flatten.length = xs.flatten.length := by rw [List.length_flatten, List.length_flatten, hl]
  have hl' : As'.map List.length = xs'.map List.length := by
    apply List.ext_getElem?
    intro i
    by_cases hi : i < As.length
    · obtain ⟨b, hb, rfl⟩ := hA.back hi
      rw [List.getElem?_map, List.getElem?_map, hA.same b hb, hx.same b (by omega), ← List.getElem?_map, hl, List.getElem?_map]
    · have i1 := hA.length
      have i2 := hx.length
      rw [List.getElem?_eq_none (by simp; omega), List.getElem?_eq_none (by simp; omega)]
  have zip : ∀ (As : List (List Cell)) (xs : List (List V)), As.map List.length = xs.map List.length →
      (blocks Cell.inSample As).zip xs.flatten = blocks (fun i (q : Cell × V) => (Cell.inSample i q.1, q.2)) (List.zipWith List.zip As xs) := by
    intro As xs hl
    rw [blocks_eq, blocks_eq]
    generalize 0 = n
    induction As generalizing xs n with
    | nil => cases xs <;> simp_all
    | cons A As ih =>
      cases xs with
      | nil => simp at hl
      | cons x xs =>
        simp only [List.map_cons, List.cons.injEq] at hl
        simp only [List.zipIdx_cons, List.map_cons, List.flatten_cons, List.zipWith_cons_cons]
        rw [List.zip_append (by simpa using hl.1), ih xs hl.2]
        congr 1
        rw [List.zip_map_left]
        rfl
  refine ⟨by rw [blocks_length, e1], by rw [blocks_length]; omega, by rw [blocks_length, blocks_length, sumA], ?_⟩
  intro i c v hi hv
  have hm : (c, v) ∈ (blocks Cell.inSample As).zip xs.flatten := by
    refine List.mem_iff_getElem?.2 ⟨i, ?_⟩
    rw [List.getElem?_zip_eq_some]
    exact ⟨hi, hv⟩
  rw [zip As xs hl, mem_blocks] at hm
  obtain ⟨b, l, q, h1, h2, h3⟩ := hm
  simp only [Prod.mk.injEq] at h3
  obtain ⟨rfl, rfl⟩ := h3
  have hb : b < As.length := by
    have := (List.getElem?_eq_some_iff.1 h1).1
    rw [List.length_zipWith] at this
    omega
  have h1' : (List.zipWith List.zip As' xs')[σ b]? = some l := by
    rw [List.getElem?_zipWith] at h1 ⊢
    rw [hA.same b hb, hx.same b (by omega)]
    exact h1
  have hm' : (Cell.inSample (σ b) q.1, q.2) ∈ (blocks Cell.inSample As').zip xs'.flatten := by
    rw [zip As' xs' hl', mem_blocks]
    exact ⟨σ b, l, q, h1', h2, rfl⟩
  obtain ⟨j, hj⟩ := List.mem_iff_getElem?.1 hm'
  rw [List.getElem?_zip_eq_some] at hj
  exact ⟨j, _, hj.1, moves_inSample σ d b q.1, hj.2⟩

theorem Spec.Moved.of_cells {m : Motion} {A A' : List Cell} {V : Type} {x x' : List V} (h : Moved m A x A' x') : CellsMoved m A A' := by
  refine ⟨h.2.2.1, fun c hc => ?_⟩
  obtain ⟨i, hi⟩ := List.mem_iff_getElem?.1 hc
  have hlt : i < x.length := by rw [← h.1]; exact (List.getElem?_eq_some_iff.1 hi).1
  obtain ⟨j, c', h1, h2, -⟩ := h.2.2.2 i c _ hi (List.getElem?_eq_getElem hlt)
  exact ⟨c', List.mem_of_getElem? h1, h2⟩

/-- Two merged batches with the same samples in another order. -/
theorem shuffled_pair {os os' : List (Octree F)} {o o' : Octree F} {D : Nat} (h : MergedBatch os o D) (h' : MergedBatch os' o' D) {σ : Nat → Nat}
    (hs : Shuffled σ os os') : MovedPair o o' σ 0 (0, 0, 0) D := by
  obtain ⟨B, hB⟩ := h.batchOf
  obtain ⟨B', hB'⟩ := h'.batchOf
  refine ⟨B.valid', B'.valid', hB o (.inl rfl), hB' o' (.inl rfl), hs.injective, by rw [B.size, B'.size, hs.length], ?_, ?_⟩
  · rw [B.size]; exact hs.range
  · intro d _ hd cells ch cells' ch' h1 h2 h3 h4
    have e1 := queried_qc B.valid' d hd true _ _ h1 h2
    have e2 := queried_qc B'.valid' d hd true _ _ h3 h4
    have e1 : nonEmpty cells ch = qc o true d := e1
    have e2 : nonEmpty cells' ch' = qc o' true d := e2
    rw [e1, e2, B.qc d hd, B'.qc d hd]
    exact (blocks_moved d (hs.map fun o => qc o true d) (hs.map fun o => qc o true d) rfl).of_cells

theorem shuffled_rows {os os' : List (Octree F)} {o o' : Octree F} {D : Nat} (h : MergedBatch os o D) (h' : MergedBatch os' o' D) {σ : Nat → Nat}
    (hs : Shuffled σ os os') {V : Type} {xs xs' : List (List V)} (hx : Shuffled σ xs xs') (nempty : Bool) (d : Nat) (hd : d ≤ D)
    (hl : xs.map List.length = os.map fun o => height o nempty d) :
    Moved (shiftBy σ 0 (0, 0, 0) d) (qc o nempty d) xs.flatten (qc o' nempty d) xs'.flatten := by
  obtain ⟨B, -⟩ := h.batchOf
  obtain ⟨B', -⟩ := h'.batchOf
  rw [B.qc d hd, B'.qc d hd]
  refine blocks_moved d (hs.map fun o => qc o nempty d) hx ?_
  rw [hl, List.map_map]
  exact List.map_congr_left fun o ho => qc_length (B.valid o ho) d hd nempty

/-! ### the relation -/

/-- The tensors of the runs on two batches with the same samples in another order; in training mode the tensors that are normalised must not have a
single row. -/
def shuffleSys (P : Params) (o o' : Octree F) (σ : Nat → Nat) : Sys :=
  { movedSys o o' σ 0 (0, 0, 0) with
    ok := fun r => P.training = true → r.1.length ≠ 1
    vox := True }

theorem Spec.Moved.rows_perm {m : Motion} (hm : m.Legal) {A A' : List Cell} {V : Type} {x x' : List V} (h : Moved m A x A' x') (hn : A.Nodup) (hn' : A'.Nodup) :
    x.Perm x' := by
  obtain ⟨g, -, hp⟩ := h.perm hm hn hn'
  have := hp.map Prod.snd
  rw [List.map_map] at this
  have e1 : (A.zip x).map (Prod.snd ∘ fun p => (g p.1, p.2)) = x := by
    have : (Prod.snd ∘ fun p : Cell × V => (g p.1, p.2)) = Prod.snd := rfl
    rw [this, List.map_snd_zip (by rw [h.1])]
  rwa [e1, List.map_snd_zip (by rw [h.2.1])] at this

theorem field_cell {V : Type} (f : Nat → Int → Int → Int → V) (b x y z : Nat) : fieldAt f ⟨b, x, y, z⟩ = f b x y z := rfl

theorem layers_shuffle {P : Params} (hdrop : ∀ name n i, P.drop name n i = 1) {o o' : Octree F} {σ : Nat → Nat} {D : Nat}
    (p : MovedPair o o' σ 0 (0, 0, 0) D) : Layers P P (shuffleSys P o o' σ) o' o D where
  conv3 := fun name {_} co {_ _} h1 hD hc {_ _} h => p.conv3 P name co h1 hD hc h
  conv2 := fun name {_} co {_ _} hD hc {_ _} h => p.conv2 P name co hD hc h
  deconv2 := fun name ci {_ _ _} hD hc {_ _} h => p.deconv2 P name ci hD hc h
  maxPoolIdx := fun {_ _ _} hD {_ _} h => p.maxPoolIdx hD h
  globalPool := fun {_ _ _} hD {_ _} h => p.globalPool hD h
  upsampleT := fun {_ _ _} hD {_ _} h => p.upsampleT hD h
  depadT := fun {_ _} hD {_ _} h => p.depadT hD h
  unpoolT := fun {_ _ _} _ hD {_ _ _ _} h hi hs => p.unpoolT hD h hi hs
  voxelFlat := by
    intro c nempty d _ hD x y h
    obtain ⟨u, v, rfl, rfl, hM, hn, hn', hm⟩ := h
    have hM : Moved (shiftBy σ 0 (0, 0, 0) d) (qc o nempty d) v (qc o' nempty d) u := hM
    obtain ⟨f, hf⟩ := exists_field _ v hM.1 hn
    obtain ⟨f', hf'⟩ := exists_field _ u hM.2.1 hn'
    have hf0 : IsField (qc o nempty d) v f := hf
    have hf0' : IsField (qc o' nempty d) u f' := hf'
    have w := p.valid
    have w' := p.valid'
    have hd := hD.2
    have Q := queried_qc w d hd nempty _ _ (w.wf'.cellsOf d hd) (w.wf'.children d hd)
    have Q' := queried_qc w' d hd nempty _ _ (w'.wf'.cellsOf d hd) (w'.wf'.children d hd)
    obtain ⟨vox, v1, v2, v3⟩ := C48_voxel o D w d hd nempty _ _ (w.wf'.cellsOf d hd) (w.wf'.children d hd) v f (by rw [Q]; exact hf0)
    obtain ⟨vox', v1', v2', v3'⟩ := C48_voxel o' D w' d hd nempty _ _ (w'.wf'.cellsOf d hd) (w'.wf'.children d hd) u f' (by rw [Q']; exact hf0')
    have hfield : ∀ b i j k : Nat, f' (σ b) i j k = f b i j k := by
      intro b i j k
      exact hM.field (p.legal d) hn hn' hf0 hf0' b (i, j, k) (i, j, k) (by simp [shiftBy])
    unfold voxelFlat
    dsimp only
    rw [v1, v1']
    have hR : ∀ (B : Nat) (x : List (Fin c → ℚ)), flattenRows B (2 ^ d * 2 ^ d * 2 ^ d) c x =
        (sampleCells B).map fun q => fun (j : Fin (2 ^ d * 2 ^ d * 2 ^ d * c)) =>
          ((x[q.b * (2 ^ d * 2 ^ d * 2 ^ d) + (finProdFinEquiv.symm j).1.val]?).getD 0) (finProdFinEquiv.symm j).2 := by
      intro B x
      unfold sampleCells flattenRows
      rw [List.map_map]
      rfl
    simp only [bind, Except.bind, pure, Except.pure, hR, p.shifted.size]
    refine Both.pure ⟨_, _, rfl, rfl, cellsMoved_map p.sampleCells_moved _ _ fun q hq q' _ hqq => ?_, sampleCells_nodup _, sampleCells_nodup _,
      reorder_legal σ p.shifted.sample⟩
    have hb : q'.b = σ q.b := hqq.1
    have hqb : q.b < o.batchSize := by
      unfold sampleCells at hq
      obtain ⟨b, h1, rfl⟩ := List.mem_map.1 hq
      exact List.mem_range.1 h1
    rw [hb]
    have key : ∀ a, a < 2 ^ d * 2 ^ d * 2 ^ d → vox[q.b * (2 ^ d * 2 ^ d * 2 ^ d) + a]? = vox'[σ q.b * (2 ^ d * 2 ^ d * 2 ^ d) + a]? := by
      have hNp : 0 < 2 ^ d := by positivity
      revert v3 v3' hNp
      generalize 2 ^ d = N
      intro v3 v3' hNp a hlt
      have dec : ∀ b, b * (N * N * N) + a = ((b * N + a / N / N) * N + a / N % N) * N + a % N := by
        intro b
        have t1 := Nat.div_add_mod a N
        have t2 := Nat.div_add_mod (a / N) N
        calc b * (N * N * N) + a = b * (N * N * N) + (N * (N * (a / N / N) + a / N % N) + a % N) := by rw [t2, t1]
          _ = _ := by ring
      have i1 : a / N / N < N := by
        rw [Nat.div_div_eq_div_mul]
        exact Nat.div_lt_of_lt_mul hlt
      have i2 : a / N % N < N := Nat.mod_lt _ hNp
      have i3 : a % N < N := Nat.mod_lt _ hNp
      rw [dec, dec, v3 q.b hqb _ i1 _ i2 _ i3, v3' (σ q.b) (by rw [p.shifted.size]; exact p.shifted.range _ hqb) _ i1 _ i2 _ i3, hfield]
    funext j
    rw [key _ (finProdFinEquiv.symm j).1.isLt]
  bn := by
    intro name c r hok x y h
    obtain ⟨u, v, rfl, rfl, hM, hn, hn', hm⟩ := h
    have hp := hM.rows_perm hm hn hn'
    unfold batchNorm
    rw [Tensor.on_self, Tensor.on_self]
    by_cases hP : P.training = true
    · have h1 : ¬ v.length = 1 := by rw [← hM.1]; exact hok hP
      have h2 : ¬ u.length = 1 := by rw [← hp.length_eq]; exact h1
      rw [if_pos hP, if_pos hP, if_neg h1, if_neg h2]
      refine Both.pure ⟨_, _, rfl, rfl, ?_, hn, hn', hm⟩
      simp only [colMean_perm hp, colVar_perm hp]
      exact hM.map _
    · rw [if_neg hP, if_neg hP]
      exact Both.pure ⟨_, _, rfl, rfl, hM.map _, hn, hn', hm⟩
  drop := by
    intro name c t s _ h
    have e : ∀ t : Tensor, dropout P name t = t := by
      intro t
      unfold dropout
      simp only [hdrop, mul_one]
      have : (t.rows.zipIdx.map fun v => fun i => v.1 i) = t.rows := by
        have : (fun v : (Fin t.width → ℚ) × Nat => fun i => v.1 i) = Prod.fst := rfl
        rw [this, List.zipIdx_map_fst]
      rw [this, ite_self]
    rw [e, e]
    exact h

end Ocnn
