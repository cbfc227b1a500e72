import Verif.NetShape
import Verif.AutoProofs

/-! The facts about the layers for a merged batch and one of its samples, in evaluation mode. -/

set_option linter.unusedSimpArgs false

namespace Ocnn
open Spec
variable {F : Type}

/-- The coordinates of the `q`-th voxel. -/
def voxelOf (d q : Nat) : Nat × Nat × Nat := (q / (2 ^ d * 2 ^ d), q / 2 ^ d % 2 ^ d, q % 2 ^ d)

theorem vox_flat (B d C : Nat) (vox : List (Fin C → ℚ)) (f : Nat → Int → Int → Int → Fin C → ℚ)
    (h : ∀ b < B, ∀ i < 2 ^ d, ∀ j < 2 ^ d, ∀ k < 2 ^ d, vox[((b * 2 ^ d + i) * 2 ^ d + j) * 2 ^ d + k]? = some (f b i j k)) :
    flattenRows B (2 ^ d * 2 ^ d * 2 ^ d) C vox = (List.range B).map fun b => fun (j : Fin (2 ^ d * 2 ^ d * 2 ^ d * C)) =>
      let v := voxelOf d (finProdFinEquiv.symm j).1.val
      f b v.1 v.2.1 v.2.2 (finProdFinEquiv.symm j).2 := by
  unfold flattenRows
  apply List.map_congr_left
  intro b hb
  have hb := List.mem_range.1 hb
  funext j
  have hq := (finProdFinEquiv.symm j).1.isLt
  dsimp only
  generalize (finProdFinEquiv.symm j).1.val = q at hq ⊢
  have hp : 0 < 2 ^ d := by positivity
  have h1 : q / (2 ^ d * 2 ^ d) < 2 ^ d := by
    rw [Nat.div_lt_iff_lt_mul (by positivity), ← Nat.mul_assoc]; exact hq
  have h2 := h b hb _ h1 _ (Nat.mod_lt (q / 2 ^ d) hp) _ (Nat.mod_lt q hp)
  have e : ((b * 2 ^ d + q / (2 ^ d * 2 ^ d)) * 2 ^ d + q / 2 ^ d % 2 ^ d) * 2 ^ d + q % 2 ^ d = b * (2 ^ d * 2 ^ d * 2 ^ d) + q := by
    have a1 := Nat.div_add_mod q (2 ^ d)
    have a2 := Nat.div_add_mod (q / 2 ^ d) (2 ^ d)
    rw [Nat.div_div_eq_div_mul] at a2
    generalize q / (2 ^ d * 2 ^ d) = u at *
    generalize q / 2 ^ d % 2 ^ d = v at *
    generalize q % 2 ^ d = r at *
    rw [← a1, ← a2]
    ring
  rw [e] at h2
  rw [h2]
  rfl

theorem voxel_perSample {os : List (Octree F)} {o' : Octree F} {D : Nat} (h : BatchOf os o' D) (d : Nat) (hd : d ≤ D) (nempty : Bool) {C : Nat} :
    PerSample os o' (rowsAt nempty d) Octree.batchSize
      (fun o (x : List (Fin C → ℚ)) => octree2voxel x o d nempty >>= fun y =>
        .ok (flattenRows o.batchSize (2 ^ d * 2 ^ d * 2 ^ d) C y)) := by
  apply perSample_of
  intro xs hxs
  obtain ⟨f, hf, hfi⟩ := h.field d hd nempty xs hxs
  have main : ∀ (o : Octree F), o.Valid D → ∀ x g, IsField (qc o nempty d) x g → (octree2voxel x o d nempty >>= fun y =>
        (.ok (flattenRows o.batchSize (2 ^ d * 2 ^ d * 2 ^ d) C y) : M _)) =
      .ok ((List.range o.batchSize).map fun b => fun (j : Fin (2 ^ d * 2 ^ d * 2 ^ d * C)) =>
      let v := voxelOf d (finProdFinEquiv.symm j).1.val
      g b v.1 v.2.1 v.2.2 (finProdFinEquiv.symm j).2) := by
    intro o w x g hg
    have W := w.wf'
    rw [← queried_qc w d hd nempty _ _ (W.cellsOf d hd) (W.children d hd)] at hg
    obtain ⟨vox, e, -, e2⟩ := C48_voxel o D w d hd nempty _ _ (W.cellsOf d hd) (W.children d hd) x g hg
    rw [e]
    show Except.ok _ = _
    rw [vox_flat _ _ _ _ _ e2]
  refine ⟨fun i => [fun (j : Fin (2 ^ d * 2 ^ d * 2 ^ d * C)) =>
      let v := voxelOf d (finProdFinEquiv.symm j).1.val
      f i v.1 v.2.1 v.2.2 (finProdFinEquiv.symm j).2], ?_, ?_⟩
  · intro i o x ho hx hlen
    have hmem := List.mem_of_getElem? ho
    have e := main o (h.valid o hmem) x _ (hfi i o x ho hx)
    rw [h.single o hmem] at e ⊢
    exact ⟨e, rfl⟩
  · rw [main o' h.valid' _ _ hf, h.size]
    congr 1
    generalize List.range os.length = l
    induction l with
    | nil => rfl
    | cons a l ih => rw [List.map_cons, List.map_cons, List.flatten_cons, ih]; rfl

/-- In evaluation mode: a merged batch and its `i`-th sample. -/
theorem layers_batch_rows {P : Params} (hP : P.training = false) {os : List (Octree F)} {o' : Octree F} {D : Nat} (h : MergedBatch os o' D)
    {i : Nat} {o : Octree F} (ho : os[i]? = some o) : BatchLayers P os o' o i D where
  mem := ho
  conv := by
    intro k hk nempty d s h1 hd hs ci co ks m ha hi hb hw
    exact C58_conv h d h1 hd k hk nempty s hs (denseKernel ℚ ci co) ci co ks maxBuffer m ha hi (fun _ => hb) hw
  deconv := by
    intro k hk nempty d s h1 hd hs ci co ks m ha hi hb hw
    exact C58_deconv h d h1 hd k hk nempty s hs (denseKernel ℚ co ci) ci co ks maxBuffer m ha hi (fun _ => hb) hw
  pool := by
    intro nempty d C hd
    exact C58_max_pool h d hd nempty
  depad := by
    intro d C hd
    exact (C58_pad_upsample h d (0 : Fin C → ℚ)).2.1 hd
  upsample := by
    intro nempty d C hd
    exact (C58_pad_upsample h d (0 : Fin C → ℚ)).2.2 hd nempty
  global := by
    intro nempty d C hd
    intro xs hxs
    obtain ⟨ys, h1, h2, h3⟩ := C58_global_pool h d hd nempty (K := ℚ) (C := C) xs hxs
    refine ⟨ys, h1, ?_, h3⟩
    rw [h2]
    exact List.map_congr_left fun o ho => ((h.batchOf).1.single o ho).symm
  voxel := by
    intro nempty d C hd
    exact voxel_perSample h.batchOf.1 d hd nempty
  eight := by
    intro d hd o ho
    exact eight_of (h.batchOf.1.valid o ho) d hd
  bn := fun name c ns _ t s hr => hr.batchNorm_eval hP name
  drop := fun name c ns t s _ hr => hr.dropout_eval hP name

/-- The query points of a batch: `pss` are the points of the samples, the last coordinate is the number of the sample. -/
def Spec.batchPoints (pss : List (List (V3 ℚ))) : List Pt4 := (pss.zipIdx.map fun q => q.1.map fun p => (p, (q.2 : ℚ))).flatten

/-- The query points of one sample. -/
def Spec.samplePoints (ps : List (V3 ℚ)) : List Pt4 := ps.map fun p => (p, 0)

theorem batchPoints_eq (pss : List (List (V3 ℚ))) : batchPoints pss = (blocks (fun i p => (p, i)) pss).map row4 := by
  rw [map_blocks]
  unfold batchPoints
  rw [zipIdx_map_range pss (fun (l : List (V3 ℚ)) (i : Nat) => l.map fun p => ((p, (i : ℚ)) : Pt4)) []]
  rfl

theorem found_sample {os : List (Octree F)} {o' : Octree F} {D : Nat} (h : BatchOf os o' D) (d : Nat) (hd : d ≤ D) (nempty : Bool)
    {i : Nat} {o : Octree F} (ho : os[i]? = some o) (bc : Bool) (g : Int × Int × Int) :
    found (qc o' nempty d) bc d i g = found (qc o nempty d) bc d 0 g := by
  have key : ∀ x y z : Nat, (⟨i, x, y, z⟩ : Cell) ∈ qc o' nempty d ↔ (⟨0, x, y, z⟩ : Cell) ∈ qc o nempty d := by
    intro x y z
    rw [h.qc d hd, mem_blocks]
    constructor
    · rintro ⟨j, l, a, hj, ha, e⟩
      have : i = j := congrArg Cell.b e
      subst this
      rw [List.getElem?_map, ho] at hj
      cases hj
      have hb := h.b_zero d hd nempty o (List.mem_of_getElem? ho) a ha
      obtain ⟨b, x', y', z'⟩ := a
      have hb : b = 0 := hb
      subst hb
      injection e with _ e1 e2 e3
      subst e1 e2 e3
      exact ha
    · intro hc
      exact ⟨i, qc o nempty d, _, by rw [List.getElem?_map, ho]; rfl, hc, rfl⟩
  unfold found lookup
  by_cases hb : bc = true ∧ ¬ InGrid d g
  · rw [if_pos hb, if_pos hb]
  · rw [if_neg hb, if_neg hb]
    exact decide_eq_decide.2 (key _ _ _)

theorem valueAt_sample {V : Type} [Zero V] (f : Nat → Int → Int → Int → V) (i d : Nat) (bc : Bool) (g : Int × Int × Int) :
    valueAt bc d 0 (sampleField f i) g = valueAt bc d i f g := by
  unfold valueAt lookup
  by_cases hb : bc = true ∧ ¬ InGrid d g
  · rw [if_pos hb, if_pos hb]
  · rw [if_neg hb, if_neg hb]
    simp [fieldAt, sampleField]

theorem queries_batch_rows {os : List (Octree F)} {o' : Octree F} {D : Nat} (hm : MergedBatch os o' D)
    {i : Nat} {o : Octree F} (ho : os[i]? = some o) (pss : List (List (V3 ℚ))) (hpss : pss.length = os.length) {ps : List (V3 ℚ)}
    (hps : pss[i]? = some ps) : BatchQueries os o' o i D (batchPoints pss) (samplePoints ps) (pss.map List.length) := by
  intro method nempty d c hd t s hr
  have h := hm.batchOf.1
  obtain ⟨xs, hxs, rfl, x, hx, rfl⟩ := hr
  obtain ⟨f, hf, hfi⟩ := h.field d hd nempty xs hxs
  have hmem := List.mem_of_getElem? ho
  have w := h.valid o hmem
  have w' := h.valid'
  have hf0 := hfi i o x ho hx
  rw [← queried_qc w d hd nempty _ _ (w.wf'.cellsOf d hd) (w.wf'.children d hd)] at hf0
  rw [← queried_qc w' d hd nempty _ _ (w'.wf'.cellsOf d hd) (w'.wf'.children d hd)] at hf
  have hil : i < os.length := (List.getElem?_eq_some_iff.1 ho).1
  have hB := w'.batch_le
  rw [h.size] at hB
  have es : samplePoints ps = (ps.map fun p => (p, 0)).map row4 := by
    simp [samplePoints, row4]
  unfold interp octreeInterp interpFunc
  dsimp only
  rw [if_pos rfl, if_pos rfl, batchPoints_eq, es, interp_pts, interp_pts]
  have hq' : ∀ q ∈ ((blocks (fun i (p : V3 ℚ) => (p, i)) pss).map fun q : V3 ℚ × Nat => (q.1.map fun v => (v + 1) * (2 ^ ((d : ℤ) - 1) : ℚ), q.2)), q.2 < 2 ^ 15 := by
    intro q hqm
    obtain ⟨q', h1, rfl⟩ := List.mem_map.1 hqm
    obtain ⟨j, l, a, hj, -, rfl⟩ := (mem_blocks _ _ _).1 h1
    have := (List.getElem?_eq_some_iff.1 hj).1
    show j < 2 ^ 15
    omega
  have hq : ∀ q ∈ ((ps.map fun p : V3 ℚ => (p, 0)).map fun q : V3 ℚ × Nat => (q.1.map fun v => (v + 1) * (2 ^ ((d : ℤ) - 1) : ℚ), q.2)), q.2 < 2 ^ 15 := by
    intro q hqm
    obtain ⟨q', h1, rfl⟩ := List.mem_map.1 hqm
    obtain ⟨p, -, rfl⟩ := List.mem_map.1 h1
    norm_num
  -- related results of two functions on the points
  have fin : ∀ (G' G : V3 ℚ × Nat → Fin c → ℚ), (∀ p, G (p, 0) = G' (p, i)) →
      Rel i (pss.map List.length) c
        ⟨c, ((blocks (fun i (p : V3 ℚ) => (p, i)) pss).map fun q : V3 ℚ × Nat => (q.1.map fun v => (v + 1) * (2 ^ ((d : ℤ) - 1) : ℚ), q.2)).map G'⟩
        ⟨c, ((ps.map fun p : V3 ℚ => (p, 0)).map fun q : V3 ℚ × Nat => (q.1.map fun v => (v + 1) * (2 ^ ((d : ℤ) - 1) : ℚ), q.2)).map G⟩ := by
    intro G' G hG
    rw [List.map_map, map_blocks]
    refine ⟨_, ?_, rfl, _, ?_, rfl⟩
    · apply List.ext_getElem?
      intro j
      simp only [List.getElem?_map]
      by_cases hj : j < pss.length
      · rw [List.getElem?_range hj, List.getElem?_eq_getElem hj]
        simp [List.getElem?_eq_getElem hj]
      · rw [List.getElem?_eq_none (by simpa using hj), List.getElem?_eq_none (by simpa using hj)]
        rfl
    · have hip : i < pss.length := by omega
      rw [List.getElem?_map, List.getElem?_range hip, Option.map_some, hps]
      simp [hG, Function.comp_def]
  by_cases hmth : method = "linear"
  · rw [if_pos hmth, if_pos hmth,
      C53_linear o' D w' d hd _ _ (w'.wf'.cellsOf d hd) (w'.wf'.children d hd) nempty false _ f hf _ hq',
      C53_linear o D w d hd _ _ (w.wf'.cellsOf d hd) (w.wf'.children d hd) nempty false _ _ hf0 _ hq]
    refine Both.pure (fin _ _ fun p => ?_)
    funext k
    dsimp only
    rw [queried_qc w d hd nempty _ _ (w.wf'.cellsOf d hd) (w.wf'.children d hd),
      queried_qc w' d hd nempty _ _ (w'.wf'.cellsOf d hd) (w'.wf'.children d hd)]
    simp only [valueAt_sample]
    have : (found (qc o' nempty d) false d i) = found (qc o nempty d) false d 0 := by
      funext g
      exact found_sample h d hd nempty ho false g
    rw [this]
  · rw [if_neg hmth, if_neg hmth,
      nearest_main o' D w' d hd _ _ (w'.wf'.cellsOf d hd) (w'.wf'.children d hd) nempty false _ f hf _ hq',
      nearest_main o D w d hd _ _ (w.wf'.cellsOf d hd) (w.wf'.children d hd) nempty false _ _ hf0 _ hq]
    refine Both.pure (fin _ _ fun p => ?_)
    simp [fieldAt, sampleField, torusCell]

theorem layers_batch {P : Params} (hP : P.training = false) {os : List (Octree F)} {o' : Octree F} {D : Nat} (h : MergedBatch os o' D)
    {i : Nat} {o : Octree F} (ho : os[i]? = some o) : Layers P P (batchSys P os i) o' o D := (layers_batch_rows hP h ho).toLayers

theorem queries_batch (P : Params) {os : List (Octree F)} {o' : Octree F} {D : Nat} (hm : MergedBatch os o' D)
    {i : Nat} {o : Octree F} (ho : os[i]? = some o) (pss : List (List (V3 ℚ))) (hpss : pss.length = os.length) {ps : List (V3 ℚ)}
    (hps : pss[i]? = some ps) : Queries (batchSys P os i) o' o D (batchPoints pss) (samplePoints ps) (pss.map List.length) :=
  (queries_batch_rows hm ho pss hpss hps).toQueries P

end Ocnn
