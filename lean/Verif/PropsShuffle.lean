import Verif.SampleOrder
import Verif.PropsOrder

/-! C148: the order of the samples in a batch does not matter, in training mode too. -/

set_option linter.unusedSimpArgs false

namespace Ocnn
open Spec

variable {F L : Type} {k : Nat}

/-! ### dropout -/

theorem convBnRelu_withDrop (P : Params) (d : String → Nat → Nat → ℚ) : @convBnRelu F (withDrop P d) = @convBnRelu F P := rfl

theorem lenetStep_withDrop (P : Params) (d : String → Nat → Nat → ℚ) : @lenetStep F (withDrop P d) = @lenetStep F P := rfl

theorem resnetStep_withDrop (P : Params) (d : String → Nat → Nat → ℚ) : @resnetStep F (withDrop P d) = @resnetStep F P := rfl

theorem fcBnRelu_withDrop (P : Params) (d : String → Nat → Nat → ℚ) : fcBnRelu (withDrop P d) = fcBnRelu P := rfl

theorem linear_withDrop (P : Params) (d : String → Nat → Nat → ℚ) : linear (withDrop P d) = linear P := rfl

theorem hrnet_withDrop (P : Params) (d : String → Nat → Nat → ℚ) : @hrnet F (withDrop P d) = @hrnet F P := rfl

/-- The two runs multiply related rows by the same numbers. -/
def SameMasks (S : Sys) (P : Params) (d' d : String → Nat → Nat → ℚ) : Prop :=
  ∀ name c t s, S.R S.hb c t s → S.R S.hb c (dropout (withDrop P d') name t) (dropout (withDrop P d) name s)

theorem lenet_masks {P : Params} {S : Sys} {o' o : Octree F} {D : Nat} (L : Layers P P S o' o D) {d' d : String → Nat → Nat → ℚ} (hd : SameMasks S P d' d)
    {cin : Nat} (cout : Nat) {stages : Nat} (hst : 1 ≤ stages) {nempty : Bool} (hvox : S.vox) (hlo : S.lo nempty ≤ 2) (hD : stages + 2 ≤ D)
    (hc : 27 * cin ≤ maxBuffer) (hbn : ∀ d, 3 ≤ d → d ≤ stages + 2 → S.ok (S.ht nempty d)) (hbb : S.ok S.hb) {t s : Tensor}
    (h : S.R (S.ht nempty (stages + 2)) cin t s) :
    Both (S.R S.hb cout) (lenet (withDrop P d') cin cout stages nempty o' (stages + 2) t) (lenet (withDrop P d) cin cout stages nempty o (stages + 2) s) := by
  unfold Ocnn.lenet
  simp only [lenetStep_withDrop, fcBnRelu_withDrop, linear_withDrop]
  refine (L.lenetConvs hst (by omega) (by omega) hc (fun d h1 h2 => hbn d (by omega) h2) h).bind ?_
  intro a b hab
  have e2 : stages + 2 - stages = 2 := by omega
  rw [e2] at hab
  rw [e2]
  refine (L.voxelFlat hvox (by omega) hab).bind fun a b hab => ?_
  have := hd "header.0" _ _ _ hab
  refine (L.fcBnRelu _ 128 hbb this).bind fun a b hab => ?_
  exact (hd "header.2" _ _ _ hab).linear P _ cout true

theorem resnet_masks {P : Params} {S : Sys} {o' o : Octree F} {D : Nat} (L : Layers P P S o' o D) {d' d : String → Nat → Nat → ℚ} (hd : SameMasks S P d' d)
    {cin : Nat} (cout num : Nat) (hnum : 1 ≤ num) {stages : Nat} (hst : 1 ≤ stages) {nempty : Bool} {depth : Nat}
    (hds : stages ≤ depth) (hD : S.lo nempty ≤ depth - stages ∧ depth ≤ D) (hc : 27 * cin ≤ maxBuffer)
    (hbn : ∀ d, depth - stages < d → d ≤ depth → S.ok (S.ht nempty d)) (hbb : S.ok S.hb) {t s : Tensor}
    (h : S.R (S.ht nempty depth) cin t s) :
    Both (S.R S.hb cout) (resnet (withDrop P d') cin cout num stages nempty o' depth t) (resnet (withDrop P d) cin cout num stages nempty o depth s) := by
  unfold Ocnn.resnet
  have hs0 : ¬ stages = 0 := by omega
  simp only [if_neg hs0, pure_bind, convBnRelu_withDrop, resnetStep_withDrop, fcBnRelu_withDrop, linear_withDrop]
  refine (L.convBnRelu3 _ _ (by omega) (by omega) hc (hbn _ (by omega) (by omega)) h).bind fun a b hab => ?_
  obtain ⟨e, rfl⟩ : ∃ e, depth = e + 1 := ⟨depth - 1, by omega⟩
  refine (L.maxPool (by omega) hab).bind fun a b hab => ?_
  refine (Both.fold (fun k => S.R (S.ht nempty (e - k)) (resnetChannel stages k)) (stages - 1) _ _ ?_ hab).bind ?_
  · intro k hk a b hab
    unfold resnetStep
    obtain ⟨g, hg⟩ : ∃ g, e + 1 - k - 1 = g + 1 := ⟨e - (k + 1), by omega⟩
    have h1 : e - k = g + 1 := by omega
    have h2 : e - (k + 1) = g := by omega
    dsimp only at hab ⊢
    rw [h1] at hab
    rw [hg, h2]
    refine (L.resBlocks .block _ (resnetChannel stages (k + 1)) num (by omega) (by omega) (by omega) (resnetChannel_le _ _ (by omega))
      (resnetChannel_le _ _ (by omega)) (hbn _ (by omega) (by omega)) hab).bind fun _ _ h => ?_
    rw [if_neg (by omega)] at h
    exact L.maxPool (by omega) h
  · intro a b hab
    have h1 : e - (stages - 1) = e + 1 - stages := by omega
    rw [h1] at hab
    refine (L.globalPool (by omega) hab).bind fun a b hab => ?_
    refine (L.fcBnRelu _ 512 hbb hab).bind fun a b hab => ?_
    exact (hd _ _ _ _ hab).linear P _ cout true

theorem samples_moved {V : Type} {σ : Nat → Nat} {B : Nat} {y y' : List V} (h : y.length = B) (h' : y'.length = B) (hr : ∀ b < B, σ b < B)
    (hy : ∀ b < B, y'[σ b]? = y[b]?) : Moved (reorder σ) (sampleCells B) y (sampleCells B) y' := by
  have hl : (sampleCells B).length = B := by simp [sampleCells]
  refine ⟨by omega, by omega, rfl, ?_⟩
  intro i c v hi hv
  rw [sampleCells_get] at hi
  split at hi
  · next hlt =>
    cases hi
    exact ⟨σ i, ⟨σ i, 0, 0, 0⟩, by rw [sampleCells_get, if_pos (hr i hlt)], ⟨rfl, by simp [reorder, pos]⟩, by rw [hy i hlt, hv]⟩
  · cases hi

theorem same_masks {P : Params} {o o' : Octree F} {σ : Nat → Nat} (hr : ∀ b < o.batchSize, σ b < o.batchSize) {d' d : String → Nat → Nat → ℚ}
    (hd : ∀ name, ∀ b < o.batchSize, ∀ i, d' name (σ b) i = d name b i) : SameMasks (shuffleSys P o o' σ) P d' d := by
  intro name c t s h
  obtain ⟨u, v, rfl, rfl, hM, hn, hn', hm⟩ := h
  have hM : Moved (reorder σ) (sampleCells o.batchSize) v (sampleCells o.batchSize) u := hM
  obtain ⟨h1, h2, h3⟩ := moved_samples hM
  unfold dropout
  by_cases hP : P.training = true
  · have hP' : ∀ d, (withDrop P d).training = true := fun _ => hP
    rw [if_pos (hP' _), if_pos (hP' _)]
    refine ⟨_, _, rfl, rfl, samples_moved (by simpa using h1) (by simpa using h2) hr fun b hb => ?_, hn, hn', hm⟩
    rw [List.getElem?_map, List.getElem?_map, List.getElem?_zipIdx, List.getElem?_zipIdx, h3 b hb]
    cases v[b]? with
    | none => rfl
    | some w =>
      simp only [Option.map_some, Nat.zero_add, withDrop, hd name b hb]
  · have hP' : ∀ d, ¬ (withDrop P d).training = true := fun _ => hP
    rw [if_neg (hP' _), if_neg (hP' _)]
    exact ⟨_, _, rfl, rfl, hM, hn, hn', hm⟩

/-! ### batches of clouds -/

/-- The coarsest depth at which a network for classification normalises the rows of nodes. -/
def Spec.clsCoarsest (fl : ModelFlags) (D : Nat) : Nat :=
  if fl.name.toLower = "lenet" then 3 else if fl.name.toLower = "resnet" then D - fl.stages + 1 else 2

theorem legal_shuffled {F : Type} {σ : Nat → Nat} {pcs pcs' : List (Points ℚ F L)} {dev : Nat} (h : LegalBatch pcs dev) (hs : Shuffled σ pcs pcs') :
    LegalBatch pcs' dev := by
  have hm : ∀ {p}, p ∈ pcs' → p ∈ pcs := fun hp => hs.perm.mem_iff.2 hp
  refine ⟨?_, by rw [hs.length]; exact h.number, fun p hp => h.aligned p (hm hp), fun p hp q hq => h.same p (hm hp) q (hm hq),
    fun p hp => h.inCube p (hm hp), fun p hp => h.device p (hm hp), fun p hp => h.single p (hm hp)⟩
  intro e
  have := hs.perm
  rw [e] at this
  exact h.nonempty this.eq_nil

theorem sys_ok {P : Params} {o o' : Octree F} {σ : Nat → Nat} {D : Nat} (w : o.Valid D) {nempty : Bool} {a b : Nat} (ha : 1 ≤ a) (hb : b ≤ D)
    (hs : NotSingle P o nempty a b) (d : Nat) (h1 : a ≤ d) (h2 : d ≤ b) : (shuffleSys P o o' σ).ok ((shuffleSys P o o' σ).ht nempty d) := by
  intro hP
  show (qc o nempty d).length ≠ 1
  rw [qc_length w d (by omega)]
  have := bnOk_ne w ha hb hs d h1 h2 hP
  simpa [ht, rowsAt] using this.2

theorem sys_ok_batch {P : Params} {o o' : Octree F} {σ : Nat → Nat} (h : P.training = true → o.batchSize ≠ 1) :
    (shuffleSys P o o' σ).ok (shuffleSys P o o' σ).hb := by
  intro hP
  show (sampleCells o.batchSize).length ≠ 1
  simpa [sampleCells] using h hP

theorem sys_lo {P : Params} {o o' : Octree F} {σ : Nat → Nat} {nempty : Bool} {d : Nat} (h : nempty = false → 1 ≤ d) : (shuffleSys P o o' σ).lo nempty ≤ d := by
  cases nempty
  · exact h rfl
  · exact Nat.zero_le _

/-- the octrees and input features of two batches with the same clouds in another order -/
theorem shuffled_batches (fl : ModelFlags) (nrm : V3 ℚ → V3 ℚ) (divF : ℚ → (Fin k → ℚ) → (Fin k → ℚ)) (D full dev : Nat) (hD : D ≤ 16) (hf1 : 1 ≤ full)
    (hf : full ≤ D) {σ : Nat → Nat} (pcs pcs' : List (Points ℚ (Fin k → ℚ) L)) (h : LegalBatch pcs dev) (hs : Shuffled σ pcs pcs') (hfe : FeatureOk fl pcs) :
    ∃ (o o' : Octree (Fin k → ℚ)) (x x' : List (Fin fl.channel → ℚ)), batchOctree nrm divF D full pcs = .ok o ∧ batchOctree nrm divF D full pcs' = .ok o' ∧
      o.depth = D ∧ o'.depth = D ∧ o.batchSize = pcs.length ∧ MovedPair o o' σ 0 (0, 0, 0) D ∧
      inputTensor fl o = .ok ⟨fl.channel, x⟩ ∧ inputTensor fl o' = .ok ⟨fl.channel, x'⟩ ∧
      Moved (shiftBy σ 0 (0, 0, 0) D) (qc o fl.nempty D) x (qc o' fl.nempty D) x' := by
  have h' := legal_shuffled h hs
  obtain ⟨T, hT⟩ := batch_octree (L := L) nrm divF D full dev hD hf1 hf
  obtain ⟨t1, o, t2, t3, t4⟩ := hT pcs h
  obtain ⟨t1', o', t2', t3', t4'⟩ := hT pcs' h'
  have hos := hs.map T
  have rows : ∀ pc ∈ pcs, ∃ R, HasRows (T pc) fl.feature R ∧ R.length = (T pc).nnumNempty D := fun pc hp =>
    (t1 pc hp).1.rows fl.feature (fun e => hfe.normals e pc hp) (fun e => hfe.features e pc hp)
  obtain ⟨xs, x1, x2, x3, x4⟩ := input_batch t3 fl.feature hfe.some fl.nempty (by
    intro o ho
    obtain ⟨pc, hp, rfl⟩ := List.mem_map.1 ho
    exact rows pc hp)
  obtain ⟨xs', x1', x2', x3', x4'⟩ := input_batch t3' fl.feature hfe.some fl.nempty (by
    intro o ho
    obtain ⟨pc, hp, rfl⟩ := List.mem_map.1 ho
    exact rows pc (hs.perm.mem_iff.2 hp))
  rw [← hfe.channel] at x4 x4'
  have l1 : xs.length = pcs.length := by simpa using congrArg List.length x1
  have l1' : xs'.length = pcs'.length := by simpa using congrArg List.length x1'
  have hx : Shuffled σ xs xs' := by
    refine ⟨hs.injective, by rw [l1, l1', hs.length], by rw [l1]; exact hs.range, fun b hb => ?_⟩
    rw [l1] at hb
    obtain ⟨v, e1, e2⟩ := x2 b (T pcs[b]) (by rw [List.getElem?_map, List.getElem?_eq_getElem hb]; rfl)
    obtain ⟨v', e1', e2'⟩ := x2' (σ b) (T pcs[b]) (by rw [List.getElem?_map, hs.same b hb, List.getElem?_eq_getElem hb]; rfl)
    rw [e2] at e2'
    cases e2'
    rw [e1, e1']
  obtain ⟨B, -⟩ := t3.batchOf
  refine ⟨o, o', _, _, t2, t2', t4, t4', by rw [B.size, List.length_map], shuffled_pair t3 t3' hos, ?_, ?_,
    shuffled_rows t3 t3' hos (hx.map fun x => x.map fun (r : List ℚ) (i : Fin fl.channel) => r.getD i 0) fl.nempty D (le_refl _) ?_⟩
  · unfold inputTensor
    rw [x3]
    exact ofRows_flatten _ xs x4
  · unfold inputTensor
    rw [x3']
    exact ofRows_flatten _ xs' x4'
  · rw [← x1, List.map_map]
    exact List.map_congr_left fun x _ => by simp

/-- **C148** classification: with the clouds of the batch in another order, the rows of logits are in that order, for LeNet, ResNet and HRNet, in
evaluation mode and in training mode, where batch normalization uses the statistics of the batch.  The numbers drawn by dropout for a sample must be
the same in both runs (`d'` and the ones in `P`). -/
theorem C148_classification (P : Params) (d' : String → Nat → Nat → ℚ) (fl : ModelFlags) (nrm : V3 ℚ → V3 ℚ) (divF : ℚ → (Fin k → ℚ) → (Fin k → ℚ))
    (D full dev : Nat) (hD : D ≤ 16) (hf1 : 1 ≤ full) (hf : full ≤ D) (σ : Nat → Nat) (pcs pcs' : List (Points ℚ (Fin k → ℚ) L)) (h : LegalBatch pcs dev)
    (hs : Shuffled σ pcs pcs') (hfe : FeatureOk fl pcs) (hn : ClsNetworkOk fl D) (hst : fl.name.toLower = "resnet" → fl.nempty = false → fl.stages < D)
    (hd : ∀ name, ∀ b < pcs.length, ∀ i, d' name (σ b) i = P.drop name b i)
    (ho : ∀ o, batchOctree nrm divF D full pcs = .ok o → NotSingle P o fl.nempty (clsCoarsest fl D) D) (h1 : P.training = true → pcs.length ≠ 1) :
    Reordered σ pcs.length fl.nout (clsStep P fl nrm divF D full pcs) (clsStep { P with drop := d' } fl nrm divF D full pcs') := by
  obtain ⟨o, o', x, x', e1, e2, e3, e4, e5, p, e6, e7, hM⟩ := shuffled_batches fl nrm divF D full dev hD hf1 hf pcs pcs' h hs hfe
  have Ly := layers_shuffle (P := noDrop P) (fun _ _ _ => rfl) p
  have hR : (shuffleSys (noDrop P) o o' σ).R ((shuffleSys (noDrop P) o o' σ).ht fl.nempty D) fl.channel ⟨fl.channel, x'⟩ ⟨fl.channel, x⟩ :=
    ⟨_, _, rfl, rfl, hM, qc_nodup p.valid D (le_refl _) _, qc_nodup p.valid' D (le_refl _) _, p.legal D⟩
  have hmask : SameMasks (shuffleSys (noDrop P) o o' σ) (noDrop P) d' P.drop := same_masks (by rw [e5]; exact hs.range) (by rw [e5]; exact hd)
  have hok : ∀ d, clsCoarsest fl D ≤ d → d ≤ D → (shuffleSys (noDrop P) o o' σ).ok ((shuffleSys (noDrop P) o o' σ).ht fl.nempty d) := fun d a b =>
    sys_ok p.valid (by unfold clsCoarsest; split <;> [omega; split <;> omega]) (le_refl D) (ho o e1) d a b
  have hokb : (shuffleSys (noDrop P) o o' σ).ok (shuffleSys (noDrop P) o o' σ).hb := sys_ok_batch (by rw [e5]; exact h1)
  have main : Both ((shuffleSys (noDrop P) o o' σ).R (shuffleSys (noDrop P) o o' σ).hb fl.nout)
      (clsModel (withDrop (noDrop P) d') fl o' D ⟨fl.channel, x'⟩) (clsModel (withDrop (noDrop P) P.drop) fl o D ⟨fl.channel, x⟩) := by
    unfold clsModel
    unfold clsCoarsest at hok
    rcases hn with ⟨n1, n2, n3⟩ | ⟨n1, n2, n3, n4⟩ | ⟨n1, n2, n3⟩
    · simp only [n1, if_true] at hok ⊢
      subst n3
      exact lenet_masks Ly hmask fl.nout n2 trivial (sys_lo fun _ => by omega) (le_refl _) hfe.width (fun d a b => hok d (by omega) b) hokb hR
    · simp only [n1, show ¬ ("resnet" = "lenet") by decide, if_false, if_true] at hok ⊢
      exact resnet_masks Ly hmask fl.nout fl.resblockNum n3 n2 n4 ⟨sys_lo fun e => by have := hst n1 e; omega, le_refl _⟩ hfe.width
        (fun d a b => hok d (by omega) b) hokb hR
    · simp only [n1, show ¬ ("hrnet" = "lenet") by decide, show ¬ ("hrnet" = "resnet") by decide, if_false, if_true, hrnet_withDrop] at hok ⊢
      exact Ly.hrnet fl.nout n2 n3 ⟨sys_lo fun _ => by omega, le_refl _⟩ hfe.width (fun d a b => hok d (by omega) b) hR
  have fin := both_samples (o := o) (o' := o') (e := 0) (t := (0, 0, 0)) main
  unfold clsStep
  rw [e1, e2]
  simp only [bind, Except.bind, e6, e7, e3, e4]
  rw [← e5]
  exact fin

/-! ### segmentation -/

/-- The points of clouds with the numbers of the clouds. -/
def cloudQueries (Es : List (List (PointData k Int))) : List (V3 ℚ × Nat) := (Es.zipIdx.map fun E => E.1.map fun e => (e.pos, E.2)).flatten

theorem seg_rows (P : Params) (fl : ModelFlags) (nrm : V3 ℚ → V3 ℚ) (divF : ℚ → (Fin k → ℚ) → (Fin k → ℚ)) (D full dev : Nat) {n f : Bool}
    (o' : Octree (Fin k → ℚ)) (t4 : o'.depth = D) (x : Tensor) (x3 : inputTensor fl o' = .ok x) (g : V3 ℚ × Nat → Fin fl.nout → ℚ)
    (Es : List (List (PointData k Int))) (pcs : List (Points ℚ (Fin k → ℚ) Int)) (h : LegalBatch pcs dev) (hE : List.Forall₂ (Listing n f true) Es pcs)
    (hb : batchOctree nrm divF D full pcs = .ok o')
    (hm : segModel P fl o' D ((cloudQueries Es).map row4) x = .ok ⟨fl.nout, (cloudQueries Es).map g⟩) :
    segStep P fl nrm divF D full pcs = .ok (⟨fl.nout, pointRows fl.mask (fun i p => g (p, i)) Es⟩, pointLabels fl.mask Es) := by
  have hqs : batchPoints (Es.map fun E => E.map PointData.pos) = (cloudQueries Es).map row4 := by
    rw [batchPoints_eq, blocks_pos]
    rfl
  have hl : ∀ pc ∈ pcs, pc.labels ≠ none := by
    intro pc hp
    obtain ⟨E, -, hE⟩ := forall₂_mem_right hE hp
    rw [hE.labels]
    simp
  obtain ⟨q, ls, q1, q2, q3, q4, q5, -⟩ := points_merged h hl
  have hls : ls = Es.map fun E => E.map PointData.label := by
    have : pcs.map (fun p => p.labels) = (Es.map fun E => E.map PointData.label).map some := by
      clear * - hE
      induction hE with
      | nil => rfl
      | cons a _ ih => rw [List.map_cons, List.map_cons, List.map_cons, ih, a.labels, if_pos rfl]
    rw [this] at q4
    exact ((List.map_injective_iff.mpr (Option.some_injective _)) q4).symm
  unfold segStep processBatch
  rw [hb]
  simp only [bind, Except.bind, q1, pure, Except.pure]
  unfold segForward
  simp only [bind, Except.bind, x3, query_batch pcs q q2 q3, t4, q5, need, pure, Except.pure, blocks_entries Es pcs hE, hqs, hm]
  have e1 : ls.flatten = ((Es.zipIdx.map fun E => E.1.map fun e => (e, E.2)).flatten).map fun e => e.1.label := by
    rw [hls, List.map_flatten, List.map_map]
    simp only [Function.comp_def, List.map_map]
    exact congrArg List.flatten (zipIdx_fst_map (fun E : List (PointData k Int) => E.map PointData.label) Es).symm
  have e2 : cloudQueries Es = ((Es.zipIdx.map fun E => E.1.map fun e => (e, E.2)).flatten).map fun e => (e.1.pos, e.2) := by
    simp only [cloudQueries, List.map_flatten, List.map_map, Function.comp_def]
  have e3 : pointLabels fl.mask Es = ((((Es.zipIdx.map fun E => E.1.map fun e => (e, E.2)).flatten).filter fun e => decide (e.1.label > fl.mask)).map fun e => e.1.label) := by
    simp only [pointLabels, List.map_flatten, List.filter_flatten, List.map_map, List.filter_map, Function.comp_def]
    exact congrArg List.flatten (zipIdx_fst_map (fun E : List (PointData k Int) => (E.filter fun e => decide (fl.mask < e.label)).map PointData.label) Es).symm
  have e4 : pointRows fl.mask (fun i p => g (p, i)) Es = ((((Es.zipIdx.map fun E => E.1.map fun e => (e, E.2)).flatten).filter fun e => decide (e.1.label > fl.mask)).map fun e => g (e.1.pos, e.2)) := by
    simp only [pointRows, List.map_flatten, List.filter_flatten, List.map_map, List.filter_map, Function.comp_def]
  rw [e1, e2, e3, e4]
  unfold boolIndex
  simp only [List.map_map, List.length_map, if_true, Function.comp_def, maskSel_map_map]

theorem queries_shuffled {σ : Nat → Nat} {Es Es' : List (List (PointData k Int))} (hE : Shuffled σ Es Es') :
    (cloudQueries Es').Perm ((cloudQueries Es).map fun q => (q.1, σ q.2)) := by
  have e : ∀ Es : List (List (PointData k Int)), cloudQueries Es = ((List.range Es.length).map fun i => ((Es[i]?).getD []).map fun e => (e.pos, i)).flatten := by
    intro Es
    unfold cloudQueries
    rw [zipIdx_map_range Es (fun (E : List (PointData k Int)) (i : Nat) => E.map fun e => (e.pos, i)) []]
  rw [e, e, List.map_flatten, List.map_map, hE.length]
  have h1 := ((range_shuffled hE.injective hE.range).map fun i => ((Es'[i]?).getD []).map fun e => (e.pos, i)).symm.flatten
  rw [List.map_map] at h1
  refine h1.trans (List.Perm.of_eq ?_)
  congr 1
  refine List.map_congr_left fun b hb => ?_
  simp only [Function.comp_apply, hE.same b (List.mem_range.1 hb), List.map_map]
  rfl

theorem shift_zero (v : V3 ℚ) : shiftPoint 0 (0, 0, 0) v = v := by
  unfold shiftPoint
  simp

/-- **C148** segmentation: there are rows of logits for every position in every cloud such that the solver gives every labelled point the row of its
position, for both orders of the clouds, in evaluation mode and in training mode.  `E`, `E'` list the points of the clouds.  In training mode the
network must not meet a batch normalization over a single row, which raises. -/
theorem C148_segmentation (P : Params) (fl : ModelFlags) (nrm : V3 ℚ → V3 ℚ) (divF : ℚ → (Fin k → ℚ) → (Fin k → ℚ))
    (D full dev : Nat) (hD : D ≤ 16) (hf1 : 1 ≤ full) (hf : full ≤ D) (n f : Bool) (σ : Nat → Nat) (Es Es' : List (List (PointData k Int)))
    (pcs pcs' : List (Points ℚ (Fin k → ℚ) Int)) (h : LegalBatch pcs dev) (hs : Shuffled σ pcs pcs') (hE : List.Forall₂ (Listing n f true) Es pcs)
    (hE' : List.Forall₂ (Listing n f true) Es' pcs') (hsE : Shuffled σ Es Es') (hfe : FeatureOk fl pcs)
    (hn : SegNetworkOk fl D fun d => ∀ o, batchOctree nrm divF D full pcs = .ok o → o.nnumNempty d = o.nnum d)
    (ho : ∀ o, batchOctree nrm divF D full pcs = .ok o → NotSingle P o fl.nempty (coarsest fl D) D)
    (h1 : P.training = true → (Es.map List.length).sum ≠ 1) :
    ∃ g g' : Nat → V3 ℚ → Fin fl.nout → ℚ, (∀ b, g' (σ b) = g b) ∧
      segStep P fl nrm divF D full pcs = .ok (⟨fl.nout, pointRows fl.mask g Es⟩, pointLabels fl.mask Es) ∧
      segStep P fl nrm divF D full pcs' = .ok (⟨fl.nout, pointRows fl.mask g' Es'⟩, pointLabels fl.mask Es') := by
  obtain ⟨o, o', x, x', e1, e2, e3, e4, e5, p, e6, e7, hM⟩ := shuffled_batches fl nrm divF D full dev hD hf1 hf pcs pcs' h hs hfe
  have hlenE : Es.length = pcs.length := hE.length_eq
  have hlen : (cloudQueries Es).length = (Es.map List.length).sum := by
    simp only [cloudQueries, List.length_flatten, List.map_map, Function.comp_def, List.length_map]
    rw [zipIdx_fst_map]
  have hmem : ∀ q ∈ cloudQueries Es, q.2 < o.batchSize ∧ InCube q.1 := by
    intro q hq
    obtain ⟨l, hl, hq⟩ := List.mem_flatten.1 hq
    obtain ⟨E, hE0, rfl⟩ := List.mem_map.1 hl
    obtain ⟨e, he, rfl⟩ := List.mem_map.1 hq
    have h3 := (List.mem_zipIdx hE0).2.1
    refine ⟨by rw [e5]; show E.2 < _; omega, ?_⟩
    have hE1 : E.1 ∈ Es := by
      have := List.mem_zipIdx_iff_getElem?.1 hE0
      exact List.mem_of_getElem? this
    obtain ⟨i, hi⟩ := List.mem_iff_getElem?.1 hE1
    have hlt := (List.getElem?_eq_some_iff.1 hi).1
    have hL := (List.forall₂_iff_get.1 hE).2 i hlt (by omega)
    have hg : Es.get ⟨i, hlt⟩ = E.1 := by
      have := (List.getElem?_eq_some_iff.1 hi).2
      simpa using this
    rw [hg] at hL
    refine h.inCube _ (List.get_mem _ ⟨i, by omega⟩) _ ?_
    rw [hL.points]
    exact List.mem_map.2 ⟨e, he, rfl⟩
  have Ly := layers_shuffle (P := noDrop P) (fun _ _ _ => rfl) p
  have hR : (shuffleSys (noDrop P) o o' σ).R ((shuffleSys (noDrop P) o o' σ).ht fl.nempty D) fl.channel ⟨fl.channel, x'⟩ ⟨fl.channel, x⟩ :=
    ⟨_, _, rfl, rfl, hM, qc_nodup p.valid D (le_refl _) _, qc_nodup p.valid' D (le_refl _) _, p.legal D⟩
  have hcoarse : 1 ≤ coarsest fl D := by
    unfold coarsest
    rcases hn with ⟨n1, n2⟩ | ⟨n1, n2, n3, n4⟩
    · rw [if_pos n1]; omega
    · rw [if_neg (by rw [n1]; decide)]; omega
  have hok : ∀ d, coarsest fl D ≤ d → d ≤ D → (shuffleSys (noDrop P) o o' σ).ok ((shuffleSys (noDrop P) o o' σ).ht fl.nempty d) := fun d a b =>
    sys_ok p.valid hcoarse (le_refl D) (ho o e1) d a b
  have hQ : Queries (shuffleSys (noDrop P) o o' σ) o' o D (((cloudQueries Es).map fun q => (q.1, σ q.2)).map row4) ((cloudQueries Es).map row4)
      (sampleCells (cloudQueries Es).length, sampleCells (cloudQueries Es).length, reorder id) := by
    have := p.queries (cloudQueries Es) (fun q hq => (hmem q hq).1) (fun q hq => ⟨(hmem q hq).2, by rw [shift_zero]; exact (hmem q hq).2⟩)
    simp only [shift_zero] at this
    exact this
  have hokq : (shuffleSys (noDrop P) o o' σ).ok (sampleCells (cloudQueries Es).length, sampleCells (cloudQueries Es).length, reorder id) := by
    intro hP
    show (sampleCells _).length ≠ 1
    rw [show (sampleCells (cloudQueries Es).length).length = (cloudQueries Es).length by simp [sampleCells], hlen]
    exact h1 hP
  have main : Both ((shuffleSys (noDrop P) o o' σ).R (sampleCells (cloudQueries Es).length, sampleCells (cloudQueries Es).length, reorder id) fl.nout)
      (segModel (noDrop P) fl o' D (((cloudQueries Es).map fun q => (q.1, σ q.2)).map row4) ⟨fl.channel, x'⟩)
      (segModel (noDrop P) fl o D ((cloudQueries Es).map row4) ⟨fl.channel, x⟩) := by
    unfold segModel
    unfold coarsest at hok
    rcases hn with ⟨n1, n2⟩ | ⟨n1, n2, n3, n4⟩
    · simp only [n1, show ¬ ("unet" = "segnet") by decide, if_false, if_true] at hok ⊢
      exact Ly.unet unetConfig_ok fl.nout fl.interp n2 ⟨sys_lo fun _ => by show 1 ≤ D - 4; omega, le_refl _⟩ hfe.width hok hQ hokq hR
    · simp only [n1, show ¬ ("segnet" = "unet") by decide, if_false, if_true] at hok ⊢
      refine Ly.segnet fl.nout n2 fl.interp n3 ⟨sys_lo fun _ => by omega, le_refl _⟩ (sys_lo fun _ => by omega) hfe.width trivial ?_ hok hQ hokq hR
      cases hne : fl.nempty with
      | false => rfl
      | true =>
        have hd : D - fl.stages ≤ D := by omega
        have sub : ∀ {o : Octree (Fin k → ℚ)}, o.Valid D → (qc o true (D - fl.stages)).length = (qc o false (D - fl.stages)).length →
            qc o true (D - fl.stages) = qc o false (D - fl.stages) := by
          intro o w hl
          rw [qc_true] at hl ⊢
          exact List.Sublist.eq_of_length (maskSel_sublist _ _) hl
        have c1 := (p.cells (d := D - fl.stages) (nempty := true) ⟨lo_of (by simp), hd⟩).1
        have c2 := (p.cells (d := D - fl.stages) (nempty := false) ⟨lo_of (by simp; omega), hd⟩).1
        have q1 := qc_length p.valid (D - fl.stages) hd true
        have q2 := qc_length p.valid (D - fl.stages) hd false
        have i1 := sub p.valid (by rw [q1, q2]; simpa using n4 hne o e1)
        have i2 := sub p.valid' (by rw [← c1, ← c2, i1])
        show (qc o true _, qc o' true _, _) = (qc o false _, qc o' false _, _)
        rw [i1, i2]
  rw [segModel_noDrop, segModel_noDrop] at main
  obtain ⟨rows, r1, r2, r3⟩ := both_queries (o := o) (o' := o') (σ := σ) (e := 0) (t := (0, 0, 0)) main
  have hs' : NotSingle P o' fl.nempty (coarsest fl D) D := by
    intro hP hne d a b
    have c1 := (p.cells (d := d) (nempty := true) ⟨lo_of (by simp), b⟩).1
    rw [qc_length p.valid d b, qc_length p.valid' d b] at c1
    have := ho o e1 hP hne d a b
    simp only [if_true] at c1
    omega
  obtain ⟨g, g1, g2⟩ := seg_order P fl D p.valid' p.neigh' hfe.width (by
      rcases hn with hn | ⟨a, b, c, d⟩
      · exact .inl hn
      · refine .inr ⟨a, b, c, fun e => ?_⟩
        have hd : D - fl.stages ≤ D := by omega
        have c1 := (p.cells (d := D - fl.stages) (nempty := true) ⟨lo_of (by simp), hd⟩).1
        have c2 := (p.cells (d := D - fl.stages) (nempty := false) ⟨lo_of (by simp; omega), hd⟩).1
        rw [qc_length p.valid _ hd, qc_length p.valid' _ hd] at c1 c2
        have := d e o e1
        simp only [if_true, Bool.false_eq_true, if_false] at c1 c2
        omega) hs' (cloudQueries Es') _ (queries_shuffled hsE) (by
      intro q hq
      obtain ⟨q', hq', rfl⟩ := List.mem_map.1 hq
      have i1 := p.shifted.range _ (hmem q' hq').1
      have i2 := p.valid.batch_le
      show σ q'.2 < 2 ^ 15
      omega) (by rw [List.length_map, hlen]; exact h1) x' (by
      rw [← hM.2.1, qc_length p.valid' D (le_refl _)]
      rfl)
  rw [r2] at g2
  have hrows : rows = (cloudQueries Es).map fun q => g (q.1, σ q.2) := by
    have := congrArg (fun r : M Tensor => match r with | .ok t => (if h : t.width = fl.nout then h ▸ t.rows else []) | .error _ => []) g2
    simpa [List.map_map, Function.comp_def] using this
  rw [hrows] at r1
  exact ⟨fun b v => g (v, σ b), fun b v => g (v, b), fun _ => rfl,
    seg_rows P fl nrm divF D full dev o e3 _ e6 (fun q => g (q.1, σ q.2)) Es pcs h hE e1 r1,
    seg_rows P fl nrm divF D full dev o' e4 _ e7 g Es' pcs' (legal_shuffled h hs) hE' e2 g1⟩

/-! ### a concrete case -/

theorem swap_shuffled {α : Type} (a b : α) : Shuffled (Equiv.swap 0 1) [a, b] [b, a] := by
  refine ⟨(Equiv.swap 0 1).injective, rfl, ?_, ?_⟩ <;>
  · intro i hi
    have : i = 0 ∨ i = 1 := by simp at hi; omega
    rcases this with rfl | rfl <;> simp

/-- Training mode, two clouds swapped, ResNet with all octants; the masks of dropout are swapped too. -/
example (P : Params) (nrm : V3 ℚ → V3 ℚ) (divF : ℚ → (Fin 1 → ℚ) → (Fin 1 → ℚ)) :
    Reordered (Equiv.swap 0 1) 2 10 (clsStep P ⟨"ResNet", 4, 10, 3, 3, "linear", false, "ND", -1⟩ nrm divF 5 2 [cloudP 0, cloudP 1])
      (clsStep { P with drop := fun n b i => P.drop n (Equiv.swap 0 1 b) i } ⟨"ResNet", 4, 10, 3, 3, "linear", false, "ND", -1⟩ nrm divF 5 2
        [cloudP 1, cloudP 0]) :=
  C148_classification P (fun n b i => P.drop n (Equiv.swap 0 1 b) i) ⟨"ResNet", 4, 10, 3, 3, "linear", false, "ND", -1⟩ nrm divF 5 2 0 (by decide) (by decide)
    (by decide) (Equiv.swap 0 1) _ _ cloudP_legal (swap_shuffled _ _) (cloudP_features _ _ _)
    (.inr (.inl ⟨show "ResNet".toLower = "resnet" by decide +kernel, by decide, by decide, by decide⟩)) (fun _ _ => by decide)
    (fun _ _ _ _ => by simp) (fun _ _ _ e => absurd e (show ¬ (false = true) by decide)) (fun _ => by simp)

/-- Training mode, two clouds swapped, UNet with all octants. -/
example (P : Params) (nrm : V3 ℚ → V3 ℚ) (divF : ℚ → (Fin 1 → ℚ) → (Fin 1 → ℚ)) :
    ∃ g g' : Nat → V3 ℚ → Fin 10 → ℚ, (∀ b, g' (Equiv.swap 0 1 b) = g b) ∧
      segStep P ⟨"UNet", 4, 10, 0, 3, "linear", false, "ND", -1⟩ nrm divF 6 2 [cloudP 0, cloudP 1] =
        .ok (⟨10, [g 0 ⟨-1 / 4 + 0, -1 / 3, 2 / 3⟩, g 1 ⟨-1 / 4 + 1, -1 / 3, 2 / 3⟩]⟩, [3, 3]) ∧
      segStep P ⟨"UNet", 4, 10, 0, 3, "linear", false, "ND", -1⟩ nrm divF 6 2 [cloudP 1, cloudP 0] =
        .ok (⟨10, [g' 0 ⟨-1 / 4 + 1, -1 / 3, 2 / 3⟩, g' 1 ⟨-1 / 4 + 0, -1 / 3, 2 / 3⟩]⟩, [3, 3]) := by
  have a : ∀ s, Listing true false true (dataP s) (cloudP s) := fun s => ⟨rfl, rfl, rfl, rfl⟩
  exact C148_segmentation P ⟨"UNet", 4, 10, 0, 3, "linear", false, "ND", -1⟩ nrm divF 6 2 0 (by decide) (by decide) (by decide) true false
    (Equiv.swap 0 1) [dataP 0, dataP 1] [dataP 1, dataP 0] _ _ cloudP_legal (swap_shuffled _ _) (.cons (a 0) (.cons (a 1) .nil))
    (.cons (a 1) (.cons (a 0) .nil)) (swap_shuffled _ _) (cloudP_features _ _ _)
    (.inl ⟨show "UNet".toLower = "unet" by decide +kernel, by decide⟩) (fun _ _ _ e => absurd e (show ¬ (false = true) by decide)) (fun _ => by simp [dataP])

end Ocnn
