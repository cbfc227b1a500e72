import Verif.PropsShuffle

/-! C94 in training mode: whole networks on an octree and on the same octree moved by whole voxels, where batch normalization uses the statistics of the
batch. -/

set_option linter.unusedSimpArgs false

namespace Ocnn
open Spec

/-- The tensors of the runs on an octree and on a moved octree; in training mode the tensors that are normalised must not have a single row. -/
def trainSys {F : Type} (P : Params) (o o' : Octree F) (σ : Nat → Nat) (e : Nat) (t : Int × Int × Int) : Sys :=
  { movedSys o o' σ e t with ok := fun r => P.training = true → r.1.length ≠ 1 }

theorem layers_train {F : Type} {P : Params} (hdrop : ∀ name n i, P.drop name n i = 1) {o o' : Octree F} {σ : Nat → Nat} {e : Nat} {t : Int × Int × Int} {D : Nat}
    (p : MovedPair o o' σ e t D) : Layers P P (trainSys P o o' σ e t) o' o D where
  conv3 := fun name {_} co {_ _} h1 hD hc {_ _} h => p.conv3 P name co h1 hD hc h
  conv2 := fun name {_} co {_ _} hD hc {_ _} h => p.conv2 P name co hD hc h
  deconv2 := fun name ci {_ _ _} hD hc {_ _} h => p.deconv2 P name ci hD hc h
  maxPoolIdx := fun {_ _ _} hD {_ _} h => p.maxPoolIdx hD h
  globalPool := fun {_ _ _} hD {_ _} h => p.globalPool hD h
  upsampleT := fun {_ _ _} hD {_ _} h => p.upsampleT hD h
  depadT := fun {_ _} hD {_ _} h => p.depadT hD h
  unpoolT := fun {_ _ _} _ hD {_ _ _ _} h hi hs => p.unpoolT hD h hi hs
  voxelFlat := fun h => h.elim
  bn := by
    intro name c r hok x y h
    obtain ⟨u, v, rfl, rfl, hM, hn, hn', hm⟩ := h
    have hp := hM.rows_perm hm hn hn'
    unfold batchNorm
    rw [Tensor.on_self, Tensor.on_self]
    by_cases hP : P.training = true
    · have h1 : ¬ v.length = 1 := by rw [← hM.1]; exact hok hP
      have h2 : ¬ u.length = 1 := by rw [← hp.length_eq]; exact h1
      rw [if_pos hP, if_pos hP, if_neg h1, if_neg h2]
      refine Both.pure ⟨_, _, rfl, rfl, ?_, hn, hn', hm⟩
      simp only [colMean_perm hp, colVar_perm hp]
      exact hM.map _
    · rw [if_neg hP, if_neg hP]
      exact Both.pure ⟨_, _, rfl, rfl, hM.map _, hn, hn', hm⟩
  drop := by
    intro name c t s _ h
    have e : ∀ t : Tensor, dropout P name t = t := by
      intro t
      unfold dropout
      simp only [hdrop, mul_one]
      have : (t.rows.zipIdx.map fun v => fun i => v.1 i) = t.rows := by
        have : (fun v : (Fin t.width → ℚ) × Nat => fun i => v.1 i) = Prod.fst := rfl
        rw [this, List.zipIdx_map_fst]
      rw [this, ite_self]
    rw [e, e]
    exact h

section nets
variable {F : Type} (P : Params) {o o' : Octree F} {σ : Nat → Nat} {e : Nat} {t : Int × Int × Int} {D : Nat}

theorem train_ok (w : o.Valid D) {nempty : Bool} {a b : Nat} (ha : 1 ≤ a) (hb : b ≤ D)
    (hs : NotSingle P o nempty a b) (d : Nat) (h1 : a ≤ d) (h2 : d ≤ b) : (trainSys P o o' σ e t).ok ((trainSys P o o' σ e t).ht nempty d) := by
  intro hP
  show (qc o nempty d).length ≠ 1
  rw [qc_length w d (by omega)]
  have := bnOk_ne w ha hb hs d h1 h2 hP
  simpa [ht, rowsAt] using this.2

variable (p : MovedPair o o' σ e t D)
include p

/-- **C94** ResNet in evaluation or training mode: moving the octree with its features by `t` voxels of level `e` does not change the logits; renumbering
the samples renumbers the rows.  Batch normalization uses the statistics of the batch in training mode.  The numbers drawn by dropout for a sample must be
the same in both runs (`d'` and the ones in `P`). -/
theorem C94_training_resnet (d' : String → Nat → Nat → ℚ) (hd : ∀ name, ∀ b < o.batchSize, ∀ i, d' name (σ b) i = P.drop name b i)
    (depth stages num : Nat) (hst : 1 ≤ stages) (hnum : 1 ≤ num) (hds : stages ≤ depth) (hD : depth ≤ D)
    (cin cout : Nat) (hc : WidthOk cin) (nempty : Bool) (he : e + (if nempty then 0 else 1) ≤ depth - stages)
    (hs : NotSingle P o nempty (depth - stages + 1) depth) (hB : P.training = true → o.batchSize ≠ 1)
    (cells cells' : List Cell) (ch ch' : List Int) (h1 : CellsOf o.batchSize depth o.keys cells) (h2 : o.children depth = some ch)
    (h3 : CellsOf o'.batchSize depth o'.keys cells') (h4 : o'.children depth = some ch') (x x' : List (Fin cin → ℚ))
    (hx : Moved (shiftBy σ e t depth) (queried nempty cells ch) x (queried nempty cells' ch') x') :
    Reordered σ o.batchSize cout (resnet P cin cout num stages nempty o depth ⟨cin, x⟩)
      (resnet { P with drop := d' } cin cout num stages nempty o' depth ⟨cin, x'⟩) := by
  have hmask : SameMasks (trainSys (noDrop P) o o' σ e t) (noDrop P) d' P.drop := same_masks (P := noDrop P) (o := o) (o' := o') p.shifted.range hd
  have hokb : (trainSys (noDrop P) o o' σ e t).ok (trainSys (noDrop P) o o' σ e t).hb := by
    intro hP
    show (sampleCells o.batchSize).length ≠ 1
    simpa [sampleCells] using hB hP
  exact both_samples (o := o) (o' := o') (e := e) (t := t) (resnet_masks (layers_train (P := noDrop P) (fun _ _ _ => rfl) p) hmask cout num hnum hst hds
    ⟨lo_of (o := o) (o' := o') (σ := σ) (t := t) he, hD⟩ hc (fun d a b => train_ok (noDrop P) p.valid (by omega) hD hs d (by omega) b) hokb
    (rel_moved p hD h1 h2 h3 h4 hx))

/-- **C94** HRNet in evaluation or training mode. -/
theorem C94_training_hrnet (depth stages : Nat) (hst : 1 ≤ stages) (hds : min stages 4 + 2 ≤ depth) (hD : depth ≤ D)
    (cin cout : Nat) (hc : WidthOk cin) (nempty : Bool) (he : e + (if nempty then 0 else 1) ≤ 2) (hs : NotSingle P o nempty 2 depth)
    (cells cells' : List Cell) (ch ch' : List Int) (h1 : CellsOf o.batchSize depth o.keys cells) (h2 : o.children depth = some ch)
    (h3 : CellsOf o'.batchSize depth o'.keys cells') (h4 : o'.children depth = some ch') (x x' : List (Fin cin → ℚ))
    (hx : Moved (shiftBy σ e t depth) (queried nempty cells ch) x (queried nempty cells' ch') x') :
    Reordered σ o.batchSize cout (hrnet P cin cout stages nempty o depth ⟨cin, x⟩) (hrnet P cin cout stages nempty o' depth ⟨cin, x'⟩) :=
  both_samples (o := o) (o' := o') (e := e) (t := t) ((layers_train (P := noDrop P) (fun _ _ _ => rfl) p).hrnet cout hst hds
    ⟨lo_of (o := o) (o' := o') (σ := σ) (t := t) he, hD⟩ hc (fun d a b => train_ok (noDrop P) p.valid (by omega) hD hs d (by omega) b) (rel_moved p hD h1 h2 h3 h4 hx))

/-- **C94** UNet in evaluation or training mode: the predictions at the moved query points are those at the query points. -/
theorem C94_training_unet (cfg : UNetConfig) (hcfg : cfg.Ok) (depth : Nat) (hds : cfg.encoderBlocks.length < depth) (hD : depth ≤ D)
    (cin cout : Nat) (hc : WidthOk cin) (nempty : Bool) (he : e + (if nempty then 0 else 1) ≤ depth - cfg.encoderBlocks.length) (method : String)
    (hs : NotSingle P o nempty (depth - cfg.encoderBlocks.length) depth)
    (qs : List (V3 ℚ × Nat)) (hq : P.training = true → qs.length ≠ 1) (hb : ∀ q ∈ qs, q.2 < o.batchSize) (hi : ∀ q ∈ qs, InCube q.1 ∧ InCube (shiftPoint e t q.1))
    (cells cells' : List Cell) (ch ch' : List Int) (h1 : CellsOf o.batchSize depth o.keys cells) (h2 : o.children depth = some ch)
    (h3 : CellsOf o'.batchSize depth o'.keys cells') (h4 : o'.children depth = some ch') (x x' : List (Fin cin → ℚ))
    (hx : Moved (shiftBy σ e t depth) (queried nempty cells ch) x (queried nempty cells' ch') x') :
    SameOutput qs.length cout (unet P cfg cin cout method nempty o depth (qs.map row4) ⟨cin, x⟩)
      (unet P cfg cin cout method nempty o' depth ((qs.map fun q => (shiftPoint e t q.1, σ q.2)).map row4) ⟨cin, x'⟩) :=
  both_queries (o := o) (o' := o') (σ := σ) (e := e) (t := t) ((layers_train (P := noDrop P) (fun _ _ _ => rfl) p).unet hcfg cout method hds
    ⟨lo_of (o := o) (o' := o') (σ := σ) (t := t) he, hD⟩ hc (fun d a b => train_ok (noDrop P) p.valid (by omega) hD hs d (by omega) b) (p.queries qs hb hi)
    (fun hP => by
      show (sampleCells qs.length).length ≠ 1
      simpa [sampleCells] using hq hP)
    (rel_moved p hD h1 h2 h3 h4 hx))

end nets

/-- **C94** from point cloud to logits, in evaluation or training mode: a cloud of one or more samples and the same cloud translated by whole cells of level
`e ≥ full_depth` get the same logits from ResNet, if dropout draws the same numbers. -/
theorem C94_training_classification {L : Type} {k : Nat} (P : Params) (nrm : V3 ℚ → V3 ℚ)
    (divF : ℚ → (Fin k → ℚ) → (Fin k → ℚ)) (o : Octree (Fin k → ℚ)) (pc pc' : Points ℚ (Fin k → ℚ) L) (samples : List Nat)
    (h : LegalBuild o pc samples) (h' : LegalBuild o pc' samples) (e : Nat) (t : Int × Int × Int) (hf : 1 ≤ o.fullDepth) (he : o.fullDepth ≤ e)
    (hs : TranslatedCloud e t pc pc') (feature : String) (hN : Asks feature 'N' 'n' ∨ Asks feature 'D' 'd' → pc.normals ≠ none)
    (hF : Asks feature 'F' 'f' → pc.features ≠ none) (hP : ¬ Asks feature 'P' 'p')
    (ha : Asks feature 'N' 'n' ∨ Asks feature 'D' 'd' ∨ Asks feature 'L' 'l' ∨ Asks feature 'F' 'f')
    (stages num cout : Nat) (hst : 1 ≤ stages) (hnum : 1 ≤ num) (hds : stages ≤ o.depth) (hw : WidthOk (channelCount feature k)) (nempty : Bool)
    (hen : e + (if nempty then 0 else 1) ≤ o.depth - stages)
    (hn1 : ∀ o₁ i₁ t₁, Octree.build nrm divF o pc = .ok (o₁, i₁) → o₁.constructAllNeigh = .ok t₁ → NotSingle P t₁ nempty (o.depth - stages + 1) o.depth)
    (hB : P.training = true → o.batchSize ≠ 1) :
    ∃ o₁ i₁ t₁ x₁ o₂ i₂ t₂ x₂, Octree.build nrm divF o pc = .ok (o₁, i₁) ∧ o₁.constructAllNeigh = .ok t₁ ∧
      t₁.inputFeature feature nempty = .ok x₁ ∧ Octree.build nrm divF o pc' = .ok (o₂, i₂) ∧ o₂.constructAllNeigh = .ok t₂ ∧
      t₂.inputFeature feature nempty = .ok x₂ ∧
      SameOutput o.batchSize cout
        (resnet P (channelCount feature k) cout num stages nempty t₁ o.depth ⟨_, x₁.map (asVector (channelCount feature k))⟩)
        (resnet P (channelCount feature k) cout num stages nempty t₂ o.depth ⟨_, x₂.map (asVector (channelCount feature k))⟩) := by
  obtain ⟨o₁, i₁, t₁, x₁, o₂, i₂, t₂, x₂, cells, ch, cells', ch', b1, n1, g1, b2, n2, g2, B1, mp, c1, c2, c3, c4, hM⟩ :=
    translated_pair nrm divF o pc pc' samples h h' hf he (by split at hen <;> omega) hs feature hN hF hP ha nempty (channelCount feature k)
  obtain ⟨y, y', r1, r2, l1, l2, hy⟩ := C94_training_resnet P mp P.drop (fun _ _ _ _ => rfl) o.depth stages num hst hnum hds (le_refl _) _ cout hw nempty hen
    (hn1 _ _ _ b1 n1) (by rw [B1]; exact hB) cells cells' ch ch' c1 c2 c3 c4 _ _ hM
  refine ⟨o₁, i₁, t₁, x₁, o₂, i₂, t₂, x₂, b1, n1, g1, b2, n2, g2, y, r1, ?_, by rw [l1, B1]⟩
  have r2' : resnet P (channelCount feature k) cout num stages nempty t₂ o.depth ⟨_, x₂.map (asVector (channelCount feature k))⟩ = .ok ⟨cout, y'⟩ := r2
  rw [r2']
  congr 2
  apply List.ext_getElem?
  intro i
  by_cases hi : i < t₁.batchSize
  · exact hy i hi
  · rw [List.getElem?_eq_none (by omega), List.getElem?_eq_none (by omega)]

/-- **C94** from point cloud to the predictions for its points, in evaluation or training mode: UNet, queried at the points of the cloud, gives every point of
the translated cloud the prediction of the original point. -/
theorem C94_training_segmentation {L : Type} {k : Nat} (P : Params) (nrm : V3 ℚ → V3 ℚ)
    (divF : ℚ → (Fin k → ℚ) → (Fin k → ℚ)) (o : Octree (Fin k → ℚ)) (pc pc' : Points ℚ (Fin k → ℚ) L) (samples : List Nat)
    (h : LegalBuild o pc samples) (h' : LegalBuild o pc' samples) (e : Nat) (t : Int × Int × Int) (hf : 1 ≤ o.fullDepth) (he : o.fullDepth ≤ e)
    (hs : TranslatedCloud e t pc pc') (feature : String) (hN : Asks feature 'N' 'n' ∨ Asks feature 'D' 'd' → pc.normals ≠ none)
    (hF : Asks feature 'F' 'f' → pc.features ≠ none) (hP : ¬ Asks feature 'P' 'p')
    (ha : Asks feature 'N' 'n' ∨ Asks feature 'D' 'd' ∨ Asks feature 'L' 'l' ∨ Asks feature 'F' 'f')
    (cfg : UNetConfig) (hcfg : cfg.Ok) (cout : Nat) (hds : cfg.encoderBlocks.length < o.depth) (hw : WidthOk (channelCount feature k)) (nempty : Bool)
    (hen : e + (if nempty then 0 else 1) ≤ o.depth - cfg.encoderBlocks.length) (hlt : e < o.depth) (method : String)
    (hn1 : ∀ o₁ i₁ t₁, Octree.build nrm divF o pc = .ok (o₁, i₁) → o₁.constructAllNeigh = .ok t₁ → NotSingle P t₁ nempty (o.depth - cfg.encoderBlocks.length) o.depth)
    (hq : P.training = true → pc.points.length ≠ 1) :
    ∃ o₁ i₁ t₁ x₁ o₂ i₂ t₂ x₂, Octree.build nrm divF o pc = .ok (o₁, i₁) ∧ o₁.constructAllNeigh = .ok t₁ ∧
      t₁.inputFeature feature nempty = .ok x₁ ∧ Octree.build nrm divF o pc' = .ok (o₂, i₂) ∧ o₂.constructAllNeigh = .ok t₂ ∧
      t₂.inputFeature feature nempty = .ok x₂ ∧
      SameOutput pc.points.length cout
        (unet P cfg (channelCount feature k) cout method nempty t₁ o.depth ((pc.points.zip samples).map row4) ⟨_, x₁.map (asVector (channelCount feature k))⟩)
        (unet P cfg (channelCount feature k) cout method nempty t₂ o.depth ((pc'.points.zip samples).map row4) ⟨_, x₂.map (asVector (channelCount feature k))⟩) := by
  obtain ⟨o₁, i₁, t₁, x₁, o₂, i₂, t₂, x₂, cells, ch, cells', ch', b1, n1, g1, b2, n2, g2, B1, mp, c1, c2, c3, c4, hM⟩ :=
    translated_pair nrm divF o pc pc' samples h h' hf he hlt hs feature hN hF hP ha nempty (channelCount feature k)
  refine ⟨o₁, i₁, t₁, x₁, o₂, i₂, t₂, x₂, b1, n1, g1, b2, n2, g2, ?_⟩
  have hl : (pc.points.zip samples).length = pc.points.length := by rw [List.length_zip, h.cloud.length, min_self]
  have := C94_training_unet P mp cfg hcfg o.depth hds (le_refl _) _ cout hw nempty hen method (hn1 _ _ _ b1 n1) (pc.points.zip samples) (by rw [hl]; exact hq) ?_ ?_
    cells cells' ch ch' c1 c2 c3 c4 _ _ hM
  · rw [hs.points, cloud_shift]
    rw [hl] at this
    exact this
  · intro q hq
    rw [B1]
    exact h.cloud.lt _ (List.of_mem_zip hq).2
  · intro q hq
    have hq1 := (List.of_mem_zip hq).1
    exact ⟨h.inCube _ hq1, h'.inCube _ (by rw [hs.points]; exact List.mem_map_of_mem hq1)⟩

/-- Training mode is covered: UNet with all octants. -/
example (P : Params) (_ : P.training = true) : ∃ o₁ i₁ t₁ x₁ o₂ i₂ t₂ x₂,
      Octree.build id (fun c v i => v i / c) (Octree.new 6 1 1 0) (cloudT 0) = .ok (o₁, i₁) ∧ o₁.constructAllNeigh = .ok t₁ ∧
      t₁.inputFeature "ND" false = .ok x₁ ∧ Octree.build id (fun c v i => v i / c) (Octree.new 6 1 1 0) (cloudT 1) = .ok (o₂, i₂) ∧
      o₂.constructAllNeigh = .ok t₂ ∧ t₂.inputFeature "ND" false = .ok x₂ ∧
      SameOutput 2 10 (unet P unetConfig 4 10 "linear" false t₁ 6 (((cloudT 0).points.zip [0, 0]).map row4) ⟨4, x₁.map (asVector 4)⟩)
        (unet P unetConfig 4 10 "linear" false t₂ 6 (((cloudT 1).points.zip [0, 0]).map row4) ⟨4, x₂.map (asVector 4)⟩) := by
  have hcc : channelCount "ND" 1 = 4 := by decide +kernel
  have := C94_training_segmentation P id (fun c v i => v i / c) (Octree.new 6 1 1 0) (cloudT 0) (cloudT 1) [0, 0] (cloudT_legal 0 (.inl rfl) 6 (by decide))
      (cloudT_legal 1 (.inr rfl) 6 (by decide)) 1 (1, 0, 0) (by simp [Octree.new]) (by simp [Octree.new]) cloudT_moved "ND" (fun _ => by simp [cloudT])
      (fun h => absurd h (by decide +kernel)) (by decide +kernel) (by decide +kernel) unetConfig unetConfig_ok 10 (by decide)
      (by rw [hcc]; unfold WidthOk; decide) false (by simp [Octree.new, unetConfig]) (by simp [Octree.new]) "linear"
      (fun _ _ _ _ _ _ e => absurd e (show ¬ (false = true) by decide)) (fun _ => by simp [cloudT])
  rw [hcc] at this
  exact this

end Ocnn
