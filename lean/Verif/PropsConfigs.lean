import Verif.Configs
import Verif.PropsTrain
import Verif.PropsFileLists

/-! C144: the shipped configurations fit to their data. -/

set_option linter.unusedSimpArgs false

namespace Ocnn
open Spec

variable {L : Type} {k : Nat}

namespace Spec

/-- The feature string and the number of channels fit to clouds whose features have width `k`. -/
def ChannelsOk (fl : ModelFlags) (k : Nat) : Prop := AsksSome fl.feature ∧ fl.channel = channelCount fl.feature k ∧ WidthOk fl.channel

/-- All clouds have normals (features, labels). -/
structure Complete (pcs : List (Points ℚ (Fin k → ℚ) L)) (normals features labels : Bool) : Prop where
  points : ∀ pc ∈ pcs, pc.points ≠ []
  normals : normals = true → ∀ pc ∈ pcs, pc.normals ≠ none
  features : features = true → ∀ pc ∈ pcs, pc.features ≠ none
  labels : labels = true → ∀ pc ∈ pcs, pc.labels ≠ none

/-- The steps of the classification run with the configuration: on clouds with normals, with the octrees of the training data in training mode on at least two
clouds, and with those of the test data in evaluation mode on any number. -/
def ClsRuns (c : ShippedConfig) : Prop :=
  c.flags.nout = c.numClass ∧ ∀ (k : Nat) (L : Type) (P : Params) (nrm : V3 ℚ → V3 ℚ) (divF : ℚ → (Fin k → ℚ) → (Fin k → ℚ)) (dev : Nat) (pcs : List (Points ℚ (Fin k → ℚ) L)),
    LegalBatch pcs dev → Complete pcs true false false →
    (P.training = true → 2 ≤ pcs.length → HasShape (clsStep P c.flags nrm divF c.trainDepth c.trainFull pcs) pcs.length c.numClass) ∧
    (P.training = false → HasShape (clsStep P c.flags nrm divF c.testDepth c.testFull pcs) pcs.length c.numClass)

/-- What a segmentation step returns: as many logits of width `n` as labels, which are the labels above `mask` and are smaller than `n`. -/
def SegGives (r : M (Tensor × List Int)) (pcs : List (Points ℚ (Fin k → ℚ) Int)) (mask : Int) (n : Nat) : Prop :=
  ∃ (y : List (Fin n → ℚ)) (label : List Int), r = .ok (⟨n, y⟩, label) ∧ y.length = label.length ∧
    label = ((pcs.map fun pc => pc.labels.getD []).flatten).filter (fun v => decide (mask < v)) ∧ ∀ l ∈ label, 0 ≤ l ∧ l < n

/-- The steps of the segmentation run with the configuration on clouds with labels from 0 to `numClass - 1`, with features of width `k` if
`features`, with normals if `normals`. -/
def SegRuns (c : ShippedConfig) (normals features : Bool) (k : Nat) : Prop :=
  ∀ (P : Params) (nrm : V3 ℚ → V3 ℚ) (divF : ℚ → (Fin k → ℚ) → (Fin k → ℚ)) (dev : Nat) (pcs : List (Points ℚ (Fin k → ℚ) Int)),
    LegalBatch pcs dev → Complete pcs normals features true → (∀ pc ∈ pcs, ∀ ls, pc.labels = some ls → ∀ l ∈ ls, 0 ≤ l ∧ l < c.numClass) →
    (P.training = true → 2 ≤ pcs.length → SegGives (segStep P c.flags nrm divF c.trainDepth c.trainFull pcs) pcs c.flags.mask c.numClass) ∧
    (P.training = false → SegGives (segStep P c.flags nrm divF c.testDepth c.testFull pcs) pcs c.flags.mask c.numClass)

end Spec

theorem cls_runs (c : ShippedConfig) (hn : c.flags.nout = c.numClass) (hc : ∀ k, ChannelsOk c.flags k) (hf : ¬ Asks c.flags.feature 'F' 'f')
    (h1 : ClsNetworkOk c.flags c.trainDepth) (h2 : ClsNetworkOk c.flags c.testDepth) (h3 : c.trainDepth ≤ 16 ∧ 1 ≤ c.trainFull ∧ c.trainFull ≤ c.trainDepth)
    (h4 : c.testDepth ≤ 16 ∧ 1 ≤ c.testFull ∧ c.testFull ≤ c.testDepth) : ClsRuns c := by
  refine ⟨hn, fun k L P nrm divF dev pcs hl hp => ?_⟩
  have hfe : FeatureOk c.flags pcs := ⟨(hc k).1, fun _ => hp.normals rfl, fun e => absurd e hf, (hc k).2.1, (hc k).2.2⟩
  rw [← hn]
  exact ⟨fun _ h => C143_classification P c.flags nrm divF _ _ dev h3.1 h3.2.1 h3.2.2 pcs hl hp.points (fun _ => h) hfe h1,
    fun e => C143_classification P c.flags nrm divF _ _ dev h4.1 h4.2.1 h4.2.2 pcs hl hp.points (fun e' => absurd (e.symm.trans e') (by decide)) hfe h2⟩

theorem seg_runs (c : ShippedConfig) (normals features : Bool) (k : Nat) (hn : c.flags.nout = c.numClass) (hc : ChannelsOk c.flags k)
    (hno : Asks c.flags.feature 'N' 'n' ∨ Asks c.flags.feature 'D' 'd' → normals = true) (hf : Asks c.flags.feature 'F' 'f' → features = true)
    (h1 : SegNetworkOk c.flags c.trainDepth fun _ => False) (h2 : SegNetworkOk c.flags c.testDepth fun _ => False)
    (h3 : c.trainDepth ≤ 16 ∧ 1 ≤ c.trainFull ∧ c.trainFull ≤ c.trainDepth)
    (h4 : c.testDepth ≤ 16 ∧ 1 ≤ c.testFull ∧ c.testFull ≤ c.testDepth) : SegRuns c normals features k := by
  intro P nrm divF dev pcs hl hp hlab
  have hfe : FeatureOk c.flags pcs := ⟨hc.1, fun e => hp.normals (hno e), fun e => hp.features (hf e), hc.2.1, hc.2.2⟩
  have mono : ∀ {D : Nat} {Q : Nat → Prop}, SegNetworkOk c.flags D (fun _ => False) → SegNetworkOk c.flags D Q := by
    rintro D Q (h | ⟨a, b, c, d⟩)
    · exact .inl h
    · exact .inr ⟨a, b, c, fun e => (d e).elim⟩
  have fin : ∀ (r : M (Tensor × List Int)), (∃ (y : List (Fin c.flags.nout → ℚ)) (label : List Int), r = .ok (⟨c.flags.nout, y⟩, label) ∧ y.length = label.length ∧
      label = ((pcs.map fun pc => pc.labels.getD []).flatten).filter fun v => decide (c.flags.mask < v)) → SegGives r pcs c.flags.mask c.numClass := by
    rintro r ⟨y, label, e1, e2, e3⟩
    rw [← hn]
    refine ⟨y, label, e1, e2, e3, fun l hl => ?_⟩
    rw [e3, List.mem_filter, List.mem_flatten] at hl
    obtain ⟨⟨ls, hls, hl⟩, -⟩ := hl
    obtain ⟨pc, hp, rfl⟩ := List.mem_map.1 hls
    cases e : pc.labels with
    | none => rw [e] at hl; simp at hl
    | some ls =>
      rw [e] at hl
      rw [hn]
      exact hlab pc hp ls e l hl
  exact ⟨fun _ h => fin _ (C143_segmentation P c.flags nrm divF _ _ dev h3.1 h3.2.1 h3.2.2 pcs hl hp.points (fun _ => h) (hp.labels rfl) hfe (mono h1)),
    fun e => fin _ (C143_segmentation P c.flags nrm divF _ _ dev h4.1 h4.2.1 h4.2.2 pcs hl hp.points (fun e' => absurd (e.symm.trans e') (by decide))
      (hp.labels rfl) hfe (mono h2))⟩

/-- **C144** The classification configurations run on every batch of clouds with normals. -/
theorem C144_classification (resblockNum : Nat) (interp : String) (mask : Int) :
    ClsRuns (clsM40 resblockNum interp mask) ∧ ClsRuns (clsM40Hrnet resblockNum interp mask) := by
  have hc : ∀ k, channelCount "ND" k = 4 := by
    intro k
    unfold channelCount
    simp only [show Asks "ND" 'N' 'n' by decide +kernel, show Asks "ND" 'D' 'd' by decide +kernel, show ¬ Asks "ND" 'L' 'l' by decide +kernel,
      show ¬ Asks "ND" 'P' 'p' by decide +kernel, show ¬ Asks "ND" 'F' 'f' by decide +kernel, if_true, if_false]
  constructor
  · exact cls_runs _ rfl (fun k => ⟨.inl (show Asks "ND" 'N' 'n' by decide +kernel), (hc k).symm, show 27 * 4 ≤ 200000000 by decide⟩)
      (show ¬ Asks "ND" 'F' 'f' by decide +kernel) (.inl ⟨show "lenet".toLower = "lenet" by decide +kernel, show 1 ≤ 3 by decide, rfl⟩)
      (.inl ⟨show "lenet".toLower = "lenet" by decide +kernel, show 1 ≤ 3 by decide, rfl⟩) (show 5 ≤ 16 ∧ 1 ≤ 2 ∧ 2 ≤ 5 by decide)
      (show 5 ≤ 16 ∧ 1 ≤ 2 ∧ 2 ≤ 5 by decide)
  · exact cls_runs _ rfl (fun k => ⟨.inl (show Asks "ND" 'N' 'n' by decide +kernel), (hc k).symm, show 27 * 4 ≤ 200000000 by decide⟩)
      (show ¬ Asks "ND" 'F' 'f' by decide +kernel)
      (.inr (.inr ⟨show "hrnet".toLower = "hrnet" by decide +kernel, show 1 ≤ 3 by decide, show min 3 4 + 2 ≤ 6 by decide⟩))
      (.inr (.inr ⟨show "hrnet".toLower = "hrnet" by decide +kernel, show 1 ≤ 3 by decide, show min 3 4 + 2 ≤ 6 by decide⟩))
      (show 6 ≤ 16 ∧ 1 ≤ 2 ∧ 2 ≤ 6 by decide) (show 6 ≤ 16 ∧ 1 ≤ 2 ∧ 2 ≤ 6 by decide)

/-- **C144** The segmentation configurations run: ScanNet with normals and colours, KITTI with the intensity, ShapeNet with normals. -/
theorem C144_segmentation (stages resblockNum : Nat) :
    SegRuns (segScannet stages resblockNum) true true 3 ∧ SegRuns (segKitti stages resblockNum) false true 1 ∧
    ∀ k, SegRuns (segShapenet resblockNum) true false k := by
  have hc : ∀ k, channelCount "ND" k = 4 := by
    intro k
    unfold channelCount
    simp only [show Asks "ND" 'N' 'n' by decide +kernel, show Asks "ND" 'D' 'd' by decide +kernel, show ¬ Asks "ND" 'L' 'l' by decide +kernel,
      show ¬ Asks "ND" 'P' 'p' by decide +kernel, show ¬ Asks "ND" 'F' 'f' by decide +kernel, if_true, if_false]
  refine ⟨?_, ?_, fun k => ?_⟩
  · exact seg_runs _ _ _ _ rfl ⟨.inl (show Asks "NDF" 'N' 'n' by decide +kernel), show 7 = channelCount "NDF" 3 by decide +kernel, show 27 * 7 ≤ 200000000 by decide⟩
      (fun _ => rfl) (fun _ => rfl) (.inl ⟨show "unet".toLower = "unet" by decide +kernel, show 4 < 10 by decide⟩)
      (.inl ⟨show "unet".toLower = "unet" by decide +kernel, show 4 < 10 by decide⟩) (show 10 ≤ 16 ∧ 1 ≤ 2 ∧ 2 ≤ 10 by decide)
      (show 10 ≤ 16 ∧ 1 ≤ 2 ∧ 2 ≤ 10 by decide)
  · exact seg_runs _ _ _ _ rfl ⟨.inr (.inr (.inr (.inl (show Asks "PF" 'P' 'p' by decide +kernel)))), show 4 = channelCount "PF" 1 by decide +kernel, show 27 * 4 ≤ 200000000 by decide⟩
      (fun e => absurd e (show ¬ (Asks "PF" 'N' 'n' ∨ Asks "PF" 'D' 'd') by decide +kernel)) (fun _ => rfl) (.inl ⟨show "unet".toLower = "unet" by decide +kernel, show 4 < 12 by decide⟩)
      (.inl ⟨show "unet".toLower = "unet" by decide +kernel, show 4 < 12 by decide⟩) (show 12 ≤ 16 ∧ 1 ≤ 2 ∧ 2 ≤ 12 by decide)
      (show 12 ≤ 16 ∧ 1 ≤ 2 ∧ 2 ≤ 12 by decide)
  · exact seg_runs _ _ _ _ rfl ⟨.inl (show Asks "ND" 'N' 'n' by decide +kernel), (hc k).symm, show 27 * 4 ≤ 200000000 by decide⟩
      (fun _ => rfl) (fun e => absurd e (show ¬ Asks "ND" 'F' 'f' by decide +kernel))
      (.inr ⟨show "segnet".toLower = "segnet" by decide +kernel, show 1 ≤ 3 by decide, show 3 < 5 by decide, fun e => absurd e (show ¬ (false = true) by decide)⟩)
      (.inr ⟨show "segnet".toLower = "segnet" by decide +kernel, show 1 ≤ 3 by decide, show 3 < 5 by decide, fun e => absurd e (show ¬ (false = true) by decide)⟩)
      (show 5 ≤ 16 ∧ 1 ≤ 2 ∧ 2 ≤ 5 by decide) (show 5 ≤ 16 ∧ 1 ≤ 2 ∧ 2 ≤ 5 by decide)

/-- **C144** The commands for the categories of ShapeNet run for every `--depth` from 3 to 16 with SegNet and from 5 to 16 with UNet, with one logit for each
part of the category. -/
theorem C144_shapenet (resblockNum depth i n : Nat) (hn : segNum[i]? = some n) (model : String)
    (hm : (model.toLower = "segnet" ∧ 3 ≤ depth) ∨ (model.toLower = "unet" ∧ 5 ≤ depth)) (h16 : depth ≤ 16) :
    ∃ c, runSegShapenet resblockNum depth model i = .ok c ∧ c.numClass = n ∧ ∀ k, SegRuns c true false k := by
  have hc : ∀ k, channelCount "ND" k = 4 := by
    intro k
    unfold channelCount
    simp only [show Asks "ND" 'N' 'n' by decide +kernel, show Asks "ND" 'D' 'd' by decide +kernel, show ¬ Asks "ND" 'L' 'l' by decide +kernel,
      show ¬ Asks "ND" 'P' 'p' by decide +kernel, show ¬ Asks "ND" 'F' 'f' by decide +kernel, if_true, if_false]
  have hnet : ∀ c : ShippedConfig, c.flags.name = model → c.flags.stages = depth - 2 → c.flags.nempty = false → SegNetworkOk c.flags depth fun _ => False := by
    intro c e1 e2 e3
    rcases hm with ⟨m1, m2⟩ | ⟨m1, m2⟩
    · refine .inr ⟨by rw [e1, m1], by omega, by omega, fun e => ?_⟩
      rw [e3] at e
      exact absurd e (by decide)
    · exact .inl ⟨by rw [e1, m1], by omega⟩
  unfold runSegShapenet
  rw [getIdx_nat _ _ _ hn]
  simp only [bind, Except.bind, pure, Except.pure]
  refine ⟨_, rfl, rfl, fun k => ?_⟩
  exact seg_runs _ _ _ _ rfl ⟨.inl (show Asks "ND" 'N' 'n' by decide +kernel), (hc k).symm, show 27 * 4 ≤ 200000000 by decide⟩
    (fun _ => rfl) (fun e => absurd e (show ¬ Asks "ND" 'F' 'f' by decide +kernel)) (hnet _ rfl rfl rfl) (hnet _ rfl rfl rfl)
    ⟨h16, show 1 ≤ 2 by decide, show 2 ≤ depth by rcases hm with h | h <;> omega⟩ ⟨h16, show 1 ≤ 2 by decide, show 2 ≤ depth by rcases hm with h | h <;> omega⟩

/-- The conditions are met by the clouds of C95 with all points labelled. -/
example (P : Params) (hP : P.training = true) (nrm : V3 ℚ → V3 ℚ) (divF : ℚ → (Fin 1 → ℚ) → (Fin 1 → ℚ)) :
    HasShape (clsStep P (clsM40 2 "linear" (-1)).flags nrm divF 5 2 [cloudP 0, cloudP 1]) 2 40 :=
  ((C144_classification 2 "linear" (-1)).1.2 1 Int P nrm divF 0 [cloudP 0, cloudP 1] cloudP_legal ⟨by simp [cloudP], by simp [cloudP], by simp, by simp⟩).1 hP (by simp)

/-- A cloud with normals and labels of the second category (two parts). -/
def cloudParts (s : ℚ) : Points ℚ (Fin 1 → ℚ) Int := { cloudP s with labels := some [0, 1] }

example (P : Params) (hP : P.training = true) (nrm : V3 ℚ → V3 ℚ) (divF : ℚ → (Fin 1 → ℚ) → (Fin 1 → ℚ)) :
    ∃ c, runSegShapenet 2 6 "SegNet" 1 = .ok c ∧ SegGives (segStep P c.flags nrm divF c.trainDepth c.trainFull [cloudParts 0, cloudParts 1]) [cloudParts 0, cloudParts 1] c.flags.mask c.numClass := by
  obtain ⟨c, h1, h2, h3⟩ := C144_shapenet 2 6 1 2 rfl "SegNet" (.inl ⟨by decide +kernel, by decide⟩) (by decide)
  have h := cloudP_legal
  refine ⟨c, h1, (h3 1 P nrm divF 0 [cloudParts 0, cloudParts 1] ⟨by simp, by simp, ?_, ?_, ?_, ?_, ?_⟩ ⟨by simp [cloudParts, cloudP], by simp [cloudParts, cloudP], by simp, by simp [cloudParts]⟩ ?_).1 hP (by simp)⟩
  · intro p hp
    simp only [List.mem_cons, List.not_mem_nil, or_false] at hp
    rcases hp with rfl | rfl <;> exact ⟨by simp [cloudParts, cloudP], by simp [cloudParts, cloudP], by simp [cloudParts, cloudP], by simp [cloudParts, cloudP]⟩
  · intro p hp q hq
    simp only [List.mem_cons, List.not_mem_nil, or_false] at hp hq
    rcases hp with rfl | rfl <;> rcases hq with rfl | rfl <;> simp [cloudParts, cloudP]
  · intro p hp v hv
    simp only [List.mem_cons, List.not_mem_nil, or_false] at hp
    rcases hp with rfl | rfl
    · exact h.inCube (cloudP 0) (by simp) v hv
    · exact h.inCube (cloudP 1) (by simp) v hv
  · intro p hp
    simp only [List.mem_cons, List.not_mem_nil, or_false] at hp
    rcases hp with rfl | rfl <;> rfl
  · intro p hp
    simp only [List.mem_cons, List.not_mem_nil, or_false] at hp
    rcases hp with rfl | rfl <;> rfl
  · intro pc hp ls hls l hl
    simp only [List.mem_cons, List.not_mem_nil, or_false] at hp
    rw [h2]
    rcases hp with rfl | rfl <;> cases hls <;> simp only [List.mem_cons, List.not_mem_nil, or_false] at hl <;> rcases hl with rfl | rfl <;> decide

end Ocnn
