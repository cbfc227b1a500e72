import Verif.PropsPipelines
import Verif.PropsCounts

/-! C143: the steps of the classification and segmentation programs run on every batch, in training mode too. -/

set_option linter.unusedSimpArgs false

namespace Ocnn
open Spec

variable {L : Type} {k : Nat}

/-- an octree of a cloud with points has non-empty nodes at every depth -/
theorem sample_nonempty (nrm : V3 ℚ → V3 ℚ) (divF : ℚ → (Fin k → ℚ) → (Fin k → ℚ)) {D full dev : Nat} (hD : D ≤ 16) (hf : full ≤ D)
    {pcs : List (Points ℚ (Fin k → ℚ) L)} (h : LegalBatch pcs dev) (pc : Points ℚ (Fin k → ℚ) L) (hp : pc ∈ pcs) (hne : pc.points ≠ [])
    (o : Octree (Fin k → ℚ)) (idx : List Nat) (hb : Octree.build nrm divF (Octree.new D full 1 0) pc = .ok (o, idx)) (d : Nat) (hd : d ≤ D) :
    1 ≤ o.nnumNempty d := by
  have hl := h.legal D full hD hf pc hp
  have hl' : LegalBuild (Octree.new D full 1 0 : Octree (Fin k → ℚ)) pc (List.replicate pc.points.length 0) :=
    ⟨hl.depth, hl.full, hl.batch, hl.same_batch, hl.cloud, hl.inCube⟩
  obtain ⟨o', idx', h1, h2, h3, h4, h5, -⟩ := C142_counts nrm divF _ _ _ hl'
  rw [hb] at h1
  obtain ⟨rfl, rfl⟩ := Prod.mk.inj (Except.ok.inj h1)
  rcases Nat.lt_or_ge d full with hdf | hdf
  · rw [h3 d hdf, h2 d (le_of_lt hdf)]
    show 1 ≤ 1 * 8 ^ d
    rw [one_mul]
    exact Nat.one_le_pow _ _ (by decide)
  · obtain ⟨-, -, cs, c1, c2, c3⟩ := h5 d hd hdf
    obtain ⟨p, ps, e⟩ := List.exists_cons_of_ne_nil hne
    have hin : InCube p := h.inCube pc hp p (by rw [e]; simp)
    have : cellAt d 0 p ∈ cs := (c3 _).2 ⟨0, p, by rw [e]; rfl, by rw [e]; rfl, (cubeContains_iff d _ p hin).2 rfl⟩
    rw [← c2]
    exact List.length_pos_of_mem this

/-- the octree of a batch and its input, in any mode -/
theorem batch_input (fl : ModelFlags) (nrm : V3 ℚ → V3 ℚ) (divF : ℚ → (Fin k → ℚ) → (Fin k → ℚ)) (D full dev : Nat) (hD : D ≤ 16) (hf1 : 1 ≤ full)
    (hf : full ≤ D) (pcs : List (Points ℚ (Fin k → ℚ) L)) (h : LegalBatch pcs dev) (hne : ∀ pc ∈ pcs, pc.points ≠ []) (hfe : FeatureOk fl pcs) :
    ∃ (o : Octree (Fin k → ℚ)) (x : List (Fin fl.channel → ℚ)), batchOctree nrm divF D full pcs = .ok o ∧ o.Valid D ∧ o.depth = D ∧
      o.batchSize = pcs.length ∧
      (∀ d, 1 ≤ d → d ≤ D → NeighExact o.batchSize d o.keys o.neighs) ∧ inputTensor fl o = .ok ⟨fl.channel, x⟩ ∧ x.length = height o fl.nempty D ∧
      (∀ d ≤ D, pcs.length ≤ o.nnumNempty d) ∧
      ∀ d ≤ D, (∀ pc ∈ pcs, ∀ o idx, Octree.build nrm divF (Octree.new D full 1 0) pc = .ok (o, idx) → o.nnumNempty d = o.nnum d) →
        o.nnumNempty d = o.nnum d := by
  obtain ⟨T, hT⟩ := batch_octree (L := L) nrm divF D full dev hD hf1 hf
  obtain ⟨t1, o', t2, t3, t4⟩ := hT pcs h
  obtain ⟨xs, x1, x2, x3, x4⟩ := input_batch t3 fl.feature hfe.some fl.nempty (by
    intro o ho
    obtain ⟨pc, hp, rfl⟩ := List.mem_map.1 ho
    exact (t1 pc hp).1.rows fl.feature (fun e => hfe.normals e pc hp) (fun e => hfe.features e pc hp))
  rw [← hfe.channel] at x4
  obtain ⟨hb, hn⟩ := t3.batchOf
  refine ⟨o', (xs.map fun x => x.map fun r i => r.getD i 0).flatten, t2, hb.valid', t4, by rw [hb.size, List.length_map], hn o' (Or.inl rfl), ?_, ?_, ?_, ?_⟩
  · unfold inputTensor
    simp only [bind, Except.bind, x3, ofRows_flatten _ xs x4]
  · rw [List.length_flatten, List.map_map]
    have : (xs.map (List.length ∘ fun x => x.map fun r (i : Fin fl.channel) => r.getD i 0)) = xs.map List.length :=
      List.map_congr_left fun x _ => by simp
    rw [this, x1]
    unfold height
    cases fl.nempty with
    | true => simp only [if_true]; exact (hb.nnumNempty D (le_refl _)).symm
    | false => simp only [Bool.false_eq_true, if_false]; exact (hb.nnum D (le_refl _)).symm
  · intro d hd
    rw [hb.nnumNempty d hd, List.map_map]
    have : ∀ l : List (Points ℚ (Fin k → ℚ) L), (∀ pc ∈ l, 1 ≤ (T pc).nnumNempty d) → l.length ≤ (l.map ((fun o => o.nnumNempty d) ∘ T)).sum := by
      intro l
      induction l with
      | nil => intro _; exact Nat.zero_le _
      | cons p ps ih =>
        intro hl
        rw [List.map_cons, List.sum_cons, List.length_cons]
        have a := ih fun q hq => hl q (List.mem_cons_of_mem _ hq)
        have b : 1 ≤ ((fun o => o.nnumNempty d) ∘ T) p := hl p (by simp)
        omega
    apply this
    intro pc hp
    obtain ⟨-, o, idx, nb, e1, e2⟩ := t1 pc hp
    rw [e2]
    exact sample_nonempty nrm divF hD hf h pc hp (hne pc hp) o idx e1 d hd
  · intro d hd hl
    rw [hb.nnumNempty d hd, hb.nnum d hd]
    congr 1
    apply List.map_congr_left
    intro o ho
    obtain ⟨pc, hp, rfl⟩ := List.mem_map.1 ho
    obtain ⟨-, o, idx, nb, e1, e2⟩ := t1 pc hp
    rw [e2]
    exact hl pc hp o idx e1

/-- **C143** classification: in both modes a step on a batch of clouds gives one row of logits per cloud; in training mode the batch must have at least
two clouds. -/
theorem C143_classification (P : Params) (fl : ModelFlags) (nrm : V3 ℚ → V3 ℚ) (divF : ℚ → (Fin k → ℚ) → (Fin k → ℚ))
    (D full dev : Nat) (hD : D ≤ 16) (hf1 : 1 ≤ full) (hf : full ≤ D) (pcs : List (Points ℚ (Fin k → ℚ) L)) (h : LegalBatch pcs dev)
    (hne : ∀ pc ∈ pcs, pc.points ≠ []) (htr : P.training = true → 2 ≤ pcs.length) (hfe : FeatureOk fl pcs) (hn : ClsNetworkOk fl D) :
    HasShape (clsStep P fl nrm divF D full pcs) pcs.length fl.nout := by
  obtain ⟨o, x, h1, h2, h3, h4, h5, h6, h7, h8, -⟩ := batch_input fl nrm divF D full dev hD hf1 hf pcs h hne hfe
  have hs : ∀ a b, b ≤ D → NotSingle P o fl.nempty a b := by
    intro a b hb hP _ d _ hd e
    have := htr hP
    have := h8 d (by omega)
    omega
  have hbs : P.training = true → o.batchSize ≠ 1 := fun hP => by have := htr hP; omega
  have key : HasShape (clsModel P fl o D ⟨fl.channel, x⟩) o.batchSize fl.nout := by
    unfold clsModel
    rcases hn with ⟨n1, n2, n3⟩ | ⟨n1, n2, n3, n4⟩ | ⟨n1, n2, n3⟩
    · simp only [n1, if_true]
      subst n3
      exact C77_lenet P h2 fl.stages n2 (le_refl _) h5 _ _ hfe.width _ (hs _ _ (le_refl _)) hbs x h7
    · simp only [n1, show ¬ ("resnet" = "lenet") by decide, if_false, if_true]
      exact C77_resnet P h2 D fl.stages fl.resblockNum n2 n3 n4 (le_refl _) h5 _ _ hfe.width _ (hs _ _ (le_refl _)) hbs x h7
    · simp only [n1, show ¬ ("hrnet" = "lenet") by decide, show ¬ ("hrnet" = "resnet") by decide, if_false, if_true]
      exact C77_hrnet P h2 D fl.stages n2 n3 (le_refl _) h5 _ _ hfe.width _ (hs _ _ (le_refl _)) x h7
  obtain ⟨y, k1, k2⟩ := key
  refine ⟨y, ?_, by rw [k2, h4]⟩
  unfold clsStep
  simp only [h1, bind, Except.bind, h6, h3, k1]

/-- **C143** segmentation: in both modes a step on a batch of clouds gives one row of logits for each point whose label is above `mask`, with the
labels of these points in order; in training mode the batch must have at least two clouds. -/
theorem C143_segmentation (P : Params) (fl : ModelFlags) (nrm : V3 ℚ → V3 ℚ) (divF : ℚ → (Fin k → ℚ) → (Fin k → ℚ))
    (D full dev : Nat) (hD : D ≤ 16) (hf1 : 1 ≤ full) (hf : full ≤ D) (pcs : List (Points ℚ (Fin k → ℚ) Int)) (h : LegalBatch pcs dev)
    (hne : ∀ pc ∈ pcs, pc.points ≠ []) (htr : P.training = true → 2 ≤ pcs.length) (hl : ∀ pc ∈ pcs, pc.labels ≠ none) (hfe : FeatureOk fl pcs)
    (hn : SegNetworkOk fl D fun d => ∀ pc ∈ pcs, ∀ o idx, Octree.build nrm divF (Octree.new D full 1 0) pc = .ok (o, idx) → o.nnumNempty d = o.nnum d) :
    ∃ (y : List (Fin fl.nout → ℚ)) (label : List Int), segStep P fl nrm divF D full pcs = .ok (⟨fl.nout, y⟩, label) ∧ y.length = label.length ∧
      label = ((pcs.map fun pc => pc.labels.getD []).flatten).filter fun v => decide (fl.mask < v) := by
  obtain ⟨o, x, h1, h2, h3, h4, h5, h6, h7, h8, h9⟩ := batch_input fl nrm divF D full dev hD hf1 hf pcs h hne hfe
  obtain ⟨q, ls, q1, q2, q3, q4, q5, -⟩ := points_merged h hl
  have hs : ∀ a b, b ≤ D → NotSingle P o fl.nempty a b := by
    intro a b hb hP _ d _ hd e
    have := htr hP
    have := h8 d (by omega)
    omega
  set pss := pcs.map fun p => p.points with hpss
  set qs := blocks (fun i (p : V3 ℚ) => (p, i)) pss with hqs
  have hql : qs.length = ls.flatten.length := by
    rw [hqs, blocks_length, List.length_flatten, List.length_flatten, hpss]
    exact congrArg List.sum (attr_length (fun p => p.labels) (fun pc hp => (h.aligned pc hp).labels) ls q4).symm
  have hq1 : P.training = true → qs.length ≠ 1 := by
    intro hP
    have h2 := htr hP
    rw [hqs, blocks_length, List.length_flatten, hpss, List.map_map]
    have : ∀ l : List (Points ℚ (Fin k → ℚ) Int), (∀ pc ∈ l, pc.points ≠ []) → l.length ≤ (l.map (List.length ∘ fun p => p.points)).sum := by
      intro l
      induction l with
      | nil => intro _; exact Nat.zero_le _
      | cons p ps ih =>
        intro hl
        rw [List.map_cons, List.sum_cons, List.length_cons]
        have a := ih fun q hq => hl q (List.mem_cons_of_mem _ hq)
        have b : 1 ≤ (List.length ∘ fun p : Points ℚ (Fin k → ℚ) Int => p.points) p := List.length_pos_iff.2 (hl p (by simp))
        omega
    have := this pcs hne
    omega
  have hq2 : ∀ q ∈ qs, q.2 < 2 ^ 15 := by
    intro q hq
    rw [hqs, mem_blocks] at hq
    obtain ⟨i, l, a, e1, -, rfl⟩ := hq
    have e2 := (List.getElem?_eq_some_iff.1 e1).1
    rw [hpss, List.length_map] at e2
    exact lt_of_lt_of_le e2 h.number
  have key : HasShape (segModel P fl o D (qs.map row4) ⟨fl.channel, x⟩) qs.length fl.nout := by
    unfold segModel
    rcases hn with ⟨n1, n2⟩ | ⟨n1, n2, n3, n4⟩
    · simp only [n1, show ¬ ("unet" = "segnet") by decide, if_false, if_true]
      exact C77_unet P h2 unetConfig unetConfig_ok D n2 (le_refl _) h5 _ _ hfe.width _ (hs _ _ (le_refl _)) _ qs hq2 hq1 x h7
    · simp only [n1, if_true]
      exact C78_partial P h2 D fl.stages n2 n3 (le_refl _) h5 _ _ hfe.width _ (fun e => h9 _ (by omega) (n4 e)) (hs _ _ (le_refl _)) _ qs hq2 hq1 x h7
  obtain ⟨y, k1, k2⟩ := key
  have hlab : (pcs.map fun pc => pc.labels.getD []) = ls := by
    have : pcs.map (fun pc => pc.labels.getD []) = (pcs.map fun pc => pc.labels).map fun l => l.getD [] := by rw [List.map_map]; rfl
    rw [this, q4, List.map_map]
    exact List.map_id'' (fun _ => rfl) ls
  rw [hlab]
  refine ⟨maskSel (ls.flatten.map fun v => decide (v > fl.mask)) y, _, ?_, ?_, rfl⟩
  · unfold segStep processBatch
    rw [h1]
    simp only [bind, Except.bind, q1, pure, Except.pure]
    unfold segForward
    simp only [bind, Except.bind, h6, query_batch pcs q q2 q3, ← hpss, batchPoints_eq, ← hqs, h3, k1, q5, need, pure, Except.pure]
    unfold boolIndex
    rw [if_pos (by rw [List.length_map]; omega), if_pos (List.length_map _), maskSel_map_decide]
  · rw [maskSel_length _ _ (by rw [List.length_map]; omega), ← maskSel_map_decide, maskSel_length _ _ (List.length_map _)]

/-- The conditions are met by the two clouds of C95, also in training mode. -/
example (P : Params) (nrm : V3 ℚ → V3 ℚ) (divF : ℚ → (Fin 1 → ℚ) → (Fin 1 → ℚ)) (nempty : Bool) :
    HasShape (clsStep P ⟨"HRNet", 4, 10, 3, 3, "linear", nempty, "ND", -1⟩ nrm divF 5 2 [cloudP 0, cloudP 1]) 2 10 :=
  C143_classification P ⟨"HRNet", 4, 10, 3, 3, "linear", nempty, "ND", -1⟩ nrm divF 5 2 0 (by decide) (by decide) (by decide) _ cloudP_legal
    (by simp [cloudP]) (by simp) (cloudP_features _ _ _) (.inr (.inr ⟨show "HRNet".toLower = "hrnet" by decide +kernel, show 1 ≤ 3 by decide,
      show min 3 4 + 2 ≤ 5 by decide⟩))

example (P : Params) (nrm : V3 ℚ → V3 ℚ) (divF : ℚ → (Fin 1 → ℚ) → (Fin 1 → ℚ)) (nempty : Bool) :
    ∃ (y : List (Fin 10 → ℚ)) (label : List Int),
      segStep P ⟨"UNet", 4, 10, 0, 3, "linear", nempty, "ND", -1⟩ nrm divF 6 2 [cloudP 0, cloudP 1] = .ok (⟨10, y⟩, label) ∧ y.length = label.length ∧
      label = (([cloudP 0, cloudP 1].map fun pc => pc.labels.getD []).flatten).filter fun v => decide (-1 < v) :=
  C143_segmentation P ⟨"UNet", 4, 10, 0, 3, "linear", nempty, "ND", -1⟩ nrm divF 6 2 0 (by decide) (by decide) (by decide) _ cloudP_legal
    (by simp [cloudP]) (by simp) (by simp [cloudP]) (cloudP_features _ _ _) (.inl ⟨show "UNet".toLower = "unet" by decide +kernel, by decide⟩)

end Ocnn
