import Verif.NetProofs2

/-! The facts about the layers for one octree compared with itself: the networks run and return the documented shapes. -/

set_option linter.unusedSimpArgs false

namespace Ocnn
open Spec
variable {F : Type}

theorem single_perSample {X Y : Type} (o : Octree F) (n m : Octree F → Nat) (op : Octree F → List X → M (List Y))
    (h : ∀ x, x.length = n o → ∃ y, op o x = .ok y ∧ y.length = m o) : PerSample [o] o n m op := by
  intro xs hxs
  cases xs with
  | nil => simp at hxs
  | cons x xs =>
    cases xs with
    | cons a b => simp at hxs
    | nil =>
      obtain ⟨y, h1, h2⟩ := h x (by simpa using hxs)
      exact ⟨[y], by simp [h1], by simp [h2], by simpa using h1⟩

theorem rel_single {n c : Nat} {t s : Tensor} (h : Rel 0 [n] c t s) : ∃ x : List (Fin c → ℚ), x.length = n ∧ t = ⟨c, x⟩ ∧ s = ⟨c, x⟩ := by
  obtain ⟨xs, h1, rfl, x, h2, rfl⟩ := h
  cases xs with
  | nil => simp at h1
  | cons a xs =>
    cases xs with
    | cons a b => simp at h1
    | nil =>
      cases h2
      exact ⟨x, by simpa using h1, by simp, rfl⟩

theorem rel_self {n c : Nat} (x : List (Fin c → ℚ)) (h : x.length = n) : Rel 0 [n] c ⟨c, x⟩ ⟨c, x⟩ :=
  ⟨[x], by simp [h], by simp, x, rfl, rfl⟩

/-- In evaluation mode batch normalization works row by row. -/
theorem Rel.batchNorm_eval {i : Nat} {ns : List Nat} {c : Nat} {P : Params} (hP : P.training = false) (name : String) {t s : Tensor}
    (h : Rel i ns c t s) : Both (Rel i ns c) (batchNorm P name c t) (batchNorm P name c s) := by
  obtain ⟨u, v, rfl, rfl, h2⟩ := h.map (c' := c) (fun v => fun i => (v i - P.bnMean name i) / P.rt (P.bnVar name i + 1 / 100000) * P.bnWeight name i + P.bnBias name i)
  unfold batchNorm
  rw [Tensor.on_self, Tensor.on_self, if_neg (by simp [hP]), if_neg (by simp [hP])]
  exact Both.pure h2

theorem Rel.dropout_eval {i : Nat} {ns : List Nat} {c : Nat} {P : Params} (hP : P.training = false) (name : String) {t s : Tensor}
    (h : Rel i ns c t s) : Rel i ns c (dropout P name t) (dropout P name s) := by
  unfold dropout
  rw [if_neg (by simp [hP]), if_neg (by simp [hP])]
  exact h

theorem Rel.batchNorm_single {ns : List Nat} {c : Nat} {P : Params} (hP : P.training = true) (hb : BnOk P ns) (name : String) {t s : Tensor}
    (h : Rel 0 ns c t s) : Both (Rel 0 ns c) (batchNorm P name c t) (batchNorm P name c s) := by
  obtain ⟨h1, h2⟩ := hb hP
  obtain ⟨n, rfl⟩ : ∃ n, ns = [n] := List.length_eq_one_iff.1 h1
  obtain ⟨x, hx, rfl, rfl⟩ := rel_single h
  unfold batchNorm
  have : ¬ x.length = 1 := by rw [hx]; simpa using h2
  rw [Tensor.on_self, if_pos hP, if_neg this]
  exact Both.pure (rel_self _ (by simpa using hx))

theorem Rel.dropout_single {ns : List Nat} {c : Nat} {P : Params} (hP : P.training = true) (hb : ns.length = 1) (name : String) {t s : Tensor}
    (h : Rel 0 ns c t s) : Rel 0 ns c (dropout P name t) (dropout P name s) := by
  obtain ⟨n, rfl⟩ : ∃ n, ns = [n] := List.length_eq_one_iff.1 hb
  obtain ⟨x, hx, rfl, rfl⟩ := rel_single h
  unfold dropout
  rw [if_pos hP]
  exact rel_self _ (by simpa using hx)

theorem flattenRows_length (b m c : Nat) (rows : List (Fin c → ℚ)) : (flattenRows b m c rows).length = b := by simp [flattenRows]

/-- One octree compared with itself. -/
theorem layers_single_rows (P : Params) {o : Octree F} {h : Nat} (w : o.Valid h) {D : Nat} (hD : D ≤ h)
    (hn : ∀ d, 1 ≤ d → d ≤ D → NeighExact o.batchSize d o.keys o.neighs) : BatchLayers P [o] o o 0 D where
  mem := rfl
  conv := by
    intro k hk nempty d s h1 hd hs ci co ks m ha hi hb hw
    exact single_perSample o _ _ _ fun x hx =>
      C41_conv (denseKernel ℚ ci co) o h w d (by omega) (hn d h1 hd) k hk nempty s (by omega) ci co ks maxBuffer m ha hi (fun _ => hb) hw x hx
  deconv := by
    intro k hk nempty d s h1 hd hs ci co ks m ha hi hb hw
    refine single_perSample o _ _ _ fun x hx => ?_
    have hdd : (if s = 2 then (if s = 2 then d - 1 else d) + 1 else (if s = 2 then d - 1 else d)) = d := by
      rcases hs with rfl | rfl
      · simp
      · simp; omega
    have := C41_deconv (denseKernel ℚ co ci) o h w (if s = 2 then d - 1 else d) s hs (by rw [hdd]; omega) (by rw [hdd]; exact hn d h1 hd)
      k hk nempty ci co ks maxBuffer m ha hi (fun _ => hb) hw x hx
    rw [hdd] at this
    exact this
  pool := by
    intro nempty d C hd
    have W := w.wf'
    have key : ∀ x : List (Fin C → WithBot ℚ), x.length = rowsAt nempty (d + 1) o → ∃ y ix, octreeMaxPool x o d nempty = .ok (y, ix) ∧
        y.length = rowsAt nempty d o ∧ ix.length = rowsAt true d o := by
      intro x hx
      obtain ⟨y, ix, e, e1, e2, -⟩ := C42_max_pool o h w d (by omega) nempty _ _ _ _ (W.cellsOf d (by omega)) (W.children d (by omega))
        (W.cellsOf (d + 1) (by omega)) (W.children (d + 1) (by omega)) x
        (by rw [hx, queried_length w (d + 1) (by omega) nempty _ _ (W.cellsOf (d + 1) (by omega)) (W.children (d + 1) (by omega))]; rfl)
      refine ⟨y, ix, e, ?_, ?_⟩
      · rw [e1, queried_length w d (by omega) nempty _ _ (W.cellsOf d (by omega)) (W.children d (by omega))]; rfl
      · have := queried_length w d (by omega) true _ _ (W.cellsOf d (by omega)) (W.children d (by omega))
        unfold queried at this
        rw [if_pos rfl] at this
        rw [e2, this]; rfl
    constructor
    · refine single_perSample o _ _ _ fun x hx => ?_
      obtain ⟨y, ix, e, e1, e2⟩ := key x hx
      exact ⟨y, by rw [e]; rfl, e1⟩
    · refine single_perSample o _ _ _ fun x hx => ?_
      obtain ⟨y, ix, e, e1, e2⟩ := key x hx
      exact ⟨ix, by rw [e]; rfl, e2⟩
  depad := by
    intro d C hd
    refine single_perSample o _ _ _ fun x hx => ?_
    obtain ⟨y, e, e1, -⟩ := C30_depad_pad o h w d (by omega) _ (w.wf'.children d (by omega)) x 0 hx
    exact ⟨y, e, e1⟩
  upsample := by
    intro nempty d C hd
    have W := w.wf'
    refine single_perSample o _ _ _ fun x hx => ?_
    have hl := queried_length w d (by omega) nempty _ _ (W.cellsOf d (by omega)) (W.children d (by omega))
    obtain ⟨f, hf⟩ := exists_field _ x (hl.trans hx.symm) (queried_nodup W d (by omega) nempty)
    refine ⟨_, C52_nearest_upsample o h w d (by omega) nempty _ _ _ _ (W.cellsOf d (by omega)) (W.children d (by omega))
        (W.cellsOf (d + 1) (by omega)) (W.children (d + 1) (by omega)) x f hf, ?_⟩
    rw [List.length_map, queried_length w (d + 1) (by omega) nempty _ _ (W.cellsOf (d + 1) (by omega)) (W.children (d + 1) (by omega))]
    rfl
  global := by
    intro nempty d C hd
    have W := w.wf'
    refine single_perSample o _ _ _ fun x hx => ?_
    have hl := queried_length w d (by omega) nempty _ _ (W.cellsOf d (by omega)) (W.children d (by omega))
    exact ⟨_, C47_global_pool o h w d (by omega) nempty _ _ (W.cellsOf d (by omega)) (W.children d (by omega)) x (hx.trans hl.symm), by simp⟩
  voxel := by
    intro nempty d C hd
    have W := w.wf'
    refine single_perSample o _ _ _ fun x hx => ?_
    have hl := queried_length w d (by omega) nempty _ _ (W.cellsOf d (by omega)) (W.children d (by omega))
    obtain ⟨f, hf⟩ := exists_field _ x (hl.trans hx.symm) (queried_nodup W d (by omega) nempty)
    obtain ⟨vox, e, -⟩ := C48_voxel o h w d (by omega) nempty _ _ (W.cellsOf d (by omega)) (W.children d (by omega)) x f hf
    exact ⟨_, by rw [e]; rfl, flattenRows_length _ _ _ _⟩
  eight := by
    intro d hd o' ho
    rw [List.mem_singleton.1 ho]
    exact eight_of w d (by omega)
  bn := by
    intro name c ns hb t s hr
    by_cases hP : P.training = true
    · exact hr.batchNorm_single hP hb name
    · exact hr.batchNorm_eval (by simpa using hP) name
  drop := by
    intro name c ns t s hb hr
    by_cases hP : P.training = true
    · exact hr.dropout_single hP (hb hP) name
    · exact hr.dropout_eval (by simpa using hP) name

theorem interp_pts (d : Nat) (qs : List (V3 ℚ × Nat)) :
    ((qs.map row4).map fun p : Pt4 => (p.1.map fun v => (v + 1) * (2 ^ ((d : ℤ) - 1) : ℚ), p.2)) =
      (qs.map fun q => (q.1.map fun v => (v + 1) * (2 ^ ((d : ℤ) - 1) : ℚ), q.2)).map row4 := by
  simp [row4, Function.comp_def]

theorem queries_single_rows {o : Octree F} {h : Nat} (w : o.Valid h) {D : Nat} (hD : D ≤ h) (qs : List (V3 ℚ × Nat))
    (hq : ∀ q ∈ qs, q.2 < 2 ^ 15) : BatchQueries [o] o o 0 D (qs.map row4) (qs.map row4) [qs.length] := by
  intro method nempty d c hd t s hr
  have W := w.wf'
  obtain ⟨x, hx, rfl, rfl⟩ := rel_single hr
  have hl := queried_length w d (by omega) nempty _ _ (W.cellsOf d (by omega)) (W.children d (by omega))
  unfold interp octreeInterp interpFunc
  dsimp only
  rw [if_pos rfl, interp_pts]
  have hq' : ∀ q ∈ (qs.map fun q => (q.1.map fun v => (v + 1) * (2 ^ ((d : ℤ) - 1) : ℚ), q.2)), q.2 < 2 ^ 15 := by
    intro q hqm
    obtain ⟨q', h1, rfl⟩ := List.mem_map.1 hqm
    exact hq q' h1
  by_cases hm : method = "linear"
  · obtain ⟨out, e, e1, -⟩ := C53_none o h w d (by omega) _ _ (W.cellsOf d (by omega)) (W.children d (by omega)) nempty false x (hx.trans hl.symm) _ hq'
    rw [if_pos hm, e]
    exact Both.pure (rel_self _ (by simpa using e1))
  · obtain ⟨out, e, e1, -⟩ := C50_nearest o h w d (by omega) _ _ (W.cellsOf d (by omega)) (W.children d (by omega)) nempty false x (hx.trans hl.symm) _ hq'
    rw [if_neg hm, e]
    exact Both.pure (rel_self _ (by simpa using e1))

theorem layers_single (P : Params) {o : Octree F} {h : Nat} (w : o.Valid h) {D : Nat} (hD : D ≤ h)
    (hn : ∀ d, 1 ≤ d → d ≤ D → NeighExact o.batchSize d o.keys o.neighs) : Layers P P (batchSys P [o] 0) o o D :=
  (layers_single_rows P w hD hn).toLayers

theorem queries_single (P : Params) {o : Octree F} {h : Nat} (w : o.Valid h) {D : Nat} (hD : D ≤ h) (qs : List (V3 ℚ × Nat))
    (hq : ∀ q ∈ qs, q.2 < 2 ^ 15) : Queries (batchSys P [o] 0) o o D (qs.map row4) (qs.map row4) [qs.length] :=
  (queries_single_rows w hD qs hq).toQueries P

end Ocnn
