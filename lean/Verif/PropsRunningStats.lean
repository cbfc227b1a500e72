import Verif.RunningStatsLemmas
import Verif.PropsNets
import Verif.PropsConv

/-! C167: `OctreeResBlocks(use_checkpoint=True)` and the running statistics of batch normalization. -/

namespace Ocnn
variable {F : Type}

namespace Spec

/-- The batch normalizations of all blocks with their inputs, the first block first: block `i` gets the output of the `i` blocks before it. -/
def allBnInputs (P : Params) (kind : BlockKind) (name : String) (ci co num bottleneck : Nat) (nempty : Bool) (o : Octree F) (d : Nat) (t : Tensor) :
    M (List (List (String × Tensor))) :=
  (List.range num).mapM fun i => do
    let x ← resBlocks P kind name ci co i bottleneck nempty o d t
    bnInputs P kind (name ++ ".resblks." ++ toString i) (if i = 0 then ci else co) co bottleneck nempty o d x

end Spec

open Spec Stat

theorem again_succ {n : Nat} {y : Tensor} {outs : List Tensor} {f : Nat → M Tensor} (hl : outs.length = n) (hy : f (n + 1) = .ok y)
    (h : ∀ i < n, ∃ z, f (i + 1) = .ok z ∧ outs.reverse[i]? = some z) : ∀ i < n + 1, ∃ z, f (i + 1) = .ok z ∧ (y :: outs).reverse[i]? = some z := by
  intro i hi
  rw [List.reverse_cons]
  by_cases e : i = n
  · subst e
    exact ⟨y, hy, by rw [List.getElem?_append_right (by simp [hl])]; simp [hl]⟩
  · obtain ⟨z, h1, h2⟩ := h i (by omega)
    exact ⟨z, h1, by rw [List.getElem?_append_left (by simp [hl]; omega)]; exact h2⟩

section
variable (P : Params) (kind : BlockKind) (name : String) (ci co num bottleneck : Nat) (nempty : Bool) (o : Octree F) (d : Nat) (t : Tensor)

theorem resBlocks_succ : resBlocks P kind name ci co (num + 1) bottleneck nempty o d t =
    (resBlocks P kind name ci co num bottleneck nempty o d t >>= fun x => resStep P kind name ci co bottleneck nempty o d x num) := by
  unfold resBlocks
  rw [List.range_succ, List.foldlM_append]
  simp

theorem blocksS_succ : blocksS P kind name ci co (num + 1) bottleneck nempty o d t =
    (blocksS P kind name ci co num bottleneck nempty o d t >>= fun st => do
      let y ← blockS P kind name ci co bottleneck nempty o d st.1 num
      pure (y, (num, st.1) :: st.2)) := by
  unfold blocksS
  rw [List.range_succ, List.foldlM_append]
  simp

theorem vals_blocks (hP : P.training = true) (s : RunStats) : (blocksS P kind name ci co num bottleneck nempty o d t s).map (fun r => r.1.1) =
    resBlocks P kind name ci co num bottleneck nempty o d t := by
  induction num with
  | zero => rfl
  | succ n ih =>
    rw [blocksS_succ, resBlocks_succ, ← ih]
    show ((blocksS P kind name ci co n bottleneck nempty o d t s) >>= _).map _ = _
    cases blocksS P kind name ci co n bottleneck nempty o d t s with
    | error e => rfl
    | ok r =>
      show ((blockS P kind name ci co bottleneck nempty o d r.1.1 n r.2) >>= _).map _ = resStep P kind name ci co bottleneck nempty o d r.1.1 n
      rw [← vals_block hP kind name ci co bottleneck nempty o d r.1.1 n r.2]
      cases blockS P kind name ci co bottleneck nempty o d r.1.1 n r.2 <;> rfl

theorem does_blocks (hP : P.training = true) (y : Tensor) (h : resBlocks P kind name ci co num bottleneck nempty o d t = .ok y) :
    ∃ Ls ins outs, allBnInputs P kind name ci co num bottleneck nempty o d t = .ok Ls ∧
      Does (blocksS P kind name ci co num bottleneck nempty o d t) (y, ins) Ls.flatten ∧
      Does (ins.mapM fun p => blockS P kind name ci co bottleneck nempty o d p.2 p.1) outs Ls.reverse.flatten ∧
      (∀ i < num, ∃ z, resBlocks P kind name ci co (i + 1) bottleneck nempty o d t = .ok z ∧ outs.reverse[i]? = some z) ∧
      outs.length = num ∧
      (Ls.flatten.map Prod.fst = (List.range num).flatMap fun i =>
        (bnNames kind (decide ((if i = 0 then ci else co) ≠ co))).map (name ++ ".resblks." ++ toString i ++ ·)) := by
  induction num generalizing y with
  | zero =>
    cases h
    exact ⟨[], [], [], rfl, Does.pure _, Does.pure _, fun i hi => absurd hi (Nat.not_lt_zero i), rfl, rfl⟩
  | succ n ih =>
    have h' := h
    rw [resBlocks_succ] at h
    obtain ⟨x, h1, h2⟩ := ok_of_bind h
    obtain ⟨Ls, ins, outs, a1, a2, a3, a4, a5, a6⟩ := ih x h1
    obtain ⟨L, b1, b2, b3⟩ := does_block hP h2
    refine ⟨Ls ++ [L], (n, x) :: ins, y :: outs, ?_, ?_, ?_, ?_, ?_, ?_⟩
    · unfold allBnInputs at a1 ⊢
      rw [List.range_succ, List.mapM_append, a1, List.mapM_cons, h1]
      simp only [bind, Except.bind]
      unfold blk at b1
      rw [b1]
      rfl
    · rw [blocksS_succ, List.flatten_append]
      refine a2.bind ?_
      rw [List.flatten_singleton, ← List.append_nil L]
      exact b2.bind (Does.pure _)
    · rw [List.mapM_cons, List.reverse_append, List.flatten_append, List.reverse_singleton, List.flatten_singleton]
      refine b2.bind ?_
      rw [← List.append_nil Ls.reverse.flatten]
      exact a3.bind (Does.pure _)
    · exact again_succ (f := fun k => resBlocks P kind name ci co k bottleneck nempty o d t) a5 h' a4
    · simp [a5]
    · rw [List.flatten_append, List.map_append, a6, List.flatten_singleton, b3, List.range_succ, List.flatMap_append]
      simp [blk]

end

theorem allNames_nodup (kind : BlockKind) (name : String) (ci co num : Nat) : ((List.range num).flatMap fun i =>
    (bnNames kind (decide ((if i = 0 then ci else co) ≠ co))).map (name ++ ".resblks." ++ toString i ++ ·)).Nodup := by
  rw [List.nodup_flatMap]
  refine ⟨fun i _ => block_nodup name kind _ i, (List.nodup_range (n := num)).imp fun {i j} hij => ?_⟩
  intro z hz hz'
  obtain ⟨a, ha, rfl⟩ := List.mem_map.1 hz
  obtain ⟨b, hb, hab⟩ := List.mem_map.1 hz'
  exact hij (blk_inj ha hb hab.symm)

section
variable (P : Params) (kind : BlockKind) (name : String) (ci co num bottleneck : Nat) (nempty : Bool) (o : Octree F) (d : Nat) (t : Tensor)

theorem eval_blocks (hP : P.training = false) (s : RunStats) : (∀ e, resBlocks (P.withStats s) kind name ci co num bottleneck nempty o d t = .error e →
      blocksS P kind name ci co num bottleneck nempty o d t s = .error e) ∧
    ∀ y, resBlocks (P.withStats s) kind name ci co num bottleneck nempty o d t = .ok y → ∃ ins outs,
      blocksS P kind name ci co num bottleneck nempty o d t s = .ok ((y, ins), s) ∧
      (ins.mapM fun p => blockS P kind name ci co bottleneck nempty o d p.2 p.1) s = .ok (outs, s) ∧
      (∀ i < num, ∃ z, resBlocks (P.withStats s) kind name ci co (i + 1) bottleneck nempty o d t = .ok z ∧ outs.reverse[i]? = some z) ∧
      outs.length = num := by
  induction num with
  | zero =>
    refine ⟨fun e h => (by cases h), fun y h => ?_⟩
    cases h
    exact ⟨[], [], rfl, rfl, fun i hi => absurd hi (Nat.not_lt_zero i), rfl⟩
  | succ n ih =>
    have hrun : ∀ x, blockS P kind name ci co bottleneck nempty o d x n s = (resStep (P.withStats s) kind name ci co bottleneck nempty o d x n).map fun a => (a, s) :=
      fun x => still_block hP s kind name ci co bottleneck nempty o d x n
    refine ⟨fun e h => ?_, fun y h => ?_⟩
    · rw [resBlocks_succ] at h
      rw [blocksS_succ]
      show (blocksS P kind name ci co n bottleneck nempty o d t s >>= _) = _
      cases hx : resBlocks (P.withStats s) kind name ci co n bottleneck nempty o d t with
      | error e' =>
        rw [hx] at h
        cases h
        rw [ih.1 _ hx]
        rfl
      | ok x =>
        rw [hx] at h
        obtain ⟨ins, outs, h1, -⟩ := ih.2 x hx
        rw [h1]
        show (blockS P kind name ci co bottleneck nempty o d x n s >>= _) = _
        rw [hrun, show resStep (P.withStats s) kind name ci co bottleneck nempty o d x n = .error e from h]
        rfl
    · have h' := h
      rw [resBlocks_succ] at h
      obtain ⟨x, hx, h2⟩ := ok_of_bind h
      obtain ⟨ins, outs, h3, h4, h5, h6⟩ := ih.2 x hx
      have hb := hrun x
      rw [h2] at hb
      refine ⟨(n, x) :: ins, y :: outs, ?_, ?_, ?_, ?_⟩
      · rw [blocksS_succ]
        show (blocksS P kind name ci co n bottleneck nempty o d t s >>= _) = _
        rw [h3]
        show (blockS P kind name ci co bottleneck nempty o d x n s >>= _) = _
        rw [hb]
        rfl
      · rw [List.mapM_cons]
        show (blockS P kind name ci co bottleneck nempty o d x n s >>= _) = _
        rw [hb]
        show ((ins.mapM fun p => blockS P kind name ci co bottleneck nempty o d p.2 p.1) s >>= _) = _
        rw [h4]
        rfl
      · exact again_succ (f := fun k => resBlocks (P.withStats s) kind name ci co k bottleneck nempty o d t) h6 h' h5
      · simp [h6]

theorem step_false (s : RunStats) : stepS P kind name ci co num bottleneck nempty o d false t s =
    (blocksS P kind name ci co num bottleneck nempty o d t s).map fun r => ((r.1.1, []), r.2) := by
  show (blocksS P kind name ci co num bottleneck nempty o d t s >>= _) = _
  cases blocksS P kind name ci co num bottleneck nempty o d t s <;> rfl

theorem step_true {s s' : RunStats} {y : Tensor} {ins : List (Nat × Tensor)} (h : blocksS P kind name ci co num bottleneck nempty o d t s = .ok ((y, ins), s')) :
    stepS P kind name ci co num bottleneck nempty o d true t s =
      ((ins.mapM fun p => blockS P kind name ci co bottleneck nempty o d p.2 p.1) s').map fun r => ((y, r.1), r.2) := by
  show (blocksS P kind name ci co num bottleneck nempty o d t s >>= _) = _
  rw [h]
  show ((ins.mapM fun p => blockS P kind name ci co bottleneck nempty o d p.2 p.1) s' >>= _) = _
  cases (ins.mapM fun p => blockS P kind name ci co bottleneck nempty o d p.2 p.1) s' <;> rfl

theorem step_true_error {s : RunStats} {e : Err} (h : blocksS P kind name ci co num bottleneck nempty o d t s = .error e) :
    stepS P kind name ci co num bottleneck nempty o d true t s = .error e := by
  show (blocksS P kind name ci co num bottleneck nempty o d t s >>= _) = _
  rw [h]
  rfl

end

variable (P : Params) (kind : BlockKind) (name : String) (ci co num bottleneck : Nat) (nempty : Bool) (o : Octree F) (d : Nat) (t : Tensor)

/-- **C167** Checkpointing does not change what `OctreeResBlocks` returns or raises, in training and in evaluation mode, whatever the running
statistics. -/
theorem C167_output (useCheckpoint : Bool) (s : RunStats) :
    (stepS P kind name ci co num bottleneck nempty o d useCheckpoint t s).map (fun r => r.1.1) =
      resBlocks (P.withStats s) kind name ci co num bottleneck nempty o d t := by
  cases hP : P.training with
  | false =>
    obtain ⟨h1, h2⟩ := eval_blocks P kind name ci co num bottleneck nempty o d t hP s
    cases hy : resBlocks (P.withStats s) kind name ci co num bottleneck nempty o d t with
    | error e =>
      cases useCheckpoint with
      | false => rw [step_false, h1 e hy]; rfl
      | true => rw [step_true_error P kind name ci co num bottleneck nempty o d t (h1 e hy)]; rfl
    | ok y =>
      obtain ⟨ins, outs, h3, h4, -⟩ := h2 y hy
      cases useCheckpoint with
      | false => rw [step_false, h3]; rfl
      | true => rw [step_true P kind name ci co num bottleneck nempty o d t h3, h4]; rfl
  | true =>
    have hv := vals_blocks (P.withStats s) kind name ci co num bottleneck nempty o d t hP s
    have hb : blocksS (P.withStats s) kind name ci co num bottleneck nempty o d t s = blocksS P kind name ci co num bottleneck nempty o d t s := rfl
    rw [hb] at hv
    cases useCheckpoint with
    | false =>
      rw [step_false, ← hv]
      cases blocksS P kind name ci co num bottleneck nempty o d t s <;> rfl
    | true =>
      cases hy : resBlocks (P.withStats s) kind name ci co num bottleneck nempty o d t with
      | error e =>
        rw [hy] at hv
        cases hs : blocksS P kind name ci co num bottleneck nempty o d t s with
        | ok r => rw [hs] at hv; cases hv
        | error e' =>
          rw [hs] at hv
          cases hv
          rw [step_true_error P kind name ci co num bottleneck nempty o d t hs]
          rfl
      | ok y =>
        obtain ⟨Ls, ins, outs, -, h2, h3, -⟩ := does_blocks (P.withStats s) kind name ci co num bottleneck nempty o d t hP y hy
        have h2' : blocksS P kind name ci co num bottleneck nempty o d t s = _ := h2 s
        have h3' : (ins.mapM fun p => blockS P kind name ci co bottleneck nempty o d p.2 p.1) (runAll s Ls.flatten) = _ := h3 (runAll s Ls.flatten)
        rw [step_true P kind name ci co num bottleneck nempty o d t h2', h3']
        rfl

/-- **C167** Every block that is run again in the backward pass returns what it returned in the forward pass: the gradients are computed at the
same point. -/
theorem C167_again (s s' : RunStats) (y : Tensor) (outs : List Tensor)
    (h : stepS P kind name ci co num bottleneck nempty o d true t s = .ok ((y, outs), s')) :
    outs.length = num ∧ ∀ i < num, ∃ z, resBlocks (P.withStats s) kind name ci co (i + 1) bottleneck nempty o d t = .ok z ∧ outs.reverse[i]? = some z := by
  have ho := C167_output P kind name ci co num bottleneck nempty o d t true s
  rw [h] at ho
  have hy : resBlocks (P.withStats s) kind name ci co num bottleneck nempty o d t = .ok y := ho.symm
  cases hP : P.training with
  | false =>
    obtain ⟨ins, outs', h3, h4, h5, h6⟩ := (eval_blocks P kind name ci co num bottleneck nempty o d t hP s).2 y hy
    rw [step_true P kind name ci co num bottleneck nempty o d t h3, h4] at h
    cases h
    exact ⟨h6, h5⟩
  | true =>
    obtain ⟨Ls, ins, outs', -, h2, h3, h5, h6, -⟩ := does_blocks (P.withStats s) kind name ci co num bottleneck nempty o d t hP y hy
    have h2' : blocksS P kind name ci co num bottleneck nempty o d t s = _ := h2 s
    have h3' : (ins.mapM fun p => blockS P kind name ci co bottleneck nempty o d p.2 p.1) (runAll s Ls.flatten) = _ := h3 (runAll s Ls.flatten)
    rw [step_true P kind name ci co num bottleneck nempty o d t h2', h3'] at h
    cases h
    exact ⟨h6, h5⟩

/-- **C167** (partial) In evaluation mode a step leaves the running statistics alone, with checkpoints as without.  In training mode this is
`C167_statistics`: checkpoints change them, see `C167_violated`. -/
theorem C167_evaluation_partial (hP : P.training = false) (useCheckpoint : Bool) (s s' : RunStats) (y : Tensor) (outs : List Tensor)
    (h : stepS P kind name ci co num bottleneck nempty o d useCheckpoint t s = .ok ((y, outs), s')) : s' = s := by
  have ho := C167_output P kind name ci co num bottleneck nempty o d t useCheckpoint s
  rw [h] at ho
  have hy : resBlocks (P.withStats s) kind name ci co num bottleneck nempty o d t = .ok y := ho.symm
  obtain ⟨ins, outs', h3, h4, -⟩ := (eval_blocks P kind name ci co num bottleneck nempty o d t hP s).2 y hy
  cases useCheckpoint with
  | false =>
    rw [step_false, h3] at h
    cases h
    rfl
  | true =>
    rw [step_true P kind name ci co num bottleneck nempty o d t h3, h4] at h
    cases h
    rfl

/-- **C167** What a training step does to the running statistics.  The batch normalizations of the blocks, `xs` with their inputs, have distinct
names.  Without checkpoints the new mean is `0.9` of the old one and `0.1` of the mean of the batch, as documented by torch.  With checkpoints it is
`0.81` of the old one and `0.19` of the mean of the batch; the same holds for the variances.  Other buffers stay. -/
theorem C167_statistics (hP : P.training = true) (y : Tensor) (hy : resBlocks P kind name ci co num bottleneck nempty o d t = .ok y) :
    ∃ xs, (allBnInputs P kind name ci co num bottleneck nempty o d t).map List.flatten = .ok xs ∧
      xs.map Prod.fst = ((List.range num).flatMap fun i =>
        (bnNames kind (decide ((if i = 0 then ci else co) ≠ co))).map (name ++ ".resblks." ++ toString i ++ ·)) ∧
      (xs.map Prod.fst).Nodup ∧
      ∀ s, ∃ s₁ s₂ outs, stepS P kind name ci co num bottleneck nempty o d false t s = .ok ((y, []), s₁) ∧
        stepS P kind name ci co num bottleneck nempty o d true t s = .ok ((y, outs), s₂) ∧
        (∀ x ∈ xs, ∀ i (hi : i < x.2.width),
          s₁.mean x.1 i = 9 / 10 * s.mean x.1 i + 1 / 10 * colMean x.2.rows ⟨i, hi⟩ ∧
          s₁.var x.1 i = 9 / 10 * s.var x.1 i + 1 / 10 * colVarU x.2.rows ⟨i, hi⟩ ∧
          s₂.mean x.1 i = 81 / 100 * s.mean x.1 i + 19 / 100 * colMean x.2.rows ⟨i, hi⟩ ∧
          s₂.var x.1 i = 81 / 100 * s.var x.1 i + 19 / 100 * colVarU x.2.rows ⟨i, hi⟩) ∧
        (∀ n, n ∉ xs.map Prod.fst → ∀ i, s₁.mean n i = s.mean n i ∧ s₁.var n i = s.var n i ∧ s₂.mean n i = s.mean n i ∧ s₂.var n i = s.var n i) := by
  obtain ⟨Ls, ins, outs, h1, h2, h3, -, -, h6⟩ := does_blocks P kind name ci co num bottleneck nempty o d t hP y hy
  have hn : (Ls.flatten.map Prod.fst).Nodup := by
    rw [h6]
    exact allNames_nodup kind name ci co num
  have hp : Ls.flatten.Perm Ls.reverse.flatten := (List.reverse_perm Ls).symm.flatten
  refine ⟨Ls.flatten, by rw [h1]; rfl, h6, hn, fun s => ⟨runAll s Ls.flatten, runAll s (Ls.flatten ++ Ls.reverse.flatten), outs, ?_, ?_, ?_, ?_⟩⟩
  · rw [step_false, h2 s]
    rfl
  · rw [step_true P kind name ci co num bottleneck nempty o d t (h2 s), h3, runAll_append]
    rfl
  · intro x hx i hi
    obtain ⟨a, b⟩ := runAll_mem hn s hx i hi
    obtain ⟨c, e⟩ := runAll_twice hn hp s hx i hi
    exact ⟨a, b, c, e⟩
  · intro n hx i
    obtain ⟨a, b⟩ := runAll_other Ls.flatten s n hx i
    obtain ⟨c, e⟩ := runAll_other (Ls.flatten ++ Ls.reverse.flatten) s n (by
      rw [List.map_append, List.mem_append, ← (hp.map Prod.fst).mem_iff]
      exact fun h => h.elim hx hx) i
    exact ⟨a, b, c, e⟩

/-- **C167** After a training step, the running means with and without checkpoints agree in a channel only when the old running mean was already the
mean of the batch, and likewise for the variances. -/
theorem C167_differ (hP : P.training = true) (y : Tensor) (hy : resBlocks P kind name ci co num bottleneck nempty o d t = .ok y) :
    ∃ xs, (allBnInputs P kind name ci co num bottleneck nempty o d t).map List.flatten = .ok xs ∧
      ∀ s s₁ s₂ r₁ r₂, stepS P kind name ci co num bottleneck nempty o d false t s = .ok (r₁, s₁) →
        stepS P kind name ci co num bottleneck nempty o d true t s = .ok (r₂, s₂) →
        ∀ x ∈ xs, ∀ i (hi : i < x.2.width), (s₁.mean x.1 i = s₂.mean x.1 i ↔ s.mean x.1 i = colMean x.2.rows ⟨i, hi⟩) ∧
          (s₁.var x.1 i = s₂.var x.1 i ↔ s.var x.1 i = colVarU x.2.rows ⟨i, hi⟩) := by
  obtain ⟨xs, h1, -, -, h⟩ := C167_statistics P kind name ci co num bottleneck nempty o d t hP y hy
  refine ⟨xs, h1, fun s s₁ s₂ r₁ r₂ e₁ e₂ x hx i hi => ?_⟩
  obtain ⟨s₁', s₂', outs, e₁', e₂', hf, -⟩ := h s
  rw [e₁] at e₁'
  rw [e₂] at e₂'
  cases e₁'
  cases e₂'
  obtain ⟨a, b, c, e⟩ := hf x hx i hi
  rw [a, b, c, e]
  refine ⟨⟨fun h => ?_, fun h => ?_⟩, ⟨fun h => ?_, fun h => ?_⟩⟩ <;> linarith

/-- The hypotheses are met: three blocks with one channel run on the non-empty nodes of a valid octree, in training and in evaluation mode. -/
theorem C167_runs : ∃ (o : Octree Unit) (x : List (Fin 1 → ℚ)) (y : Tensor), o.Valid 2 ∧
    resBlocks P .block "blocks" 1 1 3 1 true o 2 ⟨1, x⟩ = .ok y := by
  obtain ⟨o, w, -, hn, -, -, -, h2⟩ := example_valid'
  have L := layers_single P w (le_refl 2) fun d _ h => hn d h
  have hs : NotSingle P o true 2 2 := by
    intro _ _ d h1 h3
    obtain rfl : d = 2 := by omega
    omega
  have hr := rel_self (n := rowsAt true 2 o) (List.replicate (o.nnumNempty 2) (fun _ : Fin 1 => (1 : ℚ))) (by simp [rowsAt])
  obtain ⟨y, hy, -⟩ := both_shape (L.resBlocks .block "blocks" 1 3 (bnk := 1) (by omega) (by omega) ⟨Nat.zero_le _, le_refl _⟩ (by decide) (by decide)
    (bnOk_ne w (by omega) (le_refl _) hs 2 (le_refl _) (le_refl _)) hr)
  exact ⟨o, _, _, w, hy⟩

/-- **C167 is violated.** On a built octree there is a training step after which the running statistics depend on whether checkpoints are used,
whatever the parameters. -/
theorem C167_violated (hP : P.training = true) : ∃ (o : Octree Unit) (x : List (Fin 1 → ℚ)) (s s₁ s₂ : RunStats) (y : Tensor) (outs : List Tensor),
    o.Valid 2 ∧ stepS P .block "blocks" 1 1 3 1 true o 2 false ⟨1, x⟩ s = .ok ((y, []), s₁) ∧
    stepS P .block "blocks" 1 1 3 1 true o 2 true ⟨1, x⟩ s = .ok ((y, outs), s₂) ∧
    s₁.mean "blocks.resblks.0.conv1x1a.bn" 0 ≠ s₂.mean "blocks.resblks.0.conv1x1a.bn" 0 := by
  obtain ⟨o, x, y, w, hy⟩ := C167_runs P
  obtain ⟨xs, h1, -, -, hs⟩ := C167_statistics P _ _ _ _ _ _ _ _ _ _ hP y hy
  obtain ⟨xs', h1', hd⟩ := C167_differ P _ _ _ _ _ _ _ _ _ _ hP y hy
  rw [h1] at h1'
  cases h1'
  -- the first batch normalization of the first block
  obtain ⟨z, hz⟩ : ∃ z : List (Fin 1 → ℚ), ("blocks.resblks.0.conv1x1a.bn", (⟨1, z⟩ : Tensor)) ∈ xs := by
    cases hA : allBnInputs P .block "blocks" 1 1 3 1 true o 2 ⟨1, x⟩ with
    | error e => rw [hA] at h1; cases h1
    | ok Ls =>
      rw [hA] at h1
      cases h1
      unfold allBnInputs at hA
      rw [show List.range 3 = 0 :: [1, 2] from rfl, List.mapM_cons] at hA
      obtain ⟨L, hL, hA⟩ := ok_of_bind hA
      obtain ⟨Ls', -, hA⟩ := ok_of_bind hA
      cases hA
      obtain ⟨t, ht, hL⟩ := ok_of_bind hL
      cases ht
      unfold bnInputs at hL
      obtain ⟨cb, hcb, hL⟩ := ok_of_bind hL
      cases hcb
      obtain ⟨a, ha, hL⟩ := ok_of_bind hL
      obtain ⟨_, -, hL⟩ := ok_of_bind hL
      obtain ⟨_, -, hL⟩ := ok_of_bind hL
      obtain ⟨_, -, hL⟩ := ok_of_bind hL
      obtain ⟨_, -, hL⟩ := ok_of_bind hL
      rw [if_pos (by simp)] at hL
      cases hL
      cases ha
      exact ⟨_, List.mem_flatten.2 ⟨_, List.mem_cons_self, List.mem_cons_self⟩⟩
  set b : ℚ := colMean z ⟨0, by omega⟩ with hb
  obtain ⟨s₁, s₂, outs, e₁, e₂, -⟩ := hs ⟨fun _ _ => b + 1, fun _ _ => 1⟩
  refine ⟨o, x, _, s₁, s₂, y, outs, w, e₁, e₂, fun e => ?_⟩
  have := ((hd _ s₁ s₂ _ _ e₁ e₂ _ hz 0 (by show 0 < 1; omega)).1.1 e : b + 1 = b)
  linarith

example (s : RunStats) : ∃ (o : Octree Unit) (x : List (Fin 1 → ℚ)) (y : Tensor) (outs : List Tensor) (s' : RunStats),
    stepS P .block "blocks" 1 1 3 1 true o 2 true ⟨1, x⟩ s = .ok ((y, outs), s') := by
  obtain ⟨o, x, y, -, hy⟩ := C167_runs (P.withStats s)
  have h := C167_output P .block "blocks" 1 1 3 1 true o 2 ⟨1, x⟩ true s
  rw [hy] at h
  cases hs : stepS P .block "blocks" 1 1 3 1 true o 2 true ⟨1, x⟩ s with
  | error e => rw [hs] at h; cases h
  | ok r => exact ⟨o, x, r.1.1, r.1.2, r.2, hs⟩

end Ocnn
