import Verif.DecodeBatch

/-! C91: decoding a batch of codes against decoding the codes one by one. -/

set_option linter.unusedSimpArgs false

namespace Ocnn
open Spec
variable {F : Type}

namespace Spec

/-- In every layer of a run of the decoder at least one node is predicted to have children. -/
def SplitsEverywhere (st : AeState F) : Prop := ∀ l ∈ st.logits, ∃ (y : List (Fin 2 → ℚ)), l = ⟨2, y⟩ ∧ ∃ v ∈ y, v 0 < v 1

/-- `t` is the concatenation of the tensors `ts`, which all have `c` columns. -/
def Concatenated (c : Nat) (t : Tensor) (ts : List Tensor) : Prop :=
  ∃ ys : List (List (Fin c → ℚ)), t = ⟨c, ys.flatten⟩ ∧ ts = ys.map fun y => (⟨c, y⟩ : Tensor)

end Spec

theorem mapM_ok_get {α β : Type} {f : α → M β} : ∀ {l : List α} {r : List β}, l.mapM f = .ok r → r.length = l.length ∧
    ∀ (i : Nat) (b : β), r[i]? = some b → ∃ a, l[i]? = some a ∧ f a = .ok b
  | [], r, h => by
    cases h
    exact ⟨rfl, fun i b hi => by simp at hi⟩
  | a :: l, r, h => by
    rw [List.mapM_cons] at h
    obtain ⟨b, hb, h⟩ := bind_ok h
    obtain ⟨r', hr, h⟩ := bind_ok h
    cases h
    obtain ⟨h1, h2⟩ := mapM_ok_get hr
    refine ⟨by simp [h1], fun i c hi => ?_⟩
    cases i with
    | zero =>
      simp only [List.getElem?_cons_zero, Option.some.injEq] at hi
      subst hi
      exact ⟨a, rfl, hb⟩
    | succ i =>
      rw [List.getElem?_cons_succ] at hi
      rw [List.getElem?_cons_succ]
      exact h2 i c hi

theorem concat_of {c : Nat} {ns : List Nat} {t : Tensor} {ts : List Tensor} (h0 : ts ≠ []) (hn : ns.length = ts.length)
    (H : ∀ (i : Nat) (s : Tensor), ts[i]? = some s → Rel i ns c t s) : Concatenated c t ts := by
  have hpos : 0 < ts.length := List.length_pos_iff.2 h0
  obtain ⟨ys, h1, rfl, -⟩ := H 0 ts[0] (List.getElem?_eq_getElem hpos)
  refine ⟨ys, rfl, ?_⟩
  have hl : ys.length = ts.length := by rw [← hn, ← h1, List.length_map]
  apply List.ext_getElem?
  intro i
  rcases Nat.lt_or_ge i ts.length with hi | hi
  · obtain ⟨xs, g1, g2, x, g3, g4⟩ := H i ts[i] (List.getElem?_eq_getElem hi)
    have e : xs = ys := by
      have : xs.flatten = ys.flatten := by
        have := g2
        simpa using this.symm
      exact List.eq_iff_flatten_eq.2 ⟨this, by rw [g1, h1]⟩
    subst e
    rw [List.getElem?_eq_getElem hi, g4, List.getElem?_map, g3]
    rfl
  · rw [List.getElem?_eq_none hi, List.getElem?_eq_none (by simpa [hl] using hi)]


theorem predicts_map {t : Octree F} {full depth : Nat} {logits : List Tensor} (H : PredictsOctree t full depth logits) (d : Nat) (h1 : full ≤ d) (h2 : d ≤ depth)
    {l : List (Fin 2 → ℚ)} (hl : logits[d - full]? = some ⟨2, l⟩) : l.map (fun v => decide (v 0 < v 1)) = t.masks d := by
  obtain ⟨l', ch, e1, e2, e3⟩ := H d h1 h2
  rw [hl] at e1
  cases e1
  rw [e3]
  unfold Octree.masks
  rw [e2]
  simp

theorem concat_states {os : List (Octree F)} {p : AeState F} {sts : List (AeState F)} {cout depth full N : Nat} (hsne : sts ≠ []) (hlen : os.length = sts.length)
    (key : ∀ (i : Nat) (st : AeState F), sts[i]? = some st → Rel i (ht os true depth) cout p.deconv st.deconv ∧
      AllRel N (fun j => Rel i (ht os false (full + j)) 2) p.logits st.logits) :
    Concatenated cout p.deconv (sts.map AeState.deconv) ∧
    ∀ j < N, ∃ l ls, p.logits[j]? = some l ∧ sts.map (fun st => st.logits[j]?) = ls.map some ∧ Concatenated 2 l ls := by
  constructor
  · apply concat_of (ns := ht os true depth)
    · intro e
      exact hsne (List.map_eq_nil_iff.1 e)
    · simp [ht, hlen]
    · intro i s hi
      rw [List.getElem?_map] at hi
      cases hi' : sts[i]? with
      | none => rw [hi'] at hi; cases hi
      | some st =>
        rw [hi'] at hi
        cases hi
        exact (key i st hi').1
  · intro j hj
    have h0 : 0 < sts.length := List.length_pos_iff.2 hsne
    have hj' : j < p.logits.length := by rw [(key 0 sts[0] (List.getElem?_eq_getElem h0)).2.1]; exact hj
    have hsome : ∀ st ∈ sts, (st.logits[j]?).isSome := by
      intro st hst
      obtain ⟨i, hi⟩ := List.mem_iff_getElem?.1 hst
      rw [List.getElem?_eq_getElem (by rw [(key i st hi).2.2.1]; exact hj)]
      rfl
    obtain ⟨ls, -, els⟩ := mapM_need (fun st : AeState F => st.logits[j]?) sts hsome
    refine ⟨p.logits[j], ls, List.getElem?_eq_getElem hj', els, ?_⟩
    have hll : ls.length = sts.length := by simpa using (congrArg List.length els).symm
    apply concat_of (ns := ht os false (full + j))
    · intro e
      rw [e] at hll
      exact hsne (List.length_eq_zero_iff.1 hll.symm)
    · simp [ht, hll, hlen]
    · intro i s hi
      have hi' : i < sts.length := by rw [← hll]; exact (List.getElem?_eq_some_iff.1 hi).1
      obtain ⟨-, -, h3⟩ := (key i sts[i] (List.getElem?_eq_getElem hi')).2
      obtain ⟨a, b, q1, q2, q3⟩ := h3 j hj
      rw [List.getElem?_eq_getElem hj'] at q1
      cases q1
      have := congrArg (fun l => l[i]?) els
      simp only [List.getElem?_map, List.getElem?_eq_getElem hi', hi, Option.map_some, q2] at this
      cases this
      exact q3

/-- **C91** (partial: the hypothesis `SplitsEverywhere` cannot be dropped, see `C91_decode_batch_violated`.)  Decoding a batch of codes gives the merge of the
octrees that are generated from the single codes, and their logits and signals one after the other. -/
theorem C91_decode_batch_partial (P : Params) (hP : P.training = false) (cfg : DecCfg) [cfg.Ok] (cout : Nat) {depth full dev : Nat} (hf : 1 ≤ full)
    (hfd : full ≤ depth) (hd9 : depth ≤ 9) (codes : List (List (Fin cfg.code → ℚ))) (hne : codes ≠ []) (hB : codes.length ≤ 2 ^ 15)
    (hx : ∀ x ∈ codes, x.length = 8 ^ full) (sts : List (AeState F))
    (hs : codes.mapM (fun x => aeDecodeCode P cfg cout depth full dev ⟨cfg.code, x⟩) = .ok sts) (hpos : ∀ st ∈ sts, SplitsEverywhere st) :
    ∃ st o', aeDecodeCode P cfg cout depth full dev ⟨cfg.code, codes.flatten⟩ = .ok st ∧ Octree.merge (sts.map AeState.octree) = .ok o' ∧
      SameOctree st.octree o' depth ∧ st.octree.batchSize = codes.length ∧ st.octree.depth = depth ∧
      Concatenated cout st.deconv (sts.map AeState.deconv) ∧ st.logits.length = depth + 1 - full ∧
      ∀ d, full ≤ d → d ≤ depth → ∃ l ls, st.logits[d - full]? = some l ∧ sts.map (fun st => st.logits[d - full]?) = ls.map some ∧ Concatenated 2 l ls := by
  have hlen : sts.length = codes.length := (mapM_ok_get hs).1
  have single : ∀ (i : Nat) (st : AeState F), sts[i]? = some st → ∃ x, codes[i]? = some x ∧ x.length = 8 ^ full ∧
      aeDecodeCode P cfg cout depth full dev ⟨cfg.code, x⟩ = .ok st := by
    intro i st hi
    obtain ⟨x, h1, h2⟩ := (mapM_ok_get hs).2 i st hi
    exact ⟨x, h1, hx x (List.mem_of_getElem? h1), h2⟩
  have hmem : ∀ st ∈ sts, ∃ x, x.length = 8 ^ full ∧ aeDecodeCode P cfg cout depth full dev ⟨cfg.code, x⟩ = .ok st := by
    intro st hst
    obtain ⟨i, hi⟩ := List.mem_iff_getElem?.1 hst
    obtain ⟨x, -, h1, h2⟩ := single i st hi
    exact ⟨x, h1, h2⟩
  have facts : ∀ st ∈ sts, st.octree.Valid depth ∧ st.octree.depth = depth ∧ st.octree.fullDepth = full ∧ st.octree.batchSize = 1 ∧
      (∀ d ≤ depth, NeighExact st.octree.batchSize d st.octree.keys st.octree.neighs) ∧ (∀ d ≤ depth, 0 < st.octree.nnumNempty d) ∧
      PredictsOctree st.octree full depth st.logits ∧ st.octree.device = dev ∧ st.octree.features depth = none ∧ st.octree.normals depth = none ∧
      st.octree.points depth = none := by
    intro st hst
    obtain ⟨x, h1, h2⟩ := hmem st hst
    obtain ⟨st', y, e, w, g1, g2, g3, g4, g5, -⟩ := ae_decode (F := F) P cfg cout (dev := dev) (B := 1) hf hfd hd9 (le_refl _) (by decide) x (by omega)
    rw [h2] at e
    cases e
    obtain ⟨f1, f2, f3, f4⟩ := frame_decode h2
    refine ⟨w, g1, g2, g3, g4, g5, ?_, f4, f1 _, f2 _, f3 _⟩
    refine C87_predicts_generated P cfg cout (B := 1) hf hfd hd9 (le_refl _) (by decide) x (by omega) st h2 ?_
    intro l hl
    obtain ⟨y, e, v, hv⟩ := hpos st hst _ hl
    cases e
    exact ⟨v, hv⟩
  have hm : Mergeable (sts.map AeState.octree) depth full dev := by
    have all : ∀ {p : Octree F → Prop}, (∀ st ∈ sts, p st.octree) → ∀ o ∈ sts.map AeState.octree, p o := by
      intro p h o ho
      obtain ⟨st, hst, rfl⟩ := List.mem_map.1 ho
      exact h st hst
    refine ⟨?_, by rw [List.length_map, hlen]; exact hB, all fun st h => (facts st h).2.2.2.1, all fun st h => (facts st h).2.1,
      all fun st h => (facts st h).2.2.1, all fun st h => (facts st h).2.2.2.2.2.2.2.1, all fun st h => (facts st h).1, ?_, ?_, ?_⟩
    · intro e
      rw [List.map_eq_nil_iff] at e
      rw [e] at hlen
      exact hne (List.length_eq_zero_iff.1 hlen.symm)
    · refine all fun st h => all fun st' h' => ?_
      rw [(facts st h).2.2.2.2.2.2.2.2.1, (facts st' h').2.2.2.2.2.2.2.2.1]
    · refine all fun st h => all fun st' h' => ?_
      rw [(facts st h).2.2.2.2.2.2.2.2.2.1, (facts st' h').2.2.2.2.2.2.2.2.2.1]
    · refine all fun st h => all fun st' h' => ?_
      rw [(facts st h).2.2.2.2.2.2.2.2.2.2, (facts st' h').2.2.2.2.2.2.2.2.2.2]
  have hsne : sts ≠ [] := by
    intro e
    exact hm.nonempty (by rw [e]; rfl)
  obtain ⟨nb, hr1, hr2⟩ := merged_ready hm hf
  have hmb : MergedBatch (sts.map AeState.octree) { mergedState (sts.map AeState.octree) depth full dev (depth + 1) with neighs := nb } depth := by
    refine ⟨⟨full, dev, hf, hm⟩, ?_, hr1⟩
    intro o ho d _ hd
    obtain ⟨st, hst, rfl⟩ := List.mem_map.1 ho
    exact (facts st hst).2.2.2.2.1 d hd
  have hW := merged_wf hm
  have hMO := merge_ok hm
  -- the run on the merged octree
  have hxl : codes.map List.length = (sts.map AeState.octree).map fun o => height o false full := by
    apply List.ext_getElem?
    intro i
    rcases Nat.lt_or_ge i codes.length with hi | hi
    · have hi' : i < sts.length := by omega
      simp only [List.getElem?_map, List.getElem?_eq_getElem hi, List.getElem?_eq_getElem hi', Option.map_some]
      obtain ⟨w, g1, g2, g3, -⟩ := facts sts[i] (List.getElem_mem hi')
      rw [hx _ (List.getElem_mem hi)]
      show _ = some (sts[i].octree.nnum full)
      rw [nnum_full w full (by omega), g3, Nat.mul_one]
    · rw [List.getElem?_eq_none (by simpa using hi), List.getElem?_eq_none (by simpa [hlen] using hi)]
  have key : ∀ (i : Nat) (st : AeState F), sts[i]? = some st → ∃ p, aeDecoder P cfg cout depth full false ⟨cfg.code, codes.flatten⟩
      { mergedState (sts.map AeState.octree) depth full dev (depth + 1) with neighs := nb } = .ok p ∧
      Rel i (ht (sts.map AeState.octree) true depth) cout p.deconv st.deconv ∧
      AllRel (depth + 1 - full) (fun j => Rel i (ht (sts.map AeState.octree) false (full + j)) 2) p.logits st.logits := by
    intro i st hi
    obtain ⟨x, g1, g2, g3⟩ := single i st hi
    have L := layers_batch hP hmb (i := i) (o := st.octree) (by rw [List.getElem?_map, hi]; rfl)
    obtain ⟨p, q, e1, e2, -, -, h1, h2⟩ := L.aeDecoder (cfg := cfg) (cout := cout) hf hfd hd9 ⟨Nat.zero_le _, le_refl _⟩ (fun _ _ _ => bnOk_eval hP _)
      (rel_batch hxl g1)
    have e3 := C87_fixpoint P cfg cout (B := 1) hf hfd hd9 (le_refl _) (by decide) x (by omega) st g3
    rw [e2] at e3
    cases e3
    exact ⟨p, e1, h1, h2⟩
  have h0 : 0 < sts.length := List.length_pos_iff.2 hsne
  obtain ⟨p, hp, -, hpl⟩ := key 0 sts[0] (List.getElem?_eq_getElem h0)
  have key' : ∀ (i : Nat) (st : AeState F), sts[i]? = some st →
      Rel i (ht (sts.map AeState.octree) true depth) cout p.deconv st.deconv ∧
      AllRel (depth + 1 - full) (fun j => Rel i (ht (sts.map AeState.octree) false (full + j)) 2) p.logits st.logits := by
    intro i st hi
    obtain ⟨p', g1, g2⟩ := key i st hi
    rw [hp] at g1
    cases g1
    exact g2
  obtain ⟨hsig, logit⟩ := concat_states hsne (by simp) key'
  have hM : ∀ d ≤ depth, ({ mergedState (sts.map AeState.octree) depth full dev (depth + 1) with neighs := nb } : Octree F).masks d =
      (sts.map fun st => st.octree.masks d).flatten := by
    intro d hd
    have := masks_of_wf hW d hd
    unfold Octree.masks at this ⊢
    dsimp only at this ⊢
    rw [this]
    unfold mergedMasks
    simp only [List.map_map, Function.comp_def]
  have hmask : ∀ k, full + k ≤ depth → ∃ y, p.logits[k]? = some ⟨2, y⟩ ∧
      maskOf y = ({ mergedState (sts.map AeState.octree) depth full dev (depth + 1) with neighs := nb } : Octree F).masks (full + k) := by
    intro k hk
    obtain ⟨l, ls, e1, e2, ys, rfl, rfl⟩ := logit k (by omega)
    refine ⟨_, e1, ?_⟩
    have e : (ys.flatten).map (fun v => decide (v 0 < v 1)) = (sts.map fun st => st.octree.masks (full + k)).flatten := by
      rw [List.map_flatten]
      congr 1
      apply List.ext_getElem?
      intro i
      have e3 := congrArg (fun l => l[i]?) e2
      simp only [List.getElem?_map] at e3 ⊢
      cases hi : sts[i]? with
      | none =>
        rw [hi] at e3
        cases hy : ys[i]? with
        | none => rfl
        | some y => rw [hy] at e3; cases e3
      | some st =>
        rw [hi] at e3
        cases hy : ys[i]? with
        | none => rw [hy] at e3; cases e3
        | some y =>
          rw [hy] at e3
          simp only [Option.map_some, Option.some.injEq] at e3 ⊢
          exact predicts_map (facts st (List.mem_of_getElem? hi)).2.2.2.2.2.2.1 (full + k) (by omega) hk
            (by rw [show full + k - full = k by omega]; exact e3)
    rw [hM _ hk]
    unfold maskOf
    rw [e, forceFirst_of_pos]
    rw [List.count_flatten]
    have hst := List.getElem_mem h0
    have hpos' := (facts _ hst).2.2.2.2.2.1 (full + k) hk
    rw [(facts _ hst).1.wf'.nnumNempty _ hk] at hpos'
    refine lt_of_lt_of_le hpos' (List.le_sum_of_mem ?_)
    rw [List.map_map]
    exact List.mem_map.2 ⟨_, hst, rfl⟩
  have hwo : ({ mergedState (sts.map AeState.octree) depth full dev (depth + 1) with neighs := nb } : Octree F).Valid depth := by
    have := hW.valid
    exact ⟨this.1, this.2, this.3, this.4, this.wf⟩
  obtain ⟨st', r1, r2, r3, r4, r5, r6⟩ := replay_run P cfg cout (dev := dev) hf hd9 hwo rfl (le_refl _) (by
      show 1 ≤ (sts.map AeState.octree).length
      rw [List.length_map]; exact h0) (by
      intro d h1 h2
      have := hr2 d h1 h2
      exact this) codes.flatten (by
      rw [List.length_flatten, hxl]
      rfl) p hp hmask
  refine ⟨st', _, r1, hMO, r2, ?_, r3, ?_, ?_, ?_⟩
  · rw [r4]
    show (sts.map AeState.octree).length = _
    rw [List.length_map, hlen]
  · rw [r6]
    exact hsig
  · rw [r5]
    exact hpl.1
  · intro d h1 h2
    rw [r5]
    exact logit (d - full) (by omega)

/-- The logits of every run of the decoder with weights zero are the biases. -/
theorem decode_bias {P : Params} {cfg : DecCfg} (hw : ∀ name n k i j, P.weight name n k i j = 0) (b : Nat → ℚ) (hb : ∀ name j, P.bias name j = b j)
    {cout depth full dev : Nat} {code : Tensor} {st : AeState F} (h : aeDecodeCode P cfg cout depth full dev code = .ok st) :
    ∀ t ∈ st.logits, ∀ v ∈ t.rows, ∀ i, v i = b i := by
  unfold aeDecodeCode at h
  obtain ⟨o0, -, h⟩ := bind_ok h
  unfold aeDecoder at h
  obtain ⟨s2, hs, h⟩ := bind_ok h
  obtain ⟨c, -, h⟩ := bind_ok h
  obtain ⟨sig, -, h⟩ := bind_ok h
  obtain ⟨sig', -, h⟩ := bind_ok h
  cases h
  have := logits_bias P cfg hw b hb depth full true _ hs (by intro t ht; cases ht)
  exact this

/-- A decoder with weights zero and the biases `b`. -/
def biasNet (b : Nat → ℚ) : Params :=
  ⟨fun _ _ _ _ => 0, fun _ j => b j, fun _ _ => 1, fun _ _ => 0, fun _ _ => 0, fun _ _ => 1, false, fun _ _ _ => 1, id, id⟩

theorem forceFirst_none (n : Nat) (hn : 0 < n) : (forceFirst (List.replicate n false)).count true = 1 := by
  obtain ⟨m, rfl⟩ : ∃ m, n = m + 1 := ⟨n - 1, by omega⟩
  unfold forceFirst
  rw [if_pos (by simp [List.count_replicate])]
  simp [List.replicate_succ, List.count_cons, List.count_replicate]

/-- If no node is ever predicted to have children then the generated octree has one non-empty node in every layer, however many samples there are. -/
theorem decode_forced (cfg : DecCfg) [cfg.Ok] (cout : Nat) {depth full B dev : Nat} (hf : 1 ≤ full) (hfd : full ≤ depth) (hd9 : depth ≤ 9) (hB : 1 ≤ B)
    (hB' : B ≤ 2 ^ 15) (x : List (Fin cfg.code → ℚ)) (hx : x.length = 8 ^ full * B) : ∃ st : AeState F,
      aeDecodeCode (biasNet fun j => -j) cfg cout depth full dev ⟨cfg.code, x⟩ = .ok st ∧ st.octree.batchSize = B ∧
      ∀ d, full ≤ d → d ≤ depth → st.octree.nnumNempty d = 1 := by
  obtain ⟨st, y, e, w, g1, g2, g3, g4, g5, -, -, -, g6⟩ := ae_decode (F := F) (biasNet fun j => -j) cfg cout (dev := dev) hf hfd hd9 hB hB' x hx
  refine ⟨st, e, g3, fun d h1 h2 => ?_⟩
  obtain ⟨z, k1, k2⟩ := decode_masks _ cfg cout hf hfd hd9 hB hB' x hx st e (d - full) (by omega)
  rw [show full + (d - full) = d by omega] at k2
  rw [w.wf'.nnumNempty d h2, k2]
  have hb := decode_bias (P := biasNet fun j => -j) (fun _ _ _ _ _ => rfl) (fun j => -(j : ℚ)) (fun _ _ => rfl) e _ (List.mem_of_getElem? k1)
  have hz : z.map (fun v => decide (v 0 < v 1)) = List.replicate z.length false := by
    rw [List.eq_replicate_iff]
    refine ⟨by simp, fun c hc => ?_⟩
    obtain ⟨v, hv, rfl⟩ := List.mem_map.1 hc
    have := hb v hv
    rw [this 0, this 1]
    norm_num
  unfold maskOf
  rw [hz]
  apply forceFirst_none
  obtain ⟨z', q1, q2⟩ := g6 (d - full) (by omega)
  rw [k1] at q1
  cases q1
  rw [show full + (d - full) = d by omega] at q2
  have := g5 d h2
  rw [w.wf'.nnumNempty d h2] at this
  rw [q2, wf_nnum w.wf' d h2]
  exact lt_of_lt_of_le this List.count_le_length

/-- **C91** is violated without the hypothesis: for a code for which no node is predicted to have children, `octree_split` adds the first node of the whole batch.  The octree
of the single code has one leaf, the octree of the batch of two equal codes has one leaf as well, so one of the two samples loses its leaf. -/
theorem C91_decode_batch_violated : ∃ (P : Params) (x : List (Fin 64 → ℚ)) (st st2 : AeState ℚ) (o' : Octree ℚ), P.training = false ∧ x.length = 8 ^ 2 ∧
    aeDecodeCode P aeCfg 4 6 2 0 ⟨64, x⟩ = .ok st ∧ aeDecodeCode P aeCfg 4 6 2 0 ⟨64, [x, x].flatten⟩ = .ok st2 ∧
    Octree.merge [st.octree, st.octree] = .ok o' ∧ st.octree.nnumNempty 6 = 1 ∧ st2.octree.nnumNempty 6 = 1 ∧ o'.nnumNempty 6 = 2 ∧
    ¬ SameOctree st2.octree o' 6 := by
  let x : List (Fin 64 → ℚ) := List.replicate 64 1
  obtain ⟨st, e, b, n⟩ := decode_forced (F := ℚ) aeCfg 4 (depth := 6) (full := 2) (B := 1) (dev := 0) (by decide) (by decide) (by decide) (by decide) (by decide) x (by simp [x])
  obtain ⟨st2, e2, b2, n2⟩ := decode_forced (F := ℚ) aeCfg 4 (depth := 6) (full := 2) (B := 2) (dev := 0) (by decide) (by decide) (by decide) (by decide) (by decide)
    [x, x].flatten (by simp [x])
  have hm : Mergeable [st.octree, st.octree] 6 2 0 := by
    obtain ⟨f1, f2, f3, f4⟩ := frame_decode e
    obtain ⟨st', y, e', w, g1, g2, g3, -⟩ := ae_decode (F := ℚ) (biasNet fun j => -j) aeCfg 4 (depth := 6) (full := 2) (B := 1) (dev := 0) (by decide) (by decide)
      (by decide) (by decide) (by decide) x (by simp [x])
    rw [e] at e'
    cases e'
    constructor <;> simp [*]
  have ho := merge_ok hm
  have hn : (mergedState [st.octree, st.octree] 6 2 0 (6 + 1)).nnumNempty 6 = 2 := by
    show ([st.octree, st.octree].map fun o => o.nnumNempty 6).sum = 2
    simp [n 6]
  refine ⟨_, x, st, st2, _, rfl, by simp [x], e, e2, ho, n 6 (by decide) (by decide), n2 6 (by decide) (by decide), hn, fun h => ?_⟩
  have := (h 6 (le_refl _)).2.2.2
  rw [n2 6 (by decide) (by decide), hn] at this
  omega

/-- The hypotheses of `C91_decode_batch_partial` are met: two samples and a decoder that predicts children for every node. -/
example : ∃ (P : Params) (codes : List (List (Fin 64 → ℚ))) (sts : List (AeState ℚ)), P.training = false ∧ codes.length = 2 ∧ (∀ x ∈ codes, x.length = 8 ^ 2) ∧
    codes.mapM (fun x => aeDecodeCode P aeCfg 4 4 2 0 ⟨64, x⟩) = .ok sts ∧ ∀ st ∈ sts, SplitsEverywhere st := by
  obtain ⟨st, y, e, w, g1, g2, g3, g4, g5, -, -, g6, g7⟩ := ae_decode (F := ℚ) (biasNet fun j => j) aeCfg 4 (depth := 4) (full := 2) (B := 1) (dev := 0) (by decide) (by decide)
    (by decide) (by decide) (by decide) (List.replicate 64 1) (by simp)
  refine ⟨biasNet fun j => j, [List.replicate 64 1, List.replicate 64 1], [st, st], rfl, rfl, ?_, ?_, ?_⟩
  · intro x hx
    obtain rfl : x = List.replicate 64 1 := by simpa only [List.mem_cons, List.not_mem_nil, or_false, or_self] using hx
    exact List.length_replicate
  · rw [List.mapM_cons, List.mapM_cons, List.mapM_nil, e]
    rfl
  · intro s hs l hl
    obtain rfl : s = st := by simpa using hs
    obtain ⟨j, hj, e1⟩ := List.mem_iff_getElem.1 hl
    obtain ⟨z, q1, q2⟩ := g7 j (by omega)
    rw [List.getElem?_eq_getElem hj, e1] at q1
    cases q1
    refine ⟨z, rfl, ?_⟩
    have hb := decode_bias (P := biasNet fun j => j) (fun _ _ _ _ _ => rfl) (fun j => (j : ℚ)) (fun _ _ => rfl) e _ hl
    have hz : 0 < z.length := by
      have := g5 (2 + j) (by omega)
      rw [w.wf'.nnumNempty _ (by omega)] at this
      rw [q2, wf_nnum w.wf' _ (by omega)]
      exact lt_of_lt_of_le this List.count_le_length
    refine ⟨z[0], List.getElem_mem hz, ?_⟩
    have := hb z[0] (List.getElem_mem hz)
    rw [this 0, this 1]
    norm_num

end Ocnn
