import Verif.DecodeLemmas

/-! Properties C10, C18-C21 (dense layers, splitting, decoding, neighbour tables). -/

set_option linter.unusedSimpArgs false

namespace Ocnn
open Spec
variable {F : Type}

/-- **C18.** `octree_split` with a non-empty 0/1 vector: node `i` is non-empty iff its entry is 1 (if all
entries are 0, exactly node 0 is), the child indices are consecutive, the counter is their number, and
nothing else in the octree changes. -/
theorem C18_split (o : Octree F) (s : List Int) (d : Nat) (h01 : ∀ v ∈ s, v = 0 ∨ v = 1) (hs : s ≠ [])
    (hd : d ≤ o.depth) :
    ∃ ch, o.split s d = .ok { o with
        children := upd o.children d (some ch)
        nnumNempty := upd o.nnumNempty d (ch.countP fun v => decide (0 ≤ v)) } ∧
      ch.length = s.length ∧ Numbered ch ∧
      ∀ (i : Nat) (v w : Int), s[i]? = some v → ch[i]? = some w →
        (0 ≤ w ↔ v = 1 ∨ (i = 0 ∧ ∀ u ∈ s, u = 0)) := by
  refine ⟨number 0 (forceFirst (splitMask s)), ?_, ?_, numbered_number _, ?_⟩
  · rw [number_count]
    exact split_ok o s d h01 hs hd
  · rw [number_length, forceFirst_length, splitMask_length]
  · intro i v w hv hw
    have hsm : (splitMask s)[i]? = some (decide (v ≠ 0)) := by
      simp [splitMask, hv]
    have hv01 := h01 v (List.mem_of_getElem? hv)
    have hzero : (splitMask s).count true = 0 ↔ ∀ u ∈ s, u = 0 := by
      rw [List.count_eq_zero]
      constructor
      · intro h u hu
        by_contra hne
        exact h (List.mem_map.mpr ⟨u, hu, by simpa using hne⟩)
      · intro h hm
        obtain ⟨u, hu, hu'⟩ := List.mem_map.mp hm
        exact absurd (h u hu) (by simpa using hu')
    have hval : (forceFirst (splitMask s))[i]? = some (decide (v = 1 ∨ (i = 0 ∧ ∀ u ∈ s, u = 0))) := by
      unfold forceFirst
      split
      · rename_i hc
        have hall := hzero.mp hc
        have hv0 : v = 0 := hall v (List.mem_of_getElem? hv)
        rw [List.getElem?_set]
        by_cases hi : i = 0
        · subst hi
          have : 0 < (splitMask s).length := by
            rw [splitMask_length]; exact List.length_pos_iff.mpr hs
          simp [this, hall]
          exact Or.inr hall
        · have : ¬ (0 = i) := fun e => hi e.symm
          simp [this, hsm, hv0, hi]
      · rename_i hc
        rw [hsm]
        have hnot : ¬ ∀ u ∈ s, u = 0 := fun h => hc (hzero.mpr h)
        rcases hv01 with rfl | rfl
        · simp [hnot]
        · simp
    rw [number_getElem?, hval] at hw
    simp only [Option.map_some, Option.some.injEq] at hw
    by_cases hp : v = 1 ∨ (i = 0 ∧ ∀ u ∈ s, u = 0)
    · simp only [hp, decide_true, if_true] at hw
      simp only [hp, iff_true]
      rw [← hw]
      exact Int.natCast_nonneg _
    · simp only [hp, decide_false] at hw
      simp at hw
      simp only [hp, iff_false]
      omega

/-- An empty split vector (no node to split) raises. -/
theorem C18_split_empty (o : Octree F) (d : Nat) : ∃ e, o.split [] d = .error e := by
  refine ⟨.index, ?_⟩
  rfl

example : (Octree.split (Octree.new 3 1 1 0 : Octree Unit) [0, 1, 1, 0] 2).toOption.map
    (fun o => (o.children 2, o.nnumNempty 2)) = some (some [-1, 0, 1, -1], 2) := by decide

example : (Octree.split (Octree.new 3 1 1 0 : Octree Unit) [0, 0, 0] 2).toOption.map
    (fun o => (o.children 2, o.nnumNempty 2)) = some (some [0, -1, -1], 1) := by decide

/-- **C19.** Decoding with an arbitrary predictor (any function of the octree built so far that returns one
0/1 value per node): after any number `n` of iterations below the finest layer the octree is well-formed
with exact neighbour tables up to layer `full + n`, and no layer is empty. -/
theorem C19_decode_prefix (predict : Octree F → Nat → List Int)
    (hp : ∀ (o : Octree F) (d : Nat), (predict o d).length = o.nnum d ∧ ∀ v ∈ predict o d, v = 0 ∨ v = 1)
    (depth full B dev : Nat) (hf : full ≤ depth) (h16 : depth ≤ 16) (hB : 1 ≤ B) (hB' : B ≤ 2 ^ 15)
    (n : Nat) (hn : full + n ≤ depth) :
    ∃ o0 o, Octree.initOctree depth full B dev = .ok o0 ∧ Octree.decode predict n o0 = .ok o ∧
      o.depth = depth ∧ o.fullDepth = full ∧ o.batchSize = B ∧ o.Valid (full + n) ∧
      (∀ d ≤ full + n, NeighExact o.batchSize d o.keys o.neighs) ∧
      (∀ d ≤ full + n, 0 < o.nnum d) := by
  obtain ⟨o0, h0, e1, e2, e3, I⟩ := init_inv (F := F) depth full B dev hf h16 hB' (by omega)
  subst e1; subst e2; subst e3
  obtain ⟨o, m, h1, I1, f1, f2, f3⟩ := decode_lt I predict hp n hn
  refine ⟨o0, o, h0, h1, f1, f2, f3, I1.wf.valid, ?_, ?_⟩
  · intro d hd
    exact I1.wf.neighExact d hd (Nat.zero_le d) I1.neigh
  · intro d hd
    rcases Nat.lt_or_ge d (o0.fullDepth + n) with h | h
    · have := I1.pos_below d h
      rw [I1.wf.nnumNempty d (by omega)] at this
      rw [I1.wf.nnum d hd, ← I1.wf.len d hd]
      exact Nat.lt_of_lt_of_le this List.count_le_length
    · have : d = o0.fullDepth + n := by omega
      rw [this]; exact I1.pos

/-- **C19.** The complete decoding of a shape code: for every predictor it succeeds with a well-formed octree
of full depth with exact neighbour tables at every depth, at least one non-empty node in every layer. -/
theorem C19_decode (predict : Octree F → Nat → List Int)
    (hp : ∀ (o : Octree F) (d : Nat), (predict o d).length = o.nnum d ∧ ∀ v ∈ predict o d, v = 0 ∨ v = 1)
    (depth full B dev : Nat) (hf : full ≤ depth) (h16 : depth ≤ 16) (hB : 1 ≤ B) (hB' : B ≤ 2 ^ 15) :
    ∃ o, Octree.decodeCode predict depth full B dev = .ok o ∧
      o.depth = depth ∧ o.fullDepth = full ∧ o.batchSize = B ∧ o.Valid depth ∧
      (∀ d ≤ depth, NeighExact o.batchSize d o.keys o.neighs) ∧
      (∀ d ≤ depth, 0 < o.nnumNempty d) := by
  obtain ⟨o0, h0, e1, e2, e3, I⟩ := init_inv (F := F) depth full B dev hf h16 hB' (by omega)
  subst e1; subst e2; subst e3
  obtain ⟨o, m, h1, I1, hpos, f1, f2, f3⟩ := decode_all I predict hp
  refine ⟨o, ?_, f1, f2, f3, I1.wf.valid, ?_, ?_⟩
  · unfold Octree.decodeCode
    simp only [h0, bind, Except.bind]
    exact h1
  · intro d hd
    exact I1.wf.neighExact d hd (Nat.zero_le d) I1.neigh
  · intro d hd
    rcases Nat.lt_or_ge d o0.depth with h | h
    · exact I1.pos_below d h
    · have : d = o0.depth := by omega
      rw [this]; exact hpos

/-- The network's predictions are 0/1 vectors: C19 holds for arbitrary logits. -/
theorem C19_decode_logits (logits : Octree F → Nat → List (ℚ × ℚ))
    (hp : ∀ (o : Octree F) (d : Nat), (logits o d).length = o.nnum d)
    (depth full B dev : Nat) (hf : full ≤ depth) (h16 : depth ≤ 16) (hB : 1 ≤ B) (hB' : B ≤ 2 ^ 15) :
    ∃ o, Octree.decodeCode (fun o d => (logits o d).map argmax2) depth full B dev = .ok o ∧
      o.Valid depth ∧ (∀ d ≤ depth, NeighExact o.batchSize d o.keys o.neighs) ∧
      (∀ d ≤ depth, 0 < o.nnumNempty d) := by
  obtain ⟨o, h1, _, _, _, h2, h3, h4⟩ := C19_decode (F := F) (fun o d => (logits o d).map argmax2)
    (by
      intro o d
      refine ⟨by rw [List.length_map, hp], ?_⟩
      intro v hv
      obtain ⟨l, _, rfl⟩ := List.mem_map.mp hv
      unfold argmax2
      split <;> simp) depth full B dev hf h16 hB hB'
  exact ⟨o, h1, h2, h3, h4⟩

/-- the hypotheses are satisfiable: split every node of even position -/
example : ∀ (o : Octree Unit) (d : Nat),
    ((List.range (o.nnum d)).map fun i => if i % 2 = 0 then (1 : Int) else 0).length = o.nnum d ∧
    ∀ v ∈ (List.range (o.nnum d)).map fun i => if i % 2 = 0 then (1 : Int) else 0, v = 0 ∨ v = 1 := by
  intro o d
  constructor
  · simp
  · intro v hv
    simp only [List.mem_map] at hv
    obtain ⟨i, _, rfl⟩ := hv
    split <;> simp

/-- **C20.** Replaying the emptiness of a well-formed octree in which every layer has a non-empty node
reproduces its keys, children and counters at every depth. -/
theorem C20_replay {G : Type} (t : Octree G) (h : t.Valid t.depth) (hpos : ∀ d ≤ t.depth, 0 < t.nnumNempty d)
    (dev : Nat) :
    ∃ o : Octree F, Octree.decodeCode
        (fun _ d => ((t.children d).getD []).map fun v => if 0 ≤ v then (1 : Int) else 0)
        t.depth t.fullDepth t.batchSize dev = .ok o ∧
      ∀ d ≤ t.depth, o.keys d = t.keys d ∧ o.children d = t.children d ∧ o.nnum d = t.nnum d ∧
        o.nnumNempty d = t.nnumNempty d := by
  have T := h.wf'
  have hB1 : 0 < t.batchSize := by
    by_contra hB
    have h0 : t.batchSize = 0 := by omega
    have hp := hpos 0 (by omega)
    have hl := T.len 0 (by omega)
    rw [T.nnumNempty 0 (by omega)] at hp
    have := List.count_le_length (a := true) (l := t.masks 0)
    rw [hl, h0] at this
    simp only [layerCells, List.range_zero, List.map_nil, List.length_nil] at this
    omega
  obtain ⟨o0, h0, e1, e2, e3, I⟩ := init_inv (F := F) t.depth t.fullDepth t.batchSize dev h.full_le
    h.depth_le h.batch_le hB1
  have hm : ∀ i < o0.fullDepth, fullMasks t.batchSize i = t.masks i := by
    intro i hi
    rw [e2] at hi
    have hlen : (t.masks i).length = 8 ^ i * t.batchSize := by
      have hc : layerCells t.batchSize t.masks i = layerCells t.batchSize (fullMasks t.batchSize) i := by
        have hk1 : CellsOf t.batchSize i t.keys (layerCells t.batchSize t.masks i) :=
          T.cellsOf i (by have := h.full_le; omega)
        have hle := h.full_le
        have hle2 := h.depth_le
        have := layer_full_keys t.batchSize t.masks i (by omega) (fun j hj => T.full j (by omega))
          (fun j hj => T.len j (by omega))
        refine cells_unique (by omega) hk1 ⟨layer_inRange _ _ _, ?_⟩
        rw [T.keys i (by omega), this, layer_fullMasks_keys _ _ (by omega)]
      rw [T.len i (by have := h.full_le; omega), hc, ← fullMasks_len]
      simp [fullMasks]
    apply List.ext_getElem?
    intro j
    have hall := T.full i hi
    rw [fullMasks, List.getElem?_replicate]
    split
    · rename_i hj
      have hj' : j < (t.masks i).length := by omega
      rw [List.getElem?_eq_getElem hj', hall _ (List.getElem_mem hj')]
    · rename_i hj
      rw [List.getElem?_eq_none (by omega)]
  rw [← e2] at I
  obtain ⟨o, m, h1, I1, hm1, f1, f2, f3⟩ := replay_all T
    (fun d hd => by rw [← T.nnumNempty d hd]; exact hpos d hd) I hm e1 e3
  rw [e1, e2] at h1
  rw [e1] at hm1 I1
  have hpred : (fun (_ : Octree F) d => ((t.children d).getD []).map fun v => if 0 ≤ v then (1 : Int) else 0)
      = (fun _ d => (t.masks d).map fun b => if b then (1 : Int) else 0) := by
    funext _ d
    unfold Octree.masks
    rw [List.map_map]
    apply List.map_congr_left
    intro v _
    simp
  refine ⟨o, ?_, ?_⟩
  · rw [hpred]
    unfold Octree.decodeCode
    simp only [h0, bind, Except.bind]
    exact h1
  · intro d hd
    have hc : layerCells o.batchSize m d = layerCells t.batchSize t.masks d := by
      rw [f3, e3, layerCells_congr _ m t.masks d (fun i hi => hm1 i (by omega))]
    refine ⟨?_, ?_, ?_, ?_⟩
    · rw [I1.wf.keys d hd, T.keys d hd, hc]
    · rw [I1.wf.children d hd, T.children d hd, hm1 d hd]
    · rw [I1.wf.nnum d hd, T.nnum d hd, hc]
    · rw [I1.wf.nnumNempty d hd, T.nnumNempty d hd, hm1 d hd]

/-- **C10** for generated octrees is part of `WellFormed` (`dense`, `upper_nempty`); explicitly: a layer up to
the full depth has exactly `8^d` nodes per sample, node number `b * 8^d + m` being the cell of sample `b`
with Morton code `m`. -/
theorem C10_dense (o : Octree F) (h : Nat) (w : o.Valid h) (d : Nat) (hd : d ≤ o.fullDepth) :
    ∃ ks, o.keys d = some ks ∧ ks.length = o.batchSize * 8 ^ d ∧
      ∀ b < o.batchSize, ∀ m < 8 ^ d, ks[b * 8 ^ d + m]? = some (b * 2 ^ 48 + m) := by
  have W := w.wf'
  have h1 := w.full_le
  have h2 := w.h_le
  have h3 := w.depth_le
  refine ⟨_, W.keys d (by omega), ?_, ?_⟩
  · rw [layer_full_keys o.batchSize o.masks d (by omega) (fun j hj => W.full j (by omega))
          (fun j hj => W.len j (by omega))]
    simp [fullKeys, Nat.mul_comm]
  · intro b hb m hm
    rw [layer_full_keys o.batchSize o.masks d (by omega) (fun j hj => W.full j (by omega))
          (fun j hj => W.len j (by omega)), Nat.mul_comm, fullKeys, expand_getElem? _ _ _ _ _ hm]
    simp [hb]

/-- **C21.** On every well-formed octree with `full_depth ≥ 1`, `construct_all_neigh` succeeds, changes nothing
but the neighbour tables, and all tables (from depth 1) are exact. -/
theorem C21_neigh_exact (o : Octree F) (w : o.Valid o.depth) (hf : 1 ≤ o.fullDepth) :
    ∃ nb, o.constructAllNeigh = .ok { o with neighs := nb } ∧
      ∀ d, 1 ≤ d → d ≤ o.depth → NeighExact o.batchSize d o.keys nb := by
  obtain ⟨nb, h1, h2⟩ := constructAll_ok w.wf' hf
  refine ⟨nb, h1, ?_⟩
  intro d hd1 hd2
  exact (w.wf'.with_neighs nb).neighExact d hd2 hd1 h2

/-- **C21** for octrees with `full_depth = 0` whose layer-0 table exists (as after `init_octree`). -/
theorem C21_neigh_step (o : Octree F) (h : Nat) (w : o.Valid h) (d : Nat) (hd : d ≤ h)
    (hprev : o.fullDepth < d → NeighExact o.batchSize (d - 1) o.keys o.neighs) :
    ∃ nb, o.constructNeigh d = .ok { o with neighs := nb } ∧ NeighExact o.batchSize d o.keys nb := by
  have W := w.wf'
  obtain ⟨rows, h1, h2⟩ := W.constructNeigh d hd (fun hlt => hprev hlt _ (W.cellsOf (d - 1) (by omega)))
  refine ⟨_, h1, ?_⟩
  intro cells hc
  have h3 := w.h_le
  have h4 := w.depth_le
  rw [cells_unique (by omega) hc (W.cellsOf d hd)]
  exact ⟨rows, by simp [upd], h2⟩

/-- The octree of the examples below: depth 2, full depth 1, one sample, two non-empty nodes. -/
def exampleOctree : M (Octree Unit) :=
  Octree.decodeCode (fun o d => (List.range (o.nnum d)).map fun i => if i = 0 ∨ i = 7 then (1 : Int) else 0)
    2 1 1 0

example : exampleOctree.toOption.map (fun o => (o.nnum 2, o.nnumNempty 1, o.nnumNempty 2)) = some (16, 2, 2) := by
  decide +kernel

/-- The hypotheses of the theorems about well-formed octrees are met by `exampleOctree`. -/
theorem example_valid : ∃ o : Octree Unit, exampleOctree = .ok o ∧ o.Valid o.depth ∧ o.fullDepth = 1 ∧
    o.depth = 2 ∧ o.batchSize = 1 ∧ (∀ d ≤ 2, NeighExact o.batchSize d o.keys o.neighs) ∧
    (∀ d ≤ 2, 0 < o.nnumNempty d) := by
  obtain ⟨o, h1, h2, h3, h4, h5, h6, h7⟩ := C19_decode (F := Unit)
    (fun o d => (List.range (o.nnum d)).map fun i => if i = 0 ∨ i = 7 then (1 : Int) else 0)
    (by
      intro o d
      constructor
      · simp
      · intro v hv
        simp only [List.mem_map] at hv
        obtain ⟨i, _, rfl⟩ := hv
        split <;> simp) 2 1 1 0 (by omega) (by omega) (by omega) (by omega)
  exact ⟨o, h1, by rw [h2]; exact h5, h3, h2, h4, h6, h7⟩

end Ocnn
