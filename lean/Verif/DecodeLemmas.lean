import Verif.Decoder
import Verif.Valid

set_option linter.unusedSimpArgs false

namespace Ocnn
open Spec
variable {F : Type}

theorem forceFirst_length (m : List Bool) : (forceFirst m).length = m.length := by
  unfold forceFirst; split <;> simp

theorem forceFirst_pos (m : List Bool) (h : m ≠ []) : 0 < (forceFirst m).count true := by
  unfold forceFirst
  split
  · cases m with
    | nil => exact absurd rfl h
    | cons b m => simp
  · omega

theorem splitMask_length (s : List Int) : (splitMask s).length = s.length := by simp [splitMask]

/-- `octree_split` of the finest layer -/
theorem WF.split {o : Octree F} {h : Nat} {masks : Nat → List Bool} (w : WF o h masks) (s : List Int)
    (h01 : ∀ v ∈ s, v = 0 ∨ v = 1) (hs : s.length = o.nnum h) (hne : 0 < o.nnum h) :
    ∃ o', o.split s h = .ok o' ∧ WF o' h (upd masks h (forceFirst (splitMask s))) ∧
      o' = { o with
        children := upd o.children h (some (number 0 (forceFirst (splitMask s))))
        nnumNempty := upd o.nnumNempty h ((forceFirst (splitMask s)).count true) } := by
  have hs' : s ≠ [] := by
    intro e; subst e; simp at hs; omega
  refine ⟨_, split_ok o s h h01 hs' w.h_le, ?_, rfl⟩
  apply w.set_mask w.full_le
  rw [forceFirst_length, splitMask_length, hs, w.nnum h (le_refl _), w.len h (le_refl _)]

theorem NeighOK.congr {o o' : Octree F} {masks masks' : Nat → List Bool} {lo h : Nat} (hn : NeighOK o masks lo h)
    (hb : o'.batchSize = o.batchSize) (hne : o'.neighs = o.neighs) (hm : ∀ i < h, masks' i = masks i) :
    NeighOK o' masks' lo h := by
  intro d h1 h2
  obtain ⟨r, hr, ht⟩ := hn d h1 h2
  refine ⟨r, by rw [hne]; exact hr, ?_⟩
  rw [hb, layerCells_congr _ masks' masks d (fun i hi => hm i (by omega))]
  exact ht

/-- the invariant of the decoding loop before iteration `d` -/
structure DecInv (o : Octree F) (masks : Nat → List Bool) (d : Nat) : Prop where
  wf : WF o d masks
  neigh : NeighOK o masks 0 d
  pos : 0 < o.nnum d
  pos_below : ∀ i < d, 0 < o.nnumNempty i

/-- one iteration below the finest layer -/
theorem decodeStep_lt {o : Octree F} {masks : Nat → List Bool} {d : Nat} (I : DecInv o masks d)
    (predict : Octree F → Nat → List Int) (h01 : ∀ v ∈ predict o d, v = 0 ∨ v = 1)
    (hs : (predict o d).length = o.nnum d) (hd : d < o.depth) :
    ∃ o', Octree.decodeStep predict o d = .ok o' ∧
      DecInv o' (upd (upd masks d (forceFirst (splitMask (predict o d)))) (d + 1)
        (List.replicate (8 * (forceFirst (splitMask (predict o d))).count true) true)) (d + 1) ∧
      o'.depth = o.depth ∧ o'.fullDepth = o.fullDepth ∧ o'.batchSize = o.batchSize := by
  obtain ⟨o1, h1, w1, e1⟩ := I.wf.split _ h01 hs I.pos
  have hn1 : NeighOK o1 (upd masks d (forceFirst (splitMask (predict o d)))) 0 d := by
    apply I.neigh.congr (by rw [e1]) (by rw [e1])
    intro i hi
    simp [upd, show i ≠ d by omega]
  obtain ⟨o2, h2, w2, hn2, e2, e3, e4⟩ := grow_true w1 (by rw [e1]; exact hd) hn1 (Nat.zero_le _)
  have em : upd masks d (forceFirst (splitMask (predict o d))) d = forceFirst (splitMask (predict o d)) := by
    simp [upd]
  rw [em] at w2 hn2
  have hmne : splitMask (predict o d) ≠ [] := by
    intro e
    have := congrArg List.length e
    rw [splitMask_length, hs] at this
    have := I.pos
    simp at *
    omega
  have hpos := forceFirst_pos _ hmne
  refine ⟨o2, ?_, ⟨w2, hn2, ?_, ?_⟩, by rw [e2, e1], by rw [e3, e1], by rw [e4, e1]⟩
  · unfold Octree.decodeStep
    simp only [h1, bind, Except.bind]
    rw [if_pos (by rw [e1]; exact hd)]
    exact h2
  · have hl := w2.len (d + 1) (le_refl _)
    rw [w2.nnum (d + 1) (le_refl _), ← hl]
    simp only [upd, if_true, List.length_replicate]
    omega
  · intro i hi
    rw [w2.nnumNempty i (by omega)]
    by_cases hid : i = d
    · subst hid
      simpa [upd] using hpos
    · have : i ≠ d + 1 := by omega
      simp only [upd, hid, this, if_false]
      rw [← I.wf.nnumNempty i (by omega)]
      exact I.pos_below i (by omega)

/-- the last iteration -/
theorem decodeStep_last {o : Octree F} {masks : Nat → List Bool} {d : Nat} (I : DecInv o masks d)
    (predict : Octree F → Nat → List Int) (h01 : ∀ v ∈ predict o d, v = 0 ∨ v = 1)
    (hs : (predict o d).length = o.nnum d) (hd : d = o.depth) :
    ∃ o', Octree.decodeStep predict o d = .ok o' ∧
      DecInv o' (upd masks d (forceFirst (splitMask (predict o d)))) d ∧ 0 < o'.nnumNempty d ∧
      o'.depth = o.depth ∧ o'.fullDepth = o.fullDepth ∧ o'.batchSize = o.batchSize := by
  obtain ⟨o1, h1, w1, e1⟩ := I.wf.split _ h01 hs I.pos
  have hmne : splitMask (predict o d) ≠ [] := by
    intro e
    have := congrArg List.length e
    rw [splitMask_length, hs] at this
    have := I.pos
    simp at *
    omega
  have hpos := forceFirst_pos _ hmne
  refine ⟨o1, ?_, ⟨w1, ?_, ?_, ?_⟩, ?_, by rw [e1], by rw [e1], by rw [e1]⟩
  · unfold Octree.decodeStep
    simp only [h1, bind, Except.bind]
    rw [if_neg (by rw [e1]; simp only; omega)]
    rfl
  · apply I.neigh.congr (by rw [e1]) (by rw [e1])
    intro i hi
    simp [upd, show i ≠ d by omega]
  · rw [e1]; exact I.pos
  · intro i hi
    rw [e1]
    simp only [upd, show i ≠ d by omega, if_false]
    exact I.pos_below i hi
  · rw [e1]
    simpa [upd] using hpos

theorem init_inv (depth full B dev : Nat) (hd : full ≤ depth) (h16 : depth ≤ 16) (hB : B ≤ 2 ^ 15)
    (hB1 : 0 < B) :
    ∃ o : Octree F, Octree.initOctree depth full B dev = .ok o ∧ o.depth = depth ∧ o.fullDepth = full ∧
      o.batchSize = B ∧ DecInv o (fullMasks B) full := by
  obtain ⟨o, h1, h2, h3, h4, w, hn⟩ := initOctree_ok (F := F) depth full B dev hd h16 hB
  have hpos : ∀ i, 0 < 8 ^ i * B := fun i => Nat.mul_pos (Nat.pow_pos (by omega)) hB1
  refine ⟨o, h1, h2, h3, h4, w, hn, ?_, ?_⟩
  · rw [w.nnum full (le_refl _), ← w.len full (le_refl _)]
    simpa [fullMasks] using hpos full
  · intro i hi
    rw [w.nnumNempty i (by omega)]
    simpa [fullMasks] using hpos i

/-- `n` iterations below the finest layer -/
theorem decode_lt {o : Octree F} {masks : Nat → List Bool} (I : DecInv o masks o.fullDepth)
    (predict : Octree F → Nat → List Int)
    (hp : ∀ (o : Octree F) (d : Nat), (predict o d).length = o.nnum d ∧ ∀ v ∈ predict o d, v = 0 ∨ v = 1)
    (n : Nat) (hn : o.fullDepth + n ≤ o.depth) :
    ∃ o' masks', Octree.decode predict n o = .ok o' ∧ DecInv o' masks' (o.fullDepth + n) ∧
      o'.depth = o.depth ∧ o'.fullDepth = o.fullDepth ∧ o'.batchSize = o.batchSize := by
  induction n with
  | zero => exact ⟨o, masks, rfl, I, rfl, rfl, rfl⟩
  | succ n ih =>
    obtain ⟨o1, m1, h1, I1, e1, e2, e3⟩ := ih (by omega)
    obtain ⟨o2, h2, I2, f1, f2, f3⟩ := decodeStep_lt I1 predict (hp o1 _).2 (hp o1 _).1 (by omega)
    refine ⟨o2, _, ?_, I2, by omega, by omega, by omega⟩
    unfold Octree.decode at h1 ⊢
    rw [List.range_succ, List.foldlM_append, h1]
    simp only [bind, Except.bind, List.foldlM_cons, List.foldlM_nil, e2, h2, pure, Except.pure]

/-- all iterations -/
theorem decode_all {o : Octree F} {masks : Nat → List Bool} (I : DecInv o masks o.fullDepth)
    (predict : Octree F → Nat → List Int)
    (hp : ∀ (o : Octree F) (d : Nat), (predict o d).length = o.nnum d ∧ ∀ v ∈ predict o d, v = 0 ∨ v = 1) :
    ∃ o' masks', Octree.decode predict (o.depth + 1 - o.fullDepth) o = .ok o' ∧ DecInv o' masks' o.depth ∧
      0 < o'.nnumNempty o.depth ∧
      o'.depth = o.depth ∧ o'.fullDepth = o.fullDepth ∧ o'.batchSize = o.batchSize := by
  have hfd : o.fullDepth ≤ o.depth := I.wf.h_le
  obtain ⟨o1, m1, h1, I1, e1, e2, e3⟩ := decode_lt I predict hp (o.depth - o.fullDepth) (by omega)
  have e : o.fullDepth + (o.depth - o.fullDepth) = o.depth := by omega
  rw [e] at I1
  obtain ⟨o2, h2, I2, hpos, f1, f2, f3⟩ := decodeStep_last I1 predict (hp o1 _).2 (hp o1 _).1 (by omega)
  refine ⟨o2, _, ?_, I2, hpos, by omega, by omega, by omega⟩
  have e' : o.depth + 1 - o.fullDepth = (o.depth - o.fullDepth) + 1 := by omega
  unfold Octree.decode at h1 ⊢
  rw [e', List.range_succ, List.foldlM_append, h1]
  simp only [bind, Except.bind, List.foldlM_cons, List.foldlM_nil, e2, e, h2, pure, Except.pure]

end Ocnn

namespace Ocnn
open Spec
variable {F : Type}

theorem splitMask_of_mask (m : List Bool) : splitMask (m.map fun b => if b then (1 : Int) else 0) = m := by
  unfold splitMask
  rw [List.map_map]
  conv => rhs; rw [← List.map_id m]
  apply List.map_congr_left
  intro b _
  cases b <;> simp

theorem forceFirst_of_pos (m : List Bool) (h : 0 < m.count true) : forceFirst m = m := by
  unfold forceFirst
  rw [if_neg (by omega)]

/-- decoding with the emptiness of a given octree -/
theorem replay_lt {G : Type} {t : Octree G} {tm : Nat → List Bool} (T : WF t t.depth tm)
    (hpos : ∀ d ≤ t.depth, 0 < (tm d).count true)
    {o : Octree F} {masks : Nat → List Bool} (I : DecInv o masks o.fullDepth)
    (hm : ∀ i < o.fullDepth, masks i = tm i)
    (hd : o.depth = t.depth) (hb : o.batchSize = t.batchSize) (n : Nat)
    (hn : o.fullDepth + n ≤ o.depth) :
    ∃ o' masks', Octree.decode (fun _ d => (tm d).map fun b => if b then (1 : Int) else 0) n o = .ok o' ∧
      DecInv o' masks' (o.fullDepth + n) ∧ (∀ i < o.fullDepth + n, masks' i = tm i) ∧
      o'.depth = o.depth ∧ o'.fullDepth = o.fullDepth ∧ o'.batchSize = o.batchSize := by
  induction n with
  | zero => exact ⟨o, masks, rfl, I, hm, rfl, rfl, rfl⟩
  | succ n ih =>
    obtain ⟨o1, m1, h1, I1, hm1, e1, e2, e3⟩ := ih (by omega)
    have hlen : ((tm (o.fullDepth + n)).map fun b => if b then (1 : Int) else 0).length
        = o1.nnum (o.fullDepth + n) := by
      rw [List.length_map, I1.wf.nnum _ (le_refl _), T.len _ (by omega), e3, hb]
      rw [layerCells_congr _ m1 tm _ hm1]
    obtain ⟨o2, h2, I2, f1, f2, f3⟩ := decodeStep_lt I1
      (fun _ d => (tm d).map fun b => if b then (1 : Int) else 0)
      (by
        intro v hv
        simp only [List.mem_map] at hv
        obtain ⟨b, _, rfl⟩ := hv
        cases b <;> simp) hlen (by omega)
    refine ⟨o2, _, ?_, I2, ?_, by omega, by omega, by omega⟩
    · unfold Octree.decode at h1 ⊢
      rw [List.range_succ, List.foldlM_append, h1]
      simp only [bind, Except.bind, List.foldlM_cons, List.foldlM_nil, e2, h2, pure, Except.pure]
    · intro i hi
      have h' : i ≠ o.fullDepth + n + 1 := by omega
      simp only [upd, h', if_false]
      split
      · rename_i h
        subst h
        rw [splitMask_of_mask, forceFirst_of_pos _ (hpos _ (by omega))]
      · exact hm1 i (by omega)

theorem replay_all {G : Type} {t : Octree G} {tm : Nat → List Bool} (T : WF t t.depth tm)
    (hpos : ∀ d ≤ t.depth, 0 < (tm d).count true)
    {o : Octree F} {masks : Nat → List Bool} (I : DecInv o masks o.fullDepth)
    (hm : ∀ i < o.fullDepth, masks i = tm i)
    (hd : o.depth = t.depth) (hb : o.batchSize = t.batchSize) :
    ∃ o' masks', Octree.decode (fun _ d => (tm d).map fun b => if b then (1 : Int) else 0)
        (o.depth + 1 - o.fullDepth) o = .ok o' ∧
      DecInv o' masks' o.depth ∧ (∀ i ≤ o.depth, masks' i = tm i) ∧
      o'.depth = o.depth ∧ o'.fullDepth = o.fullDepth ∧ o'.batchSize = o.batchSize := by
  have hfd : o.fullDepth ≤ o.depth := I.wf.h_le
  obtain ⟨o1, m1, h1, I1, hm1, e1, e2, e3⟩ := replay_lt T hpos I hm hd hb (o.depth - o.fullDepth) (by omega)
  have e : o.fullDepth + (o.depth - o.fullDepth) = o.depth := by omega
  rw [e] at I1 hm1
  have hlen : ((tm o.depth).map fun b => if b then (1 : Int) else 0).length = o1.nnum o.depth := by
    rw [List.length_map, I1.wf.nnum _ (le_refl _), T.len _ (by omega), e3, hb]
    rw [layerCells_congr _ m1 tm _ hm1]
  obtain ⟨o2, h2, I2, _, f1, f2, f3⟩ := decodeStep_last I1
    (fun _ d => (tm d).map fun b => if b then (1 : Int) else 0)
    (by
      intro v hv
      simp only [List.mem_map] at hv
      obtain ⟨b, _, rfl⟩ := hv
      cases b <;> simp) hlen (by omega)
  refine ⟨o2, _, ?_, I2, ?_, by omega, by omega, by omega⟩
  · have e' : o.depth + 1 - o.fullDepth = (o.depth - o.fullDepth) + 1 := by omega
    unfold Octree.decode at h1 ⊢
    rw [e', List.range_succ, List.foldlM_append, h1]
    simp only [bind, Except.bind, List.foldlM_cons, List.foldlM_nil, e2, e, h2, pure, Except.pure]
  · intro i hi
    simp only [upd]
    split
    · rename_i h
      subst h
      rw [splitMask_of_mask, forceFirst_of_pos _ (hpos _ (by omega))]
    · exact hm1 i (by omega)

end Ocnn
