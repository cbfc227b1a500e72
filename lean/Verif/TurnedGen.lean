import Verif.PropsTurned
import Verif.PropsReplay

/-! Every octree has a turned octree. -/

set_option linter.unusedSimpArgs false

namespace Ocnn
open Spec
variable {F : Type}

theorem length_of_moves {m : Motion} (hm : m.Legal) {A A' : List Cell} (hn : A.Nodup) (hn' : A'.Nodup)
    (hf : ∀ c ∈ A, ∃ c' ∈ A', m.Moves c c') (hb : ∀ c' ∈ A', ∃ c ∈ A, m.Moves c c') : A.length = A'.length := by
  classical
  refine le_antisymm ?_ ?_
  · let f : Cell → Cell := fun c => if h : ∃ c' ∈ A', m.Moves c c' then h.choose else c
    have hfs : ∀ c ∈ A, f c ∈ A' ∧ m.Moves c (f c) := by
      intro c hc
      have h := hf c hc
      simp only [f, dif_pos h]
      exact h.choose_spec
    have h1 : (A.map f).Nodup := hn.map_on fun a ha b hb e => by
      have h2 := (hfs b hb).2
      rw [← e] at h2
      exact Moves.inj hm (hfs a ha).2 h2
    have h2 : (A.map f) ⊆ A' := by
      intro c hc
      obtain ⟨a, ha, rfl⟩ := List.mem_map.1 hc
      exact (hfs a ha).1
    simpa using (h1.subperm h2).length_le
  · let f : Cell → Cell := fun c' => if h : ∃ c ∈ A, m.Moves c c' then h.choose else c'
    have hfs : ∀ c ∈ A', f c ∈ A ∧ m.Moves (f c) c := by
      intro c hc
      have h := hb c hc
      simp only [f, dif_pos h]
      exact h.choose_spec
    have h1 : (A'.map f).Nodup := hn'.map_on fun a ha b hb e => by
      have h2 := (hfs b hb).2
      rw [← e] at h2
      exact Moves.unique (hfs a ha).2 h2
    have h2 : (A'.map f) ⊆ A := by
      intro c hc
      obtain ⟨a, ha, rfl⟩ := List.mem_map.1 hc
      exact (hfs a ha).1
    simpa using (h1.subperm h2).length_le

section tree
variable (o : Octree F) (s : Symmetry)

open Classical in
/-- Is the cell the image of a node with children? -/
noncomputable def turnedNode (d : Nat) (c' : Cell) : Bool := decide (∃ c ∈ qc o true d, (s.motion d).Moves c c')

/-- The cells of the turned octree. -/
noncomputable def turnedCells : Nat → List Cell
  | 0 => (List.range o.batchSize).map fun b => ⟨b, 0, 0, 0⟩
  | d + 1 => expand 8 Cell.child ((turnedCells d).filter (turnedNode o s d))

/-- Its masks. -/
noncomputable def turnedMasks (d : Nat) : List Bool := (turnedCells o s d).map (turnedNode o s d)

theorem layerCells_turned (d : Nat) : layerCells o.batchSize (turnedMasks o s) d = turnedCells o s d := by
  induction d with
  | zero => rfl
  | succ d ih =>
    show expand 8 Cell.child (maskSel (turnedMasks o s d) (layerCells o.batchSize (turnedMasks o s) d)) = _
    rw [ih, turnedMasks, maskSel_map_decide]
    rfl

theorem mem_turned (d : Nat) (c' : Cell) :
    (c' ∈ turnedCells o s d ↔ ∃ c ∈ qc o false d, (s.motion d).Moves c c') ∧
    (c' ∈ (turnedCells o s d).filter (turnedNode o s d) ↔ ∃ c ∈ qc o true d, (s.motion d).Moves c c') := by
  have step : ∀ d, (∀ c', c' ∈ turnedCells o s d ↔ ∃ c ∈ qc o false d, (s.motion d).Moves c c') →
      ∀ c', c' ∈ (turnedCells o s d).filter (turnedNode o s d) ↔ ∃ c ∈ qc o true d, (s.motion d).Moves c c' := by
    intro d h c'
    rw [List.mem_filter, h c']
    simp only [turnedNode, decide_eq_true_eq]
    constructor
    · exact fun h => h.2
    · rintro ⟨c, hc, hm⟩
      exact ⟨⟨c, (maskSel_sublist _ _).subset hc, hm⟩, c, hc, hm⟩
  have all : ∀ d c', c' ∈ turnedCells o s d ↔ ∃ c ∈ qc o false d, (s.motion d).Moves c c' := by
    intro d
    induction d with
    | zero =>
      intro c'
      have z : ∀ b, (s.motion 0).Moves ⟨b, 0, 0, 0⟩ ⟨b, 0, 0, 0⟩ := by
        intro b
        refine motion_iff.2 ⟨rfl, fun i => ?_⟩
        have z : ∀ i, coord (pos ⟨b, 0, 0, 0⟩) i = 0 := by intro i; fin_cases i <;> rfl
        simp [z]
      have e : qc o false 0 = (List.range o.batchSize).map fun b => ⟨b, 0, 0, 0⟩ := rfl
      rw [e]
      simp only [turnedCells]
      constructor
      · intro h
        obtain ⟨b, hb, rfl⟩ := List.mem_map.1 h
        exact ⟨_, h, z b⟩
      · rintro ⟨c, hc, hm⟩
        obtain ⟨b, hb, rfl⟩ := List.mem_map.1 hc
        rw [Moves.unique hm (z b)]
        exact hc
    | succ d ih =>
      intro c'
      rw [qc_succ]
      simp only [turnedCells]
      constructor
      · intro h
        obtain ⟨q', hq', j, hj, rfl⟩ := (mem_expand _ _ _ _).1 h
        obtain ⟨q, hq, hm⟩ := (step d ih q').1 hq'
        have hj' := (octant_perm s).mem_iff.2 (List.mem_range.2 hj)
        obtain ⟨k, hk, rfl⟩ := List.mem_map.1 hj'
        exact ⟨q.child k, (mem_expand _ _ _ _).2 ⟨q, hq, k, List.mem_range.1 hk, rfl⟩, turn_child hm k⟩
      · rintro ⟨c, hc, hm⟩
        obtain ⟨q, hq, j, hj, rfl⟩ := (mem_expand _ _ _ _).1 hc
        obtain ⟨q', hq', hqm⟩ : ∃ q' ∈ (turnedCells o s d).filter (turnedNode o s d), (s.motion d).Moves q q' := by
          have hpm := (turn_parent hm).1
          rw [Cell.child_parent] at hpm
          exact ⟨c'.parent, (step d ih _).2 ⟨q, hq, hpm⟩, hpm⟩
        rw [Moves.unique hm (turn_child hqm j)]
        exact (mem_expand _ _ _ _).2 ⟨q', hq', _, octant_lt s j, rfl⟩
  exact ⟨all d c', step d (all d) c'⟩

/-- The turned octree. -/
theorem turned_tree {D : Nat} (w : o.Valid D) (hD : o.depth = D) (hf : 1 ≤ o.fullDepth)
    (hn : ∀ d, 1 ≤ d → d ≤ D → NeighExact o.batchSize d o.keys o.neighs) :
    ∃ o' : Octree F, TurnedPair o o' s D ∧ o'.depth = o.depth ∧ o'.fullDepth = o.fullDepth ∧ o'.batchSize = o.batchSize := by
  have W := w.wf'
  have h16 := w.depth_le
  have hfl := w.full_le
  let t : Octree F := { o with
    keys := fun d => some ((turnedCells o s d).map (Cell.key d))
    children := fun d => some (number 0 (turnedMasks o s d))
    nnum := fun d => (turnedCells o s d).length
    nnumNempty := fun d => (turnedMasks o s d).count true }
  have wt : WF t D (turnedMasks o s) := by
    refine ⟨w.depth_le, w.h_le, w.full_le, w.batch_le, fun d _ => ?_, fun d hd b hb => ?_, fun d _ => ?_, fun d _ => rfl, fun d _ => ?_, fun d _ => rfl⟩
    · show _ = (layerCells o.batchSize (turnedMasks o s) d).length
      rw [layerCells_turned]
      simp [turnedMasks]
    · obtain ⟨c', hc', rfl⟩ := List.mem_map.1 hb
      obtain ⟨c, hc, hm⟩ := (mem_turned o s d c').1.1 hc'
      have hd : d < o.fullDepth := hd
      have e : qc o true d = qc o false d := by
        show maskSel (o.masks d) (layerCells o.batchSize o.masks d) = _
        rw [show o.masks d = (layerCells o.batchSize o.masks d).map fun _ => true by
          rw [List.map_const', ← W.len d (by omega)]
          exact List.eq_replicate_of_mem fun b hb => W.full d hd b hb, maskSel_map_decide]
        simp [qc]
      simp only [turnedNode, decide_eq_true_eq, e]
      exact ⟨c, hc, hm⟩
    · show some _ = some ((layerCells o.batchSize (turnedMasks o s) d).map _)
      rw [layerCells_turned]
    · show _ = (layerCells o.batchSize (turnedMasks o s) d).length
      rw [layerCells_turned]
  obtain ⟨nb, -, hnb⟩ := C21_neigh_exact t (by rw [show t.depth = D from hD]; exact wt.valid) hf
  have wt' : WF ({ t with neighs := nb } : Octree F) D (turnedMasks o s) :=
    ⟨wt.depth_le, wt.h_le, wt.full_le, wt.batch_le, wt.len, wt.full, wt.keys, wt.children, wt.nnum, wt.nnumNempty⟩
  refine ⟨{ t with neighs := nb }, ⟨w, wt'.valid, hn, fun d h1 h2 => hnb d h1 (by rw [show t.depth = D from hD]; exact h2), rfl, ?_⟩, rfl, rfl, rfl⟩
  intro d hd cells ch cells' ch' hc hch hc' hch'
  have e1 := queried_qc w d hd true cells ch hc hch
  have e2 := queried_qc wt'.valid d hd true cells' ch' hc' hch'
  have e3 : qc ({ t with neighs := nb } : Octree F) true d = (turnedCells o s d).filter (turnedNode o s d) := by
    show maskSel (Octree.masks _ d) (layerCells o.batchSize (Octree.masks ({ t with neighs := nb } : Octree F)) d) = _
    rw [masks_of_wf wt' d hd, layerCells_congr _ _ (turnedMasks o s) d fun i hi => masks_of_wf wt' i (by omega), layerCells_turned, turnedMasks, maskSel_map_decide]
  simp only [queried, if_true] at e1 e2
  rw [e1, e2]
  have hf' : ∀ c ∈ qc o true d, ∃ c' ∈ qc ({ t with neighs := nb } : Octree F) true d, (s.motion d).Moves c c' := by
    intro c hc
    obtain ⟨c', hm⟩ := moves_exists s (qc_inRange w d hd true c hc)
    exact ⟨c', by rw [e3]; exact (mem_turned o s d c').2.2 ⟨c, hc, hm⟩, hm⟩
  refine ⟨length_of_moves (motion_legal s d) (qc_nodup w d hd true) (qc_nodup wt'.valid d hd true) hf' ?_, hf'⟩
  intro c' hc'
  rw [e3] at hc'
  exact (mem_turned o s d c').2.1 hc'

end tree

end Ocnn
