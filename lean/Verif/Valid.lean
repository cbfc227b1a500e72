import Verif.OctreeSpec
import Verif.GrowLemmas

/-! Equivalence of the elementary notion of well-formedness with the internal one. -/

set_option linter.unusedSimpArgs false

namespace Ocnn
open Spec

variable {F : Type}

/-- The octree is well-formed up to layer `h`, within the limits of the key format. -/
structure Octree.Valid (o : Octree F) (h : Nat) : Prop where
  depth_le : o.depth ≤ 16
  h_le : h ≤ o.depth
  full_le : o.fullDepth ≤ h
  batch_le : o.batchSize ≤ 2 ^ 15
  wf : WellFormed o.batchSize o.fullDepth h o.keys o.children o.nnum o.nnumNempty

theorem countP_eq_count (ch : List Int) :
    (ch.countP fun v => decide (0 ≤ v)) = (ch.map fun v => decide (v ≥ 0)).count true := by
  induction ch with
  | nil => rfl
  | cons v ch ih => by_cases h : 0 ≤ v <;> simp [h, List.count_cons, ih]

theorem numbered_number (m : List Bool) : Numbered (number 0 m) := by
  intro i v h
  rw [number_getElem?] at h
  cases hm : m[i]? with
  | none => rw [hm] at h; simp at h
  | some b =>
    rw [hm] at h
    cases b
    · left; simpa using h.symm
    · right
      simp only [Option.map_some, if_true, Option.some.injEq, Nat.zero_add] at h
      rw [← h, countP_eq_count, List.map_take, number_mask]
      rfl

theorem eq_number_of_numbered (ch : List Int) (h : Numbered ch) :
    ch = number 0 (ch.map fun v => decide (v ≥ 0)) := by
  apply List.ext_getElem?
  intro i
  rw [number_getElem?, List.getElem?_map]
  cases hc : ch[i]? with
  | none => rfl
  | some v =>
    simp only [Option.map_some, Nat.zero_add]
    rcases h i v hc with hv | hv
    · subst hv; simp
    · have h0 : v ≥ 0 := by omega
      rw [countP_eq_count, List.map_take] at hv
      simp only [h0, decide_true, if_true]
      rw [hv]
      rfl

theorem number_mem_nonneg {n : Nat} {m : List Bool} (h : ∀ b ∈ m, b = true) : ∀ v ∈ number n m, 0 ≤ v := by
  induction m generalizing n with
  | nil => intro v hv; simp [number] at hv
  | cons b m ih =>
    have hb := h b (by simp)
    subst hb
    intro v hv
    simp only [number, List.mem_cons] at hv
    rcases hv with rfl | hv
    · omega
    · exact ih (fun b hb => h b (List.mem_cons_of_mem _ hb)) v hv

theorem number_count (n : Nat) (m : List Bool) :
    ((number n m).countP fun v => decide (0 ≤ v)) = m.count true := by
  rw [countP_eq_count, number_mask]

/-- the internal form implies well-formedness -/
theorem WF.valid {o : Octree F} {h : Nat} {masks : Nat → List Bool} (w : WF o h masks) : o.Valid h := by
  have hd16 := w.depth_le
  have hh := w.h_le
  have hf := w.full_le
  refine ⟨hd16, hh, hf, w.batch_le, ?_⟩
  constructor
  · intro d hd
    refine ⟨_, _, w.keys d hd, w.children d hd, ?_⟩
    constructor
    · exact layer_keys_sorted _ _ _ (by omega)
    · intro k hk
      obtain ⟨c, hc, rfl⟩ := List.mem_map.mp hk
      exact ⟨c, layer_inRange _ _ _ c hc, rfl⟩
    · rw [number_length, List.length_map, w.len d hd]
    · exact numbered_number _
    · rw [List.length_map, w.nnum d hd]
    · rw [number_count, w.nnumNempty d hd]
  · intro d hd ks hk c hc
    rw [w.keys d (by omega)] at hk
    cases hk
    have := (full_mem o.batchSize masks d (fun i hi => w.full i (by omega))
      (fun i hi => w.len i (by omega)) c).mpr hc
    exact List.mem_map.mpr ⟨c, this, rfl⟩
  · intro d hd ch hc
    rw [w.children d (by omega)] at hc
    cases hc
    exact number_mem_nonneg (w.full d hd)
  · intro d hd
    rw [w.nnum (d + 1) hd, layer_length_succ _ _ _ (w.len d (by omega)), w.nnumNempty d (by omega), Nat.mul_comm]
  · intro d hd ks ch ks' h1 h2 h3 i v j c hc hk hv hj
    rw [w.keys d (by omega)] at h1
    rw [w.children d (by omega)] at h2
    rw [w.keys (d + 1) hd] at h3
    cases h1; cases h2; cases h3
    rw [number_getElem?] at hv
    rw [List.getElem?_map] at hk
    rw [List.getElem?_map, layer_getElem?_succ _ _ _ _ _ hj]
    cases hm : (masks d)[i]? with
    | none => rw [hm] at hv; simp at hv
    | some b =>
      rw [hm] at hv
      cases b
      · simp at hv
      · simp only [Option.map_some, if_true, Option.some.injEq, Nat.zero_add] at hv
        have hv' : rank (masks d) i = v := by exact_mod_cast hv
        rw [← hv', maskSel_getElem?_rank _ _ _ hm]
        cases hl : (layerCells o.batchSize masks d)[i]? with
        | none => rw [hl] at hk; simp at hk
        | some c' =>
          rw [hl] at hk
          simp only [Option.map_some, Option.some.injEq] at hk
          have hc' := layer_inRange _ _ _ c' (List.mem_of_getElem? hl)
          have : c' = c := Cell.key_injective (by omega) hc' hc hk
          subst this
          simp

/-- the masks of non-empty nodes of an octree -/
def Octree.masks (o : Octree F) (d : Nat) : List Bool :=
  ((o.children d).getD []).map fun v => decide (v ≥ 0)

/-- well-formedness implies the internal form -/
theorem Octree.Valid.wf' {o : Octree F} {h : Nat} (w : o.Valid h) : WF o h o.masks := by
  have h16 := w.depth_le
  have hh := w.h_le
  have hf := w.full_le
  have W := w.wf
  have key : ∀ d ≤ h, o.keys d = some ((layerCells o.batchSize o.masks d).map (Cell.key d)) ∧
      (o.masks d).length = (layerCells o.batchSize o.masks d).length := by
    intro d
    induction d with
    | zero =>
      intro _
      obtain ⟨ks, ch, hk, hc, L⟩ := W.layer 0 (by omega)
      have e : ks = (layerCells o.batchSize o.masks 0).map (Cell.key 0) := by
        apply sorted_ext L.sorted (layer_keys_sorted _ _ _ (by omega))
        intro x
        constructor
        · intro hx
          obtain ⟨c, hc, rfl⟩ := L.legal x hx
          apply List.mem_map.mpr
          refine ⟨c, ?_, rfl⟩
          exact (full_mem o.batchSize o.masks 0 (fun i hi => absurd hi (by omega))
            (fun i hi => absurd hi (by omega)) c).mpr hc
        · intro hx
          obtain ⟨c, hc, rfl⟩ := List.mem_map.mp hx
          exact W.dense 0 (by omega) ks hk c (layer_inRange _ _ _ c hc)
      refine ⟨by rw [hk, e], ?_⟩
      simp only [Octree.masks, hc, Option.getD_some, List.length_map]
      rw [L.same_length, e, List.length_map]
    | succ d ih =>
      intro hd
      obtain ⟨hk0, hl0⟩ := ih (by omega)
      obtain ⟨ks0, ch0, hk0', hc0, L0⟩ := W.layer d (by omega)
      obtain ⟨ks, ch, hk, hc, L⟩ := W.layer (d + 1) hd
      have hch0 : ch0 = number 0 (o.masks d) := by
        have := eq_number_of_numbered ch0 L0.numbered
        simpa [Octree.masks, hc0] using this
      have hne : o.nnumNempty d = (o.masks d).count true := by
        rw [L0.count_nempty, hch0, number_count]
      have e : ks = (layerCells o.batchSize o.masks (d + 1)).map (Cell.key (d + 1)) := by
        apply List.ext_getElem?
        intro p
        have hp : p = 8 * (p / 8) + p % 8 := by omega
        have hj : p % 8 < 8 := by omega
        generalize hr : p / 8 = r at hp
        generalize p % 8 = j at hp hj
        subst hp
        rw [List.getElem?_map, layer_getElem?_succ _ _ _ _ _ hj]
        cases hm : (maskSel (o.masks d) (layerCells o.batchSize o.masks d))[r]? with
        | none =>
          rw [List.getElem?_eq_none_iff] at hm
          rw [maskSel_length _ _ hl0] at hm
          simp only [Option.map_none]
          rw [List.getElem?_eq_none_iff, ← L.count, W.eight d (by omega), hne]
          omega
        | some c =>
          obtain ⟨i, h1, h2, h3⟩ := exists_of_maskSel _ _ _ _ hm
          have hci := layer_inRange _ _ _ c (List.mem_of_getElem? h2)
          have := W.link d (by omega) ks0 ch0 ks hk0' hc0 hk i r j c hci
            (by rw [hk0] at hk0'; cases hk0'; rw [List.getElem?_map, h2]; rfl)
            (by rw [hch0, number_getElem?, h1]; simp [h3]) hj
          simpa using this
      refine ⟨by rw [hk, e], ?_⟩
      simp only [Octree.masks, hc, Option.getD_some, List.length_map]
      rw [L.same_length, e, List.length_map]
  have chil : ∀ d ≤ h, o.children d = some (number 0 (o.masks d)) := by
    intro d hd
    obtain ⟨ks, ch, hk, hc, L⟩ := W.layer d hd
    rw [hc]
    have := eq_number_of_numbered ch L.numbered
    simpa [Octree.masks, hc] using this
  refine ⟨h16, hh, hf, w.batch_le, fun d hd => (key d hd).2, ?_, fun d hd => (key d hd).1, chil, ?_, ?_⟩
  · intro d hd b hb
    obtain ⟨ks, ch, hk, hc, L⟩ := W.layer d (by omega)
    simp only [Octree.masks, hc, Option.getD_some, List.mem_map] at hb
    obtain ⟨v, hv, rfl⟩ := hb
    simpa using W.upper_nempty d hd ch hc v hv
  · intro d hd
    obtain ⟨ks, ch, hk, hc, L⟩ := W.layer d hd
    rw [L.count]
    rw [(key d hd).1] at hk
    cases hk
    rw [List.length_map]
  · intro d hd
    obtain ⟨ks, ch, hk, hc, L⟩ := W.layer d hd
    rw [L.count_nempty]
    rw [chil d hd] at hc
    cases hc
    rw [number_count]

/-- the cells of a layer are unique -/
theorem cells_unique {B d : Nat} {keys : Nat → Option (List Nat)} {cells cells' : List Cell} (hd : d ≤ 16)
    (h : CellsOf B d keys cells) (h' : CellsOf B d keys cells') : cells = cells' := by
  have e : cells.map (Cell.key d) = cells'.map (Cell.key d) := by
    have := h.2.symm.trans h'.2
    exact Option.some.inj this
  have h1 := h.1
  have h2 := h'.1
  clear h h'
  induction cells generalizing cells' with
  | nil => cases cells' with
    | nil => rfl
    | cons c cs => simp at e
  | cons a as ih => cases cells' with
    | nil => simp at e
    | cons c cs =>
      simp only [List.map_cons, List.cons.injEq] at e
      have := Cell.key_injective hd (h1 a (by simp)) (h2 c (by simp)) e.1
      rw [this, ih e.2 (fun c hc => h1 c (List.mem_cons_of_mem _ hc))
        (fun c hc => h2 c (List.mem_cons_of_mem _ hc))]

theorem WF.cellsOf {o : Octree F} {h : Nat} {masks : Nat → List Bool} (w : WF o h masks) (d : Nat) (hd : d ≤ h) :
    CellsOf o.batchSize d o.keys (layerCells o.batchSize masks d) :=
  ⟨layer_inRange _ _ _, w.keys d hd⟩

theorem WF.neighExact {o : Octree F} {h : Nat} {masks : Nat → List Bool} (w : WF o h masks) (d : Nat) (hd : d ≤ h)
    {lo : Nat} (hlo : lo ≤ d) (hn : NeighOK o masks lo h) : NeighExact o.batchSize d o.keys o.neighs := by
  intro cells hc
  have h1 := w.depth_le
  have h2 := w.h_le
  rw [cells_unique (by omega) hc (w.cellsOf d hd)]
  exact hn d hlo hd

theorem WF.neighOK {o : Octree F} {h : Nat} {masks : Nat → List Bool} (w : WF o h masks) {lo : Nat}
    (hn : ∀ d, lo ≤ d → d ≤ h → NeighExact o.batchSize d o.keys o.neighs) : NeighOK o masks lo h :=
  fun d h1 h2 => hn d h1 h2 _ (w.cellsOf d h2)

end Ocnn
