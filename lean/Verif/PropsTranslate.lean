import Verif.NetMoved
import Verif.PropsIO
import Verif.PropsNets

/-! C94: whole networks on an octree and on the same octree moved by whole voxels, and on the octrees of a point cloud and of the
translated point cloud. -/

set_option linter.unusedSimpArgs false
set_option linter.unusedVariables false

namespace Ocnn
open Spec
variable {F : Type}

namespace Spec

/-- The two clouds differ by a translation of all points by `t` cells of level `e`; normals and features are the same. -/
structure TranslatedCloud {F L : Type} (e : Nat) (t : Int × Int × Int) (pc pc' : Points ℚ F L) : Prop where
  points : pc'.points = pc.points.map (shiftPoint e t)
  normals : pc'.normals = pc.normals
  features : pc'.features = pc.features

/-- The number of channels of the feature string, for clouds with `k` feature channels. -/
def channelCount (feature : String) (k : Nat) : Nat :=
  (if Asks feature 'N' 'n' then 3 else 0) + (if Asks feature 'D' 'd' then 1 else 0) + (if Asks feature 'L' 'l' then 3 else 0) +
  (if Asks feature 'P' 'p' then 3 else 0) + (if Asks feature 'F' 'f' then k else 0)

/-- A row of numbers as a vector. -/
def asVector (n : Nat) (l : List ℚ) : Fin n → ℚ := fun i => l.getD i 0

/-- Both runs succeed with `B` rows of width `c`; row `σ b` of the second is row `b` of the first. -/
def Reordered (σ : Nat → Nat) (B c : Nat) (r r' : M Tensor) : Prop :=
  ∃ y y' : List (Fin c → ℚ), r = .ok ⟨c, y⟩ ∧ r' = .ok ⟨c, y'⟩ ∧ y.length = B ∧ y'.length = B ∧ ∀ b < B, y'[σ b]? = y[b]?

/-- Both runs succeed with the same `n` rows of width `c`. -/
def SameOutput (n c : Nat) (r r' : M Tensor) : Prop := ∃ y : List (Fin c → ℚ), r = .ok ⟨c, y⟩ ∧ r' = .ok ⟨c, y⟩ ∧ y.length = n

end Spec

section nets
variable {o o' : Octree F} {σ : Nat → Nat} {e : Nat} {t : Int × Int × Int} {D : Nat} (P : Params)

theorem sampleCells_get (B b : Nat) : (sampleCells B)[b]? = if b < B then some ⟨b, 0, 0, 0⟩ else none := by
  unfold sampleCells
  rw [List.getElem?_map]
  by_cases h : b < B
  · rw [List.getElem?_range h, if_pos h]; rfl
  · rw [List.getElem?_eq_none (by simpa using h), if_neg h]; rfl

theorem moved_samples {V : Type} {σ : Nat → Nat} {B : Nat} {y y' : List V} (h : Moved (reorder σ) (sampleCells B) y (sampleCells B) y') :
    y.length = B ∧ y'.length = B ∧ ∀ b < B, y'[σ b]? = y[b]? := by
  have hl : (sampleCells B).length = B := by simp [sampleCells]
  refine ⟨by rw [← h.1, hl], by rw [← h.2.1, hl], fun b hb => ?_⟩
  have hlt : b < y.length := by rw [← h.1, hl]; exact hb
  obtain ⟨j, c', h1, h2, h3⟩ := h.2.2.2 b ⟨b, 0, 0, 0⟩ y[b] (by rw [sampleCells_get, if_pos hb]) (List.getElem?_eq_getElem hlt)
  rw [sampleCells_get] at h1
  split at h1
  · cases h1
    have : j = σ b := h2.1
    rw [← this, h3, List.getElem?_eq_getElem hlt]
  · cases h1

theorem both_samples {c : Nat} {r r' : M Tensor} (h : Both ((movedSys o o' σ e t).R (movedSys o o' σ e t).hb c) r' r) :
    Reordered σ o.batchSize c r r' := by
  obtain ⟨a, b, rfl, rfl, u, v, rfl, rfl, hM, -⟩ := h
  exact ⟨v, u, rfl, rfl, moved_samples hM⟩

theorem both_queries {n c : Nat} {r r' : M Tensor}
    (h : Both ((movedSys o o' σ e t).R (sampleCells n, sampleCells n, reorder id) c) r' r) : SameOutput n c r r' := by
  obtain ⟨a, b, rfl, rfl, u, v, rfl, rfl, hM, -⟩ := h
  obtain ⟨h1, h2, h3⟩ := moved_samples hM
  have : u = v := by
    apply List.ext_getElem?
    intro i
    by_cases hi : i < n
    · exact h3 i hi
    · rw [List.getElem?_eq_none (by omega), List.getElem?_eq_none (by omega)]
  exact ⟨v, rfl, by rw [this], h1⟩

theorem rel_moved (p : MovedPair o o' σ e t D) {depth cin : Nat} (hd : depth ≤ D) {nempty : Bool} {x x' : List (Fin cin → ℚ)}
    {cells cells' : List Cell} {ch ch' : List Int} (hc : CellsOf o.batchSize depth o.keys cells) (hch : o.children depth = some ch)
    (hc' : CellsOf o'.batchSize depth o'.keys cells') (hch' : o'.children depth = some ch')
    (hx : Moved (shiftBy σ e t depth) (queried nempty cells ch) x (queried nempty cells' ch') x') :
    (movedSys o o' σ e t).R ((movedSys o o' σ e t).ht nempty depth) cin ⟨cin, x'⟩ ⟨cin, x⟩ := by
  rw [queried_qc p.valid depth hd nempty _ _ hc hch, queried_qc p.valid' depth hd nempty _ _ hc' hch'] at hx
  exact ⟨_, _, rfl, rfl, hx, qc_nodup p.valid depth hd nempty, qc_nodup p.valid' depth hd nempty, p.legal depth⟩

theorem lo_of {nempty : Bool} {d : Nat} (h : e + (if nempty then 0 else 1) ≤ d) : (movedSys o o' σ e t).lo nempty ≤ d := by
  cases nempty
  · exact h
  · exact h

variable (hP : P.training = false) (p : MovedPair o o' σ e t D)
include hP p

/-- **C94** ResNet in evaluation mode: moving the octree with its features by `t` voxels of level `e` does not change the logits; renumbering
the samples renumbers the rows. -/
theorem C94_resnet (depth stages num : Nat) (hst : 1 ≤ stages) (hnum : 1 ≤ num) (hds : stages ≤ depth) (hD : depth ≤ D)
    (cin cout : Nat) (hc : WidthOk cin) (nempty : Bool) (he : e + (if nempty then 0 else 1) ≤ depth - stages)
    (cells cells' : List Cell) (ch ch' : List Int) (h1 : CellsOf o.batchSize depth o.keys cells) (h2 : o.children depth = some ch)
    (h3 : CellsOf o'.batchSize depth o'.keys cells') (h4 : o'.children depth = some ch') (x x' : List (Fin cin → ℚ))
    (hx : Moved (shiftBy σ e t depth) (queried nempty cells ch) x (queried nempty cells' ch') x') :
    Reordered σ o.batchSize cout (resnet P cin cout num stages nempty o depth ⟨cin, x⟩) (resnet P cin cout num stages nempty o' depth ⟨cin, x'⟩) :=
  both_samples ((p.layers hP).resnet cout num hnum hst hds ⟨lo_of he, hD⟩ hc (fun _ _ _ => trivial) trivial (rel_moved p hD h1 h2 h3 h4 hx))

/-- **C94** HRNet in evaluation mode; its header works at depth 2, whatever the depth of the octree. -/
theorem C94_hrnet (depth stages : Nat) (hst : 1 ≤ stages) (hds : min stages 4 + 2 ≤ depth) (hD : depth ≤ D)
    (cin cout : Nat) (hc : WidthOk cin) (nempty : Bool) (he : e + (if nempty then 0 else 1) ≤ 2)
    (cells cells' : List Cell) (ch ch' : List Int) (h1 : CellsOf o.batchSize depth o.keys cells) (h2 : o.children depth = some ch)
    (h3 : CellsOf o'.batchSize depth o'.keys cells') (h4 : o'.children depth = some ch') (x x' : List (Fin cin → ℚ))
    (hx : Moved (shiftBy σ e t depth) (queried nempty cells ch) x (queried nempty cells' ch') x') :
    Reordered σ o.batchSize cout (hrnet P cin cout stages nempty o depth ⟨cin, x⟩) (hrnet P cin cout stages nempty o' depth ⟨cin, x'⟩) :=
  both_samples ((p.layers hP).hrnet cout hst hds ⟨lo_of he, hD⟩ hc (fun _ _ _ => trivial) (rel_moved p hD h1 h2 h3 h4 hx))

/-- **C94** UNet in evaluation mode: the predictions at the moved query points are those at the query points. -/
theorem C94_unet (cfg : UNetConfig) (hcfg : cfg.Ok) (depth : Nat) (hds : cfg.encoderBlocks.length < depth) (hD : depth ≤ D)
    (cin cout : Nat) (hc : WidthOk cin) (nempty : Bool) (he : e + (if nempty then 0 else 1) ≤ depth - cfg.encoderBlocks.length) (method : String)
    (qs : List (V3 ℚ × Nat)) (hb : ∀ q ∈ qs, q.2 < o.batchSize) (hi : ∀ q ∈ qs, InCube q.1 ∧ InCube (shiftPoint e t q.1))
    (cells cells' : List Cell) (ch ch' : List Int) (h1 : CellsOf o.batchSize depth o.keys cells) (h2 : o.children depth = some ch)
    (h3 : CellsOf o'.batchSize depth o'.keys cells') (h4 : o'.children depth = some ch') (x x' : List (Fin cin → ℚ))
    (hx : Moved (shiftBy σ e t depth) (queried nempty cells ch) x (queried nempty cells' ch') x') :
    SameOutput qs.length cout (unet P cfg cin cout method nempty o depth (qs.map row4) ⟨cin, x⟩)
      (unet P cfg cin cout method nempty o' depth ((qs.map fun q => (shiftPoint e t q.1, σ q.2)).map row4) ⟨cin, x'⟩) :=
  both_queries ((p.layers hP).unet hcfg cout method hds ⟨lo_of he, hD⟩ hc (fun _ _ _ => trivial) (p.queries qs hb hi) trivial
    (rel_moved p hD h1 h2 h3 h4 hx))

/-- **C94** SegNet in evaluation mode, with `nempty=False` or without empty octants at the depth of the bottleneck (see C78). -/
theorem C94_segnet (depth stages : Nat) (hst : 1 ≤ stages) (hds : stages < depth) (hD : depth ≤ D)
    (cin cout : Nat) (hc : WidthOk cin) (nempty : Bool) (he : e + 1 ≤ depth - stages)
    (hbot : nempty = true → o.nnumNempty (depth - stages) = o.nnum (depth - stages)) (method : String)
    (qs : List (V3 ℚ × Nat)) (hb : ∀ q ∈ qs, q.2 < o.batchSize) (hi : ∀ q ∈ qs, InCube q.1 ∧ InCube (shiftPoint e t q.1))
    (cells cells' : List Cell) (ch ch' : List Int) (h1 : CellsOf o.batchSize depth o.keys cells) (h2 : o.children depth = some ch)
    (h3 : CellsOf o'.batchSize depth o'.keys cells') (h4 : o'.children depth = some ch') (x x' : List (Fin cin → ℚ))
    (hx : Moved (shiftBy σ e t depth) (queried nempty cells ch) x (queried nempty cells' ch') x') :
    SameOutput qs.length cout (segnet P cin cout stages method nempty o depth (qs.map row4) ⟨cin, x⟩)
      (segnet P cin cout stages method nempty o' depth ((qs.map fun q => (shiftPoint e t q.1, σ q.2)).map row4) ⟨cin, x'⟩) := by
  refine both_queries ((p.layers hP).segnet cout hst method hds ⟨lo_of (by split <;> omega), hD⟩ (lo_of (by simpa using he)) hc trivial ?_
    (fun _ _ _ => trivial) (p.queries qs hb hi) trivial (rel_moved p hD h1 h2 h3 h4 hx))
  cases nempty with
  | false => rfl
  | true =>
    have hb := hbot rfl
    have hd : depth - stages ≤ D := by omega
    have c1 := (p.cells (d := depth - stages) (nempty := true) ⟨lo_of (by simp; omega), hd⟩).1
    have c2 := (p.cells (d := depth - stages) (nempty := false) ⟨lo_of (by simpa using he), hd⟩).1
    have q1 := qc_length p.valid (depth - stages) hd true
    have q2 := qc_length p.valid (depth - stages) hd false
    have sub : ∀ {o : Octree F}, o.Valid D → (qc o true (depth - stages)).length = (qc o false (depth - stages)).length →
        qc o true (depth - stages) = qc o false (depth - stages) := by
      intro o w hl
      rw [qc_true] at hl ⊢
      exact List.Sublist.eq_of_length (maskSel_sublist _ _) hl
    have e1 := sub p.valid (by rw [q1, q2]; simpa [height] using hb)
    have e2 := sub p.valid' (by rw [← c1, ← c2, e1])
    show (qc o true _, qc o' true _, _) = (qc o false _, qc o' false _, _)
    rw [e1, e2]

end nets

/-! ### translated point clouds -/

theorem side_iff {d e n n' : Nat} {t : Int} {v : ℚ} (he : e ≤ d) (h : (n' : Int) = n + 2 ^ (d - e) * t) :
    SideContains d n' (v + t * (2 / 2 ^ e)) ↔ SideContains d n v := by
  rw [sideContains_grid, sideContains_grid]
  have e1 : (v + t * (2 / 2 ^ e) + 1) * 2 ^ d / 2 = (v + 1) * 2 ^ d / 2 + 2 ^ (d - e) * t := by
    have : (2 : ℚ) ^ d = 2 ^ (d - e) * 2 ^ e := by rw [← pow_add]; congr 1; omega
    have h0 : (2 : ℚ) ^ e ≠ 0 := by positivity
    rw [this]
    field_simp
    ring
  have e2 : (n' : ℚ) = n + 2 ^ (d - e) * t := by exact_mod_cast congrArg (Int.cast : Int → ℚ) h
  rw [e1, e2]
  constructor <;> rintro ⟨a, b⟩ <;> constructor <;> linarith

section cloud
variable {e d : Nat} {t : Int × Int × Int} {c c' : Cell}

theorem belongs_shift (he : e ≤ d) (hm : (shiftBy id e t d).Moves c c') (q : V3 ℚ × Nat) :
    belongs d c' (shiftPoint e t q.1, q.2) = belongs d c q := by
  rw [shiftBy_iff] at hm
  obtain ⟨h0, h1, h2, h3⟩ := hm
  have h0 : c'.b = c.b := h0
  unfold belongs CubeContains
  refine decide_eq_decide.2 ?_
  simp only [shiftPoint, side_iff he h1, side_iff he h2, side_iff he h3, h0]

theorem cloud_shift (points : List (V3 ℚ)) (samples : List Nat) : (points.map (shiftPoint e t)).zip samples =
    (points.zip samples).map fun q => (shiftPoint e t q.1, q.2) := by
  rw [List.zip_map_left]
  rfl

theorem countIn_shift (he : e ≤ d) (hm : (shiftBy id e t d).Moves c c') (points : List (V3 ℚ)) (samples : List Nat) :
    countIn d c' ((points.map (shiftPoint e t)).zip samples) = countIn d c (points.zip samples) := by
  unfold countIn
  rw [cloud_shift, List.countP_map]
  congr 1
  funext q
  exact belongs_shift he hm q

theorem sumIn_shift {V : Type} [Add V] [Zero V] (he : e ≤ d) (hm : (shiftBy id e t d).Moves c c') (points : List (V3 ℚ)) (samples : List Nat)
    (vals : List V) : sumIn d c' ((points.map (shiftPoint e t)).zip samples) vals = sumIn d c (points.zip samples) vals := by
  unfold sumIn
  rw [cloud_shift, List.zip_map_left, List.filter_map, List.map_map]
  congr 1
  have : ((points.zip samples).zip vals).filter ((fun e : (V3 ℚ × Nat) × V => belongs d c' e.1) ∘ Prod.map (fun q : V3 ℚ × Nat => (shiftPoint e t q.1, q.2)) id)
      = ((points.zip samples).zip vals).filter fun e => belongs d c e.1 := by
    refine List.filter_congr fun q _ => ?_
    exact belongs_shift he hm q.1
  rw [this]
  rfl

theorem sum_add_const {α : Type} (l : List α) (g : α → ℚ) (s : ℚ) : (l.map fun a => g a + s).sum = (l.map g).sum + l.length * s := by
  induction l with
  | nil => simp
  | cons a l ih => rw [List.map_cons, List.sum_cons, ih, List.map_cons, List.sum_cons, List.length_cons]; push_cast; ring

theorem mean_shift (he : e ≤ d) (hm : (shiftBy id e t d).Moves c c') (points : List (V3 ℚ)) (samples : List Nat)
    (hl : samples.length = points.length) (hpos : 0 < countIn d c (points.zip samples)) :
    meanPoint d c' (points.map (shiftPoint e t)) samples = shiftPoint e t (meanPoint d c points samples) := by
  unfold meanPoint
  rw [sumIn_shift he hm, countIn_shift he hm]
  have hcount : countIn d c (points.zip samples) = ((points.zip samples).filter (belongs d c)).length := by
    unfold countIn; rw [List.countP_eq_length_filter]
  have hs : ∀ g : V3 ℚ → V3 ℚ, sumIn d c (points.zip samples) (points.map g) =
      (((points.zip samples).filter (belongs d c)).map fun e => g e.1).sum := by
    intro g
    unfold sumIn; rw [filter_zip_self d c points samples hl]
  have hs' := hs id
  rw [List.map_id] at hs'
  rw [hs, hs', hcount]
  rw [hcount] at hpos
  generalize (points.zip samples).filter (belongs d c) = es at hpos
  have hn : (es.length : ℚ) ≠ 0 := by exact_mod_cast hpos.ne'
  have key : ∀ (g : V3 ℚ → ℚ) (s : ℚ), (es.map fun e => g e.1 + s).sum / (es.length : ℚ) = (es.map fun e => g e.1).sum / (es.length : ℚ) + s := by
    intro g s
    rw [sum_add_const]
    field_simp
  ext
  · simp only [V3.map, sum_x, List.map_map, shiftPoint]
    exact key V3.x _
  · simp only [V3.map, sum_y, List.map_map, shiftPoint]
    exact key V3.y _
  · simp only [V3.map, sum_z, List.map_map, shiftPoint]
    exact key V3.z _

theorem offset_shift (he : e ≤ d) (hm : (shiftBy id e t d).Moves c c') (m : V3 ℚ) : offsetIn d c' (shiftPoint e t m) = offsetIn d c m := by
  rw [shiftBy_iff] at hm
  obtain ⟨-, h1, h2, h3⟩ := hm
  have e1 : ∀ (v : ℚ) (s : Int), (v + s * (2 / 2 ^ e) + 1) * 2 ^ d / 2 = (v + 1) * 2 ^ d / 2 + 2 ^ (d - e) * s := by
    intro v s
    have : (2 : ℚ) ^ d = 2 ^ (d - e) * 2 ^ e := by rw [← pow_add]; congr 1; omega
    have h0 : (2 : ℚ) ^ e ≠ 0 := by positivity
    rw [this]
    field_simp
    ring
  have up : ∀ (n' n : Nat) (s : Int), (n' : Int) = n + 2 ^ (d - e) * s → (n' : ℚ) = n + 2 ^ (d - e) * s := by
    intro n' n s h
    exact_mod_cast congrArg (Int.cast : Int → ℚ) h
  unfold offsetIn
  simp only [shiftPoint, e1, up _ _ _ h1, up _ _ _ h2, up _ _ _ h3]
  ext <;> simp only <;> ring

end cloud

theorem mem_nonEmpty {cells : List Cell} (hn : cells.Nodup) {ch : List Int} (q : Cell × Int) (hq : q ∈ cells.zip ch) :
    q.1 ∈ nonEmpty cells ch ↔ 0 ≤ q.2 := by
  unfold nonEmpty
  rw [List.mem_filterMap]
  constructor
  · rintro ⟨r, hr, h⟩
    split at h
    · rename_i h0
      injection h with h
      obtain ⟨i, hi⟩ := List.mem_iff_getElem?.1 hq
      obtain ⟨j, hj⟩ := List.mem_iff_getElem?.1 hr
      have hi1 := (List.getElem?_zip_eq_some.1 hi).1
      have hj1 := (List.getElem?_zip_eq_some.1 hj).1
      rw [h] at hj1
      rw [nodup_getElem?_inj hn hi1 hj1, hj] at hi
      cases hi
      exact h0
    · cases h
  · intro h
    exact ⟨q, hq, by rw [if_pos h]⟩

theorem channels_count {k : Nat} (feature : String) (d : Nat) (c : Cell) (m n : V3 ℚ) (f : Fin k → ℚ) :
    (channels feature d c m n f).length = channelCount feature k := by
  unfold channels channelCount
  simp only [List.length_append]
  congr 1
  · congr 1
    · congr 1
      · congr 1
        · split <;> rfl
        · split <;> rfl
      · split <;> rfl
    · split <;> rfl
  · split <;> simp

/-- What the octrees of the two clouds look like to a network. -/
theorem translated_pair {L : Type} {k : Nat} (nrm : V3 ℚ → V3 ℚ) (divF : ℚ → (Fin k → ℚ) → (Fin k → ℚ)) (o : Octree (Fin k → ℚ))
    (pc pc' : Points ℚ (Fin k → ℚ) L) (samples : List Nat) (h : LegalBuild o pc samples) (h' : LegalBuild o pc' samples) {e : Nat}
    {t : Int × Int × Int} (hf : 1 ≤ o.fullDepth) (he : o.fullDepth ≤ e) (hed : e < o.depth) (hs : TranslatedCloud e t pc pc') (feature : String)
    (hN : Asks feature 'N' 'n' ∨ Asks feature 'D' 'd' → pc.normals ≠ none) (hF : Asks feature 'F' 'f' → pc.features ≠ none)
    (hP : ¬ Asks feature 'P' 'p')
    (ha : Asks feature 'N' 'n' ∨ Asks feature 'D' 'd' ∨ Asks feature 'L' 'l' ∨ Asks feature 'F' 'f') (nempty : Bool) (cin : Nat) :
    ∃ o₁ i₁ t₁ x₁ o₂ i₂ t₂ x₂ cells ch cells' ch', Octree.build nrm divF o pc = .ok (o₁, i₁) ∧ o₁.constructAllNeigh = .ok t₁ ∧
      t₁.inputFeature feature nempty = .ok x₁ ∧ Octree.build nrm divF o pc' = .ok (o₂, i₂) ∧ o₂.constructAllNeigh = .ok t₂ ∧
      t₂.inputFeature feature nempty = .ok x₂ ∧ t₁.batchSize = o.batchSize ∧ MovedPair t₁ t₂ id e t o.depth ∧
      CellsOf t₁.batchSize o.depth t₁.keys cells ∧ t₁.children o.depth = some ch ∧
      CellsOf t₂.batchSize o.depth t₂.keys cells' ∧ t₂.children o.depth = some ch' ∧
      Moved (shiftBy id e t o.depth) (queried nempty cells ch) (x₁.map (asVector cin)) (queried nempty cells' ch') (x₂.map (asVector cin)) := by
  obtain ⟨o₁, i₁, nb₁, b1, n1, N1⟩ := C28_partial nrm divF o pc samples h hf
  obtain ⟨o₂, i₂, nb₂, b2, n2, N2⟩ := C28_partial nrm divF o pc' samples h' hf
  obtain ⟨_, _, b1', d1, f1, B1, w1, -⟩ := C07_build nrm divF o pc samples h
  obtain ⟨_, _, b2', d2, f2, B2, w2, -⟩ := C07_build nrm divF o pc' samples h'
  rw [b1] at b1'; cases b1'
  rw [b2] at b2'; cases b2'
  obtain ⟨_, _, _, _, b1', b2', hmv⟩ := C93_points nrm divF o pc pc' samples h h' e t he hs.points
  rw [b1] at b1'; cases b1'
  rw [b2] at b2'; cases b2'
  have ha' : Asks feature 'N' 'n' ∨ Asks feature 'D' 'd' ∨ Asks feature 'L' 'l' ∨ Asks feature 'P' 'p' ∨ Asks feature 'F' 'f' := by tauto
  obtain ⟨_, _, cells, ch, row, b1', c1, c2, c3, c4, c5⟩ := C73_input_feature nrm divF o pc samples h feature hN hF ha'
  rw [b1] at b1'; cases b1'
  obtain ⟨_, _, cells', ch', row', b2', c1', c2', c3', c4', c5'⟩ := C73_input_feature nrm divF o pc' samples h' feature (by rw [hs.normals]; exact hN)
    (by rw [hs.features]; exact hF) ha'
  rw [b2] at b2'; cases b2'
  obtain ⟨_, _, cells₁, ch₁, b1', q1, q2, q3, -⟩ := C11_averages nrm divF o pc samples h
  rw [b1] at b1'; cases b1'
  have h16 := h.depth
  obtain rfl := cells_unique (by omega) c1 q1
  rw [c2] at q2; cases q2
  have v1 : ({ o₁ with neighs := nb₁ } : Octree (Fin k → ℚ)).Valid o.depth := ⟨w1.depth_le, w1.h_le, w1.full_le, w1.batch_le, w1.wf⟩
  have v2 : ({ o₂ with neighs := nb₂ } : Octree (Fin k → ℚ)).Valid o.depth := ⟨w2.depth_le, w2.h_le, w2.full_le, w2.batch_le, w2.wf⟩
  have c1₁ : CellsOf o₁.batchSize o.depth o₁.keys cells := by rw [B1]; exact c1
  have c1₂ : CellsOf o₂.batchSize o.depth o₂.keys cells' := by rw [B2]; exact c1'
  have nd1 : cells.Nodup := nodes_nodup o₁ o.depth w1 o.depth (le_refl _) false 1 _ _ (.one _ _ _ c1₁ c2)
  have nd2 : cells'.Nodup := nodes_nodup o₂ o.depth w2 o.depth (le_refl _) false 1 _ _ (.one _ _ _ c1₂ c2')
  obtain ⟨m1, m2⟩ := hmv o.depth (by omega) (le_refl _) cells ch cells' ch' c1 c2 c1' c2'
  have m2 := m2 hed
  have m1 : CellsMoved (shiftBy id e t o.depth) (nonEmpty cells ch) (nonEmpty cells' ch') := m1
  have m2 : CellsMoved (shiftBy id e t o.depth) cells cells' := m2
  have hrow : ∀ c ∈ nonEmpty cells ch, ∀ c' ∈ nonEmpty cells' ch', (shiftBy id e t o.depth).Moves c c' → row c = row' c' := by
    intro c hc c' hc' hm
    rw [(c5 c hc).1, (c5' c' hc').1, hs.points, hs.normals, hs.features, sumIn_shift hed.le hm, sumIn_shift hed.le hm, countIn_shift hed.le hm,
      mean_shift hed.le hm _ _ h.cloud.length (q3 c hc)]
    unfold channels
    simp only [if_neg hP, offset_shift hed.le hm]
  have mp : MovedPair ({ o₁ with neighs := nb₁ } : Octree (Fin k → ℚ)) { o₂ with neighs := nb₂ } id e t o.depth := by
    refine ⟨v1, v2, ?_, ?_, Function.injective_id, B2.trans B1.symm, fun _ hb => hb, ?_⟩
    · intro d h1 h2
      show NeighExact o₁.batchSize d o₁.keys nb₁
      rw [B1]; exact N1 d h1 h2
    · intro d h1 h2
      show NeighExact o₂.batchSize d o₂.keys nb₂
      rw [B2]; exact N2 d h1 h2
    · intro d h1 h2 a b a' b' r1 r2 r3 r4
      have r1 : CellsOf o₁.batchSize d o₁.keys a := r1
      have r3 : CellsOf o₂.batchSize d o₂.keys a' := r3
      rw [B1] at r1
      rw [B2] at r3
      exact (hmv d h1 h2 a b a' b' r1 r2 r3 r4).1
  have zp : ∀ (cs : List Cell) (hs : List Int) (R : Cell → List ℚ), cs.Nodup → cs.length = hs.length →
      ((cs.zip hs).map fun p => if 0 ≤ p.2 then R p.1 else (R p.1).map fun _ => 0).map (asVector cin) =
        cs.map fun c => if c ∈ nonEmpty cs hs then asVector cin (R c) else 0 := by
    intro cs hs R hn hl
    have : cs = (cs.zip hs).map Prod.fst := by rw [List.map_fst_zip (by omega)]
    conv_rhs => rw [this, List.map_map]
    rw [List.map_map]
    refine List.map_congr_left fun q hq => ?_
    simp only [Function.comp, ← this]
    by_cases h0 : 0 ≤ q.2
    · rw [if_pos h0, if_pos ((mem_nonEmpty hn q hq).2 h0)]
    · rw [if_neg h0, if_neg (fun hm => h0 ((mem_nonEmpty hn q hq).1 hm))]
      funext i
      unfold asVector
      simp [List.getD_eq_getElem?_getD]
  cases nempty with
  | true =>
    refine ⟨o₁, i₁, _, _, o₂, i₂, _, _, cells, ch, cells', ch', b1, n1, c3, b2, n2, c3', B1, mp, c1₁, c2, c1₂, c2', ?_⟩
    rw [List.map_map, List.map_map]
    exact cellsMoved_map m1 _ _ fun c hc c' hc' hm => by simp only [Function.comp, hrow c hc c' hc' hm]
  | false =>
    refine ⟨o₁, i₁, _, _, o₂, i₂, _, _, cells, ch, cells', ch', b1, n1, c4, b2, n2, c4', B1, mp, c1₁, c2, c1₂, c2', ?_⟩
    have len : ∀ {o' : Octree (Fin k → ℚ)} {cs : List Cell} {hs : List Int}, o'.Valid o.depth → CellsOf o'.batchSize o.depth o'.keys cs →
        o'.children o.depth = some hs → cs.length = hs.length := by
      intro o' cs hs w a b
      have W := w.wf'
      obtain rfl := cells_unique (by omega) a (W.cellsOf _ (le_refl _))
      rw [W.children _ (le_refl _)] at b
      cases b
      rw [number_length, W.len _ (le_refl _)]
    rw [zp _ _ _ nd1 (len w1 c1₁ c2), zp _ _ _ nd2 (len w2 c1₂ c2')]
    refine cellsMoved_map m2 _ _ fun c hc c' hc' hm => ?_
    have hiff : c ∈ nonEmpty cells ch ↔ c' ∈ nonEmpty cells' ch' := by
      have e1 := queried_qc v1 o.depth (le_refl _) true _ _ c1₁ c2
      have e2 := queried_qc v2 o.depth (le_refl _) true _ _ c1₂ c2'
      have e1 : nonEmpty cells ch = _ := e1
      have e2 : nonEmpty cells' ch' = _ := e2
      rw [e1, e2]
      exact mp.back hed.le (le_refl _) hm
    by_cases hcn : c ∈ nonEmpty cells ch
    · rw [if_pos hcn, if_pos (hiff.1 hcn), hrow c hcn c' (hiff.1 hcn) hm]
    · rw [if_neg hcn, if_neg (fun h => hcn (hiff.2 h))]

/-- **C94** from point cloud to logits: a cloud and the same cloud translated by whole cells of level `e ≥ full_depth` get the same logits from
ResNet in evaluation mode, for the input features N, D, L and F. -/
theorem C94_classification {L : Type} {k : Nat} (P : Params) (hT : P.training = false) (nrm : V3 ℚ → V3 ℚ)
    (divF : ℚ → (Fin k → ℚ) → (Fin k → ℚ)) (o : Octree (Fin k → ℚ)) (pc pc' : Points ℚ (Fin k → ℚ) L) (samples : List Nat)
    (h : LegalBuild o pc samples) (h' : LegalBuild o pc' samples) (e : Nat) (t : Int × Int × Int) (hf : 1 ≤ o.fullDepth) (he : o.fullDepth ≤ e)
    (hs : TranslatedCloud e t pc pc') (feature : String) (hN : Asks feature 'N' 'n' ∨ Asks feature 'D' 'd' → pc.normals ≠ none)
    (hF : Asks feature 'F' 'f' → pc.features ≠ none) (hP : ¬ Asks feature 'P' 'p')
    (ha : Asks feature 'N' 'n' ∨ Asks feature 'D' 'd' ∨ Asks feature 'L' 'l' ∨ Asks feature 'F' 'f')
    (stages num cout : Nat) (hst : 1 ≤ stages) (hnum : 1 ≤ num) (hds : stages ≤ o.depth) (hw : WidthOk (channelCount feature k)) (nempty : Bool)
    (hen : e + (if nempty then 0 else 1) ≤ o.depth - stages) :
    ∃ o₁ i₁ t₁ x₁ o₂ i₂ t₂ x₂, Octree.build nrm divF o pc = .ok (o₁, i₁) ∧ o₁.constructAllNeigh = .ok t₁ ∧
      t₁.inputFeature feature nempty = .ok x₁ ∧ Octree.build nrm divF o pc' = .ok (o₂, i₂) ∧ o₂.constructAllNeigh = .ok t₂ ∧
      t₂.inputFeature feature nempty = .ok x₂ ∧
      SameOutput o.batchSize cout
        (resnet P (channelCount feature k) cout num stages nempty t₁ o.depth ⟨_, x₁.map (asVector (channelCount feature k))⟩)
        (resnet P (channelCount feature k) cout num stages nempty t₂ o.depth ⟨_, x₂.map (asVector (channelCount feature k))⟩) := by
  obtain ⟨o₁, i₁, t₁, x₁, o₂, i₂, t₂, x₂, cells, ch, cells', ch', b1, n1, g1, b2, n2, g2, B1, mp, c1, c2, c3, c4, hM⟩ :=
    translated_pair nrm divF o pc pc' samples h h' hf he (by split at hen <;> omega) hs feature hN hF hP ha nempty (channelCount feature k)
  obtain ⟨y, y', r1, r2, l1, l2, hy⟩ := C94_resnet P hT mp o.depth stages num hst hnum hds (le_refl _) _ cout hw nempty hen cells cells' ch ch' c1 c2 c3 c4 _ _ hM
  refine ⟨o₁, i₁, t₁, x₁, o₂, i₂, t₂, x₂, b1, n1, g1, b2, n2, g2, y, r1, ?_, by rw [l1, B1]⟩
  rw [r2]
  congr 2
  apply List.ext_getElem?
  intro i
  by_cases hi : i < t₁.batchSize
  · exact hy i hi
  · rw [List.getElem?_eq_none (by omega), List.getElem?_eq_none (by omega)]

/-- **C94** from point cloud to the predictions for its points: UNet in evaluation mode, queried at the points of the cloud, gives every point of
the translated cloud the prediction of the original point. -/
theorem C94_segmentation {L : Type} {k : Nat} (P : Params) (hT : P.training = false) (nrm : V3 ℚ → V3 ℚ)
    (divF : ℚ → (Fin k → ℚ) → (Fin k → ℚ)) (o : Octree (Fin k → ℚ)) (pc pc' : Points ℚ (Fin k → ℚ) L) (samples : List Nat)
    (h : LegalBuild o pc samples) (h' : LegalBuild o pc' samples) (e : Nat) (t : Int × Int × Int) (hf : 1 ≤ o.fullDepth) (he : o.fullDepth ≤ e)
    (hs : TranslatedCloud e t pc pc') (feature : String) (hN : Asks feature 'N' 'n' ∨ Asks feature 'D' 'd' → pc.normals ≠ none)
    (hF : Asks feature 'F' 'f' → pc.features ≠ none) (hP : ¬ Asks feature 'P' 'p')
    (ha : Asks feature 'N' 'n' ∨ Asks feature 'D' 'd' ∨ Asks feature 'L' 'l' ∨ Asks feature 'F' 'f')
    (cfg : UNetConfig) (hcfg : cfg.Ok) (cout : Nat) (hds : cfg.encoderBlocks.length < o.depth) (hw : WidthOk (channelCount feature k)) (nempty : Bool)
    (hen : e + (if nempty then 0 else 1) ≤ o.depth - cfg.encoderBlocks.length) (hlt : e < o.depth) (method : String) :
    ∃ o₁ i₁ t₁ x₁ o₂ i₂ t₂ x₂, Octree.build nrm divF o pc = .ok (o₁, i₁) ∧ o₁.constructAllNeigh = .ok t₁ ∧
      t₁.inputFeature feature nempty = .ok x₁ ∧ Octree.build nrm divF o pc' = .ok (o₂, i₂) ∧ o₂.constructAllNeigh = .ok t₂ ∧
      t₂.inputFeature feature nempty = .ok x₂ ∧
      SameOutput pc.points.length cout
        (unet P cfg (channelCount feature k) cout method nempty t₁ o.depth ((pc.points.zip samples).map row4) ⟨_, x₁.map (asVector (channelCount feature k))⟩)
        (unet P cfg (channelCount feature k) cout method nempty t₂ o.depth ((pc'.points.zip samples).map row4) ⟨_, x₂.map (asVector (channelCount feature k))⟩) := by
  obtain ⟨o₁, i₁, t₁, x₁, o₂, i₂, t₂, x₂, cells, ch, cells', ch', b1, n1, g1, b2, n2, g2, B1, mp, c1, c2, c3, c4, hM⟩ :=
    translated_pair nrm divF o pc pc' samples h h' hf he hlt hs feature hN hF hP ha nempty (channelCount feature k)
  refine ⟨o₁, i₁, t₁, x₁, o₂, i₂, t₂, x₂, b1, n1, g1, b2, n2, g2, ?_⟩
  have := C94_unet P hT mp cfg hcfg o.depth hds (le_refl _) _ cout hw nempty hen method (pc.points.zip samples) ?_ ?_ cells cells' ch ch' c1 c2 c3 c4 _ _ hM
  · rw [hs.points, cloud_shift]
    rw [List.length_zip, h.cloud.length, min_self] at this
    exact this
  · intro q hq
    rw [B1]
    exact h.cloud.lt _ (List.of_mem_zip hq).2
  · intro q hq
    have hq1 := (List.of_mem_zip hq).1
    exact ⟨h.inCube _ hq1, h'.inCube _ (by rw [hs.points]; exact List.mem_map_of_mem hq1)⟩

/-- A cloud of two points with normals, and the same cloud one cell of level 1 further along the first axis. -/
def cloudT (s : ℚ) : Points ℚ (Fin 1 → ℚ) Unit := ⟨[⟨-1 / 2 + s, 1 / 3, 0⟩, ⟨-1 / 4 + s, -1 / 3, 2 / 3⟩], some [⟨1, 0, 0⟩, ⟨0, 1, 0⟩], none, none, none, 1, none, 0⟩

theorem cloudT_legal (s : ℚ) (hs : s = 0 ∨ s = 1) (D : Nat) (hD : 1 ≤ D ∧ D ≤ 16) : LegalBuild (Octree.new D 1 1 0) (cloudT s) [0, 0] := by
  refine ⟨by simp [Octree.new, hD.2], by simp [Octree.new, hD.1], by simp [Octree.new], rfl,
    ⟨rfl, by simp [Octree.new], by simp [Octree.new], by simp [cloudT], by simp [cloudT]⟩, ?_⟩
  intro p hp; simp only [cloudT, List.mem_cons, List.not_mem_nil, or_false] at hp
  rcases hs with rfl | rfl <;> rcases hp with rfl | rfl <;> decide +kernel

theorem cloudT_moved : TranslatedCloud 1 (1, 0, 0) (cloudT 0) (cloudT 1) := by
  refine ⟨?_, rfl, rfl⟩
  simp [cloudT, shiftPoint]

/-- The hypotheses of C94 are met: ResNet with two stages on octrees of depth 3, UNet on octrees of depth 5. -/
example (P : Params) (hT : P.training = false) : (∃ o₁ i₁ t₁ x₁ o₂ i₂ t₂ x₂,
      Octree.build id (fun c v i => v i / c) (Octree.new 3 1 1 0) (cloudT 0) = .ok (o₁, i₁) ∧ o₁.constructAllNeigh = .ok t₁ ∧
      t₁.inputFeature "ND" true = .ok x₁ ∧ Octree.build id (fun c v i => v i / c) (Octree.new 3 1 1 0) (cloudT 1) = .ok (o₂, i₂) ∧
      o₂.constructAllNeigh = .ok t₂ ∧ t₂.inputFeature "ND" true = .ok x₂ ∧
      SameOutput 1 10 (resnet P 4 10 3 2 true t₁ 3 ⟨4, x₁.map (asVector 4)⟩) (resnet P 4 10 3 2 true t₂ 3 ⟨4, x₂.map (asVector 4)⟩)) ∧
    (∃ o₁ i₁ t₁ x₁ o₂ i₂ t₂ x₂,
      Octree.build id (fun c v i => v i / c) (Octree.new 6 1 1 0) (cloudT 0) = .ok (o₁, i₁) ∧ o₁.constructAllNeigh = .ok t₁ ∧
      t₁.inputFeature "ND" false = .ok x₁ ∧ Octree.build id (fun c v i => v i / c) (Octree.new 6 1 1 0) (cloudT 1) = .ok (o₂, i₂) ∧
      o₂.constructAllNeigh = .ok t₂ ∧ t₂.inputFeature "ND" false = .ok x₂ ∧
      SameOutput 2 10 (unet P unetConfig 4 10 "linear" false t₁ 6 (((cloudT 0).points.zip [0, 0]).map row4) ⟨4, x₁.map (asVector 4)⟩)
        (unet P unetConfig 4 10 "linear" false t₂ 6 (((cloudT 1).points.zip [0, 0]).map row4) ⟨4, x₂.map (asVector 4)⟩)) := by
  have hcc : channelCount "ND" 1 = 4 := by decide +kernel
  constructor
  · have := C94_classification P hT id (fun c v i => v i / c) (Octree.new 3 1 1 0) (cloudT 0) (cloudT 1) [0, 0] (cloudT_legal 0 (.inl rfl) 3 (by decide))
      (cloudT_legal 1 (.inr rfl) 3 (by decide)) 1 (1, 0, 0) (by simp [Octree.new]) (by simp [Octree.new]) cloudT_moved "ND" (fun _ => by simp [cloudT])
      (fun h => absurd h (by decide +kernel)) (by decide +kernel) (by decide +kernel) 2 3 10 (by decide) (by decide) (by simp [Octree.new])
      (by rw [hcc]; unfold WidthOk; decide) true (by simp [Octree.new])
    rw [hcc] at this
    exact this
  · have := C94_segmentation P hT id (fun c v i => v i / c) (Octree.new 6 1 1 0) (cloudT 0) (cloudT 1) [0, 0] (cloudT_legal 0 (.inl rfl) 6 (by decide))
      (cloudT_legal 1 (.inr rfl) 6 (by decide)) 1 (1, 0, 0) (by simp [Octree.new]) (by simp [Octree.new]) cloudT_moved "ND" (fun _ => by simp [cloudT])
      (fun h => absurd h (by decide +kernel)) (by decide +kernel) (by decide +kernel) unetConfig unetConfig_ok 10 (by decide)
      (by rw [hcc]; unfold WidthOk; decide) false (by simp [Octree.new, unetConfig]) (by simp [Octree.new]) "linear"
    rw [hcc] at this
    exact this

end Ocnn
