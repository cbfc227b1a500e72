import Verif.TurnedQueries
import Verif.PropsTranslateTrain

/-! Property C155: the symmetries of the cube. -/

set_option linter.unusedSimpArgs false

namespace Ocnn
open Spec
variable {F L : Type}

namespace Spec

/-- `pc'` is the cloud `pc` with all points and all normals turned. -/
structure TurnedCloud (s : Symmetry) (pc pc' : Points ℚ F L) : Prop where
  points : pc'.points = pc.points.map s.point
  normals : pc'.normals = pc.normals.map (List.map s.point)
  features : pc'.features = pc.features
  batchId : pc'.batchId = pc.batchId
  batchSize : pc'.batchSize = pc.batchSize

/-- The coordinates of a cell. -/
def cellAxes (c : Cell) : Nat × Nat × Nat := (c.x, c.y, c.z)

end Spec

/-! ### networks on two octrees -/

section nets
variable {P' P : Params} {o o' : Octree F} {s : Symmetry} {D : Nat}

theorem turned_output {n c : Nat} {r r' : M Tensor} {q : List Cell × List Cell × Motion} (hq : q = (sampleCells n, sampleCells n, reorder id))
    (h : Both ((turnedSys P o o' s).R q c) r' r) : SameOutput n c r r' := by
  obtain ⟨a, b, rfl, rfl, u, v, rfl, rfl, hM, -⟩ := h
  subst hq
  have hM : Moved (reorder id) (sampleCells n) v (sampleCells n) u := hM
  obtain rfl := TurnedPair.rows_eq hM
  exact ⟨u, rfl, rfl, by rw [← hM.1]; simp [sampleCells]⟩

theorem rel_turned (p : TurnedPair o o' s D) {depth cin : Nat} (hd : depth ≤ D) {nempty : Bool} {x x' : List (Fin cin → ℚ)}
    {cells cells' : List Cell} {ch ch' : List Int} (hc : CellsOf o.batchSize depth o.keys cells) (hch : o.children depth = some ch)
    (hc' : CellsOf o'.batchSize depth o'.keys cells') (hch' : o'.children depth = some ch')
    (hx : Moved (s.motion depth) (queried nempty cells ch) x (queried nempty cells' ch') x') :
    (turnedSys P o o' s).R ((turnedSys P o o' s).ht nempty depth) cin ⟨cin, x'⟩ ⟨cin, x⟩ := by
  rw [queried_qc p.valid depth hd nempty _ _ hc hch, queried_qc p.valid' depth hd nempty _ _ hc' hch'] at hx
  exact ⟨_, _, rfl, rfl, hx, qc_nodup p.valid depth hd nempty, qc_nodup p.valid' depth hd nempty, motion_legal s depth⟩

theorem turned_ok (w : o.Valid D) {nempty : Bool} {a b : Nat} (ha : 1 ≤ a) (hb : b ≤ D)
    (hs : NotSingle P o nempty a b) (d : Nat) (h1 : a ≤ d) (h2 : d ≤ b) : (turnedSys P o o' s).ok ((turnedSys P o o' s).ht nempty d) := by
  intro hP
  show (qc o nempty d).length ≠ 1
  rw [qc_length w d (by omega)]
  have := bnOk_ne w ha hb hs d h1 h2 hP
  simpa [ht, rowsAt] using this.2

variable (p : TurnedPair o o' s D) (hP : TurnedParams s P' P)
include p hP

/-- **C155** ResNet in evaluation or training mode: with all kernels turned, the logits for the turned octree are the logits for the octree. -/
theorem C155_resnet (depth stages num : Nat) (hst : 1 ≤ stages) (hnum : 1 ≤ num) (hds : stages ≤ depth) (hD : depth ≤ D)
    (cin cout : Nat) (hc : WidthOk cin) (nempty : Bool)
    (hs : NotSingle P o nempty (depth - stages + 1) depth) (hB : P.training = true → o.batchSize ≠ 1)
    (cells cells' : List Cell) (ch ch' : List Int) (h1 : CellsOf o.batchSize depth o.keys cells) (h2 : o.children depth = some ch)
    (h3 : CellsOf o'.batchSize depth o'.keys cells') (h4 : o'.children depth = some ch') (x x' : List (Fin cin → ℚ))
    (hx : Moved (s.motion depth) (queried nempty cells ch) x (queried nempty cells' ch') x') :
    SameOutput o.batchSize cout (resnet P cin cout num stages nempty o depth ⟨cin, x⟩)
      (resnet P' cin cout num stages nempty o' depth ⟨cin, x'⟩) := by
  have hokb : (turnedSys P o o' s).ok (turnedSys P o o' s).hb := by
    intro hT
    show (sampleCells o.batchSize).length ≠ 1
    simpa [sampleCells] using hB hT
  exact turned_output (n := o.batchSize) rfl ((p.layers hP).resnet cout num hnum hst hds ⟨Nat.zero_le _, hD⟩ hc
    (fun d a b => turned_ok p.valid (by omega) hD hs d (by omega) b) hokb (rel_turned p hD h1 h2 h3 h4 hx))

/-- **C155** HRNet in evaluation or training mode. -/
theorem C155_hrnet (depth stages : Nat) (hst : 1 ≤ stages) (hds : min stages 4 + 2 ≤ depth) (hD : depth ≤ D)
    (cin cout : Nat) (hc : WidthOk cin) (nempty : Bool) (hs : NotSingle P o nempty 2 depth)
    (cells cells' : List Cell) (ch ch' : List Int) (h1 : CellsOf o.batchSize depth o.keys cells) (h2 : o.children depth = some ch)
    (h3 : CellsOf o'.batchSize depth o'.keys cells') (h4 : o'.children depth = some ch') (x x' : List (Fin cin → ℚ))
    (hx : Moved (s.motion depth) (queried nempty cells ch) x (queried nempty cells' ch') x') :
    SameOutput o.batchSize cout (hrnet P cin cout stages nempty o depth ⟨cin, x⟩) (hrnet P' cin cout stages nempty o' depth ⟨cin, x'⟩) :=
  turned_output (n := o.batchSize) rfl ((p.layers hP).hrnet cout hst hds ⟨Nat.zero_le _, hD⟩ hc
    (fun d a b => turned_ok p.valid (by omega) hD hs d (by omega) b) (rel_turned p hD h1 h2 h3 h4 hx))

/-- **C155** UNet in evaluation or training mode: with all kernels turned, the predictions at the turned query points are those at the query points.  The
query points for methods other than linear interpolation lie in the cube, and not on planes between cells. -/
theorem C155_unet (cfg : UNetConfig) (hcfg : cfg.Ok) (depth : Nat) (hds : cfg.encoderBlocks.length < depth) (hD : depth ≤ D)
    (cin cout : Nat) (hc : WidthOk cin) (nempty : Bool) (method : String)
    (hs : NotSingle P o nempty (depth - cfg.encoderBlocks.length) depth)
    (qs : List (V3 ℚ × Nat)) (hq : P.training = true → qs.length ≠ 1) (hb : ∀ q ∈ qs, q.2 < o.batchSize)
    (hi : method ≠ "linear" → ∀ q ∈ qs, InCube q.1 ∧ s.OffFaces D q.1)
    (cells cells' : List Cell) (ch ch' : List Int) (h1 : CellsOf o.batchSize depth o.keys cells) (h2 : o.children depth = some ch)
    (h3 : CellsOf o'.batchSize depth o'.keys cells') (h4 : o'.children depth = some ch') (x x' : List (Fin cin → ℚ))
    (hx : Moved (s.motion depth) (queried nempty cells ch) x (queried nempty cells' ch') x') :
    SameOutput qs.length cout (unet P cfg cin cout method nempty o depth (qs.map row4) ⟨cin, x⟩)
      (unet P' cfg cin cout method nempty o' depth ((qs.map fun q => (s.point q.1, q.2)).map row4) ⟨cin, x'⟩) :=
  turned_output (n := qs.length) rfl ((p.layers hP).unet_by hcfg cout method hds ⟨Nat.zero_le _, hD⟩ hc
    (fun d a b => turned_ok p.valid (by omega) hD hs d (by omega) b) (p.queries method qs hb hi)
    (fun hT => by
      show (sampleCells qs.length).length ≠ 1
      simpa [sampleCells] using hq hT)
    (rel_turned p hD h1 h2 h3 h4 hx))

end nets

/-! ### octrees of turned clouds -/

theorem contains_axes (d : Nat) (c : Cell) (p : V3 ℚ) : CubeContains d c p ↔ ∀ i, SideContains d (coord (cellAxes c) i) (coord (axes3 p) i) := by
  constructor
  · rintro ⟨a, b, e⟩ i
    fin_cases i
    · exact a
    · exact b
    · exact e
  · intro h
    exact ⟨h 0, h 1, h 2⟩

theorem pos_axes (c : Cell) (i : Fin 3) : coord (pos c) i = ((coord (cellAxes c) i : Nat) : Int) := by fin_cases i <;> rfl

theorem inRange_axes (B d : Nat) (c : Cell) : c.InRange B d ↔ c.b < B ∧ ∀ i, coord (cellAxes c) i < 2 ^ d := by
  constructor
  · rintro ⟨h, a, b, e⟩
    refine ⟨h, fun i => ?_⟩
    fin_cases i
    · exact a
    · exact b
    · exact e
  · rintro ⟨h, a⟩
    exact ⟨h, a 0, a 1, a 2⟩

theorem moves_axes {s : Symmetry} {d : Nat} {c c' : Cell} : (s.motion d).Moves c c' ↔ c'.b = c.b ∧
    ∀ i, ((coord (cellAxes c') i : Nat) : Int) = if s.mirror i then 2 ^ d - 1 - ((coord (cellAxes c) (s.source i) : Nat) : Int)
      else ((coord (cellAxes c) (s.source i) : Nat) : Int) := by
  rw [motion_iff]
  simp only [pos_axes]

theorem contains_turn {s : Symmetry} {d D : Nat} (hd : d ≤ D) {c c' : Cell} (hm : (s.motion d).Moves c c') {p : V3 ℚ} (hp : s.OffFaces D p) :
    CubeContains d c' (s.point p) ↔ CubeContains d c p := by
  rw [contains_axes, contains_axes]
  obtain ⟨-, hm⟩ := moves_axes.1 hm
  have key : ∀ i, SideContains d (coord (cellAxes c') i) (coord (axes3 (s.point p)) i) ↔
      SideContains d (coord (cellAxes c) (s.source i)) (coord (axes3 p) (s.source i)) := by
    intro i
    have h1 := hm i
    rw [coord_point]
    cases hr : s.mirror i with
    | false =>
      rw [hr] at h1
      have h1 : coord (cellAxes c') i = coord (cellAxes c) (s.source i) := by simpa using h1
      rw [h1]
      simp
    | true =>
      rw [hr, if_pos rfl] at h1
      rw [if_pos rfl]
      have hpow : (0 : Int) < 2 ^ d := by positivity
      have e : ((2 ^ d : Nat) : Int) = 2 ^ d := by push_cast; rfl
      have hlt : coord (cellAxes c) (s.source i) < 2 ^ d := by omega
      have h2 : coord (cellAxes c') i = 2 ^ d - 1 - coord (cellAxes c) (s.source i) := by omega
      rw [h2]
      exact side_reflect hlt fun k => offGrid_le hd (hp i hr) k
  constructor
  · intro h j
    have := (key (s.source.symm j)).1 (h _)
    rwa [Equiv.apply_symm_apply] at this
  · intro h i
    exact (key i).2 (h _)

theorem moves_range {s : Symmetry} {B d : Nat} {c c' : Cell} (hm : (s.motion d).Moves c c') : c'.InRange B d ↔ c.InRange B d := by
  rw [inRange_axes, inRange_axes]
  obtain ⟨hb, hm⟩ := moves_axes.1 hm
  rw [hb]
  have e : ((2 ^ d : Nat) : Int) = 2 ^ d := by push_cast; rfl
  constructor
  · rintro ⟨h, a⟩
    refine ⟨h, fun j => ?_⟩
    have h1 := hm (s.source.symm j)
    have h2 := a (s.source.symm j)
    rw [Equiv.apply_symm_apply] at h1
    split at h1 <;> omega
  · rintro ⟨h, a⟩
    refine ⟨h, fun i => ?_⟩
    have h1 := hm i
    have h2 := a (s.source i)
    split at h1 <;> omega

theorem moves_exists (s : Symmetry) {B d : Nat} {c : Cell} (hc : c.InRange B d) : ∃ c', (s.motion d).Moves c c' := by
  obtain ⟨-, h⟩ := (inRange_axes B d c).1 hc
  let f : Fin 3 → Nat := fun i => if s.mirror i then 2 ^ d - 1 - coord (cellAxes c) (s.source i) else coord (cellAxes c) (s.source i)
  refine ⟨⟨c.b, f 0, f 1, f 2⟩, moves_axes.2 ⟨rfl, fun i => ?_⟩⟩
  have e : coord (cellAxes ⟨c.b, f 0, f 1, f 2⟩) i = f i := by fin_cases i <;> rfl
  rw [e]
  have e : ((2 ^ d : Nat) : Int) = 2 ^ d := by push_cast; rfl
  have := h (s.source i)
  simp only [f]
  split <;> omega

theorem moves_exists_back (s : Symmetry) {B d : Nat} {c' : Cell} (hc : c'.InRange B d) : ∃ c, (s.motion d).Moves c c' := by
  obtain ⟨-, h⟩ := (inRange_axes B d c').1 hc
  let f : Fin 3 → Nat := fun j => if s.mirror (s.source.symm j) then 2 ^ d - 1 - coord (cellAxes c') (s.source.symm j) else coord (cellAxes c') (s.source.symm j)
  refine ⟨⟨c'.b, f 0, f 1, f 2⟩, moves_axes.2 ⟨rfl, fun i => ?_⟩⟩
  have e : ∀ i, coord (cellAxes ⟨c'.b, f 0, f 1, f 2⟩) i = f i := by intro i; fin_cases i <;> rfl
  rw [e]
  have e : ((2 ^ d : Nat) : Int) = 2 ^ d := by push_cast; rfl
  have := h i
  simp only [f, Equiv.symm_apply_apply]
  split <;> omega

theorem turned_inCube {s : Symmetry} {d : Nat} {p : V3 ℚ} (hi : InCube p) (hp : s.OffFaces d p) : InCube (s.point p) := by
  have h0 : ∀ i, -1 ≤ coord (axes3 p) i ∧ coord (axes3 p) i < 1 := by
    obtain ⟨a, b, e⟩ := hi
    intro i
    fin_cases i
    · exact a
    · exact b
    · exact e
  have key : ∀ i, -1 ≤ coord (axes3 (s.point p)) i ∧ coord (axes3 (s.point p)) i < 1 := by
    intro i
    obtain ⟨a, b⟩ := h0 (s.source i)
    rw [coord_point]
    cases hr : s.mirror i with
    | false => simpa using ⟨a, b⟩
    | true =>
      have h1 := hp i hr 0
      have : -1 < coord (axes3 p) (s.source i) := lt_of_le_of_ne a (by simpa using h1.symm)
      rw [if_pos rfl]
      constructor <;> linarith
  exact ⟨key 0, key 1, key 2⟩

theorem turned_legal {o : Octree F} {pc pc' : Points ℚ F L} {samples : List Nat} (h : LegalBuild o pc samples) {s : Symmetry}
    (ht : TurnedCloud s pc pc') (hoff : ∀ p ∈ pc.points, s.OffFaces o.depth p) : LegalBuild o pc' samples := by
  refine ⟨h.depth, h.full, h.batch, ?_, ⟨?_, h.cloud.lt, ?_, ?_, ?_⟩, ?_⟩
  · rw [ht.batchSize]; exact h.same_batch
  · rw [ht.points]; simpa using h.cloud.length
  · rw [ht.batchId]; exact h.cloud.ids
  · intro n hn
    rw [ht.normals, Option.map_eq_some_iff] at hn
    obtain ⟨m, hm, rfl⟩ := hn
    rw [ht.points]
    simpa using h.cloud.normals m hm
  · intro f hf
    rw [ht.features] at hf
    rw [ht.points]
    simpa using h.cloud.features f hf
  · intro q hq
    rw [ht.points, List.mem_map] at hq
    obtain ⟨p, hp, rfl⟩ := hq
    exact turned_inCube (h.inCube p hp) (hoff p hp)

/-- **C155** turning a cloud turns its octree, if no reversed coordinate of a point lies on a plane between two finest cells: the nodes of every layer are
the turned nodes, and so are the non-empty nodes. -/
theorem C155_points [AddCommMonoid F] (nrm : V3 ℚ → V3 ℚ) (divF : ℚ → F → F) (o : Octree F) (pc pc' : Points ℚ F L) (samples : List Nat)
    (h : LegalBuild o pc samples) (s : Symmetry) (ht : TurnedCloud s pc pc') (hoff : ∀ p ∈ pc.points, s.OffFaces o.depth p) :
    ∃ o₁ i₁ o₂ i₂, Octree.build nrm divF o pc = .ok (o₁, i₁) ∧ Octree.build nrm divF o pc' = .ok (o₂, i₂) ∧
      ∀ d ≤ o.depth, ∀ cells ch cells' ch', CellsOf o.batchSize d o₁.keys cells → o₁.children d = some ch →
        CellsOf o.batchSize d o₂.keys cells' → o₂.children d = some ch' →
        CellsMoved (s.motion d) cells cells' ∧ CellsMoved (s.motion d) (nonEmpty cells ch) (nonEmpty cells' ch') := by
  have h' := turned_legal h ht hoff
  obtain ⟨o₁, i₁, hb₁, h11, h12, h13, w₁, cs, chs, H⟩ := C07_build nrm divF o pc samples h
  obtain ⟨o₂, i₂, hb₂, h21, h22, h23, w₂, cs', chs', H'⟩ := C07_build nrm divF o pc' samples h'
  have h16 := h.depth
  have nd₁ : ∀ d ≤ o.depth, ∀ nempty, (queried nempty (cs d) (chs d)).Nodup := fun d hd nempty =>
    nodes_nodup o₁ o.depth w₁ d hd nempty 1 _ _ (.one d _ _ (h13 ▸ (H d hd).1) (H d hd).2.1)
  have nd₂ : ∀ d ≤ o.depth, ∀ nempty, (queried nempty (cs' d) (chs' d)).Nodup := fun d hd nempty =>
    nodes_nodup o₂ o.depth w₂ d hd nempty 1 _ _ (.one d _ _ (h23 ▸ (H' d hd).1) (H' d hd).2.1)
  have sub₁ : ∀ d ≤ o.depth, ∀ c ∈ nonEmpty (cs d) (chs d), c ∈ cs d := by
    intro d hd c hc
    obtain ⟨-, hne, -⟩ := layer_masks o₁ o.depth w₁ d hd (cs d) (chs d) (h13 ▸ (H d hd).1) (H d hd).2.1
    rw [hne] at hc
    exact (maskSel_sublist _ _).mem hc
  have sub₂ : ∀ d ≤ o.depth, ∀ c ∈ nonEmpty (cs' d) (chs' d), c ∈ cs' d := by
    intro d hd c hc
    obtain ⟨-, hne, -⟩ := layer_masks o₂ o.depth w₂ d hd (cs' d) (chs' d) (h23 ▸ (H' d hd).1) (H' d hd).2.1
    rw [hne] at hc
    exact (maskSel_sublist _ _).mem hc
  have r₁ : ∀ d ≤ o.depth, ∀ c ∈ cs d, c.InRange o.batchSize d := fun d hd => (H d hd).1.1
  have r₂ : ∀ d ≤ o.depth, ∀ c ∈ cs' d, c.InRange o.batchSize d := fun d hd => (H' d hd).1.1
  have full₁ : ∀ d < o.fullDepth, ∀ c : Cell, c.InRange o.batchSize d → c ∈ nonEmpty (cs d) (chs d) := by
    intro d hd c hc
    have hf := h.full
    obtain ⟨c0, c1, c2, c3⟩ := hc
    have := ((H d (by omega)).2.2.2.2 (by omega) ⟨c.b, 2 * c.x, 2 * c.y, 2 * c.z⟩).mp
      (((H (d + 1) (by omega)).2.2.2.1 (by omega) _).mpr ⟨c0, by rw [pow_succ]; dsimp only; omega, by rw [pow_succ]; dsimp only; omega,
        by rw [pow_succ]; dsimp only; omega⟩)
    simpa [Cell.parent] using this
  have full₂ : ∀ d < o.fullDepth, ∀ c : Cell, c.InRange o.batchSize d → c ∈ nonEmpty (cs' d) (chs' d) := by
    intro d hd c hc
    have hf := h.full
    obtain ⟨c0, c1, c2, c3⟩ := hc
    have := ((H' d (by omega)).2.2.2.2 (by omega) ⟨c.b, 2 * c.x, 2 * c.y, 2 * c.z⟩).mp
      (((H' (d + 1) (by omega)).2.2.2.1 (by omega) _).mpr ⟨c0, by rw [pow_succ]; dsimp only; omega, by rw [pow_succ]; dsimp only; omega,
        by rw [pow_succ]; dsimp only; omega⟩)
    simpa [Cell.parent] using this
  have occ : ∀ d ≤ o.depth, ∀ c c' : Cell, (s.motion d).Moves c c' →
      (Occupied pc'.points samples d c' ↔ Occupied pc.points samples d c) := by
    intro d hd c c' hm
    have hb : c'.b = c.b := (moves_axes.1 hm).1
    unfold Occupied
    rw [ht.points, hb]
    constructor
    · rintro ⟨i, q, e1, e2, e3⟩
      rw [List.getElem?_map, Option.map_eq_some_iff] at e1
      obtain ⟨p, e1, rfl⟩ := e1
      exact ⟨i, p, e1, e2, (contains_turn hd hm (hoff p (List.mem_of_getElem? e1))).mp e3⟩
    · rintro ⟨i, p, e1, e2, e3⟩
      exact ⟨i, s.point p, by rw [List.getElem?_map, e1]; rfl, e2, (contains_turn hd hm (hoff p (List.mem_of_getElem? e1))).mpr e3⟩
  have ne : ∀ d ≤ o.depth, ∀ c c' : Cell, (s.motion d).Moves c c' → c.InRange o.batchSize d →
      (c' ∈ nonEmpty (cs' d) (chs' d) ↔ c ∈ nonEmpty (cs d) (chs d)) := by
    intro d hd c c' hm hc
    rcases Nat.lt_or_ge d o.fullDepth with hf | hf
    · exact ⟨fun _ => full₁ d hf c hc, fun _ => full₂ d hf _ ((moves_range hm).2 hc)⟩
    · rw [(H' d hd).2.2.1 hf, (H d hd).2.2.1 hf]
      exact occ d hd c c' hm
  have nodes : ∀ d ≤ o.depth, ∀ c c' : Cell, (s.motion d).Moves c c' → c.InRange o.batchSize d → (c' ∈ cs' d ↔ c ∈ cs d) := by
    intro d hd c c' hm hc
    rcases Nat.lt_or_ge o.fullDepth d with hf | hf
    · obtain ⟨d, rfl⟩ : ∃ g, d = g + 1 := ⟨d - 1, by omega⟩
      rw [(H' d (by omega)).2.2.2.2 (by omega), (H d (by omega)).2.2.2.2 (by omega)]
      apply ne d (by omega) _ _ (turn_parent hm).1
      obtain ⟨c0, c1, c2, c3⟩ := hc
      rw [pow_succ] at c1 c2 c3
      refine ⟨c0, ?_, ?_, ?_⟩ <;> simp only [Cell.parent] <;> omega
    · rw [(H' d hd).2.2.2.1 hf, (H d hd).2.2.2.1 hf]
      exact moves_range hm
  refine ⟨o₁, i₁, o₂, i₂, hb₁, hb₂, ?_⟩
  intro d hd cells ch cells' ch' e1 e2 e3 e4
  obtain rfl := cells_unique (by omega) e1 (H d hd).1
  obtain rfl := cells_unique (by omega) e3 (H' d hd).1
  rw [(H d hd).2.1] at e2
  rw [(H' d hd).2.1] at e4
  obtain rfl := Option.some.inj e2
  obtain rfl := Option.some.inj e4
  constructor
  · refine cellsMoved_of (motion_legal s d) (nd₁ d hd false) (nd₂ d hd false) ?_ ?_
    · intro c hc
      have hr := r₁ d hd c hc
      obtain ⟨c', hm⟩ := moves_exists s hr
      exact ⟨c', (nodes d hd c c' hm hr).2 hc, hm⟩
    · intro c' hc
      have hr := r₂ d hd c' hc
      obtain ⟨c, hm⟩ := moves_exists_back s hr
      exact ⟨c, (nodes d hd c c' hm ((moves_range hm).1 hr)).1 hc, hm⟩
  · refine cellsMoved_of (motion_legal s d) (nd₁ d hd true) (nd₂ d hd true) ?_ ?_
    · intro c hc
      have hr := r₁ d hd c (sub₁ d hd c hc)
      obtain ⟨c', hm⟩ := moves_exists s hr
      exact ⟨c', (ne d hd c c' hm hr).2 hc, hm⟩
    · intro c' hc
      have hr := r₂ d hd c' (sub₂ d hd c' hc)
      obtain ⟨c, hm⟩ := moves_exists_back s hr
      exact ⟨c, (ne d hd c c' hm ((moves_range hm).1 hr)).1 hc, hm⟩

/-! ### signals -/

theorem belongs_turn {s : Symmetry} {d : Nat} {c c' : Cell} (hm : (s.motion d).Moves c c') {q : V3 ℚ × Nat} (hq : s.OffFaces d q.1) :
    belongs d c' (s.point q.1, q.2) = belongs d c q := by
  unfold belongs
  rw [decide_eq_decide]
  dsimp only
  rw [contains_turn (le_refl d) hm hq, (moves_axes.1 hm).1]

theorem countIn_turn {s : Symmetry} {d : Nat} {c c' : Cell} (hm : (s.motion d).Moves c c') (points : List (V3 ℚ)) (samples : List Nat)
    (hp : ∀ p ∈ points, s.OffFaces d p) : countIn d c' ((points.map s.point).zip samples) = countIn d c (points.zip samples) := by
  unfold countIn
  rw [List.zip_map_left, List.countP_map]
  apply List.countP_congr
  rintro ⟨p, b⟩ hq
  have hpm : p ∈ points := (List.of_mem_zip hq).1
  rw [← belongs_turn hm (q := (p, b)) (hp p hpm)]
  rfl

theorem sumIn_turn {V : Type} [Add V] [Zero V] {s : Symmetry} {d : Nat} {c c' : Cell} (hm : (s.motion d).Moves c c') (points : List (V3 ℚ))
    (samples : List Nat) (hp : ∀ p ∈ points, s.OffFaces d p) (vals : List V) :
    sumIn d c' ((points.map s.point).zip samples) vals = sumIn d c (points.zip samples) vals := by
  unfold sumIn
  rw [List.zip_map_left, List.zip_map_left, List.filter_map, List.map_map]
  have e : (points.zip samples |>.zip vals).filter ((fun e : (V3 ℚ × Nat) × V => belongs d c' e.1) ∘ Prod.map (Prod.map s.point id) id)
      = (points.zip samples |>.zip vals).filter fun e => belongs d c e.1 := by
    apply List.filter_congr
    rintro ⟨⟨p, b⟩, v⟩ hq
    exact belongs_turn hm (q := (p, b)) (hp p (List.of_mem_zip (List.of_mem_zip hq).1).1)
  rw [e]
  rfl

theorem axes3_ext {p q : V3 ℚ} (h : ∀ i, coord (axes3 p) i = coord (axes3 q) i) : p = q := by
  have := coord_ext h
  simp only [axes3, Prod.mk.injEq] at this
  exact V3.ext this.1 this.2.1 this.2.2

theorem point_add (s : Symmetry) (p q : V3 ℚ) : s.point (p + q) = s.point p + s.point q := by
  have e : ∀ (a b : V3 ℚ) i, coord (axes3 (a + b)) i = coord (axes3 a) i + coord (axes3 b) i := by
    intro a b i
    fin_cases i <;> rfl
  refine axes3_ext fun i => ?_
  rw [e, coord_point, coord_point, coord_point, e]
  split <;> ring

theorem point_zero (s : Symmetry) : s.point (0 : V3 ℚ) = 0 := by
  have e : ∀ i, coord (axes3 (0 : V3 ℚ)) i = 0 := by intro i; fin_cases i <;> rfl
  refine axes3_ext fun i => ?_
  rw [coord_point, e, e]
  split <;> simp

theorem point_sum (s : Symmetry) (l : List (V3 ℚ)) : (l.map s.point).sum = s.point l.sum := by
  induction l with
  | nil => exact (point_zero s).symm
  | cons a l ih => rw [List.map_cons, List.sum_cons, List.sum_cons, ih, point_add]

theorem sumIn_point (s : Symmetry) {d : Nat} {c : Cell} (cloud : List (V3 ℚ × Nat)) (vals : List (V3 ℚ)) :
    sumIn d c cloud (vals.map s.point) = s.point (sumIn d c cloud vals) := by
  unfold sumIn
  rw [List.zip_map_right, List.filter_map, List.map_map, ← point_sum, List.map_map]
  rfl

theorem meanPoint_turn {s : Symmetry} {d : Nat} {c c' : Cell} (hm : (s.motion d).Moves c c') (points : List (V3 ℚ)) (samples : List Nat)
    (hp : ∀ p ∈ points, s.OffFaces d p) : meanPoint d c' (points.map s.point) samples = s.point (meanPoint d c points samples) := by
  unfold meanPoint
  rw [sumIn_turn hm _ _ hp, countIn_turn hm _ _ hp, sumIn_point]
  refine axes3_ext fun i => ?_
  rw [coord_scaled, coord_point, coord_point, coord_scaled]
  split <;> ring

theorem offsetIn_turn {s : Symmetry} {d : Nat} {c c' : Cell} (hm : (s.motion d).Moves c c') (m : V3 ℚ) :
    offsetIn d c' (s.point m) = s.point (offsetIn d c m) := by
  have e : ∀ (c : Cell) (m : V3 ℚ) i, coord (axes3 (offsetIn d c m)) i = (coord (axes3 m) i + 1) * 2 ^ d / 2 - ((coord (cellAxes c) i : Nat) + 1 / 2) := by
    intro c m i
    fin_cases i <;> rfl
  obtain ⟨-, hm⟩ := moves_axes.1 hm
  refine axes3_ext fun i => ?_
  have h1 := congrArg (Int.cast : Int → ℚ) (hm i)
  rw [e, coord_point, coord_point, e]
  split at h1
  · rename_i hr
    rw [if_pos hr, if_pos hr]
    push_cast at h1
    rw [h1]
    ring
  · rename_i hr
    rw [if_neg hr, if_neg hr]
    push_cast at h1
    rw [h1]

theorem dot_turn (s : Symmetry) (a b : V3 ℚ) : (s.point a).x * (s.point b).x + (s.point a).y * (s.point b).y + (s.point a).z * (s.point b).z =
    a.x * b.x + a.y * b.y + a.z * b.z := by
  have e : ∀ a b : V3 ℚ, a.x * b.x + a.y * b.y + a.z * b.z = ∑ i, coord (axes3 a) i * coord (axes3 b) i := by
    intro a b
    rw [Fin.sum_univ_three]
    rfl
  rw [e, e, ← Equiv.sum_comp s.source fun i => coord (axes3 a) i * coord (axes3 b) i]
  refine Finset.sum_congr rfl fun i _ => ?_
  rw [coord_point, coord_point]
  split <;> ring

/-- **C155** the input features of a turned cloud: the row of the turned leaf is computed from the turned mean point, the turned normal and the same
features; the offset from the centre of the leaf is turned. -/
theorem C155_input {k : Nat} (nrm : V3 ℚ → V3 ℚ) (divF : ℚ → (Fin k → ℚ) → (Fin k → ℚ)) (o : Octree (Fin k → ℚ)) (pc pc' : Points ℚ (Fin k → ℚ) L)
    (samples : List Nat) (h : LegalBuild o pc samples) (s : Symmetry) (ht : TurnedCloud s pc pc') (hoff : ∀ p ∈ pc.points, s.OffFaces o.depth p)
    (hnrm : ∀ v, nrm (s.point v) = s.point (nrm v)) (feature : String)
    (hN : Asks feature 'N' 'n' ∨ Asks feature 'D' 'd' → pc.normals ≠ none) (hF : Asks feature 'F' 'f' → pc.features ≠ none)
    (ha : Asks feature 'N' 'n' ∨ Asks feature 'D' 'd' ∨ Asks feature 'L' 'l' ∨ Asks feature 'P' 'p' ∨ Asks feature 'F' 'f') :
    ∃ o₁ i₁ o₂ i₂ cells ch cells' ch' row row', Octree.build nrm divF o pc = .ok (o₁, i₁) ∧ Octree.build nrm divF o pc' = .ok (o₂, i₂) ∧
      CellsOf o.batchSize o.depth o₁.keys cells ∧ o₁.children o.depth = some ch ∧
      CellsOf o.batchSize o.depth o₂.keys cells' ∧ o₂.children o.depth = some ch' ∧
      o₁.inputFeature feature true = .ok ((nonEmpty cells ch).map row) ∧ o₂.inputFeature feature true = .ok ((nonEmpty cells' ch').map row') ∧
      o₁.inputFeature feature false = .ok ((cells.zip ch).map fun p => if 0 ≤ p.2 then row p.1 else (row p.1).map fun _ => 0) ∧
      o₂.inputFeature feature false = .ok ((cells'.zip ch').map fun p => if 0 ≤ p.2 then row' p.1 else (row' p.1).map fun _ => 0) ∧
      ∀ c ∈ nonEmpty cells ch, ∀ c' ∈ nonEmpty cells' ch', (s.motion o.depth).Moves c c' →
        let mean := meanPoint o.depth c pc.points samples
        let normal := nrm (sumIn o.depth c (pc.points.zip samples) (pc.normals.getD []))
        let f := divF (countIn o.depth c (pc.points.zip samples)) (sumIn o.depth c (pc.points.zip samples) (pc.features.getD []))
        row c = channels feature o.depth c mean normal f ∧ row' c' = channels feature o.depth c' (s.point mean) (s.point normal) f ∧
        offsetIn o.depth c' (s.point mean) = s.point (offsetIn o.depth c mean) := by
  have h' := turned_legal h ht hoff
  obtain ⟨o₁, i₁, cells, ch, row, b1, c1, c2, c3, c4, c5⟩ := C73_input_feature nrm divF o pc samples h feature hN hF ha
  obtain ⟨o₂, i₂, cells', ch', row', b2, c1', c2', c3', c4', c5'⟩ := C73_input_feature nrm divF o pc' samples h' feature
    (by rw [ht.normals]; simpa using hN) (by rw [ht.features]; exact hF) ha
  refine ⟨o₁, i₁, o₂, i₂, cells, ch, cells', ch', row, row', b1, b2, c1, c2, c1', c2', c3, c3', c4, c4', ?_⟩
  intro c hc c' hc' hm
  refine ⟨(c5 c hc).1, ?_, offsetIn_turn hm _⟩
  have en : pc'.normals.getD [] = (pc.normals.getD []).map s.point := by
    rw [ht.normals]
    cases pc.normals <;> rfl
  rw [(c5' c' hc').1, ht.points, ht.features, en, sumIn_turn hm _ _ hoff, sumIn_turn hm _ _ hoff, countIn_turn hm _ _ hoff, meanPoint_turn hm _ _ hoff,
    sumIn_point, hnrm]

/-- What the octrees of the two clouds look like to a network. -/
theorem turned_pair {k : Nat} (nrm : V3 ℚ → V3 ℚ) (divF : ℚ → (Fin k → ℚ) → (Fin k → ℚ)) (o : Octree (Fin k → ℚ))
    (pc pc' : Points ℚ (Fin k → ℚ) L) (samples : List Nat) (h : LegalBuild o pc samples) (hf : 1 ≤ o.fullDepth) (s : Symmetry)
    (hs : TurnedCloud s pc pc') (hoff : ∀ p ∈ pc.points, s.OffFaces o.depth p) (hnrm : ∀ v, nrm (s.point v) = s.point (nrm v)) (feature : String)
    (hN : Asks feature 'D' 'd' → pc.normals ≠ none) (hF : Asks feature 'F' 'f' → pc.features ≠ none)
    (hP : ¬ Asks feature 'N' 'n' ∧ ¬ Asks feature 'L' 'l' ∧ ¬ Asks feature 'P' 'p')
    (ha : Asks feature 'D' 'd' ∨ Asks feature 'F' 'f') (nempty : Bool) (cin : Nat) :
    ∃ o₁ i₁ t₁ x₁ o₂ i₂ t₂ x₂ cells ch cells' ch', Octree.build nrm divF o pc = .ok (o₁, i₁) ∧ o₁.constructAllNeigh = .ok t₁ ∧
      t₁.inputFeature feature nempty = .ok x₁ ∧ Octree.build nrm divF o pc' = .ok (o₂, i₂) ∧ o₂.constructAllNeigh = .ok t₂ ∧
      t₂.inputFeature feature nempty = .ok x₂ ∧ t₁.batchSize = o.batchSize ∧ TurnedPair t₁ t₂ s o.depth ∧
      CellsOf t₁.batchSize o.depth t₁.keys cells ∧ t₁.children o.depth = some ch ∧
      CellsOf t₂.batchSize o.depth t₂.keys cells' ∧ t₂.children o.depth = some ch' ∧
      Moved (s.motion o.depth) (queried nempty cells ch) (x₁.map (asVector cin)) (queried nempty cells' ch') (x₂.map (asVector cin)) := by
  have h' := turned_legal h hs hoff
  obtain ⟨o₁, i₁, nb₁, b1, n1, N1⟩ := C28_partial nrm divF o pc samples h hf
  obtain ⟨o₂, i₂, nb₂, b2, n2, N2⟩ := C28_partial nrm divF o pc' samples h' hf
  obtain ⟨_, _, b1', d1, f1, B1, w1, -⟩ := C07_build nrm divF o pc samples h
  obtain ⟨_, _, b2', d2, f2, B2, w2, -⟩ := C07_build nrm divF o pc' samples h'
  rw [b1] at b1'; cases b1'
  rw [b2] at b2'; cases b2'
  obtain ⟨_, _, _, _, b1', b2', hmv⟩ := C155_points nrm divF o pc pc' samples h s hs hoff
  rw [b1] at b1'; cases b1'
  rw [b2] at b2'; cases b2'
  obtain ⟨_, _, _, _, cells, ch, cells', ch', row, row', b1', b2', c1, c2, c1', c2', c3, c3', c4, c4', c5⟩ :=
    C155_input nrm divF o pc pc' samples h s hs hoff hnrm feature (fun e => hN (e.resolve_left hP.1)) hF (by tauto)
  rw [b1] at b1'; cases b1'
  rw [b2] at b2'; cases b2'
  have h16 := h.depth
  have v1 : ({ o₁ with neighs := nb₁ } : Octree (Fin k → ℚ)).Valid o.depth := ⟨w1.depth_le, w1.h_le, w1.full_le, w1.batch_le, w1.wf⟩
  have v2 : ({ o₂ with neighs := nb₂ } : Octree (Fin k → ℚ)).Valid o.depth := ⟨w2.depth_le, w2.h_le, w2.full_le, w2.batch_le, w2.wf⟩
  have c1₁ : CellsOf o₁.batchSize o.depth o₁.keys cells := by rw [B1]; exact c1
  have c1₂ : CellsOf o₂.batchSize o.depth o₂.keys cells' := by rw [B2]; exact c1'
  have nd1 : cells.Nodup := nodes_nodup o₁ o.depth w1 o.depth (le_refl _) false 1 _ _ (.one _ _ _ c1₁ c2)
  have nd2 : cells'.Nodup := nodes_nodup o₂ o.depth w2 o.depth (le_refl _) false 1 _ _ (.one _ _ _ c1₂ c2')
  obtain ⟨m2, m1⟩ := hmv o.depth (le_refl _) cells ch cells' ch' c1 c2 c1' c2'
  have hrow : ∀ c ∈ nonEmpty cells ch, ∀ c' ∈ nonEmpty cells' ch', (s.motion o.depth).Moves c c' → row c = row' c' := by
    intro c hc c' hc' hm
    obtain ⟨e1, e2, e3⟩ := c5 c hc c' hc' hm
    rw [e1, e2]
    unfold channels
    simp only [if_neg hP.1, if_neg hP.2.1, if_neg hP.2.2, e3, dot_turn]
  have mp : TurnedPair ({ o₁ with neighs := nb₁ } : Octree (Fin k → ℚ)) { o₂ with neighs := nb₂ } s o.depth := by
    refine ⟨v1, v2, ?_, ?_, B2.trans B1.symm, ?_⟩
    · intro d h1 h2
      show NeighExact o₁.batchSize d o₁.keys nb₁
      rw [B1]; exact N1 d h1 h2
    · intro d h1 h2
      show NeighExact o₂.batchSize d o₂.keys nb₂
      rw [B2]; exact N2 d h1 h2
    · intro d h2 a b a' b' r1 r2 r3 r4
      have r1 : CellsOf o₁.batchSize d o₁.keys a := r1
      have r3 : CellsOf o₂.batchSize d o₂.keys a' := r3
      rw [B1] at r1
      rw [B2] at r3
      exact (hmv d h2 a b a' b' r1 r2 r3 r4).2
  have zp : ∀ (cs : List Cell) (hs : List Int) (R : Cell → List ℚ), cs.Nodup → cs.length = hs.length →
      ((cs.zip hs).map fun p => if 0 ≤ p.2 then R p.1 else (R p.1).map fun _ => 0).map (asVector cin) =
        cs.map fun c => if c ∈ nonEmpty cs hs then asVector cin (R c) else 0 := by
    intro cs hs R hn hl
    have : cs = (cs.zip hs).map Prod.fst := by rw [List.map_fst_zip (by omega)]
    conv_rhs => rw [this, List.map_map]
    rw [List.map_map]
    refine List.map_congr_left fun q hq => ?_
    simp only [Function.comp, ← this]
    by_cases h0 : 0 ≤ q.2
    · rw [if_pos h0, if_pos ((mem_nonEmpty hn q hq).2 h0)]
    · rw [if_neg h0, if_neg (fun hm => h0 ((mem_nonEmpty hn q hq).1 hm))]
      funext i
      unfold asVector
      simp [List.getD_eq_getElem?_getD]
  cases nempty with
  | true =>
    refine ⟨o₁, i₁, _, _, o₂, i₂, _, _, cells, ch, cells', ch', b1, n1, c3, b2, n2, c3', B1, mp, c1₁, c2, c1₂, c2', ?_⟩
    rw [List.map_map, List.map_map]
    exact cellsMoved_map m1 _ _ fun c hc c' hc' hm => by simp only [Function.comp, hrow c hc c' hc' hm]
  | false =>
    refine ⟨o₁, i₁, _, _, o₂, i₂, _, _, cells, ch, cells', ch', b1, n1, c4, b2, n2, c4', B1, mp, c1₁, c2, c1₂, c2', ?_⟩
    have len : ∀ {o' : Octree (Fin k → ℚ)} {cs : List Cell} {hs : List Int}, o'.Valid o.depth → CellsOf o'.batchSize o.depth o'.keys cs →
        o'.children o.depth = some hs → cs.length = hs.length := by
      intro o' cs hs w a b
      have W := w.wf'
      obtain rfl := cells_unique (by omega) a (W.cellsOf _ (le_refl _))
      rw [W.children _ (le_refl _)] at b
      cases b
      rw [number_length, W.len _ (le_refl _)]
    rw [zp _ _ _ nd1 (len w1 c1₁ c2), zp _ _ _ nd2 (len w2 c1₂ c2')]
    refine cellsMoved_map m2 _ _ fun c hc c' hc' hm => ?_
    have hiff : c ∈ nonEmpty cells ch ↔ c' ∈ nonEmpty cells' ch' := by
      have e1 := queried_qc v1 o.depth (le_refl _) true _ _ c1₁ c2
      have e2 := queried_qc v2 o.depth (le_refl _) true _ _ c1₂ c2'
      have e1 : nonEmpty cells ch = _ := e1
      have e2 : nonEmpty cells' ch' = _ := e2
      rw [e1, e2]
      exact mp.back true (le_refl _) hm
    by_cases hcn : c ∈ nonEmpty cells ch
    · rw [if_pos hcn, if_pos (hiff.1 hcn), hrow c hcn c' (hiff.1 hcn) hm]
    · rw [if_neg hcn, if_neg (fun h => hcn (hiff.2 h))]

section clouds
variable {k : Nat} {P' P : Params} (nrm : V3 ℚ → V3 ℚ) (divF : ℚ → (Fin k → ℚ) → (Fin k → ℚ)) (o : Octree (Fin k → ℚ))
  (pc pc' : Points ℚ (Fin k → ℚ) L) (samples : List Nat) (h : LegalBuild o pc samples) (hf : 1 ≤ o.fullDepth) (s : Symmetry)
  (hs : TurnedCloud s pc pc') (hoff : ∀ p ∈ pc.points, s.OffFaces o.depth p) (hnrm : ∀ v, nrm (s.point v) = s.point (nrm v))
  (hP : TurnedParams s P' P) (feature : String)
  (hN : Asks feature 'D' 'd' → pc.normals ≠ none) (hF : Asks feature 'F' 'f' → pc.features ≠ none)
  (hno : ¬ Asks feature 'N' 'n' ∧ ¬ Asks feature 'L' 'l' ∧ ¬ Asks feature 'P' 'p') (ha : Asks feature 'D' 'd' ∨ Asks feature 'F' 'f')
include h hf hs hoff hnrm hP hN hF hno ha

/-- **C155** from point cloud to logits, in evaluation or training mode, for input features that do not depend on directions: the logits of ResNet with
turned kernels for the turned cloud are the logits of ResNet for the cloud. -/
theorem C155_classification (stages num cout : Nat) (hst : 1 ≤ stages) (hnum : 1 ≤ num) (hds : stages ≤ o.depth) (hw : WidthOk (channelCount feature k))
    (nempty : Bool)
    (hn1 : ∀ o₁ i₁ t₁, Octree.build nrm divF o pc = .ok (o₁, i₁) → o₁.constructAllNeigh = .ok t₁ → NotSingle P t₁ nempty (o.depth - stages + 1) o.depth)
    (hB : P.training = true → o.batchSize ≠ 1) :
    ∃ o₁ i₁ t₁ x₁ o₂ i₂ t₂ x₂, Octree.build nrm divF o pc = .ok (o₁, i₁) ∧ o₁.constructAllNeigh = .ok t₁ ∧
      t₁.inputFeature feature nempty = .ok x₁ ∧ Octree.build nrm divF o pc' = .ok (o₂, i₂) ∧ o₂.constructAllNeigh = .ok t₂ ∧
      t₂.inputFeature feature nempty = .ok x₂ ∧
      SameOutput o.batchSize cout
        (resnet P (channelCount feature k) cout num stages nempty t₁ o.depth ⟨_, x₁.map (asVector (channelCount feature k))⟩)
        (resnet P' (channelCount feature k) cout num stages nempty t₂ o.depth ⟨_, x₂.map (asVector (channelCount feature k))⟩) := by
  obtain ⟨o₁, i₁, t₁, x₁, o₂, i₂, t₂, x₂, cells, ch, cells', ch', b1, n1, g1, b2, n2, g2, B1, mp, c1, c2, c3, c4, hM⟩ :=
    turned_pair nrm divF o pc pc' samples h hf s hs hoff hnrm feature hN hF hno ha nempty (channelCount feature k)
  have := C155_resnet mp hP o.depth stages num hst hnum hds (le_refl _) _ cout hw nempty (hn1 _ _ _ b1 n1) (by rw [B1]; exact hB)
    cells cells' ch ch' c1 c2 c3 c4 _ _ hM
  rw [B1] at this
  exact ⟨o₁, i₁, t₁, x₁, o₂, i₂, t₂, x₂, b1, n1, g1, b2, n2, g2, this⟩

/-- **C155** from point cloud to the predictions for its points, in evaluation or training mode: UNet with turned kernels, queried at the points of the
turned cloud, gives every point the prediction of the original point. -/
theorem C155_segmentation (cfg : UNetConfig) (hcfg : cfg.Ok) (cout : Nat) (hds : cfg.encoderBlocks.length < o.depth) (hw : WidthOk (channelCount feature k))
    (nempty : Bool) (method : String)
    (hn1 : ∀ o₁ i₁ t₁, Octree.build nrm divF o pc = .ok (o₁, i₁) → o₁.constructAllNeigh = .ok t₁ → NotSingle P t₁ nempty (o.depth - cfg.encoderBlocks.length) o.depth)
    (hq : P.training = true → pc.points.length ≠ 1) :
    ∃ o₁ i₁ t₁ x₁ o₂ i₂ t₂ x₂, Octree.build nrm divF o pc = .ok (o₁, i₁) ∧ o₁.constructAllNeigh = .ok t₁ ∧
      t₁.inputFeature feature nempty = .ok x₁ ∧ Octree.build nrm divF o pc' = .ok (o₂, i₂) ∧ o₂.constructAllNeigh = .ok t₂ ∧
      t₂.inputFeature feature nempty = .ok x₂ ∧
      SameOutput pc.points.length cout
        (unet P cfg (channelCount feature k) cout method nempty t₁ o.depth ((pc.points.zip samples).map row4) ⟨_, x₁.map (asVector (channelCount feature k))⟩)
        (unet P' cfg (channelCount feature k) cout method nempty t₂ o.depth ((pc'.points.zip samples).map row4) ⟨_, x₂.map (asVector (channelCount feature k))⟩) := by
  obtain ⟨o₁, i₁, t₁, x₁, o₂, i₂, t₂, x₂, cells, ch, cells', ch', b1, n1, g1, b2, n2, g2, B1, mp, c1, c2, c3, c4, hM⟩ :=
    turned_pair nrm divF o pc pc' samples h hf s hs hoff hnrm feature hN hF hno ha nempty (channelCount feature k)
  refine ⟨o₁, i₁, t₁, x₁, o₂, i₂, t₂, x₂, b1, n1, g1, b2, n2, g2, ?_⟩
  have hl : (pc.points.zip samples).length = pc.points.length := by rw [List.length_zip, h.cloud.length, min_self]
  have := C155_unet mp hP cfg hcfg o.depth hds (le_refl _) _ cout hw nempty method (hn1 _ _ _ b1 n1) (pc.points.zip samples) (by rw [hl]; exact hq) ?_ ?_
    cells cells' ch ch' c1 c2 c3 c4 _ _ hM
  · rw [hs.points, List.zip_map_left]
    rw [hl] at this
    exact this
  · intro q hq
    rw [B1]
    exact h.cloud.lt _ (List.of_mem_zip hq).2
  · intro _ q hq
    have hq1 := (List.of_mem_zip hq).1
    exact ⟨h.inCube _ hq1, hoff _ hq1⟩

end clouds

/-! ### the hypotheses can be met -/

/-- A quarter turn about the third axis. -/
def quarterTurn : Symmetry := ⟨Equiv.swap 0 1, fun i => i = 0⟩

theorem quarterTurn_point (p : V3 ℚ) : quarterTurn.point p = ⟨-p.y, p.x, p.z⟩ := rfl

/-- The turned cloud of `cloudT 0`. -/
def turnedT : Points ℚ (Fin 1 → ℚ) Unit := ⟨[⟨-1 / 3, -1 / 2, 0⟩, ⟨1 / 3, -1 / 4, 2 / 3⟩], some [⟨0, 1, 0⟩, ⟨-1, 0, 0⟩], none, none, none, 1, none, 0⟩

theorem turnedT_turned : TurnedCloud quarterTurn (cloudT 0) turnedT := by
  refine ⟨?_, ?_, rfl, rfl, rfl⟩ <;> simp [turnedT, cloudT, quarterTurn_point] <;> norm_num

theorem turnedT_off (D : Nat) (hD : D ≤ 16) : ∀ p ∈ (cloudT 0).points, quarterTurn.OffFaces D p := by
  have key : ∀ v : ℚ, (v = 1 / 3 ∨ v = -1 / 3) → ∀ k : Int, v ≠ -1 + k * (2 / 2 ^ D) := by
    intro v hv k
    refine offGrid_le hD (fun k => ?_) k
    intro e
    rcases hv with rfl | rfl
    · have : (k : ℚ) * 3 = 2 ^ 17 := by field_simp at e; linarith
      have : k * 3 = 2 ^ 17 := by exact_mod_cast this
      omega
    · have : (k : ℚ) * 3 = 2 ^ 16 := by field_simp at e; linarith
      have : k * 3 = 2 ^ 16 := by exact_mod_cast this
      omega
  intro p hp i hi
  have hi : i = 0 := by simpa [quarterTurn] using hi
  subst hi
  simp only [cloudT, List.mem_cons, List.not_mem_nil, or_false] at hp
  rcases hp with rfl | rfl
  · exact key _ (.inl rfl)
  · exact key _ (.inr rfl)

/-- All parameters have turned parameters, and a cloud and the cloud turned by a quarter meet the hypotheses for both networks. -/
example (P : Params) (hT : P.training = false) : ∃ P', TurnedParams quarterTurn P' P ∧ (∃ o₁ i₁ t₁ x₁ o₂ i₂ t₂ x₂,
      Octree.build id (fun c v i => v i / c) (Octree.new 6 1 1 0) (cloudT 0) = .ok (o₁, i₁) ∧ o₁.constructAllNeigh = .ok t₁ ∧
      t₁.inputFeature "D" true = .ok x₁ ∧ Octree.build id (fun c v i => v i / c) (Octree.new 6 1 1 0) turnedT = .ok (o₂, i₂) ∧
      o₂.constructAllNeigh = .ok t₂ ∧ t₂.inputFeature "D" true = .ok x₂ ∧
      SameOutput 1 40 (resnet P 1 40 2 4 true t₁ 6 ⟨1, x₁.map (asVector 1)⟩) (resnet P' 1 40 2 4 true t₂ 6 ⟨1, x₂.map (asVector 1)⟩)) ∧
    (∃ o₁ i₁ t₁ x₁ o₂ i₂ t₂ x₂,
      Octree.build id (fun c v i => v i / c) (Octree.new 6 1 1 0) (cloudT 0) = .ok (o₁, i₁) ∧ o₁.constructAllNeigh = .ok t₁ ∧
      t₁.inputFeature "D" false = .ok x₁ ∧ Octree.build id (fun c v i => v i / c) (Octree.new 6 1 1 0) turnedT = .ok (o₂, i₂) ∧
      o₂.constructAllNeigh = .ok t₂ ∧ t₂.inputFeature "D" false = .ok x₂ ∧
      SameOutput 2 10 (unet P unetConfig 1 10 "nearest" false t₁ 6 (((cloudT 0).points.zip [0, 0]).map row4) ⟨1, x₁.map (asVector 1)⟩)
        (unet P' unetConfig 1 10 "nearest" false t₂ 6 ((turnedT.points.zip [0, 0]).map row4) ⟨1, x₂.map (asVector 1)⟩)) := by
  obtain ⟨P', hP⟩ := turned_exists quarterTurn P
  have hcc : channelCount "D" 1 = 1 := by decide +kernel
  have hN : ¬ P.training = true := by simp [hT]
  refine ⟨P', hP, ?_, ?_⟩
  · have := C155_classification id (fun c v i => v i / c) (Octree.new 6 1 1 0) (cloudT 0) turnedT [0, 0] (cloudT_legal 0 (.inl rfl) 6 (by decide))
      (by simp [Octree.new]) quarterTurn turnedT_turned (turnedT_off 6 (by decide)) (fun _ => rfl) hP "D" (fun _ => by simp [cloudT])
      (fun h => absurd h (by decide +kernel)) (by decide +kernel) (by decide +kernel) 4 2 40 (by decide) (by decide) (by decide)
      (by rw [hcc]; unfold WidthOk; decide) true (fun _ _ _ _ _ h => absurd h hN) (fun h => absurd h hN)
    rw [hcc] at this
    exact this
  · have := C155_segmentation id (fun c v i => v i / c) (Octree.new 6 1 1 0) (cloudT 0) turnedT [0, 0] (cloudT_legal 0 (.inl rfl) 6 (by decide))
      (by simp [Octree.new]) quarterTurn turnedT_turned (turnedT_off 6 (by decide)) (fun _ => rfl) hP "D" (fun _ => by simp [cloudT])
      (fun h => absurd h (by decide +kernel)) (by decide +kernel) (by decide +kernel) unetConfig unetConfig_ok 10 (by decide)
      (by rw [hcc]; unfold WidthOk; decide) false "nearest" (fun _ _ _ _ _ h => absurd h hN) (fun h => absurd h hN)
    rw [hcc] at this
    exact this

end Ocnn
