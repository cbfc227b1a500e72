import Verif.OctreeIO
import Verif.PropsBuild
import Verif.PropsQuery
import Verif.PropsConv

/-! # C68, C70, C73: input features, conversion to points, moving to another device -/

namespace Ocnn
open Spec

variable {F L : Type} {k : Nat}

/-! ## specification -/

namespace Spec

/-- The feature string asks for a letter, in upper or lower case. -/
def Asks (feature : String) (up low : Char) : Prop := up ∈ feature.toList ∨ low ∈ feature.toList

instance (feature : String) (up low : Char) : Decidable (Asks feature up low) := by unfold Asks; infer_instance

/-- The mean of the points in a cell. -/
def meanPoint (d : Nat) (c : Cell) (points : List (V3 ℚ)) (samples : List Nat) : V3 ℚ :=
  (sumIn d c (points.zip samples) points).map (· / (countIn d c (points.zip samples) : ℚ))

/-- The offset of a point from the centre of a cell, in units of the side of the cell. -/
def offsetIn (d : Nat) (c : Cell) (p : V3 ℚ) : V3 ℚ :=
  ⟨(p.x + 1) * 2 ^ d / 2 - (c.x + 1 / 2), (p.y + 1) * 2 ^ d / 2 - (c.y + 1 / 2), (p.z + 1) * 2 ^ d / 2 - (c.z + 1 / 2)⟩

/-- The documented channels, in the documented order: normal, displacement, local coordinates, global coordinates,
other features. -/
def channels (feature : String) (d : Nat) (c : Cell) (mean normal : V3 ℚ) (f : Fin k → ℚ) : List ℚ :=
  let l := offsetIn d c mean
  (if Asks feature 'N' 'n' then [normal.x, normal.y, normal.z] else []) ++
  (if Asks feature 'D' 'd' then [l.x * normal.x + l.y * normal.y + l.z * normal.z] else []) ++
  (if Asks feature 'L' 'l' then [l.x, l.y, l.z] else []) ++
  (if Asks feature 'P' 'p' then [mean.x, mean.y, mean.z] else []) ++
  (if Asks feature 'F' 'f' then List.ofFn f else [])

end Spec

/-! ## lemmas -/

theorem toUpper_eq (c up low : Char) (hu : 65 ≤ up.toNat ∧ up.toNat ≤ 90) (hlo : low.toNat = up.toNat + 32) :
    c.toUpper = up ↔ c = up ∨ c = low := by
  have e : ∀ a b : Char, a = b ↔ a.toNat = b.toNat := fun a b => ⟨fun h => h ▸ rfl, fun h => Char.ext (UInt32.toNat_inj.mp h)⟩
  rw [e, e, e, hlo]
  have h1 : ('a'.val).toNat = 97 := rfl
  have h2 : ('z'.val).toNat = 122 := rfl
  have h3 : ('A'.val - 'a'.val).toNat = 4294967264 := rfl
  unfold Char.toUpper
  split
  · rename_i h
    have h' := h
    rw [UInt32.le_iff_toNat_le, UInt32.le_iff_toNat_le, h1, h2] at h'
    simp only [Char.toNat, UInt32.toNat_add, h3] at *
    omega
  · rename_i h
    rw [UInt32.le_iff_toNat_le, UInt32.le_iff_toNat_le, h1, h2] at h
    simp only [Char.toNat] at *
    omega

theorem wants_iff (feature : String) (up low : Char) (hu : 65 ≤ up.toNat ∧ up.toNat ≤ 90)
    (hlo : low.toNat = up.toNat + 32) : wants feature up = decide (Asks feature up low) := by
  unfold wants
  rw [Bool.eq_iff_iff, decide_eq_true_iff]
  unfold Asks
  simp only [List.contains_iff_mem, List.mem_map]
  constructor
  · rintro ⟨c, hc, e⟩
    rcases (toUpper_eq c up low hu hlo).mp e with rfl | rfl
    · exact .inl hc
    · exact .inr hc
  · rintro (hc | hc)
    · exact ⟨_, hc, (toUpper_eq _ up low hu hlo).mpr (.inl rfl)⟩
    · exact ⟨_, hc, (toUpper_eq _ up low hu hlo).mpr (.inr rfl)⟩

theorem foldlM_catCols {α K : Type} (ne : List α) (g : α → List K) (gs : List (α → List K)) :
    (gs.map fun g => ne.map g).foldlM catCols2 (ne.map g) =
      .ok (ne.map fun c => g c ++ (gs.map fun g => g c).flatten) := by
  induction gs generalizing g with
  | nil => simp [pure, Except.pure]
  | cons g' gs ih =>
    rw [List.map_cons, List.foldlM_cons]
    have e : catCols2 (ne.map g) (ne.map g') = .ok (ne.map fun c => g c ++ g' c) := by
      unfold catCols2
      rw [if_pos (by simp)]
      congr 1
      rw [List.zipWith_map, List.zipWith_self]
    rw [e]
    show (gs.map fun g => ne.map g).foldlM catCols2 (ne.map fun c => g c ++ g' c) = _
    rw [ih]
    simp

theorem catCols_map {α K : Type} (ne : List α) (gs : List (α → List K)) (h : gs ≠ []) :
    catCols (gs.map fun g => some (ne.map g)) = .ok (ne.map fun c => (gs.map fun g => g c).flatten) := by
  unfold catCols
  have e : (gs.map fun g => some (ne.map g)).mapM need = (.ok (gs.map fun g => ne.map g) : M (List (List (List K)))) := by
    rw [List.mapM_map]
    exact mapM_ok _ _ _ fun g _ => rfl
  rw [e]
  cases gs with
  | nil => exact absurd rfl h
  | cons g gs =>
    simp only [bind, Except.bind, List.map_cons]
    rw [foldlM_catCols]
    simp

theorem frac_cell (n : Nat) (q : ℚ) (h : (n : ℚ) ≤ q ∧ q < n + 1) : frac q = q - n := by
  have h0 : 0 ≤ q := le_trans (Nat.cast_nonneg n) h.1
  unfold frac
  rw [long_eq q h0, (Nat.floor_eq_iff h0).mpr h]
  simp

theorem pad_rows {α V : Type} (ms : List Bool) (cells : List α) (n : Nat) (row : α → V) (z : V)
    (hl : ms.length = cells.length) :
    maskFill ms (List.replicate ms.length z) ((maskSel ms cells).map row) =
      (cells.zip (number n ms)).map fun p => if 0 ≤ p.2 then row p.1 else z := by
  induction ms generalizing cells n with
  | nil => cases cells <;> simp_all [maskFill, number]
  | cons m ms ih =>
    cases cells with
    | nil => simp at hl
    | cons c cells =>
      have ih' := fun n => ih cells n (by simpa using hl)
      cases m
      · simp only [maskSel, List.length_cons, List.replicate_succ, maskFill, number, List.zip_cons_cons, List.map_cons]
        rw [ih' n]
        simp
      · simp only [maskSel, List.length_cons, List.replicate_succ, maskFill, number, List.zip_cons_cons, List.map_cons]
        rw [ih' (n + 1)]
        simp

theorem sum_affine (l : List ℚ) (d : Nat) :
    (l.map fun v => (v + 1) * 2 ^ d / 2).sum = (l.sum + l.length) * 2 ^ d / 2 := by
  induction l with
  | nil => simp
  | cons a l ih => rw [List.map_cons, List.sum_cons, ih, List.sum_cons, List.length_cons]; push_cast; ring

/-- the mean position in cell units is the position of the mean -/
theorem mean_gridPos (D : Nat) (c : Cell) (points : List (V3 ℚ)) (samples : List Nat)
    (hl : samples.length = points.length) (hpos : 0 < countIn D c (points.zip samples)) :
    (sumIn D c (points.zip samples) (points.map (gridPos D))).map (· / (countIn D c (points.zip samples) : ℚ)) =
      gridPos D (meanPoint D c points samples) := by
  have hcount : countIn D c (points.zip samples) = ((points.zip samples).filter (belongs D c)).length := by
    unfold countIn; rw [List.countP_eq_length_filter]
  have hs : ∀ g : V3 ℚ → V3 ℚ, sumIn D c (points.zip samples) (points.map g) =
      (((points.zip samples).filter (belongs D c)).map fun e => g e.1).sum := by
    intro g
    unfold sumIn; rw [filter_zip_self D c points samples hl]
  have hs' := hs id
  rw [List.map_id] at hs'
  unfold meanPoint
  rw [hs, hs', hcount]
  rw [hcount] at hpos
  generalize (points.zip samples).filter (belongs D c) = es at hpos
  have hn : (es.length : ℚ) ≠ 0 := by exact_mod_cast hpos.ne'
  have key : ∀ g : V3 ℚ → ℚ, (es.map fun e => (g e.1 + 1) * 2 ^ D / 2).sum / (es.length : ℚ) =
      ((es.map fun e => g e.1).sum / (es.length : ℚ) + 1) * 2 ^ D / 2 := by
    intro g
    have := sum_affine (es.map fun e => g e.1) D
    rw [List.map_map, List.length_map] at this
    have e : (es.map fun e => (g e.1 + 1) * 2 ^ D / 2) = es.map ((fun v => (v + 1) * 2 ^ D / 2) ∘ fun e => g e.1) := rfl
    rw [e, this]
    field_simp
  unfold gridPos
  ext
  · simp only [V3.map, sum_x, List.map_map]
    exact key V3.x
  · simp only [V3.map, sum_y, List.map_map]
    exact key V3.y
  · simp only [V3.map, sum_z, List.map_map]
    exact key V3.z

theorem scaleOf_gridPos (o : Octree F) (v : ℚ) : (v + 1) * 2 ^ o.depth / 2 * o.scaleOf - 1 = v := by
  unfold Octree.scaleOf
  rw [zpow_sub₀ (by norm_num), zpow_one, zpow_natCast]
  have : (2 : ℚ) ^ o.depth ≠ 0 := by positivity
  field_simp
  ring

/-- the columns of an octree whose signals are given per cell -/
theorem input_rows (o : Octree (Fin k → ℚ)) (feature : String) (ne : List Cell) (mean normal : Cell → V3 ℚ)
    (f : Cell → Fin k → ℚ)
    (hp : o.points o.depth = some (ne.map fun c => gridPos o.depth (mean c)))
    (hc : ∀ c ∈ ne, CubeContains o.depth c (mean c))
    (hn : Asks feature 'N' 'n' ∨ Asks feature 'D' 'd' → o.normals o.depth = some (ne.map normal))
    (hf : Asks feature 'F' 'f' → o.features o.depth = some (ne.map f))
    (ha : Asks feature 'N' 'n' ∨ Asks feature 'D' 'd' ∨ Asks feature 'L' 'l' ∨ Asks feature 'P' 'p' ∨
      Asks feature 'F' 'f') :
    o.inputFeature feature true = .ok (ne.map fun c => channels feature o.depth c (mean c) (normal c) (f c)) := by
  have hloc : o.localPoints = .ok (ne.map fun c => offsetIn o.depth c (mean c)) := by
    unfold Octree.localPoints
    rw [hp]
    simp only [need, bind, Except.bind, pure, Except.pure, List.map_map]
    congr 1
    refine List.map_congr_left fun c h => ?_
    obtain ⟨h1, h2, h3⟩ := hc c h
    rw [sideContains_grid] at h1 h2 h3
    simp only [Function.comp, V3.map, gridPos, offsetIn, frac_cell _ _ h1, frac_cell _ _ h2, frac_cell _ _ h3]
    ext <;> simp only [] <;> ring
  have hglob : o.globalPoints = .ok (ne.map mean) := by
    unfold Octree.globalPoints
    rw [hp]
    simp only [need, bind, Except.bind, pure, Except.pure, List.map_map]
    congr 1
    refine List.map_congr_left fun c h => ?_
    simp only [Function.comp, V3.map, gridPos, scaleOf_gridPos]
  have hdis : Asks feature 'D' 'd' → o.displacement (ne.map fun c => offsetIn o.depth c (mean c)) =
      .ok (ne.map fun c =>
        let l := offsetIn o.depth c (mean c)
        [l.x * (normal c).x + l.y * (normal c).y + l.z * (normal c).z]) := by
    intro h
    unfold Octree.displacement
    rw [hn (.inr h)]
    simp only [need, bind, Except.bind, List.length_map, if_true]
    rw [List.zipWith_map, List.zipWith_self]
  have eN := wants_iff feature 'N' 'n' (by decide) (by decide)
  have eD := wants_iff feature 'D' 'd' (by decide) (by decide)
  have eL := wants_iff feature 'L' 'l' (by decide) (by decide)
  have eP := wants_iff feature 'P' 'p' (by decide) (by decide)
  have eF := wants_iff feature 'F' 'f' (by decide) (by decide)
  let gN : Cell → List ℚ := fun c => [(normal c).x, (normal c).y, (normal c).z]
  let gD : Cell → List ℚ := fun c =>
    let l := offsetIn o.depth c (mean c)
    [l.x * (normal c).x + l.y * (normal c).y + l.z * (normal c).z]
  let gL : Cell → List ℚ := fun c =>
    let l := offsetIn o.depth c (mean c)
    [l.x, l.y, l.z]
  let gP : Cell → List ℚ := fun c => [(mean c).x, (mean c).y, (mean c).z]
  let gF : Cell → List ℚ := fun c => List.ofFn (f c)
  let one (p : Prop) [Decidable p] (g : Cell → List ℚ) : List (Cell → List ℚ) := if p then [g] else []
  let gs := one (Asks feature 'N' 'n') gN ++ one (Asks feature 'D' 'd') gD ++ one (Asks feature 'L' 'l') gL ++
    one (Asks feature 'P' 'p') gP ++ one (Asks feature 'F' 'f') gF
  have hcol : o.inputColumns feature = .ok (gs.map fun g => some (ne.map g)) := by
    unfold Octree.inputColumns
    rw [eN, eD, eL, eP, eF]
    by_cases aN : Asks feature 'N' 'n' <;> by_cases aD : Asks feature 'D' 'd' <;>
    by_cases aL : Asks feature 'L' 'l' <;> by_cases aP : Asks feature 'P' 'p' <;>
    by_cases aF : Asks feature 'F' 'f' <;>
    simp [aN, aD, aL, aP, aF, gs, one, hloc, hglob, hdis, hn, hf, bind, Except.bind, pure, Except.pure, gN, gD, gL,
      gP, gF, V3.toRow, Function.comp_def]
  have hne : gs ≠ [] := by
    rcases ha with h | h | h | h | h <;> simp [gs, one, h]
  unfold Octree.inputFeature
  rw [hcol]
  simp only [bind, Except.bind]
  rw [catCols_map ne gs hne]
  simp only [if_true, pure, Except.pure]
  congr 1
  refine List.map_congr_left fun c _ => ?_
  have one_flat : ∀ (p : Prop) [Decidable p] (g : Cell → List ℚ),
      ((one p g).map fun g => g c).flatten = if p then g c else [] := by
    intro p _ g
    by_cases h : p <;> simp [one, h]
  simp only [gs, List.map_append, List.flatten_append, one_flat]
  rfl

/-- with `nempty=False` the rows of the empty nodes are 0 -/
theorem input_pad (o : Octree (Fin k → ℚ)) (w : o.Valid o.depth) (feature : String) (cells : List Cell) (ch : List Int)
    (hc : CellsOf o.batchSize o.depth o.keys cells) (hch : o.children o.depth = some ch) (row : Cell → List ℚ)
    (h : o.inputFeature feature true = .ok ((nonEmpty cells ch).map row)) :
    o.inputFeature feature false = .ok ((cells.zip ch).map fun p =>
      if 0 ≤ p.2 then row p.1 else List.replicate (Octree.inputWidth k feature) 0) := by
  have W := w.wf'
  have hd := w.depth_le
  have e := cells_unique (by omega) hc (W.cellsOf _ le_rfl)
  subst e
  rw [W.children _ le_rfl] at hch
  cases hch
  rw [nonEmpty_eq _ _ _ (W.len _ le_rfl)] at h
  have hlen : (maskSel (o.masks o.depth) (layerCells o.batchSize o.masks o.depth)).length = o.nnumNempty o.depth := by
    have := nnumNempty_eq w o.depth le_rfl
    rw [this, maskSel_length _ _ (W.len _ le_rfl)]
  unfold Octree.inputFeature at h ⊢
  cases h1 : o.inputColumns feature with
  | error e => rw [h1] at h; cases h
  | ok ts =>
    rw [h1] at h
    simp only [bind, Except.bind] at h ⊢
    cases h2 : catCols ts with
    | error e => rw [h2] at h; cases h
    | ok out =>
      rw [h2] at h
      simp only [if_true, pure, Except.pure, Except.ok.injEq] at h
      subst h
      simp only [Bool.false_eq_true, if_false]
      rw [pad_ok w o.depth le_rfl _ _ (by rw [List.length_map, hlen]), pad_rows _ _ 0 _ _ (W.len _ le_rfl)]

theorem channels_length (feature : String) (d : Nat) (c : Cell) (mean normal : V3 ℚ) (f : Fin k → ℚ) :
    (channels feature d c mean normal f).length = Octree.inputWidth k feature := by
  unfold channels Octree.inputWidth
  rw [wants_iff feature 'N' 'n' (by decide) (by decide), wants_iff feature 'D' 'd' (by decide) (by decide),
    wants_iff feature 'L' 'l' (by decide) (by decide), wants_iff feature 'P' 'p' (by decide) (by decide),
    wants_iff feature 'F' 'f' (by decide) (by decide)]
  simp only [List.length_append, decide_eq_true_eq]
  congr 1
  · congr 1
    · congr 1
      · congr 1 <;> split <;> rfl
      · split <;> rfl
    · split <;> rfl
  · split <;> simp

theorem cube_mean (D : Nat) (c : Cell) (points : List (V3 ℚ)) (samples : List Nat)
    (hl : samples.length = points.length) (hpos : 0 < countIn D c (points.zip samples)) :
    CubeContains D c (meanPoint D c points samples) := by
  have h := mean_in_cell D c points samples hl hpos
  simp only at h
  rw [mean_gridPos D c points samples hl hpos] at h
  exact ⟨(sideContains_grid _ _ _).mpr h.1, (sideContains_grid _ _ _).mpr h.2.1, (sideContains_grid _ _ _).mpr h.2.2⟩

theorem side_range (d n : Nat) (v : ℚ) (hn : n < 2 ^ d) (h : SideContains d n v) : -1 ≤ v ∧ v < 1 := by
  rw [sideContains_grid] at h
  have hp : (0 : ℚ) < 2 ^ d := by positivity
  have hn' : (n : ℚ) + 1 ≤ 2 ^ d := by exact_mod_cast hn
  have h0 : (0 : ℚ) ≤ n := Nat.cast_nonneg n
  constructor
  · by_contra hv
    have : (v + 1) * 2 ^ d < 0 := mul_neg_of_neg_of_pos (by linarith) hp
    linarith [h.1]
  · by_contra hv
    have : 2 * 2 ^ d ≤ (v + 1) * 2 ^ d := mul_le_mul_of_nonneg_right (by linarith) hp.le
    linarith [h.2]

/-! ## C73 -/

/-- The input features of an octree built from an in-range cloud: for every non-empty finest node one row with the
requested channels in the documented order, computed from the mean of the points in the node, their normalised
normals and mean features; the local coordinates are in `[-1/2, 1/2)`, the global coordinates in `[-1, 1)` and inside
the node; with `nempty=False` there is one row per node and the rows of the empty nodes are 0. -/
theorem C73_input_feature (nrm : V3 ℚ → V3 ℚ) (divF : ℚ → (Fin k → ℚ) → (Fin k → ℚ)) (o : Octree (Fin k → ℚ))
    (pc : Points ℚ (Fin k → ℚ) L) (samples : List Nat) (h : LegalBuild o pc samples) (feature : String)
    (hn : Asks feature 'N' 'n' ∨ Asks feature 'D' 'd' → pc.normals ≠ none)
    (hf : Asks feature 'F' 'f' → pc.features ≠ none)
    (ha : Asks feature 'N' 'n' ∨ Asks feature 'D' 'd' ∨ Asks feature 'L' 'l' ∨ Asks feature 'P' 'p' ∨
      Asks feature 'F' 'f') :
    ∃ o' idx cells ch row, Octree.build nrm divF o pc = .ok (o', idx) ∧
      CellsOf o.batchSize o.depth o'.keys cells ∧ o'.children o.depth = some ch ∧
      o'.inputFeature feature true = .ok ((nonEmpty cells ch).map row) ∧
      o'.inputFeature feature false = .ok ((cells.zip ch).map fun p =>
        if 0 ≤ p.2 then row p.1 else (row p.1).map fun _ => 0) ∧
      ∀ c ∈ nonEmpty cells ch,
        row c = channels feature o.depth c (meanPoint o.depth c pc.points samples)
          (nrm (sumIn o.depth c (pc.points.zip samples) (pc.normals.getD [])))
          (divF (countIn o.depth c (pc.points.zip samples)) (sumIn o.depth c (pc.points.zip samples) (pc.features.getD []))) ∧
        InCube (meanPoint o.depth c pc.points samples) ∧
        CubeContains o.depth c (meanPoint o.depth c pc.points samples) ∧
        (let l := offsetIn o.depth c (meanPoint o.depth c pc.points samples);
          (-1 / 2 ≤ l.x ∧ l.x < 1 / 2) ∧ (-1 / 2 ≤ l.y ∧ l.y < 1 / 2) ∧ (-1 / 2 ≤ l.z ∧ l.z < 1 / 2)) := by
  obtain ⟨o', idx, cells, ch, h1, h2, h3, h4, h5, h6, h7, _⟩ := C11_averages nrm divF o pc samples h
  obtain ⟨o'', idx', g1, g2, g3, g4, g5, _⟩ := C07_build nrm divF o pc samples h
  rw [h1] at g1
  obtain ⟨rfl, rfl⟩ := Prod.mk.inj (Except.ok.inj g1)
  have hcube : ∀ c ∈ nonEmpty cells ch, CubeContains o.depth c (meanPoint o.depth c pc.points samples) :=
    fun c hc => cube_mean _ _ _ _ h.cloud.length (h4 c hc)
  have hrange : ∀ c ∈ nonEmpty cells ch, c.InRange o.batchSize o.depth := by
    intro c hc
    have hv : o'.Valid o'.depth := by rw [g2]; exact g5
    have h2' : CellsOf o'.batchSize o'.depth o'.keys cells := by rw [g4, g2]; exact h2
    have h3' : o'.children o'.depth = some ch := by rw [g2]; exact h3
    have := (C27_xyzb o' o'.depth hv o'.depth le_rfl cells h2' ch h3' true).1 c hc
    rwa [g4, g2] at this
  let row : Cell → List ℚ := fun c => channels feature o.depth c (meanPoint o.depth c pc.points samples)
    (nrm (sumIn o.depth c (pc.points.zip samples) (pc.normals.getD [])))
    (divF (countIn o.depth c (pc.points.zip samples)) (sumIn o.depth c (pc.points.zip samples) (pc.features.getD [])))
  have hrow : o'.inputFeature feature true = .ok ((nonEmpty cells ch).map row) := by
    have := input_rows o' feature (nonEmpty cells ch) (fun c => meanPoint o.depth c pc.points samples)
      (fun c => nrm (sumIn o.depth c (pc.points.zip samples) (pc.normals.getD [])))
      (fun c => divF (countIn o.depth c (pc.points.zip samples))
        (sumIn o.depth c (pc.points.zip samples) (pc.features.getD [])))
      (by
        rw [g2, h5]
        congr 1
        exact List.map_congr_left fun c hc => mean_gridPos _ _ _ _ h.cloud.length (h4 c hc))
      (by rw [g2]; exact hcube)
      (by
        intro hh
        obtain ⟨n, e⟩ := Option.ne_none_iff_exists'.mp (hn hh)
        rw [g2, h7 n e, e]
        rfl)
      (by
        intro hh
        obtain ⟨f, e⟩ := Option.ne_none_iff_exists'.mp (hf hh)
        rw [g2, (h6 f e).1, e]
        rfl)
      ha
    rw [this, g2]
  refine ⟨o', idx, cells, ch, row, h1, h2, h3, hrow, ?_, ?_⟩
  · have := input_pad o' (by rw [g2]; exact g5) feature cells ch (by rw [g4, g2]; exact h2) (by rw [g2]; exact h3) row hrow
    rw [this]
    congr 1
    refine List.map_congr_left fun p _ => ?_
    congr 1
    rw [List.map_const', channels_length]
  · intro c hc
    obtain ⟨r1, r2, r3, r4⟩ := hrange c hc
    obtain ⟨c1, c2, c3⟩ := hcube c hc
    refine ⟨rfl, ⟨side_range _ _ _ r2 c1, side_range _ _ _ r3 c2, side_range _ _ _ r4 c3⟩, ⟨c1, c2, c3⟩, ?_⟩
    rw [sideContains_grid] at c1 c2 c3
    simp only [offsetIn]
    refine ⟨⟨?_, ?_⟩, ⟨?_, ?_⟩, ⟨?_, ?_⟩⟩ <;> linarith [c1.1, c1.2, c2.1, c2.2, c3.1, c3.2]

/-- Without any of the five letters the call raises. -/
theorem C73_no_letter (o : Octree (Fin k → ℚ)) (feature : String) (nempty : Bool)
    (ha : ¬ (Asks feature 'N' 'n' ∨ Asks feature 'D' 'd' ∨ Asks feature 'L' 'l' ∨ Asks feature 'P' 'p' ∨
      Asks feature 'F' 'f')) : o.inputFeature feature nempty = .error .value := by
  push Not at ha
  obtain ⟨a1, a2, a3, a4, a5⟩ := ha
  have hcol : o.inputColumns feature = .ok [] := by
    unfold Octree.inputColumns
    rw [wants_iff feature 'N' 'n' (by decide) (by decide), wants_iff feature 'D' 'd' (by decide) (by decide),
      wants_iff feature 'L' 'l' (by decide) (by decide), wants_iff feature 'P' 'p' (by decide) (by decide),
      wants_iff feature 'F' 'f' (by decide) (by decide)]
    simp [a1, a2, a3, a4, a5, bind, Except.bind, pure, Except.pure]
  unfold Octree.inputFeature
  rw [hcol]
  rfl

/-- A cloud with normals and one feature channel: two points in one finest node of depth 2 and one in another. -/
def cloudN : Points ℚ (Fin 1 → ℚ) Unit :=
  ⟨[⟨1/8, 1/8, 1/8⟩, ⟨3/8, 1/4, 1/8⟩, ⟨-1/2, 1/2, -1/4⟩], some [⟨1, 0, 0⟩, ⟨0, 1, 0⟩, ⟨0, 0, 1⟩],
    some [fun _ => 7, fun _ => 9, fun _ => 4], none, none, 1, none, 0⟩

theorem cloudN_legal (o : Octree (Fin 1 → ℚ)) (hd : o.depth ≤ 16) (hf : o.fullDepth ≤ o.depth) (hb : o.batchSize = 1) :
    LegalBuild o cloudN [0, 0, 0] := by
  refine ⟨hd, hf, by omega, hb.symm, ⟨rfl, by simp [hb], by simp [hb], by simp [cloudN], by simp [cloudN]⟩, ?_⟩
  intro p hp; simp only [cloudN, List.mem_cons, List.not_mem_nil, or_false] at hp
  rcases hp with rfl | rfl | rfl <;> decide +kernel

/-- The hypotheses of `C73_input_feature` hold for this cloud and the string `"NDlpF"`; the first row has 11 channels
and its last four are the mean of the first two points and of their features. -/
example : ∃ o' idx cells ch row,
    Octree.build id (fun c v i => v i / c) (Octree.new 2 1 1 0) cloudN = .ok (o', idx) ∧
    CellsOf 1 2 o'.keys cells ∧ o'.children 2 = some ch ∧
    o'.inputFeature "NDlpF" true = .ok ((nonEmpty cells ch).map row) := by
  obtain ⟨o', idx, cells, ch, row, h1, h2, h3, h4, _⟩ := C73_input_feature id (fun c v i => v i / c)
    (Octree.new 2 1 1 0) cloudN [0, 0, 0]
    (cloudN_legal _ (by simp [Octree.new]) (by simp [Octree.new]) rfl) "NDlpF"
    (fun _ => by simp [cloudN]) (fun _ => by simp [cloudN]) (by decide +kernel)
  exact ⟨o', idx, cells, ch, row, h1, h2, h3, h4⟩

example : ((do
    let r ← Octree.build id (fun c v i => v i / c) (Octree.new 2 1 1 0) cloudN
    r.1.inputFeature "NDlpF" true) : M (List (List ℚ))).toOption =
    some [[0, 0, 1, 0, -1/2, -1/2, 0, -1/2, 1/2, -1/4, 4], [1, 1, 0, -1/8, 0, -1/8, -1/4, 1/4, 3/16, 1/8, 8]] := by
  decide +kernel

/-- `"xyz"` has none of the letters. -/
example (o : Octree (Fin 1 → ℚ)) : o.inputFeature "xyz" false = .error .value :=
  C73_no_letter o "xyz" false (by decide +kernel)

/-! ## C68 -/

theorem init_flat {K F L : Type} (points : List (V3 K)) (normals : Option (List (V3 K))) (features : Option (List F))
    (labels : Option (List L)) (ids : List Int) (B dev : Nat) (p : Points K F L) :
    Points.init points normals features labels (some (.flat ids)) B dev ≠ .ok p := by
  intro h
  unfold Points.init at h
  simp only [bind, Except.bind, pyAssert] at h
  repeat' split at h
  all_goals try cases h
  all_goals (rename_i heq; split at heq <;> cases heq)

/-- `to_points` raises for every octree. -/
theorem C68_violated (o : Octree F) (rescale : Bool) (p : Points ℚ F L) : o.toPoints rescale ≠ .ok p := by
  unfold Octree.toPoints
  cases o.toPointsXyz rescale with
  | error e => simp [bind, Except.bind]
  | ok xb =>
    simp only [bind, Except.bind]
    exact init_flat _ _ _ _ _ _ _ p

/-- What is computed before the constructor raises: for an octree built from an in-range cloud the mean points of the
non-empty finest nodes, in `[-1, 1)` with `rescale=True` and in cell units otherwise, with the samples of the nodes.
Missing: `to_points` returns no point cloud with these points (see `C68_violated`). -/
theorem C68_partial [AddCommMonoid F] (nrm : V3 ℚ → V3 ℚ) (divF : ℚ → F → F) (o : Octree F) (pc : Points ℚ F L)
    (samples : List Nat) (h : LegalBuild o pc samples) :
    ∃ o' idx cells ch, Octree.build nrm divF o pc = .ok (o', idx) ∧
      CellsOf o.batchSize o.depth o'.keys cells ∧ o'.children o.depth = some ch ∧
      o'.toPointsXyz true = .ok ((nonEmpty cells ch).map fun c => meanPoint o.depth c pc.points samples,
        (nonEmpty cells ch).map fun c => (c.b : Int)) ∧
      o'.toPointsXyz false = .ok ((nonEmpty cells ch).map fun c => gridPos o.depth (meanPoint o.depth c pc.points samples),
        (nonEmpty cells ch).map fun c => (c.b : Int)) := by
  obtain ⟨o', idx, cells, ch, h1, h2, h3, h4, h5, _⟩ := C11_averages nrm divF o pc samples h
  obtain ⟨o'', idx', g1, g2, g3, g4, g5, _⟩ := C07_build nrm divF o pc samples h
  rw [h1] at g1
  obtain ⟨rfl, rfl⟩ := Prod.mk.inj (Except.ok.inj g1)
  have hb : o'.batchId o'.depth true = .ok ((nonEmpty cells ch).map Cell.b) :=
    (C27_xyzb o' o'.depth (by rw [g2]; exact g5) o'.depth le_rfl cells (by rw [g4, g2]; exact h2) ch
      (by rw [g2]; exact h3) true).2.2.2.1
  have hp : o'.points o'.depth = some ((nonEmpty cells ch).map fun c =>
      gridPos o.depth (meanPoint o.depth c pc.points samples)) := by
    rw [g2, h5]
    congr 1
    exact List.map_congr_left fun c hc => mean_gridPos _ _ _ _ h.cloud.length (h4 c hc)
  refine ⟨o', idx, cells, ch, h1, h2, h3, ?_, ?_⟩
  · unfold Octree.toPointsXyz
    rw [hb]
    simp only [bind, Except.bind, hp, pure, Except.pure, if_true, List.map_map]
    congr 2
    refine List.map_congr_left fun c _ => ?_
    simp only [Function.comp, V3.map, gridPos, ← g2, scaleOf_gridPos]
  · unfold Octree.toPointsXyz
    rw [hb]
    simp only [bind, Except.bind, hp, pure, Except.pure, Bool.false_eq_true, if_false, List.map_map]
    rfl

/-- The same for octrees without stored points (predicted by a network): the centres of the non-empty finest nodes. -/
theorem C68_centres_partial (o : Octree F) (w : o.Valid o.depth) (hp : o.points o.depth = none) (cells : List Cell)
    (ch : List Int) (hc : CellsOf o.batchSize o.depth o.keys cells) (hch : o.children o.depth = some ch) :
    o.toPointsXyz true = .ok ((nonEmpty cells ch).map fun c =>
        gridPoint o.depth ⟨(c.x : ℚ) + 1 / 2, (c.y : ℚ) + 1 / 2, (c.z : ℚ) + 1 / 2⟩,
      (nonEmpty cells ch).map fun c => (c.b : Int)) := by
  obtain ⟨_, hx, _, hb, _⟩ := C27_xyzb o o.depth w o.depth le_rfl cells hc ch hch true
  unfold Octree.toPointsXyz
  rw [hb]
  simp only [bind, Except.bind, hp, hx, pure, Except.pure, if_true, List.map_map]
  have hs : o.scaleOf = 2 / 2 ^ o.depth := by
    unfold Octree.scaleOf
    rw [zpow_sub₀ (by norm_num), zpow_one, zpow_natCast]
  congr 2
  refine List.map_congr_left fun c _ => ?_
  simp only [Function.comp, V3.map, gridPoint, hs]
  ext <;> simp only [Int.cast_natCast] <;> ring

/-- The cloud above meets the hypotheses of `C68_partial` (`cloudN_legal`); what is computed for it: -/
example : ((do
    let r ← Octree.build id (fun c v i => v i / c) (Octree.new 2 1 1 0) cloudN
    r.1.toPointsXyz true) : M _).toOption = some ([⟨-1/2, 1/2, -1/4⟩, ⟨1/4, 3/16, 1/8⟩], [0, 0]) := by
  decide +kernel

/-- The octree of `example_valid'` without its points meets the hypotheses of `C68_centres_partial`. -/
example : ∃ (o : Octree Unit) (cells : List Cell) (ch : List Int), o.Valid o.depth ∧ o.points o.depth = none ∧
    CellsOf o.batchSize o.depth o.keys cells ∧ o.children o.depth = some ch ∧ (nonEmpty cells ch).length = 2 := by
  obtain ⟨o, h0, h1, h2, h3, h4, h5, h6⟩ := example_valid
  have hc := example_counts
  rw [h0] at hc
  simp only [Except.toOption, Option.map_some, Option.some.injEq, Prod.mk.injEq] at hc
  have W : ({o with points := fun _ => none} : Octree Unit).Valid o.depth :=
    WF.valid (masks := o.masks) ⟨h1.wf'.depth_le, h1.wf'.h_le, h1.wf'.full_le, h1.wf'.batch_le, h1.wf'.len, h1.wf'.full,
      h1.wf'.keys, h1.wf'.children, h1.wf'.nnum, h1.wf'.nnumNempty⟩
  refine ⟨_, _, _, W, rfl, W.wf'.cellsOf o.depth le_rfl, W.wf'.children o.depth le_rfl, ?_⟩
  rw [nonEmpty_eq _ _ _ (W.wf'.len o.depth le_rfl), maskSel_length _ _ (W.wf'.len o.depth le_rfl),
    ← W.wf'.nnumNempty o.depth le_rfl]
  show o.nnumNempty o.depth = 2
  rw [h3]
  exact hc.2.2.2

/-! ## C70 -/

namespace Spec

/-- Two octrees with the same content in all their layers. -/
structure SameContent (o o' : Octree F) : Prop where
  depth : o'.depth = o.depth
  fullDepth : o'.fullDepth = o.fullDepth
  batchSize : o'.batchSize = o.batchSize
  keys : ∀ d ≤ o.depth, o'.keys d = o.keys d
  children : ∀ d ≤ o.depth, o'.children d = o.children d
  neighs : ∀ d ≤ o.depth, o'.neighs d = o.neighs d
  features : ∀ d ≤ o.depth, o'.features d = o.features d
  normals : ∀ d ≤ o.depth, o'.normals d = o.normals d
  points : ∀ d ≤ o.depth, o'.points d = o.points d
  nnum : ∀ d ≤ o.depth, o'.nnum d = o.nnum d
  nnumNempty : ∀ d ≤ o.depth, o'.nnumNempty d = o.nnumNempty d
  batchNnum : ∀ d ≤ o.depth, o'.batchNnum d = o.batchNnum d
  batchNnumNempty : ∀ d ≤ o.depth, o'.batchNnumNempty d = o.batchNnumNempty d

end Spec

/-- Moving an octree keeps its content; on its own device the octree itself is returned. -/
theorem C70_to (o : Octree F) (device : Nat) :
    (o.toDevice device).device = device ∧ SameContent o (o.toDevice device) ∧
    (o.device = device → o.toDevice device = o) := by
  unfold Octree.toDevice
  by_cases h : o.device = device
  · rw [if_pos h]
    exact ⟨h, ⟨rfl, rfl, rfl, fun _ _ => rfl, fun _ _ => rfl, fun _ _ => rfl, fun _ _ => rfl, fun _ _ => rfl,
      fun _ _ => rfl, fun _ _ => rfl, fun _ _ => rfl, fun _ _ => rfl, fun _ _ => rfl⟩, fun _ => rfl⟩
  · rw [if_neg h]
    refine ⟨rfl, ⟨rfl, rfl, rfl, ?_, ?_, ?_, ?_, ?_, ?_, fun _ _ => rfl, fun _ _ => rfl, fun _ _ => rfl, fun _ _ => rfl⟩,
      fun h' => absurd h' h⟩ <;> exact fun d hd => if_pos hd

theorem Spec.SameContent.chk {o o' : Octree F} (s : SameContent o o') (d : Nat) : o'.chk d = o.chk d := by
  unfold Octree.chk
  rw [s.depth]

theorem chk_bind {α : Type} (o : Octree F) (d : Nat) (f g : M α) (h : d ≤ o.depth → f = g) :
    (o.chk d).bind (fun _ => f) = (o.chk d).bind fun _ => g := by
  unfold Octree.chk
  by_cases hd : d ≤ o.depth
  · rw [if_pos hd, h hd]
  · rw [if_neg hd]; rfl

/-- Hence every query gives the same result on the moved octree. -/
theorem C70_queries (o o' : Octree F) (s : SameContent o o') (d : Nat) (nempty : Bool) :
    o'.key d nempty = o.key d nempty ∧ o'.xyzb d nempty = o.xyzb d nempty ∧
    o'.batchId d nempty = o.batchId d nempty ∧ o'.nemptyMask d = o.nemptyMask d ∧
    (∀ q, o'.searchKey q d nempty = o.searchKey q d nempty) ∧
    (∀ q, o'.searchXyzb q d nempty = o.searchXyzb q d nempty) ∧
    (∀ kernel stride, o'.getNeigh d kernel stride nempty = o.getNeigh d kernel stride nempty) := by
  have hm : o'.nemptyMask d = o.nemptyMask d := by
    unfold Octree.nemptyMask
    rw [s.chk]
    exact chk_bind o d _ _ fun hd => by rw [s.children d hd]
  have hk : o'.key d nempty = o.key d nempty := by
    unfold Octree.key
    rw [s.chk, hm]
    exact chk_bind o d _ _ fun hd => by rw [s.keys d hd]
  refine ⟨hk, ?_, ?_, hm, ?_, ?_, ?_⟩
  · unfold Octree.xyzb
    rw [hk]
  · unfold Octree.batchId
    rw [s.chk, hm]
    exact chk_bind o d _ _ fun hd => by rw [s.keys d hd]
  · intro q
    unfold Octree.searchKey
    rw [hk]
  · intro q
    unfold Octree.searchXyzb Octree.searchKey
    rw [hk]
  · intro kernel stride
    by_cases hd : d ≤ o.depth
    · unfold Octree.getNeigh
      rw [s.chk, s.neighs d hd, s.children d hd]
    · have e : ∀ o'' : Octree F, o''.depth = o.depth → o''.getNeigh d kernel stride nempty =
          if stride = 1 ∨ stride = 2 then .error .index else .error .value := by
        intro o'' ho
        have hc : o''.chk d = .error .index := by
          unfold Octree.chk
          rw [if_neg (by rw [ho]; exact hd)]
        unfold Octree.getNeigh
        rw [hc]
        by_cases h1 : stride = 1
        · simp [h1, bind, Except.bind]
        · by_cases h2 : stride = 2
          · simp [h2, bind, Except.bind]
          · simp [h1, h2, bind, Except.bind]
      rw [e o' s.depth, e o rfl]

/-- Well-formedness is kept. -/
theorem C70_valid (o o' : Octree F) (s : SameContent o o') (h : Nat) (w : o.Valid h) : o'.Valid h := by
  have W := w.wf'
  have hh := w.h_le
  refine WF.valid (masks := o.masks) ⟨by rw [s.depth]; exact W.depth_le, by rw [s.depth]; exact W.h_le,
    by rw [s.fullDepth]; exact W.full_le, by rw [s.batchSize]; exact W.batch_le, ?_, ?_, ?_, ?_, ?_, ?_⟩
  · rw [s.batchSize]; exact W.len
  · rw [s.fullDepth]; exact W.full
  · intro d hd
    rw [s.keys d (by omega), s.batchSize]
    exact W.keys d hd
  · intro d hd
    rw [s.children d (by omega)]
    exact W.children d hd
  · intro d hd
    rw [s.nnum d (by omega), s.batchSize]
    exact W.nnum d hd
  · intro d hd
    rw [s.nnumNempty d (by omega)]
    exact W.nnumNempty d hd

/-- A well-formed octree moved to another device. -/
example : ∃ o : Octree Unit, o.Valid 2 ∧ SameContent o (o.toDevice 3) ∧ (o.toDevice 3).Valid 2 := by
  obtain ⟨o, h1, -⟩ := example_valid'
  exact ⟨o, h1, (C70_to o 3).2.1, C70_valid o _ (C70_to o 3).2.1 2 h1⟩

end Ocnn
