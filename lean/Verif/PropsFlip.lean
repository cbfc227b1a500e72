import Verif.PropsSymmetry
import Verif.PropsPoints
import Verif.PoolLemmas
import Verif.PropsDense
import Verif.PropsResolution

/-! Property C129: flipping a point cloud reflects its octree. -/

namespace Ocnn
open Spec

variable {F L : Type}

namespace Spec

/-- Whether the coordinate with letter `a` is reversed by `flip(axis)`. -/
def odd (axis : String) (a : Char) : Bool := decide (axis.toList.count a % 2 = 1)

/-- The cell of level `d` with the reversed coordinates counted from the other end. -/
def reflectCell (axis : String) (d : Nat) (c : Cell) : Cell :=
  ⟨c.b, if odd axis 'x' then 2 ^ d - 1 - c.x else c.x, if odd axis 'y' then 2 ^ d - 1 - c.y else c.y,
    if odd axis 'z' then 2 ^ d - 1 - c.z else c.z⟩

/-- A position in units of cells of level `d`, measured from the other end for the reversed coordinates. -/
def reflectPos (axis : String) (d : Nat) (p : V3 ℚ) : V3 ℚ :=
  ⟨if odd axis 'x' then 2 ^ d - p.x else p.x, if odd axis 'y' then 2 ^ d - p.y else p.y, if odd axis 'z' then 2 ^ d - p.z else p.z⟩

/-- A vector with the reversed components negated. -/
def reflectVec (axis : String) (p : V3 ℚ) : V3 ℚ :=
  ⟨if odd axis 'x' then -p.x else p.x, if odd axis 'y' then -p.y else p.y, if odd axis 'z' then -p.z else p.z⟩

/-- No reversed coordinate of the point lies on a plane between two cells of level `d`. -/
def OffGrid (axis : String) (d : Nat) (p : V3 ℚ) : Prop :=
  (odd axis 'x' → ∀ k : Int, p.x ≠ -1 + k * (2 / 2 ^ d)) ∧ (odd axis 'y' → ∀ k : Int, p.y ≠ -1 + k * (2 / 2 ^ d)) ∧
    (odd axis 'z' → ∀ k : Int, p.z ≠ -1 + k * (2 / 2 ^ d))

end Spec

theorem flipped_reflectVec (axis : String) (v : V3 ℚ) : flipped axis.toList v = reflectVec axis v := by
  have e : ∀ (n : Nat) (q : ℚ), flipSign n * q = if decide (n % 2 = 1) then -q else q := by
    intro n q
    unfold flipSign
    rcases Nat.mod_two_eq_zero_or_one n with h | h
    · rw [Even.neg_one_pow (Nat.even_iff.mpr h)]; simp [h]
    · rw [Odd.neg_one_pow (Nat.odd_iff.mpr h)]; simp [h]
  unfold flipped reflectVec odd
  simp only [e]

theorem offGrid_le {d D : Nat} (h : d ≤ D) {v : ℚ} (hv : ∀ k : Int, v ≠ -1 + k * (2 / 2 ^ D)) (k : Int) : v ≠ -1 + k * (2 / 2 ^ d) := by
  intro e
  apply hv (k * 2 ^ (D - d))
  rw [e]
  have : (2 : ℚ) ^ D = 2 ^ d * 2 ^ (D - d) := by rw [← pow_add]; congr 1; omega
  push_cast
  rw [this]
  field_simp

theorem side_reflect {d n : Nat} (hn : n < 2 ^ d) {v : ℚ} (hv : ∀ k : Int, v ≠ -1 + k * (2 / 2 ^ d)) :
    SideContains d (2 ^ d - 1 - n) (-v) ↔ SideContains d n v := by
  unfold SideContains
  have hp : (0 : ℚ) < 2 ^ d := by positivity
  have e : ((2 ^ d - 1 - n : Nat) : ℚ) = 2 ^ d - 1 - n := by
    rw [Nat.cast_sub (by omega), Nat.cast_sub (by omega)]; push_cast; ring
  rw [e]
  have e2 : (2 : ℚ) ^ d * (2 / 2 ^ d) = 2 := by field_simp
  have h1 := hv n
  have h2 := hv (n + 1)
  push_cast at h1 h2
  constructor
  · rintro ⟨a, b⟩
    refine ⟨by nlinarith, lt_of_le_of_ne (by nlinarith) h2⟩
  · rintro ⟨a, b⟩
    have a' := lt_of_le_of_ne a (Ne.symm h1)
    constructor <;> nlinarith

theorem cube_reflect {axis : String} {B d D : Nat} (h : d ≤ D) {c : Cell} (hc : c.InRange B d) {p : V3 ℚ} (hp : OffGrid axis D p) :
    CubeContains d (reflectCell axis d c) (reflectVec axis p) ↔ CubeContains d c p := by
  obtain ⟨-, c1, c2, c3⟩ := hc
  obtain ⟨p1, p2, p3⟩ := hp
  have key : ∀ (b : Bool) (n : Nat) (v : ℚ), n < 2 ^ d → (b = true → ∀ k : Int, v ≠ -1 + k * (2 / 2 ^ D)) →
      (SideContains d (if b then 2 ^ d - 1 - n else n) (if b then -v else v) ↔ SideContains d n v) := by
    intro b n v hn hv
    cases b
    · simp
    · simpa using side_reflect hn (fun k => offGrid_le h (hv rfl) k)
  unfold CubeContains reflectCell reflectVec
  rw [key _ _ _ c1 p1, key _ _ _ c2 p2, key _ _ _ c3 p3]

theorem reflect_range {axis : String} {B d : Nat} {c : Cell} (hc : c.InRange B d) : (reflectCell axis d c).InRange B d := by
  obtain ⟨c0, c1, c2, c3⟩ := hc
  unfold reflectCell
  refine ⟨c0, ?_, ?_, ?_⟩ <;> dsimp only <;> split <;> omega

theorem reflect_twice {axis : String} {B d : Nat} {c : Cell} (hc : c.InRange B d) : reflectCell axis d (reflectCell axis d c) = c := by
  obtain ⟨c0, c1, c2, c3⟩ := hc
  obtain ⟨b, x, y, z⟩ := c
  simp only [reflectCell, Cell.mk.injEq, true_and] at *
  refine ⟨?_, ?_, ?_⟩ <;> split <;> omega

theorem reflect_parent {axis : String} {B d : Nat} {c : Cell} (hc : c.InRange B (d + 1)) :
    (reflectCell axis (d + 1) c).parent = reflectCell axis d c.parent := by
  obtain ⟨c0, c1, c2, c3⟩ := hc
  rw [pow_succ] at c1 c2 c3
  simp only [reflectCell, Cell.parent, Cell.mk.injEq, true_and, pow_succ]
  refine ⟨?_, ?_, ?_⟩ <;> split <;> omega

theorem perm_reflect {axis : String} {B d : Nat} {l l' : List Cell} (hl : l.Nodup) (hl' : l'.Nodup) (hr : ∀ c ∈ l, c.InRange B d)
    (hr' : ∀ c ∈ l', c.InRange B d) (h : ∀ c : Cell, c.InRange B d → (reflectCell axis d c ∈ l' ↔ c ∈ l)) :
    (l.map (reflectCell axis d)).Perm l' := by
  have hnd : (l.map (reflectCell axis d)).Nodup := by
    apply List.Nodup.map_on _ hl
    intro a ha b hb e
    rw [← reflect_twice (axis := axis) (hr a ha), e, reflect_twice (hr b hb)]
  rw [List.perm_ext_iff_of_nodup hnd hl']
  intro c
  rw [List.mem_map]
  constructor
  · rintro ⟨a, ha, rfl⟩
    exact (h a (hr a ha)).mpr ha
  · intro hc
    have hcr := hr' c hc
    refine ⟨reflectCell axis d c, ?_, reflect_twice hcr⟩
    rw [← h _ (reflect_range hcr), reflect_twice hcr]
    exact hc

/-! ### signals -/

theorem belongs_reflect {axis : String} {B d : Nat} {c : Cell} (hc : c.InRange B d) {p : V3 ℚ} (hp : OffGrid axis d p) (b : Nat) :
    belongs d (reflectCell axis d c) (reflectVec axis p, b) = belongs d c (p, b) := by
  unfold belongs
  rw [decide_eq_decide]
  dsimp only
  rw [cube_reflect (le_refl d) hc hp]
  rfl

theorem sumIn_reflect {axis : String} {B d : Nat} {V : Type} [Add V] [Zero V] {c : Cell} (hc : c.InRange B d) (points : List (V3 ℚ))
    (samples : List Nat) (hp : ∀ p ∈ points, OffGrid axis d p) (vals : List V) :
    sumIn d (reflectCell axis d c) ((points.map (reflectVec axis)).zip samples) vals = sumIn d c (points.zip samples) vals := by
  unfold sumIn
  rw [List.zip_map_left, List.zip_map_left, List.filter_map, List.map_map]
  have e : (points.zip samples |>.zip vals).filter ((fun e : (V3 ℚ × Nat) × V => belongs d (reflectCell axis d c) e.1) ∘ Prod.map (Prod.map (reflectVec axis) id) id)
      = (points.zip samples |>.zip vals).filter fun e => belongs d c e.1 := by
    apply List.filter_congr
    rintro ⟨⟨p, b⟩, v⟩ hm
    have hpm : p ∈ points := (List.of_mem_zip (List.of_mem_zip hm).1).1
    exact belongs_reflect hc (hp p hpm) b
  rw [e]
  rfl

theorem countIn_reflect {axis : String} {B d : Nat} {c : Cell} (hc : c.InRange B d) (points : List (V3 ℚ))
    (samples : List Nat) (hp : ∀ p ∈ points, OffGrid axis d p) :
    countIn d (reflectCell axis d c) ((points.map (reflectVec axis)).zip samples) = countIn d c (points.zip samples) := by
  unfold countIn
  rw [List.zip_map_left, List.countP_map]
  apply List.countP_congr
  rintro ⟨p, b⟩ hm
  have hpm : p ∈ points := (List.of_mem_zip hm).1
  rw [← belongs_reflect hc (hp p hpm) b]
  rfl

theorem reflectVec_sum {axis : String} (l : List (V3 ℚ)) : (l.map (reflectVec axis)).sum = reflectVec axis l.sum := by
  have e : ∀ (b : Bool) (l : List ℚ), (l.map fun q => if b then -q else q).sum = if b then -l.sum else l.sum := by
    intro b l
    cases b
    · simp
    · simp only [if_true]
      induction l with
      | nil => simp
      | cons a l ih => simp only [List.map_cons, List.sum_cons, ih]; ring
  have e1 := e (odd axis 'x') (l.map V3.x)
  have e2 := e (odd axis 'y') (l.map V3.y)
  have e3 := e (odd axis 'z') (l.map V3.z)
  rw [List.map_map] at e1 e2 e3
  ext
  · rw [sum_x, List.map_map]; simpa [reflectVec, sum_x, Function.comp_def] using e1
  · rw [sum_y, List.map_map]; simpa [reflectVec, sum_y, Function.comp_def] using e2
  · rw [sum_z, List.map_map]; simpa [reflectVec, sum_z, Function.comp_def] using e3

/-- the sum of reflected vectors -/
theorem sumIn_vec {axis : String} {d : Nat} {c : Cell} (cloud : List (V3 ℚ × Nat)) (vals : List (V3 ℚ)) :
    sumIn d c cloud (vals.map (reflectVec axis)) = reflectVec axis (sumIn d c cloud vals) := by
  unfold sumIn
  rw [List.zip_map_right, List.filter_map, List.map_map, ← reflectVec_sum, List.map_map]
  rfl

theorem reflectPos_mean {axis : String} {d : Nat} (l : List (V3 ℚ)) (hl : l ≠ []) :
    ((l.map (reflectPos axis d)).sum).map (· / (l.length : ℚ)) = reflectPos axis d (l.sum.map (· / (l.length : ℚ))) := by
  have hn : (l.length : ℚ) ≠ 0 := by
    have := List.length_pos_of_ne_nil hl
    exact_mod_cast this.ne'
  have e : ∀ (b : Bool) (l : List ℚ), (l.length : ℚ) ≠ 0 →
      (l.map fun q => if b then 2 ^ d - q else q).sum / l.length = if b then 2 ^ d - l.sum / l.length else l.sum / l.length := by
    intro b l hl
    cases b
    · simp
    · simp only [if_true]
      have : (l.map fun q => 2 ^ d - q).sum = l.length * 2 ^ d - l.sum := by
        induction l with
        | nil => simp
        | cons a l ih =>
          rcases l with _ | ⟨a', l⟩
          · simp
          · rw [List.map_cons, List.sum_cons, ih (by simp; positivity), List.sum_cons (a := a), List.length_cons (a := a)]
            push_cast
            ring
      rw [this]
      field_simp
  have e1 := e (odd axis 'x') (l.map V3.x) (by simpa using hn)
  have e2 := e (odd axis 'y') (l.map V3.y) (by simpa using hn)
  have e3 := e (odd axis 'z') (l.map V3.z) (by simpa using hn)
  rw [List.map_map, List.length_map] at e1 e2 e3
  ext
  · simp only [V3.map]; rw [sum_x, List.map_map]; simpa [reflectPos, sum_x, Function.comp_def] using e1
  · simp only [V3.map]; rw [sum_y, List.map_map]; simpa [reflectPos, sum_y, Function.comp_def] using e2
  · simp only [V3.map]; rw [sum_z, List.map_map]; simpa [reflectPos, sum_z, Function.comp_def] using e3

theorem mean_reflect {axis : String} {d : Nat} {c : Cell} (cloud : List (V3 ℚ × Nat)) (vals : List (V3 ℚ)) (hl : vals.length = cloud.length)
    (hpos : 0 < countIn d c cloud) :
    (sumIn d c cloud (vals.map (reflectPos axis d))).map (· / (countIn d c cloud : ℚ))
      = reflectPos axis d ((sumIn d c cloud vals).map (· / (countIn d c cloud : ℚ))) := by
  have hlen : (((cloud.zip vals).filter fun e => belongs d c e.1).map Prod.snd).length = countIn d c cloud := by
    rw [List.length_map, ← List.countP_eq_length_filter]
    unfold countIn
    conv_rhs => rw [← List.map_fst_zip (l₁ := cloud) (l₂ := vals) (by omega), List.countP_map]
    rfl
  have := reflectPos_mean (axis := axis) (d := d) (((cloud.zip vals).filter fun e => belongs d c e.1).map Prod.snd)
    (List.ne_nil_of_length_pos (by omega))
  rw [hlen] at this
  rw [← show sumIn d c cloud vals = (((cloud.zip vals).filter fun e => belongs d c e.1).map Prod.snd).sum from rfl] at this
  rw [← this]
  unfold sumIn
  rw [List.zip_map_right, List.filter_map, List.map_map, List.map_map]
  rfl

theorem gridPos_reflect {axis : String} {d : Nat} (p : V3 ℚ) : gridPos d (reflectVec axis p) = reflectPos axis d (gridPos d p) := by
  have e : ∀ (b : Bool) (v : ℚ), ((if b then -v else v) + 1) * 2 ^ d / 2 = if b then 2 ^ d - (v + 1) * 2 ^ d / 2 else (v + 1) * 2 ^ d / 2 := by
    intro b v
    cases b
    · rfl
    · simp only [if_true]; ring
  simp only [gridPos, V3.map, reflectVec, reflectPos, e]

theorem hasVal_map {V : Type} {l : List Cell} {G : Cell → V} {c : Cell} {v : V} : HasVal l (l.map G) c v ↔ c ∈ l ∧ v = G c := by
  constructor
  · rintro ⟨i, h1, h2⟩
    rw [List.getElem?_map, h1] at h2
    exact ⟨List.mem_of_getElem? h1, (Option.some.inj h2).symm⟩
  · rintro ⟨h1, rfl⟩
    obtain ⟨i, hi⟩ := List.getElem?_of_mem h1
    exact ⟨i, hi, by rw [List.getElem?_map, hi]; rfl⟩

theorem flip_legal {o : Octree F} {pc pc' : Points ℚ F L} {samples : List Nat} (h : LegalBuild o pc samples) (axis : String)
    (hp : pc' = { pc with points := pc.points.map (reflectVec axis), normals := pc.normals.map (List.map (reflectVec axis)) })
    (hoff : ∀ p ∈ pc.points, OffGrid axis o.depth p) : LegalBuild o pc' samples := by
  subst hp
  refine ⟨h.depth, h.full, h.batch, h.same_batch, ⟨?_, h.cloud.lt, h.cloud.ids, ?_, ?_⟩, ?_⟩
  · simpa using h.cloud.length
  · intro n hn
    simp only [Option.map_eq_some_iff] at hn
    obtain ⟨m, hm, rfl⟩ := hn
    simpa using h.cloud.normals m hm
  · intro f hf
    simpa using h.cloud.features f hf
  · intro q hq
    simp only [List.mem_map] at hq
    obtain ⟨p, hp, rfl⟩ := hq
    obtain ⟨h1, h2, h3⟩ := h.inCube p hp
    obtain ⟨o1, o2, o3⟩ := hoff p hp
    have key : ∀ (b : Bool) (v : ℚ), (-1 ≤ v ∧ v < 1) → (b = true → ∀ k : Int, v ≠ -1 + k * (2 / 2 ^ o.depth)) →
        -1 ≤ (if b then -v else v) ∧ (if b then -v else v) < 1 := by
      intro b v hv hk
      cases b
      · simpa using hv
      · simp only [if_true]
        have h0 := hk rfl 0
        have : -1 < v := lt_of_le_of_ne hv.1 (by simpa using h0.symm)
        constructor <;> linarith
    exact ⟨key _ _ h1 o1, key _ _ h2 o2, key _ _ h3 o3⟩

/-- C129: flipping a cloud along any axes reflects its octree, if no reversed coordinate lies on a plane between two finest
cells: the nodes of every layer are the reflected nodes, the same for the non-empty nodes; each point is in the
reflected leaf; and the leaves carry the same features, reflected mean positions and reflected normals. -/
theorem C129_flip [AddCommMonoid F] (nrm : V3 ℚ → V3 ℚ) (divF : ℚ → F → F) (o : Octree F) (pc pc' : Points ℚ F L) (samples : List Nat)
    (h : LegalBuild o pc samples) (axis : String) (haxis : ∀ c ∈ axis.toList, c = 'x' ∨ c = 'y' ∨ c = 'z') (hflip : pc.flip axis = .ok pc')
    (hoff : ∀ p ∈ pc.points, OffGrid axis o.depth p) :
    ∃ o₁ i₁ o₂ i₂, Octree.build nrm divF o pc = .ok (o₁, i₁) ∧ Octree.build nrm divF o pc' = .ok (o₂, i₂) ∧
      ∃ (cells cells' : Nat → List Cell) (ch ch' : Nat → List Int),
        (∀ d ≤ o.depth, CellsOf o.batchSize d o₁.keys (cells d) ∧ o₁.children d = some (ch d) ∧
          CellsOf o.batchSize d o₂.keys (cells' d) ∧ o₂.children d = some (ch' d) ∧
          ((cells d).map (reflectCell axis d)).Perm (cells' d) ∧
          ((nonEmpty (cells d) (ch d)).map (reflectCell axis d)).Perm (nonEmpty (cells' d) (ch' d))) ∧
        (∀ (i r : Nat) (c : Cell), i₁[i]? = some r → (nonEmpty (cells o.depth) (ch o.depth))[r]? = some c →
          ∃ r' : Nat, i₂[i]? = some r' ∧ (nonEmpty (cells' o.depth) (ch' o.depth))[r']? = some (reflectCell axis o.depth c)) ∧
        (∃ g g', o₁.points o.depth = some g ∧ o₂.points o.depth = some g' ∧ ∀ c v, HasVal (nonEmpty (cells o.depth) (ch o.depth)) g c v →
          HasVal (nonEmpty (cells' o.depth) (ch' o.depth)) g' (reflectCell axis o.depth c) (reflectPos axis o.depth v)) ∧
        (pc.features.isSome → ∃ g g', o₁.features o.depth = some g ∧ o₂.features o.depth = some g' ∧
          ∀ c v, HasVal (nonEmpty (cells o.depth) (ch o.depth)) g c v →
            HasVal (nonEmpty (cells' o.depth) (ch' o.depth)) g' (reflectCell axis o.depth c) v) ∧
        (pc.normals.isSome → (∀ v, nrm (reflectVec axis v) = reflectVec axis (nrm v)) →
          ∃ g g', o₁.normals o.depth = some g ∧ o₂.normals o.depth = some g' ∧
          ∀ c v, HasVal (nonEmpty (cells o.depth) (ch o.depth)) g c v →
            HasVal (nonEmpty (cells' o.depth) (ch' o.depth)) g' (reflectCell axis o.depth c) (reflectVec axis v)) := by
  have hp : pc' = { pc with points := pc.points.map (reflectVec axis), normals := pc.normals.map (List.map (reflectVec axis)) } := by
    rw [C62_flip pc axis haxis] at hflip
    have e : (flipped axis.toList : V3 ℚ → V3 ℚ) = reflectVec axis := funext (flipped_reflectVec axis)
    rw [e] at hflip
    exact (Except.ok.inj hflip).symm
  have h' := flip_legal h axis hp hoff
  have hpts : pc'.points = pc.points.map (reflectVec axis) := by rw [hp]
  obtain ⟨o₁, i₁, hb₁, h11, h12, h13, w₁, cs, chs, H⟩ := C07_build nrm divF o pc samples h
  obtain ⟨o₂, i₂, hb₂, h21, h22, h23, w₂, cs', chs', H'⟩ := C07_build nrm divF o pc' samples h'
  have h16 := h.depth
  have nd₁ : ∀ d ≤ o.depth, ∀ nempty, (queried nempty (cs d) (chs d)).Nodup := fun d hd nempty =>
    nodes_nodup o₁ o.depth w₁ d hd nempty 1 _ _ (.one d _ _ (h13 ▸ (H d hd).1) (H d hd).2.1)
  have nd₂ : ∀ d ≤ o.depth, ∀ nempty, (queried nempty (cs' d) (chs' d)).Nodup := fun d hd nempty =>
    nodes_nodup o₂ o.depth w₂ d hd nempty 1 _ _ (.one d _ _ (h23 ▸ (H' d hd).1) (H' d hd).2.1)
  have sub₁ : ∀ d ≤ o.depth, ∀ c ∈ nonEmpty (cs d) (chs d), c ∈ cs d := by
    intro d hd c hc
    obtain ⟨-, hne, -⟩ := layer_masks o₁ o.depth w₁ d hd (cs d) (chs d) (h13 ▸ (H d hd).1) (H d hd).2.1
    rw [hne] at hc
    exact (maskSel_sublist _ _).mem hc
  have sub₂ : ∀ d ≤ o.depth, ∀ c ∈ nonEmpty (cs' d) (chs' d), c ∈ cs' d := by
    intro d hd c hc
    obtain ⟨-, hne, -⟩ := layer_masks o₂ o.depth w₂ d hd (cs' d) (chs' d) (h23 ▸ (H' d hd).1) (H' d hd).2.1
    rw [hne] at hc
    exact (maskSel_sublist _ _).mem hc
  have r₁ : ∀ d ≤ o.depth, ∀ c ∈ cs d, c.InRange o.batchSize d := fun d hd => (H d hd).1.1
  have r₂ : ∀ d ≤ o.depth, ∀ c ∈ cs' d, c.InRange o.batchSize d := fun d hd => (H' d hd).1.1
  -- occupied cells
  have occ : ∀ d ≤ o.depth, ∀ c : Cell, c.InRange o.batchSize d →
      (Occupied pc'.points samples d (reflectCell axis d c) ↔ Occupied pc.points samples d c) := by
    intro d hd c hc
    rw [hpts]
    constructor
    · rintro ⟨i, q, e1, e2, e3⟩
      rw [List.getElem?_map, Option.map_eq_some_iff] at e1
      obtain ⟨p, e1, rfl⟩ := e1
      exact ⟨i, p, e1, e2, (cube_reflect hd hc (hoff p (List.mem_of_getElem? e1))).mp e3⟩
    · rintro ⟨i, p, e1, e2, e3⟩
      exact ⟨i, reflectVec axis p, by rw [List.getElem?_map, e1]; rfl, e2, (cube_reflect hd hc (hoff p (List.mem_of_getElem? e1))).mpr e3⟩
  have full₁ : ∀ d < o.fullDepth, ∀ c : Cell, c.InRange o.batchSize d → c ∈ nonEmpty (cs d) (chs d) := by
    intro d hd c hc
    have hf := h.full
    obtain ⟨c0, c1, c2, c3⟩ := hc
    have := ((H d (by omega)).2.2.2.2 (by omega) ⟨c.b, 2 * c.x, 2 * c.y, 2 * c.z⟩).mp
      (((H (d + 1) (by omega)).2.2.2.1 (by omega) _).mpr ⟨c0, by rw [pow_succ]; dsimp only; omega, by rw [pow_succ]; dsimp only; omega,
        by rw [pow_succ]; dsimp only; omega⟩)
    simpa [Cell.parent] using this
  have full₂ : ∀ d < o.fullDepth, ∀ c : Cell, c.InRange o.batchSize d → c ∈ nonEmpty (cs' d) (chs' d) := by
    intro d hd c hc
    have hf := h.full
    obtain ⟨c0, c1, c2, c3⟩ := hc
    have := ((H' d (by omega)).2.2.2.2 (by omega) ⟨c.b, 2 * c.x, 2 * c.y, 2 * c.z⟩).mp
      (((H' (d + 1) (by omega)).2.2.2.1 (by omega) _).mpr ⟨c0, by rw [pow_succ]; dsimp only; omega, by rw [pow_succ]; dsimp only; omega,
        by rw [pow_succ]; dsimp only; omega⟩)
    simpa [Cell.parent] using this
  have ne : ∀ d ≤ o.depth, ∀ c : Cell, c.InRange o.batchSize d →
      (reflectCell axis d c ∈ nonEmpty (cs' d) (chs' d) ↔ c ∈ nonEmpty (cs d) (chs d)) := by
    intro d hd c hc
    rcases Nat.lt_or_ge d o.fullDepth with hf | hf
    · exact ⟨fun _ => full₁ d hf c hc, fun _ => full₂ d hf _ (reflect_range hc)⟩
    · rw [(H' d hd).2.2.1 hf, (H d hd).2.2.1 hf]
      exact occ d hd c hc
  have nodes : ∀ d ≤ o.depth, ∀ c : Cell, c.InRange o.batchSize d → (reflectCell axis d c ∈ cs' d ↔ c ∈ cs d) := by
    intro d hd c hc
    rcases Nat.lt_or_ge o.fullDepth d with hf | hf
    · obtain ⟨d, rfl⟩ : ∃ g, d = g + 1 := ⟨d - 1, by omega⟩
      rw [(H' d (by omega)).2.2.2.2 (by omega), (H d (by omega)).2.2.2.2 (by omega), reflect_parent hc]
      apply ne d (by omega)
      obtain ⟨c0, c1, c2, c3⟩ := hc
      rw [pow_succ] at c1 c2 c3
      refine ⟨c0, ?_, ?_, ?_⟩ <;> simp only [Cell.parent] <;> omega
    · rw [(H' d hd).2.2.2.1 hf, (H d hd).2.2.2.1 hf]
      exact ⟨fun _ => hc, fun _ => reflect_range hc⟩
  refine ⟨o₁, i₁, o₂, i₂, hb₁, hb₂, cs, cs', chs, chs', ?_, ?_, ?_⟩
  · intro d hd
    refine ⟨(H d hd).1, (H d hd).2.1, (H' d hd).1, (H' d hd).2.1, ?_, ?_⟩
    · exact perm_reflect (nd₁ d hd false) (nd₂ d hd false) (r₁ d hd) (r₂ d hd) (nodes d hd)
    · exact perm_reflect (nd₁ d hd true) (nd₂ d hd true) (fun c hc => r₁ d hd c (sub₁ d hd c hc))
        (fun c hc => r₂ d hd c (sub₂ d hd c hc)) (ne d hd)
  · obtain ⟨a₁, b₁, cells₁, ch₁, e1, e2, e3, e4, e5⟩ := C08_leaf_index nrm divF o pc samples h
    obtain ⟨a₂, b₂, cells₂, ch₂, f1, f2, f3, f4, f5⟩ := C08_leaf_index nrm divF o pc' samples h'
    rw [hb₁] at e1
    rw [hb₂] at f1
    obtain ⟨rfl, rfl⟩ : o₁ = a₁ ∧ i₁ = b₁ := by simpa using Except.ok.inj e1
    obtain ⟨rfl, rfl⟩ : o₂ = a₂ ∧ i₂ = b₂ := by simpa using Except.ok.inj f1
    obtain rfl := cells_unique h16 e2 (H _ (le_refl _)).1
    obtain rfl := cells_unique h16 f2 (H' _ (le_refl _)).1
    rw [(H _ (le_refl _)).2.1] at e3
    rw [(H' _ (le_refl _)).2.1] at f3
    obtain rfl := Option.some.inj e3
    obtain rfl := Option.some.inj f3
    intro i r c hi hr
    have hlt : i < pc.points.length := by rw [← e4]; exact (List.getElem?_eq_some_iff.mp hi).1
    have hps := List.getElem?_eq_getElem hlt
    have hss := List.getElem?_eq_getElem (l := samples) (i := i) (by rw [h.cloud.length]; exact hlt)
    obtain ⟨r0, c0, g1, g2, g3, g4⟩ := e5 i _ _ hps hss
    rw [hi] at g1
    obtain rfl := Option.some.inj g1
    rw [hr] at g2
    obtain rfl := Option.some.inj g2
    obtain ⟨r', c', k1, k2, k3, k4⟩ := f5 i (reflectVec axis pc.points[i]) _ (by rw [hpts, List.getElem?_map, hps]; rfl) hss
    refine ⟨r', k1, ?_⟩
    rw [k2]
    have hcr := r₁ _ (le_refl _) c (sub₁ _ (le_refl _) c (List.mem_of_getElem? hr))
    have hin' : InCube (reflectVec axis pc.points[i]) := h'.inCube _ (by rw [hpts]; exact List.mem_map_of_mem (List.getElem_mem hlt))
    have k4' := (cube_reflect (le_refl _) hcr (hoff _ (List.getElem_mem hlt))).mpr g4
    rw [cubeContains_iff _ _ _ hin'] at k4 k4'
    rw [← k4, ← k4', k3, show (reflectCell axis o.depth c).b = c.b from rfl, g3]
  · obtain ⟨a₁, b₁, cells₁, ch₁, e1, e2, e3, e4, e5, e6, e7, -⟩ := C11_averages nrm divF o pc samples h
    obtain ⟨a₂, b₂, cells₂, ch₂, f1, f2, f3, f4, f5, f6, f7, -⟩ := C11_averages nrm divF o pc' samples h'
    rw [hb₁] at e1
    rw [hb₂] at f1
    obtain ⟨rfl, rfl⟩ : o₁ = a₁ ∧ i₁ = b₁ := by simpa using Except.ok.inj e1
    obtain ⟨rfl, rfl⟩ : o₂ = a₂ ∧ i₂ = b₂ := by simpa using Except.ok.inj f1
    obtain rfl := cells_unique h16 e2 (H _ (le_refl _)).1
    obtain rfl := cells_unique h16 f2 (H' _ (le_refl _)).1
    rw [(H _ (le_refl _)).2.1] at e3
    rw [(H' _ (le_refl _)).2.1] at f3
    obtain rfl := Option.some.inj e3
    obtain rfl := Option.some.inj f3
    have hmem : ∀ c ∈ nonEmpty (cs o.depth) (chs o.depth), c.InRange o.batchSize o.depth ∧
        reflectCell axis o.depth c ∈ nonEmpty (cs' o.depth) (chs' o.depth) := by
      intro c hc
      have hcr := r₁ _ (le_refl _) c (sub₁ _ (le_refl _) c hc)
      exact ⟨hcr, (ne _ (le_refl _) c hcr).mpr hc⟩
    refine ⟨⟨_, _, e5, f5, ?_⟩, ?_, ?_⟩
    · intro c v hv
      rw [hasVal_map] at hv
      obtain ⟨hc, rfl⟩ := hv
      obtain ⟨hcr, hc'⟩ := hmem c hc
      rw [hasVal_map]
      refine ⟨hc', ?_⟩
      have hg : (pc.points.map (reflectVec axis)).map (gridPos o.depth) = (pc.points.map (gridPos o.depth)).map (reflectPos axis o.depth) := by
        rw [List.map_map, List.map_map]
        apply List.map_congr_left
        intro p _
        exact gridPos_reflect p
      rw [hpts, hg, sumIn_reflect hcr _ _ hoff, countIn_reflect hcr _ _ hoff, mean_reflect _ _ (by simp [h.cloud.length]) (e4 c hc)]
    · intro hs
      obtain ⟨f, hf⟩ := Option.isSome_iff_exists.mp hs
      refine ⟨_, _, (e6 f hf).1, (f6 f (by rw [hp]; exact hf)).1, ?_⟩
      intro c v hv
      rw [hasVal_map] at hv
      obtain ⟨hc, rfl⟩ := hv
      obtain ⟨hcr, hc'⟩ := hmem c hc
      rw [hasVal_map]
      refine ⟨hc', ?_⟩
      rw [hpts, sumIn_reflect hcr _ _ hoff, countIn_reflect hcr _ _ hoff]
    · intro hs hnrm
      obtain ⟨n, hn⟩ := Option.isSome_iff_exists.mp hs
      refine ⟨_, _, e7 n hn, f7 (n.map (reflectVec axis)) (by rw [hp]; simp [hn]), ?_⟩
      intro c v hv
      rw [hasVal_map] at hv
      obtain ⟨hc, rfl⟩ := hv
      obtain ⟨hcr, hc'⟩ := hmem c hc
      rw [hasVal_map]
      refine ⟨hc', ?_⟩
      rw [hpts, sumIn_reflect hcr _ _ hoff, sumIn_vec, hnrm]

/-- A batch of two samples, none of whose points has x or y on a plane between cells of level 2. -/
def cloudFlip : Points ℚ ℚ Unit :=
  ⟨[⟨1/3, 1/5, 1/2⟩, ⟨-1/3, 1/7, -1/4⟩, ⟨1/3, 5/8, 1/2⟩], some [⟨1, 0, 0⟩, ⟨0, 1, 0⟩, ⟨0, 1, 0⟩], some [1, 2, 3], none, some [0, 1, 0], 2, none, 0⟩

theorem cloudFlip_legal : LegalBuild (Octree.new 2 1 2 0) cloudFlip [0, 1, 0] := by
  refine ⟨by simp [Octree.new], by simp [Octree.new], by simp [Octree.new], rfl,
    ⟨rfl, by simp [Octree.new], by simp [cloudFlip], by simp [cloudFlip], by simp [cloudFlip]⟩, ?_⟩
  intro p hp; simp only [cloudFlip, List.mem_cons, List.not_mem_nil, or_false] at hp
  rcases hp with rfl | rfl | rfl <;> decide +kernel

example : LegalBuild (Octree.new 2 1 2 0) cloudFlip [0, 1, 0] ∧ (∀ p ∈ cloudFlip.points, OffGrid "xy" 2 p) ∧
    ((Octree.build id (fun c v => v / c) (Octree.new 2 1 2 0) cloudFlip).toOption.map fun r => r.1.nnumNempty 2) = some 3 := by
  refine ⟨cloudFlip_legal, ?_, by decide +kernel⟩
  have key : ∀ (v : ℚ) (m n : Int), (v + 1) * 2 * n = m → ¬ n ∣ m → ∀ k : Int, v ≠ -1 + k * (2 / 2 ^ 2) := by
    intro v m n e hn k hk
    apply hn
    refine ⟨k, ?_⟩
    rw [hk] at e
    have : (m : ℚ) = n * k := by rw [← e]; ring
    exact_mod_cast this
  have hz : odd "xy" 'z' = false := by decide +kernel
  intro p hp
  simp only [cloudFlip, List.mem_cons, List.not_mem_nil, or_false] at hp
  rcases hp with rfl | rfl | rfl <;> unfold OffGrid <;> rw [hz]
  · exact ⟨fun _ => key _ 8 3 (by norm_num) (by decide), fun _ => key _ 12 5 (by norm_num) (by decide), by simp⟩
  · exact ⟨fun _ => key _ 4 3 (by norm_num) (by decide), fun _ => key _ 16 7 (by norm_num) (by decide), by simp⟩
  · exact ⟨fun _ => key _ 8 3 (by norm_num) (by decide), fun _ => key _ 13 4 (by norm_num) (by decide), by simp⟩

end Ocnn
