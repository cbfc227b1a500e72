import Verif.PropsFlip

/-! Property C139: the octree of a cloud that is shrunk into an octant is the octree of the cloud, one level deeper. -/

namespace Ocnn
open Spec

variable {F L : Type}

namespace Spec

/-- The map that shrinks the cube to its octant number `k`. -/
def zoomPoint (k : Nat) (p : V3 ℚ) : V3 ℚ :=
  ⟨(p.x + 1) / 2 - 1 + (k / 4 % 2 : Nat), (p.y + 1) / 2 - 1 + (k / 2 % 2 : Nat), (p.z + 1) / 2 - 1 + (k % 2 : Nat)⟩

/-- The cell of level `d + 1` that corresponds to a cell of level `d`. -/
def zoomCell (k d : Nat) (c : Cell) : Cell :=
  ⟨c.b, c.x + k / 4 % 2 * 2 ^ d, c.y + k / 2 % 2 * 2 ^ d, c.z + k % 2 * 2 ^ d⟩

/-- The same for positions in units of cells. -/
def zoomPos (k d : Nat) (p : V3 ℚ) : V3 ℚ :=
  ⟨p.x + (k / 4 % 2 : Nat) * 2 ^ d, p.y + (k / 2 % 2 : Nat) * 2 ^ d, p.z + (k % 2 : Nat) * 2 ^ d⟩

end Spec

theorem side_zoom (d n a : Nat) (v : ℚ) : SideContains (d + 1) (n + a * 2 ^ d) ((v + 1) / 2 - 1 + a) ↔ SideContains d n v := by
  unfold SideContains
  have e : (2 : ℚ) / 2 ^ (d + 1) = 2 / 2 ^ d / 2 := by rw [pow_succ]; field_simp
  have e2 : (2 : ℚ) ^ d * (2 / 2 ^ d) = 2 := by field_simp
  rw [e]
  push_cast
  have h1 : (-1 + ((n : ℚ) + a * 2 ^ d) * (2 / 2 ^ d / 2)) = (-1 + n * (2 / 2 ^ d) + 1) / 2 - 1 + a := by
    linear_combination (a / 2 : ℚ) * e2
  have h2 : (-1 + ((n : ℚ) + a * 2 ^ d + 1) * (2 / 2 ^ d / 2)) = (-1 + (n + 1) * (2 / 2 ^ d) + 1) / 2 - 1 + a := by
    linear_combination (a / 2 : ℚ) * e2
  rw [h1, h2]
  constructor
  · rintro ⟨a, b⟩; constructor <;> linarith
  · rintro ⟨a, b⟩; constructor <;> linarith

theorem cube_zoom (k d : Nat) (c : Cell) (p : V3 ℚ) : CubeContains (d + 1) (zoomCell k d c) (zoomPoint k p) ↔ CubeContains d c p := by
  unfold CubeContains zoomCell zoomPoint
  simp only
  rw [side_zoom, side_zoom, side_zoom]

theorem zoom_inCube (k : Nat) {p : V3 ℚ} (h : InCube p) : InCube (zoomPoint k p) := by
  have key : ∀ (a : Nat) (v : ℚ), a < 2 → (-1 ≤ v ∧ v < 1) → (-1 ≤ (v + 1) / 2 - 1 + (a : ℚ) ∧ (v + 1) / 2 - 1 + (a : ℚ) < 1) := by
    intro a v ha hv
    have h0 : (0 : ℚ) ≤ a := by positivity
    have h1 : (a : ℚ) ≤ 1 := by exact_mod_cast (by omega : a ≤ 1)
    constructor <;> linarith
  exact ⟨key _ _ (by omega) h.1, key _ _ (by omega) h.2.1, key _ _ (by omega) h.2.2⟩

theorem zoom_range {B k d : Nat} {c : Cell} (h : c.InRange B d) : (zoomCell k d c).InRange B (d + 1) := by
  obtain ⟨h0, h1, h2, h3⟩ := h
  have key : ∀ a n : Nat, a < 2 → n < 2 ^ d → n + a * 2 ^ d < 2 ^ (d + 1) := by
    intro a n ha hn
    have : a * 2 ^ d ≤ 1 * 2 ^ d := Nat.mul_le_mul_right _ (by omega)
    rw [pow_succ]
    omega
  exact ⟨h0, key _ _ (by omega) h1, key _ _ (by omega) h2, key _ _ (by omega) h3⟩

theorem zoom_inj {k d : Nat} {c c' : Cell} (h : zoomCell k d c = zoomCell k d c') : c = c' := by
  cases c
  cases c'
  simp only [zoomCell, Cell.mk.injEq] at h ⊢
  omega

theorem zoom_child (k d : Nat) (c : Cell) (n : Nat) : zoomCell k (d + 1) (c.child n) = (zoomCell k d c).child n := by
  simp only [zoomCell, Cell.child, Cell.mk.injEq, pow_succ, true_and]
  refine ⟨?_, ?_, ?_⟩ <;> ring

theorem zoom_morton (k d x y z : Nat) (hx : x < 2 ^ d) (hy : y < 2 ^ d) (hz : z < 2 ^ d) :
    morton (d + 1) (x + k / 4 % 2 * 2 ^ d) (y + k / 2 % 2 * 2 ^ d) (z + k % 2 * 2 ^ d) = k % 8 * 8 ^ d + morton d x y z := by
  induction d generalizing x y z with
  | zero =>
    simp only [pow_zero, Nat.lt_one_iff] at hx hy hz
    subst hx hy hz
    simp only [morton, pow_zero, mul_one, zero_add, Nat.mul_zero]
    omega
  | succ d ih =>
    have key : ∀ a n : Nat, (n + a * 2 ^ (d + 1)) / 2 = n / 2 + a * 2 ^ d ∧ (n + a * 2 ^ (d + 1)) % 2 = n % 2 := by
      intro a n
      have : a * 2 ^ (d + 1) = 2 * (a * 2 ^ d) := by rw [pow_succ]; ring
      omega
    rw [morton, (key _ _).1, (key _ _).1, (key _ _).1, (key _ _).2, (key _ _).2, (key _ _).2]
    rw [pow_succ] at hx hy hz
    rw [ih (x / 2) (y / 2) (z / 2) (by omega) (by omega) (by omega)]
    rw [morton, pow_succ]
    ring

theorem zoom_key {B k d : Nat} {c : Cell} (h : c.InRange B d) : (zoomCell k d c).key (d + 1) = c.b * 2 ^ 48 + (k % 8 * 8 ^ d + morton d c.x c.y c.z) := by
  unfold Cell.key zoomCell
  rw [zoom_morton k d _ _ _ h.2.1 h.2.2.1 h.2.2.2]

theorem zoom_sorted {B k d : Nat} (hd : d + 1 ≤ 16) {S : List Cell} (hr : ∀ c ∈ S, c.InRange B d) (h : KeySorted d S) :
    KeySorted (d + 1) (S.map (zoomCell k d)) := by
  unfold KeySorted at *
  rw [List.pairwise_map]
  apply h.imp_of_mem
  intro a b ha hb hlt
  rw [zoom_key (hr a ha), zoom_key (hr b hb)]
  unfold Cell.key at hlt
  have m1 := morton_lt45 d hd a.x a.y a.z
  have m2 := morton_lt45 d hd b.x b.y b.z
  omega

/-- Occupied cells of the shrunken cloud are the shrunken occupied cells. -/
theorem zoom_occupied {points : List (V3 ℚ)} (hin : ∀ p ∈ points, InCube p) (samples : List Nat) (k d : Nat) (c' : Cell) :
    Occupied (points.map (zoomPoint k)) samples (d + 1) c' ↔ ∃ c, Occupied points samples d c ∧ zoomCell k d c = c' := by
  constructor
  · rintro ⟨i, q, h1, h2, h3⟩
    rw [List.getElem?_map, Option.map_eq_some_iff] at h1
    obtain ⟨p, h1, rfl⟩ := h1
    have hp := hin p (List.mem_of_getElem? h1)
    have hc := (cubeContains_iff d (cellAt d c'.b p) p hp).2 rfl
    refine ⟨cellAt d c'.b p, ⟨i, p, h1, h2, hc⟩, ?_⟩
    have h4 := (cube_zoom k d _ _).2 hc
    rw [cubeContains_iff _ _ _ (zoom_inCube k hp)] at h3 h4
    exact h4.symm.trans h3
  · rintro ⟨c, ⟨i, p, h1, h2, h3⟩, rfl⟩
    exact ⟨i, zoomPoint k p, by rw [List.getElem?_map, h1]; rfl, h2, (cube_zoom k d c p).2 h3⟩

theorem belongs_zoom (k d : Nat) (c : Cell) (p : V3 ℚ) (b : Nat) : belongs (d + 1) (zoomCell k d c) (zoomPoint k p, b) = belongs d c (p, b) := by
  unfold belongs
  rw [decide_eq_decide]
  dsimp only
  rw [cube_zoom]
  rfl

theorem sumIn_zoom {V : Type} [Add V] [Zero V] (k d : Nat) (c : Cell) (points : List (V3 ℚ)) (samples : List Nat) (vals : List V) :
    sumIn (d + 1) (zoomCell k d c) ((points.map (zoomPoint k)).zip samples) vals = sumIn d c (points.zip samples) vals := by
  unfold sumIn
  rw [List.zip_map_left, List.zip_map_left, List.filter_map, List.map_map]
  have e : (points.zip samples |>.zip vals).filter ((fun e : (V3 ℚ × Nat) × V => belongs (d + 1) (zoomCell k d c) e.1) ∘ Prod.map (Prod.map (zoomPoint k) id) id)
      = (points.zip samples |>.zip vals).filter fun e => belongs d c e.1 := by
    apply List.filter_congr
    rintro ⟨⟨p, b⟩, v⟩ hm
    exact belongs_zoom k d c p b
  rw [e]
  rfl

theorem countIn_zoom (k d : Nat) (c : Cell) (points : List (V3 ℚ)) (samples : List Nat) :
    countIn (d + 1) (zoomCell k d c) ((points.map (zoomPoint k)).zip samples) = countIn d c (points.zip samples) := by
  unfold countIn
  rw [List.zip_map_left, List.countP_map]
  apply List.countP_congr
  rintro ⟨p, b⟩ hm
  rw [← belongs_zoom k d c p b]
  rfl

theorem zoomPos_mean (k d : Nat) (l : List (V3 ℚ)) (hl : l ≠ []) :
    ((l.map (zoomPos k d)).sum).map (· / (l.length : ℚ)) = zoomPos k d (l.sum.map (· / (l.length : ℚ))) := by
  have hn : (l.length : ℚ) ≠ 0 := by
    have := List.length_pos_of_ne_nil hl
    exact_mod_cast this.ne'
  have e : ∀ (a : ℚ) (l : List ℚ), (l.length : ℚ) ≠ 0 → (l.map fun q => q + a).sum / l.length = l.sum / l.length + a := by
    intro a l hl
    have : (l.map fun q => q + a).sum = l.sum + l.length * a := by
      clear hl
      induction l with
      | nil => simp
      | cons b l ih =>
        rw [List.map_cons, List.sum_cons, ih, List.sum_cons, List.length_cons]
        push_cast
        ring
    rw [this]
    field_simp
  have e1 := e ((k / 4 % 2 : Nat) * 2 ^ d) (l.map V3.x) (by simpa using hn)
  have e2 := e ((k / 2 % 2 : Nat) * 2 ^ d) (l.map V3.y) (by simpa using hn)
  have e3 := e ((k % 2 : Nat) * 2 ^ d) (l.map V3.z) (by simpa using hn)
  rw [List.map_map, List.length_map] at e1 e2 e3
  ext
  · simp only [V3.map]; rw [sum_x, List.map_map]; simpa [zoomPos, sum_x, Function.comp_def] using e1
  · simp only [V3.map]; rw [sum_y, List.map_map]; simpa [zoomPos, sum_y, Function.comp_def] using e2
  · simp only [V3.map]; rw [sum_z, List.map_map]; simpa [zoomPos, sum_z, Function.comp_def] using e3

theorem mean_zoom (k d : Nat) {c : Cell} (cloud : List (V3 ℚ × Nat)) (vals : List (V3 ℚ)) (hl : vals.length = cloud.length)
    (hpos : 0 < countIn d c cloud) :
    (sumIn d c cloud (vals.map (zoomPos k d))).map (· / (countIn d c cloud : ℚ))
      = zoomPos k d ((sumIn d c cloud vals).map (· / (countIn d c cloud : ℚ))) := by
  have hlen : (((cloud.zip vals).filter fun e => belongs d c e.1).map Prod.snd).length = countIn d c cloud := by
    rw [List.length_map, ← List.countP_eq_length_filter]
    unfold countIn
    conv_rhs => rw [← List.map_fst_zip (l₁ := cloud) (l₂ := vals) (by omega), List.countP_map]
    rfl
  have := zoomPos_mean k d (((cloud.zip vals).filter fun e => belongs d c e.1).map Prod.snd) (List.ne_nil_of_length_pos (by omega))
  rw [hlen] at this
  rw [← show sumIn d c cloud vals = (((cloud.zip vals).filter fun e => belongs d c e.1).map Prod.snd).sum from rfl] at this
  rw [← this]
  unfold sumIn
  rw [List.zip_map_right, List.filter_map, List.map_map, List.map_map]
  rfl

theorem gridPos_zoom (k d : Nat) (p : V3 ℚ) : gridPos (d + 1) (zoomPoint k p) = zoomPos k d (gridPos d p) := by
  simp only [gridPos, V3.map, zoomPoint, zoomPos, pow_succ, V3.mk.injEq]
  refine ⟨?_, ?_, ?_⟩ <;> ring

/-- **C139.** Shrinking the cloud into octant `k` and building with one more level gives the same tree inside this octant: the
non-empty nodes of level `d + 1` are those of level `d`, moved, in the same order; so are all nodes below the
full layers; each point has the same leaf number, and the leaves have the same features and normals and moved positions. -/
theorem C139_zoom [AddCommMonoid F] (nrm : V3 ℚ → V3 ℚ) (divF : ℚ → F → F) (o o' : Octree F) (pc : Points ℚ F L) (samples : List Nat) (k : Nat)
    (h : LegalBuild o pc samples) (hd' : o'.depth = o.depth + 1) (h16 : o'.depth ≤ 16) (hf' : o'.fullDepth ≤ o'.depth) (hB : o'.batchSize = o.batchSize) :
    ∃ r i r' i', Octree.build nrm divF o pc = .ok (r, i) ∧
      Octree.build nrm divF o' { pc with points := pc.points.map (zoomPoint k) } = .ok (r', i') ∧ i' = i ∧
      ∃ (cells cells' : Nat → List Cell) (ch ch' : Nat → List Int),
        (∀ d ≤ o.depth, CellsOf o.batchSize d r.keys (cells d) ∧ r.children d = some (ch d)) ∧
        (∀ d ≤ o'.depth, CellsOf o.batchSize d r'.keys (cells' d) ∧ r'.children d = some (ch' d)) ∧
        (∀ d ≤ o.depth, o.fullDepth ≤ d → o'.fullDepth ≤ d + 1 →
          nonEmpty (cells' (d + 1)) (ch' (d + 1)) = (nonEmpty (cells d) (ch d)).map (zoomCell k d)) ∧
        (∀ d ≤ o.depth, o.fullDepth < d → o'.fullDepth < d + 1 → cells' (d + 1) = (cells d).map (zoomCell k d)) ∧
        (∃ g, r.points o.depth = some g ∧ r'.points o'.depth = some (g.map (zoomPos k o.depth))) ∧
        (pc.features.isSome → ∃ g, r.features o.depth = some g ∧ r'.features o'.depth = some g) ∧
        (pc.normals.isSome → ∃ g, r.normals o.depth = some g ∧ r'.normals o'.depth = some g) := by
  have h' : LegalBuild o' { pc with points := pc.points.map (zoomPoint k) } samples := by
    refine ⟨h16, hf', by rw [hB]; exact h.batch, by rw [hB]; exact h.same_batch, ⟨by simpa using h.cloud.length, by rw [hB]; exact h.cloud.lt,
      by rw [hB]; exact h.cloud.ids, fun n hn => by simpa using h.cloud.normals n hn, fun f hf => by simpa using h.cloud.features f hf⟩, ?_⟩
    intro q hq
    obtain ⟨p, hp, rfl⟩ := List.mem_map.1 hq
    exact zoom_inCube k (h.inCube p hp)
  obtain ⟨S, hO, hm, hS, hb⟩ := build_cube nrm divF o pc samples h.cloud h.same_batch h.inCube h.depth h.full h.batch
  generalize hpc : ({ pc with points := pc.points.map (zoomPoint k) } : Points ℚ F L) = pc' at h' ⊢
  have hpts : pc'.points = pc.points.map (zoomPoint k) := by rw [← hpc]
  have hfeat : pc'.features = pc.features := by rw [← hpc]
  have hnorm : pc'.normals = pc.normals := by rw [← hpc]
  obtain ⟨S', hO', hm', hS', hb'⟩ := build_cube nrm divF o' pc' samples h'.cloud h'.same_batch h'.inCube h'.depth h'.full h'.batch
  have w := builtState_wf nrm divF o pc h.depth h.full h.batch S hO ((pointCells o.depth pc samples).map (Cell.key o.depth))
  have w' := builtState_wf nrm divF o' pc' h'.depth h'.full h'.batch S' hO' ((pointCells o'.depth pc' samples).map (Cell.key o'.depth))
  have hSS : ∀ d ≤ o.depth, S' (d + 1) = (S d).map (zoomCell k d) := by
    intro d hd
    apply keySorted_ext (B := o.batchSize) (by omega) (hO'.sorted (d + 1) (by omega)) (zoom_sorted (by omega) (hO.range d hd) (hO.sorted d hd))
      (by rw [← hB]; exact hO'.range (d + 1) (by omega))
    · intro c hc
      obtain ⟨c0, h0, rfl⟩ := List.mem_map.1 hc
      exact zoom_range (hO.range d hd c0 h0)
    · intro c
      rw [hm' (d + 1) (by omega), List.mem_map]
      rw [hpts, zoom_occupied h.inCube samples k d c]
      constructor
      · rintro ⟨c0, h0, e⟩
        exact ⟨c0, (hm d hd c0).2 h0, e⟩
      · rintro ⟨c0, h0, e⟩
        exact ⟨c0, (hm d hd c0).1 h0, e⟩
  -- the leaf signals and numbers
  obtain ⟨q1, q2, cl, cc, a1, a2, a3, a4, a5, a6, a7, -⟩ := C11_averages nrm divF o pc samples h
  obtain ⟨q1', q2', cl', cc', b1, b2, b3, b4, b5, b6, b7, -⟩ := C11_averages nrm divF o' _ samples h'
  obtain ⟨s1, s2, sl, sc, c1, c2, c3, c4, c5⟩ := C08_leaf_index nrm divF o pc samples h
  obtain ⟨s1', s2', sl', sc', d1, d2, d3, d4, d5⟩ := C08_leaf_index nrm divF o' _ samples h'
  rw [hb] at a1 c1
  rw [hb'] at b1 d1
  obtain ⟨rfl, rfl⟩ := Prod.mk.inj (Except.ok.inj a1)
  obtain ⟨rfl, rfl⟩ := Prod.mk.inj (Except.ok.inj b1)
  obtain ⟨rfl, rfl⟩ := Prod.mk.inj (Except.ok.inj c1)
  obtain ⟨rfl, rfl⟩ := Prod.mk.inj (Except.ok.inj d1)
  have hne := hO.nempty o.depth (le_refl _) h.full
  have hne' := hO'.nempty o'.depth (le_refl _) h'.full
  have x1 : nonEmpty cl cc = S o.depth := by
    rw [cells_unique h.depth a2 (w.cellsOf o.depth (le_refl _)), Option.some.inj (a3.symm.trans (w.children o.depth (le_refl _)))]
    exact hne
  have x2 : nonEmpty cl' cc' = S' o'.depth := by
    rw [cells_unique h'.depth b2 (w'.cellsOf o'.depth (le_refl _)), Option.some.inj (b3.symm.trans (w'.children o'.depth (le_refl _)))]
    exact hne'
  have x3 : nonEmpty sl sc = S o.depth := by
    rw [cells_unique h.depth c2 (w.cellsOf o.depth (le_refl _)), Option.some.inj (c3.symm.trans (w.children o.depth (le_refl _)))]
    exact hne
  have x4 : nonEmpty sl' sc' = S' o'.depth := by
    rw [cells_unique h'.depth d2 (w'.cellsOf o'.depth (le_refl _)), Option.some.inj (d3.symm.trans (w'.children o'.depth (le_refl _)))]
    exact hne'
  have hS1 : S' o'.depth = (S o.depth).map (zoomCell k o.depth) := by rw [hd']; exact hSS o.depth (le_refl _)
  refine ⟨_, _, _, _, hb, hb', ?_, layerCells o.batchSize (occMasks o.batchSize o.fullDepth S), layerCells o'.batchSize (occMasks o'.batchSize o'.fullDepth S'),
    fun d => number 0 (occMasks o.batchSize o.fullDepth S d), fun d => number 0 (occMasks o'.batchSize o'.fullDepth S' d), ?_, ?_, ?_, ?_, ?_, ?_, ?_⟩
  · apply List.ext_getElem?
    intro i
    by_cases hi : i < pc.points.length
    · obtain ⟨p, hp⟩ : ∃ p, pc.points[i]? = some p := ⟨_, List.getElem?_eq_getElem hi⟩
      obtain ⟨b, hb2⟩ : ∃ b, samples[i]? = some b := ⟨_, List.getElem?_eq_getElem (by have := h.cloud.length; omega)⟩
      obtain ⟨r, c, e1, e2, e3, e4⟩ := c5 i p b hp hb2
      obtain ⟨r', c', f1, f2, f3, f4⟩ := d5 i (zoomPoint k p) b (by rw [hpts, List.getElem?_map, hp]; rfl) hb2
      rw [e1, f1]
      have hpin := h.inCube p (List.mem_of_getElem? hp)
      rw [x3] at e2
      rw [x4, hS1, List.getElem?_map, Option.map_eq_some_iff] at f2
      obtain ⟨c0, f2, rfl⟩ := f2
      rw [hd', cube_zoom, cubeContains_iff _ _ _ hpin] at f4
      rw [cubeContains_iff _ _ _ hpin] at e4
      have hcc : c = c0 := by
        rw [← e4, ← f4, e3]
        exact congrArg (fun b => cellAt o.depth b p) f3.symm
      subst hcc
      have hnd : (S o.depth).Nodup := (hO.sorted o.depth (le_refl _)).imp fun hlt e => by rw [e] at hlt; exact lt_irrefl _ hlt
      rw [(List.getElem?_inj (List.getElem?_eq_some_iff.1 f2).1 hnd).1 (f2.trans e2.symm)]
    · rw [List.getElem?_eq_none (by rw [d4, hpts, List.length_map]; omega), List.getElem?_eq_none (by rw [c4]; omega)]
  · exact fun d hd => ⟨w.cellsOf d hd, w.children d hd⟩
  · intro d hd
    rw [← hB]
    exact ⟨w'.cellsOf d hd, w'.children d hd⟩
  · intro d hd h1 h2
    rw [hO.nempty d hd h1, hO'.nempty (d + 1) (by omega) h2, hSS d hd]
  · intro d hd h1 h2
    obtain ⟨e, rfl⟩ : ∃ e, d = e + 1 := ⟨d - 1, by omega⟩
    rw [(hO.layers (e + 1) hd).1, (hO'.layers (e + 1 + 1) (by omega)).1, occLayer_gt h1, occLayer_gt h2, hSS e (by omega), expand_map, map_expand]
    apply expand_congr
    intro c hc n hn
    exact (zoom_child k e c n).symm
  · refine ⟨_, a5, ?_⟩
    rw [b5, x1, x2, hS1, List.map_map, List.map_map, hpts]
    congr 1
    apply List.map_congr_left
    intro c hc
    have hpos := a4 c (by rw [x1]; exact hc)
    simp only [Function.comp_apply]
    rw [hd', countIn_zoom, sumIn_zoom, ← mean_zoom k o.depth _ _ (by rw [List.length_map, List.length_zip]; have := h.cloud.length; omega) hpos,
      List.map_map, List.map_map]
    congr 3
    funext p
    exact gridPos_zoom k o.depth p
  · intro hs
    obtain ⟨f, hf⟩ := Option.isSome_iff_exists.1 hs
    refine ⟨_, (a6 f hf).1, ?_⟩
    rw [(b6 f (by rw [hfeat, hf])).1, x1, x2, hS1, List.map_map, hpts]
    congr 1
    apply List.map_congr_left
    intro c hc
    simp only [Function.comp_apply]
    rw [hd', countIn_zoom, sumIn_zoom]
  · intro hs
    obtain ⟨f, hf⟩ := Option.isSome_iff_exists.1 hs
    refine ⟨_, a7 f hf, ?_⟩
    rw [b7 f (by rw [hnorm, hf]), x1, x2, hS1, List.map_map, hpts]
    congr 1
    apply List.map_congr_left
    intro c hc
    simp only [Function.comp_apply]
    rw [hd', sumIn_zoom]

/-- The hypotheses are met by the small cloud of two samples and a fresh octree one level deeper. -/
example : LegalBuild (Octree.new 2 1 2 0 : Octree ℚ) cloudC [0, 1, 0] ∧ (Octree.new 3 2 2 0 : Octree ℚ).depth = (Octree.new 2 1 2 0 : Octree ℚ).depth + 1 ∧
    zoomPoint 5 ⟨-1, 0, 1 / 2⟩ = ⟨0, -1 / 2, 3 / 4⟩ ∧ zoomCell 5 2 ⟨1, 0, 2, 3⟩ = ⟨1, 4, 2, 7⟩ :=
  ⟨cloudC_legal, rfl, by norm_num [zoomPoint], rfl⟩

end Ocnn
