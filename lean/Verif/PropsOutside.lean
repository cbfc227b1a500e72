import Verif.PropsBuild
import Verif.InterpLemmas
import Mathlib.Data.Rat.Floor
import Mathlib.Tactic.Positivity

/-! Property C159: what `build_octree` does with points outside the cube. -/

set_option linter.unusedSimpArgs false

namespace Ocnn
open Spec
variable {F L : Type}

namespace Spec

/-- The `n`-th of the `2^d` intervals into which one side of the cube is divided is where a coordinate is stored: up to
a multiple of the side of the cube, which is 2, the coordinate is in the interval; a coordinate below the cube is stored
in the interval *above* the one it is in (unless it is on the boundary between the two). -/
def StoredSide (d n : Nat) (v : ℚ) : Prop :=
  n < 2 ^ d ∧ ∃ k : ℤ,
    if -1 ≤ v then -1 + n * (2 / 2 ^ d) ≤ v + 2 * k ∧ v + 2 * k < -1 + (n + 1) * (2 / 2 ^ d)
    else -1 + (n - 1) * (2 / 2 ^ d) < v + 2 * k ∧ v + 2 * k ≤ -1 + n * (2 / 2 ^ d)

/-- The cell of level `d` in which a point is stored. -/
def StoredIn (d : Nat) (c : Cell) (p : V3 ℚ) : Prop :=
  StoredSide d c.x p.x ∧ StoredSide d c.y p.y ∧ StoredSide d c.z p.z

/-- Two coordinates that are not below the cube and differ by a multiple of the side of the cube. -/
def SamePlace (v w : ℚ) : Prop := -1 ≤ v ∧ -1 ≤ w ∧ ∃ k : ℤ, w = v + 2 * k

end Spec

theorem long_of_neg (q : ℚ) (h : q < 0) : long q = ⌈q⌉ := by
  unfold long
  have h1 : ⌈q⌉ = -⌊-q⌋ := by rw [Int.floor_neg, neg_neg]
  rw [h1, Rat.floor_def', Rat.num_neg_eq_neg_num, Rat.den_neg_eq_den]
  have h2 : (-q.num).tdiv q.den = (-q.num) / q.den :=
    Int.tdiv_eq_ediv_of_nonneg (by have := Rat.num_neg.mpr h; omega)
  rw [← h2, Int.neg_tdiv, neg_neg]

theorem storedSide_iff (D n : Nat) (v : ℚ) :
    StoredSide D n v ↔ n = (long ((v + 1) * 2 ^ D / 2) % 2 ^ D).toNat := by
  have hp : (0 : ℚ) < 2 ^ D := by positivity
  have hpi : (0 : ℤ) < 2 ^ D := by positivity
  have hmod : ∀ m : ℤ, n = (m % 2 ^ D).toNat ↔ n < 2 ^ D ∧ ∃ k : ℤ, m + k * 2 ^ D = n := by
    intro m
    have h0 := Int.emod_nonneg m hpi.ne'
    constructor
    · intro e
      refine ⟨by rw [e]; exact mod_lt_pow m D, -(m / 2 ^ D), ?_⟩
      have h1 : (n : ℤ) = m % 2 ^ D := by rw [e, Int.toNat_of_nonneg h0]
      rw [h1]
      have h2 := Int.emod_add_mul_ediv m (2 ^ D)
      linarith
    · rintro ⟨h1, k, h2⟩
      have h3 : (m + k * 2 ^ D) % 2 ^ D = m % 2 ^ D := Int.add_mul_emod_self_right _ _ _
      have h4 : (n : ℤ) % 2 ^ D = n := Int.emod_eq_of_lt (by positivity) (by exact_mod_cast h1)
      rw [← h3, h2, h4, Int.toNat_natCast]
  rw [hmod]
  unfold StoredSide
  apply and_congr_right
  intro _
  apply exists_congr
  intro k
  have hscale : ∀ a : ℚ, a * (2 / 2 ^ D) = a * 2 / 2 ^ D := fun a => by ring
  have hq : ∀ t : ℚ, t = (v + 1) * 2 ^ D / 2 → v = t * 2 / 2 ^ D - 1 := by
    rintro t rfl; field_simp; ring
  generalize hqe : (v + 1) * 2 ^ D / 2 = q
  have hv := hq q hqe.symm
  have hk : (2 : ℚ) * k = (k * 2 ^ D) * 2 / 2 ^ D := by field_simp
  have hle : ∀ a b : ℚ, a * 2 / 2 ^ D ≤ b * 2 / 2 ^ D ↔ a ≤ b := by
    intro a b
    rw [div_le_div_iff_of_pos_right hp]
    constructor <;> intro h <;> linarith
  have hsum : v + 2 * k = (q + k * 2 ^ D) * 2 / 2 ^ D - 1 := by rw [hv, hk]; ring
  have e1 : ∀ a : ℚ, (-1 + a * (2 / 2 ^ D) ≤ v + 2 * k) ↔ a ≤ q + k * 2 ^ D := by
    intro a
    rw [hsum, hscale, ← hle a]
    constructor <;> intro h <;> linarith
  have e2 : ∀ a : ℚ, (v + 2 * k ≤ -1 + a * (2 / 2 ^ D)) ↔ q + k * 2 ^ D ≤ a := by
    intro a
    rw [hsum, hscale, ← hle _ a]
    constructor <;> intro h <;> linarith
  have e1' : ∀ a : ℚ, (-1 + a * (2 / 2 ^ D) < v + 2 * k) ↔ a < q + k * 2 ^ D := by
    intro a; rw [← not_le, e2, not_le]
  have e2' : ∀ a : ℚ, (v + 2 * k < -1 + a * (2 / 2 ^ D)) ↔ q + k * 2 ^ D < a := by
    intro a; rw [← not_le, e1, not_le]
  have hcast : (q + k * 2 ^ D : ℚ) = q + ((k * 2 ^ D : ℤ) : ℚ) := by push_cast; ring
  by_cases h : -1 ≤ v
  · rw [if_pos h, e1, e2', hcast]
    have hq0 : 0 ≤ q := by
      rw [← hqe]; apply div_nonneg (mul_nonneg (by linarith) hp.le) (by norm_num)
    rw [long_of_nonneg q hq0, ← Int.floor_add_intCast, Int.floor_eq_iff]
    push_cast
    rfl
  · rw [if_neg h, e1', e2, hcast]
    have hq0 : q < 0 := by
      rw [← hqe]
      have : v + 1 < 0 := by linarith
      have := mul_neg_of_neg_of_pos this hp
      linarith
    rw [long_of_neg q hq0, ← Int.ceil_add_intCast, Int.ceil_eq_iff]
    push_cast
    rfl

theorem storedIn_iff (D : Nat) (c : Cell) (p : V3 ℚ) : StoredIn D c p ↔ c = wrapCell D (rescale D p) c.b := by
  unfold StoredIn
  rw [storedSide_iff, storedSide_iff, storedSide_iff, rescale_eq]
  obtain ⟨b, x, y, z⟩ := c
  simp [wrapCell, gridPos, V3.map]

/-- A coordinate is stored in exactly one interval. -/
theorem C159_unique (D : Nat) (v : ℚ) : ∃! n, StoredSide D n v :=
  ⟨_, (storedSide_iff D _ v).mpr rfl, fun _ h => (storedSide_iff D _ v).mp h⟩

/-- A point of the cube is stored where it belongs. -/
theorem C159_inside (D : Nat) (c : Cell) (p : V3 ℚ) (h : InCube p) : StoredIn D c p ↔ CubeContains D c p := by
  rw [storedIn_iff, cubeContains_iff D c p h, wrapCell_cellAt D c.b p h]
  exact eq_comm

/-- **C159, what happens.** `build_octree` accepts every cloud, wherever its points are; the octree is well-formed;
each point is stored in the node given by `StoredIn`, and a finest node is non-empty iff some point is stored in it. -/
theorem C159_any [AddCommMonoid F] (nrm : V3 ℚ → V3 ℚ) (divF : ℚ → F → F) (o : Octree F) (pc : Points ℚ F L)
    (samples : List Nat) (hs : Samples o.batchSize pc samples) (hpb : pc.batchSize = o.batchSize) (hD : o.depth ≤ 16)
    (hf : o.fullDepth ≤ o.depth) (hB : o.batchSize ≤ 2 ^ 15) :
    ∃ o' idx cells ch, Octree.build nrm divF o pc = .ok (o', idx) ∧ o'.Valid o.depth ∧
      CellsOf o.batchSize o.depth o'.keys cells ∧ o'.children o.depth = some ch ∧ idx.length = pc.points.length ∧
      (∀ (i : Nat) (p : V3 ℚ) (b : Nat), pc.points[i]? = some p → samples[i]? = some b →
        ∃ (r : Nat) (c : Cell), idx[i]? = some r ∧ (nonEmpty cells ch)[r]? = some c ∧ c.b = b ∧
          StoredIn o.depth c p) ∧
      ∀ c, c ∈ nonEmpty cells ch ↔ ∃ (i : Nat) (p : V3 ℚ), pc.points[i]? = some p ∧ samples[i]? = some c.b ∧
        StoredIn o.depth c p := by
  obtain ⟨S, hO, hm, hS, hb⟩ := build_any nrm divF o pc samples hs hpb hD hf hB
  have w := builtState_wf nrm divF o pc hD hf hB S hO ((pointCells o.depth pc samples).map (Cell.key o.depth))
  refine ⟨_, _, layerCells o.batchSize (occMasks o.batchSize o.fullDepth S) o.depth, _, hb, w.valid,
    w.cellsOf _ (le_refl _), w.children _ (le_refl _), ?_, ?_, ?_⟩
  · simp [uniqueInv, pointCells_length hs]
  · intro i p b hp hbi
    rw [hO.nempty o.depth (le_refl _) hf]
    have hcell : (pointCells o.depth pc samples)[i]? = some (wrapCell o.depth (rescale o.depth p) b) := by
      simp [pointCells, List.getElem?_zipWith, hp, hbi]
    obtain ⟨r, hr1, hr2⟩ := (uniqueInv_spec ((pointCells o.depth pc samples).map (Cell.key o.depth))).2 i
      ((wrapCell o.depth (rescale o.depth p) b).key o.depth) (by rw [List.getElem?_map, hcell]; rfl)
    rw [← hS, List.getElem?_map] at hr2
    cases hc : (S o.depth)[r]? with
    | none => rw [hc] at hr2; simp at hr2
    | some c =>
      rw [hc] at hr2
      simp only [Option.map_some, Option.some.injEq] at hr2
      have e := Cell.key_injective hD (hO.range _ (le_refl _) c (List.mem_of_getElem? hc))
        (wrapCell_inRange o.depth o.batchSize _ b (hs.lt b (List.mem_of_getElem? hbi))) hr2
      have eb : c.b = b := by rw [e]; rfl
      refine ⟨r, c, hr1, hc, eb, ?_⟩
      rw [storedIn_iff, eb]
      exact e
  · intro c
    rw [hO.nempty o.depth (le_refl _) hf, hm _ (le_refl _) c]
    have hanc : ∀ q : Cell, q.ancestor (o.depth - o.depth) = q := by
      intro q; simp [Cell.ancestor]
    constructor
    · rintro ⟨q, hq, e⟩
      rw [hanc] at e
      subst e
      obtain ⟨i, a, b, h1, h2, h3⟩ := (mem_zipWith_iff _ _ _ _).mp hq
      rw [List.getElem?_map] at h1
      cases hp : pc.points[i]? with
      | none => rw [hp] at h1; simp at h1
      | some p =>
        rw [hp] at h1
        simp only [Option.map_some, Option.some.injEq] at h1
        subst h1
        have eb : q.b = b := by rw [← h3]; rfl
        refine ⟨i, p, hp, by rw [eb]; exact h2, ?_⟩
        rw [storedIn_iff, eb]
        exact h3.symm
    · rintro ⟨i, p, h1, h2, h3⟩
      refine ⟨c, ?_, hanc c⟩
      refine (mem_zipWith_iff _ _ _ _).mpr ⟨i, rescale o.depth p, c.b, ?_, h2, ?_⟩
      · rw [List.getElem?_map, h1]; rfl
      · exact ((storedIn_iff _ _ _).mp h3).symm

/-- **C159 is violated.** A point outside the cube is not refused: the octree is built, and the point is counted in a
finest node that does not contain it. -/
theorem C159_violated [AddCommMonoid F] (nrm : V3 ℚ → V3 ℚ) (divF : ℚ → F → F) (o : Octree F) (pc : Points ℚ F L)
    (samples : List Nat) (hs : Samples o.batchSize pc samples) (hpb : pc.batchSize = o.batchSize) (hD : o.depth ≤ 16)
    (hf : o.fullDepth ≤ o.depth) (hB : o.batchSize ≤ 2 ^ 15) (i : Nat) (p : V3 ℚ) (hp : pc.points[i]? = some p)
    (hout : ¬ InCube p) :
    ∃ o' idx cells ch r c, Octree.build nrm divF o pc = .ok (o', idx) ∧ CellsOf o.batchSize o.depth o'.keys cells ∧
      o'.children o.depth = some ch ∧ idx[i]? = some r ∧ (nonEmpty cells ch)[r]? = some c ∧
      ¬ CubeContains o.depth c p := by
  obtain ⟨o', idx, cells, ch, h1, h2, h3, h4, h5, h6, h7⟩ := C159_any nrm divF o pc samples hs hpb hD hf hB
  have hi : i < samples.length := by rw [hs.length]; exact (List.getElem?_eq_some_iff.mp hp).1
  obtain ⟨r, c, h8, h9, h10, h11⟩ := h6 i p _ hp (List.getElem?_eq_getElem hi)
  refine ⟨o', idx, cells, ch, r, c, h1, h3, h4, h8, h9, ?_⟩
  intro hc
  apply hout
  have hside : ∀ (n : Nat) (v : ℚ), n < 2 ^ o.depth → SideContains o.depth n v → -1 ≤ v ∧ v < 1 := by
    intro n v hn hv
    have hp2 : (0 : ℚ) < 2 ^ o.depth := by positivity
    have hn1 : (n : ℚ) + 1 ≤ 2 ^ o.depth := by exact_mod_cast hn
    have hw : (0 : ℚ) < 2 / 2 ^ o.depth := by positivity
    have hn0 : (0 : ℚ) ≤ n := by positivity
    have hmul : ((n : ℚ) + 1) * (2 / 2 ^ o.depth) ≤ 2 ^ o.depth * (2 / 2 ^ o.depth) :=
      mul_le_mul_of_nonneg_right hn1 hw.le
    have hfull : (2 : ℚ) ^ o.depth * (2 / 2 ^ o.depth) = 2 := by field_simp
    have hz := mul_nonneg hn0 hw.le
    exact ⟨by linarith [hv.1], by linarith [hv.2]⟩
  exact ⟨hside _ _ h11.1.1 hc.1, hside _ _ h11.2.1.1 hc.2.1, hside _ _ h11.2.2.1 hc.2.2⟩

theorem wrapCell_samePlace (D b : Nat) (p q : V3 ℚ) (hx : SamePlace p.x q.x) (hy : SamePlace p.y q.y)
    (hz : SamePlace p.z q.z) : wrapCell D (rescale D p) b = wrapCell D (rescale D q) b := by
  have hside : ∀ v w : ℚ, SamePlace v w →
      (long ((v + 1) * 2 ^ D / 2) % 2 ^ D).toNat = (long ((w + 1) * 2 ^ D / 2) % 2 ^ D).toNat := by
    rintro v w ⟨hv, hw, k, rfl⟩
    have h0 := (storedSide_iff D _ (v + 2 * k)).mpr rfl
    apply ((storedSide_iff D _ v).mp ?_).symm
    obtain ⟨h1, j, h2⟩ := h0
    refine ⟨h1, j + k, ?_⟩
    rw [if_pos hw] at h2
    rw [if_pos hv]
    push_cast
    constructor <;> linarith [h2.1, h2.2]
  rw [rescale_eq, rescale_eq]
  unfold wrapCell gridPos V3.map
  simp only [hside _ _ hx, hside _ _ hy, hside _ _ hz]

/-- **C159, the octree is periodic.** Adding multiples of 2 to coordinates that stay at or above -1 changes nothing in
the structure of the octree or in the indices: a part of the cloud that sticks out of the cube is laid over the opposite
part of it. -/
theorem C159_periodic [AddCommMonoid F] (nrm : V3 ℚ → V3 ℚ) (divF : ℚ → F → F) (o : Octree F) (pc pc' : Points ℚ F L)
    (samples : List Nat) (hs : Samples o.batchSize pc samples) (hs' : Samples o.batchSize pc' samples)
    (hpb : pc.batchSize = o.batchSize) (hpb' : pc'.batchSize = o.batchSize) (hD : o.depth ≤ 16)
    (hf : o.fullDepth ≤ o.depth) (hB : o.batchSize ≤ 2 ^ 15)
    (hsame : ∀ (i : Nat) (p q : V3 ℚ), pc.points[i]? = some p → pc'.points[i]? = some q →
      SamePlace p.x q.x ∧ SamePlace p.y q.y ∧ SamePlace p.z q.z) :
    ∃ o' o'' idx, Octree.build nrm divF o pc = .ok (o', idx) ∧ Octree.build nrm divF o pc' = .ok (o'', idx) ∧
      ∀ d ≤ o.depth, o'.keys d = o''.keys d ∧ o'.children d = o''.children d ∧ o'.nnum d = o''.nnum d ∧
        o'.nnumNempty d = o''.nnumNempty d := by
  have hpc : pointCells o.depth pc' samples = pointCells o.depth pc samples := by
    apply List.ext_getElem?
    intro i
    simp only [pointCells, List.getElem?_zipWith, List.getElem?_map]
    have hl := hs.length.symm.trans hs'.length
    cases hp : pc.points[i]? with
    | none =>
      have : pc'.points[i]? = none := by
        rw [List.getElem?_eq_none_iff] at hp ⊢; omega
      rw [this]
    | some p =>
      have hi : i < pc'.points.length := by rw [← hl]; exact (List.getElem?_eq_some_iff.mp hp).1
      obtain ⟨q, hq⟩ : ∃ q, pc'.points[i]? = some q := ⟨_, List.getElem?_eq_getElem hi⟩
      rw [hq]
      obtain ⟨hx, hy, hz⟩ := hsame i p q hp hq
      cases samples[i]? with
      | none => rfl
      | some b => simp only [Option.map_some, wrapCell_samePlace o.depth b p q hx hy hz]
  obtain ⟨S, hO, hm, hS, hb⟩ := build_any nrm divF o pc samples hs hpb hD hf hB
  have hb' := build_state nrm divF o pc' samples hs' hpb' hD hf hB S hO (by rw [hpc]; exact hS)
  rw [hpc] at hb'
  exact ⟨_, _, _, hb, hb', fun d hd => builtState_congr rfl rfl rfl (fun _ _ => rfl) d hd⟩

/-- C159 for clouds in the half-open cube: every point is counted in the node that contains it.  Missing: points outside
the cube, which are counted in a node that does not contain them (`C159_violated`). -/
theorem C159_partial [AddCommMonoid F] (nrm : V3 ℚ → V3 ℚ) (divF : ℚ → F → F) (o : Octree F) (pc : Points ℚ F L)
    (samples : List Nat) (hs : Samples o.batchSize pc samples) (hpb : pc.batchSize = o.batchSize) (hD : o.depth ≤ 16)
    (hf : o.fullDepth ≤ o.depth) (hB : o.batchSize ≤ 2 ^ 15) (i : Nat) (p : V3 ℚ) (hp : pc.points[i]? = some p)
    (hin : InCube p) :
    ∃ o' idx cells ch r c, Octree.build nrm divF o pc = .ok (o', idx) ∧ CellsOf o.batchSize o.depth o'.keys cells ∧
      o'.children o.depth = some ch ∧ idx[i]? = some r ∧ (nonEmpty cells ch)[r]? = some c ∧
      samples[i]? = some c.b ∧ CubeContains o.depth c p := by
  obtain ⟨o', idx, cells, ch, h1, h2, h3, h4, h5, h6, h7⟩ := C159_any nrm divF o pc samples hs hpb hD hf hB
  have hi : i < samples.length := by rw [hs.length]; exact (List.getElem?_eq_some_iff.mp hp).1
  obtain ⟨r, c, h8, h9, h10, h11⟩ := h6 i p _ hp (List.getElem?_eq_getElem hi)
  exact ⟨o', idx, cells, ch, r, c, h1, h3, h4, h8, h9, by rw [h10]; exact List.getElem?_eq_getElem hi,
    (C159_inside _ _ _ hin).mp h11⟩

/-! ### the hypotheses are satisfiable -/

/-- a point to the right of the cube and one on the left of it -/
def strayCloud : Points ℚ ℚ Unit := ⟨[⟨3 / 2, 0, 0⟩, ⟨-9 / 8, 0, 0⟩], none, none, none, none, 1, none, 0⟩

example : Samples (F := ℚ) 1 strayCloud [0, 0] ∧ ¬ InCube ⟨3 / 2, 0, 0⟩ ∧ ¬ InCube ⟨-9 / 8, 0, 0⟩ := by
  refine ⟨⟨rfl, by decide, by decide, by decide, by decide⟩, by decide +kernel, by decide +kernel⟩

/-- neither is refused, at any depth -/
example (D : Nat) (hD : D ≤ 16) : ∃ o' idx cells ch r c,
    Octree.build id (fun c v => v / c) (Octree.new (F := ℚ) D 0 1 0) strayCloud = .ok (o', idx) ∧
      CellsOf 1 D o'.keys cells ∧ o'.children D = some ch ∧ idx[0]? = some r ∧ (nonEmpty cells ch)[r]? = some c ∧
      ¬ CubeContains D c ⟨3 / 2, 0, 0⟩ :=
  C159_violated id (fun c v => v / c) (Octree.new (F := ℚ) D 0 1 0) strayCloud [0, 0]
    ⟨rfl, by simp [Octree.new], by simp [Octree.new], by simp [strayCloud], by simp [strayCloud]⟩ rfl hD (Nat.zero_le _)
    (by simp [Octree.new]) 0 ⟨3 / 2, 0, 0⟩ rfl (by decide +kernel)

example : SamePlace (3 / 2) (-1 / 2) ∧ StoredSide 2 1 (3 / 2) ∧ StoredSide 2 0 (-9 / 8) := by
  refine ⟨⟨by norm_num, by norm_num, -1, by norm_num⟩, ⟨by norm_num, -1, ?_⟩, ⟨by norm_num, 0, ?_⟩⟩
  · rw [if_pos (by norm_num)]; norm_num
  · rw [if_neg (by norm_num)]; norm_num

end Ocnn
