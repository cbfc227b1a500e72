import Verif.NetLocalUNet
import Verif.PropsTranslate

/-! C169: what `UNet` predicts at a point depends only on the points of the cloud that are near. -/

set_option linter.unusedSimpArgs false
set_option linter.unusedVariables false

namespace Ocnn
open Spec
variable {F : Type}

namespace Spec

/-- A point of the same sample that differs by less than `r` on every axis. -/
def nearBy (r : ℚ) (q e : V3 ℚ × Nat) : Bool :=
  decide (e.2 = q.2 ∧ |e.1.x - q.1.x| < r ∧ |e.1.y - q.1.y| < r ∧ |e.1.z - q.1.z| < r)

/-- The points of a cloud near `q` with one of their attributes. -/
def nearPart {V : Type} (r : ℚ) (q : V3 ℚ × Nat) (points : List (V3 ℚ)) (samples : List Nat) (vals : List V) : List ((V3 ℚ × Nat) × V) :=
  ((points.zip samples).zip vals).filter fun e => nearBy r q e.1

/-- Two clouds have the same points near `q`, with the same normals and features, in whatever order; elsewhere they may differ. -/
structure SameNear {F L : Type} (r : ℚ) (q : V3 ℚ × Nat) (pc pc' : Points ℚ F L) (samples samples' : List Nat) : Prop where
  points : ((pc.points.zip samples).filter (nearBy r q)).Perm ((pc'.points.zip samples').filter (nearBy r q))
  normals : (nearPart r q pc.points samples (pc.normals.getD [])).Perm (nearPart r q pc'.points samples' (pc'.normals.getD []))
  features : (nearPart r q pc.points samples (pc.features.getD [])).Perm (nearPart r q pc'.points samples' (pc'.features.getD []))

/-- Both runs succeed with one row of width `c` per query, and the rows of the query `q` are the same. -/
def SameAt (q : V3 ℚ × Nat) (qs qs' : List (V3 ℚ × Nat)) (c : Nat) (r r' : M Tensor) : Prop :=
  ∃ y y' : List (Fin c → ℚ), r = .ok ⟨c, y⟩ ∧ r' = .ok ⟨c, y'⟩ ∧ y.length = qs.length ∧ y'.length = qs'.length ∧
    ∀ i j : Nat, qs[i]? = some q → qs'[j]? = some q → y[i]? = y'[j]?

/-- The radius of the neighbourhood, in voxels of the finest level: the margin of the network, another `2 ^ E` if empty nodes take part, and what
the interpolation looks at. -/
def seenRadius (cfg : UNetConfig) (nempty : Bool) (method : String) : ℚ :=
  (if nempty then 0 else 2 ^ cfg.encoderBlocks.length) + unetRadius cfg +
    (if method = "linear" then 3 / 2 else 1) * 2 ^ (cfg.encoderBlocks.length - cfg.decoderBlocks.length)

/-- The point is at least half a cell of level `d` away from the sides of the cube. -/
def AwayFromSides (d : Nat) (p : V3 ℚ) : Prop :=
  (-1 + 1 / 2 ^ d ≤ p.x ∧ p.x < 1 - 1 / 2 ^ d) ∧ (-1 + 1 / 2 ^ d ≤ p.y ∧ p.y < 1 - 1 / 2 ^ d) ∧ (-1 + 1 / 2 ^ d ≤ p.z ∧ p.z < 1 - 1 / 2 ^ d)

end Spec

/-! ### the region -/

/-- The voxels of level `D` all of whose points are near `q`. -/
def nearRegion (r : ℚ) (q : V3 ℚ × Nat) (D : Nat) (b : Nat) (x y z : Int) : Prop :=
  ∀ p : V3 ℚ, CubeContains D ⟨b, x.toNat, y.toNat, z.toNat⟩ p → nearBy r q (p, b) = true

theorem side_scaled (D n : Nat) (v : ℚ) : SideContains D n v ↔ (n : ℚ) ≤ (v + 1) * 2 ^ D / 2 ∧ (v + 1) * 2 ^ D / 2 < n + 1 := by
  unfold SideContains
  have : (0 : ℚ) < 2 ^ D := by positivity
  constructor
  · rintro ⟨h1, h2⟩
    have e : ∀ a : ℚ, a = a * (2 / 2 ^ D) * 2 ^ D / 2 := by intro a; field_simp
    constructor
    · rw [e n]
      apply div_le_div_of_nonneg_right _ (by norm_num)
      apply mul_le_mul_of_nonneg_right _ this.le
      linarith
    · rw [e (n + 1)]
      apply div_lt_div_of_pos_right _ (by norm_num)
      apply mul_lt_mul_of_pos_right _ this
      linarith
  · rintro ⟨h1, h2⟩
    have e : v + 1 = (v + 1) * 2 ^ D / 2 * (2 / 2 ^ D) := by field_simp
    have h0 : (0 : ℚ) < 2 / 2 ^ D := by positivity
    constructor
    · have := mul_le_mul_of_nonneg_right h1 h0.le
      linarith
    · have := mul_lt_mul_of_pos_right h2 h0
      linarith

theorem scale_split {D d : Nat} (hd : d ≤ D) (v : ℚ) : (v + 1) * 2 ^ D / 2 = (v + 1) * 2 ^ d / 2 * 2 ^ (D - d) := by
  have : (2 : ℚ) ^ D = 2 ^ d * 2 ^ (D - d) := by rw [← pow_add]; congr 1; omega
  rw [this]
  ring

theorem side_reach {D d n a : Nat} (hd : d ≤ D) {v : ℚ} (h : SideContains D n v) (h' : SideContains d a v) : Reach D d 0 a n := by
  rw [side_scaled] at h h'
  rw [scale_split hd] at h
  have hs : (0 : ℚ) < 2 ^ (D - d) := by positivity
  generalize (v + 1) * 2 ^ d / 2 = X at h h'
  unfold Reach
  have h1 : (a : ℚ) * 2 ^ (D - d) < n + 1 := lt_of_le_of_lt (mul_le_mul_of_nonneg_right h'.1 hs.le) h.2
  have h2 : (n : ℚ) < (a + 1) * 2 ^ (D - d) := lt_of_le_of_lt h.1 (mul_lt_mul_of_pos_right h'.2 hs)
  have h1 : (a : Int) * 2 ^ (D - d) < n + 1 := by exact_mod_cast h1
  have h2 : (n : Int) < (a + 1) * 2 ^ (D - d) := by exact_mod_cast h2
  omega

theorem side_lt {D n : Nat} {v : ℚ} (h : SideContains D n v) (hv : v < 1) : n < 2 ^ D := by
  rw [side_scaled] at h
  have : (0 : ℚ) < 2 ^ D := by positivity
  have : (n : ℚ) < 2 ^ D := by nlinarith [h.1]
  exact_mod_cast this

/-- The points in a cell of the region are near. -/
theorem near_of_surr {r : ℚ} {q : V3 ℚ × Nat} {D d : Nat} (hd : d ≤ D) {c : Cell} (h : Surr (nearRegion r q D) D d 0 c) {e : V3 ℚ × Nat}
    (he : InCube e.1) (hc : belongs d c e = true) : nearBy r q e = true := by
  obtain ⟨p, b⟩ := e
  unfold belongs at hc
  obtain ⟨rfl, hx, hy, hz⟩ := of_decide_eq_true hc
  obtain ⟨f, hb, hr, fx, fy, fz⟩ := cube_exists (c.b + 1) D c.b (by omega) p he
  have up : ∀ n : Nat, n < 2 ^ D → (0 : Int) ≤ n ∧ (n : Int) < 2 ^ D := fun n hn => ⟨by omega, by exact_mod_cast hn⟩
  refine h f.x f.y f.z (up _ hr.2.1) (up _ hr.2.2.1) (up _ hr.2.2.2) (side_reach hd fx hx) (side_reach hd fy hy) (side_reach hd fz hz) p ?_
  simp only [Int.toNat_natCast]
  exact ⟨fx, fy, fz⟩

/-- One axis: what a cell that is seen can reach is near. -/
theorem near_axis {D d a : Nat} (hd : d ≤ D) {k : Int} {w v p : ℚ} (h1 : (a : ℚ) ≤ (v + 1) * 2 ^ d / 2 + (w - 1)) (h2 : (v + 1) * 2 ^ d / 2 < a + w)
    {x : Int} (hx : 0 ≤ x) (hr : Reach D d k a x) (hp : SideContains D x.toNat p) : |p - v| < (k + w * 2 ^ (D - d)) * (2 / 2 ^ D) := by
  rw [side_scaled] at hp
  have e := scale_split hd v
  have hs : (0 : ℚ) < 2 ^ (D - d) := by positivity
  have hD : (0 : ℚ) < 2 ^ D := by positivity
  have hxq : ((x.toNat : Nat) : ℚ) = (x : ℚ) := by
    have : ((x.toNat : Nat) : Int) = x := Int.toNat_of_nonneg hx
    exact_mod_cast congrArg (Int.cast : Int → ℚ) this
  rw [hxq] at hp
  obtain ⟨r1, r2⟩ := hr
  have r1 : (a : ℚ) * 2 ^ (D - d) - k ≤ x := by exact_mod_cast r1
  have r2 : (x : ℚ) + 1 ≤ (a + 1) * 2 ^ (D - d) + k := by exact_mod_cast r2
  have m1 := mul_le_mul_of_nonneg_right h1 hs.le
  have m2 := mul_lt_mul_of_pos_right h2 hs
  have key : |(p + 1) * 2 ^ D / 2 - (v + 1) * 2 ^ D / 2| < k + w * 2 ^ (D - d) := by
    rw [e, abs_lt]
    constructor <;> nlinarith
  have e2 : p - v = ((p + 1) * 2 ^ D / 2 - (v + 1) * 2 ^ D / 2) * (2 / 2 ^ D) := by
    field_simp
    ring
  have h0 : (0 : ℚ) < 2 / 2 ^ D := by positivity
  rw [e2, abs_mul, abs_of_pos h0]
  exact mul_lt_mul_of_pos_right key h0

theorem zpow_half (d : Nat) (v : ℚ) : (v + 1) * (2 ^ ((d : ℤ) - 1) : ℚ) = (v + 1) * 2 ^ d / 2 := by
  rw [zpow_sub₀ (by norm_num), zpow_natCast, zpow_one]
  ring

theorem wrap_id {d : Nat} {g : Int} (h0 : 0 ≤ g) (h1 : g < 2 ^ d) : ((((g % 2 ^ d).toNat : Nat) : Int) : ℚ) = g := by
  rw [wrap_toNat, Int.emod_eq_of_lt h0 h1]

/-- The cells that are seen from `q` reach near points only. -/
theorem seen_surr {D d : Nat} (hd : d ≤ D) {k : Int} {method : String} {q : V3 ℚ × Nat} (hq : InCube q.1) (hl : method = "linear" → AwayFromSides d q.1)
    {c : Cell} (hc : c ∈ LocalPair.seenCells method d q) :
    Surr (nearRegion ((k + (if method = "linear" then 3 / 2 else 1) * 2 ^ (D - d)) * (2 / 2 ^ D)) q D) D d k c := by
  have main : ∀ w : ℚ, c.b = q.2 → (∀ v : ℚ, ∀ a : Nat, (v = q.1.x ∧ a = c.x) ∨ (v = q.1.y ∧ a = c.y) ∨ (v = q.1.z ∧ a = c.z) →
      (a : ℚ) ≤ (v + 1) * 2 ^ d / 2 + (w - 1) ∧ (v + 1) * 2 ^ d / 2 < a + w) → Surr (nearRegion ((k + w * 2 ^ (D - d)) * (2 / 2 ^ D)) q D) D d k c := by
    intro w hb hax x y z hx hy hz rx ry rz p hp
    unfold nearBy
    obtain ⟨a1, a2⟩ := hax _ _ (.inl ⟨rfl, rfl⟩)
    obtain ⟨b1, b2⟩ := hax _ _ (.inr (.inl ⟨rfl, rfl⟩))
    obtain ⟨c1, c2⟩ := hax _ _ (.inr (.inr ⟨rfl, rfl⟩))
    exact decide_eq_true ⟨hb, near_axis hd a1 a2 hx.1 rx hp.1, near_axis hd b1 b2 hy.1 ry hp.2.1, near_axis hd c1 c2 hz.1 rz hp.2.2⟩
  have hP : (0 : ℚ) < 2 ^ d := by positivity
  unfold LocalPair.seenCells at hc
  dsimp only at hc
  by_cases hm : method = "linear"
  · rw [if_pos hm] at hc ⊢
    have hA := hl hm
    have ax : ∀ v : ℚ, -1 + 1 / 2 ^ d ≤ v ∧ v < 1 - 1 / 2 ^ d → ∀ ε : Int, (ε = 0 ∨ ε = 1) →
        let a := ((⌊(v + 1) * (2 ^ ((d : ℤ) - 1) : ℚ) - 1 / 2⌋ + ε) % 2 ^ d).toNat
        (a : ℚ) ≤ (v + 1) * 2 ^ d / 2 + (3 / 2 - 1) ∧ (v + 1) * 2 ^ d / 2 < a + 3 / 2 := by
      intro v hv ε hε
      have b1 : 1 / 2 ≤ (v + 1) * 2 ^ d / 2 := by
        have := mul_le_mul_of_nonneg_right hv.1 hP.le
        have e : (-1 + 1 / 2 ^ d : ℚ) * 2 ^ d = - 2 ^ d + 1 := by field_simp
        rw [e] at this
        linarith
      have b2 : (v + 1) * 2 ^ d / 2 < 2 ^ d - 1 / 2 := by
        have := mul_lt_mul_of_pos_right hv.2 hP
        have e : (1 - 1 / 2 ^ d : ℚ) * 2 ^ d = 2 ^ d - 1 := by field_simp
        rw [e] at this
        linarith
      rw [zpow_half]
      generalize (v + 1) * 2 ^ d / 2 = X at b1 b2 ⊢
      have f1 := Int.floor_le (X - 1 / 2)
      have f2 := Int.lt_floor_add_one (X - 1 / 2)
      have f0 : 0 ≤ ⌊X - 1 / 2⌋ := Int.floor_nonneg.2 (by linarith)
      have f3 : ⌊X - 1 / 2⌋ < 2 ^ d - 1 := by
        have : ((⌊X - 1 / 2⌋ : Int) : ℚ) < 2 ^ d - 1 := by linarith
        exact_mod_cast this
      intro a
      have ha : (a : ℚ) = ((⌊X - 1 / 2⌋ + ε : Int) : ℚ) := by
        have := wrap_id (d := d) (g := ⌊X - 1 / 2⌋ + ε) (by omega) (by omega)
        rw [← this, Int.cast_natCast]
      rw [ha]
      push_cast
      rcases hε with rfl | rfl <;> constructor <;> push_cast <;> linarith
    obtain ⟨g, hg, rfl⟩ := List.mem_map.1 hc
    unfold corners at hg
    obtain ⟨ε, hε, rfl⟩ := List.mem_map.1 hg
    have hε' : (ε.1 = 0 ∨ ε.1 = 1) ∧ (ε.2.1 = 0 ∨ ε.2.1 = 1) ∧ (ε.2.2 = 0 ∨ ε.2.2 = 1) := by
      have : ∀ ε ∈ ([(0, 0, 0), (0, 0, 1), (0, 1, 0), (0, 1, 1), (1, 0, 0), (1, 0, 1), (1, 1, 0), (1, 1, 1)] : List (Int × Int × Int)),
          (ε.1 = 0 ∨ ε.1 = 1) ∧ (ε.2.1 = 0 ∨ ε.2.1 = 1) ∧ (ε.2.2 = 0 ∨ ε.2.2 = 1) := by decide
      exact this ε hε
    refine main (3 / 2) rfl ?_
    rintro v a (⟨rfl, rfl⟩ | ⟨rfl, rfl⟩ | ⟨rfl, rfl⟩)
    · exact ax _ hA.1 _ hε'.1
    · exact ax _ hA.2.1 _ hε'.2.1
    · exact ax _ hA.2.2 _ hε'.2.2
  · rw [if_neg hm] at hc ⊢
    simp only [List.map_cons, List.map_nil, List.mem_singleton] at hc
    subst hc
    have ax : ∀ v : ℚ, -1 ≤ v ∧ v < 1 → let a := (long ((v + 1) * (2 ^ ((d : ℤ) - 1) : ℚ)) % 2 ^ d).toNat
        (a : ℚ) ≤ (v + 1) * 2 ^ d / 2 + (1 - 1) ∧ (v + 1) * 2 ^ d / 2 < a + 1 := by
      intro v hv
      have b1 : 0 ≤ (v + 1) * 2 ^ d / 2 := by
        have : 0 ≤ v + 1 := by linarith
        positivity
      have b2 : (v + 1) * 2 ^ d / 2 < 2 ^ d := by nlinarith
      rw [zpow_half, long_of_nonneg _ b1]
      generalize (v + 1) * 2 ^ d / 2 = X at b1 b2 ⊢
      have f1 := Int.floor_le X
      have f2 := Int.lt_floor_add_one X
      have f3 : ⌊X⌋ < 2 ^ d := by
        have : ((⌊X⌋ : Int) : ℚ) < 2 ^ d := by linarith
        exact_mod_cast this
      intro a
      have ha : (a : ℚ) = ((⌊X⌋ : Int) : ℚ) := by
        have := wrap_id (d := d) (g := ⌊X⌋) (Int.floor_nonneg.2 b1) f3
        rw [← this, Int.cast_natCast]
      rw [ha]
      constructor <;> linarith
    refine main 1 rfl ?_
    rintro v a (⟨rfl, rfl⟩ | ⟨rfl, rfl⟩ | ⟨rfl, rfl⟩)
    · exact ax _ hq.1
    · exact ax _ hq.2.1
    · exact ax _ hq.2.2

/-! ### the clouds -/

theorem filter_sub {α : Type} {p q : α → Bool} {l l' : List α} (h : (l.filter q).Perm (l'.filter q)) (hl : ∀ a ∈ l, p a = true → q a = true)
    (hl' : ∀ a ∈ l', p a = true → q a = true) : (l.filter p).Perm (l'.filter p) := by
  have e : ∀ l : List α, (∀ a ∈ l, p a = true → q a = true) → l.filter p = (l.filter q).filter p := by
    intro l hl
    rw [List.filter_filter]
    refine List.filter_congr fun a ha => ?_
    cases hp : p a with
    | false => rfl
    | true => rw [hl a ha hp]; rfl
  rw [e l hl, e l' hl']
  exact h.filter p

theorem sum_same {V : Type} [AddCommMonoid V] {r : ℚ} {q : V3 ℚ × Nat} {points points' : List (V3 ℚ)} {samples samples' : List Nat} {vals vals' : List V}
    (h : (nearPart r q points samples vals).Perm (nearPart r q points' samples' vals')) {d : Nat} {c : Cell}
    (hn : ∀ e ∈ points.zip samples, belongs d c e = true → nearBy r q e = true)
    (hn' : ∀ e ∈ points'.zip samples', belongs d c e = true → nearBy r q e = true) :
    sumIn d c (points.zip samples) vals = sumIn d c (points'.zip samples') vals' := by
  unfold sumIn
  refine List.Perm.sum_eq ?_
  refine List.Perm.map _ (filter_sub h ?_ ?_)
  · intro a ha hb
    exact hn _ (List.of_mem_zip (a := a.1) (b := a.2) ha).1 hb
  · intro a ha hb
    exact hn' _ (List.of_mem_zip (a := a.1) (b := a.2) ha).1 hb

theorem zip_points (points : List (V3 ℚ)) (samples : List Nat) (h : samples.length = points.length) :
    (points.zip samples).zip points = (points.zip samples).map fun e => (e, e.1) := by
  induction points generalizing samples with
  | nil => rfl
  | cons p ps ih =>
    cases samples with
    | nil => simp at h
    | cons b bs =>
      rw [List.zip_cons_cons, List.zip_cons_cons, ih bs (by simpa using h)]
      rfl

theorem part_points {r : ℚ} {q : V3 ℚ × Nat} {points points' : List (V3 ℚ)} {samples samples' : List Nat}
    (h : ((points.zip samples).filter (nearBy r q)).Perm ((points'.zip samples').filter (nearBy r q)))
    (hl : samples.length = points.length) (hl' : samples'.length = points'.length) :
    (nearPart r q points samples points).Perm (nearPart r q points' samples' points') := by
  unfold nearPart
  rw [zip_points _ _ hl, zip_points _ _ hl', List.filter_map, List.filter_map]
  exact h.map _

theorem occupied_iff {points : List (V3 ℚ)} {samples : List Nat} {d : Nat} {c : Cell} :
    Occupied points samples d c ↔ ∃ e ∈ points.zip samples, belongs d c e = true := by
  unfold Occupied belongs
  constructor
  · rintro ⟨i, p, h1, h2, h3⟩
    exact ⟨(p, c.b), List.mem_of_getElem? (List.getElem?_zip_eq_some.2 ⟨h1, h2⟩ : _ = some (p, c.b)), decide_eq_true ⟨rfl, h3⟩⟩
  · rintro ⟨⟨p, b⟩, he, hb⟩
    obtain ⟨rfl, hb⟩ := of_decide_eq_true hb
    obtain ⟨i, hi⟩ := List.mem_iff_getElem?.1 he
    obtain ⟨h1, h2⟩ := List.getElem?_zip_eq_some.1 hi
    exact ⟨i, p, h1, h2, hb⟩

/-- What the octrees of the two clouds look like to a network. -/
theorem local_pair {L : Type} {k : Nat} (nrm : V3 ℚ → V3 ℚ) (divF : ℚ → (Fin k → ℚ) → (Fin k → ℚ)) (o : Octree (Fin k → ℚ))
    (pc pc' : Points ℚ (Fin k → ℚ) L) (samples samples' : List Nat) (h : LegalBuild o pc samples) (h' : LegalBuild o pc' samples')
    (hf : 1 ≤ o.fullDepth) {r : ℚ} {q : V3 ℚ × Nat} (hs : SameNear r q pc pc' samples samples') (feature : String)
    (hN : Asks feature 'N' 'n' ∨ Asks feature 'D' 'd' → pc.normals ≠ none ∧ pc'.normals ≠ none)
    (hF : Asks feature 'F' 'f' → pc.features ≠ none ∧ pc'.features ≠ none)
    (ha : Asks feature 'N' 'n' ∨ Asks feature 'D' 'd' ∨ Asks feature 'L' 'l' ∨ Asks feature 'P' 'p' ∨ Asks feature 'F' 'f') (nempty : Bool) (cin E : Nat) :
    ∃ o₁ i₁ t₁ x₁ o₂ i₂ t₂ x₂, Octree.build nrm divF o pc = .ok (o₁, i₁) ∧ o₁.constructAllNeigh = .ok t₁ ∧
      t₁.inputFeature feature nempty = .ok x₁ ∧ Octree.build nrm divF o pc' = .ok (o₂, i₂) ∧ o₂.constructAllNeigh = .ok t₂ ∧
      t₂.inputFeature feature nempty = .ok x₂ ∧
      LocalPair (nearRegion r q o.depth) t₁ t₂ o.depth nempty (o.depth - E) (if nempty then 0 else 2 ^ E) ∧
      NearRel (nearRegion r q o.depth) t₁ t₂ o.depth nempty o.depth (if nempty then 0 else 2 ^ E) cin ⟨cin, x₁.map (asVector cin)⟩
        ⟨cin, x₂.map (asVector cin)⟩ := by
  obtain ⟨o₁, i₁, nb₁, b1, n1, N1⟩ := C28_partial nrm divF o pc samples h hf
  obtain ⟨o₂, i₂, nb₂, b2, n2, N2⟩ := C28_partial nrm divF o pc' samples' h' hf
  obtain ⟨_, _, b1', d1, f1, B1, w1, cs, hs1, C1⟩ := C07_build nrm divF o pc samples h
  obtain ⟨_, _, b2', d2, f2, B2, w2, cs', hs2, C2⟩ := C07_build nrm divF o pc' samples' h'
  rw [b1] at b1'; cases b1'
  rw [b2] at b2'; cases b2'
  obtain ⟨_, _, cells, ch, row, b1', c1, c2, c3, c4, c5⟩ := C73_input_feature nrm divF o pc samples h feature (fun h => (hN h).1) (fun h => (hF h).1) ha
  rw [b1] at b1'; cases b1'
  obtain ⟨_, _, cells', ch', row', b2', c1', c2', c3', c4', c5'⟩ := C73_input_feature nrm divF o pc' samples' h' feature (fun h => (hN h).2)
    (fun h => (hF h).2) ha
  rw [b2] at b2'; cases b2'
  have h16 := h.depth
  have v1 : ({ o₁ with neighs := nb₁ } : Octree (Fin k → ℚ)).Valid o.depth := ⟨w1.depth_le, w1.h_le, w1.full_le, w1.batch_le, w1.wf⟩
  have v2 : ({ o₂ with neighs := nb₂ } : Octree (Fin k → ℚ)).Valid o.depth := ⟨w2.depth_le, w2.h_le, w2.full_le, w2.batch_le, w2.wf⟩
  have c1₁ : CellsOf o₁.batchSize o.depth o₁.keys cells := by rw [B1]; exact c1
  have c1₂ : CellsOf o₂.batchSize o.depth o₂.keys cells' := by rw [B2]; exact c1'
  have nd1 : cells.Nodup := nodes_nodup o₁ o.depth w1 o.depth (le_refl _) false 1 _ _ (.one _ _ _ c1₁ c2)
  have nd2 : cells'.Nodup := nodes_nodup o₂ o.depth w2 o.depth (le_refl _) false 1 _ _ (.one _ _ _ c1₂ c2')
  -- points in the cells of the region
  have near1 : ∀ d ≤ o.depth, ∀ c, Surr (nearRegion r q o.depth) o.depth d 0 c → ∀ e ∈ pc.points.zip samples, belongs d c e = true → nearBy r q e = true :=
    fun d hd c hc e he hb => near_of_surr hd hc (h.inCube _ (List.of_mem_zip (a := e.1) (b := e.2) he).1) hb
  have near2 : ∀ d ≤ o.depth, ∀ c, Surr (nearRegion r q o.depth) o.depth d 0 c → ∀ e ∈ pc'.points.zip samples', belongs d c e = true → nearBy r q e = true :=
    fun d hd c hc e he hb => near_of_surr hd hc (h'.inCube _ (List.of_mem_zip (a := e.1) (b := e.2) he).1) hb
  have occ : ∀ d ≤ o.depth, ∀ c, Surr (nearRegion r q o.depth) o.depth d 0 c → (Occupied pc.points samples d c ↔ Occupied pc'.points samples' d c) := by
    intro d hd c hc
    have P := filter_sub hs.points (near1 d hd c hc) (near2 d hd c hc)
    rw [occupied_iff, occupied_iff]
    have := fun e => P.mem_iff (a := e)
    simp only [List.mem_filter] at this
    constructor
    · rintro ⟨e, he⟩; exact ⟨e, (this e).1 he⟩
    · rintro ⟨e, he⟩; exact ⟨e, (this e).2 he⟩
  -- the non-empty nodes
  have ne : ∀ d ≤ o.depth, ∀ c, Surr (nearRegion r q o.depth) o.depth d 0 c → (c ∈ nonEmpty (cs d) (hs1 d) ↔ c ∈ nonEmpty (cs' d) (hs2 d)) := by
    intro d hd c hc
    obtain ⟨-, -, A1, -, A3⟩ := C1 d hd
    obtain ⟨-, -, A1', -, A3'⟩ := C2 d hd
    by_cases hfd : o.fullDepth ≤ d
    · rw [A1 hfd, A1' hfd]
      exact occ d hd c hc
    · have hlt : d < o.depth := by have := h.full; omega
      have hp : (firstChild c).parent = c := by
        unfold firstChild Cell.parent
        cases c
        simp
      obtain ⟨-, -, -, A4, -⟩ := C1 (d + 1) hlt
      obtain ⟨-, -, -, A4', -⟩ := C2 (d + 1) hlt
      have e1 := A3 hlt (firstChild c)
      have e2 := A3' hlt (firstChild c)
      rw [hp] at e1 e2
      rw [← e1, ← e2, A4 (by omega), A4' (by omega)]
  have q1 : ∀ d ≤ o.depth, ∀ ne, qc ({ o₁ with neighs := nb₁ } : Octree (Fin k → ℚ)) ne d = queried ne (cs d) (hs1 d) := by
    intro d hd ne
    refine (queried_qc v1 d hd ne _ _ ?_ (C1 d hd).2.1).symm
    show CellsOf o₁.batchSize d o₁.keys (cs d)
    rw [B1]; exact (C1 d hd).1
  have q2 : ∀ d ≤ o.depth, ∀ ne, qc ({ o₂ with neighs := nb₂ } : Octree (Fin k → ℚ)) ne d = queried ne (cs' d) (hs2 d) := by
    intro d hd ne
    refine (queried_qc v2 d hd ne _ _ ?_ (C2 d hd).2.1).symm
    show CellsOf o₂.batchSize d o₂.keys (cs' d)
    rw [B2]; exact (C2 d hd).1
  have st : ∀ d ≤ o.depth, ∀ c, Surr (nearRegion r q o.depth) o.depth d 0 c →
      (c ∈ qc ({ o₁ with neighs := nb₁ } : Octree (Fin k → ℚ)) true d ↔ c ∈ qc ({ o₂ with neighs := nb₂ } : Octree (Fin k → ℚ)) true d) := by
    intro d hd c hc
    rw [q1 d hd, q2 d hd]
    exact ne d hd c hc
  have hm0 : (0 : Int) ≤ if nempty then 0 else 2 ^ E := by split <;> positivity
  have lp : LocalPair (nearRegion r q o.depth) ({ o₁ with neighs := nb₁ } : Octree (Fin k → ℚ)) { o₂ with neighs := nb₂ } o.depth nempty (o.depth - E)
      (if nempty then 0 else 2 ^ E) := by
    refine ⟨v1, v2, ?_, ?_, hm0, ?_, st⟩
    · intro d h1 h2
      show NeighExact o₁.batchSize d o₁.keys nb₁
      rw [B1]; exact N1 d h1 h2
    · intro d h1 h2
      show NeighExact o₂.batchSize d o₂.keys nb₂
      rw [B2]; exact N2 d h1 h2
    · intro d hl hd c hc
      cases nempty with
      | true => exact st d hd c hc
      | false =>
        rw [q1 d hd, q2 d hd]
        show c ∈ cs d ↔ c ∈ cs' d
        by_cases hfd : d ≤ o.fullDepth
        · rw [(C1 d hd).2.2.2.1 hfd, (C2 d hd).2.2.2.1 hfd]
        · obtain ⟨e, rfl⟩ : ∃ e, d = e + 1 := ⟨d - 1, by omega⟩
          rw [(C1 e (by omega)).2.2.2.2 (by omega), (C2 e (by omega)).2.2.2.2 (by omega)]
          refine ne e (by omega) _ (Surr.parent hd (hc.mono ?_))
          rw [zero_add]
          show (2 : Int) ^ (o.depth - (e + 1)) ≤ 2 ^ E
          exact pow_le_pow_right₀ (by norm_num) (by omega)
  -- the features
  have e1 : nonEmpty cells ch = qc ({ o₁ with neighs := nb₁ } : Octree (Fin k → ℚ)) true o.depth := queried_qc v1 o.depth (le_refl _) true _ _ c1₁ c2
  have e2 : nonEmpty cells' ch' = qc ({ o₂ with neighs := nb₂ } : Octree (Fin k → ℚ)) true o.depth := queried_qc v2 o.depth (le_refl _) true _ _ c1₂ c2'
  have e3 : cells = qc ({ o₁ with neighs := nb₁ } : Octree (Fin k → ℚ)) false o.depth := queried_qc v1 o.depth (le_refl _) false _ _ c1₁ c2
  have e4 : cells' = qc ({ o₂ with neighs := nb₂ } : Octree (Fin k → ℚ)) false o.depth := queried_qc v2 o.depth (le_refl _) false _ _ c1₂ c2'
  have hrow : ∀ c ∈ nonEmpty cells ch, c ∈ nonEmpty cells' ch' → Surr (nearRegion r q o.depth) o.depth o.depth 0 c → row c = row' c := by
    intro c hc hc' hi
    have g1 := near1 o.depth (le_refl _) c hi
    have g2 := near2 o.depth (le_refl _) c hi
    have hcount : countIn o.depth c (pc.points.zip samples) = countIn o.depth c (pc'.points.zip samples') := by
      unfold countIn
      rw [List.countP_eq_length_filter, List.countP_eq_length_filter]
      exact (filter_sub hs.points g1 g2).length_eq
    rw [(c5 c hc).1, (c5' c hc').1, hcount, sum_same hs.normals g1 g2, sum_same hs.features g1 g2]
    unfold meanPoint
    rw [hcount, sum_same (part_points hs.points h.cloud.length h'.cloud.length) g1 g2]
  have zp : ∀ (cs : List Cell) (hs : List Int) (R : Cell → List ℚ), cs.Nodup → cs.length = hs.length →
      ((cs.zip hs).map fun p => if 0 ≤ p.2 then R p.1 else (R p.1).map fun _ => 0).map (asVector cin) =
        cs.map fun c => if c ∈ nonEmpty cs hs then asVector cin (R c) else 0 := by
    intro cs hs R hn hl
    have : cs = (cs.zip hs).map Prod.fst := by rw [List.map_fst_zip (by omega)]
    conv_rhs => rw [this, List.map_map]
    rw [List.map_map]
    refine List.map_congr_left fun q hq => ?_
    simp only [Function.comp, ← this]
    by_cases h0 : 0 ≤ q.2
    · rw [if_pos h0, if_pos ((mem_nonEmpty hn q hq).2 h0)]
    · rw [if_neg h0, if_neg (fun hm => h0 ((mem_nonEmpty hn q hq).1 hm))]
      funext i
      unfold asVector
      simp [List.getD_eq_getElem?_getD]
  cases nempty with
  | true =>
    refine ⟨o₁, i₁, _, _, o₂, i₂, _, _, b1, n1, c3, b2, n2, c3', lp, fun c => asVector cin (row c), fun c => asVector cin (row' c), ?_, ?_, ?_⟩
    · rw [List.map_map, e1]; rfl
    · rw [List.map_map, e2]; rfl
    · intro c hc hc' hi
      rw [← e1] at hc
      rw [← e2] at hc'
      exact congrArg (asVector cin) (hrow c hc hc' hi)
  | false =>
    refine ⟨o₁, i₁, _, _, o₂, i₂, _, _, b1, n1, c4, b2, n2, c4', lp, fun c => if c ∈ nonEmpty cells ch then asVector cin (row c) else 0,
      fun c => if c ∈ nonEmpty cells' ch' then asVector cin (row' c) else 0, ?_, ?_, ?_⟩
    · have len : cells.length = ch.length := by
        have W := w1.wf'
        obtain rfl := cells_unique (by omega) c1₁ (W.cellsOf _ (le_refl _))
        have b := c2
        rw [W.children _ (le_refl _)] at b
        cases b
        rw [number_length, W.len _ (le_refl _)]
      rw [zp _ _ _ nd1 len, ← e3]
    · have len : cells'.length = ch'.length := by
        have W := w2.wf'
        obtain rfl := cells_unique (by omega) c1₂ (W.cellsOf _ (le_refl _))
        have b := c2'
        rw [W.children _ (le_refl _)] at b
        cases b
        rw [number_length, W.len _ (le_refl _)]
      rw [zp _ _ _ nd2 len, ← e4]
    · intro c hc hc' hi
      have hi0 : Surr (nearRegion r q o.depth) o.depth o.depth 0 c := hi.mono hm0
      have hiff : c ∈ nonEmpty cells ch ↔ c ∈ nonEmpty cells' ch' := by
        rw [e1, e2]
        exact st _ (le_refl _) c hi0
      dsimp only
      by_cases hcn : c ∈ nonEmpty cells ch
      · rw [if_pos hcn, if_pos (hiff.1 hcn), hrow c hcn (hiff.1 hcn) hi0]
      · rw [if_neg hcn, if_neg (fun h => hcn (hiff.2 h))]

/-- **C169** The prediction of `UNet` (evaluation mode) at a point `q` of the cube depends only on the points of the cloud of the same sample that are
near `q`: if two clouds have the same points, with the same normals and features, at distance less than `seenRadius` finest voxels on every axis, both
clouds give the same prediction at `q`, whatever they contain elsewhere and whatever else is queried.  With linear interpolation the point has to be half
a cell away from the sides of the cube, where the interpolation wraps around. -/
theorem C169_unet {L : Type} {k : Nat} (P : Params) (hT : P.training = false) (nrm : V3 ℚ → V3 ℚ)
    (divF : ℚ → (Fin k → ℚ) → (Fin k → ℚ)) (o : Octree (Fin k → ℚ)) (pc pc' : Points ℚ (Fin k → ℚ) L) (samples samples' : List Nat)
    (h : LegalBuild o pc samples) (h' : LegalBuild o pc' samples') (hf : 1 ≤ o.fullDepth) (feature : String)
    (hN : Asks feature 'N' 'n' ∨ Asks feature 'D' 'd' → pc.normals ≠ none ∧ pc'.normals ≠ none)
    (hF : Asks feature 'F' 'f' → pc.features ≠ none ∧ pc'.features ≠ none)
    (ha : Asks feature 'N' 'n' ∨ Asks feature 'D' 'd' ∨ Asks feature 'L' 'l' ∨ Asks feature 'P' 'p' ∨ Asks feature 'F' 'f')
    (cfg : UNetConfig) (hcfg : cfg.Ok) (cout : Nat) (hds : cfg.encoderBlocks.length < o.depth) (hw : WidthOk (channelCount feature k)) (nempty : Bool)
    (method : String) (q : V3 ℚ × Nat) (hq : InCube q.1)
    (hl : method = "linear" → AwayFromSides (o.depth - cfg.encoderBlocks.length + cfg.decoderBlocks.length) q.1)
    (hs : SameNear (seenRadius cfg nempty method * (2 / 2 ^ o.depth)) q pc pc' samples samples')
    (qs qs' : List (V3 ℚ × Nat)) (hb : ∀ e ∈ qs ++ qs', e.2 < o.batchSize) :
    ∃ o₁ i₁ t₁ x₁ o₂ i₂ t₂ x₂, Octree.build nrm divF o pc = .ok (o₁, i₁) ∧ o₁.constructAllNeigh = .ok t₁ ∧
      t₁.inputFeature feature nempty = .ok x₁ ∧ Octree.build nrm divF o pc' = .ok (o₂, i₂) ∧ o₂.constructAllNeigh = .ok t₂ ∧
      t₂.inputFeature feature nempty = .ok x₂ ∧
      SameAt q qs qs' cout
        (unet P cfg (channelCount feature k) cout method nempty t₁ o.depth (qs.map row4) ⟨_, x₁.map (asVector (channelCount feature k))⟩)
        (unet P cfg (channelCount feature k) cout method nempty t₂ o.depth (qs'.map row4) ⟨_, x₂.map (asVector (channelCount feature k))⟩) := by
  obtain ⟨o₁, i₁, t₁, x₁, o₂, i₂, t₂, x₂, b1, n1, g1, b2, n2, g2, lp, hr⟩ :=
    local_pair nrm divF o pc pc' samples samples' h h' hf hs feature hN hF ha nempty (channelCount feature k) cfg.encoderBlocks.length
  refine ⟨o₁, i₁, t₁, x₁, o₂, i₂, t₂, x₂, b1, n1, g1, b2, n2, g2, ?_⟩
  have hB := h.batch
  have hle := hcfg.le
  have Q := lp.queries method (d := o.depth - cfg.encoderBlocks.length + cfg.decoderBlocks.length)
    (k := (if nempty then 0 else 2 ^ cfg.encoderBlocks.length) + (unetRadius cfg : Int)) (by omega) (by omega) (by omega) qs qs'
    (fun e he => lt_of_lt_of_le (hb e (List.mem_append_left _ he)) hB) (fun e he => lt_of_lt_of_le (hb e (List.mem_append_right _ he)) hB)
  obtain ⟨y, y', r1, r2, f, f', rfl, rfl, hff⟩ := lp.unet hT hcfg cout method hds (le_refl _) hw Q hr
  refine ⟨_, _, r1, r2, by simp, by simp, fun i j hi hj => ?_⟩
  rw [List.getElem?_map, List.getElem?_map, hi, hj]
  refine congrArg some (hff q (List.mem_of_getElem? hi) (List.mem_of_getElem? hj) fun c hc => ?_)
  have S := seen_surr (D := o.depth) (k := (if nempty then 0 else 2 ^ cfg.encoderBlocks.length) + (unetRadius cfg : Int)) (by omega) hq hl hc
  have es : o.depth - (o.depth - cfg.encoderBlocks.length + cfg.decoderBlocks.length) = cfg.encoderBlocks.length - cfg.decoderBlocks.length := by omega
  rw [es] at S
  have er : (((if nempty then 0 else 2 ^ cfg.encoderBlocks.length) + (unetRadius cfg : Int) : Int) : ℚ) =
      (if nempty then 0 else 2 ^ cfg.encoderBlocks.length) + (unetRadius cfg : ℚ) := by
    cases nempty <;> simp
  rw [er] at S
  exact S

/-- The default `UNet` sees 365 voxels in every direction with nearest interpolation on non-empty nodes, and 365.5 with linear interpolation; empty
nodes add 16. -/
theorem C169_radius : seenRadius unetConfig true "nearest" = 365 ∧ seenRadius unetConfig true "linear" = 731 / 2 ∧
    seenRadius unetConfig false "nearest" = 381 ∧ seenRadius unetConfig false "linear" = 763 / 2 := by
  have h := radius_default
  unfold seenRadius
  rw [h]
  have hne : ¬ ("nearest" = "linear") := by decide
  refine ⟨?_, ?_, ?_, ?_⟩ <;> norm_num [unetConfig, hne]

/-! ### crops -/

theorem zip_maskSel {α β : Type} (m : List Bool) (a : List α) (b : List β) (h : b.length = a.length) :
    (maskSel m a).zip (maskSel m b) = maskSel m (a.zip b) := by
  induction m generalizing a b with
  | nil => simp
  | cons c m ih =>
    cases a with
    | nil => simp
    | cons x a =>
      cases b with
      | nil => simp at h
      | cons y b =>
        have h := ih a b (by simpa using h)
        cases c with
        | false => simpa [maskSel] using h
        | true => simpa [maskSel] using h

theorem filter_maskSel {α β : Type} (g : α → Bool) (pr : β → α) (p : β → Bool) (l : List β) (h : ∀ b ∈ l, p b = true → g (pr b) = true) :
    (maskSel (l.map fun b => g (pr b)) l).filter p = l.filter p := by
  induction l with
  | nil => rfl
  | cons b l ih =>
    have ih := ih fun b hb => h b (List.mem_cons_of_mem _ hb)
    have hb := h b List.mem_cons_self
    simp only [List.map_cons]
    cases hg : g (pr b) with
    | false =>
      have : p b = false := by
        cases hp : p b with
        | false => rfl
        | true => rw [hb hp] at hg; cases hg
      simpa [maskSel, this] using ih
    | true => simp [maskSel, List.filter_cons, ih]

/-- A crop that keeps the neighbourhood has the same points near `q`. -/
theorem crop_same {L : Type} {o : Octree F} {pc pc' : Points ℚ F L} {samples : List Nat} (h : LegalBuild o pc samples) {lo hi : V3 ℚ} {r : ℚ}
    {q : V3 ℚ × Nat} (hlo : lo.x ≤ q.1.x - r ∧ lo.y ≤ q.1.y - r ∧ lo.z ≤ q.1.z - r) (hhi : q.1.x + r ≤ hi.x ∧ q.1.y + r ≤ hi.y ∧ q.1.z + r ≤ hi.z)
    (hc : pc.getItem (pc.inboxMask lo hi) = .ok pc') :
    LegalBuild o pc' (maskSel (pc.inboxMask lo hi) samples) ∧ SameNear r q pc pc' samples (maskSel (pc.inboxMask lo hi) samples) ∧
      (pc.normals ≠ none → pc'.normals ≠ none) ∧ (pc.features ≠ none → pc'.features ≠ none) := by
  obtain ⟨m, hm⟩ : ∃ m, m = pc.inboxMask lo hi := ⟨_, rfl⟩
  rw [← hm] at hc ⊢
  have hml : m.length = pc.points.length := by rw [hm]; simp [Points.inboxMask]
  have bi : ∀ {α : Type} (l : List α), l.length = pc.points.length → boolIndex m l = .ok (maskSel m l) := by
    intro α l hl
    unfold boolIndex
    rw [if_pos (by omega)]
  have attr : ∀ {α : Type} (a : Option (List α)), (∀ l, a = some l → l.length = pc.points.length) → Points.sliceAttr m a = .ok (a.map (maskSel m)) := by
    intro α a ha
    cases a with
    | none => rfl
    | some l =>
      have e := bi l (ha l rfl)
      show (do let r ← boolIndex m l; pure (some r)) = _
      rw [e]
      rfl
  unfold Points.getItem at hc
  rw [bi _ rfl, attr _ h.cloud.normals, attr _ h.cloud.features] at hc
  simp only [bind, Except.bind] at hc
  cases hlb : Points.sliceAttr m pc.labels with
  | error e => rw [hlb] at hc; cases hc
  | ok lb =>
  rw [hlb] at hc
  cases hid : Points.sliceAttr m pc.batchId with
  | error e => rw [hid] at hc; cases hc
  | ok ids =>
  rw [hid] at hc
  cases hc
  have kept : ∀ p : V3 ℚ, ∀ b, nearBy r q (p, b) = true →
      (decide (p.x > lo.x ∧ p.y > lo.y ∧ p.z > lo.z) && decide (p.x < hi.x ∧ p.y < hi.y ∧ p.z < hi.z)) = true := by
    intro p b hp
    unfold nearBy at hp
    obtain ⟨-, h1, h2, h3⟩ := of_decide_eq_true hp
    simp only [abs_lt] at h1 h2 h3
    rw [Bool.and_eq_true, decide_eq_true_eq, decide_eq_true_eq]
    refine ⟨⟨?_, ?_, ?_⟩, ?_, ?_, ?_⟩ <;> linarith
  have part : ∀ {V : Type} (vals : List V), vals.length = pc.points.length →
      (nearPart r q pc.points samples vals).Perm (nearPart r q (maskSel m pc.points) (maskSel m samples) (maskSel m vals)) := by
    intro V vals hv
    unfold nearPart
    rw [zip_maskSel _ _ _ h.cloud.length, zip_maskSel _ _ _ (by rw [List.length_zip, h.cloud.length, hv, min_self])]
    have e : m = ((pc.points.zip samples).zip vals).map fun e =>
        (fun p : V3 ℚ => decide (p.x > lo.x ∧ p.y > lo.y ∧ p.z > lo.z) && decide (p.x < hi.x ∧ p.y < hi.y ∧ p.z < hi.z)) (Prod.fst e.1) := by
      have : ((pc.points.zip samples).zip vals).map (fun e => Prod.fst e.1) = pc.points := by
        have e1 : (fun e : (V3 ℚ × Nat) × V => Prod.fst e.1) = Prod.fst ∘ Prod.fst := rfl
        rw [e1, ← List.map_map, List.map_fst_zip (by rw [List.length_zip, h.cloud.length, hv, min_self]), List.map_fst_zip (by rw [h.cloud.length])]
      rw [hm]
      unfold Points.inboxMask
      conv_lhs => rw [← this, List.map_map]
      rfl
    have := filter_maskSel (fun p : V3 ℚ => decide (p.x > lo.x ∧ p.y > lo.y ∧ p.z > lo.z) && decide (p.x < hi.x ∧ p.y < hi.y ∧ p.z < hi.z))
      (fun e : (V3 ℚ × Nat) × V => Prod.fst e.1) (fun e => nearBy r q e.1) ((pc.points.zip samples).zip vals) (fun b _ hb => kept _ _ hb)
    rw [e, this]
  refine ⟨⟨h.depth, h.full, h.batch, h.same_batch, ⟨?_, ?_, ?_, ?_, ?_⟩, ?_⟩, ⟨?_, ?_, ?_⟩, ?_, ?_⟩
  · rw [maskSel_length _ _ (by rw [hml, h.cloud.length]), maskSel_length _ _ hml]
  · intro b hb
    obtain ⟨i, -, hi⟩ := (mem_maskSel _ _ _).1 hb
    exact h.cloud.lt b (List.mem_of_getElem? hi)
  · intro hB
    rw [h.cloud.ids hB, attr _ (by rintro l ⟨⟩; rw [List.length_map, h.cloud.length])] at hid
    cases hid
    have : ∀ (m : List Bool) (l : List Nat), maskSel m (l.map Int.ofNat) = (maskSel m l).map Int.ofNat := by
      intro m l
      induction m generalizing l with
      | nil => simp
      | cons c m ih => cases l <;> cases c <;> simp [maskSel, ih]
    simp [this]
  · intro n hn
    dsimp only at hn
    cases hpn : pc.normals with
    | none => rw [hpn] at hn; cases hn
    | some n' =>
      rw [hpn] at hn
      cases hn
      rw [maskSel_length _ _ (by rw [hml, h.cloud.normals _ hpn]), maskSel_length _ _ hml]
  · intro n hn
    dsimp only at hn
    cases hpn : pc.features with
    | none => rw [hpn] at hn; cases hn
    | some n' =>
      rw [hpn] at hn
      cases hn
      rw [maskSel_length _ _ (by rw [hml, h.cloud.features _ hpn]), maskSel_length _ _ hml]
  · intro p hp
    obtain ⟨i, -, hi⟩ := (mem_maskSel _ _ _).1 hp
    exact h.inCube p (List.mem_of_getElem? hi)
  · have := (part pc.points rfl).map Prod.fst
    unfold nearPart at this
    have e : ∀ (ps : List (V3 ℚ)) (ss : List Nat), ss.length = ps.length →
        (((ps.zip ss).zip ps).filter fun e => nearBy r q e.1).map Prod.fst = (ps.zip ss).filter (nearBy r q) := by
      intro ps ss hl
      rw [zip_points _ _ hl, List.filter_map, List.map_map]
      exact (List.map_congr_left (fun _ _ => rfl)).trans (List.map_id _)
    rw [e _ _ h.cloud.length, e _ _ (by rw [maskSel_length _ _ (by rw [hml, h.cloud.length]), maskSel_length _ _ hml])] at this
    exact this
  · cases hpn : pc.normals with
    | none => simp [nearPart]
    | some n => simpa [hpn] using part n (h.cloud.normals _ hpn)
  · cases hpn : pc.features with
    | none => simp [nearPart]
    | some n => simpa [hpn] using part n (h.cloud.features _ hpn)
  · intro hn
    cases hpn : pc.normals with
    | none => exact absurd hpn hn
    | some n => simp [hpn]
  · intro hn
    cases hpn : pc.features with
    | none => exact absurd hpn hn
    | some n => simp [hpn]

/-- **C169, crops.** Cropping a cloud with `inbox_mask` and indexing to a box that leaves `seenRadius` finest voxels around the point `q` does not change
the prediction at `q`: a scene can be processed in overlapping boxes. -/
theorem C169_crop {L : Type} {k : Nat} (P : Params) (hT : P.training = false) (nrm : V3 ℚ → V3 ℚ)
    (divF : ℚ → (Fin k → ℚ) → (Fin k → ℚ)) (o : Octree (Fin k → ℚ)) (pc pc' : Points ℚ (Fin k → ℚ) L) (samples : List Nat)
    (h : LegalBuild o pc samples) (hf : 1 ≤ o.fullDepth) (feature : String)
    (hN : Asks feature 'N' 'n' ∨ Asks feature 'D' 'd' → pc.normals ≠ none) (hF : Asks feature 'F' 'f' → pc.features ≠ none)
    (ha : Asks feature 'N' 'n' ∨ Asks feature 'D' 'd' ∨ Asks feature 'L' 'l' ∨ Asks feature 'P' 'p' ∨ Asks feature 'F' 'f')
    (cfg : UNetConfig) (hcfg : cfg.Ok) (cout : Nat) (hds : cfg.encoderBlocks.length < o.depth) (hw : WidthOk (channelCount feature k)) (nempty : Bool)
    (method : String) (q : V3 ℚ × Nat) (hq : InCube q.1)
    (hl : method = "linear" → AwayFromSides (o.depth - cfg.encoderBlocks.length + cfg.decoderBlocks.length) q.1) (lo hi : V3 ℚ) (r : ℚ)
    (hr : r = seenRadius cfg nempty method * (2 / 2 ^ o.depth)) (hlo : lo.x ≤ q.1.x - r ∧ lo.y ≤ q.1.y - r ∧ lo.z ≤ q.1.z - r)
    (hhi : q.1.x + r ≤ hi.x ∧ q.1.y + r ≤ hi.y ∧ q.1.z + r ≤ hi.z) (hc : pc.getItem (pc.inboxMask lo hi) = .ok pc')
    (qs qs' : List (V3 ℚ × Nat)) (hb : ∀ e ∈ qs ++ qs', e.2 < o.batchSize) :
    ∃ o₁ i₁ t₁ x₁ o₂ i₂ t₂ x₂, Octree.build nrm divF o pc = .ok (o₁, i₁) ∧ o₁.constructAllNeigh = .ok t₁ ∧
      t₁.inputFeature feature nempty = .ok x₁ ∧ Octree.build nrm divF o pc' = .ok (o₂, i₂) ∧ o₂.constructAllNeigh = .ok t₂ ∧
      t₂.inputFeature feature nempty = .ok x₂ ∧
      SameAt q qs qs' cout
        (unet P cfg (channelCount feature k) cout method nempty t₁ o.depth (qs.map row4) ⟨_, x₁.map (asVector (channelCount feature k))⟩)
        (unet P cfg (channelCount feature k) cout method nempty t₂ o.depth (qs'.map row4) ⟨_, x₂.map (asVector (channelCount feature k))⟩) := by
  subst hr
  obtain ⟨h', hs, hN', hF'⟩ := crop_same h hlo hhi hc
  exact C169_unet P hT nrm divF o pc pc' samples _ h h' hf feature (fun a => ⟨hN a, hN' (hN a)⟩) (fun a => ⟨hF a, hF' (hF a)⟩) ha cfg hcfg cout hds hw
    nempty method q hq hl hs qs qs' hb

/-- Two points with normals; the second one is far away from the first one and is at different places in different clouds. -/
def cloudFar (s : ℚ) : Points ℚ (Fin 1 → ℚ) Unit := ⟨[⟨-1 / 2, -1 / 2, -1 / 2⟩, ⟨s, 1 / 3, 0⟩], some [⟨1, 0, 0⟩, ⟨0, 1, 0⟩], none, none, none, 1, none, 0⟩

theorem cloudFar_legal (s : ℚ) (hs : s = 1 / 2 ∨ s = 3 / 4) : LegalBuild (Octree.new 11 1 1 0) (cloudFar s) [0, 0] := by
  refine ⟨by simp [Octree.new], by simp [Octree.new], by simp [Octree.new], rfl,
    ⟨rfl, by simp [Octree.new], by simp [Octree.new], by simp [cloudFar], by simp [cloudFar]⟩, ?_⟩
  intro p hp; simp only [cloudFar, List.mem_cons, List.not_mem_nil, or_false] at hp
  rcases hs with rfl | rfl <;> rcases hp with rfl | rfl <;> decide +kernel

/-- The hypotheses are met by two different clouds of depth 11 and the default network. -/
example (P : Params) (hT : P.training = false) : cloudFar (1 / 2) ≠ cloudFar (3 / 4) ∧ ∃ o₁ i₁ t₁ x₁ o₂ i₂ t₂ x₂,
      Octree.build id (fun c v i => v i / c) (Octree.new 11 1 1 0) (cloudFar (1 / 2)) = .ok (o₁, i₁) ∧ o₁.constructAllNeigh = .ok t₁ ∧
      t₁.inputFeature "ND" false = .ok x₁ ∧ Octree.build id (fun c v i => v i / c) (Octree.new 11 1 1 0) (cloudFar (3 / 4)) = .ok (o₂, i₂) ∧
      o₂.constructAllNeigh = .ok t₂ ∧ t₂.inputFeature "ND" false = .ok x₂ ∧
      SameAt (⟨-1 / 2, -1 / 2, -1 / 2⟩, 0) (((cloudFar (1 / 2)).points.zip [0, 0])) (((cloudFar (3 / 4)).points.zip [0, 0])) 10
        (unet P unetConfig 4 10 "linear" false t₁ 11 (((cloudFar (1 / 2)).points.zip [0, 0]).map row4) ⟨4, x₁.map (asVector 4)⟩)
        (unet P unetConfig 4 10 "linear" false t₂ 11 (((cloudFar (3 / 4)).points.zip [0, 0]).map row4) ⟨4, x₂.map (asVector 4)⟩) := by
  refine ⟨fun h => ?_, ?_⟩
  · have := congrArg (fun c => c.points) h
    simp only [cloudFar, List.cons.injEq, V3.mk.injEq] at this
    norm_num at this
  have hcc : channelCount "ND" 1 = 4 := by decide +kernel
  have hE : unetConfig.encoderBlocks.length = 4 := rfl
  have hG : unetConfig.decoderBlocks.length = 4 := rfl
  have := C169_unet P hT id (fun c v i => v i / c) (Octree.new 11 1 1 0) (cloudFar (1 / 2)) (cloudFar (3 / 4)) [0, 0] [0, 0]
    (cloudFar_legal _ (.inl rfl)) (cloudFar_legal _ (.inr rfl)) (by simp [Octree.new]) "ND" (fun _ => by simp [cloudFar])
    (fun h => absurd h (by decide +kernel)) (by decide +kernel) unetConfig unetConfig_ok 10 (by decide)
    (by rw [hcc]; unfold WidthOk; decide) false "linear" (⟨-1 / 2, -1 / 2, -1 / 2⟩, 0) (by decide +kernel)
    (fun _ => by simp only [Octree.new, hE, hG, AwayFromSides]; norm_num)
    (by
      rw [C169_radius.2.2.2]
      simp only [Octree.new]
      have n1 : ∀ s : ℚ, s = 1 / 2 ∨ s = 3 / 4 → nearBy (763 / 2 * (2 / 2 ^ 11)) (⟨-1 / 2, -1 / 2, -1 / 2⟩, 0) (⟨s, 1 / 3, 0⟩, 0) = false := by
        rintro s (rfl | rfl) <;> decide +kernel
      constructor <;> simp only [cloudFar, nearPart, List.zip_cons_cons, List.zip_nil_right, List.filter_cons, n1 _ (.inl rfl), n1 _ (.inr rfl), List.filter_nil, Bool.false_eq_true, if_false, Option.getD] <;> exact List.Perm.refl _)
    ((cloudFar (1 / 2)).points.zip [0, 0]) ((cloudFar (3 / 4)).points.zip [0, 0]) (by simp [cloudFar, Octree.new])
  rw [hcc] at this
  exact this

/-- The hypotheses of the crop are met: the crop keeps the first point and drops the second. -/
example : (cloudFar (1 / 2)).getItem ((cloudFar (1 / 2)).inboxMask ⟨-9 / 10, -9 / 10, -9 / 10⟩ ⟨-1 / 10, -1 / 10, -1 / 10⟩) =
      .ok ⟨[⟨-1 / 2, -1 / 2, -1 / 2⟩], some [⟨1, 0, 0⟩], none, none, none, 1, none, 0⟩ ∧
    seenRadius unetConfig true "linear" * (2 / 2 ^ 11) ≤ -1 / 2 - (-9 / 10) := by
  constructor
  · have : (cloudFar (1 / 2)).inboxMask ⟨-9 / 10, -9 / 10, -9 / 10⟩ ⟨-1 / 10, -1 / 10, -1 / 10⟩ = [true, false] := by decide +kernel
    rw [this]
    rfl
  · rw [C169_radius.2.1]
    norm_num

end Ocnn
