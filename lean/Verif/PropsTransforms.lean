import Verif.PropsPoints
import Mathlib.Analysis.SpecialFunctions.Sqrt

/-! C153 and C154: transformations of point clouds that can be undone and composed, and flipping as scaling. -/

namespace Ocnn
open Spec
variable {K F L : Type}

theorem attr_map_id {α : Type} (o : Option (List α)) (f g : α → α) (h : ∀ v, g (f v) = v) : (o.map (List.map f)).map (List.map g) = o := by
  have e : g ∘ f = id := funext h
  cases o with
  | none => rfl
  | some l => simp [e]

/-- **C153**, translations: two translations are one, and the opposite translation restores the cloud. -/
theorem C153_translate [AddCommGroup K] (p : Points K F L) (s t : V3 K) :
    (p.translate s).translate t = p.translate (s + t) ∧ (p.translate t).translate ⟨-t.x, -t.y, -t.z⟩ = p := by
  constructor
  · unfold Points.translate
    simp only [List.map_map]
    congr 2
    funext v
    ext <;> simp [add_assoc]
  · unfold Points.translate
    simp only [List.map_map]
    have e : ((· + (⟨-t.x, -t.y, -t.z⟩ : V3 K)) ∘ (· + t) : V3 K → V3 K) = id := by
      funext v
      ext <;> simp
    rw [e, List.map_id]

/-- **C153**, rotations: the opposite angles one by one, the last axis first, restore the cloud. -/
theorem C153_rotate [Field K] (p : Points K F L) (c s : V3 K) (hx : c.x ^ 2 + s.x ^ 2 = 1) (hy : c.y ^ 2 + s.y ^ 2 = 1)
    (hz : c.z ^ 2 + s.z ^ 2 = 1) :
    (((p.rotate c s).rotate ⟨1, 1, c.z⟩ ⟨0, 0, -s.z⟩).rotate ⟨1, c.y, 1⟩ ⟨0, -s.y, 0⟩).rotate ⟨c.x, 1, 1⟩ ⟨-s.x, 0, 0⟩ = p := by
  obtain ⟨T, h1, h2, -, -, h5⟩ := C61_rotate p c s hx hy hz
  have e : ∀ v : V3 K, ((v.mulMat (Points.rotMat ⟨1, 1, c.z⟩ ⟨0, 0, -s.z⟩)).mulMat (Points.rotMat ⟨1, c.y, 1⟩ ⟨0, -s.y, 0⟩)).mulMat
      (Points.rotMat ⟨c.x, 1, 1⟩ ⟨-s.x, 0, 0⟩) = turnX c.x (-s.x) (turnY c.y (-s.y) (turnZ c.z (-s.z) v)) := by
    intro v
    simp only [rotMat_apply]
    ext <;> simp [turnX, turnY, turnZ]
  rw [h1]
  unfold Points.rotate
  simp only [List.map_map, Option.map_map]
  have e2 : ((fun v : V3 K => v.mulMat (Points.rotMat ⟨c.x, 1, 1⟩ ⟨-s.x, 0, 0⟩)) ∘ (fun v => v.mulMat (Points.rotMat ⟨1, c.y, 1⟩ ⟨0, -s.y, 0⟩)) ∘
      (fun v => v.mulMat (Points.rotMat ⟨1, 1, c.z⟩ ⟨0, 0, -s.z⟩)) ∘ T) = id := by
    funext v
    simp only [Function.comp_apply]
    rw [e, h5]
    rfl
  simp only [Function.comp_def, List.map_map] at e2 ⊢
  rw [e2, List.map_id]
  cases p with
  | mk a n f l b bs bn d =>
    cases n with
    | none => rfl
    | some ns => simp

/-- Rotating about one axis by two angles is rotating by their sum (with the addition theorems for the cosines and sines). -/
theorem C153_rotate_add [Field K] (p : Points K F L) (c s c' s' : K) :
    ((p.rotate ⟨1, 1, c⟩ ⟨0, 0, s⟩).rotate ⟨1, 1, c'⟩ ⟨0, 0, s'⟩ = p.rotate ⟨1, 1, c * c' - s * s'⟩ ⟨0, 0, s * c' + c * s'⟩) ∧
    ((p.rotate ⟨1, c, 1⟩ ⟨0, s, 0⟩).rotate ⟨1, c', 1⟩ ⟨0, s', 0⟩ = p.rotate ⟨1, c * c' - s * s', 1⟩ ⟨0, s * c' + c * s', 0⟩) ∧
    ((p.rotate ⟨c, 1, 1⟩ ⟨s, 0, 0⟩).rotate ⟨c', 1, 1⟩ ⟨s', 0, 0⟩ = p.rotate ⟨c * c' - s * s', 1, 1⟩ ⟨s * c' + c * s', 0, 0⟩) := by
  have key : ∀ a b a' b' a'' b'' : V3 K, (∀ v : V3 K, (v.mulMat (Points.rotMat a b)).mulMat (Points.rotMat a' b') = v.mulMat (Points.rotMat a'' b'')) →
      (p.rotate a b).rotate a' b' = p.rotate a'' b'' := by
    intro a b a' b' a'' b'' h
    unfold Points.rotate
    simp only [List.map_map, Option.map_map, Function.comp_def, h]
  refine ⟨key _ _ _ _ _ _ fun v => ?_, key _ _ _ _ _ _ fun v => ?_, key _ _ _ _ _ _ fun v => ?_⟩ <;>
  · simp only [rotMat_apply]
    ext <;> simp [turnX, turnY, turnZ] <;> ring

/-! ### scaling -/

section scaling
variable [Field K] [LinearOrder K] [IsStrictOrderedRing K]

/-- The vector of length one in the same direction. -/
def unitVec (rt : K → K) (v : V3 K) : V3 K := v.map (· / rt (v.x ^ 2 + v.y ^ 2 + v.z ^ 2))

/-- Quotient of coordinates. -/
def divBy (v f : V3 K) : V3 K := ⟨v.x / f.x, v.y / f.y, v.z / f.z⟩

theorem rt_unique (rt : K → K) (hrt : ∀ x, 0 ≤ x → 0 ≤ rt x ∧ rt x ^ 2 = x) (x y : K) (hy : 0 ≤ y) (h : y ^ 2 = x) : rt x = y := by
  obtain ⟨h1, h2⟩ := hrt x (by rw [← h]; positivity)
  exact (pow_left_inj₀ h1 hy (two_ne_zero)).mp (by rw [h2, h])

theorem unitVec_smul (rt : K → K) (hrt : ∀ x, 0 ≤ x → 0 ≤ rt x ∧ rt x ^ 2 = x) (r : K) (hr : 0 < r) (v : V3 K) :
    unitVec rt (v.map (r * ·)) = unitVec rt v := by
  obtain ⟨h1, h2⟩ := hrt (v.x ^ 2 + v.y ^ 2 + v.z ^ 2) (by positivity)
  have e : rt ((r * v.x) ^ 2 + (r * v.y) ^ 2 + (r * v.z) ^ 2) = r * rt (v.x ^ 2 + v.y ^ 2 + v.z ^ 2) := by
    apply rt_unique rt hrt _ _ (by positivity)
    rw [mul_pow, h2]; ring
  unfold unitVec V3.map
  dsimp only
  rw [e]
  ext <;> dsimp only <;> rw [mul_div_mul_left _ _ hr.ne']

theorem unitVec_self (rt : K → K) (hrt : ∀ x, 0 ≤ x → 0 ≤ rt x ∧ rt x ^ 2 = x) (v : V3 K) (hv : dot3 v v = 1) : unitVec rt v = v := by
  have e : rt (v.x ^ 2 + v.y ^ 2 + v.z ^ 2) = 1 := by
    apply rt_unique rt hrt _ _ zero_le_one
    simp only [dot3] at hv
    linarith
  unfold unitVec V3.map
  rw [e]
  ext <;> simp

theorem unitVec_unit (rt : K → K) (hrt : ∀ x, 0 ≤ x → 0 ≤ rt x ∧ rt x ^ 2 = x) (v : V3 K) (hv : 0 < dot3 v v) :
    dot3 (unitVec rt v) (unitVec rt v) = 1 ∧ 0 < rt (v.x ^ 2 + v.y ^ 2 + v.z ^ 2) := by
  have hs : v.x ^ 2 + v.y ^ 2 + v.z ^ 2 = dot3 v v := by simp only [dot3]; ring
  obtain ⟨h1, h2⟩ := hrt (v.x ^ 2 + v.y ^ 2 + v.z ^ 2) (by positivity)
  have hne : rt (v.x ^ 2 + v.y ^ 2 + v.z ^ 2) ≠ 0 := by
    intro h0
    rw [h0] at h2
    rw [hs] at h2
    simp at h2
    linarith
  refine ⟨?_, lt_of_le_of_ne h1 (Ne.symm hne)⟩
  have h3 : rt (v.x ^ 2 + v.y ^ 2 + v.z ^ 2) * rt (v.x ^ 2 + v.y ^ 2 + v.z ^ 2) = v.x ^ 2 + v.y ^ 2 + v.z ^ 2 := by
    rw [← pow_two]; exact h2
  unfold unitVec V3.map
  simp only [dot3]
  rw [div_mul_div_comm, div_mul_div_comm, div_mul_div_comm, h3, ← add_div, ← add_div]
  rw [div_eq_one_iff_eq]
  · ring
  · rw [hs]; exact hv.ne'

/-- Positive factors of moderate size. -/
def GoodFactor (f : V3 K) : Prop := (0 < f.x ∧ f.x ≤ 10 ^ 12) ∧ (0 < f.y ∧ f.y ≤ 10 ^ 12) ∧ (0 < f.z ∧ f.z ≤ 10 ^ 12)

/-- A vector of length one divided by good factors is not tiny. -/
theorem divBy_big (f n : V3 K) (hf : GoodFactor f) (hn : dot3 n n = 1) :
    (1 / 10 ^ 12 : K) ^ 2 ≤ (n.x / f.x) ^ 2 + (n.y / f.y) ^ 2 + (n.z / f.z) ^ 2 := by
  have key : ∀ a b : K, 0 < b → b ≤ 10 ^ 12 → (a * (1 / 10 ^ 12)) ^ 2 ≤ (a / b) ^ 2 := by
    intro a b h0 h1
    rw [div_eq_mul_one_div a b, mul_pow, mul_pow]
    have := one_div_le_one_div_of_le h0 h1
    have h3 : (0 : K) < 1 / 10 ^ 12 := by positivity
    gcongr
  have k1 := key n.x f.x hf.1.1 hf.1.2
  have k2 := key n.y f.y hf.2.1.1 hf.2.1.2
  have k3 := key n.z f.z hf.2.2.1 hf.2.2.2
  have e : (1 / 10 ^ 12 : K) ^ 2 = (n.x * (1 / 10 ^ 12)) ^ 2 + (n.y * (1 / 10 ^ 12)) ^ 2 + (n.z * (1 / 10 ^ 12)) ^ 2 := by
    have : (n.x * (1 / 10 ^ 12)) ^ 2 + (n.y * (1 / 10 ^ 12)) ^ 2 + (n.z * (1 / 10 ^ 12)) ^ 2 = dot3 n n * (1 / 10 ^ 12) ^ 2 := by
      simp only [dot3]; ring
    rw [this, hn, one_mul]
  rw [e]
  linarith

theorem divBy_pos (f n : V3 K) (hf : GoodFactor f) (hn : dot3 n n = 1) : 0 < dot3 (divBy n f) (divBy n f) := by
  have h := divBy_big f n hf hn
  have h2 : (0 : K) < (1 / 10 ^ 12) ^ 2 := by positivity
  have e : dot3 (divBy n f) (divBy n f) = (n.x / f.x) ^ 2 + (n.y / f.y) ^ 2 + (n.z / f.z) ^ 2 := by simp only [dot3, divBy]; ring
  rw [e]
  linarith

/-- Scaling by good factors, for normals of length one: also for equal factors the new normals are the unit vectors of the divided ones. -/
theorem scale_eq (rt : K → K) (hrt : ∀ x, 0 ≤ x → 0 ≤ rt x ∧ rt x ^ 2 = x) (p : Points K F L) (f : V3 K) (hf : GoodFactor f)
    (hn : ∀ ns, p.normals = some ns → ∀ n ∈ ns, dot3 n n = 1) :
    p.scale rt f = .ok { p with points := p.points.map (·.scaleBy f), normals := p.normals.map (List.map fun n => unitVec rt (divBy n f)) } := by
  have hz : f.x ≠ 0 ∧ f.y ≠ 0 ∧ f.z ≠ 0 := ⟨hf.1.1.ne', hf.2.1.1.ne', hf.2.2.1.ne'⟩
  -- equal factors
  have huni : ∀ ns, p.normals = some ns → f.y = f.x → f.z = f.x → ns.map (fun n => unitVec rt (divBy n f)) = ns := by
    intro ns hns hy hzz
    conv_rhs => rw [← List.map_id ns]
    apply List.map_congr_left
    intro n hnm
    have e : divBy n f = n.map ((1 / f.x) * ·) := by
      unfold divBy V3.map
      rw [hy, hzz]
      ext <;> simp [div_eq_inv_mul]
    rw [e, unitVec_smul rt hrt _ (one_div_pos.mpr hf.1.1), unitVec_self rt hrt n (hn ns hns n hnm)]
    rfl
  unfold Points.scale
  rw [show pyAssert (f.x ≠ 0 ∧ f.y ≠ 0 ∧ f.z ≠ 0) = .ok () from by unfold pyAssert; rw [if_pos hz]]
  simp only [bind, Except.bind, pure, Except.pure]
  split
  · rename_i h1
    obtain ⟨a, b, c⟩ := h1
    have e1 : p.points.map (·.scaleBy f) = p.points := by
      conv_rhs => rw [← List.map_id p.points]
      apply List.map_congr_left
      intro v _
      unfold V3.scaleBy
      rw [a, b, c]
      ext <;> simp
    have e2 : p.normals.map (List.map fun n => unitVec rt (divBy n f)) = p.normals := by
      cases hp : p.normals with
      | none => rfl
      | some ns => rw [Option.map_some, huni ns hp (by rw [a, b]) (by rw [a, c])]
    rw [e1, e2]
  · have e2 : (match p.normals with
        | none => none
        | some ns =>
          if f.x ≠ f.x ∨ f.y ≠ f.x ∨ f.z ≠ f.x then
            some (ns.map fun (n : V3 K) => (n.scaleBy (f.map (1 / ·))).map (· / max (rt ((n.scaleBy (f.map (1 / ·))).x ^ 2
              + (n.scaleBy (f.map (1 / ·))).y ^ 2 + (n.scaleBy (f.map (1 / ·))).z ^ 2)) (1 / 10 ^ 12)))
          else some ns) = p.normals.map (List.map fun n => unitVec rt (divBy n f)) := by
      cases hp : p.normals with
      | none => rfl
      | some ns =>
        dsimp only
        rw [Option.map_some]
        split
        · congr 1
          apply List.map_congr_left
          intro n hnm
          have e : n.scaleBy (f.map (1 / ·)) = divBy n f := by
            unfold V3.scaleBy V3.map divBy
            ext <;> simp [div_eq_mul_inv]
          rw [e]
          have hb := divBy_big f n hf (hn ns hp n hnm)
          obtain ⟨h1, h2⟩ := hrt ((divBy n f).x ^ 2 + (divBy n f).y ^ 2 + (divBy n f).z ^ 2) (by positivity)
          have h3 : (1 / 10 ^ 12 : K) ≤ rt ((divBy n f).x ^ 2 + (divBy n f).y ^ 2 + (divBy n f).z ^ 2) := by
            refine (pow_le_pow_iff_left₀ (by positivity) h1 (by decide : 2 ≠ 0)).mp ?_
            rw [h2]
            exact hb
          rw [max_eq_left h3]
          rfl
        · rename_i hu
          push_neg at hu
          rw [huni ns hp hu.2.1 hu.2.2]
    exact congrArg (fun q => Except.ok ({ p with points := p.points.map (fun v => v.scaleBy f), normals := q } : Points K F L)) e2

theorem unit_normals {rt : K → K} (hrt : ∀ x, 0 ≤ x → 0 ≤ rt x ∧ rt x ^ 2 = x) {f : V3 K} (hf : GoodFactor f) {ns : List (V3 K)}
    (hn : ∀ n ∈ ns, dot3 n n = 1) : ∀ m ∈ ns.map (fun n => unitVec rt (divBy n f)), dot3 m m = 1 := by
  intro m hm
  obtain ⟨n, hnm, rfl⟩ := List.mem_map.mp hm
  exact (unitVec_unit rt hrt _ (divBy_pos f n hf (hn n hnm))).1

/-- **C153**, scaling: for positive factors and normals of length one, two scalings are one by the products, and the inverse factors restore the cloud. -/
theorem C153_scale (rt : K → K) (hrt : ∀ x, 0 ≤ x → 0 ≤ rt x ∧ rt x ^ 2 = x) (p : Points K F L) (f g : V3 K) (hf : GoodFactor f) (hg : GoodFactor g)
    (hfg : GoodFactor (f.scaleBy g)) (hn : ∀ ns, p.normals = some ns → ∀ n ∈ ns, dot3 n n = 1) :
    ∃ q, p.scale rt f = .ok q ∧ q.scale rt g = p.scale rt (f.scaleBy g) ∧
      (f.scaleBy g = ⟨1, 1, 1⟩ → q.scale rt g = .ok p) := by
  refine ⟨_, scale_eq rt hrt p f hf hn, ?_⟩
  have h2 : ({ p with points := p.points.map (·.scaleBy f), normals := p.normals.map (List.map fun n => unitVec rt (divBy n f)) } : Points K F L).scale rt g
      = p.scale rt (f.scaleBy g) := by
    rw [scale_eq rt hrt _ g hg, scale_eq rt hrt p _ hfg hn]
    · dsimp only
      rw [List.map_map, Option.map_map]
      have e1 : ((fun v : V3 K => v.scaleBy g) ∘ (fun v : V3 K => v.scaleBy f)) = fun v : V3 K => v.scaleBy (f.scaleBy g) := by
        funext v
        unfold V3.scaleBy
        ext <;> simp [mul_assoc]
      have e2 : p.normals.map (List.map (fun n => unitVec rt (divBy n g)) ∘ List.map fun n => unitVec rt (divBy n f))
          = p.normals.map (List.map fun n => unitVec rt (divBy n (f.scaleBy g))) := by
        cases hp : p.normals with
        | none => rfl
        | some ns =>
          simp only [Option.map_some, Function.comp_apply, List.map_map]
          congr 1
          apply List.map_congr_left
          intro n hnm
          simp only [Function.comp_apply]
          obtain ⟨-, hr⟩ := unitVec_unit rt hrt _ (divBy_pos f n hf (hn ns hp n hnm))
          have e : divBy (unitVec rt (divBy n f)) g
              = (divBy n (f.scaleBy g)).map ((1 / rt ((divBy n f).x ^ 2 + (divBy n f).y ^ 2 + (divBy n f).z ^ 2)) * ·) := by
            unfold unitVec
            generalize rt ((divBy n f).x ^ 2 + (divBy n f).y ^ 2 + (divBy n f).z ^ 2) = r
            unfold divBy V3.map V3.scaleBy
            ext <;> simp [div_eq_mul_inv] <;> ring
          rw [e, unitVec_smul rt hrt _ (one_div_pos.mpr hr)]
      rw [e1, e2]
    · intro ns hns
      dsimp only at hns
      cases hp : p.normals with
      | none => rw [hp] at hns; cases hns
      | some ms =>
        rw [hp] at hns
        cases hns
        exact unit_normals hrt hf (hn ms hp)
  refine ⟨h2, fun h1 => ?_⟩
  rw [h2, h1, C63_ones]

/-! ### flipping and scaling by `-1` -/

/-- The factors `-1` along the axes that occur an odd number of times among the letters, `1` along the others. -/
def Spec.flipFactors (l : List Char) : V3 K :=
  ⟨if l.count 'x' % 2 = 1 then -1 else 1, if l.count 'y' % 2 = 1 then -1 else 1, if l.count 'z' % 2 = 1 then -1 else 1⟩

theorem flipSign_ite (n : Nat) : (flipSign n : K) = if n % 2 = 1 then -1 else 1 := by
  unfold flipSign
  rcases Nat.mod_two_eq_zero_or_one n with h | h
  · rw [if_neg (by omega), Even.neg_one_pow (Nat.even_iff.mpr h)]
  · rw [if_pos h, Odd.neg_one_pow (Nat.odd_iff.mpr h)]

/-- **C154**: scaling by factors `-1` flips the points, and it is `flip` when there are no normals, or
    the normals have length one and not all three axes are flipped. What is missing is flipping all three axes of a cloud with normals,
    see `C154_violated`. -/
theorem C154_partial (rt : K → K) (hrt : ∀ x, 0 ≤ x → 0 ≤ rt x ∧ rt x ^ 2 = x) (p : Points K F L) (axis : String)
    (ha : ∀ c ∈ axis.toList, c = 'x' ∨ c = 'y' ∨ c = 'z') (hn : ∀ ns, p.normals = some ns → ∀ n ∈ ns, dot3 n n = 1)
    (h3 : p.normals = none ∨ ¬ (axis.toList.count 'x' % 2 = 1 ∧ axis.toList.count 'y' % 2 = 1 ∧ axis.toList.count 'z' % 2 = 1)) :
    p.scale rt (Spec.flipFactors axis.toList) = p.flip axis := by
  rw [C62_flip p axis ha]
  generalize axis.toList = l at h3
  have hsq : ∀ n : Nat, ((if n % 2 = 1 then -1 else 1 : K)) ≠ 0 ∧ (1 / (if n % 2 = 1 then -1 else 1 : K)) = (if n % 2 = 1 then -1 else 1 : K) := by
    intro n; split <;> simp
  have e0 : ∀ v : V3 K, v.scaleBy (Spec.flipFactors l) = flipped l v := by
    intro v
    unfold V3.scaleBy Spec.flipFactors flipped
    ext <;> simp only [flipSign_ite] <;> ring
  have ei : (Spec.flipFactors l : V3 K).map (1 / ·) = Spec.flipFactors l := by
    unfold Spec.flipFactors V3.map
    ext <;> exact (hsq _).2
  have hsame : (Spec.flipFactors l : V3 K).x = 1 → (Spec.flipFactors l : V3 K).y = 1 → (Spec.flipFactors l : V3 K).z = 1 → ∀ v : V3 K, flipped l v = v := by
    intro a b c v
    rw [← e0]
    unfold V3.scaleBy
    rw [a, b, c]
    ext <;> simp
  unfold Points.scale
  rw [show pyAssert ((Spec.flipFactors l : V3 K).x ≠ 0 ∧ (Spec.flipFactors l : V3 K).y ≠ 0 ∧ (Spec.flipFactors l : V3 K).z ≠ 0) = .ok () from by
    unfold pyAssert; rw [if_pos ⟨(hsq _).1, (hsq _).1, (hsq _).1⟩]]
  simp only [bind, Except.bind, pure, Except.pure]
  split
  · rename_i h1
    have e : (flipped l : V3 K → V3 K) = id := funext (hsame h1.1 h1.2.1 h1.2.2)
    rw [e, List.map_id]
    cases p with
    | mk a n f l b bs bn d =>
      cases n with
      | none => rfl
      | some ns => simp
  · rename_i h1
    have e1 : p.points.map (fun v => v.scaleBy (Spec.flipFactors l)) = p.points.map (flipped l) := List.map_congr_left fun v _ => e0 v
    have e2 : (match p.normals with
        | none => none
        | some ns =>
          if (Spec.flipFactors l : V3 K).x ≠ (Spec.flipFactors l : V3 K).x ∨ (Spec.flipFactors l : V3 K).y ≠ (Spec.flipFactors l : V3 K).x
              ∨ (Spec.flipFactors l : V3 K).z ≠ (Spec.flipFactors l : V3 K).x then
            some (ns.map fun (n : V3 K) => (n.scaleBy ((Spec.flipFactors l : V3 K).map (1 / ·))).map (· / max (rt ((n.scaleBy ((Spec.flipFactors l : V3 K).map (1 / ·))).x ^ 2
              + (n.scaleBy ((Spec.flipFactors l : V3 K).map (1 / ·))).y ^ 2 + (n.scaleBy ((Spec.flipFactors l : V3 K).map (1 / ·))).z ^ 2)) (1 / 10 ^ 12)))
          else some ns) = p.normals.map (List.map (flipped l)) := by
      cases hp : p.normals with
      | none => rfl
      | some ns =>
        dsimp only
        rw [if_pos]
        · rw [Option.map_some]
          congr 1
          apply List.map_congr_left
          intro n hnm
          rw [ei, e0]
          have hu : dot3 (flipped l n) (flipped l n) = 1 := by
            have h := hn ns hp n hnm
            simp only [dot3, flipped, flipSign_ite] at h ⊢
            refine Eq.trans ?_ h
            split <;> split <;> split <;> ring
          have hone : rt ((flipped l n).x ^ 2 + (flipped l n).y ^ 2 + (flipped l n).z ^ 2) = 1 := by
            apply rt_unique rt hrt _ _ zero_le_one
            simp only [dot3] at hu
            linarith
          rw [hone, max_eq_left (by rw [div_le_one (by positivity)]; exact one_le_pow₀ (by norm_num))]
          unfold V3.map
          ext <;> simp
        · by_contra hc
          push_neg at hc
          obtain ⟨-, hy, hz⟩ := hc
          rcases h3 with h3 | h3
          · rw [h3] at hp; cases hp
          · apply h3
            simp only [Spec.flipFactors] at hy hz h1
            have hm : (-1 : K) ≠ 1 := by
              intro h; have : (0:K) < 1 := zero_lt_one; linarith
            by_cases hx : l.count 'x' % 2 = 1
            · simp only [hx, if_true] at hy hz
              refine ⟨hx, ?_, ?_⟩
              · by_contra hc; rw [if_neg hc] at hy; exact hm hy.symm
              · by_contra hc; rw [if_neg hc] at hz; exact hm hz.symm
            · exfalso
              simp only [hx, if_false] at hy hz
              exact h1 ⟨by rw [if_neg hx], hy, hz⟩
    rw [e1]
    exact congrArg (fun q => Except.ok ({ p with points := p.points.map (flipped l), normals := q } : Points K F L)) e2

/-- Flipping all three axes of a cloud with normals is not scaling by `-1`: the point is the same, the normal keeps its sign under the scaling. -/
theorem C154_violated (rt : K → K) :
    ∃ (p a b : Points K F L) (n : V3 K), p.points = [⟨1, 2, 3⟩] ∧ p.normals = some [n] ∧ dot3 n n = 1 ∧
      p.scale rt ⟨-1, -1, -1⟩ = .ok a ∧ p.flip "xyz" = .ok b ∧ a.points = [⟨-1, -2, -3⟩] ∧ b.points = [⟨-1, -2, -3⟩] ∧
      a.normals = some [n] ∧ b.normals = some [⟨-n.x, -n.y, -n.z⟩] ∧ a ≠ b := by
  have hm : (-1 : K) ≠ 1 := by
    intro h; have : (0:K) < 1 := zero_lt_one; linarith
  have hfl : ∀ v : V3 K, flipped "xyz".toList v = ⟨-v.x, -v.y, -v.z⟩ := by
    intro v
    have : "xyz".toList = ['x', 'y', 'z'] := by decide
    rw [this]
    unfold flipped
    ext <;> simp [flipSign]
  let p : Points K F L := ⟨[⟨1, 2, 3⟩], some [⟨1, 0, 0⟩], none, none, none, 1, none, 0⟩
  refine ⟨p, { p with points := [⟨-1, -2, -3⟩] }, { p with points := [⟨-1, -2, -3⟩], normals := some [⟨-1, -0, -0⟩] }, ⟨1, 0, 0⟩, rfl, rfl, ?_, ?_, ?_, rfl, rfl, rfl, rfl, ?_⟩
  · simp [dot3]
  · unfold Points.scale
    simp [pyAssert, bind, Except.bind, pure, Except.pure, hm, V3.scaleBy, p]
  · rw [C62_flip p "xyz" (by decide)]
    simp only [hfl, p, List.map_cons, List.map_nil, Option.map_some]
  · intro h
    have := congrArg Points.normals h
    simp only [p, Option.some.injEq, List.cons.injEq, V3.mk.injEq, and_true] at this
    exact hm this.1.symm

end scaling

/-! ### the hypotheses can be met -/

/-- A cloud with a normal that is not an axis. -/
noncomputable def cloudUnit : Points ℝ Nat Nat := ⟨[⟨1, 2, 3⟩, ⟨-1, 0, 5⟩], some [⟨3 / 5, 4 / 5, 0⟩, ⟨0, 0, 1⟩], some [7, 8], none, none, 1, none, 0⟩

theorem cloudUnit_unit : ∀ ns, cloudUnit.normals = some ns → ∀ n ∈ ns, dot3 n n = 1 := by
  intro ns h n hn
  cases h
  rcases List.mem_cons.mp hn with rfl | hn
  · norm_num [dot3]
  · rcases List.mem_cons.mp hn with rfl | hn
    · norm_num [dot3]
    · cases hn

example : (3 / 5 : ℚ) ^ 2 + (4 / 5) ^ 2 = 1 := by norm_num

example : ∃ q, cloudUnit.scale Real.sqrt ⟨2, 4, 1⟩ = .ok q ∧ q.scale Real.sqrt ⟨1 / 2, 1 / 4, 1⟩ = .ok cloudUnit := by
  have e : (⟨2, 4, 1⟩ : V3 ℝ).scaleBy ⟨1 / 2, 1 / 4, 1⟩ = ⟨1, 1, 1⟩ := by
    unfold V3.scaleBy
    ext <;> norm_num
  obtain ⟨q, h1, -, h2⟩ := C153_scale Real.sqrt (fun x hx => ⟨Real.sqrt_nonneg x, Real.sq_sqrt hx⟩) cloudUnit ⟨2, 4, 1⟩ ⟨1 / 2, 1 / 4, 1⟩
    (by norm_num [GoodFactor]) (by norm_num [GoodFactor]) (by rw [e]; norm_num [GoodFactor]) cloudUnit_unit
  exact ⟨q, h1, h2 e⟩

example : cloudUnit.scale Real.sqrt ⟨-1, -1, 1⟩ = cloudUnit.flip "yx" := by
  have h := C154_partial Real.sqrt (fun x hx => ⟨Real.sqrt_nonneg x, Real.sq_sqrt hx⟩) cloudUnit "yx" (by decide) cloudUnit_unit (.inr (by decide))
  rw [← h]
  have : "yx".toList = ['y', 'x'] := by decide
  rw [this]
  simp [Spec.flipFactors]

end Ocnn
