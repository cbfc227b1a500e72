import Verif.DataTools
import Verif.MeshTools
import Verif.Spec
import Mathlib.Analysis.SpecialFunctions.Sqrt
import Mathlib.Algebra.Order.Field.Basic
import Mathlib.Tactic.Linarith
import Mathlib.Tactic.Ring
import Mathlib.Tactic.FieldSimp
import Mathlib.Tactic.Positivity

/-! Properties C132 and C133: normalisation of the ModelNet meshes. -/

namespace Ocnn
open Spec

variable {K : Type} [Field K] [LinearOrder K] [IsStrictOrderedRing K]

namespace Spec

/-- The squared distance. -/
def dist2 (a b : V3 K) : K := (a.x - b.x) ^ 2 + (a.y - b.y) ^ 2 + (a.z - b.z) ^ 2

/-- The ball contains the points. -/
def Encloses (c : V3 K) (r2 : K) (pts : List (V3 K)) : Prop := ∀ p ∈ pts, dist2 p c ≤ r2

/-- The ball contains the points and no ball that contains them is smaller. -/
def SmallestBall (c : V3 K) (r2 : K) (pts : List (V3 K)) : Prop :=
  Encloses c r2 pts ∧ ∀ c' r2', Encloses c' r2' pts → r2 ≤ r2'

/-- The function finds the smallest balls of the cloud at all positions and sizes. -/
def FindsBall (ball : List (V3 K) → V3 K × K × Bool) (pts : List (V3 K)) : Prop :=
  ∀ (c : V3 K) (r : K), 0 < r → ∀ pts', pts' = pts.map (fun v => ⟨(v.x - c.x) / r, (v.y - c.y) / r, (v.z - c.z) / r⟩) →
    (ball pts').2.2 = true ∧ SmallestBall (ball pts').1 (ball pts').2.1 pts'

/-- Scaling followed by a translation. -/
def similar (s : K) (t : V3 K) (p : V3 K) : V3 K := ⟨s * p.x + t.x, s * p.y + t.y, s * p.z + t.z⟩

end Spec

theorem dist2_similar (s : K) (t p q : V3 K) : dist2 (similar s t p) (similar s t q) = s ^ 2 * dist2 p q := by
  simp only [dist2, similar]
  ring

theorem similar_surj {s : K} (hs : 0 < s) (t q : V3 K) : ∃ p, similar s t p = q := by
  refine ⟨⟨(q.x - t.x) / s, (q.y - t.y) / s, (q.z - t.z) / s⟩, ?_⟩
  ext <;> simp only [similar] <;> field_simp <;> ring

/-- The smallest ball is unique. -/
theorem smallest_unique {pts : List (V3 K)} (hne : pts ≠ []) {c c' : V3 K} {r r' : K} (h : SmallestBall c r pts) (h' : SmallestBall c' r' pts) :
    c = c' ∧ r = r' := by
  have hr : r = r' := le_antisymm (h.2 _ _ h'.1) (h'.2 _ _ h.1)
  subst hr
  refine ⟨?_, rfl⟩
  have hm : Encloses (⟨(c.x + c'.x) / 2, (c.y + c'.y) / 2, (c.z + c'.z) / 2⟩ : V3 K) (r - dist2 c c' / 4) pts := by
    intro p hp
    have h1 := h.1 p hp
    have h2 := h'.1 p hp
    simp only [dist2] at h1 h2 ⊢
    linarith
  have h0 := h.2 _ _ hm
  have hd : dist2 c c' ≤ 0 := by linarith
  simp only [dist2] at hd
  have q1 := sq_nonneg (c.x - c'.x)
  have q2 := sq_nonneg (c.y - c'.y)
  have q3 := sq_nonneg (c.z - c'.z)
  have e1 : c.x - c'.x = 0 := by apply pow_eq_zero_iff (two_ne_zero) |>.1; linarith
  have e2 : c.y - c'.y = 0 := by apply pow_eq_zero_iff (two_ne_zero) |>.1; linarith
  have e3 : c.z - c'.z = 0 := by apply pow_eq_zero_iff (two_ne_zero) |>.1; linarith
  ext <;> linarith

/-- Similarities carry smallest balls to smallest balls. -/
theorem smallest_similar {s : K} (hs : 0 < s) (t : V3 K) {pts : List (V3 K)} {c : V3 K} {r : K} :
    SmallestBall (similar s t c) (s ^ 2 * r) (pts.map (similar s t)) ↔ SmallestBall c r pts := by
  have hs2 : 0 < s ^ 2 := by positivity
  have he : ∀ c r, Encloses (similar s t c) (s ^ 2 * r) (pts.map (similar s t)) ↔ Encloses c r pts := by
    intro c r
    unfold Encloses
    simp only [List.mem_map, forall_exists_index, and_imp, forall_apply_eq_imp_iff₂, dist2_similar]
    exact forall₂_congr fun p _ => mul_le_mul_iff_right₀ hs2
  unfold SmallestBall
  rw [he]
  refine and_congr_right fun _ => ?_
  constructor
  · intro h c' r' h'
    exact (mul_le_mul_iff_right₀ hs2).1 (h _ _ ((he _ _).2 h'))
  · intro h c' r' h'
    obtain ⟨d, rfl⟩ := similar_surj hs t c'
    have : r' = s ^ 2 * (r' / s ^ 2) := by field_simp
    rw [this] at h' ⊢
    exact (mul_le_mul_iff_right₀ hs2).2 (h _ _ ((he _ _).1 h'))

theorem centred_similar (c : V3 K) (r : K) (pts : List (V3 K)) :
    centredBy c r pts = pts.map (similar (1 / r) ⟨-c.x * (1 / r), -c.y * (1 / r), -c.z * (1 / r)⟩) := by
  unfold centredBy
  apply List.map_congr_left
  intro v _
  ext <;> simp only [similar, V3.map] <;> ring

theorem foldl_min3 (v : V3 K) (vs : List (V3 K)) :
    let m := vs.foldl (fun a b : V3 K => (⟨min a.x b.x, min a.y b.y, min a.z b.z⟩ : V3 K)) v
    ∀ p ∈ v :: vs, m.x ≤ p.x ∧ m.y ≤ p.y ∧ m.z ≤ p.z := by
  induction vs using List.reverseRecOn with
  | nil => intro m p hp; simp only [List.mem_singleton] at hp; subst hp; exact ⟨le_rfl, le_rfl, le_rfl⟩
  | append_singleton vs a ih =>
    intro m p hp
    simp only [m, List.foldl_append, List.foldl_cons, List.foldl_nil]
    rw [← List.cons_append, List.mem_append, List.mem_singleton] at hp
    rcases hp with hp | rfl
    · obtain ⟨a1, a2, a3⟩ := ih p hp
      exact ⟨le_trans (min_le_left _ _) a1, le_trans (min_le_left _ _) a2, le_trans (min_le_left _ _) a3⟩
    · exact ⟨min_le_right _ _, min_le_right _ _, min_le_right _ _⟩

theorem foldl_max3 (v : V3 K) (vs : List (V3 K)) :
    let m := vs.foldl (fun a b : V3 K => (⟨max a.x b.x, max a.y b.y, max a.z b.z⟩ : V3 K)) v
    ∀ p ∈ v :: vs, p.x ≤ m.x ∧ p.y ≤ m.y ∧ p.z ≤ m.z := by
  induction vs using List.reverseRecOn with
  | nil => intro m p hp; simp only [List.mem_singleton] at hp; subst hp; exact ⟨le_rfl, le_rfl, le_rfl⟩
  | append_singleton vs a ih =>
    intro m p hp
    simp only [m, List.foldl_append, List.foldl_cons, List.foldl_nil]
    rw [← List.cons_append, List.mem_append, List.mem_singleton] at hp
    rcases hp with hp | rfl
    · obtain ⟨a1, a2, a3⟩ := ih p hp
      exact ⟨le_trans a1 (le_max_left _ _), le_trans a2 (le_max_left _ _), le_trans a3 (le_max_left _ _)⟩
    · exact ⟨le_max_right _ _, le_max_right _ _, le_max_right _ _⟩

omit [LinearOrder K] [IsStrictOrderedRing K] in
theorem centred_div (c : V3 K) (r : K) (pts : List (V3 K)) :
    centredBy c r pts = pts.map (fun v => ⟨(v.x - c.x) / r, (v.y - c.y) / r, (v.z - c.z) / r⟩) := by
  unfold centredBy
  apply List.map_congr_left
  intro v _
  simp only [V3.map, mul_one_div]

theorem findsBall_similar {ball : List (V3 K) → V3 K × K × Bool} {pts : List (V3 K)} (h : FindsBall ball pts) (s : K) (hs : 0 < s) (t : V3 K) :
    FindsBall ball (pts.map (similar s t)) := by
  intro c r hr pts' e
  apply h ⟨(c.x - t.x) / s, (c.y - t.y) / s, (c.z - t.z) / s⟩ (r / s) (by positivity)
  rw [e, List.map_map]
  apply List.map_congr_left
  intro v _
  simp only [Function.comp, similar, V3.mk.injEq]
  refine ⟨?_, ?_, ?_⟩ <;> field_simp <;> ring

/-- The first step puts the points inside the open cube. -/
theorem box_step (v : V3 K) (vs : List (V3 K)) :
    ∃ (c : V3 K) (r : K), 0 < r ∧ (∀ p ∈ centredBy c r (v :: vs), -1 < p.x ∧ p.x < 1 ∧ -1 < p.y ∧ p.y < 1 ∧ -1 < p.z ∧ p.z < 1) ∧
      ∀ (rt : K → K) (ball : List (V3 K) → V3 K × K × Bool), meshNormalize rt ball (v :: vs)
        = (let r1 := ball (centredBy c r (v :: vs))
           if r1.2.2 then (if rt r1.2.1 = 0 then .error .zeroDiv else .ok (centredBy r1.1 (rt r1.2.1) (centredBy c r (v :: vs))))
           else .ok (centredBy c r (v :: vs))) := by
  have hmin := foldl_min3 v vs
  have hmax := foldl_max3 v vs
  simp only at hmin hmax
  have hm0 := hmin v (by simp)
  have hM0 := hmax v (by simp)
  obtain ⟨mn, emn⟩ : ∃ m, m = vs.foldl (fun a b : V3 K => (⟨min a.x b.x, min a.y b.y, min a.z b.z⟩ : V3 K)) v := ⟨_, rfl⟩
  obtain ⟨mx, emx⟩ : ∃ m, m = vs.foldl (fun a b : V3 K => (⟨max a.x b.x, max a.y b.y, max a.z b.z⟩ : V3 K)) v := ⟨_, rfl⟩
  rw [← emn] at hmin hm0
  rw [← emx] at hmax hM0
  refine ⟨(mn + mx).map (· / 2), max (max (mx.x - mn.x) (mx.y - mn.y)) (mx.z - mn.z) * (1 / 2) + 1 / 10 ^ 6, ?_, ?_, fun rt ball => ?_⟩
  rotate_left 2
  · unfold meshNormalize
    simp only [bind, Except.bind, pure, Except.pure, ← emn, ← emx]
  · have h2 : mx.x - mn.x ≤ max (max (mx.x - mn.x) (mx.y - mn.y)) (mx.z - mn.z) := le_trans (le_max_left _ _) (le_max_left _ _)
    have : (0 : K) < 1 / 10 ^ 6 := by positivity
    linarith [hm0.1, hM0.1]
  · intro p hp
    unfold centredBy at hp
    obtain ⟨q, hq, rfl⟩ := List.mem_map.1 hp
    obtain ⟨a1, a2, a3⟩ := hmin q hq
    obtain ⟨b1, b2, b3⟩ := hmax q hq
    have k1 : mx.x - mn.x ≤ max (max (mx.x - mn.x) (mx.y - mn.y)) (mx.z - mn.z) := le_trans (le_max_left _ _) (le_max_left _ _)
    have k2 : mx.y - mn.y ≤ max (max (mx.x - mn.x) (mx.y - mn.y)) (mx.z - mn.z) := le_trans (le_max_right _ _) (le_max_left _ _)
    have k3 : mx.z - mn.z ≤ max (max (mx.x - mn.x) (mx.y - mn.y)) (mx.z - mn.z) := le_max_right _ _
    have he : (0 : K) < 1 / 10 ^ 6 := by positivity
    generalize max (max (mx.x - mn.x) (mx.y - mn.y)) (mx.z - mn.z) = L at *
    have hL : 0 < L * (1 / 2) + 1 / 10 ^ 6 := by linarith
    have key : ∀ lo hi x : K, lo ≤ x → x ≤ hi → hi - lo ≤ L →
        -1 < (x - (lo + hi) / 2) * (1 / (L * (1 / 2) + 1 / 10 ^ 6)) ∧ (x - (lo + hi) / 2) * (1 / (L * (1 / 2) + 1 / 10 ^ 6)) < 1 := by
      intro lo hi x g1 g2 g3
      rw [mul_one_div, lt_div_iff₀ hL, div_lt_one hL]
      constructor <;> linarith
    obtain ⟨x1, x2⟩ := key _ _ _ a1 b1 k1
    obtain ⟨y1, y2⟩ := key _ _ _ a2 b2 k2
    obtain ⟨z1, z2⟩ := key _ _ _ a3 b3 k3
    exact ⟨x1, x2, y1, y2, z1, z2⟩

/-- With a valid smallest ball, both steps together centre the cloud at its own smallest ball and divide by its radius. -/
theorem normalize_eq (rt : K → K) (hrt : ∀ q, 0 ≤ q → 0 ≤ rt q ∧ rt q ^ 2 = q) (ball : List (V3 K) → V3 K × K × Bool)
    (pts : List (V3 K)) (hball : FindsBall ball pts) (p q : V3 K)
    (hp : p ∈ pts) (hq : q ∈ pts) (hpq : p ≠ q) :
    ∃ (c : V3 K) (r : K), 0 < r ∧ SmallestBall c (r ^ 2) pts ∧ meshNormalize rt ball pts = .ok (centredBy c r pts) := by
  cases pts with
  | nil => simp at hp
  | cons v vs =>
    obtain ⟨c0, r0, h0, -, h2⟩ := box_step v vs
    rw [h2]
    obtain ⟨b1, b2⟩ := hball c0 r0 h0 _ (centred_div c0 r0 (v :: vs))
    simp only [b1, if_true]
    generalize hb : ball (centredBy c0 r0 (v :: vs)) = B at *
    obtain ⟨c1, r2, ok⟩ := B
    simp only at b2 ⊢
    have hk : 0 < 1 / r0 := by positivity
    rw [centred_similar] at b2
    obtain ⟨c, rfl⟩ := similar_surj hk ⟨-c0.x * (1 / r0), -c0.y * (1 / r0), -c0.z * (1 / r0)⟩ c1
    have e2 : r2 = (1 / r0) ^ 2 * (r2 * r0 ^ 2) := by field_simp
    rw [e2] at b2
    have b3 := (smallest_similar hk _).1 b2
    have hpos : 0 < r2 * r0 ^ 2 := by
      have g1 := b3.1 p hp
      have g2 := b3.1 q hq
      by_contra hn
      have hn := not_lt.1 hn
      apply hpq
      simp only [dist2] at g1 g2
      have sqz : ∀ a b c : K, a ^ 2 + b ^ 2 + c ^ 2 ≤ 0 → a = 0 ∧ b = 0 ∧ c = 0 := by
        intro a b c h
        have q1 := sq_nonneg a
        have q2 := sq_nonneg b
        have q3 := sq_nonneg c
        exact ⟨(pow_eq_zero_iff two_ne_zero).1 (by linarith), (pow_eq_zero_iff two_ne_zero).1 (by linarith), (pow_eq_zero_iff two_ne_zero).1 (by linarith)⟩
      obtain ⟨x1, x2, x3⟩ := sqz _ _ _ (le_trans g1 hn)
      obtain ⟨y1, y2, y3⟩ := sqz _ _ _ (le_trans g2 hn)
      ext <;> linarith
    have hr2 : 0 < r2 := by
      by_contra hn
      have : r2 * r0 ^ 2 ≤ 0 := mul_nonpos_of_nonpos_of_nonneg (not_lt.1 hn) (by positivity)
      linarith
    obtain ⟨s1, s2⟩ := hrt r2 hr2.le
    have sp : 0 < rt r2 := by
      rcases s1.lt_or_eq with h | h
      · exact h
      · rw [← h] at s2; simp at s2; linarith
    refine ⟨c, rt r2 * r0, by positivity, ?_, ?_⟩
    · rw [mul_pow, s2]; exact b3
    · rw [if_neg sp.ne']
      congr 1
      rw [centredBy, centredBy, centredBy, List.map_map]
      apply List.map_congr_left
      intro u _
      ext <;> simp only [Function.comp, similar, V3.map] <;> field_simp <;> ring

/-- **C132, the unit ball.** If `cyminiball` finds the smallest ball, a cloud with two different points comes out with the unit ball at the origin
as its smallest enclosing ball; in particular it lies in the cube that `build_octree` asks for. -/
theorem C132_ball (rt : K → K) (hrt : ∀ q, 0 ≤ q → 0 ≤ rt q ∧ rt q ^ 2 = q) (ball : List (V3 K) → V3 K × K × Bool)
    (pts : List (V3 K)) (hball : FindsBall ball pts) (p q : V3 K)
    (hp : p ∈ pts) (hq : q ∈ pts) (hpq : p ≠ q) :
    ∃ out, meshNormalize rt ball pts = .ok out ∧ out.length = pts.length ∧ SmallestBall 0 1 out ∧
      ∀ p ∈ out, -1 ≤ p.x ∧ p.x ≤ 1 ∧ -1 ≤ p.y ∧ p.y ≤ 1 ∧ -1 ≤ p.z ∧ p.z ≤ 1 := by
  obtain ⟨c, r, h1, h2, h3⟩ := normalize_eq rt hrt ball pts hball p q hp hq hpq
  have hk : 0 < 1 / r := by positivity
  have hs := (smallest_similar hk ⟨-c.x * (1 / r), -c.y * (1 / r), -c.z * (1 / r)⟩).2 h2
  have e0 : similar (1 / r) ⟨-c.x * (1 / r), -c.y * (1 / r), -c.z * (1 / r)⟩ c = (0 : V3 K) := by
    show _ = (⟨0, 0, 0⟩ : V3 K)
    ext <;> simp only [similar] <;> ring
  have e1 : (1 / r) ^ 2 * r ^ 2 = 1 := by field_simp
  rw [e0, e1, ← centred_similar] at hs
  refine ⟨_, h3, by simp [centredBy], hs, ?_⟩
  intro u hu
  have hd := hs.1 u hu
  have hd : u.x ^ 2 + u.y ^ 2 + u.z ^ 2 ≤ 1 := by
    have z1 : (0 : V3 K).x = 0 := rfl
    have z2 : (0 : V3 K).y = 0 := rfl
    have z3 : (0 : V3 K).z = 0 := rfl
    simpa only [dist2, z1, z2, z3, sub_zero] using hd
  have q1 := sq_nonneg u.x
  have q2 := sq_nonneg u.y
  have q3 := sq_nonneg u.z
  have key : ∀ a : K, a ^ 2 ≤ 1 → -1 ≤ a ∧ a ≤ 1 := fun a h => abs_le.1 ((sq_le_one_iff_abs_le_one a).1 h)
  obtain ⟨x1, x2⟩ := key u.x (by linarith)
  obtain ⟨y1, y2⟩ := key u.y (by linarith)
  obtain ⟨z1, z2⟩ := key u.z (by linarith)
  exact ⟨x1, x2, y1, y2, z1, z2⟩

/-- **C132, position and size.** The result does not depend on the position and the size of the mesh, in spite of the `1e-6` of the first step. -/
theorem C132_pose (rt : K → K) (hrt : ∀ q, 0 ≤ q → 0 ≤ rt q ∧ rt q ^ 2 = q) (ball : List (V3 K) → V3 K × K × Bool)
    (pts : List (V3 K)) (hball : FindsBall ball pts) (p q : V3 K)
    (hp : p ∈ pts) (hq : q ∈ pts) (hpq : p ≠ q) (s : K) (hs : 0 < s) (t : V3 K) :
    meshNormalize rt ball (pts.map (similar s t)) = meshNormalize rt ball pts := by
  obtain ⟨c, r, h1, h2, h3⟩ := normalize_eq rt hrt ball pts hball p q hp hq hpq
  have hpq' : similar s t p ≠ similar s t q := by
    intro e
    apply hpq
    simp only [similar, V3.mk.injEq, add_left_inj, mul_right_inj' hs.ne'] at e
    ext
    · exact e.1
    · exact e.2.1
    · exact e.2.2
  obtain ⟨c', r', k1, k2, k3⟩ := normalize_eq rt hrt ball (pts.map (similar s t)) (findsBall_similar hball s hs t) _ _ (List.mem_map.2 ⟨p, hp, rfl⟩) (List.mem_map.2 ⟨q, hq, rfl⟩) hpq'
  have hne : pts.map (similar s t) ≠ [] := List.ne_nil_of_mem (List.mem_map.2 ⟨p, hp, rfl⟩)
  obtain ⟨rfl, e⟩ := smallest_unique hne k2 ((smallest_similar hs t).2 h2)
  have er : r' = s * r := by
    rw [← mul_pow] at e
    exact (pow_left_inj₀ k1.le (by positivity) two_ne_zero).1 e
  subst er
  rw [k3, h3, centredBy, centredBy, List.map_map]
  congr 1
  apply List.map_congr_left
  intro u _
  ext <;> simp only [Function.comp, similar, V3.map] <;> field_simp <;> ring

omit [IsStrictOrderedRing K] in
/-- **C132, the vertical axis.** `--align_y` turns the z axis of the data to the y axis by a rotation: distances, scalar products and cross products, so also the
normals of faces, turn along. -/
theorem C132_align (u v : V3 K) :
    alignY (⟨0, 0, 1⟩ : V3 K) = ⟨0, 1, 0⟩ ∧ alignY (alignY (alignY v)) = v ∧ dist2 (alignY u) (alignY v) = dist2 u v ∧
    (alignY u).x * (alignY v).x + (alignY u).y * (alignY v).y + (alignY u).z * (alignY v).z = u.x * v.x + u.y * v.y + u.z * v.z ∧
    (let cross (a b : V3 K) : V3 K := ⟨a.y * b.z - a.z * b.y, a.z * b.x - a.x * b.z, a.x * b.y - a.y * b.x⟩
     cross (alignY u) (alignY v) = alignY (cross u v)) := by
  have e : ∀ v : V3 K, alignY v = ⟨v.y, v.z, v.x⟩ := by
    intro v
    simp only [alignY, rowTimes]
    ext <;> simp
  simp only [e, dist2]
  refine ⟨trivial, trivial, by ring, by ring, trivial⟩

/-- **C132, without a ball.** If `cyminiball` fails, the cloud lies inside the open cube. -/
theorem C132_box (rt : K → K) (ball : List (V3 K) → V3 K × K × Bool) (hball : ∀ pts, (ball pts).2.2 = false) (pts : List (V3 K)) (hne : pts ≠ []) :
    ∃ out, meshNormalize rt ball pts = .ok out ∧ out.length = pts.length ∧
      ∀ p ∈ out, -1 < p.x ∧ p.x < 1 ∧ -1 < p.y ∧ p.y < 1 ∧ -1 < p.z ∧ p.z < 1 := by
  cases pts with
  | nil => exact absurd rfl hne
  | cons v vs =>
    obtain ⟨c, r, h0, h1, h2⟩ := box_step v vs
    refine ⟨_, ?_, ?_, h1⟩
    · rw [h2]
      simp [hball]
    · simp [centredBy]

/-- The ball of two points over their distance. -/
noncomputable def ballOfTwo : List (V3 ℝ) → V3 ℝ × ℝ × Bool
  | [p, q] => (⟨(p.x + q.x) / 2, (p.y + q.y) / 2, (p.z + q.z) / 2⟩, dist2 p q / 4, true)
  | _ => (0, 0, false)

/-- The hypotheses hold for the real square root and a cloud of two points. -/
example : (∀ q : ℝ, 0 ≤ q → 0 ≤ Real.sqrt q ∧ Real.sqrt q ^ 2 = q) ∧ FindsBall ballOfTwo [⟨1, 2, 3⟩, ⟨5, 2, 3⟩] := by
  refine ⟨fun q hq => ⟨Real.sqrt_nonneg q, Real.sq_sqrt hq⟩, ?_⟩
  intro c r hr pts' e
  have key : ∀ p q : V3 ℝ, (ballOfTwo [p, q]).2.2 = true ∧ SmallestBall (ballOfTwo [p, q]).1 (ballOfTwo [p, q]).2.1 [p, q] := by
    intro p q
    simp only [ballOfTwo, true_and]
    constructor
    · intro u hu
      simp only [List.mem_cons, List.not_mem_nil, or_false] at hu
      rcases hu with rfl | rfl <;> simp only [dist2] <;> apply le_of_eq <;> ring
    · intro c' r' h'
      have h1 := h' p (by simp)
      have h2 := h' q (by simp)
      simp only [dist2] at h1 h2 ⊢
      nlinarith [sq_nonneg (p.x + q.x - 2 * c'.x), sq_nonneg (p.y + q.y - 2 * c'.y), sq_nonneg (p.z + q.z - 2 * c'.z)]
  subst e
  exact key _ _

end Ocnn
