import Verif.FloatConv
import Verif.PropsConv
import Mathlib.Tactic.Ring
import Mathlib.Tactic.Linarith
import Mathlib.Tactic.Positivity
import Mathlib.Tactic.GCongr

/-! Property C151: floating-point convolutions. -/

set_option linter.unusedSimpArgs false

namespace Ocnn
open Spec
variable {F : Type}

/-- The exact sum. -/
def termSum : Multiset Term →+ ℚ where
  toFun s := (s.map Term.val).sum
  map_zero' := rfl
  map_add' s t := by simp

/-- The sum of the absolute values. -/
def termAbs : Multiset Term →+ ℚ where
  toFun s := (s.map fun t => |t.val|).sum
  map_zero' := rfl
  map_add' s t := by simp

theorem termSum_single (a : Term) : termSum {a} = a.val := by
  show (Multiset.map Term.val {a}).sum = _
  simp

theorem termAbs_single (a : Term) : termAbs {a} = |a.val| := by
  show (Multiset.map (fun t => |t.val|) {a}).sum = _
  simp

theorem termSum_le (s : Multiset Term) : |termSum s| ≤ termAbs s := by
  induction s using Multiset.induction_on with
  | empty => simp
  | cons a s ih =>
    rw [← Multiset.singleton_add, map_add, map_add]
    rw [termSum_single, termAbs_single]
    exact (abs_add_le _ _).trans (by linarith)

theorem termAbs_nonneg (s : Multiset Term) : 0 ≤ termAbs s := (abs_nonneg _).trans (termSum_le s)

/-- The error bound for a sum of `n` summands with absolute values adding up to `a`. -/
def errBound (u e : ℚ) (n : Nat) (a : ℚ) : ℚ := ((1 + u) ^ n - 1) * a + n * e * (1 + u) ^ n

/-- Every way of adding up the summands in floating point is within the bound. -/
theorem rounded_error {u e : ℚ} (hu : 0 ≤ u) (he : 0 ≤ e) {s : Multiset Term} {v : ℚ} (h : Rounded u e s v) :
    |v - termSum s| ≤ errBound u e s.card (termAbs s) := by
  have hp : ∀ n : Nat, 1 ≤ (1 + u) ^ n := fun n => one_le_pow₀ (by linarith)
  have hm : ∀ {m n : Nat}, m ≤ n → (1 + u) ^ m ≤ (1 + u) ^ n := fun h => pow_le_pow_right₀ (by linarith) h
  induction h with
  | zero => simp [errBound]
  | const b =>
    have h1 : termSum {Term.const b} = b := termSum_single _
    rw [h1, sub_self, abs_zero]
    unfold errBound
    have := hp (Multiset.card {Term.const b})
    have h3 := termAbs_nonneg {Term.const b}
    have : 0 ≤ ((1 + u) ^ Multiset.card {Term.const b} - 1) := by linarith
    positivity
  | prod x w v hv =>
    have h1 : termSum {Term.prod x w} = x * w := termSum_single _
    have h2 : termAbs {Term.prod x w} = |x * w| := termAbs_single _
    rw [h1, h2]
    unfold errBound
    simp only [Multiset.card_singleton, pow_one, Nat.cast_one, one_mul]
    have h3 := abs_nonneg (x * w)
    nlinarith
  | add s t a b v hs ht h1 h2 hv ih1 ih2 =>
    have c1 : 1 ≤ s.card := Nat.one_le_iff_ne_zero.mpr (by simpa using hs)
    have c2 : 1 ≤ t.card := Nat.one_le_iff_ne_zero.mpr (by simpa using ht)
    rw [map_add, map_add, Multiset.card_add]
    have A1 := termAbs_nonneg s
    have A2 := termAbs_nonneg t
    have l1 := termSum_le s
    have l2 := termSum_le t
    generalize termSum s = S at *
    generalize termSum t = T at *
    generalize termAbs s = AS at *
    generalize termAbs t = AT at *
    generalize hm1 : s.card = m at *
    generalize hm2 : t.card = k at *
    have e1 : |v - (S + T)| ≤ u * |a + b| + (|a - S| + |b - T|) := by
      have : v - (S + T) = (v - (a + b)) + ((a - S) + (b - T)) := by ring
      rw [this]
      refine (abs_add_le _ _).trans (add_le_add hv (abs_add_le _ _))
    have e2 : |a + b| ≤ AS + AT + (|a - S| + |b - T|) := by
      have : a + b = (S + T) + ((a - S) + (b - T)) := by ring
      rw [this]
      have q1 := abs_add_le (S + T) ((a - S) + (b - T))
      have q2 := abs_add_le S T
      have q3 := abs_add_le (a - S) (b - T)
      linarith
    unfold errBound at *
    have p1 := hm (show m + 1 ≤ m + k by omega)
    have p2 := hm (show k + 1 ≤ m + k by omega)
    have e3 : |v - (S + T)| ≤ (1 + u) * (|a - S| + |b - T|) + u * (AS + AT) := by nlinarith
    have e4 : (1 + u) * (|a - S| + |b - T|)
        ≤ (1 + u) * ((((1 + u) ^ m - 1) * AS + m * e * (1 + u) ^ m) + (((1 + u) ^ k - 1) * AT + k * e * (1 + u) ^ k)) :=
      mul_le_mul_of_nonneg_left (add_le_add ih1 ih2) (by linarith)
    have e5 : (1 + u) * ((((1 + u) ^ m - 1) * AS + m * e * (1 + u) ^ m) + (((1 + u) ^ k - 1) * AT + k * e * (1 + u) ^ k)) + u * (AS + AT)
        = ((1 + u) ^ (m + 1) - 1) * AS + ((1 + u) ^ (k + 1) - 1) * AT + (m * e * (1 + u) ^ (m + 1) + k * e * (1 + u) ^ (k + 1)) := by ring
    have e6 : ((1 + u) ^ (m + 1) - 1) * AS ≤ ((1 + u) ^ (m + k) - 1) * AS := mul_le_mul_of_nonneg_right (by linarith) A1
    have e7 : ((1 + u) ^ (k + 1) - 1) * AT ≤ ((1 + u) ^ (m + k) - 1) * AT := mul_le_mul_of_nonneg_right (by linarith) A2
    have e8 : (m : ℚ) * e * (1 + u) ^ (m + 1) ≤ m * e * (1 + u) ^ (m + k) := mul_le_mul_of_nonneg_left p1 (by positivity)
    have e9 : (k : ℚ) * e * (1 + u) ^ (k + 1) ≤ k * e * (1 + u) ^ (m + k) := mul_le_mul_of_nonneg_left p2 (by positivity)
    push_cast
    nlinarith
  | fma s x w a v h1 hv ih =>
    rw [← Multiset.singleton_add, map_add, map_add, Multiset.card_add]
    have q1 : termSum {Term.prod x w} = x * w := termSum_single _
    have q2 : termAbs {Term.prod x w} = |x * w| := termAbs_single _
    rw [q1, q2, Multiset.card_singleton]
    have A1 := termAbs_nonneg s
    have l1 := termSum_le s
    have A2 := abs_nonneg (x * w)
    generalize termSum s = S at *
    generalize termAbs s = AS at *
    generalize hm1 : s.card = m at *
    generalize x * w = p at *
    have e1 : |v - (p + S)| ≤ (u * |p + a| + e) + |a - S| := by
      have : v - (p + S) = (v - (p + a)) + (a - S) := by ring
      rw [this]
      exact (abs_add_le _ _).trans (add_le_add hv le_rfl)
    have e2 : |p + a| ≤ |p| + AS + |a - S| := by
      have : p + a = p + (S + (a - S)) := by ring
      rw [this]
      have r1 := abs_add_le p (S + (a - S))
      have r2 := abs_add_le S (a - S)
      linarith
    unfold errBound at *
    have e3 : |v - (p + S)| ≤ (1 + u) * |a - S| + u * (|p| + AS) + e := by nlinarith
    have e4 : (1 + u) * |a - S| ≤ (1 + u) * (((1 + u) ^ m - 1) * AS + m * e * (1 + u) ^ m) := mul_le_mul_of_nonneg_left ih (by linarith)
    have e5 : (1 + u) * (((1 + u) ^ m - 1) * AS + m * e * (1 + u) ^ m) + u * AS = ((1 + u) ^ (1 + m) - 1) * AS + m * e * (1 + u) ^ (1 + m) := by ring
    have e6 : u * |p| ≤ ((1 + u) ^ (1 + m) - 1) * |p| := by
      apply mul_le_mul_of_nonneg_right _ A2
      have := hm (show 1 ≤ 1 + m by omega)
      rw [pow_one] at this
      linarith
    have e7 : e ≤ e * (1 + u) ^ (1 + m) := le_mul_of_one_le_right he (hp _)
    push_cast
    nlinarith

/-- The exact sum is one of the results that the relation allows. -/
theorem rounded_exact {u e : ℚ} (hu : 0 ≤ u) (he : 0 ≤ e) (s : Multiset Term) : Rounded u e s (termSum s) := by
  induction s using Multiset.induction_on with
  | empty => exact .zero
  | cons t s ih =>
    rw [← Multiset.singleton_add, map_add]
    have h1 : Rounded u e {t} (termSum {t}) := by
      cases t with
      | prod x w => exact .prod x w _ (by rw [termSum_single]; simp only [Term.val, sub_self, abs_zero]; positivity)
      | const b =>
        have : termSum {Term.const b} = b := termSum_single _
        rw [this]
        exact .const b
    by_cases hs : s = 0
    · subst hs
      simpa using h1
    · exact .add _ _ _ _ _ (by simp) hs h1 ih (by simp; positivity)

theorem errBound_mono {u e : ℚ} (hu : 0 ≤ u) (he : 0 ≤ e) {m n : Nat} (h : m ≤ n) {a : ℚ} (ha : 0 ≤ a) : errBound u e m a ≤ errBound u e n a := by
  have hp : (1 + u) ^ m ≤ (1 + u) ^ n := pow_le_pow_right₀ (by linarith) h
  have h1 : 1 ≤ (1 + u) ^ m := one_le_pow₀ (by linarith)
  have h2 : (m : ℚ) ≤ n := by exact_mod_cast h
  unfold errBound
  have e1 := mul_le_mul_of_nonneg_right (sub_le_sub_right hp 1) ha
  have e2 : (m : ℚ) * e * (1 + u) ^ m ≤ n * e * (1 + u) ^ n := by gcongr
  linarith

/-! ## Which summands the code adds up -/

/-- The absolute values of a row. -/
def rowAbs {n : Nat} (v : Fin n → ℚ) : Fin n → ℚ := fun j => |v j|

/-- The absolute values of a matrix. -/
def matAbs {m n : Nat} (w : Fin m → Fin n → ℚ) : Fin m → Fin n → ℚ := fun i j => |w i j|

theorem sum_at {n : Nat} {B : Type} [AddCommMonoid B] (l : List (Fin n → B)) (c : Fin n) : l.sum c = (l.map fun v => v c).sum :=
  map_list_sum (Pi.evalAddMonoidHom (fun _ => B) c) l

theorem hom_conv {ci co : Nat} {B : Type} [AddCommMonoid B] (φ : Multiset Term →+ B) (f : Nat → Int → Int → Int → Fin ci → ℚ)
    (offs : List (Int × Int × Int)) (ws : List (Fin ci → Fin co → ℚ)) (p : Cell) (c : Fin co) :
    φ (convOf (termKernel ci co) f offs ws p c)
      = (List.zipWith (fun g w => ∑ j, φ {Term.prod (around f p g j) (w j c)}) offs ws).sum := by
  unfold convOf
  rw [sum_at, map_list_sum, List.map_map, List.map_zipWith]
  congr 2
  funext g w
  show φ (Finset.univ.val.map fun j => Term.prod (around f p g j) (w j c)) = _
  have : (Finset.univ.val.map fun j => Term.prod (around f p g j) (w j c)) = ∑ j, {Term.prod (around f p g j) (w j c)} := by
    show _ = (Finset.univ.val.map fun j => ({Term.prod (around f p g j) (w j c)} : Multiset Term)).sum
    rw [← Multiset.sum_map_singleton (Finset.univ.val.map fun j => Term.prod (around f p g j) (w j c)), Multiset.map_map]
    rfl
  rw [this, map_sum]

theorem termSum_conv {ci co : Nat} (f : Nat → Int → Int → Int → Fin ci → ℚ) (offs : List (Int × Int × Int))
    (ws : List (Fin ci → Fin co → ℚ)) (p : Cell) (c : Fin co) :
    termSum (convOf (termKernel ci co) f offs ws p c) = convOf (denseKernel ℚ ci co) f offs ws p c := by
  rw [hom_conv]
  unfold convOf
  rw [sum_at, List.map_zipWith]
  congr 2
  funext g w
  show _ = ∑ j, around f p g j * w j c
  exact Finset.sum_congr rfl fun j _ => termSum_single _

theorem termAbs_conv {ci co : Nat} (f : Nat → Int → Int → Int → Fin ci → ℚ) (offs : List (Int × Int × Int))
    (ws : List (Fin ci → Fin co → ℚ)) (p : Cell) (c : Fin co) :
    termAbs (convOf (termKernel ci co) f offs ws p c)
      = convOf (denseKernel ℚ ci co) (fun b x y z => rowAbs (f b x y z)) offs (ws.map matAbs) p c := by
  rw [hom_conv]
  unfold convOf
  rw [sum_at, List.zipWith_map_right, List.map_zipWith]
  congr 2
  funext g w
  show _ = ∑ j, |around f p g j| * |w j c|
  exact Finset.sum_congr rfl fun j _ => by rw [termAbs_single]; exact abs_mul _ _

theorem termCard_conv {ci co : Nat} (f : Nat → Int → Int → Int → Fin ci → ℚ) (offs : List (Int × Int × Int))
    (ws : List (Fin ci → Fin co → ℚ)) (p : Cell) (c : Fin co) (h : ws.length = offs.length) :
    (convOf (termKernel ci co) f offs ws p c).card = offs.length * ci := by
  have := hom_conv (B := ℕ) Multiset.cardHom f offs ws p c
  rw [show (convOf (termKernel ci co) f offs ws p c).card = Multiset.cardHom (convOf (termKernel ci co) f offs ws p c) from rfl, this]
  have : (fun (g : Int × Int × Int) (w : Fin ci → Fin co → ℚ) => ∑ j, Multiset.cardHom {Term.prod (around f p g j) (w j c)}) = fun _ _ => ci := by
    funext g w
    simp
  rw [this]
  clear this
  have e : List.zipWith (fun (_ : Int × Int × Int) (_ : Fin ci → Fin co → ℚ) => ci) offs ws = List.replicate offs.length ci := by
    rw [List.eq_replicate_iff]
    refine ⟨by simp [h], ?_⟩
    intro b hb
    obtain ⟨i, hi, rfl⟩ := List.getElem_of_mem hb
    simp
  rw [e]
  simp

/-- The module with the absolute values of its parameters. -/
def ConvModule.abs {ci co : Nat} (m : ConvModule (Fin co → ℚ) (Fin ci → Fin co → ℚ)) : ConvModule (Fin co → ℚ) (Fin ci → Fin co → ℚ) :=
  { m with weights := m.weights.map matAbs, bias := m.bias.map rowAbs }

theorem abs_field {ci : Nat} {srcs : List Cell} {x : List (Fin ci → ℚ)} {f : Nat → Int → Int → Int → Fin ci → ℚ} (h : IsField srcs x f) :
    IsField srcs (x.map rowAbs) (fun b x y z => rowAbs (f b x y z)) := by
  refine ⟨by rw [List.length_map]; exact h.1, ?_, ?_⟩
  · intro i c v hc hv
    rw [List.getElem?_map] at hv
    cases hx : x[i]? with
    | none => rw [hx] at hv; cases hv
    | some r =>
      rw [hx] at hv
      cases hv
      show rowAbs (f c.b c.x c.y c.z) = _
      rw [h.2.1 i c r hc hx]
  · intro b x y z hb
    show rowAbs (f b x y z) = 0
    rw [h.2.2 b x y z hb]
    funext j
    exact abs_zero

theorem outs_exist {o : Octree F} {nempty : Bool} {d s : Nat} {srcs targets : List Cell} (hN : Nodes o nempty d s srcs targets) :
    ∃ outs : List (Option Cell), if s = 2 ∧ nempty = false then
        ∃ pcells pch, CellsOf o.batchSize (d - 1) o.keys pcells ∧ o.children (d - 1) = some pch ∧
          outs = (pcells.zip pch).map fun p => if 0 ≤ p.2 then some (firstChild p.1) else none
      else outs = targets.map some := by
  by_cases h : s = 2 ∧ nempty = false
  · simp only [if_pos h]
    cases hN with
    | one d cells ch h1 h2 => omega
    | two d cells ch pcells pch h1 h2 h3 h4 => exact ⟨_, pcells, pch, h3, h4, rfl⟩
  · simp only [if_neg h]
    exact ⟨_, rfl⟩

/-- C151, forward: whatever method, buffer size, order of summation and rounding a floating-point convolution uses, its result differs
from the exact convolution of C34 by at most `((1+u)^n - 1)` times the convolution of the absolute values, plus `n e (1+u)^n` for underflow,
where `n` is one more than the number of products per output. -/
theorem C151_forward {ci co : Nat} (u e : ℚ) (hu : 0 ≤ u) (he : 0 ≤ e) (o : Octree F) (h : Nat) (w : o.Valid h) (d : Nat) (hd : d ≤ h)
    (hn : NeighExact o.batchSize d o.keys o.neighs) (k : Nat × Nat × Nat) (hk : k ∈ supportedKernels) (nempty : Bool)
    (s : Nat) (srcs targets : List Cell) (hN : Nodes o nempty d s srcs targets) (ks : List Nat) (mb : Nat)
    (m : ConvModule (Fin co → ℚ) (Fin ci → Fin co → ℚ)) (ha : KernelArg ks k)
    (hi : ConvBase.init true ci co ks s nempty mb = .ok m.base)
    (hb : m.directMethod = false → (kernelOffsets k).length * ci ≤ mb)
    (hw : m.weights.length = (kernelOffsets k).length) (x : List (Fin ci → ℚ)) (hx : x.length = srcs.length) :
    ∃ T Y S, m.terms.forward (termKernel ci co) x o d = .ok T ∧ m.forward (denseKernel ℚ ci co) x o d = .ok Y ∧
      m.abs.forward (denseKernel ℚ ci co) (x.map rowAbs) o d = .ok S ∧ T.length = Y.length ∧ S.length = Y.length ∧
      ∀ (i : Nat) t y a, T[i]? = some t → Y[i]? = some y → S[i]? = some a → ∀ (c : Fin co) (v : ℚ), Rounded u e (t c) v →
        |v - y c| ≤ ((1 + u) ^ ((kernelOffsets k).length * ci + 1) - 1) * a c
          + ((kernelOffsets k).length * ci + 1) * e * (1 + u) ^ ((kernelOffsets k).length * ci + 1) := by
  obtain ⟨outs, houts⟩ := outs_exist hN
  obtain ⟨f, hf⟩ := exists_field srcs x hx.symm (nodes_nodup o h w d hd nempty s srcs targets hN)
  refine ⟨_, _, _, forward_uniform o h w d hd hn k hk nempty s srcs targets hN outs houts (termKernel ci co) ci co ks mb m.terms ha hi hb hw x f hf,
    forward_uniform o h w d hd hn k hk nempty s srcs targets hN outs houts (denseKernel ℚ ci co) ci co ks mb m ha hi hb hw x f hf,
    forward_uniform o h w d hd hn k hk nempty s srcs targets hN outs houts (denseKernel ℚ ci co) ci co ks mb m.abs ha hi hb
      (by show (m.weights.map matAbs).length = _; rw [List.length_map]; exact hw) _ _ (abs_field hf), by simp, by simp, ?_⟩
  intro i t y a ht hy hA c v hv
  rw [List.getElem?_map] at ht hy hA
  cases ho : outs[i]? with
  | none => rw [ho] at ht; cases ht
  | some oc =>
    rw [ho] at ht hy hA
    simp only [Option.map_some, Option.some.injEq] at ht hy hA
    have key : termSum (t c) = y c ∧ termAbs (t c) = a c ∧ (t c).card ≤ (kernelOffsets k).length * ci + 1 := by
      subst ht hy hA
      cases oc with
      | none => exact ⟨rfl, rfl, Nat.zero_le _⟩
      | some p =>
        dsimp only
        rw [Pi.add_apply, Pi.add_apply, Pi.add_apply, map_add, map_add, Multiset.card_add]
        show termSum (convOf (termKernel ci co) f (kernelOffsets k) m.weights p c) + _ = _ ∧
          termAbs (convOf (termKernel ci co) f (kernelOffsets k) m.weights p c) + _ = _ ∧
          (convOf (termKernel ci co) f (kernelOffsets k) m.weights p c).card + _ ≤ _
        rw [termSum_conv, termAbs_conv, termCard_conv _ _ _ _ _ hw]
        show _ + termSum ((m.bias.map fun b => fun (c : Fin co) => ({Term.const (b c)} : Multiset Term)).getD 0 c) = _ ∧
          _ + termAbs ((m.bias.map fun b => fun (c : Fin co) => ({Term.const (b c)} : Multiset Term)).getD 0 c)
            = convOf (denseKernel ℚ ci co) _ (kernelOffsets k) (m.weights.map matAbs) p c + (m.bias.map rowAbs).getD 0 c ∧
          _ + ((m.bias.map fun b => fun (c : Fin co) => ({Term.const (b c)} : Multiset Term)).getD 0 c).card ≤ _
        cases m.bias with
        | none => simp
        | some b =>
          simp only [Option.map_some, Option.getD_some]
          rw [termSum_single, termAbs_single]
          exact ⟨rfl, rfl, by simp⟩
    obtain ⟨k1, k2, k3⟩ := key
    have h1 := rounded_error hu he hv
    rw [k1, k2] at h1
    have h2 := errBound_mono hu he k3 (show 0 ≤ a c by rw [← k2]; exact termAbs_nonneg _)
    refine (h1.trans h2).trans (le_of_eq ?_)
    unfold errBound
    push_cast
    rfl

/-- C151, methods: the direct method and the buffered method with any sufficient buffer add up the same products, so that any two
floating-point results differ by at most twice the bound. -/
theorem C151_methods {ci co : Nat} (o : Octree F) (h : Nat) (w : o.Valid h) (d : Nat) (hd : d ≤ h)
    (hn : NeighExact o.batchSize d o.keys o.neighs) (k : Nat × Nat × Nat) (hk : k ∈ supportedKernels) (nempty : Bool)
    (s : Nat) (srcs targets : List Cell) (hN : Nodes o nempty d s srcs targets) (ks ks' : List Nat) (mb mb' : Nat)
    (m m' : ConvModule (Fin co → ℚ) (Fin ci → Fin co → ℚ)) (ha : KernelArg ks k) (ha' : KernelArg ks' k)
    (hi : ConvBase.init true ci co ks s nempty mb = .ok m.base) (hi' : ConvBase.init true ci co ks' s nempty mb' = .ok m'.base)
    (hb : m.directMethod = false → (kernelOffsets k).length * ci ≤ mb) (hb' : m'.directMethod = false → (kernelOffsets k).length * ci ≤ mb')
    (hw : m.weights.length = (kernelOffsets k).length) (hww : m'.weights = m.weights) (hbb : m'.bias = m.bias)
    (x : List (Fin ci → ℚ)) (hx : x.length = srcs.length) :
    m'.terms.forward (termKernel ci co) x o d = m.terms.forward (termKernel ci co) x o d := by
  obtain ⟨outs, houts⟩ := outs_exist hN
  obtain ⟨f, hf⟩ := exists_field srcs x hx.symm (nodes_nodup o h w d hd nempty s srcs targets hN)
  rw [forward_uniform o h w d hd hn k hk nempty s srcs targets hN outs houts (termKernel ci co) ci co ks mb m.terms ha hi hb hw x f hf,
    forward_uniform o h w d hd hn k hk nempty s srcs targets hN outs houts (termKernel ci co) ci co ks' mb' m'.terms ha' hi' hb'
      (by show m'.weights.length = _; rw [hww]; exact hw) x f hf]
  unfold ConvModule.terms
  rw [hww, hbb]

/-- C151, agreement: floating-point results of the direct method and of the buffered method with any sufficient buffer differ by at most
twice the bound of `C151_forward`. -/
theorem C151_agree {ci co : Nat} (u e : ℚ) (hu : 0 ≤ u) (he : 0 ≤ e) (o : Octree F) (h : Nat) (w : o.Valid h) (d : Nat) (hd : d ≤ h)
    (hn : NeighExact o.batchSize d o.keys o.neighs) (k : Nat × Nat × Nat) (hk : k ∈ supportedKernels) (nempty : Bool)
    (s : Nat) (srcs targets : List Cell) (hN : Nodes o nempty d s srcs targets) (ks ks' : List Nat) (mb mb' : Nat)
    (m m' : ConvModule (Fin co → ℚ) (Fin ci → Fin co → ℚ)) (ha : KernelArg ks k) (ha' : KernelArg ks' k)
    (hi : ConvBase.init true ci co ks s nempty mb = .ok m.base) (hi' : ConvBase.init true ci co ks' s nempty mb' = .ok m'.base)
    (hb : m.directMethod = false → (kernelOffsets k).length * ci ≤ mb) (hb' : m'.directMethod = false → (kernelOffsets k).length * ci ≤ mb')
    (hw : m.weights.length = (kernelOffsets k).length) (hww : m'.weights = m.weights) (hbb : m'.bias = m.bias)
    (x : List (Fin ci → ℚ)) (hx : x.length = srcs.length) :
    ∃ T T' S, m.terms.forward (termKernel ci co) x o d = .ok T ∧ m'.terms.forward (termKernel ci co) x o d = .ok T' ∧
      m.abs.forward (denseKernel ℚ ci co) (x.map rowAbs) o d = .ok S ∧ T'.length = T.length ∧ S.length = T.length ∧
      ∀ (i : Nat) t t' a, T[i]? = some t → T'[i]? = some t' → S[i]? = some a → ∀ (c : Fin co) (v v' : ℚ),
        Rounded u e (t c) v → Rounded u e (t' c) v' →
        |v - v'| ≤ 2 * (((1 + u) ^ ((kernelOffsets k).length * ci + 1) - 1) * a c
          + ((kernelOffsets k).length * ci + 1) * e * (1 + u) ^ ((kernelOffsets k).length * ci + 1)) := by
  obtain ⟨T, Y, S, h1, h2, h3, h4, h5, h6⟩ := C151_forward u e hu he o h w d hd hn k hk nempty s srcs targets hN ks mb m ha hi hb hw x hx
  have hm := C151_methods o h w d hd hn k hk nempty s srcs targets hN ks ks' mb mb' m m' ha ha' hi hi' hb hb' hw hww hbb x hx
  refine ⟨T, T, S, h1, hm.trans h1, h3, rfl, by omega, ?_⟩
  intro i t t' a ht ht' hA c v v' hv hv'
  rw [ht] at ht'
  cases ht'
  have hlt : i < Y.length := by rw [← h4]; exact (List.getElem?_eq_some_iff.mp ht).1
  have b1 := h6 i t _ a ht (List.getElem?_eq_getElem hlt) hA c v hv
  have b2 := h6 i t _ a ht (List.getElem?_eq_getElem hlt) hA c v' hv'
  have e1 : v - v' = (v - Y[i] c) + -(v' - Y[i] c) := by ring
  rw [e1]
  have := abs_add_le (v - Y[i] c) (-(v' - Y[i] c))
  rw [abs_neg] at this
  linarith

/-! ## Gradients -/

theorem scatterAddInto_map {A A' : Type} [AddCommMonoid A] [AddCommMonoid A'] (φ : A →+ A') (ps : List (Nat × A)) :
    ∀ out : List A, (scatterAddInto out ps).map φ = scatterAddInto (out.map φ) (ps.map fun p => (p.1, φ p.2)) := by
  induction ps with
  | nil => intro out; rfl
  | cons p ps ih =>
    intro out
    rw [List.map_cons]
    show (scatterAddInto (out.modify p.1 (· + p.2)) ps).map φ = scatterAddInto ((out.map φ).modify p.1 (· + φ p.2)) _
    rw [ih]
    congr 1
    apply List.ext_getElem?
    intro i
    simp only [List.getElem?_map, List.getElem?_modify]
    cases out[i]? with
    | none => rfl
    | some a =>
      simp only [Option.map_some, Option.map_eq_map]
      split <;> simp

theorem scatterPairs_map {A A' : Type} (φ : A → A') (neigh : List (List Int)) (cols : List (List A)) :
    (scatterPairs neigh cols).map (fun p => (p.1, φ p.2)) = scatterPairs neigh (cols.map fun r => r.map φ) := by
  unfold scatterPairs
  rw [← List.map_flatten]
  generalize neigh.flatten = ns
  generalize cols.flatten = vs
  unfold flatPairs
  rw [List.zip_map_right, List.filterMap_map, List.map_filterMap]
  congr 1
  funext q
  by_cases hq : q.1 ≥ 0 <;> simp [Prod.map, hq]

/-- A homomorphism applied to every channel. -/
def chanHom {n : Nat} {B : Type} [AddCommMonoid B] (φ : Multiset Term →+ B) : (Fin n → Multiset Term) →+ (Fin n → B) where
  toFun t := fun j => φ (t j)
  map_zero' := by funext j; exact map_zero φ
  map_add' s t := by funext j; exact map_add φ _ _

theorem hom_apT {ci co : Nat} {B : Type} [AddCommMonoid B] (φ : Multiset Term →+ B) (g : Fin co → ℚ) (w : Fin ci → Fin co → ℚ) (j : Fin ci) :
    φ ((termKernelT ci co).apT g w j) = ∑ c, φ {Term.prod (g c) (w j c)} := by
  show φ (Finset.univ.val.map fun c => Term.prod (g c) (w j c)) = _
  have : (Finset.univ.val.map fun c => Term.prod (g c) (w j c)) = ∑ c, {Term.prod (g c) (w j c)} := by
    show _ = (Finset.univ.val.map fun c => ({Term.prod (g c) (w j c)} : Multiset Term)).sum
    rw [← Multiset.sum_map_singleton (Finset.univ.val.map fun c => Term.prod (g c) (w j c)), Multiset.map_map]
    rfl
  rw [this, map_sum]

theorem termSum_back {ci co : Nat} (neigh : List (List Int)) (n : Nat) (ws : List (Fin ci → Fin co → ℚ)) (g : List (Fin co → ℚ)) :
    (scatterAddInto (List.replicate n 0) (scatterPairs neigh (backCols (termKernelT ci co) ws g))).map (chanHom termSum)
      = scatterAddInto (List.replicate n 0) (scatterPairs neigh (backCols (denseKernel ℚ ci co) ws g)) := by
  rw [scatterAddInto_map, scatterPairs_map, List.map_replicate, map_zero]
  congr 2
  unfold backCols
  rw [List.map_map]
  apply List.map_congr_left
  intro a _
  simp only [Function.comp_apply, List.map_map]
  apply List.map_congr_left
  intro b _
  funext j
  show termSum ((termKernelT ci co).apT a b j) = ∑ c, a c * b j c
  rw [hom_apT]
  exact Finset.sum_congr rfl fun c _ => termSum_single _

theorem termAbs_back {ci co : Nat} (neigh : List (List Int)) (n : Nat) (ws : List (Fin ci → Fin co → ℚ)) (g : List (Fin co → ℚ)) :
    (scatterAddInto (List.replicate n 0) (scatterPairs neigh (backCols (termKernelT ci co) ws g))).map (chanHom termAbs)
      = scatterAddInto (List.replicate n 0) (scatterPairs neigh (backCols (denseKernel ℚ ci co) (ws.map matAbs) (g.map rowAbs))) := by
  rw [scatterAddInto_map, scatterPairs_map, List.map_replicate, map_zero]
  congr 2
  unfold backCols
  rw [List.map_map, List.map_map]
  apply List.map_congr_left
  intro a _
  simp only [Function.comp_apply, List.map_map]
  apply List.map_congr_left
  intro b _
  funext j
  show termAbs ((termKernelT ci co).apT a b j) = ∑ c, |a c| * |b j c|
  rw [hom_apT]
  exact Finset.sum_congr rfl fun c _ => by rw [termAbs_single]; exact abs_mul _ _

/-- A homomorphism applied to every entry of a matrix. -/
def matHom {m n : Nat} {B : Type} [AddCommMonoid B] (φ : Multiset Term →+ B) : (Fin m → Fin n → Multiset Term) →+ (Fin m → Fin n → B) where
  toFun t := fun j c => φ (t j c)
  map_zero' := by funext j c; exact map_zero φ
  map_add' s t := by funext j c; exact map_add φ _ _

theorem termSum_outer {ci co : Nat} (n : Nat) (cols : List (List (Fin ci → ℚ))) (g : List (Fin co → ℚ)) :
    (outerSum (termKernelW ci co) n cols g).map (matHom termSum) = outerSum (denseKernel ℚ ci co) n cols g := by
  unfold outerSum
  rw [List.map_map]
  apply List.map_congr_left
  intro k _
  simp only [Function.comp_apply]
  rw [map_list_sum, List.map_zipWith]
  congr 1
  congr 1
  funext a b j c
  exact termSum_single _

theorem termAbs_outer {ci co : Nat} (n : Nat) (cols : List (List (Fin ci → ℚ))) (g : List (Fin co → ℚ)) :
    (outerSum (termKernelW ci co) n cols g).map (matHom termAbs)
      = outerSum (denseKernel ℚ ci co) n (cols.map fun r => r.map rowAbs) (g.map rowAbs) := by
  unfold outerSum
  rw [List.map_map]
  apply List.map_congr_left
  intro k _
  simp only [Function.comp_apply]
  rw [map_list_sum, List.map_zipWith, List.zipWith_map]
  congr 1
  congr 1
  funext a b j c
  show termAbs {Term.prod ((a[k]?).getD 0 j) (b c)} = ((a.map rowAbs)[k]?).getD 0 j * |b c|
  rw [termAbs_single, List.getElem?_map]
  cases a[k]? with
  | none => simp [Term.val]
  | some r => exact abs_mul _ _

theorem termCard_outer {ci co : Nat} (n : Nat) (cols : List (List (Fin ci → ℚ))) (g : List (Fin co → ℚ)) (hg : cols.length = g.length)
    (t : Fin ci → Fin co → Multiset Term) (ht : t ∈ outerSum (termKernelW ci co) n cols g) (j : Fin ci) (c : Fin co) : (t j c).card = g.length := by
  unfold outerSum at ht
  obtain ⟨k, -, rfl⟩ := List.mem_map.mp ht
  clear ht
  induction cols generalizing g with
  | nil => cases g with
    | nil => rfl
    | cons b g => cases hg
  | cons r cols ih => cases g with
    | nil => cases hg
    | cons b g =>
      rw [List.zipWith_cons_cons, List.sum_cons, Pi.add_apply, Pi.add_apply, Multiset.card_add,
        ih g (by simpa using hg)]
      show 1 + g.length = _
      rw [List.length_cons]; omega

theorem fwdCols_abs {ci : Nat} (neigh : List (List Int)) (x : List (Fin ci → ℚ)) :
    fwdCols neigh (x.map rowAbs) = (fwdCols neigh x).map fun r => r.map rowAbs := by
  unfold fwdCols
  rw [List.map_map]
  apply List.map_congr_left
  intro row _
  simp only [Function.comp_apply, List.map_map]
  apply List.map_congr_left
  intro v _
  have h0 : rowAbs (0 : Fin ci → ℚ) = 0 := by funext j; exact abs_zero
  simp only [Function.comp_apply]
  unfold valAt
  split
  · rw [List.getElem?_map]
    cases x[v.toNat]? with
    | none => exact h0.symm
    | some a => rfl
  · exact h0.symm

/-- C151, gradients: both gradients that the buffered method computes in floating point are within the bound, for any sufficient buffer. -/
theorem C151_gradients {ci co : Nat} (u e : ℚ) (hu : 0 ≤ u) (he : 0 ≤ e) (o : Octree F) (h : Nat) (w : o.Valid h) (d : Nat) (hd : d ≤ h)
    (hn : NeighExact o.batchSize d o.keys o.neighs) (k : Nat × Nat × Nat) (hk : k ∈ supportedKernels) (nempty : Bool)
    (s : Nat) (srcs targets : List Cell) (hN : Nodes o nempty d s srcs targets) (ks : List Nat) (mb : Nat) (b : ConvBase) (ha : KernelArg ks k)
    (hi : ConvBase.init true ci co ks s nempty mb = .ok b) (hb : (kernelOffsets k).length * ci ≤ mb)
    (x : List (Fin ci → ℚ)) (hx : x.length = srcs.length) (ws : List (Fin ci → Fin co → ℚ)) (hw : ws.length = (kernelOffsets k).length)
    (g : List (Fin co → ℚ)) (hg : g.length = targets.length) :
    ∃ st TX TW GX GW SX SW, b.setup o d = .ok st ∧
      backwardGemm (termKernelT ci co) st (List.replicate x.length 0) g ws = .ok TX ∧
      weightGemm (termKernelW ci co) st (List.replicate ws.length 0) x g = .ok TW ∧
      convBackward (denseKernel ℚ ci co) b x ws o d g = .ok (GX, GW) ∧
      convBackward (denseKernel ℚ ci co) b (x.map rowAbs) (ws.map matAbs) o d (g.map rowAbs) = .ok (SX, SW) ∧
      TX.length = x.length ∧ GX.length = x.length ∧ SX.length = x.length ∧
      TW.length = ws.length ∧ GW.length = ws.length ∧ SW.length = ws.length ∧
      (∀ (i : Nat) t y a, TX[i]? = some t → GX[i]? = some y → SX[i]? = some a → ∀ (j : Fin ci) (v : ℚ), Rounded u e (t j) v →
        |v - y j| ≤ errBound u e (t j).card (a j)) ∧
      (∀ (i : Nat) t y a, TW[i]? = some t → GW[i]? = some y → SW[i]? = some a → ∀ (j : Fin ci) (c : Fin co) (v : ℚ), Rounded u e (t j c) v →
        |v - y j c| ≤ errBound u e g.length (a j c)) := by
  obtain ⟨st, e1, e2, e3, e4⟩ := conv_setup o h w d hd hn k hk nempty s srcs targets hN ci co ks mb b ha hi hb
  have hnd := nodes_nodup o h w d hd nempty s srcs targets hN
  have hin := table_inside e2.table hnd
  refine ⟨st, _, _, _, _, _, _, e1,
    backwardGemm_ok (termKernelT ci co) st _ g ws e2.chunked e2.width (by rw [List.length_replicate, hx]; exact hin) (by rw [hw, e2.kdim])
      (by rw [hg, e2.rows]),
    weightGemm_ok (termKernelW ci co) st _ x g e2.chunked e2.width (hx ▸ hin) (by rw [List.length_replicate, hw, e2.kdim]) (by rw [hg, e2.rows]),
    convBackward_ok _ b o d st srcs targets _ e1 e2 hnd x hx ws hw g hg,
    convBackward_ok _ b o d st srcs targets _ e1 e2 hnd (x.map rowAbs) (by rw [List.length_map, hx]) (ws.map matAbs) (by rw [List.length_map, hw])
      (g.map rowAbs) (by rw [List.length_map, hg]), ?_, ?_, ?_, ?_, ?_, ?_, ?_, ?_⟩
  · rw [scatterAddInto_length, List.length_replicate]
  · rw [scatterAddInto_length, List.length_replicate]
  · rw [scatterAddInto_length, List.length_replicate, List.length_map]
  · rw [List.length_zipWith, List.length_replicate, outerSum_length, e2.kdim, hw, min_self]
  · rw [outerSum_length]
  · rw [outerSum_length, List.length_map]
  · intro i t y a ht hy hA j v hv
    rw [List.length_map, ← termAbs_back, List.getElem?_map, ht] at hA
    rw [← termSum_back, List.getElem?_map, ht] at hy
    cases hA
    cases hy
    exact rounded_error hu he hv
  · intro i t y a ht hy hA j c v hv
    rw [zipWith_zero_add _ _ (by rw [outerSum_length, e2.kdim, hw]), e2.kdim, ← hw] at ht
    rw [List.length_map, fwdCols_abs, ← termAbs_outer, List.getElem?_map, ht] at hA
    rw [← termSum_outer, List.getElem?_map, ht] at hy
    cases hA
    cases hy
    have := rounded_error hu he hv
    rw [termCard_outer _ _ _ (by unfold fwdCols; rw [List.length_map, e2.rows, hg]) t (List.mem_of_getElem? ht)] at this
    exact this

/-- The bound with `u = e = 0` says that the result is exact, and the exact result is always one of the admitted ones. -/
example (s : Multiset Term) (v : ℚ) : Rounded 0 0 s v ↔ v = termSum s := by
  constructor
  · intro h
    have := rounded_error (le_refl 0) (le_refl 0) h
    simp only [errBound, add_zero, one_pow, sub_self, zero_mul, mul_zero, abs_nonpos_iff] at this
    linarith
  · rintro rfl
    exact rounded_exact (le_refl 0) (le_refl 0) s

/-- Two orders of adding the same three summands may give different results, both admitted. -/
example : Rounded (1 / 10) 0 {.const 1, .const 1, .const (-2)} 0 ∧ Rounded (1 / 10) 0 {.const 1, .const 1, .const (-2)} (1 / 10) := by
  constructor
  · have := rounded_exact (u := 1 / 10) (e := 0) (by norm_num) (le_refl 0) {.const 1, .const 1, .const (-2)}
    have e1 : termSum {.const 1, .const 1, .const (-2)} = 0 := by
      show (Multiset.map Term.val {.const 1, .const 1, .const (-2)}).sum = 0
      decide +kernel
    rwa [e1] at this
  · have h1 : Rounded (1 / 10) 0 {.const 1, .const (-2)} (-9 / 10) :=
      .add {.const 1} {.const (-2)} 1 (-2) _ (by simp) (by simp) (.const 1) (.const (-2)) (by norm_num)
    exact .add {.const 1} {.const 1, .const (-2)} 1 (-9 / 10) _ (by simp) (by simp) (.const 1) h1 (by norm_num)

example : ∃ (o : Octree Unit) (m m' : ConvModule (Fin 2 → ℚ) (Fin 3 → Fin 2 → ℚ)) (srcs : List Cell) (x : List (Fin 3 → ℚ)), x ≠ [] ∧
    o.Valid 2 ∧ NeighExact o.batchSize 2 o.keys o.neighs ∧ Nodes o false 2 1 srcs srcs ∧ x.length = srcs.length ∧
    ConvBase.init true 3 2 [3] 1 false 100 = .ok m.base ∧ ConvBase.init true 3 2 [3, 3] 1 false 200000 = .ok m'.base ∧
    m.directMethod = false ∧ m'.directMethod = true ∧ m.weights.length = (kernelOffsets (3, 3, 3)).length ∧ m'.weights = m.weights ∧
    m'.bias = m.bias ∧ (kernelOffsets (3, 3, 3)).length * 3 ≤ 100 ∧ ((3, 3, 3) : Nat × Nat × Nat) ∈ supportedKernels ∧
    KernelArg [3] (3, 3, 3) ∧ KernelArg [3, 3] (3, 3, 3) := by
  obtain ⟨o, h1, -, h5, -, h7, h6, -⟩ := example_valid'
  have hk : ((3, 3, 3) : Nat × Nat × Nat) ∈ supportedKernels := by decide
  have ha : KernelArg [3] (3, 3, 3) := Or.inr (Or.inr ⟨rfl, rfl, rfl⟩)
  have ha' : KernelArg [3, 3] (3, 3, 3) := Or.inr (Or.inl ⟨rfl, rfl⟩)
  obtain ⟨srcs, hN⟩ := nodes_one_exists o 2 h1 2 (le_refl _) false
  obtain ⟨-, hl, -⟩ := nodes_table o 2 h1 2 (le_refl _) (h5 2 (le_refl _)) _ hk false 1 srcs srcs hN
  refine ⟨o, { base := _, directMethod := false, weights := List.replicate 27 (fun _ _ => 1), bias := some fun _ => 1 },
    { base := _, directMethod := true, weights := List.replicate 27 (fun _ _ => 1), bias := some fun _ => 1 }, srcs,
    List.replicate srcs.length (fun _ => 1), ?_, h1, h5 2 (le_refl _), hN, by simp, init_ok true 3 2 [3] 1 false 100 (3, 3, 3) hk ha,
    init_ok true 3 2 [3, 3] 1 false 200000 (3, 3, 3) hk ha', rfl, rfl, by simp [kernelOffsets]; decide, rfl, rfl, by decide, hk, ha, ha'⟩
  intro hz
  have := congrArg List.length hz
  rw [List.length_replicate, hl] at this
  simp [h7] at this

end Ocnn
