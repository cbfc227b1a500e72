import Verif.FloatPool
import Verif.PropsPoolAvg
import Verif.PropsFloatLeaves
import Verif.AutoProofs

/-! Property C163: global pooling and node counts in the precision of the features. -/

set_option linter.unusedSimpArgs false
set_option linter.unusedVariables false

namespace Ocnn
open Spec

variable {F V : Type}

/-! ### rounding to `p` bits -/

/-- The spacing of the numbers with `p` bits in the binade of `x`. -/
def ulpP (p : Nat) (x : ℚ) : ℚ := 2 ^ (Int.log 2 |x| - ((p : ℤ) - 1))

theorem roundP_eq (p : Nat) (x : ℚ) : roundP p x = (rne (x / ulpP p x) : ℚ) * ulpP p x := rfl

theorem ulpP_pos (p : Nat) (x : ℚ) : 0 < ulpP p x := zpow_pos (by norm_num) _

theorem roundP_zero (p : Nat) : roundP p 0 = 0 := by
  rw [roundP_eq, zero_div, show (0 : ℚ) = ((0 : ℤ) : ℚ) by simp, rne_int]
  simp

/-- float32 is the precision 24 -/
theorem roundP_f32 : roundP 24 = f32 := by
  funext x
  unfold roundP f32 ulp
  norm_num

/-- the relative error of one rounding -/
theorem roundP_rel (p : Nat) (x : ℚ) : |roundP p x - x| ≤ 1 / 2 ^ p * |x| := by
  by_cases hx : x = 0
  · subst hx; rw [roundP_zero]; simp
  have hu := ulpP_pos p x
  have e : roundP p x - x = ((rne (x / ulpP p x) : ℚ) - x / ulpP p x) * ulpP p x := by
    rw [roundP_eq, sub_mul, div_mul_cancel₀ _ hu.ne']
  rw [e, abs_mul, abs_of_pos hu]
  have h1 : |(rne (x / ulpP p x) : ℚ) - x / ulpP p x| * ulpP p x ≤ 1 / 2 * ulpP p x := mul_le_mul_of_nonneg_right (rne_err _) hu.le
  refine h1.trans ?_
  have h2 := Int.zpow_log_le_self (b := 2) (by norm_num) (abs_pos.2 hx)
  have h3 : ulpP p x * (2 ^ p / 2) = 2 ^ Int.log 2 |x| := by
    unfold ulpP
    rw [zpow_sub₀ (by norm_num), zpow_sub₀ (by norm_num), zpow_natCast, zpow_one]
    have : (2 : ℚ) ^ p ≠ 0 := by positivity
    field_simp
  have h4 : ulpP p x * (2 ^ p / 2) ≤ |x| := by rw [h3]; exact_mod_cast h2
  rw [div_mul_eq_mul_div, one_mul, div_mul_eq_mul_div, one_mul, le_div_iff₀ (by positivity)]
  linarith

/-- integers up to `2^p` are not rounded -/
theorem roundP_nat {p : Nat} (hp : 1 ≤ p) {n : Nat} (h : n ≤ 2 ^ p) : roundP p n = n := by
  rcases Nat.eq_zero_or_pos n with rfl | hn
  · simpa using roundP_zero p
  have hn0 : (0 : ℚ) < n := by exact_mod_cast hn
  have key : ∃ m : ℤ, (n : ℚ) / ulpP p n = m := by
    unfold ulpP
    rw [abs_of_pos hn0]
    rcases Nat.lt_or_ge n (2 ^ p) with h1 | h1
    · have hl : Int.log 2 (n : ℚ) < p := (Int.lt_zpow_iff_log_lt (b := 2) (by norm_num) hn0).1 (by rw [zpow_natCast]; exact_mod_cast h1)
      refine ⟨n * 2 ^ ((p : ℤ) - 1 - Int.log 2 (n : ℚ)).toNat, ?_⟩
      push_cast
      rw [← zpow_natCast, Int.toNat_of_nonneg (by omega), div_eq_mul_inv, ← zpow_neg]
      congr 2
      ring
    · obtain rfl : n = 2 ^ p := le_antisymm h h1
      have hl : Int.log 2 ((2 ^ p : ℕ) : ℚ) = p := log_unique (by push_cast; rw [zpow_natCast]) (by
        push_cast
        rw [zpow_add₀ (by norm_num), zpow_natCast, zpow_one]
        have : (0 : ℚ) < 2 ^ p := by positivity
        linarith)
      refine ⟨2 ^ (p - 1), ?_⟩
      rw [hl]
      have : (p : ℤ) - ((p : ℤ) - 1) = 1 := by ring
      rw [this]
      push_cast
      rw [div_eq_iff (by norm_num), ← pow_succ]
      congr 1
      omega
  obtain ⟨m, hm⟩ := key
  rw [roundP_eq, hm, rne_int, ← hm, div_mul_cancel₀ _ (ulpP_pos p _).ne']

/-- `2^p + 1` is rounded to `2^p` -/
theorem roundP_odd {p : Nat} (hp : 2 ≤ p) : roundP p (2 ^ p + 1) = 2 ^ p := by
  have hpos : (0 : ℚ) < 2 ^ p + 1 := by positivity
  have h1 : (1 : ℚ) < 2 ^ p := by
    calc (1 : ℚ) < 2 ^ 1 := by norm_num
      _ ≤ 2 ^ p := pow_le_pow_right₀ (by norm_num) (by omega)
  have hl : Int.log 2 |(2 ^ p + 1 : ℚ)| = p := by
    rw [abs_of_pos hpos]
    apply log_unique
    · rw [zpow_natCast]; linarith
    · rw [zpow_add₀ (by norm_num), zpow_natCast, zpow_one]; linarith
  obtain ⟨k, rfl⟩ : ∃ k, p = k + 2 := ⟨p - 2, by omega⟩
  have hx : ((2 : ℚ) ^ (k + 2) + 1) / 2 = (2 * 2 ^ k : ℤ) + 1 / 2 := by push_cast; ring
  have hf : ⌊((2 * 2 ^ k : ℤ) : ℚ) + 1 / 2⌋ = 2 * 2 ^ k := by
    rw [Int.floor_eq_iff]
    constructor <;> linarith
  unfold roundP
  rw [hl]
  have : ((k + 2 : ℕ) : ℤ) - (((k + 2 : ℕ) : ℤ) - 1) = 1 := by ring
  rw [this, zpow_one, hx, rne, hf]
  have e : ((2 * 2 ^ k : ℤ) : ℚ) + 1 / 2 - ((2 * 2 ^ k : ℤ) : ℚ) = 1 / 2 := by ring
  rw [e, if_neg (by norm_num), if_neg (by norm_num), if_pos (by omega)]
  push_cast
  ring

/-! ### sums -/

/-- adding up in the order of the rows is one of the possible orders -/
theorem seqSum_sumP (p : Nat) (a : ℚ) (l : List ℚ) (ha : roundP p a = a) : SumP p ((a :: l : List ℚ) : Multiset ℚ) (seqSum p (a :: l)) := by
  have gen : ∀ (l : List ℚ) (s : Multiset ℚ) (v : ℚ), s ≠ 0 → SumP p s v → SumP p (s + (l : Multiset ℚ)) (l.foldl (fun a b => roundP p (a + b)) v) := by
    intro l
    induction l with
    | nil => intro s v _ h; simpa using h
    | cons b l ih =>
      intro s v hs h
      have h1 := ih (s + {b}) (roundP p (v + b)) (by simp) (.add s {b} v b hs (by simp) h (.single b))
      have e : s + {b} + (l : Multiset ℚ) = s + ((b :: l : List ℚ) : Multiset ℚ) := by
        rw [add_assoc]; rfl
      rw [e] at h1
      exact h1
  have := gen l {a} a (by simp) (.single a)
  unfold seqSum
  rw [List.foldl_cons, zero_add, ha]
  exact this

/-- up to `2^p` ones are counted right, in whatever order -/
theorem sumP_ones {p : Nat} (hp : 1 ≤ p) {s : Multiset ℚ} {v : ℚ} (h : SumP p s v) (hs : ∀ a ∈ s, a = 1) (hc : s.card ≤ 2 ^ p) : v = s.card := by
  induction h with
  | zero => simp
  | single a => simp [hs a (by simp)]
  | add s t a b _ _ _ _ ih1 ih2 =>
    rw [Multiset.card_add] at hc
    have h1 := ih1 (fun x hx => hs x (Multiset.mem_add.2 (Or.inl hx))) (by omega)
    have h2 := ih2 (fun x hx => hs x (Multiset.mem_add.2 (Or.inr hx))) (by omega)
    rw [h1, h2, Multiset.card_add, ← Nat.cast_add, roundP_nat hp hc]

/-- ones added up one after the other stop at `2^p` -/
theorem seqSum_ones {p : Nat} (hp : 2 ≤ p) (n : Nat) : seqSum p (List.replicate n 1) = (min n (2 ^ p) : ℕ) := by
  induction n with
  | zero => rfl
  | succ n ih =>
    rw [List.replicate_succ', seqSum, List.foldl_append]
    unfold seqSum at ih
    rw [ih]
    simp only [List.foldl_cons, List.foldl_nil]
    rcases Nat.lt_or_ge n (2 ^ p) with h | h
    · rw [min_eq_left (by omega), min_eq_left (by omega)]
      have := roundP_nat (p := p) (by omega) (n := n + 1) (by omega)
      rw [← this]
      push_cast
      rfl
    · rw [min_eq_right h, min_eq_right (by omega)]
      push_cast
      exact roundP_odd hp

theorem seqSum_zeros (p n : Nat) : seqSum p (List.replicate n 0) = 0 := by
  induction n with
  | zero => rfl
  | succ n ih =>
    rw [List.replicate_succ', seqSum, List.foldl_append]
    unfold seqSum at ih
    rw [ih]
    simp [roundP_zero]

theorem sumP_rounded {p : Nat} {s : Multiset ℚ} {v : ℚ} (h : SumP p s v) : Rounded (1 / 2 ^ p) 0 (s.map Term.const) v := by
  induction h with
  | zero => exact .zero
  | single a => exact .const a
  | add s t a b h1 h2 _ _ ih1 ih2 =>
    rw [Multiset.map_add]
    exact .add _ _ _ _ _ (by simpa using h1) (by simpa using h2) ih1 ih2 (by simpa using roundP_rel p (a + b))

/-- the error of a quotient of a sum by the number of its summands -/
theorem quotientP_error {p : Nat} {s : Multiset ℚ} {t : ℚ} (ht : SumP p s t) (hne : 0 < s.card) :
    |roundP p (t / s.card) - s.sum / s.card| ≤ ((1 + 1 / 2 ^ p) ^ (s.card + 1) - 1) * ((s.map fun a => |a|).sum / s.card) := by
  have hk0 : (0 : ℚ) < s.card := by exact_mod_cast hne
  have hu : (0 : ℚ) < 1 / 2 ^ p := by positivity
  have h1 := rounded_error hu.le (le_refl 0) (sumP_rounded ht)
  have e1 : termSum (s.map Term.const) = s.sum := by
    show ((s.map Term.const).map Term.val).sum = _
    rw [Multiset.map_map]
    exact congrArg Multiset.sum (Multiset.map_id s)
  have e2 : termAbs (s.map Term.const) = (s.map fun a => |a|).sum := by
    show ((s.map Term.const).map fun t => |t.val|).sum = _
    rw [Multiset.map_map]
    rfl
  have hle := termSum_le (s.map Term.const)
  rw [e1, e2] at h1 hle
  unfold errBound at h1
  rw [Multiset.card_map] at h1
  simp only [mul_zero, zero_mul, add_zero] at h1
  have h2 := roundP_rel p (t / s.card)
  generalize (s.map fun a => |a|).sum = A at *
  generalize s.sum = S at *
  generalize hn : s.card = n at *
  generalize (1 / 2 ^ p : ℚ) = u at *
  have h3 : |t| ≤ A + ((1 + u) ^ n - 1) * A := by
    have : t = S + (t - S) := by ring
    rw [this]
    exact (abs_add_le _ _).trans (add_le_add hle h1)
  have h4 : |roundP p (t / n) - S / n| ≤ |roundP p (t / n) - t / n| + |t / n - S / n| := by
    have : roundP p (t / n) - S / n = (roundP p (t / n) - t / n) + (t / n - S / n) := by ring
    rw [this]; exact abs_add_le _ _
  have h5 : |t / n - S / n| = |t - S| / n := by rw [← sub_div, abs_div, abs_of_pos hk0]
  have h6 : |t / n| = |t| / n := by rw [abs_div, abs_of_pos hk0]
  rw [h5] at h4
  rw [h6] at h2
  refine h4.trans ((add_le_add h2 (div_le_div_of_nonneg_right h1 hk0.le)).trans ?_)
  have h7 : |t| / n ≤ (A + ((1 + u) ^ n - 1) * A) / n := div_le_div_of_nonneg_right h3 hk0.le
  have h8 : u * (|t| / (n : ℚ)) ≤ u * ((A + ((1 + u) ^ n - 1) * A) / n) := mul_le_mul_of_nonneg_left h7 hu.le
  refine (add_le_add h8 le_rfl).trans (le_of_eq ?_)
  rw [pow_succ]
  field_simp
  ring

/-! ### the property -/

theorem rowsOf_mapped {W : Type} (f : V → W) (cells : List Cell) (x : List V) (b : Nat) : rowsOf cells (x.map f) b = (rowsOf cells x b).map f := by
  unfold rowsOf
  induction cells generalizing x with
  | nil => rfl
  | cons c cells ih =>
    cases x with
    | nil => rfl
    | cons v x =>
      have := ih x
      simp only [List.map_cons, List.zip_cons_cons, List.filter_cons]
      by_cases hb : c.b = b <;> simp [hb, this]

/-- **C163**, the summands: global pooling adds up, for every sample, the rows of its nodes and as many ones. -/
theorem C163_terms (o : Octree F) (h : Nat) (w : o.Valid h) (d : Nat) (hd : d ≤ h) (nempty : Bool) (cells : List Cell) (ch : List Int)
    (hc : CellsOf o.batchSize d o.keys cells) (hch : o.children d = some ch) (x : List V) (hx : x.length = (queried nempty cells ch).length) :
    globalPoolTerms x o d nempty = .ok ((List.range o.batchSize).map fun b =>
      ((rowsOf (queried nempty cells ch) x b : Multiset V), Multiset.replicate (rowsOf (queried nempty cells ch) x b).length 1)) := by
  have W := w.wf'
  have h16 := w.depth_le
  have hh := w.h_le
  have e := cells_unique (by omega) hc (W.cellsOf d hd)
  subst e
  rw [W.children d hd] at hch; cases hch
  have hid := batchId_queried W d hd nempty
  have hib := queried_b W d hd nempty
  revert hid hib hx
  generalize queried nempty (layerCells o.batchSize o.masks d) (number 0 (o.masks d)) = Q
  intro hx hid hib
  have hlt : ∀ b ∈ Q.map Cell.b, b < o.batchSize := by
    intro b hb
    obtain ⟨c, hc, rfl⟩ := List.mem_map.1 hb
    exact (hib c hc).1
  unfold globalPoolTerms
  simp only [hid, bind, Except.bind]
  rw [scatterAdd_some (List.replicate x.length ({1} : Multiset ℚ)) (Q.map Cell.b) o.batchSize (by simp [hx]) hlt]
  simp only []
  rw [scatterAdd_some (x.map fun v => ({v} : Multiset V)) (Q.map Cell.b) o.batchSize (by simp [hx]) hlt]
  simp only [pure, Except.pure, Except.ok.injEq]
  apply List.ext_getElem
  · simp
  · intro b h1 h2
    simp only [List.getElem_zip, List.getElem_map, List.getElem_range]
    rw [rowsOf_eq, rowsOf_eq, rowsOf_mapped, sum_singletons]
    have hones : (List.replicate x.length ({1} : Multiset ℚ)) = (List.replicate x.length (1 : ℚ)).map fun v => ({v} : Multiset ℚ) := by
      rw [List.map_replicate]
    rw [hones, rowsOf_mapped, sum_singletons]
    have hall : ∀ v ∈ rowsOf Q (List.replicate x.length (1 : ℚ)) b, v = 1 := fun v hv => List.eq_of_mem_replicate (rowsOf_mem hv)
    have := List.eq_replicate_of_mem hall
    rw [this, Multiset.coe_replicate, rowsOf_length Q (List.replicate x.length (1 : ℚ)) b x (by simp)]

/-- **C163** for samples with at most `2^p` nodes: with features of `p` significant bits (float32: 24, float16: 11, bfloat16: 8) the nodes of a sample are counted
right, in whatever order they are added up, and the pooled value differs from the mean of the sample by at most `(1 + 2^-p)^(n + 1) - 1` times the mean of the
absolute values; for a sample without nodes it is 0.  Missing: samples with more nodes, for which the claim is false, see `C163_violated`. -/
theorem C163_partial (p : Nat) (hp : 1 ≤ p) (o : Octree F) (h : Nat) (w : o.Valid h) (d : Nat) (hd : d ≤ h) (nempty : Bool) (cells : List Cell) (ch : List Int)
    (hc : CellsOf o.batchSize d o.keys cells) (hch : o.children d = some ch) (x : List ℚ) (hx : x.length = (queried nempty cells ch).length) :
    ∃ terms, globalPoolTerms x o d nempty = .ok terms ∧ terms.length = o.batchSize ∧
      ∀ (b : Nat) (s c : Multiset ℚ), terms[b]? = some (s, c) → (rowsOf (queried nempty cells ch) x b).length ≤ 2 ^ p →
        (∀ n, SumP p c n → n = (rowsOf (queried nempty cells ch) x b).length) ∧
        ∀ v, PooledP p s c v →
          (rowsOf (queried nempty cells ch) x b = [] → v = 0) ∧
          (rowsOf (queried nempty cells ch) x b ≠ [] →
            |v - (rowsOf (queried nempty cells ch) x b).sum / (rowsOf (queried nempty cells ch) x b).length| ≤
              ((1 + 1 / 2 ^ p) ^ ((rowsOf (queried nempty cells ch) x b).length + 1) - 1) *
                (((rowsOf (queried nempty cells ch) x b).map fun a => |a|).sum / (rowsOf (queried nempty cells ch) x b).length)) := by
  refine ⟨_, C163_terms o h w d hd nempty cells ch hc hch x hx, by simp, fun b s c hb hle => ?_⟩
  rw [List.getElem?_map] at hb
  rcases Nat.lt_or_ge b o.batchSize with hlt | hge
  swap
  · rw [List.getElem?_eq_none (by simpa using hge)] at hb
    simp at hb
  rw [List.getElem?_range hlt] at hb
  simp only [Option.map_some, Option.some.injEq, Prod.mk.injEq] at hb
  obtain ⟨rfl, rfl⟩ := hb
  generalize rowsOf (queried nempty cells ch) x b = l at *
  have hcnt : ∀ n, SumP p (Multiset.replicate l.length 1) n → n = l.length := by
    intro n hn
    have := sumP_ones hp hn (fun a ha => Multiset.eq_of_mem_replicate ha) (by simpa using hle)
    simpa using this
  refine ⟨hcnt, ?_⟩
  rintro v ⟨a, n, ha, hn, rfl⟩
  rw [hcnt n hn]
  constructor
  · rintro rfl
    have h1 := rounded_error (u := 1 / 2 ^ p) (by positivity) (le_refl 0) (sumP_rounded ha)
    have : a = 0 := by
      simpa [errBound] using h1
    rw [this]
    simp [roundP_zero]
  · intro hne
    have hpos : 0 < l.length := List.length_pos_iff.2 hne
    have h1 : (1 : ℚ) ≤ l.length := by exact_mod_cast hpos
    rw [if_neg (not_lt.2 h1)]
    have := quotientP_error ha (by simpa using hpos)
    simpa using this


theorem rowsOf_whole {Q : List Cell} {x : List V} (hx : x.length = Q.length) (hQ : ∀ c ∈ Q, c.b = 0) : rowsOf Q x 0 = x := by
  unfold rowsOf
  induction Q generalizing x with
  | nil => rw [List.length_eq_zero_iff.1 hx]; rfl
  | cons c Q ih =>
    cases x with
    | nil => simp at hx
    | cons v x =>
      have h1 := hQ c (by simp)
      have := ih (x := x) (by simpa using hx) (fun c hc => hQ c (List.mem_cons_of_mem _ hc))
      simpa [h1] using this

/-- The features of a saturated count: zeros, and `2^p` ones in the last rows. -/
def lateOnes (p n : Nat) : List ℚ := List.replicate (n - 2 ^ p) 0 ++ List.replicate (2 ^ p) 1

theorem seqSum_late {p : Nat} (hp : 2 ≤ p) (n : Nat) : seqSum p (lateOnes p n) = 2 ^ p := by
  unfold lateOnes seqSum
  rw [List.foldl_append]
  have h1 := seqSum_zeros p (n - 2 ^ p)
  have h2 := seqSum_ones hp (2 ^ p)
  unfold seqSum at h1 h2
  rw [h1, h2, min_self]
  push_cast
  rfl

theorem late_sum (p n : Nat) : (lateOnes p n).sum = 2 ^ p := by
  unfold lateOnes
  rw [List.sum_append, List.sum_replicate, List.sum_replicate]
  simp

theorem late_length {p n : Nat} (h : 2 ^ p ≤ n) : (lateOnes p n).length = n := by
  unfold lateOnes
  rw [List.length_append, List.length_replicate, List.length_replicate]
  omega

theorem roundP_one {p : Nat} (hp : 1 ≤ p) : roundP p 1 = 1 := by
  have := roundP_nat hp (n := 1) Nat.one_le_two_pow
  simpa using this

/-- In every octree of one sample with more than `2^p` nodes in a layer there are features, all of them 0 or 1, whose pooled value is 1 when the rows are added up
in their order, although their mean is `2^p / n`. -/
theorem C163_saturates (p : Nat) (hp : 2 ≤ p) (o : Octree F) (h : Nat) (w : o.Valid h) (hB : o.batchSize = 1) (d : Nat) (hd : d ≤ h) (nempty : Bool) (cells : List Cell)
    (ch : List Int) (hc : CellsOf o.batchSize d o.keys cells) (hch : o.children d = some ch) (hn : 2 ^ p < (queried nempty cells ch).length) :
    ∃ (x : List ℚ) (s c : Multiset ℚ), x.length = (queried nempty cells ch).length ∧ (∀ a ∈ x, a = 0 ∨ a = 1) ∧ globalPoolTerms x o d nempty = .ok [(s, c)] ∧
      s = (x : Multiset ℚ) ∧ SumP p s (seqSum p x) ∧ SumP p c (seqSum p (List.replicate x.length 1)) ∧ seqSum p (List.replicate x.length 1) = 2 ^ p ∧ PooledP p s c 1 ∧
      x.sum / x.length = 2 ^ p / (queried nempty cells ch).length := by
  have hT := fun x hx => C163_terms (V := ℚ) o h w d hd nempty cells ch hc hch x hx
  have W := w.wf'
  have h16 := w.depth_le
  have hh := w.h_le
  have e := cells_unique (by omega) hc (W.cellsOf d hd)
  subst e
  rw [W.children d hd] at hch; cases hch
  have hib := queried_b W d hd nempty
  revert hib hn hT
  generalize queried nempty (layerCells o.batchSize o.masks d) (number 0 (o.masks d)) = Q
  intro hn hT hib
  have hQ : ∀ c ∈ Q, c.b = 0 := fun c hc => by have := (hib c hc).1; omega
  obtain ⟨k, hk⟩ : ∃ k, Q.length - 2 ^ p = k + 1 := ⟨Q.length - 2 ^ p - 1, by omega⟩
  have hlen := late_length (p := p) hn.le
  have hs : SumP p ((lateOnes p Q.length : List ℚ) : Multiset ℚ) (seqSum p (lateOnes p Q.length)) := by
    have : lateOnes p Q.length = 0 :: (List.replicate k 0 ++ List.replicate (2 ^ p) 1) := by
      unfold lateOnes
      rw [hk, List.replicate_succ, List.cons_append]
    rw [this]
    exact seqSum_sumP p 0 _ (roundP_zero p)
  have hc1 : SumP p (Multiset.replicate Q.length 1) (seqSum p (List.replicate Q.length 1)) := by
    have e1 : Q.length = (Q.length - 1) + 1 := (Nat.sub_add_cancel (Nat.lt_of_le_of_lt (Nat.zero_le _) hn)).symm
    rw [← Multiset.coe_replicate, e1, List.replicate_succ]
    exact seqSum_sumP p 1 _ (roundP_one (by omega))
  have hc2 : seqSum p (List.replicate Q.length 1) = 2 ^ p := by
    rw [seqSum_ones hp, min_eq_right hn.le]
    push_cast
    rfl
  refine ⟨lateOnes p Q.length, _, _, hlen, ?_, ?_, rfl, hs, (by rw [hlen]; exact hc1), (by rw [hlen]; exact hc2), ?_, ?_⟩
  · intro a ha
    unfold lateOnes at ha
    rcases List.mem_append.1 ha with ha | ha
    · exact Or.inl (List.eq_of_mem_replicate ha)
    · exact Or.inr (List.eq_of_mem_replicate ha)
  · rw [hT _ hlen, hB]
    simp only [List.range_one, List.map_cons, List.map_nil, rowsOf_whole hlen hQ, hlen]
  · refine ⟨_, _, hs, hc1, ?_⟩
    have h2 : ¬ ((2 : ℚ) ^ p < 1) := not_lt.2 (one_le_pow₀ (by norm_num))
    rw [seqSum_late hp, hc2, if_neg h2, div_self (by positivity), roundP_one (by omega)]
  · rw [late_sum, hlen]

/-- **C163 does not hold.** For every precision there are octrees that the code builds, with one sample, and features for which the sample is counted and pooled wrong: for
half precision (11 bits) and the full layer at depth 4 the pooled value is 1 where the mean is 1/2; for float32 (24 bits) such layers exist from depth 9 on. -/
theorem C163_violated (p : Nat) (hp : 2 ≤ p) (d : Nat) (hd : d ≤ 16) (hn : 2 ^ p < 8 ^ d) :
    ∃ (o : Octree ℚ) (idx : List Nat) (x : List ℚ) (s c : Multiset ℚ), Octree.build id (fun c v => v / c) (Octree.new 16 d 1 0) crowd = .ok (o, idx) ∧
      o.nnum d = 8 ^ d ∧ x.length = 8 ^ d ∧ globalPoolTerms x o d false = .ok [(s, c)] ∧ SumP p c (2 ^ p) ∧ PooledP p s c 1 ∧ x.sum / x.length = 2 ^ p / 8 ^ d := by
  obtain ⟨o, idx, b1, b2, b3, b4, b5, cells, ch, b6⟩ := C07_build id (fun c v => v / c) (Octree.new 16 d 1 0) crowd _ (crowd_legal d hd)
  have hB : o.batchSize = 1 := b4
  have hf : o.fullDepth = d := b3
  have hN : o.nnum d = 8 ^ d := by rw [nnum_full b5 d (by omega), hB, mul_one]
  have W := b5.wf'
  have hQ := queried_length b5 d hd false _ _ (W.cellsOf d hd) (W.children d hd)
  rw [if_neg (by decide), hN] at hQ
  obtain ⟨x, s, c, h1, h2, h3, h4, h5, h6, h7, h8, h9⟩ := C163_saturates p hp o _ b5 hB d hd false _ _ (W.cellsOf d hd) (W.children d hd) (by rw [hQ]; exact hn)
  rw [hQ] at h1 h9
  refine ⟨o, idx, x, s, c, b1, hN, h1, h3, h7 ▸ h6, h8, ?_⟩
  rw [h9]
  push_cast
  rfl

/-- half precision, a full layer at depth 4: the pooled value 1, the mean 1/2 -/
example : ∃ (o : Octree ℚ) (x : List ℚ) (s c : Multiset ℚ), o.nnum 4 = 4096 ∧ globalPoolTerms x o 4 false = .ok [(s, c)] ∧ PooledP 11 s c 1 ∧ x.sum / x.length = 1 / 2 := by
  obtain ⟨o, idx, x, s, c, -, h1, -, h2, -, h3, h4⟩ := C163_violated 11 (by norm_num) 4 (by norm_num) (by norm_num)
  exact ⟨o, x, s, c, by rw [h1]; norm_num, h2, h3, by rw [h4]; norm_num⟩

/-- float32, depth 9 -/
example : (2 : ℕ) ^ 24 < 8 ^ 9 := by norm_num

/-- The hypotheses of `C163_partial` are met by the full layer at depth 2 of the same octree, in every precision from 6 bits on. -/
example : ∃ (o : Octree ℚ) (cells : List Cell) (ch : List Int) (terms : List (Multiset ℚ × Multiset ℚ)), o.Valid 16 ∧ CellsOf o.batchSize 2 o.keys cells ∧ o.children 2 = some ch ∧
    globalPoolTerms (List.replicate 64 (1 / 3 : ℚ)) o 2 false = .ok terms ∧ ∀ s c, terms[0]? = some (s, c) → ∀ n, SumP 6 c n → n = 64 := by
  obtain ⟨o, idx, b1, b2, b3, b4, b5, -⟩ := C07_build id (fun c v => v / c) (Octree.new 16 2 1 0) crowd _ (crowd_legal 2 (by norm_num))
  have hB : o.batchSize = 1 := b4
  have hf : o.fullDepth = 2 := b3
  have hN : o.nnum 2 = 64 := by rw [nnum_full b5 2 (by omega), hB]; norm_num
  have W := b5.wf'
  have hc := W.cellsOf 2 (by decide)
  have hch := W.children 2 (by decide)
  have hQ := queried_length b5 2 (by decide) false _ _ hc hch
  have hib := queried_b W 2 (by decide) false
  rw [if_neg (by decide), hN] at hQ
  obtain ⟨terms, h1, h2, h3⟩ := C163_partial 6 (by norm_num) o 16 b5 2 (by decide) false _ _ hc hch (List.replicate 64 (1 / 3 : ℚ)) (by rw [hQ, List.length_replicate])
  refine ⟨o, _, _, terms, b5, hc, hch, h1, fun s c hs n hn => ?_⟩
  have e := rowsOf_whole (x := List.replicate 64 (1 / 3 : ℚ)) (by rw [hQ, List.length_replicate]) (fun c hc => by have := (hib c hc).1; omega)
  have h4 := h3 0 s c hs
  rw [e, List.length_replicate] at h4
  have := (h4 (by norm_num)).1 n hn
  exact_mod_cast this

end Ocnn
