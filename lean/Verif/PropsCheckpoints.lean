import Verif.Checkpoints
import Verif.PropsSaving
import Verif.PropsKitti
import Verif.PropsFileLists

/-! Properties C124 (weights of upgraded checkpoints), C125 (names in upgraded checkpoints), C126 (cleaning up
checkpoints) and C127 (counting parameters). -/

namespace Ocnn
open Spec

/-! ### weights -/

theorem flatMap_range_getElem? {α : Type} (a b : Nat) (f : Nat → Nat → α) (i j : Nat) (hi : i < a) (hj : j < b) :
    ((List.range a).flatMap fun i => (List.range b).map (f i))[i * b + j]? = some (f i j) := by
  induction a with
  | zero => omega
  | succ a ih =>
    rw [List.range_succ, List.flatMap_append]
    have hl : ((List.range a).flatMap fun i => (List.range b).map (f i)).length = a * b := by
      simp [List.length_flatMap]
    rcases Nat.lt_or_ge i a with h | h
    · have hlt : i * b + j < a * b := by
        calc i * b + j < i * b + b := by omega
          _ = (i + 1) * b := by ring
          _ ≤ a * b := Nat.mul_le_mul_right _ h
      rw [List.getElem?_append_left (by rw [hl]; exact hlt)]
      exact ih h
    · obtain rfl : i = a := by omega
      rw [List.getElem?_append_right (by rw [hl]; omega), hl, Nat.add_sub_cancel_left]
      simp [hj]

/-- C124: the weights of an old convolution with `K` kernel elements, one row of `cin * K` numbers for each of `cout`
outputs with the kernel elements of one input channel side by side, become weights of shape `(K, cin, cout)` with the
same numbers: entry `(k, i, o)` is number `i * K + k` of row `o`.  `K` is 8 for down- and upsampling, else 27. -/
theorem C124_weights (key : String) (hkey : Mentions key "conv.weight") (shape : List Nat) (data : List ℚ) (cout cin K : Nat)
    (hK : K = if Mentions key "downsample" ∨ Mentions key "upsample" then 8 else 27) (hc : 0 < cout)
    (hs : shape.head? = some cout) (hd : data.length = cout * (cin * K)) :
    ∃ w, upgradeEntry key ⟨shape, data⟩ = .ok (key, w) ∧ w.shape = [K, cin, cout] ∧ w.data.length = K * (cin * cout) ∧
      ∀ k < K, ∀ i < cin, ∀ o < cout, w.data[(k * cin + i) * cout + o]? = data[o * (cin * K) + (i * K + k)]? := by
  have hK0 : 0 < K := by rw [hK]; split <;> omega
  have hview : viewLast ⟨shape, data⟩ K = .ok ⟨[cout, cin, K], data⟩ := by
    unfold viewLast
    have h0 : getIdx shape 0 = .ok cout := by
      cases shape with
      | nil => simp at hs
      | cons a l =>
        simp only [List.head?_cons, Option.some.injEq] at hs
        subst hs
        exact getIdx_nat (a :: l) 0 a rfl
    dsimp only
    rw [h0]
    have hm : data.length = cin * (cout * K) := by rw [hd]; ring
    have hpos : 0 < cout * K := Nat.mul_pos hc hK0
    simp only [bind, Except.bind, pure, Except.pure]
    rw [if_neg (by
      rw [not_or]
      refine ⟨hpos.ne', ?_⟩
      rw [not_not, hm]
      exact Nat.mul_mod_left _ _)]
    rw [hm, Nat.mul_div_cancel _ hpos]
  have hlast : (if hasSub "downsample" key || hasSub "upsample" key then 8 else 27) = K := by
    rw [hK]
    by_cases h1 : Mentions key "downsample"
    · simp [(hasSub_iff _ _).mpr h1, h1]
    · by_cases h2 : Mentions key "upsample"
      · simp [(hasSub_iff _ _).mpr h2, h2]
      · have e1 : hasSub "downsample" key = false := by
          rw [Bool.eq_false_iff]; exact fun h => h1 ((hasSub_iff _ _).mp h)
        have e2 : hasSub "upsample" key = false := by
          rw [Bool.eq_false_iff]; exact fun h => h2 ((hasSub_iff _ _).mp h)
        simp [e1, e2, h1, h2]
  refine ⟨⟨[K, cin, cout], (List.range K).flatMap fun k => (List.range cin).flatMap fun i => (List.range cout).map fun o =>
    data.getD ((o * cin + i) * K + k) 0⟩, ?_, rfl, ?_, ?_⟩
  · unfold upgradeEntry
    rw [if_pos ((hasSub_iff _ _).mpr hkey), hlast]
    simp only [bind, Except.bind, hview]
    rfl
  · simp [List.length_flatMap]
  · intro k hk i hi o ho
    dsimp only
    have h1 : ((List.range K).flatMap fun k => (List.range cin).flatMap fun i => (List.range cout).map fun o => data.getD ((o * cin + i) * K + k) 0)
        = (List.range K).flatMap fun k => (List.range (cin * cout)).map fun j => data.getD (((j % cout) * cin + j / cout) * K + k) 0 := by
      congr 1
      funext k
      apply List.ext_getElem?
      intro n
      rcases Nat.lt_or_ge n (cin * cout) with hn | hn
      · have hdiv : n / cout < cin := Nat.div_lt_of_lt_mul (by rwa [Nat.mul_comm])
        have hmod : n % cout < cout := Nat.mod_lt _ hc
        have := flatMap_range_getElem? cin cout (fun i o => data.getD ((o * cin + i) * K + k) 0) (n / cout) (n % cout) hdiv hmod
        rw [Nat.div_add_mod' n cout] at this
        rw [this, List.getElem?_map, List.getElem?_range hn]
        rfl
      · rw [List.getElem?_eq_none (by simp [List.length_flatMap]; exact hn), List.getElem?_eq_none (by simpa using hn)]
    rw [h1]
    have hj : i * cout + o < cin * cout := by
      calc i * cout + o < i * cout + cout := by omega
        _ = (i + 1) * cout := by ring
        _ ≤ cin * cout := Nat.mul_le_mul_right _ hi
    have := flatMap_range_getElem? K (cin * cout) (fun k j => data.getD (((j % cout) * cin + j / cout) * K + k) 0) k (i * cout + o) hk hj
    rw [show (k * cin + i) * cout + o = k * (cin * cout) + (i * cout + o) by ring, this]
    have e1 : (i * cout + o) % cout = o := by rw [Nat.add_comm, Nat.add_mul_mod_self_right, Nat.mod_eq_of_lt ho]
    have e2 : (i * cout + o) / cout = i := by rw [Nat.add_comm, Nat.add_mul_div_right _ _ hc, Nat.div_eq_of_lt ho, Nat.zero_add]
    rw [e1, e2, List.getD_eq_getElem?_getD]
    have hlt : (o * cin + i) * K + k < data.length := by
      rw [hd]
      have : o * cin + i + 1 ≤ cout * cin := by
        calc o * cin + i + 1 ≤ o * cin + cin := by omega
          _ = (o + 1) * cin := by ring
          _ ≤ cout * cin := Nat.mul_le_mul_right _ ho
      calc (o * cin + i) * K + k < (o * cin + i) * K + K := by omega
        _ = (o * cin + i + 1) * K := by ring
        _ ≤ (cout * cin) * K := Nat.mul_le_mul_right _ this
        _ = cout * (cin * K) := by ring
    rw [show o * (cin * K) + (i * K + k) = (o * cin + i) * K + k by ring, List.getElem?_eq_getElem hlt]
    rfl

theorem sum_range_blocks (a b : Nat) (f : Nat → ℚ) :
    ∑ j ∈ Finset.range (a * b), f j = ∑ i ∈ Finset.range a, ∑ k ∈ Finset.range b, f (i * b + k) := by
  induction a with
  | zero => simp
  | succ a ih => rw [Nat.succ_mul, Finset.sum_range_add, ih, Finset.sum_range_succ]

/-- C124, what the layer computes: for the values `x i k` of channel `i` at the neighbour of kernel element `k`, the sum over
kernel elements and channels with the new weights is the product of the old row with the values laid out channel by channel. -/
theorem C124_product (key : String) (hkey : Mentions key "conv.weight") (shape : List Nat) (data : List ℚ) (cout cin K : Nat)
    (hK : K = if Mentions key "downsample" ∨ Mentions key "upsample" then 8 else 27) (hc : 0 < cout)
    (hs : shape.head? = some cout) (hd : data.length = cout * (cin * K)) (x : Nat → Nat → ℚ) :
    ∃ w, upgradeEntry key ⟨shape, data⟩ = .ok (key, w) ∧ w.shape = [K, cin, cout] ∧
      ∀ o < cout, ∑ k ∈ Finset.range K, ∑ i ∈ Finset.range cin, w.data.getD ((k * cin + i) * cout + o) 0 * x i k
        = ∑ j ∈ Finset.range (cin * K), data.getD (o * (cin * K) + j) 0 * x (j / K) (j % K) := by
  obtain ⟨w, h1, h2, -, h4⟩ := C124_weights key hkey shape data cout cin K hK hc hs hd
  have hK0 : 0 < K := by rw [hK]; split <;> omega
  refine ⟨w, h1, h2, fun o ho => ?_⟩
  rw [sum_range_blocks, Finset.sum_comm]
  apply Finset.sum_congr rfl
  intro i hi
  apply Finset.sum_congr rfl
  intro k hk
  rw [Finset.mem_range] at hi hk
  rw [List.getD_eq_getElem?_getD, h4 k hk i hi o ho, ← List.getD_eq_getElem?_getD]
  have e1 : (i * K + k) % K = k := by rw [Nat.add_comm, Nat.add_mul_mod_self_right, Nat.mod_eq_of_lt hk]
  have e2 : (i * K + k) / K = i := by rw [Nat.add_comm, Nat.add_mul_div_right _ _ hK0, Nat.div_eq_of_lt hk, Nat.zero_add]
  rw [e1, e2]

/-- A down-sampling layer from 1 channel to 2. -/
example : Mentions "encoder.downsample.0.conv.weights" "conv.weight" ∧ Mentions "encoder.downsample.0.conv.weights" "downsample" ∧
    (upgradeEntry "encoder.downsample.0.conv.weights" ⟨[2, 8], (List.range 16).map fun n : Nat => (n : ℚ)⟩).toOption.map Prod.snd
      = some ⟨[8, 1, 2], [0, 8, 1, 9, 2, 10, 3, 11, 4, 12, 5, 13, 6, 14, 7, 15]⟩ := by
  refine ⟨(hasSub_iff _ _).mp (by decide +kernel), (hasSub_iff _ _).mp (by decide +kernel), by decide +kernel⟩

/-! ### names -/

/-- a word does not straddle the boundary of two strings -/
theorem not_infix_append {w p q : List Char} (hp : ¬ w <:+: p) (hq : ¬ w <:+: q) (hb : ∀ t < w.length, 0 < t → w.drop t <+: q → ¬ w.take t <:+ p) :
    ¬ w <:+: p ++ q := by
  rintro ⟨s, t, h⟩
  rw [List.append_assoc] at h
  rcases List.append_eq_append_iff.mp h with ⟨a, h1, h2⟩ | ⟨a, h1, h2⟩
  · -- the word starts in p
    rcases List.append_eq_append_iff.mp h2 with ⟨b, h3, h4⟩ | ⟨b, h3, h4⟩
    · exact hp ⟨s, b, by rw [h1, h3, List.append_assoc]⟩
    · rcases Nat.eq_zero_or_pos a.length with h0 | h0
      · have : a = [] := List.length_eq_zero_iff.mp h0
        subst this
        exact hq ⟨[], t, by rw [h3, h4]; simp⟩
      · rcases Nat.eq_zero_or_pos b.length with h0' | h0'
        · have : b = [] := List.length_eq_zero_iff.mp h0'
          subst this
          rw [List.append_nil] at h3
          exact hp ⟨s, [], by rw [h1, h3]; simp⟩
        · apply hb a.length (by rw [h3]; simp; omega) h0
          · rw [h3, List.drop_left]
            exact ⟨t, h4.symm⟩
          · rw [h3, List.take_left, h1]
            exact List.suffix_append _ _
  · exact hq ⟨a, t, by rw [h2]; simp [List.append_assoc]⟩

/-- a word without borders does not start before its first occurrence -/
theorem no_early {w p rest : List Char} (hp : ¬ w <:+: p) (hb : ∀ t < w.length, 0 < t → ¬ w.drop t <+: w) (j : Nat) (hj : j < p.length) :
    ¬ w <+: (p ++ (w ++ rest)).drop j := by
  intro h
  rw [List.drop_append_of_le_length (by omega)] at h
  rcases Nat.lt_or_ge (p.drop j).length w.length with hl | hl
  · have hl' : (p.drop j).length = p.length - j := by simp
    apply hb (p.length - j) (by omega) (by omega)
    obtain ⟨t, ht⟩ := h
    have h2 := congrArg (List.drop (p.length - j)) ht
    rw [List.drop_append_of_le_length (by omega), ← hl', List.drop_left] at h2
    rw [hl'] at h2
    apply List.prefix_of_prefix_length_le (l₃ := w ++ rest) ⟨t, h2⟩ (List.prefix_append _ _)
    simp
  · have : w <+: p.drop j := List.prefix_of_prefix_length_le h (List.prefix_append _ _) hl
    exact hp (this.isInfix.trans (List.drop_suffix j p).isInfix)

theorem replaceAux_skip (old new : List Char) (n : Nat) (a b : List Char) (h : a.length = n) :
    replaceAux old new n (a ++ b) = replaceAux old new 0 b := by
  induction n generalizing a with
  | zero =>
    have : a = [] := List.length_eq_zero_iff.mp h
    simp [this]
  | succ n ih =>
    cases a with
    | nil => simp at h
    | cons c a => simp only [List.cons_append, replaceAux]; exact ih a (by simpa using h)

theorem replaceAux_first (old new p rest : List Char) (hne : old ≠ []) (h : ∀ j < p.length, ¬ old <+: (p ++ (old ++ rest)).drop j) :
    replaceAux old new 0 (p ++ (old ++ rest)) = p ++ (new ++ replaceAux old new 0 rest) := by
  induction p with
  | nil =>
    cases old with
    | nil => exact absurd rfl hne
    | cons c old =>
      have hp : (c :: old).isPrefixOf (c :: (old ++ rest)) = true := by
        rw [List.isPrefixOf_iff_prefix]
        exact ⟨rest, rfl⟩
      simp only [List.nil_append, List.cons_append, replaceAux]
      rw [if_pos hp]
      congr 1
      exact replaceAux_skip _ _ _ old rest (by simp)
  | cons c p ih =>
    have h0 := h 0 (by simp)
    rw [List.drop_zero] at h0
    have hnp : ¬ old.isPrefixOf (c :: (p ++ (old ++ rest))) = true := by
      rw [List.isPrefixOf_iff_prefix]
      exact h0
    simp only [List.cons_append, replaceAux]
    rw [if_neg hnp, ih]
    intro j hj
    have := h (j + 1) (by simpa using hj)
    simpa using this

/-- the words that decide about the renaming -/
theorem no_mention' {p : String} {w q : String} (hp : ¬ Mentions p w) (hq : ¬ Mentions q w)
    (hb : ∀ t < w.toList.length, 0 < t → w.toList.drop t <+: q.toList → ¬ w.toList.take t <:+ p.toList) :
    hasSub w (p ++ q) = false := by
  rw [Bool.eq_false_iff]
  intro h
  rw [hasSub_iff] at h
  unfold Mentions at h hp hq
  rw [String.toList_append] at h
  exact not_infix_append hp hq hb h

theorem no_mention {p : String} {w q : String} (hp : ¬ Mentions p w) (hq : ¬ Mentions q w)
    (hb : ∀ t < w.toList.length, 0 < t → ¬ w.toList.drop t <+: q.toList) : hasSub w (p ++ q) = false :=
  no_mention' hp hq fun t h1 h2 h3 => absurd h3 (hb t h1 h2)

theorem mention_right (p q w : String) (h : Mentions q w) : hasSub w (p ++ q) = true := by
  rw [hasSub_iff]
  unfold Mentions at h ⊢
  rw [String.toList_append]
  exact h.trans (List.suffix_append _ _).isInfix

namespace Spec

/-- The path of a module of an old network: it contains none of the words that the tool searches for. -/
def PlainPath (p : String) : Prop := ¬ Mentions p "conv1x1" ∧ ¬ Mentions p "conv.weight"

end Spec

/-- C125: at every path, the weight and the bias of a `1x1` convolution are renamed to those of a linear layer at the same
path, the weight without its last dimension of size 1; the weight of a `1x1` convolution inside a module called `conv1x1` is
renamed to `conv.linear.weight`; tensors with other names are kept. Missing: a bias inside a module called `conv1x1`
(`C125_violated`). -/
theorem C125_partial (p : String) (hp : PlainPath p) (co ci : Nat) (data bias : List ℚ) :
    upgradeEntry (p ++ "conv1x1.weight") ⟨[co, ci, 1], data⟩ = .ok (p ++ "linear.weight", ⟨[co, ci], data⟩) ∧
    upgradeEntry (p ++ "conv1x1.bias") ⟨[co], bias⟩ = .ok (p ++ "linear.bias", ⟨[co], bias⟩) ∧
    upgradeEntry (p ++ "conv1x1.conv1x1.weight") ⟨[co, ci, 1], data⟩ = .ok (p ++ "conv.linear.weight", ⟨[co, ci], data⟩) ∧
    ∀ key val, ¬ Mentions key "conv.weight" → ¬ Mentions key "conv1x1.weight" → ¬ Mentions key "conv1x1.bias" →
      upgradeEntry key val = .ok (key, val) := by
  obtain ⟨h1, h2⟩ := hp
  have nm : ∀ {key w : String}, ¬ Mentions key w → hasSub w key = false := by
    intro key w h
    rw [Bool.eq_false_iff]
    exact fun hh => h ((hasSub_iff _ _).mp hh)
  have hw : ∀ w : String, "conv1x1".toList <+: w.toList → ¬ Mentions p w := by
    intro w hpre hm
    exact h1 (hpre.isInfix.trans hm)
  have hsq : squeeze2 ⟨[co, ci, 1], data⟩ = .ok ⟨[co, ci], data⟩ := rfl
  have hb1 : ∀ t < "conv1x1".toList.length, 0 < t → ¬ "conv1x1".toList.drop t <+: "conv1x1".toList := by decide
  refine ⟨?_, ?_, ?_, ?_⟩
  · unfold upgradeEntry
    have e1 : hasSub "conv.weight" (p ++ "conv1x1.weight") = false :=
      no_mention h2 (by rw [← hasSub_iff]; decide) (by decide)
    have e2 : hasSub "conv1x1.weight" (p ++ "conv1x1.weight") = true :=
      mention_right _ _ _ (by rw [← hasSub_iff]; decide)
    have e3 : hasSub "conv1x1.conv1x1" (p ++ "conv1x1.weight") = false :=
      no_mention' (hw _ (by decide)) (by rw [← hasSub_iff]; decide) (by
        intro t h3 h4 h5 h6
        have ht : t = 8 := (show ∀ t < "conv1x1.conv1x1".toList.length, 0 < t →
          "conv1x1.conv1x1".toList.drop t <+: "conv1x1.weight".toList → t = 8 by decide) t h3 h4 h5
        subst ht
        exact h1 ((show "conv1x1".toList <:+: "conv1x1.conv1x1".toList.take 8 from
          (show "conv1x1".toList <+: _ by decide).isInfix).trans h6.isInfix))
    rw [if_neg (by simp [e1]), if_pos e2, hsq]
    simp only [bind, Except.bind, pure, Except.pure, e3, Bool.false_eq_true, if_false]
    congr 2
    unfold strReplace
    apply String.toList_injective
    rw [String.toList_ofList, String.toList_append, String.toList_append]
    have := replaceAux_first "conv1x1".toList "linear".toList p.toList ".weight".toList (by decide) (fun j hj => no_early h1 hb1 j hj)
    exact this
  · unfold upgradeEntry
    have e1 : hasSub "conv.weight" (p ++ "conv1x1.bias") = false :=
      no_mention h2 (by rw [← hasSub_iff]; decide) (by decide)
    have e2 : hasSub "conv1x1.weight" (p ++ "conv1x1.bias") = false :=
      no_mention (hw _ (by decide)) (by rw [← hasSub_iff]; decide) (by decide)
    have e3 : hasSub "conv1x1.bias" (p ++ "conv1x1.bias") = true :=
      mention_right _ _ _ (by rw [← hasSub_iff]; decide)
    rw [if_neg (by simp [e1]), if_neg (by simp [e2]), if_pos e3]
    simp only [pure, Except.pure]
    congr 2
    unfold strReplace
    apply String.toList_injective
    rw [String.toList_ofList, String.toList_append, String.toList_append]
    have := replaceAux_first "conv1x1.bias".toList "linear.bias".toList p.toList [] (by decide)
      (fun j hj => no_early (hw "conv1x1.bias" (by decide)) (by decide) j hj)
    simpa [replaceAux] using this
  · unfold upgradeEntry
    have e1 : hasSub "conv.weight" (p ++ "conv1x1.conv1x1.weight") = false :=
      no_mention h2 (by rw [← hasSub_iff]; decide) (by decide)
    have e2 : hasSub "conv1x1.weight" (p ++ "conv1x1.conv1x1.weight") = true :=
      mention_right _ _ _ (by rw [← hasSub_iff]; decide)
    have e3 : hasSub "conv1x1.conv1x1" (p ++ "conv1x1.conv1x1.weight") = true :=
      mention_right _ _ _ (by rw [← hasSub_iff]; decide)
    rw [if_neg (by simp [e1]), if_pos e2, hsq]
    simp only [bind, Except.bind, pure, Except.pure, e3, if_true]
    congr 2
    unfold strReplace
    apply String.toList_injective
    rw [String.toList_ofList, String.toList_append, String.toList_append]
    have := replaceAux_first "conv1x1.conv1x1".toList "conv.linear".toList p.toList ".weight".toList (by decide) (by
      intro j hj hpre
      have h3 : "conv1x1".toList <+: (p.toList ++ ("conv1x1.conv1x1".toList ++ ".weight".toList)).drop j :=
        (show "conv1x1".toList <+: "conv1x1.conv1x1".toList by decide).trans hpre
      exact no_early (rest := ".conv1x1.weight".toList) h1 hb1 j hj h3)
    exact this
  · intro key val k1 k2 k3
    unfold upgradeEntry
    rw [if_neg (by simp [nm k1]), if_neg (by simp [nm k2]), if_neg (by simp [nm k3])]
    rfl

example : PlainPath "header.1." ∧ PlainPath "encoder.0.resblks.2." := by
  unfold PlainPath
  simp only [← hasSub_iff]
  decide +kernel

/-- **C125 is violated** by a `1x1` convolution with a bias inside a module called `conv1x1`: its weight goes to the module
`conv` and its bias to the module `conv1x1`. -/
theorem C125_violated : ∃ (p : String) (w b : Stored), PlainPath p ∧
    (upgradeEntry (p ++ "conv1x1.conv1x1.weight") w).toOption.map Prod.fst = some (p ++ "conv.linear.weight") ∧
    (upgradeEntry (p ++ "conv1x1.conv1x1.bias") b).toOption.map Prod.fst = some (p ++ "conv1x1.linear.bias") := by
  refine ⟨"stage.", ⟨[1, 1, 1], [1]⟩, ⟨[1], [1]⟩, ?_, by decide +kernel, by decide +kernel⟩
  unfold PlainPath
  simp only [← hasSub_iff]
  decide +kernel

theorem dict_set_new {α : Type} (d : Dict α) (k : String) (v : α) (h : k ∉ d.map Prod.fst) : Dict.set d k v = d ++ [(k, v)] := by
  induction d with
  | nil => rfl
  | cons e d ih =>
    simp only [List.map_cons, List.mem_cons, not_or] at h
    show (if e.1 = k then (e.1, v) :: d else (e.1, e.2) :: Dict.set d k v) = _
    rw [if_neg (Ne.symm h.1), ih h.2]
    rfl

theorem dict_sets_new {α : Type} (es : List (String × α)) : ∀ d : Dict α, (d.map Prod.fst ++ es.map Prod.fst).Nodup →
    es.foldl (fun d e => Dict.set d e.1 e.2) d = d ++ es := by
  induction es with
  | nil => intro d _; simp
  | cons e es ih =>
    intro d h
    rw [List.foldl_cons, dict_set_new d e.1 e.2 ?_, ih, List.append_assoc]
    · rfl
    · simpa using h
    · intro hm
      rw [List.map_cons, List.nodup_append] at h
      exact h.2.2 _ hm _ (by simp) rfl

/-- C124 and C125 for a whole file: if the new names are distinct, the saved file has the upgraded tensors, all of them and in order. -/
theorem C124_file (weights : Dict Stored) (new : String × Stored → String × Stored) (h : ∀ e ∈ weights, upgradeEntry e.1 e.2 = .ok (new e))
    (hn : (weights.map fun e => (new e).1).Nodup) : upgradeCkpt weights = .ok (weights.map new) := by
  have hm : weights.mapM (fun e => upgradeEntry e.1 e.2) = .ok (weights.map new) := by
    clear hn
    induction weights with
    | nil => rfl
    | cons e es ih =>
      rw [List.mapM_cons, h e (by simp), ih fun e he => h e (List.mem_cons_of_mem _ he)]
      rfl
  unfold upgradeCkpt
  rw [hm]
  show Except.ok ((weights.map new).foldl (fun d e => Dict.set d e.1 e.2) []) = _
  rw [dict_sets_new _ [] (by rw [List.map_nil, List.nil_append, List.map_map]; exact hn)]
  rfl

example : ∃ new : String × Stored → String × Stored, (∀ e ∈ ([("conv1x1.bias", ⟨[2], [1, 2]⟩), ("bn.weight", ⟨[2], [3, 4]⟩)] : Dict Stored), upgradeEntry e.1 e.2 = .ok (new e)) ∧
    (([("conv1x1.bias", ⟨[2], [1, 2]⟩), ("bn.weight", ⟨[2], [3, 4]⟩)] : Dict Stored).map fun e => (new e).1).Nodup := by
  refine ⟨fun e => (if e.1 = "conv1x1.bias" then "linear.bias" else e.1, e.2), ?_, by decide⟩
  decide +kernel

/-! ### cleaning up -/

/-- C126: the tool removes all files of a folder but the last one but one in alphabetical order. -/
theorem C126_keep (l : List String) (hn : l.Nodup) (x y : String) (hx : x ∈ l) (hy : y ∈ l) (hxy : x < y)
    (hz : ∀ z ∈ l, z = x ∨ z = y ∨ z < x) : (cleanupRemoved l).Perm (l.erase x) := by
  have hp := pySorted_perm l
  have hle := pySorted_le l
  have hnd : (pySorted l).Nodup := hp.nodup_iff.mpr hn
  -- the sorted list ends with x, y
  have hsorted : pySorted l = pySorted ((l.erase x).erase y) ++ [x, y] := by
    have hym : y ∈ l.erase x := (List.mem_erase_of_ne hxy.ne').mpr hy
    have hperm : l.Perm (pySorted ((l.erase x).erase y) ++ [x, y]) := by
      refine (List.perm_cons_erase hx).trans ?_
      refine ((List.perm_cons_erase hym).cons x).trans ?_
      refine List.Perm.trans ?_ List.perm_append_comm
      exact ((pySorted_perm _).symm.cons y).cons x
    refine (hp.trans hperm).eq_of_pairwise' hle ?_
    rw [List.pairwise_append]
    refine ⟨pySorted_le _, ?_, ?_⟩
    · simp [hxy.le]
    · intro a ha b hb
      rw [(pySorted_perm _).mem_iff] at ha
      have hax : a ≠ x := by
        rintro rfl
        exact (hn.not_mem_erase (a := a)) (List.mem_of_mem_erase ha)
      have hay : a ≠ y := by
        rintro rfl
        exact ((hn.erase x).not_mem_erase (a := a)) ha
      have hlt : a < x := by
        rcases hz a (List.mem_of_mem_erase (List.mem_of_mem_erase ha)) with h | h | h
        · exact absurd h hax
        · exact absurd h hay
        · exact h
      simp only [List.mem_cons, List.not_mem_nil, or_false] at hb
      rcases hb with rfl | rfl
      · exact hlt.le
      · exact (hlt.trans hxy).le
  have hym : y ∈ l.erase x := (List.mem_erase_of_ne hxy.ne').mpr hy
  unfold cleanupRemoved
  rw [hsorted]
  generalize hg : pySorted ((l.erase x).erase y) = g
  have hlen : (g ++ [x, y]).length = g.length + 2 := by simp
  dsimp only
  rw [if_neg (by omega), hlen]
  have e1 : (g ++ [x, y]).take (g.length + 2 - 2) = g := by simp
  have e2 : (g ++ [x, y]).drop (g.length + 2 - 1) = [y] := by
    rw [show g.length + 2 - 1 = g.length + 1 from rfl, List.drop_append]
    simp
  rw [e1, e2, ← hg]
  refine List.perm_append_comm.trans ?_
  refine List.Perm.trans ?_ (List.perm_cons_erase hym).symm
  exact (pySorted_perm _).cons y

/-- C126: nothing is removed from a folder with at most one file, and in every larger folder there is a file as in
`C126_keep`. -/
theorem C126_small (l : List String) (hn : l.Nodup) :
    (l.length ≤ 1 → cleanupRemoved l = []) ∧
    (2 ≤ l.length → ∃ x ∈ l, ∃ y ∈ l, x < y ∧ ∀ z ∈ l, z = x ∨ z = y ∨ z < x) := by
  have hp := pySorted_perm l
  have hle := pySorted_le l
  have hnd : (pySorted l).Nodup := hp.nodup_iff.mpr hn
  have hlen := hp.length_eq
  constructor
  · intro h
    unfold cleanupRemoved
    dsimp only
    split
    · rfl
    · have : (pySorted l) = [] := List.length_eq_zero_iff.mp (by omega)
      rw [this]
      rfl
  · intro h
    have h1 : (pySorted l).length - 2 < (pySorted l).length := by omega
    have h2 : (pySorted l).length - 1 < (pySorted l).length := by omega
    have hs : (pySorted l).Pairwise (· < ·) :=
      (hle.and hnd).imp fun hab => lt_of_le_of_ne hab.1 hab.2
    refine ⟨(pySorted l)[(pySorted l).length - 2], hp.mem_iff.mp (List.getElem_mem _),
      (pySorted l)[(pySorted l).length - 1], hp.mem_iff.mp (List.getElem_mem _), ?_, ?_⟩
    · exact List.pairwise_iff_getElem.mp hs _ _ h1 h2 (by omega)
    · intro z hz
      obtain ⟨i, hi, rfl⟩ := List.getElem_of_mem (hp.mem_iff.mpr hz)
      rcases Nat.lt_trichotomy i ((pySorted l).length - 2) with h3 | h3 | h3
      · exact .inr (.inr (List.pairwise_iff_getElem.mp hs _ _ hi h1 h3))
      · exact .inl (by simp only [h3])
      · exact .inr (.inl (by
          have : i = (pySorted l).length - 1 := by omega
          simp only [this]))

namespace Spec

/-- `'%05d' % epoch` for numbers below 100000, the start of the file names that the solver (a library) uses. -/
def fiveDigits (n : Nat) : List Char :=
  [Nat.digitChar (n / 10000 % 10), Nat.digitChar (n / 1000 % 10), Nat.digitChar (n / 100 % 10), Nat.digitChar (n / 10 % 10), Nat.digitChar (n % 10)]

def modelFile (epoch : Nat) : String := String.ofList (fiveDigits epoch) ++ ".model.pth"

def solverFile (epoch : Nat) : String := String.ofList (fiveDigits epoch) ++ ".solver.tar"

end Spec

theorem digitChar_lt (a b : Nat) (h : a < b) (hb : b < 10) : Nat.digitChar a < Nat.digitChar b := by
  have : ∀ i j : Fin 10, i < j → Nat.digitChar i.val < Nat.digitChar j.val := by decide
  exact this ⟨a, by omega⟩ ⟨b, hb⟩ h

theorem digits_lt (a b : Nat) (s t : List Char) (hb : b < 10) (h : a < b ∨ (a = b ∧ s < t)) :
    Nat.digitChar a :: s < Nat.digitChar b :: t := by
  rw [List.cons_lt_cons_iff]
  rcases h with hab | ⟨rfl, hst⟩
  · exact .inl (digitChar_lt a b hab hb)
  · exact .inr ⟨rfl, hst⟩

theorem five_lt (a1 a2 a3 a4 a5 b1 b2 b3 b4 b5 : Nat) (h1 : b1 < 10) (h2 : b2 < 10) (h3 : b3 < 10) (h4 : b4 < 10) (h5 : b5 < 10) (s t : List Char)
    (h : a1 < b1 ∨ (a1 = b1 ∧ (a2 < b2 ∨ (a2 = b2 ∧ (a3 < b3 ∨ (a3 = b3 ∧ (a4 < b4 ∨ (a4 = b4 ∧ a5 < b5)))))))) :
    Nat.digitChar a1 :: Nat.digitChar a2 :: Nat.digitChar a3 :: Nat.digitChar a4 :: Nat.digitChar a5 :: s
      < Nat.digitChar b1 :: Nat.digitChar b2 :: Nat.digitChar b3 :: Nat.digitChar b4 :: Nat.digitChar b5 :: t := by
  refine digits_lt _ _ _ _ h1 (h.imp_right fun h => ⟨h.1, digits_lt _ _ _ _ h2 (h.2.imp_right fun h => ⟨h.1, digits_lt _ _ _ _ h3
    (h.2.imp_right fun h => ⟨h.1, digits_lt _ _ _ _ h4 (h.2.imp_right fun h => ⟨h.1, digits_lt _ _ _ _ h5 (.inl h.2)⟩)⟩)⟩)⟩)

theorem fiveDigits_lt (m n : Nat) (h : m < n) (hn : n < 100000) (s t : List Char) : fiveDigits m ++ s < fiveDigits n ++ t := by
  have d : ∀ k : Nat, k % 10 < 10 := fun k => Nat.mod_lt _ (by decide)
  have e : ∀ k < 100000, k = 10000 * (k / 10000 % 10) + (1000 * (k / 1000 % 10) + (100 * (k / 100 % 10) + (10 * (k / 10 % 10) + k % 10))) := by
    intro k hk
    omega
  refine five_lt _ _ _ _ _ _ _ _ _ _ (d _) (d _) (d _) (d _) (d _) s t ?_
  rw [e m (by omega), e n hn] at h
  have a2 := d (m / 1000)
  have a3 := d (m / 100)
  have a4 := d (m / 10)
  have a5 := d m
  have b2 := d (n / 1000)
  have b3 := d (n / 100)
  have b4 := d (n / 10)
  have b5 := d n
  generalize m / 10000 % 10 = x1 at *
  generalize m / 1000 % 10 = x2 at *
  generalize m / 100 % 10 = x3 at *
  generalize m / 10 % 10 = x4 at *
  generalize m % 10 = x5 at *
  generalize n / 10000 % 10 = y1 at *
  generalize n / 1000 % 10 = y2 at *
  generalize n / 100 % 10 = y3 at *
  generalize n / 10 % 10 = y4 at *
  generalize n % 10 = y5 at *
  clear e d hn
  rcases Nat.lt_trichotomy x1 y1 with h1 | h1 | h1
  · exact .inl h1
  · refine .inr ⟨h1, ?_⟩
    rcases Nat.lt_trichotomy x2 y2 with h2 | h2 | h2
    · exact .inl h2
    · refine .inr ⟨h2, ?_⟩
      rcases Nat.lt_trichotomy x3 y3 with h3 | h3 | h3
      · exact .inl h3
      · refine .inr ⟨h3, ?_⟩
        rcases Nat.lt_trichotomy x4 y4 with h4 | h4 | h4
        · exact .inl h4
        · exact .inr ⟨h4, by omega⟩
        · omega
      · omega
    · omega
  · omega

/-- C126: with the names of the solver, the weights of the last epoch are all that remains. -/
theorem C126_solver (epochs : List Nat) (hn : epochs.Nodup) (hlt : ∀ e ∈ epochs, e < 100000) (m : Nat) (hm : m ∈ epochs)
    (hmax : ∀ e ∈ epochs, e ≤ m) (l : List String) (hl : l.Perm (epochs.flatMap fun e => [modelFile e, solverFile e])) :
    (cleanupRemoved l).Perm (l.erase (modelFile m)) := by
  have key : ∀ a b : Nat, a < b → b < 100000 → ∀ s t : String, String.ofList (fiveDigits a) ++ s < String.ofList (fiveDigits b) ++ t := by
    intro a b hab hb s t
    rw [String.lt_iff, String.toList_append, String.toList_append, String.toList_ofList, String.toList_ofList]
    exact fiveDigits_lt a b hab hb _ _
  have same : ∀ a : Nat, modelFile a < solverFile a := by
    intro a
    unfold modelFile solverFile
    rw [String.lt_iff, String.toList_append, String.toList_append]
    exact List.append_left_lt (by decide)
  have inj : ∀ a ∈ epochs, ∀ b ∈ epochs, a ≠ b → ∀ s t : String, String.ofList (fiveDigits a) ++ s ≠ String.ofList (fiveDigits b) ++ t := by
    intro a ha b hb hab s t
    rcases Nat.lt_or_gt_of_ne hab with h | h
    · exact (key a b h (hlt b hb) s t).ne
    · exact (key b a h (hlt a ha) t s).ne'
  have hnd : l.Nodup := by
    rw [hl.nodup_iff, List.nodup_flatMap]
    refine ⟨fun a _ => by simp [(same a).ne], ?_⟩
    rw [List.pairwise_iff_forall_sublist]
    intro a b hab
    have hne : a ≠ b := by
      have := hn.sublist hab
      simpa using this
    have hma : a ∈ epochs := hab.subset (by simp)
    have hmb : b ∈ epochs := hab.subset (by simp)
    simp only [Function.onFun, List.disjoint_cons_left, List.mem_cons, List.not_mem_nil, or_false, List.disjoint_nil_left, and_true, not_or]
    exact ⟨⟨inj a hma b hmb hne _ _, inj a hma b hmb hne _ _⟩, inj a hma b hmb hne _ _, inj a hma b hmb hne _ _⟩
  refine C126_keep l hnd (modelFile m) (solverFile m) (hl.mem_iff.mpr (List.mem_flatMap.mpr ⟨m, hm, by simp⟩))
    (hl.mem_iff.mpr (List.mem_flatMap.mpr ⟨m, hm, by simp⟩)) (same m) ?_
  intro z hz
  obtain ⟨e, he, hze⟩ := List.mem_flatMap.mp (hl.mem_iff.mp hz)
  rcases Nat.lt_or_eq_of_le (hmax e he) with h | rfl
  · refine .inr (.inr ?_)
    simp only [List.mem_cons, List.not_mem_nil, or_false] at hze
    rcases hze with rfl | rfl
    · exact key e m h (hlt m hm) _ _
    · exact key e m h (hlt m hm) _ _
  · simp only [List.mem_cons, List.not_mem_nil, or_false] at hze
    rcases hze with rfl | rfl
    · exact .inl rfl
    · exact .inr (.inl rfl)

/-- With the names of the solver, the weights of the last epoch remain. -/
example : (cleanupRemoved ["00010.solver.tar", "00005.model.pth", "00010.model.pth", "00005.solver.tar"]).Perm
    ["00010.solver.tar", "00005.model.pth", "00005.solver.tar"] := by
  have := C126_keep ["00010.solver.tar", "00005.model.pth", "00010.model.pth", "00005.solver.tar"] (by decide)
    "00010.model.pth" "00010.solver.tar" (by decide) (by decide) (by decide) (by decide)
  exact this

/-! ### counting parameters -/

namespace Spec

/-- The variables that are counted: those whose names mention no skipped word. -/
def Counted (skips : List String) (v : String × List Nat) : Prop := ∀ s ∈ skips, ¬ Mentions v.1 s

end Spec

open Classical in
theorem listVarLoop_spec (skips : List String) (vars : List (String × List Nat)) (c t : Nat) :
    listVarLoop skips vars c t =
      (((vars.filter fun v => decide (Counted skips v)).zipIdx c).map fun p => (p.2, p.1.1, p.1.2, p.1.2.prod),
        t + ((vars.filter fun v => decide (Counted skips v)).map fun v => v.2.prod).sum) := by
  induction vars generalizing c t with
  | nil => rfl
  | cons v vars ih =>
    obtain ⟨name, shape⟩ := v
    have hiff : (skips.any fun s => hasSub s name) = true ↔ ¬ Counted skips (name, shape) := by
      unfold Counted
      simp only [List.any_eq_true, hasSub_iff]
      push Not
      rfl
    unfold listVarLoop
    by_cases h : Counted skips (name, shape)
    · rw [if_neg (by rw [hiff]; exact not_not.mpr h), List.filter_cons_of_pos (by simpa using h)]
      simp only [ih, List.zipIdx_cons, List.map_cons, List.sum_cons]
      rw [Nat.add_assoc]
    · rw [if_pos (hiff.mpr h), List.filter_cons_of_neg (by simpa using h)]
      exact ih c t

open Classical in
/-- C127: `list_var` prints one line for each variable whose name mentions no skipped word, in the order of the checkpoint,
numbered from 0, with the number of its entries; the total is the number of entries of all these variables. -/
theorem C127_list (skips : List String) (vars : List (String × List Nat)) :
    (listVar skips vars).1.map (fun r => (r.2.1, r.2.2.1)) = vars.filter (fun v => decide (Counted skips v)) ∧
    (listVar skips vars).1.map (fun r => r.1) = List.range (listVar skips vars).1.length ∧
    (∀ r ∈ (listVar skips vars).1, r.2.2.2 = r.2.2.1.prod) ∧
    (listVar skips vars).2 = ((vars.filter fun v => decide (Counted skips v)).map fun v => v.2.prod).sum := by
  unfold listVar
  rw [listVarLoop_spec]
  refine ⟨?_, ?_, ?_, ?_⟩
  · simp [List.map_map, Function.comp_def]
  · simp only [List.map_map, Function.comp_def, List.length_map, List.length_zipIdx]
    change List.map Prod.snd _ = _
    rw [List.zipIdx_map_snd, List.range_eq_range']
  · intro r hr
    simp only [List.mem_map] at hr
    obtain ⟨p, -, rfl⟩ := hr
    rfl
  · simp

/-- Two of three variables are counted. -/
example : listVar ["num_batches"] [("conv.weights", [27, 3, 16]), ("bn.num_batches_tracked", []), ("bn.weight", [16])]
    = ([(0, "conv.weights", [27, 3, 16], 1296), (1, "bn.weight", [16], 16)], 1312) := by decide +kernel

end Ocnn
