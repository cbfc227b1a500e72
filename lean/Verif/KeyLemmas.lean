import Verif.ShuffledKey
import Verif.MortonLemmas

/-! Bit-level lemmas about the key functions. -/

set_option linter.unusedSimpArgs false

namespace Ocnn
open Spec

theorem getLsbD_one_shl (i j : Nat) : (1#64 <<< i).getLsbD j = (decide (j < 64) && decide (j = i)) := by
  simp only [BitVec.getLsbD_shiftLeft, BitVec.getLsbD_one]
  by_cases h : j < 64 <;> by_cases h2 : j = i <;> by_cases h3 : j < i <;> simp [h, h2, h3] <;> omega

theorem getLsbD_bit_shl (x : I64) (i s j : Nat) :
    ((x &&& 1#64 <<< i) <<< s).getLsbD j = (decide (j < 64) && decide (j = i + s) && x.getLsbD i) := by
  rw [BitVec.getLsbD_shiftLeft, BitVec.getLsbD_and, getLsbD_one_shl]
  by_cases h : j < 64
  · by_cases h2 : j = i + s
    · subst h2
      have e : i + s - s = i := by omega
      have h3 : i < 64 := by omega
      simp [h, h3]
    · by_cases h3 : j < s
      · simp [h2, h3]
      · have : j - s ≠ i := by omega
        simp [h2, this]
  · simp [h]

theorem getLsbD_lutXyz2key (x y z : I64) (n j : Nat) :
    (lutXyz2key x y z n).getLsbD j =
      (decide (j < 64) && (decide (j < 3 * n) && (if j % 3 = 2 then x.getLsbD (j / 3)
        else if j % 3 = 1 then y.getLsbD (j / 3) else z.getLsbD (j / 3)))) := by
  induction n with
  | zero => simp [lutXyz2key]
  | succ n ih =>
    unfold lutXyz2key at ih ⊢
    rw [List.range_succ, List.foldl_append]
    simp only [List.foldl_cons, List.foldl_nil, BitVec.getLsbD_or, ih, getLsbD_bit_shl]
    have e2 : decide (j = n + (2 * n + 2)) = decide (j = 3 * n + 2) :=
      decide_eq_decide.mpr (by omega)
    have e1 : decide (j = n + (2 * n + 1)) = decide (j = 3 * n + 1) :=
      decide_eq_decide.mpr (by omega)
    have e0 : decide (j = n + (2 * n + 0)) = decide (j = 3 * n) :=
      decide_eq_decide.mpr (by omega)
    rw [e0, e1, e2]
    by_cases h : j < 64
    · by_cases h1 : j < 3 * n
      · have a1 : j ≠ 3 * n + 2 := by omega
        have a2 : j ≠ 3 * n + 1 := by omega
        have a3 : j ≠ 3 * n := by omega
        have a4 : j < 3 * (n + 1) := by omega
        simp [h, h1, a1, a2, a3, a4]
      · by_cases h2 : j < 3 * (n + 1)
        · have hdiv : j / 3 = n := by omega
          have : j = 3 * n ∨ j = 3 * n + 1 ∨ j = 3 * n + 2 := by omega
          rw [hdiv]
          rcases this with h3 | h3 | h3
          · have c1 : j % 3 = 0 := by omega
            simp [h, h1, h2, c1]
            simp [h3]
          · have c1 : j % 3 = 1 := by omega
            simp [h, h1, h2, c1]
            simp [h3]
          · have c1 : j % 3 = 2 := by omega
            simp [h, h1, h2, c1]
            simp [h3]
        · have a1 : j ≠ 3 * n + 2 := by omega
          have a2 : j ≠ 3 * n + 1 := by omega
          have a3 : j ≠ 3 * n := by omega
          simp [h1, h2, a1, a2, a3]
    · simp [h]

theorem getLsbD_sshr_bit (k : I64) (p s j : Nat) (hp : p < 63) :
    (BitVec.sshiftRight (k &&& (1#64 <<< p)) s).getLsbD j
      = (decide (j + s = p) && k.getLsbD p) := by
  have hmsb : (k &&& 1#64 <<< p).msb = false := by
    rw [BitVec.msb_eq_getLsbD_last, BitVec.getLsbD_and, getLsbD_one_shl]
    have : (63 : Nat) ≠ p := by omega
    simp [this]
  rw [BitVec.getLsbD_sshiftRight, hmsb, BitVec.getLsbD_and, getLsbD_one_shl]
  by_cases h : j + s = p
  · subst h
    have h1 : s + j = j + s := by omega
    have h2 : j + s < 64 := by omega
    have h3 : ¬ (64 ≤ j) := by omega
    simp [h1, h2, h3]
  · have h1 : s + j ≠ p := by omega
    simp [h, h1]

theorem getLsbD_lutKey2coord (o : Nat) (k : I64) (n j : Nat) (ho : o < 3) (hn : n ≤ 9) :
    (lutKey2coord o k n).getLsbD j = (decide (j < n) && k.getLsbD (3 * j + o)) := by
  induction n with
  | zero => simp [lutKey2coord]
  | succ n ih =>
    have ih := ih (by omega)
    unfold lutKey2coord at ih ⊢
    rw [List.range_succ, List.foldl_append]
    simp only [List.foldl_cons, List.foldl_nil, BitVec.getLsbD_or, ih]
    rw [getLsbD_sshr_bit _ _ _ _ (by omega)]
    by_cases h1 : j = n
    · subst h1
      have : j + (2 * j + o) = 3 * j + o := by omega
      simp [this]
    · have h2 : ¬ (j + (2 * n + o) = 3 * n + o) := by omega
      by_cases h3 : j < n
      · have : j < n + 1 := by omega
        simp [h2, h3, this]
      · have : ¬ j < n + 1 := by omega
        simp [h2, h3, this]

/-! table look-ups -/

theorem getIdx_ok {α : Type _} (t : List α) (i : Nat) (h : i < t.length) :
    getIdx t (i : Int) = .ok t[i] := by
  unfold getIdx normIdx
  have h1 : (0 : Int) ≤ i ∧ (i : Int) < t.length := by omega
  simp [h1, bind, Except.bind, h]

theorem lutAt_map (f : Nat → I64) (n : Nat) (i : I64) (hn : n ≤ 2 ^ 62) (h : i.toNat < n) :
    lutAt ((List.range n).map f) i = .ok (f i.toNat) := by
  have hi : i.toInt = (i.toNat : Int) := by
    rw [BitVec.toInt_eq_toNat_cond]
    have : 2 * i.toNat < 2 ^ 64 := by omega
    rw [if_pos this]
  unfold lutAt
  rw [hi, getIdx_ok _ _ (by simpa using h)]
  simp

theorem ofNat_toNat64 (i : I64) : BitVec.ofNat 64 i.toNat = i := by simp

theorem getLsbD_mask (n j : Nat) (hn : n < 64) :
    (BitVec.ofNat 64 ((1 <<< n) - 1)).getLsbD j = decide (j < n) := by
  rw [BitVec.getLsbD_ofNat, Nat.one_shiftLeft, Nat.testBit_two_pow_sub_one]
  by_cases h : j < n
  · have : j < 64 := by omega
    simp [h, this]
  · simp [h]

theorem toNat_and_mask_lt (x : I64) (n : Nat) (hn : n < 64) :
    (x &&& BitVec.ofNat 64 ((1 <<< n) - 1)).toNat < 2 ^ n := by
  rw [BitVec.toNat_and, BitVec.toNat_ofNat]
  have h1 : ((1 <<< n) - 1) % 2 ^ 64 = 2 ^ n - 1 := by
    rw [Nat.one_shiftLeft]
    apply Nat.mod_eq_of_lt
    have := Nat.pow_lt_pow_right (a := 2) (by omega) hn
    omega
  rw [h1, Nat.and_two_pow_sub_one_eq_mod]
  exact Nat.mod_lt _ (by positivity)

end Ocnn
