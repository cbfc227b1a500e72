import Verif.KeyLemmas

/-! `xyz2key` and `key2xyz` against the Morton recursion. -/

set_option linter.unusedSimpArgs false

namespace Ocnn
open Spec

/-- bit `j` of an interleaving of `x`, `y`, `z` -/
def ibit (x y z : I64) (j : Nat) : Bool :=
  if j % 3 = 2 then x.getLsbD (j / 3) else if j % 3 = 1 then y.getLsbD (j / 3) else z.getLsbD (j / 3)

theorem lutAt_EX (x : I64) (n : Nat) (hn : n ≤ 8) :
    lutAt EX (x &&& BitVec.ofNat 64 ((1 <<< n) - 1))
      = .ok (lutXyz2key (x &&& BitVec.ofNat 64 ((1 <<< n) - 1)) 0#64 0#64 8) := by
  have h := toNat_and_mask_lt x n (by omega)
  have h2 : 2 ^ n ≤ 2 ^ 8 := Nat.pow_le_pow_right (by omega) hn
  unfold EX
  rw [lutAt_map _ _ _ (by norm_num) (by omega)]
  simp only [ofNat_toNat64]

theorem lutAt_EY (x : I64) (n : Nat) (hn : n ≤ 8) :
    lutAt EY (x &&& BitVec.ofNat 64 ((1 <<< n) - 1))
      = .ok (lutXyz2key 0#64 (x &&& BitVec.ofNat 64 ((1 <<< n) - 1)) 0#64 8) := by
  have h := toNat_and_mask_lt x n (by omega)
  have h2 : 2 ^ n ≤ 2 ^ 8 := Nat.pow_le_pow_right (by omega) hn
  unfold EY
  rw [lutAt_map _ _ _ (by norm_num) (by omega)]
  simp only [ofNat_toNat64]

theorem lutAt_EZ (x : I64) (n : Nat) (hn : n ≤ 8) :
    lutAt EZ (x &&& BitVec.ofNat 64 ((1 <<< n) - 1))
      = .ok (lutXyz2key 0#64 0#64 (x &&& BitVec.ofNat 64 ((1 <<< n) - 1)) 8) := by
  have h := toNat_and_mask_lt x n (by omega)
  have h2 : 2 ^ n ≤ 2 ^ 8 := Nat.pow_le_pow_right (by omega) hn
  unfold EZ
  rw [lutAt_map _ _ _ (by norm_num) (by omega)]
  simp only [ofNat_toNat64]

theorem toI64_ok (n : Nat) (h : n < 2 ^ 63) : toI64 n = .ok (BitVec.ofNat 64 n) := by
  simp only [toI64, h, if_true]

theorem mask_lt (n : Nat) (h : n ≤ 8) : (1 <<< n) - 1 < 2 ^ 63 := by
  rw [Nat.one_shiftLeft]
  have : 2 ^ n ≤ 2 ^ 8 := Nat.pow_le_pow_right (by omega) h
  omega

/-- the low part: three table look-ups or-ed together -/
def low3 (x y z : I64) (n : Nat) : I64 :=
  let m := BitVec.ofNat 64 ((1 <<< n) - 1)
  lutXyz2key (x &&& m) 0#64 0#64 8 ||| lutXyz2key 0#64 (y &&& m) 0#64 8 |||
    lutXyz2key 0#64 0#64 (z &&& m) 8

theorem getLsbD_low3 (x y z : I64) (n j : Nat) (hn : n ≤ 8) :
    (low3 x y z n).getLsbD j = (decide (j < 3 * n) && ibit x y z j) := by
  unfold low3 ibit
  simp only [BitVec.getLsbD_or, getLsbD_lutXyz2key, BitVec.getLsbD_and, getLsbD_mask _ _ (by omega : n < 64),
    BitVec.getLsbD_zero]
  have e : decide (j / 3 < n) = decide (j < 3 * n) := decide_eq_decide.mpr (by omega)
  rw [e]
  by_cases h1 : j < 3 * n
  · have h2 : j < 64 := by omega
    have h3 : j < 3 * 8 := by omega
    simp only [h1, h2, h3]
    by_cases c2 : j % 3 = 2
    · simp [c2]
    · by_cases c1 : j % 3 = 1
      · simp [c1]
      · simp [c1, c2]
  · simp [h1]

theorem xyz2key64_eq (x y z : I64) (b : Option I64) (d : Nat) (hd : d ≤ 16) :
    xyz2key64 x y z b d = .ok (
      let key := if d > 8 then
          (low3 (x.sshiftRight 8) (y.sshiftRight 8) (z.sshiftRight 8) (d - 8)) <<< 24 ||| low3 x y z 8
        else low3 x y z d
      match b with
      | none => key
      | some b => b <<< 48 ||| key) := by
  unfold xyz2key64
  by_cases h : d > 8
  · have e255 : (255 : Nat) = (1 <<< 8) - 1 := by decide
    simp only [h, if_true]
    rw [e255, toI64_ok _ (mask_lt 8 (by omega)), toI64_ok _ (mask_lt (d - 8) (by omega))]
    simp only [bind, Except.bind, pure, Except.pure]
    rw [lutAt_EX _ _ (by omega), lutAt_EY _ _ (by omega), lutAt_EZ _ _ (by omega),
      lutAt_EX _ _ (by omega), lutAt_EY _ _ (by omega), lutAt_EZ _ _ (by omega)]
    cases b <;> rfl
  · simp only [h, if_false]
    rw [toI64_ok _ (mask_lt d (by omega))]
    simp only [bind, Except.bind, pure, Except.pure]
    rw [lutAt_EX _ _ (by omega), lutAt_EY _ _ (by omega), lutAt_EZ _ _ (by omega)]
    cases b <;> rfl

theorem getLsbD_sshr8 (x : I64) (j : Nat) (h : j < 56) :
    (x.sshiftRight 8).getLsbD j = x.getLsbD (8 + j) := by
  rw [BitVec.getLsbD_sshiftRight]
  have h1 : ¬ 64 ≤ j := by omega
  have h2 : 8 + j < 64 := by omega
  simp [h1, h2]

theorem keyLow_bits (x y z : I64) (d j : Nat) (hd : d ≤ 16) :
    (if d > 8 then
          (low3 (x.sshiftRight 8) (y.sshiftRight 8) (z.sshiftRight 8) (d - 8)) <<< 24 ||| low3 x y z 8
        else low3 x y z d).getLsbD j = (decide (j < 3 * d) && ibit x y z j) := by
  by_cases h : d > 8
  · simp only [h, if_true, BitVec.getLsbD_or, BitVec.getLsbD_shiftLeft]
    rw [getLsbD_low3 _ _ _ _ _ (by omega), getLsbD_low3 _ _ _ _ _ (by omega)]
    by_cases h1 : j < 24
    · have h2 : j < 3 * d := by omega
      have h3 : j < 3 * 8 := by omega
      simp [h1, h2, h3]
    · have h3 : ¬ j < 3 * 8 := by omega
      by_cases h2 : j < 3 * d
      · have h4 : j < 64 := by omega
        have h5 : j - 24 < 3 * (d - 8) := by omega
        have h6 : (j - 24) % 3 = j % 3 := by omega
        have h7 : (j - 24) / 3 < 56 := by omega
        have h8 : 8 + (j - 24) / 3 = j / 3 := by omega
        simp [h1, h2, h3, h4, h5, ibit, h6, getLsbD_sshr8 _ _ h7, h8]
      · have h5 : ¬ j - 24 < 3 * (d - 8) := by omega
        simp [h1, h2, h3, h5]
  · simp only [h, if_false]
    rw [getLsbD_low3 _ _ _ _ _ (by omega)]

theorem testBit_morton_ibit (x y z : I64) (d j : Nat) :
    (morton d x.toNat y.toNat z.toNat).testBit j = (decide (j < 3 * d) && ibit x y z j) := by
  rw [testBit_morton]; rfl

/-- Main encoding lemma. -/
theorem xyz2key64_toNat (x y z : I64) (b : Option I64) (d : Nat) (hd : d ≤ 16) :
    ∃ k, xyz2key64 x y z b d = .ok k ∧
      k.toNat = ((b.getD 0#64).toNat % 2 ^ 16) * 2 ^ 48 + morton d x.toNat y.toNat z.toNat := by
  refine ⟨_, xyz2key64_eq x y z b d hd, ?_⟩
  have hm := morton_lt d x.toNat y.toNat z.toNat
  have h48 : morton d x.toNat y.toNat z.toNat < 2 ^ 48 := by
    have : (8 : Nat) ^ d ≤ 8 ^ 16 := Nat.pow_le_pow_right (by omega) hd
    have e : (8 : Nat) ^ 16 = 2 ^ 48 := by norm_num
    omega
  rw [Nat.mul_comm]
  apply Nat.eq_of_testBit_eq
  intro j
  rw [Nat.testBit_two_pow_mul_add _ h48, testBit_morton_ibit]
  cases b with
  | none =>
    simp only [BitVec.testBit_toNat, Option.getD_none]
    rw [keyLow_bits _ _ _ _ _ hd]
    by_cases h : j < 48
    · simp [h]
    · have : ¬ j < 3 * d := by omega
      simp [h, this]
  | some b =>
    simp only [BitVec.testBit_toNat, Option.getD_some, BitVec.getLsbD_or, BitVec.getLsbD_shiftLeft]
    rw [keyLow_bits _ _ _ _ _ hd, Nat.testBit_mod_two_pow]
    by_cases h : j < 48
    · simp [h]
    · have h3 : ¬ j < 3 * d := by omega
      by_cases h4 : j < 64
      · have h5 : j - 48 < 16 := by omega
        simp [h, h3, h4, h5, BitVec.testBit_toNat]
      · have h5 : ¬ j - 48 < 16 := by omega
        simp [h, h3, h4, h5]

/-! decoding -/

theorem getLsbD_511 (j : Nat) : (511#64).getLsbD j = decide (j < 9) := by
  have : (511#64) = BitVec.ofNat 64 ((1 <<< 9) - 1) := by decide
  rw [this, getLsbD_mask _ _ (by omega)]

theorem lutAt_D (o : Nat) (k : I64) :
    lutAt ((List.range 512).map fun r => lutKey2coord o (BitVec.ofNat 64 r) 9) (k &&& 511#64)
      = .ok (lutKey2coord o (k &&& 511#64) 9) := by
  have e : (511#64) = BitVec.ofNat 64 ((1 <<< 9) - 1) := by decide
  have h := toNat_and_mask_lt k 9 (by omega)
  rw [lutAt_map _ _ _ (by norm_num) (by rw [e]; simpa using h)]
  simp only [ofNat_toNat64]

/-- coordinate with bit offset `o` extracted from the first `n` groups of nine bits -/
def dcoord (o : Nat) (key : I64) (n : Nat) : I64 :=
  (List.range n).foldl (fun x i =>
    x ||| (lutKey2coord o (key.sshiftRight (i * 9) &&& 511#64) 9) <<< (i * 3)) 0#64

theorem key2xyz_fold (key : I64) (n : Nat) :
    (List.range n).foldlM (key2xyzStep key) (0#64, 0#64, 0#64)
      = .ok (dcoord 2 key n, dcoord 1 key n, dcoord 0 key n) := by
  induction n with
  | zero => rfl
  | succ n ih =>
    rw [List.range_succ, List.foldlM_append, ih]
    simp only [bind, Except.bind, List.foldlM_cons, List.foldlM_nil, key2xyzStep, pure, Except.pure]
    unfold DX DY DZ
    rw [lutAt_D, lutAt_D, lutAt_D]
    simp [dcoord, List.range_succ]

theorem getLsbD_dcoord (o : Nat) (key : I64) (n j : Nat) (ho : o < 3) (hn : n ≤ 6)
    (hk : key.msb = false) :
    (dcoord o key n).getLsbD j = (decide (j < 3 * n) && key.getLsbD (3 * j + o)) := by
  induction n with
  | zero => simp [dcoord]
  | succ n ih =>
    have ih := ih (by omega)
    unfold dcoord at ih ⊢
    rw [List.range_succ, List.foldl_append]
    simp only [List.foldl_cons, List.foldl_nil, BitVec.getLsbD_or, ih, BitVec.getLsbD_shiftLeft]
    rw [getLsbD_lutKey2coord _ _ _ _ ho (by omega), BitVec.getLsbD_and, getLsbD_511,
      BitVec.getLsbD_sshiftRight, hk]
    by_cases h1 : j < 3 * n
    · have h2 : j < n * 3 := by omega
      have h3 : j < 3 * (n + 1) := by omega
      simp [h1, h2, h3]
    · have h2 : ¬ j < n * 3 := by omega
      by_cases h3 : j < 3 * (n + 1)
      · have h4 : j < 64 := by omega
        have h5 : j - n * 3 < 9 := by omega
        have h6 : 3 * (j - n * 3) + o < 9 := by omega
        have h7 : ¬ 64 ≤ 3 * (j - n * 3) + o := by omega
        have h8 : n * 9 + (3 * (j - n * 3) + o) = 3 * j + o := by omega
        have h9 : 3 * j + o < 64 := by omega
        simp [h1, h2, h3, h4, h5, h6, h7, h8, h9]
      · have h6 : ¬ 3 * (j - n * 3) + o < 9 := by omega
        simp [h1, h2, h3, h6]

theorem key2xyz64_eq (key : I64) (d : Nat) :
    key2xyz64 key d = .ok (dcoord 2 (key &&& BitVec.ofNat 64 ((1 <<< 48) - 1)) ((d + 2) / 3),
      dcoord 1 (key &&& BitVec.ofNat 64 ((1 <<< 48) - 1)) ((d + 2) / 3),
      dcoord 0 (key &&& BitVec.ofNat 64 ((1 <<< 48) - 1)) ((d + 2) / 3), key.sshiftRight 48) := by
  unfold key2xyz64
  have e : (((1 <<< 48) - 1 : Nat) : I64) = BitVec.ofNat 64 ((1 <<< 48) - 1) := by rfl
  simp only [e]
  rw [key2xyz_fold]
  rfl

theorem msb_and48 (key : I64) : (key &&& BitVec.ofNat 64 ((1 <<< 48) - 1)).msb = false := by
  rw [BitVec.msb_eq_getLsbD_last, BitVec.getLsbD_and, getLsbD_mask _ _ (by omega)]
  simp

/-- Decoding of a legal key. -/
theorem key2xyz64_toNat (k : I64) (d x y z b : Nat) (hd : d ≤ 16) (hb : b < 2 ^ 15)
    (hx : x < 2 ^ d) (hy : y < 2 ^ d) (hz : z < 2 ^ d)
    (hk : k.toNat = b * 2 ^ 48 + morton d x y z) :
    key2xyz64 k d = .ok (BitVec.ofNat 64 x, BitVec.ofNat 64 y, BitVec.ofNat 64 z, BitVec.ofNat 64 b) := by
  have hm := morton_lt d x y z
  have h48 : morton d x y z < 2 ^ 48 := by
    have : (8 : Nat) ^ d ≤ 8 ^ 16 := Nat.pow_le_pow_right (by omega) hd
    have e : (8 : Nat) ^ 16 = 2 ^ 48 := by norm_num
    omega
  have hbit : ∀ j, k.getLsbD j = if j < 48 then (morton d x y z).testBit j else b.testBit (j - 48) := by
    intro j
    rw [← BitVec.testBit_toNat, hk, Nat.mul_comm, Nat.testBit_two_pow_mul_add _ h48]
  have hmsb : k.msb = false := by
    rw [BitVec.msb_eq_getLsbD_last, hbit]
    simp only [show ¬ (64 - 1 < 48) by omega, if_false]
    exact Nat.testBit_lt_two_pow (by simpa using hb)
  have coord : ∀ (o w : Nat), o < 3 → w < 2 ^ d →
      (∀ j, j < d → (morton d x y z).testBit (3 * j + o) = w.testBit j) →
      dcoord o (k &&& BitVec.ofNat 64 ((1 <<< 48) - 1)) ((d + 2) / 3) = BitVec.ofNat 64 w := by
    intro o w ho hw hbits
    apply BitVec.eq_of_getLsbD_eq
    intro j hj
    rw [getLsbD_dcoord _ _ _ _ ho (by omega) (msb_and48 k), BitVec.getLsbD_and,
      getLsbD_mask _ _ (by omega), hbit, BitVec.getLsbD_ofNat]
    by_cases h1 : j < d
    · have h2 : j < 3 * ((d + 2) / 3) := by omega
      have h3 : 3 * j + o < 48 := by omega
      have := hbits j h1
      simp [h2, h3, hj, this]
    · have hw' : w.testBit j = false :=
        Nat.testBit_lt_two_pow (lt_of_lt_of_le hw (Nat.pow_le_pow_right (by omega) (by omega)))
      rw [hw']
      by_cases h3 : 3 * j + o < 48
      · have h4 : (morton d x y z).testBit (3 * j + o) = false := by
          rw [testBit_morton]
          have : ¬ 3 * j + o < 3 * d := by omega
          simp [this]
        simp [h3, h4]
      · simp [h3]
  rw [key2xyz64_eq]
  have cx := coord 2 x (by omega) hx (fun j hj => by
    rw [testBit_morton]
    have h1 : 3 * j + 2 < 3 * d := by omega
    have h2 : (3 * j + 2) % 3 = 2 := by omega
    have h3 : (3 * j + 2) / 3 = j := by omega
    simp [h1, h2, h3])
  have cy := coord 1 y (by omega) hy (fun j hj => by
    rw [testBit_morton]
    have h1 : 3 * j + 1 < 3 * d := by omega
    have h2 : (3 * j + 1) % 3 = 1 := by omega
    have h3 : (3 * j + 1) / 3 = j := by omega
    simp [h1, h2, h3])
  have cz := coord 0 z (by omega) hz (fun j hj => by
    rw [testBit_morton]
    have h1 : 3 * j + 0 < 3 * d := by omega
    have h2 : (3 * j + 0) % 3 = 0 := by omega
    have h3 : (3 * j + 0) / 3 = j := by omega
    simp only [h1, h2, h3]
    simp)
  have cb : k.sshiftRight 48 = BitVec.ofNat 64 b := by
    apply BitVec.eq_of_toNat_eq
    rw [BitVec.sshiftRight_eq_of_msb_false hmsb, BitVec.toNat_ushiftRight, hk, Nat.shiftRight_eq_div_pow,
      BitVec.toNat_ofNat]
    rw [Nat.mod_eq_of_lt (by omega)]
    omega
  rw [cx, cy, cz, cb]

end Ocnn
