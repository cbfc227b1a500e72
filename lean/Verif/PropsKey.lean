import Verif.KeyMain

/-! Property theorems C01-C06: the shuffled keys (ocnn/octree/shuffled_key.py). -/

namespace Ocnn
open Spec

/-- **C01** Encoding a cell and a batch index and decoding the key gives back the same values. -/
theorem C01_key_roundtrip (d x y z b : Nat) (hd : d ≤ 16) (hx : x < 2 ^ d) (hy : y < 2 ^ d)
    (hz : z < 2 ^ d) (hb : b < 2 ^ 15) :
    (xyz2key64 (BitVec.ofNat 64 x) (BitVec.ofNat 64 y) (BitVec.ofNat 64 z)
        (some (BitVec.ofNat 64 b)) d >>= fun k => key2xyz64 k d)
      = .ok (BitVec.ofNat 64 x, BitVec.ofNat 64 y, BitVec.ofNat 64 z, BitVec.ofNat 64 b) := by
  obtain ⟨k, hk, e⟩ := xyz2key64_toNat (BitVec.ofNat 64 x) (BitVec.ofNat 64 y) (BitVec.ofNat 64 z)
    (some (BitVec.ofNat 64 b)) d hd
  have h16 : 2 ^ d ≤ 2 ^ 16 := Nat.pow_le_pow_right (by omega) hd
  rw [hk]
  simp only [bind, Except.bind]
  apply key2xyz64_toNat k d x y z b hd hb hx hy hz
  rw [e]
  simp only [Option.getD_some, BitVec.toNat_ofNat]
  rw [Nat.mod_eq_of_lt (show x < 2 ^ 64 by omega), Nat.mod_eq_of_lt (show y < 2 ^ 64 by omega),
    Nat.mod_eq_of_lt (show z < 2 ^ 64 by omega), Nat.mod_eq_of_lt (show b < 2 ^ 64 by omega),
    Nat.mod_eq_of_lt (show b < 2 ^ 16 by omega)]

/-- **C01**, without batch index: the decoded batch index is 0. -/
theorem C01_key_roundtrip_nobatch (d x y z : Nat) (hd : d ≤ 16) (hx : x < 2 ^ d) (hy : y < 2 ^ d)
    (hz : z < 2 ^ d) :
    (xyz2key64 (BitVec.ofNat 64 x) (BitVec.ofNat 64 y) (BitVec.ofNat 64 z) none d
        >>= fun k => key2xyz64 k d)
      = .ok (BitVec.ofNat 64 x, BitVec.ofNat 64 y, BitVec.ofNat 64 z, BitVec.ofNat 64 0) := by
  obtain ⟨k, hk, e⟩ := xyz2key64_toNat (BitVec.ofNat 64 x) (BitVec.ofNat 64 y) (BitVec.ofNat 64 z)
    none d hd
  have h16 : 2 ^ d ≤ 2 ^ 16 := Nat.pow_le_pow_right (by omega) hd
  rw [hk]
  simp only [bind, Except.bind]
  apply key2xyz64_toNat k d x y z 0 hd (by norm_num) hx hy hz
  rw [e]
  simp only [Option.getD_none, BitVec.toNat_ofNat]
  rw [Nat.mod_eq_of_lt (show x < 2 ^ 64 by omega), Nat.mod_eq_of_lt (show y < 2 ^ 64 by omega),
    Nat.mod_eq_of_lt (show z < 2 ^ 64 by omega)]
  simp

/-- the hypotheses of C01 are met by a deep cell with the largest coordinates and batch index -/
example : (16 : Nat) ≤ 16 ∧ 65535 < 2 ^ 16 ∧ 40000 < 2 ^ 16 ∧ 32767 < 2 ^ 15 := by decide

/-- **C02** Decoding a legal key gives an in-range cell, and re-encoding it gives back the key. -/
theorem C02_decode_encode (d : Nat) (k : I64) (hd : d ≤ 16) (hk : LegalKey d k.toNat) :
    ∃ x y z b : Nat, x < 2 ^ d ∧ y < 2 ^ d ∧ z < 2 ^ d ∧ b < 2 ^ 15 ∧
      key2xyz64 k d
        = .ok (BitVec.ofNat 64 x, BitVec.ofNat 64 y, BitVec.ofNat 64 z, BitVec.ofNat 64 b) ∧
      xyz2key64 (BitVec.ofNat 64 x) (BitVec.ofNat 64 y) (BitVec.ofNat 64 z)
        (some (BitVec.ofNat 64 b)) d = .ok k := by
  obtain ⟨hb, hm⟩ := hk
  obtain ⟨x, y, z, hx, hy, hz, e⟩ := exists_morton d _ hm
  have hk' : k.toNat = k.toNat / 2 ^ 48 * 2 ^ 48 + morton d x y z := by rw [e]; omega
  refine ⟨x, y, z, k.toNat / 2 ^ 48, hx, hy, hz, hb,
    key2xyz64_toNat k d x y z _ hd hb hx hy hz hk', ?_⟩
  obtain ⟨k', hk1, e'⟩ := xyz2key64_toNat (BitVec.ofNat 64 x) (BitVec.ofNat 64 y)
    (BitVec.ofNat 64 z) (some (BitVec.ofNat 64 (k.toNat / 2 ^ 48))) d hd
  rw [hk1]
  congr 1
  apply BitVec.eq_of_toNat_eq
  have h16 : 2 ^ d ≤ 2 ^ 16 := Nat.pow_le_pow_right (by omega) hd
  rw [e']
  simp only [Option.getD_some, BitVec.toNat_ofNat]
  rw [Nat.mod_eq_of_lt (show x < 2 ^ 64 by omega), Nat.mod_eq_of_lt (show y < 2 ^ 64 by omega),
    Nat.mod_eq_of_lt (show z < 2 ^ 64 by omega),
    Nat.mod_eq_of_lt (show k.toNat / 2 ^ 48 < 2 ^ 64 by omega),
    Nat.mod_eq_of_lt (show k.toNat / 2 ^ 48 < 2 ^ 16 by omega)]
  exact hk'.symm

example : LegalKey 3 (BitVec.ofNat 64 (32767 * 2 ^ 48 + 511)).toNat := by
  unfold LegalKey; decide

/-- reduction of an int64 modulo a power of two, in terms of the signed value -/
theorem toNat_mod_eq_toInt (x : I64) (d : Nat) (hd : d ≤ 64) :
    x.toNat % 2 ^ d = (x.toInt % (2 ^ d : Int)).toNat := by
  have h : (x.toInt % (2 ^ d : Int)) = (x.toNat : Int) % (2 ^ d : Int) := by
    rw [BitVec.toInt_eq_toNat_bmod]
    obtain ⟨c, hc⟩ := Nat.pow_dvd_pow 2 hd
    have h1 := Int.bmod_eq_emod (x.toNat : Int) (2 ^ 64)
    rw [h1]
    have e64 : ((2 ^ 64 : Nat) : Int) = (2 ^ d : Int) * c := by
      rw [hc]; push_cast; rfl
    have h2 : (x.toNat : Int) % ((2 ^ 64 : Nat) : Int) % (2 ^ d : Int) = (x.toNat : Int) % (2 ^ d : Int) := by
      exact Int.emod_emod_of_dvd _ ⟨c, e64⟩
    split
    · rw [e64] at *
      rw [Int.sub_mul_emod_self_left]
      exact h2
    · rw [Nat.cast_zero, sub_zero]
      exact h2
  rw [h]
  have : ((x.toNat : Int) % (2 ^ d : Int)) = ((x.toNat % 2 ^ d : Nat) : Int) := by push_cast; rfl
  rw [this, Int.toNat_natCast]

/-- **C03** For arbitrary int64 inputs (also negative or too large ones) the table-driven encoder
returns the Morton code of the coordinates taken modulo `2^depth`; the batch index occupies the bits
from 48 up (its low 16 bits). -/
theorem C03_encode_is_morton (x y z : I64) (b : Option I64) (d : Nat) (hd : d ≤ 16) :
    ∃ k, xyz2key64 x y z b d = .ok k ∧
      k.toNat = ((b.getD 0#64).toNat % 2 ^ 16) * 2 ^ 48 +
        morton d (x.toInt % 2 ^ d).toNat (y.toInt % 2 ^ d).toNat (z.toInt % 2 ^ d).toNat := by
  obtain ⟨k, hk, e⟩ := xyz2key64_toNat x y z b d hd
  refine ⟨k, hk, ?_⟩
  rw [e, ← toNat_mod_eq_toInt _ _ (by omega), ← toNat_mod_eq_toInt _ _ (by omega),
    ← toNat_mod_eq_toInt _ _ (by omega), morton_mod]

/-- **C03** The table-driven encoder agrees with the bit-by-bit loop for every depth. -/
theorem C03_table_eq_loop (x y z : I64) (d : Nat) (hd : d ≤ 16) :
    xyz2key64 x y z none d = .ok (lutXyz2key x y z d) := by
  rw [xyz2key64_eq _ _ _ _ _ hd]
  simp only
  congr 1
  apply BitVec.eq_of_getLsbD_eq
  intro j hj
  rw [keyLow_bits _ _ _ _ _ hd, getLsbD_lutXyz2key]
  simp [hj, ibit]

/-- a negative and an oversized coordinate -/
example : ((BitVec.ofInt 64 (-1)).toInt % 2 ^ 4).toNat = 15 ∧
    ((BitVec.ofNat 64 1000000).toInt % 2 ^ 4).toNat = 0 := by decide

/-- **C04** The key at depth `d+1` extends the key at depth `d` of the enclosing cell: same batch
field, the Morton field without its last octal digit is the one of the cell `(x/2, y/2, z/2)`, and that
digit is the octant number. -/
theorem C04_hierarchical (d x y z b : Nat) (hd : d + 1 ≤ 16) (hx : x < 2 ^ (d + 1))
    (hy : y < 2 ^ (d + 1)) (hz : z < 2 ^ (d + 1)) (hb : b < 2 ^ 15) :
    ∃ k kp,
      xyz2key64 (BitVec.ofNat 64 x) (BitVec.ofNat 64 y) (BitVec.ofNat 64 z)
        (some (BitVec.ofNat 64 b)) (d + 1) = .ok k ∧
      xyz2key64 (BitVec.ofNat 64 (x / 2)) (BitVec.ofNat 64 (y / 2)) (BitVec.ofNat 64 (z / 2))
        (some (BitVec.ofNat 64 b)) d = .ok kp ∧
      k.toNat / 2 ^ 48 = kp.toNat / 2 ^ 48 ∧
      k.toNat % 2 ^ 48 / 8 = kp.toNat % 2 ^ 48 ∧
      k.toNat % 8 = 4 * (x % 2) + 2 * (y % 2) + z % 2 := by
  obtain ⟨k, hk, e⟩ := xyz2key64_toNat (BitVec.ofNat 64 x) (BitVec.ofNat 64 y) (BitVec.ofNat 64 z)
    (some (BitVec.ofNat 64 b)) (d + 1) hd
  obtain ⟨kp, hkp, ep⟩ := xyz2key64_toNat (BitVec.ofNat 64 (x / 2)) (BitVec.ofNat 64 (y / 2))
    (BitVec.ofNat 64 (z / 2)) (some (BitVec.ofNat 64 b)) d (by omega)
  have h16 : 2 ^ (d + 1) ≤ 2 ^ 16 := Nat.pow_le_pow_right (by omega) hd
  simp only [Option.getD_some, BitVec.toNat_ofNat] at e ep
  rw [Nat.mod_eq_of_lt (show x < 2 ^ 64 by omega), Nat.mod_eq_of_lt (show y < 2 ^ 64 by omega),
    Nat.mod_eq_of_lt (show z < 2 ^ 64 by omega), Nat.mod_eq_of_lt (show b < 2 ^ 64 by omega),
    Nat.mod_eq_of_lt (show b < 2 ^ 16 by omega)] at e
  rw [Nat.mod_eq_of_lt (show x / 2 < 2 ^ 64 by omega), Nat.mod_eq_of_lt (show y / 2 < 2 ^ 64 by omega),
    Nat.mod_eq_of_lt (show z / 2 < 2 ^ 64 by omega), Nat.mod_eq_of_lt (show b < 2 ^ 64 by omega),
    Nat.mod_eq_of_lt (show b < 2 ^ 16 by omega)] at ep
  refine ⟨k, kp, hk, hkp, ?_⟩
  rw [e, ep]
  simp only [morton]
  have hm := morton_lt d (x / 2) (y / 2) (z / 2)
  have h8 : (8 : Nat) ^ d ≤ 8 ^ 15 := Nat.pow_le_pow_right (by omega) (by omega)
  norm_num at h8
  omega

example : (7 : Nat) + 1 ≤ 16 ∧ 200 < 2 ^ (7 + 1) ∧ 77 < 2 ^ (7 + 1) ∧ 5 < 2 ^ 15 := by decide

/-- **C05** Batch-major order: a smaller batch index always gives a smaller key. -/
theorem C05_batch_major (d : Nat) (hd : d ≤ 16) (k k' : I64)
    (hk : LegalKey d k.toNat) (hk' : LegalKey d k'.toNat)
    (x y z b x' y' z' b' : I64)
    (h : key2xyz64 k d = .ok (x, y, z, b)) (h' : key2xyz64 k' d = .ok (x', y', z', b'))
    (hb : b.toInt < b'.toInt) : k.toInt < k'.toInt := by
  obtain ⟨x1, y1, z1, b1, hx, hy, hz, hb1, e, e2⟩ := C02_decode_encode d k hd hk
  obtain ⟨x2, y2, z2, b2, hx', hy', hz', hb2, e', e2'⟩ := C02_decode_encode d k' hd hk'
  have key : ∀ (q : I64), q.toNat / 2 ^ 48 < 2 ^ 15 → q.toInt = q.toNat := by
    intro q hq
    rw [BitVec.toInt_eq_toNat_cond, if_pos (by omega)]
  rw [key k hk.1, key k' hk'.1]
  rw [h] at e
  rw [h'] at e'
  simp only [Except.ok.injEq, Prod.mk.injEq] at e e'
  have hbk : k.toNat / 2 ^ 48 = b1 := by
    obtain ⟨k1, hk1, ek⟩ := xyz2key64_toNat (BitVec.ofNat 64 x1) (BitVec.ofNat 64 y1)
      (BitVec.ofNat 64 z1) (some (BitVec.ofNat 64 b1)) d hd
    rw [e2] at hk1
    cases hk1
    have := morton_lt d (BitVec.ofNat 64 x1).toNat (BitVec.ofNat 64 y1).toNat (BitVec.ofNat 64 z1).toNat
    have h8 : (8 : Nat) ^ d ≤ 8 ^ 16 := Nat.pow_le_pow_right (by omega) (by omega)
    norm_num at h8
    simp only [Option.getD_some, BitVec.toNat_ofNat] at ek
    rw [Nat.mod_eq_of_lt (show b1 < 2 ^ 64 by omega), Nat.mod_eq_of_lt (show b1 < 2 ^ 16 by omega)] at ek
    simp only [BitVec.toNat_ofNat] at this
    omega
  have hbk' : k'.toNat / 2 ^ 48 = b2 := by
    obtain ⟨k1, hk1, ek⟩ := xyz2key64_toNat (BitVec.ofNat 64 x2) (BitVec.ofNat 64 y2)
      (BitVec.ofNat 64 z2) (some (BitVec.ofNat 64 b2)) d hd
    rw [e2'] at hk1
    cases hk1
    have := morton_lt d (BitVec.ofNat 64 x2).toNat (BitVec.ofNat 64 y2).toNat (BitVec.ofNat 64 z2).toNat
    have h8 : (8 : Nat) ^ d ≤ 8 ^ 16 := Nat.pow_le_pow_right (by omega) (by omega)
    norm_num at h8
    simp only [Option.getD_some, BitVec.toNat_ofNat] at ek
    rw [Nat.mod_eq_of_lt (show b2 < 2 ^ 64 by omega), Nat.mod_eq_of_lt (show b2 < 2 ^ 16 by omega)] at ek
    simp only [BitVec.toNat_ofNat] at this
    omega
  rw [e.2.2.2, e'.2.2.2] at hb
  have hb1' : (BitVec.ofNat 64 b1).toInt = b1 := by
    rw [key] <;> simp only [BitVec.toNat_ofNat] <;> rw [Nat.mod_eq_of_lt (show b1 < 2 ^ 64 by omega)]
    omega
  have hb2' : (BitVec.ofNat 64 b2).toInt = b2 := by
    rw [key] <;> simp only [BitVec.toNat_ofNat] <;> rw [Nat.mod_eq_of_lt (show b2 < 2 ^ 64 by omega)]
    omega
  rw [hb1', hb2'] at hb
  omega

/-- **C05** Depth-first order: if the ancestors `n` levels up are ordered strictly, so are the cells;
and the keys below one ancestor form an interval. -/
theorem C05_depth_first (d n : Nat) (hd : d + n ≤ 16) (c c' : Cell)
    (h : (c.ancestor n).key d < (c'.ancestor n).key d) : c.key (d + n) < c'.key (d + n) := by
  have e := morton_ancestor n d c.x c.y c.z
  have e' := morton_ancestor n d c'.x c'.y c'.z
  have hm := morton_lt (d + n) c.x c.y c.z
  have hm' := morton_lt (d + n) c'.x c'.y c'.z
  have h8 : (8 : Nat) ^ (d + n) ≤ 8 ^ 16 := Nat.pow_le_pow_right (by omega) hd
  norm_num at h8
  have hl : morton d (c.x / 2 ^ n) (c.y / 2 ^ n) (c.z / 2 ^ n) < 2 ^ 48 := by
    rw [← e]; exact lt_of_le_of_lt (Nat.div_le_self _ _) (by omega)
  have hl' : morton d (c'.x / 2 ^ n) (c'.y / 2 ^ n) (c'.z / 2 ^ n) < 2 ^ 48 := by
    rw [← e']; exact lt_of_le_of_lt (Nat.div_le_self _ _) (by omega)
  simp only [Cell.key, Cell.ancestor] at h ⊢
  by_cases hb : c.b < c'.b
  · omega
  · have hb' : c.b = c'.b := by omega
    have hlt : morton d (c.x / 2 ^ n) (c.y / 2 ^ n) (c.z / 2 ^ n)
        < morton d (c'.x / 2 ^ n) (c'.y / 2 ^ n) (c'.z / 2 ^ n) := by omega
    rw [← e, ← e'] at hlt
    have := Nat.lt_of_div_lt_div hlt
    omega

/-- **C05** Sub-trees are contiguous: a key between two keys with the same ancestor has that ancestor. -/
theorem C05_subtree_contiguous (d n : Nat) (hd : d + n ≤ 16) (a m c : Cell)
    (h1 : a.key (d + n) ≤ m.key (d + n)) (h2 : m.key (d + n) ≤ c.key (d + n))
    (h : (a.ancestor n).key d = (c.ancestor n).key d) :
    (m.ancestor n).key d = (a.ancestor n).key d := by
  rcases Nat.lt_trichotomy ((m.ancestor n).key d) ((a.ancestor n).key d) with h3 | h3 | h3
  · exact absurd (C05_depth_first d n hd m a h3) (by omega)
  · exact h3
  · rw [h] at h3
    exact absurd (C05_depth_first d n hd c m h3) (by omega)

/-- two cells whose parents are ordered, across an octant boundary -/
example : ((⟨0, 3, 0, 0⟩ : Cell).ancestor 1).key 2 < ((⟨0, 0, 4, 0⟩ : Cell).ancestor 1).key 2 ∧
    (⟨0, 3, 0, 0⟩ : Cell).key 3 < (⟨0, 0, 4, 0⟩ : Cell).key 3 := by decide

/-- The encoder on a legal cell. -/
theorem encode_cell (c : Cell) (d : Nat) (hd : d ≤ 16) (h : c.x < 2 ^ d ∧ c.y < 2 ^ d ∧ c.z < 2 ^ d ∧ c.b < 2 ^ 15) :
    ∃ k, xyz2key64 (BitVec.ofNat 64 c.x) (BitVec.ofNat 64 c.y) (BitVec.ofNat 64 c.z) (some (BitVec.ofNat 64 c.b)) d = .ok k ∧
      k.toInt = c.key d := by
  obtain ⟨k, hk, e⟩ := xyz2key64_toNat (BitVec.ofNat 64 c.x) (BitVec.ofNat 64 c.y) (BitVec.ofNat 64 c.z) (some (BitVec.ofNat 64 c.b)) d hd
  obtain ⟨h1, h2, h3, h4⟩ := h
  have h16 : 2 ^ d ≤ 2 ^ 16 := Nat.pow_le_pow_right (by omega) hd
  have hm := morton_lt d c.x c.y c.z
  have h8 : (8 : Nat) ^ d ≤ 8 ^ 16 := Nat.pow_le_pow_right (by omega) hd
  norm_num at h8
  have hn : ∀ v, v < 2 ^ 16 → (BitVec.ofNat 64 v).toNat = v := by
    intro v hv
    rw [BitVec.toNat_ofNat, Nat.mod_eq_of_lt (by omega)]
  simp only [Option.getD_some, hn _ (show c.x < 2 ^ 16 by omega), hn _ (show c.y < 2 ^ 16 by omega), hn _ (show c.z < 2 ^ 16 by omega),
    hn _ (show c.b < 2 ^ 16 by omega), Nat.mod_eq_of_lt (show c.b < 2 ^ 16 by omega)] at e
  refine ⟨k, hk, ?_⟩
  unfold Cell.key
  rw [BitVec.toInt_eq_toNat_cond, if_pos (by omega), e]

/-- **C05** Depth-first order of the keys the encoder returns: for two legal cells of depth `d + n`, if the keys of their ancestors `n` levels up (the
coordinates divided by `2^n`) are ordered strictly, so are the keys of the cells. -/
theorem C05_encode_depth_first (d n : Nat) (hd : d + n ≤ 16) (x y z b x' y' z' b' : Nat)
    (h : x < 2 ^ (d + n) ∧ y < 2 ^ (d + n) ∧ z < 2 ^ (d + n) ∧ b < 2 ^ 15) (h' : x' < 2 ^ (d + n) ∧ y' < 2 ^ (d + n) ∧ z' < 2 ^ (d + n) ∧ b' < 2 ^ 15) :
    ∃ k a k' a',
      xyz2key64 (BitVec.ofNat 64 x) (BitVec.ofNat 64 y) (BitVec.ofNat 64 z) (some (BitVec.ofNat 64 b)) (d + n) = .ok k ∧
      xyz2key64 (BitVec.ofNat 64 (x / 2 ^ n)) (BitVec.ofNat 64 (y / 2 ^ n)) (BitVec.ofNat 64 (z / 2 ^ n)) (some (BitVec.ofNat 64 b)) d = .ok a ∧
      xyz2key64 (BitVec.ofNat 64 x') (BitVec.ofNat 64 y') (BitVec.ofNat 64 z') (some (BitVec.ofNat 64 b')) (d + n) = .ok k' ∧
      xyz2key64 (BitVec.ofNat 64 (x' / 2 ^ n)) (BitVec.ofNat 64 (y' / 2 ^ n)) (BitVec.ofNat 64 (z' / 2 ^ n)) (some (BitVec.ofNat 64 b')) d = .ok a' ∧
      (a.toInt < a'.toInt → k.toInt < k'.toInt) := by
  have up : ∀ v, v < 2 ^ (d + n) → v / 2 ^ n < 2 ^ d := by
    intro v hv
    rw [pow_add] at hv
    exact Nat.div_lt_of_lt_mul (by rwa [Nat.mul_comm] at hv)
  obtain ⟨k, h1, e1⟩ := encode_cell ⟨b, x, y, z⟩ (d + n) hd h
  obtain ⟨a, h2, e2⟩ := encode_cell ⟨b, x / 2 ^ n, y / 2 ^ n, z / 2 ^ n⟩ d (by omega) ⟨up _ h.1, up _ h.2.1, up _ h.2.2.1, h.2.2.2⟩
  obtain ⟨k', h3, e3⟩ := encode_cell ⟨b', x', y', z'⟩ (d + n) hd h'
  obtain ⟨a', h4, e4⟩ := encode_cell ⟨b', x' / 2 ^ n, y' / 2 ^ n, z' / 2 ^ n⟩ d (by omega) ⟨up _ h'.1, up _ h'.2.1, up _ h'.2.2.1, h'.2.2.2⟩
  refine ⟨k, a, k', a', h1, h2, h3, h4, ?_⟩
  rw [e1, e2, e3, e4]
  intro hlt
  exact_mod_cast C05_depth_first d n hd ⟨b, x, y, z⟩ ⟨b', x', y', z'⟩ (by exact_mod_cast hlt)

/-- **C05** Sub-trees occupy intervals of the sorted keys: if the key `m` of a legal cell lies between the keys of two legal cells with the same
ancestor `n` levels up, then that ancestor is also the ancestor of the cell that `m` decodes to. -/
theorem C05_encode_contiguous (d n : Nat) (hd : d + n ≤ 16) (A M C : Nat × Nat × Nat × Nat)
    (hA : A.1 < 2 ^ (d + n) ∧ A.2.1 < 2 ^ (d + n) ∧ A.2.2.1 < 2 ^ (d + n) ∧ A.2.2.2 < 2 ^ 15)
    (hM : M.1 < 2 ^ (d + n) ∧ M.2.1 < 2 ^ (d + n) ∧ M.2.2.1 < 2 ^ (d + n) ∧ M.2.2.2 < 2 ^ 15)
    (hC : C.1 < 2 ^ (d + n) ∧ C.2.1 < 2 ^ (d + n) ∧ C.2.2.1 < 2 ^ (d + n) ∧ C.2.2.2 < 2 ^ 15) (a m c : I64)
    (ha : xyz2key64 (BitVec.ofNat 64 A.1) (BitVec.ofNat 64 A.2.1) (BitVec.ofNat 64 A.2.2.1) (some (BitVec.ofNat 64 A.2.2.2)) (d + n) = .ok a)
    (hm : xyz2key64 (BitVec.ofNat 64 M.1) (BitVec.ofNat 64 M.2.1) (BitVec.ofNat 64 M.2.2.1) (some (BitVec.ofNat 64 M.2.2.2)) (d + n) = .ok m)
    (hc : xyz2key64 (BitVec.ofNat 64 C.1) (BitVec.ofNat 64 C.2.1) (BitVec.ofNat 64 C.2.2.1) (some (BitVec.ofNat 64 C.2.2.2)) (d + n) = .ok c)
    (h1 : a.toInt ≤ m.toInt) (h2 : m.toInt ≤ c.toInt)
    (h : (A.1 / 2 ^ n, A.2.1 / 2 ^ n, A.2.2.1 / 2 ^ n, A.2.2.2) = (C.1 / 2 ^ n, C.2.1 / 2 ^ n, C.2.2.1 / 2 ^ n, C.2.2.2)) :
    (M.1 / 2 ^ n, M.2.1 / 2 ^ n, M.2.2.1 / 2 ^ n, M.2.2.2) = (A.1 / 2 ^ n, A.2.1 / 2 ^ n, A.2.2.1 / 2 ^ n, A.2.2.2) := by
  obtain ⟨x, y, z, b⟩ := A
  obtain ⟨x', y', z', b'⟩ := M
  obtain ⟨x'', y'', z'', b''⟩ := C
  obtain ⟨k, e1, e2⟩ := encode_cell ⟨b, x, y, z⟩ (d + n) hd hA
  obtain ⟨k', e3, e4⟩ := encode_cell ⟨b', x', y', z'⟩ (d + n) hd hM
  obtain ⟨k'', e5, e6⟩ := encode_cell ⟨b'', x'', y'', z''⟩ (d + n) hd hC
  cases e1.symm.trans ha
  cases e3.symm.trans hm
  cases e5.symm.trans hc
  rw [e2, e4] at h1
  rw [e4, e6] at h2
  have up : ∀ v, v < 2 ^ (d + n) → v / 2 ^ n < 2 ^ d := by
    intro v hv
    rw [pow_add] at hv
    exact Nat.div_lt_of_lt_mul (by rwa [Nat.mul_comm] at hv)
  simp only [Prod.mk.injEq] at h
  obtain ⟨i1, i2, i3, i4⟩ := h
  have key := C05_subtree_contiguous d n hd ⟨b, x, y, z⟩ ⟨b', x', y', z'⟩ ⟨b'', x'', y'', z''⟩ (by exact_mod_cast h1) (by exact_mod_cast h2)
    (by simp only [Cell.ancestor, i1, i2, i3, i4])
  have e := Cell.key_injective (B := 2 ^ 15) (d := d) (by omega)
    (show Cell.InRange (2 ^ 15) d ⟨b', x' / 2 ^ n, y' / 2 ^ n, z' / 2 ^ n⟩ from ⟨hM.2.2.2, up _ hM.1, up _ hM.2.1, up _ hM.2.2.1⟩)
    (show Cell.InRange (2 ^ 15) d ⟨b, x / 2 ^ n, y / 2 ^ n, z / 2 ^ n⟩ from ⟨hA.2.2.2, up _ hA.1, up _ hA.2.1, up _ hA.2.2.1⟩) key
  simp only [Cell.mk.injEq] at e
  simp only [e.1, e.2.1, e.2.2.1, e.2.2.2]

/-- three cells with the same parent through the encoder, one between the other two -/
example : ∃ a m c : I64,
    xyz2key64 2#64 2#64 2#64 (some 1#64) 3 = .ok a ∧ xyz2key64 3#64 2#64 2#64 (some 1#64) 3 = .ok m ∧ xyz2key64 3#64 3#64 3#64 (some 1#64) 3 = .ok c ∧
    a.toInt < m.toInt ∧ m.toInt < c.toInt := by
  obtain ⟨a, h1, e1⟩ := encode_cell ⟨1, 2, 2, 2⟩ 3 (by omega) (by decide)
  obtain ⟨m, h2, e2⟩ := encode_cell ⟨1, 3, 2, 2⟩ 3 (by omega) (by decide)
  obtain ⟨c, h3, e3⟩ := encode_cell ⟨1, 3, 3, 3⟩ 3 (by omega) (by decide)
  refine ⟨a, m, c, h1, h2, h3, ?_, ?_⟩
  · rw [e1, e2]; decide
  · rw [e2, e3]; decide

/-- **C06** Batch index 32768: the key is negative as an int64 and decodes to the batch index -32768,
for every cell and depth. -/
theorem C06_batch_limit (d x y z : Nat) (hd : d ≤ 16) :
    ∃ k x' y' z' b', xyz2key64 (BitVec.ofNat 64 x) (BitVec.ofNat 64 y) (BitVec.ofNat 64 z)
        (some (BitVec.ofNat 64 32768)) d = .ok k ∧ k.toInt < 0 ∧
      key2xyz64 k d = .ok (x', y', z', b') ∧ b'.toInt = -32768 := by
  obtain ⟨k, hk, e⟩ := xyz2key64_toNat (BitVec.ofNat 64 x) (BitVec.ofNat 64 y) (BitVec.ofNat 64 z)
    (some (BitVec.ofNat 64 32768)) d hd
  have hm := morton_lt d (BitVec.ofNat 64 x).toNat (BitVec.ofNat 64 y).toNat (BitVec.ofNat 64 z).toNat
  have h8 : (8 : Nat) ^ d ≤ 8 ^ 16 := Nat.pow_le_pow_right (by omega) hd
  norm_num at h8
  have e0 : (BitVec.ofNat 64 32768 : I64).toNat % 2 ^ 16 = 32768 := by decide
  simp only [Option.getD_some] at e
  rw [e0] at e
  have hneg : k.toInt < 0 := by
    rw [BitVec.toInt_eq_toNat_cond, if_neg (by omega)]
    omega
  refine ⟨k, _, _, _, _, hk, hneg, key2xyz64_eq k d, ?_⟩
  rw [BitVec.toInt_sshiftRight, BitVec.toInt_eq_toNat_cond, if_neg (by omega), Int.shiftRight_eq_div_pow]
  omega

/-- **C06** A coordinate equal to `2^depth` is silently encoded like coordinate 0. -/
theorem C06_coordinate_limit (d : Nat) (hd : d ≤ 16) (y z : I64) (b : Option I64) :
    xyz2key64 (BitVec.ofNat 64 (2 ^ d)) y z b d = xyz2key64 0#64 y z b d := by
  obtain ⟨k, hk, e⟩ := C03_encode_is_morton (BitVec.ofNat 64 (2 ^ d)) y z b d hd
  obtain ⟨k', hk', e'⟩ := C03_encode_is_morton 0#64 y z b d hd
  rw [hk, hk']
  congr 1
  apply BitVec.eq_of_toNat_eq
  rw [e, e', ← toNat_mod_eq_toInt _ _ (by omega), ← toNat_mod_eq_toInt (0#64) _ (by omega)]
  have h16 : 2 ^ d ≤ 2 ^ 16 := Nat.pow_le_pow_right (by omega) hd
  simp only [BitVec.toNat_ofNat]
  rw [Nat.mod_eq_of_lt (show 2 ^ d < 2 ^ 64 by omega)]
  simp

theorem depth_limit_aux (d : Nat) (hd : 17 ≤ d) (hd' : d ≤ 71) (y z : I64) (b : Option I64) :
    65536 < 2 ^ d ∧ xyz2key64 (BitVec.ofNat 64 65536) y z b d = .error .index := by
  have hlt : 65536 < 2 ^ d := lt_of_lt_of_le (by norm_num : 65536 < 2 ^ 17) (Nat.pow_le_pow_right (by omega) hd)
  refine ⟨hlt, ?_⟩
  have h8 : d > 8 := by omega
  unfold xyz2key64
  simp only [h8, if_true]
  have e255 : (255 : Nat) = (1 <<< 8) - 1 := by decide
  have hm : (1 <<< (d - 8)) - 1 < 2 ^ 63 := by
    rw [Nat.one_shiftLeft]
    have : 2 ^ (d - 8) ≤ 2 ^ 63 := Nat.pow_le_pow_right (by omega) (by omega)
    omega
  rw [e255, toI64_ok _ (mask_lt 8 (by omega)), toI64_ok _ hm]
  simp only [bind, Except.bind, pure, Except.pure]
  rw [lutAt_EX _ _ (by omega), lutAt_EY _ _ (by omega), lutAt_EZ _ _ (by omega)]
  have h256 : ((BitVec.ofNat 64 65536 : I64).sshiftRight 8 &&& BitVec.ofNat 64 ((1 <<< (d - 8)) - 1))
      = 256#64 := by
    have e : (BitVec.ofNat 64 65536 : I64).sshiftRight 8 = 256#64 := by decide
    rw [e]
    apply BitVec.eq_of_getLsbD_eq
    intro j hj
    have e8 : (256#64) = 1#64 <<< 8 := by decide
    rw [BitVec.getLsbD_and, getLsbD_mask _ _ (by omega), e8, getLsbD_one_shl]
    by_cases h : j = 8
    · have : j < d - 8 := by omega
      simp [this]
    · simp [h]
  rw [h256]
  have : lutAt EX (256#64) = .error .index := by
    have hl : EX.length = 256 := by simp [EX]
    unfold lutAt getIdx normIdx
    rw [hl]
    have : (256#64 : I64).toInt = 256 := by decide
    rw [this]
    rfl
  rw [this]

/-- **C06** For every depth above 16 the in-range coordinate 65536 makes `xyz2key` raise: an index
error up to depth 71, where the mask stops to fit an int64. -/
theorem C06_depth_limit (d : Nat) (hd : 17 ≤ d) (y z : I64) (b : Option I64) :
    65536 < 2 ^ d ∧ ∃ e, xyz2key64 (BitVec.ofNat 64 65536) y z b d = .error e ∧
      (d ≤ 71 → e = .index) := by
  have hlt : 65536 < 2 ^ d := lt_of_lt_of_le (by norm_num : 65536 < 2 ^ 17) (Nat.pow_le_pow_right (by omega) hd)
  refine ⟨hlt, ?_⟩
  by_cases h : d ≤ 71
  · exact ⟨_, (depth_limit_aux d hd h y z b).2, fun _ => rfl⟩
  · refine ⟨.value, ?_, fun h' => absurd h' h⟩
    have h8 : d > 8 := by omega
    have e255 : (255 : Nat) = (1 <<< 8) - 1 := by decide
    have hm : toI64 ((1 <<< (d - 8)) - 1) = .error .value := by
      have : 2 ^ 64 ≤ 2 ^ (d - 8) := Nat.pow_le_pow_right (by omega) (by omega)
      unfold toI64
      rw [Nat.one_shiftLeft, if_neg (by omega)]
    unfold xyz2key64
    simp only [h8, if_true]
    rw [e255, toI64_ok _ (mask_lt 8 (by omega)), hm]
    simp only [bind, Except.bind, pure, Except.pure]
    rw [lutAt_EX _ _ (by omega), lutAt_EY _ _ (by omega), lutAt_EZ _ _ (by omega)]

end Ocnn
