import Verif.Octree
import Verif.KeyMain
import Verif.ListLemmas
import Verif.PropsKey

/-! The internal representation of octree layers: the list of cells of a layer is determined by the masks
of non-empty nodes of the coarser layers. -/

set_option linter.unusedSimpArgs false

namespace Ocnn
open Spec

/-- cells of layer `d` -/
def layerCells (B : Nat) (masks : Nat → List Bool) : Nat → List Cell
  | 0 => (List.range B).map fun b => ⟨b, 0, 0, 0⟩
  | d + 1 => expand 8 Cell.child (maskSel (masks d) (layerCells B masks d))

theorem layer_inRange (B : Nat) (masks : Nat → List Bool) (d : Nat) :
    ∀ c ∈ layerCells B masks d, c.InRange B d := by
  induction d with
  | zero =>
    intro c hc
    simp only [layerCells, List.mem_map, List.mem_range] at hc
    obtain ⟨b, hb, rfl⟩ := hc
    exact ⟨hb, by simp, by simp, by simp⟩
  | succ d ih =>
    intro c hc
    simp only [layerCells, mem_expand] at hc
    obtain ⟨p, hp, o, ho, rfl⟩ := hc
    exact Cell.child_inRange (ih p ((maskSel_sublist _ _).subset hp)) o

theorem mem_layer_succ (B : Nat) (masks : Nat → List Bool) (d : Nat) (c : Cell) :
    c ∈ layerCells B masks (d + 1) ↔ c.parent ∈ maskSel (masks d) (layerCells B masks d) := by
  simp only [layerCells, mem_expand]
  constructor
  · rintro ⟨p, hp, o, ho, rfl⟩
    rwa [Cell.child_parent]
  · intro h
    exact ⟨c.parent, h, c.octant, c.octant_lt, c.parent_child⟩

theorem key_lt_of_parent_lt (d : Nat) (hd : d + 1 ≤ 16) (a b : Cell) (o o' : Nat) (ho : o < 8) (ho' : o' < 8)
    (h : a.key d < b.key d) : (a.child o).key (d + 1) < (b.child o').key (d + 1) := by
  rw [Cell.child_key _ _ _ ho, Cell.child_key _ _ _ ho']
  have ha := morton_lt d a.x a.y a.z
  have hb := morton_lt d b.x b.y b.z
  have h8 : (8 : Nat) ^ d ≤ 8 ^ 15 := Nat.pow_le_pow_right (by omega) (by omega)
  norm_num at h8
  unfold Cell.key at h
  omega

theorem expand_sorted (d : Nat) (hd : d + 1 ≤ 16) (l : List Cell)
    (h : l.Pairwise fun a b => a.key d < b.key d) :
    (expand 8 Cell.child l).Pairwise fun a b => a.key (d + 1) < b.key (d + 1) := by
  unfold expand
  rw [List.pairwise_flatMap]
  constructor
  · intro a _
    rw [List.pairwise_map]
    apply List.pairwise_lt_range.imp_of_mem
    intro i j hi hj hij
    rw [Cell.child_key _ _ _ (by simpa using hi), Cell.child_key _ _ _ (by simpa using hj)]
    omega
  · apply h.imp
    intro a b hab c hc c' hc'
    simp only [List.mem_map, List.mem_range] at hc hc'
    obtain ⟨o, ho, rfl⟩ := hc
    obtain ⟨o', ho', rfl⟩ := hc'
    exact key_lt_of_parent_lt d hd a b o o' ho ho' hab

theorem layer_sorted (B : Nat) (masks : Nat → List Bool) (d : Nat) (hd : d ≤ 16) :
    (layerCells B masks d).Pairwise fun a b => a.key d < b.key d := by
  induction d with
  | zero =>
    simp only [layerCells, List.pairwise_map]
    apply List.pairwise_lt_range.imp
    intro i j hij
    simp only [Cell.key, morton]
    omega
  | succ d ih =>
    exact expand_sorted d hd _ ((ih (by omega)).sublist (maskSel_sublist _ _))

theorem layer_keys_sorted (B : Nat) (masks : Nat → List Bool) (d : Nat) (hd : d ≤ 16) :
    ((layerCells B masks d).map (Cell.key d)).Pairwise (· < ·) := by
  rw [List.pairwise_map]
  exact layer_sorted B masks d hd

theorem layer_nodup (B : Nat) (masks : Nat → List Bool) (d : Nat) (hd : d ≤ 16) :
    (layerCells B masks d).Nodup := by
  apply (layer_sorted B masks d hd).imp
  intro a b h e
  subst e
  exact absurd h (lt_irrefl _)

theorem layer_getElem?_succ (B : Nat) (masks : Nat → List Bool) (d r o : Nat) (ho : o < 8) :
    (layerCells B masks (d + 1))[8 * r + o]? =
      (maskSel (masks d) (layerCells B masks d))[r]?.map fun c => c.child o := by
  rw [layerCells, expand_getElem? _ _ _ _ _ ho]

theorem layerCells_congr (B : Nat) (masks masks' : Nat → List Bool) (d : Nat)
    (h : ∀ i < d, masks i = masks' i) : layerCells B masks d = layerCells B masks' d := by
  induction d with
  | zero => rfl
  | succ d ih =>
    simp only [layerCells]
    rw [ih (fun i hi => h i (by omega)), h d (by omega)]

/-- the octree is in layered form up to layer `h` -/
structure WF {F : Type} (o : Octree F) (h : Nat) (masks : Nat → List Bool) : Prop where
  depth_le : o.depth ≤ 16
  h_le : h ≤ o.depth
  full_le : o.fullDepth ≤ h
  batch_le : o.batchSize ≤ 2 ^ 15
  len : ∀ d ≤ h, (masks d).length = (layerCells o.batchSize masks d).length
  full : ∀ d < o.fullDepth, ∀ b ∈ masks d, b = true
  keys : ∀ d ≤ h, o.keys d = some ((layerCells o.batchSize masks d).map (Cell.key d))
  children : ∀ d ≤ h, o.children d = some (number 0 (masks d))
  nnum : ∀ d ≤ h, o.nnum d = (layerCells o.batchSize masks d).length
  nnumNempty : ∀ d ≤ h, o.nnumNempty d = (masks d).count true

/-! key functions on cells -/

theorem ofInt_toNat_mod (x : Int) (d : Nat) (hd : d ≤ 64) :
    (BitVec.ofInt 64 x).toNat % 2 ^ d = (x % (2 ^ d : Int)).toNat := by
  have h1 : (BitVec.ofInt 64 x).toNat = (x % (2 ^ 64 : Int)).toNat := by
    simp [BitVec.toNat_ofInt]
  have h0 : 0 ≤ x % (2 ^ 64 : Int) := Int.emod_nonneg _ (by norm_num)
  have h2 : (((x % (2 ^ 64 : Int)).toNat % 2 ^ d : Nat) : Int) = x % (2 ^ d : Int) := by
    rw [Int.natCast_emod, Int.toNat_of_nonneg h0]
    push_cast
    apply Int.emod_emod_of_dvd
    exact pow_dvd_pow 2 hd
  rw [h1, ← h2, Int.toNat_natCast]

theorem xyz2key_none (x y z : Int) (d : Nat) (hd : d ≤ 16) :
    xyz2key x y z none d = .ok (Cell.key d ⟨0, (x % 2 ^ d).toNat, (y % 2 ^ d).toNat, (z % 2 ^ d).toNat⟩) := by
  obtain ⟨k, hk, e⟩ := xyz2key64_toNat (BitVec.ofInt 64 x) (BitVec.ofInt 64 y) (BitVec.ofInt 64 z) none d hd
  unfold xyz2key
  simp only [Option.map_none, hk, bind, Except.bind]
  rw [← morton_mod, ofInt_toNat_mod _ _ (by omega), ofInt_toNat_mod _ _ (by omega),
    ofInt_toNat_mod _ _ (by omega)] at e
  have hm := morton_lt d (x % 2 ^ d).toNat (y % 2 ^ d).toNat (z % 2 ^ d).toNat
  have h8 : (8 : Nat) ^ d ≤ 8 ^ 16 := Nat.pow_le_pow_right (by omega) hd
  norm_num at h8
  simp only [Option.getD_none, BitVec.toNat_ofNat, Nat.zero_mod, Nat.zero_mul, Nat.zero_add] at e
  have hmsb : k.msb = false := by
    rw [BitVec.msb_eq_decide, decide_eq_false_iff_not]
    have : (2:Nat) ^ (64 - 1) = 9223372036854775808 := by norm_num
    omega
  simp [keyOf, hmsb, e, Cell.key]

theorem xyz2key_some (x y z : Int) (b : Nat) (d : Nat) (hd : d ≤ 16) (hb : b < 2 ^ 15) :
    xyz2key x y z (some (b : Int)) d
      = .ok (Cell.key d ⟨b, (x % 2 ^ d).toNat, (y % 2 ^ d).toNat, (z % 2 ^ d).toNat⟩) := by
  obtain ⟨k, hk, e⟩ := xyz2key64_toNat (BitVec.ofInt 64 x) (BitVec.ofInt 64 y) (BitVec.ofInt 64 z)
    (some (BitVec.ofInt 64 b)) d hd
  unfold xyz2key
  simp only [Option.map_some, hk, bind, Except.bind]
  rw [← morton_mod, ofInt_toNat_mod _ _ (by omega), ofInt_toNat_mod _ _ (by omega),
    ofInt_toNat_mod _ _ (by omega)] at e
  have hm := morton_lt d (x % 2 ^ d).toNat (y % 2 ^ d).toNat (z % 2 ^ d).toNat
  have h8 : (8 : Nat) ^ d ≤ 8 ^ 16 := Nat.pow_le_pow_right (by omega) hd
  norm_num at h8
  simp only [Option.getD_some] at e
  rw [ofInt_toNat_mod _ _ (by omega)] at e
  have hbb : ((b : Int) % 2 ^ 16).toNat = b := by omega
  rw [hbb] at e
  have hmsb : k.msb = false := by
    rw [BitVec.msb_eq_decide, decide_eq_false_iff_not]
    have : (2:Nat) ^ (64 - 1) = 9223372036854775808 := by norm_num
    omega
  simp [keyOf, hmsb, e, Cell.key]

theorem key2xyz_cell {B d : Nat} {c : Cell} (hd : d ≤ 16) (hB : B ≤ 2 ^ 15) (hc : c.InRange B d) :
    key2xyz (c.key d) d = .ok ((c.x : Int), (c.y : Int), (c.z : Int), (c.b : Int)) := by
  obtain ⟨h0, h1, h2, h3⟩ := hc
  have hm := morton_lt d c.x c.y c.z
  have h8 : (8 : Nat) ^ d ≤ 8 ^ 16 := Nat.pow_le_pow_right (by omega) hd
  norm_num at h8
  have h16 : 2 ^ d ≤ 2 ^ 16 := Nat.pow_le_pow_right (by omega) hd
  have hk : (BitVec.ofNat 64 (c.key d)).toNat = c.b * 2 ^ 48 + morton d c.x c.y c.z := by
    rw [BitVec.toNat_ofNat, Nat.mod_eq_of_lt]
    · rfl
    · unfold Cell.key; omega
  unfold key2xyz
  rw [key2xyz64_toNat _ d c.x c.y c.z c.b hd (by omega) h1 h2 h3 hk]
  have ti : ∀ n : Nat, n < 2 ^ 63 → (BitVec.ofNat 64 n).toInt = n := by
    intro n hn
    rw [BitVec.toInt_eq_toNat_cond, BitVec.toNat_ofNat, Nat.mod_eq_of_lt (by omega), if_pos (by omega)]
  simp only [bind, Except.bind, pure, Except.pure]
  rw [ti _ (by omega), ti _ (by omega), ti _ (by omega), ti _ (by omega)]

end Ocnn
