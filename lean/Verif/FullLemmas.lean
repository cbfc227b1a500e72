import Verif.Layers

/-! Dense layers: `octree_grow_full`, `init_octree`, first branch of `construct_neigh`. -/

set_option linter.unusedSimpArgs false

namespace Ocnn
open Spec

theorem maskSel_all_true {α : Type _} (m : List Bool) (xs : List α) (h : ∀ b ∈ m, b = true)
    (hl : m.length = xs.length) : maskSel m xs = xs := by
  have : m = List.replicate xs.length true := by
    rw [← hl]; exact List.eq_replicate_of_mem h
  rw [this, maskSel_replicate_true]

theorem full_mem (B : Nat) (masks : Nat → List Bool) (d : Nat)
    (hfull : ∀ i < d, ∀ b ∈ masks i, b = true)
    (hlen : ∀ i < d, (masks i).length = (layerCells B masks i).length) (c : Cell) :
    c ∈ layerCells B masks d ↔ c.InRange B d := by
  refine ⟨layer_inRange B masks d c, ?_⟩
  induction d generalizing c with
  | zero =>
    rintro ⟨h0, h1, h2, h3⟩
    simp only [layerCells, List.mem_map, List.mem_range]
    refine ⟨c.b, h0, ?_⟩
    cases c
    simp at *
    omega
  | succ d ih =>
    intro hc
    rw [mem_layer_succ, maskSel_all_true _ _ (hfull d (by omega)) (hlen d (by omega))]
    exact ih (fun i hi => hfull i (by omega)) (fun i hi => hlen i (by omega)) _ (Cell.parent_inRange hc)

/-- the keys of a dense layer -/
def fullKeys (B d : Nat) : List Nat := expand (8 ^ d) (fun b m => b * 2 ^ 48 + m) (List.range B)

theorem pow8_le (d : Nat) (hd : d ≤ 16) : (8 : Nat) ^ d ≤ 2 ^ 48 := by
  have h8 : (8 : Nat) ^ d ≤ 8 ^ 16 := Nat.pow_le_pow_right (by omega) hd
  norm_num at h8 ⊢
  omega

theorem fullKeys_sorted (B d : Nat) (hd : d ≤ 16) : (fullKeys B d).Pairwise (· < ·) := by
  have h8 := pow8_le d hd
  unfold fullKeys expand
  rw [List.pairwise_flatMap]
  constructor
  · intro b _
    rw [List.pairwise_map]
    apply List.pairwise_lt_range.imp
    intro i j hij; simp only; omega
  · apply List.pairwise_lt_range.imp
    intro b b' hbb k hk k' hk'
    simp only [List.mem_map, List.mem_range] at hk hk'
    obtain ⟨m, hm, rfl⟩ := hk
    obtain ⟨m', hm', rfl⟩ := hk'
    omega

theorem mem_fullKeys (B d k : Nat) (hd : d ≤ 16) :
    k ∈ fullKeys B d ↔ k / 2 ^ 48 < B ∧ k % 2 ^ 48 < 8 ^ d := by
  have h8 := pow8_le d hd
  simp only [fullKeys, mem_expand, List.mem_range]
  constructor
  · rintro ⟨b, hb, m, hm, rfl⟩
    have e1 : (b * 2 ^ 48 + m) / 2 ^ 48 = b := by omega
    have e2 : (b * 2 ^ 48 + m) % 2 ^ 48 = m := by omega
    rw [e1, e2]
    exact ⟨hb, hm⟩
  · rintro ⟨hb, hm⟩
    exact ⟨_, hb, _, hm, by omega⟩

theorem layer_full_keys (B : Nat) (masks : Nat → List Bool) (d : Nat) (hd : d ≤ 16)
    (hfull : ∀ i < d, ∀ b ∈ masks i, b = true)
    (hlen : ∀ i < d, (masks i).length = (layerCells B masks i).length) :
    (layerCells B masks d).map (Cell.key d) = fullKeys B d := by
  apply sorted_ext (layer_keys_sorted B masks d hd) (fullKeys_sorted B d hd)
  intro k
  rw [mem_fullKeys B d k hd, List.mem_map]
  constructor
  · rintro ⟨c, hc, rfl⟩
    have hr := layer_inRange B masks d c hc
    rw [Cell.key_div d c hd, Cell.key_mod d c hd]
    exact ⟨hr.1, morton_lt _ _ _ _⟩
  · rintro ⟨hb, hm⟩
    obtain ⟨c, hc, e⟩ := Cell.exists_of_key hb hm
    exact ⟨c, (full_mem B masks d hfull hlen c).mpr hc, e⟩

theorem or_shl48 (k b d : Nat) (hk : k < 8 ^ d) (hd : d ≤ 16) : k ||| (b <<< 48) = b * 2 ^ 48 + k := by
  have h8 := pow8_le d hd
  rw [Nat.shiftLeft_eq, Nat.or_comm, Nat.mul_comm]
  exact (Nat.two_pow_add_eq_or_of_lt (by omega) b).symm

theorem pow8 (d : Nat) : 1 <<< (3 * d) = 8 ^ d := by
  rw [Nat.one_shiftLeft, Nat.pow_mul]

theorem growFull_keys (B d : Nat) (hd : d ≤ 16) :
    ((List.range B).flatMap fun b => (List.range (1 <<< (3 * d))).map fun k => k ||| (b <<< 48))
      = fullKeys B d := by
  rw [pow8]
  unfold fullKeys expand
  congr 1
  funext b
  apply List.map_congr_left
  intro k hk
  exact or_shl48 k b d (by simpa using hk) hd

@[simp] theorem fullKeys_length (B d : Nat) : (fullKeys B d).length = 8 ^ d * B := by
  simp [fullKeys]

/-- all-true masks -/
def fullMasks (B : Nat) : Nat → List Bool := fun d => List.replicate (8 ^ d * B) true

theorem fullMasks_true (B : Nat) : ∀ i, ∀ b ∈ fullMasks B i, b = true := by
  intro i b hb
  exact List.eq_of_mem_replicate hb

theorem fullMasks_len (B d : Nat) :
    (fullMasks B d).length = (layerCells B (fullMasks B) d).length := by
  induction d with
  | zero => simp [fullMasks, layerCells]
  | succ d ih =>
    have : maskSel (fullMasks B d) (layerCells B (fullMasks B) d) = layerCells B (fullMasks B) d :=
      maskSel_all_true _ _ (fullMasks_true B d) ih
    simp only [layerCells, this, expand_length, ← ih]
    simp [fullMasks, pow_succ]; ring

theorem layer_fullMasks_keys (B d : Nat) (hd : d ≤ 16) :
    (layerCells B (fullMasks B) d).map (Cell.key d) = fullKeys B d :=
  layer_full_keys B _ d hd (fun i _ => fullMasks_true B i) (fun i _ => fullMasks_len B i)

/-! ### the neighbour table of a dense layer -/

theorem rangeGrid27 : (rangeGrid (-1) 1) = (List.range 27).map disp := by decide

/-- value of an `ok` -/
def getOk {α β : Type} [Inhabited β] (f : α → M β) (a : α) : β :=
  match f a with
  | .ok b => b
  | .error _ => default

theorem mapM_getOk {α β : Type} [Inhabited β] (f : α → M β) (l : List α)
    (h : ∀ a ∈ l, ∃ b, f a = .ok b) : l.mapM f = .ok (l.map (getOk f)) := by
  apply mapM_ok
  intro a ha
  obtain ⟨b, hb⟩ := h a ha
  simp [getOk, hb]

/-- the in-range displaced key -/
def shiftKey (d : Nat) (c : Cell) (g : Int × Int × Int) : Option Nat :=
  let x := (c.x : Int) + g.1
  let y := (c.y : Int) + g.2.1
  let z := (c.z : Int) + g.2.2
  if x < 0 ∨ y < 0 ∨ z < 0 ∨ x ≥ 2 ^ d ∨ y ≥ 2 ^ d ∨ z ≥ 2 ^ d then none
  else some (morton d x.toNat y.toNat z.toNat)

theorem fullRow_ok (d : Nat) (c : Cell) (hd : d ≤ 16) (hc : c.InRange 1 d) :
    Octree.fullRow d (c.key d) = .ok ((List.range 27).map fun k => shiftKey d c (disp k)) := by
  unfold Octree.fullRow
  rw [key2xyz_cell hd (by norm_num) hc]
  simp only [bind, Except.bind]
  rw [rangeGrid27]
  have := mapM_ok (fun (g : Int × Int × Int) => (do
      let n ← xyz2key ((c.x : Int) + g.1) ((c.y : Int) + g.2.1) ((c.z : Int) + g.2.2) none d
      let bound : Int := ((1 <<< d : Nat) : Int)
      if (c.x : Int) + g.1 < 0 ∨ (c.y : Int) + g.2.1 < 0 ∨ (c.z : Int) + g.2.2 < 0 ∨
        (c.x : Int) + g.1 ≥ bound ∨ (c.y : Int) + g.2.1 ≥ bound ∨ (c.z : Int) + g.2.2 ≥ bound
      then pure none else pure (some n) : M (Option Nat))) (shiftKey d c) ((List.range 27).map disp) (by
    intro g _
    rw [xyz2key_none _ _ _ _ hd]
    simp only [bind, Except.bind, pure, Except.pure, Nat.one_shiftLeft]
    push_cast
    unfold shiftKey
    simp only
    split
    · rfl
    · rename_i h
      have e : ∀ a : Int, 0 ≤ a → a < 2 ^ d → (a % 2 ^ d).toNat = a.toNat := by
        intro a h0 h1; rw [Int.emod_eq_of_lt h0 h1]
      simp only [not_or, not_lt, ge_iff_le, not_le] at h
      obtain ⟨h1, h2, h3, h4, h5, h6⟩ := h
      simp only [Cell.key, Nat.zero_mul, Nat.zero_add]
      rw [e _ h1 h4, e _ h2 h5, e _ h3 h6])
  simp only [bind, Except.bind] at this
  rw [this, List.map_map]
  rfl

/-- the neighbour table of a dense layer -/
def fullNeigh (B d : Nat) : List (List Int) :=
  expand (8 ^ d) (fun b m => (getOk (Octree.fullRow d) m).map fun v => match v with
        | some n => ((n + b * 8 ^ d : Nat) : Int)
        | none => -1) (List.range B)

theorem fullRow_exists (d m : Nat) (hd : d ≤ 16) (hm : m < 8 ^ d) :
    ∃ c : Cell, c.InRange 1 d ∧ c.key d = m ∧ c.b = 0 ∧ 
      Octree.fullRow d m = .ok ((List.range 27).map fun k => shiftKey d c (disp k)) := by
  have h8 := pow8_le d hd
  obtain ⟨c, hc, e⟩ := Cell.exists_of_key (B := 1) (d := d) (k := m) (by omega)
    (by rw [Nat.mod_eq_of_lt (by omega)]; exact hm)
  refine ⟨c, hc, e, ?_, ?_⟩
  · have := hc.1; omega
  · rw [← e]; exact fullRow_ok d c hd hc

theorem constructNeigh_full {F : Type} (o : Octree F) (d : Nat) (hd : d ≤ o.fullDepth)
    (hd' : d ≤ o.depth) (h16 : d ≤ 16) :
    o.constructNeigh d = .ok { o with neighs := upd o.neighs d (some (fullNeigh o.batchSize d)) } := by
  unfold Octree.constructNeigh
  simp only [hd, if_true]
  rw [mapM_getOk _ _ (by
    intro m hm
    rw [pow8] at hm
    obtain ⟨c, _, _, _, h⟩ := fullRow_exists d m h16 (by simpa using hm)
    exact ⟨_, h⟩)]
  simp only [bind, Except.bind, pure, Except.pure, Octree.chk, hd', if_true, pow8]
  congr 2
  simp only [fullNeigh, expand, List.map_map]
  rfl

theorem expand_getElem?_div {α β : Type _} (n : Nat) (hn : 0 < n) (f : α → Nat → β) (l : List α) (i : Nat) :
    (expand n f l)[i]? = l[i / n]?.map fun a => f a (i % n) := by
  have := expand_getElem? n f l (i / n) (i % n) (Nat.mod_lt _ hn)
  rwa [Nat.div_add_mod] at this

theorem neighTable_full (B d : Nat) (masks : Nat → List Bool) (hd : d ≤ 16) (hB : B ≤ 2 ^ 15)
    (hfull : ∀ i < d, ∀ b ∈ masks i, b = true)
    (hlen : ∀ i < d, (masks i).length = (layerCells B masks i).length) :
    NeighTable (layerCells B masks d) (fullNeigh B d) := by
  have hkeys := layer_full_keys B masks d hd hfull hlen
  have hlenk : (layerCells B masks d).length = 8 ^ d * B := by
    have := congrArg List.length hkeys
    simpa using this
  have hpos : 0 < 8 ^ d := by positivity
  have h8 := pow8_le d hd
  -- the cell at a position
  have hcell : ∀ (i : Nat) (c : Cell), (layerCells B masks d)[i]? = some c →
      i / 8 ^ d < B ∧ c.key d = (i / 8 ^ d) * 2 ^ 48 + i % 8 ^ d ∧ c.InRange B d := by
    intro i c hc
    have h1 : ((layerCells B masks d).map (Cell.key d))[i]? = some (c.key d) := by simp [hc]
    rw [hkeys, fullKeys, expand_getElem?_div _ hpos] at h1
    have hi : i / 8 ^ d < B := by
      by_contra hcon
      rw [List.getElem?_eq_none (by simpa using hcon)] at h1
      simp at h1
    rw [List.getElem?_range hi] at h1
    simp at h1
    exact ⟨hi, by rw [← h1]; norm_num, layer_inRange B masks d c (List.mem_of_getElem? hc)⟩
  refine ⟨by simp [fullNeigh, hlenk], ?_⟩
  intro i c row hc hrow
  obtain ⟨hi, hkey, hr⟩ := hcell i c hc
  rw [fullNeigh, expand_getElem?_div _ hpos, List.getElem?_range hi] at hrow
  obtain ⟨c0, hc0, ek, eb, hfr⟩ := fullRow_exists d (i % 8 ^ d) hd (Nat.mod_lt _ hpos)
  have hcb : c.b = i / 8 ^ d := by
    have := Cell.key_div d c hd
    rw [hkey] at this
    have hlt : i % 8 ^ d < 8 ^ d := Nat.mod_lt _ hpos
    omega
  have hcm : morton d c.x c.y c.z = i % 8 ^ d := by
    have := Cell.key_mod d c hd
    rw [hkey] at this
    have hlt : i % 8 ^ d < 8 ^ d := Nat.mod_lt _ hpos
    omega
  have hcm0 : morton d c0.x c0.y c0.z = i % 8 ^ d := by
    rw [← ek]; simp [Cell.key, eb]
  obtain ⟨ex, ey, ez⟩ := morton_injective hr.2.1 hr.2.2.1 hr.2.2.2 hc0.2.1 hc0.2.2.1 hc0.2.2.2
    (hcm.trans hcm0.symm)
  simp only [Option.map_some, getOk, hfr, Option.some.injEq] at hrow
  subst hrow
  refine ⟨by simp, ?_⟩
  intro k v hv
  simp only [List.map_map, List.getElem?_map, Option.map_eq_some_iff] at hv
  obtain ⟨k', hk', hv⟩ := hv
  have hk27 : k < 27 := by
    by_contra hcon
    rw [List.getElem?_eq_none (by simpa using hcon)] at hk'
    simp at hk'
  rw [List.getElem?_range hk27] at hk'
  simp only [Option.some.injEq] at hk'
  subst hk'
  simp only [Function.comp, shiftKey, ← ex, ← ey, ← ez] at hv
  split at hv
  · rename_i hinv
    split at hinv
    · simp at hinv
    · rename_i hbound
      simp only [Option.some.injEq] at hinv
      simp only [not_or, not_lt, ge_iff_le, not_le] at hbound
      obtain ⟨h1, h2, h3, h4, h5, h6⟩ := hbound
      left
      rename_i n
      have hn : n < 8 ^ d := by rw [← hinv]; exact morton_lt _ _ _ _
      refine ⟨n + i / 8 ^ d * 8 ^ d, ⟨c.b, ((c.x : Int) + (disp k).1).toNat,
        ((c.y : Int) + (disp k).2.1).toNat, ((c.z : Int) + (disp k).2.2).toNat⟩, hv.symm, ?_, ?_⟩
      · have hlt : n + i / 8 ^ d * 8 ^ d < (layerCells B masks d).length := by
          rw [hlenk]
          calc n + i / 8 ^ d * 8 ^ d < 8 ^ d + i / 8 ^ d * 8 ^ d := by omega
            _ = (i / 8 ^ d + 1) * 8 ^ d := by ring
            _ ≤ B * 8 ^ d := Nat.mul_le_mul_right _ hi
            _ = 8 ^ d * B := by ring
        obtain ⟨c2, hc2⟩ : ∃ c2, (layerCells B masks d)[n + i / 8 ^ d * 8 ^ d]? = some c2 :=
          ⟨_, List.getElem?_eq_getElem hlt⟩
        rw [hc2]
        obtain ⟨_, hk2, hr2⟩ := hcell _ c2 hc2
        have e1 : (n + i / 8 ^ d * 8 ^ d) / 8 ^ d = i / 8 ^ d := by
          rw [Nat.add_mul_div_right _ _ hpos, Nat.div_eq_of_lt hn, Nat.zero_add]
        have e2 : (n + i / 8 ^ d * 8 ^ d) % 8 ^ d = n := by
          rw [Nat.add_mul_mod_self_right, Nat.mod_eq_of_lt hn]
        rw [e1, e2] at hk2
        congr 1
        apply Cell.key_injective hd hr2
        · refine ⟨hr.1, ?_, ?_, ?_⟩ <;> simp only <;> zify <;> omega
        · rw [hk2]; simp only [Cell.key, hinv, hcb]
      · refine ⟨rfl, ?_, ?_, ?_⟩ <;> simp only <;> omega
  · rename_i hinv
    right
    refine ⟨hv.symm, ?_⟩
    split at hinv
    · rename_i hbound
      intro c' hc' hs
      have hr' := layer_inRange B masks d c' hc'
      obtain ⟨_, sx, sy, sz⟩ := hs
      obtain ⟨_, q1, q2, q3⟩ := hr'
      zify at q1 q2 q3
      rw [← sx, ← sy, ← sz] at hbound
      omega
    · simp at hinv

end Ocnn
