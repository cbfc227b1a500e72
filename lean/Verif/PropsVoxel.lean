import Verif.PropsPoolAvg

/-! Properties C48 (voxels), C49 (alignment), C57 (drop path). -/

set_option linter.unusedSimpArgs false

namespace Ocnn
open Spec

variable {F V : Type}

theorem voxel_pos_lt {n B b x y z : Nat} (hb : b < B) (hx : x < n) (hy : y < n) (hz : z < n) :
    ((b * n + x) * n + y) * n + z < B * n * n * n := by
  have h1 : b * n + x < B * n := by
    calc b * n + x < b * n + n := by omega
      _ = (b + 1) * n := by ring
      _ ≤ B * n := Nat.mul_le_mul_right _ hb
  have h2 : (b * n + x) * n + y < B * n * n := by
    calc (b * n + x) * n + y < (b * n + x) * n + n := by omega
      _ = (b * n + x + 1) * n := by ring
      _ ≤ B * n * n := Nat.mul_le_mul_right _ h1
  calc ((b * n + x) * n + y) * n + z < ((b * n + x) * n + y) * n + n := by omega
    _ = ((b * n + x) * n + y + 1) * n := by ring
    _ ≤ B * n * n * n := Nat.mul_le_mul_right _ h2

theorem digit_inj {n a b x y : Nat} (hx : x < n) (hy : y < n) (h : a * n + x = b * n + y) : a = b ∧ x = y := by
  have h1 : (a * n + x) / n = a := by
    rw [Nat.mul_comm, Nat.mul_add_div (by omega), Nat.div_eq_of_lt hx, Nat.add_zero]
  have h2 : (b * n + y) / n = b := by
    rw [Nat.mul_comm, Nat.mul_add_div (by omega), Nat.div_eq_of_lt hy, Nat.add_zero]
  have : a = b := by rw [← h1, h, h2]
  subst this
  exact ⟨rfl, by omega⟩

/-- **C48.** `octree2voxel`: the voxel `(b, x, y, z)` (in row-major order) holds the value of the feature field,
which is the feature of the node with these coordinates, or 0. -/
theorem C48_voxel [Zero V] (o : Octree F) (h : Nat) (w : o.Valid h) (d : Nat) (hd : d ≤ h) (nempty : Bool) (cells : List Cell)
    (ch : List Int) (hc : CellsOf o.batchSize d o.keys cells) (hch : o.children d = some ch) (x : List V)
    (f : Nat → Int → Int → Int → V) (hf : IsField (queried nempty cells ch) x f) :
    ∃ vox, octree2voxel x o d nempty = .ok vox ∧ vox.length = o.batchSize * 2 ^ d * 2 ^ d * 2 ^ d ∧
      ∀ b < o.batchSize, ∀ i < 2 ^ d, ∀ j < 2 ^ d, ∀ k < 2 ^ d, vox[((b * 2 ^ d + i) * 2 ^ d + j) * 2 ^ d + k]? = some (f b i j k) := by
  obtain ⟨hr, hxyz, -, -, -⟩ := C27_xyzb o h w d hd cells hc ch hch nempty
  have W := w.wf'
  have h16 := w.depth_le
  have hh := w.h_le
  have hnd : (queried nempty cells ch).Nodup := by
    have e := cells_unique (by omega) hc (W.cellsOf d hd)
    subst e
    rw [W.children d hd] at hch; cases hch
    exact queried_nodup W d hd nempty
  revert hr hxyz hf hnd
  generalize queried nempty cells ch = Q
  intro hf hr hxyz hnd
  obtain ⟨hl, hf1, hf2⟩ := hf
  have hsh : 1 <<< d = 2 ^ d := by rw [Nat.shiftLeft_eq, Nat.one_mul]
  have hidx : (Q.map fun c => ((c.x : Int), (c.y : Int), (c.z : Int), (c.b : Int))).mapM (fun (x, y, z, b) => do
      let b ← normIdx o.batchSize b
      let x ← normIdx (2 ^ d) x
      let y ← normIdx (2 ^ d) y
      let z ← normIdx (2 ^ d) z
      pure (((((b * 2 ^ d + x) * 2 ^ d + y) * 2 ^ d + z : Nat)) : Int))
      = .ok ((Q.map fun c => ((c.b * 2 ^ d + c.x) * 2 ^ d + c.y) * 2 ^ d + c.z).map Int.ofNat) := by
    rw [List.mapM_map, List.map_map]
    apply mapM_ok
    intro c hc
    obtain ⟨r1, r2, r3, r4⟩ := hr c hc
    simp only [Function.comp, normIdx_ok _ _ r1, normIdx_ok _ _ r2, normIdx_ok _ _ r3, normIdx_ok _ _ r4, bind, Except.bind, pure,
      Except.pure, Int.ofNat_eq_natCast]
  have hlt : ∀ a ∈ Q.map (fun c => ((c.b * 2 ^ d + c.x) * 2 ^ d + c.y) * 2 ^ d + c.z),
      a < (List.replicate (o.batchSize * 2 ^ d * 2 ^ d * 2 ^ d) (0 : V)).length := by
    intro a ha
    obtain ⟨c, hc, rfl⟩ := List.mem_map.1 ha
    obtain ⟨r1, r2, r3, r4⟩ := hr c hc
    rw [List.length_replicate]
    exact voxel_pos_lt r1 r2 r3 r4
  have hinj : ∀ c ∈ Q, ∀ b < o.batchSize, ∀ i < 2 ^ d, ∀ j < 2 ^ d, ∀ k < 2 ^ d,
      ((c.b * 2 ^ d + c.x) * 2 ^ d + c.y) * 2 ^ d + c.z = ((b * 2 ^ d + i) * 2 ^ d + j) * 2 ^ d + k → c = ⟨b, i, j, k⟩ := by
    intro c hc b hb i hi j hj k hk e
    obtain ⟨r1, r2, r3, r4⟩ := hr c hc
    obtain ⟨e1, e2⟩ := digit_inj r4 hk e
    obtain ⟨e3, e4⟩ := digit_inj r3 hj e1
    obtain ⟨e5, e6⟩ := digit_inj r2 hi e3
    cases c
    simp_all
  refine ⟨setMany (List.replicate (o.batchSize * 2 ^ d * 2 ^ d * 2 ^ d) 0) ((Q.map fun c => ((c.b * 2 ^ d + c.x) * 2 ^ d + c.y) * 2 ^ d + c.z).zip x), ?_, ?_, ?_⟩
  · unfold octree2voxel
    simp only [hxyz, bind, Except.bind, hsh]
    simp only [bind, Except.bind] at hidx
    rw [hidx]
    simp only [List.length_map]
    split
    · rw [hl]
      exact idxSet_ok _ _ _ (by simpa using hl) hlt
    · exact idxSet_ok _ _ _ (by simpa using hl) hlt
  · rw [setMany_length, List.length_replicate]
  · intro b hb i hi j hj k hk
    have hp := voxel_pos_lt hb hi hj hk
    by_cases hm : (⟨b, i, j, k⟩ : Cell) ∈ Q
    · obtain ⟨r, hr'⟩ := List.getElem?_of_mem hm
      have hrx : r < x.length := by rw [← hl]; exact (List.getElem?_eq_some_iff.1 hr').1
      have hv := List.getElem?_eq_getElem hrx
      rw [hf1 r _ _ hr' hv]
      apply setMany_mem
      · rw [List.map_fst_zip (by simp [hl])]
        rw [List.nodup_map_iff_inj_on hnd]
        intro a ha a' ha' e
        obtain ⟨r1, r2, r3, r4⟩ := hr a' ha'
        rw [hinj a ha a'.b r1 a'.x r2 a'.y r3 a'.z r4 e]
      · rw [List.mem_iff_getElem?]
        refine ⟨r, ?_⟩
        rw [List.getElem?_zip_eq_some]
        exact ⟨by rw [List.getElem?_map, hr']; rfl, hv⟩
      · rw [List.length_replicate]; exact hp
    · rw [setMany_not_mem]
      · rw [List.getElem?_replicate, if_pos hp, hf2 b i j k]
        rintro c hc ⟨e1, e2, e3, e4⟩
        apply hm
        have : c = ⟨b, i, j, k⟩ := by
          cases c
          simp_all
        rw [← this]; exact hc
      · intro p hp' e
        obtain ⟨hp1, -⟩ := List.of_mem_zip hp'
        obtain ⟨c, hc, hce⟩ := List.mem_map.1 hp1
        apply hm
        rw [← hinj c hc b hb i hi j hj k hk (hce.trans e)]
        exact hc

/-- **C49**, for `search_value` itself: with strictly ascending, non-empty keys and one row per key, every query
gets the row of the equal key, or 0. -/
theorem C49_search_value [Zero V] (x : List V) (K qs : List Nat) (hne : K ≠ []) (hkl : K.length = x.length) (hsort : K.Pairwise (· < ·)) :
    ∃ r, searchValue x K qs = .ok r ∧ r.length = qs.length ∧
      ∀ (i q : Nat) (v : V), qs[i]? = some q → r[i]? = some v → (∃ j : Nat, K[j]? = some q ∧ x[j]? = some v) ∨ (q ∉ K ∧ v = 0) := by
  have hpos : 0 < K.length := List.length_pos_iff.2 hne
  have hlast : ∃ k, getIdx K (-1) = .ok k ∧ K[K.length - 1]? = some k := by
    have hlt : K.length - 1 < K.length := by omega
    refine ⟨K[K.length - 1], ?_, List.getElem?_eq_getElem hlt⟩
    unfold getIdx normIdx
    have e : ((-1 : Int) + K.length).toNat = K.length - 1 := by omega
    rw [if_neg (by omega), if_pos ⟨by omega, by omega⟩]
    simp only [bind, Except.bind, e, List.getElem?_eq_getElem hlt]
  obtain ⟨last, hlast, hlast'⟩ := hlast
  have hlm : last ∈ K := List.mem_of_getElem? hlast'
  unfold searchValue
  simp only [hlast, bind, Except.bind]
  apply mapM_exists _ (fun q v => (∃ j : Nat, K[j]? = some q ∧ x[j]? = some v) ∨ (q ∉ K ∧ v = 0))
  intro q _
  by_cases hm : q ∈ K
  · obtain ⟨i, hi⟩ := List.getElem?_of_mem hm
    have hi' := (List.getElem?_eq_some_iff.1 hi).1
    have hgt : ¬ q > last := by
      intro hlt
      have := (sorted_getElem?_lt hsort hlast' hi).1 hlt
      omega
    have hb : bucketize K q = i := countP_lt_of_sorted hsort hi
    have hix : i < x.length := by omega
    rw [if_neg hgt, hb]
    have g1 : getIdx K (i : Int) = .ok q := by
      rw [getIdx_getD K i (by omega) (by omega) 0]
      simp [hi]
    have g2 : getIdx x (i : Int) = .ok x[i] := by
      rw [getIdx_getD x i (by omega) (by omega) x[i]]
      simp [hix]
    simp only [g1, if_true, g2]
    exact ⟨_, rfl, Or.inl ⟨i, hi, List.getElem?_eq_getElem hix⟩⟩
  · have hany : ∃ k, getIdx K (if q > last then -1 else (bucketize K q : Int)) = .ok k ∧ k ≠ q := by
      by_cases hlt : q > last
      · rw [if_pos hlt]
        exact ⟨last, hlast, by omega⟩
      · rw [if_neg hlt]
        have hbl : bucketize K q < K.length := by
          unfold bucketize
          rw [List.countP_lt_length_iff]
          exact ⟨last, hlm, by simpa using hlt⟩
        refine ⟨K[bucketize K q], ?_, ?_⟩
        · rw [getIdx_getD K _ (by omega) (by omega) 0]
          simp [hbl]
        · intro e
          exact hm (e ▸ List.getElem_mem hbl)
    obtain ⟨k, hk, hkne⟩ := hany
    simp only [hk, hkne, if_false]
    exact ⟨_, rfl, Or.inr ⟨hm, rfl⟩⟩

/-- **C49.** `octree_align`: every node of the second octree gets the feature of the node of the first octree with
the same batch index and coordinates, or 0; the first octree must have a node at this depth. -/
theorem C49_align [Zero V] {G : Type} (o : Octree F) (h : Nat) (w : o.Valid h) (q : Octree G) (h' : Nat) (w' : q.Valid h')
    (d : Nat) (hd : d ≤ h) (hd' : d ≤ h') (nempty : Bool) (cells qcells : List Cell) (ch qch : List Int)
    (hc : CellsOf o.batchSize d o.keys cells) (hch : o.children d = some ch)
    (hqc : CellsOf q.batchSize d q.keys qcells) (hqch : q.children d = some qch)
    (x : List V) (f : Nat → Int → Int → Int → V) (hf : IsField (queried nempty cells ch) x f) (hne : queried nempty cells ch ≠ []) :
    octreeAlign x o q d nempty = .ok ((queried nempty qcells qch).map fun c => f c.b c.x c.y c.z) := by
  obtain ⟨hr, -, hkey, -, -⟩ := C27_xyzb o h w d hd cells hc ch hch nempty
  obtain ⟨hr', -, hkey', -, -⟩ := C27_xyzb q h' w' d hd' qcells hqc qch hqch nempty
  have W := w.wf'
  have h16 := w.depth_le
  have hh := w.h_le
  have hsort : ((queried nempty cells ch).map (Cell.key d)).Pairwise (· < ·) := by
    have e := cells_unique (by omega) hc (W.cellsOf d hd)
    subst e
    rw [W.children d hd] at hch; cases hch
    have hsub := queried_sublist (nempty := nempty) (W.len d hd)
    rw [List.pairwise_map]
    exact (layer_sorted o.batchSize o.masks d (by omega)).sublist hsub
  have hinj : ∀ c ∈ queried nempty qcells qch, ∀ c' ∈ queried nempty cells ch, c'.key d = c.key d → c' = c := by
    intro c hc c' hc' e
    obtain ⟨a1, a2, a3, a4⟩ := hr' c hc
    obtain ⟨b1, b2, b3, b4⟩ := hr c' hc'
    exact Cell.key_injective (B := max o.batchSize q.batchSize) (by omega) ⟨lt_max_of_lt_left b1, b2, b3, b4⟩ ⟨lt_max_of_lt_right a1, a2, a3, a4⟩ e
  revert hkey hkey' hf hne hsort hinj
  generalize queried nempty cells ch = Q
  generalize queried nempty qcells qch = R
  generalize Cell.key d = key
  intro hf hne hkey hkey' hsort hinj
  obtain ⟨hl, hf1, hf2⟩ := hf
  have hkl : (Q.map key).length = x.length := by simpa using hl
  obtain ⟨r, h1, h2, h3⟩ := C49_search_value x (Q.map key) (R.map key) (by simpa using hne) hkl hsort
  unfold octreeAlign
  simp only [hkey, hkey', bind, Except.bind, pyAssert, hkl, if_true, h1]
  congr 1
  rw [List.length_map] at h2
  apply List.ext_getElem
  · simp [h2]
  · intro i i1 i2
    rw [List.length_map] at i2
    rw [List.getElem_map]
    rcases h3 i (key R[i]) r[i] (by simp [i2]) (List.getElem?_eq_getElem i1) with ⟨j, j1, j2⟩ | ⟨j1, j2⟩
    · rw [List.getElem?_map] at j1
      cases hQ : Q[j]? with
      | none => rw [hQ] at j1; simp at j1
      | some c' =>
        rw [hQ] at j1
        simp only [Option.map_some, Option.some.injEq] at j1
        have e := hinj R[i] (List.getElem_mem i2) c' (List.mem_of_getElem? hQ) j1
        subst e
        rw [hf1 j _ _ hQ j2]
    · rw [j2, hf2]
      rintro c' hc' ⟨e1, e2, e3, e4⟩
      apply j1
      have : c' = R[i] := by
        generalize R[i] = c at *
        cases c; cases c'; simp_all
      rw [← this]
      exact List.mem_map_of_mem hc'

/-- **C49**: aligning an octree with itself is the identity. -/
theorem C49_self [Zero V] (o : Octree F) (h : Nat) (w : o.Valid h) (d : Nat) (hd : d ≤ h) (nempty : Bool) (cells : List Cell) (ch : List Int)
    (hc : CellsOf o.batchSize d o.keys cells) (hch : o.children d = some ch)
    (x : List V) (hx : x.length = (queried nempty cells ch).length) (hne : queried nempty cells ch ≠ []) :
    octreeAlign x o o d nempty = .ok x := by
  have W := w.wf'
  have h16 := w.depth_le
  have hh := w.h_le
  have hnd : (queried nempty cells ch).Nodup := by
    have e := cells_unique (by omega) hc (W.cellsOf d hd)
    subst e
    rw [W.children d hd] at hch; cases hch
    exact queried_nodup W d hd nempty
  obtain ⟨f, hf⟩ := exists_field _ x hx.symm hnd
  rw [C49_align o h w o h w d hd hd nempty cells cells ch ch hc hch hc hch x f hf hne]
  congr 1
  apply List.ext_getElem?
  intro i
  rw [List.getElem?_map]
  by_cases hi : i < x.length
  · have h1 := List.getElem?_eq_getElem hi
    have h2 := List.getElem?_eq_getElem (show i < (queried nempty cells ch).length by omega)
    rw [h1, h2]
    simp only [Option.map_some]
    rw [hf.2.1 i _ _ h2 h1]
  · rw [List.getElem?_eq_none (by omega), List.getElem?_eq_none (by omega)]
    rfl

/-- **C49**: if the first octree has no node (with `nempty`: no non-empty node) at this depth, the call raises. -/
theorem C49_empty [Zero V] {G : Type} (o : Octree F) (h : Nat) (w : o.Valid h) (q : Octree G) (h' : Nat) (w' : q.Valid h')
    (d : Nat) (hd : d ≤ h) (hd' : d ≤ h') (nempty : Bool) (cells : List Cell) (ch : List Int)
    (hc : CellsOf o.batchSize d o.keys cells) (hch : o.children d = some ch) (he : queried nempty cells ch = []) :
    octreeAlign ([] : List V) o q d nempty = .error .index := by
  obtain ⟨-, -, hkey, -, -⟩ := C27_xyzb o h w d hd cells hc ch hch nempty
  obtain ⟨-, -, hkey', -, -⟩ := C27_xyzb q h' w' d hd' _ (w'.wf'.cellsOf d hd') _ (w'.wf'.children d hd') nempty
  unfold octreeAlign
  simp only [hkey, hkey', he, List.map_nil, bind, Except.bind, pyAssert, List.length_nil, if_true]
  rfl

/-- the hypotheses are met: an octree with 16 nodes of depth 2, two of them non-empty -/
example (nempty : Bool) : ∃ (o : Octree Unit) (cells : List Cell) (ch : List Int) (x : List ℚ) (f : Nat → Int → Int → Int → ℚ), o.Valid 2 ∧
    CellsOf o.batchSize 2 o.keys cells ∧ o.children 2 = some ch ∧ IsField (queried nempty cells ch) x f ∧ queried nempty cells ch ≠ [] := by
  obtain ⟨o, h1, -, -, -, h16, -, h2⟩ := example_valid'
  have W := h1.wf'
  obtain ⟨f, hf⟩ := exists_field (queried nempty (layerCells o.batchSize o.masks 2) (number 0 (o.masks 2)))
    (List.replicate (queried nempty (layerCells o.batchSize o.masks 2) (number 0 (o.masks 2))).length (3 : ℚ)) (by simp)
    (queried_nodup W 2 (le_refl _) nempty)
  refine ⟨o, _, _, _, f, h1, W.cellsOf 2 (by omega), W.children 2 (by omega), hf, ?_⟩
  intro e
  have := queried_length' W 2 (le_refl _) nempty
  rw [e] at this
  cases nempty <;> simp [h16, h2] at this

/-! ### drop path -/

/-- **C57**: in evaluation mode, or with `drop_prob <= 0`, nothing happens (whatever the arguments). -/
theorem C57_identity {C : Nat} (p : ℚ) (training scale nempty : Bool) (rnd : List ℚ) (x : List (Fin C → ℚ)) (o : Octree F) (d : Nat)
    (ids : Option (List Nat)) (h : p ≤ 0 ∨ training = false) : dropPath p training scale nempty rnd x o d ids = .ok x := by
  unfold dropPath
  rw [if_pos h]
  rfl

/-- **C57**: in training mode with `0 < drop_prob <= 1`, all rows of sample `b` are multiplied by the same factor:
0 if the number drawn for the sample is smaller than `drop_prob`, otherwise `1 / keep_prob` (or 1 without scaling). -/
theorem C57_drop {C : Nat} (p : ℚ) (hp0 : 0 < p) (hp1 : p ≤ 1) (scale nempty : Bool) (o : Octree F) (h : Nat) (w : o.Valid h) (d : Nat)
    (hd : d ≤ h) (cells : List Cell) (ch : List Int) (hc : CellsOf o.batchSize d o.keys cells) (hch : o.children d = some ch)
    (rnd : List ℚ) (hrl : rnd.length = o.batchSize) (hr : ∀ r ∈ rnd, 0 ≤ r ∧ r < 1)
    (x : List (Fin C → ℚ)) (hx : x.length = (queried nempty cells ch).length) :
    ∃ y, dropPath p true scale nempty rnd x o d none = .ok y ∧ y.length = x.length ∧
      ∀ (i : Nat) (c : Cell) (r : ℚ) (v u : Fin C → ℚ), (queried nempty cells ch)[i]? = some c → rnd[c.b]? = some r → x[i]? = some v →
        y[i]? = some u → ∀ k, u k = v k * (if r < p then 0 else if scale then 1 / (1 - p) else 1) := by
  obtain ⟨hr', -, -, hid, -⟩ := C27_xyzb o h w d hd cells hc ch hch nempty
  revert hr' hid hx
  generalize queried nempty cells ch = Q
  intro hx hQ hid
  -- the factors
  set t : ℚ → ℚ := fun r => if r < p then 0 else if scale then 1 / (1 - p) else 1 with ht
  have hfl : ∀ r ∈ rnd, ((⌊r + (1 - p)⌋ : ℤ) : ℚ) = if r < p then 0 else 1 := by
    intro r hrr
    obtain ⟨a, b⟩ := hr r hrr
    split
    · have : ⌊r + (1 - p)⌋ = 0 := by rw [Int.floor_eq_iff]; constructor <;> push_cast <;> linarith
      rw [this]; rfl
    · have : ⌊r + (1 - p)⌋ = 1 := by rw [Int.floor_eq_iff]; constructor <;> push_cast <;> linarith
      rw [this]; rfl
  have hfac : (if 1 - p > 0 ∧ scale = true then (rnd.map fun r => ((⌊r + (1 - p)⌋ : ℤ) : ℚ)).map (· / (1 - p))
      else rnd.map fun r => ((⌊r + (1 - p)⌋ : ℤ) : ℚ)) = rnd.map t := by
    split
    · rename_i hk
      rw [List.map_map]
      apply List.map_congr_left
      intro r hrr
      simp only [Function.comp, hfl r hrr, ht, hk.2, if_true]
      split
      · simp
      · rfl
    · rename_i hk
      apply List.map_congr_left
      intro r hrr
      rw [hfl r hrr, ht]
      by_cases hlt : r < p
      · simp [hlt]
      · simp only [hlt, if_false]
        cases scale with
        | false => rfl
        | true =>
          exfalso
          apply hk
          have := (hr r hrr).2
          exact ⟨by linarith [not_lt.1 hlt], rfl⟩
  have hg : gatherIdx (rnd.map t) ((Q.map Cell.b).map Int.ofNat) = .ok (Q.map fun c => ((rnd.map t)[c.b]?).getD 0) := by
    unfold gatherIdx
    rw [List.map_map, List.mapM_map]
    apply mapM_ok
    intro c hcQ
    have := (hQ c hcQ).1
    simp only [Function.comp, Int.ofNat_eq_natCast]
    rw [getIdx_getD _ _ (by omega) (by simp; omega) 0]
    simp
  refine ⟨List.zipWith (fun v m => fun c => v c * m) x (Q.map fun c => ((rnd.map t)[c.b]?).getD 0), ?_, by simp [hx], ?_⟩
  · unfold dropPath
    rw [if_neg (by simp [hp0])]
    simp only [hid, hfac, bind, Except.bind, pure, Except.pure, hg, mulRows, List.length_map, hx, if_true]
  · intro i c r v u hc' hr'' hv hu k
    rw [List.getElem?_zipWith, hv, List.getElem?_map, hc'] at hu
    simp only [Option.map_some, List.getElem?_map, hr'', Option.getD_some, Option.some.injEq] at hu
    rw [← hu]

example : ∃ (o : Octree Unit) (cells : List Cell) (ch : List Int) (x : List (Fin 2 → ℚ)) (rnd : List ℚ), o.Valid 2 ∧
    CellsOf o.batchSize 2 o.keys cells ∧ o.children 2 = some ch ∧ x.length = (queried false cells ch).length ∧ rnd.length = o.batchSize ∧
    (∀ r ∈ rnd, 0 ≤ r ∧ r < 1) := by
  obtain ⟨o, h1, hb, -, -, h16, -, h2⟩ := example_valid'
  have W := h1.wf'
  refine ⟨o, _, _, List.replicate (queried false (layerCells o.batchSize o.masks 2) (number 0 (o.masks 2))).length (fun _ => 3), [1 / 2], h1,
    W.cellsOf 2 (by omega), W.children 2 (by omega), by simp, by rw [hb]; rfl, ?_⟩
  intro r hr
  simp only [List.mem_cons, List.not_mem_nil, or_false] at hr
  subst hr
  norm_num

end Ocnn
