import Verif.PropsAffine

/-! Property C156: upsampling with linear interpolation. -/

set_option linter.unusedSimpArgs false

namespace Ocnn
open Spec

variable {F V : Type}

namespace Spec

/-- The centre of a node, in units of the cells `n` levels above. -/
def centreAbove (n : Nat) (c : Cell) : V3 ℚ := ⟨((c.x : ℚ) + 1 / 2) / 2 ^ n, ((c.y : ℚ) + 1 / 2) / 2 ^ n, ((c.z : ℚ) + 1 / 2) / 2 ^ n⟩

/-- The share of the coarse coordinate `u` in the fine coordinate `v`, one level deeper: three quarters for the coordinate of the parent, one quarter for the next one on the side of the
child. -/
def share (v u : Nat) : ℚ :=
  if u = v / 2 then 3 / 4 else if (v % 2 = 0 ∧ u + 1 = v / 2) ∨ (v % 2 = 1 ∧ u = v / 2 + 1) then 1 / 4 else 0

/-- The share of a node in a node one level deeper. -/
def share3 (c p : Cell) : ℚ := share c.x p.x * share c.y p.y * share c.z p.z

/-- The node does not touch the boundary of the cube. -/
def Inner (d : Nat) (c : Cell) : Prop := (0 < c.x ∧ c.x + 1 < 2 ^ d) ∧ (0 < c.y ∧ c.y + 1 < 2 ^ d) ∧ (0 < c.z ∧ c.z + 1 < 2 ^ d)

end Spec

theorem tent_share (v u : Nat) : tent (((v : ℚ) + 1 / 2) / 2 ^ 1 - ((((u : Nat) : ℤ) : ℚ) + 1 / 2)) = share v u := by
  have hv := Nat.div_add_mod v 2
  unfold share tent
  generalize hw : v / 2 = w at *
  have hm : v % 2 = 0 ∨ v % 2 = 1 := by omega
  rw [pow_one, Int.cast_natCast]
  rcases hm with hm | hm
  · have e : (v : ℚ) = 2 * w := by
      have : v = 2 * w := by omega
      exact_mod_cast this
    rw [e, show (2 * (w : ℚ) + 1 / 2) / 2 - (u + 1 / 2) = (w : ℚ) - u - 1 / 4 by ring]
    rcases Nat.lt_trichotomy u w with h | h | h
    · have h' : (u : ℚ) + 1 ≤ w := by exact_mod_cast h
      rw [if_neg (by omega), abs_of_nonneg (by linarith)]
      by_cases h1 : u + 1 = w
      · have h1' : (u : ℚ) + 1 = w := by exact_mod_cast h1
        rw [if_pos (Or.inl ⟨hm, h1⟩), max_eq_right (by linarith)]
        linarith
      · have h2 : u + 2 ≤ w := by omega
        have h2' : (u : ℚ) + 2 ≤ w := by exact_mod_cast h2
        rw [if_neg (by omega), max_eq_left (by linarith)]
    · rw [if_pos h, h, sub_self, zero_sub, abs_neg, abs_of_nonneg (by norm_num), max_eq_right (by norm_num)]
      norm_num
    · have h' : (w : ℚ) + 1 ≤ u := by exact_mod_cast h
      rw [if_neg (by omega), if_neg (by omega), abs_of_nonpos (by linarith), max_eq_left (by linarith)]
  · have e : (v : ℚ) = 2 * w + 1 := by
      have : v = 2 * w + 1 := by omega
      exact_mod_cast this
    rw [e, show (2 * (w : ℚ) + 1 + 1 / 2) / 2 - (u + 1 / 2) = (w : ℚ) - u + 1 / 4 by ring]
    rcases Nat.lt_trichotomy u w with h | h | h
    · have h' : (u : ℚ) + 1 ≤ w := by exact_mod_cast h
      rw [if_neg (by omega), if_neg (by omega), abs_of_nonneg (by linarith), max_eq_left (by linarith)]
    · rw [if_pos h, h, sub_self, zero_add, abs_of_nonneg (by norm_num), max_eq_right (by norm_num)]
      norm_num
    · have h' : (w : ℚ) + 1 ≤ u := by exact_mod_cast h
      rw [if_neg (by omega), abs_of_nonpos (by linarith)]
      by_cases h1 : u = w + 1
      · have h1' : (u : ℚ) = w + 1 := by exact_mod_cast h1
        rw [if_pos (Or.inr ⟨hm, h1⟩), max_eq_right (by linarith)]
        linarith
      · have h2 : w + 2 ≤ u := by omega
        have h2' : (w : ℚ) + 2 ≤ u := by exact_mod_cast h2
        rw [if_neg (by omega), max_eq_left (by linarith)]

theorem tent3_share (c p : Cell) : tent3 (centreAbove 1 c) (coords p) = share3 c p := by
  unfold tent3 centreAbove coords share3
  rw [tent_share, tent_share, tent_share]

/-- Linear upsampling is linear interpolation at the centres of the nodes. -/
theorem upsample_points {C : Nat} (o : Octree F) (h : Nat) (w : o.Valid h) (d n : Nat) (hd : d + n ≤ h) (hn : 0 < n) (nempty : Bool)
    (cells' : List Cell) (ch' : List Int) (hc' : CellsOf o.batchSize (d + n) o.keys cells') (hch' : o.children (d + n) = some ch') (x : List (Fin C → ℚ)) :
    octreeUpsample "linear" nempty x o d (some (d + n)) =
      octreeLinearPts x o d (((queried nempty cells' ch').map fun c => (centreAbove n c, c.b)).map row4) nempty false := by
  unfold octreeUpsample
  simp only [Option.getD_some]
  rw [if_neg (by omega)]
  simp only [pyAssert, bind, Except.bind]
  rw [if_pos (by omega)]
  simp only []
  rw [if_neg (by rintro ⟨-, e⟩; exact absurd e (by decide))]
  obtain ⟨-, hx, -⟩ := C27_xyzb o h w (d + n) hd cells' hc' ch' hch' nempty
  rw [hx]
  simp only []
  unfold interpFunc nodeCentres
  rw [if_pos rfl, List.map_map, List.map_map]
  congr 1
  apply List.map_congr_left
  intro c _
  have hz : (2 : ℚ) ^ ((d : ℤ) - (d + n : Nat)) = 1 / 2 ^ n := by
    rw [show (d : ℤ) - (d + n : Nat) = -(n : ℤ) by omega, zpow_neg, zpow_natCast, one_div]
  simp only [Function.comp, row4, centreAbove, Int.cast_natCast, hz, mul_one_div]

theorem upsample_batch {o : Octree F} {h : Nat} (w : o.Valid h) (d : Nat) (hd : d ≤ h) (n : Nat) (nempty : Bool) {cells' : List Cell} {ch' : List Int}
    (hc' : CellsOf o.batchSize d o.keys cells') (hch' : o.children d = some ch') :
    ∀ q ∈ (queried nempty cells' ch').map fun c => (centreAbove n c, c.b), q.2 < 2 ^ 15 := by
  obtain ⟨hr, -⟩ := C27_xyzb o h w d hd cells' hc' ch' hch' nempty
  have hB := w.batch_le
  intro q hq
  obtain ⟨c, hcm, rfl⟩ := List.mem_map.1 hq
  have := (hr c hcm).1
  show c.b < 2 ^ 15
  omega

/-- **C156, the part that holds.** Linear upsampling by any number of levels returns one row per node, and a node whose centre is at least half a coarse cell away from the boundary of the cube gets the
mean of the features of the coarse nodes of its sample, weighted by the hat functions at their centres.  Missing: the nodes at the boundary (`C156_violated`). -/
theorem C156_levels_partial {C : Nat} (o : Octree F) (h : Nat) (w : o.Valid h) (d n : Nat) (hd : d + n ≤ h) (hn : 0 < n) (nempty : Bool)
    (cells cells' : List Cell) (ch ch' : List Int) (hc : CellsOf o.batchSize d o.keys cells) (hch : o.children d = some ch)
    (hc' : CellsOf o.batchSize (d + n) o.keys cells') (hch' : o.children (d + n) = some ch') (x : List (Fin C → ℚ))
    (f : Nat → Int → Int → Int → Fin C → ℚ) (hf : IsField (queried nempty cells ch) x f) :
    ∃ y, octreeUpsample "linear" nempty x o d (some (d + n)) = .ok y ∧ y.length = (queried nempty cells' ch').length ∧
      ∀ c v, HasVal (queried nempty cells' ch') y c v → Interior d (centreAbove n c) → ∀ k,
        v k = (((queried nempty cells ch).filter fun p => decide (p.b = c.b)).map fun p => tent3 (centreAbove n c) (coords p) * fieldAt f p k).sum /
          ((((queried nempty cells ch).filter fun p => decide (p.b = c.b)).map fun p => tent3 (centreAbove n c) (coords p)).sum + 1 / 10 ^ 12) := by
  rw [upsample_points o h w d n hd hn nempty cells' ch' hc' hch' x]
  have hq := upsample_batch w (d + n) hd n nempty hc' hch'
  refine ⟨_, C53_linear o h w d (by omega) cells ch hc hch nempty false x f hf _ hq, by simp, ?_⟩
  rintro c v ⟨i, hi, hv⟩ hin k
  rw [List.getElem?_map, List.getElem?_map, hi] at hv
  simp only [Option.map_some, Option.some.injEq] at hv
  have hb : c.b < 2 ^ 15 := hq _ (List.mem_map.2 ⟨c, List.mem_of_getElem? hi, rfl⟩)
  have e1 := C53_linear o h w d (by omega) cells ch hc hch nempty false x f hf [(centreAbove n c, c.b)] (by simpa using hb)
  have e2 := C54_partial o h w d (by omega) cells ch hc hch nempty false x f hf [(centreAbove n c, c.b)] (by simpa using hb) (Or.inr (by simpa using hin))
  rw [e1] at e2
  simp only [List.map_cons, List.map_nil, Except.ok.injEq, List.cons.injEq, and_true] at e2
  rw [← hv]
  exact congrFun e2 k

theorem inner_interior {d : Nat} {c : Cell} (hc : Inner (d + 1) c) : Interior d (centreAbove 1 c) := by
  have key : ∀ v : Nat, 0 < v ∧ v + 1 < 2 ^ (d + 1) → (1 : ℚ) / 2 ≤ ((v : ℚ) + 1 / 2) / 2 ^ 1 ∧ ((v : ℚ) + 1 / 2) / 2 ^ 1 ≤ 2 ^ d - 1 / 2 := by
    rintro v ⟨h1, h2⟩
    have h1' : (1 : ℚ) ≤ v := by exact_mod_cast h1
    have h2' : ((v + 2 : Nat) : ℚ) ≤ ((2 ^ (d + 1) : Nat) : ℚ) := by exact_mod_cast h2
    push_cast at h2'
    rw [pow_succ] at h2'
    rw [pow_one]
    constructor <;> linarith
  exact ⟨key _ hc.1, key _ hc.2.1, key _ hc.2.2⟩

/-- **C156, one level.** A node that does not touch the boundary of the cube gets the mean of the coarse nodes with the weights 27/64 (its parent), 9/64, 3/64 and 1/64 (the nodes beyond the faces, edges and the
corner of the parent on its side), as far as they exist.  Missing: the nodes at the boundary (`C156_violated`). -/
theorem C156_partial {C : Nat} (o : Octree F) (h : Nat) (w : o.Valid h) (d : Nat) (hd : d + 1 ≤ h) (nempty : Bool)
    (cells cells' : List Cell) (ch ch' : List Int) (hc : CellsOf o.batchSize d o.keys cells) (hch : o.children d = some ch)
    (hc' : CellsOf o.batchSize (d + 1) o.keys cells') (hch' : o.children (d + 1) = some ch') (x : List (Fin C → ℚ))
    (f : Nat → Int → Int → Int → Fin C → ℚ) (hf : IsField (queried nempty cells ch) x f) :
    ∃ y, octreeUpsample "linear" nempty x o d none = .ok y ∧ y.length = (queried nempty cells' ch').length ∧
      ∀ c v, HasVal (queried nempty cells' ch') y c v → Inner (d + 1) c → ∀ k,
        v k = (((queried nempty cells ch).filter fun p => decide (p.b = c.b)).map fun p => share3 c p * fieldAt f p k).sum /
          ((((queried nempty cells ch).filter fun p => decide (p.b = c.b)).map fun p => share3 c p).sum + 1 / 10 ^ 12) := by
  obtain ⟨y, h1, h2, h3⟩ := C156_levels_partial o h w d 1 hd (by omega) nempty cells cells' ch ch' hc hch hc' hch' x f hf
  refine ⟨y, h1, h2, ?_⟩
  intro c v hv hin k
  rw [h3 c v hv (inner_interior hin) k]
  simp only [tent3_share]

/-- **C156, affine features.** In a layer up to `full_depth`, features that are an affine function of the position are continued exactly (up to the factor `1/(1 + 1e-12)`) at the nodes that do not touch the
boundary of the cube. -/
theorem C156_affine_partial {C : Nat} (o : Octree F) (h : Nat) (w : o.Valid h) (d : Nat) (hd : d + 1 ≤ h) (hfull : d ≤ o.fullDepth)
    (cells cells' : List Cell) (hc : CellsOf o.batchSize d o.keys cells) (hc' : CellsOf o.batchSize (d + 1) o.keys cells') (a₀ a₁ a₂ a₃ : Fin C → ℚ) :
    ∃ y, octreeUpsample "linear" false (cells.map fun c => fun k => affine (a₀ k) (a₁ k) (a₂ k) (a₃ k) (centre c)) o d none = .ok y ∧ y.length = cells'.length ∧
      ∀ c v, HasVal cells' y c v → Inner (d + 1) c → ∀ k, v k = affine (a₀ k) (a₁ k) (a₂ k) (a₃ k) (centreAbove 1 c) / (1 + 1 / 10 ^ 12) := by
  have W := w.wf'
  have hch := W.children d (by omega)
  have hch' := W.children (d + 1) hd
  have hnd := nodes_nodup o h w d (by omega) false 1 _ _ (.one d cells _ hc hch)
  obtain ⟨hr, -⟩ := C27_xyzb o h w (d + 1) hd cells' hc' _ hch' false
  have hq := upsample_batch w (d + 1) hd 1 false hc' hch'
  have hp := upsample_points o h w d 1 hd (by omega) false cells' _ hc' hch' (cells.map fun c => fun k => affine (a₀ k) (a₁ k) (a₂ k) (a₃ k) (centre c))
  simp only [queried, Bool.false_eq_true, if_false] at hnd hr hq hp
  obtain ⟨f, hf⟩ := exists_field cells (cells.map fun c => fun k => affine (a₀ k) (a₁ k) (a₂ k) (a₃ k) (centre c)) (by simp) hnd
  have hf' : IsField (queried false cells (number 0 (o.masks d))) (cells.map fun c => fun k => affine (a₀ k) (a₁ k) (a₂ k) (a₃ k) (centre c)) f := by
    simpa only [queried, Bool.false_eq_true, if_false] using hf
  have e0 := C53_linear o h w d (by omega) cells _ hc hch false false _ f hf' _ hq
  refine ⟨_, hp.trans e0, by simp, ?_⟩
  rintro c v ⟨i, hi, hv⟩ hin k
  rw [List.getElem?_map, List.getElem?_map, hi] at hv
  simp only [Option.map_some, Option.some.injEq] at hv
  have hm := List.mem_of_getElem? hi
  have e1 := C53_linear o h w d (by omega) cells _ hc hch false false _ f hf' [(centreAbove 1 c, c.b)] (by
    have := hq _ (List.mem_map.2 ⟨c, hm, rfl⟩)
    simpa using this)
  have e2 := C117_full o h w d hfull cells hc false a₀ a₁ a₂ a₃ [(centreAbove 1 c, c.b)] (by
    intro q hqm
    rw [List.mem_singleton] at hqm
    subst hqm
    exact ⟨(hr c hm).1, inner_interior hin⟩)
  rw [e1] at e2
  simp only [List.map_cons, List.map_nil, Except.ok.injEq, List.cons.injEq, and_true] at e2
  rw [← hv]
  exact congrFun e2 k

/-- **C156 is violated** at the boundary: a node gets a part of the feature of a coarse node on the other side of the cube.  Two tensors that differ only at a coarse node whose centre is
more than one coarse cell away from the centre of the node give it different features. -/
theorem C156_violated : ∃ (o : Octree Unit) (cells cells' : List Cell) (x x' y y' : List (Fin 1 → ℚ)) (c : Cell) (v v' : Fin 1 → ℚ), o.Valid 2 ∧
    CellsOf o.batchSize 1 o.keys cells ∧ CellsOf o.batchSize 2 o.keys cells' ∧
    (∀ p u u', HasVal cells x p u → HasVal cells x' p u' → u ≠ u' → 1 < |(centreAbove 1 c).x - (p.x + 1 / 2)|) ∧
    octreeUpsample "linear" false x o 1 none = .ok y ∧ octreeUpsample "linear" false x' o 1 none = .ok y' ∧
    HasVal cells' y c v ∧ HasVal cells' y' c v' ∧ v ≠ v' := by
  obtain ⟨o, h0, h1, -, h3, -, -, -⟩ := example_valid
  rw [h3] at h1
  have hc := h1.wf'.cellsOf 1 (by omega)
  have hch := h1.wf'.children 1 (by omega)
  have hc' := h1.wf'.cellsOf 2 (by omega)
  have hch' := h1.wf'.children 2 (by omega)
  obtain ⟨-, hx, -⟩ := C27_xyzb o 2 h1 1 (by omega) _ hc _ hch false
  obtain ⟨-, hx', -⟩ := C27_xyzb o 2 h1 2 (by omega) _ hc' _ hch' false
  have hl := queried_length h1 1 (by omega) false _ _ hc hch
  have hnd := nodes_nodup o 2 h1 1 (by omega) false 1 _ _ (.one 1 _ _ hc hch)
  simp only [queried, Bool.false_eq_true, if_false] at hx hx' hl hnd
  have hcnt := example_counts
  rw [h0] at hcnt
  simp only [Except.toOption, Option.map_some, Option.some.injEq, Prod.mk.injEq] at hcnt
  rw [hcnt.1] at hl
  have h4 : (exampleOctree.bind fun o => o.xyzb 1 false).toOption.map (fun l => l[4]?) = some (some (1, 0, 0, 0)) := by decide +kernel
  have h5 : (exampleOctree.bind fun o => o.xyzb 2 false).toOption.map (fun l => l[0]?) = some (some (0, 0, 0, 0)) := by decide +kernel
  have hp : (exampleOctree.bind fun o => octreeUpsample "linear" false ([0, 0, 0, 0, 0, 0, 0, 0].map fun v : ℚ => fun _ : Fin 1 => v) o 1 none).toOption.map
      (fun r => (r[0]?).map fun v => decide (v 0 = 0)) = some (some true) := by decide +kernel
  have hp2 : (exampleOctree.bind fun o => octreeUpsample "linear" false ([0, 0, 0, 0, 1, 0, 0, 0].map fun v : ℚ => fun _ : Fin 1 => v) o 1 none).toOption.map
      (fun r => (r[0]?).map fun v => decide (v 0 = 0)) = some (some false) := by decide +kernel
  rw [h0] at hp hp2 h4 h5
  simp only [Except.bind] at hp hp2 h4 h5
  rw [hx] at h4
  rw [hx'] at h5
  simp only [Except.toOption, Option.map_some, Option.some.injEq, List.getElem?_map, Option.map_eq_some_iff] at h4 h5
  obtain ⟨p4, h4, e4⟩ := h4
  obtain ⟨c, h5, e5⟩ := h5
  simp only [Prod.mk.injEq] at e4 e5
  cases hq : octreeUpsample "linear" false ([0, 0, 0, 0, 0, 0, 0, 0].map fun v : ℚ => fun _ : Fin 1 => v) o 1 none with
  | error e => rw [hq] at hp; simp [Except.toOption] at hp
  | ok r =>
    cases hq2 : octreeUpsample "linear" false ([0, 0, 0, 0, 1, 0, 0, 0].map fun v : ℚ => fun _ : Fin 1 => v) o 1 none with
    | error e => rw [hq2] at hp2; simp [Except.toOption] at hp2
    | ok r2 =>
      rw [hq] at hp
      rw [hq2] at hp2
      simp only [Except.toOption, Option.map_some, Option.some.injEq, Option.map_eq_some_iff] at hp hp2
      obtain ⟨v, hv, ev⟩ := hp
      obtain ⟨v', hv', ev'⟩ := hp2
      refine ⟨o, _, _, _, _, r, r2, c, v, v', h1, hc, hc', ?_, hq, hq2, ⟨0, h5, hv⟩, ⟨0, h5, hv'⟩, ?_⟩
      · rintro p u u' ⟨j, hj1, hj2⟩ ⟨j', hj1', hj2'⟩ hne
        have ej := nodup_getElem?_inj hnd hj1 hj1'
        subst ej
        have hj : j < 8 := by
          have := (List.getElem?_eq_some_iff.1 hj1).1
          omega
        have hj4 : j = 4 := by
          by_contra hj4
          apply hne
          have : j = 0 ∨ j = 1 ∨ j = 2 ∨ j = 3 ∨ j = 5 ∨ j = 6 ∨ j = 7 := by omega
          rcases this with rfl | rfl | rfl | rfl | rfl | rfl | rfl <;> simp at hj2 hj2' <;> rw [← hj2, ← hj2']
        subst hj4
        rw [h4] at hj1
        cases hj1
        have hpx : p4.x = 1 := by omega
        have hcx : c.x = 0 := by omega
        simp only [centreAbove, hpx, hcx]
        rw [abs_of_neg (by norm_num)]
        norm_num
      · intro e
        rw [e] at ev
        simp only [decide_eq_true_eq, decide_eq_false_iff_not] at ev ev'
        exact ev' ev

/-- The shares of the parent and of the nodes around it add up to one. -/
example : share 5 2 = 3 / 4 ∧ share 5 3 = 1 / 4 ∧ share 4 2 = 3 / 4 ∧ share 4 1 = 1 / 4 ∧ share 4 3 = 0 := by
  unfold share
  norm_num

/-- The hypotheses are met: the octree of the examples has a node that does not touch the boundary, and the first layer is full. -/
example : ∃ (o : Octree Unit) (cells' : List Cell), o.Valid 2 ∧ 1 ≤ o.fullDepth ∧ CellsOf o.batchSize 2 o.keys cells' ∧ ∃ c ∈ cells', Inner 2 c := by
  obtain ⟨o, h0, h1, h2, h3, -, -, -⟩ := example_valid
  rw [h3] at h1
  have hc' := h1.wf'.cellsOf 2 (by omega)
  have hch' := h1.wf'.children 2 (by omega)
  obtain ⟨-, hx', -⟩ := C27_xyzb o 2 h1 2 (by omega) _ hc' _ hch' false
  simp only [queried, Bool.false_eq_true, if_false] at hx'
  have h5 : (exampleOctree.bind fun o => o.xyzb 2 false).toOption.map (fun l => l[7]?) = some (some (1, 1, 1, 0)) := by decide +kernel
  rw [h0] at h5
  simp only [Except.bind] at h5
  rw [hx'] at h5
  simp only [Except.toOption, Option.map_some, Option.some.injEq, List.getElem?_map, Option.map_eq_some_iff] at h5
  obtain ⟨c, h5, e5⟩ := h5
  simp only [Prod.mk.injEq] at e5
  refine ⟨o, _, h1, by omega, hc', c, List.mem_of_getElem? h5, ?_⟩
  have a : c.x = 1 := by omega
  have b : c.y = 1 := by omega
  have e : c.z = 1 := by omega
  unfold Inner
  rw [a, b, e]
  decide

end Ocnn
