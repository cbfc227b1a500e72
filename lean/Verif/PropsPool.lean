import Verif.PoolLemmas
import Verif.PropsConv
import Verif.PropsBuild

/-! Properties C42-C47: pooling. -/

set_option linter.unusedSimpArgs false

namespace Ocnn
open Spec

variable {F V : Type}

/-- **C42.** Max pooling from depth `d + 1` to depth `d`: a non-empty node gets, channel by channel, the least
upper bound of the values of its (with `nempty`, non-empty) children, an empty node gets 0; the returned index is
the octant of the first child that attains the maximum. -/
theorem C42_max_pool {α : Type} [LinearOrder α] [OrderBot α] [Zero α] {C : Nat} (o : Octree F) (h : Nat) (w : o.Valid h)
    (d : Nat) (hd : d + 1 ≤ h) (nempty : Bool) (cells cells1 : List Cell) (ch ch1 : List Int)
    (hc : CellsOf o.batchSize d o.keys cells) (hch : o.children d = some ch)
    (hc1 : CellsOf o.batchSize (d + 1) o.keys cells1) (hch1 : o.children (d + 1) = some ch1)
    (x : List (Fin C → α)) (hx : x.length = (queried nempty cells1 ch1).length) :
    ∃ y ix, octreeMaxPool x o d nempty = .ok (y, ix) ∧
      y.length = (queried nempty cells ch).length ∧ ix.length = (nonEmpty cells ch).length ∧
      (∀ (i : Nat) (c : Cell), (queried nempty cells ch)[i]? = some c → ∃ v, y[i]? = some v ∧
        (c ∉ nonEmpty cells ch → v = 0) ∧
        (c ∈ nonEmpty cells ch → ∀ k, IsLUB {a | ∃ j < 8, ∃ u, HasVal (queried nempty cells1 ch1) x (c.child j) u ∧ a = u k} (v k))) ∧
      (∀ (r : Nat) (c : Cell), (nonEmpty cells ch)[r]? = some c → ∃ q, ix[r]? = some q ∧ ∀ k, q k < 8 ∧
        ((∃ j < 8, ∃ u, HasVal (queried nempty cells1 ch1) x (c.child j) u ∧ u k ≠ ⊥) →
          ∃ u, HasVal (queried nempty cells1 ch1) x (c.child (q k)) u ∧
            (∀ j < 8, ∀ u', HasVal (queried nempty cells1 ch1) x (c.child j) u' → u' k ≤ u k) ∧
            ∀ j < q k, ∀ u', HasVal (queried nempty cells1 ch1) x (c.child j) u' → u' k < u k)) := by
  have W := w.wf'
  have h16 := w.depth_le
  have hh := w.h_le
  have e := cells_unique (by omega) hc (W.cellsOf d (by omega))
  subst e
  have e := cells_unique (by omega) hc1 (W.cellsOf (d + 1) hd)
  subst e
  rw [W.children d (by omega)] at hch; cases hch
  rw [W.children (d + 1) hd] at hch1; cases hch1
  obtain ⟨P, hP, hPl, hPc⟩ := pool_pre o h w d hd nempty x (fun _ => ⊥) hx
  have hnd1 := queried_nodup W (d + 1) hd nempty
  have hndl := layer_nodup o.batchSize o.masks d (by omega)
  have hnd0 : (maskSel (o.masks d) (layerCells o.batchSize o.masks d)).Nodup := (maskSel_sublist _ _).nodup hndl
  have hnn := W.nnumNempty d (by omega)
  have hml := W.len d (by omega)
  have hsl := maskSel_length (o.masks d) (layerCells o.batchSize o.masks d) hml
  have hq0 := queried_length' W d (by omega) nempty
  rw [nonEmpty_eq _ _ _ hml] at *
  -- the groups
  have grp : ∀ (r : Nat) (c : Cell), (maskSel (o.masks d) (layerCells o.batchSize o.masks d))[r]? = some c →
      ∃ g, (chunk8 (o.nnumNempty d) P)[r]? = some g ∧ g.length = 8 ∧ ∀ j < 8, ∃ p, g[j]? = some p ∧
        (HasVal (queried nempty (layerCells o.batchSize o.masks (d + 1)) (number 0 (o.masks (d + 1)))) x (c.child j) p ∨
          (nempty = true ∧ p = (fun _ => ⊥) ∧
            ∀ u, ¬ HasVal (queried nempty (layerCells o.batchSize o.masks (d + 1)) (number 0 (o.masks (d + 1)))) x (c.child j) u)) := by
    intro r c hr
    have hlt := (List.getElem?_eq_some_iff.1 hr).1
    obtain ⟨g, g1, g2, g3⟩ := chunk8_spec (o.nnumNempty d) P hPl r (by omega)
    refine ⟨g, g1, g2, ?_⟩
    intro j hj
    obtain ⟨p, p1, p2⟩ := hPc r c hr j hj
    exact ⟨p, by rw [g3 j hj, p1], p2⟩
  have val : ∀ (r : Nat) (c : Cell), (maskSel (o.masks d) (layerCells o.batchSize o.masks d))[r]? = some c →
      ∃ v, ((chunk8 (o.nnumNempty d) P).map fun g => (maxRows g).1)[r]? = some v ∧
        ∀ k, IsLUB {a | ∃ j < 8, ∃ u, HasVal (queried nempty (layerCells o.batchSize o.masks (d + 1)) (number 0 (o.masks (d + 1)))) x (c.child j) u ∧ a = u k} (v k) := by
    intro r c hr
    obtain ⟨g, g1, g2, g3⟩ := grp r c hr
    refine ⟨_, by rw [List.getElem?_map, g1]; rfl, ?_⟩
    intro k
    obtain ⟨m1, ⟨v, m2, m2'⟩, m3, m4⟩ := maxRows_spec g g2 k
    constructor
    · rintro a ⟨j, hj, u, hu, rfl⟩
      obtain ⟨p, p1, p2 | p2⟩ := g3 j hj
      · rw [hasVal_unique hnd1 hu p2]
        exact m3 p (List.mem_of_getElem? p1)
      · exact absurd hu (p2.2.2 u)
    · intro b hb
      show (maxRows g).1 k ≤ b
      rw [← m2']
      obtain ⟨p, p1, p2 | p2⟩ := g3 _ m1
      · rw [m2] at p1; cases p1
        exact hb ⟨_, m1, _, p2, rfl⟩
      · rw [m2] at p1; cases p1
        rw [p2.2.1]
        exact bot_le
  refine ⟨_, _, maxPool_ok o h w d hd nempty x P hP hPl, ?_, ?_, ?_, ?_⟩
  · rw [hq0]
    cases nempty with
    | true => simp [chunk8_length]
    | false => simp [maskFill_length, W.nnum d (by omega), hml]
  · simp [chunk8_length, hsl, hnn]
  · intro i c hi
    cases nempty with
    | true =>
      simp only [queried, if_true, nonEmpty_eq _ _ _ hml] at hi ⊢
      obtain ⟨v, v1, v2⟩ := val i c hi
      refine ⟨v, v1, fun hn => absurd (List.mem_of_getElem? hi) hn, fun _ => v2⟩
    | false =>
      simp only [queried, Bool.false_eq_true, if_false] at hi ⊢
      have hlen : ((chunk8 (o.nnumNempty d) P).map fun g => (maxRows g).1).length = (o.masks d).count true := by
        simp [chunk8_length, hnn]
      have hmf := maskFill_number (o.masks d) 0 ((chunk8 (o.nnumNempty d) P).map fun g => (maxRows g).1) (fun _ => 0) (by omega)
      rw [List.drop_zero] at hmf
      have him : i < (o.masks d).length := by
        rw [hml]; exact (List.getElem?_eq_some_iff.1 hi).1
      rw [hmf, List.getElem?_map, number_getElem?, List.getElem?_eq_getElem him]
      cases hb : (o.masks d)[i] with
      | true =>
        have hb' : (o.masks d)[i]? = some true := by rw [List.getElem?_eq_getElem him, hb]
        have hr := maskSel_getElem?_rank (o.masks d) (layerCells o.batchSize o.masks d) i hb'
        rw [hi] at hr
        obtain ⟨v, v1, v2⟩ := val _ c hr
        simp only [Option.map_some, if_true, Nat.zero_add, Int.toNat_natCast, Int.natCast_nonneg]
        rw [v1]
        exact ⟨v, rfl, fun hn => absurd (List.mem_of_getElem? hr) hn, fun _ => v2⟩
      | false =>
        simp only [Option.map_some, Bool.false_eq_true, if_false, show ¬ (0 : Int) ≤ -1 by omega]
        refine ⟨_, rfl, fun _ => rfl, ?_⟩
        intro hm
        obtain ⟨i', a1, a2⟩ := (mem_maskSel _ _ _).1 hm
        have := nodup_getElem?_inj hndl a2 hi
        rw [this, List.getElem?_eq_getElem him, hb] at a1
        simp at a1
  · intro r c hr
    obtain ⟨g, g1, g2, g3⟩ := grp r c hr
    refine ⟨(maxRows g).2, by rw [List.getElem?_map, g1]; rfl, ?_⟩
    intro k
    obtain ⟨m1, ⟨v, m2, m2'⟩, m3, m4⟩ := maxRows_spec g g2 k
    refine ⟨m1, ?_⟩
    rintro ⟨j, hj, u, hu, hne⟩
    have hle : ∀ j < 8, ∀ u', HasVal (queried nempty (layerCells o.batchSize o.masks (d + 1)) (number 0 (o.masks (d + 1)))) x (c.child j) u' →
        g[j]? = some u' := by
      intro j hj u' hu'
      obtain ⟨p, p1, p2 | p2⟩ := g3 j hj
      · rw [hasVal_unique hnd1 hu' p2, p1]
      · exact absurd hu' (p2.2.2 u')
    obtain ⟨p, p1, p2 | p2⟩ := g3 _ m1
    · rw [m2] at p1; cases p1
      refine ⟨v, p2, ?_, ?_⟩
      · intro j hj u' hu'
        rw [m2']
        exact m3 u' (List.mem_of_getElem? (hle j hj u' hu'))
      · intro j hj u' hu'
        rw [m2']
        exact m4 j u' hj (hle j (by omega) u' hu')
    · rw [m2] at p1; cases p1
      have := m3 u (List.mem_of_getElem? (hle j hj u hu))
      rw [← m2', p2.2.1] at this
      exact absurd (le_bot_iff.1 this) hne

theorem flatten8_getElem? {α : Type _} (gs : List (List α)) (h : ∀ g ∈ gs, g.length = 8) (r j : Nat) (hj : j < 8) :
    gs.flatten[8 * r + j]? = gs[r]?.bind fun g => g[j]? := by
  induction gs generalizing r with
  | nil => simp
  | cons g gs ih =>
    have hg := h g List.mem_cons_self
    rw [List.flatten_cons]
    cases r with
    | zero => rw [List.getElem?_append_left (by omega)]; simp
    | succ r =>
      rw [List.getElem?_append_right (by omega), show 8 * (r + 1) + j - g.length = 8 * r + j by omega,
        ih (fun g' hg' => h g' (List.mem_cons_of_mem _ hg'))]
      simp

theorem flatten8_length {α : Type _} (gs : List (List α)) (h : ∀ g ∈ gs, g.length = 8) : gs.flatten.length = 8 * gs.length := by
  induction gs with
  | nil => rfl
  | cons g gs ih =>
    have hg := h g List.mem_cons_self
    rw [List.flatten_cons, List.length_append, ih (fun g' hg' => h g' (List.mem_cons_of_mem _ hg')), hg]
    simp only [List.length_cons]
    omega

/-- **C43.** Unpooling the pooled tensor gives a tensor with a row for every node of depth `d + 1` which agrees
with the input at the child each channel's index points to and vanishes at the other children. -/
theorem C43_unpool {α : Type} [LinearOrder α] [OrderBot α] [Zero α] {C : Nat} (o : Octree F) (h : Nat) (w : o.Valid h)
    (d : Nat) (hd : d + 1 ≤ h) (nempty : Bool) (cells cells1 : List Cell) (ch ch1 : List Int)
    (hc : CellsOf o.batchSize d o.keys cells) (hch : o.children d = some ch)
    (hc1 : CellsOf o.batchSize (d + 1) o.keys cells1) (hch1 : o.children (d + 1) = some ch1)
    (x : List (Fin C → α)) (hx : x.length = (queried nempty cells1 ch1).length) :
    ∃ y ix z, octreeMaxPool x o d nempty = .ok (y, ix) ∧ octreeMaxUnpool y ix o d nempty = .ok z ∧
      z.length = (queried nempty cells1 ch1).length ∧
      ∀ (r : Nat) (c : Cell), (nonEmpty cells ch)[r]? = some c → ∀ j < 8, ∀ i : Nat, (queried nempty cells1 ch1)[i]? = some (c.child j) →
        ∃ u q v, x[i]? = some u ∧ ix[r]? = some q ∧ z[i]? = some v ∧ ∀ k, v k = if q k = j then u k else 0 := by
  have W := w.wf'
  have h16 := w.depth_le
  have hh := w.h_le
  have e := cells_unique (by omega) hc (W.cellsOf d (by omega))
  subst e
  have e := cells_unique (by omega) hc1 (W.cellsOf (d + 1) hd)
  subst e
  rw [W.children d (by omega)] at hch; cases hch
  rw [W.children (d + 1) hd] at hch1; cases hch1
  obtain ⟨P, hP, hPl, hPc⟩ := pool_pre o h w d hd nempty x (fun _ => ⊥) hx
  have hnd1 := queried_nodup W (d + 1) hd nempty
  have hndl1 := layer_nodup o.batchSize o.masks (d + 1) (by omega)
  have hnn := W.nnumNempty d (by omega)
  have hml := W.len d (by omega)
  have hml1 := W.len (d + 1) hd
  have hll := W.layer_length d hd
  have hsl := maskSel_length (o.masks d) (layerCells o.batchSize o.masks d) hml
  have hq1 := queried_length' W (d + 1) hd nempty
  rw [nonEmpty_eq _ _ _ hml] at *
  have hzip : ∀ l : List (List (Fin C → α)), List.zipWith (fun (v : Fin C → α) (ix : Fin C → Nat) => (List.range 8).map fun j => fun c => if ix c = j then v c else 0)
      (l.map fun g => (maxRows g).1) (l.map fun g => (maxRows g).2)
      = l.map fun g => (List.range 8).map fun j => fun c => if (maxRows g).2 c = j then (maxRows g).1 c else 0 := by
    intro l
    induction l with
    | nil => rfl
    | cons g l ih => simp only [List.map_cons, List.zipWith_cons_cons, ih]
  set GS := (chunk8 (o.nnumNempty d) P).map fun g => (List.range 8).map fun j => fun c => if (maxRows g).2 c = j then (maxRows g).1 c else 0 with hGS
  have hlen8 : ∀ g ∈ GS, g.length = 8 := by
    intro g hg
    obtain ⟨g', -, rfl⟩ := List.mem_map.1 hg
    simp
  have hZl : GS.flatten.length = 8 * o.nnumNempty d := by
    rw [flatten8_length _ hlen8]
    simp [GS, chunk8_length]
  have hglen : ∀ g ∈ chunk8 (o.nnumNempty d) P, g.length = 8 := by
    intro g hg
    obtain ⟨r, hr, rfl⟩ := List.getElem_of_mem hg
    rw [chunk8_length] at hr
    obtain ⟨g', g1, g2, -⟩ := chunk8_spec (o.nnumNempty d) P hPl r hr
    rw [List.getElem?_eq_getElem (by rw [chunk8_length]; exact hr)] at g1
    rw [Option.some.inj g1, g2]
  have hpool := maxPool_ok o h w d hd nempty x P hP hPl
  refine ⟨_, _, if nempty then maskSel (o.masks (d + 1)) GS.flatten else GS.flatten, hpool, ?_, ?_, ?_⟩
  · unfold octreeMaxUnpool
    have h1 : (if nempty = false then octreeDepad (if nempty then (chunk8 (o.nnumNempty d) P).map fun g => (maxRows g).1
        else maskFill (o.masks d) (List.replicate (o.masks d).length fun _ => 0) ((chunk8 (o.nnumNempty d) P).map fun g => (maxRows g).1)) o d
        else pure (if nempty then (chunk8 (o.nnumNempty d) P).map fun g => (maxRows g).1
        else maskFill (o.masks d) (List.replicate (o.masks d).length fun _ => 0) ((chunk8 (o.nnumNempty d) P).map fun g => (maxRows g).1)) : M (List (Fin C → α)))
        = .ok ((chunk8 (o.nnumNempty d) P).map fun g => (maxRows g).1) := by
      cases nempty with
      | true => rfl
      | false =>
        simp only [if_true, Bool.false_eq_true, if_false]
        rw [depad_ok w d (by omega) _ (by rw [maskFill_length _ _ _ (by simp), List.length_replicate, hml, W.nnum d (by omega)]),
          maskSel_maskFill _ _ _ (by simp) (by simp [chunk8_length, hnn])]
    rw [h1]
    have h2 : ¬ ∃ r ∈ (chunk8 (o.nnumNempty d) P).map (fun g => (maxRows g).2), ∃ c, ¬ r c < 8 := by
      rintro ⟨q, hq, k, hk⟩
      obtain ⟨g, hg, rfl⟩ := List.mem_map.1 hq
      exact hk (maxRows_spec g (hglen g hg) k).1
    simp only [bind, Except.bind, h2, List.length_map, ne_eq, not_true, if_false, hzip]
    cases nempty with
    | true =>
      simp only [if_true]
      rw [depad_ok w (d + 1) hd _ (by rw [hZl, W.nnum _ hd, hll])]
    | false => rfl
  · rw [hq1]
    cases nempty with
    | true =>
      simp only [if_true]
      rw [maskSel_length _ _ (by rw [hml1, hll, hZl]), W.nnumNempty _ hd]
    | false => simp only [Bool.false_eq_true, if_false, hZl, W.nnum _ hd, hll]
  · intro r c hr j hj i hi
    have hlt := (List.getElem?_eq_some_iff.1 hr).1
    obtain ⟨g, g1, g2, g3⟩ := chunk8_spec (o.nnumNempty d) P hPl r (by omega)
    obtain ⟨p, p1, p2 | p2⟩ := hPc r c hr j hj
    · obtain ⟨i', i1, i2⟩ := p2
      have := nodup_getElem?_inj hnd1 i1 hi
      subst this
      refine ⟨p, (maxRows g).2, fun k => if (maxRows g).2 k = j then (maxRows g).1 k else 0, i2, by rw [List.getElem?_map, g1]; rfl, ?_, ?_⟩
      · have hz : GS.flatten[8 * r + j]? = some fun k => if (maxRows g).2 k = j then (maxRows g).1 k else 0 := by
          rw [flatten8_getElem? _ hlen8 _ _ hj, hGS, List.getElem?_map, g1]
          simp [hj]
        have hlr : (layerCells o.batchSize o.masks (d + 1))[8 * r + j]? = some (c.child j) := by
          rw [layer_getElem?_succ _ _ _ _ _ hj, hr]; rfl
        cases nempty with
        | true =>
          simp only [queried, if_true, nonEmpty_eq _ _ _ hml1] at hi ⊢
          obtain ⟨i'', a1, a2, a3⟩ := exists_of_maskSel _ _ _ _ hi
          have e := nodup_getElem?_inj hndl1 a2 hlr
          rw [← a3, maskSel_getElem?_rank _ _ _ a1, e, hz]
        | false =>
          simp only [queried, Bool.false_eq_true, if_false] at hi ⊢
          have e := nodup_getElem?_inj hndl1 hi hlr
          rw [e, hz]
      · intro k
        obtain ⟨m1, ⟨v, m2, m2'⟩, m3, m4⟩ := maxRows_spec g g2 k
        by_cases hk : (maxRows g).2 k = j
        · show (if (maxRows g).2 k = j then (maxRows g).1 k else 0) = _
          rw [if_pos hk, if_pos hk, ← m2']
          rw [hk, g3 j hj, p1] at m2
          rw [Option.some.inj m2]
        · show (if (maxRows g).2 k = j then (maxRows g).1 k else 0) = _
          rw [if_neg hk, if_neg hk]
    · have : i < x.length := by rw [hx]; exact (List.getElem?_eq_some_iff.1 hi).1
      exact absurd ⟨i, hi, List.getElem?_eq_getElem this⟩ (p2.2.2 _)

/-- **C43**, pooling again: where the pooled value is not negative, pooling the unpooled tensor returns it. -/
theorem C43_pool_again {α : Type} [LinearOrder α] [OrderBot α] [Zero α] {C : Nat} (o : Octree F) (h : Nat) (w : o.Valid h)
    (d : Nat) (hd : d + 1 ≤ h) (nempty : Bool) (ch1 : List Int) (cells1 : List Cell)
    (hc1 : CellsOf o.batchSize (d + 1) o.keys cells1) (hch1 : o.children (d + 1) = some ch1)
    (x : List (Fin C → α)) (hx : x.length = (queried nempty cells1 ch1).length) :
    ∃ y ix z y' ix', octreeMaxPool x o d nempty = .ok (y, ix) ∧ octreeMaxUnpool y ix o d nempty = .ok z ∧
      octreeMaxPool z o d nempty = .ok (y', ix') ∧ y'.length = y.length ∧
      ∀ (i : Nat) (v v' : Fin C → α), y[i]? = some v → y'[i]? = some v' → ∀ k, 0 ≤ v k → v' k = v k := by
  have W := w.wf'
  have hc := W.cellsOf d (by omega)
  have hch := W.children d (by omega)
  obtain ⟨y, ix, h1, h2, h3, h4, h5⟩ := C42_max_pool o h w d hd nempty _ cells1 _ ch1 hc hch hc1 hch1 x hx
  obtain ⟨y0, ix0, z, k1, k2, k3, k4⟩ := C43_unpool o h w d hd nempty _ cells1 _ ch1 hc hch hc1 hch1 x hx
  rw [h1] at k1
  obtain ⟨rfl, rfl⟩ := Prod.mk.inj (Except.ok.inj k1)
  obtain ⟨y', ix', g1, g2, g3, g4, g5⟩ := C42_max_pool o h w d hd nempty _ cells1 _ ch1 hc hch hc1 hch1 z k3
  refine ⟨y, ix, z, y', ix', h1, k2, g1, by omega, ?_⟩
  intro i v v' hv hv' k hk
  have hi : i < (queried nempty (layerCells o.batchSize o.masks d) (number 0 (o.masks d))).length := by
    rw [← h2]; exact (List.getElem?_eq_some_iff.1 hv).1
  have hq := List.getElem?_eq_getElem hi
  generalize (queried nempty (layerCells o.batchSize o.masks d) (number 0 (o.masks d)))[i] = c at hq
  obtain ⟨a, a1, a2, a3⟩ := h4 i c hq
  obtain ⟨b, b1, b2, b3⟩ := g4 i c hq
  rw [hv] at a1; cases a1
  rw [hv'] at b1; cases b1
  by_cases hne : c ∈ nonEmpty (layerCells o.batchSize o.masks d) (number 0 (o.masks d))
  · obtain ⟨r, hr⟩ := List.getElem?_of_mem hne
    obtain ⟨q, q1, q2⟩ := h5 r c hr
    have A := a3 hne k
    have B := b3 hne k
    apply le_antisymm
    · apply B.2
      rintro t ⟨j, hj, u, ⟨i', i1, i2⟩, rfl⟩
      obtain ⟨u0, q0, v0, e1, e2, e3, e4⟩ := k4 r c hr j hj i' i1
      rw [i2] at e3; cases e3
      rw [e4]
      split
      · exact A.1 ⟨j, hj, u0, ⟨i', i1, e1⟩, rfl⟩
      · exact hk
    · by_cases hex : ∃ j < 8, ∃ u, HasVal (queried nempty cells1 ch1) x (c.child j) u ∧ u k ≠ ⊥
      · obtain ⟨hq8, hmax⟩ := q2 k
        obtain ⟨u, ⟨i', i1, i2⟩, m1, -⟩ := hmax hex
        obtain ⟨u0, q0, v0, e1, e2, e3, e4⟩ := k4 r c hr (q k) hq8 i' i1
        rw [i2] at e1; cases e1
        rw [q1] at e2; cases e2
        have : v0 k = u k := by rw [e4, if_pos rfl]
        calc v k ≤ u k := A.2 (by rintro t ⟨j, hj, u', hu', rfl⟩; exact m1 j hj u' hu')
          _ = v0 k := this.symm
          _ ≤ v' k := B.1 ⟨q k, hq8, v0, ⟨i', i1, e3⟩, rfl⟩
      · have : v k ≤ ⊥ := A.2 (by
          rintro t ⟨j, hj, u, hu, rfl⟩
          by_contra hc
          exact hex ⟨j, hj, u, hu, fun e => hc (e ▸ le_refl _)⟩)
        exact this.trans bot_le
  · rw [a2 hne, b2 hne]

/-- the hypotheses of the two theorems are met: all nodes of an octree with 16 nodes of depth 2 -/
example (nempty : Bool) : ∃ (o : Octree Unit) (cells cells1 : List Cell) (ch ch1 : List Int) (x : List (Fin 3 → WithBot ℚ)), o.Valid 2 ∧
    CellsOf o.batchSize 1 o.keys cells ∧ o.children 1 = some ch ∧ CellsOf o.batchSize 2 o.keys cells1 ∧ o.children 2 = some ch1 ∧
    x.length = (queried nempty cells1 ch1).length ∧ 2 ≤ x.length := by
  obtain ⟨o, h1, -, -, -, h16, -, h2⟩ := example_valid'
  have W := h1.wf'
  refine ⟨o, _, _, _, _, List.replicate (queried nempty (layerCells o.batchSize o.masks 2) (number 0 (o.masks 2))).length (fun k => ((k.val : ℚ) : WithBot ℚ)),
    h1, W.cellsOf 1 (by omega), W.children 1 (by omega), W.cellsOf 2 (by omega), W.children 2 (by omega), by simp, ?_⟩
  rw [List.length_replicate, queried_length' W 2 (le_refl _)]
  cases nempty <;> simp [h16, h2]

/-- **C44, the part that holds.** If every non-empty node of depth `d` has a non-empty child, pooling finite
features gives finite features.  Missing: the other octrees (`C44_violated`). -/
theorem C44_partial {α : Type} [LinearOrder α] [OrderBot α] [Zero α] {C : Nat} (o : Octree F) (h : Nat) (w : o.Valid h)
    (d : Nat) (hd : d + 1 ≤ h) (cells cells1 : List Cell) (ch ch1 : List Int)
    (hc : CellsOf o.batchSize d o.keys cells) (hch : o.children d = some ch)
    (hc1 : CellsOf o.batchSize (d + 1) o.keys cells1) (hch1 : o.children (d + 1) = some ch1)
    (hne : ∀ c ∈ nonEmpty cells ch, ∃ j < 8, c.child j ∈ nonEmpty cells1 ch1)
    (x : List (Fin C → α)) (hx : x.length = (nonEmpty cells1 ch1).length) (hfin : ∀ v ∈ x, ∀ k, v k ≠ ⊥) :
    ∃ y ix, octreeMaxPool x o d true = .ok (y, ix) ∧ ∀ v ∈ y, ∀ k, v k ≠ ⊥ := by
  obtain ⟨y, ix, h1, h2, h3, h4, h5⟩ := C42_max_pool o h w d hd true cells cells1 ch ch1 hc hch hc1 hch1 x hx
  refine ⟨y, ix, h1, ?_⟩
  intro v hv k
  obtain ⟨i, hi⟩ := List.getElem?_of_mem hv
  have hl : i < (queried true cells ch).length := by rw [← h2]; exact (List.getElem?_eq_some_iff.1 hi).1
  have hq := List.getElem?_eq_getElem hl
  obtain ⟨v', v1, -, v3⟩ := h4 i _ hq
  rw [hi] at v1; cases v1
  have hm : (queried true cells ch)[i] ∈ nonEmpty cells ch := List.getElem_mem hl
  obtain ⟨j, hj, hcj⟩ := hne _ hm
  obtain ⟨r, hr⟩ := List.getElem?_of_mem hcj
  have hrx : r < x.length := by rw [hx]; exact (List.getElem?_eq_some_iff.1 hr).1
  have := (v3 hm k).1 ⟨j, hj, x[r], ⟨r, hr, List.getElem?_eq_getElem hrx⟩, rfl⟩
  intro e
  rw [e] at this
  exact hfin _ (List.getElem_mem hrx) k (le_bot_iff.1 this)

/-- An occupied cell has an occupied child. -/
theorem occupied_child {points : List (V3 ℚ)} {samples : List Nat} (hin : ∀ p ∈ points, InCube p) (d : Nat) (c : Cell)
    (h : Occupied points samples d c) : ∃ j < 8, Occupied points samples (d + 1) (c.child j) := by
  obtain ⟨i, p, h1, h2, h3⟩ := h
  have hp := hin p (List.mem_of_getElem? h1)
  have e := (cubeContains_iff d c p hp).1 h3
  have ea := cellAt_ancestor d (d + 1) c.b p (by omega)
  rw [e, show d + 1 - d = 1 by omega] at ea
  refine ⟨(cellAt (d + 1) c.b p).octant, ?_, i, p, h1, ?_, ?_⟩
  · unfold Cell.octant; omega
  · rw [h2]; rfl
  · rw [cubeContains_iff _ _ _ hp]
    have hpar : (cellAt (d + 1) c.b p).parent = c := by
      refine Eq.trans ?_ ea
      simp [Cell.parent, Cell.ancestor]
    have hcc : ∀ q : Cell, q.parent.child q.octant = q := by
      intro q
      cases q
      simp only [Cell.parent, Cell.child, Cell.octant, Cell.mk.injEq, true_and]
      omega
    have e2 := hcc (cellAt (d + 1) c.b p)
    rw [hpar] at e2
    rw [e2]
    rfl

/-- **C44** for octrees built from points: pooling finite features from any depth below `full_depth` gives finite
features. -/
theorem C44_built {L : Type} [AddCommMonoid F] (nrm : V3 ℚ → V3 ℚ) (divF : ℚ → F → F) (o : Octree F) (pc : Points ℚ F L)
    (samples : List Nat) (h : LegalBuild o pc samples) {α : Type} [LinearOrder α] [OrderBot α] [Zero α] {C : Nat}
    (d : Nat) (hf : o.fullDepth ≤ d) (hd : d + 1 ≤ o.depth) :
    ∃ o' idx, Octree.build nrm divF o pc = .ok (o', idx) ∧
      ∀ x : List (Fin C → α), x.length = o'.nnumNempty (d + 1) → (∀ v ∈ x, ∀ k, v k ≠ ⊥) →
        ∃ y ix, octreeMaxPool x o' d true = .ok (y, ix) ∧ ∀ v ∈ y, ∀ k, v k ≠ ⊥ := by
  obtain ⟨o', idx, h1, h2, h3, h4, h5, cells, ch, h6⟩ := C07_build nrm divF o pc samples h
  refine ⟨o', idx, h1, ?_⟩
  intro x hx hfin
  obtain ⟨a1, a2, a3, -, -⟩ := h6 d (by omega)
  obtain ⟨b1, b2, b3, -, -⟩ := h6 (d + 1) hd
  rw [← h4] at a1 b1
  apply C44_partial o' o.depth h5 d hd _ _ _ _ a1 a2 b1 b2 _ x _ hfin
  · intro c hc
    obtain ⟨j, hj, ho⟩ := occupied_child h.inCube d c ((a3 hf c).1 hc)
    exact ⟨j, hj, (b3 (by omega) _).2 ho⟩
  · rw [hx]
    have := queried_length h5 (d + 1) hd true _ _ b1 b2
    simpa [queried] using this.symm

/-- **C44 is violated** in general: a well-formed octree, finite features, a pooled value `-inf`. -/
theorem C44_violated : ∃ (o : Octree Unit) (x y : List (Fin 1 → WithBot ℤ)) (ix : List (Fin 1 → Nat)), o.Valid 2 ∧
    x.length = o.nnumNempty 2 ∧ (∀ v ∈ x, ∀ k, v k ≠ ⊥) ∧ octreeMaxPool x o 1 true = .ok (y, ix) ∧ ∃ v ∈ y, v 0 = ⊥ := by
  obtain ⟨o, h0, h1, h2, h3, h4, h5, h6⟩ := example_valid
  rw [h3] at h1
  have hc := example_counts
  rw [h0] at hc
  simp only [Except.toOption, Option.map_some, Option.some.injEq, Prod.mk.injEq] at hc
  have hp : (exampleOctree.bind fun o => octreeMaxPool [fun _ => 0, fun _ => 5] o 1 true).toOption.map
      (fun r : List (Fin 1 → WithBot ℤ) × List (Fin 1 → Nat) => r.1.map fun v => v 0) = some [5, ⊥] := by decide +kernel
  rw [h0] at hp
  simp only [Except.bind] at hp
  cases hq : octreeMaxPool ([fun _ => 0, fun _ => 5] : List (Fin 1 → WithBot ℤ)) o 1 true with
  | error e => rw [hq] at hp; simp [Except.toOption] at hp
  | ok r =>
    rw [hq] at hp
    simp only [Except.toOption, Option.map_some, Option.some.injEq] at hp
    refine ⟨o, _, r.1, r.2, h1, by rw [hc.2.2.2]; rfl, ?_, hq, ?_⟩
    · intro v hv k
      simp only [List.mem_cons, List.not_mem_nil, or_false] at hv
      rcases hv with rfl | rfl <;> simp
    · have : (⊥ : WithBot ℤ) ∈ r.1.map fun v => v 0 := by rw [hp]; simp
      obtain ⟨v, hv, e⟩ := List.mem_map.1 this
      exact ⟨v, hv, e⟩

end Ocnn
