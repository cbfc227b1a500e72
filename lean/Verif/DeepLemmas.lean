import Verif.FullLemmas

/-! Second branch of `construct_neigh`. -/

set_option linter.unusedSimpArgs false

namespace Ocnn
open Spec

/-- What the two look-up tables mean (complete evaluation of the 8 × 27 tables): for octant `o` and
displacement `k`, `p` is the displacement of the parent and `c` the octant of the displaced child. -/
def LutEntry (o k : Nat) : Bool :=
  match (lutParent[o]?).bind (·[k]?), (lutChild[o]?).bind (·[k]?) with
  | some p, some c =>
    decide (0 ≤ p ∧ p < 27 ∧ 0 ≤ c ∧ c < 8 ∧
      2 * (disp p.toNat).1 + c / 4 % 2 = (o / 4 % 2 : Nat) + (disp k).1 ∧
      2 * (disp p.toNat).2.1 + c / 2 % 2 = (o / 2 % 2 : Nat) + (disp k).2.1 ∧
      2 * (disp p.toNat).2.2 + c % 2 = (o % 2 : Nat) + (disp k).2.2)
  | _, _ => false

theorem lut_all : ∀ o < 8, ∀ k < 27, LutEntry o k = true := by decide +kernel

theorem lutParent_length : lutParent.length = 8 := by decide
theorem lutChild_length : lutChild.length = 8 := by decide
theorem lutParent_rows : ∀ r ∈ lutParent, r.length = 27 := by decide
theorem lutChild_rows : ∀ r ∈ lutChild, r.length = 27 := by decide

theorem lut_spec (o k : Nat) (ho : o < 8) (hk : k < 27) :
    ∃ p c : Nat, p < 27 ∧ c < 8 ∧
      (∃ rp rc, lutParent[o]? = some rp ∧ lutChild[o]? = some rc ∧ rp[k]? = some (p : Int) ∧
        rc[k]? = some (c : Int)) ∧
      2 * (disp p).1 + (c / 4 % 2 : Nat) = (o / 4 % 2 : Nat) + (disp k).1 ∧
      2 * (disp p).2.1 + (c / 2 % 2 : Nat) = (o / 2 % 2 : Nat) + (disp k).2.1 ∧
      2 * (disp p).2.2 + (c % 2 : Nat) = (o % 2 : Nat) + (disp k).2.2 := by
  have h := lut_all o ho k hk
  unfold LutEntry at h
  split at h
  · rename_i p c hp hc
    simp only [decide_eq_true_eq] at h
    obtain ⟨h1, h2, h3, h4, h5, h6, h7⟩ := h
    rw [Option.bind_eq_some_iff] at hp hc
    obtain ⟨rp, hrp, hp⟩ := hp
    obtain ⟨rc, hrc, hc⟩ := hc
    refine ⟨p.toNat, c.toNat, by omega, by omega, ⟨rp, rc, hrp, hrc, ?_, ?_⟩, ?_, ?_, ?_⟩
    · rw [hp]; congr 1; omega
    · rw [hc]; congr 1; omega
    · rw [← h5]; congr 1; omega
    · rw [← h6]; congr 1; omega
    · rw [← h7]; congr 1; omega
  · simp at h

/-- one entry of the child rows -/
def deepVal (childP r : List Int) (p c : Int) : M Int := do
  let n ← getIdx r p
  let ch ← getIdx childP n
  if ch < 0 ∨ n < 0 then pure (-1) else pure (ch * 8 + c)

theorem deepRows_eq (childP r : List Int) :
    Octree.deepRows childP r = (lutParent.zip lutChild).mapM fun (lp, lc) =>
      (lp.zip lc).mapM fun (p, c) => deepVal childP r p c := rfl

theorem getIdx_neg_one {α : Type _} (t : List α) (h : t ≠ []) : ∃ v, getIdx t (-1) = .ok v := by
  have hl : 0 < t.length := List.length_pos_iff.mpr h
  unfold getIdx normIdx
  have h1 : ¬ ((0 : Int) ≤ -1 ∧ (-1 : Int) < t.length) := by omega
  have h2 : ((-1 : Int) < 0 ∧ -(t.length : Int) ≤ -1) := by omega
  have h3 : (-1 + (t.length : Int)).toNat < t.length := by omega
  rw [if_neg h1, if_pos h2]
  simp only [bind, Except.bind]
  rw [List.getElem?_eq_getElem h3]
  exact ⟨_, rfl⟩

theorem getIdx_of_getElem? {α : Type _} {t : List α} {j : Nat} {v : α} (h : t[j]? = some v) :
    getIdx t (j : Int) = .ok v := by
  obtain ⟨hj, e⟩ := List.getElem?_eq_some_iff.mp h
  rw [getIdx_ok t j hj, e]

/-- shifting of a child cell in terms of the parents -/
theorem isShift_child (P q : Cell) (o o' k p c : Nat) (ho : o < 8) (ho' : o' < 8) (hc : c < 8)
    (e1 : 2 * (disp p).1 + (c / 4 % 2 : Nat) = (o / 4 % 2 : Nat) + (disp k).1)
    (e2 : 2 * (disp p).2.1 + (c / 2 % 2 : Nat) = (o / 2 % 2 : Nat) + (disp k).2.1)
    (e3 : 2 * (disp p).2.2 + (c % 2 : Nat) = (o % 2 : Nat) + (disp k).2.2) :
    IsShift (P.child o) (q.child o') (disp k) ↔ IsShift P q (disp p) ∧ o' = c := by
  unfold IsShift Cell.child
  simp only
  constructor
  · rintro ⟨h0, h1, h2, h3⟩
    push_cast at *
    refine ⟨⟨h0, ?_, ?_, ?_⟩, ?_⟩ <;> omega
  · rintro ⟨⟨h0, h1, h2, h3⟩, rfl⟩
    push_cast at *
    refine ⟨h0, ?_, ?_, ?_⟩ <;> omega

theorem isShift_unique {P q q' : Cell} {g : Int × Int × Int} (h : IsShift P q g) (h' : IsShift P q' g) :
    q = q' := by
  obtain ⟨a0, a1, a2, a3⟩ := h
  obtain ⟨b0, b1, b2, b3⟩ := h'
  cases q; cases q'
  simp only [Cell.mk.injEq] at *
  omega

/-- One entry is computed without error and refers to the right cell. -/
theorem deepVal_spec (P : List Cell) (m : List Bool) (hnodup : P.Nodup) (hlen : m.length = P.length)
    (row : List Int) (Pi : Cell) (hPi : Pi ∈ P) (hrow : row.length = 27)
    (href : ∀ (k : Nat) (v : Int), row[k]? = some v → RefersTo P Pi (disp k) v)
    (o k p c : Nat) (ho : o < 8) (hp : p < 27) (hc : c < 8)
    (e1 : 2 * (disp p).1 + (c / 4 % 2 : Nat) = (o / 4 % 2 : Nat) + (disp k).1)
    (e2 : 2 * (disp p).2.1 + (c / 2 % 2 : Nat) = (o / 2 % 2 : Nat) + (disp k).2.1)
    (e3 : 2 * (disp p).2.2 + (c % 2 : Nat) = (o % 2 : Nat) + (disp k).2.2) :
    ∃ v, deepVal (number 0 m) row p c = .ok v ∧
      RefersTo (expand 8 Cell.child (maskSel m P)) (Pi.child o) (disp k) v := by
  obtain ⟨n, hn⟩ : ∃ n, row[p]? = some n := ⟨_, List.getElem?_eq_getElem (by omega)⟩
  have hne : number 0 m ≠ [] := by
    intro h
    have := congrArg List.length h
    rw [number_length, hlen] at this
    rw [List.length_eq_zero_iff.mp this] at hPi
    simp at hPi
  unfold deepVal
  rw [getIdx_of_getElem? hn]
  simp only [bind, Except.bind]
  -- no cell of the child layer matches if no matching parent is selected
  have hnone : (∀ q ∈ maskSel m P, ¬ IsShift Pi q (disp p)) →
      ∀ c' ∈ expand 8 Cell.child (maskSel m P), ¬ IsShift (Pi.child o) c' (disp k) := by
    intro h c' hc' hs
    rw [mem_expand] at hc'
    obtain ⟨q, hq, o', ho', rfl⟩ := hc'
    exact h q hq ((isShift_child Pi q o o' k p c ho ho' hc e1 e2 e3).mp hs).1
  rcases href p n hn with ⟨j, q, rfl, hq, hs⟩ | ⟨rfl, hno⟩
  · have hj : j < m.length := by
      rw [hlen]; exact (List.getElem?_eq_some_iff.mp hq).1
    have hnum := number_getElem? 0 m j
    rw [List.getElem?_eq_getElem hj] at hnum
    simp only [Option.map_some] at hnum
    rw [getIdx_of_getElem? hnum]
    simp only
    cases hmj : m[j] with
    | true =>
      have hmj' : m[j]? = some true := by rw [List.getElem?_eq_getElem hj, hmj]
      have : ¬ (((0 + rank m j : Nat) : Int) < 0 ∨ (j : Int) < 0) := by omega
      simp only [if_true, this, if_false, pure, Except.pure]
      refine ⟨_, rfl, ?_⟩
      left
      refine ⟨8 * rank m j + c, q.child c, by push_cast; ring, ?_, ?_⟩
      · rw [expand_getElem? _ _ _ _ _ hc, maskSel_getElem?_rank m P j hmj', hq]
        rfl
      · exact (isShift_child Pi q o c k p c ho hc hc e1 e2 e3).mpr ⟨hs, rfl⟩
    | false =>
      refine ⟨-1, by simp [pure, Except.pure], ?_⟩
      right
      refine ⟨rfl, hnone ?_⟩
      intro q' hq' hs'
      have : q = q' := isShift_unique hs hs'
      subst this
      rw [mem_maskSel] at hq'
      obtain ⟨i, hi, hiq⟩ := hq'
      have := nodup_getElem?_inj hnodup hiq hq
      subst this
      rw [List.getElem?_eq_getElem hj, hmj] at hi
      simp at hi
  · obtain ⟨w, hw⟩ := getIdx_neg_one _ hne
    rw [hw]
    simp only
    have : (w < 0 ∨ (-1 : Int) < 0) := Or.inr (by omega)
    simp only [this, if_true, pure, Except.pure]
    refine ⟨_, rfl, ?_⟩
    right
    refine ⟨rfl, hnone ?_⟩
    intro q hq
    exact hno q ((maskSel_sublist _ _).subset hq)

theorem zip_getElem?' {α β : Type _} (l : List α) (l' : List β) (i : Nat) (a : α) (b : β)
    (h : l[i]? = some a) (h' : l'[i]? = some b) : (l.zip l')[i]? = some (a, b) := by
  rw [List.getElem?_zip_eq_some]; exact ⟨h, h'⟩

/-- The eight rows of the children of one parent. -/
theorem deepRows_spec (P : List Cell) (m : List Bool) (hnodup : P.Nodup) (hlen : m.length = P.length)
    (row : List Int) (Pi : Cell) (hPi : Pi ∈ P) (hrow : row.length = 27)
    (href : ∀ (k : Nat) (v : Int), row[k]? = some v → RefersTo P Pi (disp k) v) :
    ∃ rows, Octree.deepRows (number 0 m) row = .ok rows ∧ rows.length = 8 ∧
      ∀ (o : Nat) (r : List Int), rows[o]? = some r → r.length = 27 ∧
        ∀ (k : Nat) (v : Int), r[k]? = some v →
        RefersTo (expand 8 Cell.child (maskSel m P)) (Pi.child o) (disp k) v := by
  have hval := deepVal_spec P m hnodup hlen row Pi hPi hrow href
  -- every entry of the zipped tables is computed
  have hent : ∀ (o : Nat) lp lc, (lutParent.zip lutChild)[o]? = some (lp, lc) →
      lp.length = 27 ∧ lc.length = 27 ∧ o < 8 ∧ ∀ k p c, (lp.zip lc)[k]? = some (p, c) →
        ∃ v, deepVal (number 0 m) row p c = .ok v ∧
          RefersTo (expand 8 Cell.child (maskSel m P)) (Pi.child o) (disp k) v := by
    intro o lp lc h
    rw [List.getElem?_zip_eq_some] at h
    obtain ⟨h1, h2⟩ := h
    have l1 := lutParent_rows lp (List.mem_of_getElem? h1)
    have l2 := lutChild_rows lc (List.mem_of_getElem? h2)
    have ho : o < 8 := by
      have := (List.getElem?_eq_some_iff.mp h1).1
      rwa [lutParent_length] at this
    refine ⟨l1, l2, ho, ?_⟩
    intro k p c hk
    rw [List.getElem?_zip_eq_some] at hk
    obtain ⟨hk1, hk2⟩ := hk
    have hk27 : k < 27 := by
      have := (List.getElem?_eq_some_iff.mp hk1).1
      omega
    obtain ⟨p', c', hp', hc', ⟨rp, rc, g1, g2, g3, g4⟩, e1, e2, e3⟩ := lut_spec o k ho hk27
    rw [h1] at g1; cases g1
    rw [h2] at g2; cases g2
    rw [hk1] at g3; cases g3
    rw [hk2] at g4; cases g4
    exact hval o k p' c' ho hp' hc' e1 e2 e3
  have hmem : ∀ {α : Type} (l : List α) (a : α), a ∈ l → ∃ i : Nat, l[i]? = some a :=
    fun l a h => List.mem_iff_getElem?.mp h
  rw [deepRows_eq]
  -- inner rows
  have hin : ∀ a ∈ lutParent.zip lutChild, ∃ b, (fun (x : List Int × List Int) =>
      (x.1.zip x.2).mapM fun (y : Int × Int) => deepVal (number 0 m) row y.1 y.2) a = .ok b := by
    intro a ha
    obtain ⟨o, ho⟩ := hmem _ _ ha
    obtain ⟨_, _, _, h⟩ := hent o a.1 a.2 ho
    refine ⟨_, mapM_getOk _ _ ?_⟩
    intro y hy
    obtain ⟨k, hk⟩ := hmem _ _ hy
    obtain ⟨v, hv, _⟩ := h k y.1 y.2 hk
    exact ⟨v, hv⟩
  refine ⟨_, mapM_getOk _ _ hin, ?_, ?_⟩
  · simp [lutParent_length, lutChild_length]
  · intro o r hr
    rw [List.getElem?_map, Option.map_eq_some_iff] at hr
    obtain ⟨⟨lp, lc⟩, ho, hr⟩ := hr
    obtain ⟨l1, l2, ho8, h⟩ := hent o lp lc ho
    have hrow2 : (lp.zip lc).mapM (fun (y : Int × Int) => deepVal (number 0 m) row y.1 y.2)
        = .ok ((lp.zip lc).map (getOk fun (y : Int × Int) => deepVal (number 0 m) row y.1 y.2)) := by
      apply mapM_getOk
      intro y hy
      obtain ⟨k, hk⟩ := hmem _ _ hy
      obtain ⟨v, hv, _⟩ := h k y.1 y.2 hk
      exact ⟨v, hv⟩
    have hr' : r = (lp.zip lc).map (getOk fun (y : Int × Int) => deepVal (number 0 m) row y.1 y.2) := by
      rw [← hr]
      simp only [getOk]
      rw [hrow2]
    subst hr'
    refine ⟨by simp [l1, l2], ?_⟩
    intro k v hv
    rw [List.getElem?_map, Option.map_eq_some_iff] at hv
    obtain ⟨⟨p, c⟩, hk, hv⟩ := hv
    obtain ⟨v', hv', hs⟩ := h k p c hk
    have : v = v' := by
      rw [← hv]; simp only [getOk, hv']
    rw [this]
    exact hs

theorem flatten_getElem?_eight {α : Type _} (L : List (List α)) (h : ∀ l ∈ L, l.length = 8) (r o : Nat)
    (ho : o < 8) : L.flatten[8 * r + o]? = L[r]?.bind fun l => l[o]? := by
  induction L generalizing r with
  | nil => simp
  | cons l L ih =>
    have hl : l.length = 8 := h l (by simp)
    rw [List.flatten_cons]
    cases r with
    | zero => rw [List.getElem?_append_left (by omega)]; simp
    | succ r =>
      rw [List.getElem?_append_right (by omega)]
      have : 8 * (r + 1) + o - l.length = 8 * r + o := by omega
      rw [this, ih (fun l hl => h l (List.mem_cons_of_mem _ hl))]
      simp

theorem flatten_length_eight {α : Type _} (L : List (List α)) (h : ∀ l ∈ L, l.length = 8) :
    L.flatten.length = 8 * L.length := by
  induction L with
  | nil => rfl
  | cons l L ih =>
    rw [List.flatten_cons, List.length_append, h l (by simp),
      ih (fun l hl => h l (List.mem_cons_of_mem _ hl)), List.length_cons]
    omega

/-- The whole layer. -/
theorem neighTable_deep (P : List Cell) (m : List Bool) (hnodup : P.Nodup) (hlen : m.length = P.length)
    (rowsP : List (List Int)) (hP : NeighTable P rowsP) :
    ∃ rows, (maskSel m rowsP).mapM (Octree.deepRows (number 0 m)) = .ok rows ∧
      NeighTable (expand 8 Cell.child (maskSel m P)) rows.flatten := by
  obtain ⟨hl, ht⟩ := hP
  have hrow : ∀ (r : Nat) (row : List Int), (maskSel m rowsP)[r]? = some row →
      ∃ Pi : Cell, (maskSel m P)[r]? = some Pi ∧
      ∃ rows : List (List Int), Octree.deepRows (number 0 m) row = .ok rows ∧ rows.length = 8 ∧
      ∀ (o : Nat) (r : List Int), rows[o]? = some r → r.length = 27 ∧ ∀ (k : Nat) (v : Int), r[k]? = some v →
        RefersTo (expand 8 Cell.child (maskSel m P)) (Pi.child o) (disp k) v := by
    intro r row hr
    obtain ⟨i, h1, h2, h3⟩ := exists_of_maskSel m rowsP r row hr
    have hi : i < P.length := by
      rw [← hl]; exact (List.getElem?_eq_some_iff.mp h2).1
    have hPi : P[i]? = some P[i] := List.getElem?_eq_getElem hi
    obtain ⟨hrl, href⟩ := ht i _ row hPi h2
    refine ⟨P[i], ?_, deepRows_spec P m hnodup hlen row P[i] (List.mem_of_getElem? hPi) hrl href⟩
    rw [← h3, maskSel_getElem?_rank m P i h1, hPi]
  have hmem : ∀ a ∈ maskSel m rowsP, ∃ b, Octree.deepRows (number 0 m) a = .ok b := by
    intro a ha
    obtain ⟨r, hr⟩ := List.mem_iff_getElem?.mp ha
    obtain ⟨_, _, rows, h, _⟩ := hrow r a hr
    exact ⟨rows, h⟩
  refine ⟨_, mapM_getOk _ _ hmem, ?_⟩
  have h8 : ∀ l ∈ (maskSel m rowsP).map (getOk (Octree.deepRows (number 0 m))), l.length = 8 := by
    intro l hl'
    rw [List.mem_map] at hl'
    obtain ⟨a, ha, rfl⟩ := hl'
    obtain ⟨r, hr⟩ := List.mem_iff_getElem?.mp ha
    obtain ⟨_, _, rows, h, h8, _⟩ := hrow r a hr
    simp only [getOk, h, h8]
  constructor
  · rw [flatten_length_eight _ h8, List.length_map, expand_length, maskSel_length _ _ (by omega),
      maskSel_length _ _ hlen]
  · intro i c row hc hrow'
    have hi : i = 8 * (i / 8) + i % 8 := by omega
    have ho : i % 8 < 8 := by omega
    rw [hi, flatten_getElem?_eight _ h8 _ _ ho, Option.bind_eq_some_iff] at hrow'
    obtain ⟨l, hl1, hl2⟩ := hrow'
    rw [List.getElem?_map, Option.map_eq_some_iff] at hl1
    obtain ⟨rp, hrp, rfl⟩ := hl1
    obtain ⟨Pi, hPi, rows, hrows, _, hspec⟩ := hrow _ rp hrp
    rw [hi, expand_getElem? _ _ _ _ _ ho, hPi] at hc
    simp only [Option.map_some, Option.some.injEq] at hc
    subst hc
    simp only [getOk, hrows] at hl2
    exact hspec _ _ hl2

theorem constructNeigh_deep {F : Type} (o : Octree F) (d : Nat) (hd : o.fullDepth < d + 1)
    (hd' : d + 1 ≤ o.depth) (P : List Cell) (m : List Bool) (hnodup : P.Nodup)
    (hlen : m.length = P.length) (rowsP : List (List Int)) (hP : NeighTable P rowsP)
    (hchild : o.children d = some (number 0 m)) (hneigh : o.neighs d = some rowsP) :
    ∃ rows, o.constructNeigh (d + 1) = .ok { o with neighs := upd o.neighs (d + 1) (some rows) } ∧
      NeighTable (expand 8 Cell.child (maskSel m P)) rows := by
  obtain ⟨rows, h1, h2⟩ := neighTable_deep P m hnodup hlen rowsP hP
  refine ⟨rows.flatten, ?_, h2⟩
  unfold Octree.constructNeigh
  have hnle : ¬ (d + 1 ≤ o.fullDepth) := by omega
  have hl : m.length = rowsP.length := by rw [hlen, hP.1]
  simp only [hnle, if_false, Octree.chk, hd', if_true, bind, Except.bind, Nat.add_sub_cancel, hchild, hneigh,
    need, number_mask, boolIndex, hl, pure, Except.pure, h1]

end Ocnn
