import Verif.Tensors
import Verif.BuildMain
import Mathlib.Algebra.BigOperators.Group.List.Basic
import Mathlib.Tactic.Ring
import Mathlib.Tactic.FieldSimp
import Mathlib.Tactic.Linarith
import Mathlib.Analysis.SpecialFunctions.Sqrt
import Mathlib.Tactic.Positivity

/-! Properties C120 (scatter_add along any dimension) and C121 (initialisation of the weights). -/

namespace Ocnn
variable {V : Type}

/-! ### positions -/

theorem ndPositions_length {s p : List Nat} (h : p ∈ ndPositions s) : p.length = s.length := by
  induction s generalizing p with
  | nil => simp only [ndPositions, List.mem_singleton] at h; simp [h]
  | cons n s ih =>
    simp only [ndPositions, List.mem_flatMap, List.mem_map] at h
    obtain ⟨k, _, q, hq, rfl⟩ := h
    simp [ih hq]

theorem mem_ndPositions_cons {n k : Nat} {s p : List Nat} : k :: p ∈ ndPositions (n :: s) ↔ k < n ∧ p ∈ ndPositions s := by
  simp [ndPositions]

theorem mem_ndPositions_append {s t p q : List Nat} (hp : p.length = s.length) :
    p ++ q ∈ ndPositions (s ++ t) ↔ p ∈ ndPositions s ∧ q ∈ ndPositions t := by
  induction s generalizing p with
  | nil =>
    have : p = [] := List.length_eq_zero_iff.mp hp
    subst this
    simp [ndPositions]
  | cons n s ih =>
    cases p with
    | nil => simp at hp
    | cons k p =>
      rw [List.cons_append, List.cons_append, mem_ndPositions_cons, mem_ndPositions_cons, ih (by simpa using hp), and_assoc]

theorem ndPositions_nodup (s : List Nat) : (ndPositions s).Nodup := by
  induction s with
  | nil => simp [ndPositions]
  | cons n s ih =>
    unfold ndPositions
    rw [List.nodup_flatMap]
    refine ⟨fun k _ => ih.map (List.cons_injective), ?_⟩
    apply List.Pairwise.imp _ (List.nodup_range (n := n))
    intro a b hab
    simp only [Function.onFun, List.disjoint_left, List.mem_map]
    rintro x ⟨y, _, rfl⟩ ⟨z, _, hz⟩
    exact hab (by simpa using (List.cons.inj hz).1.symm)

theorem sum_range_single [AddCommMonoid V] (n a : Nat) (ha : a < n) (X : Nat → V) :
    ((List.range n).map fun k => if k = a then X k else 0).sum = X a := by
  induction n with
  | zero => omega
  | succ n ih =>
    rw [List.range_succ, List.map_append, List.sum_append]
    rcases Nat.lt_or_ge a n with h | h
    · rw [ih h]; simp [show ¬ n = a by omega]
    · obtain rfl : a = n := by omega
      have : ((List.range a).map fun k => if k = a then X k else 0) = List.replicate a 0 := by
        rw [List.eq_replicate_iff]
        refine ⟨by simp, ?_⟩
        intro b hb
        obtain ⟨k, hk, rfl⟩ := List.mem_map.mp hb
        rw [if_neg (by have := List.mem_range.mp hk; omega)]
      rw [this]
      simp

theorem sum_filter_eq [AddCommMonoid V] {l : List (List Nat)} (hn : l.Nodup) {b : List Nat} (hb : b ∈ l) (g : List Nat → V) :
    ((l.filter fun p => decide (p = b)).map g).sum = g b := by
  have : l.filter (fun p => decide (p = b)) = [b] := by
    induction l with
    | nil => simp at hb
    | cons a l ih =>
      obtain ⟨h1, h2⟩ := List.nodup_cons.mp hn
      rw [List.filter_cons]
      by_cases e : a = b
      · subst e
        rw [if_pos (by simp)]
        congr 1
        rw [List.filter_eq_nil_iff]
        intro x hx hxa
        exact h1 (by have := of_decide_eq_true hxa; rwa [this] at hx)
      · rw [if_neg (by simpa using e)]
        exact ih h2 (by simpa [show b ≠ a from fun h => e h.symm] using hb)
  rw [this]
  simp

theorem sum_filter_flatMap [AddCommMonoid V] (n : Nat) (f : Nat → List (List Nat)) (P : List Nat → Bool) (g : List Nat → V) :
    ((((List.range n).flatMap f).filter P).map g).sum = ((List.range n).map fun k => (((f k).filter P).map g).sum).sum := by
  generalize List.range n = l
  induction l with
  | nil => rfl
  | cons a l ih => simp [List.flatMap_cons, List.filter_append, ih]

/-- the sum of the entries that are moved to one position -/
theorem sum_moved [AddCommMonoid V] (f : Nat → Nat) (n j : Nat) (pre post a b : List Nat) (ha : a ∈ ndPositions pre) (hb : b ∈ ndPositions post)
    (g : List Nat → V) :
    (((ndPositions (pre ++ n :: post)).filter fun p => decide (p.set pre.length (f (p.getD pre.length 0)) = a ++ j :: b)).map g).sum
      = (((List.range n).filter fun k => decide (f k = j)).map fun k => g (a ++ k :: b)).sum := by
  induction pre generalizing a g with
  | nil =>
    simp only [ndPositions, List.mem_singleton] at ha
    subst ha
    simp only [List.nil_append, ndPositions]
    rw [sum_filter_flatMap]
    have : ∀ k, ((((ndPositions post).map (k :: ·)).filter fun p => decide (p.set ([] : List Nat).length (f (p.getD ([] : List Nat).length 0)) = j :: b)).map g).sum
        = if f k = j then g (k :: b) else 0 := by
      intro k
      rw [List.filter_map, List.map_map]
      by_cases hk : f k = j
      · rw [if_pos hk]
        have : ((fun p => decide (p.set ([] : List Nat).length (f (p.getD ([] : List Nat).length 0)) = j :: b)) ∘ (k :: ·)) = fun p => decide (p = b) := by
          funext p
          simp [hk]
        rw [this]
        exact sum_filter_eq (ndPositions_nodup post) hb (g ∘ (k :: ·))
      · rw [if_neg hk]
        have : ((fun p => decide (p.set ([] : List Nat).length (f (p.getD ([] : List Nat).length 0)) = j :: b)) ∘ (k :: ·)) = fun p => false := by
          funext p
          simp [hk]
        rw [this]
        simp
    simp only [this]
    generalize List.range n = l
    induction l with
    | nil => rfl
    | cons x l ih =>
      rw [List.map_cons, List.sum_cons, List.filter_cons, ih]
      by_cases hx : f x = j <;> simp [hx]
  | cons m pre ih =>
    cases a with
    | nil => have := ndPositions_length ha; simp at this
    | cons a0 a =>
      obtain ⟨h0, h1⟩ := mem_ndPositions_cons.mp ha
      simp only [List.cons_append, ndPositions]
      rw [sum_filter_flatMap]
      have : ∀ k, ((((ndPositions (pre ++ n :: post)).map (k :: ·)).filter fun p => decide (p.set (m :: pre).length (f (p.getD (m :: pre).length 0)) = a0 :: (a ++ j :: b))).map g).sum
          = if k = a0 then (((List.range n).filter fun k => decide (f k = j)).map fun k' => g (k :: (a ++ k' :: b))).sum else 0 := by
        intro k
        rw [List.filter_map, List.map_map]
        by_cases hk : k = a0
        · subst hk
          rw [if_pos rfl]
          have : ((fun p => decide (p.set (m :: pre).length (f (p.getD (m :: pre).length 0)) = k :: (a ++ j :: b))) ∘ (k :: ·))
              = fun p => decide (p.set pre.length (f (p.getD pre.length 0)) = a ++ j :: b) := by
            funext p
            simp
          rw [this]
          exact ih a h1 (g ∘ (k :: ·))
        · rw [if_neg hk]
          have : ((fun p => decide (p.set (m :: pre).length (f (p.getD (m :: pre).length 0)) = a0 :: (a ++ j :: b))) ∘ (k :: ·)) = fun p => false := by
            funext p
            simp [hk]
          rw [this]
          simp
      simp only [this]
      exact sum_range_single m a0 h0 (fun k => (((List.range n).filter fun k => decide (f k = j)).map fun k' => g (k :: (a ++ k' :: b))).sum)

/-! ### broadcasting an index -/

theorem unsqueezeFirst_iterate (t : Nd V) (n : Nat) :
    (Nd.unsqueezeFirst^[n] t) = ⟨List.replicate n 1 ++ t.shape, fun i => t.get (i.drop n)⟩ := by
  induction n with
  | zero => rfl
  | succ n ih =>
    rw [Function.iterate_succ_apply', ih]
    simp only [Nd.unsqueezeFirst, List.replicate_succ, List.cons_append, List.drop_tail]

theorem unsqueezeLast_iterate (t : Nd V) (n : Nat) :
    (Nd.unsqueezeLast^[n] t) = ⟨t.shape ++ List.replicate n 1, fun i => t.get (i.take (i.length - n))⟩ := by
  induction n with
  | zero => simp
  | succ n ih =>
    rw [Function.iterate_succ_apply', ih]
    simp only [Nd.unsqueezeLast, List.append_assoc, Nd.mk.injEq]
    refine ⟨by rw [List.replicate_succ'], ?_⟩
    funext i
    congr 1
    rw [List.dropLast_eq_take, List.length_take, List.take_take]
    congr 1
    omega

/-- the position of the index that an entry uses -/
theorem broadcast_index (index : List Int) (pre post : List Nat) (n : Nat) (dim : Int)
    (hdim : dim = pre.length ∨ dim = (pre.length : Int) - (pre ++ n :: post).length)
    (hn : index.length = n ∨ index.length = 1) :
    ∃ ix, broadcast ⟨[index.length], fun i => index.getD (i.headD 0) 0⟩ (pre ++ n :: post) dim = .ok ix ∧ ix.shape = pre ++ n :: post ∧
      ∀ p ∈ ndPositions (pre ++ n :: post), ix.get p = index.getD (if index.length = 1 then 0 else p.getD pre.length 0) 0 := by
  have hd : (if dim < 0 then ((pre ++ n :: post).length : Int) + dim else dim).toNat = pre.length := by
    rcases hdim with rfl | rfl
    · rw [if_neg (by omega)]; omega
    · rw [if_pos (by simp only [List.length_append, List.length_cons]; omega)]; omega
  unfold broadcast
  dsimp only
  rw [if_pos (by simp), hd, unsqueezeFirst_iterate, unsqueezeLast_iterate]
  dsimp only
  unfold Nd.expandAs
  have hlen : (pre ++ n :: post).length - (List.replicate pre.length 1 ++ [index.length]).length = post.length := by
    simp only [List.length_append, List.length_cons, List.length_replicate, List.length_nil]; omega
  rw [hlen]
  rw [if_pos]
  · refine ⟨_, rfl, rfl, ?_⟩
    intro p hp
    have hl := ndPositions_length hp
    simp only [List.length_append, List.length_cons] at hl
    obtain ⟨a, k, b, rfl, ha, hb⟩ : ∃ a k b, p = a ++ k :: b ∧ a.length = pre.length ∧ b.length = post.length := by
      refine ⟨p.take pre.length, p[pre.length]'(by omega), p.drop (pre.length + 1), ?_, by simp; omega, by simp; omega⟩
      rw [List.getElem_cons_drop, List.take_append_drop]
    dsimp only
    have hz : List.zipWith (fun n k => if n = 1 then 0 else k) (List.replicate pre.length 1 ++ [index.length] ++ List.replicate post.length 1) (a ++ k :: b)
        = List.replicate pre.length 0 ++ (if index.length = 1 then 0 else k) :: List.replicate post.length 0 := by
      rw [List.append_assoc, List.zipWith_append (by simp [ha])]
      simp only [List.singleton_append, List.zipWith_cons_cons]
      congr 1
      · rw [List.eq_replicate_iff]
        refine ⟨by simp [ha], ?_⟩
        intro x hx
        rw [List.mem_iff_getElem] at hx
        obtain ⟨i, hi, rfl⟩ := hx
        simp
      · congr 1
        rw [List.eq_replicate_iff]
        refine ⟨by simp [hb], ?_⟩
        intro x hx
        rw [List.mem_iff_getElem] at hx
        obtain ⟨i, hi, rfl⟩ := hx
        simp
    rw [hz]
    have hgd : (a ++ k :: b).getD pre.length 0 = k := by
      rw [List.getD_eq_getElem?_getD, ← ha]
      simp
    rw [hgd]
    congr 1
    have : List.take ((List.replicate pre.length 0 ++ (if index.length = 1 then 0 else k) :: List.replicate post.length 0).length - post.length)
        (List.replicate pre.length 0 ++ (if index.length = 1 then 0 else k) :: List.replicate post.length 0)
        = List.replicate pre.length 0 ++ [if index.length = 1 then 0 else k] := by
      rw [← List.singleton_append, ← List.append_assoc, List.take_append_of_le_length (by simp; omega)]
      apply List.take_of_length_le
      simp
      omega
    rw [this, List.drop_append_of_le_length (by simp)]
    simp
  · constructor
    · simp only [List.length_append, List.length_cons, List.length_replicate, List.length_nil]; omega
    · intro q hq
      rw [List.append_assoc, List.zip_append (by simp)] at hq
      rcases List.mem_append.mp hq with h | h
      · right
        exact List.eq_of_mem_replicate (List.of_mem_zip h).1
      · simp only [List.singleton_append, List.zip_cons_cons, List.mem_cons] at h
        rcases h with rfl | h
        · exact hn
        · right
          exact List.eq_of_mem_replicate (List.of_mem_zip h).1

/-! ### the properties -/

theorem zeros_mem {s : List Nat} (h : ∀ m ∈ s, 0 < m) : List.replicate s.length 0 ∈ ndPositions s := by
  induction s with
  | nil => simp [ndPositions]
  | cons n s ih =>
    simp only [List.length_cons, List.replicate_succ]
    exact mem_ndPositions_cons.mpr ⟨h n (by simp), ih fun m hm => h m (by simp [hm])⟩

theorem ndPositions_split {pre post p : List Nat} {n : Nat} (hp : p ∈ ndPositions (pre ++ n :: post)) :
    ∃ a k b, p = a ++ k :: b ∧ a ∈ ndPositions pre ∧ k < n ∧ b ∈ ndPositions post := by
  have hl := ndPositions_length hp
  simp only [List.length_append, List.length_cons] at hl
  have e : p = p.take pre.length ++ p[pre.length]'(by omega) :: p.drop (pre.length + 1) := by
    rw [List.getElem_cons_drop, List.take_append_drop]
  rw [e, mem_ndPositions_append (by simp; omega), mem_ndPositions_cons] at hp
  exact ⟨_, _, _, e, hp.1, hp.2.1, hp.2.2⟩

/-- C120: `scatter_add` along dimension `dim` (counted from the front or from the back) of a tensor with any number of
dimensions, for a one-dimensional index: the result has the shape of the source with `size` in place of the size along
`dim`, and its entry at `(a, j, b)` is the sum of the entries `(a, k, b)` of the source whose index is `j`.  The size is
the given one, or one more than the largest index. -/
theorem C120_scatter_add [AddCommMonoid V] (src : Nd V) (index : List Nat) (pre post : List Nat) (n size : Nat) (dim : Int) (dimSize : Option Nat)
    (hs : src.shape = pre ++ n :: post) (hn : index.length = n)
    (hdim : dim = pre.length ∨ dim = (pre.length : Int) - src.shape.length) (hlt : ∀ i ∈ index, i < size)
    (hsize : dimSize = some size ∨ dimSize = none ∧ (size = 0 ∨ size - 1 ∈ index) ∧ ∀ m ∈ pre ++ post, 0 < m) :
    ∃ out, scatterAddNd src ⟨[index.length], fun i => ((index.map Int.ofNat).getD (i.headD 0) 0)⟩ dim dimSize = .ok out ∧
      out.shape = pre ++ size :: post ∧
      ∀ a ∈ ndPositions pre, ∀ b ∈ ndPositions post, ∀ j,
        out.get (a ++ j :: b) = (((List.range n).filter fun k => decide (index[k]? = some j)).map fun k => src.get (a ++ k :: b)).sum := by
  obtain ⟨ix, hb, hbs, hbg⟩ := broadcast_index (index.map Int.ofNat) pre post n dim (by rw [hs] at hdim; exact hdim) (Or.inl (by simpa using hn))
  rw [List.length_map] at hb hbg
  have hget : ∀ p ∈ ndPositions (pre ++ n :: post), p.getD pre.length 0 < n ∧ ix.get p = Int.ofNat (index.getD (p.getD pre.length 0) 0) := by
    intro p hp
    obtain ⟨a, k, b, rfl, ha, hk, -⟩ := ndPositions_split hp
    have hgd : (a ++ k :: b).getD pre.length 0 = k := by
      rw [List.getD_eq_getElem?_getD, ← ndPositions_length ha]
      simp
    rw [hbg _ hp, hgd]
    refine ⟨hk, ?_⟩
    have e : (if index.length = 1 then 0 else k) = k := by
      split
      · omega
      · rfl
    rw [e]
    simp only [List.getD_eq_getElem?_getD, List.getElem?_map]
    rw [List.getElem?_eq_getElem (by omega)]
    rfl
  have hvals : (ndPositions ix.shape).map ix.get = ((ndPositions (pre ++ n :: post)).map fun p => index.getD (p.getD pre.length 0) 0).map Int.ofNat := by
    rw [hbs, List.map_map]
    exact List.map_congr_left fun p hp => (hget p hp).2
  have hin : ∀ x ∈ (ndPositions (pre ++ n :: post)).map fun p => index.getD (p.getD pre.length 0) 0, x < size := by
    intro x hx
    obtain ⟨p, hp, rfl⟩ := List.mem_map.mp hx
    have := (hget p hp).1
    rw [List.getD_eq_getElem?_getD, List.getElem?_eq_getElem (by omega)]
    exact hlt _ (List.getElem_mem _)
  have hmax : dimSize.getD (maxPlusOne ((ndPositions ix.shape).map ix.get)) = size := by
    rcases hsize with rfl | ⟨rfl, h1, h2⟩
    · rfl
    · rw [Option.getD_none, hvals]
      apply maxPlusOne_eq _ _ hin
      intro n' hn'
      have hmem : n' ∈ index := by
        rcases h1 with h | h
        · omega
        · rwa [hn', Nat.add_sub_cancel] at h
      obtain ⟨k, hk, rfl⟩ := List.mem_iff_getElem.mp hmem
      refine List.mem_map.mpr ⟨List.replicate pre.length 0 ++ k :: List.replicate post.length 0, ?_, ?_⟩
      · rw [mem_ndPositions_append (by simp), mem_ndPositions_cons]
        exact ⟨zeros_mem fun m hm => h2 m (by simp [hm]), by omega, zeros_mem fun m hm => h2 m (by simp [hm])⟩
      · have hk' : (List.replicate pre.length 0 ++ k :: List.replicate post.length 0).getD pre.length 0 = k := by
          rw [List.getD_eq_getElem?_getD]; simp
        rw [hk', List.getD_eq_getElem?_getD, List.getElem?_eq_getElem hk]
        rfl
  have hd : (if dim < 0 then (src.shape.length : Int) + dim else dim) = pre.length := by
    rw [hs] at hdim ⊢
    rcases hdim with rfl | rfl
    · rw [if_neg (by omega)]
    · rw [if_pos (by simp only [List.length_append, List.length_cons]; omega)]; omega
  unfold scatterAddNd
  rw [hs, hb]
  rw [hs] at hd
  simp only [bind, Except.bind, pure, Except.pure]
  simp only [hd, hmax]
  rw [if_neg (by simp only [List.length_append, List.length_cons]; omega)]
  rw [if_neg (by
    rintro ⟨i, hi, h⟩
    rw [hvals] at hi
    obtain ⟨x, hx, rfl⟩ := List.mem_map.mp hi
    have := hin x hx
    simp only [Int.ofNat_eq_natCast] at h
    omega)]
  refine ⟨_, rfl, ?_, ?_⟩
  · simp
  · intro a ha b hb' j
    dsimp only
    have := sum_moved (fun k => index.getD k 0) n j pre post a b ha hb' src.get
    rw [Int.toNat_natCast]
    rw [show (ndPositions (pre ++ n :: post)).filter (fun p => decide (p.set pre.length (ix.get p).toNat = a ++ j :: b))
        = (ndPositions (pre ++ n :: post)).filter (fun p => decide (p.set pre.length (index.getD (p.getD pre.length 0) 0) = a ++ j :: b)) from
      List.filter_congr fun p hp => by rw [(hget p hp).2]; rfl]
    rw [this]
    congr 2
    apply List.filter_congr
    intro k hk
    have hk := List.mem_range.mp hk
    rw [List.getD_eq_getElem?_getD, List.getElem?_eq_getElem (by omega)]
    simp

/-- C120, rejected: an index that is negative or not smaller than the given size raises. -/
theorem C120_range [AddCommMonoid V] (src : Nd V) (index : List Int) (pre post : List Nat) (size : Nat) (dim : Int)
    (hs : src.shape = pre ++ index.length :: post) (hdim : dim = pre.length ∨ dim = (pre.length : Int) - src.shape.length)
    (hpos : ∀ m ∈ pre ++ post, 0 < m) (hbad : ∃ i ∈ index, i < 0 ∨ (size : Int) ≤ i) :
    scatterAddNd src ⟨[index.length], fun i => index.getD (i.headD 0) 0⟩ dim (some size) = .error .index := by
  obtain ⟨ix, hb, hbs, hbg⟩ := broadcast_index index pre post index.length dim (by rw [hs] at hdim; exact hdim) (Or.inl rfl)
  have hd : (if dim < 0 then (src.shape.length : Int) + dim else dim) = pre.length := by
    rw [hs] at hdim ⊢
    rcases hdim with rfl | rfl
    · rw [if_neg (by omega)]
    · rw [if_pos (by simp only [List.length_append, List.length_cons]; omega)]; omega
  unfold scatterAddNd
  rw [hs, hb]
  rw [hs] at hd
  simp only [bind, Except.bind, pure, Except.pure]
  simp only [hd]
  rw [if_neg (by simp only [List.length_append, List.length_cons]; omega)]
  rw [if_pos]
  obtain ⟨i, hi, h⟩ := hbad
  obtain ⟨k, hk, rfl⟩ := List.mem_iff_getElem.mp hi
  refine ⟨_, List.mem_map.mpr ⟨List.replicate pre.length 0 ++ k :: List.replicate post.length 0, ?_, ?_⟩, h⟩
  · rw [hbs, mem_ndPositions_append (by simp), mem_ndPositions_cons]
    exact ⟨zeros_mem fun m hm => hpos m (by simp [hm]), hk, zeros_mem fun m hm => hpos m (by simp [hm])⟩
  · rw [hbg]
    · have hk' : (List.replicate pre.length 0 ++ k :: List.replicate post.length 0).getD pre.length 0 = k := by
        rw [List.getD_eq_getElem?_getD]; simp
      rw [hk']
      have e : (if index.length = 1 then 0 else k) = k := by
        split
        · omega
        · rfl
      rw [e, List.getD_eq_getElem?_getD, List.getElem?_eq_getElem hk]
      rfl
    · rw [mem_ndPositions_append (by simp), mem_ndPositions_cons]
      exact ⟨zeros_mem fun m hm => hpos m (by simp [hm]), hk, zeros_mem fun m hm => hpos m (by simp [hm])⟩

/-- The hypotheses hold for a `2 × 3` matrix summed along its last dimension: columns 0 and 2 go to column 1. -/
example : ∃ (src : Nd ℚ), src.shape = [2] ++ 3 :: [] ∧ (-1 : Int) = ([2] : List Nat).length - src.shape.length ∧
    (scatterAddNd src ⟨[3], fun i => (([1, 0, 1] : List Nat).map Int.ofNat).getD (i.headD 0) 0⟩ (-1) none).toOption.map
      (fun t => (t.shape, (ndPositions t.shape).map t.get)) = some ([2, 2], [2, 4, 5, 10]) :=
  ⟨⟨[2, 3], fun p => 3 * (p.getD 0 0 : Nat) + (p.getD 1 0 : Nat) + 1⟩, rfl, by decide, by decide +kernel⟩

/-! ### the weights -/

namespace Spec

/-- The fans that `torch.nn.init.xavier_uniform_` uses for weights of shape `(out, in, kdim)`: the number of products
summed into one output, and the number of outputs into which one input is summed. -/
def fans (out inp kdim : Nat) : Nat × Nat := (inp * kdim, out * kdim)

/-- A uniform distribution on `[-a, a]` has variance `a² / 3`; Xavier's rule makes it `2 / (fan_in + fan_out)`. -/
def Xavier {K : Type} [Field K] [LinearOrder K] (a : K) (fan : Nat × Nat) : Prop := 0 ≤ a ∧ a ^ 2 / 3 = 2 / ((fan.1 : K) + fan.2)

end Spec

/-- C121: the weights of a convolution, of shape `(kdim, in, out)`, are drawn from the interval that Xavier's rule gives
for the transposed shape `(out, in, kdim)`; every weight lies in the interval. -/
theorem C121_xavier {K : Type} [Field K] [LinearOrder K] [IsStrictOrderedRing K] (rt : K → K) (hrt : ∀ q, 0 ≤ q → 0 ≤ rt q ∧ rt q ^ 2 = q) (kdim inp out : Nat) (hk : 0 < kdim) (hio : 0 < inp + out)
    (u : List Nat → K) (hu : ∀ i, 0 ≤ u i ∧ u i < 1) :
    ∃ a w, xavierUniform rt [kdim, inp, out] u = .ok w ∧ Spec.Xavier a (Spec.fans out inp kdim) ∧ w.shape = [kdim, inp, out] ∧
      (∀ i, -a ≤ w.get i ∧ w.get i ≤ a) ∧ ∀ i, w.get i = a * (2 * u i - 1) := by
  have hne : kdim * inp + kdim * out ≠ 0 := by
    rw [← Nat.mul_add]
    exact Nat.pos_iff_ne_zero.mp (Nat.mul_pos hk hio)
  have hpos : (0 : K) < ((kdim * inp + kdim * out : Nat) : K) := by exact_mod_cast Nat.pos_of_ne_zero hne
  refine ⟨rt 3 * rt (2 / ((kdim * inp + kdim * out : Nat) : K)),
    ⟨[kdim, inp, out], fun i => u i * (rt 3 * rt (2 / ((kdim * inp + kdim * out : Nat) : K)) - -(rt 3 * rt (2 / ((kdim * inp + kdim * out : Nat) : K))))
      + -(rt 3 * rt (2 / ((kdim * inp + kdim * out : Nat) : K)))⟩, ?_, ?_, rfl, ?_, ?_⟩
  · unfold xavierUniform xavierBound
    have h0 : getIdx [kdim, inp, out] 0 = .ok kdim := rfl
    have h1 : getIdx [kdim, inp, out] 1 = .ok inp := rfl
    have h2 : getIdx [kdim, inp, out] 2 = .ok out := rfl
    rw [h0, h1, h2]
    simp only [bind, Except.bind, pure, Except.pure]
    rw [if_neg hne]
  · obtain ⟨h3, h3'⟩ := hrt 3 (by norm_num)
    obtain ⟨h4, h4'⟩ := hrt (2 / ((kdim * inp + kdim * out : Nat) : K)) (by positivity)
    refine ⟨mul_nonneg h3 h4, ?_⟩
    rw [mul_pow, h3', h4', Spec.fans]
    push_cast
    rw [show (inp : K) * kdim + out * kdim = kdim * inp + kdim * out by ring]
    ring
  · intro i
    dsimp only
    have ha : 0 ≤ rt 3 * rt (2 / ((kdim * inp + kdim * out : Nat) : K)) :=
      mul_nonneg (hrt 3 (by norm_num)).1 (hrt _ (by positivity)).1
    obtain ⟨h1, h2⟩ := hu i
    constructor <;> nlinarith
  · intro i
    dsimp only
    ring

/-- The rule for a `3 × 3 × 3` convolution from 4 to 5 channels: 108 products per output, 135 outputs per input. -/
example : Spec.fans 5 4 27 = (108, 135) := by decide

/-- The real numbers have such a square root. -/
example : ∀ q : ℝ, 0 ≤ q → 0 ≤ Real.sqrt q ∧ Real.sqrt q ^ 2 = q := fun q hq => ⟨Real.sqrt_nonneg q, Real.sq_sqrt hq⟩

end Ocnn
