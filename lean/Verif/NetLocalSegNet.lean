import Verif.NetLocalUNet

/-! `SegNet` on two octrees that agree in a region: max pooling looks at the children, unpooling at the parent. -/

set_option linter.unusedSimpArgs false

namespace Ocnn
open Spec
variable {F : Type}

namespace Spec

/-- The margin of the features of `SegNet` with `S` stages at the nodes of the input level, in voxels of that level: the convolutions of the encoder
take `2 ^ S - 1`, the bottleneck takes `2 ^ S`, and unpooling and the convolutions of the decoder take `2 ^ S - 1` each. -/
def segnetRadius (S : Nat) : Nat := 4 * 2 ^ S - 3

end Spec

namespace LocalPair
variable {U : Nat → Int → Int → Int → Prop} {o o' : Octree F} {D : Nat} {nempty : Bool} {lo : Nat} {m : Int} {P : Params}

theorem rowAt_of_map {V V' : Type} {A : List Cell} (hA : A.Nodup) (g : Cell → V) (φ : V → V') (v0 : V') (r : Cell) :
    rowAt A ((A.map g).map φ) v0 r = if r ∈ A then φ (g r) else v0 := by
  split
  · rename_i h
    obtain ⟨i, hi⟩ := List.mem_iff_getElem?.1 h
    exact rowAt_some hA v0 hi (by simp [List.getElem?_map, hi])
  · rename_i h
    exact rowAt_none v0 (by simp) h

theorem sub_true (o : Octree F) {d : Nat} {c : Cell} (nempty : Bool) (hc : c ∈ qc o true d) : c ∈ qc o nempty d := by
  cases nempty with
  | true => exact hc
  | false =>
    rw [qc_true, mem_maskSel] at hc
    obtain ⟨i, -, hi⟩ := hc
    exact List.mem_of_getElem? hi

theorem parent_mem {o : Octree F} {d : Nat} {nempty : Bool} {c : Cell} (hc : c ∈ qc o nempty (d + 1)) : c.parent ∈ qc o true d := by
  have h : c ∈ qc o false (d + 1) := by
    cases nempty with
    | true => exact sub_true o false hc
    | false => exact hc
  rw [qc_succ, mem_expand] at h
  obtain ⟨a, ha, j, hj, rfl⟩ := h
  rw [Cell.child_parent]
  exact ha

/-- Max pooling: the maxima and the positions of the maxima agree where the features below agree. -/
theorem pool (p : LocalPair U o o' D nempty lo m) {c d : Nat} (hl : lo ≤ d) (hd : d + 1 ≤ D) {k : Int} (hk : m ≤ k) {t s : Tensor}
    (h : NearRel U o o' D nempty (d + 1) k c t s) :
    Both (fun r r' : Tensor × Tensor => NearRel U o o' D nempty d k c r.1 r'.1 ∧ RowRel (qc o true d) (qc o' true d) (Surr U D d k) c r.2 r'.2)
      (maxPoolIdx nempty o (d + 1) t) (maxPoolIdx nempty o' (d + 1) s) := by
  obtain ⟨g, g', rfl, rfl, hg⟩ := h
  rw [maxPoolIdx_eq p.valid hd _ (by simp), maxPoolIdx_eq p.valid' hd _ (by simp)]
  have hb : ∀ q, Surr U D d k q → below (qc o nempty (d + 1)) ((qc o nempty (d + 1)).map g) q
      = below (qc o' nempty (d + 1)) ((qc o' nempty (d + 1)).map g') q := by
    intro q hi
    unfold below
    refine List.map_congr_left fun j _ => ?_
    rw [rowAt_of_map (qc_nodup p.valid _ hd nempty), rowAt_of_map (qc_nodup p.valid' _ hd nempty)]
    have hi' : Surr U D (d + 1) k (q.child j) := hi.child hd (Cell.child_parent q j)
    have hs := p.same (d + 1) (by omega) hd _ (hi'.mono hk)
    by_cases hm : q.child j ∈ qc o nempty (d + 1)
    · rw [if_pos hm, if_pos (hs.1 hm), hg _ hm (hs.1 hm) hi']
    · rw [if_neg hm, if_neg fun h => hm (hs.2 h)]
  refine Both.pure ⟨⟨_, _, rfl, rfl, fun q _ _ hi => ?_⟩, ⟨_, _, rfl, rfl, fun q _ _ hi => ?_⟩⟩
  · funext i
    refine if_congr (p.sameTrue d (by omega) q (hi.mono (p.nonneg.trans hk))) ?_ rfl
    rw [hb q hi]
  · funext i
    rw [hb q hi]

/-- Unpooling: the result agrees where the features and the positions of the parents agree. -/
theorem unpool (p : LocalPair U o o' D nempty lo m) {c d : Nat} (hd : d + 1 ≤ D) {k : Int} {t s ix ix' : Tensor}
    (h : NearRel U o o' D nempty d k c t s) (hx : RowRel (qc o true d) (qc o' true d) (Surr U D d k) c ix ix') (hi : IsIdx ix) (hi' : IsIdx ix') :
    Both (NearRel U o o' D nempty (d + 1) (k + 2 ^ (D - (d + 1))) c) (maxUnpool nempty o d ix t) (maxUnpool nempty o' d ix' s) := by
  obtain ⟨g, g', rfl, rfl, hg⟩ := h
  obtain ⟨x, x', rfl, rfl, hx⟩ := hx
  rw [unpool_eq p.valid hd _ _ hi, unpool_eq p.valid' hd _ _ hi']
  refine Both.pure ⟨_, _, rfl, rfl, fun q h1 h2 hq => ?_⟩
  have hq := hq.parent hd
  have m1 := parent_mem h1
  have m2 := parent_mem h2
  rw [hg _ (sub_true o nempty m1) (sub_true o' nempty m2) hq, hx _ m1 m2 hq]

theorem segnetEncs (p : LocalPair U o o' D nempty lo m) (hP : P.training = false) {cin stages : Nat} (hds : stages < D) (hlo : lo ≤ D - stages)
    (hc : 27 * cin ≤ maxBuffer) {t s : Tensor} (h : NearRel U o o' D nempty D m cin t s) :
    Both (fun (a b : Tensor × (Nat → Option Tensor)) => NearRel U o o' D nempty (D - stages) (m + (2 ^ stages - 1)) (segnetIn cin stages stages) a.1 b.1 ∧
      ∀ j < stages, ∃ u v, a.2 (D - j) = some u ∧ b.2 (D - j) = some v ∧ IsIdx u ∧ IsIdx v ∧
        RowRel (qc o true (D - (j + 1))) (qc o' true (D - (j + 1))) (Surr U D (D - (j + 1)) (m + (2 ^ (j + 1) - 1))) (segnetIn cin stages (j + 1)) u v)
      ((List.range stages).foldlM (segnetEnc P cin stages nempty o D) (t, fun _ => none))
      ((List.range stages).foldlM (segnetEnc P cin stages nempty o' D) (s, fun _ => none)) := by
  refine Both.fold (fun k (a b : Tensor × (Nat → Option Tensor)) => NearRel U o o' D nempty (D - k) (m + (2 ^ k - 1)) (segnetIn cin stages k) a.1 b.1 ∧
      ∀ j < k, ∃ u v, a.2 (D - j) = some u ∧ b.2 (D - j) = some v ∧ IsIdx u ∧ IsIdx v ∧
        RowRel (qc o true (D - (j + 1))) (qc o' true (D - (j + 1))) (Surr U D (D - (j + 1)) (m + (2 ^ (j + 1) - 1))) (segnetIn cin stages (j + 1)) u v)
    stages _ _ ?_ (a := (t, fun _ => none)) (b := (s, fun _ => none)) ⟨by simpa [segnetIn] using h, fun j hj => absurd hj (by omega)⟩
  rintro k hk ⟨a, ia⟩ ⟨b, ib⟩ ⟨hab, hix⟩
  unfold segnetEnc
  obtain ⟨e, he⟩ : ∃ e, D - k = e + 1 := ⟨D - (k + 1), by omega⟩
  have he' : D - (k + 1) = e := by omega
  have hk0 : (0 : Int) < 2 ^ k := by positivity
  dsimp only at hab hix ⊢
  rw [he] at hab
  rw [he, he']
  refine (p.convBnRelu3 hP _ (segnetIn cin stages (k + 1)) (by omega) (by omega) (by omega) (Layers.segnetIn_le hc stages k (by omega))
    (by omega) hab).bind fun a b hab => ?_
  have er : m + ((2 : Int) ^ k - 1) + 2 ^ (D - (e + 1)) = m + (2 ^ (k + 1) - 1) := by
    rw [show D - (e + 1) = k by omega, pow_succ]
    ring
  rw [er] at hab
  have hk1 : (0 : Int) < 2 ^ (k + 1) := by positivity
  obtain ⟨u, v, e1, e2, h1, h2⟩ := p.pool (by omega) (by omega) (by omega) hab
  refine ⟨(u.1, _), (v.1, _), by rw [e1]; rfl, by rw [e2]; rfl, h1, fun j hj => ?_⟩
  dsimp only
  by_cases hjk : j = k
  · subst hjk
    exact ⟨u.2, v.2, by rw [if_pos he], by rw [if_pos he], maxPoolIdx_isIdx _ _ _ _ _ e1, maxPoolIdx_isIdx _ _ _ _ _ e2, by rw [he']; exact h2⟩
  · have : ¬ D - j = e + 1 := by omega
    rw [if_neg this, if_neg this]
    exact hix j (by omega)

/-- `SegNet` with empty nodes (`nempty=False`, see C78). -/
theorem segnet (p : LocalPair U o o' D false lo m) (hP : P.training = false) {cin : Nat} (cout : Nat) {stages : Nat} (hst : 1 ≤ stages) (method : String)
    (hds : stages < D) (hlo : lo ≤ D - stages) (hc : 27 * cin ≤ maxBuffer) {α : Type} {A B : List α} {pts pts' : List Pt4} {good : α → Prop}
    (hq : QueriesNear U o o' D method false D A B pts pts' (m + segnetRadius stages) good)
    {t s : Tensor} (h : NearRel U o o' D false D m cin t s) :
    Both (RowRel A B good cout) (segnet P cin cout stages method false o D pts t) (segnet P cin cout stages method false o' D pts' s) := by
  unfold Ocnn.segnet
  have hs0 : ¬ stages = 0 := by omega
  simp only [if_neg hs0, pure_bind]
  have hch := Layers.segnetIn_le hc stages
  have hco : ∀ k ≤ stages, 27 * segnetOut stages k ≤ maxBuffer := by
    intro k hk
    unfold segnetOut
    split <;> exact segnetChannel_le _ _ (by omega)
  refine (p.segnetEncs hP hds hlo hc h).bind ?_
  rintro ⟨a, ia⟩ ⟨b, ib⟩ ⟨hab, hix⟩
  dsimp only at hab hix ⊢
  have hS : (0 : Int) < 2 ^ stages := by positivity
  refine (p.convBnRelu3 hP _ (segnetIn cin stages stages) (by omega) (by omega) (by omega) (hch _ (le_refl _)) (by omega) hab).bind fun a b hab => ?_
  have h0 : segnetIn cin stages stages = segnetOut stages 0 := by
    unfold segnetIn segnetOut
    rw [if_neg hs0, if_pos (by omega)]
    rfl
  have er : m + ((2 : Int) ^ stages - 1) + 2 ^ (D - (D - stages)) = m + (4 * 2 ^ stages - 1 - 2 * 2 ^ (stages - 0)) := by
    rw [show D - (D - stages) = stages by omega, Nat.sub_zero]
    ring
  rw [h0, er] at hab
  refine (Both.fold (fun k => NearRel U o o' D false (D - stages + k) (m + (4 * 2 ^ stages - 1 - 2 * 2 ^ (stages - k))) (segnetOut stages k)) stages _ _ ?_ hab).bind ?_
  · intro k hk a b hab
    unfold segnetDec
    obtain ⟨u, v, e1, e2, i1, i2, hr⟩ := hix (stages - 1 - k) (by omega)
    have e3 : D - (stages - 1 - k) = D - stages + k + 1 := by omega
    have e4 : D - (stages - 1 - k + 1) = D - stages + k := by omega
    have e5 : segnetIn cin stages (stages - 1 - k + 1) = segnetOut stages k := by
      unfold segnetIn segnetOut
      rw [if_neg (by omega), if_pos hk]
      rfl
    rw [e3] at e1 e2
    rw [e4, e5] at hr
    unfold getKey
    dsimp only at hab ⊢
    rw [e1, e2]
    have q1 : (2 : Int) ^ (stages - 1 - k + 1) ≤ 2 ^ stages := pow_le_pow_right₀ (by norm_num) (by omega)
    have q2 : (2 : Int) ^ (stages - k) ≤ 2 ^ stages := pow_le_pow_right₀ (by norm_num) (by omega)
    have q3 : (0 : Int) < 2 ^ (stages - (k + 1)) := by positivity
    have q4 : (2 : Int) ^ (stages - k) = 2 * 2 ^ (stages - (k + 1)) := by
      rw [show stages - k = stages - (k + 1) + 1 by omega, pow_succ]
      ring
    refine (p.unpool (by omega) hab (RowRel.mono (fun q _ _ hq => hq.mono (by omega)) hr) i1 i2).bind fun a b hab => ?_
    have ed : D - (D - stages + k + 1) = stages - (k + 1) := by omega
    rw [ed] at hab
    have := p.convBnRelu3 hP ("deconvs." ++ toString k) (segnetOut stages (k + 1)) (d := D - stages + k + 1) (by omega) (by omega) (by omega) (hco k (by omega))
      (by omega) hab
    rw [ed] at this
    have ef : m + ((4 : Int) * 2 ^ stages - 1 - 2 * 2 ^ (stages - k)) + 2 ^ (stages - (k + 1)) + 2 ^ (stages - (k + 1))
        = m + (4 * 2 ^ stages - 1 - 2 * 2 ^ (stages - (k + 1))) := by
      rw [q4]
      ring
    rw [ef] at this
    exact this
  · intro a b hab
    have e1 : D - stages + stages = D := by omega
    have e2 : m + ((4 : Int) * 2 ^ stages - 1 - 2 * 2 ^ (stages - stages)) = m + (segnetRadius stages : Int) := by
      unfold segnetRadius
      have : 1 ≤ 2 ^ stages := Nat.one_le_two_pow
      rw [Nat.sub_self]
      push_cast [Nat.cast_sub (show 3 ≤ 4 * 2 ^ stages by omega)]
      ring
    rw [e1, e2] at hab
    refine (hq _ a b hab).bind fun a b hab => ?_
    refine (RowRel.conv1x1BnRelu hP _ 64 hab).bind fun a b hab => ?_
    exact RowRel.linear P _ cout true hab

end LocalPair

end Ocnn
