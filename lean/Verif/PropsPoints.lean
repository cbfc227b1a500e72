import Verif.Points
import Verif.ListLemmas
import Verif.BuildMain
import Mathlib.Tactic.Ring
import Mathlib.Tactic.Linarith
import Mathlib.Tactic.LinearCombination
import Mathlib.Tactic.FieldSimp
import Mathlib.Algebra.Order.Field.Basic
import Mathlib.Data.List.Perm.Basic

/-! Properties C59-C67, C69: transformations of point clouds. -/

set_option linter.unusedSimpArgs false

namespace Ocnn
namespace Spec
variable {K F L : Type}

/-- The positions at which a mask is true, in order. -/
def positions (mask : List Bool) : List Nat := (List.range mask.length).filter fun i => mask[i]? == some true

/-- The rows of a tensor at the given positions. -/
def rowsAt {α : Type} (l : List α) (pos : List Nat) : List α := pos.filterMap fun i => l[i]?

/-- All attributes of a point cloud have one row per point. -/
structure Aligned (p : Points K F L) : Prop where
  normals : ∀ n, p.normals = some n → n.length = p.points.length
  features : ∀ f, p.features = some f → f.length = p.points.length
  labels : ∀ l, p.labels = some l → l.length = p.points.length
  ids : ∀ b, p.batchId = some b → b.length = p.points.length

/-- The point cloud made of the points at the given positions, with all their attributes. -/
def slice (p : Points K F L) (pos : List Nat) : Points K F L where
  points := rowsAt p.points pos
  normals := p.normals.map (rowsAt · pos)
  features := p.features.map (rowsAt · pos)
  labels := p.labels.map (rowsAt · pos)
  batchId := p.batchId.map (rowsAt · pos)
  batchSize := p.batchSize
  batchNpt := none
  device := p.device

/-- Cut a list into pieces of the given sizes. -/
def splitBy {α : Type} : List Nat → List α → List (List α)
  | [], _ => []
  | n :: ns, l => l.take n :: splitBy ns (l.drop n)

/-- Inner product. -/
def dot3 [Add K] [Mul K] (a b : V3 K) : K := a.x * b.x + a.y * b.y + a.z * b.z

/-- Cross product. -/
def cross [Sub K] [Mul K] (a b : V3 K) : V3 K :=
  ⟨a.y * b.z - a.z * b.y, a.z * b.x - a.x * b.z, a.x * b.y - a.y * b.x⟩

/-- Counterclockwise rotation about the first axis, with the cosine and sine of the angle. -/
def turnX [Ring K] (c s : K) (p : V3 K) : V3 K := ⟨p.x, c * p.y - s * p.z, s * p.y + c * p.z⟩
/-- Counterclockwise rotation about the second axis. -/
def turnY [Ring K] (c s : K) (p : V3 K) : V3 K := ⟨c * p.x + s * p.z, p.y, -s * p.x + c * p.z⟩
/-- Counterclockwise rotation about the third axis. -/
def turnZ [Ring K] (c s : K) (p : V3 K) : V3 K := ⟨c * p.x - s * p.y, s * p.x + c * p.y, p.z⟩

end Spec

open Spec
variable {K F L : Type}

/-! ### C59 slicing and clipping -/

theorem rowsAt_cons {α : Type} (a : α) (l : List α) (pos : List Nat) : rowsAt (a :: l) (pos.map (· + 1)) = rowsAt l pos := by
  unfold rowsAt
  rw [List.filterMap_map]
  congr 1

theorem positions_cons (b : Bool) (m : List Bool) :
    positions (b :: m) = (if b then [0] else []) ++ (positions m).map (· + 1) := by
  unfold positions
  rw [List.length_cons, List.range_succ_eq_map, List.filter_cons, List.filter_map]
  have : ((fun i => (b :: m)[i]? == some true) ∘ Nat.succ) = fun i => m[i]? == some true := by
    funext i; simp
  rw [this]
  cases b <;> simp

theorem maskSel_rows {α : Type} (m : List Bool) (l : List α) (h : m.length = l.length) :
    maskSel m l = rowsAt l (positions m) := by
  induction m generalizing l with
  | nil => cases l <;> simp_all [maskSel, positions, rowsAt]
  | cons b m ih =>
    cases l with
    | nil => simp at h
    | cons a l =>
      rw [positions_cons]
      have e : rowsAt (a :: l) ((if b then [0] else []) ++ (positions m).map (· + 1))
          = (if b then [a] else []) ++ rowsAt l (positions m) := by
        rw [← rowsAt_cons a l]
        unfold rowsAt
        rw [List.filterMap_append]
        cases b <;> simp
      rw [e, ← ih l (by simpa using h)]
      cases b <;> simp [maskSel]

/-- **C59, slicing.** The result has exactly the rows at the true positions of the mask, in every attribute. -/
theorem C59_slice (p : Points K F L) (ha : Aligned p) (mask : List Bool) (hm : mask.length = p.points.length) :
    p.getItem mask = .ok (slice p (positions mask)) := by
  have key : ∀ {α : Type} (l : List α), l.length = p.points.length → boolIndex mask l = .ok (rowsAt l (positions mask)) := by
    intro α l hl
    unfold boolIndex
    rw [if_pos (by omega), maskSel_rows mask l (by omega)]
  have key2 : ∀ {α : Type} (t : Option (List α)), (∀ l, t = some l → l.length = p.points.length) →
      Points.sliceAttr mask t = .ok (t.map (rowsAt · (positions mask))) := by
    intro α t ht
    cases t with
    | none => rfl
    | some l => simp only [Points.sliceAttr, key l (ht l rfl)]; rfl
  unfold Points.getItem
  simp only [key p.points rfl, key2 _ ha.normals, key2 _ ha.features, key2 _ ha.labels, key2 _ ha.ids]
  rfl

/-- C59: masks of the wrong length raise. -/
theorem C59_slice_wrong_length (p : Points K F L) (mask : List Bool) (hm : mask.length ≠ p.points.length) :
    p.getItem mask = .error .index := by
  unfold Points.getItem boolIndex
  simp [hm, bind, Except.bind]

theorem rowsAt_length {α : Type} (l : List α) (pos : List Nat) (h : ∀ i ∈ pos, i < l.length) :
    (rowsAt l pos).length = pos.length := by
  unfold rowsAt
  induction pos with
  | nil => rfl
  | cons i pos ih =>
    have hi := h i (by simp)
    rw [List.filterMap_cons, List.getElem?_eq_getElem hi]
    simp [ih (fun j hj => h j (by simp [hj]))]

theorem positions_lt (m : List Bool) : ∀ i ∈ positions m, i < m.length := by
  intro i hi
  unfold positions at hi
  simp at hi
  exact hi.1

theorem positions_true (n : Nat) : positions (List.replicate n true) = List.range n := by
  unfold positions
  rw [List.length_replicate, List.filter_eq_self]
  intro i hi
  have := List.mem_range.mp hi
  simp [this]

theorem rowsAt_range {α : Type} (l : List α) : rowsAt l (List.range l.length) = l := by
  unfold rowsAt
  induction l with
  | nil => rfl
  | cons a l ih =>
    rw [List.length_cons, List.range_succ_eq_map, List.filterMap_cons, List.filterMap_map]
    simp only [List.getElem?_cons_zero]
    congr 1

theorem mem_rowsAt {α : Type} {l : List α} {pos : List Nat} {v : α} (h : v ∈ rowsAt l pos) :
    ∃ i ∈ pos, l[i]? = some v := by
  unfold rowsAt at h
  rw [List.mem_filterMap] at h
  exact h

theorem slice_aligned (p : Points K F L) (ha : Aligned p) (pos : List Nat) (h : ∀ i ∈ pos, i < p.points.length) :
    Aligned (slice p pos) := by
  have hrl : ∀ {α : Type} (l : List α), l.length = p.points.length →
      (rowsAt l pos).length = (rowsAt p.points pos).length := by
    intro α l hl
    rw [rowsAt_length l _ (by rw [hl]; exact h), rowsAt_length _ _ h]
  constructor
  · intro n hn; simp only [slice, Option.map_eq_some_iff] at hn; obtain ⟨t, ht, rfl⟩ := hn; exact hrl t (ha.normals t ht)
  · intro n hn; simp only [slice, Option.map_eq_some_iff] at hn; obtain ⟨t, ht, rfl⟩ := hn; exact hrl t (ha.features t ht)
  · intro n hn; simp only [slice, Option.map_eq_some_iff] at hn; obtain ⟨t, ht, rfl⟩ := hn; exact hrl t (ha.labels t ht)
  · intro n hn; simp only [slice, Option.map_eq_some_iff] at hn; obtain ⟨t, ht, rfl⟩ := hn; exact hrl t (ha.ids t ht)

theorem slice_all (q : Points K F L) (ha : Aligned q) (hn : q.batchNpt = none) :
    slice q (List.range q.points.length) = q := by
  have hid : ∀ {α : Type} (t : Option (List α)), (∀ l, t = some l → l.length = q.points.length) →
      t.map (rowsAt · (List.range q.points.length)) = t := by
    intro α t ht
    cases t with
    | none => rfl
    | some l => rw [Option.map_some, ← ht l rfl, rowsAt_range]
  unfold slice
  rw [hid _ ha.normals, hid _ ha.features, hid _ ha.labels, hid _ ha.ids, rowsAt_range, ← hn]

theorem mask_spec [LinearOrder K] (p : Points K F L) (lo hi : K) (i : Nat) (v : V3 K) (hv : p.points[i]? = some v) :
    (p.inboxMask ⟨lo, lo, lo⟩ ⟨hi, hi, hi⟩)[i]? = some true ↔ ∀ a : Points.Axis, lo < v.along a ∧ v.along a < hi := by
  unfold Points.inboxMask
  rw [List.getElem?_map, hv]
  simp only [Option.map_some, Option.some.injEq, Bool.and_eq_true, decide_eq_true_eq]
  constructor
  · rintro ⟨⟨h1, h2, h3⟩, h4, h5, h6⟩ a
    cases a <;> constructor <;> assumption
  · intro h
    exact ⟨⟨(h .x).1, (h .y).1, (h .z).1⟩, (h .x).2, (h .y).2, (h .z).2⟩

theorem clip_eq [Field K] [LinearOrder K] (p : Points K F L) (ha : Aligned p) (mn mx esp : K) :
    p.clip mn mx esp = .ok
      (slice p (positions (p.inboxMask ⟨mn + esp, mn + esp, mn + esp⟩ ⟨mx - esp, mx - esp, mx - esp⟩)),
        p.inboxMask ⟨mn + esp, mn + esp, mn + esp⟩ ⟨mx - esp, mx - esp, mx - esp⟩) := by
  unfold Points.clip
  simp only
  rw [C59_slice p ha _ (by simp [Points.inboxMask])]
  rfl

/-- **C59, clipping.** `clip` keeps exactly the points strictly inside `(min + esp, max - esp)`, with their
attributes; it returns the mask; a second `clip` keeps everything. -/
theorem C59_clip [Field K] [LinearOrder K] (p : Points K F L) (ha : Aligned p) (mn mx esp : K) :
    ∃ q mask, p.clip mn mx esp = .ok (q, mask) ∧ mask.length = p.points.length ∧
      (∀ (i : Nat) (v : V3 K), p.points[i]? = some v →
        (mask[i]? = some true ↔ ∀ a : Points.Axis, mn + esp < v.along a ∧ v.along a < mx - esp)) ∧
      q = slice p (positions mask) ∧ Aligned q ∧
      (∀ v ∈ q.points, ∀ a : Points.Axis, mn + esp < v.along a ∧ v.along a < mx - esp) ∧
      q.clip mn mx esp = .ok (q, List.replicate q.points.length true) := by
  have hm := mask_spec p (mn + esp) (mx - esp)
  have hc := clip_eq p ha mn mx esp
  have hl : (p.inboxMask ⟨mn + esp, mn + esp, mn + esp⟩ ⟨mx - esp, mx - esp, mx - esp⟩).length = p.points.length := by
    simp [Points.inboxMask]
  generalize p.inboxMask ⟨mn + esp, mn + esp, mn + esp⟩ ⟨mx - esp, mx - esp, mx - esp⟩ = mask at *
  have hposlt : ∀ i ∈ positions mask, i < p.points.length := by
    intro i hi; rw [← hl]; exact positions_lt _ i hi
  have hal := slice_aligned p ha _ hposlt
  have hin : ∀ v ∈ (slice p (positions mask)).points, ∀ a : Points.Axis, mn + esp < v.along a ∧ v.along a < mx - esp := by
    intro v hv
    obtain ⟨i, hi, hiv⟩ := mem_rowsAt hv
    apply (hm i v hiv).mp
    unfold positions at hi
    rw [List.mem_filter] at hi
    exact eq_of_beq hi.2
  refine ⟨_, _, hc, hl, hm, rfl, hal, hin, ?_⟩
  have hnpt : (slice p (positions mask)).batchNpt = none := rfl
  generalize slice p (positions mask) = q at *
  have hall : q.inboxMask ⟨mn + esp, mn + esp, mn + esp⟩ ⟨mx - esp, mx - esp, mx - esp⟩
      = List.replicate q.points.length true := by
    apply List.ext_getElem?
    intro i
    by_cases hi : i < q.points.length
    · have hv := List.getElem?_eq_getElem hi
      rw [(mask_spec q _ _ i _ hv).mpr (hin _ (List.mem_of_getElem? hv))]
      simp [hi]
    · rw [List.getElem?_eq_none (by simp [Points.inboxMask]; omega), List.getElem?_eq_none (by simp; omega)]
  rw [clip_eq q hal, hall, positions_true, slice_all q hal hnpt]

/-! ### C60 merging -/

theorem splitBy_flatten {α : Type} (ls : List (List α)) : splitBy (ls.map List.length) ls.flatten = ls := by
  induction ls with
  | nil => rfl
  | cons l ls ih => simp [splitBy, ih]

/-- The clouds have the same attributes as the first one. -/
def SameAttributes (ps : List (Points K F L)) : Prop :=
  ∀ p ∈ ps, ∀ q ∈ ps, p.normals.isSome = q.normals.isSome ∧ p.features.isSome = q.features.isSome ∧
    p.labels.isSome = q.labels.isSome

theorem catAttr_ok {α : Type} (ps : List (Points K F L)) (attr : Points K F L → Option (List α))
    (h : ∀ p ∈ ps, (attr p).isSome) :
    ∃ ts : List (List α), Points.catAttr ps attr = .ok ts.flatten ∧ ps.map attr = ts.map some := by
  unfold Points.catAttr
  induction ps with
  | nil => exact ⟨[], rfl, rfl⟩
  | cons p ps ih =>
    obtain ⟨t, ht⟩ := Option.isSome_iff_exists.mp (h p (by simp))
    obtain ⟨ts, h1, h2⟩ := ih (fun q hq => h q (by simp [hq]))
    refine ⟨t :: ts, ?_, by simp [ht, h2]⟩
    simp only [bind, Except.bind] at h1 ⊢
    rw [List.mapM_cons, ht]
    cases hm : ps.mapM fun p => need (attr p) with
    | error e => rw [hm] at h1; simp at h1
    | ok v =>
      rw [hm] at h1
      simp only [pure, Except.pure, Except.ok.injEq] at h1
      simp [need, bind, Except.bind, pure, Except.pure, hm, h1]

/-- **C60.** Merging keeps everything: cutting the merged attributes into pieces of the sizes `batch_npt` gives back
the clouds, the `i`-th piece of the batch indices consists of `i`s. -/
theorem C60_merge (ps : List (Points K F L)) (hne : ps ≠ []) (ha : ∀ p ∈ ps, Aligned p) (hs : SameAttributes ps) :
    ∃ q, Points.merge ps true = .ok q ∧ q.batchSize = ps.length ∧
      q.batchNpt = some (ps.map fun p => p.points.length) ∧
      splitBy (ps.map fun p => p.points.length) q.points = ps.map (fun p => p.points) ∧
      q.points.length = (ps.map fun p => p.points.length).sum ∧
      (∀ ids, q.batchId = some ids → ids.length = q.points.length ∧
        ∀ (i : Nat) (l : List Int), (splitBy (ps.map fun p => p.points.length) ids)[i]? = some l → ∀ b ∈ l, b = i) ∧
      q.batchId.isSome ∧
      (∀ p ∈ ps, q.normals.isSome = p.normals.isSome ∧ q.features.isSome = p.features.isSome ∧
        q.labels.isSome = p.labels.isSome) ∧
      (∀ t, q.normals = some t → (splitBy (ps.map fun p => p.points.length) t).map some = ps.map (fun p => p.normals)) ∧
      (∀ t, q.features = some t → (splitBy (ps.map fun p => p.points.length) t).map some = ps.map (fun p => p.features)) ∧
      (∀ t, q.labels = some t → (splitBy (ps.map fun p => p.points.length) t).map some = ps.map (fun p => p.labels)) ∧
      Aligned q := by
  obtain ⟨p0, rest, rfl⟩ := List.exists_cons_of_ne_nil hne
  generalize hps : p0 :: rest = ps at *
  have h0 : p0 ∈ ps := by rw [← hps]; simp
  have opt : ∀ {α : Type} (attr : Points K F L → Option (List α)), (∀ p ∈ ps, (attr p).isSome = (attr p0).isSome) →
      (∀ p ∈ ps, ∀ t, attr p = some t → t.length = p.points.length) →
      ∃ r, Points.mergeAttr p0 ps attr = .ok r ∧ r.isSome = (attr p0).isSome ∧
        ∀ t, r = some t → (splitBy (ps.map fun p => p.points.length) t).map some = ps.map attr ∧
          t.length = (ps.map fun p => p.points.length).sum := by
    intro α attr h hl
    unfold Points.mergeAttr
    cases hp : (attr p0).isSome with
    | false => exact ⟨none, by simp [pure, Except.pure], rfl, by simp⟩
    | true =>
      obtain ⟨ts, h1, h2⟩ := catAttr_ok ps attr (fun p hp' => by rw [h p hp', hp])
      have hsz : (ps.map fun p => p.points.length) = ts.map List.length := by
        apply List.ext_getElem?
        intro i
        have h2' := congrArg (fun l => l[i]?) h2
        simp only [List.getElem?_map] at h2' ⊢
        cases hpi : ps[i]? with
        | none => rw [hpi] at h2'; cases hti : ts[i]? <;> simp_all
        | some p =>
          rw [hpi] at h2'
          cases hti : ts[i]? with
          | none => rw [hti] at h2'; simp at h2'
          | some t =>
            rw [hti] at h2'
            simp only [Option.map_some, Option.some.injEq] at h2' ⊢
            exact (hl p (List.mem_of_getElem? hpi) t h2').symm
      refine ⟨some ts.flatten, by simp [h1, bind, Except.bind, pure, Except.pure], rfl, ?_⟩
      intro t ht
      simp only [Option.some.injEq] at ht
      subst ht
      rw [hsz, splitBy_flatten]
      exact ⟨h2.symm, by simp [List.length_flatten]⟩
  obtain ⟨rn, n1, n2, n3⟩ := opt (fun p => p.normals) (fun p hp => (hs p hp p0 h0).1) (fun p hp => (ha p hp).normals)
  obtain ⟨rf, f1, f2, f3⟩ := opt (fun p => p.features) (fun p hp => (hs p hp p0 h0).2.1) (fun p hp => (ha p hp).features)
  obtain ⟨rl, l1, l2, l3⟩ := opt (fun p => p.labels) (fun p hp => (hs p hp p0 h0).2.2) (fun p hp => (ha p hp).labels)
  have hmerge : Points.merge ps true = .ok
      { points := (ps.map fun p => p.points).flatten, normals := rn, features := rf, labels := rl
        batchId := some ((ps.zipIdx.map fun (p, i) => List.replicate p.npt (i : Int)).flatten)
        batchSize := ps.length, batchNpt := some (ps.map Points.npt), device := p0.device } := by
    rw [← hps] at n1 f1 l1 ⊢
    unfold Points.merge
    simp only [n1, f1, l1, bind, Except.bind, pure, Except.pure, if_true]
  have hids : (ps.map fun p => p.points.length)
      = (ps.zipIdx.map fun (p, i) => List.replicate p.npt (i : Int)).map List.length := by
    apply List.ext_getElem?
    intro i
    simp only [List.getElem?_map, List.getElem?_zipIdx, Option.map_map]
    cases ps[i]? <;> simp [Points.npt]
  have hpl : ((ps.map fun p => p.points).flatten).length = (ps.map fun p => p.points.length).sum := by
    rw [List.length_flatten, List.map_map]; rfl
  refine ⟨_, hmerge, rfl, rfl, ?_, hpl, ?_, rfl, ?_, fun t ht => (n3 t ht).1, fun t ht => (f3 t ht).1,
    fun t ht => (l3 t ht).1, ?_⟩
  · have := splitBy_flatten (ps.map fun p => p.points)
    rw [List.map_map] at this
    exact this
  · intro ids hi
    simp only [Option.some.injEq] at hi
    subst hi
    constructor
    · rw [hpl, hids, List.length_flatten]
    · intro i l hl b hb
      rw [hids, splitBy_flatten, List.getElem?_map, List.getElem?_zipIdx] at hl
      cases hp : ps[i]? with
      | none => rw [hp] at hl; simp at hl
      | some p =>
        rw [hp] at hl
        simp only [Option.map_some, Option.some.injEq] at hl
        rw [← hl] at hb
        simp at hb
        exact hb.2
  · intro p hp
    have := hs p hp p0 h0
    exact ⟨by simp only; rw [n2, this.1], by simp only; rw [f2, this.2.1], by simp only; rw [l2, this.2.2]⟩
  · constructor
    · intro t ht; simp only; rw [hpl]; exact (n3 t ht).2
    · intro t ht; simp only; rw [hpl]; exact (f3 t ht).2
    · intro t ht; simp only; rw [hpl]; exact (l3 t ht).2
    · intro t ht
      simp only [Option.some.injEq] at ht
      subst ht
      simp only
      rw [hpl, hids, List.length_flatten]

/-- C60: merging nothing raises. -/
theorem C60_empty (u : Bool) : Points.merge ([] : List (Points K F L)) u = .error .shape := rfl

/-! ### C61 rotation -/

theorem rotMat_apply [Field K] (c s p : V3 K) :
    p.mulMat (Points.rotMat c s) = turnZ c.z s.z (turnY c.y s.y (turnX c.x s.x p)) := by
  ext <;> simp only [Points.rotMat, V3.matMul, V3.mulMat, turnX, turnY, turnZ] <;> ring

theorem turnX_dot [CommRing K] {c s : K} (h : c ^ 2 + s ^ 2 = 1) (p q : V3 K) :
    dot3 (turnX c s p) (turnX c s q) = dot3 p q := by
  simp only [dot3, turnX]; linear_combination (p.y * q.y + p.z * q.z) * h

theorem turnY_dot [CommRing K] {c s : K} (h : c ^ 2 + s ^ 2 = 1) (p q : V3 K) :
    dot3 (turnY c s p) (turnY c s q) = dot3 p q := by
  simp only [dot3, turnY]; linear_combination (p.x * q.x + p.z * q.z) * h

theorem turnZ_dot [CommRing K] {c s : K} (h : c ^ 2 + s ^ 2 = 1) (p q : V3 K) :
    dot3 (turnZ c s p) (turnZ c s q) = dot3 p q := by
  simp only [dot3, turnZ]; linear_combination (p.x * q.x + p.y * q.y) * h

theorem turnX_cross [CommRing K] {c s : K} (h : c ^ 2 + s ^ 2 = 1) (p q : V3 K) :
    cross (turnX c s p) (turnX c s q) = turnX c s (cross p q) := by
  ext
  · simp only [cross, turnX]; linear_combination (p.y * q.z - p.z * q.y) * h
  · simp only [cross, turnX]; ring
  · simp only [cross, turnX]; ring

theorem turnY_cross [CommRing K] {c s : K} (h : c ^ 2 + s ^ 2 = 1) (p q : V3 K) :
    cross (turnY c s p) (turnY c s q) = turnY c s (cross p q) := by
  ext
  · simp only [cross, turnY]; ring
  · simp only [cross, turnY]; linear_combination (p.z * q.x - p.x * q.z) * h
  · simp only [cross, turnY]; ring

theorem turnZ_cross [CommRing K] {c s : K} (h : c ^ 2 + s ^ 2 = 1) (p q : V3 K) :
    cross (turnZ c s p) (turnZ c s q) = turnZ c s (cross p q) := by
  ext
  · simp only [cross, turnZ]; ring
  · simp only [cross, turnZ]; ring
  · simp only [cross, turnZ]; linear_combination (p.x * q.y - p.y * q.x) * h

/-- **C61.** `rotate` applies one map `T` to all points and normals: the composition of counterclockwise rotations
about the first, second and third axis.  `T` preserves inner products (hence lengths and the angle between points
and normals) and cross products (orientation), and rotating back by the reversed rotations undoes it.  Nothing else
changes. -/
theorem C61_rotate [Field K] (p : Points K F L) (c s : V3 K) (hx : c.x ^ 2 + s.x ^ 2 = 1) (hy : c.y ^ 2 + s.y ^ 2 = 1)
    (hz : c.z ^ 2 + s.z ^ 2 = 1) :
    ∃ T : V3 K → V3 K, p.rotate c s = { p with points := p.points.map T, normals := p.normals.map (List.map T) } ∧
      (∀ v, T v = turnZ c.z s.z (turnY c.y s.y (turnX c.x s.x v))) ∧
      (∀ v w, dot3 (T v) (T w) = dot3 v w) ∧ (∀ v w, cross (T v) (T w) = T (cross v w)) ∧
      (∀ v, turnX c.x (-s.x) (turnY c.y (-s.y) (turnZ c.z (-s.z) (T v))) = v) := by
  refine ⟨fun v => turnZ c.z s.z (turnY c.y s.y (turnX c.x s.x v)), ?_, fun v => rfl, ?_, ?_, ?_⟩
  · unfold Points.rotate
    simp only [rotMat_apply]
  · intro v w
    simp only
    rw [turnZ_dot hz, turnY_dot hy, turnX_dot hx]
  · intro v w
    simp only
    rw [turnZ_cross hz, turnY_cross hy, turnX_cross hx]
  · intro v
    have e1 : ∀ u, turnZ c.z (-s.z) (turnZ c.z s.z u) = u := by
      intro u
      ext
      · simp only [turnZ]; linear_combination u.x * hz
      · simp only [turnZ]; linear_combination u.y * hz
      · rfl
    have e2 : ∀ u, turnY c.y (-s.y) (turnY c.y s.y u) = u := by
      intro u
      ext
      · simp only [turnY]; linear_combination u.x * hy
      · rfl
      · simp only [turnY]; linear_combination u.z * hy
    have e3 : ∀ u, turnX c.x (-s.x) (turnX c.x s.x u) = u := by
      intro u
      ext
      · rfl
      · simp only [turnX]; linear_combination u.y * hx
      · simp only [turnX]; linear_combination u.z * hx
    simp only [e1, e2, e3]

example : ∃ c s : V3 ℚ, c.x ^ 2 + s.x ^ 2 = 1 ∧ c.y ^ 2 + s.y ^ 2 = 1 ∧ c.z ^ 2 + s.z ^ 2 = 1 ∧ s.x ≠ 0 ∧ s.y ≠ 0 :=
  ⟨⟨3/5, 4/5, 1⟩, ⟨4/5, -3/5, 0⟩, by norm_num⟩

/-! ### C62 flipping -/

/-- The sign picked up by a coordinate that is flipped `n` times. -/
def flipSign [Ring K] (n : Nat) : K := (-1) ^ n

/-- A point with each coordinate flipped as often as its letter occurs in the list. -/
def flipped [Ring K] (l : List Char) (v : V3 K) : V3 K :=
  ⟨flipSign (l.count 'x') * v.x, flipSign (l.count 'y') * v.y, flipSign (l.count 'z') * v.z⟩

theorem flip_list [Field K] (l : List Char) (hl : ∀ c ∈ l, c = 'x' ∨ c = 'y' ∨ c = 'z') (p : Points K F L) :
    l.foldlM Points.flipAxis p = .ok
      { p with points := p.points.map (flipped l), normals := p.normals.map (List.map (flipped l)) } := by
  induction l generalizing p with
  | nil =>
    have e : (flipped [] : V3 K → V3 K) = id := by funext v; ext <;> simp [flipped, flipSign]
    rw [List.foldlM_nil, e, List.map_id]
    have : p.normals.map (List.map id) = p.normals := by simp
    rw [this]
    rfl
  | cons c l ih =>
    have ih := fun p => ih (fun c hc => hl c (by simp [hc])) p
    have hc := hl c (by simp)
    rw [List.foldlM_cons]
    rcases hc with rfl | rfl | rfl
    · have e : (flipped ('x' :: l) : V3 K → V3 K) = flipped l ∘ (Points.negAt · .x) := by
        funext v; ext <;> simp [flipped, flipSign, Points.negAt, pow_succ]
      simp only [Points.flipAxis, Points.axisOf, bind, Except.bind, pure, Except.pure, ih, e, List.map_map,
        Option.map_map]
      congr 2
      cases p.normals <;> simp
    · have e : (flipped ('y' :: l) : V3 K → V3 K) = flipped l ∘ (Points.negAt · .y) := by
        funext v; ext <;> simp [flipped, flipSign, Points.negAt, pow_succ]
      simp only [Points.flipAxis, Points.axisOf, bind, Except.bind, pure, Except.pure, ih, e, List.map_map,
        Option.map_map]
      congr 2
      cases p.normals <;> simp
    · have e : (flipped ('z' :: l) : V3 K → V3 K) = flipped l ∘ (Points.negAt · .z) := by
        funext v; ext <;> simp [flipped, flipSign, Points.negAt, pow_succ]
      simp only [Points.flipAxis, Points.axisOf, bind, Except.bind, pure, Except.pure, ih, e, List.map_map,
        Option.map_map]
      congr 2
      cases p.normals <;> simp

theorem axisOf_bad (c : Char) (h : ¬ (c = 'x' ∨ c = 'y' ∨ c = 'z')) : Points.axisOf c = .error .key := by
  unfold Points.axisOf
  split
  · simp at h
  · simp at h
  · simp at h
  · rfl

/-- **C62.** A coordinate (of points and normals) changes sign once for every occurrence of its letter. -/
theorem C62_flip [Field K] (p : Points K F L) (axis : String) (h : ∀ c ∈ axis.toList, c = 'x' ∨ c = 'y' ∨ c = 'z') :
    p.flip axis = .ok { p with
      points := p.points.map (flipped axis.toList)
      normals := p.normals.map (List.map (flipped axis.toList)) } :=
  flip_list axis.toList h p

/-- C62: a letter other than `x`, `y`, `z` raises. -/
theorem C62_unknown [Field K] (p : Points K F L) (axis : String) (h : ∃ c ∈ axis.toList, ¬ (c = 'x' ∨ c = 'y' ∨ c = 'z')) :
    p.flip axis = .error .key := by
  unfold Points.flip
  generalize axis.toList = l at h
  induction l generalizing p with
  | nil => simp at h
  | cons c l ih =>
    rw [List.foldlM_cons]
    by_cases hc : c = 'x' ∨ c = 'y' ∨ c = 'z'
    · have : ∃ c ∈ l, ¬ (c = 'x' ∨ c = 'y' ∨ c = 'z') := by
        obtain ⟨d, hd, hd'⟩ := h
        rcases List.mem_cons.mp hd with rfl | hd
        · exact absurd hc hd'
        · exact ⟨d, hd, hd'⟩
      rcases hc with rfl | rfl | rfl <;>
        simp only [Points.flipAxis, Points.axisOf, bind, Except.bind, pure, Except.pure] <;> exact ih _ this
    · simp [Points.flipAxis, axisOf_bad c hc, bind, Except.bind]

theorem flipped_twice [Field K] (l : List Char) (v : V3 K) : flipped l (flipped l v) = v := by
  have e : ∀ n : Nat, (flipSign n : K) * flipSign n = 1 := by
    intro n; rw [flipSign, ← mul_pow]; simp
  ext <;> simp only [flipped] <;> rw [← mul_assoc, e, one_mul]

/-- C62: flipping twice along the same axes restores the cloud. -/
theorem C62_involution [Field K] (p q : Points K F L) (axis : String) (h : p.flip axis = .ok q) : q.flip axis = .ok p := by
  by_cases hg : ∀ c ∈ axis.toList, c = 'x' ∨ c = 'y' ∨ c = 'z'
  · rw [C62_flip p axis hg] at h
    have := (Except.ok.inj h).symm
    subst this
    rw [C62_flip _ axis hg]
    have e : (flipped axis.toList ∘ flipped axis.toList : V3 K → V3 K) = id := funext (flipped_twice _)
    simp only [List.map_map, Option.map_map, e, List.map_id]
    have e2 : (List.map (flipped axis.toList) ∘ List.map (flipped axis.toList) : List (V3 K) → List (V3 K)) = id := by
      funext l; simp [e]
    rw [e2]
    simp
  · have : ∃ c ∈ axis.toList, ¬ (c = 'x' ∨ c = 'y' ∨ c = 'z') := by
      by_contra hn
      apply hg
      intro c hc
      by_contra hc'
      exact hn ⟨c, hc, hc'⟩
    rw [C62_unknown p axis this] at h
    simp at h

/-- C62: the order of the axes is irrelevant. -/
theorem C62_order [Field K] (p : Points K F L) (a b : String) (h : a.toList.Perm b.toList) : p.flip a = p.flip b := by
  by_cases hg : ∀ c ∈ a.toList, c = 'x' ∨ c = 'y' ∨ c = 'z'
  · have hg' : ∀ c ∈ b.toList, c = 'x' ∨ c = 'y' ∨ c = 'z' := fun c hc => hg c (h.mem_iff.mpr hc)
    have e : (flipped a.toList : V3 K → V3 K) = flipped b.toList := by
      funext v; simp only [flipped, h.count_eq]
    rw [C62_flip p a hg, C62_flip p b hg', e]
  · have h1 : ∃ c ∈ a.toList, ¬ (c = 'x' ∨ c = 'y' ∨ c = 'z') := by
      by_contra hn
      apply hg
      intro c hc
      by_contra hc'
      exact hn ⟨c, hc, hc'⟩
    have h2 : ∃ c ∈ b.toList, ¬ (c = 'x' ∨ c = 'y' ∨ c = 'z') := by
      obtain ⟨c, hc, hc'⟩ := h1
      exact ⟨c, h.mem_iff.mp hc, hc'⟩
    rw [C62_unknown p a h1, C62_unknown p b h2]

example : ∀ c ∈ "zxyx".toList, c = 'x' ∨ c = 'y' ∨ c = 'z' := by decide

/-! ### C63 scaling -/

/-- **C63.** Scaling multiplies the coordinates by the factors, keeps the number of normals, and keeps orthogonality:
a tangent vector orthogonal to a normal is mapped to a vector orthogonal to the new normal. -/
theorem C63_scale [Field K] [LinearOrder K] (rt : K → K) (p : Points K F L) (f : V3 K)
    (hf : f.x ≠ 0 ∧ f.y ≠ 0 ∧ f.z ≠ 0) :
    ∃ q, p.scale rt f = .ok q ∧ q.points = p.points.map (fun v => ⟨f.x * v.x, f.y * v.y, f.z * v.z⟩) ∧
      q.features = p.features ∧ q.labels = p.labels ∧ q.batchId = p.batchId ∧ q.batchSize = p.batchSize ∧
      q.batchNpt = p.batchNpt ∧ q.device = p.device ∧
      (p.normals = none → q.normals = none) ∧
      ∀ ns, p.normals = some ns → ∃ ms, q.normals = some ms ∧ ms.length = ns.length ∧
        ∀ (i : Nat) (n m : V3 K), ns[i]? = some n → ms[i]? = some m → ∀ t : V3 K, dot3 t n = 0 →
          dot3 ⟨f.x * t.x, f.y * t.y, f.z * t.z⟩ m = 0 := by
  unfold Points.scale
  simp only [pyAssert, hf, ne_eq, not_false_eq_true, and_self, if_true, bind, Except.bind]
  split
  · rename_i h1
    refine ⟨p, rfl, ?_, rfl, rfl, rfl, rfl, rfl, rfl, fun h => h, ?_⟩
    · obtain ⟨a, b, c⟩ := h1
      rw [a, b, c]
      have : (fun v : V3 K => (⟨1 * v.x, 1 * v.y, 1 * v.z⟩ : V3 K)) = id := by funext v; ext <;> simp
      rw [this, List.map_id]
    · intro ns hns
      refine ⟨ns, hns, rfl, ?_⟩
      intro i n m hn hm t ht
      rw [hn] at hm
      obtain ⟨a, b, c⟩ := h1
      rw [← Option.some.inj hm, a, b, c, one_mul, one_mul, one_mul]
      exact ht
  · refine ⟨_, rfl, ?_, rfl, rfl, rfl, rfl, rfl, rfl, ?_, ?_⟩
    · simp only [V3.scaleBy]
      apply List.map_congr_left
      intro v _
      ext <;> simp [mul_comm]
    · intro h; simp [h]
    · intro ns hns
      simp only [hns]
      split
      · refine ⟨_, rfl, by simp, ?_⟩
        intro i n m hn hm t ht
        rw [List.getElem?_map, hn] at hm
        simp only [Option.map_some, Option.some.injEq] at hm
        rw [← hm]
        generalize max (rt ((n.scaleBy (f.map fun x => 1 / x)).x ^ 2 + (n.scaleBy (f.map fun x => 1 / x)).y ^ 2
          + (n.scaleBy (f.map fun x => 1 / x)).z ^ 2)) (1 / 10 ^ 12) = g
        obtain ⟨a, b, c⟩ := hf
        have e1 : f.x * t.x * (n.x * (1 / f.x) / g) = t.x * n.x / g := by field_simp
        have e2 : f.y * t.y * (n.y * (1 / f.y) / g) = t.y * n.y / g := by field_simp
        have e3 : f.z * t.z * (n.z * (1 / f.z) / g) = t.z * n.z / g := by field_simp
        simp only [dot3, V3.map, V3.scaleBy] at ht ⊢
        rw [e1, e2, e3, ← add_div, ← add_div, ht, zero_div]
      · rename_i hu
        refine ⟨ns, rfl, rfl, ?_⟩
        intro i n m hn hm t ht
        rw [hn] at hm
        rw [← Option.some.inj hm]
        simp only [not_true_eq_false, false_or, not_or, not_not] at hu
        simp only [dot3, hu.1, hu.2] at ht ⊢
        linear_combination f.x * ht

/-- C63: the factor `(1, 1, 1)` changes nothing. -/
theorem C63_ones [Field K] [LinearOrder K] (rt : K → K) (p : Points K F L) : p.scale rt ⟨1, 1, 1⟩ = .ok p := by
  unfold Points.scale
  simp [pyAssert, bind, Except.bind, pure, Except.pure]

/-- C63: a zero component raises. -/
theorem C63_zero [Field K] [LinearOrder K] (rt : K → K) (p : Points K F L) (f : V3 K)
    (h : f.x = 0 ∨ f.y = 0 ∨ f.z = 0) : p.scale rt f = .error .assertion := by
  unfold Points.scale
  have : ¬ (f.x ≠ 0 ∧ f.y ≠ 0 ∧ f.z ≠ 0) := by tauto
  simp only [pyAssert, this, if_false, bind, Except.bind]

/-- C63: after a non-uniform scaling every normal that is not tiny has length one (with an exact square root). -/
theorem C63_unit [Field K] [LinearOrder K] [IsStrictOrderedRing K] (rt : K → K)
    (hrt : ∀ x, 0 ≤ x → 0 ≤ rt x ∧ rt x ^ 2 = x) (p q : Points K F L) (f : V3 K)
    (hu : f.y ≠ f.x ∨ f.z ≠ f.x) (hq : p.scale rt f = .ok q) (ns ms : List (V3 K)) (hn : p.normals = some ns)
    (hm : q.normals = some ms) (i : Nat) (n m : V3 K) (hni : ns[i]? = some n) (hmi : ms[i]? = some m)
    (hbig : (1 / 10 ^ 12) ^ 2 ≤ (n.x / f.x) ^ 2 + (n.y / f.y) ^ 2 + (n.z / f.z) ^ 2) : dot3 m m = 1 := by
  unfold Points.scale at hq
  by_cases hz : f.x ≠ 0 ∧ f.y ≠ 0 ∧ f.z ≠ 0
  · have hone : ¬ (f.x = 1 ∧ f.y = 1 ∧ f.z = 1) := by
      rintro ⟨a, b, c⟩; rw [a, b, c] at hu; simp at hu
    have hu' : ¬True ∨ ¬f.y = f.x ∨ ¬f.z = f.x := Or.inr hu
    simp only [pyAssert, hz, ne_eq, not_false_eq_true, and_self, if_true, bind, Except.bind, hone, if_false, pure,
      Except.pure, Except.ok.injEq, hn] at hq
    rw [if_pos hu'] at hq
    subst hq
    simp only [Option.some.injEq] at hm
    subst hm
    rw [List.getElem?_map, hni] at hmi
    simp only [Option.map_some, Option.some.injEq] at hmi
    subst hmi
    simp only [V3.scaleBy, V3.map, mul_one_div] at *
    generalize n.x / f.x = a at *
    generalize n.y / f.y = b at *
    generalize n.z / f.z = c at *
    have hs : 0 ≤ a ^ 2 + b ^ 2 + c ^ 2 := by positivity
    obtain ⟨r0, r2⟩ := hrt _ hs
    have hge : (1 / 10 ^ 12 : K) ≤ rt (a ^ 2 + b ^ 2 + c ^ 2) := by
      apply le_of_sq_le_sq _ r0
      rw [r2]; exact hbig
    rw [max_eq_left hge]
    have hpos : 0 < rt (a ^ 2 + b ^ 2 + c ^ 2) := lt_of_lt_of_le (by positivity) hge
    simp only [dot3]
    field_simp
    rw [r2]
  · simp only [pyAssert, hz, if_false, bind, Except.bind] at hq
    cases hq

/-! ### C64 normalisation -/

theorem fold_min_le [LinearOrder K] (vs : List (V3 K)) (v : V3 K) (a : Points.Axis) :
    ∀ u ∈ v :: vs, (vs.foldl (fun a b => (⟨min a.x b.x, min a.y b.y, min a.z b.z⟩ : V3 K)) v).along a ≤ u.along a := by
  induction vs generalizing v with
  | nil => intro u hu; simp at hu; rw [hu]; rfl
  | cons w vs ih =>
    intro u hu
    rw [List.foldl_cons]
    have h0 := ih ⟨min v.x w.x, min v.y w.y, min v.z w.z⟩
    rcases List.mem_cons.mp hu with rfl | hu
    · refine le_trans (h0 _ List.mem_cons_self) ?_
      cases a <;> simp [V3.along]
    · rcases List.mem_cons.mp hu with rfl | hu
      · refine le_trans (h0 _ List.mem_cons_self) ?_
        cases a <;> simp [V3.along]
      · exact h0 u (by simp [hu])

theorem fold_max_ge [LinearOrder K] (vs : List (V3 K)) (v : V3 K) (a : Points.Axis) :
    ∀ u ∈ v :: vs, u.along a ≤ (vs.foldl (fun a b => (⟨max a.x b.x, max a.y b.y, max a.z b.z⟩ : V3 K)) v).along a := by
  induction vs generalizing v with
  | nil => intro u hu; simp at hu; rw [hu]; rfl
  | cons w vs ih =>
    intro u hu
    rw [List.foldl_cons]
    have h0 := ih ⟨max v.x w.x, max v.y w.y, max v.z w.z⟩
    rcases List.mem_cons.mp hu with rfl | hu
    · refine le_trans ?_ (h0 _ List.mem_cons_self)
      cases a <;> simp [V3.along]
    · rcases List.mem_cons.mp hu with rfl | hu
      · refine le_trans ?_ (h0 _ List.mem_cons_self)
        cases a <;> simp [V3.along]
      · exact h0 u (by simp [hu])

theorem fold_min_mem [LinearOrder K] (vs : List (V3 K)) (v : V3 K) (a : Points.Axis) :
    ∃ u ∈ v :: vs, (vs.foldl (fun a b => (⟨min a.x b.x, min a.y b.y, min a.z b.z⟩ : V3 K)) v).along a = u.along a := by
  induction vs generalizing v with
  | nil => exact ⟨v, by simp, rfl⟩
  | cons w vs ih =>
    rw [List.foldl_cons]
    obtain ⟨u, hu, e⟩ := ih ⟨min v.x w.x, min v.y w.y, min v.z w.z⟩
    rcases List.mem_cons.mp hu with rfl | hu
    · rw [e]
      cases a
      · rcases min_choice v.x w.x with h | h
        · exact ⟨v, by simp, h⟩
        · exact ⟨w, by simp, h⟩
      · rcases min_choice v.y w.y with h | h
        · exact ⟨v, by simp, h⟩
        · exact ⟨w, by simp, h⟩
      · rcases min_choice v.z w.z with h | h
        · exact ⟨v, by simp, h⟩
        · exact ⟨w, by simp, h⟩
    · exact ⟨u, by simp [hu], e⟩

theorem fold_max_mem [LinearOrder K] (vs : List (V3 K)) (v : V3 K) (a : Points.Axis) :
    ∃ u ∈ v :: vs, (vs.foldl (fun a b => (⟨max a.x b.x, max a.y b.y, max a.z b.z⟩ : V3 K)) v).along a = u.along a := by
  induction vs generalizing v with
  | nil => exact ⟨v, by simp, rfl⟩
  | cons w vs ih =>
    rw [List.foldl_cons]
    obtain ⟨u, hu, e⟩ := ih ⟨max v.x w.x, max v.y w.y, max v.z w.z⟩
    rcases List.mem_cons.mp hu with rfl | hu
    · rw [e]
      cases a
      · rcases max_choice v.x w.x with h | h
        · exact ⟨v, by simp, h⟩
        · exact ⟨w, by simp, h⟩
      · rcases max_choice v.y w.y with h | h
        · exact ⟨v, by simp, h⟩
        · exact ⟨w, by simp, h⟩
      · rcases max_choice v.z w.z with h | h
        · exact ⟨v, by simp, h⟩
        · exact ⟨w, by simp, h⟩
    · exact ⟨u, by simp [hu], e⟩

/-- **C64, bounding box.** The box of a non-empty cloud contains every point and each bound is attained; the box of an
empty cloud raises. -/
theorem C64_bbox [LinearOrder K] (p : Points K F L) (hne : p.points ≠ []) :
    ∃ lo hi, p.bbox = .ok (lo, hi) ∧ ∀ a : Points.Axis,
      (∀ v ∈ p.points, lo.along a ≤ v.along a ∧ v.along a ≤ hi.along a) ∧
      (∃ v ∈ p.points, lo.along a = v.along a) ∧ (∃ v ∈ p.points, hi.along a = v.along a) := by
  obtain ⟨v, vs, h⟩ := List.exists_cons_of_ne_nil hne
  refine ⟨_, _, by rw [Points.bbox, h], ?_⟩
  intro a
  rw [h]
  exact ⟨fun u hu => ⟨fold_min_le vs v a u hu, fold_max_ge vs v a u hu⟩, fold_min_mem vs v a, fold_max_mem vs v a⟩

theorem C64_bbox_empty [LinearOrder K] (p : Points K F L) (h : p.points = []) : p.bbox = .error .index := by
  rw [Points.bbox, h]

/-- **C64, normalisation.** With the bounding box of the cloud and a positive scale, the points are mapped into
`[-scale, scale]³` by one similarity: subtract one centre and multiply by one positive factor. -/
theorem C64_normalize [Field K] [LinearOrder K] [IsStrictOrderedRing K] (p : Points K F L) (lo hi : V3 K) (sc : K)
    (hsc : 0 < sc) (hne : p.points ≠ []) (hb : p.bbox = .ok (lo, hi)) :
    ∃ (ctr : V3 K) (g : K), 0 < g ∧
      p.normalize lo hi sc = { p with points := p.points.map fun v =>
        ⟨g * (v.x - ctr.x), g * (v.y - ctr.y), g * (v.z - ctr.z)⟩ } ∧
      ∀ v ∈ (p.normalize lo hi sc).points, ∀ a : Points.Axis, -sc ≤ v.along a ∧ v.along a ≤ sc := by
  obtain ⟨lo', hi', hb', hbox⟩ := C64_bbox p hne
  rw [hb] at hb'
  obtain ⟨rfl, rfl⟩ := Prod.mk.inj (Except.ok.inj hb')
  generalize hbs : max (max (hi.x - lo.x) (hi.y - lo.y)) (hi.z - lo.z) = w
  have hwx : hi.x - lo.x ≤ w := by rw [← hbs]; exact le_trans (le_max_left _ _) (le_max_left _ _)
  have hwy : hi.y - lo.y ≤ w := by rw [← hbs]; exact le_trans (le_max_right _ _) (le_max_left _ _)
  have hwz : hi.z - lo.z ≤ w := by rw [← hbs]; exact le_max_right _ _
  have hw0 : 0 ≤ w := by
    obtain ⟨v, vs, h⟩ := List.exists_cons_of_ne_nil hne
    have := (hbox .x).1 v (by rw [h]; simp)
    simp only [V3.along] at this
    linarith [this.1, this.2]
  have hd : 0 < w + 1 / 10 ^ 6 := by positivity
  have hg : 0 < 2 * sc / (w + 1 / 10 ^ 6) := by positivity
  have hpts : (p.normalize lo hi sc).points = p.points.map fun v =>
        ⟨2 * sc / (w + 1 / 10 ^ 6) * (v.x - (lo.x + hi.x) * (1 / 2)), 2 * sc / (w + 1 / 10 ^ 6) * (v.y - (lo.y + hi.y) * (1 / 2)),
          2 * sc / (w + 1 / 10 ^ 6) * (v.z - (lo.z + hi.z) * (1 / 2))⟩ := by
    unfold Points.normalize
    simp only [hbs, V3.map, V3.add_x, V3.add_y, V3.add_z]
    apply List.map_congr_left
    intro v _
    ext <;> simp only [mul_comm]
  refine ⟨⟨(lo.x + hi.x) * (1 / 2), (lo.y + hi.y) * (1 / 2), (lo.z + hi.z) * (1 / 2)⟩, 2 * sc / (w + 1 / 10 ^ 6), hg, ?_, ?_⟩
  · rw [← hpts]
    rfl
  · have key : ∀ (l h v : K), l ≤ v → v ≤ h → h - l ≤ w →
        -sc ≤ 2 * sc / (w + 1 / 10 ^ 6) * (v - (l + h) * (1 / 2)) ∧
          2 * sc / (w + 1 / 10 ^ 6) * (v - (l + h) * (1 / 2)) ≤ sc := by
      intro l h v h1 h2 h3
      have he : (0 : K) ≤ 1 / 10 ^ 6 := by positivity
      rw [div_mul_eq_mul_div]
      constructor
      · rw [le_div_iff₀ hd]; nlinarith
      · rw [div_le_iff₀ hd]; nlinarith
    rw [hpts]
    intro u hu a
    obtain ⟨v, hv, rfl⟩ := List.mem_map.mp hu
    have hx := (hbox .x).1 v hv
    have hy := (hbox .y).1 v hv
    have hz := (hbox .z).1 v hv
    simp only [V3.along] at hx hy hz
    cases a
    · exact key _ _ _ hx.1 hx.2 hwx
    · exact key _ _ _ hy.1 hy.2 hwy
    · exact key _ _ _ hz.1 hz.2 hwz

example : (⟨[⟨1, 2, 3⟩, ⟨0, 5, -1⟩], none, none, none, none, 1, none, 0⟩ : Points ℚ Unit Unit).bbox
    = .ok (⟨0, 2, -1⟩, ⟨1, 5, 3⟩) := by decide +kernel

/-! ### C65, C66 orientation of normals -/

/-- The name of an axis. -/
def axisName : Points.Axis → String
  | .x => "x"
  | .y => "y"
  | .z => "z"

/-- **C65.** Orienting along an axis makes that component of every normal non-negative; every normal is kept or
negated; nothing else changes. -/
theorem C65_orient [Field K] [LinearOrder K] [IsStrictOrderedRing K] (p : Points K F L) (a : Points.Axis)
    (ns : List (V3 K)) (hn : p.normals = some ns) :
    ∃ ms, p.orientNormal (axisName a) = .ok { p with normals := some ms } ∧ ms.length = ns.length ∧
      ∀ (i : Nat) (n m : V3 K), ns[i]? = some n → ms[i]? = some m →
        0 ≤ m.along a ∧ (m = n ∨ m = n.map (- ·)) ∧ (0 < n.along a → m = n) ∧ (n.along a < 0 → m = n.map (- ·)) := by
  have hone : (1 * 2 - 1 : K) = 1 ∧ (0 * 2 - 1 : K) = -1 := by constructor <;> norm_num
  refine ⟨ns.map fun n => n.map (· * (if n.along a > 0 then 1 * 2 - 1 else 0 * 2 - 1)), ?_, by simp, ?_⟩
  · unfold Points.orientNormal
    rw [hn]
    cases a <;> rfl
  · intro i n m hni hmi
    rw [List.getElem?_map, hni] at hmi
    simp only [Option.map_some, Option.some.injEq] at hmi
    subst hmi
    by_cases h : n.along a > 0
    · have e : (n.map (· * (if n.along a > 0 then 1 * 2 - 1 else 0 * 2 - 1))) = n := by
        rw [if_pos h, hone.1]; ext <;> simp [V3.map]
      rw [e]
      exact ⟨le_of_lt h, Or.inl rfl, fun _ => rfl, fun h' => absurd h' (not_lt.mpr (le_of_lt h))⟩
    · have e : (n.map (· * (if n.along a > 0 then 1 * 2 - 1 else 0 * 2 - 1))) = n.map (- ·) := by
        rw [if_neg h, hone.2]; ext <;> simp [V3.map]
      rw [e]
      refine ⟨?_, Or.inr rfl, fun h' => absurd h' h, fun _ => rfl⟩
      have : (n.map (- ·)).along a = - n.along a := by cases a <;> rfl
      rw [this]
      linarith [not_lt.mp h]

/-- C65 for the value `xyz`: every component is replaced by its absolute value. -/
theorem C65_orient_xyz [Field K] [LinearOrder K] [IsStrictOrderedRing K] (p : Points K F L)
    (ns : List (V3 K)) (hn : p.normals = some ns) :
    p.orientNormal "xyz" = .ok { p with normals := some (ns.map fun n => ⟨|n.x|, |n.y|, |n.z|⟩) } := by
  unfold Points.orientNormal
  rw [hn]
  rfl

/-- C65: without normals nothing happens. -/
theorem C65_no_normals [Field K] [LinearOrder K] (p : Points K F L) (axis : String) (hn : p.normals = none) :
    p.orientNormal axis = .ok p := by
  unfold Points.orientNormal; rw [hn]

/-- C66 for normals whose component along the axis is not zero: orienting twice is orienting once.
Missing: normals with a zero component, for which the property fails (`C66_violated`). -/
theorem C66_partial [Field K] [LinearOrder K] [IsStrictOrderedRing K] (p : Points K F L) (a : Points.Axis)
    (ns : List (V3 K)) (hn : p.normals = some ns) (hnz : ∀ n ∈ ns, n.along a ≠ 0) :
    ∃ q, p.orientNormal (axisName a) = .ok q ∧ q.orientNormal (axisName a) = .ok q := by
  obtain ⟨ms, h1, h2, h3⟩ := C65_orient p a ns hn
  refine ⟨_, h1, ?_⟩
  obtain ⟨ks, g1, g2, g3⟩ := C65_orient { p with normals := some ms } a ms rfl
  rw [g1]
  have : ks = ms := by
    apply List.ext_getElem?
    intro i
    by_cases hi : i < ms.length
    · have hk := List.getElem?_eq_getElem (l := ks) (i := i) (by omega)
      have hm := List.getElem?_eq_getElem hi
      have hnn := List.getElem?_eq_getElem (l := ns) (i := i) (by omega)
      obtain ⟨c1, c2, c3, c4⟩ := h3 i _ _ hnn hm
      have hpos : 0 < ms[i].along a := by
        rcases lt_trichotomy (ns[i].along a) 0 with h | h | h
        · rw [c4 h]
          have : (ns[i].map (- ·)).along a = - ns[i].along a := by cases a <;> rfl
          rw [this]; linarith
        · exact absurd h (hnz _ (List.getElem_mem _))
        · rw [c3 h]; exact h
      rw [hk, hm, (g3 i _ _ hm hk).2.2.1 hpos]
    · rw [List.getElem?_eq_none (by omega), List.getElem?_eq_none (by omega)]
  rw [this]

/-- **C66 is violated.** For every normal with a zero component along the axis that is not the zero vector, each
orientation negates it again: the result of two calls differs from the result of one. -/
theorem C66_violated [Field K] [LinearOrder K] [IsStrictOrderedRing K] (a : Points.Axis) (n : V3 K)
    (h0 : n.along a = 0) (hn : n ≠ 0) :
    ∃ q q' : Points K F L, (⟨[n], some [n], none, none, none, 1, none, 0⟩ : Points K F L).orientNormal (axisName a) = .ok q ∧
      q.orientNormal (axisName a) = .ok q' ∧ q'.normals = some [n] ∧ q.normals ≠ some [n] := by
  have hone : (0 * 2 - 1 : K) = -1 := by norm_num
  have step : ∀ (p : Points K F L) (m : V3 K), p.normals = some [m] → m.along a = 0 →
      p.orientNormal (axisName a) = .ok { p with normals := some [m.map (- ·)] } := by
    intro p m hm hz
    have e : (m.map (· * (if m.along a > 0 then 1 * 2 - 1 else 0 * 2 - 1))) = m.map (- ·) := by
      rw [hz, if_neg (lt_irrefl _), hone]; ext <;> simp [V3.map]
    unfold Points.orientNormal
    rw [hm]
    rw [← e]
    cases a <;> rfl
  have h1 : (n.map (- ·)).along a = 0 := by
    have : (n.map (- ·)).along a = - n.along a := by cases a <;> rfl
    rw [this, h0, neg_zero]
  refine ⟨_, _, step _ n rfl h0, step _ _ rfl h1, ?_, ?_⟩
  · simp only [Option.some.injEq, List.cons.injEq, and_true]
    ext <;> simp [V3.map]
  · simp only [ne_eq, Option.some.injEq, List.cons.injEq, and_true]
    intro h
    apply hn
    have hx := congrArg V3.x h
    have hy := congrArg V3.y h
    have hz := congrArg V3.z h
    simp only [V3.map] at hx hy hz
    ext
    · show n.x = 0; linarith
    · show n.y = 0; linarith
    · show n.z = 0; linarith

example : (⟨0, 1, 0⟩ : V3 ℚ).along .x = 0 ∧ (⟨0, 1, 0⟩ : V3 ℚ) ≠ 0 := by decide +kernel

/-! ### C67, C69: constructor and moving -/

/-- C67 for batch indices of shape `(N, 1)`: the object is constructed with these indices and the given attributes,
whenever those have one row per point.  Missing: shape `(N,)`, which always raises (`C67_violated`). -/
theorem C67_partial (points : List (V3 K)) (normals : Option (List (V3 K))) (features : Option (List F))
    (labels : Option (List L)) (ids : List Int) (hl : ids.length = points.length) (B dev : Nat)
    (ha : Aligned (⟨points, normals, features, labels, none, B, none, dev⟩ : Points K F L)) :
    Points.init points normals features labels (some (.rows 1 (ids.map fun i => [i]))) B dev
      = .ok ⟨points, normals, features, labels, some ids, B, none, dev⟩ := by
  have e : (ids.map fun i => [i]).flatten = ids := by
    clear hl
    induction ids with
    | nil => rfl
    | cons a l ih => simp [ih]
  have h1 := ha.normals
  have h2 := ha.features
  have h3 := ha.labels
  unfold Points.init
  cases normals <;> cases features <;> cases labels <;>
    simp_all [pyAssert, bind, Except.bind, pure, Except.pure]

/-- C67: with batch indices given as a matrix the construction succeeds iff the other attributes and the indices have
one row per point and the matrix has one column. -/
theorem C67_columns (points : List (V3 K)) (normals : Option (List (V3 K))) (features : Option (List F))
    (labels : Option (List L)) (w : Nat) (ids : List (List Int)) (B dev : Nat) :
    (∃ p, Points.init points normals features labels (some (.rows w ids)) B dev = .ok p) ↔
      Aligned (⟨points, normals, features, labels, none, B, none, dev⟩ : Points K F L) ∧ ids.length = points.length ∧ w = 1 := by
  constructor
  · rintro ⟨p, h⟩
    unfold Points.init at h
    by_cases h1 : ids.length = points.length <;> by_cases h2 : w = 1 <;>
    cases normals <;> cases features <;> cases labels <;>
      simp only [pyAssert, bind, Except.bind, pure, Except.pure, h1, h2, if_true, if_false] at h <;> (repeat' split at h) <;>
      first
        | cases h; done
        | (refine ⟨?_, h1, h2⟩; constructor <;> intro t ht <;> simp_all)
  · rintro ⟨ha, h4, h5⟩
    refine ⟨⟨points, normals, features, labels, some ids.flatten, B, none, dev⟩, ?_⟩
    have h1 := ha.normals
    have h2 := ha.features
    have h3 := ha.labels
    unfold Points.init
    cases normals <;> cases features <;> cases labels <;>
      simp_all [pyAssert, bind, Except.bind, pure, Except.pure]

example : Aligned (⟨[⟨0, 1, 0⟩, ⟨1, 0, 0⟩], some [⟨1, 0, 0⟩, ⟨0, 0, 1⟩], none, some [3, 4], none, 2, none, 0⟩ : Points ℚ Unit Nat) ∧
    ([0, 1] : List Int).length = ([⟨0, 1, 0⟩, ⟨1, 0, 0⟩] : List (V3 ℚ)).length := by
  refine ⟨⟨?_, ?_, ?_, ?_⟩, rfl⟩ <;> intro t ht <;> simp_all <;> subst ht <;> rfl

/-- **C67 is violated.** Flat batch indices are meant to be accepted, but every construction with them raises. -/
theorem C67_violated (points : List (V3 K)) (normals : Option (List (V3 K))) (features : Option (List F))
    (labels : Option (List L)) (ids : List Int) (B dev : Nat) :
    ¬ ∃ p, Points.init points normals features labels (some (.flat ids)) B dev = .ok p := by
  rintro ⟨p, h⟩
  unfold Points.init at h
  simp only [pyAssert, bind, Except.bind, pure, Except.pure] at h
  repeat' split at h
  all_goals first | (cases h; done) | skip
  rename_i heq
  split at heq <;> cases heq

/-- C67: a constructed cloud has aligned attributes, and misaligned ones raise. -/
theorem C67_checks (points : List (V3 K)) (normals : Option (List (V3 K))) (features : Option (List F))
    (labels : Option (List L)) (B dev : Nat) :
    (∃ p, Points.init points normals features labels none B dev = .ok p) ↔
      Aligned (⟨points, normals, features, labels, none, B, none, dev⟩ : Points K F L) := by
  constructor
  · rintro ⟨p, h⟩
    unfold Points.init at h
    cases normals <;> cases features <;> cases labels <;>
      simp only [pyAssert, bind, Except.bind, pure, Except.pure] at h <;> (repeat' split at h) <;>
      first
        | cases h; done
        | (constructor <;> intro t ht <;> simp_all)
  · intro ha
    refine ⟨⟨points, normals, features, labels, none, B, none, dev⟩, ?_⟩
    have h1 := ha.normals
    have h2 := ha.features
    have h3 := ha.labels
    unfold Points.init
    cases normals <;> cases features <;> cases labels <;>
      simp_all [pyAssert, bind, Except.bind, pure, Except.pure]

/-- C69, what is kept: all rows and `batch_npt`; on the same device everything.
Missing: `batch_size` on another device (`C69_violated`). -/
theorem C69_partial (p : Points K F L) (dev : Nat) :
    (p.toDevice dev).points = p.points ∧ (p.toDevice dev).normals = p.normals ∧ (p.toDevice dev).features = p.features ∧
      (p.toDevice dev).labels = p.labels ∧ (p.toDevice dev).batchId = p.batchId ∧
      (p.toDevice dev).batchNpt = p.batchNpt ∧ (p.toDevice dev).device = dev ∧
      (dev = p.device ∨ p.batchSize = 1 → (p.toDevice dev).batchSize = p.batchSize) := by
  unfold Points.toDevice
  split
  · rename_i h; simp [h]
  · rename_i h
    refine ⟨rfl, rfl, rfl, rfl, rfl, rfl, rfl, ?_⟩
    rintro (h' | h')
    · exact absurd h'.symm h
    · exact h'.symm

/-- **C69 is violated.** Moving a batched cloud to another device resets `batch_size` to 1; building an octree of the
right batch size from it then raises. -/
theorem C69_violated [Add F] [Zero F] (p : Points ℚ F L) (dev : Nat) (hd : dev ≠ p.device) (hB : p.batchSize ≠ 1)
    (nrm : V3 ℚ → V3 ℚ) (divF : ℚ → F → F) (o : Octree F) (ho : o.batchSize = p.batchSize) :
    (p.toDevice dev).batchSize ≠ p.batchSize ∧ Octree.build nrm divF o (p.toDevice dev) = .error .assertion := by
  have h1 : (p.toDevice dev).batchSize = 1 := by
    unfold Points.toDevice; rw [if_neg (fun h => hd h.symm)]
  refine ⟨by rw [h1]; exact fun h => hB h.symm, ?_⟩
  unfold Octree.build
  simp only [pyAssert, h1, ho]
  rw [if_neg (fun h => hB h.symm)]
  rfl

/-! ### the hypotheses are satisfiable -/

/-- A cloud with all attributes. -/
def cloudD : Points ℚ Nat Nat := ⟨[⟨1/2, 0, 0⟩, ⟨2, 0, 0⟩], some [⟨1, 0, 0⟩, ⟨0, 1, 0⟩], some [5, 6], some [7, 8],
  some [0, 0], 1, none, 0⟩

theorem cloudD_aligned : Aligned cloudD := by
  constructor <;> intro t ht <;> simp only [cloudD, Option.some.injEq] at ht <;> subst ht <;> rfl

example : (cloudD.clip (-1) 1 (1/100)).toOption.map (fun r => (r.1.points, r.1.labels, r.2))
    = some ([⟨1/2, 0, 0⟩], some [7], [true, false]) := by decide +kernel

example : SameAttributes [cloudD, cloudD] ∧ ([cloudD, cloudD] : List _) ≠ [] ∧ ∀ p ∈ [cloudD, cloudD], Aligned p := by
  refine ⟨?_, by simp, ?_⟩
  · intro p hp q hq; simp at hp hq; subst hp hq; exact ⟨rfl, rfl, rfl⟩
  · intro p hp; simp at hp; subst hp; exact cloudD_aligned

end Ocnn
