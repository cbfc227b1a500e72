import Verif.Conv
import Verif.NnSpec
import Verif.PropsQuery
import Verif.BuildFacts

/-! Lemmas about gathering, scattering and the chunked loops of the convolutions. -/

namespace Ocnn
open Spec
variable {F A B W V R : Type}

/-! ### gathering -/

/-- entry of a column tensor -/
def valAt [Zero V] (data : List V) (n : Int) : V := if n ≥ 0 then (data[n.toNat]?).getD 0 else 0

theorem getIdx_getD {α : Type} (t : List α) (n : Int) (h0 : 0 ≤ n) (h1 : n < t.length) (d : α) :
    getIdx t n = .ok ((t[n.toNat]?).getD d) := by
  have h2 : n.toNat < t.length := by omega
  simp only [getIdx, normIdx, h0, h1, and_self, if_true, bind, Except.bind]
  rw [List.getElem?_eq_getElem h2]
  rfl

/-- all entries point into the data -/
def Inside (neigh : List (List Int)) (n : Nat) : Prop := ∀ row ∈ neigh, ∀ v ∈ row, v < (n : Int)

theorem gatherCols_ok [Zero V] (neigh : List (List Int)) (data : List V) (h : Inside neigh data.length) :
    gatherCols neigh data = .ok (neigh.map fun row => row.map (valAt data)) := by
  unfold gatherCols
  apply mapM_ok
  intro row hr
  apply mapM_ok
  intro n hn
  unfold valAt
  split
  · rename_i h0
    exact getIdx_getD _ _ h0 (h row hr n hn) 0
  · rfl

theorem refers_val [Zero V] {cells : List Cell} {data : List V} {f : Nat → Int → Int → Int → V}
    (hf : IsField cells data f) {c : Cell} {g : Int × Int × Int} {v : Int} (h : RefersTo cells c g v) :
    v < (data.length : Int) ∧ valAt data v = around f c g := by
  obtain ⟨hl, h1, h2⟩ := hf
  rcases h with ⟨j, c', rfl, hj, hs⟩ | ⟨rfl, hn⟩
  · have hj' : j < cells.length := (List.getElem?_eq_some_iff.1 hj).1
    have hd : data[j]? = some data[j] := List.getElem?_eq_getElem (by omega)
    refine ⟨by omega, ?_⟩
    have := h1 j c' _ hj hd
    obtain ⟨e0, e1, e2, e3⟩ := hs
    unfold valAt around
    rw [if_pos (by omega), Int.toNat_natCast, hd, ← e0, ← e1, ← e2, ← e3, this]
    rfl
  · refine ⟨by omega, ?_⟩
    unfold valAt around
    rw [if_neg (by omega), h2]
    intro c' hc' he
    exact hn c' hc' he

theorem table_vals [Zero V] {cells targets : List Cell} {offs : List (Int × Int × Int)} {rows : List (List Int)}
    (h : KernelTable cells targets offs rows) {data : List V} {f : Nat → Int → Int → Int → V}
    (hf : IsField cells data f) :
    Inside rows data.length ∧
      (rows.map fun row => row.map (valAt data)) = targets.map fun c => offs.map fun g => around f c g := by
  obtain ⟨hl, h⟩ := h
  have key : ∀ (i : Nat) (c : Cell) (row : List Int), targets[i]? = some c → rows[i]? = some row →
      (∀ v ∈ row, v < (data.length : Int)) ∧ row.map (valAt data) = offs.map fun g => around f c g := by
    intro i c row hc hr
    obtain ⟨h1, h2⟩ := h i c row hc hr
    constructor
    · intro v hv
      obtain ⟨k, hk, e⟩ := List.getElem_of_mem hv
      have hk' : row[k]? = some v := by rw [List.getElem?_eq_getElem hk, e]
      exact (refers_val hf (h2 k _ v (List.getElem?_eq_getElem (by omega)) hk')).1
    · apply List.ext_getElem (by simp [h1])
      intro k hk1 hk2
      simp only [List.length_map] at hk1 hk2
      rw [List.getElem_map, List.getElem_map]
      exact (refers_val hf (h2 k _ _ (List.getElem?_eq_getElem hk2) (List.getElem?_eq_getElem hk1))).2
  constructor
  · intro row hr v hv
    obtain ⟨i, hi, e⟩ := List.getElem_of_mem hr
    exact (key i _ row (List.getElem?_eq_getElem (by omega)) (by rw [List.getElem?_eq_getElem hi, e])).1 v hv
  · apply List.ext_getElem (by simp [hl])
    intro i h1 h2
    simp only [List.length_map] at h1 h2
    rw [List.getElem_map, List.getElem_map]
    exact (key i _ _ (List.getElem?_eq_getElem h2) (List.getElem?_eq_getElem h1)).2

theorem table_width {cells targets : List Cell} {offs : List (Int × Int × Int)} {rows : List (List Int)}
    (h : KernelTable cells targets offs rows) : ∀ row ∈ rows, row.length = offs.length := by
  intro row hr
  obtain ⟨i, hi, e⟩ := List.getElem_of_mem hr
  exact (h.2 i _ row (List.getElem?_eq_getElem (by have := h.1; omega)) (by rw [List.getElem?_eq_getElem hi, e])).1

/-! ### chunks -/

/-- the chunks cover the rows, and only the last one may be incomplete -/
structure Chunked (n h rows : Nat) : Prop where
  pos : 1 ≤ n
  cover : rows ≤ n * h
  last : (n - 1) * h ≤ rows

theorem bufferSize_ok (rows kdim inConv mb : Nat) (hm : kdim * inConv ≤ mb) :
    ∃ n h, bufferSize rows kdim inConv mb = .ok (n, h) ∧ Chunked n h rows ∧ (0 < rows → (n - 1) * h < rows) ∧
      h * kdim * inConv ≤ mb := by
  unfold bufferSize
  by_cases hi : rows * kdim * inConv > mb
  · have hkc : 0 < kdim * inConv := by
      rcases Nat.eq_zero_or_pos (kdim * inConv) with h | h
      · rw [Nat.mul_assoc, h] at hi; omega
      · exact h
    have hrow : rows * kdim * inConv = rows * (kdim * inConv) := by ring
    generalize hk : kdim * inConv = kc at *
    -- m = number of rows fitting into the buffer
    have hm1 : 1 ≤ mb / kc := (Nat.le_div_iff_mul_le hkc).2 (by omega)
    obtain ⟨m, hmdef⟩ : ∃ m, m = mb / kc := ⟨_, rfl⟩
    rw [hrow] at hi
    have hmul : m * kc ≤ mb := by rw [hmdef]; exact Nat.div_mul_le_self mb kc
    have hmpos : 0 < m * kc := Nat.mul_pos (by omega) hkc
    have hlt : m < rows := by
      by_contra hc
      have : rows * kc ≤ m * kc := Nat.mul_le_mul_right kc (by omega)
      omega
    simp only [hrow, hk, if_pos hi, if_neg (show ¬ kc = 0 by omega), ← hmdef, if_neg (show ¬ m * kc = 0 by omega)]
    obtain ⟨n, hn⟩ : ∃ n, n = (rows * kc + m * kc - 1) / (m * kc) := ⟨_, rfl⟩
    have hn1 : rows ≤ n * m := by
      have h1 : rows * kc + m * kc - 1 < (n + 1) * (m * kc) := by
        rw [hn]
        exact Nat.lt_of_lt_of_eq (Nat.lt_mul_div_succ (rows * kc + m * kc - 1) hmpos) (Nat.mul_comm _ _)
      have h2 : (n + 1) * (m * kc) = n * m * kc + m * kc := by ring
      by_contra hc
      have h3 : (n * m + 1) * kc ≤ rows * kc := Nat.mul_le_mul_right kc (by omega)
      have h4 : (n * m + 1) * kc = n * m * kc + kc := by ring
      omega
    have hn2 : (n - 1) * m < rows := by
      rcases Nat.eq_zero_or_pos n with h0 | hpos
      · rw [h0]; simp; omega
      obtain ⟨n', hn'⟩ : ∃ n', n = n' + 1 := ⟨n - 1, by omega⟩
      have h1 : n * (m * kc) ≤ rows * kc + m * kc - 1 := by
        rw [hn]; exact Nat.div_mul_le_self _ _
      rw [hn'] at h1 ⊢
      have h2 : (n' + 1) * (m * kc) = n' * m * kc + m * kc := by ring
      by_contra hc
      have h3 : rows * kc ≤ n' * m * kc := Nat.mul_le_mul_right kc (by simpa using hc)
      omega
    have hnpos : 1 ≤ n := by
      rcases Nat.eq_zero_or_pos n with h0 | h0
      · rw [h0] at hn1; omega
      · exact h0
    rw [← hn, if_neg (by omega)]
    obtain ⟨h, hh⟩ : ∃ h, h = (rows + n - 1) / n := ⟨_, rfl⟩
    have hc1 : rows ≤ n * h := by
      have h1 : rows + n - 1 < n * ((rows + n - 1) / n + 1) := Nat.lt_mul_div_succ _ (by omega)
      rw [← hh] at h1
      have : n * (h + 1) = n * h + n := by ring
      omega
    have hc2 : h ≤ m := by
      rw [hh]
      apply Nat.le_of_lt_succ
      rw [Nat.div_lt_iff_lt_mul (by omega)]
      have : (m + 1) * n = n * m + n := by ring
      have e : (m.succ) * n = (m + 1) * n := rfl
      omega
    have hc3 : (n - 1) * h < rows := lt_of_le_of_lt (Nat.mul_le_mul_left _ hc2) hn2
    refine ⟨n, h, by rw [← hh], ⟨hnpos, hc1, hc3.le⟩, fun _ => hc3, ?_⟩
    rw [Nat.mul_assoc, hk]
    exact le_trans (Nat.mul_le_mul_right kc hc2) hmul
  · simp only [if_neg hi]
    exact ⟨1, rows, rfl, ⟨le_refl _, by omega, by simp⟩, by simp, by omega⟩

theorem bufferSize_zeroDiv (rows kdim inConv mb : Nat) (h1 : mb < kdim * inConv) (h2 : 0 < rows) :
    bufferSize rows kdim inConv mb = .error .zeroDiv := by
  have hr : rows * kdim * inConv = rows * (kdim * inConv) := by ring
  unfold bufferSize
  have : kdim * inConv ≤ rows * (kdim * inConv) := Nat.le_mul_of_pos_left _ h2
  simp only [hr]
  rw [if_pos (by omega), if_neg (by omega), Nat.div_eq_of_lt h1, Nat.zero_mul, if_pos rfl]

theorem slice_map {α β : Type _} (f : α → β) (l : List α) (a b : Nat) : slice (l.map f) a b = (slice l a b).map f := by
  simp [slice]

theorem slice_length {α : Type _} (l : List α) (a b : Nat) : (slice l a b).length = min b l.length - a := by
  simp [slice]

theorem take_append_slice {α : Type _} (l : List α) (a b : Nat) (h : a ≤ b) : l.take a ++ slice l a b = l.take b := by
  have := List.take_append_drop a (l.take b)
  rwa [List.take_take, min_eq_left h] at this

theorem slice_sub {α : Type _} (l : List α) (a b : Nat) : ∀ x ∈ slice l a b, x ∈ l :=
  fun x hx => List.mem_of_mem_take (List.mem_of_mem_drop hx)

/-- the end of chunk `i` -/
def stopOf (h rows i : Nat) : Nat := min ((i + 1) * h) rows

theorem chunkEnd_ok (s : ConvSetup) (hc : Chunked s.bufferN s.bufferH s.neigh.length) (i : Nat) (hi : i < s.bufferN) :
    chunkEnd s s.bufferH i =
      .ok (stopOf s.bufferH s.neigh.length i, stopOf s.bufferH s.neigh.length i - i * s.bufferH) := by
  have e1 : (i + 1) * s.bufferH = i * s.bufferH + s.bufferH := by ring
  have hle : i * s.bufferH ≤ s.neigh.length :=
    le_trans (Nat.mul_le_mul_right _ (by have := hi; omega)) hc.last
  unfold chunkEnd stopOf
  by_cases h : (i + 1) * s.bufferH > s.neigh.length
  · simp only [if_pos h]
    rw [if_pos ⟨by omega, by omega⟩, min_eq_right (by omega)]
    congr 2
    omega
  · simp only [if_neg h]
    rw [min_eq_left (by omega)]
    congr 2
    omega

theorem chunk_full (s : ConvSetup) (hc : Chunked s.bufferN s.bufferH s.neigh.length) (i : Nat)
    (hi : i + 1 < s.bufferN) : stopOf s.bufferH s.neigh.length i - i * s.bufferH = s.bufferH := by
  have e1 : (i + 1) * s.bufferH = i * s.bufferH + s.bufferH := by ring
  have hle : (i + 1) * s.bufferH ≤ s.neigh.length :=
    le_trans (Nat.mul_le_mul_right _ (by omega)) hc.last
  unfold stopOf
  rw [min_eq_left hle]
  omega

theorem sliceSet_ok {α : Type} (t rows : List α) (a b : Nat) (hl : b ≤ t.length) (hr : rows.length = b - a) (hab : a ≤ b) :
    sliceSet t a b rows = .ok (t.take a ++ rows ++ t.drop b) := by
  unfold sliceSet
  have : (slice t a b).length = b - a := by rw [slice_length, min_eq_left hl]
  simp only [this]
  rw [if_pos hr, show a + (b - a) = b by omega]

theorem fillBuffer_ok [Zero A] (s : ConvSetup) (a b : Nat) (data : List A) (hw : ∀ r ∈ s.neigh, r.length = s.kdim)
    (hin : Inside s.neigh data.length) (hb : b ≤ s.neigh.length) :
    fillBuffer s (b - a) (slice s.neigh a b) data
      = .ok ((slice s.neigh a b).map fun row => row.map (valAt data)) := by
  unfold fillBuffer
  rw [if_neg (by rw [slice_length, min_eq_left hb]; simp)]
  rw [if_neg (by rintro ⟨r, hr, hne⟩; exact hne (hw r (slice_sub _ _ _ r hr)))]
  exact gatherCols_ok _ _ fun row hr => hin row (slice_sub _ _ _ row hr)

/-- the result of the forward loop without chunks -/
def directRows [Zero A] [AddCommMonoid B] (K : Kernel A B W) (neigh : List (List Int)) (data : List A)
    (weights : List W) : List B :=
  neigh.map fun row => mmRow K weights (row.map (valAt data))

theorem forwardGemm_ok [Zero A] [AddCommMonoid B] (K : Kernel A B W) (s : ConvSetup) (out : List B) (data : List A) (weights : List W)
    (hc : Chunked s.bufferN s.bufferH s.neigh.length) (hw : ∀ r ∈ s.neigh, r.length = s.kdim)
    (hin : Inside s.neigh data.length) (hwt : weights.length = s.kdim) (hout : out.length = s.neigh.length) :
    forwardGemm K s out data weights = .ok (directRows K s.neigh data weights) := by
  obtain ⟨res, hres⟩ : ∃ res, res = directRows K s.neigh data weights := ⟨_, rfl⟩
  have hlen : res.length = s.neigh.length := by rw [hres]; simp [directRows]
  have step : ∀ (i : Nat), i < s.bufferN → ∀ t : List B, t.length = s.neigh.length →
      forwardStep K s data weights (s.bufferH, t) i =
      .ok (stopOf s.bufferH s.neigh.length i - i * s.bufferH,
        t.take (i * s.bufferH) ++ slice res (i * s.bufferH) (stopOf s.bufferH s.neigh.length i)
          ++ t.drop (stopOf s.bufferH s.neigh.length i)) := by
    intro i hi t ht
    have hle : i * s.bufferH ≤ s.neigh.length :=
      le_trans (Nat.mul_le_mul_right _ (by omega)) hc.last
    have hst : stopOf s.bufferH s.neigh.length i ≤ s.neigh.length := min_le_right _ _
    have hst2 : i * s.bufferH ≤ stopOf s.bufferH s.neigh.length i := by
      unfold stopOf; rw [le_min_iff]; exact ⟨Nat.mul_le_mul_right _ (by omega), hle⟩
    unfold forwardStep
    simp only [chunkEnd_ok s hc i hi, bind, Except.bind]
    rw [fillBuffer_ok s _ _ data hw hin hst]
    have hb : ((slice s.neigh (i * s.bufferH) (stopOf s.bufferH s.neigh.length i)).map fun row => row.map (valAt data)).map (mmRow K weights)
        = slice res (i * s.bufferH) (stopOf s.bufferH s.neigh.length i) := by
      rw [hres, directRows, slice_map, List.map_map]; rfl
    simp only [hb]
    rw [if_pos hwt]
    simp only [pure, Except.pure]
    rw [sliceSet_ok _ _ _ _ (by omega) (by rw [slice_length, hlen, min_eq_left hst]) hst2]
  have loop : ∀ m, m ≤ s.bufferN →
      ∃ bh, (m < s.bufferN → bh = s.bufferH) ∧
      (List.range m).foldlM (forwardStep K s data weights) (s.bufferH, out)
      = .ok (bh, res.take (m * s.bufferH) ++ out.drop (m * s.bufferH)) := by
    intro m
    induction m with
    | zero => intro _; exact ⟨s.bufferH, fun _ => rfl, by simp [pure, Except.pure]⟩
    | succ m ih =>
      intro hm
      obtain ⟨bh, hbh, e⟩ := ih (by omega)
      obtain rfl := hbh (by omega)
      have hle : m * s.bufferH ≤ s.neigh.length :=
        le_trans (Nat.mul_le_mul_right _ (by omega)) hc.last
      refine ⟨stopOf s.bufferH s.neigh.length m - m * s.bufferH, fun hlt => chunk_full s hc m hlt, ?_⟩
      rw [List.range_succ, List.foldlM_append, e]
      simp only [bind, Except.bind, List.foldlM_cons, List.foldlM_nil, pure, Except.pure]
      rw [step m (by omega) (res.take (m * s.bufferH) ++ out.drop (m * s.bufferH)) (by
        simp [hlen, hout]; omega)]
      simp only
      congr 2
      have e1 : (res.take (m * s.bufferH)).length = m * s.bufferH := by simp; omega
      have hst2 : m * s.bufferH ≤ stopOf s.bufferH s.neigh.length m := by
        unfold stopOf; rw [le_min_iff]; exact ⟨Nat.mul_le_mul_right _ (by omega), hle⟩
      rw [List.take_append_of_le_length (by omega), List.take_of_length_le (by omega), take_append_slice _ _ _ hst2]
      rw [List.drop_append, e1, List.drop_of_length_le (l := res.take _) (by omega), List.nil_append, List.drop_drop]
      rw [show m * s.bufferH + (stopOf s.bufferH s.neigh.length m - m * s.bufferH) = stopOf s.bufferH s.neigh.length m by omega]
      unfold stopOf
      rcases le_total ((m + 1) * s.bufferH) s.neigh.length with h | h
      · rw [min_eq_left h]
      · rw [min_eq_right h, List.take_of_length_le (by omega), List.take_of_length_le (by omega),
          List.drop_of_length_le (by omega), List.drop_of_length_le (by omega)]
  obtain ⟨bh, -, e⟩ := loop s.bufferN (le_refl _)
  unfold forwardGemm
  simp only [bind, Except.bind, pure, Except.pure, e]
  have hcov := hc.cover
  rw [List.take_of_length_le (by omega), List.drop_of_length_le (by omega), List.append_nil, hres]

/-! ### scattering -/

/-- the valid entries with their rows -/
def flatPairs (ns : List Int) (vs : List V) : List (Nat × V) :=
  (ns.zip vs).filterMap fun q => if q.1 ≥ 0 then some (q.1.toNat, q.2) else none

/-- the valid entries of a table with the rows of a column tensor -/
def scatterPairs (neigh : List (List Int)) (cols : List (List V)) : List (Nat × V) :=
  flatPairs neigh.flatten cols.flatten

theorem flatPairs_append (a b : List Int) (c d : List V) (h : a.length = c.length) :
    flatPairs (a ++ b) (c ++ d) = flatPairs a c ++ flatPairs b d := by
  unfold flatPairs
  rw [List.zip_append h, List.filterMap_append]

theorem flatten_length_eq {α β : Type _} (a : List (List α)) (c : List (List β)) (h : a.map List.length = c.map List.length) :
    a.flatten.length = c.flatten.length := by
  rw [List.length_flatten, List.length_flatten, h]

theorem scatterPairs_append (a b : List (List Int)) (c d : List (List V)) (h : a.map List.length = c.map List.length) :
    scatterPairs (a ++ b) (c ++ d) = scatterPairs a c ++ scatterPairs b d := by
  unfold scatterPairs
  rw [List.flatten_append, List.flatten_append, flatPairs_append _ _ _ _ (flatten_length_eq a c h)]

theorem zip_valid (ns : List Int) (vs : List V) (h : ns.length = vs.length) :
    ((ns.filter fun n => decide (n ≥ 0)).map Int.toNat).zip (maskSel (ns.map fun n => decide (n ≥ 0)) vs) = flatPairs ns vs ∧
      (maskSel (ns.map fun n => decide (n ≥ 0)) vs).length = (ns.filter fun n => decide (n ≥ 0)).length := by
  induction ns generalizing vs with
  | nil => simp [flatPairs]
  | cons n ns ih =>
    cases vs with
    | nil => simp at h
    | cons v vs =>
      obtain ⟨h1, h2⟩ := ih vs (by simpa using h)
      by_cases hn : n ≥ 0
      · simp only [List.map_cons, hn, decide_true, List.filter_cons, if_true, maskSel, List.zip_cons_cons, flatPairs,
          List.filterMap_cons, List.length_cons] at *
        exact ⟨by rw [h1], by rw [h2]⟩
      · simp only [List.map_cons, hn, decide_false, List.filter_cons, maskSel, List.zip_cons_cons, flatPairs,
          List.filterMap_cons, if_false, Bool.false_eq_true] at *
        exact ⟨h1, h2⟩

theorem scatterAddInto_append [Add V] (out : List V) (ps qs : List (Nat × V)) :
    scatterAddInto out (ps ++ qs) = scatterAddInto (scatterAddInto out ps) qs := by
  induction ps generalizing out with
  | nil => rfl
  | cons p ps ih => simp only [List.cons_append, scatterAddInto]; exact ih _

theorem mapM_scatterIdx (ns : List Int) (n : Nat) (h : ∀ v ∈ ns, 0 ≤ v ∧ v < (n : Int)) :
    ns.mapM (scatterIdx n) = .ok (ns.map Int.toNat) := by
  apply mapM_ok
  intro v hv
  unfold scatterIdx
  rw [if_pos (h v hv)]

theorem scatterAddOut_ok [Add V] (neigh : List (List Int)) (cols : List (List V)) (out : List V)
    (hs : neigh.map List.length = cols.map List.length) (hin : Inside neigh out.length) :
    (do let src ← validRows neigh cols
        scatterAddOut src (validIdx neigh) out) = .ok (scatterAddInto out (scatterPairs neigh cols)) := by
  have hl := flatten_length_eq neigh cols hs
  obtain ⟨h1, h2⟩ := zip_valid neigh.flatten cols.flatten hl
  unfold validRows scatterAddOut validIdx
  rw [if_pos hs]
  simp only [bind, Except.bind]
  rw [if_pos h2.symm]
  simp only
  rw [mapM_scatterIdx]
  · simp only [pure, Except.pure]
    rw [h1]; rfl
  · intro v hv
    rw [List.mem_filter] at hv
    obtain ⟨hv1, hv2⟩ := hv
    rw [List.mem_flatten] at hv1
    obtain ⟨row, hr, hvr⟩ := hv1
    exact ⟨by simpa using hv2, hin row hr v hvr⟩

/-- the columns of the backward pass -/
def backCols (K : Kernel A B W) (weights : List W) (grad : List B) : List (List A) :=
  grad.map fun g => weights.map fun w => K.apT g w

theorem map_length_const {α : Type _} (l : List (List α)) (n : Nat) (h : ∀ r ∈ l, r.length = n) :
    l.map List.length = List.replicate l.length n := by
  rw [List.eq_replicate_iff]
  exact ⟨by simp, fun b hb => by obtain ⟨r, hr, rfl⟩ := List.mem_map.1 hb; exact h r hr⟩

theorem backCols_shape (K : Kernel A B W) (weights : List W) (grad : List B) (neigh : List (List Int)) (n : Nat)
    (hl : neigh.length = grad.length) (hw : ∀ r ∈ neigh, r.length = n) (hwt : weights.length = n) :
    neigh.map List.length = (backCols K weights grad).map List.length := by
  rw [map_length_const neigh n hw, map_length_const (backCols K weights grad) n]
  · simp [backCols, hl]
  · intro r hr
    obtain ⟨g, -, rfl⟩ := List.mem_map.1 hr
    simpa using hwt

theorem backwardGemm_ok [AddCommMonoid A] (K : Kernel A B W) (s : ConvSetup) (out : List A) (grad : List B) (weights : List W)
    (hc : Chunked s.bufferN s.bufferH s.neigh.length) (hw : ∀ r ∈ s.neigh, r.length = s.kdim)
    (hin : Inside s.neigh out.length) (hwt : weights.length = s.kdim) (hg : grad.length = s.neigh.length) :
    backwardGemm K s out grad weights
      = .ok (scatterAddInto out (scatterPairs s.neigh (backCols K weights grad))) := by
  have shp : ∀ a b, (slice s.neigh a b).map List.length = (backCols K weights (slice grad a b)).map List.length := by
    intro a b
    exact backCols_shape K weights _ _ s.kdim (by rw [slice_length, slice_length, hg])
      (fun r hr => hw r (slice_sub _ _ _ r hr)) hwt
  have loop : ∀ m, m ≤ s.bufferN →
      (List.range m).foldlM (backwardStep K s grad weights) out
      = .ok (scatterAddInto out (scatterPairs (s.neigh.take (m * s.bufferH)) (backCols K weights (grad.take (m * s.bufferH))))) := by
    intro m
    induction m with
    | zero => intro _; simp [pure, Except.pure, scatterPairs, flatPairs, backCols, scatterAddInto]
    | succ m ih =>
      intro hm
      have hle : m * s.bufferH ≤ s.neigh.length :=
        le_trans (Nat.mul_le_mul_right _ (by omega)) hc.last
      have hst2 : m * s.bufferH ≤ stopOf s.bufferH s.neigh.length m := by
        unfold stopOf; rw [le_min_iff]; exact ⟨Nat.mul_le_mul_right _ (by omega), hle⟩
      have hstop : (if (m + 1) * s.bufferH > s.neigh.length then s.neigh.length else (m + 1) * s.bufferH)
          = stopOf s.bufferH s.neigh.length m := by
        unfold stopOf
        split
        · rw [min_eq_right (by omega)]
        · rw [min_eq_left (by omega)]
      rw [List.range_succ, List.foldlM_append, ih (by omega)]
      simp only [bind, Except.bind, List.foldlM_cons, List.foldlM_nil, pure, Except.pure]
      unfold backwardStep
      simp only [hstop, if_pos hwt, bind, Except.bind]
      have h := scatterAddOut_ok (slice s.neigh (m * s.bufferH) (stopOf s.bufferH s.neigh.length m))
        (backCols K weights (slice grad (m * s.bufferH) (stopOf s.bufferH s.neigh.length m)))
        (scatterAddInto out (scatterPairs (s.neigh.take (m * s.bufferH)) (backCols K weights (grad.take (m * s.bufferH)))))
        (shp _ _) (by
          rw [scatterAddInto_length]
          exact fun r hr => hin r (slice_sub _ _ _ r hr))
      simp only [bind, Except.bind] at h
      have hcols : (List.map (fun g => List.map (fun w => K.apT g w) weights) (slice grad (m * s.bufferH) (stopOf s.bufferH s.neigh.length m)))
        = backCols K weights (slice grad (m * s.bufferH) (stopOf s.bufferH s.neigh.length m)) := rfl
      rw [hcols, h]
      simp only
      rw [← scatterAddInto_append, ← scatterPairs_append]
      · congr 2
        rw [take_append_slice _ _ _ hst2]
        have : backCols K weights (grad.take (m * s.bufferH)) ++ backCols K weights (slice grad (m * s.bufferH) (stopOf s.bufferH s.neigh.length m))
            = backCols K weights (grad.take (stopOf s.bufferH s.neigh.length m)) := by
          rw [← take_append_slice _ _ _ hst2]; simp [backCols]
        rw [this]
        unfold stopOf
        rcases le_total ((m + 1) * s.bufferH) s.neigh.length with h | h
        · rw [min_eq_left h]
        · rw [min_eq_right h, List.take_of_length_le (le_refl _), List.take_of_length_le (l := s.neigh) h,
            List.take_of_length_le (l := grad) (by omega), List.take_of_length_le (l := grad) (by omega)]
      · have := shp 0 (m * s.bufferH)
        simpa [slice] using this
  have hcov := hc.cover
  unfold backwardGemm
  rw [loop s.bufferN (le_refl _), List.take_of_length_le (by omega), List.take_of_length_le (by omega)]

/-! ### weight gradient -/

theorem outerSum_length [Zero A] [AddCommMonoid W] (K : Kernel A B W) (n : Nat) (buf : List (List A)) (g : List B) :
    (outerSum K n buf g).length = n := by simp [outerSum]

theorem zipWith_map_add [AddCommMonoid W] (f g : Nat → W) (l : List Nat) :
    List.zipWith (· + ·) (l.map f) (l.map g) = l.map fun k => f k + g k := by
  induction l with
  | nil => rfl
  | cons a l ih => simp [ih]

theorem outerSum_append [Zero A] [AddCommMonoid W] (K : Kernel A B W) (n : Nat) (a b : List (List A)) (g h : List B)
    (hl : a.length = g.length) :
    outerSum K n (a ++ b) (g ++ h) = List.zipWith (· + ·) (outerSum K n a g) (outerSum K n b h) := by
  unfold outerSum
  rw [zipWith_map_add]
  apply List.map_congr_left
  intro k _
  rw [List.zipWith_append hl, List.sum_append]

theorem zipWith_add_assoc [AddCommMonoid W] (a b c : List W) :
    List.zipWith (· + ·) (List.zipWith (· + ·) a b) c = List.zipWith (· + ·) a (List.zipWith (· + ·) b c) := by
  induction a generalizing b c with
  | nil => rfl
  | cons x a ih => cases b <;> cases c <;> simp [ih, add_assoc]

theorem zipWith_add_zero [AddCommMonoid W] (a b : List W) (h : b = List.replicate a.length 0) :
    List.zipWith (· + ·) a b = a := by
  subst h
  induction a with
  | nil => rfl
  | cons x a ih => simp [List.replicate_succ, ih]

theorem zipWith_zero_add [AddCommMonoid W] (a : List W) (n : Nat) (h : a.length = n) :
    List.zipWith (· + ·) (List.replicate n 0) a = a := by
  subst h
  induction a with
  | nil => rfl
  | cons x a ih => simp [List.replicate_succ, ih]

theorem outerSum_nil [Zero A] [AddCommMonoid W] (K : Kernel A B W) (n : Nat) :
    outerSum K n ([] : List (List A)) ([] : List B) = List.replicate n 0 := by
  simp [outerSum, List.map_const']

/-- the columns of the forward pass -/
def fwdCols [Zero A] (neigh : List (List Int)) (data : List A) : List (List A) := neigh.map fun row => row.map (valAt data)

theorem weightGemm_ok [Zero A] [AddCommMonoid W] (K : Kernel A B W) (s : ConvSetup) (out : List W) (data : List A) (grad : List B)
    (hc : Chunked s.bufferN s.bufferH s.neigh.length) (hw : ∀ r ∈ s.neigh, r.length = s.kdim)
    (hin : Inside s.neigh data.length) (hout : out.length = s.kdim) (hg : grad.length = s.neigh.length) :
    weightGemm K s out data grad
      = .ok (List.zipWith (· + ·) out (outerSum K s.kdim (fwdCols s.neigh data) grad)) := by
  have loop : ∀ m, m ≤ s.bufferN →
      ∃ bh, (m < s.bufferN → bh = s.bufferH) ∧
      (List.range m).foldlM (weightStep K s data grad) (s.bufferH, out)
      = .ok (bh, List.zipWith (· + ·) out
          (outerSum K s.kdim (fwdCols (s.neigh.take (m * s.bufferH)) data) (grad.take (m * s.bufferH)))) := by
    intro m
    induction m with
    | zero =>
      intro _
      refine ⟨s.bufferH, fun _ => rfl, ?_⟩
      simp only [List.range_zero, List.foldlM_nil, pure, Except.pure, Nat.zero_mul, List.take_zero, fwdCols, List.map_nil]
      rw [outerSum_nil, zipWith_add_zero _ _ (by rw [hout])]
    | succ m ih =>
      intro hm
      obtain ⟨bh, hbh, e⟩ := ih (by omega)
      obtain rfl := hbh (by omega)
      have hle : m * s.bufferH ≤ s.neigh.length :=
        le_trans (Nat.mul_le_mul_right _ (by omega)) hc.last
      have hst : stopOf s.bufferH s.neigh.length m ≤ s.neigh.length := min_le_right _ _
      have hst2 : m * s.bufferH ≤ stopOf s.bufferH s.neigh.length m := by
        unfold stopOf; rw [le_min_iff]; exact ⟨Nat.mul_le_mul_right _ (by omega), hle⟩
      refine ⟨stopOf s.bufferH s.neigh.length m - m * s.bufferH, fun hlt => chunk_full s hc m hlt, ?_⟩
      rw [List.range_succ, List.foldlM_append, e]
      simp only [bind, Except.bind, List.foldlM_cons, List.foldlM_nil, pure, Except.pure]
      unfold weightStep
      simp only [chunkEnd_ok s hc m (by omega), bind, Except.bind]
      rw [fillBuffer_ok s _ _ data hw hin hst]
      simp only [List.length_map, slice_length, hg, List.length_zipWith, outerSum_length, hout, min_self, and_self, if_true,
        pure, Except.pure]
      congr 2
      have hcols : ((slice s.neigh (m * s.bufferH) (stopOf s.bufferH s.neigh.length m)).map fun row => row.map (valAt data))
          = fwdCols (slice s.neigh (m * s.bufferH) (stopOf s.bufferH s.neigh.length m)) data := rfl
      rw [hcols, zipWith_add_assoc, ← outerSum_append _ _ _ _ _ _ (by simp [fwdCols, hg])]
      congr 1
      have : fwdCols (s.neigh.take (m * s.bufferH)) data ++ fwdCols (slice s.neigh (m * s.bufferH) (stopOf s.bufferH s.neigh.length m)) data
          = fwdCols (s.neigh.take (stopOf s.bufferH s.neigh.length m)) data := by
        rw [← take_append_slice _ _ _ hst2]; simp [fwdCols]
      rw [this, take_append_slice _ _ _ hst2]
      unfold stopOf
      rcases le_total ((m + 1) * s.bufferH) s.neigh.length with h | h
      · rw [min_eq_left h]
      · rw [min_eq_right h, List.take_of_length_le (le_refl _), List.take_of_length_le (l := s.neigh) h,
          List.take_of_length_le (l := grad) (by omega), List.take_of_length_le (l := grad) (by omega)]
  obtain ⟨bh, -, e⟩ := loop s.bufferN (le_refl _)
  unfold weightGemm
  simp only [bind, Except.bind, pure, Except.pure, e]
  have hcov := hc.cover
  rw [List.take_of_length_le (by omega), List.take_of_length_le (by omega)]

/-! ### adjoints -/

/-- the inner products of a kernel -/
structure Pairing (K : Kernel A B W) [AddCommMonoid A] [AddCommMonoid B] [AddCommMonoid W] [AddCommMonoid R]
    (pA : A → A → R) (pB : B → B → R) (pW : W → W → R) : Prop where
  A_zero_left : ∀ a, pA 0 a = 0
  A_zero : ∀ a, pA a 0 = 0
  A_add : ∀ a x y, pA a (x + y) = pA a x + pA a y
  B_zero : ∀ g, pB 0 g = 0
  B_add : ∀ x y g, pB (x + y) g = pB x g + pB y g
  W_zero : ∀ w, pW w 0 = 0
  W_add : ∀ w x y, pW w (x + y) = pW w x + pW w y
  adj : ∀ v w g, pB (K.ap v w) g = pA v (K.apT g w)
  adjW : ∀ v w g, pB (K.ap v w) g = pW w (K.outer v g)

theorem densePairing (R : Type) [CommSemiring R] (ci co : Nat) : Pairing (denseKernel R ci co) dot dot dot2 where
  A_zero_left a := by simp [dot]
  A_zero a := by simp [dot]
  A_add a x y := by simp [dot, mul_add, Finset.sum_add_distrib]
  B_zero a := by simp [dot]
  B_add a x y := by simp [dot, add_mul, Finset.sum_add_distrib]
  W_zero a := by simp [dot2]
  W_add a x y := by simp [dot2, mul_add, Finset.sum_add_distrib]
  adj v w g := by
    simp only [dot, denseKernel, Finset.sum_mul, Finset.mul_sum]
    rw [Finset.sum_comm]
    apply Finset.sum_congr rfl; intro i _
    apply Finset.sum_congr rfl; intro j _
    ring
  adjW v w g := by
    simp only [dot, dot2, denseKernel, Finset.sum_mul]
    rw [Finset.sum_comm]
    apply Finset.sum_congr rfl; intro i _
    apply Finset.sum_congr rfl; intro j _
    ring

theorem dwPairing (R : Type) [CommSemiring R] (c : Nat) : Pairing (dwKernel R c) dot dot dot where
  A_zero_left a := by simp [dot]
  A_zero a := by simp [dot]
  A_add a x y := by simp [dot, mul_add, Finset.sum_add_distrib]
  B_zero a := by simp [dot]
  B_add a x y := by simp [dot, add_mul, Finset.sum_add_distrib]
  W_zero a := by simp [dot]
  W_add a x y := by simp [dot, mul_add, Finset.sum_add_distrib]
  adj v w g := by
    simp only [dot, dwKernel]
    apply Finset.sum_congr rfl; intro j _
    ring
  adjW v w g := by
    simp only [dot, dwKernel]
    apply Finset.sum_congr rfl; intro j _
    ring

section
variable [AddCommMonoid A] [AddCommMonoid B] [AddCommMonoid W] [AddCommMonoid R] {K : Kernel A B W}
  {pA : A → A → R} {pB : B → B → R} {pW : W → W → R}

theorem inner_modify (hz : ∀ a x y, pA a (x + y) = pA a x + pA a y) (x out : List A) (i : Nat) (v a : A)
    (hl : x.length = out.length) (hx : x[i]? = some a) :
    inner pA x (out.modify i (· + v)) = inner pA x out + pA a v := by
  induction x generalizing out i with
  | nil => simp at hx
  | cons b x ih =>
    cases out with
    | nil => simp at hl
    | cons o out =>
      cases i with
      | zero =>
        simp only [List.getElem?_cons_zero, Option.some.injEq] at hx
        subst hx
        simp [inner, List.modify, hz, add_assoc, add_comm]
      | succ i =>
        have := ih out i (by simpa using hl) (by simpa using hx)
        simp only [inner, List.modify_succ_cons, List.zipWith_cons_cons, List.sum_cons] at this ⊢
        rw [this, add_assoc]

theorem inner_scatter (hz : ∀ a x y, pA a (x + y) = pA a x + pA a y) (x out : List A) (ps : List (Nat × A))
    (hl : x.length = out.length) (h : ∀ p ∈ ps, p.1 < x.length) :
    inner pA x (scatterAddInto out ps) = inner pA x out + (ps.map fun p => pA ((x[p.1]?).getD 0) p.2).sum := by
  induction ps generalizing out with
  | nil => simp [scatterAddInto]
  | cons p ps ih =>
    have hp := h p List.mem_cons_self
    rw [scatterAddInto, ih _ (by simp [hl]) (fun q hq => h q (List.mem_cons_of_mem _ hq)),
      inner_modify hz x out p.1 p.2 _ hl (List.getElem?_eq_getElem hp)]
    simp only [List.map_cons, List.sum_cons, List.getElem?_eq_getElem hp, Option.getD_some, add_assoc]

theorem inner_zero_right (hz : ∀ a, pA a 0 = 0) (x : List A) (n : Nat) : inner pA x (List.replicate n 0) = 0 := by
  induction x generalizing n with
  | nil => simp [inner]
  | cons a x ih =>
    cases n with
    | zero => simp [inner]
    | succ n =>
      have := ih n
      simp only [inner, List.replicate_succ, List.zipWith_cons_cons, List.sum_cons] at this ⊢
      rw [this, hz, add_zero]

theorem inner_add_right (hz : ∀ a x y, pW a (x + y) = pW a x + pW a y) (w a b : List W) (h : a.length = b.length) :
    inner pW w (List.zipWith (· + ·) a b) = inner pW w a + inner pW w b := by
  induction w generalizing a b with
  | nil => simp [inner]
  | cons x w ih =>
    cases a with
    | nil => cases b with
      | nil => simp [inner]
      | cons _ _ => simp at h
    | cons y a => cases b with
      | nil => simp at h
      | cons z b =>
        have := ih a b (by simpa using h)
        simp only [inner, List.zipWith_cons_cons, List.sum_cons] at this ⊢
        rw [this, hz]
        abel

theorem p_sum_left (h0 : ∀ g, pB 0 g = 0) (h1 : ∀ x y g, pB (x + y) g = pB x g + pB y g) (l : List B) (g : B) :
    pB l.sum g = (l.map fun x => pB x g).sum := by
  induction l with
  | nil => simp [h0]
  | cons a l ih => simp [h1, ih]

/-- all products of a convolution with an upstream gradient -/
def total (K : Kernel A B W) (pB : B → B → R) (neigh : List (List Int)) (x : List A) (weights : List W) (grad : List B) : R :=
  (List.zipWith (fun row g => (List.zipWith (fun n w => pB (K.ap (valAt x n) w) g) row weights).sum) neigh grad).sum

theorem inner_forward (P : Pairing K pA pB pW) (neigh : List (List Int)) (x : List A) (weights : List W) (grad : List B) :
    inner pB (directRows K neigh x weights) grad = total K pB neigh x weights grad := by
  unfold inner directRows total
  rw [List.zipWith_map_left]
  congr 2
  funext row g
  unfold mmRow
  rw [p_sum_left P.B_zero P.B_add, List.map_zipWith, List.zipWith_map_left]

theorem scatterPairs_lt (neigh : List (List Int)) (cols : List (List V)) (n : Nat) (h : Inside neigh n) :
    ∀ p ∈ scatterPairs neigh cols, p.1 < n := by
  intro p hp
  unfold scatterPairs flatPairs at hp
  rw [List.mem_filterMap] at hp
  obtain ⟨⟨v, a⟩, h1, h2⟩ := hp
  simp only at h2
  split at h2
  · simp only [Option.some.injEq] at h2
    subst h2
    have hv := (List.of_mem_zip h1).1
    rw [List.mem_flatten] at hv
    obtain ⟨row, hr, hvr⟩ := hv
    have := h row hr v hvr
    simp only
    omega
  · cases h2

theorem flatPairs_sum (P : Pairing K pA pB pW) (x : List A) (weights : List W) (g : B) (row : List Int) :
    ((flatPairs row (weights.map fun w => K.apT g w)).map fun p => pA ((x[p.1]?).getD 0) p.2).sum
      = (List.zipWith (fun n w => pB (K.ap (valAt x n) w) g) row weights).sum := by
  induction row generalizing weights with
  | nil => simp [flatPairs]
  | cons n row ih =>
    cases weights with
    | nil => simp [flatPairs]
    | cons w weights =>
      have := ih weights
      unfold flatPairs at this ⊢
      simp only [List.map_cons, List.zip_cons_cons, List.filterMap_cons, List.zipWith_cons_cons, List.sum_cons]
      by_cases hn : n ≥ 0
      · simp only [hn, if_true, List.map_cons, List.sum_cons]
        rw [this, P.adj, valAt, if_pos hn]
      · simp only [hn, if_false]
        rw [this, P.adj, valAt, if_neg hn, P.A_zero_left, zero_add]

theorem inner_backward (P : Pairing K pA pB pW) (neigh : List (List Int)) (x : List A) (weights : List W) (grad : List B)
    (hin : Inside neigh x.length) (hl : neigh.length = grad.length) (hw : ∀ r ∈ neigh, r.length = weights.length) :
    inner pA x (scatterAddInto (List.replicate x.length 0) (scatterPairs neigh (backCols K weights grad)))
      = total K pB neigh x weights grad := by
  rw [inner_scatter P.A_add _ _ _ (by simp) (scatterPairs_lt _ _ _ hin), inner_zero_right P.A_zero, zero_add]
  clear hin
  induction neigh generalizing grad with
  | nil => simp [scatterPairs, flatPairs, total]
  | cons row neigh ih =>
    cases grad with
    | nil => simp at hl
    | cons g grad =>
      have := ih grad (by simpa using hl) (fun r hr => hw r (List.mem_cons_of_mem _ hr))
      have e : scatterPairs (row :: neigh) (backCols K weights (g :: grad))
          = flatPairs row (weights.map fun w => K.apT g w) ++ scatterPairs neigh (backCols K weights grad) := by
        unfold scatterPairs backCols
        simp only [List.flatten_cons, List.map_cons]
        rw [flatPairs_append _ _ _ _ (by simp [hw row List.mem_cons_self])]
      rw [e, List.map_append, List.sum_append, this, flatPairs_sum P]
      simp [total]

theorem inner_outer_row (P : Pairing K pA pB pW) (weights : List W) (row : List A) (g : B) (hw : row.length = weights.length) :
    inner pW weights (outerSum K weights.length [row] [g])
      = (List.zipWith (fun v w => pB (K.ap v w) g) row weights).sum := by
  have e : outerSum K weights.length [row] [g] = row.map fun v => K.outer v g := by
    unfold outerSum
    apply List.ext_getElem (by simp [hw])
    intro k h1 h2
    simp only [List.length_map] at h2
    simp [h2]
  rw [e]
  clear e
  induction row generalizing weights with
  | nil => simp [inner]
  | cons v row ih =>
    cases weights with
    | nil => simp at hw
    | cons w weights =>
      have := ih weights (by simpa using hw)
      unfold inner at this ⊢
      simp only [List.map_cons, List.zipWith_cons_cons, List.sum_cons, this, P.adjW]

theorem inner_weight (P : Pairing K pA pB pW) (neigh : List (List Int)) (x : List A) (weights : List W) (grad : List B)
    (hl : neigh.length = grad.length) (hw : ∀ r ∈ neigh, r.length = weights.length) :
    inner pW weights (outerSum K weights.length (fwdCols neigh x) grad) = total K pB neigh x weights grad := by
  induction neigh generalizing grad with
  | nil =>
    cases grad with
    | nil =>
      simp only [fwdCols, List.map_nil]
      rw [outerSum_nil, inner_zero_right P.W_zero]
      simp [total]
    | cons _ _ => simp at hl
  | cons row neigh ih =>
    cases grad with
    | nil => simp at hl
    | cons g grad =>
      have := ih grad (by simpa using hl) (fun r hr => hw r (List.mem_cons_of_mem _ hr))
      have e := outerSum_append K weights.length [row.map (valAt x)] (fwdCols neigh x) [g] grad rfl
      simp only [List.singleton_append] at e
      have e2 : fwdCols (row :: neigh) x = row.map (valAt x) :: fwdCols neigh x := rfl
      rw [e2, e, inner_add_right P.W_add _ _ _ (by rw [outerSum_length, outerSum_length]), this,
        inner_outer_row P _ _ _ (by simp [hw row List.mem_cons_self])]
      simp [total, List.zipWith_map_left]

end

end Ocnn
