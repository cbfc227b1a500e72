import Verif.ConvSetup

/-! Closed forms of padding, gathering and the convolution layers. -/

set_option linter.unusedSimpArgs false

namespace Ocnn
open Spec

variable {F V A B W R : Type}

/-! ### padding -/

theorem maskFill_number (m : List Bool) (n : Nat) (vs : List V) (v : V) (h : n + m.count true ≤ vs.length) :
    maskFill m (List.replicate m.length v) (vs.drop n)
      = (number n m).map fun c => if 0 ≤ c then (vs[c.toNat]?).getD v else v := by
  induction m generalizing n with
  | nil => simp [maskFill, number]
  | cons b m ih =>
    cases b
    · simp only [List.count_cons, Bool.false_eq_true, beq_iff_eq, if_false, Nat.add_zero] at h
      simp only [List.length_cons, List.replicate_succ, maskFill, number, List.map_cons, ih n h]
      simp
    · simp only [List.count_cons, beq_self_eq_true, if_true] at h
      have hn : n < vs.length := by omega
      rw [List.drop_eq_getElem_cons hn]
      simp only [List.length_cons, List.replicate_succ, maskFill, number, List.map_cons, ih (n + 1) (by omega)]
      simp [hn]

theorem maskSel_maskFill (m : List Bool) (ts vs : List V) (h : m.length = ts.length) (hv : vs.length = m.count true) :
    maskSel m (maskFill m ts vs) = vs := by
  induction m generalizing ts vs with
  | nil => simp at hv; subst hv; cases ts <;> simp [maskFill, maskSel]
  | cons b m ih =>
    cases ts with
    | nil => simp at h
    | cons t ts =>
      cases b
      · simp only [List.count_cons, Bool.false_eq_true, beq_iff_eq, if_false, Nat.add_zero] at hv
        simp only [maskFill, maskSel, ih ts vs (by simpa using h) hv]
      · simp only [List.count_cons, beq_self_eq_true, if_true] at hv
        cases vs with
        | nil => simp at hv
        | cons v vs => simp only [maskFill, maskSel, ih ts vs (by simpa using h) (by simpa using hv)]

theorem maskFill_maskSel (m : List Bool) (n : Nat) (ys : List V) (v : V) (h : m.length = ys.length) :
    maskFill m (List.replicate m.length v) (maskSel m ys)
      = List.zipWith (fun c y => if 0 ≤ c then y else v) (number n m) ys := by
  induction m generalizing n ys with
  | nil => simp [maskFill, number]
  | cons b m ih =>
    cases ys with
    | nil => simp at h
    | cons y ys =>
      cases b
      · simp [List.replicate_succ, maskFill, maskSel, number, ih n ys (by simpa using h)]
      · simp [List.replicate_succ, maskFill, maskSel, number, ih (n + 1) ys (by simpa using h)]

theorem maskFill_map {X : Type} (m : List Bool) (n : Nat) (xs : List X) (g : X → V) (v : V) (h : m.length = xs.length) :
    maskFill m (List.replicate m.length v) ((maskSel m xs).map g)
      = (xs.zip (number n m)).map fun p => if 0 ≤ p.2 then g p.1 else v := by
  induction m generalizing n xs with
  | nil => simp [maskFill, number]
  | cons b m ih =>
    cases xs with
    | nil => simp at h
    | cons x xs =>
      cases b
      · simp [List.replicate_succ, maskFill, maskSel, number, ih n xs (by simpa using h)]
      · simp [List.replicate_succ, maskFill, maskSel, number, ih (n + 1) xs (by simpa using h)]

theorem mask_of {o : Octree F} {h : Nat} (w : o.Valid h) (d : Nat) (hd : d ≤ h) :
    o.nemptyMask d = .ok (o.masks d) ∧ (o.masks d).length = o.nnum d := by
  have W := w.wf'
  unfold Octree.nemptyMask
  simp only [chk_ok w d hd, bind, Except.bind, need, W.children d hd, pure, Except.pure, number_mask]
  exact ⟨trivial, by rw [W.len d hd, W.nnum d hd]⟩

theorem pad_ok {o : Octree F} {h : Nat} (w : o.Valid h) (d : Nat) (hd : d ≤ h) (x : List V) (v : V)
    (hx : x.length = o.nnumNempty d) :
    octreePad x o d v = .ok (maskFill (o.masks d) (List.replicate (o.masks d).length v) x) := by
  obtain ⟨h1, h2⟩ := mask_of w d hd
  unfold octreePad
  simp only [h1, bind, Except.bind, boolSet, List.length_replicate, h2, if_true]
  rw [hx, nnumNempty_eq w d hd, if_pos rfl]

theorem depad_ok {o : Octree F} {h : Nat} (w : o.Valid h) (d : Nat) (hd : d ≤ h) (y : List V)
    (hy : y.length = o.nnum d) : octreeDepad y o d = .ok (maskSel (o.masks d) y) := by
  obtain ⟨h1, h2⟩ := mask_of w d hd
  unfold octreeDepad
  simp only [h1, bind, Except.bind, boolIndex, h2, hy, if_true]

theorem maskFill_length (m : List Bool) (ts vs : List V) (h : m.length = ts.length) : (maskFill m ts vs).length = ts.length := by
  induction m generalizing ts vs with
  | nil => simp [maskFill]
  | cons b m ih =>
    cases ts with
    | nil => simp at h
    | cons t ts =>
      cases b
      · simp [maskFill, ih ts vs (by simpa using h)]
      · cases vs <;> simp [maskFill, ih ts _ (by simpa using h)]

/-! ### convolution -/

theorem convForward_ok [AddCommMonoid A] [AddCommMonoid B] (K : Kernel A B W) (c : ConvBase) (o : Octree F) (d : Nat)
    (s : ConvSetup) (srcs targets : List Cell) (offs : List (Int × Int × Int)) (hs : c.setup o d = .ok s)
    (ok : SetupOK s srcs targets offs) (hnd : srcs.Nodup) (hi : s.inH = srcs.length) (ho : s.outH = targets.length)
    (x : List A) (hx : x.length = srcs.length) (ws : List W) (hw : ws.length = offs.length) :
    convForward K c x ws o d = .ok (directRows K s.neigh x ws) := by
  unfold convForward ConvSetup.checkAndInit
  simp only [hs, bind, Except.bind, pyAssert, hx, hi, if_true, pure, Except.pure, decide_true]
  exact forwardGemm_ok K s _ x ws ok.chunked ok.width (hx ▸ table_inside ok.table hnd) (by rw [hw, ok.kdim])
    (by rw [List.length_replicate, ho, ok.rows])

theorem convBackward_ok [AddCommMonoid A] [AddCommMonoid B] [AddCommMonoid W] (K : Kernel A B W) (c : ConvBase) (o : Octree F)
    (d : Nat) (s : ConvSetup) (srcs targets : List Cell) (offs : List (Int × Int × Int)) (hs : c.setup o d = .ok s)
    (ok : SetupOK s srcs targets offs) (hnd : srcs.Nodup) (x : List A) (hx : x.length = srcs.length) (ws : List W)
    (hw : ws.length = offs.length) (g : List B) (hg : g.length = targets.length) :
    convBackward K c x ws o d g
      = .ok (scatterAddInto (List.replicate x.length 0) (scatterPairs s.neigh (backCols K ws g)),
          outerSum K ws.length (fwdCols s.neigh x) g) := by
  have hin := table_inside ok.table hnd
  unfold convBackward
  simp only [hs, bind, Except.bind]
  rw [backwardGemm_ok K s _ g ws ok.chunked ok.width (by rw [List.length_replicate, hx]; exact hin) (by rw [hw, ok.kdim])
    (by rw [hg, ok.rows])]
  simp only
  rw [weightGemm_ok K s _ x g ok.chunked ok.width (hx ▸ hin) (by rw [List.length_replicate, hw, ok.kdim]) (by rw [hg, ok.rows])]
  simp only [pure, Except.pure]
  rw [zipWith_zero_add _ _ (by rw [outerSum_length, ok.kdim, hw]), ok.kdim, hw]

theorem deconvForward_ok [AddCommMonoid A] [AddCommMonoid B] (K : Kernel A B W) (c : ConvBase) (o : Octree F) (d : Nat)
    (s : ConvSetup) (srcs targets : List Cell) (offs : List (Int × Int × Int)) (hs : c.setup o d = .ok s)
    (ok : SetupOK s srcs targets offs) (hnd : srcs.Nodup) (hi : s.inH = targets.length) (ho : s.outH = srcs.length)
    (x : List B) (hx : x.length = targets.length) (ws : List W) (hw : ws.length = offs.length) :
    deconvForward K c x ws o d
      = .ok (scatterAddInto (List.replicate srcs.length 0) (scatterPairs s.neigh (backCols K ws x))) := by
  unfold deconvForward ConvSetup.checkAndInit
  simp only [hs, bind, Except.bind, pyAssert, hx, hi, if_true, pure, Except.pure, decide_true, ho]
  exact backwardGemm_ok K s _ x ws ok.chunked ok.width (by rw [List.length_replicate]; exact table_inside ok.table hnd)
    (by rw [hw, ok.kdim]) (by rw [hx, ok.rows])

theorem deconvBackward_ok [AddCommMonoid A] [AddCommMonoid B] [AddCommMonoid W] (K : Kernel A B W) (c : ConvBase) (o : Octree F)
    (d : Nat) (s : ConvSetup) (srcs targets : List Cell) (offs : List (Int × Int × Int)) (hs : c.setup o d = .ok s)
    (ok : SetupOK s srcs targets offs) (hnd : srcs.Nodup) (x : List B) (hx : x.length = targets.length) (ws : List W)
    (hw : ws.length = offs.length) (g : List A) (hg : g.length = srcs.length) :
    deconvBackward K c x ws o d g
      = .ok (directRows K s.neigh g ws, outerSum K ws.length (fwdCols s.neigh g) x) := by
  have hin := table_inside ok.table hnd
  unfold deconvBackward
  simp only [hs, bind, Except.bind]
  rw [forwardGemm_ok K s _ g ws ok.chunked ok.width (hg ▸ hin) (by rw [hw, ok.kdim])
    (by rw [List.length_replicate, hx, ok.rows])]
  simp only
  rw [weightGemm_ok K s _ g x ok.chunked ok.width (hg ▸ hin) (by rw [List.length_replicate, hw, ok.kdim]) (by rw [hx, ok.rows])]
  simp only [pure, Except.pure]
  rw [zipWith_zero_add _ _ (by rw [outerSum_length, ok.kdim, hw]), ok.kdim, hw]

theorem directRows_length [Zero A] [AddCommMonoid B] (K : Kernel A B W) (neigh : List (List Int)) (x : List A) (ws : List W) :
    (directRows K neigh x ws).length = neigh.length := by simp [directRows]

/-- the convolution of a field at a cell, for any kernel -/
def convOf [AddCommMonoid B] (K : Kernel A B W) (f : Nat → Int → Int → Int → A) (offs : List (Int × Int × Int)) (ws : List W)
    (c : Cell) : B := (List.zipWith (fun g w => K.ap (around f c g) w) offs ws).sum

theorem directRows_eq [AddCommMonoid A] [AddCommMonoid B] (K : Kernel A B W) {srcs targets : List Cell}
    {offs : List (Int × Int × Int)} {rows : List (List Int)} (h : KernelTable srcs targets offs rows) {x : List A}
    {f : Nat → Int → Int → Int → A} (hf : IsField srcs x f) (ws : List W) :
    directRows K rows x ws = targets.map (convOf K f offs ws) := by
  have h2 := (table_vals h hf).2
  have : directRows K rows x ws = (rows.map fun row => row.map (valAt x)).map (mmRow K ws) := by
    simp [directRows]
  rw [this, h2, List.map_map]
  apply List.map_congr_left
  intro c _
  simp only [Function.comp, mmRow, convOf, List.zipWith_map_left]

/-- The layer produced by a convolution: `none` marks an empty node. -/
theorem forward_uniform (o : Octree F) (h : Nat) (w : o.Valid h) (d : Nat) (hd : d ≤ h)
    (hn : NeighExact o.batchSize d o.keys o.neighs) (k : Nat × Nat × Nat) (hk : k ∈ supportedKernels) (nempty : Bool)
    (s : Nat) (srcs targets : List Cell) (hN : Nodes o nempty d s srcs targets)
    (outs : List (Option Cell))
    (houts : if s = 2 ∧ nempty = false then
        ∃ pcells pch, CellsOf o.batchSize (d - 1) o.keys pcells ∧ o.children (d - 1) = some pch ∧
          outs = (pcells.zip pch).map fun p => if 0 ≤ p.2 then some (firstChild p.1) else none
      else outs = targets.map some)
    {A B W : Type} [AddCommMonoid A] [AddCommMonoid B] (K : Kernel A B W)
    (inC outC : Nat) (ks : List Nat) (mb : Nat) (m : ConvModule B W) (ha : KernelArg ks k)
    (hi : ConvBase.init true inC outC ks s nempty mb = .ok m.base)
    (hb : m.directMethod = false → (kernelOffsets k).length * inC ≤ mb)
    (hw : m.weights.length = (kernelOffsets k).length) (x : List A) (f : Nat → Int → Int → Int → A) (hf : IsField srcs x f) :
    m.forward K x o d = .ok (outs.map fun oc => match oc with
      | some c => convOf K f (kernelOffsets k) m.weights c + m.bias.getD 0
      | none => 0) := by
  have hx : x.length = srcs.length := hf.1.symm
  have hnd := nodes_nodup o h w d hd nempty s srcs targets hN
  have hbase := hi
  rw [init_ok true inC outC ks s nempty mb k hk ha] at hbase
  have hbase : m.base = _ := (Except.ok.inj hbase).symm
  -- the rows before padding
  have hcore : (if m.directMethod then do
        let col ← octree2col x o d m.base.kernel m.base.stride m.base.nempty
        mmCols K m.weights col
      else convForward K m.base x m.weights o d : M (List B)) = .ok (targets.map (convOf K f (kernelOffsets k) m.weights)) := by
    cases hdm : m.directMethod
    · simp only [Bool.false_eq_true, if_false]
      obtain ⟨st, e1, e2, e3, e4⟩ := conv_setup o h w d hd hn k hk nempty s srcs targets hN inC outC ks mb m.base ha hi (hb hdm)
      rw [convForward_ok K m.base o d st srcs targets _ e1 e2 hnd e3 e4 x hx m.weights hw, directRows_eq K e2.table hf]
    · simp only [if_true]
      obtain ⟨⟨rows, e1, e2⟩, -, -⟩ := nodes_table o h w d hd hn k hk nempty s srcs targets hN
      unfold octree2col
      rw [hbase]
      simp only [e1, bind, Except.bind]
      rw [gatherCols_ok rows x (table_vals e2 hf).1]
      simp only [mmCols]
      rw [if_neg]
      · have := directRows_eq K e2 hf m.weights
        rw [← this]
        simp [directRows]
      · rintro ⟨r, hr, hne⟩
        obtain ⟨row, hr', rfl⟩ := List.mem_map.1 hr
        rw [List.length_map, table_width e2 row hr', hw] at hne
        exact hne rfl
  have hbias : addBias m.bias (targets.map (convOf K f (kernelOffsets k) m.weights))
      = targets.map fun c => convOf K f (kernelOffsets k) m.weights c + m.bias.getD 0 := by
    unfold addBias
    cases m.bias with
    | none => simp
    | some b => simp [Function.comp_def]
  unfold ConvModule.forward
  rw [hcore]
  simp only [bind, Except.bind]
  rw [hbias, hbase]
  simp only
  by_cases hc : s = 2 ∧ nempty = false
  · rw [if_pos hc] at houts ⊢
    obtain ⟨pcells, pch, hp, hpc, rfl⟩ := houts
    cases hN with
    | one _ _ _ _ _ => exact absurd hc.1 (by decide)
    | two d cells ch pcells' pch' hc' hch' hp' hpc' =>
      rw [Nat.add_sub_cancel] at hp hpc ⊢
      rw [if_neg (by omega)]
      have W := w.wf'
      have h16 := w.depth_le
      have hh := w.h_le
      have e := cells_unique (by omega) hp' (W.cellsOf d (by omega))
      subst e
      have e := cells_unique (by omega) hp (W.cellsOf d (by omega))
      subst e
      rw [W.children d (by omega)] at hpc hpc'
      cases hpc
      cases hpc'
      rw [nonEmpty_eq _ _ _ (W.len d (by omega)), List.map_map]
      rw [pad_ok w d (by omega) _ _ (by
        rw [List.length_map, maskSel_length _ _ (W.len d (by omega)), W.nnumNempty d (by omega)])]
      rw [maskFill_map _ 0 _ _ _ (W.len d (by omega)), List.map_map]
      congr 1
      apply List.map_congr_left
      rintro ⟨c, v⟩ _
      simp only [Function.comp]
      by_cases hv : 0 ≤ v
      · simp [hv]
      · simp [hv]
  · rw [if_neg hc] at houts ⊢
    subst houts
    simp only [pure, Except.pure, List.map_map, Function.comp_def]

/-- the output list of `forward_uniform` -/
theorem outs_exists (o : Octree F) (h : Nat) (w : o.Valid h) (d : Nat) (hd : d ≤ h) (nempty : Bool) (s : Nat)
    (targets : List Cell) : ∃ outs : List (Option Cell), if s = 2 ∧ nempty = false then
        ∃ pcells pch, CellsOf o.batchSize (d - 1) o.keys pcells ∧ o.children (d - 1) = some pch ∧
          outs = (pcells.zip pch).map fun p => if 0 ≤ p.2 then some (firstChild p.1) else none
      else outs = targets.map some := by
  by_cases hc : s = 2 ∧ nempty = false
  · simp only [if_pos hc]
    exact ⟨_, _, _, w.wf'.cellsOf (d - 1) (by omega), w.wf'.children (d - 1) (by omega), rfl⟩
  · simp only [if_neg hc]
    exact ⟨_, rfl⟩

/-! ### transposed convolution -/

theorem scatterAdd_eq [Add V] [Zero V] (src : List V) (idx : List Int) (n : Nat) :
    scatterAdd src idx (some n) = scatterAddOut src idx (List.replicate n 0) := by
  unfold scatterAddOut scatterAdd
  by_cases hl : idx.length = src.length
  · simp only [if_pos hl, bind, Except.bind, List.length_replicate]
  · match idx with
    | [] => simp only [if_neg hl, bind, Except.bind]
    | [i] => simp only [if_neg hl, bind, Except.bind, List.length_replicate]
    | _ :: _ :: _ => simp only [if_neg hl, bind, Except.bind]

theorem col2octree_ok [AddCommMonoid V] (o : Octree F) (d : Nat) (name : String) (s : Nat) (nempty : Bool)
    (srcs targets : List Cell) (offs : List (Int × Int × Int)) (rows : List (List Int))
    (hr : o.getNeigh d name s nempty = .ok rows) (ht : KernelTable srcs targets offs rows) (hnd : srcs.Nodup)
    (hck : o.chk d = .ok ()) (hl : srcs.length = (if nempty then o.nnumNempty d else o.nnum d))
    (y : List (List V)) (hy : rows.map List.length = y.map List.length) :
    col2octree y o d name s nempty = .ok (scatterAddInto (List.replicate srcs.length 0) (scatterPairs rows y)) := by
  have h := scatterAddOut_ok rows y (List.replicate srcs.length 0) hy (by rw [List.length_replicate]; exact table_inside ht hnd)
  unfold col2octree
  simp only [hr, hck, bind, Except.bind, ← hl] at h ⊢
  rw [← h]
  cases validRows rows y with
  | error e => rfl
  | ok src => exact scatterAdd_eq _ _ _

theorem flatPairs_row [AddCommMonoid V] (row : List Int) (col : List V) (r : Nat) :
    (((flatPairs row col).filter fun p => decide (p.1 = r)).map Prod.snd).sum
      = (List.zipWith (fun n v => if n = (r : Int) then v else 0) row col).sum := by
  induction row generalizing col with
  | nil => simp [flatPairs]
  | cons n row ih =>
    cases col with
    | nil => simp [flatPairs]
    | cons v col =>
      have := ih col
      unfold flatPairs at this ⊢
      simp only [List.zip_cons_cons, List.filterMap_cons, List.zipWith_cons_cons, List.sum_cons]
      by_cases hn : n ≥ 0
      · simp only [hn, if_true, List.filter_cons]
        by_cases hr : n = (r : Int)
        · subst hr
          simp only [Int.toNat_natCast, decide_true, if_true, List.map_cons, List.sum_cons]
          rw [this]
        · have h2 : ¬ n.toNat = r := by omega
          simp only [h2, decide_false, Bool.false_eq_true, if_false, hr, zero_add]
          exact this
      · have hr : ¬ n = (r : Int) := by omega
        simp only [hn, if_false, hr, zero_add]
        exact this

theorem scatterPairs_row [AddCommMonoid V] (rows : List (List Int)) (cols : List (List V)) (r : Nat)
    (h : rows.map List.length = cols.map List.length) :
    (((scatterPairs rows cols).filter fun p => decide (p.1 = r)).map Prod.snd).sum
      = (List.zipWith (fun row col => (List.zipWith (fun n v => if n = (r : Int) then v else 0) row col).sum) rows cols).sum := by
  induction rows generalizing cols with
  | nil => simp [scatterPairs, flatPairs]
  | cons row rows ih =>
    cases cols with
    | nil => simp at h
    | cons col cols =>
      simp only [List.map_cons, List.cons.injEq] at h
      have := scatterPairs_append [row] rows [col] cols (by simp [h.1])
      simp only [List.singleton_append] at this
      rw [this, List.filter_append, List.map_append, List.sum_append, ih cols h.2]
      simp only [List.zipWith_cons_cons, List.sum_cons]
      congr 1
      have e : scatterPairs [row] [col] = flatPairs row col := by simp [scatterPairs]
      rw [e, flatPairs_row]

theorem zipWith_congr_idx {α β γ δ : Type _} (f : α → β → γ) (g : δ → β → γ) (l : List α) (l' : List δ) (m : List β)
    (hl : l.length = l'.length) (h : ∀ i (h1 : i < l.length) (h2 : i < l'.length) (h3 : i < m.length), f l[i] m[i] = g l'[i] m[i]) :
    List.zipWith f l m = List.zipWith g l' m := by
  apply List.ext_getElem (by simp [hl])
  intro i h1 h2
  rw [List.getElem_zipWith, List.getElem_zipWith]
  exact h _ _ _ _

/-- the transposed convolution, for any kernel -/
def deconvOf [AddCommMonoid A] (K : Kernel A B W) (ts : List Cell) (xs : List B) (offs : List (Int × Int × Int)) (ws : List W)
    (c : Cell) : A :=
  (List.zipWith (fun t x => (List.zipWith (fun g w => if IsShift t c g then K.apT x w else 0) offs ws).sum) ts xs).sum

theorem refersTo_iff {cells : List Cell} (hnd : cells.Nodup) {c : Cell} {g : Int × Int × Int} {v : Int} (h : RefersTo cells c g v)
    {r : Nat} {c' : Cell} (hr : cells[r]? = some c') : v = (r : Int) ↔ IsShift c c' g := by
  rcases h with ⟨j, c2, rfl, h1, h2⟩ | ⟨rfl, h2⟩
  · constructor
    · intro e
      have : j = r := by omega
      subst this
      rw [hr] at h1
      cases h1
      exact h2
    · intro e
      have : c' = c2 := by
        unfold IsShift at e h2
        cases c'; cases c2
        simp only [Cell.mk.injEq] at *
        omega
      subst this
      rw [nodup_getElem?_inj hnd h1 hr]
  · constructor
    · intro e; omega
    · intro e; exact absurd e (h2 c' (List.mem_of_getElem? hr))

theorem scatter_deconv [AddCommMonoid A] (K : Kernel A B W) {srcs targets : List Cell} {offs : List (Int × Int × Int)}
    {rows : List (List Int)} (h : KernelTable srcs targets offs rows) (hnd : srcs.Nodup) (x : List B) (hx : x.length = targets.length)
    (ws : List W) (hw : ws.length = offs.length) :
    scatterAddInto (List.replicate srcs.length 0) (scatterPairs rows (backCols K ws x))
      = srcs.map (deconvOf K targets x offs ws) := by
  have hsh := backCols_shape K ws x rows offs.length (by rw [h.1, hx]) (table_width h) hw
  apply List.ext_getElem?
  intro r
  rw [scatterAddInto_getElem?, List.getElem?_map]
  rcases Nat.lt_or_ge r srcs.length with hr | hr
  · rw [List.getElem?_replicate, if_pos hr, List.getElem?_eq_getElem hr]
    simp only [Option.map_some, zero_add, Option.some.injEq]
    rw [scatterPairs_row _ _ _ hsh]
    unfold deconvOf backCols
    rw [List.zipWith_map_right]
    congr 1
    apply zipWith_congr_idx _ _ _ _ _ h.1
    intro i h1 h2 h3
    obtain ⟨hl, ht⟩ := h.2 i targets[i] rows[i] (List.getElem?_eq_getElem h2) (List.getElem?_eq_getElem h1)
    rw [List.zipWith_map_right]
    congr 1
    apply zipWith_congr_idx _ _ _ _ _ hl
    intro j j1 j2 j3
    have := refersTo_iff hnd (ht j offs[j] _ (List.getElem?_eq_getElem j2) (List.getElem?_eq_getElem j1)) (List.getElem?_eq_getElem hr)
    simp only [this]
  · rw [List.getElem?_eq_none (by simpa using hr), List.getElem?_eq_none hr]
    rfl

theorem deconv_forward_ok (o : Octree F) (h : Nat) (w : o.Valid h) (d : Nat) (hd : d ≤ h)
    (hn : NeighExact o.batchSize d o.keys o.neighs) (k : Nat × Nat × Nat) (hk : k ∈ supportedKernels) (nempty : Bool)
    (s : Nat) (srcs targets : List Cell) (hN : Nodes o nempty d s srcs targets) [AddCommMonoid A] [AddCommMonoid B] (K : Kernel A B W)
    (inC outC : Nat) (ks : List Nat) (mb : Nat) (m : ConvModule A W) (ha : KernelArg ks k)
    (hi : ConvBase.init false inC outC ks s nempty mb = .ok m.base)
    (hb : m.directMethod = false → (kernelOffsets k).length * outC ≤ mb)
    (hw : m.weights.length = (kernelOffsets k).length) (x x' : List B) (hx : x'.length = targets.length)
    (hpre : (if s = 2 ∧ nempty = false then octreeDepad x o (d - 1) else .ok x) = .ok x') :
    m.deconvForward K x o (if s = 2 then d - 1 else d)
      = .ok (srcs.map fun c => deconvOf K targets x' (kernelOffsets k) m.weights c + m.bias.getD 0) := by
  have hnd := nodes_nodup o h w d hd nempty s srcs targets hN
  have hbase := hi
  rw [init_ok false inC outC ks s nempty mb k hk ha] at hbase
  have hbase : m.base = _ := (Except.ok.inj hbase).symm
  obtain ⟨⟨rows, e1, e2⟩, hl, hst⟩ := nodes_table o h w d hd hn k hk nempty s srcs targets hN
  have hcol : (if s = 2 then (if s = 2 then d - 1 else d) + 1 else (if s = 2 then d - 1 else d)) = d := by
    rcases hst with ⟨rfl, -⟩ | ⟨rfl, hd1, -⟩
    · simp
    · simp only [if_true]; omega
  have hpre' : (if s = 2 ∧ nempty = false then octreeDepad x o (if s = 2 then d - 1 else d) else (.ok x : M (List B))) = .ok x' := by
    rw [← hpre]
    by_cases hc : s = 2 ∧ nempty = false
    · rw [if_pos hc, if_pos hc, if_pos hc.1]
    · rw [if_neg hc, if_neg hc]
  have hcore : (if m.directMethod then
        col2octree (backCols K m.weights x') o d (kernelName k) s nempty
      else deconvForward K m.base x' m.weights o (if s = 2 then d - 1 else d) : M (List A))
      = .ok (srcs.map (deconvOf K targets x' (kernelOffsets k) m.weights)) := by
    cases hdm : m.directMethod
    · simp only [Bool.false_eq_true, if_false]
      obtain ⟨st, a1, a2, a3, a4⟩ := deconv_setup o h w d hd hn k hk nempty s srcs targets hN inC outC ks mb m.base ha hi (hb hdm)
      rw [deconvForward_ok K m.base o _ st srcs targets _ a1 a2 hnd a3 a4 x' hx m.weights hw,
        scatter_deconv K a2.table hnd x' hx m.weights hw]
    · simp only [if_true]
      rw [col2octree_ok o d _ s nempty srcs targets _ rows e1 e2 hnd (chk_ok w d hd) hl _
        (backCols_shape K m.weights x' rows _ (by rw [e2.1, hx]) (table_width e2) hw),
        scatter_deconv K e2 hnd x' hx m.weights hw]
  unfold ConvModule.deconvForward
  rw [hbase] at hcore ⊢
  simp only [pure, Except.pure] at hcore ⊢
  rw [hpre']
  simp only [bind, Except.bind, hcol]
  have hbc : (List.map (fun g => List.map (fun w => K.apT g w) m.weights) x') = backCols K m.weights x' := rfl
  rw [hbc, hcore]
  simp only [addBias]
  cases m.bias with
  | none => simp
  | some b => simp [Function.comp_def]

end Ocnn
