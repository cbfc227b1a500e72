import Verif.BatchLemmas

/-! The operations of ocnn/nn act sample by sample on a batch (for C58). -/

set_option linter.unusedSimpArgs false

namespace Ocnn
open Spec
variable {F : Type}

/-- the positions the kernel is applied to -/
def tg (o : Octree F) (nempty : Bool) (d s : Nat) : List Cell :=
  if s = 2 then (qc o true (d - 1)).map firstChild else qc o nempty d

theorem nodes_std {o : Octree F} {h : Nat} (w : o.Valid h) (d : Nat) (hd : d ≤ h) (nempty : Bool) (s : Nat)
    (hs : s = 1 ∨ s = 2 ∧ 1 ≤ d) : Nodes o nempty d s (qc o nempty d) (tg o nempty d s) := by
  have W := w.wf'
  rcases hs with rfl | ⟨rfl, h1⟩
  · have e := queried_qc w d hd nempty _ _ (W.cellsOf d hd) (W.children d hd)
    unfold tg
    rw [if_neg (by decide), ← e]
    exact .one d _ _ (W.cellsOf d hd) (W.children d hd)
  · obtain ⟨d, rfl⟩ : ∃ e, d = e + 1 := ⟨d - 1, by omega⟩
    have e := queried_qc w (d + 1) hd nempty _ _ (W.cellsOf (d + 1) hd) (W.children (d + 1) hd)
    have e' := queried_qc w d (by omega) true _ _ (W.cellsOf d (by omega)) (W.children d (by omega))
    unfold tg
    rw [if_pos rfl, ← e, Nat.add_sub_cancel, ← e']
    exact .two d _ _ _ _ (W.cellsOf _ hd) (W.children _ hd) (W.cellsOf d (by omega)) (W.children d (by omega))

/-- the output nodes of a convolution, `none` for the empty ones of a padded output -/
def outCells (o : Octree F) (nempty : Bool) (d s : Nat) : List (Option Cell) :=
  if s = 2 ∧ nempty = false then
    List.zipWith (fun c b => if b = true then some (firstChild c) else none) (layerCells o.batchSize o.masks (d - 1)) (o.masks (d - 1))
  else (tg o nempty d s).map some

theorem zip_number (cells : List Cell) (m : List Bool) (n : Nat) :
    ((cells.zip (number n m)).map fun p => if 0 ≤ p.2 then some (firstChild p.1) else none)
      = List.zipWith (fun c b => if b = true then some (firstChild c) else none) cells m := by
  induction m generalizing cells n with
  | nil => simp [number]
  | cons b m ih =>
    cases cells with
    | nil => simp
    | cons c cells => cases b <;> simp [number, ih]

theorem out_std {o : Octree F} {h : Nat} (w : o.Valid h) (d : Nat) (hd : d ≤ h) (nempty : Bool) (s : Nat) :
    if s = 2 ∧ nempty = false then ∃ pcells pch, CellsOf o.batchSize (d - 1) o.keys pcells ∧ o.children (d - 1) = some pch ∧
      outCells o nempty d s = (pcells.zip pch).map fun p => if 0 ≤ p.2 then some (firstChild p.1) else none
    else outCells o nempty d s = (tg o nempty d s).map some := by
  have W := w.wf'
  unfold outCells
  split
  · exact ⟨_, _, W.cellsOf (d - 1) (by omega), W.children (d - 1) (by omega), (zip_number _ _ 0).symm⟩
  · rfl

theorem blocks_zipWith {α β γ δ : Type} (tag : Nat → α → β) (tag' : Nat → δ → γ) (f : β → Bool → γ) (f0 : α → Bool → δ)
    (hf : ∀ i a b, f (tag i a) b = tag' i (f0 a b)) (ls : List (List α)) (ms : List (List Bool))
    (h : ls.map List.length = ms.map List.length) :
    List.zipWith f (blocks tag ls) ms.flatten = blocks tag' (List.zipWith (fun l m => List.zipWith f0 l m) ls ms) := by
  rw [blocks_eq, blocks_eq]
  generalize 0 = k
  induction ms generalizing ls k with
  | nil =>
    cases ls with
    | nil => rfl
    | cons l ls => simp at h
  | cons m ms ih =>
    cases ls with
    | nil => simp at h
    | cons l ls =>
      simp only [List.map_cons, List.cons.injEq] at h
      simp only [List.zipIdx_cons, List.map_cons, List.flatten_cons, List.zipWith_cons_cons]
      rw [List.zipWith_append (by simpa using h.1), ih ls h.2, List.zipWith_map_left, List.map_zipWith]
      simp only [hf]

theorem blocks_map_inner {α β γ : Type} (tag : Nat → β → γ) (ls : List (List α)) (g : α → β) :
    blocks tag (ls.map (List.map g)) = blocks (fun i a => tag i (g a)) ls := by
  rw [blocks_eq, blocks_eq, List.zipIdx_map, List.map_map]
  congr 1
  apply List.map_congr_left
  intro p _
  simp

theorem firstChild_inSample (i : Nat) (c : Cell) : firstChild (Cell.inSample i c) = Cell.inSample i (firstChild c) := rfl

theorem BatchOf.tg {os : List (Octree F)} {o' : Octree F} {D : Nat} (h : BatchOf os o' D) (d : Nat) (hd : d ≤ D)
    (nempty : Bool) (s : Nat) : tg o' nempty d s = blocks Cell.inSample (os.map fun o => Ocnn.tg o nempty d s) := by
  unfold Ocnn.tg
  split
  · rw [h.qc (d - 1) (by omega)]
    have : (os.map fun o => (Ocnn.qc o true (d - 1)).map firstChild) = (os.map fun o => Ocnn.qc o true (d - 1)).map (List.map firstChild) := by
      rw [List.map_map]; rfl
    rw [this, blocks_map_inner]
    rw [blocks_eq, blocks_eq, List.map_flatten, List.map_map]
    congr 1
    apply List.map_congr_left
    intro p _
    simp only [Function.comp_apply, List.map_map]
    rfl
  · exact h.qc d hd nempty

theorem BatchOf.out {os : List (Octree F)} {o' : Octree F} {D : Nat} (h : BatchOf os o' D) (d : Nat) (hd : d ≤ D)
    (nempty : Bool) (s : Nat) :
    outCells o' nempty d s = blocks (fun i => Option.map (Cell.inSample i)) (os.map fun o => outCells o nempty d s) := by
  unfold outCells
  split
  · rw [h.cells (d - 1) (by omega), h.masks (d - 1) (by omega)]
    rw [blocks_zipWith Cell.inSample (fun i => Option.map (Cell.inSample i)) _
      (fun c b => if b = true then some (firstChild c) else none)]
    · congr 1
      rw [List.zipWith_map, List.zipWith_self]
    · intro i a b
      cases b <;> rfl
    · rw [List.map_map, List.map_map]
      apply List.map_congr_left
      intro o ho
      exact ((h.valid o ho).wf'.len (d - 1) (by omega)).symm
  · rw [h.tg d hd]
    have : (os.map fun o => (Ocnn.tg o nempty d s).map some) = (os.map fun o => Ocnn.tg o nempty d s).map (List.map some) := by
      rw [List.map_map]; rfl
    rw [this, blocks_map_inner, blocks_eq, blocks_eq, List.map_flatten, List.map_map]
    congr 1
    apply List.map_congr_left
    intro p _
    simp only [Function.comp_apply, List.map_map]
    rfl

theorem out_b_zero {os : List (Octree F)} {o' : Octree F} {D : Nat} (h : BatchOf os o' D) (d : Nat) (hd : d ≤ D)
    (nempty : Bool) (s : Nat) : ∀ o ∈ os, ∀ c, some c ∈ outCells o nempty d s → c.b = 0 := by
  intro o ho c hc
  have htg : ∀ c ∈ tg o nempty d s, c.b = 0 := by
    intro c hc
    unfold tg at hc
    split at hc
    · obtain ⟨c', hc', rfl⟩ := List.mem_map.mp hc
      exact h.b_zero (d - 1) (by omega) true o ho c' hc'
    · exact h.b_zero d hd nempty o ho c hc
  unfold outCells at hc
  split at hc
  · rw [← List.map_uncurry_zip_eq_zipWith] at hc
    obtain ⟨⟨c', b⟩, hm, e⟩ := List.mem_map.mp hc
    have := h.b_zero (d - 1) (by omega) false o ho c' (List.of_mem_zip hm).1
    cases b
    · simp [Function.uncurry] at e
    · simp [Function.uncurry] at e
      rw [← e]
      exact this
  · obtain ⟨c', hc', e⟩ := List.mem_map.mp hc
    cases e
    exact htg c hc'

/-- a row of a padded output -/
def outRow {B : Type} [Zero B] (g : Cell → B) : Option Cell → B
  | some c => g c
  | none => 0

/-- A convolution on a batch acts sample by sample. -/
theorem conv_perSample {os : List (Octree F)} {o' : Octree F} {D : Nat} (h : BatchOf os o' D) (d : Nat) (hd : d ≤ D)
    (hn : ∀ o ∈ os, NeighExact o.batchSize d o.keys o.neighs) (hn' : NeighExact o'.batchSize d o'.keys o'.neighs)
    (k : Nat × Nat × Nat) (hk : k ∈ supportedKernels) (nempty : Bool) (s : Nat) (hs : s = 1 ∨ s = 2 ∧ 1 ≤ d)
    {A B W : Type} [AddCommMonoid A] [AddCommMonoid B] (K : Kernel A B W) (inC outC : Nat) (ks : List Nat) (mb : Nat)
    (m : ConvModule B W) (ha : KernelArg ks k) (hi : ConvBase.init true inC outC ks s nempty mb = .ok m.base)
    (hb : m.directMethod = false → (kernelOffsets k).length * inC ≤ mb)
    (hw : m.weights.length = (kernelOffsets k).length) :
    PerSample os o' (fun o => if nempty then o.nnumNempty d else o.nnum d)
      (fun o => if nempty then o.nnumNempty (if s = 2 then d - 1 else d) else o.nnum (if s = 2 then d - 1 else d))
      (fun o x => m.forward K x o d) := by
  apply perSample_of
  intro xs hxs
  obtain ⟨f, hf, hfi⟩ := h.field d hd nempty xs hxs
  refine ⟨fun i => (((os.map fun o => outCells o nempty d s)[i]?).getD []).map fun oc =>
    outRow (fun c => convOf K f (kernelOffsets k) m.weights c + m.bias.getD 0) (Option.map (Cell.inSample i) oc), ?_, ?_⟩
  · intro i o x ho hx hlen
    have hmem := List.mem_of_getElem? ho
    have w := h.valid o hmem
    have e : m.forward K x o d = .ok ((outCells o nempty d s).map
        (outRow fun c => convOf K (sampleField f i) (kernelOffsets k) m.weights c + m.bias.getD 0)) :=
      forward_uniform o D w d hd (hn o hmem) k hk nempty s _ _ (nodes_std w d hd nempty s hs) _
      (out_std w d hd nempty s) K inC outC ks mb m ha hi hb hw x _ (hfi i o x ho hx)
    have e2 : ((outCells o nempty d s).map
        (outRow fun c => convOf K (sampleField f i) (kernelOffsets k) m.weights c + m.bias.getD 0))
        = (((os.map fun o => outCells o nempty d s)[i]?).getD []).map fun oc =>
        outRow (fun c => convOf K f (kernelOffsets k) m.weights c + m.bias.getD 0) (Option.map (Cell.inSample i) oc) := by
      rw [List.getElem?_map, ho]
      apply List.map_congr_left
      intro oc hoc
      cases oc with
      | none => rfl
      | some c =>
        have hb0 := out_b_zero h d hd nempty s o hmem c hoc
        simp only [Option.map_some, outRow]
        congr 1
        unfold convOf
        simp only [around_sample f i c hb0]
    constructor
    · rw [e, e2]
    · obtain ⟨y, hy1, hy2⟩ := C41_conv K o D w d hd (hn o hmem) k hk nempty s hs inC outC ks mb m ha hi hb hw x hlen
      rw [e, e2] at hy1
      cases hy1
      exact hy2
  · have e : m.forward K xs.flatten o' d = .ok ((outCells o' nempty d s).map
        (outRow fun c => convOf K f (kernelOffsets k) m.weights c + m.bias.getD 0)) :=
      forward_uniform o' D h.valid' d hd hn' k hk nempty s _ _ (nodes_std h.valid' d hd nempty s hs) _
      (out_std h.valid' d hd nempty s) K inC outC ks mb m ha hi hb hw _ f hf
    rw [e, h.out d hd, map_blocks, List.length_map]

/-! ### padding -/

theorem perSample_fun {X Y : Type} (os : List (Octree F)) (o' : Octree F) (n m : Octree F → Nat)
    (op : Octree F → List X → M (List Y)) (g : Octree F → List X → List Y)
    (h : ∀ o ∈ os, ∀ x : List X, x.length = n o → op o x = .ok (g o x) ∧ (g o x).length = m o)
    (h' : ∀ xs : List (List X), xs.map List.length = os.map n → op o' xs.flatten = .ok (List.zipWith g os xs).flatten) :
    PerSample os o' n m op := by
  apply perSample_of
  intro xs hxs
  have hl : xs.length = os.length := by simpa using congrArg List.length hxs
  refine ⟨fun i => ((List.zipWith g os xs)[i]?).getD [], ?_, ?_⟩
  · intro i o x ho hx hlen
    have := h o (List.mem_of_getElem? ho) x hlen
    simpa [List.getElem?_zipWith, ho, hx] using this
  · rw [h' xs hxs]
    congr 2
    apply List.ext_getElem?
    intro i
    rw [List.getElem?_map]
    by_cases hi : i < os.length
    · simp [hi, List.getElem?_zipWith, List.getElem?_eq_getElem (show i < xs.length by omega)]
    · rw [List.getElem?_eq_none (by simp; omega)]
      simp [hi]

theorem maskSel_flatten' {α : Type} (ms : List (List Bool)) (ls : List (List α))
    (h : ms.map List.length = ls.map List.length) :
    maskSel ms.flatten ls.flatten = (List.zipWith maskSel ms ls).flatten := by
  induction ms generalizing ls with
  | nil => cases ls <;> simp [maskSel] at *
  | cons m ms ih =>
    cases ls with
    | nil => simp at h
    | cons l ls =>
      simp only [List.map_cons, List.cons.injEq] at h
      simp only [List.flatten_cons, List.zipWith_cons_cons]
      rw [maskSel_append _ _ _ _ h.1, ih ls h.2]

theorem maskFill_append {α : Type} (m m' : List Bool) (v : α) (xs xs' : List α) (h : xs.length = m.count true) :
    maskFill (m ++ m') (List.replicate (m ++ m').length v) (xs ++ xs')
      = maskFill m (List.replicate m.length v) xs ++ maskFill m' (List.replicate m'.length v) xs' := by
  induction m generalizing xs with
  | nil =>
    have : xs = [] := List.eq_nil_of_length_eq_zero (by simpa using h)
    subst this
    simp [maskFill]
  | cons b m ih =>
    cases b
    · have := ih xs (by simpa using h)
      simp only [List.cons_append, List.length_cons, List.replicate_succ, maskFill, this]
    · cases xs with
      | nil => simp at h
      | cons x xs =>
        have := ih xs (by simpa using h)
        simp only [List.cons_append, List.length_cons, List.replicate_succ, maskFill, this]

theorem maskFill_flatten {α : Type} (ms : List (List Bool)) (v : α) (ls : List (List α))
    (h : ls.map List.length = ms.map fun m => m.count true) :
    maskFill ms.flatten (List.replicate ms.flatten.length v) ls.flatten
      = (List.zipWith (fun m l => maskFill m (List.replicate m.length v) l) ms ls).flatten := by
  induction ms generalizing ls with
  | nil => cases ls <;> simp [maskFill] at *
  | cons m ms ih =>
    cases ls with
    | nil => simp at h
    | cons l ls =>
      simp only [List.map_cons, List.cons.injEq] at h
      simp only [List.flatten_cons, List.zipWith_cons_cons]
      rw [maskFill_append _ _ _ _ _ h.1, ih ls h.2]

theorem zipWith_map_fst {α β γ δ : Type} (f : γ → β → δ) (g : α → γ) (l : List α) (l' : List β) :
    List.zipWith f (l.map g) l' = List.zipWith (fun a b => f (g a) b) l l' := by
  rw [List.zipWith_map_left]

theorem depad_perSample {os : List (Octree F)} {o' : Octree F} {D : Nat} (h : BatchOf os o' D) (d : Nat) (hd : d ≤ D) {V : Type} :
    PerSample os o' (fun o => o.nnum d) (fun o => o.nnumNempty d) (fun o (x : List V) => octreeDepad x o d) := by
  apply perSample_fun (g := fun o x => maskSel (o.masks d) x)
  · intro o ho x hx
    refine ⟨depad_ok (h.valid o ho) d hd x hx, ?_⟩
    rw [maskSel_length _ _ (by rw [(mask_of (h.valid o ho) d hd).2, hx]), nnumNempty_eq (h.valid o ho) d hd]
  · intro xs hxs
    have hm : (os.map fun o => o.masks d).map List.length = xs.map List.length := by
      rw [hxs, List.map_map]
      apply List.map_congr_left
      intro o ho
      exact (mask_of (h.valid o ho) d hd).2
    have hl : xs.flatten.length = o'.nnum d := by
      rw [← (mask_of h.valid' d hd).2, h.masks d hd, List.length_flatten, List.length_flatten, hm]
    show octreeDepad xs.flatten o' d = _
    rw [depad_ok h.valid' d hd _ hl, h.masks d hd, maskSel_flatten' _ _ hm, zipWith_map_fst]

theorem pad_perSample {os : List (Octree F)} {o' : Octree F} {D : Nat} (h : BatchOf os o' D) (d : Nat) (hd : d ≤ D) {V : Type} (v : V) :
    PerSample os o' (fun o => o.nnumNempty d) (fun o => o.nnum d) (fun o (x : List V) => octreePad x o d v) := by
  apply perSample_fun (g := fun o x => maskFill (o.masks d) (List.replicate (o.masks d).length v) x)
  · intro o ho x hx
    refine ⟨pad_ok (h.valid o ho) d hd x v hx, ?_⟩
    rw [maskFill_length _ _ _ (by simp), List.length_replicate, (mask_of (h.valid o ho) d hd).2]
  · intro xs hxs
    have hm : xs.map List.length = (os.map fun o => o.masks d).map fun m => m.count true := by
      rw [hxs, List.map_map]
      apply List.map_congr_left
      intro o ho
      exact nnumNempty_eq (h.valid o ho) d hd
    have hl : xs.flatten.length = o'.nnumNempty d := by
      rw [nnumNempty_eq h.valid' d hd, h.masks d hd, List.length_flatten, hm, List.count_flatten]
    show octreePad xs.flatten o' d v = _
    rw [pad_ok h.valid' d hd _ v hl, h.masks d hd, maskFill_flatten _ _ _ hm, zipWith_map_fst]

/-! ### max pooling -/

theorem chunk8_append {α : Type} (n n' : Nat) (l l' : List α) (h : l.length = 8 * n) :
    chunk8 (n + n') (l ++ l') = chunk8 n l ++ chunk8 n' l' := by
  induction n generalizing l with
  | zero =>
    have : l = [] := List.eq_nil_of_length_eq_zero (by simpa using h)
    subst this
    simp [chunk8]
  | succ n ih =>
    rw [Nat.add_right_comm, chunk8, chunk8, List.take_append_of_le_length (by omega), List.drop_append_of_le_length (by omega),
      ih _ (by simp; omega)]
    rfl

theorem chunk8_blocks {α : Type} (ns : List Nat) (ls : List (List α)) (h : ls.map List.length = ns.map fun n => 8 * n) :
    chunk8 ns.sum ls.flatten = (List.zipWith chunk8 ns ls).flatten := by
  induction ns generalizing ls with
  | nil => cases ls <;> simp [chunk8] at *
  | cons n ns ih =>
    cases ls with
    | nil => simp at h
    | cons l ls =>
      simp only [List.map_cons, List.cons.injEq] at h
      simp only [List.flatten_cons, List.zipWith_cons_cons, List.sum_cons]
      rw [chunk8_append _ _ _ _ h.1, ih ls h.2]

theorem view8_ok {α : Type} (n : Nat) (l : List α) (h : l.length = 8 * n) : view8 l = .ok (chunk8 n l) := by
  unfold view8
  rw [if_pos (by omega), h, Nat.mul_div_cancel_left _ (by omega)]

theorem eight_of {o : Octree F} {h : Nat} (w : o.Valid h) (d : Nat) (hd : d + 1 ≤ h) : o.nnum (d + 1) = 8 * o.nnumNempty d :=
  w.wf.eight d (by omega)

theorem BatchOf.nnumNempty {os : List (Octree F)} {o' : Octree F} {D : Nat} (h : BatchOf os o' D) (d : Nat) (hd : d ≤ D) :
    o'.nnumNempty d = (os.map fun o => o.nnumNempty d).sum := by
  rw [nnumNempty_eq h.valid' d hd, h.masks d hd, List.count_flatten, List.map_map]
  congr 1
  apply List.map_congr_left
  intro o ho
  exact (nnumNempty_eq (h.valid o ho) d hd).symm

theorem BatchOf.nnum {os : List (Octree F)} {o' : Octree F} {D : Nat} (h : BatchOf os o' D) (d : Nat) (hd : d ≤ D) :
    o'.nnum d = (os.map fun o => o.nnum d).sum := by
  rw [← (mask_of h.valid' d hd).2, h.masks d hd, List.length_flatten, List.map_map]
  congr 1
  apply List.map_congr_left
  intro o ho
  exact (mask_of (h.valid o ho) d hd).2

theorem view8_perSample {os : List (Octree F)} {o' : Octree F} {D : Nat} (h : BatchOf os o' D) (d : Nat) (hd : d + 1 ≤ D)
    {V W : Type} (g : List V → W) :
    PerSample os o' (fun o => o.nnum (d + 1)) (fun o => o.nnumNempty d)
      (fun _ (x : List V) => view8 x >>= fun gs => (.ok (gs.map g) : M (List W))) := by
  apply perSample_fun (g := fun o x => (chunk8 (o.nnumNempty d) x).map g)
  · intro o ho x hx
    rw [eight_of (h.valid o ho) d hd] at hx
    rw [view8_ok _ _ hx]
    exact ⟨rfl, by rw [List.length_map, chunk8_length]⟩
  · intro xs hxs
    have e : xs.map List.length = (os.map fun o => o.nnumNempty d).map fun n => 8 * n := by
      rw [hxs, List.map_map]
      apply List.map_congr_left
      intro o ho
      exact eight_of (h.valid o ho) d hd
    have hl : xs.flatten.length = 8 * (os.map fun o => o.nnumNempty d).sum := by
      rw [List.length_flatten, e, List.sum_map_mul_left, List.map_id']
    show (view8 xs.flatten >>= fun gs => (.ok (gs.map g) : M (List W))) = _
    rw [view8_ok _ _ hl, chunk8_blocks _ _ e, zipWith_map_fst]
    show Except.ok _ = Except.ok _
    rw [List.map_flatten, List.map_zipWith]

theorem Spec.PerSample.congr {X Y : Type} {os : List (Octree F)} {o' : Octree F} {n m : Octree F → Nat}
    {op op' : Octree F → List X → M (List Y)} (h : PerSample os o' n m op) (e : ∀ o x, op' o x = op o x) :
    PerSample os o' n m op' := by
  have : op' = op := funext fun o => funext fun x => e o x
  rw [this]
  exact h

theorem Spec.PerSample.congr' {X Y : Type} {os : List (Octree F)} {o' : Octree F} {n m : Octree F → Nat}
    {op op' : Octree F → List X → M (List Y)} (h : PerSample os o' n m op)
    (e : ∀ o ∈ os, ∀ x, x.length = n o → op' o x = op o x)
    (e' : ∀ x, x.length = (os.map n).sum → op' o' x = op o' x) : PerSample os o' n m op' := by
  intro xs hxs
  obtain ⟨ys, h1, h2, h3⟩ := h xs hxs
  refine ⟨ys, ?_, h2, ?_⟩
  · rw [← h1]
    have hn : ∀ (i : Nat) (o : Octree F) (x : List X), os[i]? = some o → xs[i]? = some x → x.length = n o := by
      intro i o x ho hx
      have := congrArg (fun l => l[i]?) hxs
      simpa [ho, hx] using this
    apply List.ext_getElem?
    intro i
    rw [List.getElem?_zipWith, List.getElem?_zipWith]
    cases ho : os[i]? with
    | none => rfl
    | some o =>
      cases hx : xs[i]? with
      | none => rfl
      | some x => simp only [e o (List.mem_of_getElem? ho) x (hn i o x ho hx)]
  · rw [e' _ (by rw [List.length_flatten, hxs]), h3]

theorem perSample_id {X : Type} (os : List (Octree F)) (o' : Octree F) (n : Octree F → Nat) :
    PerSample os o' n n (fun _ (x : List X) => .ok x) :=
  (perSample_map os o' n id).congr fun _ x => by rw [List.map_id]

theorem maxpool_perSample {os : List (Octree F)} {o' : Octree F} {D : Nat} (h : BatchOf os o' D) (d : Nat) (hd : d + 1 ≤ D)
    (nempty : Bool) {α : Type} [LinearOrder α] [OrderBot α] [Zero α] {C : Nat} :
    PerSample os o' (fun o => if nempty then o.nnumNempty (d + 1) else o.nnum (d + 1))
      (fun o => if nempty then o.nnumNempty d else o.nnum d)
      (fun o (x : List (Fin C → α)) => (octreeMaxPool x o d nempty).map Prod.fst) ∧
    PerSample os o' (fun o => if nempty then o.nnumNempty (d + 1) else o.nnum (d + 1)) (fun o => o.nnumNempty d)
      (fun o (x : List (Fin C → α)) => (octreeMaxPool x o d nempty).map Prod.snd) := by
  cases nempty
  · have key : ∀ (o : Octree F) (x : List (Fin C → α)), o.Valid D → x.length = o.nnum (d + 1) →
        (octreeMaxPool x o d false).map Prod.snd = (view8 x >>= fun gs => (.ok (gs.map fun g => (maxRows g).2) : M _)) := by
      intro o x w hx
      have hx' : x.length = 8 * o.nnumNempty d := by rw [hx, eight_of w d hd]
      rw [maxPool_ok o D w d hd false x x rfl hx', view8_ok _ x hx']
      rfl
    refine ⟨((view8_perSample h d hd fun g => (maxRows g).1).comp (pad_perSample h d (by omega) (fun _ => 0))).congr ?_,
      (view8_perSample h d hd fun g => (maxRows g).2).congr' ?_ ?_⟩
    · intro o x
      unfold octreeMaxPool
      simp only [Bool.false_eq_true, if_false, if_true, pure, Except.pure, bind, Except.bind]
      cases view8 x with
      | error e => rfl
      | ok y =>
        simp only
        cases octreePad (y.map fun g => (maxRows g).1) o d (fun _ => 0) with
        | error e => rfl
        | ok z => rfl
    · intro o ho x hx
      exact key o x (h.valid o ho) hx
    · intro x hx
      exact key o' x h.valid' (by rw [h.nnum (d + 1) hd]; exact hx)
  · refine ⟨((pad_perSample h (d + 1) hd (fun _ => ⊥)).comp (view8_perSample h d hd fun g => (maxRows g).1)).congr ?_,
      ((pad_perSample h (d + 1) hd (fun _ => ⊥)).comp (view8_perSample h d hd fun g => (maxRows g).2)).congr ?_⟩
    · intro o x
      unfold octreeMaxPool
      simp only [if_true]
      cases octreePad x o (d + 1) (fun _ => ⊥) with
      | error e => rfl
      | ok y =>
        simp only [bind, Except.bind]
        cases view8 y with
        | error e => rfl
        | ok z => rfl
    · intro o x
      unfold octreeMaxPool
      simp only [if_true]
      cases octreePad x o (d + 1) (fun _ => ⊥) with
      | error e => rfl
      | ok y =>
        simp only [bind, Except.bind]
        cases view8 y with
        | error e => rfl
        | ok z => rfl

/-! ### operations with a closed form in terms of the feature field -/

theorem perSample_closed {os : List (Octree F)} {o' : Octree F} {D : Nat} (h : BatchOf os o' D) (d : Nat) (hd : d ≤ D)
    (nempty : Bool) {X Y : Type} [Zero X] (m : Octree F → Nat) (op : Octree F → List X → M (List Y))
    (T : Octree F → List Cell) (hT : T o' = blocks Cell.inSample (os.map T)) (hm : ∀ o ∈ os, (T o).length = m o)
    (G : Octree F → (Nat → Int → Int → Int → X) → Cell → Y)
    (hop : ∀ o, o = o' ∨ o ∈ os → ∀ x f, IsField (Ocnn.qc o nempty d) x f → op o x = .ok ((T o).map (G o f)))
    (hG : ∀ i o f, os[i]? = some o → ∀ c ∈ T o, G o (sampleField f i) c = G o' f (Cell.inSample i c)) :
    PerSample os o' (fun o => if nempty then o.nnumNempty d else o.nnum d) m op := by
  apply perSample_of
  intro xs hxs
  obtain ⟨f, hf, hfi⟩ := h.field d hd nempty xs hxs
  refine ⟨fun i => (((os.map T)[i]?).getD []).map fun c => G o' f (Cell.inSample i c), ?_, ?_⟩
  · intro i o x ho hx hlen
    have hmem := List.mem_of_getElem? ho
    have e : (((os.map T)[i]?).getD []) = T o := by rw [List.getElem?_map, ho]; rfl
    simp only [e]
    refine ⟨?_, by rw [List.length_map, hm o hmem]⟩
    rw [hop o (Or.inr hmem) x _ (hfi i o x ho hx)]
    congr 1
    apply List.map_congr_left
    intro c hc
    exact hG i o f ho c hc
  · rw [hop o' (Or.inl rfl) _ f hf, hT, map_blocks, List.length_map]

theorem BatchOf.valid_all {os : List (Octree F)} {o' : Octree F} {D : Nat} (h : BatchOf os o' D) :
    ∀ o, o = o' ∨ o ∈ os → o.Valid D := by
  rintro o (rfl | ho)
  · exact h.valid'
  · exact h.valid o ho

theorem tg_length {o : Octree F} {h : Nat} (w : o.Valid h) (d : Nat) (hd : d ≤ h) (nempty : Bool) (s : Nat) :
    (tg o nempty d s).length = if s = 2 then o.nnumNempty (d - 1) else if nempty then o.nnumNempty d else o.nnum d := by
  unfold tg
  split
  · rw [List.length_map, qc_length w (d - 1) (by omega)]; rfl
  · exact qc_length w d hd nempty

theorem existing_sample {os : List (Octree F)} {o' : Octree F} {D : Nat} (h : BatchOf os o' D) (d : Nat) (hd : d ≤ D)
    (nempty : Bool) (offs : List (Int × Int × Int)) (i : Nat) (o : Octree F) (ho : os[i]? = some o) (c : Cell) (hb : c.b = 0) :
    existing (qc o nempty d) offs c = existing (qc o' nempty d) offs (Cell.inSample i c) := by
  unfold existing
  apply List.countP_congr
  intro g _
  simp only [decide_eq_true_eq]
  rw [h.qc d hd]
  constructor
  · rintro ⟨c', hc', hs⟩
    refine ⟨Cell.inSample i c', (mem_blocks _ _ _).mpr ⟨i, _, c', by rw [List.getElem?_map, ho]; rfl, hc', rfl⟩, rfl, hs.2.1, hs.2.2.1, hs.2.2.2⟩
  · rintro ⟨c', hc', hs⟩
    obtain ⟨j, Q, a, hQ, ha, rfl⟩ := (mem_blocks _ _ _).mp hc'
    have : j = i := hs.1
    subst this
    rw [List.getElem?_map, ho] at hQ
    cases hQ
    refine ⟨a, ha, ?_, hs.2.1, hs.2.2.1, hs.2.2.2⟩
    rw [hb, h.b_zero d hd nempty o (List.mem_of_getElem? ho) a ha]

theorem tg_b_zero {os : List (Octree F)} {o' : Octree F} {D : Nat} (h : BatchOf os o' D) (d : Nat) (hd : d ≤ D)
    (nempty : Bool) (s : Nat) : ∀ o ∈ os, ∀ c ∈ tg o nempty d s, c.b = 0 := by
  intro o ho c hc
  unfold tg at hc
  split at hc
  · obtain ⟨c', hc', rfl⟩ := List.mem_map.mp hc
    exact h.b_zero (d - 1) (by omega) true o ho c' hc'
  · exact h.b_zero d hd nempty o ho c hc

theorem avgpool_perSample {os : List (Octree F)} {o' : Octree F} {D : Nat} (h : BatchOf os o' D) (d : Nat) (hd : d ≤ D)
    (hn : ∀ o, o = o' ∨ o ∈ os → NeighExact o.batchSize d o.keys o.neighs)
    (k : Nat × Nat × Nat) (hk : k ∈ supportedKernels) (nempty : Bool) (s : Nat) (hs : s = 1 ∨ s = 2 ∧ 1 ≤ d)
    {K : Type} [Field K] {C : Nat} :
    PerSample os o' (fun o => if nempty then o.nnumNempty d else o.nnum d)
      (fun o => if s = 2 then o.nnumNempty (d - 1) else if nempty then o.nnumNempty d else o.nnum d)
      (fun o (x : List (Fin C → K)) => octreeAvgPool x o d (kernelName k) s nempty) := by
  refine perSample_closed h d hd nempty _ _ (fun o => tg o nempty d s) (h.tg d hd nempty s)
    (fun o ho => tg_length (h.valid o ho) d hd nempty s)
    (fun o f c => fun i => ((kernelOffsets k).map fun g => around f c g i).sum
      / ((existing (qc o nempty d) (kernelOffsets k) c : K) + 1 / 10 ^ 8)) ?_ ?_
  · intro o ho x f hf
    exact C46_avg_pool o D (h.valid_all o ho) d hd (hn o ho) k hk nempty s _ _ (nodes_std (h.valid_all o ho) d hd nempty s hs) x f hf
  · intro i o f ho c hc
    have hb := tg_b_zero h d hd nempty s o (List.mem_of_getElem? ho) c hc
    funext j
    rw [existing_sample h d hd nempty _ i o ho c hb]
    simp only [around_sample f i c hb]

theorem upsample_perSample {os : List (Octree F)} {o' : Octree F} {D : Nat} (h : BatchOf os o' D) (d : Nat) (hd : d + 1 ≤ D)
    (nempty : Bool) {V : Type} [Zero V] :
    PerSample os o' (fun o => if nempty then o.nnumNempty d else o.nnum d)
      (fun o => if nempty then o.nnumNempty (d + 1) else o.nnum (d + 1))
      (fun o (x : List V) => octreeNearestUpsample x o d nempty) := by
  refine perSample_closed h d (by omega) nempty _ _ (fun o => qc o nempty (d + 1)) (h.qc (d + 1) hd nempty)
    (fun o ho => qc_length (h.valid o ho) (d + 1) hd nempty) (fun _ f c => fieldAt f c.parent) ?_ ?_
  · intro o ho x f hf
    have w := h.valid_all o ho
    have W := w.wf'
    rw [← queried_qc w d (by omega) nempty _ _ (W.cellsOf d (by omega)) (W.children d (by omega))] at hf
    rw [C52_nearest_upsample o D w d hd nempty _ _ _ _ (W.cellsOf d (by omega)) (W.children d (by omega))
      (W.cellsOf (d + 1) hd) (W.children (d + 1) hd) x f hf, queried_qc w (d + 1) hd nempty _ _ (W.cellsOf (d + 1) hd) (W.children (d + 1) hd)]
  · intro i o f ho c hc
    have hb := h.b_zero (d + 1) hd nempty o (List.mem_of_getElem? ho) c hc
    unfold fieldAt sampleField
    have : c.parent.b = 0 := hb
    rw [if_pos this]
    rfl

/-! ### per-sample statistics -/

theorem rowsOf_none {V : Type} (Q : List Cell) (x : List V) (b : Nat) (hb : ∀ c ∈ Q, c.b ≠ b) : rowsOf Q x b = [] := by
  unfold rowsOf
  rw [List.map_eq_nil_iff, List.filter_eq_nil_iff]
  rintro ⟨c, v⟩ hp
  simpa using hb c (List.of_mem_zip hp).1

theorem rowsOf_append {V : Type} (Q Q' : List Cell) (x x' : List V) (h : Q.length = x.length) (b : Nat) :
    rowsOf (Q ++ Q') (x ++ x') b = rowsOf Q x b ++ rowsOf Q' x' b := by
  unfold rowsOf
  rw [List.zip_append h, List.filter_append, List.map_append]

theorem rowsOf_blocks {V : Type} (Qs : List (List Cell)) (xs : List (List V)) (hl : Qs.map List.length = xs.map List.length)
    (i : Nat) : rowsOf (blocks Cell.inSample Qs) xs.flatten i = (xs[i]?).getD [] := by
  rw [blocks_eq]
  have key : ∀ k, rowsOf ((Qs.zipIdx k).map fun p => p.1.map (Cell.inSample p.2)).flatten xs.flatten i
      = if k ≤ i then (xs[i - k]?).getD [] else [] := by
    induction Qs generalizing xs with
    | nil =>
      intro k
      cases xs with
      | nil => simp [rowsOf]
      | cons x xs => simp at hl
    | cons Q Qs ih =>
      intro k
      cases xs with
      | nil => simp at hl
      | cons x xs =>
        simp only [List.map_cons, List.cons.injEq] at hl
        simp only [List.zipIdx_cons, List.map_cons, List.flatten_cons]
        rw [rowsOf_append _ _ _ _ (by simpa using hl.1), ih xs hl.2 (k + 1)]
        by_cases hk : k = i
        · subst hk
          rw [rowsOf_single _ _ (by simpa using hl.1.symm) _ (by
            intro c hc; obtain ⟨c', _, rfl⟩ := List.mem_map.mp hc; rfl)]
          simp
        · rw [rowsOf_none _ _ _ (by
            intro c hc; obtain ⟨c', _, rfl⟩ := List.mem_map.mp hc; exact hk)]
          by_cases h1 : k + 1 ≤ i
          · have : i - k = (i - (k + 1)) + 1 := by omega
            rw [if_pos h1, if_pos (by omega), this]
            simp
          · rw [if_neg h1, if_neg (by omega)]; rfl
  simpa using key 0

theorem BatchOf.rowsOf {os : List (Octree F)} {o' : Octree F} {D : Nat} (h : BatchOf os o' D) (d : Nat) (hd : d ≤ D)
    (nempty : Bool) {V : Type} (xs : List (List V))
    (hx : xs.map List.length = os.map fun o => if nempty then o.nnumNempty d else o.nnum d) (i : Nat) :
    Spec.rowsOf (Ocnn.qc o' nempty d) xs.flatten i = (xs[i]?).getD [] := by
  rw [h.qc d hd, rowsOf_blocks]
  rw [hx, List.map_map]
  apply List.map_congr_left
  intro o ho
  exact qc_length (h.valid o ho) d hd nempty

theorem rowsOf_alone {os : List (Octree F)} {o' : Octree F} {D : Nat} (h : BatchOf os o' D) (d : Nat) (hd : d ≤ D)
    (nempty : Bool) {V : Type} (o : Octree F) (ho : o ∈ os) (x : List V)
    (hx : x.length = if nempty then o.nnumNempty d else o.nnum d) : Spec.rowsOf (qc o nempty d) x 0 = x :=
  rowsOf_single _ _ (by rw [hx, qc_length (h.valid o ho) d hd]) 0 (h.b_zero d hd nempty o ho)

theorem globalpool_perSample {os : List (Octree F)} {o' : Octree F} {D : Nat} (h : BatchOf os o' D) (d : Nat) (hd : d ≤ D)
    (nempty : Bool) {K : Type} [Field K] [LinearOrder K] [IsStrictOrderedRing K] {C : Nat} :
    PerSample os o' (fun o => if nempty then o.nnumNempty d else o.nnum d) (fun _ => 1)
      (fun o (x : List (Fin C → K)) => octreeGlobalPool x o d nempty) := by
  have closed : ∀ o, o = o' ∨ o ∈ os → ∀ x : List (Fin C → K), x.length = (qc o nempty d).length →
      octreeGlobalPool x o d nempty = .ok ((List.range o.batchSize).map fun b => fun i =>
        if rowsOf (qc o nempty d) x b = [] then 0
        else ((rowsOf (qc o nempty d) x b).map fun v => v i).sum / ((rowsOf (qc o nempty d) x b).length : K)) := by
    intro o ho x hx
    have w := h.valid_all o ho
    have W := w.wf'
    have e := queried_qc w d hd nempty _ _ (W.cellsOf d hd) (W.children d hd)
    rw [← e] at hx ⊢
    exact C47_global_pool o D w d hd nempty _ _ (W.cellsOf d hd) (W.children d hd) x hx
  apply perSample_of
  intro xs hxs
  refine ⟨fun i => [fun j => if (xs[i]?).getD [] = [] then 0
        else ((((xs[i]?).getD []).map fun v => v j).sum / (((xs[i]?).getD []).length : K))], ?_, ?_⟩
  · intro i o x ho hx hlen
    have hmem := List.mem_of_getElem? ho
    refine ⟨?_, rfl⟩
    rw [closed o (Or.inr hmem) x (by rw [hlen, qc_length (h.valid o hmem) d hd]), h.single o hmem]
    simp only [List.range_one, List.map_cons, List.map_nil, rowsOf_alone h d hd nempty o hmem x hlen, hx, Option.getD_some]
  · have hl : xs.flatten.length = (qc o' nempty d).length := by
      rw [List.length_flatten, hxs, h.qc d hd, blocks_length, List.length_flatten, List.map_map]
      congr 1
      apply List.map_congr_left
      intro o ho
      exact (qc_length (h.valid o ho) d hd nempty).symm
    rw [closed o' (Or.inl rfl) _ hl, h.size]
    simp only [h.rowsOf d hd nempty xs hxs]
    congr 1
    induction (List.range os.length) with
    | nil => rfl
    | cons a l ih => simp [ih]

theorem groupnorm_perSample {os : List (Octree F)} {o' : Octree F} {D : Nat} (h : BatchOf os o' D) (d : Nat) (hd : d ≤ D)
    (nempty : Bool) {K : Type} [Field K] {C : Nat} (rt : K → K) (eps : K) (cpg : Nat) (hcpg : 0 < cpg) (weights bias : Fin C → K) :
    PerSample os o' (fun o => if nempty then o.nnumNempty d else o.nnum d)
      (fun o => if nempty then o.nnumNempty d else o.nnum d)
      (fun o (x : List (Fin C → K)) => groupNorm rt eps cpg nempty weights bias x o d) := by
  have closed : ∀ o, o = o' ∨ o ∈ os → ∀ x : List (Fin C → K), x.length = (qc o nempty d).length →
      groupNorm rt eps cpg nempty weights bias x o d = .ok (List.zipWith
        (fun c v => normRow rt eps cpg weights bias (rowsOf (qc o nempty d) x c.b) v) (qc o nempty d) x) := by
    intro o ho x hx
    have w := h.valid_all o ho
    have W := w.wf'
    have e := queried_qc w d hd nempty _ _ (W.cellsOf d hd) (W.children d hd)
    rw [← e] at hx ⊢
    exact C56_group_norm rt eps cpg hcpg nempty weights bias o D w d hd _ _ (W.cellsOf d hd) (W.children d hd) x hx
  apply perSample_fun (g := fun _ x => x.map fun v => normRow rt eps cpg weights bias x v)
  · intro o ho x hx
    refine ⟨?_, by rw [List.length_map]; exact hx⟩
    have hl : x.length = (qc o nempty d).length := by rw [hx, qc_length (h.valid o ho) d hd]
    show groupNorm rt eps cpg nempty weights bias x o d = _
    rw [closed o (Or.inr ho) x hl, zipWith_const _ x hl 0 (h.b_zero d hd nempty o ho)
      (fun b v => normRow rt eps cpg weights bias (rowsOf (qc o nempty d) x b) v), rowsOf_alone h d hd nempty o ho x hx]
  · intro xs hxs
    have hq : (os.map fun o => qc o nempty d).map List.length = xs.map List.length := by
      rw [hxs, List.map_map]
      apply List.map_congr_left
      intro o ho
      exact qc_length (h.valid o ho) d hd nempty
    have hl : xs.flatten.length = (qc o' nempty d).length := by
      rw [h.qc d hd, blocks_length, List.length_flatten, List.length_flatten, hq]
    show groupNorm rt eps cpg nempty weights bias xs.flatten o' d = _
    rw [closed o' (Or.inl rfl) _ hl]
    simp only [h.rowsOf d hd nempty xs hxs]
    rw [h.qc d hd, blocks_eq]
    rw [zipWith_flatten _ _ _ (by
      rw [← hq, List.map_map, zipIdx_map_fst _ List.length]
      apply List.map_congr_left
      intro p _
      simp)]
    congr 2
    apply List.ext_getElem?
    intro i
    simp only [List.getElem?_zipWith, List.getElem?_map, List.getElem?_zipIdx, Option.map_map]
    cases ho : os[i]? with
    | none => rfl
    | some o =>
      cases hx : xs[i]? with
      | none => rfl
      | some x =>
        have hlen : x.length = (qc o nempty d).length := by
          have := congrArg (fun l => l[i]?) hq
          simp only [List.getElem?_map, ho, hx, Option.map_some, Option.some.injEq] at this
          exact this.symm
        simp only [Option.map_some, Function.comp_apply, Nat.zero_add, Option.some.injEq]
        rw [zipWith_const ((qc o nempty d).map (Cell.inSample i)) x (by simpa using hlen) i (by
            intro c hc; obtain ⟨c', _, rfl⟩ := List.mem_map.mp hc; rfl)
          (fun b v => normRow rt eps cpg weights bias ((xs[b]?).getD []) v), hx]
        rfl

/-! ### transposed convolution -/

theorem zipWith_zero_sum {α β A : Type} [AddCommMonoid A] (f : α → β → A) (as : List α) (bs : List β)
    (h : ∀ a ∈ as, ∀ b ∈ bs, f a b = 0) : (List.zipWith f as bs).sum = 0 := by
  induction as generalizing bs with
  | nil => rfl
  | cons a as ih =>
    cases bs with
    | nil => rfl
    | cons b bs =>
      rw [List.zipWith_cons_cons, List.sum_cons, h a (by simp) b (by simp),
        ih bs (fun a ha b hb => h a (by simp [ha]) b (by simp [hb])), add_zero]

theorem deconvOf_blocks {A B W : Type} [AddCommMonoid A] (K : Kernel A B W) (Ts : List (List Cell)) (xs : List (List B))
    (hl : Ts.map List.length = xs.map List.length) (hb : ∀ T ∈ Ts, ∀ t ∈ T, t.b = 0) (offs : List (Int × Int × Int)) (ws : List W)
    (i : Nat) (c : Cell) (hc : c.b = 0) :
    deconvOf K (blocks Cell.inSample Ts) xs.flatten offs ws (Cell.inSample i c)
      = deconvOf K ((Ts[i]?).getD []) ((xs[i]?).getD []) offs ws c := by
  rw [blocks_eq]
  have key : ∀ k, deconvOf K ((Ts.zipIdx k).map fun p => p.1.map (Cell.inSample p.2)).flatten xs.flatten offs ws (Cell.inSample i c)
      = if k ≤ i then deconvOf K ((Ts[i - k]?).getD []) ((xs[i - k]?).getD []) offs ws c else 0 := by
    induction Ts generalizing xs with
    | nil =>
      intro k
      cases xs with
      | nil => simp [deconvOf]
      | cons x xs => simp at hl
    | cons T Ts ih =>
      intro k
      cases xs with
      | nil => simp at hl
      | cons x xs =>
        simp only [List.map_cons, List.cons.injEq] at hl
        have ih' := ih xs hl.2 (fun T hT => hb T (by simp [hT])) (k + 1)
        unfold deconvOf at ih' ⊢
        simp only [List.zipIdx_cons, List.map_cons, List.flatten_cons]
        rw [List.zipWith_append (by simpa using hl.1), List.sum_append, ih']
        by_cases hk : k = i
        · subst hk
          rw [if_neg (by omega), add_zero, if_pos (le_refl _), Nat.sub_self]
          simp only [List.getElem?_cons_zero, Option.getD_some]
          rw [List.zipWith_map_left]
          congr 1
          have hbT := hb T (by simp)
          clear ih ih' hl hb
          induction T generalizing x with
          | nil => rfl
          | cons t T ihT =>
            cases x with
            | nil => rfl
            | cons v x =>
              rw [List.zipWith_cons_cons, List.zipWith_cons_cons, ihT x (fun t ht => hbT t (by simp [ht]))]
              congr 2
              have ht := hbT t (by simp)
              have : ∀ g, IsShift (Cell.inSample k t) (Cell.inSample k c) g ↔ IsShift t c g := by
                intro g
                unfold IsShift
                rw [ht, hc]
                exact ⟨fun h => ⟨rfl, h.2⟩, fun h => ⟨rfl, h.2⟩⟩
              simp only [this]
        · rw [zipWith_zero_sum _ (T.map (Cell.inSample k)) x (by
            intro t ht v _
            obtain ⟨t', _, rfl⟩ := List.mem_map.mp ht
            apply zipWith_zero_sum
            intro g _ w _
            rw [if_neg]
            intro hs
            exact hk hs.1.symm), zero_add]
          by_cases h1 : k + 1 ≤ i
          · have : i - k = (i - (k + 1)) + 1 := by omega
            rw [if_pos h1, if_pos (by omega), this]
            simp
          · rw [if_neg h1, if_neg (by omega)]
  simpa using key 0

theorem deconvCore_perSample {os : List (Octree F)} {o' : Octree F} {D : Nat} (h : BatchOf os o' D) (d : Nat) (hd : d ≤ D)
    (nempty : Bool) (s : Nat) {A B W : Type} [AddCommMonoid A] (K : Kernel A B W) (offs : List (Int × Int × Int)) (ws : List W) (b : A) :
    PerSample os o' (fun o => if s = 2 then o.nnumNempty (d - 1) else if nempty then o.nnumNempty d else o.nnum d)
      (fun o => if nempty then o.nnumNempty d else o.nnum d)
      (fun o x => .ok ((qc o nempty d).map fun c => deconvOf K (tg o nempty d s) x offs ws c + b)) := by
  apply perSample_fun (g := fun o x => (qc o nempty d).map fun c => deconvOf K (tg o nempty d s) x offs ws c + b)
  · intro o ho x _
    exact ⟨rfl, by rw [List.length_map, qc_length (h.valid o ho) d hd]⟩
  · intro xs hxs
    have hq : (os.map fun o => tg o nempty d s).map List.length = xs.map List.length := by
      rw [hxs, List.map_map]
      apply List.map_congr_left
      intro o ho
      exact tg_length (h.valid o ho) d hd nempty s
    have hl : xs.length = os.length := by simpa using congrArg List.length hxs
    show Except.ok _ = Except.ok _
    congr 1
    rw [h.qc d hd, map_blocks, List.length_map]
    congr 1
    apply List.ext_getElem?
    intro i
    rw [List.getElem?_map, List.getElem?_zipWith]
    by_cases hi : i < os.length
    · have ho := List.getElem?_eq_getElem hi
      have hx := List.getElem?_eq_getElem (show i < xs.length by omega)
      have hmem := List.mem_of_getElem? ho
      rw [List.getElem?_range hi, ho, hx]
      simp only [Option.map_some, List.getElem?_map, ho, Option.getD_some, Option.some.injEq]
      apply List.map_congr_left
      intro c hc
      rw [h.tg d hd, deconvOf_blocks K _ xs hq (by
        intro T hT t ht
        obtain ⟨o, ho, rfl⟩ := List.mem_map.mp hT
        exact tg_b_zero h d hd nempty s o ho t ht) offs ws i c (h.b_zero d hd nempty _ hmem c hc)]
      simp [ho, hx]
    · rw [List.getElem?_eq_none (l := os) (by omega)]
      simp [hi]

theorem deconv_perSample {os : List (Octree F)} {o' : Octree F} {D : Nat} (h : BatchOf os o' D) (d : Nat) (hd : d ≤ D)
    (hn : ∀ o, o = o' ∨ o ∈ os → NeighExact o.batchSize d o.keys o.neighs)
    (k : Nat × Nat × Nat) (hk : k ∈ supportedKernels) (nempty : Bool) (s : Nat) (hs : s = 1 ∨ s = 2 ∧ 1 ≤ d)
    {A B W : Type} [AddCommMonoid A] [AddCommMonoid B] (K : Kernel A B W) (inC outC : Nat) (ks : List Nat) (mb : Nat)
    (m : ConvModule A W) (ha : KernelArg ks k) (hi : ConvBase.init false inC outC ks s nempty mb = .ok m.base)
    (hb : m.directMethod = false → (kernelOffsets k).length * outC ≤ mb)
    (hw : m.weights.length = (kernelOffsets k).length) :
    PerSample os o'
      (fun o => if nempty then o.nnumNempty (if s = 2 then d - 1 else d) else o.nnum (if s = 2 then d - 1 else d))
      (fun o => if nempty then o.nnumNempty d else o.nnum d)
      (fun o x => m.deconvForward K x o (if s = 2 then d - 1 else d)) := by
  have core := deconvCore_perSample h d hd nempty s K (kernelOffsets k) m.weights (m.bias.getD 0)
  have closed : ∀ o, o = o' ∨ o ∈ os → ∀ x x', x'.length = (tg o nempty d s).length →
      (if s = 2 ∧ nempty = false then octreeDepad x o (d - 1) else .ok x) = .ok x' →
      m.deconvForward K x o (if s = 2 then d - 1 else d) = .ok ((qc o nempty d).map fun c =>
        deconvOf K (tg o nempty d s) x' (kernelOffsets k) m.weights c + m.bias.getD 0) := by
    intro o ho x x' hx hpre
    have w := h.valid_all o ho
    exact deconv_forward_ok o D w d hd (hn o ho) k hk nempty s _ _ (nodes_std w d hd nempty s hs) K inC outC ks mb m ha hi hb hw x x' hx hpre
  by_cases hc : s = 2 ∧ nempty = false
  · obtain ⟨rfl, rfl⟩ := hc
    have key : ∀ o, o = o' ∨ o ∈ os → ∀ x, x.length = o.nnum (d - 1) → m.deconvForward K x o (d - 1) =
        octreeDepad x o (d - 1) >>= fun x' => .ok ((qc o false d).map fun c =>
        deconvOf K (tg o false d 2) x' (kernelOffsets k) m.weights c + m.bias.getD 0) := by
      intro o ho x hx
      have w := h.valid_all o ho
      have e := depad_ok w (d - 1) (by omega) x hx
      rw [e]
      refine closed o ho x _ ?_ (by simpa using e)
      rw [maskSel_length _ _ (by rw [(mask_of w (d - 1) (by omega)).2, hx]), tg_length w d hd, if_pos rfl,
        nnumNempty_eq w (d - 1) (by omega)]
    refine ((depad_perSample h (d - 1) (by omega)).comp core).congr' ?_ ?_
    · intro o ho x hx
      exact key o (Or.inr ho) x hx
    · intro x hx
      exact key o' (Or.inl rfl) x (by rw [h.nnum (d - 1) (by omega)]; exact hx)
  · have hn2 : ∀ o : Octree F, (if s = 2 then o.nnumNempty (d - 1) else if nempty then o.nnumNempty d else o.nnum d)
        = if nempty then o.nnumNempty (if s = 2 then d - 1 else d) else o.nnum (if s = 2 then d - 1 else d) := by
      intro o
      rcases hs with rfl | ⟨rfl, _⟩
      · rfl
      · cases nempty
        · simp at hc
        · rfl
    simp only [hn2] at core
    refine core.congr' ?_ ?_
    · intro o ho x hx
      exact closed o (Or.inr ho) x x (by rw [tg_length (h.valid o ho) d hd, hn2]; exact hx) (if_neg hc)
    · intro x hx
      refine closed o' (Or.inl rfl) x x ?_ (if_neg hc)
      rw [tg_length h.valid' d hd, hn2, hx]
      rcases hs with rfl | ⟨rfl, h1⟩
      · cases nempty
        · exact (h.nnum d hd).symm
        · exact (h.nnumNempty d hd).symm
      · cases nempty
        · simp at hc
        · exact (h.nnumNempty (d - 1) (by omega)).symm

end Ocnn
