import Verif.PropsMerge
import Verif.PropsConvVariants
import Verif.PropsPool
import Verif.PropsPoolAvg
import Verif.PropsNorm
import Verif.PropsInterp

/-! Facts for C58: operations on a batch of octrees act sample by sample. -/

set_option linter.unusedSimpArgs false

namespace Ocnn
open Spec
variable {F : Type}

/-! ### blocks -/

/-- Concatenation of lists whose elements are tagged with the number of their list. -/
def blocks {α β : Type} (tag : Nat → α → β) (ls : List (List α)) : List β :=
  ((List.range ls.length).map fun i => ((ls[i]?).getD []).map (tag i)).flatten

theorem zipIdx_map_range {α β : Type _} (l : List α) (g : α → Nat → β) (a0 : α) :
    (l.zipIdx.map fun p => g p.1 p.2) = (List.range l.length).map fun i => g ((l[i]?).getD a0) i := by
  apply List.ext_getElem?
  intro i
  simp only [List.getElem?_map, List.getElem?_zipIdx, List.getElem?_range']
  by_cases h : i < l.length
  · simp [h]
  · simp [h]

theorem blocks_eq {α β : Type} (tag : Nat → α → β) (ls : List (List α)) :
    blocks tag ls = (ls.zipIdx.map fun p => p.1.map (tag p.2)).flatten := by
  unfold blocks
  rw [zipIdx_map_range ls (fun l i => l.map (tag i)) []]

theorem map_blocks {α β γ : Type} (tag : Nat → α → β) (ls : List (List α)) (g : β → γ) :
    (blocks tag ls).map g = ((List.range ls.length).map fun i => ((ls[i]?).getD []).map fun a => g (tag i a)).flatten := by
  unfold blocks
  rw [List.map_flatten, List.map_map]
  congr 1
  apply List.map_congr_left
  intro i _
  simp

theorem mem_blocks {α β : Type} (tag : Nat → α → β) (ls : List (List α)) (b : β) :
    b ∈ blocks tag ls ↔ ∃ i l a, ls[i]? = some l ∧ a ∈ l ∧ b = tag i a := by
  unfold blocks
  simp only [List.mem_flatten, List.mem_map, List.mem_range]
  constructor
  · rintro ⟨_, ⟨i, hi, rfl⟩, hb⟩
    rw [List.getElem?_eq_getElem hi] at hb
    simp only [Option.getD_some, List.mem_map] at hb
    obtain ⟨a, ha, rfl⟩ := hb
    exact ⟨i, ls[i], a, List.getElem?_eq_getElem hi, ha, rfl⟩
  · rintro ⟨i, l, a, hl, ha, rfl⟩
    have hi : i < ls.length := (List.getElem?_eq_some_iff.mp hl).1
    exact ⟨_, ⟨i, hi, rfl⟩, by rw [hl]; exact List.mem_map_of_mem ha⟩

theorem flatten_getElem?_at {α : Type} (ls : List (List α)) (i j : Nat) (l : List α) (hi : ls[i]? = some l) (hj : j < l.length) :
    ls.flatten[((ls.map List.length).take i).sum + j]? = l[j]? := by
  induction ls generalizing i with
  | nil => simp at hi
  | cons a ls ih =>
    cases i with
    | zero =>
      simp only [List.getElem?_cons_zero, Option.some.injEq] at hi
      subst hi
      simp [List.getElem?_append_left hj]
    | succ i =>
      simp only [List.getElem?_cons_succ] at hi
      simp only [List.flatten_cons, List.map_cons, List.take_succ_cons, List.sum_cons]
      rw [List.getElem?_append_right (by omega), ← ih i hi]
      congr 1
      omega

theorem blocks_getElem?_at {α β : Type} (tag : Nat → α → β) (ls : List (List α)) (i j : Nat) (l : List α)
    (hi : ls[i]? = some l) (hj : j < l.length) :
    (blocks tag ls)[((ls.map List.length).take i).sum + j]? = (l[j]?).map (tag i) := by
  rw [blocks_eq]
  have h1 : (ls.zipIdx.map fun p => p.1.map (tag p.2))[i]? = some (l.map (tag i)) := by
    simp [List.getElem?_map, List.getElem?_zipIdx, hi]
  have h2 : (ls.zipIdx.map fun p => p.1.map (tag p.2)).map List.length = ls.map List.length := by
    rw [List.map_map, zipIdx_map_fst ls List.length]
    apply List.map_congr_left
    intro p _
    simp
  have := flatten_getElem?_at _ i j _ h1 (by simpa using hj)
  rw [h2] at this
  rw [this, List.getElem?_map]

theorem blocks_length {α β : Type} (tag : Nat → α → β) (ls : List (List α)) :
    (blocks tag ls).length = ls.flatten.length := by
  rw [blocks_eq, List.length_flatten, List.length_flatten, List.map_map, zipIdx_map_fst ls List.length]
  congr 1
  apply List.map_congr_left
  intro p _
  simp

theorem maskSel_flatten {α β : Type} (tag : Nat → α → β) (ms : List (List Bool)) (ls : List (List α))
    (h : ms.map List.length = ls.map List.length) :
    maskSel ms.flatten (blocks tag ls) = blocks tag (List.zipWith maskSel ms ls) := by
  rw [blocks_eq, blocks_eq]
  generalize 0 = k
  induction ms generalizing ls k with
  | nil =>
    cases ls with
    | nil => rfl
    | cons l ls => simp at h
  | cons m ms ih =>
    cases ls with
    | nil => simp at h
    | cons l ls =>
      simp only [List.map_cons, List.cons.injEq] at h
      simp only [List.zipIdx_cons, List.map_cons, List.flatten_cons, List.zipWith_cons_cons]
      rw [maskSel_append _ _ _ _ (by simpa using h.1), ih ls h.2, maskSel_map]

theorem zipWith_flatten {α β γ : Type} (f : α → β → γ) (as : List (List α)) (bs : List (List β))
    (h : as.map List.length = bs.map List.length) :
    List.zipWith f as.flatten bs.flatten = (List.zipWith (fun a b => List.zipWith f a b) as bs).flatten := by
  induction as generalizing bs with
  | nil => rfl
  | cons a as ih =>
    cases bs with
    | nil => simp at h
    | cons b bs =>
      simp only [List.map_cons, List.cons.injEq] at h
      simp only [List.flatten_cons, List.zipWith_cons_cons]
      rw [List.zipWith_append h.1, ih bs h.2]

/-! ### fields of a batch -/

/-- The field of one sample of a batch. -/
def sampleField {V : Type} [Zero V] (f : Nat → Int → Int → Int → V) (i b : Nat) (x y z : Int) : V :=
  if b = 0 then f i x y z else 0

theorem field_restrict {V : Type} [Zero V] (Qs : List (List Cell)) (xs : List (List V))
    (hl : Qs.map List.length = xs.map List.length) (hb : ∀ Q ∈ Qs, ∀ c ∈ Q, c.b = 0)
    (f : Nat → Int → Int → Int → V) (hf : IsField (blocks Cell.inSample Qs) xs.flatten f)
    (i : Nat) (Q : List Cell) (x : List V) (hQ : Qs[i]? = some Q) (hx : xs[i]? = some x) :
    IsField Q x (sampleField f i) := by
  have hlen : Q.length = x.length := by
    have := congrArg (fun l => l[i]?) hl
    simpa [hQ, hx] using this
  refine ⟨hlen, ?_, ?_⟩
  · intro j c v hc hv
    have hj : j < Q.length := (List.getElem?_eq_some_iff.mp hc).1
    have h1 := blocks_getElem?_at Cell.inSample Qs i j Q hQ hj
    have h2 := flatten_getElem?_at xs i j x hx (by omega)
    rw [hl] at h1
    rw [hc] at h1
    rw [hv] at h2
    have := hf.2.1 _ _ _ h1 h2
    have hb0 := hb Q (List.mem_of_getElem? hQ) c (List.mem_of_getElem? hc)
    unfold sampleField
    rw [if_pos hb0]
    exact this
  · intro b x' y' z' hno
    unfold sampleField
    split
    · next h0 =>
      apply hf.2.2
      intro c hc
      obtain ⟨i', Q', a, hQ', ha, rfl⟩ := (mem_blocks _ _ _).mp hc
      rintro ⟨e1, e2, e3, e4⟩
      have : i' = i := e1
      subst this
      rw [hQ] at hQ'
      cases hQ'
      refine hno a ha ⟨?_, e2, e3, e4⟩
      rw [hb Q (List.mem_of_getElem? hQ) a ha, h0]
    · rfl

theorem around_sample {V : Type} [Zero V] (f : Nat → Int → Int → Int → V) (i : Nat) (c : Cell) (hb : c.b = 0)
    (g : Int × Int × Int) : around (sampleField f i) c g = around f (Cell.inSample i c) g := by
  unfold around sampleField
  rw [if_pos hb]
  rfl

/-! ### acting sample by sample -/

/-- An operation on a batch `o'` of the octrees `os` acts sample by sample: applied to the concatenation of the
inputs of the single octrees (`n o` rows each) it gives the concatenation of their outputs (`m o` rows each). -/
def Spec.PerSample {X Y : Type} (os : List (Octree F)) (o' : Octree F) (n m : Octree F → Nat)
    (op : Octree F → List X → M (List Y)) : Prop :=
  ∀ xs : List (List X), xs.map List.length = os.map n →
    ∃ ys : List (List Y), List.zipWith op os xs = ys.map .ok ∧ ys.map List.length = os.map m ∧
      op o' xs.flatten = .ok ys.flatten

theorem perSample_of {X Y : Type} (os : List (Octree F)) (o' : Octree F) (n m : Octree F → Nat)
    (op : Octree F → List X → M (List Y))
    (h : ∀ xs : List (List X), xs.map List.length = os.map n → ∃ Z : Nat → List Y,
      (∀ i o x, os[i]? = some o → xs[i]? = some x → x.length = n o → op o x = .ok (Z i) ∧ (Z i).length = m o) ∧
      op o' xs.flatten = .ok ((List.range os.length).map Z).flatten) : PerSample os o' n m op := by
  intro xs hxs
  obtain ⟨Z, h1, h2⟩ := h xs hxs
  have hl : xs.length = os.length := by simpa using congrArg List.length hxs
  have hn : ∀ (i : Nat) (o : Octree F) (x : List X), os[i]? = some o → xs[i]? = some x → x.length = n o := by
    intro i o x ho hx
    have := congrArg (fun l => l[i]?) hxs
    simpa [ho, hx] using this
  refine ⟨_, ?_, ?_, h2⟩
  · apply List.ext_getElem?
    intro i
    rw [List.getElem?_zipWith, List.getElem?_map, List.getElem?_map]
    by_cases hi : i < os.length
    · have ho := List.getElem?_eq_getElem hi
      have hx := List.getElem?_eq_getElem (show i < xs.length by omega)
      have e := (h1 i _ _ ho hx (hn i _ _ ho hx)).1
      rw [ho, hx]
      simp [hi, e]
    · rw [List.getElem?_eq_none (by omega)]
      simp [hi]
  · apply List.ext_getElem?
    intro i
    rw [List.getElem?_map, List.getElem?_map, List.getElem?_map]
    by_cases hi : i < os.length
    · have ho := List.getElem?_eq_getElem hi
      have hx := List.getElem?_eq_getElem (show i < xs.length by omega)
      rw [ho]
      simp [hi, (h1 i _ _ ho hx (hn i _ _ ho hx)).2]
    · rw [List.getElem?_eq_none (by simpa using hi)]
      simp [hi]

/-- operations that act sample by sample compose -/
theorem Spec.PerSample.comp {X Y Z : Type} {os : List (Octree F)} {o' : Octree F} {n m k : Octree F → Nat}
    {op : Octree F → List X → M (List Y)} {op' : Octree F → List Y → M (List Z)}
    (h : PerSample os o' n m op) (h' : PerSample os o' m k op') :
    PerSample os o' n k (fun o x => op o x >>= op' o) := by
  intro xs hxs
  obtain ⟨ys, h1, h2, h3⟩ := h xs hxs
  obtain ⟨zs, g1, g2, g3⟩ := h' ys h2
  refine ⟨zs, ?_, g2, by simp only [h3]; exact g3⟩
  rw [← g1]
  have hl : ys.length = os.length := by simpa using congrArg List.length h2
  have hl' : xs.length = os.length := by simpa using congrArg List.length hxs
  apply List.ext_getElem?
  intro i
  have e := congrArg (fun l => l[i]?) h1
  simp only [List.getElem?_zipWith, List.getElem?_map] at e ⊢
  by_cases hi : i < os.length
  · simp only [List.getElem?_eq_getElem hi, List.getElem?_eq_getElem (show i < xs.length by omega),
      List.getElem?_eq_getElem (show i < ys.length by omega), Option.map_some, Option.some.injEq] at e ⊢
    rw [e]
    rfl
  · rw [List.getElem?_eq_none (by omega)]

/-- operations on rows act sample by sample -/
theorem perSample_map {X Y : Type} (os : List (Octree F)) (o' : Octree F) (n : Octree F → Nat) (g : X → Y) :
    PerSample os o' n n (fun _ x => .ok (x.map g)) := by
  intro xs hxs
  have hl : xs.length = os.length := by simpa using congrArg List.length hxs
  refine ⟨xs.map (List.map g), ?_, by rw [← hxs, List.map_map]; simp, by simp only [List.map_flatten]⟩
  apply List.ext_getElem?
  intro i
  simp only [List.getElem?_zipWith, List.getElem?_map]
  by_cases hi : i < os.length
  · simp [List.getElem?_eq_getElem hi, List.getElem?_eq_getElem (show i < xs.length by omega)]
  · rw [List.getElem?_eq_none (by omega), List.getElem?_eq_none (by omega)]; rfl

/-- combining two branches row by row (for example a residual connection) acts sample by sample -/
theorem Spec.PerSample.zip {X Y Z W : Type} {os : List (Octree F)} {o' : Octree F} {n m : Octree F → Nat}
    {op : Octree F → List X → M (List Y)} {op' : Octree F → List X → M (List Z)} (g : Y → Z → W)
    (h : PerSample os o' n m op) (h' : PerSample os o' n m op') :
    PerSample os o' n m (fun o x => do
      let y ← op o x
      let z ← op' o x
      pure (List.zipWith g y z)) := by
  intro xs hxs
  obtain ⟨ys, h1, h2, h3⟩ := h xs hxs
  obtain ⟨zs, g1, g2, g3⟩ := h' xs hxs
  have hl : ys.length = os.length := by simpa using congrArg List.length h2
  have hl' : xs.length = os.length := by simpa using congrArg List.length hxs
  have hl'' : zs.length = os.length := by simpa using congrArg List.length g2
  refine ⟨List.zipWith (fun a b => List.zipWith g a b) ys zs, ?_, ?_, ?_⟩
  · apply List.ext_getElem?
    intro i
    have e := congrArg (fun l => l[i]?) h1
    have e' := congrArg (fun l => l[i]?) g1
    simp only [List.getElem?_zipWith, List.getElem?_map] at e e' ⊢
    by_cases hi : i < os.length
    · simp only [List.getElem?_eq_getElem hi, List.getElem?_eq_getElem (show i < xs.length by omega),
        List.getElem?_eq_getElem (show i < ys.length by omega), List.getElem?_eq_getElem (show i < zs.length by omega),
        Option.map_some, Option.some.injEq] at e e' ⊢
      rw [e, e']
      rfl
    · rw [List.getElem?_eq_none (by omega), List.getElem?_eq_none (l := ys) (by omega)]
      rfl
  · apply List.ext_getElem?
    intro i
    have e := congrArg (fun l => l[i]?) h2
    have e' := congrArg (fun l => l[i]?) g2
    simp only [List.getElem?_zipWith, List.getElem?_map] at e e' ⊢
    by_cases hi : i < os.length
    · simp only [List.getElem?_eq_getElem hi,
        List.getElem?_eq_getElem (show i < ys.length by omega), List.getElem?_eq_getElem (show i < zs.length by omega),
        Option.map_some, Option.some.injEq] at e e' ⊢
      simp [e, e']
    · rw [List.getElem?_eq_none (l := os) (by omega), List.getElem?_eq_none (l := ys) (by omega)]
      rfl
  · simp only [h3, g3, bind, Except.bind, pure, Except.pure]
    rw [zipWith_flatten g ys zs (h2.trans g2.symm)]

/-! ### batches -/

/-- `o'` is a batch of the single-sample octrees `os`. -/
structure BatchOf (os : List (Octree F)) (o' : Octree F) (D : Nat) : Prop where
  size : o'.batchSize = os.length
  single : ∀ o ∈ os, o.batchSize = 1
  valid : ∀ o ∈ os, o.Valid D
  valid' : o'.Valid D
  masks : ∀ d ≤ D, o'.masks d = (os.map fun o => o.masks d).flatten

theorem merged_batch {os : List (Octree F)} {D full dev : Nat} (h : Mergeable os D full dev)
    (nb : Nat → Option (List (List Int))) : BatchOf os { mergedState os D full dev (D + 1) with neighs := nb } D := by
  have W := (merged_wf h).with_neighs nb
  refine ⟨rfl, h.single, h.valid, W.valid, ?_⟩
  intro d hd
  unfold Octree.masks
  rw [W.children d hd, Option.getD_some, number_mask]
  unfold mergedMasks
  rw [List.map_map]
  rfl

/-- the cells the rows of a tensor belong to -/
def qc (o : Octree F) (nempty : Bool) (d : Nat) : List Cell :=
  if nempty then maskSel (o.masks d) (layerCells o.batchSize o.masks d) else layerCells o.batchSize o.masks d

theorem queried_qc {o : Octree F} {h : Nat} (w : o.Valid h) (d : Nat) (hd : d ≤ h) (nempty : Bool) (cells : List Cell)
    (ch : List Int) (hc : CellsOf o.batchSize d o.keys cells) (hch : o.children d = some ch) :
    queried nempty cells ch = qc o nempty d := by
  have W := w.wf'
  have h16 := w.depth_le
  have hh := w.h_le
  have e := cells_unique (by omega) hc (W.cellsOf d hd)
  subst e
  rw [W.children d hd] at hch
  cases hch
  unfold queried qc
  rw [nonEmpty_eq _ _ _ (W.len d hd)]

theorem qc_length {o : Octree F} {h : Nat} (w : o.Valid h) (d : Nat) (hd : d ≤ h) (nempty : Bool) :
    (qc o nempty d).length = if nempty then o.nnumNempty d else o.nnum d := by
  rw [← queried_qc w d hd nempty _ _ (w.wf'.cellsOf d hd) (w.wf'.children d hd)]
  exact queried_length w d hd nempty _ _ (w.wf'.cellsOf d hd) (w.wf'.children d hd)

theorem qc_inRange {o : Octree F} {h : Nat} (w : o.Valid h) (d : Nat) (hd : d ≤ h) (nempty : Bool) :
    ∀ c ∈ qc o nempty d, c.InRange o.batchSize d := by
  rw [← queried_qc w d hd nempty _ _ (w.wf'.cellsOf d hd) (w.wf'.children d hd)]
  exact queried_b w.wf' d hd nempty

theorem qc_nodup {o : Octree F} {h : Nat} (w : o.Valid h) (d : Nat) (hd : d ≤ h) (nempty : Bool) :
    (qc o nempty d).Nodup := by
  rw [← queried_qc w d hd nempty _ _ (w.wf'.cellsOf d hd) (w.wf'.children d hd)]
  exact nodes_nodup o h w d hd nempty 1 _ _ (.one d _ _ (w.wf'.cellsOf d hd) (w.wf'.children d hd))

theorem BatchOf.cells {os : List (Octree F)} {o' : Octree F} {D : Nat} (h : BatchOf os o' D) (d : Nat) (hd : d ≤ D) :
    layerCells o'.batchSize o'.masks d = blocks Cell.inSample (os.map fun o => layerCells o.batchSize o.masks d) := by
  rw [h.size, layerCells_congr _ _ (mergedMasks (os.map Octree.masks)) d (by
    intro i hi
    rw [h.masks i (by omega)]
    unfold mergedMasks
    rw [List.map_map]
    rfl)]
  have := layerCells_merged (os.map Octree.masks) d (by
    intro m hm i hi
    obtain ⟨o, ho, rfl⟩ := List.mem_map.mp hm
    have := (h.valid o ho).wf'.len i (by omega)
    rwa [h.single o ho] at this)
  rw [List.length_map] at this
  rw [this, blocks_eq]
  unfold mergedCells
  rw [List.zipIdx_map, List.zipIdx_map, List.map_map, List.map_map]
  congr 1
  apply List.map_congr_left
  rintro ⟨o, i⟩ hp
  have ho := List.mem_of_getElem? (List.mem_zipIdx_iff_getElem?.mp hp)
  simp only [Function.comp_apply, Prod.map_apply, id, h.single o ho]

theorem BatchOf.qc {os : List (Octree F)} {o' : Octree F} {D : Nat} (h : BatchOf os o' D) (d : Nat) (hd : d ≤ D)
    (nempty : Bool) : qc o' nempty d = blocks Cell.inSample (os.map fun o => Ocnn.qc o nempty d) := by
  unfold Ocnn.qc
  cases nempty
  · simp only [Bool.false_eq_true, if_false]
    exact h.cells d hd
  · simp only [if_true]
    rw [h.cells d hd, h.masks d hd, maskSel_flatten]
    · congr 1
      rw [List.zipWith_map, List.zipWith_self]
    · rw [List.map_map, List.map_map]
      apply List.map_congr_left
      intro o ho
      exact (h.valid o ho).wf'.len d hd

theorem BatchOf.b_zero {os : List (Octree F)} {o' : Octree F} {D : Nat} (h : BatchOf os o' D) (d : Nat) (hd : d ≤ D)
    (nempty : Bool) : ∀ o ∈ os, ∀ c ∈ Ocnn.qc o nempty d, c.b = 0 := by
  intro o ho c hc
  have := (qc_inRange (h.valid o ho) d hd nempty c hc).1
  rw [h.single o ho] at this
  omega

theorem BatchOf.field {os : List (Octree F)} {o' : Octree F} {D : Nat} (h : BatchOf os o' D) (d : Nat) (hd : d ≤ D)
    (nempty : Bool) {V : Type} [Zero V] (xs : List (List V))
    (hx : xs.map List.length = os.map fun o => if nempty then o.nnumNempty d else o.nnum d) :
    ∃ f, IsField (Ocnn.qc o' nempty d) xs.flatten f ∧
      ∀ i o x, os[i]? = some o → xs[i]? = some x → IsField (Ocnn.qc o nempty d) x (sampleField f i) := by
  have hl : (os.map fun o => Ocnn.qc o nempty d).map List.length = xs.map List.length := by
    rw [hx, List.map_map]
    apply List.map_congr_left
    intro o ho
    exact qc_length (h.valid o ho) d hd nempty
  have hlen : (Ocnn.qc o' nempty d).length = xs.flatten.length := by
    rw [h.qc d hd, blocks_length, List.length_flatten, List.length_flatten, hl]
  obtain ⟨f, hf⟩ := exists_field _ xs.flatten hlen (qc_nodup h.valid' d hd nempty)
  refine ⟨f, hf, ?_⟩
  intro i o x ho hxi
  rw [h.qc d hd] at hf
  exact field_restrict _ xs hl (by
    intro Q hQ c hc
    obtain ⟨o, ho, rfl⟩ := List.mem_map.mp hQ
    exact h.b_zero d hd nempty o ho c hc) f hf i _ x (by simp [ho]) hxi

end Ocnn
