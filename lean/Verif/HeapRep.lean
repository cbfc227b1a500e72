import Verif.HeapProofs

/-! The heap model computes the same values as the model on values. -/

set_option linter.unusedSimpArgs false
set_option linter.unusedVariables false

namespace Ocnn
variable {F : Type}

/-- A tensor slot holds the given value. -/
def Holds (h : Heap) : Option View → Option (List (List Int)) → Prop
  | some v, some rows => v.sid < h.next ∧ h.read v = rows
  | none, none => True
  | _, _ => False

/-- A 1-D tensor of integers. -/
def column (l : List Int) : List (List Int) := l.map fun a => [a]

/-- The octree of tensors `H` on the heap `h` has the values of `o`; `encF` and `encV` give the bit patterns of the rows of features and
of coordinates. -/
structure Represents (encF : F → List Int) (encV : V3 ℚ → List Int) (h : Heap) (H : HOctree) (o : Octree F) : Prop where
  depth : H.depth = o.depth
  fullDepth : H.fullDepth = o.fullDepth
  batchSize : H.batchSize = o.batchSize
  device : H.device = o.device
  keys : ∀ d ≤ o.depth, Holds h (H.keys d) ((o.keys d).map fun l => column (l.map fun (k : Nat) => (k : Int)))
  children : ∀ d ≤ o.depth, Holds h (H.children d) ((o.children d).map column)
  neighs : ∀ d ≤ o.depth, Holds h (H.neighs d) (o.neighs d)
  features : ∀ d ≤ o.depth, Holds h (H.features d) ((o.features d).map fun l => l.map encF)
  normals : ∀ d ≤ o.depth, Holds h (H.normals d) ((o.normals d).map fun l => l.map encV)
  points : ∀ d ≤ o.depth, Holds h (H.points d) ((o.points d).map fun l => l.map encV)
  nnum : Holds h (some H.nnum) (some (column ((List.range (o.depth + 1)).map fun d => (o.nnum d : Int))))
  nnumNempty : Holds h (some H.nnumNempty) (some (column ((List.range (o.depth + 1)).map fun d => (o.nnumNempty d : Int))))
  batchNnum : Holds h (some H.batchNnum)
    (some ((List.range (o.depth + 1)).map fun d => (o.batchNnum d).map fun (k : Nat) => (k : Int)))
  batchNnumNempty : Holds h (some H.batchNnumNempty)
    (some ((List.range (o.depth + 1)).map fun d => (o.batchNnumNempty d).map fun (k : Nat) => (k : Int)))

theorem Holds.ext {n : Nat} {h h1 : Heap} {v : Option View} {x : Option (List (List Int))} (hv : Holds h v x)
    (he : Ext n h h1) (hn : h.next ≤ n) : Holds h1 v x := by
  cases v <;> cases x <;> try exact hv
  exact ⟨lt_of_lt_of_le hv.1 he.next, (he.read _ (lt_of_lt_of_le hv.1 hn)).trans hv.2⟩

theorem Represents.ext {encF : F → List Int} {encV : V3 ℚ → List Int} {h h1 : Heap} {H : HOctree} {o : Octree F}
    (hr : Represents encF encV h H o) (he : Ext h.next h h1) : Represents encF encV h1 H o where
  depth := hr.depth
  fullDepth := hr.fullDepth
  batchSize := hr.batchSize
  device := hr.device
  keys d hd := (hr.keys d hd).ext he (le_refl _)
  children d hd := (hr.children d hd).ext he (le_refl _)
  neighs d hd := (hr.neighs d hd).ext he (le_refl _)
  features d hd := (hr.features d hd).ext he (le_refl _)
  normals d hd := (hr.normals d hd).ext he (le_refl _)
  points d hd := (hr.points d hd).ext he (le_refl _)
  nnum := hr.nnum.ext he (le_refl _)
  nnumNempty := hr.nnumNempty.ext he (le_refl _)
  batchNnum := hr.batchNnum.ext he (le_refl _)
  batchNnumNempty := hr.batchNnumNempty.ext he (le_refl _)

theorem flat_column (l : List Int) : flat (column l) = l := by
  simp [flat, column, scalar, Function.comp_def]

theorem match_need {α : Type} {h : Heap} {v : Option View} {x : Option α} {enc : α → List (List Int)}
    (hv : Holds h v (x.map enc)) :
    Match (fun a b => v = some a ∧ x = some b ∧ a.sid < h.next ∧ h.read a = enc b) (need v) (need x) := by
  cases v <;> cases x
  · rfl
  · exact hv.elim
  · exact hv.elim
  · exact ⟨rfl, rfl, hv.1, hv.2⟩

theorem match_need' {h : Heap} {v : Option View} {x : Option (List (List Int))} (hv : Holds h v x) :
    Match (fun a b => v = some a ∧ x = some b ∧ a.sid < h.next ∧ h.read a = b) (need v) (need x) := by
  apply match_need (enc := id)
  simpa using hv

theorem sim_layer {α : Type} {n : Nat} {h : Heap} {H : HOctree} {o : Octree F} {l : Nat → Option View}
    {x : Nat → Option α} {d : Nat} {enc : α → List (List Int)} (hd : H.depth = o.depth)
    (hv : ∀ d ≤ o.depth, Holds h (l d) ((x d).map enc)) :
    Sim n (H.layer l d) h (o.chk d >>= fun _ => need (x d))
      (fun h1 a b => h1 = h ∧ d ≤ o.depth ∧ l d = some a ∧ x d = some b ∧ a.sid < h.next ∧ h.read a = enc b) := by
  unfold HOctree.layer Octree.chk
  rw [hd]
  by_cases hle : d ≤ o.depth
  · simp only [if_pos hle]
    refine sim_lift ?_
    have := match_need (hv d hle)
    revert this
    rcases need (l d) with y | a <;> rcases need (x d) with z | b <;> intro this <;> try exact this
    exact ⟨rfl, hle, this⟩
  · simp only [if_neg hle]
    exact ⟨Ext.refl _ _, rfl⟩

theorem maskOf_column (c : List Int) : HOctree.maskOf (column c) = c.map fun v => decide (v ≥ 0) := by
  unfold HOctree.maskOf
  rw [flat_column]

theorem map_every8 {α β : Type} (f : α → β) (t : List α) : (Octree.every8 t).map f = Octree.every8 (t.map f) := by
  unfold Octree.every8
  rw [List.map_filterMap]
  simp

theorem sim_neighOf {encF : F → List Int} {encV : V3 ℚ → List Int} {h : Heap} {H : HOctree} {o : Octree F}
    (hr : Represents encF encV h H o) (d stride : Nat) :
    Sim h.next (H.neighOf d stride) h
      (if stride = 1 then do
        o.chk d
        need (o.neighs d)
      else if stride = 2 then do
        o.chk d
        let n ← need (o.neighs d)
        pure (Octree.every8 n)
      else .error .value : M (List (List Int)))
      (fun h1 a b => Ext h.next h h1 ∧ a.sid < h1.next ∧ h1.read a = b ∧
        (stride = 1 → H.neighs d = some a ∧ a.sid < h.next) ∧ (stride ≠ 1 → h.next ≤ a.sid ∧ Full h1 a b)) := by
  have hl := sim_layer (n := h.next) (h := h) (d := d) (enc := id) hr.depth (l := H.neighs) (x := o.neighs)
    (fun d hd => by simpa using hr.neighs d hd)
  unfold HOctree.neighOf
  split
  · rename_i hs
    refine hl.mono (le_refl _) ?_
    rintro h1 a b _ ⟨rfl, _, h2, h3, h4, h5⟩
    exact ⟨Ext.refl _ _, h4, h5, fun _ => ⟨h2, h4⟩, fun h => (h hs).elim⟩
  · rename_i hs
    split
    · have : ((do
          o.chk d
          let n ← need (o.neighs d)
          pure (Octree.every8 n)) : M (List (List Int))) =
          ((o.chk d >>= fun _ => need (o.neighs d)) >>= fun n => pure (Octree.every8 n)) := by simp
      rw [this]
      refine sim_bind hl ?_
      rintro a b h1 _ ⟨rfl, _, h2, h3, h4, h5⟩
      refine sim_read (sim_alloc (le_refl _) ?_)
      intro v h2 he hv hf
      have : h1.read a.every8 = Octree.every8 b := by
        unfold Heap.read View.every8
        rw [map_every8]
        congr 1
      rw [this] at hf
      exact ⟨he, hf.live, hf.read, fun h => (hs h).elim, fun _ => ⟨hv.ge, hf⟩⟩
    · exact sim_throw

theorem mapM_length {α β : Type} (f : α → M β) (l : List α) (r : List β) (h : l.mapM f = .ok r) : r.length = l.length := by
  induction l generalizing r with
  | nil => simp only [List.mapM_nil] at h; cases h; rfl
  | cons a l ih =>
    simp only [List.mapM_cons] at h
    rcases ha : f a with x | b <;> rw [ha] at h
    · cases h
    rcases hl : l.mapM f with x | bs <;> rw [hl] at h
    · cases h
    cases h
    simp [ih bs hl]

theorem sim_getNeigh {encF : F → List Int} {encV : V3 ℚ → List Int} {h : Heap} {H : HOctree} {o : Octree F}
    (hr : Represents encF encV h H o) (d : Nat) (kernel : String) (stride : Nat) (nempty : Bool) :
    Sim h.next (H.getNeigh d kernel stride nempty) h (o.getNeigh d kernel stride nempty)
      (fun h1 a b => h1.read a = b ∧ a.sid < h1.next ∧
        (stride = 1 ∧ nempty = false ∧ kernel = "333" → H.neighs d = some a) ∧
        (¬ (stride = 1 ∧ nempty = false ∧ kernel = "333") → h.next ≤ a.sid)) := by
  unfold HOctree.getNeigh Octree.getNeigh
  refine sim_bind (sim_neighOf hr d stride) ?_
  rintro a b h1 _ ⟨he, hlive, hread, hs1, hs2⟩
  refine sim_bind (R := fun h2 a' b' => a'.sid < h2.next ∧ h2.read a' = b' ∧
    (stride = 1 ∧ nempty = false → H.neighs d = some a') ∧ (¬ (stride = 1 ∧ nempty = false) → h.next ≤ a'.sid)) ?_ ?_
  · cases nempty
    · refine sim_pure ⟨hlive, hread, fun h => (hs1 h.1).1, fun h => (hs2 ?_).1⟩
      intro h'
      exact h ⟨h', rfl⟩
    · simp only [if_true]
      have hr1 := hr.ext he
      have hl := sim_layer (n := h.next) (h := h1) (d := d) (enc := column) hr1.depth (l := H.children) (x := o.children)
        hr1.children
      unfold HOctree.neighNempty
      rw [← bind_assoc]
      refine sim_bind hl ?_
      rintro c cs h1' _ ⟨rfl, hdd, h2, h3, h4, h5⟩
      have hcn : c.sid < h.next := by
        have := hr.children d hdd
        rw [h2, h3] at this
        exact this.1
      refine sim_bind (R := fun h2 a' b' => Ext h.next h1' h2 ∧ h.next ≤ a'.sid ∧ Full h2 a' b') ?_ ?_
      · unfold HOctree.pickRows
        by_cases hs : stride = 1
        · simp only [if_pos hs]
          refine sim_read (sim_read ?_)
          rw [h5, hread, maskOf_column]
          rw [← bind_pure (boolIndex (cs.map fun v => decide (v ≥ 0)) b)]
          refine sim_bind (R := fun h2 a b => h2 = h1' ∧ a = b) (sim_lift (by
            rw [bind_pure]
            exact match_refl fun _ _ => ⟨rfl, rfl⟩)) ?_
          rintro r r' h2 _ ⟨rfl, rfl⟩
          refine sim_alloc he.next ?_
          intro v h3 he3 hv hf
          exact ⟨he3.mono he.next, hv ▸ he.next, hf⟩
        · simp only [if_neg hs]
          exact sim_pure ⟨Ext.refl _ _, hs2 hs⟩
      · rintro a2 b2 h2 _ ⟨he2, hn2, hf2⟩
        refine sim_read (sim_read ?_)
        rw [hf2.read, he2.read c hcn, h5, flat_column]
        rw [← bind_pure (b2.mapM _)]
        refine sim_bind (R := fun h3 x y => h3 = h2 ∧ x = y ∧ x.length = b2.length) (sim_lift (by
            exact match_refl fun _ hx => ⟨rfl, rfl, mapM_length _ _ _ hx⟩)) ?_
        rintro r r' h3 _ ⟨rfl, rfl, hlr⟩
        refine sim_writeL hn2 hf2 hlr ?_
        intro h4 _ _ _ hf4
        exact sim_pure ⟨hf4.live, hf4.read, fun h => by simp at h, fun _ => hn2⟩
  · rintro a2 b2 h2 he2 ⟨hl2, hr2, ha, hb⟩
    unfold HOctree.pickCols
    split
    · rename_i hk
      exact sim_pure ⟨hr2, hl2, fun h => ha ⟨h.1, h.2.1⟩, fun h => hb fun h' => h ⟨h'.1, h'.2, hk⟩⟩
    · rename_i hk
      cases hlk : List.lookup kernel lutKernel with
      | some lut =>
        simp only []
        refine sim_read ?_
        rw [hr2]
        rw [← bind_pure (List.mapM (fun row => gatherIdx row lut) b2)]
        refine sim_bind (R := fun h3 x y => h3 = h2 ∧ x = y) (sim_lift (by
            rw [bind_pure]
            exact match_refl fun _ _ => ⟨rfl, rfl⟩)) ?_
        rintro r r' h3 _ ⟨rfl, rfl⟩
        refine sim_alloc (he.next.trans he2.next) ?_
        intro v h4 he4 hv hf
        exact ⟨hf.read, hf.live, fun h => (hk h.2.2).elim, fun _ => hv ▸ (he.next.trans he2.next)⟩
      | none => exact sim_throw

theorem boolIndex_map {α β : Type} (f : α → β) (m : List Bool) (t : List α) :
    boolIndex m (t.map f) = (boolIndex m t).map (List.map f) := by
  unfold boolIndex
  simp only [List.length_map]
  split
  · rw [maskSel_map]; rfl
  · rfl

theorem sim_key {encF : F → List Int} {encV : V3 ℚ → List Int} {h : Heap} {H : HOctree} {o : Octree F}
    (hr : Represents encF encV h H o) (d : Nat) (nempty : Bool) :
    Sim h.next (H.key d nempty) h (o.key d nempty)
      (fun h1 a b => Ext h.next h h1 ∧ h1.read a = column (b.map fun (k : Nat) => (k : Int)) ∧ a.sid < h1.next ∧
        (nempty = false → H.keys d = some a) ∧ (nempty = true → h.next ≤ a.sid)) := by
  unfold HOctree.key Octree.key
  rw [← bind_assoc]
  have hl := sim_layer (n := h.next) (h := h) (d := d) (enc := fun l => column (l.map fun (k : Nat) => (k : Int))) hr.depth
    (l := H.keys) (x := o.keys) hr.keys
  refine sim_bind hl ?_
  rintro a ks h1 _ ⟨rfl, hdd, h2, h3, h4, h5⟩
  cases nempty
  · exact sim_pure ⟨Ext.refl _ _, h5, h4, fun _ => h2, fun h => by cases h⟩
  · simp only [if_true]
    unfold Octree.nemptyMask
    rw [← bind_assoc]
    have hl := sim_layer (n := h1.next) (h := h1) (d := d) (enc := column) hr.depth (l := H.children) (x := o.children)
      hr.children
    have e : ((((do
          o.chk d
          let c ← need (o.children d)
          pure (c.map fun v => decide (v ≥ 0))) : M (List Bool)) >>= fun mask => boolIndex mask ks) : M (List Nat)) =
        ((o.chk d >>= fun _ => need (o.children d)) >>= fun c => boolIndex (c.map fun v => decide (v ≥ 0)) ks) := by simp
    rw [bind_assoc, e]
    refine sim_bind hl ?_
    rintro c cs h1' _ ⟨rfl, _, g2, g3, g4, g5⟩
    refine sim_read (sim_read ?_)
    rw [h5, g5, maskOf_column]
    rw [show column (ks.map fun (k : Nat) => (k : Int)) = ks.map fun (k : Nat) => [(k : Int)] by simp [column], boolIndex_map]
    rw [← bind_pure (boolIndex (cs.map fun v => decide (v ≥ 0)) ks)]
    refine sim_bind (R := fun h2 a b => h2 = h1' ∧ a = b.map fun k : Nat => [(k : Int)]) (sim_lift (by
      rw [bind_pure]
      rcases boolIndex (cs.map fun v => decide (v ≥ 0)) ks with x | r
      · rfl
      · exact ⟨rfl, rfl⟩)) ?_
    rintro r r' h2 _ ⟨rfl, rfl⟩
    refine sim_alloc (le_refl _) ?_
    intro v h3 he3 hv hf
    refine ⟨he3, ?_, hf.live, fun h => (by cases h), fun _ => hv.ge⟩
    rw [hf.read]
    simp [column]

theorem sim_searchKey {encF : F → List Int} {encV : V3 ℚ → List Int} {h : Heap} {H : HOctree} {o : Octree F}
    (hr : Represents encF encV h H o) (qv : View) (q : List Nat) (hq : Holds h (some qv) (some (column (q.map fun (k : Nat) => (k : Int)))))
    (d : Nat) (nempty : Bool) :
    Sim h.next (H.searchKey qv d nempty) h (o.searchKey q d nempty)
      (fun h1 a b => h1.read a = column b ∧ a.sid < h1.next ∧ h.next ≤ a.sid) := by
  unfold HOctree.searchKey Octree.searchKey
  refine sim_bind (sim_key hr d nempty) ?_
  rintro a ks h1 _ ⟨he, hread, hlive, _, _⟩
  refine sim_read (sim_read ?_)
  rw [hread, he.read qv hq.1, hq.2]
  simp only [flat_column]
  refine sim_allocL he.next ?_
  intro vi h2 he2 hvi hfi
  refine sim_read ?_
  rw [hfi.read]
  have e1 : flat (List.map (fun a => [(HOctree.bucket (ks.map fun (k : Nat) => (k : Int)) a : Int)]) (q.map fun (k : Nat) => (k : Int))) =
      q.map fun a => (bucketize ks a : Int) := by
    simp only [flat, List.map_map, scalar, Function.comp_def, List.headD_cons, HOctree.bucket, bucketize, List.countP_map,
      Nat.cast_lt]
  rw [e1]
  refine sim_allocL (he.next.trans he2.next) ?_
  intro vv h3 he3 hvv hfv
  refine sim_read ?_
  rw [hfv.read]
  have e2 : flat (List.map (fun (i : Int) => [if i < ((ks.map fun (k : Nat) => (k : Int)).length : Int) then (1 : Int) else 0])
      (q.map fun a => (bucketize ks a : Int))) = q.map fun a => if bucketize ks a < ks.length then (1 : Int) else 0 := by
    simp only [flat, List.map_map, scalar, Function.comp_def, List.headD_cons, List.length_map, Nat.cast_lt]
  rw [e2]
  refine sim_writeL (by rw [hvv]; exact he.next.trans he2.next) hfv (by simp) ?_
  intro h4 he4 hn4 hm4 hfv4
  refine sim_read ?_
  rw [hfv4.read]
  have hne : vi.sid ≠ vv.sid := by
    rw [hvv]
    exact Nat.ne_of_lt (hvi ▸ hfi.live)
  have hfi4 : Full h4 vi _ := (hfi.ext he3 hfi.live).ext he4 (by rw [hvv]; exact hfi.live)
  refine sim_writeL (by rw [hvi]; exact he.next) hfi4 (by simp [flat]) ?_
  intro h5 he5 hn5 hm5 hfi5
  refine sim_pure ⟨?_, hfi5.live, by rw [hvi]; exact he.next⟩
  rw [hfi5.read]
  unfold column
  apply List.ext_getElem?
  intro i
  simp only [List.getElem?_zipWith, List.getElem?_map, flat, List.map_zipWith, List.getElem?_zip_eq_some, List.zip, scalar,
    List.headD_cons]
  cases hqi : q[i]? with
  | none => simp
  | some x =>
    simp only [Option.map_some, Option.some.injEq, List.cons.injEq, and_true, Int.toNat_natCast, List.getElem?_map]
    by_cases hlt : bucketize ks x < ks.length
    · simp only [hlt, if_true, List.getElem?_eq_getElem, Option.map_some, Option.some.injEq, Nat.cast_inj]
      by_cases hkx : ks[bucketize ks x] = x <;> simp [hkx]
    · simp [hlt]

end Ocnn
