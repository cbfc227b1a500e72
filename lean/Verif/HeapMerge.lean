import Verif.HeapRep

/-! `merge_octrees` on the heap. -/

set_option linter.unusedSimpArgs false
set_option linter.unusedVariables false

namespace Ocnn
variable {F : Type}

theorem sim_bind' {α α' β β' : Type} {n : Nat} {m : HM α} {f : α → HM α'} {h : Heap} {e : M β} {g : β → M β'}
    {R : Heap → α → β → Prop} {S : Heap → α' → β' → Prop} (hm : Sim h.next m h e R) (hn : n ≤ h.next)
    (hf : ∀ a b h1, Ext h.next h h1 → R h1 a b → Sim n (f a) h1 (g b) S) : Sim n (m >>= f) h (e >>= g) S := by
  refine sim_bind (hm.mono hn (R' := fun h1 a b => Ext h.next h h1 ∧ R h1 a b) fun h1 a b he hr => ⟨he, hr⟩) ?_
  rintro a b h1 _ ⟨he, hr⟩
  exact hf a b h1 he hr

theorem runH_mapM_read (ts : List View) (h : Heap) : runH (ts.mapM readV) h = (.ok (ts.map h.read), h) := by
  induction ts with
  | nil => rfl
  | cons v ts ih =>
    simp only [List.mapM_cons, runH_bind, runH_readV, ih, runH_pure, List.map_cons]

theorem sim_catL {α β : Type} {n : Nat} {ts : List View} {rows : List (List (List Int))} {f : View → HM α} {h : Heap} {e : M β}
    {R : Heap → α → β → Prop} (hn : n ≤ h.next) (ht : ts.map h.read = rows)
    (hf : ∀ v h1, Ext h.next h h1 → v.sid = h.next → Full h1 v rows.flatten → Sim n (f v) h1 e R) :
    Sim n (HOctree.catV ts >>= f) h e R := by
  unfold HOctree.catV
  rw [bind_assoc]
  unfold Sim
  rw [runH_bind, runH_mapM_read, ht]
  exact sim_allocL hn hf

theorem sim_foldlM {ι α β : Type} {n : Nat} {f : α → ι → HM α} {g : β → ι → M β} {R : Heap → α → β → Prop} (l : List ι)
    (hf : ∀ i ∈ l, ∀ h a b, n ≤ h.next → R h a b → Sim n (f a i) h (g b i) R) :
    ∀ h a b, n ≤ h.next → R h a b → Sim n (l.foldlM f a) h (l.foldlM g b) R := by
  induction l with
  | nil => intro h a b _ hr; exact sim_pure hr
  | cons i l ih =>
    intro h a b hn hr
    simp only [List.foldlM_cons]
    refine sim_bind (hf i (by simp) h a b hn hr) ?_
    intro a' b' h1 he hr'
    exact ih (fun i hi => hf i (List.mem_cons_of_mem _ hi)) h1 a' b' (hn.trans he.next) hr'

theorem match_mono {α β : Type} {R S : α → β → Prop} {x : M α} {y : M β} (h : Match R x y) (hrs : ∀ a b, R a b → S a b) :
    Match S x y := by
  rcases x with x | a <;> rcases y with y | b <;> try exact h
  exact hrs a b h

theorem match_mapM {ι κ α β : Type} {I : ι → κ → Prop} {f : ι → M α} {g : κ → M β} {R : α → β → Prop} (l : List ι) (l' : List κ)
    (hl : List.Forall₂ I l l') (hf : ∀ i k, I i k → Match R (f i) (g k)) : Match (List.Forall₂ R) (l.mapM f) (l'.mapM g) := by
  induction hl with
  | nil => exact .nil
  | @cons i k l l' hi hl ih =>
    simp only [List.mapM_cons]
    have h1 := hf i k hi
    rcases hfi : f i with x | a <;> rcases hgk : g k with y | b <;> rw [hfi, hgk] at h1
    · exact h1
    · exact h1.elim
    · exact h1.elim
    · revert ih
      rcases l.mapM f with x | as <;> rcases l'.mapM g with y | bs <;> intro ih
      · exact ih
      · exact ih.elim
      · exact ih.elim
      · exact .cons h1 ih

theorem cumsumFrom_cast (l : List Nat) (acc : Nat) :
    cumsumFrom (acc : Int) (l.map fun (k : Nat) => (k : Int)) = (cumsumFrom acc l).map fun (k : Nat) => (k : Int) := by
  induction l generalizing acc with
  | nil => rfl
  | cons a l ih =>
    simp only [List.map_cons, cumsumFrom]
    rw [← ih]
    simp

theorem cumsum_cast (l : List Nat) :
    cumsum (l.map fun (k : Nat) => (k : Int)) true = (cumsum l true).map fun (k : Nat) => (k : Int) := by
  unfold cumsum
  simp only [if_true, List.map_cons, Nat.cast_zero]
  rw [← cumsumFrom_cast]
  simp

theorem getIdx_map {α β : Type} (f : α → β) (t : List α) (i : Int) : getIdx (t.map f) i = (getIdx t i).map f := by
  unfold getIdx
  rw [List.length_map]
  rcases normIdx t.length i with x | j
  · rfl
  · simp only [List.getElem?_map]
    show (match Option.map f t[j]? with | some v => _ | none => _) = Except.map f (match t[j]? with | some v => _ | none => _)
    cases t[j]? <;> rfl

theorem zipIdx_forall₂ {α β : Type} {R : α → β → Prop} {l : List α} {l' : List β} (h : List.Forall₂ R l l') (k : Nat) :
    List.Forall₂ (fun (p : α × Nat) (q : β × Nat) => R p.1 q.1 ∧ p.2 = q.2) (l.zipIdx k) (l'.zipIdx k) := by
  induction h generalizing k with
  | nil => exact .nil
  | cons h1 h2 ih =>
    simp only [List.zipIdx_cons]
    exact .cons ⟨h1, rfl⟩ (ih _)

/-- The tensor belongs to the octree. -/
inductive Owns (H : HOctree) (v : View) : Prop
  | keys (d : Nat) (h : H.keys d = some v)
  | children (d : Nat) (h : H.children d = some v)
  | neighs (d : Nat) (h : H.neighs d = some v)
  | features (d : Nat) (h : H.features d = some v)
  | normals (d : Nat) (h : H.normals d = some v)
  | points (d : Nat) (h : H.points d = some v)
  | nnum (h : H.nnum = v)
  | nnumNempty (h : H.nnumNempty = v)
  | batchNnum (h : H.batchNnum = v)
  | batchNnumNempty (h : H.batchNnumNempty = v)

theorem forall₂_map_read {α : Type} {h : Heap} {enc : α → List (List Int)} {ts : List View} {bs : List α}
    (hl : List.Forall₂ (fun v b => v.sid < h.next ∧ h.read v = enc b) ts bs) : ts.map h.read = bs.map enc := by
  induction hl with
  | nil => rfl
  | cons h1 h2 ih => simp [h1.2, ih]

theorem sim_mergeSig {α : Type} {h : Heap} {Hs : List HOctree} {os : List (Octree F)} {sel : HOctree → Nat → Option View}
    {sel' : Octree F → Nat → Option (List α)} {enc : α → List Int} {depth d : Nat}
    (hl : List.Forall₂ (fun H o => Holds h (sel H d) ((sel' o d).map fun l => l.map enc)) Hs os) :
    Sim h.next (HOctree.mergeSig sel Hs depth d) h (Octree.mergeSignal sel' os depth d)
      (fun h1 v x => Holds h1 v (x.map fun l => l.map enc) ∧ ∀ a, v = some a → h.next ≤ a.sid) := by
  unfold HOctree.mergeSig Octree.mergeSignal
  cases hl with
  | nil => exact sim_pure ⟨trivial, fun a ha => by cases ha⟩
  | @cons H o Hs os h1 h2 =>
    have e : (sel H d).isSome = (sel' o d).isSome := by
      revert h1
      rcases sel H d with _ | v <;> rcases sel' o d with _ | x <;> intro h1 <;> first | rfl | exact h1.elim
    simp only [e]
    refine sim_if ?_ ?_
    · intro hc
      refine sim_bind (R := fun h1 ts bs => h1 = h ∧ List.Forall₂ (fun v b => v.sid < h.next ∧ h.read v = b.map enc) ts bs)
        (sim_lift ?_) ?_
      · have hm := match_mapM (f := fun o => need (sel o d)) (g := fun o => need (sel' o d))
          (R := fun (v : View) (b : List α) => v.sid < h.next ∧ h.read v = b.map enc) _ _ (List.Forall₂.cons h1 h2)
          (fun i k hik => match_mono (match_need hik) fun a b hab => hab.2.2)
        exact match_mono hm fun a b hab => ⟨rfl, hab⟩
      · rintro ts bs h1 _ ⟨rfl, hf⟩
        refine sim_catL (le_refl _) (forall₂_map_read (enc := fun (b : List α) => b.map enc) hf) ?_
        intro v h2 he hv hfull
        refine sim_pure ⟨⟨hfull.live, ?_⟩, ?_⟩
        · rw [hfull.read]
          show _ = List.map enc bs.flatten
          rw [List.map_flatten]
        · rintro a ha
          cases ha
          exact hv.ge
    · intro _
      exact sim_pure ⟨trivial, fun a ha => by cases ha⟩

theorem sim_mergeKey {encF : F → List Int} {encV : V3 ℚ → List Int} {h : Heap} {d : Nat} {p : HOctree × Nat} {q : Octree F × Nat}
    (hr : Represents encF encV h p.1 q.1) (hi : p.2 = q.2) (hd : d ≤ q.1.depth) :
    Sim h.next (HOctree.mergeKey d p) h (do
        let ks ← need (q.1.keys d)
        pure (ks.map (Octree.relabel q.2)))
      (fun h1 v b => v.sid < h1.next ∧ h1.read v = column (b.map fun (k : Nat) => (k : Int))) := by
  unfold HOctree.mergeKey
  refine sim_bind (R := fun h1 a b => h1 = h ∧ h.read a = column (b.map fun (k : Nat) => (k : Int))) (sim_lift ?_) ?_
  · exact match_mono (match_need (hr.keys d hd)) fun a b hab => ⟨rfl, hab.2.2.2⟩
  · rintro a b h1 _ ⟨rfl, hread⟩
    refine sim_read (sim_alloc (le_refl _) ?_)
    intro v h2 he hv hf
    refine ⟨hf.live, ?_⟩
    rw [hf.read, hread, hi]
    simp [column, scalar, Function.comp_def]

theorem sim_mergeChild {encF : F → List Int} {encV : V3 ℚ → List Int} {h : Heap} {d : Nat} {p : HOctree × Nat} {q : Octree F × Nat}
    (hr : Represents encF encV h p.1 q.1) (hi : p.2 = q.2) (hd : d ≤ q.1.depth) (cum : List Nat) :
    Sim h.next (HOctree.mergeChild (cum.map fun (k : Nat) => (k : Int)) d p) h (do
        let child ← need (q.1.children d)
        let off ← getIdx cum q.2
        pure (child.map fun v => if v ≥ 0 then v + (off : Int) else v))
      (fun h1 v b => v.sid < h1.next ∧ h1.read v = column b) := by
  unfold HOctree.mergeChild
  refine sim_bind (R := fun h1 a b => h1 = h ∧ h.read a = column b) (sim_lift ?_) ?_
  · exact match_mono (match_need (hr.children d hd)) fun a b hab => ⟨rfl, hab.2.2.2⟩
  · rintro a b h1 _ ⟨rfl, hread⟩
    unfold cloneV
    rw [bind_assoc]
    refine sim_read (sim_allocL (le_refl _) ?_)
    intro v h2 he hv hf
    refine sim_read ?_
    refine sim_bind (R := fun h3 (x : Int) (y : Nat) => h3 = h2 ∧ x = (y : Int)) (sim_lift ?_) ?_
    · rw [hi, getIdx_map]
      rcases getIdx cum (q.2 : Int) with x | y
      · rfl
      · exact ⟨rfl, rfl⟩
    · rintro off off' h3 _ ⟨rfl, rfl⟩
      refine sim_writeL hv.ge hf (by rw [List.length_map, hf.read]) ?_
      intro h4 _ _ _ hf4
      refine sim_pure ⟨hf4.live, ?_⟩
      rw [hf4.read, hf.read, hread]
      unfold column
      rw [List.map_map, List.map_map]
      rfl

theorem forall₂_and {α β : Type} {R S : α → β → Prop} {l : List α} {l' : List β} (h : List.Forall₂ R l l')
    (hs : ∀ a b, b ∈ l' → R a b → S a b) : List.Forall₂ S l l' := by
  induction h with
  | nil => exact .nil
  | @cons a b l l' h1 h2 ih =>
    exact .cons (hs a b (by simp) h1) (ih fun a b hb => hs a b (List.mem_cons_of_mem _ hb))

theorem flatten_column (bs : List (List Int)) : (bs.map column).flatten = column bs.flatten := by
  unfold column
  rw [List.map_flatten]

theorem holds_upd {h : Heap} {f : Nat → Option View} {α : Type} {g : Nat → Option α} {enc : α → List (List Int)} {D d : Nat}
    {v : Option View} {x : Option α} (hf : ∀ k ≤ D, Holds h (f k) ((g k).map enc)) (hv : Holds h v (x.map enc)) :
    ∀ k ≤ D, Holds h (upd f d v k) ((upd g d x k).map enc) := by
  intro k hk
  unfold upd
  split
  · exact hv
  · exact hf k hk

theorem sim_mergeStep {encF : F → List Int} {encV : V3 ℚ → List Int} {h0 h : Heap} {Hs : List HOctree} {os : List (Octree F)}
    (hl : List.Forall₂ (Represents encF encV h0) Hs os) (he0 : Ext h0.next h0 h) {H : HOctree} {o : Octree F}
    (hr : Represents encF encV h H o) (hown : ∀ v, Owns H v → h0.next ≤ v.sid) {d : Nat} (hd : ∀ o ∈ os, d ≤ o.depth)
    (cum : List (List Int)) (hcum : (cum[d]?).getD [] = (cumsum (o.batchNnumNempty d) true).map fun (k : Nat) => (k : Int)) :
    Sim h0.next (HOctree.mergeStep Hs cum H d) h (Octree.mergeLayer os o d)
      (fun h1 H1 o1 => Ext h0.next h0 h1 ∧ Represents encF encV h1 H1 o1 ∧ (∀ v, Owns H1 v → h0.next ≤ v.sid) ∧
        o1.depth = o.depth ∧ o1.batchNnumNempty = o.batchNnumNempty) := by
  have hz : List.Forall₂ (fun (p : HOctree × Nat) (q : Octree F × Nat) => (Represents encF encV h0 p.1 q.1 ∧ d ≤ q.1.depth) ∧
      p.2 = q.2) Hs.zipIdx os.zipIdx :=
    zipIdx_forall₂ (R := fun (H : HOctree) (o : Octree F) => Represents encF encV h0 H o ∧ d ≤ o.depth) (forall₂_and hl fun a b hb h => ⟨h, hd b hb⟩) 0
  have stab1 : ∀ (h h1 : Heap) (a : View) (b : List Nat), Ext h.next h h1 →
      (a.sid < h.next ∧ h.read a = column (b.map fun (k : Nat) => (k : Int))) →
      (a.sid < h1.next ∧ h1.read a = column (b.map fun (k : Nat) => (k : Int))) :=
    fun h h1 a b he hab => ⟨lt_of_lt_of_le hab.1 he.next, (he.read a hab.1).trans hab.2⟩
  have stab2 : ∀ (h h1 : Heap) (a : View) (b : List Int), Ext h.next h h1 →
      (a.sid < h.next ∧ h.read a = column b) → (a.sid < h1.next ∧ h1.read a = column b) :=
    fun h h1 a b he hab => ⟨lt_of_lt_of_le hab.1 he.next, (he.read a hab.1).trans hab.2⟩
  unfold HOctree.mergeStep Octree.mergeLayer
  refine sim_bind' (sim_mapM _ (R := fun (h : Heap) (a : View) (b : List Nat) => a.sid < h.next ∧
      h.read a = column (b.map fun (k : Nat) => (k : Int))) h0 stab1
    (fun p q h he hpq => sim_mergeKey (hpq.1.1.ext he) hpq.2 hpq.1.2) _ _ hz h he0) he0.next ?_
  intro ks kb h1 he1 hk
  refine sim_catL (he0.next.trans he1.next) (forall₂_map_read (enc := fun (b : List Nat) => column (b.map fun (k : Nat) => (k : Int))) hk) ?_
  intro key h2 he2 hkey hfk
  have he02 : Ext h.next h h2 := he1.trans (he2.mono he1.next)
  have hh2 : Ext h0.next h0 h2 := he0.trans (he02.mono he0.next)
  refine sim_bind' (sim_mapM _ (R := fun (h : Heap) (a : View) (b : List Int) => a.sid < h.next ∧ h.read a = column b) h0 stab2
    (f := HOctree.mergeChild ((cum[d]?).getD []) d)
    (fun p q h he hpq => by rw [hcum]; exact sim_mergeChild (hpq.1.1.ext he) hpq.2 hpq.1.2 _) _ _ hz h2 hh2) hh2.next ?_
  intro cs cb h3 he3 hc
  refine sim_catL (hh2.next.trans he3.next) (forall₂_map_read (enc := column) hc) ?_
  intro child h4 he4 hchild hfc
  have he04 : Ext h.next h h4 := he02.trans ((he3.trans (he4.mono he3.next)).mono he02.next)
  have hh4 : Ext h0.next h0 h4 := he0.trans (he04.mono he0.next)
  have hfk4 : Full h4 key _ := (hfk.ext he3 hfk.live).ext he4 (lt_of_lt_of_le hfk.live he3.next)
  have e1 : H.depth = o.depth := hr.depth
  rw [e1]
  refine sim_bind' (sim_mergeSig (enc := encF) (forall₂_and hl fun a b hb hab =>
    (hab.ext hh4).features d (hd b hb))) hh4.next ?_
  rintro fv fx h5 he5 ⟨hf5, hfo⟩
  have hh5 : Ext h0.next h0 h5 := hh4.trans (he5.mono hh4.next)
  refine sim_bind' (sim_mergeSig (enc := encV) (forall₂_and hl fun a b hb hab =>
    (hab.ext hh5).normals d (hd b hb))) hh5.next ?_
  rintro nv nx h6 he6 ⟨hn6, hno⟩
  have hh6 : Ext h0.next h0 h6 := hh5.trans (he6.mono hh5.next)
  refine sim_bind' (sim_mergeSig (enc := encV) (forall₂_and hl fun a b hb hab =>
    (hab.ext hh6).points d (hd b hb))) hh6.next ?_
  rintro pv px h7 he7 ⟨hp7, hpo⟩
  have hh7 : Ext h0.next h0 h7 := hh6.trans (he7.mono hh6.next)
  have he57 : Ext h5.next h5 h7 := he6.trans (he7.mono he6.next)
  have he47 : Ext h4.next h4 h7 := he5.trans (he57.mono he5.next)
  have he07 : Ext h.next h h7 := he04.trans (he47.mono he04.next)
  have hr7 := hr.ext he07
  have hkey7 : Holds h7 (some key) ((some kb.flatten).map fun l => column (l.map fun (k : Nat) => (k : Int))) := by
    have := hfk4.ext he47 hfk4.live
    refine ⟨this.live, ?_⟩
    rw [this.read]
    simp only [column, List.map_map, Function.comp_def, List.map_flatten]
  have hchild7 : Holds h7 (some child) ((some cb.flatten).map column) := by
    have := hfc.ext he47 hfc.live
    refine ⟨this.live, ?_⟩
    rw [this.read]
    exact flatten_column cb
  refine sim_pure ⟨hh7, ?_, ?_, rfl, rfl⟩
  · exact { depth := rfl, fullDepth := hr.fullDepth, batchSize := hr.batchSize, device := hr.device
            keys := holds_upd hr7.keys hkey7
            children := holds_upd hr7.children hchild7
            neighs := hr7.neighs
            features := holds_upd hr7.features (hf5.ext he57 (le_refl _))
            normals := holds_upd hr7.normals (hn6.ext he7 (le_refl _))
            points := holds_upd hr7.points hp7
            nnum := hr7.nnum, nnumNempty := hr7.nnumNempty, batchNnum := hr7.batchNnum
            batchNnumNempty := hr7.batchNnumNempty }
  · have hu : ∀ (f : Nat → Option View) (x : Option View) (k : Nat) (v : View), upd f d x k = some v →
        x = some v ∨ f k = some v := by
      intro f x k v hx
      unfold upd at hx
      split at hx
      · exact .inl hx
      · exact .inr hx
    intro v hv
    cases hv with
    | keys k hk =>
      rcases hu _ _ _ _ hk with hk | hk
      · cases hk; rw [hkey]; exact he0.next.trans he1.next
      · exact hown v (.keys k hk)
    | children k hk =>
      rcases hu _ _ _ _ hk with hk | hk
      · cases hk; rw [hchild]; exact hh2.next.trans he3.next
      · exact hown v (.children k hk)
    | neighs k hk => exact hown v (.neighs k hk)
    | features k hk =>
      rcases hu _ _ _ _ hk with hk | hk
      · exact hh4.next.trans (hfo v hk)
      · exact hown v (.features k hk)
    | normals k hk =>
      rcases hu _ _ _ _ hk with hk | hk
      · exact hh5.next.trans (hno v hk)
      · exact hown v (.normals k hk)
    | points k hk =>
      rcases hu _ _ _ _ hk with hk | hk
      · exact hh6.next.trans (hpo v hk)
      · exact hown v (.points k hk)
    | nnum hk => exact hown v (.nnum hk)
    | nnumNempty hk => exact hown v (.nnumNempty hk)
    | batchNnum hk => exact hown v (.batchNnum hk)
    | batchNnumNempty hk => exact hown v (.batchNnumNempty hk)

theorem getIdx_head {α : Type} (a : α) (l : List α) : getIdx (a :: l) 0 = .ok a := by
  unfold getIdx normIdx
  simp
  try rfl

theorem runH_readNums (vs : List View) (h : Heap) :
    runH (HOctree.readNums vs) h = (.ok (vs.map fun v => flat (h.read v)), h) := by
  unfold HOctree.readNums
  induction vs with
  | nil => rfl
  | cons v vs ih =>
    simp only [List.mapM_cons, runH_bind, runH_readV, ih, runH_pure, List.map_cons]

theorem stackNum_eq (os : List (Octree F)) (D : Nat) (f : Octree F → Nat → Nat) (hD : ∀ o ∈ os, o.depth = D) :
    HOctree.stackNum D (os.map fun o => (List.range (o.depth + 1)).map fun d => (f o d : Int)) =
      (List.range (D + 1)).map fun d => os.map fun o => (f o d : Int) := by
  unfold HOctree.stackNum
  apply List.map_congr_left
  intro d hd
  rw [List.map_map]
  apply List.map_congr_left
  intro o ho
  simp only [Function.comp_apply, hD o ho]
  rw [List.getElem?_map, List.getElem?_range (by simpa using hd)]
  rfl

theorem sum_cast (l : List Nat) : (l.map fun (k : Nat) => (k : Int)).sum = (l.sum : Int) := by
  induction l with
  | nil => rfl
  | cons a l ih => simp [ih]

theorem Full.holds {h : Heap} {v : View} {rows rows' : List (List Int)} (hf : Full h v rows) (hr : rows = rows') :
    Holds h (some v) (some rows') := ⟨hf.live, hr ▸ hf.read⟩

theorem match_assert {c c' : Prop} [Decidable c] [Decidable c'] (h : c ↔ c') :
    Match (fun _ _ => c') (pyAssert c) (pyAssert c') := by
  unfold pyAssert
  by_cases hc : c'
  · rw [if_pos hc, if_pos (h.mpr hc)]
    exact hc
  · rw [if_neg hc, if_neg fun h' => hc (h.mp h')]
    rfl

theorem runH_bind_ok {α β : Type} {m : HM α} {f : α → HM β} {h : Heap} {a : α} (hm : runH m h = (.ok a, h)) :
    runH (m >>= f) h = runH (f a) h := by
  rw [runH_bind, hm]

theorem sim_pureL {α α' β : Type} {n : Nat} {m : HM α} {f : α → HM α'} {h : Heap} {a : α} {e : M β} {R : Heap → α' → β → Prop}
    (hm : runH m h = (.ok a, h)) (hf : Sim n (f a) h e R) : Sim n (m >>= f) h e R := by
  unfold Sim
  rw [runH_bind_ok hm]
  exact hf

theorem forall₂_nums {encF : F → List Int} {encV : V3 ℚ → List Int} {h : Heap} {Hs : List HOctree} {os : List (Octree F)}
    (hl : List.Forall₂ (Represents encF encV h) Hs os) {sel : HOctree → View} {f : Octree F → Nat → Nat}
    (hs : ∀ H o, Represents encF encV h H o → h.read (sel H) = column ((List.range (o.depth + 1)).map fun d => (f o d : Int))) :
    (Hs.map sel).map (fun v => flat (h.read v)) = os.map fun o => (List.range (o.depth + 1)).map fun d => (f o d : Int) := by
  induction hl with
  | nil => rfl
  | cons h1 h2 ih =>
    simp only [List.map_cons, ih, hs _ _ h1, flat_column]

theorem sim_merge {encF : F → List Int} {encV : V3 ℚ → List Int} {h : Heap} {Hs : List HOctree} {os : List (Octree F)}
    (hl : List.Forall₂ (Represents encF encV h) Hs os) (hlen : os.length ≤ 2 ^ 15) :
    Sim h.next (HOctree.merge Hs) h (Octree.merge os)
      (fun h1 H o => Represents encF encV h1 H o ∧ ∀ v, Owns H v → h.next ≤ v.sid) := by
  unfold HOctree.merge Octree.merge
  refine sim_bind (R := fun h1 H o => h1 = h ∧ Represents encF encV h H o ∧ os = o :: os.drop 1) (sim_lift ?_) ?_
  · cases hl with
    | nil => rfl
    | cons h1 h2 =>
      rw [getIdx_head, getIdx_head]
      exact ⟨rfl, h1, rfl⟩
  rintro H0 o0 h1 _ ⟨rfl, hr0, hos⟩
  have hP : (∀ o ∈ Hs.drop 1, o.depth = H0.depth ∧ o.fullDepth = H0.fullDepth ∧ o.device = H0.device) ↔
      (∀ o ∈ os.drop 1, o.depth = o0.depth ∧ o.fullDepth = o0.fullDepth ∧ o.device = o0.device) := by
    clear hos
    cases hl with
    | nil => simp
    | @cons _ _ Hs os _ h2 =>
      simp only [List.drop_succ_cons, List.drop_zero]
      rw [hr0.depth, hr0.fullDepth, hr0.device]
      clear hlen
      induction h2 with
      | nil => simp
      | cons a b ih => simp only [List.forall_mem_cons, a.depth, a.fullDepth, a.device, ih]
  refine sim_bind (R := fun h2 _ _ => h2 = h1 ∧
    ∀ o ∈ os.drop 1, o.depth = o0.depth ∧ o.fullDepth = o0.fullDepth ∧ o.device = o0.device)
    (sim_lift (match_mono (match_assert hP) fun _ _ h => ⟨rfl, h⟩)) ?_
  rintro _ _ h2 _ ⟨rfl, hp⟩
  have hD : ∀ o ∈ os, o.depth = o0.depth := by
    intro o ho
    rw [hos] at ho
    rcases List.mem_cons.mp ho with rfl | ho
    · rfl
    · exact (hp o ho).1
  have hlen' : ¬ (2 ^ 15 < os.length) := by omega
  simp only [if_neg hlen', pure_bind]
  refine sim_pureL (runH_readNums _ _) (sim_pureL (runH_readNums _ _) ?_)
  rw [forall₂_nums hl (f := Octree.nnum) (fun H o hr => hr.nnum.2),
    forall₂_nums hl (f := Octree.nnumNempty) (fun H o hr => hr.nnumNempty.2)]
  rw [hr0.depth, stackNum_eq os o0.depth Octree.nnum hD, stackNum_eq os o0.depth Octree.nnumNempty hD]
  refine sim_allocL (le_refl _) ?_
  intro bn h3 he3 hbn fbn
  refine sim_allocL he3.next ?_
  intro bn' h4 he4 hbn' fbn'
  have he04 := he3.trans (he4.mono he3.next)
  refine sim_allocL he04.next ?_
  intro n h5 he5 hn fn
  have he05 := he04.trans (he5.mono he04.next)
  refine sim_allocL he05.next ?_
  intro n' h6 he6 hn' fn'
  have he06 := he05.trans (he6.mono he05.next)
  have he46 := he5.trans (he6.mono he5.next)
  have he36 := he4.trans (he46.mono he4.next)
  have hlen2 : Hs.length = os.length := hl.length_eq
  refine (sim_foldlM (R := fun h7 H o => Ext h2.next h2 h7 ∧ Represents encF encV h7 H o ∧ (∀ v, Owns H v → h2.next ≤ v.sid) ∧
      o.depth = o0.depth ∧ o.batchNnumNempty = fun d => os.map fun o => o.nnumNempty d) (List.range (o0.depth + 1)) ?_ h6 _ _
      he06.next ?_).mono (le_refl _) ?_
  · rintro d hd h7 H o hn7 ⟨he7, hr7, hown, hdep, hb⟩
    have hd' : d < o0.depth + 1 := by simpa using hd
    refine (sim_mergeStep hl he7 hr7 hown (fun o ho => by rw [hD o ho]; omega) _ ?_).mono (le_refl _) ?_
    · rw [hb, List.map_map, List.getElem?_map, List.getElem?_range hd']
      simp only [Option.map_some, Option.getD_some, Function.comp_apply, HOctree.cumRow]
      rw [← cumsum_cast, List.map_map]
      rfl
    · rintro h8 H' o' _ ⟨g1, g2, g3, g4, g5⟩
      exact ⟨g1, g2, g3, g4.trans hdep, g5.trans hb⟩
  · refine ⟨he06, ?_, ?_, rfl, rfl⟩
    · refine { depth := rfl, fullDepth := hr0.fullDepth, batchSize := hlen2, device := hr0.device,
               keys := fun _ _ => trivial, children := fun _ _ => trivial, neighs := fun _ _ => trivial,
               features := fun _ _ => trivial, normals := fun _ _ => trivial, points := fun _ _ => trivial,
               nnum := ?_, nnumNempty := ?_, batchNnum := ?_, batchNnumNempty := ?_ }
      · refine (fn.ext he6 fn.live).holds ?_
        unfold column
        rw [List.map_map, List.map_map]
        apply List.map_congr_left
        intro d _
        simp only [Function.comp_apply, Octree.new]
        rw [← sum_cast, List.map_map]
        rfl
      · refine fn'.holds ?_
        unfold column
        rw [List.map_map, List.map_map]
        apply List.map_congr_left
        intro d _
        simp only [Function.comp_apply, Octree.new]
        rw [← sum_cast, List.map_map]
        rfl
      · refine (fbn.ext he36 fbn.live).holds ?_
        apply List.map_congr_left
        intro d _
        rw [List.map_map]
        rfl
      · refine (fbn'.ext he46 fbn'.live).holds ?_
        apply List.map_congr_left
        intro d _
        rw [List.map_map]
        rfl
    · intro v hv
      cases hv with
      | keys d hk => cases hk
      | children d hk => cases hk
      | neighs d hk => cases hk
      | features d hk => cases hk
      | normals d hk => cases hk
      | points d hk => cases hk
      | nnum hk => subst hk; simp only [hn]; exact he04.next
      | nnumNempty hk => subst hk; simp only [hn']; exact he05.next
      | batchNnum hk => subst hk; simp only [hbn]; exact le_refl _
      | batchNnumNempty hk => subst hk; simp only [hbn']; exact he3.next
  · rintro h7 H o _ ⟨_, g2, g3, _, _⟩
    exact ⟨g2, g3⟩

end Ocnn
