import Verif.Heap
import Verif.SortLemmas

/-! Reasoning about computations on the heap of tensors. -/

set_option linter.unusedSimpArgs false

namespace Ocnn

/-- Result and final heap of a computation. -/
def runH {α : Type} (m : HM α) (h : Heap) : M α × Heap := StateT.run (ExceptT.run m) h

theorem runH_pure {α : Type} (a : α) (h : Heap) : runH (pure a : HM α) h = (.ok a, h) := rfl
theorem runH_throw {α : Type} (e : Err) (h : Heap) : runH (throw e : HM α) h = (.error e, h) := rfl
theorem runH_liftE {α : Type} (m : M α) (h : Heap) : runH (liftE m) h = (m, h) := rfl
theorem runH_readV (v : View) (h : Heap) : runH (readV v) h = (.ok (h.read v), h) := rfl
theorem runH_alloc (rows : List (List Int)) (h : Heap) : runH (alloc rows) h =
    (.ok ⟨h.next, List.range rows.length⟩, { next := h.next + 1, mem := fun s => if s = h.next then rows else h.mem s }) := rfl
theorem runH_writeV (v : View) (rows : List (List Int)) (h : Heap) : runH (writeV v rows) h =
    (.ok (), { next := h.next, mem := fun s => if s = v.sid then setMany (h.mem s) (v.pos.zip rows) else h.mem s }) := rfl

theorem runH_bind {α β : Type} (m : HM α) (f : α → HM β) (h : Heap) : runH (m >>= f) h =
    match runH m h with
    | (.ok a, h') => runH (f a) h'
    | (.error e, h') => (.error e, h') := by
  have h1 : ∀ p : M α × Heap, (ExceptT.bindCont f p.1 : StateM Heap (M β)) p.2 =
      (match p with
      | (.ok a, h') => runH (f a) h'
      | (.error e, h') => (.error e, h') : M β × Heap) := by
    rintro ⟨r, h'⟩
    cases r <;> rfl
  exact h1 (runH m h)

/-- The storages below `n` are the same. -/
structure Ext (n : Nat) (h h' : Heap) : Prop where
  next : h.next ≤ h'.next
  mem : ∀ s, s < n → h'.mem s = h.mem s

theorem Ext.refl (n : Nat) (h : Heap) : Ext n h h := ⟨le_refl _, fun _ _ => rfl⟩

theorem Ext.trans {n : Nat} {h h1 h2 : Heap} (a : Ext n h h1) (b : Ext n h1 h2) : Ext n h h2 :=
  ⟨a.next.trans b.next, fun s hs => (b.mem s hs).trans (a.mem s hs)⟩

theorem Ext.mono {n n' : Nat} {h h1 : Heap} (a : Ext n h h1) (hn : n' ≤ n) : Ext n' h h1 :=
  ⟨a.next, fun s hs => a.mem s (lt_of_lt_of_le hs hn)⟩

theorem Ext.read {n : Nat} {h h1 : Heap} (a : Ext n h h1) (v : View) (hv : v.sid < n) : h1.read v = h.read v := by
  unfold Heap.read
  rw [a.mem _ hv]

/-- Both results are errors of the same kind, or both are values, related by `R`. -/
def Match {α β : Type} (R : α → β → Prop) : M α → M β → Prop
  | .ok a, .ok b => R a b
  | .error x, .error y => x = y
  | _, _ => False

/-- The computation `m` started on `h` does not touch the storages below `n` and gives the same result as `e`. -/
def Sim {α β : Type} (n : Nat) (m : HM α) (h : Heap) (e : M β) (R : Heap → α → β → Prop) : Prop :=
  Ext n h (runH m h).2 ∧ Match (R (runH m h).2) (runH m h).1 e

theorem Sim.mono {α β : Type} {n n' : Nat} {m : HM α} {h : Heap} {e : M β} {R R' : Heap → α → β → Prop}
    (hs : Sim n m h e R) (hn : n' ≤ n) (hR : ∀ h1 a b, Ext n h h1 → R h1 a b → R' h1 a b) : Sim n' m h e R' := by
  obtain ⟨h1, h2⟩ := hs
  refine ⟨h1.mono hn, ?_⟩
  revert h2
  rcases hr : (runH m h).1 with x | a <;> rcases e with y | b <;> intro h2 <;> try exact h2
  exact hR _ _ _ h1 h2

theorem sim_pure {α β : Type} {n : Nat} {a : α} {h : Heap} {b : β} {R : Heap → α → β → Prop} (hR : R h a b) :
    Sim n (pure a) h (pure b) R := ⟨Ext.refl _ _, hR⟩

theorem sim_throw {α β : Type} {n : Nat} {x : Err} {h : Heap} {R : Heap → α → β → Prop} :
    Sim n (throw x : HM α) h (.error x) R := ⟨Ext.refl _ _, rfl⟩

theorem sim_lift {α β : Type} {n : Nat} {m : M α} {h : Heap} {e : M β} {R : Heap → α → β → Prop} (hR : Match (R h) m e) :
    Sim n (liftE m) h e R := ⟨Ext.refl _ _, hR⟩

theorem match_refl {α : Type} {R : α → α → Prop} {m : M α} (hR : ∀ a, m = .ok a → R a a) : Match R m m := by
  rcases m with x | a
  · rfl
  · exact hR a rfl

theorem sim_bind {α α' β β' : Type} {n : Nat} {m : HM α} {f : α → HM α'} {h : Heap} {e : M β} {g : β → M β'}
    {R : Heap → α → β → Prop} {S : Heap → α' → β' → Prop} (hm : Sim n m h e R)
    (hf : ∀ a b h1, Ext n h h1 → R h1 a b → Sim n (f a) h1 (g b) S) : Sim n (m >>= f) h (e >>= g) S := by
  obtain ⟨h1, h2⟩ := hm
  unfold Sim
  rw [runH_bind]
  rcases hr : runH m h with ⟨r, h'⟩
  rw [hr] at h1 h2
  rcases r with x | a <;> rcases e with y | b
  · exact ⟨h1, h2⟩
  · exact h2.elim
  · exact h2.elim
  · obtain ⟨h3, h4⟩ := hf a b h' h1 h2
    exact ⟨h1.trans h3, h4⟩

theorem sim_read {α β : Type} {n : Nat} {v : View} {f : List (List Int) → HM α} {h : Heap} {e : M β}
    {R : Heap → α → β → Prop} (hf : Sim n (f (h.read v)) h e R) : Sim n (readV v >>= f) h e R := by
  unfold Sim
  rw [runH_bind, runH_readV]
  exact hf

/-- A tensor that is the only one on its storage. -/
structure Full (h : Heap) (v : View) (rows : List (List Int)) : Prop where
  live : v.sid < h.next
  mem : h.mem v.sid = rows
  pos : v.pos = List.range rows.length

theorem Full.read {h : Heap} {v : View} {rows : List (List Int)} (hf : Full h v rows) : h.read v = rows := by
  unfold Heap.read
  rw [hf.mem, hf.pos]
  apply List.ext_getElem?
  intro i
  rw [List.getElem?_map]
  by_cases hi : i < rows.length
  · rw [List.getElem?_range hi]
    simp [List.getElem?_eq_getElem hi]
  · rw [List.getElem?_eq_none (by simpa using hi), List.getElem?_eq_none (by omega)]
    rfl

theorem Full.ext {n : Nat} {h h1 : Heap} {v : View} {rows : List (List Int)} (hf : Full h v rows) (he : Ext n h h1)
    (hv : v.sid < n) : Full h1 v rows :=
  ⟨lt_of_lt_of_le hf.live he.next, (he.mem _ hv).trans hf.mem, hf.pos⟩

theorem sim_allocL {α β : Type} {n : Nat} {rows : List (List Int)} {f : View → HM α} {h : Heap} {e : M β}
    {R : Heap → α → β → Prop} (hn : n ≤ h.next)
    (hf : ∀ v h1, Ext h.next h h1 → v.sid = h.next → Full h1 v rows → Sim n (f v) h1 e R) :
    Sim n (alloc rows >>= f) h e R := by
  unfold Sim
  rw [runH_bind, runH_alloc]
  have h1 : Ext h.next h { next := h.next + 1, mem := fun s => if s = h.next then rows else h.mem s } :=
    ⟨by simp, fun s hs => by simp [Nat.ne_of_lt hs]⟩
  obtain ⟨a, b⟩ := hf ⟨h.next, List.range rows.length⟩ _ h1 rfl ⟨by simp, by simp, rfl⟩
  exact ⟨(h1.mono hn).trans a, b⟩

theorem sim_alloc {β : Type} {n : Nat} {rows : List (List Int)} {h : Heap} {b : β}
    {R : Heap → View → β → Prop} (hn : n ≤ h.next)
    (hf : ∀ v h1, Ext h.next h h1 → v.sid = h.next → Full h1 v rows → R h1 v b) :
    Sim n (alloc rows) h (pure b) R := by
  have := sim_allocL (f := pure) (e := pure b) (R := R) hn (fun v h1 a b c => sim_pure (hf v h1 a b c))
  simpa using this

theorem setMany_all {α : Type} (t rows : List α) (hl : rows.length = t.length) :
    setMany t ((List.range t.length).zip rows) = rows := by
  apply List.ext_getElem?
  intro i
  by_cases hi : i < t.length
  · rw [setMany_mem t _ ?_ i (rows[i]'(by omega)) ?_ hi, List.getElem?_eq_getElem]
    · rw [List.map_fst_zip (by simp [hl])]
      exact List.nodup_range
    · rw [List.mem_iff_getElem?]
      refine ⟨i, ?_⟩
      rw [List.getElem?_zip_eq_some]
      exact ⟨List.getElem?_range hi, List.getElem?_eq_getElem _⟩
  · rw [List.getElem?_eq_none (by rw [setMany_length]; omega), List.getElem?_eq_none (by omega)]

theorem sim_writeL {α β : Type} {n : Nat} {v : View} {old rows : List (List Int)} {f : Unit → HM α} {h : Heap} {e : M β}
    {R : Heap → α → β → Prop} (hn : n ≤ v.sid) (ho : Full h v old) (hl : rows.length = old.length)
    (hf : ∀ h1, Ext v.sid h h1 → h1.next = h.next → (∀ s, s ≠ v.sid → h1.mem s = h.mem s) → Full h1 v rows →
      Sim n (f ()) h1 e R) :
    Sim n (writeV v rows >>= f) h e R := by
  unfold Sim
  rw [runH_bind, runH_writeV]
  have h1 : Ext v.sid h { next := h.next, mem := fun s => if s = v.sid then setMany (h.mem s) (v.pos.zip rows) else h.mem s } :=
    ⟨le_refl _, fun s hs => by simp [Nat.ne_of_lt hs]⟩
  obtain ⟨a, b⟩ := hf _ h1 rfl (fun s hs => by simp [hs]) ⟨ho.live, by
    simp only [if_true]
    rw [ho.mem, ho.pos, setMany_all _ _ hl], by rw [ho.pos, hl]⟩
  exact ⟨(h1.mono hn).trans a, b⟩

theorem sim_if {α β : Type} {n : Nat} {c : Prop} [Decidable c] {m m' : HM α} {h : Heap} {e e' : M β}
    {R : Heap → α → β → Prop} (h1 : c → Sim n m h e R) (h2 : ¬ c → Sim n m' h e' R) :
    Sim n (if c then m else m') h (if c then e else e') R := by
  split <;> rename_i hc
  · exact h1 hc
  · exact h2 hc

/-- A loop collecting results, started afresh on the heap left by the previous round. -/
theorem sim_mapM {ι κ α β : Type} (I : ι → κ → Prop) {f : ι → HM α} {g : κ → M β} (R : Heap → α → β → Prop) (h0 : Heap)
    (hR : ∀ h h1 a b, Ext h.next h h1 → R h a b → R h1 a b)
    (hf : ∀ i k h, Ext h0.next h0 h → I i k → Sim h.next (f i) h (g k) R) :
    ∀ (l : List ι) (l' : List κ), List.Forall₂ I l l' → ∀ h, Ext h0.next h0 h →
      Sim h.next (l.mapM f) h (l'.mapM g) (fun h1 as bs => List.Forall₂ (R h1) as bs) := by
  intro l l' hl
  induction hl with
  | nil => intro h _; simp only [List.mapM_nil]; exact sim_pure .nil
  | @cons i k l l' hi hl ih =>
    intro h hh
    simp only [List.mapM_cons]
    refine sim_bind (hf i k h hh hi) ?_
    intro a b h1 he hab
    refine sim_bind ((ih h1 (hh.trans (he.mono hh.next))).mono he.next (R' := fun h2 as bs => List.Forall₂ (R h2) as bs ∧ R h2 a b)
      (fun h2 as bs he2 hr => ⟨hr, hR _ _ _ _ he2 hab⟩)) ?_
    intro as bs h2 _ hr
    exact sim_pure (.cons hr.2 hr.1)

end Ocnn
