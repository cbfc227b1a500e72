import Verif.NetMemory
import Verif.NetRel

/-! The forward passes on references compute what the forward passes on values compute, keep the memory that was there before, and do not
change what is saved for the backward pass. -/

namespace Ocnn
namespace Mem
variable {F : Type}

/-- Everything saved for the backward pass is there at the version at which it was saved. -/
def Store.Current (m : Store) : Prop := ∀ p ∈ m.saved, (m.slots[p.1]?).map Slot.version = some p.2

/-- The tensor at reference `r` is `t`. -/
def Store.Has (m : Store) (r : Nat) (t : Tensor) : Prop := (m.slots[r]?).map Slot.value = some t

/-- `m'` contains the memory `m` unchanged. -/
def Keeps (m m' : Store) : Prop := m.slots <+: m'.slots

theorem Keeps.refl (m : Store) : Keeps m m := List.prefix_refl _

theorem Keeps.trans {a b c : Store} (h : Keeps a b) (h' : Keeps b c) : Keeps a c := List.IsPrefix.trans h h'

theorem Keeps.get {m m' : Store} (h : Keeps m m') {r : Nat} {c : Slot} (hc : m.slots[r]? = some c) : m'.slots[r]? = some c := by
  obtain ⟨l, hl⟩ := h
  rw [← hl, List.getElem?_append_left (List.getElem?_eq_some_iff.mp hc).1]
  exact hc

theorem Keeps.has {m m' : Store} (h : Keeps m m') {r : Nat} {t : Tensor} (hr : m.Has r t) : m'.Has r t := by
  unfold Store.Has at hr ⊢
  cases hc : m.slots[r]? with
  | none => rw [hc] at hr; simp at hr
  | some c => rw [h.get hc, ← hc]; exact hr

theorem Store.Has.slot {m : Store} {r : Nat} {t : Tensor} (h : m.Has r t) : ∃ v, m.slots[r]? = some ⟨t, v⟩ := by
  unfold Store.Has at h
  cases hc : m.slots[r]? with
  | none => rw [hc] at h; simp at h
  | some c =>
    rw [hc] at h
    obtain ⟨t', v⟩ := c
    have : t' = t := by simpa using h
    exact ⟨v, by rw [this]⟩

/-- The outcome `out` of a computation started in the memory `m` agrees with the outcome `x` of the computation with values: `V` relates the
results, the exceptions are the same, the memory `m` is kept and what is saved stays current. -/
structure Outcome {α β : Type} (V : Store → α → β → Prop) (m : Store) (out : M α × Store) (x : M β) : Prop where
  keeps : Keeps m out.2
  current : m.Current → out.2.Current
  val : (∃ a b, out.1 = .ok a ∧ x = .ok b ∧ V out.2 a b) ∨ ∃ e, out.1 = .error e ∧ x = .error e

/-- Equal results. -/
def Same {α : Type} : Store → α → α → Prop := fun _ a b => a = b

/-- A reference to a tensor. -/
def Ref : Store → Nat → Tensor → Prop := fun m r t => m.Has r t

/-- A list of references to tensors. -/
def Refs : Store → List Nat → List Tensor → Prop := fun m rs ts => List.Forall₂ m.Has rs ts

/-- A dictionary of references to tensors. -/
def Dict : Store → (Nat → Option Nat) → (Nat → Option Tensor) → Prop := fun m f g =>
  ∀ k, (f k = none ∧ g k = none) ∨ ∃ r t, f k = some r ∧ g k = some t ∧ m.Has r t

theorem Keeps.refs {m m' : Store} (h : Keeps m m') {rs : List Nat} {ts : List Tensor} (hr : Refs m rs ts) : Refs m' rs ts :=
  List.Forall₂.imp (fun _ _ => h.has) hr

theorem Keeps.dict {m m' : Store} (h : Keeps m m') {f : Nat → Option Nat} {g : Nat → Option Tensor} (hr : Dict m f g) : Dict m' f g := by
  intro k
  rcases hr k with h' | ⟨r, t, h1, h2, h3⟩
  · exact .inl h'
  · exact .inr ⟨r, t, h1, h2, h.has h3⟩

section
variable {α β γ δ : Type} {V : Store → α → β → Prop} {W : Store → γ → δ → Prop} {m : Store}

theorem Outcome.pure {a : α} {b : β} (h : V m a b) : Outcome V m ((pure a : Prog α) m) (pure b) :=
  ⟨Keeps.refl m, id, .inl ⟨a, b, rfl, rfl, h⟩⟩

theorem Outcome.lift (x : M α) : Outcome Same m (lift x m) x := by
  refine ⟨Keeps.refl m, id, ?_⟩
  cases x with
  | ok a => exact .inl ⟨a, a, rfl, rfl, rfl⟩
  | error e => exact .inr ⟨e, rfl, rfl⟩

theorem Outcome.bind {p : Prog α} {q : α → Prog γ} {x : M β} {g : β → M δ} (h : Outcome V m (p m) x)
    (k : ∀ a b m', Keeps m m' → V m' a b → Outcome W m' (q a m') (g b)) : Outcome W m ((p >>= q) m) (x >>= g) := by
  obtain ⟨h1, h2, h3⟩ := h
  show Outcome W m (match p m with
    | (.ok a, m') => q a m'
    | (.error e, m') => (.error e, m')) _
  cases hp : p m with
  | mk res m' =>
    rw [hp] at h1 h2 h3
    rcases h3 with ⟨a, b, ha, hb, hV⟩ | ⟨e, he, hx⟩
    · dsimp only at ha hV
      subst ha
      subst hb
      have h4 := k a b m' h1 hV
      exact ⟨h1.trans h4.keeps, fun hm => h4.current (h2 hm), h4.val⟩
    · dsimp only at he
      subst he
      subst hx
      exact ⟨h1, h2, .inr ⟨e, rfl, rfl⟩⟩

/-- The results of the first computation need not be related to anything else. -/
theorem Outcome.bindSame {p : Prog α} {q : α → Prog γ} {x : M α} {g : α → M δ} (h : Outcome Same m (p m) x)
    (k : ∀ a m', Keeps m m' → Outcome W m' (q a m') (g a)) : Outcome W m ((p >>= q) m) (x >>= g) :=
  h.bind fun a b m' hk hs => by
    have : a = b := hs
    subst this
    exact k a m' hk

theorem Outcome.ite (c : Prop) [Decidable c] {p q : Prog α} {x y : M β} (hp : c → Outcome V m (p m) x) (hq : ¬c → Outcome V m (q m) y) :
    Outcome V m ((if c then p else q) m) (if c then x else y) := by
  by_cases h : c
  · rw [if_pos h, if_pos h]; exact hp h
  · rw [if_neg h, if_neg h]; exact hq h

/-- An `if` that raises. -/
theorem Outcome.guard (c : Prop) [Decidable c] (e : Err) {q : Unit → Prog γ} {g : Unit → M δ} (k : Outcome W m (q () m) (g ())) :
    Outcome W m ((Mem.lift (if c then .error e else Pure.pure () : M Unit) >>= q) m)
      (if c then (Except.error e : M Unit) >>= g else g ()) := by
  by_cases h : c
  · rw [if_pos h, if_pos h]
    exact ⟨Keeps.refl m, id, .inr ⟨e, rfl, rfl⟩⟩
  · rw [if_neg h, if_neg h]
    exact k

theorem outcome_foldlM {ι : Type} {f : α → ι → Prog α} {g : β → ι → M β} (l : List ι) {a : α} {b : β} (hV : V m a b)
    (step : ∀ i ∈ l, ∀ a b m', Keeps m m' → V m' a b → Outcome V m' (f a i m') (g b i)) :
    Outcome V m (l.foldlM f a m) (l.foldlM g b) := by
  suffices h : ∀ (m' : Store) (a : α) (b : β), Keeps m m' → V m' a b → Outcome V m' (l.foldlM f a m') (l.foldlM g b) from
    h m a b (Keeps.refl m) hV
  clear hV a b
  induction l with
  | nil => exact fun m' a b _ hV => Outcome.pure hV
  | cons i l ih =>
    intro m' a b hk hV
    show Outcome V m' ((f a i >>= fun a => l.foldlM f a) m') (g b i >>= fun b => l.foldlM g b)
    exact (step i (by simp) a b m' hk hV).bind fun a' b' m'' hk' hV' =>
      ih (fun j hj => step j (by simp [hj])) m'' a' b' (hk.trans hk') hV'
end

instance : LawfulMonad Prog := LawfulMonad.mk'
  (id_map := fun p => by
    funext m
    show (match p m with
      | (.ok a, m') => (.ok (id a), m')
      | (.error e, m') => (.error e, m')) = p m
    cases h : p m with
    | mk r m' => cases r <;> rfl)
  (pure_bind := fun a f => rfl)
  (bind_assoc := fun p f g => by
    funext m
    show (match (match p m with
      | (.ok a, m') => f a m'
      | (.error e, m') => (.error e, m')) with
      | (.ok a, m') => g a m'
      | (.error e, m') => (.error e, m')) = (match p m with
      | (.ok a, m') => (match f a m' with
        | (.ok a, m') => g a m'
        | (.error e, m') => (.error e, m'))
      | (.error e, m') => (.error e, m'))
    cases h : p m with
    | mk r m' => cases r <;> rfl)

theorem bind_ok {α β : Type} {p : Prog α} {q : α → Prog β} {m m' : Store} {a : α} (h : p m = (.ok a, m')) : (p >>= q) m = q a m' := by
  show (match p m with
    | (.ok a, m') => q a m'
    | (.error e, m') => (.error e, m')) = _
  rw [h]

theorem bind_error {α β : Type} {p : Prog α} {q : α → Prog β} {m m' : Store} {e : Err} (h : p m = (.error e, m')) :
    (p >>= q) m = (.error e, m') := by
  show (match p m with
    | (.ok a, m') => q a m'
    | (.error e, m') => (.error e, m')) = _
  rw [h]

theorem read_run {m : Store} {r : Nat} {c : Slot} (h : m.slots[r]? = some c) : read r m = (.ok c.value, m) := by
  unfold read; rw [h]

theorem save_run {m : Store} {r : Nat} {c : Slot} (h : m.slots[r]? = some c) :
    save r m = (.ok (), ⟨m.slots, m.saved ++ [(r, c.version)]⟩) := by
  unfold save; rw [h]

theorem write_run {m : Store} {r : Nat} {c : Slot} (t : Tensor) (h : m.slots[r]? = some c) :
    write r t m = (.ok (), ⟨m.slots.set r ⟨t, c.version + 1⟩, m.saved⟩) := by
  unfold write; rw [h]

theorem outcome_mapM {ι : Type} {f : ι → Prog Nat} {g : ι → M Tensor} {m : Store} (l : List ι)
    (step : ∀ i ∈ l, ∀ m', Keeps m m' → Outcome Ref m' (f i m') (g i)) : Outcome Refs m (l.mapM f m) (l.mapM g) := by
  suffices h : ∀ (m' : Store), Keeps m m' → Outcome Refs m' (l.mapM f m') (l.mapM g) from h m (Keeps.refl m)
  induction l with
  | nil => exact fun m' _ => by rw [List.mapM_nil, List.mapM_nil]; exact Outcome.pure List.Forall₂.nil
  | cons i l ih =>
    intro m' hk
    rw [List.mapM_cons, List.mapM_cons]
    refine (step i (by simp) m' hk).bind fun a b m'' hk' hV => ?_
    refine (ih (fun j hj => step j (by simp [hj])) m'' (hk.trans hk')).bind fun as bs m3 hk3 hVs => ?_
    exact Outcome.pure (List.Forall₂.cons (hk3.has hV) hVs)

/-! ### The operations -/

/-- The result of a computation is new memory that is not saved yet. -/
def New (m : Store) (out : M Nat × Store) : Prop :=
  ∀ r, out.1 = .ok r → m.slots.length ≤ r ∧ (m.Current → ∀ p ∈ out.2.saved, p.1 ≠ r)

section
variable {m : Store}

theorem saved_lt (hm : m.Current) {p : Nat × Nat} (hp : p ∈ m.saved) : p.1 < m.slots.length := by
  have := hm p hp
  cases hc : m.slots[p.1]? with
  | none => rw [hc] at this; simp at this
  | some c => exact (List.getElem?_eq_some_iff.mp hc).1

theorem current_snoc (hm : m.Current) (c : Slot) : Store.Current ⟨m.slots ++ [c], m.saved⟩ := by
  intro p hp
  show ((m.slots ++ [c])[p.1]?).map Slot.version = _
  rw [List.getElem?_append_left (saved_lt hm hp)]
  exact hm p hp

theorem current_save (hm : m.Current) {r : Nat} {c : Slot} (hc : m.slots[r]? = some c) :
    Store.Current ⟨m.slots, m.saved ++ [(r, c.version)]⟩ := by
  intro p hp
  rcases List.mem_append.mp hp with hp | hp
  · exact hm p hp
  · rw [List.mem_singleton] at hp
    subst hp
    show (m.slots[r]?).map Slot.version = _
    rw [hc]
    rfl

theorem op_run (f : Tensor → M Tensor) {r : Nat} {t : Tensor} {v : Nat} (hr : m.slots[r]? = some ⟨t, v⟩) :
    op f r m = match f t with
      | .ok y => (.ok m.slots.length, ⟨m.slots ++ [⟨y, 0⟩], m.saved ++ [(r, v)]⟩)
      | .error e => (.error e, m) := by
  unfold op
  rw [bind_ok (read_run hr)]
  cases hf : f t with
  | error e => exact bind_error rfl
  | ok y =>
    rw [bind_ok (show lift (Except.ok y : M Tensor) m = (.ok y, m) from rfl), bind_ok (save_run hr)]
    rfl

theorem op_outcome (f : Tensor → M Tensor) {r : Nat} {t : Tensor} (hr : m.Has r t) :
    Outcome Ref m (op f r m) (f t) ∧ New m (op f r m) := by
  obtain ⟨v, hs⟩ := hr.slot
  rw [op_run f hs]
  cases f t with
  | error e => exact ⟨⟨Keeps.refl m, id, .inr ⟨e, rfl, rfl⟩⟩, fun r hr => by cases hr⟩
  | ok y =>
    refine ⟨⟨⟨_, rfl⟩, fun hm => ?_, .inl ⟨_, y, rfl, rfl, ?_⟩⟩, fun s hs' => ?_⟩
    · exact current_snoc (m := ⟨m.slots, m.saved ++ [(r, v)]⟩) (current_save hm hs) _
    · show ((m.slots ++ [⟨y, 0⟩])[m.slots.length]?).map Slot.value = some y
      simp
    · cases hs'
      refine ⟨le_refl _, fun hm p hp => ?_⟩
      rcases List.mem_append.mp hp with hp | hp
      · exact (saved_lt hm hp).ne
      · rw [List.mem_singleton] at hp
        subst hp
        exact (List.getElem?_eq_some_iff.mp hs).1.ne

theorem op2_run (f : Tensor → Tensor → M Tensor) {r s : Nat} {t u : Tensor} {v w : Nat} (hr : m.slots[r]? = some ⟨t, v⟩)
    (hs : m.slots[s]? = some ⟨u, w⟩) :
    op2 f r s m = match f t u with
      | .ok y => (.ok m.slots.length, ⟨m.slots ++ [⟨y, 0⟩], m.saved ++ [(r, v)] ++ [(s, w)]⟩)
      | .error e => (.error e, m) := by
  unfold op2
  rw [bind_ok (read_run hr), bind_ok (read_run hs)]
  cases hf : f t u with
  | error e => exact bind_error rfl
  | ok y =>
    rw [bind_ok (show lift (Except.ok y : M Tensor) m = (.ok y, m) from rfl), bind_ok (save_run hr),
      bind_ok (save_run (m := ⟨m.slots, m.saved ++ [(r, v)]⟩) hs)]
    rfl

theorem op2_outcome (f : Tensor → Tensor → M Tensor) {r s : Nat} {t u : Tensor} (hr : m.Has r t) (hs : m.Has s u) :
    Outcome Ref m (op2 f r s m) (f t u) ∧ New m (op2 f r s m) := by
  obtain ⟨v, hs1⟩ := hr.slot
  obtain ⟨w, hs2⟩ := hs.slot
  rw [op2_run f hs1 hs2]
  cases f t u with
  | error e => exact ⟨⟨Keeps.refl m, id, .inr ⟨e, rfl, rfl⟩⟩, fun r hr => by cases hr⟩
  | ok y =>
    refine ⟨⟨⟨_, rfl⟩, fun hm => ?_, .inl ⟨_, y, rfl, rfl, ?_⟩⟩, fun s' hs' => ?_⟩
    · refine current_snoc (m := ⟨m.slots, m.saved ++ [(r, v)] ++ [(s, w)]⟩) ?_ _
      exact current_save (m := ⟨m.slots, m.saved ++ [(r, v)]⟩) (current_save hm hs1) hs2
    · show ((m.slots ++ [⟨y, 0⟩])[m.slots.length]?).map Slot.value = some y
      simp
    · cases hs'
      refine ⟨le_refl _, fun hm p hp => ?_⟩
      rcases List.mem_append.mp hp with hp | hp
      · rcases List.mem_append.mp hp with hp | hp
        · exact (saved_lt hm hp).ne
        · rw [List.mem_singleton] at hp
          subst hp
          exact (List.getElem?_eq_some_iff.mp hs1).1.ne
      · rw [List.mem_singleton] at hp
        subst hp
        exact (List.getElem?_eq_some_iff.mp hs2).1.ne

theorem read_list {rs : List Nat} {ts : List Tensor} (h : Refs m rs ts) : rs.mapM read m = (.ok ts, m) := by
  induction h with
  | nil => rw [List.mapM_nil]; rfl
  | @cons r t rs ts hr _ ih =>
    rw [List.mapM_cons]
    obtain ⟨v, hv⟩ := hr.slot
    rw [bind_ok (read_run hv), bind_ok ih]
    rfl

theorem save_list {rs : List Nat} {ts : List Tensor} (h : Refs m rs ts) :
    ∃ s, rs.forM save m = (.ok (), ⟨m.slots, m.saved ++ s⟩) ∧ (m.Current → Store.Current ⟨m.slots, m.saved ++ s⟩) := by
  suffices h : ∀ sv, ∃ s, rs.forM save ⟨m.slots, sv⟩ = (.ok (), ⟨m.slots, sv ++ s⟩) ∧
      (Store.Current ⟨m.slots, sv⟩ → Store.Current ⟨m.slots, sv ++ s⟩) from h m.saved
  induction h with
  | nil => exact fun sv => ⟨[], by rw [List.append_nil]; rfl, by rw [List.append_nil]; exact id⟩
  | @cons r t rs ts hr _ ih =>
    intro sv
    obtain ⟨v, hv⟩ := hr.slot
    obtain ⟨s, h1, h2⟩ := ih (sv ++ [(r, v)])
    refine ⟨(r, v) :: s, ?_, fun hm => ?_⟩
    · show (save r >>= fun _ => rs.forM save) ⟨m.slots, sv⟩ = _
      rw [bind_ok (save_run (m := ⟨m.slots, sv⟩) hv)]
      show rs.forM save ⟨m.slots, sv ++ [(r, v)]⟩ = _
      rw [h1, List.append_assoc]
      rfl
    · have := h2 (current_save (m := ⟨m.slots, sv⟩) hm hv)
      rw [List.append_assoc] at this
      exact this

theorem opList_outcome (f : List Tensor → M Tensor) {rs : List Nat} {ts : List Tensor} (h : Refs m rs ts) :
    Outcome Ref m (opList f rs m) (f ts) := by
  unfold opList
  rw [bind_ok (read_list h)]
  cases hf : f ts with
  | error e =>
    rw [bind_error (show lift (Except.error e : M Tensor) m = (.error e, m) from rfl)]
    exact ⟨Keeps.refl m, id, .inr ⟨e, rfl, rfl⟩⟩
  | ok y =>
    obtain ⟨s, h1, h2⟩ := save_list h
    rw [bind_ok (show lift (Except.ok y : M Tensor) m = (.ok y, m) from rfl), bind_ok h1]
    refine ⟨⟨_, rfl⟩, fun hm => current_snoc (m := ⟨m.slots, m.saved ++ s⟩) (h2 hm) _, .inl ⟨_, y, rfl, rfl, ?_⟩⟩
    show ((m.slots ++ [⟨y, 0⟩])[m.slots.length]?).map Slot.value = some y
    simp

theorem tanh_outcome (P : Params) {r : Nat} {t : Tensor} (hr : m.Has r t) :
    Outcome Ref m (tanhN P r m) (pure (tanhT P t)) := by
  obtain ⟨v, hs⟩ := hr.slot
  have e2 : tanhN P r m = (.ok m.slots.length, ⟨m.slots ++ [⟨tanhT P t, 0⟩], m.saved ++ [(m.slots.length, 0)]⟩) := by
    unfold tanhN
    rw [bind_ok (read_run hs), bind_ok (show alloc (tanhT P t) m = (.ok m.slots.length, ⟨m.slots ++ [⟨tanhT P t, 0⟩], m.saved⟩) from rfl)]
    have e4 : (Store.mk (m.slots ++ [⟨tanhT P t, 0⟩]) m.saved).slots[m.slots.length]? = some ⟨tanhT P t, 0⟩ := by
      dsimp only
      simp
    rw [bind_ok (save_run e4)]
    rfl
  rw [e2]
  have e3 : (m.slots ++ [⟨tanhT P t, 0⟩])[m.slots.length]? = some ⟨tanhT P t, 0⟩ := by simp
  refine ⟨⟨_, rfl⟩, fun hm => ?_, .inl ⟨_, _, rfl, rfl, ?_⟩⟩
  · exact current_save (m := ⟨m.slots ++ [⟨tanhT P t, 0⟩], m.saved⟩) (current_snoc hm _) e3
  · show ((m.slots ++ [⟨tanhT P t, 0⟩])[m.slots.length]?).map Slot.value = _
    rw [e3]
    rfl
end

/-! ### In-place operations on new memory -/

/-- Overwriting memory that is newer than `m` and not saved. -/
theorem write_new {m m' : Store} {r : Nat} {c c' : Slot} (hk : Keeps m m') (hr : m'.slots[r]? = some c) (hn : m.slots.length ≤ r) :
    Keeps m ⟨m'.slots.set r c', m'.saved⟩ := by
  obtain ⟨l, hl⟩ := hk
  show m.slots <+: m'.slots.set r c'
  rw [← hl, List.set_append_right _ _ hn]
  exact ⟨_, rfl⟩

theorem current_write {m' : Store} {r : Nat} {c' : Slot} (hm : m'.Current) (hn : ∀ p ∈ m'.saved, p.1 ≠ r) :
    Store.Current ⟨m'.slots.set r c', m'.saved⟩ := by
  intro p hp
  show ((m'.slots.set r c')[p.1]?).map Slot.version = _
  rw [List.getElem?_set_ne (hn p hp).symm]
  exact hm p hp

theorem relu_run {m : Store} {r : Nat} {t : Tensor} {v : Nat} (hr : m.slots[r]? = some ⟨t, v⟩) :
    reluI r m = (.ok r, ⟨m.slots.set r ⟨relu t, v + 1⟩, m.saved ++ [(r, v + 1)]⟩) := by
  have e4 : (m.slots.set r ⟨relu t, v + 1⟩)[r]? = some ⟨relu t, v + 1⟩ := by
    rw [List.getElem?_set_self (List.getElem?_eq_some_iff.mp hr).1]
  unfold reluI
  rw [bind_ok (read_run hr), bind_ok (write_run _ hr), bind_ok (save_run (m := ⟨m.slots.set r ⟨relu t, v + 1⟩, m.saved⟩) e4)]
  rfl

theorem relu_outcome {m : Store} {p : Prog Nat} {x : M Tensor} (h : Outcome Ref m (p m) x ∧ New m (p m)) :
    Outcome Ref m ((p >>= reluI) m) (x >>= fun y => pure (relu y)) := by
  obtain ⟨⟨h1, h2, h3⟩, hn⟩ := h
  unfold New at hn
  cases hp : p m with
  | mk res m' =>
    rw [hp] at h1 h2 h3 hn
    rcases h3 with ⟨r, t, ha, hb, hV⟩ | ⟨e, he, hx⟩
    · dsimp only at ha hV h1 h2 hn
      subst ha
      subst hb
      obtain ⟨v, hv⟩ := Store.Has.slot hV
      obtain ⟨hn1, hn2⟩ := hn r rfl
      rw [bind_ok hp, relu_run hv]
      have e4 : (m'.slots.set r ⟨relu t, v + 1⟩)[r]? = some ⟨relu t, v + 1⟩ := by
        rw [List.getElem?_set_self (List.getElem?_eq_some_iff.mp hv).1]
      refine ⟨write_new h1 hv hn1, fun hm => ?_, .inl ⟨r, relu t, rfl, rfl, ?_⟩⟩
      · exact current_save (m := ⟨m'.slots.set r ⟨relu t, v + 1⟩, m'.saved⟩) (current_write (h2 hm) (hn2 hm)) e4
      · show ((m'.slots.set r ⟨relu t, v + 1⟩)[r]?).map Slot.value = _
        rw [e4]
        rfl
    · dsimp only at he
      subst he
      subst hx
      rw [bind_error hp]
      exact ⟨h1, h2, .inr ⟨e, rfl, rfl⟩⟩

theorem bias_run {m : Store} {r : Nat} {t : Tensor} {v : Nat} (b : Nat → ℚ) (hr : m.slots[r]? = some ⟨t, v⟩) :
    biasI b r m = (.ok r, ⟨m.slots.set r ⟨⟨t.width, t.rows.map fun w => fun i => w i + b i⟩, v + 1⟩, m.saved⟩) := by
  unfold biasI
  rw [bind_ok (read_run hr), bind_ok (write_run _ hr)]
  rfl

/-- `out += self.bias` on new memory, which stays new. -/
theorem bias_outcome {m : Store} {p : Prog Nat} {x : M Tensor} (b : Nat → ℚ) (h : Outcome Ref m (p m) x ∧ New m (p m)) :
    Outcome Ref m ((p >>= biasI b) m) (x >>= fun y => pure ⟨y.width, y.rows.map fun w => fun i => w i + b i⟩) ∧
      New m ((p >>= biasI b) m) := by
  obtain ⟨⟨h1, h2, h3⟩, hn⟩ := h
  unfold New at hn
  cases hp : p m with
  | mk res m' =>
    rw [hp] at h1 h2 h3 hn
    rcases h3 with ⟨r, t, ha, hb, hV⟩ | ⟨e, he, hx⟩
    · dsimp only at ha hV h1 h2 hn
      subst ha
      subst hb
      obtain ⟨v, hv⟩ := Store.Has.slot hV
      obtain ⟨hn1, hn2⟩ := hn r rfl
      rw [bind_ok hp, bias_run b hv]
      refine ⟨⟨write_new h1 hv hn1, fun hm => current_write (h2 hm) (hn2 hm), .inl ⟨r, _, rfl, rfl, ?_⟩⟩, fun s hs => ?_⟩
      · show ((m'.slots.set r _)[r]?).map Slot.value = _
        rw [List.getElem?_set_self (List.getElem?_eq_some_iff.mp hv).1]
        rfl
      · cases hs
        exact ⟨hn1, hn2⟩
    · dsimp only at he
      subst he
      subst hx
      rw [bind_error hp]
      exact ⟨⟨h1, h2, .inr ⟨e, rfl, rfl⟩⟩, fun s hs => by cases hs⟩

end Mem
end Ocnn
