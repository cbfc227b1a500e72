import Verif.PointsHeap
import Verif.HeapProofs

/-! Reasoning about `Points` on the heap: every method does on the heap what its functional model does. -/

namespace Ocnn

variable {K F L : Type}

/-- Result and final heap of a computation. -/
def runP {α : Type} (m : PM K α) (h : PHeap K) : M α × PHeap K := StateT.run (ExceptT.run m) h

theorem runP_pure {α : Type} (a : α) (h : PHeap K) : runP (pure a : PM K α) h = (.ok a, h) := rfl
theorem runP_throw {α : Type} (e : Err) (h : PHeap K) : runP (throw e : PM K α) h = (.error e, h) := rfl
theorem runP_lift {α : Type} (m : M α) (h : PHeap K) : runP (liftP m) h = (m, h) := rfl
theorem runP_read (s : Nat) (h : PHeap K) : runP (readP s) h = (.ok (h.mem s), h) := rfl
theorem runP_alloc (rows : List (V3 K)) (h : PHeap K) : runP (allocP rows) h =
    (.ok h.next, { next := h.next + 1, mem := fun s => if s = h.next then rows else h.mem s }) := rfl
theorem runP_write (s : Nat) (rows : List (V3 K)) (h : PHeap K) : runP (writeP s rows) h =
    (.ok (), { next := h.next, mem := fun i => if i = s then rows else h.mem i }) := rfl

theorem runP_bind {α β : Type} (m : PM K α) (f : α → PM K β) (h : PHeap K) : runP (m >>= f) h =
    match runP m h with
    | (.ok a, h') => runP (f a) h'
    | (.error e, h') => (.error e, h') := by
  have h1 : ∀ p : M α × PHeap K, (ExceptT.bindCont f p.1 : StateM (PHeap K) (M β)) p.2 =
      (match p with
      | (.ok a, h') => runP (f a) h'
      | (.error e, h') => (.error e, h') : M β × PHeap K) := by
    rintro ⟨r, h'⟩
    cases r <;> rfl
  exact h1 (runP m h)

/-- The storages below `n` are the same, except those in `W`. -/
structure PExt (n : Nat) (W : Nat → Prop) (h h' : PHeap K) : Prop where
  next : h.next ≤ h'.next
  mem : ∀ s, s < n → ¬ W s → h'.mem s = h.mem s

theorem PExt.refl (n : Nat) (W : Nat → Prop) (h : PHeap K) : PExt n W h h := ⟨le_refl _, fun _ _ _ => rfl⟩

theorem PExt.trans {n : Nat} {W : Nat → Prop} {h h1 h2 : PHeap K} (a : PExt n W h h1) (b : PExt n W h1 h2) : PExt n W h h2 :=
  ⟨a.next.trans b.next, fun s hs hw => (b.mem s hs hw).trans (a.mem s hs hw)⟩

theorem PExt.mono {n n' : Nat} {W W' : Nat → Prop} {h h1 : PHeap K} (a : PExt n W h h1) (hn : n' ≤ n)
    (hW : ∀ s, s < n' → W s → W' s) : PExt n' W' h h1 :=
  ⟨a.next, fun s hs hw => a.mem s (lt_of_lt_of_le hs hn) fun hx => hw (hW s hs hx)⟩

/-- The computation `m` started on `h` changes no storage below `n` outside `W` and gives the same result as `e`. -/
def PSim {α β : Type} (n : Nat) (W : Nat → Prop) (m : PM K α) (h : PHeap K) (e : M β) (R : PHeap K → α → β → Prop) : Prop :=
  PExt n W h (runP m h).2 ∧ Match (R (runP m h).2) (runP m h).1 e

section
variable {n : Nat} {W : Nat → Prop} {h : PHeap K}

theorem PSim.mono {α β : Type} {n' : Nat} {W' : Nat → Prop} {m : PM K α} {e : M β} {R R' : PHeap K → α → β → Prop}
    (hs : PSim n W m h e R) (hn : n' ≤ n) (hW : ∀ s, s < n' → W s → W' s)
    (hR : ∀ h1 a b, PExt n W h h1 → R h1 a b → R' h1 a b) : PSim n' W' m h e R' := by
  obtain ⟨h1, h2⟩ := hs
  refine ⟨h1.mono hn hW, ?_⟩
  revert h2
  rcases hr : (runP m h).1 with x | a <;> rcases e with y | b <;> intro h2 <;> try exact h2
  exact hR _ _ _ h1 h2

theorem psim_pure {α β : Type} {a : α} {b : β} {R : PHeap K → α → β → Prop} (hR : R h a b) :
    PSim n W (pure a) h (pure b) R := ⟨PExt.refl _ _ _, hR⟩

theorem psim_throw {α β : Type} {x : Err} {R : PHeap K → α → β → Prop} :
    PSim n W (throw x : PM K α) h (.error x) R := ⟨PExt.refl _ _ _, rfl⟩

theorem psim_lift {α β : Type} {m : M α} {e : M β} {R : PHeap K → α → β → Prop} (hR : Match (R h) m e) :
    PSim n W (liftP m) h e R := ⟨PExt.refl _ _ _, hR⟩

theorem psim_bind {α α' β β' : Type} {m : PM K α} {f : α → PM K α'} {e : M β} {g : β → M β'}
    {R : PHeap K → α → β → Prop} {S : PHeap K → α' → β' → Prop} (hm : PSim n W m h e R)
    (hf : ∀ a b h1, PExt n W h h1 → R h1 a b → PSim n W (f a) h1 (g b) S) : PSim n W (m >>= f) h (e >>= g) S := by
  obtain ⟨h1, h2⟩ := hm
  unfold PSim
  rw [runP_bind]
  rcases hr : runP m h with ⟨r, h'⟩
  rw [hr] at h1 h2
  rcases r with x | a <;> rcases e with y | b
  · exact ⟨h1, h2⟩
  · exact h2.elim
  · exact h2.elim
  · obtain ⟨h3, h4⟩ := hf a b h' h1 h2
    exact ⟨h1.trans h3, h4⟩

theorem psim_liftB {α α' β' : Type} {m : M α} {f : α → PM K α'} {g : α → M β'} {S : PHeap K → α' → β' → Prop}
    (hf : ∀ a, m = .ok a → PSim n W (f a) h (g a) S) : PSim n W (liftP m >>= f) h (m >>= g) S := by
  rcases m with x | a
  · exact ⟨PExt.refl _ _ _, rfl⟩
  · exact hf a rfl

/-- A step without counterpart in the functional model. -/
theorem psim_bindL {α α' β' : Type} {m : PM K α} {f : α → PM K α'} {e : M β'}
    {R : PHeap K → α → Unit → Prop} {S : PHeap K → α' → β' → Prop} (hm : PSim n W m h (pure ()) R)
    (hf : ∀ a h1, PExt n W h h1 → R h1 a () → PSim n W (f a) h1 e S) : PSim n W (m >>= f) h e S := by
  have := psim_bind (g := fun (_ : Unit) => e) hm (fun a _ h1 he hr => hf a h1 he hr)
  exact this

theorem psim_read {α β : Type} {s : Nat} {f : List (V3 K) → PM K α} {e : M β}
    {R : PHeap K → α → β → Prop} (hf : PSim n W (f (h.mem s)) h e R) : PSim n W (readP s >>= f) h e R := by
  unfold PSim
  rw [runP_bind, runP_read]
  exact hf

theorem psim_alloc {α β : Type} {rows : List (V3 K)} {f : Nat → PM K α} {e : M β} {R : PHeap K → α → β → Prop} (hn : n ≤ h.next)
    (hf : ∀ h1 : PHeap K, h1.next = h.next + 1 → h1.mem h.next = rows → (∀ s, s < h.next → h1.mem s = h.mem s) →
      PSim n W (f h.next) h1 e R) :
    PSim n W (allocP rows >>= f) h e R := by
  unfold PSim
  rw [runP_bind, runP_alloc]
  have h0 : ∀ s, s < h.next → (if s = h.next then rows else h.mem s) = h.mem s := fun s hs => by simp [Nat.ne_of_lt hs]
  obtain ⟨a, b⟩ := hf { next := h.next + 1, mem := fun s => if s = h.next then rows else h.mem s } rfl (by simp) h0
  have h1 : PExt n W h { next := h.next + 1, mem := fun s => if s = h.next then rows else h.mem s } :=
    ⟨by simp, fun s hs _ => h0 s (lt_of_lt_of_le hs hn)⟩
  exact ⟨h1.trans a, b⟩

theorem psim_write {α β : Type} {s : Nat} {rows : List (V3 K)} {f : Unit → PM K α} {e : M β} {R : PHeap K → α → β → Prop}
    (hw : W s)
    (hf : ∀ h1 : PHeap K, h1.next = h.next → h1.mem s = rows → (∀ i, i ≠ s → h1.mem i = h.mem i) → PSim n W (f ()) h1 e R) :
    PSim n W (writeP s rows >>= f) h e R := by
  unfold PSim
  rw [runP_bind, runP_write]
  have h0 : ∀ i, i ≠ s → (if i = s then rows else h.mem i) = h.mem i := fun i hi => by simp [hi]
  obtain ⟨a, b⟩ := hf { next := h.next, mem := fun i => if i = s then rows else h.mem i } rfl (by simp) h0
  have h1 : PExt n W h { next := h.next, mem := fun i => if i = s then rows else h.mem i } :=
    ⟨le_refl _, fun i _ hi => h0 i fun hs => hi (hs ▸ hw)⟩
  exact ⟨h1.trans a, b⟩

end

/-- The object as a value. -/
def PHeap.load (h : PHeap K) (H : HPoints F L) : Points K F L :=
  ⟨h.mem H.points, H.normals.map h.mem, H.features, H.labels, H.batchId, H.batchSize, H.batchNpt, H.device⟩

/-- The tensors of the object exist, are distinct, and have the values of `p`. -/
structure Own (h : PHeap K) (H : HPoints F L) (p : Points K F L) : Prop where
  load : h.load H = p
  pts : H.points < h.next
  nrm : ∀ n, H.normals = some n → n < h.next ∧ n ≠ H.points

/-- The tensors of the object are not older than `m`. -/
def Fresh (m : Nat) (H : HPoints F L) : Prop := m ≤ H.points ∧ ∀ n, H.normals = some n → m ≤ n

/-- The relation after a method that makes new tensors only. -/
def Kept (h0 : PHeap K) (H0 : HPoints F L) (h : PHeap K) (H : HPoints F L) (p : Points K F L) : Prop :=
  Own h H p ∧ ∀ m, m ≤ h0.next → Fresh m H0 → Fresh m H

theorem kept_refl {h : PHeap K} {H : HPoints F L} {p : Points K F L} (ho : Own h H p) : Kept h H h H p := ⟨ho, fun _ _ hf => hf⟩

theorem Kept.trans {h0 h1 h2 : PHeap K} {H0 H1 H2 : HPoints F L} {p1 p2 : Points K F L} (a : Kept h0 H0 h1 H1 p1)
    (hn : h0.next ≤ h1.next) (b : Kept h1 H1 h2 H2 p2) : Kept h0 H0 h2 H2 p2 :=
  ⟨b.1, fun m hm hf => b.2 m (hm.trans hn) (a.2 m hm hf)⟩

theorem mapPoints_sim {n : Nat} {W : Nat → Prop} {h : PHeap K} {H : HPoints F L} {p : Points K F L} (ho : Own h H p) (hn : n ≤ h.next)
    (f : V3 K → V3 K) : PSim n W (H.mapPoints f) h (pure { p with points := p.points.map f })
      fun h1 H1 q => Kept h H h1 H1 q ∧ h.next ≤ H1.points ∧ H1.normals = H.normals := by
  have hp := ho.load
  subst hp
  unfold HPoints.mapPoints
  refine psim_read (psim_alloc hn ?_)
  have ho := ho
  obtain ⟨h1, h2, h3⟩ := ho
  intro g g1 g2 g3
  refine psim_pure ⟨⟨⟨?_, by simp [g1], fun m hm => ?_⟩, fun m hm hf => ⟨hm, hf.2⟩⟩, le_refl _, rfl⟩
  · unfold PHeap.load
    simp only [g2]
    congr 1
    cases hN : H.normals with
    | none => rfl
    | some m => simp [g3 m (h3 m hN).1]
  · have := (h3 m hm).1
    exact ⟨by omega, by simp; omega⟩

/-- The object with changed normals. -/
def withNormals (p : Points K F L) (f : V3 K → V3 K) : Points K F L := { p with normals := p.normals.map fun x => x.map f }

theorem mapNormals_sim {n : Nat} {W : Nat → Prop} {h : PHeap K} {H : HPoints F L} {p : Points K F L} (ho : Own h H p) (hn : n ≤ h.next)
    (f : V3 K → V3 K) : PSim n W (H.mapNormals f) h (pure (withNormals p f))
      fun h1 H1 q => Kept h H h1 H1 q ∧ H1.points = H.points ∧ ∀ m, H1.normals = some m → h.next ≤ m := by
  have hp := ho.load
  subst hp
  have h0 := ho
  obtain ⟨h1, h2, h3⟩ := ho
  unfold HPoints.mapNormals
  cases hN : H.normals with
  | none =>
    refine psim_pure ⟨⟨⟨?_, h2, h3⟩, fun m hm hf => hf⟩, rfl, fun m hm => by rw [hN] at hm; cases hm⟩
    simp [PHeap.load, hN, withNormals]
  | some m =>
    refine psim_read (psim_alloc hn ?_)
    intro g g1 g2 g3
    refine psim_pure ⟨⟨⟨?_, by simp [g1]; omega, fun k hk => ?_⟩, fun k hk hf => ⟨hf.1, fun j hj => ?_⟩⟩, rfl, fun k hk => ?_⟩
    · simp [PHeap.load, g2, g3 _ h2, hN, withNormals]
    · injection hk with hk
      subst k
      exact ⟨by omega, by simp; omega⟩
    · injection hj with hj
      omega
    · injection hk with hk
      omega

section
variable [Field K] [LinearOrder K]

theorem orient_sim {n : Nat} {W : Nat → Prop} {h : PHeap K} {H : HPoints F L} {p : Points K F L} (ho : Own h H p) (hn : n ≤ h.next)
    (axis : String) (hW : axis = "xyz" → ∀ m, H.normals = some m → W m) :
    PSim n W (H.orientNormal axis) h (p.orientNormal axis) fun h1 H1 q => Own h1 H1 q := by
  have key := fun f => mapNormals_sim (W := W) ho hn f
  have hp := ho.load
  subst hp
  unfold HPoints.orientNormal Points.orientNormal
  cases hN : H.normals with
  | none =>
    simp only [PHeap.load, hN, Option.map_none]
    refine psim_pure ?_
    have := ho
    simpa [PHeap.load, hN] using this
  | some m =>
    simp only [PHeap.load, hN, Option.map_some, withNormals] at key ⊢
    split
    · exact (key _).mono le_rfl (fun _ _ => id) (fun _ _ _ _ hr => hr.1.1)
    · exact (key _).mono le_rfl (fun _ _ => id) (fun _ _ _ _ hr => hr.1.1)
    · exact (key _).mono le_rfl (fun _ _ => id) (fun _ _ _ _ hr => hr.1.1)
    · refine psim_read (psim_write (hW rfl m hN) ?_)
      intro g g1 g2 g3
      obtain ⟨_, h2, h3⟩ := ho
      refine psim_pure ⟨?_, by omega, fun k hk => by have := h3 k hk; exact ⟨by omega, this.2⟩⟩
      simp [PHeap.load, hN, g2, g3 _ (h3 m hN).2.symm]
    · split <;> first | exact psim_throw | simp_all

/-- How `scale` changes one normal. -/
def scaleNrm (rt : K → K) (f n : V3 K) : V3 K :=
  let m := n.scaleBy (f.map (1 / ·))
  let norm2 := rt (m.x ^ 2 + m.y ^ 2 + m.z ^ 2)
  m.map (· / max norm2 (1 / 10 ^ 12))

theorem scale_sim {n : Nat} {W : Nat → Prop} {h : PHeap K} {H : HPoints F L} {p : Points K F L} (ho : Own h H p) (hn : n ≤ h.next)
    (rt : K → K) (f : V3 K) : PSim n W (H.scale rt f) h (p.scale rt f) (Kept h H) := by
  unfold HPoints.scale Points.scale
  refine psim_liftB ?_
  · intro _ _
    split
    · exact psim_pure (kept_refl ho)
    · have h2 := mapPoints_sim (W := W) ho hn fun v => v.scaleBy f
      by_cases hc : f.x ≠ f.x ∨ f.y ≠ f.x ∨ f.z ≠ f.x
      · simp only [if_pos hc]
        have h3 := psim_bind (g := fun q : Points K F L => pure (withNormals q (scaleNrm rt f))) (S := Kept h H) h2 (f := fun H => H.mapNormals (scaleNrm rt f)) (by
          intro H1 q g he hr
          exact (mapNormals_sim hr.1.1 (hn.trans he.next) _).mono le_rfl (fun _ _ => id)
            (fun _ _ _ _ hs => hr.1.trans he.next hs.1))
        cases hN : p.normals with
        | none => rw [hN] at h3; exact h3
        | some x => rw [hN] at h3; exact h3
      · simp only [if_neg hc]
        have h3 := psim_bind (g := fun q : Points K F L => pure q) (S := Kept h H) h2 (f := fun H => pure H)
          (fun H1 q g he hr => psim_pure hr.1)
        cases hN : p.normals with
        | none => rw [hN] at h3; exact h3
        | some x => rw [hN] at h3; exact h3

theorem getItem_sim {n : Nat} {W : Nat → Prop} {h : PHeap K} {H : HPoints F L} {p : Points K F L} (ho : Own h H p) (hn : n ≤ h.next)
    (mask : List Bool) : PSim n W (H.getItem mask) h (p.getItem mask) fun h1 H1 q => Own h1 H1 q ∧ Fresh h.next H1 := by
  have hp := ho.load
  subst hp
  obtain ⟨h1, h2, h3⟩ := ho
  unfold HPoints.getItem Points.getItem
  refine psim_read (psim_liftB ?_)
  intro r _
  refine psim_alloc hn ?_
  intro g g1 g2 g3
  have e1 : PSim n W (HPoints.sliceNormals mask H.normals) g (Points.sliceAttr mask (h.load H).normals)
      fun h1 a b => h.next < h1.next ∧ h1.mem h.next = r ∧ a.map h1.mem = b ∧ ∀ k, a = some k → h.next < k ∧ k < h1.next := by
    unfold HPoints.sliceNormals Points.sliceAttr PHeap.load
    cases hN : H.normals with
    | none => exact psim_pure ⟨by omega, g2, rfl, fun k hk => by cases hk⟩
    | some m =>
      have hm := (h3 m hN).1
      simp only [Option.map_some, ← g3 m hm]
      refine psim_read (psim_liftB ?_)
      intro r' _
      refine psim_alloc (by omega) ?_
      intro k k1 k2 k3
      refine psim_pure ⟨by omega, by rw [k3 _ (by omega), g2], by simp [k2], fun j hj => ?_⟩
      injection hj with hj
      omega
  refine psim_bind e1 ?_
  rintro a b k - ⟨k1, k2, k3, k4⟩
  refine psim_liftB ?_
  intro f1 _
  refine psim_liftB ?_
  intro f2 _
  refine psim_liftB ?_
  intro f3 _
  refine psim_pure ⟨⟨?_, by simpa using k1, fun j hj => ?_⟩, le_refl _, fun j hj => ?_⟩
  · simp [PHeap.load, k2, k3]
  · have := k4 j hj
    exact ⟨this.2, by simp; omega⟩
  · exact (k4 j hj).1.le

theorem clip_sim {n : Nat} {W : Nat → Prop} {h : PHeap K} {H : HPoints F L} {p : Points K F L} (ho : Own h H p) (hn : n ≤ h.next)
    (mn mx esp : K) : PSim n W (H.clip mn mx esp) h (p.clip mn mx esp)
      fun h1 a b => Own h1 a.1 b.1 ∧ a.2 = b.2 ∧ Fresh h.next a.1 := by
  have h1 := ho.load
  unfold HPoints.clip Points.clip
  refine psim_read ?_
  have h2 : h.mem H.points = p.points := by rw [← h1]; rfl
  rw [h2]
  refine psim_bind (getItem_sim ho hn _) ?_
  rintro a b g - ⟨hr1, hr2⟩
  exact psim_pure ⟨hr1, rfl, hr2⟩

end

section
variable [Field K]

theorem rotate_sim {n : Nat} {W : Nat → Prop} {h : PHeap K} {H : HPoints F L} {p : Points K F L} (ho : Own h H p) (hn : n ≤ h.next)
    (c s : V3 K) : PSim n W (H.rotate c s) h (pure (p.rotate c s)) fun h1 H1 q => Own h1 H1 q ∧ Fresh h.next H1 := by
  unfold HPoints.rotate
  have h2 := mapPoints_sim (W := W) ho hn fun v => v.mulMat (Points.rotMat c s)
  exact psim_bind (g := fun q : Points K F L => pure (withNormals q fun v => v.mulMat (Points.rotMat c s)))
    h2 fun H1 q g he hr => (mapNormals_sim hr.1.1 (hn.trans he.next) _).mono le_rfl (fun _ _ => id)
      fun _ H2 _ _ hs => ⟨hs.1.1, by rw [hs.2.1]; exact hr.2.1, fun m hm => he.next.trans (hs.2.2 m hm)⟩

theorem translate_sim {n : Nat} {W : Nat → Prop} {h : PHeap K} {H : HPoints F L} {p : Points K F L} (ho : Own h H p) (hn : n ≤ h.next)
    (dis : V3 K) : PSim n W (H.translate dis) h (pure (p.translate dis)) (Kept h H) :=
  (mapPoints_sim ho hn _).mono le_rfl (fun _ _ => id) fun _ _ _ _ hs => hs.1

theorem flipAxis_sim {n : Nat} {W : Nat → Prop} {h : PHeap K} {H : HPoints F L} {p : Points K F L} (ho : Own h H p) (c : Char)
    (hW : ∀ s, (s = H.points ∨ H.normals = some s) → W s) :
    PSim n W (H.flipAxis c) h (p.flipAxis c) fun h1 H1 q => Own h1 H q ∧ H1 = H ∧ h1.next = h.next := by
  have hp := ho.load
  subst hp
  obtain ⟨h1, h2, h3⟩ := ho
  unfold HPoints.flipAxis Points.flipAxis
  refine psim_liftB ?_
  intro a _
  refine psim_read (psim_write (hW _ (.inl rfl)) ?_)
  intro g g1 g2 g3
  cases hN : H.normals with
  | none =>
    rw [pure_bind]
    refine psim_pure ⟨⟨?_, by omega, fun k hk => ?_⟩, rfl, g1⟩
    · simp [PHeap.load, hN, g2]
    · rw [hN] at hk; cases hk
  | some m =>
    simp only [bind_assoc]
    refine psim_read (psim_write (hW _ (.inr hN)) ?_)
    intro k k1 k2 k3
    have hm := h3 m hN
    refine psim_pure ⟨⟨?_, by omega, fun j hj => ?_⟩, rfl, by omega⟩
    · simp [PHeap.load, hN, k2, k3 _ hm.2.symm, g2, g3 _ hm.2]
    · have := h3 j hj
      exact ⟨by omega, this.2⟩

theorem flip_sim {n : Nat} {W : Nat → Prop} {h : PHeap K} {H : HPoints F L} {p : Points K F L} (ho : Own h H p) (axis : String)
    (hW : axis ≠ "" → ∀ s, (s = H.points ∨ H.normals = some s) → W s) :
    PSim n W (H.flip axis) h (p.flip axis) fun h1 H1 q => Own h1 H q ∧ H1 = H ∧ h1.next = h.next := by
  unfold HPoints.flip Points.flip
  have hW' : axis.toList ≠ [] → ∀ s, (s = H.points ∨ H.normals = some s) → W s := fun hx => hW fun h0 => hx (by simp [h0])
  clear hW
  revert hW' h p
  induction axis.toList with
  | nil => intro h p ho _; exact psim_pure ⟨ho, rfl, rfl⟩
  | cons c l ih =>
    intro h p ho hW
    have hW := hW (by simp)
    rw [List.foldlM_cons, List.foldlM_cons]
    refine psim_bind (flipAxis_sim ho c hW) ?_
    rintro a b g - ⟨g1, rfl, g2⟩
    exact (ih g1 fun _ => hW).mono le_rfl (fun _ _ => id) fun _ _ _ _ hr => ⟨hr.1, hr.2.1, by omega⟩

end

namespace Transform

/-- The storages that `transform` may change: those of the object if the augmentation draws a flip, that of the normals if there is no
augmentation and the normals are oriented in `xyz` mode. -/
def Writes (t : Transform) (r : Drawn) (H : HPoints F L) (s : Nat) : Prop :=
  (t.distort = true ∧ t.rndFlip r ≠ "" ∧ (s = H.points ∨ H.normals = some s)) ∨
    (t.distort = false ∧ t.orientNormal = "xyz" ∧ H.normals = some s)

theorem transform_sim (rt cosF sinF : ℚ → ℚ) (t : Transform) (r : Drawn) {h : PHeap ℚ} {H : HPoints F L} {p : Points ℚ F L}
    (ho : Own h H p) {n : Nat} (hn : n ≤ h.next) : PSim n (t.Writes r H) (t.transformH rt cosF sinF r H) h
      (t.transform rt cosF sinF r p) fun h1 a b => Own h1 a.1 b.1 ∧ a.2 = b.2 ∧ Fresh h.next a.1 := by
  unfold transformH transform
  have e1 : PSim n (t.Writes r H) (if t.distort then t.augmentH rt cosF sinF r H else pure H : PM ℚ (HPoints F L)) h
      (if t.distort then t.augment rt cosF sinF r p else pure p : M (Points ℚ F L))
      fun h1 a b => Own h1 a b ∧ if t.distort then Fresh h.next a else a = H := by
    cases hd : t.distort with
    | false => exact psim_pure ⟨ho, by simp⟩
    | true =>
      simp only [if_true]
      unfold augmentH augment
      refine psim_liftB ?_
      intro a _
      refine psim_bind (flip_sim ho _ fun hx s hs => .inl ⟨hd, hx, hs⟩) ?_
      rintro H' q g he ⟨g1, hH, g2⟩
      rw [hH]
      clear hH H'
      have e2 := psim_bind (g := fun p : Points ℚ F L => (do
          let p := p.translate (t.rndJitter r)
          p.scale rt (t.rndScale r) : M (Points ℚ F L))) (S := fun h1 a b => Own h1 a b ∧ Fresh h.next a)
        (rotate_sim (n := n) (W := t.Writes r H) g1 (by omega) (a.map cosF) (a.map sinF))
        (f := fun H : HPoints F L => (do
          let H ← H.translate (t.rndJitter r)
          H.scale rt (t.rndScale r) : PM ℚ (HPoints F L))) (by
        rintro H1 q1 g1 he1 ⟨k1, k2⟩
        have e3 := psim_bind (g := fun p : Points ℚ F L => p.scale rt (t.rndScale r)) (S := fun h1 a b => Own h1 a b ∧ Fresh h.next a)
          (translate_sim (n := n) (W := t.Writes r H) k1 (by have := he1.next; omega) (t.rndJitter r))
          (f := fun H : HPoints F L => H.scale rt (t.rndScale r)) (by
          rintro H2 q2 g2' he2 k3
          refine (scale_sim k3.1 (by have := he1.next; have := he2.next; omega) rt (t.rndScale r)).mono le_rfl (fun _ _ => id) ?_
          intro h4 H4 q4 _ hr
          have := he1.next
          have := he2.next
          exact ⟨hr.1, hr.2 _ (by omega) (k3.2 _ (by omega) (g2 ▸ k2))⟩)
        exact e3)
      exact e2
  refine psim_bind e1 ?_
  rintro H1 p1 h1 he1 ⟨o1, o2⟩
  have e2 : PSim n (t.Writes r H) (if t.orientNormal ≠ "" then H1.orientNormal t.orientNormal else pure H1 : PM ℚ (HPoints F L)) h1
      (if t.orientNormal ≠ "" then p1.orientNormal t.orientNormal else pure p1 : M (Points ℚ F L)) fun h2 a b => Own h2 a b := by
    by_cases hc : t.orientNormal ≠ ""
    · rw [if_pos hc, if_pos hc]
      cases hd : t.distort with
      | false =>
        rw [hd] at o2
        have o2 : H1 = H := by simpa using o2
        subst o2
        exact orient_sim o1 (hn.trans he1.next) _ fun hx m hm => .inr ⟨hd, hx, hm⟩
      | true =>
        rw [hd] at o2
        have o2 : Fresh h.next H1 := by simpa using o2
        refine (orient_sim (W := fun s => h.next ≤ s) o1 (hn.trans he1.next) _ fun hx m hm => o2.2 m hm).mono le_rfl ?_
          fun _ _ _ _ hr => hr
        intro s hs hw
        omega
    · rw [if_neg hc, if_neg hc]
      exact psim_pure o1
  refine psim_bind e2 ?_
  rintro H2 p2 h2 he2 o3
  have := he1.next
  have := he2.next
  exact (clip_sim o3 (by omega) _ _ _).mono le_rfl (fun _ _ => id) fun _ _ _ _ hr => ⟨hr.1, hr.2.1, by have := hr.2.2.1; omega, fun m hm => by
    have := hr.2.2.2 m hm; omega⟩

end Transform

end Ocnn
