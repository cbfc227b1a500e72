import Verif.Networks
import Verif.PropsPerSample
import Verif.PropsVoxel
import Verif.PropsPool
import Verif.PropsLinear

/-! A relational argument about networks: running a network on a batch and on one of its samples.  The facts about the
layers that the argument needs are the record `BatchLayers`; it is instantiated for a batch in `NetBatch` and for one octree compared with
itself in `NetShape`.  The argument itself is carried out in `NetLemmas` for all relations of the kind described in `NetSys`. -/

set_option linter.unusedSimpArgs false

namespace Ocnn
open Spec
variable {F : Type}

/-- `t` consists of blocks of `c` channels and of heights `ns`, and `s` is its `i`-th block. -/
def Rel (i : Nat) (ns : List Nat) (c : Nat) (t s : Tensor) : Prop :=
  ∃ xs : List (List (Fin c → ℚ)), xs.map List.length = ns ∧ t = ⟨c, xs.flatten⟩ ∧ ∃ x, xs[i]? = some x ∧ s = ⟨c, x⟩

/-- Both computations succeed with related results. -/
def Both {α : Type} (R : α → α → Prop) (A B : M α) : Prop := ∃ a b, A = .ok a ∧ B = .ok b ∧ R a b

theorem Both.pure {α : Type} {R : α → α → Prop} {a b : α} (h : R a b) : Both R (.ok a) (.ok b) := ⟨a, b, rfl, rfl, h⟩

theorem Both.bind {α β : Type} {R : α → α → Prop} {S : β → β → Prop} {A B : M α} {f g : α → M β} (h : Both R A B)
    (hf : ∀ a b, R a b → Both S (f a) (g b)) : Both S (A >>= f) (B >>= g) := by
  obtain ⟨a, b, rfl, rfl, hR⟩ := h
  exact hf a b hR

theorem Both.mono {α : Type} {R S : α → α → Prop} {A B : M α} (h : Both R A B) (hf : ∀ a b, R a b → S a b) : Both S A B := by
  obtain ⟨a, b, h1, h2, hR⟩ := h
  exact ⟨a, b, h1, h2, hf a b hR⟩

theorem Both.fold {α : Type} (R : Nat → α → α → Prop) (n : Nat) (f g : α → Nat → M α)
    (h : ∀ k < n, ∀ a b, R k a b → Both (R (k + 1)) (f a k) (g b k)) {a b : α} (h0 : R 0 a b) :
    Both (R n) ((List.range n).foldlM f a) ((List.range n).foldlM g b) := by
  induction n with
  | zero => exact Both.pure h0
  | succ n ih =>
    rw [List.range_succ, List.foldlM_append, List.foldlM_append]
    refine (ih fun k hk => h k (by omega)).bind fun a b hab => ?_
    simp only [List.foldlM_cons, List.foldlM_nil, bind_pure]
    exact h n (by omega) a b hab

/-- Two lists of length `n` whose members are related. -/
def AllRel {α : Type} (n : Nat) (R : Nat → α → α → Prop) (as bs : List α) : Prop :=
  as.length = n ∧ bs.length = n ∧ ∀ k < n, ∃ a b, as[k]? = some a ∧ bs[k]? = some b ∧ R k a b

theorem mapM_snoc {α β : Type} (f : α → M β) (l : List α) (a : α) :
    (l ++ [a]).mapM f = (do let bs ← l.mapM f; let b ← f a; .ok (bs ++ [b])) := by
  rw [List.mapM_append]
  simp only [List.mapM_cons, List.mapM_nil, bind, Except.bind, Pure.pure, Except.pure]
  cases l.mapM f with
  | error e => rfl
  | ok bs => cases f a <;> rfl

theorem Both.mapM {α : Type} (R : Nat → α → α → Prop) (n : Nat) (f g : Nat → M α) (h : ∀ k < n, Both (R k) (f k) (g k)) :
    Both (AllRel n R) ((List.range n).mapM f) ((List.range n).mapM g) := by
  induction n with
  | zero => exact Both.pure ⟨rfl, rfl, fun k hk => absurd hk (by omega)⟩
  | succ n ih =>
    rw [List.range_succ, mapM_snoc, mapM_snoc]
    refine (ih fun k hk => h k (by omega)).bind fun as bs hab => ?_
    refine (h n (by omega)).bind fun a b hr => Both.pure ?_
    obtain ⟨h1, h2, h3⟩ := hab
    refine ⟨by simp [h1], by simp [h2], fun k hk => ?_⟩
    by_cases hkn : k < n
    · obtain ⟨a', b', e1, e2, e3⟩ := h3 k hkn
      exact ⟨a', b', by rw [List.getElem?_append_left (by omega)]; exact e1,
        by rw [List.getElem?_append_left (by omega)]; exact e2, e3⟩
    · obtain rfl : k = n := by omega
      exact ⟨a, b, by rw [← h1, List.getElem?_append_right (by omega)]; simp,
        by rw [← h2, List.getElem?_append_right (by omega)]; simp, hr⟩

/-! ### layers acting on rows -/

theorem Tensor.as_self {c : Nat} (x : List (Fin c → ℚ)) (e : Err) : Tensor.as ⟨c, x⟩ c e = .ok x := by
  simp [Tensor.as]

theorem Tensor.on_self {c c' : Nat} (x : List (Fin c → ℚ)) (e : Err) (f : List (Fin c → ℚ) → M (List (Fin c' → ℚ))) :
    Tensor.on ⟨c, x⟩ c c' e f = (f x >>= fun y => .ok ⟨c', y⟩) := by
  unfold Tensor.on
  rw [Tensor.as_self]
  rfl

theorem Rel.map {i : Nat} {ns : List Nat} {c c' : Nat} {x y : Tensor} (g : (Fin c → ℚ) → Fin c' → ℚ) (h : Rel i ns c x y) :
    ∃ u v, x = ⟨c, u⟩ ∧ y = ⟨c, v⟩ ∧ Rel i ns c' ⟨c', u.map g⟩ ⟨c', v.map g⟩ := by
  obtain ⟨xs, h1, rfl, x, h2, rfl⟩ := h
  refine ⟨_, _, rfl, rfl, xs.map (List.map g), ?_, ?_, x.map g, ?_, rfl⟩
  · rw [← h1, List.map_map]; exact List.map_congr_left fun l _ => by simp
  · rw [List.map_flatten]
  · rw [List.getElem?_map, h2]; rfl

theorem Rel.relu {i : Nat} {ns : List Nat} {c : Nat} {x y : Tensor} (h : Rel i ns c x y) : Rel i ns c (relu x) (relu y) := by
  obtain ⟨u, v, rfl, rfl, h2⟩ := h.map (c' := c) (fun v => fun i => max (v i) 0)
  exact h2

theorem Rel.tanhT {i : Nat} {ns : List Nat} {c : Nat} {x y : Tensor} (P : Params) (h : Rel i ns c x y) :
    Rel i ns c (tanhT P x) (tanhT P y) := by
  obtain ⟨u, v, rfl, rfl, h2⟩ := h.map (c' := c) (fun v => fun i => P.tanh (v i))
  exact h2

theorem Rel.linear {i : Nat} {ns : List Nat} {ci : Nat} {x y : Tensor} (P : Params) (name : String) (co : Nat) (b : Bool)
    (h : Rel i ns ci x y) : Both (Rel i ns co) (linear P name ci co b x) (linear P name ci co b y) := by
  obtain ⟨u, v, rfl, rfl, h2⟩ := h.map (c' := co) (fun v => fun j => (∑ i : Fin ci, v i * P.weight name 1 0 i j) + if b then P.bias name j else 0)
  unfold Ocnn.linear
  rw [Tensor.on_self, Tensor.on_self]
  exact Both.pure h2

theorem Rel.zip {i : Nat} {ns : List Nat} {a b c : Nat} {x y x' y' : Tensor} (g : (Fin a → ℚ) → (Fin b → ℚ) → Fin c → ℚ)
    (h : Rel i ns a x y) (h' : Rel i ns b x' y') : ∃ u v u' v', x = ⟨a, u⟩ ∧ y = ⟨a, v⟩ ∧ x' = ⟨b, u'⟩ ∧ y' = ⟨b, v'⟩ ∧
      u.length = u'.length ∧ v.length = v'.length ∧ Rel i ns c ⟨c, List.zipWith g u u'⟩ ⟨c, List.zipWith g v v'⟩ := by
  obtain ⟨xs, h1, rfl, v, h2, rfl⟩ := h
  obtain ⟨xs', h1', rfl, v', h2', rfl⟩ := h'
  have hl : xs.map List.length = xs'.map List.length := h1.trans h1'.symm
  have hv : v.length = v'.length := by
    have := congrArg (fun l => l[i]?) hl
    simp only [List.getElem?_map, h2, h2', Option.map_some, Option.some.injEq] at this
    exact this
  refine ⟨_, _, _, _, rfl, rfl, rfl, rfl, ?_, hv, List.zipWith (List.zipWith g) xs xs', ?_, ?_, List.zipWith g v v', ?_, rfl⟩
  · rw [List.length_flatten, List.length_flatten, hl]
  · rw [← h1]
    apply List.ext_getElem?
    intro k
    have hk := congrArg (fun l => l[k]?) hl
    simp only [List.getElem?_map, List.getElem?_zipWith] at hk ⊢
    cases e : xs[k]? <;> cases e' : xs'[k]? <;> simp [e, e'] at hk ⊢
    omega
  · rw [zipWith_flatten g xs xs' hl]
  · rw [List.getElem?_zipWith, h2, h2']

theorem Rel.add {i : Nat} {ns : List Nat} {c : Nat} {x y x' y' : Tensor} (h : Rel i ns c x y) (h' : Rel i ns c x' y') :
    Both (Rel i ns c) (x.add x') (y.add y') := by
  obtain ⟨u, v, u', v', rfl, rfl, rfl, rfl, h1, h2, h3⟩ := h.zip (c := c) (fun v w => fun i => v i + w i) h'
  unfold Tensor.add
  rw [Tensor.as_self, Tensor.as_self]
  show Both _ (if u.length = u'.length then _ else _) (if v.length = v'.length then _ else _)
  rw [if_pos h1, if_pos h2]
  exact Both.pure h3

theorem Rel.cat {i : Nat} {ns : List Nat} {a b : Nat} {x y x' y' : Tensor} (h : Rel i ns a x y) (h' : Rel i ns b x' y') :
    Both (Rel i ns (a + b)) (x.cat x') (y.cat y') := by
  obtain ⟨u, v, u', v', rfl, rfl, rfl, rfl, h1, h2, h3⟩ := h.zip (c := a + b) (fun v w => Fin.append v w) h'
  unfold Tensor.cat
  rw [if_pos h1, if_pos h2]
  exact Both.pure h3

/-! ### the layers that look at the octree -/

/-- A layer that works sample by sample keeps tensors related. -/
theorem Spec.PerSample.rel {os : List (Octree F)} {o' o : Octree F} {i : Nat} (ho : os[i]? = some o) {n m : Octree F → Nat} {c c' : Nat}
    {op : Octree F → List (Fin c → ℚ) → M (List (Fin c' → ℚ))} (h : PerSample os o' n m op) {t s : Tensor}
    (hr : Rel i (os.map n) c t s) : ∃ u v, t = ⟨c, u⟩ ∧ s = ⟨c, v⟩ ∧
      Both (fun y z => Rel i (os.map m) c' ⟨c', y⟩ ⟨c', z⟩) (op o' u) (op o v) := by
  obtain ⟨xs, h1, rfl, x, h2, rfl⟩ := hr
  obtain ⟨ys, h3, h4, h5⟩ := h xs h1
  have e := congrArg (fun l => l[i]?) h3
  simp only [List.getElem?_zipWith, ho, h2, List.getElem?_map] at e
  cases ey : ys[i]? with
  | none => simp [ey] at e
  | some y =>
    simp only [ey, Option.map_some, Option.some.injEq] at e
    exact ⟨_, _, rfl, rfl, ys.flatten, y, h5, e, ys, h4, rfl, y, ey, rfl⟩

theorem Spec.PerSample.on {os : List (Octree F)} {o' o : Octree F} {i : Nat} (ho : os[i]? = some o) {n m : Octree F → Nat} {c c' : Nat}
    {op : Octree F → List (Fin c → ℚ) → M (List (Fin c' → ℚ))} (h : PerSample os o' n m op) {t s : Tensor}
    (hr : Rel i (os.map n) c t s) (e : Err) : Both (Rel i (os.map m) c') (t.on c c' e (op o')) (s.on c c' e (op o)) := by
  obtain ⟨u, v, rfl, rfl, hb⟩ := h.rel ho hr
  rw [Tensor.on_self, Tensor.on_self]
  exact hb.bind fun y z hyz => Both.pure hyz

/-- The number of rows expected at depth `d` of one octree. -/
def rowsAt (nempty : Bool) (d : Nat) (o : Octree F) : Nat := if nempty then o.nnumNempty d else o.nnum d

/-- The number of rows expected at depth `d`. -/
def ht (os : List (Octree F)) (nempty : Bool) (d : Nat) : List Nat := os.map (rowsAt nempty d)

/-- One row per sample. -/
def hb (os : List (Octree F)) : List Nat := os.map Octree.batchSize

/-- In training mode there is one sample only, and batch normalization does not refuse this number of rows. -/
def BnOk (P : Params) (ns : List Nat) : Prop := P.training = true → ns.length = 1 ∧ ns.sum ≠ 1

/-- What the argument needs to know about the layers. -/
structure BatchLayers (P : Params) (os : List (Octree F)) (o' o : Octree F) (i D : Nat) : Prop where
  mem : os[i]? = some o
  conv : ∀ (k : Nat × Nat × Nat), k ∈ supportedKernels → ∀ (nempty : Bool) (d s : Nat), 1 ≤ d → d ≤ D → s = 1 ∨ s = 2 →
    ∀ (ci co : Nat) (ks : List Nat) (m : ConvModule (Fin co → ℚ) (Fin ci → Fin co → ℚ)), KernelArg ks k →
    ConvBase.init true ci co ks s nempty maxBuffer = .ok m.base → (kernelOffsets k).length * ci ≤ maxBuffer →
    m.weights.length = (kernelOffsets k).length →
    PerSample os o' (rowsAt nempty d) (rowsAt nempty (if s = 2 then d - 1 else d)) (fun o x => m.forward (denseKernel ℚ ci co) x o d)
  deconv : ∀ (k : Nat × Nat × Nat), k ∈ supportedKernels → ∀ (nempty : Bool) (d s : Nat), 1 ≤ d → d ≤ D → s = 1 ∨ s = 2 →
    ∀ (ci co : Nat) (ks : List Nat) (m : ConvModule (Fin co → ℚ) (Fin co → Fin ci → ℚ)), KernelArg ks k →
    ConvBase.init false ci co ks s nempty maxBuffer = .ok m.base → (kernelOffsets k).length * co ≤ maxBuffer →
    m.weights.length = (kernelOffsets k).length →
    PerSample os o' (rowsAt nempty (if s = 2 then d - 1 else d)) (rowsAt nempty d)
      (fun o x => m.deconvForward (denseKernel ℚ co ci) x o (if s = 2 then d - 1 else d))
  pool : ∀ (nempty : Bool) (d C : Nat), d + 1 ≤ D →
    PerSample os o' (rowsAt nempty (d + 1)) (rowsAt nempty d)
      (fun o (x : List (Fin C → WithBot ℚ)) => (octreeMaxPool x o d nempty).map Prod.fst) ∧
    PerSample os o' (rowsAt nempty (d + 1)) (rowsAt true d)
      (fun o (x : List (Fin C → WithBot ℚ)) => (octreeMaxPool x o d nempty).map Prod.snd)
  depad : ∀ (d C : Nat), d ≤ D → PerSample os o' (rowsAt false d) (rowsAt true d)
    (fun o (x : List (Fin C → ℚ)) => octreeDepad x o d)
  upsample : ∀ (nempty : Bool) (d C : Nat), d + 1 ≤ D → PerSample os o' (rowsAt nempty d) (rowsAt nempty (d + 1))
    (fun o (x : List (Fin C → ℚ)) => octreeNearestUpsample x o d nempty)
  global : ∀ (nempty : Bool) (d C : Nat), d ≤ D → PerSample os o' (rowsAt nempty d) Octree.batchSize
    (fun o (x : List (Fin C → ℚ)) => octreeGlobalPool x o d nempty)
  voxel : ∀ (nempty : Bool) (d C : Nat), d ≤ D →
    PerSample os o' (rowsAt nempty d) Octree.batchSize
      (fun o (x : List (Fin C → ℚ)) => octree2voxel x o d nempty >>= fun y =>
        .ok (flattenRows o.batchSize (2 ^ d * 2 ^ d * 2 ^ d) C y))
  eight : ∀ d, d + 1 ≤ D → ∀ o ∈ os, o.nnum (d + 1) = 8 * o.nnumNempty d
  bn : ∀ (name : String) (c : Nat) (ns : List Nat), BnOk P ns → ∀ t s, Rel i ns c t s →
    Both (Rel i ns c) (batchNorm P name c t) (batchNorm P name c s)
  drop : ∀ (name : String) (c : Nat) (ns : List Nat) (t s : Tensor), (P.training = true → ns.length = 1) → Rel i ns c t s →
    Rel i ns c (dropout P name t) (dropout P name s)

/-- What the argument needs to know about the interpolation at the query points. -/
def BatchQueries (os : List (Octree F)) (o' o : Octree F) (i D : Nat) (pts' pts : List Pt4) (qs : List Nat) : Prop :=
  ∀ (method : String) (nempty : Bool) (d c : Nat), d ≤ D → ∀ t s, Rel i (ht os nempty d) c t s →
    Both (Rel i qs c) (interp method nempty o' d pts' t) (interp method nempty o d pts s)

end Ocnn
