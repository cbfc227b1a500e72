import Verif.NetRel

/-! A relational argument about networks that run on two octrees, for any relation between the tensors of the two runs that respects the
operations on single rows (`Sys`).  The facts about the layers that the argument needs are the record `Layers`. -/

set_option linter.unusedSimpArgs false

namespace Ocnn
open Spec
variable {F : Type}

/-- Relations between the tensors of two runs of a network. -/
structure Sys where
  /-- what a tensor has one row for -/
  Idx : Type
  /-- one row per node, or per non-empty node, at a depth -/
  ht : Bool → Nat → Idx
  /-- one row per sample -/
  hb : Idx
  R : Idx → Nat → Tensor → Tensor → Prop
  /-- batch normalization and dropout respect the relation -/
  ok : Idx → Prop
  /-- the coarsest depth at which tensors are related -/
  lo : Bool → Nat
  /-- the voxels of the two runs are related -/
  vox : Prop
  /-- between the indices of max-pooling, one row per non-empty node -/
  I : Nat → Nat → Tensor → Tensor → Prop := fun d c => R (ht true d) c
  /-- unpooling respects the relations -/
  unp : Prop := True
  map : ∀ {r : Idx} {c c' : Nat} {x y : Tensor} (g : (Fin c → ℚ) → Fin c' → ℚ), R r c x y →
    ∃ u v, x = ⟨c, u⟩ ∧ y = ⟨c, v⟩ ∧ R r c' ⟨c', u.map g⟩ ⟨c', v.map g⟩
  zip : ∀ {r : Idx} {a b c : Nat} {x y x' y' : Tensor} (g : (Fin a → ℚ) → (Fin b → ℚ) → Fin c → ℚ), R r a x y → R r b x' y' →
    ∃ u v u' v', x = ⟨a, u⟩ ∧ y = ⟨a, v⟩ ∧ x' = ⟨b, u'⟩ ∧ y' = ⟨b, v'⟩ ∧ u.length = u'.length ∧ v.length = v'.length ∧
      R r c ⟨c, List.zipWith g u u'⟩ ⟨c, List.zipWith g v v'⟩

namespace Sys
variable {S : Sys} {r : S.Idx}

theorem R.width {c : Nat} {x y : Tensor} (h : S.R r c x y) : x.width = c ∧ y.width = c := by
  obtain ⟨u, v, rfl, rfl, -⟩ := S.map (c' := c) id h
  exact ⟨rfl, rfl⟩

theorem R.relu {c : Nat} {x y : Tensor} (h : S.R r c x y) : S.R r c (relu x) (relu y) := by
  obtain ⟨u, v, rfl, rfl, h2⟩ := S.map (c' := c) (fun v => fun i => max (v i) 0) h
  exact h2

theorem R.tanhT {c : Nat} {x y : Tensor} (P : Params) (h : S.R r c x y) :
    S.R r c (tanhT P x) (tanhT P y) := by
  obtain ⟨u, v, rfl, rfl, h2⟩ := S.map (c' := c) (fun v => fun i => P.tanh (v i)) h
  exact h2

theorem R.linear {ci : Nat} {x y : Tensor} (P : Params) (name : String) (co : Nat) (b : Bool)
    (h : S.R r ci x y) : Both (S.R r co) (linear P name ci co b x) (linear P name ci co b y) := by
  obtain ⟨u, v, rfl, rfl, h2⟩ := S.map (c' := co) (fun v => fun j => (∑ i : Fin ci, v i * P.weight name 1 0 i j) + if b then P.bias name j else 0) h
  unfold Ocnn.linear
  rw [Tensor.on_self, Tensor.on_self]
  exact Both.pure h2

theorem R.add {c : Nat} {x y x' y' : Tensor} (h : S.R r c x y) (h' : S.R r c x' y') :
    Both (S.R r c) (x.add x') (y.add y') := by
  obtain ⟨u, v, u', v', rfl, rfl, rfl, rfl, h1, h2, h3⟩ := S.zip (c := c) (fun v w => fun i => v i + w i) h h'
  unfold Tensor.add
  rw [Tensor.as_self, Tensor.as_self]
  show Both _ (if u.length = u'.length then _ else _) (if v.length = v'.length then _ else _)
  rw [if_pos h1, if_pos h2]
  exact Both.pure h3

theorem R.cat {a b : Nat} {x y x' y' : Tensor} (h : S.R r a x y) (h' : S.R r b x' y') :
    Both (S.R r (a + b)) (x.cat x') (y.cat y') := by
  obtain ⟨u, v, u', v', rfl, rfl, rfl, rfl, h1, h2, h3⟩ := S.zip (c := a + b) (fun v w => Fin.append v w) h h'
  unfold Tensor.cat
  rw [if_pos h1, if_pos h2]
  exact Both.pure h3

end Sys

/-- All entries are the integers 0 to 7. -/
def IsIdx (t : Tensor) : Prop := ∀ v ∈ t.rows, ∀ j, ∃ n : Nat, n < 8 ∧ v j = (n : ℚ)

/-- What the argument needs to know about the layers. -/
structure Layers (P' P : Params) (S : Sys) (o' o : Octree F) (D : Nat) : Prop where
  conv3 : ∀ (name : String) {ci : Nat} (co : Nat) {nempty : Bool} {d : Nat}, 1 ≤ d → S.lo nempty ≤ d ∧ d ≤ D → 27 * ci ≤ maxBuffer →
    ∀ {t s : Tensor}, S.R (S.ht nempty d) ci t s →
    Both (S.R (S.ht nempty d) co) (octreeConv P' name ci co [3] 1 nempty o' d t) (octreeConv P name ci co [3] 1 nempty o d s)
  conv2 : ∀ (name : String) {ci : Nat} (co : Nat) {nempty : Bool} {d : Nat}, S.lo nempty ≤ d ∧ d + 1 ≤ D → 8 * ci ≤ maxBuffer →
    ∀ {t s : Tensor}, S.R (S.ht nempty (d + 1)) ci t s →
    Both (S.R (S.ht nempty d) co) (octreeConv P' name ci co [2] 2 nempty o' (d + 1) t) (octreeConv P name ci co [2] 2 nempty o (d + 1) s)
  deconv2 : ∀ (name : String) (ci : Nat) {co : Nat} {nempty : Bool} {d : Nat}, S.lo nempty ≤ d ∧ d + 1 ≤ D → 8 * co ≤ maxBuffer →
    ∀ {t s : Tensor}, S.R (S.ht nempty d) ci t s →
    Both (S.R (S.ht nempty (d + 1)) co) (octreeDeconv P' name ci co [2] 2 nempty o' d t) (octreeDeconv P name ci co [2] 2 nempty o d s)
  maxPoolIdx : ∀ {c : Nat} {nempty : Bool} {d : Nat}, S.lo nempty ≤ d ∧ d + 1 ≤ D → ∀ {t s : Tensor}, S.R (S.ht nempty (d + 1)) c t s →
    Both (fun p q => S.R (S.ht nempty d) c p.1 q.1 ∧ S.I d c p.2 q.2)
      (maxPoolIdx nempty o' (d + 1) t) (maxPoolIdx nempty o (d + 1) s)
  globalPool : ∀ {c : Nat} {nempty : Bool} {d : Nat}, S.lo nempty ≤ d ∧ d ≤ D → ∀ {t s : Tensor}, S.R (S.ht nempty d) c t s →
    Both (S.R S.hb c) (globalPool nempty o' d t) (globalPool nempty o d s)
  upsampleT : ∀ {c : Nat} {nempty : Bool} {d : Nat}, S.lo nempty ≤ d ∧ d + 1 ≤ D → ∀ {t s : Tensor}, S.R (S.ht nempty d) c t s →
    Both (S.R (S.ht nempty (d + 1)) c) (upsample nempty o' d t) (upsample nempty o d s)
  depadT : ∀ {c : Nat} {d : Nat}, S.lo false ≤ d ∧ d ≤ D → ∀ {t s : Tensor}, S.R (S.ht false d) c t s →
    Both (S.R (S.ht true d) c) (depad o' d t) (depad o d s)
  unpoolT : ∀ {c : Nat} {nempty : Bool} {d : Nat}, S.unp → S.lo nempty ≤ d ∧ d + 1 ≤ D → ∀ {t s ix ix' : Tensor}, S.R (S.ht nempty d) c t s →
    S.I d c ix ix' → IsIdx ix → Both (S.R (S.ht nempty (d + 1)) c) (maxUnpool nempty o' d ix t) (maxUnpool nempty o d ix' s)
  voxelFlat : ∀ {c : Nat} {nempty : Bool} {d : Nat}, S.vox → S.lo nempty ≤ d ∧ d ≤ D → ∀ {t s : Tensor}, S.R (S.ht nempty d) c t s →
    Both (S.R S.hb (2 ^ d * 2 ^ d * 2 ^ d * c)) (voxelFlat nempty o' d t) (voxelFlat nempty o d s)
  bn : ∀ (name : String) (c : Nat) (r : S.Idx), S.ok r → ∀ t s, S.R r c t s → Both (S.R r c) (batchNorm P' name c t) (batchNorm P name c s)
  drop : ∀ (name : String) (c : Nat) (t s : Tensor), S.ok S.hb → S.R S.hb c t s → S.R S.hb c (dropout P' name t) (dropout P name s)
  weight : ∀ name i j, P'.weight name 1 0 i j = P.weight name 1 0 i j := by intros; rfl
  bias : P'.bias = P.bias := by rfl
  tanh : P'.tanh = P.tanh := by rfl

namespace Layers
variable {P' P : Params} {S : Sys} {o' o : Octree F} {D : Nat}

theorem linear (L : Layers P' P S o' o D) (name : String) {ci : Nat} (co : Nat) (b : Bool) {r : S.Idx} {t s : Tensor}
    (h : S.R r ci t s) : Both (S.R r co) (linear P' name ci co b t) (linear P name ci co b s) := by
  have e : Ocnn.linear P' name ci co b t = Ocnn.linear P name ci co b t := by
    unfold Ocnn.linear
    simp only [L.weight, L.bias]
  rw [e]
  exact h.linear P name co b

theorem tanhT (L : Layers P' P S o' o D) {c : Nat} {r : S.Idx} {t s : Tensor} (h : S.R r c t s) : S.R r c (tanhT P' t) (tanhT P s) := by
  have e : Ocnn.tanhT P' t = Ocnn.tanhT P t := by
    unfold Ocnn.tanhT
    simp only [L.tanh]
  rw [e]
  exact h.tanhT P

end Layers

/-- What the argument needs to know about the interpolation at the query points with one method. -/
def QueriesBy (method : String) (S : Sys) (o' o : Octree F) (D : Nat) (pts' pts : List Pt4) (q : S.Idx) : Prop :=
  ∀ (nempty : Bool) (d c : Nat), S.lo nempty ≤ d ∧ d ≤ D → ∀ t s, S.R (S.ht nempty d) c t s →
    Both (S.R q c) (interp method nempty o' d pts' t) (interp method nempty o d pts s)

/-- What the argument needs to know about the interpolation at the query points. -/
def Queries (S : Sys) (o' o : Octree F) (D : Nat) (pts' pts : List Pt4) (q : S.Idx) : Prop :=
  ∀ method : String, QueriesBy method S o' o D pts' pts q

end Ocnn
