import Verif.NetMoved
import Verif.PropsReceptive

/-! Networks on two octrees that agree in a region: the layers give equal rows well inside the region.  Every layer costs a margin, measured in
voxels of the finest level `D`. -/

set_option linter.unusedSimpArgs false

namespace Ocnn
open Spec
variable {F : Type}

namespace Spec

/-- The voxel `x` of level `D` is at most `k` voxels away from the cell of level `d` with coordinate `a` (on one axis). -/
def Reach (D d : Nat) (k : Int) (a : Nat) (x : Int) : Prop := a * 2 ^ (D - d) - k ≤ x ∧ x < (a + 1) * 2 ^ (D - d) + k

/-- All voxels of level `D` of the cube that are at most `k` voxels away from the cell `c` of level `d` are in the region. -/
def Surr (U : Nat → Int → Int → Int → Prop) (D d : Nat) (k : Int) (c : Cell) : Prop :=
  ∀ x y z : Int, (0 ≤ x ∧ x < 2 ^ D) → (0 ≤ y ∧ y < 2 ^ D) → (0 ≤ z ∧ z < 2 ^ D) →
    Reach D d k c.x x → Reach D d k c.y y → Reach D d k c.z z → U c.b x y z

end Spec

theorem Spec.Reach.mono {D d : Nat} {k k' : Int} (h : k' ≤ k) {a : Nat} {x : Int} (r : Reach D d k' a x) : Reach D d k a x := by
  unfold Reach at *
  omega

theorem Spec.Surr.mono {U : Nat → Int → Int → Int → Prop} {D d : Nat} {k k' : Int} (h : k' ≤ k) {c : Cell} (hi : Surr U D d k c) : Surr U D d k' c :=
  fun x y z h1 h2 h3 r1 r2 r3 => hi x y z h1 h2 h3 (r1.mono h) (r2.mono h) (r3.mono h)

theorem Spec.Reach.neighbour {D d : Nat} {k : Int} {a a' : Nat} (h : |(a' : Int) - a| ≤ 1) {x : Int} (r : Reach D d k a' x) :
    Reach D d (k + 2 ^ (D - d)) a x := by
  unfold Reach at *
  have hs : (0 : Int) < 2 ^ (D - d) := by positivity
  generalize (2 : Int) ^ (D - d) = s at *
  obtain ⟨h1, h2⟩ := abs_le.1 h
  constructor <;> nlinarith

theorem Spec.Surr.neighbour {U : Nat → Int → Int → Int → Prop} {D d : Nat} {k : Int} {c c' : Cell} (hi : Surr U D d (k + 2 ^ (D - d)) c)
    (hb : c'.b = c.b) (hx : |(c'.x : Int) - c.x| ≤ 1) (hy : |(c'.y : Int) - c.y| ≤ 1) (hz : |(c'.z : Int) - c.z| ≤ 1) : Surr U D d k c' := by
  intro x y z h1 h2 h3 r1 r2 r3
  rw [hb]
  exact hi x y z h1 h2 h3 (r1.neighbour hx) (r2.neighbour hy) (r3.neighbour hz)

theorem pow_level {D d : Nat} (hd : d + 1 ≤ D) : (2 : Int) ^ (D - d) = 2 * 2 ^ (D - (d + 1)) := by
  rw [show D - d = D - (d + 1) + 1 by omega, pow_succ]
  ring

theorem Spec.Reach.child {D d : Nat} (hd : d + 1 ≤ D) {k : Int} {a a' : Nat} (h : a' / 2 = a) {x : Int} (r : Reach D (d + 1) k a' x) : Reach D d k a x := by
  unfold Reach at *
  rw [pow_level hd]
  have hs : (0 : Int) < 2 ^ (D - (d + 1)) := by positivity
  generalize (2 : Int) ^ (D - (d + 1)) = s at *
  have h1 : (2 : Int) * a ≤ a' := by omega
  have h2 : (a' : Int) + 1 ≤ 2 * (a + 1) := by omega
  constructor <;> nlinarith

theorem Spec.Reach.parent {D d : Nat} (hd : d + 1 ≤ D) {k : Int} {a : Nat} {x : Int} (r : Reach D d k (a / 2) x) :
    Reach D (d + 1) (k + 2 ^ (D - (d + 1))) a x := by
  unfold Reach at *
  rw [pow_level hd] at r
  have hs : (0 : Int) < 2 ^ (D - (d + 1)) := by positivity
  generalize (2 : Int) ^ (D - (d + 1)) = s at *
  have h1 : (a : Int) - 1 ≤ 2 * (a / 2 : Nat) := by omega
  have h2 : 2 * (((a / 2 : Nat) : Int) + 1) ≤ a + 2 := by omega
  constructor <;> nlinarith

theorem Spec.Surr.child {U : Nat → Int → Int → Int → Prop} {D d : Nat} (hd : d + 1 ≤ D) {k : Int} {c c' : Cell} (hi : Surr U D d k c) (h : c'.parent = c) :
    Surr U D (d + 1) k c' := by
  subst h
  intro x y z h1 h2 h3 r1 r2 r3
  exact hi x y z h1 h2 h3 (r1.child hd rfl) (r2.child hd rfl) (r3.child hd rfl)

theorem Spec.Surr.parent {U : Nat → Int → Int → Int → Prop} {D d : Nat} (hd : d + 1 ≤ D) {k : Int} {c : Cell}
    (hi : Surr U D (d + 1) (k + 2 ^ (D - (d + 1))) c) : Surr U D d k c.parent := by
  intro x y z h1 h2 h3 r1 r2 r3
  exact hi x y z h1 h2 h3 (r1.parent hd) (r2.parent hd) (r3.parent hd)

/-- Two octrees that are usable up to level `D` and have the same non-empty nodes in the region, and from level `lo` on also the same nodes inside
the region with margin `m`. -/
structure LocalPair (U : Nat → Int → Int → Int → Prop) (o o' : Octree F) (D : Nat) (nempty : Bool) (lo : Nat) (m : Int) : Prop where
  valid : o.Valid D
  valid' : o'.Valid D
  neigh : ∀ d, 1 ≤ d → d ≤ D → NeighExact o.batchSize d o.keys o.neighs
  neigh' : ∀ d, 1 ≤ d → d ≤ D → NeighExact o'.batchSize d o'.keys o'.neighs
  nonneg : 0 ≤ m
  same : ∀ d, lo ≤ d → d ≤ D → ∀ c, Surr U D d m c → (c ∈ qc o nempty d ↔ c ∈ qc o' nempty d)
  sameTrue : ∀ d ≤ D, ∀ c, Surr U D d 0 c → (c ∈ qc o true d ↔ c ∈ qc o' true d)

/-- One row per member of the lists in both tensors, with equal rows at the good members of both lists. -/
def RowRel {α : Type} (A B : List α) (good : α → Prop) (c : Nat) (t s : Tensor) : Prop :=
  ∃ g g' : α → Fin c → ℚ, t = ⟨c, A.map g⟩ ∧ s = ⟨c, B.map g'⟩ ∧ ∀ q, q ∈ A → q ∈ B → good q → g q = g' q

/-- One row per node in both tensors, with equal rows at the nodes that are inside the region with margin `k`. -/
def NearRel (U : Nat → Int → Int → Int → Prop) (o o' : Octree F) (D : Nat) (nempty : Bool) (d : Nat) (k : Int) (c : Nat) (t s : Tensor) : Prop :=
  RowRel (qc o nempty d) (qc o' nempty d) (Surr U D d k) c t s

namespace RowRel
variable {α : Type} {A B : List α} {good good' : α → Prop} {c : Nat} {t s : Tensor}

theorem mono (h : ∀ q, q ∈ A → q ∈ B → good' q → good q) (r : RowRel A B good c t s) : RowRel A B good' c t s := by
  obtain ⟨g, g', h1, h2, h3⟩ := r
  exact ⟨g, g', h1, h2, fun q hq hq' hi => h3 q hq hq' (h q hq hq' hi)⟩

theorem map {c' : Nat} (φ : (Fin c → ℚ) → Fin c' → ℚ) (r : RowRel A B good c t s) :
    ∃ u v, t = ⟨c, u⟩ ∧ s = ⟨c, v⟩ ∧ RowRel A B good c' ⟨c', u.map φ⟩ ⟨c', v.map φ⟩ := by
  obtain ⟨g, g', rfl, rfl, h3⟩ := r
  exact ⟨_, _, rfl, rfl, φ ∘ g, φ ∘ g', by rw [List.map_map], by rw [List.map_map], fun q hq hq' hi => congrArg φ (h3 q hq hq' hi)⟩

theorem relu (h : RowRel A B good c t s) : RowRel A B good c (relu t) (relu s) := by
  obtain ⟨u, v, rfl, rfl, h2⟩ := h.map (c' := c) (fun v => fun i => max (v i) 0)
  exact h2

theorem linear (P : Params) (name : String) (co : Nat) (b : Bool) (h : RowRel A B good c t s) :
    Both (RowRel A B good co) (linear P name c co b t) (linear P name c co b s) := by
  obtain ⟨u, v, rfl, rfl, h2⟩ := h.map (c' := co) (fun v => fun j => (∑ i : Fin c, v i * P.weight name 1 0 i j) + if b then P.bias name j else 0)
  unfold Ocnn.linear
  rw [Tensor.on_self, Tensor.on_self]
  exact Both.pure h2

theorem bn {P : Params} (hP : P.training = false) (name : String) (h : RowRel A B good c t s) :
    Both (RowRel A B good c) (batchNorm P name c t) (batchNorm P name c s) := by
  obtain ⟨u, v, rfl, rfl, h2⟩ := h.map (c' := c) (fun v => fun i =>
      (v i - P.bnMean name i) / P.rt (P.bnVar name i + 1 / 100000) * P.bnWeight name i + P.bnBias name i)
  unfold batchNorm
  rw [Tensor.on_self, Tensor.on_self, hP]
  exact Both.pure h2

theorem add {t' s' : Tensor} (h : RowRel A B good c t s) (h' : RowRel A B good c t' s') : Both (RowRel A B good c) (t.add t') (s.add s') := by
  obtain ⟨g, g', rfl, rfl, h1⟩ := h
  obtain ⟨f, f', rfl, rfl, h2⟩ := h'
  unfold Tensor.add
  dsimp only
  rw [Tensor.as_self, Tensor.as_self]
  simp only [bind, Except.bind, List.length_map, if_true]
  refine Both.pure ⟨fun q => fun i => g q i + f q i, fun q => fun i => g' q i + f' q i, ?_, ?_, fun q hq hq' hi => by simp only [h1 q hq hq' hi, h2 q hq hq' hi]⟩
  · rw [List.zipWith_map, List.zipWith_self]
  · rw [List.zipWith_map, List.zipWith_self]

theorem cat {e : Nat} {t' s' : Tensor} (h : RowRel A B good c t s) (h' : RowRel A B good e t' s') :
    Both (RowRel A B good (c + e)) (t.cat t') (s.cat s') := by
  obtain ⟨g, g', rfl, rfl, h1⟩ := h
  obtain ⟨f, f', rfl, rfl, h2⟩ := h'
  unfold Tensor.cat
  simp only [List.length_map, if_true]
  refine Both.pure ⟨fun q => Fin.append (g q) (f q), fun q => Fin.append (g' q) (f' q), ?_, ?_, fun q hq hq' hi => by simp only [h1 q hq hq' hi, h2 q hq hq' hi]⟩
  · rw [List.zipWith_map, List.zipWith_self]
  · rw [List.zipWith_map, List.zipWith_self]

theorem conv1x1Bn {P : Params} (hP : P.training = false) (name : String) (co : Nat) (h : RowRel A B good c t s) :
    Both (RowRel A B good co) (conv1x1Bn P name c co t) (conv1x1Bn P name c co s) :=
  (h.linear P _ co false).bind fun _ _ h => h.bn hP _

theorem conv1x1BnRelu {P : Params} (hP : P.training = false) (name : String) (co : Nat) (h : RowRel A B good c t s) :
    Both (RowRel A B good co) (conv1x1BnRelu P name c co t) (conv1x1BnRelu P name c co s) :=
  (h.linear P _ co false).bind fun _ _ h => (h.bn hP _).bind fun _ _ h => Both.pure h.relu

end RowRel

namespace LocalPair
variable {U : Nat → Int → Int → Int → Prop} {o o' : Octree F} {D : Nat} {nempty : Bool} {lo : Nat} {m : Int}

theorem mono {d c : Nat} {k k' : Int} (h : k ≤ k') {t s : Tensor} (r : NearRel U o o' D nempty d k c t s) :
    NearRel U o o' D nempty d k' c t s :=
  RowRel.mono (fun _ _ _ hi => hi.mono h) r

theorem field_map {A : List Cell} (hn : A.Nodup) {c : Nat} (g : Cell → Fin c → ℚ) :
    ∃ f, IsField A (A.map g) f ∧ ∀ q ∈ A, f q.b q.x q.y q.z = g q := by
  obtain ⟨f, hf⟩ := exists_field A (A.map g) (by simp) hn
  refine ⟨f, hf, fun q hq => ?_⟩
  obtain ⟨i, hi⟩ := List.mem_iff_getElem?.1 hq
  exact hf.2.1 i q _ hi (by rw [List.getElem?_map, hi]; rfl)

/-- The fields agree at positions that are well inside. -/
theorem field_same (p : LocalPair U o o' D nempty lo m) {d c : Nat} (hl : lo ≤ d) (hd : d ≤ D) {k : Int} (hk : m ≤ k) {g g' : Cell → Fin c → ℚ}
    {f f' : Nat → Int → Int → Int → Fin c → ℚ} (hf : IsField (qc o nempty d) ((qc o nempty d).map g) f)
    (hf' : IsField (qc o' nempty d) ((qc o' nempty d).map g') f') (e : ∀ q ∈ qc o nempty d, f q.b q.x q.y q.z = g q)
    (e' : ∀ q ∈ qc o' nempty d, f' q.b q.x q.y q.z = g' q)
    (hg : ∀ q, q ∈ qc o nempty d → q ∈ qc o' nempty d → Surr U D d k q → g q = g' q) (b : Nat) (x y z : Int)
    (hi : ∀ q : Cell, q.b = b → (q.x : Int) = x → (q.y : Int) = y → (q.z : Int) = z → Surr U D d k q) : f b x y z = f' b x y z := by
  by_cases h : 0 ≤ x ∧ 0 ≤ y ∧ 0 ≤ z
  · obtain ⟨h1, h2, h3⟩ := h
    obtain ⟨x, rfl⟩ := Int.eq_ofNat_of_zero_le h1
    obtain ⟨y, rfl⟩ := Int.eq_ofNat_of_zero_le h2
    obtain ⟨z, rfl⟩ := Int.eq_ofNat_of_zero_le h3
    have hin := hi ⟨b, x, y, z⟩ rfl rfl rfl rfl
    have hs := p.same d hl hd _ (hin.mono hk)
    by_cases hm : (⟨b, x, y, z⟩ : Cell) ∈ qc o nempty d
    · have := e _ hm
      have := e' _ (hs.1 hm)
      have := hg _ hm (hs.1 hm) hin
      simp_all
    · have hm' := fun h => hm (hs.2 h)
      have h1 := MovedPair.field_out hf hm
      have h2 := MovedPair.field_out hf' hm'
      exact h1.trans h2.symm
  · have out : ∀ (A : List Cell) (v : List (Fin c → ℚ)) (f : Nat → Int → Int → Int → Fin c → ℚ), IsField A v f → f b x y z = 0 := by
      intro A v f hf
      refine hf.2.2 _ _ _ _ fun q _ hq => h ?_
      omega
    rw [out _ _ _ hf, out _ _ _ hf']

theorem conv3 (p : LocalPair U o o' D nempty lo m) (P : Params) (name : String) {ci : Nat} (co : Nat) {d : Nat} (h1 : 1 ≤ d) (hl : lo ≤ d) (hd : d ≤ D)
    (hc : 27 * ci ≤ maxBuffer) {k : Int} (hk : m ≤ k) {t s : Tensor} (h : NearRel U o o' D nempty d k ci t s) :
    Both (NearRel U o o' D nempty d (k + 2 ^ (D - d)) co) (octreeConv P name ci co [3] 1 nempty o d t)
      (octreeConv P name ci co [3] 1 nempty o' d s) := by
  obtain ⟨g, g', rfl, rfl, hg⟩ := h
  obtain ⟨f, hf, e⟩ := field_map (qc_nodup p.valid d hd nempty) g
  obtain ⟨f', hf', e'⟩ := field_map (qc_nodup p.valid' d hd nempty) g'
  rw [conv3_eq P name co p.valid hd (p.neigh d h1 hd) hc hf, conv3_eq P name co p.valid' hd (p.neigh' d h1 hd) hc hf']
  refine Both.pure ⟨_, _, rfl, rfl, fun q _ _ hi => ?_⟩
  congr 1
  unfold convAt
  congr 1
  apply List.ext_getElem (by simp)
  intro i i1 i2
  rw [List.getElem_zipWith, List.getElem_zipWith]
  congr 1
  have hi1 : i < (kernelOffsets (3, 3, 3)).length := by
    rw [List.length_zipWith] at i1
    omega
  obtain ⟨g1, g2, g3⟩ := offset_small (3, 3, 3) (by decide) _ (List.getElem_mem hi1)
  unfold around
  refine p.field_same hl hd hk hf hf' e e' hg _ _ _ _ fun r hb hx hy hz => hi.neighbour hb ?_ ?_ ?_
  · rw [hx]; simpa using g1
  · rw [hy]; simpa using g2
  · rw [hz]; simpa using g3

theorem offset2 (g : Int × Int × Int) (hg : g ∈ kernelOffsets (2, 2, 2)) : (0 ≤ g.1 ∧ g.1 ≤ 1) ∧ (0 ≤ g.2.1 ∧ g.2.1 ≤ 1) ∧ (0 ≤ g.2.2 ∧ g.2.2 ≤ 1) := by
  revert g
  decide +kernel

theorem conv2 (p : LocalPair U o o' D nempty lo m) (P : Params) (name : String) {ci : Nat} (co : Nat) {d : Nat} (hl : lo ≤ d) (hd : d + 1 ≤ D)
    (hc : 8 * ci ≤ maxBuffer) {k : Int} (hk : m ≤ k) {t s : Tensor} (h : NearRel U o o' D nempty (d + 1) k ci t s) :
    Both (NearRel U o o' D nempty d k co) (octreeConv P name ci co [2] 2 nempty o (d + 1) t)
      (octreeConv P name ci co [2] 2 nempty o' (d + 1) s) := by
  obtain ⟨g, g', rfl, rfl, hg⟩ := h
  obtain ⟨f, hf, e⟩ := field_map (qc_nodup p.valid _ hd nempty) g
  obtain ⟨f', hf', e'⟩ := field_map (qc_nodup p.valid' _ hd nempty) g'
  rw [conv2_eq P name co p.valid hd (p.neigh _ (by omega) hd) hc hf, conv2_eq P name co p.valid' hd (p.neigh' _ (by omega) hd) hc hf']
  refine Both.pure ⟨_, _, rfl, rfl, fun q _ _ hi => ?_⟩
  refine if_congr (p.sameTrue d (by omega) q (hi.mono (p.nonneg.trans hk))) ?_ rfl
  congr 1
  unfold convAt
  congr 1
  apply List.ext_getElem (by simp)
  intro i i1 i2
  rw [List.getElem_zipWith, List.getElem_zipWith]
  congr 1
  have hi1 : i < (kernelOffsets (2, 2, 2)).length := by
    rw [List.length_zipWith] at i1
    omega
  obtain ⟨⟨a1, a2⟩, ⟨b1, b2⟩, c1, c2⟩ := offset2 _ (List.getElem_mem hi1)
  unfold around
  refine p.field_same (by omega) hd hk hf hf' e e' hg _ _ _ _ fun r hb hx hy hz => hi.child hd ?_
  simp only [firstChild, Nat.cast_mul, Nat.cast_ofNat] at hb hx hy hz
  unfold Cell.parent
  cases q
  simp only [Cell.mk.injEq] at *
  refine ⟨hb, ?_, ?_, ?_⟩ <;> omega

theorem sum_single {M : Type} [AddCommMonoid M] (A : List Cell) (hn : A.Nodup) (a : Cell) (G : Cell → M) (h : ∀ r ∈ A, r ≠ a → G r = 0) :
    (A.map G).sum = if a ∈ A then G a else 0 := by
  induction A with
  | nil => rfl
  | cons r A ih =>
    rw [List.nodup_cons] at hn
    rw [List.map_cons, List.sum_cons, ih hn.2 fun r hr => h r (List.mem_cons_of_mem _ hr)]
    by_cases e : r = a
    · subst e
      rw [if_neg hn.1, if_pos List.mem_cons_self, add_zero]
    · rw [h r List.mem_cons_self e, zero_add]
      refine if_congr ?_ rfl rfl
      rw [List.mem_cons]
      exact ⟨Or.inr, fun h => h.resolve_left fun h => e h.symm⟩

/-- The transposed convolution with kernel 2 reads the parent only. -/
theorem deconvAt_parent {ci co : Nat} (A : List Cell) (hn : A.Nodup) (g : Cell → Fin ci → ℚ) (ws : List (Fin co → Fin ci → ℚ)) (q : Cell) :
    deconvAt (A.map firstChild) (A.map g) (kernelOffsets (2, 2, 2)) ws q = if q.parent ∈ A then
      (List.zipWith (fun o w => if IsShift (firstChild q.parent) q o then vecMatT (g q.parent) w else 0) (kernelOffsets (2, 2, 2)) ws).sum else 0 := by
  have e : deconvAt (A.map firstChild) (A.map g) (kernelOffsets (2, 2, 2)) ws q = (A.map fun r =>
      (List.zipWith (fun o w => if IsShift (firstChild r) q o then vecMatT (g r) w else 0) (kernelOffsets (2, 2, 2)) ws).sum).sum := by
    unfold deconvAt
    rw [List.zipWith_map]
    congr 1
    induction A with
    | nil => rfl
    | cons a A ih => rw [List.zipWith_cons_cons, List.map_cons, ih (List.nodup_cons.1 hn).2]
  rw [e, sum_single A hn q.parent]
  intro r _ hr
  apply List.sum_eq_zero
  intro v hv
  obtain ⟨i, hi, rfl⟩ := List.mem_iff_getElem.1 hv
  rw [List.getElem_zipWith, if_neg]
  intro hs
  have hi1 : i < (kernelOffsets (2, 2, 2)).length := by
    rw [List.length_zipWith] at hi
    omega
  obtain ⟨⟨a1, a2⟩, ⟨b1, b2⟩, c1, c2⟩ := offset2 _ (List.getElem_mem hi1)
  obtain ⟨s1, s2, s3, s4⟩ := hs
  apply hr
  simp only [firstChild, Nat.cast_mul, Nat.cast_ofNat] at s1 s2 s3 s4
  unfold Cell.parent
  cases r
  simp only [Cell.mk.injEq] at *
  refine ⟨s1.symm, ?_, ?_, ?_⟩ <;> omega

theorem deconv2 (p : LocalPair U o o' D nempty lo m) (P : Params) (name : String) (ci : Nat) {co : Nat} {d : Nat} (hl : lo ≤ d) (hd : d + 1 ≤ D)
    (hc : 8 * co ≤ maxBuffer) {k : Int} (hk : m ≤ k) {t s : Tensor} (h : NearRel U o o' D nempty d k ci t s) :
    Both (NearRel U o o' D nempty (d + 1) (k + 2 ^ (D - (d + 1))) co) (octreeDeconv P name ci co [2] 2 nempty o d t)
      (octreeDeconv P name ci co [2] 2 nempty o' d s) := by
  obtain ⟨g, g', rfl, rfl, hg⟩ := h
  rw [deconv2_eq P name ci p.valid hd (p.neigh _ (by omega) hd) hc, deconv2_eq P name ci p.valid' hd (p.neigh' _ (by omega) hd) hc]
  refine Both.pure ⟨_, _, rfl, rfl, fun q _ _ hi => ?_⟩
  have hi := hi.parent hd
  rw [deconvAt_parent _ (qc_nodup p.valid d (by omega) true), deconvAt_parent _ (qc_nodup p.valid' d (by omega) true)]
  congr 1
  have hs := p.sameTrue d (by omega) _ (hi.mono (p.nonneg.trans hk))
  by_cases hm : q.parent ∈ qc o true d
  · have sub : ∀ (o : Octree F) (w : o.Valid D) (c : Cell), c ∈ qc o true d → c ∈ qc o nempty d := by
      intro o w c hc
      cases nempty with
      | true => exact hc
      | false =>
        rw [qc_true, mem_maskSel] at hc
        obtain ⟨i, -, hi⟩ := hc
        exact List.mem_of_getElem? hi
    rw [if_pos hm, if_pos (hs.1 hm), hg _ (sub o p.valid _ hm) (sub o' p.valid' _ (hs.1 hm)) hi]
  · rw [if_neg hm, if_neg fun h => hm (hs.2 h)]

/-! ### modules in evaluation mode -/

variable {P : Params}

theorem convBnRelu3 (p : LocalPair U o o' D nempty lo m) (hP : P.training = false) (name : String) {ci : Nat} (co : Nat) {d : Nat} (h1 : 1 ≤ d)
    (hl : lo ≤ d) (hd : d ≤ D) (hc : 27 * ci ≤ maxBuffer) {k : Int} (hk : m ≤ k) {t s : Tensor} (h : NearRel U o o' D nempty d k ci t s) :
    Both (NearRel U o o' D nempty d (k + 2 ^ (D - d)) co) (convBnRelu P name ci co [3] 1 nempty o d t) (convBnRelu P name ci co [3] 1 nempty o' d s) :=
  (p.conv3 P _ co h1 hl hd hc hk h).bind fun _ _ h => (RowRel.bn hP _ h).bind fun _ _ h => Both.pure h.relu

theorem convBn3 (p : LocalPair U o o' D nempty lo m) (hP : P.training = false) (name : String) {ci : Nat} (co : Nat) {d : Nat} (h1 : 1 ≤ d)
    (hl : lo ≤ d) (hd : d ≤ D) (hc : 27 * ci ≤ maxBuffer) {k : Int} (hk : m ≤ k) {t s : Tensor} (h : NearRel U o o' D nempty d k ci t s) :
    Both (NearRel U o o' D nempty d (k + 2 ^ (D - d)) co) (convBn P name ci co [3] 1 nempty o d t) (convBn P name ci co [3] 1 nempty o' d s) :=
  (p.conv3 P _ co h1 hl hd hc hk h).bind fun _ _ h => RowRel.bn hP _ h

theorem convBnRelu2 (p : LocalPair U o o' D nempty lo m) (hP : P.training = false) (name : String) {ci : Nat} (co : Nat) {d : Nat} (hl : lo ≤ d) (hd : d + 1 ≤ D)
    (hc : 8 * ci ≤ maxBuffer) {k : Int} (hk : m ≤ k) {t s : Tensor} (h : NearRel U o o' D nempty (d + 1) k ci t s) :
    Both (NearRel U o o' D nempty d k co) (convBnRelu P name ci co [2] 2 nempty o (d + 1) t) (convBnRelu P name ci co [2] 2 nempty o' (d + 1) s) :=
  (p.conv2 P _ co hl hd hc hk h).bind fun _ _ h => (RowRel.bn hP _ h).bind fun _ _ h => Both.pure h.relu

theorem deconvBnRelu2 (p : LocalPair U o o' D nempty lo m) (hP : P.training = false) (name : String) (ci : Nat) {co : Nat} {d : Nat} (hl : lo ≤ d) (hd : d + 1 ≤ D)
    (hc : 8 * co ≤ maxBuffer) {k : Int} (hk : m ≤ k) {t s : Tensor} (h : NearRel U o o' D nempty d k ci t s) :
    Both (NearRel U o o' D nempty (d + 1) (k + 2 ^ (D - (d + 1))) co) (deconvBnRelu P name ci co [2] 2 nempty o d t)
      (deconvBnRelu P name ci co [2] 2 nempty o' d s) :=
  (p.deconv2 P _ ci hl hd hc hk h).bind fun _ _ h => (RowRel.bn hP _ h).bind fun _ _ h => Both.pure h.relu

theorem pow_nonneg' (D d : Nat) : (0 : Int) ≤ 2 ^ (D - d) := by positivity

theorem resBlock (p : LocalPair U o o' D nempty lo m) (hP : P.training = false) (name : String) {ci : Nat} (co : Nat) {bnk : Nat} (hbnk : 0 < bnk)
    {d : Nat} (h1 : 1 ≤ d) (hl : lo ≤ d) (hd : d ≤ D) (hc : 27 * (co / bnk) ≤ maxBuffer) {k : Int} (hk : m ≤ k) {t s : Tensor}
    (h : NearRel U o o' D nempty d k ci t s) :
    Both (NearRel U o o' D nempty d (k + 1 * 2 ^ (D - d)) co) (resBlock P name ci co 1 bnk nempty o d t) (resBlock P name ci co 1 bnk nempty o' d s) := by
  unfold Ocnn.resBlock bottleneckChannels
  rw [if_neg (by omega), one_mul]
  have hp := pow_nonneg' D d
  show Both _ (Ocnn.conv1x1BnRelu P _ ci (co / bnk) t >>= _) (Ocnn.conv1x1BnRelu P _ ci (co / bnk) s >>= _)
  refine (RowRel.conv1x1BnRelu hP _ _ h).bind fun a b hab => ?_
  refine (p.convBnRelu3 hP _ _ h1 hl hd hc hk hab).bind fun a b hab => ?_
  refine (RowRel.conv1x1Bn hP _ co hab).bind fun a b hab => ?_
  have hdn : Both (NearRel U o o' D nempty d k co) (if ci ≠ co then Ocnn.conv1x1Bn P (name ++ ".conv1x1c") ci co t else pure t)
      (if ci ≠ co then Ocnn.conv1x1Bn P (name ++ ".conv1x1c") ci co s else pure s) := by
    by_cases e : ci = co
    · subst e
      rw [if_neg (by simp), if_neg (by simp)]
      exact Both.pure h
    · rw [if_pos e, if_pos e]
      exact RowRel.conv1x1Bn hP _ co h
  refine hdn.bind fun c e hce => ?_
  exact (RowRel.add hab (mono (by omega) hce)).bind fun _ _ h => Both.pure h.relu

theorem resBlock2 (p : LocalPair U o o' D nempty lo m) (hP : P.training = false) (name : String) {ci : Nat} (co : Nat) {bnk : Nat} (hbnk : 0 < bnk)
    {d : Nat} (h1 : 1 ≤ d) (hl : lo ≤ d) (hd : d ≤ D) (hci : 27 * ci ≤ maxBuffer) (hc : 27 * (co / bnk) ≤ maxBuffer) {k : Int} (hk : m ≤ k) {t s : Tensor}
    (h : NearRel U o o' D nempty d k ci t s) :
    Both (NearRel U o o' D nempty d (k + 2 * 2 ^ (D - d)) co) (resBlock2 P name ci co 1 bnk nempty o d t)
      (resBlock2 P name ci co 1 bnk nempty o' d s) := by
  unfold Ocnn.resBlock2 bottleneckChannels
  rw [if_neg (by omega), two_mul, ← add_assoc]
  have hp := pow_nonneg' D d
  show Both _ (Ocnn.convBnRelu P _ ci (co / bnk) [3] 1 nempty o d t >>= _) (Ocnn.convBnRelu P _ ci (co / bnk) [3] 1 nempty o' d s >>= _)
  refine (p.convBnRelu3 hP _ _ h1 hl hd hci hk h).bind fun a b hab => ?_
  refine (p.convBn3 hP _ _ h1 hl hd hc (by omega) hab).bind fun a b hab => ?_
  have hdn : Both (NearRel U o o' D nempty d k co) (if ci ≠ co then Ocnn.conv1x1Bn P (name ++ ".conv1x1") ci co t else pure t)
      (if ci ≠ co then Ocnn.conv1x1Bn P (name ++ ".conv1x1") ci co s else pure s) := by
    by_cases e : ci = co
    · subst e
      rw [if_neg (by simp), if_neg (by simp)]
      exact Both.pure h
    · rw [if_pos e, if_pos e]
      exact RowRel.conv1x1Bn hP _ co h
  refine hdn.bind fun c e hce => ?_
  exact (RowRel.add hab (mono (by omega) hce)).bind fun _ _ h => Both.pure h.relu

end LocalPair

/-- The number of convolutions with kernel 3 in a residual block, one after the other. -/
def Spec.blockConvs : BlockKind → Nat
  | .block => 1
  | .block2 => 2

namespace LocalPair
variable {U : Nat → Int → Int → Int → Prop} {o o' : Octree F} {D : Nat} {nempty : Bool} {lo : Nat} {m : Int} {P : Params}

theorem resBlocks (p : LocalPair U o o' D nempty lo m) (hP : P.training = false) (kind : BlockKind) (name : String) {ci : Nat} (co num : Nat) {bnk : Nat} (hbnk : 0 < bnk)
    {d : Nat} (h1 : 1 ≤ d) (hl : lo ≤ d) (hd : d ≤ D) (hci : 27 * ci ≤ maxBuffer) (hc : 27 * co ≤ maxBuffer) {k : Int} (hk : m ≤ k) {t s : Tensor}
    (h : NearRel U o o' D nempty d k ci t s) :
    Both (NearRel U o o' D nempty d (k + (blockConvs kind * num : Nat) * 2 ^ (D - d)) (if num = 0 then ci else co))
      (resBlocks P kind name ci co num bnk nempty o d t) (resBlocks P kind name ci co num bnk nempty o' d s) := by
  have hcb : 27 * (co / bnk) ≤ maxBuffer := by
    have := Nat.div_le_self co bnk
    omega
  refine Both.fold (fun j => NearRel U o o' D nempty d (k + (blockConvs kind * j : Nat) * 2 ^ (D - d)) (if j = 0 then ci else co)) num _ _
    (fun j _ a b hab => ?_) (by simpa using h)
  unfold resStep oneBlock
  rw [if_neg (Nat.succ_ne_zero j)]
  have hj : m ≤ k + ((blockConvs kind * j : Nat) : Int) * 2 ^ (D - d) := by
    have : 0 ≤ ((blockConvs kind * j : Nat) : Int) * 2 ^ (D - d) := by positivity
    omega
  have e : k + ((blockConvs kind * (j + 1) : Nat) : Int) * 2 ^ (D - d) =
      k + ((blockConvs kind * j : Nat) : Int) * 2 ^ (D - d) + (blockConvs kind : Int) * 2 ^ (D - d) := by
    push_cast
    ring
  rw [e]
  cases kind with
  | block => exact p.resBlock hP _ co hbnk h1 hl hd hcb hj hab
  | block2 => exact p.resBlock2 hP _ co hbnk h1 hl hd (by split <;> assumption) hcb hj hab

end LocalPair
end Ocnn
