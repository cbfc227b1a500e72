import Verif.NetSys

/-! Comparing a batch with one of its samples is an instance of the argument about networks. -/

set_option linter.unusedSimpArgs false

namespace Ocnn
open Spec
variable {F : Type}

theorem getIdx_some {α : Type} {t : List α} {i : Nat} {a : α} (h : t[i]? = some a) : getIdx t (i : Int) = .ok a := by
  unfold getIdx normIdx
  obtain ⟨hi, rfl⟩ := List.getElem?_eq_some_iff.mp h
  simp [bind, Except.bind, hi]

theorem init3 (isConv : Bool) (ci co : Nat) (nempty : Bool) :
    ∃ b, ConvBase.init isConv ci co [3] 1 nempty maxBuffer = .ok b ∧ b.kdim = (kernelOffsets (3, 3, 3)).length := by
  exact ⟨_, rfl, rfl⟩

theorem init2 (isConv : Bool) (ci co : Nat) (nempty : Bool) :
    ∃ b, ConvBase.init isConv ci co [2] 2 nempty maxBuffer = .ok b ∧ b.kdim = (kernelOffsets (2, 2, 2)).length := by
  exact ⟨_, rfl, rfl⟩

theorem convWeights_length (P : Params) (name : String) (k a b : Nat) : (convWeights P name k a b).length = k := by
  simp [convWeights]

theorem IsIdx.sample {i : Nat} {ns : List Nat} {c : Nat} {t s : Tensor} (h : IsIdx t) (hr : Rel i ns c t s) : IsIdx s := by
  obtain ⟨xs, _, rfl, x, h2, rfl⟩ := hr
  intro v hv j
  exact h v (List.mem_flatten.2 ⟨x, List.mem_of_getElem? h2, hv⟩) j

theorem IsIdx.floor {c : Nat} {x : List (Fin c → ℚ)} (h : IsIdx ⟨c, x⟩) :
    (∃ r ∈ x.map fun v => fun i => ⌊v i⌋.toNat, ∃ c, ¬ r c < 8) = False := by
  refine eq_false ?_
  rintro ⟨r, hr, j, hj⟩
  obtain ⟨v, hv, rfl⟩ := List.mem_map.1 hr
  obtain ⟨n, hn, e⟩ := h v hv j
  dsimp only at hj
  rw [e] at hj
  simp at hj
  omega

/-- The rows written by `octree_max_unpool`. -/
def unpoolRows {c : Nat} (y ix : List (Fin c → ℚ)) : List (Fin c → ℚ) :=
  (List.zipWith (fun v ix => (List.range 8).map fun j => fun c => if ix c = j then v c else 0) y
    (ix.map fun v => fun i => ⌊v i⌋.toNat)).flatten

theorem Rel.unpool {i : Nat} {ns : List Nat} {c : Nat} {y z : List (Fin c → ℚ)} {ix ix' : Tensor} (h : Rel i ns c ⟨c, y⟩ ⟨c, z⟩)
    (hi : Rel i ns c ix ix') : ∃ a b, ix = ⟨c, a⟩ ∧ ix' = ⟨c, b⟩ ∧ y.length = a.length ∧ z.length = b.length ∧
      Rel i (ns.map fun n => 8 * n) c ⟨c, unpoolRows y a⟩ ⟨c, unpoolRows z b⟩ := by
  obtain ⟨xs, h1, e, v, h2, e'⟩ := h
  cases e; cases e'
  obtain ⟨xs', h1', rfl, v', h2', rfl⟩ := hi
  have hl : xs.map List.length = xs'.map List.length := h1.trans h1'.symm
  have hv : z.length = v'.length := by
    have := congrArg (fun l => l[i]?) hl
    simp only [List.getElem?_map, h2, h2', Option.map_some, Option.some.injEq] at this
    exact this
  have hlen : ∀ y ix : List (Fin c → ℚ), y.length = ix.length → (unpoolRows y ix).length = 8 * y.length := by
    intro y
    induction y with
    | nil => intro ix _; rfl
    | cons a y ih =>
      intro ix hix
      cases ix with
      | nil => cases hix
      | cons b ix =>
        have := ih ix (by simpa using hix)
        unfold unpoolRows at this ⊢
        rw [List.map_cons, List.zipWith_cons_cons, List.flatten_cons, List.length_append, this]
        simp; omega
  refine ⟨_, _, rfl, rfl, by rw [List.length_flatten, List.length_flatten, hl], hv,
    List.zipWith unpoolRows xs xs', ?_, ?_, unpoolRows z v', ?_, rfl⟩
  · rw [← h1]
    apply List.ext_getElem?
    intro k
    have hk := congrArg (fun l => l[k]?) hl
    simp only [List.getElem?_map, List.getElem?_zipWith] at hk ⊢
    cases e : xs[k]? <;> cases e' : xs'[k]? <;> simp [e, e'] at hk ⊢
    exact hlen _ _ hk
  · have : unpoolRows xs.flatten xs'.flatten = (List.zipWith unpoolRows xs xs').flatten := by
      unfold unpoolRows
      rw [List.map_flatten, zipWith_flatten _ xs (xs'.map (List.map fun v => fun i => ⌊v i⌋.toNat)) (by
        rw [hl, List.map_map]; exact List.map_congr_left fun l _ => by simp), List.flatten_flatten, List.map_zipWith,
        List.zipWith_map_right]
    rw [this]
  · rw [List.getElem?_zipWith, h2, h2']

namespace BatchLayers
variable {P : Params} {os : List (Octree F)} {o' o : Octree F} {i D : Nat}

theorem conv3 (L : BatchLayers P os o' o i D) (name : String) {ci : Nat} (co : Nat) {nempty : Bool} {d : Nat} (h1 : 1 ≤ d) (hD : d ≤ D)
    (hc : 27 * ci ≤ maxBuffer) {t s : Tensor} (h : Rel i (ht os nempty d) ci t s) :
    Both (Rel i (ht os nempty d) co) (octreeConv P name ci co [3] 1 nempty o' d t) (octreeConv P name ci co [3] 1 nempty o d s) := by
  obtain ⟨b, e, hk⟩ := init3 true ci co nempty
  have p := L.conv (3, 3, 3) (by decide) nempty d 1 h1 hD (Or.inl rfl) ci co [3]
    { base := b, directMethod := false, weights := convWeights P name b.kdim ci co, bias := none } (Or.inr (Or.inr ⟨rfl, rfl, rfl⟩)) e
    hc (by rw [convWeights_length, hk])
  unfold octreeConv
  rw [e]
  exact p.on L.mem h _

theorem conv2 (L : BatchLayers P os o' o i D) (name : String) {ci : Nat} (co : Nat) {nempty : Bool} {d : Nat} (hD : d + 1 ≤ D)
    (hc : 8 * ci ≤ maxBuffer) {t s : Tensor} (h : Rel i (ht os nempty (d + 1)) ci t s) :
    Both (Rel i (ht os nempty d) co) (octreeConv P name ci co [2] 2 nempty o' (d + 1) t) (octreeConv P name ci co [2] 2 nempty o (d + 1) s) := by
  obtain ⟨b, e, hk⟩ := init2 true ci co nempty
  have p := L.conv (2, 2, 2) (by decide) nempty (d + 1) 2 (by omega) hD (Or.inr rfl) ci co [2]
    { base := b, directMethod := false, weights := convWeights P name b.kdim ci co, bias := none } (Or.inr (Or.inr ⟨rfl, rfl, rfl⟩)) e
    hc (by rw [convWeights_length, hk])
  unfold octreeConv
  rw [e]
  exact p.on L.mem h _

theorem deconv2 (L : BatchLayers P os o' o i D) (name : String) (ci : Nat) {co : Nat} {nempty : Bool} {d : Nat} (hD : d + 1 ≤ D)
    (hc : 8 * co ≤ maxBuffer) {t s : Tensor} (h : Rel i (ht os nempty d) ci t s) :
    Both (Rel i (ht os nempty (d + 1)) co) (octreeDeconv P name ci co [2] 2 nempty o' d t) (octreeDeconv P name ci co [2] 2 nempty o d s) := by
  obtain ⟨b, e, hk⟩ := init2 false ci co nempty
  have p := L.deconv (2, 2, 2) (by decide) nempty (d + 1) 2 (by omega) hD (Or.inr rfl) ci co [2]
    { base := b, directMethod := false, weights := convWeights P name b.kdim co ci, bias := none } (Or.inr (Or.inr ⟨rfl, rfl, rfl⟩)) e
    hc (by rw [convWeights_length, hk])
  unfold octreeDeconv
  rw [e]
  exact p.on L.mem h _

theorem maxPoolIdx (L : BatchLayers P os o' o i D) {c : Nat} {nempty : Bool} {d : Nat} (hD : d + 1 ≤ D) {t s : Tensor}
    (h : Rel i (ht os nempty (d + 1)) c t s) :
    Both (fun p q => Rel i (ht os nempty d) c p.1 q.1 ∧ Rel i (ht os true d) c p.2 q.2)
      (maxPoolIdx nempty o' (d + 1) t) (maxPoolIdx nempty o (d + 1) s) := by
  obtain ⟨xs, h1, rfl, x, h2, rfl⟩ := h
  obtain ⟨p1, p2⟩ := L.pool nempty d c hD
  have hl : (xs.map fun x => x.map fun v => fun i => ((v i : ℚ) : WithBot ℚ)).map List.length = os.map (rowsAt nempty (d + 1)) := by
    rw [show os.map (rowsAt nempty (d + 1)) = xs.map List.length from h1.symm, List.map_map]
    exact List.map_congr_left fun l _ => by simp
  have hx : (xs.map fun x => x.map fun v => fun i => ((v i : ℚ) : WithBot ℚ))[i]? = some (x.map fun v => fun i => ((v i : ℚ) : WithBot ℚ)) := by
    rw [List.getElem?_map, h2]; rfl
  obtain ⟨ys, a1, a2, a3⟩ := p1 _ hl
  obtain ⟨zs, b1, b2, b3⟩ := p2 _ hl
  have ea := congrArg (fun l => l[i]?) a1
  have eb := congrArg (fun l => l[i]?) b1
  rw [List.getElem?_zipWith, L.mem, hx, List.getElem?_map] at ea eb
  cases ey : ys[i]? with
  | none => simp [ey] at ea
  | some y =>
  cases ez : zs[i]? with
  | none => simp [ez] at eb
  | some z =>
  simp only [ey, ez, Option.map_some, Option.some.injEq] at ea eb
  rw [← List.map_flatten] at a3 b3
  dsimp only at a3 b3
  unfold Ocnn.maxPoolIdx
  dsimp only
  cases e1 : octreeMaxPool (xs.flatten.map fun v => fun i => ((v i : ℚ) : WithBot ℚ)) o' d nempty with
  | error er => rw [e1] at a3; cases a3
  | ok r =>
  cases e2 : octreeMaxPool (x.map fun v => fun i => ((v i : ℚ) : WithBot ℚ)) o d nempty with
  | error er => rw [e2] at ea; cases ea
  | ok q =>
  rw [e1] at a3 b3
  rw [e2] at ea eb
  obtain ⟨r1, r2⟩ := r
  obtain ⟨q1, q2⟩ := q
  cases a3; cases b3; cases ea; cases eb
  refine ⟨_, _, rfl, rfl, ⟨ys.map (List.map fun v => fun i => (v i).unbotD 0), ?_, ?_, _, ?_, rfl⟩,
    ⟨zs.map (List.map fun v => fun i => (v i : ℚ)), ?_, ?_, _, ?_, rfl⟩⟩
  · rw [List.map_map]
    exact (List.map_congr_left fun l _ => by simp).trans a2
  · rw [List.map_flatten]
  · rw [List.getElem?_map, ey]; rfl
  · rw [List.map_map]
    exact (List.map_congr_left fun l _ => by simp).trans b2
  · dsimp only; rw [List.map_flatten]
  · rw [List.getElem?_map, ez]; rfl

theorem globalPool (L : BatchLayers P os o' o i D) {c : Nat} {nempty : Bool} {d : Nat} (hD : d ≤ D) {t s : Tensor}
    (h : Rel i (ht os nempty d) c t s) : Both (Rel i (hb os) c) (globalPool nempty o' d t) (globalPool nempty o d s) := by
  obtain ⟨u, v, rfl, rfl, hb⟩ := (L.global nempty d c hD).rel L.mem h
  exact hb.bind fun y z hyz => Both.pure hyz

theorem upsampleT (L : BatchLayers P os o' o i D) {c : Nat} {nempty : Bool} {d : Nat} (hD : d + 1 ≤ D) {t s : Tensor}
    (h : Rel i (ht os nempty d) c t s) :
    Both (Rel i (ht os nempty (d + 1)) c) (Ocnn.upsample nempty o' d t) (Ocnn.upsample nempty o d s) := by
  obtain ⟨u, v, rfl, rfl, hb⟩ := (L.upsample nempty d c hD).rel L.mem h
  have e : ∀ (q : Octree F) (x : List (Fin c → ℚ)), octreeUpsample "nearest" nempty x q d none = octreeNearestUpsample x q d nempty := by
    intro q x
    unfold octreeUpsample
    simp [pyAssert, bind, Except.bind]
  unfold Ocnn.upsample
  rw [e, e]
  exact hb.bind fun y z hyz => Both.pure hyz

theorem depadT (L : BatchLayers P os o' o i D) {c : Nat} {d : Nat} (hD : d ≤ D) {t s : Tensor}
    (h : Rel i (ht os false d) c t s) : Both (Rel i (ht os true d) c) (Ocnn.depad o' d t) (Ocnn.depad o d s) := by
  obtain ⟨u, v, rfl, rfl, hb⟩ := (L.depad d c hD).rel L.mem h
  exact hb.bind fun y z hyz => Both.pure hyz

theorem voxelFlat (L : BatchLayers P os o' o i D) {c : Nat} {nempty : Bool} {d : Nat} (hD : d ≤ D) {t s : Tensor}
    (h : Rel i (ht os nempty d) c t s) :
    Both (Rel i (hb os) (2 ^ d * 2 ^ d * 2 ^ d * c)) (voxelFlat nempty o' d t) (voxelFlat nempty o d s) := by
  obtain ⟨u, v, rfl, rfl, y, z, e1, e2, hr⟩ := (L.voxel nempty d c hD).rel L.mem h
  refine ⟨_, _, ?_, ?_, hr⟩
  · unfold Ocnn.voxelFlat
    dsimp only at e1 ⊢
    cases e : octree2voxel u o' d nempty with
    | error er => rw [e] at e1; cases e1
    | ok r => rw [e] at e1; cases e1; rfl
  · unfold Ocnn.voxelFlat
    dsimp only at e2 ⊢
    cases e : octree2voxel v o d nempty with
    | error er => rw [e] at e2; cases e2
    | ok r => rw [e] at e2; cases e2; rfl

theorem unpoolT (L : BatchLayers P os o' o i D) {c : Nat} {nempty : Bool} {d : Nat} (hD : d + 1 ≤ D) {t s ix ix' : Tensor}
    (h : Rel i (ht os nempty d) c t s) (hi : Rel i (ht os true d) c ix ix') (hs : IsIdx ix) :
    Both (Rel i (ht os nempty (d + 1)) c) (maxUnpool nempty o' d ix t) (maxUnpool nempty o d ix' s) := by
  have hs' : IsIdx ix' := hs.sample hi
  have h8 : (ht os true d).map (fun n => 8 * n) = ht os false (d + 1) := by
    unfold ht
    rw [List.map_map]
    exact List.map_congr_left fun o ho => (L.eight d hD o ho).symm
  unfold Ocnn.maxUnpool octreeMaxUnpool
  cases nempty with
  | false =>
    obtain ⟨u, v, rfl, rfl, y, z, e1, e2, hr⟩ := (L.depad d c (by omega)).rel L.mem h
    obtain ⟨a, b, rfl, rfl, l1, l2, hu⟩ := hr.unpool hi
    dsimp only at e1 e2 ⊢
    rw [Tensor.as_self, Tensor.as_self]
    simp only [if_true, e1, e2, List.length_map, ne_eq, l1.symm, l2.symm, not_true_eq_false, if_false, bind, Except.bind,
      hs.floor, hs'.floor, pure, Except.pure]
    rw [show os.map (rowsAt true d) = ht os true d from rfl, h8] at hu
    exact Both.pure hu
  | true =>
    obtain ⟨xs, h1, rfl, x, h2, rfl⟩ := h
    obtain ⟨a, b, rfl, rfl, l1, l2, hu⟩ := Rel.unpool (y := xs.flatten) (z := x) ⟨xs, h1, rfl, x, h2, rfl⟩ hi
    rw [h8] at hu
    have hp := (L.depad (d + 1) c hD).rel L.mem hu
    obtain ⟨u, v, eu, ev, y, z, e1, e2, hr⟩ := hp
    cases eu; cases ev
    dsimp only at e1 e2 ⊢
    rw [Tensor.as_self, Tensor.as_self]
    simp only [if_true, List.length_map, ne_eq, l1.symm, l2.symm, not_true_eq_false, if_false, bind, Except.bind,
      hs.floor, hs'.floor, pure, Except.pure, reduceCtorEq, Bool.true_eq_false] at e1 e2 ⊢
    unfold unpoolRows at e1 e2
    rw [e1, e2]
    exact Both.pure hr

end BatchLayers

/-- A batch and its `i`-th sample. -/
def batchSys (P : Params) (os : List (Octree F)) (i : Nat) : Sys where
  Idx := List Nat
  ht := ht os
  hb := hb os
  R := Rel i
  ok := BnOk P
  lo := fun _ => 0
  vox := True
  map := fun g h => h.map g
  zip := fun g h h' => h.zip g h'

theorem BatchLayers.toLayers {P : Params} {os : List (Octree F)} {o' o : Octree F} {i D : Nat} (L : BatchLayers P os o' o i D) :
    Layers P P (batchSys P os i) o' o D where
  conv3 := fun name {_} co {_ _} h1 hD hc {_ _} h => L.conv3 name co h1 hD.2 hc h
  conv2 := fun name {_} co {_ _} hD hc {_ _} h => L.conv2 name co hD.2 hc h
  deconv2 := fun name ci {_ _ _} hD hc {_ _} h => L.deconv2 name ci hD.2 hc h
  maxPoolIdx := fun {_ _ _} hD {_ _} h => L.maxPoolIdx hD.2 h
  globalPool := fun {_ _ _} hD {_ _} h => L.globalPool hD.2 h
  upsampleT := fun {_ _ _} hD {_ _} h => L.upsampleT hD.2 h
  depadT := fun {_ _} hD {_ _} h => L.depadT hD.2 h
  unpoolT := fun {_ _ _} _ hD {_ _ _ _} h hi hs => L.unpoolT hD.2 h hi hs
  voxelFlat := fun {_ _ _} _ hD {_ _} h => L.voxelFlat hD.2 h
  bn := L.bn
  drop := fun name c t s hb h => L.drop name c _ t s (fun e => (hb e).1) h

theorem BatchQueries.toQueries {os : List (Octree F)} {o' o : Octree F} {i D : Nat} {pts' pts : List Pt4} {qs : List Nat}
    (P : Params) (h : BatchQueries os o' o i D pts' pts qs) : Queries (batchSys P os i) o' o D pts' pts qs :=
  fun method nempty d c hD t s hr => h method nempty d c hD.2 t s hr

end Ocnn
