import Verif.PropsConv

/-! Property C186: smaller kernels, sums of layers and the identity are special cases of a 3 x 3 x 3 convolution. -/

namespace Ocnn
open Spec
variable {F : Type}

/-! ### specification -/

/-- The matrix that a kernel with the given offsets has at offset `g`: zero if `g` is not one of its offsets. -/
def Spec.weightAt {W : Type} [Zero W] (offs : List (Int × Int × Int)) (ws : List W) (g : Int × Int × Int) : W := ((offs.zip ws).lookup g).getD 0

/-- `m` is a convolution layer with kernel `k` and stride `s`, given to the constructor in any of its forms, with one matrix per offset; the buffered
method has room for one row. -/
structure ConvLayer {R : Type} {ci co : Nat} (k : Nat × Nat × Nat) (s : Nat) (nempty : Bool) (m : ConvModule (Fin co → R) (Fin ci → Fin co → R)) : Prop where
  supported : k ∈ supportedKernels
  made : ∃ ks mb, KernelArg ks k ∧ ConvBase.init true ci co ks s nempty mb = .ok m.base ∧ (m.directMethod = false → (kernelOffsets k).length * ci ≤ mb)
  weights : m.weights.length = (kernelOffsets k).length

/-! ### lemmas -/

theorem kernelOffsets_nodup : ∀ k ∈ supportedKernels, (kernelOffsets k).Nodup := by decide

theorem kernelOffsets_sub : ∀ k ∈ supportedKernels, ∀ g ∈ kernelOffsets k, g ∈ kernelOffsets (3, 3, 3) := by decide

theorem kernelOffsets_zero : ∀ k ∈ supportedKernels, (0, 0, 0) ∈ kernelOffsets k := by decide

theorem sum_single {A V : Type} [DecidableEq A] [AddCommMonoid V] (l : List A) (a : A) (v : V) (b : A → V) (hn : l.Nodup) (ha : a ∈ l) (hb : b a = 0) :
    (l.map fun g => if g = a then v else b g).sum = v + (l.map b).sum := by
  induction l with
  | nil => simp at ha
  | cons x l ih =>
    rw [List.nodup_cons] at hn
    simp only [List.map_cons, List.sum_cons]
    by_cases hx : x = a
    · subst hx
      rw [if_pos rfl, hb, zero_add]
      congr 2
      apply List.map_congr_left
      intro g hg
      rw [if_neg]
      rintro rfl
      exact hn.1 hg
    · have hal : a ∈ l := by
        rcases List.mem_cons.mp ha with h | h
        · exact absurd h.symm hx
        · exact h
      rw [if_neg hx, ih hn.2 hal, add_left_comm]

/-- summing over a larger set of offsets with zeros changes nothing -/
theorem sum_spread {A W V : Type} [BEq A] [LawfulBEq A] [DecidableEq A] [Zero W] [AddCommMonoid V] (F : A → W → V) (hF : ∀ g, F g 0 = 0) (big : List A) (hb : big.Nodup)
    (offs : List A) (ws : List W) (hn : offs.Nodup) (hl : ws.length = offs.length) (hs : ∀ g ∈ offs, g ∈ big) :
    (big.map fun g => F g (((offs.zip ws).lookup g).getD 0)).sum = (List.zipWith F offs ws).sum := by
  induction offs generalizing ws with
  | nil => simp [hF]
  | cons a offs ih =>
    cases ws with
    | nil => simp at hl
    | cons w ws =>
      rw [List.nodup_cons] at hn
      have hnone : (offs.zip ws).lookup a = none := by
        rw [List.lookup_eq_none_iff]
        rintro ⟨p, q⟩ hp
        have := (List.of_mem_zip hp).1
        rw [bne_iff_ne]
        rintro rfl
        exact hn.1 this
      have e : (fun g => F g ((((a :: offs).zip (w :: ws)).lookup g).getD 0))
          = fun g => if g = a then F a w else F g (((offs.zip ws).lookup g).getD 0) := by
        funext g
        rw [List.zip_cons_cons, List.lookup_cons]
        by_cases hg : g = a
        · subst hg; simp
        · have : (g == a) = false := by simpa using hg
          rw [this, if_neg hg]
      rw [e, sum_single big a _ _ hb (hs a (by simp)) (by rw [hnone]; exact hF a),
        ih ws hn.2 (by simpa using hl) (fun g hg => hs g (by simp [hg]))]
      simp

theorem vecMat_zero {R : Type} [CommSemiring R] {m n : Nat} (v : Fin m → R) : vecMat v (0 : Fin m → Fin n → R) = 0 := by
  funext c
  simp [vecMat]

theorem vecMat_add {R : Type} [CommSemiring R] {m n : Nat} (v : Fin m → R) (a b : Fin m → Fin n → R) : vecMat v (a + b) = vecMat v a + vecMat v b := by
  funext c
  simp [vecMat, mul_add, Finset.sum_add_distrib]

theorem vecMat_lin {R : Type} [CommSemiring R] {m n : Nat} (r : R) (u v : Fin m → R) (a : Fin m → Fin n → R) :
    vecMat (fun j => r * u j + v j) a = fun c => r * vecMat u a c + vecMat v a c := by
  funext c
  simp only [vecMat, add_mul, Finset.sum_add_distrib, Finset.mul_sum, mul_assoc]

theorem vecMat_one {R : Type} [CommSemiring R] {m : Nat} (v : Fin m → R) : vecMat v (fun i j => if i = j then 1 else 0) = v := by
  funext c
  simp [vecMat]

/-- the convolution, as a sum over any larger set of offsets -/
theorem convAt_spread {R : Type} [CommSemiring R] {m n : Nat} (f : Nat → Int → Int → Int → Fin m → R) (offs big : List (Int × Int × Int))
    (ws : List (Fin m → Fin n → R)) (c : Cell) (hb : big.Nodup) (hn : offs.Nodup) (hl : ws.length = offs.length) (hs : ∀ g ∈ offs, g ∈ big) :
    convAt f offs ws c = (big.map fun g => vecMat (around f c g) (weightAt offs ws g)).sum :=
  (sum_spread (fun g w => vecMat (around f c g) w) (fun g => vecMat_zero _) big hb offs ws hn hl hs).symm

theorem convAt_map {R : Type} [CommSemiring R] {m n : Nat} (f : Nat → Int → Int → Int → Fin m → R) (offs : List (Int × Int × Int))
    (w : Int × Int × Int → Fin m → Fin n → R) (c : Cell) : convAt f offs (offs.map w) c = (offs.map fun g => vecMat (around f c g) (w g)).sum := by
  unfold convAt
  rw [List.zipWith_map_right, List.zipWith_self]

/-- where the rows of the output of a layer belong; `none` is the row of an empty node -/
inductive Outs (o : Octree F) (nempty : Bool) : Nat → Nat → List Cell → List (Option Cell) → Prop
  | one (d : Nat) (cells : List Cell) (ch : List Int) : CellsOf o.batchSize d o.keys cells → o.children d = some ch →
      Outs o nempty d 1 (queried nempty cells ch) ((queried nempty cells ch).map some)
  | two (d : Nat) (cells : List Cell) (ch : List Int) (pcells : List Cell) (pch : List Int) :
      CellsOf o.batchSize (d + 1) o.keys cells → o.children (d + 1) = some ch →
      CellsOf o.batchSize d o.keys pcells → o.children d = some pch →
      Outs o nempty (d + 1) 2 (queried nempty cells ch) (if nempty then ((nonEmpty pcells pch).map firstChild).map some else
        (pcells.zip pch).map fun p => if 0 ≤ p.2 then some (firstChild p.1) else none)

theorem nodes_outs {o : Octree F} {nempty : Bool} {d s : Nat} {srcs targets : List Cell} (h : Nodes o nempty d s srcs targets) :
    ∃ outs, Outs o nempty d s srcs outs := by
  cases h with
  | one d cells ch h1 h2 => exact ⟨_, .one d cells ch h1 h2⟩
  | two d cells ch pcells pch h1 h2 h3 h4 => exact ⟨_, .two d cells ch pcells pch h1 h2 h3 h4⟩

theorem layer_forward {R : Type} [CommSemiring R] {ci co : Nat} (o : Octree F) (h : Nat) (w : o.Valid h) (d s : Nat) (hd : d ≤ h)
    (hn : NeighExact o.batchSize d o.keys o.neighs) (k : Nat × Nat × Nat) (nempty : Bool) (srcs : List Cell) (outs : List (Option Cell))
    (hO : Outs o nempty d s srcs outs) (m : ConvModule (Fin co → R) (Fin ci → Fin co → R)) (hm : ConvLayer k s nempty m)
    (x : List (Fin ci → R)) (f : Nat → Int → Int → Int → Fin ci → R) (hf : IsField srcs x f) :
    m.forward (denseKernel R ci co) x o d = .ok (outs.map fun t => match t with
      | some c => convAt f (kernelOffsets k) m.weights c + m.bias.getD 0
      | none => 0) := by
  obtain ⟨ks, mb, ha, hi, hb⟩ := hm.made
  cases hO with
  | one d cells ch h1 h2 =>
    rw [C34_stride1 o h w d hd hn k hm.supported nempty cells h1 ch h2 ks mb m ha hi hb hm.weights x f hf, List.map_map]
    rfl
  | two d cells ch pcells pch h1 h2 h3 h4 =>
    rw [C34_stride2 o h w d hd hn k hm.supported nempty cells h1 ch h2 pcells h3 pch h4 ks mb m ha hi hb hm.weights x f hf]
    cases nempty
    · simp only [Bool.false_eq_true, if_false, List.map_map]
      congr 1
      apply List.map_congr_left
      rintro ⟨c, v⟩ _
      simp only [Function.comp]
      by_cases hv : 0 ≤ v
      · simp only [hv, if_true]
      · simp only [hv, if_false]
    · simp only [if_true, List.map_map]
      rfl

theorem weights_eq {W : Type} (big : List (Int × Int × Int)) (ws : List W) (w : Int × Int × Int → W) (hl : ws.length = big.length)
    (h : ∀ (j : Nat) (g : Int × Int × Int), big[j]? = some g → ws[j]? = some (w g)) : ws = big.map w := by
  apply List.ext_getElem?
  intro j
  rw [List.getElem?_map]
  by_cases hj : j < big.length
  · rw [h j _ (List.getElem?_eq_getElem hj), List.getElem?_eq_getElem hj]
    rfl
  · rw [List.getElem?_eq_none (by omega), List.getElem?_eq_none (by omega)]
    rfl

/-! ### C186 -/

/-- **C186, parallel layers.** The sum of the outputs of two layers of any kernels is the output of one layer whose kernel has the offsets of both, with
the sums of their matrices and of their biases; for stride 1 and 2. -/
theorem C186_parallel {R : Type} [CommSemiring R] {ci co : Nat} (o : Octree F) (h : Nat) (w : o.Valid h) (d s : Nat) (hd : d ≤ h)
    (hn : NeighExact o.batchSize d o.keys o.neighs) (nempty : Bool) (srcs targets : List Cell) (hN : Nodes o nempty d s srcs targets)
    (k1 k2 k : Nat × Nat × Nat) (m1 m2 m : ConvModule (Fin co → R) (Fin ci → Fin co → R))
    (l1 : ConvLayer k1 s nempty m1) (l2 : ConvLayer k2 s nempty m2) (l : ConvLayer k s nempty m)
    (hs1 : ∀ g ∈ kernelOffsets k1, g ∈ kernelOffsets k) (hs2 : ∀ g ∈ kernelOffsets k2, g ∈ kernelOffsets k)
    (hw : ∀ (j : Nat) (g : Int × Int × Int), (kernelOffsets k)[j]? = some g →
      m.weights[j]? = some (weightAt (kernelOffsets k1) m1.weights g + weightAt (kernelOffsets k2) m2.weights g))
    (hb : m.bias.getD 0 = m1.bias.getD 0 + m2.bias.getD 0) (x : List (Fin ci → R)) (hx : srcs.length = x.length) :
    ∃ y1 y2, m1.forward (denseKernel R ci co) x o d = .ok y1 ∧ m2.forward (denseKernel R ci co) x o d = .ok y2 ∧ y1.length = y2.length ∧
      m.forward (denseKernel R ci co) x o d = .ok (List.zipWith (· + ·) y1 y2) := by
  obtain ⟨f, hf⟩ := exists_field srcs x hx (nodes_nodup o h w d hd nempty s srcs targets hN)
  obtain ⟨outs, hO⟩ := nodes_outs hN
  refine ⟨_, _, layer_forward o h w d s hd hn k1 nempty srcs outs hO m1 l1 x f hf, layer_forward o h w d s hd hn k2 nempty srcs outs hO m2 l2 x f hf,
    by simp, ?_⟩
  rw [layer_forward o h w d s hd hn k nempty srcs outs hO m l x f hf, List.zipWith_map, List.zipWith_self]
  congr 1
  apply List.map_congr_left
  intro t _
  cases t with
  | none => simp
  | some c =>
    have nd := kernelOffsets_nodup k l.supported
    simp only [hb]
    rw [weights_eq _ m.weights _ l.weights hw, convAt_map, convAt_spread f _ (kernelOffsets k) m1.weights c nd (kernelOffsets_nodup k1 l1.supported) l1.weights hs1,
      convAt_spread f _ (kernelOffsets k) m2.weights c nd (kernelOffsets_nodup k2 l2.supported) l2.weights hs2]
    have e : (fun g => vecMat (around f c g) (weightAt (kernelOffsets k1) m1.weights g + weightAt (kernelOffsets k2) m2.weights g))
        = fun g => vecMat (around f c g) (weightAt (kernelOffsets k1) m1.weights g) + vecMat (around f c g) (weightAt (kernelOffsets k2) m2.weights g) := by
      funext g
      exact vecMat_add _ _ _
    rw [e, List.sum_map_add]
    exact add_add_add_comm _ _ _ _

/-- **C186, smaller kernels.** A layer of any kernel is the layer of a larger kernel, in particular of 3 x 3 x 3, that has the same matrices at the
offsets of the first and zeros at the others. -/
theorem C186_embed {R : Type} [CommSemiring R] {ci co : Nat} (o : Octree F) (h : Nat) (w : o.Valid h) (d s : Nat) (hd : d ≤ h)
    (hn : NeighExact o.batchSize d o.keys o.neighs) (nempty : Bool) (srcs targets : List Cell) (hN : Nodes o nempty d s srcs targets)
    (k k' : Nat × Nat × Nat) (m m' : ConvModule (Fin co → R) (Fin ci → Fin co → R)) (l : ConvLayer k s nempty m) (l' : ConvLayer k' s nempty m')
    (hs : k' = (3, 3, 3) ∨ ∀ g ∈ kernelOffsets k, g ∈ kernelOffsets k')
    (hw : ∀ (j : Nat) (g : Int × Int × Int), (kernelOffsets k')[j]? = some g → m'.weights[j]? = some (weightAt (kernelOffsets k) m.weights g))
    (hb : m'.bias.getD 0 = m.bias.getD 0) (x : List (Fin ci → R)) (hx : srcs.length = x.length) :
    ∃ y, m.forward (denseKernel R ci co) x o d = .ok y ∧ m'.forward (denseKernel R ci co) x o d = .ok y := by
  have hs' : ∀ g ∈ kernelOffsets k, g ∈ kernelOffsets k' := by
    rcases hs with rfl | hs
    · exact kernelOffsets_sub k l.supported
    · exact hs
  obtain ⟨f, hf⟩ := exists_field srcs x hx (nodes_nodup o h w d hd nempty s srcs targets hN)
  obtain ⟨outs, hO⟩ := nodes_outs hN
  refine ⟨_, layer_forward o h w d s hd hn k nempty srcs outs hO m l x f hf, ?_⟩
  rw [layer_forward o h w d s hd hn k' nempty srcs outs hO m' l' x f hf]
  congr 1
  apply List.map_congr_left
  intro t _
  cases t with
  | none => rfl
  | some c =>
    simp only [hb]
    rw [weights_eq _ m'.weights _ l'.weights hw, convAt_map,
      convAt_spread f _ (kernelOffsets k') m.weights c (kernelOffsets_nodup k' l'.supported) (kernelOffsets_nodup k l.supported) l.weights hs']

/-- **C186, linear.** A layer without bias maps linear combinations of features to the linear combinations of the outputs. -/
theorem C186_linear {R : Type} [CommSemiring R] {ci co : Nat} (o : Octree F) (h : Nat) (w : o.Valid h) (d s : Nat) (hd : d ≤ h)
    (hn : NeighExact o.batchSize d o.keys o.neighs) (nempty : Bool) (srcs targets : List Cell) (hN : Nodes o nempty d s srcs targets)
    (k : Nat × Nat × Nat) (m : ConvModule (Fin co → R) (Fin ci → Fin co → R)) (l : ConvLayer k s nempty m) (hb : m.bias = none)
    (r : R) (x x' : List (Fin ci → R)) (hx : srcs.length = x.length) (hx' : srcs.length = x'.length) :
    ∃ y y', m.forward (denseKernel R ci co) x o d = .ok y ∧ m.forward (denseKernel R ci co) x' o d = .ok y' ∧ y.length = y'.length ∧
      m.forward (denseKernel R ci co) (List.zipWith (fun a b => fun j => r * a j + b j) x x') o d
        = .ok (List.zipWith (fun a b => fun j => r * a j + b j) y y') := by
  have nd := nodes_nodup o h w d hd nempty s srcs targets hN
  obtain ⟨f, hf⟩ := exists_field srcs x hx nd
  obtain ⟨f', hf'⟩ := exists_field srcs x' hx' nd
  have hg : IsField srcs (List.zipWith (fun a b => fun j => r * a j + b j) x x') (fun b u v z => fun j => r * f b u v z j + f' b u v z j) := by
    refine ⟨by simp [← hx, ← hx'], ?_, ?_⟩
    · intro i c v hc hv
      rw [List.getElem?_zipWith] at hv
      cases h1 : x[i]? with
      | none => rw [h1] at hv; simp at hv
      | some a =>
        cases h2 : x'[i]? with
        | none => rw [h1, h2] at hv; simp at hv
        | some a' =>
          rw [h1, h2] at hv
          simp only [Option.some.injEq] at hv
          rw [← hv]
          beta_reduce
          rw [hf.2.1 i c a hc h1, hf'.2.1 i c a' hc h2]
    · intro b u v z hno
      funext j
      beta_reduce
      rw [hf.2.2 b u v z hno, hf'.2.2 b u v z hno]
      simp
  obtain ⟨outs, hO⟩ := nodes_outs hN
  refine ⟨_, _, layer_forward o h w d s hd hn k nempty srcs outs hO m l x f hf, layer_forward o h w d s hd hn k nempty srcs outs hO m l x' f' hf',
    by simp, ?_⟩
  rw [layer_forward o h w d s hd hn k nempty srcs outs hO m l _ _ hg, List.zipWith_map, List.zipWith_self]
  congr 1
  apply List.map_congr_left
  intro t _
  cases t with
  | none => funext j; simp
  | some c =>
    simp only [hb, Option.getD_none, add_zero]
    unfold convAt
    generalize kernelOffsets k = offs
    generalize m.weights = ws
    induction offs generalizing ws with
    | nil => funext j; simp
    | cons g offs ih =>
      cases ws with
      | nil => funext j; simp
      | cons a ws =>
        simp only [List.zipWith_cons_cons, List.sum_cons]
        rw [ih ws]
        have e : around (fun b u v z => fun j => r * f b u v z j + f' b u v z j) c g = fun j => r * around f c g j + around f' c g j := rfl
        rw [e, vecMat_lin]
        funext j
        simp only [Pi.add_apply]
        ring

/-- **C186, identity.** A layer of stride 1 with the unit matrix at the centre, zeros at the other offsets and no bias returns its input. -/
theorem C186_identity {R : Type} [CommSemiring R] {ci : Nat} (o : Octree F) (h : Nat) (w : o.Valid h) (d : Nat) (hd : d ≤ h)
    (hn : NeighExact o.batchSize d o.keys o.neighs) (nempty : Bool) (srcs targets : List Cell) (hN : Nodes o nempty d 1 srcs targets)
    (k : Nat × Nat × Nat) (m : ConvModule (Fin ci → R) (Fin ci → Fin ci → R)) (l : ConvLayer k 1 nempty m) (hb : m.bias = none)
    (hw : ∀ (j : Nat) (g : Int × Int × Int), (kernelOffsets k)[j]? = some g →
      m.weights[j]? = some (if g = (0, 0, 0) then fun i j => if i = j then 1 else 0 else (0 : Fin ci → Fin ci → R)))
    (x : List (Fin ci → R)) (hx : srcs.length = x.length) : m.forward (denseKernel R ci ci) x o d = .ok x := by
  obtain ⟨f, hf⟩ := exists_field srcs x hx (nodes_nodup o h w d hd nempty 1 srcs targets hN)
  cases hN with
  | one d cells ch h1 h2 =>
    rw [layer_forward o h w d 1 hd hn k nempty _ _ (.one d cells ch h1 h2) m l x f hf, List.map_map]
    congr 1
    apply List.ext_getElem?
    intro i
    rw [List.getElem?_map]
    by_cases hi : i < x.length
    · have e1 : (queried nempty cells ch)[i]? = some ((queried nempty cells ch)[i]'(by omega)) := List.getElem?_eq_getElem _
      have e2 : x[i]? = some x[i] := List.getElem?_eq_getElem hi
      generalize (queried nempty cells ch)[i]'(by omega) = c at e1
      rw [e1, e2]
      simp only [Option.map_some, Option.some.injEq, Function.comp, hb, Option.getD_none, add_zero]
      rw [weights_eq _ m.weights _ l.weights hw, convAt_map]
      have e : (fun g => vecMat (around f c g) (if g = (0, 0, 0) then fun i j => if i = j then (1 : R) else 0 else (0 : Fin ci → Fin ci → R)))
          = fun g => if g = ((0, 0, 0) : Int × Int × Int) then around f c (0, 0, 0) else (0 : Fin ci → R) := by
        funext g
        by_cases hg : g = (0, 0, 0)
        · rw [if_pos hg, if_pos hg, hg]
          exact vecMat_one _
        · rw [if_neg hg, if_neg hg]
          exact vecMat_zero _
      rw [e, sum_single (kernelOffsets k) (0, 0, 0) (around f c (0, 0, 0)) (fun _ => (0 : Fin ci → R)) (kernelOffsets_nodup k l.supported) (kernelOffsets_zero k l.supported) rfl]
      have e3 := hf.2.1 i c x[i] e1 e2
      simp only [List.map_const', List.sum_replicate, smul_zero, add_zero]
      unfold around
      simpa using e3
    · rw [List.getElem?_eq_none (by omega), List.getElem?_eq_none (by omega)]
      rfl

/-! ### the hypotheses can be met -/

/-- a layer of any supported kernel with the given matrices -/
def layerWith {ci co : Nat} (k : Nat × Nat × Nat) (s : Nat) (nempty : Bool) (w : Int × Int × Int → Fin ci → Fin co → ℚ) :
    ConvModule (Fin co → ℚ) (Fin ci → Fin co → ℚ) where
  base := { isConv := true, inChannels := ci, outChannels := co, kernelSize := [k.1, k.2.1, k.2.2], kernel := kernelName k, stride := s,
            nempty := nempty, maxBuffer := 27 * ci, kdim := (kernelOffsets k).length, inConv := ci }
  directMethod := false
  weights := (kernelOffsets k).map w
  bias := none

theorem layerWith_layer {ci co : Nat} (k : Nat × Nat × Nat) (hk : k ∈ supportedKernels) (s : Nat) (nempty : Bool)
    (w : Int × Int × Int → Fin ci → Fin co → ℚ) : ConvLayer k s nempty (layerWith k s nempty w) := by
  refine ⟨hk, ⟨[k.1, k.2.1, k.2.2], 27 * ci, Or.inl rfl, ?_, ?_⟩, by simp [layerWith]⟩
  · rw [init_ok true ci co _ s nempty (27 * ci) k hk (Or.inl rfl)]
    rfl
  · intro _
    have : ∀ k ∈ supportedKernels, (kernelOffsets k).length ≤ 27 := by decide
    exact Nat.mul_le_mul_right _ (this k hk)

/-- A 3 x 1 x 1 and a 2 x 2 x 2 layer next to each other, as one 3 x 3 x 3 layer; on the octree of the examples, with stride 1 and 2. -/
example : ∃ (o : Octree Unit) (m1 m2 m : ConvModule (Fin 2 → ℚ) (Fin 3 → Fin 2 → ℚ)) (srcs targets : List Cell), o.Valid 2 ∧
    NeighExact o.batchSize 2 o.keys o.neighs ∧ Nodes o false 2 2 srcs targets ∧ srcs.length = 16 ∧
    ConvLayer (3, 1, 1) 2 false m1 ∧ ConvLayer (2, 2, 2) 2 false m2 ∧ ConvLayer (3, 3, 3) 2 false m ∧
    (∀ (j : Nat) (g : Int × Int × Int), (kernelOffsets (3, 3, 3))[j]? = some g →
      m.weights[j]? = some (weightAt (kernelOffsets (3, 1, 1)) m1.weights g + weightAt (kernelOffsets (2, 2, 2)) m2.weights g)) ∧
    m.bias.getD 0 = m1.bias.getD 0 + m2.bias.getD 0 := by
  obtain ⟨o, h1, h2, h3, h4, h5, h6, h7⟩ := example_valid'
  let m1 : ConvModule (Fin 2 → ℚ) (Fin 3 → Fin 2 → ℚ) := layerWith (3, 1, 1) 2 false fun g i j => g.1 + i.val - j.val
  let m2 : ConvModule (Fin 2 → ℚ) (Fin 3 → Fin 2 → ℚ) := layerWith (2, 2, 2) 2 false fun g i j => g.2.1 + 2 * i.val + j.val
  refine ⟨o, m1, m2, layerWith (3, 3, 3) 2 false fun g => weightAt (kernelOffsets (3, 1, 1)) m1.weights g + weightAt (kernelOffsets (2, 2, 2)) m2.weights g,
    _, _, h1, h3 2 le_rfl, .two 1 _ _ _ _ (h1.wf'.cellsOf 2 (by omega)) (h1.wf'.children 2 (by omega)) (h1.wf'.cellsOf 1 (by omega)) (h1.wf'.children 1 (by omega)),
    ?_, layerWith_layer _ (by decide) _ _ _, layerWith_layer _ (by decide) _ _ _, layerWith_layer _ (by decide) _ _ _, ?_, ?_⟩
  · rw [queried, if_neg (by decide)]
    have := h1.wf'.nnum 2 (by omega)
    omega
  · intro j g hg
    simp [layerWith, hg]
  · simp [layerWith, m1, m2]

example (nempty : Bool) : ∃ m : ConvModule (Fin 3 → ℚ) (Fin 3 → Fin 3 → ℚ), ConvLayer (2, 2, 2) 1 nempty m ∧ m.bias = none ∧
    ∀ (j : Nat) (g : Int × Int × Int), (kernelOffsets (2, 2, 2))[j]? = some g →
      m.weights[j]? = some (if g = (0, 0, 0) then fun i j => if i = j then 1 else 0 else (0 : Fin 3 → Fin 3 → ℚ)) := by
  refine ⟨layerWith (2, 2, 2) 1 nempty fun g => if g = (0, 0, 0) then fun i j => if i = j then 1 else 0 else 0, layerWith_layer _ (by decide) _ _ _, rfl, ?_⟩
  intro j g hg
  simp [layerWith, hg]

end Ocnn
