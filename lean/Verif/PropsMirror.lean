import Verif.PropsKernels
import Verif.PropsPoolAvg
import Verif.PropsInterp
import Verif.PropsDense
import Verif.BatchLemmas

/-! Property C188: transposed convolutions, nearest upsampling and average pooling as convolutions. -/

namespace Ocnn
open Spec
variable {F : Type}

/-! ### specification -/

/-- The opposite offset. -/
def Spec.opposite (g : Int × Int × Int) : Int × Int × Int := (-g.1, -g.2.1, -g.2.2)

/-- The identity matrix. -/
def Spec.unitMatrix (R : Type) [CommSemiring R] (c : Nat) : Fin c → Fin c → R := fun i j => if i = j then 1 else 0

/-- `m` is a transposed convolution layer with kernel `k` and stride `s`, from `co` to `ci` channels, given to the constructor in any of its forms, with
one matrix per offset; the buffered method has room for one row. -/
structure DeconvLayer {R : Type} {ci co : Nat} (k : Nat × Nat × Nat) (s : Nat) (nempty : Bool) (m : ConvModule (Fin ci → R) (Fin ci → Fin co → R)) : Prop where
  supported : k ∈ supportedKernels
  made : ∃ ks mb, KernelArg ks k ∧ ConvBase.init false co ci ks s nempty mb = .ok m.base ∧ (m.directMethod = false → (kernelOffsets k).length * ci ≤ mb)
  weights : m.weights.length = (kernelOffsets k).length

/-! ### lemmas -/

theorem vecMatT_zero {R : Type} [CommSemiring R] {m n : Nat} (w : Fin m → Fin n → R) : vecMatT (0 : Fin n → R) w = 0 := by
  funext i
  simp [vecMatT]

theorem vecMatT_zero_right {R : Type} [CommSemiring R] {m n : Nat} (v : Fin n → R) : vecMatT v (0 : Fin m → Fin n → R) = 0 := by
  funext i
  simp [vecMatT]

theorem vecMatT_unit {R : Type} [CommSemiring R] {n : Nat} (v : Fin n → R) : vecMatT v (unitMatrix R n) = v := by
  funext i
  simp [vecMatT, unitMatrix]

/-- the sum over the rows of a field that are displaced by `g` to `c` has one term -/
theorem shifted_sum {V U : Type} [Zero V] [AddCommMonoid U] (ts : List Cell) (xs : List V) (f : Nat → Int → Int → Int → V) (hn : ts.Nodup)
    (hf : IsField ts xs f) (G : V → U) (hG : G 0 = 0) (c : Cell) (g : Int × Int × Int) :
    (List.zipWith (fun t x => if IsShift t c g then G x else 0) ts xs).sum = G (around f c (opposite g)) := by
  have e := Ocnn.field_map hf
  have h3 := hf.2.2
  rw [e, List.zipWith_map_right, List.zipWith_self]
  clear e
  have e : (ts.map fun t => if IsShift t c g then G (fieldAt f t) else 0) = ts.map fun t => if IsShift t c g then G (around f c (opposite g)) else 0 := by
    apply List.map_congr_left
    intro t _
    by_cases hs : IsShift t c g
    · rw [if_pos hs, if_pos hs]
      obtain ⟨s1, s2, s3, s4⟩ := hs
      unfold fieldAt around opposite
      have a1 : (c.x : Int) + -g.1 = t.x := by omega
      have a2 : (c.y : Int) + -g.2.1 = t.y := by omega
      have a3 : (c.z : Int) + -g.2.2 = t.z := by omega
      simp only [a1, a2, a3, s1]
    · rw [if_neg hs, if_neg hs]
  rw [e]
  clear e
  by_cases hex : ∃ t ∈ ts, IsShift t c g
  · obtain ⟨t, ht, hs⟩ := hex
    have u : ∀ r, IsShift r c g ↔ r = t := by
      intro r
      constructor
      · rintro ⟨s1, s2, s3, s4⟩
        obtain ⟨r1, r2, r3, r4⟩ := hs
        obtain ⟨rb, rx, ry, rz⟩ := r
        obtain ⟨tb, tx, ty, tz⟩ := t
        simp only [Cell.mk.injEq] at *
        refine ⟨?_, ?_, ?_, ?_⟩ <;> omega
      · rintro rfl
        exact hs
    have := sum_single ts t (G (around f c (opposite g))) (fun _ => 0) hn ht rfl
    simp only [u]
    rw [this]
    simp
  · rw [List.sum_eq_zero]
    · have z : around f c (opposite g) = 0 := by
        apply h3
        intro t ht hs
        apply hex
        refine ⟨t, ht, ?_⟩
        obtain ⟨s1, s2, s3, s4⟩ := hs
        simp only [opposite] at s2 s3 s4
        exact ⟨s1.symm, by omega, by omega, by omega⟩
      rw [z, hG]
    · intro v hv
      obtain ⟨t, ht, rfl⟩ := List.mem_map.1 hv
      exact if_neg fun hs => hex ⟨t, ht, hs⟩

theorem sum_zipWith_comm {A B C D U : Type} [AddCommMonoid U] (G : A → B → C → D → U) (as : List A) (bs : List B) (cs : List C) (ds : List D) :
    (List.zipWith (fun a b => (List.zipWith (fun c d => G a b c d) cs ds).sum) as bs).sum
      = (List.zipWith (fun c d => (List.zipWith (fun a b => G a b c d) as bs).sum) cs ds).sum := by
  induction as generalizing bs with
  | nil =>
    simp only [List.zipWith_nil_left, List.sum_nil]
    symm
    apply List.sum_eq_zero
    intro v hv
    obtain ⟨i, hi, rfl⟩ := List.mem_iff_getElem.1 hv
    rw [List.getElem_zipWith]
  | cons a as ih =>
    cases bs with
    | nil =>
      simp only [List.zipWith_nil_right, List.sum_nil]
      symm
      apply List.sum_eq_zero
      intro v hv
      obtain ⟨i, hi, rfl⟩ := List.mem_iff_getElem.1 hv
      rw [List.getElem_zipWith]
    | cons b bs =>
      simp only [List.zipWith_cons_cons, List.sum_cons]
      rw [ih]
      clear ih
      induction cs generalizing ds with
      | nil => simp
      | cons c cs ih =>
        cases ds with
        | nil => simp
        | cons d ds =>
          simp only [List.zipWith_cons_cons, List.sum_cons]
          rw [← ih]
          simp only [add_assoc, add_left_comm, add_comm]

/-- the transposed convolution reads the field at the opposite offsets -/
theorem deconvAt_around {R : Type} [CommSemiring R] {m n : Nat} (ts : List Cell) (xs : List (Fin n → R)) (f : Nat → Int → Int → Int → Fin n → R)
    (hn : ts.Nodup) (hf : IsField ts xs f) (offs : List (Int × Int × Int)) (ws : List (Fin m → Fin n → R)) (c : Cell) :
    deconvAt ts xs offs ws c = (List.zipWith (fun g w => vecMatT (around f c (opposite g)) w) offs ws).sum := by
  unfold deconvAt
  rw [sum_zipWith_comm (fun t x g w => if IsShift t c g then vecMatT x w else 0)]
  congr 1
  apply congrArg (fun h => List.zipWith h offs ws)
  funext g w
  exact shifted_sum ts xs f hn hf (fun x => vecMatT x w) (vecMatT_zero w) c g

theorem opposite_perm : ∀ k ∈ supportedKernels, k ≠ (2, 2, 2) → ((kernelOffsets k).map opposite).Perm (kernelOffsets k) := by decide +kernel

theorem sum_rowAt {A K : Type} [Field K] {c : Nat} (l : List A) (v : A → Fin c → K) (i : Fin c) : (l.map fun g => v g i).sum = (l.map v).sum i := by
  induction l with
  | nil => rfl
  | cons a l ih => rw [List.map_cons, List.map_cons, List.sum_cons, List.sum_cons, ih]; rfl

/-! ### C188 -/

/-- **C188, mirrored kernels.** A transposed convolution of stride 1 with an odd kernel is the convolution whose matrix at every offset is the transposed
matrix of the opposite offset, with the same bias. -/
theorem C188_mirror {R : Type} [CommSemiring R] {ci co : Nat} (o : Octree F) (h : Nat) (w : o.Valid h) (d : Nat) (hd : d ≤ h)
    (hn : NeighExact o.batchSize d o.keys o.neighs) (k : Nat × Nat × Nat) (hk : k ≠ (2, 2, 2)) (nempty : Bool)
    (cells : List Cell) (ch : List Int) (hc : CellsOf o.batchSize d o.keys cells) (hch : o.children d = some ch)
    (m : ConvModule (Fin ci → R) (Fin ci → Fin co → R)) (hm : DeconvLayer k 1 nempty m)
    (m' : ConvModule (Fin ci → R) (Fin co → Fin ci → R)) (hm' : ConvLayer k 1 nempty m')
    (hw : ∀ g ∈ kernelOffsets k, ∀ i j, weightAt (kernelOffsets k) m'.weights g i j = weightAt (kernelOffsets k) m.weights (opposite g) j i)
    (hb : m'.bias.getD 0 = m.bias.getD 0) (x : List (Fin co → R)) (hx : x.length = (queried nempty cells ch).length) :
    m.deconvForward (denseKernel R ci co) x o d = m'.forward (denseKernel R co ci) x o d := by
  have hN : Nodes o nempty d 1 (queried nempty cells ch) (queried nempty cells ch) := .one d cells ch hc hch
  have hnd := nodes_nodup o h w d hd nempty 1 _ _ hN
  obtain ⟨f, hf⟩ := exists_field _ x hx.symm hnd
  obtain ⟨ks, mb, ha, hi, hbuf⟩ := hm.made
  have e1 := C84_deconv o h w d hd hn k hm.supported nempty 1 _ _ hN ks mb m ha hi hbuf hm.weights x x hx (by simp)
  rw [if_neg (by decide)] at e1
  rw [e1, layer_forward o h w d 1 hd hn k nempty _ _ (.one d cells ch hc hch) m' hm' x f hf, List.map_map]
  congr 1
  apply List.map_congr_left
  intro c _
  simp only [Function.comp]
  rw [hb]
  congr 1
  have hnod := kernelOffsets_nodup k hm.supported
  rw [deconvAt_around _ x f hnd hf, convAt_spread f _ _ m'.weights c hnod hnod hm'.weights (fun g hg => hg)]
  have e2 := sum_spread (fun g w => vecMatT (around f c (opposite g)) w) (fun g => vecMatT_zero_right (m := ci) _) (kernelOffsets k) hnod
    (kernelOffsets k) m.weights hnod hm.weights (fun g hg => hg)
  rw [← e2]
  have e3 : ((kernelOffsets k).map fun g => vecMat (around f c g) (weightAt (kernelOffsets k) m'.weights g))
      = (kernelOffsets k).map fun g => vecMatT (around f c g) (weightAt (kernelOffsets k) m.weights (opposite g)) := by
    apply List.map_congr_left
    intro g hg
    funext i
    unfold vecMat vecMatT
    apply Finset.sum_congr rfl
    intro j _
    rw [hw g hg]
  rw [e3, ← ((opposite_perm k hm.supported hk).map _).sum_eq, List.map_map]
  congr 1
  apply List.map_congr_left
  intro g _
  have : opposite (opposite g) = g := by
    obtain ⟨a, b, c⟩ := g
    simp [opposite]
  simp only [Function.comp, this]
  rfl

theorem offsets_two : ∀ a ∈ [0, 1], ∀ b ∈ [0, 1], ∀ c ∈ [0, 1], ((a : Int), (b : Int), (c : Int)) ∈ kernelOffsets (2, 2, 2) := by decide

theorem offsets_two' : ∀ g ∈ kernelOffsets (2, 2, 2), (g.1 = 0 ∨ g.1 = 1) ∧ (g.2.1 = 0 ∨ g.2.1 = 1) ∧ (g.2.2 = 0 ∨ g.2.2 = 1) := by decide

theorem zipWith_same {A W V : Type} (G : A → W → V) (offs : List A) (ws : List W) (u : W) (hl : ws.length = offs.length) (hu : ∀ v ∈ ws, v = u) :
    List.zipWith G offs ws = offs.map fun g => G g u := by
  rw [List.eq_replicate_of_mem hu, hl]
  clear hl hu
  induction offs with
  | nil => rfl
  | cons a l ih => rw [List.length_cons, List.replicate_succ, List.zipWith_cons_cons, ih, List.map_cons]

/-- a cell lies at one of the eight offsets from the first child of its parent, and of no other cell -/
theorem child_offset (r q : Cell) {U : Type} [AddCommMonoid U] (v : U) :
    ((kernelOffsets (2, 2, 2)).map fun g => if IsShift (firstChild r) q g then v else 0).sum = if r = q.parent then v else 0 := by
  by_cases hr : r = q.parent
  · rw [if_pos hr]
    subst hr
    have hm : (((q.x % 2 : Nat) : Int), ((q.y % 2 : Nat) : Int), ((q.z % 2 : Nat) : Int)) ∈ kernelOffsets (2, 2, 2) := by
      apply offsets_two <;> (simp only [List.mem_cons, List.not_mem_nil, or_false]; omega)
    have u : ∀ g : Int × Int × Int, IsShift (firstChild q.parent) q g ↔ g = (((q.x % 2 : Nat) : Int), ((q.y % 2 : Nat) : Int), ((q.z % 2 : Nat) : Int)) := by
      rintro ⟨a, b, c⟩
      simp only [IsShift, firstChild, Cell.parent, Prod.mk.injEq, true_and]
      constructor
      · rintro ⟨h1, h2, h3⟩
        refine ⟨?_, ?_, ?_⟩ <;> omega
      · rintro ⟨h1, h2, h3⟩
        refine ⟨?_, ?_, ?_⟩ <;> omega
    have := sum_single (kernelOffsets (2, 2, 2)) _ v (fun _ => 0) (by decide) hm rfl
    simp only [u]
    rw [this]
    simp
  · rw [if_neg hr]
    apply List.sum_eq_zero
    intro y hy
    obtain ⟨g, hg, rfl⟩ := List.mem_map.1 hy
    apply if_neg
    rintro ⟨s1, s2, s3, s4⟩
    obtain ⟨a, b, c⟩ := offsets_two' g hg
    apply hr
    simp only [firstChild, Nat.cast_mul, Nat.cast_ofNat] at s1 s2 s3 s4
    unfold Cell.parent
    obtain ⟨rb, rx, ry, rz⟩ := r
    simp only [Cell.mk.injEq] at *
    refine ⟨s1.symm, ?_, ?_, ?_⟩ <;> omega

theorem deconvAt_unit {R : Type} [CommSemiring R] {n : Nat} (A : List Cell) (hA : A.Nodup) (v : Cell → Fin n → R) (ws : List (Fin n → Fin n → R))
    (hl : ws.length = 8) (hw : ∀ w ∈ ws, w = unitMatrix R n) (q : Cell) (hq : q.parent ∈ A) :
    deconvAt (A.map firstChild) (A.map v) (kernelOffsets (2, 2, 2)) ws q = v q.parent := by
  unfold deconvAt
  have e : ∀ t x, (List.zipWith (fun g w => if IsShift t q g then vecMatT x w else 0) (kernelOffsets (2, 2, 2)) ws).sum
      = ((kernelOffsets (2, 2, 2)).map fun g => if IsShift t q g then x else 0).sum := by
    intro t x
    rw [zipWith_same _ _ ws (unitMatrix R n) (by rw [hl]; decide) hw, vecMatT_unit]
  simp only [e]
  rw [List.zipWith_map, List.zipWith_self]
  simp only [child_offset]
  have := sum_single A q.parent (v q.parent) (fun _ => 0) hA hq rfl
  have e2 : (A.map fun r => if r = q.parent then v r else 0) = A.map fun r => if r = q.parent then v q.parent else 0 := by
    apply List.map_congr_left
    intro r _
    by_cases h : r = q.parent
    · rw [if_pos h, if_pos h, h]
    · rw [if_neg h, if_neg h]
  rw [e2, this]
  simp

/-- **C188, upsampling.** The transposed convolution of kernel 2 and stride 2 whose matrices are all the identity, without bias, is nearest upsampling. -/
theorem C188_upsample {R : Type} [CommSemiring R] {c : Nat} (o : Octree F) (h : Nat) (w : o.Valid h) (d : Nat) (hd : d + 1 ≤ h)
    (hn : NeighExact o.batchSize (d + 1) o.keys o.neighs) (nempty : Bool) (m : ConvModule (Fin c → R) (Fin c → Fin c → R))
    (hm : DeconvLayer (2, 2, 2) 2 nempty m) (hw : ∀ v ∈ m.weights, v = unitMatrix R c) (hb : m.bias.getD 0 = 0)
    (cells : List Cell) (ch : List Int) (hc : CellsOf o.batchSize d o.keys cells) (hch : o.children d = some ch)
    (x : List (Fin c → R)) (hx : x.length = (queried nempty cells ch).length) :
    m.deconvForward (denseKernel R c c) x o d = octreeNearestUpsample x o d nempty := by
  have W := w.wf'
  have hc1 := W.cellsOf (d + 1) hd
  have hch1 := W.children (d + 1) hd
  have hnd : ∀ ne, (queried ne cells ch).Nodup := fun ne => nodes_nodup o h w d (by omega) ne 1 _ _ (.one d cells ch hc hch)
  obtain ⟨f, hf⟩ := exists_field _ x hx.symm (hnd nempty)
  rw [C52_nearest_upsample o h w d hd nempty cells _ ch _ hc hch hc1 hch1 x f hf]
  obtain ⟨ks, mb, ha, hi, hbuf⟩ := hm.made
  have hxf := Ocnn.field_map hf
  have e1 := C84_deconv o h w (d + 1) hd hn (2, 2, 2) (by decide) nempty 2 _ _ (.two d _ _ cells ch hc1 hch1 hc hch) ks mb m ha hi hbuf hm.weights x
    ((nonEmpty cells ch).map (fieldAt f)) (by simp) (by
      cases nempty with
      | true => rw [if_neg (by simp), hxf]; rfl
      | false =>
        rw [if_pos ⟨rfl, rfl⟩, hxf]
        exact depad_rows o h w d (by omega) cells ch hc hch (fieldAt f))
  rw [if_pos rfl] at e1
  rw [show d + 1 - 1 = d from rfl] at e1
  rw [e1]
  congr 1
  apply List.map_congr_left
  intro q hq
  rw [hb, add_zero]
  refine deconvAt_unit _ (hnd true) _ _ (hm.weights.trans (by decide)) hw q ?_
  rw [queried_qc w (d + 1) hd nempty _ _ hc1 hch1] at hq
  have h2 : q ∈ qc o false (d + 1) := by
    cases nempty with
    | false => exact hq
    | true => exact (maskSel_sublist _ _).mem hq
  have h3 : qc o false (d + 1) = expand 8 Cell.child (qc o true d) := rfl
  rw [h3, mem_expand] at h2
  obtain ⟨a, ha, j, hj, rfl⟩ := h2
  rw [Cell.child_parent]
  have := queried_qc w d (by omega) true cells ch hc hch
  rw [← this] at ha
  exact ha

/-- **C188, pooling.** Average pooling is the convolution whose matrices are all the identity, without bias, with every row divided by the number of
existing neighbours plus `1e-8`; for stride 2 on the non-empty nodes. -/
theorem C188_pool {K : Type} [Field K] {c : Nat} (o : Octree F) (h : Nat) (w : o.Valid h) (d s : Nat) (hd : d ≤ h)
    (hn : NeighExact o.batchSize d o.keys o.neighs) (k : Nat × Nat × Nat) (nempty : Bool) (hs : s = 1 ∨ nempty = true)
    (srcs targets : List Cell) (hN : Nodes o nempty d s srcs targets)
    (m : ConvModule (Fin c → K) (Fin c → Fin c → K)) (hm : ConvLayer k s nempty m) (hw : ∀ v ∈ m.weights, v = unitMatrix K c) (hb : m.bias.getD 0 = 0)
    (x : List (Fin c → K)) (hx : x.length = srcs.length) :
    ∃ y, m.forward (denseKernel K c c) x o d = .ok y ∧ y.length = targets.length ∧
      octreeAvgPool x o d (kernelName k) s nempty = .ok (List.zipWith (fun t v => fun i =>
        v i / ((existing srcs (kernelOffsets k) t : K) + 1 / 10 ^ 8)) targets y) := by
  obtain ⟨f, hf⟩ := exists_field srcs x hx.symm (nodes_nodup o h w d hd nempty s srcs targets hN)
  have hO : Outs o nempty d s srcs (targets.map some) := by
    cases hN with
    | one d cells ch h1 h2 => exact .one d cells ch h1 h2
    | two d cells ch pcells pch h1 h2 h3 h4 =>
      have hne : nempty = true := by
        rcases hs with hs | hs
        · omega
        · exact hs
      subst hne
      exact .two d cells ch pcells pch h1 h2 h3 h4
  have e1 := layer_forward o h w d s hd hn k nempty srcs _ hO m hm x f hf
  refine ⟨_, e1, by simp, ?_⟩
  rw [C46_avg_pool o h w d hd hn k hm.supported nempty s srcs targets hN x f hf, List.map_map, List.zipWith_map_right, List.zipWith_self]
  congr 1
  apply List.map_congr_left
  intro t _
  funext i
  congr 1
  simp only [Function.comp, hb, add_zero]
  unfold convAt
  rw [zipWith_same _ _ _ _ hm.weights hw]
  have hu : ∀ v : Fin c → K, vecMat v (unitMatrix K c) = v := fun v => vecMat_one v
  simp only [hu]
  exact sum_rowAt _ _ i

/-! ### the hypotheses can be met -/

/-- a transposed layer of any supported kernel with the given matrices -/
def deconvWith {ci co : Nat} (k : Nat × Nat × Nat) (s : Nat) (nempty : Bool) (w : Int × Int × Int → Fin ci → Fin co → ℚ) :
    ConvModule (Fin ci → ℚ) (Fin ci → Fin co → ℚ) where
  base := { isConv := false, inChannels := co, outChannels := ci, kernelSize := [k.1, k.2.1, k.2.2], kernel := kernelName k, stride := s,
            nempty := nempty, maxBuffer := 27 * ci, kdim := (kernelOffsets k).length, inConv := ci }
  directMethod := false
  weights := (kernelOffsets k).map w
  bias := none

theorem deconvWith_layer {ci co : Nat} (k : Nat × Nat × Nat) (hk : k ∈ supportedKernels) (s : Nat) (nempty : Bool)
    (w : Int × Int × Int → Fin ci → Fin co → ℚ) : DeconvLayer k s nempty (deconvWith k s nempty w) := by
  refine ⟨hk, ⟨[k.1, k.2.1, k.2.2], 27 * ci, Or.inl rfl, ?_, ?_⟩, by simp [deconvWith]⟩
  · rw [init_ok false co ci _ s nempty (27 * ci) k hk (Or.inl rfl)]
    rfl
  · intro _
    have : ∀ k ∈ supportedKernels, (kernelOffsets k).length ≤ 27 := by decide
    exact Nat.mul_le_mul_right _ (this k hk)

theorem weightAt_map {W : Type} [Zero W] (offs : List (Int × Int × Int)) (w : Int × Int × Int → W) (g : Int × Int × Int) (hg : g ∈ offs) :
    weightAt offs (offs.map w) g = w g := by
  unfold weightAt
  induction offs with
  | nil => cases hg
  | cons a l ih =>
    rw [List.map_cons, List.zip_cons_cons, List.lookup_cons]
    by_cases h : g = a
    · subst h; simp
    · have : (g == a) = false := by simpa using h
      rw [this]
      exact ih ((List.mem_cons.1 hg).resolve_left h)

/-- A transposed 3 x 1 x 1 layer from 2 to 3 channels with matrices that differ at opposite offsets, and its mirror image. -/
example (nempty : Bool) : ∃ (o : Octree Unit) (m : ConvModule (Fin 3 → ℚ) (Fin 3 → Fin 2 → ℚ)) (m' : ConvModule (Fin 3 → ℚ) (Fin 2 → Fin 3 → ℚ)),
    o.Valid 2 ∧ NeighExact o.batchSize 2 o.keys o.neighs ∧ o.nnum 2 = 16 ∧ DeconvLayer (3, 1, 1) 1 nempty m ∧ ConvLayer (3, 1, 1) 1 nempty m' ∧
    (∀ g ∈ kernelOffsets (3, 1, 1), ∀ i j, weightAt (kernelOffsets (3, 1, 1)) m'.weights g i j
      = weightAt (kernelOffsets (3, 1, 1)) m.weights (opposite g) j i) ∧ m'.bias.getD 0 = m.bias.getD 0 ∧
    weightAt (kernelOffsets (3, 1, 1)) m.weights (1, 0, 0) ≠ weightAt (kernelOffsets (3, 1, 1)) m.weights (-1, 0, 0) := by
  obtain ⟨o, h1, h2, h3, h4, h5, h6, h7⟩ := example_valid'
  refine ⟨o, deconvWith (3, 1, 1) 1 nempty fun g i j => g.1 + i.val - 2 * j.val, layerWith (3, 1, 1) 1 nempty fun g i j => -g.1 + j.val - 2 * i.val,
    h1, h3 2 le_rfl, by omega, deconvWith_layer _ (by decide) _ _ _, layerWith_layer _ (by decide) _ _ _, ?_, rfl, ?_⟩
  · intro g hg i j
    have hg' : opposite g ∈ kernelOffsets (3, 1, 1) := by
      revert g
      decide
    simp only [deconvWith, layerWith]
    rw [weightAt_map _ _ g hg, weightAt_map _ _ _ hg']
    simp [opposite]
  · intro he
    simp only [deconvWith] at he
    rw [weightAt_map _ _ _ (by decide), weightAt_map _ _ _ (by decide)] at he
    have := congrFun (congrFun he 0) 0
    norm_num at this

example (nempty : Bool) : ∃ (o : Octree Unit) (m m' : ConvModule (Fin 3 → ℚ) (Fin 3 → Fin 3 → ℚ)), o.Valid 2 ∧
    NeighExact o.batchSize 2 o.keys o.neighs ∧ DeconvLayer (2, 2, 2) 2 nempty m ∧ ConvLayer (2, 2, 2) 2 nempty m' ∧
    (∀ v ∈ m.weights, v = unitMatrix ℚ 3) ∧ m.bias.getD 0 = 0 ∧ (∀ v ∈ m'.weights, v = unitMatrix ℚ 3) ∧ m'.bias.getD 0 = 0 := by
  obtain ⟨o, h1, h2, h3, h4, h5, h6, h7⟩ := example_valid'
  refine ⟨o, deconvWith (2, 2, 2) 2 nempty fun _ => unitMatrix ℚ 3, layerWith (2, 2, 2) 2 nempty fun _ => unitMatrix ℚ 3, h1, h3 2 le_rfl,
    deconvWith_layer _ (by decide) _ _ _, layerWith_layer _ (by decide) _ _ _, ?_, rfl, ?_, rfl⟩ <;>
  · intro v hv
    obtain ⟨g, -, rfl⟩ := List.mem_map.1 hv
    rfl

end Ocnn
