import Verif.PropsDense

/-! Property C118: what a stack of convolutions can see. -/

namespace Ocnn
open Spec

variable {F V R : Type}

namespace Spec

/-- A cell of the same sample at most `r` cells away along every axis. -/
def Within (r : Int) (c c' : Cell) : Prop := c'.b = c.b ∧ |(c'.x : Int) - c.x| ≤ r ∧ |(c'.y : Int) - c.y| ≤ r ∧ |(c'.z : Int) - c.z| ≤ r

/-- Two lists of features of the same nodes agree at all nodes near `c`. -/
def AgreeNear (cells : List Cell) (r : Int) (c : Cell) (x x' : List V) : Prop :=
  ∀ (i : Nat) (c' : Cell), cells[i]? = some c' → Within r c c' → x[i]? = x'[i]?

end Spec

/-- A layer of a stack: a convolution followed by a function of each row, such as batch normalisation with fixed statistics and ReLU. -/
structure StackLayer (R : Type) (n : Nat) where
  conv : ConvModule (Fin n → R) (Fin n → Fin n → R)
  post : (Fin n → R) → (Fin n → R)

/-- The layers in sequence, as `torch.nn.Sequential` of convolutions applied to `(data, octree, depth)`, e.g. `OctreeConvBnRelu.forward`, ocnn/modules/modules.py 68-74, repeated at one depth. -/
def runStack [CommSemiring R] {n : Nat} (o : Octree F) (d : Nat) (ls : List (StackLayer R n)) (x : List (Fin n → R)) : M (List (Fin n → R)) :=
  ls.foldlM (fun x l => do
    let y ← l.conv.forward (denseKernel R n n) x o d
    pure (y.map l.post)) x

theorem offset_small (k : Nat × Nat × Nat) (hk : k ∈ supportedKernels) (g : Int × Int × Int) (hg : g ∈ kernelOffsets k) : |g.1| ≤ 1 ∧ |g.2.1| ≤ 1 ∧ |g.2.2| ≤ 1 := by
  revert g
  revert k
  decide +kernel

theorem field_agree [Zero V] (cells : List Cell) (x x' : List V) (f f' : Nat → Int → Int → Int → V) (hf : IsField cells x f) (hf' : IsField cells x' f')
    (r : Int) (c : Cell) (h : AgreeNear cells r c x x') (a b e : Int) (ha : |a - c.x| ≤ r) (hb : |b - c.y| ≤ r) (he : |e - c.z| ≤ r) : f c.b a b e = f' c.b a b e := by
  by_cases hm : ∃ c' ∈ cells, c'.b = c.b ∧ (c'.x : Int) = a ∧ (c'.y : Int) = b ∧ (c'.z : Int) = e
  · obtain ⟨c', hc', e1, e2, e3, e4⟩ := hm
    obtain ⟨i, hi⟩ := List.mem_iff_getElem?.mp hc'
    have hil := (List.getElem?_eq_some_iff.mp hi).1
    have hx : i < x.length := by rw [← hf.1]; exact hil
    have hx' : i < x'.length := by rw [← hf'.1]; exact hil
    have h1 := hf.2.1 i c' _ hi (List.getElem?_eq_getElem hx)
    have h2 := hf'.2.1 i c' _ hi (List.getElem?_eq_getElem hx')
    have h3 := h i c' hi ⟨e1, by rw [e2]; exact ha, by rw [e3]; exact hb, by rw [e4]; exact he⟩
    rw [List.getElem?_eq_getElem hx, List.getElem?_eq_getElem hx', Option.some.injEq] at h3
    rw [← e1, ← e2, ← e3, ← e4, h1, h2, h3]
  · have hno : ∀ c' ∈ cells, ¬ (c'.b = c.b ∧ (c'.x : Int) = a ∧ (c'.y : Int) = b ∧ (c'.z : Int) = e) := fun c' hc' hn => hm ⟨c', hc', hn⟩
    rw [hf.2.2 _ _ _ _ hno, hf'.2.2 _ _ _ _ hno]

/-- **C118.** A stack of `n` convolutions (stride 1, any supported kernel, with any function of the rows in between) computes, at each node, something that depends only on the features of the nodes of the
same sample that are at most `n` cells away along every axis. -/
theorem C118_receptive [CommSemiring R] {n : Nat} (o : Octree F) (h : Nat) (w : o.Valid h) (d : Nat) (hd : d ≤ h)
    (hn : NeighExact o.batchSize d o.keys o.neighs) (nempty : Bool)
    (cells : List Cell) (hc : CellsOf o.batchSize d o.keys cells) (ch : List Int) (hch : o.children d = some ch)
    (ls : List (StackLayer R n))
    (hls : ∀ l ∈ ls, ∃ (k : Nat × Nat × Nat) (ks : List Nat) (mb : Nat), k ∈ supportedKernels ∧ KernelArg ks k ∧ ConvBase.init true n n ks 1 nempty mb = .ok l.conv.base ∧
      (l.conv.directMethod = false → (kernelOffsets k).length * n ≤ mb) ∧ l.conv.weights.length = (kernelOffsets k).length)
    (x x' : List (Fin n → R)) (hx : x.length = (queried nempty cells ch).length) (hx' : x'.length = (queried nempty cells ch).length) :
    ∃ Y Y', runStack o d ls x = .ok Y ∧ runStack o d ls x' = .ok Y' ∧ Y.length = x.length ∧ Y'.length = x'.length ∧
      ∀ (i : Nat) (c : Cell), (queried nempty cells ch)[i]? = some c → AgreeNear (queried nempty cells ch) ls.length c x x' → Y[i]? = Y'[i]? := by
  have hnd := nodes_nodup o h w d hd nempty 1 _ _ (.one d cells ch hc hch)
  induction ls generalizing x x' with
  | nil =>
    refine ⟨x, x', rfl, rfl, rfl, rfl, ?_⟩
    intro i c hi hag
    exact hag i c hi ⟨rfl, by simp, by simp, by simp⟩
  | cons l ls ih =>
    obtain ⟨k, ks, mb, hk, ha, hi, hb, hw⟩ := hls l List.mem_cons_self
    obtain ⟨f, hf⟩ := exists_field (queried nempty cells ch) x hx.symm hnd
    obtain ⟨f', hf'⟩ := exists_field (queried nempty cells ch) x' hx'.symm hnd
    have e := C34_stride1 o h w d hd hn k hk nempty cells hc ch hch ks mb l.conv ha hi hb hw x f hf
    have e' := C34_stride1 o h w d hd hn k hk nempty cells hc ch hch ks mb l.conv ha hi hb hw x' f' hf'
    obtain ⟨Y, Y', h1, h2, h3, h4, h5⟩ := ih (fun l' hl' => hls l' (List.mem_cons_of_mem _ hl'))
      (((queried nempty cells ch).map fun c => convAt f (kernelOffsets k) l.conv.weights c + l.conv.bias.getD 0).map l.post)
      (((queried nempty cells ch).map fun c => convAt f' (kernelOffsets k) l.conv.weights c + l.conv.bias.getD 0).map l.post) (by simp) (by simp)
    refine ⟨Y, Y', ?_, ?_, by rw [h3, hx]; simp, by rw [h4, hx']; simp, ?_⟩
    · unfold runStack at h1 ⊢
      rw [List.foldlM_cons, e]
      exact h1
    · unfold runStack at h2 ⊢
      rw [List.foldlM_cons, e']
      exact h2
    · intro i c hic hag
      apply h5 i c hic
      intro j c' hj hwi
      obtain ⟨w1, w2, w3, w4⟩ := hwi
      rw [List.getElem?_map, List.getElem?_map, List.getElem?_map, List.getElem?_map, hj]
      simp only [Option.map_some, Option.some.injEq]
      congr 2
      unfold convAt
      congr 1
      have : ∀ g ∈ kernelOffsets k, around f c' g = around f' c' g := by
        intro g hg
        obtain ⟨g1, g2, g3⟩ := offset_small k hk g hg
        unfold around
        rw [w1]
        have hlen : ((l :: ls).length : Int) = (ls.length : Int) + 1 := by push_cast [List.length_cons]; rfl
        apply field_agree _ x x' f f' hf hf' _ c hag
        · rw [hlen]; rw [abs_le] at *; constructor <;> linarith [w2.1, w2.2, g1.1, g1.2]
        · rw [hlen]; rw [abs_le] at *; constructor <;> linarith [w3.1, w3.2, g2.1, g2.2]
        · rw [hlen]; rw [abs_le] at *; constructor <;> linarith [w4.1, w4.2, g3.1, g3.2]
      apply List.ext_getElem (by simp)
      intro p p1 p2
      rw [List.getElem_zipWith, List.getElem_zipWith, this _ (List.getElem_mem _)]

/-- Two layers of the example on its octree: nodes more than two cells away play no role. -/
example : ∃ (l : StackLayer ℚ 2), ConvBase.init true 2 2 [3] 1 true 100 = .ok l.conv.base ∧ l.conv.weights.length = (kernelOffsets (3, 3, 3)).length ∧
    Within 2 ⟨0, 5, 5, 5⟩ ⟨0, 7, 3, 5⟩ ∧ ¬ Within 2 ⟨0, 5, 5, 5⟩ ⟨0, 8, 5, 5⟩ ∧ ¬ Within 2 ⟨0, 5, 5, 5⟩ ⟨1, 5, 5, 5⟩ := by
  refine ⟨⟨⟨{ isConv := true, inChannels := 2, outChannels := 2, kernelSize := [3, 3, 3], kernel := "333", stride := 1, nempty := true, maxBuffer := 100, kdim := 27, inConv := 2 }, false,
    (List.range 27).map fun n => fun i j => (n : ℚ) + 10 * i.val - j.val, none⟩, fun v => fun i => max 0 (v i)⟩, ?_, by decide, by unfold Within; decide, by unfold Within; decide, by unfold Within; decide⟩
  rw [init_ok true 2 2 [3] 1 true 100 (3, 3, 3) (by decide) (Or.inr (Or.inr ⟨rfl, rfl, rfl⟩))]
  simp
  decide

end Ocnn
