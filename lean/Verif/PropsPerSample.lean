import Verif.PerSampleLemmas
import Verif.PropsBatch

/-! Property C58: batching does not change results. -/

set_option linter.unusedSimpArgs false

namespace Ocnn
open Spec
variable {F : Type}

/-- `o'` is the batch obtained from the single-sample octrees `os` (with neighbour tables) by merging them and
constructing the neighbour tables of the result. -/
structure MergedBatch (os : List (Octree F)) (o' : Octree F) (D : Nat) : Prop where
  mergeable : ∃ full dev, 1 ≤ full ∧ Mergeable os D full dev
  neigh : ∀ o ∈ os, ∀ d, 1 ≤ d → d ≤ D → NeighExact o.batchSize d o.keys o.neighs
  merged : (Octree.merge os >>= Octree.constructAllNeigh) = .ok o'

theorem merged_ready {os : List (Octree F)} {D full dev : Nat} (h : Mergeable os D full dev) (hf : 1 ≤ full) :
    ∃ nb, (Octree.merge os >>= Octree.constructAllNeigh) = .ok { mergedState os D full dev (D + 1) with neighs := nb } ∧
      ∀ d, 1 ≤ d → d ≤ D → NeighExact os.length d (mergedState os D full dev (D + 1)).keys nb := by
  obtain ⟨nb, h1, h2⟩ := C21_neigh_exact (mergedState os D full dev (D + 1)) (merged_wf h).valid hf
  refine ⟨nb, ?_, h2⟩
  rw [merge_ok h]
  exact h1

theorem MergedBatch.batchOf {os : List (Octree F)} {o' : Octree F} {D : Nat} (h : MergedBatch os o' D) :
    BatchOf os o' D ∧ ∀ o, o = o' ∨ o ∈ os → ∀ d, 1 ≤ d → d ≤ D → NeighExact o.batchSize d o.keys o.neighs := by
  obtain ⟨full, dev, hf, hm⟩ := h.mergeable
  obtain ⟨nb, h1, h2⟩ := merged_ready hm hf
  have e := h.merged
  rw [h1] at e
  cases e
  refine ⟨merged_batch hm nb, ?_⟩
  rintro o (rfl | ho) d hd1 hd
  · exact h2 d hd1 hd
  · exact h.neigh o ho d hd1 hd

/-- Such batches exist for all lists of mergeable octrees with `full_depth ≥ 1`. -/
theorem C58_ready (os : List (Octree F)) (D full dev : Nat) (h : Mergeable os D full dev) (hf : 1 ≤ full)
    (hn : ∀ o ∈ os, ∀ d, 1 ≤ d → d ≤ D → NeighExact o.batchSize d o.keys o.neighs) : ∃ o', MergedBatch os o' D := by
  obtain ⟨nb, h1, _⟩ := merged_ready h hf
  exact ⟨_, ⟨full, dev, hf, h⟩, hn, h1⟩

/-- What acting sample by sample means: cutting the result for the batch into blocks gives the results for the
single octrees. -/
theorem C58_sample {X Y : Type} (os : List (Octree F)) (o' : Octree F) (n m : Octree F → Nat)
    (op : Octree F → List X → M (List Y)) (h : PerSample os o' n m op) (xs : List (List X))
    (hxs : xs.map List.length = os.map n) :
    ∃ Z, op o' xs.flatten = .ok Z ∧ ∀ (i : Nat) (o : Octree F) (x : List X), os[i]? = some o → xs[i]? = some x →
      ∃ y, op o x = .ok y ∧ (splitBy (os.map m) Z)[i]? = some y := by
  obtain ⟨ys, h1, h2, h3⟩ := h xs hxs
  refine ⟨_, h3, ?_⟩
  intro i o x ho hx
  rw [← h2, splitBy_flatten]
  have e := congrArg (fun l => l[i]?) h1
  simp only [List.getElem?_zipWith, ho, hx, List.getElem?_map] at e
  cases hy : ys[i]? with
  | none => rw [hy] at e; cases e
  | some y =>
    rw [hy] at e
    simp only [Option.map_some, Option.some.injEq] at e
    exact ⟨y, e, rfl⟩

/-- **C58**, convolution (dense and depth-wise, all kernels, both strides, any buffer, with or without bias): the
convolution of a batch is the concatenation of the convolutions of the samples. -/
theorem C58_conv {os : List (Octree F)} {o' : Octree F} {D : Nat} (h : MergedBatch os o' D) (d : Nat) (hd1 : 1 ≤ d) (hd : d ≤ D)
    (k : Nat × Nat × Nat) (hk : k ∈ supportedKernels) (nempty : Bool) (s : Nat) (hs : s = 1 ∨ s = 2)
    {A B W : Type} [AddCommMonoid A] [AddCommMonoid B] (K : Kernel A B W) (inC outC : Nat) (ks : List Nat) (mb : Nat)
    (m : ConvModule B W) (ha : KernelArg ks k) (hi : ConvBase.init true inC outC ks s nempty mb = .ok m.base)
    (hb : m.directMethod = false → (kernelOffsets k).length * inC ≤ mb)
    (hw : m.weights.length = (kernelOffsets k).length) :
    PerSample os o' (fun o => if nempty then o.nnumNempty d else o.nnum d)
      (fun o => if nempty then o.nnumNempty (if s = 2 then d - 1 else d) else o.nnum (if s = 2 then d - 1 else d))
      (fun o x => m.forward K x o d) :=
  conv_perSample h.batchOf.1 d hd (fun o ho => h.neigh o ho d hd1 hd) (h.batchOf.2 o' (Or.inl rfl) d hd1 hd) k hk nempty s
    (hs.imp_right fun e => ⟨e, hd1⟩) K inC outC ks mb m ha hi hb hw

/-- **C58**, transposed convolution to depth `d`. -/
theorem C58_deconv {os : List (Octree F)} {o' : Octree F} {D : Nat} (h : MergedBatch os o' D) (d : Nat) (hd1 : 1 ≤ d) (hd : d ≤ D)
    (k : Nat × Nat × Nat) (hk : k ∈ supportedKernels) (nempty : Bool) (s : Nat) (hs : s = 1 ∨ s = 2)
    {A B W : Type} [AddCommMonoid A] [AddCommMonoid B] (K : Kernel A B W) (inC outC : Nat) (ks : List Nat) (mb : Nat)
    (m : ConvModule A W) (ha : KernelArg ks k) (hi : ConvBase.init false inC outC ks s nempty mb = .ok m.base)
    (hb : m.directMethod = false → (kernelOffsets k).length * outC ≤ mb)
    (hw : m.weights.length = (kernelOffsets k).length) :
    PerSample os o'
      (fun o => if nempty then o.nnumNempty (if s = 2 then d - 1 else d) else o.nnum (if s = 2 then d - 1 else d))
      (fun o => if nempty then o.nnumNempty d else o.nnum d)
      (fun o x => m.deconvForward K x o (if s = 2 then d - 1 else d)) :=
  deconv_perSample h.batchOf.1 d hd (fun o ho => h.batchOf.2 o ho d hd1 hd) k hk nempty s
    (hs.imp_right fun e => ⟨e, hd1⟩) K inC outC ks mb m ha hi hb hw

/-- **C58**, max pooling from depth `d + 1` to `d`: values and argmax indices. -/
theorem C58_max_pool {os : List (Octree F)} {o' : Octree F} {D : Nat} (h : MergedBatch os o' D) (d : Nat) (hd : d + 1 ≤ D)
    (nempty : Bool) {α : Type} [LinearOrder α] [OrderBot α] [Zero α] {C : Nat} :
    PerSample os o' (fun o => if nempty then o.nnumNempty (d + 1) else o.nnum (d + 1))
      (fun o => if nempty then o.nnumNempty d else o.nnum d)
      (fun o (x : List (Fin C → α)) => (octreeMaxPool x o d nempty).map Prod.fst) ∧
    PerSample os o' (fun o => if nempty then o.nnumNempty (d + 1) else o.nnum (d + 1)) (fun o => o.nnumNempty d)
      (fun o (x : List (Fin C → α)) => (octreeMaxPool x o d nempty).map Prod.snd) :=
  maxpool_perSample h.batchOf.1 d hd nempty

/-- **C58**, average pooling. -/
theorem C58_avg_pool {os : List (Octree F)} {o' : Octree F} {D : Nat} (h : MergedBatch os o' D) (d : Nat) (hd1 : 1 ≤ d) (hd : d ≤ D)
    (k : Nat × Nat × Nat) (hk : k ∈ supportedKernels) (nempty : Bool) (s : Nat) (hs : s = 1 ∨ s = 2) {K : Type} [Field K] {C : Nat} :
    PerSample os o' (fun o => if nempty then o.nnumNempty d else o.nnum d)
      (fun o => if s = 2 then o.nnumNempty (d - 1) else if nempty then o.nnumNempty d else o.nnum d)
      (fun o (x : List (Fin C → K)) => octreeAvgPool x o d (kernelName k) s nempty) :=
  avgpool_perSample h.batchOf.1 d hd (fun o ho => h.batchOf.2 o ho d hd1 hd) k hk nempty s (hs.imp_right fun e => ⟨e, hd1⟩)

/-- **C58**, global pooling: one row per sample. -/
theorem C58_global_pool {os : List (Octree F)} {o' : Octree F} {D : Nat} (h : MergedBatch os o' D) (d : Nat) (hd : d ≤ D)
    (nempty : Bool) {K : Type} [Field K] [LinearOrder K] [IsStrictOrderedRing K] {C : Nat} :
    PerSample os o' (fun o => if nempty then o.nnumNempty d else o.nnum d) (fun _ => 1)
      (fun o (x : List (Fin C → K)) => octreeGlobalPool x o d nempty) :=
  globalpool_perSample h.batchOf.1 d hd nempty

/-- **C58**, group normalisation. -/
theorem C58_group_norm {os : List (Octree F)} {o' : Octree F} {D : Nat} (h : MergedBatch os o' D) (d : Nat) (hd : d ≤ D)
    (nempty : Bool) {K : Type} [Field K] {C : Nat} (rt : K → K) (eps : K) (cpg : Nat) (hcpg : 0 < cpg) (weights bias : Fin C → K) :
    PerSample os o' (fun o => if nempty then o.nnumNempty d else o.nnum d)
      (fun o => if nempty then o.nnumNempty d else o.nnum d)
      (fun o (x : List (Fin C → K)) => groupNorm rt eps cpg nempty weights bias x o d) :=
  groupnorm_perSample h.batchOf.1 d hd nempty rt eps cpg hcpg weights bias

/-- **C58**, padding, removing the padding, and nearest-neighbour upsampling. -/
theorem C58_pad_upsample {os : List (Octree F)} {o' : Octree F} {D : Nat} (h : MergedBatch os o' D) (d : Nat)
    {V : Type} [Zero V] (v : V) :
    (d ≤ D → PerSample os o' (fun o => o.nnumNempty d) (fun o => o.nnum d) (fun o (x : List V) => octreePad x o d v)) ∧
    (d ≤ D → PerSample os o' (fun o => o.nnum d) (fun o => o.nnumNempty d) (fun o (x : List V) => octreeDepad x o d)) ∧
    (d + 1 ≤ D → ∀ nempty : Bool, PerSample os o' (fun o => if nempty then o.nnumNempty d else o.nnum d)
      (fun o => if nempty then o.nnumNempty (d + 1) else o.nnum (d + 1))
      (fun o (x : List V) => octreeNearestUpsample x o d nempty)) :=
  ⟨fun hd => pad_perSample h.batchOf.1 d hd v, fun hd => depad_perSample h.batchOf.1 d hd,
    fun hd nempty => upsample_perSample h.batchOf.1 d hd nempty⟩

/-- **C58** for networks: composing operations that act sample by sample, applying a function to every row, and
combining two branches row by row again act sample by sample. -/
theorem C58_networks (os : List (Octree F)) (o' : Octree F) (n m k : Octree F → Nat) {X Y Z W : Type} :
    (∀ (op : Octree F → List X → M (List Y)) (op' : Octree F → List Y → M (List Z)),
      PerSample os o' n m op → PerSample os o' m k op' → PerSample os o' n k (fun o x => op o x >>= op' o)) ∧
    (∀ g : X → Y, PerSample os o' n n (fun _ x => .ok (x.map g))) ∧
    (∀ (g : Y → Z → W) (op : Octree F → List X → M (List Y)) (op' : Octree F → List X → M (List Z)),
      PerSample os o' n m op → PerSample os o' n m op' →
      PerSample os o' n m (fun o x => do
        let y ← op o x
        let z ← op' o x
        pure (List.zipWith g y z))) :=
  ⟨fun _ _ h h' => h.comp h', fun g => perSample_map os o' n g, fun g _ _ h h' => h.zip g h'⟩

/-- A batch of two octrees. -/
theorem example_merged : ∃ (o o' : Octree ℚ), MergedBatch [o, o] o' 2 ∧ o.nnum 2 = 16 := by
  obtain ⟨o, idx, _, hm, _, hn⟩ := example_mergeable
  have ho := hm.valid o (by simp)
  have hd := hm.depth o (by simp)
  have hf := hm.fullDepth o (by simp)
  obtain ⟨nb, _, h2⟩ := C21_neigh_exact o (by rw [hd]; exact ho) (by rw [hf])
  have hm' : Mergeable [{ o with neighs := nb }, { o with neighs := nb }] 2 1 o.device := by
    refine ⟨by simp, by simp, ?_, ?_, ?_, ?_, ?_, ?_, ?_, ?_⟩ <;>
      simp only [List.mem_cons, List.not_mem_nil, or_false, or_self, forall_eq]
    · exact hm.single o (by simp)
    · exact hd
    · exact hf
    · exact (ho.wf'.with_neighs nb).valid
  obtain ⟨o', h'⟩ := C58_ready _ 2 1 o.device hm' (le_refl _) (by
    intro o1 ho1 d h1 hd'
    simp only [List.mem_cons, List.not_mem_nil, or_false, or_self] at ho1
    subst ho1
    exact h2 d h1 (by rw [hd]; exact hd'))
  exact ⟨_, o', h', hn⟩

example : ∃ (os : List (Octree ℚ)) (o' : Octree ℚ), MergedBatch os o' 2 ∧ os.length = 2 ∧
    ∃ xs : List (List (Fin 3 → ℚ)), xs.map List.length = os.map (fun o => if false then o.nnumNempty 2 else o.nnum 2) ∧
      xs.flatten.length = 32 := by
  obtain ⟨o, o', h, hn⟩ := example_merged
  exact ⟨[o, o], o', h, rfl, [List.replicate 16 0, List.replicate 16 0], by simp [hn], by simp⟩

end Ocnn
