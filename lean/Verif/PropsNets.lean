import Verif.NetBatch
import Verif.AutoProofs
import Verif.PropsSplit

/-! C77 (the networks run on every octree and return tensors of the expected shape), C86 (the prediction for a sample does not depend on the
other samples of the batch), C78 and C79 (defects of SegNet, OUNet and OctreeResBlock2). -/

set_option linter.unusedSimpArgs false

namespace Ocnn
open Spec
variable {F : Type}

/-! ### C77 -/

namespace Spec

/-- The number of rows of a tensor of depth `d`. -/
def height (o : Octree F) (nempty : Bool) (d : Nat) : Nat := if nempty then o.nnumNempty d else o.nnum d

/-- In training mode no batch normalization between the depths `a` and `b` sees exactly one row (torch refuses this). -/
def NotSingle (P : Params) (o : Octree F) (nempty : Bool) (a b : Nat) : Prop :=
  P.training = true → nempty = true → ∀ d, a ≤ d → d ≤ b → o.nnumNempty d ≠ 1

/-- The parameters of a layer work on any buffer: the buffer of 200 million numbers holds one row of 27 cells. -/
def WidthOk (cin : Nat) : Prop := 27 * cin ≤ 200000000

/-- `r` is a tensor of shape `(n, c)`. -/
def HasShape (r : M Tensor) (n c : Nat) : Prop := ∃ y : List (Fin c → ℚ), r = .ok ⟨c, y⟩ ∧ y.length = n

end Spec

theorem both_shape {n c : Nat} {A : M Tensor} (h : Both (Rel 0 [n] c) A A) : HasShape A n c := by
  obtain ⟨a, b, h1, h2, xs, h3, rfl, x, h4, h5⟩ := h
  refine ⟨_, h1, ?_⟩
  have := congrArg List.sum h3
  rw [List.length_flatten, this]
  simp

theorem bnOk_ne {P : Params} {o : Octree F} {h : Nat} (w : o.Valid h) {nempty : Bool} {a b : Nat} (ha : 1 ≤ a) (hb : b ≤ h)
    (hs : NotSingle P o nempty a b) (d : Nat) (h1 : a ≤ d) (h2 : d ≤ b) : BnOk P (ht [o] nempty d) := by
  cases nempty with
  | false => exact bnOk_of w d (by omega) (by omega)
  | true =>
    intro hP
    exact ⟨rfl, by simpa [ht, rowsAt] using hs hP rfl d h1 h2⟩

theorem bnOk_batch {P : Params} {o : Octree F} (hb : P.training = true → o.batchSize ≠ 1) : BnOk P (Ocnn.hb [o]) := fun hP =>
  ⟨rfl, by simpa [Ocnn.hb] using hb hP⟩

theorem bnOk_num {P : Params} {n : Nat} (hb : P.training = true → n ≠ 1) : BnOk P [n] := fun hP => ⟨rfl, by simpa using hb hP⟩

variable (P : Params) {o : Octree F} {h : Nat}

/-- **C77** LeNet on an octree of depth `stages + 2`: one row of `cout` logits per sample. -/
theorem C77_lenet (w : o.Valid h) (stages : Nat) (hst : 1 ≤ stages) (hD : stages + 2 ≤ h)
    (hn : ∀ d, 1 ≤ d → d ≤ stages + 2 → NeighExact o.batchSize d o.keys o.neighs) (cin cout : Nat) (hc : WidthOk cin) (nempty : Bool)
    (hs : NotSingle P o nempty 3 (stages + 2)) (hb : P.training = true → o.batchSize ≠ 1) (x : List (Fin cin → ℚ))
    (hx : x.length = height o nempty (stages + 2)) :
    HasShape (lenet P cin cout stages nempty o (stages + 2) ⟨cin, x⟩) o.batchSize cout :=
  both_shape ((layers_single P w hD hn).lenet cout hst trivial rfl (le_refl _) hc (bnOk_ne w (by omega) hD hs) (bnOk_batch hb)
    (rel_self x (by simpa [rowsAt, height] using hx)))

/-- **C77** ResNet on an octree of depth at least `stages`: one row of `cout` logits per sample. -/
theorem C77_resnet (w : o.Valid h) (depth stages num : Nat) (hst : 1 ≤ stages) (hnum : 1 ≤ num) (hds : stages ≤ depth) (hD : depth ≤ h)
    (hn : ∀ d, 1 ≤ d → d ≤ depth → NeighExact o.batchSize d o.keys o.neighs) (cin cout : Nat) (hc : WidthOk cin) (nempty : Bool)
    (hs : NotSingle P o nempty (depth - stages + 1) depth) (hb : P.training = true → o.batchSize ≠ 1) (x : List (Fin cin → ℚ))
    (hx : x.length = height o nempty depth) :
    HasShape (resnet P cin cout num stages nempty o depth ⟨cin, x⟩) o.batchSize cout :=
  both_shape ((layers_single P w hD hn).resnet cout num hnum hst hds ⟨Nat.zero_le _, le_refl _⟩ hc (fun d h1 h2 => bnOk_ne w (by omega) hD hs d (by omega) h2)
    (bnOk_batch hb) (rel_self x (by simpa [rowsAt, height] using hx)))

/-- **C77** HRNet: one row of `cout` logits per sample.  The smallest feature map is that of depth `depth - min stages 4`, and the header pools
all of them to depth 2. -/
theorem C77_hrnet (w : o.Valid h) (depth stages : Nat) (hst : 1 ≤ stages) (hds : min stages 4 + 2 ≤ depth) (hD : depth ≤ h)
    (hn : ∀ d, 1 ≤ d → d ≤ depth → NeighExact o.batchSize d o.keys o.neighs) (cin cout : Nat) (hc : WidthOk cin) (nempty : Bool)
    (hs : NotSingle P o nempty 2 depth) (x : List (Fin cin → ℚ)) (hx : x.length = height o nempty depth) :
    HasShape (hrnet P cin cout stages nempty o depth ⟨cin, x⟩) o.batchSize cout :=
  both_shape ((layers_single P w hD hn).hrnet cout hst hds ⟨Nat.zero_le _, le_refl _⟩ hc (bnOk_ne w (by omega) hD hs)
    (rel_self x (by simpa [rowsAt, height] using hx)))

/-- **C77** UNet, for every configuration of matching lengths and widths: one row of `cout` logits per query point, for both interpolation methods.  -/
theorem C77_unet (w : o.Valid h) (cfg : UNetConfig) (hcfg : cfg.Ok) (depth : Nat) (hds : cfg.encoderBlocks.length < depth) (hD : depth ≤ h)
    (hn : ∀ d, 1 ≤ d → d ≤ depth → NeighExact o.batchSize d o.keys o.neighs) (cin cout : Nat) (hc : WidthOk cin) (nempty : Bool)
    (hs : NotSingle P o nempty (depth - cfg.encoderBlocks.length) depth) (method : String) (qs : List (V3 ℚ × Nat)) (hq : ∀ q ∈ qs, q.2 < 2 ^ 15)
    (hqs : P.training = true → qs.length ≠ 1) (x : List (Fin cin → ℚ)) (hx : x.length = height o nempty depth) :
    HasShape (unet P cfg cin cout method nempty o depth (qs.map row4) ⟨cin, x⟩) qs.length cout :=
  both_shape ((layers_single P w hD hn).unet hcfg cout method hds ⟨Nat.zero_le _, le_refl _⟩ hc (bnOk_ne w (by omega) hD hs)
    (queries_single P w hD qs hq) (bnOk_num hqs) (rel_self x (by simpa [rowsAt, height] using hx)))

/-- The configuration of the code meets the condition. -/
theorem unetConfig_ok : unetConfig.Ok := by
  constructor <;> first | rfl | (unfold unetConfig; decide) | (unfold unetConfig maxBuffer; decide)

/-- **C77** LeNet has no choice of depth: with enough rows everywhere it raises unless `depth = stages + 2`, because the header is built for
4x4x4 voxels. -/
theorem C77_lenet_depth (w : o.Valid h) (depth stages : Nat) (hst : 1 ≤ stages) (hds : stages ≤ depth) (hne : depth ≠ stages + 2) (hD : depth ≤ h)
    (hn : ∀ d, 1 ≤ d → d ≤ depth → NeighExact o.batchSize d o.keys o.neighs) (cin cout : Nat) (hc : WidthOk cin) (nempty : Bool)
    (hs : NotSingle P o nempty (depth - stages + 1) depth) (x : List (Fin cin → ℚ)) (hx : x.length = height o nempty depth) :
    lenet P cin cout stages nempty o depth ⟨cin, x⟩ = .error .shape := by
  have L := layers_single P w hD hn
  obtain ⟨a, b, h1, -, hr⟩ := L.lenetConvs hst hds ⟨Nat.zero_le _, le_refl _⟩ hc (fun d h1 h2 => bnOk_ne w (by omega) hD hs d (by omega) h2)
    (rel_self x (by simpa [rowsAt, height] using hx))
  obtain ⟨u, v, h2, -, hr'⟩ := L.voxelFlat (nempty := nempty) trivial ⟨Nat.zero_le _, by omega⟩ hr
  unfold lenet
  rw [h1]
  obtain ⟨xs, -, rfl, -⟩ := hr'
  have hw : ∀ (y : List (Fin (2 ^ (depth - stages) * 2 ^ (depth - stages) * 2 ^ (depth - stages) * 64) → ℚ)),
      (dropout P "header.0" ⟨_, y⟩).width ≠ 64 * 64 := by
    intro y e
    have : (dropout P "header.0" ⟨_, y⟩).width = 2 ^ (depth - stages) * 2 ^ (depth - stages) * 2 ^ (depth - stages) * 64 := by
      unfold dropout; split <;> rfl
    rw [this, ← pow_add, ← pow_add] at e
    have e4 : 2 ^ (depth - stages + (depth - stages) + (depth - stages)) = 2 ^ 6 := by omega
    have := Nat.pow_right_injective (le_refl 2) e4
    omega
  show (voxelFlat nempty o (depth - stages) a >>= _) = _
  rw [h2]
  show (fcBnRelu P "header.1" (64 * 64) 128 (dropout P "header.0" _) >>= _) = _
  unfold fcBnRelu linear Tensor.on Tensor.as
  rw [dif_neg (hw _)]
  rfl

/-- **C77** AutoEncoder without update of the octree: a signal for every non-empty octant of the finest depth and two logits for
every octant of every depth from `full` to `depth`. -/
theorem C77_autoencoder (w : o.Valid h) (depth full : Nat) (hf : 1 ≤ full) (hfd : full ≤ depth) (hd9 : depth ≤ 9) (hD : depth ≤ h)
    (hn : ∀ d, 1 ≤ d → d ≤ depth → NeighExact o.batchSize d o.keys o.neighs) (cin cout : Nat) (hc : WidthOk cin) (x : List (Fin cin → ℚ))
    (hx : x.length = o.nnum depth) :
    ∃ st, autoEncoder P cin cout depth full o false ⟨cin, x⟩ = .ok st ∧ st.octree = o ∧
      HasShape (.ok st.deconv) (o.nnumNempty depth) cout ∧ st.logits.length = depth + 1 - full ∧
      ∀ d, full ≤ d → d ≤ depth → ∃ l, st.logits[d - full]? = some l ∧ HasShape (.ok l) (o.nnum d) 2 := by
  have L := layers_single P w hD hn
  have hbn : ∀ d, full ≤ d → d ≤ depth → BnOk P (ht [o] false d) := fun d h1 h2 => bnOk_of w d (by omega) (by omega)
  obtain ⟨a, b, h1, -, hr⟩ := L.aeEncoder hf hfd hd9 ⟨Nat.zero_le _, le_refl _⟩ hc hbn (rel_self x (by simpa [rowsAt] using hx))
  obtain ⟨p, q, h2, h2', ho, -, hr1, hl, -, hr2⟩ := L.aeDecoder (cfg := aeCfg) (cout := cout) hf hfd hd9 ⟨Nat.zero_le _, le_refl _⟩ hbn hr
  obtain ⟨x', hx', rfl, rfl⟩ := rel_single hr
  have epq : q = p := by
    rw [h2] at h2'
    exact (Except.ok.inj h2').symm
  subst epq
  refine ⟨q, ?_, ho, ?_, hl, ?_⟩
  · unfold autoEncoder
    rw [h1]
    exact h2
  · obtain ⟨y, hy, e, -⟩ := rel_single hr1
    exact ⟨y, by rw [e], hy⟩
  · intro d hd1 hd2
    obtain ⟨a, b, e1, -, hr⟩ := hr2 (d - full) (by omega)
    rw [show full + (d - full) = d by omega] at hr
    obtain ⟨y, hy, e, -⟩ := rel_single hr
    exact ⟨a, e1, y, by rw [e], hy⟩

/-- **C77** AutoEncoder with update of the octree: the result is a well-formed octree with `B` samples, of the same depth, with neighbours, with a signal for
every non-empty octant and two logits for every octant of every depth. -/
theorem C77_autoencoder_update (w : o.Valid h) (depth full : Nat) (hf : 1 ≤ full) (hfd : full ≤ depth) (hd9 : depth ≤ 9) (hD : depth ≤ h)
    (hfull : full ≤ o.fullDepth) (hB : 1 ≤ o.batchSize)
    (hn : ∀ d, 1 ≤ d → d ≤ depth → NeighExact o.batchSize d o.keys o.neighs) (cin cout : Nat) (hc : WidthOk cin) (x : List (Fin cin → ℚ))
    (hx : x.length = o.nnum depth) :
    ∃ st, autoEncoder P cin cout depth full o true ⟨cin, x⟩ = .ok st ∧ st.octree.Valid depth ∧ st.octree.depth = depth ∧
      st.octree.fullDepth = full ∧ st.octree.batchSize = o.batchSize ∧
      (∀ d ≤ depth, NeighExact st.octree.batchSize d st.octree.keys st.octree.neighs) ∧ (∀ d ≤ depth, 0 < st.octree.nnumNempty d) ∧
      HasShape (.ok st.deconv) (st.octree.nnumNempty depth) cout ∧ st.logits.length = depth + 1 - full ∧
      ∀ d, full ≤ d → d ≤ depth → ∃ l, st.logits[d - full]? = some l ∧ HasShape (.ok l) (st.octree.nnum d) 2 := by
  have L := layers_single P w hD hn
  have hbn : ∀ d, full ≤ d → d ≤ depth → BnOk P (ht [o] false d) := fun d h1 h2 => bnOk_of w d (by omega) (by omega)
  obtain ⟨a, b, h1, -, hr⟩ := L.aeEncoder hf hfd hd9 ⟨Nat.zero_le _, le_refl _⟩ hc hbn (rel_self x (by simpa [rowsAt] using hx))
  obtain ⟨x', hx', rfl, rfl⟩ := rel_single hr
  obtain ⟨st, y, h2, h3, h4, h5, h6, h7, h8, h9, h10, h11, h12⟩ := ae_decode (F := F) P aeCfg cout (dev := o.device) hf hfd hd9 hB w.batch_le x'
    (by rw [hx']; exact nnum_full w full hfull)
  refine ⟨st, ?_, h3, h4, h5, h6, h7, h8, ⟨y, by rw [h9], h10⟩, h11, ?_⟩
  · unfold autoEncoder
    rw [h1]
    exact h2
  · intro d hd1 hd2
    obtain ⟨z, e1, e2⟩ := h12 (d - full) (by omega)
    rw [show full + (d - full) = d by omega] at e2
    exact ⟨_, e1, z, rfl, e2⟩

/-- **C77** `decode_code` runs on every code of the height of a full octree and returns a well-formed octree. -/
theorem C77_decode_code (cout depth full B dev : Nat) (hf : 1 ≤ full) (hfd : full ≤ depth) (hd9 : depth ≤ 9) (hB : 1 ≤ B) (hB' : B ≤ 2 ^ 15)
    (x : List (Fin 64 → ℚ)) (hx : x.length = 8 ^ full * B) :
    ∃ st : AeState F, aeDecodeCode P aeCfg cout depth full dev ⟨64, x⟩ = .ok st ∧ st.octree.Valid depth ∧ st.octree.batchSize = B ∧
      (∀ d ≤ depth, NeighExact st.octree.batchSize d st.octree.keys st.octree.neighs) ∧
      HasShape (.ok st.deconv) (st.octree.nnumNempty depth) cout := by
  obtain ⟨st, y, h2, h3, h4, h5, h6, h7, h8, h9, h10, h11, h12⟩ := ae_decode (F := F) P aeCfg cout (dev := dev) hf hfd hd9 hB hB' x hx
  exact ⟨st, h2, h3, h6, h7, y, by rw [h9], h10⟩

/-! ### C78 -/

theorem conv_wrong_height (w : o.Valid h) (d : Nat) (hd : d ≤ h) (hn : NeighExact o.batchSize d o.keys o.neighs) (ci co : Nat) (hc : WidthOk ci)
    (nempty : Bool) (name : String) (x : List (Fin ci → ℚ)) (hx : x.length ≠ height o nempty d) :
    octreeConv P name ci co [3] 1 nempty o d ⟨ci, x⟩ = .error .assertion := by
  have hk : ((3, 3, 3) : Nat × Nat × Nat) ∈ supportedKernels := by decide
  have ha : KernelArg [3] (3, 3, 3) := Or.inr (Or.inr ⟨rfl, rfl, rfl⟩)
  have hi := init_ok true ci co [3] 1 nempty maxBuffer (3, 3, 3) hk ha
  obtain ⟨cells, hN⟩ := nodes_one_exists o h w d hd nempty
  obtain ⟨-, hl, -⟩ := nodes_table o h w d hd hn _ hk nempty 1 cells cells hN
  obtain ⟨st, h1, -, h2, -⟩ := conv_setup o h w d hd hn (3, 3, 3) hk nempty 1 cells cells hN ci co [3] maxBuffer _ ha hi
    (by rw [show (kernelOffsets (3, 3, 3)).length = 27 by decide]; exact hc)
  unfold octreeConv
  rw [hi]
  show Tensor.on _ _ _ _ _ = _
  rw [Tensor.on_self]
  unfold ConvModule.forward convForward
  rw [h1]
  have : ¬ x.length = st.inH := by rw [h2, hl]; exact hx
  simp only [Bool.false_eq_true, if_false, bind, Except.bind, ConvSetup.checkAndInit, pyAssert, this]

/-- **C78** (partial) SegNet runs, with one row of `cout` logits per query point, when the bottleneck sees as many octants as its input has rows; this is the
case for `nempty=False`.  Missing: `nempty=True` on octrees with an empty octant at depth `depth - stages`, where it raises. -/
theorem C78_partial (w : o.Valid h) (depth stages : Nat) (hst : 1 ≤ stages) (hds : stages < depth) (hD : depth ≤ h)
    (hn : ∀ d, 1 ≤ d → d ≤ depth → NeighExact o.batchSize d o.keys o.neighs) (cin cout : Nat) (hc : WidthOk cin) (nempty : Bool)
    (hbot : nempty = true → o.nnumNempty (depth - stages) = o.nnum (depth - stages))
    (hs : NotSingle P o nempty (depth - stages) depth) (method : String) (qs : List (V3 ℚ × Nat)) (hq : ∀ q ∈ qs, q.2 < 2 ^ 15)
    (hqs : P.training = true → qs.length ≠ 1) (x : List (Fin cin → ℚ)) (hx : x.length = height o nempty depth) :
    HasShape (segnet P cin cout stages method nempty o depth (qs.map row4) ⟨cin, x⟩) qs.length cout := by
  refine both_shape ((layers_single P w hD hn).segnet cout hst method hds ⟨Nat.zero_le _, le_refl _⟩ (Nat.zero_le _) hc trivial ?_ (bnOk_ne w (by omega) hD hs)
    (queries_single P w hD qs hq) (bnOk_num hqs) (rel_self x (by simpa [rowsAt, height] using hx)))
  cases nempty with
  | false => rfl
  | true => exact (by simp [ht, rowsAt, hbot rfl] : ht [o] true (depth - stages) = ht [o] false (depth - stages))

/-- **C78** With `nempty=True` SegNet raises on every octree that has an empty octant at depth `depth - stages`. -/
theorem C78_raises (w : o.Valid h) (depth stages : Nat) (hst : 1 ≤ stages) (hds : stages < depth) (hD : depth ≤ h)
    (hn : ∀ d, 1 ≤ d → d ≤ depth → NeighExact o.batchSize d o.keys o.neighs) (cin cout : Nat) (hc : WidthOk cin)
    (hbot : o.nnumNempty (depth - stages) ≠ o.nnum (depth - stages))
    (hs : NotSingle P o true (depth - stages + 1) depth) (method : String) (pts : List Pt4) (x : List (Fin cin → ℚ))
    (hx : x.length = o.nnumNempty depth) :
    segnet P cin cout stages method true o depth pts ⟨cin, x⟩ = .error .assertion := by
  have L := layers_single P w hD hn
  obtain ⟨⟨a, ia⟩, b, h1, -, hr, -⟩ := L.segnetEncs (nempty := true) (stages := stages) (by omega) ⟨Nat.zero_le _, le_refl _⟩ hc
    (fun d h1 h2 => bnOk_ne w (by omega) hD hs d (by omega) h2) (rel_self x (by simpa [rowsAt] using hx))
  obtain ⟨y, hy, rfl, -⟩ := rel_single hr
  unfold segnet
  have hs0 : ¬ stages = 0 := by omega
  simp only [if_neg hs0, pure_bind]
  rw [h1]
  show (convBnRelu P "bottleneck" _ _ [3] 1 false o (depth - stages) _ >>= _) = _
  unfold convBnRelu
  rw [conv_wrong_height P w (depth - stages) (by omega) (hn _ (by omega) (by omega)) _ _ (Layers.segnetIn_le hc stages stages (le_refl _)) false _ y
    (by simpa [height, hy, rowsAt] using hbot)]
  rfl

/-- **C78 is violated**: an octree of depth 2 and a SegNet with one stage and `nempty=True`, for all parameters. -/
theorem C78_violated : ∃ (o : Octree Unit), o.Valid 2 ∧ (∀ d ≤ 2, NeighExact o.batchSize d o.keys o.neighs) ∧
    ∀ (P : Params) (method : String) (pts : List Pt4) (x : List (Fin 4 → ℚ)), P.training = false → x.length = o.nnumNempty 2 →
      segnet P 4 10 1 method true o 2 pts ⟨4, x⟩ = .error .assertion := by
  obtain ⟨o, h1, -, h5, h8, -, h6, -⟩ := example_valid'
  refine ⟨o, h1, h5, fun P method pts x hP hx => ?_⟩
  refine C78_raises P h1 2 1 (le_refl _) (by decide) (le_refl _) (fun d _ hd => h5 d hd) 4 10 (by unfold WidthOk; decide) ?_ ?_ method pts x hx
  · rw [show 2 - 1 = 1 by rfl, h6, h8]; decide
  · intro e; rw [hP] at e; exact absurd e (by decide)

/-! ### C79 -/

/-- **C79 is violated**: no call constructs an `OUNet`. -/
theorem C79_ounet_violated (npos : Nat) (kw : List String) : ounetInit npos kw = .error .type := by
  have h2 : pyBind aeParams 5 ["code_channel"] = .error .type := by decide
  unfold ounetInit
  rw [h2]
  unfold pyBind
  split
  · rfl
  · split
    · rfl
    · split <;> rfl

/-- The arguments of `OUNet` themselves are accepted as those of `AutoEncoder` are; the error is that of the call of the parent constructor. -/
theorem C79_autoencoder_partial : pyBind aeParams 3 [] = .ok () ∧ pyBind aeParams 5 [] = .ok () ∧
    pyBind aeParams 3 ["full_depth", "feature"] = .ok () := by decide

/-- **C79 is violated**: `OctreeResBlock2` with `stride=2` raises, whatever the other arguments. -/
theorem C79_resblock2_violated (name : String) (ci co bottleneck : Nat) (hb : 1 ≤ bottleneck) (nempty : Bool) (o : Octree F) (d : Nat) (t : Tensor) :
    resBlock2 P name ci co 2 bottleneck nempty o d t = .error .type := by
  unfold resBlock2 bottleneckChannels
  rw [if_neg (by omega)]
  rfl

/-- **C79** (partial) `OctreeResBlock2` with `stride=1` runs. -/
theorem C79_resblock2_partial (w : o.Valid h) (d : Nat) (hd : 1 ≤ d) (hD : d ≤ h) (hn : ∀ e, 1 ≤ e → e ≤ d → NeighExact o.batchSize e o.keys o.neighs)
    (name : String) (ci co bottleneck : Nat) (hb : 1 ≤ bottleneck) (hci : WidthOk ci) (hco : WidthOk co) (nempty : Bool)
    (hs : NotSingle P o nempty d d) (x : List (Fin ci → ℚ)) (hx : x.length = height o nempty d) :
    HasShape (resBlock2 P name ci co 1 bottleneck nempty o d ⟨ci, x⟩) (height o nempty d) co := by
  have hc : 27 * (co / bottleneck) ≤ maxBuffer := le_trans (Nat.mul_le_mul_left _ (Nat.div_le_self _ _)) hco
  exact both_shape ((layers_single P w hD hn).resBlock2 name co hb hd ⟨Nat.zero_le _, le_refl _⟩ hci hc (bnOk_ne w hd hD hs d (le_refl _) (le_refl _))
    (rel_self x (by simpa [rowsAt, height] using hx)))

theorem resBlock_stride (name : String) (ci co bottleneck : Nat) (hb : 1 ≤ bottleneck) (nempty : Bool) (o : Octree F) (d : Nat) (t : Tensor) :
    resBlock P name ci co 2 bottleneck nempty o (d + 1) t = (maxPool nempty o (d + 1) t >>= resBlock P name ci co 1 bottleneck nempty o d) := by
  unfold resBlock bottleneckChannels
  rw [if_neg (by omega)]
  rfl

/-- **C79** `OctreeResBlock` runs with both strides; with `stride=2` the result lives one depth above. -/
theorem C79_resblock (w : o.Valid h) (d : Nat) (hd : 1 ≤ d) (hD : d ≤ h) (hn : ∀ e, 1 ≤ e → e ≤ d → NeighExact o.batchSize e o.keys o.neighs)
    (name : String) (ci co bottleneck : Nat) (hb : 1 ≤ bottleneck) (hco : WidthOk co) (nempty : Bool)
    (hs : NotSingle P o nempty (d - 1) d) (x : List (Fin ci → ℚ)) (hx : x.length = height o nempty d) :
    HasShape (resBlock P name ci co 1 bottleneck nempty o d ⟨ci, x⟩) (height o nempty d) co ∧
    (2 ≤ d → HasShape (resBlock P name ci co 2 bottleneck nempty o d ⟨ci, x⟩) (height o nempty (d - 1)) co) := by
  have hc : 27 * (co / bottleneck) ≤ maxBuffer := le_trans (Nat.mul_le_mul_left _ (Nat.div_le_self _ _)) hco
  have L := layers_single P w hD hn
  have hr := rel_self (n := rowsAt nempty d o) x (by simpa [rowsAt, height] using hx)
  refine ⟨both_shape (L.resBlock name co hb hd ⟨Nat.zero_le _, le_refl _⟩ hc
    (bnOk_ne w hd hD (fun e1 e2 d' h1 h2 => hs e1 e2 d' (by omega) h2) d (le_refl _) (le_refl _)) hr), fun h2 => ?_⟩
  obtain ⟨e, rfl⟩ : ∃ e, d = e + 1 := ⟨d - 1, by omega⟩
  rw [resBlock_stride P name ci co bottleneck hb]
  exact both_shape ((L.maxPool ⟨Nat.zero_le _, le_refl _⟩ hr).bind fun a b hab => L.resBlock name co hb (by omega) ⟨Nat.zero_le _, by omega⟩ hc
    (bnOk_ne w (a := e) (b := e + 1) (by omega) hD hs e (le_refl _) (by omega)) hab)

/-! ### C86 -/

namespace Spec

/-- The network `net` (a function of the octree, of the query points of its samples and of the input rows) treats the samples independently: run on the merged octree
`o'` and the concatenated inputs `xs` it returns the concatenation of what it returns for the sample octrees `os` one by one, where the
results have the heights `ns`. -/
def Independent {c c' : Nat} (os : List (Octree F)) (xs : List (List (Fin c → ℚ))) (ns : List Nat) (batched : M Tensor)
    (single : Nat → Octree F → List (Fin c → ℚ) → M Tensor) : Prop :=
  ∃ ys : List (List (Fin c' → ℚ)), batched = .ok ⟨c', ys.flatten⟩ ∧ ys.map List.length = ns ∧ ys.length = os.length ∧
    ∀ i o x, os[i]? = some o → xs[i]? = some x → ∃ y, ys[i]? = some y ∧ single i o x = .ok ⟨c', y⟩

end Spec

theorem batch_out {c c' : Nat} {os : List (Octree F)} {xs : List (List (Fin c → ℚ))} {ns : List Nat} {A : M Tensor}
    {B : Nat → Octree F → List (Fin c → ℚ) → M Tensor} (h0 : os ≠ []) (hxs : xs.length = os.length) (hns : ns.length = os.length)
    (H : ∀ i o x, os[i]? = some o → xs[i]? = some x → Both (Rel i ns c') A (B i o x)) :
    Independent (c' := c') os xs ns A B := by
  have hpos : 0 < os.length := List.length_pos_iff.2 h0
  obtain ⟨a, b, h1, -, ys, h2, rfl, -⟩ := H 0 os[0] (xs[0]'(by omega)) (List.getElem?_eq_getElem hpos) (List.getElem?_eq_getElem (by omega))
  refine ⟨ys, h1, h2, by rw [← hns, ← h2, List.length_map], fun i o x ho hx => ?_⟩
  obtain ⟨a', b', h1', h3, ys', h4, rfl, y, h5, rfl⟩ := H i o x ho hx
  rw [h1] at h1'
  injection h1' with e
  injection e with _ e
  have : ys = ys' := List.eq_iff_flatten_eq.2 ⟨e, by rw [h2, h4]⟩
  subst this
  exact ⟨y, h5, h3⟩

theorem rel_batch {c : Nat} {os : List (Octree F)} {xs : List (List (Fin c → ℚ))} {nempty : Bool} {d : Nat}
    (hx : xs.map List.length = os.map fun o => height o nempty d) {i : Nat} {x : List (Fin c → ℚ)} (hi : xs[i]? = some x) :
    Rel i (ht os nempty d) c ⟨c, xs.flatten⟩ ⟨c, x⟩ := ⟨xs, hx, rfl, x, hi, rfl⟩

theorem bnOk_eval {P : Params} (hP : P.training = false) (ns : List Nat) : BnOk P ns := fun e => absurd (hP.symm.trans e) (by decide)

variable {os : List (Octree F)} {o' : Octree F} {D : Nat}

/-- **C86** LeNet in evaluation mode. -/
theorem C86_lenet (hP : P.training = false) (hm : MergedBatch os o' D) (stages : Nat) (hst : 1 ≤ stages) (hD : stages + 2 ≤ D)
    (cin cout : Nat) (hc : WidthOk cin) (nempty : Bool) (xs : List (List (Fin cin → ℚ)))
    (hx : xs.map List.length = os.map fun o => height o nempty (stages + 2)) :
    Independent (c' := cout) os xs (os.map fun _ => 1) (lenet P cin cout stages nempty o' (stages + 2) ⟨cin, xs.flatten⟩)
      (fun _ o x => lenet P cin cout stages nempty o (stages + 2) ⟨cin, x⟩) := by
  obtain ⟨_, _, _, hmg⟩ := hm.mergeable
  have hb : hb os = os.map fun _ => 1 := List.map_congr_left fun o ho => hmg.single o ho
  refine batch_out hmg.nonempty (by simpa using congrArg List.length hx) (by simp) fun i o x ho hi => ?_
  rw [← hb]
  exact (layers_batch hP hm ho).lenet cout hst trivial rfl hD hc (fun _ _ _ => bnOk_eval hP _) (bnOk_eval hP _) (rel_batch hx hi)

/-- **C86** ResNet in evaluation mode. -/
theorem C86_resnet (hP : P.training = false) (hm : MergedBatch os o' D) (depth stages num : Nat) (hst : 1 ≤ stages) (hnum : 1 ≤ num)
    (hds : stages ≤ depth) (hD : depth ≤ D)
    (cin cout : Nat) (hc : WidthOk cin) (nempty : Bool) (xs : List (List (Fin cin → ℚ)))
    (hx : xs.map List.length = os.map fun o => height o nempty depth) :
    Independent (c' := cout) os xs (os.map fun _ => 1) (resnet P cin cout num stages nempty o' depth ⟨cin, xs.flatten⟩)
      (fun _ o x => resnet P cin cout num stages nempty o depth ⟨cin, x⟩) := by
  obtain ⟨_, _, _, hmg⟩ := hm.mergeable
  have hb : hb os = os.map fun _ => 1 := List.map_congr_left fun o ho => hmg.single o ho
  refine batch_out hmg.nonempty (by simpa using congrArg List.length hx) (by simp) fun i o x ho hi => ?_
  rw [← hb]
  exact (layers_batch hP hm ho).resnet cout num hnum hst hds ⟨Nat.zero_le _, hD⟩ hc (fun _ _ _ => bnOk_eval hP _) (bnOk_eval hP _) (rel_batch hx hi)

/-- **C86** HRNet in evaluation mode. -/
theorem C86_hrnet (hP : P.training = false) (hm : MergedBatch os o' D) (depth stages : Nat) (hst : 1 ≤ stages) (hds : min stages 4 + 2 ≤ depth)
    (hD : depth ≤ D) (cin cout : Nat) (hc : WidthOk cin) (nempty : Bool) (xs : List (List (Fin cin → ℚ)))
    (hx : xs.map List.length = os.map fun o => height o nempty depth) :
    Independent (c' := cout) os xs (os.map fun _ => 1) (hrnet P cin cout stages nempty o' depth ⟨cin, xs.flatten⟩)
      (fun _ o x => hrnet P cin cout stages nempty o depth ⟨cin, x⟩) := by
  obtain ⟨_, _, _, hmg⟩ := hm.mergeable
  have hb : hb os = os.map fun _ => 1 := List.map_congr_left fun o ho => hmg.single o ho
  refine batch_out hmg.nonempty (by simpa using congrArg List.length hx) (by simp) fun i o x ho hi => ?_
  rw [← hb]
  exact (layers_batch hP hm ho).hrnet cout hst hds ⟨Nat.zero_le _, hD⟩ hc (fun _ _ _ => bnOk_eval hP _) (rel_batch hx hi)

/-- **C86** UNet in evaluation mode: the predictions at the query points `pss` of the samples. -/
theorem C86_unet (hP : P.training = false) (hm : MergedBatch os o' D) (cfg : UNetConfig) (hcfg : cfg.Ok) (depth : Nat)
    (hds : cfg.encoderBlocks.length < depth) (hD : depth ≤ D) (cin cout : Nat) (hc : WidthOk cin) (nempty : Bool) (method : String)
    (pss : List (List (V3 ℚ))) (hps : pss.length = os.length) (xs : List (List (Fin cin → ℚ)))
    (hx : xs.map List.length = os.map fun o => height o nempty depth) :
    Independent (c' := cout) os xs (pss.map List.length) (unet P cfg cin cout method nempty o' depth (batchPoints pss) ⟨cin, xs.flatten⟩)
      (fun i o x => unet P cfg cin cout method nempty o depth (samplePoints (pss.getD i [])) ⟨cin, x⟩) := by
  obtain ⟨_, _, _, hmg⟩ := hm.mergeable
  refine batch_out hmg.nonempty (by simpa using congrArg List.length hx) (by simpa using hps) fun i o x ho hi => ?_
  have hi' : i < pss.length := by rw [hps]; exact (List.getElem?_eq_some_iff.1 ho).1
  have hp : pss[i]? = some (pss.getD i []) := by rw [List.getD_eq_getElem?_getD, List.getElem?_eq_getElem hi']; rfl
  exact (layers_batch hP hm ho).unet hcfg cout method hds ⟨Nat.zero_le _, hD⟩ hc (fun _ _ _ => bnOk_eval hP _) (queries_batch P hm ho pss hps hp)
    (bnOk_eval hP _) (rel_batch hx hi)

/-- **C86** SegNet in evaluation mode, with `nempty=False` or without empty octants at the depth of the bottleneck (see C78). -/
theorem C86_segnet (hP : P.training = false) (hm : MergedBatch os o' D) (depth stages : Nat) (hst : 1 ≤ stages)
    (hds : stages < depth) (hD : depth ≤ D) (cin cout : Nat) (hc : WidthOk cin) (nempty : Bool)
    (hbot : nempty = true → ∀ o ∈ os, o.nnumNempty (depth - stages) = o.nnum (depth - stages)) (method : String)
    (pss : List (List (V3 ℚ))) (hps : pss.length = os.length) (xs : List (List (Fin cin → ℚ)))
    (hx : xs.map List.length = os.map fun o => height o nempty depth) :
    Independent (c' := cout) os xs (pss.map List.length) (segnet P cin cout stages method nempty o' depth (batchPoints pss) ⟨cin, xs.flatten⟩)
      (fun i o x => segnet P cin cout stages method nempty o depth (samplePoints (pss.getD i [])) ⟨cin, x⟩) := by
  obtain ⟨_, _, _, hmg⟩ := hm.mergeable
  refine batch_out hmg.nonempty (by simpa using congrArg List.length hx) (by simpa using hps) fun i o x ho hi => ?_
  have hi' : i < pss.length := by rw [hps]; exact (List.getElem?_eq_some_iff.1 ho).1
  have hp : pss[i]? = some (pss.getD i []) := by rw [List.getD_eq_getElem?_getD, List.getElem?_eq_getElem hi']; rfl
  refine (layers_batch hP hm ho).segnet cout hst method hds ⟨Nat.zero_le _, hD⟩ (Nat.zero_le _) hc trivial ?_ (fun _ _ _ => bnOk_eval hP _) (queries_batch P hm ho pss hps hp)
    (bnOk_eval hP _) (rel_batch hx hi)
  cases nempty with
  | false => rfl
  | true => exact List.map_congr_left fun o ho => by simp [rowsAt, hbot rfl o ho]

/-- **C86** AutoEncoder in evaluation mode, without update of the octree: the signal, and the logits of every depth. -/
theorem C86_autoencoder (hP : P.training = false) (hm : MergedBatch os o' D) (depth full : Nat) (hf : 1 ≤ full) (hfd : full ≤ depth) (hd9 : depth ≤ 9)
    (hD : depth ≤ D) (cin cout : Nat) (hc : WidthOk cin) (xs : List (List (Fin cin → ℚ)))
    (hx : xs.map List.length = os.map fun o => o.nnum depth) :
    Independent (c' := cout) os xs (os.map fun o => o.nnumNempty depth)
      ((autoEncoder P cin cout depth full o' false ⟨cin, xs.flatten⟩).map AeState.deconv)
      (fun _ o x => (autoEncoder P cin cout depth full o false ⟨cin, x⟩).map AeState.deconv) ∧
    ∀ d, full ≤ d → d ≤ depth → Independent (c' := 2) os xs (os.map fun o => o.nnum d)
      (autoEncoder P cin cout depth full o' false ⟨cin, xs.flatten⟩ >>= fun st => need st.logits[d - full]?)
      (fun _ o x => autoEncoder P cin cout depth full o false ⟨cin, x⟩ >>= fun st => need st.logits[d - full]?) := by
  obtain ⟨_, _, _, hmg⟩ := hm.mergeable
  have key : ∀ i o x, os[i]? = some o → xs[i]? = some x →
      Both (fun p q => Rel i (ht os true depth) cout p.deconv q.deconv ∧
        AllRel (depth + 1 - full) (fun j => Rel i (ht os false (full + j)) 2) p.logits q.logits)
      (autoEncoder P cin cout depth full o' false ⟨cin, xs.flatten⟩) (autoEncoder P cin cout depth full o false ⟨cin, x⟩) := by
    intro i o x ho hi
    have L := layers_batch hP hm ho
    unfold autoEncoder
    refine (L.aeEncoder hf hfd hd9 ⟨Nat.zero_le _, hD⟩ hc (fun _ _ _ => bnOk_eval hP _) (rel_batch hx hi)).bind fun a b hab => ?_
    exact (L.aeDecoder hf hfd hd9 ⟨Nat.zero_le _, hD⟩ (fun _ _ _ => bnOk_eval hP _) hab).mono fun p q h => h.2.2
  refine ⟨batch_out hmg.nonempty (by simpa using congrArg List.length hx) (by simp) fun i o x ho hi => ?_, fun d h1 h2 =>
    batch_out hmg.nonempty (by simpa using congrArg List.length hx) (by simp) fun i o x ho hi => ?_⟩
  · obtain ⟨p, q, e1, e2, h1, -⟩ := key i o x ho hi
    exact ⟨_, _, by rw [e1]; rfl, by rw [e2]; rfl, h1⟩
  · obtain ⟨p, q, e1, e2, -, -, -, h3⟩ := key i o x ho hi
    obtain ⟨a, b, g1, g2, g3⟩ := h3 (d - full) (by omega)
    rw [show full + (d - full) = d by omega] at g3
    exact ⟨a, b, by rw [e1]; show need _ = _; rw [g1]; rfl, by rw [e2]; show need _ = _; rw [g2]; rfl, g3⟩

/-! ### concrete cases -/

/-- Octrees of every depth up to 16 for the examples: every second octant is split. -/
theorem example_deep (D : Nat) (h2 : 2 ≤ D) (hD : D ≤ 16) (B : Nat) (hB : 1 ≤ B) (hB' : B ≤ 2 ^ 15) : ∃ o : Octree ℚ, o.Valid D ∧ o.depth = D ∧
    o.fullDepth = 2 ∧ o.batchSize = B ∧ (∀ d ≤ D, NeighExact o.batchSize d o.keys o.neighs) ∧ ∀ d ≤ D, 0 < o.nnumNempty d := by
  obtain ⟨o, -, h1, h2', h3, h4, h5, h6⟩ := C19_decode (F := ℚ) (fun o d => (List.range (o.nnum d)).map fun i => if i % 2 = 0 then 1 else 0)
    (by
      intro o d
      refine ⟨by simp, fun v hv => ?_⟩
      obtain ⟨i, _, rfl⟩ := List.mem_map.1 hv
      by_cases h : i % 2 = 0 <;> simp [h]) D 2 B 0 h2 hD hB hB'
  exact ⟨o, h4, h1, h2', h3, h5, h6⟩

/-- Batches of every depth up to 16 for the examples. -/
theorem example_deep_batch (D : Nat) (h2 : 2 ≤ D) (hD : D ≤ 16) : ∃ (o o' : Octree ℚ), MergedBatch [o, o] o' D ∧ 0 < o.nnumNempty D := by
  obtain ⟨o, h1, hd, hf, hB, hn, hp⟩ := example_deep D h2 hD 1 (le_refl _) (by decide)
  have hm' : Mergeable [o, o] D 2 o.device := by
    refine ⟨by simp, by simp, ?_, ?_, ?_, ?_, ?_, ?_, ?_, ?_⟩ <;>
      simp only [List.mem_cons, List.not_mem_nil, or_false, or_self, forall_eq] <;> assumption
  obtain ⟨o', h'⟩ := C58_ready _ D 2 o.device hm' (by decide) (by
    intro o1 ho1 d h1 hd'
    simp only [List.mem_cons, List.not_mem_nil, or_false, or_self] at ho1
    subst ho1
    exact hn d hd')
  exact ⟨_, o', h', hp D (le_refl _)⟩

/-- The hypotheses of C77 are met: an octree of depth 6 with two samples, in training mode, for `nempty=False`. -/
example (P : Params) (hP : P.training = true) : ∃ o : Octree ℚ, o.Valid 6 ∧ ∃ x : List (Fin 4 → ℚ), x.length = height o false 6 ∧ x ≠ [] ∧
    HasShape (lenet P 4 10 4 false o 6 ⟨4, x⟩) 2 10 ∧ HasShape (resnet P 4 10 3 5 false o 6 ⟨4, x⟩) 2 10 ∧
    HasShape (hrnet P 4 10 3 false o 6 ⟨4, x⟩) 2 10 ∧
    HasShape (unet P unetConfig 4 10 "linear" false o 6 ([(⟨0, 1 / 2, 1 / 3⟩, 0), (⟨0, 1 / 2, 1 / 3⟩, 1)].map row4) ⟨4, x⟩) 2 10 ∧
    HasShape (segnet P 4 10 3 "nearest" false o 6 ([(⟨0, 1 / 2, 1 / 3⟩, 0), (⟨0, 1 / 2, 1 / 3⟩, 1)].map row4) ⟨4, x⟩) 2 10 ∧
    (∃ st, autoEncoder P 4 3 6 2 o true ⟨4, x⟩ = .ok st) := by
  obtain ⟨o, h1, hd, hf, hB, hn, hp⟩ := example_deep 6 (by decide) (by decide) 2 (by decide) (by decide)
  have hpos : o.nnum 6 ≠ 0 := by
    have := hp 6 (le_refl _)
    have h3 : o.nnumNempty 6 ≤ o.nnum 6 := by
      rw [nnumNempty_eq h1 6 (le_refl _), wf_nnum h1.wf' 6 (le_refl _)]
      exact List.count_le_length
    omega
  refine ⟨o, h1, List.replicate (o.nnum 6) 1, by simp [height], by simp [hpos], ?_, ?_, ?_, ?_, ?_, ?_⟩
  · rw [← hB]
    exact C77_lenet P h1 4 (by decide) (by decide) (fun d _ h => hn d h) 4 10 (by unfold WidthOk; decide) false (fun _ h => absurd h (by decide))
      (fun _ => by rw [hB]; decide) (List.replicate (o.nnum 6) 1) (by simp [height])
  · rw [← hB]
    exact C77_resnet P h1 6 5 3 (by decide) (by decide) (by decide) (by decide) (fun d _ h => hn d h) 4 10 (by unfold WidthOk; decide) false
      (fun _ h => absurd h (by decide)) (fun _ => by rw [hB]; decide) (List.replicate (o.nnum 6) 1) (by simp [height])
  · rw [← hB]
    exact C77_hrnet P h1 6 3 (by decide) (by decide) (by decide) (fun d _ h => hn d h) 4 10 (by unfold WidthOk; decide) false
      (fun _ h => absurd h (by decide)) (List.replicate (o.nnum 6) 1) (by simp [height])
  · exact C77_unet P h1 unetConfig unetConfig_ok 6 (by decide) (by decide) (fun d _ h => hn d h) 4 10 (by unfold WidthOk; decide) false
      (fun _ h => absurd h (by decide)) "linear" _ (by simp) (by simp) (List.replicate (o.nnum 6) 1) (by simp [height])
  · exact C78_partial P h1 6 3 (by decide) (by decide) (by decide) (fun d _ h => hn d h) 4 10 (by unfold WidthOk; decide) false
      (fun h => absurd h (by decide)) (fun _ h => absurd h (by decide)) "nearest" _ (by simp) (by simp) (List.replicate (o.nnum 6) 1) (by simp [height])
  · obtain ⟨st, e, -⟩ := C77_autoencoder_update P h1 6 2 (by decide) (by decide) (by decide) (by decide) (by omega) (by omega) (fun d _ h => hn d h)
      4 3 (by unfold WidthOk; decide) (List.replicate (o.nnum 6) 1) (by simp)
    exact ⟨st, e⟩

/-- The hypotheses of C86 are met: a batch of two octrees of depth 6 with different inputs. -/
example (P : Params) (hP : P.training = false) : ∃ (o o' : Octree ℚ) (x x' : List (Fin 4 → ℚ)), x ≠ x' ∧
    Independent (c' := 10) [o, o] [x, x'] [1, 1] (resnet P 4 10 2 5 true o' 6 ⟨4, [x, x'].flatten⟩)
      (fun _ o x => resnet P 4 10 2 5 true o 6 ⟨4, x⟩) ∧
    Independent (c' := 10) [o, o] [x, x'] [1, 2] (unet P unetConfig 4 10 "linear" true o' 6
        (batchPoints [[⟨0, 1 / 2, 1 / 3⟩], [⟨0, 1 / 2, 1 / 3⟩, ⟨0, 0, -1 / 3⟩]]) ⟨4, [x, x'].flatten⟩)
      (fun i o x => unet P unetConfig 4 10 "linear" true o 6
        (samplePoints ([[⟨0, 1 / 2, 1 / 3⟩], [⟨0, 1 / 2, 1 / 3⟩, ⟨0, 0, -1 / 3⟩]].getD i [])) ⟨4, x⟩) := by
  obtain ⟨o, o', hm, hp⟩ := example_deep_batch 6 (by decide) (by decide)
  refine ⟨o, o', List.replicate (o.nnumNempty 6) 1, List.replicate (o.nnumNempty 6) 2, ?_, ?_, ?_⟩
  · intro e
    have := congrArg (fun l => l[0]?) e
    simp only [List.getElem?_replicate, hp, if_true, Option.some.injEq] at this
    have := congrFun this 0
    norm_num at this
  · exact C86_resnet P hP hm 6 5 2 (by decide) (by decide) (by decide) (by decide) 4 10 (by unfold WidthOk; decide) true _ (by simp [height])
  · exact C86_unet P hP hm unetConfig unetConfig_ok 6 (by decide) (by decide) 4 10 (by unfold WidthOk; decide) true "linear"
      _ (by simp) _ (by simp [height])

end Ocnn
