import Verif.NetMemoryNets

/-! C166: the in-place operations of the forward passes are invisible.  Nothing that existed before a forward pass is overwritten, the
result is the one of the computation on values, and the backward pass does not find a saved tensor modified. -/

namespace Ocnn
namespace Mem
variable {F : Type}

/-- The tensor that a forward pass returns, read after the forward pass. -/
def Spec.result (out : M Nat × Store) : M Tensor :=
  out.1 >>= fun r => match out.2.slots[r]? with
    | some c => .ok c.value
    | none => .error .domain

/-- A forward pass from memory `m` with outcome `out`, also when it raises: every tensor that was there is still there with the same values
and has not been written to; if the backward pass was possible before, it still is. -/
structure Spec.Harmless {α : Type} (m : Store) (out : M α × Store) : Prop where
  unchanged : ∀ (k : Nat) (c : Slot), m.slots[k]? = some c → out.2.slots[k]? = some c
  backward : m.backward = .ok () → out.2.backward = .ok ()

theorem backward_iff (m : Store) : m.backward = .ok () ↔ m.Current := by
  unfold Store.backward Store.Current
  constructor
  · intro h
    split at h
    · rename_i hall
      intro p hp
      simpa using List.all_eq_true.mp hall p hp
    · cases h
  · intro h
    rw [if_pos]
    rw [List.all_eq_true]
    intro p hp
    simpa using h p hp

theorem Outcome.harmless {α β : Type} {V : Store → α → β → Prop} {m : Store} {out : M α × Store} {x : M β} (h : Outcome V m out x) :
    Spec.Harmless m out :=
  ⟨fun _ _ hc => h.keeps.get hc, fun hb => (backward_iff _).mpr (h.current ((backward_iff _).mp hb))⟩

theorem Outcome.result {m : Store} {out : M Nat × Store} {x : M Tensor} (h : Outcome Ref m out x) : Spec.result out = x := by
  obtain ⟨res, m'⟩ := out
  rcases h.val with ⟨r, t, h1, h2, h3⟩ | ⟨e, h1, h2⟩
  · dsimp only at h1
    subst h1
    subst h2
    obtain ⟨v, hv⟩ := Store.Has.slot h3
    show (match m'.slots[r]? with
      | some c => Except.ok c.value
      | none => Except.error Err.domain) = _
    rw [hv]
  · dsimp only at h1
    subst h1
    subst h2
    rfl

theorem has_of_slot {m : Store} {r v : Nat} {t : Tensor} (h : m.slots[r]? = some ⟨t, v⟩) : m.Has r t := by
  unfold Store.Has
  rw [h]
  rfl

theorem refs_map {m : Store} {rs : List Nat} {ts : List Tensor} (h : Refs m rs ts) :
    rs.map (fun s => (m.slots[s]?).map Slot.value) = ts.map some := by
  induction h with
  | nil => rfl
  | cons hx _ ih => rw [List.map_cons, List.map_cons, ih]; exact congrArg (· :: _) hx

end Mem

open Mem

/-! ### Convolutions with bias -/

/-- `OctreeConv` with `out += self.bias`: with either method, stride and bias. -/
theorem C166_conv (P : Params) (name : String) (ci co : Nat) (ks : List Nat) (stride : Nat) (nempty direct useBias : Bool) (o : Octree F)
    (d : Nat) (m : Store) (r v : Nat) (t : Tensor) (hr : m.slots[r]? = some ⟨t, v⟩) :
    Spec.Harmless m (octreeConvR P name ci co ks stride nempty direct useBias o d r m) ∧
    Spec.result (octreeConvR P name ci co ks stride nempty direct useBias o d r m) = (do
      let base ← ConvBase.init true ci co ks stride nempty maxBuffer
      t.on ci co .assertion fun x => ConvModule.forward (denseKernel ℚ ci co)
        { base := base, directMethod := direct, weights := convWeights P name base.kdim ci co,
          bias := if useBias then some (fun i : Fin co => P.bias name i) else none } x o d) :=
  have h := octreeConv_outcome P name ci co ks stride nempty direct useBias o d (has_of_slot hr)
  ⟨h.harmless, h.result⟩

/-- `OctreeDeconv` with `out += self.bias`. -/
theorem C166_deconv (P : Params) (name : String) (ci co : Nat) (ks : List Nat) (stride : Nat) (nempty direct useBias : Bool) (o : Octree F)
    (d : Nat) (m : Store) (r v : Nat) (t : Tensor) (hr : m.slots[r]? = some ⟨t, v⟩) :
    Spec.Harmless m (octreeDeconvR P name ci co ks stride nempty direct useBias o d r m) ∧
    Spec.result (octreeDeconvR P name ci co ks stride nempty direct useBias o d r m) = (do
      let base ← ConvBase.init false ci co ks stride nempty maxBuffer
      t.on ci co .assertion fun x => ConvModule.deconvForward (denseKernel ℚ co ci)
        { base := base, directMethod := direct, weights := convWeights P name base.kdim co ci,
          bias := if useBias then some (fun i : Fin co => P.bias name i) else none } x o d) :=
  have h := octreeDeconv_outcome P name ci co ks stride nempty direct useBias o d (has_of_slot hr)
  ⟨h.harmless, h.result⟩

/-! ### Blocks -/

/-- The blocks with in-place activations: `OctreeConvBnRelu`, `OctreeDeconvBnRelu`, `Conv1x1BnRelu`, `FcBnRelu`. -/
theorem C166_modules (P : Params) (name : String) (ci co : Nat) (ks : List Nat) (stride : Nat) (nempty : Bool) (o : Octree F) (d : Nat)
    (m : Store) (r v : Nat) (t : Tensor) (hr : m.slots[r]? = some ⟨t, v⟩) :
    (Spec.Harmless m (convBnReluR P name ci co ks stride nempty o d r m) ∧
      Spec.result (convBnReluR P name ci co ks stride nempty o d r m) = convBnRelu P name ci co ks stride nempty o d t) ∧
    (Spec.Harmless m (deconvBnReluR P name ci co ks stride nempty o d r m) ∧
      Spec.result (deconvBnReluR P name ci co ks stride nempty o d r m) = deconvBnRelu P name ci co ks stride nempty o d t) ∧
    (Spec.Harmless m (conv1x1BnReluR P name ci co r m) ∧
      Spec.result (conv1x1BnReluR P name ci co r m) = conv1x1BnRelu P name ci co t) ∧
    (Spec.Harmless m (fcBnReluR P name ci co r m) ∧
      Spec.result (fcBnReluR P name ci co r m) = fcBnRelu P name ci co t) :=
  have h := has_of_slot hr
  have h1 := convBnRelu_outcome P name ci co ks stride nempty o d h
  have h2 := deconvBnRelu_outcome P name ci co ks stride nempty o d h
  have h3 := conv1x1BnRelu_outcome P name ci co h
  have h4 := fcBnRelu_outcome P name ci co h
  ⟨⟨h1.harmless, h1.result⟩, ⟨h2.harmless, h2.result⟩, ⟨h3.harmless, h3.result⟩, ⟨h4.harmless, h4.result⟩⟩

/-- Any number of residual blocks of either kind. -/
theorem C166_resblocks (P : Params) (kind : BlockKind) (name : String) (ci co num bottleneck : Nat) (nempty : Bool) (o : Octree F) (d : Nat)
    (m : Store) (r v : Nat) (t : Tensor) (hr : m.slots[r]? = some ⟨t, v⟩) :
    Spec.Harmless m (resBlocksR P kind name ci co num bottleneck nempty o d r m) ∧
    Spec.result (resBlocksR P kind name ci co num bottleneck nempty o d r m) = resBlocks P kind name ci co num bottleneck nempty o d t :=
  have h := resBlocks_outcome P kind name ci co num bottleneck nempty o d (has_of_slot hr)
  ⟨h.harmless, h.result⟩

/-- A residual block with any stride. -/
theorem C166_resblock (P : Params) (name : String) (ci co stride bottleneck : Nat) (nempty : Bool) (o : Octree F) (d : Nat)
    (m : Store) (r v : Nat) (t : Tensor) (hr : m.slots[r]? = some ⟨t, v⟩) :
    Spec.Harmless m (resBlockR P name ci co stride bottleneck nempty o d r m) ∧
    Spec.result (resBlockR P name ci co stride bottleneck nempty o d r m) = resBlock P name ci co stride bottleneck nempty o d t :=
  have h := resBlock_outcome P name ci co stride bottleneck nempty o d (has_of_slot hr)
  ⟨h.harmless, h.result⟩

/-! ### Networks -/

/-- `LeNet` and `ResNet`, training or not. -/
theorem C166_classification (P : Params) (cin cout num stages : Nat) (nempty : Bool) (o : Octree F) (depth : Nat)
    (m : Store) (r v : Nat) (t : Tensor) (hr : m.slots[r]? = some ⟨t, v⟩) :
    (Spec.Harmless m (lenetR P cin cout stages nempty o depth r m) ∧
      Spec.result (lenetR P cin cout stages nempty o depth r m) = lenet P cin cout stages nempty o depth t) ∧
    (Spec.Harmless m (resnetR P cin cout num stages nempty o depth r m) ∧
      Spec.result (resnetR P cin cout num stages nempty o depth r m) = resnet P cin cout num stages nempty o depth t) ∧
    (Spec.Harmless m (hrnetR P cin cout stages nempty o depth r m) ∧
      Spec.result (hrnetR P cin cout stages nempty o depth r m) = hrnet P cin cout stages nempty o depth t) :=
  have h1 := lenet_outcome P cin cout stages nempty o depth (has_of_slot hr)
  have h2 := resnet_outcome P cin cout num stages nempty o depth (has_of_slot hr)
  have h3 := hrnet_outcome P cin cout stages nempty o depth (has_of_slot hr)
  ⟨⟨h1.harmless, h1.result⟩, ⟨h2.harmless, h2.result⟩, ⟨h3.harmless, h3.result⟩⟩

/-- `SegNet` and `UNet` with its skip connections, for every configuration. -/
theorem C166_segmentation (P : Params) (cfg : UNetConfig) (cin cout stages : Nat) (method : String) (nempty : Bool) (o : Octree F) (depth : Nat)
    (pts : List Pt4) (m : Store) (r v : Nat) (t : Tensor) (hr : m.slots[r]? = some ⟨t, v⟩) :
    (Spec.Harmless m (segnetR P cin cout stages method nempty o depth pts r m) ∧
      Spec.result (segnetR P cin cout stages method nempty o depth pts r m) = segnet P cin cout stages method nempty o depth pts t) ∧
    (Spec.Harmless m (unetR P cfg cin cout method nempty o depth pts r m) ∧
      Spec.result (unetR P cfg cin cout method nempty o depth pts r m) = unet P cfg cin cout method nempty o depth pts t) :=
  have h1 := segnet_outcome P cin cout stages method nempty o depth pts (has_of_slot hr)
  have h2 := unet_outcome P cfg cin cout method nempty o depth pts (has_of_slot hr)
  ⟨⟨h1.harmless, h1.result⟩, ⟨h2.harmless, h2.result⟩⟩

/-- The tensors of the encoder of `UNet` that the skip connections use are, after the decoder, what the encoder computed. -/
theorem C166_skip (P : Params) (cfg : UNetConfig) (cin : Nat) (nempty : Bool) (o : Octree F) (depth : Nat) (m : Store) (r v : Nat) (t : Tensor)
    (hr : m.slots[r]? = some ⟨t, v⟩) (convd : Nat → Option Nat) (m1 : Store)
    (henc : unetEncoderR P cfg cin nempty o depth r m = (.ok convd, m1)) :
    ∃ vals, unetEncoder P cfg cin nempty o depth t = .ok vals ∧ ∀ k, (convd k = none ↔ vals k = none) ∧ ∀ s, convd k = some s →
      ∃ x w, vals k = some x ∧ m1.slots[s]? = some ⟨x, w⟩ ∧
        (unetDecoderR P cfg nempty o (depth - cfg.encoderBlocks.length) convd m1).2.slots[s]? = some ⟨x, w⟩ := by
  have h1 := unetEncoder_outcome P cfg cin nempty o depth (has_of_slot hr)
  rw [henc] at h1
  rcases h1.val with ⟨a, vals, e1, e2, hd⟩ | ⟨e, e1, -⟩
  · cases e1
    have h2 := unetDecoder_outcome P cfg nempty o (depth - cfg.encoderBlocks.length) hd
    refine ⟨vals, e2, fun k => ?_⟩
    rcases hd k with ⟨n1, n2⟩ | ⟨s, x, n1, n2, n3⟩
    · exact ⟨by rw [n1, n2]; simp, fun s hs => by rw [n1] at hs; cases hs⟩
    · refine ⟨by rw [n1, n2]; simp, fun s' hs => ?_⟩
      rw [n1] at hs
      cases hs
      obtain ⟨w, hw⟩ := n3.slot
      exact ⟨x, w, n2, hw, h2.keeps.get hw⟩
  · cases e1

/-- The tensor returned by the autoencoder (the signal), the logits and the octree. -/
theorem C166_autoencoder (P : Params) (cin cout depth full : Nat) (o : Octree F) (update : Bool) (m : Store) (r v : Nat) (t : Tensor)
    (hr : m.slots[r]? = some ⟨t, v⟩) :
    Spec.Harmless m (autoEncoderR P cin cout depth full o update r m) ∧
    ((∃ st st', (autoEncoderR P cin cout depth full o update r m).1 = .ok st ∧ autoEncoder P cin cout depth full o update t = .ok st' ∧
        st.octree = st'.octree ∧
        ((autoEncoderR P cin cout depth full o update r m).2.slots[st.deconv]?).map Slot.value = some st'.deconv ∧
        st.logits.map (fun s => ((autoEncoderR P cin cout depth full o update r m).2.slots[s]?).map Slot.value) = st'.logits.map some) ∨
      ∃ e, (autoEncoderR P cin cout depth full o update r m).1 = .error e ∧ autoEncoder P cin cout depth full o update t = .error e) := by
  have h := autoEncoder_outcome P cin cout depth full o update (has_of_slot hr)
  refine ⟨h.harmless, ?_⟩
  rcases h.val with ⟨st, st', e1, e2, e3, e4, e5⟩ | h
  · refine .inl ⟨st, st', e1, e2, e3, e4, ?_⟩
    exact refs_map e5
  · exact .inr h

/-! ### The hypotheses can be met, and the model tells harmless from harmful in-place operations -/

/-- A memory with the features of three nodes in two channels. -/
def exampleStore : Store := ⟨[⟨⟨2, [![1, -2], ![-3, 4], ![5, 6]]⟩, 0⟩], []⟩

example : exampleStore.slots[0]? = some ⟨⟨2, [![1, -2], ![-3, 4], ![5, 6]]⟩, 0⟩ := rfl

example : exampleStore.backward = .ok () := rfl

/-- An activation in place of the features that a linear layer has used: the features are overwritten and the backward pass raises. -/
example (P : Params) :
    let out := (op (linear P "a" 2 1 false) 0 >>= fun _ => reluI 0) exampleStore
    (out.2.slots[0]?).map Slot.version = some 1 ∧ out.2.backward = .error .value ∧ ¬Spec.Harmless exampleStore out := by
  have e : (op (linear P "a" 2 1 false) 0 >>= fun _ => reluI 0) exampleStore
      = (.ok 0, ⟨[⟨relu ⟨2, [![1, -2], ![-3, 4], ![5, 6]]⟩, 1⟩, ⟨⟨1, [![1, -2], ![-3, 4], ![5, 6]].map fun v => fun j : Fin 1 =>
          (∑ i : Fin 2, v i * P.weight "a" 1 0 i j) + if false then P.bias "a" j else 0⟩, 0⟩], [(0, 0), (0, 1)]⟩) := by
    have e1 : linear P "a" 2 1 false ⟨2, [![1, -2], ![-3, 4], ![5, 6]]⟩ = .ok ⟨1, [![1, -2], ![-3, 4], ![5, 6]].map fun v => fun j : Fin 1 =>
          (∑ i : Fin 2, v i * P.weight "a" 1 0 i j) + if false then P.bias "a" j else 0⟩ := by
      unfold linear
      rw [Tensor.on_self]
      rfl
    have e2 := op_run (m := exampleStore) (linear P "a" 2 1 false) (r := 0) (t := ⟨2, [![1, -2], ![-3, 4], ![5, 6]]⟩) (v := 0) rfl
    rw [e1] at e2
    rw [bind_ok e2]
    exact relu_run (t := ⟨2, [![1, -2], ![-3, 4], ![5, 6]]⟩) (v := 0) rfl
  rw [e]
  refine ⟨rfl, rfl, fun h => ?_⟩
  have := h.backward rfl
  cases this

end Ocnn
