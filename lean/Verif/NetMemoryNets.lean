import Verif.NetMemoryLemmas

/-! The blocks and networks on references, one by one. -/

namespace Ocnn
namespace Mem
variable {F : Type} {m : Store} {r : Nat} {t : Tensor}

theorem read_outcome (hr : m.Has r t) : Outcome Same m (read r m) (pure t) := by
  obtain ⟨v, hv⟩ := hr.slot
  rw [read_run hv]
  exact ⟨Keeps.refl m, id, .inl ⟨t, t, rfl, rfl, rfl⟩⟩

theorem dropout_outcome (P : Params) (name : String) (hr : m.Has r t) :
    Outcome Ref m (dropoutR P name r m) (pure (dropout P name t)) := by
  unfold dropoutR
  cases hP : P.training with
  | true =>
    rw [if_pos rfl]
    exact (op_outcome _ hr).1
  | false =>
    rw [if_neg (by simp)]
    have : dropout P name t = t := by unfold dropout; rw [hP]; rfl
    rw [this]
    exact Outcome.pure hr

/-! ### Convolutions -/

/-- `OctreeConv.forward` on values, with the choice of method and bias. -/
def octreeConvV (P : Params) (name : String) (ci co : Nat) (ks : List Nat) (stride : Nat) (nempty direct useBias : Bool) (o : Octree F)
    (d : Nat) (t : Tensor) : M Tensor := do
  let base ← ConvBase.init true ci co ks stride nempty maxBuffer
  t.on ci co .assertion fun x => ConvModule.forward (denseKernel ℚ ci co)
    { base := base, directMethod := direct, weights := convWeights P name base.kdim ci co,
      bias := if useBias then some (fun i : Fin co => P.bias name i) else none } x o d

/-- `OctreeDeconv.forward` on values, with the choice of method and bias. -/
def octreeDeconvV (P : Params) (name : String) (ci co : Nat) (ks : List Nat) (stride : Nat) (nempty direct useBias : Bool) (o : Octree F)
    (d : Nat) (t : Tensor) : M Tensor := do
  let base ← ConvBase.init false ci co ks stride nempty maxBuffer
  t.on ci co .assertion fun x => ConvModule.deconvForward (denseKernel ℚ co ci)
    { base := base, directMethod := direct, weights := convWeights P name base.kdim co ci,
      bias := if useBias then some (fun i : Fin co => P.bias name i) else none } x o d

theorem tensor_cases (t : Tensor) (c : Nat) : (∃ x : List (Fin c → ℚ), t = ⟨c, x⟩) ∨ t.width ≠ c := by
  by_cases h : t.width = c
  · subst h
    exact .inl ⟨t.rows, rfl⟩
  · exact .inr h

theorem on_ne {c c' : Nat} (h : t.width ≠ c) (e : Err) (f : List (Fin c → ℚ) → M (List (Fin c' → ℚ))) : t.on c c' e f = .error e := by
  unfold Tensor.on Tensor.as
  rw [dif_neg h]
  rfl

/-- The steps of a convolution one after the other. -/
theorem conv_steps (P : Params) (name : String) (ci co : Nat) (base : ConvBase) (direct useBias : Bool) (o : Octree F) (d : Nat) (t : Tensor) :
    (t.on ci co .assertion fun x => ConvModule.forward (denseKernel ℚ ci co)
      { base := base, directMethod := direct, weights := convWeights P name base.kdim ci co,
        bias := if useBias then some (fun i : Fin co => P.bias name i) else none } x o d)
    = (do
      let out ← convRaw P name ci co base direct o d t
      let out : Tensor ← (if useBias then pure ⟨out.width, out.rows.map fun v => fun i => v i + P.bias name i⟩ else pure out : M Tensor)
      if base.stride = 2 ∧ base.nempty = false then padBelow o d out else pure out) := by
  rcases tensor_cases t ci with ⟨x, rfl⟩ | h
  · unfold convRaw
    rw [Tensor.on_self, Tensor.on_self]
    unfold ConvModule.forward
    dsimp only
    generalize (if direct = true then do
        let col ← octree2col x o d base.kernel base.stride base.nempty
        mmCols (denseKernel ℚ ci co) (convWeights P name base.kdim ci co) col
      else convForward (denseKernel ℚ ci co) base x (convWeights P name base.kdim ci co) o d : M (List (Fin co → ℚ))) = raw
    cases raw with
    | error e => rfl
    | ok y =>
      have e : (if useBias = true then pure ⟨co, y.map fun v => fun i => v i + P.bias name i⟩ else pure ⟨co, y⟩ : M Tensor)
          = .ok ⟨co, addBias (if useBias = true then some (fun i : Fin co => P.bias name i) else none) y⟩ := by
        cases useBias <;> rfl
      show ((if base.stride = 2 ∧ base.nempty = false then if d = 0 then .error .domain else
          octreePad (addBias (if useBias = true then some (fun i : Fin co => P.bias name i) else none) y) o (d - 1) 0
        else pure (addBias (if useBias = true then some (fun i : Fin co => P.bias name i) else none) y) : M (List (Fin co → ℚ)))
          >>= fun z => .ok (⟨co, z⟩ : Tensor))
        = ((if useBias = true then pure ⟨co, y.map fun v => fun i => v i + P.bias name i⟩ else pure ⟨co, y⟩ : M Tensor) >>= fun out =>
          if base.stride = 2 ∧ base.nempty = false then padBelow o d out else pure out)
      rw [e]
      show _ = (if base.stride = 2 ∧ base.nempty = false then
          padBelow o d (⟨co, addBias (if useBias = true then some (fun i : Fin co => P.bias name i) else none) y⟩ : Tensor)
        else pure ⟨co, addBias (if useBias = true then some (fun i : Fin co => P.bias name i) else none) y⟩)
      unfold padBelow
      split
      · split <;> rfl
      · rfl
  · unfold convRaw
    rw [on_ne h, on_ne h]
    rfl

/-- A convolution returns new memory that is not saved, before the in-place addition of the bias as well as after. -/
theorem octreeConv_outcome (P : Params) (name : String) (ci co : Nat) (ks : List Nat) (stride : Nat) (nempty direct useBias : Bool)
    (o : Octree F) (d : Nat) (hr : m.Has r t) :
    Outcome Ref m (octreeConvR P name ci co ks stride nempty direct useBias o d r m)
      (octreeConvV P name ci co ks stride nempty direct useBias o d t) := by
  unfold octreeConvR octreeConvV
  refine (Outcome.lift _).bindSame fun base m1 hk => ?_
  rw [conv_steps]
  have hr1 := hk.has hr
  have h0 := op_outcome (convRaw P name ci co base direct o d) hr1
  cases useBias with
  | true =>
    have h1 := (bias_outcome (P.bias name) h0).1
    have e1 : (do
        let out ← op (convRaw P name ci co base direct o d) r
        let out ← (if true = true then biasI (P.bias name) out else pure out : Prog Nat)
        if base.stride = 2 ∧ base.nempty = false then op (padBelow o d) out else pure out)
      = ((op (convRaw P name ci co base direct o d) r >>= biasI (P.bias name)) >>= fun out =>
        if base.stride = 2 ∧ base.nempty = false then op (padBelow o d) out else pure out) := by
      rw [bind_assoc]
      rfl
    have e2 : (do
        let out ← convRaw P name ci co base direct o d t
        let out : Tensor ← (if true = true then pure ⟨out.width, out.rows.map fun v => fun i => v i + P.bias name i⟩ else pure out : M Tensor)
        if base.stride = 2 ∧ base.nempty = false then padBelow o d out else pure out)
      = ((convRaw P name ci co base direct o d t >>= fun y => pure ⟨y.width, y.rows.map fun w => fun i => w i + P.bias name i⟩) >>= fun out =>
        if base.stride = 2 ∧ base.nempty = false then padBelow o d out else pure out) := by
      rw [bind_assoc]
      rfl
    rw [e1, e2]
    refine h1.bind fun s y m2 _ hs => ?_
    exact Outcome.ite _ (fun _ => (op_outcome _ hs).1) fun _ => Outcome.pure hs
  | false =>
    refine h0.1.bind fun s y m2 _ hs => ?_
    exact Outcome.ite _ (fun _ => (op_outcome _ hs).1) fun _ => Outcome.pure hs

/-- The steps of a deconvolution one after the other. -/
theorem deconv_steps (P : Params) (name : String) (ci co : Nat) (base : ConvBase) (direct useBias : Bool) (o : Octree F) (d : Nat) (t : Tensor) :
    (t.on ci co .assertion fun x => ConvModule.deconvForward (denseKernel ℚ co ci)
      { base := base, directMethod := direct, weights := convWeights P name base.kdim co ci,
        bias := if useBias then some (fun i : Fin co => P.bias name i) else none } x o d)
    = (do
      let data ← (if base.stride = 2 ∧ base.nempty = false then t.on ci ci .assertion fun x => octreeDepad x o d else pure t : M Tensor)
      let out ← deconvRaw P name ci co base direct o d data
      if useBias then pure ⟨out.width, out.rows.map fun v => fun i => v i + P.bias name i⟩ else pure out) := by
  rcases tensor_cases t ci with ⟨x, rfl⟩ | h
  · rw [Tensor.on_self, Tensor.on_self]
    unfold ConvModule.deconvForward
    dsimp only
    have e0 : (if base.stride = 2 ∧ base.nempty = false then (octreeDepad x o d >>= fun y => .ok (⟨ci, y⟩ : Tensor)) else pure ⟨ci, x⟩ : M Tensor)
        = ((if base.stride = 2 ∧ base.nempty = false then octreeDepad x o d else pure x : M (List (Fin ci → ℚ))) >>= fun y => .ok ⟨ci, y⟩) := by
      split <;> rfl
    rw [e0]
    generalize (if base.stride = 2 ∧ base.nempty = false then octreeDepad x o d else pure x : M (List (Fin ci → ℚ))) = pre
    cases pre with
    | error e => rfl
    | ok x' =>
      show ((if direct = true then _ else _ : M (List (Fin co → ℚ))) >>= fun out => pure (addBias _ out)) >>= (fun y => .ok (⟨co, y⟩ : Tensor))
        = (deconvRaw P name ci co base direct o d ⟨ci, x'⟩ >>= fun out =>
          if useBias then pure ⟨out.width, out.rows.map fun v => fun i => v i + P.bias name i⟩ else pure out)
      unfold deconvRaw
      rw [Tensor.on_self]
      generalize (if direct = true then
        col2octree (x'.map fun g => (convWeights P name base.kdim co ci).map fun w => (denseKernel ℚ co ci).apT g w) o
          (if base.stride = 2 then d + 1 else d) base.kernel base.stride base.nempty
        else deconvForward (denseKernel ℚ co ci) base x' (convWeights P name base.kdim co ci) o d : M (List (Fin co → ℚ))) = raw
      cases raw with
      | error e => rfl
      | ok y => cases useBias <;> rfl
  · unfold deconvRaw
    rw [on_ne h, on_ne h]
    split
    · rfl
    · show _ = ((t.on ci co .assertion _ >>= _) : M Tensor)
      rw [on_ne h]
      rfl

theorem octreeDeconv_outcome (P : Params) (name : String) (ci co : Nat) (ks : List Nat) (stride : Nat) (nempty direct useBias : Bool)
    (o : Octree F) (d : Nat) (hr : m.Has r t) :
    Outcome Ref m (octreeDeconvR P name ci co ks stride nempty direct useBias o d r m)
      (octreeDeconvV P name ci co ks stride nempty direct useBias o d t) := by
  unfold octreeDeconvR octreeDeconvV
  refine (Outcome.lift _).bindSame fun base m1 hk => ?_
  rw [deconv_steps]
  have hr1 := hk.has hr
  refine Outcome.bind (V := Ref) (Outcome.ite _ (fun _ => (op_outcome _ hr1).1) fun _ => Outcome.pure hr1) fun s x m2 hk2 hs => ?_
  have h0 := op_outcome (deconvRaw P name ci co base direct o d) hs
  cases useBias with
  | true => exact (bias_outcome (P.bias name) h0).1
  | false => exact h0.1.bind fun s y m3 _ hs => Outcome.pure hs

theorem convV_eq (P : Params) (name : String) (ci co : Nat) (ks : List Nat) (stride : Nat) (nempty : Bool) (o : Octree F) (d : Nat)
    (t : Tensor) : octreeConvV P name ci co ks stride nempty false false o d t = octreeConv P name ci co ks stride nempty o d t := rfl

theorem deconvV_eq (P : Params) (name : String) (ci co : Nat) (ks : List Nat) (stride : Nat) (nempty : Bool) (o : Octree F) (d : Nat)
    (t : Tensor) : octreeDeconvV P name ci co ks stride nempty false false o d t = octreeDeconv P name ci co ks stride nempty o d t := rfl

/-! ### modules.py -/

theorem convBn_outcome (P : Params) (name : String) (ci co : Nat) (ks : List Nat) (stride : Nat) (nempty : Bool) (o : Octree F) (d : Nat)
    (hr : m.Has r t) : Outcome Ref m (convBnR P name ci co ks stride nempty o d r m) (convBn P name ci co ks stride nempty o d t) := by
  unfold convBnR convBn
  exact (octreeConv_outcome P _ ci co ks stride nempty false false o d hr).bind fun s y m1 _ hs => (op_outcome _ hs).1

theorem convBnRelu_outcome (P : Params) (name : String) (ci co : Nat) (ks : List Nat) (stride : Nat) (nempty : Bool) (o : Octree F) (d : Nat)
    (hr : m.Has r t) :
    Outcome Ref m (convBnReluR P name ci co ks stride nempty o d r m) (convBnRelu P name ci co ks stride nempty o d t) := by
  unfold convBnReluR convBnRelu
  exact (octreeConv_outcome P _ ci co ks stride nempty false false o d hr).bind fun s y m1 _ hs => relu_outcome (op_outcome _ hs)

theorem deconvBnRelu_outcome (P : Params) (name : String) (ci co : Nat) (ks : List Nat) (stride : Nat) (nempty : Bool) (o : Octree F) (d : Nat)
    (hr : m.Has r t) :
    Outcome Ref m (deconvBnReluR P name ci co ks stride nempty o d r m) (deconvBnRelu P name ci co ks stride nempty o d t) := by
  unfold deconvBnReluR deconvBnRelu
  exact (octreeDeconv_outcome P _ ci co ks stride nempty false false o d hr).bind fun s y m1 _ hs => relu_outcome (op_outcome _ hs)

theorem conv1x1_outcome (P : Params) (name : String) (ci co : Nat) (b : Bool) (hr : m.Has r t) :
    Outcome Ref m (conv1x1R P name ci co b r m) (conv1x1 P name ci co b t) := (op_outcome _ hr).1

theorem conv1x1Bn_outcome (P : Params) (name : String) (ci co : Nat) (hr : m.Has r t) :
    Outcome Ref m (conv1x1BnR P name ci co r m) (conv1x1Bn P name ci co t) := by
  unfold conv1x1BnR conv1x1Bn
  exact (conv1x1_outcome P _ ci co false hr).bind fun s y m1 _ hs => (op_outcome _ hs).1

theorem conv1x1BnRelu_outcome (P : Params) (name : String) (ci co : Nat) (hr : m.Has r t) :
    Outcome Ref m (conv1x1BnReluR P name ci co r m) (conv1x1BnRelu P name ci co t) := by
  unfold conv1x1BnReluR conv1x1BnRelu
  exact (conv1x1_outcome P _ ci co false hr).bind fun s y m1 _ hs => relu_outcome (op_outcome _ hs)

theorem fcBnRelu_outcome (P : Params) (name : String) (ci co : Nat) (hr : m.Has r t) :
    Outcome Ref m (fcBnReluR P name ci co r m) (fcBnRelu P name ci co t) := by
  unfold fcBnReluR fcBnRelu
  exact (op_outcome _ hr).1.bind fun s y m1 _ hs => relu_outcome (op_outcome _ hs)

/-! ### resblocks.py -/

theorem resBlock_outcome (P : Params) (name : String) (ci co stride bottleneck : Nat) (nempty : Bool) (o : Octree F) (d : Nat)
    (hr : m.Has r t) :
    Outcome Ref m (resBlockR P name ci co stride bottleneck nempty o d r m) (resBlock P name ci co stride bottleneck nempty o d t) := by
  unfold resBlockR resBlock
  refine (Outcome.lift _).bindSame fun cb m1 hk1 => ?_
  refine Outcome.bind (V := Ref) (Outcome.ite _ (fun _ => (op_outcome _ (hk1.has hr)).1) fun _ => Outcome.pure (hk1.has hr))
    fun data x m2 hk2 hx => ?_
  dsimp only
  refine (conv1x1BnRelu_outcome P _ ci cb hx).bind fun c1 y1 m3 hk3 h1 => ?_
  refine (convBnRelu_outcome P _ cb cb [3] 1 nempty o _ h1).bind fun c2 y2 m4 hk4 h2 => ?_
  refine (conv1x1Bn_outcome P _ cb co h2).bind fun c3 y3 m5 hk5 h3 => ?_
  have hx5 := hk5.has (hk4.has (hk3.has hx))
  refine Outcome.bind (V := Ref) (Outcome.ite _ (fun _ => conv1x1Bn_outcome P _ ci co hx5) fun _ => Outcome.pure hx5)
    fun data' x' m6 hk6 hx' => ?_
  exact relu_outcome (op2_outcome _ (hk6.has h3) hx')

theorem resBlock2_outcome (P : Params) (name : String) (ci co stride bottleneck : Nat) (nempty : Bool) (o : Octree F) (d : Nat)
    (hr : m.Has r t) :
    Outcome Ref m (resBlock2R P name ci co stride bottleneck nempty o d r m) (resBlock2 P name ci co stride bottleneck nempty o d t) := by
  unfold resBlock2R resBlock2
  refine (Outcome.lift _).bindSame fun cb m1 hk1 => ?_
  dsimp only
  refine Outcome.guard _ _ ?_
  have hr2 := hk1.has hr
  refine (convBnRelu_outcome P _ ci cb [3] 1 nempty o d hr2).bind fun c1 y1 m3 hk3 h1 => ?_
  refine (convBn_outcome P _ cb co [3] 1 nempty o d h1).bind fun c2 y2 m4 hk4 h2 => ?_
  have hr4 := hk4.has (hk3.has hr2)
  refine Outcome.bind (V := Ref) (Outcome.ite _ (fun _ => conv1x1Bn_outcome P _ ci co hr4) fun _ => Outcome.pure hr4)
    fun data' x' m5 hk5 hx' => ?_
  exact relu_outcome (op2_outcome _ (hk5.has h2) hx')

theorem resBlocks_outcome (P : Params) (kind : BlockKind) (name : String) (ci co num bottleneck : Nat) (nempty : Bool) (o : Octree F) (d : Nat)
    (hr : m.Has r t) :
    Outcome Ref m (resBlocksR P kind name ci co num bottleneck nempty o d r m) (resBlocks P kind name ci co num bottleneck nempty o d t) := by
  unfold resBlocksR resBlocks
  refine outcome_foldlM (V := Ref) _ hr fun i _ a b m' _ hab => ?_
  unfold resStepR resStep oneBlockR oneBlock
  cases kind with
  | block => exact resBlock_outcome P _ _ _ _ _ _ _ _ hab
  | block2 => exact resBlock2_outcome P _ _ _ _ _ _ _ _ hab

/-! ### lenet.py, resnet.py -/

theorem lenet_outcome (P : Params) (cin cout stages : Nat) (nempty : Bool) (o : Octree F) (depth : Nat) (hr : m.Has r t) :
    Outcome Ref m (lenetR P cin cout stages nempty o depth r m) (lenet P cin cout stages nempty o depth t) := by
  unfold lenetR lenet
  refine Outcome.bind (outcome_foldlM (V := Ref) _ hr fun i _ a b m' _ hab => ?_) fun a b m1 hk1 h1 => ?_
  · unfold lenetStepR lenetStep
    exact (convBnRelu_outcome P _ _ _ _ _ _ _ _ hab).bind fun s y m1 _ hs => (op_outcome _ hs).1
  refine (op_outcome _ h1).1.bind fun a b m2 hk2 h2 => ?_
  have e (x : Tensor) : (do
      let t ← fcBnRelu P "header.1" (64 * 64) 128 (dropout P "header.0" x)
      linear P "header.3" 128 cout true (dropout P "header.2" t))
    = (do
      let x ← (pure (dropout P "header.0" x) : M Tensor)
      let x ← fcBnRelu P "header.1" (64 * 64) 128 x
      let x ← (pure (dropout P "header.2" x) : M Tensor)
      linear P "header.3" 128 cout true x) := rfl
  rw [e]
  refine (dropout_outcome P _ h2).bind fun a b m3 hk3 h3 => ?_
  refine (fcBnRelu_outcome P _ _ _ h3).bind fun a b m4 hk4 h4 => ?_
  exact (dropout_outcome P _ h4).bind fun a b m5 hk5 h5 => (op_outcome _ h5).1

theorem resnet_outcome (P : Params) (cin cout num stages : Nat) (nempty : Bool) (o : Octree F) (depth : Nat) (hr : m.Has r t) :
    Outcome Ref m (resnetR P cin cout num stages nempty o depth r m) (resnet P cin cout num stages nempty o depth t) := by
  unfold resnetR resnet
  dsimp only
  refine Outcome.guard _ _ ?_
  refine (convBnRelu_outcome P _ _ _ _ _ _ _ _ hr).bind fun a b m1 hk1 h1 => ?_
  refine (op_outcome _ h1).1.bind fun a b m2 hk2 h2 => ?_
  refine Outcome.bind (outcome_foldlM (V := Ref) _ h2 fun i _ a b m' _ hab => ?_) fun a b m3 hk3 h3 => ?_
  · unfold resnetStepR resnetStep
    exact (resBlocks_outcome P _ _ _ _ _ _ _ _ _ hab).bind fun s y m1 _ hs => (op_outcome _ hs).1
  refine (op_outcome _ h3).1.bind fun a b m4 hk4 h4 => ?_
  refine (fcBnRelu_outcome P _ _ _ h4).bind fun a b m5 hk5 h5 => ?_
  show Outcome Ref m5 _ ((pure (dropout P "header.1" b) : M Tensor) >>= fun x => linear P "header.2" 512 cout true x)
  exact (dropout_outcome P _ h5).bind fun a b m6 hk6 h6 => (op_outcome _ h6).1

/-! ### segnet.py -/

theorem maxPoolIdx_outcome (nempty : Bool) (o : Octree F) (d : Nat) (hr : m.Has r t) :
    Outcome (fun m a b => m.Has a.1 b.1 ∧ m.Has a.2 b.2) m (maxPoolIdxR nempty o d r m) (maxPoolIdx nempty o d t) := by
  obtain ⟨v, hv⟩ := hr.slot
  unfold maxPoolIdxR
  rw [bind_ok (read_run hv)]
  cases hy : maxPoolIdx nempty o d t with
  | error e =>
    rw [bind_error (show lift (Except.error e : M (Tensor × Tensor)) m = (.error e, m) from rfl)]
    exact ⟨Keeps.refl m, id, .inr ⟨e, rfl, rfl⟩⟩
  | ok y =>
    rw [bind_ok (show lift (Except.ok y : M (Tensor × Tensor)) m = (.ok y, m) from rfl), bind_ok (save_run hv)]
    refine ⟨⟨[⟨y.1, 0⟩, ⟨y.2, 0⟩], ?_⟩, fun hm => ?_, .inl ⟨(m.slots.length, (m.slots ++ [(⟨y.1, 0⟩ : Slot)]).length), y, rfl, rfl, ?_, ?_⟩⟩
    · show m.slots ++ _ = m.slots ++ [_] ++ [_]
      simp
    · exact current_snoc (m := ⟨m.slots ++ [⟨y.1, 0⟩], m.saved ++ [(r, v)]⟩)
        (current_snoc (m := ⟨m.slots, m.saved ++ [(r, v)]⟩) (current_save hm hv) _) _
    · show ((m.slots ++ [(⟨y.1, 0⟩ : Slot)] ++ [⟨y.2, 0⟩])[m.slots.length]?).map Slot.value = some y.1
      simp
    · show ((m.slots ++ [(⟨y.1, 0⟩ : Slot)] ++ [⟨y.2, 0⟩])[(m.slots ++ [(⟨y.1, 0⟩ : Slot)]).length]?).map Slot.value = some y.2
      rw [List.getElem?_append_right (le_refl _), Nat.sub_self]
      rfl

theorem dict_set {f : Nat → Option Nat} {g : Nat → Option Tensor} (h : Dict m f g) (d : Nat) (hr : m.Has r t) :
    Dict m (fun k => if k = d then some r else f k) (fun k => if k = d then some t else g k) := by
  intro k
  dsimp only
  by_cases hk : k = d
  · rw [if_pos hk, if_pos hk]
    exact .inr ⟨r, t, rfl, rfl, hr⟩
  · rw [if_neg hk, if_neg hk]
    exact h k

theorem getKey_outcome {f : Nat → Option Nat} {g : Nat → Option Tensor} (h : Dict m f g) (k : Nat) :
    Outcome Ref m (lift (getKey f k) m) (getKey g k) := by
  unfold getKey
  rcases h k with ⟨h1, h2⟩ | ⟨r, t, h1, h2, h3⟩
  · rw [h1, h2]
    exact ⟨Keeps.refl m, id, .inr ⟨_, rfl, rfl⟩⟩
  · rw [h1, h2]
    exact ⟨Keeps.refl m, id, .inl ⟨r, t, rfl, rfl, h3⟩⟩

theorem segnet_outcome (P : Params) (cin cout stages : Nat) (method : String) (nempty : Bool) (o : Octree F) (depth : Nat)
    (pts : List Pt4) (hr : m.Has r t) :
    Outcome Ref m (segnetR P cin cout stages method nempty o depth pts r m) (segnet P cin cout stages method nempty o depth pts t) := by
  unfold segnetR segnet
  dsimp only
  refine Outcome.guard _ _ ?_
  refine Outcome.bind (outcome_foldlM (V := fun m a b => m.Has a.1 b.1 ∧ Dict m a.2 b.2) _
    ⟨hr, fun k => .inl ⟨rfl, rfl⟩⟩ fun i _ a b m' _ hab => ?_) fun a b m1 hk1 h1 => ?_
  · unfold segnetEncR segnetEnc
    dsimp only
    refine (convBnRelu_outcome P _ _ _ _ _ _ _ _ hab.1).bind fun s y m1 hk hs => ?_
    refine (maxPoolIdx_outcome _ _ _ hs).bind fun p q m2 hk2 hp => ?_
    exact Outcome.pure ⟨hp.1, dict_set ((hk.trans hk2).dict hab.2) _ hp.2⟩
  refine (convBnRelu_outcome P _ _ _ _ _ _ _ _ h1.1).bind fun a2 b2 m2 hk2 h2 => ?_
  refine Outcome.bind (outcome_foldlM (V := Ref) _ h2 fun i _ a' b' m' hk' hab => ?_) fun a3 b3 m3 hk3 h3 => ?_
  · unfold segnetDecR segnetDec
    dsimp only
    refine (getKey_outcome ((hk2.trans hk').dict h1.2) _).bind fun ix y m4 hk4 hix => ?_
    refine (op2_outcome (maxUnpool nempty o _) hix (hk4.has hab)).1.bind fun a5 b5 m5 hk5 h5 => ?_
    exact convBnRelu_outcome P _ _ _ _ _ _ _ _ h5
  refine (op_outcome _ h3).1.bind fun a4 b4 m4 hk4 h4 => ?_
  exact (conv1x1BnRelu_outcome P _ _ _ h4).bind fun a5 b5 m5 hk5 h5 => conv1x1_outcome P _ _ _ _ h5

/-! ### unet.py -/

theorem unetEncoder_outcome (P : Params) (cfg : UNetConfig) (cin : Nat) (nempty : Bool) (o : Octree F) (depth : Nat) (hr : m.Has r t) :
    Outcome Dict m (unetEncoderR P cfg cin nempty o depth r m) (unetEncoder P cfg cin nempty o depth t) := by
  unfold unetEncoderR unetEncoder
  refine (Outcome.lift _).bindSame fun c0 m0 hk0 => ?_
  refine (convBnRelu_outcome P _ _ _ _ _ _ _ _ (hk0.has hr)).bind fun a b m1 hk1 h1 => ?_
  refine outcome_foldlM (V := Dict) _ (dict_set (f := fun _ => none) (g := fun _ => none) (fun k => .inl ⟨rfl, rfl⟩) depth h1)
    fun i _ f g m' _ hfg => ?_
  unfold unetEncR unetEnc
  dsimp only
  refine (Outcome.lift _).bindSame fun _ m2 hk2 => ?_
  refine (Outcome.lift _).bindSame fun _ m3 hk3 => ?_
  refine (Outcome.lift _).bindSame fun _ m4 hk4 => ?_
  have hfg4 := (hk2.trans (hk3.trans hk4)).dict hfg
  refine (getKey_outcome hfg4 _).bind fun a5 b5 m5 hk5 h5 => ?_
  refine (convBnRelu_outcome P _ _ _ _ _ _ _ _ h5).bind fun a6 b6 m6 hk6 h6 => ?_
  refine (resBlocks_outcome P _ _ _ _ _ _ _ _ _ h6).bind fun a7 b7 m7 hk7 h7 => ?_
  exact Outcome.pure (dict_set ((hk5.trans (hk6.trans hk7)).dict hfg4) _ h7)

theorem unetDecoder_outcome (P : Params) (cfg : UNetConfig) (nempty : Bool) (o : Octree F) (depth : Nat) {f : Nat → Option Nat}
    {g : Nat → Option Tensor} (hfg : Dict m f g) :
    Outcome Ref m (unetDecoderR P cfg nempty o depth f m) (unetDecoder P cfg nempty o depth g) := by
  unfold unetDecoderR unetDecoder
  refine (getKey_outcome hfg _).bind fun a0 b0 m0 hk0 h0 => ?_
  refine outcome_foldlM (V := Ref) _ h0 fun i _ a b m1 hk1 h1 => ?_
  unfold unetDecR unetDec
  dsimp only
  refine (Outcome.lift _).bindSame fun _ m2 hk2 => ?_
  refine (Outcome.lift _).bindSame fun _ m3 hk3 => ?_
  refine (Outcome.lift _).bindSame fun _ m4 hk4 => ?_
  refine (Outcome.lift _).bindSame fun _ m5 hk5 => ?_
  have hk := hk2.trans (hk3.trans (hk4.trans hk5))
  refine (deconvBnRelu_outcome P _ _ _ _ _ _ _ _ (hk.has h1)).bind fun a6 b6 m6 hk6 h6 => ?_
  refine (getKey_outcome ((hk0.trans (hk1.trans (hk.trans hk6))).dict hfg) _).bind fun a7 b7 m7 hk7 h7 => ?_
  refine (op2_outcome Tensor.cat h7 (hk7.has h6)).1.bind fun a8 b8 m8 hk8 h8 => ?_
  exact resBlocks_outcome P _ _ _ _ _ _ _ _ _ h8

theorem unet_outcome (P : Params) (cfg : UNetConfig) (cin cout : Nat) (method : String) (nempty : Bool) (o : Octree F) (depth : Nat)
    (pts : List Pt4) (hr : m.Has r t) :
    Outcome Ref m (unetR P cfg cin cout method nempty o depth pts r m) (unet P cfg cin cout method nempty o depth pts t) := by
  unfold unetR unet
  refine (unetEncoder_outcome P cfg cin nempty o depth hr).bind fun f g m1 hk1 h1 => ?_
  refine (unetDecoder_outcome P cfg nempty o _ h1).bind fun a b m2 hk2 h2 => ?_
  refine (op_outcome _ h2).1.bind fun a3 b3 m3 hk3 h3 => ?_
  refine (Outcome.lift _).bindSame fun c m4 hk4 => ?_
  exact (conv1x1BnRelu_outcome P _ _ _ (hk4.has h3)).bind fun a5 b5 m5 hk5 h5 => conv1x1_outcome P _ _ _ _ h5

/-! ### hrnet.py -/

theorem forall2_getElem? {R : Nat → Tensor → Prop} {rs : List Nat} {ts : List Tensor} (h : List.Forall₂ R rs ts) (j : Nat) :
    (rs[j]? = none ∧ ts[j]? = none) ∨ ∃ r t, rs[j]? = some r ∧ ts[j]? = some t ∧ R r t := by
  induction h generalizing j with
  | nil => exact .inl ⟨rfl, rfl⟩
  | @cons r t rs ts hr _ ih =>
    cases j with
    | zero => exact .inr ⟨r, t, rfl, rfl, hr⟩
    | succ j => simpa using ih j

theorem getIdx_outcome {rs : List Nat} {ts : List Tensor} (h : Refs m rs ts) (i : Int) :
    Outcome Ref m (lift (getIdx rs i) m) (getIdx ts i) := by
  have hl : rs.length = ts.length := List.Forall₂.length_eq h
  unfold getIdx
  rw [hl]
  cases normIdx ts.length i with
  | error e => exact ⟨Keeps.refl m, id, .inr ⟨e, rfl, rfl⟩⟩
  | ok j =>
    simp only [bind, Except.bind]
    rcases forall2_getElem? h j with ⟨h1, h2⟩ | ⟨r, t, h1, h2, h3⟩
    · rw [h1, h2]
      exact ⟨Keeps.refl m, id, .inr ⟨_, rfl, rfl⟩⟩
    · rw [h1, h2]
      exact ⟨Keeps.refl m, id, .inl ⟨r, t, rfl, rfl, h3⟩⟩

theorem poolDown_outcome (nempty : Bool) (o : Octree F) (d n : Nat) (hr : m.Has r t) :
    Outcome Ref m (poolDownR nempty o d n r m) (poolDown nempty o d n t) := by
  unfold poolDownR poolDown
  exact outcome_foldlM (V := Ref) _ hr fun i _ a b m' _ hab => (op_outcome _ hab).1

theorem upsampleUp_outcome (nempty : Bool) (o : Octree F) (d n : Nat) (hr : m.Has r t) :
    Outcome Ref m (upsampleUpR nempty o d n r m) (upsampleUp nempty o d n t) := by
  unfold upsampleUpR upsampleUp
  exact outcome_foldlM (V := Ref) _ hr fun i _ a b m' _ hab => (op_outcome _ hab).1

theorem branches_outcome (P : Params) (name : String) (channels : List Nat) (num : Nat) (nempty : Bool) (o : Octree F) (depth : Nat)
    {rs : List Nat} {ts : List Tensor} (h : Refs m rs ts) :
    Outcome Refs m (branchesR P name channels num nempty o depth rs m) (branches P name channels num nempty o depth ts) := by
  unfold branchesR branches
  have hl : rs.length = ts.length := List.Forall₂.length_eq h
  rw [hl]
  refine (Outcome.lift _).bindSame fun _ m1 hk1 => ?_
  refine outcome_mapM _ fun i _ m2 hk2 => ?_
  unfold branchAtR branchAt
  refine (Outcome.lift _).bindSame fun c m3 hk3 => ?_
  refine (getIdx_outcome ((hk1.trans (hk2.trans hk3)).refs h) _).bind fun a b m4 hk4 h4 => ?_
  exact resBlocks_outcome P _ _ _ _ _ _ _ _ _ h4

theorem transFunc_outcome (P : Params) (name : String) (ci co : Nat) (nempty : Bool) (o : Octree F) (din dout : Nat) (hr : m.Has r t) :
    Outcome Ref m (transFuncR P name ci co nempty o din dout r m) (transFunc P name ci co nempty o din dout t) := by
  unfold transFuncR transFunc
  refine Outcome.bind (V := Ref) (Outcome.ite _ (fun _ => ?_) fun _ => Outcome.pure hr) fun a b m1 hk1 h1 => ?_
  · refine (poolDown_outcome _ _ _ _ hr).bind fun a b m1 hk1 h1 => ?_
    exact Outcome.ite _ (fun _ => conv1x1BnRelu_outcome P _ _ _ h1) fun _ => Outcome.pure h1
  · refine Outcome.ite _ (fun _ => ?_) fun _ => Outcome.pure h1
    refine Outcome.bind (V := Ref) (Outcome.ite _ (fun _ => conv1x1BnRelu_outcome P _ _ _ h1) fun _ => Outcome.pure h1)
      fun a b m2 hk2 h2 => ?_
    exact upsampleUp_outcome _ _ _ _ h2

theorem transitions_outcome (P : Params) (name : String) (channels : List Nat) (nempty : Bool) (o : Octree F) (depth : Nat)
    {rs : List Nat} {ts : List Tensor} (h : Refs m rs ts) :
    Outcome Refs m (transitionsR P name channels nempty o depth rs m) (transitions P name channels nempty o depth ts) := by
  unfold transitionsR transitions
  refine outcome_mapM _ fun j _ m1 hk1 => ?_
  unfold transOutR transOut transRowR transRow
  refine Outcome.bind (outcome_mapM _ fun i _ m2 hk2 => ?_) fun fs xs m3 hk3 h3 => opList_outcome _ h3
  unfold transAtR transAt
  refine (Outcome.lift _).bindSame fun ci m3 hk3 => ?_
  refine (Outcome.lift _).bindSame fun cj m4 hk4 => ?_
  refine (getIdx_outcome ((hk1.trans (hk2.trans (hk3.trans hk4))).refs h) _).bind fun a b m5 hk5 h5 => ?_
  exact transFunc_outcome P _ _ _ _ _ _ _ h5

theorem frontLayer_outcome (P : Params) (channels : List Nat) (nempty : Bool) (o : Octree F) (depth : Nat) (hr : m.Has r t) :
    Outcome Ref m (frontLayerR P channels nempty o depth r m) (frontLayer P channels nempty o depth t) := by
  unfold frontLayerR frontLayer
  dsimp only
  refine Outcome.bind (outcome_foldlM (V := Ref) _ hr fun i _ a b m' _ hab => ?_) fun a b m1 hk1 h1 => ?_
  · unfold frontStepR frontStep
    refine (Outcome.lift _).bindSame fun c0 m2 hk2 => ?_
    refine (Outcome.lift _).bindSame fun c1 m3 hk3 => ?_
    exact (convBnRelu_outcome P _ _ _ _ _ _ _ _ ((hk2.trans hk3).has hab)).bind fun s y m4 _ hs => (op_outcome _ hs).1
  · refine (Outcome.lift _).bindSame fun c0 m2 hk2 => ?_
    refine (Outcome.lift _).bindSame fun c1 m3 hk3 => ?_
    exact convBnRelu_outcome P _ _ _ _ _ _ _ _ ((hk2.trans hk3).has h1)

theorem clsHeader_outcome (P : Params) (channels : List Nat) (cout : Nat) (nempty : Bool) (o : Octree F) (depth : Nat)
    {rs : List Nat} {ts : List Tensor} (h : Refs m rs ts) :
    Outcome Ref m (clsHeaderR P channels cout nempty o depth rs m) (clsHeader P channels cout nempty o depth ts) := by
  unfold clsHeaderR clsHeader
  have hl : rs.length = ts.length := List.Forall₂.length_eq h
  rw [hl]
  refine Outcome.bind (outcome_mapM _ fun i _ m1 hk1 => ?_) fun a b m2 hk2 h2 => ?_
  · unfold headerPoolR headerPool
    exact (getIdx_outcome (hk1.refs h) _).bind fun a b m2 hk2 h2 => poolDown_outcome _ _ _ _ h2
  refine (opList_outcome _ h2).bind fun a b m3 hk3 h3 => ?_
  refine (conv1x1BnRelu_outcome P _ _ _ h3).bind fun a b m4 hk4 h4 => ?_
  exact (op_outcome _ h4).1.bind fun a b m5 hk5 h5 => (op_outcome _ h5).1

theorem hrnet_outcome (P : Params) (cin cout stages : Nat) (nempty : Bool) (o : Octree F) (depth : Nat) (hr : m.Has r t) :
    Outcome Ref m (hrnetR P cin cout stages nempty o depth r m) (hrnet P cin cout stages nempty o depth t) := by
  unfold hrnetR hrnet
  refine (frontLayer_outcome P _ _ _ _ hr).bind fun a b m1 hk1 h1 => ?_
  refine Outcome.bind (outcome_foldlM (V := Refs) _ (List.Forall₂.cons h1 List.Forall₂.nil) fun i _ a b m' _ hab => ?_)
    fun a b m2 hk2 h2 => clsHeader_outcome P _ _ _ _ _ h2
  unfold hrnetStepR hrnetStep
  refine (branches_outcome P _ _ _ _ _ _ hab).bind fun a b m3 hk3 h3 => ?_
  exact Outcome.ite _ (fun _ => transitions_outcome P _ _ _ _ _ h3) fun _ => Outcome.pure h3

/-! ### autoencoder.py -/

theorem aeEncoder_outcome (P : Params) (cin depth full : Nat) (o : Octree F) (hr : m.Has r t) :
    Outcome Ref m (aeEncoderR P cin depth full o r m) (aeEncoder P cin depth full o t) := by
  unfold aeEncoderR aeEncoder
  dsimp only
  refine (Outcome.lift _).bindSame fun c m1 hk1 => ?_
  refine (Outcome.lift _).bindSame fun cf m2 hk2 => ?_
  have hr2 := (hk1.trans hk2).has hr
  obtain ⟨v, hv⟩ := hr2.slot
  rw [bind_ok (read_run hv)]
  refine (Outcome.lift _).bindSame fun _ m3 hk3 => ?_
  refine (convBnRelu_outcome P _ _ _ _ _ _ _ _ (hk3.has hr2)).bind fun a b m4 hk4 h4 => ?_
  refine Outcome.guard _ _ ?_
  refine Outcome.bind (outcome_foldlM (V := Ref) _ h4 fun i _ a b m' _ hab => ?_) fun a b m5 hk5 h5 => ?_
  · unfold aeEncStepR aeEncStep
    dsimp only
    refine (Outcome.lift _).bindSame fun c m6 hk6 => ?_
    refine (resBlocks_outcome P _ _ _ _ _ _ _ _ _ (hk6.has hab)).bind fun a7 b7 m7 hk7 h7 => ?_
    refine Outcome.ite _ (fun _ => ?_) fun _ => Outcome.pure h7
    refine (Outcome.lift _).bindSame fun c' m8 hk8 => ?_
    exact convBnRelu_outcome P _ _ _ _ _ _ _ _ (hk8.has h7)
  exact (op_outcome _ h5).1.bind fun a b m6 hk6 h6 => tanh_outcome P h6

theorem predictModule_outcome (P : Params) (name : String) (ci co : Nat) (hr : m.Has r t) :
    Outcome Ref m (predictModuleR P name ci co r m) (predictModule P name ci co t) := by
  unfold predictModuleR predictModule
  exact (conv1x1BnRelu_outcome P _ _ _ hr).bind fun a b m1 hk1 h1 => conv1x1_outcome P _ _ _ _ h1

/-- The state of the decoder with references. -/
def AeRef : Store → AeStateR F → AeState F → Prop := fun m a b => a.octree = b.octree ∧ m.Has a.deconv b.deconv ∧ Refs m a.logits b.logits

theorem aeLevel_outcome (P : Params) (cfg : DecCfg) (full : Nat) (o : Octree F) (i : Nat) (hr : m.Has r t) :
    Outcome (fun m a b => m.Has a.1 b.1 ∧ m.Has a.2 b.2) m (aeLevelR P cfg full o r i m) (aeLevel P cfg full o t i) := by
  unfold aeLevelR aeLevel
  dsimp only
  refine (Outcome.lift _).bindSame fun c m1 hk1 => ?_
  refine Outcome.bind (V := Ref) (Outcome.ite _ (fun _ => ?_) fun _ => Outcome.pure (hk1.has hr)) fun a b m2 hk2 h2 => ?_
  · refine (Outcome.lift _).bindSame fun c0 m2 hk2 => ?_
    exact deconvBnRelu_outcome P _ _ _ _ _ _ _ _ ((hk1.trans hk2).has hr)
  refine (resBlocks_outcome P _ _ _ _ _ _ _ _ _ h2).bind fun a3 b3 m3 hk3 h3 => ?_
  refine (predictModule_outcome P _ _ _ h3).bind fun a4 b4 m4 hk4 h4 => ?_
  exact Outcome.pure ⟨hk4.has h3, h4⟩

theorem aeDecoder_outcome (P : Params) (cfg : DecCfg) (cout depth full : Nat) (update : Bool) (o : Octree F) (hr : m.Has r t) :
    Outcome AeRef m (aeDecoderR P cfg cout depth full update r o m) (aeDecoder P cfg cout depth full update t o) := by
  unfold aeDecoderR aeDecoder
  refine Outcome.bind (outcome_foldlM (V := AeRef) _ ⟨rfl, hr, List.Forall₂.nil⟩ fun i _ a b m' _ hab => ?_) fun a b m1 hk1 h1 => ?_
  · obtain ⟨oa, da, la⟩ := a
    obtain ⟨ob, db, lb⟩ := b
    obtain ⟨e, hd, hl⟩ := hab
    dsimp only at e hd hl
    subst e
    unfold aeDecStepR aeDecStep
    dsimp only
    refine (aeLevel_outcome P _ _ _ _ hd).bind fun a b m2 hk2 h2 => ?_
    refine Outcome.bind (V := Same) (Outcome.ite _ (fun _ => ?_) fun _ => Outcome.pure rfl) fun o1 o2 m3 hk3 h3 => ?_
    · obtain ⟨v, hv⟩ := h2.2.slot
      rw [bind_ok (read_run hv)]
      exact Outcome.lift _
    · exact Outcome.pure ⟨h3, hk3.has h2.1, List.rel_append ((hk2.trans hk3).refs hl) (List.Forall₂.cons (hk3.has h2.2) List.Forall₂.nil)⟩
  · obtain ⟨oa, da, la⟩ := a
    obtain ⟨ob, db, lb⟩ := b
    obtain ⟨e, hd, hl⟩ := h1
    dsimp only at e hd hl
    subst e
    dsimp only
    refine (Outcome.lift _).bindSame fun c m2 hk2 => ?_
    refine (predictModule_outcome P _ _ _ (hk2.has hd)).bind fun a3 b3 m3 hk3 h3 => ?_
    show Outcome AeRef m3 _ ((pure (tanhT P b3) : M Tensor) >>= fun x => depad oa depth x >>= fun s => pure ⟨oa, s, lb⟩)
    refine (tanh_outcome P h3).bind fun a4 b4 m4 hk4 h4 => ?_
    refine (op_outcome _ h4).1.bind fun a5 b5 m5 hk5 h5 => ?_
    exact Outcome.pure ⟨rfl, h5, ((hk2.trans hk3).trans (hk4.trans hk5)).refs hl⟩

theorem autoEncoder_outcome (P : Params) (cin cout depth full : Nat) (o : Octree F) (update : Bool) (hr : m.Has r t) :
    Outcome AeRef m (autoEncoderR P cin cout depth full o update r m) (autoEncoder P cin cout depth full o update t) := by
  unfold autoEncoderR autoEncoder
  refine (aeEncoder_outcome P _ _ _ _ hr).bind fun a b m1 hk1 h1 => ?_
  refine Outcome.ite _ (fun _ => ?_) fun _ => aeDecoder_outcome P _ _ _ _ _ _ h1
  unfold aeDecodeCodeR aeDecodeCode
  obtain ⟨v, hv⟩ := Store.Has.slot h1
  rw [bind_ok (read_run hv)]
  exact (Outcome.lift _).bindSame fun o' m2 hk2 => aeDecoder_outcome P _ _ _ _ _ _ (hk2.has h1)

end Mem
end Ocnn
