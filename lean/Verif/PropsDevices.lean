import Verif.Devices
import Mathlib.Tactic.Tauto
import Mathlib.Order.Basic
import Mathlib.Order.Nat

/-! Property C179: the operations of an octree run on the device of its point cloud. -/

namespace Ocnn

/-- The tensors of the layers 0 to `depth` are on the device `D`, and so are tensors that are created on the octree's device. -/
structure Spec.On (cur : Nat) (D : TDev) (o : OctDev) : Prop where
  device : o.device.place cur = D
  layers : ∀ d, d ≤ o.depth → o.children d = some D

theorem TDev.place_val (cur : Nat) (D : TDev) : D.val.place cur = D := by cases D <;> rfl

theorem setLayer_eq (f : Nat → Option TDev) (d : Nat) (v : TDev) (i : Nat) : setLayer f d v i = if i = d then some v else f i := rfl

theorem growFullDev_fold (cur : Nat) (o : OctDev) (n : Nat) :
    let r := (List.range n).foldl (fun o d => OctDev.growFull cur o d) o
    r.depth = o.depth ∧ r.fullDepth = o.fullDepth ∧ r.device = o.device ∧ r.lut = o.lut ∧
      ∀ d, r.children d = if d < n then some (o.device.place cur) else o.children d := by
  induction n with
  | zero => simp
  | succ n ih =>
    simp only [List.range_succ, List.foldl_append, List.foldl_cons, List.foldl_nil] at ih ⊢
    obtain ⟨h1, h2, h3, h4, h5⟩ := ih
    refine ⟨h1, h2, h3, h4, fun d => ?_⟩
    show setLayer _ n (_) d = _
    rw [setLayer_eq]
    rw [h3, h5]
    split
    · rw [if_pos (by omega)]
    · by_cases h : d < n
      · rw [if_pos h, if_pos (by omega)]
      · rw [if_neg h, if_neg (by omega)]

theorem deep_fold (cur : Nat) (o : OctDev) (n : Nat) (hn : n ≤ o.depth) :
    let r := (List.range n).foldl (fun o i => { o with children := setLayer o.children (o.depth - i) (o.device.place cur) }) o
    r.depth = o.depth ∧ r.fullDepth = o.fullDepth ∧ r.device = o.device ∧ r.lut = o.lut ∧
      ∀ d, r.children d = if o.depth < d + n ∧ d ≤ o.depth then some (o.device.place cur) else o.children d := by
  induction n with
  | zero =>
    refine ⟨rfl, rfl, rfl, rfl, fun d => ?_⟩
    rw [if_neg (by omega)]; rfl
  | succ n ih =>
    simp only [List.range_succ, List.foldl_append, List.foldl_cons, List.foldl_nil] at ih ⊢
    obtain ⟨h1, h2, h3, h4, h5⟩ := ih (by omega)
    refine ⟨h1, h2, h3, h4, fun d => ?_⟩
    rw [h1, h3]
    rw [setLayer_eq]
    rw [h5]
    split
    · rw [if_pos (by omega)]
    · by_cases h : o.depth < d + n ∧ d ≤ o.depth
      · rw [if_pos h, if_pos (by omega)]
      · rw [if_neg h, if_neg (by omega)]

/-- Building puts all layers on the device of the points and leaves the look-up tables where the constructor has put them. -/
theorem build_on (cur : Nat) (o : OctDev) (p : TDev) (h : o.fullDepth ≤ o.depth) :
    Spec.On cur p (o.build cur p) ∧ (o.build cur p).lut = o.lut ∧ (o.build cur p).depth = o.depth ∧
      (o.build cur p).fullDepth = o.fullDepth ∧ (o.build cur p).device = p.val := by
  unfold OctDev.build
  obtain ⟨h1, h2, h3, h4, h5⟩ := growFullDev_fold cur { o with device := p.val } (o.fullDepth + 1)
  generalize hr : (List.range (o.fullDepth + 1)).foldl (fun o d => OctDev.growFull cur o d) { o with device := p.val } = r at *
  obtain ⟨g1, g2, g3, g4, g5⟩ := deep_fold cur r (r.depth - r.fullDepth) (by omega)
  dsimp only at h1 h2 h3 h4 h5 g1 g2 g3 g4 g5 ⊢
  rw [hr]
  refine ⟨⟨by rw [g3, h3]; exact TDev.place_val cur p, fun d hd => ?_⟩, by rw [g4, h4], by rw [g1, h1], by rw [g2, h2], by rw [g3, h3]⟩
  rw [g1] at hd
  rw [g5]
  split
  · rw [h3]; exact congrArg some (TDev.place_val cur p)
  · rw [h5, if_pos (by omega)]; exact congrArg some (TDev.place_val cur p)

/-- The state of the loop over the depths. -/
structure NeighsTo (cur : Nat) (D : TDev) (o : OctDev) (n : Nat) (r : OctDev) : Prop where
  depth : r.depth = o.depth
  full : r.fullDepth = o.fullDepth
  device : r.device = o.device
  lut : r.lut = o.lut
  children : r.children = o.children
  neighs : ∀ d, 1 ≤ d → d ≤ n → r.neighs d = some D

theorem neigh_step {cur : Nat} {D : TDev} {o r : OctDev} {n : Nat} (ho : Spec.On cur D o) (hf : 1 ≤ o.fullDepth) (hn : n + 1 ≤ o.depth)
    (h : NeighsTo cur D o n r) :
    if n + 1 ≤ o.fullDepth ∨ o.lut = D then ∃ r', r.constructNeigh cur (n + 1) = .ok r' ∧ NeighsTo cur D o (n + 1) r'
    else r.constructNeigh cur (n + 1) = .error .type := by
  have hfr : 1 ≤ r.fullDepth := by rw [h.full]; exact hf
  rw [← h.full, ← h.lut]
  unfold OctDev.constructNeigh
  by_cases hd : n + 1 ≤ r.fullDepth
  · rw [if_pos (Or.inl hd), if_pos hd]
    refine ⟨_, rfl, ⟨h.depth, h.full, h.device, h.lut, h.children, fun d h1 h2 => ?_⟩⟩
    show setLayer _ _ _ d = _
    rw [setLayer_eq]
    split
    · rw [h.device, ho.device]
    · exact h.neighs d h1 (by omega)
  · rw [if_neg hd]
    have e1 : r.children (n + 1 - 1) = some D := by rw [h.children]; exact ho.layers _ (by omega)
    have e2 : r.neighs (n + 1 - 1) = some D := h.neighs _ (by omega) (by omega)
    rw [e1, e2]
    by_cases hl : r.lut = D
    · rw [if_pos (Or.inr hl)]
      refine ⟨{ r with neighs := setLayer r.neighs (n + 1) D }, by
        simp [needDev, indexDev, pairDev, bind, Except.bind, pure, Except.pure, hl], ⟨h.depth, h.full, h.device, h.lut, h.children, fun d h1 h2 => ?_⟩⟩
      show setLayer _ _ _ d = _
      rw [setLayer_eq]
      split
      · rfl
      · exact h.neighs d h1 (by omega)
    · rw [if_neg (by tauto)]
      have hl' : ¬ D = r.lut := fun e => hl e.symm
      by_cases hc : r.lut = .cpu
      · simp only [needDev, indexDev, pairDev, bind, Except.bind, or_true, if_true, hc, true_or]
        rw [if_neg (by rw [← hc]; exact hl')]
      · simp only [needDev, indexDev, bind, Except.bind, or_true, if_true]
        rw [if_neg (by tauto)]

theorem neigh_loop {cur : Nat} {D : TDev} {o : OctDev} (ho : Spec.On cur D o) (hf : 1 ≤ o.fullDepth) (n : Nat) (hn : n ≤ o.depth) :
    if n ≤ o.fullDepth ∨ o.lut = D then
      ∃ r, (List.range n).foldlM (fun o d => OctDev.constructNeigh cur o (d + 1)) o = .ok r ∧ NeighsTo cur D o n r
    else (List.range n).foldlM (fun o d => OctDev.constructNeigh cur o (d + 1)) o = .error .type := by
  induction n with
  | zero =>
    rw [if_pos (Or.inl (by omega))]
    exact ⟨o, rfl, ⟨rfl, rfl, rfl, rfl, rfl, fun d h1 h2 => by omega⟩⟩
  | succ n ih =>
    have ih := ih (by omega)
    rw [List.range_succ, List.foldlM_append]
    by_cases hc : n ≤ o.fullDepth ∨ o.lut = D
    · rw [if_pos hc] at ih
      obtain ⟨r, hr, hN⟩ := ih
      rw [hr]
      have hs := neigh_step ho hf hn hN
      simp only [bind, Except.bind, List.foldlM]
      by_cases hd : n + 1 ≤ o.fullDepth ∨ o.lut = D
      · rw [if_pos hd] at hs ⊢
        obtain ⟨r', h1, h2⟩ := hs
        exact ⟨r', by rw [h1]; rfl, h2⟩
      · rw [if_neg hd] at hs ⊢
        rw [hs]
    · rw [if_neg hc] at ih
      rw [ih, if_neg (fun h => hc (h.imp (fun h => by omega) id))]
      rfl

/-- All neighbours can be constructed exactly when the look-up tables are on the device of the octree (or no layer needs them); they are
then on that device too. -/
theorem C179_neigh_partial (cur : Nat) (D : TDev) (o : OctDev) (ho : Spec.On cur D o) (hf : 1 ≤ o.fullDepth) :
    if o.depth ≤ o.fullDepth ∨ o.lut = D then
      ∃ r, o.constructAllNeigh cur = .ok r ∧ ∀ d, 1 ≤ d → d ≤ o.depth → r.neighs d = some D
    else o.constructAllNeigh cur = .error .type := by
  have := neigh_loop ho hf o.depth le_rfl
  unfold OctDev.constructAllNeigh
  split at this
  · rename_i h
    rw [if_pos h]
    obtain ⟨r, h1, h2⟩ := this
    exact ⟨r, h1, h2.neighs⟩
  · rename_i h
    rw [if_neg h]
    exact this

/-- An octree that is constructed for the device of the points, by string or by object, works on that device. -/
theorem C179_same_partial (cur depth full : Nat) (dev : DevVal) (p : TDev) (hp : dev.place cur = p) (hf : 1 ≤ full) (hd : full ≤ depth) :
    ∃ r, ((OctDev.init cur depth full dev).build cur p).constructAllNeigh cur = .ok r ∧ ∀ d, 1 ≤ d → d ≤ depth → r.neighs d = some p := by
  obtain ⟨h1, h2, h3, h4, -⟩ := build_on cur (OctDev.init cur depth full dev) p hd
  have := C179_neigh_partial cur p _ h1 (by rw [h4]; exact hf)
  rw [if_pos (Or.inr (by rw [h2]; exact hp)), h3] at this
  exact this

/-- Moving an octree to a device that differs from its attribute `device` (as Python compares them) puts everything there, so that the
neighbours can be constructed; moving it to the same device gives the octree itself. -/
theorem C179_to_partial (cur : Nat) (D : TDev) (o : OctDev) (dev : DevVal) (ho : Spec.On cur D o) (hf : 1 ≤ o.fullDepth) :
    (o.device = ⟨false, dev.name⟩ → o.to cur dev = o) ∧
    (o.device ≠ ⟨false, dev.name⟩ → Spec.On cur (dev.place cur) (o.to cur dev) ∧
      ∃ r, (o.to cur dev).constructAllNeigh cur = .ok r ∧ ∀ d, 1 ≤ d → d ≤ o.depth → r.neighs d = some (dev.place cur)) := by
  constructor
  · intro h
    unfold OctDev.to
    rw [if_pos h]
  · intro h
    have hon : Spec.On cur (dev.place cur) (o.to cur dev) := by
      unfold OctDev.to
      rw [if_neg h]
      refine ⟨rfl, fun d hd => ?_⟩
      show (o.children d).map _ = _
      rw [ho.layers d hd]
      rfl
    refine ⟨hon, ?_⟩
    have hl : (o.to cur dev).lut = dev.place cur := by unfold OctDev.to; rw [if_neg h]; rfl
    have hd : (o.to cur dev).depth = o.depth := by unfold OctDev.to; rw [if_neg h]; rfl
    have hfd : (o.to cur dev).fullDepth = o.fullDepth := by unfold OctDev.to; rw [if_neg h]; rfl
    have := C179_neigh_partial cur _ _ hon (by rw [hfd]; exact hf)
    rwa [if_pos (Or.inr hl), hd] at this

theorem catDev_same (D : TDev) (l : List (Option TDev)) (hne : l ≠ []) (h : ∀ x ∈ l, x = some D) : catDev l = .ok D := by
  cases l with
  | nil => exact absurd rfl hne
  | cons a l =>
    obtain rfl := h a (by simp)
    have hl : ∀ x ∈ l, x = some D := fun x hx => h x (by simp [hx])
    clear h hne
    simp only [catDev, needDev, bind, Except.bind]
    induction l with
    | nil => rfl
    | cons b l ih =>
      obtain rfl := hl b (by simp)
      have := ih (fun x hx => hl x (by simp [hx]))
      simp only [List.foldlM, needDev, bind, Except.bind, pairDev, if_true] at this ⊢
      exact this

theorem mergeLayers_ok (D : TDev) (os : List OctDev) (hne : os ≠ []) (n : Nat) (h : ∀ x ∈ os, ∀ d, d ≤ n → x.children d = some D) (o : OctDev) :
    ∃ r, mergeLayers os n o = .ok r ∧ r.depth = o.depth ∧ r.fullDepth = o.fullDepth ∧ r.device = o.device ∧ r.lut = o.lut ∧
      ∀ d, d ≤ n → r.children d = some D := by
  induction n with
  | zero =>
    have := catDev_same D (os.map fun x => x.children 0) (by simpa using hne) (by
      intro x hx; obtain ⟨y, hy, rfl⟩ := List.mem_map.1 hx; exact h y hy 0 le_rfl)
    refine ⟨{ o with children := setLayer o.children 0 D }, by simp [mergeLayers, this, bind, Except.bind, pure, Except.pure], rfl, rfl, rfl, rfl, ?_⟩
    intro d hd
    obtain rfl : d = 0 := by omega
    rfl
  | succ n ih =>
    obtain ⟨r, h1, h2, h3, h4, h5, h6⟩ := ih (fun x hx d hd => h x hx d (by omega))
    have := catDev_same D (os.map fun x => x.children (n + 1)) (by simpa using hne) (by
      intro x hx; obtain ⟨y, hy, rfl⟩ := List.mem_map.1 hx; exact h y hy (n + 1) le_rfl)
    refine ⟨{ r with children := setLayer r.children (n + 1) D }, by simp [mergeLayers, h1, this, bind, Except.bind, pure, Except.pure], h2, h3, h4, h5, ?_⟩
    intro d hd
    show setLayer _ _ _ d = _
    rw [setLayer_eq]
    split
    · rfl
    · exact h6 d (by omega)

/-- Octrees that are built from clouds on one device can be merged and their neighbours constructed, whatever devices were given to their
constructors: the merged octree has new look-up tables. -/
theorem C179_merge_partial (cur depth full : Nat) (p : TDev) (devs : List DevVal) (hne : devs ≠ []) (hf : 1 ≤ full) (hd : full ≤ depth) :
    ∃ m r, OctDev.merge cur (devs.map fun dev => (OctDev.init cur depth full dev).build cur p) = .ok m ∧ Spec.On cur p m ∧
      m.constructAllNeigh cur = .ok r ∧ ∀ d, 1 ≤ d → d ≤ depth → r.neighs d = some p := by
  have hb := fun dev => build_on cur (OctDev.init cur depth full dev) p hd
  cases devs with
  | nil => exact absurd rfl hne
  | cons d0 rest =>
    obtain ⟨-, b2, b3, b4, b5⟩ := hb d0
    have e3 : ((OctDev.init cur depth full d0).build cur p).depth = depth := b3
    have e4 : ((OctDev.init cur depth full d0).build cur p).fullDepth = full := b4
    obtain ⟨m, h1, h2, h3, h4, h5, h6⟩ := mergeLayers_ok p ((d0 :: rest).map fun dev => (OctDev.init cur depth full dev).build cur p) (by simp) depth
      (by
        intro x hx d hd'
        obtain ⟨dev, -, rfl⟩ := List.mem_map.1 hx
        exact (hb dev).1.layers d (by rw [(hb dev).2.2.1]; exact hd'))
      (OctDev.init cur depth full p.val)
    have hon : Spec.On cur p m := ⟨by rw [h4]; exact TDev.place_val cur p, fun d hd' => h6 d (by rw [h2] at hd'; exact hd')⟩
    have hm : OctDev.merge cur ((d0 :: rest).map fun dev => (OctDev.init cur depth full dev).build cur p) = .ok m := by
      unfold OctDev.merge
      rw [List.map_cons] at h1 ⊢
      dsimp only
      rw [e3, e4, b5]
      have hass : ∀ x ∈ rest.map fun dev => (OctDev.init cur depth full dev).build cur p,
          x.depth = depth ∧ x.fullDepth = full ∧ x.device = p.val := by
        intro x hx
        obtain ⟨dev, -, rfl⟩ := List.mem_map.1 hx
        exact ⟨(hb dev).2.2.1, (hb dev).2.2.2.1, (hb dev).2.2.2.2⟩
      have : pyAssert (∀ x ∈ rest.map fun dev => (OctDev.init cur depth full dev).build cur p,
          x.depth = (OctDev.init cur depth full p.val).depth ∧ x.fullDepth = (OctDev.init cur depth full p.val).fullDepth ∧
          x.device = (OctDev.init cur depth full p.val).device) = .ok () := if_pos hass
      rw [this]
      exact h1
    have hN := C179_neigh_partial cur p m hon (by rw [h3]; exact hf)
    rw [if_pos (Or.inr (by rw [h5]; exact TDev.place_val cur p)), h2] at hN
    obtain ⟨r, hr1, hr2⟩ := hN
    exact ⟨m, r, hm, hon, hr1, hr2⟩

/-- The documented default: an octree constructed without a device and built from a cloud on a GPU cannot construct its neighbours, because the
look-up tables are left on the CPU. -/
theorem C179_violated (cur depth full i : Nat) (hf : 1 ≤ full) (hd : full < depth) :
    ((OctDev.init cur depth full ⟨true, .cpu⟩).build cur (.cuda i)).constructAllNeigh cur = .error .type := by
  obtain ⟨h1, h2, h3, h4, -⟩ := build_on cur (OctDev.init cur depth full ⟨true, .cpu⟩) (.cuda i) hd.le
  have := C179_neigh_partial cur (.cuda i) _ h1 (by rw [h4]; exact hf)
  rwa [if_neg] at this
  rw [h2, h3, h4]
  rintro (h | h)
  · exact absurd h (by simpa [OctDev.init] using hd)
  · cases h

theorem initOctree_fields (cur depth full : Nat) (dev : DevVal) :
    ∃ r, OctDev.initOctree cur depth full dev = .ok r ∧ r.depth = depth ∧ r.fullDepth = full ∧ r.device = dev := by
  unfold OctDev.initOctree
  have : ∀ n, n ≤ full + 1 → ∃ r, (List.range n).foldlM (fun o d => (OctDev.growFull cur o d).constructNeigh cur d) (OctDev.init cur depth full dev) = .ok r ∧
      r.depth = depth ∧ r.fullDepth = full ∧ r.device = dev := by
    intro n
    induction n with
    | zero => intro _; exact ⟨_, rfl, rfl, rfl, rfl⟩
    | succ n ih =>
      intro hn
      obtain ⟨r, h1, h2, h3, h4⟩ := ih (by omega)
      rw [List.range_succ, List.foldlM_append, h1]
      have hstep : (r.growFull cur n).constructNeigh cur n =
          .ok { r.growFull cur n with neighs := setLayer (r.growFull cur n).neighs n ((r.growFull cur n).device.place cur) } :=
        if_pos (by show n ≤ r.fullDepth; omega)
      refine ⟨{ r.growFull cur n with neighs := setLayer (r.growFull cur n).neighs n ((r.growFull cur n).device.place cur) }, ?_, h2, h3, h4⟩
      simp only [bind, Except.bind, List.foldlM, hstep]
      rfl
  exact this (full + 1) le_rfl

/-- Two full octrees on the CPU, one made by `init_octree` and one built from a cloud, cannot be merged: one attribute `device` is the string,
the other is the object. -/
theorem C179_violated_merge (cur depth : Nat) :
    ∃ a, OctDev.initOctree cur depth depth ⟨true, .cpu⟩ = .ok a ∧
      OctDev.merge cur [a, (OctDev.init cur depth depth ⟨true, .cpu⟩).build cur .cpu] = .error .assertion := by
  obtain ⟨a, h1, h2, h3, h4⟩ := initOctree_fields cur depth depth ⟨true, .cpu⟩
  obtain ⟨-, -, -, -, b5⟩ := build_on cur (OctDev.init cur depth depth ⟨true, .cpu⟩) .cpu le_rfl
  refine ⟨a, h1, ?_⟩
  unfold OctDev.merge
  dsimp only
  have : pyAssert (∀ x ∈ [(OctDev.init cur depth depth ⟨true, .cpu⟩).build cur .cpu],
      x.depth = (OctDev.init cur a.depth a.fullDepth a.device).depth ∧ x.fullDepth = (OctDev.init cur a.depth a.fullDepth a.device).fullDepth ∧
      x.device = (OctDev.init cur a.depth a.fullDepth a.device).device) = .error .assertion := by
    refine if_neg ?_
    intro h
    have := (h _ (List.mem_singleton.2 rfl)).2.2
    rw [b5] at this
    change TDev.val .cpu = a.device at this
    rw [h4] at this
    cases this
  rw [this]
  rfl

/-- A cloud on the second GPU and octrees of depth 6: with the device given, by default, and merged. -/
example : (∃ r, ((OctDev.init 0 6 2 ⟨true, .cudaAt 1⟩).build 0 (.cuda 1)).constructAllNeigh 0 = .ok r ∧ r.neighs 6 = some (.cuda 1)) ∧
    ((OctDev.init 0 6 2 ⟨true, .cpu⟩).build 0 (.cuda 1)).constructAllNeigh 0 = .error .type ∧
    ∃ m, OctDev.merge 0 (([⟨true, .cpu⟩, ⟨true, .cuda⟩] : List DevVal).map fun dev => (OctDev.init 0 6 2 dev).build 0 (.cuda 1)) = .ok m ∧ m.lut = .cuda 1 := by
  refine ⟨⟨_, rfl, rfl⟩, rfl, ⟨_, rfl, rfl⟩⟩

end Ocnn
