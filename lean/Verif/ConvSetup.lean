import Verif.ConvLemmas
import Verif.PropsQuery

/-! The setup of the convolution layers on well-formed octrees. -/

set_option linter.unusedSimpArgs false

namespace Ocnn
open Spec

variable {F V A B W R : Type}

/-- A kernel size argument: a list of one, two or three sizes, the last one repeated. -/
def KernelArg (ks : List Nat) (k : Nat × Nat × Nat) : Prop :=
  ks = [k.1, k.2.1, k.2.2] ∨ (ks = [k.1, k.2.1] ∧ k.2.2 = k.2.1) ∨ (ks = [k.1] ∧ k.2.1 = k.1 ∧ k.2.2 = k.1)

/-- The nodes a layer of depth `d` and the given stride reads (`srcs`), and the positions its kernel is
applied to (`targets`): the nodes themselves for stride 1, and for stride 2 the first child cells of the
non-empty nodes of the layer above. -/
inductive Nodes (o : Octree F) (nempty : Bool) : Nat → Nat → List Cell → List Cell → Prop
  | one (d : Nat) (cells : List Cell) (ch : List Int) : CellsOf o.batchSize d o.keys cells → o.children d = some ch →
      Nodes o nempty d 1 (queried nempty cells ch) (queried nempty cells ch)
  | two (d : Nat) (cells : List Cell) (ch : List Int) (pcells : List Cell) (pch : List Int) :
      CellsOf o.batchSize (d + 1) o.keys cells → o.children (d + 1) = some ch →
      CellsOf o.batchSize d o.keys pcells → o.children d = some pch →
      Nodes o nempty (d + 1) 2 (queried nempty cells ch) ((nonEmpty pcells pch).map firstChild)

theorem nodes_one_exists (o : Octree F) (h : Nat) (w : o.Valid h) (d : Nat) (hd : d ≤ h) (nempty : Bool) :
    ∃ srcs, Nodes o nempty d 1 srcs srcs :=
  ⟨_, .one d _ _ (w.wf'.cellsOf d hd) (w.wf'.children d hd)⟩

theorem nodes_two_exists (o : Octree F) (h : Nat) (w : o.Valid h) (d : Nat) (hd : d + 1 ≤ h) (nempty : Bool) :
    ∃ srcs targets, Nodes o nempty (d + 1) 2 srcs targets :=
  ⟨_, _, .two d _ _ _ _ (w.wf'.cellsOf _ hd) (w.wf'.children _ hd) (w.wf'.cellsOf d (by omega)) (w.wf'.children d (by omega))⟩

theorem nnumNempty_eq {o : Octree F} {h : Nat} (w : o.Valid h) (d : Nat) (hd : d ≤ h) :
    o.nnumNempty d = (o.masks d).count true := w.wf'.nnumNempty d hd

theorem queried_length {o : Octree F} {h : Nat} (w : o.Valid h) (d : Nat) (hd : d ≤ h) (nempty : Bool) (cells : List Cell)
    (ch : List Int) (hc : CellsOf o.batchSize d o.keys cells) (hch : o.children d = some ch) :
    (queried nempty cells ch).length = (if nempty then o.nnumNempty d else o.nnum d) := by
  have W := w.wf'
  have h16 := w.depth_le
  have hh := w.h_le
  have e := cells_unique (by omega) hc (W.cellsOf d hd)
  subst e
  rw [W.children d hd] at hch
  cases hch
  unfold queried
  rw [nonEmpty_eq _ _ _ (W.len d hd)]
  cases nempty
  · simp [W.nnum d hd]
  · simp [maskSel_length _ _ (W.len d hd), W.nnumNempty d hd]

theorem firsts_eq {o : Octree F} {h : Nat} (w : o.Valid h) (d : Nat) (hd : d + 1 ≤ h) (cells firsts pcells : List Cell)
    (pch : List Int) (hc : CellsOf o.batchSize (d + 1) o.keys cells) (hp : CellsOf o.batchSize d o.keys pcells)
    (hpc : o.children d = some pch) (hf : FirstSiblings cells firsts) (hl : firsts.length = o.nnumNempty d) :
    firsts = (nonEmpty pcells pch).map firstChild := by
  have W := w.wf'
  have h16 := w.depth_le
  have hh := w.h_le
  have e := cells_unique (by omega) hc (W.cellsOf _ hd)
  subst e
  have e := cells_unique (by omega) hp (W.cellsOf d (by omega))
  subst e
  rw [W.children d (by omega)] at hpc
  cases hpc
  rw [nonEmpty_eq _ _ _ (W.len d (by omega))]
  rw [W.nnumNempty d (by omega)] at hl
  apply List.ext_getElem?
  intro i
  rcases Nat.lt_or_ge i firsts.length with hi | hi
  · rw [hf.2 i hi, List.getElem?_map]
    refine Eq.trans (layer_getElem?_succ o.batchSize o.masks d i 0 (by omega)) ?_
    congr 1
  · rw [List.getElem?_eq_none hi, List.getElem?_eq_none]
    rw [List.length_map, maskSel_length _ _ (W.len d (by omega))]
    omega

theorem nodes_table (o : Octree F) (h : Nat) (w : o.Valid h) (d : Nat) (hd : d ≤ h)
    (hn : NeighExact o.batchSize d o.keys o.neighs) (k : Nat × Nat × Nat) (hk : k ∈ supportedKernels) (nempty : Bool)
    (s : Nat) (srcs targets : List Cell) (hN : Nodes o nempty d s srcs targets) :
    (∃ R, o.getNeigh d (kernelName k) s nempty = .ok R ∧ KernelTable srcs targets (kernelOffsets k) R) ∧
      srcs.length = (if nempty then o.nnumNempty d else o.nnum d) ∧
      (s = 1 ∧ targets = srcs ∨ s = 2 ∧ 1 ≤ d ∧ targets.length = o.nnumNempty (d - 1)) := by
  cases hN with
  | one d cells ch hc hch =>
    exact ⟨C24_get_neigh_stride1 o h w d hd hn k hk cells hc ch hch nempty, queried_length w d hd nempty cells ch hc hch,
      Or.inl ⟨rfl, rfl⟩⟩
  | two d cells ch pcells pch hc hch hp hpc =>
    obtain ⟨R, firsts, h1, h2, h3, h4⟩ := C23_get_neigh_stride2 o h w (d + 1) (by omega) hd hn k hk cells hc ch hch nempty
    rw [Nat.add_sub_cancel] at h2
    have e := firsts_eq w d hd cells firsts pcells pch hc hp hpc h1 h2
    subst e
    exact ⟨⟨R, h3, h4⟩, queried_length w _ hd nempty cells ch hc hch, Or.inr ⟨rfl, by omega, h2⟩⟩

theorem list2str_kernel : ∀ k ∈ supportedKernels, list2str [k.1, k.2.1, k.2.2] = kernelName k ∧
    k.1 * k.2.1 * k.2.2 = (kernelOffsets k).length := by
  decide

theorem init_ok (isConv : Bool) (inC outC : Nat) (ks : List Nat) (s : Nat) (nempty : Bool) (mb : Nat) (k : Nat × Nat × Nat)
    (hk : k ∈ supportedKernels) (ha : KernelArg ks k) :
    ConvBase.init isConv inC outC ks s nempty mb = .ok
      { isConv := isConv, inChannels := inC, outChannels := outC, kernelSize := [k.1, k.2.1, k.2.2], kernel := kernelName k,
        stride := s, nempty := nempty, maxBuffer := mb, kdim := (kernelOffsets k).length,
        inConv := if isConv then inC else outC } := by
  obtain ⟨e1, e2⟩ := list2str_kernel k hk
  obtain ⟨a, b, c⟩ := k
  have hr : resizeWithLastVal ks 3 = .ok [a, b, c] := by
    rcases ha with rfl | ⟨rfl, h⟩ | ⟨rfl, h, h'⟩
    · rfl
    · simp only at h; subst h; rfl
    · simp only at h h'; subst h; subst h'; rfl
  unfold ConvBase.init
  rw [hr]
  simp only [bind, Except.bind, pure, Except.pure]
  rw [show getIdx [a, b, c] 0 = .ok a from rfl, show getIdx [a, b, c] 1 = .ok b from rfl,
    show getIdx [a, b, c] 2 = .ok c from rfl]
  simp only [e1, e2]

/-- what the setup provides -/
structure SetupOK (s : ConvSetup) (srcs targets : List Cell) (offs : List (Int × Int × Int)) : Prop where
  table : KernelTable srcs targets offs s.neigh
  kdim : s.kdim = offs.length
  chunked : Chunked s.bufferN s.bufferH s.neigh.length

theorem SetupOK.rows {s : ConvSetup} {srcs targets : List Cell} {offs : List (Int × Int × Int)} (h : SetupOK s srcs targets offs) :
    s.neigh.length = targets.length := h.table.1

theorem SetupOK.width {s : ConvSetup} {srcs targets : List Cell} {offs : List (Int × Int × Int)} (h : SetupOK s srcs targets offs) :
    ∀ r ∈ s.neigh, r.length = s.kdim := by
  rw [h.kdim]; exact table_width h.table

/-- a table only contains positions of source cells -/
theorem table_inside {cells targets : List Cell} {offs : List (Int × Int × Int)} {rows : List (List Int)}
    (h : KernelTable cells targets offs rows) (hnd : cells.Nodup) : Inside rows cells.length := by
  obtain ⟨f, hf⟩ := exists_field (V := Nat) cells (List.replicate cells.length 0) (by simp) hnd
  have := (table_vals h hf).1
  simpa using this

theorem nodes_nodup (o : Octree F) (h : Nat) (w : o.Valid h) (d : Nat) (hd : d ≤ h) (nempty : Bool) (s : Nat)
    (srcs targets : List Cell) (hN : Nodes o nempty d s srcs targets) : srcs.Nodup := by
  have key : ∀ (d : Nat) (cells : List Cell) (ch : List Int), d ≤ h → CellsOf o.batchSize d o.keys cells → o.children d = some ch →
      (queried nempty cells ch).Nodup := by
    intro d cells ch hd hc hch
    have W := w.wf'
    have h16 := w.depth_le
    have hh := w.h_le
    have e := cells_unique (by omega) hc (W.cellsOf d hd)
    subst e
    rw [W.children d hd] at hch
    cases hch
    unfold queried
    rw [nonEmpty_eq _ _ _ (W.len d hd)]
    have hnd := layer_nodup o.batchSize o.masks d (by omega)
    split
    · exact hnd.sublist (maskSel_sublist _ _)
    · exact hnd
  cases hN with
  | one d cells ch hc hch => exact key _ _ _ hd hc hch
  | two d cells ch pcells pch hc hch _ _ => exact key _ _ _ hd hc hch

theorem chk_ok {o : Octree F} {h : Nat} (w : o.Valid h) (d : Nat) (hd : d ≤ h) : o.chk d = .ok () := by
  have := w.h_le
  unfold Octree.chk
  rw [if_pos (by omega)]

theorem conv_setup (o : Octree F) (h : Nat) (w : o.Valid h) (d : Nat) (hd : d ≤ h)
    (hn : NeighExact o.batchSize d o.keys o.neighs) (k : Nat × Nat × Nat) (hk : k ∈ supportedKernels) (nempty : Bool)
    (s : Nat) (srcs targets : List Cell) (hN : Nodes o nempty d s srcs targets)
    (inC outC : Nat) (ks : List Nat) (mb : Nat) (c : ConvBase) (ha : KernelArg ks k)
    (hi : ConvBase.init true inC outC ks s nempty mb = .ok c) (hb : (kernelOffsets k).length * inC ≤ mb) :
    ∃ st, c.setup o d = .ok st ∧ SetupOK st srcs targets (kernelOffsets k) ∧ st.inH = srcs.length ∧ st.outH = targets.length := by
  rw [init_ok true inC outC ks s nempty mb k hk ha] at hi
  cases hi
  obtain ⟨⟨R, h1, h2⟩, h3, h4⟩ := nodes_table o h w d hd hn k hk nempty s srcs targets hN
  obtain ⟨n, hh, e, hc, -, -⟩ := bufferSize_ok R.length (kernelOffsets k).length inC mb hb
  unfold ConvBase.setup
  rcases h4 with ⟨rfl, rfl⟩ | ⟨rfl, hd1, hl⟩
  · simp only [show ¬ (1 : Nat) = 2 by decide, false_and, if_false, if_true, chk_ok w d hd, bind, Except.bind, pure, Except.pure, h1, e]
    refine ⟨_, rfl, ⟨h2, rfl, hc⟩, h3.symm, h3.symm⟩
  · simp only [true_and, show ¬ d = 0 by omega, if_false, if_true, chk_ok w d hd, chk_ok w (d - 1) (by omega), bind, Except.bind, pure, Except.pure, h1, e,
      Bool.true_eq_false, and_false]
    refine ⟨_, rfl, ⟨h2, rfl, hc⟩, h3.symm, ?_⟩
    simp only [hl]
    split <;> rfl

theorem deconv_setup (o : Octree F) (h : Nat) (w : o.Valid h) (d : Nat) (hd : d ≤ h)
    (hn : NeighExact o.batchSize d o.keys o.neighs) (k : Nat × Nat × Nat) (hk : k ∈ supportedKernels) (nempty : Bool)
    (s : Nat) (srcs targets : List Cell) (hN : Nodes o nempty d s srcs targets)
    (inC outC : Nat) (ks : List Nat) (mb : Nat) (c : ConvBase) (ha : KernelArg ks k)
    (hi : ConvBase.init false inC outC ks s nempty mb = .ok c) (hb : (kernelOffsets k).length * outC ≤ mb) :
    ∃ st, c.setup o (if s = 2 then d - 1 else d) = .ok st ∧ SetupOK st srcs targets (kernelOffsets k) ∧
      st.inH = targets.length ∧ st.outH = srcs.length := by
  rw [init_ok false inC outC ks s nempty mb k hk ha] at hi
  cases hi
  obtain ⟨⟨R, h1, h2⟩, h3, h4⟩ := nodes_table o h w d hd hn k hk nempty s srcs targets hN
  obtain ⟨n, hh, e, hc, -, -⟩ := bufferSize_ok R.length (kernelOffsets k).length outC mb hb
  unfold ConvBase.setup
  rcases h4 with ⟨rfl, rfl⟩ | ⟨rfl, hd1, hl⟩
  · simp only [show ¬ (1 : Nat) = 2 by decide, false_and, if_false, if_true, chk_ok w d hd, bind, Except.bind, pure, Except.pure, h1, e,
      Bool.false_eq_true]
    refine ⟨_, rfl, ⟨h2, rfl, hc⟩, h3.symm, h3.symm⟩
  · have hdd : d - 1 + 1 = d := by omega
    simp only [true_and, show ¬ d = 0 by omega, if_false, if_true, chk_ok w d hd, chk_ok w (d - 1) (by omega), bind, Except.bind, pure, Except.pure, h1, e,
      Bool.false_eq_true, false_and, hdd, and_true, and_false]
    refine ⟨_, rfl, ⟨h2, rfl, hc⟩, ?_, h3.symm⟩
    simp only [hl]
    split <;> rfl

end Ocnn
