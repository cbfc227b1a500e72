import Verif.Int32
import Verif.DecodeBatch
import Verif.PropsMerge

/-! Property C150: 32-bit node counters and child indices suffice for octrees with fewer than 2^31 nodes per layer. -/

set_option linter.unusedSimpArgs false

namespace Ocnn
open Spec
variable {F L : Type}

/-- Every layer of the octree has fewer than 2^31 nodes. -/
def Spec.Fits32 (o : Octree F) : Prop := ∀ d ≤ o.depth, o.nnum d < 2 ^ 31

theorem w32_eq (v : Int) (h0 : 0 ≤ v) (h : v < 2 ^ 31) : w32 v = v := by
  unfold w32
  rw [BitVec.toInt_ofInt, Int.bmod_eq_of_le]
  · omega
  · omega

theorem w32_neg_one : w32 (-1) = -1 := by decide

theorem fit32_ok {n : Nat} (h : n < 2 ^ 31) : fit32 n = .ok () := by
  unfold fit32
  rw [if_pos h]

theorem getIdx_mem {α : Type} {t : List α} {i : Int} {v : α} (h : getIdx t i = .ok v) : v ∈ t := by
  unfold getIdx at h
  obtain ⟨j, -, h⟩ := bind_ok h
  cases ht : t[j]? with
  | none => rw [ht] at h; cases h
  | some w =>
    rw [ht] at h
    cases h
    exact List.mem_of_getElem? ht

theorem deepRows32_eq (childP r : List Int) (h : ∀ v ∈ childP, v * 8 < 2 ^ 31) :
    Octree.deepRows32 childP r = Octree.deepRows childP r := by
  unfold Octree.deepRows32 Octree.deepRows
  congr 1
  funext x
  obtain ⟨lp, lc⟩ := x
  dsimp only
  congr 1
  funext y
  obtain ⟨p, c⟩ := y
  dsimp only
  congr 1
  funext n
  cases hc : getIdx childP n with
  | error e => rfl
  | ok ch =>
    simp only [bind, Except.bind]
    split
    · rfl
    · rename_i hn
      have := h ch (getIdx_mem hc)
      rw [w32_eq _ (by omega) this]

theorem shift32 (B nn : Nat) (rows : List (List (Option Nat))) (h : ∀ b < B, b * nn < 2 ^ 31) :
    ((List.range B).flatMap fun b => rows.map fun row => row.map fun v => match v with
      | some n => (n : Int) + w32 ((b * nn : Nat) : Int)
      | none => -1)
      = (List.range B).flatMap fun b => rows.map fun row => row.map fun v => match v with
      | some n => ((n + b * nn : Nat) : Int)
      | none => -1 := by
  apply List.flatMap_congr
  intro b hb
  rw [List.mem_range] at hb
  have hw : w32 ((b * nn : Nat) : Int) = ((b * nn : Nat) : Int) :=
    w32_eq _ (Int.natCast_nonneg _) (by have := h b hb; generalize b * nn = k at this ⊢; omega)
  rw [hw]
  apply List.map_congr_left
  intro row _
  apply List.map_congr_left
  intro v _
  cases v with
  | none => rfl
  | some n => exact (Int.natCast_add n (b * nn)).symm

theorem deep32 (o : Octree F) (d : Nat) (f g : List Int → List Int → M (List (List Int)))
    (h : ∀ c, o.children (d - 1) = some c → f c = g c) :
    (do
      o.chk d
      let childP ← need (o.children (d - 1))
      let nempty := childP.map fun v => decide (v ≥ 0)
      let neighP ← need (o.neighs (d - 1))
      let sel ← boolIndex nempty neighP
      let rows ← sel.mapM (f childP)
      pure { o with neighs := upd o.neighs d (some rows.flatten) } : M (Octree F))
    = (do
      o.chk d
      let childP ← need (o.children (d - 1))
      let nempty := childP.map fun v => decide (v ≥ 0)
      let neighP ← need (o.neighs (d - 1))
      let sel ← boolIndex nempty neighP
      let rows ← sel.mapM (g childP)
      pure { o with neighs := upd o.neighs d (some rows.flatten) } : M (Octree F)) := by
  cases hc : o.children (d - 1) with
  | none => rfl
  | some c =>
    have e := h c hc
    dsimp only [need, bind, Except.bind]
    rw [e]

theorem constructNeigh32_eq (o : Octree F) (d : Nat) (hfull : d ≤ o.fullDepth → 8 ^ d * o.batchSize < 2 ^ 31)
    (hdeep : o.fullDepth < d → ∀ c, o.children (d - 1) = some c → ∀ v ∈ c, v * 8 < 2 ^ 31) :
    o.constructNeigh32 d = o.constructNeigh d := by
  unfold Octree.constructNeigh32 Octree.constructNeigh
  by_cases hd : d ≤ o.fullDepth
  · rw [if_pos hd, if_pos hd]
    have hB : ∀ b < o.batchSize, b * (1 <<< (3 * d)) < 2 ^ 31 := by
      intro b hb
      rw [pow8]
      calc b * 8 ^ d ≤ o.batchSize * 8 ^ d := Nat.mul_le_mul_right _ hb.le
        _ = 8 ^ d * o.batchSize := Nat.mul_comm _ _
        _ < 2 ^ 31 := hfull hd
    generalize 1 <<< (3 * d) = nn at hB ⊢
    dsimp only
    congr 1
    funext rows
    exact congrArg (fun t : List (List Int) => ((do
      o.chk d
      pure { o with neighs := upd o.neighs d (some t) }) : M (Octree F))) (shift32 o.batchSize nn rows hB)
  · rw [if_neg hd, if_neg hd]
    exact deep32 o d Octree.deepRows32 Octree.deepRows fun c hc => funext fun r =>
      deepRows32_eq c r (hdeep (Nat.lt_of_not_le hd) c hc)

/-- What the neighbour tables do not change. -/
theorem neigh_frame {o o' : Octree F} {d : Nat} (h : Octree.constructNeigh o d = .ok o') :
    o'.children = o.children ∧ o'.depth = o.depth ∧ o'.fullDepth = o.fullDepth ∧ o'.batchSize = o.batchSize ∧
      o'.nnum = o.nnum ∧ o'.nnumNempty = o.nnumNempty := by
  unfold Octree.constructNeigh at h
  split at h
  · obtain ⟨rows, -, h⟩ := bind_ok h
    obtain ⟨_, -, h⟩ := bind_ok h
    cases h
    exact ⟨rfl, rfl, rfl, rfl, rfl, rfl⟩
  · obtain ⟨_, -, h⟩ := bind_ok h
    obtain ⟨_, -, h⟩ := bind_ok h
    obtain ⟨_, -, h⟩ := bind_ok h
    obtain ⟨_, -, h⟩ := bind_ok h
    obtain ⟨_, -, h⟩ := bind_ok h
    cases h
    exact ⟨rfl, rfl, rfl, rfl, rfl, rfl⟩

theorem foldlM_congr_inv {α β : Type} (Inv : β → Prop) (f g : β → α → M β) (l : List α) (b : β) (hb : Inv b)
    (h : ∀ a ∈ l, ∀ b, Inv b → f b a = g b a) (hi : ∀ a ∈ l, ∀ b b', Inv b → g b a = .ok b' → Inv b') :
    l.foldlM f b = l.foldlM g b := by
  induction l generalizing b with
  | nil => rfl
  | cons a l ih =>
    rw [List.foldlM_cons, List.foldlM_cons, h a (by simp) b hb]
    cases hg : g b a with
    | error e => rfl
    | ok b' =>
      exact ih b' (hi a (by simp) b b' hb hg) (fun a ha => h a (by simp [ha])) (fun a ha => hi a (by simp [ha]))

theorem number_lt (n : Nat) (m : List Bool) : ∀ v ∈ number n m, v < ((n + m.count true : Nat) : Int) := by
  induction m generalizing n with
  | nil => simp [number]
  | cons b m ih =>
    intro v hv
    cases b
    · simp only [number, List.mem_cons] at hv
      rcases hv with rfl | hv
      · omega
      · have := ih n v hv
        simpa using this
    · simp only [number, List.mem_cons] at hv
      rcases hv with rfl | hv
      · simp
      · have := ih (n + 1) v hv
        simp only [List.count_cons_self]
        push_cast at this ⊢
        omega

/-- The child indices of a well-formed octree are below the number of non-empty nodes. -/
theorem child_lt {o : Octree F} {h : Nat} (w : o.Valid h) {d : Nat} (hd : d ≤ h) {c : List Int} (hc : o.children d = some c) :
    ∀ v ∈ c, v < (o.nnumNempty d : Int) := by
  have W := w.wf'
  rw [W.children d hd] at hc
  cases hc
  intro v hv
  rw [W.nnumNempty d hd]
  simpa using number_lt 0 _ v hv

theorem nempty_le {o : Octree F} {h : Nat} (w : o.Valid h) {d : Nat} (hd : d ≤ h) : o.nnumNempty d ≤ o.nnum d := by
  have W := w.wf'
  rw [W.nnumNempty d hd, W.nnum d hd, ← W.len d hd]
  exact List.count_le_length

theorem full_count {o : Octree F} {h : Nat} (w : o.Valid h) {d : Nat} (hd : d ≤ o.fullDepth) :
    o.nnum d = 8 ^ d * o.batchSize := by
  obtain ⟨ks, h1, h2, -⟩ := C10_dense o h w d hd
  obtain ⟨ks', ch, h3, -, h4⟩ := w.wf.layer d (hd.trans w.full_le)
  rw [h1] at h3
  cases h3
  rw [h4.count, h2, Nat.mul_comm]

/-- C150, neighbours: on every well-formed octree with fewer than 2^31 nodes per layer the construction of the neighbour tables in
32-bit arithmetic gives the tables of C21. -/
theorem C150_neigh (o : Octree F) (w : o.Valid o.depth) (hfit : Fits32 o) : o.constructAllNeigh32 = o.constructAllNeigh := by
  unfold Octree.constructAllNeigh32 Octree.constructAllNeigh
  apply foldlM_congr_inv (fun o1 => o1.children = o.children ∧ o1.fullDepth = o.fullDepth ∧ o1.batchSize = o.batchSize)
  · exact ⟨rfl, rfl, rfl⟩
  · rintro i hi o1 ⟨e1, e2, e3⟩
    rw [List.mem_range] at hi
    apply constructNeigh32_eq
    · intro hf
      rw [e2] at hf
      rw [e3, ← full_count w hf]
      exact hfit _ hi
    · intro hf c hc v hv
      rw [e1, Nat.add_sub_cancel] at hc
      have h1 := child_lt w (by omega) hc v hv
      have h2 := w.wf.eight i hi
      have h3 := hfit (i + 1) hi
      omega
  · rintro i hi o1 o2 ⟨e1, e2, e3⟩ h
    obtain ⟨f1, f2, f3, f4, -⟩ := neigh_frame h
    exact ⟨f1.trans e1, f3.trans e2, f4.trans e3⟩

/-! ## Growing full layers and building -/

theorem growFull32_eq (o : Octree F) (d : Nat) (u : Bool) (h : 8 ^ d * o.batchSize < 2 ^ 31) :
    o.growFull32 d u = o.growFull d u := by
  unfold Octree.growFull32 Octree.growFull
  by_cases hd : d ≤ o.fullDepth
  · have h' : (1 <<< (3 * d)) * o.batchSize < 2 ^ 31 := by rw [pow8]; exact h
    have hn : ∀ o1 : Octree F, o1.batchSize = o.batchSize → o1.fullDepth = o.fullDepth → o1.constructNeigh32 d = o1.constructNeigh d := by
      intro o1 e1 e2
      apply constructNeigh32_eq
      · intro _
        rw [e1]
        exact h
      · intro hf
        rw [e2] at hf
        exact absurd hd (Nat.not_le.mpr hf)
    dsimp only [bind, Except.bind]
    rw [fit32_ok h', hn { o with
      nnum := upd o.nnum d ((1 <<< (3 * d)) * o.batchSize)
      nnumNempty := upd o.nnumNempty d ((1 <<< (3 * d)) * o.batchSize)
      keys := upd o.keys d (some ((List.range o.batchSize).flatMap fun b => (List.range (1 <<< (3 * d))).map fun k => k ||| (b <<< 48)))
      children := upd o.children d (some (arange ((1 <<< (3 * d)) * o.batchSize))) } rfl rfl]
  · have e : pyAssert (d ≤ o.fullDepth) = .error .assertion := if_neg hd
    rw [e]
    dsimp only [bind, Except.bind]

theorem growFull_frame {o o' : Octree F} {d : Nat} {u : Bool} (h : o.growFull d u = .ok o') :
    o'.batchSize = o.batchSize ∧ o'.depth = o.depth ∧ o'.fullDepth = o.fullDepth ∧ (∀ i, i ≠ d → o'.nnum i = o.nnum i) := by
  unfold Octree.growFull at h
  obtain ⟨_, -, h⟩ := bind_ok h
  obtain ⟨_, -, h⟩ := bind_ok h
  dsimp only at h
  split at h
  · cases h
  · cases u
    · cases h
      exact ⟨rfl, rfl, rfl, fun i hi => by simp [upd, hi]⟩
    · obtain ⟨-, f2, f3, f4, f5, -⟩ := neigh_frame h
      exact ⟨f4, f2, f3, fun i hi => by rw [f5]; simp [upd, hi]⟩

theorem growFull_fold32 (u : Bool) (n : Nat) (o : Octree F) (h : ∀ d < n, 8 ^ d * o.batchSize < 2 ^ 31) :
    (List.range n).foldlM (fun o d => Octree.growFull32 o d u) o = (List.range n).foldlM (fun o d => Octree.growFull o d u) o := by
  apply foldlM_congr_inv (fun o1 => o1.batchSize = o.batchSize)
  · rfl
  · intro d hd o1 e
    rw [List.mem_range] at hd
    exact growFull32_eq o1 d u (by rw [e]; exact h d hd)
  · intro d hd o1 o2 e h
    exact (growFull_frame h).1.trans e

theorem level_frame {o : Octree F} {k : List Nat} {d : Nat} {r : Octree F × List Nat} (h : o.buildLevel k d = .ok r) :
    (r.1.depth = o.depth ∧ r.1.fullDepth = o.fullDepth ∧ ∀ i, i ≠ d → r.1.nnum i = o.nnum i ∧ r.1.nnumNempty i = o.nnumNempty i) ∧
      (r.1.nnum d < 2 ^ 31 → r.1.nnumNempty d < 2 ^ 31 → o.buildLevel32 k d = .ok r) := by
  unfold Octree.buildLevel at h
  obtain ⟨_, hc, h⟩ := bind_ok h
  obtain ⟨ch, hi, h⟩ := bind_ok h
  cases h
  refine ⟨⟨rfl, rfl, fun i hi => ⟨by simp [upd, hi], by simp [upd, hi]⟩⟩, ?_⟩
  intro h1 h2
  simp only [upd, if_true] at h1 h2
  unfold Octree.buildLevel32
  dsimp only
  rw [hc, fit32_ok h1, fit32_ok h2, hi]
  rfl

theorem loop_frame {full : Nat} (n : Nat) : ∀ {o : Octree F} {k : List Nat} {r : Octree F × List Nat}, Octree.buildLoop o k full n = .ok r →
    (r.1.depth = o.depth ∧ r.1.fullDepth = o.fullDepth ∧ ∀ i, i ≤ full ∨ full + n < i → r.1.nnum i = o.nnum i ∧ r.1.nnumNempty i = o.nnumNempty i) ∧
      ((∀ i, full < i → i ≤ full + n → r.1.nnum i < 2 ^ 31 ∧ r.1.nnumNempty i < 2 ^ 31) → Octree.buildLoop32 o k full n = .ok r) := by
  induction n with
  | zero =>
    intro o k r h
    cases h
    exact ⟨⟨rfl, rfl, fun _ _ => ⟨rfl, rfl⟩⟩, fun _ => rfl⟩
  | succ n ih =>
    intro o k r h
    obtain ⟨r1, h1, h⟩ := bind_ok h
    obtain ⟨⟨f3, f4, f1⟩, f2⟩ := level_frame h1
    obtain ⟨⟨g3, g4, g1⟩, g2⟩ := ih h
    refine ⟨⟨g3.trans f3, g4.trans f4, fun i hi => ?_⟩, fun hb => ?_⟩
    · obtain ⟨a, b⟩ := g1 i (by omega)
      obtain ⟨c, d⟩ := f1 i (by omega)
      exact ⟨a.trans c, b.trans d⟩
    · obtain ⟨a, b⟩ := g1 (full + n + 1) (by omega)
      obtain ⟨c, d⟩ := hb (full + n + 1) (by omega) (by omega)
      show (Octree.buildLevel32 o k (full + n + 1) >>= fun r => Octree.buildLoop32 r.1 r.2 full n) = _
      rw [f2 (a ▸ c) (b ▸ d)]
      exact g2 fun i h1 h2 => hb i h1 (by omega)

theorem growFull_fold_frame {u : Bool} (l : List Nat) : ∀ {o o' : Octree F}, l.foldlM (fun o d => Octree.growFull o d u) o = .ok o' →
    o'.depth = o.depth ∧ o'.fullDepth = o.fullDepth := by
  induction l with
  | nil =>
    intro o o' h
    cases h
    exact ⟨rfl, rfl⟩
  | cons d l ih =>
    intro o o' h
    rw [List.foldlM_cons] at h
    obtain ⟨o1, h1, h⟩ := bind_ok h
    obtain ⟨-, f1, f2, -⟩ := growFull_frame h1
    obtain ⟨g1, g2⟩ := ih h
    exact ⟨g1.trans f1, g2.trans f2⟩

theorem err_bind {α β : Type} (e : Err) (f : α → M β) : ((Except.error e : M α) >>= f) = .error e := rfl

theorem ok_bind {α β : Type} (a : α) (f : α → M β) : ((Except.ok a : M α) >>= f) = f a := rfl

/-- The part of `build_octree` after the loop keeps the counters of the layers other than `full_depth`. -/
theorem build_frame [Add F] [Zero F] {nrm : V3 ℚ → V3 ℚ} {divF : ℚ → F → F} {o : Octree F} {pc : Points ℚ F L} {r : Octree F × List Nat}
    (h : Octree.build nrm divF o pc = .ok r) (hfd : o.fullDepth ≤ o.depth) (hB : ∀ d ≤ o.fullDepth, 8 ^ d * o.batchSize < 2 ^ 31)
    (hn : ∀ d ≤ o.depth, r.1.nnum d < 2 ^ 31) (he : ∀ d ≤ o.depth, r.1.nnumNempty d < 2 ^ 31) :
    Octree.build32 nrm divF o pc = .ok r := by
  unfold Octree.build at h
  obtain ⟨_, h1, h⟩ := bind_ok h
  obtain ⟨b, h2, h⟩ := bind_ok h
  obtain ⟨key, h3, h⟩ := bind_ok h
  obtain ⟨o1, h4, h⟩ := bind_ok h
  obtain ⟨q, h5, h⟩ := bind_ok h
  obtain ⟨old, h6, h⟩ := bind_ok h
  obtain ⟨ch, h7, h⟩ := bind_ok h
  obtain ⟨pts, h8, h⟩ := bind_ok h
  obtain ⟨o2, h9, h⟩ := bind_ok h
  obtain ⟨o3, h10, h⟩ := bind_ok h
  have f2 : o2.nnum = q.1.nnum ∧ o2.nnumNempty = upd q.1.nnumNempty q.1.fullDepth q.2.length := by
    split at h9
    · obtain ⟨_, -, h9⟩ := bind_ok h9
      cases h9
      exact ⟨rfl, rfl⟩
    · cases h9
      exact ⟨rfl, rfl⟩
  have f3 : o3.nnum = q.1.nnum ∧ o3.nnumNempty = upd q.1.nnumNempty q.1.fullDepth q.2.length := by
    split at h10
    · obtain ⟨_, -, h10⟩ := bind_ok h10
      cases h10
      exact f2
    · cases h10
      exact f2
  cases h
  dsimp only at hn he
  rw [f3.1] at hn
  rw [f3.2] at he
  obtain ⟨a1, a2⟩ := growFull_fold_frame _ h4
  obtain ⟨⟨b1, b2, -⟩, b3⟩ := loop_frame _ h5
  dsimp only at a1 a2
  have hlen : q.2.length < 2 ^ 31 := by
    have := he o.fullDepth hfd
    rw [b2, a2] at this
    simpa [upd] using this
  have h5' := b3 (by
    intro i hi hi'
    refine ⟨hn i (by omega), ?_⟩
    have := he i (by omega)
    rw [b2, a2] at this
    rw [a2] at hi
    simpa [upd, show i ≠ o.fullDepth by omega] using this)
  have h4' := (growFull_fold32 false (o.fullDepth + 1) { o with device := pc.device } (fun d hd => hB d (by omega))).trans h4
  unfold Octree.build32
  dsimp only
  rw [h1, ok_bind, h2, ok_bind, h3, ok_bind, h4', ok_bind, h5', ok_bind, h6, ok_bind, h7, ok_bind, fit32_ok hlen, ok_bind, h8, ok_bind]
  cases hpn : pc.normals <;> cases hpf : pc.features <;> rw [hpn] at h9 <;> rw [hpf] at h10 <;> dsimp only at h9 h10 ⊢ <;>
    rw [h9, ok_bind, h10, ok_bind] <;> rfl

/-- C150, building: whenever the octree of a legal cloud has fewer than 2^31 nodes per layer, building it with 32-bit counters and child
indices succeeds and gives the octree and the index vector of C07 and C08. -/
theorem C150_build [AddCommMonoid F] (nrm : V3 ℚ → V3 ℚ) (divF : ℚ → F → F) (o : Octree F) (pc : Points ℚ F L) (samples : List Nat)
    (h : LegalBuild o pc samples) (o' : Octree F) (idx : List Nat) (hb : Octree.build nrm divF o pc = .ok (o', idx)) (hfit : Fits32 o') :
    Octree.build32 nrm divF o pc = .ok (o', idx) := by
  obtain ⟨o1, idx1, h1, e1, e2, e3, w, -⟩ := C07_build nrm divF o pc samples h
  rw [h1] at hb
  cases hb
  rw [← e1] at w
  refine build_frame h1 h.full ?_ ?_ ?_
  · intro d hd
    rw [← e3, ← full_count w (by omega)]
    exact hfit d (by have := h.full; omega)
  · intro d hd
    exact hfit d (by omega)
  · intro d hd
    exact Nat.lt_of_le_of_lt (nempty_le w (by omega)) (hfit d (by omega))

/-! ## Merging -/

theorem mapM_congr32 {α β : Type} (f g : α → M β) (l : List α) (h : ∀ a ∈ l, f a = g a) : l.mapM f = l.mapM g := by
  induction l with
  | nil => rfl
  | cons a l ih => rw [List.mapM_cons, List.mapM_cons, h a (by simp), ih fun a ha => h a (by simp [ha])]

theorem mergeLayer32_eq {os : List (Octree F)} {D full dev : Nat} (hm : Mergeable os D full dev) (o : Octree F) (d : Nat) (hd : d ≤ D)
    (hb : o.batchNnumNempty d = os.map fun o => o.nnumNempty d) (hfit : (os.map fun o => o.nnumNempty d).sum < 2 ^ 31) :
    Octree.mergeLayer32 os o d = Octree.mergeLayer os o d := by
  have key : ∀ x ∈ os.zipIdx, (fun ((o1, i) : Octree F × Nat) => (do
      let child ← need (o1.children d)
      let off ← getIdx (cumsum (o.batchNnumNempty d) true) i
      pure (child.map fun v => if v ≥ 0 then w32 (v + (off : Int)) else v) : M (List Int))) x
      = (fun ((o1, i) : Octree F × Nat) => (do
      let child ← need (o1.children d)
      let off ← getIdx (cumsum (o.batchNnumNempty d) true) i
      pure (child.map fun v => if v ≥ 0 then v + (off : Int) else v) : M (List Int))) x := by
    rintro ⟨o1, i⟩ hx
    rw [List.mem_zipIdx_iff_getElem?] at hx
    dsimp only at hx ⊢
    have ho := List.mem_of_getElem? hx
    have hlt : i < os.length := (List.getElem?_eq_some_iff.mp hx).1
    have hg : getIdx (cumsum (o.batchNnumNempty d) true) (i : Int) = .ok (((os.take i).map fun o => o.nnumNempty d).sum) := by
      unfold getIdx
      rw [normIdx_ok _ _ (by simp only [cumsum, if_true, hb]; simp [cumsumFrom_length]; omega)]
      simp only [bind, Except.bind, cumsum, if_true, hb]
      rw [cumsumFrom_getElem? 0 _ i (by simp; omega)]
      simp only [Nat.zero_add, ← List.map_take]
    cases hc : o1.children d with
    | none => rfl
    | some c =>
      rw [hg]
      dsimp only [need, bind, Except.bind]
      congr 1
      apply List.map_congr_left
      intro v hv
      split
      · rename_i h0
        have h1 := child_lt (hm.valid o1 ho) hd hc v hv
        have h2 : ((os.take (i + 1)).map fun o => o.nnumNempty d).sum ≤ (os.map fun o => o.nnumNempty d).sum := by
          conv => rhs; rw [← List.take_append_drop (i + 1) os, List.map_append, List.sum_append]
          omega
        rw [List.take_add_one, hx, List.map_append, List.sum_append] at h2
        simp only [Option.toList_some, List.map_cons, List.map_nil, List.sum_cons, List.sum_nil] at h2
        exact w32_eq _ (by omega) (by omega)
      · rfl
  unfold Octree.mergeLayer32 Octree.mergeLayer
  dsimp only
  rw [mapM_congr32 _ _ _ key]

/-- C150, merging: whenever the samples together have fewer than 2^31 nodes per layer, merging with 32-bit child indices gives the octree
of C16. -/
theorem C150_merge (os : List (Octree F)) (D full dev : Nat) (h : Mergeable os D full dev)
    (hfit : ∀ d ≤ D, (os.map fun o => o.nnum d).sum < 2 ^ 31) : Octree.merge32 os = Octree.merge os := by
  have hsum : ∀ d ≤ D, (os.map fun o => o.nnumNempty d).sum < 2 ^ 31 := by
    intro d hd
    refine Nat.lt_of_le_of_lt (List.sum_le_sum ?_) (hfit d hd)
    intro o ho
    exact nempty_le (h.valid o ho) hd
  unfold Octree.merge32 Octree.merge
  cases os with
  | nil => rfl
  | cons o0 l =>
    have hD := h.depth o0 (by simp)
    have h0 : getIdx (o0 :: l) (0 : Int) = .ok o0 := by
      simp [getIdx, normIdx, bind, Except.bind]
    rw [h0, ok_bind, ok_bind]
    dsimp only
    congr 1
    funext _
    split
    · rfl
    · rw [show (Octree.new (F := F) o0.depth o0.fullDepth (o0 :: l).length o0.device).depth = D from hD]
      apply foldlM_congr_inv (fun o1 : Octree F => o1.batchNnumNempty = fun d => (o0 :: l).map fun o => o.nnumNempty d)
      · rfl
      · intro d hd o1 e
        rw [List.mem_range] at hd
        exact mergeLayer32_eq h o1 d (by omega) (by rw [e]) (hsum d (by omega))
      · intro d hd o1 o2 e hm
        unfold Octree.mergeLayer at hm
        obtain ⟨_, -, hm⟩ := bind_ok hm
        obtain ⟨_, -, hm⟩ := bind_ok hm
        obtain ⟨_, -, hm⟩ := bind_ok hm
        obtain ⟨_, -, hm⟩ := bind_ok hm
        obtain ⟨_, -, hm⟩ := bind_ok hm
        cases hm
        exact e

/-! ## Splitting, growing and decoding -/

theorem split32_eq {o o1 : Octree F} {s : List Int} {d : Nat} (h : o.split s d = .ok o1) (h0 : 0 < o1.nnumNempty d)
    (h1 : o1.nnumNempty d < 2 ^ 31) (h2 : ∀ c, o1.children d = some c → ∀ v ∈ c, -1 ≤ v ∧ v < 2 ^ 31) : o.split32 s d = .ok o1 := by
  unfold Octree.split at h
  obtain ⟨nn, e1, h⟩ := bind_ok h
  obtain ⟨ch, e2, h⟩ := bind_ok h
  obtain ⟨r, e3, h⟩ := bind_ok h
  obtain ⟨_, e4, h⟩ := bind_ok h
  cases h
  simp only [upd, if_true] at h0 h1 h2
  have hr : w32 r.1 = r.1 := w32_eq _ (by omega) (by omega)
  have hc : r.2.map w32 = r.2 := by
    conv => rhs; rw [← List.map_id r.2]
    apply List.map_congr_left
    intro v hv
    obtain ⟨a, b⟩ := h2 _ rfl v hv
    by_cases hv1 : v = -1
    · rw [hv1]; exact w32_neg_one
    · exact w32_eq v (by omega) b
  unfold Octree.split32
  dsimp only
  rw [e1, ok_bind, e2, ok_bind, e3, ok_bind, e4, ok_bind, hr, hc, if_neg (by omega)]
  rfl

theorem grow32_eq (o : Octree F) (d : Nat) (hfd : o.fullDepth ≤ d) (h : o.nnumNempty d * 8 < 2 ^ 31)
    (hc : ∀ c, o.children d = some c → ∀ v ∈ c, v * 8 < 2 ^ 31) : o.grow32 d true = o.grow d true := by
  have hw : w32 ((o.nnumNempty d : Int) * 8) = (o.nnumNempty d : Int) * 8 := w32_eq _ (by omega) (by omega)
  have ht : ((o.nnumNempty d : Int) * 8).toNat = o.nnumNempty d * 8 := by omega
  unfold Octree.grow32 Octree.grow
  dsimp only
  rw [hw, ht, if_neg (show ¬ ((o.nnumNempty d : Int) * 8 < 0) by omega)]
  cases o.chk (d + 1) with
  | error e => rw [err_bind, err_bind]
  | ok _ =>
    rw [ok_bind, ok_bind]
    cases ({ o with
      nnum := upd o.nnum (d + 1) (o.nnumNempty d * 8)
      nnumNempty := upd o.nnumNempty (d + 1) (o.nnumNempty d * 8) } : Octree F).key d true with
    | error e => rw [err_bind]; dsimp only [bind, Except.bind]
    | ok key =>
      rw [ok_bind, if_pos rfl]
      dsimp only [bind, Except.bind, pure, Except.pure]
      rw [if_pos rfl]
      apply constructNeigh32_eq
      · intro hf
        exact absurd hf (by simp only [Nat.not_le]; omega)
      · intro _ c hcc
        apply hc
        simpa [upd] using hcc

theorem number_ge (n : Nat) (m : List Bool) : ∀ v ∈ number n m, -1 ≤ v := by
  induction m generalizing n with
  | nil => simp [number]
  | cons b m ih =>
    intro v hv
    cases b <;> simp only [number, List.mem_cons] at hv <;> rcases hv with rfl | hv
    · omega
    · exact ih _ v hv
    · omega
    · exact ih _ v hv

theorem grow_nnum {o o' : Octree F} {d : Nat} (h : o.grow d true = .ok o') : o'.nnum = upd o.nnum (d + 1) (o.nnumNempty d * 8) := by
  unfold Octree.grow at h
  obtain ⟨_, -, h⟩ := bind_ok h
  obtain ⟨_, -, h⟩ := bind_ok h
  dsimp only at h
  obtain ⟨-, -, -, -, f5, -⟩ := neigh_frame h
  rw [f5]

theorem decodeStep32_eq {o o' : Octree F} {masks : Nat → List Bool} {d : Nat} (I : DecInv o masks d)
    (predict : Octree F → Nat → List Int) (h01 : ∀ v ∈ predict o d, v = 0 ∨ v = 1)
    (hs : (predict o d).length = o.nnum d) (hstep : Octree.decodeStep predict o d = .ok o') :
    (∀ i, i ≠ d + 1 → o'.nnum i = o.nnum i) ∧
      (o.nnum d < 2 ^ 31 → (d < o.depth → o'.nnum (d + 1) < 2 ^ 31) → Octree.decodeStep32 predict o d = .ok o') := by
  obtain ⟨o1, h1, w1, e1⟩ := I.wf.split _ h01 hs I.pos
  unfold Octree.decodeStep at hstep
  rw [h1, ok_bind] at hstep
  have hmne : splitMask (predict o d) ≠ [] := by
    intro e
    have := congrArg List.length e
    rw [splitMask_length, hs] at this
    have := I.pos
    simp at *
    omega
  have hpos := forceFirst_pos _ hmne
  have hne : o1.nnumNempty d = (forceFirst (splitMask (predict o d))).count true := by rw [e1]; simp [upd]
  have hch : o1.children d = some (number 0 (forceFirst (splitMask (predict o d)))) := by rw [e1]; simp [upd]
  have hn1 : o1.nnum = o.nnum := by rw [e1]
  have hd1 : o1.depth = o.depth := by rw [e1]
  have hle : o1.nnumNempty d ≤ o.nnum d := by
    rw [← hn1]
    exact nempty_le w1.valid (le_refl _)
  have hchild : ∀ c, o1.children d = some c → ∀ v ∈ c, -1 ≤ v ∧ v < (o1.nnumNempty d : Int) := by
    intro c hc v hv
    rw [hch] at hc
    cases hc
    refine ⟨number_ge _ _ v hv, ?_⟩
    rw [hne]
    simpa using number_lt 0 _ v hv
  have hsplit : o.nnum d < 2 ^ 31 → o.split32 (predict o d) d = .ok o1 := by
    intro hfit
    refine split32_eq h1 (by omega) (by omega) ?_
    intro c hc v hv
    obtain ⟨a, b⟩ := hchild c hc v hv
    exact ⟨a, by omega⟩
  by_cases hd : d < o1.depth
  · rw [if_pos hd] at hstep
    have hg := grow_nnum hstep
    refine ⟨fun i hi => by rw [hg, hn1]; simp [upd, hi], fun hfit hfit' => ?_⟩
    have hfit2 := hfit' (by omega)
    rw [hg] at hfit2
    simp only [upd, if_true] at hfit2
    unfold Octree.decodeStep32
    rw [hsplit hfit, ok_bind, if_pos hd, grow32_eq o1 d w1.full_le hfit2 ?_]
    · exact hstep
    · intro c hc v hv
      obtain ⟨a, b⟩ := hchild c hc v hv
      omega
  · rw [if_neg hd] at hstep
    cases hstep
    refine ⟨fun i hi => by rw [hn1], fun hfit _ => ?_⟩
    unfold Octree.decodeStep32
    rw [hsplit hfit, ok_bind, if_neg hd]
    rfl

theorem decode32_lt {o : Octree F} {masks : Nat → List Bool} (I : DecInv o masks o.fullDepth) (predict : Octree F → Nat → List Int)
    (hp : ∀ (o : Octree F) (d : Nat), (predict o d).length = o.nnum d ∧ ∀ v ∈ predict o d, v = 0 ∨ v = 1)
    (n : Nat) (hn : o.fullDepth + n ≤ o.depth) :
    ∃ o' masks', Octree.decode predict n o = .ok o' ∧ DecInv o' masks' (o.fullDepth + n) ∧ o'.depth = o.depth ∧ o'.fullDepth = o.fullDepth ∧
      ((∀ i ≤ o.fullDepth + n, o'.nnum i < 2 ^ 31) → Octree.decode32 predict n o = .ok o') ∧ ∀ i ≤ o.fullDepth, o'.nnum i = o.nnum i := by
  induction n with
  | zero => exact ⟨o, masks, rfl, I, rfl, rfl, fun _ => rfl, fun _ _ => rfl⟩
  | succ n ih =>
    obtain ⟨o1, m1, h1, I1, e1, e2, g1, g2⟩ := ih (by omega)
    obtain ⟨o2, h2, I2, f1, f2, f3⟩ := decodeStep_lt I1 predict (hp o1 _).2 (hp o1 _).1 (by omega)
    obtain ⟨k1, k2⟩ := decodeStep32_eq I1 predict (hp o1 _).2 (hp o1 _).1 h2
    refine ⟨o2, _, ?_, I2, by omega, by omega, ?_, ?_⟩
    · unfold Octree.decode at h1 ⊢
      rw [List.range_succ, List.foldlM_append, h1]
      simp only [bind, Except.bind, List.foldlM_cons, List.foldlM_nil, e2, h2, pure, Except.pure]
    · intro hfit
      have g3 := g1 (fun i hi => by rw [← k1 i (by omega)]; exact hfit i (by omega))
      have k3 := k2 (by rw [← k1 _ (by omega)]; exact hfit _ (by omega)) (fun _ => hfit _ (by omega))
      unfold Octree.decode32 at g3 ⊢
      rw [List.range_succ, List.foldlM_append, g3]
      simp only [bind, Except.bind, List.foldlM_cons, List.foldlM_nil, e2, k3, pure, Except.pure]
    · intro i hi
      rw [k1 i (by omega), g2 i hi]

/-- C150, decoding: whenever the octree that the decoder grows has fewer than 2^31 nodes per layer, growing it with 32-bit counters and
child indices succeeds and gives the octree of C19. -/
theorem C150_decode (predict : Octree F → Nat → List Int)
    (hp : ∀ (o : Octree F) (d : Nat), (predict o d).length = o.nnum d ∧ ∀ v ∈ predict o d, v = 0 ∨ v = 1)
    (depth full B dev : Nat) (hf : full ≤ depth) (h16 : depth ≤ 16) (hB : 1 ≤ B) (hB' : B ≤ 2 ^ 15)
    (o : Octree F) (h : Octree.decodeCode predict depth full B dev = .ok o) (hfit : Fits32 o) :
    Octree.decodeCode32 predict depth full B dev = .ok o := by
  obtain ⟨o0, h0, e1, e2, e3, I⟩ := init_inv (F := F) depth full B dev hf h16 hB' (by omega)
  subst e1; subst e2; subst e3
  obtain ⟨o1, m1, h1, I1, f1, f2, g1, g2⟩ := decode32_lt I predict hp (o0.depth - o0.fullDepth) (by omega)
  have e : o0.fullDepth + (o0.depth - o0.fullDepth) = o0.depth := by omega
  rw [e] at I1 g1
  obtain ⟨o2, h2, I2, hpos, k1, k2, k3⟩ := decodeStep_last I1 predict (hp o1 _).2 (hp o1 _).1 (by omega)
  obtain ⟨q1, q2⟩ := decodeStep32_eq I1 predict (hp o1 _).2 (hp o1 _).1 h2
  have e' : o0.depth + 1 - o0.fullDepth = (o0.depth - o0.fullDepth) + 1 := by omega
  have hall : Octree.decode predict (o0.depth + 1 - o0.fullDepth) o0 = .ok o2 := by
    unfold Octree.decode at h1 ⊢
    rw [e', List.range_succ, List.foldlM_append, h1]
    simp only [bind, Except.bind, List.foldlM_cons, List.foldlM_nil, f2, e, h2, pure, Except.pure]
  have ho : o2 = o := by
    unfold Octree.decodeCode at h
    rw [h0, ok_bind, hall] at h
    cases h
    rfl
  subst ho
  have hfit1 : ∀ i ≤ o0.depth, o1.nnum i < 2 ^ 31 := by
    intro i hi
    rw [← q1 i (by omega)]
    exact hfit i (by omega)
  have hinit : Octree.initOctree32 (F := F) o0.depth o0.fullDepth o0.batchSize dev = .ok o0 := by
    rw [← h0]
    unfold Octree.initOctree32 Octree.initOctree
    apply growFull_fold32
    intro d hd
    show 8 ^ d * o0.batchSize < 2 ^ 31
    rw [← full_count I.wf.valid (by omega), ← g2 d (by omega)]
    exact hfit1 d (by omega)
  unfold Octree.decodeCode32
  rw [hinit, ok_bind]
  have g3 := g1 hfit1
  have q3 := q2 (hfit1 _ (le_refl _)) (fun hlt => absurd hlt (by omega))
  unfold Octree.decode32 at g3 ⊢
  rw [e', List.range_succ, List.foldlM_append, g3]
  simp only [bind, Except.bind, List.foldlM_cons, List.foldlM_nil, f2, e, q3, pure, Except.pure]

/-! ## The bound is needed -/

/-- C150, the bound for children: a child index of 2^28, which belongs to a layer with more than 2^31 nodes below it, is a valid int32
value, but the address of its children is not, and the neighbour that the 32-bit code stores is negative instead of 2^31. -/
theorem C150_bound_child :
    w32 (2 ^ 28) = 2 ^ 28 ∧
      ((Octree.deepRows [2 ^ 28] (List.replicate 27 0)).toOption.bind fun t => t.head?.bind fun row => row[13]?) = some (2 ^ 31) ∧
      ((Octree.deepRows32 [2 ^ 28] (List.replicate 27 0)).toOption.bind fun t => t.head?.bind fun row => row[13]?) = some (-2 ^ 31) :=
  ⟨by decide, by decide +kernel, by decide +kernel⟩

/-- C150, the bound for full layers: `init_octree` succeeds iff its finest layer has fewer than 2^31 nodes. -/
theorem C150_init (depth full B dev : Nat) (hf : full ≤ depth) (h16 : depth ≤ 16) (hB' : B ≤ 2 ^ 15) :
    (8 ^ full * B < 2 ^ 31 → Octree.initOctree32 (F := F) depth full B dev = Octree.initOctree depth full B dev) ∧
      (2 ^ 31 ≤ 8 ^ full * B → Octree.initOctree32 (F := F) depth full B dev = .error .value) := by
  have hmono : ∀ d ≤ full, 8 ^ d * B ≤ 8 ^ full * B := fun d hd =>
    Nat.mul_le_mul_right _ (Nat.pow_le_pow_right (by omega) hd)
  constructor
  · intro h
    apply growFull_fold32
    intro d hd
    show 8 ^ d * B < 2 ^ 31
    have := hmono d (by omega)
    omega
  · intro h
    have hex : ∃ d, 2 ^ 31 ≤ 8 ^ d * B := ⟨full, h⟩
    have hk := Nat.find_spec hex
    have hmin := fun d (hd : d < Nat.find hex) => Nat.find_min hex hd
    have hle : Nat.find hex ≤ full := Nat.find_min' hex h
    generalize Nat.find hex = k at hk hmin hle
    have hpre : (List.range k).foldlM (fun o d => Octree.growFull32 o d true) (Octree.new (F := F) depth full B dev)
        = .ok (fullStateN (Octree.new depth full B dev) k) := by
      rw [growFull_fold32 true k _ (fun d hd => Nat.lt_of_not_le (hmin d hd))]
      exact growFullN_fold (Octree.new depth full B dev) k (by show k ≤ full + 1; omega) hf h16 hB'
    have hstep : Octree.growFull32 (fullStateN (Octree.new (F := F) depth full B dev) k) k true = .error .value := by
      have e1 : pyAssert (k ≤ (fullStateN (Octree.new (F := F) depth full B dev) k).fullDepth) = .ok () := if_pos hle
      have e2 : Octree.chk (fullStateN (Octree.new (F := F) depth full B dev) k) k = .ok () := if_pos (by show k ≤ depth; omega)
      have e3 : fit32 ((1 <<< (3 * k)) * (fullStateN (Octree.new (F := F) depth full B dev) k).batchSize) = .error .value := by
        unfold fit32
        rw [if_neg]
        rw [pow8]
        exact Nat.not_lt.mpr hk
      unfold Octree.growFull32
      rw [e1, ok_bind]
      dsimp only
      rw [e2, ok_bind, e3, err_bind]
    unfold Octree.initOctree32
    rw [show full + 1 = k + (1 + (full - k)) by omega, List.range_add, List.range_add, List.map_append, List.foldlM_append, hpre, ok_bind,
      List.foldlM_append]
    show ((List.foldlM (fun o d => Octree.growFull32 o d true) (fullStateN (Octree.new (F := F) depth full B dev) k) [k]) >>= _) = _
    rw [List.foldlM_cons, hstep, err_bind, err_bind]

/-- 32768 samples at full depth 6: 2^33 nodes; 8191 samples fit. -/
example : Octree.initOctree32 (F := Nat) 8 6 32768 0 = .error .value :=
  (C150_init 8 6 32768 0 (by decide) (by decide) (by decide)).2 (by decide)

example : Octree.initOctree32 (F := Nat) 8 6 8191 0 = Octree.initOctree 8 6 8191 0 :=
  (C150_init 8 6 8191 0 (by decide) (by decide) (by decide)).1 (by decide)

/-- The hypotheses are met by the octree of `exampleOctree` ... -/
example : ∃ o : Octree Unit, exampleOctree = .ok o ∧ o.Valid o.depth ∧ Fits32 o := by
  obtain ⟨o, h, w, -, e, -⟩ := example_valid
  refine ⟨o, h, w, ?_⟩
  have hn : exampleOctree.toOption.map (fun o => decide (∀ d ≤ 2, o.nnum d < 2 ^ 31)) = some true := by decide +kernel
  rw [h] at hn
  simp only [Except.toOption, Option.map_some, Option.some.injEq, decide_eq_true_eq] at hn
  intro d hd
  exact hn d (by omega)

/-- ... and by the batch `cloudC`, for which the 32-bit model computes the same octree. -/
example : ((Octree.build32 id (fun c v => v / c) (Octree.new 2 1 2 0) cloudC).toOption.map fun r =>
    (r.1.nnum 2, r.1.nnumNempty 2, r.1.features 2, r.2)) = some (16, 2, some [2, 2], [0, 1, 0]) := by decide +kernel

end Ocnn
