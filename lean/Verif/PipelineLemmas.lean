import Verif.Pipelines
import Verif.PropsNets
import Verif.PropsTranslate

/-! Lemmas for C95: the octrees of the samples, and the input features of a batch. -/

set_option linter.unusedSimpArgs false

namespace Ocnn
open Spec

variable {F L : Type} {k : Nat}

/-! ### input features row by row -/

/-- The offset of a position from the centre of its cell. -/
def localOf (p : V3 ℚ) : V3 ℚ := p.map fun q => frac q - 1 / 2

/-- The entries of one row of the input features. -/
def inputRow (feature : String) (scale : ℚ) (r : V3 ℚ × V3 ℚ × (Fin k → ℚ)) : List ℚ :=
  let l := localOf r.1
  (if Asks feature 'N' 'n' then [r.2.1.x, r.2.1.y, r.2.1.z] else []) ++
  (if Asks feature 'D' 'd' then [l.x * r.2.1.x + l.y * r.2.1.y + l.z * r.2.1.z] else []) ++
  (if Asks feature 'L' 'l' then [l.x, l.y, l.z] else []) ++
  (if Asks feature 'P' 'p' then [r.1.x * scale - 1, r.1.y * scale - 1, r.1.z * scale - 1] else []) ++
  (if Asks feature 'F' 'f' then List.ofFn r.2.2 else [])

theorem inputRow_length (feature : String) (scale : ℚ) (r : V3 ℚ × V3 ℚ × (Fin k → ℚ)) :
    (inputRow feature scale r).length = channelCount feature k := by
  unfold inputRow channelCount
  simp only [List.length_append]
  congr 1
  · congr 1
    · congr 1
      · congr 1 <;> split <;> rfl
      · split <;> rfl
    · split <;> rfl
  · split <;> simp

theorem inputWidth_eq (feature : String) : Octree.inputWidth k feature = channelCount feature k := by
  unfold Octree.inputWidth channelCount
  rw [wants_iff feature 'N' 'n' (by decide) (by decide), wants_iff feature 'D' 'd' (by decide) (by decide),
    wants_iff feature 'L' 'l' (by decide) (by decide), wants_iff feature 'P' 'p' (by decide) (by decide),
    wants_iff feature 'F' 'f' (by decide) (by decide)]
  simp only [decide_eq_true_eq]

/-- The signals of the finest nodes of an octree, row by row, as far as a feature string needs them. -/
structure HasRows (o : Octree (Fin k → ℚ)) (feature : String) (R : List (V3 ℚ × V3 ℚ × (Fin k → ℚ))) : Prop where
  points : o.points o.depth = some (R.map fun r => r.1)
  normals : Asks feature 'N' 'n' ∨ Asks feature 'D' 'd' → o.normals o.depth = some (R.map fun r => r.2.1)
  features : Asks feature 'F' 'f' → o.features o.depth = some (R.map fun r => r.2.2)

namespace Spec

/-- The feature string asks for at least one of the known channels. -/
def AsksSome (feature : String) : Prop :=
  Asks feature 'N' 'n' ∨ Asks feature 'D' 'd' ∨ Asks feature 'L' 'l' ∨ Asks feature 'P' 'p' ∨ Asks feature 'F' 'f'

end Spec

theorem HasRows.columns {o : Octree (Fin k → ℚ)} {feature : String} {R : List (V3 ℚ × V3 ℚ × (Fin k → ℚ))} (h : HasRows o feature R)
    (ha : AsksSome feature) :
    ∃ ts, o.inputColumns feature = .ok ts ∧ catCols ts = .ok (R.map (inputRow feature o.scaleOf)) := by
  have hloc : o.localPoints = .ok (R.map fun r => localOf r.1) := by
    unfold Octree.localPoints
    rw [h.points]
    simp only [need, bind, Except.bind, pure, Except.pure, List.map_map]
    rfl
  have hglob : o.globalPoints = .ok (R.map fun r => r.1.map fun q => q * o.scaleOf - 1) := by
    unfold Octree.globalPoints
    rw [h.points]
    simp only [need, bind, Except.bind, pure, Except.pure, List.map_map]
    rfl
  have hn := h.normals
  have hf := h.features
  have hdis : Asks feature 'D' 'd' → o.displacement (R.map fun r => localOf r.1) =
      .ok (R.map fun r =>
        let l := localOf r.1
        [l.x * r.2.1.x + l.y * r.2.1.y + l.z * r.2.1.z]) := by
    intro h
    unfold Octree.displacement
    rw [hn (.inr h)]
    simp only [need, bind, Except.bind, List.length_map, if_true]
    rw [List.zipWith_map, List.zipWith_self]
  have eN := wants_iff feature 'N' 'n' (by decide) (by decide)
  have eD := wants_iff feature 'D' 'd' (by decide) (by decide)
  have eL := wants_iff feature 'L' 'l' (by decide) (by decide)
  have eP := wants_iff feature 'P' 'p' (by decide) (by decide)
  have eF := wants_iff feature 'F' 'f' (by decide) (by decide)
  let gN : V3 ℚ × V3 ℚ × (Fin k → ℚ) → List ℚ := fun r => [r.2.1.x, r.2.1.y, r.2.1.z]
  let gD : V3 ℚ × V3 ℚ × (Fin k → ℚ) → List ℚ := fun r =>
    let l := localOf r.1
    [l.x * r.2.1.x + l.y * r.2.1.y + l.z * r.2.1.z]
  let gL : V3 ℚ × V3 ℚ × (Fin k → ℚ) → List ℚ := fun r =>
    let l := localOf r.1
    [l.x, l.y, l.z]
  let gP : V3 ℚ × V3 ℚ × (Fin k → ℚ) → List ℚ := fun r => [r.1.x * o.scaleOf - 1, r.1.y * o.scaleOf - 1, r.1.z * o.scaleOf - 1]
  let gF : V3 ℚ × V3 ℚ × (Fin k → ℚ) → List ℚ := fun r => List.ofFn r.2.2
  let one (p : Prop) [Decidable p] (g : V3 ℚ × V3 ℚ × (Fin k → ℚ) → List ℚ) : List (V3 ℚ × V3 ℚ × (Fin k → ℚ) → List ℚ) := if p then [g] else []
  let gs := one (Asks feature 'N' 'n') gN ++ one (Asks feature 'D' 'd') gD ++ one (Asks feature 'L' 'l') gL ++
    one (Asks feature 'P' 'p') gP ++ one (Asks feature 'F' 'f') gF
  have hcol : o.inputColumns feature = .ok (gs.map fun g => some (R.map g)) := by
    unfold Octree.inputColumns
    rw [eN, eD, eL, eP, eF]
    by_cases aN : Asks feature 'N' 'n' <;> by_cases aD : Asks feature 'D' 'd' <;>
    by_cases aL : Asks feature 'L' 'l' <;> by_cases aP : Asks feature 'P' 'p' <;>
    by_cases aF : Asks feature 'F' 'f' <;>
    simp [aN, aD, aL, aP, aF, gs, one, hloc, hglob, hdis, hn, hf, bind, Except.bind, pure, Except.pure, gN, gD, gL,
      gP, gF, V3.toRow, V3.map, Function.comp_def]
  have hne : gs ≠ [] := by
    rcases ha with h | h | h | h | h <;> simp [gs, one, h]
  refine ⟨_, hcol, ?_⟩
  rw [catCols_map R gs hne]
  congr 1
  refine List.map_congr_left fun c _ => ?_
  have one_flat : ∀ (p : Prop) [Decidable p] (g : V3 ℚ × V3 ℚ × (Fin k → ℚ) → List ℚ),
      ((one p g).map fun g => g c).flatten = if p then g c else [] := by
    intro p _ g
    by_cases h : p <;> simp [one, h]
  simp only [gs, List.map_append, List.flatten_append, one_flat]
  rfl

theorem HasRows.input {o : Octree (Fin k → ℚ)} {feature : String} {R : List (V3 ℚ × V3 ℚ × (Fin k → ℚ))} (h : HasRows o feature R)
    (ha : AsksSome feature) (nempty : Bool) :
    o.inputFeature feature nempty = if nempty then .ok (R.map (inputRow feature o.scaleOf)) else
      octreePad (R.map (inputRow feature o.scaleOf)) o o.depth (List.replicate (channelCount feature k) 0) := by
  obtain ⟨ts, h1, h2⟩ := h.columns ha
  unfold Octree.inputFeature
  rw [h1]
  simp only [bind, Except.bind, h2, inputWidth_eq]
  cases nempty <;> rfl

theorem mem_maskFill {α : Type} (ms : List Bool) (ts vs : List α) (a : α) (h : a ∈ maskFill ms ts vs) : a ∈ ts ∨ a ∈ vs := by
  induction ms generalizing ts vs with
  | nil => exact .inl (by simpa [maskFill] using h)
  | cons m ms ih =>
    cases ts with
    | nil => cases m <;> cases vs <;> simp_all [maskFill]
    | cons t ts =>
      cases m with
      | false =>
        simp only [maskFill, List.mem_cons] at h ⊢
        rcases h with h | h
        · exact .inl (.inl h)
        · exact (ih ts vs h).imp_left .inr
      | true =>
        cases vs with
        | nil =>
          simp only [maskFill, List.mem_cons] at h ⊢
          rcases h with h | h
          · exact .inl (.inl h)
          · exact (ih ts [] h).imp_left .inr
        | cons v vs =>
          simp only [maskFill, List.mem_cons] at h ⊢
          rcases h with h | h
          · exact .inr (.inl h)
          · exact (ih ts vs h).imp .inr .inr

theorem pad_width {o : Octree F} {D : Nat} (w : o.Valid D) (d : Nat) (hd : d ≤ D) (c : Nat) (x y : List (List ℚ))
    (hx : x.length = o.nnumNempty d) (hr : ∀ r ∈ x, r.length = c) (h : octreePad x o d (List.replicate c 0) = .ok y) :
    ∀ r ∈ y, r.length = c := by
  rw [pad_ok w d hd x _ hx] at h
  cases h
  intro r hm
  rcases mem_maskFill _ _ _ _ hm with h | h
  · rw [(List.mem_replicate.1 h).2, List.length_replicate]
  · exact hr r h

/-- the input features of a batch are those of the samples, one after the other -/
theorem input_batch {os : List (Octree (Fin k → ℚ))} {o' : Octree (Fin k → ℚ)} {D : Nat} (hm : MergedBatch os o' D) (feature : String)
    (ha : AsksSome feature) (nempty : Bool)
    (hR : ∀ o ∈ os, ∃ R, HasRows o feature R ∧ R.length = o.nnumNempty D) :
    ∃ xs : List (List (List ℚ)), xs.map List.length = (os.map fun o => height o nempty D) ∧
      (∀ (i : Nat) o, os[i]? = some o → ∃ x, xs[i]? = some x ∧ o.inputFeature feature nempty = .ok x) ∧
      o'.inputFeature feature nempty = .ok xs.flatten ∧ ∀ x ∈ xs, ∀ r ∈ x, r.length = channelCount feature k := by
  obtain ⟨full, dev, hf, hmg⟩ := hm.mergeable
  choose! R hR1 hR2 using hR
  obtain ⟨o₀, e1, e2, -, -, -, -, -, e3, e4, e5, -⟩ := C16_merge os D full dev hmg
  obtain ⟨nb, e6, -⟩ := merged_ready hmg hf
  have e7 := hm.merged
  rw [e6] at e7
  cases e7
  rw [merge_ok hmg] at e1
  cases e1
  generalize hO : ({ mergedState os D full dev (D + 1) with neighs := nb } : Octree (Fin k → ℚ)) = o' at *
  have hd : o'.depth = D := by rw [← hO]; exact e2
  have hp' : o'.points = (mergedState os D full dev (D + 1)).points := by rw [← hO]
  have hn' : o'.normals = (mergedState os D full dev (D + 1)).normals := by rw [← hO]
  have hf' : o'.features = (mergedState os D full dev (D + 1)).features := by rw [← hO]
  have sc : ∀ o ∈ os, o.scaleOf = o'.scaleOf := fun o ho => by unfold Octree.scaleOf; rw [hmg.depth o ho, hd]
  have rows' : HasRows o' feature (os.map R).flatten := by
    refine ⟨?_, fun hq => ?_, fun hq => ?_⟩
    · rw [hd, hp', List.map_flatten, List.map_map]
      refine e5 _ ?_
      rw [List.map_map]
      exact List.map_congr_left fun o ho => by rw [← hmg.depth o ho]; exact (hR1 o ho).points
    · rw [hd, hn', List.map_flatten, List.map_map]
      refine e4 _ ?_
      rw [List.map_map]
      exact List.map_congr_left fun o ho => by rw [← hmg.depth o ho]; exact (hR1 o ho).normals hq
    · rw [hd, hf', List.map_flatten, List.map_map]
      refine e3 _ ?_
      rw [List.map_map]
      exact List.map_congr_left fun o ho => by rw [← hmg.depth o ho]; exact (hR1 o ho).features hq
  set X : Octree (Fin k → ℚ) → List (List ℚ) := fun o => (R o).map (inputRow feature o'.scaleOf) with hX
  have hXl : ∀ o ∈ os, (X o).length = o.nnumNempty D := fun o ho => by rw [hX]; simp only [List.length_map]; exact hR2 o ho
  have hXw : ∀ o, ∀ r ∈ X o, r.length = channelCount feature k := by
    intro o r hr
    obtain ⟨q, -, rfl⟩ := List.mem_map.1 hr
    exact inputRow_length _ _ _
  have hflat : (os.map R).flatten.map (inputRow feature o'.scaleOf) = (os.map X).flatten := by rw [List.map_flatten, List.map_map]; rfl
  have single : ∀ o ∈ os, o.inputFeature feature nempty = if nempty then .ok (X o) else
      octreePad (X o) o D (List.replicate (channelCount feature k) 0) := by
    intro o ho
    rw [(hR1 o ho).input ha, sc o ho, hmg.depth o ho]
  have batch := rows'.input ha nempty
  rw [hflat, hd] at batch
  cases nempty with
  | true =>
    refine ⟨os.map X, ?_, fun i o ho => ⟨X o, by rw [List.getElem?_map, ho]; rfl, ?_⟩, by rw [batch]; rfl, ?_⟩
    · rw [List.map_map]
      exact List.map_congr_left fun o ho => hXl o ho
    · rw [single o (List.mem_of_getElem? ho)]; rfl
    · intro x hx
      obtain ⟨o, -, rfl⟩ := List.mem_map.1 hx
      exact hXw o
  | false =>
    obtain ⟨ys, p1, p2, p3⟩ := pad_perSample hm.batchOf.1 D (le_refl _) (List.replicate (channelCount feature k) (0 : ℚ)) (os.map X) (by
      rw [List.map_map]
      exact List.map_congr_left fun o ho => hXl o ho)
    have at_i : ∀ (i : Nat) o, os[i]? = some o → ∃ x, ys[i]? = some x ∧ octreePad (X o) o D (List.replicate (channelCount feature k) 0) = .ok x := by
      intro i o ho
      have e := congrArg (fun l => l[i]?) p1
      simp only [List.getElem?_zipWith, ho, List.getElem?_map, Option.map_some] at e
      cases hy : ys[i]? with
      | none => rw [hy] at e; cases e
      | some y =>
        rw [hy] at e
        simp only [Option.map_some, Option.some.injEq] at e
        exact ⟨y, rfl, e⟩
    refine ⟨ys, p2, fun i o ho => ?_, by rw [batch]; exact p3, ?_⟩
    · obtain ⟨x, h1, h2⟩ := at_i i o ho
      exact ⟨x, h1, by rw [single o (List.mem_of_getElem? ho)]; exact h2⟩
    · intro x hx
      obtain ⟨i, hi⟩ := List.mem_iff_getElem?.1 hx
      have hl : ys.length = os.length := by simpa using congrArg List.length p2
      have hi' : i < os.length := by rw [← hl]; exact (List.getElem?_eq_some_iff.1 hi).1
      have ho := List.getElem?_eq_getElem hi'
      obtain ⟨y, h1, h2⟩ := at_i i _ ho
      rw [hi] at h1
      cases h1
      have hom := List.mem_of_getElem? ho
      exact pad_width (hmg.valid _ hom) D (le_refl _) _ _ _ (hXl _ hom) (hXw _) h2

/-! ### the octrees of the samples -/

/-- What is known about the octree `t` (with neighbour tables) of the cloud `pc`. -/
structure SampleOctree (pc : Points ℚ (Fin k → ℚ) L) (D full : Nat) (t : Octree (Fin k → ℚ)) : Prop where
  valid : t.Valid D
  depth : t.depth = D
  fullDepth : t.fullDepth = full
  single : t.batchSize = 1
  device : t.device = pc.device
  neigh : ∀ d, 1 ≤ d → d ≤ D → NeighExact t.batchSize d t.keys t.neighs
  points : (t.points D).isSome
  normals : (t.normals D).isSome = pc.normals.isSome
  features : (t.features D).isSome = pc.features.isSome
  rows : ∀ feature, (Asks feature 'N' 'n' ∨ Asks feature 'D' 'd' → pc.normals ≠ none) → (Asks feature 'F' 'f' → pc.features ≠ none) →
    ∃ R, HasRows t feature R ∧ R.length = t.nnumNempty D

theorem sample_octree (nrm : V3 ℚ → V3 ℚ) (divF : ℚ → (Fin k → ℚ) → (Fin k → ℚ)) (D full : Nat) (pc : Points ℚ (Fin k → ℚ) L)
    (h : LegalBuild (Octree.new D full 1 0 : Octree (Fin k → ℚ)) pc (List.replicate pc.points.length 0)) (hf : 1 ≤ full) :
    ∃ o nb, points2octree nrm divF D full pc = .ok o ∧ SampleOctree pc D full { o with neighs := nb } := by
  obtain ⟨o, idx, nb, b, -, hN⟩ := C28_partial nrm divF _ pc _ h hf
  obtain ⟨_, _, b', d1, f1, B1, w, -⟩ := C07_build nrm divF _ pc _ h
  rw [b] at b'; cases b'
  obtain ⟨_, _, cells, ch, b', c1, c2, -, c3, c4, c5, -⟩ := C11_averages nrm divF _ pc _ h
  rw [b] at b'; cases b'
  obtain ⟨S, hO, -, hS, b'⟩ := build_cube nrm divF _ pc _ h.cloud h.same_batch h.inCube h.depth h.full h.batch
  have eo : o = _ := congrArg Prod.fst (Except.ok.inj (b.symm.trans b'))
  have hdev : o.device = pc.device := by rw [eo]; rfl
  have hnS : (o.normals D).isSome = pc.normals.isSome := by
    rw [eo]; simp only [builtState]
    cases pc.normals <;> simp [Octree.new, upd]
  have hfS : (o.features D).isSome = pc.features.isSome := by
    rw [eo]; simp only [builtState]
    cases pc.features <;> simp [Octree.new, upd]
  have d1 : o.depth = D := d1
  have c3 : o.points D = _ := c3
  have c1' : CellsOf o.batchSize D o.keys cells := by rw [B1]; exact c1
  have w : o.Valid D := w
  have W := w.wf'
  have hD : D ≤ 16 := h.depth
  have hlen : (nonEmpty cells ch).length = o.nnumNempty D := by
    have e := cells_unique hD c1' (W.cellsOf D (le_refl _))
    subst e
    have c2 : o.children D = some ch := c2
    rw [W.children _ (le_refl _)] at c2
    cases c2
    rw [nonEmpty_eq _ _ _ (W.len D (le_refl _)), nnumNempty_eq w D (le_refl _), maskSel_length _ _ (W.len D (le_refl _))]
  have v : ({ o with neighs := nb } : Octree (Fin k → ℚ)).Valid D := ⟨w.depth_le, w.h_le, w.full_le, w.batch_le, w.wf⟩
  refine ⟨o, nb, ?_, v, d1, f1, B1, hdev, ?_, by show (o.points D).isSome; rw [c3]; rfl, hnS, hfS, ?_⟩
  · unfold points2octree
    rw [b]
    rfl
  · intro d h1 h2
    show NeighExact o.batchSize d o.keys nb
    rw [B1]; exact hN d h1 h2
  · intro feature hn hf
    refine ⟨(nonEmpty cells ch).map fun c => ((sumIn D c (pc.points.zip (List.replicate pc.points.length 0)) (pc.points.map (gridPos D))).map
          (· / (countIn D c (pc.points.zip (List.replicate pc.points.length 0)) : ℚ)),
        nrm (sumIn D c (pc.points.zip (List.replicate pc.points.length 0)) (pc.normals.getD [])),
        divF (countIn D c (pc.points.zip (List.replicate pc.points.length 0)) : ℚ)
          (sumIn D c (pc.points.zip (List.replicate pc.points.length 0)) (pc.features.getD []))), ⟨?_, fun hq => ?_, fun hq => ?_⟩, ?_⟩
    · show o.points o.depth = _
      rw [d1, c3, List.map_map]
      rfl
    · obtain ⟨n, hn⟩ := Option.ne_none_iff_exists'.1 (hn hq)
      show o.normals o.depth = _
      rw [d1, List.map_map]
      refine (c5 n hn).trans ?_
      rw [hn]
      rfl
    · obtain ⟨n, hn⟩ := Option.ne_none_iff_exists'.1 (hf hq)
      show o.features o.depth = _
      rw [d1, List.map_map]
      refine (c4 n hn).1.trans ?_
      rw [hn]
      rfl
    · rw [List.length_map]
      exact hlen

theorem LegalBatch.sample {F : Type} {pcs : List (Points ℚ F L)} {dev : Nat} (h : LegalBatch pcs dev) (D full : Nat) (hD : D ≤ 16)
    (hf : full ≤ D) (pc : Points ℚ F L) (hp : pc ∈ pcs) :
    LegalBuild (Octree.new D full 1 0 : Octree F) pc (List.replicate pc.points.length 0) where
  depth := hD
  full := hf
  batch := (by show 1 ≤ 2 ^ 15; norm_num)
  same_batch := h.single pc hp
  inCube := h.inCube pc hp
  cloud :=
    { length := by simp
      lt := by intro b hb; rw [(List.mem_replicate.mp hb).2]; exact Nat.one_pos
      ids := fun hc => absurd rfl hc
      normals := (h.aligned pc hp).normals
      features := (h.aligned pc hp).features }

/-- the octree of a batch -/
theorem batch_octree (nrm : V3 ℚ → V3 ℚ) (divF : ℚ → (Fin k → ℚ) → (Fin k → ℚ)) (D full dev : Nat) (hD : D ≤ 16) (hf1 : 1 ≤ full) (hf : full ≤ D) :
    ∃ T : Points ℚ (Fin k → ℚ) L → Octree (Fin k → ℚ), ∀ pcs : List (Points ℚ (Fin k → ℚ) L), LegalBatch pcs dev →
      (∀ pc ∈ pcs, SampleOctree pc D full (T pc) ∧
        ∃ o idx nb, Octree.build nrm divF (Octree.new D full 1 0) pc = .ok (o, idx) ∧ T pc = { o with neighs := nb }) ∧
      ∃ o', batchOctree nrm divF D full pcs = .ok o' ∧ MergedBatch (pcs.map T) o' D ∧ o'.depth = D := by
  have hex : ∀ pc : Points ℚ (Fin k → ℚ) L, ∃ (o : Octree (Fin k → ℚ)) (nb : Nat → Option (List (List Int))),
      LegalBuild (Octree.new D full 1 0 : Octree (Fin k → ℚ)) pc (List.replicate pc.points.length 0) →
      points2octree nrm divF D full pc = .ok o ∧ SampleOctree pc D full { o with neighs := nb } := by
    intro pc
    by_cases h : LegalBuild (Octree.new D full 1 0 : Octree (Fin k → ℚ)) pc (List.replicate pc.points.length 0)
    · obtain ⟨o, nb, h1, h2⟩ := sample_octree nrm divF D full pc h hf1
      exact ⟨o, nb, fun _ => ⟨h1, h2⟩⟩
    · exact ⟨Octree.new 0 0 1 0, fun _ => none, fun hc => absurd hc h⟩
  choose o nb ho using hex
  refine ⟨fun pc => { o pc with neighs := nb pc }, fun pcs h => ?_⟩
  have hs : ∀ pc ∈ pcs, points2octree nrm divF D full pc = .ok (o pc) ∧ SampleOctree pc D full { o pc with neighs := nb pc } :=
    fun pc hp => ho pc (h.sample D full hD hf pc hp)
  have mg : Mergeable (pcs.map fun pc => ({ o pc with neighs := nb pc } : Octree (Fin k → ℚ))) D full dev := by
    refine ⟨by simp [h.nonempty], by rw [List.length_map]; exact h.number, ?_, ?_, ?_, ?_, ?_, ?_, ?_, ?_⟩
    · intro t ht; obtain ⟨pc, hp, rfl⟩ := List.mem_map.mp ht; exact (hs pc hp).2.single
    · intro t ht; obtain ⟨pc, hp, rfl⟩ := List.mem_map.mp ht; exact (hs pc hp).2.depth
    · intro t ht; obtain ⟨pc, hp, rfl⟩ := List.mem_map.mp ht; exact (hs pc hp).2.fullDepth
    · intro t ht; obtain ⟨pc, hp, rfl⟩ := List.mem_map.mp ht; exact (hs pc hp).2.device.trans (h.device pc hp)
    · intro t ht; obtain ⟨pc, hp, rfl⟩ := List.mem_map.mp ht; exact (hs pc hp).2.valid
    · intro t ht t' ht'
      obtain ⟨pc, hp, rfl⟩ := List.mem_map.mp ht
      obtain ⟨pc', hp', rfl⟩ := List.mem_map.mp ht'
      rw [(hs pc hp).2.features, (hs pc' hp').2.features]; exact (h.same pc hp pc' hp').2.1
    · intro t ht t' ht'
      obtain ⟨pc, hp, rfl⟩ := List.mem_map.mp ht
      obtain ⟨pc', hp', rfl⟩ := List.mem_map.mp ht'
      rw [(hs pc hp).2.normals, (hs pc' hp').2.normals]; exact (h.same pc hp pc' hp').1
    · intro t ht t' ht'
      obtain ⟨pc, hp, rfl⟩ := List.mem_map.mp ht
      obtain ⟨pc', hp', rfl⟩ := List.mem_map.mp ht'
      rw [(hs pc hp).2.points, (hs pc' hp').2.points]
  have mg0 : Mergeable (pcs.map o) D full dev := by
    have key : ∀ t ∈ pcs.map o, ∃ nb₁, ({ t with neighs := nb₁ } : Octree (Fin k → ℚ)) ∈ pcs.map fun pc => ({ o pc with neighs := nb pc } : Octree (Fin k → ℚ)) := by
      intro t ht
      obtain ⟨pc, hp, rfl⟩ := List.mem_map.mp ht
      exact ⟨nb pc, List.mem_map.2 ⟨pc, hp, rfl⟩⟩
    refine ⟨by simp [h.nonempty], by rw [List.length_map]; exact h.number, ?_, ?_, ?_, ?_, ?_, ?_, ?_, ?_⟩
    · intro t ht; obtain ⟨_, ht⟩ := key t ht; have e := mg.single _ ht; exact e
    · intro t ht; obtain ⟨_, ht⟩ := key t ht; have e := mg.depth _ ht; exact e
    · intro t ht; obtain ⟨_, ht⟩ := key t ht; have e := mg.fullDepth _ ht; exact e
    · intro t ht; obtain ⟨_, ht⟩ := key t ht; have e := mg.device _ ht; exact e
    · intro t ht; obtain ⟨_, ht⟩ := key t ht
      have w := mg.valid _ ht
      exact ⟨w.depth_le, w.h_le, w.full_le, w.batch_le, w.wf⟩
    · intro t ht t' ht'
      obtain ⟨_, ht⟩ := key t ht; obtain ⟨_, ht'⟩ := key t' ht'
      have e := mg.features _ ht _ ht'; exact e
    · intro t ht t' ht'
      obtain ⟨_, ht⟩ := key t ht; obtain ⟨_, ht'⟩ := key t' ht'
      have e := mg.normals _ ht _ ht'; exact e
    · intro t ht t' ht'
      obtain ⟨_, ht⟩ := key t ht; obtain ⟨_, ht'⟩ := key t' ht'
      have e := mg.points _ ht _ ht'; exact e
  have hmerge : Octree.merge (pcs.map o) = Octree.merge (pcs.map fun pc => ({ o pc with neighs := nb pc } : Octree (Fin k → ℚ))) := by
    rw [merge_ok mg, merge_ok mg0]
    congr 1
    unfold mergedState
    have sig : ∀ {α : Type} (sel : Octree (Fin k → ℚ) → Nat → Option (List α)) (d : Nat), (∀ t nb, sel { t with neighs := nb } = sel t) →
        mergedSignal sel (pcs.map o) D d = mergedSignal sel (pcs.map fun pc => ({ o pc with neighs := nb pc } : Octree (Fin k → ℚ))) D d := by
      intro α sel d hsel
      cases pcs with
      | nil => rfl
      | cons p ps =>
        simp only [List.map_cons, mergedSignal, hsel, List.map_map, Function.comp_def]
    rw [List.length_map, List.length_map]
    simp only [List.map_map, sig Octree.features _ (fun _ _ => rfl), sig Octree.normals _ (fun _ _ => rfl), sig Octree.points _ (fun _ _ => rfl)]
    rfl
  refine ⟨fun pc hp => ⟨(hs pc hp).2, ?_⟩, ?_⟩
  · have e := (hs pc hp).1
    unfold points2octree at e
    cases hb : Octree.build nrm divF (Octree.new D full 1 0) pc with
    | error e' => rw [hb] at e; cases e
    | ok r =>
      rw [hb] at e
      have e : r.1 = o pc := Except.ok.inj e
      exact ⟨r.1, r.2, nb pc, rfl, by rw [e]⟩
  · obtain ⟨o', hm⟩ := C58_ready _ D full dev mg hf1 (by
      intro t ht; obtain ⟨pc, hp, rfl⟩ := List.mem_map.mp ht; exact (hs pc hp).2.neigh)
    refine ⟨o', ?_, hm, ?_⟩
    · unfold batchOctree
      rw [mapM_ok (points2octree nrm divF D full) o pcs fun pc hp => (hs pc hp).1]
      show (Octree.merge (pcs.map o) >>= Octree.constructAllNeigh) = _
      rw [hmerge]
      exact hm.merged
    · obtain ⟨nb', e, -⟩ := merged_ready mg hf1
      have := hm.merged
      rw [e] at this
      cases this
      rfl

end Ocnn
