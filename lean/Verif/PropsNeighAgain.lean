import Verif.PropsPerSample
import Verif.PropsProjects
import Verif.OctreeIO

/-! Property C184: constructing the neighbour tables again, on another device and after merging. -/

set_option linter.unusedSimpArgs false

namespace Ocnn
open Spec
variable {F : Type}

/-! ### what one construction reads -/

/-- the table built by `construct_neigh(d)`, from the fields it reads -/
def tableOf (depth full batch d : Nat) (childP : Option (List Int)) (neighP : Option (List (List Int))) :
    M (List (List Int)) := do
  if d ≤ full then
    let nnum := 1 <<< (3 * d)
    let rows ← (List.range nnum).mapM (Octree.fullRow d)
    let neigh := (List.range batch).flatMap fun b =>
      rows.map fun row => row.map fun v => match v with
        | some n => ((n + b * nnum : Nat) : Int)
        | none => -1
    if d ≤ depth then pure neigh else .error .index
  else
    if d ≤ depth then
      let childP ← need childP
      let neighP ← need neighP
      let sel ← boolIndex (childP.map fun v => decide (v ≥ 0)) neighP
      let rows ← sel.mapM (Octree.deepRows childP)
      pure rows.flatten
    else .error .index

theorem constructNeigh_eq (o : Octree F) (d : Nat) : o.constructNeigh d =
    (tableOf o.depth o.fullDepth o.batchSize d (o.children (d - 1)) (o.neighs (d - 1))).map
      fun t => { o with neighs := upd o.neighs d (some t) } := by
  unfold Octree.constructNeigh tableOf Octree.chk
  split
  · simp only [bind, Except.bind]
    generalize (List.range (1 <<< (3 * d))).mapM (Octree.fullRow d) = r
    cases r with
    | error e => rfl
    | ok rows =>
      by_cases h : d ≤ o.depth
      · simp only [h, if_true]
        rfl
      · simp only [h, if_false]
        rfl
  · by_cases h : d ≤ o.depth
    · simp only [h, if_true, bind, Except.bind, pure, Except.pure]
      cases need (o.children (d - 1)) with
      | error e => rfl
      | ok c =>
        simp only
        cases need (o.neighs (d - 1)) with
        | error e => rfl
        | ok n =>
          simp only
          cases boolIndex (c.map fun v => decide (v ≥ 0)) n with
          | error e => rfl
          | ok s =>
            simp only
            cases s.mapM (Octree.deepRows c) with
            | error e => rfl
            | ok r => rfl
    · simp [h, bind, Except.bind, Except.map]

theorem tableOf_bound {depth full batch d : Nat} {c : Option (List Int)} {n : Option (List (List Int))} {t : List (List Int)}
    (h : tableOf depth full batch d c n = .ok t) : d ≤ depth := by
  by_contra hd
  unfold tableOf at h
  simp only [hd, if_false] at h
  split at h
  · cases hm : (List.range (1 <<< (3 * d))).mapM (Octree.fullRow d) with
    | error e => rw [hm] at h; cases h
    | ok r => rw [hm] at h; cases h
  · cases h

theorem tableOf_full {depth full batch d : Nat} (h : d ≤ full) (c c' : Option (List Int)) (n n' : Option (List (List Int))) :
    tableOf depth full batch d c n = tableOf depth full batch d c' n' := by
  unfold tableOf
  simp only [h, if_true]

/-- the first `k` steps of `construct_all_neigh` -/
def neighSteps (k : Nat) (o : Octree F) : M (Octree F) := (List.range k).foldlM (fun o i => o.constructNeigh (i + 1)) o

theorem neighSteps_succ (k : Nat) (o : Octree F) : neighSteps (k + 1) o = (neighSteps k o).bind fun o => o.constructNeigh (k + 1) := by
  unfold neighSteps
  rw [List.range_succ, List.foldlM_append]
  simp only [List.foldlM, bind, Except.bind]
  cases (List.range k).foldlM (fun (o : Octree F) i => o.constructNeigh (i + 1)) o with
  | error e => rfl
  | ok o1 =>
    simp only
    cases o1.constructNeigh (k + 1) <;> rfl

/-- Two octrees that differ in their neighbour tables only, after the first `k` steps. -/
def Refreshed (o : Octree F) (nb : Nat → Option (List (List Int))) (k : Nat) : M (Octree F) → M (Octree F) → Prop
  | .error e, r => r = .error e
  | .ok o1, r => ∃ t t' : Nat → Option (List (List Int)), o1 = { o with neighs := t } ∧ r = .ok { o with neighs := t' } ∧
      (∀ d, 1 ≤ d → d ≤ k → t' d = t d) ∧ (∀ d, d = 0 ∨ k < d → t d = o.neighs d ∧ t' d = nb d)

theorem fresh_steps (o : Octree F) (nb : Nat → Option (List (List Int))) (hf : 1 ≤ o.fullDepth ∨ nb 0 = o.neighs 0) (k : Nat) :
    Refreshed o nb k (neighSteps k o) (neighSteps k { o with neighs := nb }) := by
  induction k with
  | zero =>
    refine ⟨o.neighs, nb, rfl, rfl, ?_, fun d _ => ⟨rfl, rfl⟩⟩
    intro d h1 h2
    omega
  | succ k ih =>
    rw [neighSteps_succ, neighSteps_succ]
    cases hs : neighSteps k o with
    | error e =>
      rw [hs] at ih
      simp only [Refreshed] at ih
      rw [ih]
      rfl
    | ok o1 =>
      rw [hs] at ih
      obtain ⟨t, t', rfl, h2, h3, h4⟩ := ih
      rw [h2]
      simp only [Except.bind]
      rw [constructNeigh_eq, constructNeigh_eq]
      simp only [Nat.add_sub_cancel]
      have e : tableOf o.depth o.fullDepth o.batchSize (k + 1) (o.children k) (t' k)
          = tableOf o.depth o.fullDepth o.batchSize (k + 1) (o.children k) (t k) := by
        by_cases hk : k + 1 ≤ o.fullDepth
        · exact tableOf_full hk _ _ _ _
        · congr 1
          rcases Nat.eq_zero_or_pos k with rfl | hp
          · rw [(h4 0 (Or.inl rfl)).1, (h4 0 (Or.inl rfl)).2]
            rcases hf with h | h
            · omega
            · exact h
          · exact h3 k hp le_rfl
      rw [e]
      cases tableOf o.depth o.fullDepth o.batchSize (k + 1) (o.children k) (t k) with
      | error e => rfl
      | ok tb =>
        refine ⟨_, _, rfl, rfl, ?_, ?_⟩
        · intro d h1 h5
          unfold upd
          split
          · rfl
          · exact h3 d h1 (by omega)
        · intro d hd
          unfold upd
          rw [if_neg (by omega), if_neg (by omega)]
          exact h4 d (by omega)

/-! ### C184 -/

/-- **C184, stale tables.** Whatever the neighbour tables of an octree held before, `construct_all_neigh` ends the same
way: with the same error, or with the same tables at every depth from 1 to the depth of the octree and nothing else
changed.  With `full_depth = 0` the table of the root is read, so it has to be the same one. -/
theorem C184_stale (o : Octree F) (nb : Nat → Option (List (List Int))) (hf : 1 ≤ o.fullDepth ∨ nb 0 = o.neighs 0) :
    (∀ e, o.constructAllNeigh = .error e ↔ ({ o with neighs := nb } : Octree F).constructAllNeigh = .error e) ∧
    ∀ o1, o.constructAllNeigh = .ok o1 → ∃ nb', ({ o with neighs := nb } : Octree F).constructAllNeigh = .ok { o1 with neighs := nb' } ∧
      o1 = { o with neighs := o1.neighs } ∧ (∀ d, 1 ≤ d → d ≤ o.depth → nb' d = o1.neighs d) ∧
      ∀ d, d = 0 ∨ o.depth < d → nb' d = nb d ∧ o1.neighs d = o.neighs d := by
  have h := fresh_steps o nb hf o.depth
  have e1 : o.constructAllNeigh = neighSteps o.depth o := rfl
  have e2 : ({ o with neighs := nb } : Octree F).constructAllNeigh = neighSteps o.depth { o with neighs := nb } := rfl
  rw [e1, e2]
  cases hs : neighSteps o.depth o with
  | error e =>
    rw [hs] at h
    simp only [Refreshed] at h
    rw [h]
    refine ⟨fun e' => Iff.rfl, ?_⟩
    intro o1 h1
    cases h1
  | ok o1 =>
    rw [hs] at h
    obtain ⟨t, t', rfl, h2, h3, h4⟩ := h
    rw [h2]
    refine ⟨fun e' => Iff.intro (fun h => nomatch h) (fun h => nomatch h), ?_⟩
    intro o1 h1
    cases h1
    exact ⟨t', rfl, rfl, h3, fun d hd => ⟨(h4 d hd).2, (h4 d hd).1⟩⟩

/-- **C184, twice.** Calling `construct_all_neigh` a second time changes nothing. -/
theorem C184_again (o o1 : Octree F) (h : o.constructAllNeigh = .ok o1) : o1.constructAllNeigh = .ok o1 := by
  have h0 := fresh_steps o o.neighs (Or.inr rfl) o.depth
  have e1 : o.constructAllNeigh = neighSteps o.depth o := rfl
  rw [e1] at h
  rw [h] at h0
  obtain ⟨t, _, e, _, _, h4⟩ := h0
  obtain ⟨_, h2⟩ := C184_stale o t (Or.inr (h4 0 (Or.inl rfl)).1)
  obtain ⟨nb', h5, _, h6, h7⟩ := h2 o1 h
  subst e
  rw [h5]
  congr 2
  funext d
  by_cases hd : 1 ≤ d ∧ d ≤ o.depth
  · exact h6 d hd.1 hd.2
  · exact (h7 d (by omega)).1

theorem toDevice_step (o : Octree F) (dev d : Nat) (hd : 1 ≤ d) :
    (o.toDevice dev).constructNeigh d = (o.constructNeigh d).map fun o => o.toDevice dev := by
  by_cases hdev : o.device = dev
  · have : ∀ o' : Octree F, o'.device = dev → o'.toDevice dev = o' := fun o' h => if_pos h
    rw [this o hdev, constructNeigh_eq]
    cases tableOf o.depth o.fullDepth o.batchSize d (o.children (d - 1)) (o.neighs (d - 1)) with
    | error e => rfl
    | ok t => exact congrArg Except.ok (this { o with neighs := upd o.neighs d (some t) } hdev).symm
  · have e : ∀ o' : Octree F, o'.device = o.device → o'.toDevice dev = { (Octree.new o'.depth o'.fullDepth o'.batchSize dev : Octree F) with
      keys := o'.listTo o'.keys
      children := o'.listTo o'.children
      neighs := o'.listTo o'.neighs
      features := o'.listTo o'.features
      normals := o'.listTo o'.normals
      points := o'.listTo o'.points
      nnum := o'.nnum
      nnumNempty := o'.nnumNempty
      batchNnum := o'.batchNnum
      batchNnumNempty := o'.batchNnumNempty } := fun o' h => if_neg (by rw [h]; exact hdev)
    rw [e o rfl, constructNeigh_eq, constructNeigh_eq]
    have et : tableOf o.depth o.fullDepth o.batchSize d (o.listTo o.children (d - 1)) (o.listTo o.neighs (d - 1))
        = tableOf o.depth o.fullDepth o.batchSize d (o.children (d - 1)) (o.neighs (d - 1)) := by
      by_cases h : d - 1 ≤ o.depth
      · unfold Octree.listTo
        rw [if_pos h, if_pos h]
      · unfold tableOf
        rw [if_neg (show ¬ d ≤ o.depth by omega), if_neg (show ¬ d ≤ o.depth by omega)]
    show Except.map _ (tableOf o.depth o.fullDepth o.batchSize d (o.listTo o.children (d - 1)) (o.listTo o.neighs (d - 1))) = _
    rw [et]
    cases ht : tableOf o.depth o.fullDepth o.batchSize d (o.children (d - 1)) (o.neighs (d - 1)) with
    | error e => rfl
    | ok t =>
      have hb := tableOf_bound ht
      simp only [Except.map]
      rw [e { o with neighs := upd o.neighs d (some t) } rfl]
      congr 1
      congr 1
      funext i
      show upd (o.listTo o.neighs) d (some t) i = o.listTo (upd o.neighs d (some t)) i
      unfold upd Octree.listTo
      by_cases h1 : i = d
      · subst h1; simp [hb]
      · simp [h1]

theorem constructNeigh_depth {o o1 : Octree F} {d : Nat} (h : o.constructNeigh d = .ok o1) : o1.depth = o.depth := by
  rw [constructNeigh_eq] at h
  cases ht : tableOf o.depth o.fullDepth o.batchSize d (o.children (d - 1)) (o.neighs (d - 1)) with
  | error e => rw [ht] at h; cases h
  | ok t => rw [ht] at h; cases h; rfl

theorem toDevice_depth (o : Octree F) (dev : Nat) : (o.toDevice dev).depth = o.depth := by
  unfold Octree.toDevice
  split <;> rfl

/-- **C184, devices.** Constructing the tables and then copying the octree to a device is the same as copying it first. -/
theorem C184_device (o : Octree F) (dev : Nat) :
    (o.toDevice dev).constructAllNeigh = o.constructAllNeigh.map fun o => o.toDevice dev := by
  have key : ∀ k, neighSteps k (o.toDevice dev) = (neighSteps k o).map fun o => o.toDevice dev := by
    intro k
    induction k with
    | zero => rfl
    | succ k ih =>
      rw [neighSteps_succ, neighSteps_succ, ih]
      cases neighSteps k o with
      | error e => rfl
      | ok o1 => exact toDevice_step o1 dev (k + 1) (by omega)
  have := key o.depth
  unfold Octree.constructAllNeigh
  rw [toDevice_depth]
  exact this

/-! ### merged octrees -/

theorem splitBy_getElem? {α : Type} (ns : List Nat) (l : List α) (i : Nat) :
    (splitBy ns l)[i]? = ns[i]?.map fun n => (l.drop (ns.take i).sum).take n := by
  induction ns generalizing l i with
  | nil => simp [splitBy]
  | cons n ns ih =>
    cases i with
    | zero => simp [splitBy]
    | succ i => simp [splitBy, ih, List.drop_drop]

theorem splitBy_join {α : Type} (ns : List Nat) (l : List α) (h : l.length = ns.sum) : (splitBy ns l).flatten = l := by
  induction ns generalizing l with
  | nil => simp at h; simp [splitBy, h]
  | cons n ns ih =>
    simp only [splitBy, List.flatten_cons]
    rw [ih _ (by simp at h ⊢; omega), List.take_append_drop]

/-- the entry of a merged table is the entry of the sample's own table, shifted -/
theorem refersTo_merged {cells cells' : List Cell} {c : Cell} {g : Int × Int × Int} {v v' : Int} {i off : Nat}
    (hnd : cells'.Nodup) (hz : ∀ a ∈ cells, a.b = 0) (hc : c ∈ cells)
    (hin : ∀ (j : Nat) (a : Cell), cells[j]? = some a → cells'[off + j]? = some (a.inSample i))
    (hback : ∀ a' ∈ cells', a'.b = i → ∃ a ∈ cells, a' = a.inSample i)
    (h : RefersTo cells c g v) (h' : RefersTo cells' (c.inSample i) g v') : v' = if v < 0 then v else v + off := by
  have shift : ∀ a ∈ cells, IsShift c a g ↔ IsShift (c.inSample i) (a.inSample i) g := by
    intro a ha
    unfold IsShift Cell.inSample
    simp [hz a ha, hz c hc]
  rcases h with ⟨j, a, rfl, ha, hs⟩ | ⟨rfl, hno⟩
  · have hs' := (shift a (List.mem_of_getElem? ha)).1 hs
    rw [if_neg (by omega)]
    rcases h' with ⟨j', a', rfl, ha', hs2⟩ | ⟨rfl, hno⟩
    · have e := isShift_unique hs' hs2
      subst e
      have h1 := hin j a ha
      obtain ⟨l1, e1⟩ := List.getElem?_eq_some_iff.mp h1
      obtain ⟨l2, e2⟩ := List.getElem?_eq_some_iff.mp ha'
      have := (List.Nodup.getElem_inj_iff hnd).1 (e1.trans e2.symm)
      subst this
      push_cast
      ring
    · exact absurd hs' (hno _ (List.mem_of_getElem? (hin j a ha)))
  · rw [if_pos (by norm_num)]
    rcases h' with ⟨j', a', rfl, ha', hs2⟩ | ⟨rfl, _⟩
    · obtain ⟨a, ha, rfl⟩ := hback a' (List.mem_of_getElem? ha') (by rw [hs2.1]; rfl)
      exact absurd ((shift a ha).2 hs2) (hno a ha)
    · rfl

/-- **C184, merged.** The neighbour tables of merged octrees are built without error, and cutting the table of a depth
into the blocks of the samples gives the table each octree would have had on its own, with every neighbour that exists
renumbered by the number of nodes of the earlier samples: no neighbour is gained or lost across samples. -/
theorem C184_merged (os : List (Octree F)) (D full dev : Nat) (h : Mergeable os D full dev) (hf : 1 ≤ full) :
    ∃ o' o1', Octree.merge os = .ok o' ∧ o'.constructAllNeigh = .ok o1' ∧ ∀ d, 1 ≤ d → d ≤ D → ∃ rows',
      o1'.neighs d = some rows' ∧ ∀ (i : Nat) (o : Octree F), os[i]? = some o → ∃ (o1 : Octree F) (rows : List (List Int)), o.constructAllNeigh = .ok o1 ∧ o1.neighs d = some rows ∧
        (splitBy (os.map fun o => o.nnum d) rows')[i]? = some (rows.map fun row => row.map fun (v : Int) =>
          if v < 0 then v else v + (((os.take i).map fun o => o.nnum d).sum : Nat)) := by
  obtain ⟨o', hm, hD, hF, -, hB, hV, hlay, -⟩ := C16_merge os D full dev h
  obtain ⟨nb', hn', hx'⟩ := C21_neigh_exact o' (by rw [hD]; exact hV) (by rw [hF]; exact hf)
  refine ⟨o', _, hm, hn', ?_⟩
  intro d hd1 hd2
  obtain ⟨-, -, cells', ch', hc', hch', hblk⟩ := hlay d hd2
  have h16 : D ≤ 16 := h.depth_le
  obtain ⟨rows', hr', hl', ht'⟩ := hx' d hd1 (by rw [hD]; exact hd2) cells' (by rw [hB]; exact hc')
  refine ⟨rows', hr', ?_⟩
  have hnd' : cells'.Nodup := by
    have W := hV.wf'
    have := W.cellsOf d hd2
    rw [hB] at this
    rw [cells_unique (by omega) hc' this]
    exact layer_nodup _ _ _ (by omega)
  have hcells : ∀ o ∈ os, ∃ cells ch, CellsOf 1 d o.keys cells ∧ o.children d = some ch ∧ cells.length = o.nnum d := by
    intro o ho
    have W := (h.valid o ho).wf'
    have h1 := W.cellsOf d hd2
    have h3 := W.nnum d hd2
    rw [h.single o ho] at h1 h3
    exact ⟨_, _, h1, W.children d hd2, h3.symm⟩
  have htotal : cells'.length = (os.map fun o => o.nnum d).sum := by
    have h1 := (merged_wf h).cellsOf d hd2
    rw [merge_ok h] at hm
    cases hm
    have hbs : (mergedState os D full dev (D + 1)).batchSize = os.length := rfl
    rw [hbs] at h1
    have h3 := (merged_wf h).nnum d hd2
    rw [cells_unique (by omega) hc' h1]
    exact h3.symm
  intro i o hi
  have ho := List.mem_of_getElem? hi
  obtain ⟨cells, ch, hc, hch, hcl⟩ := hcells o ho
  obtain ⟨nb, hn, hx⟩ := C21_neigh_exact o (by rw [h.depth o ho]; exact h.valid o ho) (by rw [h.fullDepth o ho]; exact hf)
  obtain ⟨rows, hr, hl, ht⟩ := hx d hd1 (by rw [h.depth o ho]; exact hd2) cells (by rw [h.single o ho]; exact hc)
  refine ⟨_, rows, hn, hr, ?_⟩
  have hb := (hblk i o cells ch hi hc hch).1
  rw [splitBy_getElem?, List.getElem?_map, hi, ← List.map_take] at hb ⊢
  simp only [Option.map_some, Option.some.injEq] at hb ⊢
  set off := ((os.take i).map fun o => o.nnum d).sum with hoff
  have hin : ∀ (j : Nat) (a : Cell), cells[j]? = some a → cells'[off + j]? = some (a.inSample i) := by
    intro j a ha
    have e := congrArg (fun l => l[j]?) hb
    simp only [List.getElem?_map, ha, Option.map_some] at e
    rw [List.getElem?_take] at e
    split at e
    · rwa [List.getElem?_drop] at e
    · cases e
  have hback : ∀ a' ∈ cells', a'.b = i → ∃ a ∈ cells, a' = a.inSample i := by
    intro a' ha' hbi
    rw [← splitBy_join _ cells' htotal] at ha'
    obtain ⟨blk, hblk', ha2⟩ := List.mem_flatten.mp ha'
    obtain ⟨k, hk⟩ := List.mem_iff_getElem?.mp hblk'
    have hklt : k < os.length := by
      have := (List.getElem?_eq_some_iff.mp hk).1
      rwa [splitBy_length, List.length_map] at this
    obtain ⟨ok, hok⟩ : ∃ ok, os[k]? = some ok := ⟨_, List.getElem?_eq_getElem hklt⟩
    obtain ⟨ck, chk, b1, b2, -⟩ := hcells ok (List.mem_of_getElem? hok)
    rw [(hblk k ok ck chk hok b1 b2).1] at hk
    cases hk
    obtain ⟨a, ha, rfl⟩ := List.mem_map.mp ha2
    have : k = i := hbi
    subst this
    rw [hi] at hok
    cases hok
    rw [cells_unique (by omega) hc b1]
    exact ⟨a, ha, rfl⟩
  have hz : ∀ a ∈ cells, a.b = 0 := by
    intro a ha
    have := (hc.1 a ha).1
    omega
  apply List.ext_getElem?
  intro r
  rw [List.getElem?_take, List.getElem?_map]
  by_cases hrl : r < o.nnum d
  · rw [if_pos hrl, List.getElem?_drop]
    obtain ⟨row, hrow⟩ : ∃ row, rows[r]? = some row := ⟨_, List.getElem?_eq_getElem (by omega)⟩
    obtain ⟨c, hcr⟩ : ∃ c, cells[r]? = some c := ⟨_, List.getElem?_eq_getElem (by omega)⟩
    have hcr' := hin r c hcr
    obtain ⟨row', hrow'⟩ : ∃ row', rows'[off + r]? = some row' := by
      have := (List.getElem?_eq_some_iff.mp hcr').1
      exact ⟨_, List.getElem?_eq_getElem (by omega)⟩
    rw [hrow, hrow']
    simp only [Option.map_some, Option.some.injEq]
    obtain ⟨l1, q1⟩ := ht r c row hcr hrow
    obtain ⟨l2, q2⟩ := ht' (off + r) _ row' hcr' hrow'
    apply List.ext_getElem?
    intro k
    rw [List.getElem?_map]
    by_cases hk : k < 27
    · obtain ⟨v, hv⟩ : ∃ v, row[k]? = some v := ⟨_, List.getElem?_eq_getElem (by omega)⟩
      obtain ⟨v', hv'⟩ : ∃ v', row'[k]? = some v' := ⟨_, List.getElem?_eq_getElem (by omega)⟩
      rw [hv, hv']
      simp only [Option.map_some, Option.some.injEq]
      exact refersTo_merged hnd' hz (List.mem_of_getElem? hcr) hin hback (q1 k v hv) (q2 k v' hv')
    · rw [List.getElem?_eq_none (by omega), List.getElem?_eq_none (by omega)]
      rfl
  · rw [if_neg hrl, List.getElem?_eq_none (by omega)]
    rfl

example : ∃ (o : Octree ℚ), Mergeable [o, o] 2 1 o.device ∧ o.nnum 2 = 16 ∧ 1 ≤ o.fullDepth := by
  obtain ⟨o, idx, _, hm, _, hn⟩ := example_mergeable
  exact ⟨o, hm, hn, by rw [hm.fullDepth o (by simp)]⟩

/-- Tables that are stale: the octree has none, although they can be built. -/
example : ∃ (o o1 : Octree ℚ), o.constructAllNeigh = .ok o1 ∧ 1 ≤ o.fullDepth ∧ 1 ≤ o.depth ∧ o.neighs 1 ≠ o1.neighs 1 := by
  obtain ⟨o, idx, _, hm, _, hn⟩ := example_mergeable
  have hd := hm.depth o (by simp)
  have hv := hm.valid o (by simp)
  have hf := hm.fullDepth o (by simp)
  have W := hv.wf'.with_neighs (fun _ => none)
  obtain ⟨nb, h1, h2⟩ := C21_neigh_exact { o with neighs := fun _ => none } (by
    have := W.valid
    rwa [← hd] at this) (by show 1 ≤ o.fullDepth; rw [hf])
  refine ⟨_, _, h1, by show 1 ≤ o.fullDepth; rw [hf], by show 1 ≤ o.depth; rw [hd]; norm_num, ?_⟩
  obtain ⟨rows, h3, _⟩ := h2 1 le_rfl (by show 1 ≤ o.depth; rw [hd]; norm_num) _ (W.cellsOf 1 (by norm_num))
  show none ≠ nb 1
  rw [h3]
  exact fun h => nomatch h

end Ocnn
