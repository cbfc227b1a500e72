import Verif.HeapMerge
import Verif.PropsConv

/-! Property C25: queries do not modify the octree. -/

set_option linter.unusedSimpArgs false

namespace Ocnn
variable {F : Type}

/-- Every tensor that exists on `h` has the same value on `h'`. -/
def Spec.Unchanged (h h' : Heap) : Prop := h.next ≤ h'.next ∧ ∀ v : View, v.sid < h.next → h'.read v = h.read v

theorem Ext.unchanged {h h' : Heap} (he : Ext h.next h h') : Spec.Unchanged h h' :=
  ⟨he.next, fun v hv => he.read v hv⟩

/-- `get_neigh` leaves all existing tensors unchanged, also if it raises, and returns the value the code computes without
aliasing. -/
theorem C25_get_neigh {encF : F → List Int} {encV : V3 ℚ → List Int} {h : Heap} {H : HOctree} {o : Octree F}
    (hr : Represents encF encV h H o) (d : Nat) (kernel : String) (stride : Nat) (nempty : Bool) :
    Spec.Unchanged h (runH (H.getNeigh d kernel stride nempty) h).2 ∧
    Match (fun v rows => (runH (H.getNeigh d kernel stride nempty) h).2.read v = rows)
      (runH (H.getNeigh d kernel stride nempty) h).1 (o.getNeigh d kernel stride nempty) := by
  obtain ⟨h1, h2⟩ := sim_getNeigh hr d kernel stride nempty
  exact ⟨h1.unchanged, match_mono h2 fun a b h => h.1⟩

/-- The result of `get_neigh` is the octree's own tensor for stride 1, `nempty = False` and kernel 333, and a new tensor in all other
cases. -/
theorem C25_alias {encF : F → List Int} {encV : V3 ℚ → List Int} {h : Heap} {H : HOctree} {o : Octree F}
    (hr : Represents encF encV h H o) (d : Nat) (kernel : String) (stride : Nat) (nempty : Bool) (v : View)
    (hv : (runH (H.getNeigh d kernel stride nempty) h).1 = .ok v) :
    (stride = 1 ∧ nempty = false ∧ kernel = "333" → H.neighs d = some v ∧ v.sid < h.next) ∧
    (¬ (stride = 1 ∧ nempty = false ∧ kernel = "333") → h.next ≤ v.sid) := by
  obtain ⟨h1, h2⟩ := sim_getNeigh hr d kernel stride nempty
  rw [hv] at h2
  revert h2
  rcases hg : o.getNeigh d kernel stride nempty with x | rows <;> intro h2
  · exact h2.elim
  obtain ⟨_, _, h3, h4⟩ := h2
  refine ⟨fun hc => ⟨h3 hc, ?_⟩, h4⟩
  have hd : d ≤ o.depth := by
    by_contra hd
    obtain ⟨rfl, _⟩ := hc
    simp [Octree.getNeigh, Octree.chk, hd, bind, Except.bind] at hg
  have := hr.neighs d hd
  rw [h3 hc] at this
  rcases hx : o.neighs d with _ | x <;> rw [hx] at this
  · exact this.elim
  · exact this.1

/-- `search_key` leaves all existing tensors unchanged, the queries included, even if the queries are a tensor of the octree. -/
theorem C25_search_key {encF : F → List Int} {encV : V3 ℚ → List Int} {h : Heap} {H : HOctree} {o : Octree F}
    (hr : Represents encF encV h H o) (qv : View) (q : List Nat)
    (hq : Holds h (some qv) (some (column (q.map fun (k : Nat) => (k : Int))))) (d : Nat) (nempty : Bool) :
    Spec.Unchanged h (runH (H.searchKey qv d nempty) h).2 ∧
    Match (fun v idx => (runH (H.searchKey qv d nempty) h).2.read v = column idx ∧ h.next ≤ v.sid)
      (runH (H.searchKey qv d nempty) h).1 (o.searchKey q d nempty) := by
  obtain ⟨h1, h2⟩ := sim_searchKey hr qv q hq d nempty
  exact ⟨h1.unchanged, match_mono h2 fun a b h => ⟨h.1, h.2.2⟩⟩

/-- `merge_octrees` leaves all existing tensors unchanged, and the merged octree shares no tensor with its inputs. -/
theorem C25_merge {encF : F → List Int} {encV : V3 ℚ → List Int} {h : Heap} {Hs : List HOctree} {os : List (Octree F)}
    (hl : List.Forall₂ (Represents encF encV h) Hs os) (hlen : os.length ≤ 2 ^ 15) :
    Spec.Unchanged h (runH (HOctree.merge Hs) h).2 ∧
    Match (fun H o => Represents encF encV (runH (HOctree.merge Hs) h).2 H o ∧ ∀ v, Owns H v → h.next ≤ v.sid)
      (runH (HOctree.merge Hs) h).1 (Octree.merge os) := by
  obtain ⟨h1, h2⟩ := sim_merge hl hlen
  exact ⟨h1.unchanged, h2⟩

/-- A call of one of the functions on some octrees. -/
inductive Query where
  | getNeigh (i d : Nat) (kernel : String) (stride : Nat) (nempty : Bool)
  | key (i d : Nat) (nempty : Bool)
  | searchKey (i : Nat) (query : List Nat) (d : Nat) (nempty : Bool)
  | merge (idx : List Nat)

/-- The heap after a call on the octrees `Hs`; octrees that do not exist are not called.  The queries are a new tensor. -/
def Query.exec (Hs : List HOctree) (h : Heap) : Query → Heap
  | .getNeigh i d kernel stride nempty => match Hs[i]? with
    | some H => (runH (H.getNeigh d kernel stride nempty) h).2
    | none => h
  | .key i d nempty => match Hs[i]? with
    | some H => (runH (H.key d nempty) h).2
    | none => h
  | .searchKey i query d nempty => match Hs[i]? with
    | some H => (runH (alloc (column (query.map fun (k : Nat) => (k : Int))) >>= fun q => H.searchKey q d nempty) h).2
    | none => h
  | .merge idx => (runH (HOctree.merge (idx.filterMap fun i => Hs[i]?)) h).2

theorem forall₂_getElem? {α β : Type} {R : α → β → Prop} {l : List α} {l' : List β} (h : List.Forall₂ R l l') (i : Nat) :
    (l[i]? = none ∧ l'[i]? = none) ∨ ∃ a b, l[i]? = some a ∧ l'[i]? = some b ∧ R a b := by
  induction h generalizing i with
  | nil => simp
  | cons h1 h2 ih =>
    cases i with
    | zero => exact .inr ⟨_, _, rfl, rfl, h1⟩
    | succ i => simpa using ih i

theorem exec_ext {encF : F → List Int} {encV : V3 ℚ → List Int} {h : Heap} {Hs : List HOctree} {os : List (Octree F)}
    (hl : List.Forall₂ (Represents encF encV h) Hs os) (q : Query) (hq : ∀ idx, q = .merge idx → idx.length ≤ 2 ^ 15) :
    Ext h.next h (q.exec Hs h) := by
  cases q with
  | getNeigh i d kernel stride nempty =>
    unfold Query.exec
    rcases forall₂_getElem? hl i with ⟨h1, _⟩ | ⟨H, o, h1, _, hr⟩ <;> simp only [h1]
    · exact Ext.refl _ _
    · exact (sim_getNeigh hr d kernel stride nempty).1
  | key i d nempty =>
    unfold Query.exec
    rcases forall₂_getElem? hl i with ⟨h1, _⟩ | ⟨H, o, h1, _, hr⟩ <;> simp only [h1]
    · exact Ext.refl _ _
    · exact (sim_key hr d nempty).1
  | searchKey i query d nempty =>
    unfold Query.exec
    rcases forall₂_getElem? hl i with ⟨h1, _⟩ | ⟨H, o, h1, _, hr⟩ <;> simp only [h1]
    · exact Ext.refl _ _
    · refine (sim_allocL (e := o.searchKey query d nempty) (R := fun _ _ _ => True) (le_refl _) ?_).1
      intro v h2 he hv hf
      exact (sim_searchKey (hr.ext he) v query ⟨hf.live, hf.read⟩ d nempty).mono he.next fun _ _ _ _ _ => trivial
  | merge idx =>
    unfold Query.exec
    have h1 : ∀ idx : List Nat, List.Forall₂ (Represents encF encV h) (idx.filterMap fun i => Hs[i]?)
        (idx.filterMap fun i => os[i]?) := by
      intro idx
      induction idx with
      | nil => exact .nil
      | cons i idx ih =>
        rcases forall₂_getElem? hl i with ⟨h1, h2⟩ | ⟨H, o, h1, h2, hr⟩ <;> simp only [List.filterMap_cons, h1, h2]
        · exact ih
        · exact .cons hr ih
    exact (sim_merge (h1 idx) ((List.length_filterMap_le _ _).trans (hq idx rfl))).1

/-- Any sequence of such calls, whether they succeed or raise, leaves all octrees unchanged. -/
theorem C25_history {encF : F → List Int} {encV : V3 ℚ → List Int} {Hs : List HOctree} {os : List (Octree F)} (qs : List Query)
    (hq : ∀ idx, Query.merge idx ∈ qs → idx.length ≤ 2 ^ 15) (h : Heap)
    (hl : List.Forall₂ (Represents encF encV h) Hs os) :
    Spec.Unchanged h (qs.foldl (Query.exec Hs) h) ∧
      List.Forall₂ (Represents encF encV (qs.foldl (Query.exec Hs) h)) Hs os := by
  suffices Ext h.next h (qs.foldl (Query.exec Hs) h) from
    ⟨this.unchanged, hl.imp fun H o hr => hr.ext this⟩
  induction qs generalizing h with
  | nil => exact Ext.refl _ _
  | cons q qs ih =>
    have h1 := exec_ext hl q fun idx hi => hq idx (by rw [hi]; simp)
    have h2 := ih (fun idx hi => hq idx (List.mem_cons_of_mem _ hi)) (q.exec Hs h) (hl.imp fun H o hr => hr.ext h1)
    exact h1.trans (h2.mono h1.next)

/-- Every octree can be stored on a heap. -/
theorem C25_storable (encF : F → List Int) (encV : V3 ℚ → List Int) (o : Octree F) : ∃ h H, Represents encF encV h H o := by
  let rows : Nat → Nat → Option (List (List Int)) := fun c d => match c with
    | 0 => (o.keys d).map fun l => column (l.map fun (k : Nat) => (k : Int))
    | 1 => (o.children d).map column
    | 2 => o.neighs d
    | 3 => (o.features d).map fun l => l.map encF
    | 4 => (o.normals d).map fun l => l.map encV
    | 5 => (o.points d).map fun l => l.map encV
    | 6 => some (column ((List.range (o.depth + 1)).map fun d => (o.nnum d : Int)))
    | 7 => some (column ((List.range (o.depth + 1)).map fun d => (o.nnumNempty d : Int)))
    | 8 => some ((List.range (o.depth + 1)).map fun d => (o.batchNnum d).map fun (k : Nat) => (k : Int))
    | _ => some ((List.range (o.depth + 1)).map fun d => (o.batchNnumNempty d).map fun (k : Nat) => (k : Int))
  let h : Heap := ⟨10 * o.depth + 10, fun s => (rows (s % 10) (s / 10)).getD []⟩
  let slot : Nat → Nat → Option View := fun c d => (rows c d).map fun r => ⟨10 * d + c, List.range r.length⟩
  have hs : ∀ c d, c < 10 → d ≤ o.depth → Holds h (slot c d) (rows c d) := by
    intro c d hc hd
    simp only [slot]
    rcases hrw : rows c d with _ | r
    · trivial
    · have hm : (10 * d + c) % 10 = c := by omega
      have hdv : (10 * d + c) / 10 = d := by omega
      have : Full h ⟨10 * d + c, List.range r.length⟩ r :=
        ⟨by simp only [h]; omega, by simp only [h, hm, hdv, hrw, Option.getD_some], rfl⟩
      exact ⟨this.live, this.read⟩
  refine ⟨h, ⟨o.depth, o.fullDepth, o.batchSize, o.device, slot 0, slot 1, slot 2, slot 3, slot 4, slot 5,
    (slot 6 0).getD ⟨0, []⟩, (slot 7 0).getD ⟨0, []⟩, (slot 8 0).getD ⟨0, []⟩, (slot 9 0).getD ⟨0, []⟩⟩, ?_⟩
  exact { depth := rfl, fullDepth := rfl, batchSize := rfl, device := rfl
          keys := fun d hd => hs 0 d (by omega) hd
          children := fun d hd => hs 1 d (by omega) hd
          neighs := fun d hd => hs 2 d (by omega) hd
          features := fun d hd => hs 3 d (by omega) hd
          normals := fun d hd => hs 4 d (by omega) hd
          points := fun d hd => hs 5 d (by omega) hd
          nnum := hs 6 0 (by omega) (by omega)
          nnumNempty := hs 7 0 (by omega) (by omega)
          batchNnum := hs 8 0 (by omega) (by omega)
          batchNnumNempty := hs 9 0 (by omega) (by omega) }

/-- The example octree on a heap: the calls succeed, the second one on the tensors left by the first one. -/
example : ∃ (h : Heap) (H : HOctree) (o : Octree Unit), Represents (fun _ => [0]) (fun _ => [0, 0, 0]) h H o ∧
    o.Valid 2 ∧ o.nnum 2 = 16 ∧
    Spec.Unchanged h (Query.exec [H] (Query.exec [H] h (.getNeigh 0 2 "333" 1 true)) (.merge [0, 0])) := by
  obtain ⟨o, h1, _, _, _, h2, _⟩ := example_valid'
  obtain ⟨h, H, hr⟩ := C25_storable (fun _ => [0]) (fun _ => [0, 0, 0]) o
  exact ⟨h, H, o, hr, h1, h2, (C25_history [.getNeigh 0 2 "333" 1 true, .merge [0, 0]] (by simp) h (.cons hr .nil)).1⟩

end Ocnn
