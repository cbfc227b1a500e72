import Verif.KernelLists
import Verif.PropsUtils
import Verif.DeepLemmas

/-! C152: layers that share the list of their kernel size. -/

namespace Ocnn
open Spec

namespace Spec

/-- Three sizes: the last one is repeated. -/
def threeSizes : List Nat → Option (Nat × Nat × Nat)
  | [a] => some (a, a, a)
  | [a, b] => some (a, b, b)
  | [a, b, c] => some (a, b, c)
  | _ => none

/-- The name and the number of elements of a kernel. -/
def kernelInfo (k : Nat × Nat × Nat) : String × Nat := (toString k.1 ++ toString k.2.1 ++ toString k.2.2, k.1 * k.2.1 * k.2.2)

/-- Steps of a program in which each layer has its own copy of its kernel size, and lists are changed by the program only.  The results of
constructors of lists that are too long or empty are left open. -/
inductive CopyRun : List (List Nat) → List (String × Nat) → List ListOp → List (M (String × Nat)) → Prop
  | nil (h ls) : CopyRun h ls [] []
  | new (h ls a direct l k ops rs) : h[a]? = some l → threeSizes l = some k → CopyRun h (ls ++ [kernelInfo k]) ops rs →
      CopyRun h ls (.new a direct :: ops) (.ok (kernelInfo k) :: rs)
  | use (h ls i k ops rs) : ls[i]? = some k → CopyRun h ls ops rs → CopyRun h ls (.use i :: ops) (.ok k :: rs)
  | edit (h ls a l ops rs) : CopyRun (h.set a l) ls ops rs → CopyRun h ls (.edit a l :: ops) (.ok ("", 0) :: rs)

/-- The program changes no list after it was used for a layer (`used` are the lists used so far). -/
def KeepsUsed : List Nat → List ListOp → Prop
  | _, [] => True
  | used, .new a _ :: ops => KeepsUsed (a :: used) ops
  | used, .use _ :: ops => KeepsUsed used ops
  | used, .edit a _ :: ops => a ∉ used ∧ KeepsUsed used ops

end Spec

theorem resize_three (l : List Nat) (a b c : Nat) (h : threeSizes l = some (a, b, c)) : resizeWithLastVal l 3 = .ok [a, b, c] := by
  unfold threeSizes at h
  split at h <;> cases h <;> rfl

theorem init_object (h : ListHeap) (a : Nat) (direct : Bool) (l : List Nat) (hl : h[a]? = some l) (k : Nat × Nat × Nat) (hk : threeSizes l = some k) :
    KernelLayer.init h a direct = .ok (h.set a [k.1, k.2.1, k.2.2], ⟨a, (kernelInfo k).1, (kernelInfo k).2, direct⟩) := by
  obtain ⟨x, y, z⟩ := k
  unfold KernelLayer.init resizeObject
  rw [getIdx_of_getElem? hl]
  simp only [bind, Except.bind, pure, Except.pure]
  rw [resize_three l x y z hk]
  have e0 : getIdx [x, y, z] 0 = .ok x := getIdx_of_getElem? (j := 0) rfl
  have e1 : getIdx [x, y, z] 1 = .ok y := getIdx_of_getElem? (j := 1) rfl
  have e2 : getIdx [x, y, z] 2 = .ok z := getIdx_of_getElem? (j := 2) rfl
  dsimp only
  rw [e0, e1, e2]
  simp [kernelInfo, list2str, String.join]

/-- The states of the two programs: the lists agree up to repeated last entries, and each layer holds its own kernel. -/
structure SameLists (used : List Nat) (h h' : ListHeap) (ls : List KernelLayer) (ls' : List (String × Nat)) : Prop where
  len : h.length = h'.length
  lists : ∀ (a : Nat) (l l' : List Nat), h[a]? = some l → h'[a]? = some l' → l = l' ∨ (threeSizes l = threeSizes l' ∧ (threeSizes l').isSome)
  count : ls.length = ls'.length
  layers : ∀ (i : Nat) (l : KernelLayer), ls[i]? = some l → l.addr ∈ used ∧ ls'[i]? = some (l.kernel, l.kdim) ∧
    ∃ x y z, h[l.addr]? = some [x, y, z] ∧ kernelInfo (x, y, z) = (l.kernel, l.kdim)

theorem same_three {used : List Nat} {h h' : ListHeap} {ls ls'} (s : SameLists used h h' ls ls') (a : Nat) (l' : List Nat) (k)
    (hl : h'[a]? = some l') (hk : threeSizes l' = some k) : ∃ l, h[a]? = some l ∧ threeSizes l = some k := by
  obtain ⟨hlt, -⟩ := List.getElem?_eq_some_iff.mp hl
  have hlt2 : a < h.length := by rw [s.len]; exact hlt
  refine ⟨h[a], List.getElem?_eq_getElem hlt2, ?_⟩
  rcases s.lists a _ _ (List.getElem?_eq_getElem hlt2) hl with e | e
  · rw [e, hk]
  · rw [e.1, hk]

/-- Writing the three sizes into a list object keeps the relation. -/
theorem same_resize {used : List Nat} {h h' : ListHeap} {ls ls'} (s : SameLists used h h' ls ls') (a : Nat) (l : List Nat) (k : Nat × Nat × Nat)
    (hl : h[a]? = some l) (hk : threeSizes l = some k) : SameLists used (h.set a [k.1, k.2.1, k.2.2]) h' ls ls' := by
  obtain ⟨x, y, z⟩ := k
  refine ⟨by rw [List.length_set]; exact s.len, ?_, s.count, ?_⟩
  · intro b m m' hm hm'
    by_cases hab : a = b
    · subst hab
      rw [List.getElem?_set_self (List.getElem?_eq_some_iff.mp hl).1] at hm
      cases hm
      refine .inr ?_
      rcases s.lists a _ _ hl hm' with e | e
      · subst e
        rw [hk]
        exact ⟨rfl, rfl⟩
      · rw [← e.1, hk]
        exact ⟨rfl, rfl⟩
    · rw [List.getElem?_set_ne hab] at hm
      exact s.lists b m m' hm hm'
  · intro i la hla
    obtain ⟨h1, h2, p, q, r, h3, h4⟩ := s.layers i la hla
    refine ⟨h1, h2, ?_⟩
    by_cases hab : a = la.addr
    · subst hab
      rw [hl] at h3
      cases h3
      cases hk
      exact ⟨x, y, z, by rw [List.getElem?_set_self (List.getElem?_eq_some_iff.mp hl).1], h4⟩
    · exact ⟨p, q, r, by rw [List.getElem?_set_ne hab]; exact h3, h4⟩

theorem run_copy (ops : List ListOp) : ∀ (used : List Nat) (h h' : ListHeap) (ls : List KernelLayer) (ls' : List (String × Nat))
    (rs : List (M (String × Nat))), SameLists used h h' ls ls' → KeepsUsed used ops → CopyRun h' ls' ops rs → listRun (h, ls) ops = rs := by
  induction ops with
  | nil => intro used h h' ls ls' rs s hu hc; cases hc; rfl
  | cons op ops ih =>
    intro used h h' ls ls' rs s hu hc
    cases hc with
    | new _ _ a direct l' k _ rs hl hk hc =>
      obtain ⟨l, h1, h2⟩ := same_three s a l' k hl hk
      have e := init_object h a direct l h1 k h2
      have s' := same_resize s a l k h1 h2
      show (listStep (h, ls) (.new a direct)).2 :: listRun (listStep (h, ls) (.new a direct)).1 ops = _
      unfold listStep
      simp only [e]
      congr 1
      refine ih (a :: used) _ h' _ _ rs ?_ hu hc
      refine ⟨s'.len, s'.lists, by simp [s.count], ?_⟩
      intro i la hla
      rw [List.getElem?_append] at hla
      rw [List.getElem?_append, ← s.count]
      by_cases hi : i < ls.length
      · rw [if_pos hi] at hla ⊢
        obtain ⟨g1, g2, g3⟩ := s'.layers i la hla
        exact ⟨List.mem_cons_of_mem _ g1, g2, g3⟩
      · rw [if_neg hi] at hla ⊢
        rcases Nat.eq_zero_or_pos (i - ls.length) with h0 | h0
        · rw [h0] at hla ⊢
          cases hla
          exact ⟨List.mem_cons_self, rfl, _, _, _, by rw [List.getElem?_set_self (List.getElem?_eq_some_iff.mp h1).1], rfl⟩
        · rw [List.getElem?_eq_none (by simp; omega)] at hla
          cases hla
    | use _ _ i k _ rs hk hc =>
      have hi : i < ls.length := by rw [s.count]; exact (List.getElem?_eq_some_iff.mp hk).1
      obtain ⟨g1, g2, x, y, z, g3, g4⟩ := s.layers i _ (List.getElem?_eq_getElem hi)
      rw [hk] at g2
      cases g2
      show (listStep (h, ls) (.use i)).2 :: listRun (listStep (h, ls) (.use i)).1 ops = _
      unfold listStep
      simp only [List.getElem?_eq_getElem hi]
      unfold KernelLayer.use
      by_cases hd : ls[i].direct
      · rw [if_pos hd]
        simp only [pure, Except.pure]
        congr 1
        exact ih used h h' ls ls' rs s hu hc
      · rw [if_neg hd]
        rw [init_object h _ _ _ g3 (x, y, z) rfl]
        simp only [bind, Except.bind, pure, Except.pure]
        rw [g4]
        congr 1
        exact ih used _ h' ls ls' rs (same_resize s _ _ (x, y, z) g3 rfl) hu hc
    | edit _ _ a l _ rs hc =>
      obtain ⟨ha, hu⟩ := hu
      show (listStep (h, ls) (.edit a l)).2 :: listRun (listStep (h, ls) (.edit a l)).1 ops = _
      unfold listStep
      dsimp only
      congr 1
      refine ih used _ _ ls ls' rs ⟨by rw [List.length_set, List.length_set]; exact s.len, ?_, s.count, ?_⟩ hu hc
      · intro b m m' hm hm'
        by_cases hab : a = b
        · subst hab
          rw [List.getElem?_set] at hm hm'
          simp only [if_true] at hm hm'
          split at hm
          · split at hm'
            · cases hm; cases hm'; exact .inl rfl
            · cases hm'
          · cases hm
        · rw [List.getElem?_set_ne hab] at hm hm'
          exact s.lists b m m' hm hm'
      · intro i la hla
        obtain ⟨g1, g2, x, y, z, g3, g4⟩ := s.layers i la hla
        have hne : a ≠ la.addr := by rintro rfl; exact ha g1
        exact ⟨g1, g2, x, y, z, by rw [List.getElem?_set_ne hne]; exact g3, g4⟩

/-- **C152**, restricted to programs that do not change a list after they passed it to a layer: constructing and running layers in any order, with
default arguments and lists shared between layers, every layer has the kernel size that its list had when it was constructed. -/
theorem C152_partial (h : ListHeap) (ops : List ListOp) (rs : List (M (String × Nat))) (hu : KeepsUsed [] ops) (hc : CopyRun h [] ops rs) :
    listRun (h, []) ops = rs :=
  run_copy ops [] h h [] [] rs ⟨rfl, fun a l l' hl hl' => .inl (by rw [hl] at hl'; exact Option.some.inj hl'), rfl, by simp⟩ hu hc

/-- The default list and a list of the user, each used for several layers. -/
example : ∃ rs, KeepsUsed [] [.new 0 false, .new 1 true, .edit 2 [1], .new 0 true, .use 0, .use 2, .new 2 false, .use 3] ∧
    CopyRun [[3], [3, 1], [5]] [] [.new 0 false, .new 1 true, .edit 2 [1], .new 0 true, .use 0, .use 2, .new 2 false, .use 3] rs := by
  refine ⟨[.ok (kernelInfo (3, 3, 3)), .ok (kernelInfo (3, 1, 1)), .ok ("", 0), .ok (kernelInfo (3, 3, 3)), .ok (kernelInfo (3, 3, 3)),
    .ok (kernelInfo (3, 3, 3)), .ok (kernelInfo (1, 1, 1)), .ok (kernelInfo (1, 1, 1))], by simp [KeepsUsed], ?_⟩
  refine .new _ _ _ _ [3] (3, 3, 3) _ _ rfl rfl ?_
  refine .new _ _ _ _ [3, 1] (3, 1, 1) _ _ rfl rfl ?_
  refine .edit _ _ _ _ _ _ ?_
  refine .new _ _ _ _ [3] (3, 3, 3) _ _ rfl rfl ?_
  refine .use _ _ _ (kernelInfo (3, 3, 3)) _ _ rfl ?_
  refine .use _ _ _ (kernelInfo (3, 3, 3)) _ _ rfl ?_
  refine .new _ _ _ _ [1] (1, 1, 1) _ _ rfl rfl ?_
  refine .use _ _ _ (kernelInfo (1, 1, 1)) _ _ rfl ?_
  exact .nil _ _

/-- **C152 is violated**: changing the list afterwards changes the kernel of the layer, and the constructor extends the list of the caller. -/
theorem C152_violated : ∃ (h : ListHeap) (ops : List ListOp) (rs : List (M (String × Nat))), CopyRun h [] ops rs ∧ listRun (h, []) ops ≠ rs ∧
    listHeap (h, []) [.new 0 false] ≠ h := by
  refine ⟨[[3]], [.new 0 false, .edit 0 [1], .use 0], _, .new _ _ _ _ [3] (3, 3, 3) _ _ rfl rfl (.edit _ _ _ _ _ _
    (.use _ _ _ (kernelInfo (3, 3, 3)) _ _ rfl (.nil _ _))), by decide +kernel, by decide +kernel⟩

/-- What happens in the example: the layer with the 27 weights of a 3x3x3 kernel looks for one neighbour. -/
example : listRun ([[3]], []) [.new 0 false, .edit 0 [1], .use 0] = [.ok ("333", 27), .ok ("", 0), .ok ("111", 1)] ∧
    listRun ([[3]], []) [.new 0 true, .edit 0 [1], .use 0] = [.ok ("333", 27), .ok ("", 0), .ok ("333", 27)] := by decide +kernel

end Ocnn
