import Verif.RunningStats
import Mathlib.Data.List.Nodup
import Mathlib.Tactic.Ring
import Mathlib.Tactic.Linarith

/-! Helper lemmas for C167. -/

namespace Ocnn
namespace Stat
variable {F : Type}

/-- The updates by a list of batch normalizations: names and inputs. -/
def runAll (s : RunStats) (L : List (String × Tensor)) : RunStats := L.foldl (fun s x => s.update x.1 x.2) s

theorem runAll_append (s : RunStats) (L L' : List (String × Tensor)) : runAll s (L ++ L') = runAll (runAll s L) L' := List.foldl_append

/-- The computation returns `a` and makes the updates `L`, whatever the buffers. -/
def Does {α : Type} (p : Tr α) (a : α) (L : List (String × Tensor)) : Prop := ∀ s, p s = .ok (a, runAll s L)

theorem Does.bind {α β : Type} {p : Tr α} {q : α → Tr β} {a : α} {b : β} {L L' : List (String × Tensor)} (h : Does p a L) (h' : Does (q a) b L') :
    Does (p >>= q) b (L ++ L') := by
  intro s
  have : (p >>= q) s = (p s >>= fun r => q r.1 r.2) := rfl
  rw [this, h s, runAll_append, ← h' (runAll s L)]
  rfl

theorem Does.pure {α : Type} (a : α) : Does (Pure.pure a : Tr α) a [] := fun _ => rfl

theorem Does.layer {x : M Tensor} {y : Tensor} (h : x = .ok y) : Does (plainLayer x) y [] := by
  subst h
  exact fun _ => rfl

theorem Does.lift {α : Type} {x : M α} {y : α} (h : x = .ok y) : Does (liftM x : Tr α) y [] := by
  subst h
  exact fun _ => rfl

/-- The computation returns what `x` returns or raises what `x` raises. -/
def Vals {α : Type} (p : Tr α) (x : M α) : Prop := ∀ s, (p s).map Prod.fst = x

theorem Vals.bind {α β : Type} {p : Tr α} {q : α → Tr β} {x : M α} {g : α → M β} (h : Vals p x) (h' : ∀ a, Vals (q a) (g a)) :
    Vals (p >>= q) (x >>= g) := by
  intro s
  have : (p >>= q) s = (p s >>= fun r => q r.1 r.2) := rfl
  rw [this, ← h s]
  cases p s with
  | error e => rfl
  | ok r => exact h' r.1 r.2

theorem Vals.pure {α : Type} (a : α) : Vals (Pure.pure a : Tr α) (Pure.pure a) := fun _ => rfl

theorem Vals.layer (x : M Tensor) : Vals (plainLayer x) x := by
  intro s
  cases x <;> rfl

theorem Vals.lift {α : Type} (x : M α) : Vals (liftM x : Tr α) x := by
  intro s
  cases x <;> rfl

/-- From the buffers `s`, the computation returns what `x` returns or raises what `x` raises, and does not change the buffers. -/
def Still {α : Type} (s : RunStats) (p : Tr α) (x : M α) : Prop := p s = x.map fun a => (a, s)

theorem Still.bind {α β : Type} {s : RunStats} {p : Tr α} {q : α → Tr β} {x : M α} {g : α → M β} (h : Still s p x) (h' : ∀ a, Still s (q a) (g a)) :
    Still s (p >>= q) (x >>= g) := by
  have : (p >>= q) s = (p s >>= fun r => q r.1 r.2) := rfl
  unfold Still at *
  rw [this, h]
  cases x with
  | error e => rfl
  | ok r => exact h' r

theorem Still.pure {α : Type} {s : RunStats} (a : α) : Still s (Pure.pure a : Tr α) (Pure.pure a) := rfl

theorem Still.layer {s : RunStats} (x : M Tensor) : Still s (plainLayer x) x := by
  cases x <;> rfl

theorem Still.lift {α : Type} {s : RunStats} (x : M α) : Still s (liftM x : Tr α) x := by
  cases x <;> rfl

variable {P : Params}

theorem bn_training (hP : P.training = true) (s : RunStats) (name : String) (c : Nat) (t : Tensor) :
    batchNorm (P.withStats s) name c t = batchNorm P name c t := by
  unfold batchNorm Params.withStats
  simp [hP]

theorem does_bn (hP : P.training = true) {name : String} {c : Nat} {t y : Tensor} (h : batchNorm P name c t = .ok y) :
    Does (batchNormS P name c t) y [(name, t)] := by
  intro s
  unfold batchNormS
  rw [bn_training hP, h, if_pos hP]
  rfl

theorem vals_bn (hP : P.training = true) (name : String) (c : Nat) (t : Tensor) : Vals (batchNormS P name c t) (batchNorm P name c t) := by
  intro s
  unfold batchNormS
  rw [bn_training hP]
  cases batchNorm P name c t <;> rfl

theorem still_bn (hP : P.training = false) (s : RunStats) (name : String) (c : Nat) (t : Tensor) :
    Still s (batchNormS P name c t) (batchNorm (P.withStats s) name c t) := by
  unfold Still batchNormS
  rw [if_neg (by rw [hP]; decide)]
  cases batchNorm (P.withStats s) name c t <;> rfl

section
variable (hP : P.training = true) (name : String) (ci co bottleneck : Nat) (nempty : Bool) (o : Octree F) (d : Nat) (t : Tensor)
include hP

theorem vals_convBn : Vals (convBnS P name ci co nempty o d t) (convBn P name ci co [3] 1 nempty o d t) :=
  (Vals.layer _).bind fun _ => vals_bn hP _ _ _

theorem vals_convBnRelu : Vals (convBnReluS P name ci co nempty o d t) (convBnRelu P name ci co [3] 1 nempty o d t) :=
  (Vals.layer _).bind fun _ => (vals_bn hP _ _ _).bind fun _ => Vals.pure _

theorem vals_conv1x1Bn : Vals (conv1x1BnS P name ci co t) (conv1x1Bn P name ci co t) :=
  (Vals.layer _).bind fun _ => vals_bn hP _ _ _

theorem vals_conv1x1BnRelu : Vals (conv1x1BnReluS P name ci co t) (conv1x1BnRelu P name ci co t) :=
  (Vals.layer _).bind fun _ => (vals_bn hP _ _ _).bind fun _ => Vals.pure _

theorem vals_resBlock : Vals (resBlockS P name ci co bottleneck nempty o d t) (resBlock P name ci co 1 bottleneck nempty o d t) := by
  refine (Vals.lift _).bind fun cb => (vals_conv1x1BnRelu hP _ _ _ _).bind fun c1 => (vals_convBnRelu hP _ _ _ _ _ _ _).bind fun c2 =>
    (vals_conv1x1Bn hP _ _ _ _).bind fun c3 => Vals.bind ?_ fun _ => (Vals.layer _).bind fun _ => Vals.pure _
  split
  · exact vals_conv1x1Bn hP _ _ _ _
  · exact Vals.pure _

theorem vals_resBlock2 : Vals (resBlock2S P name ci co bottleneck nempty o d t) (resBlock2 P name ci co 1 bottleneck nempty o d t) := by
  refine (Vals.lift _).bind fun cb => (vals_convBnRelu hP _ _ _ _ _ _ _).bind fun c1 =>
    (vals_convBn hP _ _ _ _ _ _ _).bind fun c3 => Vals.bind ?_ fun _ => (Vals.layer _).bind fun _ => Vals.pure _
  split
  · exact vals_conv1x1Bn hP _ _ _ _
  · exact Vals.pure _

end

theorem vals_block (hP : P.training = true) (kind : BlockKind) (name : String) (ci co bottleneck : Nat) (nempty : Bool) (o : Octree F) (d : Nat) (t : Tensor)
    (i : Nat) : Vals (blockS P kind name ci co bottleneck nempty o d t i) (resStep P kind name ci co bottleneck nempty o d t i) := by
  cases kind with
  | block => exact vals_resBlock hP _ _ _ _ _ _ _ _
  | block2 => exact vals_resBlock2 hP _ _ _ _ _ _ _ _

section
variable (hP : P.training = false) (s : RunStats) (name : String) (ci co bottleneck : Nat) (nempty : Bool) (o : Octree F) (d : Nat) (t : Tensor)
include hP

theorem still_convBn : Still s (convBnS P name ci co nempty o d t) (convBn (P.withStats s) name ci co [3] 1 nempty o d t) :=
  (Still.layer _).bind fun _ => still_bn hP _ _ _ _

theorem still_convBnRelu : Still s (convBnReluS P name ci co nempty o d t) (convBnRelu (P.withStats s) name ci co [3] 1 nempty o d t) :=
  (Still.layer _).bind fun _ => (still_bn hP _ _ _ _).bind fun _ => Still.pure _

theorem still_conv1x1Bn : Still s (conv1x1BnS P name ci co t) (conv1x1Bn (P.withStats s) name ci co t) :=
  (Still.layer _).bind fun _ => still_bn hP _ _ _ _

theorem still_conv1x1BnRelu : Still s (conv1x1BnReluS P name ci co t) (conv1x1BnRelu (P.withStats s) name ci co t) :=
  (Still.layer _).bind fun _ => (still_bn hP _ _ _ _).bind fun _ => Still.pure _

theorem still_resBlock : Still s (resBlockS P name ci co bottleneck nempty o d t) (resBlock (P.withStats s) name ci co 1 bottleneck nempty o d t) := by
  refine (Still.lift _).bind fun cb => (still_conv1x1BnRelu hP _ _ _ _ _).bind fun c1 => (still_convBnRelu hP _ _ _ _ _ _ _ _).bind fun c2 =>
    (still_conv1x1Bn hP _ _ _ _ _).bind fun c3 => Still.bind ?_ fun _ => (Still.layer _).bind fun _ => Still.pure _
  split
  · exact still_conv1x1Bn hP _ _ _ _ _
  · exact Still.pure _

theorem still_resBlock2 : Still s (resBlock2S P name ci co bottleneck nempty o d t) (resBlock2 (P.withStats s) name ci co 1 bottleneck nempty o d t) := by
  refine (Still.lift _).bind fun cb => (still_convBnRelu hP _ _ _ _ _ _ _ _).bind fun c1 =>
    (still_convBn hP _ _ _ _ _ _ _ _).bind fun c3 => Still.bind ?_ fun _ => (Still.layer _).bind fun _ => Still.pure _
  split
  · exact still_conv1x1Bn hP _ _ _ _ _
  · exact Still.pure _

end

theorem still_block (hP : P.training = false) (s : RunStats) (kind : BlockKind) (name : String) (ci co bottleneck : Nat) (nempty : Bool) (o : Octree F) (d : Nat)
    (t : Tensor) (i : Nat) : Still s (blockS P kind name ci co bottleneck nempty o d t i) (resStep (P.withStats s) kind name ci co bottleneck nempty o d t i) := by
  cases kind with
  | block => exact still_resBlock hP _ _ _ _ _ _ _ _ _
  | block2 => exact still_resBlock2 hP _ _ _ _ _ _ _ _ _

theorem ok_of_bind {α β : Type} {x : M α} {f : α → M β} {b : β} (h : x >>= f = .ok b) : ∃ a, x = .ok a ∧ f a = .ok b := by
  cases x with
  | error e => cases h
  | ok a => exact ⟨a, rfl, h⟩

theorem bn_width {name : String} {c : Nat} {t y : Tensor} (h : batchNorm P name c t = .ok y) : t.width = c := by
  unfold batchNorm Tensor.on Tensor.as at h
  split at h
  · assumption
  · cases h

end Stat

namespace Spec
variable {F : Type}

/-- The batch normalizations of a block of `OctreeResBlocks` with their inputs: every one of them follows a convolution. -/
def bnInputs (P : Params) (kind : BlockKind) (name : String) (ci co bottleneck : Nat) (nempty : Bool) (o : Octree F) (d : Nat)
    (t : Tensor) : M (List (String × Tensor)) := do
  let cb ← bottleneckChannels co bottleneck
  match kind with
  | .block =>
    let a ← conv1x1 P (name ++ ".conv1x1a" ++ ".conv") ci cb false t
    let a' ← conv1x1BnRelu P (name ++ ".conv1x1a") ci cb t
    let b ← octreeConv P (name ++ ".conv3x3" ++ ".conv") cb cb [3] 1 nempty o d a'
    let b' ← convBnRelu P (name ++ ".conv3x3") cb cb [3] 1 nempty o d a'
    let c ← conv1x1 P (name ++ ".conv1x1b" ++ ".conv") cb co false b'
    let main := [(name ++ ".conv1x1a" ++ ".bn", a), (name ++ ".conv3x3" ++ ".bn", b), (name ++ ".conv1x1b" ++ ".bn", c)]
    if ci = co then pure main
    else do
      let e ← conv1x1 P (name ++ ".conv1x1c" ++ ".conv") ci co false t
      pure (main ++ [(name ++ ".conv1x1c" ++ ".bn", e)])
  | .block2 =>
    let a ← octreeConv P (name ++ ".conv3x3a" ++ ".conv") ci cb [3] 1 nempty o d t
    let a' ← convBnRelu P (name ++ ".conv3x3a") ci cb [3] 1 nempty o d t
    let b ← octreeConv P (name ++ ".conv3x3b" ++ ".conv") cb co [3] 1 nempty o d a'
    let main := [(name ++ ".conv3x3a" ++ ".bn", a), (name ++ ".conv3x3b" ++ ".bn", b)]
    if ci = co then pure main
    else do
      let e ← conv1x1 P (name ++ ".conv1x1" ++ ".conv") ci co false t
      pure (main ++ [(name ++ ".conv1x1" ++ ".bn", e)])

/-- The names of the batch normalizations of a block. -/
def bnNames (kind : BlockKind) (skip : Bool) : List String :=
  match kind with
  | .block => [".conv1x1a.bn", ".conv3x3.bn", ".conv1x1b.bn"] ++ if skip then [".conv1x1c.bn"] else []
  | .block2 => [".conv3x3a.bn", ".conv3x3b.bn"] ++ if skip then [".conv1x1.bn"] else []

end Spec

namespace Stat
variable {F : Type} {P : Params}
open Spec

theorem does_block1 (hP : P.training = true) {name : String} {ci co bottleneck : Nat} {nempty : Bool} {o : Octree F} {d : Nat} {t y : Tensor}
    (h : resBlock P name ci co 1 bottleneck nempty o d t = .ok y) :
    ∃ L, bnInputs P .block name ci co bottleneck nempty o d t = .ok L ∧ Does (resBlockS P name ci co bottleneck nempty o d t) y L ∧
      L.map Prod.fst = (bnNames .block (decide (ci ≠ co))).map (name ++ ·) := by
  unfold resBlock at h
  obtain ⟨cb, h0, h⟩ := ok_of_bind h
  simp only [show ¬ ((1 : Nat) = 2) by decide, if_false] at h
  obtain ⟨t', h', h⟩ := ok_of_bind h
  cases h'
  obtain ⟨a', h1, h⟩ := ok_of_bind h
  obtain ⟨b', h2, h⟩ := ok_of_bind h
  obtain ⟨c', h3, h⟩ := ok_of_bind h
  obtain ⟨e', h4, h⟩ := ok_of_bind h
  obtain ⟨z, h5, h⟩ := ok_of_bind h
  cases h
  obtain ⟨a, h11, k1⟩ := ok_of_bind (show _ >>= _ = _ from h1)
  obtain ⟨a2, h12, h13⟩ := ok_of_bind k1
  cases h13
  obtain ⟨b, h21, k2⟩ := ok_of_bind (show _ >>= _ = _ from h2)
  obtain ⟨b2, h22, h23⟩ := ok_of_bind k2
  cases h23
  obtain ⟨c, h31, h32⟩ := ok_of_bind (show _ >>= _ = _ from h3)
  have D1 : Does (conv1x1BnReluS P (name ++ ".conv1x1a") ci cb t) (relu a2) [(name ++ ".conv1x1a" ++ ".bn", a)] :=
    (Does.layer h11).bind ((does_bn hP h12).bind (Does.pure _))
  have D2 : Does (convBnReluS P (name ++ ".conv3x3") cb cb nempty o d (relu a2)) (relu b2) [(name ++ ".conv3x3" ++ ".bn", b)] :=
    (Does.layer h21).bind ((does_bn hP h22).bind (Does.pure _))
  have D3 : Does (conv1x1BnS P (name ++ ".conv1x1b") cb co (relu b2)) c' [(name ++ ".conv1x1b" ++ ".bn", c)] :=
    (Does.layer h31).bind (does_bn hP h32)
  by_cases hc : ci = co
  · subst hc
    rw [if_neg (by simp)] at h4
    cases h4
    refine ⟨[(name ++ ".conv1x1a" ++ ".bn", a), (name ++ ".conv3x3" ++ ".bn", b), (name ++ ".conv1x1b" ++ ".bn", c)], ?_, ?_, ?_⟩
    · unfold bnInputs
      simp only [h0, h11, h1, h21, h2, h31, bind, Except.bind, if_true]
      rfl
    · refine (Does.lift h0).bind (D1.bind (D2.bind (D3.bind (Does.bind (a := t) (L := []) (L' := []) ?_ ((Does.layer h5).bind (Does.pure _))))))
      rw [if_neg (by simp)]
      exact Does.pure _
    · simp [bnNames, String.append_assoc]
  · rw [if_pos hc] at h4
    obtain ⟨e, h41, h42⟩ := ok_of_bind (show _ >>= _ = _ from h4)
    refine ⟨[(name ++ ".conv1x1a" ++ ".bn", a), (name ++ ".conv3x3" ++ ".bn", b), (name ++ ".conv1x1b" ++ ".bn", c)] ++
      [(name ++ ".conv1x1c" ++ ".bn", e)], ?_, ?_, ?_⟩
    · unfold bnInputs
      simp only [h0, h11, h1, h21, h2, h31, h41, bind, Except.bind, if_neg hc]
      rfl
    · refine (Does.lift h0).bind (D1.bind (D2.bind (D3.bind (Does.bind (a := e') (L := [(name ++ ".conv1x1c" ++ ".bn", e)]) ?_
        ((Does.layer h5).bind (Does.pure _))))))
      rw [if_pos hc]
      exact (Does.layer h41).bind (does_bn hP h42)
    · simp [bnNames, String.append_assoc, hc]

theorem does_block2 (hP : P.training = true) {name : String} {ci co bottleneck : Nat} {nempty : Bool} {o : Octree F} {d : Nat} {t y : Tensor}
    (h : resBlock2 P name ci co 1 bottleneck nempty o d t = .ok y) :
    ∃ L, bnInputs P .block2 name ci co bottleneck nempty o d t = .ok L ∧ Does (resBlock2S P name ci co bottleneck nempty o d t) y L ∧
      L.map Prod.fst = (bnNames .block2 (decide (ci ≠ co))).map (name ++ ·) := by
  unfold resBlock2 at h
  obtain ⟨cb, h0, h⟩ := ok_of_bind h
  simp only [show ¬ ((1 : Nat) = 2) by decide, if_false] at h
  obtain ⟨-, -, h⟩ := ok_of_bind h
  obtain ⟨a', h1, h⟩ := ok_of_bind h
  obtain ⟨b', h2, h⟩ := ok_of_bind h
  obtain ⟨e', h4, h⟩ := ok_of_bind h
  obtain ⟨z, h5, h⟩ := ok_of_bind h
  cases h
  obtain ⟨a, h11, k1⟩ := ok_of_bind (show _ >>= _ = _ from h1)
  obtain ⟨a2, h12, h13⟩ := ok_of_bind k1
  cases h13
  obtain ⟨b, h21, h22⟩ := ok_of_bind (show _ >>= _ = _ from h2)
  have D1 : Does (convBnReluS P (name ++ ".conv3x3a") ci cb nempty o d t) (relu a2) [(name ++ ".conv3x3a" ++ ".bn", a)] :=
    (Does.layer h11).bind ((does_bn hP h12).bind (Does.pure _))
  have D2 : Does (convBnS P (name ++ ".conv3x3b") cb co nempty o d (relu a2)) b' [(name ++ ".conv3x3b" ++ ".bn", b)] :=
    (Does.layer h21).bind (does_bn hP h22)
  by_cases hc : ci = co
  · subst hc
    rw [if_neg (by simp)] at h4
    cases h4
    refine ⟨[(name ++ ".conv3x3a" ++ ".bn", a), (name ++ ".conv3x3b" ++ ".bn", b)], ?_, ?_, ?_⟩
    · unfold bnInputs
      simp only [h0, h11, h1, h21, bind, Except.bind, if_true]
      rfl
    · refine (Does.lift h0).bind (D1.bind (D2.bind (Does.bind (a := t) (L := []) (L' := []) ?_ ((Does.layer h5).bind (Does.pure _)))))
      rw [if_neg (by simp)]
      exact Does.pure _
    · simp [bnNames, String.append_assoc]
  · rw [if_pos hc] at h4
    obtain ⟨e, h41, h42⟩ := ok_of_bind (show _ >>= _ = _ from h4)
    refine ⟨[(name ++ ".conv3x3a" ++ ".bn", a), (name ++ ".conv3x3b" ++ ".bn", b)] ++ [(name ++ ".conv1x1" ++ ".bn", e)], ?_, ?_, ?_⟩
    · unfold bnInputs
      simp only [h0, h11, h1, h21, h41, bind, Except.bind, if_neg hc]
      rfl
    · refine (Does.lift h0).bind (D1.bind (D2.bind (Does.bind (a := e') (L := [(name ++ ".conv1x1" ++ ".bn", e)]) ?_
        ((Does.layer h5).bind (Does.pure _)))))
      rw [if_pos hc]
      exact (Does.layer h41).bind (does_bn hP h42)
    · simp [bnNames, String.append_assoc, hc]

/-- The name of block `i`. -/
def blk (name : String) (i : Nat) : String := name ++ ".resblks." ++ toString i

theorem does_block (hP : P.training = true) {kind : BlockKind} {name : String} {ci co bottleneck : Nat} {nempty : Bool} {o : Octree F} {d : Nat}
    {t y : Tensor} {i : Nat} (h : resStep P kind name ci co bottleneck nempty o d t i = .ok y) :
    ∃ L, bnInputs P kind (blk name i) (if i = 0 then ci else co) co bottleneck nempty o d t = .ok L ∧
      Does (blockS P kind name ci co bottleneck nempty o d t i) y L ∧
      L.map Prod.fst = (bnNames kind (decide ((if i = 0 then ci else co) ≠ co))).map (blk name i ++ ·) := by
  cases kind with
  | block => exact does_block1 hP h
  | block2 => exact does_block2 hP h

/-! ### Names -/

theorem digits_dot (i : Nat) (r : List Char) : ((toString i).toList ++ '.' :: r).takeWhile Char.isDigit = (toString i).toList := by
  have : ∀ c ∈ (toString i).toList, c.isDigit = true := by
    intro c hc
    rw [Nat.toString_eq_repr, Nat.repr_eq_ofList_toDigits, String.toList_ofList] at hc
    exact Nat.isDigit_of_mem_toDigits (by omega) (by omega) hc
  rw [List.takeWhile_append_of_pos this]
  simp

theorem toString_inj {i j : Nat} (h : (toString i).toList = (toString j).toList) : i = j := by
  rw [Nat.toString_eq_repr, Nat.repr_eq_ofList_toDigits, String.toList_ofList, Nat.toString_eq_repr, Nat.repr_eq_ofList_toDigits, String.toList_ofList] at h
  have := congrArg (fun l => Nat.ofDigitChars 10 l 0) h
  simpa [Nat.ofDigitChars_ten_toDigits] using this

theorem name_head {kind : BlockKind} {b : Bool} {x : String} (h : x ∈ bnNames kind b) : ∃ r, x.toList = '.' :: r := by
  have : ∀ k b, ∀ y ∈ bnNames k b, y.toList.head? = some '.' := by
    intro k b
    cases k <;> cases b <;> decide
  have := this kind b x h
  cases hx : x.toList with
  | nil => simp [hx] at this
  | cons c r =>
    simp only [hx, List.head?_cons, Option.some.injEq] at this
    exact ⟨r, by rw [this]⟩

theorem blk_inj {name : String} {kind : BlockKind} {b b' : Bool} {i j : Nat} {x y : String} (hx : x ∈ bnNames kind b) (hy : y ∈ bnNames kind b')
    (h : blk name i ++ x = blk name j ++ y) : i = j := by
  obtain ⟨r, hr⟩ := name_head hx
  obtain ⟨r', hr'⟩ := name_head hy
  have h := congrArg String.toList h
  simp only [blk, String.toList_append, List.append_assoc, List.append_cancel_left_eq] at h
  rw [hr, hr'] at h
  have h := congrArg (List.takeWhile Char.isDigit) h
  rw [digits_dot, digits_dot] at h
  exact toString_inj h

theorem names_nodup (kind : BlockKind) (b : Bool) : (bnNames kind b).Nodup := by
  cases kind <;> cases b <;> decide

theorem block_nodup (name : String) (kind : BlockKind) (b : Bool) (i : Nat) : ((bnNames kind b).map (blk name i ++ ·)).Nodup := by
  refine (names_nodup kind b).map fun x y h => ?_
  have h := congrArg String.toList h
  simp only [String.toList_append, List.append_cancel_left_eq] at h
  exact String.toList_inj.1 h

/-! ### The effect of a list of updates with distinct names -/

theorem runAll_other (L : List (String × Tensor)) (s : RunStats) (n : String) (h : n ∉ L.map Prod.fst) (i : Nat) :
    (runAll s L).mean n i = s.mean n i ∧ (runAll s L).var n i = s.var n i := by
  induction L generalizing s with
  | nil => exact ⟨rfl, rfl⟩
  | cons x L ih =>
    simp only [List.map_cons, List.mem_cons, not_or] at h
    obtain ⟨h1, h2⟩ := ih (s.update x.1 x.2) h.2
    rw [show runAll s (x :: L) = runAll (s.update x.1 x.2) L from rfl, h1, h2]
    simp [RunStats.update, h.1]

theorem runAll_mem {L : List (String × Tensor)} (hn : (L.map Prod.fst).Nodup) (s : RunStats) {x : String × Tensor} (hx : x ∈ L) (i : Nat) (hi : i < x.2.width) :
    (runAll s L).mean x.1 i = 9 / 10 * s.mean x.1 i + 1 / 10 * colMean x.2.rows ⟨i, hi⟩ ∧
    (runAll s L).var x.1 i = 9 / 10 * s.var x.1 i + 1 / 10 * colVarU x.2.rows ⟨i, hi⟩ := by
  induction L generalizing s with
  | nil => cases hx
  | cons y L ih =>
    rw [List.map_cons, List.nodup_cons] at hn
    rw [show runAll s (y :: L) = runAll (s.update y.1 y.2) L from rfl]
    rcases List.mem_cons.1 hx with rfl | hx
    · obtain ⟨h1, h2⟩ := runAll_other L (s.update x.1 x.2) x.1 hn.1 i
      rw [h1, h2]
      simp only [RunStats.update, true_and, dif_pos hi]
      constructor <;> ring
    · have hne : x.1 ≠ y.1 := fun e => hn.1 (e ▸ List.mem_map_of_mem hx)
      obtain ⟨h1, h2⟩ := ih hn.2 (s.update y.1 y.2) hx
      rw [h1, h2]
      simp [RunStats.update, hne]

theorem runAll_twice {L L' : List (String × Tensor)} (hn : (L.map Prod.fst).Nodup) (hp : L.Perm L') (s : RunStats) {x : String × Tensor} (hx : x ∈ L) (i : Nat)
    (hi : i < x.2.width) :
    (runAll s (L ++ L')).mean x.1 i = 81 / 100 * s.mean x.1 i + 19 / 100 * colMean x.2.rows ⟨i, hi⟩ ∧
    (runAll s (L ++ L')).var x.1 i = 81 / 100 * s.var x.1 i + 19 / 100 * colVarU x.2.rows ⟨i, hi⟩ := by
  rw [runAll_append]
  obtain ⟨h1, h2⟩ := runAll_mem hn s hx i hi
  obtain ⟨h3, h4⟩ := runAll_mem (L := L') ((hp.map Prod.fst).nodup_iff.1 hn) (runAll s L) (hp.mem_iff.1 hx) i hi
  rw [h3, h4, h1, h2]
  constructor <;> ring

end Stat
end Ocnn
