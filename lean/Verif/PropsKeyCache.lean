import Verif.KeyCache
import Verif.PropsKey

/-! C145: keys do not depend on devices and earlier calls.  C146: integers as batch index.  C147: `ckpt_conv_wrapper`. -/

namespace Ocnn
open Spec

namespace Spec

/-- What a call should return, without any state: the key by interleaving bits, the coordinates by collecting them. -/
def Returns : KeyCall → M (List I64) → Prop
  | .encode _ x y z .none d, r => ∃ k : I64, r = .ok [k] ∧
      k.toNat = morton d (x.toInt % 2 ^ d).toNat (y.toInt % 2 ^ d).toNat (z.toInt % 2 ^ d).toNat
  | .encode _ x y z (.tensor b) d, r => ∃ k : I64, r = .ok [k] ∧
      k.toNat = (b.toNat % 2 ^ 16) * 2 ^ 48 + morton d (x.toInt % 2 ^ d).toNat (y.toInt % 2 ^ d).toNat (z.toInt % 2 ^ d).toNat
  | .encode _ _ _ _ (.int _) _, _ => True
  | .decode _ key d, r => ∀ (x y z b : Nat), x < 2 ^ d → y < 2 ^ d → z < 2 ^ d → b < 2 ^ 15 → key.toNat = b * 2 ^ 48 + morton d x y z →
      r = .ok [BitVec.ofNat 64 x, BitVec.ofNat 64 y, BitVec.ofNat 64 z, BitVec.ofNat 64 b]

/-- The depth of a call. -/
def _root_.Ocnn.KeyCall.depth : KeyCall → Nat
  | .encode _ _ _ _ _ d => d
  | .decode _ _ d => d

end Spec

/-- the dictionary holds the same tables for every device -/
structure LutInv (d : List (Nat × Tables)) (a b c : List I64) : Prop where
  cpu : d.lookup 0 = some (⟨0, a⟩, ⟨0, b⟩, ⟨0, c⟩)
  all : ∀ dev t, d.lookup dev = some t → t = (⟨dev, a⟩, ⟨dev, b⟩, ⟨dev, c⟩)

theorem lookup_append_single {α : Type} (d : List (Nat × α)) (k : Nat) (v : α) (j : Nat) (h : d.lookup k = none) :
    (d ++ [(k, v)]).lookup j = if j = k then some v else d.lookup j := by
  induction d with
  | nil =>
    rw [List.nil_append, List.lookup_cons]
    by_cases e : j = k
    · simp [e]
    · have : (j == k) = false := by simpa using e
      simp [e, this]
  | cons p ps ih =>
    obtain ⟨p1, p2⟩ := p
    rw [List.cons_append, List.lookup_cons, List.lookup_cons]
    rw [List.lookup_cons] at h
    by_cases e : k = p1
    · subst e
      simp at h
    · have e0 : (k == p1) = false := by simpa using e
      have h' : ps.lookup k = none := by
        rw [e0] at h
        exact h
      by_cases e' : j = p1
      · subst e'
        have : j ≠ k := fun e2 => e e2.symm
        simp [this]
      · have : (j == p1) = false := by simpa using e'
        simp only [this]
        exact ih h'

theorem lutFor_ok {d : List (Nat × Tables)} {a b c : List I64} (h : LutInv d a b c) (dev : Nat) :
    ∃ d', lutFor d dev = .ok (d', ⟨dev, a⟩, ⟨dev, b⟩, ⟨dev, c⟩) ∧ LutInv d' a b c := by
  unfold lutFor
  cases e : d.lookup dev with
  | some t =>
    rw [h.all dev t e]
    exact ⟨d, rfl, h⟩
  | none =>
    simp only [h.cpu, DevTensor.to]
    rw [lookup_append_single d dev _ dev e, if_pos rfl]
    refine ⟨_, rfl, ?_, fun j t hj => ?_⟩
    · rw [lookup_append_single d dev _ 0 e]
      split
      · rename_i e0
        subst e0
        rfl
      · exact h.cpu
    · rw [lookup_append_single d dev _ j e] at hj
      split at hj
      · rename_i e0
        subst e0
        exact (Option.some.inj hj).symm
      · exact h.all j t hj

/-- the state of the object -/
structure KeyInv (s : KeyLut) : Prop where
  enc : LutInv s.encode EX EY EZ
  dec : LutInv s.decode DX DY DZ

theorem at_same (dev : Nat) (l : List I64) (i : I64) : (⟨dev, l⟩ : DevTensor).at dev i = lutAt l i := by
  unfold DevTensor.at
  rw [if_pos (Or.inl rfl)]

/-- the argument of the function on the cpu -/
def KeyBatch.opt : KeyBatch → Option I64
  | .tensor b => some b
  | _ => Option.none

theorem encode_eq {s : KeyLut} (h : KeyInv s) (dev : Nat) (x y z : I64) (b : KeyBatch) (d : Nat) :
    ∃ s', KeyInv s' ∧ s.encodeLut dev = .ok (s', ⟨dev, EX⟩, ⟨dev, EY⟩, ⟨dev, EZ⟩) ∧
      xyz2keyOn s dev x y z b d = (xyz2key64 x y z b.opt d >>= fun k => match b with | .int _ => .error .type | _ => .ok (s', k)) := by
  obtain ⟨d', h1, h2⟩ := lutFor_ok h.enc dev
  have e1 : s.encodeLut dev = .ok ({ s with encode := d' }, ⟨dev, EX⟩, ⟨dev, EY⟩, ⟨dev, EZ⟩) := by
    unfold KeyLut.encodeLut
    rw [h1]
    rfl
  refine ⟨{ s with encode := d' }, ⟨h2, h.dec⟩, e1, ?_⟩
  unfold xyz2keyOn xyz2key64
  rw [e1]
  simp only [bind, Except.bind, at_same]
  cases hm : toI64 (if d > 8 then 255 else 1 <<< d - 1) with
  | error e => rfl
  | ok m =>
  simp only []
  cases lutAt EX (x &&& m) with
  | error e => rfl
  | ok v1 =>
  simp only []
  cases lutAt EY (y &&& m) with
  | error e => rfl
  | ok v2 =>
  simp only []
  cases lutAt EZ (z &&& m) with
  | error e => rfl
  | ok v3 =>
  simp only []
  generalize hq : (if d > 8 then _ else _ : M I64) = q
  cases q with
  | error e => simp [hq]
  | ok k =>
    simp only [hq]
    cases b <;> rfl

theorem decode_eq {s : KeyLut} (h : KeyInv s) (dev : Nat) (key : I64) (d : Nat) :
    ∃ s', KeyInv s' ∧ s.decodeLut dev = .ok (s', ⟨dev, DX⟩, ⟨dev, DY⟩, ⟨dev, DZ⟩) ∧ key2xyzOn s dev key d = (key2xyz64 key d).map fun r => (s', r) := by
  obtain ⟨d', h1, h2⟩ := lutFor_ok h.dec dev
  have e1 : s.decodeLut dev = .ok ({ s with decode := d' }, ⟨dev, DX⟩, ⟨dev, DY⟩, ⟨dev, DZ⟩) := by
    unfold KeyLut.decodeLut
    rw [h1]
    rfl
  refine ⟨{ s with decode := d' }, ⟨h.enc, h2⟩, e1, ?_⟩
  have hs : ∀ key, key2xyzStepOn (⟨dev, DX⟩, ⟨dev, DY⟩, ⟨dev, DZ⟩) dev key = key2xyzStep key := by
    intro key
    funext acc i
    unfold key2xyzStepOn key2xyzStep
    simp only [at_same]
  unfold key2xyzOn key2xyz64
  rw [e1]
  simp only [bind, Except.bind, hs]
  cases (List.range ((d + 2) / 3)).foldlM (key2xyzStep _) (0#64, 0#64, 0#64) <;> rfl

theorem decode_value (d x y z b : Nat) (hd : d ≤ 16) (hx : x < 2 ^ d) (hy : y < 2 ^ d) (hz : z < 2 ^ d) (hb : b < 2 ^ 15) (key : I64)
    (hk : key.toNat = b * 2 ^ 48 + morton d x y z) :
    key2xyz64 key d = .ok (BitVec.ofNat 64 x, BitVec.ofNat 64 y, BitVec.ofNat 64 z, BitVec.ofNat 64 b) := by
  have h1 := C01_key_roundtrip d x y z b hd hx hy hz hb
  obtain ⟨k, k1, k2⟩ := C03_encode_is_morton (BitVec.ofNat 64 x) (BitVec.ofNat 64 y) (BitVec.ofNat 64 z) (some (BitVec.ofNat 64 b)) d hd
  have h16 : 2 ^ d ≤ 2 ^ 16 := Nat.pow_le_pow_right (by omega) hd
  have hi : ∀ v : Nat, v < 2 ^ d → ((BitVec.ofNat 64 v).toInt % 2 ^ d).toNat = v := by
    intro v hv
    rw [BitVec.toInt_eq_toNat_of_lt (by rw [BitVec.toNat_ofNat, Nat.mod_eq_of_lt (by omega)]; omega), BitVec.toNat_ofNat, Nat.mod_eq_of_lt (by omega)]
    rw [Int.emod_eq_of_lt (by omega) (by exact_mod_cast hv)]
    rfl
  rw [hi x hx, hi y hy, hi z hz, Option.getD_some, BitVec.toNat_ofNat, Nat.mod_eq_of_lt (show b < 2 ^ 64 by omega), Nat.mod_eq_of_lt (show b < 2 ^ 16 by omega)] at k2
  have : k = key := BitVec.eq_of_toNat_eq (by rw [k2, hk])
  rw [k1, this] at h1
  exact h1

theorem run_ok {s : KeyLut} (h : KeyInv s) (c : KeyCall) (hd : c.depth ≤ 16) : KeyInv (c.run s).1 ∧ Returns c (c.run s).2 := by
  cases c with
  | encode dev x y z b d =>
    obtain ⟨s', h1, h2, h3⟩ := encode_eq h dev x y z b d
    unfold KeyCall.run
    obtain ⟨k, k1, k2⟩ := C03_encode_is_morton x y z b.opt d hd
    cases b with
    | none =>
      simp only [KeyBatch.opt] at h3 k1 k2
      simp only [h3, KeyBatch.opt, k1, bind, Except.bind]
      refine ⟨h1, k, rfl, ?_⟩
      rw [k2]
      simp
    | tensor b =>
      simp only [KeyBatch.opt] at h3 k1 k2
      simp only [h3, KeyBatch.opt, k1, bind, Except.bind]
      exact ⟨h1, k, rfl, k2⟩
    | int b =>
      simp only [KeyBatch.opt] at h3 k1 k2
      simp only [h3, KeyBatch.opt, k1, bind, Except.bind, h2, Except.map, Except.toOption, Option.getD_some]
      exact ⟨h1, trivial⟩
  | decode dev key d =>
    obtain ⟨s', h1, h2, h3⟩ := decode_eq h dev key d
    unfold KeyCall.run
    cases hk : key2xyz64 key d with
    | error e =>
      simp only [h3, hk, Except.map, h2, Except.toOption, Option.getD_some]
      refine ⟨h1, fun x y z b hx hy hz hb e => ?_⟩
      rw [decode_value d x y z b hd hx hy hz hb key e] at hk
      cases hk
    | ok r =>
      obtain ⟨r1, r2, r3, r4⟩ := r
      simp only [h3, hk, Except.map]
      refine ⟨h1, fun x y z b hx hy hz hb e => ?_⟩
      rw [decode_value d x y z b hd hx hy hz hb key e] at hk
      cases hk
      rfl

theorem keyInv_init : KeyInv KeyLut.init := by
  refine ⟨⟨rfl, ?_⟩, ⟨rfl, ?_⟩⟩
  · intro dev t ht
    simp only [KeyLut.init, List.lookup] at ht
    split at ht
    · rename_i e
      have : dev = 0 := by simpa using e
      subst this
      exact (Option.some.inj ht).symm
    · cases ht
  · intro dev t ht
    simp only [KeyLut.init, List.lookup] at ht
    split at ht
    · rename_i e
      have : dev = 0 := by simpa using e
      subst this
      exact (Option.some.inj ht).symm
    · cases ht

/-- **C145** Whatever calls of the two functions were made before, on whatever devices, each call returns the key or the coordinates of its arguments. -/
theorem C145_devices (calls : List KeyCall) (h : ∀ c ∈ calls, c.depth ≤ 16) :
    (keyRun KeyLut.init calls).length = calls.length ∧
    ∀ (i : Nat) (c : KeyCall), calls[i]? = some c → ∃ r, (keyRun KeyLut.init calls)[i]? = some r ∧ Returns c r := by
  have key : ∀ (calls : List KeyCall) (s : KeyLut), KeyInv s → (∀ c ∈ calls, c.depth ≤ 16) → (keyRun s calls).length = calls.length ∧
      ∀ (i : Nat) (c : KeyCall), calls[i]? = some c → ∃ r, (keyRun s calls)[i]? = some r ∧ Returns c r := by
    intro calls
    induction calls with
    | nil => intro s _ _; exact ⟨rfl, fun i c hi => by simp at hi⟩
    | cons c cs ih =>
      intro s hs hd
      obtain ⟨a1, a2⟩ := run_ok hs c (hd c (by simp))
      obtain ⟨b1, b2⟩ := ih _ a1 fun c' hc => hd c' (List.mem_cons_of_mem _ hc)
      refine ⟨by simp [keyRun, b1], fun i c' hi => ?_⟩
      cases i with
      | zero =>
        cases hi
        exact ⟨_, rfl, a2⟩
      | succ i => exact b2 i c' hi
  exact key calls KeyLut.init keyInv_init h

/-- Three calls on two devices; the second device is used twice. -/
example : ∃ r, (keyRun KeyLut.init [.encode 1 5#64 3#64 6#64 (.tensor 2#64) 3, .decode 0 9#64 2, .encode 1 5#64 3#64 6#64 .none 3])[2]? = some r ∧
    Returns (.encode 1 5#64 3#64 6#64 .none 3) r :=
  (C145_devices _ (by simp [KeyCall.depth])).2 2 _ rfl

namespace Spec

/-- What the documentation promises of the batch index: `None`, a tensor or an integer below 32768; the key has it in the bits 48 to 62. -/
def batchNat : KeyBatch → Option Nat
  | .none => some 0
  | .tensor b => if b.toNat < 2 ^ 15 then some b.toNat else none
  | .int b => if 0 ≤ b ∧ b < 2 ^ 15 then some b.toNat else none

/-- The documented call gives the documented key. -/
def BatchIndexWorks (r : M (List I64)) (x y z : I64) (b d : Nat) : Prop :=
  ∃ k : I64, r = .ok [k] ∧ k.toNat = b * 2 ^ 48 + morton d (x.toInt % 2 ^ d).toNat (y.toInt % 2 ^ d).toNat (z.toInt % 2 ^ d).toNat

end Spec

/-- **C146**, the part that holds: after any calls, on any device, a batch index that is a tensor or missing gives the documented key.
Missing is the batch index that is an integer, see `C146_violated`. -/
theorem C146_partial (calls : List KeyCall) (h : ∀ c ∈ calls, c.depth ≤ 16) (dev : Nat) (x y z : I64) (b : KeyBatch) (d n : Nat) (hd : d ≤ 16)
    (hb : batchNat b = some n) (hi : ∀ i, b ≠ .int i) :
    ∃ r, (keyRun KeyLut.init (calls ++ [.encode dev x y z b d]))[calls.length]? = some r ∧ BatchIndexWorks r x y z n d := by
  obtain ⟨r, h1, h2⟩ := (C145_devices (calls ++ [.encode dev x y z b d]) (by
    intro c hc
    rcases List.mem_append.1 hc with hc | hc
    · exact h c hc
    · rw [List.mem_singleton.1 hc]
      exact hd)).2 calls.length (.encode dev x y z b d) (by simp)
  refine ⟨r, h1, ?_⟩
  cases b with
  | none =>
    obtain ⟨k, k1, k2⟩ := h2
    cases hb
    exact ⟨k, k1, by rw [k2]; omega⟩
  | tensor b =>
    obtain ⟨k, k1, k2⟩ := h2
    replace hb : (if b.toNat < 2 ^ 15 then some b.toNat else none) = some n := hb
    split at hb
    · rename_i e
      cases hb
      exact ⟨k, k1, by rw [k2, Nat.mod_eq_of_lt (show b.toNat < 2 ^ 16 by omega)]⟩
    · cases hb
  | int i => exact absurd rfl (hi i)

/-- **C146** fails for integers: every call with an integer as batch index raises, after any calls before. -/
theorem C146_violated (calls : List KeyCall) (h : ∀ c ∈ calls, c.depth ≤ 16) (dev : Nat) (x y z : I64) (b : Int) (d n : Nat) (hd : d ≤ 16) :
    ∃ r, (keyRun KeyLut.init (calls ++ [.encode dev x y z (.int b) d]))[calls.length]? = some r ∧ r = .error .type ∧ ¬ BatchIndexWorks r x y z n d := by
  have key : ∀ (calls : List KeyCall) (s : KeyLut), KeyInv s → (∀ c ∈ calls, c.depth ≤ 16) →
      (keyRun s (calls ++ [.encode dev x y z (.int b) d]))[calls.length]? = some (.error .type) := by
    intro calls
    induction calls with
    | nil =>
      intro s hs _
      obtain ⟨s', h1, h2, h3⟩ := encode_eq hs dev x y z (.int b) d
      obtain ⟨k, k1, k2⟩ := C03_encode_is_morton x y z (KeyBatch.int b).opt d hd
      simp [keyRun, KeyCall.run, h3, k1, bind, Except.bind]
    | cons c cs ih =>
      intro s hs hc
      exact ih _ (run_ok hs c (hc c (by simp))).1 fun c' hc' => hc c' (List.mem_cons_of_mem _ hc')
  refine ⟨_, key calls KeyLut.init keyInv_init h, rfl, ?_⟩
  rintro ⟨k, e, _⟩
  cases e

/-- The tensor 5 and the integer 5 are both legal batch indices; only the first works. -/
example : (∃ r, (keyRun KeyLut.init ([] ++ [.encode 0 1#64 2#64 3#64 (.tensor 5#64) 2]))[0]? = some r ∧ BatchIndexWorks r 1#64 2#64 3#64 5 2) ∧
    batchNat (.int 5) = some 5 ∧
    ∃ r, (keyRun KeyLut.init ([] ++ [.encode 0 1#64 2#64 3#64 (.int 5) 2]))[0]? = some r ∧ r = .error .type ∧ ¬ BatchIndexWorks r 1#64 2#64 3#64 5 2 :=
  ⟨C146_partial [] (by simp) 0 _ _ _ _ 2 5 (by decide) (by decide) (by simp), by decide, C146_violated [] (by simp) 0 _ _ _ 5 2 5 (by decide)⟩

/-- **C147**, the part that holds: an operation that can be called with two positional arguments (it has two parameters or more, and all after the
second have default values) gives under the wrapper what it gives alone.  Missing are the convolutions of the package, see `C147_violated`. -/
theorem C147_partial {X Y : Type} (run : X → M Y) (data : X) (params : List (String × Bool)) (h2 : 2 ≤ params.length)
    (h : ∀ p ∈ params.drop 2, p.2 = true) : ckptConvWrapper params run data = run data := by
  have : pyBind params 2 [] = .ok () := by
    unfold pyBind
    rw [if_neg (by omega), if_neg (by simp), if_neg]
    rw [Bool.not_eq_false, List.all_eq_true]
    intro p hp
    simp [h p hp]
  unfold ckptConvWrapper
  rw [this]
  rfl

/-- An operation with a default depth. -/
example : ckptConvWrapper [("data", false), ("octree", false), ("depth", true)] (fun x : Nat => .ok (x + 1)) 4 = .ok 5 :=
  C147_partial _ 4 _ (by decide) (by decide)

/-- **C147** fails for every convolution of the package, whatever it computes: it needs the depth, and the wrapper does not pass it. -/
theorem C147_violated {X Y : Type} (run : X → M Y) (data : X) (y : Y) (_h : run data = .ok y) :
    ckptConvWrapper convParams run data = .error .type ∧ pyBind convParams 3 [] = .ok () :=
  ⟨rfl, rfl⟩

/-- A convolution that works when it is called with a depth. -/
example : ckptConvWrapper convParams (fun x : Nat => .ok (x + 1)) 4 = .error .type ∧ pyBind convParams 3 [] = .ok () := C147_violated _ 4 5 rfl

end Ocnn
