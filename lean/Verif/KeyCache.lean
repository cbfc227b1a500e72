import Verif.ShuffledKey
import Verif.AutoEncoder

/-! Model of the look-up tables of `KeyLUT` on several devices, and of `ckpt_conv_wrapper`. -/

namespace Ocnn

/-- A one-dimensional int64 tensor on a device; device 0 is the cpu. -/
structure DevTensor where
  device : Nat
  vals : List I64
deriving DecidableEq, Repr

/-- `t.to(device)`: the values do not change. -/
def DevTensor.to (t : DevTensor) (device : Nat) : DevTensor := ⟨device, t.vals⟩

/-- Three tables. -/
abbrev Tables := DevTensor × DevTensor × DevTensor

/-- The state of the global object `_key_lut`: the dictionaries `_encode` and `_decode`. -/
structure KeyLut where
  encode : List (Nat × Tables)
  decode : List (Nat × Tables)

/-- `KeyLUT.__init__`, shuffled_key.py 14-23. -/
def KeyLut.init : KeyLut := ⟨[(0, ⟨0, EX⟩, ⟨0, EY⟩, ⟨0, EZ⟩)], [(0, ⟨0, DX⟩, ⟨0, DY⟩, ⟨0, DZ⟩)]⟩

/-- Body of `encode_lut` and `decode_lut`, shuffled_key.py 26-29 and 32-35: the tables for a device are copied from the cpu when they are asked for the
first time.  KeyError if there are no tables for the cpu. -/
def lutFor (d : List (Nat × Tables)) (device : Nat) : M (List (Nat × Tables) × Tables) :=
  match d.lookup device with
  | some t => .ok (d, t)
  | none =>
    match d.lookup 0 with
    | none => .error .key
    | some (a, b, c) =>
      let d' := d ++ [(device, a.to device, b.to device, c.to device)]
      match d'.lookup device with
      | some t => .ok (d', t)
      | none => .error .key

/-- `KeyLUT.encode_lut`, shuffled_key.py 25-29; returns the changed object as well. -/
def KeyLut.encodeLut (s : KeyLut) (device : Nat) : M (KeyLut × Tables) := do
  let r ← lutFor s.encode device
  pure ({ s with encode := r.1 }, r.2)

/-- `KeyLUT.decode_lut`, shuffled_key.py 31-35. -/
def KeyLut.decodeLut (s : KeyLut) (device : Nat) : M (KeyLut × Tables) := do
  let r ← lutFor s.decode device
  pure ({ s with decode := r.1 }, r.2)

/-- Indexing a table with a tensor that lives on `device`: the table must be on the same device, or the indices on the cpu. -/
def DevTensor.at (t : DevTensor) (device : Nat) (i : I64) : M I64 :=
  if t.device = device ∨ device = 0 then lutAt t.vals i else .error .value

/-- The argument `b` of `xyz2key`: `None`, a tensor, or a Python integer. -/
inductive KeyBatch where
  | none
  | tensor (b : I64)
  | int (b : Int)

/-- `b.long()`, shuffled_key.py 87: Python integers have no such method (AttributeError). -/
def KeyBatch.long : KeyBatch → M I64
  | .none => .error .type
  | .tensor b => .ok b
  | .int _ => .error .type

/-- `xyz2key` for coordinates on `device`, shuffled_key.py 76-90, element by element; the tensor `b` is on the same device. -/
def xyz2keyOn (s : KeyLut) (device : Nat) (x y z : I64) (b : KeyBatch) (depth : Nat) : M (KeyLut × I64) := do
  let (s, ex, ey, ez) ← s.encodeLut device
  let mask ← toI64 (if depth > 8 then 255 else (1 <<< depth) - 1)
  let key := (← ex.at device (x &&& mask)) ||| (← ey.at device (y &&& mask)) ||| (← ez.at device (z &&& mask))
  let key ← (do
    if depth > 8 then
      let mask ← toI64 ((1 <<< (depth - 8)) - 1)
      let key16 := (← ex.at device (x.sshiftRight 8 &&& mask)) |||
                   (← ey.at device (y.sshiftRight 8 &&& mask)) |||
                   (← ez.at device (z.sshiftRight 8 &&& mask))
      pure (key16 <<< 24 ||| key)
    else pure key : M I64)
  match b with
  | .none => pure (s, key)
  | b => do
    let b ← b.long
    pure (s, b <<< 48 ||| key)

/-- One step of the loop of `key2xyz`, shuffled_key.py 109-113, with the tables of a device. -/
def key2xyzStepOn (t : Tables) (device : Nat) (key : I64) (acc : I64 × I64 × I64) (i : Nat) : M (I64 × I64 × I64) := do
  let k := key.sshiftRight (i * 9) &&& 511#64
  let x := acc.1 ||| ((← t.1.at device k) <<< (i * 3))
  let y := acc.2.1 ||| ((← t.2.1.at device k) <<< (i * 3))
  let z := acc.2.2 ||| ((← t.2.2.at device k) <<< (i * 3))
  pure (x, y, z)

/-- `key2xyz` for keys on `device`, shuffled_key.py 102-115. -/
def key2xyzOn (s : KeyLut) (device : Nat) (key : I64) (depth : Nat) : M (KeyLut × I64 × I64 × I64 × I64) := do
  let (s, t) ← s.decodeLut device
  let b := key.sshiftRight 48
  let key := key &&& (((1 <<< 48) - 1 : Nat) : I64)
  let n := (depth + 2) / 3
  let r ← (List.range n).foldlM (key2xyzStepOn t device key) (0#64, 0#64, 0#64)
  pure (s, r.1, r.2.1, r.2.2, b)

/-- A call of one of the two functions. -/
inductive KeyCall where
  | encode (device : Nat) (x y z : I64) (b : KeyBatch) (depth : Nat)
  | decode (device : Nat) (key : I64) (depth : Nat)

/-- What a call returns or raises, and the state after it.  A call that raises after the tables were copied leaves the copies. -/
def KeyCall.run (s : KeyLut) : KeyCall → KeyLut × M (List I64)
  | .encode device x y z b depth =>
    match xyz2keyOn s device x y z b depth with
    | .ok (s', k) => (s', .ok [k])
    | .error e => (((s.encodeLut device).map Prod.fst).toOption.getD s, .error e)
  | .decode device key depth =>
    match key2xyzOn s device key depth with
    | .ok (s', x, y, z, b) => (s', .ok [x, y, z, b])
    | .error e => (((s.decodeLut device).map Prod.fst).toOption.getD s, .error e)

/-- The results of a sequence of calls, starting with the state `s`. -/
def keyRun : KeyLut → List KeyCall → List (M (List I64))
  | _, [] => []
  | s, c :: cs => (c.run s).2 :: keyRun (c.run s).1 cs

/-! ### ckpt_conv_wrapper -/

/-- The parameters of `forward` of the convolution modules of the package, without `self`: octree_conv.py 361, 404, octree_dwconv.py 205,
octree_gconv.py 55, modules.py 45, 68, 92 (all the same). -/
def convParams : List (String × Bool) := [("data", false), ("octree", false), ("depth", false)]

/-- `ckpt_conv_wrapper(conv_op, data, octree)`, modules.py 20-28: the checkpoint calls `conv_op(data, octree)`.  `params` are the parameters of
`conv_op`, `run` is what it computes. -/
def ckptConvWrapper {X Y : Type} (params : List (String × Bool)) (run : X → M Y) (data : X) : M Y := do
  pyBind params 2 []
  run data

end Ocnn
