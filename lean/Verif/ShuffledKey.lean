import Verif.Torch

/-
  Model of ocnn/octree/shuffled_key.py.  All functions of that file act element-wise on int64
  tensors; the model is the element-wise function on `BitVec 64` (two's complement int64, `<<` drops
  high bits, `>>` is arithmetic).
-/

namespace Ocnn

/-- int64 scalar -/
abbrev I64 := BitVec 64

/-- `KeyLUT.xyz2key`, shuffled_key.py 37-44 (loop over the bits). -/
def lutXyz2key (x y z : I64) (depth : Nat) : I64 :=
  (List.range depth).foldl (fun key i =>
    let mask : I64 := 1#64 <<< i
    key ||| ((x &&& mask) <<< (2 * i + 2))
        ||| ((y &&& mask) <<< (2 * i + 1))
        ||| ((z &&& mask) <<< (2 * i + 0))) 0#64

/-- Body of the loop of `KeyLUT.key2xyz` for one coordinate with bit offset `o` (2, 1 or 0),
shuffled_key.py 50-53. -/
def lutKey2coord (o : Nat) (key : I64) (depth : Nat) : I64 :=
  (List.range depth).foldl (fun x i =>
    x ||| BitVec.sshiftRight (key &&& (1#64 <<< (3 * i + o))) (2 * i + o)) 0#64

/-- The encoding tables, shuffled_key.py 14-22.  The per-device caches of `encode_lut`
(25-29) hold copies of these tables; they are modelled in KeyCache.lean. -/
def EX : List I64 := (List.range 256).map fun r => lutXyz2key (BitVec.ofNat 64 r) 0#64 0#64 8
def EY : List I64 := (List.range 256).map fun r => lutXyz2key 0#64 (BitVec.ofNat 64 r) 0#64 8
def EZ : List I64 := (List.range 256).map fun r => lutXyz2key 0#64 0#64 (BitVec.ofNat 64 r) 8

/-- The decoding tables, shuffled_key.py 23 (and 46-54). -/
def DX : List I64 := (List.range 512).map fun r => lutKey2coord 2 (BitVec.ofNat 64 r) 9
def DY : List I64 := (List.range 512).map fun r => lutKey2coord 1 (BitVec.ofNat 64 r) 9
def DZ : List I64 := (List.range 512).map fun r => lutKey2coord 0 (BitVec.ofNat 64 r) 9

/-- Table look-up with an int64 index (torch indexing, IndexError when out of range). -/
def lutAt (t : List I64) (i : I64) : M I64 := getIdx t i.toInt

/-- A Python integer used as an operand of an int64 tensor operation; numbers that do not fit
raise an overflow error. -/
def toI64 (n : Nat) : M I64 := if n < 2 ^ 63 then .ok (BitVec.ofNat 64 n) else .error .value

/-- `xyz2key`, shuffled_key.py 60-90, after the conversion to int64 in line 77. -/
def xyz2key64 (x y z : I64) (b : Option I64) (depth : Nat) : M I64 := do
  let mask ← toI64 (if depth > 8 then 255 else (1 <<< depth) - 1)
  let key := (← lutAt EX (x &&& mask)) ||| (← lutAt EY (y &&& mask)) ||| (← lutAt EZ (z &&& mask))
  let key ← (do
    if depth > 8 then
      let mask ← toI64 ((1 <<< (depth - 8)) - 1)
      let key16 := (← lutAt EX (x.sshiftRight 8 &&& mask)) |||
                   (← lutAt EY (y.sshiftRight 8 &&& mask)) |||
                   (← lutAt EZ (z.sshiftRight 8 &&& mask))
      pure (key16 <<< 24 ||| key)
    else pure key : M I64)
  match b with
  | none => pure key
  | some b => pure (b <<< 48 ||| key)

/-- One step of the loop of `key2xyz`, shuffled_key.py 109-113. -/
def key2xyzStep (key : I64) (acc : I64 × I64 × I64) (i : Nat) : M (I64 × I64 × I64) := do
  let k := key.sshiftRight (i * 9) &&& 511#64
  let x := acc.1 ||| ((← lutAt DX k) <<< (i * 3))
  let y := acc.2.1 ||| ((← lutAt DY k) <<< (i * 3))
  let z := acc.2.2 ||| ((← lutAt DZ k) <<< (i * 3))
  pure (x, y, z)

/-- `key2xyz`, shuffled_key.py 93-115; returns `(x, y, z, b)`. -/
def key2xyz64 (key : I64) (depth : Nat) : M (I64 × I64 × I64 × I64) := do
  let b := key.sshiftRight 48
  let key := key &&& (((1 <<< 48) - 1 : Nat) : I64)
  let n := (depth + 2) / 3
  let r ← (List.range n).foldlM (key2xyzStep key) (0#64, 0#64, 0#64)
  pure (r.1, r.2.1, r.2.2, b)

end Ocnn
