import Verif.FloatPool

/-! Drop path in floating point: ocnn/nn/octree_drop.py 33-51.  The features have `p` significant bits and operations with a Python number are computed with `q`
bits: `p = q = 24` for float32, `p = q = 53` for float64, `p = 11`, `q = 24` for float16 and `p = 8`, `q = 24` for bfloat16. -/

namespace Ocnn
variable {F : Type}

/-- `keep_prob = 1 - self.drop_prob`, octree_drop.py 41: a Python float has 53 bits. -/
def keepProb64 (dropProb : ℚ) : ℚ := roundP 53 (1 - dropProb)

/-- `torch.floor(rnd_tensor + keep_prob)`, octree_drop.py 42-43, for the random number `k / 2 ^ p`: `torch.rand` on the CPU returns the multiples of `2 ^ -p` in
`[0, 1)`. -/
def dropFloor (p q : Nat) (dropProb : ℚ) (k : Nat) : ℚ := ((⌊roundP p (roundP q ((k : ℚ) / 2 ^ p + roundP q (keepProb64 dropProb)))⌋ : ℤ) : ℚ)

/-- The factor of a sample, octree_drop.py 41-45. -/
def dropFactor (p q : Nat) (dropProb : ℚ) (scaleByKeep : Bool) (k : Nat) : ℚ :=
  if keepProb64 dropProb > 0 ∧ scaleByKeep = true then roundP p (roundP q (dropFloor p q dropProb k / roundP q (keepProb64 dropProb))) else dropFloor p q dropProb k

/-- `OctreeDropPath.forward`, octree_drop.py 33-51; `ks` are the random numbers, one per sample, as multiples of `2 ^ -p`. -/
def dropPathP {C : Nat} (p q : Nat) (dropProb : ℚ) (training scaleByKeep nempty : Bool) (ks : List Nat)
    (data : List (Fin C → ℚ)) (o : Octree F) (d : Nat) (batchId : Option (List Nat)) : M (List (Fin C → ℚ)) := do
  if dropProb ≤ 0 ∨ training = false then pure data
  else
    let rnd := ks.map (dropFactor p q dropProb scaleByKeep)
    let batchId ← (match batchId with
      | some b => pure b
      | none => o.batchId d nempty : M (List Nat))
    let mask ← gatherIdx rnd (batchId.map Int.ofNat)
    let out ← mulRows data mask
    pure (out.map fun v => fun c => roundP p (v c))

end Ocnn
