import Verif.Octree
import Mathlib.Data.Int.Log

/-! Single precision arithmetic in `build_octree`. -/

namespace Ocnn

/-- Rounding to the nearest integer, ties to even: the rounding mode of IEEE 754 that torch uses. -/
def rne (x : ℚ) : ℤ :=
  if x - ⌊x⌋ < 1 / 2 then ⌊x⌋ else if 1 / 2 < x - ⌊x⌋ then ⌊x⌋ + 1 else if ⌊x⌋ % 2 = 0 then ⌊x⌋ else ⌊x⌋ + 1

/-- The spacing of the float32 numbers in the binade of `x`. -/
def ulp (x : ℚ) : ℚ := 2 ^ (Int.log 2 |x| - 23)

/-- The float32 number that represents the exact result `x` of an operation.  Simplified: the exponent is not bounded; the values of `build_octree` are 0
or between `2 ^ -24` and `2 ^ 17`, where the bounds of the exponent play no role. -/
def f32 (x : ℚ) : ℚ := (rne (x / ulp x) : ℚ) * ulp x

/-- The coordinates from which `build_octree` computes the keys, octree.py 160-162, in single precision: both operations round. -/
def scaleF32 (depth : Nat) (v : ℚ) : ℚ := f32 (f32 (v + 1) * 2 ^ ((depth : ℤ) - 1))

namespace Octree
variable {F : Type}

/-- `build_octree`, octree.py 147-224, with the rounding of the coordinates in single precision.  Simplified: the means over the points of a leaf (217-224) are
exact; the model is that of `build` otherwise. -/
def buildF32 [Add F] [Zero F] {L : Type} (nrm : V3 ℚ → V3 ℚ) (divF : ℚ → F → F) (o : Octree F) (pc : Points ℚ F L) : M (Octree F × List Nat) := do
  let o := { o with device := pc.device }
  pyAssert (pc.batchSize = o.batchSize)
  let points := pc.points.map fun p => p.map (scaleF32 o.depth)
  let b ← (if o.batchSize = 1 then pure none else do
    let b ← need pc.batchId
    pure (some b) : M (Option (List Int)))
  let key ← pointKeys points b o.depth
  let nodeKey := unique key
  let idx := uniqueInv key
  let counts := uniqueCounts key
  let o ← (List.range (o.fullDepth + 1)).foldlM (fun o d => growFull o d false) o
  let r ← buildLoop o nodeKey o.fullDepth (o.depth - o.fullDepth)
  let o := r.1
  let nodeKey := r.2
  let d := o.fullDepth
  let old ← need (o.children d)
  let nemptyIdx := if o.batchSize = 1 then nodeKey
    else nodeKey.map fun k => ((k >>> 48) <<< (3 * d)) ||| (k &&& ((1 <<< 48) - 1))
  let children ← idxSet (List.replicate old.length (-1)) (nemptyIdx.map Int.ofNat)
    (arange nodeKey.length)
  let o := { o with
    children := upd o.children d (some children)
    nnumNempty := upd o.nnumNempty d nodeKey.length }
  let d := o.depth
  let pts ← average (fun c (v : V3 ℚ) => v.map (· / c)) points idx counts
  let o := { o with points := upd o.points d (some pts) }
  let o ← (match pc.normals with
    | some normals => do
      let s ← scatterAdd normals (idx.map Int.ofNat) none
      pure { o with normals := upd o.normals d (some (s.map nrm)) }
    | none => pure o : M (Octree F))
  let o ← (match pc.features with
    | some features => do
      let s ← average divF features idx counts
      pure { o with features := upd o.features d (some s) }
    | none => pure o : M (Octree F))
  pure (o, idx)

end Octree

end Ocnn
