import Verif.Float32
import Verif.FloatConv
import Verif.Interp

/-! Linear interpolation in single precision: ocnn/nn/octree_interp.py 50-99. -/

namespace Ocnn
variable {F : Type}

/-- `xyzf = pts[:, :3] - 0.5` for one coordinate, octree_interp.py 67, in single precision. -/
def linSub32 (v : ℚ) : ℚ := f32 (v - 1 / 2)

/-- `xyzi = xyzf.floor()`, octree_interp.py 68; the floor of a float32 number is exact. -/
def linInt32 (p : V3 ℚ) : V3 ℚ := p.map fun v => ((⌊linSub32 v⌋ : ℤ) : ℚ)

/-- `frac = xyzf - xyzi`, octree_interp.py 69, in single precision. -/
def linFrac32 (p : V3 ℚ) : V3 ℚ := p.map fun v => f32 (linSub32 v - ((⌊linSub32 v⌋ : ℤ) : ℚ))

/-- `xyzn = xyzi + grid`, octree_interp.py 71, in single precision. -/
def linCorners32 (p : V3 ℚ) : List (V3 ℚ) :=
  grid.map fun g => ⟨f32 ((linInt32 p).x + g.x), f32 ((linInt32 p).y + g.y), f32 ((linInt32 p).z + g.z)⟩

/-- `weight`, octree_interp.py 86-88, in single precision: the differences and the two products of `prod` round.  Simplified: as in `f32`, the exponent is not
bounded; the weights are 0 or at least `2 ^ -73`. -/
def linWeights32 (p : V3 ℚ) : List ℚ :=
  grid.map fun g => |f32 (f32 (f32 ((1 - g.x) - (linFrac32 p).x) * f32 ((1 - g.y) - (linFrac32 p).y)) * f32 ((1 - g.z) - (linFrac32 p).z))|

/-- The summands of `torch.sparse.mm(mat, data)`, octree_interp.py 92-97, for every row and channel. -/
def sparseTerms {C : Nat} (npt : Nat) (entries : List ((Nat × Int) × ℚ)) (data : List (Fin C → ℚ)) : M (List (Fin C → Multiset Term)) := do
  pyAssert (∀ e ∈ entries, e.1.1 < npt ∧ 0 ≤ e.1.2 ∧ e.1.2 < data.length)
  pure ((List.range npt).map fun i => fun c =>
    ((entries.filter fun e => decide (e.1.1 = i)).map fun e => Term.prod e.2 (((data[e.1.2.toNat]?).getD 0) c) : List Term))

/-- `octree_linear_pts`, octree_interp.py 50-99, in single precision, up to the division: the summands of `output` and of `norm` for every point. -/
def octreeLinearTerms {C : Nat} (data : List (Fin C → ℚ)) (o : Octree F) (d : Nat) (pts : List Pt4) (nempty boundCheck : Bool) :
    M (List ((Fin C → Multiset Term) × Multiset Term)) := do
  let nnum ← nnumOf o d nempty
  pyAssert (data.length = nnum)
  let xyzn := pts.flatMap fun p => linCorners32 p.1
  let batch := pts.flatMap fun p => List.replicate 8 p.2
  let idx ← searchPts o (xyzn.zip batch) d nempty
  let valid := validMask boundCheck d idx xyzn
  let idx ← boolIndex valid idx
  let npt := pts.length
  let ids := (List.range npt).flatMap fun i => List.replicate 8 i
  let ids ← boolIndex valid ids
  let weight := pts.flatMap fun p => linWeights32 p.1
  let weight ← boolIndex valid weight
  let entries := (ids.zip idx).zip weight
  let output ← sparseTerms npt entries data
  let norm ← sparseTerms npt entries (List.replicate data.length (fun _ : Fin 1 => 1))
  pure (List.zipWith (fun v n => (v, n 0)) output norm)

/-- `y` can be the result of `torch.div(output, norm + 1e-12)`, octree_interp.py 98, for the summands `s` of `output` and `n` of `norm`: both are added up in
any order, with a relative error of at most `2 ^ -24` per operation and an absolute error of at most `2 ^ -149` for products and quotients that underflow; the
constant is rounded to single precision. -/
def LinearF32 (s n : Multiset Term) (y : ℚ) : Prop :=
  ∃ a b t, Rounded (1 / 2 ^ 24) (1 / 2 ^ 149) s a ∧ Rounded (1 / 2 ^ 24) (1 / 2 ^ 149) n b ∧
    |t - (b + f32 (1 / 10 ^ 12))| ≤ 1 / 2 ^ 24 * |b + f32 (1 / 10 ^ 12)| ∧ |y - a / t| ≤ 1 / 2 ^ 24 * |a / t| + 1 / 2 ^ 149

end Ocnn
