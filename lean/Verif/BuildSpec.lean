import Verif.OctreeSpec
import Verif.Points
import Mathlib.Algebra.BigOperators.Group.List.Basic

/-! Specification vocabulary for building an octree from a point cloud.  The only thing used from the model is
the record of the public attributes of a point cloud. -/

namespace Ocnn
variable {F : Type}

/-- A legal point cloud for an octree with `B` samples; `samples` are the samples of the points.  With a single
sample the batch indices are not used. -/
structure Samples {L : Type} (B : Nat) (pc : Points ℚ F L) (samples : List Nat) : Prop where
  length : samples.length = pc.points.length
  lt : ∀ b ∈ samples, b < B
  ids : B ≠ 1 → pc.batchId = some (samples.map Int.ofNat)
  normals : ∀ n, pc.normals = some n → n.length = pc.points.length
  features : ∀ f, pc.features = some f → f.length = pc.points.length

namespace Spec

/-- The `n`-th of the `2^d` half-open intervals into which `[-1, 1)` is divided at level `d` contains `v`. -/
def SideContains (d n : Nat) (v : ℚ) : Prop :=
  -1 + n * (2 / 2 ^ d) ≤ v ∧ v < -1 + (n + 1) * (2 / 2 ^ d)

instance (d n : Nat) (v : ℚ) : Decidable (SideContains d n v) := by unfold SideContains; infer_instance

/-- The half-open cube of side `2^(1-d)` of the cell `c` of level `d` contains the point. -/
def CubeContains (d : Nat) (c : Cell) (p : V3 ℚ) : Prop :=
  SideContains d c.x p.x ∧ SideContains d c.y p.y ∧ SideContains d c.z p.z

instance (d : Nat) (c : Cell) (p : V3 ℚ) : Decidable (CubeContains d c p) := by unfold CubeContains; infer_instance

/-- The point is in the half-open cube `[-1, 1)³`. -/
def InCube (p : V3 ℚ) : Prop := (-1 ≤ p.x ∧ p.x < 1) ∧ (-1 ≤ p.y ∧ p.y < 1) ∧ (-1 ≤ p.z ∧ p.z < 1)

instance (p : V3 ℚ) : Decidable (InCube p) := by unfold InCube; infer_instance

/-- Some point of sample `c.b` lies in the cube of `c`. -/
def Occupied (points : List (V3 ℚ)) (samples : List Nat) (d : Nat) (c : Cell) : Prop :=
  ∃ (i : Nat) (p : V3 ℚ), points[i]? = some p ∧ samples[i]? = some c.b ∧ CubeContains d c p

/-- Whether a point with its sample belongs to the cell. -/
def belongs (d : Nat) (c : Cell) (e : V3 ℚ × Nat) : Bool := decide (e.2 = c.b ∧ CubeContains d c e.1)

/-- The sum of the values of the points in a cell. -/
def sumIn {V : Type} [Add V] [Zero V] (d : Nat) (c : Cell) (cloud : List (V3 ℚ × Nat)) (vals : List V) : V :=
  (((cloud.zip vals).filter fun e => belongs d c e.1).map Prod.snd).sum

/-- The number of points in a cell. -/
def countIn (d : Nat) (c : Cell) (cloud : List (V3 ℚ × Nat)) : Nat := cloud.countP (belongs d c)

/-- Position of a point in units of the finest cells: `[-1, 1]` is mapped to `[0, 2^d]`. -/
def gridPos (d : Nat) (p : V3 ℚ) : V3 ℚ := p.map fun v => (v + 1) * 2 ^ d / 2

/-- The inverse of `gridPos`. -/
def gridPoint (d : Nat) (p : V3 ℚ) : V3 ℚ := p.map fun v => v * 2 / 2 ^ d - 1

end Spec
end Ocnn
