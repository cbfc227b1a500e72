import Verif.Points
import Verif.Float32

/-! `merge_points` with the rounding of the sizes and batch indices, which go through single precision. -/

namespace Ocnn

/-- A count that is stored in a float32 tensor and converted back by `.long()`, points.py 319; also the batch index of float32 points,
points.py 320, converted back by the users of `batch_id`. -/
def storeF32 (n : Nat) : Nat := ⌊f32 n⌋.toNat

/-- `merge_points`, points.py 298-322, for float32 points: `batch_npt` is made by `torch.Tensor([p.npt for p in points]).long()` and
`batch_id` by `p.points.new_full((p.npt, 1), i)`. -/
def Points.mergeF32 {K F L : Type} (ps : List (Points K F L)) (updateBatchInfo : Bool) : M (Points K F L) := do
  let out ← Points.merge ps updateBatchInfo
  pure { out with
    batchNpt := out.batchNpt.map fun l => l.map storeF32
    batchId := out.batchId.map fun l => l.map fun i => (storeF32 i.toNat : Int) }

end Ocnn
