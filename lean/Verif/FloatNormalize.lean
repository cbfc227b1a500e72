import Verif.Float32
import Verif.Points

/-! `Points.normalize` and `Points.clip` in single precision. -/

namespace Ocnn
variable {F L : Type}
namespace Points

/-- The centre of one axis, points.py 220: the product with 0.5 rounds as well. -/
def centerF32 (lo hi : ℚ) : ℚ := f32 (f32 (lo + hi) * (1 / 2))

/-- `box_size`, points.py 221: the Python number 1.0e-6 is added as the float32 number nearest to it. -/
def boxSizeF32 (bbmin bbmax : V3 ℚ) : ℚ :=
  f32 (max (max (f32 (bbmax.x - bbmin.x)) (f32 (bbmax.y - bbmin.y))) (f32 (bbmax.z - bbmin.z)) + f32 (1 / 10 ^ 6))

/-- The factor `2.0 * scale / box_size`, points.py 222: torch divides a number by a tensor by multiplying the reciprocal of the tensor with the number. -/
def factorF32 (bbmin bbmax : V3 ℚ) (scale : ℚ) : ℚ := f32 (f32 (1 / boxSizeF32 bbmin bbmax) * f32 (2 * scale))

/-- `normalize(bbmin, bbmax, scale)`, points.py 210-222, in single precision: every operation rounds.  Simplified: the exponents are not bounded. -/
def normalizeF32 (p : Points ℚ F L) (bbmin bbmax : V3 ℚ) (scale : ℚ) : Points ℚ F L :=
  let center : V3 ℚ := ⟨centerF32 bbmin.x bbmax.x, centerF32 bbmin.y bbmax.y, centerF32 bbmin.z bbmax.z⟩
  let factor := factorF32 bbmin bbmax scale
  { p with points := p.points.map fun v =>
      ⟨f32 (f32 (v.x - center.x) * factor), f32 (f32 (v.y - center.y) * factor), f32 (f32 (v.z - center.z) * factor)⟩ }

/-- `clip(min, max, esp)`, points.py 158-170, for points in single precision: the comparisons of `inbox_mask` are exact, the bounds are rounded to single precision.
Simplified: the sums `min + esp` and `max - esp` are exact before that; Python computes them in double precision. -/
def clipF32 (p : Points ℚ F L) (mn mx esp : ℚ) : M (Points ℚ F L × List Bool) := do
  let mask := p.inboxMask ⟨f32 (mn + esp), f32 (mn + esp), f32 (mn + esp)⟩ ⟨f32 (mx - esp), f32 (mx - esp), f32 (mx - esp)⟩
  let tmp ← p.getItem mask
  pure (tmp, mask)

end Points
end Ocnn
