import Verif.Dataset

/-! Model of projects/datascts/scannet.py. -/

namespace Ocnn

/-! ### color_distort -/

/-- A floating point number that may be "not a number" (`none`). -/
abbrev MaybeNum := Option ℚ

/-- The random numbers of one call of `color_distort`: the factor of scannet.py 32, the coin and the row of 38-39, the coin and the rows of 44-45. -/
structure ColorDraw where
  blend : ℚ
  coin : ℚ
  shift : V3 ℚ
  coin' : ℚ
  noise : List (V3 ℚ)

/-- The smallest and largest value of a channel; ValueError for an empty array, scannet.py 25-26, 64, 66. -/
def channelRange (c : List ℚ) : M (ℚ × ℚ) :=
  match c with
  | [] => .error .value
  | v :: vs => .ok (vs.foldl min v, vs.foldl max v)

/-- `_color_autocontrast` for one value of a channel with the range `lo`, `hi`, scannet.py 29-33: in a constant channel the scale is infinite, zero times infinity is not a number,
and so is every combination with it. -/
def contrast (blend lo hi v : ℚ) : MaybeNum :=
  if hi - lo = 0 then none else some ((1 - blend) * v + blend * ((v - lo) * (255 / (hi - lo))))

/-- `np.clip(a, 0, 255)`; "not a number" stays. -/
def clip255 (v : MaybeNum) : MaybeNum := v.map fun v => min (max v 0) 255

/-- `_color_translation` for one value, scannet.py 36-41. -/
def colorShift (d : ColorDraw) (ratio u : ℚ) (v : MaybeNum) : MaybeNum :=
  if d.coin < 95 / 100 then clip255 (v.map fun v => (u - 1 / 2) * 255 * 2 * ratio + v) else v

/-- `_color_jiter` for one value, scannet.py 43-48. -/
def colorJitter (d : ColorDraw) (std n : ℚ) (v : MaybeNum) : MaybeNum :=
  if d.coin' < 95 / 100 then clip255 (v.map fun v => n * (std * 255) + v) else v

/-- One row of the result of `color_distort` from the row of the colour and of the noise, scannet.py 50-54. -/
def colorRow (d : ColorDraw) (ratio std : ℚ) (lo hi : V3 ℚ) (v n : V3 ℚ) : V3 MaybeNum :=
  let one (lo hi u v n : ℚ) : MaybeNum := (colorJitter d std n (colorShift d ratio u (contrast d.blend lo hi v))).map (· / 255)
  ⟨one lo.x hi.x d.shift.x v.x n.x, one lo.y hi.y d.shift.y v.y n.y, one lo.z hi.z d.shift.z v.z n.z⟩

/-- `color_distort(color, trans_range_ratio, jitter_std)`, scannet.py 21-55, for colours with three channels (with more, the assignment in line 33 raises).  The noise has one row per
colour by construction; a different number of rows raises. -/
def colorDistort (d : ColorDraw) (ratio std : ℚ) (color : List (V3 ℚ)) : M (List (V3 MaybeNum)) := do
  let color := color.map fun v => v.map (· * 255)
  let x ← channelRange (color.map V3.x)
  let y ← channelRange (color.map V3.y)
  let z ← channelRange (color.map V3.z)
  pyAssert (max (max x.2 y.2) z.2 > 1)
  if d.noise.length ≠ color.length then .error .shape
  pure (List.zipWith (colorRow d ratio std ⟨x.1, y.1, z.1⟩ ⟨x.2, y.2, z.2⟩) color d.noise)

/-! ### elastic_distort -/

/-- An array of shape `(nx, ny, nz)`: a function of the indices, 0 outside. -/
structure Grid where
  nx : Nat
  ny : Nat
  nz : Nat
  val : Int → Int → Int → ℚ

namespace Grid

/-- The indices are those of an entry. -/
def InRange (g : Grid) (i j k : Int) : Prop := (0 ≤ i ∧ i < g.nx) ∧ (0 ≤ j ∧ j < g.ny) ∧ (0 ≤ k ∧ k < g.nz)

instance (g : Grid) (i j k : Int) : Decidable (g.InRange i j k) :=
  inferInstanceAs (Decidable ((0 ≤ i ∧ i < g.nx) ∧ (0 ≤ j ∧ j < g.ny) ∧ (0 ≤ k ∧ k < g.nz)))

/-- The entry at the indices, 0 outside (`cval=0`). -/
def get (g : Grid) (i j k : Int) : ℚ := if g.InRange i j k then g.val i j k else 0

/-- `convolve(noise, blurx, mode='constant', cval=0)`, scannet.py 61, 72: the mean over three entries along the first axis. -/
def blurX (g : Grid) : Grid := { g with val := fun i j k => (g.get (i - 1) j k + g.get i j k + g.get (i + 1) j k) / 3 }
/-- The same along the second axis, scannet.py 62, 73. -/
def blurY (g : Grid) : Grid := { g with val := fun i j k => (g.get i (j - 1) k + g.get i j k + g.get i (j + 1) k) / 3 }
/-- The same along the third axis, scannet.py 63, 74. -/
def blurZ (g : Grid) : Grid := { g with val := fun i j k => (g.get i j (k - 1) + g.get i j k + g.get i j (k + 1)) / 3 }

/-- The loop of scannet.py 71-74. -/
def smooth (g : Grid) : Grid := g.blurX.blurY.blurZ.blurX.blurY.blurZ

end Grid

/-- `np.linspace(a, b, n)` for `n ≥ 2`, scannet.py 77-80. -/
def linspace (a b : ℚ) (n : Nat) : List ℚ := (List.range n).map fun i : Nat => a + (i : ℚ) * ((b - a) / ((n - 1 : Nat) : ℚ))

/-- The interval of a grid that contains a number (the first or last one for numbers outside), as in `scipy.interpolate.RegularGridInterpolator`. -/
def interval (ax : List ℚ) (x : ℚ) : Nat := min ((ax.filter (· ≤ x)).length - 1) (ax.length - 2)

/-- The relative position of a number in an interval of the grid. -/
def weight (ax : List ℚ) (i : Nat) (x : ℚ) : ℚ := (x - ax.getD i 0) / (ax.getD (i + 1) 0 - ax.getD i 0)

/-- Linear interpolation between two values. -/
def lerp (t a b : ℚ) : ℚ := (1 - t) * a + t * b

/-- `RegularGridInterpolator(ax, noise, bounds_error=0, fill_value=0)` at one point, for one component of the noise, scannet.py 82-84. -/
def gridInterp (ax ay az : List ℚ) (g : Grid) (v : V3 ℚ) : ℚ :=
  let inside (ax : List ℚ) (x : ℚ) : Bool := decide (ax.headD 0 ≤ x) && decide (x ≤ ax.getLastD 0)
  if inside ax v.x && inside ay v.y && inside az v.z then
    let i := interval ax v.x
    let j := interval ay v.y
    let k := interval az v.z
    let along (i' j' : Int) : ℚ := lerp (weight az k v.z) (g.get i' j' k) (g.get i' j' (k + 1))
    let plane (i' : Int) : ℚ := lerp (weight ay j v.y) (along i' j) (along i' (j + 1))
    lerp (weight ax i v.x) (plane i) (plane (i + 1))
  else 0

/-- `noise_dim` along one axis, scannet.py 66. -/
def noiseDim (lo hi gran : ℚ) : Nat := (⌊(hi - lo) / gran⌋ + 3).toNat

/-- The grid along one axis, scannet.py 77-80. -/
def gridAxis (lo hi gran : ℚ) : List ℚ := linspace (lo - gran) (lo + gran * ((noiseDim lo hi gran : ℚ) - 2)) (noiseDim lo hi gran)

/-- `_elastic_distort(coords, granularity, magnitude)`, scannet.py 60-85.  `noise` are the three components of the random array. The minimum over no points
raises ValueError.  Computed exactly, the code computes in single precision. -/
def elasticStep (gran mag : ℚ) (noise : V3 (Int → Int → Int → ℚ)) (pts : List (V3 ℚ)) : M (List (V3 ℚ)) := do
  let x ← channelRange (pts.map V3.x)
  let y ← channelRange (pts.map V3.y)
  let z ← channelRange (pts.map V3.z)
  let grid (f : Int → Int → Int → ℚ) : Grid := Grid.smooth ⟨noiseDim x.1 x.2 gran, noiseDim y.1 y.2 gran, noiseDim z.1 z.2 gran, f⟩
  let interp (f : Int → Int → Int → ℚ) (v : V3 ℚ) : ℚ := gridInterp (gridAxis x.1 x.2 gran) (gridAxis y.1 y.2 gran) (gridAxis z.1 z.2 gran) (grid f) v
  pure (pts.map fun v => ⟨v.x + interp noise.x v * mag, v.y + interp noise.y v * mag, v.z + interp noise.z v * mag⟩)

/-- `elastic_distort(points, distortion_params)`, scannet.py 58-91; `coin` is the random number of line 88, and the arrays of the passes come with the parameters. -/
def elasticDistort (coin : ℚ) (params : List (ℚ × ℚ × V3 (Int → Int → Int → ℚ))) (pts : List (V3 ℚ)) : M (List (V3 ℚ)) :=
  if coin < 95 / 100 then params.foldlM (fun pts p => elasticStep p.1 p.2.1 p.2.2 pts) pts else pure pts

/-! ### ScanNetTransform -/

/-- The normalised coordinates, scannet.py 111-114: the middle of the box along the first two axes, 0.5 along the third. -/
def scanNetNormalize (xyz : List (V3 ℚ)) : M (List (V3 ℚ)) := do
  let x ← channelRange (xyz.map V3.x)
  let y ← channelRange (xyz.map V3.y)
  let _ ← channelRange (xyz.map V3.z)
  let center : V3 ℚ := ⟨(x.1 + x.2) / 2, (y.1 + y.2) / 2, 1 / 2⟩
  pure (xyz.map fun v => (V3.mk (v.x - center.x) (v.y - center.y) (v.z - center.z)).map (· / (1024 / 100)))

/-- `ScanNetTransform.__call__(sample, idx)`, scannet.py 108-132, with the parameters of 103-106.  `noise` are the random arrays of the two passes of `elastic_distort`. -/
def scanNetCall (rt cosF sinF : ℚ → ℚ) (t : Transform) (r : Drawn) (d : ColorDraw) (coin : ℚ) (noise : V3 (Int → Int → Int → ℚ) × V3 (Int → Int → Int → ℚ))
    (xyz normals colors : List (V3 ℚ)) (labels : List Int) : M (Points ℚ (V3 MaybeNum) Int × List Bool) := do
  let xyz ← scanNetNormalize xyz
  let color := colors.map fun v => v.map (· / 255)
  let color ← (if t.distort then colorDistort d (1 / 10) (5 / 100) color else pure (color.map fun v => ⟨some v.x, some v.y, some v.z⟩) : M (List (V3 MaybeNum)))
  let xyz ← (if t.distort then elasticDistort coin [(1 / 10, 2 / 10, noise.1), (4 / 10, 8 / 10, noise.2)] xyz else pure xyz : M (List (V3 ℚ)))
  let p ← Points.init xyz (some normals) (some color) (some labels) none 1 0
  t.transform rt cosF sinF r p

end Ocnn
