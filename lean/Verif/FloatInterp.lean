import Verif.Float32
import Verif.Interp

/-! Nearest interpolation at points with single precision coordinates. -/

namespace Ocnn
variable {F V : Type}

/-- `OctreeInterp.forward` with the method `'nearest'` and `rescale_pts`, octree_interp.py 117-126, in single precision: the sum and the product that scale the
coordinates (122-124) round; the search and the comparison with the bounds that follow are exact.  The result and the new contents of `pts`. -/
def octreeNearestF32 [Zero V] (nempty boundCheck : Bool) (data : List V) (o : Octree F) (d : Nat) (pts : List Pt4) : M (List V) × List Pt4 :=
  let pts := pts.map fun p => (p.1.map (scaleF32 d), p.2)
  (octreeNearestPts data o d pts nempty boundCheck, pts)

end Ocnn
