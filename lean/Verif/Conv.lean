import Verif.Nn
import Mathlib.Data.Matrix.Basic
import Mathlib.Algebra.BigOperators.Fin

/-! Model of ocnn/nn/octree_conv.py, octree_dwconv.py and octree_gconv.py.

Rows of the input are elements of a type `A`, rows of the output elements of a type `B`, and `W` is the type of
the weights of one kernel offset.  The loops of `OctreeConvBase` and `OctreeDWConvBase` differ only in the
product that is used, so they are modelled once, for a `Kernel` of three products. -/

namespace Ocnn
variable {F A B W : Type}

/-- The three products in the inner loops. -/
structure Kernel (A B W : Type) where
  /-- one term of `torch.mm(buffer, weights)` -/
  ap : A → W → B
  /-- one term of `torch.mm(grad, weights.t())` -/
  apT : B → W → A
  /-- one term of `torch.mm(buffer.t(), grad)` -/
  outer : A → B → W

/-- Dense matrices, octree_conv.py 139, 160, 211: `A` has `ci` channels, `B` has `co` channels. -/
def denseKernel (R : Type) [CommSemiring R] (ci co : Nat) :
    Kernel (Fin ci → R) (Fin co → R) (Fin ci → Fin co → R) where
  ap v w := fun c => ∑ j, v j * w j c
  apT g w := fun j => ∑ c, g c * w j c
  outer v g := fun j c => v j * g c

/-- Depth-wise weights, octree_dwconv.py 63, 89-90, 135. -/
def dwKernel (R : Type) [CommSemiring R] (c : Nat) : Kernel (Fin c → R) (Fin c → R) (Fin c → R) where
  ap v w := fun i => v i * w i
  apT g w := fun i => g i * w i
  outer v g := fun i => v i * g i

/-- `OctreeConvBase.__init__`, octree_conv.py 21-36. -/
structure ConvBase where
  isConv : Bool
  inChannels : Nat
  outChannels : Nat
  kernelSize : List Nat
  kernel : String
  stride : Nat
  nempty : Bool
  maxBuffer : Nat
  kdim : Nat
  inConv : Nat

/-- `OctreeConvBase.__init__`, octree_conv.py 21-36 (`weights_shape` is the type of the weights). -/
def ConvBase.init (isConv : Bool) (inC outC : Nat) (kernelSize : List Nat) (stride : Nat) (nempty : Bool)
    (maxBuffer : Nat) : M ConvBase := do
  let ks ← resizeWithLastVal kernelSize
  let k0 ← getIdx ks 0
  let k1 ← getIdx ks 1
  let k2 ← getIdx ks 2
  pure { isConv := isConv, inChannels := inC, outChannels := outC, kernelSize := ks, kernel := list2str ks,
         stride := stride, nempty := nempty, maxBuffer := maxBuffer, kdim := k0 * k1 * k2,
         inConv := if isConv then inC else outC }

/-- The attributes set by `setup`. -/
structure ConvSetup where
  inH : Nat
  outH : Nat
  neigh : List (List Int)
  kdim : Nat
  bufferN : Nat
  bufferH : Nat

/-- The size of the temporary buffer, octree_conv.py 82-93: `(buffer_n, buffer_h)`. -/
def bufferSize (rows kdim inConv maxBuffer : Nat) : M (Nat × Nat) :=
  let ideal := rows * kdim * inConv
  if ideal > maxBuffer then
    let kc := kdim * inConv
    if kc = 0 then .error .zeroDiv
    else
      let mb := maxBuffer / kc * kc
      if mb = 0 then .error .zeroDiv
      else
        let n := (ideal + mb - 1) / mb
        if n = 0 then .error .zeroDiv
        else .ok (n, (rows + n - 1) / n)
  else .ok (1, rows)

/-- `setup`, octree_conv.py 44-93.  A strided convolution at depth 0 (which wraps around to the last layer) is
not modelled. -/
def ConvBase.setup (c : ConvBase) (o : Octree F) (depth : Nat) : M ConvSetup := do
  if c.stride = 2 ∧ c.isConv = true ∧ depth = 0 then .error .domain
  let inDepth := depth
  let outDepth := if c.stride = 2 then (if c.isConv then depth - 1 else depth + 1) else depth
  let neighDepth := if c.stride = 2 then (if c.isConv then depth else depth + 1) else depth
  o.chk inDepth
  o.chk outDepth
  let inH := if c.nempty then o.nnumNempty inDepth
    else if c.stride = 2 ∧ c.isConv = false then o.nnumNempty inDepth else o.nnum inDepth
  let outH := if c.nempty then o.nnumNempty outDepth
    else if c.stride = 2 ∧ c.isConv = true then o.nnumNempty outDepth else o.nnum outDepth
  let neigh ← o.getNeigh neighDepth c.kernel c.stride c.nempty
  let b ← bufferSize neigh.length c.kdim c.inConv c.maxBuffer
  pure { inH := inH, outH := outH, neigh := neigh, kdim := c.kdim, bufferN := b.1, bufferH := b.2 }

/-- `check_and_init`, octree_conv.py 95-105. -/
def ConvSetup.checkAndInit {X Y : Type} [Zero Y] (s : ConvSetup) (data : List X) : M (List Y) := do
  pyAssert (data.length = s.inH)
  pure (List.replicate s.outH 0)

/-- `t[start:end]` -/
def slice {α : Type _} (t : List α) (start stop : Nat) : List α := (t.take stop).drop start

/-- `t[start:end] = rows`: the heights must agree, or `rows` has one row. -/
def sliceSet {α : Type _} (t : List α) (start stop : Nat) (rows : List α) : M (List α) :=
  let h := (slice t start stop).length
  if rows.length = h then .ok (t.take start ++ rows ++ t.drop (start + h))
  else match rows with
    | [v] => .ok (t.take start ++ List.replicate h v ++ t.drop (start + h))
    | _ => .error .shape

/-- The end of chunk `i` and the height of the buffer after the possible `buffer.split`,
octree_conv.py 123-131: a split must have non-negative parts that add up to the current height. -/
def chunkEnd (s : ConvSetup) (bufH i : Nat) : M (Nat × Nat) :=
  let stop := (i + 1) * s.bufferH
  if stop > s.neigh.length then
    let dis := stop - s.neigh.length
    if dis ≤ s.bufferH ∧ s.bufferH - dis + dis = bufH then .ok (s.neigh.length, s.bufferH - dis)
    else .error .shape
  else .ok (stop, bufH)

/-- `buffer.fill_(0); buffer[valid] = data[neigh_i[valid]]`, octree_conv.py 133-137: the mask must have the
shape of the buffer. -/
def fillBuffer [Zero A] (s : ConvSetup) (bufH : Nat) (neighI : List (List Int)) (data : List A) :
    M (List (List A)) := do
  if neighI.length ≠ bufH then .error .index
  if ∃ r ∈ neighI, r.length ≠ s.kdim then .error .index
  gatherCols neighI data

/-- `torch.mm(buffer.flatten(1, 2), weights.flatten(0, 1))`, one row. -/
def mmRow [AddCommMonoid B] (K : Kernel A B W) (weights : List W) (row : List A) : B :=
  (List.zipWith K.ap row weights).sum

/-- One iteration of the loop in `forward_gemm`, octree_conv.py 121-139 and octree_dwconv.py 45-63.  The state
is the current height of the buffer and `out`. -/
def forwardStep [Zero A] [AddCommMonoid B] (K : Kernel A B W) (s : ConvSetup) (data : List A) (weights : List W)
    (st : Nat × List B) (i : Nat) : M (Nat × List B) := do
  let e ← chunkEnd s st.1 i
  let buffer ← fillBuffer s e.2 (slice s.neigh (i * s.bufferH) e.1) data
  let rows ← (if weights.length = s.kdim then .ok (buffer.map (mmRow K weights)) else .error .shape : M (List B))
  let out ← sliceSet st.2 (i * s.bufferH) e.1 rows
  pure (e.2, out)

/-- `forward_gemm`, octree_conv.py 107-141 and octree_dwconv.py 30-64. -/
def forwardGemm [Zero A] [AddCommMonoid B] (K : Kernel A B W) (s : ConvSetup) (out : List B) (data : List A)
    (weights : List W) : M (List B) := do
  let r ← (List.range s.bufferN).foldlM (forwardStep K s data weights) (s.bufferH, out)
  pure r.2

/-- `scatter_add(src, index, dim=0, out=out)`, utils.py 117-147. -/
def scatterAddOut {V : Type _} [Add V] (src : List V) (index : List Int) (out : List V) : M (List V) := do
  let index ← (if index.length = src.length then .ok index
    else match index with
      | [i] => .ok (List.replicate src.length i)
      | _ => .error .shape : M (List Int))
  let js ← index.mapM (scatterIdx out.length)
  pure (scatterAddInto out (js.zip src))

/-- One iteration of the loop in `backward_gemm`, octree_conv.py 154-171 and octree_dwconv.py 78-95. -/
def backwardStep [AddCommMonoid A] (K : Kernel A B W) (s : ConvSetup) (grad : List B) (weights : List W)
    (out : List A) (i : Nat) : M (List A) := do
  let start := i * s.bufferH
  let stop := if (i + 1) * s.bufferH > s.neigh.length then s.neigh.length else (i + 1) * s.bufferH
  let buffer ← (if weights.length = s.kdim then
      .ok ((slice grad start stop).map fun g => weights.map fun w => K.apT g w)
    else .error .shape : M (List (List A)))
  let neighI := slice s.neigh start stop
  let src ← validRows neighI buffer
  scatterAddOut src (validIdx neighI) out

/-- `backward_gemm`, octree_conv.py 143-173 and octree_dwconv.py 66-97. -/
def backwardGemm [AddCommMonoid A] (K : Kernel A B W) (s : ConvSetup) (out : List A) (grad : List B)
    (weights : List W) : M (List A) :=
  (List.range s.bufferN).foldlM (backwardStep K s grad weights) out

/-- `torch.mm(buffer.flatten(1, 2).t(), grad)`: entry `k` sums over the rows (a missing entry, which cannot
occur for a buffer of width `kdim`, counts as 0). -/
def outerSum [Zero A] [AddCommMonoid W] (K : Kernel A B W) (kdim : Nat) (buffer : List (List A)) (grad : List B) :
    List W :=
  (List.range kdim).map fun k => (List.zipWith (fun row g => K.outer ((row[k]?).getD 0) g) buffer grad).sum

/-- One iteration of the loop in `weight_gemm`, octree_conv.py 193-211 and octree_dwconv.py 117-135. -/
def weightStep [Zero A] [AddCommMonoid W] (K : Kernel A B W) (s : ConvSetup) (data : List A) (grad : List B)
    (st : Nat × List W) (i : Nat) : M (Nat × List W) := do
  let e ← chunkEnd s st.1 i
  let buffer ← fillBuffer s e.2 (slice s.neigh (i * s.bufferH) e.1) data
  let g := slice grad (i * s.bufferH) e.1
  if g.length = buffer.length ∧ st.2.length = s.kdim then
    pure (e.2, List.zipWith (· + ·) st.2 (outerSum K s.kdim buffer g))
  else .error .shape

/-- `weight_gemm`, octree_conv.py 175-213 and octree_dwconv.py 99-136. -/
def weightGemm [Zero A] [AddCommMonoid W] (K : Kernel A B W) (s : ConvSetup) (out : List W) (data : List A)
    (grad : List B) : M (List W) := do
  let r ← (List.range s.bufferN).foldlM (weightStep K s data grad) (s.bufferH, out)
  pure r.2

/-- `OctreeConvFunction.forward` and `OctreeDWConvFunction.forward`, octree_conv.py 234-247 and
octree_dwconv.py 143-155. -/
def convForward [Zero A] [AddCommMonoid B] (K : Kernel A B W) (c : ConvBase) (data : List A) (weights : List W)
    (o : Octree F) (depth : Nat) : M (List B) := do
  let s ← c.setup o depth
  let out : List B ← s.checkAndInit data
  forwardGemm K s out data weights

/-- `OctreeConvFunction.backward` (both gradients), octree_conv.py 249-264 and octree_dwconv.py 157-172. -/
def convBackward [AddCommMonoid A] [AddCommMonoid W] (K : Kernel A B W) (c : ConvBase) (data : List A)
    (weights : List W) (o : Octree F) (depth : Nat) (grad : List B) : M (List A × List W) := do
  let s ← c.setup o depth
  let gx ← backwardGemm K s (List.replicate data.length 0) grad weights
  let gw ← weightGemm K s (List.replicate weights.length 0) data grad
  pure (gx, gw)

/-- `OctreeDeconvFunction.forward`, octree_conv.py 271-284: the input has rows of type `B`. -/
def deconvForward [AddCommMonoid A] (K : Kernel A B W) (c : ConvBase) (data : List B) (weights : List W)
    (o : Octree F) (depth : Nat) : M (List A) := do
  let s ← c.setup o depth
  let out : List A ← s.checkAndInit data
  backwardGemm K s out data weights

/-- `OctreeDeconvFunction.backward`, octree_conv.py 286-301. -/
def deconvBackward [Zero A] [AddCommMonoid B] [AddCommMonoid W] (K : Kernel A B W) (c : ConvBase) (data : List B)
    (weights : List W) (o : Octree F) (depth : Nat) (grad : List A) : M (List B × List W) := do
  let s ← c.setup o depth
  let gx ← forwardGemm K s (List.replicate data.length 0) grad weights
  let gw ← weightGemm K s (List.replicate weights.length 0) grad data
  pure (gx, gw)

/-- The module parameters of `OctreeConv` and `OctreeDeconv`, octree_conv.py 332-350. -/
structure ConvModule (B W : Type) where
  base : ConvBase
  directMethod : Bool
  weights : List W
  bias : Option B

/-- `out += self.bias` if `use_bias`. -/
def addBias [Add B] (bias : Option B) (out : List B) : List B :=
  match bias with
  | some b => out.map (· + b)
  | none => out

/-- `torch.mm(col.flatten(1), weights.flatten(0, 1))`, octree_conv.py 372: the row sizes must agree. -/
def mmCols [AddCommMonoid B] (K : Kernel A B W) (weights : List W) (col : List (List A)) : M (List B) :=
  if ∃ r ∈ col, r.length ≠ weights.length then .error .shape else .ok (col.map (mmRow K weights))

/-- `OctreeConv.forward`, octree_conv.py 361-385, and `OctreeDWConv.forward`, octree_dwconv.py 205-217 (for
which `directMethod` is false). -/
def ConvModule.forward [Zero A] [AddCommMonoid B] (K : Kernel A B W) (m : ConvModule B W) (data : List A)
    (o : Octree F) (depth : Nat) : M (List B) := do
  let out ← (if m.directMethod then do
      let col ← octree2col data o depth m.base.kernel m.base.stride m.base.nempty
      mmCols K m.weights col
    else convForward K m.base data m.weights o depth : M (List B))
  let out := addBias m.bias out
  if m.base.stride = 2 ∧ m.base.nempty = false then
    if depth = 0 then .error .domain else octreePad out o (depth - 1) 0
  else pure out

/-- `OctreeDeconv.forward`, octree_conv.py 404-429. -/
def ConvModule.deconvForward [AddCommMonoid A] (K : Kernel A B W) (m : ConvModule A W) (data : List B)
    (o : Octree F) (depth : Nat) : M (List A) := do
  let depthCol := if m.base.stride = 2 then depth + 1 else depth
  let data ← (if m.base.stride = 2 ∧ m.base.nempty = false then octreeDepad data o depth
    else pure data : M (List B))
  let out ← (if m.directMethod then do
      let col := data.map fun g => m.weights.map fun w => K.apT g w
      col2octree col o depthCol m.base.kernel m.base.stride m.base.nempty
    else Ocnn.deconvForward K m.base data m.weights o depth : M (List A))
  pure (addBias m.bias out)

/-- The columns of group `g` of a row with `n * c` channels (`torch.split(data, c, dim=1)[g]`,
octree_gconv.py 68). -/
def groupSlice {R : Type} {n c : Nat} (g : Fin n) (v : Fin (n * c) → R) : Fin c → R :=
  fun j => v (finProdFinEquiv (g, j))

/-- `torch.cat(outs, dim=1)` of `n` tensors with `c` channels, octree_gconv.py 71: the heights must agree
(the value for a missing row is never used). -/
def catChannels {R : Type} [Zero R] {n c : Nat} (outs : List (List (Fin c → R))) : M (List (Fin (n * c) → R)) :=
  match outs.map List.length with
  | [] => .error .value
  | h :: hs =>
    if ∀ h' ∈ hs, h' = h then
      .ok ((List.range h).map fun i => fun (j : Fin (n * c)) =>
        let p := finProdFinEquiv.symm j
        (((outs[p.1.val]?).getD [])[i]?.getD 0) p.2)
    else .error .shape

/-- The channel checks of `OctreeGroupConv.__init__`, octree_gconv.py 43-48: the channels per group. -/
def groupConvInit (inC outC group : Nat) : M (Nat × Nat) := do
  if group = 0 then .error .zeroDiv
  pyAssert (inC % group = 0 ∧ outC % group = 0)
  pure (inC / group, outC / group)

/-- `OctreeGroupConv.forward`, octree_gconv.py 55-72. -/
def groupConvForward {R : Type} [CommSemiring R] {n ci co : Nat}
    (convs : Fin n → ConvModule (Fin co → R) (Fin ci → Fin co → R)) (data : List (Fin (n * ci) → R))
    (o : Octree F) (depth : Nat) : M (List (Fin (n * co) → R)) := do
  let outs ← (List.finRange n).mapM fun g =>
    (convs g).forward (denseKernel R ci co) (data.map (groupSlice g)) o depth
  catChannels outs

end Ocnn
