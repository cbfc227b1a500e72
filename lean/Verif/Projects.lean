import Verif.Dataset

/-! Model of projects/segmentation.py (evaluation and metrics) and projects/tools/seg_scannet.py (chunks). -/

namespace Ocnn

variable {K : Type}

/-! ### SegSolver -/

/-- `torch.split(t, sizes)`, segmentation.py 111: the sizes must add up to the height. -/
def torchSplit {α : Type} (t : List α) (sizes : List Nat) : M (List (List α)) :=
  if sizes.sum = t.length then .ok (go sizes t) else .error .shape
where
  /-- The pieces. -/
  go : List Nat → List α → List (List α)
    | [], _ => []
    | n :: ns, t => t.take n :: go ns (t.drop n)

/-- The sum of two tensors of rows: equal heights, or one of them has a single row that is broadcast. -/
def addRows {V : Type} [Add V] (a b : List V) : M (List V) :=
  if a.length = b.length then .ok (List.zipWith (· + ·) a b)
  else
    match a, b with
    | [x], _ => .ok (b.map (x + ·))
    | _, [y] => .ok (a.map (· + y))
    | _, _ => .error .shape

/-- `d[key] = d.get(key, 0) + t`, segmentation.py 126 and seg_scannet.py 286. -/
def accRows {V : Type} [Add V] (d : Dict (List V)) (key : String) (t : List V) : M (Dict (List V)) :=
  match d.lookup key with
  | none => .ok (d.set key t)
  | some old => do
    let s ← addRows old t
    pure (d.set key s)

/-- What `eval_step` uses of a batch: the logits of the network for all points of the batch, the labels of the points,
the number of points of each sample, and the masks and file names of the samples. -/
structure EvalBatch (V : Type) where
  logit : List V
  labels : List Int
  npts : List Nat
  inbox : List (List Bool)
  filename : List String

section Eval
variable {V : Type} [Add V] [Zero V]

/-- The logits returned by `model_forward`, segmentation.py 74-78: rows with a label not above `mask` are dropped. -/
def modelForward (mask : Int) (b : EvalBatch V) : M (List V) :=
  boolIndex (b.labels.map fun l => decide (l > mask)) b.logit

/-- The loop body of `eval_step`, segmentation.py 120-127; writing the file in the last epoch is in `evalSampleSave`. -/
def evalSample (probs : List (List V)) (b : EvalBatch V) (rst : Dict (List V)) (i : Nat) : M (Dict (List V)) := do
  let prob ← getIdx probs i
  let inbox ← getIdx b.inbox i
  let all ← boolSet inbox (List.replicate inbox.length 0) prob
  let filename ← getIdx b.filename i
  accRows rst filename all

/-- `eval_step(batch)`, segmentation.py 102-127: the new value of `self.eval_rst`.  `softmax` acts on rows. -/
def evalStep (softmax : V → V) (mask : Int) (rst : Dict (List V)) (b : EvalBatch V) : M (Dict (List V)) := do
  let logit ← modelForward mask b
  let probs ← torchSplit (logit.map softmax) b.npts
  (List.range b.inbox.length).foldlM (evalSample probs b) rst

/-- The calls of `eval_step` of several batches and epochs, starting with an empty dictionary. -/
def evalRun (softmax : V → V) (mask : Int) (bs : List (EvalBatch V)) : M (Dict (List V)) :=
  bs.foldlM (evalStep softmax mask) []

end Eval

/-- `argmax(dim=1)` on a row: the first position of a largest entry; raises on an empty row. -/
def argmaxFrom [LinearOrder K] (best : K) (besti i : Nat) : List K → Nat
  | [] => besti
  | x :: xs => if best < x then argmaxFrom x i (i + 1) xs else argmaxFrom best besti (i + 1) xs

/-- See `argmaxFrom`. -/
def argmax [LinearOrder K] : List K → M Nat
  | [] => .error .index
  | x :: xs => .ok (argmaxFrom x 0 1 xs)

/-- `torch.sum(mask.float())` -/
def sumMask [Field K] (m : List Bool) : K := (m.map fun b => if b then (1 : K) else 0).sum

/-- The state of the loop of `IoU_per_shape`, segmentation.py 168-178: `IoU`, `valid_part_num`, and the lists. -/
structure IoUState (K : Type) where
  iou : K
  valid : K
  intsc : List K
  union : List K

/-- The loop body of `IoU_per_shape`, segmentation.py 170-177. -/
def iouStep [Field K] [LinearOrder K] (esp : K) (pred label : List Int) (s : IoUState K) (k : Nat) : IoUState K :=
  let pk := pred.map fun v => decide (v = (k : Int))
  let lk := label.map fun v => decide (v = (k : Int))
  let i : K := sumMask (List.zipWith (· && ·) pk lk)
  let u : K := sumMask (List.zipWith (· || ·) pk lk)
  let valid : K := if lk.any id then 1 else 0
  ⟨s.iou + valid * i / (u + esp), s.valid + valid, s.intsc ++ [i], s.union ++ [u]⟩

/-- `IoU_per_shape(logit, label, class_num)`, segmentation.py 165-181.  Predictions and labels of different
lengths raise. -/
def iouPerShape [Field K] [LinearOrder K] (logit : List (List K)) (label : List Int) (classNum : Nat) :
    M (K × List K × List K) := do
  let pred ← logit.mapM argmax
  if pred.length ≠ label.length then .error .shape
  else
    let s := (List.range classNum).foldl (iouStep (1 / 10 ^ 10) (pred.map Int.ofNat) label) ⟨0, 0, [], []⟩
    pure (s.iou / (s.valid + 1 / 10 ^ 10), s.intsc, s.union)

/-- `accuracy(logit, label)`, segmentation.py 160-163 (the mean over no points is not a number: `.domain`). -/
def accuracy [Field K] [LinearOrder K] (logit : List (List K)) (label : List Int) : M K := do
  let pred ← logit.mapM argmax
  if pred.length ≠ label.length then .error .shape
  else if pred.length = 0 then .error .domain
  else
    pure (sumMask (List.zipWith (fun (p : Nat) (l : Int) => decide ((p : Int) = l)) pred label) / (pred.length : K))

/-! ### seg_scannet.py -/

/-- `np.min(vertices, axis=0)` and `np.max(vertices, axis=0)` for a non-empty list. -/
def corner (f : ℚ → ℚ → ℚ) (v : V3 ℚ) (vs : List (V3 ℚ)) : V3 ℚ :=
  vs.foldl (fun a b => ⟨f a.x b.x, f a.y b.y, f a.z b.z⟩) v

/-- `np.ceil(np.maximum(bbmax - cropsize, 0) / stride).astype(np.int32) + 1` along one axis, seg_scannet.py 197-198. -/
def chunkNum (cropsize stride bbmax : ℚ) : Nat := (⌈max (bbmax - cropsize) 0 / stride⌉ + 1).toNat

/-- Whether a vertex is in the crop with the given lower corner, seg_scannet.py 202-205. -/
def inCrop (cropsize : ℚ) (cmin v : V3 ℚ) : Bool :=
  decide (v.x ≤ cmin.x + cropsize ∧ v.y ≤ cmin.y + cropsize ∧ v.z ≤ cmin.z + cropsize) &&
    decide (v.x ≥ cmin.x ∧ v.y ≥ cmin.y ∧ v.z ≥ cmin.z)

/-- `generate_chunks(filename, point_cloud, cropsize, stride)`, seg_scannet.py 186-212, reduced to the vertices: the
masks that are saved, in the order of `chunk_id`; `minSize` is the constant 3000. -/
def generateChunks (cropsize stride : ℚ) (minSize : Nat) (vertices : List (V3 ℚ)) : M (List (List Bool)) :=
  match vertices with
  | [] => .error .value
  | v :: vs =>
    let bbmin := corner min v vs
    let bbmax := corner max v vs
    if bbmax.x - bbmin.x < cropsize ∧ bbmax.y - bbmin.y < cropsize ∧ bbmax.z - bbmin.z < cropsize then .ok []
    else
      let offsets := (List.range (chunkNum cropsize stride bbmax.x)).flatMap fun i =>
        (List.range (chunkNum cropsize stride bbmax.y)).flatMap fun j =>
          (List.range (chunkNum cropsize stride bbmax.z)).map fun k => (i, j, k)
      let masks := offsets.map fun o =>
        (v :: vs).map (inCrop cropsize ⟨bbmin.x + o.1 * stride, bbmin.y + o.2.1 * stride, bbmin.z + o.2.2 * stride⟩)
      .ok (masks.filter fun m => ¬ m.count true < minSize)

/-- `filename.stem + '.chunk_%d.ply' % chunk_id`, without the suffix `.ply`, seg_scannet.py 208. -/
def chunkName (stem : String) (id : Nat) : String := stem ++ ".chunk_" ++ toString id

/-- `s[:-n]` for a positive `n`. -/
def dropLast (s : String) (n : Nat) : String := String.ofList (s.toList.take (s.toList.length - n))

section Output
variable {V : Type} [Add V] [Zero V]

/-- One turn of the first loop of `generate_output_seg`, seg_scannet.py 272-286; `pred` and `maskOf` read the
prediction and the mask of a file. -/
def mergePred (pred : String → M (List V)) (maskOf : String → M (List Bool)) (probs : Dict (List V)) (scan : String) :
    M (Dict (List V)) := do
  let prob0 ← pred scan
  let r ← (if hasSub "chunk" scan then do
      let mask ← maskOf scan
      let prob1 ← boolSet mask (List.replicate mask.length 0) prob0
      pure (dropLast scan 8, prob1)
    else pure (scan, prob0) : M (String × List V))
  accRows probs r.1 r.2

/-- The dictionary `probs` of `generate_output_seg`, seg_scannet.py 271-286, for the names of the file list (without
their last four characters). -/
def generateOutput (pred : String → M (List V)) (maskOf : String → M (List Bool)) (scans : List String) :
    M (Dict (List V)) :=
  scans.foldlM (mergePred pred maskOf) []

end Output

/-- `class_ids20`, seg_scannet.py 36-37. -/
def classIds20 : List Nat := [0, 1, 2, 3, 4, 5, 6, 7, 8, 9, 10, 11, 12, 14, 16, 24, 28, 33, 34, 36, 39]

/-- `class_ids200`, seg_scannet.py 38-51. -/
def classIds200 : List Nat := [
    0, 1, 2, 3, 4, 5, 6, 7, 8, 9, 10, 11, 13, 14, 15, 16, 17, 18, 19, 21, 22, 23, 24, 26, 27, 28, 29, 31, 32, 33,
    34, 35, 36, 38, 39, 40, 41, 42, 44, 45, 46, 47, 48, 49, 50, 51, 52, 54, 55, 56, 57, 58, 59, 62, 63, 64, 65, 66,
    67, 68, 69, 70, 71, 72, 73, 74, 75, 76, 77, 78, 79, 80, 82, 84, 86, 87, 88, 89, 90, 93, 95, 96, 97, 98, 99,
    100, 101, 102, 103, 104, 105, 106, 107, 110, 112, 115, 116, 118, 120, 121, 122, 125, 128, 130, 131, 132, 134,
    136, 138, 139, 140, 141, 145, 148, 154, 155, 156, 157, 159, 161, 163, 165, 166, 168, 169, 170, 177, 180, 185,
    188, 191, 193, 195, 202, 208, 213, 214, 221, 229, 230, 232, 233, 242, 250, 261, 264, 276, 283, 286, 300, 304,
    312, 323, 325, 331, 342, 356, 370, 392, 395, 399, 408, 417, 488, 540, 562, 570, 572, 581, 609, 748, 776, 1156,
    1163, 1164, 1165, 1166, 1167, 1168, 1169, 1170, 1171, 1172, 1173, 1174, 1175, 1176, 1178, 1179, 1180, 1181,
    1182, 1183, 1184, 1185, 1186, 1187, 1188, 1189, 1190, 1191]

/-- `label_dict = np.zeros(2048); label_dict[class_ids] = np.arange(len(class_ids))`, seg_scannet.py 54-55. -/
def labelDict (classIds : List Nat) : List Nat := setMany (List.replicate 2048 0) (classIds.zipIdx)

/-- `label_dict[label]` on a list of labels, seg_scannet.py 250. -/
def mapLabels (classIds : List Nat) (label : List Int) : M (List Nat) := gatherIdx (labelDict classIds) label

/-- `ilabel_dict[label]`, seg_scannet.py 294. -/
def unmapLabels (classIds : List Nat) (label : List Int) : M (List Nat) := gatherIdx classIds label

end Ocnn
