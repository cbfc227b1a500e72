import Verif.MeshTools
import Verif.PropsPoints
import Verif.BuildMain
import Mathlib.Tactic.Positivity
import Mathlib.Tactic.FieldSimp
import Mathlib.LinearAlgebra.Matrix.NonsingularInverse

/-! Theorems about the normals of the ScanNet meshes: C105. -/

namespace Ocnn

namespace Spec

/-- A vertex by its index. -/
def vtx (vertex : List (V3 ℚ)) (i : Nat) : V3 ℚ := vertex.getD i 0

/-- The vector of a face: orthogonal to it, as long as its area. -/
def areaVec (vertex : List (V3 ℚ)) (f : V3 Nat) : V3 ℚ :=
  (cross ⟨(vtx vertex f.y).x - (vtx vertex f.x).x, (vtx vertex f.y).y - (vtx vertex f.x).y, (vtx vertex f.y).z - (vtx vertex f.x).z⟩
    ⟨(vtx vertex f.z).x - (vtx vertex f.x).x, (vtx vertex f.z).y - (vtx vertex f.x).y, (vtx vertex f.z).z - (vtx vertex f.x).z⟩).map (· / 2)

/-- The sum of the vectors of the faces at a vertex. -/
def atVertex (vertex : List (V3 ℚ)) (face : List (V3 Nat)) (k : Nat) : V3 ℚ :=
  ((face.filter fun f => f.x = k ∨ f.y = k ∨ f.z = k).map (areaVec vertex)).sum

/-- A vector over its length, up to `10⁻⁸`. -/
def softUnit (rt : ℚ → ℚ) (v : V3 ℚ) : V3 ℚ := v.map (· / (rt (dot3 v v) + 1 / 10 ^ 8))

/-- All indices of the faces are those of vertices. -/
def FacesOf (n : Nat) (face : List (V3 Nat)) : Prop := ∀ f ∈ face, f.x < n ∧ f.y < n ∧ f.z < n

/-- The faces as the code reads them. -/
def asInts (face : List (V3 Nat)) : List (V3 Int) := face.map fun f => ⟨f.x, f.y, f.z⟩

/-- A rotation about the origin: linear, keeps inner and cross products. -/
structure Rotation (R : V3 ℚ → V3 ℚ) : Prop where
  add : ∀ a b, R (a + b) = R a + R b
  smul : ∀ (c : ℚ) a, R (a.map (c * ·)) = (R a).map (c * ·)
  dot : ∀ a b, dot3 (R a) (R b) = dot3 a b
  cross : ∀ a b, cross (R a) (R b) = R (cross a b)

end Spec

open Spec

theorem getIdx_vtx (vertex : List (V3 ℚ)) (i : Nat) (h : i < vertex.length) : getIdx vertex (i : Int) = .ok (vtx vertex i) := by
  rw [getIdx_ok _ _ h]
  unfold vtx
  rw [List.getD_eq_getElem?_getD, List.getElem?_eq_getElem h]
  rfl

theorem faceNormal_ok (rt : ℚ → ℚ) (hrt : ∀ q, 0 ≤ rt q) (vertex : List (V3 ℚ)) (f : V3 Nat) (h : f.x < vertex.length ∧ f.y < vertex.length ∧ f.z < vertex.length) :
    ∃ p, faceNormal rt vertex ⟨f.x, f.y, f.z⟩ = .ok p ∧ p.1.map (· * p.2) = areaVec vertex f := by
  unfold faceNormal
  simp only [getIdx_vtx _ _ h.1, getIdx_vtx _ _ h.2.1, getIdx_vtx _ _ h.2.2, bind, Except.bind, pure, Except.pure]
  refine ⟨_, rfl, ?_⟩
  generalize hv : vcross (vdiff (vtx vertex f.y) (vtx vertex f.x)) (vdiff (vtx vertex f.z) (vtx vertex f.x)) = vec
  have hpos : 0 < softNorm rt vec := by
    unfold softNorm
    have := hrt (vec.x * vec.x + vec.y * vec.y + vec.z * vec.z)
    positivity
  have e : areaVec vertex f = vec.map (· / 2) := by rw [← hv]; rfl
  rw [e]
  ext <;> simp only [V3.map] <;> field_simp

theorem addAtFace_ok (nv : List (V3 ℚ)) (f : V3 Nat) (v : V3 ℚ) (h : f.x < nv.length ∧ f.y < nv.length ∧ f.z < nv.length) :
    ∃ out, addAtFace nv ⟨f.x, f.y, f.z⟩ v = .ok out ∧ out.length = nv.length ∧
      ∀ k, k < nv.length → vtx out k = vtx nv k + (if f.x = k ∨ f.y = k ∨ f.z = k then v else 0) := by
  unfold addAtFace
  simp only [getIdx_vtx _ _ h.1, getIdx_vtx _ _ h.2.1, getIdx_vtx _ _ h.2.2, normIdx_ok _ _ h.1, normIdx_ok _ _ h.2.1, normIdx_ok _ _ h.2.2, bind, Except.bind, pure, Except.pure]
  refine ⟨_, rfl, by simp, ?_⟩
  intro k hk
  have hs : ∀ (l : List (V3 ℚ)) (i : Nat) (w : V3 ℚ), i < l.length → vtx (l.set i w) k = if i = k then w else vtx l k := by
    intro l i w hi
    unfold vtx
    rw [List.getD_eq_getElem?_getD, List.getD_eq_getElem?_getD, List.getElem?_set]
    split
    · first | rfl | (rw [if_pos hi]; rfl)
    · rfl
  rw [hs _ _ _ (by simpa using h.2.2), hs _ _ _ (by simpa using h.2.1), hs _ _ _ h.1]
  by_cases hz : f.z = k
  · rw [if_pos hz, if_pos (Or.inr (Or.inr hz)), hz]
  · rw [if_neg hz]
    by_cases hy : f.y = k
    · rw [if_pos hy, if_pos (Or.inr (Or.inl hy)), hy]
    · rw [if_neg hy]
      by_cases hx : f.x = k
      · rw [if_pos hx, if_pos (Or.inl hx), hx]
      · rw [if_neg hx, if_neg (by tauto), add_zero]

theorem accumulate_ok (n : Nat) (g : V3 Nat → V3 ℚ) (face : List (V3 Nat)) (hf : FacesOf n face) :
    ∀ nv : List (V3 ℚ), nv.length = n → ∃ out, ((asInts face).zip (face.map g)).foldlM (fun nv p => addAtFace nv p.1 p.2) nv = .ok out ∧ out.length = n ∧
      ∀ k, k < n → vtx out k = vtx nv k + ((face.filter fun f => f.x = k ∨ f.y = k ∨ f.z = k).map g).sum := by
  induction face with
  | nil =>
    intro nv h
    exact ⟨nv, rfl, h, fun k _ => by simp⟩
  | cons f fs ih =>
    intro nv h
    have hfn := hf f (by simp)
    obtain ⟨mid, m1, m2, m3⟩ := addAtFace_ok nv f (g f) (by rw [h]; exact hfn)
    obtain ⟨out, o1, o2, o3⟩ := ih (fun f' h' => hf f' (by simp [h'])) mid (by rw [m2, h])
    refine ⟨out, ?_, o2, ?_⟩
    · simp only [asInts, List.map_cons, List.zip_cons_cons, List.foldlM_cons, bind, Except.bind]
      rw [m1]
      exact o1
    · intro k hk
      rw [o3 k hk, m3 k (by rw [h]; exact hk), List.filter_cons]
      by_cases hm : f.x = k ∨ f.y = k ∨ f.z = k
      · rw [if_pos hm, if_pos (by simpa using hm), List.map_cons, List.sum_cons, add_assoc]
      · rw [if_neg hm, if_neg (by simpa using hm), add_zero]

/-- **C105.** The normal of a vertex is the sum of the area vectors of the faces at it over the length of the sum (up to `10⁻⁸`), for every mesh; also with degenerate faces. -/
theorem C105_normals (rt : ℚ → ℚ) (hrt : ∀ q, 0 ≤ rt q) (vertex : List (V3 ℚ)) (face : List (V3 Nat)) (hf : FacesOf vertex.length face) :
    vertexNormal rt vertex (asInts face) = .ok ((List.range vertex.length).map fun k => softUnit rt (atVertex vertex face k)) := by
  have hm : ∀ face : List (V3 Nat), FacesOf vertex.length face → ∃ fs, (asInts face).mapM (faceNormal rt vertex) = .ok fs ∧
      (fs.map fun p => p.1.map (· * p.2)) = face.map (areaVec vertex) := by
    intro face
    induction face with
    | nil => intro _; exact ⟨[], rfl, rfl⟩
    | cons f fs ih =>
      intro hf
      obtain ⟨p, p1, p2⟩ := faceNormal_ok rt hrt vertex f (hf f (by simp))
      obtain ⟨ps, q1, q2⟩ := ih fun f' h' => hf f' (by simp [h'])
      refine ⟨p :: ps, ?_, by rw [List.map_cons, List.map_cons, p2, q2]⟩
      simp only [asInts, List.map_cons, List.mapM_cons, bind, Except.bind, p1]
      simp only [asInts] at q1
      rw [q1]
      rfl
  obtain ⟨fs, h1, h2⟩ := hm face hf
  obtain ⟨out, o1, o2, o3⟩ := accumulate_ok vertex.length (areaVec vertex) face hf (List.replicate vertex.length 0) (by simp)
  unfold vertexNormal
  simp only [bind, Except.bind, h1, h2]
  rw [o1]
  simp only [pure, Except.pure]
  congr 1
  apply List.ext_getElem
  · simp [o2]
  · intro k hk hk'
    have hkn : k < vertex.length := by simpa using hk'
    have e := o3 k hkn
    have e0 : vtx (List.replicate vertex.length (0 : V3 ℚ)) k = 0 := by
      unfold vtx
      rw [List.getD_eq_getElem?_getD, List.getElem?_replicate, if_pos hkn]
      rfl
    rw [e0, zero_add] at e
    have ek : out[k]'(by rw [o2]; exact hkn) = atVertex vertex face k := by
      rw [atVertex, ← e, vtx, List.getD_eq_getElem?_getD, List.getElem?_eq_getElem (by rw [o2]; exact hkn)]
      rfl
    rw [List.getElem_map, List.getElem_map, List.getElem_range, ek]
    rfl

/-- C105: the order of the faces plays no role. -/
theorem C105_order (rt : ℚ → ℚ) (hrt : ∀ q, 0 ≤ rt q) (vertex : List (V3 ℚ)) (face face' : List (V3 Nat)) (hf : FacesOf vertex.length face) (hp : face.Perm face') :
    vertexNormal rt vertex (asInts face') = vertexNormal rt vertex (asInts face) := by
  rw [C105_normals rt hrt vertex face hf, C105_normals rt hrt vertex face' fun f h => hf f (hp.mem_iff.mpr h)]
  congr 1
  apply List.map_congr_left
  intro k _
  congr 1
  exact (((hp.filter _).map _).sum_eq).symm

/-- C105: a vertex without faces has the normal 0. -/
theorem C105_isolated (rt : ℚ → ℚ) (hrt : ∀ q, 0 ≤ rt q) (vertex : List (V3 ℚ)) (face : List (V3 Nat)) (hf : FacesOf vertex.length face) (k : Nat) (hk : k < vertex.length)
    (hi : ∀ f ∈ face, f.x ≠ k ∧ f.y ≠ k ∧ f.z ≠ k) : ∃ out, vertexNormal rt vertex (asInts face) = .ok out ∧ out[k]? = some ⟨0, 0, 0⟩ := by
  refine ⟨_, C105_normals rt hrt vertex face hf, ?_⟩
  rw [List.getElem?_map, List.getElem?_range hk]
  have : face.filter (fun f => f.x = k ∨ f.y = k ∨ f.z = k) = [] := by
    rw [List.filter_eq_nil_iff]
    intro f h
    have := hi f h
    simp only [decide_eq_true_eq]
    tauto
  rw [Option.map_some, atVertex, this]
  congr 1
  ext <;> simp [softUnit, V3.map]

/-- C105: where the sum has the length `s`, and `rt` its exact square root, the normal has the length `s / (s + 10⁻⁸)`: never more than 1. -/
theorem C105_length (rt : ℚ → ℚ) (v : V3 ℚ) (s : ℚ) (hs : 0 ≤ s) (hv : dot3 v v = s * s) (hrt : rt (s * s) = s) :
    dot3 (softUnit rt v) (softUnit rt v) = (s / (s + 1 / 10 ^ 8)) * (s / (s + 1 / 10 ^ 8)) ∧ s / (s + 1 / 10 ^ 8) < 1 := by
  have hp : 0 < s + 1 / 10 ^ 8 := by positivity
  refine ⟨?_, by rw [div_lt_one hp]; linarith [show (0 : ℚ) < 1 / 10 ^ 8 by positivity]⟩
  unfold softUnit
  rw [hv, hrt, div_mul_div_comm, ← hv]
  simp only [dot3, V3.map]
  field_simp

theorem Spec.Rotation.sum {R : V3 ℚ → V3 ℚ} (hR : Rotation R) (l : List (V3 ℚ)) : R l.sum = (l.map R).sum := by
  have h0 : R 0 = 0 := by
    have := hR.smul 0 0
    have e : (0 : V3 ℚ).map ((0 : ℚ) * ·) = 0 := by ext <;> simp [V3.map]
    rw [e] at this
    rw [this]
    ext <;> simp [V3.map]
  induction l with
  | nil => exact h0
  | cons a l ih => rw [List.sum_cons, List.map_cons, List.sum_cons, hR.add, ih]

/-- **C105, rigid motions.** Rotating and shifting the mesh rotates the normals: so that the normals of an aligned scene are the aligned normals. -/
theorem C105_rigid (rt : ℚ → ℚ) (hrt : ∀ q, 0 ≤ rt q) (vertex : List (V3 ℚ)) (face : List (V3 Nat)) (hf : FacesOf vertex.length face) (R : V3 ℚ → V3 ℚ) (hR : Rotation R)
    (t : V3 ℚ) : ∃ out, vertexNormal rt vertex (asInts face) = .ok out ∧ vertexNormal rt (vertex.map fun v => R v + t) (asInts face) = .ok (out.map R) := by
  refine ⟨_, C105_normals rt hrt vertex face hf, ?_⟩
  rw [C105_normals rt hrt _ face (by simpa using hf)]
  rw [List.length_map, List.map_map]
  congr 1
  apply List.map_congr_left
  intro k hk
  have hdiff : ∀ a b : V3 ℚ, R (⟨a.x - b.x, a.y - b.y, a.z - b.z⟩ : V3 ℚ) = ⟨(R a).x - (R b).x, (R a).y - (R b).y, (R a).z - (R b).z⟩ := by
    intro a b
    have h1 := hR.add (⟨a.x - b.x, a.y - b.y, a.z - b.z⟩ : V3 ℚ) b
    have e : (⟨a.x - b.x, a.y - b.y, a.z - b.z⟩ : V3 ℚ) + b = a := by ext <;> simp
    rw [e] at h1
    rw [h1]
    ext <;> simp
  have harea : ∀ f ∈ face, areaVec (vertex.map fun v => R v + t) f = R (areaVec vertex f) := by
    intro f hfm
    have hv : ∀ i, i < vertex.length → vtx (vertex.map fun v => R v + t) i = R (vtx vertex i) + t := by
      intro i hi
      unfold vtx
      rw [List.getD_eq_getElem?_getD, List.getD_eq_getElem?_getD, List.getElem?_map, List.getElem?_eq_getElem hi]
      rfl
    obtain ⟨a1, a2, a3⟩ := hf f hfm
    unfold areaVec
    rw [hv _ a1, hv _ a2, hv _ a3]
    have hhalf : ∀ v : V3 ℚ, v.map (· / 2) = v.map ((1 / 2 : ℚ) * ·) := by
      intro v
      ext <;> simp only [V3.map] <;> ring
    rw [hhalf, hhalf, hR.smul, ← hR.cross, hdiff, hdiff]
    simp only [V3.add_x, V3.add_y, V3.add_z, add_sub_add_right_eq_sub]
  have hatVertex : atVertex (vertex.map fun v => R v + t) face k = R (atVertex vertex face k) := by
    unfold atVertex
    rw [hR.sum, List.map_map]
    congr 1
    apply List.map_congr_left
    intro f hfm
    exact harea f (List.mem_filter.mp hfm).1
  rw [hatVertex]
  simp only [Function.comp, softUnit]
  rw [hR.dot]
  have hdiv : ∀ (c : ℚ) (v : V3 ℚ), v.map (· / c) = v.map (c⁻¹ * ·) := by
    intro c v
    ext <;> simp only [V3.map] <;> ring
  rw [hdiv, hdiv, hR.smul]

/-- The rows of a matrix are an orthonormal, right-handed system. -/
structure Spec.RightHanded (m : V3 (V3 ℚ)) : Prop where
  xx : dot3 m.x m.x = 1
  yy : dot3 m.y m.y = 1
  xy : dot3 m.x m.y = 0
  z : m.z = Spec.cross m.x m.y

/-- Multiplication of a matrix, given by rows, and a vector. -/
def Spec.turn (m : V3 (V3 ℚ)) (v : V3 ℚ) : V3 ℚ := ⟨dot3 m.x v, dot3 m.y v, dot3 m.z v⟩

theorem rightHanded_rotation (m : V3 (V3 ℚ)) (h : RightHanded m) : Rotation (turn m) := by
  obtain ⟨⟨a, b, c⟩, ⟨d, e, f⟩, mz⟩ := m
  obtain ⟨xx, yy, xy, z⟩ := h
  simp only at z
  subst z
  simp only [dot3] at xx yy xy
  constructor
  · intro u v
    ext <;> simp only [turn, dot3, V3.add_x, V3.add_y, V3.add_z] <;> ring
  · intro k u
    ext <;> simp only [turn, dot3, V3.map] <;> ring
  · have hM : (!![a, b, c; d, e, f; b * f - c * e, c * d - a * f, a * e - b * d] : Matrix (Fin 3) (Fin 3) ℚ) *
        (!![a, b, c; d, e, f; b * f - c * e, c * d - a * f, a * e - b * d]).transpose = 1 := by
      ext i j
      fin_cases i <;> fin_cases j <;> simp [Matrix.mul_apply, Fin.sum_univ_three]
      · linear_combination xx
      · linear_combination xy
      · ring
      · linear_combination xy
      · linear_combination yy
      · ring
      · ring
      · ring
      · linear_combination yy * (a * a + b * b + c * c) + xx - xy * (a * d + b * e + c * f)
    have hM' := mul_eq_one_comm.mp hM
    have e00 := congrFun (congrFun hM' 0) 0
    have e11 := congrFun (congrFun hM' 1) 1
    have e22 := congrFun (congrFun hM' 2) 2
    have e01 := congrFun (congrFun hM' 0) 1
    have e02 := congrFun (congrFun hM' 0) 2
    have e12 := congrFun (congrFun hM' 1) 2
    simp [Matrix.mul_apply, Fin.sum_univ_three] at e00 e11 e22 e01 e02 e12
    intro u v
    simp only [turn, dot3, cross]
    linear_combination u.x * v.x * e00 + u.y * v.y * e11 + u.z * v.z * e22 + (u.x * v.y + u.y * v.x) * e01 + (u.x * v.z + u.z * v.x) * e02 + (u.y * v.z + u.z * v.y) * e12
  · intro u v
    ext <;> simp only [turn, dot3, cross]
    · linear_combination (a * (u.y * v.z - u.z * v.y) + b * (u.z * v.x - u.x * v.z) + c * (u.x * v.y - u.y * v.x)) * yy - (d * (u.y * v.z - u.z * v.y) + e * (u.z * v.x - u.x * v.z) + f * (u.x * v.y - u.y * v.x)) * xy
    · linear_combination (d * (u.y * v.z - u.z * v.y) + e * (u.z * v.x - u.x * v.z) + f * (u.x * v.y - u.y * v.x)) * xx - (a * (u.y * v.z - u.z * v.y) + b * (u.z * v.x - u.x * v.z) + c * (u.x * v.y - u.y * v.x)) * xy
    · ring

/-- **C105, alignment.** The first `axisAlignment` of the file moves all vertices by its matrix, and with a right-handed orthonormal one the normals turn with the scene; without such
a line nothing moves. -/
theorem C105_align (rt : ℚ → ℚ) (hrt : ∀ q, 0 ≤ rt q) (vertex : List (V3 ℚ)) (face : List (V3 Nat)) (hf : FacesOf vertex.length face)
    (pre post : List (String × V3 (V3 ℚ × ℚ))) (m : V3 (V3 ℚ × ℚ)) (hpre : ∀ l ∈ pre, l.1 ≠ "axisAlignment") (hm : RightHanded ⟨m.x.1, m.y.1, m.z.1⟩) :
    ∃ out, vertexNormal rt vertex (asInts face) = .ok out ∧
      vertexNormal rt (alignToAxis (pre ++ ("axisAlignment", m) :: post) vertex) (asInts face) = .ok (out.map (turn ⟨m.x.1, m.y.1, m.z.1⟩)) ∧
      alignToAxis pre vertex = vertex := by
  have h0 : ∀ (pre : List (String × V3 (V3 ℚ × ℚ))) (rest : List (String × V3 (V3 ℚ × ℚ))), (∀ l ∈ pre, l.1 ≠ "axisAlignment") →
      alignToAxis (pre ++ rest) vertex = alignToAxis rest vertex := by
    intro pre rest h
    induction pre with
    | nil => rfl
    | cons l pre ih =>
      obtain ⟨k, w⟩ := l
      rw [List.cons_append, alignToAxis, if_neg (h (k, w) (by simp))]
      exact ih fun l hl => h l (by simp [hl])
  have h1 : alignToAxis (pre ++ ("axisAlignment", m) :: post) vertex = vertex.map fun v => turn ⟨m.x.1, m.y.1, m.z.1⟩ v + ⟨m.x.2, m.y.2, m.z.2⟩ := by
    rw [h0 _ _ hpre, alignToAxis, if_pos rfl]
    apply List.map_congr_left
    intro v _
    ext <;> simp only [turn, dot3, V3.add_x, V3.add_y, V3.add_z] <;> ring
  obtain ⟨out, o1, o2⟩ := C105_rigid rt hrt vertex face hf _ (rightHanded_rotation _ hm) ⟨m.x.2, m.y.2, m.z.2⟩
  refine ⟨out, o1, by rw [h1]; exact o2, ?_⟩
  have := h0 pre [] hpre
  rw [List.append_nil] at this
  exact this

/-- A tetrahedron corner and an isolated vertex; a rotation by 3-4-5. -/
example : FacesOf 4 [⟨0, 1, 2⟩, ⟨2, 1, 1⟩] ∧ atVertex [⟨0, 0, 0⟩, ⟨2, 0, 0⟩, ⟨0, 3, 0⟩, ⟨1, 1, 1⟩] [⟨0, 1, 2⟩, ⟨2, 1, 1⟩] 1 = ⟨0, 0, 3⟩ ∧
    RightHanded ⟨⟨3 / 5, 4 / 5, 0⟩, ⟨-4 / 5, 3 / 5, 0⟩, ⟨0, 0, 1⟩⟩ := by
  refine ⟨?_, by decide +kernel, ⟨by norm_num [dot3], by norm_num [dot3], by norm_num [dot3], by ext <;> norm_num [cross]⟩⟩
  intro f hf
  simp only [List.mem_cons, List.not_mem_nil, or_false] at hf
  rcases hf with rfl | rfl <;> simp

end Ocnn
