import Verif.CloudFiles
import Verif.PropsMesh
import Verif.PropsScanTools
import Verif.PropsFloat

/-! Theorems about the files with point clouds: C108 and C109. -/

namespace Ocnn

namespace Spec

/-- A point of a cloud: position, normal, colour and label, the latter two as bytes. -/
structure CloudPoint where
  pos : V3 ℚ
  nrm : V3 ℚ
  col : V3 Nat
  lab : Nat

/-- The colour and the label fit into bytes. -/
def CloudPoint.Fits (p : CloudPoint) : Prop := p.col.x < 256 ∧ p.col.y < 256 ∧ p.col.z < 256 ∧ p.lab < 256

/-- The row of the point in an array of 9 or 10 columns. -/
def CloudPoint.row (p : CloudPoint) : List ℚ :=
  [p.pos.x, p.pos.y, p.pos.z, p.nrm.x, p.nrm.y, p.nrm.z, p.col.x, p.col.y, p.col.z, p.lab]

/-- The colour as numbers. -/
def CloudPoint.rgb (p : CloudPoint) : V3 ℚ := ⟨p.col.x, p.col.y, p.col.z⟩

/-- What one reads back: positions and normals in single precision, colours and labels exactly, and only what is asked for. -/
def readBack (flags : ReadFlags) (cloud : List CloudPoint) : CloudOut where
  points := cloud.map fun p => p.pos.map f32
  normals := if flags.hasNormal then some (cloud.map fun p => p.nrm.map f32) else none
  colors := if flags.hasColor then some (cloud.map fun p => p.rgb) else none
  labels := if flags.hasLabel then some (cloud.map fun p => (p.lab : Int)) else none

end Spec

open Spec

theorem f32_nat (n : Nat) (h : n < 2 ^ 24) : f32 (n : ℚ) = n := by
  apply f32_exact
  refine ⟨n, 0, ?_, by simp⟩
  rw [abs_of_nonneg (by positivity)]
  exact_mod_cast h

theorem f32_f32 (x : ℚ) : f32 (f32 x) = f32 x := f32_exact (f32_isF32 x)

theorem toByte_nat (n : Nat) (h : n < 256) : toByte (n : ℚ) = .ok (n : ℚ) := by
  unfold toByte
  have h0 : (0 : ℚ) ≤ n := by positivity
  simp only [if_pos h0, Int.floor_natCast]
  rw [if_pos ⟨by positivity, by exact_mod_cast h⟩]
  simp [pure, Except.pure]

theorem mapM_pure {α β : Type} (f : α → M β) (g : α → β) (l : List α) (h : ∀ a ∈ l, f a = .ok (g a)) : l.mapM f = .ok (l.map g) := by
  induction l with
  | nil => rfl
  | cons a l ih =>
    rw [List.mapM_cons, h a (by simp), ih fun b hb => h b (by simp [hb])]
    rfl

theorem stack3_map {α : Type} (l : List α) (a b c : α → ℚ) : stack3 (l.map a) (l.map b) (l.map c) = l.map fun p => ⟨a p, b p, c p⟩ := by
  unfold stack3
  rw [List.zip_map', List.zipWith_map, List.zipWith_self]

/-- The columns of a saved cloud. -/
def cloudCols (cloud : List CloudPoint) : Dict (List ℚ) :=
  [("x", cloud.map fun p => f32 p.pos.x), ("y", cloud.map fun p => f32 p.pos.y), ("z", cloud.map fun p => f32 p.pos.z),
    ("nx", cloud.map fun p => f32 p.nrm.x), ("ny", cloud.map fun p => f32 p.nrm.y), ("nz", cloud.map fun p => f32 p.nrm.z),
    ("red", cloud.map fun p => (p.col.x : ℚ)), ("green", cloud.map fun p => (p.col.y : ℚ)), ("blue", cloud.map fun p => (p.col.z : ℚ)),
    ("label", cloud.map fun p => (p.lab : ℚ))]

/-- A field of a point by its position in the row. -/
def cloudField (j : Nat) (p : CloudPoint) : ℚ :=
  match j with
  | 0 => f32 p.pos.x | 1 => f32 p.pos.y | 2 => f32 p.pos.z | 3 => f32 p.nrm.x | 4 => f32 p.nrm.y | 5 => f32 p.nrm.z
  | 6 => p.col.x | 7 => p.col.y | 8 => p.col.z | _ => p.lab

theorem zipIdx_take {α : Type} (l : List α) (n k : Nat) : (l.take n).zipIdx k = (l.zipIdx k).take n := by
  induction l generalizing n k with
  | nil => simp
  | cons a l ih =>
    cases n with
    | zero => simp
    | succ n => rw [List.take_succ_cons, List.zipIdx_cons, List.zipIdx_cons, List.take_succ_cons, ih]

theorem savePly_ok (cloud : List CloudPoint) (h : ∀ p ∈ cloud, p.Fits) (ncols : Nat) :
    savePly ncols (cloud.map fun p => p.row.take ncols) = .ok ((cloudCols cloud).take ncols) := by
  unfold savePly
  have hz : (plyFields.take ncols).zipIdx = plyFields.zipIdx.take ncols := zipIdx_take _ _ _
  rw [hz, mapM_pure _ (fun f => (f.1.1, cloud.map (cloudField f.2)))]
  · rw [List.map_take]; rfl
  · intro f hf
    have hlt : f.2 < ncols := by
      rw [← hz] at hf
      have := List.snd_lt_of_mem_zipIdx hf
      simp only [List.length_take] at this
      omega
    have hm := List.mem_of_mem_take hf
    have hcol : ((cloud.map fun p => p.row.take ncols).mapM fun row => do
          let v ← getIdx row f.2
          if f.1.2 then toByte v else pure (f32 v)) = (.ok (cloud.map (cloudField f.2)) : M (List ℚ)) := by
      rw [List.mapM_map]
      apply mapM_pure
      intro p hp
      have hb := h p hp
      have hget : ∀ v, p.row[f.2]? = some v → getIdx (p.row.take ncols) (f.2 : Int) = .ok v := by
        intro v hv
        apply getIdx_nat
        rw [List.getElem?_take, if_pos hlt, hv]
      simp only [plyFields, List.zipIdx_cons, List.zipIdx_nil, List.mem_cons, List.not_mem_nil, or_false] at hm
      simp only [Function.comp]
      rcases hm with rfl | rfl | rfl | rfl | rfl | rfl | rfl | rfl | rfl | rfl <;> rw [hget _ rfl]
      · rfl
      · rfl
      · rfl
      · rfl
      · rfl
      · rfl
      · exact toByte_nat _ hb.1
      · exact toByte_nat _ hb.2.1
      · exact toByte_nat _ hb.2.2.1
      · exact toByte_nat _ hb.2.2.2
    rw [hcol]
    rfl

theorem stacked (cloud : List CloudPoint) (f : CloudPoint → V3 ℚ) : (stack3 (cloud.map fun p => f32 (f p).x) (cloud.map fun p => f32 (f p).y) (cloud.map fun p => f32 (f p).z)).map (·.map f32) =
    cloud.map fun p => (f p).map f32 := by
  rw [stack3_map, List.map_map]
  apply List.map_congr_left
  intro p _
  simp only [Function.comp, V3.map, f32_f32]

theorem stacked_bytes (cloud : List CloudPoint) (h : ∀ p ∈ cloud, p.Fits) :
    (stack3 (cloud.map fun p => (p.col.x : ℚ)) (cloud.map fun p => (p.col.y : ℚ)) (cloud.map fun p => (p.col.z : ℚ))).map (·.map f32) = cloud.map fun p => p.rgb := by
  rw [stack3_map, List.map_map]
  apply List.map_congr_left
  intro p hp
  obtain ⟨h1, h2, h3, -⟩ := h p hp
  simp only [Function.comp, V3.map, CloudPoint.rgb]
  rw [f32_nat _ (by omega), f32_nat _ (by omega), f32_nat _ (by omega)]

theorem cut_nat {α : Type} (l : List α) (f : α → Nat) : ((l.map fun p => (f p : ℚ)).map fun v => if 0 ≤ v then ⌊v⌋ else ⌈v⌉) = l.map fun p => (f p : Int) := by
  rw [List.map_map]
  apply List.map_congr_left
  intro p _
  simp only [Function.comp]
  rw [if_pos (by positivity), Int.floor_natCast]

/-- **C108, ply.** What `save_ply` writes for rows of 3, 6, 9 or 10 columns is what `ReadPly` reads: positions and normals in single precision, colours and labels exactly. -/
theorem C108_ply (cloud : List CloudPoint) (h : ∀ p ∈ cloud, p.Fits) (flags : ReadFlags) (ncols : Nat) (hc : ncols = 3 ∨ ncols = 6 ∨ ncols = 9 ∨ ncols = 10)
    (h6 : flags.hasNormal = true → 6 ≤ ncols) (h9 : flags.hasColor = true → 9 ≤ ncols) (h10 : flags.hasLabel = true → ncols = 10) :
    ∃ file, savePly ncols (cloud.map fun p => p.row.take ncols) = .ok file ∧ readPly flags file = .ok (readBack flags cloud) := by
  refine ⟨_, savePly_ok cloud h ncols, ?_⟩
  obtain ⟨n, c, l⟩ := flags
  have e1 := stacked cloud CloudPoint.pos
  have e2 := stacked cloud CloudPoint.nrm
  have e3 := stacked_bytes cloud h
  have e4 := cut_nat cloud CloudPoint.lab
  rcases hc with rfl | rfl | rfl | rfl <;> cases n <;> cases c <;> cases l <;> simp only at h6 h9 h10 <;> first
    | (exfalso; simp at h6 h9 h10; done)
    | (simp [readPly, cloudCols, List.lookup, bind, Except.bind, pure, Except.pure, readBack, ← e1, ← e2, ← e3, ← e4])

/-- C108: a column that was not saved cannot be read. -/
theorem C108_missing (cloud : List CloudPoint) (h : ∀ p ∈ cloud, p.Fits) (flags : ReadFlags) (ncols : Nat) (hc : ncols = 3 ∨ ncols = 6 ∨ ncols = 9)
    (hm : (flags.hasNormal = true ∧ ncols < 6) ∨ (flags.hasColor = true ∧ ncols < 9) ∨ flags.hasLabel = true) :
    ∃ file, savePly ncols (cloud.map fun p => p.row.take ncols) = .ok file ∧ readPly flags file = .error .value := by
  refine ⟨_, savePly_ok cloud h ncols, ?_⟩
  obtain ⟨n, c, l⟩ := flags
  rcases hc with rfl | rfl | rfl <;> cases n <;> cases c <;> cases l <;> first
    | (exfalso; simp at hm; done)
    | (simp [readPly, cloudCols, List.lookup, bind, Except.bind, pure, Except.pure])

theorem colsFrom_ok (cloud : List CloudPoint) (ncols j : Nat) (f : CloudPoint → V3 ℚ)
    (h : ∀ p ∈ cloud, (p.row.take ncols)[j]? = some (f p).x ∧ (p.row.take ncols)[j + 1]? = some (f p).y ∧ (p.row.take ncols)[j + 2]? = some (f p).z) :
    colsFrom j (cloud.map fun p => p.row.take ncols) = .ok (cloud.map f) := by
  unfold colsFrom
  rw [List.mapM_map]
  apply mapM_pure
  intro p hp
  obtain ⟨h1, h2, h3⟩ := h p hp
  simp only [Function.comp, getIdx_nat _ _ _ h1, getIdx_nat _ _ _ h2, getIdx_nat _ _ _ h3, bind, Except.bind, pure, Except.pure]

/-- **C108, npz.** The same for `save_npz` and `ReadNpz`, so that both formats give the same cloud. -/
theorem C108_npz (cloud : List CloudPoint) (h : ∀ p ∈ cloud, p.Fits) (flags : ReadFlags) (ncols : Nat) (hc : ncols = 9 ∨ ncols = 10) (h10 : flags.hasLabel = true → ncols = 10) :
    ∃ file, saveNpz ncols (cloud.map fun p => p.row.take ncols) = .ok file ∧ readNpz flags file = .ok (readBack flags cloud) := by
  have hff : ∀ f : CloudPoint → V3 ℚ, ((cloud.map f).map (·.map f32)).map (·.map f32) = cloud.map fun p => (f p).map f32 := by
    intro f
    rw [List.map_map, List.map_map]
    apply List.map_congr_left
    intro p _
    simp only [Function.comp, V3.map, f32_f32]
  have e3 : ((cloud.map CloudPoint.rgb).map (·.map f32)).map (·.map f32) = cloud.map fun p => p.rgb := by
    rw [hff]
    apply List.map_congr_left
    intro p hp
    obtain ⟨h1, h2, h3, -⟩ := h p hp
    simp only [V3.map, CloudPoint.rgb]
    rw [f32_nat _ (by omega), f32_nat _ (by omega), f32_nat _ (by omega)]
  have hcols : ∀ n, n = 9 ∨ n = 10 → colsFrom 0 (cloud.map fun p => p.row.take n) = .ok (cloud.map CloudPoint.pos) ∧
      colsFrom 3 (cloud.map fun p => p.row.take n) = .ok (cloud.map CloudPoint.nrm) ∧ colsFrom 6 (cloud.map fun p => p.row.take n) = .ok (cloud.map CloudPoint.rgb) := by
    intro n hn
    rcases hn with rfl | rfl <;> exact ⟨colsFrom_ok _ _ _ _ fun p _ => ⟨rfl, rfl, rfl⟩, colsFrom_ok _ _ _ _ fun p _ => ⟨rfl, rfl, rfl⟩, colsFrom_ok _ _ _ _ fun p _ => ⟨rfl, rfl, rfl⟩⟩
  obtain ⟨c1, c2, c3⟩ := hcols ncols hc
  have c4 : ((cloud.map fun p => p.row.take 10).mapM fun r => getIdx r 9) = .ok (cloud.map fun p => (p.lab : ℚ)) := by
    rw [List.mapM_map]
    apply mapM_pure
    intro p _
    exact getIdx_nat _ 9 _ rfl
  have e4 := cut_nat cloud CloudPoint.lab
  have e5 : (((cloud.map fun p => (p.lab : ℚ)).map fun v => (((if 0 ≤ v then ⌊v⌋ else ⌈v⌉ : ℤ)) : ℚ)).map fun v => if 0 ≤ v then ⌊v⌋ else ⌈v⌉) = cloud.map fun p => (p.lab : Int) := by
    rw [← e4, List.map_map, List.map_map, List.map_map]
    apply List.map_congr_left
    intro p _
    simp
  obtain ⟨n, c, l⟩ := flags
  unfold saveNpz
  simp only [c1, c2, c3, bind, Except.bind]
  rcases hc with rfl | rfl
  · rw [if_neg (by decide)]
    refine ⟨_, rfl, ?_⟩
    cases l
    · cases n <;> cases c <;> simp only [readNpz, readBack, bind, Except.bind, pure, Except.pure, if_true, hff CloudPoint.pos, hff CloudPoint.nrm, e3] <;> simp
    · simp at h10
  · rw [if_pos rfl, c4]
    refine ⟨_, rfl, ?_⟩
    cases n <;> cases c <;> cases l <;> simp only [readNpz, readBack, bind, Except.bind, pure, Except.pure, if_true, hff CloudPoint.pos, hff CloudPoint.nrm, e3, e5] <;> simp

theorem lastPart_dot (stem : String) (ext : String) (h : '.' ∉ ext.toList) : lastPart (stem ++ "." ++ ext) = ext := by
  unfold lastPart
  rw [String.toList_append, String.toList_append, List.reverse_append, List.reverse_append, List.takeWhile_append_of_pos]
  · have : ("." : String).toList.reverse = ['.'] := by decide
    rw [this, List.cons_append, List.takeWhile_cons, if_neg (by simp)]
    simp
  · intro c hc
    have : c ∈ ext.toList := by simpa using hc
    simp only [decide_eq_true_eq]
    rintro rfl
    exact h this

/-- **C108, the suffix.** `ReadFile` reads a saved cloud in either format, whatever the rest of the name is; other suffixes raise KeyError. -/
theorem C108_file (cloud : List CloudPoint) (h : ∀ p ∈ cloud, p.Fits) (flags : ReadFlags) (stem : String) (ply : String → Option (Dict (List ℚ))) (npz : String → Option Npz)
    (fp : Dict (List ℚ)) (fn : Npz) (hp : savePly 10 (cloud.map fun p => p.row.take 10) = .ok fp) (hn : saveNpz 10 (cloud.map fun p => p.row.take 10) = .ok fn)
    (wp : ply (stem ++ "." ++ "ply") = some fp) (wn : npz (stem ++ "." ++ "npz") = some fn) :
    readFile flags ply npz (stem ++ "." ++ "ply") = .ok (readBack flags cloud) ∧ readFile flags ply npz (stem ++ "." ++ "npz") = .ok (readBack flags cloud) ∧
      ∀ ext : String, '.' ∉ ext.toList → ext ≠ "ply" → ext ≠ "npz" → readFile flags ply npz (stem ++ "." ++ ext) = .error .key := by
  obtain ⟨f, s1, r1⟩ := C108_ply cloud h flags 10 (by decide) (fun _ => by decide) (fun _ => by decide) (fun _ => rfl)
  obtain ⟨g, s2, r2⟩ := C108_npz cloud h flags 10 (by decide) (fun _ => rfl)
  rw [hp] at s1
  rw [hn] at s2
  cases s1
  cases s2
  refine ⟨?_, ?_, ?_⟩
  · unfold readFile
    rw [lastPart_dot _ _ (by decide), if_neg (by decide), if_pos rfl, wp]
    exact r1
  · unfold readFile
    rw [lastPart_dot _ _ (by decide), if_pos rfl, wn]
    exact r2
  · intro ext he h1 h2
    unfold readFile
    rw [lastPart_dot _ _ he, if_neg h2, if_neg h1]

theorem threeCols_f32 (cloud : List CloudPoint) (f : CloudPoint → V3 ℚ) (names : V3 String) : threeCols false names (cloud.map f) =
    .ok [(names.x, cloud.map fun p => f32 (f p).x), (names.y, cloud.map fun p => f32 (f p).y), (names.z, cloud.map fun p => f32 (f p).z)] := by
  unfold threeCols
  have key : ∀ g : V3 ℚ → ℚ, ((cloud.map f).mapM fun r => (Except.ok (f32 (g r)) : M ℚ)) = .ok (cloud.map fun p => f32 (g (f p))) := by
    intro g
    rw [List.mapM_map]
    exact mapM_pure _ _ _ fun p _ => rfl
  simp only [Bool.false_eq_true, if_false, pure, Except.pure, bind, Except.bind, key V3.x, key V3.y, key V3.z]

theorem threeCols_bytes (cloud : List CloudPoint) (h : ∀ p ∈ cloud, p.Fits) (names : V3 String) : threeCols true names (cloud.map CloudPoint.rgb) =
    .ok [(names.x, cloud.map fun p => (p.col.x : ℚ)), (names.y, cloud.map fun p => (p.col.y : ℚ)), (names.z, cloud.map fun p => (p.col.z : ℚ))] := by
  unfold threeCols
  have key : ∀ (g : V3 ℚ → ℚ) (g' : CloudPoint → Nat), (∀ p, g p.rgb = g' p) → (∀ p ∈ cloud, g' p < 256) →
      ((cloud.map CloudPoint.rgb).mapM fun r => toByte (g r)) = .ok (cloud.map fun p => (g' p : ℚ)) := by
    intro g g' e hb
    rw [List.mapM_map]
    refine mapM_pure _ _ _ fun p hp => ?_
    simp only [Function.comp, e]
    exact toByte_nat _ (hb p hp)
  simp only [if_true, key V3.x (fun p => p.col.x) (fun _ => rfl) (fun p hp => (h p hp).1), key V3.y (fun p => p.col.y) (fun _ => rfl) (fun p hp => (h p hp).2.1),
    key V3.z (fun p => p.col.z) (fun _ => rfl) (fun p hp => (h p hp).2.2.1), bind, Except.bind, pure, Except.pure]

/-- **C108, save_points_to_ply.** With any of normals, colours and labels, `ReadPly` reads back what was saved, and raises if it is asked for more; different numbers of rows raise. -/
theorem C108_points (cloud : List CloudPoint) (h : ∀ p ∈ cloud, p.Fits) (saved flags : ReadFlags) :
    ∃ file, savePoints (cloud.map fun p => p.pos) (if saved.hasNormal then some (cloud.map fun p => p.nrm) else none) (if saved.hasColor then some (cloud.map fun p => p.rgb) else none)
        (if saved.hasLabel then some (cloud.map fun p => (p.lab : ℚ)) else none) = .ok file ∧
      readPly flags file = if (flags.hasNormal && !saved.hasNormal) || (flags.hasColor && !saved.hasColor) || (flags.hasLabel && !saved.hasLabel) then .error .value
        else .ok (readBack flags cloud) := by
  have t1 := threeCols_f32 cloud CloudPoint.pos ⟨"x", "y", "z"⟩
  have t2 := threeCols_f32 cloud CloudPoint.nrm ⟨"nx", "ny", "nz"⟩
  have t3 := threeCols_bytes cloud h ⟨"red", "green", "blue"⟩
  have t4 : (cloud.map fun p => (p.lab : ℚ)).mapM toByte = .ok (cloud.map fun p => (p.lab : ℚ)) := by
    rw [List.mapM_map]
    exact mapM_pure _ _ _ fun p hp => toByte_nat _ (h p hp).2.2.2
  have e1 := stacked cloud CloudPoint.pos
  have e2 := stacked cloud CloudPoint.nrm
  have e3 := stacked_bytes cloud h
  have e4 := cut_nat cloud CloudPoint.lab
  obtain ⟨sn, sc, sl⟩ := saved
  obtain ⟨n, c, l⟩ := flags
  have hfile : savePoints (cloud.map fun p => p.pos) (if sn then some (cloud.map fun p => p.nrm) else none) (if sc then some (cloud.map fun p => p.rgb) else none)
        (if sl then some (cloud.map fun p => (p.lab : ℚ)) else none) = .ok
      ((cloudCols cloud).take 3 ++ (if sn then ((cloudCols cloud).drop 3).take 3 else []) ++ (if sc then ((cloudCols cloud).drop 6).take 3 else []) ++
        (if sl then (cloudCols cloud).drop 9 else [])) := by
    unfold savePoints
    cases sn <;> cases sc <;> cases sl <;> simp [t1, t2, t3, t4, bind, Except.bind, pure, Except.pure, cloudCols]
  refine ⟨_, hfile, ?_⟩
  cases sn <;> cases sc <;> cases sl <;> cases n <;> cases c <;> cases l <;>
    simp [readPly, cloudCols, List.lookup, bind, Except.bind, pure, Except.pure, readBack, ← e1, ← e2, ← e3, ← e4]

/-! ### C109 -/

/-- **C109.** From a scan to the network: a training scene with one colour and one raw label per vertex, processed, saved and read again has, per vertex, its (aligned) position and its
normal in single precision, its colour, and a class number from which the raw label can be recovered. -/
theorem C109_scene (rt : ℚ → ℚ) (hrt : ∀ q, 0 ≤ rt q) (ids : List Nat) (hids : ids = classIds20 ∨ ids = classIds200) (align : Option (List (String × V3 (V3 ℚ × ℚ))))
    (vertex : List (V3 ℚ)) (face : List (V3 Nat)) (hf : FacesOf vertex.length face) (hne : vertex ≠ []) (cols : List (V3 Nat)) (hcols : cols.length = vertex.length)
    (hbytes : ∀ c ∈ cols, c.x < 256 ∧ c.y < 256 ∧ c.z < 256) (alpha : ℚ) (raw : List Int) (hraw : raw.length = vertex.length) (hr : ∀ l ∈ raw, 0 ≤ l ∧ l < 2048) :
    ∃ rows file out moved nrm, processScene rt ids align vertex (asInts face) (cols.map fun c => (⟨c.x, c.y, c.z⟩, alpha)) (some raw) = .ok rows ∧
      savePly 10 rows = .ok file ∧ readPly ⟨true, true, true⟩ file = .ok out ∧
      moved = align.elim vertex (fun lines => alignToAxis lines vertex) ∧ vertexNormal rt moved (asInts face) = .ok nrm ∧
      out.points = moved.map (·.map f32) ∧ out.normals = some (nrm.map (·.map f32)) ∧ out.colors = some (cols.map fun c => ⟨c.x, c.y, c.z⟩) ∧
      ∃ ls : List Int, out.labels = some ls ∧ (∀ l ∈ ls, 0 ≤ l ∧ l < ids.length) ∧ unmapLabels ids ls = .ok (raw.map fun l => if l.toNat ∈ ids then l.toNat else 0) := by
  obtain ⟨cls, k1, k2, k3, -, k5⟩ := C85_labels ids hids raw hr
  have hal : ∀ (lines : List (String × V3 (V3 ℚ × ℚ))) (v : List (V3 ℚ)), (alignToAxis lines v).length = v.length := by
    intro lines v
    induction lines with
    | nil => rfl
    | cons l lines ih =>
      obtain ⟨k, m⟩ := l
      rw [alignToAxis]
      split
      · simp
      · exact ih
  obtain ⟨moved, hmv⟩ : ∃ m, m = align.elim vertex (fun lines => alignToAxis lines vertex) := ⟨_, rfl⟩
  have hml : moved.length = vertex.length := by
    rw [hmv]
    cases align with
    | none => rfl
    | some lines => exact hal lines vertex
  have hnv := C105_normals rt hrt moved face (by rw [hml]; exact hf)
  obtain ⟨nrm, hnrm⟩ : ∃ n, n = (List.range moved.length).map fun k => softUnit rt (atVertex moved face k) := ⟨_, rfl⟩
  rw [← hnrm] at hnv
  have hnl : nrm.length = vertex.length := by rw [hnrm]; simp [hml]
  have hlen : ids.length ≤ 256 := by rcases hids with rfl | rfl <;> decide +kernel
  obtain ⟨cloud, hcl⟩ : ∃ c : List CloudPoint, c = List.zipWith (fun (v : V3 ℚ × V3 ℚ) (p : V3 Nat × Nat) => ⟨v.1, v.2, p.1, p.2⟩) (moved.zip nrm) (cols.zip cls) := ⟨_, rfl⟩
  have hcll : cloud.length = vertex.length := by rw [hcl]; simp [hml, hnl, hcols, k2, hraw]
  have proj : ∀ {α : Type} (g : CloudPoint → α) (l : List α), l.length = vertex.length →
      (∀ (i : Nat) (h1 : i < moved.length) (h2 : i < nrm.length) (h3 : i < cols.length) (h4 : i < cls.length) (h5 : i < l.length), g ⟨moved[i], nrm[i], cols[i], cls[i]⟩ = l[i]) →
      cloud.map g = l := by
    intro α g l hl hg
    apply List.ext_getElem
    · simp [hcll, hl]
    · intro i h1 h2
      rw [List.getElem_map]
      simp only [hcl, List.getElem_zipWith, List.getElem_zip]
      exact hg i _ _ _ _ _
  have p1 : cloud.map (fun p => p.pos) = moved := proj _ _ hml fun i _ _ _ _ _ => rfl
  have p2 : cloud.map (fun p => p.nrm) = nrm := proj _ _ hnl fun i _ _ _ _ _ => rfl
  have p3 : cloud.map (fun p => p.col) = cols := proj _ _ hcols fun i _ _ _ _ _ => rfl
  have p4 : cloud.map (fun p => p.lab) = cls := proj _ _ (by rw [k2, hraw]) fun i _ _ _ _ _ => rfl
  have hfits : ∀ p ∈ cloud, p.Fits := by
    intro p hp
    have a := hbytes p.col (by rw [← p3]; exact List.mem_map_of_mem hp)
    have b := k3 p.lab (by rw [← p4]; exact List.mem_map_of_mem hp)
    exact ⟨a.1, a.2.1, a.2.2, by omega⟩
  obtain ⟨file, f1, f2⟩ := C108_ply cloud hfits ⟨true, true, true⟩ 10 (by decide) (by decide) (by decide) (fun _ => rfl)
  have hrow : (cloud.map fun p => p.row.take 10) = cloud.map fun p => p.row := List.map_congr_left fun p _ => rfl
  rw [hrow] at f1
  refine ⟨_, file, _, moved, nrm, ?_, f1, f2, hmv, hnv, ?_, ?_, ?_, cloud.map (fun p => (p.lab : Int)), rfl, ?_, ?_⟩
  · unfold processScene
    have hdd : ((cols.map fun c => ((⟨c.x, c.y, c.z⟩ : V3 ℚ), alpha)).map (·.2)).dedup.length = 1 := by
      rw [List.map_map]
      have : (cols.map ((·.2) ∘ fun c : V3 Nat => ((⟨c.x, c.y, c.z⟩ : V3 ℚ), alpha))) = List.replicate cols.length alpha := by
        rw [List.eq_replicate_iff]
        exact ⟨by simp, by simp⟩
      rw [this, List.replicate_dedup]
      · rfl
      · rw [hcols]
        exact fun e => hne (List.length_eq_zero_iff.mp e)
    rw [pyAssert, if_pos hdd]
    simp only [bind, Except.bind, ← hmv, hnv, k1]
    rw [if_pos (by rw [k2, hraw, hml])]
    simp only [pure, Except.pure]
    rw [if_pos (by rw [List.length_map, hcols, hml])]
    congr 1
    rw [hcl, List.map_zipWith, List.map_map, List.zip_map, List.zipWith_map_right]
    rfl
  · show (cloud.map fun p => p.pos.map f32) = _
    rw [← p1, List.map_map]
    rfl
  · show some (cloud.map fun p => p.nrm.map f32) = _
    rw [← p2, List.map_map]
    rfl
  · show some (cloud.map fun p => p.rgb) = _
    rw [← p3, List.map_map]
    rfl
  · intro l hl
    obtain ⟨p, hp, rfl⟩ := List.mem_map.mp hl
    have b := k3 p.lab (by rw [← p4]; exact List.mem_map_of_mem hp)
    exact ⟨by positivity, by exact_mod_cast b⟩
  · rw [← k5, ← p4, List.map_map]
    rfl

/-- C109: a scene whose last column is not constant, and an empty one, raise AssertionError. -/
theorem C109_assert (rt : ℚ → ℚ) (ids : List Nat) (align : Option (List (String × V3 (V3 ℚ × ℚ)))) (vertex : List (V3 ℚ)) (face : List (V3 Int)) (props : List (V3 ℚ × ℚ))
    (raw : Option (List Int)) (h : props = [] ∨ ∃ p ∈ props, ∃ q ∈ props, p.2 ≠ q.2) : processScene rt ids align vertex face props raw = .error .assertion := by
  unfold processScene
  have : ¬ (props.map (·.2)).dedup.length = 1 := by
    rcases h with rfl | ⟨p, hp, q, hq, hpq⟩
    · simp
    · intro e
      obtain ⟨a, ha⟩ := List.length_eq_one_iff.mp e
      have h1 : p.2 ∈ (props.map (·.2)).dedup := List.mem_dedup.mpr (List.mem_map_of_mem hp)
      have h2 : q.2 ∈ (props.map (·.2)).dedup := List.mem_dedup.mpr (List.mem_map_of_mem hq)
      rw [ha, List.mem_singleton] at h1 h2
      exact hpq (h1.trans h2.symm)
  rw [pyAssert, if_neg this]
  rfl

/-- A cloud of two points: saved and read. -/
example : ([⟨⟨1 / 2, 0, -1⟩, ⟨0, 0, 1⟩, ⟨255, 0, 7⟩, 200⟩, ⟨⟨1, 2, 3⟩, ⟨1, 0, 0⟩, ⟨1, 2, 3⟩, 0⟩] : List CloudPoint).Forall CloudPoint.Fits := by
  simp [CloudPoint.Fits]

/-- A training scene with one face; the labels 39 and 13 (not a class) become 20 and 0. -/
example : FacesOf 3 [⟨0, 1, 2⟩] ∧ (do
    let rows ← processScene (fun _ => 1) classIds20 none [⟨0, 0, 0⟩, ⟨1, 0, 0⟩, ⟨0, 1, 0⟩] (asInts [⟨0, 1, 2⟩]) [(⟨1, 2, 3⟩, 255), (⟨4, 5, 255⟩, 255), (⟨0, 0, 0⟩, 255)] (some [39, 13, 1])
    let file ← savePly 10 rows
    readPly ⟨false, true, true⟩ file : M CloudOut).toOption.map (fun o : CloudOut => (o.colors, o.labels)) = some (some [⟨1, 2, 3⟩, ⟨4, 5, 255⟩, ⟨0, 0, 0⟩], some [20, 0, 1]) := by
  refine ⟨?_, by decide +kernel⟩
  intro f hf
  rw [List.mem_singleton.mp hf]
  simp

end Ocnn
