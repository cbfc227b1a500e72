import Verif.PointsHeapProofs

/-! C88: preparing a sample does not change the arrays of the dataset. -/

namespace Ocnn

variable {F L : Type}

/-- What `preprocess` returns for given arrays, as a function of their values. -/
def Preprocess.value (pre : Preprocess) (xyz : List (V3 ℚ)) (nrm : Option (List (V3 ℚ))) : M (Points ℚ F L) :=
  match pre, nrm with
  | .base, some n => Points.init xyz (some n) none none none 1 0
  | .rescaled q, some n => Points.init (xyz.map fun v => v.map (· / q)) (some n) none none none 1 0
  | .normalized, some n => do
    let p ← Points.init xyz (some n) none none none 1 0
    let b ← p.bbox
    pure (p.normalize b.1 b.2 (8 / 10))
  | .kitti q, _ => do
    let b ← Points.bbox (F := F) (L := L) ⟨xyz, none, none, none, none, 1, none, 0⟩
    let center : V3 ℚ := (b.1 + b.2).map (· / 2)
    Points.init (xyz.map fun v => (V3.mk (v.x - center.x) (v.y - center.y) (v.z - center.z)).map (· / q)) none none none none 1 0
  | _, none => .error .key

/-- What `preprocess` and `transform` return for arrays just read from the disk. -/
def freshResult (rt cosF sinF : ℚ → ℚ) (pre : Preprocess) (t : Transform) (r : Drawn) (xyz : List (V3 ℚ)) (nrm : Option (List (V3 ℚ))) :
    M (Points ℚ F L × List Bool) := do
  let p ← pre.value xyz nrm
  t.transform rt cosF sinF r p

/-- The arrays of a sample exist and are two arrays. -/
structure HSample.Valid (s : HSample) (h : PHeap ℚ) : Prop where
  pts : s.points < h.next
  nrm : ∀ n, s.normals = some n → n < h.next ∧ n ≠ s.points

/-- The result of a computation as values. -/
def outcome (x : M (HPoints F L × List Bool) × PHeap ℚ) : M (Points ℚ F L × List Bool) :=
  match x.1 with
  | .ok a => .ok (x.2.load a.1, a.2)
  | .error e => .error e

/-- The array of the coordinates becomes part of the prepared object. -/
def Preprocess.sharesPoints : Preprocess → Bool
  | .base => true
  | _ => false

/-- The array of the normals becomes part of the prepared object. -/
def Preprocess.sharesNormals : Preprocess → Bool
  | .kitti _ => false
  | _ => true

/-- The arrays that preparing the sample may change. -/
def MayChange (pre : Preprocess) (t : Transform) (r : Drawn) (s : HSample) (x : Nat) : Prop :=
  (t.distort = true ∧ t.rndFlip r ≠ "" ∧
    ((pre.sharesPoints = true ∧ x = s.points) ∨ (pre.sharesNormals = true ∧ s.normals = some x))) ∨
  (t.distort = false ∧ t.orientNormal = "xyz" ∧ pre.sharesNormals = true ∧ s.normals = some x)

theorem init_sim {n : Nat} {W : Nat → Prop} {h : PHeap ℚ} {p : Nat} {nrm : Option Nat} (hp : p < h.next)
    (hn : ∀ m, nrm = some m → m < h.next ∧ m ≠ p) :
    PSim n W (HPoints.init p nrm) h (Points.init (h.mem p) (nrm.map h.mem) none none none 1 0 : M (Points ℚ F L))
      fun h1 H q => Own h1 H q ∧ H.points = p ∧ H.normals = nrm ∧ h1 = h := by
  unfold HPoints.init Points.init
  refine psim_read ?_
  cases nrm with
  | none =>
    exact psim_pure ⟨⟨rfl, hp, fun m hm => hn m hm⟩, rfl, rfl, rfl⟩
  | some m =>
    simp only [bind_assoc, Option.map_some]
    refine psim_read (psim_liftB ?_)
    intro _ _
    exact psim_pure ⟨⟨rfl, hp, fun m hm => hn m hm⟩, rfl, rfl, rfl⟩

theorem preprocess_sim {n : Nat} {W : Nat → Prop} {h : PHeap ℚ} {s : HSample} (hs : s.Valid h) (hn : n ≤ h.next) (pre : Preprocess) :
    PSim n W (pre.run s : PM ℚ (HPoints F L)) h (pre.value (h.mem s.points) (s.normals.map h.mem))
      fun h1 H q => Own h1 H q ∧ (if pre.sharesPoints then H.points = s.points else h.next ≤ H.points) ∧
        H.normals = (if pre.sharesNormals then s.normals else none) ∧ ∀ x, x < h.next → h1.mem x = h.mem x := by
  obtain ⟨h1, h2⟩ := hs
  cases pre with
  | base =>
    unfold Preprocess.run Preprocess.value HSample.getNormals
    cases hN : s.normals with
    | none => exact psim_throw
    | some m =>
      simp only [pure_bind, Option.map_some]
      exact (init_sim h1 (fun j hj => h2 j (hN.trans hj))).mono le_rfl (fun _ _ => id)
        fun _ _ _ _ hr => ⟨hr.1, by simp [Preprocess.sharesPoints, hr.2.1], by simp [Preprocess.sharesNormals, hr.2.2.1],
          by rw [hr.2.2.2]; exact fun _ _ => rfl⟩
  | rescaled q =>
    unfold Preprocess.run Preprocess.value HSample.getNormals
    cases hN : s.normals with
    | none => exact psim_throw
    | some m =>
      simp only [pure_bind, Option.map_some]
      have hm := h2 m hN
      refine psim_read (psim_alloc hn ?_)
      intro g g1 g2 g3
      have := init_sim (n := n) (W := W) (F := F) (L := L) (h := g) (p := h.next) (nrm := some m) (by omega) (fun j hj => by
        injection hj with hj
        omega)
      rw [Option.map_some, g2, g3 m hm.1] at this
      exact this.mono le_rfl (fun _ _ => id)
        fun _ _ _ _ hr => ⟨hr.1, by simp [Preprocess.sharesPoints, hr.2.1], by simp [Preprocess.sharesNormals, hr.2.2.1],
          by rw [hr.2.2.2]; exact g3⟩
  | normalized =>
    unfold Preprocess.run Preprocess.value HSample.getNormals
    cases hN : s.normals with
    | none => exact psim_throw
    | some m =>
      simp only [pure_bind, Option.map_some]
      have := init_sim (n := n) (W := W) (F := F) (L := L) (h := h) (p := s.points) (nrm := some m) h1 (fun j hj => h2 j (hN.trans hj))
      rw [Option.map_some] at this
      refine psim_bind this ?_
      rintro H q g - ⟨k1, k2, k3, rfl⟩
      have k4 : g.mem H.points = q.points := by rw [← k1.load]; rfl
      refine psim_read ?_
      have k5 : Points.bbox (F := F) (L := L) ⟨g.mem H.points, none, none, none, none, 1, none, 0⟩ = q.bbox := by
        rw [k4]
        rfl
      rw [k5]
      refine psim_liftB ?_
      intro b _
      unfold HPoints.normalize
      have h6 := mapPoints_sim (W := W) k1 hn fun v : V3 ℚ => (V3.mk (v.x - ((b.1 + b.2).map (· * (1 / 2))).x)
        (v.y - ((b.1 + b.2).map (· * (1 / 2))).y) (v.z - ((b.1 + b.2).map (· * (1 / 2))).z)).map
          (· * (2 * (8 / 10) / (max (max (b.2.x - b.1.x) (b.2.y - b.1.y)) (b.2.z - b.1.z) + 1 / 10 ^ 6)))
      have h7 := mapPoints_sim (n := g.next) (W := fun _ => False) k1 le_rfl fun v : V3 ℚ => (V3.mk (v.x - ((b.1 + b.2).map (· * (1 / 2))).x)
        (v.y - ((b.1 + b.2).map (· * (1 / 2))).y) (v.z - ((b.1 + b.2).map (· * (1 / 2))).z)).map
          (· * (2 * (8 / 10) / (max (max (b.2.x - b.1.x) (b.2.y - b.1.y)) (b.2.z - b.1.z) + 1 / 10 ^ 6)))
      refine ⟨h6.1, ?_⟩
      obtain ⟨e1, e2⟩ := h7
      revert e1 e2
      generalize runP (H.mapPoints fun v : V3 ℚ => (V3.mk (v.x - ((b.1 + b.2).map (· * (1 / 2))).x)
        (v.y - ((b.1 + b.2).map (· * (1 / 2))).y) (v.z - ((b.1 + b.2).map (· * (1 / 2))).z)).map
          (· * (2 * (8 / 10) / (max (max (b.2.x - b.1.x) (b.2.y - b.1.y)) (b.2.z - b.1.z) + 1 / 10 ^ 6)))) g = z
      rcases z with ⟨z1 | z1, z2⟩
      · exact fun _ h => h
      · intro e1 e2
        exact ⟨e2.1.1, by simpa [Preprocess.sharesPoints] using e2.2.1, by simp [Preprocess.sharesNormals, e2.2.2, k3],
          fun x hx => e1.mem x hx id⟩
  | kitti q =>
    unfold Preprocess.run Preprocess.value
    simp only
    refine psim_read (psim_liftB ?_)
    intro b _
    refine psim_alloc hn ?_
    intro g g1 g2 g3
    have := init_sim (n := n) (W := W) (F := F) (L := L) (h := g) (p := h.next) (nrm := none) (by omega) (fun j hj => by cases hj)
    rw [Option.map_none, g2] at this
    exact this.mono le_rfl (fun _ _ => id)
      fun _ _ _ _ hr => ⟨hr.1, by simp [Preprocess.sharesPoints, hr.2.1], by simp [Preprocess.sharesNormals, hr.2.2.1],
        by rw [hr.2.2.2]; exact g3⟩

theorem prepare_sim (rt cosF sinF : ℚ → ℚ) (pre : Preprocess) (t : Transform) (r : Drawn) {h : PHeap ℚ} {s : HSample} (hs : s.Valid h) :
    PSim h.next (MayChange pre t r s) (prepareH rt cosF sinF pre t r s : PM ℚ (HPoints F L × List Bool)) h
      (freshResult rt cosF sinF pre t r (h.mem s.points) (s.normals.map h.mem))
      fun h1 a b => Own h1 a.1 b.1 ∧ a.2 = b.2 ∧ Fresh h.next a.1 := by
  unfold prepareH freshResult
  refine psim_bind (preprocess_sim hs le_rfl pre) ?_
  rintro H p h1 he ⟨o, h2, h3, -⟩
  refine (Transform.transform_sim rt cosF sinF t r o he.next).mono le_rfl ?_ fun _ _ _ _ hr =>
    ⟨hr.1, hr.2.1, he.next.trans hr.2.2.1, fun m hm => he.next.trans (hr.2.2.2 m hm)⟩
  rintro x hx (⟨w1, w2, w3⟩ | ⟨w1, w2, w3⟩)
  · refine .inl ⟨w1, w2, ?_⟩
    rcases w3 with w3 | w3
    · split at h2
      · rename_i hp
        exact .inl ⟨hp, w3.trans h2⟩
      · omega
    · rw [h3] at w3
      split at w3
      · rename_i hp
        exact .inr ⟨hp, w3⟩
      · cases w3
  · refine .inr ⟨w1, w2, ?_⟩
    rw [h3] at w3
    split at w3
    · rename_i hp
      exact ⟨hp, w3⟩
    · cases w3

theorem outcome_of_match {x : M (HPoints F L × List Bool) × PHeap ℚ} {e : M (Points ℚ F L × List Bool)}
    {Q : PHeap ℚ → HPoints F L × List Bool → Prop}
    (hm : Match (fun a b => Own x.2 a.1 b.1 ∧ a.2 = b.2 ∧ Q x.2 a) x.1 e) : outcome x = e := by
  unfold outcome
  rcases hx : x.1 with y | a <;> rw [hx] at hm <;> rcases e with z | b
  · exact congrArg _ hm
  · exact hm.elim
  · exact hm.elim
  · obtain ⟨h1, h2, -⟩ := hm
    simp only [h1.load, h2]

/-- **C88**.  Preparing a sample returns what the arrays of the sample say, and changes no array, except that a drawn flip reverses the
arrays shared with the prepared object, and that without augmentation `orient_normal = 'xyz'` changes the shared normals. -/
theorem C88_prepare (rt cosF sinF : ℚ → ℚ) (pre : Preprocess) (t : Transform) (r : Drawn) (h : PHeap ℚ) (s : HSample) (hs : s.Valid h) :
    let x := runP (prepareH rt cosF sinF pre t r s : PM ℚ (HPoints F L × List Bool)) h
    outcome x = freshResult rt cosF sinF pre t r (h.mem s.points) (s.normals.map h.mem) ∧
      ∀ a, a < h.next → ¬ MayChange pre t r s a → x.2.mem a = h.mem a := by
  obtain ⟨h1, h2⟩ := prepare_sim (F := F) (L := L) rt cosF sinF pre t r hs
  exact ⟨outcome_of_match (Q := fun _ a => Fresh h.next a.1) h2, h1.mem⟩

/-- Apart from `flip` and `orient_normal('xyz')`, the methods of `Points` change no tensor that exists when they are called, not even those of the
object itself. -/
theorem C88_methods (h : PHeap ℚ) (H : HPoints F L) (hp : H.points < h.next) (hn : ∀ n, H.normals = some n → n < h.next ∧ n ≠ H.points)
    (x : Nat) (hx : x < h.next) (c s f d a b : V3 ℚ) (rt : ℚ → ℚ) (mn mx esp sc : ℚ) (axis : String) (mask : List Bool) :
    (runP (H.rotate c s) h).2.mem x = h.mem x ∧ (runP (H.translate d) h).2.mem x = h.mem x ∧ (runP (H.scale rt f) h).2.mem x = h.mem x ∧
      (runP (H.normalize a b sc) h).2.mem x = h.mem x ∧ (runP (H.getItem mask) h).2.mem x = h.mem x ∧
      (runP (H.clip mn mx esp) h).2.mem x = h.mem x ∧ (axis ≠ "xyz" → (runP (H.orientNormal axis) h).2.mem x = h.mem x) := by
  have ho : Own h H (h.load H) := ⟨rfl, hp, hn⟩
  refine ⟨?_, ?_, ?_, ?_, ?_, ?_, fun hax => ?_⟩
  · exact (rotate_sim (W := fun _ => False) ho le_rfl c s).1.mem x hx id
  · exact (translate_sim (W := fun _ => False) ho le_rfl d).1.mem x hx id
  · exact (scale_sim (W := fun _ => False) ho le_rfl rt f).1.mem x hx id
  · exact (mapPoints_sim (W := fun _ => False) ho le_rfl _).1.mem x hx id
  · exact (getItem_sim (W := fun _ => False) ho le_rfl mask).1.mem x hx id
  · exact (clip_sim (W := fun _ => False) ho le_rfl mn mx esp).1.mem x hx id
  · exact (orient_sim (W := fun _ => False) ho le_rfl axis fun h => absurd h hax).1.mem x hx id

/-- The results of preparing the same sample once per element of the list, one after the other. -/
def epochs (rt cosF sinF : ℚ → ℚ) (pre : Preprocess) (t : Transform) (s : HSample) :
    List Drawn → PHeap ℚ → List (M (Points ℚ F L × List Bool)) × PHeap ℚ
  | [], h => ([], h)
  | r :: rs, h =>
    let x := runP (prepareH rt cosF sinF pre t r s : PM ℚ (HPoints F L × List Bool)) h
    let y := epochs rt cosF sinF pre t s rs x.2
    (outcome x :: y.1, y.2)

/-- The sample can be prepared again and again. -/
def SafeDraw (pre : Preprocess) (t : Transform) (r : Drawn) : Prop :=
  pre.sharesNormals = false ∨ ((t.distort = true → t.rndFlip r = "") ∧ (t.distort = false → t.orientNormal ≠ "xyz"))

theorem safe_not_change {pre : Preprocess} {t : Transform} {r : Drawn} (hr : SafeDraw pre t r) (s : HSample) (x : Nat) :
    ¬ MayChange pre t r s x := by
  rintro (⟨h1, h2, h3⟩ | ⟨h1, h2, h3, h4⟩)
  · rcases hr with hr | ⟨hr, -⟩
    · cases pre <;> simp_all [Preprocess.sharesPoints, Preprocess.sharesNormals]
    · exact h2 (hr h1)
  · rcases hr with hr | ⟨-, hr⟩
    · rw [h3] at hr; cases hr
    · exact hr h1 h2

/-- **C88**, the part that holds: if the normals are not shared (KITTI), or no flip is drawn and the normals are not oriented in place, then in
every epoch the sample is prepared as if it had just been read, and its arrays stay as they are. -/
theorem C88_epochs_partial (rt cosF sinF : ℚ → ℚ) (pre : Preprocess) (t : Transform) (s : HSample) (rs : List Drawn)
    (hr : ∀ r ∈ rs, SafeDraw pre t r) (h : PHeap ℚ) (hs : s.Valid h) :
    (epochs (F := F) (L := L) rt cosF sinF pre t s rs h).1 =
        rs.map (fun r => freshResult rt cosF sinF pre t r (h.mem s.points) (s.normals.map h.mem)) ∧
      ∀ a, a < h.next → (epochs (F := F) (L := L) rt cosF sinF pre t s rs h).2.mem a = h.mem a := by
  induction rs generalizing h with
  | nil => exact ⟨rfl, fun _ _ => rfl⟩
  | cons r rs ih =>
    obtain ⟨h1, h2⟩ := prepare_sim (F := F) (L := L) rt cosF sinF pre t r hs
    have h3 := safe_not_change (hr r (by simp)) s
    have h4 := fun a ha => h1.mem a ha (h3 a)
    obtain ⟨i1, i2⟩ := ih (fun r' hr' => hr r' (by simp [hr'])) (runP (prepareH rt cosF sinF pre t r s : PM ℚ (HPoints F L × List Bool)) h).2
      ⟨lt_of_lt_of_le hs.pts h1.next, fun n hn => ⟨lt_of_lt_of_le (hs.nrm n hn).1 h1.next, (hs.nrm n hn).2⟩⟩
    refine ⟨?_, fun a ha => (i2 a (lt_of_lt_of_le ha h1.next)).trans (h4 a ha)⟩
    have h5 : s.normals.map (runP (prepareH rt cosF sinF pre t r s : PM ℚ (HPoints F L × List Bool)) h).2.mem = s.normals.map h.mem := by
      cases hN : s.normals with
      | none => rfl
      | some m => simp [h4 m (hs.nrm m hN).1]
    rw [h5, h4 _ hs.pts] at i1
    simp only [epochs, List.map_cons]
    rw [i1, outcome_of_match (Q := fun _ a => Fresh h.next a.1) h2]

/-- The row with the components of the drawn axes negated. -/
def mirrored (t : Transform) (r : Drawn) (v : V3 ℚ) : V3 ℚ :=
  ⟨if r.coins.x < t.flip.x then -v.x else v.x, if r.coins.y < t.flip.y then -v.y else v.y, if r.coins.z < t.flip.z then -v.z else v.z⟩

theorem flip_mirrored (t : Transform) (r : Drawn) (p : Points ℚ F L) : p.flip (t.rndFlip r) =
    .ok { p with points := p.points.map (mirrored t r), normals := p.normals.map fun x => x.map (mirrored t r) } := by
  unfold Points.flip Transform.rndFlip
  rw [String.toList_ofList]
  have h0 : ∀ (f g : V3 ℚ → V3 ℚ), (∀ v, f v = g v) → (⟨p.points.map f, p.normals.map fun x => x.map f, p.features, p.labels, p.batchId,
      p.batchSize, p.batchNpt, p.device⟩ : Points ℚ F L) = ⟨p.points.map g, p.normals.map fun x => x.map g, p.features, p.labels, p.batchId,
      p.batchSize, p.batchNpt, p.device⟩ := by
    intro f g hfg
    rw [funext hfg]
  have h1 : p = ⟨p.points.map id, p.normals.map fun x => x.map id, p.features, p.labels, p.batchId, p.batchSize, p.batchNpt, p.device⟩ := by
    simp
  have step : ∀ (c : Char) (a : Points.Axis) (f : V3 ℚ → V3 ℚ), Points.axisOf c = .ok a →
      Points.flipAxis (⟨p.points.map f, p.normals.map fun x => x.map f, p.features, p.labels, p.batchId, p.batchSize, p.batchNpt, p.device⟩ :
        Points ℚ F L) c = .ok ⟨p.points.map (fun v => Points.negAt (f v) a), p.normals.map fun x => x.map (fun v => Points.negAt (f v) a),
        p.features, p.labels, p.batchId, p.batchSize, p.batchNpt, p.device⟩ := by
    intro c a f hc
    unfold Points.flipAxis
    rw [hc]
    show Except.ok _ = Except.ok _
    simp [Function.comp_def]
  conv_lhs => rw [h1]
  have hx : Points.axisOf 'x' = .ok .x := rfl
  have hy : Points.axisOf 'y' = .ok .y := rfl
  have hz : Points.axisOf 'z' = .ok .z := rfl
  have hok : ∀ {α β : Type} (a : α) (f : α → M β), (Except.ok a : M α) >>= f = f a := fun _ _ => rfl
  have hpure : ∀ {α : Type} (a : α), (pure a : M α) = .ok a := fun _ => rfl
  have hm : ∀ v, mirrored t r v = ⟨if r.coins.x < t.flip.x then -v.x else v.x, if r.coins.y < t.flip.y then -v.y else v.y,
    if r.coins.z < t.flip.z then -v.z else v.z⟩ := fun _ => rfl
  by_cases cx : r.coins.x < t.flip.x <;> by_cases cy : r.coins.y < t.flip.y <;> by_cases cz : r.coins.z < t.flip.z <;>
    simp only [if_pos, if_neg, cx, cy, cz, not_false_eq_true, List.nil_append, List.cons_append, List.append_nil, List.foldlM_cons,
      List.foldlM_nil, step _ _ _ hx, step _ _ _ hy, step _ _ _ hz, hok, hpure] <;>
    refine congrArg _ (h0 _ _ fun v => ?_) <;>
    rw [hm] <;> simp [cx, cy, cz, Points.negAt]

/-- After an augmentation, the arrays shared with the prepared object contain the mirrored rows: the coordinates and normals that the next user
of the arrays sees have been flipped. -/
theorem C88_flipped (rt cosF sinF : ℚ → ℚ) (pre : Preprocess) (t : Transform) (r : Drawn) (h : PHeap ℚ) (s : HSample) (hs : s.Valid h)
    (hd : t.distort = true) (a : V3 ℚ) (ha : t.rndAngle r = .ok a) (p : Points ℚ F L)
    (hp : pre.value (h.mem s.points) (s.normals.map h.mem) = .ok p) :
    let h' := (runP (prepareH rt cosF sinF pre t r s : PM ℚ (HPoints F L × List Bool)) h).2
    (pre.sharesPoints = true → h'.mem s.points = (h.mem s.points).map (mirrored t r)) ∧
      (pre.sharesNormals = true → ∀ n, s.normals = some n → h'.mem n = (h.mem n).map (mirrored t r)) := by
  obtain ⟨-, e2⟩ := preprocess_sim (F := F) (L := L) (n := h.next) (W := fun _ => False) hs le_rfl pre
  rw [hp] at e2
  rcases hz : runP (pre.run s : PM ℚ (HPoints F L)) h with ⟨z1 | H, h1⟩
  · rw [hz] at e2; exact e2.elim
  rw [hz] at e2
  obtain ⟨o1, o2, o3, o4⟩ := e2
  obtain ⟨f1, f2⟩ := flip_sim (n := h1.next) (W := fun _ => True) o1 (t.rndFlip r) (fun _ _ _ => trivial)
  rw [flip_mirrored] at f2
  rcases hw : runP (H.flip (t.rndFlip r)) h1 with ⟨z1 | H', h2⟩
  · rw [hw] at f2; exact f2.elim
  rw [hw] at f2
  obtain ⟨g1, g2, g3⟩ := f2
  simp only at g1 g2 g3
  subst g2
  set t' : Transform := { t with flip := r.coins } with ht'
  have hfl : t'.rndFlip r = "" := by simp [Transform.rndFlip, ht']
  have hang : t'.rndAngle r = .ok a := ha
  have hrun : runP (prepareH rt cosF sinF pre t r s : PM ℚ (HPoints F L × List Bool)) h =
      runP (t'.transformH rt cosF sinF r H' : PM ℚ (HPoints F L × List Bool)) h2 := by
    unfold prepareH
    rw [runP_bind, hz]
    show runP (t.transformH rt cosF sinF r H') h1 = _
    unfold Transform.transformH
    have ht1 : t'.distort = true := hd
    rw [if_pos hd, if_pos ht1, runP_bind, runP_bind]
    have hau : runP (t.augmentH rt cosF sinF r H') h1 = runP (t'.augmentH rt cosF sinF r H') h2 := by
      unfold Transform.augmentH
      rw [ha, hang, hfl]
      show runP (do
        let H ← H'.flip (t.rndFlip r)
        let H ← H.rotate (a.map cosF) (a.map sinF)
        let H ← H.translate (t.rndJitter r)
        H.scale rt (t.rndScale r)) h1 = runP (do
        let H ← H'.rotate (a.map cosF) (a.map sinF)
        let H ← H.translate (t'.rndJitter r)
        H.scale rt (t'.rndScale r)) h2
      rw [runP_bind, hw]
      rfl
    rw [hau]
  obtain ⟨k1, -⟩ := Transform.transform_sim rt cosF sinF t' r g1 (n := h2.next) le_rfl
  have k2 : ∀ x, x < h2.next → (runP (prepareH rt cosF sinF pre t r s : PM ℚ (HPoints F L × List Bool)) h).2.mem x = h2.mem x := by
    intro x hx
    rw [hrun]
    refine k1.mem x hx ?_
    rintro (⟨-, w, -⟩ | ⟨w, -, -⟩)
    · exact w hfl
    · rw [show t'.distort = t.distort from rfl, hd] at w; cases w
  have hp1 := o1.load
  have hp2 := g1.load
  refine ⟨fun hS => ?_, fun hS n hn => ?_⟩
  · rw [if_pos hS] at o2
    rw [k2 _ (by have : H'.points < h1.next := o1.pts; omega)]
    have e3 : h2.mem H'.points = p.points.map (mirrored t r) := congrArg Points.points hp2
    have e4 : h1.mem H'.points = p.points := congrArg Points.points hp1
    rw [← o2, e3, ← e4, o2, o4 _ hs.pts]
  · rw [if_pos hS, hn] at o3
    have e3 : H'.normals.map h2.mem = p.normals.map fun x => x.map (mirrored t r) := congrArg Points.normals hp2
    have e4 : H'.normals.map h1.mem = p.normals := congrArg Points.normals hp1
    rw [k2 _ (by have : n < h1.next := (o1.nrm n o3).1; omega)]
    rw [← e4, o3] at e3
    simp only [Option.map_some, Option.some.injEq] at e3
    rw [e3, o4 _ (hs.nrm n hn).1]

/-- A transform that flips along `x` with probability one half. -/
def flipHalf : Transform := ⟨3, 2, true, ⟨0, 0, 0⟩, ⟨1, 1, 1⟩, 0, true, 0, ⟨1 / 2, 0, 0⟩, ""⟩

/-- A flip is drawn. -/
def drawFlip : Drawn := ⟨⟨0, 0, 0⟩, ⟨0, 0, 0⟩, ⟨0, 0, 0⟩, ⟨0, 0, 0⟩⟩

/-- No flip is drawn. -/
def drawPlain : Drawn := ⟨⟨0, 0, 0⟩, ⟨0, 0, 0⟩, ⟨1 / 2, 0, 0⟩, ⟨0, 0, 0⟩⟩

/-- A sample with one point and its normal. -/
def onePoint : PHeap ℚ := ⟨2, fun i => if i = 0 then [⟨1 / 2, 0, 0⟩] else [⟨1, 0, 0⟩]⟩

/-- **C88** is false: with the `preprocess` of ae_shapenet and image2shape, a flip in one epoch reverses the normals of the dataset, so that the
second epoch, in which no flip is drawn, returns a point with the opposite normal of the file. -/
theorem C88_violated : ∃ (pre : Preprocess) (t : Transform) (r₁ r₂ : Drawn) (s : HSample) (h : PHeap ℚ), s.Valid h ∧ t.rndFlip r₂ = "" ∧
    (epochs (F := ℚ) (L := ℚ) id (fun _ => 1) (fun _ => 0) pre t s [r₁, r₂] h).1[1]? ≠
      some (freshResult id (fun _ => 1) (fun _ => 0) pre t r₂ (h.mem s.points) (s.normals.map h.mem)) := by
  refine ⟨.rescaled 1, flipHalf, drawFlip, drawPlain, ⟨0, some 1⟩, onePoint, ⟨by decide, by
    intro n hn
    injection hn with hn
    subst hn
    exact ⟨by decide, by decide⟩⟩, by simp [Transform.rndFlip, flipHalf, drawPlain], ?_⟩
  intro hc
  have h2 := congrArg (fun x : Option (M (Points ℚ ℚ ℚ × List Bool)) =>
    match x with
    | some (.ok a) => a.1.normals
    | _ => none) hc
  revert h2
  decide +kernel

/-- Without the first epoch the same draw gives the normal of the file. -/
example : (match (freshResult id (fun _ => 1) (fun _ => 0) (.rescaled 1) flipHalf drawPlain [⟨1 / 2, 0, 0⟩] (some [⟨1, 0, 0⟩]) :
    M (Points ℚ ℚ ℚ × List Bool)) with
    | .ok a => a.1.normals
    | .error _ => none) = some [⟨1, 0, 0⟩] := by decide +kernel

/-- The hypotheses of `C88_prepare` and `C88_flipped` are met. -/
example : (⟨0, some 1⟩ : HSample).Valid onePoint ∧ flipHalf.rndAngle drawFlip = .ok ⟨0, 0, 0⟩ ∧
    mirrored flipHalf drawFlip ⟨1, 2, 3⟩ = ⟨-1, 2, 3⟩ := by
  refine ⟨⟨by decide, ?_⟩, by decide +kernel, by decide +kernel⟩
  intro n hn
  injection hn with hn
  subst hn
  exact ⟨by decide, by decide⟩

/-- The hypothesis of `C88_epochs_partial` is met by a transform that flips along `x`, for KITTI with every draw and for ae_shapenet with the
draws without flip. -/
example : SafeDraw (.kitti 100) flipHalf drawFlip ∧ SafeDraw (.rescaled 1) flipHalf drawPlain ∧ ¬ SafeDraw (.rescaled 1) flipHalf drawFlip := by
  refine ⟨.inl rfl, .inr ⟨fun _ => by simp [Transform.rndFlip, flipHalf, drawPlain], fun h => by cases h⟩, ?_⟩
  rintro (h | ⟨h, -⟩)
  · cases h
  · exact absurd (h rfl) (by decide +kernel)

end Ocnn
