import Verif.PropsLocal
import Verif.NetLocalSegNet

/-! C187: what `SegNet` predicts at a point depends only on the points near it. -/

namespace Ocnn
open Spec
variable {F : Type}

namespace Spec

/-- The radius of the neighbourhood that `SegNet` with `S` stages and empty nodes looks at, in voxels of the finest level: the convolutions on `2 ^ S`
voxels and finer, and what the interpolation looks at. -/
def segnetSeen (S : Nat) (method : String) : ℚ := 5 * 2 ^ S - 3 + (if method = "linear" then 3 / 2 else 1)

end Spec

/-- **C187** The prediction of `SegNet` (evaluation mode, `nempty=False`) at a point `q` of the cube depends only on the points of the cloud of the same
sample at distance less than `segnetSeen` finest voxels on every axis; in particular the positions of the maxima that the pooling hands over to the
unpooling carry nothing further. -/
theorem C187_segnet {L : Type} {k : Nat} (P : Params) (hT : P.training = false) (nrm : V3 ℚ → V3 ℚ)
    (divF : ℚ → (Fin k → ℚ) → (Fin k → ℚ)) (o : Octree (Fin k → ℚ)) (pc pc' : Points ℚ (Fin k → ℚ) L) (samples samples' : List Nat)
    (h : LegalBuild o pc samples) (h' : LegalBuild o pc' samples') (hf : 1 ≤ o.fullDepth) (feature : String)
    (hN : Asks feature 'N' 'n' ∨ Asks feature 'D' 'd' → pc.normals ≠ none ∧ pc'.normals ≠ none)
    (hF : Asks feature 'F' 'f' → pc.features ≠ none ∧ pc'.features ≠ none)
    (ha : Asks feature 'N' 'n' ∨ Asks feature 'D' 'd' ∨ Asks feature 'L' 'l' ∨ Asks feature 'P' 'p' ∨ Asks feature 'F' 'f')
    (cout stages : Nat) (hst : 1 ≤ stages) (hds : stages < o.depth) (hw : WidthOk (channelCount feature k))
    (method : String) (q : V3 ℚ × Nat) (hq : InCube q.1) (hl : method = "linear" → AwayFromSides o.depth q.1)
    (hs : SameNear (segnetSeen stages method * (2 / 2 ^ o.depth)) q pc pc' samples samples')
    (qs qs' : List (V3 ℚ × Nat)) (hb : ∀ e ∈ qs ++ qs', e.2 < o.batchSize) :
    ∃ o₁ i₁ t₁ x₁ o₂ i₂ t₂ x₂, Octree.build nrm divF o pc = .ok (o₁, i₁) ∧ o₁.constructAllNeigh = .ok t₁ ∧
      t₁.inputFeature feature false = .ok x₁ ∧ Octree.build nrm divF o pc' = .ok (o₂, i₂) ∧ o₂.constructAllNeigh = .ok t₂ ∧
      t₂.inputFeature feature false = .ok x₂ ∧
      SameAt q qs qs' cout
        (segnet P (channelCount feature k) cout stages method false t₁ o.depth (qs.map row4) ⟨_, x₁.map (asVector (channelCount feature k))⟩)
        (segnet P (channelCount feature k) cout stages method false t₂ o.depth (qs'.map row4) ⟨_, x₂.map (asVector (channelCount feature k))⟩) := by
  obtain ⟨o₁, i₁, t₁, x₁, o₂, i₂, t₂, x₂, b1, n1, g1, b2, n2, g2, lp, hr⟩ :=
    local_pair nrm divF o pc pc' samples samples' h h' hf hs feature hN hF ha false (channelCount feature k) stages
  refine ⟨o₁, i₁, t₁, x₁, o₂, i₂, t₂, x₂, b1, n1, g1, b2, n2, g2, ?_⟩
  have hB := h.batch
  simp only [Bool.false_eq_true, if_false] at lp hr
  have Q := lp.queries method (d := o.depth) (k := 2 ^ stages + (segnetRadius stages : Int)) (by omega) (by omega) (by omega) qs qs'
    (fun e he => lt_of_lt_of_le (hb e (List.mem_append_left _ he)) hB) (fun e he => lt_of_lt_of_le (hb e (List.mem_append_right _ he)) hB)
  obtain ⟨y, y', r1, r2, f, f', rfl, rfl, hff⟩ := lp.segnet hT cout hst method hds (le_refl _) hw Q hr
  refine ⟨_, _, r1, r2, by simp, by simp, fun i j hi hj => ?_⟩
  rw [List.getElem?_map, List.getElem?_map, hi, hj]
  refine congrArg some (hff q (List.mem_of_getElem? hi) (List.mem_of_getElem? hj) fun c hc => ?_)
  have S := seen_surr (D := o.depth) (k := 2 ^ stages + (segnetRadius stages : Int)) (le_refl _) hq hl hc
  have er : (((2 ^ stages + (segnetRadius stages : Int) : Int) : ℚ) + (if method = "linear" then 3 / 2 else 1) * 2 ^ (o.depth - o.depth)) =
      segnetSeen stages method := by
    have h1 : 1 ≤ 2 ^ stages := Nat.one_le_two_pow
    unfold segnetSeen segnetRadius
    rw [Nat.sub_self]
    push_cast [Nat.cast_sub (show 3 ≤ 4 * 2 ^ stages by omega)]
    ring
  rw [er] at S
  exact S

/-- **C187, crops.** Cropping a cloud with `inbox_mask` and indexing to a box that leaves `segnetSeen` finest voxels around `q` does not change the
prediction at `q`. -/
theorem C187_crop {L : Type} {k : Nat} (P : Params) (hT : P.training = false) (nrm : V3 ℚ → V3 ℚ)
    (divF : ℚ → (Fin k → ℚ) → (Fin k → ℚ)) (o : Octree (Fin k → ℚ)) (pc pc' : Points ℚ (Fin k → ℚ) L) (samples : List Nat)
    (h : LegalBuild o pc samples) (hf : 1 ≤ o.fullDepth) (feature : String)
    (hN : Asks feature 'N' 'n' ∨ Asks feature 'D' 'd' → pc.normals ≠ none) (hF : Asks feature 'F' 'f' → pc.features ≠ none)
    (ha : Asks feature 'N' 'n' ∨ Asks feature 'D' 'd' ∨ Asks feature 'L' 'l' ∨ Asks feature 'P' 'p' ∨ Asks feature 'F' 'f')
    (cout stages : Nat) (hst : 1 ≤ stages) (hds : stages < o.depth) (hw : WidthOk (channelCount feature k))
    (method : String) (q : V3 ℚ × Nat) (hq : InCube q.1) (hl : method = "linear" → AwayFromSides o.depth q.1) (lo hi : V3 ℚ) (r : ℚ)
    (hr : r = segnetSeen stages method * (2 / 2 ^ o.depth)) (hlo : lo.x ≤ q.1.x - r ∧ lo.y ≤ q.1.y - r ∧ lo.z ≤ q.1.z - r)
    (hhi : q.1.x + r ≤ hi.x ∧ q.1.y + r ≤ hi.y ∧ q.1.z + r ≤ hi.z) (hc : pc.getItem (pc.inboxMask lo hi) = .ok pc')
    (qs qs' : List (V3 ℚ × Nat)) (hb : ∀ e ∈ qs ++ qs', e.2 < o.batchSize) :
    ∃ o₁ i₁ t₁ x₁ o₂ i₂ t₂ x₂, Octree.build nrm divF o pc = .ok (o₁, i₁) ∧ o₁.constructAllNeigh = .ok t₁ ∧
      t₁.inputFeature feature false = .ok x₁ ∧ Octree.build nrm divF o pc' = .ok (o₂, i₂) ∧ o₂.constructAllNeigh = .ok t₂ ∧
      t₂.inputFeature feature false = .ok x₂ ∧
      SameAt q qs qs' cout
        (segnet P (channelCount feature k) cout stages method false t₁ o.depth (qs.map row4) ⟨_, x₁.map (asVector (channelCount feature k))⟩)
        (segnet P (channelCount feature k) cout stages method false t₂ o.depth (qs'.map row4) ⟨_, x₂.map (asVector (channelCount feature k))⟩) := by
  subst hr
  obtain ⟨h', hs, hN', hF'⟩ := crop_same h hlo hhi hc
  exact C187_segnet P hT nrm divF o pc pc' samples _ h h' hf feature (fun a => ⟨hN a, hN' (hN a)⟩) (fun a => ⟨hF a, hF' (hF a)⟩) ha cout stages hst hds hw
    method q hq hl hs qs qs' hb

/-- With the three stages of `seg_shapenet.yaml` (line 79) `SegNet` sees 38 voxels in every direction with nearest interpolation and 38.5 with linear
interpolation: at the depth 5 used there that is the whole cube, at depth 7 it is less than a third of it. -/
theorem C187_radius : segnetSeen 3 "nearest" = 38 ∧ segnetSeen 3 "linear" = 77 / 2 ∧ 2 ≤ segnetSeen 3 "linear" * (2 / 2 ^ 5) ∧
    segnetSeen 3 "linear" * (2 / 2 ^ 7) < 2 / 3 := by
  have hne : ¬ ("nearest" = "linear") := by decide
  unfold segnetSeen
  refine ⟨?_, ?_, ?_, ?_⟩ <;> norm_num [hne]

/-- The hypotheses are met by two different clouds of depth 11 and three stages. -/
example (P : Params) (hT : P.training = false) : cloudFar (1 / 2) ≠ cloudFar (3 / 4) ∧ ∃ o₁ i₁ t₁ x₁ o₂ i₂ t₂ x₂,
      Octree.build id (fun c v i => v i / c) (Octree.new 11 1 1 0) (cloudFar (1 / 2)) = .ok (o₁, i₁) ∧ o₁.constructAllNeigh = .ok t₁ ∧
      t₁.inputFeature "ND" false = .ok x₁ ∧ Octree.build id (fun c v i => v i / c) (Octree.new 11 1 1 0) (cloudFar (3 / 4)) = .ok (o₂, i₂) ∧
      o₂.constructAllNeigh = .ok t₂ ∧ t₂.inputFeature "ND" false = .ok x₂ ∧
      SameAt (⟨-1 / 2, -1 / 2, -1 / 2⟩, 0) (((cloudFar (1 / 2)).points.zip [0, 0])) (((cloudFar (3 / 4)).points.zip [0, 0])) 10
        (segnet P 4 10 3 "linear" false t₁ 11 (((cloudFar (1 / 2)).points.zip [0, 0]).map row4) ⟨4, x₁.map (asVector 4)⟩)
        (segnet P 4 10 3 "linear" false t₂ 11 (((cloudFar (3 / 4)).points.zip [0, 0]).map row4) ⟨4, x₂.map (asVector 4)⟩) := by
  refine ⟨fun h => ?_, ?_⟩
  · have := congrArg (fun c => c.points) h
    simp only [cloudFar, List.cons.injEq, V3.mk.injEq] at this
    norm_num at this
  have hcc : channelCount "ND" 1 = 4 := by decide +kernel
  have := C187_segnet P hT id (fun c v i => v i / c) (Octree.new 11 1 1 0) (cloudFar (1 / 2)) (cloudFar (3 / 4)) [0, 0] [0, 0]
    (cloudFar_legal _ (.inl rfl)) (cloudFar_legal _ (.inr rfl)) (by simp [Octree.new]) "ND" (fun _ => by simp [cloudFar])
    (fun h => absurd h (by decide +kernel)) (by decide +kernel) 10 3 (by decide) (by decide)
    (by rw [hcc]; unfold WidthOk; decide) "linear" (⟨-1 / 2, -1 / 2, -1 / 2⟩, 0) (by decide +kernel)
    (fun _ => by simp only [Octree.new, AwayFromSides]; norm_num)
    (by
      rw [C187_radius.2.1]
      simp only [Octree.new]
      have n1 : ∀ s : ℚ, s = 1 / 2 ∨ s = 3 / 4 → nearBy (77 / 2 * (2 / 2 ^ 11)) (⟨-1 / 2, -1 / 2, -1 / 2⟩, 0) (⟨s, 1 / 3, 0⟩, 0) = false := by
        rintro s (rfl | rfl) <;> decide +kernel
      constructor <;> simp only [cloudFar, nearPart, List.zip_cons_cons, List.zip_nil_right, List.filter_cons, n1 _ (.inl rfl), n1 _ (.inr rfl), List.filter_nil, Bool.false_eq_true, if_false, Option.getD] <;> exact List.Perm.refl _)
    ((cloudFar (1 / 2)).points.zip [0, 0]) ((cloudFar (3 / 4)).points.zip [0, 0]) (by simp [cloudFar, Octree.new])
  rw [hcc] at this
  exact this

/-- The hypotheses of the crop are met with three stages and linear interpolation at depth 11. -/
example : (cloudFar (1 / 2)).getItem ((cloudFar (1 / 2)).inboxMask ⟨-9 / 10, -9 / 10, -9 / 10⟩ ⟨-1 / 10, -1 / 10, -1 / 10⟩) =
      .ok ⟨[⟨-1 / 2, -1 / 2, -1 / 2⟩], some [⟨1, 0, 0⟩], none, none, none, 1, none, 0⟩ ∧
    segnetSeen 3 "linear" * (2 / 2 ^ 11) ≤ -1 / 2 - (-9 / 10) := by
  constructor
  · have : (cloudFar (1 / 2)).inboxMask ⟨-9 / 10, -9 / 10, -9 / 10⟩ ⟨-1 / 10, -1 / 10, -1 / 10⟩ = [true, false] := by decide +kernel
    rw [this]
    rfl
  · rw [C187_radius.2.1]
    norm_num

end Ocnn
