import Verif.PropsReplay

/-! What `init_octree`, `octree_split` and `octree_grow` leave unchanged, and the merge of generated octrees. -/

set_option linter.unusedSimpArgs false

namespace Ocnn
open Spec
variable {F : Type}

/-- The signals and the device of `o'` are those of `o`. -/
structure Frame (o o' : Octree F) : Prop where
  features : o'.features = o.features
  normals : o'.normals = o.normals
  points : o'.points = o.points
  device : o'.device = o.device

theorem Frame.refl (o : Octree F) : Frame o o := ⟨rfl, rfl, rfl, rfl⟩

theorem Frame.trans {a b c : Octree F} (h : Frame a b) (k : Frame b c) : Frame a c :=
  ⟨k.1.trans h.1, k.2.trans h.2, k.3.trans h.3, k.4.trans h.4⟩

theorem frame_neigh {o o' : Octree F} {d : Nat} (h : Octree.constructNeigh o d = .ok o') : Frame o o' := by
  unfold Octree.constructNeigh at h
  split at h
  · obtain ⟨rows, -, h⟩ := bind_ok h
    obtain ⟨_, -, h⟩ := bind_ok h
    cases h
    exact ⟨rfl, rfl, rfl, rfl⟩
  · obtain ⟨_, -, h⟩ := bind_ok h
    obtain ⟨_, -, h⟩ := bind_ok h
    obtain ⟨_, -, h⟩ := bind_ok h
    obtain ⟨_, -, h⟩ := bind_ok h
    obtain ⟨_, -, h⟩ := bind_ok h
    cases h
    exact ⟨rfl, rfl, rfl, rfl⟩

theorem frame_growFull {o o' : Octree F} {d : Nat} {u : Bool} (h : o.growFull d u = .ok o') : Frame o o' := by
  unfold Octree.growFull at h
  obtain ⟨_, -, h⟩ := bind_ok h
  obtain ⟨_, -, h⟩ := bind_ok h
  dsimp only at h
  split at h
  · cases h
  · cases u
    · cases h
      exact ⟨rfl, rfl, rfl, rfl⟩
    · have := frame_neigh h
      exact ⟨this.1, this.2, this.3, this.4⟩

theorem frame_split {o o' : Octree F} {d : Nat} {s : List Int} (h : o.split s d = .ok o') : Frame o o' := by
  unfold Octree.split at h
  obtain ⟨_, -, h⟩ := bind_ok h
  obtain ⟨_, -, h⟩ := bind_ok h
  obtain ⟨_, -, h⟩ := bind_ok h
  obtain ⟨_, -, h⟩ := bind_ok h
  cases h
  exact ⟨rfl, rfl, rfl, rfl⟩

theorem frame_grow {o o' : Octree F} {d : Nat} {u : Bool} (h : o.grow d u = .ok o') : Frame o o' := by
  unfold Octree.grow at h
  obtain ⟨_, -, h⟩ := bind_ok h
  obtain ⟨_, -, h⟩ := bind_ok h
  dsimp only at h
  cases u
  · cases h
    exact ⟨rfl, rfl, rfl, rfl⟩
  · have := frame_neigh h
    exact ⟨this.1, this.2, this.3, this.4⟩

theorem frame_update {o o' : Octree F} {depth d : Nat} {l : Tensor} (h : aeUpdate depth d l o = .ok o') : Frame o o' := by
  unfold aeUpdate at h
  obtain ⟨_, -, h⟩ := bind_ok h
  obtain ⟨o1, h1, h⟩ := bind_ok h
  refine (frame_split h1).trans ?_
  split at h
  · exact frame_grow h
  · cases h
    exact Frame.refl _

theorem frame_fold {S : Type} (oct : S → Octree F) (f : S → Nat → M S) (hf : ∀ s i s', f s i = .ok s' → Frame (oct s) (oct s')) (l : List Nat) :
    ∀ s s', l.foldlM f s = .ok s' → Frame (oct s) (oct s') := by
  induction l with
  | nil =>
    intro s s' h
    cases h
    exact Frame.refl _
  | cons i l ih =>
    intro s s' h
    rw [List.foldlM_cons] at h
    obtain ⟨s1, h1, h⟩ := bind_ok h
    exact (hf _ _ _ h1).trans (ih _ _ h)

/-- A generated octree carries no signals and is on the given device. -/
theorem frame_decode {P : Params} {cfg : DecCfg} {cout depth full dev : Nat} {code : Tensor} {st : AeState F}
    (h : aeDecodeCode P cfg cout depth full dev code = .ok st) :
    (∀ d, st.octree.features d = none) ∧ (∀ d, st.octree.normals d = none) ∧ (∀ d, st.octree.points d = none) ∧ st.octree.device = dev := by
  unfold aeDecodeCode at h
  obtain ⟨o0, h0, h⟩ := bind_ok h
  unfold aeDecoder at h
  obtain ⟨s2, hs, h⟩ := bind_ok h
  obtain ⟨c, -, h⟩ := bind_ok h
  obtain ⟨sig, -, h⟩ := bind_ok h
  obtain ⟨sig', -, h⟩ := bind_ok h
  cases h
  have f1 : Frame (Octree.new depth full (code.rows.length / 2 ^ (3 * full)) dev) o0 :=
    frame_fold id _ (fun s i s' h => frame_growFull h) _ _ _ h0
  have f2 : Frame o0 s2.octree := frame_fold AeState.octree _ (fun s i s' h => by
    unfold aeDecStep at h
    obtain ⟨r, -, h⟩ := bind_ok h
    obtain ⟨o, ho, h⟩ := bind_ok h
    cases h
    exact frame_update ho) _ _ _ hs
  have f := f1.trans f2
  refine ⟨fun d => ?_, fun d => ?_, fun d => ?_, f.device⟩
  · rw [f.features]; rfl
  · rw [f.normals]; rfl
  · rw [f.points]; rfl

end Ocnn
