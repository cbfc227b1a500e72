import Verif.PointTypes
import Verif.PropsDTypes

/-! Property C177: the floating-point types that the data pipeline accepts and produces. -/

namespace Ocnn

/-- All tensors of the cloud have type `d`. -/
def Spec.AllOf (d : DType) (p : PointTypes) : Prop := p.points = d ∧ (∀ n, p.normals = some n → n = d) ∧ ∀ f, p.features = some f → f = d

/-- With `distort`, the transformation accepts a cloud exactly when its points and its normals are float32 (torch's default type), and then
changes no type, whatever is drawn and however the normals are oriented; it raises for all other clouds. -/
theorem C177_distort (allOnes nonUniform : Bool) (orient : Option Bool) (p : PointTypes) :
    transformTypes .f32 true allOnes nonUniform orient p =
      if p.points = .f32 ∧ (∀ n, p.normals = some n → n = .f32) then .ok p else .error .type := by
  obtain ⟨pt, nm, ft⟩ := p
  cases nm with
  | none =>
    cases pt <;> cases allOnes <;> cases nonUniform <;> rcases orient with _ | (_ | _) <;>
      simp [transformTypes, PointTypes.rotate, PointTypes.flip, rotateAttr, mmD, autocast, PointTypes.translate, PointTypes.scale, castInto,
        PointTypes.orientNormal, PointTypes.clip, DType.promote, bind, Except.bind, pure, Except.pure]
  | some n =>
    cases pt <;> cases n <;> cases allOnes <;> cases nonUniform <;> rcases orient with _ | (_ | _) <;>
      simp [transformTypes, PointTypes.rotate, PointTypes.flip, rotateAttr, mmD, autocast, PointTypes.translate, PointTypes.scale, castInto,
        PointTypes.orientNormal, PointTypes.clip, DType.promote, bind, Except.bind, pure, Except.pure]

/-- Without `distort` every cloud is accepted, and only the orientation of the normals along one axis changes a type: half-precision normals
become float32. -/
theorem C177_plain (dflt : DType) (allOnes nonUniform : Bool) (orient : Option Bool) (p : PointTypes) :
    transformTypes dflt false allOnes nonUniform orient p =
      .ok { p with normals := p.normals.map fun n => if orient = some false ∧ n ≠ .f64 then .f32 else n } := by
  obtain ⟨pt, nm, ft⟩ := p
  cases nm with
  | none => rcases orient with _ | (_ | _) <;> rfl
  | some n => rcases orient with _ | (_ | _) <;> cases n <;> rfl

/-- The signals of an octree have the types of the cloud. -/
theorem C177_octree (p : PointTypes) : octreeTypes p = .ok p := by
  obtain ⟨pt, nm, ft⟩ := p
  cases nm <;> cases ft <;>
    simp [octreeTypes, scatterAddNewD, scatterAddD_self, bind, Except.bind, pure, Except.pure]

/-- The pipeline from a float32 cloud to the input features of the network: whatever the settings, the random numbers and the selected
features, if the features exist then the input of the network is float32. -/
theorem C177_pipeline (distort allOnes nonUniform : Bool) (orient : Option Bool) (fN fD fL fP fF nempty : Bool) (p : PointTypes)
    (hp : Spec.AllOf .f32 p) (hN : fN = true ∨ fD = true → p.normals ≠ none) (hF : fF = true → p.features ≠ none)
    (hany : fN = true ∨ fD = true ∨ fL = true ∨ fP = true ∨ fF = true) :
    (transformTypes .f32 distort allOnes nonUniform orient p >>= octreeTypes >>= inputFeatureTypes fN fD fL fP fF nempty) = .ok .f32 := by
  have ht : transformTypes .f32 distort allOnes nonUniform orient p = .ok p := by
    cases distort with
    | true => rw [C177_distort, if_pos ⟨hp.1, hp.2.1⟩]
    | false =>
      rw [C177_plain]
      obtain ⟨pt, nm, ft⟩ := p
      cases nm with
      | none => rfl
      | some n =>
        have : n = .f32 := hp.2.1 n rfl
        subst this
        simp
  rw [ht]
  simp only [bind, Except.bind]
  rw [C177_octree]
  obtain ⟨pt, nm, ft⟩ := p
  obtain rfl : pt = .f32 := hp.1
  have hn : ∀ n, nm = some n → n = .f32 := hp.2.1
  have hf : ∀ n, ft = some n → n = .f32 := hp.2.2
  cases nm with
  | none =>
    have h1 : fN = false := by cases fN; rfl; exact absurd rfl (hN (Or.inl rfl))
    have h2 : fD = false := by cases fD; rfl; exact absurd rfl (hN (Or.inr rfl))
    subst h1 h2
    cases ft with
    | none =>
      have h3 : fF = false := by cases fF; rfl; exact absurd rfl (hF rfl)
      subst h3
      cases fL <;> cases fP <;> cases nempty <;> first | rfl | (simp at hany)
    | some f =>
      obtain rfl := hf f rfl
      cases fL <;> cases fP <;> cases fF <;> cases nempty <;> first | rfl | (simp at hany)
  | some n =>
    obtain rfl := hn n rfl
    cases ft with
    | none =>
      have h3 : fF = false := by cases fF; rfl; exact absurd rfl (hF rfl)
      subst h3
      cases fN <;> cases fD <;> cases fL <;> cases fP <;> cases nempty <;> first | rfl | (simp at hany)
    | some f =>
      obtain rfl := hf f rfl
      cases fN <;> cases fD <;> cases fL <;> cases fP <;> cases fF <;> cases nempty <;> first | rfl | (simp at hany)

/-- Clouds in double precision, numpy's default: rejected with `distort`, accepted without; a float32 cloud gives a float32 input. -/
example : transformTypes .f32 true false true none ⟨.f64, some .f64, none⟩ = .error .type ∧
    transformTypes .f32 false false true none ⟨.f64, some .f64, none⟩ = .ok ⟨.f64, some .f64, none⟩ ∧
    Spec.AllOf .f32 ⟨.f32, some .f32, some .f32⟩ ∧
    (transformTypes .f32 true false true (some false) ⟨.f32, some .f32, some .f32⟩ >>= octreeTypes >>=
      inputFeatureTypes true true false false true false) = .ok .f32 :=
  ⟨rfl, rfl, ⟨rfl, fun _ h => (Option.some.inj h).symm, fun _ h => (Option.some.inj h).symm⟩, rfl⟩

end Ocnn
