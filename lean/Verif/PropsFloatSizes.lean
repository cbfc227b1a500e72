import Verif.FloatSizes
import Verif.FloatLeafLemmas
import Verif.PropsPoints

/-! Property C178: the sizes that `merge_points` records. -/

namespace Ocnn
open Spec
variable {K F L : Type}

theorem storeF32_of {n : Nat} (h : IsF32 (n : ℚ)) : storeF32 n = n := by
  unfold storeF32
  rw [f32_exact h]
  simp

theorem f32_nat_int (n : Nat) (h : 2 ^ 24 ≤ n) : ∃ k : ℤ, f32 (n : ℚ) = k := by
  obtain ⟨m, e, hm, he⟩ := f32_isF32 (n : ℚ)
  have h1 : (2 : ℚ) ^ 24 ≤ f32 n := le_f32 (by exact_mod_cast isF32_nat (n := 2 ^ 24) le_rfl) (by exact_mod_cast h)
  rcases lt_or_ge e 0 with hneg | hpos
  · exfalso
    have h2 : |(m : ℚ)| < 2 ^ 24 := by exact_mod_cast hm
    have h3 : (2 : ℚ) ^ e ≤ 1 := zpow_le_one_of_nonpos₀ (by norm_num) hneg.le
    have h4 : (0 : ℚ) < (2 : ℚ) ^ e := zpow_pos (by norm_num) _
    have h5 : (m : ℚ) * 2 ^ e ≤ |(m : ℚ)| * 1 := mul_le_mul (le_abs_self _) h3 h4.le (abs_nonneg _)
    rw [he] at h1
    linarith
  · obtain ⟨k, rfl⟩ := Int.eq_ofNat_of_zero_le hpos
    exact ⟨m * 2 ^ k, by rw [he]; push_cast; simp⟩

/-- A recorded size is right exactly when the size has at most 24 significant bits. -/
theorem C178_exact (n : Nat) : storeF32 n = n ↔ IsF32 (n : ℚ) := by
  refine ⟨fun h => ?_, storeF32_of⟩
  rcases Nat.lt_or_ge n (2 ^ 24) with hn | hn
  · exact isF32_nat hn.le
  · obtain ⟨k, hk⟩ := f32_nat_int n hn
    have h1 : storeF32 n = k.toNat := by unfold storeF32; rw [hk]; simp
    have h2 : (0 : ℤ) ≤ k := by
      have : (0 : ℚ) ≤ k := by
        rw [← hk]; exact le_f32 (by exact_mod_cast isF32_nat (n := 0) (by norm_num)) (by positivity)
      exact_mod_cast this
    have h3 : k = n := by omega
    have := f32_isF32 (n : ℚ)
    rwa [hk, h3] at this

/-- A recorded size is never wrong by more than one part in 2^24. -/
theorem C178_error (n : Nat) : |(storeF32 n : ℚ) - n| ≤ n / 2 ^ 24 := by
  rcases Nat.lt_or_ge n (2 ^ 24) with hn | hn
  · rw [storeF32_of (isF32_nat hn.le)]; simp; positivity
  · obtain ⟨k, hk⟩ := f32_nat_int n hn
    have h2 : (0 : ℤ) ≤ k := by
      have : (0 : ℚ) ≤ k := by
        rw [← hk]; exact le_f32 (by exact_mod_cast isF32_nat (n := 0) (by norm_num)) (by positivity)
      exact_mod_cast this
    have h1 : (storeF32 n : ℚ) = k := by
      unfold storeF32; rw [hk]; simp only [Int.floor_intCast]
      exact_mod_cast Int.toNat_of_nonneg h2
    rw [h1, ← hk]
    have := f32_rel (n : ℚ)
    rw [abs_of_nonneg (by positivity : (0 : ℚ) ≤ n)] at this
    calc _ ≤ _ := this
      _ = _ := by ring

/-- With at most 2^24 clouds of at most 2^24 points each, `merge_points` records the exact sizes and batch indices, with and without the
update of the batch information, and fails on the same lists. -/
theorem C178_partial (ps : List (Points K F L)) (upd : Bool) (hl : ps.length ≤ 2 ^ 24) (hs : ∀ p ∈ ps, p.points.length ≤ 2 ^ 24) :
    Points.mergeF32 ps upd = Points.merge ps upd := by
  unfold Points.mergeF32 Points.merge
  cases ps with
  | nil => rfl
  | cons p0 rest =>
    dsimp only
    generalize hps : p0 :: rest = ps at *
    cases Points.mergeAttr p0 ps (·.normals) with
    | error e => rfl
    | ok a =>
      cases Points.mergeAttr p0 ps (·.features) with
      | error e => rfl
      | ok b =>
        cases Points.mergeAttr p0 ps (·.labels) with
        | error e => rfl
        | ok c =>
          cases upd with
          | false => rfl
          | true =>
            simp only [bind, Except.bind, pure, Except.pure, if_true, Option.map_some, Except.ok.injEq, Points.mk.injEq, true_and, and_true,
              Option.some.injEq]
            constructor
            · conv_rhs => rw [← List.map_id (List.flatten _)]
              refine List.map_congr_left ?_
              intro i hi
              obtain ⟨l, hl', hi⟩ := List.mem_flatten.1 hi
              obtain ⟨⟨p, j⟩, hm, rfl⟩ := List.mem_map.1 hl'
              have hj := List.mem_replicate.1 hi
              have hlt : j < ps.length := by
                have := List.mem_zipIdx hm; omega
              rw [hj.2]
              simp [storeF32_of (isF32_nat (n := j) (by omega))]
            · rw [List.map_map]
              refine List.map_congr_left ?_
              intro p hp
              exact storeF32_of (isF32_nat (hs p hp))

theorem storeF32_big : storeF32 (2 ^ 24 + 1) = 2 ^ 24 := by
  have hl : Int.log 2 |((2 ^ 24 + 1 : ℕ) : ℚ)| = 24 := by
    rw [abs_of_nonneg (by positivity)]
    rw [Int.log_natCast]
    decide +kernel
  unfold storeF32
  have : f32 ((2 ^ 24 + 1 : ℕ) : ℚ) = 2 ^ 24 := by
    unfold f32 ulp
    rw [hl]
    have hf : ⌊((2 ^ 24 + 1 : ℕ) : ℚ) / 2 ^ ((24 : ℤ) - 23)⌋ = 2 ^ 23 := by
      rw [Int.floor_eq_iff]; push_cast; norm_num
    unfold rne
    rw [hf]
    norm_num
  rw [this]
  norm_num
  rfl

/-- A cloud of 2^24 + 1 points, merged with others: the recorded size is too small by one, so that the sizes do not add up to the number of
points and the predictions cannot be split by them. -/
theorem C178_violated (x : V3 K) (ps : List (Points K F L)) (hs : ∀ p ∈ ps, p.points.length ≤ 2 ^ 24 ∧ p.normals = none ∧ p.features = none ∧ p.labels = none) :
    let big : Points K F L := ⟨List.replicate (2 ^ 24 + 1) x, none, none, none, none, 1, none, 0⟩
    ∃ q sizes, Points.mergeF32 (big :: ps) true = .ok q ∧ q.batchNpt = some sizes ∧ sizes.sum + 1 = q.points.length := by
  intro big
  have hb : big.points.length = 2 ^ 24 + 1 := List.length_replicate ..
  have hm : Points.merge (big :: ps) true = .ok (⟨((big :: ps).map (·.points)).flatten, none, none, none,
      some (((big :: ps).zipIdx.map fun (p, i) => List.replicate p.npt (i : Int)).flatten), (big :: ps).length, some ((big :: ps).map Points.npt), 0⟩) := rfl
  refine ⟨_, _, by unfold Points.mergeF32; rw [hm]; rfl, rfl, ?_⟩
  simp only [List.map_cons, List.map_map, List.sum_cons, List.flatten_cons, List.length_append]
  have h1 : storeF32 big.npt = 2 ^ 24 := by unfold Points.npt; rw [hb]; exact storeF32_big
  have h2 : ps.map (storeF32 ∘ Points.npt) = ps.map fun p => p.points.length := by
    refine List.map_congr_left fun p hp => ?_
    exact storeF32_of (isF32_nat (hs p hp).1)
  rw [h1, h2, hb, List.length_flatten, List.map_map]
  show _ + (ps.map fun p => p.points.length).sum + 1 = _ + (ps.map fun p => p.points.length).sum
  omega

/-- Two small clouds satisfy the hypotheses. -/
example : Points.mergeF32 ([⟨[⟨0, 0, 0⟩, ⟨1, 0, 0⟩], none, none, none, none, 1, none, 0⟩, ⟨[⟨0, 1, 0⟩], none, none, none, none, 1, none, 0⟩] :
      List (Points ℚ Unit Unit)) true =
    .ok ⟨[⟨0, 0, 0⟩, ⟨1, 0, 0⟩, ⟨0, 1, 0⟩], none, none, none, some [0, 0, 1], 2, some [2, 1], 0⟩ := by
  rw [C178_partial _ _ (by norm_num) (by intro p hp; simp at hp; rcases hp with rfl | rfl <;> norm_num)]
  rfl

end Ocnn
