import Verif.NetLocal
import Verif.NetProofs2

/-! `UNet` on two octrees that agree in a region. -/

set_option linter.unusedSimpArgs false

namespace Ocnn
open Spec
variable {F : Type}

namespace Spec

/-- The margin after the first convolution and `k` stages of the encoder of `UNet`, in voxels of the level of the input: stage `i` has
`encoderBlocks[i]` residual blocks on voxels of size `2 ^ (i + 1)`. -/
def encRadius (cfg : UNetConfig) (k : Nat) : Nat :=
  1 + ((List.range k).map fun i => blockConvs cfg.resblk * cfg.encoderBlocks.getD i 0 * 2 ^ (i + 1)).sum

/-- The margin after the encoder and `k` stages of the decoder: stage `i` has a transposed convolution and `decoderBlocks[i]` residual blocks on
voxels of size `2 ^ (E - (i + 1))` where `E` is the number of stages of the encoder. -/
def decRadius (cfg : UNetConfig) (k : Nat) : Nat :=
  encRadius cfg cfg.encoderBlocks.length +
    ((List.range k).map fun i => (1 + blockConvs cfg.resblk * cfg.decoderBlocks.getD i 0) * 2 ^ (cfg.encoderBlocks.length - (i + 1))).sum

/-- The margin of the features of `UNet` at the nodes. -/
def unetRadius (cfg : UNetConfig) : Nat := decRadius cfg cfg.decoderBlocks.length

end Spec

theorem encRadius_succ (cfg : UNetConfig) (k : Nat) :
    encRadius cfg (k + 1) = encRadius cfg k + blockConvs cfg.resblk * cfg.encoderBlocks.getD k 0 * 2 ^ (k + 1) := by
  unfold encRadius
  rw [List.range_succ, List.map_append, List.sum_append]
  simp only [List.map_cons, List.map_nil, List.sum_cons, List.sum_nil]
  omega

theorem decRadius_succ (cfg : UNetConfig) (k : Nat) :
    decRadius cfg (k + 1) = decRadius cfg k + (1 + blockConvs cfg.resblk * cfg.decoderBlocks.getD k 0) * 2 ^ (cfg.encoderBlocks.length - (k + 1)) := by
  unfold decRadius
  rw [List.range_succ, List.map_append, List.sum_append]
  simp only [List.map_cons, List.map_nil, List.sum_cons, List.sum_nil]
  omega

theorem decRadius_zero (cfg : UNetConfig) : decRadius cfg 0 = encRadius cfg cfg.encoderBlocks.length := by
  simp [decRadius]

theorem encRadius_mono (cfg : UNetConfig) {j k : Nat} (h : j ≤ k) : encRadius cfg j ≤ encRadius cfg k := by
  induction k, h using Nat.le_induction with
  | base => exact le_refl _
  | succ k _ ih =>
    rw [encRadius_succ]
    omega

theorem enc_le_dec (cfg : UNetConfig) {j : Nat} (k : Nat) (h : j ≤ cfg.encoderBlocks.length) : encRadius cfg j ≤ decRadius cfg k := by
  have := encRadius_mono cfg h
  unfold decRadius
  omega

theorem radius_default : unetRadius unetConfig = 364 := by decide +kernel

namespace LocalPair
variable {U : Nat → Int → Int → Int → Prop} {o o' : Octree F} {D : Nat} {nempty : Bool} {lo : Nat} {m : Int} {P : Params}

/-- The relation of the interpolation: the features at the queries that see nodes well inside the region only are equal. -/
def QueriesNear (U : Nat → Int → Int → Int → Prop) (o o' : Octree F) (D : Nat) (method : String) (nempty : Bool) (d : Nat) {α : Type} (A B : List α)
    (pts pts' : List Pt4) (k : Int) (good : α → Prop) : Prop :=
  ∀ (c : Nat) (t s : Tensor), NearRel U o o' D nempty d k c t s → Both (RowRel A B good c) (interp method nempty o d pts t) (interp method nempty o' d pts' s)

theorem unet (p : LocalPair U o o' D nempty lo m) (hP : P.training = false) {cfg : UNetConfig} (hcfg : cfg.Ok) {cin : Nat} (cout : Nat) (method : String)
    (hds : cfg.encoderBlocks.length < D) (hlo : lo ≤ D - cfg.encoderBlocks.length) (hc : 27 * cin ≤ maxBuffer) {α : Type} {A B : List α} {pts pts' : List Pt4} {good : α → Prop}
    (hq : QueriesNear U o o' D method nempty (D - cfg.encoderBlocks.length + cfg.decoderBlocks.length) A B pts pts' (m + unetRadius cfg) good)
    {t s : Tensor} (h : NearRel U o o' D nempty D m cin t s) :
    Both (RowRel A B good cout) (unet P cfg cin cout method nempty o D pts t) (unet P cfg cin cout method nempty o' D pts' s) := by
  obtain ⟨E, hE⟩ : ∃ E, E = cfg.encoderBlocks.length := ⟨_, rfl⟩
  obtain ⟨G, hG⟩ : ∃ G, G = cfg.decoderBlocks.length := ⟨_, rfl⟩
  have hle := hcfg.le
  have henc := hcfg.enc
  have hdec := hcfg.dec
  have hlink := hcfg.link
  have hbk := hcfg.bottleneck
  rw [← hE] at hds henc hlink hle hlo
  rw [← hG] at hdec hle
  have hes : ∀ (k c : Nat), cfg.encoderChannel[k]? = some c → 54 * c ≤ maxBuffer := fun k c e =>
    hcfg.small c (List.mem_append_left _ (List.mem_of_getElem? e))
  have hdsm : ∀ (k c : Nat), cfg.decoderChannel[k]? = some c → 54 * c ≤ maxBuffer := fun k c e =>
    hcfg.small c (List.mem_append_right _ (List.mem_of_getElem? e))
  have hec : ∀ k ≤ E, ∃ c, cfg.encoderChannel[k]? = some c := fun k hk =>
    ⟨_, List.getElem?_eq_getElem (by omega)⟩
  have hdc : ∀ k ≤ G, ∃ c, cfg.decoderChannel[k]? = some c := fun k hk =>
    ⟨_, List.getElem?_eq_getElem (by omega)⟩
  unfold Ocnn.unet
  rw [← hE, ← hG]
  rw [← hE, ← hG] at hq
  -- encoder
  have henco : Both (fun (f g : Nat → Option Tensor) => ∀ j ≤ E, ∃ u v c, f (D - j) = some u ∧ g (D - j) = some v ∧ cfg.encoderChannel[j]? = some c ∧
      NearRel U o o' D nempty (D - j) (m + encRadius cfg j) c u v) (unetEncoder P cfg cin nempty o D t) (unetEncoder P cfg cin nempty o' D s) := by
    unfold unetEncoder
    obtain ⟨c0, hc0⟩ := hec 0 (by omega)
    rw [show getIdx cfg.encoderChannel 0 = .ok c0 from getIdx_some hc0, ← hE]
    show Both _ (Ocnn.convBnRelu P _ cin c0 [3] 1 nempty o D t >>= _) (Ocnn.convBnRelu P _ cin c0 [3] 1 nempty o' D s >>= _)
    refine (p.convBnRelu3 hP _ c0 (by omega) (by omega) (le_refl _) hc (le_refl _) h).bind fun a b hab => ?_
    refine Both.fold (fun k (f g : Nat → Option Tensor) => ∀ j ≤ k, ∃ u v c, f (D - j) = some u ∧ g (D - j) = some v ∧ cfg.encoderChannel[j]? = some c ∧
      NearRel U o o' D nempty (D - j) (m + encRadius cfg j) c u v) E _ _ ?_ ?_
    · intro k hk f g hfg
      unfold unetEnc
      obtain ⟨u, v, c, e1, e2, e3, hr⟩ := hfg k (le_refl _)
      obtain ⟨c1, hc1⟩ := hec (k + 1) (by omega)
      obtain ⟨n, hn⟩ : ∃ n, cfg.encoderBlocks[k]? = some n := ⟨_, List.getElem?_eq_getElem (by omega)⟩
      dsimp only
      rw [getIdx_some e3, show getIdx cfg.encoderChannel ((k : Int) + 1) = .ok c1 from getIdx_some hc1, getIdx_some hn]
      unfold getKey
      rw [e1, e2]
      obtain ⟨e, he⟩ : ∃ e, D - k = e + 1 := ⟨D - (k + 1), by omega⟩
      rw [he] at hr
      rw [he]
      show Both _ (Ocnn.convBnRelu P _ c c1 [2] 2 nempty o (e + 1) u >>= _) (Ocnn.convBnRelu P _ c c1 [2] 2 nempty o' (e + 1) v >>= _)
      have b0 := hes _ _ e3
      have b1 := hes _ _ hc1
      refine (p.convBnRelu2 hP _ c1 (by omega) (by omega) (by omega) (by omega) hr).bind fun a b hab => ?_
      refine (p.resBlocks hP cfg.resblk _ c1 n hbk (by omega) (by omega) (by omega) (by omega) (by omega) (by first | omega | (have := pow_nonneg' D (D - E + k + 1); omega)) hab).bind fun a b hab => ?_
      refine Both.pure fun j hj => ?_
      by_cases hjk : j = k + 1
      · subst hjk
        have he' : D - (k + 1) = e := by omega
        refine ⟨a, b, c1, ?_, ?_, hc1, ?_⟩
        · rw [if_pos (by omega)]
        · rw [if_pos (by omega)]
        · rw [he', encRadius_succ, List.getD_eq_getElem?_getD, hn]
          have : D - e = k + 1 := by omega
          push_cast [Option.getD_some]
          rw [this] at hab
          simp only [ite_self, Nat.cast_mul] at hab
          rw [← add_assoc]
          exact hab
      · have : ¬ D - j = e + 1 - 1 := by omega
        simp only [if_neg this]
        exact hfg j (by omega)
    · intro j hj
      obtain rfl : j = 0 := by omega
      exact ⟨a, b, c0, by simp, by simp, hc0, by simpa [encRadius] using hab⟩
  refine henco.bind fun f g hfg => ?_
  -- decoder
  have hdeco : Both (fun t s => ∃ c, cfg.decoderChannel[G]? = some c ∧ NearRel U o o' D nempty (D - E + G) (m + decRadius cfg G) c t s)
      (unetDecoder P cfg nempty o (D - E) f) (unetDecoder P cfg nempty o' (D - E) g) := by
    unfold unetDecoder
    obtain ⟨u, v, c, e1, e2, e3, hr⟩ := hfg E (le_refl _)
    unfold getKey
    rw [e1, e2, ← hG]
    refine Both.fold (fun k t s => ∃ c, cfg.decoderChannel[k]? = some c ∧ NearRel U o o' D nempty (D - E + k) (m + decRadius cfg k) c t s) G _ _ ?_
      ⟨c, hlink.trans e3, by rw [decRadius_zero, ← hE]; exact hr⟩
    rintro k hk a b ⟨c0, hc0, hab⟩
    unfold unetDec
    obtain ⟨c1, hc1⟩ := hdc (k + 1) (by omega)
    obtain ⟨n, hn⟩ : ∃ n, cfg.decoderBlocks[k]? = some n := ⟨_, List.getElem?_eq_getElem (by omega)⟩
    obtain ⟨x, y, e, x1, x2, x3, hxy⟩ := hfg (E - 1 - k) (by omega)
    have hn1 := hcfg.blocks n (List.mem_of_getElem? hn)
    have hneg : getIdx cfg.encoderChannel (-(k : Int) - 2) = .ok e := by
      have : (-(k : Int) - 2) = -((k + 2 : Nat) : Int) := by omega
      rw [this]
      refine getIdx_neg (by omega) (by omega) ?_
      rw [show cfg.encoderChannel.length - (k + 2) = E - 1 - k by omega]
      exact x3
    dsimp only
    rw [getIdx_some hc0, show getIdx cfg.decoderChannel ((k : Int) + 1) = .ok c1 from getIdx_some hc1, hneg, getIdx_some hn]
    show Both _ (Ocnn.deconvBnRelu P _ c0 c1 [2] 2 nempty o (D - E + k) a >>= _) (Ocnn.deconvBnRelu P _ c0 c1 [2] 2 nempty o' (D - E + k) b >>= _)
    have b1 := hdsm _ _ hc1
    have b2 := hes _ _ x3
    refine (p.deconvBnRelu2 hP _ c0 (by omega) (by omega) (by omega) (by omega) hab).bind fun a b hab => ?_
    have ed : D - (E - 1 - k) = D - E + k + 1 := by omega
    rw [ed] at x1 x2 hxy
    unfold getKey
    rw [x1, x2]
    have es : D - (D - E + k + 1) = E - (k + 1) := by omega
    have hskip : m + (encRadius cfg (E - 1 - k) : Int) ≤ m + (decRadius cfg k : Int) + 2 ^ (D - (D - E + k + 1)) := by
      have := enc_le_dec cfg (j := E - 1 - k) k (by omega)
      have := pow_nonneg' D (D - E + k + 1)
      omega
    refine (RowRel.cat (mono hskip hxy) hab).bind fun a b hab => ?_
    rw [Nat.add_comm e c1] at hab
    refine (p.resBlocks hP cfg.resblk _ c1 n hbk (by omega) (by omega) (by omega) (by omega) (by omega) (by first | omega | (have := pow_nonneg' D (D - E + k + 1); omega)) hab).mono fun a b hab => ?_
    rw [if_neg (by omega)] at hab
    refine ⟨c1, hc1, ?_⟩
    have er : m + ((decRadius cfg (k + 1) : Nat) : Int) =
        m + (decRadius cfg k : Int) + 2 ^ (D - (D - E + k + 1)) + ((blockConvs cfg.resblk * n : Nat) : Int) * 2 ^ (D - (D - E + k + 1)) := by
      rw [decRadius_succ, List.getD_eq_getElem?_getD, hn, es, ← hE]
      push_cast [Option.getD_some]
      ring
    rw [er]
    exact hab
  refine hdeco.bind ?_
  rintro a b ⟨c, hcG, hab⟩
  refine (hq c a b (by unfold unetRadius; rw [← hG]; exact hab)).bind fun a b hab => ?_
  have hneg : getIdx cfg.decoderChannel (-1) = .ok c := by
    refine getIdx_neg (n := 1) (by omega) (by omega) ?_
    rw [hdec]
    exact hcG
  rw [hneg]
  show Both _ (Ocnn.conv1x1BnRelu P _ c _ a >>= _) (Ocnn.conv1x1BnRelu P _ c _ b >>= _)
  refine (RowRel.conv1x1BnRelu hP _ cfg.headChannel hab).bind fun a b hab => ?_
  exact RowRel.linear P _ cout true hab

/-- The cells of level `d` whose features `OctreeInterp` reads at a point of sample `b` given in the cube `[-1, 1]`; the coordinates wrap around. -/
def seenCells (method : String) (d : Nat) (q : V3 ℚ × Nat) : List Cell :=
  let p := q.1.map fun v => (v + 1) * (2 ^ ((d : ℤ) - 1) : ℚ)
  (if method = "linear" then corners p else [(long p.x, long p.y, long p.z)]).map fun g => torusCell d q.2 g.1 g.2.1 g.2.2

theorem queries (p : LocalPair U o o' D nempty lo m) (method : String) {d : Nat} (hl : lo ≤ d) (hd : d ≤ D) {k : Int} (hk : m ≤ k) (qs qs' : List (V3 ℚ × Nat))
    (hb : ∀ q ∈ qs, q.2 < 2 ^ 15) (hb' : ∀ q ∈ qs', q.2 < 2 ^ 15) :
    QueriesNear U o o' D method nempty d qs qs' (qs.map row4) (qs'.map row4) k fun q => ∀ c ∈ seenCells method d q, Surr U D d k c := by
  intro c t s h
  obtain ⟨g, g', rfl, rfl, hg⟩ := h
  obtain ⟨f, hf, e⟩ := field_map (qc_nodup p.valid _ hd nempty) g
  obtain ⟨f', hf', e'⟩ := field_map (qc_nodup p.valid' _ hd nempty) g'
  have same : ∀ q : Cell, Surr U D d k q → fieldAt f q = fieldAt f' q := by
    intro q hq
    refine p.field_same hl hd hk hf hf' e e' hg _ _ _ _ fun r h1 h2 h3 h4 => ?_
    have : r = q := by
      cases r; cases q
      simp only [Nat.cast_inj] at h1 h2 h3 h4
      subst h1 h2 h3 h4
      rfl
    rwa [this]
  have w := p.valid
  have w' := p.valid'
  obtain ⟨x, hx⟩ : ∃ x, x = (qc o nempty d).map g := ⟨_, rfl⟩
  obtain ⟨x', hx'⟩ : ∃ x, x = (qc o' nempty d).map g' := ⟨_, rfl⟩
  rw [← hx] at hf ⊢
  rw [← hx'] at hf' ⊢
  have Q := queried_qc w d hd nempty _ _ (w.wf'.cellsOf d hd) (w.wf'.children d hd)
  have Q' := queried_qc w' d hd nempty _ _ (w'.wf'.cellsOf d hd) (w'.wf'.children d hd)
  have hf0 := hf
  have hf0' := hf'
  rw [← Q] at hf0
  rw [← Q'] at hf0'
  unfold interp octreeInterp interpFunc
  dsimp only
  rw [if_pos rfl, if_pos rfl, interp_pts, interp_pts]
  have hqs : ∀ qs : List (V3 ℚ × Nat), (∀ q ∈ qs, q.2 < 2 ^ 15) →
      ∀ q ∈ (qs.map fun q : V3 ℚ × Nat => (q.1.map fun v => (v + 1) * (2 ^ ((d : ℤ) - 1) : ℚ), q.2)), q.2 < 2 ^ 15 := by
    intro qs hb q hqm
    obtain ⟨q', h1, rfl⟩ := List.mem_map.1 hqm
    exact hb q' h1
  by_cases hmth : method = "linear"
  · rw [if_pos hmth, if_pos hmth,
      C53_linear o' D w' d hd _ _ (w'.wf'.cellsOf d hd) (w'.wf'.children d hd) nempty false _ f' hf0' _ (hqs _ hb'),
      C53_linear o D w d hd _ _ (w.wf'.cellsOf d hd) (w.wf'.children d hd) nempty false _ f hf0 _ (hqs _ hb)]
    refine Both.pure ⟨_, _, by rw [List.map_map], by rw [List.map_map], fun q _ _ hi => ?_⟩
    unfold seenCells at hi
    dsimp only at hi
    rw [if_pos hmth] at hi
    simp only [List.forall_mem_map] at hi
    simp only [Function.comp]
    rw [Q, Q']
    generalize (q.1.map fun v => (v + 1) * (2 ^ ((d : ℤ) - 1) : ℚ)) = pt at hi ⊢
    funext i
    congr 1
    · congr 1
      refine List.map_congr_left fun g hgm => ?_
      congr 1
      unfold valueAt lookup
      simp only [Bool.false_eq_true, false_and, if_false]
      exact congrFun (same _ (hi g hgm)) i
    · congr 3
      refine List.filter_congr fun g hgm => ?_
      unfold found lookup
      simp only [Bool.false_eq_true, false_and, if_false]
      exact decide_eq_decide.2 (p.same d hl hd _ ((hi g hgm).mono hk))
  · rw [if_neg hmth, if_neg hmth,
      nearest_main o' D w' d hd _ _ (w'.wf'.cellsOf d hd) (w'.wf'.children d hd) nempty false _ f' hf0' _ (hqs _ hb'),
      nearest_main o D w d hd _ _ (w.wf'.cellsOf d hd) (w.wf'.children d hd) nempty false _ f hf0 _ (hqs _ hb)]
    refine Both.pure ⟨_, _, by rw [List.map_map], by rw [List.map_map], fun q _ _ hi => ?_⟩
    unfold seenCells at hi
    dsimp only at hi
    rw [if_neg hmth] at hi
    simp only [List.map_cons, List.map_nil, List.mem_singleton, forall_eq] at hi
    simp only [Function.comp, Bool.false_eq_true, false_and, if_false]
    exact same _ hi

end LocalPair
end Ocnn
