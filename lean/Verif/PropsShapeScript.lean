import Verif.ShapeScript
import Verif.PropsSaving
import Mathlib.Algebra.Order.Floor.Semiring
import Mathlib.Algebra.Order.Archimedean.Basic
import Mathlib.Data.Rat.Floor
import Mathlib.Tactic.Linarith
import Mathlib.Tactic.NormNum
import Mathlib.Tactic.FieldSimp
import Mathlib.Tactic.IntervalCases

/-! Property C185: the script for the categories of ShapeNet. -/

namespace Ocnn
namespace ShapeScript
open Script (Disk osJoin openFile)

theorem getIdx_nat {α : Type} (l : List α) (k : Nat) (h : k < l.length) : getIdx l (k : Int) = .ok l[k] := by
  apply getIdx_of_getElem?
  simp [h]

/-- The specification of one training run: what is asked of the program, in terms of the category. -/
structure Asks (a : Args) (ratio : ℚ) (k : Nat) (opts : List String) : Prop where
  /-- the lists are those that seg_shapenet.py 96-112 writes -/
  train : optOf "DATA.train.filelist" opts = some (osJoin (osJoin "data/shapenet_segmentation" "filelist") (shapeCats[k]?.getD "" ++ "_train_val.txt"))
  test : optOf "DATA.test.filelist" opts = some (osJoin (osJoin "data/shapenet_segmentation" "filelist") (shapeCats[k]?.getD "" ++ "_test.txt"))
  nout : optOf "MODEL.nout" opts = some (toString (segNum[k]?.getD 0))
  numClass : optOf "LOSS.num_class" opts = some (toString (segNum[k]?.getD 0))
  trainDepth : optOf "DATA.train.depth" opts = some (toString a.depth)
  testDepth : optOf "DATA.test.depth" opts = some (toString a.depth)
  logs : optOf "SOLVER.logdir" opts = some ("logs/seg_shapenet/" ++ a.alia ++ "/" ++ shapeCats[k]?.getD "" ++ "_" ++ names[k]?.getD "" ++ "/ratio_" ++ a.fmt ratio)

theorem osJoin_logdir (s : String) : osJoin logdir s = "logs/seg_shapenet/" ++ s := by
  unfold osJoin logdir
  rw [if_neg (by decide)]
  rw [show ("logs/seg_shapenet/" : String) = "logs/seg_shapenet" ++ "/" from rfl]

theorem osJoin_data (s : String) : osJoin (osJoin "data/shapenet_segmentation" "filelist") s = data ++ "/filelist/" ++ s := by
  have h1 : osJoin "data/shapenet_segmentation" "filelist" = "data/shapenet_segmentation/filelist" := by decide
  rw [h1]
  unfold osJoin data
  rw [if_neg (by decide)]
  rw [show ("data/shapenet_segmentation" ++ "/filelist/" : String) = "data/shapenet_segmentation/filelist" ++ "/" from by decide]

theorem command_ok (a : Args) (ratio : ℚ) (k : Nat) (hk : k < 16) : ∃ opts, command a ratio k = .ok opts ∧ Asks a ratio k opts := by
  unfold command
  have l1 : shapeCats.length = 16 := rfl
  have l2 : maxEpoches.length = 16 := rfl
  have l3 : trainNum.length = 16 := rfl
  have l4 : names.length = 16 := rfl
  have l5 : segNum.length = 16 := rfl
  rw [getIdx_nat shapeCats k (by omega), getIdx_nat maxEpoches k (by omega), getIdx_nat trainNum k (by omega), getIdx_nat names k (by omega),
    getIdx_nat segNum k (by omega)]
  have e1 : shapeCats[k]? = some (shapeCats[k]'(by omega)) := List.getElem?_eq_getElem _
  have e4 : names[k]? = some (names[k]'(by omega)) := List.getElem?_eq_getElem _
  have e5 : segNum[k]? = some (segNum[k]'(by omega)) := List.getElem?_eq_getElem _
  refine ⟨_, rfl, ?_⟩
  refine ⟨?_, ?_, ?_, ?_, ?_, ?_, ?_⟩ <;> simp [optOf, e1, e4, e5, osJoin_data, logs, runName, osJoin_logdir, String.append_assoc]

/-! ### the logs -/

/-- the log of a run -/
def logPath (a : Args) (p : ℚ × Nat) : String :=
  "logs/seg_shapenet/" ++ a.alia ++ "/" ++ shapeCats[p.2]?.getD "" ++ "_" ++ names[p.2]?.getD "" ++ "/ratio_" ++ a.fmt p.1 ++ "/log.csv"

theorem logPath_inj (a : Args) (p q : ℚ × Nat) (hp : p.2 < 16) (hq : q.2 < 16) (h : logPath a p = logPath a q) : a.fmt p.1 = a.fmt q.1 ∧ p.2 = q.2 := by
  unfold logPath at h
  have h' := congrArg String.toList h
  simp only [String.toList_append, List.append_assoc] at h'
  have h1 := List.append_cancel_left (List.append_cancel_left (List.append_cancel_left h'))
  have len : ∀ k < 16, ((shapeCats[k]?.getD "").toList).length = 8 := by decide
  obtain ⟨h2, h3⟩ := List.append_inj h1 (by rw [len _ hp, len _ hq])
  have hk : p.2 = q.2 := by
    have : ∀ k < 16, ∀ k' < 16, (shapeCats[k]?.getD "").toList = (shapeCats[k']?.getD "").toList → k = k' := by decide
    exact this _ hp _ hq h2
  refine ⟨?_, hk⟩
  rw [hk] at h3
  have h4 := List.append_cancel_right (List.append_cancel_left (List.append_cancel_left (List.append_cancel_left h3)))
  exact String.toList_inj.mp h4

theorem foldlM_flatMap' {α β σ : Type} (l : List α) (f : α → List β) (g : σ → β → M σ) (s : σ) :
    (l.flatMap f).foldlM g s = l.foldlM (fun s a => (f a).foldlM g s) s := by
  induction l generalizing s with
  | nil => rfl
  | cons x l ih =>
    rw [List.flatMap_cons, List.foldlM_append, List.foldlM_cons]
    congr 1
    funext s'
    exact ih s'

/-- one run -/
def step (a : Args) (run : List String → List String) (fs : Disk) (p : ℚ × Nat) : M Disk := do
  let c ← command a p.1 p.2
  system run fs c

theorem trainAll_eq (a : Args) (run : List String → List String) (fs : Disk) :
    trainAll a run fs = (a.ratios.flatMap fun r => (List.range 16).map fun k => (r, k)).foldlM (step a run) fs := by
  rw [foldlM_flatMap']
  unfold trainAll
  simp only [List.foldlM_map]
  rfl

theorem step_ok (a : Args) (run : List String → List String) (fs : Disk) (p : ℚ × Nat) (hp : p.2 < 16) :
    ∃ opts, command a p.1 p.2 = .ok opts ∧
      step a run fs p = .ok (fs.set (logPath a p) ((fs.lookup (logPath a p)).getD [] ++ run opts)) := by
  obtain ⟨opts, h1, h2⟩ := command_ok a p.1 p.2 hp
  refine ⟨opts, h1, ?_⟩
  unfold step system
  rw [h1]
  simp only [bind, Except.bind, h2.logs, need]
  rfl

theorem steps_ok (a : Args) (run : List String → List String) (l : List (ℚ × Nat)) (fs : Disk) (hl : ∀ p ∈ l, p.2 < 16)
    (hnd : (l.map (logPath a)).Nodup) : ∃ fs', l.foldlM (step a run) fs = .ok fs' ∧
      (∀ path, path ∉ l.map (logPath a) → fs'.lookup path = fs.lookup path) ∧
      ∀ p ∈ l, ∃ opts, command a p.1 p.2 = .ok opts ∧ fs'.lookup (logPath a p) = some ((fs.lookup (logPath a p)).getD [] ++ run opts) := by
  induction l generalizing fs with
  | nil => exact ⟨fs, rfl, fun _ _ => rfl, fun p hp => nomatch hp⟩
  | cons p l ih =>
    obtain ⟨opts, h1, h2⟩ := step_ok a run fs p (hl p (by simp))
    rw [List.map_cons, List.nodup_cons] at hnd
    obtain ⟨fs', h3, h4, h5⟩ := ih (fs.set (logPath a p) ((fs.lookup (logPath a p)).getD [] ++ run opts)) (fun q hq => hl q (by simp [hq])) hnd.2
    refine ⟨fs', ?_, ?_, ?_⟩
    · rw [List.foldlM_cons, h2]
      exact h3
    · intro path hpath
      rw [List.map_cons, List.mem_cons, not_or] at hpath
      rw [h4 path hpath.2, lookup_set, if_neg hpath.1]
    · intro q hq
      rcases List.mem_cons.mp hq with rfl | hq
      · refine ⟨opts, h1, ?_⟩
        rw [h4 _ hnd.1, lookup_set, if_pos rfl]
      · obtain ⟨o', h6, h7⟩ := h5 q hq
        refine ⟨o', h6, ?_⟩
        rw [h7, lookup_set, if_neg]
        intro e
        apply hnd.1
        rw [← e]
        exact List.mem_map_of_mem hq

theorem paths_nodup (a : Args) (rs : List ℚ) (h : (rs.map a.fmt).Nodup) :
    ((rs.flatMap fun r => (List.range 16).map fun k => (r, k)).map (logPath a)).Nodup := by
  induction rs with
  | nil => simp
  | cons r rs ih =>
    rw [List.map_cons, List.nodup_cons] at h
    rw [List.flatMap_cons, List.map_append, List.nodup_append]
    refine ⟨?_, ih h.2, ?_⟩
    · rw [List.map_map]
      apply List.Nodup.map_on _ List.nodup_range
      intro x hx y hy e
      exact (logPath_inj a (r, x) (r, y) (List.mem_range.mp hx) (List.mem_range.mp hy) e).2
    · intro x hx y hy e
      subst e
      obtain ⟨p, hp, rfl⟩ := List.mem_map.mp hx
      obtain ⟨q, hq, e⟩ := List.mem_map.mp hy
      obtain ⟨k, hk, rfl⟩ := List.mem_map.mp hp
      obtain ⟨r', hr', hq'⟩ := List.mem_flatMap.mp hq
      obtain ⟨k', hk', rfl⟩ := List.mem_map.mp hq'
      have := (logPath_inj a (r', k') (r, k) (List.mem_range.mp hk') (List.mem_range.mp hk) e).1
      apply h.1
      rw [← this]
      exact List.mem_map_of_mem hr'

/-! ### C185 -/

/-- **C185, the runs and the table.** If no two ratios are printed alike, the script runs one training for each ratio and category, on the lists that
the tool wrote for the category and with as many classes as the category has parts; and the table holds for each ratio and category the IoU of the last
line that this very run wrote. -/
theorem C185_own_log (a : Args) (run : List String → List String) (parse : List Char → M ℚ) (fs : Disk) (h : (a.ratios.map a.fmt).Nodup) :
    ∃ fs', trainAll a run fs = .ok fs' ∧ ∀ r ∈ a.ratios, ∀ k < 16, ∃ opts, command a r k = .ok opts ∧ Asks a r k opts ∧
      ∀ line, (run opts).getLast? = some line → readIou a parse fs' r k = parse (iouText line) := by
  rw [trainAll_eq]
  obtain ⟨fs', h1, -, h3⟩ := steps_ok a run _ fs (by
    intro p hp
    obtain ⟨r, -, hp'⟩ := List.mem_flatMap.mp hp
    obtain ⟨k, hk, rfl⟩ := List.mem_map.mp hp'
    exact List.mem_range.mp hk) (paths_nodup a a.ratios h)
  refine ⟨fs', h1, ?_⟩
  intro r hr k hk
  obtain ⟨opts, h4, h5⟩ := h3 (r, k) (List.mem_flatMap.mpr ⟨r, hr, List.mem_map.mpr ⟨k, List.mem_range.mpr hk, rfl⟩⟩)
  obtain ⟨opts', h6, h7⟩ := command_ok a r k hk
  have e : opts' = opts := by
    rw [h4] at h6
    cases h6
    rfl
  subst e
  refine ⟨opts', h6, h7, ?_⟩
  intro line hline
  unfold readIou
  have e1 : shapeCats[k]? = some (shapeCats[k]'hk) := List.getElem?_eq_getElem _
  have e4 : names[k]? = some (names[k]'hk) := List.getElem?_eq_getElem _
  rw [getIdx_nat shapeCats k hk, getIdx_nat names k hk]
  have hpath : logdir ++ "/" ++ a.alia ++ "/" ++ shapeCats[k]'hk ++ "_" ++ names[k]'hk ++ "/ratio_" ++ a.fmt r ++ "/log.csv" = logPath a (r, k) := by
    unfold logPath
    rw [e1, e4]
    rw [show logdir ++ "/" = "logs/seg_shapenet/" from by decide]
    rfl
  simp only [bind, Except.bind, hpath, openFile, h5]
  rw [List.getLast?_append, hline]
  rfl

/-- **C185, the rows.** The summary has one row per ratio, the last ratio first, with the IoU of every category in order and their means. -/
theorem C185_rows (a : Args) (parse : List Char → M ℚ) (fs : Disk) (iou : ℚ → Nat → ℚ)
    (h : ∀ r ∈ a.ratios, ∀ k < 16, readIou a parse fs r k = .ok (iou r k)) :
    summary a parse fs = .ok (a.ratios.reverse.map fun r => ((List.range 16).map (iou r), means ((List.range 16).map (iou r)))) := by
  unfold summary
  apply mapM_ok
  intro r hr
  have h16 : shapeCats.length = 16 := rfl
  rw [h16, mapM_ok (fun j => readIou a parse fs r j) (iou r) _ (by
    intro k hk
    exact h r (List.mem_reverse.mp hr) k (List.mem_range.mp hk))]
  rfl

/-- **C185, ratios that are printed alike** share one log, so that the table shows the same IoU for both. -/
theorem C185_collision (a : Args) (parse : List Char → M ℚ) (fs : Disk) (r r' : ℚ) (h : a.fmt r = a.fmt r') (k : Nat) :
    readIou a parse fs r k = readIou a parse fs r' k := by
  unfold readIou
  rw [h]

theorem findSub_first (pat : List Char) (pre s : List Char) (h : pat.isPrefixOf s = true)
    (hno : ∀ i < pre.length, pat.isPrefixOf ((pre ++ s).drop i) = false) : findSub pat (pre ++ s) = some pre.length := by
  induction pre with
  | nil =>
    cases s with
    | nil => simp only [List.nil_append, findSub, h]; rfl
    | cons c s => simp only [List.nil_append, findSub, h]; rfl
  | cons c pre ih =>
    have h0 := hno 0 (by simp)
    simp only [List.drop_zero, List.cons_append] at h0
    rw [List.cons_append, findSub, h0, ih]
    · rfl
    · intro i hi
      have := hno (i + 1) (by simpa using hi)
      simpa using this

/-- **C185, the log line.** In a line with the entry `test/mIoU: v` the five characters of `v` are read, whatever stands before (without that tag) and
behind. -/
theorem C185_read (pre v post line : String) (hv : v.toList.length = 5) (hl : line = pre ++ "test/mIoU: " ++ v ++ post)
    (hno : ∀ i < pre.toList.length, "test/mIoU:".toList.isPrefixOf (line.toList.drop i) = false) : iouText line = v.toList := by
  have e : line.toList = pre.toList ++ ("test/mIoU:".toList ++ ([' '] ++ v.toList ++ post.toList)) := by
    rw [hl]
    simp [String.toList_append]
  unfold iouText
  rw [e] at hno ⊢
  rw [findSub_first _ _ _ (by simp) hno]
  have n : ((pre.toList.length : Int) + 11).toNat = pre.toList.length + 11 := by omega
  simp only [n]
  rw [List.drop_append, List.drop_eq_nil_of_le (by omega)]
  simp [List.drop_append, hv]

/-- **C185, the schedule.** With at most the whole data, at least one shape and at most all of them are used.  With at least one hundredth, every
category trains for at least four epochs, the learning rate drops twice before the end, and the network is tested. -/
theorem C185_schedule (r : ℚ) (h1 : r ≤ 1) (k : Nat) (hk : k < 16) :
    (0 < r → 1 ≤ take (trainNum[k]?.getD 0) r ∧ take (trainNum[k]?.getD 0) r ≤ trainNum[k]?.getD 0) ∧
    (1 / 100 ≤ r → 4 ≤ maxEpoch (maxEpoches[k]?.getD 0) r ∧
      ∀ e, e = maxEpoch (maxEpoches[k]?.getD 0) r → 0 < (milestones e).2 ∧ (milestones e).2 < (milestones e).1 ∧ (milestones e).1 < e ∧
        1 ≤ testEvery e ∧ testEvery e ≤ e) := by
  have ht : ∀ k < 16, 1 ≤ trainNum[k]?.getD 0 := by decide
  have he : ∀ k < 16, 200 ≤ maxEpoches[k]?.getD 0 := by decide
  refine ⟨?_, ?_⟩
  · intro h0
    have := ht k hk
    generalize trainNum[k]?.getD 0 = n at this ⊢
    have hn : (1 : ℚ) ≤ n := by exact_mod_cast this
    unfold take
    refine ⟨Nat.ceil_pos.mpr (by positivity), Nat.ceil_le.mpr (by nlinarith)⟩
  · intro h0
    have := he k hk
    generalize maxEpoches[k]?.getD 0 = n at this ⊢
    have hn : (200 : ℚ) ≤ n := by exact_mod_cast this
    have h4 : 4 ≤ maxEpoch n r := by
      unfold maxEpoch
      apply Nat.le_floor
      split
      · push_cast; nlinarith
      · push_cast; nlinarith
    refine ⟨h4, ?_⟩
    rintro e rfl
    generalize maxEpoch n r = e at h4
    have m1 : (milestones e).1 = e / 2 := by
      unfold milestones
      rw [show (1 / 2 : ℚ) * e = (e : ℚ) / (2 : ℕ) by push_cast; ring, Nat.floor_div_eq_div]
    have m2 : (milestones e).2 = e / 4 := by
      unfold milestones
      rw [show (1 / 4 : ℚ) * e = (e : ℚ) / (4 : ℕ) by push_cast; ring, Nat.floor_div_eq_div]
    have hq : (4 : ℚ) ≤ e := by exact_mod_cast h4
    rw [m1, m2]
    refine ⟨by omega, by omega, by omega, ?_, ?_⟩
    · exact Nat.ceil_pos.mpr (by positivity)
    · exact Nat.ceil_le.mpr (by nlinarith)

/-- The ratios that the script suggests, run_seg_shapenet.py 27. -/
def suggested : List ℚ := [1 / 100, 2 / 100, 5 / 100, 10 / 100, 20 / 100, 50 / 100, 1]

/-- **C185, the last epoch.** For every category and every suggested ratio the last epoch is one after which the network is tested, so that the last
line of the log is about the final network. -/
theorem C185_last_epoch : ∀ r ∈ suggested, ∀ k < 16, testEvery (maxEpoch (maxEpoches[k]?.getD 0) r) ∣ maxEpoch (maxEpoches[k]?.getD 0) r := by
  decide +kernel

/-- For other ratios the table may be about an earlier epoch: with 30 % of the data, `Bag` trains for 540 epochs and is tested every 11. -/
theorem C185_last_epoch_other : maxEpoch (maxEpoches[1]?.getD 0) (3 / 10) = 540 ∧ testEvery 540 = 11 ∧ ¬ 11 ∣ 540 := by
  decide +kernel

theorem weighted_bounds (ws : List Nat) (xs : List ℚ) (lo hi : ℚ) (hl : xs.length = ws.length) (h : ∀ x ∈ xs, lo ≤ x ∧ x ≤ hi) :
    lo * (ws.sum : ℚ) ≤ ((xs.zip ws).map fun p => p.1 * (p.2 : ℚ)).sum ∧ ((xs.zip ws).map fun p => p.1 * (p.2 : ℚ)).sum ≤ hi * (ws.sum : ℚ) := by
  induction xs generalizing ws with
  | nil =>
    cases ws with
    | nil => simp
    | cons w ws => simp at hl
  | cons x xs ih =>
    cases ws with
    | nil => simp at hl
    | cons w ws =>
      obtain ⟨a, b⟩ := ih ws (by simpa using hl) (fun y hy => h y (by simp [hy]))
      have hx := h x (by simp)
      have hw : (0 : ℚ) ≤ w := by positivity
      simp only [List.zip_cons_cons, List.map_cons, List.sum_cons, Nat.cast_add]
      constructor <;> nlinarith

theorem plain_bounds (xs : List ℚ) (lo hi : ℚ) (h : ∀ x ∈ xs, lo ≤ x ∧ x ≤ hi) : lo * (xs.length : ℚ) ≤ xs.sum ∧ xs.sum ≤ hi * (xs.length : ℚ) := by
  induction xs with
  | nil => simp
  | cons x xs ih =>
    obtain ⟨a, b⟩ := ih (fun y hy => h y (by simp [hy]))
    have hx := h x (by simp)
    simp only [List.sum_cons, List.length_cons]
    push_cast
    constructor <;> nlinarith

/-- **C185, the means.** Both means of a row lie between the smallest and the largest IoU of the row. -/
theorem C185_means (ious : List ℚ) (lo hi : ℚ) (hl : ious.length = 16) (h : ∀ x ∈ ious, lo ≤ x ∧ x ≤ hi) :
    lo ≤ (means ious).1 ∧ (means ious).1 ≤ hi ∧ lo ≤ (means ious).2 ∧ (means ious).2 ≤ hi := by
  obtain ⟨a, b⟩ := plain_bounds ious lo hi h
  obtain ⟨c, d⟩ := weighted_bounds testNum ious lo hi (by rw [hl]; rfl) h
  have p1 : (0 : ℚ) < (ious.length : ℚ) := by rw [hl]; norm_num
  have p2 : (0 : ℚ) < (testNum.sum : ℚ) := by
    rw [show testNum.sum = 2843 from by decide]
    norm_num
  unfold means
  exact ⟨(le_div_iff₀ p1).mpr a, (div_le_iff₀ p1).mpr b, (le_div_iff₀ p2).mpr c, (div_le_iff₀ p2).mpr d⟩

example : ∃ a : Args, (a.ratios.map a.fmt).Nodup ∧ 2 ≤ a.ratios.length :=
  ⟨{ ratios := [1 / 2, 1], fmt := fun r => if r = 1 then "1.00" else "0.50" }, by decide +kernel, by decide⟩

example : ∃ a : Args, ∃ r r' : ℚ, r ≠ r' ∧ a.fmt r = a.fmt r' :=
  ⟨{ fmt := fun r => if r < 1 / 200 then "0.00" else "1.00" }, 1 / 1000, 2 / 1000, by norm_num, by decide +kernel⟩

example : iouText "=> Epoch: 300, test/loss: 0.321, test/mIoU: 0.845, time" = "0.845".toList := by decide +kernel

end ShapeScript
end Ocnn
