import Verif.Proofs.Pipeline
import Verif.Props.Dead

/-!
# C126: the filtered speech and noise of a complete run

`danseItUp` is one call of the driver for a fully connected network: a run of DANSE on the recordings `y` (covariance
matrices, filters, broadcasts, everything), and re-runs with its filters on the clean speech `ys` and on the clean noise
`yn`.
-/

namespace Danse
section
variable {K : Type} [Field K] [StarRing K] [DecidableEq K] {D : DanseCfg K} {p : EvalSettings} {n T : Nat}
  {y ys yn : Nat → List (List K)} {evs : List (ℚ × Nat × EvType)} {best : Fin n → BestCol K}

/-- C126 (a): with few-sample broadcasts, whatever the schedule: the driver ends normally whenever the run on the
recordings does, and fails with the exception of that run otherwise; the re-runs add no failures. -/
theorem C126_ends_like_run {L : Nat} {eff : Bool} (hb : D.g.bc = .few L eff) (hp : p.batch = false)
    (hs : ∀ k, SameShape (ys k) (y k)) (hn : ∀ k, SameShape (yn k) (y k)) :
    (∀ a, danseRun D y T evs = .ok a → ∃ o, danseItUp D p n T y ys yn evs best = .ok o) ∧
    ∀ e, danseRun D y T evs = .error e → danseItUp D p n T y ys yn evs best = .error e := by
  unfold danseItUp
  rw [hp, if_neg Bool.false_ne_true]
  constructor
  · intro a h
    obtain ⟨hf, hr⟩ := danseRun_again h
    have hw : a.run.cfg.WholeOk := wholeOk_few (L := L) (eff := eff) (by rw [hf]; exact hb)
    obtain ⟨vn, h1, -⟩ := (run_shape hw (fun k => (shape_of_same (hn k)).symm) evs rfl).ok_right hr
    obtain ⟨vs, h2, -⟩ := (run_shape hw (fun k => (shape_of_same (hs k)).symm) evs rfl).ok_right hr
    rw [h]
    simp only [bind, Except.bind]
    rw [h1, h2]
    exact ⟨_, rfl⟩
  · intro e h
    rw [h]
    rfl

/-- C126 (b): and then, in what the evaluation gets, the estimate of every node is at every sample the sum of its filtered
speech and its filtered noise, for DANSE and (if it was asked for) for the local processing. -/
theorem C126_adds_up {L : Nat} {eff : Bool} (hb : D.g.bc = .few L eff) (hy : ∀ k, SumsM (ys k) (yn k) (y k))
    {o : EvalOut n K} (h : danseItUp D p n T y ys yn evs best = .ok o) :
    (∃ s v, o.danse.filt = some (s, v) ∧ ∀ k, Sums (s k) (v k) (o.danse.est k)) ∧
    ∀ l, o.loc = some l → ∃ s v, l.filt = some (s, v) ∧ ∀ k, Sums (s k) (v k) (l.est k) := by
  unfold danseItUp at h
  by_cases hp : p.batch = true
  · rw [if_pos hp] at h; cases h
  · rw [if_neg hp] at h
    obtain ⟨a, ha, h⟩ := bind_ok_inv h
    obtain ⟨vn, hvn, h⟩ := bind_ok_inv h
    obtain ⟨vs, hvs, h⟩ := bind_ok_inv h
    injection h with h
    subst h
    obtain ⟨hf, hr⟩ := danseRun_again ha
    have hb' : a.run.cfg.bc = .few L eff := by rw [hf]; exact hb
    obtain ⟨m, hm, hk⟩ := C30_additive hb' hy _ _ _ _ _ hvs hvn
    rw [hr] at hm
    injection hm with hm
    subst hm
    have hp' : p.batch = false := by simpa using hp
    constructor
    · exact ⟨fun k => vs.d k, fun k => vn.d k, by simp [driverOut, hp', GivenSt.sigs], fun k => (hk k).1⟩
    · intro l hl
      unfold driverOut at hl
      simp only at hl
      split_ifs at hl with hc
      · injection hl with hl
        subst hl
        exact ⟨fun k => vs.dLoc k, fun k => vn.dLoc k, by simp [hp', GivenSt.sigs], fun k => (hk k).2⟩

/-- C126 (c): whole-chunk broadcasts with overlapping windows: the driver ends normally whenever the run on the recordings
does (what it returns need not add up: `C30_refuted_speech_onset`). -/
theorem C126_ends_whole (h0 : 0 < D.g.Ns) (h1 : D.g.Ns < D.g.N) (hf : D.g.f.length = D.g.N) (hh : D.g.h.length = D.g.N)
    (h2 : D.g.N < 3 * D.g.Ns) (hp : p.batch = false) (hs : ∀ k, SameShape (ys k) (y k)) (hn : ∀ k, SameShape (yn k) (y k))
    {a : DanseSt D} (h : danseRun D y T evs = .ok a) : ∃ o, danseItUp D p n T y ys yn evs best = .ok o := by
  obtain ⟨hfx, hr⟩ := danseRun_again h
  have hw : a.run.cfg.WholeOk := by
    rw [hfx]
    exact fun _ => ⟨h0, h1, hf, normVal_ok h0 h2 hh⟩
  obtain ⟨vn, h3, -⟩ := (run_shape hw (fun k => (shape_of_same (hn k)).symm) evs rfl).ok_right hr
  obtain ⟨vs, h4, -⟩ := (run_shape hw (fun k => (shape_of_same (hs k)).symm) evs rfl).ok_right hr
  unfold danseItUp
  rw [hp, if_neg Bool.false_ne_true, h]
  simp only [bind, Except.bind]
  rw [h3, h4]
  exact ⟨_, rfl⟩

/-- C126 (d), refuted: that the batch mode works in a fully connected network: it is rejected whatever the input. -/
theorem C126_refuted_batch (hp : p.batch = true) :
    danseItUp D p n T y ys yn evs best = .error .notImplementedError := by
  unfold danseItUp
  rw [if_pos hp]

end

/-! ## A concrete network -/

/-- Two nodes with one sensor each. -/
def exDriveSig (u v : List ℚ) : Nat → List (List ℚ) := fun k => if k = 0 then [u] else [v]

/-- Broadcasts and updates of both nodes at every sample. -/
def exDriveEvs : List (ℚ × Nat × EvType) :=
  (List.range 7).flatMap fun (j : Nat) => [((j : ℚ) + 2, 0, .bc), ((j : ℚ) + 2, 1, .bc), ((j : ℚ) + 2, 0, .up),
    ((j : ℚ) + 2, 1, .up)]

/-- One call of the driver for the nodes of `exDead`, with the given broadcast mode: estimate, filtered speech, filtered
noise and local estimate of node 0. -/
noncomputable def exDrive (bc : BcType) : Except PyErr (List ℚ × Option (List ℚ × List ℚ) × Option (List ℚ)) :=
  letI : StarRing ℚ := starRingOfComm
  (danseItUp { exDead true with g := { (exDead true).g with bc := bc } } ⟨false, 2, false, true, false, true, none, 0, 0⟩
    2 10 (exDriveSig [4, 2, 2, 1, 5, 1, 3, 2, 4, 1] [1, 0, 2, 3, -1, 2, 4, 2, 5, 3])
    (exDriveSig [1, 0, 0, 1, 3, 0, 2, 1, 1, 0] [0, 0, 1, 2, -1, 1, 1, 1, 2, 1])
    (exDriveSig [3, 2, 2, 0, 2, 1, 1, 1, 3, 1] [1, 0, 1, 1, 0, 1, 3, 1, 3, 2]) exDriveEvs fun _ => ⟨[], [], [], [], 0⟩).map
  fun o => (o.danse.est 0, o.danse.filt.map fun f => (f.1 0, f.2 0), o.loc.map fun l => l.est 0)

/-- A run with seven updates of either node (the filters change during the run): the hypotheses of C126 (a) and (b) are
met, and this is what the driver returns. -/
example : (exDead true).g.bc = .few 1 false ∧
    (∀ k, SumsM (exDriveSig [1, 0, 0, 1, 3, 0, 2, 1, 1, 0] [0, 0, 1, 2, -1, 1, 1, 1, 2, 1] k)
      (exDriveSig [3, 2, 2, 0, 2, 1, 1, 1, 3, 1] [1, 0, 1, 1, 0, 1, 3, 1, 3, 2] k)
      (exDriveSig [4, 2, 2, 1, 5, 1, 3, 2, 4, 1] [1, 0, 2, 3, -1, 2, 4, 2, 5, 3] k)) ∧
    exDrive (.few 1 false) = .ok
      ([2, 2, 2, 1, 5, 527 / 585, -26691193 / 4581135, 1615 / 7831, 0, 0],
       some ([1 / 2, 0, 0, 1, 3, 134 / 351, -545332 / 305409, 96845 / 422874, 0, 0],
         [3 / 2, 2, 2, 0, 2, 911 / 1755, -451493 / 111735, -235 / 10314, 0, 0]),
       some [2, 2, 2, 37 / 15, -1183 / 555, 199 / 1443, 1278889 / 1834053, 413 / 1271, 0, 0]) := by
  refine ⟨rfl, fun k => ?_, ?_⟩
  · unfold exDriveSig
    split_ifs
    · exact .cons (by repeat (first | exact .nil | refine .cons (by norm_num) ?_)) .nil
    · exact .cons (by repeat (first | exact .nil | refine .cons (by norm_num) ?_)) .nil
  · decide +kernel

/-- The same with whole-chunk broadcasts: the hypotheses of C126 (c) are met. -/
example : 0 < (exDead true).g.Ns ∧ (exDead true).g.Ns < (exDead true).g.N ∧ (exDead true).g.f.length = (exDead true).g.N ∧
    (exDead true).g.h.length = (exDead true).g.N ∧ (exDead true).g.N < 3 * (exDead true).g.Ns ∧
    exDrive .whole = .ok
      ([4, 2, 2, 1, -605 / 496, -30664667 / 9389156, 1798743 / 1211504, 0, 0, 0],
       some ([1, 0, 0, 1, -56725 / 27776, -1147154091 / 300452992, 26373 / 1211504, 0, 0, 0],
         [3, 2, 2, 0, 22845 / 27776, 23697821 / 42921856, 886185 / 605752, 0, 0, 0]),
       some [4, 2, 111 / 128, -5323 / 4992, 323 / 312, -983 / 1344, -211 / 448, 0, 0, 0]) := by
  refine ⟨by decide, by decide, rfl, rfl, by decide, ?_⟩
  decide +kernel

end Danse
