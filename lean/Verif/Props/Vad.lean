import Verif.Proofs.Vad
import Verif.Proofs.Topo

/-! # Properties C37 (frame VAD), C38 (energy VAD), C61 (metric start times), C62 (VAD files) -/

namespace Danse

/-! ## C37 -/

/-- C37: every complete frame is active iff the active samples reach the proportion `p`. -/
theorem C37_decisions {vad : List ℚ} {N Ns : Nat} {p : ℚ} {r : List Bool}
    (h : vadPerFrame vad N Ns p = .ok r) (hN : Ns ≤ N) {i : Nat} (hi : i * Ns + N ≤ vad.length) :
    ∃ b, r[i]? = some b ∧
      (b = true ↔ N * p ≤ ∑ j ∈ Finset.Ico (i * Ns) (i * Ns + N), smp vad j) := by
  have hNs : 0 < Ns := by
    rcases Nat.eq_zero_or_pos Ns with rfl | h0
    · unfold vadPerFrame at h
      by_cases h1 : vad.length = 0
      · rw [if_pos h1] at h; cases h
      · rw [if_neg h1, if_pos rfl] at h; cases h
    · exact h0
  have hlt : i < vad.length / Ns := by
    rw [Nat.lt_iff_add_one_le, Nat.le_div_iff_mul_le hNs, Nat.add_mul]; omega
  refine ⟨frameDec vad N Ns p i, ?_, by simp [frameDec]⟩
  rw [vadPerFrame_get h, if_neg (by omega), if_pos hi]

/-- C37: frames that are not complete are never active. -/
theorem C37_incomplete_inactive {vad : List ℚ} {N Ns : Nat} {p : ℚ} {r : List Bool}
    (h : vadPerFrame vad N Ns p = .ok r) {i : Nat} (hi : vad.length < i * Ns + N) :
    r[i]? ≠ some true := by
  rw [vadPerFrame_get h]
  split
  · simp
  rw [if_neg (by omega)]
  split <;> simp

/-- C37: number of decisions: one more than the number of complete frames, if there is still a
whole frame shift of signal after the start of the last complete frame. -/
theorem C37_length {vad : List ℚ} {N Ns : Nat} {p : ℚ} {r : List Bool}
    (h : vadPerFrame vad N Ns p = .ok r) :
    r.length = min (vad.length / Ns) (numComplete vad.length N Ns + 1) := by
  have hNs : 0 < Ns := by
    rcases Nat.eq_zero_or_pos Ns with rfl | h0
    · unfold vadPerFrame at h
      by_cases h1 : vad.length = 0
      · rw [if_pos h1] at h; cases h
      · rw [if_neg h1, if_pos rfl] at h; cases h
    · exact h0
  have hc : ∀ i, i * Ns + N ≤ vad.length ↔ i < numComplete vad.length N Ns := by
    intro i
    unfold numComplete
    by_cases hn : N ≤ vad.length
    · rw [if_pos hn, Nat.lt_succ_iff, Nat.le_div_iff_mul_le hNs]; omega
    · rw [if_neg hn]; omega
  have key : ∀ i, i < r.length ↔ i < min (vad.length / Ns) (numComplete vad.length N Ns + 1) := by
    intro i
    have hg := vadPerFrame_get h i
    simp only [hc] at hg
    by_cases h1 : vad.length / Ns ≤ i
    · rw [if_pos h1, List.getElem?_eq_none_iff] at hg; omega
    rw [if_neg h1] at hg
    by_cases h2 : i < numComplete vad.length N Ns
    · rw [if_pos h2] at hg
      have := (List.getElem?_eq_some_iff.mp hg).1; omega
    rw [if_neg h2] at hg
    by_cases h3 : i = 0 ∨ i - 1 < numComplete vad.length N Ns
    · rw [if_pos h3] at hg
      have := (List.getElem?_eq_some_iff.mp hg).1; omega
    · rw [if_neg h3, List.getElem?_eq_none_iff] at hg; omega
  have a := key r.length
  have b := key (min (vad.length / Ns) (numComplete vad.length N Ns + 1))
  omega

/-- C37: "one decision per complete frame" fails: 10 samples, frames of 4 with shift 2 (4 complete
frames) get 5 decisions. -/
theorem C37_refuted_one_per_complete_frame :
    ∃ r, vadPerFrame (List.replicate 10 1) 4 2 (1 / 2) = .ok r ∧ r.length = 5 ∧
      numComplete 10 4 2 = 4 := by
  refine ⟨_, rfl, ?_, rfl⟩
  rw [C37_length (vad := List.replicate 10 1) (N := 4) (Ns := 2) (p := 1 / 2) rfl]
  simp [numComplete]

/-- C37: a node without VAD samples is refused. -/
theorem C37_no_vad (N Ns : Nat) (p : ℚ) : vadPerFrame [] N Ns p = .error .valueError := rfl

/-- Half of the samples of the first frame are active: active at `p = 1/2`. -/
example : vadPerFrame [1, 0, 0, 0, 0, 1] 2 2 (1 / 2) = .ok [true, false, true] := by decide +kernel

/-! ## C38 -/

/-- C38: one value per sample, active iff the mean energy of the window (centred, clipped to the
signal) exceeds the threshold. -/
theorem C38_window_energy (x : List ℚ) (tw thrs Fs : ℚ) :
    (oracleVAD x tw thrs Fs).length = x.length ∧
    ∀ i < x.length, ∃ b, (oracleVAD x tw thrs Fs)[i]? = some b ∧
      (b = true ↔ (vadWindow x.length i (vadWinLen tw Fs / 2)).Nonempty ∧
        thrs < (∑ j ∈ vadWindow x.length i (vadWinLen tw Fs / 2), smp x j ^ 2) /
          (vadWindow x.length i (vadWinLen tw Fs / 2)).card) := by
  refine ⟨by simp [oracleVAD], fun i hi => ⟨_, oracleVAD_get x tw thrs Fs hi, ?_⟩⟩
  exact computeVAD_window x thrs hi

/-- C38: raising the threshold never turns a sample on. -/
theorem C38_threshold_monotone (x : List ℚ) (tw Fs : ℚ) {t1 t2 : ℚ} (h : t1 ≤ t2) {i : Nat}
    (ha : (oracleVAD x tw t2 Fs)[i]? = some true) : (oracleVAD x tw t1 Fs)[i]? = some true := by
  have hi : i < x.length := by
    have := (List.getElem?_eq_some_iff.mp ha).1
    rwa [(C38_window_energy x tw t2 Fs).1] at this
  obtain ⟨b, h1, h2⟩ := (C38_window_energy x tw t2 Fs).2 i hi
  obtain ⟨b', h1', h2'⟩ := (C38_window_energy x tw t1 Fs).2 i hi
  rw [h1] at ha
  obtain ⟨hn, hlt⟩ := h2.mp (Option.some.inj ha)
  rw [h1', h2'.mpr ⟨hn, lt_of_le_of_lt h hlt⟩]

/-- C38: "a non-positive window length means a one-sample window" fails: then (and for any window
shorter than two samples) the VAD is never active, whatever the signal and the threshold. -/
theorem C38_refuted_short_window (x : List ℚ) (tw thrs Fs : ℚ) (h : vadWinLen tw Fs ≤ 1) (i : Nat) :
    (oracleVAD x tw thrs Fs)[i]? ≠ some true := by
  intro ha
  have hi : i < x.length := by
    have := (List.getElem?_eq_some_iff.mp ha).1
    rwa [(C38_window_energy x tw thrs Fs).1] at this
  obtain ⟨b, h1, h2⟩ := (C38_window_energy x tw thrs Fs).2 i hi
  rw [h1] at ha
  obtain ⟨⟨j, hj⟩, -⟩ := h2.mp (Option.some.inj ha)
  have hz : vadWinLen tw Fs / 2 = 0 := by omega
  rw [hz] at hj
  simp only [vadWindow, Finset.mem_Ico] at hj
  omega

example : vadWinLen 0 16000 = 1 ∧ vadWinLen (1 / 1000) 4000 = 4 := by
  constructor <;> decide +kernel

example : oracleVAD [0, 0, 0, 3, 0, 0, 0] (1 / 1000) 1 4000 =
    [false, false, true, true, true, true, false] := by decide +kernel

/-! ## C61 -/

/-- C61: 'end_1st_utterance': the start of the first pause of at least the minimum duration between
two speech segments; `IndexError` iff there is no such pause. -/
theorem C61_end_first_utterance {vad : List Bool} (h2 : 2 ≤ vad.length) (fs d : ℚ) :
    (∀ t, getKeyTime .end1st vad fs d = .ok t →
      ∃ i j, FirstLongPause vad (d * fs) i j ∧ t = i / fs) ∧
    (∀ e, getKeyTime .end1st vad fs d = .error e →
      e = .indexError ∧ ∀ i j, Pause vad i j → (j : ℚ) - i < d * fs) := by
  match vad, h2 with
  | v0 :: v1 :: r, _ =>
    have hj := jumpShort_pause (vad := v0 :: v1 :: r) (v0 := v0) rfl (d * fs)
    change (∀ t, (jumpShort (vadChanges (v0 :: v1 :: r)) (d * fs) (if v0 then 0 else 1) >>= _) = _ →
      _) ∧ (∀ e, (jumpShort (vadChanges (v0 :: v1 :: r)) (d * fs) (if v0 then 0 else 1) >>= _) = _ →
      _)
    cases hr : jumpShort (vadChanges (v0 :: v1 :: r)) (d * fs) (if v0 then 0 else 1) with
    | ok idx =>
      obtain ⟨hlen, hp⟩ := hj.1 idx hr
      have hget : pyGet (vadChanges (v0 :: v1 :: r)) (idx : Int) =
          .ok (vadChanges (v0 :: v1 :: r))[idx] := by
        rw [pyGet_nat, List.getElem?_eq_getElem (by omega)]
      constructor
      · intro t ht
        change (pyGet (vadChanges (v0 :: v1 :: r)) (idx : Int) >>= _) = _ at ht
        rw [hget] at ht
        exact ⟨_, _, hp, (Except.ok.inj ht).symm⟩
      · intro e he
        change (pyGet (vadChanges (v0 :: v1 :: r)) (idx : Int) >>= _) = _ at he
        rw [hget] at he
        cases he
    | error e0 =>
      constructor
      · intro t ht; cases ht
      · intro e he
        have : e0 = e := by
          injection he
        subst this
        exact hj.2 e0 hr

/-- C61: 'beginning_2nd_utterance': the end of that pause, plus the requested delay. -/
theorem C61_beginning_second_utterance {vad : List Bool} (h2 : 2 ≤ vad.length) (fs d : ℚ)
    (af : Option ℚ) :
    (∀ t, getKeyTime (.beg2nd af) vad fs d = .ok t →
      ∃ i j, FirstLongPause vad (d * fs) i j ∧ t = j / fs + af.getD 0 / 1000) ∧
    (∀ e, getKeyTime (.beg2nd af) vad fs d = .error e →
      e = .indexError ∧ ∀ i j, Pause vad i j → (j : ℚ) - i < d * fs) := by
  match vad, h2 with
  | v0 :: v1 :: r, _ =>
    have hj := jumpShort_pause (vad := v0 :: v1 :: r) (v0 := v0) rfl (d * fs)
    change (∀ t, (jumpShort (vadChanges (v0 :: v1 :: r)) (d * fs) (if v0 then 0 else 1) >>= _) = _ →
      _) ∧ (∀ e, (jumpShort (vadChanges (v0 :: v1 :: r)) (d * fs) (if v0 then 0 else 1) >>= _) = _ →
      _)
    cases hr : jumpShort (vadChanges (v0 :: v1 :: r)) (d * fs) (if v0 then 0 else 1) with
    | ok idx =>
      obtain ⟨hlen, hp⟩ := hj.1 idx hr
      have hget : pyGet (vadChanges (v0 :: v1 :: r)) ((idx + 1 : Nat) : Int) =
          .ok (vadChanges (v0 :: v1 :: r))[idx + 1] := by
        rw [pyGet_nat, List.getElem?_eq_getElem (by omega)]
      constructor
      · intro t ht
        change (pyGet (vadChanges (v0 :: v1 :: r)) ((idx + 1 : Nat) : Int) >>= _) = _ at ht
        rw [hget] at ht
        exact ⟨_, _, hp, (Except.ok.inj ht).symm⟩
      · intro e he
        change (pyGet (vadChanges (v0 :: v1 :: r)) ((idx + 1 : Nat) : Int) >>= _) = _ at he
        rw [hget] at he
        cases he
    | error e0 =>
      constructor
      · intro t ht; cases ht
      · intro e he
        have : e0 = e := by
          injection he
        subst this
        exact hj.2 e0 hr

/-- C61: 'beginning_1st_utterance': the first active sample; `IndexError` if the VAD is never
active. -/
theorem C61_beginning_first_utterance {vad : List Bool} (h2 : 2 ≤ vad.length) (fs d : ℚ) :
    (∀ t, getKeyTime .beg1st vad fs d = .ok t →
      ∃ i : Nat, vad[i]? = some true ∧ (∀ m < i, vad[m]? = some false) ∧ t = i / fs) ∧
    (∀ e, getKeyTime .beg1st vad fs d = .error e → e = .indexError ∧ ∀ m : Nat, vad[m]? ≠ some true) := by
  match vad, h2 with
  | true :: v1 :: r, _ =>
    constructor
    · intro t ht
      have : t = 0 := (Except.ok.inj ht).symm
      exact ⟨0, rfl, fun m hm => by omega, by simp [this]⟩
    · intro e he; cases he
  | false :: v1 :: r, _ =>
    change (∀ t, (pyGet (vadChanges (false :: v1 :: r)) ((0 : Nat) : Int) >>= _) = _ → _) ∧
      (∀ e, (pyGet (vadChanges (false :: v1 :: r)) ((0 : Nat) : Int) >>= _) = _ → _)
    rw [pyGet_nat]
    by_cases h0 : 0 < (vadChanges (false :: v1 :: r)).length
    · rw [List.getElem?_eq_getElem h0]
      have hc := (vad_at_change (vad := false :: v1 :: r) (v0 := false) rfl h0).1
      constructor
      · intro t ht
        refine ⟨(vadChanges (false :: v1 :: r))[0], by simpa using hc, fun m hm => ?_,
          (Except.ok.inj ht).symm⟩
        rw [vad_before_first h0 hm]; rfl
      · intro e he; cases he
    · rw [List.getElem?_eq_none (by omega)]
      constructor
      · intro t ht; cases ht
      · intro e he
        refine ⟨by injection he with h; exact h.symm, fun m hm => ?_⟩
        have hml := (List.getElem?_eq_some_iff.mp hm).1
        have := vad_const (vad := false :: v1 :: r) (a := 0) (b := (false :: v1 :: r).length) le_rfl
          (fun i _ _ hi => by
            have := List.length_pos_of_mem hi; omega) (Nat.zero_le m) hml
        rw [hm] at this
        simp at this

/-- C61: "a key time exists whenever there is speech" fails: one utterance, then silence to the end,
raises `IndexError` when asking for the end of the first utterance. -/
theorem C61_refuted_single_utterance :
    getKeyTime .end1st [false, true, true, false, false, false] 1 1 = .error .indexError := by
  have hch : vadChanges [false, true, true, false, false, false] = [1, 3] := by decide +kernel
  change (jumpShort (vadChanges [false, true, true, false, false, false]) (1 * 1) 1 >>= _) = _
  rw [hch, jumpShort, dif_neg (by decide)]
  rfl

example : FirstLongPause [false, true, false, true, false, false, true] 2 4 6 := by
  refine ⟨⟨by omega, by omega, rfl, fun m h1 h2 => ?_, rfl⟩, by norm_num, ?_⟩
  · have : m = 4 ∨ m = 5 := by omega
    rcases this with rfl | rfl <;> rfl
  · intro i' j' hp hlt
    have := hp.pos
    have : i' = 1 ∨ i' = 2 ∨ i' = 3 := by omega
    rcases this with rfl | rfl | rfl
    · have := hp.before; simp at this
    · rcases Nat.lt_or_ge 3 j' with h | h
      · have := hp.silent 3 (by omega) h; simp at this
      · have := hp.lt
        have : j' = 3 := by omega
        subst this; norm_num
    · have := hp.before; simp at this

/-! ## C62 -/

/-- Two calls that use the same file want the same VAD. -/
theorem vadCalls_ok {H : Type} [DecidableEq H] (hash : List ℚ → H) (calls : List VadCall)
    (folder : VadKey H → Option (List Bool)) (hne : ∀ c ∈ calls, c.x ≠ [])
    (hcompat : ∀ c ∈ calls, ∀ c' ∈ calls, ∀ m m', maxSq c.x = .ok m → maxSq c'.x = .ok m' →
      hash c.x = hash c'.x → npRound3 (m / c.eFact) = npRound3 (m' / c'.eFact) →
      npRound3 c.Nw = npRound3 c'.Nw → c.fs = c'.fs → freshVad c = freshVad c')
    (hfold : ∀ c ∈ calls, ∀ m v, maxSq c.x = .ok m →
      folder ⟨hash c.x, npRound3 (m / c.eFact), npRound3 c.Nw, c.fs⟩ = some v →
      freshVad c = .ok v) :
    ∃ vs, vadCalls hash calls folder = .ok vs ∧ vs.map Except.ok = calls.map freshVad := by
  induction calls generalizing folder with
  | nil => exact ⟨[], rfl, rfl⟩
  | cons c r ih =>
    obtain ⟨m, hm⟩ : ∃ m, maxSq c.x = .ok m := by
      have := hne c (by simp)
      cases hx : c.x with
      | nil => exact absurd hx this
      | cons a l => exact ⟨_, rfl⟩
    have hf : freshVad c = .ok (oracleVAD c.x c.Nw (m / c.eFact) c.fs) := by
      unfold freshVad; rw [hm]; rfl
    have step : ∃ v folder', getOrLoadVad hash c folder = .ok (v, folder') ∧ freshVad c = .ok v ∧
        ∀ k w, folder' k = some w → folder k = some w ∨
          (k = ⟨hash c.x, npRound3 (m / c.eFact), npRound3 c.Nw, c.fs⟩ ∧ freshVad c = .ok w) := by
      unfold getOrLoadVad
      rw [hm]
      have hsave : ∀ k w, (if k = (⟨hash c.x, npRound3 (m / c.eFact), npRound3 c.Nw, c.fs⟩ : VadKey H)
          then some (oracleVAD c.x c.Nw (m / c.eFact) c.fs) else folder k) = some w →
          folder k = some w ∨
          (k = ⟨hash c.x, npRound3 (m / c.eFact), npRound3 c.Nw, c.fs⟩ ∧ freshVad c = .ok w) := by
        intro k w hw
        by_cases hk : k = (⟨hash c.x, npRound3 (m / c.eFact), npRound3 c.Nw, c.fs⟩ : VadKey H)
        · rw [if_pos hk] at hw
          exact Or.inr ⟨hk, by rw [hf, Option.some.inj hw]⟩
        · rw [if_neg hk] at hw; exact Or.inl hw
      change ∃ v folder', (if c.load then _ else _) = _ ∧ _
      cases hl : c.load with
      | true =>
        rw [if_pos rfl]
        cases hk : folder ⟨hash c.x, npRound3 (m / c.eFact), npRound3 c.Nw, c.fs⟩ with
        | some v => exact ⟨v, folder, rfl, hfold c (by simp) m v hm hk, fun k w hw => Or.inl hw⟩
        | none => exact ⟨_, _, rfl, hf, hsave⟩
      | false => exact ⟨_, _, rfl, hf, hsave⟩
    obtain ⟨v, folder', h1, h2, h3⟩ := step
    obtain ⟨vs, h4, h5⟩ := ih folder' (fun c' hc' => hne c' (by simp [hc']))
      (fun a ha b hb => hcompat a (by simp [ha]) b (by simp [hb])) (fun c' hc' m' w hm' hw => by
        rcases h3 _ w hw with h | ⟨hk, hw'⟩
        · exact hfold c' (by simp [hc']) m' w hm' h
        · rw [VadKey.mk.injEq] at hk
          rw [hcompat c' (by simp [hc']) c (by simp) m' m hm' hm hk.1 hk.2.1 hk.2.2.1 hk.2.2.2]
          exact hw')
    refine ⟨v :: vs, ?_, by simp [h2, h5]⟩
    rw [vadCalls, h1]
    change (vadCalls hash r folder' >>= _) = _
    rw [h4]; rfl

/-- C62: in any sequence of calls sharing one initially empty VAD folder, every call returns the VAD
it would compute itself, provided the hash separates the signals, all calls use one energy factor
and window lengths have at most three decimals. -/
theorem C62_loaded_is_computed {H : Type} [DecidableEq H] (hash : List ℚ → H) (calls : List VadCall)
    (hne : ∀ c ∈ calls, c.x ≠ [])
    (hinj : ∀ c ∈ calls, ∀ c' ∈ calls, hash c.x = hash c'.x → c.x = c'.x)
    (he : ∀ c ∈ calls, ∀ c' ∈ calls, c.eFact = c'.eFact)
    (hN : ∀ c ∈ calls, npRound3 c.Nw = c.Nw) :
    ∃ vs, vadCalls hash calls (fun _ => none) = .ok vs ∧ vs.map Except.ok = calls.map freshVad := by
  refine vadCalls_ok hash calls _ hne ?_ (fun c _ m v _ h => by cases h)
  intro c hc c' hc' m m' hm hm' hh _ hn hfs
  rw [hN c hc, hN c' hc'] at hn
  unfold freshVad
  rw [hinj c hc c' hc' hh, he c hc c' hc', hn, hfs]

/-- C62: "a loaded VAD is the one that would be computed" fails when the energy factor is changed
between two runs on a quiet signal: the file name holds only three decimals of the threshold, so the
first VAD is returned again. -/
theorem C62_refuted_stale_file {H : Type} [DecidableEq H] (hash : List ℚ → H) :
    ∃ c1 c2 : VadCall, c1.x = c2.x ∧ c1.Nw = c2.Nw ∧ c1.fs = c2.fs ∧ c1.eFact ≠ c2.eFact ∧
      freshVad c1 ≠ freshVad c2 ∧
      ∃ v, vadCalls hash [c1, c2] (fun _ => none) = .ok [v, v] ∧ freshVad c1 = .ok v := by
  have h1 : freshVad ⟨[1 / 100, 1 / 500, 1 / 500], 10, 2, 1, true⟩ = .ok [true, true, false] := by
    decide +kernel
  have h2 : freshVad ⟨[1 / 100, 1 / 500, 1 / 500], 100, 2, 1, true⟩ = .ok [true, true, true] := by
    decide +kernel
  refine ⟨⟨[1 / 100, 1 / 500, 1 / 500], 10, 2, 1, true⟩,
    ⟨[1 / 100, 1 / 500, 1 / 500], 100, 2, 1, true⟩, rfl, rfl, rfl, by simp, by
      rw [h1, h2]; decide, [true, true, false], ?_, h1⟩
  have hm : maxSq [1 / 100, 1 / 500, 1 / 500] = .ok (1 / 10000) := by decide +kernel
  have r1 : npRound3 (1 / 10000 / 10) = 0 := by decide +kernel
  have r2 : npRound3 (1 / 10000 / 100) = 0 := by decide +kernel
  have hv : oracleVAD [1 / 100, 1 / 500, 1 / 500] 2 (1 / 10000 / 10) 1 = [true, true, false] := by
    decide +kernel
  simp only [vadCalls, getOrLoadVad, hm, bind, Except.bind, pure, Except.pure, if_true, r1, r2, hv]

example : (VadCall.mk [1 / 100, 1 / 500, 1 / 500] 10 2 1 true).x ≠ [] ∧ npRound3 2 = 2 := by
  constructor
  · simp
  · decide +kernel

end Danse
