import Verif.Props.Evaluate

/-! # C100, continued: all nodes, and what the driver passes -/

namespace Danse

set_option linter.unusedSectionVars false

section
variable {A V D : Type}

theorem zipIdx_window (P : Nat → Bool) (s e : Nat) (hP : ∀ n, P n = true ↔ s ≤ n ∧ n < e) (x : List A)
    (o : Nat) : ((x.zipIdx o).filter fun p => P p.2).map (·.1) = (x.drop (s - o)).take (e - max s o) := by
  induction x generalizing o with
  | nil => simp
  | cons a x ih =>
    rw [List.zipIdx_cons, List.filter_cons]
    by_cases h : P o = true
    · have ho := (hP o).mp h
      rw [if_pos h, List.map_cons, ih, show s - o = 0 by omega, show s - (o + 1) = 0 by omega,
        show e - max s o = (e - max s (o + 1)) + 1 by omega]
      rfl
    · rw [if_neg h, ih]
      have ho : ¬ (s ≤ o ∧ o < e) := fun hh => h ((hP o).mpr hh)
      by_cases h1 : s ≤ o
      · rw [show e - max s o = 0 by omega, show e - max s (o + 1) = 0 by omega]
        simp
      · rw [show s - o = (s - (o + 1)) + 1 by omega, show max s (o + 1) = max s o by omega]
        rfl

/-- C100 (l): with the bounds that `compute_metrics` uses, the window is made of the samples that end after
the start time and not after the end time (sample `n` lasts from `n/fs` to `(n + 1)/fs`). -/
theorem C100_window {ts te fs : ℚ} {s e : Nat} (hs : (s : Int) = ⌊ts * fs⌋) (he : (e : Int) = ⌊te * fs⌋)
    (x : List A) :
    evalSeg s e x = (x.zipIdx.filter fun p => decide (ts * fs < (p.2 : ℚ) + 1 ∧ (p.2 : ℚ) + 1 ≤ te * fs)).map
      (·.1) := by
  rw [zipIdx_window (fun n => decide (ts * fs < (n : ℚ) + 1 ∧ (n : ℚ) + 1 ≤ te * fs)) s e]
  · rw [Nat.sub_zero, Nat.max_eq_left (Nat.zero_le _)]
    rfl
  · intro n
    rw [decide_eq_true_iff]
    have h1 : ts * fs < (n : ℚ) + 1 ↔ s ≤ n := by
      rw [show ((n : ℚ) + 1) = (((n + 1 : Nat) : Int) : ℚ) by push_cast; rfl, ← Int.floor_lt, ← hs]
      omega
    have h2 : (n : ℚ) + 1 ≤ te * fs ↔ n < e := by
      rw [show ((n : ℚ) + 1) = (((n + 1 : Nat) : Int) : ℚ) by push_cast; rfl, ← Int.le_floor, ← he]
      omega
    rw [h1, h2]

variable [Add A] [Zero V] [Sub V] {F : EvalFns A V} {K : Nat}
  {dyn : Fin K → List DynKind → Except PyErr (DynKind → D)}

/-- The estimates of node `k` of one kind, if asked for. -/
def tripleOf (on : Bool) (est speech noise : Fin K → List A) (k : Fin K) : Option (EstTriple A) :=
  if on then some ⟨est k, speech k, noise k⟩ else none

/-- What the driver passes for node `k`. -/
def driverArgs (p : EvalSettings) (run speech noise : RunSigs K A) (best : Fin K → BestCol A)
    (wasn : Fin K → EvalNode A) (wanted : List String) (k : Fin K) : EvalArgs A where
  clean := (wasn k).clean
  noiseOnly := (wasn k).noise
  noisy := (wasn k).noisy
  filtSpeech := speech.d k
  filtNoise := noise.d k
  filtSpeechC := if p.computeCentralised then some (speech.dCentr k) else none
  filtNoiseC := if p.computeCentralised then some (noise.dCentr k) else none
  filtSpeechL := if p.computeLocal then some (speech.dLocal k) else none
  filtNoiseL := if p.computeLocal then some (noise.dLocal k) else none
  filtSpeechS := if p.computeSSBC then some (speech.dSSBC k) else none
  filtNoiseS := if p.computeSSBC then some (noise.dSSBC k) else none
  enhan := some (run.d k)
  enhanC := if p.computeCentralised then some (run.dCentr k) else none
  enhanL := if p.computeLocal then some (run.dLocal k) else none
  enhanS := if p.computeSSBC then some (run.dSSBC k) else none
  fs := (wasn k).fs
  vad := some (wasn k).vad
  dynamic := p.dynamic
  startIdx := ⌊(wasn k).metricStartTime * (wasn k).fs⌋
  endIdx := some ⌊(wasn k).metricEndTime * (wasn k).fs⌋
  gamma := p.gamma
  fLen := p.fLen
  wanted := wanted
  best := some (best k)

theorem nodeMetrics_driver {p : EvalSettings} (hb : p.batch = false) (hr : p.bestPerfReference = true)
    (run speech noise : RunSigs K A) (best : Fin K → BestCol A) (wasn : Fin K → EvalNode A)
    (wanted : List String) (k : Fin K) :
    nodeMetrics F dyn (driverOut p run speech noise best) wasn wanted k =
        getMetrics F (dyn k) (driverArgs p run speech noise best wasn wanted k) := by
  unfold nodeMetrics driverOut evalRange driverArgs
  simp only [hb, hr, Bool.false_eq_true, if_false, Bool.not_false, Bool.true_and, if_true, Bool.false_and]
  cases h1 : p.computeCentralised <;> cases h2 : p.computeLocal <;> cases h3 : p.computeSSBC <;> rfl

theorem driverArgs_given (p : EvalSettings) (run speech noise : RunSigs K A) (best : Fin K → BestCol A)
    (wasn : Fin K → EvalNode A) (wanted : List String) (k : Fin K) :
    (driverArgs p run speech noise best wasn wanted k).Given (run.d k)
      (tripleOf p.computeCentralised run.dCentr speech.dCentr noise.dCentr k)
      (tripleOf p.computeLocal run.dLocal speech.dLocal noise.dLocal k)
      (tripleOf p.computeSSBC run.dSSBC speech.dSSBC noise.dSSBC k) := by
  unfold driverArgs tripleOf
  cases h1 : p.computeCentralised <;> cases h2 : p.computeLocal <;> cases h3 : p.computeSSBC <;>
    exact ⟨rfl, rfl, rfl, rfl, rfl, rfl, rfl, rfl, rfl, rfl⟩

theorem tripleOf_map {U : Type} (f : EstTriple A → U) (on : Bool) (est speech noise : Fin K → List A)
    (k : Fin K) : (tripleOf on est speech noise k).map f =
      if on then some (f ⟨est k, speech k, noise k⟩) else none := by
  unfold tripleOf
  cases on <;> rfl

/-- C100 (m): an online run that the driver evaluates with a best-performance reference. Node `k` is scored
on its window, from its own signals: the SNR of DANSE is that of the outputs of the runs on the speech
and on the noise components, and likewise for the other estimates that were asked for; STOI and PESQ
compare the output with the clean speech of the reference sensor; the scores before are those of the
reference sensor. -/
theorem C100_nodes {p : EvalSettings} (hb : p.batch = false) (hr : p.bestPerfReference = true)
    {run speech noise : RunSigs K A} {best : Fin K → BestCol A} {wasn : Fin K → EvalNode A}
    {wanted : List String} {ms : List (MetricsDict V D)}
    (h : computeMetrics F dyn (driverOut p run speech noise best) wasn wanted = .ok ms) :
    ms.length = K ∧ ∀ (k : Fin K) (d : MetricsDict V D), ms[k.val]? = some d → ∀ s e sh : Nat,
      (s : Int) = ⌊(wasn k).metricStartTime * (wasn k).fs⌋ →
      (e : Int) = ⌊(wasn k).metricEndTime * (wasn k).fs⌋ →
      (sh : Int) = ⌊(wasn k).fs / 5⌋ → sh ≤ e →
      Reported ("snr" ∈ wanted) d.snr (F.snr (evalSeg s e (wasn k).clean) (evalSeg s e (wasn k).noise))
        (F.snr (evalSeg s e (speech.d k)) (evalSeg s e (noise.d k)))
        (if p.computeCentralised then some (F.snr (evalSeg s e (speech.dCentr k)) (evalSeg s e (noise.dCentr k)))
          else none)
        (if p.computeLocal then some (F.snr (evalSeg s e (speech.dLocal k)) (evalSeg s e (noise.dLocal k)))
          else none)
        (if p.computeSSBC then some (F.snr (evalSeg s e (speech.dSSBC k)) (evalSeg s e (noise.dSSBC k))) else none)
        (some (F.snr (evalSeg (s + sh) (e - sh) (best k).speech) (evalSeg (s + sh) (e - sh) (best k).noise))) ∧
      Reported ("sisnr" ∈ wanted) d.sisnr
        (F.sisnr (wasn k).fs (evalSeg s e (wasn k).clean) (evalSeg s e (wasn k).noise))
        (F.sisnr (wasn k).fs (evalSeg s e (speech.d k)) (evalSeg s e (noise.d k)))
        (if p.computeCentralised then
          some (F.sisnr (wasn k).fs (evalSeg s e (speech.dCentr k)) (evalSeg s e (noise.dCentr k))) else none)
        (if p.computeLocal then
          some (F.sisnr (wasn k).fs (evalSeg s e (speech.dLocal k)) (evalSeg s e (noise.dLocal k))) else none)
        (if p.computeSSBC then
          some (F.sisnr (wasn k).fs (evalSeg s e (speech.dSSBC k)) (evalSeg s e (noise.dSSBC k))) else none)
        (some (F.sisnr (best k).fs (evalSeg (s + sh) (e - sh) (best k).speech)
          (evalSeg (s + sh) (e - sh) (best k).noise))) ∧
      Reported ("fwSNRseg" ∈ wanted) d.fw
        (F.fw (wasn k).fs p.fLen p.gamma (evalSeg s e (wasn k).clean) (evalSeg s e (wasn k).noisy))
        (F.fw (wasn k).fs p.fLen p.gamma (evalSeg s e (wasn k).clean) (evalSeg s e (run.d k)))
        (if p.computeCentralised then
          some (F.fw (wasn k).fs p.fLen p.gamma (evalSeg s e (wasn k).clean) (evalSeg s e (run.dCentr k))) else none)
        (if p.computeLocal then
          some (F.fw (wasn k).fs p.fLen p.gamma (evalSeg s e (wasn k).clean) (evalSeg s e (run.dLocal k))) else none)
        (if p.computeSSBC then
          some (F.fw (wasn k).fs p.fLen p.gamma (evalSeg s e (wasn k).clean) (evalSeg s e (run.dSSBC k))) else none)
        (some (F.fw (best k).fs p.fLen p.gamma (evalSeg (s + sh) (e - sh) (best k).clean)
          (evalSeg (s + sh) (e - sh) (best k).dCentr))) ∧
      Reported ("stoi" ∈ wanted ∨ "estoi" ∈ wanted) d.stoi
        (F.stoi (wasn k).fs (evalSeg s e (wasn k).clean) (evalSeg s e (wasn k).noisy))
        (F.stoi (wasn k).fs (evalSeg s e (wasn k).clean) (evalSeg s e (run.d k)))
        (if p.computeCentralised then
          some (F.stoi (wasn k).fs (evalSeg s e (wasn k).clean) (evalSeg s e (run.dCentr k))) else none)
        (if p.computeLocal then
          some (F.stoi (wasn k).fs (evalSeg s e (wasn k).clean) (evalSeg s e (run.dLocal k))) else none)
        (if p.computeSSBC then
          some (F.stoi (wasn k).fs (evalSeg s e (wasn k).clean) (evalSeg s e (run.dSSBC k))) else none)
        (some (F.stoi (best k).fs (evalSeg (s + sh) (e - sh) (best k).clean)
          (evalSeg (s + sh) (e - sh) (best k).dCentr))) ∧
      ((wasn k).fs = 8000 ∨ (wasn k).fs = 16000 →
        Reported ("pesq" ∈ wanted) d.pesq
          (F.pesq (wasn k).fs (evalSeg s e (wasn k).clean) (evalSeg s e (wasn k).noisy)
            (decide ((wasn k).fs = 16000)))
          (F.pesq (wasn k).fs (evalSeg s e (wasn k).clean) (evalSeg s e (run.d k)) (decide ((wasn k).fs = 16000)))
          (if p.computeCentralised then some (F.pesq (wasn k).fs (evalSeg s e (wasn k).clean)
            (evalSeg s e (run.dCentr k)) (decide ((wasn k).fs = 16000))) else none)
          (if p.computeLocal then some (F.pesq (wasn k).fs (evalSeg s e (wasn k).clean)
            (evalSeg s e (run.dLocal k)) (decide ((wasn k).fs = 16000))) else none)
          (if p.computeSSBC then some (F.pesq (wasn k).fs (evalSeg s e (speech.dSSBC k))
            (evalSeg s e (run.dSSBC k)) (decide ((wasn k).fs = 16000))) else none)
          (some (F.pesq (best k).fs (evalSeg s e (wasn k).clean) (evalSeg (s + sh) (e - sh) (best k).dCentr)
            (decide ((wasn k).fs = 16000))))) := by
  have hf := mapM_ok_forall₂ h
  have hl : ms.length = K := by
    have := hf.length_eq
    rw [List.length_finRange] at this
    exact this.symm
  refine ⟨hl, fun k d hd s e sh hs he hsh hle => ?_⟩
  have hk : nodeMetrics F dyn (driverOut p run speech noise best) wasn wanted k = .ok d := by
    obtain ⟨hlt, hd⟩ := List.getElem?_eq_some_iff.mp hd
    have := hf.get (i := k.val) (by rw [List.length_finRange]; exact k.isLt) hlt
    simpa [hd] using this
  rw [nodeMetrics_driver hb hr] at hk
  have hg := driverArgs_given p run speech noise best wasn wanted k
  have hw : (driverArgs p run speech noise best wasn wanted k).Window s e sh :=
    ⟨hs.symm, .inl (congrArg some he.symm), hsh⟩
  have r1 := C100_snr hg hw hle hk
  have r2 := C100_sisnr hg hw hle hk
  have r3 := C100_fwsnrseg hg hw hle hk
  have r4 := C100_stoi hg hw hle hk
  simp only [tripleOf_map] at r1 r2 r3 r4
  refine ⟨r1, r2, r3, r4, fun hfs => ?_⟩
  have r5 := C100_pesq hg hw hle hfs hk
  simp only [tripleOf_map] at r5
  exact r5

/-- C100 (n), refuted: that an evaluation works without a best-performance reference
(`bestPerfReference = False`). With at least one node it always fails. -/
theorem C100_refuted_no_best {p : EvalSettings} (hb : p.batch = false) (hr : p.bestPerfReference = false)
    (hK : 0 < K) (run speech noise : RunSigs K A) (best : Fin K → BestCol A) (wasn : Fin K → EvalNode A)
    (wanted : List String) :
    computeMetrics F dyn (driverOut p run speech noise best) wasn wanted = .error .attributeError := by
  obtain ⟨n, rfl⟩ := Nat.exists_eq_succ_of_ne_zero (by omega : K ≠ 0)
  unfold computeMetrics
  rw [List.finRange_succ, List.mapM_cons]
  have : nodeMetrics F dyn (driverOut p run speech noise best) wasn wanted 0 = .error .attributeError := by
    unfold nodeMetrics driverOut evalRange
    simp only [hb, hr, Bool.false_eq_true, if_false, Bool.and_false]
    cases h1 : p.computeCentralised <;> cases h2 : p.computeLocal <;> cases h3 : p.computeSSBC <;> rfl
  rw [this]
  rfl

/-- C100 (o), refuted: that the outputs of a batch run can be evaluated. The driver computes no filtered
speech and noise in batch mode, so the evaluation always fails. -/
theorem C100_refuted_batch {p : EvalSettings} (hb : p.batch = true) (hK : 0 < K)
    (run speech noise : RunSigs K A) (best : Fin K → BestCol A) (wasn : Fin K → EvalNode A)
    (wanted : List String) :
    computeMetrics F dyn (driverOut p run speech noise best) wasn wanted =
      .error (if p.computeCentralised || p.computeLocal || p.computeSSBC then .typeError
        else .attributeError) := by
  obtain ⟨n, rfl⟩ := Nat.exists_eq_succ_of_ne_zero (by omega : K ≠ 0)
  unfold computeMetrics
  rw [List.finRange_succ, List.mapM_cons]
  have : nodeMetrics F dyn (driverOut p run speech noise best) wasn wanted 0 =
      .error (if p.computeCentralised || p.computeLocal || p.computeSSBC then .typeError
        else .attributeError) := by
    unfold nodeMetrics driverOut evalRange
    simp only [hb, if_true]
    cases h1 : p.computeCentralised <;> cases h2 : p.computeLocal <;> cases h3 : p.computeSSBC <;> rfl
  rw [this]
  rfl

/-- C100 (q): if filtered speech and noise and a reference are added to the outputs of a batch run by hand, the
scores leave out the last frame of the recording. -/
theorem C100_batch_window {out : EvalOut K A} {wasn : Fin K → EvalNode A} {wanted : List String} {k : Fin K}
    {f : (Fin K → List A) × (Fin K → List A)} {b : Fin K → BestCol A} {d : MetricsDict V D}
    (hb : out.batch = true) (hf : out.danse.filt = some f) (hbest : out.best = some b)
    (hc : out.centr = none) (hl : out.loc = none) (hs : out.ssbc = none)
    (h : nodeMetrics F dyn out wasn wanted k = .ok d) {s e sh : Nat}
    (hi : (s : Int) = ⌊(wasn k).metricStartTime * (wasn k).fs⌋)
    (he : (e : Int) = min ⌊(wasn k).metricEndTime * (wasn k).fs⌋ ((wasn k).clean.length - out.dftSize))
    (hsh : (sh : Int) = ⌊(wasn k).fs / 5⌋) (hle : sh ≤ e) :
    Reported ("snr" ∈ wanted) d.snr (F.snr (evalSeg s e (wasn k).clean) (evalSeg s e (wasn k).noise))
      (F.snr (evalSeg s e (f.1 k)) (evalSeg s e (f.2 k))) none none none
      (some (F.snr (evalSeg (s + sh) (e - sh) (b k).speech) (evalSeg (s + sh) (e - sh) (b k).noise))) := by
  unfold nodeMetrics at h
  rw [hc, hl, hs, hf, hbest] at h
  simp only [columns, bind, Except.bind] at h
  refine C100_snr (x := out.danse.est k) (c := none) (l := none) (s := none) (i := s) (e := e) (sh := sh)
    ⟨rfl, rfl, rfl, rfl, rfl, rfl, rfl, rfl, rfl, rfl⟩ ⟨hi.symm, .inl (congrArg some ?_), hsh⟩ hle h
  rw [he]
  unfold evalRange
  simp only [hb, Bool.true_and, decide_eq_true_eq]
  split <;> omega

end

section
variable {A V D : Type} [Add A] [Zero V] [Sub V] {F : EvalFns A V}
  {dyn : List DynKind → Except PyErr (DynKind → D)} {a : EvalArgs A} {x : List A}
  {c l s : Option (EstTriple A)} {d : MetricsDict V D} {i e sh : Nat}

/-- C100 (p), refuted: that the best PESQ compares the best estimate with the clean speech. The estimate is
compared with a longer reference that begins 0.2 s earlier: even if the best estimate is the clean
speech, the two signals passed to PESQ differ in length by 0.4 s. -/
theorem C100_refuted_pesq_best (hg : a.Given x c l s) (hw : a.Window i e sh)
    (hfs : a.fs = 8000 ∨ a.fs = 16000) (hin : i + 2 * sh ≤ e) (hlen : e ≤ a.clean.length)
    (h : getMetrics F dyn a = .ok d) {M : MetricVal V D} (hM : d.pesq = some M) {p : BestCol A}
    (hp : a.best = some p) (hperf : p.dCentr = a.clean) :
    ∃ ref deg v, M.best = some v ∧ F.pesq p.fs ref deg (decide (a.fs = 16000)) = .ok v ∧
      ref.length = e - i ∧ deg.length + 2 * sh = e - i ∧ 0 < sh := by
  have h1 := ((C100_pesq hg hw (by omega) hfs h).2 M hM).best
  rw [hp] at h1
  have hsh : 0 < sh := by
    have := hw.shift
    rcases hfs with h | h <;> rw [h] at this <;> norm_num at this <;> omega
  cases hv : M.best with
  | none => rw [hv] at h1; cases h1
  | some v =>
    rw [hv] at h1
    injection h1 with h1
    refine ⟨_, _, v, rfl, h1, ?_, ?_, hsh⟩
    · unfold evalSeg
      rw [List.length_take, List.length_drop]
      omega
    · unfold evalSeg
      rw [hperf, List.length_take, List.length_drop]
      omega

end

/-! ## Concrete runs -/

/-- Toy scores: sums over the signals; "PESQ" is 4 if the two signals are equal, 1 otherwise. -/
def exEvalFns : EvalFns ℤ ℤ where
  snr x y := .ok (x.sum - 10 * y.sum)
  sisnr _ x y := .ok (x.sum - 100 * y.sum)
  fw _ _ _ x y := .ok (x.sum - 1000 * y.sum)
  stoi _ x y := .ok (2 * x.sum - y.sum)
  pesq _ x y _ := .ok (if x = y then 4 else 1)

def exDyn (l : List DynKind) : Except PyErr (DynKind → Nat) := .ok fun _ => l.length

/-- `n` samples: `o`, `o + 1`, ... -/
def exRamp (o : ℤ) (n : Nat) : List ℤ := (List.range n).map fun (i : Nat) => (i : ℤ) + o

/-- Eight samples, evaluated from the second to the seventh; three estimates of one kind each. -/
def exEvalArgs : EvalArgs ℤ where
  clean := exRamp 0 8
  noiseOnly := exRamp 1 8
  noisy := exRamp 2 8
  filtSpeech := exRamp 3 8
  filtNoise := exRamp 4 8
  filtSpeechC := some (exRamp 5 8)
  filtNoiseC := some (exRamp 6 8)
  enhan := some (exRamp 7 8)
  enhanC := some (exRamp 8 8)
  filtSpeechS := some (exRamp 9 8)
  filtNoiseS := some (exRamp 10 8)
  enhanS := some (exRamp 0 8)
  fs := 5
  vad := some [true]
  startIdx := 1
  endIdx := some 7
  wanted := ["snr", "sisnr", "fwSNRseg", "estoi", "pesq"]
  best := some ⟨exRamp 11 8, exRamp 12 8, exRamp 13 8, exRamp 14 8, 5⟩
  dynamic := some fun q => decide (q = .snr)

theorem exEvalArgs_given : exEvalArgs.Given (exRamp 7 8) (some ⟨exRamp 8 8, exRamp 5 8, exRamp 6 8⟩) none
    (some ⟨exRamp 0 8, exRamp 9 8, exRamp 10 8⟩) :=
  ⟨rfl, rfl, rfl, rfl, rfl, rfl, rfl, rfl, rfl, rfl⟩

theorem exEvalArgs_window : exEvalArgs.Window 1 7 1 :=
  ⟨rfl, .inl rfl, by show ((1 : Nat) : Int) = ⌊(5 : ℚ) / 5⌋; norm_num⟩

/-- The hypotheses of (a)-(d), (f), (h), (j) hold for a run with all metrics: values of the SNR, of the
speech-intelligibility-weighted SNR, of STOI and PESQ. -/
example : (match getMetrics exEvalFns exDyn exEvalArgs with
    | .ok d => some (d.snr, d.sisnr.map (·.after), d.stoi.map (·.afterSSBC), d.pesq.map (·.after))
    | .error _ => none) =
    some (some (⟨some (-598), -249, -411, -162, 0, 0, -519, 0, -735, 0, some 1⟩ : MetricVal ℤ Nat),
      some (-4461), some 21, some 0) := by
  rw [getMetrics_window exEvalArgs_window]
  decide +kernel

/-- The same at 8 kHz, over up to 2000 samples. -/
def exEvalArgs8 : EvalArgs ℤ := { exEvalArgs with fs := 8000, endIdx := some 2000, dynamic := none }

theorem exEvalArgs8_window : exEvalArgs8.Window 1 2000 1600 := by
  refine ⟨rfl, .inl rfl, ?_⟩
  show ((1600 : Nat) : Int) = ⌊(8000 : ℚ) / 5⌋
  norm_num

theorem exEvalArgs8_given : exEvalArgs8.Given (exRamp 7 8) (some ⟨exRamp 8 8, exRamp 5 8, exRamp 6 8⟩) none
    (some ⟨exRamp 0 8, exRamp 9 8, exRamp 10 8⟩) :=
  ⟨rfl, rfl, rfl, rfl, rfl, rfl, rfl, rfl, rfl, rfl⟩

/-- C100 (q), refuted: that the single-sensor-broadcast PESQ compares the estimate with the clean speech. Here
that estimate is the clean speech, and does not get the score of a perfect estimate (4): the score is
that of the estimate with respect to the filtered speech. -/
theorem C100_refuted_pesq_ssbc : exEvalArgs8.enhanS = some exEvalArgs8.clean ∧
    (∀ f u b, exEvalFns.pesq f u u b = .ok 4) ∧
    ∃ d M, getMetrics exEvalFns exDyn exEvalArgs8 = .ok d ∧ d.pesq = some M ∧ M.afterSSBC = 1 := by
  refine ⟨rfl, fun f u b => ?_, ?_⟩
  · show Except.ok (if u = u then (4 : ℤ) else 1) = _
    rw [if_pos rfl]
  · obtain ⟨d, hd⟩ := C100_total (F := exEvalFns) (dyn := exDyn) exEvalArgs8_given rfl
      (fun _ _ _ => ⟨_, rfl⟩) (fun _ _ _ _ => ⟨_, rfl⟩) (fun _ _ _ _ => ⟨_, rfl⟩)
      (fun _ _ _ _ => ⟨_, rfl⟩) (fun _ _ _ _ _ => ⟨_, rfl⟩) (fun on h => by cases h)
    obtain ⟨h1, h2⟩ := C100_pesq exEvalArgs8_given exEvalArgs8_window (by decide) (.inl rfl) hd
    obtain ⟨M, hM⟩ := Option.isSome_iff_exists.mp (h1.mpr (by decide))
    refine ⟨d, M, hd, hM, ?_⟩
    have := (h2 M hM).ssbc
    have e1 : evalSeg 1 2000 (exRamp 9 8) ≠ evalSeg 1 2000 (exRamp 0 8) := by decide +kernel
    simp only [Option.map_some, Option.getD_some, exEvalFns] at this
    rw [if_neg e1] at this
    injection this with this
    exact this.symm

/-- Without a dynamic metric that is not wanted, and with one (`C100_refuted_dynamic`): STOI is not wanted. -/
example : (match getMetrics exEvalFns exDyn { exEvalArgs with wanted := ["snr"] } with
    | .ok d => some (d.snr.isSome, d.stoi.isSome) | .error _ => none) = some (true, false) ∧
    (match getMetrics exEvalFns exDyn { exEvalArgs with wanted := ["stoi"] } with
      | .error e => some e | .ok _ => none) = some PyErr.unboundLocalError := by
  have h1 : EvalArgs.Window { exEvalArgs with wanted := ["snr"] } 1 7 1 :=
    ⟨exEvalArgs_window.start, exEvalArgs_window.stop, exEvalArgs_window.shift⟩
  have h2 : EvalArgs.Window { exEvalArgs with wanted := ["stoi"] } 1 7 1 :=
    ⟨exEvalArgs_window.start, exEvalArgs_window.stop, exEvalArgs_window.shift⟩
  rw [getMetrics_window h1, getMetrics_window h2]
  decide +kernel

/-- A window that ends before 0.2 s have passed: 8 of 1600 samples. -/
def exEvalArgsS : EvalArgs ℤ := { exEvalArgs8 with endIdx := some 8, wanted := ["snr"] }

theorem exEvalArgsS_given : exEvalArgsS.Given (exRamp 7 8) (some ⟨exRamp 8 8, exRamp 5 8, exRamp 6 8⟩) none
    (some ⟨exRamp 0 8, exRamp 9 8, exRamp 10 8⟩) :=
  ⟨rfl, rfl, rfl, rfl, rfl, rfl, rfl, rfl, rfl, rfl⟩

theorem exEvalArgsS_window : exEvalArgsS.Window 1 8 1600 := ⟨rfl, .inl rfl, exEvalArgs8_window.shift⟩

/-- The hypotheses of `C100_refuted_short_window`. -/
example : ∃ d M p, getMetrics exEvalFns exDyn exEvalArgsS = .ok d ∧ d.snr = some M ∧
    exEvalArgsS.best = some p := by
  obtain ⟨d, hd⟩ := C100_total (F := exEvalFns) (dyn := exDyn) exEvalArgsS_given rfl
      (fun _ _ _ => ⟨_, rfl⟩) (fun _ _ _ _ => ⟨_, rfl⟩) (fun _ _ _ _ => ⟨_, rfl⟩)
      (fun _ _ _ _ => ⟨_, rfl⟩) (fun _ _ _ _ _ => ⟨_, rfl⟩) (fun on h => by cases h)
  rw [getMetrics_window exEvalArgsS_window] at hd
  have hr := slot_reported contains_iff (metricsOn_inv exEvalArgsS_given hd).1
  obtain ⟨M, hM⟩ := Option.isSome_iff_exists.mp (hr.1.mpr (by decide))
  rw [← getMetrics_window exEvalArgsS_window] at hd
  exact ⟨d, M, _, hd, hM, rfl⟩

/-- The best estimate is the clean speech (`C100_refuted_pesq_best`): 4000 samples. -/
example : ∃ d M, getMetrics exEvalFns exDyn { exEvalArgs8 with
        clean := exRamp 0 4000, endIdx := some 4000,
        best := some ⟨exRamp 0 4000, [], [], [], 8000⟩ } = .ok d ∧ d.pesq = some M ∧
      1 + 2 * 1600 ≤ 4000 ∧ 4000 ≤ (exRamp 0 4000).length := by
  obtain ⟨d, hd⟩ := C100_total (F := exEvalFns) (dyn := exDyn) (a := { exEvalArgs8 with
        clean := exRamp 0 4000, endIdx := some 4000,
        best := some ⟨exRamp 0 4000, [], [], [], 8000⟩ })
      (x := exRamp 7 8) (c := some ⟨exRamp 8 8, exRamp 5 8, exRamp 6 8⟩) (l := none)
      (s := some ⟨exRamp 0 8, exRamp 9 8, exRamp 10 8⟩)
      ⟨rfl, rfl, rfl, rfl, rfl, rfl, rfl, rfl, rfl, rfl⟩ rfl
      (fun _ _ _ => ⟨_, rfl⟩) (fun _ _ _ _ => ⟨_, rfl⟩) (fun _ _ _ _ => ⟨_, rfl⟩)
      (fun _ _ _ _ => ⟨_, rfl⟩) (fun _ _ _ _ _ => ⟨_, rfl⟩) (fun on h => by cases h)
  have hw : EvalArgs.Window { exEvalArgs8 with
        clean := exRamp 0 4000, endIdx := some 4000,
        best := some ⟨exRamp 0 4000, [], [], [], 8000⟩ } 1 4000 1600 :=
    ⟨rfl, .inl rfl, exEvalArgs8_window.shift⟩
  obtain ⟨h1, -⟩ := C100_pesq (x := exRamp 7 8) (c := some ⟨exRamp 8 8, exRamp 5 8, exRamp 6 8⟩) (l := none)
      (s := some ⟨exRamp 0 8, exRamp 9 8, exRamp 10 8⟩)
      ⟨rfl, rfl, rfl, rfl, rfl, rfl, rfl, rfl, rfl, rfl⟩ hw (by decide) (.inl rfl) hd
  obtain ⟨M, hM⟩ := Option.isSome_iff_exists.mp (h1.mpr (by decide))
  refine ⟨d, M, hd, hM, by decide, ?_⟩
  unfold exRamp
  rw [List.length_map, List.length_range]

/-! A network of two nodes with sampling frequencies 5 and 10 Hz. -/

def exEvalNodes : Fin 2 → EvalNode ℤ := fun k =>
  { metricStartTime := 1 / 2, metricEndTime := 2, fs := 5 * (k.val + 1), clean := exRamp k.val 30,
    noise := exRamp 1 30, noisy := exRamp 2 30, vad := [] }

def exRunSigs (o : ℤ) : RunSigs 2 ℤ :=
  ⟨fun k => exRamp (o + k.val) 30, fun _ => exRamp (o + 5) 30, fun _ => exRamp (o + 7) 30, fun _ => []⟩

def exEvalSettings : EvalSettings := ⟨false, 4, true, false, false, true, none, 1 / 5, 1⟩

example : ∃ ms, computeMetrics exEvalFns (fun _ => exDyn) (driverOut exEvalSettings (exRunSigs 0)
      (exRunSigs 3) (exRunSigs 6) fun _ => ⟨[], exRamp 1 30, [], [], 5⟩) exEvalNodes ["snr", "stoi"] = .ok ms := by
  unfold computeMetrics
  have hn : ∀ k, ∃ m, nodeMetrics exEvalFns (fun _ => exDyn) (driverOut exEvalSettings (exRunSigs 0)
      (exRunSigs 3) (exRunSigs 6) fun _ => ⟨[], exRamp 1 30, [], [], 5⟩) exEvalNodes ["snr", "stoi"] k = .ok m := by
    intro k
    rw [nodeMetrics_driver rfl rfl]
    exact C100_total (driverArgs_given _ _ _ _ _ _ _ _) rfl
      (fun _ _ _ => ⟨_, rfl⟩) (fun _ _ _ _ => ⟨_, rfl⟩) (fun _ _ _ _ => ⟨_, rfl⟩)
      (fun _ _ _ _ => ⟨_, rfl⟩) (fun _ _ _ _ _ => ⟨_, rfl⟩) (fun on h => by cases h)
  obtain ⟨m0, h0⟩ := hn 0
  obtain ⟨m1, h1⟩ := hn 1
  exact ⟨[m0, m1], by
    rw [show List.finRange 2 = [0, 1] from rfl, List.mapM_cons, h0, List.mapM_cons, h1]
    rfl⟩

example : ((2 : Nat) : Int) = ⌊(exEvalNodes 0).metricStartTime * (exEvalNodes 0).fs⌋ ∧
    ((10 : Nat) : Int) = ⌊(exEvalNodes 0).metricEndTime * (exEvalNodes 0).fs⌋ ∧
    ((1 : Nat) : Int) = ⌊(exEvalNodes 0).fs / 5⌋ := by
  refine ⟨?_, ?_, ?_⟩
  · show ((2 : Nat) : Int) = ⌊(1 / 2 : ℚ) * (5 * (((0 : Nat) : ℚ) + 1))⌋
    rw [eq_comm, Int.floor_eq_iff]; norm_num
  · show ((10 : Nat) : Int) = ⌊(2 : ℚ) * (5 * (((0 : Nat) : ℚ) + 1))⌋
    norm_num
  · show ((1 : Nat) : Int) = ⌊(5 : ℚ) * (((0 : Nat) : ℚ) + 1) / 5⌋
    norm_num

/-- A batch run whose outputs have been completed by hand: 30 samples of which the last 25 are left out. -/
def exBatchOut : EvalOut 2 ℤ :=
  ⟨true, 25, ⟨fun _ => exRamp 0 30, some (fun _ => exRamp 1 30, fun _ => exRamp 2 30)⟩, none, none, none,
    some fun _ => ⟨exRamp 3 30, exRamp 4 30, exRamp 5 30, [], 5⟩, none, 1 / 5, 1⟩

/-- The hypotheses of (q): the window ends after 5 samples instead of 10. -/
example : (∃ d, nodeMetrics exEvalFns (fun _ => exDyn) exBatchOut exEvalNodes ["snr"] 0 = .ok d) ∧
    ((5 : Nat) : Int) = min ⌊(exEvalNodes 0).metricEndTime * (exEvalNodes 0).fs⌋
      ((exEvalNodes 0).clean.length - exBatchOut.dftSize) := by
  constructor
  · unfold nodeMetrics
    simp only [exBatchOut, columns, bind, Except.bind]
    exact C100_total (x := exRamp 0 30) (c := none) (l := none) (s := none)
      ⟨rfl, rfl, rfl, rfl, rfl, rfl, rfl, rfl, rfl, rfl⟩ rfl
      (fun _ _ _ => ⟨_, rfl⟩) (fun _ _ _ _ => ⟨_, rfl⟩) (fun _ _ _ _ => ⟨_, rfl⟩)
      (fun _ _ _ _ => ⟨_, rfl⟩) (fun _ _ _ _ _ => ⟨_, rfl⟩) (fun on h => by cases h)
  · have h1 : ⌊(exEvalNodes 0).metricEndTime * (exEvalNodes 0).fs⌋ = 10 := by
      show ⌊(2 : ℚ) * (5 * (((0 : Nat) : ℚ) + 1))⌋ = 10
      norm_num
    have h2 : (exEvalNodes 0).clean.length = 30 := rfl
    rw [h1, h2]
    rfl

end Danse
