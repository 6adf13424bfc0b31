import Verif.Proofs.Evaluate

/-! # C100: the evaluation of a run -/

namespace Danse

set_option linter.unusedSectionVars false

section
variable {A V D : Type} [Add A] [Zero V] [Sub V] {F : EvalFns A V}
  {dyn : List DynKind → Except PyErr (DynKind → D)} {a : EvalArgs A} {x : List A}
  {c l s : Option (EstTriple A)} {d : MetricsDict V D} {i e sh : Nat}

theorem slot_reported {w : Bool} {p : Prop} {m : Option (MetricVal V D)} {b r : Except PyErr V}
    {c l s best : Option (Except PyErr V)} (hw : w = true ↔ p) (h : Slot w m b r c l s best) :
    Reported p m b r c l s best := by
  rcases h with ⟨h1, h2⟩ | ⟨h1, M, h2, h3⟩
  · subst h1 h2
    exact ⟨by simpa using hw, fun M hM => by cases hM⟩
  · subst h1 h2
    exact ⟨by simpa using hw, fun M' hM => by injection hM with hM; exact hM ▸ h3⟩

/-- The bounds of the slices. -/
theorem getMetrics_window (hw : a.Window i e sh) :
    getMetrics F dyn a = metricsOn F dyn a (evalSeg i e)
      (fun x => pySlice x ((i + sh : Nat) : Int) ((e : Int) - sh)) := by
  have h1 : pyInt (1 / 5 * a.fs) = sh := by
    rw [hw.shift, show 1 / 5 * a.fs = a.fs / 5 by ring]
    unfold pyInt
    have : (0 : Int) ≤ ⌊a.fs / 5⌋ := by rw [← hw.shift]; omega
    rw [if_pos (Int.floor_nonneg.mp this)]
  have h2 : a.endIdx.getD a.clean.length = e := by
    rcases hw.stop with h | ⟨h, h'⟩
    · rw [h]; rfl
    · rw [h, h']; rfl
  unfold getMetrics
  simp only
  rw [h1, h2, hw.start]
  congr 1
  funext x
  exact pySlice_evalSeg x i e

theorem cutBest_evalSeg (hle : sh ≤ e) (x : List A) :
    pySlice x ((i + sh : Nat) : Int) ((e : Int) - sh) = evalSeg (i + sh) (e - sh) x := by
  rw [← pySlice_evalSeg, Nat.cast_sub hle]

theorem contains_iff {w : List String} {m : String} : w.contains m = true ↔ m ∈ w := List.contains_iff_mem

theorem not_wanted {w : List String} {m : String} (h : w.contains m = false) :
    (none : Option (MetricVal V D)).isSome ↔ m ∈ w :=
  ⟨fun h => (by cases h), fun h' => by rw [contains_iff.mpr h'] at h; cases h⟩

theorem okBind {T U : Type} (x : T) (f : T → Except PyErr U) :
    ((Except.ok x : Except PyErr T) >>= f) = f x := rfl

/-- C100 (a): SNR. All scores are computed on the samples from `i` to `e - 1`: before from the clean speech
and noise, after from the filtered speech and noise, and so on; the best performance on 0.2 s less
at both ends. -/
theorem C100_snr (hg : a.Given x c l s) (hw : a.Window i e sh) (hle : sh ≤ e)
    (h : getMetrics F dyn a = .ok d) :
    Reported ("snr" ∈ a.wanted) d.snr (F.snr (evalSeg i e a.clean) (evalSeg i e a.noiseOnly))
      (F.snr (evalSeg i e a.filtSpeech) (evalSeg i e a.filtNoise))
      (c.map fun t => F.snr (evalSeg i e t.speech) (evalSeg i e t.noise))
      (l.map fun t => F.snr (evalSeg i e t.speech) (evalSeg i e t.noise))
      (s.map fun t => F.snr (evalSeg i e t.speech) (evalSeg i e t.noise))
      (a.best.map fun p => F.snr (evalSeg (i + sh) (e - sh) p.speech) (evalSeg (i + sh) (e - sh) p.noise)) := by
  rw [getMetrics_window hw] at h
  have := (metricsOn_inv hg h).1
  simp only [cutBest_evalSeg hle] at this
  exact slot_reported contains_iff this

/-- C100 (b): speech-intelligibility-weighted SNR, of the same signals. -/
theorem C100_sisnr (hg : a.Given x c l s) (hw : a.Window i e sh) (hle : sh ≤ e)
    (h : getMetrics F dyn a = .ok d) :
    Reported ("sisnr" ∈ a.wanted) d.sisnr (F.sisnr a.fs (evalSeg i e a.clean) (evalSeg i e a.noiseOnly))
      (F.sisnr a.fs (evalSeg i e a.filtSpeech) (evalSeg i e a.filtNoise))
      (c.map fun t => F.sisnr a.fs (evalSeg i e t.speech) (evalSeg i e t.noise))
      (l.map fun t => F.sisnr a.fs (evalSeg i e t.speech) (evalSeg i e t.noise))
      (s.map fun t => F.sisnr a.fs (evalSeg i e t.speech) (evalSeg i e t.noise))
      (a.best.map fun p =>
        F.sisnr p.fs (evalSeg (i + sh) (e - sh) p.speech) (evalSeg (i + sh) (e - sh) p.noise)) := by
  rw [getMetrics_window hw] at h
  have := (metricsOn_inv hg h).2.1
  simp only [cutBest_evalSeg hle] at this
  exact slot_reported contains_iff this

/-- C100 (c): segmental SNR, of the noisy signal and of the estimates with respect to the clean speech. -/
theorem C100_fwsnrseg (hg : a.Given x c l s) (hw : a.Window i e sh) (hle : sh ≤ e)
    (h : getMetrics F dyn a = .ok d) :
    Reported ("fwSNRseg" ∈ a.wanted) d.fw
      (F.fw a.fs a.fLen a.gamma (evalSeg i e a.clean) (evalSeg i e a.noisy))
      (F.fw a.fs a.fLen a.gamma (evalSeg i e a.clean) (evalSeg i e x))
      (c.map fun t => F.fw a.fs a.fLen a.gamma (evalSeg i e a.clean) (evalSeg i e t.est))
      (l.map fun t => F.fw a.fs a.fLen a.gamma (evalSeg i e a.clean) (evalSeg i e t.est))
      (s.map fun t => F.fw a.fs a.fLen a.gamma (evalSeg i e a.clean) (evalSeg i e t.est))
      (a.best.map fun p => F.fw p.fs a.fLen a.gamma (evalSeg (i + sh) (e - sh) p.clean)
        (evalSeg (i + sh) (e - sh) p.dCentr)) := by
  rw [getMetrics_window hw] at h
  have := (metricsOn_inv hg h).2.2.1
  simp only [cutBest_evalSeg hle] at this
  exact slot_reported contains_iff this

/-- C100 (d): extended STOI (either name), likewise. -/
theorem C100_stoi (hg : a.Given x c l s) (hw : a.Window i e sh) (hle : sh ≤ e)
    (h : getMetrics F dyn a = .ok d) :
    Reported ("stoi" ∈ a.wanted ∨ "estoi" ∈ a.wanted) d.stoi
      (F.stoi a.fs (evalSeg i e a.clean) (evalSeg i e a.noisy)) (F.stoi a.fs (evalSeg i e a.clean) (evalSeg i e x))
      (c.map fun t => F.stoi a.fs (evalSeg i e a.clean) (evalSeg i e t.est))
      (l.map fun t => F.stoi a.fs (evalSeg i e a.clean) (evalSeg i e t.est))
      (s.map fun t => F.stoi a.fs (evalSeg i e a.clean) (evalSeg i e t.est))
      (a.best.map fun p =>
        F.stoi p.fs (evalSeg (i + sh) (e - sh) p.clean) (evalSeg (i + sh) (e - sh) p.dCentr)) := by
  rw [getMetrics_window hw] at h
  have := (metricsOn_inv hg h).2.2.2.1
  simp only [cutBest_evalSeg hle] at this
  refine slot_reported ?_ this
  rw [Bool.or_eq_true, contains_iff, contains_iff]

theorem MetricVal.Is.ofDyn {M : MetricVal V D} {b r : Except PyErr V} {c l s best : Option (Except PyErr V)}
    (h : M.Is b r c l s best) (y : Option D) : ({ M with dynamic := y } : MetricVal V D).Is b r c l s best :=
  ⟨h.before, h.after, h.diff, h.centr, h.loc, h.ssbc, h.best, h.diffs⟩

/-- C100 (e): PESQ at 8 kHz (narrow band) and 16 kHz (wide band): likewise, but for two exceptions. The
reference of the single-sensor-broadcast estimate is not the clean speech but its own filtered speech,
and the reference of the best performance is not cut like the best-performance signal, so the two
are misaligned by 0.2 s (refuted: `C100_refuted_pesq_ssbc`, `C100_refuted_pesq_best`). -/
theorem C100_pesq (hg : a.Given x c l s) (hw : a.Window i e sh) (hle : sh ≤ e)
    (hfs : a.fs = 8000 ∨ a.fs = 16000) (h : getMetrics F dyn a = .ok d) :
    Reported ("pesq" ∈ a.wanted) d.pesq
      (F.pesq a.fs (evalSeg i e a.clean) (evalSeg i e a.noisy) (decide (a.fs = 16000)))
      (F.pesq a.fs (evalSeg i e a.clean) (evalSeg i e x) (decide (a.fs = 16000)))
      (c.map fun t => F.pesq a.fs (evalSeg i e a.clean) (evalSeg i e t.est) (decide (a.fs = 16000)))
      (l.map fun t => F.pesq a.fs (evalSeg i e a.clean) (evalSeg i e t.est) (decide (a.fs = 16000)))
      (s.map fun t => F.pesq a.fs (evalSeg i e t.speech) (evalSeg i e t.est) (decide (a.fs = 16000)))
      (a.best.map fun p =>
        F.pesq p.fs (evalSeg i e a.clean) (evalSeg (i + sh) (e - sh) p.dCentr) (decide (a.fs = 16000))) := by
  rw [getMetrics_window hw] at h
  obtain ⟨q, hq, hd⟩ := (metricsOn_inv hg h).2.2.2.2
  simp only [cutBest_evalSeg hle] at hq
  rcases whenWanted_inv hq with ⟨h1, M, h2, h3⟩ | ⟨h1, h2⟩
  · rcases hd with ⟨h4, _⟩ | ⟨M', y, h4, h5⟩
    · rw [h3] at h4; cases h4
    · rw [h3] at h4
      injection h4 with h4
      subst h4
      have := pesq_slot hfs h2
      rw [h5]
      refine ⟨by simpa using contains_iff.mp h1, fun M'' hM => ?_⟩
      injection hM with hM
      subst hM
      have := this.ofDyn y
      simp only [Option.map_map] at this
      exact this
  · rcases hd with ⟨_, h5⟩ | ⟨M', y, h4, _⟩
    · rw [h5]
      exact ⟨not_wanted h1, fun M hM => by cases hM⟩
    · rw [h2] at h4; cases h4

/-- C100 (f): at other sampling frequencies PESQ is not computed: all scores are 0. -/
theorem C100_pesq_other_rates (hg : a.Given x c l s) (hfs : ¬ (a.fs = 8000 ∨ a.fs = 16000))
    (h : getMetrics F dyn a = .ok d) :
    (d.pesq.isSome ↔ "pesq" ∈ a.wanted) ∧
      ∀ M, d.pesq = some M → M.best = none ∧ M.before = 0 ∧ M.after = 0 ∧ M.diff = 0 ∧
        M.afterCentr = 0 ∧ M.afterLocal = 0 ∧ M.afterSSBC = 0 := by
  unfold getMetrics at h
  simp only at h
  obtain ⟨q, hq, hd⟩ := (metricsOn_inv hg h).2.2.2.2
  unfold pesqMetric at hq
  rw [if_neg hfs] at hq
  rcases whenWanted_inv hq with ⟨h1, M, h2, h3⟩ | ⟨h1, h2⟩
  · injection h2 with h2
    subst h2
    rcases hd with ⟨h4, _⟩ | ⟨M', y, h4, h5⟩
    · rw [h3] at h4; cases h4
    · rw [h3] at h4
      injection h4 with h4
      subst h4
      rw [h5]
      refine ⟨by simpa using contains_iff.mp h1, fun M'' hM => ?_⟩
      injection hM with hM
      subst hM
      exact ⟨rfl, rfl, rfl, rfl, rfl, rfl, rfl⟩
  · rcases hd with ⟨_, h5⟩ | ⟨M', y, h4, _⟩
    · rw [h5]
      exact ⟨not_wanted h1, fun M hM => by cases hM⟩
    · rw [h2] at h4; cases h4

/-- C100 (g), refuted: that the best performance is evaluated inside the window. If the window ends less than
0.2 s after the beginning of the recording, the end is counted from the end of the signals: samples
long after the window are used. -/
theorem C100_refuted_short_window (hg : a.Given x c l s) (hw : a.Window i e sh) (hlt : e < sh)
    (h : getMetrics F dyn a = .ok d) {p : BestCol A} (hp : a.best = some p)
    {M : MetricVal V D} (hM : d.snr = some M) :
    ∃ v, M.best = some v ∧ F.snr (evalSeg (i + sh) (p.speech.length - (sh - e)) p.speech)
      (evalSeg (i + sh) (p.noise.length - (sh - e)) p.noise) = .ok v := by
  rw [getMetrics_window hw] at h
  have hr := slot_reported contains_iff (metricsOn_inv hg h).1
  have hb := (hr.2 M hM).best
  have hc : ∀ y : List A, pySlice y ((i + sh : Nat) : Int) ((e : Int) - sh) =
      evalSeg (i + sh) (y.length - (sh - e)) y := by
    intro y
    rw [← pySlice_evalSeg]
    unfold pySlice pySliceBound
    simp only
    rw [if_pos (by omega : (e : Int) - sh < 0), if_neg (by omega : ¬ (((y.length - (sh - e) : Nat) : Int) < 0))]
    congr 2
    omega
  rw [hp] at hb
  simp only [Option.map_some, hc] at hb
  cases hv : M.best with
  | none => rw [hv] at hb; cases hb
  | some v =>
    rw [hv] at hb
    injection hb with hb
    exact ⟨v, rfl, hb⟩

theorem MetricVal.Is.unique {M M' : MetricVal V D} {b r : Except PyErr V}
    {c l s best : Option (Except PyErr V)} (h : M.Is b r c l s best) (h' : M'.Is b r c l s best) :
    M.SameAs M' := by
  have inj : ∀ {u v : V}, (Except.ok u : Except PyErr V) = .ok v → u = v := fun h => by
    injection h
  have e1 := inj (h.before.symm.trans h'.before)
  have e2 := inj (h.after.symm.trans h'.after)
  have e3 := inj (h.centr.symm.trans h'.centr)
  have e4 := inj (h.loc.symm.trans h'.loc)
  have e5 := inj (h.ssbc.symm.trans h'.ssbc)
  have e6 : M.best = M'.best := by
    have := h.best.symm.trans h'.best
    cases h1 : M.best <;> cases h2 : M'.best <;> rw [h1, h2] at this <;> first | rfl | cases this
    rfl
  have e7 : M.diff = M'.diff := by rw [h.diff, h'.diff, e1, e2]
  obtain ⟨a1, a2, a3⟩ := h.diffs
  obtain ⟨b1, b2, b3⟩ := h'.diffs
  unfold MetricVal.SameAs
  cases M
  cases M'
  simp only at *
  subst e1 e2 e3 e4 e5 e6 e7 a1 a2 a3 b1 b2 b3
  rfl

/-- C100 (h): asking for more metrics, or for dynamic ones, does not change a metric. -/
theorem C100_independent (hg : a.Given x c l s) (hw : a.Window i e sh) (hle : sh ≤ e)
    {wanted : List String} {dynamic : Option (DynKind → Bool)} {d' : MetricsDict V D}
    (h : getMetrics F dyn a = .ok d)
    (h' : getMetrics F dyn { a with wanted := wanted, dynamic := dynamic } = .ok d') :
    (∀ M M', d.snr = some M → d'.snr = some M' → M.SameAs M') ∧
    (∀ M M', d.sisnr = some M → d'.sisnr = some M' → M.SameAs M') ∧
    (∀ M M', d.fw = some M → d'.fw = some M' → M.SameAs M') ∧
    (∀ M M', d.stoi = some M → d'.stoi = some M' → M.SameAs M') ∧
    ((a.fs = 8000 ∨ a.fs = 16000) → ∀ M M', d.pesq = some M → d'.pesq = some M' → M.SameAs M') := by
  have hg' : EvalArgs.Given { a with wanted := wanted, dynamic := dynamic } x c l s :=
    ⟨hg.enhan, hg.eC, hg.sC, hg.nC, hg.eL, hg.sL, hg.nL, hg.eS, hg.sS, hg.nS⟩
  have hw' : EvalArgs.Window { a with wanted := wanted, dynamic := dynamic } i e sh :=
    ⟨hw.start, hw.stop, hw.shift⟩
  refine ⟨fun M M' h1 h2 => ?_, fun M M' h1 h2 => ?_, fun M M' h1 h2 => ?_, fun M M' h1 h2 => ?_,
    fun hfs M M' h1 h2 => ?_⟩
  · exact ((C100_snr hg hw hle h).2 M h1).unique ((C100_snr hg' hw' hle h').2 M' h2)
  · exact ((C100_sisnr hg hw hle h).2 M h1).unique ((C100_sisnr hg' hw' hle h').2 M' h2)
  · exact ((C100_fwsnrseg hg hw hle h).2 M h1).unique ((C100_fwsnrseg hg' hw' hle h').2 M' h2)
  · exact ((C100_stoi hg hw hle h).2 M h1).unique ((C100_stoi hg' hw' hle h').2 M' h2)
  · exact ((C100_pesq hg hw hle hfs h).2 M h1).unique ((C100_pesq hg' hw' hle hfs h').2 M' h2)

/-- C100 (i): without a voice-activity vector (the default of the argument) every call fails, although the
VAD is not used for any score. -/
theorem C100_refuted_no_vad (hg : a.Given x c l s) (hv : a.vad = none) :
    getMetrics F dyn a = .error .typeError := by
  unfold getMetrics metricsOn
  have h1 : ∀ cut : List A → List A, enhanOf a cut = .error .typeError := by
    intro cut
    unfold enhanOf
    rw [hv, hg.enhan]
    cases a.enhanC.isSome || a.enhanL.isSome || a.enhanS.isSome <;> rfl
  simp only [h1]
  rfl

theorem whenWanted_ok {T : Type} {w : Bool} {m : Except PyErr T} (h : w = true → ∃ t, m = .ok t) :
    ∃ r : Option T, whenWanted w m = .ok r ∧ (r.isSome ↔ w = true) := by
  unfold whenWanted
  cases w with
  | true => obtain ⟨t, rfl⟩ := h rfl; exact ⟨some t, rfl, by simp⟩
  | false => exact ⟨none, rfl, by simp⟩

theorem addScore_ok {score : Except PyErr V} {set : MetricVal V D → V → MetricVal V D}
    {m : Option (MetricVal V D)} (h : m.isSome → ∃ v, score = .ok v) :
    ∃ r : Option (MetricVal V D), addScore true score set m = .ok r ∧ (r.isSome ↔ m.isSome) := by
  cases m with
  | none => exact ⟨none, rfl, Iff.rfl⟩
  | some y =>
    obtain ⟨v, rfl⟩ := h rfl
    exact ⟨some (set y v), rfl, by simp⟩

theorem extraScores_ok {F : EvalFns A V} {a : EvalArgs A} {clean : List A} {t : Option (EstTriple A)}
    {set : MetricVal V D → V → MetricVal V D} {m : MetricsDict V D}
    (h1 : m.snr.isSome → ∀ u v, ∃ r, F.snr u v = .ok r)
    (h2 : m.sisnr.isSome → ∀ f u v, ∃ r, F.sisnr f u v = .ok r)
    (h3 : m.fw.isSome → ∀ f u v, ∃ r, F.fw f a.fLen a.gamma u v = .ok r)
    (h4 : m.stoi.isSome → ∀ f u v, ∃ r, F.stoi f u v = .ok r) :
    ∃ m', extraScores F a clean (t.map (·.est)) (t.map (·.speech)) (t.map (·.noise)) set m = .ok m' ∧
      (m'.snr.isSome ↔ m.snr.isSome) ∧ (m'.sisnr.isSome ↔ m.sisnr.isSome) ∧ (m'.fw.isSome ↔ m.fw.isSome) ∧
      (m'.stoi.isSome ↔ m.stoi.isSome) ∧ m'.pesq = m.pesq := by
  unfold extraScores
  cases t with
  | none => exact ⟨m, rfl, Iff.rfl, Iff.rfl, Iff.rfl, Iff.rfl, rfl⟩
  | some t =>
    obtain ⟨r1, e1, i1⟩ := addScore_ok (set := set) (fun h => h1 h t.speech t.noise)
    obtain ⟨r2, e2, i2⟩ := addScore_ok (set := set) (fun h => h2 h a.fs t.speech t.noise)
    obtain ⟨r3, e3, i3⟩ := addScore_ok (set := set) (fun h => h3 h a.fs clean t.est)
    obtain ⟨r4, e4, i4⟩ := addScore_ok (set := set) (fun h => h4 h a.fs clean t.est)
    refine ⟨⟨r1, r2, r3, r4, m.pesq⟩, ?_, i1, i2, i3, i4, rfl⟩
    simp only [Option.map_some, onBoth, e1, e2, e3, e4]
    rfl

theorem attachDyn_ok {on : Bool} {v : D} {m : Option (MetricVal V D)} (h : on = true → m.isSome) :
    ∃ r, attachDyn on v m = .ok r := by
  unfold attachDyn
  cases on with
  | false => exact ⟨m, rfl⟩
  | true =>
    cases m with
    | none => cases h rfl
    | some y => exact ⟨_, rfl⟩

/-- The metric of a dynamic function is wanted. -/
def dynWanted (a : EvalArgs A) : DynKind → Prop
  | .snr => "snr" ∈ a.wanted
  | .fw => "fwSNRseg" ∈ a.wanted
  | .stoi => "stoi" ∈ a.wanted ∨ "estoi" ∈ a.wanted
  | .pesq => "pesq" ∈ a.wanted

/-- What happens up to the dynamic metrics, if the wanted scores can be computed. -/
theorem metricsOn_upto (hg : a.Given x c l s) (hv : a.vad.isSome) (cut cutBest : List A → List A)
    (h1 : "snr" ∈ a.wanted → ∀ u v, ∃ r, F.snr u v = .ok r)
    (h2 : "sisnr" ∈ a.wanted → ∀ f u v, ∃ r, F.sisnr f u v = .ok r)
    (h3 : "fwSNRseg" ∈ a.wanted → ∀ f u v, ∃ r, F.fw f a.fLen a.gamma u v = .ok r)
    (h4 : "stoi" ∈ a.wanted ∨ "estoi" ∈ a.wanted → ∀ f u v, ∃ r, F.stoi f u v = .ok r)
    (h5 : "pesq" ∈ a.wanted → ∀ f u v b, ∃ r, F.pesq f u v b = .ok r) :
    ∃ m : MetricsDict V D, (m.snr.isSome ↔ dynWanted a .snr) ∧ (m.fw.isSome ↔ dynWanted a .fw) ∧
      (m.stoi.isSome ↔ dynWanted a .stoi) ∧ (m.pesq.isSome ↔ dynWanted a .pesq) ∧
      metricsOn F dyn a cut cutBest = (match a.dynamic with
        | none => .ok m
        | some on => addDynamic dyn on m) := by
  have b1 := whenWanted_ok (w := a.wanted.contains "snr") (m := baseMetric (D := D)
    (F.snr (cut a.clean) (cut a.noiseOnly)) (F.snr (cut a.filtSpeech) (cut a.filtNoise))
    (a.best.map fun p => F.snr (cutBest p.speech) (cutBest p.noise))) (fun hw => by
      have := h1 (contains_iff.mp hw)
      refine baseMetric_ok (this _ _) (this _ _) fun y hy => ?_
      obtain ⟨p, _, rfl⟩ := Option.map_eq_some_iff.mp hy
      exact this _ _)
  have b2 := whenWanted_ok (w := a.wanted.contains "sisnr") (m := baseMetric (D := D)
    (F.sisnr a.fs (cut a.clean) (cut a.noiseOnly)) (F.sisnr a.fs (cut a.filtSpeech) (cut a.filtNoise))
    (a.best.map fun p => F.sisnr p.fs (cutBest p.speech) (cutBest p.noise))) (fun hw => by
      have := h2 (contains_iff.mp hw)
      refine baseMetric_ok (this _ _ _) (this _ _ _) fun y hy => ?_
      obtain ⟨p, _, rfl⟩ := Option.map_eq_some_iff.mp hy
      exact this _ _ _)
  have b3 := whenWanted_ok (w := a.wanted.contains "fwSNRseg") (m := baseMetric (D := D)
    (F.fw a.fs a.fLen a.gamma (cut a.clean) (cut a.noisy)) (F.fw a.fs a.fLen a.gamma (cut a.clean) (cut x))
    (a.best.map fun p => F.fw p.fs a.fLen a.gamma (cutBest p.clean) (cutBest p.dCentr))) (fun hw => by
      have := h3 (contains_iff.mp hw)
      refine baseMetric_ok (this _ _ _) (this _ _ _) fun y hy => ?_
      obtain ⟨p, _, rfl⟩ := Option.map_eq_some_iff.mp hy
      exact this _ _ _)
  have hst : (a.wanted.contains "stoi" || a.wanted.contains "estoi") = true ↔
      "stoi" ∈ a.wanted ∨ "estoi" ∈ a.wanted := by
    rw [Bool.or_eq_true, contains_iff, contains_iff]
  have b4 := whenWanted_ok (w := a.wanted.contains "stoi" || a.wanted.contains "estoi")
    (m := baseMetric (D := D) (F.stoi a.fs (cut a.clean) (cut a.noisy)) (F.stoi a.fs (cut a.clean) (cut x))
    (a.best.map fun p => F.stoi p.fs (cutBest p.clean) (cutBest p.dCentr))) (fun hw => by
      have := h4 (hst.mp hw)
      refine baseMetric_ok (this _ _ _) (this _ _ _) fun y hy => ?_
      obtain ⟨p, _, rfl⟩ := Option.map_eq_some_iff.mp hy
      exact this _ _ _)
  obtain ⟨x1, e1, i1⟩ := b1
  obtain ⟨x2, e2, i2⟩ := b2
  obtain ⟨x3, e3, i3⟩ := b3
  obtain ⟨x4, e4, i4⟩ := b4
  rw [contains_iff] at i1 i2 i3
  rw [hst] at i4
  let sc := s.map (EstTriple.cut cut)
  have b5 := whenWanted_ok (w := a.wanted.contains "pesq") (m := pesqMetric (D := D) F a.fs (cut a.clean)
    (cut a.noisy) (cut x) ((c.map (EstTriple.cut cut)).map (·.est)) ((l.map (EstTriple.cut cut)).map (·.est))
    (sc.map (·.est)) (sc.map (·.speech)) (a.best.map fun p => (p.fs, cutBest p.dCentr))) (fun hw => by
      have hp := h5 (contains_iff.mp hw)
      unfold pesqMetric
      by_cases hfs : a.fs = 8000 ∨ a.fs = 16000
      · rw [if_pos hfs]
        obtain ⟨v1, q1⟩ := hp a.fs (cut a.clean) (cut a.noisy) (decide (a.fs = 16000))
        obtain ⟨v2, q2⟩ := hp a.fs (cut a.clean) (cut x) (decide (a.fs = 16000))
        have g : ∀ o : Option (List A), ∃ v, (o.map fun y =>
            F.pesq a.fs (cut a.clean) y (decide (a.fs = 16000))).getD (.ok 0) = .ok v := by
          intro o
          cases o with
          | none => exact ⟨0, rfl⟩
          | some y => exact hp _ _ _ _
        obtain ⟨v3, q3⟩ := g ((c.map (EstTriple.cut cut)).map (·.est))
        obtain ⟨v4, q4⟩ := g ((l.map (EstTriple.cut cut)).map (·.est))
        have g' : ∃ v, ((sc.map (·.est)).map fun y => onBoth .typeError
            (fun r d => F.pesq a.fs r d (decide (a.fs = 16000))) (sc.map (·.speech)) (some y)).getD (.ok 0) =
            .ok v := by
          cases sc with
          | none => exact ⟨0, rfl⟩
          | some y => exact hp _ _ _ _
        obtain ⟨v5, q5⟩ := g'
        have g'' : ∃ v, sequenceOpt ((a.best.map fun p => (p.fs, cutBest p.dCentr)).map fun p =>
            F.pesq p.1 (cut a.clean) p.2 (decide (a.fs = 16000))) = .ok v := by
          cases a.best with
          | none => exact ⟨none, rfl⟩
          | some p =>
            obtain ⟨v, hv⟩ := hp p.fs (cut a.clean) (cutBest p.dCentr) (decide (a.fs = 16000))
            refine ⟨some v, ?_⟩
            show (F.pesq p.fs (cut a.clean) (cutBest p.dCentr) (decide (a.fs = 16000))).map some = _
            rw [hv]
            rfl
        obtain ⟨v6, q6⟩ := g''
        simp only [q1, q2, q3, q4, q5, q6]
        exact ⟨_, rfl⟩
      · rw [if_neg hfs]
        exact ⟨_, rfl⟩)
  obtain ⟨x5, e5, i5⟩ := b5
  rw [contains_iff] at i5
  obtain ⟨m1, f1, j1, j2, j3, j4, j5⟩ := extraScores_ok (F := F) (a := a) (clean := cut a.clean)
    (t := c.map (EstTriple.cut cut)) (set := fun y v => { y with afterCentr := v })
    (m := (⟨x1, x2, x3, x4, x5⟩ : MetricsDict V D))
    (fun h => h1 (i1.mp h)) (fun h => h2 (i2.mp h)) (fun h => h3 (i3.mp h)) (fun h => h4 (i4.mp h))
  obtain ⟨m2, f2, k1, k2, k3, k4, k5⟩ := extraScores_ok (F := F) (a := a) (clean := cut a.clean)
    (t := l.map (EstTriple.cut cut)) (set := fun y v => { y with afterLocal := v }) (m := m1)
    (fun h => h1 (i1.mp (j1.mp h))) (fun h => h2 (i2.mp (j2.mp h))) (fun h => h3 (i3.mp (j3.mp h)))
    (fun h => h4 (i4.mp (j4.mp h)))
  obtain ⟨m3, f3, l1, l2, l3, l4, l5⟩ := extraScores_ok (F := F) (a := a) (clean := cut a.clean)
    (t := s.map (EstTriple.cut cut)) (set := fun y v => { y with afterSSBC := v }) (m := m2)
    (fun h => h1 (i1.mp (j1.mp (k1.mp h)))) (fun h => h2 (i2.mp (j2.mp (k2.mp h))))
    (fun h => h3 (i3.mp (j3.mp (k3.mp h)))) (fun h => h4 (i4.mp (j4.mp (k4.mp h))))
  refine ⟨m3, l1.trans (k1.trans (j1.trans i1)), l3.trans (k3.trans (j3.trans i3)),
    l4.trans (k4.trans (j4.trans i4)), by rw [l5, k5, j5]; exact i5, ?_⟩
  have hen : enhanOf a cut = .ok (cut x) := by
    unfold enhanOf
    obtain ⟨v, hv⟩ := Option.isSome_iff_exists.mp hv
    rw [hv, hg.enhan]
    simp
  have cp : ∀ t : Option (EstTriple A), cutPair cut (t.map (·.speech)) (t.map (·.noise)) =
      .ok ((t.map (EstTriple.cut cut)).map (·.speech), (t.map (EstTriple.cut cut)).map (·.noise)) := by
    intro t
    cases t <;> rfl
  have ce : ∀ t : Option (EstTriple A), Option.map cut (t.map (·.est)) =
      (t.map (EstTriple.cut cut)).map (·.est) := by
    intro t
    cases t <;> rfl
  unfold metricsOn
  rw [hg.eC, hg.sC, hg.nC, hg.eL, hg.sL, hg.nL, hg.eS, hg.sS, hg.nS, hen, cp, cp, cp, ce, ce, ce]
  show (whenWanted _ _ >>= _) = _
  rw [e1]
  show (whenWanted _ _ >>= _) = _
  rw [e2]
  show (whenWanted _ _ >>= _) = _
  rw [e3]
  show (whenWanted _ _ >>= _) = _
  rw [e4]
  show (whenWanted _ _ >>= _) = _
  rw [e5]
  show (extraScores _ _ _ _ _ _ _ _ >>= _) = _
  rw [f1]
  show (extraScores _ _ _ _ _ _ _ _ >>= _) = _
  rw [f2]
  show (extraScores _ _ _ _ _ _ _ _ >>= _) = _
  rw [f3]
  rfl

/-- C100 (j): a call with a VAD succeeds if the wanted scores can be computed and dynamic versions are only
asked for metrics that are wanted. -/
theorem C100_total (hg : a.Given x c l s) (hv : a.vad.isSome)
    (h1 : "snr" ∈ a.wanted → ∀ u v, ∃ r, F.snr u v = .ok r)
    (h2 : "sisnr" ∈ a.wanted → ∀ f u v, ∃ r, F.sisnr f u v = .ok r)
    (h3 : "fwSNRseg" ∈ a.wanted → ∀ f u v, ∃ r, F.fw f a.fLen a.gamma u v = .ok r)
    (h4 : "stoi" ∈ a.wanted ∨ "estoi" ∈ a.wanted → ∀ f u v, ∃ r, F.stoi f u v = .ok r)
    (h5 : "pesq" ∈ a.wanted → ∀ f u v b, ∃ r, F.pesq f u v b = .ok r)
    (h6 : ∀ on, a.dynamic = some on → (∃ r, dyn ([DynKind.snr, .fw, .stoi, .pesq].filter on) = .ok r) ∧
      ∀ q, on q = true → dynWanted a q) :
    ∃ d, getMetrics F dyn a = .ok d := by
  unfold getMetrics
  obtain ⟨m, i1, i2, i3, i4, hm⟩ := metricsOn_upto (dyn := dyn) hg hv
    (fun x => pySlice x a.startIdx (a.endIdx.getD a.clean.length))
    (fun x => pySlice x (a.startIdx + pyInt (1 / 5 * a.fs))
      (a.endIdx.getD a.clean.length - pyInt (1 / 5 * a.fs))) h1 h2 h3 h4 h5
  simp only
  rw [hm]
  cases hd : a.dynamic with
  | none => exact ⟨m, rfl⟩
  | some on =>
    obtain ⟨⟨r, hr⟩, hq⟩ := h6 on hd
    obtain ⟨y1, g1⟩ := attachDyn_ok (v := r .snr) (m := m.snr) (fun h => i1.mpr (hq _ h))
    obtain ⟨y2, g2⟩ := attachDyn_ok (v := r .fw) (m := m.fw) (fun h => i2.mpr (hq _ h))
    obtain ⟨y3, g3⟩ := attachDyn_ok (v := r .stoi) (m := m.stoi) (fun h => i3.mpr (hq _ h))
    obtain ⟨y4, g4⟩ := attachDyn_ok (v := r .pesq) (m := m.pesq) (fun h => i4.mpr (hq _ h))
    refine ⟨{ m with snr := y1, fw := y2, stoi := y3, pesq := y4 }, ?_⟩
    simp only
    unfold addDynamic
    simp only [hr, g1, g2, g3, g4, okBind]

/-- C100 (k), refuted: that dynamic metrics can be asked for on their own. If the dynamic version of a metric
that is not wanted is asked for, the call fails with `UnboundLocalError`, after everything was
computed. -/
theorem C100_refuted_dynamic (hg : a.Given x c l s) (hv : a.vad.isSome)
    (h1 : "snr" ∈ a.wanted → ∀ u v, ∃ r, F.snr u v = .ok r)
    (h2 : "sisnr" ∈ a.wanted → ∀ f u v, ∃ r, F.sisnr f u v = .ok r)
    (h3 : "fwSNRseg" ∈ a.wanted → ∀ f u v, ∃ r, F.fw f a.fLen a.gamma u v = .ok r)
    (h4 : "stoi" ∈ a.wanted ∨ "estoi" ∈ a.wanted → ∀ f u v, ∃ r, F.stoi f u v = .ok r)
    (h5 : "pesq" ∈ a.wanted → ∀ f u v b, ∃ r, F.pesq f u v b = .ok r)
    {on : DynKind → Bool} (hd : a.dynamic = some on) {r : DynKind → D}
    (hr : dyn ([DynKind.snr, .fw, .stoi, .pesq].filter on) = .ok r) {q : DynKind} (hq : on q = true)
    (hn : ¬ dynWanted a q) : getMetrics F dyn a = .error .unboundLocalError := by
  unfold getMetrics
  obtain ⟨m, i1, i2, i3, i4, hm⟩ := metricsOn_upto (dyn := dyn) hg hv
    (fun x => pySlice x a.startIdx (a.endIdx.getD a.clean.length))
    (fun x => pySlice x (a.startIdx + pyInt (1 / 5 * a.fs))
      (a.endIdx.getD a.clean.length - pyInt (1 / 5 * a.fs))) h1 h2 h3 h4 h5
  simp only
  rw [hm, hd]
  simp only
  unfold addDynamic
  have g : ∀ (o : Bool) (v : D) (z : Option (MetricVal V D)),
      (o = true ∧ z = none ∧ attachDyn o v z = .error .unboundLocalError) ∨
      ((o = true → z.isSome) ∧ ∃ y, attachDyn o v z = .ok y) := by
    intro o v z
    cases o with
    | false => exact .inr ⟨fun h => (by cases h), z, rfl⟩
    | true =>
      cases z with
      | none => exact .inl ⟨rfl, rfl, rfl⟩
      | some y => exact .inr ⟨fun _ => rfl, _, rfl⟩
  rw [hr]
  simp only [okBind]
  rcases g (on .snr) (r .snr) m.snr with ⟨_, _, g1⟩ | ⟨n1, y1, g1⟩
  · rw [g1]; rfl
  rw [g1]
  simp only [okBind]
  rcases g (on .fw) (r .fw) m.fw with ⟨_, _, g2⟩ | ⟨n2, y2, g2⟩
  · rw [g2]; rfl
  rw [g2]
  simp only [okBind]
  rcases g (on .stoi) (r .stoi) m.stoi with ⟨_, _, g3⟩ | ⟨n3, y3, g3⟩
  · rw [g3]; rfl
  rw [g3]
  simp only [okBind]
  rcases g (on .pesq) (r .pesq) m.pesq with ⟨_, _, g4⟩ | ⟨n4, y4, g4⟩
  · rw [g4]; rfl
  exfalso
  cases q with
  | snr => exact hn (i1.mp (n1 hq))
  | fw => exact hn (i2.mp (n2 hq))
  | stoi => exact hn (i3.mp (n3 hq))
  | pesq => exact hn (i4.mp (n4 hq))

end

end Danse
