import Verif.Spec.Evaluate
import Verif.Proofs.Config
import Verif.Proofs.Py

/-! # Lemmas on the evaluation of a run -/

namespace Danse

variable {A V D : Type}

theorem pySlice_evalSeg (x : List A) (s e : Nat) : pySlice x s e = evalSeg s e x := by
  unfold pySlice pySliceBound evalSeg
  simp only
  rw [if_neg (by omega : ¬ ((s : Int) < 0)), if_neg (by omega : ¬ ((e : Int) < 0)), Int.toNat_natCast,
    Int.toNat_natCast]
  apply List.ext_getElem?
  intro i
  rw [List.getElem?_take, List.getElem?_take, List.getElem?_drop, List.getElem?_drop]
  by_cases h1 : s ≤ x.length
  · rw [Nat.min_eq_left h1]
    by_cases h2 : i < e - s
    · rw [if_pos h2]
      by_cases h3 : i < min e x.length - s
      · rw [if_pos h3]
      · rw [if_neg h3, List.getElem?_eq_none (by omega)]
    · rw [if_neg h2, if_neg (by omega : ¬ i < min e x.length - s)]
  · rw [Nat.min_eq_right (by omega : x.length ≤ s), List.getElem?_eq_none (by omega), List.getElem?_eq_none (by omega)]
    simp

theorem map_ok_inv {T U : Type} {f : T → U} {m : Except PyErr T} {r : U} (h : m.map f = .ok r) :
    ∃ t, m = .ok t ∧ f t = r := by
  cases m with
  | error e => cases h
  | ok t => injection h with h; exact ⟨t, rfl, h⟩

theorem whenWanted_inv {T : Type} {w : Bool} {m : Except PyErr T} {r : Option T}
    (h : whenWanted w m = .ok r) : (w = true ∧ ∃ t, m = .ok t ∧ r = some t) ∨ (w = false ∧ r = none) := by
  unfold whenWanted at h
  cases w with
  | true =>
    obtain ⟨t, h1, h2⟩ := map_ok_inv h
    exact .inl ⟨rfl, t, h1, h2.symm⟩
  | false =>
    injection h with h
    exact .inr ⟨rfl, h.symm⟩

theorem sequenceOpt_inv {x : Option (Except PyErr V)} {r : Option V} (h : sequenceOpt x = .ok r) :
    x = r.map .ok := by
  cases x with
  | none => injection h with h; subst h; rfl
  | some x =>
    obtain ⟨t, h4, h5⟩ := map_ok_inv h
    subst h4 h5
    rfl

theorem baseMetric_inv [Zero V] [Sub V] {b a : Except PyErr V} {best : Option (Except PyErr V)}
    {M : MetricVal V D} (h : baseMetric b a best = .ok M) : M.Is b a none none none best := by
  unfold baseMetric at h
  obtain ⟨vb, h1, h⟩ := bind_ok_inv h
  obtain ⟨va, h2, h⟩ := bind_ok_inv h
  obtain ⟨vr, h3, h⟩ := bind_ok_inv h
  injection h with h
  subst h
  exact ⟨h1, h2, rfl, rfl, rfl, rfl, sequenceOpt_inv h3, rfl, rfl, rfl⟩

theorem baseMetric_ok [Zero V] [Sub V] {b a : Except PyErr V} {best : Option (Except PyErr V)}
    (hb : ∃ v, b = .ok v) (ha : ∃ v, a = .ok v) (hr : ∀ x, best = some x → ∃ v, x = .ok v) :
    ∃ M : MetricVal V D, baseMetric b a best = .ok M := by
  obtain ⟨vb, rfl⟩ := hb
  obtain ⟨va, rfl⟩ := ha
  cases best with
  | none => exact ⟨_, rfl⟩
  | some x =>
    obtain ⟨v, rfl⟩ := hr x rfl
    exact ⟨_, rfl⟩

/-- The result of adding a score to an optional metric. -/
theorem addScore_inv {score : Except PyErr V} {set : MetricVal V D → V → MetricVal V D}
    {m r : Option (MetricVal V D)} (h : addScore true score set m = .ok r) :
    (m = none ∧ r = none) ∨ ∃ x v, m = some x ∧ score = .ok v ∧ r = some (set x v) := by
  unfold addScore at h
  cases m with
  | none => injection h with h; exact .inl ⟨rfl, h.symm⟩
  | some x =>
    simp only [if_true] at h
    obtain ⟨v, h1, h2⟩ := map_ok_inv h
    exact .inr ⟨x, v, rfl, h1, h2.symm⟩

theorem attachDyn_inv {on : Bool} {v : D} {m r : Option (MetricVal V D)}
    (h : attachDyn on v m = .ok r) :
    (m = none ∧ r = none) ∨ ∃ x y, m = some x ∧ r = some { x with dynamic := y } := by
  unfold attachDyn at h
  cases on with
  | false =>
    simp only [Bool.false_eq_true, if_false] at h
    injection h with h
    subst h
    cases m with
    | none => exact .inl ⟨rfl, rfl⟩
    | some x => exact .inr ⟨x, x.dynamic, rfl, rfl⟩
  | true =>
    simp only [if_true] at h
    cases m with
    | none => cases h
    | some x => injection h with h; exact .inr ⟨x, some v, rfl, h.symm⟩

/-- A metric slot: wanted or not, and then with these scores. -/
def Slot [Zero V] [Sub V] (w : Bool) (m : Option (MetricVal V D)) (b a : Except PyErr V)
    (c l s best : Option (Except PyErr V)) : Prop :=
  (w = false ∧ m = none) ∨ (w = true ∧ ∃ M, m = some M ∧ M.Is b a c l s best)

variable [Zero V] [Sub V]

theorem Slot.base {w : Bool} {m : Option (MetricVal V D)} {b a : Except PyErr V}
    {best : Option (Except PyErr V)} (h : whenWanted w (baseMetric b a best) = .ok m) :
    Slot w m b a none none none best := by
  rcases whenWanted_inv h with ⟨h1, t, h2, h3⟩ | ⟨h1, h2⟩
  · exact .inr ⟨h1, t, h3, baseMetric_inv h2⟩
  · exact .inl ⟨h1, h2⟩

theorem Slot.centr {w : Bool} {m m' : Option (MetricVal V D)} {b a x : Except PyErr V}
    {l s best : Option (Except PyErr V)} (h : Slot w m b a none l s best)
    (h' : addScore true x (fun y v => { y with afterCentr := v }) m = .ok m') :
    Slot w m' b a (some x) l s best := by
  rcases addScore_inv h' with ⟨h1, h2⟩ | ⟨y, v, h1, h2, h3⟩
  · rcases h with h | ⟨_, M, h, _⟩
    · exact .inl ⟨h.1, h2⟩
    · rw [h1] at h; cases h
  · rcases h with h | ⟨hw, M, h, hM⟩
    · rw [h1] at h; cases h.2
    · rw [h1] at h; injection h with h; subst h
      exact .inr ⟨hw, _, h3, hM.before, hM.after, hM.diff, h2, hM.loc, hM.ssbc, hM.best, hM.diffs⟩

theorem Slot.loc {w : Bool} {m m' : Option (MetricVal V D)} {b a x : Except PyErr V}
    {c s best : Option (Except PyErr V)} (h : Slot w m b a c none s best)
    (h' : addScore true x (fun y v => { y with afterLocal := v }) m = .ok m') :
    Slot w m' b a c (some x) s best := by
  rcases addScore_inv h' with ⟨h1, h2⟩ | ⟨y, v, h1, h2, h3⟩
  · rcases h with h | ⟨_, M, h, _⟩
    · exact .inl ⟨h.1, h2⟩
    · rw [h1] at h; cases h
  · rcases h with h | ⟨hw, M, h, hM⟩
    · rw [h1] at h; cases h.2
    · rw [h1] at h; injection h with h; subst h
      exact .inr ⟨hw, _, h3, hM.before, hM.after, hM.diff, hM.centr, h2, hM.ssbc, hM.best, hM.diffs⟩

theorem Slot.ssbc {w : Bool} {m m' : Option (MetricVal V D)} {b a x : Except PyErr V}
    {c l best : Option (Except PyErr V)} (h : Slot w m b a c l none best)
    (h' : addScore true x (fun y v => { y with afterSSBC := v }) m = .ok m') :
    Slot w m' b a c l (some x) best := by
  rcases addScore_inv h' with ⟨h1, h2⟩ | ⟨y, v, h1, h2, h3⟩
  · rcases h with h | ⟨_, M, h, _⟩
    · exact .inl ⟨h.1, h2⟩
    · rw [h1] at h; cases h
  · rcases h with h | ⟨hw, M, h, hM⟩
    · rw [h1] at h; cases h.2
    · rw [h1] at h; injection h with h; subst h
      exact .inr ⟨hw, _, h3, hM.before, hM.after, hM.diff, hM.centr, hM.loc, h2, hM.best, hM.diffs⟩

theorem Slot.dyn {w : Bool} {m m' : Option (MetricVal V D)} {b a : Except PyErr V}
    {c l s best : Option (Except PyErr V)} {on : Bool} {v : D} (h : Slot w m b a c l s best)
    (h' : attachDyn on v m = .ok m') : Slot w m' b a c l s best := by
  rcases attachDyn_inv h' with ⟨h1, h2⟩ | ⟨x, y, h1, h2⟩
  · rcases h with h | ⟨_, M, h, _⟩
    · exact .inl ⟨h.1, h2⟩
    · rw [h1] at h; cases h
  · rcases h with h | ⟨hw, M, h, hM⟩
    · rw [h1] at h; cases h.2
    · rw [h1] at h; injection h with h; subst h
      exact .inr ⟨hw, _, h2, hM.before, hM.after, hM.diff, hM.centr, hM.loc, hM.ssbc, hM.best, hM.diffs⟩

theorem pesq_slot {F : EvalFns A V} {fs : ℚ} {clean noisy enhan : List A} {c l : Option (List A)}
    {s : Option (List A × List A)} {best : Option (ℚ × List A)} {M : MetricVal V D}
    (hfs : fs = 8000 ∨ fs = 16000)
    (h : pesqMetric F fs clean noisy enhan c l (s.map (·.1)) (s.map (·.2)) best = .ok M) :
    M.Is (F.pesq fs clean noisy (decide (fs = 16000))) (F.pesq fs clean enhan (decide (fs = 16000)))
      (c.map fun x => F.pesq fs clean x (decide (fs = 16000)))
      (l.map fun x => F.pesq fs clean x (decide (fs = 16000)))
      (s.map fun x => F.pesq fs x.2 x.1 (decide (fs = 16000)))
      (best.map fun p => F.pesq p.1 clean p.2 (decide (fs = 16000))) := by
  unfold pesqMetric at h
  rw [if_pos hfs] at h
  obtain ⟨vb, h1, h⟩ := bind_ok_inv h
  obtain ⟨va, h2, h⟩ := bind_ok_inv h
  obtain ⟨vc, h3, h⟩ := bind_ok_inv h
  obtain ⟨vl, h4, h⟩ := bind_ok_inv h
  obtain ⟨vs, h5, h⟩ := bind_ok_inv h
  obtain ⟨vr, h6, h⟩ := bind_ok_inv h
  injection h with h
  subst h
  refine ⟨h1, h2, rfl, h3, h4, ?_, sequenceOpt_inv h6, rfl, rfl, rfl⟩
  cases s <;> exact h5

/-- The scores of an estimate in all slots. -/
theorem extraScores_centr {F : EvalFns A V} {a : EvalArgs A} {clean : List A} {t : Option (EstTriple A)}
    {m m' : MetricsDict V D}
    (h : extraScores F a clean (t.map (·.est)) (t.map (·.speech)) (t.map (·.noise))
      (fun x v => { x with afterCentr := v }) m = .ok m') :
    m'.pesq = m.pesq ∧
    (∀ {w b e l s best}, Slot w m.snr b e none l s best →
      Slot w m'.snr b e (t.map fun x => F.snr x.speech x.noise) l s best) ∧
    (∀ {w b e l s best}, Slot w m.sisnr b e none l s best →
      Slot w m'.sisnr b e (t.map fun x => F.sisnr a.fs x.speech x.noise) l s best) ∧
    (∀ {w b e l s best}, Slot w m.fw b e none l s best →
      Slot w m'.fw b e (t.map fun x => F.fw a.fs a.fLen a.gamma clean x.est) l s best) ∧
    (∀ {w b e l s best}, Slot w m.stoi b e none l s best →
      Slot w m'.stoi b e (t.map fun x => F.stoi a.fs clean x.est) l s best) := by
  unfold extraScores at h
  cases t with
  | none =>
    injection h with h
    subst h
    exact ⟨rfl, fun h => h, fun h => h, fun h => h, fun h => h⟩
  | some t =>
    obtain ⟨x1, h1, h⟩ := bind_ok_inv h
    obtain ⟨x2, h2, h⟩ := bind_ok_inv h
    obtain ⟨x3, h3, h⟩ := bind_ok_inv h
    obtain ⟨x4, h4, h⟩ := bind_ok_inv h
    injection h with h
    subst h
    exact ⟨rfl, fun h => h.centr h1, fun h => h.centr h2, fun h => h.centr h3, fun h => h.centr h4⟩

theorem extraScores_loc {F : EvalFns A V} {a : EvalArgs A} {clean : List A} {t : Option (EstTriple A)}
    {m m' : MetricsDict V D}
    (h : extraScores F a clean (t.map (·.est)) (t.map (·.speech)) (t.map (·.noise))
      (fun x v => { x with afterLocal := v }) m = .ok m') :
    m'.pesq = m.pesq ∧
    (∀ {w b e c s best}, Slot w m.snr b e c none s best →
      Slot w m'.snr b e c (t.map fun x => F.snr x.speech x.noise) s best) ∧
    (∀ {w b e c s best}, Slot w m.sisnr b e c none s best →
      Slot w m'.sisnr b e c (t.map fun x => F.sisnr a.fs x.speech x.noise) s best) ∧
    (∀ {w b e c s best}, Slot w m.fw b e c none s best →
      Slot w m'.fw b e c (t.map fun x => F.fw a.fs a.fLen a.gamma clean x.est) s best) ∧
    (∀ {w b e c s best}, Slot w m.stoi b e c none s best →
      Slot w m'.stoi b e c (t.map fun x => F.stoi a.fs clean x.est) s best) := by
  unfold extraScores at h
  cases t with
  | none =>
    injection h with h
    subst h
    exact ⟨rfl, fun h => h, fun h => h, fun h => h, fun h => h⟩
  | some t =>
    obtain ⟨x1, h1, h⟩ := bind_ok_inv h
    obtain ⟨x2, h2, h⟩ := bind_ok_inv h
    obtain ⟨x3, h3, h⟩ := bind_ok_inv h
    obtain ⟨x4, h4, h⟩ := bind_ok_inv h
    injection h with h
    subst h
    exact ⟨rfl, fun h => h.loc h1, fun h => h.loc h2, fun h => h.loc h3, fun h => h.loc h4⟩

theorem extraScores_ssbc {F : EvalFns A V} {a : EvalArgs A} {clean : List A} {t : Option (EstTriple A)}
    {m m' : MetricsDict V D}
    (h : extraScores F a clean (t.map (·.est)) (t.map (·.speech)) (t.map (·.noise))
      (fun x v => { x with afterSSBC := v }) m = .ok m') :
    m'.pesq = m.pesq ∧
    (∀ {w b e c l best}, Slot w m.snr b e c l none best →
      Slot w m'.snr b e c l (t.map fun x => F.snr x.speech x.noise) best) ∧
    (∀ {w b e c l best}, Slot w m.sisnr b e c l none best →
      Slot w m'.sisnr b e c l (t.map fun x => F.sisnr a.fs x.speech x.noise) best) ∧
    (∀ {w b e c l best}, Slot w m.fw b e c l none best →
      Slot w m'.fw b e c l (t.map fun x => F.fw a.fs a.fLen a.gamma clean x.est) best) ∧
    (∀ {w b e c l best}, Slot w m.stoi b e c l none best →
      Slot w m'.stoi b e c l (t.map fun x => F.stoi a.fs clean x.est) best) := by
  unfold extraScores at h
  cases t with
  | none =>
    injection h with h
    subst h
    exact ⟨rfl, fun h => h, fun h => h, fun h => h, fun h => h⟩
  | some t =>
    obtain ⟨x1, h1, h⟩ := bind_ok_inv h
    obtain ⟨x2, h2, h⟩ := bind_ok_inv h
    obtain ⟨x3, h3, h⟩ := bind_ok_inv h
    obtain ⟨x4, h4, h⟩ := bind_ok_inv h
    injection h with h
    subst h
    exact ⟨rfl, fun h => h.ssbc h1, fun h => h.ssbc h2, fun h => h.ssbc h3, fun h => h.ssbc h4⟩

/-- A triple whose signals are cut. -/
def EstTriple.cut (f : List A → List A) (t : EstTriple A) : EstTriple A := ⟨f t.est, f t.speech, f t.noise⟩

theorem cutPair_inv {f : List A → List A} {t : Option (EstTriple A)} {p : Option (List A) × Option (List A)}
    (h : cutPair f (t.map (·.speech)) (t.map (·.noise)) = .ok p) :
    p = ((t.map (EstTriple.cut f)).map (·.speech), (t.map (EstTriple.cut f)).map (·.noise)) := by
  cases t with
  | none => injection h with h; exact h.symm
  | some t => injection h with h; exact h.symm

/-- What a call that returns has computed. -/
theorem metricsOn_inv [Add A] {F : EvalFns A V} {dyn : List DynKind → Except PyErr (DynKind → D)}
    {a : EvalArgs A} {x : List A} {c l s : Option (EstTriple A)} (hg : a.Given x c l s)
    {d : MetricsDict V D} {cut cutBest : List A → List A} (h : metricsOn F dyn a cut cutBest = .ok d) :
    Slot (a.wanted.contains "snr") d.snr (F.snr (cut a.clean) (cut a.noiseOnly))
      (F.snr (cut a.filtSpeech) (cut a.filtNoise))
      (c.map fun t => F.snr (cut t.speech) (cut t.noise))
      (l.map fun t => F.snr (cut t.speech) (cut t.noise))
      (s.map fun t => F.snr (cut t.speech) (cut t.noise))
      (a.best.map fun p => F.snr (cutBest p.speech) (cutBest p.noise)) ∧
    Slot (a.wanted.contains "sisnr") d.sisnr (F.sisnr a.fs (cut a.clean) (cut a.noiseOnly))
      (F.sisnr a.fs (cut a.filtSpeech) (cut a.filtNoise))
      (c.map fun t => F.sisnr a.fs (cut t.speech) (cut t.noise))
      (l.map fun t => F.sisnr a.fs (cut t.speech) (cut t.noise))
      (s.map fun t => F.sisnr a.fs (cut t.speech) (cut t.noise))
      (a.best.map fun p => F.sisnr p.fs (cutBest p.speech) (cutBest p.noise)) ∧
    Slot (a.wanted.contains "fwSNRseg") d.fw (F.fw a.fs a.fLen a.gamma (cut a.clean) (cut a.noisy))
      (F.fw a.fs a.fLen a.gamma (cut a.clean) (cut x))
      (c.map fun t => F.fw a.fs a.fLen a.gamma (cut a.clean) (cut t.est))
      (l.map fun t => F.fw a.fs a.fLen a.gamma (cut a.clean) (cut t.est))
      (s.map fun t => F.fw a.fs a.fLen a.gamma (cut a.clean) (cut t.est))
      (a.best.map fun p => F.fw p.fs a.fLen a.gamma (cutBest p.clean) (cutBest p.dCentr)) ∧
    Slot (a.wanted.contains "stoi" || a.wanted.contains "estoi") d.stoi
      (F.stoi a.fs (cut a.clean) (cut a.noisy)) (F.stoi a.fs (cut a.clean) (cut x))
      (c.map fun t => F.stoi a.fs (cut a.clean) (cut t.est))
      (l.map fun t => F.stoi a.fs (cut a.clean) (cut t.est))
      (s.map fun t => F.stoi a.fs (cut a.clean) (cut t.est))
      (a.best.map fun p => F.stoi p.fs (cutBest p.clean) (cutBest p.dCentr)) ∧
    (∃ (q : Option (MetricVal V D)), whenWanted (a.wanted.contains "pesq") (pesqMetric F a.fs (cut a.clean)
        (cut a.noisy) (cut x) (c.map fun t => cut t.est) (l.map fun t => cut t.est)
        ((s.map fun t => (cut t.est, cut t.speech)).map (·.1))
        ((s.map fun t => (cut t.est, cut t.speech)).map (·.2))
        (a.best.map fun p => (p.fs, cutBest p.dCentr))) = .ok q ∧
      ((q = none ∧ d.pesq = none) ∨ ∃ M y, q = some M ∧ d.pesq = some { M with dynamic := y })) := by
  unfold metricsOn at h
  rw [hg.eC, hg.sC, hg.nC, hg.eL, hg.sL, hg.nL, hg.eS, hg.sS, hg.nS] at h
  simp only at h
  obtain ⟨en, h0, h⟩ := bind_ok_inv h
  have hen : en = cut x := by
    unfold enhanOf at h0
    rw [hg.enhan] at h0
    by_cases h1 : ((a.enhanC.isSome || a.enhanL.isSome || a.enhanS.isSome) && a.vad.isNone) = true
    · rw [if_pos h1] at h0; cases h0
    · rw [if_neg h1] at h0
      simp only at h0
      by_cases h2 : a.vad.isNone = true
      · rw [if_pos h2] at h0; cases h0
      · rw [if_neg h2] at h0
        injection h0 with h0
        exact h0.symm
  subst hen
  obtain ⟨pC, hC, h⟩ := bind_ok_inv h
  obtain ⟨pL, hL, h⟩ := bind_ok_inv h
  obtain ⟨pS, hS, h⟩ := bind_ok_inv h
  have hC := cutPair_inv hC
  have hL := cutPair_inv hL
  have hS := cutPair_inv hS
  subst hC hL hS
  obtain ⟨x1, h1, h⟩ := bind_ok_inv h
  obtain ⟨x2, h2, h⟩ := bind_ok_inv h
  obtain ⟨x3, h3, h⟩ := bind_ok_inv h
  obtain ⟨x4, h4, h⟩ := bind_ok_inv h
  obtain ⟨x5, h5, h⟩ := bind_ok_inv h
  obtain ⟨m1, h6, h⟩ := bind_ok_inv h
  obtain ⟨m2, h7, h⟩ := bind_ok_inv h
  obtain ⟨m3, h8, h⟩ := bind_ok_inv h
  have eC : (Option.map cut (Option.map (fun x => x.est) c)) = (c.map (EstTriple.cut cut)).map (·.est) := by
    cases c <;> rfl
  have eL : (Option.map cut (Option.map (fun x => x.est) l)) = (l.map (EstTriple.cut cut)).map (·.est) := by
    cases l <;> rfl
  have eS : (Option.map cut (Option.map (fun x => x.est) s)) = (s.map (EstTriple.cut cut)).map (·.est) := by
    cases s <;> rfl
  rw [eC] at h6
  rw [eL] at h7
  rw [eS] at h8
  obtain ⟨p6, a6, b6, c6, d6⟩ := extraScores_centr h6
  obtain ⟨p7, a7, b7, c7, d7⟩ := extraScores_loc h7
  obtain ⟨p8, a8, b8, c8, d8⟩ := extraScores_ssbc h8
  have s1 := a8 (a7 (a6 (Slot.base h1)))
  have s2 := b8 (b7 (b6 (Slot.base h2)))
  have s3 := c8 (c7 (c6 (Slot.base h3)))
  have s4 := d8 (d7 (d6 (Slot.base h4)))
  have hp : m3.pesq = x5 := by rw [p8, p7, p6]
  simp only [Option.map_map] at s1 s2 s3 s4
  have h5' : whenWanted (a.wanted.contains "pesq") (pesqMetric F a.fs (cut a.clean)
        (cut a.noisy) (cut x) (c.map fun t => cut t.est) (l.map fun t => cut t.est)
        ((s.map fun t => (cut t.est, cut t.speech)).map (·.1))
        ((s.map fun t => (cut t.est, cut t.speech)).map (·.2))
        (a.best.map fun p => (p.fs, cutBest p.dCentr))) = .ok x5 := by
    rw [← h5]
    congr 2 <;> first | (cases c <;> rfl) | (cases l <;> rfl) | (cases s <;> rfl)
  cases hd : a.dynamic with
  | none =>
    rw [hd] at h
    injection h with h
    subst h
    refine ⟨s1, s2, s3, s4, x5, h5', ?_⟩
    rw [hp]
    cases x5 with
    | none => exact .inl ⟨rfl, rfl⟩
    | some M => exact .inr ⟨M, M.dynamic, rfl, rfl⟩
  | some on =>
    rw [hd] at h
    simp only at h
    unfold addDynamic at h
    obtain ⟨r, hr, h⟩ := bind_ok_inv h
    obtain ⟨y1, g1, h⟩ := bind_ok_inv h
    obtain ⟨y2, g2, h⟩ := bind_ok_inv h
    obtain ⟨y3, g3, h⟩ := bind_ok_inv h
    obtain ⟨y4, g4, h⟩ := bind_ok_inv h
    injection h with h
    subst h
    refine ⟨s1.dyn g1, s2, s3.dyn g2, s4.dyn g3, x5, h5', ?_⟩
    rw [hp] at g4
    exact attachDyn_inv g4

end Danse
