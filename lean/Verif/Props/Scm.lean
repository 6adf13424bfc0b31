import Verif.Proofs.Scm2
import Verif.Proofs.Dft
import Mathlib.LinearAlgebra.Matrix.Notation

/-!
# Properties C23-C25, C32, C56: covariance estimation and the start of filter updating

`framesWith b l` are the frames of history `l` flagged `b`; `expWeighted β R0 l` is
`β^m R0 + Σ_i (1-β) β^(m-1-i) y_i y_iᴴ / M` (Spec/Scm.lean).
-/

set_option linter.unusedSectionVars false

namespace Danse
section
variable {F n K W T : Type} [Fintype n] [Field K] [StarRing K]

/-! ## C23 -/

/-- C23, counters: together they count every frame, separately the active and inactive ones. -/
theorem C23_counters (use1st : Bool) (β : K) (s : Scm F n K)
    (l : List (Frame F n K × Bool × Bool)) :
    (scmRun use1st β s l).numRyy = s.numRyy + (l.filter fun e => e.2.1).length ∧
    (scmRun use1st β s l).numRnn = s.numRnn + (l.filter fun e => !e.2.1).length ∧
    (scmRun use1st β s l).numRyy + (scmRun use1st β s l).numRnn =
      s.numRyy + s.numRnn + l.length := by
  obtain ⟨h1, h2⟩ := scmRun_counters use1st β s l
  refine ⟨h1, h2, ?_⟩
  have : (l.filter fun e => e.2.1).length + (l.filter fun e => !e.2.1).length = l.length := by
    rw [← List.countP_eq_length_filter, ← List.countP_eq_length_filter,
      List.length_eq_countP_add_countP (fun e : Frame F n K × Bool × Bool => e.2.1)]
    congr 1
    apply List.countP_congr
    simp
  omega

/-- C23 (no use of the first frame as basis; any of the four kinds of matrices): the two covariance
matrices are the exponentially weighted sums of exactly the frames flagged active and inactive by
the VAD used for that kind. -/
theorem C23_right_away (β : K) (s : Scm F n K) (l : List (Frame F n K × Bool × Bool)) :
    (scmRun false β s l).ryy = expWeighted β s.ryy ((l.filter fun e => e.2.2).map (·.1)) ∧
    (scmRun false β s l).rnn = expWeighted β s.rnn ((l.filter fun e => !e.2.2).map (·.1)) :=
  scmRun_right_away β s l

example : ∃ l : List (Frame Unit (Fin 2) ℚ × Bool × Bool), l.length = 3 ∧
    (l.filter fun e => e.2.2).length = 2 :=
  ⟨[(fun _ _ => 1, true, true), (fun _ _ => 2, true, false), (fun _ _ => 3, false, true)], rfl, rfl⟩

end

section
variable {F n K W T : Type} [Fintype n] [Field K] [StarRing K] [Preorder T] [DecidableLE T]

/-- C23 (DANSE, local and single-sensor matrices, first frame as basis): the first frame of each
kind sets the matrix, whatever the initial value; the following ones are weighted in. -/
theorem C23_first_frame_basis (c : NodeCfg F n K W T) (hu : c.use1st = true) {s : NodeSt F n K W}
    (h1 : s.scm.numRyy = 0) (h2 : s.scm.numRnn = 0) (l : List (UpEv F n K T)) :
    (∀ y r, framesWith true l = y :: r →
      (nodeRun c s l).scm.ryy = expWeighted c.beta (rankOne y) r) ∧
    (∀ y r, framesWith false l = y :: r →
      (nodeRun c s l).scm.rnn = expWeighted c.beta (rankOne y) r) ∧
    (framesWith true l = [] → (nodeRun c s l).scm.ryy = s.scm.ryy) ∧
    (framesWith false l = [] → (nodeRun c s l).scm.rnn = s.scm.rnn) := by
  obtain ⟨-, -, -, h⟩ := nodeRun_scm c h1 h2 l
  obtain ⟨a, b, d, e⟩ := h hu
  exact ⟨d, e, a, b⟩

/-- C23 on full node runs (with the filter updates and the start check interleaved). -/
theorem C23_node_run (c : NodeCfg F n K W T) (hu : c.use1st = false) {s : NodeSt F n K W}
    (h1 : s.scm.numRyy = 0) (h2 : s.scm.numRnn = 0) (l : List (UpEv F n K T)) :
    (nodeRun c s l).scm.ryy = expWeighted c.beta s.scm.ryy (framesWith true l) ∧
    (nodeRun c s l).scm.rnn = expWeighted c.beta s.scm.rnn (framesWith false l) ∧
    (nodeRun c s l).scm.numRyy = (framesWith true l).length ∧
    (nodeRun c s l).scm.numRnn = (framesWith false l).length := by
  obtain ⟨a, b, h, -⟩ := nodeRun_scm c h1 h2 l
  exact ⟨(h hu).1, (h hu).2, a, b⟩

/-- A one-channel configuration for the examples. -/
noncomputable def scmDemo (use1st : Bool) : NodeCfg Unit (Fin 1) ℂ Nat Nat where
  use1st := use1st
  beta := 1 / 2
  batchInit := false
  startAfter := 2
  valid _ _ := true
  bypassAll := false
  upd _ _ := 7

/-- Its initial state. -/
def scmDemo0 : NodeSt Unit (Fin 1) ℂ Nat where
  scm := { ryy := fun _ => 1, rnn := fun _ => 1, numRyy := 0, numRnn := 0 }
  started := false
  w _ := 0
  i := 0
  nUps := 0

/-- A history: two inactive, three active frames at times 0, 1, 2, ... -/
def scmDemoL : List (UpEv Unit (Fin 1) ℂ Nat) :=
  [⟨fun _ _ => 1, false, 0, false⟩, ⟨fun _ _ => 2, true, 1, false⟩, ⟨fun _ _ => 3, false, 2, false⟩,
   ⟨fun _ _ => 3, true, 3, false⟩, ⟨fun _ _ => 3, true, 4, false⟩]

example : (scmDemo true).use1st = true ∧ scmDemo0.scm.numRyy = 0 ∧ scmDemo0.scm.numRnn = 0 ∧
    (framesWith true scmDemoL).length = 3 ∧ (framesWith false scmDemoL).length = 2 :=
  ⟨rfl, rfl, rfl, rfl, rfl⟩

end

/-- C23 fails for the centralised matrices when the first frame is used as basis and the
centralised VAD differs from the node's: the counters follow the node's VAD, so that here the
second active frame (y=2) wipes out the first one (y=1) instead of being weighted in. One bin,
one channel, β = 1/2. -/
theorem C23_refuted_centralised : letI : StarRing ℚ := starRingOfComm
    ∃ (s : Scm Unit (Fin 1) ℚ) (y1 y2 : Frame Unit (Fin 1) ℚ),
      (scmRun true (1/2) s [(y1, true, true), (y2, false, true)]).ryy () = rankOne y2 () ∧
      rankOne y2 () ≠ expWeighted (1/2) (rankOne y1) [y2] () := by
  letI : StarRing ℚ := starRingOfComm
  refine ⟨⟨fun _ => 0, fun _ => 0, 0, 0⟩, fun _ _ => 1, fun _ _ => 2, ?_, ?_⟩
  · rw [← outerMean_eq]
    rfl
  · intro h
    have h := congrFun (congrFun h 0) 0
    have e : ∀ x : ℚ, star x = x := fun _ => rfl
    simp [expWeighted, rankOne, Matrix.vecMulVec_apply, e] at h
    norm_num at h

/-! ## C24 -/

section
variable {F n W T : Type} [Fintype n] [Preorder T] [DecidableLE T]
open scoped ComplexOrder

/-- C24: with a forgetting factor between 0 and 1, both covariance matrices of every bin stay
Hermitian positive semidefinite along any history that starts from such matrices; the same for
the centralised matrices with their own VAD (`scmRun` below). -/
theorem C24_psd (c : NodeCfg F n ℂ W T) {b : ℝ} (hc : c.beta = (b : ℂ)) (h0 : 0 ≤ b) (h1 : b ≤ 1)
    {s : NodeSt F n ℂ W} (f : F) (hy : (s.scm.ryy f).PosSemidef) (hn : (s.scm.rnn f).PosSemidef)
    (l : List (UpEv F n ℂ T)) :
    ((nodeRun c s l).scm.ryy f).PosSemidef ∧ ((nodeRun c s l).scm.rnn f).PosSemidef ∧
    ((nodeRun c s l).scm.ryy f).IsHermitian ∧ ((nodeRun c s l).scm.rnn f).IsHermitian := by
  suffices h : ((nodeRun c s l).scm.ryy f).PosSemidef ∧ ((nodeRun c s l).scm.rnn f).PosSemidef from
    ⟨h.1, h.2, h.1.isHermitian, h.2.isHermitian⟩
  induction l using List.reverseRecOn with
  | nil => exact ⟨hy, hn⟩
  | append_singleton l e ih =>
    rw [nodeRun_snoc, nodeStep_scm]
    exact scmUpdate_psd c.use1st hc h0 h1 f ih.1 ih.2 e.y e.vad e.vad

/-- C24 for any of the four kinds of matrices (node VAD and VAD used may differ). -/
theorem C24_psd_all_kinds (u : Bool) {b : ℝ} (h0 : 0 ≤ b) (h1 : b ≤ 1) {s : Scm F n ℂ} (f : F)
    (hy : (s.ryy f).PosSemidef) (hn : (s.rnn f).PosSemidef)
    (l : List (Frame F n ℂ × Bool × Bool)) :
    ((scmRun u (b : ℂ) s l).ryy f).PosSemidef ∧ ((scmRun u (b : ℂ) s l).rnn f).PosSemidef := by
  induction l using List.reverseRecOn with
  | nil => exact ⟨hy, hn⟩
  | append_singleton l e ih =>
    rw [scmRun_snoc]
    exact scmUpdate_psd u rfl h0 h1 f ih.1 ih.2 _ _ _

/-- C24, initial value: type 'eye' with a nonnegative scaling is Hermitian positive semidefinite
whatever the random array. -/
theorem C24_eye_init [DecidableEq n] (rand : Matrix n n ℂ) (rs : ℂ) {es : ℝ} (h : 0 ≤ es)
    {R : Matrix n n ℂ} (hR : initCov "eye" rand rs (es : ℂ) = .ok R) : R.PosSemidef := by
  have : R = (es : ℂ) • (1 : Matrix n n ℂ) := by
    have := hR
    unfold initCov at this
    simp only [String.reduceEq, if_false, if_true, Except.ok.injEq] at this
    exact this.symm
  rw [this]
  exact Matrix.PosSemidef.one.smul (Complex.zero_le_real.mpr h)

/-- C24 does not extend to the other initialisations: for both random types there is a random array
(entries in the range of the generator) for which the initial matrix is not Hermitian. -/
theorem C24_refuted_random_init : ∃ rand : Matrix (Fin 2) (Fin 2) ℂ,
    (∀ i j, ‖(rand i j).re‖ ≤ 1 ∧ ‖(rand i j).im‖ ≤ 1) ∧
    ∀ typ, typ = "fully_random" ∨ typ = "eye_and_random" →
      ∃ R, initCov typ rand 1 1 = .ok R ∧ ¬ R.IsHermitian := by
  refine ⟨!![0, 1; 0, 0], ?_, ?_⟩
  · intro i j
    fin_cases i <;> fin_cases j <;> simp
  · rintro typ (rfl | rfl)
    · refine ⟨_, rfl, fun h => ?_⟩
      have := h.apply 0 1
      simp at this
    · refine ⟨_, rfl, fun h => ?_⟩
      have := h.apply 0 1
      simp at this

example : (scmDemo false).beta = ((1/2 : ℝ) : ℂ) ∧ (scmDemo0.scm.ryy ()).PosSemidef :=
  ⟨by simp [scmDemo], Matrix.PosSemidef.one⟩

end

/-! ## C25 -/

section
variable {F n K W T : Type} [Fintype n] [Field K] [StarRing K] [Preorder T] [DecidableLE T]

/-- C25: if the number of filter updates grows at an event then (covariances not initialised from
batch estimates, time not running backwards) strictly more active and strictly more inactive frames
have been collected than the observation vector has channels, the time is not before the
configured start time, and at some event up to this one the matrices passed the rank / definiteness
check. -/
theorem C25_not_before (c : NodeCfg F n K W T) (hb : c.batchInit = false)
    {s : NodeSt F n K W} (h1 : s.scm.numRyy = 0) (h2 : s.scm.numRnn = 0) (h3 : s.started = false)
    (l : List (UpEv F n K T)) (e : UpEv F n K T)
    (ht : (l ++ [e]).Pairwise fun a b => a.t ≤ b.t)
    (h : (nodeRun c s (l ++ [e])).nUps ≠ (nodeRun c s l).nUps) :
    Fintype.card n < (framesWith true (l ++ [e])).length ∧
    Fintype.card n < (framesWith false (l ++ [e])).length ∧
    c.startAfter ≤ e.t ∧
    ∃ l', l' <+: l ++ [e] ∧
      c.valid (nodeRun c s l').scm.rnn (nodeRun c s l').scm.ryy = true := by
  have hs : (nodeRun c s (l ++ [e])).started = true := by
    rw [nodeRun_snoc] at h ⊢
    rw [nodeStep_nUps] at h
    by_contra hc
    rw [if_neg (by tauto)] at h
    exact h rfl
  obtain ⟨l1, e', l2, hl, a1, a2, a3, a4⟩ := nodeRun_started_imp c hb h1 h2 h3 _ hs
  have hpre : l ++ [e] = (l1 ++ [e']) ++ l2 := by rw [hl]; simp
  refine ⟨?_, ?_, ?_, l1 ++ [e'], ⟨l2, hpre.symm⟩, a4⟩
  · rw [hpre]; exact lt_of_lt_of_le a1 (framesWith_mono _ _ _)
  · rw [hpre]; exact lt_of_lt_of_le a2 (framesWith_mono _ _ _)
  · refine le_trans a3 ?_
    rcases List.eq_nil_or_concat l2 with rfl | ⟨l3, e3, rfl⟩
    · have := List.append_inj_right' (s₁ := l) (s₂ := l1) (t₁ := [e]) (t₂ := [e'])
        (by rw [hl]) rfl
      simp only [List.cons.injEq, and_true] at this
      rw [this]
    · have h5 : l ++ [e] = (l1 ++ e' :: l3) ++ [e3] := by rw [hl]; simp
      have h6 := List.append_inj' h5 rfl
      rw [h6.1, List.pairwise_append] at ht
      exact ht.2.2 e' (by simp) e (by simp)

/-- C25, the converse: at an event where the counts and the time suffice and the matrices pass the
check, updating is switched on. -/
theorem C25_starts (c : NodeCfg F n K W T) (hb : c.batchInit = false)
    {s : NodeSt F n K W} (h1 : s.scm.numRyy = 0) (h2 : s.scm.numRnn = 0)
    (l : List (UpEv F n K T)) (e : UpEv F n K T)
    (ha : Fintype.card n < (framesWith true (l ++ [e])).length)
    (hi : Fintype.card n < (framesWith false (l ++ [e])).length) (ht : c.startAfter ≤ e.t)
    (hv : c.valid (nodeRun c s (l ++ [e])).scm.rnn (nodeRun c s (l ++ [e])).scm.ryy = true) :
    (nodeRun c s (l ++ [e])).started = true := by
  obtain ⟨n1, n2, -⟩ := nodeRun_scm c h1 h2 (l ++ [e])
  rw [nodeRun_snoc, nodeStep_scm] at n1 n2 hv
  rw [nodeRun_snoc, nodeStep_started]
  unfold checkCov
  rw [hb]
  simp only [reduceCtorEq, if_false]
  cases hs : (nodeRun c s l).started with
  | true => simp
  | false => rw [if_pos ⟨rfl, ht⟩, if_pos ⟨by omega, by omega⟩, if_pos hv]

/-- C25, never stops again: once switched on, updating stays on, and every later event that is not
bypassed increments the number of updates and stores the filter computed from the covariance
matrices of that very event as the next iteration's filter. -/
theorem C25_stays (c : NodeCfg F n K W T) (s : NodeSt F n K W)
    (l l' : List (UpEv F n K T)) (h : (nodeRun c s l).started = true) :
    (nodeRun c s (l ++ l')).started = true ∧
    ∀ e : UpEv F n K T, e.bypass = false → c.bypassAll = false →
      (nodeRun c s (l ++ l' ++ [e])).nUps = (nodeRun c s (l ++ l')).nUps + 1 ∧
      (nodeRun c s (l ++ l' ++ [e])).w (nodeRun c s (l ++ l' ++ [e])).i =
        c.upd (nodeRun c s (l ++ l' ++ [e])).scm.ryy (nodeRun c s (l ++ l' ++ [e])).scm.rnn := by
  have hs := nodeRun_started_mono c s l l' h
  refine ⟨hs, fun e he hb => ?_⟩
  have hs' := nodeRun_started_mono c s (l ++ l') [e] hs
  rw [nodeRun_snoc] at hs' ⊢
  refine ⟨by rw [nodeStep_nUps, if_pos ⟨he, hb, hs'⟩], ?_⟩
  rw [nodeStep_i, nodeStep_scm]
  rw [nodeStep_started] at hs'
  unfold nodeStep
  simp only [he, hb, hs', reduceCtorEq, if_false, and_self, if_true]

/-- C25: with covariance matrices initialised from batch estimates updating starts at once. -/
theorem C25_batch_init (c : NodeCfg F n K W T) (hb : c.batchInit = true) (s : NodeSt F n K W)
    (l : List (UpEv F n K T)) (hl : l ≠ []) : (nodeRun c s l).started = true := by
  obtain ⟨l1, e, rfl⟩ := (List.eq_nil_or_concat l).resolve_left hl
  rw [List.concat_eq_append, nodeRun_snoc, nodeStep_started]
  unfold checkCov
  rw [if_pos hb]

/-- The demo history: with one channel, two inactive and two active frames are needed; they are
complete at the fourth frame (time 3), where updating starts; two updates are made. -/
example : (nodeRun (scmDemo true) scmDemo0 (scmDemoL.take 3)).started = false ∧
    (nodeRun (scmDemo true) scmDemo0 (scmDemoL.take 4)).started = true ∧
    (nodeRun (scmDemo true) scmDemo0 scmDemoL).nUps = 2 := ⟨rfl, rfl, rfl⟩

/-! ## C56 -/

/-- C56: with an initial filter that is the same for all iterations, the filter held after an event
is the filter held before it unless the event made an update; then it is the filter computed from
the covariance matrices of that event. -/
theorem C56_filter_held (c : NodeCfg F n K W T) {s : NodeSt F n K W} {w0 : W}
    (hw : ∀ j, s.w j = w0) (l : List (UpEv F n K T)) (e : UpEv F n K T) :
    (nodeRun c s (l ++ [e])).w (nodeRun c s (l ++ [e])).i =
      if (nodeRun c s (l ++ [e])).nUps = (nodeRun c s l).nUps
      then (nodeRun c s l).w (nodeRun c s l).i
      else c.upd (nodeRun c s (l ++ [e])).scm.ryy (nodeRun c s (l ++ [e])).scm.rnn := by
  obtain ⟨f1, f2⟩ := nodeRun_filter c hw l
  have hst := nodeRun_started_mono c s l [e]
  rw [nodeRun_snoc] at hst ⊢
  rw [nodeStep_nUps, nodeStep_i, nodeStep_scm]
  rw [nodeStep_started] at hst ⊢
  generalize nodeRun c s l = st at *
  unfold nodeStep
  simp only
  generalize checkCov c (scmUpdate c.use1st c.beta st.scm e.y e.vad e.vad) st.started e.t = b at hst
  cases hb : e.bypass with
  | true => simp
  | false =>
    simp only [reduceCtorEq, if_false, true_and]
    by_cases h : c.bypassAll = false ∧ b = true
    · rw [if_pos h, if_pos h, if_neg (by omega)]
      simp
    · rw [if_neg h, if_neg h, if_pos (by omega)]
      dsimp only
      rw [f1 _ (by omega), f2]
      by_cases hb' : c.bypassAll = true
      · exact Or.inr hb'
      · left
        cases hs : st.started with
        | false => rfl
        | true => exact absurd ⟨by simpa using hb', hst hs⟩ h

/-- C56: in particular, before the first update the filter is the initial one. -/
theorem C56_initial_filter (c : NodeCfg F n K W T) {s : NodeSt F n K W} {w0 : W}
    (hw : ∀ j, s.w j = w0) (l : List (UpEv F n K T))
    (h : (nodeRun c s l).nUps = 0) : (nodeRun c s l).w (nodeRun c s l).i = w0 := by
  induction l using List.reverseRecOn with
  | nil => exact hw _
  | append_singleton l e ih =>
    have h0 : (nodeRun c s l).nUps = 0 := by
      rw [nodeRun_snoc, nodeStep_nUps] at h; omega
    rw [C56_filter_held c hw, if_pos (by rw [h, h0]), ih h0]

/-- C56: three of the four initialisation types give an array that is the same for all
iterations, with value 1 at the reference channel except for 'fixedValue'. -/
theorem C56_constant_inits [DecidableEq n] (refIdx : n) (fixed : K) (rand : Nat → Frame F n K)
    {typ : String} {w : Nat → Frame F n K} (hw : initFilter typ refIdx fixed rand = .ok w)
    (ht : typ ≠ "random") :
    (∀ i j, w i = w j) ∧ (typ ≠ "fixedValue" → ∀ i f, w i f refIdx = 1) ∧
    (typ = "selectFirstSensor" → ∀ i f c, c ≠ refIdx → w i f c = 0) := by
  unfold initFilter at hw
  by_cases h1 : typ = "selectFirstSensor"
  · rw [if_pos h1] at hw
    cases hw
    exact ⟨fun _ _ => rfl, fun _ _ _ => if_pos rfl, fun _ _ _ c h => if_neg h⟩
  by_cases h2 : typ = "fixedValue"
  · rw [if_neg h1, if_neg ht, if_pos h2] at hw
    cases hw
    exact ⟨fun _ _ => rfl, fun h' => absurd h2 h', fun h' => absurd h' h1⟩
  by_cases h3 : typ = "selectFirstSensor_andFixedValue"
  · rw [if_neg h1, if_neg ht, if_neg h2, if_pos h3] at hw
    cases hw
    exact ⟨fun _ _ => rfl, fun _ _ _ => if_pos rfl, fun h' => absurd h' h1⟩
  · rw [if_neg h1, if_neg ht, if_neg h2, if_neg h3] at hw
    cases hw

/-- C56: the types accepted are exactly the four documented ones. -/
theorem C56_types [DecidableEq n] (refIdx : n) (fixed : K) (rand : Nat → Frame F n K)
    (typ : String) : (∃ w, initFilter typ refIdx fixed rand = .ok w) ↔
      typ ∈ ["selectFirstSensor", "random", "fixedValue", "selectFirstSensor_andFixedValue"] := by
  unfold initFilter
  simp only [List.mem_cons, List.not_mem_nil, or_false]
  by_cases h1 : typ = "selectFirstSensor"
  · simp [h1]
  by_cases h2 : typ = "random"
  · simp [h2]
  by_cases h3 : typ = "fixedValue"
  · simp [h3]
  by_cases h4 : typ = "selectFirstSensor_andFixedValue"
  · simp [h4]
  · simp [h1, h2, h3, h4]

example : ∃ w, initFilter (F := Unit) (K := ℂ) "selectFirstSensor" (0 : Fin 2) 0 (fun _ _ _ => 0)
    = .ok w ∧ w 3 () 0 = 1 ∧ w 3 () 1 = 0 := ⟨_, rfl, rfl, rfl⟩

end

/-- C56 fails for the initialisation type 'random', whose array differs between iterations: an
event without update and without bypass changes the filter held. -/
theorem C56_refuted_random_init : ∃ (c : NodeCfg Unit (Fin 1) ℂ Nat Nat)
    (s : NodeSt Unit (Fin 1) ℂ Nat) (e : UpEv Unit (Fin 1) ℂ Nat),
    e.bypass = false ∧ (nodeRun c s [e]).nUps = s.nUps ∧
    (nodeRun c s [e]).w (nodeRun c s [e]).i ≠ s.w s.i :=
  ⟨scmDemo true, { scmDemo0 with w := fun j => j }, ⟨fun _ _ => 1, true, 0, false⟩, rfl, rfl,
    by decide⟩

/-! ## C32 -/

section
variable {F n K : Type} [Fintype n] [Field K] [StarRing K]

/-- C32: batch covariances. They can be computed exactly when there are at least as many VAD
decisions as frames (`IndexError` otherwise); they then are the averages of `y yᴴ` over the frames
whose own decision is active / inactive; decisions past the last frame are ignored. -/
theorem C32_average (frames : List (Frame F n K)) (vad : List Bool) :
    (vad.length < frames.length → covBatch frames vad = .error .indexError) ∧
    (frames.length ≤ vad.length → ∃ Ryy Rnn, covBatch frames vad = .ok (Ryy, Rnn) ∧
      ∀ (b : Bool), ((frames.zip vad).countP fun p => p.2 == b) ≠ 0 → ∀ (f : F) (i j : n),
        (if b then Ryy else Rnn) f i j =
        ((frames.zip vad).map fun p =>
          if p.2 = b then p.1 f i * star (p.1 f j) else 0).sum /
          ((frames.zip vad).countP fun p => p.2 == b : ℕ)) := by
  constructor
  · intro h
    unfold covBatch
    simp only
    rw [if_neg (by omega : ¬ vad.length > frames.length),
      if_pos (by omega : vad.length ≠ frames.length)]
  · intro h
    obtain ⟨R1, R2, h1, h2⟩ := covBatch_ok frames vad h
    exact ⟨R1, R2, h1, fun b _ => h2 b⟩

example : ∃ (frames : List (Frame Unit (Fin 1) ℂ)) (vad : List Bool),
    frames.length ≤ vad.length ∧ ((frames.zip vad).countP fun p => p.2 == true) ≠ 0 ∧
    ((frames.zip vad).countP fun p => p.2 == false) ≠ 0 :=
  ⟨[fun _ _ => 1, fun _ _ => 2], [true, false, true], by simp, by simp, by simp⟩

end
end Danse
