import Verif.Proofs.KeyWindow

/-!
# Property C145: the evaluation window

`setKeyTimes fl nSrc startRef stopRef d nodes` are the two calls of `get_metrics_key_time`, with `startComputeMetricsAt`,
`endComputeMetricsAt` and `minNoSpeechDurEndUtterance`: the nodes afterwards, and the exception if there is one.
`nd.window` are the first and the last sample that `compute_metrics` takes. `DocRef` are the documented values and what
they mean (Spec/KeyWindow.lean).
-/

namespace Danse
section
variable {fl : PyFloat}

theorem getKeyTime_length {r : KeyRef} {vad : List Bool} {fs d t : ℚ} (h : getKeyTime r vad fs d = .ok t) : 2 ≤ vad.length := by
  match vad with
  | [] => cases h
  | [_] => cases h
  | _ :: _ :: _ => simp

theorem name_afterBeg2nd (x : List Char) : (DocRef.afterBeg2nd x).name = "after_beginning_2nd_utterance_".toList ++ x := rfl
theorem name_afterS (x : List Char) : (DocRef.afterS x).name = "after_".toList ++ (x ++ "s".toList) := rfl
theorem name_afterMs (x : List Char) : (DocRef.afterMs x).name = "after_".toList ++ (x ++ "ms".toList) := rfl

theorem kwMapOk {α β : Type} {x : Except PyErr α} {f : α → β} {b : β} (h : x.map f = .ok b) : ∃ a, x = .ok a ∧ b = f a := by
  cases x with
  | error e => cases h
  | ok a => exact ⟨a, rfl, by injection h with h; exact h.symm⟩

theorem kwMapErr {α β : Type} {x : Except PyErr α} {f : α → β} {e : PyErr} (h : x.map f = .error e) : x = .error e := by
  cases x with
  | error e' => injection h with h; rw [h]
  | ok a => cases h

theorem kwBindErr {α β : Type} {x : Except PyErr α} {f : α → Except PyErr β} {e : PyErr} (h : (x >>= f) = .error e) :
    x = .error e ∨ ∃ a, x = .ok a ∧ f a = .error e := by
  cases x with
  | error e' => left; injection h with h; rw [h]
  | ok a => exact .inr ⟨a, rfl, h⟩

/-- C145 (time): a documented value gives the documented position in the recording of the node. -/
theorem C145_time {r : DocRef} (hr : r.Ok) {vad : List Bool} {fs d : ℚ} (hfs : fs ≠ 0) {o : Option ℚ}
    (h : keyTimeOf fl r.name vad fs d = .ok o) : ∃ p, r.At fl vad fs d p ∧ o = some (p / fs) := by
  cases r with
  | end1st =>
    have h := (keyTimeOf_end1st fl vad fs d).symm.trans h
    obtain ⟨t, ht, ho⟩ := kwMapOk h
    obtain ⟨i, j, h1, h2⟩ := (C61_end_first_utterance (getKeyTime_length ht) fs d).1 t ht
    exact ⟨i, ⟨i, j, h1, rfl⟩, by rw [ho, h2]⟩
  | beg1st =>
    have h := (keyTimeOf_beg1st fl vad fs d).symm.trans h
    obtain ⟨t, ht, ho⟩ := kwMapOk h
    obtain ⟨i, h1, h2, h3⟩ := (C61_beginning_first_utterance (getKeyTime_length ht) fs d).1 t ht
    exact ⟨i, ⟨i, h1, h2, rfl⟩, by rw [ho, h3]⟩
  | beg2nd =>
    have h := (keyTimeOf_beg2nd fl vad fs d).symm.trans h
    obtain ⟨t, ht, ho⟩ := kwMapOk h
    obtain ⟨i, j, h1, h2⟩ := (C61_beginning_second_utterance (getKeyTime_length ht) fs d none).1 t ht
    exact ⟨j, ⟨i, j, h1, rfl⟩, by rw [ho, h2]; simp⟩
  | afterBeg2nd x =>
    have hr : Plain x := hr
    rw [name_afterBeg2nd, keyTimeOf_afterBeg2nd fl vad fs d hr] at h
    obtain ⟨t, ht, h⟩ := bind_ok_inv h
    obtain ⟨v, hv, ho⟩ := kwMapOk h
    obtain ⟨i, j, h1, h2⟩ := (C61_beginning_second_utterance (getKeyTime_length ht) fs d none).1 t ht
    refine ⟨j + v / 1000 * fs, ⟨i, j, v, h1, hv, rfl⟩, ?_⟩
    rw [ho, h2]
    congr 1
    field_simp
    simp
  | afterS x =>
    have hr : Plain x := hr
    rw [name_afterS, keyTimeOf_after fl vad fs d (x := x) (u := "s".toList) hr chars_b2] at h
    rw [afterSec_s _ hr] at h
    obtain ⟨t, ht, h⟩ := bind_ok_inv h
    obtain ⟨v, hv, ho⟩ := kwMapOk h
    exact ⟨v * fs, ⟨v, hv, rfl⟩, by rw [ho]; field_simp⟩
  | afterMs x =>
    have hr : Plain x := hr
    rw [name_afterMs, keyTimeOf_after fl vad fs d (x := x) (u := "ms".toList) hr chars_b3] at h
    rw [afterSec_ms] at h
    obtain ⟨t, ht, h⟩ := bind_ok_inv h
    obtain ⟨v', hv', ho⟩ := kwMapOk h
    obtain ⟨v, hv, hv2⟩ := kwMapOk hv'
    exact ⟨v / 1000 * fs, ⟨v, hv, rfl⟩, by rw [ho, hv2]; congr 1; field_simp⟩

/-- C145 (exceptions): for a recording of two samples or more, the exceptions are `IndexError` where the pause or the utterance does
not exist, and the one of `float`. -/
theorem C145_raises {r : DocRef} (hr : r.Ok) {vad : List Bool} (h2 : 2 ≤ vad.length) {fs d : ℚ} {e : PyErr}
    (h : keyTimeOf fl r.name vad fs d = .error e) :
    (r = .beg1st ∧ e = .indexError ∧ ∀ m : Nat, vad[m]? ≠ some true) ∨
    ((r = .end1st ∨ r = .beg2nd ∨ ∃ x, r = .afterBeg2nd x) ∧ e = .indexError ∧ ∀ i j, Pause vad i j → (j : ℚ) - i < d * fs) ∨
    ∃ x, (r = .afterBeg2nd x ∨ r = .afterS x ∨ r = .afterMs x) ∧ fl x = .error e := by
  have haf : ∀ {e}, getKeyTime (.after 0) vad fs d ≠ .error e := by
    intro e h
    match vad, h2 with
    | _ :: _ :: _, _ => cases h
  cases r with
  | end1st =>
    have h := (keyTimeOf_end1st fl vad fs d).symm.trans h
    have := (C61_end_first_utterance h2 fs d).2 e (kwMapErr h)
    exact .inr (.inl ⟨.inl rfl, this⟩)
  | beg1st =>
    have h := (keyTimeOf_beg1st fl vad fs d).symm.trans h
    exact .inl ⟨rfl, (C61_beginning_first_utterance h2 fs d).2 e (kwMapErr h)⟩
  | beg2nd =>
    have h := (keyTimeOf_beg2nd fl vad fs d).symm.trans h
    have := (C61_beginning_second_utterance h2 fs d none).2 e (kwMapErr h)
    exact .inr (.inl ⟨.inr (.inl rfl), this⟩)
  | afterBeg2nd x =>
    have hr : Plain x := hr
    rw [name_afterBeg2nd, keyTimeOf_afterBeg2nd fl vad fs d hr] at h
    rcases kwBindErr h with h | ⟨t, -, h⟩
    · have := (C61_beginning_second_utterance h2 fs d none).2 e h
      exact .inr (.inl ⟨.inr (.inr ⟨x, rfl⟩), this⟩)
    · exact .inr (.inr ⟨x, .inl rfl, kwMapErr h⟩)
  | afterS x =>
    have hr : Plain x := hr
    rw [name_afterS, keyTimeOf_after fl vad fs d (x := x) (u := "s".toList) hr chars_b2] at h
    rw [afterSec_s _ hr] at h
    rcases kwBindErr h with h | ⟨t, -, h⟩
    · exact absurd h haf
    · exact .inr (.inr ⟨x, .inr (.inl rfl), kwMapErr h⟩)
  | afterMs x =>
    have hr : Plain x := hr
    rw [name_afterMs, keyTimeOf_after fl vad fs d (x := x) (u := "ms".toList) hr chars_b3] at h
    rw [afterSec_ms] at h
    rcases kwBindErr h with h | ⟨t, -, h⟩
    · exact absurd h haf
    · exact .inr (.inr ⟨x, .inr (.inr rfl), kwMapErr (kwMapErr h)⟩)

theorem setKeyTimes_ok {nSrc : Nat} {startRef stopRef : Option (List Char)} {d : ℚ} {nodes out : List KeyNode}
    (h : setKeyTimes fl nSrc startRef stopRef d nodes = (out, none)) :
    nodes ≠ [] ∧ nSrc ≤ 1 ∧ ∃ mid, keyTimeLoop fl startRef d .start nodes = (mid, none) ∧
      keyTimeLoop fl stopRef d .stop mid = (out, none) := by
  unfold setKeyTimes metricsKeyTime at h
  by_cases h1 : nodes = []
  · rw [if_pos h1] at h; simp at h
  rw [if_neg h1] at h
  by_cases h2 : nSrc > 1
  · rw [if_pos h2] at h; simp at h
  rw [if_neg h2] at h
  cases hk : keyTimeLoop fl startRef d .start nodes with
  | mk mid er =>
    rw [hk] at h
    cases er with
    | some e => simp at h
    | none =>
      simp only at h
      have hne : mid ≠ [] := by
        intro hm
        have := (keyTimeLoop_ok hk).1
        rw [hm] at this
        exact h1 (List.length_eq_zero_iff.mp this.symm)
      rw [if_neg hne, if_neg h2] at h
      exact ⟨h1, by omega, mid, rfl, h⟩

/-- C145 (several sources): with more than one desired source the call is refused, and no time is changed. -/
theorem C145_sources {nSrc : Nat} (h : 1 < nSrc) {nodes : List KeyNode} (hn : nodes ≠ []) (startRef stopRef : Option (List Char))
    (d : ℚ) : setKeyTimes fl nSrc startRef stopRef d nodes = (nodes, some .valueError) := by
  unfold setKeyTimes metricsKeyTime
  rw [if_neg hn, if_pos h]

/-- C145 (window): after the two calls without exception, every node is evaluated from the first sample, or from the documented position
`p`, up to the last sample, or up to the documented position `q`, both found in the voice activity of that node. -/
theorem C145_window {nSrc : Nat} {sr er : Option DocRef} (hs : ∀ r ∈ sr, r.Ok) (he : ∀ r ∈ er, r.Ok) {d : ℚ}
    {nodes out : List KeyNode} (h : setKeyTimes fl nSrc (sr.map DocRef.name) (er.map DocRef.name) d nodes = (out, none))
    {k : Nat} {nd : KeyNode} (hk : nodes[k]? = some nd) (hfs : nd.fs ≠ 0) :
    ∃ (nd' : KeyNode) (p q : ℚ), out[k]? = some nd' ∧ nd'.window = .ok (⌊p⌋, ⌊q⌋) ∧
      (sr = none → p = 0) ∧ (∀ r ∈ sr, r.At fl nd.vad nd.fs d p) ∧
      (er = none → q = nd.len) ∧ ∀ r ∈ er, r.At fl nd.vad nd.fs d q := by
  obtain ⟨-, -, mid, h1, h2⟩ := setKeyTimes_ok h
  obtain ⟨t, ht, hm⟩ := (keyTimeLoop_ok h1).2 k nd hk
  obtain ⟨u, hu, ho⟩ := (keyTimeLoop_ok h2).2 k _ hm
  have hp : ∃ p, t = some (p / nd.fs) ∧ (sr = none → p = 0) ∧ (∀ r ∈ sr, r.At fl nd.vad nd.fs d p) := by
    cases sr with
    | none =>
      refine ⟨0, ?_, fun _ => rfl, fun r hr => by cases hr⟩
      injection ht with ht
      rw [← ht]
      simp
    | some r =>
      obtain ⟨p, hp, ht⟩ := C145_time (hs r rfl) hfs ht
      exact ⟨p, ht, (fun h => by cases h), fun r' hr' => by cases hr'; exact hp⟩
  have hq : ∃ q, u = some (q / nd.fs) ∧ (er = none → q = nd.len) ∧ (∀ r ∈ er, r.At fl nd.vad nd.fs d q) := by
    cases er with
    | none =>
      refine ⟨nd.len, ?_, fun _ => rfl, fun r hr => by cases hr⟩
      injection hu with hu
      rw [← hu]
      rfl
    | some r =>
      obtain ⟨p, hp, ht⟩ := C145_time (he r rfl) (vad := nd.vad) (fs := nd.fs) hfs hu
      exact ⟨p, ht, (fun h => by cases h), fun r' hr' => by cases hr'; exact hp⟩
  obtain ⟨p, rfl, hp1, hp2⟩ := hp
  obtain ⟨q, rfl, hq1, hq2⟩ := hq
  refine ⟨_, p, q, ho, ?_, hp1, hp2, hq1, hq2⟩
  change Except.ok (⌊p / nd.fs * nd.fs⌋, ⌊q / nd.fs * nd.fs⌋) = _
  rw [div_mul_cancel₀ _ hfs, div_mul_cancel₀ _ hfs]

/-- C145 (history): the times that were there before do not matter: on the same recordings the calls end with the same exception or
none, and without one they leave the same nodes (so `ensure_consistency` gives what `build_wasn` would have given, and
a second call changes nothing). -/
theorem C145_history {nSrc : Nat} {startRef stopRef : Option (List Char)} {d : ℚ} {a b : List KeyNode} (h : SameRec a b) :
    (setKeyTimes fl nSrc startRef stopRef d a).2 = (setKeyTimes fl nSrc startRef stopRef d b).2 ∧
    ((setKeyTimes fl nSrc startRef stopRef d a).2 = none →
      (setKeyTimes fl nSrc startRef stopRef d a).1 = (setKeyTimes fl nSrc startRef stopRef d b).1) := by
  have hnil : ∀ {a b : List KeyNode}, SameRec a b → (a = [] ↔ b = []) := by
    intro a b h
    have := congrArg List.length h
    simp only [List.length_map] at this
    rw [← List.length_eq_zero_iff, ← List.length_eq_zero_iff, this]
  unfold setKeyTimes metricsKeyTime
  simp only [hnil h]
  by_cases h1 : b = []
  · simp [h1]
  by_cases h2 : nSrc > 1
  · simp [h1, h2]
  simp only [if_neg h1, if_neg h2]
  obtain ⟨i1, i2, i3, -⟩ := keyTimeLoop_rec (fl := fl) (ref := startRef) (d := d) (ty := .start) h
  generalize hA : keyTimeLoop fl startRef d .start a = A at i1 i2 i3
  generalize hB : keyTimeLoop fl startRef d .start b = B at i1 i2 i3
  obtain ⟨A1, A2⟩ := A
  obtain ⟨B1, B2⟩ := B
  simp only at i1 i2 i3
  subst i2
  cases A2 with
  | some e => simp
  | none =>
    simp only [hnil i1]
    by_cases h3 : B1 = []
    · simp [h3]
    simp only [if_neg h3]
    obtain ⟨j1, j2, j3, j4⟩ := keyTimeLoop_rec (fl := fl) (ref := stopRef) (d := d) (ty := .stop) i1
    refine ⟨j2, fun hn => ?_⟩
    have j3 := j3 hn
    have j4 := j4 (i3 rfl)
    generalize (keyTimeLoop fl stopRef d .stop A1).1 = X at j1 j3 j4
    generalize (keyTimeLoop fl stopRef d .stop B1).1 = Y at j1 j3 j4
    clear hA hB i1 i3 j2 hn
    unfold SameRec at j1
    induction X generalizing Y with
    | nil => symm; simpa using j1
    | cons x X ih =>
      cases Y with
      | nil => simp at j1
      | cons y Y =>
        simp only [List.map_cons, List.cons.injEq, Prod.mk.injEq] at j1 j3 j4
        rw [ih Y j1.2 j3.2 j4.2]
        congr 1
        cases x
        cases y
        simp_all

/-- C145 (failure): a call that ends with an exception has written the times of the nodes before the one that raised it, and no others. -/
theorem C145_failure {nSrc : Nat} {ref : Option (List Char)} {d : ℚ} {ty : TimeType} {nodes out : List KeyNode} {e : PyErr}
    (hn : nodes ≠ []) (hsrc : nSrc ≤ 1) (h : metricsKeyTime fl nSrc ref d ty nodes = (out, some e)) :
    ∃ (j : Nat) (bad : KeyNode), nodes[j]? = some bad ∧ nodeKeyTime fl ref d ty bad = .error e ∧
      ∀ (k : Nat) nd, nodes[k]? = some nd →
        if k < j then ∃ t, nodeKeyTime fl ref d ty nd = .ok t ∧ out[k]? = some (nd.put ty t) else out[k]? = some nd := by
  unfold metricsKeyTime at h
  rw [if_neg hn, if_neg (by omega)] at h
  exact (keyTimeLoop_error h).2

/-- C145 (other strings): any other value is accepted without an exception by a recording of two samples or more, and evaluating the node
then raises `ValueError`. -/
theorem C145_unknown {ref : List Char} (h1 : ref ≠ "end_1st_utterance".toList) (h2 : ref ≠ "beginning_1st_utterance".toList)
    (h3 : ¬ "beginning_2nd_utterance".toList <:+: ref) (h4 : ¬ "after".toList <+: ref) {nd : KeyNode} (hl : 2 ≤ nd.vad.length)
    (d : ℚ) (ty : TimeType) :
    nodeKeyTime fl (some ref) d ty nd = .ok none ∧ (nd.put ty none).window = .error .valueError := by
  constructor
  · have hg : ∃ t, getKeyTime (.after 0) nd.vad nd.fs d = .ok t := by
      obtain ⟨vad, len, fs, s, e⟩ := nd
      match vad, hl with
      | _ :: _ :: _, _ => exact ⟨_, rfl⟩
    obtain ⟨t, hg⟩ := hg
    have e1 : nodeKeyTime fl (some ref) d ty nd = keyTimeOf fl ref nd.vad nd.fs d := rfl
    rw [e1]
    unfold keyTimeOf
    rw [if_neg h1, if_neg h2, if_neg h3, if_neg h4, hg, kwBind]
    rfl
  · unfold KeyNode.window KeyNode.put
    cases ty
    · rfl
    · simp only
      cases nd.start <;> rfl

/-- C145 (configuration): a start time 'after_<x>s' is refused if and only if it is later than the end of the signal. -/
theorem C145_config {x : List Char} (hx : Plain x) {v : ℚ} (hv : fl x = .ok v) (sigDur : ℚ) :
    checkStartRef fl sigDur (some (DocRef.afterS x).name) = if sigDur < v then .error .valueError else .ok () := by
  have hb : 'b' ∉ "after_".toList ++ (x ++ "s".toList) := by
    simp only [List.mem_append, not_or]
    exact ⟨chars_b1, plain_not hx (by decide) (by decide), chars_b2⟩
  have hbb : 'b' ∈ "beginning".toList := by decide +kernel
  have hinf : "s".toList <:+: "after_".toList ++ (x ++ "s".toList) :=
    ⟨"after_".toList ++ x, [], by simp only [List.append_assoc, List.append_nil]⟩
  have hc : "after".toList <:+: "after_".toList ++ (x ++ "s".toList) ∧ ¬ "beginning".toList <:+: "after_".toList ++ (x ++ "s".toList) :=
    ⟨(chars_pre.trans (List.prefix_append _ _)).isInfix, not_infix_of_mem 'b' hbb hb⟩
  have ha := afterSec_s fl hx
  rw [hv] at ha
  have hn : (DocRef.afterS x).name = "after_".toList ++ (x ++ "s".toList) := name_afterS x
  rw [hn]
  exact checkStartRef_after hc hinf ha sigDur

end

/-! ## Concrete windows -/

/-- Numbers of the examples. -/
def exFloat : PyFloat := fun s => if s = "2".toList then .ok 2 else if s = "500".toList then .ok 500 else .error .valueError

/-- Speech in samples 2, 3, 6, 7 of ten, two samples per second. -/
def exKeyNode (start stop : Option ℚ) : KeyNode :=
  ⟨[false, false, true, true, false, false, true, true, false, false], 10, 2, start, stop⟩

theorem exKeyChanges : vadChanges (exKeyNode none none).vad = [2, 4, 6, 8] := by decide +kernel

theorem exKeyJump : jumpShort [2, 4, 6, 8] (1 / 2 * 2) 1 = .ok 1 := by
  rw [jumpShort, dif_pos (by decide), if_neg (by norm_num)]

theorem exKey_end (a b : Option ℚ) : nodeKeyTime exFloat (some "end_1st_utterance".toList) (1 / 2) .start (exKeyNode a b) = .ok (some 2) := by
  have e : nodeKeyTime exFloat (some "end_1st_utterance".toList) (1 / 2) .start (exKeyNode a b) =
      keyTimeOf exFloat "end_1st_utterance".toList (exKeyNode none none).vad 2 (1 / 2) := nodeKeyTime_some ..
  have e2 : getKeyTime .end1st (exKeyNode none none).vad 2 (1 / 2) = .ok 2 := by
    change (jumpShort (vadChanges (exKeyNode none none).vad) (1 / 2 * 2) 1 >>= _ : Except PyErr ℚ) = _
    rw [exKeyChanges, exKeyJump]
    change Except.ok (((4 : Nat) : ℚ) / 2) = _
    norm_num
  rw [e, keyTimeOf_end1st, e2, kwMap]

theorem exKey_after (x : List Char) (hx : Plain x) {v : ℚ} (hv : exFloat x = .ok v) (a b : Option ℚ) (ty : TimeType) :
    nodeKeyTime exFloat (some (DocRef.afterS x).name) (1 / 2) ty (exKeyNode a b) = .ok (some v) := by
  have e : nodeKeyTime exFloat (some (DocRef.afterS x).name) (1 / 2) ty (exKeyNode a b) =
      keyTimeOf exFloat (DocRef.afterS x).name (exKeyNode none none).vad 2 (1 / 2) := nodeKeyTime_some ..
  have e2 : ∃ t, getKeyTime (.after 0) (exKeyNode none none).vad 2 (1 / 2) = .ok t := ⟨_, rfl⟩
  obtain ⟨t, e2⟩ := e2
  rw [e, name_afterS, keyTimeOf_after exFloat _ 2 (1 / 2) hx chars_b2, afterSec_s exFloat hx, hv, e2, kwBind, kwMap]

theorem exPlain2 : Plain "2".toList := by
  have : ∀ c ∈ "2".toList, c.isDigit = true ∨ c = '.' := by decide +kernel
  exact this

theorem exFloat2 : exFloat "2".toList = .ok 2 := by
  unfold exFloat
  rw [if_pos rfl]

/-- The hypotheses of `C145_window` are met: from the end of the first utterance (sample 4) to the end of the recording. -/
example : setKeyTimes exFloat 1 ((some DocRef.end1st).map DocRef.name) (none.map DocRef.name) (1 / 2) [exKeyNode none none] =
      ([exKeyNode (some 2) (some 5)], none) ∧ (exKeyNode (some 2) (some 5)).window = .ok (4, 10) := by
  constructor
  · have h2 : nodeKeyTime exFloat none (1 / 2) .stop (exKeyNode (some 2) none) = .ok (some 5) := by
      change Except.ok (some (((10 : Nat) : ℚ) / 2)) = _
      norm_num
    have e1 : (some DocRef.end1st).map DocRef.name = some "end_1st_utterance".toList := name_end1st
    have e2 : (none : Option DocRef).map DocRef.name = none := Option.map_none ..
    rw [e1, e2]
    exact setKeyTimes_one (exKey_end none none) h2
  · change Except.ok (⌊(2 : ℚ) * 2⌋, ⌊(5 : ℚ) * 2⌋) = _
    norm_num

/-- C145 (refuted: "the window is not empty"): start and end are not compared. From the end of the first utterance (sample 4) to
the beginning of the recording plus 2 s (sample 4): no sample is evaluated, without an exception. -/
theorem C145_refuted_nonempty :
    setKeyTimes exFloat 1 (some DocRef.end1st.name) (some (DocRef.afterS "2".toList).name) (1 / 2) [exKeyNode none none] =
      ([exKeyNode (some 2) (some 2)], none) ∧ (exKeyNode (some 2) (some 2)).window = .ok (4, 4) := by
  constructor
  · have h2 := exKey_after "2".toList exPlain2 (v := 2) exFloat2 (some 2) none .stop
    have e1 : some DocRef.end1st.name = some "end_1st_utterance".toList := name_end1st
    rw [e1]
    exact setKeyTimes_one (exKey_end none none) h2
  · change Except.ok (⌊(2 : ℚ) * 2⌋, ⌊(2 : ℚ) * 2⌋) = _
    norm_num

/-- C145 (refuted: "an exception leaves the times as they were"): the second node has no pause; the first one keeps its new time. -/
theorem C145_refuted_atomic :
    metricsKeyTime exFloat 1 (some DocRef.end1st.name) (1 / 2) .start
        [exKeyNode (some 0) (some 5), ⟨[false, true, true], 3, 2, some 0, some (3 / 2)⟩] =
      ([exKeyNode (some 2) (some 5), ⟨[false, true, true], 3, 2, some 0, some (3 / 2)⟩], some .indexError) := by
  have h2 : nodeKeyTime exFloat (some "end_1st_utterance".toList) (1 / 2) .start
      ⟨[false, true, true], 3, 2, some 0, some (3 / 2)⟩ = .error .indexError := by
    have e2 : getKeyTime .end1st [false, true, true] 2 (1 / 2) = .error .indexError := by
      change (jumpShort (vadChanges [false, true, true]) (1 / 2 * 2) 1 >>= _ : Except PyErr ℚ) = _
      rw [show vadChanges [false, true, true] = [1] from by decide +kernel, jumpShort, dif_neg (by decide)]
      rfl
    rw [nodeKeyTime_some, keyTimeOf_end1st, e2, kwMapE]
  have e1 : some DocRef.end1st.name = some "end_1st_utterance".toList := name_end1st
  rw [e1]
  exact metricsKeyTime_two (exKey_end (some 0) (some 5)) h2

/-- A string that is not documented: `C145_unknown` applies. -/
example : "second_utterance".toList ≠ "end_1st_utterance".toList ∧ "second_utterance".toList ≠ "beginning_1st_utterance".toList ∧
    ¬ "beginning_2nd_utterance".toList <:+: "second_utterance".toList ∧ ¬ "after".toList <+: "second_utterance".toList ∧
    2 ≤ (exKeyNode none none).vad.length := by
  decide +kernel

/-- 'after_2s' is accepted for a signal of 2 s, whose window is then empty, and refused for a shorter one. -/
example : checkStartRef exFloat 2 (some (DocRef.afterS "2".toList).name) = .ok () ∧
    checkStartRef exFloat 1 (some (DocRef.afterS "2".toList).name) = .error .valueError ∧
    checkStartRef exFloat 2 none = .error .typeError := by
  refine ⟨?_, ?_, rfl⟩ <;> rw [C145_config exPlain2 (v := 2) exFloat2]
  · rw [if_neg (by norm_num)]
  · rw [if_pos (by norm_num)]

end Danse
