import Verif.Spec.KeyWindow
import Verif.Props.Vad
import Verif.Proofs.Config

/-!
# Helper lemmas for C145
-/

namespace Danse

theorem not_infix_of_mem {p s : List Char} (c : Char) (hc : c ∈ p) (hs : c ∉ s) : ¬ p <:+: s :=
  fun h => hs (h.subset hc)

theorem plain_not {x : List Char} (hx : Plain x) {c : Char} (h1 : c.isDigit = false) (h2 : c ≠ '.') : c ∉ x := by
  intro h
  rcases hx c h with h | h
  · rw [h1] at h; cases h
  · exact h2 h

theorem cutStr_mid (a x b : List Char) : cutStr a.length b.length (a ++ (x ++ b)) = x := by
  unfold cutStr
  have : (a ++ (x ++ b)).length - b.length = (a ++ x).length := by simp; omega
  rw [this, ← List.append_assoc, List.take_left', List.drop_left']
  · rfl
  · rfl

theorem lastPart_append {x : List Char} (hx : '_' ∉ x) (a : List Char) : lastPart (a ++ '_' :: x) = x := by
  unfold lastPart
  rw [List.reverse_append, List.reverse_cons, List.append_assoc, List.takeWhile_append_of_pos]
  · simp
  · intro c hc
    simp only [List.mem_reverse] at hc
    simp only [bne_iff_ne, ne_eq]
    rintro rfl
    exact hx hc

theorem chars_end1st : "end_1st_utterance".toList.head? = some 'e' := by decide +kernel
theorem chars_beg1st : "beginning_1st_utterance".toList.head? = some 'b' := by decide +kernel
theorem chars_ne1 : "beginning_1st_utterance".toList ≠ "end_1st_utterance".toList := by decide +kernel
theorem chars_ne2 : "beginning_2nd_utterance".toList ≠ "end_1st_utterance".toList := by decide +kernel
theorem chars_ne3 : "beginning_2nd_utterance".toList ≠ "beginning_1st_utterance".toList := by decide +kernel
theorem chars_no : ¬ "after".toList <:+: "beginning_2nd_utterance".toList := by decide +kernel
theorem chars_after : "after_".toList.head? = some 'a' := by decide +kernel
theorem chars_afterB : "after_beginning_2nd_utterance_".toList.head? = some 'a' := by decide +kernel
theorem chars_b : 'b' ∈ "beginning_2nd_utterance".toList := by decide +kernel
theorem chars_m : 'm' ∈ "ms".toList := by decide +kernel
theorem chars_pre : "after".toList <+: "after_".toList := by decide +kernel
theorem chars_in1 : "beginning_2nd_utterance".toList <:+: "after_beginning_2nd_utterance_".toList := by decide +kernel
theorem chars_in2 : "after".toList <:+: "after_beginning_2nd_utterance_".toList := by decide +kernel
theorem chars_split : "after_beginning_2nd_utterance_".toList = "after_beginning_2nd_utterance".toList ++ ['_'] := by decide +kernel
theorem chars_b1 : 'b' ∉ "after_".toList := by decide +kernel
theorem chars_b2 : 'b' ∉ "s".toList := by decide +kernel
theorem chars_b3 : 'b' ∉ "ms".toList := by decide +kernel
theorem chars_m1 : 'm' ∉ "after_".toList := by decide +kernel
theorem chars_m2 : 'm' ∉ "s".toList := by decide +kernel
theorem chars_len : "after_".toList.length = 6 ∧ "s".toList.length = 1 ∧ "ms".toList.length = 2 := by decide +kernel

theorem append_ne {a x b : List Char} {c d : Char} (ha : a.head? = some c) (hb : b.head? = some d) (h : c ≠ d) : a ++ x ≠ b := by
  intro e
  have := congrArg List.head? e
  rw [List.head?_append, ha, hb] at this
  simp at this
  exact h this

theorem lastPart_doc {x : List Char} (hx : Plain x) : lastPart ("after_beginning_2nd_utterance_".toList ++ x) = x := by
  rw [chars_split, List.append_assoc]
  exact lastPart_append (plain_not hx (by decide) (by decide)) _

theorem kwBind {α β : Type} (a : α) (f : α → Except PyErr β) : (Except.ok a >>= f) = f a := rfl

theorem kwErr {α β : Type} (e : PyErr) (f : α → Except PyErr β) : (Except.error e >>= f) = .error e := rfl

theorem kwMap {α β : Type} (a : α) (f : α → β) : (Except.ok a : Except PyErr α).map f = .ok (f a) := rfl

theorem kwMapE {α β : Type} (e : PyErr) (f : α → β) : (Except.error e : Except PyErr α).map f = .error e := rfl

theorem nodeKeyTime_some (fl : PyFloat) (r : List Char) (d : ℚ) (ty : TimeType) (nd : KeyNode) :
    nodeKeyTime fl (some r) d ty nd = keyTimeOf fl r nd.vad nd.fs d := rfl

theorem name_e1 : DocRef.end1st.name = "end_1st_utterance".toList := rfl

theorem name_end1st : some DocRef.end1st.name = some "end_1st_utterance".toList := congrArg some name_e1

theorem setKeyTimes_one {fl : PyFloat} {r1 r2 : Option (List Char)} {d : ℚ} {nd : KeyNode} {t1 t2 : Option ℚ}
    (h1 : nodeKeyTime fl r1 d .start nd = .ok t1) (h2 : nodeKeyTime fl r2 d .stop (nd.put .start t1) = .ok t2) :
    setKeyTimes fl 1 r1 r2 d [nd] = ([(nd.put .start t1).put .stop t2], none) := by
  simp [setKeyTimes, metricsKeyTime, keyTimeLoop, h1, h2]

theorem metricsKeyTime_two {fl : PyFloat} {r : Option (List Char)} {d : ℚ} {a b : KeyNode} {t : Option ℚ} {e : PyErr}
    (h1 : nodeKeyTime fl r d .start a = .ok t) (h2 : nodeKeyTime fl r d .start b = .error e) :
    metricsKeyTime fl 1 r d .start [a, b] = ([a.put .start t, b], some e) := by
  simp [metricsKeyTime, keyTimeLoop, h1, h2]

theorem checkStartRef_after {fl : PyFloat} {r : List Char} {v : ℚ} (hc : "after".toList <:+: r ∧ ¬ "beginning".toList <:+: r)
    (hi : "s".toList <:+: r) (ha : afterSec fl r = .ok v) (sigDur : ℚ) :
    checkStartRef fl sigDur (some r) = if sigDur < v then .error .valueError else .ok () := by
  unfold checkStartRef
  dsimp only
  rw [if_pos hc, if_pos (Or.inr hi), ha, kwBind]

section
variable (fl : PyFloat) (vad : List Bool) (fs d : ℚ) {x : List Char}

theorem keyTimeOf_end1st : keyTimeOf fl "end_1st_utterance".toList vad fs d = (getKeyTime .end1st vad fs d).map some := by
  unfold keyTimeOf
  rw [if_pos rfl]
  cases getKeyTime .end1st vad fs d <;> rfl

theorem keyTimeOf_beg1st : keyTimeOf fl "beginning_1st_utterance".toList vad fs d = (getKeyTime .beg1st vad fs d).map some := by
  unfold keyTimeOf
  rw [if_neg chars_ne1, if_pos rfl]
  cases getKeyTime .beg1st vad fs d <;> rfl

theorem keyTimeOf_beg2nd : keyTimeOf fl "beginning_2nd_utterance".toList vad fs d =
    (getKeyTime (.beg2nd none) vad fs d).map some := by
  unfold keyTimeOf
  rw [if_neg chars_ne2, if_neg chars_ne3, if_pos List.infix_rfl]
  cases getKeyTime (.beg2nd none) vad fs d with
  | error e => rfl
  | ok t =>
    rw [kwBind, if_neg chars_no]
    rfl

theorem keyTimeOf_afterBeg2nd (hx : Plain x) : keyTimeOf fl ("after_beginning_2nd_utterance_".toList ++ x) vad fs d =
    (getKeyTime (.beg2nd none) vad fs d >>= fun t => (fl x).map fun v => some (t + v / 1000)) := by
  unfold keyTimeOf
  rw [if_neg (append_ne chars_afterB chars_end1st (by decide)), if_neg (append_ne chars_afterB chars_beg1st (by decide)),
    if_pos (chars_in1.trans (List.prefix_append _ _).isInfix), lastPart_doc hx]
  cases getKeyTime (.beg2nd none) vad fs d with
  | error e => rfl
  | ok t =>
    rw [kwBind, kwBind, if_pos (chars_in2.trans (List.prefix_append _ _).isInfix)]
    cases fl x <;> rfl

theorem afterSec_s (hx : Plain x) : afterSec fl ("after_".toList ++ (x ++ "s".toList)) = fl x := by
  have hm : 'm' ∉ "after_".toList ++ (x ++ "s".toList) := by
    simp only [List.mem_append, not_or]
    exact ⟨chars_m1, plain_not hx (by decide) (by decide), chars_m2⟩
  unfold afterSec
  rw [if_neg (not_infix_of_mem 'm' chars_m hm), if_pos ⟨"after_".toList ++ x, [], by simp only [List.append_assoc, List.append_nil]⟩]
  have := cutStr_mid "after_".toList x "s".toList
  rw [chars_len.1, chars_len.2.1] at this
  rw [this]

theorem afterSec_ms : afterSec fl ("after_".toList ++ (x ++ "ms".toList)) = (fl x).map fun v => v * (1 / 1000) := by
  unfold afterSec
  rw [if_pos ⟨"after_".toList ++ x, [], by simp only [List.append_assoc, List.append_nil]⟩]
  have := cutStr_mid "after_".toList x "ms".toList
  rw [chars_len.1, chars_len.2.2] at this
  rw [this]
  cases fl x <;> rfl

theorem keyTimeOf_after (hx : Plain x) {u : List Char} (hu : 'b' ∉ u) : keyTimeOf fl ("after_".toList ++ (x ++ u)) vad fs d =
    (getKeyTime (.after 0) vad fs d >>= fun _ => (afterSec fl ("after_".toList ++ (x ++ u))).map some) := by
  have hb : 'b' ∉ "after_".toList ++ (x ++ u) := by
    simp only [List.mem_append, not_or]
    exact ⟨chars_b1, plain_not hx (by decide) (by decide), hu⟩
  unfold keyTimeOf
  rw [if_neg (append_ne chars_after chars_end1st (by decide)), if_neg (append_ne chars_after chars_beg1st (by decide)),
    if_neg (not_infix_of_mem 'b' chars_b hb)]
  cases getKeyTime (.after 0) vad fs d with
  | error e => rw [kwErr, kwErr]
  | ok t =>
    rw [kwBind, kwBind, if_pos (chars_pre.trans (List.prefix_append _ _))]
    cases afterSec fl ("after_".toList ++ (x ++ u)) <;> rfl

end

/-- What a successful call does. -/
theorem keyTimeLoop_ok {fl : PyFloat} {ref : Option (List Char)} {d : ℚ} {ty : TimeType} {nodes out : List KeyNode}
    (h : keyTimeLoop fl ref d ty nodes = (out, none)) :
    out.length = nodes.length ∧ ∀ (k : Nat) nd, nodes[k]? = some nd →
      ∃ t, nodeKeyTime fl ref d ty nd = .ok t ∧ out[k]? = some (nd.put ty t) := by
  induction nodes generalizing out with
  | nil => simp [keyTimeLoop] at h; subst h; simp
  | cons nd rest ih =>
    unfold keyTimeLoop at h
    cases hn : nodeKeyTime fl ref d ty nd with
    | error e => rw [hn] at h; simp at h
    | ok t =>
      rw [hn] at h
      simp only [Prod.mk.injEq] at h
      obtain ⟨h1, h2⟩ := ih (out := (keyTimeLoop fl ref d ty rest).1) (by rw [← h.2])
      rw [← h.1]
      refine ⟨by simp [h1], fun k nd' hk => ?_⟩
      cases k with
      | zero => simp at hk; subst hk; exact ⟨t, hn, by simp⟩
      | succ k => simp at hk; simpa using h2 k nd' hk

theorem keyTimeLoop_error {fl : PyFloat} {ref : Option (List Char)} {d : ℚ} {ty : TimeType} {nodes out : List KeyNode}
    {e : PyErr} (h : keyTimeLoop fl ref d ty nodes = (out, some e)) :
    out.length = nodes.length ∧ ∃ (j : Nat) (bad : KeyNode), nodes[j]? = some bad ∧ nodeKeyTime fl ref d ty bad = .error e ∧
      ∀ (k : Nat) nd, nodes[k]? = some nd →
        if k < j then ∃ t, nodeKeyTime fl ref d ty nd = .ok t ∧ out[k]? = some (nd.put ty t) else out[k]? = some nd := by
  induction nodes generalizing out with
  | nil => simp [keyTimeLoop] at h
  | cons nd rest ih =>
    unfold keyTimeLoop at h
    cases hn : nodeKeyTime fl ref d ty nd with
    | error e' =>
      rw [hn] at h
      simp only [Prod.mk.injEq, Option.some.injEq] at h
      obtain ⟨rfl, rfl⟩ := h
      exact ⟨rfl, 0, nd, by simp, hn, fun k nd' hk => by simpa using hk⟩
    | ok t =>
      rw [hn] at h
      simp only [Prod.mk.injEq] at h
      obtain ⟨h1, j, bad, h2, h3, h4⟩ := ih (out := (keyTimeLoop fl ref d ty rest).1) (by rw [← h.2])
      rw [← h.1]
      refine ⟨by simp [h1], j + 1, bad, by simpa using h2, h3, fun k nd' hk => ?_⟩
      cases k with
      | zero => simp at hk; subst hk; rw [if_pos (by omega)]; exact ⟨t, hn, by simp⟩
      | succ k =>
        simp at hk
        have := h4 k nd' hk
        by_cases hkj : k < j
        · rw [if_pos hkj] at this; rw [if_pos (by omega)]; simpa using this
        · rw [if_neg hkj] at this; rw [if_neg (by omega)]; simpa using this

theorem nodeKeyTime_rec {fl : PyFloat} {ref : Option (List Char)} {d : ℚ} {ty : TimeType} {a b : KeyNode}
    (h : (a.vad, a.len, a.fs) = (b.vad, b.len, b.fs)) : nodeKeyTime fl ref d ty a = nodeKeyTime fl ref d ty b := by
  simp only [Prod.mk.injEq] at h
  obtain ⟨h1, h2, h3⟩ := h
  unfold nodeKeyTime
  rw [h1, h2, h3]

/-- A call on the same recordings: the same exception, and the times it writes. -/
theorem keyTimeLoop_rec {fl : PyFloat} {ref : Option (List Char)} {d : ℚ} {ty : TimeType} {a b : List KeyNode}
    (h : SameRec a b) : SameRec (keyTimeLoop fl ref d ty a).1 (keyTimeLoop fl ref d ty b).1 ∧
      (keyTimeLoop fl ref d ty a).2 = (keyTimeLoop fl ref d ty b).2 ∧
      ((keyTimeLoop fl ref d ty a).2 = none →
        (keyTimeLoop fl ref d ty a).1.map (fun nd => match ty with | .start => nd.start | .stop => nd.stop) =
          (keyTimeLoop fl ref d ty b).1.map (fun nd => match ty with | .start => nd.start | .stop => nd.stop)) ∧
      (a.map (fun nd => match ty with | .start => nd.stop | .stop => nd.start) =
          b.map (fun nd => match ty with | .start => nd.stop | .stop => nd.start) →
        (keyTimeLoop fl ref d ty a).1.map (fun nd => match ty with | .start => nd.stop | .stop => nd.start) =
          (keyTimeLoop fl ref d ty b).1.map (fun nd => match ty with | .start => nd.stop | .stop => nd.start)) := by
  induction a generalizing b with
  | nil =>
    cases b with
    | nil => exact ⟨rfl, rfl, fun _ => rfl, fun _ => rfl⟩
    | cons x y => simp [SameRec] at h
  | cons x xs ih =>
    cases b with
    | nil => simp [SameRec] at h
    | cons y ys =>
      unfold SameRec at h
      simp only [List.map_cons, List.cons.injEq] at h
      obtain ⟨h1, h2⟩ := h
      obtain ⟨i1, i2, i3, i4⟩ := ih (b := ys) h2
      unfold keyTimeLoop
      rw [nodeKeyTime_rec h1]
      cases hn : nodeKeyTime fl ref d ty y with
      | error e => 
        refine ⟨?_, rfl, fun h => by simp at h, fun h => h⟩
        unfold SameRec; simp only [List.map_cons, h1, h2]
      | ok t =>
        simp only [Prod.mk.injEq] at h1
        refine ⟨?_, i2, fun h => ?_, fun h => ?_⟩
        · unfold SameRec at i1 ⊢
          simp only [List.map_cons, i1, List.cons.injEq, and_true]
          cases ty <;> simp [KeyNode.put, h1]
        · simp only [List.map_cons, i3 h, List.cons.injEq, and_true]
          cases ty <;> rfl
        · simp only [List.map_cons, List.cons.injEq] at h
          simp only [List.map_cons, i4 h.2, List.cons.injEq, and_true]
          cases ty <;> exact h.1

end Danse
