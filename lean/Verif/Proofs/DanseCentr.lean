import Verif.Spec.DanseCentr
import Verif.Proofs.Danse2

/-!
# Helper lemmas for C130: the centralised matrices and filters of one node
-/

set_option linter.unusedSectionVars false

namespace Danse
section
variable {F n K W T : Type} [Fintype n] [Field K] [StarRing K] [Preorder T] [DecidableLE T]

/-- A run of update events with two VAD decisions: that of the event, for the matrices, and the node's own. -/
def nodeRun2 (c : NodeCfg F n K W T) (s : NodeSt F n K W) (l : List (UpEv F n K T × Bool)) : NodeSt F n K W :=
  l.foldl (fun s e => nodeStep2 c s e.1.y e.2 e.1.vad e.1.t e.1.bypass) s

variable (c : NodeCfg F n K W T) (s : NodeSt F n K W)

theorem nodeStep2_same (y : Frame F n K) (vad : Bool) (t : T) (b : Bool) :
    nodeStep2 c s y vad vad t b = nodeStep c s y vad t b := rfl

theorem nodeRun2_snoc (l : List (UpEv F n K T × Bool)) (e : UpEv F n K T × Bool) :
    nodeRun2 c s (l ++ [e]) = nodeStep2 c (nodeRun2 c s l) e.1.y e.2 e.1.vad e.1.t e.1.bypass := by
  unfold nodeRun2
  rw [List.foldl_append]; rfl

theorem nodeStep2_scm (y : Frame F n K) (v u : Bool) (t : T) (b : Bool) :
    (nodeStep2 c s y v u t b).scm = scmUpdate c.use1st c.beta s.scm y v u := by
  unfold nodeStep2
  simp only
  split
  · rfl
  · split <;> rfl

theorem nodeStep2_started (y : Frame F n K) (v u : Bool) (t : T) (b : Bool) :
    (nodeStep2 c s y v u t b).started = checkCov c (scmUpdate c.use1st c.beta s.scm y v u) s.started t := by
  unfold nodeStep2
  simp only
  split
  · rfl
  · split <;> rfl

theorem nodeStep2_i (y : Frame F n K) (v u : Bool) (t : T) (b : Bool) : (nodeStep2 c s y v u t b).i = s.i + 1 := by
  unfold nodeStep2
  simp only
  split
  · rfl
  · split <;> rfl

theorem nodeRun2_i (l : List (UpEv F n K T × Bool)) : (nodeRun2 c s l).i = s.i + l.length := by
  induction l using List.reverseRecOn with
  | nil => rfl
  | append_singleton l e ih =>
    rw [nodeRun2_snoc, nodeStep2_i, ih, List.length_append, List.length_singleton, Nat.add_assoc]

theorem nodeRun2_scmRun (l : List (UpEv F n K T × Bool)) :
    (nodeRun2 c s l).scm = scmRun c.use1st c.beta s.scm (l.map fun e => (e.1.y, e.2, e.1.vad)) := by
  induction l using List.reverseRecOn with
  | nil => rfl
  | append_singleton l e ih =>
    rw [nodeRun2_snoc, nodeStep2_scm, ih, List.map_append]
    exact (scmRun_snoc c.use1st c.beta s.scm (l.map fun e => (e.1.y, e.2, e.1.vad)) (e.1.y, e.2, e.1.vad)).symm

theorem nodeRun2_same (l : List (UpEv F n K T × Bool)) (h : ∀ e ∈ l, e.2 = e.1.vad) :
    nodeRun2 c s l = nodeRun c s (l.map (·.1)) := by
  induction l using List.reverseRecOn with
  | nil => rfl
  | append_singleton l e ih =>
    rw [nodeRun2_snoc, ih (fun e' he => h e' (by simp [he])), List.map_append, h e (by simp), nodeStep2_same]
    exact (nodeRun_snoc ..).symm

theorem nodeRun2_counters {s : NodeSt F n K W} (h1 : s.scm.numRyy = 0) (h2 : s.scm.numRnn = 0)
    (l : List (UpEv F n K T × Bool)) :
    (nodeRun2 c s l).scm.numRyy = (l.filter fun e => e.2).length ∧
    (nodeRun2 c s l).scm.numRnn = (l.filter fun e => !e.2).length := by
  rw [nodeRun2_scmRun]
  obtain ⟨a, b⟩ := scmRun_counters c.use1st c.beta s.scm (l.map fun e => (e.1.y, e.2, e.1.vad))
  rw [a, b, h1, h2, zero_add, zero_add, List.filter_map, List.filter_map, List.length_map, List.length_map]
  exact ⟨rfl, rfl⟩

theorem nodeRun2_scmOf {s : NodeSt F n K W} (h1 : s.scm.numRyy = 0) (h2 : s.scm.numRnn = 0)
    (l : List (UpEv F n K T × Bool)) (hv : c.use1st = false ∨ ∀ e ∈ l, e.2 = e.1.vad) :
    (nodeRun2 c s l).scm.ryy = scmOf c.use1st c.beta s.scm.ryy (framesWith true (l.map (·.1))) ∧
    (nodeRun2 c s l).scm.rnn = scmOf c.use1st c.beta s.scm.rnn (framesWith false (l.map (·.1))) := by
  rcases hv with hu | hv
  · have key : ∀ b (R : Cov F n K), scmOf c.use1st c.beta R (framesWith b (l.map (·.1))) =
        expWeighted c.beta R ((l.filter fun e => e.1.vad == b).map fun e => e.1.y) := by
      intro b R
      have : framesWith b (l.map (·.1)) = (l.filter fun e => e.1.vad == b).map fun e => e.1.y := by
        unfold framesWith
        rw [List.filter_map, List.map_map]; rfl
      rw [this, hu]
      cases (l.filter fun e => e.1.vad == b).map fun e => e.1.y with
      | nil => exact (expWeighted_nil _ _).symm
      | cons => rfl
    rw [key, key, nodeRun2_scmRun, hu]
    obtain ⟨a, b⟩ := scmRun_right_away c.beta s.scm (l.map fun e => (e.1.y, e.2, e.1.vad))
    rw [a, b, List.filter_map, List.filter_map, List.map_map, List.map_map]
    constructor
    · congr 2
      apply List.filter_congr
      intro e _
      cases h : e.1.vad <;> simp [h]
    · congr 2
      apply List.filter_congr
      intro e _
      cases h : e.1.vad <;> simp [h]
  · rw [nodeRun2_same c s l hv]
    exact nodeRun_scmOf c h1 h2 _

theorem nodeRun2_row (hi : s.i = 0) (l : List (UpEv F n K T × Bool)) (e : UpEv F n K T × Bool) :
    (nodeRun2 c s (l ++ [e])).w (l.length + 1) =
      (if e.1.bypass then (nodeRun2 c s l).w l.length
      else if c.bypassAll = false ∧ (nodeRun2 c s (l ++ [e])).started = true then
        c.upd (nodeRun2 c s (l ++ [e])).scm.ryy (nodeRun2 c s (l ++ [e])).scm.rnn
      else (nodeRun2 c s l).w (l.length + 1)) ∧
    ∀ j, j ≠ l.length + 1 → (nodeRun2 c s (l ++ [e])).w j = (nodeRun2 c s l).w j := by
  have hl : (nodeRun2 c s l).i = l.length := by rw [nodeRun2_i, hi, zero_add]
  rw [nodeRun2_snoc, nodeStep2_scm, nodeStep2_started]
  generalize nodeRun2 c s l = st at *
  unfold nodeStep2
  simp only
  cases hb : e.1.bypass with
  | true =>
    simp only [if_true, hl]
    exact ⟨trivial, fun j hj => by rw [if_neg hj]⟩
  | false =>
    simp only [reduceCtorEq, if_false]
    by_cases h : c.bypassAll = false ∧
        checkCov c (scmUpdate c.use1st c.beta st.scm e.1.y e.2 e.1.vad) st.started e.1.t = true
    · rw [if_pos h, if_pos h]
      simp only [hl, if_true]
      exact ⟨trivial, fun j hj => by rw [if_neg hj]⟩
    · rw [if_neg h, if_neg h]
      exact ⟨rfl, fun j _ => rfl⟩

theorem nodeRun2_unwritten (hi : s.i = 0) (l : List (UpEv F n K T × Bool)) :
    ∀ j, l.length < j → (nodeRun2 c s l).w j = s.w j := by
  induction l using List.reverseRecOn with
  | nil => intro j _; rfl
  | append_singleton l e ih =>
    intro j hj
    rw [List.length_append, List.length_singleton] at hj
    rw [(nodeRun2_row c s hi l e).2 j (by omega), ih j (by omega)]

theorem nodeRun2_row0 (hi : s.i = 0) (l : List (UpEv F n K T × Bool)) : (nodeRun2 c s l).w 0 = s.w 0 := by
  induction l using List.reverseRecOn with
  | nil => rfl
  | append_singleton l e ih => rw [(nodeRun2_row c s hi l e).2 0 (by omega), ih]

theorem nodeRun2_started (hb : c.batchInit = false) {s : NodeSt F n K W} (h1 : s.scm.numRyy = 0)
    (h2 : s.scm.numRnn = 0) (h3 : s.started = false) (l : List (UpEv F n K T × Bool)) :
    (nodeRun2 c s l).started = true ↔ ∃ l1 e, l1 ++ [e] <+: l ∧ c.startAfter ≤ e.1.t ∧
      Fintype.card n < ((l1 ++ [e]).filter fun e => e.2).length ∧
      Fintype.card n < ((l1 ++ [e]).filter fun e => !e.2).length ∧
      c.valid (nodeRun2 c s (l1 ++ [e])).scm.rnn (nodeRun2 c s (l1 ++ [e])).scm.ryy = true := by
  induction l using List.reverseRecOn with
  | nil =>
    constructor
    · intro h; exact absurd (h3.symm.trans h) (by simp)
    · rintro ⟨l1, e, h, -⟩
      have := List.prefix_nil.mp h
      simp at this
  | append_singleton l e ih =>
    obtain ⟨n1, n2⟩ := nodeRun2_counters c h1 h2 (l ++ [e])
    by_cases hs : (nodeRun2 c s l).started = true
    · obtain ⟨l1, e', hp, r⟩ := ih.mp hs
      constructor
      · intro _
        exact ⟨l1, e', hp.trans (List.prefix_append _ _), r⟩
      · intro _
        rw [nodeRun2_snoc, nodeStep2_started, hs, checkCov_of_started]
    · have hs' : (nodeRun2 c s l).started = false := by simpa using hs
      have hnone := fun h => hs (ih.mpr h)
      have hval : (nodeRun2 c s (l ++ [e])).started = true ↔ c.startAfter ≤ e.1.t ∧
          Fintype.card n < ((l ++ [e]).filter fun e => e.2).length ∧
          Fintype.card n < ((l ++ [e]).filter fun e => !e.2).length ∧
          c.valid (nodeRun2 c s (l ++ [e])).scm.rnn (nodeRun2 c s (l ++ [e])).scm.ryy = true := by
        rw [← n1, ← n2, nodeRun2_snoc, nodeStep2_started, hs', nodeStep2_scm]
        unfold checkCov
        rw [hb]
        simp only [reduceCtorEq, if_false, true_and]
        generalize scmUpdate c.use1st c.beta (nodeRun2 c s l).scm e.1.y e.2 e.1.vad = S
        by_cases ht : c.startAfter ≤ e.1.t
        · by_cases hc : Fintype.card n < S.numRyy ∧ Fintype.card n < S.numRnn
          · cases hv : c.valid S.rnn S.ryy <;> simp [ht, hc.1, hc.2, hv]
          · rw [if_pos ht, if_neg (by exact hc)]
            constructor
            · intro h; cases h
            · rintro ⟨-, a, b, -⟩; exact absurd ⟨a, b⟩ hc
        · rw [if_neg ht]
          constructor
          · intro h; cases h
          · rintro ⟨a, -⟩; exact absurd a ht
      rw [hval]
      constructor
      · intro h; exact ⟨l, e, List.prefix_rfl, h⟩
      · rintro ⟨l1, e', hp, r⟩
        rcases List.prefix_concat_iff.mp hp with h | h
        · rw [h] at r
          obtain ⟨-, h⟩ := List.append_inj' h rfl
          injection h with h
          rw [h] at r
          exact r
        · exact absurd ⟨l1, e', h, r⟩ hnone

end

section
variable {K : Type} [Field K] [StarRing K] [DecidableEq K] {C : CDanseCfg K} {k : Nat}

theorem heardC_snoc (h : List (CObs K)) (o : CObs K) : C.heardC k (h ++ [o]) = C.heardC k h ++
    [⟨fun κ c => coef (o.yC.map (analysis C.D.g.ζ C.D.g.N C.D.g.c C.D.g.h)) κ c *
        C.rotC k ((h ++ [o]).map fun o => (o.t, o.flags)) c κ,
      C.cvad h.length, o.t, C.D.bypass k h.length⟩] := by
  unfold CDanseCfg.heardC
  rw [List.zipIdx_append, List.map_append]
  congr 1
  · apply List.map_congr_left
    rintro ⟨a, i⟩ hi
    have hi := (List.mem_zipIdx hi).2.1
    simp only [zero_add] at hi
    simp only
    rw [List.take_append_of_le_length (by omega)]
  · simp only [List.zipIdx_cons, List.zipIdx_nil, List.map_cons, List.map_nil, zero_add]
    rw [List.take_of_length_le (by simp)]

theorem heardS_snoc (h : List (CObs K)) (o : CObs K) : C.heardS k (h ++ [o]) = C.heardS k h ++
    [⟨fun κ c => coef (o.yS.map (analysis C.D.g.ζ C.D.g.N C.D.g.c C.D.g.h)) κ c, C.D.vad k h.length, o.t,
      C.D.bypass k h.length⟩] := by
  unfold CDanseCfg.heardS
  rw [List.zipIdx_append, List.map_append]
  simp

theorem heardC_length (h : List (CObs K)) : (C.heardC k h).length = h.length := by simp [CDanseCfg.heardC]

theorem heardS_length (h : List (CObs K)) : (C.heardS k h).length = h.length := by simp [CDanseCfg.heardS]

/-- The events with the node's own VAD decisions. -/
def CDanseCfg.withOwn (C : CDanseCfg K) (k : Nat) {m : Nat} (l : List (UpEv (Fin C.D.nb) (Fin m) K ℚ)) :
    List (UpEv (Fin C.D.nb) (Fin m) K ℚ × Bool) := l.zipIdx.map fun (e, i) => (e, C.D.vad k i)

theorem withOwn_snoc {m : Nat} (l : List (UpEv (Fin C.D.nb) (Fin m) K ℚ)) (e : UpEv (Fin C.D.nb) (Fin m) K ℚ) :
    C.withOwn k (l ++ [e]) = C.withOwn k l ++ [(e, C.D.vad k l.length)] := by
  unfold CDanseCfg.withOwn
  rw [List.zipIdx_append, List.map_append]
  simp

theorem withOwn_fst {m : Nat} (l : List (UpEv (Fin C.D.nb) (Fin m) K ℚ)) : (C.withOwn k l).map (·.1) = l := by
  unfold CDanseCfg.withOwn
  rw [List.map_map]
  exact List.zipIdx_map_fst 0 l

theorem withOwn_length {m : Nat} (l : List (UpEv (Fin C.D.nb) (Fin m) K ℚ)) : (C.withOwn k l).length = l.length := by
  simp [CDanseCfg.withOwn]

theorem withOwn_count {m : Nat} (l : List (UpEv (Fin C.D.nb) (Fin m) K ℚ)) (f : Bool → Bool) :
    ((C.withOwn k l).filter fun e => f e.2).length = ((List.range l.length).filter fun i => f (C.D.vad k i)).length := by
  induction l using List.reverseRecOn with
  | nil => rfl
  | append_singleton l e ih =>
    rw [withOwn_snoc, List.filter_append, List.length_append, ih, List.length_append, List.length_singleton,
      List.range_succ, List.filter_append, List.length_append]
    congr 1
    cases h : f (C.D.vad k l.length) <;> simp [h]

/-- State of a node for these estimates after the updates on `h`. -/
structure CNodeInv (C : CDanseCfg K) (k : Nat) (h : List (CObs K)) (s : CNode C.D.nb C.total (C.D.dim k) K) : Prop where
  centr : C.centr = true → s.centr = nodeRun2 (C.kindC k) (C.D.kind0 k C.total (C.wC0 k)) (C.withOwn k (C.heardC k h))
  ssbc : C.ssbc = true → s.ssbc = nodeRun (C.D.kind k (C.D.dim k)) (C.D.kind0 k (C.D.dim k) (C.wS0 k)) (C.heardS k h)
  times : s.times = h.map fun o => (o.t, o.flags)
  offC : C.centr = false → s.centr = C.D.kind0 k C.total (C.wC0 k)
  offS : C.ssbc = false → s.ssbc = C.D.kind0 k (C.D.dim k) (C.wS0 k)

theorem CNodeInv.step {h : List (CObs K)} {s s' : CNode C.D.nb C.total (C.D.dim k) K} (hi : CNodeInv C k h s) {o : CObs K}
    {wC wS : List (List K)} (hs : C.nodeUpdate k s o = .ok (s', wC, wS)) :
    CNodeInv C k (h ++ [o]) s' ∧
      (C.ssbc = true → o.yS.length = C.D.dim k) ∧
      (C.centr = true → ∃ w, (nodeRun2 (C.kindC k) (C.D.kind0 k C.total (C.wC0 k))
        (C.withOwn k (C.heardC k (h ++ [o])))).w (h.length + 1) = .ok w ∧ wC = frameRow w) ∧
      (C.ssbc = true → ∃ w, (nodeRun (C.D.kind k (C.D.dim k)) (C.D.kind0 k (C.D.dim k) (C.wS0 k))
        (C.heardS k (h ++ [o]))).w (h.length + 1) = .ok w ∧ wS = frameRow w) := by
  have hl : s.times.length = h.length := by rw [hi.times, List.length_map]
  unfold CDanseCfg.nodeUpdate at hs
  simp only at hs
  have hlen : ¬ (C.ssbc && o.yS.length != C.D.dim k) = true := by
    intro hc
    rw [if_pos hc] at hs
    cases hs
  rw [if_neg hlen] at hs
  obtain ⟨w, hw, hs⟩ := bind_ok_inv hs
  obtain ⟨v, hv, hs⟩ := bind_ok_inv hs
  injection hs with hs
  injection hs with e1 hs
  injection hs with e2 e3
  have hcen : C.centr = true → s'.centr = nodeRun2 (C.kindC k) (C.D.kind0 k C.total (C.wC0 k))
      (C.withOwn k (C.heardC k (h ++ [o]))) := by
    intro hc
    rw [heardC_snoc, withOwn_snoc, nodeRun2_snoc, ← hi.centr hc, ← e1, heardC_length]
    simp only [hc, if_true, hl]
    simp only [hi.times, List.map_append, List.map_cons, List.map_nil]
    rfl
  have hss : C.ssbc = true → s'.ssbc = nodeRun (C.D.kind k (C.D.dim k)) (C.D.kind0 k (C.D.dim k) (C.wS0 k))
      (C.heardS k (h ++ [o])) := by
    intro hc
    rw [heardS_snoc, nodeRun_snoc, ← hi.ssbc hc, ← e1]
    simp only [hc, if_true, hl]
    rfl
  refine ⟨⟨hcen, hss, ?_, fun hc => ?_, fun hc => ?_⟩, ?_, ?_, ?_⟩
  · rw [← e1]
    simp [hi.times]
  · rw [← e1, ← hi.offC hc]
    simp [hc]
  · rw [← e1, ← hi.offS hc]
    simp [hc]
  · intro hc
    simpa [hc] using hlen
  · intro hc
    refine ⟨w, ?_, e2.symm⟩
    rw [← hcen hc, ← e1, ← hl]
    exact hw
  · intro hc
    refine ⟨v, ?_, e3.symm⟩
    rw [← hss hc, ← e1, ← hl]
    exact hv

theorem kindC_scm (hv : C.SoundVad k) (h : List (CObs K)) : (nodeRun2 (C.kindC k) (C.D.kind0 k C.total (C.wC0 k)) (C.withOwn k (C.heardC k h))).scm.ryy =
      C.D.scm k true (C.heardC k h) ∧
      (nodeRun2 (C.kindC k) (C.D.kind0 k C.total (C.wC0 k)) (C.withOwn k (C.heardC k h))).scm.rnn =
      C.D.scm k false (C.heardC k h) := by
  have hsound : ∀ h : List (CObs K), (C.kindC k).use1st = false ∨ ∀ e ∈ C.withOwn k (C.heardC k h), e.2 = e.1.vad := by
    intro h
    rcases hv with hu | hv
    · exact .inl hu
    · refine .inr fun e he => ?_
      unfold CDanseCfg.withOwn at he
      rw [List.mem_map] at he
      obtain ⟨⟨e', i⟩, hm, rfl⟩ := he
      rw [List.mem_zipIdx_iff_getElem?] at hm
      unfold CDanseCfg.heardC at hm
      rw [List.getElem?_map, List.getElem?_zipIdx, Option.map_map] at hm
      simp only at hm
      obtain ⟨o', -, ho'⟩ := Option.map_eq_some_iff.mp hm
      simp only [Function.comp_apply, zero_add] at ho'
      rw [← ho']
      exact (hv i).symm
  have := nodeRun2_scmOf (C.kindC k) (s := C.D.kind0 k C.total (C.wC0 k)) rfl rfl (C.withOwn k (C.heardC k h)) (hsound h)
  rw [withOwn_fst] at this
  exact this

theorem kindC_started (hv : C.SoundVad k) (h : List (CObs K)) :
    (nodeRun2 (C.kindC k) (C.D.kind0 k C.total (C.wC0 k)) (C.withOwn k (C.heardC k h))).started = true ↔
      C.StartedC k (C.heardC k h) := by
  have hscm := fun h : List (CObs K) => kindC_scm hv h
  have hpre : ∀ {l1 : List (UpEv (Fin C.D.nb) (Fin C.total) K ℚ)} {h : List (CObs K)}, l1 <+: C.heardC k h →
      l1 = C.heardC k (h.take l1.length) := by
    intro l1 h hp
    have := List.prefix_iff_eq_take.mp hp
    conv_lhs => rw [this]
    generalize l1.length = j
    clear this hp
    induction h using List.reverseRecOn with
    | nil => simp [CDanseCfg.heardC]
    | append_singleton h o ih =>
      by_cases hj : j ≤ h.length
      · rw [heardC_snoc, List.take_append_of_le_length (by rw [heardC_length]; exact hj), ih,
          List.take_append_of_le_length hj]
      · rw [List.take_of_length_le (by rw [heardC_length]; simp; omega), List.take_of_length_le (by simp; omega)]
  rw [nodeRun2_started (C.kindC k) rfl rfl rfl rfl]
  unfold CDanseCfg.StartedC
  constructor
  · rintro ⟨l1, e, hp, ht, h1, h2, hval⟩
    have hq : (l1 ++ [e]).map (·.1) <+: C.heardC k h := by
      have := hp.map Prod.fst
      rwa [withOwn_fst] at this
    have hback : l1 ++ [e] = C.withOwn k ((l1 ++ [e]).map (·.1)) := by
      have h3 := List.prefix_iff_eq_take.mp hp
      conv_lhs => rw [h3]
      unfold CDanseCfg.withOwn
      rw [← List.map_take]
      congr 1
      have h4 := List.prefix_iff_eq_take.mp hq
      conv_rhs => rw [h4]
      rw [List.length_map]
      generalize C.heardC k h = L
      apply List.ext_getElem?
      intro i
      rw [List.getElem?_zipIdx, List.getElem?_take, List.getElem?_take, List.getElem?_zipIdx]
      split <;> rfl
    refine ⟨l1.map (·.1), e.1, ?_, ht, ?_, ?_, ?_⟩
    · rw [List.map_append] at hq; exact hq
    · rw [hback, withOwn_count _ (fun b => b)] at h1
      simpa using h1
    · rw [hback, withOwn_count _ (fun b => !b)] at h2
      simpa using h2
    · rw [hback] at hval
      have hh := hpre hq
      rw [hh, (hscm _).1, (hscm _).2, ← hh] at hval
      rw [List.map_append] at hval
      exact hval
  · rintro ⟨l1, e, hp, ht, h1, h2, hval⟩
    have hh := hpre hp
    have hq : C.withOwn k (l1 ++ [e]) <+: C.withOwn k (C.heardC k h) := by
      obtain ⟨r, hr⟩ := hp
      rw [← hr]
      unfold CDanseCfg.withOwn
      rw [List.zipIdx_append (xs := l1 ++ [e]), List.map_append]
      exact List.prefix_append _ _
    rw [withOwn_snoc] at hq
    refine ⟨C.withOwn k l1, (e, C.D.vad k l1.length), hq, ht, ?_, ?_, ?_⟩
    · rw [← withOwn_snoc, withOwn_count _ (fun b => b), List.length_append, List.length_singleton, Fintype.card_fin]
      exact h1
    · rw [← withOwn_snoc, withOwn_count _ (fun b => !b), List.length_append, List.length_singleton, Fintype.card_fin]
      exact h2
    · rw [← withOwn_snoc, hh, (hscm _).1, (hscm _).2, ← hh]
      exact hval

/-- The row written by the last of some events. -/
theorem kindC_row (hv : C.SoundVad k) (hist : List (CObs K)) (o : CObs K) {w : Frame (Fin C.D.nb) (Fin C.total) K}
    (hw : (nodeRun2 (C.kindC k) (C.D.kind0 k C.total (C.wC0 k)) (C.withOwn k (C.heardC k (hist ++ [o])))).w
      (hist.length + 1) = .ok w)
    {prev : List (List K)} (hp : C.D.bypass k hist.length = true →
      ∃ v, (nodeRun2 (C.kindC k) (C.D.kind0 k C.total (C.wC0 k)) (C.withOwn k (C.heardC k hist))).w hist.length = .ok v ∧
        ∀ (κ : Fin C.D.nb) (c : Fin C.total), v κ c = coef prev κ c) :
    C.RowOkC k (C.heardC k (hist ++ [o])) (C.D.bypass k hist.length) prev (C.wC0 k (hist.length + 1)) (frameRow w) := by
  have hscm := fun h : List (CObs K) => kindC_scm hv h
  have hst := kindC_started hv (hist ++ [o])
  have hlen : (C.withOwn k (C.heardC k hist)).length = hist.length := by rw [withOwn_length, heardC_length]
  have r1 := (nodeRun2_row (C.kindC k) (C.D.kind0 k C.total (C.wC0 k)) rfl (C.withOwn k (C.heardC k hist))
    (⟨fun κ c => coef (o.yC.map (analysis C.D.g.ζ C.D.g.N C.D.g.c C.D.g.h)) κ c *
        C.rotC k ((hist ++ [o]).map fun o => (o.t, o.flags)) c κ,
      C.cvad hist.length, o.t, C.D.bypass k hist.length⟩, C.D.vad k (C.heardC k hist).length)).1
  rw [← withOwn_snoc, ← heardC_snoc, hlen, hw] at r1
  simp only at r1
  refine ⟨frameRow_shape w, fun hb κ c => ?_, fun hb hn κ c => ?_, fun hb ha hs κ => ?_⟩
  · rw [if_pos hb] at r1
    obtain ⟨v, hv, hc⟩ := hp hb
    rw [hv] at r1
    injection r1 with r1
    rw [coef_frameRow, r1, hc]
  · rw [if_neg (by simp [hb]), if_neg ?_, nodeRun2_unwritten _ _ rfl _ _ (by omega)] at r1
    · injection r1 with r1
      rw [coef_frameRow, r1, rowFrame_apply]
    · rintro ⟨h1, h2⟩
      rcases hn with h | h
      · rw [show (C.kindC k).bypassAll = C.D.bypassAll from rfl, h] at h1; cases h1
      · exact h (hst.1 h2)
  · rw [if_neg (by simp [hb]), if_pos ⟨ha, hst.2 hs⟩] at r1
    have h1 := seqBins_ok r1.symm κ
    rw [(hscm _).1, (hscm _).2] at h1
    have : (fun c : Fin C.total => coef (frameRow w) κ c) = w κ := by funext c; rw [coef_frameRow]
    rw [this]
    exact h1

end
end Danse
