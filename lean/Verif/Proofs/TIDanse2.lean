import Verif.Proofs.TIDanse

/-!
# Helper lemmas for C119: a TI-DANSE run as a run with a strategy
-/

set_option linter.unusedSectionVars false

namespace Danse
section
variable {n : Nat} {K : Type} [Field K] [StarRing K] [DecidableEq K] {D : DanseCfg K} {k : Nat}

/-- The row before normalisation. -/
theorem tiKind_row {h : List (TIObs K)} {o : TIObs K} {s : TDNode D.nb (D.M k) K} (is : TINodeInv D k h s)
    {V : Frame (Fin D.nb) (Fin (D.M k + 1)) K}
    (hV : (nodeStep (D.kind k (D.M k + 1)) s.danse (D.spectra (D.M k + 1) (o.loc ++ [o.eta]))
        (D.vad k h.length) o.t o.bypass).w (h.length + 1) = .ok V)
    {prev : List (List K)} (hp : ∃ v, s.danse.w h.length = .ok v ∧
        ∀ (κ : Fin D.nb) (c : Fin (D.M k + 1)), v κ c = coef prev κ c) :
    D.RowOk k (D.tiHeard k (h ++ [o])) o.bypass prev (D.g.wInt k (h.length + 1)) (frameRow V) := by
  have hl := nodeStep_like (c := D.kind k (D.M k + 1)) is.scm is.started
    (s' := nodeRun (D.kind k (D.M k + 1)) (D.kind0 k (D.M k + 1) (D.g.wInt k)) (D.tiHeard k h))
    (by rw [is.i, nodeRun_i, tiHeard_length]; exact (Nat.zero_add _).symm)
    (D.spectra (D.M k + 1) (o.loc ++ [o.eta])) (D.vad k h.length) o.t o.bypass
  have hrun : nodeRun (D.kind k (D.M k + 1)) (D.kind0 k (D.M k + 1) (D.g.wInt k)) (D.tiHeard k (h ++ [o])) =
      nodeStep (D.kind k (D.M k + 1))
        (nodeRun (D.kind k (D.M k + 1)) (D.kind0 k (D.M k + 1) (D.g.wInt k)) (D.tiHeard k h))
        (D.spectra (D.M k + 1) (o.loc ++ [o.eta])) (D.vad k h.length) o.t o.bypass := by
    rw [tiHeard_snoc, nodeRun_snoc]
  rw [← hrun] at hl
  have hst := nodeRun_startedBy (D.kind k (D.M k + 1)) rfl (s := D.kind0 k (D.M k + 1) (D.g.wInt k)) rfl rfl rfl rfl
    (D.tiHeard k (h ++ [o]))
  have hscm := nodeRun_scmOf (D.kind k (D.M k + 1)) (s := D.kind0 k (D.M k + 1) (D.g.wInt k)) rfl rfl
    (D.tiHeard k (h ++ [o]))
  obtain ⟨r1, -⟩ := nodeStep_row (D.kind k (D.M k + 1)) s.danse
    (D.spectra (D.M k + 1) (o.loc ++ [o.eta])) (D.vad k h.length) o.t o.bypass
  rw [is.i, hV, hl.1, hl.2.1] at r1
  refine ⟨frameRow_shape V, fun hb κ c => ?_, fun hb hn κ c => ?_, fun hb ha hs κ => ?_⟩
  · rw [if_pos hb] at r1
    obtain ⟨v, hv, hc⟩ := hp
    rw [hv] at r1
    injection r1 with r1
    rw [coef_frameRow, r1, hc]
  · rw [if_neg (by simp [hb]), if_neg ?_, is.later _ (by omega)] at r1
    · injection r1 with r1
      rw [coef_frameRow, r1, rowFrame_apply]
    · rintro ⟨h1, h2⟩
      rcases hn with h | h
      · rw [show (D.kind k (D.M k + 1)).bypassAll = D.bypassAll from rfl, h] at h1; cases h1
      · exact h (hst.1 h2)
  · rw [if_neg (by simp [hb]), if_pos ⟨ha, hst.2 hs⟩] at r1
    have h1 := seqBins_ok r1.symm κ
    rw [hscm.1, hscm.2] at h1
    have : (fun c : Fin (D.M k + 1) => coef (frameRow V) κ c) = V κ := by funext c; rw [coef_frameRow]
    unfold DanseCfg.scm
    rw [this]
    exact h1

/-- The observation of an update, and what the update does with it. -/
theorem tiUpdate_observe {g : GivenCfg K} {rows rows' : List (TIObs K) → Rows K} {st st' : List (TIObs K) → Bool}
    {yk : List (List K)} {t : ℚ} {byp : Bool} {nd : TINode K} {eta : List K} {o : TIObs K}
    (ho : tiObserve g yk t k byp eta = .ok o) (h1 : rows (nd.hist ++ [o]) = rows' (nd.hist ++ [o]))
    (h2 : st (nd.hist ++ [o]) = st' (nd.hist ++ [o])) :
    tiUpdate g rows st yk t k byp nd eta = tiUpdate g rows' st' yk t k byp nd eta := by
  unfold tiObserve at ho
  obtain ⟨loc, hl, ho⟩ := bind_ok_inv ho
  split at ho
  · cases ho
  · rename_i hc
    injection ho with ho
    subst ho
    unfold tiUpdate
    rw [hl]
    simp only [bind, Except.bind]
    rw [if_neg hc, if_neg hc, h1, h2]

theorem tiObserve_of_update {g : GivenCfg K} {rows : List (TIObs K) → Rows K} {st : List (TIObs K) → Bool}
    {yk : List (List K)} {t : ℚ} {byp : Bool} {nd nd' : TINode K} {eta : List K}
    (h : tiUpdate g rows st yk t k byp nd eta = .ok nd') :
    ∃ o, tiObserve g yk t k byp eta = .ok o ∧ nd'.hist = nd.hist ++ [o] ∧ nd'.ext = (rows nd'.hist).ext ∧
      o.t = t ∧ o.bypass = byp ∧ nd'.started = st nd'.hist := by
  unfold tiUpdate at h
  obtain ⟨loc, hl, h⟩ := Except.bind_ok h
  split at h
  · cases h
  · rename_i hc
    obtain ⟨d, -, h⟩ := Except.bind_ok h
    obtain ⟨d', -, h⟩ := Except.bind_ok h
    cases h
    refine ⟨⟨t, byp, loc.map (·.1), eta⟩, ?_, rfl, rfl, rfl, rfl, rfl⟩
    unfold tiObserve
    rw [hl]
    simp only [bind, Except.bind]
    rw [if_neg hc]

variable {y : Fin n → List (List K)} {trees : List (TreeObj n)}

theorem tiStepEv_other {g : GivenCfg K} {U U' : TIStrategy n K} {t : ℚ} {s : TISt n K} {e : OutEv} (h : e.ty ≠ .up) :
    tiStepEv g U y trees t s e = tiStepEv g U' y trees t s e := by
  unfold tiStepEv
  cases hty : e.ty <;> first | exact absurd hty h | rfl

theorem tiFuse_histExt {g : GivenCfg K} {yk : List (List K)} {t : ℚ} {nd : TINode K} {buf : List K}
    {r : TINode K × List K} (h : tiFuse g yk t k nd buf = .ok r) : r.1.hist = nd.hist ∧ r.1.ext = nd.ext ∧ r.1.started = nd.started := by
  unfold tiFuse at h
  obtain ⟨fr, _, h1⟩ := Except.bind_ok h
  split at h1
  · cases h1; exact ⟨rfl, rfl, rfl⟩
  · split at h1
    · obtain ⟨_, _, h1⟩ := Except.bind_ok h1
      obtain ⟨_, _, h1⟩ := Except.bind_ok h1
      cases h1; exact ⟨rfl, rfl, rfl⟩
    · obtain ⟨_, _, h1⟩ := Except.bind_ok h1
      obtain ⟨_, _, h1⟩ := Except.bind_ok h1
      obtain ⟨_, _, h1⟩ := Except.bind_ok h1
      cases h1; exact ⟨rfl, rfl, rfl⟩

theorem tiStepEv_histExt {g : GivenCfg K} {U : TIStrategy n K} {t : ℚ} {s s' : TISt n K} {e : OutEv} (h : e.ty ≠ .up)
    (hs : tiStepEv g U y trees t s e = .ok s') (k : Fin n) :
    (s'.node k).hist = (s.node k).hist ∧ (s'.node k).ext = (s.node k).ext ∧
      (s'.node k).started = (s.node k).started := by
  unfold tiStepEv at hs
  cases hty : e.ty with
  | tr =>
    rw [hty] at hs
    simp only at hs
    split at hs
    · cases hs
    · cases hs; exact ⟨rfl, rfl, rfl⟩
  | fu =>
    rw [hty] at hs
    simp only at hs
    split at hs
    · rename_i hlt
      obtain ⟨r, h1, h2⟩ := Except.bind_ok hs
      cases h2
      by_cases e1 : k = ⟨e.node, hlt⟩
      · subst e1; simp only [Function.update_self]; exact tiFuse_histExt h1
      · simp only [Function.update_of_ne e1]; exact ⟨trivial, trivial, trivial⟩
    · cases hs
  | bc =>
    rw [hty] at hs
    simp only at hs
    split at hs
    · split at hs
      · cases hs
      · obtain ⟨_, _, hs⟩ := Except.bind_ok hs
        cases hs; exact ⟨rfl, rfl, rfl⟩
    · cases hs
  | re =>
    rw [hty] at hs
    simp only at hs
    split at hs
    · obtain ⟨_, _, hs⟩ := Except.bind_ok hs
      cases hs; exact ⟨rfl, rfl, rfl⟩
    · cases hs
  | up => exact absurd hty h

/-- The nodes are in the state that their observations lead to, and fuse with the external filters of
that state. -/
def TINodesOk (a : TIDanseSt n D) : Prop :=
  ∀ k : Fin n, ∃ r, D.tiNodeFold k (a.run.node k).hist = .ok (a.node k, r) ∧
    ((a.run.node k).hist ≠ [] → (a.run.node k).ext = frameRow (a.node k).ext.ext) ∧
    ((a.run.node k).hist = [] → (a.run.node k).ext = D.g.wExt k 0) ∧
    (a.run.node k).started = (a.node k).danse.started

theorem tiStrategy_of {k : Fin n} {h : List (TIObs K)} {p} (hp : D.tiNodeFold k h = .ok p) :
    (D.tiStrategy n).rows k h = p.2 ∧ (D.tiStrategy n).started k h = p.1.danse.started := by
  unfold DanseCfg.tiStrategy
  simp only [hp]
  exact ⟨rfl, rfl⟩

/-- One event of the closed run is one event of the run with the strategy of its nodes. -/
theorem tiDanse_event {t : ℚ} {a a' : TIDanseSt n D} {e : OutEv} (ha : TINodesOk a)
    (h : tiDanseStepEv D y trees t a e = .ok a') :
    tiStepEv D.g (D.tiStrategy n) y trees t a.run e = .ok a'.run ∧ TINodesOk a' := by
  by_cases hty : e.ty = .up
  · unfold tiDanseStepEv at h
    rw [hty] at h
    simp only at h
    split at h
    · rename_i hlt
      obtain ⟨o, ho, h⟩ := bind_ok_inv h
      obtain ⟨r, hr, h⟩ := bind_ok_inv h
      obtain ⟨nd, hnd, h⟩ := bind_ok_inv h
      injection h with h
      obtain ⟨r0, hr0, -, -, -⟩ := ha ⟨e.node, hlt⟩
      have hf : D.tiNodeFold (⟨e.node, hlt⟩ : Fin n) ((a.run.node ⟨e.node, hlt⟩).hist ++ [o]) = .ok r := by
        rw [tiNodeFold_snoc, hr0]; exact hr
      obtain ⟨s1, s2⟩ := tiStrategy_of hf
      have hnd' := hnd
      rw [tiUpdate_observe (rows' := (D.tiStrategy n).rows ⟨e.node, hlt⟩) (st' := (D.tiStrategy n).started ⟨e.node, hlt⟩) ho s1.symm s2.symm]
        at hnd'
      constructor
      · unfold tiStepEv
        rw [hty]
        simp only
        rw [dif_pos hlt]
        simp only [bind, Except.bind]
        rw [hnd', ← h]
      · obtain ⟨o', ho', hh, hx, -, -, hst⟩ := tiObserve_of_update hnd
        rw [ho] at ho'
        injection ho' with ho'
        subst ho'
        intro q
        rw [← h]
        simp only
        by_cases hq : q = ⟨e.node, hlt⟩
        · subst hq
          rw [Function.update_self, Function.update_self]
          refine ⟨r.2, by rw [hh]; exact hf, fun _ => ?_, fun hc => ?_, hst⟩
          · rw [hx]
            obtain ⟨-, -, V, W, wl, -, -, -, -, -, e6⟩ := tiNodeUpdate_inv (tiNodeFold_inv _ hr0) hr
            rw [e6]
          · rw [hh] at hc; simp at hc
        · rw [Function.update_of_ne hq, Function.update_of_ne hq]
          exact ha q
    · cases h
  · have h' : (tiStepEv D.g ⟨fun _ _ => ⟨[], [], []⟩, fun _ _ => false⟩ y trees t a.run e >>= fun s =>
        (.ok { a with run := s } : Except PyErr (TIDanseSt n D))) = .ok a' := by
      rw [← h]
      unfold tiDanseStepEv
      split
      · rename_i h2; exact absurd h2 hty
      · rfl
    obtain ⟨s, hs, h2⟩ := bind_ok_inv h'
    injection h2 with h2
    subst h2
    refine ⟨by rw [← hs]; exact tiStepEv_other hty, fun k => ?_⟩
    obtain ⟨e1, e2, e3⟩ := tiStepEv_histExt hty hs k
    simp only
    rw [e1, e2, e3]
    exact ha k

/-- Conversely, when the nodes do not raise. -/
theorem tiDanse_event_of {t : ℚ} {a : TIDanseSt n D} {s : TISt n K}
    {e : OutEv} (H : ∀ k : Fin n, ∃ p, D.tiNodeFold k (s.node k).hist = .ok p) (ha : TINodesOk a) (h : tiStepEv D.g (D.tiStrategy n) y trees t a.run e = .ok s) :
    ∃ a', tiDanseStepEv D y trees t a e = .ok a' ∧ a'.run = s := by
  by_cases hty : e.ty = .up
  · unfold tiStepEv at h
    rw [hty] at h
    simp only at h
    split at h
    · rename_i hlt
      obtain ⟨nd, hnd, h⟩ := bind_ok_inv h
      injection h with h
      obtain ⟨r0, hr0, -, -, -⟩ := ha ⟨e.node, hlt⟩
      obtain ⟨o, ho, hh, -, -, -, -⟩ := tiObserve_of_update hnd
      obtain ⟨r, hf⟩ := H ⟨e.node, hlt⟩
      rw [← h] at hf
      simp only [Function.update_self] at hf
      rw [hh] at hf
      have hr : D.tiNodeUpdate (⟨e.node, hlt⟩ : Fin n) (a.node ⟨e.node, hlt⟩) o = .ok r := by
        have := hf
        rw [tiNodeFold_snoc, hr0] at this
        exact this
      obtain ⟨s1, s2⟩ := tiStrategy_of (k := ⟨e.node, hlt⟩) hf
      rw [tiUpdate_observe (rows' := fun _ => r.2) (st' := fun _ => r.1.danse.started) ho s1 s2] at hnd
      refine ⟨⟨s, Function.update a.node ⟨e.node, hlt⟩ r.1⟩, ?_, rfl⟩
      unfold tiDanseStepEv
      rw [hty]
      simp only
      rw [dif_pos hlt]
      simp only [bind, Except.bind]
      rw [ho]
      simp only
      rw [hr]
      simp only
      rw [hnd, ← h]
    · cases h
  · refine ⟨{ a with run := s }, ?_, rfl⟩
    have : (tiStepEv D.g ⟨fun _ _ => ⟨[], [], []⟩, fun _ _ => false⟩ y trees t a.run e >>= fun s =>
        (.ok { a with run := s } : Except PyErr (TIDanseSt n D))) = .ok { a with run := s } := by
      rw [tiStepEv_other (U' := D.tiStrategy n) hty, h]; rfl
    rw [← this]
    unfold tiDanseStepEv
    split
    · rename_i h2; exact absurd h2 hty
    · rfl

theorem tiDanse_init_ok (T : Nat) (up0 : Fin n → List (Fin n)) : TINodesOk (TIDanseSt.init D T y up0) := fun k =>
  ⟨_, rfl, fun h => absurd rfl h, fun _ => rfl, rfl⟩

theorem tiDanse_instant {a : TIDanseSt n D} (ha : TINodesOk a) {t : ℚ} (evs : List OutEv) : ∀ {a'},
    evs.foldlM (tiDanseStepEv D y trees t) a = .ok a' →
    evs.foldlM (tiStepEv D.g (D.tiStrategy n) y trees t) a.run = .ok a'.run ∧ TINodesOk a' := by
  induction evs generalizing a with
  | nil => intro a' h; injection h with h; subst h; exact ⟨rfl, ha⟩
  | cons e evs ih =>
    intro a' h
    rw [List.foldlM_cons] at h
    obtain ⟨b, hb, h⟩ := bind_ok_inv h
    obtain ⟨h1, h2⟩ := tiDanse_event ha hb
    obtain ⟨h3, h4⟩ := ih h2 h
    refine ⟨?_, h4⟩
    rw [List.foldlM_cons, h1]
    exact h3

theorem tiDanse_run {a : TIDanseSt n D} (ha : TINodesOk a) (out : List (Instant ℚ)) : ∀ {a'},
    out.foldlM (tiDanseInstant D y trees) a = .ok a' →
    tiRun D.g (D.tiStrategy n) y trees a.run out = .ok a'.run ∧ TINodesOk a' := by
  induction out generalizing a with
  | nil => intro a' h; injection h with h; subst h; exact ⟨rfl, ha⟩
  | cons e out ih =>
    intro a' h
    rw [List.foldlM_cons] at h
    obtain ⟨b, hb, h⟩ := bind_ok_inv h
    obtain ⟨h1, h2⟩ := tiDanse_instant ha e.evs hb
    obtain ⟨h3, h4⟩ := ih h2 h
    refine ⟨?_, h4⟩
    unfold tiRun at h3 ⊢
    rw [List.foldlM_cons]
    unfold tiStepInstant
    rw [h1]
    exact h3

theorem foldEv_hist {g : GivenCfg K} {U : TIStrategy n K} {t : ℚ} (evs : List OutEv) : ∀ {s s' : TISt n K},
    evs.foldlM (tiStepEv g U y trees t) s = .ok s' → ∀ k, (s.node k).hist <+: (s'.node k).hist := by
  induction evs with
  | nil => intro s s' h k; injection h with h; subst h; exact List.prefix_refl _
  | cons e evs ih =>
    intro s s' h k
    rw [List.foldlM_cons] at h
    obtain ⟨b, hb, h⟩ := bind_ok_inv h
    exact (tiStepEv_hist hb k).trans (ih h k)

theorem tiRun_hist {g : GivenCfg K} {U : TIStrategy n K} (out : List (Instant ℚ)) : ∀ {s s' : TISt n K},
    tiRun g U y trees s out = .ok s' → ∀ k, (s.node k).hist <+: (s'.node k).hist := by
  unfold tiRun
  induction out with
  | nil => intro s s' h k; injection h with h; subst h; exact List.prefix_refl _
  | cons e out ih =>
    intro s s' h k
    rw [List.foldlM_cons] at h
    obtain ⟨b, hb, h⟩ := bind_ok_inv h
    exact (foldEv_hist e.evs hb k).trans (ih h k)

theorem tiDanse_instant_of {a : TIDanseSt n D} (ha : TINodesOk a)
    {t : ℚ} (evs : List OutEv) : ∀ {s : TISt n K}, (∀ k : Fin n, ∃ p, D.tiNodeFold k (s.node k).hist = .ok p) →
    evs.foldlM (tiStepEv D.g (D.tiStrategy n) y trees t) a.run = .ok s →
    ∃ a', evs.foldlM (tiDanseStepEv D y trees t) a = .ok a' ∧ a'.run = s := by
  induction evs generalizing a with
  | nil => intro s _ h; injection h with h; exact ⟨a, rfl, h⟩
  | cons e evs ih =>
    intro s H h
    rw [List.foldlM_cons] at h
    obtain ⟨b, hb, h⟩ := bind_ok_inv h
    obtain ⟨b', h1, rfl⟩ := tiDanse_event_of (fun k => by
      obtain ⟨p, hp⟩ := H k
      exact tiNodeFold_prefix (foldEv_hist _ h k) hp) ha hb
    obtain ⟨a', h3, h4⟩ := ih (tiDanse_event ha h1).2 H h
    refine ⟨a', ?_, h4⟩
    rw [List.foldlM_cons, h1]
    exact h3

theorem tiDanse_run_of {a : TIDanseSt n D} (ha : TINodesOk a)
    (out : List (Instant ℚ)) : ∀ {s : TISt n K}, (∀ k : Fin n, ∃ p, D.tiNodeFold k (s.node k).hist = .ok p) →
    tiRun D.g (D.tiStrategy n) y trees a.run out = .ok s →
    ∃ a', out.foldlM (tiDanseInstant D y trees) a = .ok a' ∧ a'.run = s := by
  induction out generalizing a with
  | nil => intro s _ h; injection h with h; exact ⟨a, rfl, h⟩
  | cons e out ih =>
    intro s H h
    have h0 := h
    unfold tiRun at h
    rw [List.foldlM_cons] at h
    obtain ⟨b, hb, h⟩ := bind_ok_inv h
    obtain ⟨b', h1, rfl⟩ := tiDanse_instant_of ha e.evs (fun k => by
      obtain ⟨p, hp⟩ := H k
      exact tiNodeFold_prefix (tiRun_hist _ h k) hp) hb
    obtain ⟨a', h3, h4⟩ := ih (tiDanse_instant ha e.evs h1).2 H h
    refine ⟨a', ?_, h4⟩
    rw [List.foldlM_cons]
    unfold tiDanseInstant
    rw [h1]
    exact h3

/-! ### Times -/

theorem foldEv_times {g : GivenCfg K} {U : TIStrategy n K} {t : ℚ} (evs : List OutEv) : ∀ {s s' : TISt n K},
    evs.foldlM (tiStepEv g U y trees t) s = .ok s' → ∀ k,
    ((s.node k).hist.map (·.t)).Pairwise (· ≤ ·) → (∀ o ∈ (s.node k).hist, o.t ≤ t) →
    ((s'.node k).hist.map (·.t)).Pairwise (· ≤ ·) ∧ ∀ o ∈ (s'.node k).hist, o.t ≤ t := by
  induction evs with
  | nil => intro s s' h k h1 h2; injection h with h; subst h; exact ⟨h1, h2⟩
  | cons e evs ih =>
    intro s s' h k h1 h2
    rw [List.foldlM_cons] at h
    obtain ⟨b, hb, h⟩ := bind_ok_inv h
    have key : (b.node k).hist = (s.node k).hist ∨ ∃ o, (b.node k).hist = (s.node k).hist ++ [o] ∧ o.t = t := by
      by_cases hty : e.ty = .up
      · unfold tiStepEv at hb
        rw [hty] at hb
        simp only at hb
        split at hb
        · rename_i hlt
          obtain ⟨nd, hnd, hb⟩ := bind_ok_inv hb
          injection hb with hb
          subst hb
          simp only
          by_cases hk : k = ⟨e.node, hlt⟩
          · subst hk
            rw [Function.update_self]
            obtain ⟨o, -, hh, -, ht, -, -⟩ := tiObserve_of_update hnd
            exact .inr ⟨o, hh, ht⟩
          · rw [Function.update_of_ne hk]; exact .inl rfl
        · cases hb
      · exact .inl (tiStepEv_histExt hty hb k).1
    apply ih h k
    · rcases key with e1 | ⟨o, e1, e2⟩
      · rw [e1]; exact h1
      · rw [e1, List.map_append, List.pairwise_append]
        refine ⟨h1, by simp, ?_⟩
        intro x hx z hz
        simp only [List.map_cons, List.map_nil, List.mem_singleton] at hz
        obtain ⟨o', ho', rfl⟩ := List.mem_map.1 hx
        rw [hz, e2]
        exact h2 o' ho'
    · rcases key with e1 | ⟨o, e1, e2⟩
      · rw [e1]; exact h2
      · rw [e1]
        intro o' ho'
        rcases List.mem_append.1 ho' with h3 | h3
        · exact h2 o' h3
        · rw [List.mem_singleton.1 h3, e2]

theorem tiRun_times {g : GivenCfg K} {U : TIStrategy n K} (out : List (Instant ℚ)) : ∀ {s s' : TISt n K},
    tiRun g U y trees s out = .ok s' → (out.map (·.t)).Pairwise (· ≤ ·) → ∀ k,
    ((s.node k).hist.map (·.t)).Pairwise (· ≤ ·) → (∀ o ∈ (s.node k).hist, ∀ i ∈ out, o.t ≤ i.t) →
    ((s'.node k).hist.map (·.t)).Pairwise (· ≤ ·) := by
  unfold tiRun
  induction out with
  | nil => intro s s' h _ k h1 _; injection h with h; subst h; exact h1
  | cons e out ih =>
    intro s s' h hs k h1 h2
    rw [List.foldlM_cons] at h
    obtain ⟨b, hb, h⟩ := bind_ok_inv h
    obtain ⟨r1, r2⟩ := foldEv_times e.evs hb k h1 (fun o ho => h2 o ho e (by simp))
    rw [List.map_cons, List.pairwise_cons] at hs
    refine ih h hs.2 k r1 fun o ho i hi => le_trans (r2 o ho) (hs.1 _ (List.mem_map_of_mem hi))

end
end Danse
