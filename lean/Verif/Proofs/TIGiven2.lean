import Verif.Proofs.TIGiven

/-!
# Helper lemmas: TI-DANSE runs with given filters; reproducing a run from its filters
-/

set_option linter.unusedSectionVars false

namespace Danse
section
variable {n : Nat} {K : Type} [Field K] [StarRing K] [DecidableEq K] {g : GivenCfg K}

theorem tiRun_sums_few {F : Fin n → Nat → Rows K} {y1 y2 y3 : Fin n → List (List K)}
    (hy : ∀ k, SumsM (y1 k) (y2 k) (y3 k)) (trees : List (TreeObj n)) {L : Nat} {eff : Bool}
    (hb : g.bc = .few L eff) (out : List (Instant ℚ)) {a b c : TISt n K} (h : TIStRel a b c) :
    Ok3 TIStRel (tiRun g (.given F) y1 trees a out) (tiRun g (.given F) y2 trees b out)
      (tiRun g (.given F) y3 trees c out) := by
  unfold tiRun
  refine Ok3.foldlM out ?_ h
  intro i _ x y z hr
  unfold tiStepInstant
  refine Ok3.foldlM i.evs ?_ hr
  intro e _ x y z hr
  exact tiStepEv_sums hy trees i.t hr e (by rw [hb]; intro h; cases h)

/-- Folds with a condition on all states that are reached. -/
theorem Ok3.foldlM_of {α β γ δ : Type} {R : α → β → γ → Prop} {f : α → δ → Except PyErr α}
    {g : β → δ → Except PyErr β} {k : γ → δ → Except PyErr γ} (l : List δ) {x : α} {y : β} {z : γ} (h : R x y z)
    (hf : ∀ pre e post, l = pre ++ e :: post → ∀ x' y' z', pre.foldlM f x = .ok x' → pre.foldlM g y = .ok y' →
      pre.foldlM k z = .ok z' → R x' y' z' → Ok3 R (f x' e) (g y' e) (k z' e)) :
    Ok3 R (l.foldlM f x) (l.foldlM g y) (l.foldlM k z) := by
  induction l generalizing x y z with
  | nil => exact Ok3.ok h
  | cons e l ih =>
    simp only [List.foldlM_cons]
    intro u v hu hv
    obtain ⟨a1, ha, hu⟩ := bind_ok_inv hu
    obtain ⟨b1, hb, hv⟩ := bind_ok_inv hv
    obtain ⟨c1, hc, hr⟩ := hf [] e l rfl x y z rfl rfl rfl h a1 b1 ha hb
    obtain ⟨w, hw, hrel⟩ := ih hr (by
      intro pre e' post hl x' y' z' h1 h2 h3 hr'
      refine hf (e :: pre) e' post (by rw [hl]; rfl) x' y' z' ?_ ?_ ?_ hr'
      · rw [List.foldlM_cons, ha]; exact h1
      · rw [List.foldlM_cons, hb]; exact h2
      · rw [List.foldlM_cons, hc]; exact h3) u v hu hv
    exact ⟨w, by rw [hc]; exact hw, hrel⟩

theorem tiRun_sums_whole {F : Fin n → Nat → Rows K} {y1 y2 y3 : Fin n → List (List K)}
    (hy : ∀ k, SumsM (y1 k) (y2 k) (y3 k)) (trees : List (TreeObj n)) (out : List (Instant ℚ)) {a b c : TISt n K}
    (h : TIStRel a b c)
    (hz : ∀ pre i post es es', out = pre ++ i :: post → i.evs = es ++ es' → ∀ a' b' c',
      tiRun g (.given F) y1 trees a (pre ++ [⟨i.t, es⟩]) = .ok a' →
      tiRun g (.given F) y2 trees b (pre ++ [⟨i.t, es⟩]) = .ok b' →
      tiRun g (.given F) y3 trees c (pre ++ [⟨i.t, es⟩]) = .ok c' →
      ∀ k, silent (a'.net.buf k) = silent (c'.net.buf k) ∧ silent (b'.net.buf k) = silent (c'.net.buf k)) :
    Ok3 TIStRel (tiRun g (.given F) y1 trees a out) (tiRun g (.given F) y2 trees b out)
      (tiRun g (.given F) y3 trees c out) := by
  unfold tiRun
  refine Ok3.foldlM_of out h ?_
  intro pre i post ho x y z h1 h2 h3 hr
  unfold tiStepInstant
  refine Ok3.foldlM_of i.evs hr ?_
  intro es e es' he x' y' z' k1 k2 k3 hr'
  refine tiStepEv_sums hy trees i.t hr' e (fun _ => ?_)
  refine hz pre i post es (e :: es') ho he x' y' z' ?_ ?_ ?_
  · unfold tiRun; rw [List.foldlM_append, h1]
    simp only [List.foldlM_cons, List.foldlM_nil, tiStepInstant]
    exact (congrArg (fun q => q >>= fun s => Except.ok s) k1)
  · unfold tiRun; rw [List.foldlM_append, h2]
    simp only [List.foldlM_cons, List.foldlM_nil, tiStepInstant]
    exact (congrArg (fun q => q >>= fun s => Except.ok s) k2)
  · unfold tiRun; rw [List.foldlM_append, h3]
    simp only [List.foldlM_cons, List.foldlM_nil, tiStepInstant]
    exact (congrArg (fun q => q >>= fun s => Except.ok s) k3)

/-- Simulation along a fold, with a property of the final state that holds backwards. -/
theorem foldlM_sim {S S' A E : Type} {f : S → A → Except E S} {f' : S' → A → Except E S'} {P : S → Prop}
    {R : S → S' → Prop} (hP : ∀ a e b, f a e = .ok b → P b → P a) (l : List A)
    (hR : ∀ a e b a', f a e = .ok b → P b → R a a' → ∃ b', f' a' e = .ok b' ∧ R b b') :
    ∀ {a b : S} {a' : S'}, l.foldlM f a = .ok b → P b → R a a' →
      P a ∧ ∃ b', l.foldlM f' a' = .ok b' ∧ R b b' := by
  induction l with
  | nil =>
    intro a b a' h hp hr
    cases h
    exact ⟨hp, a', rfl, hr⟩
  | cons e l ih =>
    intro a b a' h hp hr
    rw [List.foldlM_cons] at h
    obtain ⟨c, h1, h2⟩ := Except.bind_ok h
    have hpc : P c := by
      clear hr
      induction l generalizing c with
      | nil => cases h2; exact hp
      | cons e' l ih' =>
        rw [List.foldlM_cons] at h2
        obtain ⟨d, h3, h4⟩ := Except.bind_ok h2
        clear ih'
        have : ∀ (l : List A) (d : S), l.foldlM f d = .ok b → P d := by
          intro l
          induction l with
          | nil => intro d h; cases h; exact hp
          | cons e l ih =>
            intro d h
            rw [List.foldlM_cons] at h
            obtain ⟨d', h5, h6⟩ := Except.bind_ok h
            exact hP _ _ _ h5 (ih d' h6)
        exact hP _ _ _ h3 (this l d h4)
    obtain ⟨c', h3, h4⟩ := hR _ _ _ _ h1 hpc hr
    obtain ⟨_, b', h5, h6⟩ := ih h2 hp h4
    refine ⟨hP _ _ _ h1 hpc, b', ?_, h6⟩
    rw [List.foldlM_cons, h3]
    exact h5

/-- The states agree but for the flags `startUpdates`. -/
structure SameButStarted (a b : TISt n K) : Prop where
  net : b.net = a.net
  up : b.up = a.up
  root : b.root = a.root
  formed : b.formed = a.formed
  node : ∀ k, ∃ f, b.node k = { a.node k with started := f }

theorem tiFuse_started {L : Nat} {eff : Bool} (hb : g.bc = .few L eff) {yk : List (List K)} {t : ℚ} {k : Nat}
    {nd : TINode K} {buf : List K} {r : TINode K × List K} (h : tiFuse g yk t k nd buf = .ok r) (f : Bool) :
    r.1.hist = nd.hist ∧
    tiFuse g yk t k { nd with started := f } buf = .ok ({ r.1 with started := f }, r.2) := by
  unfold tiFuse at h ⊢
  obtain ⟨fr, h1, h2⟩ := Except.bind_ok h
  rw [h1]
  simp only at h2 ⊢
  show _ ∧ (if _ then _ else _) = _
  split at h2
  · next hc =>
    rw [if_pos hc]
    cases h2
    exact ⟨rfl, rfl⟩
  · next hc =>
    rw [if_neg hc]
    rw [hb] at h2 ⊢
    simp only at h2 ⊢
    obtain ⟨l, h3, h2⟩ := Except.bind_ok h2
    obtain ⟨w, h4, h2⟩ := Except.bind_ok h2
    obtain ⟨z, h5, h2⟩ := Except.bind_ok h2
    cases h2
    have h3' : tiCurrL g k { nd with started := f } L eff t = .ok l := h3
    have h4' : tiBcFilter g yk.length { nd with started := f } t = .ok w := h4
    rw [h3']
    show _ ∧ (tiBcFilter g yk.length { nd with started := f } t >>= _) = _
    rw [h4']
    show _ ∧ (fewSamples l _ w _ >>= _) = _
    rw [h5]
    exact ⟨rfl, rfl⟩

theorem tiUpdate_given {rows rows' : List (TIObs K) → Rows K} {st st' : List (TIObs K) → Bool} {yk : List (List K)}
    {t : ℚ} {k : Nat} {bp : Bool} {nd r : TINode K} {eta : List K}
    (h : tiUpdate g rows st yk t k bp nd eta = .ok r) (hr : rows' r.hist = rows r.hist) (f : Bool) :
    (∃ o, r.hist = nd.hist ++ [o]) ∧
    tiUpdate g rows' st' yk t k bp { nd with started := f } eta = .ok { r with started := st' r.hist } := by
  unfold tiUpdate at h ⊢
  obtain ⟨fr, h1, h2⟩ := Except.bind_ok h
  rw [h1]
  show _ ∧ (if _ then _ else _) = _
  split at h2
  · cases h2
  · next hc =>
    rw [if_neg hc]
    simp only at h2 ⊢
    obtain ⟨d, h3, h2⟩ := Except.bind_ok h2
    obtain ⟨l, h4, h2⟩ := Except.bind_ok h2
    cases h2
    simp only at hr
    rw [hr, h3]
    show _ ∧ (g.desired _ _ _ _ _ _ >>= _) = _
    rw [h4]
    exact ⟨⟨_, rfl⟩, rfl⟩

theorem SameButStarted.update {a a' : Fin n → TINode K} (h : ∀ k, ∃ f, a' k = { a k with started := f }) (j : Fin n)
    {x x' : TINode K} (hx : ∃ f, x' = { x with started := f }) (k : Fin n) :
    ∃ f, Function.update a' j x' k = { Function.update a j x k with started := f } := by
  by_cases e : k = j
  · subst e; simpa using hx
  · simpa [Function.update_of_ne e] using h k

theorem hist_update {a : Fin n → TINode K} {j : Fin n} {x : TINode K} (h : (a j).hist <+: x.hist) (k : Fin n) :
    (a k).hist <+: (Function.update a j x k).hist := by
  by_cases e : k = j
  · subst e; simpa using h
  · simp [Function.update_of_ne e]

theorem tiStepEv_hist {U : TIStrategy n K} {y : Fin n → List (List K)} {trees : List (TreeObj n)} {t : ℚ}
    {a b : TISt n K} {e : OutEv} (h : tiStepEv g U y trees t a e = .ok b) (k : Fin n) :
    (a.node k).hist <+: (b.node k).hist := by
  unfold tiStepEv at h
  cases hty : e.ty with
  | tr =>
    rw [hty] at h
    simp only at h
    split at h
    · cases h
    · cases h; exact List.prefix_refl _
  | fu =>
    rw [hty] at h
    simp only at h
    split at h
    · obtain ⟨r, h1, h2⟩ := Except.bind_ok h
      cases h2
      refine hist_update ?_ k
      unfold tiFuse at h1
      obtain ⟨fr, _, h1⟩ := Except.bind_ok h1
      split at h1
      · cases h1; exact List.prefix_refl _
      · split at h1
        · obtain ⟨_, _, h1⟩ := Except.bind_ok h1
          obtain ⟨_, _, h1⟩ := Except.bind_ok h1
          cases h1; exact List.prefix_refl _
        · obtain ⟨_, _, h1⟩ := Except.bind_ok h1
          obtain ⟨_, _, h1⟩ := Except.bind_ok h1
          obtain ⟨_, _, h1⟩ := Except.bind_ok h1
          cases h1; exact List.prefix_refl _
    · cases h
  | bc =>
    rw [hty] at h
    simp only at h
    split at h
    · split at h
      · cases h
      · obtain ⟨_, _, h⟩ := Except.bind_ok h
        cases h; exact List.prefix_refl _
    · cases h
  | re =>
    rw [hty] at h
    simp only at h
    split at h
    · obtain ⟨_, _, h⟩ := Except.bind_ok h
      cases h; exact List.prefix_refl _
    · cases h
  | up =>
    rw [hty] at h
    simp only at h
    split at h
    · obtain ⟨nd, h1, h⟩ := Except.bind_ok h
      cases h
      refine hist_update ?_ k
      obtain ⟨o, ho⟩ := (tiUpdate_given (st' := fun _ => false) h1 rfl false).1
      rw [ho]
      exact List.prefix_append _ _
    · cases h

theorem tiStepEv_given {U : TIStrategy n K} {y : Fin n → List (List K)} {trees : List (TreeObj n)} {t : ℚ}
    {L : Nat} {eff : Bool} (hb : g.bc = .few L eff) {fin : TISt n K}
    {a b a' : TISt n K} {e : OutEv} (h : tiStepEv g U y trees t a e = .ok b)
    (hfin : ∀ k, (b.node k).hist <+: (fin.node k).hist) (hr : SameButStarted a a') :
    ∃ b', tiStepEv g (.given (recorded U fin)) y trees t a' e = .ok b' ∧ SameButStarted b b' := by
  unfold tiStepEv at h ⊢
  cases hty : e.ty with
  | tr =>
    rw [hty] at h
    simp only at h ⊢
    rw [hr.formed]
    split at h
    · cases h
    · next T hT =>
      cases h
      exact ⟨_, rfl, ⟨hr.net, rfl, rfl, rfl, hr.node⟩⟩
  | fu =>
    rw [hty] at h
    simp only at h ⊢
    split at h
    · next hk =>
      rw [dif_pos hk]
      obtain ⟨r, h1, h2⟩ := Except.bind_ok h
      cases h2
      obtain ⟨f, hf⟩ := hr.node ⟨e.node, hk⟩
      rw [hf, hr.net, (tiFuse_started hb h1 f).2]
      exact ⟨_, rfl, ⟨rfl, hr.up, hr.root, hr.formed, SameButStarted.update hr.node _ ⟨f, rfl⟩⟩⟩
    · cases h
  | bc =>
    rw [hty] at h
    simp only at h ⊢
    split at h
    · next hk =>
      rw [dif_pos hk, hr.root, hr.net, hr.up]
      split at h
      · cases h
      · obtain ⟨x, h1, h⟩ := Except.bind_ok h
        cases h
        simp only [h1]
        exact ⟨_, rfl, ⟨rfl, rfl, by simp_all, hr.formed, hr.node⟩⟩
    · cases h
  | re =>
    rw [hty] at h
    simp only at h ⊢
    split at h
    · next hk =>
      rw [dif_pos hk, hr.net, hr.up]
      obtain ⟨x, h1, h⟩ := Except.bind_ok h
      cases h
      simp only [h1]
      exact ⟨_, rfl, ⟨rfl, rfl, hr.root, hr.formed, hr.node⟩⟩
    · cases h
  | up =>
    rw [hty] at h
    simp only at h ⊢
    split at h
    · next hk =>
      rw [dif_pos hk]
      obtain ⟨r, h1, h2⟩ := Except.bind_ok h
      cases h2
      obtain ⟨f, hf⟩ := hr.node ⟨e.node, hk⟩
      have hrow : (TIStrategy.given (recorded U fin)).rows ⟨e.node, hk⟩ r.hist = U.rows ⟨e.node, hk⟩ r.hist := by
        simp only [TIStrategy.given, recorded]
        have := hfin ⟨e.node, hk⟩
        simp only [Function.update_self] at this
        rw [List.prefix_iff_eq_take.mp this, List.length_take]
        congr 2
        have := this.length_le
        omega
      rw [hf, hr.net, (tiUpdate_given h1 hrow f).2]
      exact ⟨_, rfl, ⟨rfl, hr.up, hr.root, hr.formed, SameButStarted.update hr.node _ ⟨_, rfl⟩⟩⟩
    · cases h

theorem tiRun_given {U : TIStrategy n K} {y : Fin n → List (List K)} {trees : List (TreeObj n)}
    {L : Nat} {eff : Bool} (hb : g.bc = .few L eff) {s0 s : TISt n K} {out : List (Instant ℚ)}
    (h : tiRun g U y trees s0 out = .ok s) :
    ∃ s', tiRun g (.given (recorded U s)) y trees s0 out = .ok s' ∧ SameButStarted s s' := by
  have h1 : ∀ (i : Instant ℚ) (a b : TISt n K), tiStepInstant g U y trees a i = .ok b →
      ∀ a', (∀ k, (b.node k).hist <+: (s.node k).hist) → SameButStarted a a' →
      (∀ k, (a.node k).hist <+: (s.node k).hist) ∧
      ∃ b', tiStepInstant g (.given (recorded U s)) y trees a' i = .ok b' ∧ SameButStarted b b' := by
    intro i a b hab a' hp hr
    unfold tiStepInstant at hab ⊢
    exact foldlM_sim (f := tiStepEv g U y trees i.t) (f' := tiStepEv g (.given (recorded U s)) y trees i.t)
      (P := fun c : TISt n K => ∀ k, (c.node k).hist <+: (s.node k).hist) (R := SameButStarted)
      (fun a e b he hb k => (tiStepEv_hist he k).trans (hb k)) i.evs
      (fun a e b a' he hb' hr => tiStepEv_given hb he hb' hr) hab hp hr
  unfold tiRun at h ⊢
  exact (foldlM_sim (f := tiStepInstant g U y trees) (f' := tiStepInstant g (.given (recorded U s)) y trees)
    (P := fun c : TISt n K => ∀ k, (c.node k).hist <+: (s.node k).hist) (R := SameButStarted)
    (fun a i b he hb' => (h1 i a b he a hb' ⟨rfl, rfl, rfl, rfl, fun k => ⟨(a.node k).started, rfl⟩⟩).1) out
    (fun a i b a' he hb' hr => (h1 i a b he a' hb' hr).2) h (fun k => List.prefix_refl _)
    ⟨rfl, rfl, rfl, rfl, fun k => ⟨(s0.node k).started, rfl⟩⟩).2

end
end Danse
