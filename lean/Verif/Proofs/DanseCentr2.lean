import Verif.Proofs.DanseCentr
import Verif.Proofs.Centr7
import Verif.Proofs.Pipeline

/-!
# Helper lemmas for C130: the centralised estimates of a whole run
-/

set_option linter.unusedSectionVars false

namespace Danse
section
variable {K : Type} [Field K] [StarRing K] [DecidableEq K] {y : Nat → List (List K)}

/-- `c` and `d` are the same up to the filters and phase factors. -/
def CentrCfg.fixed (c d : CentrCfg K) : Prop :=
  c = { d with
    g := { d.g with wInt := c.g.wInt, wExt := c.g.wExt, wLoc := c.g.wLoc, rot := c.g.rot }
    wC := c.wC, wS := c.wS, rotC := c.rotC }

theorem CentrCfg.fixed.g {c d : CentrCfg K} (h : c.fixed d) : c.g.fixed d.g := by
  unfold CentrCfg.fixed at h
  unfold GivenCfg.fixed
  exact congrArg CentrCfg.g h

theorem CentrCfg.fixed.trans {b c d : CentrCfg K} (h1 : b.fixed c) (h2 : c.fixed d) : b.fixed d := by
  unfold CentrCfg.fixed at *
  rw [h1]
  rw [h2]

/-- `c` and `d` are the same up to rows that a run from iterations `it` with `m k` updates of node `k` does not use. -/
structure CRowsAgree (c d : CentrCfg K) (it m : Nat → Nat) : Prop where
  fixed : c.fixed d
  g : RowsAgree c.g d.g it m
  wC : ∀ k i, it k < i → i ≤ it k + m k → c.wC k i = d.wC k i
  wS : ∀ k i, it k < i → i ≤ it k + m k → c.wS k i = d.wS k i
  rot : ∀ k i, it k ≤ i → i < it k + m k → c.rotC k i = d.rotC k i

theorem centr_bcast_rows {c d : CentrCfg K} {m : Nat → Nat} {s : CentrSt K} (h : CRowsAgree c d s.base.net.it m)
    (t : ℚ) (k : Nat) : c.broadcast y s t k = d.broadcast y s t k := by
  have e := bcast_rows (y := y) (s := s.base) h.g t k
  have hf := h.fixed
  unfold CentrCfg.fixed at hf
  unfold CentrCfg.broadcast
  rw [e]
  unfold CentrCfg.rawFrames CentrCfg.nSamplesToBC GivenCfg.currL
  rw [hf]

theorem centr_update_rows {c d : CentrCfg K} {m : Nat → Nat} {s : CentrSt K} (h : CRowsAgree c d s.base.net.it m)
    (t : ℚ) {k : Nat} (hk : 0 < m k) : c.update y s t k = d.update y s t k := by
  have e := update_rows (y := y) (s := s.base) h.g t hk
  have e1 := h.wC k (s.base.net.it k + 1) (by omega) (by omega)
  have e2 := h.wS k (s.base.net.it k + 1) (by omega) (by omega)
  have e3 := h.rot k (s.base.net.it k) le_rfl (by omega)
  have hf := h.fixed
  unfold CentrCfg.fixed at hf
  unfold CentrCfg.update
  simp only
  rw [e, e1, e2, e3]
  unfold GivenCfg.updRange GivenCfg.desired
  rw [hf]

theorem centr_run_rows {c d : CentrCfg K} (evs : List (ℚ × Nat × EvType)) : ∀ {s : CentrSt K},
    CRowsAgree c d s.base.net.it (evUps evs) → c.run y s evs = d.run y s evs := by
  induction evs with
  | nil => intro s _; rfl
  | cons ev evs ih =>
    intro s h
    have hc : ∀ k, evUps (ev :: evs) k = evUps [ev] k + evUps evs k := by
      intro k
      unfold evUps
      rw [← List.countP_append]; rfl
    have hstep : c.step y s ev = d.step y s ev := by
      obtain ⟨t, q, ty⟩ := ev
      unfold CentrCfg.step
      cases ty with
      | bc => exact centr_bcast_rows h t q
      | up => exact centr_update_rows h t (by rw [hc]; simp [evUps])
      | _ => rfl
    unfold CentrCfg.run
    simp only [List.foldlM_cons, hstep]
    cases h1 : d.step y s ev with
    | error e => rfl
    | ok s1 =>
      have hi := fun k => step_it (centr_step_base h1) k
      refine ih ⟨h.fixed, ⟨h.g.fixed, fun k i a b => h.g.int k i ?_ ?_, fun k i a b => h.g.loc k i ?_ ?_,
        fun k i a b => h.g.rot k i ?_ ?_, fun k i a b => h.g.ext k i ?_ ?_⟩, fun k i a b => h.wC k i ?_ ?_,
        fun k i a b => h.wS k i ?_ ?_, fun k i a b => h.rot k i ?_ ?_⟩ <;>
        have := hi k <;> have := hc k <;> omega

/-- What an update computes its estimates from is what it has observed. -/
theorem centr_observed {c : CentrCfg K} {s s' : CentrSt K} {t : ℚ} {k : Nat} {o : CObs K}
    (ho : c.observe y s t k = .ok o) {c' : CentrCfg K} (hf : c'.fixed c) (h : c'.update y s t k = .ok s') :
    o.t = t ∧ s'.yCentr k = o.yC ∧ s'.ySSBC k = o.yS ∧ (c.centr = true → s'.flags k = s.flags k ++ [o.flags]) := by
  unfold CentrCfg.fixed at hf
  have e1 : c'.n = c.n := by have := congrArg (fun c : CentrCfg K => c.n) hf; exact this
  have e2 : c'.centr = c.centr := by have := congrArg (fun c : CentrCfg K => c.centr) hf; exact this
  have e3 : c'.ssbc = c.ssbc := by have := congrArg (fun c : CentrCfg K => c.ssbc) hf; exact this
  have e4 : c'.g.N = c.g.N := congrArg (fun c => c.g.N) hf
  have e5 : c'.g.Ns = c.g.Ns := congrArg (fun c => c.g.Ns) hf
  have e6 : c'.g.fs = c.g.fs := congrArg (fun c => c.g.fs) hf
  have e7 : c'.g.bc = c.g.bc := congrArg (fun c => c.g.bc) hf
  unfold CentrCfg.observe at ho
  obtain ⟨p, hp, ho⟩ := bind_ok_inv ho
  obtain ⟨loc, hloc, ho⟩ := bind_ok_inv ho
  obtain ⟨yS, hyS, ho⟩ := bind_ok_inv ho
  injection ho with ho
  unfold CentrCfg.update at h
  rw [e1, e2, e3, e4, e5, e6, e7] at h
  obtain ⟨_, _, h⟩ := bind_ok_inv h
  obtain ⟨p', hp', h⟩ := bind_ok_inv h
  rw [hp] at hp'
  injection hp' with hp'
  subst hp'
  obtain ⟨loc', hloc', h⟩ := bind_ok_inv h
  rw [hloc] at hloc'
  injection hloc' with hloc'
  subst hloc'
  split at h
  · cases h
  · obtain ⟨yS', hyS', h⟩ := bind_ok_inv h
    rw [hyS] at hyS'
    injection hyS' with hyS'
    subst hyS'
    split at h
    · cases h
    · obtain ⟨base, hb, h⟩ := bind_ok_inv h
      obtain ⟨dC, hdC, h⟩ := bind_ok_inv h
      obtain ⟨dS, hdS, h⟩ := bind_ok_inv h
      injection h with h
      subst h
      subst ho
      refine ⟨rfl, ?_, ?_, fun hc => ?_⟩
      · simp
      · simp
      · simp [hc]

variable {C : CDanseCfg K}

/-- A run so far. -/
structure CRunInv (C : CDanseCfg K) (y : Nat → List (List K)) (T : Nat) (evs : List (ℚ × Nat × EvType)) (a : CDanseSt C) :
    Prop where
  fixed : a.cfg.fixed C.base
  base : danseRun C.D y T evs = .ok ⟨⟨a.cfg.g, a.st.base, a.hist⟩, a.node⟩
  node : ∀ k, CNodeInv C k (a.chist k) (a.cnode k)
  len : ∀ k, (a.chist k).length = evUps evs k
  rowC : C.centr = true → ∀ k i, i < evUps evs k → ∃ w, (nodeRun2 (C.kindC k) (C.D.kind0 k C.total (C.wC0 k))
    (C.withOwn k (C.heardC k ((a.chist k).take (i + 1))))).w (i + 1) = .ok w ∧ a.cfg.wC k (i + 1) = frameRow w
  rowS : C.ssbc = true → ∀ k i, i < evUps evs k →
    (∃ w, (nodeRun (C.D.kind k (C.D.dim k)) (C.D.kind0 k (C.D.dim k) (C.wS0 k))
      (C.heardS k ((a.chist k).take (i + 1)))).w (i + 1) = .ok w ∧ a.cfg.wS k (i + 1) = frameRow w) ∧
    ∀ o, (a.chist k)[i]? = some o → o.yS.length = C.D.dim k
  old : ∀ k i, i = 0 ∨ evUps evs k < i → a.cfg.wC k i = C.wC0 k i ∧ a.cfg.wS k i = C.wS0 k i
  rot : ∀ k i, i < evUps evs k → a.cfg.rotC k i = C.rotC k (((a.chist k).take (i + 1)).map fun o => (o.t, o.flags))
  again : a.cfg.run y (.init C.n C.D.g.N C.D.g.refSensor T C.D.M) evs = .ok a.st

theorem evUps_snoc (evs : List (ℚ × Nat × EvType)) (ev : ℚ × Nat × EvType) (k : Nat) :
    evUps (evs ++ [ev]) k = evUps evs k + evUps [ev] k := by
  unfold evUps
  rw [← List.countP_append]

theorem cdanseRun_inv {T : Nat} (evs : List (ℚ × Nat × EvType)) :
    ∀ {a : CDanseSt C}, cdanseRun C y T evs = .ok a → CRunInv C y T evs a := by
  induction evs using List.reverseRecOn with
  | nil =>
    intro a h
    injection h with h
    subst h
    exact ⟨rfl, rfl, fun k => ⟨fun _ => rfl, fun _ => rfl, rfl, fun _ => rfl, fun _ => rfl⟩, fun k => by simp [evUps, CDanseSt.init],
      fun _ k i hi => by simp [evUps] at hi, fun _ k i hi => by simp [evUps] at hi, fun _ _ _ => ⟨rfl, rfl⟩,
      fun k i hi => by simp [evUps] at hi, rfl⟩
  | append_singleton evs ev ih =>
    intro a h
    unfold cdanseRun at h
    rw [List.foldlM_append] at h
    obtain ⟨a1, h1, h⟩ := bind_ok_inv h
    rw [List.foldlM_cons] at h
    obtain ⟨a2, h2, h⟩ := bind_ok_inv h
    injection h with h
    subst h
    have w := ih h1
    have hit : ∀ k, a1.st.base.net.it k = evUps evs k := by
      intro k
      rw [run_it evs (centr_run_base evs w.again) k]
      exact Nat.zero_add _
    have hrun : ∀ {c : CentrCfg K} {s : CentrSt K}, c.run y (.init C.n C.D.g.N C.D.g.refSensor T C.D.M) evs = .ok a1.st →
        c.step y a1.st ev = .ok s → c.run y (.init C.n C.D.g.N C.D.g.refSensor T C.D.M) (evs ++ [ev]) = .ok s := by
      intro c s hr hs
      unfold CentrCfg.run at hr ⊢
      rw [List.foldlM_append, hr]
      show List.foldlM (c.step y) a1.st [ev] = _
      rw [List.foldlM_cons, hs]
      rfl
    have hbase : ∀ {b : DanseSt C.D}, danseStep C.D y ⟨⟨a1.cfg.g, a1.st.base, a1.hist⟩, a1.node⟩ ev = .ok b →
        danseRun C.D y T (evs ++ [ev]) = .ok b := by
      intro b hs
      have hb := w.base
      unfold danseRun at hb ⊢
      rw [List.foldlM_append, hb]
      show List.foldlM (danseStep C.D y) _ [ev] = _
      rw [List.foldlM_cons, hs]
      rfl
    obtain ⟨t, q, ty⟩ := ev
    by_cases hty : ty = .up
    · subst hty
      unfold cdanseStep at h2
      simp only at h2
      obtain ⟨o, ho, h2⟩ := bind_ok_inv h2
      obtain ⟨oc, hoc, h2⟩ := bind_ok_inv h2
      obtain ⟨r, hr, h2⟩ := bind_ok_inv h2
      obtain ⟨rc, hrc, h2⟩ := bind_ok_inv h2
      obtain ⟨s, hs, h2⟩ := bind_ok_inv h2
      injection h2 with h2
      have hq : evUps (evs ++ [(t, q, .up)]) q = evUps evs q + 1 := by rw [evUps_snoc]; simp [evUps]
      have hne : ∀ k, k ≠ q → evUps (evs ++ [(t, q, .up)]) k = evUps evs k := by
        intro k hk; rw [evUps_snoc]; simp [evUps, Ne.symm hk]
      rw [hit q] at hs h2
      have hcfg : a2.cfg = a1.cfg.record ((a1.cfg.g.record q (evUps evs q + 1) r.2).setRot q (evUps evs q)
          (C.D.rot q r.1.times)) q (evUps evs q) rc.2.1 rc.2.2 (C.rotC q rc.1.times) := by rw [← h2]
      have hch : a2.chist = Function.update a1.chist q (a1.chist q ++ [oc]) := by rw [← h2]
      have hcn : a2.cnode = Function.update a1.cnode q rc.1 := by rw [← h2]
      have hst : a2.st = s := by rw [← h2]
      rw [← hcfg] at hs
      have hf : a2.cfg.fixed a1.cfg := by rw [hcfg]; rfl
      have hlen := w.len q
      obtain ⟨ni, nS, nC, nW⟩ := (w.node q).step (s' := rc.1) (wC := rc.2.1) (wS := rc.2.2) hrc
      rw [hlen] at nC nW
      have same : ∀ k i, k ≠ q ∨ i ≠ evUps evs q + 1 → a2.cfg.wC k i = a1.cfg.wC k i ∧
          a2.cfg.wS k i = a1.cfg.wS k i := by
        intro k i hki
        rw [hcfg]
        by_cases hk : k = q
        · subst hk
          have hi := hki.resolve_left (by simp)
          simp [CentrCfg.record, Function.update_of_ne hi]
        · simp [CentrCfg.record, Function.update_of_ne hk]
      have sameR : ∀ k i, k ≠ q ∨ i ≠ evUps evs q → a2.cfg.rotC k i = a1.cfg.rotC k i := by
        intro k i hki
        rw [hcfg]
        by_cases hk : k = q
        · subst hk
          have hi := hki.resolve_left (by simp)
          simp [CentrCfg.record, Function.update_of_ne hi]
        · simp [CentrCfg.record, Function.update_of_ne hk]
      have hagree : CRowsAgree a2.cfg a1.cfg (fun _ => 0) (evUps evs) := by
        refine ⟨hf, ⟨hf.g, fun k i a b => ?_, fun k i a b => ?_, fun k i a b => ?_, fun k i a b => ?_⟩,
          fun k i a b => (same k i ?_).1, fun k i a b => (same k i ?_).2, fun k i a b => sameR k i ?_⟩
        iterate 4
          · rw [hcfg]
            by_cases hk : k = q
            · subst hk
              have h1 : i ≠ evUps evs k + 1 := by omega
              have h2 : i < evUps evs k → i ≠ evUps evs k := by omega
              first
              | (simp [CentrCfg.record, GivenCfg.record, GivenCfg.setRot, Function.update_of_ne h1]; done)
              | simp [CentrCfg.record, GivenCfg.record, GivenCfg.setRot, Function.update_of_ne (h2 (by omega))]
            · simp [CentrCfg.record, GivenCfg.record, GivenCfg.setRot, Function.update_of_ne hk]
        all_goals
          by_cases hk : k = q
          · subst hk; exact .inr (by omega)
          · exact .inl hk
      refine ⟨hf.trans w.fixed, ?_, fun k => ?_, fun k => ?_, fun hc k i hi => ?_, fun hc k i hi => ?_, fun k i hi => ?_,
        fun k i hi => ?_, ?_⟩
      · apply hbase
        unfold danseStep
        simp only
        rw [ho]
        simp only [bind, Except.bind]
        rw [hr]
        simp only
        have hb := centr_step_base hs
        rw [hcfg] at hb
        simp only [CentrCfg.record] at hb
        rw [hit q, hb]
        simp only
        rw [← h2]
        rfl
      · rw [hch, hcn]
        by_cases hk : k = q
        · subst hk; rw [Function.update_self, Function.update_self]; exact ni
        · rw [Function.update_of_ne hk, Function.update_of_ne hk]; exact w.node k
      · rw [hch]
        by_cases hk : k = q
        · subst hk; rw [Function.update_self, hq]; simp [hlen]
        · rw [hne k hk, Function.update_of_ne hk]; exact w.len k
      · by_cases hk : k = q
        · subst hk
          rw [hch, Function.update_self]
          by_cases hi' : i < evUps evs k
          · rw [List.take_append_of_le_length (by rw [hlen]; omega), (same k (i + 1) (.inr (by omega))).1]
            exact w.rowC hc k i hi'
          · have : i = evUps evs k := by omega
            subst this
            rw [List.take_of_length_le (by simp [hlen])]
            obtain ⟨v, hv, e⟩ := nC hc
            refine ⟨v, hv, ?_⟩
            rw [hcfg, ← e]
            simp [CentrCfg.record]
        · rw [hne k hk] at hi
          rw [hch, Function.update_of_ne hk, (same k (i + 1) (.inl hk)).1]
          exact w.rowC hc k i hi
      · by_cases hk : k = q
        · subst hk
          rw [hch, Function.update_self]
          by_cases hi' : i < evUps evs k
          · rw [List.take_append_of_le_length (by rw [hlen]; omega), (same k (i + 1) (.inr (by omega))).2,
              List.getElem?_append_left (by omega)]
            exact w.rowS hc k i hi'
          · have : i = evUps evs k := by omega
            subst this
            rw [List.take_of_length_le (by simp [hlen])]
            obtain ⟨v, hv, e⟩ := nW hc
            refine ⟨⟨v, hv, ?_⟩, fun o' ho' => ?_⟩
            · rw [hcfg, ← e]
              simp [CentrCfg.record]
            · rw [← hlen, List.getElem?_concat_length] at ho'
              injection ho' with ho'
              rw [← ho']
              exact nS hc
        · rw [hne k hk] at hi
          rw [hch, Function.update_of_ne hk, (same k (i + 1) (.inl hk)).2]
          exact w.rowS hc k i hi
      · by_cases hk : k = q
        · subst hk
          rw [hq] at hi
          rw [(same k i (.inr (by omega))).1, (same k i (.inr (by omega))).2]
          exact w.old k i (by omega)
        · rw [hne k hk] at hi
          rw [(same k i (.inl hk)).1, (same k i (.inl hk)).2]
          exact w.old k i hi
      · by_cases hk : k = q
        · subst hk
          rw [hch, Function.update_self]
          by_cases hi' : i < evUps evs k
          · rw [List.take_append_of_le_length (by rw [hlen]; omega), sameR k i (.inr (by omega))]
            exact w.rot k i hi'
          · have : i = evUps evs k := by omega
            subst this
            rw [List.take_of_length_le (by simp [hlen]), ← ni.times, hcfg]
            simp [CentrCfg.record]
        · rw [hne k hk] at hi
          rw [hch, Function.update_of_ne hk, sameR k i (.inl hk)]
          exact w.rot k i hi
      · rw [hst]
        apply hrun _ hs
        rw [← w.again]
        exact centr_run_rows evs hagree
    · unfold cdanseStep at h2
      split at h2
      · rename_i e; exact absurd e hty
      · obtain ⟨s, hs, h2⟩ := bind_ok_inv h2
        injection h2 with h2
        subst h2
        have hz : ∀ k, evUps (evs ++ [(t, q, ty)]) k = evUps evs k := by
          intro k; rw [evUps_snoc]; simp [evUps, hty]
        refine ⟨w.fixed, ?_, w.node, fun k => by rw [hz]; exact w.len k, fun hc k i => by rw [hz]; exact w.rowC hc k i,
          fun hc k i => by rw [hz]; exact w.rowS hc k i, fun k i => by rw [hz]; exact w.old k i,
          fun k i => by rw [hz]; exact w.rot k i, hrun w.again hs⟩
        apply hbase
        unfold danseStep
        split
        · rename_i e; exact absurd e hty
        · rw [show (⟨⟨a1.cfg.g, a1.st.base, a1.hist⟩, a1.node⟩ : DanseSt C.D).run.cfg.step y a1.st.base (t, q, ty) =
            .ok s.base from centr_step_base hs]
          rfl

end
end Danse
