import Verif.Proofs.DanseCentr8
import Verif.Proofs.Stoi

/-!
# Helper lemmas for C131: one event, and a whole run, with the centralised estimates
-/

set_option linter.unusedSectionVars false

namespace Danse
section
variable {K : Type} [Field K] [StarRing K] [DecidableEq K] {c : CentrCfg K} {y : Nat → List (List K)}

/-- A broadcast at time `t` sends something. -/
def CanSend (g : GivenCfg K) (pre : List (ℚ × Nat × EvType)) (t : ℚ) (k : Nat) : Prop :=
  match g.bc with
  | .whole => 0 < g.Ns
  | .few L eff => eff = true ∧
    L * (((g.stamps k).filter fun u => decide (lastBcTime pre k < u) && decide (u ≤ t)).length / L) ≠ 0

theorem cbroadcast_total {pre : List (ℚ × Nat × EvType)} {s : CentrSt K} (hc : c.centr = true) (hi : CInv c y pre s)
    {t : ℚ} {k : Nat} {b : GivenSt K} (hb : c.g.broadcast y s.base t k = .ok b) (hs : CanSend c.g pre t k) :
    ∃ s', c.broadcast y s t k = .ok s' ∧ s'.dC = s.dC ∧ s'.dS = s.dS := by
  unfold CentrCfg.broadcast
  rw [if_pos hc]
  have key : ∃ raw m, c.rawFrames y s t k = .ok raw ∧ c.nSamplesToBC s t k = .ok m ∧ m ≠ 0 := by
    have hb' := hb
    unfold GivenCfg.broadcast at hb'
    obtain ⟨fr, hfr, hb'⟩ := bind_ok_inv hb'
    unfold CentrCfg.rawFrames CentrCfg.nSamplesToBC
    rw [hfr]
    unfold CanSend at hs
    cases hbc : c.g.bc with
    | whole =>
      rw [hbc] at hs
      simp only at hs
      exact ⟨_, _, rfl, rfl, by omega⟩
    | few L eff =>
      rw [hbc] at hs
      obtain ⟨rfl, hs⟩ := hs
      have hL : L ≠ 0 := by rintro rfl; simp at hs
      have hl : c.g.currL s.base L true t k = .ok (L * (((c.g.stamps k).filter fun u =>
          decide (lastBcTime pre k < u) && decide (u ≤ t)).length / L)) := by
        unfold GivenCfg.currL bufferSizeEff
        rw [if_pos rfl, if_neg hL, hi.last L hbc k]
      simp only [bind, Except.bind]
      rw [hl]
      exact ⟨_, _, rfl, rfl, by omega⟩
  obtain ⟨raw, m, h1, h2, h3⟩ := key
  obtain ⟨bf, h4⟩ := fillCentr_total (n := c.n) (buf := s.buf) (k := k) (raw := raw) h3
  rw [h1]
  simp only [bind, Except.bind]
  rw [hb]
  simp only
  rw [h2]
  simp only
  rw [h4]
  exact ⟨_, rfl, rfl, rfl⟩

/-- Conditions on one event. -/
structure CEvOk (C : CDanseCfg K) (y : Nat → List (List K)) (T : Nat) (pre : List (ℚ × Nat × EvType))
    (ev : ℚ × Nat × EvType) : Prop where
  node : ev.2.1 < C.n
  nonneg : 0 ≤ ⌊ev.1 * C.D.g.fs ev.2.1⌋
  send : ev.2.2 = .bc → CanSend C.D.g pre ev.1 ev.2.1
  pos : ev.2.2 = .up → 0 < frameEnd C.D.g.bc C.D.g.N C.D.g.Ns ev.1 (C.D.g.fs ev.2.1) ∧
    frameEnd C.D.g.bc C.D.g.N C.D.g.Ns ev.1 (C.D.g.fs ev.2.1) ≤ T ∧
    (C.D.g.conv = true → (C.D.g.Ns : Int) ≤ frameEnd C.D.g.bc C.D.g.N C.D.g.Ns ev.1 (C.D.g.fs ev.2.1))
  buf : ev.2.2 = .up → 0 < evUps pre ev.2.1 → ∀ q < C.n, q ≠ ev.2.1 → ∀ m < (y q).length,
    (sent (sinceUp ev.2.1 (rawOps C.D.g y pre m)) q).length ≤ C.D.g.N

theorem rawOps_fixed {g d : GivenCfg K} (h : g.fixed d) (evs : List (ℚ × Nat × EvType)) (m : Nat) :
    rawOps g y evs m = rawOps d y evs m := by
  unfold GivenCfg.fixed at h
  unfold rawOps rawChunk
  rw [h]

theorem canSend_fixed {g d : GivenCfg K} (h : g.fixed d) {pre : List (ℚ × Nat × EvType)} {t : ℚ} {k : Nat}
    (hs : CanSend d pre t k) : CanSend g pre t k := by
  unfold GivenCfg.fixed at h
  unfold CanSend at *
  rw [h]
  exact hs

theorem cobserve_total {pre : List (ℚ × Nat × EvType)} {s : CentrSt K} (hc : c.centr = true) (hi : CInv c y pre s)
    {t : ℚ} {k : Nat} (hk : k < c.n) (hb : 0 < evUps pre k → ∀ q < c.n, q ≠ k → ∀ m < (y q).length,
      (sent (sinceUp k (rawOps c.g y pre m)) q).length ≤ c.g.N) (hit : s.base.net.it k = evUps pre k)
    {loc : List (List K × Int × Int)} (hloc : (y k).mapM (fun ch => chunkForUpdate ch t (c.g.fs k) c.g.bc.name c.g.N c.g.Ns) = .ok loc)
    (hpos : c.ssbc = true → ∀ q < c.n, q ≠ k → 0 < (y q).length) :
    ∃ p yS, processCentr c.n c.g.N c.g.Ns (fun q => (y q).length) s k = .ok p ∧
      whenOn c.ssbc (buildSsbc c.n (fun q => (y q).length) k (loc.map (·.1)) p.1) [] = .ok yS ∧
      (c.ssbc = true → yS.length = (y k).length + (centrSlots c.n k).length) ∧
      c.observe y s t k = .ok ⟨t, p.2, buildCentr c.n (fun q => (y q).length) k (loc.map (·.1)) p.1, yS⟩ := by
  obtain ⟨p, hp⟩ := processCentr_total hi hk hb hit
  have hll : loc.length = (y k).length := mapM_length hloc
  have key : ∃ yS, whenOn c.ssbc (buildSsbc c.n (fun q => (y q).length) k (loc.map (·.1)) p.1) [] = .ok yS ∧
      (c.ssbc = true → yS.length = (y k).length + (centrSlots c.n k).length) := by
    unfold whenOn
    by_cases hs : c.ssbc = true
    · rw [if_pos hs, (processCentr_eq hi hk hp).1, buildSsbc_eq (fun q => by simp) (hpos hs)]
      exact ⟨_, rfl, fun _ => by simp [hll]⟩
    · rw [if_neg hs]
      exact ⟨_, rfl, fun h => absurd h hs⟩
  obtain ⟨yS, hyS, hyl⟩ := key
  refine ⟨p, yS, hp, hyS, hyl, ?_⟩
  unfold CentrCfg.observe
  rw [hc]
  simp only [whenOn, if_true]
  rw [hp]
  simp only [bind, Except.bind]
  rw [hloc]
  simp only
  unfold whenOn at hyS
  rw [hyS]

theorem cupdate_total (hc : c.centr = true) (hns : ¬ (c.ssbc && c.compensateSROs) = true) {s : CentrSt K} {t : ℚ} {k : Nat}
    {b : GivenSt K} (hb : c.g.update y s.base t k = .ok b) {p : List (List K) × List Int}
    (hp : processCentr c.n c.g.N c.g.Ns (fun q => (y q).length) s k = .ok p)
    {loc : List (List K × Int × Int)} (hloc : (y k).mapM (fun ch => chunkForUpdate ch t (c.g.fs k) c.g.bc.name c.g.N c.g.Ns) = .ok loc)
    {yS : List (List K)} (hyS : whenOn c.ssbc (buildSsbc c.n (fun q => (y q).length) k (loc.map (·.1)) p.1) [] = .ok yS)
    (hN : 0 < c.g.N) (he : 2 ∣ c.g.N) (hNs : c.g.Ns ≤ c.g.N) (hfl : c.g.f.length = c.g.N)
    (hwC : BinsOk c.g.N (c.wC k (s.base.net.it k + 1))) (hwS : BinsOk c.g.N (c.wS k (s.base.net.it k + 1)))
    (h0 : 0 < frameEnd c.g.bc c.g.N c.g.Ns t (c.g.fs k))
    (hC : frameEnd c.g.bc c.g.N c.g.Ns t (c.g.fs k) ≤ (s.dC k).length)
    (hS : frameEnd c.g.bc c.g.N c.g.Ns t (c.g.fs k) ≤ (s.dS k).length)
    (hcv : c.g.conv = true → (c.g.Ns : Int) ≤ frameEnd c.g.bc c.g.N c.g.Ns t (c.g.fs k)) :
    ∃ s', c.update y s t k = .ok s' ∧ (∀ q, (s'.dC q).length = (s.dC q).length) ∧ ∀ q, (s'.dS q).length = (s.dS q).length := by
  have hb' := hb
  unfold GivenCfg.update at hb'
  obtain ⟨net, hnet, hb'⟩ := bind_ok_inv hb'
  obtain ⟨loc', hloc', hb'⟩ := bind_ok_inv hb'
  rw [hloc] at hloc'
  injection hloc' with hloc'
  subst hloc'
  have hr : c.g.updRange t k = (max (frameEnd c.g.bc c.g.N c.g.Ns t (c.g.fs k) - c.g.N) 0,
      frameEnd c.g.bc c.g.N c.g.Ns t (c.g.fs k)) := by
    unfold GivenCfg.updRange frameEnd
    cases c.g.bc <;> rfl
  by_cases hany : loc.any (fun x => decide (x.1.length ≠ c.g.N)) = true
  · rw [if_pos hany] at hb'
    cases hb'
  · obtain ⟨dC, e1, l1⟩ := desired_total (g := c.g) (w := c.wC k (s.base.net.it k + 1))
      (yHat := ((buildCentr c.n (fun q => (y q).length) k (loc.map (·.1)) p.1).map
        (analysis c.g.ζ c.g.N c.g.c c.g.h)).zipIdx.map fun (ch, m) =>
          ch.zipIdx.map fun (v, κ) => v * c.rotC k (s.base.net.it k) m κ)
      (yTD := (buildCentr c.n (fun q => (y q).length) k (loc.map (·.1)) p.1).take (y k).length)
      hN he hNs hfl (fun _ => hwC) h0 hC hcv
    obtain ⟨dS, e2, l2⟩ := desired_total (g := c.g) (w := c.wS k (s.base.net.it k + 1))
      (yHat := yS.map (analysis c.g.ζ c.g.N c.g.c c.g.h)) (yTD := yS.take (y k).length)
      hN he hNs hfl (fun _ => hwS) h0 hS hcv
    unfold CentrCfg.update
    simp only
    rw [hnet, hc]
    simp only [bind, Except.bind]
    rw [show whenOn true (processCentr c.n c.g.N c.g.Ns (fun q => (y q).length) s k) (s.yc k, []) = .ok p from hp]
    simp only
    rw [hloc]
    simp only
    rw [if_neg hany, hyS]
    simp only
    rw [if_neg hns, hb]
    simp only [if_true, whenOn]
    rw [hr]
    simp only
    rw [e1]
    simp only
    by_cases hs : c.ssbc = true
    · rw [if_pos hs, e2]
      refine ⟨_, rfl, fun q => ?_, fun q => ?_⟩
      · by_cases hq : q = k
        · subst hq; simp [l1]
        · simp [Function.update_of_ne hq]
      · by_cases hq : q = k
        · subst hq; simp [l2]
        · simp [Function.update_of_ne hq]
    · rw [if_neg hs]
      refine ⟨_, rfl, fun q => ?_, fun q => ?_⟩
      · by_cases hq : q = k
        · subst hq; simp [l1]
        · simp [Function.update_of_ne hq]
      · by_cases hq : q = k
        · subst hq; simp
        · simp [Function.update_of_ne hq]

end

section
variable {K : Type} [Field K] [StarRing K] [DecidableEq K] {C : CDanseCfg K} {y : Nat → List (List K)} {T : Nat}

theorem centrSlots_count {k : Nat} (hk : k < C.n) : (centrSlots C.n k).length = C.n - 1 := others_length hk

theorem cdanse_of_danse (hc : C.centr = true) (hns : C.ssbc = true → C.compensateSROs = false) (hN : 0 < C.D.g.N)
    (he : 2 ∣ C.D.g.N) (hNs : C.D.g.Ns ≤ C.D.g.N) (hfl : C.D.g.f.length = C.D.g.N) (hM : ∀ q, (y q).length = C.D.M q)
    (hlen : ∀ q < C.n, ∀ x ∈ y q, C.D.g.N ≤ x.length) (hpos : C.ssbc = true → ∀ q < C.n, 0 < C.D.M q)
    (hdim : C.ssbc = true → ∀ k < C.n, C.D.dim k = C.D.M k + (C.n - 1))
    (hC : ∀ k < C.n, ∀ h j, ∃ w, (nodeRun2 (C.kindC k) (C.D.kind0 k C.total (C.wC0 k))
      (C.withOwn k (C.heardC k h))).w j = .ok w)
    (hS : C.ssbc = true → ∀ k < C.n, ∀ l j, ∃ w, (nodeRun (C.D.kind k (C.D.dim k)) (C.D.kind0 k (C.D.dim k) (C.wS0 k)) l).w j = .ok w)
    (evs : List (ℚ × Nat × EvType)) (hev : ∀ pre ev post, evs = pre ++ ev :: post → CEvOk C y T pre ev) :
    ∀ {b : DanseSt C.D}, danseRun C.D y T evs = .ok b →
      ∃ a, cdanseRun C y T evs = .ok a ∧ ∀ k, (a.st.dC k).length = T ∧ (a.st.dS k).length = T := by
  induction evs using List.reverseRecOn with
  | nil =>
    intro b _
    exact ⟨_, rfl, fun k => by simp [CDanseSt.init, CentrSt.init]⟩
  | append_singleton evs ev ih =>
    intro b hb
    unfold danseRun at hb
    rw [List.foldlM_append] at hb
    obtain ⟨b1, hb1, hb⟩ := bind_ok_inv hb
    rw [List.foldlM_cons] at hb
    obtain ⟨b2, hb2, _⟩ := bind_ok_inv hb
    obtain ⟨a1, ha1, hd1⟩ := ih (fun pre e post hs => hev pre e (post ++ [ev]) (by rw [hs]; simp)) hb1
    have w := cdanseRun_inv _ ha1
    have hbe := w.base
    unfold danseRun at hbe
    rw [hb1] at hbe
    injection hbe with hbe
    subst hbe
    have hok := hev evs ev [] (by simp)
    have hevs : ∀ e ∈ evs, e.2.1 < C.n ∧ 0 ≤ ⌊e.1 * C.D.g.fs e.2.1⌋ := by
      intro e he
      obtain ⟨p1, p2, rfl⟩ := List.append_of_mem he
      have := hev p1 e (p2 ++ [ev]) (by simp)
      exact ⟨this.node, this.nonneg⟩
    obtain ⟨f1, f2, f3, f4, f5, f6, f7, f8, f9⟩ := fixed_fields w.fixed
    have hag := w.again
    rw [← f1, ← f4, ← f8, show C.D.M = fun q => (y q).length from funext fun q => (hM q).symm] at hag
    have hinv := CInv.run (c := a1.cfg) (f2.trans hc) (by rw [f4]; exact hN) (by rw [f1, f4]; exact hlen) T evs
      (by rw [f1, f6]; exact hevs) hag
    have hit : ∀ k, a1.st.base.net.it k = evUps evs k := by
      intro k
      rw [run_it evs (centr_run_base evs w.again) k]
      exact Nat.zero_add _
    have hgf := w.fixed.g
    have fin : ∀ {a : CDanseSt C}, cdanseStep C y a1 ev = .ok a → cdanseRun C y T (evs ++ [ev]) = .ok a := by
      intro a h
      unfold cdanseRun at ha1 ⊢
      rw [List.foldlM_append, ha1]
      show List.foldlM (cdanseStep C y) a1 [ev] = _
      rw [List.foldlM_cons, h]
      rfl
    obtain ⟨t, q, ty⟩ := ev
    by_cases hty : ty = .up
    · subst hty
      unfold danseStep at hb2
      simp only at hb2
      obtain ⟨o, ho, hb2⟩ := bind_ok_inv hb2
      obtain ⟨r, hr, hb2⟩ := bind_ok_inv hb2
      obtain ⟨s, hs, hb2⟩ := bind_ok_inv hb2
      have hq := hok.node
      simp only at hq
      have ho' := ho
      unfold GivenCfg.observe at ho'
      obtain ⟨net, hnet, ho'⟩ := bind_ok_inv ho'
      obtain ⟨loc, hloc, ho'⟩ := bind_ok_inv ho'
      obtain ⟨p, yS, hp, hyS, hyl, hoc⟩ := cobserve_total (t := t) (f2.trans hc) hinv (k := q) (by rw [f1]; exact hq)
        (by
          intro h0
          have := hok.buf rfl h0
          rw [f1, f4]
          intro q' h1 h2 m h3
          rw [rawOps_fixed hgf]
          exact this q' h1 h2 m h3) (hit q) hloc
        (by rw [f3, f1]; intro h1 q' h2 _; rw [hM]; exact hpos h1 q' h2)
      rw [f1, f3, hM, centrSlots_count hq] at hyl
      obtain ⟨s', wC, wS, hrc⟩ := cnodeUpdate_total (w.node q) (fun _ => hC q hq) (fun h1 => hS h1 q hq)
        (o := ⟨t, p.2, buildCentr a1.cfg.n (fun q => (y q).length) q (loc.map (·.1)) p.1, yS⟩)
        (fun h1 => by rw [hdim h1 q hq]; exact hyl h1)
      obtain ⟨p1, p2, p3⟩ := hok.pos rfl
      simp only at p1 p2 p3
      have hcv : a1.cfg.g.conv = C.D.g.conv := congrArg (fun c => c.conv) hgf
      have hff : a1.cfg.g.f = C.D.g.f := congrArg (fun c => c.f) hgf
      have hcs : a1.cfg.compensateSROs = C.compensateSROs := by
        have := congrArg (fun c : CentrCfg K => c.compensateSROs) w.fixed; exact this
      have hup := cupdate_total (y := y) (c := a1.cfg.record ((a1.cfg.g.record q (a1.st.base.net.it q + 1) r.2).setRot q
          (a1.st.base.net.it q) (C.D.rot q r.1.times)) q (a1.st.base.net.it q) (frameRow wC) (frameRow wS)
          (C.rotC q s'.times)) (s := a1.st) (t := t) (k := q) (b := s) (p := p) (loc := loc) (yS := yS)
        (f2.trans hc) (by
          change ¬ (a1.cfg.ssbc && a1.cfg.compensateSROs) = true
          rw [f3, hcs]
          intro h
          rw [Bool.and_eq_true] at h
          rw [hns h.1] at h
          simp at h) hs hp hloc hyS (f4 ▸ hN) (f4 ▸ he)
        (by change a1.cfg.g.Ns ≤ a1.cfg.g.N; rw [f4, f5]; exact hNs)
        (by change a1.cfg.g.f.length = a1.cfg.g.N; rw [hff, f4]; exact hfl)
        (by
          change BinsOk a1.cfg.g.N (Function.update a1.cfg.wC q _ q (a1.st.base.net.it q + 1))
          rw [Function.update_self, Function.update_self, f4]
          exact (frameRow_shape wC).2)
        (by
          change BinsOk a1.cfg.g.N (Function.update a1.cfg.wS q _ q (a1.st.base.net.it q + 1))
          rw [Function.update_self, Function.update_self, f4]
          exact (frameRow_shape wS).2)
        (by change 0 < frameEnd a1.cfg.g.bc a1.cfg.g.N a1.cfg.g.Ns t (a1.cfg.g.fs q); rw [f4, f5, f6, f7]; exact p1)
        (by change frameEnd a1.cfg.g.bc a1.cfg.g.N a1.cfg.g.Ns t (a1.cfg.g.fs q) ≤ _; rw [f4, f5, f6, f7, (hd1 q).1]; exact p2)
        (by change frameEnd a1.cfg.g.bc a1.cfg.g.N a1.cfg.g.Ns t (a1.cfg.g.fs q) ≤ _; rw [f4, f5, f6, f7, (hd1 q).2]; exact p2)
        (by
          change a1.cfg.g.conv = true → (a1.cfg.g.Ns : Int) ≤ frameEnd a1.cfg.g.bc a1.cfg.g.N a1.cfg.g.Ns t (a1.cfg.g.fs q)
          rw [hcv, f4, f5, f6, f7]; exact p3)
      obtain ⟨s2, u1, u2, u3⟩ := hup
      have hst : ∃ a, cdanseStep C y a1 (t, q, .up) = .ok a ∧ a.st = s2 := by
        unfold cdanseStep
        simp only
        rw [ho]
        simp only [bind, Except.bind]
        rw [hoc]
        simp only
        rw [hr]
        simp only
        rw [hrc]
        simp only
        unfold CentrCfg.step
        simp only
        rw [u1]
        exact ⟨_, rfl, rfl⟩
      obtain ⟨a, ha, rfl⟩ := hst
      exact ⟨a, fin ha, fun k => ⟨(u2 k).trans (hd1 k).1, (u3 k).trans (hd1 k).2⟩⟩
    · have hty' : ty = .bc := by
        cases ty with
        | up => exact absurd rfl hty
        | bc => rfl
        | _ => simp [danseStep, GivenCfg.step, bind, Except.bind] at hb2
      subst hty'
      unfold danseStep at hb2
      simp only at hb2
      obtain ⟨s, hs, hb2⟩ := bind_ok_inv hb2
      obtain ⟨s', u1, u2, u3⟩ := cbroadcast_total (y := y) (f2.trans hc) hinv (t := t) (k := q) (b := s) hs
        (canSend_fixed hgf (hok.send rfl))
      refine ⟨{ a1 with st := s' }, fin ?_, fun k => ?_⟩
      · unfold cdanseStep CentrCfg.step
        simp only
        rw [u1]
        rfl
      · simp only
        rw [u2, u3]
        exact hd1 k

end

section
variable {K : Type} [Field K] [StarRing K] [DecidableEq K] {y : Nat → List (List K)}

theorem evSince_snoc (q : Nat) (evs : List (ℚ × Nat × EvType)) (ev : ℚ × Nat × EvType) :
    evSince q (evs ++ [ev]) = if ev.2.1 = q ∧ ev.2.2 = .up then [] else evSince q evs ++ [ev] := by
  simp [evSince]

/-- With whole chunks, at most `Ns` samples of a sensor are buffered per broadcast since the last update. -/
theorem raw_since_whole {g : GivenCfg K} (hb : g.bc = .whole) (k q m : Nat) (pre : List (ℚ × Nat × EvType)) 
    (hty : ∀ ev ∈ pre, ev.2.2 = .up ∨ ev.2.2 = .bc) :
    (sent (sinceUp k (rawOps g y pre m)) q).length ≤ evBcs (evSince k pre) q * g.Ns := by
  induction pre using List.reverseRecOn with
  | nil => simp [rawOps, sinceUp, sent]
  | append_singleton pre ev ih =>
    have ih := ih fun e he => hty e (by simp [he])
    rw [rawOps_snoc]
    obtain ⟨t, j, ty⟩ := ev
    rcases hty (t, j, ty) (by simp) with h | h
    · simp only at h
      subst h
      simp only
      rw [sinceUp_snoc, evSince_snoc]
      by_cases hj : j = k
      · rw [if_pos (by simp [BufOp.isUp, hj])]
        simp [sent]
      · rw [if_neg (by simp [BufOp.isUp, hj]), if_neg (by simp [hj]), sent_append, sent_up, List.append_nil]
        refine ih.trans (Nat.mul_le_mul_right _ ?_)
        unfold evBcs
        rw [List.countP_append]
        omega
    · simp only at h
      subst h
      simp only
      rw [sinceUp_snoc, evSince_snoc]
      rw [if_neg (by simp [BufOp.isUp]), if_neg (by simp), sent_append, sent_bc, List.length_append]
      have e : evBcs (evSince k pre ++ [(t, j, .bc)]) q = evBcs (evSince k pre) q + if j = q then 1 else 0 := by
        unfold evBcs
        rw [List.countP_append]
        by_cases hj : j = q <;> simp [hj]
      rw [e, Nat.add_mul]
      by_cases hj : j = q
      · rw [if_pos hj, if_pos hj]
        have : (rawChunk g y (lastBcTime pre j) t j m).length ≤ g.Ns := by
          unfold rawChunk
          rw [hb]
          simp
        omega
      · rw [if_neg hj, if_neg hj]
        simp only [List.length_nil]
        omega

end
end Danse
