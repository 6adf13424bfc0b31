import Verif.Proofs.Total

/-! # Helper lemmas: an online run with few-sample broadcasts goes through (2) -/

namespace Danse
section
variable {K : Type} [Field K] [StarRing K] [DecidableEq K] {g : GivenCfg K} {y : Nat → List (List K)}

/-- The buffer operation of an event, whose chunks have `L` samples. -/
def evOpL (L : Nat) (ev : ℚ × Nat × EvType) (op : BufOp K) : Prop :=
  match op with
  | .bc k c => ev.2.1 = k ∧ ev.2.2 = .bc ∧ c.length = L
  | .up k => ev.2.1 = k ∧ ev.2.2 = .up

theorem evOpL_isUp {L : Nat} {ev : ℚ × Nat × EvType} {op : BufOp K} (h : evOpL L ev op) (q : Nat) :
    op.isUp q = true ↔ (ev.2.1 = q ∧ ev.2.2 = .up) := by
  cases op with
  | bc k c => simp [BufOp.isUp, h.2.1]
  | up k => simp only [BufOp.isUp, h.1, h.2, and_true, decide_eq_true_eq]

theorem since_rel {L : Nat} (q : Nat) {evs : List (ℚ × Nat × EvType)} {ops : List (BufOp K)}
    (h : List.Forall₂ (evOpL L) evs ops) :
    List.Forall₂ (evOpL L) (evSince q evs) (sinceUp q ops) := by
  unfold evSince sinceUp
  have key : ∀ (acc : List (ℚ × Nat × EvType)) (acc' : List (BufOp K)), List.Forall₂ (evOpL L) acc acc' →
      List.Forall₂ (evOpL L)
        (evs.foldl (fun acc ev => if ev.2.1 = q ∧ ev.2.2 = .up then [] else acc ++ [ev]) acc)
        (ops.foldl (fun acc op => if op.isUp q then [] else acc ++ [op]) acc') := by
    induction h with
    | nil => intro acc acc' ha; exact ha
    | @cons a b l l' h1 _ ih =>
      intro acc acc' ha
      simp only [List.foldl_cons]
      apply ih
      by_cases hc : a.2.1 = q ∧ a.2.2 = .up
      · rw [if_pos hc, if_pos ((evOpL_isUp h1 q).mpr hc)]
        exact .nil
      · rw [if_neg hc, if_neg (fun h => hc ((evOpL_isUp h1 q).mp h))]
        exact List.rel_append ha (.cons h1 .nil)
  exact key [] [] .nil

theorem sent_length {L : Nat} (k : Nat) {evs : List (ℚ × Nat × EvType)} {ops : List (BufOp K)}
    (h : List.Forall₂ (evOpL L) evs ops) : (sent ops k).length = evBcs evs k * L := by
  unfold sent evBcs
  induction h with
  | nil => simp
  | @cons a b l l' h1 _ ih =>
    rw [List.flatMap_cons, List.length_append, ih, List.countP_cons, add_mul, add_comm]
    congr 1
    cases b with
    | bc j c =>
      obtain ⟨e1, e2, e3⟩ := h1
      simp only
      by_cases hj : j = k
      · rw [if_pos hj, if_pos (by simp [e1, e2, hj]), e3, one_mul]
      · rw [if_neg hj, if_neg (by simp [e1, hj])]; simp
    | up j =>
      obtain ⟨e1, e2⟩ := h1
      rw [if_neg (by simp [e2])]
      simp

theorem numUps_evUps {L : Nat} (q : Nat) {evs : List (ℚ × Nat × EvType)} {ops : List (BufOp K)}
    (h : List.Forall₂ (evOpL L) evs ops) : numUps q ops = evUps evs q := by
  unfold numUps evUps
  induction h with
  | nil => rfl
  | @cons a b l l' h1 _ ih =>
    rw [List.countP_cons, List.countP_cons, ih]
    congr 1
    have := evOpL_isUp h1 q
    by_cases hc : a.2.1 = q ∧ a.2.2 = .up
    · rw [if_pos (this.mpr hc), if_pos (by simpa using hc)]
    · rw [if_neg (fun h => hc (this.mp h)), if_neg (by simpa using hc)]

/-- An update is possible when none of the buffers has more than `N` samples. -/
theorem netStep_up_ok (gd : GoodNeighbours g.nb) {L : Nat} {evs : List (ℚ × Nat × EvType)}
    {ops : List (BufOp K)} (h : List.Forall₂ (evOpL L) evs ops) {net : NetSt K}
    (hn : netRun g.nb g.N g.Ns ops = .ok net) {q : Nat}
    (hb : 0 < evUps evs q → ∀ k ∈ g.nb q, evBcs (evSince q evs) k * L ≤ g.N) :
    ∃ net', netStep g.nb g.N g.Ns net (.up q) = .ok net' := by
  have hold := (C16_runs_iff gd g.N g.Ns ops).1.mp ⟨net, hn⟩
  obtain ⟨s, hs⟩ := (C16_runs_iff gd g.N g.Ns (ops ++ [.up q])).1.mpr (by
    intro pre q' post hsplit hups k hk
    rcases List.eq_nil_or_concat post with rfl | ⟨p, z, rfl⟩
    · have h1 := List.append_inj' hsplit (by simp)
      obtain ⟨rfl, h2⟩ := h1
      injection h2 with h2 _
      injection h2 with h2
      subst h2
      rw [sent_length k (since_rel q h)]
      rw [numUps_evUps q h] at hups
      exact hb hups k hk
    · have : pre ++ BufOp.up q' :: p.concat z = (pre ++ BufOp.up q' :: p) ++ [z] := by simp
      rw [this] at hsplit
      exact hold pre q' p (List.append_inj_left' hsplit (by simp)) hups k hk)
  rw [netRun_snoc, hn] at hs
  exact ⟨s, hs⟩

/-- What holds in every state of the run. -/
structure Alive (g : GivenCfg K) (L T : Nat) (evs : List (ℚ × Nat × EvType)) (a : AdaptSt K) : Prop where
  fixed : a.cfg.fixed g
  net : ∃ ops, List.Forall₂ (evOpL L) evs ops ∧ netRun g.nb g.N g.Ns ops = .ok a.st.net
  wIR : ∀ k, ∀ x ∈ a.st.wIR k, x.length = 2 * g.N - 1
  d : ∀ k, (a.st.d k).length = T
  dLoc : ∀ k, (a.st.dLoc k).length = T
  int : ∀ k i, BinsOk g.N (a.cfg.wInt k i)
  ext : ∀ k i, BinsOk g.N (a.cfg.wExt k i)
  loc : ∀ k i, BinsOk g.N (a.cfg.wLoc k i)

/-- Conditions on one event. -/
structure EvOk (g : GivenCfg K) (y : Nat → List (List K)) (L T : Nat) (pre : List (ℚ × Nat × EvType))
    (ev : ℚ × Nat × EvType) : Prop where
  type : ev.2.2 = .bc ∨ ev.2.2 = .up
  nonneg : 0 ≤ ⌊ev.1 * g.fs ev.2.1⌋
  inside : ∀ ch ∈ y ev.2.1, ⌊ev.1 * g.fs ev.2.1⌋ ≤ ch.length
  pos : ev.2.2 = .up → 0 < ⌊ev.1 * g.fs ev.2.1⌋ ∧ ⌊ev.1 * g.fs ev.2.1⌋ ≤ T ∧
    (g.conv = true → (g.Ns : Int) ≤ ⌊ev.1 * g.fs ev.2.1⌋)
  buf : ev.2.2 = .up → 0 < evUps pre ev.2.1 →
    ∀ k ∈ g.nb ev.2.1, evBcs (evSince ev.2.1 pre) k * L ≤ g.N

theorem binsOk_update {N : Nat} {w : Nat → Nat → List (List K)} (h : ∀ k i, BinsOk N (w k i)) {r : List (List K)}
    (hr : BinsOk N r) (k i : Nat) : ∀ q j, BinsOk N (Function.update w k (Function.update (w k) i r) q j) := by
  intro q j
  by_cases hq : q = k
  · subst hq
    rw [Function.update_self]
    by_cases hj : j = i
    · subst hj; rw [Function.update_self]; exact hr
    · rw [Function.update_of_ne hj]; exact h q j
  · rw [Function.update_of_ne hq]; exact h q j

theorem adaptStep_total {U : Strategy K} {L T : Nat} (hb : g.bc = .few L false) (hN : 0 < g.N)
    (he : 2 ∣ g.N) (hL : L ≤ 2 * g.N - 1) (hNs : g.Ns ≤ g.N) (hfl : g.f.length = g.N)
    (gd : GoodNeighbours g.nb)
    (hU : ∀ k h, BinsOk g.N (U.rows k h).int ∧ BinsOk g.N (U.rows k h).ext ∧ BinsOk g.N (U.rows k h).loc)
    {pre : List (ℚ × Nat × EvType)} {a : AdaptSt K} (ha : Alive g L T pre a) {ev : ℚ × Nat × EvType}
    (hev : EvOk g y L T pre ev) :
    ∃ a', adaptStep U y a ev = .ok a' ∧ Alive g L T (pre ++ [ev]) a' := by
  obtain ⟨t, q, ty⟩ := ev
  obtain ⟨p1, p2, p3, p4, _⟩ := ha.fixed.parts
  have hf := ha.fixed
  obtain ⟨ops, ho, hnet⟩ := ha.net
  have hty := hev.type
  simp only at hty
  have hnb : a.cfg.nb = g.nb := by rw [hf]
  have hcfl : a.cfg.f = g.f := by rw [hf]
  have hcv : a.cfg.conv = g.conv := by rw [hf]
  rcases hty with rfl | rfl
  · obtain ⟨s', c, h1, h2, h3, h4, h5, h6⟩ := broadcast_total (g := a.cfg) (y := y) (L := L) (s := a.st)
      (t := t) (k := q)
      (by rw [p1, hb]) (by rw [p2]; exact hN) (by rw [p2]; exact he) (by rw [p2]; exact hL)
      (by rw [hnb]; exact gd) (by rw [p2]; exact ha.ext) (by rw [p2]; exact ha.wIR)
      (by rw [p4]; exact hev.nonneg) (by rw [p4]; exact hev.inside)
    refine ⟨{ a with st := s' }, ?_, ?_⟩
    · unfold adaptStep GivenCfg.step
      simp only
      rw [h1]
      rfl
    · refine ⟨hf, ⟨ops ++ [.bc q c], List.rel_append ho (.cons (show evOpL L (t, q, .bc) (.bc q c) from And.intro rfl (And.intro rfl h2)) .nil), ?_⟩,
        by rw [p2] at h6; exact h6, fun k => ?_, fun k => ?_, ha.int, ha.ext, ha.loc⟩
      · rw [netRun_snoc, hnet]
        rw [hnb, p2, p3] at h3
        exact h3
      · simp only; rw [h4]; exact ha.d k
      · simp only; rw [h5]; exact ha.dLoc k
  · obtain ⟨h0, hT, hc⟩ := hev.pos rfl
    simp only at h0 hT hc
    obtain ⟨net', hn'⟩ := netStep_up_ok gd ho hnet (hev.buf rfl)
    obtain ⟨fr, hfr, hl⟩ := mapM_chunk (ys := y q) (N := g.N) hev.nonneg hev.inside
    have hobs : ∃ o, a.cfg.observe y a.st t q = .ok o := by
      unfold GivenCfg.observe
      have e : ((y q).mapM fun ch => chunkForUpdate ch t (a.cfg.fs q) a.cfg.bc.name a.cfg.N a.cfg.Ns) = .ok fr := by
        rw [p1, p2, p4, hb]
        unfold chunkForUpdate BcType.name
        simp only [if_true]
        exact hfr
      rw [e, hnb, p2, p3, hn']
      exact ⟨_, rfl⟩
    obtain ⟨o, ho'⟩ := hobs
    have hgf : ((a.cfg.record q (a.st.net.it q + 1) (U.rows q (a.hist q ++ [o]))).setRot q (a.st.net.it q)
        (U.rot q (a.hist q ++ [o]))).fixed g := (record_setRot_fixed a.cfg q _ _ _ _).trans hf
    obtain ⟨hU1, hU2, hU3⟩ := hU q (a.hist q ++ [o])
    have i1 := binsOk_update ha.int hU1 q (a.st.net.it q + 1)
    have i2 := binsOk_update ha.ext hU2 q (a.st.net.it q + 1)
    have i3 := binsOk_update ha.loc hU3 q (a.st.net.it q + 1)
    generalize hG : ((a.cfg.record q (a.st.net.it q + 1) (U.rows q (a.hist q ++ [o]))).setRot q (a.st.net.it q)
        (U.rot q (a.hist q ++ [o]))) = G at hgf
    have e1 : G.wInt = Function.update a.cfg.wInt q (Function.update (a.cfg.wInt q) (a.st.net.it q + 1)
      (U.rows q (a.hist q ++ [o])).int) := by rw [← hG]; rfl
    have e2 : G.wExt = Function.update a.cfg.wExt q (Function.update (a.cfg.wExt q) (a.st.net.it q + 1)
      (U.rows q (a.hist q ++ [o])).ext) := by rw [← hG]; rfl
    have e3 : G.wLoc = Function.update a.cfg.wLoc q (Function.update (a.cfg.wLoc q) (a.st.net.it q + 1)
      (U.rows q (a.hist q ++ [o])).loc) := by rw [← hG]; rfl
    rw [← e1] at i1
    rw [← e2] at i2
    rw [← e3] at i3
    obtain ⟨q1, q2, q3, q4, _⟩ := hgf.parts
    have qnb : G.nb = g.nb := by rw [hgf]
    have qfl : G.f = g.f := by rw [hgf]
    have qcv : G.conv = g.conv := by rw [hgf]
    obtain ⟨s', u1, u2, u3, u4, u5⟩ := update_total (g := G) (y := y) (L := L) (s := a.st) (t := t) (k := q)
      (net := net') (by rw [q1, hb]) (by rw [q2]; exact hN) (by rw [q2]; exact he)
      (by rw [q2, q3]; exact hNs) (by rw [qfl, q2]; exact hfl) (by rw [q2]; exact i1 q) (by rw [q2]; exact i3 q)
      (by rw [q4]; exact h0) (by rw [q4]; exact hev.inside) (by rw [q4, ha.d]; exact hT)
      (by rw [q4, ha.dLoc]; exact hT) (by rw [qcv, q3, q4]; exact hc) (by rw [qnb, q2, q3]; exact hn')
    refine ⟨⟨G, s', Function.update a.hist q (a.hist q ++ [o])⟩, ?_, ?_⟩
    · unfold adaptStep
      simp only
      rw [ho']
      simp only [bind, Except.bind]
      rw [hG]
      unfold GivenCfg.step
      simp only
      rw [u1]
    · refine ⟨hgf, ⟨ops ++ [.up q], List.rel_append ho (.cons (show evOpL L (t, q, .up) (.up q : BufOp K) from And.intro rfl rfl) .nil), ?_⟩, ?_, fun k => ?_,
        fun k => ?_, i1, i2, i3⟩
      · rw [netRun_snoc, hnet]
        simp only
        rw [u2]
        exact hn'
      · simp only; rw [u3]; exact ha.wIR
      · simp only; rw [u4]; exact ha.d k
      · simp only; rw [u5]; exact ha.dLoc k

theorem adaptRun_total {U : Strategy K} {L T : Nat} (hb : g.bc = .few L false) (hN : 0 < g.N)
    (he : 2 ∣ g.N) (hL : L ≤ 2 * g.N - 1) (hNs : g.Ns ≤ g.N) (hfl : g.f.length = g.N)
    (gd : GoodNeighbours g.nb)
    (hU : ∀ k h, BinsOk g.N (U.rows k h).int ∧ BinsOk g.N (U.rows k h).ext ∧ BinsOk g.N (U.rows k h).loc)
    (hint : ∀ k i, BinsOk g.N (g.wInt k i)) (hext : ∀ k i, BinsOk g.N (g.wExt k i))
    (hloc : ∀ k i, BinsOk g.N (g.wLoc k i)) (M : Nat → Nat) (evs : List (ℚ × Nat × EvType))
    (hev : ∀ pre ev post, evs = pre ++ ev :: post → EvOk g y L T pre ev) :
    ∃ a, adaptRun U y (.init g T M) evs = .ok a ∧ Alive g L T evs a := by
  induction evs using List.reverseRecOn with
  | nil =>
    refine ⟨_, rfl, rfl, ⟨[], .nil, rfl⟩, fun k x hx => ?_, fun k => ?_, fun k => ?_, hint, hext, hloc⟩
    · simp only [AdaptSt.init, GivenSt.init, List.mem_map] at hx
      obtain ⟨m, _, rfl⟩ := hx
      split <;> simp
    · simp [AdaptSt.init, GivenSt.init]
    · simp [AdaptSt.init, GivenSt.init]
  | append_singleton evs ev ih =>
    obtain ⟨a, h1, h2⟩ := ih fun pre e post hs => hev pre e (post ++ [ev]) (by rw [hs]; simp)
    obtain ⟨a', h3, h4⟩ := adaptStep_total (U := U) hb hN he hL hNs hfl gd hU h2 (hev evs ev [] (by simp))
    refine ⟨a', ?_, h4⟩
    unfold adaptRun at h1 ⊢
    rw [List.foldlM_append, h1]
    simp only [bind, Except.bind, List.foldlM_cons, List.foldlM_nil]
    rw [h3]
    rfl

end
end Danse
