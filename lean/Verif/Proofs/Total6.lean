import Verif.Proofs.Total5
import Verif.Proofs.Centr3
import Verif.Proofs.Centr6

/-! # Helper lemmas: an online run with efficient few-sample broadcasts goes through -/

set_option linter.unusedSectionVars false

namespace Danse

/-- A buffer operation without the samples. -/
def BufOp.shape {α : Type} : BufOp α → BufOp Unit
  | .bc k c => .bc k (List.replicate c.length ())
  | .up k => .up k

theorem shape_isUp {α : Type} (op : BufOp α) (q : Nat) : op.shape.isUp q = op.isUp q := by cases op <;> rfl

theorem sinceUp_shape {α : Type} (q : Nat) (ops : List (BufOp α)) : sinceUp q (ops.map BufOp.shape) = (sinceUp q ops).map BufOp.shape := by
  induction ops using List.reverseRecOn with
  | nil => rfl
  | append_singleton ops op ih =>
    rw [List.map_append, List.map_cons, List.map_nil, sinceUp_snoc, sinceUp_snoc, shape_isUp, ih]
    split <;> simp

theorem sent_shape {α : Type} (k : Nat) (ops : List (BufOp α)) : (sent (ops.map BufOp.shape) k).length = (sent ops k).length := by
  induction ops with
  | nil => rfl
  | cons op ops ih =>
    have e : op :: ops = [op] ++ ops := rfl
    rw [e, List.map_append, sent_append, sent_append, List.length_append, List.length_append, ih]
    congr 1
    cases op with
    | bc j c =>
      simp only [List.map_cons, List.map_nil, BufOp.shape, sent_bc]
      split <;> simp
    | up j => simp [BufOp.shape, sent_up]

theorem numUps_shape {α : Type} (q : Nat) (ops : List (BufOp α)) : numUps q (ops.map BufOp.shape) = numUps q ops := by
  unfold numUps
  rw [List.countP_map]
  congr 1
  funext op
  exact shape_isUp op q

section
variable {K : Type} [Field K] [StarRing K] [DecidableEq K] {g : GivenCfg K} {y : Nat → List (List K)}

/-- Number of samples of an efficient broadcast of node `k` at time `t`. -/
def effLen (g : GivenCfg K) (L : Nat) (pre : List (ℚ × Nat × EvType)) (t : ℚ) (k : Nat) : Nat :=
  L * (((g.stamps k).filter fun u => decide (lastBcTime pre k < u) && decide (u ≤ t)).length / L)

/-- The buffer operation of the event after `pre`. -/
def effOp (g : GivenCfg K) (L : Nat) (pre : List (ℚ × Nat × EvType)) (ev : ℚ × Nat × EvType) : BufOp Unit :=
  match ev.2.2 with
  | .bc => .bc ev.2.1 (List.replicate (effLen g L pre ev.1 ev.2.1) ())
  | _ => .up ev.2.1

/-- The buffer operations of a schedule. -/
def effOps (g : GivenCfg K) (L : Nat) (evs : List (ℚ × Nat × EvType)) : List (BufOp Unit) :=
  evs.zipIdx.map fun (ev, i) => effOp g L (evs.take i) ev

theorem effOps_snoc (L : Nat) (evs : List (ℚ × Nat × EvType)) (ev : ℚ × Nat × EvType) :
    effOps g L (evs ++ [ev]) = effOps g L evs ++ [effOp g L evs ev] := by
  unfold effOps
  rw [List.zipIdx_append, List.map_append]
  congr 1
  · apply List.map_congr_left
    rintro ⟨e, i⟩ hi
    have := List.snd_lt_of_mem_zipIdx hi
    simp only
    rw [List.take_append_of_le_length (by omega)]
  · simp

theorem numUps_effOps (L q : Nat) (evs : List (ℚ × Nat × EvType)) (hty : ∀ ev ∈ evs, ev.2.2 = .bc ∨ ev.2.2 = .up) :
    numUps q (effOps g L evs) = evUps evs q := by
  induction evs using List.reverseRecOn with
  | nil => rfl
  | append_singleton evs ev ih =>
    rw [effOps_snoc]
    unfold numUps evUps at ih ⊢
    rw [List.countP_append, List.countP_append, ih fun e he => hty e (by simp [he])]
    congr 1
    obtain ⟨t, k, ty⟩ := ev
    rcases hty (t, k, ty) (by simp) with h | h
    · simp only at h; subst h; simp [effOp, BufOp.isUp]
    · simp only at h; subst h; simp [effOp, BufOp.isUp, List.countP_cons]

/-- An update is possible when none of the buffers has more than `N` samples. -/
theorem netStep_up_ok' (gd : GoodNeighbours g.nb) {ops : List (BufOp K)} {net : NetSt K}
    (hn : netRun g.nb g.N g.Ns ops = .ok net) {q : Nat}
    (hb : 0 < numUps q ops → ∀ k ∈ g.nb q, (sent (sinceUp q ops) k).length ≤ g.N) :
    ∃ net', netStep g.nb g.N g.Ns net (.up q) = .ok net' := by
  have hold := (C16_runs_iff gd g.N g.Ns ops).1.mp ⟨net, hn⟩
  obtain ⟨s, hs⟩ := (C16_runs_iff gd g.N g.Ns (ops ++ [.up q])).1.mpr (by
    intro pre q' post hsplit hups k hk
    rcases List.eq_nil_or_concat post with rfl | ⟨p, z, rfl⟩
    · have h1 := List.append_inj' hsplit (by simp)
      obtain ⟨rfl, h2⟩ := h1
      injection h2 with h2 _
      injection h2 with h2
      subst h2
      exact hb hups k hk
    · have : pre ++ BufOp.up q' :: p.concat z = (pre ++ BufOp.up q' :: p) ++ [z] := by simp
      rw [this] at hsplit
      exact hold pre q' p (List.append_inj_left' hsplit (by simp)) hups k hk)
  rw [netRun_snoc, hn] at hs
  exact ⟨s, hs⟩

theorem broadcast_eff {L : Nat} (hb : g.bc = .few L true) (hL : L ≠ 0) (hN : 0 < g.N) (he : 2 ∣ g.N)
    (gd : GoodNeighbours g.nb) {s : GivenSt K} {pre : List (ℚ × Nat × EvType)} (hlast : ∀ k, s.lastBc k = lastBcTime pre k)
    (hext : ∀ k i, BinsOk g.N (g.wExt k i)) (hwIR : ∀ k, ∀ a ∈ s.wIR k, a.length = 2 * g.N - 1)
    {t : ℚ} {k : Nat} (hl : effLen g L pre t k ≤ 2 * g.N - 1) (h0 : 0 ≤ ⌊t * g.fs k⌋)
    (h1 : ∀ ch ∈ y k, ⌊t * g.fs k⌋ ≤ ch.length) :
    ∃ s' c, g.broadcast y s t k = .ok s' ∧ c.length = effLen g L pre t k ∧
      netStep g.nb g.N g.Ns s.net (.bc k c) = .ok s'.net ∧ s'.d = s.d ∧ s'.dLoc = s.dLoc ∧
      (∀ k, ∀ a ∈ s'.wIR k, a.length = 2 * g.N - 1) ∧ ∀ q, s'.lastBc q = lastBcTime (pre ++ [(t, k, .bc)]) q := by
  obtain ⟨fr, hfr, hfl⟩ := mapM_chunk (N := g.N) h0 h1
  have hf : ∃ w, g.bcFilter s (y k).length t k = .ok w ∧ ∀ a ∈ w, a.length = 2 * g.N - 1 := by
    unfold GivenCfg.bcFilter
    by_cases hc : |t - s.lastUp k| ≥ g.upTDEvery ∧ ¬ (g.noFusion = true ∧ (y k).length = 1)
    · rw [if_pos hc]
      exact distFct_ok hN he (hext _ _) _ _ _
    · rw [if_neg hc]
      exact ⟨_, rfl, hwIR k⟩
  obtain ⟨w, hw, hwl⟩ := hf
  have hcur : g.currL s L true t k = .ok (effLen g L pre t k) := by
    unfold GivenCfg.currL bufferSizeEff effLen
    rw [if_pos rfl, if_neg hL, hlast k]
  generalize effLen g L pre t k = l at hl hcur
  have hz := C34_few_samples (L := l) (P := 2 * g.N - 1) (wIR := w) (yq := fr.map (·.1)) hl hwl (by
    intro b hb'
    obtain ⟨x, hx, rfl⟩ := List.mem_map.mp hb'
    rw [hfl x hx]; exact hN)
  generalize hzz : ((List.range l).map fun (j : Nat) =>
      ((w.zip (fr.map (·.1))).map fun p => linConv p.1 p.2 (2 * g.N - 1 - l + 1 + j)).sum) = z at hz
  have hzl : z.length = l := by rw [← hzz]; simp
  have hcl : (chunkOf z (-(l : Int))).length = l := by
    unfold chunkOf lastN
    split
    · simp; omega
    · split
      · omega
      · simp; omega
  obtain ⟨net, hnet⟩ := netStep_bc_ok gd s.net k (chunkOf z (-(l : Int)))
  unfold GivenCfg.broadcast
  have hfr' : ((y k).mapM fun ch => chunkForBroadcast ch t (g.fs k) g.N) = .ok fr := hfr
  rw [hfr']
  simp only [bind, Except.bind]
  rw [if_neg (by
    simp only [List.any_eq_true, decide_eq_true_eq, not_exists, not_and, not_lt]
    intro x hx
    rw [hfl x hx]), hb]
  simp only
  rw [hcur]
  simp only
  rw [hw]
  simp only
  rw [hz]
  simp only
  rw [hnet]
  refine ⟨_, chunkOf z (-(l : Int)), rfl, hcl, hnet, rfl, rfl, ?_, ?_⟩
  · intro k' a ha
    simp only at ha
    by_cases hk : k' = k
    · subst hk
      rw [Function.update_self] at ha
      exact hwl a ha
    · rw [Function.update_of_ne hk] at ha
      exact hwIR k' a ha
  · intro q
    simp only [if_true]
    unfold lastBcTime
    rw [bcTimes_append]
    by_cases hq : q = k
    · subst hq
      rw [Function.update_self]
      simp [bcTimes, List.getLastD_eq_getLast?]
    · rw [Function.update_of_ne hq, hlast]
      have : bcTimes [(t, k, EvType.bc)] q = [] := by simp [bcTimes, Ne.symm hq]
      rw [this, List.append_nil]
      rfl

/-- What holds in every state of the run. -/
structure AliveE (g : GivenCfg K) (L T : Nat) (evs : List (ℚ × Nat × EvType)) (a : AdaptSt K) : Prop where
  fixed : a.cfg.fixed g
  net : ∃ ops, ops.map BufOp.shape = effOps g L evs ∧ netRun g.nb g.N g.Ns ops = .ok a.st.net
  last : ∀ k, a.st.lastBc k = lastBcTime evs k
  wIR : ∀ k, ∀ x ∈ a.st.wIR k, x.length = 2 * g.N - 1
  d : ∀ k, (a.st.d k).length = T
  dLoc : ∀ k, (a.st.dLoc k).length = T
  int : ∀ k i, BinsOk g.N (a.cfg.wInt k i)
  ext : ∀ k i, BinsOk g.N (a.cfg.wExt k i)
  loc : ∀ k i, BinsOk g.N (a.cfg.wLoc k i)

/-- Conditions on one event. -/
structure EvOkE (g : GivenCfg K) (y : Nat → List (List K)) (L T : Nat) (pre : List (ℚ × Nat × EvType))
    (ev : ℚ × Nat × EvType) : Prop where
  type : ev.2.2 = .bc ∨ ev.2.2 = .up
  nonneg : 0 ≤ ⌊ev.1 * g.fs ev.2.1⌋
  inside : ∀ ch ∈ y ev.2.1, ⌊ev.1 * g.fs ev.2.1⌋ ≤ ch.length
  len : ev.2.2 = .bc → effLen g L pre ev.1 ev.2.1 ≤ 2 * g.N - 1
  pos : ev.2.2 = .up → 0 < ⌊ev.1 * g.fs ev.2.1⌋ ∧ ⌊ev.1 * g.fs ev.2.1⌋ ≤ T ∧
    (g.conv = true → (g.Ns : Int) ≤ ⌊ev.1 * g.fs ev.2.1⌋)
  buf : ev.2.2 = .up → 0 < evUps pre ev.2.1 →
    ∀ k ∈ g.nb ev.2.1, (sent (sinceUp ev.2.1 (effOps g L pre)) k).length ≤ g.N

theorem adaptStep_eff {U : Strategy K} {L T : Nat} (hb : g.bc = .few L true) (hL : L ≠ 0) (hN : 0 < g.N)
    (he : 2 ∣ g.N) (hNs : g.Ns ≤ g.N) (hfl : g.f.length = g.N)
    (gd : GoodNeighbours g.nb)
    (hU : ∀ k h, BinsOk g.N (U.rows k h).int ∧ BinsOk g.N (U.rows k h).ext ∧ BinsOk g.N (U.rows k h).loc)
    {pre : List (ℚ × Nat × EvType)} (hpre : ∀ ev ∈ pre, ev.2.2 = .bc ∨ ev.2.2 = .up)
    {a : AdaptSt K} (ha : AliveE g L T pre a) {ev : ℚ × Nat × EvType}
    (hev : EvOkE g y L T pre ev) :
    ∃ a', adaptStep U y a ev = .ok a' ∧ AliveE g L T (pre ++ [ev]) a' := by
  obtain ⟨t, q, ty⟩ := ev
  obtain ⟨p1, p2, p3, p4, _⟩ := ha.fixed.parts
  have hf := ha.fixed
  obtain ⟨ops, ho, hnet⟩ := ha.net
  have hty := hev.type
  simp only at hty
  have hnb : a.cfg.nb = g.nb := by rw [hf]
  have hcfl : a.cfg.f = g.f := by rw [hf]
  have hcv : a.cfg.conv = g.conv := by rw [hf]
  have hst : a.cfg.stamps = g.stamps := by rw [hf]
  have heff : effLen a.cfg L pre t q = effLen g L pre t q := by unfold effLen; rw [hst]
  rcases hty with rfl | rfl
  · obtain ⟨s', c, h1, h2, h3, h4, h5, h6, h7⟩ := broadcast_eff (g := a.cfg) (y := y) (L := L) (s := a.st) (pre := pre)
      (t := t) (k := q)
      (by rw [p1, hb]) hL (by rw [p2]; exact hN) (by rw [p2]; exact he)
      (by rw [hnb]; exact gd) ha.last (by rw [p2]; exact ha.ext) (by rw [p2]; exact ha.wIR)
      (by rw [heff, p2]; exact hev.len rfl)
      (by rw [p4]; exact hev.nonneg) (by rw [p4]; exact hev.inside)
    refine ⟨{ a with st := s' }, ?_, ?_⟩
    · unfold adaptStep GivenCfg.step
      simp only
      rw [h1]
      rfl
    · refine ⟨hf, ⟨ops ++ [.bc q c], ?_, ?_⟩, h7,
        by rw [p2] at h6; exact h6, fun k => ?_, fun k => ?_, ha.int, ha.ext, ha.loc⟩
      · rw [List.map_append, ho, effOps_snoc]
        simp only [List.map_cons, List.map_nil, BufOp.shape, effOp]
        rw [h2, heff]
      · rw [netRun_snoc, hnet]
        rw [hnb, p2, p3] at h3
        exact h3
      · simp only; rw [h4]; exact ha.d k
      · simp only; rw [h5]; exact ha.dLoc k
  · obtain ⟨h0, hT, hc⟩ := hev.pos rfl
    simp only at h0 hT hc
    obtain ⟨net', hn'⟩ := netStep_up_ok' (g := g) gd hnet (q := q) (by
      intro hu k hk
      rw [← sent_shape, ← sinceUp_shape, ho]
      rw [← numUps_shape, ho, numUps_effOps _ _ _ hpre] at hu
      exact hev.buf rfl hu k hk)
    obtain ⟨fr, hfr, hl⟩ := mapM_chunk (ys := y q) (N := g.N) hev.nonneg hev.inside
    have hobs : ∃ o, a.cfg.observe y a.st t q = .ok o := by
      unfold GivenCfg.observe
      have e : ((y q).mapM fun ch => chunkForUpdate ch t (a.cfg.fs q) a.cfg.bc.name a.cfg.N a.cfg.Ns) = .ok fr := by
        rw [p1, p2, p4, hb]
        unfold chunkForUpdate BcType.name
        simp only [if_true]
        exact hfr
      rw [e, hnb, p2, p3, hn']
      exact ⟨_, rfl⟩
    obtain ⟨o, ho'⟩ := hobs
    have hgf : ((a.cfg.record q (a.st.net.it q + 1) (U.rows q (a.hist q ++ [o]))).setRot q (a.st.net.it q)
        (U.rot q (a.hist q ++ [o]))).fixed g := (record_setRot_fixed a.cfg q _ _ _ _).trans hf
    obtain ⟨hU1, hU2, hU3⟩ := hU q (a.hist q ++ [o])
    have i1 := binsOk_update ha.int hU1 q (a.st.net.it q + 1)
    have i2 := binsOk_update ha.ext hU2 q (a.st.net.it q + 1)
    have i3 := binsOk_update ha.loc hU3 q (a.st.net.it q + 1)
    generalize hG : ((a.cfg.record q (a.st.net.it q + 1) (U.rows q (a.hist q ++ [o]))).setRot q (a.st.net.it q)
        (U.rot q (a.hist q ++ [o]))) = G at hgf
    have e1 : G.wInt = Function.update a.cfg.wInt q (Function.update (a.cfg.wInt q) (a.st.net.it q + 1)
      (U.rows q (a.hist q ++ [o])).int) := by rw [← hG]; rfl
    have e2 : G.wExt = Function.update a.cfg.wExt q (Function.update (a.cfg.wExt q) (a.st.net.it q + 1)
      (U.rows q (a.hist q ++ [o])).ext) := by rw [← hG]; rfl
    have e3 : G.wLoc = Function.update a.cfg.wLoc q (Function.update (a.cfg.wLoc q) (a.st.net.it q + 1)
      (U.rows q (a.hist q ++ [o])).loc) := by rw [← hG]; rfl
    rw [← e1] at i1
    rw [← e2] at i2
    rw [← e3] at i3
    obtain ⟨q1, q2, q3, q4, _⟩ := hgf.parts
    have qnb : G.nb = g.nb := by rw [hgf]
    have qfl : G.f = g.f := by rw [hgf]
    have qcv : G.conv = g.conv := by rw [hgf]
    obtain ⟨s', u1, u2, u3, u4, u5⟩ := update_total (g := G) (y := y) (L := L) (s := a.st) (t := t) (k := q)
      (net := net') (by rw [q1, hb]) (by rw [q2]; exact hN) (by rw [q2]; exact he)
      (by rw [q2, q3]; exact hNs) (by rw [qfl, q2]; exact hfl) (by rw [q2]; exact i1 q) (by rw [q2]; exact i3 q)
      (by rw [q4]; exact h0) (by rw [q4]; exact hev.inside) (by rw [q4, ha.d]; exact hT)
      (by rw [q4, ha.dLoc]; exact hT) (by rw [qcv, q3, q4]; exact hc) (by rw [qnb, q2, q3]; exact hn')
    have u6 : s'.lastBc = a.st.lastBc := by
      unfold GivenCfg.update at u1
      obtain ⟨_, _, u1⟩ := bind_ok_inv u1
      obtain ⟨_, _, u1⟩ := bind_ok_inv u1
      split at u1
      · cases u1
      · obtain ⟨_, _, u1⟩ := bind_ok_inv u1
        obtain ⟨_, _, u1⟩ := bind_ok_inv u1
        injection u1 with u1
        rw [← u1]
    refine ⟨⟨G, s', Function.update a.hist q (a.hist q ++ [o])⟩, ?_, ?_⟩
    · unfold adaptStep
      simp only
      rw [ho']
      simp only [bind, Except.bind]
      rw [hG]
      unfold GivenCfg.step
      simp only
      rw [u1]
    · refine ⟨hgf, ⟨ops ++ [.up q], ?_, ?_⟩, fun k => ?_, ?_, fun k => ?_,
        fun k => ?_, i1, i2, i3⟩
      · rw [List.map_append, ho, effOps_snoc]
        rfl
      · rw [netRun_snoc, hnet]
        simp only
        rw [u2]
        exact hn'
      · simp only
        rw [u6, ha.last]
        unfold lastBcTime
        rw [bcTimes_append]
        simp [bcTimes]
      · simp only; rw [u3]; exact ha.wIR
      · simp only; rw [u4]; exact ha.d k
      · simp only; rw [u5]; exact ha.dLoc k

theorem adaptRun_eff {U : Strategy K} {L T : Nat} (hb : g.bc = .few L true) (hL : L ≠ 0) (hN : 0 < g.N)
    (he : 2 ∣ g.N) (hNs : g.Ns ≤ g.N) (hfl : g.f.length = g.N)
    (gd : GoodNeighbours g.nb)
    (hU : ∀ k h, BinsOk g.N (U.rows k h).int ∧ BinsOk g.N (U.rows k h).ext ∧ BinsOk g.N (U.rows k h).loc)
    (hint : ∀ k i, BinsOk g.N (g.wInt k i)) (hext : ∀ k i, BinsOk g.N (g.wExt k i))
    (hloc : ∀ k i, BinsOk g.N (g.wLoc k i)) (M : Nat → Nat) (evs : List (ℚ × Nat × EvType))
    (hev : ∀ pre ev post, evs = pre ++ ev :: post → EvOkE g y L T pre ev) :
    ∃ a, adaptRun U y (.init g T M) evs = .ok a ∧ AliveE g L T evs a := by
  induction evs using List.reverseRecOn with
  | nil =>
    refine ⟨_, rfl, rfl, ⟨[], rfl, rfl⟩, fun k => rfl, fun k x hx => ?_, fun k => ?_, fun k => ?_, hint, hext, hloc⟩
    · simp only [AdaptSt.init, GivenSt.init, List.mem_map] at hx
      obtain ⟨m, _, rfl⟩ := hx
      split <;> simp
    · simp [AdaptSt.init, GivenSt.init]
    · simp [AdaptSt.init, GivenSt.init]
  | append_singleton evs ev ih =>
    obtain ⟨a, h1, h2⟩ := ih fun pre e post hs => hev pre e (post ++ [ev]) (by rw [hs]; simp)
    obtain ⟨a', h3, h4⟩ := adaptStep_eff (U := U) hb hL hN he hNs hfl gd hU (fun e he => by
      obtain ⟨p1, p2, rfl⟩ := List.append_of_mem he
      exact (hev p1 e (p2 ++ [ev]) (by simp)).type) h2 (hev evs ev [] (by simp))
    refine ⟨a', ?_, h4⟩
    unfold adaptRun at h1 ⊢
    rw [List.foldlM_append, h1]
    simp only [bind, Except.bind, List.foldlM_cons, List.foldlM_nil]
    rw [h3]
    rfl

end
end Danse
