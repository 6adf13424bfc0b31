import Verif.Proofs.Total4
import Verif.Proofs.Pipeline

/-! # Helper lemmas: an online run with whole-chunk broadcasts goes through -/

set_option linter.unusedSectionVars false

namespace Danse
section
variable {K : Type} [Field K] [StarRing K] [DecidableEq K] {g : GivenCfg K} {y : Nat → List (List K)}

theorem broadcast_whole (hb : g.bc = .whole) (hN : 0 < g.N) (he : 2 ∣ g.N)
    (h2 : g.N = 2 * g.Ns) (hhl : g.h.length = g.N) (hfl : g.f.length = g.N) (gd : GoodNeighbours g.nb) {s : GivenSt K}
    {t : ℚ} {k : Nat} (h0 : 0 ≤ ⌊t * g.fs k⌋) (h1 : ∀ ch ∈ y k, ⌊t * g.fs k⌋ ≤ ch.length) :
    ∃ s' c, g.broadcast y s t k = .ok s' ∧ c.length = g.Ns ∧
      netStep g.nb g.N g.Ns s.net (.bc k c) = .ok s'.net ∧ s'.d = s.d ∧ s'.dLoc = s.dLoc ∧ s'.wIR = s.wIR := by
  obtain ⟨fr, hfr, hl⟩ := mapM_chunk (N := g.N) h0 h1
  obtain ⟨v, hv⟩ := normVal_ok (N := g.N) (Ns := g.Ns) (h := g.h) (by omega) (by omega) hhl
  have hz : ∃ z, wholeChunk g.ζ g.N g.Ns g.c g.h g.f (fr.map (·.1)) (g.wExt k (s.net.it k)) (s.zLocal k) = .ok z ∧
      z.length = g.N := by
    unfold wholeChunk
    obtain ⟨u, hu⟩ := (C35_accepts_iff (ζ := g.ζ) (n := g.N) (combine (g.N / 2 + 1) (g.wExt k (s.net.it k))
      ((fr.map (·.1)).map (analysis g.ζ g.N g.c g.h)))).1.mpr ⟨hN, he, by simp [combine]⟩
    have hul := backToTD_length hu
    simp only
    rw [hu]
    exact overlapAdd_len (by omega) (by omega) hv (by simp [hul, hfl])
  obtain ⟨z, hz, hzl⟩ := hz
  obtain ⟨net, hnet⟩ := netStep_bc_ok gd s.net k (chunkOf z g.Ns)
  have hfr' : ((y k).mapM fun ch => chunkForBroadcast ch t (g.fs k) g.N) = .ok fr := hfr
  unfold GivenCfg.broadcast
  rw [hfr']
  simp only [bind, Except.bind]
  rw [if_neg (by
    simp only [List.any_eq_true, decide_eq_true_eq, not_exists, not_and, not_lt]
    intro x hx
    rw [hl x hx]), hb]
  simp only
  rw [hz]
  simp only
  rw [hnet]
  refine ⟨_, chunkOf z g.Ns, rfl, ?_, hnet, rfl, rfl, rfl⟩
  unfold chunkOf
  rw [if_neg (by omega), if_pos (by omega)]
  simp
  omega

theorem update_whole (hb : g.bc = .whole) (hN : 0 < g.N) (he : 2 ∣ g.N)
    (hNs : g.Ns ≤ g.N) (hfl : g.f.length = g.N) {s : GivenSt K} {k : Nat}
    (hint : ∀ i, BinsOk g.N (g.wInt k i)) (hloc : ∀ i, BinsOk g.N (g.wLoc k i)) {t : ℚ}
    (h0 : 0 < (⌊t * g.fs k⌋ - ((g.N : Int) - g.Ns))) (h1 : ∀ ch ∈ y k, (⌊t * g.fs k⌋ - ((g.N : Int) - g.Ns)) ≤ ch.length)
    (hd : (⌊t * g.fs k⌋ - ((g.N : Int) - g.Ns)) ≤ (s.d k).length) (hdL : (⌊t * g.fs k⌋ - ((g.N : Int) - g.Ns)) ≤ (s.dLoc k).length)
    (hc : g.conv = true → (g.Ns : Int) ≤ (⌊t * g.fs k⌋ - ((g.N : Int) - g.Ns)))
    {net : NetSt K} (hnet : netStep g.nb g.N g.Ns s.net (.up k) = .ok net) :
    ∃ s', g.update y s t k = .ok s' ∧ s'.net = net ∧ s'.wIR = s.wIR ∧
      (∀ q, (s'.d q).length = (s.d q).length) ∧ ∀ q, (s'.dLoc q).length = (s.dLoc q).length := by
  obtain ⟨fr, hfr, hl⟩ := mapM_chunk (ys := y k) (N := g.N) h0.le h1
  have hfr' : ((y k).mapM fun ch => chunkForUpdate ch t (g.fs k) g.bc.name g.N g.Ns) = .ok fr := by
    rw [hb]
    unfold chunkForUpdate BcType.name
    simp only [show ¬ ("wholeChunk" = "fewSamples") by decide, if_false, if_true]
    exact hfr
  have hr : g.updRange t k = (max ((⌊t * g.fs k⌋ - ((g.N : Int) - g.Ns)) - g.N) 0, (⌊t * g.fs k⌋ - ((g.N : Int) - g.Ns))) := by
    unfold GivenCfg.updRange
    rw [hb]
  unfold GivenCfg.update
  rw [hnet]
  simp only [bind, Except.bind]
  rw [hfr']
  simp only
  rw [if_neg (by
    simp only [List.any_eq_true, decide_eq_true_eq, not_exists, not_and, not_not]
    intro x hx
    rw [hl x hx]), hr]
  simp only
  obtain ⟨d', hd', hdl⟩ := desired_total (g := g) (w := g.wInt k (s.net.it k + 1))
    (yHat := g.rotate k (s.net.it k) ((fr.map (·.1) ++ net.z k).map (analysis g.ζ g.N g.c g.h)))
    (yTD := (fr.map (·.1) ++ net.z k).take (y k).length) hN he hNs hfl (fun _ => hint _) h0 hd hc
  obtain ⟨dL', hdL', hdLl⟩ := desired_total (g := g) (w := g.wLoc k (s.net.it k + 1))
    (yHat := (fr.map (·.1)).map (analysis g.ζ g.N g.c g.h))
    (yTD := fr.map (·.1)) hN he hNs hfl (fun _ => hloc _) h0 hdL hc
  rw [hd']
  simp only
  rw [hdL']
  refine ⟨_, rfl, rfl, rfl, fun q => ?_, fun q => ?_⟩
  · simp only
    by_cases hq : q = k
    · subst hq; rw [Function.update_self, hdl]
    · rw [Function.update_of_ne hq]
  · simp only
    by_cases hq : q = k
    · subst hq; rw [Function.update_self, hdLl]
    · rw [Function.update_of_ne hq]

/-- Conditions on one event. -/
structure EvOkW (g : GivenCfg K) (y : Nat → List (List K)) (T : Nat) (pre : List (ℚ × Nat × EvType))
    (ev : ℚ × Nat × EvType) : Prop where
  type : ev.2.2 = .bc ∨ ev.2.2 = .up
  nonneg : 0 ≤ ⌊ev.1 * g.fs ev.2.1⌋
  inside : ∀ ch ∈ y ev.2.1, ⌊ev.1 * g.fs ev.2.1⌋ ≤ ch.length
  pos : ev.2.2 = .up → 0 < ⌊ev.1 * g.fs ev.2.1⌋ - ((g.N : Int) - g.Ns) ∧
    ⌊ev.1 * g.fs ev.2.1⌋ - ((g.N : Int) - g.Ns) ≤ T ∧
    (g.conv = true → (g.Ns : Int) ≤ ⌊ev.1 * g.fs ev.2.1⌋ - ((g.N : Int) - g.Ns))
  buf : ev.2.2 = .up → 0 < evUps pre ev.2.1 →
    ∀ k ∈ g.nb ev.2.1, evBcs (evSince ev.2.1 pre) k * g.Ns ≤ g.N

theorem adaptStep_whole {U : Strategy K} {T : Nat} (hb : g.bc = .whole) (hN : 0 < g.N)
    (he : 2 ∣ g.N) (h2 : g.N = 2 * g.Ns) (hhl : g.h.length = g.N) (hfl : g.f.length = g.N)
    (gd : GoodNeighbours g.nb)
    (hU : ∀ k h, BinsOk g.N (U.rows k h).int ∧ BinsOk g.N (U.rows k h).ext ∧ BinsOk g.N (U.rows k h).loc)
    {pre : List (ℚ × Nat × EvType)} {a : AdaptSt K} (ha : Alive g g.Ns T pre a) {ev : ℚ × Nat × EvType}
    (hev : EvOkW g y T pre ev) :
    ∃ a', adaptStep U y a ev = .ok a' ∧ Alive g g.Ns T (pre ++ [ev]) a' := by
  obtain ⟨t, q, ty⟩ := ev
  obtain ⟨p1, p2, p3, p4, _⟩ := ha.fixed.parts
  have hf := ha.fixed
  obtain ⟨ops, ho, hnet⟩ := ha.net
  have hty := hev.type
  simp only at hty
  have hnb : a.cfg.nb = g.nb := by rw [hf]
  have hcfl : a.cfg.f = g.f := by rw [hf]
  have hcv : a.cfg.conv = g.conv := by rw [hf]
  have hhc : a.cfg.h = g.h := by rw [hf]
  rcases hty with rfl | rfl
  · obtain ⟨s', c, h1, h2, h3, h4, h5, h6⟩ := broadcast_whole (g := a.cfg) (y := y) (s := a.st)
      (t := t) (k := q)
      (by rw [p1, hb]) (by rw [p2]; exact hN) (by rw [p2]; exact he) (by rw [p2, p3]; exact h2)
      (by rw [p2, hhc]; exact hhl) (by rw [p2, hcfl]; exact hfl) (by rw [hnb]; exact gd)
      (by rw [p4]; exact hev.nonneg) (by rw [p4]; exact hev.inside)
    rw [p3] at h2
    refine ⟨{ a with st := s' }, ?_, ?_⟩
    · unfold adaptStep GivenCfg.step
      simp only
      rw [h1]
      rfl
    · refine ⟨hf, ⟨ops ++ [.bc q c], List.rel_append ho (.cons (show evOpL g.Ns (t, q, .bc) (.bc q c) from And.intro rfl (And.intro rfl h2)) .nil), ?_⟩,
        fun k => by simp only; rw [h6]; exact ha.wIR k, fun k => ?_, fun k => ?_, ha.int, ha.ext, ha.loc⟩
      · rw [netRun_snoc, hnet]
        rw [hnb, p2, p3] at h3
        exact h3
      · simp only; rw [h4]; exact ha.d k
      · simp only; rw [h5]; exact ha.dLoc k
  · obtain ⟨h0, hT, hc⟩ := hev.pos rfl
    simp only at h0 hT hc
    obtain ⟨net', hn'⟩ := netStep_up_ok gd ho hnet (hev.buf rfl)
    obtain ⟨fr, hfr, hl⟩ := mapM_chunk (ys := y q) (N := g.N) (e := ⌊t * g.fs q⌋ - ((g.N : Int) - g.Ns)) (by omega) (fun ch hch => by
      have := hev.inside ch hch; simp only at this; omega)
    have hobs : ∃ o, a.cfg.observe y a.st t q = .ok o := by
      unfold GivenCfg.observe
      have e : ((y q).mapM fun ch => chunkForUpdate ch t (a.cfg.fs q) a.cfg.bc.name a.cfg.N a.cfg.Ns) = .ok fr := by
        rw [p1, p2, p3, p4, hb]
        unfold chunkForUpdate BcType.name
        simp only [show ¬ ("wholeChunk" = "fewSamples") by decide, if_false, if_true]
        exact hfr
      rw [e, hnb, p2, p3, hn']
      exact ⟨_, rfl⟩
    obtain ⟨o, ho'⟩ := hobs
    have hgf : ((a.cfg.record q (a.st.net.it q + 1) (U.rows q (a.hist q ++ [o]))).setRot q (a.st.net.it q)
        (U.rot q (a.hist q ++ [o]))).fixed g := (record_setRot_fixed a.cfg q _ _ _ _).trans hf
    obtain ⟨hU1, hU2, hU3⟩ := hU q (a.hist q ++ [o])
    have i1 := binsOk_update ha.int hU1 q (a.st.net.it q + 1)
    have i2 := binsOk_update ha.ext hU2 q (a.st.net.it q + 1)
    have i3 := binsOk_update ha.loc hU3 q (a.st.net.it q + 1)
    generalize hG : ((a.cfg.record q (a.st.net.it q + 1) (U.rows q (a.hist q ++ [o]))).setRot q (a.st.net.it q)
        (U.rot q (a.hist q ++ [o]))) = G at hgf
    have e1 : G.wInt = Function.update a.cfg.wInt q (Function.update (a.cfg.wInt q) (a.st.net.it q + 1)
      (U.rows q (a.hist q ++ [o])).int) := by rw [← hG]; rfl
    have e2 : G.wExt = Function.update a.cfg.wExt q (Function.update (a.cfg.wExt q) (a.st.net.it q + 1)
      (U.rows q (a.hist q ++ [o])).ext) := by rw [← hG]; rfl
    have e3 : G.wLoc = Function.update a.cfg.wLoc q (Function.update (a.cfg.wLoc q) (a.st.net.it q + 1)
      (U.rows q (a.hist q ++ [o])).loc) := by rw [← hG]; rfl
    rw [← e1] at i1
    rw [← e2] at i2
    rw [← e3] at i3
    obtain ⟨q1, q2, q3, q4, _⟩ := hgf.parts
    have qnb : G.nb = g.nb := by rw [hgf]
    have qfl : G.f = g.f := by rw [hgf]
    have qcv : G.conv = g.conv := by rw [hgf]
    have hin : ∀ ch ∈ y q, ⌊t * g.fs q⌋ - ((g.N : Int) - g.Ns) ≤ ch.length := fun ch hch => by
      have := hev.inside ch hch
      simp only at this
      omega
    obtain ⟨s', u1, u2, u3, u4, u5⟩ := update_whole (g := G) (y := y) (s := a.st) (t := t) (k := q)
      (net := net') (by rw [q1, hb]) (by rw [q2]; exact hN) (by rw [q2]; exact he)
      (by rw [q2, q3]; omega) (by rw [qfl, q2]; exact hfl) (by rw [q2]; exact i1 q) (by rw [q2]; exact i3 q)
      (by rw [q2, q3, q4]; exact h0) (by rw [q2, q3, q4]; exact hin) (by rw [q2, q3, q4, ha.d]; exact hT)
      (by rw [q2, q3, q4, ha.dLoc]; exact hT) (by rw [qcv, q2, q3, q4]; exact hc) (by rw [qnb, q2, q3]; exact hn')
    refine ⟨⟨G, s', Function.update a.hist q (a.hist q ++ [o])⟩, ?_, ?_⟩
    · unfold adaptStep
      simp only
      rw [ho']
      simp only [bind, Except.bind]
      rw [hG]
      unfold GivenCfg.step
      simp only
      rw [u1]
    · refine ⟨hgf, ⟨ops ++ [.up q], List.rel_append ho (.cons (show evOpL g.Ns (t, q, .up) (.up q : BufOp K) from And.intro rfl rfl) .nil), ?_⟩, ?_, fun k => ?_,
        fun k => ?_, i1, i2, i3⟩
      · rw [netRun_snoc, hnet]
        simp only
        rw [u2]
        exact hn'
      · simp only; rw [u3]; exact ha.wIR
      · simp only; rw [u4]; exact ha.d k
      · simp only; rw [u5]; exact ha.dLoc k

theorem adaptRun_whole {U : Strategy K} {T : Nat} (hb : g.bc = .whole) (hN : 0 < g.N)
    (he : 2 ∣ g.N) (h2 : g.N = 2 * g.Ns) (hhl : g.h.length = g.N) (hfl : g.f.length = g.N)
    (gd : GoodNeighbours g.nb)
    (hU : ∀ k h, BinsOk g.N (U.rows k h).int ∧ BinsOk g.N (U.rows k h).ext ∧ BinsOk g.N (U.rows k h).loc)
    (hint : ∀ k i, BinsOk g.N (g.wInt k i)) (hext : ∀ k i, BinsOk g.N (g.wExt k i))
    (hloc : ∀ k i, BinsOk g.N (g.wLoc k i)) (M : Nat → Nat) (evs : List (ℚ × Nat × EvType))
    (hev : ∀ pre ev post, evs = pre ++ ev :: post → EvOkW g y T pre ev) :
    ∃ a, adaptRun U y (.init g T M) evs = .ok a ∧ Alive g g.Ns T evs a := by
  induction evs using List.reverseRecOn with
  | nil =>
    refine ⟨_, rfl, rfl, ⟨[], .nil, rfl⟩, fun k x hx => ?_, fun k => ?_, fun k => ?_, hint, hext, hloc⟩
    · simp only [AdaptSt.init, GivenSt.init, List.mem_map] at hx
      obtain ⟨m, _, rfl⟩ := hx
      split <;> simp
    · simp [AdaptSt.init, GivenSt.init]
    · simp [AdaptSt.init, GivenSt.init]
  | append_singleton evs ev ih =>
    obtain ⟨a, h1, h2'⟩ := ih fun pre e post hs => hev pre e (post ++ [ev]) (by rw [hs]; simp)
    obtain ⟨a', h3, h4⟩ := adaptStep_whole (U := U) hb hN he h2 hhl hfl gd hU h2' (hev evs ev [] (by simp))
    refine ⟨a', ?_, h4⟩
    unfold adaptRun at h1 ⊢
    rw [List.foldlM_append, h1]
    simp only [bind, Except.bind, List.foldlM_cons, List.foldlM_nil]
    rw [h3]
    rfl

/-- Before the update at sample `i Ns`, a synchronous node has sent `i + 1 - N / Ns` whole chunks. -/
theorem whole_bcs {evs pre post : List (ℚ × Nat × EvType)} {t fs : ℚ} {q k Ns n R i : Nat} (hNs : 0 < Ns)
    (hfs : 0 < fs) (ho : evs.Pairwise EvBefore) (hev : evs = pre ++ (t, q, .up) :: post)
    (hb : bcTimes evs k = everySep Ns fs R ((n - 1) / Ns)) (hi : i < (n - 1) / Ns)
    (hit : t = (i : ℚ) * Ns / fs) : evBcs pre k = i + 1 - R := by
  have e : (i : ℚ) * Ns / fs = ((i * Ns : Nat) : ℚ) / fs := by push_cast; ring
  rw [← evBcs_length, bcTimes_before ho hev k, hb, hit, e, everySep_filter hNs hfs, Nat.mul_div_cancel _ hNs,
    Nat.min_eq_right hi, everySep_length]

/-- Between two updates in a row of a node, a synchronous neighbour sends one whole chunk. -/
theorem whole_between {evs pre post : List (ℚ × Nat × EvType)} {t fs : ℚ} {q k Ns n R : Nat} (hNs : 0 < Ns)
    (hfs : 0 < fs) (ho : evs.Pairwise EvBefore) (hev : evs = pre ++ (t, q, .up) :: post)
    (hu : upTimes evs q = everySep Ns fs R ((n - 1) / Ns))
    (hb : bcTimes evs k = everySep Ns fs R ((n - 1) / Ns)) (h0 : 0 < evUps pre q) : evBcs (evSince q pre) k = 1 := by
  obtain ⟨p1, t1, e1, e2⟩ := evSince_split q pre h0
  obtain ⟨i1, i2⟩ := sync_index hu hev
  have hev1 : evs = p1 ++ (t1, q, .up) :: (evSince q pre ++ (t, q, .up) :: post) := by
    rw [hev]; conv_lhs => rw [e1]
    simp
  obtain ⟨j1, j2⟩ := sync_index hu hev1
  have c1 := whole_bcs (k := k) hNs hfs ho hev hb i1 i2
  have c2 := whole_bcs (k := k) hNs hfs ho hev1 hb j1 j2
  have hups : evUps pre q = evUps p1 q + 1 := by
    have : evUps pre q = evUps p1 q + (1 + evUps (evSince q pre) q) := by
      conv_lhs => rw [e1]
      unfold evUps
      rw [List.countP_append, List.countP_cons_of_pos (by simp)]
      omega
    omega
  have hbc : evBcs pre k = evBcs p1 k + evBcs (evSince q pre) k := by
    conv_lhs => rw [e1]
    unfold evBcs
    rw [List.countP_append, List.countP_cons_of_neg (by simp)]
  omega

/-- The run ends normally, and what is known of its last state. -/
theorem whole_alive (U : Strategy K) {n : Nat} (hn : 0 < n) {fs : ℚ} (hfs : 0 < fs)
    (hf : inferFs (clockStamps fs n) = .ok fs) (nbs : List (List Nat)) {seq sim : Bool}
    {ri : Nat} (first minF : Int) (hri : sim = true → ri < nbs.length)
    (hg : ∀ k, g.fs k = fs) (hb : g.bc = .whole) (hNs : 0 < g.Ns) (h2 : g.N = 2 * g.Ns) (hhl : g.h.length = g.N)
    (hfl : g.f.length = g.N) (gd : GoodNeighbours g.nb)
    (hnb : ∀ q < nbs.length, ∀ k ∈ g.nb q, k < nbs.length)
    (hy : ∀ k < nbs.length, ∀ ch ∈ y k, ch.length = n)
    (hU : ∀ k h, (∀ b ∈ (U.rows k h).int, b.length = g.N / 2 + 1) ∧
      (∀ b ∈ (U.rows k h).ext, b.length = g.N / 2 + 1) ∧ ∀ b ∈ (U.rows k h).loc, b.length = g.N / 2 + 1)
    (hw : ∀ k i, (∀ b ∈ g.wInt k i, b.length = g.N / 2 + 1) ∧
      (∀ b ∈ g.wExt k i, b.length = g.N / 2 + 1) ∧ ∀ b ∈ g.wLoc k i, b.length = g.N / 2 + 1)
    (M : Nat → Nat) :
    ∃ out a, initEventsFC g.bc g.N g.Ns seq sim ri first minF (syncNodes fs n nbs) =
        .ok (out, List.replicate nbs.length fs) ∧
      adaptRun U y (.init g n M) (flatEvents out) = .ok a ∧ Alive g g.Ns n (flatEvents out) a := by
  obtain ⟨out, hout, hall, hty⟩ := C78_schedule (seq := seq) (sim := sim) (r := ri) (N := g.N) (bc := g.bc)
    hNs hn hfs hf (fun _ => ⟨2, by omega⟩) (by rw [hb]; intro L' e' h; cases h) nbs first minF hri
  obtain ⟨arg, ha, hti⟩ := initEventsFC_built hout
  have hord := schedule_order ha hti
  have hcl : ⌈(g.N : ℚ) / g.Ns⌉₊ = 2 := by
    have : (g.N : ℚ) / g.Ns = (2 : Nat) := by
      rw [h2]
      push_cast
      field_simp
    rw [this, Nat.ceil_natCast]
  have hdv : g.N / g.Ns = 2 := by rw [h2, Nat.mul_div_cancel _ hNs]
  rw [hb] at hall
  simp only [syncBc, hcl, hdv] at hall
  obtain ⟨a, h1, h2⟩ := adaptRun_whole (y := y) (U := U) (T := n) hb (by omega) (by omega) h2 hhl hfl gd hU
    (fun k i => (hw k i).1) (fun k i => (hw k i).2.1) (fun k i => (hw k i).2.2) M (flatEvents out) (by
      intro pre ev post hsp
      have hmem : ev ∈ flatEvents out := by rw [hsp]; simp
      obtain ⟨t, q, ty⟩ := ev
      obtain ⟨hq, hty'⟩ := hty _ hmem
      simp only at hq hty'
      rcases hty' with rfl | rfl
      · obtain ⟨i1, i2⟩ := sync_index (hall q hq).1 hsp
        generalize hI : 2 + evUps pre q = I at i1 i2
        have hlow : 2 * g.Ns ≤ I * g.Ns := Nat.mul_le_mul_right _ (by omega)
        have hup : I * g.Ns ≤ n - 1 := (Nat.le_div_iff_mul_le hNs).mp i1.le
        have hfl' : ⌊t * g.fs q⌋ = ((I * g.Ns : Nat) : Int) := by rw [i2, hg, floor_everySep hfs]
        refine ⟨.inr rfl, ?_, ?_, fun _ => ⟨?_, ?_, fun _ => ?_⟩, fun _ hu k hk => ?_⟩
        · simp only; rw [hfl']; omega
        · intro ch hch; simp only at hch ⊢; rw [hfl', hy q hq ch hch]; omega
        · simp only; rw [hfl']; omega
        · simp only; rw [hfl']; omega
        · simp only; rw [hfl']; omega
        · simp only at hu hk ⊢
          rw [whole_between hNs hfs hord hsp (hall q hq).1 (hall k (hnb q hq k hk)).2 hu]
          omega
      · have hm : t ∈ bcTimes (flatEvents out) q := by
          unfold bcTimes
          rw [List.mem_filterMap]
          exact ⟨(t, q, .bc), hmem, by simp⟩
        rw [(hall q hq).2] at hm
        unfold everySep at hm
        obtain ⟨j, hj, rfl⟩ := List.mem_map.mp hm
        have hj' := List.mem_range.mp hj
        have hup : (2 + j) * g.Ns ≤ n - 1 := (Nat.le_div_iff_mul_le hNs).mp (by omega)
        have hfl' : ⌊(((2 + j : Nat) : ℚ) * g.Ns / fs) * g.fs q⌋ = (((2 + j) * g.Ns : Nat) : Int) := by
          rw [hg, floor_everySep hfs]
        have hIn : (((2 + j) * g.Ns : Nat) : Int) ≤ n := by exact_mod_cast (by omega : (2 + j) * g.Ns ≤ n)
        refine ⟨.inl rfl, ?_, ?_, fun h => (by cases h), fun h => (by cases h)⟩
        · simp only; rw [hfl']; positivity
        · intro ch hch; simp only at hch ⊢; rw [hfl', hy q hq ch hch]; exact hIn)
  exact ⟨out, a, hout, h1, h2⟩

end
end Danse
