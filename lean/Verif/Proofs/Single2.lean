import Verif.Proofs.Total7
import Verif.Proofs.Single
import Verif.Props.Centr

/-! # Efficient few-sample broadcasts of nodes that keep their initial broadcast filter -/

set_option linter.unusedSectionVars false

namespace Danse
section
variable {K : Type} [Field K] [StarRing K] [DecidableEq K] {g : GivenCfg K} {y : Nat → List (List K)} {k : Nat}

theorem broadcast_keeps_eff {L l : Nat} (hb : g.bc = .few L true) (hN : 2 ≤ g.N) (hL : l ≤ g.N) {x : List K}
    (hx : (y k)[g.refSensor]? = some x) {s s' : GivenSt K} (hk : Keeps g y k s) {t : ℚ}
    (ht : (g.noFusion = true ∧ (y k).length = 1) ∨ |t| < g.upTDEvery) (hcur : g.currL s L true t k = .ok l)
    (h0 : (l : Int) ≤ ⌊t * g.fs k⌋) (h1 : ⌊t * g.fs k⌋ ≤ x.length)
    (h : g.broadcast y s t k = .ok s') :
    Keeps g y k s' ∧ s'.lastBc k = t ∧ netStep g.nb g.N g.Ns s.net (.bc k (newest x ⌊t * g.fs k⌋ l)) = .ok s'.net := by
  unfold GivenCfg.broadcast at h
  obtain ⟨fr, hfr, h⟩ := bind_ok_inv h
  split at h
  · cases h
  · rename_i hshort
    rw [hb] at h
    simp only at h
    obtain ⟨l', hl, h⟩ := bind_ok_inv h
    obtain ⟨w, hw, h⟩ := bind_ok_inv h
    obtain ⟨z, hz, h⟩ := bind_ok_inv h
    obtain ⟨n, hn, hfin⟩ := bind_ok_inv h
    have hl' : l' = l := by
      rw [hcur] at hl
      injection hl with hl; exact hl.symm
    subst hl'
    have hnot : ¬ (|t - s.lastUp k| ≥ g.upTDEvery ∧ ¬ (g.noFusion = true ∧ (y k).length = 1)) := by
      rintro ⟨ha, hc⟩
      rcases hk.why with h | h
      · exact hc h
      · rcases ht with h' | h'
        · exact hc h'
        · rw [h, sub_zero] at ha
          exact absurd h' (not_lt.mpr ha)
    have hw' : w = s.wIR k := by
      unfold GivenCfg.bcFilter at hw
      rw [if_neg hnot] at hw
      injection hw with hw; exact hw.symm
    obtain ⟨hfl, hfi⟩ := mapM_get hfr
    obtain ⟨c, hc, hcx⟩ := hfi _ _ hx
    unfold chunkForBroadcast at hcx
    obtain ⟨b, hb1, hb2, hb3⟩ := localChunk_at (y := x) (N := g.N) (e := ⌊t * g.fs k⌋) (by omega) h1
    rw [hb1] at hcx
    injection hcx with hcx
    have hz' := few_dirac (N := g.N) (L := l') (M := (y k).length) (ref := g.refSensor) hN hL
      (yq := fr.map (·.1)) (by simp [hfl]) (b := b) (by rw [List.getElem?_map, hc, ← hcx]; rfl) (by
        intro b hb
        obtain ⟨a, ha, rfl⟩ := List.mem_map.mp hb
        have : ¬ a.1.length < g.N := by
          intro hlt
          exact hshort (List.any_eq_true.mpr ⟨a, ha, by simpa using hlt⟩)
        omega)
    rw [hw', hk.ir, hz'] at hz
    injection hz with hz
    have hzl : z.length = l' := by rw [← hz]; simp
    have hzn : z = newest x ⌊t * g.fs k⌋ l' := by
      apply at0_ext
      · rw [hzl]; unfold newest; simp; omega
      · rw [hzl]
        intro i hi
        rw [← hz, at0_range_map hi]
        unfold newest
        rw [hb3 _ (by omega), if_pos (by omega), at0_drop, at0_take (by omega)]
        congr 1; omega
    have hchunk : chunkOf z (-(l' : Int)) = z := by
      obtain ⟨h1, _, h3⟩ := C15_chunk z (-(l' : Int))
      rcases Nat.eq_zero_or_pos l' with e | e
      · rw [e] at hzl ⊢
        have : z = [] := List.length_eq_zero_iff.mp hzl
        subst this; rfl
      · obtain ⟨pre, hp⟩ := h1 (by omega)
        have hlen := congrArg List.length hp
        rw [List.length_append, h3, hzl] at hlen
        have : pre = [] := List.length_eq_zero_iff.mp (by omega)
        rw [this] at hp
        exact hp.symm
    rw [hchunk, hzn] at hn
    injection hfin with hfin
    subst hfin
    refine ⟨⟨?_, ?_⟩, by simp, hn⟩
    · simp only [Function.update_self]; rw [hw']; exact hk.ir
    · rcases hk.why with h | h
      · exact .inl h
      · rcases ht with h' | h'
        · exact .inl h'
        · right
          simp only
          rw [if_neg]
          · exact h
          · rw [h, sub_zero]; exact not_le.mpr h'

/-- What has been sent after `J` efficient broadcasts, when the receivers never miss more than a frame. -/
theorem run_keeps_eff {L n : Nat} {fs : ℚ} (hfs : 0 < fs) (hb : g.bc = .few L true) (hN : 2 ≤ g.N) (hL : 0 < L) {x : List K}
    (hx : (y k)[g.refSensor]? = some x) (hxn : x.length = n) (hg : g.fs k = fs) (hst : g.stamps k = clockStamps fs n)
    {E : Nat → Nat} (hE0 : E 0 = 0) (hmono : ∀ j, E j ≤ E (j + 1)) (hdvd : ∀ j, L ∣ E j) (hstep : ∀ j, E (j + 1) - E j ≤ g.N)
    {M : Nat → Nat} (hM : M k = (y k).length) {T : Nat} (evs : List (ℚ × Nat × EvType)) : ∀ (J : Nat) (s : GivenSt K),
    ((g.noFusion = true ∧ (y k).length = 1) ∨ ∀ ev ∈ evs, |ev.1| < g.upTDEvery) → (∀ j ≤ J, E j < n) →
    bcTimes evs k = (List.range J).map (fun (j : Nat) => ((E (j + 1) : Nat) : ℚ) / fs) →
    g.run y (.init g.N g.refSensor T M) evs = .ok s →
    Keeps g y k s ∧ s.lastBc k = ((E J : Nat) : ℚ) / fs ∧
    ∃ ops, netRun g.nb g.N g.Ns ops = .ok s.net ∧ sent ops k = x.take (E J) := by
  induction evs using List.reverseRecOn with
  | nil =>
    intro J s _ hJ h hr
    have : J = 0 := by
      have := congrArg List.length h
      simp [bcTimes] at this
      exact this.symm
    subst this
    injection hr with hr
    subst hr
    refine ⟨⟨by simp only [GivenSt.init, diracIR, hM], .inr rfl⟩, ?_, [], rfl, ?_⟩
    · rw [hE0]; simp [GivenSt.init]
    · rw [hE0]; rfl
  | append_singleton evs ev ih =>
    intro J s hkeep hJ h hr
    unfold GivenCfg.run at hr
    rw [List.foldlM_append] at hr
    obtain ⟨s1, hr1, hr⟩ := bind_ok_inv hr
    rw [List.foldlM_cons] at hr
    obtain ⟨s2, hr2, hr⟩ := bind_ok_inv hr
    injection hr with hr
    subst hr
    have hkeep1 : (g.noFusion = true ∧ (y k).length = 1) ∨ ∀ ev ∈ evs, |ev.1| < g.upTDEvery :=
      hkeep.imp_right fun h e he => h e (by simp [he])
    obtain ⟨t, q, ty⟩ := ev
    by_cases hk : q = k ∧ ty = .bc
    · obtain ⟨rfl, rfl⟩ := hk
      have h2 : bcTimes (evs ++ [(t, q, EvType.bc)]) q = bcTimes evs q ++ [t] := by
        unfold bcTimes
        rw [List.filterMap_append]
        simp
      rw [h2] at h
      cases J with
      | zero => simp at h
      | succ J =>
        rw [List.range_succ, List.map_append, List.map_cons, List.map_nil] at h
        obtain ⟨h3, h4⟩ := List.append_inj' h (by simp)
        injection h4 with h4
        obtain ⟨k1, k2, ops, k3, k4⟩ := ih J s1 hkeep1 (fun j hj => hJ j (by omega)) h3 hr1
        have hJ1 := hJ (J + 1) le_rfl
        have hfl : ⌊t * g.fs q⌋ = ((E (J + 1) : Nat) : Int) := by
          rw [h4, hg, div_mul_cancel₀ _ hfs.ne', Int.floor_natCast]
        have hcur : g.currL s1 L true t q = .ok (E (J + 1) - E J) := by
          unfold GivenCfg.currL bufferSizeEff
          rw [if_pos rfl, if_neg (by omega), k2, hst, h4, clock_count hfs (hmono J) hJ1,
            Nat.mul_div_cancel' (Nat.dvd_sub (hdvd _) (hdvd _))]
        have hm := hmono J
        obtain ⟨b1, b2, b3⟩ := broadcast_keeps_eff hb hN (hstep J) hx k1 (hkeep.imp_right fun h => h (t, q, .bc) (by simp)) hcur
          (by rw [hfl]; omega) (by rw [hfl, hxn]; omega) hr2
        refine ⟨b1, by rw [b2, h4], ops ++ [.bc q (newest x ⌊t * g.fs q⌋ (E (J + 1) - E J))], ?_, ?_⟩
        · rw [netRun_snoc, k3]; exact b3
        · rw [sent_append, k4, sent_bc, if_pos rfl, hfl]
          unfold newest
          rw [Int.toNat_natCast, show E (J + 1) - (E (J + 1) - E J) = E J by omega]
          conv_rhs => rw [← List.take_append_drop (E J) (x.take (E (J + 1)))]
          rw [List.take_take, Nat.min_eq_left hm]
    · have h2 : bcTimes (evs ++ [(t, q, ty)]) k = bcTimes evs k := by
        unfold bcTimes
        rw [List.filterMap_append]
        simp [hk]
      rw [h2] at h
      obtain ⟨k1, k2, ops, k3, k4⟩ := ih J s1 hkeep1 hJ h hr1
      have hone : g.run y s1 [(t, q, ty)] = .ok s2 := by
        unfold GivenCfg.run
        rw [List.foldlM_cons, hr2]; rfl
      have hops : ∃ op, evOp (t, q, ty) op ∧ netStep g.nb g.N g.Ns s1.net op = .ok s2.net := by
        obtain ⟨ops, ho, hr⟩ := run_net [(t, q, ty)] s1 s2 hone
        cases ho with
        | cons h2 h3 =>
          cases h3
          refine ⟨_, h2, ?_⟩
          rw [List.foldlM_cons] at hr
          obtain ⟨n1, hn1, hr⟩ := bind_ok_inv hr
          injection hr with hr
          rw [hn1, hr]
      obtain ⟨op, ho, hn⟩ := hops
      have hks : Keeps g y k s2 ∧ s2.lastBc k = s1.lastBc k := by
        unfold GivenCfg.step at hr2
        cases ty with
        | bc =>
          simp only at hr2
          have hq : q ≠ k := fun e => hk ⟨e, rfl⟩
          have hf := broadcast_frame (A := fun j => j ≠ q) (B := fun _ => False) (by simp)
            (fun _ h => h.elim) hr2
          exact ⟨⟨by rw [hf.wIR k (Ne.symm hq)]; exact k1.ir, by rw [hf.lastUp k (Ne.symm hq)]; exact k1.why⟩,
            hf.lastBc k (Ne.symm hq)⟩
        | up =>
          simp only at hr2
          obtain ⟨_, _, _, u1, u2, u3⟩ := update_frame hr2
          exact ⟨⟨by rw [u1]; exact k1.ir, by rw [u2]; exact k1.why⟩, by rw [u3]⟩
        | _ => cases hr2
      refine ⟨hks.1, by rw [hks.2, k2], ops ++ [op], ?_, ?_⟩
      · rw [netRun_snoc, k3]; exact hn
      · rw [sent_append, k4]
        cases op with
        | bc j c =>
          have : j ≠ k := fun e => hk ⟨ho.1.trans e, ho.2⟩
          rw [sent_bc, if_neg this, List.append_nil]
        | up j => rw [sent_up, List.append_nil]

/-- What a node receives from a neighbour that keeps its initial broadcast filter, with efficient broadcasts. -/
theorem eff_neighbour_frame {n L : Nat} (hn : 0 < n) {fs : ℚ} (hfs : 0 < fs)
    (hf : inferFs (clockStamps fs n) = .ok fs) (nbs : List (List Nat))
    (hne : ∀ nb ∈ nbs, nb ≠ [] ∧ ∀ q ∈ nb, q < nbs.length) {seq sim : Bool}
    {ri : Nat} {first minF : Int} {fsInf : List ℚ} {out : List (Instant ℚ)} (hg : ∀ k, g.fs k = fs)
    (hst : ∀ k, g.stamps k = clockStamps fs n)
    (hb : g.bc = .few L true) (hL0 : 0 < L) (hLn : L < n) (hLNs : L ≤ g.Ns)
    (hout : initEventsFC g.bc g.N g.Ns seq sim ri first minF (syncNodes fs n nbs) = .ok (out, fsInf))
    (hri : sim = true → ri < nbs.length) (hN : 2 ≤ g.N) (hNsN : g.Ns ∣ g.N)
    (hbuf : g.Ns + L ≤ g.N + 1 ∨ L ∣ g.Ns ∧ g.Ns ≤ g.N)
    (hnb : GoodNeighbours g.nb) {k : Nat} (hkn : k < nbs.length) {x : List K}
    (hx : (y k)[g.refSensor]? = some x) (hxn : x.length = n) {M : Nat → Nat} (hM : M k = (y k).length)
    {q idx : Nat} (hqn : q < nbs.length) (hk : (g.nb q)[idx]? = some k) {t : ℚ}
    {pre post : List (ℚ × Nat × EvType)} (hev : flatEvents out = pre ++ (t, q, .up) :: post)
    (hkeep : (g.noFusion = true ∧ (y k).length = 1) ∨ ∀ ev ∈ pre, |ev.1| < g.upTDEvery)
    {T : Nat} {s : GivenSt K}
    (h : g.run y (.init g.N g.refSensor T M) (pre ++ [(t, q, .up)]) = .ok s) :
    ∃ i : Nat, t = (i : ℚ) * g.Ns / fs ∧ g.N ≤ i * g.Ns ∧ i * g.Ns < n ∧
      ∃ col, (s.net.z q)[idx]? = some col ∧ LastSamples g.N (x.take (i * g.Ns / L * L)) col ∧
        (g.N ≤ i * g.Ns / L * L → col = frameAt x (i * g.Ns / L * L - g.N) g.N) := by
  have hNs : 0 < g.Ns := by omega
  obtain ⟨out', ho', hall, _⟩ := C87_schedule_efficient (seq := seq) (sim := sim) (r := ri) (N := g.N) (L := L) hNs (by omega) hn hL0
    hLNs hLn hfs hf nbs hne first minF hri
  rw [← hb, hout] at ho'
  injection ho' with ho'
  injection ho' with ho'
  subst ho'
  obtain ⟨a, ha, hti⟩ := initEventsFC_built hout
  have hord := schedule_order ha hti
  obtain ⟨i, hi, hiN, hit, hiR⟩ : ∃ i, i < (n - 1) / g.Ns ∧ g.N ≤ i * g.Ns ∧ t = (i : ℚ) * g.Ns / fs ∧ ⌈(g.N : ℚ) / g.Ns⌉₊ ≤ i := by
    have hm : t ∈ upTimes (flatEvents out) q := by
      rw [hev]
      unfold upTimes
      rw [List.mem_filterMap]
      exact ⟨(t, q, .up), by simp, by simp⟩
    rw [(hall q hqn).1] at hm
    unfold everySep at hm
    obtain ⟨j, hj, rfl⟩ := List.mem_map.mp hm
    have hj' := List.mem_range.mp hj
    refine ⟨⌈(g.N : ℚ) / g.Ns⌉₊ + j, by omega, ?_, rfl, by omega⟩
    have h1 : (g.N : ℚ) / g.Ns ≤ (⌈(g.N : ℚ) / g.Ns⌉₊ : ℚ) := Nat.le_ceil _
    rw [div_le_iff₀ (by exact_mod_cast hNs)] at h1
    have h2 : g.N ≤ ⌈(g.N : ℚ) / g.Ns⌉₊ * g.Ns := by exact_mod_cast h1
    exact h2.trans (Nat.mul_le_mul_right _ (by omega))
  have h3 : (i + 1) * g.Ns ≤ n - 1 := (Nat.le_div_iff_mul_le hNs).mp hi
  rw [Nat.add_mul, Nat.one_mul] at h3
  refine ⟨i, hit, hiN, by omega, ?_⟩
  have hbc : bcTimes pre k = (List.range (i + 1 - ⌈(g.N : ℚ) / g.Ns⌉₊)).map fun (j : Nat) =>
      ((effEnd L g.N g.Ns (j + 1) : Nat) : ℚ) / fs := by
    have e : (i : ℚ) * g.Ns / fs = ((i * g.Ns : Nat) : ℚ) / fs := by push_cast; ring
    rw [bcTimes_before hord hev k, (hall k hkn).2, hit, e, syncBcEff_filter hL0 hLNs hfs hi]
    rfl
  have hEJ : effEnd L g.N g.Ns (i + 1 - ⌈(g.N : ℚ) / g.Ns⌉₊) = i * g.Ns / L * L := by
    rw [show i + 1 - ⌈(g.N : ℚ) / g.Ns⌉₊ = (i - ⌈(g.N : ℚ) / g.Ns⌉₊) + 1 by omega]
    change (⌈(g.N : ℚ) / g.Ns⌉₊ + (i - ⌈(g.N : ℚ) / g.Ns⌉₊)) * g.Ns / L * L = _
    congr 3
    omega
  have hstep : ∀ j, effEnd L g.N g.Ns (j + 1) - effEnd L g.N g.Ns j ≤ g.N := by
    intro j
    cases j with
    | zero =>
      change (⌈(g.N : ℚ) / g.Ns⌉₊ + 0) * g.Ns / L * L - 0 ≤ g.N
      obtain ⟨R, hR⟩ := hNsN
      have hc : ⌈(g.N : ℚ) / g.Ns⌉₊ = R := by
        have hz : (g.Ns : ℚ) ≠ 0 := by exact_mod_cast hNs.ne'
        rw [hR]
        push_cast
        rw [mul_div_cancel_left₀ _ hz, Nat.ceil_natCast]
      rw [hc, Nat.add_zero, Nat.sub_zero, Nat.mul_comm R, ← hR]
      exact Nat.div_mul_le_self _ _
    | succ j =>
      obtain ⟨d1, d2⟩ := effEnd_diff (N := g.N) (Ns := g.Ns) (j := j) hL0
      change effEnd L g.N g.Ns (j + 2) - effEnd L g.N g.Ns (j + 1) ≤ g.N
      rcases hbuf with h | h
      · omega
      · rw [d2 h.1]; exact h.2
  have hsmall : ∀ j ≤ i + 1 - ⌈(g.N : ℚ) / g.Ns⌉₊, effEnd L g.N g.Ns j < n := fun j hj => effEnd_lt hn hNs (by omega)
  have hrun := h
  unfold GivenCfg.run at h
  rw [List.foldlM_append] at h
  obtain ⟨s1, h1, h⟩ := bind_ok_inv h
  obtain ⟨-, -, ops, ho, hs⟩ := run_keeps_eff (T := T) (E := effEnd L g.N g.Ns) hfs hb hN hL0 hx hxn (hg k) (hst k) rfl
    (effEnd_mono L g.N g.Ns) (effEnd_dvd L g.N g.Ns) hstep hM pre _ s1 hkeep hsmall hbc h1
  rw [hEJ] at hs
  have hup : netRun g.nb g.N g.Ns (ops ++ [.up q]) = .ok s.net := by
    rw [netRun_snoc, ho]
    obtain ⟨ops2, ho2, hr2⟩ := run_net [(t, q, .up)] s1 s h
    cases ho2 with
    | cons a b =>
      cases b
      rename_i op
      cases op with
      | bc j c => simp [evOp] at a
      | up j =>
        have : q = j := a.1
        subst this
        rw [List.foldlM_cons] at hr2
        obtain ⟨n1, hn1, hr2⟩ := bind_ok_inv hr2
        injection hr2 with hr2
        subst hr2
        exact hn1
  have hsince : sinceUp q (ops ++ [.up q]) = ([] : List (BufOp K)) := by
    unfold sinceUp
    rw [List.foldl_append]
    simp [BufOp.isUp]
  have huntil : untilUp q (ops ++ [.up q]) = ops ++ [(.up q : BufOp K)] := by
    unfold untilUp
    rw [hsince]
    simp
  have hnum : 0 < numUps q (ops ++ [(.up q : BufOp K)]) := by
    unfold numUps
    rw [List.countP_append]
    simp [BufOp.isUp]
  obtain ⟨f1, f2⟩ := C16_frame hnb hup hnum
  have hidx : idx < (s.net.z q).length := by rw [f1]; exact (List.getElem?_eq_some_iff.mp hk).1
  have f3 := f2 idx k _ hk (List.getElem?_eq_getElem hidx)
  have hsent : sent (ops ++ [(.up q : BufOp K)]) k = sent ops k := by
    unfold sent; simp
  rw [huntil, hsent, hs] at f3
  refine ⟨_, List.getElem?_eq_getElem hidx, f3, fun hle => ?_⟩
  obtain ⟨hl, pr, hp⟩ := f3
  generalize (s.net.z q)[idx] = col at hl hp
  have hd : i * g.Ns / L * L ≤ i * g.Ns := Nat.div_mul_le_self _ _
  generalize i * g.Ns / L * L = e at hle hp hd
  have hpl := congrArg List.length hp
  simp only [List.length_append, List.length_replicate, List.length_take, hl] at hpl
  have h5 := congrArg (List.drop e) hp
  rw [List.drop_append, List.drop_append, List.drop_eq_nil_of_le (by simp; omega), List.nil_append, List.length_replicate,
    List.drop_eq_nil_of_le (as := pr) (by omega), List.nil_append, show e - pr.length = 0 by omega, List.drop_zero] at h5
  rw [← h5]
  apply at0_ext
  · unfold frameAt; simp; omega
  · intro j hj
    simp only [List.length_drop, List.length_take] at hj
    unfold frameAt
    rw [at0_drop, at0_take (by omega), at0_take (by omega), at0_drop]

/-- What a node whose neighbours have one sensor and do not fuse observes at an update. -/
theorem single_obs_eff {g : GivenCfg K} {U : Strategy K} {n L : Nat} (hn : 0 < n) {fs : ℚ} (hfs : 0 < fs)
    (hf : inferFs (clockStamps fs n) = .ok fs) (nbs : List (List Nat))
    (hne : ∀ nb ∈ nbs, nb ≠ [] ∧ ∀ q ∈ nb, q < nbs.length) {seq sim : Bool}
    {ri : Nat} {first minF : Int} {fsInf : List ℚ} {out : List (Instant ℚ)} (hg : ∀ k, g.fs k = fs)
    (hst : ∀ k, g.stamps k = clockStamps fs n)
    (hb : g.bc = .few L true) (hL0 : 0 < L) (hLn : L < n) (hLNs : L ∣ g.Ns) (hNs : 0 < g.Ns)
    (hout : initEventsFC g.bc g.N g.Ns seq sim ri first minF (syncNodes fs n nbs) = .ok (out, fsInf))
    (hri : sim = true → ri < nbs.length) (hN : 2 ≤ g.N) (hNsN : g.Ns ∣ g.N) (gd : GoodNeighbours g.nb)
    {q : Nat} (hq : q < nbs.length) (hnb : ∀ k ∈ g.nb q, k < nbs.length) (hone : ∀ k ∈ g.nb q, (y k).length = 1)
    (hy : ∀ k < nbs.length, ∀ ch ∈ y k, ch.length = n) {M : Nat → Nat} (hM : ∀ k ∈ g.nb q, M k = 1)
    (href : g.refSensor = 0) (hfus : g.noFusion = true) {T : Nat} {a : AdaptSt K}
    (h : adaptRun U y (.init g T M) (flatEvents out) = .ok a) {i : Nat} {o : Obs K} (ho : (a.hist q)[i]? = some o) :
    ∃ j : Nat, j = ⌈(g.N : ℚ) / g.Ns⌉₊ + i ∧ o.t = (j : ℚ) * g.Ns / fs ∧ g.N ≤ j * g.Ns ∧ j * g.Ns < n ∧
      ∀ (c : Nat) (ch : List K),
      (y q ++ (g.nb q).flatMap y)[c]? = some ch → (o.loc ++ o.z)[c]? = some (frameAt ch (j * g.Ns - g.N) g.N) := by
  obtain ⟨pre, post, b, hev, hbr, hz⟩ := adaptRun_at h ho
  have hNe : upTimes (flatEvents out) q = everySep g.Ns fs ⌈(g.N : ℚ) / g.Ns⌉₊ ((n - 1) / g.Ns) := by
    obtain ⟨out', h3, h4, -⟩ := C87_schedule_efficient (N := g.N) (Ns := g.Ns) (L := L) hNs (by omega) hn hL0
      (Nat.le_of_dvd hNs hLNs) hLn hfs hf nbs hne (seq := seq) (sim := sim) (r := ri) first minF hri
    rw [← hb] at h3
    rw [hout] at h3
    injection h3 with h3
    injection h3 with h3
    subst h3
    exact (h4 q hq).1
  have hobs := C77_observed h q
  have hti : o.t = ((⌈(g.N : ℚ) / g.Ns⌉₊ + i : Nat) : ℚ) * g.Ns / fs ∧ i < (n - 1) / g.Ns - ⌈(g.N : ℚ) / g.Ns⌉₊ := by
    have h1 : ((a.hist q).map (·.t))[i]? = some o.t := by rw [List.getElem?_map, ho]; rfl
    rw [hobs.1, hNe] at h1
    unfold everySep at h1
    rw [List.getElem?_map] at h1
    cases hr : (List.range ((n - 1) / g.Ns - ⌈(g.N : ℚ) / g.Ns⌉₊))[i]? with
    | none => rw [hr] at h1; cases h1
    | some v =>
      obtain ⟨hlt, hv⟩ := List.getElem?_eq_some_iff.mp hr
      rw [List.getElem_range] at hv
      subst hv
      rw [hr] at h1
      injection h1 with h1
      exact ⟨h1.symm, by simpa using hlt⟩
  obtain ⟨ht, hilt⟩ := hti
  generalize hj : ⌈(g.N : ℚ) / g.Ns⌉₊ + i = j at ht
  have hjn : j * g.Ns < n := by
    have h1 : j < (n - 1) / g.Ns := by omega
    have h2 : j * g.Ns < (n - 1) / g.Ns * g.Ns := Nat.mul_lt_mul_of_pos_right h1 hNs
    have := Nat.div_mul_le_self (n - 1) g.Ns
    omega
  have hjN : g.N ≤ j * g.Ns := by
    have h1 : (g.N : ℚ) / g.Ns ≤ (⌈(g.N : ℚ) / g.Ns⌉₊ : ℚ) := Nat.le_ceil _
    rw [div_le_iff₀ (by exact_mod_cast hNs)] at h1
    have h2 : g.N ≤ ⌈(g.N : ℚ) / g.Ns⌉₊ * g.Ns := by exact_mod_cast h1
    exact h2.trans (Nat.mul_le_mul_right _ (by omega))
  refine ⟨j, rfl, ht, hjN, hjn, fun c ch hc => ?_⟩
  have hfl : ⌊o.t * fs⌋ = ((j * g.Ns : Nat) : Int) := by
    rw [ht, div_mul_cancel₀ _ hfs.ne']
    exact_mod_cast Int.floor_natCast (R := ℚ) (j * g.Ns)
  obtain ⟨fr, hfr, hloc⟩ := hobs.2.2.2 o (List.mem_of_getElem? ho)
  have hll : o.loc.length = (y q).length := by rw [hloc, List.length_map, (mapM_get hfr).1]
  by_cases hcl : c < (y q).length
  · rw [List.getElem?_append_left hcl] at hc
    rw [List.getElem?_append_left (by omega), hloc, List.getElem?_map]
    obtain ⟨p, hp, hF⟩ := (mapM_get hfr).2 c ch hc
    have hchl := hy q hq ch (List.mem_of_getElem? hc)
    rw [hp]
    rw [hb] at hF
    simp only [frameEnd] at hF
    rw [hg, hfl, localChunk_frame (by omega)] at hF
    injection hF with hF
    rw [← hF]
    rw [frameBefore_eq_frameAt ch hjN (by omega)]
    rfl
  · rw [List.getElem?_append_right (by omega)] at hc
    rw [List.getElem?_append_right (by omega), hll]
    obtain ⟨k, hk, hch⟩ := flatMap_single _ hone _ hc
    have hkm := List.mem_of_getElem? hk
    have hw := adaptRun_written (s0 := .init g.N g.refSensor T M) (fun _ => rfl) _ hbr
    have hfix := hw.1.fixed
    unfold GivenCfg.fixed at hfix
    generalize hb' : b.cfg = f at *
    have e1 : f.N = g.N := by rw [hfix]
    have e2 : f.Ns = g.Ns := by rw [hfix]
    have e3 : f.fs = g.fs := by rw [hfix]
    have e4 : f.bc = g.bc := by rw [hfix]
    have e5 : f.nb = g.nb := by rw [hfix]
    have e6 : f.refSensor = g.refSensor := by rw [hfix]
    have e7 : f.noFusion = g.noFusion := by rw [hfix]
    have e0 : f.stamps = g.stamps := by rw [hfix]
    obtain ⟨i', h1, h2, h3, col, h4, -, h6⟩ := eff_neighbour_frame (g := f) (y := y) (M := M) hn hfs hf nbs hne
      (fun k => by rw [e3]; exact hg k) (fun k => by rw [e0]; exact hst k)
      (by rw [e4]; exact hb) hL0 hLn (by rw [e2]; exact Nat.le_of_dvd hNs hLNs) (by rw [e4, e1, e2]; exact hout) hri
      (by rw [e1]; exact hN) (by rw [e1, e2]; exact hNsN)
      (by rw [e1, e2]; exact .inr ⟨hLNs, Nat.le_of_dvd (by omega) hNsN⟩)
      (by rw [e5]; exact gd) (hnb k hkm) (by rw [e6, href]; exact hch)
      (hy k (hnb k hkm) ch (List.mem_of_getElem? hch)) (by rw [hM k hkm, hone k hkm]) hq (by rw [e5]; exact hk) hev
      (.inl ⟨by rw [e7]; exact hfus, hone k hkm⟩) (by rw [e1, e6]; exact hw.2)
    have e8 : i' = j := by
      rw [ht, e2] at h1
      have hq : ((j : ℚ)) = i' := by
        have hz : (g.Ns : ℚ) ≠ 0 := by exact_mod_cast hNs.ne'
        field_simp at h1
        exact h1
      exact_mod_cast hq.symm
    subst e8
    have e9 : i' * f.Ns / L * L = i' * g.Ns := by
      rw [e2]
      exact Nat.div_mul_cancel (Dvd.dvd.mul_left hLNs i')
    rw [hz, h4, h6 (by rw [e9, e1]; exact hjN), e9, e1]

end
end Danse
