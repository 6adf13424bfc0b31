import Verif.Proofs.TIRun17

/-!
# Helper lemmas: the history of a node in a TI-DANSE run with efficient few-sample broadcasts
-/

set_option linter.unusedSectionVars false

namespace Danse
section
variable {K : Type} [Field K]

theorem lastFrame_length (N : Nat) (S : List K) : (lastFrame N S).length = N := by
  simp [lastFrame, frameBefore]

theorem lastFrame_snoc [StarRing K] [DecidableEq K] {N : Nat} (S : List K) {c : List K} (hc : c.length ≤ N) :
    lastFrame N (S ++ c) = (lastFrame N S).drop c.length ++ c := by
  have hl : ((lastFrame N S).drop c.length).length = N - c.length := by simp [lastFrame_length]
  apply at0_ext
  · rw [lastFrame_length, List.length_append, hl]; omega
  · intro j hj
    rw [lastFrame_length] at hj
    rw [at0_append (x := (lastFrame N S).drop c.length), hl]
    unfold lastFrame
    rw [at0_frameBefore hj, List.length_append]
    by_cases h : j < N - c.length
    · rw [if_pos h, at0_drop, at0_frameBefore (by omega)]
      by_cases h2 : N ≤ S.length + c.length + j
      · rw [if_pos h2, if_pos (by omega), at0_append, if_pos (by omega)]
        congr 1; omega
      · rw [if_neg h2, if_neg (by omega)]
    · rw [if_neg h, if_pos (by omega), at0_append, if_neg (by omega)]
      congr 1
      omega

theorem effStream_first {N Ns R : Nat} (hR : N = R * Ns) (x : List K) : effStream N Ns x R = x.take Ns := by
  unfold effStream
  rw [List.drop_eq_nil_of_le (by simp; omega), List.append_nil]

theorem effStream_next {N Ns i : Nat} (hi : N ≤ i * Ns) (x : List K) (hx : (i + 1) * Ns ≤ x.length) :
    effStream N Ns x (i + 1) = effStream N Ns x i ++ frameAt x (i * Ns) Ns := by
  unfold effStream frameAt
  rw [List.append_assoc]
  congr 1
  have h1 : (i + 1) * Ns = i * Ns + Ns := by rw [Nat.add_mul, Nat.one_mul]
  rw [h1, List.take_add, List.drop_append_of_le_length (by rw [List.length_take]; omega)]

/-- Once a whole frame has followed the first exchange, frames are aligned. -/
theorem effStream_aligned [StarRing K] [DecidableEq K] {N Ns i : Nat} (hi : 2 * N ≤ i * Ns) {x : List K}
    (hx : i * Ns ≤ x.length) : lastFrame N (effStream N Ns x i) = frameBefore N x (i * Ns) := by
  have hl : (effStream N Ns x i).length = min Ns x.length + (i * Ns - N) := by
    unfold effStream
    simp
    omega
  apply at0_ext (by rw [lastFrame_length, frameBefore_length])
  intro j hj
  rw [lastFrame_length] at hj
  unfold lastFrame
  rw [at0_frameBefore hj, at0_frameBefore hj, if_pos (by omega), if_pos (by omega), hl]
  unfold effStream
  rw [at0_append, if_neg (by rw [List.length_take]; omega), at0_drop, at0_take (by rw [List.length_take]; omega),
    List.length_take]
  congr 1
  omega
end

section
variable {K : Type} [Field K] [StarRing K] [DecidableEq K] {g : GivenCfg K}

theorem tiFuse_keeps_eff {L l : Nat} (hb : g.bc = .few L true) (hN : 2 ≤ g.N) {yk : List (List K)}
    {x : List K} {e m : Nat} (hx : yk[g.refSensor]? = some x) (hy : ∀ ch ∈ yk, ch.length = m) {nd nd' : TINode K}
    {buf buf' : List K} (hk : TIKeeps g yk.length nd) {t : ℚ} {k : Nat}
    (hl : bufferSizeEff (g.stamps k) nd.lastBc t L = .ok l) (hlN : l ≤ g.N)
    (ht : (g.noFusion = true ∧ yk.length = 1) ∨ |t| < g.upTDEvery) (he : ⌊t * g.fs k⌋ = (e : Int)) (hLe : l ≤ e)
    (hem : e ≤ m) (h : tiFuse g yk t k nd buf = .ok (nd', buf')) :
    TIKeeps g yk.length nd' ∧ nd'.hist = nd.hist ∧ nd'.lastBc = t ∧ buf' = frameAt x (e - l) l := by
  unfold tiFuse at h
  obtain ⟨fr, h1, h2⟩ := Except.bind_ok h
  have h3 := fuse_frames (N := g.N) (fun ch hch => by
    have := hy ch hch
    exact ⟨by rw [he]; omega, by rw [he]; omega⟩) h1
  rw [if_neg (by
    simp only [List.any_eq_true, decide_eq_true_eq, not_exists, not_and, not_lt]
    exact fun x hx => (h3 x hx).ge)] at h2
  rw [hb] at h2
  simp only at h2
  obtain ⟨l', hl', h4⟩ := Except.bind_ok h2
  obtain ⟨w, hw, h4⟩ := Except.bind_ok h4
  obtain ⟨z, hz, h6⟩ := Except.bind_ok h4
  have hll : l' = l := by
    unfold tiCurrL at hl'
    rw [if_pos rfl, hl] at hl'
    injection hl' with hl'
    exact hl'.symm
  subst hll
  have hnot : ¬ (|t - nd.lastUp| ≥ g.upTDEvery ∧ ¬ (g.noFusion = true ∧ yk.length = 1)) := by
    rintro ⟨ha, hc⟩
    rcases hk.why with h | h
    · exact hc h
    · rcases ht with h' | h'
      · exact hc h'
      · rw [h, sub_zero] at ha
        exact absurd h' (not_lt.mpr ha)
  have hw' : w = nd.wIR := by
    unfold tiBcFilter at hw
    rw [if_neg hnot] at hw
    injection hw with hw; exact hw.symm
  subst hw'
  obtain ⟨hfl, hfi⟩ := mapM_get h1
  obtain ⟨c, hc, hcx⟩ := hfi _ _ hx
  unfold chunkForBroadcast at hcx
  have hxm : x.length = m := hy x (List.mem_of_getElem? hx)
  rw [he, localChunk_frame (by omega)] at hcx
  injection hcx with hcx
  have hz' := few_dirac (N := g.N) (L := l') (M := yk.length) (ref := g.refSensor) hN hlN
    (yq := fr.map (·.1)) (by simp [hfl]) (b := frameBefore g.N x e)
    (by rw [List.getElem?_map, hc, ← hcx]; rfl) (by
      intro b hb
      obtain ⟨a, ha, rfl⟩ := List.mem_map.mp hb
      rw [h3 a ha]
      omega)
  rw [hk.ir, hz'] at hz
  injection hz with hz
  injection h6 with h6
  injection h6 with h6 h7
  subst h6
  refine ⟨⟨hk.ir, ?_⟩, rfl, rfl, ?_⟩
  · rcases hk.why with h | h
    · exact .inl h
    · rcases ht with h' | h'
      · exact .inl h'
      · right
        simp only
        rw [if_neg]
        · exact h
        · rw [h, sub_zero]; exact not_le.mpr h'
  · rw [← h7, ← hz]
    apply at0_ext
    · unfold frameAt; simp; omega
    · intro i hi
      have hi' : i < l' := by simpa using hi
      rw [at0_range_map hi', at0_frameBefore (by omega), if_pos (by omega)]
      unfold frameAt
      rw [at0_take hi', at0_drop]
      congr 1; omega

variable {n : Nat} {U : TIStrategy n K} {fs : ℚ} {m : Nat} {y : Fin n → List (List K)}

/-- A direct run with efficient few-sample broadcasts, in which the nodes keep their initial broadcast
filters. -/
theorem eff_history {L R : Nat} (hg : SyncTIEff g fs m L y) (hR : g.N = R * g.Ns) {x : Fin n → List K}
    (hx : ∀ q, (y q)[g.refSensor]? = some (x q))
    (hkeep : ∀ q, (g.noFusion = true ∧ (y q).length = 1) ∨
      ∀ t ∈ everySep g.Ns fs R ((m - 1) / g.Ns), |t| < g.upTDEvery)
    {ws : List Work} (hws : ws.map (·.t) = everySep g.Ns fs R ((m - 1) / g.Ns))
    (hw : ∀ w ∈ ws, w.exchange = true ∧ ∀ k, (w.ups k).isSome = true ↔
      k < n ∧ w.t ∈ everySep g.Ns fs R ((m - 1) / g.Ns))
    {T : Nat} {ext : Fin n → List (List K)} {b : TIView n K}
    (h : DirectRun g U y (.init g.N g.refSensor T y ext) ws b) (k : Fin n) :
    (b.node k).hist.map TIObs.seen = (List.range ((m - 1) / g.Ns - R)).map fun (j : Nat) =>
      observedEff g.N g.Ns fs y x k (R + j) := by
  have hN0 : 0 < g.Ns := hg.shift
  have hNo := hg.overlap
  have hR2 : 2 ≤ R := by
    by_contra hc
    have : R * g.Ns ≤ 1 * g.Ns := Nat.mul_le_mul_right _ (by omega)
    omega
  generalize hB : (m - 1) / g.Ns = B at *
  have hlen : ws.length = B - R := by
    have := congrArg List.length hws
    simpa [everySep] using this
  have hue : ∀ s, updEnd g s = s := by intro s; unfold updEnd; rw [hg.bc]
  have key := directRun_inv (g := g) (U := U) (y := y) (fun j v => ∀ k : Fin n,
      TIKeeps g (y k).length (v.node k) ∧
      (v.node k).lastBc = (((if j = 0 then 0 else (R + j - 1) * g.Ns : Nat)) : ℚ) / fs ∧
      v.frame k = lastFrame g.N (if j = 0 then [] else effStream g.N g.Ns (x k) (R + j - 1)) ∧
      (v.node k).hist.map TIObs.seen = (List.range j).map fun (j : Nat) =>
        (((R + j : Nat) : ℚ) * g.Ns / fs, (y k).map (frameBefore g.N · (updEnd g ((R + j) * g.Ns))),
          sumOthers g.N (fun q => lastFrame g.N (effStream g.N g.Ns (x q) (R + j))) k))
    (j := 0) (ws := ws) (a := .init g.N g.refSensor T y ext) (b := b) ?_ ?_ h
  · obtain ⟨_, _, _, h3⟩ := key k
    rw [h3, hlen, Nat.zero_add]
    simp only [hue]
    rfl
  · intro k
    refine ⟨⟨rfl, .inr rfl⟩, ?_, ?_, rfl⟩
    · simp [TIView.init, TINode.init]
    · rw [if_pos rfl]
      unfold lastFrame
      rw [List.length_nil, frameBefore_zero]
      rfl
  · intro i w a b hiw hP hd k
    rw [Nat.zero_add] at hP ⊢
    have hil : i < ws.length := (List.getElem?_eq_some_iff.mp hiw).1
    have hwm : w ∈ ws := List.mem_of_getElem? hiw
    have hwt : w.t = ((R + i : Nat) : ℚ) * g.Ns / fs := by
      have h1 : (ws.map (·.t))[i]? = some w.t := by rw [List.getElem?_map, hiw]; rfl
      rw [hws] at h1
      unfold everySep at h1
      rw [List.getElem?_map, List.getElem?_range (by omega)] at h1
      injection h1 with h1
      rw [← h1]
    have hwt' : w.t = (((R + i) * g.Ns : Nat) : ℚ) / fs := by rw [hwt]; push_cast; ring
    obtain ⟨v, hex, hupd⟩ := hd
    rw [(hw w hwm).1, if_pos rfl] at hex
    have hem := mul_lt_of_lt_div hg.pos hg.shift (j := R + i) (by omega)
    have hNi : g.N ≤ (R + i) * g.Ns := by rw [hR]; exact Nat.mul_le_mul_right _ (by omega)
    have hfuse : ∀ q : Fin n, TIKeeps g (y q).length (v.node q) ∧ (v.node q).hist = (a.node q).hist ∧
        (v.node q).lastBc = w.t ∧
        v.frame q = lastFrame g.N (effStream g.N g.Ns (x q) (R + i)) := by
      intro q
      obtain ⟨h1, h2, _⟩ := hex q
      obtain ⟨p1, p2, p3, _⟩ := hP q
      have hxl : (x q).length = m := hg.signals q (x q) (List.mem_of_getElem? (hx q))
      have ht : (g.noFusion = true ∧ (y q).length = 1) ∨ |w.t| < g.upTDEvery := by
        rcases hkeep q with h | h
        · exact .inl h
        · right
          apply h
          rw [hwt, mem_everySep hN0 hg.rate]
          omega
      have hfl : ⌊w.t * g.fs q⌋ = (((R + i) * g.Ns : Nat) : Int) := by
        rw [hg.rates, hwt, floor_everySep hg.rate]
      by_cases hi0 : i = 0
      · subst hi0
        rw [if_pos rfl] at p2 p3
        have e0 : (R + 0) * g.Ns = g.N := by rw [Nat.add_zero, hR]
        rw [e0] at hem hfl hwt'
        obtain ⟨k1, k2, k3, k4⟩ := tiFuse_keeps_eff (l := g.N) hg.bc (by omega) (hx q) (hg.signals q) p1 (by
          rw [hg.stamps, p2, hwt', bufferSizeEff_clock hg.L_pos hg.rate (Nat.zero_le _) hem (by
            rw [Nat.sub_zero, hR]; exact hg.divides.mul_left _)]
          rfl) (le_refl _) ht hfl (le_refl _) hem.le h1
        refine ⟨k1, k2, k3, ?_⟩
        rw [h2, Nat.add_zero, effStream_first hR]
        unfold newFrame
        rw [k4, p3, Nat.sub_self]
        have e1 : (frameAt (x q) 0 g.N).take g.Ns = (x q).take g.Ns := by
          unfold frameAt
          rw [List.drop_zero, List.take_take, Nat.min_eq_left hNo.le]
        have e2 : ((x q).take g.Ns).length = g.Ns := by rw [List.length_take]; omega
        have := lastFrame_snoc (N := g.N) [] (c := (x q).take g.Ns) (by omega)
        rw [e2, List.nil_append] at this
        rw [e1, this]
      · rw [if_neg hi0] at p2 p3
        obtain ⟨i', rfl⟩ : ∃ i', i = i' + 1 := ⟨i - 1, by omega⟩
        have e0 : R + (i' + 1) - 1 = R + i' := by omega
        rw [e0] at p2 p3
        have e1 : (R + (i' + 1)) * g.Ns = (R + i') * g.Ns + g.Ns := by rw [← Nat.add_assoc, Nat.add_mul _ 1, Nat.one_mul]
        rw [e1] at hem hfl hwt'
        obtain ⟨k1, k2, k3, k4⟩ := tiFuse_keeps_eff (l := g.Ns) hg.bc (by omega) (hx q) (hg.signals q) p1 (by
          rw [hg.stamps, p2, hwt', bufferSizeEff_clock hg.L_pos hg.rate (by omega) hem (by
            rw [Nat.add_sub_cancel_left]; exact hg.divides), Nat.add_sub_cancel_left]) hNo.le ht hfl
            (by omega) hem.le h1
        refine ⟨k1, k2, k3, ?_⟩
        rw [h2, ← Nat.add_assoc, effStream_next (by rw [hR]; exact Nat.mul_le_mul_right _ (by omega)) _ (by
          rw [Nat.add_mul _ 1, Nat.one_mul]; omega)]
        unfold newFrame
        rw [k4, p3, Nat.add_sub_cancel]
        have e2 : (frameAt (x q) ((R + i') * g.Ns) g.Ns).length = g.Ns := by
          unfold frameAt; rw [List.length_take, List.length_drop]; omega
        rw [lastFrame_snoc (N := g.N) _ (c := frameAt (x q) ((R + i') * g.Ns) g.Ns) (by omega), e2,
          List.take_of_length_le (by omega)]
    obtain ⟨f1, f2, f3, f4⟩ := hfuse k
    obtain ⟨u1, u2, u3, u4, _⟩ := updates_hist' (A := R) (B := B) (i := R + i)
      (O := fun i => sumOthers g.N (fun q => lastFrame g.N (effStream g.N g.Ns (x q) i)) k)
      hg.shift hg.overlap hg.pos hg.rate hg.rates hg.signals hwt
      hB.symm (by omega) ((hw w hwm).2 k) (by rw [hg.bc]; intro h; cases h) hupd (by
        rw [f2, (hP k).2.2.2, Nat.add_sub_cancel_left]) (by
        intro _
        rw [(hex k).2.2]
        unfold sumOthers
        congr 1
        funext t
        apply Finset.sum_congr rfl
        intro q _
        rw [(hfuse q).2.2.2])
    refine ⟨⟨by rw [u2]; exact f1.ir, by rw [u3]; exact f1.why⟩, ?_, ?_, ?_⟩
    · rw [u4, f3, hwt', if_neg (by omega), show R + (i + 1) - 1 = R + i by omega]
    · rw [hupd.2.1, if_neg (by omega), show R + (i + 1) - 1 = R + i by omega]
      exact f4
    · rw [u1, show R + i + 1 - R = i + 1 by omega]

end
end Danse
