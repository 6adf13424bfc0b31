import Verif.Proofs.TIRun12
import Verif.Proofs.Centr6
import Verif.Spec.TIEff

/-!
# Helper lemmas: TI-DANSE with efficient few-sample broadcasts
-/

set_option linter.unusedSectionVars false

namespace Danse

theorem tiInstants_eff {N Ns n L : Nat} (hNs : 0 < Ns) (hN : 0 < N) (hn : 0 < n) (hL : 0 < L) (hLNs : L ≤ Ns) (hLn : L < n)
    {fs : ℚ} (hfs : 0 < fs) (nbs : List (List Nat)) (hne : ∀ nb ∈ nbs, nb ≠ [] ∧ ∀ q ∈ nb, q < nbs.length) :
    tiInstants (.few L true) N Ns (syncNodes fs n nbs) (List.replicate nbs.length fs)
        (List.replicate nbs.length (((n - 1 : Nat) : ℚ) / fs)) =
      .ok (List.replicate nbs.length (everySep Ns fs ⌈(N : ℚ) / Ns⌉₊ ((n - 1) / Ns)),
        List.replicate nbs.length (syncBcEff L N Ns n fs)) := by
  have h := fcInstants_eff hNs hN hn hL hLNs hLn hfs nbs hne
  unfold fcInstants at h
  unfold tiInstants
  exact h

theorem syncBcEff_pos {L N Ns n : Nat} (hL : 0 < L) (hLNs : L ≤ Ns) (hN : 0 < N) {fs : ℚ} (hfs : 0 < fs) :
    ∀ t ∈ syncBcEff L N Ns n fs, 0 < t := by
  intro t ht
  unfold syncBcEff at ht
  obtain ⟨j, _, rfl⟩ := List.mem_map.mp ht
  have h1 : 1 ≤ ⌈(N : ℚ) / Ns⌉₊ := by
    rw [Nat.one_le_iff_ne_zero, ← Nat.pos_iff_ne_zero, Nat.ceil_pos]
    have h1 : (0 : ℚ) < N := by exact_mod_cast hN
    have h2 : (0 : ℚ) < Ns := by exact_mod_cast (by omega : 0 < Ns)
    positivity
  have h2 : L ≤ (⌈(N : ℚ) / Ns⌉₊ + j) * Ns := hLNs.trans (Nat.le_mul_of_pos_left _ (by omega))
  have h3 : 1 ≤ (⌈(N : ℚ) / Ns⌉₊ + j) * Ns / L := (Nat.le_div_iff_mul_le hL).mpr (by omega)
  have h4 : 0 < (⌈(N : ℚ) / Ns⌉₊ + j) * Ns / L * L := Nat.mul_pos h3 hL
  have h5 : (0 : ℚ) < (((⌈(N : ℚ) / Ns⌉₊ + j) * Ns / L * L : Nat) : ℚ) := by exact_mod_cast h4
  exact div_pos h5 hfs

theorem syncBcEff_dvd {L N Ns n : Nat} (hd : L ∣ Ns) {fs : ℚ} :
    syncBcEff L N Ns n fs = everySep Ns fs ⌈(N : ℚ) / Ns⌉₊ ((n - 1) / Ns) := by
  unfold syncBcEff everySep
  apply List.map_congr_left
  intro j _
  rw [Nat.div_mul_cancel (hd.mul_left _)]
  push_cast
  ring

section
variable {n : Nat} {K : Type} [Field K] [StarRing K] [DecidableEq K] {g : GivenCfg K} {U : TIStrategy n K}
  {fs : ℚ} {m : Nat} {y : Fin n → List (List K)} {trees : List (TreeObj n)}

/-- A run of a schedule that was built, if enough samples are fused at each exchange. -/
theorem run_built {a : EvArgs ℚ} {ex : List ℚ} {out : List (Instant ℚ)} (ht : TITimes n a ex)
    (hb : buildEvents a = .ok out) (htr : List.Forall₂ OrientedTree trees a.orderings) (hNs : g.Ns < g.N)
    (T : Nat) (ext : Fin n → List (List K)) (up0 : Fin n → List (Fin n))
    (hbuf : ∀ pre i post, out = pre ++ i :: post → (∃ e ∈ i.evs, e.ty = .fu) → ∀ s,
      tiRun g U y trees (.init g.N g.refSensor T y ext up0) pre = .ok s → ∀ (k : Fin n) r,
      tiFuse g (y k) i.t k (s.node k) (s.net.buf k) = .ok r → g.Ns ≤ r.2.length) :
    (∀ s, tiRun g U y trees (.init g.N g.refSensor T y ext up0) out = .ok s →
      DirectRun g U y (.init g.N g.refSensor T y ext) (worksOf out) s.view) ∧
    ∀ b, DirectRun g U y (.init g.N g.refSensor T y ext) (worksOf out) b →
      ∃ s, tiRun g U y trees (.init g.N g.refSensor T y ext up0) out = .ok s ∧ s.view = b := by
  have hcov := orientedTrees_cover htr
  have h := run_direct (U := U) htr hNs (built_instants ht hb rfl hcov)
    (s0 := TISt.init g.N g.refSensor T y ext up0) hbuf (by simp [TISt.init]) rfl
  have hv : (TISt.init g.N g.refSensor T y ext up0).view = TIView.init g.N g.refSensor T y ext := rfl
  rw [hv] at h
  constructor
  · intro s hs
    exact (directRun_works _ _ _).mp (h.1 s hs).1
  · intro b hb
    exact h.2 b ((directRun_works _ _ _).mpr hb)

theorem tiFuse_lastBc {yk : List (List K)} {t : ℚ} {k : Nat} {nd : TINode K} {buf : List K}
    {r : TINode K × List K} (h : tiFuse g yk t k nd buf = .ok r) : r.1.lastBc = nd.lastBc ∨ r.1.lastBc = t := by
  unfold tiFuse at h
  obtain ⟨fr, h1, h2⟩ := Except.bind_ok h
  split at h2
  · cases h2; exact .inl rfl
  · revert h2
    cases g.bc with
    | whole =>
      intro h2
      obtain ⟨p, _, h4⟩ := Except.bind_ok h2
      obtain ⟨z, h5, h6⟩ := Except.bind_ok h4
      cases h6
      exact .inl rfl
    | few L eff =>
      intro h2
      obtain ⟨l, hl, h4⟩ := Except.bind_ok h2
      obtain ⟨p, _, h4⟩ := Except.bind_ok h4
      obtain ⟨z, h5, h6⟩ := Except.bind_ok h4
      cases h6
      cases eff
      · exact .inl rfl
      · exact .inr rfl

/-- The last broadcast instant only changes at a fusion. -/
theorem stepEv_lastBc {t : ℚ} {s s' : TISt n K} {e : OutEv} (h : tiStepEv g U y trees t s e = .ok s') (k : Fin n) :
    (s'.node k).lastBc = (s.node k).lastBc ∨ (e.ty = .fu ∧ (s'.node k).lastBc = t) := by
  unfold tiStepEv at h
  cases hty : e.ty with
  | tr =>
    rw [hty] at h
    simp only at h
    split at h
    · cases h
    · cases h; exact .inl rfl
  | fu =>
    rw [hty] at h
    simp only at h
    split at h
    · obtain ⟨r, h1, h2⟩ := Except.bind_ok h
      cases h2
      simp only
      by_cases hk : k = ⟨e.node, by assumption⟩
      · subst hk
        rw [Function.update_self]
        rcases tiFuse_lastBc h1 with h3 | h3
        · exact .inl h3
        · exact .inr ⟨by first | rfl | trivial, h3⟩
      · rw [Function.update_of_ne hk]
        exact .inl rfl
    · cases h
  | bc =>
    rw [hty] at h
    simp only at h
    split at h
    · split at h
      · cases h
      · obtain ⟨r, h1, h2⟩ := Except.bind_ok h
        cases h2
        exact .inl rfl
    · cases h
  | re =>
    rw [hty] at h
    simp only at h
    split at h
    · obtain ⟨r, h1, h2⟩ := Except.bind_ok h
      cases h2
      exact .inl rfl
    · cases h
  | up =>
    rw [hty] at h
    simp only at h
    split at h
    · obtain ⟨r, h1, h2⟩ := Except.bind_ok h
      cases h2
      simp only
      by_cases hk : k = ⟨e.node, by assumption⟩
      · subst hk
        rw [Function.update_self]
        exact .inl (tiUpdate_lastBc h1)
      · rw [Function.update_of_ne hk]
        exact .inl rfl
    · cases h

theorem stepEvs_lastBc {t : ℚ} : ∀ {evs : List OutEv} {s s' : TISt n K},
    evs.foldlM (tiStepEv g U y trees t) s = .ok s' → ∀ k : Fin n,
    (s'.node k).lastBc = (s.node k).lastBc ∨ ((∃ e ∈ evs, e.ty = .fu) ∧ (s'.node k).lastBc = t) := by
  intro evs
  induction evs with
  | nil => intro s s' h k; injection h with h; subst h; exact .inl rfl
  | cons e evs ih =>
    intro s s' h k
    rw [List.foldlM_cons] at h
    obtain ⟨s1, h1, h2⟩ := Except.bind_ok h
    rcases ih h2 k with h3 | ⟨⟨e', he', h3⟩, h4⟩
    · rw [h3]
      rcases stepEv_lastBc h1 k with h4 | ⟨h4, h5⟩
      · exact .inl h4
      · exact .inr ⟨⟨e, by simp, h4⟩, h5⟩
    · exact .inr ⟨⟨e', by simp [he'], h3⟩, h4⟩

/-- The last broadcast instant of a node is the initial one or the time of an earlier exchange. -/
theorem run_lastBc {s0 : TISt n K} {pre : List (Instant ℚ)} : ∀ {s : TISt n K}, tiRun g U y trees s0 pre = .ok s →
    ∀ k : Fin n, (s.node k).lastBc = (s0.node k).lastBc ∨
      ∃ i ∈ pre, (∃ e ∈ i.evs, e.ty = .fu) ∧ (s.node k).lastBc = i.t := by
  induction pre using List.reverseRecOn with
  | nil => intro s h k; injection h with h; subst h; exact .inl rfl
  | append_singleton pre i ih =>
    intro s h k
    unfold tiRun at h
    rw [List.foldlM_append] at h
    obtain ⟨s1, h1, h⟩ := Except.bind_ok h
    rw [List.foldlM_cons] at h
    obtain ⟨s2, h2, h⟩ := Except.bind_ok h
    injection h with h
    subst h
    rcases stepEvs_lastBc h2 k with h3 | ⟨h3, h4⟩
    · rw [h3]
      rcases ih h1 k with h4 | ⟨i', h4, h5⟩
      · exact .inl h4
      · exact .inr ⟨i', by simp [h4], h5⟩
    · exact .inr ⟨i, by simp, h3, h4⟩

theorem tiFuse_length_eff {L : Nat} (hb : g.bc = .few L true) {yk : List (List K)} {t : ℚ} {k : Nat} {nd : TINode K}
    {buf : List K} {r : TINode K × List K}
    (hy : ∀ ch ∈ yk, 0 ≤ ⌊t * g.fs k⌋ ∧ ⌊t * g.fs k⌋ ≤ ch.length)
    (h : tiFuse g yk t k nd buf = .ok r) :
    bufferSizeEff (g.stamps k) nd.lastBc t L = .ok r.2.length := by
  unfold tiFuse at h
  obtain ⟨fr, h1, h2⟩ := Except.bind_ok h
  have h3 := fuse_frames hy h1
  rw [if_neg (by
    simp only [List.any_eq_true, decide_eq_true_eq, not_exists, not_and, not_lt]
    exact fun x hx => (h3 x hx).ge)] at h2
  rw [hb] at h2
  simp only at h2
  obtain ⟨l, hl, h4⟩ := Except.bind_ok h2
  obtain ⟨p, _, h4⟩ := Except.bind_ok h4
  obtain ⟨z, h5, h6⟩ := Except.bind_ok h4
  cases h6
  simp only
  rw [fewSamples_length h5]
  exact hl

theorem bufferSizeEff_clock {L m a b : Nat} (hL : 0 < L) (hfs : 0 < fs) (hab : a ≤ b) (hb : b < m) (hd : L ∣ b - a) :
    bufferSizeEff (clockStamps fs m) ((a : ℚ) / fs) ((b : ℚ) / fs) L = .ok (b - a) := by
  unfold bufferSizeEff
  rw [if_neg (by omega), clock_count hfs hab hb, Nat.mul_div_cancel' hd]

theorem everySep_mem {sep : Nat} {fs : ℚ} {a b : Nat} {t : ℚ} (h : t ∈ everySep sep fs a b) :
    ∃ i, a ≤ i ∧ i < b ∧ t = ((i * sep : Nat) : ℚ) / fs := by
  obtain ⟨j, hj, rfl⟩ := List.mem_map.mp h
  have := List.mem_range.mp hj
  exact ⟨a + j, by omega, by omega, by push_cast; ring⟩

theorem SyncTIEff.pos {L : Nat} (h : SyncTIEff g fs m L y) : 0 < m := by
  by_contra hc
  have hm : m = 0 := by omega
  have := h.update
  unfold everySep at this
  rw [hm] at this
  simp at this

theorem SyncTIEff.L_pos {L : Nat} (h : SyncTIEff g fs m L y) : 0 < L :=
  Nat.pos_of_dvd_of_pos h.divides h.shift

theorem SyncTIEff.frames_pos {L : Nat} (h : SyncTIEff g fs m L y) : 1 ≤ ⌈(g.N : ℚ) / g.Ns⌉₊ := by
  rw [Nat.one_le_iff_ne_zero, ← Nat.pos_iff_ne_zero, Nat.ceil_pos]
  have h1 : (0 : ℚ) < g.N := by have := h.overlap; exact_mod_cast (by omega : 0 < g.N)
  have h2 : (0 : ℚ) < g.Ns := by exact_mod_cast h.shift
  positivity

theorem SyncTIEff.L_lt {L : Nat} (h : SyncTIEff g fs m L y) : L < m := by
  obtain ⟨t, ht⟩ := List.exists_mem_of_ne_nil _ h.update
  obtain ⟨i, h1, h2, _⟩ := everySep_mem ht
  have h3 := mul_lt_of_lt_div h.pos h.shift (j := i) h2
  have h4 := Nat.le_of_dvd h.shift h.divides
  have h5 := h.frames_pos
  have h6 : g.Ns ≤ i * g.Ns := Nat.le_mul_of_pos_left _ (by omega)
  omega

/-- At each exchange at least `Ns` samples are fused. -/
theorem eff_enough {L : Nat} (hg : SyncTIEff g fs m L y) {a : EvArgs ℚ} {out : List (Instant ℚ)}
    (ht : TITimes n a (everySep g.Ns fs ⌈(g.N : ℚ) / g.Ns⌉₊ ((m - 1) / g.Ns)))
    (hb : buildEvents a = .ok out) (hcov : ∀ o ∈ a.orderings, CoversNodes n o)
    (T : Nat) (ext : Fin n → List (List K)) (up0 : Fin n → List (Fin n)) :
    ∀ pre i post, out = pre ++ i :: post → (∃ e ∈ i.evs, e.ty = .fu) → ∀ s,
      tiRun g U y trees (.init g.N g.refSensor T y ext up0) pre = .ok s → ∀ (k : Fin n) r,
      tiFuse g (y k) i.t k (s.node k) (s.net.buf k) = .ok r → g.Ns ≤ r.2.length := by
  intro pre i post ho hfu s hs k r hr
  have hcov' : ∀ o ∈ a.orderings, CoversNodes a.up_t.length o := by rw [ht.nodes]; exact hcov
  obtain ⟨hsort, _, _, hdel⟩ := C01_exactly_once hb fun _ => hcov'
  have hmem : ∀ i' ∈ out, (∃ e ∈ i'.evs, e.ty = .fu) →
      ∃ j, ⌈(g.N : ℚ) / g.Ns⌉₊ ≤ j ∧ j < (m - 1) / g.Ns ∧ i'.t = ((j * g.Ns : Nat) : ℚ) / fs := by
    rintro i' hi' ⟨e, he, hty⟩
    have hm : (i'.t, e.node, EvType.fu) ∈ delivered out := mem_delivered.mpr ⟨i', hi', rfl, e, he, rfl, hty⟩
    rw [hdel, scheduled_ex ht (by simp)] at hm
    exact everySep_mem hm.2
  obtain ⟨j, hj1, hj2, hjt⟩ := hmem i (by rw [ho]; simp) hfu
  have hjm := mul_lt_of_lt_div hg.pos hg.shift hj2
  have hlen := tiFuse_length_eff hg.bc (fun ch hch => by
    rw [hg.rates, hjt, div_mul_cancel₀ _ hg.rate.ne', Int.floor_natCast, hg.signals k ch hch]
    omega) hr
  rw [hg.stamps, hjt] at hlen
  have hA := hg.frames_pos
  rcases run_lastBc hs k with h0 | ⟨i', hi', hfu', h0⟩
  · have h0 : (s.node k).lastBc = ((0 : Nat) : ℚ) / fs := by
      rw [h0]
      simp [TISt.init, TINode.init]
    rw [h0, bufferSizeEff_clock hg.L_pos hg.rate (Nat.zero_le _) hjm (by
      rw [Nat.sub_zero]; exact hg.divides.mul_left _)] at hlen
    injection hlen with hlen
    rw [← hlen, Nat.sub_zero]
    exact Nat.le_mul_of_pos_left _ (by omega)
  · obtain ⟨j', hj1', hj2', hjt'⟩ := hmem i' (by rw [ho]; simp [hi']) hfu'
    have hlt : i'.t < i.t := by
      rw [ho, List.map_append, List.map_cons] at hsort
      exact (List.pairwise_append.mp hsort).2.2 _ (List.mem_map_of_mem hi') _ (by simp)
    rw [hjt, hjt', div_lt_div_iff_of_pos_right hg.rate] at hlt
    have hlt' : j' * g.Ns < j * g.Ns := by exact_mod_cast hlt
    have hjj : j' < j := Nat.lt_of_mul_lt_mul_right hlt'
    rw [h0, hjt', bufferSizeEff_clock hg.L_pos hg.rate hlt'.le hjm (by
      rw [← Nat.sub_mul]; exact hg.divides.mul_left _)] at hlen
    injection hlen with hlen
    rw [← hlen, ← Nat.sub_mul]
    exact Nat.le_mul_of_pos_left _ (by omega)

end
end Danse
