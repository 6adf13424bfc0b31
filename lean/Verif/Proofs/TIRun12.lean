import Verif.Proofs.TIRun11
import Verif.Props.TISched

/-!
# Helper lemmas: the history of a node in a TI-DANSE run with few-sample broadcasts
-/

set_option linter.unusedSectionVars false

namespace Danse
section
variable {n : Nat} {K : Type} [Field K] [StarRing K] [DecidableEq K] {g : GivenCfg K} {U : TIStrategy n K}
  {fs : ℚ} {m : Nat} {y : Fin n → List (List K)}

/-- The work of the schedule of synchronous nodes. -/
theorem sync_works (hg : SyncTI g fs m y) {nbs : List (List Nat)} (hn : nbs.length = n)
    {seq keep sim : Bool} {r start : Nat} {minF : Int} (hr : sim = true → r < n) (hstart : start < n)
    {ordOf : Nat → List Level} {treeOf : Nat → TreeObj n} (hT : ∀ k < n, OrientedTree (treeOf k) (ordOf k))
    {out : List (Instant ℚ)} {fsInf : List ℚ} {trees : List (TreeObj n)}
    (h : initEventsTI g.bc g.N g.Ns seq keep sim r start minF (syncNodes fs m nbs) ordOf treeOf =
      .ok (out, fsInf, trees))
    (hue : ∀ t ∈ syncUpTI g.bc g.N g.Ns m fs, t ∈ syncBc g.bc g.N g.Ns m fs) :
    (worksOf out).map (·.t) = syncBc g.bc g.N g.Ns m fs ∧ ∀ w ∈ worksOf out, w.exchange = true ∧
      ∀ k, (w.ups k).isSome = true ↔ k < n ∧ w.t ∈ syncUpTI g.bc g.N g.Ns m fs := by
  subst hn
  obtain ⟨out', tr, h1, h2, h3, h4⟩ := initEventsTI_sync (seq := seq) (keep := keep) (sim := sim)
    (r := r) hg.shift (by have := hg.overlap; omega) hg.pos hg.rate hg.clock hg.whole hg.L_pos nbs minF hr hstart
    hg.exchange (fun _ _ => hg.update) ordOf treeOf
  rw [h] at h1
  injection h1 with h1
  injection h1 with e1 h1
  subst e1
  have hcov : ∀ o ∈ tr.2, CoversNodes nbs.length o := by
    have := orientedTrees_cover (treesOriented hT hstart tr.2.length)
    intro o ho
    rw [h4] at ho
    exact this o ho
  exact built_sync_works h3 h2 hcov rfl hue
    (syncBc_pos hg.shift (by have := hg.overlap; omega) hg.whole (fun L eff h => (hg.L_pos L eff h).1) hg.rate).1

theorem mem_everySep {sep : Nat} (hs : 0 < sep) {fs : ℚ} (hfs : 0 < fs) {a b i : Nat} :
    (i : ℚ) * sep / fs ∈ everySep sep fs a b ↔ a ≤ i ∧ i < b := by
  have h2 : (sep : ℚ) ≠ 0 := by exact_mod_cast hs.ne'
  constructor
  · intro h
    obtain ⟨j, hj, he⟩ := List.mem_map.mp h
    have hj' := List.mem_range.mp hj
    rw [div_left_inj' hfs.ne'] at he
    have : ((a + j : Nat) : ℚ) = i := mul_right_cancel₀ h2 he
    have : a + j = i := by exact_mod_cast this
    omega
  · rintro ⟨h1, h3⟩
    refine List.mem_map.mpr ⟨i - a, List.mem_range.mpr (by omega), ?_⟩
    rw [show a + (i - a) = i by omega]

/-- End of the local frame of an update at sample `s`. -/
def updEnd (g : GivenCfg K) (s : Nat) : Nat :=
  match g.bc with
  | .whole => s - (g.N - g.Ns)
  | .few _ _ => s

theorem tiUpdate_lastBc {rows : List (TIObs K) → Rows K} {started : List (TIObs K) → Bool} {yk : List (List K)}
    {t : ℚ} {k : Nat} {byp : Bool} {nd nd' : TINode K} {eta : List K}
    (h : tiUpdate g rows started yk t k byp nd eta = .ok nd') : nd'.lastBc = nd.lastBc := by
  unfold tiUpdate at h
  obtain ⟨loc, h1, h2⟩ := Except.bind_ok h
  split at h2
  · cases h2
  · obtain ⟨d, _, h3⟩ := Except.bind_ok h2
    obtain ⟨d', _, h4⟩ := Except.bind_ok h3
    cases h4
    rfl

/-- The updates of an instant extend the histories; `O i` are the sums of the others at time `i`. -/
theorem updates_hist' (hNs : 0 < g.Ns) (hNo : g.Ns < g.N) (hpos : 0 < m) (hfs : 0 < fs) (hrt : ∀ k, g.fs k = fs)
    (hsg : ∀ k, ∀ ch ∈ y k, ch.length = m) {A B i : Nat} {w : Work} (hwt : w.t = (i : ℚ) * g.Ns / fs)
    (hB : B = (m - 1) / g.Ns) (hi : i < B) {k : Fin n}
    (hups : (w.ups k).isSome = true ↔ (k : Nat) < n ∧ w.t ∈ everySep g.Ns fs A B)
    (hA : g.bc = .whole → ∀ i, A ≤ i → g.N - g.Ns ≤ i * g.Ns)
    {v b : TIView n K} (h : DirectUpdates g U y w v b) {O : Nat → List K}
    (hist : (v.node k).hist.map TIObs.seen = (List.range (i - A)).map fun (j : Nat) =>
      (((A + j : Nat) : ℚ) * g.Ns / fs, (y k).map (frameBefore g.N · (updEnd g ((A + j) * g.Ns))), O (A + j)))
    (heta : A ≤ i → v.eta k = O i) :
    ((b.node k).hist.map TIObs.seen = (List.range (i + 1 - A)).map fun (j : Nat) =>
      (((A + j : Nat) : ℚ) * g.Ns / fs, (y k).map (frameBefore g.N · (updEnd g ((A + j) * g.Ns))), O (A + j))) ∧
    (b.node k).wIR = (v.node k).wIR ∧ (b.node k).lastUp = (v.node k).lastUp ∧
    (b.node k).lastBc = (v.node k).lastBc ∧
    (((b.node k).ext = (v.node k).ext ∧ (b.node k).started = (v.node k).started) ∨
      ((b.node k).ext = (U.rows k (b.node k).hist).ext ∧ (b.node k).started = U.started k (b.node k).hist)) := by
  obtain ⟨_, _, _, h⟩ := h
  have h := h k
  have hm := mul_lt_of_lt_div hpos hNs (j := i) (by omega)
  rw [hwt, mem_everySep hNs hfs] at hups
  revert h hups
  cases w.ups k with
  | none =>
    intro hups h
    simp only at h
    rw [h]
    refine ⟨?_, rfl, rfl, rfl, .inl ⟨rfl, rfl⟩⟩
    rw [hist, show i + 1 - A = 0 by
      by_contra hc
      have := hups.mpr ⟨k.isLt, by omega, hi⟩
      simp at this, show i - A = 0 by
      by_contra hc
      have := hups.mpr ⟨k.isLt, by omega, hi⟩
      simp at this]
  | some f =>
    intro hups h
    simp only at h
    have hAi : A ≤ i := (hups.mp rfl).2.1
    obtain ⟨loc, h1, h2, h3, h4, h5, h6⟩ := tiUpdate_inv h
    refine ⟨?_, h3, h4, tiUpdate_lastBc h, .inr ⟨h5, h6⟩⟩
    have hl := update_frames (g := g) (m := m) (e := updEnd g (i * g.Ns)) (hsg k) (by
      unfold updEnd; split <;> omega) (by
      rw [hrt, hwt, floor_everySep hfs]
      have := hNo
      unfold updEnd
      revert hA
      cases g.bc with
      | whole =>
        intro hA
        have := hA rfl i hAi
        simp only
        omega
      | few L eff => intro _; rfl) h1
    rw [h2, List.map_append, hist, show i + 1 - A = (i - A) + 1 by omega, List.range_succ, List.map_append]
    congr 1
    rw [List.map_singleton, List.map_singleton, show A + (i - A) = i by omega]
    congr 1
    unfold TIObs.seen
    simp only
    rw [hl, heta hAi, hwt]

/-- The updates of an instant extend the histories. -/
theorem updates_hist (hg : SyncTI g fs m y) {A B i : Nat} {w : Work} (hwt : w.t = (i : ℚ) * g.Ns / fs)
    (hB : B = (m - 1) / g.Ns) (hi : i < B) {k : Fin n}
    (hups : (w.ups k).isSome = true ↔ (k : Nat) < n ∧ w.t ∈ everySep g.Ns fs A B)
    (hA : g.bc = .whole → ∀ i, A ≤ i → g.N - g.Ns ≤ i * g.Ns)
    {v b : TIView n K} (h : DirectUpdates g U y w v b) {x : Fin n → List K} {e' : Nat → Nat}
    (hist : (v.node k).hist.map TIObs.seen = (List.range (i - A)).map fun (j : Nat) =>
      observedAt g.N g.Ns fs y x k (A + j) (updEnd g ((A + j) * g.Ns)) (e' (A + j)))
    (heta : A ≤ i → v.eta k = sumOthers g.N (fun q => frameBefore g.N (x q) (e' i)) k) :
    ((b.node k).hist.map TIObs.seen = (List.range (i + 1 - A)).map fun (j : Nat) =>
      observedAt g.N g.Ns fs y x k (A + j) (updEnd g ((A + j) * g.Ns)) (e' (A + j))) ∧
    (b.node k).wIR = (v.node k).wIR ∧ (b.node k).lastUp = (v.node k).lastUp ∧
    (((b.node k).ext = (v.node k).ext ∧ (b.node k).started = (v.node k).started) ∨
      ((b.node k).ext = (U.rows k (b.node k).hist).ext ∧ (b.node k).started = U.started k (b.node k).hist)) := by
  obtain ⟨h1, h2, h3, _, h4⟩ := updates_hist' hg.shift hg.overlap hg.pos hg.rate hg.rates hg.signals hwt hB hi hups
    hA h (O := fun i => sumOthers g.N (fun q => frameBefore g.N (x q) (e' i)) k) hist heta
  exact ⟨h1, h2, h3, h4⟩

theorem frameBefore_zero (N : Nat) (x : List K) : frameBefore N x 0 = List.replicate N 0 := by
  apply at0_ext
  · rw [frameBefore_length, List.length_replicate]
  · intro j hj
    rw [frameBefore_length] at hj
    rw [at0_frameBefore hj, at0_replicate hj, if_neg (by omega)]

/-- A direct run with few-sample broadcasts, in which the nodes keep their initial broadcast filters. -/
theorem few_history (hg : SyncTI g fs m y) (hb : g.bc = .few g.Ns false) {x : Fin n → List K}
    (hx : ∀ q, (y q)[g.refSensor]? = some (x q))
    (hkeep : ∀ q, (g.noFusion = true ∧ (y q).length = 1) ∨
      ∀ t ∈ syncBc g.bc g.N g.Ns m fs, |t| < g.upTDEvery)
    {ws : List Work} (hws : ws.map (·.t) = syncBc g.bc g.N g.Ns m fs)
    (hw : ∀ w ∈ ws, w.exchange = true ∧ ∀ k, (w.ups k).isSome = true ↔ k < n ∧ w.t ∈ syncUpTI g.bc g.N g.Ns m fs)
    {T : Nat} {ext : Fin n → List (List K)} {b : TIView n K}
    (h : DirectRun g U y (.init g.N g.refSensor T y ext) ws b) (k : Fin n) :
    (b.node k).hist.map TIObs.seen =
      (List.range ((m - 1) / g.Ns - ⌈(g.N : ℚ) / g.Ns⌉₊)).map fun (j : Nat) =>
        observedAt g.N g.Ns fs y x k (⌈(g.N : ℚ) / g.Ns⌉₊ + j) ((⌈(g.N : ℚ) / g.Ns⌉₊ + j) * g.Ns)
          ((⌈(g.N : ℚ) / g.Ns⌉₊ + j) * g.Ns) := by
  have hbc : syncBc g.bc g.N g.Ns m fs = everySep g.Ns fs 1 ((m - 1) / g.Ns) := by rw [hb]; rfl
  have hup : syncUpTI g.bc g.N g.Ns m fs = everySep g.Ns fs ⌈(g.N : ℚ) / g.Ns⌉₊ ((m - 1) / g.Ns) := by rw [hb]; rfl
  have hN0 : 0 < g.Ns := hg.shift
  have hNo := hg.overlap
  have hA1 : 1 ≤ ⌈(g.N : ℚ) / g.Ns⌉₊ := by
    rw [Nat.one_le_iff_ne_zero, ← Nat.pos_iff_ne_zero, Nat.ceil_pos]
    have h1 : (0 : ℚ) < g.N := by exact_mod_cast (by omega : 0 < g.N)
    have h2 : (0 : ℚ) < g.Ns := by exact_mod_cast hN0
    positivity
  generalize hA : ⌈(g.N : ℚ) / g.Ns⌉₊ = A at *
  generalize hB : (m - 1) / g.Ns = B at *
  have hne := hg.exchange
  rw [hbc] at hne hws
  rw [hup] at hw
  have hlen : ws.length = B - 1 := by
    have := congrArg List.length hws
    simpa [everySep] using this
  have hB1 : 1 < B := by
    by_contra hc
    apply hne
    unfold everySep
    rw [show B - 1 = 0 by omega]
    rfl
  have hue : ∀ s, updEnd g s = s := by intro s; unfold updEnd; rw [hb]
  have key := directRun_inv (g := g) (U := U) (y := y) (fun j v => ∀ k : Fin n,
      TIKeeps g (y k).length (v.node k) ∧ v.frame k = frameBefore g.N (x k) (j * g.Ns) ∧
      (v.node k).hist.map TIObs.seen = (List.range (j + 1 - A)).map fun (j : Nat) =>
        observedAt g.N g.Ns fs y x k (A + j) (updEnd g ((A + j) * g.Ns)) ((A + j) * g.Ns))
    (j := 0) (ws := ws) (a := .init g.N g.refSensor T y ext) (b := b) ?_ ?_ h
  · obtain ⟨_, _, h3⟩ := key k
    rw [h3, hlen, show 0 + (B - 1) + 1 - A = B - A by omega]
    simp only [hue]
  · intro k
    refine ⟨⟨rfl, .inr rfl⟩, ?_, ?_⟩
    · rw [Nat.zero_mul, frameBefore_zero]
      rfl
    · rw [show 0 + 1 - A = 0 by omega]
      rfl
  · intro i w a b hiw hP hd k
    rw [Nat.zero_add] at hP ⊢
    have hil : i < ws.length := (List.getElem?_eq_some_iff.mp hiw).1
    have hwm : w ∈ ws := List.mem_of_getElem? hiw
    have hwt : w.t = ((i + 1 : Nat) : ℚ) * g.Ns / fs := by
      have h1 : (ws.map (·.t))[i]? = some w.t := by rw [List.getElem?_map, hiw]; rfl
      rw [hws] at h1
      unfold everySep at h1
      rw [List.getElem?_map, List.getElem?_range (by omega)] at h1
      injection h1 with h1
      rw [← h1]
      simp only
      rw [Nat.add_comm 1 i]
    obtain ⟨v, hex, hupd⟩ := hd
    rw [(hw w hwm).1, if_pos rfl] at hex
    have hem := mul_lt_of_lt_div hg.pos hg.shift (j := i + 1) (by omega)
    have hfuse : ∀ q : Fin n, TIKeeps g (y q).length (v.node q) ∧ (v.node q).hist = (a.node q).hist ∧
        v.frame q = frameBefore g.N (x q) ((i + 1) * g.Ns) := by
      intro q
      obtain ⟨h1, h2, _⟩ := hex q
      obtain ⟨p1, p2, p3⟩ := hP q
      obtain ⟨k1, k2, k3⟩ := tiFuse_keeps (e := (i + 1) * g.Ns) (m := m) hb (by omega) hNo.le (hx q) (hg.signals q)
        p1 (by
          rcases hkeep q with h | h
          · exact .inl h
          · right
            apply h
            rw [hbc, hwt, mem_everySep hN0 hg.rate]
            omega) (by rw [hg.rates, hwt, floor_everySep hg.rate]) (by
          rw [Nat.add_mul]; omega) hem.le h1
      refine ⟨k1, k2, ?_⟩
      rw [h2]
      unfold newFrame
      have e1 : (i + 1) * g.Ns - g.Ns = i * g.Ns := by rw [Nat.add_mul, Nat.one_mul, Nat.add_sub_cancel]
      have e2 : (i + 1) * g.Ns = i * g.Ns + g.Ns := by rw [Nat.add_mul, Nat.one_mul]
      rw [k3, p2, e1, e2, List.take_of_length_le (by unfold frameAt; simp)]
      apply frameBefore_shift hNo.le
      rw [hg.signals q (x q) (List.mem_of_getElem? (hx q))]
      omega
    obtain ⟨f1, f2, f3⟩ := hfuse k
    obtain ⟨u1, u2, u3, _⟩ := updates_hist (A := A) (B := B) (i := i + 1) (x := x) (e' := fun i => i * g.Ns) hg hwt
      hB.symm (by omega) ((hw w hwm).2 k) (by rw [hb]; intro h; cases h) hupd (by
        rw [f2, (hP k).2.2]) (by
        intro _
        rw [(hex k).2.2]
        unfold sumOthers
        congr 1
        funext t
        apply Finset.sum_congr rfl
        intro q _
        rw [(hfuse q).2.2])
    refine ⟨⟨by rw [u2]; exact f1.ir, by rw [u3]; exact f1.why⟩, ?_, u1⟩
    rw [hupd.2.1]
    exact f3

end
end Danse
