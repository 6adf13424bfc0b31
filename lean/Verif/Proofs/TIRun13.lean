import Verif.Proofs.TIRun12

/-!
# Helper lemmas: the history of a node in a TI-DANSE run with whole-chunk broadcasts
-/

set_option linter.unusedSectionVars false

namespace Danse
section
variable {n : Nat} {K : Type} [Field K] [StarRing K] [DecidableEq K] {g : GivenCfg K} {U : TIStrategy n K}
  {fs : ℚ} {m : Nat} {y : Fin n → List (List K)}

theorem tiFuse_whole (hb : g.bc = .whole) {yk : List (List K)} {e m : Nat} (hy : ∀ ch ∈ yk, ch.length = m)
    {nd nd' : TINode K} {buf buf' : List K} {t : ℚ} {k : Nat} (he : ⌊t * g.fs k⌋ = (e : Int))
    (hem : e ≤ m) (h : tiFuse g yk t k nd buf = .ok (nd', buf')) :
    nd' = nd ∧ ∃ p, tiFilter yk.length nd.ext nd.started = .ok p ∧
      wholeChunk g.ζ g.N g.Ns g.c g.h g.f (yk.map fun ch => frameBefore g.N ch e) p buf = .ok buf' := by
  unfold tiFuse at h
  obtain ⟨fr, h1, h2⟩ := Except.bind_ok h
  have h3 := fuse_frames (N := g.N) (fun ch hch => by
    have := hy ch hch
    exact ⟨by rw [he]; omega, by rw [he]; omega⟩) h1
  rw [if_neg (by
    simp only [List.any_eq_true, decide_eq_true_eq, not_exists, not_and, not_lt]
    exact fun x hx => (h3 x hx).ge)] at h2
  rw [hb] at h2
  simp only at h2
  obtain ⟨p, hp, h4⟩ := Except.bind_ok h2
  obtain ⟨z, hz, h6⟩ := Except.bind_ok h4
  injection h6 with h6
  injection h6 with h6 h7
  subst h6 h7
  refine ⟨rfl, p, hp, ?_⟩
  rw [← hz]
  congr 1
  have hc : ∀ ch ∈ yk, chunkForBroadcast ch t (g.fs k) g.N =
      .ok (frameBefore g.N ch e, max ((e : Int) - g.N) 0, (e : Int)) := by
    intro ch hch
    unfold chunkForBroadcast
    rw [he, localChunk_frame (by rw [hy ch hch]; exact hem)]
  have hf := mapM_ok_forall₂ h1
  clear hz h1 h h2 h4 h3 hp hy
  induction hf with
  | nil => rfl
  | cons h1 _ ih =>
    rw [List.map_cons, List.map_cons, ih (fun ch hch => hc ch (List.mem_cons_of_mem _ hch))]
    rw [hc _ (by simp)] at h1
    injection h1 with h1
    rw [← h1]

theorem frameBefore_eq_frameAt {N e : Nat} (x : List K) (h1 : N ≤ e) (h2 : e ≤ x.length) :
    frameBefore N x e = frameAt x (e - N) N := by
  apply at0_ext
  · unfold frameAt
    rw [frameBefore_length, List.length_take, List.length_drop]
    omega
  · intro j hj
    rw [frameBefore_length] at hj
    unfold frameAt
    rw [at0_frameBefore hj, if_pos (by omega), at0_take hj, at0_drop]
    congr 1; omega

/-- One fusion with a filter that selects a sensor. -/
theorem tiFuse_select [CharZero K] (hb : g.bc = .whole) (hN : g.N = 2 * g.Ns) (hNs : 0 < g.Ns)
    (r : DftRoot g.ζ g.N) (hc : g.c ≠ 0) (hcr : star g.c = g.c) (hh : IsReal g.h) (hhl : g.h.length = g.N)
    (hfh : g.f = g.h) (hw : ∀ j < g.Ns, at0 g.h (g.Ns + j) ^ 2 + at0 g.h j ^ 2 ≠ 0)
    {yk : List (List K)} {i m ref : Nat} {x : List K} (hx : yk[ref]? = some x) (hxr : IsReal x)
    (hy : ∀ ch ∈ yk, ch.length = m) {nd nd' : TINode K} {buf buf' : List K} {t : ℚ} {k : Nat}
    (he : ⌊t * g.fs k⌋ = (((i + 2) * g.Ns : Nat) : Int)) (hem : (i + 2) * g.Ns ≤ m)
    (hsel : tiFilter yk.length nd.ext nd.started = .ok (selector yk.length ref (g.N / 2 + 1)))
    (hs : ∀ i', i = i' + 1 → WindowSees g.h x g.Ns i')
    (hbuf : (i = 0 ∧ buf = []) ∨ ∃ i', i = i' + 1 ∧ buf.length = 2 * g.Ns ∧
      ∀ j < g.Ns, at0 buf (g.Ns + j) = at0 g.h (g.Ns + j) ^ 2 * at0 x (i' * g.Ns + (g.Ns + j)))
    (h : tiFuse g yk t k nd buf = .ok (nd', buf')) :
    nd' = nd ∧ buf'.length = 2 * g.Ns ∧
      (∀ j < g.Ns, at0 buf' (g.Ns + j) = at0 g.h (g.Ns + j) ^ 2 * at0 x (i * g.Ns + (g.Ns + j))) ∧
      (0 < i → ∀ j < g.Ns, at0 buf' j = at0 x (i * g.Ns + j)) := by
  obtain ⟨h1, p, h2, h3⟩ := tiFuse_whole hb hy he hem h
  rw [hsel] at h2
  injection h2 with h2
  subst h2
  have hxm : x.length = m := hy x (List.mem_of_getElem? hx)
  rw [hN] at h3 r hhl
  rw [hfh] at h3
  have hrl : ref < yk.length := (List.getElem?_eq_some_iff.mp hx).1
  obtain ⟨cur, c1, c2, c3⟩ := wholeChunk_selector (k := i) r hc hcr hh hhl hxr
    (Y := yk.map fun ch => frameBefore (2 * g.Ns) ch ((i + 2) * g.Ns)) (ref := ref) (by simpa using hrl) (by
      rw [List.getD_eq_getElem?_getD, List.getElem?_map, hx]
      simp only [Option.map_some, Option.getD_some]
      rw [frameBefore_eq_frameAt _ (Nat.mul_le_mul_right _ (by omega)) (by rw [hxm]; exact hem)]
      congr 1
      rw [Nat.add_mul]; omega) (by rw [hxm]; exact hem) buf
  rw [List.length_map] at c1
  rw [c1] at h3
  rcases hbuf with ⟨h0, hbe⟩ | ⟨i', hi', hbl, hbv⟩
  · subst hbe
    have h4 : overlapAdd (2 * g.Ns) g.Ns g.h [] cur = .ok cur := by unfold overlapAdd; simp
    rw [h4] at h3
    injection h3 with h3
    subst h3
    exact ⟨h1, c2, fun j hj => c3 _ (by omega), fun h => absurd h (by omega)⟩
  · subst hi'
    obtain ⟨z, z1, z2, z3, z4⟩ := olaStep hNs hhl hw (hs i' rfl) hbl hbv c2 c3
    rw [z1] at h3
    injection h3 with h3
    subst h3
    exact ⟨h1, z2, z4, fun _ => z3⟩

theorem whole_history [CharZero K] (hg : SyncTI g fs m y) (hb : g.bc = .whole) (hN : g.N = 2 * g.Ns)
    (r : DftRoot g.ζ g.N) (hc : g.c ≠ 0) (hcr : star g.c = g.c) (hh : IsReal g.h) (hhl : g.h.length = g.N)
    (hfh : g.f = g.h) (hwin : ∀ j < g.Ns, at0 g.h (g.Ns + j) ^ 2 + at0 g.h j ^ 2 ≠ 0)
    {ref : Fin n → Nat} {x : Fin n → List K} (hx : ∀ q, (y q)[ref q]? = some (x q)) (hxr : ∀ q, IsReal (x q))
    (hsee : ∀ q i, WindowSees g.h (x q) g.Ns i)
    {ws : List Work} (hws : ws.map (·.t) = syncBc g.bc g.N g.Ns m fs)
    (hw : ∀ w ∈ ws, w.exchange = true ∧ ∀ k, (w.ups k).isSome = true ↔ k < n ∧ w.t ∈ syncUpTI g.bc g.N g.Ns m fs)
    {T : Nat} {ext : Fin n → List (List K)}
    (hsel0 : ∀ q, tiFilter (y q).length (ext q) false = .ok (selector (y q).length (ref q) (g.N / 2 + 1)))
    (hsel : ∀ q hist, tiFilter (y q).length (U.rows q hist).ext (U.started q hist) =
      .ok (selector (y q).length (ref q) (g.N / 2 + 1))) {b : TIView n K}
    (h : DirectRun g U y (.init g.N g.refSensor T y ext) ws b) (k : Fin n) :
    (b.node k).hist.map TIObs.seen =
      (List.range ((m - 1) / g.Ns - 4)).map fun (j : Nat) =>
        observedAt g.N g.Ns fs y x k (4 + j) ((4 + j - 1) * g.Ns) ((4 + j - 1) * g.Ns) := by
  have hN0 : 0 < g.Ns := hg.shift
  have hNo := hg.overlap
  have hbc : syncBc g.bc g.N g.Ns m fs = everySep g.Ns fs 2 ((m - 1) / g.Ns) := by
    rw [hb, hN]
    show everySep _ _ (2 * g.Ns / g.Ns) _ = _
    rw [Nat.mul_div_cancel _ hN0]
  have hup : syncUpTI g.bc g.N g.Ns m fs = everySep g.Ns fs 4 ((m - 1) / g.Ns) := by
    rw [hb, hN]
    show everySep _ _ ⌈((2 * (2 * g.Ns) : Nat) : ℚ) / g.Ns⌉₊ _ = _
    have h2 : (g.Ns : ℚ) ≠ 0 := by exact_mod_cast hN0.ne'
    have : ((2 * (2 * g.Ns) : Nat) : ℚ) / g.Ns = (4 : Nat) := by
      push_cast
      field_simp
      norm_num
    rw [this, Nat.ceil_natCast]
  have hm0 := hg.pos
  generalize hB : (m - 1) / g.Ns = B at *
  have hne := hg.exchange
  rw [hbc] at hne hws
  rw [hup] at hw
  have hlen : ws.length = B - 2 := by
    have := congrArg List.length hws
    simpa [everySep] using this
  have hB1 : 2 < B := by
    by_contra hc
    apply hne
    unfold everySep
    rw [show B - 2 = 0 by omega]
    rfl
  have hue : ∀ i, updEnd g ((4 + i) * g.Ns) = (4 + i - 1) * g.Ns := by
    intro i
    unfold updEnd
    rw [hb, hN]
    simp only
    rw [show 4 + i - 1 = 3 + i by omega, Nat.add_mul, Nat.add_mul]
    omega
  have hxm : ∀ q, (x q).length = m := fun q => hg.signals q (x q) (List.mem_of_getElem? (hx q))
  have key := directRun_inv (g := g) (U := U) (y := y) (fun j v => ∀ k : Fin n,
      tiFilter (y k).length (v.node k).ext (v.node k).started =
        .ok (selector (y k).length (ref k) (g.N / 2 + 1)) ∧
      ((j = 0 ∧ v.buf k = []) ∨ ∃ i', j = i' + 1 ∧ (v.buf k).length = 2 * g.Ns ∧
        ∀ t < g.Ns, at0 (v.buf k) (g.Ns + t) = at0 g.h (g.Ns + t) ^ 2 * at0 (x k) (i' * g.Ns + (g.Ns + t))) ∧
      (v.frame k).length = 2 * g.Ns ∧
      (∀ i', j = i' + 2 → ∀ t < g.Ns, at0 (v.frame k) (g.Ns + t) = at0 (x k) ((i' + 1) * g.Ns + t)) ∧
      (∀ i', j = i' + 3 → v.frame k = frameBefore g.N (x k) ((i' + 3) * g.Ns)) ∧
      (v.node k).hist.map TIObs.seen = (List.range (j + 2 - 4)).map fun (j : Nat) =>
        observedAt g.N g.Ns fs y x k (4 + j) (updEnd g ((4 + j) * g.Ns)) ((4 + j - 1) * g.Ns))
    (j := 0) (ws := ws) (a := .init g.N g.refSensor T y ext) (b := b) ?_ ?_ h
  · obtain ⟨_, _, _, _, _, h3⟩ := key k
    have e : 0 + (B - 2) + 2 - 4 = B - 4 := by clear * - hB1; omega
    rw [h3, hlen, e]
    simp only [hue]
  · intro k
    refine ⟨hsel0 k, .inl ⟨rfl, rfl⟩, ?_, fun i' h => ?_, fun i' h => ?_, rfl⟩
    · show (List.replicate g.N 0).length = _
      rw [List.length_replicate, hN]
    · omega
    · omega
  · intro i w a b hiw hP hd k
    rw [Nat.zero_add] at hP ⊢
    have hil : i < ws.length := (List.getElem?_eq_some_iff.mp hiw).1
    have hwm : w ∈ ws := List.mem_of_getElem? hiw
    have hwt : w.t = ((i + 2 : Nat) : ℚ) * g.Ns / fs := by
      have h1 : (ws.map (·.t))[i]? = some w.t := by rw [List.getElem?_map, hiw]; rfl
      rw [hws] at h1
      unfold everySep at h1
      rw [List.getElem?_map, List.getElem?_range (by omega)] at h1
      injection h1 with h1
      rw [← h1]
      simp only
      rw [Nat.add_comm 2 i]
    obtain ⟨v, hex, hupd⟩ := hd
    rw [(hw w hwm).1, if_pos rfl] at hex
    have hem := mul_lt_of_lt_div hg.pos hg.shift (j := i + 2) (by omega)
    have hfuse : ∀ q : Fin n, v.node q = a.node q ∧ (v.buf q).length = 2 * g.Ns ∧
        (∀ j < g.Ns, at0 (v.buf q) (g.Ns + j) = at0 g.h (g.Ns + j) ^ 2 * at0 (x q) (i * g.Ns + (g.Ns + j))) ∧
        (v.frame q).length = 2 * g.Ns ∧
        (∀ i', i + 1 = i' + 2 → ∀ t < g.Ns, at0 (v.frame q) (g.Ns + t) = at0 (x q) ((i' + 1) * g.Ns + t)) ∧
        (∀ i', i + 1 = i' + 3 → v.frame q = frameBefore g.N (x q) ((i' + 3) * g.Ns)) := by
      intro q
      obtain ⟨h1, h2, _⟩ := hex q
      obtain ⟨p1, p2, p3, p4, p5, p6⟩ := hP q
      obtain ⟨k1, k2, k3, k4⟩ := tiFuse_select (i := i) (m := m) hb hN hN0 r hc hcr hh hhl hfh hwin (hx q) (hxr q)
        (hg.signals q) (by rw [hg.rates, hwt, floor_everySep hg.rate]) hem.le p1 (fun i' _ => hsee q i') p2 h1
      have hfl : (v.frame q).length = 2 * g.Ns := by
        rw [h2]
        unfold newFrame
        rw [List.length_append, List.length_drop, List.length_take, p3, k2]
        omega
      have hlo : ∀ t < g.Ns, at0 (v.frame q) t = at0 (a.frame q) (g.Ns + t) := by
        intro t ht
        rw [h2]
        unfold newFrame
        rw [at0_append, List.length_drop, p3, if_pos (by omega), at0_drop]
      have hhi : ∀ t < g.Ns, at0 (v.frame q) (g.Ns + t) = at0 (v.buf q) t := by
        intro t ht
        rw [h2]
        unfold newFrame
        rw [at0_append, List.length_drop, p3, if_neg (by omega), at0_take (by omega)]
        congr 1; omega
      refine ⟨k1, k2, k3, hfl, ?_, ?_⟩
      · intro i' hi' t ht
        rw [hhi t ht, k4 (by omega) t ht, show i = i' + 1 by omega]
      · intro i' hi'
        have e3 : (i' + 3) * g.Ns = i' * g.Ns + 3 * g.Ns := by rw [Nat.add_mul]
        have e1 : (i' + 1) * g.Ns = i' * g.Ns + g.Ns := by rw [Nat.add_mul]; omega
        have e2 : (i' + 2) * g.Ns = i' * g.Ns + 2 * g.Ns := by rw [Nat.add_mul]
        apply at0_ext
        · rw [hfl, frameBefore_length, hN]
        · intro t ht
          rw [hfl] at ht
          rw [at0_frameBefore (by omega), if_pos (by omega), hN]
          by_cases hc : t < g.Ns
          · rw [hlo t hc, p4 i' (by omega) t hc]
            congr 1; omega
          · obtain ⟨t', rfl⟩ : ∃ t', t = g.Ns + t' := ⟨t - g.Ns, by omega⟩
            rw [hhi t' (by omega), k4 (by omega) t' (by omega), show i = i' + 2 by omega]
            congr 1; omega
    obtain ⟨f1, f2, f3, f4, f5, f6⟩ := hfuse k
    obtain ⟨u1, u2, u3, u4⟩ := updates_hist (A := 4) (B := B) (i := i + 2) (x := x)
      (e' := fun i => (i - 1) * g.Ns) hg hwt hB.symm (by omega) ((hw w hwm).2 k) (by
        intro _ j hj
        have := Nat.mul_le_mul_right g.Ns hj
        omega) hupd (by
        rw [f1, (hP k).2.2.2.2.2]) (by
        intro hi4
        rw [(hex k).2.2]
        unfold sumOthers
        congr 1
        funext t
        apply Finset.sum_congr rfl
        intro q _
        rw [(hfuse q).2.2.2.2.2 (i - 2) (by omega)]
        congr 3
        omega)
    refine ⟨?_, .inr ⟨i, rfl, ?_, ?_⟩, ?_, ?_, ?_, ?_⟩
    · rcases u4 with ⟨w1, w2⟩ | ⟨w1, w2⟩
      · rw [w1, w2, f1]; exact (hP k).1
      · rw [w1, w2]; exact hsel k _
    · rw [hupd.1]; exact f2
    · rw [hupd.1]; exact f3
    · rw [hupd.2.1]; exact f4
    · rw [hupd.2.1]; exact f5
    · rw [hupd.2.1]; exact f6
    · rw [u1, show i + 2 + 1 - 4 = i + 1 + 2 - 4 by omega]

end
end Danse
