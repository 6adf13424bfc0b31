import Verif.Proofs.TIRun13
import Verif.Proofs.Total

/-!
# Helper lemmas: a TI-DANSE run ends normally
-/

set_option linter.unusedSectionVars false

namespace Danse
section
variable {n : Nat} {K : Type} [Field K] [StarRing K] [DecidableEq K] {g : GivenCfg K} {U : TIStrategy n K}
  {fs : ℚ} {m : Nat} {y : Fin n → List (List K)}

/-- The variables of a node with which nothing goes wrong. -/
structure TIAlive (g : GivenCfg K) (m : Nat) (nd : TINode K) : Prop where
  wIR : ∀ a ∈ nd.wIR, a.length = 2 * g.N - 1
  d : nd.d.length = m
  dLoc : nd.dLoc.length = m
  ext : BinsOk g.N nd.ext
  gk : g.bc = .whole → nd.started = true → ∀ b ∈ nd.ext.getLastD [], b ≠ 0

theorem wholeChunk_total {N Ns : Nat} {ζ c : K} {h f prev : List K} {yq w : List (List K)} (hNs : 0 < Ns)
    (hN : N = 2 * Ns) (hh : h.length = N) : ∃ r, wholeChunk ζ N Ns c h f yq w prev = .ok r := by
  unfold wholeChunk
  obtain ⟨z, hz⟩ := (C35_accepts_iff (ζ := ζ) (n := N) (combine (N / 2 + 1) w (yq.map (analysis ζ N c h)))).1.mpr
    ⟨by omega, ⟨Ns, hN⟩, by simp [combine]⟩
  simp only
  rw [hz]
  simp only [bind, Except.bind]
  unfold overlapAdd
  split
  · exact ⟨_, rfl⟩
  · rw [if_neg (by omega), if_neg (by omega)]
    obtain ⟨nv, h1, _⟩ := normVal_half hNs (by omega : h.length = 2 * Ns)
    rw [hN, h1]
    exact ⟨_, rfl⟩

theorem tiFuse_total (hN : 0 < g.N) (he : 2 ∣ g.N) (hNs : 0 < g.Ns) (hw : g.bc = .whole → g.N = 2 * g.Ns)
    (hh : g.bc = .whole → g.h.length = g.N)
    (hL : ∀ L eff, g.bc = .few L eff → eff = false ∧ L ≤ 2 * g.N - 1) {yk : List (List K)} {t : ℚ} {k : Nat}
    {nd : TINode K} (ha : TIAlive g m nd) (buf : List K)
    (h0 : 0 ≤ ⌊t * g.fs k⌋) (h1 : ∀ ch ∈ yk, ⌊t * g.fs k⌋ ≤ ch.length) :
    ∃ nd' buf', tiFuse g yk t k nd buf = .ok (nd', buf') ∧ TIAlive g m nd' := by
  obtain ⟨fr, hfr, hfl⟩ := mapM_chunk (N := g.N) h0 h1
  unfold tiFuse
  have hfr' : (yk.mapM fun ch => chunkForBroadcast ch t (g.fs k) g.N) = .ok fr := hfr
  rw [hfr']
  simp only [bind, Except.bind]
  rw [if_neg (by
    simp only [List.any_eq_true, decide_eq_true_eq, not_exists, not_and, not_lt]
    intro x hx
    rw [hfl x hx])]
  cases hb : g.bc with
  | whole =>
    simp only
    have hp : ∃ p, tiFilter yk.length nd.ext nd.started = .ok p := by
      unfold tiFilter
      by_cases hst : nd.started = true
      · rw [if_pos hst]
        simp only
        rw [if_neg]
        · exact ⟨_, rfl⟩
        · simp only [List.any_eq_true, decide_eq_true_eq, not_exists, not_and]
          exact fun x hx => ha.gk hb hst x hx
      · rw [if_neg hst]
        exact ⟨_, rfl⟩
    obtain ⟨p, hp⟩ := hp
    obtain ⟨z, hz⟩ := wholeChunk_total (ζ := g.ζ) (c := g.c) (f := g.f) (prev := buf) (yq := fr.map (·.1)) (w := p)
      hNs (hw hb) (hh hb)
    rw [hp]
    simp only
    rw [hz]
    exact ⟨_, _, rfl, ha⟩
  | few L eff =>
    obtain ⟨rfl, hL'⟩ := hL L eff hb
    simp only [tiCurrL, Bool.false_eq_true, if_false]
    have hf : ∃ w, tiBcFilter g yk.length nd t = .ok w ∧ ∀ a ∈ w, a.length = 2 * g.N - 1 := by
      unfold tiBcFilter
      by_cases hc : |t - nd.lastUp| ≥ g.upTDEvery ∧ ¬ (g.noFusion = true ∧ yk.length = 1)
      · rw [if_pos hc]
        exact distFct_ok hN he ha.ext _ _ _
      · rw [if_neg hc]
        exact ⟨_, rfl, ha.wIR⟩
    obtain ⟨w, hw, hwl⟩ := hf
    have hz := C34_few_samples (L := L) (P := 2 * g.N - 1) (wIR := w) (yq := fr.map (·.1)) hL' hwl (by
      intro b hb'
      obtain ⟨x, hx, rfl⟩ := List.mem_map.mp hb'
      rw [hfl x hx]; exact hN)
    rw [hw]
    simp only
    rw [hz]
    refine ⟨_, _, rfl, ⟨hwl, ha.d, ha.dLoc, ha.ext, ?_⟩⟩
    intro h
    rw [hb] at h
    cases h

/-- The sample at which the frames of an update at time `t` end. -/
theorem updRange_end {t : ℚ} {k s : Nat} (hf : ⌊t * g.fs k⌋ = (s : Int)) (hNs : g.Ns ≤ g.N)
    (hw : g.bc = .whole → g.N - g.Ns ≤ s) :
    g.updRange t k = (max ((updEnd g s : Int) - g.N) 0, (updEnd g s : Int)) := by
  unfold GivenCfg.updRange updEnd
  rw [hf]
  revert hw
  cases g.bc with
  | whole =>
    intro hw
    have := hw rfl
    have e : (s : Int) - ((g.N : Int) - g.Ns) = ((s - (g.N - g.Ns) : Nat) : Int) := by omega
    simp only [e]
  | few L eff => intro _; rfl

theorem chunkForUpdate_end {t : ℚ} {k s : Nat} (hf : ⌊t * g.fs k⌋ = (s : Int)) (hNs : g.Ns ≤ g.N)
    (hw : g.bc = .whole → g.N - g.Ns ≤ s) (ch : List K) :
    chunkForUpdate ch t (g.fs k) g.bc.name g.N g.Ns = localChunk ch g.N (updEnd g s : Int) := by
  unfold chunkForUpdate updEnd BcType.name
  revert hw
  cases g.bc with
  | whole =>
    intro hw
    have := hw rfl
    have e : (s : Int) - ((g.N : Int) - g.Ns) = ((s - (g.N - g.Ns) : Nat) : Int) := by omega
    simp [hf, e]
  | few L eff => intro _; simp [hf]

theorem tiUpdate_total (hN : 0 < g.N) (he : 2 ∣ g.N) (hNs : g.Ns ≤ g.N) (hfl : g.f.length = g.N)
    {rows : List (TIObs K) → Rows K} {started : List (TIObs K) → Bool}
    (hr : ∀ hist, BinsOk g.N (rows hist).int ∧ BinsOk g.N (rows hist).ext ∧ BinsOk g.N (rows hist).loc)
    (hgk : g.bc = .whole → ∀ hist, started hist = true → ∀ b ∈ (rows hist).ext.getLastD [], b ≠ 0)
    {yk : List (List K)} (hy : ∀ ch ∈ yk, ch.length = m) {t : ℚ} {k s : Nat} (hf : ⌊t * g.fs k⌋ = (s : Int))
    (hw : g.bc = .whole → g.N - g.Ns ≤ s) (hs : s ≤ m) (h0 : 0 < updEnd g s)
    (hc : g.conv = true → g.Ns ≤ updEnd g s) (f : Bool) {nd : TINode K} (ha : TIAlive g m nd) {eta : List K}
    (heta : eta.length = g.N) :
    ∃ nd', tiUpdate g rows started yk t k f nd eta = .ok nd' ∧ TIAlive g m nd' := by
  have hus : updEnd g s ≤ s := by unfold updEnd; split <;> omega
  obtain ⟨fr, hfr, hl⟩ := mapM_chunk (ys := yk) (N := g.N) (e := (updEnd g s : Int)) (by omega) (fun ch hch => by
    rw [hy ch hch]; omega)
  have hfr' : (yk.mapM fun ch => chunkForUpdate ch t (g.fs k) g.bc.name g.N g.Ns) = .ok fr := by
    rw [← hfr]
    congr 1
    funext ch
    exact chunkForUpdate_end hf hNs hw ch
  unfold tiUpdate
  rw [hfr']
  simp only [bind, Except.bind]
  rw [if_neg (by
    simp only [List.any_eq_true, decide_eq_true_eq, not_or, not_exists, not_and, not_not]
    exact ⟨fun x hx => hl x hx, heta⟩), updRange_end hf hNs hw]
  simp only
  generalize hH : nd.hist ++ [(⟨t, f, fr.map (·.1), eta⟩ : TIObs K)] = H
  obtain ⟨r1, r2, r3⟩ := hr H
  obtain ⟨d', hd', hdl⟩ := desired_total (g := g) (w := (rows H).int)
    (yHat := (fr.map (·.1) ++ [eta]).map (analysis g.ζ g.N g.c g.h)) (yTD := fr.map (·.1)) (d := nd.d)
    (e := (updEnd g s : Int)) hN he hNs hfl (fun _ => r1) (by omega) (by rw [ha.d]; omega)
    (fun h => by have := hc h; omega)
  obtain ⟨dL', hdL', hdLl⟩ := desired_total (g := g) (w := (rows H).loc)
    (yHat := (fr.map (·.1)).map (analysis g.ζ g.N g.c g.h)) (yTD := fr.map (·.1)) (d := nd.dLoc)
    (e := (updEnd g s : Int)) hN he hNs hfl (fun _ => r3) (by omega) (by rw [ha.dLoc]; omega)
    (fun h => by have := hc h; omega)
  rw [hd']
  simp only
  rw [hdL']
  exact ⟨_, rfl, ⟨ha.wIR, by rw [hdl]; exact ha.d, by rw [hdLl]; exact ha.dLoc, r2, fun hb => hgk hb H⟩⟩

/-- What the times of the events have to be. -/
structure WorkOk (n : Nat) (g : GivenCfg K) (fs : ℚ) (m : Nat) (w : Work) : Prop where
  exchange : w.exchange = true
  time : ∃ s : Nat, w.t * fs = s ∧ s ≤ m ∧ ∀ k < n, (w.ups k).isSome = true →
    (g.bc = .whole → g.N - g.Ns ≤ s) ∧ 0 < updEnd g s ∧ (g.conv = true → g.Ns ≤ updEnd g s)

theorem direct_total (hN : 0 < g.N) (he : 2 ∣ g.N) (hNs0 : 0 < g.Ns) (hNs : g.Ns ≤ g.N) (hfl : g.f.length = g.N)
    (hw : g.bc = .whole → g.N = 2 * g.Ns) (hh : g.bc = .whole → g.h.length = g.N)
    (hL : ∀ L eff, g.bc = .few L eff → eff = false ∧ L ≤ 2 * g.N - 1)
    (hr : ∀ k hist, BinsOk g.N (U.rows k hist).int ∧ BinsOk g.N (U.rows k hist).ext ∧ BinsOk g.N (U.rows k hist).loc)
    (hgk : g.bc = .whole → ∀ k hist, U.started k hist = true → ∀ b ∈ (U.rows k hist).ext.getLastD [], b ≠ 0)
    (hy : ∀ k, ∀ ch ∈ y k, ch.length = m) (hfs : ∀ k, g.fs k = fs) :
    ∀ (ws : List Work), (∀ w ∈ ws, WorkOk n g fs m w) → ∀ a : TIView n K, (∀ k, TIAlive g m (a.node k)) →
      ∃ b, DirectRun g U y a ws b ∧ ∀ k, TIAlive g m (b.node k) := by
  intro ws
  induction ws with
  | nil => intro _ a ha; exact ⟨a, .nil a, ha⟩
  | cons w ws ih =>
    intro hws a ha
    obtain ⟨hx, s, hs, hsm, hu⟩ := hws w (by simp)
    have hfloor : ∀ k, ⌊w.t * g.fs k⌋ = (s : Int) := by
      intro k
      rw [hfs, hs]
      exact_mod_cast Int.floor_natCast (R := ℚ) s
    have hfuse := fun k : Fin n => tiFuse_total hN he hNs0 hw hh hL (yk := y k) (t := w.t) (k := k) (ha k) (a.buf k)
      (by rw [hfloor]; omega) (fun ch hch => by rw [hfloor, hy k ch hch]; omega)
    choose nd' buf' h1 h2 using hfuse
    let fr := fun k => newFrame g.Ns a.frame buf' k
    let v : TIView n K := ⟨nd', buf', fr, fun k => sumOthers g.N fr k⟩
    have hupd : ∀ k : Fin n, ∃ nd'', (match w.ups k with
        | none => nd'' = v.node k
        | some f => tiUpdate g (U.rows k) (U.started k) (y k) w.t k f (v.node k) (v.eta k) = .ok nd'') ∧
        TIAlive g m nd'' := by
      intro k
      have hu := hu k k.isLt
      revert hu
      cases w.ups k with
      | none => intro _; exact ⟨_, rfl, h2 k⟩
      | some f =>
        intro hu
        obtain ⟨u1, u2, u3⟩ := hu rfl
        exact tiUpdate_total hN he hNs hfl (hr k) (fun hb => hgk hb k) (hy k) (hfloor k) u1 hsm u2 u3 f (h2 k)
          (by simp [v, sumOthers])
    choose nd'' h3 h4 using hupd
    let b : TIView n K := ⟨nd'', v.buf, v.frame, v.eta⟩
    have hstep : DirectStep g U y w a b := by
      refine ⟨v, ?_, rfl, rfl, rfl, h3⟩
      rw [hx, if_pos rfl]
      exact fun k => ⟨h1 k, rfl, rfl⟩
    obtain ⟨c, hc, hc'⟩ := ih (fun w hw => hws w (List.mem_cons_of_mem _ hw)) b h4
    exact ⟨c, .cons hstep hc, hc'⟩

end
end Danse
