import Verif.Proofs.TIRun16
import Verif.Proofs.TIRun18

/-!
# Helper lemmas: TI-DANSE runs with efficient few-sample broadcasts end normally
-/

set_option linter.unusedSectionVars false

namespace Danse
section
variable {n : Nat} {K : Type} [Field K] [StarRing K] [DecidableEq K] {g : GivenCfg K} {U : TIStrategy n K}
  {fs : ℚ} {m : Nat} {y : Fin n → List (List K)}

theorem tiFuse_total_eff (hN : 0 < g.N) (he : 2 ∣ g.N) {L : Nat} (hb : g.bc = .few L true)
    {yk : List (List K)} {t : ℚ} {k l : Nat}
    {nd : TINode K} (ha : TIAlive g m nd) (buf : List K)
    (hl : bufferSizeEff (g.stamps k) nd.lastBc t L = .ok l) (hlN : l ≤ 2 * g.N - 1)
    (h0 : 0 ≤ ⌊t * g.fs k⌋) (h1 : ∀ ch ∈ yk, ⌊t * g.fs k⌋ ≤ ch.length) :
    ∃ nd' buf', tiFuse g yk t k nd buf = .ok (nd', buf') ∧ TIAlive g m nd' ∧ nd'.lastBc = t := by
  obtain ⟨fr, hfr, hfl⟩ := mapM_chunk (N := g.N) h0 h1
  unfold tiFuse
  have hfr' : (yk.mapM fun ch => chunkForBroadcast ch t (g.fs k) g.N) = .ok fr := hfr
  rw [hfr']
  simp only [bind, Except.bind]
  rw [if_neg (by
    simp only [List.any_eq_true, decide_eq_true_eq, not_exists, not_and, not_lt]
    intro x hx
    rw [hfl x hx])]
  rw [hb]
  simp only [tiCurrL, if_true]
  rw [hl]
  have hf : ∃ w, tiBcFilter g yk.length nd t = .ok w ∧ ∀ a ∈ w, a.length = 2 * g.N - 1 := by
    unfold tiBcFilter
    by_cases hc : |t - nd.lastUp| ≥ g.upTDEvery ∧ ¬ (g.noFusion = true ∧ yk.length = 1)
    · rw [if_pos hc]
      exact distFct_ok hN he ha.ext _ _ _
    · rw [if_neg hc]
      exact ⟨_, rfl, ha.wIR⟩
  obtain ⟨w, hw, hwl⟩ := hf
  have hz := C34_few_samples (L := l) (P := 2 * g.N - 1) (wIR := w) (yq := fr.map (·.1)) hlN hwl (by
    intro b hb'
    obtain ⟨x, hx, rfl⟩ := List.mem_map.mp hb'
    rw [hfl x hx]; exact hN)
  rw [hw]
  simp only
  rw [hz]
  refine ⟨_, _, rfl, ⟨hwl, ha.d, ha.dLoc, ha.ext, ?_⟩, rfl⟩
  intro h
  rw [hb] at h
  cases h

theorem direct_total_eff {L : Nat} (hg : SyncTIEff g fs m L y) (he : 2 ∣ g.N) (hfl : g.f.length = g.N)
    (hr : ∀ k hist, BinsOk g.N (U.rows k hist).int ∧ BinsOk g.N (U.rows k hist).ext ∧ BinsOk g.N (U.rows k hist).loc) :
    ∀ (ws : List Work) (i p : Nat), (∀ j (h : j < ws.length), (ws[j]).t = (((i + j) * g.Ns : Nat) : ℚ) / fs) →
      (∀ w ∈ ws, w.exchange = true) → i + ws.length ≤ (m - 1) / g.Ns → g.N ≤ i * g.Ns → p ≤ i * g.Ns → L ∣ p →
      i * g.Ns - p ≤ 2 * g.N - 1 →
      ∀ a : TIView n K, (∀ k, TIAlive g m (a.node k) ∧ (a.node k).lastBc = ((p : Nat) : ℚ) / fs) →
      ∃ b, DirectRun g U y a ws b ∧ ∀ k, TIAlive g m (b.node k) := by
  have hNo := hg.overlap
  have hN0 := hg.shift
  intro ws
  induction ws with
  | nil => intro i p _ _ _ _ _ _ _ a ha; exact ⟨a, .nil a, fun k => (ha k).1⟩
  | cons w ws ih =>
    intro i p hws hx hlen hiN hp hLp hd a ha
    have hwt : w.t = ((i * g.Ns : Nat) : ℚ) / fs := hws 0 (by simp)
    have him : i * g.Ns < m := mul_lt_of_lt_div hg.pos hN0 (by rw [List.length_cons] at hlen; omega)
    have hfloor : ∀ k, ⌊w.t * g.fs k⌋ = ((i * g.Ns : Nat) : Int) := by
      intro k
      rw [hg.rates, hwt, div_mul_cancel₀ _ hg.rate.ne']
      exact Int.floor_natCast (R := ℚ) _
    have hue : updEnd g (i * g.Ns) = i * g.Ns := by unfold updEnd; rw [hg.bc]
    have hfuse := fun k : Fin n => tiFuse_total_eff (by omega) he hg.bc (yk := y k) (t := w.t) (k := k) (l := i * g.Ns - p)
      (ha k).1 (a.buf k) (by
        rw [hg.stamps, (ha k).2, hwt, bufferSizeEff_clock hg.L_pos hg.rate hp him
          (Nat.dvd_sub (hg.divides.mul_left _) hLp)]) hd
      (by rw [hfloor]; exact Int.natCast_nonneg _) (fun ch hch => by rw [hfloor, hg.signals k ch hch]; exact_mod_cast him.le)
    choose nd' buf' h1 h2 h2' using hfuse
    let fr := fun k => newFrame g.Ns a.frame buf' k
    let v : TIView n K := ⟨nd', buf', fr, fun k => sumOthers g.N fr k⟩
    have hupd : ∀ k : Fin n, ∃ nd'', (match w.ups k with
        | none => nd'' = v.node k
        | some f => tiUpdate g (U.rows k) (U.started k) (y k) w.t k f (v.node k) (v.eta k) = .ok nd'') ∧
        TIAlive g m nd'' ∧ nd''.lastBc = w.t := by
      intro k
      cases w.ups k with
      | none => exact ⟨_, rfl, h2 k, h2' k⟩
      | some f =>
        obtain ⟨x, hx1, hx2⟩ := tiUpdate_total (by omega) he hNo.le hfl (hr k) (started := U.started k)
          (by rw [hg.bc]; intro h; cases h) (hg.signals k) (hfloor k)
          (by rw [hg.bc]; intro h; cases h) him.le (by rw [hue]; omega) (fun _ => by rw [hue]; omega) f (h2 k)
          (eta := v.eta k) (by simp [v, sumOthers])
        exact ⟨x, hx1, hx2, by rw [tiUpdate_lastBc hx1]; exact h2' k⟩
    choose nd'' h3 h4 using hupd
    let b : TIView n K := ⟨nd'', v.buf, v.frame, v.eta⟩
    have hstep : DirectStep g U y w a b := by
      refine ⟨v, ?_, rfl, rfl, rfl, h3⟩
      rw [hx w (by simp), if_pos rfl]
      exact fun k => ⟨h1 k, rfl, rfl⟩
    have e1 : (i + 1) * g.Ns = i * g.Ns + g.Ns := by rw [Nat.add_mul, Nat.one_mul]
    obtain ⟨c, hc, hc'⟩ := ih (i + 1) (i * g.Ns) (fun j h => by
        have := hws (j + 1) (by rw [List.length_cons]; omega)
        rw [List.getElem_cons_succ] at this
        rw [this]
        congr 3
        omega)
      (fun w hw => hx w (List.mem_cons_of_mem _ hw)) (by rw [List.length_cons] at hlen; omega) (by omega) (by omega)
      (hg.divides.mul_left _) (by omega) b (fun k => ⟨(h4 k).1, by rw [(h4 k).2, hwt]⟩)
    exact ⟨c, .cons hstep hc, hc'⟩

end
end Danse
