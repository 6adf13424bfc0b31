import Verif.Proofs.Online9
import Verif.Props.Online

/-!
# Property C77: which filters and frames are used when
-/

namespace Danse
section
variable {K : Type} [Field K] [StarRing K] [DecidableEq K] {g : GivenCfg K}
  {y : Nat → List (List K)}

/-- C77 (a): with given filters, a run with `n` updates of node `k` uses exactly the rows `1 .. n` of
its node-specific filters (row `i` at the `i`-th update) and the rows `0 .. n` of its broadcast filters
(row `i` between the `i`-th and the next update): changing any other row changes nothing, not even
which error is raised. Applied to every prefix of a schedule, this says which row an event uses. -/
theorem C77_rows {f : GivenCfg K} (hcfg : f = { g with
      wInt := f.wInt, wExt := f.wExt, wLoc := f.wLoc, rot := f.rot }) {evs : List (ℚ × Nat × EvType)}
    (hint : ∀ k i, 1 ≤ i → i ≤ evUps evs k → f.wInt k i = g.wInt k i ∧ f.wLoc k i = g.wLoc k i)
    (hrot : ∀ k i, i < evUps evs k → f.rot k i = g.rot k i)
    (hext : ∀ k i, i ≤ evUps evs k → f.wExt k i = g.wExt k i) (N r T : Nat) (M : Nat → Nat) :
    f.run y (.init N r T M) evs = g.run y (.init N r T M) evs := by
  have h0 : ∀ k, (GivenSt.init N r T M : GivenSt K).net.it k = 0 := fun _ => rfl
  refine run_rows evs ⟨hcfg, fun k i a b => (hint k i ?_ ?_).1, fun k i a b => (hint k i ?_ ?_).2,
    fun k i a b => hrot k i ?_, fun k i a b => hext k i ?_⟩ <;> rw [h0] at a b <;> omega

/-- C77 (b): when the filters are computed during the run, the rows written at the `i`-th update of
node `k` are those computed from its first `i` observations, row 0 stays as it was initialised, and the
run is the same as with these filters given from the start: filters take effect in the output of the
update that computes them and in the broadcasts that follow it, not earlier and not later. -/
theorem C77_written {U : Strategy K} {T : Nat} {M : Nat → Nat} {evs : List (ℚ × Nat × EvType)}
    {a : AdaptSt K} (h : adaptRun U y (.init g T M) evs = .ok a) :
    (∀ k i, 1 ≤ i → i ≤ evUps evs k →
      a.cfg.wInt k i = (U.rows k ((a.hist k).take i)).int ∧
      a.cfg.wExt k i = (U.rows k ((a.hist k).take i)).ext ∧
      a.cfg.wLoc k i = (U.rows k ((a.hist k).take i)).loc ∧
      a.cfg.rot k (i - 1) = U.rot k ((a.hist k).take i)) ∧
    (∀ k, a.cfg.wInt k 0 = g.wInt k 0 ∧ a.cfg.wExt k 0 = g.wExt k 0 ∧ a.cfg.wLoc k 0 = g.wLoc k 0) ∧
    a.cfg.run y (.init g.N g.refSensor T M) evs = .ok a.st := by
  obtain ⟨w, hr⟩ := adaptRun_written (fun _ => rfl) evs h
  refine ⟨fun k i h1 h2 => ?_, fun k => w.old k 0 (.inl rfl), hr⟩
  obtain ⟨j, rfl⟩ : ∃ j, i = j + 1 := ⟨i - 1, by omega⟩
  exact w.rows k j (by omega)

/-- C77 (c): the observations of node `k` are one per update of it, in order; they hold the time of the
update, the frames of its own sensors that end at the frame end of that time, and the flags that the
buffers got; the last one holds the frames of the neighbours as they are in the final state. -/
theorem C77_observed {U : Strategy K} {T : Nat} {M : Nat → Nat} {evs : List (ℚ × Nat × EvType)}
    {a : AdaptSt K} (h : adaptRun U y (.init g T M) evs = .ok a) (k : Nat) :
    (a.hist k).map (·.t) = upTimes evs k ∧ (a.hist k).map (·.flags) = a.st.net.flags k ∧
    (∀ o, (a.hist k).getLast? = some o → o.z = a.st.net.z k) ∧
    ∀ o ∈ a.hist k, ∃ fr, ((y k).mapM fun ch => localChunk ch g.N
      (frameEnd g.bc g.N g.Ns o.t (g.fs k))) = .ok fr ∧ o.loc = fr.map (·.1) := by
  have w := adaptRun_observed (fun _ => rfl) evs h
  exact ⟨w.times k, w.flags k, w.last k, w.loc k⟩

/-- C30 (e): filtered speech and noise add up to the filtered mixture also for a run that computes its
filters and phase factors from the mixture: the re-runs use the filters and phase factors it ended
with. -/
theorem C30_adaptive {U : Strategy K} {L : Nat} {eff : Bool} (hb : g.bc = .few L eff)
    {ys yn : Nat → List (List K)} (hy : ∀ k, SumsM (ys k) (yn k) (y k)) {T : Nat} {M : Nat → Nat}
    {evs : List (ℚ × Nat × EvType)} {a : AdaptSt K} (h : adaptRun U y (.init g T M) evs = .ok a)
    {s n : GivenSt K} (hs : a.cfg.run ys (.init g.N g.refSensor T M) evs = .ok s)
    (hn : a.cfg.run yn (.init g.N g.refSensor T M) evs = .ok n) (k : Nat) :
    Sums (s.d k) (n.d k) (a.st.d k) ∧ Sums (s.dLoc k) (n.dLoc k) (a.st.dLoc k) := by
  obtain ⟨w, hr⟩ := adaptRun_written (fun _ => rfl) evs h
  have hF : a.cfg.bc = .few L eff := by rw [w.fixed.parts.1]; exact hb
  obtain ⟨m, hm, hh⟩ := C30_additive hF hy g.N g.refSensor T M evs hs hn
  have hr' : a.cfg.run y (.init g.N g.refSensor T M) evs = .ok a.st := hr
  rw [hr'] at hm
  injection hm with hm
  subst hm
  exact hh k

end

/-- A run to which these theorems apply: node 0 has three updates; its filter rows are computed from
what it observed, row 0 is the initial one, and its frames of the neighbour are not silent. -/
example : letI : StarRing ℚ := starRingOfComm
    let r := adaptRun exStrategy (exReg 1) (.init (exPair false []) 5 fun _ => 1) exRegEvs
    (r.toOption.map fun a => (List.range 4).map (a.cfg.wInt 0)) =
      some [[], [[0, 7], [1, 1]], [[0, 12], [1, 1]], [[0, 15], [1, 1]]] ∧
    (r.toOption.map fun a => (a.hist 0).map (·.t)) = some [2, 3, 4] ∧
    (r.toOption.map fun a => (a.hist 0).map (·.z)) = some [[[0, 2]], [[2, 3]], [[3, 4]]] ∧
    (r.toOption.map fun a => (a.hist 0).map (·.loc)) = some [[[3, 1]], [[1, 4]], [[4, 1]]] := by
  decide +kernel

end Danse
