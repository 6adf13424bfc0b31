import Verif.Proofs.DanseCentr3
import Verif.Props.Centr
import Verif.Proofs.Centr9

/-!
# Helper lemmas for C130: the frames of the two observations
-/

set_option linter.unusedSectionVars false

namespace Danse
section
variable {K : Type} [Field K] [StarRing K] [DecidableEq K] {C : CDanseCfg K} {y : Nat → List (List K)} {T : Nat}
  {evs : List (ℚ × Nat × EvType)} {a : CDanseSt C}

/-- The fields that a run does not change. -/
theorem fixed_fields {c : CentrCfg K} (hf : c.fixed C.base) : c.n = C.n ∧ c.centr = C.centr ∧ c.ssbc = C.ssbc ∧
    c.g.N = C.D.g.N ∧ c.g.Ns = C.D.g.Ns ∧ c.g.fs = C.D.g.fs ∧ c.g.bc = C.D.g.bc ∧ c.g.refSensor = C.D.g.refSensor ∧
    c.g.stamps = C.D.g.stamps := by
  unfold CentrCfg.fixed at hf
  refine ⟨?_, ?_, ?_, ?_, ?_, ?_, ?_, ?_, ?_⟩
  · have := congrArg (fun c : CentrCfg K => c.n) hf; exact this
  · have := congrArg (fun c : CentrCfg K => c.centr) hf; exact this
  · have := congrArg (fun c : CentrCfg K => c.ssbc) hf; exact this
  · exact congrArg (fun c => c.g.N) hf
  · exact congrArg (fun c => c.g.Ns) hf
  · exact congrArg (fun c => c.g.fs) hf
  · exact congrArg (fun c => c.g.bc) hf
  · exact congrArg (fun c => c.g.refSensor) hf
  · exact congrArg (fun c => c.g.stamps) hf

/-- The two observations at an update: blocks of frames, one per node. -/
theorem cdanse_blocks (hc : C.centr = true) (hN : 0 < C.D.g.N) (hM : ∀ q, (y q).length = C.D.M q)
    (hlen : ∀ q < C.n, ∀ x ∈ y q, C.D.g.N ≤ x.length)
    (hev : ∀ ev ∈ evs, ev.2.1 < C.n ∧ 0 ≤ ⌊ev.1 * C.D.g.fs ev.2.1⌋)
    (h : cdanseRun C y T evs = .ok a) {k i : Nat} (hk : k < C.n) {o : CObs K} (ho : (a.chist k)[i]? = some o)
    (he : 0 ≤ frameEnd C.D.g.bc C.D.g.N C.D.g.Ns o.t (C.D.g.fs k)) :
    ∃ f : Nat → List (List K), (∀ q, (f q).length = C.D.M q) ∧ o.yC = (List.range C.n).flatMap f ∧
      (C.ssbc = true → (∀ q < C.n, q ≠ k → 0 < C.D.M q) → o.yS = f k ++ (C.others k).map fun q => (f q).getD 0 []) := by
  obtain ⟨pre, post, b, rfl, -, hb, e1, e2, -⟩ := cdanse_at h ho
  have w := cdanseRun_inv _ hb
  obtain ⟨f1, f2, f3, f4, f5, f6, f7, f8, f9⟩ := fixed_fields w.fixed
  have hag := w.again
  rw [← f1, ← f4, ← f8, show C.D.M = fun q => (y q).length from funext fun q => (hM q).symm] at hag
  have hpre : ∀ ev ∈ pre, ev.2.1 < b.cfg.n ∧ 0 ≤ ⌊ev.1 * b.cfg.g.fs ev.2.1⌋ := by
    intro ev hm
    rw [f1, f6]
    exact hev ev (by simp [hm])
  obtain ⟨p, h1, h2⟩ := centr_observations (c := b.cfg) (f2.trans hc) (by rw [f4]; exact hN) (by rw [f1, f4]; exact hlen) hpre
    (by rw [f1]; exact hk) (by rw [f7, f4, f5, f6]; exact he) hag
  rw [← e1] at h1
  rw [← e2] at h2
  refine ⟨fun q => if q = k then (y k).map fun x =>
      frameBefore b.cfg.g.N x (frameEnd b.cfg.g.bc b.cfg.g.N b.cfg.g.Ns o.t (b.cfg.g.fs k)).toNat
    else (List.range (y q).length).map fun m => lastFrame b.cfg.g.N (rawSent b.cfg.g y pre q m), fun q => ?_, ?_, fun hs hpos => ?_⟩
  · simp only
    split
    · rename_i e; subst e; simp [hM]
    · simp [hM]
  · rw [h1, f1]
  · have := h2 (f3.trans hs) (by rw [f1]; intro q h3 h4; rw [hM]; exact hpos q h3 h4)
    rw [this]
    dsimp only
    rw [if_pos rfl]
    congr 1
    unfold centrSlots CDanseCfg.others
    rw [f1]
    apply List.map_congr_left
    intro q hq
    obtain ⟨h3, h4⟩ := List.mem_filter.mp hq
    have h4 : q ≠ k := by simpa using h4
    have h5 := hpos q (List.mem_range.mp h3) h4
    rw [if_neg h4, List.getD_eq_getElem?_getD, List.getElem?_map, List.getElem?_range (by rw [hM]; exact h5)]
    rfl

theorem upTimes_at {pre post : List (ℚ × Nat × EvType)} {t : ℚ} {k : Nat} :
    (upTimes (pre ++ (t, k, .up) :: post) k)[evUps pre k]? = some t := by
  rw [upTimes_append]
  have e : upTimes ((t, k, EvType.up) :: post) k = t :: upTimes post k := by simp [upTimes]
  rw [e, ← evUps_length, List.getElem?_append_right le_rfl]
  simp

theorem buildSsbc_prefix {n : Nat} {M : Nat → Nat} {k : Nat} {loc yc r : List (List K)}
    (h : buildSsbc n M k loc yc = .ok r) : loc <+: r := by
  unfold buildSsbc at h
  obtain ⟨r', h1, h⟩ := bind_ok_inv h
  injection h with h
  subst h
  have key : ∀ (l : List Nat) (acc r' : List (List K) × Nat), l.foldlM (fun (acc : List (List K) × Nat) q =>
      if q = k then (.ok acc : Except PyErr (List (List K) × Nat)) else do
        let col ← pyGet yc (nbSensorsBefore n M k acc.2)
        .ok (acc.1 ++ [col], acc.2 + 1)) acc = .ok r' → acc.1 <+: r'.1 := by
    intro l
    induction l with
    | nil => intro acc r' h; injection h with h; subst h; exact List.prefix_rfl
    | cons q l ih =>
      intro acc r' h
      rw [List.foldlM_cons] at h
      obtain ⟨a1, h2, h⟩ := bind_ok_inv h
      by_cases e : q = k
      · rw [if_pos e] at h2
        injection h2 with h2
        subst h2
        exact ih _ _ h
      · rw [if_neg e] at h2
        obtain ⟨col, _, h2⟩ := bind_ok_inv h2
        injection h2 with h2
        subst h2
        exact (List.prefix_append _ _).trans (ih _ _ h)
  exact key _ _ _ h1

/-- At the same update, the own frames of all the observations are the same. -/
theorem cdanse_loc (h : cdanseRun C y T evs = .ok a) {k i : Nat} {o : CObs K} (ho : (a.chist k)[i]? = some o)
    {o' : Obs K} (ho' : (a.hist k)[i]? = some o') :
    o'.t = o.t ∧ (C.ssbc = true → o'.loc <+: o.yS) := by
  obtain ⟨pre, post, b, rfl, hpre, hb, e1, e2, c, s, hf, hobs⟩ := cdanse_at h ho
  have w := cdanseRun_inv _ h
  obtain ⟨h1, -, -, h4⟩ := C77_observed (C117_instance w.base) k
  change List.map (·.t) (a.hist k) = _ at h1
  have ht : o'.t = o.t := by
    have h5 : ((a.hist k).map (·.t))[i]? = some o'.t := by rw [List.getElem?_map, ho']; rfl
    rw [h1, ← hpre, upTimes_at] at h5
    injection h5 with h5
    exact h5.symm
  refine ⟨ht, fun hs => ?_⟩
  obtain ⟨fr, h6, h7⟩ := h4 o' (List.mem_of_getElem? ho')
  obtain ⟨f1, f2, f3, f4, f5, f6, f7, f8, f9⟩ := fixed_fields hf
  unfold CentrCfg.observe at hobs
  obtain ⟨p, hp, hobs⟩ := bind_ok_inv hobs
  obtain ⟨loc, hloc, hobs⟩ := bind_ok_inv hobs
  obtain ⟨yS, hyS, hobs⟩ := bind_ok_inv hobs
  injection hobs with hobs
  have e : fr = loc := by
    have : (y k).mapM (fun ch => chunkForUpdate ch o.t (c.g.fs k) c.g.bc.name c.g.N c.g.Ns) = .ok fr := by
      rw [f4, f5, f6, f7]
      simp only [chunkForUpdate_frameEnd]
      rw [← ht]
      exact h6
    rw [hloc] at this
    injection this with this
    exact this.symm
  rw [f3, hs, whenOn, if_pos rfl] at hyS
  rw [h7, e, ← hobs]
  exact buildSsbc_prefix hyS

end
end Danse
