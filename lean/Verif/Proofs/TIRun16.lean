import Verif.Proofs.TIRun15
import Verif.Proofs.Total3

/-!
# Helper lemmas: sequential TI-DANSE with initial filters without weight for the sum
-/

set_option linter.unusedSectionVars false

namespace Danse
section
variable {n : Nat} {K : Type} [Field K] [StarRing K] [DecidableEq K] {g : GivenCfg K} {U : TIStrategy n K}
  {fs : ℚ} {m : Nat} {y : Fin n → List (List K)}

theorem direct_nan (hg : SyncTI g fs m y) (hb : g.bc = .whole) (hn : 2 ≤ n) {ext : Fin n → List (List K)}
    (h0 : ∀ k, (0 : K) ∈ (ext k).getLastD []) {j : Nat} (hj0 : 0 < j)
    (hj : j < (syncUpTI g.bc g.N g.Ns m fs).length)
    (hstart : ∀ k hist, U.started k hist = decide (j ≤ hist.length))
    (hkeep : ∀ k hist, hist.length < j ∨ (hist.length = j ∧ ∃ o, hist.getLast? = some o ∧ o.bypass = true) →
      (U.rows k hist).ext = ext k)
    {ws : List Work} (hws : ws.map (·.t) = syncBc g.bc g.N g.Ns m fs)
    (hw : ∀ w ∈ ws, w.exchange = true ∧ ∀ k, (w.ups k).isSome = true ↔ k < n ∧ w.t ∈ syncUpTI g.bc g.N g.Ns m fs)
    (hone : ∀ w ∈ ws, ∀ k q, w.ups k = some false → w.ups q = some false → k = q)
    {T : Nat} {b : TIView n K} : ¬ DirectRun g U y (.init g.N g.refSensor T y ext) ws b := by
  intro h
  obtain ⟨a, A, ha, haA, e1, e2, he⟩ := sync_up_bc hg (by rw [hb]; intro L eff h; cases h)
  have hmid := hg.within
  rw [e2, everySep_length] at hj
  rw [e1] at hws hmid
  rw [e2] at hw
  generalize hB : (m - 1) / g.Ns = B at *
  have hlen : ws.length = B - a := by
    have := congrArg List.length hws
    simpa [everySep] using this
  have key := directRun_inv (g := g) (U := U) (y := y) (fun i v =>
      (a + i - A < j → ∀ k, (v.node k).hist.length = a + i - A ∧ (v.node k).ext = ext k) ∧
      (a + i - A = j → ∃ k, (v.node k).started = true ∧ (v.node k).ext = ext k) ∧
      (j < a + i - A → False))
    (j := 0) (ws := ws) (a := .init g.N g.refSensor T y ext) (b := b) ?_ ?_ h
  · refine key.2.2 ?_
    rw [hlen]
    omega
  · refine ⟨fun _ k => ⟨?_, rfl⟩, fun h => by omega, fun h => by omega⟩
    show 0 = _
    omega
  · intro i w v b hiw hP hd
    rw [Nat.zero_add] at hP ⊢
    obtain ⟨p1, p2, p3⟩ := hP
    have hil : i < ws.length := (List.getElem?_eq_some_iff.mp hiw).1
    have hwm : w ∈ ws := List.mem_of_getElem? hiw
    have hwt : w.t = ((a + i : Nat) : ℚ) * g.Ns / fs := by
      have h1 : (ws.map (·.t))[i]? = some w.t := by rw [List.getElem?_map, hiw]; rfl
      rw [hws] at h1
      unfold everySep at h1
      rw [List.getElem?_map, List.getElem?_range (by omega)] at h1
      injection h1 with h1
      exact h1.symm
    have hwb : w.t ∈ everySep g.Ns fs a B := by rw [← hws]; exact List.mem_map_of_mem hwm
    have hin := hmid w.t hwb
    obtain ⟨u, hex, hupd⟩ := hd
    obtain ⟨hw1, hw2⟩ := hw w hwm
    rw [hw1, if_pos rfl] at hex
    have hem := mul_lt_of_lt_div hg.pos hg.shift (j := a + i) (by omega)
    have hnode : ∀ q : Fin n, u.node q = v.node q := by
      intro q
      exact (tiFuse_whole (e := (a + i) * g.Ns) (m := m) hb (hg.signals q) (by
        rw [hg.rates, hwt, floor_everySep hg.rate]) hem.le (hex q).1).1
    have hu : ∀ k : Fin n, (w.ups k).isSome = true ↔ A ≤ a + i := by
      intro k
      rw [hw2, hwt, mem_everySep hg.shift hg.rate]
      have := k.isLt
      omega
    have hnd := hupd.2.2.2
    have hstep : ∀ (k : Fin n) f, w.ups k = some f → ∃ o : TIObs K, o.bypass = f ∧
        (b.node k).hist = (v.node k).hist ++ [o] ∧ (b.node k).ext = (U.rows k (b.node k).hist).ext ∧
        (b.node k).started = U.started k (b.node k).hist := by
      intro k f hk
      have := hnd k
      rw [hk] at this
      simp only at this
      obtain ⟨loc, _, t1, _, _, t2, t3⟩ := tiUpdate_inv this
      rw [hnode] at t1
      exact ⟨_, rfl, t1, t2, t3⟩
    refine ⟨?_, ?_, ?_⟩
    · intro hlt k
      obtain ⟨q1, q2⟩ := p1 (by omega) k
      cases hk : w.ups k with
      | none =>
        have h3 := hnd k
        rw [hk] at h3
        simp only at h3
        rw [h3, hnode]
        have : ¬ A ≤ a + i := by rw [← hu k, hk]; simp
        exact ⟨by rw [q1]; omega, q2⟩
      | some f =>
        have : A ≤ a + i := by rw [← hu k, hk]; rfl
        obtain ⟨o, _, t1, t2, _⟩ := hstep k f hk
        have hl : (b.node k).hist.length = a + (i + 1) - A := by
          rw [t1, List.length_append, q1, List.length_singleton]; omega
        exact ⟨hl, by rw [t2]; exact hkeep k _ (.inl (by rw [hl]; exact hlt))⟩
    · intro heq
      have hAi : A ≤ a + i := by omega
      have hbyp : ∃ k : Fin n, w.ups k = some true := by
        have hs0 := (hu ⟨0, by omega⟩).mpr hAi
        have hs1 := (hu ⟨1, by omega⟩).mpr hAi
        obtain ⟨f0, hf0⟩ := Option.isSome_iff_exists.mp hs0
        obtain ⟨f1, hf1⟩ := Option.isSome_iff_exists.mp hs1
        cases f0 with
        | true => exact ⟨_, hf0⟩
        | false =>
          cases f1 with
          | true => exact ⟨_, hf1⟩
          | false =>
            have := hone w hwm _ _ hf0 hf1
            simp at this
      obtain ⟨k, hk⟩ := hbyp
      obtain ⟨q1, q2⟩ := p1 (by omega) k
      obtain ⟨o, ho, t1, t2, t3⟩ := hstep k true hk
      have hl : (b.node k).hist.length = j := by
        rw [t1, List.length_append, q1, List.length_singleton]; omega
      refine ⟨k, ?_, ?_⟩
      · rw [t3, hstart, hl]
        simp
      · rw [t2]
        exact hkeep k _ (.inr ⟨hl, o, by rw [t1]; simp, ho⟩)
    · intro hlt
      by_cases hc : a + i - A = j
      · obtain ⟨k, k1, k2⟩ := p2 hc
        have := (hex k).1
        rw [tiFuse_nan hb (hin k) k1 (by rw [k2]; exact h0 k)] at this
        cases this
      · exact p3 (by omega)

end
end Danse
