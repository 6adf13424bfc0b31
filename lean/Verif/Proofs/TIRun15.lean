import Verif.Proofs.TIRun14

/-!
# Helper lemmas: completion of TI-DANSE runs, and divisions by zero
-/

set_option linter.unusedSectionVars false

namespace Danse

theorem ups_false {i : Instant ℚ} {k : Nat} (h : (workOf i).ups k = some false) : k ∈ performedAt i := by
  unfold workOf at h
  simp only [Option.map_eq_some_iff] at h
  obtain ⟨e, he, hb⟩ := h
  have h1 := List.find?_some he
  simp only [decide_eq_true_eq] at h1
  refine List.mem_map.mpr ⟨e, List.mem_filter.mpr ⟨List.mem_of_find?_eq_some he, ?_⟩, h1.2⟩
  simp [h1.1, hb]

section
variable {n : Nat} {K : Type} [Field K] [StarRing K] [DecidableEq K] {g : GivenCfg K} {U : TIStrategy n K}
  {fs : ℚ} {m : Nat} {y : Fin n → List (List K)}

/-- With sequential updating at most one node updates at a time. -/
theorem sync_one_updater (hg : SyncTI g fs m y) {nbs : List (List Nat)} (hn : nbs.length = n)
    {keep sim : Bool} {r start : Nat} {minF : Int} (hr : sim = true → r < n) (hstart : start < n)
    {ordOf : Nat → List Level} {treeOf : Nat → TreeObj n} (hT : ∀ k < n, OrientedTree (treeOf k) (ordOf k))
    {out : List (Instant ℚ)} {fsInf : List ℚ} {trees : List (TreeObj n)}
    (h : initEventsTI g.bc g.N g.Ns true keep sim r start minF (syncNodes fs m nbs) ordOf treeOf =
      .ok (out, fsInf, trees)) :
    ∀ w ∈ worksOf out, ∀ k q, w.ups k = some false → w.ups q = some false → k = q := by
  subst hn
  obtain ⟨out', tr, h1, h2, h3, h4⟩ := initEventsTI_sync (seq := true) (keep := keep) (sim := sim)
    (r := r) hg.shift (by have := hg.overlap; omega) hg.pos hg.rate hg.clock hg.whole hg.L_pos nbs minF hr hstart
    hg.exchange (fun _ _ => hg.update) ordOf treeOf
  rw [h] at h1
  injection h1 with h1
  injection h1 with e1 h1
  subst e1
  have hcov : ∀ o ∈ tr.2, CoversNodes nbs.length o := by
    have := orientedTrees_cover (treesOriented hT hstart tr.2.length)
    intro o ho
    rw [h4] at ho
    exact this o ho
  have hone := (C04_round_robin h2 rfl (fun _ => by simpa [tiArgs] using hcov)).1
  intro w hw k q hk hq
  obtain ⟨i, hi, rfl⟩ := List.mem_map.mp hw
  have := hone i (List.mem_filter.mp hi).1
  have h5 := ups_false hk
  have h6 := ups_false hq
  match hp : performedAt i with
  | [] => rw [hp] at h5; cases h5
  | [a] =>
    rw [hp, List.mem_singleton] at h5 h6
    rw [h5, h6]
  | a :: b :: l => rw [hp] at this; simp at this

theorem ceil_two_frames (hg : SyncTI g fs m y) {i : Nat} (hi : ⌈((2 * g.N : Nat) : ℚ) / g.Ns⌉₊ ≤ i) :
    2 * g.N ≤ i * g.Ns := by
  have h2 : (0 : ℚ) < g.Ns := by exact_mod_cast hg.shift
  have := Nat.ceil_le.mp hi
  rw [div_le_iff₀ h2] at this
  exact_mod_cast this

theorem ceil_frame (hg : SyncTI g fs m y) {i : Nat} (hi : ⌈(g.N : ℚ) / g.Ns⌉₊ ≤ i) :
    g.N ≤ i * g.Ns := by
  have h2 : (0 : ℚ) < g.Ns := by exact_mod_cast hg.shift
  have := Nat.ceil_le.mp hi
  rw [div_le_iff₀ h2] at this
  exact_mod_cast this

/-- The updates are at times of exchanges. -/
theorem sync_up_bc (hg : SyncTI g fs m y) (hL : ∀ L eff, g.bc = .few L eff → L = g.Ns) :
    ∃ a A, 0 < a ∧ a ≤ A ∧ syncBc g.bc g.N g.Ns m fs = everySep g.Ns fs a ((m - 1) / g.Ns) ∧
      syncUpTI g.bc g.N g.Ns m fs = everySep g.Ns fs A ((m - 1) / g.Ns) ∧
      ∀ i, A ≤ i → (g.bc = .whole → g.N - g.Ns ≤ i * g.Ns) ∧ g.Ns ≤ updEnd g (i * g.Ns) := by
  have h2 : (0 : ℚ) < g.Ns := by exact_mod_cast hg.shift
  have hN0 : 0 < g.Ns := hg.shift
  have hNo := hg.overlap
  cases hb : g.bc with
  | whole =>
    refine ⟨g.N / g.Ns, ⌈((2 * g.N : Nat) : ℚ) / g.Ns⌉₊, Nat.div_pos hNo.le hN0, ?_, rfl, rfl, ?_⟩
    · have h1 : ((g.N / g.Ns : Nat) : ℚ) ≤ ((2 * g.N : Nat) : ℚ) / g.Ns := by
        refine le_trans Nat.cast_div_le ?_
        gcongr
        omega
      exact_mod_cast le_trans h1 (Nat.le_ceil _)
    · intro i hi
      have := ceil_two_frames hg hi
      unfold updEnd
      rw [hb]
      simp only
      generalize i * g.Ns = s at *
      omega
  | few L eff =>
    obtain rfl := hL L eff hb
    refine ⟨1, ⌈(g.N : ℚ) / g.Ns⌉₊, one_pos, ?_, rfl, rfl, ?_⟩
    · rw [Nat.one_le_iff_ne_zero, ← Nat.pos_iff_ne_zero, Nat.ceil_pos]
      have h1 : (0 : ℚ) < g.N := by exact_mod_cast (by omega : 0 < g.N)
      positivity
    · intro i hi
      have := ceil_frame hg hi
      unfold updEnd
      rw [hb]
      simp only
      generalize i * g.Ns = s at *
      refine ⟨?_, by omega⟩
      intro h
      cases h

theorem sync_workOk (hg : SyncTI g fs m y) (hL : ∀ L eff, g.bc = .few L eff → L = g.Ns) {ws : List Work}
    (hws : ws.map (·.t) = syncBc g.bc g.N g.Ns m fs)
    (hw : ∀ w ∈ ws, w.exchange = true ∧ ∀ k, (w.ups k).isSome = true ↔ k < n ∧ w.t ∈ syncUpTI g.bc g.N g.Ns m fs) :
    ∀ w ∈ ws, WorkOk n g fs m w := by
  obtain ⟨a, A, ha, haA, e1, e2, he⟩ := sync_up_bc hg hL
  intro w hwm
  obtain ⟨h1, h2⟩ := hw w hwm
  have ht : w.t ∈ syncBc g.bc g.N g.Ns m fs := by rw [← hws]; exact List.mem_map_of_mem hwm
  rw [e1] at ht
  obtain ⟨j, hj, ht⟩ := List.mem_map.mp ht
  have hj' := List.mem_range.mp hj
  refine ⟨h1, (a + j) * g.Ns, ?_, (mul_lt_of_lt_div hg.pos hg.shift (by omega)).le, ?_⟩
  · rw [← ht, div_mul_cancel₀ _ hg.rate.ne']
    push_cast
    ring
  · intro k hk hs
    have := ((h2 k).mp hs).2
    rw [← ht, e2, mem_everySep hg.shift hg.rate] at this
    obtain ⟨h3, h4⟩ := he _ this.1
    exact ⟨h3, lt_of_lt_of_le hg.shift h4, fun _ => h4⟩

/-- A fusion with a zero in the filter of the in-network sum. -/
theorem tiFuse_nan (hb : g.bc = .whole) {yk : List (List K)} {t : ℚ} {k : Nat} {nd : TINode K} {buf : List K}
    (hy : ∀ ch ∈ yk, 0 ≤ ⌊t * g.fs k⌋ ∧ ⌊t * g.fs k⌋ ≤ ch.length) (hst : nd.started = true)
    (h0 : (0 : K) ∈ nd.ext.getLastD []) : tiFuse g yk t k nd buf = .error .nan := by
  unfold tiFuse
  obtain ⟨fr, hfr, hf⟩ := mapM_ok_of_forall (l := yk) (f := fun ch => chunkForBroadcast ch t (g.fs k) g.N)
    (P := fun _ a => True) (fun x hx => by
      obtain ⟨h1, h2⟩ := hy x hx
      obtain ⟨c, hc, hl⟩ := localChunk_ok (N := g.N) h1 h2
      exact ⟨_, hc, trivial⟩)
  have h3 := fuse_frames hy hfr
  rw [hfr]
  simp only [bind, Except.bind]
  rw [if_neg (by
    simp only [List.any_eq_true, decide_eq_true_eq, not_exists, not_and, not_lt]
    exact fun x hx => (h3 x hx).ge), hb]
  simp only
  have hp : tiFilter yk.length nd.ext nd.started = .error .nan := by
    unfold tiFilter
    rw [if_pos hst]
    simp only
    rw [if_pos]
    rw [List.any_eq_true]
    exact ⟨0, h0, by simp⟩
  rw [hp]

end
end Danse
