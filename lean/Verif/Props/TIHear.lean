import Verif.Proofs.TIRun13

/-!
# C83: what the nodes of a TI-DANSE network hear of each other
-/

set_option linter.unusedSectionVars false

namespace Danse
section
variable {n : Nat} {K : Type} [Field K] [StarRing K] [DecidableEq K] {g : GivenCfg K} {U : TIStrategy n K}
  {fs : ℚ} {m : Nat} {y : Fin n → List (List K)}

/-- C83 (a): few-sample broadcasts of `Ns` samples; each node sends its reference sensor (its filter for
the broadcasts is still the initial one, or it has one sensor and does not fuse). Whatever the network and
its trees, at each update `i` every node takes into account the last `N` samples of its own sensors and the
sum of the last `N` samples of the reference sensors of all the others, up to the same sample `i * Ns`. The
list is the whole history of the node: one entry for each update, none missing. -/
theorem C83_few (hg : SyncTI g fs m y) (hb : g.bc = .few g.Ns false) {x : Fin n → List K}
    (hx : ∀ q, (y q)[g.refSensor]? = some (x q))
    (hkeep : ∀ q, (g.noFusion = true ∧ (y q).length = 1) ∨
      ∀ t ∈ syncBc g.bc g.N g.Ns m fs, |t| < g.upTDEvery)
    {nbs : List (List Nat)} (hn : nbs.length = n)
    {seq keep sim : Bool} {r start : Nat} {minF : Int} (hr : sim = true → r < n) (hstart : start < n)
    {ordOf : Nat → List Level} {treeOf : Nat → TreeObj n} (hT : ∀ k < n, OrientedTree (treeOf k) (ordOf k))
    {out : List (Instant ℚ)} {fsInf : List ℚ} {trees : List (TreeObj n)}
    (h : initEventsTI g.bc g.N g.Ns seq keep sim r start minF (syncNodes fs m nbs) ordOf treeOf =
      .ok (out, fsInf, trees))
    {T : Nat} {ext : Fin n → List (List K)} {up0 : Fin n → List (Fin n)} {s : TISt n K}
    (hs : tiRun g U y trees (.init g.N g.refSensor T y ext up0) out = .ok s) (k : Fin n) :
    (s.node k).hist.map TIObs.seen =
      (List.range ((m - 1) / g.Ns - ⌈(g.N : ℚ) / g.Ns⌉₊)).map fun (j : Nat) =>
        let i := ⌈(g.N : ℚ) / g.Ns⌉₊ + j
        observedAt g.N g.Ns fs y x k i (i * g.Ns) (i * g.Ns) := by
  have hd := (C82_run (U := U) hg hn hr hstart hT h T ext up0).1 s hs
  have hue : ∀ t ∈ syncUpTI g.bc g.N g.Ns m fs, t ∈ syncBc g.bc g.N g.Ns m fs := by
    rw [hb]
    refine everySep_subset ?_
    rw [Nat.one_le_iff_ne_zero, ← Nat.pos_iff_ne_zero, Nat.ceil_pos]
    have h1 : (0 : ℚ) < g.N := by have := hg.overlap; exact_mod_cast (by omega : 0 < g.N)
    have h2 : (0 : ℚ) < g.Ns := by exact_mod_cast hg.shift
    positivity
  obtain ⟨w1, w2⟩ := sync_works hg hn hr hstart hT h hue
  exact few_history hg hb hx hkeep w1 w2 hd k

/-- C83 (b): whole-chunk broadcasts with frames of two hops and the same analysis and synthesis window;
the fusion vector of each node `q` selects its sensor `ref q`. From the first update on the distortion of
the first chunk has left the frames: at each update `i` every node takes into account the `N` samples of its
own sensors and the sum of the `N` samples of the selected sensors of all the others, up to the same sample
`(i - 1) * Ns`, unaltered by windowing, transforms and overlap-add. -/
theorem C83_whole [CharZero K] (hg : SyncTI g fs m y) (hb : g.bc = .whole) (hN : g.N = 2 * g.Ns)
    (r : DftRoot g.ζ g.N) (hc : g.c ≠ 0) (hcr : star g.c = g.c) (hh : IsReal g.h) (hhl : g.h.length = g.N)
    (hfh : g.f = g.h) (hwin : ∀ j < g.Ns, at0 g.h (g.Ns + j) ^ 2 + at0 g.h j ^ 2 ≠ 0)
    {ref : Fin n → Nat} {x : Fin n → List K} (hx : ∀ q, (y q)[ref q]? = some (x q)) (hxr : ∀ q, IsReal (x q))
    (hsee : ∀ q i, WindowSees g.h (x q) g.Ns i) {ext : Fin n → List (List K)}
    (hsel0 : ∀ q, tiFilter (y q).length (ext q) false = .ok (selector (y q).length (ref q) (g.N / 2 + 1)))
    (hsel : ∀ q hist, tiFilter (y q).length (U.rows q hist).ext (U.started q hist) =
      .ok (selector (y q).length (ref q) (g.N / 2 + 1)))
    {nbs : List (List Nat)} (hn : nbs.length = n)
    {seq keep sim : Bool} {ri start : Nat} {minF : Int} (hr : sim = true → ri < n) (hstart : start < n)
    {ordOf : Nat → List Level} {treeOf : Nat → TreeObj n} (hT : ∀ k < n, OrientedTree (treeOf k) (ordOf k))
    {out : List (Instant ℚ)} {fsInf : List ℚ} {trees : List (TreeObj n)}
    (h : initEventsTI g.bc g.N g.Ns seq keep sim ri start minF (syncNodes fs m nbs) ordOf treeOf =
      .ok (out, fsInf, trees))
    {T : Nat} {up0 : Fin n → List (Fin n)} {s : TISt n K}
    (hs : tiRun g U y trees (.init g.N g.refSensor T y ext up0) out = .ok s) (k : Fin n) :
    (s.node k).hist.map TIObs.seen =
      (List.range ((m - 1) / g.Ns - 4)).map fun (j : Nat) =>
        observedAt g.N g.Ns fs y x k (4 + j) ((4 + j - 1) * g.Ns) ((4 + j - 1) * g.Ns) := by
  have hd := (C82_run (U := U) hg hn hr hstart hT h T ext up0).1 s hs
  have hue : ∀ t ∈ syncUpTI g.bc g.N g.Ns m fs, t ∈ syncBc g.bc g.N g.Ns m fs := by
    rw [hb]
    refine everySep_subset ?_
    have h2 : (0 : ℚ) < g.Ns := by exact_mod_cast hg.shift
    have h1 : ((g.N / g.Ns : Nat) : ℚ) ≤ ((2 * g.N : Nat) : ℚ) / g.Ns := by
      refine le_trans Nat.cast_div_le ?_
      gcongr
      omega
    exact_mod_cast le_trans h1 (Nat.le_ceil _)
  obtain ⟨w1, w2⟩ := sync_works hg hn hr hstart hT h hue
  exact whole_history hg hb hN r hc hcr hh hhl hfh hwin hx hxr hsee w1 w2 hsel0 hsel hd k

end

/-! ## Concrete cases: the four nodes of `TISched` -/

section
local instance : StarRing ℚ := starRingOfComm

/-- Single-sensor nodes that do not fuse. -/
def exHear : GivenCfg ℚ := { exTI (.few 1 false) with noFusion := true }

theorem exHear_sync : SyncTI exHear 1 7 exTISig :=
  ⟨by decide, by decide, by decide, (by intro h; cases h), (by intro L eff h; cases h; decide), by decide,
    by decide_cbv, fun _ => rfl, by decide, by decide_cbv, by decide_cbv⟩

/-- `C83_few` applies. -/
example {out : List (Instant ℚ)} {f : List ℚ} {tr : List (TreeObj 4)}
    (h : initEventsTI (.few 1 false) 2 1 true false false 0 0 1 (syncNodes 1 7 [[], [], [], []])
      (fun r => (exTITree 0 r).2) (fun r => (exTITree 0 r).1) = .ok (out, f, tr)) {s : TISt 4 ℚ}
    (hs : tiRun exHear exTIStrategy exTISig tr
      (.init 2 0 7 exTISig (fun _ => [[1, 1], [0, 0]]) (fun _ => [])) out = .ok s) (k : Fin 4) :=
  C83_few exHear_sync rfl (x := fun q => (exTISig q).getD 0 []) (fun q => rfl) (fun q => .inl ⟨rfl, rfl⟩)
    rfl (by simp) (by decide) (fun r _ => exTITree_ok 0 r) h hs k

/-- The second node, at its first update, has its samples 0 and 1 and the sums of the samples 0 and 1 of the
others. -/
example : observedAt 2 1 1 exTISig (fun q => (exTISig q).getD 0 []) 1 2 2 2 = (2, [[2, 7]], [5, 11]) := by
  decide +kernel

/-- Filters that change at every update; the fusion vector stays the same. -/
def exTISel : TIStrategy 4 ℚ :=
  { rows := fun k hist => ⟨[[1, 1], [1, 1]],
      [[(hist.length : ℚ) + k + 1, 1], [(hist.length : ℚ) + k + 1, 1]], [[1, 1]]⟩
    started := fun _ _ => true }

/-- `C83_whole` applies. -/
example {out : List (Instant ℚ)} {f : List ℚ} {tr : List (TreeObj 4)}
    (h : initEventsTI .whole 2 1 true false false 0 0 1 (syncNodes 1 7 [[], [], [], []])
      (fun r => (exTITree 0 r).2) (fun r => (exTITree 0 r).1) = .ok (out, f, tr)) {s : TISt 4 ℚ}
    (hs : tiRun (exTI .whole) exTISel exTISig tr
      (.init 2 0 7 exTISig (fun _ => [[1, 1], [0, 0]]) (fun _ => [])) out = .ok s) (k : Fin 4) :=
  C83_whole exTI_whole rfl rfl
    ⟨by decide, ⟨by decide +kernel, by
      intro l hl
      exact ((neg_one_pow_eq_one_iff_even (by norm_num)).mp hl).two_dvd⟩, by decide +kernel⟩
    (by decide +kernel) rfl (fun _ _ => rfl) rfl rfl (by decide +kernel) (ref := fun _ => 0)
    (x := fun q => (exTISig q).getD 0 []) (fun q => rfl) (fun _ _ _ => rfl) (fun q i => by
      by_cases hz : at0 ((exTISig q).getD 0 []) ((i + 1) * 1 + 0) = 0
      · right
        intro j hj
        have hj' : j < 1 := hj
        rw [show j = 0 by omega]
        exact hz
      · exact .inl ⟨0, by decide, by decide +kernel, hz⟩)
    (fun q => by revert q; decide +kernel) (fun q hist => by
      have h1 : (hist.length : ℚ) + ((q : Nat) : ℚ) + 1 ≠ 0 := by positivity
      simp [tiFilter, exTISel, exTISig, h1, selector, exTI, List.replicate])
    rfl (by simp) (by decide) (fun r _ => exTITree_ok 0 r) h hs k

/-- The runs of the examples end normally. -/
example : ((tiRun (exTI .whole) exTISel exTISig [(exTITree 0 0).1, (exTITree 0 1).1]
      (.init 2 0 7 exTISig (fun _ => [[1, 1], [0, 0]]) (fun _ => [])) exTIOut).toOption.map fun s =>
    ((s.node 1).hist.map TIObs.seen)) = some [(4, [[7, 1]], [11, 6]), (5, [[1, 8]], [6, 13])] := by
  decide +kernel

end
end Danse
