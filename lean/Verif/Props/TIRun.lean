import Verif.Proofs.TIRun7

/-!
# C81: an online TI-DANSE run computes, in any trees, what nodes that exchange their signals directly would
-/

set_option linter.unusedSectionVars false

namespace Danse
section
variable {n : Nat} {K : Type} [Field K] [StarRing K] [DecidableEq K] {g : GivenCfg K} {U : TIStrategy n K}
  {y : Fin n → List (List K)} {trees : List (TreeObj n)}

theorem OrientedTree.covers {T : TreeObj n} {lev : List Level} (h : OrientedTree T lev) :
    CoversNodes n lev := by
  obtain ⟨G, nbr, o, hG, hnb, ho, _, rfl⟩ := h
  exact (C21_ordering_covers hG hnb T.root (by omega) ho).1

theorem orientedTrees_cover {levs : List (List Level)} (h : List.Forall₂ OrientedTree trees levs) :
    ∀ o ∈ levs, CoversNodes n o := by
  induction h with
  | nil => simp
  | cons h1 _ ih =>
    intro o ho
    rcases List.mem_cons.mp ho with rfl | ho
    · exact h1.covers
    · exact ih o ho

/-- C81 (a): the run of the event schedule of `build_events_matrix` for trees that are replaced during
the run, with partial sums from the leaves to the root and relays from the root to the leaves, computes
what `DirectRun` describes, which knows no trees: at each exchange every node fuses its signals and obtains
the sum of the fused frames of all the others. This holds for the final state of any run that ends without
an error; and if `DirectRun` reaches a state, then the run ends without an error, in that state. -/
theorem C81_run {a : EvArgs ℚ} {ex : List ℚ} {out : List (Instant ℚ)} (ht : TITimes n a ex)
    (hb : buildEvents a = .ok out) (htr : List.Forall₂ OrientedTree trees a.orderings) (hNs : g.Ns < g.N)
    (hf : g.f.length = g.N) (hL : ∀ L eff, g.bc = .few L eff → eff = false ∧ g.Ns ≤ L)
    (hy : ∀ t ∈ ex, ∀ k, ∀ ch ∈ y k, 0 ≤ ⌊t * g.fs k⌋ ∧ ⌊t * g.fs k⌋ ≤ ch.length)
    (T : Nat) (ext : Fin n → List (List K)) (up0 : Fin n → List (Fin n)) :
    (∀ s, tiRun g U y trees (.init g.N g.refSensor T y ext up0) out = .ok s →
      DirectRun g U y (.init g.N g.refSensor T y ext) (worksOf out) s.view) ∧
    ∀ b, DirectRun g U y (.init g.N g.refSensor T y ext) (worksOf out) b →
      ∃ s, tiRun g U y trees (.init g.N g.refSensor T y ext up0) out = .ok s ∧ s.view = b := by
  have hcov := orientedTrees_cover htr
  have hcov' : ∀ o ∈ a.orderings, CoversNodes a.up_t.length o := by rw [ht.nodes]; exact hcov
  have hbuf : ∀ i ∈ out, (∃ e ∈ i.evs, e.ty = .fu) → ∀ (k : Fin n) nd buf r,
      tiFuse g (y k) i.t k nd buf = .ok r → g.Ns ≤ r.2.length := by
    rintro i hi ⟨e, he, hty⟩ k nd buf r hr
    have hm : (i.t, e.node, EvType.fu) ∈ delivered out := mem_delivered.mpr ⟨i, hi, rfl, e, he, rfl, hty⟩
    rw [(C01_exactly_once hb fun _ => hcov').2.2.2, scheduled_ex ht (by simp)] at hm
    exact tiFuse_length hNs.le hf (hy _ hm.2 k) hL hr
  have h := run_direct (U := U) htr hNs (built_instants ht hb rfl hcov)
    (s0 := TISt.init g.N g.refSensor T y ext up0)
    (fun pre i post ho he s _ k r hr => hbuf i (by rw [ho]; simp) he k _ _ r hr) (by simp [TISt.init]) rfl
  have hv : (TISt.init g.N g.refSensor T y ext up0).view = TIView.init g.N g.refSensor T y ext := rfl
  rw [hv] at h
  constructor
  · intro s hs
    exact (directRun_works _ _ _).mp (h.1 s hs).1
  · intro b hb
    exact h.2 b ((directRun_works _ _ _).mpr hb)

/-- C81 (b): TI-DANSE is topology-independent. Runs with the same signals and update, fusion, broadcast
and relay times but different trees, at different times, and different initial neighbours end both with
an error or both without; in the latter case the outputs, filters, observations, fused signals and
in-network sums are the same at every node. -/
theorem C81_topology {a : EvArgs ℚ} {ex : List ℚ} {tr : List (List ℚ)} {ord : List (List Level)}
    {trees' : List (TreeObj n)} {out out' : List (Instant ℚ)} (ht : TITimes n a ex)
    (ht' : TITimes n { a with tr_t := tr, orderings := ord } ex) (hb : buildEvents a = .ok out)
    (hb' : buildEvents { a with tr_t := tr, orderings := ord } = .ok out')
    (htr : List.Forall₂ OrientedTree trees a.orderings) (htr' : List.Forall₂ OrientedTree trees' ord)
    (hNs : g.Ns < g.N) (hf : g.f.length = g.N)
    (hL : ∀ L eff, g.bc = .few L eff → eff = false ∧ g.Ns ≤ L)
    (hy : ∀ t ∈ ex, ∀ k, ∀ ch ∈ y k, 0 ≤ ⌊t * g.fs k⌋ ∧ ⌊t * g.fs k⌋ ≤ ch.length)
    (T : Nat) (ext : Fin n → List (List K)) (up0 up0' : Fin n → List (Fin n)) {s : TISt n K}
    (hs : tiRun g U y trees (.init g.N g.refSensor T y ext up0) out = .ok s) :
    ∃ s', tiRun g U y trees' (.init g.N g.refSensor T y ext up0') out' = .ok s' ∧
      s'.node = s.node ∧ s'.net.buf = s.net.buf ∧ s'.net.prime = s.net.prime ∧ s'.net.etaMk = s.net.etaMk := by
  have hcov : ∀ o ∈ a.orderings, CoversNodes a.up_t.length o := by
    rw [ht.nodes]; exact orientedTrees_cover htr
  have hcov' : ∀ o ∈ ord, CoversNodes a.up_t.length o := by
    rw [ht.nodes]; exact orientedTrees_cover htr'
  have hd := (C81_run (U := U) ht hb htr hNs hf hL hy T ext up0).1 s hs
  rw [built_works hb hb' hcov hcov'] at hd
  obtain ⟨s', h1, h2⟩ := (C81_run (U := U) ht' hb' htr' hNs hf hL hy T ext up0').2 _ hd
  refine ⟨s', h1, ?_⟩
  unfold TISt.view at h2
  injection h2 with e1 e2 e3 e4
  exact ⟨e1, e2, e3, e4⟩

/-- C81 (c): `DirectRun` leaves nothing open: the work determines the outcome. -/
theorem C81_unique {a b b' : TIView n K} {ws : List Work} (h : DirectRun g U y a ws b)
    (h' : DirectRun g U y a ws b') : b = b' := by
  induction h with
  | nil a => cases h'; rfl
  | cons h1 _ ih =>
    cases h' with
    | cons h1' h2' =>
      obtain ⟨e, he, hu⟩ := h1
      obtain ⟨e', he', hu'⟩ := h1'
      have hee : e = e' := by
        split at he
        · next hx =>
          rw [if_pos hx] at he'
          have hn : ∀ k, e.node k = e'.node k ∧ e.buf k = e'.buf k := by
            intro k
            have h1 := (he k).1
            rw [(he' k).1] at h1
            injection h1 with h1
            injection h1 with h1 h2
            exact ⟨h1.symm, h2.symm⟩
          have hb : e.buf = e'.buf := funext fun k => (hn k).2
          have hf : e.frame = e'.frame := funext fun k => by
            rw [(he k).2.1, (he' k).2.1, hb]
          exact (TIView.ext_iff' _ _).mpr ⟨funext fun k => (hn k).1, hb, hf, funext fun k => by
            rw [(he k).2.2, (he' k).2.2, hf]⟩
        · next hx =>
          rw [if_neg hx] at he'
          rw [he, he']
      subst hee
      obtain ⟨u1, u2, u3, u4⟩ := hu
      obtain ⟨v1, v2, v3, v4⟩ := hu'
      refine ih ?_
      have : ∀ {p q : TIView n K}, p = q → ∀ {ws b}, DirectRun g U y p ws b → DirectRun g U y q ws b := by
        rintro p _ rfl _ _ h; exact h
      refine this ((TIView.ext_iff' _ _).mpr ⟨funext fun k => ?_, by rw [u1, v1], by rw [u2, v2], by rw [u3, v3]⟩) h2'
      have a1 := u4 k
      have a2 := v4 k
      revert a1 a2
      generalize (Work.ups _ (k : Nat)) = o
      intro a1 a2
      cases o with
      | none => exact a2.trans a1.symm
      | some f =>
        simp only at a1 a2
        rw [a1] at a2
        injection a2 with a2
        exact a2.symm

end
end Danse
