import Verif.Proofs.TIDanse2

/-!
# Helper lemmas for C119: rows of the filters, totality
-/

set_option linter.unusedSectionVars false

namespace Danse
section
variable {n : Nat} {K : Type} [Field K] [StarRing K] [DecidableEq K] {D : DanseCfg K}

/-- Update number `i` of a node. -/
theorem tiRun_update {a : TIDanseSt n D} (ha : TINodesOk a) {k : Fin n} {i : Nat} {o : TIObs K}
    (ho : (a.run.node k).hist[i]? = some o) :
    (a.run.node k).hist.take (i + 1) = (a.run.node k).hist.take i ++ [o] ∧ ((a.run.node k).hist.take i).length = i ∧
    ∃ q p r0, D.tiNodeFold k ((a.run.node k).hist.take i) = .ok (q, r0) ∧
      D.tiNodeFold k ((a.run.node k).hist.take (i + 1)) = .ok p ∧ D.tiNodeUpdate k q o = .ok p ∧
      (a.node k).danse.w i = q.danse.w i ∧ (a.node k).loc.w i = q.loc.w i ∧
      (a.node k).danse.w (i + 1) = p.1.danse.w (i + 1) ∧ (a.node k).loc.w (i + 1) = p.1.loc.w (i + 1) := by
  obtain ⟨r, hr, -, -, -⟩ := ha k
  obtain ⟨hlt, hget⟩ := List.getElem?_eq_some_iff.1 ho
  have e1 : (a.run.node k).hist.take (i + 1) = (a.run.node k).hist.take i ++ [o] := by
    rw [List.take_succ_eq_append_getElem hlt, hget]
  have e2 : ((a.run.node k).hist.take i).length = i := by rw [List.length_take]; omega
  obtain ⟨⟨q, r0⟩, hq⟩ := tiNodeFold_prefix (List.take_prefix i _) hr
  obtain ⟨p, hp⟩ := tiNodeFold_prefix (List.take_prefix (i + 1) _) hr
  have hu : D.tiNodeUpdate k q o = .ok p := by
    have := hp
    rw [e1, tiNodeFold_snoc, hq] at this
    exact this
  have hr1 := hr
  rw [← List.take_append_drop i (a.run.node k).hist] at hr1
  have hr2 := hr
  rw [← List.take_append_drop (i + 1) (a.run.node k).hist] at hr2
  obtain ⟨k1, k2⟩ := tiNodeFold_keep _ _ hq hr1 i (by omega)
  obtain ⟨k3, k4⟩ := tiNodeFold_keep _ _ hp hr2 (i + 1) (by rw [List.length_take]; omega)
  exact ⟨e1, e2, q, p, r0, hq, hp, hu, k1, k2, k3, k4⟩

/-- Row `i` of both filters has been written. -/
theorem tiNodeFold_row {k : Nat} (h : List (TIObs K)) {p} (hp : D.tiNodeFold k h = .ok p) :
    (∃ w, p.1.danse.w h.length = .ok w) ∧ ∃ w, p.1.loc.w h.length = .ok w := by
  rcases List.eq_nil_or_concat h with rfl | ⟨l, o, rfl⟩
  · injection hp with hp
    subst hp
    exact ⟨⟨_, rfl⟩, _, rfl⟩
  · rw [List.concat_eq_append] at hp ⊢
    rw [tiNodeFold_snoc] at hp
    obtain ⟨q, hq, hp⟩ := bind_ok_inv hp
    obtain ⟨-, -, V, W, wl, -, -, h3, h4, -⟩ := tiNodeUpdate_inv (tiNodeFold_inv _ hq) hp
    rw [List.length_append, List.length_singleton]
    exact ⟨⟨_, h3⟩, _, h4⟩

theorem tiRun_rowOk {a : TIDanseSt n D} (ha : TINodesOk a) {k : Fin n} {i : Nat} {o : TIObs K}
    (ho : (a.run.node k).hist[i]? = some o) (hs : ((a.run.node k).hist.map (·.t)).Pairwise (· ≤ ·)) :
    (∃ V, D.RowOk k (D.tiHeard k ((a.run.node k).hist.take (i + 1))) o.bypass (a.row k i) (D.g.wInt k (i + 1)) V ∧
      (D.seq = true ∧ k.val = 0 ∧ o.bypass = false ∧ 1 ≤ o.t → ∀ κ : Fin D.nb, coef V κ (D.M k) ≠ 0 ∧
        coef (a.row k (i + 1)) κ (D.M k) = 1 ∧ ∀ c < D.M k, coef (a.row k (i + 1)) κ c = coef V κ c) ∧
      (¬ (D.seq = true ∧ k.val = 0 ∧ o.bypass = false ∧ 1 ≤ o.t) → a.row k (i + 1) = V)) ∧
    D.RowOk k (D.tiHeardLoc k ((a.run.node k).hist.take (i + 1))) o.bypass (a.rowLoc k i) (D.g.wLoc k (i + 1))
      (a.rowLoc k (i + 1)) := by
  obtain ⟨e1, e2, q, p, r0, hq, hp, hu, k1, k2, k3, k4⟩ := tiRun_update ha ho
  have iq := tiNodeFold_inv _ hq
  obtain ⟨ip, -, V, W, wl, hV, hW, hpW, hpl, -, -⟩ := tiNodeUpdate_inv iq hu
  obtain ⟨⟨w0, hw0⟩, wl0, hwl0⟩ := tiNodeFold_row _ hq
  rw [e2] at hV hpW hpl hw0 hwl0
  have hrow0 : a.row k i = frameRow w0 := by unfold TIDanseSt.row; rw [k1, hw0]; rfl
  have hrow1 : a.row k (i + 1) = frameRow W := by unfold TIDanseSt.row; rw [k3, hpW]; rfl
  have hrl0 : a.rowLoc k i = frameRow wl0 := by unfold TIDanseSt.rowLoc; rw [k2, hwl0]; rfl
  have hrl1 : a.rowLoc k (i + 1) = frameRow wl := by unfold TIDanseSt.rowLoc; rw [k4, hpl]; rfl
  have hdue : q.lastNorm ≤ o.t ↔ 1 ≤ o.t := by
    constructor
    · exact fun h => le_trans iq.norm.1 h
    · intro h
      rcases iq.norm.2 with e | ⟨o', ho', e⟩
      · rw [e]; exact h
      · rw [← e]
        have := List.Pairwise.sublist ((List.take_sublist (i + 1) _).map TIObs.t) hs
        rw [e1, List.map_append, List.pairwise_append] at this
        exact this.2.2 _ (List.mem_map_of_mem ho') _ (by simp)
  constructor
  · refine ⟨frameRow V, ?_, ?_, ?_⟩
    · have := tiKind_row (o := o) (V := V) (prev := a.row k i) iq (by rw [e2]; exact hV) (by
        rw [e2]
        exact ⟨w0, hw0, fun κ c => by rw [hrow0, coef_frameRow]⟩)
      rw [e1]
      rw [e2] at this
      exact this
    · rintro ⟨c1, c2, c3, c4⟩ κ
      rcases tiNormalize_ok hW with ⟨-, -, -, -, -, z1, z2, z3⟩ | ⟨hn, -⟩
      · have m1 : coef (frameRow V) κ (D.M k) = V κ (Fin.last _) := coef_frameRow V κ (Fin.last (D.M k))
        have m2 : coef (frameRow W) κ (D.M k) = W κ (Fin.last _) := coef_frameRow W κ (Fin.last (D.M k))
        refine ⟨by rw [m1]; exact z1 κ, by rw [hrow1, m2]; exact z2 κ, fun c hc => ?_⟩
        have m3 : coef (frameRow V) κ c = V κ ⟨c, by omega⟩ := coef_frameRow V κ ⟨c, by omega⟩
        have m4 : coef (frameRow W) κ c = W κ ⟨c, by omega⟩ := coef_frameRow W κ ⟨c, by omega⟩
        rw [hrow1, m3, m4]
        exact z3 κ _ (by intro e; have := congrArg Fin.val e; simp at this; omega)
      · exact absurd ⟨c1, c2, c3, hdue.2 c4⟩ hn
    · intro hn
      rcases tiNormalize_ok hW with ⟨c1, c2, c3, c4, -⟩ | ⟨-, hw, -⟩
      · exact absurd ⟨c1, c2, c3, hdue.1 c4⟩ hn
      · rw [hrow1]; exact congrArg frameRow hw
  · rw [e1, tiHeardLoc_snoc]
    have hl : (D.tiHeardLoc k ((a.run.node k).hist.take i)).length = i := by rw [tiHeardLoc_length, e2]
    have hloc := ip.loc
    rw [tiHeardLoc_snoc] at hloc
    have := kind_row (D := D) (k := k) (prev := a.rowLoc k i) (D.g.wLoc k)
      (D.tiHeardLoc k ((a.run.node k).hist.take i))
      ⟨D.spectra (D.M k) o.loc, D.vad k ((a.run.node k).hist.take i).length, o.t, o.bypass⟩ (w := wl)
      (by rw [hl, ← hloc]; exact hpl) (fun _ => ⟨wl0, by rw [hl, ← iq.loc]; exact hwl0, fun κ c => by
        rw [hrl0, coef_frameRow]⟩)
    rw [hl] at this
    rw [hrl1]
    exact this

theorem tiStrategy_bins (k : Fin n) (h : List (TIObs K)) :
    (∀ b ∈ ((D.tiStrategy n).rows k h).int, b.length = D.g.N / 2 + 1) ∧
    (∀ b ∈ ((D.tiStrategy n).rows k h).ext, b.length = D.g.N / 2 + 1) ∧
    ∀ b ∈ ((D.tiStrategy n).rows k h).loc, b.length = D.g.N / 2 + 1 := by
  have triv : ∀ r : Rows K, r = ⟨[], [], []⟩ → (∀ b ∈ r.int, b.length = D.g.N / 2 + 1) ∧
      (∀ b ∈ r.ext, b.length = D.g.N / 2 + 1) ∧ ∀ b ∈ r.loc, b.length = D.g.N / 2 + 1 := by
    rintro r rfl
    simp
  rcases List.eq_nil_or_concat h with rfl | ⟨l, o, rfl⟩
  · exact triv _ rfl
  · rw [List.concat_eq_append]
    cases hp : D.tiNodeFold k (l ++ [o]) with
    | error e => exact triv _ (by unfold DanseCfg.tiStrategy; simp only; rw [hp]; rfl)
    | ok p =>
      rw [(tiStrategy_of hp).1]
      rw [tiNodeFold_snoc] at hp
      obtain ⟨q, hq, hp⟩ := bind_ok_inv hp
      obtain ⟨-, -, V, W, wl, -, -, -, -, -, hr⟩ := tiNodeUpdate_inv (tiNodeFold_inv _ hq) hp
      rw [hr]
      exact ⟨(frameRow_shape W).2, (frameRow_shape _).2, (frameRow_shape wl).2⟩

end

section
open scoped ComplexOrder
variable {D : DanseCfg ℂ} {k : Nat}

/-- Without sequential updating the updates of a node never raise. -/
theorem tiNodeFold_total (hseq : D.seq = false) {b : ℝ} (h0 : 0 < b) (h1 : b ≤ 1) (hb : D.beta k = (b : ℂ))
    (hrule : ∀ m ≥ D.M k, ∀ Ryy Rnn, Ryy.PosDef → Rnn.PosDef →
      ∃ w, D.rule m Ryy Rnn D.g.refSensor = .ok w)
    (hv : ∀ m Rnn Ryy, D.valid m Rnn Ryy = true → ∀ κ, (Rnn κ).det ≠ 0 ∧ (Ryy κ).det ≠ 0)
    (hR : D.use1st = true ∨ ∀ m κ, (D.R0 k m κ).PosSemidef) (h : List (TIObs ℂ)) :
    ∃ p, D.tiNodeFold k h = .ok p := by
  induction h using List.reverseRecOn with
  | nil => exact ⟨_, rfl⟩
  | append_singleton h o ih =>
    obtain ⟨q, hq⟩ := ih
    have iq := tiNodeFold_inv _ hq
    rw [tiNodeFold_snoc, hq]
    obtain ⟨w0, hw0⟩ := (tiNodeFold_row _ hq).1
    obtain ⟨wl, hwl⟩ := kind_total h0 h1 hb (hrule _ le_rfl)
      (hv _) (hR.imp_right fun h => h _) (D.g.wLoc k) (D.tiHeardLoc k (h ++ [o])) (h.length + 1)
    rw [tiHeardLoc_snoc, nodeRun_snoc, ← iq.loc, ← iq.i] at hwl
    have hw : ∃ w, (nodeStep (D.kind k (D.M k + 1)) q.1.danse (D.spectra (D.M k + 1) (o.loc ++ [o.eta]))
        (D.vad k q.1.danse.i) o.t o.bypass).w (q.1.danse.i + 1) = .ok w := by
      obtain ⟨r1, -⟩ := nodeStep_row (D.kind k (D.M k + 1)) q.1.danse
        (D.spectra (D.M k + 1) (o.loc ++ [o.eta])) (D.vad k q.1.danse.i) o.t o.bypass
      rw [r1]
      split
      · rw [iq.i]; exact ⟨_, hw0⟩
      · split
        · rename_i hc
          have hl := nodeStep_like (c := D.kind k (D.M k + 1)) iq.scm iq.started
            (s' := nodeRun (D.kind k (D.M k + 1)) (D.kind0 k (D.M k + 1) (D.g.wInt k)) (D.tiHeard k h))
            (by rw [iq.i, nodeRun_i, tiHeard_length]; exact (Nat.zero_add _).symm)
            (D.spectra (D.M k + 1) (o.loc ++ [o.eta])) (D.vad k q.1.danse.i) o.t o.bypass
          have hrun : nodeRun (D.kind k (D.M k + 1)) (D.kind0 k (D.M k + 1) (D.g.wInt k)) (D.tiHeard k (h ++ [o])) =
              nodeStep (D.kind k (D.M k + 1))
                (nodeRun (D.kind k (D.M k + 1)) (D.kind0 k (D.M k + 1) (D.g.wInt k)) (D.tiHeard k h))
                (D.spectra (D.M k + 1) (o.loc ++ [o.eta])) (D.vad k q.1.danse.i) o.t o.bypass := by
            rw [tiHeard_snoc, nodeRun_snoc, iq.i]
          rw [← hrun] at hl
          have hst := (nodeRun_startedBy (D.kind k (D.M k + 1)) rfl (s := D.kind0 k (D.M k + 1) (D.g.wInt k))
            rfl rfl rfl rfl (D.tiHeard k (h ++ [o]))).1 (by rw [← hl.2.1]; exact hc.2)
          have hscm := nodeRun_scmOf (D.kind k (D.M k + 1)) (s := D.kind0 k (D.M k + 1) (D.g.wInt k)) rfl rfl
            (D.tiHeard k (h ++ [o]))
          rw [hl.1, hscm.1, hscm.2]
          apply seqBins_total
          intro κ
          have hst' : StartedBy D.use1st (b : ℂ) (D.R0 k (D.M k + 1)) (D.valid (D.M k + 1)) D.startAfter
              (D.tiHeard k (h ++ [o])) := by
            rw [← hb]; exact hst
          have := started_posDef h0 h1 κ (fun Rnn Ryy h => hv _ Rnn Ryy h κ)
            (hR.imp_right fun h => h _ κ) _ hst'
          rw [← hb] at this
          exact hrule _ (by omega) _ _ (this true) (this false)
        · rw [iq.i]; exact ⟨_, iq.later _ (by omega)⟩
    obtain ⟨w, hw⟩ := hw
    have hn : tiNormalize D.seq k o.bypass o.t q.1.lastNorm w = .ok (w, q.1.lastNorm) := by
      unfold tiNormalize normalizeFilter
      rw [hseq, if_neg (by simp), if_neg (by simp)]
    unfold DanseCfg.tiNodeUpdate
    change ∃ p, (Bind.bind ((nodeStep (D.kind k (D.M k + 1)) q.1.danse (D.spectra (D.M k + 1) (o.loc ++ [o.eta]))
        (D.vad k q.1.danse.i) o.t o.bypass).w (q.1.danse.i + 1)) fun w => _) = _
    rw [hw]
    change ∃ p, (Bind.bind ((nodeStep (D.kind k (D.M k)) q.1.loc (D.spectra (D.M k) o.loc)
        (D.vad k q.1.danse.i) o.t o.bypass).w (q.1.danse.i + 1)) fun w => _) = _
    rw [iq.i] at hwl ⊢
    rw [hwl]
    change ∃ p, (Bind.bind (tiNormalize D.seq k o.bypass o.t q.1.lastNorm w) fun w => _) = _
    rw [hn]
    exact ⟨_, rfl⟩

end
end Danse
