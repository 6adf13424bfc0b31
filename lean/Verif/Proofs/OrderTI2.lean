import Verif.Proofs.OrderTI

/-!
# Helper lemmas for C144: the updates and the whole TI-DANSE run, sensors in another order
-/

set_option linter.unusedSectionVars false

namespace Danse
section
variable {n : Nat} {K : Type} [Field K] [StarRing K] [DecidableEq K] {D : DanseCfg K} {σ : Nat → Equiv.Perm Nat}

theorem tiNormalize_ord {B M : Nat} {π : Equiv.Perm (Fin (M + 1))} (hπ : π (Fin.last M) = Fin.last M) (seq : Bool) (k : Nat)
    (bypass : Bool) (t last : ℚ) (w : Frame (Fin B) (Fin (M + 1)) K) :
    tiNormalize seq k bypass t last (ordF π w) = (tiNormalize seq k bypass t last w).map fun p => (ordF π p.1, p.2) := by
  have hl : ∀ κ, ordF π w κ (Fin.last M) = w κ (Fin.last M) := fun κ => by simp only [ordF, hπ]
  unfold tiNormalize normalizeFilter
  simp only [hl]
  split_ifs
  · rfl
  · change Except.ok _ = Except.ok _
    congr 2
    funext κ c
    simp only [ordF]
    have : (π c = Fin.last M) ↔ c = Fin.last M := ⟨fun e => π.injective (e.trans hπ.symm), fun e => by rw [e, hπ]⟩
    simp only [this]
  · rfl

theorem tiExtStep_ord {k : Nat} {π : Equiv.Perm (Fin (D.M k + 1))}
    (hr : ∃ h : D.g.refSensor < D.M k + 1, π ⟨_, h⟩ = ⟨_, h⟩)
    (s : ExtSt (Frame (Fin D.nb) (Fin (D.M k + 1)) K) ℚ) (w : Frame (Fin D.nb) (Fin (D.M k + 1)) K) (t : ℚ) :
    extStep (D.tiExt k) ⟨ordF π s.ext, ordF π s.target, s.last⟩ (ordF π w) (some t) =
      ⟨ordF π (extStep (D.tiExt k) s w (some t)).ext, ordF π (extStep (D.tiExt k) s w (some t)).target,
        (extStep (D.tiExt k) s w (some t)).last⟩ := by
  obtain ⟨hlt, hr⟩ := hr
  have hsel : ordF π (D.tiExt k).refSel = (D.tiExt k).refSel := by
    funext κ c
    simp only [ordF, DanseCfg.tiExt]
    have : (π c).val = D.g.refSensor ↔ c.val = D.g.refSensor := by
      constructor
      · intro e
        have : π c = π ⟨_, hlt⟩ := by rw [hr]; exact Fin.ext e
        exact congrArg Fin.val (π.injective this)
      · intro e
        rw [show c = ⟨_, hlt⟩ from Fin.ext e, hr]
    simp only [this]
  have hlin : ∀ (a b : K) (x y : Frame (Fin D.nb) (Fin (D.M k + 1)) K),
      a • ordF π x + b • ordF π y = ordF π (a • x + b • y) := fun a b x y => rfl
  unfold extStep
  split_ifs
  · simp only [hsel]
  · rfl
  · rfl
  · simp only
    split_ifs <;> simp only [hlin]

/-- States of a TI-DANSE node in the two orders. -/
structure TDNodeOrd (P : Prop) {B M : Nat} (π : Equiv.Perm (Fin (M + 1))) (π' : Equiv.Perm (Fin M)) (s s' : TDNode B M K) :
    Prop where
  danse : NodeOrd P π (Except.map (ordF π)) s.danse s'.danse
  loc : NodeOrd P π' (Except.map (ordF π')) s.loc s'.loc
  ext : s'.ext = ⟨ordF π s.ext.ext, ordF π s.ext.target, s.ext.last⟩
  lastNorm : s'.lastNorm = s.lastNorm

theorem tiNodeUpdate_ord {P : Prop} (hs : SensorOrder D.M D.g.refSensor σ) (hf : D.OrderFree) (hu : D.use1st = true ∨ P)
    {k : Nat} (hr : D.g.refSensor < D.M k) (hd : Stable (σ k) (D.M k + 1)) (hl : Stable (σ k) (D.M k))
    {s s' : TDNode D.nb (D.M k) K} (h : TDNodeOrd P (finPerm _ _ hd) (finPerm _ _ hl) s s') {o : TIObs K}
    (ho : o.loc.length = D.M k) :
    RelE (fun r r' => TDNodeOrd P (finPerm _ _ hd) (finPerm _ _ hl) r.1 r'.1 ∧ r'.2 = r.2.reord (σ k))
      (D.tiNodeUpdate k s o) (D.tiNodeUpdate k s' (o.reord (σ k))) := by
  unfold DanseCfg.tiNodeUpdate
  simp only
  have e1 : D.spectra (D.M k + 1) ((o.reord (σ k)).loc ++ [(o.reord (σ k)).eta]) =
      ordF (finPerm _ _ hd) (D.spectra (D.M k + 1) (o.loc ++ [o.eta])) := by
    have : (o.reord (σ k)).loc ++ [(o.reord (σ k)).eta] = reordered (σ k) (o.loc ++ [o.eta]) :=
      reordered_append (fun n hn => hs.stable (by rw [← ho]; exact hn)) (fun c hc => hs.fix k c (by rw [← ho]; exact hc))
    rw [this, spectra_reordered hd (hs.stable (by rw [List.length_append, ho]; omega))]
  have e2 : D.spectra (D.M k) (o.reord (σ k)).loc = ordF (finPerm _ _ hl) (D.spectra (D.M k) o.loc) :=
    spectra_reordered hl (hs.stable ho.ge)
  have e4 : (o.reord (σ k)).t = o.t := rfl
  have e5 : (o.reord (σ k)).bypass = o.bypass := rfl
  have hr1 : ∃ h : D.g.refSensor < D.M k + 1, finPerm _ _ hd ⟨_, h⟩ = ⟨_, h⟩ := ⟨by omega, Fin.ext (hs.ref k)⟩
  have hr2 : ∃ h : D.g.refSensor < D.M k, finPerm _ _ hl ⟨_, h⟩ = ⟨_, h⟩ := ⟨hr, Fin.ext (hs.ref k)⟩
  rw [e1, e2, e4, e5, h.danse.i, h.lastNorm]
  have hd' := kind_ord (D := D) hf hu (k := k) hr1 h.danse (D.spectra (D.M k + 1) (o.loc ++ [o.eta]))
    (D.vad k s.danse.i) o.t o.bypass
  have hl' := kind_ord (D := D) hf hu (k := k) hr2 h.loc (D.spectra (D.M k) o.loc) (D.vad k s.danse.i) o.t o.bypass
  refine RelE.bind (R := fun w w' => w' = ordF (finPerm _ _ hd) w) ?_ fun w w' hw => ?_
  · rw [hd'.w]; exact RelE.of_map _
  subst hw
  refine RelE.bind (R := fun w w' => w' = ordF (finPerm _ _ hl) w) ?_ fun wl wl' hw => ?_
  · rw [hl'.w]; exact RelE.of_map _
  subst hw
  rw [tiNormalize_ord (Fin.ext (hs.fix k _ le_rfl))]
  refine (RelE.of_map _).bind fun p p' hp => ?_
  subst hp
  have hext := tiExtStep_ord (D := D) (k := k) hr1 s.ext p.1 o.t
  rw [← h.ext] at hext
  refine ⟨⟨⟨hd'.scm, hd'.started, fun j => ?_, hd'.i, hd'.nUps, hd'.pos⟩, hl', hext, rfl⟩, ?_⟩
  · simp only [Function.update_apply]
    split_ifs
    · rfl
    · exact hd'.w j
  · simp only [hext, frameRow_ord]
    rfl

/-- States of two runs, the second one with the sensors in another order. -/
structure TIOrd (P : Prop) (σ : Nat → Equiv.Perm Nat) (s s' : TIDanseSt n D) : Prop where
  run : s'.run = s.run.reord σ
  wide : ∀ k : Fin n, (s.run.node k).Wide (D.M k)
  node : ∀ (k : Fin n) hd hl, TDNodeOrd P (finPerm (σ k) _ hd) (finPerm (σ k) _ hl) (s.node k) (s'.node k)

theorem update_reordN (f : Fin n → TINode K) (k : Fin n) (x : TINode K) :
    Function.update (fun q : Fin n => (f q).reord (σ q)) k (x.reord (σ k)) = fun q => (Function.update f k x q).reord (σ q) := by
  funext q
  by_cases h : q = k
  · subst h; simp
  · simp [Function.update_of_ne h]

theorem tiDanseStepEv_ord {P : Prop} (hs : SensorOrder D.M D.g.refSensor σ) (hf : D.OrderFree) (hu : D.use1st = true ∨ P)
    {y : Fin n → List (List K)} (hy : ∀ k, (y k).length = D.M k) (hr : ∀ k : Fin n, D.g.refSensor < D.M k)
    (trees : List (TreeObj n)) (t : ℚ) {s s' : TIDanseSt n D} (h : TIOrd P σ s s') (e : OutEv) :
    RelE (TIOrd P σ) (tiDanseStepEv D y trees t s e)
      (tiDanseStepEv D (fun q => reordered (σ q) (y q)) trees t s' e) := by
  have hst : ∀ k n, D.M k ≤ n → Stable (σ k) n := fun k n hn => hs.stable hn
  unfold tiDanseStepEv
  rw [h.run]
  cases hty : e.ty with
  | up =>
    simp only
    split_ifs with hlt
    · have e1 := reord_tiObserve (g := D.g) (hst e.node) (hy ⟨e.node, hlt⟩) t e.node e.bypass (s.run.net.etaMk ⟨e.node, hlt⟩)
      change RelE _ _ (tiObserve D.g (reordered (σ e.node) (y ⟨e.node, hlt⟩)) t e.node e.bypass
        (s.run.net.etaMk ⟨e.node, hlt⟩) >>= _)
      rw [e1]
      cases ho : tiObserve D.g (y ⟨e.node, hlt⟩) t e.node e.bypass (s.run.net.etaMk ⟨e.node, hlt⟩) with
      | error er => rfl
      | ok o =>
        have hlen : o.loc.length = D.M e.node := (tiObserve_length ho).trans (hy _)
        have hd : Stable (σ e.node) (D.M e.node + 1) := hst _ _ (by omega)
        have hl : Stable (σ e.node) (D.M e.node) := hst _ _ le_rfl
        have hnu := tiNodeUpdate_ord hs hf hu (hr ⟨e.node, hlt⟩) hd hl (h.node ⟨e.node, hlt⟩ hd hl) hlen
        simp only [Except.map, bind, Except.bind]
        revert hnu
        cases hn : D.tiNodeUpdate e.node (s.node ⟨e.node, hlt⟩) o with
        | error e1 =>
          simp only
          cases D.tiNodeUpdate e.node (s'.node ⟨e.node, hlt⟩) (o.reord (σ e.node)) with
          | error e2 => exact fun h => h
          | ok r' => exact fun h => h.elim
        | ok r =>
          simp only
          cases D.tiNodeUpdate e.node (s'.node ⟨e.node, hlt⟩) (o.reord (σ e.node)) with
          | error e2 => exact fun h => h.elim
          | ok r' =>
            intro hnu
            obtain ⟨h1, h2⟩ : TDNodeOrd P (finPerm _ _ hd) (finPerm _ _ hl) r.1 r'.1 ∧ r'.2 = r.2.reord (σ e.node) := hnu
            have hshape : D.M e.node ≤ r.2.int.length ∧ r.2.ext.length = D.M e.node + 1 ∧ D.M e.node ≤ r.2.loc.length := by
              unfold DanseCfg.tiNodeUpdate at hn
              simp only at hn
              obtain ⟨w, -, hn⟩ := bind_ok_inv hn
              obtain ⟨wl, -, hn⟩ := bind_ok_inv hn
              obtain ⟨p, -, hn⟩ := bind_ok_inv hn
              injection hn with hn
              subst hn
              simp only [frameRow_length]
              exact ⟨Nat.le_add_right _ _, trivial, le_rfl⟩
            have e3 : r'.1.danse.started = r.1.danse.started := h1.danse.started
            simp only [h2, e3]
            have e4 := reord_tiUpdate (g := D.g) (hst e.node) (hs.fix e.node) (hy ⟨e.node, hlt⟩) hshape.1 hshape.2.2
              r.1.danse.started t e.node e.bypass (s.run.node ⟨e.node, hlt⟩) (s.run.net.etaMk ⟨e.node, hlt⟩)
            have e5 : tiUpdate D.g (fun _ => r.2.reord (σ e.node)) (fun _ => r.1.danse.started)
              (reordered (σ e.node) (y ⟨e.node, hlt⟩)) t e.node e.bypass ((s.run.reord σ).node ⟨e.node, hlt⟩)
              ((s.run.reord σ).net.etaMk ⟨e.node, hlt⟩) = _ := e4
            rw [e5]
            cases hx : tiUpdate D.g (fun _ => r.2) (fun _ => r.1.danse.started) (y ⟨e.node, hlt⟩) t e.node e.bypass
                (s.run.node ⟨e.node, hlt⟩) (s.run.net.etaMk ⟨e.node, hlt⟩) with
            | error er => rfl
            | ok nd =>
              refine ⟨?_, fun k => ?_, fun k hd' hl' => ?_⟩
              · simp only [TISt.reord]
                have := update_reordN (σ := σ) s.run.node ⟨e.node, hlt⟩ nd
                simp only at this
                rw [this]
              · by_cases hq : k = ⟨e.node, hlt⟩
                · subst hq
                  simp only [Function.update_self]
                  exact tiUpdate_wide hshape.2.1 (h.wide ⟨e.node, hlt⟩) hx
                · simp only [Function.update_of_ne hq]
                  exact h.wide k
              · by_cases hq : k = ⟨e.node, hlt⟩
                · subst hq
                  simp only [Function.update_self]
                  exact h1
                · simp only [Function.update_of_ne hq]
                  exact h.node k hd' hl'
    · rfl
  | tr =>
    simp only [tiStepEv, hty]
    change RelE _ _ ((match trees[s.run.formed]? with | none => _ | some T => _) >>= _)
    cases trees[s.run.formed]? with
    | none => rfl
    | some T => exact ⟨rfl, h.wide, h.node⟩
  | fu =>
    simp only [tiStepEv, hty]
    split_ifs with hlt
    · have e1 := reord_tiFuse (g := D.g) (hst e.node) (hs.fix e.node) (hy ⟨e.node, hlt⟩) t e.node (h.wide ⟨e.node, hlt⟩)
        (s.run.net.buf ⟨e.node, hlt⟩)
      have e2 : tiFuse D.g (reordered (σ e.node) (y ⟨e.node, hlt⟩)) t e.node ((s.run.reord σ).node ⟨e.node, hlt⟩)
        ((s.run.reord σ).net.buf ⟨e.node, hlt⟩) = _ := e1
      rw [e2]
      cases hx : tiFuse D.g (y ⟨e.node, hlt⟩) t e.node (s.run.node ⟨e.node, hlt⟩) (s.run.net.buf ⟨e.node, hlt⟩) with
      | error er => rfl
      | ok r =>
        refine ⟨?_, fun k => ?_, h.node⟩
        · simp only [TISt.reord]
          have := update_reordN (σ := σ) s.run.node ⟨e.node, hlt⟩ r.1
          simp only at this
          rw [this]
        · by_cases hq : k = ⟨e.node, hlt⟩
          · subst hq
            simp only [Function.update_self]
            exact tiFuse_wide _ _ (h.wide _) hx
          · simp only [Function.update_of_ne hq]
            exact h.wide k
    · rfl
  | bc =>
    simp only [tiStepEv, hty]
    split_ifs with hlt
    · change RelE _ _ ((match s.run.root with | none => _ | some root => _) >>= _)
      cases hr : s.run.root with
      | none => rfl
      | some r =>
        simp only
        change RelE _ _ ((tiPartialSum s.run.up r D.g.N D.g.Ns s.run.net ⟨e.node, hlt⟩ >>= _) >>= _)
        cases tiPartialSum s.run.up r D.g.N D.g.Ns s.run.net ⟨e.node, hlt⟩ with
        | error er => rfl
        | ok u => exact ⟨by simp [TISt.reord, hr], h.wide, h.node⟩
    · rfl
  | re =>
    simp only [tiStepEv, hty]
    split_ifs with hlt
    · change RelE _ _ ((tiRelay s.run.up s.run.net ⟨e.node, hlt⟩ >>= _) >>= _)
      cases tiRelay s.run.up s.run.net ⟨e.node, hlt⟩ with
      | error er => rfl
      | ok u => exact ⟨rfl, h.wide, h.node⟩
    · rfl

theorem tiDanseRun_ord (hs : SensorOrder D.M D.g.refSensor σ) (hf : D.OrderFree) (hu : D.use1st = true ∨ D.EvenStart σ)
    (hsel : D.TIStartsAtRef) {y : Fin n → List (List K)} (hy : ∀ k, (y k).length = D.M k)
    (hr : ∀ k : Fin n, D.g.refSensor < D.M k) (T : Nat)
    (up0 : Fin n → List (Fin n)) (trees : List (TreeObj n)) (out : List (Instant ℚ)) :
    RelE (TIOrd (D.EvenStart σ) σ) (tiDanseRun D T y up0 trees out)
      (tiDanseRun D T (fun q => reordered (σ q) (y q)) up0 trees out) := by
  have hst : ∀ k n, D.M k ≤ n → Stable (σ k) n := fun k n hn => hs.stable hn
  have hself : ∀ k m, D.M k ≤ m → reordered (σ k) (selector m D.g.refSensor D.nb : List (List K)) = selector m D.g.refSensor D.nb :=
    fun k m hm => reordered_selector (hst k) hm (hs.ref k)
  have hselL : ∀ m, (selector m D.g.refSensor D.nb : List (List K)).length = m := fun m => by simp [selector]
  have hi : TIOrd (D.EvenStart σ) σ (TIDanseSt.init D T y up0)
      (TIDanseSt.init D T (fun q => reordered (σ q) (y q)) up0) := by
    refine ⟨?_, fun k => ⟨?_, ?_⟩, fun k hd hl => ?_⟩
    · simp only [TIDanseSt.init, TISt.init, TISt.reord, TISt.mk.injEq, true_and, and_true]
      funext k
      simp only [TINode.init, TINode.reord, reordered_length, List.map_nil, hsel.ext, hself k _ (Nat.le_succ _),
        TINode.mk.injEq, true_and, and_true]
      rw [hy k]
      symm
      apply List.ext_getElem?
      intro i
      rw [reordered_get (by simp only [List.length_map, List.length_range]; exact hst k _ le_rfl)]
      simp only [List.getElem?_map]
      by_cases hi : i < D.M k
      · rw [List.getElem?_range hi, List.getElem?_range ((hst k _ le_rfl i).2 hi)]
        simp only [Option.map_some]
        have : (σ k i = D.g.refSensor) ↔ i = D.g.refSensor :=
          ⟨fun e => (σ k).injective (e.trans (hs.ref k).symm), fun e => by rw [e, hs.ref]⟩
        simp only [this]
      · rw [hs.fix k i (by omega)]
    · change (D.g.wExt k 0).length = _
      rw [hsel.ext, hselL]
    · simp [TIDanseSt.init, TISt.init, TINode.init, hy]
    · have hk : ∀ (m : Nat) (w : Nat → List (List K)) (hm : Stable (σ k) m), D.M k ≤ m →
          (∀ j, w j = selector m D.g.refSensor D.nb) →
          NodeOrd (D.EvenStart σ) (finPerm _ _ hm) (Except.map (ordF (finPerm _ _ hm))) (D.kind0 k m w) (D.kind0 k m w) := by
        intro m w hm hle hw
        have hcov : D.EvenStart σ ∨ 0 < 0 → (fun κ : Fin D.nb => (Matrix.of fun (i j : Fin m) => D.cov0 k κ i j : Matrix (Fin m) (Fin m) K)) =
            fun κ : Fin D.nb => (Matrix.of fun (i j : Fin m) => D.cov0 k κ i j : Matrix (Fin m) (Fin m) K).submatrix (finPerm _ _ hm) (finPerm _ _ hm) := by
          intro h
          rcases h with h | h
          · funext κ
            ext i j
            exact (h k κ i j).symm
          · omega
        refine ⟨⟨rfl, rfl, hcov, hcov⟩, rfl, fun j => ?_, rfl, rfl, fun h => by cases h⟩
        change Except.ok _ = Except.ok _
        rw [hw j, ← rowFrame_reordered (by rw [hselL]; exact hm), hself k m hle]
      refine ⟨hk _ _ hd (Nat.le_succ _) (hsel.int k), hk _ _ hl le_rfl (hsel.loc k), ?_, rfl⟩
      simp only [TIDanseSt.init, DanseCfg.tiNode0, ExtSt.mk.injEq, and_true]
      rw [hsel.ext, hsel.target, ← rowFrame_reordered (by rw [hselL]; exact hd), hself k _ (Nat.le_succ _)]
      exact ⟨rfl, rfl⟩
  refine RelE.foldlM (fun u v i h => ?_) out hi
  unfold tiDanseInstant
  exact RelE.foldlM (fun u v e h => tiDanseStepEv_ord hs hf hu hy hr trees i.t h e) i.evs h

end
end Danse
