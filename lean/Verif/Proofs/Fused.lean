import Verif.Model.Fused
import Verif.Proofs.Single2
import Verif.Props.Signals
import Verif.Proofs.Vad
import Verif.Proofs.Sched3
import Verif.Proofs.TIRun13
import Verif.Proofs.GainTI
import Verif.Props.Clock

/-! # Lemmas for C142: the fused signals kept for the outputs -/

set_option linter.unusedSectionVars false

namespace Danse
section
variable {K : Type} [Field K] [StarRing K] [DecidableEq K] {y : Nat → List (List K)} {U : Strategy K} {g : GivenCfg K}

theorem pySlice_zero {α : Type} (l : List α) (m : Nat) : pySlice l 0 (m : Int) = l.take m := by
  have := pySlice_nat l 0 m
  simp only [Nat.cast_zero, Nat.zero_min, List.drop_zero, Nat.sub_zero] at this
  rw [this]
  by_cases h : m ≤ l.length
  · rw [Nat.min_eq_left h]
  · rw [Nat.min_eq_right (by omega), List.take_of_length_le (by omega), List.take_of_length_le (by omega)]

theorem chunkOf_nat {α : Type} (z : List α) (m : Nat) : chunkOf z (m : Int) = z.take m := by
  unfold chunkOf
  rcases Nat.eq_zero_or_pos m with h | h
  · subst h; simp
  · rw [if_neg (by omega), if_pos (by omega), Int.toNat_natCast]

/-- What one event does to the buffers, and which chunk a broadcast sends. -/
theorem adaptStep_op {a a' : AdaptSt K} {ev : ℚ × Nat × EvType} (h : adaptStep U y a ev = .ok a') :
    ∃ op, evOp ev op ∧ netStep a.cfg.nb a.cfg.N a.cfg.Ns a.st.net op = .ok a'.st.net ∧ a'.cfg.fixed a.cfg ∧
      ∀ k c, op = .bc k c → a.cfg.bc = .whole → c = (a'.st.zLocal k).take a.cfg.Ns := by
  have hfix := adaptStep_fixed h
  obtain ⟨t, q, ty⟩ := ev
  unfold adaptStep at h
  cases ty with
  | bc =>
    simp only at h
    obtain ⟨s, hs, h⟩ := bind_ok_inv h
    injection h with h
    subst h
    unfold GivenCfg.step at hs
    simp only at hs
    unfold GivenCfg.broadcast at hs
    obtain ⟨fr, _, h1⟩ := bind_ok_inv hs
    split at h1
    · cases h1
    · split at h1
      · obtain ⟨z, _, h1⟩ := bind_ok_inv h1
        obtain ⟨n, hn, h1⟩ := bind_ok_inv h1
        injection h1 with h1
        subst h1
        refine ⟨.bc q _, ⟨rfl, rfl⟩, hn, hfix, ?_⟩
        intro k c e _
        injection e with e1 e2
        subst e1 e2
        simp only [Function.update_self]
        exact chunkOf_nat _ _
      · rename_i hbc
        obtain ⟨l, _, h1⟩ := bind_ok_inv h1
        obtain ⟨w, _, h1⟩ := bind_ok_inv h1
        obtain ⟨z, _, h1⟩ := bind_ok_inv h1
        obtain ⟨n, hn, h1⟩ := bind_ok_inv h1
        injection h1 with h1
        subst h1
        exact ⟨.bc q _, ⟨rfl, rfl⟩, hn, hfix, fun k c e e2 => by rw [hbc] at e2; cases e2⟩
  | up =>
    simp only at h
    obtain ⟨o, _, h⟩ := bind_ok_inv h
    obtain ⟨s, hs, h⟩ := bind_ok_inv h
    injection h with h
    subst h
    unfold GivenCfg.step at hs
    simp only at hs
    unfold GivenCfg.update at hs
    obtain ⟨n, hn, h1⟩ := bind_ok_inv hs
    obtain ⟨fr, _, h1⟩ := bind_ok_inv h1
    split at h1
    · cases h1
    · obtain ⟨d, _, h1⟩ := bind_ok_inv h1
      obtain ⟨dl, _, h1⟩ := bind_ok_inv h1
      injection h1 with h1
      subst h1
      exact ⟨.up q, ⟨rfl, rfl⟩, hn, hfix, fun k c e _ => by cases e⟩
  | _ =>
    simp only at h
    obtain ⟨s, hs, h⟩ := bind_ok_inv h
    cases hs

theorem fixed_trans {a b c : GivenCfg K} (h1 : a.fixed b) (h2 : b.fixed c) : a.fixed c := by
  unfold GivenCfg.fixed at *
  rw [h1, h2]

/-- The network operations of a run with its fused signals. -/
theorem fusedRun_ops (evs : List (ℚ × Nat × EvType)) {T : Nat} {M : Nat → Nat} {s : FusedSt K}
    (h : fusedRun U y g T M evs = .ok s) :
    adaptRun U y (.init g T M) evs = .ok s.run ∧ s.run.cfg.fixed g ∧
    ∃ ops, List.Forall₂ evOp evs ops ∧ netRun g.nb g.N g.Ns ops = .ok s.run.st.net ∧
      (g.bc = .whole → ∀ k, s.zFull k = sent ops k) ∧ (g.bc ≠ .whole → ∀ k, s.zFull k = []) := by
  induction evs using List.reverseRecOn generalizing s with
  | nil =>
    injection h with h
    subst h
    exact ⟨rfl, rfl, [], .nil, rfl, fun _ _ => rfl, fun _ _ => rfl⟩
  | append_singleton evs ev ih =>
    unfold fusedRun at h
    rw [List.foldlM_append] at h
    obtain ⟨b, hb, h⟩ := bind_ok_inv h
    obtain ⟨i1, i2, ops, i3, i4, i5, i6⟩ := ih hb
    rw [List.foldlM_cons] at h
    obtain ⟨c, hc, h⟩ := bind_ok_inv h
    injection h with h
    subst h
    unfold fusedStep at hc
    obtain ⟨a, ha, hc⟩ := bind_ok_inv hc
    injection hc with hc
    subst hc
    obtain ⟨op, o1, o2, o3, o4⟩ := adaptStep_op ha
    have e := i2
    unfold GivenCfg.fixed at e
    have e1 : b.run.cfg.nb = g.nb := by rw [e]
    have e2 : b.run.cfg.N = g.N := by rw [e]
    have e3 : b.run.cfg.Ns = g.Ns := by rw [e]
    have e4 : b.run.cfg.bc = g.bc := by rw [e]
    rw [e1, e2, e3] at o2
    rw [e3, e4] at o4
    have hfix := fixed_trans o3 i2
    have e' := hfix
    unfold GivenCfg.fixed at e'
    have e5 : a.cfg.bc = g.bc := by rw [e']
    have e6 : a.cfg.Ns = g.Ns := by rw [e']
    refine ⟨?_, hfix, ops ++ [op], List.rel_append i3 (.cons o1 .nil), ?_, ?_, ?_⟩
    · unfold adaptRun at i1 ⊢
      rw [List.foldlM_append, i1]
      change List.foldlM (adaptStep U y) b.run [ev] = _
      rw [List.foldlM_cons, ha]; rfl
    · unfold netRun at i4 ⊢
      rw [List.foldlM_append, i4]
      change List.foldlM (netStep g.nb g.N g.Ns) b.run.st.net [op] = _
      rw [List.foldlM_cons, o2]; rfl
    · intro hw k
      rw [sent_append]
      obtain ⟨t, q, ty⟩ := ev
      unfold keepFused
      simp only
      rw [e5, hw]
      cases op with
      | up j =>
        have h2 : ty = .up := o1.2
        subst h2
        simp only
        rw [i5 hw k, sent_up, List.append_nil]
      | bc j c =>
        obtain ⟨h1, h2⟩ : q = j ∧ ty = .bc := o1
        subst h1 h2
        simp only
        rw [sent_bc, e6, pySlice_zero, ← o4 q c rfl hw]
        by_cases hk : q = k
        · subst hk
          rw [Function.update_self, if_pos rfl, i5 hw]
        · rw [Function.update_of_ne (Ne.symm hk), if_neg hk, i5 hw, List.append_nil]
    · intro hw k
      unfold keepFused
      rw [e5]
      split
      · exact absurd (by assumption) hw
      · exact i6 hw k


/-- The chunk kept after `J` whole-chunk broadcasts of the sensor signal `x`. -/
def KeptChunk (h x : List K) (Ns J : Nat) (z : List K) : Prop :=
  (J = 0 ∧ z = []) ∨ ∃ j, J = j + 1 ∧ z.length = 2 * Ns ∧
    ∀ i < Ns, at0 z (Ns + i) = at0 h (Ns + i) ^ 2 * at0 x (j * Ns + (Ns + i))

theorem whole_chunk_next [CharZero K] {Ns : Nat} (hNs : 0 < Ns) {ζ c : K} (r : DftRoot ζ (2 * Ns)) (hc : c ≠ 0)
    (hcr : star c = c) {h : List K} (hh : IsReal h) (hhl : h.length = 2 * Ns)
    (hw : ∀ j < Ns, at0 h (Ns + j) ^ 2 + at0 h j ^ 2 ≠ 0) {x : List K} (hx : IsReal x) {Y : List (List K)} {ref J : Nat}
    (hr : ref < Y.length) (hY : Y.getD ref [] = frameAt x (J * Ns) (2 * Ns)) (hlen : (J + 2) * Ns ≤ x.length)
    (hsee : ∀ j, J = j + 1 → WindowSees h x Ns j) {prev z : List K} (hp : KeptChunk h x Ns J prev)
    (hz : wholeChunk ζ (2 * Ns) Ns c h h Y (selector Y.length ref (2 * Ns / 2 + 1)) prev = .ok z) :
    KeptChunk h x Ns (J + 1) z ∧ z.length = 2 * Ns ∧
      ∀ i < Ns, at0 z i = (if J = 0 then at0 h i ^ 2 else 1) * at0 x (J * Ns + i) := by
  obtain ⟨cur, h1, h2, h3⟩ := wholeChunk_selector r hc hcr hh hhl hx hr hY hlen prev
  rw [h1] at hz
  rcases hp with ⟨rfl, rfl⟩ | ⟨j, rfl, hpl, hp⟩
  · have h4 : overlapAdd (2 * Ns) Ns h [] cur = .ok cur := by unfold overlapAdd; simp
    rw [h4] at hz
    injection hz with hz
    subst hz
    refine ⟨.inr ⟨0, rfl, h2, fun i hi => h3 _ (by omega)⟩, h2, fun i hi => ?_⟩
    rw [if_pos rfl]
    exact h3 _ (by omega)
  · obtain ⟨z', h4, h5, h6, h7⟩ := olaStep hNs hhl hw (hsee j rfl) hpl hp h2 h3
    rw [h4] at hz
    injection hz with hz
    subst hz
    refine ⟨.inr ⟨j + 1, rfl, h5, h7⟩, h5, fun i hi => ?_⟩
    rw [if_neg (by omega), one_mul, h6 i hi]

theorem adaptStep_zLocal {a a' : AdaptSt K} {t : ℚ} {q k : Nat} {ty : EvType} (h : adaptStep U y a (t, q, ty) = .ok a')
    (hq : ¬ (q = k ∧ ty = .bc)) : a'.st.zLocal k = a.st.zLocal k := by
  unfold adaptStep at h
  cases ty with
  | bc =>
    have hne : k ≠ q := fun e => hq ⟨e.symm, rfl⟩
    simp only at h
    obtain ⟨s, hs, h⟩ := bind_ok_inv h
    injection h with h
    subst h
    unfold GivenCfg.step at hs
    simp only at hs
    unfold GivenCfg.broadcast at hs
    obtain ⟨fr, _, h1⟩ := bind_ok_inv hs
    split at h1
    · cases h1
    · split at h1
      · obtain ⟨z, _, h1⟩ := bind_ok_inv h1
        obtain ⟨n, hn, h1⟩ := bind_ok_inv h1
        injection h1 with h1
        subst h1
        exact Function.update_of_ne hne _ _
      · obtain ⟨l, _, h1⟩ := bind_ok_inv h1
        obtain ⟨w, _, h1⟩ := bind_ok_inv h1
        obtain ⟨z, _, h1⟩ := bind_ok_inv h1
        obtain ⟨n, hn, h1⟩ := bind_ok_inv h1
        injection h1 with h1
        subst h1
        exact Function.update_of_ne hne _ _
  | up =>
    simp only at h
    obtain ⟨o, _, h⟩ := bind_ok_inv h
    obtain ⟨s, hs, h⟩ := bind_ok_inv h
    injection h with h
    subst h
    unfold GivenCfg.step at hs
    simp only at hs
    unfold GivenCfg.update at hs
    obtain ⟨n, hn, h1⟩ := bind_ok_inv hs
    obtain ⟨fr, _, h1⟩ := bind_ok_inv h1
    split at h1
    · cases h1
    · obtain ⟨d, _, h1⟩ := bind_ok_inv h1
      obtain ⟨dl, _, h1⟩ := bind_ok_inv h1
      injection h1 with h1
      subst h1
      rfl
  | _ =>
    simp only at h
    obtain ⟨s, hs, h⟩ := bind_ok_inv h
    cases hs

theorem keepFused_of_ne (a : AdaptSt K) (z : Nat → List K) {t : ℚ} {q k : Nat} {ty : EvType} (hq : ¬ (q = k ∧ ty = .bc)) :
    keepFused a z (t, q, ty) k = z k := by
  unfold keepFused
  cases hb : a.cfg.bc with
  | few L eff => cases ty <;> rfl
  | whole =>
    cases ty with
    | bc => exact Function.update_of_ne (fun e => hq ⟨e.symm, rfl⟩) _ _
    | _ => rfl

theorem bcTimes_snoc (evs : List (ℚ × Nat × EvType)) (t : ℚ) (q k : Nat) (ty : EvType) :
    bcTimes (evs ++ [(t, q, ty)]) k = bcTimes evs k ++ if q = k ∧ ty = .bc then [t] else [] := by
  unfold bcTimes
  rw [List.filterMap_append]
  congr 1
  by_cases h : q = k ∧ ty = .bc <;> simp [h]

/-- The fused signal of a node whose filter for the broadcasts selects a sensor. -/
theorem fused_content [CharZero K] (hb : g.bc = .whole) (hNs : 0 < g.Ns) (hN : g.N = 2 * g.Ns) (r : DftRoot g.ζ g.N)
    (hc : g.c ≠ 0) (hcr : star g.c = g.c) (hh : IsReal g.h) (hhl : g.h.length = g.N) (hfh : g.f = g.h)
    (hw : ∀ j < g.Ns, at0 g.h (g.Ns + j) ^ 2 + at0 g.h j ^ 2 ≠ 0) {k ref : Nat} {x : List K}
    (hx : (y k)[ref]? = some x) (hxr : IsReal x) {fs : ℚ} (hfs : 0 < fs) (hk : g.fs k = fs)
    (hsee : ∀ i, WindowSees g.h x g.Ns i) (hsel0 : g.wExt k 0 = selector (y k).length ref (g.N / 2 + 1))
    {T : Nat} {M : Nat → Nat} (evs : List (ℚ × Nat × EvType)) : ∀ {s : FusedSt K} {J : Nat},
    fusedRun U y g T M evs = .ok s → bcTimes evs k = everySep g.Ns fs 2 (2 + J) → (0 < J → (J + 1) * g.Ns ≤ x.length) →
    (∀ i < (s.run.hist k).length, (U.rows k ((s.run.hist k).take (i + 1))).ext =
      selector (y k).length ref (g.N / 2 + 1)) →
    KeptChunk g.h x g.Ns J (s.run.st.zLocal k) ∧ (s.zFull k).length = J * g.Ns ∧
      ∀ p < J * g.Ns, at0 (s.zFull k) p = (if p < g.Ns then at0 g.h p ^ 2 else 1) * at0 x p := by
  have hes : ∀ J, everySep g.Ns fs 2 (2 + J) = (List.range J).map fun (j : Nat) => ((2 + j : Nat) : ℚ) * g.Ns / fs := by
    intro J
    unfold everySep
    rw [Nat.add_sub_cancel_left]
  induction evs using List.reverseRecOn with
  | nil =>
    intro s J h hbc hlen hr
    injection h with h
    subst h
    have : J = 0 := by
      have := congrArg List.length hbc
      rw [hes] at this
      simpa [bcTimes] using this.symm
    subst this
    exact ⟨.inl ⟨rfl, rfl⟩, by simp, fun p hp => by omega⟩
  | append_singleton evs ev ih =>
    intro s J h hbc hlen hr
    have h0 := h
    unfold fusedRun at h
    rw [List.foldlM_append] at h
    obtain ⟨b, hb1, h⟩ := bind_ok_inv h
    rw [List.foldlM_cons] at h
    obtain ⟨c, hc1, h⟩ := bind_ok_inv h
    injection h with h
    subst h
    unfold fusedStep at hc1
    obtain ⟨a, ha, hc1⟩ := bind_ok_inv hc1
    injection hc1 with hc1
    subst hc1
    obtain ⟨i1, i2, -⟩ := fusedRun_ops evs hb1
    obtain ⟨-, i2', -⟩ := fusedRun_ops (evs ++ [ev]) h0
    have e := i2
    unfold GivenCfg.fixed at e
    have e' := i2'
    unfold GivenCfg.fixed at e'
    simp only at e'
    have hpre := adaptStep_hist ha k
    have hr' : ∀ i < (b.run.hist k).length, (U.rows k ((b.run.hist k).take (i + 1))).ext =
        selector (y k).length ref (g.N / 2 + 1) := by
      intro i hi
      obtain ⟨l, hl⟩ := hpre
      have := hr i (by simp only; rw [← hl, List.length_append]; omega)
      simp only at this
      rwa [← hl, List.take_append_of_le_length (by omega)] at this
    obtain ⟨t, q, ty⟩ := ev
    by_cases hq : q = k ∧ ty = .bc
    · obtain ⟨rfl, rfl⟩ := hq
      rw [bcTimes_snoc, if_pos ⟨rfl, rfl⟩, hes] at hbc
      cases J with
      | zero => simp at hbc
      | succ J =>
        rw [List.range_succ, List.map_append, List.map_cons, List.map_nil] at hbc
        obtain ⟨hbc1, hbc2⟩ := List.append_inj' hbc (by simp)
        injection hbc2 with hbc2
        obtain ⟨j1, j2, j3⟩ := ih hb1 (by rw [hes]; exact hbc1)
          (fun _ => le_trans (Nat.mul_le_mul_right _ (by omega)) (hlen (by omega))) hr'
        -- the row of the filter
        have hrow : b.run.cfg.wExt q (b.run.st.net.it q) = selector (y q).length ref (g.N / 2 + 1) := by
          obtain ⟨w, hr1⟩ := adaptRun_written (fun _ => rfl) evs i1
          have hit := run_it evs hr1 q
          have h00 : (GivenSt.init g.N g.refSensor T M : GivenSt K).net.it q = 0 := rfl
          rw [h00, zero_add] at hit
          rw [hit]
          rcases Nat.eq_zero_or_pos (evUps evs q) with hz | hz
          · rw [hz, (w.old q 0 (.inl rfl)).2.1, hsel0]
          · obtain ⟨i, hi⟩ : ∃ i, evUps evs q = i + 1 := ⟨_, (Nat.succ_pred_eq_of_pos hz).symm⟩
            rw [hi, (w.rows q i (by omega)).2.1]
            exact hr' i (by rw [w.len]; omega)
        unfold adaptStep at ha
        simp only at ha
        obtain ⟨st, hst, ha⟩ := bind_ok_inv ha
        injection ha with ha
        subst ha
        unfold GivenCfg.step at hst
        simp only at hst
        unfold GivenCfg.broadcast at hst
        obtain ⟨fr, hfr, hst⟩ := bind_ok_inv hst
        have f1 : b.run.cfg.bc = .whole := by rw [e]; exact hb
        have f2 : b.run.cfg.N = 2 * g.Ns := by rw [e]; exact hN
        have f3 : b.run.cfg.Ns = g.Ns := by rw [e]
        have f4 : b.run.cfg.h = g.h := by rw [e]
        have f5 : b.run.cfg.f = g.h := by rw [e]; exact hfh
        have f6 : b.run.cfg.c = g.c := by rw [e]
        have f7 : b.run.cfg.ζ = g.ζ := by rw [e]
        have f8 : b.run.cfg.fs q = fs := by rw [e]; exact hk
        split at hst
        · cases hst
        · rw [f1] at hst
          simp only at hst
          obtain ⟨z, hz, hst⟩ := bind_ok_inv hst
          obtain ⟨net, hnet, hst⟩ := bind_ok_inv hst
          injection hst with hst
          subst hst
          rw [f2, f3, f4, f5, f6, f7, hrow] at hz
          have hlenY : (fr.map (·.1)).length = (y q).length := by
            rw [List.length_map, (mapM_get hfr).1]
          have hyq := hN ▸ hhl
          have hJl : (J + 2) * g.Ns ≤ x.length := by rw [show J + 2 = J + 1 + 1 from rfl]; exact hlen (by omega)
          have hYr : (fr.map (·.1)).getD ref [] = frameAt x (J * g.Ns) (2 * g.Ns) := by
            obtain ⟨v, hv1, hv2⟩ := (mapM_get hfr).2 ref x hx
            have hE : ⌊t * fs⌋ = (((J + 2) * g.Ns : Nat) : Int) := by
              rw [hbc2, floor_everySep hfs, Nat.add_comm 2 J]
            have hl := localChunk_frame (x := x) (N := 2 * g.Ns) hJl
            rw [frameBefore_eq_frameAt x (by rw [Nat.add_mul]; omega) hJl] at hl
            have hcb : chunkForBroadcast x t (b.run.cfg.fs q) b.run.cfg.N =
                .ok (frameAt x ((J + 2) * g.Ns - 2 * g.Ns) (2 * g.Ns),
                  max ((((J + 2) * g.Ns : Nat) : Int) - (2 * g.Ns : Nat)) 0, (((J + 2) * g.Ns : Nat) : Int)) := by
              unfold chunkForBroadcast
              rw [f8, f2, hE]
              exact hl
            have : (J + 2) * g.Ns - 2 * g.Ns = J * g.Ns := by rw [Nat.add_mul]; omega
            rw [this] at hcb
            rw [hcb] at hv2
            injection hv2 with hv2
            rw [List.getD_eq_getElem?_getD, List.getElem?_map, hv1, ← hv2]
            rfl
          have hrl : ref < (fr.map (·.1)).length := by
            rw [hlenY]
            exact (List.getElem?_eq_some_iff.mp hx).1
          rw [← hlenY, hN] at hz
          obtain ⟨k1, k2, k3⟩ := whole_chunk_next hNs (hN ▸ r) hc hcr hh hyq hw hxr hrl hYr hJl (fun j _ => hsee j) j1 hz
          have hzf : keepFused (⟨b.run.cfg, { b.run.st with net := net, zLocal := Function.update b.run.st.zLocal q z },
              b.run.hist⟩ : AdaptSt K) b.zFull (t, q, .bc) q = b.zFull q ++ z.take g.Ns := by
            unfold keepFused
            simp only
            rw [f1]
            simp only [Function.update_self]
            rw [f3, pySlice_zero]
          refine ⟨?_, ?_, ?_⟩
          · simp only [Function.update_self]
            exact k1
          · simp only
            rw [hzf, List.length_append, List.length_take, j2, k2, Nat.add_mul]
            omega
          · intro p hp
            simp only
            rw [hzf]
            by_cases hpJ : p < J * g.Ns
            · rw [at0_append, if_pos (by omega)]
              exact j3 p hpJ
            · obtain ⟨i, rfl⟩ : ∃ i, p = J * g.Ns + i := ⟨p - J * g.Ns, by omega⟩
              rw [Nat.add_mul, one_mul] at hp
              have hi : i < g.Ns := by omega
              rw [at0_append, if_neg (by omega), j2, Nat.add_sub_cancel_left, at0_take hi, k3 i hi]
              rcases Nat.eq_zero_or_pos J with hz0 | hz0
              · subst hz0
                rw [if_pos rfl, Nat.zero_mul, Nat.zero_add, if_pos hi]
              · rw [if_neg (by omega), if_neg]
                have := Nat.mul_le_mul_right g.Ns hz0
                omega
    · rw [bcTimes_snoc, if_neg hq, List.append_nil] at hbc
      obtain ⟨j1, j2, j3⟩ := ih hb1 hbc hlen hr'
      have hzl : a.st.zLocal k = b.run.st.zLocal k := adaptStep_zLocal ha hq
      have hkf : keepFused a b.zFull (t, q, ty) k = b.zFull k := by
        exact keepFused_of_ne a b.zFull hq
      refine ⟨?_, ?_, ?_⟩
      · simp only; rw [hzl]; exact j1
      · simp only; rw [hkf]; exact j2
      · simp only; rw [hkf]; exact j3


/-- The fused signals only grow. -/
theorem fusedRun_append {T : Nat} {M : Nat → Nat} {pre post : List (ℚ × Nat × EvType)} {s : FusedSt K}
    (h : fusedRun U y g T M (pre ++ post) = .ok s) :
    ∃ b, fusedRun U y g T M pre = .ok b ∧ post.foldlM (fusedStep U y) b = .ok s ∧ ∀ k, b.zFull k <+: s.zFull k := by
  unfold fusedRun at h
  rw [List.foldlM_append] at h
  obtain ⟨b, hb, h1⟩ := bind_ok_inv h
  refine ⟨b, hb, h1, ?_⟩
  clear hb h
  revert h1
  intro h
  induction post generalizing b with
  | nil => injection h with h; subst h; exact fun k => List.prefix_refl _
  | cons ev post ih =>
    rw [List.foldlM_cons] at h
    obtain ⟨c, hc, h⟩ := bind_ok_inv h
    intro k
    refine List.IsPrefix.trans ?_ (ih c h k)
    unfold fusedStep at hc
    obtain ⟨a, ha, hc⟩ := bind_ok_inv hc
    injection hc with hc
    subst hc
    obtain ⟨t, q, ty⟩ := ev
    by_cases hq : q = k ∧ ty = .bc
    · obtain ⟨rfl, rfl⟩ := hq
      simp only
      unfold keepFused
      cases hb : a.cfg.bc with
      | few L eff => exact List.prefix_refl _
      | whole =>
        simp only [Function.update_self]
        exact List.prefix_append _ _
    · simp only
      rw [keepFused_of_ne a b.zFull hq]

section
variable {n : Nat} {V : TIStrategy n K} {w : Fin n → List (List K)} {trees : List (TreeObj n)}

theorem fusedTI_step {t : ℚ} {s s' : FusedTISt n K} {e : OutEv} (h : fusedTIStepEv g V w trees t s e = .ok s') :
    tiStepEv g V w trees t s.run e = .ok s'.run ∧
    ∀ k, s.eFull k = (s.run.node k).hist.flatMap (fun o => o.eta.take g.Ns) →
      s'.eFull k = (s'.run.node k).hist.flatMap (fun o => o.eta.take g.Ns) := by
  unfold fusedTIStepEv at h
  obtain ⟨r, hr, h⟩ := bind_ok_inv h
  injection h with h
  subst h
  refine ⟨hr, fun k hk => ?_⟩
  simp only
  by_cases hu : e.ty = .up ∧ e.node < n
  · rw [dif_pos hu]
    by_cases he : e.node = k.val
    · have hek : (⟨e.node, hu.2⟩ : Fin n) = k := Fin.ext he
      unfold tiStepEv at hr
      rw [hu.1] at hr
      simp only at hr
      rw [dif_pos hu.2] at hr
      obtain ⟨nd, hnd, hr⟩ := bind_ok_inv hr
      injection hr with hr
      subst hr
      rw [hek] at hnd
      obtain ⟨loc, -, h2, -⟩ := tiUpdate_inv hnd
      rw [hek]
      simp only [Function.update_self]
      rw [h2, List.flatMap_append, hk, pySlice_zero]
      simp
    · have hne : k ≠ ⟨e.node, hu.2⟩ := fun q => he (by rw [q])
      rw [Function.update_of_ne hne, hk]
      rcases tiStepEv_out hr k with ⟨-, e1, -⟩ | ⟨e1, -⟩
      · rw [e1]
      · exact absurd e1 he
  · rw [dif_neg hu, hk]
    rcases tiStepEv_out hr k with ⟨-, e1, -⟩ | ⟨e1, e2, -⟩
    · rw [e1]
    · exact absurd ⟨e2, by rw [e1]; exact k.isLt⟩ hu

theorem fusedTI_run (out : List (Instant ℚ)) {s0 : TISt n K} {s : FusedTISt n K} (h0 : ∀ k, (s0.node k).hist = [])
    (h : fusedTIRun g V w trees s0 out = .ok s) :
    tiRun g V w trees s0 out = .ok s.run ∧ ∀ k, s.eFull k = (s.run.node k).hist.flatMap (fun o => o.eta.take g.Ns) := by
  have ev : ∀ (t : ℚ) (evs : List OutEv) {s s' : FusedTISt n K}, evs.foldlM (fusedTIStepEv g V w trees t) s = .ok s' →
      evs.foldlM (tiStepEv g V w trees t) s.run = .ok s'.run ∧
      ∀ k, s.eFull k = (s.run.node k).hist.flatMap (fun o => o.eta.take g.Ns) →
        s'.eFull k = (s'.run.node k).hist.flatMap (fun o => o.eta.take g.Ns) := by
    intro t evs
    induction evs with
    | nil => intro s s' h; injection h with h; subst h; exact ⟨rfl, fun _ h => h⟩
    | cons e evs ih =>
      intro s s' h
      rw [List.foldlM_cons] at h
      obtain ⟨b, hb, h⟩ := bind_ok_inv h
      obtain ⟨b1, b2⟩ := fusedTI_step hb
      obtain ⟨c1, c2⟩ := ih h
      exact ⟨by rw [List.foldlM_cons, b1]; exact c1, fun k hk => c2 k (b2 k hk)⟩
  have all : ∀ (out : List (Instant ℚ)) {s s' : FusedTISt n K},
      out.foldlM (fun s i => i.evs.foldlM (fusedTIStepEv g V w trees i.t) s) s = .ok s' →
      tiRun g V w trees s.run out = .ok s'.run ∧
      ∀ k, s.eFull k = (s.run.node k).hist.flatMap (fun o => o.eta.take g.Ns) →
        s'.eFull k = (s'.run.node k).hist.flatMap (fun o => o.eta.take g.Ns) := by
    intro out
    induction out with
    | nil => intro s s' h; injection h with h; subst h; exact ⟨rfl, fun _ h => h⟩
    | cons i out ih =>
      intro s s' h
      rw [List.foldlM_cons] at h
      obtain ⟨b, hb, h⟩ := bind_ok_inv h
      obtain ⟨b1, b2⟩ := ev i.t i.evs hb
      obtain ⟨c1, c2⟩ := ih h
      refine ⟨?_, fun k hk => c2 k (b2 k hk)⟩
      unfold tiRun tiStepInstant
      rw [List.foldlM_cons, b1]
      exact c1
  obtain ⟨h1, h2⟩ := all out h
  exact ⟨h1, fun k => h2 k (by simp only; rw [h0]; rfl)⟩

end


theorem range_blocks {α : Type} (F : Nat → α) (Ns J : Nat) :
    (List.range J).flatMap (fun j => (List.range Ns).map fun i => F (j * Ns + i)) = (List.range (J * Ns)).map F := by
  induction J with
  | zero => simp
  | succ J ih =>
    rw [List.range_succ, List.flatMap_append, ih, Nat.add_mul, one_mul, List.range_add, List.map_append, List.map_map]
    simp [Function.comp_def]

end
end Danse
