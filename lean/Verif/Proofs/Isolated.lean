import Verif.Proofs.Danse2
import Verif.Proofs.Online5
import Verif.Proofs.Config

/-!
# Auxiliary facts for C123: a node without neighbours
-/

namespace Danse
section
variable {K : Type} [Field K] [StarRing K] [DecidableEq K] {D : DanseCfg K}

/-- The same update for the same number of channels. -/
theorem nodeStep_heq {k m m' : Nat} (h : m = m')
    {s : NodeSt (Fin D.nb) (Fin m) K (Except PyErr (Frame (Fin D.nb) (Fin m) K))}
    {s' : NodeSt (Fin D.nb) (Fin m') K (Except PyErr (Frame (Fin D.nb) (Fin m') K))} (hs : HEq s s')
    {y : Frame (Fin D.nb) (Fin m) K} {y' : Frame (Fin D.nb) (Fin m') K} (hy : HEq y y') (v : Bool) (t : ℚ) (b : Bool) :
    HEq (nodeStep (D.kind k m) s y v t b) (nodeStep (D.kind k m') s' y' v t b) := by
  subst h; cases hs; cases hy; rfl

theorem kind0_heq {k m m' : Nat} (h : m = m') {w w' : Nat → List (List K)} (hw : w = w') :
    HEq (D.kind0 k m w) (D.kind0 k m' w') := by
  subst h; subst hw; rfl

theorem frame_heq {m m' : Nat} (h : m = m') (chs : List (List K)) {ph : Nat → Nat → K} (hp : ∀ c κ, ph c κ = 1) :
    HEq (fun (κ : Fin D.nb) (c : Fin m) => D.spectra m (chs ++ []) κ c * ph c κ) (D.spectra m' chs) := by
  subst h
  rw [heq_iff_eq]
  funext κ c
  rw [hp, mul_one, List.append_nil]

theorem nodeSt_heq_i {B m m' : Nat} (h : m = m')
    {s : NodeSt (Fin B) (Fin m) K (Except PyErr (Frame (Fin B) (Fin m) K))}
    {s' : NodeSt (Fin B) (Fin m') K (Except PyErr (Frame (Fin B) (Fin m') K))} (hs : HEq s s') : s.i = s'.i := by
  subst h; cases hs; rfl

theorem nodeSt_heq_w {B m m' : Nat} (h : m = m')
    {s : NodeSt (Fin B) (Fin m) K (Except PyErr (Frame (Fin B) (Fin m) K))}
    {s' : NodeSt (Fin B) (Fin m') K (Except PyErr (Frame (Fin B) (Fin m') K))} (hs : HEq s s') {j : Nat} {w w'}
    (h1 : s.w j = .ok w) (h2 : s'.w j = .ok w') : frameRow w = frameRow w' := by
  subst h; cases hs
  rw [h1] at h2
  injection h2 with h2
  rw [h2]

/-- One update of a node that hears nothing. -/
theorem nodeUpdate_isolated {k : Nat} (hn : D.g.nb k = []) (hr : ∀ l c κ, D.rot k l c κ = 1)
    {s : DNode D.nb (D.dim k) (D.M k) K} (hs : HEq s.danse s.loc) {o : Obs K} (ho : o.z = []) {p}
    (h : D.nodeUpdate k s o = .ok p) : HEq p.1.danse p.1.loc ∧ p.2.int = p.2.loc := by
  have hd : D.dim k = D.M k := by simp [DanseCfg.dim, hn]
  unfold DanseCfg.nodeUpdate at h
  obtain ⟨w, h1, h⟩ := bind_ok_inv h
  obtain ⟨wl, h2, h⟩ := bind_ok_inv h
  injection h with h
  subst h
  have hi := nodeSt_heq_i hd hs
  have hst := nodeStep_heq (k := k) hd hs (frame_heq (D := D) hd o.loc (ph := D.rot k (s.times ++ [(o.t, o.flags)]))
    (fun c κ => hr _ c κ)) (D.vad k s.danse.i) o.t (D.bypass k s.danse.i)
  rw [ho] at h1 ⊢
  exact ⟨hst, nodeSt_heq_w hd hst h1 h2⟩

/-- Nothing is received without neighbours. -/
theorem netStep_up_isolated {nb : Nat → List Nat} {N Ns k : Nat} (hn : nb k = []) {s r : NetSt K}
    (h : netStep nb N Ns s (.up k) = .ok r) : r.z k = [] := by
  unfold netStep at h
  obtain ⟨p, h1, h⟩ := bind_ok_inv h
  injection h with h
  subst h
  unfold processBuffers at h1
  rw [hn] at h1
  simp at h1
  subst h1
  simp

theorem rotate_one {g : GivenCfg K} {k i : Nat} (h : ∀ c κ, g.rot k i c κ = 1) (l : List (List K)) :
    g.rotate k i l = l := by
  unfold GivenCfg.rotate
  refine List.ext_getElem? fun j => ?_
  simp only [List.getElem?_map, List.getElem?_zipIdx, Option.map_map, Nat.zero_add]
  cases hl : l[j]? with
  | none => rfl
  | some ch =>
    simp only [Option.map_some, Function.comp, Option.some.injEq]
    refine List.ext_getElem? fun q => ?_
    simp only [List.getElem?_map, List.getElem?_zipIdx, Option.map_map, Nat.zero_add]
    cases ch[q]? <;> simp [h]

/-- The output of a node without neighbours is the local one if its filters are the local ones. -/
theorem update_isolated {g : GivenCfg K} {k : Nat} (hn : g.nb k = []) {y : Nat → List (List K)} {s r : GivenSt K}
    {t : ℚ} (hr : ∀ c κ, g.rot k (s.net.it k) c κ = 1) (hw : g.wInt k = g.wLoc k) (hd : s.d k = s.dLoc k)
    (h : g.update y s t k = .ok r) : r.d k = r.dLoc k := by
  unfold GivenCfg.update at h
  obtain ⟨net, h1, h⟩ := bind_ok_inv h
  obtain ⟨loc, h2, h⟩ := bind_ok_inv h
  have hz := netStep_up_isolated hn h1
  by_cases hl : (loc.any fun x => x.1.length ≠ g.N) = true
  · simp only [hl, if_true] at h
    cases h
  · rw [if_neg hl] at h
    obtain ⟨d, h3, h⟩ := bind_ok_inv h
    obtain ⟨dL, h4, h⟩ := bind_ok_inv h
    injection h with h
    subst h
    have hlen : (loc.map (·.1)).length = (y k).length := by rw [List.length_map, (mapM_get h2).1]
    rw [rotate_one hr, hz, List.append_nil, ← hlen, List.take_length, hw, hd] at h3
    rw [h4] at h3
    injection h3 with h3
    simp [h3]

/-- Updates of other nodes do not touch the outputs of a node. -/
theorem update_other {g : GivenCfg K} {k k' : Nat} (hk : k ≠ k') {y : Nat → List (List K)} {s r : GivenSt K}
    {t : ℚ} (h : g.update y s t k' = .ok r) : r.d k = s.d k ∧ r.dLoc k = s.dLoc k := by
  unfold GivenCfg.update at h
  obtain ⟨net, h1, h⟩ := bind_ok_inv h
  obtain ⟨loc, h2, h⟩ := bind_ok_inv h
  by_cases hl : (loc.any fun x => x.1.length ≠ g.N) = true
  · simp only [hl, if_true] at h
    cases h
  · rw [if_neg hl] at h
    obtain ⟨d, h3, h⟩ := bind_ok_inv h
    obtain ⟨dL, h4, h⟩ := bind_ok_inv h
    injection h with h
    subst h
    simp [hk]

/-- Neither do broadcasts. -/
theorem broadcast_out {g : GivenCfg K} {k : Nat} {y : Nat → List (List K)} {s r : GivenSt K}
    {t : ℚ} (h : g.broadcast y s t k = .ok r) : r.d = s.d ∧ r.dLoc = s.dLoc := by
  unfold GivenCfg.broadcast at h
  obtain ⟨fr, h1, h⟩ := bind_ok_inv h
  by_cases hl : (fr.any fun x => x.1.length < g.N) = true
  · simp only [hl, if_true] at h
    cases h
  · rw [if_neg hl] at h
    cases hb : g.bc with
    | whole =>
      simp only [hb] at h
      obtain ⟨z, _, h⟩ := bind_ok_inv h
      obtain ⟨net, _, h⟩ := bind_ok_inv h
      injection h with h
      subst h
      exact ⟨rfl, rfl⟩
    | few L eff =>
      simp only [hb] at h
      obtain ⟨l, _, h⟩ := bind_ok_inv h
      obtain ⟨wIR, _, h⟩ := bind_ok_inv h
      obtain ⟨z, _, h⟩ := bind_ok_inv h
      obtain ⟨net, _, h⟩ := bind_ok_inv h
      injection h with h
      subst h
      exact ⟨rfl, rfl⟩

/-- What stays true of a node without neighbours. -/
structure IsoInv (D : DanseCfg K) (k : Nat) (a : DanseSt D) : Prop where
  nb : a.run.cfg.nb = D.g.nb
  w : a.run.cfg.wInt k = a.run.cfg.wLoc k
  out : a.run.st.d k = a.run.st.dLoc k
  node : HEq (a.node k).danse (a.node k).loc

theorem danseStep_isolated {k : Nat} (hn : D.g.nb k = []) (hr : ∀ l c κ, D.rot k l c κ = 1)
    {y : Nat → List (List K)} {a b : DanseSt D} (ha : IsoInv D k a) {ev : ℚ × Nat × EvType}
    (h : danseStep D y a ev = .ok b) : IsoInv D k b := by
  obtain ⟨t, q, ty⟩ := ev
  have hbc : ∀ {s : GivenSt K}, a.run.cfg.step y a.run.st (t, q, ty) = .ok s → ty ≠ .up →
      s.d = a.run.st.d ∧ s.dLoc = a.run.st.dLoc := by
    intro s hs hty
    cases ty with
    | up => exact absurd rfl hty
    | bc => exact broadcast_out hs
    | tr => cases hs
    | fu => cases hs
    | re => cases hs
  by_cases hty : ty = .up
  · subst hty
    unfold danseStep at h
    obtain ⟨o, h1, h⟩ := bind_ok_inv h
    obtain ⟨r, h2, h⟩ := bind_ok_inv h
    obtain ⟨s, h3, h⟩ := bind_ok_inv h
    injection h with h
    subst h
    by_cases hk : k = q
    · subst hk
      have ho : o.z = [] := by
        unfold GivenCfg.observe at h1
        obtain ⟨net, h4, h1⟩ := bind_ok_inv h1
        obtain ⟨loc, h5, h1⟩ := bind_ok_inv h1
        injection h1 with h1
        subst h1
        exact netStep_up_isolated (by rw [ha.nb]; exact hn) h4
      obtain ⟨e1, e2⟩ := nodeUpdate_isolated hn hr ha.node ho h2
      have hw : (((a.run.cfg.record k (a.run.st.net.it k + 1) r.2).setRot k (a.run.st.net.it k)
          (D.rot k r.1.times)).wInt k) = (((a.run.cfg.record k (a.run.st.net.it k + 1) r.2).setRot k
          (a.run.st.net.it k) (D.rot k r.1.times)).wLoc k) := by
        simp [GivenCfg.setRot, GivenCfg.record, ha.w, e2]
      refine ⟨ha.nb, hw, ?_, ?_⟩
      · refine update_isolated (by change a.run.cfg.nb k = []; rw [ha.nb]; exact hn) ?_ hw ha.out h3
        intro c κ
        simp [GivenCfg.setRot, GivenCfg.record, hr]
      · simpa using e1
    · obtain ⟨e1, e2⟩ := update_other hk h3
      refine ⟨ha.nb, ?_, ?_, ?_⟩
      · simpa [GivenCfg.setRot, GivenCfg.record, hk] using ha.w
      · change s.d k = s.dLoc k
        rw [e1, e2, ha.out]
      · have : Function.update a.node q r.1 k = a.node k := Function.update_of_ne hk _ _
        change HEq (Function.update a.node q r.1 k).danse (Function.update a.node q r.1 k).loc
        rw [this]
        exact ha.node
  · have h' : (a.run.cfg.step y a.run.st (t, q, ty) >>= fun s => .ok { a with run := { a.run with st := s } }) =
        Except.ok b := by
      cases ty with
      | up => exact absurd rfl hty
      | bc => exact h
      | tr => exact h
      | fu => exact h
      | re => exact h
    obtain ⟨s, h1, h2⟩ := bind_ok_inv h'
    injection h2 with h2
    subst h2
    obtain ⟨e1, e2⟩ := hbc h1 hty
    refine ⟨ha.nb, ha.w, ?_, ha.node⟩
    change s.d k = s.dLoc k
    rw [e1, e2, ha.out]

theorem danseRun_isolated {k : Nat} (hn : D.g.nb k = []) (hr : ∀ l c κ, D.rot k l c κ = 1)
    (hw : D.g.wInt k = D.g.wLoc k) {y : Nat → List (List K)} {T : Nat} {evs : List (ℚ × Nat × EvType)} {a : DanseSt D}
    (h : danseRun D y T evs = .ok a) : IsoInv D k a := by
  have h0 : IsoInv D k (.init D T) :=
    ⟨rfl, hw, rfl, kind0_heq (by simp [DanseCfg.dim, hn]) hw⟩
  unfold danseRun at h
  revert h0 h
  generalize DanseSt.init D T = s0
  induction evs generalizing s0 with
  | nil =>
    intro h h0
    injection h with h
    exact h ▸ h0
  | cons e l ih =>
    intro h h0
    rw [List.foldlM_cons] at h
    obtain ⟨s1, h1, h2⟩ := bind_ok_inv h
    exact ih s1 h2 (danseStep_isolated hn hr h0 h1)

end
end Danse
