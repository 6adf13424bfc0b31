import Verif.Proofs.Centr8
import Verif.Props.Centr
import Verif.Props.Sched

/-! # Helper lemmas: the place of a sensor in the centralised observation -/

set_option linter.unusedSectionVars false

namespace Danse

/-- Position of sensor `m` of node `q` in the list of all the sensors. -/
theorem flatMap_range_get {α : Type} (n : Nat) (f : Nat → List α) {q m : Nat} (hq : q < n) (hm : m < (f q).length) :
    ((List.range n).flatMap f)[((List.range q).map fun p => (f p).length).sum + m]? = (f q)[m]? := by
  induction n with
  | zero => omega
  | succ n ih =>
    rw [List.range_succ, List.flatMap_append, List.flatMap_singleton]
    have hlen : ∀ k, ((List.range k).flatMap f).length = ((List.range k).map fun p => (f p).length).sum := by
      intro k
      rw [List.length_flatMap]
    by_cases h : q < n
    · rw [List.getElem?_append_left, ih h]
      rw [hlen]
      have h1 : ((List.range (q + 1)).map fun p => (f p).length).sum ≤ ((List.range n).map fun p => (f p).length).sum := by
        refine List.Sublist.sum_le_sum ?_ (by simp)
        exact List.Sublist.map _ (List.range_sublist.mpr (by omega))
      rw [List.range_succ, List.map_append, List.sum_append] at h1
      simp only [List.map_cons, List.map_nil, List.sum_cons, List.sum_nil] at h1
      omega
    · obtain rfl : q = n := by omega
      rw [List.getElem?_append_right (by rw [hlen]; omega), hlen, Nat.add_sub_cancel_left]

section
variable {K : Type} [Field K] [StarRing K] [DecidableEq K] {c : CentrCfg K} {y y' : Nat → List (List K)}

/-- What a node sends depends on its own signals only. -/
theorem rawSent_congr (g : GivenCfg K) {q : Nat} (h : y q = y' q) (evs : List (ℚ × Nat × EvType)) (m : Nat) :
    rawSent g y evs q m = rawSent g y' evs q m := by
  induction evs using List.reverseRecOn with
  | nil => rfl
  | append_singleton evs ev ih =>
    unfold rawSent at ih ⊢
    rw [rawOps_snoc, rawOps_snoc, sent_append, sent_append, ih]
    congr 1
    obtain ⟨t, k, ty⟩ := ev
    cases ty with
    | bc =>
      simp only [sent_bc]
      by_cases hk : k = q
      · subst hk
        simp [rawChunk, h]
      · simp [hk]
    | _ => simp [sent_up]

theorem numUps_rawOps (g : GivenCfg K) (evs : List (ℚ × Nat × EvType)) (k m : Nat) :
    numUps k (rawOps g y evs m) = numUps k (rawOps g y' evs m) := by
  induction evs using List.reverseRecOn with
  | nil => rfl
  | append_singleton evs ev ih =>
    unfold numUps at ih ⊢
    rw [rawOps_snoc, rawOps_snoc, List.countP_append, List.countP_append, ih]
    congr 1
    obtain ⟨t, q, ty⟩ := ev
    cases ty <;> simp [BufOp.isUp]

/-- With linear-convolution synthesis the centralised estimate of `k` is a function of the first `M_k` channels. -/
theorem centr_conv (hc : c.centr = true) (hconv : c.g.conv = true) (hN : 0 < c.g.N) {k : Nat} (hk : k < c.n)
    (hy : ∀ q, q ≠ k → y q = y' q) (hyl : (y k).length = (y' k).length)
    (hM : (y k).length ≤ ((List.range k).map fun q => (y q).length).sum)
    (hlen : ∀ q < c.n, ∀ x ∈ y q, c.g.N ≤ x.length) (hlen' : ∀ q < c.n, ∀ x ∈ y' q, c.g.N ≤ x.length) {T : Nat}
    (evs : List (ℚ × Nat × EvType))
    (hev : ∀ ev ∈ evs, ev.2.1 < c.n ∧ 0 ≤ ⌊ev.1 * c.g.fs ev.2.1⌋ ∧
      (ev.2.2 = .up → 0 ≤ frameEnd c.g.bc c.g.N c.g.Ns ev.1 (c.g.fs ev.2.1))) {s s' : CentrSt K}
    (h : c.run y (.init c.n c.g.N c.g.refSensor T fun q => (y q).length) evs = .ok s)
    (h' : c.run y' (.init c.n c.g.N c.g.refSensor T fun q => (y' q).length) evs = .ok s') : s.dC k = s'.dC k := by
  induction evs using List.reverseRecOn generalizing s s' with
  | nil =>
    injection h with h
    injection h' with h'
    subst h h'
    rfl
  | append_singleton evs ev ih =>
    have hr := h
    have hr' := h'
    unfold CentrCfg.run at h h'
    rw [List.foldlM_append] at h h'
    obtain ⟨s1, h1, h⟩ := bind_ok_inv h
    obtain ⟨s1', h1', h'⟩ := bind_ok_inv h'
    rw [List.foldlM_cons] at h h'
    obtain ⟨s2, h2, h⟩ := bind_ok_inv h
    obtain ⟨s2', h2', h'⟩ := bind_ok_inv h'
    injection h with h
    injection h' with h'
    subst h h'
    have hev1 : ∀ e ∈ evs, e.2.1 < c.n ∧ 0 ≤ ⌊e.1 * c.g.fs e.2.1⌋ := fun e he =>
      ⟨(hev e (by simp [he])).1, (hev e (by simp [he])).2.1⟩
    have hd := ih (fun e he => hev e (by simp [he])) h1 h1'
    by_cases hke : ev.2.1 = k ∧ ev.2.2 = .up
    · obtain ⟨t, q, ty⟩ := ev
      obtain ⟨rfl, rfl⟩ := hke
      have he := (hev (t, q, .up) (by simp)).2.2 rfl
      have ho := C86_observation hc hN hlen hev1 hk he hr
      have ho' := C86_observation hc hN hlen' hev1 hk he hr'
      have hi := CInv.run hc hN hlen T evs hev1 h1
      have hi' := CInv.run hc hN hlen' T evs hev1 h1'
      have hit : s1.base.net.it q = s1'.base.net.it q := by
        rw [hi.it 0 q, hi'.it 0 q, numUps_rawOps (y' := y')]
      have step : ∀ {y : Nat → List (List K)} {s1 s2 : CentrSt K}, c.step y s1 (t, q, .up) = .ok s2 →
          ∃ dC, (∃ Y, c.g.desired (c.wC q (s1.base.net.it q + 1)) Y ((s2.yCentr q).take (y q).length) (s1.dC q)
            (c.g.updRange t q).1 (c.g.updRange t q).2 = .ok dC) ∧ s2.dC q = dC := by
        intro y s1 s2 h2
        obtain ⟨p, loc, yS, dC, dS, hp, hloc, _, hb, hdC, _, _, _, hdC', _⟩ := centrUpdate_parts h2
        have hyC : s2.yCentr q = buildCentr c.n (fun q => (y q).length) q (loc.map (·.1)) p.1 := by
          obtain ⟨p', loc', yS', hp', hloc', _, _, _, _, _, _, hyC, _⟩ := centrUpdate_inv hc h2
          rw [whenOn, if_pos hc, hp'] at hp
          rw [hloc'] at hloc
          injection hp with hp
          injection hloc with hloc
          subst hp hloc
          rw [hyC, Function.update_self]
        rw [whenOn, if_pos hc, if_pos hc, ← hyC] at hdC
        exact ⟨dC, ⟨_, hdC⟩, by rw [hdC', Function.update_self]⟩
      obtain ⟨dC, ⟨Y, e1⟩, e2⟩ := step h2
      obtain ⟨dC', ⟨Y', e1'⟩, e2'⟩ := step h2'
      have htake : (s2.yCentr q).take (y q).length = (s2'.yCentr q).take (y' q).length := by
        rw [ho, ho', ← hyl]
        have hsplit : List.range c.n = List.range q ++ (List.range (c.n - q)).map (q + ·) := by
          rw [← List.range_add]
          congr 1
          simp only at hk
          omega
        rw [hsplit, List.flatMap_append, List.flatMap_append]
        have hpre : ∀ (z : Nat → List (List K)), (∀ p, p ≠ q → z p = y p) → (List.range q).flatMap (fun p =>
            if p = q then (z q).map fun x => frameBefore c.g.N x (frameEnd c.g.bc c.g.N c.g.Ns t (c.g.fs q)).toNat
            else (List.range (z p).length).map fun m => lastFrame c.g.N (rawSent c.g z evs p m)) =
            (List.range q).flatMap fun p =>
              (List.range (y p).length).map fun m => lastFrame c.g.N (rawSent c.g y evs p m) := by
          intro z hz
          apply List.flatMap_congr
          intro p hp
          have hpq : p ≠ q := by have := List.mem_range.mp hp; omega
          rw [if_neg hpq, hz p hpq]
          apply List.map_congr_left
          intro m _
          rw [rawSent_congr c.g (hz p hpq)]
        rw [hpre y fun _ _ => rfl, hpre y' fun p hp => (hy p hp).symm, List.take_append_of_le_length,
          List.take_append_of_le_length]
        all_goals
          rw [List.length_flatMap]
          simpa using hM
      rw [htake, hit, hd] at e1
      unfold GivenCfg.desired at e1 e1'
      rw [if_pos hconv] at e1 e1'
      rw [e1] at e1'
      injection e1' with e1'
      rw [e2, e2', e1']
    · rw [update_other_dC h2 hke, update_other_dC h2' hke, hd]

end
end Danse
