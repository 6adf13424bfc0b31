import Verif.Proofs.Centr7
import Verif.Props.Online

/-!
# Helper lemmas: centralised filters that select one sensor
-/

set_option linter.unusedSectionVars false

namespace Danse
section
variable {K : Type} [Field K] [StarRing K] [DecidableEq K] {g : GivenCfg K}

theorem frameBefore_real {N e : Nat} {x : List K} (hx : IsReal x) : IsReal (frameBefore N x e) := by
  intro v hv
  unfold frameBefore at hv
  obtain ⟨j, _, rfl⟩ := List.mem_map.mp hv
  split
  · unfold at0
    by_cases h : e + j - N < x.length
    · rw [List.getD_eq_getElem?_getD, List.getElem?_eq_getElem h, Option.getD_some]
      exact hx _ (List.getElem_mem h)
    · rw [List.getD_eq_getElem?_getD, List.getElem?_eq_none (by omega), Option.getD_none, star_zero]
  · exact star_zero K

/-- One estimate with a filter that selects one channel of the observation. -/
theorem desired_selects [CharZero K] (r : DftRoot g.ζ g.N) (he : 2 ∣ g.N) (hc : g.c ≠ 0)
    (hcr : star g.c = g.c) (hh : IsReal g.h) (hhl : g.h.length = g.N) (hfl : g.f.length = g.N)
    (hconv : g.conv = false) {ref : Nat} {x : List K} (hxr : IsReal x) {Y yT : List (List K)} {k i : Nat}
    {w : List (List K)} {e : Int} (hY : Y[ref]? = some (frameBefore g.N x e.toNat))
    (hw : w = selector Y.length ref (g.N / 2 + 1)) (hrot : ∀ κ, g.rot k i ref κ = 1) {d d' : List K}
    (h0 : 0 < e) (h1 : e ≤ d.length) (hxl : d.length ≤ x.length)
    (hd : g.desired w (g.rotate k i (Y.map (analysis g.ζ g.N g.c g.h))) yT d (max (e - g.N) 0) e = .ok d') :
    d'.length = d.length ∧ ∀ n < d.length, at0 d' n = at0 d n + windowGain g.N g.h g.f n e * at0 x n := by
  have hN := r.pos
  set ch' := frameBefore g.N x e.toNat with hch'
  have hreal : IsReal ch' := frameBefore_real hxr
  have hchl : ch'.length = g.N := frameBefore_length _ _ _
  unfold GivenCfg.desired at hd
  rw [if_neg (by simp [hconv])] at hd
  obtain ⟨fr, hfr, hd2⟩ := bind_ok_inv hd
  have hrefl : ref < Y.length := (List.getElem?_eq_some_iff.mp hY).1
  have hYr : Y.getD ref [] = ch' := by rw [List.getD_eq_getElem?_getD, hY]; rfl
  have hrc := rotate_channel (g := g) (k := k) i ref hrot (Y.map (analysis g.ζ g.N g.c g.h))
  have hcomb : combine (g.N / 2 + 1) w (g.rotate k i (Y.map (analysis g.ζ g.N g.c g.h))) =
      combine (g.N / 2 + 1) (selector Y.length ref (g.N / 2 + 1)) (Y.map (analysis g.ζ g.N g.c g.h)) := by
    have hA : (Y.map (analysis g.ζ g.N g.c g.h)).getD ref [] = analysis g.ζ g.N g.c g.h (Y.getD ref []) :=
      getD_map_lt (by omega)
    have q1 := combine_selector (nf := g.N / 2 + 1) (Y := Y.map (analysis g.ζ g.N g.c g.h)) (ref := ref)
      (by rw [hA, analysis_length hN])
    have q2 := combine_selector (nf := g.N / 2 + 1)
      (Y := g.rotate k i (Y.map (analysis g.ζ g.N g.c g.h))) (ref := ref)
      (by rw [hrc.2 (by simp; omega), hA, analysis_length hN])
    rw [hrc.1, List.length_map] at q2
    rw [List.length_map] at q1
    rw [hw, q2, q1, hrc.2 (by simp; omega)]
  obtain ⟨z, h6, h7⟩ := identity_frame r he hc hcr hh hhl (Y := Y) (ref := ref) (by omega)
    (by rw [hYr]; exact hreal) (by rw [hYr, hchl])
  have hzl : z.length = g.N := by
    have := congrArg List.length h7
    rw [List.length_map, List.length_zipWith, hYr, hchl, hhl] at this
    omega
  have hz : ∀ j < g.N, g.c * at0 z j = at0 ch' j * at0 g.h j := by
    intro j hj
    have := congrArg (fun l => at0 l j) h7
    rw [at0_map (mul_zero g.c), at0_zipWith (by rw [hYr, hchl]; omega) (by omega), hYr] at this
    exact this
  unfold desiredFrame at hfr
  rw [hcomb, h6] at hfr
  injection hfr with hfr
  have hfrl : fr.length = g.N := by rw [← hfr, List.length_zipWith]; omega
  obtain ⟨a1, a2⟩ := addFrame_at hN hfrl h0 h1 hd2
  refine ⟨a1, fun n hn => ?_⟩
  rw [a2 n hn]
  congr 1
  unfold windowGain
  by_cases hc2 : e - g.N ≤ n ∧ (n : Int) < e
  · rw [if_pos hc2, if_pos hc2, ← hfr, at0_zipWith (by omega) (by omega), mul_right_comm,
      hz _ (by omega), hch', at0_frameBefore (by omega), if_pos (by omega)]
    have : e.toNat + (n - (e - g.N)).toNat - g.N = n := by omega
    rw [this]
    unfold at0
    ring
  · rw [if_neg hc2, if_neg hc2, zero_mul]

variable {c : CentrCfg K} {y : Nat → List (List K)}

theorem update_other_dC {s s' : CentrSt K} {ev : ℚ × Nat × EvType} {k : Nat} (h : c.step y s ev = .ok s')
    (hne : ¬ (ev.2.1 = k ∧ ev.2.2 = .up)) : s'.dC k = s.dC k := by
  obtain ⟨t, q, ty⟩ := ev
  unfold CentrCfg.step at h
  cases ty with
  | bc => rw [(centrBroadcast_parts h).2.2.1]
  | up =>
    obtain ⟨_, _, _, _, _, _, _, _, _, _, _, _, _, hdC, _⟩ := centrUpdate_parts h
    rw [hdC, Function.update_of_ne]
    exact fun e => hne ⟨e.symm, rfl⟩
  | fu => cases h
  | re => cases h
  | tr => cases h

/-- Centralised filters of node `k` that select one channel, which holds at each of its updates the frame of
the signal `x` that ends where its own frame ends. -/
theorem centr_gain [CharZero K] (hc1 : c.centr = true) (r : DftRoot c.g.ζ c.g.N) (he : 2 ∣ c.g.N)
    (hc : c.g.c ≠ 0) (hcr : star c.g.c = c.g.c) (hh : IsReal c.g.h) (hhl : c.g.h.length = c.g.N)
    (hfl : c.g.f.length = c.g.N) (hconv : c.g.conv = false) {k ref tot : Nat} {x : List K} (hxr : IsReal x)
    (hw : ∀ i, c.wC k (i + 1) = selector tot ref (c.g.N / 2 + 1)) (hrot : ∀ i κ, c.rotC k i ref κ = 1)
    {T : Nat} (hT : T ≤ x.length) {s0 : CentrSt K} (hs0 : s0.dC k = List.replicate T 0)
    (evs : List (ℚ × Nat × EvType))
    (hobs : ∀ pre t post s, evs = pre ++ (t, k, .up) :: post → c.run y s0 (pre ++ [(t, k, .up)]) = .ok s →
      (s.yCentr k).length = tot ∧
      (s.yCentr k)[ref]? = some (frameBefore c.g.N x (frameEnd c.g.bc c.g.N c.g.Ns t (c.g.fs k)).toNat))
    (hE : ∀ e ∈ frameEnds c.g.bc c.g.N c.g.Ns (c.g.fs k) k evs, 0 < e ∧ e ≤ T) {s : CentrSt K}
    (h : c.run y s0 evs = .ok s) :
    (s.dC k).length = T ∧ ∀ n < T, at0 (s.dC k) n =
      ((frameEnds c.g.bc c.g.N c.g.Ns (c.g.fs k) k evs).map (windowGain c.g.N c.g.h c.g.f n)).sum * at0 x n := by
  induction evs using List.reverseRecOn generalizing s with
  | nil =>
    injection h with h
    subst h
    rw [hs0]
    refine ⟨by simp, fun n hn => ?_⟩
    simp [at0_replicate, frameEnds, hn]
  | append_singleton evs ev ih =>
    have h' := h
    unfold CentrCfg.run at h
    rw [List.foldlM_append] at h
    obtain ⟨s1, h1, h⟩ := bind_ok_inv h
    rw [List.foldlM_cons] at h
    obtain ⟨s2, h2, h⟩ := bind_ok_inv h
    injection h with h
    subst h
    have hfe : frameEnds c.g.bc c.g.N c.g.Ns (c.g.fs k) k (evs ++ [ev]) =
        frameEnds c.g.bc c.g.N c.g.Ns (c.g.fs k) k evs ++
          (if ev.2.1 = k ∧ ev.2.2 = .up then [frameEnd c.g.bc c.g.N c.g.Ns ev.1 (c.g.fs k)] else []) := by
      unfold frameEnds
      rw [List.filterMap_append]
      congr 1
      by_cases hk : ev.2.1 = k ∧ ev.2.2 = .up <;> simp [hk]
    obtain ⟨u1, u2⟩ := ih (fun pre t post s hs hr => hobs pre t (post ++ [ev]) s (by rw [hs]; simp) hr)
      (fun e hm => hE e (by rw [hfe]; simp [hm])) h1
    by_cases hk : ev.2.1 = k ∧ ev.2.2 = .up
    · obtain ⟨t, q, ty⟩ := ev
      obtain ⟨rfl, rfl⟩ := hk
      have ho := hobs evs t [] s2 (by simp) h'
      obtain ⟨e1, e2⟩ := hE (frameEnd c.g.bc c.g.N c.g.Ns t (c.g.fs q)) (by rw [hfe]; simp)
      obtain ⟨p, loc, yS, dC, dS, hp, hloc, _, hb, hdC, _, _, _, hdC', _⟩ := centrUpdate_parts h2
      have hyC : s2.yCentr q = buildCentr c.n (fun q => (y q).length) q (loc.map (·.1)) p.1 := by
        obtain ⟨p', loc', yS', hp', hloc', _, _, _, _, _, _, hyC, _⟩ := centrUpdate_inv hc1 h2
        rw [whenOn, if_pos hc1, hp'] at hp
        rw [hloc'] at hloc
        injection hp with hp
        injection hloc with hloc
        subst hp hloc
        rw [hyC, Function.update_self]
      rw [whenOn, if_pos hc1, if_pos hc1, ← hyC, updRange_eq] at hdC
      have key := desired_selects (g := { c.g with rot := c.rotC }) r he hc hcr hh hhl hfl hconv hxr
        (Y := s2.yCentr q) (k := q) (i := s1.base.net.it q) (w := c.wC q (s1.base.net.it q + 1)) ho.2
        (by rw [hw, ho.1]) (hrot _) e1 (d := s1.dC q) (d' := dC) (by rw [u1]; exact e2) (by rw [u1]; exact hT) hdC
      rw [hdC', Function.update_self]
      refine ⟨key.1.trans u1, fun n hn => ?_⟩
      rw [key.2 n (by rw [u1]; exact hn), u2 n hn, hfe, if_pos ⟨rfl, rfl⟩, List.map_append, List.sum_append]
      simp only [List.map_cons, List.map_nil, List.sum_cons, List.sum_nil, add_zero]
      ring
    · rw [update_other_dC h2 hk, hfe, if_neg hk, List.append_nil]
      exact ⟨u1, u2⟩

end
end Danse
