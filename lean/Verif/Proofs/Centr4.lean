import Verif.Proofs.Centr3

/-!
# Helper lemmas: what an update takes from the centralised buffers
-/

set_option linter.unusedSectionVars false

namespace Danse
section
variable {K : Type} [Field K] [StarRing K] [DecidableEq K] {c : CentrCfg K} {y : Nat → List (List K)}

theorem frameCentr_eq {N Ns : Nat} {M : List Nat} {first : Bool} {yc : List (List K)} {k q n : Nat}
    (f : Nat → List K) :
    frameCentr N Ns M first yc k q ((List.range n).map f) =
      ((List.range n).map fun m => (frameOf N Ns first (yc.getD ((centrCols M k q).1 + m) []) (f m)).1,
        (frameOf N Ns first [] (if 0 < n then f 0 else [])).2) := by
  unfold frameCentr
  congr 1
  · apply List.ext_getElem
    · simp
    · intro i h1 h2
      simp
  · cases n with
    | zero => simp
    | succ n => simp [List.range_succ_eq_map]

theorem sinceUp_zero {k : Nat} {ops : List (BufOp K)} (h : numUps k ops = 0) :
    sinceUp k ops = ops ∧ untilUp k ops = [] := by
  have h1 : sinceUp k ops = ops := by
    induction ops using List.reverseRecOn with
    | nil => rfl
    | append_singleton ops op ih =>
      unfold numUps at h ih
      rw [List.countP_append] at h
      have h2 : (BufOp.isUp k op) = false := by
        by_contra hc
        simp at hc
        simp [hc] at h
      rw [sinceUp_snoc, h2, ih (by omega)]
      simp
  refine ⟨h1, ?_⟩
  unfold untilUp
  rw [h1]
  simp

theorem processCentr_eq {evs : List (ℚ × Nat × EvType)} {s : CentrSt K} {k : Nat} (hi : CInv c y evs s)
    (hk : k < c.n) {p : List (List K) × List Int}
    (h : processCentr c.n c.g.N c.g.Ns (fun q => (y q).length) s k = .ok p) :
    p.1 = ((centrSlots c.n k).flatMap fun q =>
      (List.range (y q).length).map fun m => frameSpec c.g.N (sent (rawOps c.g y evs m) q)) ∧
    p.2 = (List.range c.n).map fun q => if q = k then 0 else
      (((if 0 < (y q).length then sent (sinceUp k (rawOps c.g y evs 0)) q else []).length : Nat) : Int) -
        (if s.base.net.it k = 0 then c.g.N else c.g.Ns : Nat) := by
  unfold processCentr at h
  simp only at h
  split at h
  · next hall =>
    injection h with h
    subst h
    have hfr : ∀ q ∈ centrSlots c.n k, frameCentr c.g.N c.g.Ns ((List.range c.n).map fun q => (y q).length)
        (decide (s.base.net.it k = 0)) (s.yc k) k q (s.buf k (centrReadSlot k q)) =
        ((List.range (y q).length).map fun m => frameSpec c.g.N (sent (rawOps c.g y evs m) q),
          (((if 0 < (y q).length then sent (sinceUp k (rawOps c.g y evs 0)) q else []).length : Nat) : Int) -
            (if s.base.net.it k = 0 then c.g.N else c.g.Ns : Nat)) := by
      intro q hq
      obtain ⟨hqn, hqk⟩ := mem_centrSlots.mp hq
      have hlen := List.all_eq_true.mp hall _ (List.mem_map.mpr ⟨q, hq, rfl⟩)
      rw [hi.buf k hk q hqn hqk, frameCentr_eq] at hlen ⊢
      simp only [List.all_map, List.all_eq_true, List.mem_range, Function.comp_apply, decide_eq_true_eq] at hlen
      congr 1
      · apply List.map_congr_left
        intro m hm
        have hm' := List.mem_range.mp hm
        by_cases h0 : s.base.net.it k = 0
        · have hz := sinceUp_zero (by rw [← hi.it m k]; exact h0 : numUps k (rawOps c.g y evs m) = 0)
          rw [decide_eq_true h0, frameOf_first, hz.1]
          rfl
        · have hl := hlen m hm'
          rw [decide_eq_false h0] at hl ⊢
          have hle : (sent (sinceUp k (rawOps c.g y evs m)) q).length ≤ c.g.N := by
            by_contra hc
            rw [frameOf_next_long (by omega)] at hl
            omega
          have hycol : (s.yc k).getD ((centrCols ((List.range c.n).map fun q => (y q).length) k q).1 + m) [] =
              frameSpec c.g.N (sent (untilUp k (rawOps c.g y evs m)) q) := by
            rw [hi.yc k hk (by omega), centrCols_start hqn hqk,
              flatMap_block_getD (M := fun q => (y q).length) (by intro q; simp) hqn hqk hm']
            simp [hm']
          rw [hycol, frameSpec, frameOf_next hle, ← sent_split]
          rfl
      · by_cases h0 : s.base.net.it k = 0
        · rw [decide_eq_true h0, frameOf_first, if_pos h0]
        · rw [decide_eq_false h0, frameOf_next_flag, if_neg h0]
    constructor
    · simp only
      rw [List.flatMap_map]
      apply List.flatMap_congr
      intro q hq
      rw [hfr q hq]
    · simp only
      apply List.map_congr_left
      intro q hq
      by_cases hqk : q = k
      · rw [if_pos hqk, if_pos hqk]
      · rw [if_neg hqk, if_neg hqk, hfr q (mem_centrSlots.mpr ⟨List.mem_range.mp hq, hqk⟩)]
  · cases h

/-- The parts of a successful update. -/
theorem centrUpdate_inv {s s' : CentrSt K} {t : ℚ} {k : Nat} (hc : c.centr = true)
    (h : c.update y s t k = .ok s') :
    ∃ p loc yS, processCentr c.n c.g.N c.g.Ns (fun q => (y q).length) s k = .ok p ∧
      (y k).mapM (fun ch => chunkForUpdate ch t (c.g.fs k) c.g.bc.name c.g.N c.g.Ns) = .ok loc ∧
      (∀ z ∈ loc, z.1.length = c.g.N) ∧
      whenOn c.ssbc (buildSsbc c.n (fun q => (y q).length) k (loc.map (·.1)) p.1) [] = .ok yS ∧
      c.g.update y s.base t k = .ok s'.base ∧
      s'.buf = Function.update s.buf k (emptyCentr c.n (fun q => (y q).length) k) ∧
      s'.yc = Function.update s.yc k p.1 ∧
      s'.flags = Function.update s.flags k (s.flags k ++ [p.2]) ∧
      s'.yCentr = Function.update s.yCentr k (buildCentr c.n (fun q => (y q).length) k (loc.map (·.1)) p.1) ∧
      s'.ySSBC = Function.update s.ySSBC k yS := by
  unfold CentrCfg.update at h
  obtain ⟨_, _, h⟩ := bind_ok_inv h
  obtain ⟨p, hp, h⟩ := bind_ok_inv h
  obtain ⟨loc, hloc, h⟩ := bind_ok_inv h
  rw [whenOn, if_pos hc] at hp
  split at h
  · cases h
  · next hl =>
    obtain ⟨yS, hyS, h⟩ := bind_ok_inv h
    split at h
    · cases h
    · obtain ⟨b, hb, h⟩ := bind_ok_inv h
      obtain ⟨dC, _, h⟩ := bind_ok_inv h
      obtain ⟨dS, _, h⟩ := bind_ok_inv h
      injection h with h
      subst h
      refine ⟨p, loc, yS, hp, hloc, ?_, hyS, hb, ?_, rfl, ?_, ?_, rfl⟩
      · intro z hz
        by_contra hne
        apply hl
        rw [List.any_eq_true]
        exact ⟨z, hz, by simpa using hne⟩
      · simp only [hc, if_true]
      · simp only [hc, if_true]
      · simp only [hc, if_true]

theorem CInv.up {evs : List (ℚ × Nat × EvType)} {s s' : CentrSt K} {t : ℚ} {k : Nat} (hc : c.centr = true)
    (hi : CInv c y evs s) (hk : k < c.n) (h : c.update y s t k = .ok s') :
    CInv c y (evs ++ [(t, k, .up)]) s' := by
  obtain ⟨p, loc, yS, hp, _, _, _, hb, hbuf, hyc, _⟩ := centrUpdate_inv hc h
  obtain ⟨u1, u2⟩ := update_base hb
  have hp1 := (processCentr_eq hi hk hp).1
  have hops : ∀ m, rawOps c.g y (evs ++ [(t, k, EvType.up)]) m = rawOps c.g y evs m ++ [.up k] := by
    intro m
    rw [rawOps_snoc]
  have hsent : ∀ m q, sent (rawOps c.g y evs m ++ [.up k]) q = sent (rawOps c.g y evs m) q := by
    intro m q
    rw [sent_append, sent_up, List.append_nil]
  refine ⟨fun m k' => ?_, fun L hL k' => ?_, fun k' hk' q hq hne => ?_, fun k' hk' h0 => ?_⟩
  · rw [hops, u1]
    unfold numUps
    rw [List.countP_append]
    by_cases h : k' = k
    · subst h
      rw [Function.update_self, hi.it m k']
      simp [numUps, BufOp.isUp]
    · rw [Function.update_of_ne h, hi.it m k']
      simp [numUps, BufOp.isUp, Ne.symm h]
  · rw [u2, hi.last L hL k', lastBcTime_snoc]
    simp
  · rw [hbuf]
    by_cases h : k' = k
    · subst h
      rw [Function.update_self]
      unfold emptyCentr
      rw [centrSlots_at hq hne]
      have e : (fun m => sent (sinceUp k' (rawOps c.g y (evs ++ [(t, k', EvType.up)]) m)) q) =
          fun _ => ([] : List K) := by
        funext m
        rw [hops, sinceUp_snoc, if_pos (by simp [BufOp.isUp])]
        rfl
      rw [e, List.map_const', List.length_range]
    · rw [Function.update_of_ne h, hi.buf k' hk' q hq hne]
      apply List.map_congr_left
      intro m _
      rw [hops, sinceUp_snoc, if_neg (by simp [BufOp.isUp, Ne.symm h]), sent_append, sent_up,
        List.append_nil]
  · rw [hyc]
    by_cases h : k' = k
    · subst h
      rw [Function.update_self, hp1]
      apply List.flatMap_congr
      intro q _
      apply List.map_congr_left
      intro m _
      rw [hops, untilUp_snoc_up _ _ (by simp [BufOp.isUp]), hsent]
    · rw [Function.update_of_ne h]
      rw [u1, Function.update_of_ne h] at h0
      rw [hi.yc k' hk' h0]
      apply List.flatMap_congr
      intro q _
      apply List.map_congr_left
      intro m _
      rw [hops, untilUp_snoc_other _ _ (by simp [BufOp.isUp, Ne.symm h])]

theorem CInv.run (hc : c.centr = true) (hN : 0 < c.g.N) (hlen : ∀ q < c.n, ∀ x ∈ y q, c.g.N ≤ x.length)
    (T : Nat) (evs : List (ℚ × Nat × EvType)) (hev : ∀ ev ∈ evs, ev.2.1 < c.n ∧ 0 ≤ ⌊ev.1 * c.g.fs ev.2.1⌋)
    {s : CentrSt K}
    (h : c.run y (.init c.n c.g.N c.g.refSensor T fun q => (y q).length) evs = .ok s) :
    CInv c y evs s := by
  induction evs using List.reverseRecOn generalizing s with
  | nil =>
    injection h with h
    subst h
    exact CInv.init T
  | append_singleton evs ev ih =>
    unfold CentrCfg.run at h
    rw [List.foldlM_append] at h
    obtain ⟨s1, h1, h⟩ := bind_ok_inv h
    have hi := ih (fun e he => hev e (by simp [he])) h1
    obtain ⟨e1, e2⟩ := hev ev (by simp)
    rw [List.foldlM_cons] at h
    obtain ⟨s2, h2, h⟩ := bind_ok_inv h
    injection h with h
    subst h
    obtain ⟨t, k, ty⟩ := ev
    unfold CentrCfg.step at h2
    cases ty with
    | bc => exact hi.bc hc hN (hlen k e1) e2 h2
    | up => exact hi.up hc e1 h2
    | _ => cases h2

/-- The last frame of a stream. -/
theorem frameSpec_lastFrame (N : Nat) (st : List K) : frameSpec N st = lastFrame N st := by
  apply at0_ext
  · rw [frameSpec, lastN_pad_length, lastFrame, frameBefore_length]
  · intro j hj
    rw [frameSpec, lastN_pad_length] at hj
    unfold lastFrame
    rw [at0_frameBefore hj]
    unfold frameSpec lastN
    rw [at0_drop, at0_append]
    simp only [List.length_append, List.length_replicate]
    by_cases h : N ≤ st.length + j
    · rw [if_neg (by omega), if_pos h]
      congr 1
      omega
    · rw [if_pos (by omega), if_neg h, at0_replicate (by omega)]

end
end Danse
