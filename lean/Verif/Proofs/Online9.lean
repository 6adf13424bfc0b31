import Verif.Proofs.Online8

/-!
# Helper lemmas for C77: what the nodes observe
-/

set_option linter.unusedSectionVars false

namespace Danse
section
variable {K : Type} [Field K] [StarRing K] [DecidableEq K]
variable {y : Nat → List (List K)}

/-- The observations of a run are its frames and flags at the updates. -/
structure Observed (g : GivenCfg K) (y : Nat → List (List K)) (evs : List (ℚ × Nat × EvType))
    (a : AdaptSt K) : Prop where
  fixed : a.cfg.fixed g
  times : ∀ k, (a.hist k).map (·.t) = upTimes evs k
  flags : ∀ k, (a.hist k).map (·.flags) = a.st.net.flags k
  last : ∀ k o, (a.hist k).getLast? = some o → o.z = a.st.net.z k
  loc : ∀ k, ∀ o ∈ a.hist k, ∃ fr, ((y k).mapM fun ch => localChunk ch g.N
    (frameEnd g.bc g.N g.Ns o.t (g.fs k))) = .ok fr ∧ o.loc = fr.map (·.1)

theorem upTimes_snoc (evs : List (ℚ × Nat × EvType)) (t : ℚ) (q k : Nat) (ty : EvType) :
    upTimes (evs ++ [(t, q, ty)]) k = upTimes evs k ++ if q = k ∧ ty = .up then [t] else [] := by
  unfold upTimes
  rw [List.filterMap_append]
  congr 1
  by_cases h : q = k ∧ ty = .up
  · simp [h]
  · simp [h]

theorem adaptRun_observed {U : Strategy K} {g : GivenCfg K} {s0 : GivenSt K}
    (hf0 : ∀ k, s0.net.flags k = []) (evs : List (ℚ × Nat × EvType)) : ∀ {a : AdaptSt K},
    adaptRun U y ⟨g, s0, fun _ => []⟩ evs = .ok a → Observed g y evs a := by
  induction evs using List.reverseRecOn with
  | nil =>
    intro a h
    injection h with h
    subst h
    exact ⟨rfl, fun _ => rfl, fun k => by simp [hf0], fun k o h => by simp at h, fun k o h => by simp at h⟩
  | append_singleton evs ev ih =>
    intro a h
    unfold adaptRun at h
    rw [List.foldlM_append] at h
    obtain ⟨a1, h1, h⟩ := bind_ok_inv h
    rw [List.foldlM_cons] at h
    obtain ⟨a2, h2, h⟩ := bind_ok_inv h
    injection h with h
    subst h
    have w := ih h1
    obtain ⟨t, q, ty⟩ := ev
    have hfix := adaptStep_fixed h2
    cases ty with
    | up =>
      unfold adaptStep at h2
      simp only at h2
      obtain ⟨o, ho, h2⟩ := bind_ok_inv h2
      obtain ⟨s, hs, h2⟩ := bind_ok_inv h2
      injection h2 with h2
      have hhist : a2.hist = Function.update a1.hist q (a1.hist q ++ [o]) := by rw [← h2]
      have hst : a2.st = s := by rw [← h2]
      unfold GivenCfg.step at hs
      simp only at hs
      have hfr := (update_frame hs).2.1
      -- the update uses the same buffers
      unfold GivenCfg.observe at ho
      obtain ⟨net, hnet, ho⟩ := bind_ok_inv ho
      obtain ⟨fr, hloc, ho⟩ := bind_ok_inv ho
      injection ho with ho
      have hnet2 : s.net = net := by
        unfold GivenCfg.update at hs
        obtain ⟨net', hnet', hs⟩ := bind_ok_inv hs
        have e : net' = net := by
          have : netStep a1.cfg.nb a1.cfg.N a1.cfg.Ns a1.st.net (.up q) = .ok net' := hnet'
          rw [hnet] at this
          injection this with this
          exact this.symm
        obtain ⟨fr', _, hs⟩ := bind_ok_inv hs
        split at hs
        · cases hs
        · obtain ⟨d, _, hs⟩ := bind_ok_inv hs
          obtain ⟨dl, _, hs⟩ := bind_ok_inv hs
          injection hs with hs
          rw [← hs, ← e]
      obtain ⟨p1, p2, p3, p4, _⟩ := w.fixed.parts
      have hot : o.t = t := by rw [← ho]
      have hoz : o.z = net.z q := by rw [← ho]
      have hflags : net.flags q = a1.st.net.flags q ++ [o.flags] := by
        unfold netStep at hnet
        obtain ⟨⟨z, fl⟩, hp, hnet⟩ := bind_ok_inv hnet
        injection hnet with hnet
        rw [← ho, ← hnet]
        simp
      refine ⟨hfix.trans w.fixed, fun k => ?_, fun k => ?_, fun k o' h => ?_, fun k o' h => ?_⟩
      · rw [upTimes_snoc, hhist]
        by_cases hk : q = k
        · subst hk; simp [w.times, hot]
        · rw [Function.update_of_ne (Ne.symm hk), w.times]; simp [hk]
      · rw [hhist, hst, hnet2]
        by_cases hk : q = k
        · subst hk; simp [w.flags, hflags]
        · rw [Function.update_of_ne (Ne.symm hk), w.flags, ← hnet2]
          exact (hfr k (Ne.symm hk)).2.2.1.symm
      · rw [hhist] at h
        rw [hst, hnet2]
        by_cases hk : q = k
        · subst hk
          simp at h
          rw [← h, hoz]
        · rw [Function.update_of_ne (Ne.symm hk)] at h
          rw [w.last k o' h, ← hnet2]
          exact (hfr k (Ne.symm hk)).2.1.symm
      · rw [hhist] at h
        by_cases hk : q = k
        · subst hk
          rw [Function.update_self, List.mem_append, List.mem_singleton] at h
          rcases h with h | h
          · exact w.loc q o' h
          · subst h
            refine ⟨fr, ?_, by rw [← ho]⟩
            rw [← p1, ← p2, ← p3, ← p4, hot]
            simpa only [chunkForUpdate_eq] using hloc
        · rw [Function.update_of_ne (Ne.symm hk)] at h
          exact w.loc k o' h
    | bc =>
      unfold adaptStep at h2
      simp only at h2
      obtain ⟨s, hs, h2⟩ := bind_ok_inv h2
      injection h2 with h2
      have hhist : a2.hist = a1.hist := by rw [← h2]
      have hst : a2.st = s := by rw [← h2]
      unfold GivenCfg.step at hs
      have hf := broadcast_frame (A := fun _ => False) (B := fun _ => False) (fun h => h)
        (fun _ h => h.elim) hs
      refine ⟨hfix.trans w.fixed, fun k => ?_, fun k => ?_, fun k o' h => ?_, fun k o' h => ?_⟩
      · rw [upTimes_snoc, hhist, w.times]; simp
      · rw [hhist, hst, hf.flags]; exact w.flags k
      · rw [hhist] at h; rw [hst, hf.z]; exact w.last k o' h
      · rw [hhist] at h; exact w.loc k o' h
    | _ =>
      unfold adaptStep at h2
      simp only at h2
      obtain ⟨s, hs, h2⟩ := bind_ok_inv h2
      cases hs

end
end Danse
