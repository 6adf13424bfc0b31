import Verif.Proofs.Async

/-!
# Lemmas for C95: buffers that overflow
-/

namespace Danse
section
variable {K : Type} [Field K] [StarRing K] [DecidableEq K] {g : GivenCfg K} {y : Nat → List (List K)}

theorem netStep_up_err (gd : GoodNeighbours g.nb) {L : Nat} {evs : List (ℚ × Nat × EvType)}
    {ops : List (BufOp K)} (h : List.Forall₂ (evOpL L) evs ops) {net : NetSt K}
    (hn : netRun g.nb g.N g.Ns ops = .ok net) {q : Nat}
    (hb : ¬ (0 < evUps evs q → ∀ k ∈ g.nb q, evBcs (evSince q evs) k * L ≤ g.N)) :
    netStep g.nb g.N g.Ns net (.up q) = .error .valueError := by
  have he := (C16_runs_iff gd g.N g.Ns (ops ++ [.up q])).2 (by
    rintro ⟨s, hs⟩
    apply hb
    intro h0 k hk
    have := (C16_runs_iff gd g.N g.Ns (ops ++ [.up q])).1.mp ⟨s, hs⟩ ops q [] rfl
      (by rw [numUps_evUps q h]; exact h0) k hk
    rwa [sent_length k (since_rel q h)] at this)
  rw [netRun_snoc, hn] at he
  exact he

/-- A run whose events are otherwise possible fails with `ValueError` exactly when the buffers overflow. -/
theorem adaptRun_buf {U : Strategy K} {L T : Nat} (hb : g.bc = .few L false) (hN : 0 < g.N)
    (he : 2 ∣ g.N) (hL : L ≤ 2 * g.N - 1) (hNs : g.Ns ≤ g.N) (hfl : g.f.length = g.N)
    (gd : GoodNeighbours g.nb)
    (hU : ∀ k h, BinsOk g.N (U.rows k h).int ∧ BinsOk g.N (U.rows k h).ext ∧ BinsOk g.N (U.rows k h).loc)
    (hint : ∀ k i, BinsOk g.N (g.wInt k i)) (hext : ∀ k i, BinsOk g.N (g.wExt k i))
    (hloc : ∀ k i, BinsOk g.N (g.wLoc k i)) (M : Nat → Nat) (evs : List (ℚ × Nat × EvType))
    (hev : ∀ pre ev post, evs = pre ++ ev :: post → BufOk g L pre ev → EvOk g y L T pre ev)
    (hty : ∀ ev ∈ evs, ev.2.2 = .bc ∨ ev.2.2 = .up)
    {pre post : List (ℚ × Nat × EvType)} {ev : ℚ × Nat × EvType} (hs : evs = pre ++ ev :: post)
    (hbad : ¬ BufOk g L pre ev) :
    adaptRun U y (.init g T M) evs = .error .valueError := by
  suffices H : (∃ a, adaptRun U y (.init g T M) evs = .ok a ∧ Alive g L T evs a ∧
      ∀ pre ev post, evs = pre ++ ev :: post → BufOk g L pre ev) ∨
      adaptRun U y (.init g T M) evs = .error .valueError by
    rcases H with ⟨_, _, _, h⟩ | h
    · exact absurd (h pre ev post hs) hbad
    · exact h
  clear hs hbad pre post ev
  induction evs using List.reverseRecOn with
  | nil =>
    obtain ⟨a, h1, h2⟩ := adaptRun_total (y := y) (U := U) (L := L) (T := T) hb hN he hL hNs hfl gd hU hint hext
      hloc M [] (by intro pre ev post h; simp at h)
    exact .inl ⟨a, h1, h2, by intro pre ev post h; simp at h⟩
  | append_singleton evs ev ih =>
    have hsnoc : ∀ r, adaptRun U y (.init g T M) evs = r →
        adaptRun U y (.init g T M) (evs ++ [ev]) = r >>= fun a => adaptStep U y a ev := by
      rintro r rfl
      unfold adaptRun
      rw [List.foldlM_append]
      congr 1
      funext a
      rw [List.foldlM_cons]
      cases adaptStep U y a ev <;> rfl
    rcases ih (fun pre e post hs hbo => hev pre e (post ++ [ev]) (by rw [hs]; simp) hbo)
        (fun e h => hty e (by simp [h])) with ⟨a, h1, h2, h3⟩ | h1
    · by_cases hbo : BufOk g L evs ev
      · obtain ⟨a', h4, h5⟩ := adaptStep_total (U := U) hb hN he hL hNs hfl gd hU h2 (hev evs ev [] (by simp) hbo)
        refine .inl ⟨a', by rw [hsnoc _ h1]; exact h4, h5, ?_⟩
        intro pre e post hs
        rcases List.eq_nil_or_concat post with rfl | ⟨p, z, rfl⟩
        · obtain ⟨rfl, h⟩ := List.append_inj' hs (by simp)
          injection h with h _
          exact h ▸ hbo
        · have : pre ++ e :: p.concat z = (pre ++ e :: p) ++ [z] := by simp
          rw [this] at hs
          exact h3 pre e p (List.append_inj_left' hs (by simp))
      · right
        rw [hsnoc _ h1]
        obtain ⟨t, q, ty⟩ := ev
        rcases hty (t, q, ty) (by simp) with h | h
        · exact absurd (fun h' => by rw [h] at h'; cases h') hbo
        · simp only at h
          subst h
          obtain ⟨ops, ho, hnet⟩ := h2.net
          obtain ⟨p1, p2, p3, p4, _⟩ := h2.fixed.parts
          have hnb : a.cfg.nb = g.nb := by rw [h2.fixed]
          have := netStep_up_err gd ho hnet (q := q) (fun h => hbo fun _ => h)
          show adaptStep U y a (t, q, .up) = _
          unfold adaptStep GivenCfg.observe
          simp only
          rw [hnb, p2, p3, this]
          rfl
    · exact .inr (by rw [hsnoc _ h1]; rfl)


/-- The update number `i` of a node. -/
theorem up_split {q : Nat} : ∀ {evs : List (ℚ × Nat × EvType)} {i : Nat}, i < (upTimes evs q).length →
    ∃ pre t post, evs = pre ++ (t, q, .up) :: post ∧ evUps pre q = i := by
  intro evs
  induction evs with
  | nil => intro i h; simp [upTimes] at h
  | cons ev evs ih =>
    intro i h
    obtain ⟨t, k, ty⟩ := ev
    by_cases hq : k = q ∧ ty = .up
    · obtain ⟨rfl, rfl⟩ := hq
      cases i with
      | zero => exact ⟨[], t, evs, rfl, rfl⟩
      | succ i =>
        obtain ⟨pre, t', post, e, hu⟩ := ih (i := i) (by
          unfold upTimes at h ⊢
          simp at h
          omega)
        refine ⟨(t, k, .up) :: pre, t', post, by rw [e]; rfl, ?_⟩
        unfold evUps at hu ⊢
        rw [List.countP_cons_of_pos (by simp), hu]
    · obtain ⟨pre, t', post, e, hu⟩ := ih (i := i) (by
        unfold upTimes at h ⊢
        rw [List.filterMap_cons_none (by simpa using hq)] at h
        exact h)
      refine ⟨(t, k, ty) :: pre, t', post, by rw [e]; rfl, ?_⟩
      unfold evUps at hu ⊢
      rw [List.countP_cons_of_neg (by simpa using hq), hu]

/-- The number of packets that a neighbour sends between two updates in a row of a node. -/
theorem async_between_eq {evs pre post : List (ℚ × Nat × EvType)} {t fs fsq : ℚ} {q k Ns L a E Eq : Nat}
    (hL0 : 0 < L) (hfs : 0 < fs) (hfsq : 0 < fsq) (ho : evs.Pairwise EvBefore)
    (hev : evs = pre ++ (t, q, .up) :: post) (hu : upTimes evs q = everySep Ns fsq a Eq)
    (hb : bcTimes evs k = everySep L fs 1 E) {i : Nat} (h0 : evUps pre q = i + 1) :
    evBcs (evSince q pre) k = min (E - 1) ⌊((a + (i + 1) : Nat) : ℚ) * Ns / fsq * fs / L⌋₊ -
      min (E - 1) ⌊((a + i : Nat) : ℚ) * Ns / fsq * fs / L⌋₊ := by
  obtain ⟨p1, t1, e1, e2⟩ := evSince_split q pre (by omega)
  obtain ⟨i1, i2⟩ := sync_index hu hev
  have hev1 : evs = p1 ++ (t1, q, .up) :: (evSince q pre ++ (t, q, .up) :: post) := by
    rw [hev]; conv_lhs => rw [e1]
    simp
  obtain ⟨j1, j2⟩ := sync_index hu hev1
  have ht : 0 ≤ t := by rw [i2]; positivity
  have ht1 : 0 ≤ t1 := by rw [j2]; positivity
  have c1 := async_bcs (k := k) hL0 hfs ht ho hev hb
  have c2 := async_bcs (k := k) hL0 hfs ht1 ho hev1 hb
  have hups : evUps pre q = evUps p1 q + 1 := by
    have : evUps pre q = evUps p1 q + (1 + evUps (evSince q pre) q) := by
      conv_lhs => rw [e1]
      unfold evUps
      rw [List.countP_append, List.countP_cons_of_pos (by simp)]
      omega
    omega
  have hbc : evBcs pre k = evBcs p1 k + evBcs (evSince q pre) k := by
    conv_lhs => rw [e1]
    unfold evBcs
    rw [List.countP_append, List.countP_cons_of_neg (by simp)]
  have h1 : evUps p1 q = i := by omega
  rw [i2, h0] at c1
  rw [j2, h1] at c2
  omega

end
end Danse
