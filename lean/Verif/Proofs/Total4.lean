import Verif.Proofs.Total3
import Verif.Props.Buffers

/-! # Helper lemmas: an online run with few-sample broadcasts goes through (4) -/

namespace Danse
section
variable {K : Type} [Field K] [StarRing K] [DecidableEq K] {g : GivenCfg K} {y : Nat → List (List K)}

theorem evSince_none (q : Nat) (evs : List (ℚ × Nat × EvType)) (h : evUps evs q = 0) : evSince q evs = evs := by
  induction evs using List.reverseRecOn with
  | nil => rfl
  | append_singleton evs ev ih =>
    have hs : evSince q (evs ++ [ev]) = if ev.2.1 = q ∧ ev.2.2 = .up then [] else evSince q evs ++ [ev] := by
      unfold evSince; rw [List.foldl_append]; rfl
    unfold evUps at h
    rw [List.countP_append, List.countP_singleton] at h
    by_cases hc : ev.2.1 = q ∧ ev.2.2 = .up
    · rw [if_pos (by simpa using hc)] at h; omega
    · rw [hs, if_neg hc, ih (by unfold evUps; omega)]

/-- When every update finds exactly the expected number of samples in every buffer, all flags are 0. -/
theorem flags_zero (gd : GoodNeighbours g.nb) {L q : Nat} {evs : List (ℚ × Nat × EvType)}
    {ops : List (BufOp K)} (h : List.Forall₂ (evOpL L) evs ops) {net : NetSt K}
    (hn : netRun g.nb g.N g.Ns ops = .ok net)
    (hb : ∀ pre t post, evs = pre ++ (t, q, .up) :: post → ∀ k ∈ g.nb q,
      evBcs (evSince q pre) k * L = if evUps pre q = 0 then g.N else g.Ns) :
    net.flags q = List.replicate (evUps evs q) (List.replicate (g.nb q).length 0) := by
  induction evs using List.reverseRecOn generalizing ops net with
  | nil =>
    cases h
    injection hn with hn
    subst hn
    rfl
  | append_singleton evs ev ih =>
    rcases List.eq_nil_or_concat ops with rfl | ⟨ops', op, rfl⟩
    · have := h.length_eq; simp at this
    · rw [List.concat_eq_append] at h hn
      have hl : evs.length = ops'.length := by have := h.length_eq; simpa using this
      have h1 : List.Forall₂ (evOpL L) evs ops' := by
        have := List.forall₂_take evs.length h
        rw [hl] at this
        simpa [← hl] using this
      have h2 : evOpL L ev op := by
        have := List.forall₂_drop evs.length h
        rw [hl] at this
        rw [List.drop_left, ← hl, List.drop_left] at this
        cases this with
        | cons a _ => exact a
      have hn' := hn
      rw [netRun_snoc] at hn
      obtain ⟨net1, e1, e2⟩ := bind_ok_inv hn
      have ihh := ih h1 e1 fun pre t post hs => hb pre t (post ++ [ev]) (by rw [hs]; simp)
      have hups : evUps (evs ++ [ev]) q = evUps evs q + if ev.2.1 = q ∧ ev.2.2 = .up then 1 else 0 := by
        unfold evUps; rw [List.countP_append, List.countP_singleton]; congr 1
        by_cases hc : ev.2.1 = q ∧ ev.2.2 = .up
        · rw [if_pos hc, if_pos (by simpa using hc)]
        · rw [if_neg hc, if_neg (by simpa using hc)]
      cases op with
      | bc k c =>
        obtain ⟨b, _, rfl⟩ := netStep_bc_inv e2
        rw [hups, if_neg (by rw [h2.2.1]; simp)]
        exact ihh
      | up k =>
        obtain ⟨t, k', ty⟩ := ev
        obtain ⟨h3, h4⟩ := h2
        simp only at h3 h4
        subst h3 h4
        by_cases hk : k' = q
        · subst hk
          have := C17_each_flag gd e1 hn'
          rw [if_pos (And.intro rfl rfl)] at hups
          rw [this, ihh, hups, List.replicate_succ']
          congr 2
          rw [List.eq_replicate_iff]
          refine ⟨by simp, fun b hbm => ?_⟩
          obtain ⟨j, hj, rfl⟩ := List.mem_map.mp hbm
          have hh := hb evs t [] rfl j hj
          rw [sent_length j (since_rel k' h1), hh, numUps_evUps k' h1]
          simp
        · rw [hups, if_neg (fun h => hk h.1), Nat.add_zero, ← ihh]
          unfold netStep at e2
          obtain ⟨x, _, e2⟩ := bind_ok_inv e2
          injection e2 with e2
          rw [← e2]
          simp only
          rw [Function.update_of_ne (Ne.symm hk)]

/-- The run ends normally, and what is known of its last state. -/
theorem sync_alive (U : Strategy K) {n L : Nat} (hn : 0 < n) {fs : ℚ} (hfs : 0 < fs)
    (hf : inferFs (clockStamps fs n) = .ok fs) (nbs : List (List Nat)) {seq sim : Bool}
    {ri : Nat} (first minF : Int) (hri : sim = true → ri < nbs.length)
    (hg : ∀ k, g.fs k = fs) (hb : g.bc = .few L false) (hL0 : 0 < L) (hLNs : L ≤ g.Ns)
    (hN : 0 < g.N) (he : 2 ∣ g.N) (hbuf : g.Ns + L ≤ g.N + 1 ∨ L ∣ g.Ns ∧ g.Ns ≤ g.N)
    (hfl : g.f.length = g.N) (gd : GoodNeighbours g.nb)
    (hnb : ∀ q < nbs.length, ∀ k ∈ g.nb q, k < nbs.length)
    (hy : ∀ k < nbs.length, ∀ ch ∈ y k, ch.length = n)
    (hU : ∀ k h, (∀ b ∈ (U.rows k h).int, b.length = g.N / 2 + 1) ∧
      (∀ b ∈ (U.rows k h).ext, b.length = g.N / 2 + 1) ∧ ∀ b ∈ (U.rows k h).loc, b.length = g.N / 2 + 1)
    (hw : ∀ k i, (∀ b ∈ g.wInt k i, b.length = g.N / 2 + 1) ∧
      (∀ b ∈ g.wExt k i, b.length = g.N / 2 + 1) ∧ ∀ b ∈ g.wLoc k i, b.length = g.N / 2 + 1)
    (M : Nat → Nat) :
    ∃ out a, initEventsFC g.bc g.N g.Ns seq sim ri first minF (syncNodes fs n nbs) =
        .ok (out, List.replicate nbs.length fs) ∧
      adaptRun U y (.init g n M) (flatEvents out) = .ok a ∧ Alive g L n (flatEvents out) a := by
  have hNs : 0 < g.Ns := by omega
  obtain ⟨out, hout, hall, hty⟩ := C78_schedule (seq := seq) (sim := sim) (r := ri) (N := g.N) (bc := g.bc)
    hNs hn hfs hf (by rw [hb]; intro h; cases h)
    (by rw [hb]; intro L' e' h; injection h with h1 h2; exact ⟨h1 ▸ hL0, h2.symm⟩) nbs first minF hri
  obtain ⟨arg, ha, hti⟩ := initEventsFC_built hout
  have hord := schedule_order ha hti
  have hNsN : g.Ns ≤ g.N := by omega
  obtain ⟨a, h1, h2⟩ := adaptRun_total (y := y) (U := U) (L := L) (T := n) hb hN he (by omega) hNsN hfl gd hU
    (fun k i => (hw k i).1) (fun k i => (hw k i).2.1) (fun k i => (hw k i).2.2) M (flatEvents out) (by
      intro pre ev post hsp
      have hmem : ev ∈ flatEvents out := by rw [hsp]; simp
      obtain ⟨t, q, ty⟩ := ev
      obtain ⟨hq, hty'⟩ := hty _ hmem
      simp only at hq hty'
      rcases hty' with rfl | rfl
      · obtain ⟨i1, i2⟩ := sync_index (hall q hq).1 hsp
        have hR : g.N ≤ ⌈(g.N : ℚ) / g.Ns⌉₊ * g.Ns := by
          have h1 : (g.N : ℚ) / g.Ns ≤ (⌈(g.N : ℚ) / g.Ns⌉₊ : ℚ) := Nat.le_ceil _
          rw [div_le_iff₀ (by exact_mod_cast hNs)] at h1
          exact_mod_cast h1
        generalize ⌈(g.N : ℚ) / g.Ns⌉₊ = R at hR i1 i2
        generalize hI : R + evUps pre q = I at i1 i2
        have hlow : g.N ≤ I * g.Ns := hR.trans (Nat.mul_le_mul_right _ (by omega))
        have hup : I * g.Ns ≤ n - 1 := (Nat.le_div_iff_mul_le hNs).mp i1.le
        have hfl' : ⌊t * g.fs q⌋ = ((I * g.Ns : Nat) : Int) := by rw [i2, hg, floor_everySep hfs]
        have hIn : ((I * g.Ns : Nat) : Int) ≤ n := by exact_mod_cast (by omega : I * g.Ns ≤ n)
        have hI0 : (0 : Int) < ((I * g.Ns : Nat) : Int) := by exact_mod_cast (by omega : 0 < I * g.Ns)
        have hI1 : (g.Ns : Int) ≤ ((I * g.Ns : Nat) : Int) := by exact_mod_cast (by omega : g.Ns ≤ I * g.Ns)
        refine ⟨.inr rfl, ?_, ?_, fun _ => ⟨?_, ?_, fun _ => ?_⟩, fun _ hu k hk => ?_⟩
        · simp only; rw [hfl']; exact hI0.le
        · intro ch hch; simp only at hch ⊢; rw [hfl', hy q hq ch hch]; exact hIn
        · simp only; rw [hfl']; exact hI0
        · simp only; rw [hfl']; exact hIn
        · simp only; rw [hfl']; exact hI1
        · simp only at hu hk ⊢
          have hkn := hnb q hq k hk
          have hbk := (hall k hkn).2
          rw [hb] at hbk
          obtain ⟨s1, s2⟩ := sync_between hL0 hLNs hfs hord hsp (hall q hq).1 hbk hu
          rcases hbuf with h | h
          · omega
          · rw [s2 h.1]; exact h.2
      · have hm : t ∈ bcTimes (flatEvents out) q := by
          unfold bcTimes
          rw [List.mem_filterMap]
          exact ⟨(t, q, .bc), hmem, by simp⟩
        rw [(hall q hq).2, hb] at hm
        unfold syncBc everySep at hm
        obtain ⟨j, hj, rfl⟩ := List.mem_map.mp hm
        have hj' := List.mem_range.mp hj
        have hup : (1 + j) * L ≤ n - 1 := (Nat.le_div_iff_mul_le hL0).mp (by omega)
        have hfl' : ⌊(((1 + j : Nat) : ℚ) * L / fs) * g.fs q⌋ = (((1 + j) * L : Nat) : Int) := by
          rw [hg, floor_everySep hfs]
        have hIn : (((1 + j) * L : Nat) : Int) ≤ n := by exact_mod_cast (by omega : (1 + j) * L ≤ n)
        refine ⟨.inl rfl, ?_, ?_, fun h => (by cases h), fun h => (by cases h)⟩
        · simp only; rw [hfl']; positivity
        · intro ch hch; simp only at hch ⊢; rw [hfl', hy q hq ch hch]; exact hIn)
  exact ⟨out, a, hout, h1, h2⟩

end
end Danse
