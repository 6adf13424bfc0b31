import Verif.Proofs.Dxcp5
import Verif.Proofs.Config

/-!
# The closed loop over whole histories
-/

namespace Danse

/-- The signal made of consecutive blocks of `B` samples, zero elsewhere. -/
noncomputable def sigOf (B : Nat) (blocks : List (List ℝ)) (t : Int) : ℝ :=
  if t < 0 then 0 else ((blocks.getD (t.toNat / B) []).getD (t.toNat % B) 0)

theorem sigOf_neg (B : Nat) (blocks : List (List ℝ)) : ∀ t < 0, sigOf B blocks t = 0 := by
  intro t ht; unfold sigOf; rw [if_pos ht]

theorem seg_getElem (x : Int → ℝ) (a : Int) (n i : Nat) (h : i < (seg x a n).length) :
    (seg x a n)[i] = x (a + i) := by simp [seg]

theorem seg_sigOf {B : Nat} {blocks : List (List ℝ)} {n : Nat} {b : List ℝ}
    (h : blocks[n]? = some b) (hl : b.length = B) : seg (sigOf B blocks) ((n : Int) * B) B = b := by
  apply List.ext_getElem
  · rw [seg_length, hl]
  · intro i h1 h2
    rw [seg_getElem]
    rw [seg_length] at h1
    unfold sigOf
    have e : (n : Int) * B + i = ((B * n + i : Nat) : Int) := by push_cast; ring
    rw [e, if_neg (by omega), Int.toNat_natCast, Nat.mul_add_div (by omega), Nat.div_eq_of_lt h1,
      Nat.mul_add_mod, Nat.mod_eq_of_lt h1, Nat.add_zero]
    rw [List.getD_eq_getElem?_getD, List.getD_eq_getElem?_getD, h]
    simp [h2]

theorem seg_sigOf_neg (B : Nat) (blocks : List (List ℝ)) (a : Int) (h : a + B ≤ 0) :
    seg (sigOf B blocks) a B = List.replicate B 0 := by
  unfold seg
  apply List.eq_replicate_iff.2
  refine ⟨by simp, ?_⟩
  intro b hb
  obtain ⟨i, hi, rfl⟩ := List.mem_map.1 hb
  rw [List.mem_range] at hi
  exact sigOf_neg B blocks _ (by omega)

theorem seg_earlier {B : Nat} {blocks : List (List ℝ)} (hl : ∀ b ∈ blocks, b.length = B) {n : Nat}
    (hn : n < blocks.length) :
    seg (sigOf B blocks) (((n : Int) - 2) * B) B = earlier B 2 blocks n := by
  unfold earlier
  by_cases h : n < 2
  · rw [if_pos h]
    apply seg_sigOf_neg
    have : ((n : Int) - 2) ≤ -1 := by omega
    nlinarith [Int.natCast_nonneg B]
  · rw [if_neg h]
    have e : ((n : Int) - 2) = ((n - 2 : Nat) : Int) := by omega
    have hb : blocks[n - 2]? = some blocks[n - 2] := List.getElem?_eq_getElem (by omega)
    rw [e, seg_sigOf hb (hl _ (List.mem_of_getElem? hb)), List.getD_eq_getElem?_getD, hb]
    rfl

theorem process_returns {s s' : Resampler} {b o : List ℝ} {sro sto : ℚ}
    (h : s.process b sro sto = .ok (s', o)) : o = s'.outBuf.take s'.B := by
  unfold Resampler.process at h
  split_ifs at h
  injection h with h
  injection h with h1 h2
  subst h1
  exact h2.symm

section
variable {S E : Type} {sroOf : S → ℚ} {estStep : E → List ℝ → List ℝ → Except PyErr (E × ℚ)}
  {ctlStep : S → ℚ → S}

theorem loop_process_inv {s s' : LoopSt S E} {x0 x1 : List ℝ} {o : LoopOut}
    (h : s.process sroOf estStep ctlStep x0 x1 = .ok (s', o)) :
    ∃ zi r, s.res.process x1 (-(sroOf s.ctl)) 0 = .ok (s'.res, zi) ∧ s'.zj = s.zj.write x0 ∧
      s'.ctl = ctlStep s.ctl r ∧ o.zi = zi ∧ o.col1 = zi ∧
      o.col0 = ((s.zj.write x0).deref (s.zj.write x0).read).getD [] ∧
      estStep s.est o.col0 o.col1 = .ok (s'.est, r) := by
  unfold LoopSt.process at h
  obtain ⟨⟨res, zi⟩, h1, h⟩ := bind_ok_inv h
  simp only at h
  obtain ⟨⟨est, r⟩, h2, h⟩ := bind_ok_inv h
  injection h with h
  injection h with ha hb
  subst ha; subst hb
  exact ⟨zi, r, h1, rfl, rfl, rfl, rfl, rfl, h2⟩

theorem loop_run_cons {s s' : LoopSt S E} {x : List ℝ × List ℝ} {r : List (List ℝ × List ℝ)}
    {os : List LoopOut} (h : s.run sroOf estStep ctlStep (x :: r) = .ok (s', os)) :
    ∃ s1 o os', s.process sroOf estStep ctlStep x.1 x.2 = .ok (s1, o) ∧
      s1.run sroOf estStep ctlStep r = .ok (s', os') ∧ os = o :: os' := by
  unfold LoopSt.run at h
  obtain ⟨⟨s1, o⟩, h1, h⟩ := bind_ok_inv h
  simp only at h
  obtain ⟨⟨s2, os'⟩, h2, h⟩ := bind_ok_inv h
  injection h with h
  injection h with ha hb
  subst ha; subst hb
  exact ⟨s1, o, os', h1, h2, rfl⟩

theorem delay_read {B : Nat} (ws : List (List ℝ)) (hws : ws ≠ []) :
    (((ws.foldl DelayBuf.write (DelayBuf.init (List.replicate B 0) 3)).deref
      (ws.foldl DelayBuf.write (DelayBuf.init (List.replicate B 0) 3)).read).getD []) =
      earlier B 2 ws (ws.length - 1) := by
  obtain ⟨h1, h2, h3⟩ := delay_inv (List.replicate B (0:ℝ)) (L := 3) (by omega) ws
  have hp := List.length_pos_of_ne_nil hws
  unfold DelayBuf.deref DelayBuf.read earlier
  rw [h2]
  have := h3 0 (by omega)
  rw [Nat.add_zero] at this
  rw [this]
  by_cases h : ws.length - 1 < 2
  · rw [if_pos h, List.getElem?_append_left (by simp; omega), List.getElem?_replicate,
      if_pos (by omega)]
    rfl
  · rw [if_neg h, List.getElem?_append_right (by simp; omega), List.length_replicate,
      List.getD_eq_getElem?_getD]
    congr 2

theorem earlier_append {B : Nat} {pre post : List (List ℝ)} {n : Nat} (h : n < pre.length + 2) :
    earlier B 2 (pre ++ post) n = earlier B 2 pre n := by
  unfold earlier
  split
  · rfl
  · rw [List.getD_eq_getElem?_getD, List.getD_eq_getElem?_getD, List.getElem?_append_left (by omega)]

/-- The first column is delayed by two calls, whatever the estimator does. -/
theorem loop_col0 {B : Nat} : ∀ (rest : List (List ℝ × List ℝ)) (pre : List (List ℝ))
    (s s' : LoopSt S E) (os : List LoopOut),
    s.zj = pre.foldl DelayBuf.write (DelayBuf.init (List.replicate B 0) 3) →
    s.run sroOf estStep ctlStep rest = .ok (s', os) →
    os.length = rest.length ∧ ∀ (j : Nat) (o : LoopOut), os[j]? = some o →
      o.col0 = earlier B 2 (pre ++ rest.map (·.1)) (pre.length + j) := by
  intro rest
  induction rest with
  | nil =>
    intro pre s s' os _ h
    injection h with h
    injection h with h1 h2
    subst h2
    exact ⟨rfl, by simp⟩
  | cons x r ih =>
    intro pre s s' os hz h
    obtain ⟨s1, o, os', h1, h2, rfl⟩ := loop_run_cons h
    obtain ⟨zi, rr, _, e2, _, _, _, e6, _⟩ := loop_process_inv h1
    have hz1 : s1.zj = (pre ++ [x.1]).foldl DelayBuf.write (DelayBuf.init (List.replicate B 0) 3) := by
      rw [e2, hz, List.foldl_append]; rfl
    obtain ⟨l1, l2⟩ := ih (pre ++ [x.1]) s1 s' os' hz1 h2
    refine ⟨by simp [l1], ?_⟩
    intro j o' hj
    cases j with
    | zero =>
      simp only [List.getElem?_cons_zero, Option.some.injEq] at hj
      subst hj
      rw [e6, ← e2, hz1, delay_read _ (by simp)]
      have e : (pre ++ (x :: r).map (·.1)) = (pre ++ [x.1]) ++ r.map (·.1) := by simp
      rw [e, earlier_append (pre := pre ++ [x.1]) (post := r.map (·.1)) (by simp; omega)]
      congr 1
      simp
    | succ j =>
      rw [List.getElem?_cons_succ] at hj
      rw [l2 j o' hj]
      have e : (pre ++ (x :: r).map (·.1)) = (pre ++ [x.1]) ++ r.map (·.1) := by simp
      rw [e]
      congr 1
      simp; omega

/-- While the SRO estimate is zero, the second column is delayed by two calls as well. -/
theorem loop_zi {B : Nat} (hB : 0 < B) {blocks : List (List ℝ)} (hl : ∀ b ∈ blocks, b.length = B)
    (P : Nat → S → Prop)
    (hP : ∀ n c, n < blocks.length → P n c → sroOf c = 0 ∧ ∀ r, P (n + 1) (ctlStep c r)) :
    ∀ (rest : List (List ℝ × List ℝ)) (n : Nat) (s s' : LoopSt S E) (os : List LoopOut),
    blocks.drop n = rest.map (·.2) → ResInv B (sigOf B blocks) 0 n s.res → P n s.ctl →
    s.run sroOf estStep ctlStep rest = .ok (s', os) →
    ∀ (j : Nat) (o : LoopOut), os[j]? = some o → o.zi = earlier B 2 blocks (n + j) ∧ o.col1 = o.zi := by
  intro rest
  induction rest with
  | nil =>
    intro n s s' os _ _ _ h
    injection h with h
    injection h with h1 h2
    subst h2
    simp
  | cons x r ih =>
    intro n s s' os hd hi hp h
    obtain ⟨s1, o, os', h1, h2, rfl⟩ := loop_run_cons h
    obtain ⟨zi, rr, e1, _, e3, e4, e5, _, _⟩ := loop_process_inv h1
    have hx : blocks[n]? = some x.2 := by
      have := List.getElem?_drop (xs := blocks) (i := n) (j := 0)
      rw [hd] at this
      simpa using this.symm
    have hn : n < blocks.length := by
      by_contra hge
      rw [List.getElem?_eq_none (by omega)] at hx
      cases hx
    obtain ⟨hz, hnext⟩ := hP n s.ctl hn hp
    obtain ⟨t, ht, hti⟩ := resInv_step hB (by omega) (by exact_mod_cast hB) hi
    rw [seg_sigOf hx (hl _ (List.mem_of_getElem? hx))] at ht
    rw [hz, neg_zero] at e1
    have e1' : s.res.process x.2 0 ((0 : Int) : ℚ) = .ok (s1.res, zi) := by
      rw [Int.cast_zero]; exact e1
    rw [ht] at e1'
    injection e1' with e1'
    injection e1' with ea eb
    have hdr : blocks.drop (n + 1) = r.map (·.2) := by
      rw [← List.drop_drop, hd]; rfl
    have hrec := ih (n + 1) s1 s' os' hdr (by rw [← ea]; exact hti) (by rw [e3]; exact hnext rr) h2
    intro j o' hj
    cases j with
    | zero =>
      simp only [List.getElem?_cons_zero, Option.some.injEq] at hj
      subst hj
      rw [e4, e5, Nat.add_zero]
      refine ⟨?_, rfl⟩
      rw [← eb, add_zero, seg_earlier hl hn]
    | succ j =>
      rw [List.getElem?_cons_succ] at hj
      have := hrec j o' hj
      rw [show n + (j + 1) = n + 1 + j by omega]
      exact this

end
end Danse
