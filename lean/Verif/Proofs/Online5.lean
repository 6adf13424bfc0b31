import Mathlib.Algebra.BigOperators.Intervals
import Verif.Proofs.Online4

/-!
# Helper lemmas: regular frames, finished output samples, `conv` outputs
-/

set_option linter.unusedSectionVars false

namespace Danse
section
variable {K : Type} [Field K] [StarRing K] [DecidableEq K]

/-- In a regular sequence of frames the window products at a sample that is covered by the full number
of frames add up to one. -/
theorem regular_gain {R Ns J n : Nat} (hNs : 0 < Ns) (hR : 0 < R) {h f : List K}
    (hcola : ∀ ρ < Ns, ∑ m ∈ Finset.range R, h.getD (ρ + m * Ns) 0 * f.getD (ρ + m * Ns) 0 = 1)
    {e0 : Int} (h1 : e0 ≤ n + Ns) (h2 : (n : Int) + (R * Ns : Nat) < e0 + J * Ns) :
    (((List.range J).map fun (j : Nat) => e0 + j * Ns).map (windowGain (R * Ns) h f n)).sum = 1 := by
  rw [List.map_map]
  have hs : ((List.range J).map (windowGain (R * Ns) h f n ∘ fun (j : Nat) => e0 + j * Ns)).sum =
      ∑ j ∈ Finset.range J, windowGain (R * Ns) h f n (e0 + j * Ns) := rfl
  rw [hs]
  -- the first frame that ends after `n`
  obtain ⟨j1, u, hu0, hu1, hj1⟩ : ∃ (j1 : Nat) (u : Nat), 1 ≤ u ∧ u ≤ Ns ∧ e0 + j1 * Ns = n + u := by
    by_cases hlt : (n : Int) < e0
    · exact ⟨0, (e0 - n).toNat, by omega, by omega, by push_cast; omega⟩
    · have hx : 0 ≤ (n : Int) - e0 := by omega
      obtain ⟨m, hm⟩ := Int.eq_ofNat_of_zero_le hx
      have hdm := Nat.div_add_mod m Ns
      have hmod := Nat.mod_lt m hNs
      refine ⟨m / Ns + 1, Ns - m % Ns, by omega, by omega, ?_⟩
      rw [Nat.cast_sub (by omega)]
      have : ((m / Ns : Nat) : Int) * Ns + ((m % Ns : Nat) : Int) = m := by
        rw [mul_comm]; exact_mod_cast hdm
      push_cast at this ⊢
      linarith
  have hJ : j1 + R ≤ J := by
    by_contra hne
    have h3 : J + 1 ≤ j1 + R := by omega
    have h4 : ((J : Int) + 1) * Ns ≤ (j1 + R) * Ns := by
      apply mul_le_mul_of_nonneg_right _ (by omega)
      exact_mod_cast h3
    push_cast at h2
    nlinarith
  have hsub : Finset.Ico j1 (j1 + R) ⊆ Finset.range J := by
    intro j hj
    rw [Finset.mem_Ico] at hj
    rw [Finset.mem_range]; omega
  rw [← Finset.sum_subset hsub, Finset.sum_Ico_eq_sum_range, Nat.add_sub_cancel_left,
    ← hcola (Ns - u) (by omega), ← Finset.sum_range_reflect]
  · apply Finset.sum_congr rfl
    intro m hm
    rw [Finset.mem_range] at hm
    obtain ⟨i, rfl⟩ : ∃ i, R = i + 1 + m := ⟨R - 1 - m, by omega⟩
    have e1 : i + 1 + m - 1 - m = i := by omega
    rw [e1]
    have hpos : e0 + ((j1 + i : Nat) : Int) * Ns - ((i + 1 + m) * Ns : Nat) = (n : Int) - ((Ns - u + m * Ns : Nat) : Int) := by
      push_cast [Nat.cast_sub hu1]
      linear_combination hj1
    have hlt : Ns - u + m * Ns < (i + 1 + m) * Ns := by
      have : (i + 1 + m) * Ns = i * Ns + Ns + m * Ns := by ring
      have := Nat.zero_le (i * Ns)
      omega
    unfold windowGain
    rw [hpos, if_pos]
    · have e2 : ((n : Int) - ((n : Int) - ((Ns - u + m * Ns : Nat) : Int))).toNat = Ns - u + m * Ns := by omega
      rw [e2]
    · constructor
      · omega
      · omega
  · intro j _ hj
    rw [Finset.mem_Ico] at hj
    unfold windowGain
    rw [if_neg]
    rintro ⟨a, b⟩
    rcases Nat.lt_or_ge j j1 with hlt | hge
    · have h4 : ((j : Int) + 1) * Ns ≤ j1 * Ns := by
        apply mul_le_mul_of_nonneg_right _ (by omega)
        exact_mod_cast hlt
      nlinarith
    · have h3 : j1 + R ≤ j := by omega
      have h4 : ((j1 : Int) + R) * Ns ≤ j * Ns := by
        apply mul_le_mul_of_nonneg_right _ (by omega)
        exact_mod_cast h3
      push_cast at a
      nlinarith

/-! ## Finished samples -/

variable {g : GivenCfg K} {y y' : Nat → List (List K)} {s s' : GivenSt K} {t : ℚ} {k : Nat}

theorem addFrame_before {d fr d' : List K} {b e n : Nat} (hn : n ≤ b ∨ d.length ≤ b)
    (h : addFrame d b e fr = .ok d') : d'.length = d.length ∧ ∀ j < n, d'[j]? = d[j]? := by
  unfold addFrame at h
  simp only at h
  split at h
  · cases h
  · injection h with h
    subst h
    refine ⟨by simp, fun j hj => ?_⟩
    rw [List.getElem?_map, List.getElem?_zipIdx]
    cases hd : d[j]? with
    | none => rfl
    | some v =>
      have hjl := (List.getElem?_eq_some_iff.mp hd).1
      simp only [Option.map_some, zero_add]
      rw [if_neg (by omega)]

theorem setSlice_before {d ch d' : List K} {b e : Int} {n : Nat} (hn : (n : Int) ≤ b)
    (h : setSlice d b e ch = .ok d') : d'.length = d.length ∧ ∀ j < n, d'[j]? = d[j]? := by
  unfold setSlice at h
  split at h
  · injection h with h
    subst h
    refine ⟨by simp, fun j hj => ?_⟩
    rw [List.getElem?_map, List.getElem?_zipIdx]
    cases hd : d[j]? with
    | none => rfl
    | some v =>
      simp only [Option.map_some, zero_add]
      rw [if_neg (by omega)]
  · cases h

theorem desired_before {w yH yT : List (List K)} {d d' : List K} {e : Int} {n : Nat} (hNs : g.Ns ≤ g.N)
    (hn : (n : Int) ≤ max (e - g.N) 0)
    (h : g.desired w yH yT d (max (e - g.N) 0) e = .ok d') :
    d'.length = d.length ∧ ∀ j < n, d'[j]? = d[j]? := by
  unfold GivenCfg.desired at h
  split at h
  · obtain ⟨wIR, _, h⟩ := bind_ok_inv h
    obtain ⟨ch, _, h⟩ := bind_ok_inv h
    by_cases h0 : n = 0
    · subst h0
      refine ⟨?_, by simp⟩
      unfold setSlice at h
      split at h
      · injection h with h; subst h; simp
      · cases h
    · exact setSlice_before (by omega) h
  · obtain ⟨fr, _, h⟩ := bind_ok_inv h
    refine addFrame_before ?_ h
    unfold pySliceBound
    split <;> omega

theorem update_before {n : Nat} (hNs : g.Ns ≤ g.N)
    (hn : (n : Int) ≤ max (frameEnd g.bc g.N g.Ns t (g.fs k) - g.N) 0)
    (h : g.update y s t k = .ok s') :
    ((s'.d k).length = (s.d k).length ∧ ∀ j < n, (s'.d k)[j]? = (s.d k)[j]?) ∧
    ((s'.dLoc k).length = (s.dLoc k).length ∧ ∀ j < n, (s'.dLoc k)[j]? = (s.dLoc k)[j]?) := by
  unfold GivenCfg.update at h
  obtain ⟨net, hnet, h⟩ := bind_ok_inv h
  obtain ⟨loc, hl, h⟩ := bind_ok_inv h
  simp only at h
  rw [updRange_eq] at h
  split at h
  · cases h
  · obtain ⟨d, hd, h⟩ := bind_ok_inv h
    obtain ⟨dl, hdl, h⟩ := bind_ok_inv h
    injection h with h
    have h1 : s'.d k = d := by rw [← h]; simp
    have h2 : s'.dLoc k = dl := by rw [← h]; simp
    rw [h1, h2]
    exact ⟨desired_before hNs hn hd, desired_before hNs hn hdl⟩

theorem run_before {n : Nat} (hNs : g.Ns ≤ g.N) (evs : List (ℚ × Nat × EvType)) :
    ∀ (s s' : GivenSt K),
    (∀ e ∈ frameEnds g.bc g.N g.Ns (g.fs k) k evs, (n : Int) ≤ max (e - g.N) 0) →
    g.run y s evs = .ok s' →
    ((s'.d k).length = (s.d k).length ∧ ∀ j < n, (s'.d k)[j]? = (s.d k)[j]?) ∧
    ((s'.dLoc k).length = (s.dLoc k).length ∧ ∀ j < n, (s'.dLoc k)[j]? = (s.dLoc k)[j]?) := by
  induction evs with
  | nil =>
    intro s s' _ h
    injection h with h
    subst h
    exact ⟨⟨rfl, fun _ _ => rfl⟩, rfl, fun _ _ => rfl⟩
  | cons ev evs ih =>
    intro s s' hE h
    unfold GivenCfg.run at h
    rw [List.foldlM_cons] at h
    obtain ⟨s1, h1, hrest⟩ := bind_ok_inv h
    obtain ⟨t, q, ty⟩ := ev
    obtain ⟨⟨i1, i2⟩, i3, i4⟩ := ih s1 s' (fun e he => hE e (by
      unfold frameEnds at he ⊢
      rw [List.filterMap_cons]
      split
      · exact he
      · exact List.mem_cons_of_mem _ he)) hrest
    unfold GivenCfg.step at h1
    cases ty with
    | bc =>
      have := broadcast_frame (A := fun _ => False) (B := fun _ => False) (fun h => h)
        (fun _ h => h.elim) h1
      rw [this.d] at i1 i2
      rw [this.dLoc] at i3 i4
      exact ⟨⟨i1, i2⟩, i3, i4⟩
    | up =>
      by_cases hq : q = k
      · subst hq
        obtain ⟨⟨u1, u2⟩, u3, u4⟩ := update_before (n := n) hNs (hE _ (by simp [frameEnds])) h1
        exact ⟨⟨i1.trans u1, fun j hj => by rw [i2 j hj, u2 j hj]⟩, i3.trans u3,
          fun j hj => by rw [i4 j hj, u4 j hj]⟩
      · have hu := (update_frame h1).2.1 k (Ne.symm hq)
        rw [hu.2.2.2.1] at i1 i2
        rw [hu.2.2.2.2] at i3 i4
        exact ⟨⟨i1, i2⟩, i3, i4⟩
    | _ => cases h1

/-! ## `conv` outputs -/

theorem update_conv (hconv : g.conv = true) {a b : GivenSt K} (hit : a.net.it k = b.net.it k)
    (hd : a.d k = b.d k) (hdl : a.dLoc k = b.dLoc k) (hy : y k = y' k) :
    Ok2 (fun a b : GivenSt K => a.d k = b.d k ∧ a.dLoc k = b.dLoc k) (g.update y a t k) (g.update y' b t k) := by
  unfold GivenCfg.update
  rw [hy, hit, hd, hdl]
  refine Ok2.bind (R := fun _ _ => True) (fun _ _ _ _ => trivial) ?_
  intro n1 n2 _
  intro x z hx hz
  obtain ⟨loc, hl, hx⟩ := bind_ok_inv hx
  obtain ⟨loc', hl', hz⟩ := bind_ok_inv hz
  rw [hl] at hl'
  injection hl' with hl'
  subst hl'
  split at hx
  · cases hx
  · rw [if_neg ‹_›] at hz
    have hlen : (y' k).length = (loc.map (·.1)).length := by rw [List.length_map, (mapM_get hl).1]
    have htake : ∀ Z : List (List K), (loc.map (·.1) ++ Z).take (y' k).length = loc.map (·.1) := by
      intro Z; rw [hlen, List.take_left]
    simp only [htake] at hx hz
    unfold GivenCfg.desired at hx hz
    simp only [hconv, if_true] at hx hz
    obtain ⟨d, h1, hx⟩ := bind_ok_inv hx
    obtain ⟨dl, h2, hx⟩ := bind_ok_inv hx
    obtain ⟨d', h1', hz⟩ := bind_ok_inv hz
    obtain ⟨dl', h2', hz⟩ := bind_ok_inv hz
    rw [h1] at h1'
    rw [h2] at h2'
    injection h1' with h1'
    injection h2' with h2'
    injection hx with hx
    injection hz with hz
    subst h1' h2' hx hz
    simp

theorem run_conv (hconv : g.conv = true) (hy : y k = y' k) (evs : List (ℚ × Nat × EvType)) :
    ∀ a b : GivenSt K, a.net.it = b.net.it → a.d k = b.d k → a.dLoc k = b.dLoc k →
      Ok2 (fun a b : GivenSt K => a.d k = b.d k ∧ a.dLoc k = b.dLoc k) (g.run y a evs) (g.run y' b evs) := by
  induction evs with
  | nil => intro a b _ h1 h2; exact Ok2.ok ⟨h1, h2⟩
  | cons ev evs ih =>
    intro a b hit h1 h2
    unfold GivenCfg.run
    simp only [List.foldlM_cons]
    obtain ⟨t, q, ty⟩ := ev
    refine Ok2.bind (R := fun a b : GivenSt K => a.net.it = b.net.it ∧ a.d k = b.d k ∧ a.dLoc k = b.dLoc k)
      ?_ (fun x z h => ih x z h.1 h.2.1 h.2.2)
    unfold GivenCfg.step
    cases ty with
    | bc =>
      intro x z hx hz
      have r1 := broadcast_frame (A := fun _ => False) (B := fun _ => False) (fun h => h)
        (fun _ h => h.elim) hx
      have r2 := broadcast_frame (A := fun _ => False) (B := fun _ => False) (fun h => h)
        (fun _ h => h.elim) hz
      rw [r1.it, r2.it, r1.d, r2.d, r1.dLoc, r2.dLoc]
      exact ⟨hit, h1, h2⟩
    | up =>
      intro x z hx hz
      have f1 := update_frame hx
      have f2 := update_frame hz
      refine ⟨by rw [f1.1, f2.1, hit], ?_⟩
      by_cases hq : q = k
      · subst hq
        exact update_conv hconv (by rw [hit]) h1 h2 hy x z hx hz
      · have g1 := f1.2.1 k (Ne.symm hq)
        have g2 := f2.2.1 k (Ne.symm hq)
        rw [g1.2.2.2.1, g1.2.2.2.2, g2.2.2.2.1, g2.2.2.2.2]
        exact ⟨h1, h2⟩
    | _ => exact Ok2.errL

/-! ## The buffers of a run -/

/-- The buffer operation of an event: a broadcast of some chunk, or an update. -/
def evOp (ev : ℚ × Nat × EvType) (op : BufOp K) : Prop :=
  match op with
  | .bc k _ => ev.2.1 = k ∧ ev.2.2 = .bc
  | .up k => ev.2.1 = k ∧ ev.2.2 = .up

theorem run_net (evs : List (ℚ × Nat × EvType)) : ∀ s s' : GivenSt K, g.run y s evs = .ok s' →
    ∃ ops, List.Forall₂ evOp evs ops ∧ ops.foldlM (netStep g.nb g.N g.Ns) s.net = .ok s'.net := by
  induction evs with
  | nil => intro s s' h; injection h with h; subst h; exact ⟨[], .nil, rfl⟩
  | cons ev evs ih =>
    intro s s' h
    unfold GivenCfg.run at h
    rw [List.foldlM_cons] at h
    obtain ⟨s1, h1, hrest⟩ := bind_ok_inv h
    obtain ⟨ops, ho, hr⟩ := ih s1 s' hrest
    obtain ⟨t, q, ty⟩ := ev
    have key : ∀ op, evOp (t, q, ty) op → netStep g.nb g.N g.Ns s.net op = .ok s1.net →
        ∃ ops, List.Forall₂ evOp ((t, q, ty) :: evs) ops ∧
          ops.foldlM (netStep g.nb g.N g.Ns) s.net = .ok s'.net := by
      intro op h2 h3
      exact ⟨op :: ops, .cons h2 ho, by rw [List.foldlM_cons, h3]; exact hr⟩
    unfold GivenCfg.step at h1
    cases ty with
    | bc =>
      simp only at h1
      unfold GivenCfg.broadcast at h1
      obtain ⟨fr, _, h1⟩ := bind_ok_inv h1
      split at h1
      · cases h1
      · split at h1
        · obtain ⟨z, _, h1⟩ := bind_ok_inv h1
          obtain ⟨n, hn, h1⟩ := bind_ok_inv h1
          injection h1 with h1
          subst h1
          exact key (.bc q _) (And.intro rfl rfl) hn
        · obtain ⟨l, _, h1⟩ := bind_ok_inv h1
          obtain ⟨w, _, h1⟩ := bind_ok_inv h1
          obtain ⟨z, _, h1⟩ := bind_ok_inv h1
          obtain ⟨n, hn, h1⟩ := bind_ok_inv h1
          injection h1 with h1
          subst h1
          exact key (.bc q _) (And.intro rfl rfl) hn
    | up =>
      simp only at h1
      unfold GivenCfg.update at h1
      obtain ⟨n, hn, h1⟩ := bind_ok_inv h1
      obtain ⟨fr, _, h1⟩ := bind_ok_inv h1
      split at h1
      · cases h1
      · obtain ⟨d, _, h1⟩ := bind_ok_inv h1
        obtain ⟨dl, _, h1⟩ := bind_ok_inv h1
        injection h1 with h1
        subst h1
        exact key (.up q) (And.intro rfl rfl) hn
    | _ => cases h1

end
end Danse
