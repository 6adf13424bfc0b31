import Verif.Proofs.Centr
import Verif.Proofs.Online2

/-!
# Helper lemmas: the centralised buffers along a run
-/

set_option linter.unusedSectionVars false

namespace Danse
section
variable {K : Type} [Field K] [StarRing K] [DecidableEq K] {c : CentrCfg K} {y : Nat → List (List K)}

theorem fillCentr_inv {n : Nat} {buf buf' : Nat → Nat → List (List K)} {k : Nat} {raw : List (List K)}
    {m : Int} (h : fillCentr n buf k raw m = .ok buf') :
    (∀ q slot, buf' q slot = if q < n ∧ q ≠ k ∧ slot = centrSlot k q then
      List.zipWith (· ++ ·) (buf q slot) (raw.map (chunkOf · m)) else buf q slot) ∧
    (∀ q < n, q ≠ k → m ≠ 0) := by
  unfold fillCentr at h
  induction n generalizing buf' with
  | zero =>
    injection h with h
    subst h
    exact ⟨fun q slot => by simp, fun q hq => by omega⟩
  | succ n ih =>
    rw [List.range_succ, List.foldlM_append] at h
    obtain ⟨b, hb, h⟩ := bind_ok_inv h
    obtain ⟨h1, h2⟩ := ih hb
    rw [List.foldlM_cons] at h
    obtain ⟨b', hb', h⟩ := bind_ok_inv h
    injection h with h
    subst h
    by_cases hk : n = k
    · rw [if_pos hk] at hb'
      injection hb' with hb'
      subst hb'
      refine ⟨fun q slot => ?_, fun q hq hne => h2 q (by omega) hne⟩
      rw [h1]
      by_cases hc : q < n ∧ q ≠ k ∧ slot = centrSlot k q
      · rw [if_pos hc, if_pos ⟨by omega, hc.2⟩]
      · rw [if_neg hc, if_neg]
        rintro ⟨a1, a2, a3⟩
        exact hc ⟨by omega, a2, a3⟩
    · rw [if_neg hk] at hb'
      by_cases hm : m = 0
      · rw [if_pos hm] at hb'
        cases hb'
      · rw [if_neg hm] at hb'
        injection hb' with hb'
        subst hb'
        refine ⟨fun q slot => ?_, fun _ _ _ => hm⟩
        by_cases hq : q = n
        · subst hq
          rw [Function.update_self]
          by_cases hs : slot = centrSlot k q
          · subst hs
            rw [Function.update_self, if_pos ⟨by omega, hk, rfl⟩, h1, if_neg (by omega)]
          · rw [Function.update_of_ne hs, if_neg (fun h => hs h.2.2), h1, if_neg (fun h => hs h.2.2)]
        · rw [Function.update_of_ne hq, h1]
          by_cases hc : q < n ∧ q ≠ k ∧ slot = centrSlot k q
          · rw [if_pos hc, if_pos ⟨by omega, hc.2⟩]
          · rw [if_neg hc, if_neg]
            rintro ⟨a1, a2, a3⟩
            exact hc ⟨by omega, a2, a3⟩

/-- A frame taken at a broadcast. -/
theorem localChunk_full {x : List K} {N : Nat} {e : Int} (hN : 0 < N) (h0 : 0 ≤ e) (hx : N ≤ x.length)
    {r : List K × Int × Int} (h : localChunk x N e = .ok r) (hr : ¬ r.1.length < N) :
    e ≤ x.length ∧ r.1 = frameBefore N x e.toNat := by
  have he : e ≤ x.length := by
    by_contra hc
    unfold localChunk at h
    simp only at h
    rw [if_neg (by omega)] at h
    injection h with h
    subst h
    apply hr
    simp only
    unfold pySlice pySliceBound
    rw [List.length_take, List.length_drop, if_neg (by omega), if_neg (by omega)]
    clear hr
    have e1 : max (e - (N : Int)) 0 = e - N := by omega
    rw [e1]
    omega
  refine ⟨he, ?_⟩
  obtain ⟨E, rfl⟩ := Int.eq_ofNat_of_zero_le h0
  rw [localChunk_frame (by omega)] at h
  injection h with h
  rw [← h]
  simp

theorem mapM_frames {f : List K → Except PyErr (List K × Int × Int)} {F : List K → List K}
    {l : List (List K)} {r : List (List K × Int × Int)} (h : l.mapM f = .ok r)
    (hf : ∀ x ∈ l, ∀ z, f x = .ok z → z ∈ r → z.1 = F x) : r.map (·.1) = l.map F := by
  have h2 := mapM_ok_forall₂ h
  clear h
  induction h2 with
  | nil => rfl
  | cons hx _ ih =>
    rw [List.map_cons, List.map_cons, hf _ (by simp) _ hx (by simp), ih]
    intro x hx z hz hzr
    exact hf x (by simp [hx]) z hz (by simp [hzr])

/-- What a successful broadcast of the base run does. -/
theorem broadcast_base {g : GivenCfg K} {s s' : GivenSt K} {t : ℚ} {k : Nat}
    (h : g.broadcast y s t k = .ok s') :
    s'.net.it = s.net.it ∧
    (∀ L, g.bc = .few L true → s'.lastBc = Function.update s.lastBc k t) ∧
    ∃ fr, (y k).mapM (fun ch => chunkForBroadcast ch t (g.fs k) g.N) = .ok fr ∧
      ∀ z ∈ fr, ¬ z.1.length < g.N := by
  unfold GivenCfg.broadcast at h
  obtain ⟨fr, hfr, h⟩ := bind_ok_inv h
  by_cases hs : (fr.any fun x => decide (x.1.length < g.N)) = true
  · rw [if_pos hs] at h; cases h
  · rw [if_neg hs] at h
    have hlen : ∀ z ∈ fr, ¬ z.1.length < g.N := by
      intro z hz hlt
      apply hs
      rw [List.any_eq_true]
      exact ⟨z, hz, by simpa using hlt⟩
    split at h
    · next hb =>
      obtain ⟨z, _, h⟩ := bind_ok_inv h
      obtain ⟨n, hn, h⟩ := bind_ok_inv h
      injection h with h
      obtain ⟨b, hb, rfl⟩ := netStep_bc_inv hn
      subst h
      exact ⟨rfl, fun L e => by simp_all, fr, hfr, hlen⟩
    · next L eff hb =>
      obtain ⟨l, _, h⟩ := bind_ok_inv h
      obtain ⟨w, _, h⟩ := bind_ok_inv h
      obtain ⟨z, _, h⟩ := bind_ok_inv h
      obtain ⟨n, hn, h⟩ := bind_ok_inv h
      injection h with h
      obtain ⟨b, hb', rfl⟩ := netStep_bc_inv hn
      subst h
      refine ⟨rfl, fun L' e => ?_, fr, hfr, hlen⟩
      rw [hb] at e
      injection e with _ e
      subst e
      simp

theorem update_base {g : GivenCfg K} {s s' : GivenSt K} {t : ℚ} {k : Nat}
    (h : g.update y s t k = .ok s') :
    s'.net.it = Function.update s.net.it k (s.net.it k + 1) ∧ s'.lastBc = s.lastBc := by
  unfold GivenCfg.update at h
  obtain ⟨net, hnet, h⟩ := bind_ok_inv h
  obtain ⟨loc, _, h⟩ := bind_ok_inv h
  split at h
  · cases h
  · obtain ⟨d, _, h⟩ := bind_ok_inv h
    obtain ⟨dL, _, h⟩ := bind_ok_inv h
    injection h with h
    subst h
    exact ⟨netStep_up_it hnet, rfl⟩

end
end Danse
