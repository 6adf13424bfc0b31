import Verif.Proofs.TIRun5
import Verif.Proofs.Online4

/-!
# Helper lemmas: the fusion delivers enough samples
-/

set_option linter.unusedSectionVars false

namespace Danse
section
variable {K : Type} [Field K] [StarRing K] [DecidableEq K] {g : GivenCfg K}

theorem overlapAdd_length {N Ns : Nat} {h prev cur r : List K} (hr : overlapAdd N Ns h prev cur = .ok r)
    (hc : cur.length = N) : r.length = N := by
  unfold overlapAdd at hr
  split at hr
  · cases hr; exact hc
  split at hr
  · cases hr
  split at hr
  · cases hr
  obtain ⟨nv, _, h2⟩ := Except.bind_ok hr
  cases h2
  simp

theorem wholeChunk_length {N Ns : Nat} {ζ c : K} {h f prev r : List K} {yq w : List (List K)}
    (hr : wholeChunk ζ N Ns c h f yq w prev = .ok r) (hf : f.length = N) : r.length = N := by
  unfold wholeChunk at hr
  obtain ⟨z, h1, h2⟩ := Except.bind_ok hr
  refine overlapAdd_length h2 ?_
  unfold backToTD at h1
  split at h1
  · cases h1
  split at h1
  · cases h1
  cases h1
  simp [idft_length, hf]

theorem fewSamples_length {L P : Nat} {w y : List (List K)} {r : List K} (hr : fewSamples L P w y = .ok r) :
    r.length = L := by
  unfold fewSamples at hr
  obtain ⟨z, _, h2⟩ := Except.bind_ok hr
  cases h2
  simp [sumChannels]

/-- The frames that a fusion at time `t` reads are complete. -/
theorem fuse_frames {yk : List (List K)} {t fs : ℚ} {N : Nat} {fr}
    (hy : ∀ ch ∈ yk, 0 ≤ ⌊t * fs⌋ ∧ ⌊t * fs⌋ ≤ ch.length)
    (h : yk.mapM (fun ch => chunkForBroadcast ch t fs N) = .ok fr) : ∀ x ∈ fr, x.1.length = N := by
  intro x hx
  obtain ⟨i, hi, rfl⟩ := List.getElem_of_mem hx
  have hf := mapM_ok_forall₂ h
  have hi' : i < yk.length := by rw [hf.length_eq]; exact hi
  have h1 := (List.forall₂_iff_get.mp hf).2 i hi' hi
  obtain ⟨h2, h3⟩ := hy _ (List.getElem_mem hi')
  obtain ⟨c, h4, h5, _⟩ := localChunk_at (N := N) h2 h3
  simp only [List.get_eq_getElem] at h1
  unfold chunkForBroadcast at h1
  rw [h4] at h1
  injection h1 with h1
  rw [← h1]
  exact h5

theorem tiFuse_length {yk : List (List K)} {t : ℚ} {k : Nat} {nd : TINode K} {buf : List K}
    {r : TINode K × List K} (hN : g.Ns ≤ g.N) (hf : g.f.length = g.N)
    (hy : ∀ ch ∈ yk, 0 ≤ ⌊t * g.fs k⌋ ∧ ⌊t * g.fs k⌋ ≤ ch.length)
    (hL : ∀ L eff, g.bc = .few L eff → eff = false ∧ g.Ns ≤ L)
    (h : tiFuse g yk t k nd buf = .ok r) : g.Ns ≤ r.2.length := by
  unfold tiFuse at h
  obtain ⟨fr, h1, h2⟩ := Except.bind_ok h
  have h3 := fuse_frames hy h1
  rw [if_neg] at h2
  · revert h2
    cases hb : g.bc with
    | whole =>
      intro h2
      obtain ⟨p, _, h4⟩ := Except.bind_ok h2
      obtain ⟨z, h5, h6⟩ := Except.bind_ok h4
      cases h6
      rw [wholeChunk_length h5 hf]
      exact hN
    | few L eff =>
      intro h2
      obtain ⟨l, hl, h4⟩ := Except.bind_ok h2
      obtain ⟨p, _, h4⟩ := Except.bind_ok h4
      obtain ⟨z, h5, h6⟩ := Except.bind_ok h4
      cases h6
      obtain ⟨rfl, h8⟩ := hL _ _ hb
      cases hl
      rw [fewSamples_length h5]
      exact h8
  · simp only [List.any_eq_true, decide_eq_true_eq, not_exists, not_and, not_lt]
    exact fun x hx => (h3 x hx).ge

end
end Danse
