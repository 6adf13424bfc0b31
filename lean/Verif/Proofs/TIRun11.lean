import Verif.Proofs.TIRun10

/-!
# Helper lemmas: few-sample TI-DANSE, what is in the frames
-/

set_option linter.unusedSectionVars false

namespace Danse
section
variable {K : Type} [Field K] [StarRing K] [DecidableEq K] {g : GivenCfg K}

theorem frameBefore_length (N : Nat) (x : List K) (e : Nat) : (frameBefore N x e).length = N := by
  simp [frameBefore]

theorem at0_frameBefore {N : Nat} {x : List K} {e j : Nat} (hj : j < N) :
    at0 (frameBefore N x e) j = if N ≤ e + j then at0 x (e + j - N) else 0 := by
  unfold frameBefore
  rw [at0_range_map hj]

theorem localChunk_frame {x : List K} {N : Nat} {e : Nat} (h : e ≤ x.length) :
    localChunk x N (e : Int) = .ok (frameBefore N x e, max ((e : Int) - N) 0, (e : Int)) := by
  obtain ⟨c, h1, h2, h3⟩ := localChunk_at (y := x) (N := N) (e := (e : Int)) (by omega) (by omega)
  rw [h1]
  congr 2
  apply at0_ext (by rw [h2, frameBefore_length])
  rw [h2]
  intro j hj
  rw [h3 j hj, at0_frameBefore hj]
  by_cases hc : N ≤ e + j
  · rw [if_pos (by omega), if_pos hc]
    congr 1
    omega
  · rw [if_neg (by omega), if_neg hc]

/-- A new chunk of `Ns` samples moves a frame on. -/
theorem frameBefore_shift {N Ns e : Nat} (hN : Ns ≤ N) (x : List K) (he : e + Ns ≤ x.length) :
    (frameBefore N x e).drop Ns ++ frameAt x e Ns = frameBefore N x (e + Ns) := by
  have hl : ((frameBefore N x e).drop Ns).length = N - Ns := by simp [frameBefore_length]
  have hl2 : (frameAt x e Ns).length = Ns := by
    unfold frameAt
    rw [List.length_take, List.length_drop]
    omega
  apply at0_ext
  · rw [List.length_append, hl, hl2, frameBefore_length]; omega
  · intro j hj
    rw [List.length_append, hl, hl2] at hj
    rw [at0_frameBefore (by omega)]
    by_cases hc : j < N - Ns
    · rw [at0_append, if_pos (by omega), at0_drop, at0_frameBefore (by omega)]
      by_cases h2 : N ≤ e + (Ns + j)
      · rw [if_pos h2, if_pos (by omega)]
        congr 1; omega
      · rw [if_neg h2, if_neg (by omega)]
    · rw [at0_append, if_neg (by omega), hl]
      unfold frameAt
      rw [at0_take (by omega), at0_drop, if_pos (by omega)]
      congr 1; omega

theorem tiUpdate_inv {rows : List (TIObs K) → Rows K} {started : List (TIObs K) → Bool} {yk : List (List K)}
    {t : ℚ} {k : Nat} {byp : Bool} {nd nd' : TINode K} {eta : List K}
    (h : tiUpdate g rows started yk t k byp nd eta = .ok nd') :
    ∃ loc, yk.mapM (fun ch => chunkForUpdate ch t (g.fs k) g.bc.name g.N g.Ns) = .ok loc ∧
      nd'.hist = nd.hist ++ [⟨t, byp, loc.map (·.1), eta⟩] ∧ nd'.wIR = nd.wIR ∧ nd'.lastUp = nd.lastUp ∧
      nd'.ext = (rows nd'.hist).ext ∧ nd'.started = started nd'.hist := by
  unfold tiUpdate at h
  obtain ⟨loc, h1, h2⟩ := Except.bind_ok h
  split at h2
  · cases h2
  · obtain ⟨d, _, h3⟩ := Except.bind_ok h2
    obtain ⟨d', _, h4⟩ := Except.bind_ok h3
    cases h4
    exact ⟨loc, h1, rfl, rfl, rfl, rfl, rfl⟩

/-- The local frames of an update. -/
theorem update_frames {yk : List (List K)} {t : ℚ} {k e : Nat} {m : Nat} (hy : ∀ ch ∈ yk, ch.length = m)
    (he : e ≤ m) (hend : (match g.bc with
      | .whole => ⌊t * g.fs k⌋ - ((g.N : Int) - g.Ns)
      | .few _ _ => ⌊t * g.fs k⌋) = (e : Int)) {loc}
    (h : yk.mapM (fun ch => chunkForUpdate ch t (g.fs k) g.bc.name g.N g.Ns) = .ok loc) :
    loc.map (·.1) = yk.map fun ch => frameBefore g.N ch e := by
  have hc : ∀ ch ∈ yk, chunkForUpdate ch t (g.fs k) g.bc.name g.N g.Ns =
      .ok (frameBefore g.N ch e, max ((e : Int) - g.N) 0, (e : Int)) := by
    intro ch hch
    rw [← localChunk_frame (by rw [hy ch hch]; exact he)]
    unfold chunkForUpdate BcType.name
    revert hend
    cases g.bc with
    | whole => intro hend; simp only at hend; simp [hend]
    | few L eff => intro hend; simp only at hend; simp [hend]
  have hf := mapM_ok_forall₂ h
  clear h
  induction hf with
  | nil => rfl
  | cons h1 _ ih =>
    rw [List.map_cons, List.map_cons, ih (fun ch hch => hy ch (List.mem_cons_of_mem _ hch))
      (fun ch hch => hc ch (List.mem_cons_of_mem _ hch))]
    rw [hc _ (by simp)] at h1
    injection h1 with h1
    rw [← h1]

/-- A node that still has its initial broadcast filter and keeps it. -/
structure TIKeeps (g : GivenCfg K) (M : Nat) (nd : TINode K) : Prop where
  ir : nd.wIR = diracIR g.N M g.refSensor
  why : (g.noFusion = true ∧ M = 1) ∨ nd.lastUp = 0

theorem tiFuse_keeps {L : Nat} (hb : g.bc = .few L false) (hN : 2 ≤ g.N) (hL : L ≤ g.N) {yk : List (List K)}
    {x : List K} {e m : Nat} (hx : yk[g.refSensor]? = some x) (hy : ∀ ch ∈ yk, ch.length = m) {nd nd' : TINode K}
    {buf buf' : List K} (hk : TIKeeps g yk.length nd) {t : ℚ} {k : Nat}
    (ht : (g.noFusion = true ∧ yk.length = 1) ∨ |t| < g.upTDEvery) (he : ⌊t * g.fs k⌋ = (e : Int)) (hLe : L ≤ e)
    (hem : e ≤ m) (h : tiFuse g yk t k nd buf = .ok (nd', buf')) :
    TIKeeps g yk.length nd' ∧ nd'.hist = nd.hist ∧ buf' = frameAt x (e - L) L := by
  unfold tiFuse at h
  obtain ⟨fr, h1, h2⟩ := Except.bind_ok h
  have h3 := fuse_frames (N := g.N) (fun ch hch => by
    have := hy ch hch
    exact ⟨by rw [he]; omega, by rw [he]; omega⟩) h1
  rw [if_neg (by
    simp only [List.any_eq_true, decide_eq_true_eq, not_exists, not_and, not_lt]
    exact fun x hx => (h3 x hx).ge)] at h2
  rw [hb] at h2
  simp only at h2
  obtain ⟨l, hl, h4⟩ := Except.bind_ok h2
  obtain ⟨w, hw, h4⟩ := Except.bind_ok h4
  obtain ⟨z, hz, h6⟩ := Except.bind_ok h4
  cases hl
  have hnot : ¬ (|t - nd.lastUp| ≥ g.upTDEvery ∧ ¬ (g.noFusion = true ∧ yk.length = 1)) := by
    rintro ⟨ha, hc⟩
    rcases hk.why with h | h
    · exact hc h
    · rcases ht with h' | h'
      · exact hc h'
      · rw [h, sub_zero] at ha
        exact absurd h' (not_lt.mpr ha)
  have hw' : w = nd.wIR := by
    unfold tiBcFilter at hw
    rw [if_neg hnot] at hw
    injection hw with hw; exact hw.symm
  subst hw'
  obtain ⟨hfl, hfi⟩ := mapM_get h1
  obtain ⟨c, hc, hcx⟩ := hfi _ _ hx
  unfold chunkForBroadcast at hcx
  have hxm : x.length = m := hy x (List.mem_of_getElem? hx)
  rw [he, localChunk_frame (by omega)] at hcx
  injection hcx with hcx
  have hz' := few_dirac (N := g.N) (L := L) (M := yk.length) (ref := g.refSensor) hN hL
    (yq := fr.map (·.1)) (by simp [hfl]) (b := frameBefore g.N x e)
    (by rw [List.getElem?_map, hc, ← hcx]; rfl) (by
      intro b hb
      obtain ⟨a, ha, rfl⟩ := List.mem_map.mp hb
      rw [h3 a ha]
      omega)
  rw [hk.ir, hz'] at hz
  injection hz with hz
  injection h6 with h6
  injection h6 with h6 h7
  subst h6
  refine ⟨⟨hk.ir, ?_⟩, rfl, ?_⟩
  · rcases hk.why with h | h
    · exact .inl h
    · rcases ht with h' | h'
      · exact .inl h'
      · right
        simp only
        rw [if_neg]
        · exact h
        · rw [h, sub_zero]; exact not_le.mpr h'
  · rw [← h7, ← hz]
    apply at0_ext
    · unfold frameAt; simp; omega
    · intro i hi
      have hi' : i < L := by simpa using hi
      rw [at0_range_map hi', at0_frameBefore (by omega), if_pos (by omega)]
      unfold frameAt
      rw [at0_take hi', at0_drop]
      congr 1; omega

end
end Danse
