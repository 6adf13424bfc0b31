import Verif.Spec.TIIdle
import Verif.Proofs.Dead2
import Verif.Proofs.NoAdapt
import Verif.Proofs.TIDanse3
import Verif.Proofs.Cost2
import Verif.Proofs.Centr5

/-!
# Auxiliary facts for C139: TI-DANSE nodes that do not adapt
-/

set_option linter.unusedSectionVars false

namespace Danse
section
variable {K : Type} [Field K] [StarRing K] [DecidableEq K] {D : DanseCfg K}

theorem tiHeard_prefix (k : Nat) (h : List (TIObs K)) (i : Nat) : D.tiHeard k (h.take i) <+: D.tiHeard k h := by
  induction h using List.reverseRecOn with
  | nil => simp
  | append_singleton h o ih =>
    rw [tiHeard_snoc]
    by_cases hi : i ≤ h.length
    · rw [List.take_append_of_le_length hi]
      exact ih.trans (List.prefix_append _ _)
    · rw [List.take_of_length_le (by simp; omega), tiHeard_snoc]

theorem tiHeardLoc_prefix (k : Nat) (h : List (TIObs K)) (i : Nat) : D.tiHeardLoc k (h.take i) <+: D.tiHeardLoc k h := by
  induction h using List.reverseRecOn with
  | nil => simp
  | append_singleton h o ih =>
    rw [tiHeardLoc_snoc]
    by_cases hi : i ≤ h.length
    · rw [List.take_append_of_le_length hi]
      exact ih.trans (List.prefix_append _ _)
    · rw [List.take_of_length_le (by simp; omega), tiHeardLoc_snoc]

/-- A node that has no reason to adapt, or hears a redundant channel, has not started. -/
theorem tiIdle_not_started {k m : Nat} {h : List (TIObs K)} {l r : List (UpEv (Fin D.nb) (Fin m) K ℚ)} (hl : l <+: r)
    (hv : r.map (·.vad) = (List.range h.length).map (D.vad k)) (ht : r.map (·.t) = h.map (·.t))
    (hid : D.TIIdle h k m ∨ D.Deficient r) : D.bypassAll = true ∨ ¬ D.Started k l := by
  by_cases hb : D.bypassAll = true
  · exact .inl hb
  refine .inr ?_
  rcases hid with hid | ⟨hu, hv, b, κ, v, hr⟩
  · rintro ⟨l1, e, hp, h1, c1, c2, -⟩
    have hpr : l1 ++ [e] <+: r := hp.trans hl
    rcases hid with h' | ⟨b, hc⟩ | h'
    · exact hb h'
    · have hle : (framesWith b (l1 ++ [e])).length ≤ m := by
        refine le_trans ?_ hc
        rw [← hv, framesWith_countP]
        obtain ⟨s, rfl⟩ := hpr
        simp only [List.map_append, List.countP_append]
        omega
      rw [Fintype.card_fin] at c1 c2
      cases b <;> omega
    · have he : e ∈ r := hpr.subset (by simp)
      have : e.t ∈ h.map (·.t) := by rw [← ht]; exact List.mem_map_of_mem he
      obtain ⟨o, ho, hoe⟩ := List.mem_map.mp this
      have := h' o ho
      rw [hoe] at this
      exact absurd h1 (not_le.mpr this)
  · exact not_started_redundant hu hv (redundant_prefix hl hr)

variable {n : Nat} {y : Fin n → List (List K)} {T : Nat} {up0 : Fin n → List (Fin n)} {trees : List (TreeObj n)}
  {out : List (Instant ℚ)} {a : TIDanseSt n D}

theorem tiRow_first (ha : TINodesOk a) (k : Fin n) : D.SameFilter (D.M k + 1) (a.row k 0) (D.g.wInt k 0) ∧
    D.SameFilter (D.M k) (a.rowLoc k 0) (D.g.wLoc k 0) := by
  obtain ⟨r, hr, -⟩ := ha k
  have i := tiNodeFold_inv _ hr
  constructor
  · intro κ c
    have : a.row k 0 = frameRow (rowFrame D.nb (D.M k + 1) (D.g.wInt k 0)) := by
      unfold TIDanseSt.row
      rw [i.first]; rfl
    rw [this, coef_frameRow]; rfl
  · intro κ c
    have h0 : (a.node k).loc.w 0 = .ok (rowFrame D.nb (D.M k) (D.g.wLoc k 0)) := by
      rw [i.loc, nodeRun_row0 _ _ rfl]; rfl
    have : a.rowLoc k 0 = frameRow (rowFrame D.nb (D.M k) (D.g.wLoc k 0)) := by
      unfold TIDanseSt.rowLoc
      rw [h0]; rfl
    rw [this, coef_frameRow]; rfl

theorem tiHist_sorted (h : tiDanseRun D T y up0 trees out = .ok a) (hs : (out.map (·.t)).Pairwise (· ≤ ·)) (k : Fin n) :
    ((a.run.node k).hist.map (·.t)).Pairwise (· ≤ ·) :=
  tiRun_times out (tiDanse_run (tiDanse_init_ok T up0) out h).1 hs k List.Pairwise.nil (fun o ho => by cases ho)

/-- The DANSE filters of a node that has not started. -/
theorem tiFrozen_rows (h : tiDanseRun D T y up0 trees out = .ok a) (hs : (out.map (·.t)).Pairwise (· ≤ ·)) {k : Fin n}
    (hid : D.TIIdle (a.run.node k).hist k (D.M k + 1) ∨ D.Deficient (D.tiHeard k (a.run.node k).hist))
    (hc : ∀ j, D.g.wInt k j = D.g.wInt k 0) : ∀ i ≤ (a.run.node k).hist.length,
      (¬ (D.seq = true ∧ k.val = 0) → D.SameFilter (D.M k + 1) (a.row k i) (D.g.wInt k 0)) ∧
      ∀ (κ : Fin D.nb), ∀ c < D.M k, coef (a.row k i) κ c = coef (D.g.wInt k 0) κ c := by
  have ha := (tiDanse_run (tiDanse_init_ok T up0) out h).2
  intro i
  induction i with
  | zero =>
    intro _
    have h0 := (tiRow_first ha k).1
    exact ⟨fun _ => h0, fun κ c hc => h0 κ ⟨c, by omega⟩⟩
  | succ i ih =>
    intro hi
    obtain ⟨i1, i2⟩ := ih (by omega)
    have ho : (a.run.node k).hist[i]? = some (a.run.node k).hist[i] := List.getElem?_eq_getElem (by omega)
    have hns := tiIdle_not_started (tiHeard_prefix (D := D) k (a.run.node k).hist (i + 1)) (tiHeard_vad k _) (tiHeard_t k _) hid
    obtain ⟨⟨V, ⟨-, r1, r2, -⟩, n1, n2⟩, -⟩ := tiRun_rowOk ha ho (tiHist_sorted h hs k)
    generalize (a.run.node k).hist[i] = o at *
    have hV : ∀ (κ : Fin D.nb) (c : Fin (D.M k + 1)), o.bypass = false → coef V κ c = coef (D.g.wInt k 0) κ c :=
      fun κ c hb => by rw [r2 hb hns κ c, hc]
    by_cases hn : D.seq = true ∧ k.val = 0 ∧ o.bypass = false ∧ 1 ≤ o.t
    · refine ⟨fun h => absurd ⟨hn.1, hn.2.1⟩ h, fun κ c hc => ?_⟩
      rw [(n1 hn κ).2.2 c hc]
      exact hV κ ⟨c, by omega⟩ hn.2.2.1
    · rw [n2 hn]
      cases hb : o.bypass with
      | false => exact ⟨fun _ κ c => hV κ c hb, fun κ c hc => hV κ ⟨c, by omega⟩ hb⟩
      | true =>
        refine ⟨fun hq κ c => ?_, fun κ c hc => ?_⟩
        · rw [r1 hb κ c, i1 hq κ c]
        · rw [r1 hb κ ⟨c, by omega⟩, i2 κ c hc]

/-- The local filters of a node that has not started. -/
theorem tiFrozen_rowsLoc (h : tiDanseRun D T y up0 trees out = .ok a) (hs : (out.map (·.t)).Pairwise (· ≤ ·)) {k : Fin n}
    (hid : D.TIIdle (a.run.node k).hist k (D.M k) ∨ D.Deficient (D.tiHeardLoc k (a.run.node k).hist))
    (hc : ∀ j, D.g.wLoc k j = D.g.wLoc k 0) : ∀ i ≤ (a.run.node k).hist.length,
      D.SameFilter (D.M k) (a.rowLoc k i) (D.g.wLoc k 0) := by
  have ha := (tiDanse_run (tiDanse_init_ok T up0) out h).2
  intro i
  induction i with
  | zero => exact fun _ => (tiRow_first ha k).2
  | succ i ih =>
    intro hi κ c
    have ho : (a.run.node k).hist[i]? = some (a.run.node k).hist[i] := List.getElem?_eq_getElem (by omega)
    have hns := tiIdle_not_started (tiHeardLoc_prefix (D := D) k (a.run.node k).hist (i + 1)) (tiHeardLoc_vad k _)
      (tiHeardLoc_t k _) hid
    obtain ⟨-, -, r1, r2, -⟩ := tiRun_rowOk ha ho (tiHist_sorted h hs k)
    cases hb : (a.run.node k).hist[i].bypass with
    | true => rw [r1 hb κ c, ih (by omega) κ c]
    | false => rw [r2 hb hns κ c, hc]

/-- The frames of a node's own sensors in its observations. -/
theorem tiStepEv_locs {g : GivenCfg K} {U : TIStrategy n K} {t : ℚ} {s s' : TISt n K} {e : OutEv}
    (h : tiStepEv g U y trees t s e = .ok s')
    (hs : ∀ k, ∀ o ∈ (s.node k).hist, ∃ l, (y k).mapM (fun ch => chunkForUpdate ch o.t (g.fs k) g.bc.name g.N g.Ns) =
      .ok l ∧ o.loc = l.map (·.1)) :
    ∀ k, ∀ o ∈ (s'.node k).hist, ∃ l, (y k).mapM (fun ch => chunkForUpdate ch o.t (g.fs k) g.bc.name g.N g.Ns) =
      .ok l ∧ o.loc = l.map (·.1) := by
  intro k o ho
  by_cases hty : e.ty = .up
  · unfold tiStepEv at h
    rw [hty] at h
    simp only at h
    split at h
    · rename_i hlt
      obtain ⟨nd, h1, h2⟩ := Except.bind_ok h
      injection h2 with h2
      subst h2
      by_cases e1 : k = ⟨e.node, hlt⟩
      · subst e1
        simp only [Function.update_self] at ho
        obtain ⟨loc, l1, l2, -⟩ := tiUpdate_inv h1
        rw [l2, List.mem_append] at ho
        rcases ho with ho | ho
        · exact hs _ o ho
        · rw [List.mem_singleton] at ho
          subst ho
          exact ⟨loc, l1, rfl⟩
      · simp only [Function.update_of_ne e1] at ho
        exact hs k o ho
    · cases h
  · rw [(tiStepEv_histExt hty h k).1] at ho
    exact hs k o ho

theorem tiRun_locs {g : GivenCfg K} {U : TIStrategy n K} (out : List (Instant ℚ)) : ∀ {s s' : TISt n K},
    tiRun g U y trees s out = .ok s' →
    (∀ k, ∀ o ∈ (s.node k).hist, ∃ l, (y k).mapM (fun ch => chunkForUpdate ch o.t (g.fs k) g.bc.name g.N g.Ns) =
      .ok l ∧ o.loc = l.map (·.1)) →
    ∀ k, ∀ o ∈ (s'.node k).hist, ∃ l, (y k).mapM (fun ch => chunkForUpdate ch o.t (g.fs k) g.bc.name g.N g.Ns) =
      .ok l ∧ o.loc = l.map (·.1) := by
  have ev : ∀ (t : ℚ) (evs : List OutEv) {s s' : TISt n K}, evs.foldlM (tiStepEv g U y trees t) s = .ok s' →
      (∀ k, ∀ o ∈ (s.node k).hist, ∃ l, (y k).mapM (fun ch => chunkForUpdate ch o.t (g.fs k) g.bc.name g.N g.Ns) =
        .ok l ∧ o.loc = l.map (·.1)) →
      ∀ k, ∀ o ∈ (s'.node k).hist, ∃ l, (y k).mapM (fun ch => chunkForUpdate ch o.t (g.fs k) g.bc.name g.N g.Ns) =
        .ok l ∧ o.loc = l.map (·.1) := by
    intro t evs
    induction evs with
    | nil => intro s s' h hs; injection h with h; subst h; exact hs
    | cons e evs ih =>
      intro s s' h hs
      rw [List.foldlM_cons] at h
      obtain ⟨b, hb, h⟩ := bind_ok_inv h
      exact ih h (tiStepEv_locs hb hs)
  unfold tiRun
  induction out with
  | nil => intro s s' h hs; injection h with h; subst h; exact hs
  | cons e out ih =>
    intro s s' h hs
    rw [List.foldlM_cons] at h
    obtain ⟨b, hb, h⟩ := bind_ok_inv h
    exact ih h (ev _ _ hb hs)

theorem tiLoc_channel (h : tiDanseRun D T y up0 trees out = .ok a) {k : Fin n} {c : Nat} {ch : List K}
    (hc : (y k)[c]? = some ch) {o : TIObs K} (ho : o ∈ (a.run.node k).hist) : ∃ fr : List K, o.loc[c]? = some fr ∧ ∃ p,
      localChunk ch D.g.N (frameEnd D.g.bc D.g.N D.g.Ns o.t (D.g.fs k)) = .ok (fr, p) := by
  have hrun := (tiDanse_run (tiDanse_init_ok T up0) out h).1
  obtain ⟨l, h1, h2⟩ := tiRun_locs out hrun (fun _ o ho => by cases ho) k o ho
  obtain ⟨b, hb, hF⟩ := (mapM_get h1).2 c ch hc
  rw [chunkForUpdate_frameEnd] at hF
  refine ⟨b.1, ?_, b.2, hF⟩
  rw [h2, List.getElem?_map, hb]
  rfl

theorem mem_tiHeard {k : Nat} {h : List (TIObs K)} {e} (he : e ∈ D.tiHeard k h) : ∃ o ∈ h,
    ∀ (κ : Fin D.nb) (c : Fin (D.M k + 1)),
      e.y κ c = coef ((o.loc ++ [o.eta]).map (analysis D.g.ζ D.g.N D.g.c D.g.h)) κ c := by
  unfold DanseCfg.tiHeard at he
  obtain ⟨⟨o, i⟩, hp, rfl⟩ := List.mem_map.mp he
  exact ⟨o, List.mem_of_getElem? (List.mem_zipIdx_iff_getElem?.mp hp), fun _ _ => rfl⟩

theorem mem_tiHeardLoc {k : Nat} {h : List (TIObs K)} {e} (he : e ∈ D.tiHeardLoc k h) : ∃ o ∈ h,
    ∀ (κ : Fin D.nb) (c : Fin (D.M k)), e.y κ c = coef (o.loc.map (analysis D.g.ζ D.g.N D.g.c D.g.h)) κ c := by
  unfold DanseCfg.tiHeardLoc at he
  obtain ⟨⟨o, i⟩, hp, rfl⟩ := List.mem_map.mp he
  exact ⟨o, List.mem_of_getElem? (List.mem_zipIdx_iff_getElem?.mp hp), fun _ _ => rfl⟩

/-! ## Silent nodes -/

theorem silent_tiFuse {g : GivenCfg K} {yk : List (List K)} {t : ℚ} {k : Nat} {nd nd' : TINode K} {buf buf' : List K}
    (hy : ∀ ch ∈ yk, Silent ch) (hb : Silent buf) (h : tiFuse g yk t k nd buf = .ok (nd', buf')) : Silent buf' := by
  unfold tiFuse at h
  obtain ⟨fr, h1, h⟩ := bind_ok_inv h
  have hfr : ∀ ch ∈ fr.map (·.1), Silent ch := by
    intro ch hch
    obtain ⟨p, hp, rfl⟩ := List.mem_map.mp hch
    obtain ⟨i, hi⟩ := List.mem_iff_getElem?.mp hp
    obtain ⟨hl, hg⟩ := mapM_get h1
    have hlt : i < yk.length := by have := (List.getElem?_eq_some_iff.mp hi).1; omega
    obtain ⟨b, hb, hF⟩ := hg i _ (List.getElem?_eq_getElem hlt)
    rw [hi] at hb
    injection hb with hb
    subst hb
    exact silent_localChunk (hy _ (List.getElem_mem hlt)) hF
  by_cases hl : (fr.any fun x => x.1.length < g.N) = true
  · simp only [hl, if_true] at h
    injection h with h
    injection h with _ h
    rw [← h]; exact hb
  · rw [if_neg hl] at h
    cases hbc : g.bc with
    | whole =>
      simp only [hbc] at h
      obtain ⟨p, _, h⟩ := bind_ok_inv h
      obtain ⟨z, hz, h⟩ := bind_ok_inv h
      injection h with h
      injection h with _ h
      rw [← h]
      exact silent_wholeChunk hfr hb hz
    | few L eff =>
      simp only [hbc] at h
      obtain ⟨l, _, h⟩ := bind_ok_inv h
      obtain ⟨wIR, _, h⟩ := bind_ok_inv h
      obtain ⟨z, hz, h⟩ := bind_ok_inv h
      injection h with h
      injection h with _ h
      rw [← h]
      exact silent_fewSamples hfr hz

end
end Danse
