import Verif.Spec.TIRemove
import Verif.Proofs.DeadTI
import Verif.Proofs.TIRun9

/-!
# Auxiliary facts for C139 and C140: nodes of a TI-DANSE network that record nothing
-/

set_option linter.unusedSectionVars false

namespace Danse

/-! ## Silence in a run with direct exchanges -/

section
variable {n : Nat} {K : Type} [Field K] [StarRing K] [DecidableEq K] {g : GivenCfg K} {U : TIStrategy n K}
  {y : Fin n → List (List K)}

/-- What node `v` has sent is silent. -/
def TIView.SilentAt (a : TIView n K) (v : Fin n) : Prop := Silent (a.buf v) ∧ Silent (a.frame v)

theorem silent_newFrame {Ns : Nat} {old fused : Fin n → List K} {v : Fin n} (h1 : Silent (old v)) (h2 : Silent (fused v)) :
    Silent (newFrame Ns old fused v) :=
  silent_append (silent_subset h1 fun _ hv => List.mem_of_mem_drop hv) (silent_subset h2 fun _ hv => List.mem_of_mem_take hv)

theorem directExchange_silent {v : Fin n} (hy : ∀ ch ∈ y v, Silent ch) {t : ℚ} {a m : TIView n K}
    (h : DirectExchange g y t a m) (ha : a.SilentAt v) : m.SilentAt v := by
  obtain ⟨h1, h2, -⟩ := h v
  have hb := silent_tiFuse hy ha.1 h1
  exact ⟨hb, by rw [h2]; exact silent_newFrame ha.2 hb⟩

theorem directStep_silent {v : Fin n} (hy : ∀ ch ∈ y v, Silent ch) {w : Work} {a b : TIView n K}
    (h : DirectStep g U y w a b) (ha : a.SilentAt v) : b.SilentAt v := by
  obtain ⟨m, h1, e1, e2, -⟩ := h
  have hm : m.SilentAt v := by
    by_cases hx : w.exchange = true
    · rw [if_pos hx] at h1; exact directExchange_silent hy h1 ha
    · rw [if_neg hx] at h1; rw [h1]; exact ha
  unfold TIView.SilentAt
  rw [e1, e2]
  exact hm

theorem silent_sumOthers {N : Nat} {fr : Fin n → List K} {k : Fin n} (h : ∀ v, v ≠ k → Silent (fr v)) :
    Silent (sumOthers N fr k) := by
  intro x hx
  obtain ⟨t, -, rfl⟩ := List.mem_map.mp hx
  exact Finset.sum_eq_zero fun v hv => silent_at0 (h v (Finset.ne_of_mem_erase hv)) t

/-- All nodes but `k` are silent, and so is what `k` has heard of them. -/
structure TIView.OthersSilent (a : TIView n K) (k : Fin n) : Prop where
  sent : ∀ v, v ≠ k → a.SilentAt v
  eta : Silent (a.eta k)
  hist : ∀ o ∈ (a.node k).hist, Silent o.eta

theorem directStep_others {k : Fin n} (hy : ∀ v, v ≠ k → ∀ ch ∈ y v, Silent ch) {w : Work} {a b : TIView n K}
    (h : DirectStep g U y w a b) (ha : a.OthersSilent k) : b.OthersSilent k := by
  have hb : ∀ v, v ≠ k → b.SilentAt v := fun v hv => directStep_silent (hy v hv) h (ha.sent v hv)
  obtain ⟨m, h1, e1, e2, e3, h2⟩ := h
  have hm : Silent (m.eta k) ∧ ∀ o ∈ (m.node k).hist, Silent o.eta := by
    by_cases hx : w.exchange = true
    · rw [if_pos hx] at h1
      refine ⟨?_, ?_⟩
      · rw [(h1 k).2.2]
        exact silent_sumOthers fun v hv => (directExchange_silent (hy v hv) h1 (ha.sent v hv)).2
      · rw [(tiFuse_histExt (h1 k).1).1]; exact ha.hist
    · rw [if_neg hx] at h1; rw [h1]; exact ⟨ha.eta, ha.hist⟩
  refine ⟨hb, by rw [e3]; exact hm.1, ?_⟩
  have h3 := h2 k
  cases hu : w.ups k with
  | none => rw [hu] at h3; simp only at h3; rw [h3]; exact hm.2
  | some f =>
    rw [hu] at h3
    simp only at h3
    obtain ⟨loc, -, l2, -⟩ := tiUpdate_inv h3
    rw [l2]
    intro o ho
    rcases List.mem_append.mp ho with ho | ho
    · exact hm.2 o ho
    · rw [List.mem_singleton] at ho; subst ho; exact hm.1

theorem directRun_others {k : Fin n} (hy : ∀ v, v ≠ k → ∀ ch ∈ y v, Silent ch) {ws : List Work} {a b : TIView n K}
    (h : DirectRun g U y a ws b) (ha : a.OthersSilent k) : b.OthersSilent k := by
  induction h with
  | nil => exact ha
  | cons h1 _ ih => exact ih (directStep_others hy h1 ha)

theorem othersSilent_init (N ref T : Nat) (ext : Fin n → List (List K)) (k : Fin n) :
    (TIView.init N ref T y ext).OthersSilent k :=
  ⟨fun _ _ => ⟨silent_nil, fun _ hv => (List.mem_replicate.mp hv).2⟩, silent_nil, fun _ ho => by cases ho⟩

end

/-! ## Schedules of `n + 1` and of `n` nodes that do not update in turns -/

/-- Two groups with the same events, as far as the nodes below `n` are concerned. -/
structure SubGroup (n : Nat) (e f : ℚ × List (Ev ℚ)) : Prop where
  time : e.1 = f.1
  evs : ∀ k < n, ∀ ty, ty ≠ .tr → ((∃ x ∈ e.2, x.node = k ∧ x.ty = ty) ↔ ∃ x ∈ f.2, x.node = k ∧ x.ty = ty)
  any : ∀ ty, ty ≠ .tr → ((∃ x ∈ e.2, x.ty = ty) ↔ ∃ x ∈ f.2, x.ty = ty)

/-- The same work, as far as the nodes below `n` are concerned. -/
def SubWork (n : Nat) (w w' : Work) : Prop := w.t = w'.t ∧ w.exchange = w'.exchange ∧ ∀ k < n, w.ups k = w'.ups k

theorem bypassOf_notSeq {c : BypassCfg} (hc : c.seq = false) (last nf : Int) (e : Ev ℚ) :
    bypassOf c last nf e = decide (e.ty = .up ∧ nf < c.minFrames) := by
  unfold bypassOf
  rw [hc]
  by_cases h1 : e.ty = .up <;> by_cases h2 : nf < c.minFrames <;> simp [h1, h2]

theorem subGroup_work {n : Nat} {e f : ℚ × List (Ev ℚ)} (h : SubGroup n e f) {c c' : BypassCfg} (hc : c.seq = false)
    (hc' : c'.seq = false) (hm : c.minFrames = c'.minFrames) {b b' : BypassSt} (hb : b.nFrames = b'.nFrames) :
    SubWork n (workOf ⟨e.1, (bypassStep c b e.2).1⟩) (workOf ⟨f.1, (bypassStep c' b' f.2).1⟩) := by
  refine ⟨h.time, ?_, fun k hk => ?_⟩
  · unfold workOf
    have e1 := bypassStep_any c b e.2 (fun _ ty => decide (ty = .fu))
    have e2 := bypassStep_any c' b' f.2 (fun _ ty => decide (ty = .fu))
    simp only
    rw [e1, e2, Bool.eq_iff_iff]
    simpa using h.any .fu (by decide)
  · unfold workOf
    simp only
    rw [find_up, find_up, bypassOf_notSeq hc, bypassOf_notSeq hc', hm, hb]
    simp only [h.evs k hk .up (by decide)]

theorem bypassStep_notSeq {c : BypassCfg} (hc : c.seq = false) (b : BypassSt) (evs : List (Ev ℚ)) :
    (bypassStep c b evs).2.nFrames = if ∃ x ∈ evs, x.ty = .up then
      (if b.nFrames + 1 < c.minFrames then b.nFrames + 1 else 0) else b.nFrames := by
  unfold bypassStep
  by_cases hu : ∃ x ∈ evs, x.ty = .up
  · obtain ⟨x, hx, ht⟩ := hu
    rw [if_pos (List.any_eq_true.mpr ⟨x, hx, by simpa using ht⟩), if_pos ⟨x, hx, ht⟩]
    simp only [bypassOf_notSeq hc]
    by_cases hn : b.nFrames + 1 < c.minFrames
    · have : ((evs.map fun e => (⟨e.node, e.ty, decide (e.ty = .up ∧ b.nFrames + 1 < c.minFrames)⟩ : OutEv)).all fun o =>
          if o.ty = .up then o.bypass else true) = true := by
        rw [List.all_eq_true]
        intro o ho
        obtain ⟨z, -, rfl⟩ := List.mem_map.mp ho
        by_cases hz : z.ty = .up <;> simp [hz, hn]
      rw [if_pos this, if_pos hn]
    · have : ¬ ((evs.map fun e => (⟨e.node, e.ty, decide (e.ty = .up ∧ b.nFrames + 1 < c.minFrames)⟩ : OutEv)).all fun o =>
          if o.ty = .up then o.bypass else true) = true := by
        rw [List.all_eq_true]
        intro h
        have := h _ (List.mem_map_of_mem hx)
        simp [ht, hn] at this
      rw [if_neg this, if_neg hn]
  · have : ¬ (evs.any fun e => decide (e.ty = .up)) = true := by
      intro h
      obtain ⟨x, hx, ht⟩ := List.any_eq_true.mp h
      exact hu ⟨x, hx, by simpa using ht⟩
    rw [if_neg this, if_neg hu]

theorem subGroups_works {n : Nat} {l m : List (ℚ × List (Ev ℚ))} (h : List.Forall₂ (SubGroup n) l m) {c c' : BypassCfg}
    (hc : c.seq = false) (hc' : c'.seq = false) (hm : c.minFrames = c'.minFrames) {b b' : BypassSt}
    (hb : b.nFrames = b'.nFrames) :
    List.Forall₂ (SubWork n) ((runBypass c b l).map workOf) ((runBypass c' b' m).map workOf) := by
  induction h generalizing b b' with
  | nil => exact .nil
  | cons h1 _ ih =>
    rw [runBypass, runBypass, List.map_cons, List.map_cons]
    refine .cons (subGroup_work h1 hc hc' hm hb) (ih ?_)
    rw [bypassStep_notSeq hc, bypassStep_notSeq hc', hb, hm]
    simp only [h1.any .up (by decide)]

theorem subGroups {n : Nat} {l m : List (ℚ × List (Ev ℚ))} (hl : (l.map (·.1)).Pairwise (· < ·))
    (hm : (m.map (·.1)).Pairwise (· < ·))
    (h : ∀ t, ∀ k < n, ∀ ty, ty ≠ .tr → ((∃ e ∈ l, e.1 = t ∧ ∃ x ∈ e.2, x.node = k ∧ x.ty = ty) ↔
      ∃ e ∈ m, e.1 = t ∧ ∃ x ∈ e.2, x.node = k ∧ x.ty = ty))
    (ha : ∀ t ty, ty ≠ .tr → ((∃ e ∈ l, e.1 = t ∧ ∃ x ∈ e.2, x.ty = ty) ↔ ∃ e ∈ m, e.1 = t ∧ ∃ x ∈ e.2, x.ty = ty)) :
    List.Forall₂ (SubGroup n) (l.filter otherThanTr) (m.filter otherThanTr) := by
  have hsub : ∀ {l m : List (ℚ × List (Ev ℚ))},
      (∀ t ty, ty ≠ .tr → ((∃ e ∈ l, e.1 = t ∧ ∃ x ∈ e.2, x.ty = ty) ↔ ∃ e ∈ m, e.1 = t ∧ ∃ x ∈ e.2, x.ty = ty)) →
      ∀ t ∈ (l.filter otherThanTr).map (·.1), t ∈ (m.filter otherThanTr).map (·.1) := by
    intro l m h t ht
    obtain ⟨e, he, rfl⟩ := List.mem_map.mp ht
    obtain ⟨he, ho⟩ := List.mem_filter.mp he
    obtain ⟨x, hx, hx2⟩ := List.any_eq_true.mp ho
    obtain ⟨f, hf, h1, y, hy, hy2⟩ := (h e.1 x.ty (by simpa using hx2)).mp ⟨e, he, rfl, x, hx, rfl⟩
    refine List.mem_map.mpr ⟨f, List.mem_filter.mpr ⟨hf, List.any_eq_true.mpr ⟨y, hy, ?_⟩⟩, h1⟩
    rw [hy2]
    exact hx2
  have hsl : ((l.filter otherThanTr).map (·.1)).Pairwise (· < ·) := hl.sublist (List.filter_sublist.map _)
  have hsm : ((m.filter otherThanTr).map (·.1)).Pairwise (· < ·) := hm.sublist (List.filter_sublist.map _)
  have heq : (l.filter otherThanTr).map (·.1) = (m.filter otherThanTr).map (·.1) :=
    sorted_ext hsl hsm fun t => ⟨hsub ha t, hsub (fun t ty hty => (ha t ty hty).symm) t⟩
  have huniq : ∀ {l : List (ℚ × List (Ev ℚ))}, (l.map (·.1)).Pairwise (· < ·) → ∀ e ∈ l, ∀ f ∈ l,
      e.1 = f.1 → e = f := fun hl e he f hf hef => List.inj_on_of_nodup_map (hl.imp fun h => ne_of_lt h) he hf hef
  rw [List.forall₂_iff_get]
  have hlen : (l.filter otherThanTr).length = (m.filter otherThanTr).length := by
    simpa using congrArg List.length heq
  refine ⟨hlen, fun i h1 h2 => ?_⟩
  have ht : ((l.filter otherThanTr).get ⟨i, h1⟩).1 = ((m.filter otherThanTr).get ⟨i, h2⟩).1 := by
    have := List.getElem_of_eq heq (i := i) (by simpa using h1)
    simpa using this
  have hil := (List.mem_filter.mp (List.get_mem (l.filter otherThanTr) ⟨i, h1⟩)).1
  have him := (List.mem_filter.mp (List.get_mem (m.filter otherThanTr) ⟨i, h2⟩)).1
  refine ⟨ht, fun k hk ty hty => ?_, fun ty hty => ?_⟩
  · constructor
    · intro hx
      obtain ⟨f, hf, hf1, hf2⟩ := (h _ k hk ty hty).mp ⟨_, hil, rfl, hx⟩
      rw [ht] at hf1
      rw [← huniq hm f hf _ him hf1]
      exact hf2
    · intro hx
      obtain ⟨f, hf, hf1, hf2⟩ := (h _ k hk ty hty).mpr ⟨_, him, rfl, hx⟩
      rw [← ht] at hf1
      rw [← huniq hl f hf _ hil hf1]
      exact hf2
  · constructor
    · intro hx
      obtain ⟨f, hf, hf1, hf2⟩ := (ha _ ty hty).mp ⟨_, hil, rfl, hx⟩
      rw [ht] at hf1
      rw [← huniq hm f hf _ him hf1]
      exact hf2
    · intro hx
      obtain ⟨f, hf, hf1, hf2⟩ := (ha _ ty hty).mpr ⟨_, him, rfl, hx⟩
      rw [← ht] at hf1
      rw [← huniq hl f hf _ hil hf1]
      exact hf2

/-- Two schedules of nodes that all fuse, send, relay at the times `ex` and update at the times `up`: `p` nodes in the one,
`n ≤ p` in the other. -/
theorem built_subWorks {n p : Nat} (hn : 0 < n) (hnp : n ≤ p) {up ex : List ℚ} (hex : ex ≠ []) {s s' : Nat} {minF : Int}
    {tr tr' : List (List ℚ) × List (List Level)} {out out' : List (Instant ℚ)}
    (h : buildEvents (tiArgs (List.replicate p up) (List.replicate p ex) false s minF tr) = .ok out)
    (h' : buildEvents (tiArgs (List.replicate n up) (List.replicate n ex) false s' minF tr') = .ok out')
    (hc : ∀ o ∈ tr.2, CoversNodes p o) (hc' : ∀ o ∈ tr'.2, CoversNodes n o) :
    List.Forall₂ (SubWork n) (worksOf out) (worksOf out') := by
  have c1 : ∀ o ∈ (tiArgs (List.replicate p up) (List.replicate p ex) false s minF tr).orderings,
      CoversNodes (tiArgs (List.replicate p up) (List.replicate p ex) false s minF tr).up_t.length o := by
    simpa [tiArgs] using hc
  have c2 : ∀ o ∈ (tiArgs (List.replicate n up) (List.replicate n ex) false s' minF tr').orderings,
      CoversNodes (tiArgs (List.replicate n up) (List.replicate n ex) false s' minF tr').up_t.length o := by
    simpa [tiArgs] using hc'
  obtain ⟨evss, he, _⟩ := buildEvents_run h fun _ => c1
  obtain ⟨evss', he', _⟩ := buildEvents_run h' fun _ => c2
  obtain ⟨h1, _, _, h2⟩ := C01_exactly_once h fun _ => c1
  obtain ⟨h1', _, _, h2'⟩ := C01_exactly_once h' fun _ => c2
  have key : ∀ (l : List (ℚ × List (Ev ℚ))) t k ty, (∃ e ∈ l, e.1 = t ∧ ∃ x ∈ e.2, x.node = k ∧ x.ty = ty) ↔
      (t, k, ty) ∈ l.flatMap fun e => e.2.map fun x => (e.1, x.node, x.ty) := by
    intro l t k ty
    simp only [List.mem_flatMap, List.mem_map, Prod.mk.injEq]
    constructor
    · rintro ⟨e, he, h1, x, hx, h2, h3⟩
      exact ⟨e, he, x, hx, h1, h2, h3⟩
    · rintro ⟨e, he, x, hx, h1, h2, h3⟩
      exact ⟨e, he, h1, x, hx, h2, h3⟩
  let T : EvType → List ℚ := fun ty => if ty = .up then up else ex
  have hti : ∀ q, 0 < q → ∀ s tr, (tiArgs (List.replicate q up) (List.replicate q ex) false s minF tr).tiFlag = true := by
    intro q hq s tr
    have hl : 0 < ex.length := List.length_pos_of_ne_nil hex
    unfold EvArgs.tiFlag tiArgs
    simp [hl, hq.ne']
  have sch : ∀ q s tr ti, ti = true → ∀ t k ty, ty ≠ .tr →
      (Scheduled (tiArgs (List.replicate q up) (List.replicate q ex) false s minF tr) ti t k ty ↔ k < q ∧ t ∈ T ty) := by
    intro q s tr ti hti t k ty hty
    have hr : ∀ l : List ℚ, k < q → ((∃ ts, (List.replicate q l)[k]? = some ts ∧ t ∈ ts) ↔ t ∈ l) := by
      intro l hk
      rw [List.getElem?_replicate_of_lt hk]
      simp
    unfold Scheduled
    subst hti
    have hlen : (tiArgs (List.replicate q up) (List.replicate q ex) false s minF tr).up_t.length = q := by simp [tiArgs]
    rw [hlen]
    refine and_congr_right fun hk => ?_
    cases ty with
    | tr => exact absurd rfl hty
    | up => exact hr up hk
    | bc => exact hr ex hk
    | fu => exact (and_iff_right rfl).trans (hr ex hk)
    | re => exact (and_iff_right rfl).trans (hr ex hk)
  have m1 : ∀ t k ty, ty ≠ .tr → ((∃ e ∈ evss, e.1 = t ∧ ∃ x ∈ e.2, x.node = k ∧ x.ty = ty) ↔ k < p ∧ t ∈ T ty) := by
    intro t k ty hty
    have a1 := h2 t k ty
    rw [he, delivered_runBypass] at a1
    rw [key, a1]
    exact sch p s tr _ (hti p (by omega) s tr) t k ty hty
  have m2 : ∀ t k ty, ty ≠ .tr → ((∃ e ∈ evss', e.1 = t ∧ ∃ x ∈ e.2, x.node = k ∧ x.ty = ty) ↔ k < n ∧ t ∈ T ty) := by
    intro t k ty hty
    have a1 := h2' t k ty
    rw [he', delivered_runBypass] at a1
    rw [key, a1]
    exact sch n s' tr' _ (hti n hn s' tr') t k ty hty
  have any : ∀ (l : List (ℚ × List (Ev ℚ))) t ty, (∃ e ∈ l, e.1 = t ∧ ∃ x ∈ e.2, x.ty = ty) ↔
      ∃ k, ∃ e ∈ l, e.1 = t ∧ ∃ x ∈ e.2, x.node = k ∧ x.ty = ty := by
    intro l t ty
    constructor
    · rintro ⟨e, he, h1, x, hx, h2⟩
      exact ⟨x.node, e, he, h1, x, hx, rfl, h2⟩
    · rintro ⟨_, e, he, h1, x, hx, -, h2⟩
      exact ⟨e, he, h1, x, hx, h2⟩
  rw [he, he', worksOf_runBypass, worksOf_runBypass]
  rw [he, runBypass_times] at h1
  rw [he', runBypass_times] at h1'
  refine subGroups_works (subGroups h1 h1' (fun t k hk ty hty => ?_) fun t ty hty => ?_) ?_ ?_ ?_ ?_
  · rw [m1 t k ty hty, m2 t k ty hty]
    exact and_congr_left fun _ => ⟨fun _ => hk, fun _ => by omega⟩
  · rw [any, any]
    simp only [m1 t _ ty hty, m2 t _ ty hty]
    exact ⟨fun ⟨_, _, h⟩ => ⟨0, hn, h⟩, fun ⟨_, _, h⟩ => ⟨0, by omega, h⟩⟩
  all_goals rfl

/-! ## A run without its last node -/

section
variable {n : Nat} {K : Type} [Field K] [StarRing K] [DecidableEq K] {g : GivenCfg K} {y : Fin (n + 1) → List (List K)}

/-- The state of a network without that of its last node. -/
def TIView.dropLast (a : TIView (n + 1) K) : TIView n K :=
  ⟨fun k => a.node k.castSucc, fun k => a.buf k.castSucc, fun k => a.frame k.castSucc, fun k => a.eta k.castSucc⟩

theorem sumOthers_dropLast {N : Nat} {fr : Fin (n + 1) → List K} (h : Silent (fr (Fin.last n))) (k : Fin n) :
    sumOthers N fr k.castSucc = sumOthers N (fun q : Fin n => fr q.castSucc) k := by
  unfold sumOthers
  refine List.map_congr_left fun t _ => ?_
  rw [Finset.sum_erase_eq_sub (Finset.mem_univ _), Finset.sum_erase_eq_sub (Finset.mem_univ _), Fin.sum_univ_castSucc,
    silent_at0 h, add_zero]

theorem directStep_dropLast {U : TIStrategy (n + 1) K} {U' : TIStrategy n K}
    (hU : ∀ k : Fin n, U'.rows k = U.rows k.castSucc ∧ U'.started k = U.started k.castSucc)
    (hy : ∀ ch ∈ y (Fin.last n), Silent ch) {w w' : Work} (hw : SubWork n w w') {a b : TIView (n + 1) K}
    (h : DirectStep g U y w a b) (ha : a.SilentAt (Fin.last n)) :
    DirectStep g U' (withoutLast y) w' a.dropLast b.dropLast := by
  obtain ⟨m, h1, e1, e2, e3, h2⟩ := h
  obtain ⟨w1, w2, w3⟩ := hw
  refine ⟨m.dropLast, ?_, ?_⟩
  · rw [← w2]
    by_cases hx : w.exchange = true
    · rw [if_pos hx] at h1 ⊢
      intro k
      obtain ⟨p1, p2, p3⟩ := h1 k.castSucc
      rw [← w1]
      refine ⟨p1, p2, ?_⟩
      change m.eta k.castSucc = _
      rw [p3, sumOthers_dropLast (directExchange_silent hy h1 ha).2]
      rfl
    · rw [if_neg hx] at h1 ⊢
      rw [h1]
  · refine ⟨?_, ?_, ?_, fun k => ?_⟩
    · unfold TIView.dropLast; rw [e1]
    · unfold TIView.dropLast; rw [e2]
    · unfold TIView.dropLast; rw [e3]
    · have h3 := h2 k.castSucc
      have hk : w.ups k.castSucc.val = w'.ups k.val := w3 k.val k.isLt
      rw [hk, w1] at h3
      rw [(hU k).1, (hU k).2]
      exact h3

theorem directRun_dropLast {U : TIStrategy (n + 1) K} {U' : TIStrategy n K}
    (hU : ∀ k : Fin n, U'.rows k = U.rows k.castSucc ∧ U'.started k = U.started k.castSucc)
    (hy : ∀ ch ∈ y (Fin.last n), Silent ch) {ws ws' : List Work} (hw : List.Forall₂ (SubWork n) ws ws')
    {a b : TIView (n + 1) K} (h : DirectRun g U y a ws b) (ha : a.SilentAt (Fin.last n)) :
    DirectRun g U' (withoutLast y) a.dropLast ws' b.dropLast := by
  induction h generalizing ws' with
  | nil => cases hw; exact .nil _
  | cons h1 _ ih =>
    cases hw with
    | cons w1 w2 => exact .cons (directStep_dropLast hU hy w1 h1 ha) (ih w2 (directStep_silent hy h1 ha))

end
end Danse
