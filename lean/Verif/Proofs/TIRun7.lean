import Verif.Proofs.TIRun6
import Verif.Proofs.Sched
import Verif.Proofs.Events4
import Verif.Props.Events

/-!
# Helper lemmas: the trees have no influence on the work of a schedule
-/

set_option linter.unusedSectionVars false

namespace Danse

/-- Two groups of events that are the same but for their order and their tree formations. -/
def SameGroup (e f : ℚ × List (Ev ℚ)) : Prop :=
  e.1 = f.1 ∧ ∀ k ty, ty ≠ .tr → ((∃ x ∈ e.2, x.node = k ∧ x.ty = ty) ↔ ∃ x ∈ f.2, x.node = k ∧ x.ty = ty)

/-- An event other than the formation of a tree. -/
def otherThanTr (e : ℚ × List (Ev ℚ)) : Bool := e.2.any fun x => decide (x.ty ≠ .tr)

theorem bypassStep_noUp {c : BypassCfg} {b : BypassSt} {evs : List (Ev ℚ)} (h : ∀ x ∈ evs, x.ty = .tr) :
    bypassStep c b evs = (evs.map fun e => ⟨e.node, e.ty, false⟩, b) := by
  unfold bypassStep
  rw [if_neg]
  simp only [List.any_eq_true, decide_eq_true_eq, not_exists, not_and]
  intro x hx h2
  rw [h x hx] at h2
  cases h2

/-- Whether some event of an instant has a property of its node and type. -/
theorem bypassStep_any (c : BypassCfg) (b : BypassSt) (evs : List (Ev ℚ)) (p : Nat → EvType → Bool) :
    ((bypassStep c b evs).1.any fun o => p o.node o.ty) = evs.any fun e => p e.node e.ty := by
  have := congrArg (fun l : List (Nat × EvType) => l.any fun q => p q.1 q.2) (bypassStep_keys c b evs)
  simpa [List.any_map, Function.comp_def] using this

theorem worksOf_runBypass (c : BypassCfg) (b : BypassSt) (evss : List (ℚ × List (Ev ℚ))) :
    worksOf (runBypass c b evss) = (runBypass c b (evss.filter otherThanTr)).map workOf := by
  induction evss generalizing b with
  | nil => rfl
  | cons e r ih =>
    have hany := bypassStep_any c b e.2 (fun _ ty => decide (ty ≠ .tr))
    by_cases ho : otherThanTr e = true
    · rw [List.filter_cons_of_pos ho]
      unfold worksOf at ih ⊢
      rw [runBypass, List.filter_cons_of_pos, List.map_cons, ih]
      · rfl
      · rw [hany]; exact ho
    · have hn : ∀ x ∈ e.2, x.ty = .tr := by
        intro x hx
        by_contra hne
        exact ho (List.any_eq_true.mpr ⟨x, hx, by simpa using hne⟩)
      rw [List.filter_cons_of_neg ho]
      unfold worksOf at ih ⊢
      rw [runBypass, List.filter_cons_of_neg, ih, bypassStep_noUp hn]
      rw [hany]
      exact ho

/-- Membership by node and type decides which updates an instant has. -/
theorem find_up (c : BypassCfg) (b : BypassSt) (evs : List (Ev ℚ)) (k : Nat) :
    ((bypassStep c b evs).1.find? fun e => decide (e.ty = .up ∧ e.node = k)).map (·.bypass) =
      if ∃ x ∈ evs, x.node = k ∧ x.ty = .up then
        some (bypassOf c b.lastUpNode (b.nFrames + 1) (⟨0, k, .up⟩ : Ev ℚ)) else none := by
  by_cases hu : ∃ x ∈ evs, x.node = k ∧ x.ty = .up
  · rw [if_pos hu]
    obtain ⟨x, hx, hxn, hxt⟩ := hu
    have hs : bypassStep c b evs = (evs.map fun e => ⟨e.node, e.ty, bypassOf c b.lastUpNode (b.nFrames + 1) e⟩,
        (bypassStep c b evs).2) := by
      unfold bypassStep
      rw [if_pos (List.any_eq_true.mpr ⟨x, hx, by simpa using hxt⟩)]
    rw [hs]
    simp only
    cases hf : (evs.map fun e => (⟨e.node, e.ty, bypassOf c b.lastUpNode (b.nFrames + 1) e⟩ : OutEv)).find?
        fun e => decide (e.ty = .up ∧ e.node = k) with
    | none =>
      rw [List.find?_eq_none] at hf
      have := hf _ (List.mem_map_of_mem hx)
      simp [hxn, hxt] at this
    | some o =>
      have h1 := List.mem_of_find?_eq_some hf
      have h2 := List.find?_some hf
      obtain ⟨e, _, rfl⟩ := List.mem_map.mp h1
      simp only [decide_eq_true_eq] at h2
      simp only [Option.map_some, Option.some.injEq]
      unfold bypassOf
      simp only [h2.1, h2.2]
  · rw [if_neg hu, Option.map_eq_none_iff, List.find?_eq_none]
    intro o ho h2
    simp only [decide_eq_true_eq] at h2
    have hk := bypassStep_keys c b evs
    have : (o.node, o.ty) ∈ evs.map fun e => (e.node, e.ty) := by
      rw [← hk]; exact List.mem_map_of_mem ho
    obtain ⟨x, hx, hxe⟩ := List.mem_map.mp this
    injection hxe with e1 e2
    exact hu ⟨x, hx, by rw [e1, h2.2], by rw [e2, h2.1]⟩

theorem sameGroup_work {e f : ℚ × List (Ev ℚ)} (h : SameGroup e f) (c : BypassCfg) (b : BypassSt) :
    workOf ⟨e.1, (bypassStep c b e.2).1⟩ = workOf ⟨f.1, (bypassStep c b f.2).1⟩ := by
  obtain ⟨h1, h2⟩ := h
  have hx : ∀ ty, ty ≠ .tr → (e.2.any fun x => decide (x.ty = ty)) = f.2.any fun x => decide (x.ty = ty) := by
    intro ty hty
    rw [Bool.eq_iff_iff]
    simp only [List.any_eq_true, decide_eq_true_eq]
    constructor
    · rintro ⟨x, hx, rfl⟩
      obtain ⟨y, hy, _, hy2⟩ := (h2 x.node x.ty hty).mp ⟨x, hx, rfl, rfl⟩
      exact ⟨y, hy, hy2⟩
    · rintro ⟨x, hx, rfl⟩
      obtain ⟨y, hy, _, hy2⟩ := (h2 x.node x.ty hty).mpr ⟨x, hx, rfl, rfl⟩
      exact ⟨y, hy, hy2⟩
  unfold workOf
  have e1 := bypassStep_any c b e.2 (fun _ ty => decide (ty = .fu))
  have e2 := bypassStep_any c b f.2 (fun _ ty => decide (ty = .fu))
  simp only [Work.mk.injEq]
  refine ⟨h1, ?_, ?_⟩
  · rw [e1, e2, hx .fu (by decide)]
  · funext k
    rw [find_up, find_up]
    simp only [h2 k .up (by decide)]

theorem sameGroup_state {e f : ℚ × List (Ev ℚ)} (h : SameGroup e f) (c : BypassCfg) (b : BypassSt) :
    (bypassStep c b e.2).2 = (bypassStep c b f.2).2 := by
  obtain ⟨_, h2⟩ := h
  have hup : ∀ p : Nat → Prop, (∃ x ∈ e.2, x.ty = .up ∧ p x.node) ↔ ∃ x ∈ f.2, x.ty = .up ∧ p x.node := by
    intro p
    constructor
    · rintro ⟨x, hx, ht, hp⟩
      obtain ⟨y, hy, hy1, hy2⟩ := (h2 x.node .up (by decide)).mp ⟨x, hx, rfl, ht⟩
      exact ⟨y, hy, hy2, by rw [hy1]; exact hp⟩
    · rintro ⟨x, hx, ht, hp⟩
      obtain ⟨y, hy, hy1, hy2⟩ := (h2 x.node .up (by decide)).mpr ⟨x, hx, rfl, ht⟩
      exact ⟨y, hy, hy2, by rw [hy1]; exact hp⟩
  have hlast : ∀ nf, lastUpdated c b.lastUpNode nf e.2 = lastUpdated c b.lastUpNode nf f.2 := by
    intro nf
    by_cases hseq : c.seq = true
    · rw [lastUpdated_eq c hseq, lastUpdated_eq c hseq]
      have := hup (fun k => (k : Int) = (b.lastUpNode + 1) % (c.nNodes : Int))
      simp only [this]
    · have hc : ∀ evs : List (Ev ℚ), lastUpdated c b.lastUpNode nf evs = b.lastUpNode := by
        intro evs
        unfold lastUpdated
        induction evs with
        | nil => rfl
        | cons a l ih =>
          rw [List.foldl_cons]
          simp only [if_neg hseq, ite_self] at ih ⊢
          exact ih
      rw [hc, hc]
  have hall : ∀ nf, ((e.2.map fun x => (⟨x.node, x.ty, bypassOf c b.lastUpNode nf x⟩ : OutEv)).all fun o =>
      if o.ty = .up then o.bypass else true) =
      (f.2.map fun x => (⟨x.node, x.ty, bypassOf c b.lastUpNode nf x⟩ : OutEv)).all fun o =>
      if o.ty = .up then o.bypass else true := by
    intro nf
    have hq : ∀ evs : List (Ev ℚ),
        ((evs.map fun x => (⟨x.node, x.ty, bypassOf c b.lastUpNode nf x⟩ : OutEv)).all fun o =>
          if o.ty = .up then o.bypass else true) = true ↔
        ¬ ∃ x ∈ evs, x.ty = .up ∧ bypassOf c b.lastUpNode nf (⟨0, x.node, .up⟩ : Ev ℚ) = false := by
      intro evs
      rw [List.all_eq_true]
      constructor
      · rintro h ⟨x, hx, ht, hb⟩
        have := h _ (List.mem_map_of_mem hx)
        simp only [ht, if_true] at this
        unfold bypassOf at this hb
        simp only [ht] at this
        simp only at hb
        rw [this] at hb
        cases hb
      · intro h o ho
        obtain ⟨x, hx, rfl⟩ := List.mem_map.mp ho
        by_cases ht : x.ty = .up
        · simp only [ht, if_true]
          by_contra hb
          refine h ⟨x, hx, ht, ?_⟩
          simp only [Bool.not_eq_true] at hb
          rw [← hb]
          unfold bypassOf
          simp only [ht]
        · simp only [ht, if_false]
    rw [Bool.eq_iff_iff, hq, hq, hup fun k => bypassOf c b.lastUpNode nf (⟨0, k, .up⟩ : Ev ℚ) = false]
  have hany : (e.2.any fun x => decide (x.ty = .up)) = f.2.any fun x => decide (x.ty = .up) := by
    rw [Bool.eq_iff_iff]
    simpa using hup fun _ => True
  unfold bypassStep
  by_cases hu : (f.2.any fun x => decide (x.ty = .up)) = true
  · rw [if_pos (by rw [hany]; exact hu), if_pos hu]
    simp only [hlast, hall]
  · rw [if_neg (by rw [hany]; exact hu), if_neg hu]

theorem sameGroups_works {l m : List (ℚ × List (Ev ℚ))} (h : List.Forall₂ SameGroup l m) (c : BypassCfg)
    (b : BypassSt) : (runBypass c b l).map workOf = (runBypass c b m).map workOf := by
  induction h generalizing b with
  | nil => rfl
  | cons h1 _ ih =>
    rw [runBypass, runBypass, List.map_cons, List.map_cons, sameGroup_work h1, sameGroup_state h1, ih]

theorem runBypass_times (c : BypassCfg) (b : BypassSt) (l : List (ℚ × List (Ev ℚ))) :
    (runBypass c b l).map (·.t) = l.map (·.1) := by
  induction l generalizing b with
  | nil => rfl
  | cons e r ih => rw [runBypass, List.map_cons, List.map_cons, ih]

theorem delivered_runBypass (c : BypassCfg) (b : BypassSt) (l : List (ℚ × List (Ev ℚ))) :
    delivered (runBypass c b l) = l.flatMap fun e => e.2.map fun x => (e.1, x.node, x.ty) := by
  induction l generalizing b with
  | nil => rfl
  | cons e r ih =>
    rw [runBypass, List.flatMap_cons, ← ih (bypassStep c b e.2).2]
    unfold delivered
    rw [List.flatMap_cons]
    congr 1
    have := congrArg (fun l : List (Nat × EvType) => l.map fun q => (e.1, q.1, q.2)) (bypassStep_keys c b e.2)
    simpa [List.map_map, Function.comp_def] using this

/-- Sorted groups with the same events, tree formations left out. -/
theorem sameGroups {l m : List (ℚ × List (Ev ℚ))} (hl : (l.map (·.1)).Pairwise (· < ·))
    (hm : (m.map (·.1)).Pairwise (· < ·))
    (h : ∀ t k ty, ty ≠ .tr → ((∃ e ∈ l, e.1 = t ∧ ∃ x ∈ e.2, x.node = k ∧ x.ty = ty) ↔
      ∃ e ∈ m, e.1 = t ∧ ∃ x ∈ e.2, x.node = k ∧ x.ty = ty)) :
    List.Forall₂ SameGroup (l.filter otherThanTr) (m.filter otherThanTr) := by
  have hsub : ∀ {l m : List (ℚ × List (Ev ℚ))},
      (∀ t k ty, ty ≠ .tr → ((∃ e ∈ l, e.1 = t ∧ ∃ x ∈ e.2, x.node = k ∧ x.ty = ty) ↔
      ∃ e ∈ m, e.1 = t ∧ ∃ x ∈ e.2, x.node = k ∧ x.ty = ty)) →
      ∀ t ∈ (l.filter otherThanTr).map (·.1), t ∈ (m.filter otherThanTr).map (·.1) := by
    intro l m h t ht
    obtain ⟨e, he, rfl⟩ := List.mem_map.mp ht
    obtain ⟨he, ho⟩ := List.mem_filter.mp he
    obtain ⟨x, hx, hx2⟩ := List.any_eq_true.mp ho
    obtain ⟨f, hf, h1, y, hy, _, hy2⟩ := (h e.1 x.node x.ty (by simpa using hx2)).mp ⟨e, he, rfl, x, hx, rfl, rfl⟩
    refine List.mem_map.mpr ⟨f, List.mem_filter.mpr ⟨hf, List.any_eq_true.mpr ⟨y, hy, ?_⟩⟩, h1⟩
    rw [hy2]
    exact hx2
  have hsl : ((l.filter otherThanTr).map (·.1)).Pairwise (· < ·) :=
    hl.sublist (List.filter_sublist.map _)
  have hsm : ((m.filter otherThanTr).map (·.1)).Pairwise (· < ·) :=
    hm.sublist (List.filter_sublist.map _)
  have heq : (l.filter otherThanTr).map (·.1) = (m.filter otherThanTr).map (·.1) :=
    sorted_ext hsl hsm fun t => ⟨hsub h t, hsub (fun t k ty hty => (h t k ty hty).symm) t⟩
  have huniq : ∀ {l : List (ℚ × List (Ev ℚ))}, (l.map (·.1)).Pairwise (· < ·) → ∀ e ∈ l, ∀ f ∈ l,
      e.1 = f.1 → e = f := fun hl e he f hf hef => List.inj_on_of_nodup_map (hl.imp fun h => ne_of_lt h) he hf hef
  rw [List.forall₂_iff_get]
  have hlen : (l.filter otherThanTr).length = (m.filter otherThanTr).length := by
    simpa using congrArg List.length heq
  refine ⟨hlen, fun i h1 h2 => ?_⟩
  have ht : ((l.filter otherThanTr).get ⟨i, h1⟩).1 = ((m.filter otherThanTr).get ⟨i, h2⟩).1 := by
    have := List.getElem_of_eq heq (i := i) (by simpa using h1)
    simpa using this
  have hil := (List.mem_filter.mp (List.get_mem (l.filter otherThanTr) ⟨i, h1⟩)).1
  have him := (List.mem_filter.mp (List.get_mem (m.filter otherThanTr) ⟨i, h2⟩)).1
  refine ⟨ht, fun k ty hty => ?_⟩
  constructor
  · intro hx
    obtain ⟨f, hf, hf1, hf2⟩ := (h _ k ty hty).mp ⟨_, hil, rfl, hx⟩
    rw [ht] at hf1
    rw [← huniq hm f hf _ him hf1]
    exact hf2
  · intro hx
    obtain ⟨f, hf, hf1, hf2⟩ := (h _ k ty hty).mpr ⟨_, him, rfl, hx⟩
    rw [← ht] at hf1
    rw [← huniq hl f hf _ hil hf1]
    exact hf2

/-- Two schedules built from the same times but for the tree formations ask for the same work. -/
theorem built_works {a : EvArgs ℚ} {tr : List (List ℚ)} {ord : List (List Level)} {out out' : List (Instant ℚ)}
    (h : buildEvents a = .ok out) (h' : buildEvents { a with tr_t := tr, orderings := ord } = .ok out')
    (hc : ∀ o ∈ a.orderings, CoversNodes a.up_t.length o) (hc' : ∀ o ∈ ord, CoversNodes a.up_t.length o) :
    worksOf out = worksOf out' := by
  obtain ⟨evss, he, _⟩ := buildEvents_run h fun _ => hc
  obtain ⟨evss', he', _⟩ := buildEvents_run h' fun _ => hc'
  obtain ⟨h1, _, _, h2⟩ := C01_exactly_once h fun _ => hc
  obtain ⟨h1', _, _, h2'⟩ := C01_exactly_once h' fun _ => hc'
  rw [he, he', worksOf_runBypass, worksOf_runBypass]
  rw [he, runBypass_times] at h1
  rw [he', runBypass_times] at h1'
  refine sameGroups_works (sameGroups h1 h1' fun t k ty hty => ?_) _ _
  have key : ∀ l : List (ℚ × List (Ev ℚ)), (∃ e ∈ l, e.1 = t ∧ ∃ x ∈ e.2, x.node = k ∧ x.ty = ty) ↔
      (t, k, ty) ∈ l.flatMap fun e => e.2.map fun x => (e.1, x.node, x.ty) := by
    intro l
    simp only [List.mem_flatMap, List.mem_map, Prod.mk.injEq]
    constructor
    · rintro ⟨e, he, h1, x, hx, h2, h3⟩
      exact ⟨e, he, x, hx, h1, h2, h3⟩
    · rintro ⟨e, he, x, hx, h1, h2, h3⟩
      exact ⟨e, he, h1, x, hx, h2, h3⟩
  have a1 := h2 t k ty
  have a2 := h2' t k ty
  rw [he, delivered_runBypass] at a1
  rw [he', delivered_runBypass] at a2
  rw [key, key, a1, a2]
  unfold Scheduled
  have hti : ({ a with tr_t := tr, orderings := ord } : EvArgs ℚ).tiFlag = a.tiFlag := rfl
  rw [hti]
  cases ty with
  | tr => exact absurd rfl hty
  | _ => rfl

end Danse
