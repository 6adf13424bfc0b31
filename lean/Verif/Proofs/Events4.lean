import Mathlib.Data.List.Induction
import Verif.Proofs.Events3

set_option linter.unusedSectionVars false

/-! # Lemmas on the bypass logic (helper file) -/

namespace Danse
section
variable {τ : Type} [LinearOrder τ]

/-- State of the bypass logic after a list of instants. -/
def stateAfter (c : BypassCfg) (b : BypassSt) (evss : List (τ × List (Ev τ))) : BypassSt :=
  evss.foldl (fun b g => (bypassStep c b g.2).2) b

theorem runBypass_append (c : BypassCfg) (b : BypassSt) (l1 l2 : List (τ × List (Ev τ))) :
    runBypass c b (l1 ++ l2) = runBypass c b l1 ++ runBypass c (stateAfter c b l1) l2 := by
  induction l1 generalizing b with
  | nil => rfl
  | cons g r ih => simp [runBypass, ih, stateAfter]

theorem runBypass_length (c : BypassCfg) (b : BypassSt) (l : List (τ × List (Ev τ))) :
    (runBypass c b l).length = l.length := by
  induction l generalizing b with
  | nil => rfl
  | cons g r ih => simp [runBypass, ih]

theorem runBypass_split {c : BypassCfg} {b : BypassSt} {evss : List (τ × List (Ev τ))}
    {pre post : List (Instant τ)} {i : Instant τ} (h : runBypass c b evss = pre ++ i :: post) :
    ∃ l1 g l2, evss = l1 ++ g :: l2 ∧ pre = runBypass c b l1 ∧
      i = ⟨g.1, (bypassStep c (stateAfter c b l1) g.2).1⟩ := by
  have hlen := congrArg List.length h
  rw [runBypass_length] at hlen
  simp only [List.length_append, List.length_cons] at hlen
  have hsplit : evss = evss.take pre.length ++ evss.drop pre.length := by simp
  have hd : evss.drop pre.length = evss[pre.length] :: evss.drop (pre.length + 1) := by
    rw [List.drop_eq_getElem_cons]
  rw [hd] at hsplit
  refine ⟨_, _, _, hsplit, ?_⟩
  rw [hsplit, runBypass_append] at h
  have hl : (runBypass c b (evss.take pre.length)).length = pre.length := by
    rw [runBypass_length, List.length_take]; omega
  obtain ⟨h1, h2⟩ := List.append_inj h hl
  refine ⟨h1.symm, ?_⟩
  simp only [runBypass, List.cons.injEq] at h2
  exact h2.1.symm

/-- Whether an instant's event list starts a frame. -/
def hasUp (evs : List (Ev τ)) : Bool := evs.any fun e => decide (e.ty = .up)

theorem bypassStep_hasUp (c : BypassCfg) (s : BypassSt) (evs : List (Ev τ)) :
    ((bypassStep c s evs).1.any fun e => decide (e.ty = .up)) = hasUp evs := by
  unfold bypassStep hasUp
  split <;> simp [List.any_map, Function.comp_def]

theorem performedAt_noUp (c : BypassCfg) (s : BypassSt) (t : τ) {evs : List (Ev τ)}
    (h : hasUp evs = false) :
    performedAt (⟨t, (bypassStep c s evs).1⟩ : Instant τ) = [] := by
  have h1 := bypassStep_hasUp c s evs
  rw [h] at h1
  unfold performedAt
  simp only [List.map_eq_nil_iff, List.filter_eq_nil_iff]
  intro e he
  rw [List.any_eq_false] at h1
  have := h1 e he
  simp only [decide_eq_true_eq] at this
  simp [this]

theorem performedAt_up (c : BypassCfg) (s : BypassSt) (t : τ) {evs : List (Ev τ)}
    (h : hasUp evs = true) :
    performedAt (⟨t, (bypassStep c s evs).1⟩ : Instant τ) =
      (evs.filter fun e => decide (e.ty = .up) &&
        !bypassOf c s.lastUpNode (s.nFrames + 1) e).map (·.node) := by
  unfold bypassStep
  have h' : (evs.any fun e => decide (e.ty = .up)) = true := h
  rw [if_pos h']
  unfold performedAt
  simp only [List.filter_map, List.map_map]
  rfl

theorem performedAt_isEmpty_iff (i : Instant τ) : (performedAt i).isEmpty =
    i.evs.all fun o => if o.ty = .up then o.bypass else true := by
  rw [Bool.eq_iff_iff]
  unfold performedAt
  simp only [List.isEmpty_iff, List.map_eq_nil_iff, List.filter_eq_nil_iff, List.all_eq_true]
  constructor
  · intro h o ho
    have := h o ho
    by_cases ht : o.ty = .up <;> simp_all
  · intro h o ho
    have := h o ho
    by_cases ht : o.ty = .up <;> simp_all

theorem step_nFrames (c : BypassCfg) (s : BypassSt) (t : τ) (evs : List (Ev τ)) :
    (bypassStep c s evs).2.nFrames =
      if hasUp evs then
        (if (performedAt (⟨t, (bypassStep c s evs).1⟩ : Instant τ)).isEmpty then s.nFrames + 1
         else 0)
      else s.nFrames := by
  rw [performedAt_isEmpty_iff]
  unfold bypassStep hasUp
  split <;> rfl

theorem framesSinceUpdate_snoc (l : List (Instant τ)) (i : Instant τ) :
    framesSinceUpdate (l ++ [i]) =
      if i.evs.any (fun e => decide (e.ty = .up)) then
        (if (performedAt i).isEmpty then framesSinceUpdate l + 1 else 0)
      else framesSinceUpdate l := by
  unfold framesSinceUpdate frameInstants
  rw [List.filter_append]
  by_cases h : i.evs.any (fun e => decide (e.ty = .up)) = true
  · rw [if_pos h]
    have : [i].filter (fun i => i.evs.any fun e => decide (e.ty = .up)) = [i] := by simp [h]
    rw [this, List.reverse_append]
    simp only [List.reverse_cons, List.reverse_nil, List.nil_append, List.singleton_append,
      List.takeWhile_cons]
    split <;> simp
  · rw [if_neg h]
    have : [i].filter (fun i => i.evs.any fun e => decide (e.ty = .up)) = [] := by simp [h]
    rw [this, List.append_nil]

theorem stateAfter_nFrames (c : BypassCfg) (l0 : Int) (evss : List (τ × List (Ev τ))) :
    (stateAfter c ⟨l0, 0⟩ evss).nFrames = framesSinceUpdate (runBypass c ⟨l0, 0⟩ evss) := by
  induction evss using List.reverseRecOn with
  | nil => rfl
  | append_singleton l g ih =>
    rw [runBypass_append]
    simp only [runBypass]
    rw [framesSinceUpdate_snoc]
    have hs : stateAfter c ⟨l0, 0⟩ (l ++ [g]) = (bypassStep c (stateAfter c ⟨l0, 0⟩ l) g.2).2 := by
      simp [stateAfter]
    rw [hs, step_nFrames c _ g.1, bypassStep_hasUp, ih]
    split
    · split <;> simp
    · rfl

/-- All filters of a list with at most one match are one-element. -/
theorem filter_unique {α : Type} {p : α → Bool} {l : List α} (hn : l.Nodup)
    (hu : ∀ x ∈ l, ∀ y ∈ l, p x = true → p y = true → x = y) {a : α} (ha : a ∈ l)
    (hp : p a = true) : l.filter p = [a] := by
  have h1 : ∀ x ∈ l.filter p, x = a := by
    intro x hx
    rw [List.mem_filter] at hx
    exact hu x hx.1 a ha hx.2 hp
  have h2 : (l.filter p).Nodup := hn.filter _
  have h3 : a ∈ l.filter p := List.mem_filter.mpr ⟨ha, hp⟩
  match hm : l.filter p with
  | [] => rw [hm] at h3; simp at h3
  | [x] => rw [h1 x (by rw [hm]; simp)]
  | x :: y :: r =>
    rw [hm] at h2
    have hx := h1 x (by rw [hm]; simp)
    have hy := h1 y (by rw [hm]; simp)
    rw [hx, hy] at h2
    simp at h2

theorem lastUpdated_eq (c : BypassCfg) (hseq : c.seq = true) (l nf : Int) (evs : List (Ev τ)) :
    lastUpdated c l nf evs =
      if c.minFrames ≤ nf ∧ ∃ e ∈ evs, e.ty = .up ∧ (e.node : Int) = (l + 1) % (c.nNodes : Int)
      then (l + 1) % (c.nNodes : Int) else l := by
  unfold lastUpdated
  suffices h : ∀ acc, evs.foldl (fun acc e =>
      if e.ty = .up then
        if nf < c.minFrames then acc
        else if c.seq then
          if (e.node : Int) = (l + 1) % (c.nNodes : Int) then (e.node : Int) else acc
        else acc
      else acc) acc = if c.minFrames ≤ nf ∧ ∃ e ∈ evs, e.ty = .up ∧
        (e.node : Int) = (l + 1) % (c.nNodes : Int) then (l + 1) % (c.nNodes : Int) else acc from
    h l
  induction evs with
  | nil => simp
  | cons e r ih =>
    intro acc
    simp only [List.foldl_cons]
    rw [ih]
    simp only [hseq, if_true]
    by_cases h1 : c.minFrames ≤ nf
    · have h1' : ¬ nf < c.minFrames := by omega
      simp only [h1, h1', if_false, true_and, List.mem_cons, exists_eq_or_imp]
      by_cases h2 : e.ty = .up
      · by_cases h3 : (e.node : Int) = (l + 1) % (c.nNodes : Int)
        · simp [h2, h3]
        · simp [h2, h3]
      · simp [h2]
    · have h1' : nf < c.minFrames := by omega
      simp [h1, h1']

theorem step_last (c : BypassCfg) (s : BypassSt) (evs : List (Ev τ)) (hseq : c.seq = true) :
    (bypassStep c s evs).2.lastUpNode =
      if c.minFrames ≤ s.nFrames + 1 ∧
          ∃ e ∈ evs, e.ty = .up ∧ (e.node : Int) = (s.lastUpNode + 1) % (c.nNodes : Int)
      then (s.lastUpNode + 1) % (c.nNodes : Int) else s.lastUpNode := by
  unfold bypassStep
  split
  · exact lastUpdated_eq c hseq _ _ _
  · next h =>
    rw [if_neg]
    rintro ⟨_, e, he, ht, _⟩
    apply h
    rw [List.any_eq_true]
    exact ⟨e, he, by simp [ht]⟩

theorem performedAt_seq (c : BypassCfg) (s : BypassSt) (t : τ) {evs : List (Ev τ)}
    (hseq : c.seq = true) (hn : (evs.map (fun x => (x.node, x.ty))).Nodup) {k : Nat}
    (hk : (k : Int) = (s.lastUpNode + 1) % (c.nNodes : Int)) :
    performedAt (⟨t, (bypassStep c s evs).1⟩ : Instant τ) =
      if c.minFrames ≤ s.nFrames + 1 ∧
          ∃ e ∈ evs, e.ty = .up ∧ e.node = k
      then [k] else [] := by
  cases hu : hasUp evs with
  | false =>
    rw [performedAt_noUp c s t hu, if_neg]
    rintro ⟨_, e, he, ht, _⟩
    unfold hasUp at hu
    rw [List.any_eq_false] at hu
    exact hu e he (by simp [ht])
  | true =>
    rw [performedAt_up c s t hu]
    have hpred : ∀ e : Ev τ, (decide (e.ty = .up) && !bypassOf c s.lastUpNode (s.nFrames + 1) e)
        = true ↔ (c.minFrames ≤ s.nFrames + 1 ∧ e.ty = .up ∧ e.node = k) := by
      intro e
      unfold bypassOf
      rw [hseq, ← hk]
      by_cases h2 : e.ty = .up
      · by_cases h1 : c.minFrames ≤ s.nFrames + 1
        · have h1' : ¬ s.nFrames + 1 < c.minFrames := by omega
          by_cases h3 : e.node = k
          · simp [h2, h1, h1', h3]
          · simp [h2, h1, h1', h3]
        · have h1' : s.nFrames + 1 < c.minFrames := by omega
          simp [h2, h1, h1']
      · simp [h2]
    split
    · next h =>
      obtain ⟨h1, e, he, ht, hek⟩ := h
      rw [filter_unique (List.Nodup.of_map _ hn) _ he ((hpred e).mpr ⟨h1, ht, hek⟩)]
      · simp [hek]
      · intro x hx y hy px py
        have hx' := (hpred x).mp px
        have hy' := (hpred y).mp py
        exact List.inj_on_of_nodup_map hn hx hy (by rw [hx'.2.1, hx'.2.2, hy'.2.1, hy'.2.2])
    · next h =>
      simp only [List.map_eq_nil_iff, List.filter_eq_nil_iff]
      intro e he hp
      have := (hpred e).mp hp
      exact h ⟨this.1, e, he, this.2⟩

theorem stateAfter_last (c : BypassCfg) (first : Int) (evss : List (τ × List (Ev τ)))
    (hseq : c.seq = true) (hpos : 0 < c.nNodes)
    (hn : ∀ g ∈ evss, (g.2.map (fun x => (x.node, x.ty))).Nodup) :
    ((stateAfter c ⟨first - 1, 0⟩ evss).lastUpNode + 1) % (c.nNodes : Int) =
      (first + (performed (runBypass c ⟨first - 1, 0⟩ evss)).length) % (c.nNodes : Int) := by
  induction evss using List.reverseRecOn with
  | nil => simp [stateAfter, performed, runBypass]
  | append_singleton l g ih =>
    have ih' := ih (fun g hg => hn g (by simp [hg]))
    have hs : stateAfter c ⟨first - 1, 0⟩ (l ++ [g])
        = (bypassStep c (stateAfter c ⟨first - 1, 0⟩ l) g.2).2 := by simp [stateAfter]
    rw [runBypass_append, hs, step_last _ _ _ hseq]
    simp only [runBypass]
    unfold performed
    rw [List.flatMap_append, List.length_append]
    simp only [List.flatMap_cons, List.flatMap_nil, List.append_nil]
    change _ = (first + (((performed (runBypass c ⟨first - 1, 0⟩ l)).length + _ : Nat) : Int)) % _
    have hnn : 0 ≤ ((stateAfter c ⟨first - 1, 0⟩ l).lastUpNode + 1) % (c.nNodes : Int) :=
      Int.emod_nonneg _ (by omega)
    obtain ⟨k, hk⟩ := Int.eq_ofNat_of_zero_le hnn
    rw [performedAt_seq c _ g.1 hseq (hn g (by simp)) (k := k) hk.symm]
    simp only [hk, Nat.cast_inj]
    split
    · rw [← hk, ih']
      simp only [List.length_singleton]
      push_cast
      rw [← add_assoc, Int.emod_add_emod]
    · simp only [List.length_nil, add_zero]
      rw [← hk] at *
      exact ih'

end
end Danse

namespace Danse
section
variable {τ : Type} [LinearOrder τ]

theorem frameInstants_split {out : List (Instant τ)} {j : Nat} {x : Instant τ}
    (h : (frameInstants out)[j]? = some x) :
    ∃ pre post, out = pre ++ x :: post ∧ frameInstants pre = (frameInstants out).take j := by
  obtain ⟨hlt, hx⟩ := List.getElem?_eq_some_iff.mp h
  have hF : frameInstants out = (frameInstants out).take j ++ x :: (frameInstants out).drop (j+1) := by
    rw [← hx]; simp
  generalize hG : (frameInstants out).take j = G at *
  generalize (frameInstants out).drop (j + 1) = H at *
  unfold frameInstants at hF
  obtain ⟨l1, l2, h1, h2, h3⟩ := List.filter_eq_append_iff.mp hF
  obtain ⟨m1, m2, h4, h5, h6, h7⟩ := List.filter_eq_cons_iff.mp h3
  refine ⟨l1 ++ m1, m2, by rw [h1, h4]; simp, ?_⟩
  unfold frameInstants
  rw [List.filter_append, h2, List.filter_eq_nil_iff.mpr h5, List.append_nil]

theorem spacing_step (c : BypassCfg) (s : BypassSt) (t : τ) (evs : List (Ev τ))
    (h : performedAt (⟨t, (bypassStep c s evs).1⟩ : Instant τ) ≠ []) :
    c.minFrames ≤ s.nFrames + 1 := by
  by_contra hlt
  apply h
  cases hu : hasUp evs with
  | false => exact performedAt_noUp c s t hu
  | true =>
    rw [performedAt_up c s t hu]
    simp only [List.map_eq_nil_iff, List.filter_eq_nil_iff]
    intro e he
    unfold bypassOf
    by_cases ht : e.ty = .up
    · simp [ht, show s.nFrames + 1 < c.minFrames by omega]
    · simp [ht]

theorem spacing_at_split {a : EvArgs τ} {pre post : List (Instant τ)} {i : Instant τ}
    (h : buildEvents a = .ok (pre ++ i :: post))
    (hcov : a.tiFlag = true → ∀ o ∈ a.orderings, CoversNodes a.up_t.length o)
    (hy : performedAt i ≠ []) : a.minFrames ≤ (framesSinceUpdate pre : Int) + 1 := by
  obtain ⟨evss, hout, hall⟩ := buildEvents_run h hcov
  obtain ⟨l1, g, l2, hsplit, hpre, hi⟩ := runBypass_split hout.symm
  rw [hi] at hy
  have := spacing_step _ _ _ _ hy
  rw [stateAfter_nFrames, ← hpre] at this
  exact this

theorem takeWhile_reverse_take_le {α : Type} {p : α → Bool} {l : List α} {i j : Nat} {x : α}
    (hij : i < j) (hi : l[i]? = some x) (hx : p x = false) (hj : j ≤ l.length) :
    ((l.take j).reverse.takeWhile p).length + i + 1 ≤ j := by
  obtain ⟨hlt, hx'⟩ := List.getElem?_eq_some_iff.mp hi
  by_contra hc
  set k := j - 1 - i with hk
  have hkl : k < ((l.take j).reverse.takeWhile p).length := by omega
  have h1 := List.all_takeWhile (p := p) (l := (l.take j).reverse)
  rw [List.all_eq_true] at h1
  have h2 := h1 _ (List.getElem_mem hkl)
  have h3 := (List.takeWhile_prefix p (l := (l.take j).reverse)).getElem hkl
  rw [h3, List.getElem_reverse, List.getElem_take] at h2
  simp only [List.length_take] at h2
  have h4 : min j l.length - 1 - k = i := by omega
  simp only [h4, hx'] at h2
  rw [hx] at h2; cases h2

theorem bypassStep_nonUp {c : BypassCfg} {s : BypassSt} {evs : List (Ev τ)} {e : OutEv}
    (he : e ∈ (bypassStep c s evs).1) (hty : e.ty ≠ .up) : e.bypass = false := by
  unfold bypassStep at he
  split at he
  · simp only [List.mem_map] at he
    obtain ⟨x, _, rfl⟩ := he
    simp only [bypassOf]
    simp only at hty
    rw [if_neg hty]
  · simp only [List.mem_map] at he
    obtain ⟨x, _, rfl⟩ := he
    rfl

theorem bypassStep_nonseq (c : BypassCfg) (hseq : c.seq = false) (s : BypassSt)
    {evs : List (Ev τ)} {e : OutEv}
    (he : e ∈ (bypassStep c s evs).1) (hty : e.ty = .up) :
    e.bypass = false ↔ c.minFrames ≤ s.nFrames + 1 := by
  unfold bypassStep at he
  split at he
  · simp only [List.mem_map] at he
    obtain ⟨x, _, rfl⟩ := he
    simp only [bypassOf]
    simp only at hty
    rw [if_pos hty, hseq]
    split
    · simp; omega
    · simp; omega
  · next h =>
    simp only [List.mem_map] at he
    obtain ⟨x, hx, rfl⟩ := he
    exfalso; apply h
    rw [List.any_eq_true]
    exact ⟨x, hx, by simpa using hty⟩

theorem framesSince_mod (c : BypassCfg) (hseq : c.seq = false) (l0 : Int)
    (evss : List (τ × List (Ev τ))) :
    (framesSinceUpdate (runBypass c ⟨l0, 0⟩ evss) : Int) =
      ((frameInstants (runBypass c ⟨l0, 0⟩ evss)).length : Int) % max c.minFrames 1 := by
  induction evss using List.reverseRecOn with
  | nil => simp [runBypass, framesSinceUpdate, frameInstants]
  | append_singleton l g ih =>
    rw [runBypass_append]
    simp only [runBypass]
    rw [framesSinceUpdate_snoc]
    have hfi : frameInstants (runBypass c ⟨l0, 0⟩ l ++
        [⟨g.1, (bypassStep c (stateAfter c ⟨l0, 0⟩ l) g.2).1⟩]) =
        frameInstants (runBypass c ⟨l0, 0⟩ l) ++
        if hasUp g.2 then [⟨g.1, (bypassStep c (stateAfter c ⟨l0, 0⟩ l) g.2).1⟩] else [] := by
      unfold frameInstants
      rw [List.filter_append]
      congr 1
      rw [← bypassStep_hasUp c (stateAfter c ⟨l0, 0⟩ l) g.2]
      split <;> simp_all
    rw [hfi, bypassStep_hasUp]
    cases hu : hasUp g.2 with
    | false => simpa using ih
    | true =>
      simp only [if_true, List.length_append, List.length_singleton]
      set F := (frameInstants (runBypass c ⟨l0, 0⟩ l)).length with hF
      have hm : 0 < max c.minFrames 1 := by omega
      have h1 := Int.emod_nonneg (F : Int) (show max c.minFrames 1 ≠ 0 by omega)
      have h2 := Int.emod_lt_of_pos (F : Int) hm
      have hemp : (performedAt (⟨g.1, (bypassStep c (stateAfter c ⟨l0, 0⟩ l) g.2).1⟩ :
          Instant τ)).isEmpty = decide (framesSinceUpdate (runBypass c ⟨l0, 0⟩ l) + 1 <
            c.minFrames) := by
        rw [performedAt_isEmpty_iff, Bool.eq_iff_iff]
        simp only [List.all_eq_true, decide_eq_true_eq]
        have hnf := stateAfter_nFrames c l0 l
        constructor
        · intro hall
          have hb := bypassStep_hasUp c (stateAfter c ⟨l0, 0⟩ l) g.2
          rw [hu, List.any_eq_true] at hb
          obtain ⟨o, ho, hty⟩ := hb
          simp only [decide_eq_true_eq] at hty
          have := hall o ho
          rw [if_pos hty] at this
          have h3 := (bypassStep_nonseq c hseq _ ho hty).not
          rw [this] at h3
          simp only [Bool.true_eq_false, not_false_eq_true, true_iff] at h3
          omega
        · intro hlt o ho
          split
          · next hty =>
            have h3 := (bypassStep_nonseq c hseq _ ho hty).not
            have : ¬ o.bypass = false := h3.mpr (by omega)
            simpa using this
          · rfl
      rw [hemp]
      push_cast
      by_cases hlt : (framesSinceUpdate (runBypass c ⟨l0, 0⟩ l) : Int) + 1 < c.minFrames
      · simp only [hlt, decide_true, if_true]
        push_cast
        rw [ih] at hlt ⊢
        rw [Int.add_emod, Int.emod_eq_of_lt (by omega : (0 : Int) ≤ 1) (by omega),
          Int.emod_eq_of_lt (a := (F : Int) % max c.minFrames 1 + 1) (by omega) (by omega)]
      · simp only [hlt, decide_false, Bool.false_eq_true, if_false]
        rw [ih] at hlt
        have h3 : (F : Int) % max c.minFrames 1 = max c.minFrames 1 - 1 := by omega
        rw [Int.add_emod, h3]
        by_cases h4 : max c.minFrames 1 = 1
        · rw [h4]; simp
        · rw [Int.emod_eq_of_lt (by omega : (0 : Int) ≤ 1) (by omega)]
          simp

end
end Danse
