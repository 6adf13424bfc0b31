import Verif.Proofs.Instants
import Verif.Props.Events

/-! # Helper lemmas linking sequential update instants and the event schedule (C09, C10) -/

set_option linter.unusedSectionVars false

namespace Danse
section
variable {τ : Type} [LinearOrder τ]

theorem mem_maskEq {x : List τ} {idx : List Nat} {k : Nat} {r : List τ}
    (h : maskEq x idx k = .ok r) (t : τ) :
    t ∈ r ↔ ∃ j : Nat, x[j]? = some t ∧ idx[j]? = some k := by
  unfold maskEq at h
  split at h
  · cases h
    rw [List.mem_filterMap]
    constructor
    · rintro ⟨⟨t', k'⟩, hm, hif⟩
      simp only at hif
      split at hif
      · next hk =>
        cases hif; subst hk
        obtain ⟨j, hj⟩ := List.mem_iff_getElem?.mp hm
        rw [List.getElem?_zip_eq_some] at hj
        exact ⟨j, hj⟩
      · cases hif
    · rintro ⟨j, h1, h2⟩
      refine ⟨(t, k), List.mem_iff_getElem?.mpr ⟨j, ?_⟩, by simp⟩
      rw [List.getElem?_zip_eq_some]
      exact ⟨h1, h2⟩
  · cases h

theorem prepTree_ok {ups : List (List τ)} {zero : τ} {start : Nat} {ordOf : Nat → List Level}
    {arr : List (List τ)} {ords : List (List Level)} (hpos : 0 < ups.length)
    (h : prepTree ups zero start ordOf = .ok (arr, ords)) :
    ∃ t0 rest ns, getSeqUp ups zero start = .ok (t0 :: rest, ns) ∧ ns.length = rest.length + 1 ∧
      List.Forall₂ (fun k r => maskEq (zero :: rest) ns k = .ok r) (List.range ups.length) arr ∧
      ords = (List.range (rest.length + 1)).map fun j => ordOf ((start + j) % ups.length) := by
  unfold prepTree at h
  cases hg : getSeqUp ups zero start with
  | error e => rw [hg] at h; cases h
  | ok p =>
    obtain ⟨ts, ns⟩ := p
    rw [hg] at h
    cases ts with
    | nil => cases h
    | cons t0 rest =>
      refine ⟨t0, rest, ns, rfl, ?_⟩
      simp only [bind, Except.bind] at h
      cases hm : (List.range ups.length).mapM (maskEq (zero :: rest) ns) with
      | error e => rw [hm] at h; cases h
      | ok arr' =>
        rw [hm] at h
        cases h
        have hf := mapM_ok_forall₂ hm
        refine ⟨?_, hf, by simp⟩
        obtain ⟨n, hn⟩ : ∃ n, ups.length = n + 1 := ⟨ups.length - 1, by omega⟩
        rw [hn, List.range_succ_eq_map] at hf
        cases hf with
        | cons h1 _ =>
          unfold maskEq at h1
          split at h1
          · next hl => simpa using hl.symm
          · cases h1

theorem prepTree_ok_iff {ups : List (List τ)} {zero : τ} {start : Nat}
    {ordOf : Nat → List Level} {ts : List τ} {ns : List Nat} (hpos : 0 < ups.length)
    (hg : getSeqUp ups zero start = .ok (ts, ns)) (hne : ns ≠ []) :
    (∃ r, prepTree ups zero start ordOf = .ok r) ↔ ns.length = ts.length := by
  constructor
  · rintro ⟨⟨arr, ords⟩, h⟩
    obtain ⟨t0, rest, ns', h1, h2, _⟩ := prepTree_ok hpos h
    rw [hg] at h1
    cases h1
    simpa using h2
  · intro hl
    cases ts with
    | nil => simp at hl; exact absurd hl hne
    | cons t0 rest =>
      have hmask : ∀ k ∈ List.range ups.length, ∃ y, maskEq (zero :: rest) ns k = .ok y ∧ True := by
        intro k _
        unfold maskEq
        rw [if_pos (by simpa using hl.symm)]
        exact ⟨_, rfl, trivial⟩
      obtain ⟨ys, hys, _⟩ := mapM_ok_of_forall hmask
      refine ⟨(ys, (List.range (zero :: rest).length).map
        fun j => ordOf ((start + j) % ups.length)), ?_⟩
      unfold prepTree
      rw [hg]
      simp only [bind, Except.bind]
      rw [hys]

theorem sorted_filter_lt {T : List τ} (hT : T.Pairwise (· < ·)) (x : τ) :
    (∀ j t, j < (T.filter (fun s => decide (s < x))).length → T[j]? = some t → t < x) ∧
    (∀ j t, (T.filter (fun s => decide (s < x))).length ≤ j → T[j]? = some t → x ≤ t) := by
  induction T with
  | nil => simp
  | cons a r ih =>
    rw [List.pairwise_cons] at hT
    obtain ⟨i1, i2⟩ := ih hT.2
    by_cases ha : a < x
    · have hf : (a :: r).filter (fun s => decide (s < x)) =
          a :: r.filter (fun s => decide (s < x)) := by simp [ha]
      rw [hf, List.length_cons]
      constructor
      · intro j t hj hjt
        cases j with
        | zero => simp at hjt; rw [← hjt]; exact ha
        | succ j => exact i1 j t (by omega) (by simpa using hjt)
      · intro j t hj hjt
        cases j with
        | zero => omega
        | succ j => exact i2 j t (by omega) (by simpa using hjt)
    · have hr : r.filter (fun s => decide (s < x)) = [] := by
        rw [List.filter_eq_nil_iff]
        intro s hs
        have := hT.1 s hs
        simp only [decide_eq_true_eq, not_lt]
        exact (not_lt.mp ha).trans this.le
      have hf : (a :: r).filter (fun s => decide (s < x)) = [] := by simp [ha, hr]
      rw [hf]
      refine ⟨by simp, ?_⟩
      intro j t _ hjt
      cases j with
      | zero => simp at hjt; rw [← hjt]; exact not_lt.mp ha
      | succ j => exact i2 j t (by rw [hr]; simp) (by simpa using hjt)

theorem filter_le_length {T : List τ} (hT : T.Pairwise (· < ·)) (x : τ) :
    (T.filter (fun s => decide (s ≤ x))).length =
      (T.filter (fun s => decide (s < x))).length + if x ∈ T then 1 else 0 := by
  induction T with
  | nil => simp
  | cons a r ih =>
    rw [List.pairwise_cons] at hT
    have ih := ih hT.2
    simp only [List.filter_cons, decide_eq_true_eq, List.mem_cons]
    rcases lt_trichotomy a x with h | h | h
    · have hne : x ≠ a := ne_of_gt h
      simp only [h.le, h, if_true, List.length_cons, ih, hne, false_or]
      split <;> omega
    · subst h
      have : a ∉ r := fun hm => lt_irrefl a (hT.1 a hm)
      simp only [this, if_false] at ih
      simp [ih]
    · have h1 : ¬ a ≤ x := not_le.mpr h
      have h2 : ¬ a < x := not_lt.mpr h.le
      have hne : x ≠ a := ne_of_lt h
      simp [h1, h2, ih, hne]

/-- Times identify instants. -/
theorem instant_eq_of_time {out : List (Instant τ)} (hs : (out.map (·.t)).Pairwise (· < ·))
    {i i' : Instant τ} (hi : i ∈ out) (hi' : i' ∈ out) (h : i.t = i'.t) : i = i' :=
  List.inj_on_of_nodup_map (hs.imp (fun h => ne_of_lt h)) hi hi' h

/-- An update event of node `k` at instant `i` exists iff that time is among node `k`'s update
instants. -/
theorem up_event_iff {a : EvArgs τ} {out : List (Instant τ)} (h : buildEvents a = .ok out)
    (hcov : a.tiFlag = true → ∀ o ∈ a.orderings, CoversNodes a.up_t.length o)
    {i : Instant τ} (hi : i ∈ out) (k : Nat) :
    (∃ e ∈ i.evs, e.ty = .up ∧ e.node = k) ↔ ∃ u, a.up_t[k]? = some u ∧ i.t ∈ u := by
  obtain ⟨h1, _, _, h4⟩ := C01_exactly_once h hcov
  have := h4 i.t k .up
  unfold delivered Scheduled at this
  simp only [List.mem_flatMap, List.mem_map, Prod.mk.injEq] at this
  constructor
  · rintro ⟨e, he, ht, hn⟩
    exact (this.mp ⟨i, hi, e, he, rfl, hn, ht⟩).2
  · rintro ⟨u, hu, ht⟩
    have hk : k < a.up_t.length := (List.getElem?_eq_some_iff.mp hu).1
    obtain ⟨i', hi', e, he, h5, h6, h7⟩ := this.mpr ⟨hk, u, hu, ht⟩
    have := instant_eq_of_time h1 hi hi' h5.symm
    subst this
    exact ⟨e, he, h7, h6⟩

/-- The schedule's performed updates follow the sequential update instants. -/
theorem performed_follow_seq {a : EvArgs τ} {out : List (Instant τ)} {zero : τ} {start : Nat}
    {T : List τ} (h : buildEvents a = .ok out)
    (hcov : a.tiFlag = true → ∀ o ∈ a.orderings, CoversNodes a.up_t.length o)
    (hseq : a.seq = true) (hmin : a.minFrames ≤ 1) (hfirst : a.firstUpdatingNode = start)
    (hstart : start < a.up_t.length) (hpos : ∀ u ∈ a.up_t, ∀ t ∈ u, zero < t)
    (hchain : SeqChain a.up_t zero start T) (last : τ) (hlast : T.getLast? = some last) :
    ∀ n pre post (i : Instant τ), pre.length = n → out = pre ++ i :: post → i.t ≤ last →
      (performed pre).length = (T.filter fun s => decide (s < i.t)).length ∧
      performedAt i = if i.t ∈ T then
        [(start + (T.filter fun s => decide (s < i.t)).length) % a.up_t.length] else [] := by
  obtain ⟨c1, c2, c3, c4⟩ := C01_exactly_once h hcov
  have hTs : T.Pairwise (· < ·) := (List.pairwise_cons.mp hchain.sorted).2
  have hTz : ∀ t ∈ T, zero < t := (List.pairwise_cons.mp hchain.sorted).1
  have hTout : ∀ t ∈ T, ∃ i ∈ out, i.t = t := by
    intro t ht
    obtain ⟨j, hj⟩ := List.mem_iff_getElem?.mp ht
    obtain ⟨u, hu, he⟩ := hchain.get hstart j t hj
    have hd := (c4 t ((start + j) % a.up_t.length) .up).mpr
      ⟨Nat.mod_lt _ (by omega), u, hu, he.1⟩
    unfold delivered at hd
    simp only [List.mem_flatMap, List.mem_map, Prod.mk.injEq] at hd
    obtain ⟨i, hi, e, _, h5, _⟩ := hd
    exact ⟨i, hi, h5⟩
  -- the second part follows from the first
  have key : ∀ pre post (i : Instant τ), out = pre ++ i :: post → i.t ≤ last →
      (performed pre).length = (T.filter fun s => decide (s < i.t)).length →
      performedAt i = if i.t ∈ T then
        [(start + (T.filter fun s => decide (s < i.t)).length) % a.up_t.length] else [] := by
    intro pre post i hs hle hlen
    set j := (T.filter fun s => decide (s < i.t)).length with hj
    have hi : i ∈ out := by rw [hs]; simp
    have hk : (((start + j) % a.up_t.length : Nat) : Int) =
        (a.firstUpdatingNode + (performed pre).length) % (a.up_t.length : Int) := by
      rw [hfirst, hlen]; push_cast; rfl
    rw [C04_turn_taken (hs ▸ h) hseq hcov hk]
    have hev := up_event_iff h hcov hi ((start + j) % a.up_t.length)
    obtain ⟨s1, s2⟩ := sorted_filter_lt hTs i.t
    have hmin' : a.minFrames ≤ (framesSinceUpdate pre : Int) + 1 := by omega
    have hjlt : j < T.length := by
      by_contra hge
      have hTl : 0 < T.length := by
        cases T with
        | nil => simp at hlast
        | cons _ _ => simp
      rw [List.getLast?_eq_getElem?] at hlast
      have := s1 (T.length - 1) last (by omega) hlast
      exact absurd hle (not_le.mpr this)
    obtain ⟨t, ht⟩ : ∃ t, T[j]? = some t := ⟨T[j], List.getElem?_eq_getElem hjlt⟩
    obtain ⟨u, hu, hear⟩ := hchain.get hstart j t ht
    have hit : i.t ≤ t := s2 j t le_rfl ht
    have hiff : (∃ u, a.up_t[(start + j) % a.up_t.length]? = some u ∧ i.t ∈ u) ↔ i.t ∈ T := by
      constructor
      · rintro ⟨u', hu', hm⟩
        rw [hu] at hu'
        cases hu'
        have hprev : ((zero :: T)[j]?.getD zero) < i.t := by
          cases hjj : j with
          | zero => simpa using hpos u (List.mem_of_getElem? hu) i.t hm
          | succ j' =>
            have hlt' : j' < T.length := by omega
            simp only [List.getElem?_cons_succ, List.getElem?_eq_getElem hlt', Option.getD_some]
            exact s1 j' _ (by rw [← hj]; omega) (List.getElem?_eq_getElem hlt')
        have := hear.2.2 i.t hm hprev
        rw [le_antisymm hit this]
        exact List.mem_of_getElem? ht
      · intro hm
        obtain ⟨j', hj'⟩ := List.mem_iff_getElem?.mp hm
        have h1 : j ≤ j' := by
          by_contra hc
          exact lt_irrefl _ (s1 j' _ (by omega) hj')
        have h2 : j' = j := by
          rcases Nat.lt_or_ge j j' with hc | hc
          · obtain ⟨l1, e1⟩ := List.getElem?_eq_some_iff.mp ht
            obtain ⟨l2, e2⟩ := List.getElem?_eq_some_iff.mp hj'
            have := List.pairwise_iff_getElem.mp hTs j j' l1 l2 hc
            rw [e1, e2] at this
            exact absurd hit (not_le.mpr this)
          · omega
        subst h2
        rw [hj'] at ht
        cases ht
        exact ⟨u, hu, hear.1⟩
    by_cases hm : i.t ∈ T
    · rw [if_pos hm, if_pos ⟨hmin', hev.mpr (hiff.mpr hm)⟩]
    · rw [if_neg hm, if_neg (fun hc => hm (hiff.mp (hev.mp hc.2)))]
  intro n
  induction n with
  | zero =>
    intro pre post i hl hs hle
    have hnil := List.length_eq_zero_iff.mp hl
    subst hnil
    have h0 : (T.filter fun s => decide (s < i.t)) = [] := by
      rw [List.filter_eq_nil_iff]
      intro t ht
      obtain ⟨i', hi', rfl⟩ := hTout t ht
      simp only [decide_eq_true_eq, not_lt]
      rw [hs] at hi' c1
      simp only [List.nil_append, List.map_cons] at c1 hi'
      rcases List.mem_cons.mp hi' with rfl | hm
      · exact le_rfl
      · exact (List.rel_of_pairwise_cons c1 (List.mem_map_of_mem hm)).le
    have hlen : (performed ([] : List (Instant τ))).length =
        (T.filter fun s => decide (s < i.t)).length := by rw [h0]; rfl
    exact ⟨hlen, key [] post i hs hle hlen⟩
  | succ n ih =>
    intro pre post i hl hs hle
    have hne : pre ≠ [] := by rintro rfl; simp at hl
    obtain ⟨p, i0, rfl⟩ : ∃ p i0, pre = p ++ [i0] :=
      ⟨pre.dropLast, pre.getLast hne, (List.dropLast_append_getLast hne).symm⟩
    have hs' : out = p ++ i0 :: (i :: post) := by rw [hs]; simp
    have hlt : i0.t < i.t := by
      rw [hs'] at c1
      simp only [List.map_append, List.map_cons] at c1
      have := (List.pairwise_append.mp c1).2.1
      exact List.rel_of_pairwise_cons this (by simp)
    obtain ⟨h1, h2⟩ := ih p (i :: post) i0 (by simpa using hl) hs' (hlt.le.trans hle)
    have hfe : (T.filter fun s => decide (s < i.t)) = T.filter fun s => decide (s ≤ i0.t) := by
      apply List.filter_congr
      intro t ht
      obtain ⟨i', hi', rfl⟩ := hTout t ht
      rw [hs'] at hi' c1
      simp only [List.map_append, List.map_cons] at c1
      obtain ⟨q1, q2, q3⟩ := List.pairwise_append.mp c1
      rw [List.pairwise_cons, List.pairwise_cons] at q2
      have hd : (i'.t < i.t) ↔ (i'.t ≤ i0.t) := by
        simp only [List.mem_append, List.mem_cons] at hi'
        rcases hi' with hm | rfl | rfl | hm
        · have := q3 i'.t (List.mem_map_of_mem hm) i0.t (by simp)
          exact ⟨fun _ => this.le, fun _ => this.trans hlt⟩
        · exact ⟨fun _ => le_rfl, fun _ => hlt⟩
        · exact ⟨fun h => absurd h (lt_irrefl _), fun h => absurd hlt (not_lt.mpr h)⟩
        · have h3 := q2.2.1 i'.t (List.mem_map_of_mem hm)
          exact ⟨fun h => absurd h (not_lt.mpr h3.le),
            fun h => absurd (hlt.trans h3) (not_lt.mpr h)⟩
      simp only [hd]
    have hlen : (performed (p ++ [i0])).length =
        (T.filter fun s => decide (s < i.t)).length := by
      have : performed (p ++ [i0]) = performed p ++ performedAt i0 := by simp [performed]
      rw [this, List.length_append, h1, h2, hfe, filter_le_length hTs]
      split <;> simp
    exact ⟨hlen, key _ post i hs hle hlen⟩

end
end Danse
