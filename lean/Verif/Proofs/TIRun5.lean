import Verif.Proofs.TIRun4

/-! # TI-DANSE runs: the schedules that `build_events_matrix` builds -/

set_option linter.unusedSectionVars false

namespace Danse

theorem TITimes.pos {n : Nat} {a : EvArgs ℚ} {ex : List ℚ} (h : TITimes n a ex) : 0 < n := by
  obtain ⟨t0, h0, _⟩ := h.first
  by_contra hc
  have : n = 0 := by omega
  subst this
  simp at h0

theorem TITimes.ti {n : Nat} {a : EvArgs ℚ} {ex : List ℚ} (h : TITimes n a ex) : a.tiFlag = true := by
  unfold EvArgs.tiFlag
  rw [h.fuse, h.nodes]
  have := h.pos
  simp only [List.length_replicate, decide_true, Bool.and_true, List.any_eq_true, decide_eq_true_eq]
  exact ⟨ex, List.mem_replicate.mpr ⟨by omega, rfl⟩, List.length_pos_iff.mpr h.some⟩

/-- The number of tree formations among the events of some instants. -/
theorem treeCount_eq (l : List (Instant ℚ)) :
    treeCount l = ((delivered l).filter fun e => decide (e.2.2 = .tr)).length := by
  induction l with
  | nil => rfl
  | cons i l ih =>
    have e1 : treeCount (i :: l) = (ofTy i.evs .tr).length + treeCount l := by simp [treeCount]
    have e2 : delivered (i :: l) = (i.evs.map fun e => (i.t, e.node, e.ty)) ++ delivered l := rfl
    rw [e1, e2, List.filter_append, List.length_append, ih, List.filter_map, List.length_map]
    rfl

theorem nodup_flatten_index {α : Type} {L : List (List α)} (h : L.flatten.Nodup) {i j : Nat} {a b : List α}
    (hi : L[i]? = some a) (hj : L[j]? = some b) {x : α} (ha : x ∈ a) (hb : x ∈ b) : i = j := by
  rw [List.nodup_flatten] at h
  obtain ⟨hil, rfl⟩ := List.getElem?_eq_some_iff.mp hi
  obtain ⟨hjl, rfl⟩ := List.getElem?_eq_some_iff.mp hj
  have hp := List.pairwise_iff_getElem.mp h.2
  rcases Nat.lt_trichotomy i j with hlt | heq | hlt
  · exact absurd hb (hp i j hil hjl hlt ha)
  · exact heq
  · exact absurd ha (hp j i hjl hil hlt hb)

section
variable {n : Nat} {a : EvArgs ℚ} {ex : List ℚ} {out : List (Instant ℚ)}

theorem scheduled_tr (h : TITimes n a ex) {t : ℚ} {k : Nat} (hs : Scheduled a a.tiFlag t k .tr) :
    ∃ ts, (a.tr_t.take n)[k]? = some ts ∧ t ∈ ts := by
  obtain ⟨h1, _, ts, h3, h4⟩ := hs
  rw [h.nodes] at h1
  exact ⟨ts, by rw [List.getElem?_take_of_lt h1]; exact h3, h4⟩

theorem scheduled_tr_mem (h : TITimes n a ex) {t : ℚ} (ht : t ∈ (a.tr_t.take n).flatten) :
    ∃ k, Scheduled a a.tiFlag t k .tr := by
  obtain ⟨ts, h1, h2⟩ := List.mem_flatten.mp ht
  obtain ⟨k, hk, rfl⟩ := List.mem_iff_getElem.mp h1
  have hk' := hk
  rw [List.length_take] at hk'
  refine ⟨k, by rw [h.nodes]; omega, h.ti, a.tr_t[k], ?_, ?_⟩
  · exact List.getElem?_eq_getElem (by omega)
  · rw [List.getElem_take] at h2
    exact h2

theorem scheduled_ex (h : TITimes n a ex) {t : ℚ} {k : Nat} {ty : EvType}
    (hty : ty ∈ [EvType.fu, .bc, .re]) : Scheduled a a.tiFlag t k ty ↔ k < n ∧ t ∈ ex := by
  have key : ∀ L : List (List ℚ), L = List.replicate n ex → k < n →
      ((∃ ts, L[k]? = some ts ∧ t ∈ ts) ↔ t ∈ ex) := by
    rintro L rfl hk
    constructor
    · rintro ⟨ts, h1, h2⟩
      rw [List.getElem?_eq_getElem (by simpa using hk), List.getElem_replicate] at h1
      injection h1 with h1
      rw [h1]
      exact h2
    · intro h2
      exact ⟨ex, by rw [List.getElem?_eq_getElem (by simpa using hk), List.getElem_replicate], h2⟩
  unfold Scheduled
  rw [h.nodes]
  constructor
  · rintro ⟨hk, h2⟩
    refine ⟨hk, ?_⟩
    simp only [List.mem_cons, List.not_mem_nil, or_false] at hty
    rcases hty with rfl | rfl | rfl
    · exact (key _ h.fuse hk).mp h2.2
    · exact (key _ h.bc hk).mp h2
    · exact (key _ h.re hk).mp h2.2
  · rintro ⟨hk, h2⟩
    refine ⟨hk, ?_⟩
    simp only [List.mem_cons, List.not_mem_nil, or_false] at hty
    rcases hty with rfl | rfl | rfl
    · exact ⟨h.ti, (key _ h.fuse hk).mpr h2⟩
    · exact (key _ h.bc hk).mpr h2
    · exact ⟨h.ti, (key _ h.re hk).mpr h2⟩

theorem mem_delivered {t : ℚ} {k : Nat} {ty : EvType} :
    (t, k, ty) ∈ delivered out ↔ ∃ i ∈ out, i.t = t ∧ ∃ e ∈ i.evs, e.node = k ∧ e.ty = ty := by
  unfold delivered
  simp only [List.mem_flatMap, List.mem_map, Prod.mk.injEq]
  constructor
  · rintro ⟨i, hi, e, he, h1, h2, h3⟩
    exact ⟨i, hi, h1, e, he, h2, h3⟩
  · rintro ⟨i, hi, h1, e, he, h2, h3⟩
    exact ⟨i, hi, e, he, h1, h2, h3⟩

/-- In a list sorted by time, an instant is determined by its time. -/
theorem instant_unique (hs : (out.map (·.t)).Pairwise (· < ·)) {i j : Instant ℚ} (hi : i ∈ out) (hj : j ∈ out)
    (h : i.t = j.t) : i = j :=
  List.inj_on_of_nodup_map (hs.imp fun h => h.ne) hi hj h

/-- What `run_direct` asks of the schedule. -/
theorem built_instants {levs : List (List Level)} (h : TITimes n a ex) (hb : buildEvents a = .ok out)
    (hl : a.orderings = levs) (hcov : ∀ o ∈ levs, CoversNodes n o) (pre : List (Instant ℚ)) (i : Instant ℚ)
    (post : List (Instant ℚ)) (hsp : out = pre ++ i :: post) :
    (∀ e ∈ i.evs, e.node < n) ∧ AllExchange n i.evs ∧ (ofTy i.evs .tr).length ≤ 1 ∧
      ∃ j lev, treeCount (pre ++ [i]) = j + 1 ∧ levs[j]? = some lev ∧ i.evs.Pairwise (TreeOrder lev) := by
  have hcov' : ∀ o ∈ a.orderings, CoversNodes a.up_t.length o := by rw [hl, h.nodes]; exact hcov
  obtain ⟨hsort, hne, hnd, hdel⟩ := C01_exactly_once hb (fun _ => hcov')
  have hi : i ∈ out := by rw [hsp]; simp
  have hsch : ∀ e ∈ i.evs, Scheduled a a.tiFlag i.t e.node e.ty := fun e he =>
    (hdel _ _ _).mp (mem_delivered.mpr ⟨i, hi, rfl, e, he, rfl, rfl⟩)
  have huniq : ∀ {t : ℚ} {k k' : Nat}, Scheduled a a.tiFlag t k .tr → Scheduled a a.tiFlag t k' .tr → k = k' := by
    intro t k k' h1 h2
    obtain ⟨ts, e1, e2⟩ := scheduled_tr h h1
    obtain ⟨ts', e3, e4⟩ := scheduled_tr h h2
    exact nodup_flatten_index h.one e1 e3 e2 e4
  obtain ⟨order, ho, hord⟩ := C03_tree_dependencies hb h.ti hcov' hi
  refine ⟨fun e he => by have := (hsch e he).1; rwa [h.nodes] at this, ?_, ?_, ?_⟩
  · by_cases hx : ∃ e ∈ i.evs, e.ty ∈ [EvType.fu, .bc, .re]
    · obtain ⟨e, he, hty⟩ := hx
      have ht := ((scheduled_ex h hty).mp (hsch e he)).2
      left
      intro ty hty' v
      have hd := (hdel i.t v ty).mpr ((scheduled_ex h hty').mpr ⟨v.2, ht⟩)
      obtain ⟨i', hi', h1, e', he', h2, h3⟩ := mem_delivered.mp hd
      have : i' = i := instant_unique hsort hi' hi h1
      subst this
      exact ⟨e', he', h3, h2⟩
    · right
      push Not at hx
      exact hx
  · have h1 : ((ofTy i.evs .tr).map (·.node)).Nodup := ofTy_nodes hord _
    match hm : ofTy i.evs .tr with
    | [] => simp
    | [e] => simp
    | e :: e' :: l =>
      rw [hm] at h1
      simp only [List.map_cons, List.nodup_cons, List.mem_cons, not_or] at h1
      have m1 : e ∈ ofTy i.evs .tr := by rw [hm]; simp
      have m2 : e' ∈ ofTy i.evs .tr := by rw [hm]; simp
      have s1 := hsch e (mem_ofTy.mp m1).1
      have s2 := hsch e' (mem_ofTy.mp m2).1
      rw [(mem_ofTy.mp m1).2] at s1
      rw [(mem_ofTy.mp m2).2] at s2
      exact absurd (huniq s1 s2) h1.1.1
  · -- counting the trees
    have hsub : (delivered (pre ++ [i])).Sublist (delivered out) := by
      rw [hsp]
      unfold delivered
      rw [List.flatMap_append, List.flatMap_append]
      refine List.Sublist.append (List.Sublist.refl _) ?_
      rw [List.flatMap_cons, List.flatMap_cons]
      exact List.Sublist.append (List.Sublist.refl _) (by simp)
    have hcount : treeCount (pre ++ [i]) = treesFormedUpTo a i.t := by
      rw [treeCount_eq]
      unfold treesFormedUpTo
      rw [h.nodes, h.one.dedup, ← List.length_map (fun e : ℚ × Nat × EvType => e.1)]
      apply List.Perm.length_eq
      have hn1 : (((delivered (pre ++ [i])).filter fun e => decide (e.2.2 = .tr)).map (·.1)).Nodup := by
        apply List.Nodup.map_on
        · rintro ⟨t, k, ty⟩ h1 ⟨t', k', ty'⟩ h2 heq
          simp only [List.mem_filter, decide_eq_true_eq] at h1 h2 heq
          obtain ⟨h1, rfl⟩ := h1
          obtain ⟨h2, rfl⟩ := h2
          subst heq
          have := huniq ((hdel _ _ _).mp (hsub.subset h1)) ((hdel _ _ _).mp (hsub.subset h2))
          rw [this]
        · exact ((hnd.sublist hsub)).filter _
      rw [List.perm_ext_iff_of_nodup hn1 (h.one.filter _)]
      intro t
      simp only [List.mem_map, List.mem_filter, decide_eq_true_eq]
      have hle : ∀ x ∈ pre ++ [i], x.t ≤ i.t := by
        intro x hx
        rcases List.mem_append.mp hx with hx | hx
        · rw [hsp, List.map_append, List.pairwise_append] at hsort
          exact (hsort.2.2 x.t (List.mem_map.mpr ⟨x, hx, rfl⟩) i.t (by simp)).le
        · simp at hx
          rw [hx]
      constructor
      · rintro ⟨⟨t', k, ty⟩, ⟨h1, h2⟩, rfl⟩
        simp only at h2 ⊢
        subst h2
        constructor
        · obtain ⟨ts, e1, e2⟩ := scheduled_tr h ((hdel _ _ _).mp (hsub.subset h1))
          exact List.mem_flatten.mpr ⟨ts, List.mem_of_getElem? e1, e2⟩
        · obtain ⟨x, hx, h3, _⟩ := mem_delivered.mp h1
          rw [← h3]
          exact hle x hx
      · rintro ⟨h1, h2⟩
        obtain ⟨k, hk⟩ := scheduled_tr_mem h h1
        obtain ⟨x, hx, h3, e, he, h4, h5⟩ := mem_delivered.mp ((hdel _ _ _).mpr hk)
        refine ⟨(t, k, .tr), ⟨mem_delivered.mpr ⟨x, ?_, h3, e, he, h4, h5⟩, rfl⟩, rfl⟩
        rw [hsp] at hx
        rcases List.mem_append.mp hx with hx | hx
        · simp [hx]
        · rcases List.mem_cons.mp hx with hx | hx
          · simp [hx]
          · exfalso
            rw [hsp, List.map_append, List.pairwise_append, List.map_cons, List.pairwise_cons] at hsort
            have := hsort.2.1.1 x.t (List.mem_map.mpr ⟨x, hx, rfl⟩)
            rw [h3] at this
            exact absurd this (not_lt.mpr h2)
    have hpos : 0 < treesFormedUpTo a i.t := by
      unfold treesFormedUpTo
      rw [h.nodes, h.one.dedup, List.length_pos_iff_exists_mem]
      obtain ⟨t0, h0, h1, h2⟩ := h.first
      obtain ⟨e, he⟩ := List.exists_mem_of_ne_nil _ (hne i hi)
      have hs := hsch e he
      by_cases hty : e.ty ∈ [EvType.fu, .bc, .re]
      · have := ((scheduled_ex h hty).mp hs).2
        exact ⟨t0, List.mem_filter.mpr ⟨h0, by simpa using h1 _ this⟩⟩
      · cases hc : e.ty with
        | tr =>
          rw [hc] at hs
          obtain ⟨ts, e1, e2⟩ := scheduled_tr h hs
          exact ⟨i.t, List.mem_filter.mpr ⟨List.mem_flatten.mpr ⟨ts, List.mem_of_getElem? e1, e2⟩, by simp⟩⟩
        | up =>
          rw [hc] at hs
          obtain ⟨_, ts, e1, e2⟩ := hs
          refine ⟨t0, List.mem_filter.mpr ⟨h0, ?_⟩⟩
          simpa using h2 _ (List.mem_flatten.mpr ⟨ts, List.mem_of_getElem? e1, e2⟩)
        | fu => simp [hc] at hty
        | bc => simp [hc] at hty
        | re => simp [hc] at hty
    refine ⟨treesFormedUpTo a i.t - 1, order, by omega, ?_, hord⟩
    rw [show ((treesFormedUpTo a i.t : Int) - 1) = ((treesFormedUpTo a i.t - 1 : Nat) : Int) by omega, hl] at ho
    unfold pyGet at ho
    simp only [Int.toNat_natCast] at ho
    rw [if_neg (by omega), if_neg (by omega)] at ho
    cases hx : levs[treesFormedUpTo a i.t - 1]? with
    | none => simp [hx] at ho
    | some o => simpa [hx] using ho

end
end Danse
