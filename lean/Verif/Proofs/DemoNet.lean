import Verif.Spec.DemoNet
import Mathlib.Data.List.Nodup
import Mathlib.Tactic.Linarith

/-! # Lemmas about topology descriptions -/

namespace Danse

variable {N : Type} [DecidableEq N]

theorem isUniqueList_iff (l : List N) : isUniqueList l = true ↔ l.Nodup := by
  unfold isUniqueList
  rw [List.all_eq_true, List.nodup_iff_count_le_one]
  simp only [Bool.not_eq_true', decide_eq_false_iff_not, not_lt]
  constructor
  · intro h a
    by_cases ha : a ∈ l
    · exact h a ha
    · rw [List.count_eq_zero_of_not_mem ha]; omega
  · intro h a _
    exact h a

/-- The nodes after the first of a branch. -/
theorem verify_tail (white enc prev : List N) (lid : Nat) : ∀ (t : List N) (k : Nat) (acc acc' : List N × List N),
    0 < k → ((t.zipIdx k).foldlM (verifyNode white enc prev lid) acc = some acc' ↔
      (∀ n ∈ t, n ∈ white ∧ n ∉ enc) ∧ acc' = (acc.1 ++ t, acc.2 ++ t)) := by
  intro t
  induction t with
  | nil =>
    intro k acc acc' _
    simp only [List.zipIdx_nil, List.foldlM_nil, List.append_nil, List.not_mem_nil, false_imp_iff, implies_true, true_and]
    exact ⟨fun h => by injection h with h; exact h.symm, fun h => by rw [h]; rfl⟩
  | cons n t ih =>
    intro k acc acc' hk
    rw [List.zipIdx_cons, List.foldlM_cons]
    unfold verifyNode
    by_cases h1 : n ∈ white
    · by_cases h2 : n ∈ enc
      · simp only [not_true, h1, if_false, hk, h2, and_self, if_true, List.mem_cons, forall_eq_or_imp, and_false,
          false_and, iff_false]
        intro h
        cases h
      · have hk' : ¬ (k = 0 ∧ 0 < lid) := by omega
        simp only [not_true, h1, if_false, h2, and_false, hk', List.mem_cons, forall_eq_or_imp, not_false_eq_true,
          and_self, true_and]
        have := ih (k + 1) (acc.1 ++ [n], acc.2 ++ [n]) acc' (by omega)
        simp only [List.append_assoc, List.singleton_append] at this
        exact this
    · simp only [not_false_eq_true, h1, if_true, List.mem_cons, forall_eq_or_imp, false_and, iff_false]
      intro h
      cases h

theorem verifyBranch_iff (white enc prev : List N) (lid : Nat) (acc acc' : List N × List N) (B : List N) :
    verifyBranch white enc prev lid acc B = some acc' ↔
      2 ≤ B.length ∧ (∀ n ∈ B, n ∈ white) ∧ (∀ n ∈ B.tail, n ∉ enc) ∧ (0 < lid → ∀ h ∈ B.head?, h ∈ prev) ∧
        acc' = (acc.1 ++ B, acc.2 ++ if lid = 0 then B else B.tail) := by
  unfold verifyBranch
  by_cases h2 : B.length < 2
  · rw [if_pos h2]
    constructor
    · intro h; cases h
    · intro h; omega
  · rw [if_neg h2]
    cases B with
    | nil => simp at h2
    | cons h t =>
      have h2' : 2 ≤ (h :: t).length := by omega
      rw [List.zipIdx_cons, List.foldlM_cons]
      simp only [h2', true_and, List.tail_cons, List.head?_cons, Option.mem_some_iff, forall_eq']
      have step : ∀ s : Option (List N × List N), (s >>= fun s' => (t.zipIdx (0 + 1)).foldlM (verifyNode white enc prev lid) s') =
          some acc' ↔ ∃ s', s = some s' ∧ (∀ n ∈ t, n ∈ white ∧ n ∉ enc) ∧ acc' = (s'.1 ++ t, s'.2 ++ t) := by
        intro s
        cases s with
        | none => simp
        | some s' =>
          simp only [Option.some.injEq, exists_eq_left']
          exact verify_tail white enc prev lid t (0 + 1) s' acc' (by omega)
      rw [step]
      unfold verifyNode
      simp only [lt_irrefl, false_and, if_false, true_and]
      by_cases h1 : h ∈ white
      · simp only [h1, not_true, if_false, List.mem_cons, forall_eq_or_imp, true_and]
        by_cases hl : 0 < lid
        · have hl0 : lid ≠ 0 := by omega
          simp only [hl, if_true, true_imp_iff, hl0, if_false]
          by_cases hp : h ∈ prev
          · simp only [hp, not_true, if_false, Option.some.injEq, exists_eq_left', true_and, List.append_assoc,
              List.singleton_append]
            constructor
            · rintro ⟨a, b⟩; exact ⟨fun n hn => (a n hn).1, fun n hn => (a n hn).2, b⟩
            · rintro ⟨a, b, c⟩; exact ⟨fun n hn => ⟨a n hn, b n hn⟩, c⟩
          · simp [hp]
        · have hl0 : lid = 0 := by omega
          subst hl0
          simp only [lt_irrefl, if_false, false_imp_iff, if_true, Option.some.injEq, exists_eq_left', true_and,
            List.append_assoc, List.singleton_append]
          constructor
          · rintro ⟨a, b⟩; exact ⟨fun n hn => (a n hn).1, fun n hn => (a n hn).2, b⟩
          · rintro ⟨a, b, c⟩; exact ⟨fun n hn => ⟨a n hn, b n hn⟩, c⟩
      · simp [h1]

/-- The branches of a level. -/
def BranchesOk (white enc prev : List N) (lid : Nat) (L : List (List N)) : Prop :=
  ∀ B ∈ L, 2 ≤ B.length ∧ (∀ n ∈ B, n ∈ white) ∧ (∀ n ∈ B.tail, n ∉ enc) ∧ (0 < lid → ∀ h ∈ B.head?, h ∈ prev)

theorem verifyBranches_iff (white enc prev : List N) (lid : Nat) : ∀ (L : List (List N)) (acc acc' : List N × List N),
    L.foldlM (verifyBranch white enc prev lid) acc = some acc' ↔
      BranchesOk white enc prev lid L ∧
        acc' = (acc.1 ++ L.flatten, acc.2 ++ if lid = 0 then L.flatten else children L) := by
  intro L
  induction L with
  | nil =>
    intro acc acc'
    unfold BranchesOk children
    simp only [List.foldlM_nil, List.flatten_nil, List.flatMap_nil, ite_self, List.append_nil, List.not_mem_nil,
      false_imp_iff, implies_true, true_and]
    exact ⟨fun h => by injection h with h; exact h.symm, fun h => by rw [h]; rfl⟩
  | cons B L ih =>
    intro acc acc'
    rw [List.foldlM_cons]
    have step : (verifyBranch white enc prev lid acc B >>= fun s => L.foldlM (verifyBranch white enc prev lid) s) =
        some acc' ↔ ∃ s, verifyBranch white enc prev lid acc B = some s ∧
          L.foldlM (verifyBranch white enc prev lid) s = some acc' := by
      cases verifyBranch white enc prev lid acc B with
      | none => simp
      | some s => simp
    rw [step]
    simp only [verifyBranch_iff, ih, BranchesOk, List.mem_cons, forall_eq_or_imp]
    constructor
    · rintro ⟨s, ⟨a, b, c, d, rfl⟩, e, rfl⟩
      refine ⟨⟨⟨a, b, c, d⟩, e⟩, ?_⟩
      unfold children
      split <;> simp [List.append_assoc]
    · rintro ⟨⟨⟨a, b, c, d⟩, e⟩, rfl⟩
      refine ⟨_, ⟨a, b, c, d, rfl⟩, e, ?_⟩
      unfold children
      split <;> simp [List.append_assoc]

theorem verifyLevel_iff (white : List N) (s s' : List N × List N) (L : List (List N)) (lid : Nat) :
    verifyLevel white s (L, lid) = some s' ↔
      L ≠ [] ∧ (lid = 0 → L.length = 1) ∧ BranchesOk white s.1 s.2 lid L ∧ L.flatten.Nodup ∧
        s' = (s.1 ++ (if lid = 0 then L.flatten else children L), if lid = 0 then L.flatten else children L) := by
  unfold verifyLevel
  simp only [List.length_eq_zero_iff]
  by_cases h0 : L = []
  · simp [h0]
  · have hp : 0 < L.length := List.length_pos_iff.mpr h0
    rw [if_neg h0]
    by_cases h1 : lid = 0 ∧ 1 < L.length
    · rw [if_pos h1]
      constructor
      · intro h; cases h
      · rintro ⟨_, h, _⟩
        have := h h1.1
        omega
    · rw [if_neg h1]
      have h1' : lid = 0 → L.length = 1 := fun h => by
        have : ¬ 1 < L.length := fun h' => h1 ⟨h, h'⟩
        omega
      rw [Option.bind_eq_some_iff]
      constructor
      · rintro ⟨a, ha, hb⟩
        obtain ⟨c, rfl⟩ := (verifyBranches_iff _ _ _ _ _ _ _).mp ha
        simp only [List.nil_append] at hb
        by_cases hu : isUniqueList L.flatten = true
        · rw [if_pos hu] at hb
          injection hb with hb
          exact ⟨h0, h1', c, (isUniqueList_iff _).mp hu, hb.symm⟩
        · rw [if_neg hu] at hb
          cases hb
      · rintro ⟨_, _, c, d, rfl⟩
        refine ⟨_, (verifyBranches_iff _ _ _ _ _ _ _).mpr ⟨c, rfl⟩, ?_⟩
        simp only [List.nil_append]
        rw [if_pos ((isUniqueList_iff _).mpr d)]

/-- The levels after the first: `enc` are the nodes synchronised before (and the root), `prev` those of the
level before. -/
def RestOk (white : List N) : List N → List N → List (List (List N)) → Prop
  | _, _, [] => True
  | enc, prev, L :: r => L ≠ [] ∧ BranchesOk white enc prev 1 L ∧ L.flatten.Nodup ∧
      RestOk white (enc ++ children L) (children L) r

theorem rest_iff (white : List N) : ∀ (r : List (List (List N))) (k : Nat) (s : List N × List N), 0 < k →
    (((r.zipIdx k).foldlM (verifyLevel white) s).isSome = true ↔ RestOk white s.1 s.2 r) := by
  intro r
  induction r with
  | nil => intro k s _; simp [RestOk]
  | cons L r ih =>
    intro k s hk
    have hk0 : k ≠ 0 := by omega
    rw [List.zipIdx_cons, List.foldlM_cons]
    unfold RestOk
    have hB : BranchesOk white s.1 s.2 k L ↔ BranchesOk white s.1 s.2 1 L := by
      unfold BranchesOk
      simp only [hk, Nat.one_pos]
    cases hv : verifyLevel white s (L, k) with
    | none =>
      constructor
      · intro h; simp at h
      · rintro ⟨a, b, c, _⟩
        have := (verifyLevel_iff white s _ L k).mpr ⟨a, fun h => absurd h hk0, hB.mpr b, c, rfl⟩
        rw [hv] at this
        cases this
    | some s' =>
      obtain ⟨a, _, b, c, rfl⟩ := (verifyLevel_iff white s s' L k).mp hv
      have := ih (k + 1) (s.1 ++ children L, children L) (by omega)
      simp only [hk0, if_false, Option.bind_eq_bind, Option.bind_some] at this ⊢
      rw [this]
      exact ⟨fun h => ⟨a, hB.mp b, c, h⟩, fun h => h.2.2.2⟩

/-- `verify_topology` unfolded. -/
theorem verify_iff (white : List N) (levels : List (List (List N))) :
    verifyTopology levels white = true ↔ ∃ root t rest, levels = [root :: t] :: rest ∧ t ≠ [] ∧
      (∀ n ∈ root :: t, n ∈ white) ∧ (root :: t).Nodup ∧ RestOk white (root :: t) (root :: t) rest := by
  unfold verifyTopology
  cases levels with
  | nil => simp
  | cons L0 rest =>
    simp only [List.length_cons, Nat.add_one_ne_zero, if_false]
    rw [List.zipIdx_cons, List.foldlM_cons]
    cases hv : verifyLevel white ([], []) (L0, 0) with
    | none =>
      constructor
      · intro h; simp at h
      · rintro ⟨root, t, r, h, h1, h2, h3, _⟩
        injection h with h h'
        subst h
        have := (verifyLevel_iff white ([], []) _ [root :: t] 0).mpr ⟨by simp, fun _ => rfl, ?_, by simpa using h3, rfl⟩
        · rw [hv] at this
          cases this
        · intro B hB
          simp only [List.mem_singleton] at hB
          subst hB
          refine ⟨?_, h2, by simp, by simp⟩
          have := List.length_pos_iff.mpr h1
          simp only [List.length_cons]
          omega
    | some s' =>
      obtain ⟨_, b, c, d, rfl⟩ := (verifyLevel_iff white ([], []) s' L0 0).mp hv
      have hl := b rfl
      obtain ⟨B, rfl⟩ := List.length_eq_one_iff.mp hl
      obtain ⟨h1, h2, _⟩ := c B (by simp)
      cases B with
      | nil => simp at h1
      | cons root t =>
        simp only [Option.bind_eq_bind, Option.bind_some, if_true, List.nil_append, List.flatten_singleton] at d ⊢
        rw [rest_iff white rest 1 _ (by omega)]
        constructor
        · intro h
          refine ⟨root, t, rest, rfl, ?_, h2, d, h⟩
          rintro rfl
          simp at h1
        · rintro ⟨root', t', r', h, _, _, _, h5⟩
          injection h with h h'
          injection h with h
          injection h with ha hb
          subst ha hb h'
          exact h5

theorem mem_children {L : List (List N)} {n : N} : n ∈ children L ↔ ∃ h t, h :: t ∈ L ∧ n ∈ t := by
  unfold children
  rw [List.mem_flatMap]
  constructor
  · rintro ⟨B, hB, hn⟩
    cases B with
    | nil => simp at hn
    | cons h t => exact ⟨h, t, hB, hn⟩
  · rintro ⟨h, t, hB, hn⟩
    exact ⟨_, hB, hn⟩

theorem children_sublist (L : List (List N)) : (children L).Sublist L.flatten := by
  unfold children
  induction L with
  | nil => simp
  | cons B L ih =>
    rw [List.flatMap_cons, List.flatten_cons]
    exact (List.tail_sublist B).append ih

/-- The rest of an accepted description, declaratively. -/
theorem restOk_iff (white : List N) : ∀ (r : List (List (List N))) (enc prev : List N),
    RestOk white enc prev r ↔
      (∀ L ∈ r, L ≠ []) ∧ (∀ L ∈ r, ∀ B ∈ L, 2 ≤ B.length) ∧ (∀ L ∈ r, ∀ B ∈ L, ∀ n ∈ B, n ∈ white) ∧
      (∀ L ∈ r, L.flatten.Nodup) ∧ (∀ L ∈ r, ∀ n ∈ children L, n ∉ enc) ∧
      (r.Pairwise fun L L' => ∀ n ∈ children L, n ∉ children L') ∧
      (∀ L ∈ r.head?, ∀ h t, h :: t ∈ L → h ∈ prev) ∧
      (∀ l L L', r[l]? = some L → r[l + 1]? = some L' → ∀ h t, h :: t ∈ L' → h ∈ children L) := by
  intro r
  induction r with
  | nil => intro enc prev; simp [RestOk]
  | cons L r ih =>
    intro enc prev
    unfold RestOk
    rw [ih]
    constructor
    · rintro ⟨a, b, c, d1, d2, d3, d4, d5, d6, d7, d8⟩
      refine ⟨?_, ?_, ?_, ?_, ?_, ?_, ?_, ?_⟩
      · simpa using ⟨a, d1⟩
      · simp only [List.mem_cons, forall_eq_or_imp]
        exact ⟨fun B hB => (b B hB).1, d2⟩
      · simp only [List.mem_cons, forall_eq_or_imp]
        exact ⟨fun B hB => (b B hB).2.1, d3⟩
      · simpa using ⟨c, d4⟩
      · simp only [List.mem_cons, forall_eq_or_imp]
        refine ⟨fun n hn => ?_, fun L' hL' n hn h => d5 L' hL' n hn (List.mem_append_left _ h)⟩
        obtain ⟨h, t, hB, ht⟩ := mem_children.mp hn
        exact (b _ hB).2.2.1 n ht
      · rw [List.pairwise_cons]
        exact ⟨fun L' hL' n hn h => d5 L' hL' n h (List.mem_append_right _ hn), d6⟩
      · simp only [List.head?_cons, Option.mem_some_iff, forall_eq']
        intro h t hB
        exact (b _ hB).2.2.2 Nat.one_pos h rfl
      · intro l L1 L2 h1 h2 h t hB
        cases l with
        | zero =>
          simp only [List.getElem?_cons_zero, Option.some.injEq] at h1
          subst h1
          refine d7 L2 ?_ h t hB
          rw [List.getElem?_cons_succ] at h2
          rw [Option.mem_def, List.head?_eq_getElem?]
          exact h2
        | succ l =>
          rw [List.getElem?_cons_succ] at h1 h2
          exact d8 l L1 L2 h1 h2 h t hB
    · rintro ⟨d1, d2, d3, d4, d5, d6, d7, d8⟩
      simp only [List.mem_cons, forall_eq_or_imp] at d1 d2 d3 d4 d5
      rw [List.pairwise_cons] at d6
      refine ⟨d1.1, ?_, d4.1, d1.2, d2.2, d3.2, d4.2, ?_, d6.2, ?_, ?_⟩
      · intro B hB
        refine ⟨d2.1 B hB, d3.1 B hB, ?_, ?_⟩
        · intro n hn
          exact d5.1 n (List.mem_flatMap.mpr ⟨B, hB, hn⟩)
        · intro _ h hh
          cases B with
          | nil => simp at hh
          | cons h' t =>
            simp only [List.head?_cons, Option.mem_some_iff] at hh
            subst hh
            exact d7 L rfl _ t hB
      · intro L' hL' n hn h
        rcases List.mem_append.mp h with h | h
        · exact d5.2 L' hL' n hn h
        · exact d6.1 L' hL' n h hn
      · intro L' hL' h t hB
        refine d8 0 L L' rfl ?_ h t hB
        rw [List.getElem?_cons_succ, ← List.head?_eq_getElem?]
        exact hL'
      · intro l L1 L2 h1 h2
        exact d8 (l + 1) L1 L2 (by rw [List.getElem?_cons_succ]; exact h1) (by rw [List.getElem?_cons_succ]; exact h2)

theorem accepted_iff (white : List N) (levels : List (List (List N))) :
    verifyTopology levels white = true ↔ ∃ root, AcceptedTopo levels white root := by
  rw [verify_iff]
  constructor
  · rintro ⟨root, t, rest, rfl, h1, h2, h3, h4⟩
    obtain ⟨d1, d2, d3, d4, d5, d6, d7, d8⟩ := (restOk_iff white rest _ _).mp h4
    have hc : children [root :: t] = t := by simp [children]
    refine ⟨root, ⟨t, rest, rfl⟩, ?_, ?_, ?_, ?_, ?_, ?_, ?_⟩
    · simpa using d1
    · simp only [List.mem_cons, forall_eq_or_imp, List.not_mem_nil, false_imp_iff, implies_true, and_true]
      refine ⟨?_, d2⟩
      have := List.length_pos_iff.mpr h1
      simp only [List.length_cons]
      omega
    · rw [List.forall_mem_cons]
      refine ⟨?_, d3⟩
      intro B hB
      rw [List.mem_singleton] at hB
      subst hB
      exact h2
    · simp only [List.mem_cons, forall_eq_or_imp, List.flatten_singleton]
      exact ⟨h3, d4⟩
    · rw [List.pairwise_cons, hc]
      exact ⟨fun L hL n hn h => d5 L hL n h (List.mem_cons_of_mem _ hn), d6⟩
    · rw [List.forall_mem_cons, hc]
      exact ⟨(List.nodup_cons.mp h3).1, fun L hL h => d5 L hL root h List.mem_cons_self⟩
    · intro l L L' hl hl' h B hB
      cases l with
      | zero =>
        simp only [List.getElem?_cons_zero, Option.some.injEq] at hl
        subst hl
        rw [List.getElem?_cons_succ, ← List.head?_eq_getElem?] at hl'
        rw [hc]
        rcases List.mem_cons.mp (d7 L' hl' h B hB) with h | h
        · exact .inr ⟨rfl, h⟩
        · exact .inl h
      | succ l =>
        rw [List.getElem?_cons_succ] at hl hl'
        exact .inl (d8 l L L' hl hl' h B hB)
  · rintro ⟨root, ⟨t, rest, rfl⟩, d1, d2, d3, d4, d5, d6, d7⟩
    have hc : children [root :: t] = t := by simp [children]
    rw [List.pairwise_cons, hc] at d5
    rw [List.forall_mem_cons] at d1 d2 d3 d4 d6
    refine ⟨root, t, rest, rfl, ?_, d3.1 _ (by simp), by simpa using d4.1, ?_⟩
    · rintro rfl
      have := d2.1 [root] (by simp)
      simp at this
    · refine (restOk_iff white rest _ _).mpr ⟨d1.2, d2.2, d3.2, d4.2, ?_, d5.2, ?_, ?_⟩
      · intro L hL n hn h
        rcases List.mem_cons.mp h with h | h
        · subst h; exact d6.2 L hL hn
        · exact d5.1 L hL n h hn
      · intro L hL h B hB
        rw [Option.mem_def, List.head?_eq_getElem?] at hL
        rcases d7 0 _ L rfl (by rw [List.getElem?_cons_succ]; exact hL) h B hB with h | h
        · rw [hc] at h
          exact List.mem_cons_of_mem _ h
        · rw [h.2]; exact List.mem_cons_self
      · intro l L L' hl hl' h B hB
        rcases d7 (l + 1) L L' (by rw [List.getElem?_cons_succ]; exact hl) (by rw [List.getElem?_cons_succ]; exact hl') h B hB with h | h
        · exact h
        · exact absurd h.1 (by omega)

/-! ## The list of nodes -/

/-- Appending the new ones of a list of nodes. -/
def addNew (s : List N) (B : List N) : List N := B.foldl (fun s n => if n ∉ s then s ++ [n] else s) s

theorem addNew_append (s a b : List N) : addNew s (a ++ b) = addNew (addNew s a) b := List.foldl_append

theorem addNew_old {s : List N} {n : N} (h : n ∈ s) (B : List N) : addNew s (n :: B) = addNew s B := by
  unfold addNew
  rw [List.foldl_cons, if_neg (not_not.mpr h)]

theorem addNew_new : ∀ (B s : List N), B.Nodup → (∀ n ∈ B, n ∉ s) → addNew s B = s ++ B := by
  intro B
  induction B with
  | nil => intro s _ _; simp [addNew]
  | cons n B ih =>
    intro s hn hs
    obtain ⟨h1, h2⟩ := List.nodup_cons.mp hn
    unfold addNew
    rw [List.foldl_cons, if_pos (hs n List.mem_cons_self)]
    have := ih (s ++ [n]) h2 (by
      intro m hm h
      rcases List.mem_append.mp h with h | h
      · exact hs m (List.mem_cons_of_mem _ hm) h
      · rw [List.mem_singleton] at h
        subst h
        exact h1 hm)
    unfold addNew at this
    rw [this, List.append_assoc]
    rfl

theorem uniqueNodeList_eq (levels : List (List (List N))) :
    uniqueNodeList levels = addNew [] (levels.flatMap List.flatten) := by
  have h2 : ∀ (L : List (List N)) (s : List N),
      L.foldl (fun s B => B.foldl (fun s n => if n ∉ s then s ++ [n] else s) s) s = addNew s L.flatten := by
    intro L
    induction L with
    | nil => intro s; simp [addNew]
    | cons B L ih => intro s; rw [List.foldl_cons, List.flatten_cons, addNew_append, ih]; rfl
  have h3 : ∀ (levels : List (List (List N))) (s : List N),
      levels.foldl (fun s L => L.foldl (fun s B => B.foldl (fun s n => if n ∉ s then s ++ [n] else s) s) s) s =
        addNew s (levels.flatMap List.flatten) := by
    intro levels
    induction levels with
    | nil => intro s; simp [addNew]
    | cons L r ih => intro s; rw [List.foldl_cons, List.flatMap_cons, addNew_append, h2, ih]
  exact h3 levels []

variable {levels : List (List (List N))} {white : List N} {root : N} {early : Nat → N → Prop}

theorem TopoOk.children_nodup (h : TopoOk levels white root early) : (levels.flatMap children).Nodup := by
  rw [List.nodup_flatMap]
  refine ⟨fun L hL => (h.once L hL).sublist (children_sublist L), ?_⟩
  refine h.leafOnce.imp fun {L L'} hLL => ?_
  intro n hn hn'
  exact hLL n hn hn'

theorem TopoOk.nodup (h : TopoOk levels white root early) : (nodeOrder levels root).Nodup := by
  unfold nodeOrder
  rw [List.nodup_cons]
  refine ⟨?_, h.children_nodup⟩
  intro hr
  obtain ⟨L, hL, hr⟩ := List.mem_flatMap.mp hr
  exact h.rootNever L hL hr

/-- One level: the references are already in the list. -/
theorem addNew_level : ∀ (L : List (List N)) (s : List N), (∀ B ∈ L, ∀ h ∈ B.head?, h ∈ s) → (children L).Nodup →
    (∀ n ∈ children L, n ∉ s) → addNew s L.flatten = s ++ children L := by
  intro L
  induction L with
  | nil => intro s _ _ _; simp [addNew, children]
  | cons B L ih =>
    intro s hh hn hs
    have hc : children (B :: L) = B.tail ++ children L := by simp [children]
    rw [hc] at hn hs ⊢
    obtain ⟨n1, n2, n3⟩ := List.nodup_append.mp hn
    rw [List.flatten_cons, addNew_append]
    have hB : addNew s B = s ++ B.tail := by
      cases B with
      | nil => simp [addNew]
      | cons h t =>
        rw [addNew_old (hh _ List.mem_cons_self h rfl)]
        exact addNew_new t s n1 fun n hn' => hs n (List.mem_append_left _ hn')
    rw [hB, ih _ ?_ n2 ?_, List.append_assoc]
    · intro B' hB' h hh'
      exact List.mem_append_left _ (hh B' (List.mem_cons_of_mem _ hB') h hh')
    · intro n hn' h
      rcases List.mem_append.mp h with h | h
      · exact hs n (List.mem_append_right _ hn') h
      · exact n3 n h n hn' rfl

theorem addNew_levels : ∀ (r : List (List (List N))) (s : List N) (k : Nat) (prev : List N),
    (∀ n ∈ prev, n ∈ s) → (∀ L ∈ r.head?, ∀ h t, h :: t ∈ L → h ∈ prev ∨ h ∈ s) →
    (∀ l L L', r[l]? = some L → r[l + 1]? = some L' → ∀ h t, h :: t ∈ L' → h ∈ children L ∨ h ∈ s) →
    (r.flatMap children).Nodup → (∀ n ∈ r.flatMap children, n ∉ s) →
    addNew s (r.flatMap List.flatten) = s ++ r.flatMap children := by
  intro r
  induction r with
  | nil => intro s k prev _ _ _ _ _; simp [addNew]
  | cons L r ih =>
    intro s k prev hp hh hr hn hs
    rw [List.flatMap_cons] at hn hs
    obtain ⟨n1, n2, n3⟩ := List.nodup_append.mp hn
    rw [List.flatMap_cons, addNew_append, addNew_level L s ?_ n1 (fun n h => hs n (List.mem_append_left _ h)),
      ih (s ++ children L) (k + 1) (children L) (fun n h => List.mem_append_right _ h) ?_ ?_ n2 ?_, List.append_assoc,
      List.flatMap_cons]
    · intro L' hL' h t hB
      rw [Option.mem_def, List.head?_eq_getElem?] at hL'
      rcases hr 0 L L' rfl hL' h t hB with h | h
      · exact .inl h
      · exact .inr (List.mem_append_left _ h)
    · intro l L1 L2 h1 h2 h t hB
      rcases hr (l + 1) L1 L2 h1 h2 h t hB with h | h
      · exact .inl h
      · exact .inr (List.mem_append_left _ h)
    · intro n hn' h
      rcases List.mem_append.mp h with h | h
      · exact hs n (List.mem_append_right _ hn') h
      · exact n3 n h n hn' rfl
    · intro B hB h hh'
      cases B with
      | nil => simp at hh'
      | cons h' t =>
        simp only [List.head?_cons, Option.mem_some_iff] at hh'
        subst hh'
        rcases hh L rfl _ t hB with h | h
        · exact hp _ h
        · exact h

theorem TopoOk.unique (h : TopoOk levels white root early) (he : ∀ l n, early l n → n = root) :
    uniqueNodeList levels = nodeOrder levels root := by
  rw [uniqueNodeList_eq]
  have hnd := h.nodup
  have hcn := h.children_nodup
  have hhd := h.heads
  have hrn := h.rootNever
  obtain ⟨t, rest, rfl⟩ := h.first
  unfold nodeOrder at hnd ⊢
  have h0 : addNew ([] : List N) (([root :: t] :: rest).flatMap List.flatten) =
      addNew [root] (([root :: t] :: rest).flatMap List.flatten) := by
    rw [List.flatMap_cons, List.flatten_singleton, List.cons_append, addNew_old (s := [root]) (by simp)]
    rfl
  rw [h0, addNew_levels _ [root] 0 [root] (by simp) ?_ ?_ hcn ?_]
  · rfl
  · simp only [List.head?_cons, Option.mem_some_iff, forall_eq', List.mem_singleton, List.cons.injEq]
    rintro h' t' ⟨rfl, _⟩
    exact .inl rfl
  · intro l L L' hl hl' h' t' hB
    rcases hhd l L L' hl hl' h' t' hB with h1 | h1
    · exact .inl h1
    · exact .inr (by rw [he _ _ h1]; simp)
  · intro n hn hr
    rw [List.mem_singleton] at hr
    subst hr
    exact (List.nodup_cons.mp hnd).1 hn

/-! ## Lists as maps -/

theorem map_set_idxOf {T : Type} {l : List N} (hn : l.Nodup) (f : N → T) {c : N} (hc : c ∈ l) (v : T) :
    (l.map f).set (l.idxOf c) v = l.map (Function.update f c v) := by
  apply List.ext_getElem?
  intro i
  rw [List.getElem?_set, List.getElem?_map, List.getElem?_map]
  have hi := List.idxOf_lt_length_of_mem hc
  by_cases h : l.idxOf c = i
  · subst h
    rw [if_pos rfl, if_pos (by simpa using hi), List.getElem?_eq_getElem hi, List.getElem_idxOf]
    simp
  · rw [if_neg h]
    cases hx : l[i]? with
    | none => rfl
    | some x =>
      have : x ≠ c := by
        rintro rfl
        obtain ⟨hlt, he⟩ := List.getElem?_eq_some_iff.mp hx
        apply h
        have := List.Nodup.idxOf_getElem hn i hlt
        rw [he] at this
        exact this
      simp [Function.update_of_ne this]

theorem getElem?_idxOf_map {T : Type} {l : List N} (f : N → T) {c : N} (hc : c ∈ l) :
    (l.map f)[l.idxOf c]? = some (f c) := by
  have hi := List.idxOf_lt_length_of_mem hc
  rw [List.getElem?_map, List.getElem?_eq_getElem hi, List.getElem_idxOf]
  rfl

/-- The delays as a map. -/
def delayMap (perLevel : Nat) : List (List (List N) × Nat) → (N → Nat) → (N → Nat)
  | [], f => f
  | (L, k) :: r, f => delayMap perLevel r fun n => if n ∈ children L then k * perLevel else f n

theorem delay_fold (nodes : List N) (hn : nodes.Nodup) (v : Nat) : ∀ (cs : List N), (∀ c ∈ cs, c ∈ nodes) → ∀ f : N → Nat,
    cs.foldl (fun d n => d.set (nodes.idxOf n) v) (nodes.map f) = nodes.map fun n => if n ∈ cs then v else f n := by
  intro cs
  induction cs with
  | nil => intro _ f; simp
  | cons c cs ih =>
    intro hc f
    rw [List.foldl_cons, map_set_idxOf hn f (hc c List.mem_cons_self), ih (fun c' h => hc c' (List.mem_cons_of_mem _ h))]
    refine List.map_congr_left fun n _ => ?_
    by_cases h : n ∈ cs
    · rw [if_pos h, if_pos (List.mem_cons_of_mem _ h)]
    · rw [if_neg h]
      by_cases h' : n = c
      · subst h'; rw [Function.update_self, if_pos List.mem_cons_self]
      · rw [Function.update_of_ne h', if_neg (by simp [h, h'])]

theorem delay_level (nodes : List N) (hn : nodes.Nodup) (v : Nat) : ∀ (L : List (List N)), (∀ c ∈ children L, c ∈ nodes) →
    ∀ f : N → Nat, L.foldl (fun d B => B.tail.foldl (fun d n => d.set (nodes.idxOf n) v) d) (nodes.map f) =
      nodes.map fun n => if n ∈ children L then v else f n := by
  intro L
  induction L with
  | nil => intro _ f; simp [children]
  | cons B L ih =>
    intro hc f
    have e : children (B :: L) = B.tail ++ children L := by simp [children]
    rw [e] at hc ⊢
    rw [List.foldl_cons, delay_fold nodes hn v B.tail (fun c h => hc c (List.mem_append_left _ h)),
      ih (fun c h => hc c (List.mem_append_right _ h))]
    refine List.map_congr_left fun n _ => ?_
    by_cases h : n ∈ children L
    · rw [if_pos h, if_pos (List.mem_append_right _ h)]
    · rw [if_neg h]
      simp [h]

theorem delay_levels (nodes : List N) (hn : nodes.Nodup) (per : Nat) : ∀ (r : List (List (List N) × Nat)),
    (∀ e ∈ r, ∀ c ∈ children e.1, c ∈ nodes) → ∀ f : N → Nat,
    r.foldl (fun d (e : List (List N) × Nat) =>
      e.1.foldl (fun d B => B.tail.foldl (fun d n => d.set (nodes.idxOf n) (e.2 * per)) d) d) (nodes.map f) =
      nodes.map (delayMap per r f) := by
  intro r
  induction r with
  | nil => intro _ f; rfl
  | cons e r ih =>
    intro hc f
    obtain ⟨L, k⟩ := e
    rw [List.foldl_cons, delay_level nodes hn (k * per) L (hc _ List.mem_cons_self),
      ih (fun e h => hc e (List.mem_cons_of_mem _ h))]
    rfl

theorem delayMap_other (per : Nat) : ∀ (r : List (List (List N) × Nat)) (f : N → Nat) (c : N),
    (∀ e ∈ r, c ∉ children e.1) → delayMap per r f c = f c := by
  intro r
  induction r with
  | nil => intro f c _; rfl
  | cons e r ih =>
    intro f c hc
    obtain ⟨L, k⟩ := e
    unfold delayMap
    rw [ih _ c fun e h => hc e (List.mem_cons_of_mem _ h), if_neg (hc _ List.mem_cons_self)]

theorem delayMap_val (per : Nat) : ∀ (r : List (List (List N))) (k : Nat) (f : N → Nat),
    (r.flatMap children).Nodup → ∀ l L c, r[l]? = some L → c ∈ children L →
      delayMap per (r.zipIdx k) f c = (k + l) * per := by
  intro r
  induction r with
  | nil => intro k f _ l L c h; simp at h
  | cons L0 r ih =>
    intro k f hn l L c hl hc
    rw [List.flatMap_cons] at hn
    obtain ⟨n1, n2, n3⟩ := List.nodup_append.mp hn
    rw [List.zipIdx_cons]
    unfold delayMap
    cases l with
    | zero =>
      simp only [List.getElem?_cons_zero, Option.some.injEq] at hl
      subst hl
      rw [delayMap_other, if_pos hc]
      · rfl
      · intro e he h
        exact n3 c hc c (List.mem_flatMap.mpr ⟨e.1, List.fst_mem_of_mem_zipIdx he, h⟩) rfl
    | succ l =>
      rw [List.getElem?_cons_succ] at hl
      rw [ih (k + 1) _ n2 l L c hl hc]
      congr 1
      omega

/-- The delays of the nodes other than the root. -/
theorem TopoOk.delays (h : TopoOk levels white root early) (he : ∀ l n, early l n → n = root) (per : Nat) :
    ∃ d : N → Nat, asyncNodeDelays levels per = (levels.flatMap children).map d ∧
      ∀ l L c, levels[l]? = some L → c ∈ children L → d c = l * per := by
  refine ⟨delayMap per levels.zipIdx fun _ => 0, ?_, ?_⟩
  · unfold asyncNodeDelays
    simp only
    rw [h.unique he]
    have e : List.replicate (nodeOrder levels root).length 0 = (nodeOrder levels root).map fun _ => 0 := by
      rw [List.map_const']
    rw [e, delay_levels _ h.nodup per _ ?_]
    · rfl
    · intro e he c hc
      unfold nodeOrder
      refine List.mem_cons_of_mem _ (List.mem_flatMap.mpr ⟨e.1, List.fst_mem_of_mem_zipIdx he, hc⟩)
  · intro l L c hl hc
    rw [delayMap_val per levels 0 _ h.children_nodup l L c hl hc, Nat.zero_add]

end Danse
