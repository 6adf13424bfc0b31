import Verif.Spec.Config

/-!
# Lemmas on configuration and result files
-/

namespace Danse

theorem askOverwrite_ok {ans r : List String} {b : Bool} :
    askOverwrite ans = .ok (b, r) ↔
      ∃ a, FirstValidAnswer ans a r ∧ b = decide (a ∈ ["y", "Y"]) := by
  induction ans with
  | nil =>
    simp only [askOverwrite]
    constructor
    · intro h; cases h
    · rintro ⟨a, ⟨pre, h, _⟩, _⟩
      cases pre <;> simp at h
  | cons x xs ih =>
    simp only [askOverwrite]
    by_cases hx : x ∈ ["y", "Y", "n", "N"]
    · rw [if_pos hx]
      constructor
      · intro h
        injection h with h
        injection h with h1 h2
        exact ⟨x, ⟨[], by rw [h2]; rfl, by simp, hx⟩, h1.symm⟩
      · rintro ⟨a, ⟨pre, h, hp, ha⟩, hb⟩
        cases pre with
        | nil =>
          simp only [List.nil_append, List.cons.injEq] at h
          rw [h.1, h.2, hb]
        | cons p ps =>
          simp only [List.cons_append, List.cons.injEq] at h
          exact absurd (h.1 ▸ hx) (hp p (by simp))
    · rw [if_neg hx, ih]
      constructor
      · rintro ⟨a, ⟨pre, h, hp, ha⟩, hb⟩
        refine ⟨a, ⟨x :: pre, by rw [h]; rfl, ?_, ha⟩, hb⟩
        intro b hb'
        rcases List.mem_cons.1 hb' with h | h
        · rw [h]; exact hx
        · exact hp b h
      · rintro ⟨a, ⟨pre, h, hp, ha⟩, hb⟩
        cases pre with
        | nil =>
          simp only [List.nil_append, List.cons.injEq] at h
          exact absurd (h.1 ▸ ha) hx
        | cons p ps =>
          simp only [List.cons_append, List.cons.injEq] at h
          exact ⟨a, ⟨ps, h.2, fun b hb' => hp b (by simp [hb']), ha⟩, hb⟩

theorem askOverwrite_error {ans : List String} {e : PyErr} :
    askOverwrite ans = .error e ↔ e = .eofError ∧ ∀ a ∈ ans, a ∉ ["y", "Y", "n", "N"] := by
  induction ans with
  | nil =>
    simp only [askOverwrite]
    constructor
    · intro h; injection h with h; exact ⟨h.symm, by simp⟩
    · rintro ⟨h, _⟩; rw [h]
  | cons x xs ih =>
    simp only [askOverwrite]
    by_cases hx : x ∈ ["y", "Y", "n", "N"]
    · rw [if_pos hx]
      constructor
      · intro h; cases h
      · rintro ⟨_, h⟩; exact absurd hx (h x (by simp))
    · rw [if_neg hx, ih]
      constructor
      · rintro ⟨h, h2⟩
        refine ⟨h, ?_⟩
        intro a ha
        rcases List.mem_cons.1 ha with h | h
        · rw [h]; exact hx
        · exact h2 a h
      · rintro ⟨h, h2⟩
        exact ⟨h, fun a ha => h2 a (by simp [ha])⟩

/-! ## attributes -/

theorem find_set_same (a : Attrs) (k : String) (x : AVal) : (a.set k x).find k = some x := by
  induction a with
  | nil => cases x <;> simp [Attrs.set, Attrs.find]
  | leaf k' v r ih =>
    simp only [Attrs.set]
    split
    · cases x <;> simp_all [Attrs.find]
    · simp_all [Attrs.find]
  | node k' d s r _ ih =>
    simp only [Attrs.set]
    split
    · cases x <;> simp_all [Attrs.find]
    · simp_all [Attrs.find]

theorem find_set_other (a : Attrs) {k k' : String} (x : AVal) (h : k ≠ k') :
    (a.set k x).find k' = a.find k' := by
  induction a with
  | nil => cases x <;> simp [Attrs.set, Attrs.find, h]
  | leaf k'' v r ih =>
    simp only [Attrs.set]
    split
    · rename_i h2
      subst h2
      cases x <;> simp [Attrs.find, h]
    · simp only [Attrs.find, ih]
  | node k'' d s r _ ih =>
    simp only [Attrs.set]
    split
    · rename_i h2
      subst h2
      cases x <;> simp [Attrs.find, h]
    · simp only [Attrs.find, ih]

theorem bind_ok_inv {α β : Type} {e : Except PyErr α} {f : α → Except PyErr β} {b : β}
    (h : e >>= f = .ok b) : ∃ a, e = .ok a ∧ f a = .ok b := by
  cases e with
  | error e => cases h
  | ok a => exact ⟨a, rfl, h⟩

/-- What `_load_into_dataclass` does to one attribute. -/
def LoadedAt (a a' : Attrs) (k : String) : Option YVal → Prop
  | none => a'.find k = a.find k
  | some (.leaf v) => a'.find k = some (.leaf v)
  | some (.node s) =>
    (∃ w, a.find k = some (.leaf w) ∧ s = .nil ∧ a'.find k = some (.leaf w)) ∨
    (∃ d sub sub', a.find k = some (.node d sub) ∧ loadInto sub s = .ok sub' ∧
      a'.find k = some (.node d sub'))

theorem LoadedAt_congr {a b a' : Attrs} {k : String} {o : Option YVal} (h : a.find k = b.find k) :
    LoadedAt a a' k o → LoadedAt b a' k o := by
  unfold LoadedAt
  cases o with
  | none => intro h2; rw [h2, h]
  | some o =>
    cases o with
    | leaf v => exact id
    | node s => simp only [h]; exact id

theorem loadInto_find {y : YDict} {a a' : Attrs} (hu : y.Uniq) (h : loadInto a y = .ok a')
    (k : String) : LoadedAt a a' k (y.find k) := by
  induction y generalizing a with
  | nil =>
    simp only [loadInto] at h
    injection h with h
    simp [YDict.find, LoadedAt, h]
  | leaf k0 v r ih =>
    simp only [loadInto] at h
    obtain ⟨hn, hu⟩ := hu
    have := ih hu h
    simp only [YDict.find]
    by_cases hk : k0 = k
    · subst hk
      rw [if_pos rfl]
      rw [hn] at this
      simp only [LoadedAt] at this ⊢
      rw [this, find_set_same]
    · rw [if_neg hk]
      exact LoadedAt_congr (find_set_other a _ hk) this
  | node k0 s r ihs ih =>
    obtain ⟨hn, hus, hu⟩ := hu
    simp only [loadInto] at h
    cases hf : a.find k0 with
    | none => rw [hf] at h; cases h
    | some x =>
      rw [hf] at h
      cases x with
      | leaf w =>
        simp only at h
        by_cases hs : s = .nil
        · rw [if_pos hs] at h
          have := ih hu h
          simp only [YDict.find]
          by_cases hk : k0 = k
          · subst hk
            rw [if_pos rfl]
            rw [hn] at this
            simp only [LoadedAt] at this ⊢
            exact Or.inl ⟨w, hf, hs, by rw [this, hf]⟩
          · rw [if_neg hk]; exact this
        · rw [if_neg hs] at h; cases h
      | node d sub =>
        obtain ⟨sub', h1, h2⟩ := bind_ok_inv h
        have := ih hu h2
        simp only [YDict.find]
        by_cases hk : k0 = k
        · subst hk
          rw [if_pos rfl]
          rw [hn] at this
          simp only [LoadedAt] at this ⊢
          exact Or.inr ⟨d, sub, sub', hf, h1, by rw [this, find_set_same]⟩
        · rw [if_neg hk]
          exact LoadedAt_congr (find_set_other a _ hk) this

theorem interpretLists_find {ev : String → Except PyErr Leaf} {y y' : YDict}
    (h : interpretLists ev y = .ok y') (k : String) :
    (match y.find k with
      | none => y'.find k = none
      | some (.leaf v) => ∃ v', interpretLeaf ev v = .ok v' ∧ y'.find k = some (.leaf v')
      | some (.node s) => ∃ s', interpretLists ev s = .ok s' ∧ y'.find k = some (.node s')) := by
  induction y generalizing y' with
  | nil =>
    simp only [interpretLists] at h
    injection h with h
    subst h
    simp [YDict.find]
  | leaf k0 v r ih =>
    obtain ⟨v', h1, h⟩ := bind_ok_inv h
    obtain ⟨r', h2, h⟩ := bind_ok_inv h
    injection h with h
    subst h
    simp only [YDict.find]
    by_cases hk : k0 = k
    · simp only [if_pos hk]
      exact ⟨v', h1, rfl⟩
    · simp only [if_neg hk]
      exact ih h2
  | node k0 s r ihs ih =>
    obtain ⟨v', h1, h⟩ := bind_ok_inv h
    obtain ⟨r', h2, h⟩ := bind_ok_inv h
    injection h with h
    subst h
    simp only [YDict.find]
    by_cases hk : k0 = k
    · simp only [if_pos hk]
      exact ⟨v', h1, rfl⟩
    · simp only [if_neg hk]
      exact ih h2

theorem interpretLists_uniq {ev : String → Except PyErr Leaf} {y y' : YDict}
    (h : interpretLists ev y = .ok y') (hu : y.Uniq) : y'.Uniq := by
  induction y generalizing y' with
  | nil =>
    simp only [interpretLists] at h
    injection h with h
    subst h
    trivial
  | leaf k0 v r ih =>
    obtain ⟨v', h1, h⟩ := bind_ok_inv h
    obtain ⟨r', h2, h⟩ := bind_ok_inv h
    injection h with h
    subst h
    refine ⟨?_, ih h2 hu.2⟩
    have := interpretLists_find h2 k0
    rw [hu.1] at this
    exact this
  | node k0 s r ihs ih =>
    obtain ⟨v', h1, h⟩ := bind_ok_inv h
    obtain ⟨r', h2, h⟩ := bind_ok_inv h
    injection h with h
    subst h
    refine ⟨?_, ihs h1 hu.2.1, ih h2 hu.2.2⟩
    have := interpretLists_find h2 k0
    rw [hu.1] at this
    exact this

theorem dealNonDataclass_nil {s s' : YDict} (h : dealNonDataclass s = .ok s') (hn : s' = .nil) :
    s = .nil := by
  cases s with
  | nil => rfl
  | leaf k v r =>
    cases v <;> simp only [dealNonDataclass] at h
    all_goals
      first
      | cases h
      | (obtain ⟨r', _, h⟩ := bind_ok_inv h
         injection h with h
         rw [hn] at h; cases h)
  | node k t r => cases h

theorem dealNonDataclass_uniq {s s' : YDict} (h : dealNonDataclass s = .ok s') :
    s' = s := by
  induction s generalizing s' with
  | nil => injection h with h; exact h.symm
  | leaf k v r ih =>
    cases v <;> simp only [dealNonDataclass] at h
    all_goals
      first
      | cases h
      | (obtain ⟨r', h1, h⟩ := bind_ok_inv h
         injection h with h
         rw [← h, ih h1])
  | node k t r => cases h

theorem dealWithArrays_find {decl : Decl} {a : Attrs} {y y' : YDict}
    (h : dealWithArrays decl a y = .ok y') (k : String) :
    (match y.find k with
      | none => y'.find k = none
      | some (.leaf v) => ∃ v', dealLeaf decl k v = .ok v' ∧ y'.find k = some (.leaf v')
      | some (.node s) => ∃ s', y'.find k = some (.node s') ∧
          ((∃ w, a.find k = some (.leaf w) ∧ s' = s) ∨
           (∃ d sub, a.find k = some (.node d sub) ∧ dealWithArrays d sub s = .ok s'))) := by
  induction y generalizing y' with
  | nil =>
    simp only [dealWithArrays] at h
    injection h with h
    subst h
    simp [YDict.find]
  | leaf k0 v r ih =>
    obtain ⟨v', h1, h⟩ := bind_ok_inv h
    obtain ⟨r', h2, h⟩ := bind_ok_inv h
    injection h with h
    subst h
    simp only [YDict.find]
    by_cases hk : k0 = k
    · simp only [if_pos hk]
      exact ⟨v', hk ▸ h1, rfl⟩
    · simp only [if_neg hk]
      exact ih h2
  | node k0 s r ihs ih =>
    simp only [dealWithArrays] at h
    cases hf : a.find k0 with
    | none => rw [hf] at h; cases h
    | some x =>
      rw [hf] at h
      cases x with
      | leaf w =>
        obtain ⟨v', h1, h⟩ := bind_ok_inv h
        obtain ⟨r', h2, h⟩ := bind_ok_inv h
        injection h with h
        subst h
        simp only [YDict.find]
        by_cases hk : k0 = k
        · simp only [if_pos hk]
          exact ⟨v', rfl, Or.inl ⟨w, hk ▸ hf, dealNonDataclass_uniq h1⟩⟩
        · simp only [if_neg hk]
          exact ih h2
      | node d sub =>
        obtain ⟨v', h1, h⟩ := bind_ok_inv h
        obtain ⟨r', h2, h⟩ := bind_ok_inv h
        injection h with h
        subst h
        simp only [YDict.find]
        by_cases hk : k0 = k
        · simp only [if_pos hk]
          exact ⟨v', rfl, Or.inr ⟨d, sub, hk ▸ hf, h1⟩⟩
        · simp only [if_neg hk]
          exact ih h2

theorem dealWithArrays_uniq {decl : Decl} {a : Attrs} {y y' : YDict}
    (h : dealWithArrays decl a y = .ok y') (hu : y.Uniq) : y'.Uniq := by
  induction y generalizing y' decl a with
  | nil =>
    simp only [dealWithArrays] at h
    injection h with h
    subst h
    trivial
  | leaf k0 v r ih =>
    obtain ⟨v', h1, h⟩ := bind_ok_inv h
    obtain ⟨r', h2, h⟩ := bind_ok_inv h
    injection h with h
    subst h
    refine ⟨?_, ih h2 hu.2⟩
    have := dealWithArrays_find h2 k0
    rw [hu.1] at this
    exact this
  | node k0 s r ihs ih =>
    simp only [dealWithArrays] at h
    cases hf : a.find k0 with
    | none => rw [hf] at h; cases h
    | some x =>
      rw [hf] at h
      cases x with
      | leaf w =>
        obtain ⟨v', h1, h⟩ := bind_ok_inv h
        obtain ⟨r', h2, h⟩ := bind_ok_inv h
        injection h with h
        subst h
        refine ⟨?_, ?_, ih h2 hu.2.2⟩
        · have := dealWithArrays_find h2 k0
          rw [hu.1] at this
          exact this
        · rw [dealNonDataclass_uniq h1]; exact hu.2.1
      | node d sub =>
        obtain ⟨v', h1, h⟩ := bind_ok_inv h
        obtain ⟨r', h2, h⟩ := bind_ok_inv h
        injection h with h
        subst h
        refine ⟨?_, ihs h1 hu.2.1, ih h2 hu.2.2⟩
        have := dealWithArrays_find h2 k0
        rw [hu.1] at this
        exact this

theorem loadFromYaml_find {ev : String → Except PyErr Leaf} {decl : Decl} {a a' : Attrs}
    {y : YDict} (hu : y.Uniq) (h : loadFromYaml ev decl a (some y) = .ok a') (k : String) :
    (match y.find k with
      | none => a'.find k = a.find k
      | some (.leaf v) => ∃ u w, interpretLeaf ev v = .ok u ∧ dealLeaf decl k u = .ok w ∧
          a'.find k = some (.leaf w)
      | some (.node s) =>
        (∃ w, a.find k = some (.leaf w) ∧ s = .nil ∧ a'.find k = some (.leaf w)) ∨
        (∃ d sub sub', a.find k = some (.node d sub) ∧
          loadFromYaml ev d sub (some s) = .ok sub' ∧ a'.find k = some (.node d sub'))) := by
  obtain ⟨y1, h1, h⟩ := bind_ok_inv h
  obtain ⟨y2, h2, h3⟩ := bind_ok_inv h
  have hu1 := interpretLists_uniq h1 hu
  have hu2 := dealWithArrays_uniq h2 hu1
  have f1 := interpretLists_find h1 k
  have f2 := dealWithArrays_find h2 k
  have f3 := loadInto_find hu2 h3 k
  cases hy : y.find k with
  | none =>
    rw [hy] at f1
    simp only at f1 ⊢
    rw [f1] at f2
    simp only at f2
    rw [f2] at f3
    exact f3
  | some x =>
    rw [hy] at f1
    cases x with
    | leaf v =>
      obtain ⟨u, hu', f1⟩ := f1
      rw [f1] at f2
      obtain ⟨w, hw, f2⟩ := f2
      rw [f2] at f3
      exact ⟨u, w, hu', hw, f3⟩
    | node s =>
      obtain ⟨s1, hs1, f1⟩ := f1
      rw [f1] at f2
      obtain ⟨s2, f2, hs2⟩ := f2
      rw [f2] at f3
      simp only
      rcases f3 with ⟨w, g1, g2, g3⟩ | ⟨d, sub, sub', g1, g2, g3⟩
      · left
        refine ⟨w, g1, ?_, g3⟩
        rcases hs2 with ⟨w', _, hs2⟩ | ⟨d, sub, hc, _⟩
        · rw [← hs2, g2] at hs1
          cases s with
          | nil => rfl
          | leaf k0 v r =>
            obtain ⟨_, _, hs1⟩ := bind_ok_inv hs1
            obtain ⟨_, _, hs1⟩ := bind_ok_inv hs1
            cases hs1
          | node k0 t r =>
            obtain ⟨_, _, hs1⟩ := bind_ok_inv hs1
            obtain ⟨_, _, hs1⟩ := bind_ok_inv hs1
            cases hs1
        · rw [g1] at hc; cases hc
      · right
        refine ⟨d, sub, sub', g1, ?_, g3⟩
        rcases hs2 with ⟨w', hc, _⟩ | ⟨d', sub'', hc, hs2⟩
        · rw [g1] at hc; cases hc
        · rw [g1] at hc
          injection hc with hc
          injection hc with hc1 hc2
          subst hc1 hc2
          change (interpretLists ev s >>= fun y1 => dealWithArrays d sub y1 >>= fun y2 =>
            loadInto sub y2) = _
          rw [hs1]
          change (dealWithArrays d sub s1 >>= fun y2 => loadInto sub y2) = _
          rw [hs2]
          exact g2

theorem YDict.Uniq.find_node {y s : YDict} {k : String} (hu : y.Uniq)
    (h : y.find k = some (.node s)) : s.Uniq := by
  induction y with
  | nil => cases h
  | leaf k0 v r ih =>
    simp only [YDict.find] at h
    split at h
    · cases h
    · exact ih hu.2 h
  | node k0 t r _ ih =>
    simp only [YDict.find] at h
    split at h
    · injection h with h
      injection h with h
      rw [← h]; exact hu.2.1
    · exact ih hu.2.2 h

theorem Attrs.Uniq.find_node {y s : Attrs} {d : Decl} {k : String} (hu : y.Uniq)
    (h : y.find k = some (.node d s)) : s.Uniq := by
  induction y with
  | nil => cases h
  | leaf k0 v r ih =>
    simp only [Attrs.find] at h
    split at h
    · cases h
    · exact ih hu.2 h
  | node k0 d0 t r _ ih =>
    simp only [Attrs.find] at h
    split at h
    · injection h with h
      injection h with h1 h2
      rw [← h2]; exact hu.2.1
    · exact ih hu.2.2 h

theorem looksLikeList_iff (s : String) : looksLikeList s = true ↔ Bracketed s := by
  unfold looksLikeList Bracketed
  rw [← String.length_toList]
  simp only [Bool.and_eq_true, decide_eq_true_eq, beq_iff_eq]
  constructor
  · rintro ⟨⟨h1, h2⟩, h3⟩
    cases hl : s.toList with
    | nil => rw [hl] at h2; simp at h2
    | cons a r =>
      rw [hl] at h1 h2 h3
      rcases List.eq_nil_or_concat r with h | ⟨m, b, h⟩
      · subst h; simp at h1
      · rw [List.concat_eq_append] at h
        subst h
        refine ⟨m, ?_⟩
        simp only [List.head?_cons, Option.some.injEq] at h2
        rw [← List.cons_append, List.getLast?_append] at h3
        simp at h3
        rw [h2, h3]
  · rintro ⟨m, hm⟩
    rw [hm]
    refine ⟨⟨by simp, rfl⟩, ?_⟩
    rw [← List.cons_append, List.getLast?_append]
    simp

theorem means_of {ev : String → Except PyErr Leaf} {decl : Decl} {k : String} {v u w : Leaf}
    (h1 : interpretLeaf ev v = .ok u) (h2 : dealLeaf decl k u = .ok w) :
    Means ev (decl.lookup k) v w := by
  refine ⟨u, ?_, ?_⟩
  · cases v with
    | str s =>
      simp only [interpretLeaf] at h1 ⊢
      split at h1
      · rename_i hl; exact Or.inl ⟨(looksLikeList_iff s).1 hl, h1⟩
      · rename_i hl
        injection h1 with h1
        exact Or.inr ⟨fun h => hl ((looksLikeList_iff s).2 h), h1.symm⟩
    | scalar s => injection h1 with h1; exact h1.symm
    | list s => injection h1 with h1; exact h1.symm
    | arr s => injection h1 with h1; exact h1.symm
  · cases u with
    | list a =>
      simp only [dealLeaf] at h2 ⊢
      cases hd : decl.lookup k with
      | none => rw [hd] at h2; cases h2
      | some b =>
        rw [hd] at h2
        cases b with
        | true => injection h2 with h2; exact Or.inl ⟨rfl, h2.symm⟩
        | false => injection h2 with h2; exact Or.inr ⟨rfl, h2.symm⟩
    | str s => injection h2 with h2; exact h2.symm
    | scalar s => injection h2 with h2; exact h2.symm
    | arr s => injection h2 with h2; exact h2.symm

theorem Attrs.get_cons (a : Attrs) (k : String) (p : List String) :
    a.get (k :: p) = (a.find k).bind fun x => AVal.at x p := rfl

theorem YDict.get_cons (a : YDict) (k : String) (p : List String) :
    a.get (k :: p) = (a.find k).bind fun x => YVal.at x p := rfl

theorem AVal.at_node (d : Decl) (s : Attrs) {p : List String} (hp : p ≠ []) :
    AVal.at (.node d s) p = s.get p := by
  cases p with
  | nil => exact absurd rfl hp
  | cons k p => rfl

end Danse
