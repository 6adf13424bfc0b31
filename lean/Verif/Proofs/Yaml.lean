import Verif.Model.Yaml
import Verif.Spec.Yaml
import Verif.Proofs.Config

namespace Danse

theorem Attrs.find_set_self (a : Attrs) (k : String) (x : AVal) : (a.set k x).find k = some x := by
  induction a with
  | nil => cases x <;> simp [Attrs.set, Attrs.find]
  | leaf k' v r ih =>
    unfold Attrs.set
    by_cases h : k' = k
    · rw [if_pos h]; cases x <;> simp [Attrs.find, h]
    · rw [if_neg h]; simp [Attrs.find, h, ih]
  | node k' d s r _ ih =>
    unfold Attrs.set
    by_cases h : k' = k
    · rw [if_pos h]; cases x <;> simp [Attrs.find, h]
    · rw [if_neg h]; simp [Attrs.find, h, ih]

theorem Attrs.find_set_ne (a : Attrs) {k k' : String} (hk : k' ≠ k) (x : AVal) :
    (a.set k x).find k' = a.find k' := by
  induction a with
  | nil => cases x <;> simp [Attrs.set, Attrs.find, Ne.symm hk]
  | leaf k2 v r ih =>
    unfold Attrs.set
    by_cases h : k2 = k
    · subst h; rw [if_pos rfl]; cases x <;> simp [Attrs.find, Ne.symm hk]
    · rw [if_neg h]; simp [Attrs.find, ih]
  | node k2 d s r _ ih =>
    unfold Attrs.set
    by_cases h : k2 = k
    · subst h; rw [if_pos rfl]; cases x <;> simp [Attrs.find, Ne.symm hk]
    · rw [if_neg h]; simp [Attrs.find, ih]

theorem fieldTree_leaf {conv : Leaf → Leaf} {k : String} {f : Bool} {r : Decl} {a : Attrs} {v : Leaf} {t : YDict}
    (h : a.find k = some (.leaf v)) (hr : fieldTree conv r a = .ok t) :
    fieldTree conv ((k, f) :: r) a = .ok (.leaf k (conv v) t) := by
  rw [fieldTree]
  split
  · simp_all
  · rename_i h'; rw [h] at h'; injection h' with h'; injection h' with h'; subst h'; rw [hr]; rfl
  · rename_i h'; rw [h] at h'; cases h'

theorem fieldTree_node {conv : Leaf → Leaf} {k : String} {f : Bool} {r d : Decl} {a s : Attrs} {t ts : YDict}
    (h : a.find k = some (.node d s)) (hs : fieldTree conv d s = .ok ts) (hr : fieldTree conv r a = .ok t) :
    fieldTree conv ((k, f) :: r) a = .ok (.node k ts t) := by
  rw [fieldTree]
  split
  · simp_all
  · rename_i h'; rw [h] at h'; cases h'
  · rename_i h'
    rw [h] at h'
    injection h' with h'
    injection h' with h1 h2
    subst h1 h2
    rw [hs, hr]; rfl

theorem Dumpable.nodup {r : Decl} {a : Attrs} (h : Dumpable r a) : (r.map (·.1)).Nodup := by
  induction h with
  | nil => simp
  | leaf _ _ hk _ ih => simp only [List.map_cons, List.nodup_cons]; exact ⟨hk, ih⟩
  | node _ _ hk _ _ ih => simp only [List.map_cons, List.nodup_cons]; exact ⟨hk, ih⟩

theorem lookup_of_nodup {r : Decl} (h : (r.map (·.1)).Nodup) : ∀ p ∈ r, r.lookup p.1 = some p.2 := by
  induction r with
  | nil => simp
  | cons q r ih =>
    obtain ⟨k, f⟩ := q
    simp only [List.map_cons, List.nodup_cons] at h
    intro p hp
    rcases List.mem_cons.1 hp with rfl | hp
    · simp [List.lookup]
    · have hne : p.1 ≠ k := fun e => h.1 (e ▸ List.mem_map_of_mem hp)
      rw [List.lookup_cons, beq_false_of_ne hne]
      exact ih h.2 p hp

/-- Dumping, and the first two passes of loading. -/
theorem dump_passes (ev : String → Except PyErr Leaf) {r : Decl} {a : Attrs} (h : Dumpable r a) :
    ∃ y t, fieldTree toListLeaf r a = .ok y ∧ fieldTree id r a = .ok t ∧ interpretLists ev y = .ok y ∧
      ∀ decl b, SameClasses r a b → (∀ p ∈ r, decl.lookup p.1 = some p.2) → dealWithArrays decl b y = .ok t := by
  induction h with
  | nil a => exact ⟨.nil, .nil, by simp [fieldTree], by simp [fieldTree], rfl, fun _ _ _ _ => rfl⟩
  | @leaf a k isArr r v hf hv hk hr ih =>
    obtain ⟨y, t, h1, h2, h3, h4⟩ := ih
    refine ⟨_, _, fieldTree_leaf hf h1, fieldTree_leaf hf h2, ?_, fun decl b hc hl => ?_⟩
    · unfold interpretLists
      have : interpretLeaf ev (toListLeaf v) = .ok (toListLeaf v) := by
        cases v <;> simp_all [toListLeaf, interpretLeaf, Survives]
      rw [this, h3]; rfl
    · unfold dealWithArrays
      have hlk := hl (k, isArr) (List.mem_cons_self ..)
      have hd : dealLeaf decl k (toListLeaf v) = .ok v := by
        cases v <;> simp_all [toListLeaf, dealLeaf, Survives]
      have hc' : SameClasses r a b := by
        cases hc with
        | leaf _ h => exact h
        | node _ _ _ h => exact h
      rw [hd, h4 decl b hc' fun p hp => hl p (List.mem_cons_of_mem _ hp)]; rfl
  | @node a k isArr r d s hf hs hk hr ihs ih =>
    obtain ⟨y, t, h1, h2, h3, h4⟩ := ih
    obtain ⟨ys, ts, g1, g2, g3, g4⟩ := ihs
    refine ⟨_, _, fieldTree_node hf g1 h1, fieldTree_node hf g2 h2, ?_, fun decl b hc hl => ?_⟩
    · unfold interpretLists
      rw [g3, h3]; rfl
    · cases hc with
      | leaf h' _ => rw [hf] at h'; cases h'
      | @node _ _ _ _ _ d' s1 s2 h' hb hcs hcr =>
        rw [hf] at h'
        injection h' with h'
        injection h' with e1 e2
        subst e1 e2
        unfold dealWithArrays
        rw [hb]
        simp only
        rw [g4 d s2 hcs (lookup_of_nodup hs.nodup), h4 decl b hcr fun p hp => hl p (List.mem_cons_of_mem _ hp)]
        rfl

theorem SameClasses.set {r : Decl} {a b : Attrs} (h : SameClasses r a b) {k : String} (hk : k ∉ r.map (·.1))
    (x : AVal) : SameClasses r a (b.set k x) := by
  induction r with
  | nil => exact .nil _ _
  | cons p r ih =>
    simp only [List.map_cons, List.mem_cons, not_or] at hk
    cases h with
    | leaf h hr => exact .leaf h (ih hr hk.2)
    | node h h' hs hr =>
      exact .node h (by rw [Attrs.find_set_ne _ (Ne.symm hk.1)]; exact h') hs (ih hr hk.2)

theorem SameValues.congr {r : Decl} {a c c' : Attrs} (h : SameValues r a c)
    (hc : ∀ k ∈ r.map (·.1), c'.find k = c.find k) : SameValues r a c' := by
  induction r with
  | nil => exact .nil _ _
  | cons p r ih =>
    have hc1 := hc p.1 (by simp)
    cases h with
    | leaf h h' hr => exact .leaf h (hc1.trans h') (ih hr fun k hk => hc k (List.mem_cons_of_mem _ hk))
    | node h h' hs hr => exact .node h (hc1.trans h') hs (ih hr fun k hk => hc k (List.mem_cons_of_mem _ hk))

/-- The last pass of loading. -/
theorem load_tree {r : Decl} {a : Attrs} (h : Dumpable r a) : ∀ {b t}, SameClasses r a b →
    fieldTree id r a = .ok t → ∃ c, loadInto b t = .ok c ∧ SameValues r a c ∧
      ∀ k, k ∉ r.map (·.1) → c.find k = b.find k := by
  induction h with
  | nil a =>
    intro b t _ ht
    rw [fieldTree] at ht
    injection ht with ht
    subst ht
    exact ⟨b, rfl, .nil _ _, fun _ _ => rfl⟩
  | @leaf a k isArr r v hf hv hk hr ih =>
    intro b t hc ht
    obtain ⟨y, t', -, h2, -, -⟩ := dump_passes (fun _ => .ok v) hr
    rw [fieldTree_leaf hf h2] at ht
    injection ht with ht
    subst ht
    have hc' : SameClasses r a b := by
      cases hc with
      | leaf _ h => exact h
      | node _ _ _ h => exact h
    obtain ⟨c, l1, l2, l3⟩ := ih (hc'.set hk (.leaf v)) h2
    refine ⟨c, l1, .leaf hf ?_ l2, fun k' hk' => ?_⟩
    · rw [l3 k hk, Attrs.find_set_self]
    · simp only [List.map_cons, List.mem_cons, not_or] at hk'
      rw [l3 k' hk'.2, Attrs.find_set_ne _ hk'.1]
  | @node a k isArr r d s hf hs hk hr ihs ih =>
    intro b t hc ht
    obtain ⟨y, t', -, h2, -, -⟩ := dump_passes (fun s => .ok (.str s)) hr
    obtain ⟨ys, ts, -, g2, -, -⟩ := dump_passes (fun s => .ok (.str s)) hs
    rw [fieldTree_node hf g2 h2] at ht
    injection ht with ht
    subst ht
    cases hc with
    | leaf h' _ => rw [hf] at h'; cases h'
    | @node _ _ _ _ _ d' s1 s2 h' hb hcs hcr =>
      rw [hf] at h'
      injection h' with h'
      injection h' with e1 e2
      subst e1 e2
      obtain ⟨cs, m1, m2, -⟩ := ihs hcs g2
      obtain ⟨c, l1, l2, l3⟩ := ih (hcr.set hk (.node d cs)) h2
      refine ⟨c, ?_, .node hf ?_ m2 l2, fun k' hk' => ?_⟩
      · unfold loadInto
        rw [hb]
        simp only
        rw [m1]
        exact l1
      · rw [l3 k hk, Attrs.find_set_self]
      · simp only [List.map_cons, List.mem_cons, not_or] at hk'
        rw [l3 k' hk'.2, Attrs.find_set_ne _ hk'.1]

end Danse
