import Verif.Spec.AudioRead

/-!
# Helper lemmas for C147
-/

namespace Danse

section
variable {K V : Type} [DecidableEq K]

theorem dictGet_set (d : List (K × V)) (k k' : K) (v : V) : dictGet (dictSet d k v) k' = if k' = k then .ok v else dictGet d k' := by
  induction d with
  | nil =>
    simp only [dictSet, dictGet]
    by_cases h : k = k'
    · rw [if_pos h, if_pos h.symm]
    · rw [if_neg h, if_neg (Ne.symm h)]
  | cons e d ih =>
    unfold dictSet
    by_cases h : e.1 = k
    · rw [if_pos h]
      simp only [dictGet]
      by_cases h' : k = k'
      · rw [if_pos h', if_pos h'.symm]
      · rw [if_neg h', if_neg (Ne.symm h'), if_neg (by rw [h]; exact h')]
    · rw [if_neg h]
      simp only [dictGet]
      by_cases h' : e.1 = k'
      · rw [if_pos h', if_pos h', if_neg (by rintro rfl; exact h h')]
      · rw [if_neg h', if_neg h', ih]

theorem dictSet_self {d : List (K × V)} {k : K} {v : V} (h : dictGet d k = .ok v) : dictSet d k v = d := by
  induction d with
  | nil => simp [dictGet] at h
  | cons e d ih =>
    unfold dictGet at h
    unfold dictSet
    by_cases h' : e.1 = k
    · rw [if_pos h'] at h ⊢
      simp only [Except.ok.injEq] at h
      rw [← h, ← h']
    · rw [if_neg h'] at h ⊢
      rw [ih h]

theorem dictGet_some {d : List (K × V)} {k : K} {v : V} (h : dictGet d k = .ok v) : (k, v) ∈ d := by
  induction d with
  | nil => simp [dictGet] at h
  | cons e d ih =>
    unfold dictGet at h
    by_cases h' : e.1 = k
    · rw [if_pos h'] at h
      simp only [Except.ok.injEq] at h
      rw [← h, ← h']
      exact List.mem_cons_self
    · rw [if_neg h'] at h
      exact List.mem_cons_of_mem _ (ih h)

end

variable {N M P A : Type} [DecidableEq N] [DecidableEq M]

theorem readMics_ok {load : P → Except PyErr A} {paths : Except PyErr (List (M × P))} {ms : List M} {acc out : List (M × A)}
    (h : (readMics load paths ms acc).2 = .ok out) : (readMics load paths ms acc).1 = [] ∧
      ∀ m, (m ∈ ms → ∃ a, (paths >>= fun p => dictGet p m >>= load) = .ok a ∧ dictGet out m = .ok a) ∧
        (m ∉ ms → dictGet out m = dictGet acc m) := by
  induction ms generalizing acc with
  | nil =>
    simp only [readMics, Except.ok.injEq] at h
    subst h
    exact ⟨rfl, fun m => ⟨fun h => by simp at h, fun _ => rfl⟩⟩
  | cons x ms ih =>
    rw [readMics] at h ⊢
    cases hx : (paths >>= fun p => dictGet p x >>= load) with
    | error e => rw [hx] at h; simp at h
    | ok a =>
      rw [hx] at h
      simp only at h ⊢
      obtain ⟨h1, h2⟩ := ih h
      refine ⟨h1, fun m => ⟨fun hm => ?_, fun hm => ?_⟩⟩
      · by_cases hmm : m ∈ ms
        · exact (h2 m).1 hmm
        · rcases List.mem_cons.1 hm with rfl | hm
          · exact ⟨a, hx, by rw [(h2 m).2 hmm, dictGet_set, if_pos rfl]⟩
          · exact absurd hm hmm
      · rw [List.mem_cons, not_or] at hm
        rw [(h2 m).2 hm.2, dictGet_set, if_neg hm.1]

theorem readMics_total {load : P → Except PyErr A} {paths : Except PyErr (List (M × P))} {ms : List M} (acc : List (M × A))
    (h : ∀ m ∈ ms, ∃ a, (paths >>= fun p => dictGet p m >>= load) = .ok a) : ∃ out, (readMics load paths ms acc).2 = .ok out := by
  induction ms generalizing acc with
  | nil => exact ⟨acc, rfl⟩
  | cons x ms ih =>
    obtain ⟨a, ha⟩ := h x List.mem_cons_self
    rw [readMics, ha]
    exact ih _ fun m hm => h m (List.mem_cons_of_mem _ hm)

/-- The microphones of a node. -/
def MicSel.items (sel : MicSel N M) (paths : List (N × List (M × P))) (n : N) : Except PyErr (List M) :=
  match sel with
  | .all => (dictGet paths n).map fun p => p.map (·.1)
  | .dict d => (dictGet d n).map PyIter.items
  | .str m => .ok [m]
  | .iter s => .ok s.items

/-- No iterator. -/
def MicSel.Reusable (sel : MicSel N M) : Prop :=
  match sel with
  | .dict d => ∀ e ∈ d, ∀ l, e.2 ≠ .once l
  | .iter s => ∀ l, s ≠ .once l
  | _ => True

theorem left_of_coll {K : Type} {s : PyIter K} (h : ∀ l, s ≠ .once l) (rest : List K) : s.left rest = s := by
  cases s with
  | coll l => rfl
  | once l => exact absurd rfl (h l)

theorem readNode_sel {load : P → Except PyErr A} {paths : List (N × List (M × P))} {sel : MicSel N M} (h : sel.Reusable) (n : N) :
    (readNode load paths sel n).1 = sel := by
  cases sel with
  | all =>
    unfold readNode
    cases dictGet paths n <;> rfl
  | dict d =>
    cases hd : dictGet d n with
    | error e => simp only [readNode, hd]
    | ok s =>
      simp only [readNode, hd]
      have e := left_of_coll (h _ (dictGet_some hd)) (readMics load (dictGet paths n) s.items []).1
      simp only at e
      rw [e, dictSet_self hd]
  | str m => rfl
  | iter s =>
    unfold readNode
    simp only
    rw [left_of_coll h]

theorem readNode_res {load : P → Except PyErr A} {paths : List (N × List (M × P))} {sel : MicSel N M} (n : N) :
    (readNode load paths sel n).2 = (sel.items paths n >>= fun ms => (readMics load (dictGet paths n) ms []).2) := by
  cases sel with
  | all =>
    unfold readNode MicSel.items
    cases dictGet paths n <;> rfl
  | dict d =>
    cases hd : dictGet d n with
    | error e =>
      simp only [readNode, MicSel.items, hd]
      rfl
    | ok s =>
      simp only [readNode, MicSel.items, hd]
      rfl
  | str m => rfl
  | iter s => rfl

theorem readNodes_sel {load : P → Except PyErr A} {paths : List (N × List (M × P))} {sel : MicSel N M} (h : sel.Reusable)
    (ns : List N) (acc : List (N × List (M × A))) : (readNodes load paths sel ns acc).2.1 = sel := by
  induction ns generalizing acc with
  | nil => rfl
  | cons n ns ih =>
    have hs := readNode_sel (load := load) (paths := paths) h n
    rw [readNodes]
    obtain ⟨s', r, hr⟩ : ∃ s' r, readNode load paths sel n = (s', r) := ⟨_, _, rfl⟩
    rw [hr] at hs ⊢
    simp only at hs
    subst hs
    cases r with
    | error e => rfl
    | ok sigs => exact ih _

theorem readNodes_ok {load : P → Except PyErr A} {paths : List (N × List (M × P))} {sel : MicSel N M} (h : sel.Reusable)
    {ns : List N} {acc out : List (N × List (M × A))} (ho : (readNodes load paths sel ns acc).2.2 = .ok out) (n : N) :
      (n ∈ ns → ∃ d, (readNode load paths sel n).2 = .ok d ∧ dictGet out n = .ok d) ∧
        (n ∉ ns → dictGet out n = dictGet acc n) := by
  induction ns generalizing acc with
  | nil =>
    simp only [readNodes, Except.ok.injEq] at ho
    subst ho
    exact ⟨fun h => by simp at h, fun _ => rfl⟩
  | cons x ns ih =>
    have hs := readNode_sel (load := load) (paths := paths) h x
    rw [readNodes] at ho
    obtain ⟨s', r, hr⟩ : ∃ s' r, readNode load paths sel x = (s', r) := ⟨_, _, rfl⟩
    rw [hr] at hs ho
    simp only at hs
    subst hs
    cases r with
    | error e => simp at ho
    | ok sigs =>
      simp only at ho
      obtain h2 := ih ho
      refine ⟨fun hm => ?_, fun hm => ?_⟩
      · by_cases hmm : n ∈ ns
        · exact h2.1 hmm
        · rcases List.mem_cons.1 hm with rfl | hm
          · exact ⟨sigs, by rw [hr], by rw [h2.2 hmm, dictGet_set, if_pos rfl]⟩
          · exact absurd hm hmm
      · rw [List.mem_cons, not_or] at hm
        rw [h2.2 hm.2, dictGet_set, if_neg hm.1]

theorem readNodes_total {load : P → Except PyErr A} {paths : List (N × List (M × P))} {sel : MicSel N M} (h : sel.Reusable)
    {ns : List N} (acc : List (N × List (M × A))) (hn : ∀ n ∈ ns, ∃ d, (readNode load paths sel n).2 = .ok d) :
    ∃ out, (readNodes load paths sel ns acc).2.2 = .ok out := by
  induction ns generalizing acc with
  | nil => exact ⟨acc, rfl⟩
  | cons x ns ih =>
    have hs := readNode_sel (load := load) (paths := paths) h x
    obtain ⟨d, hd⟩ := hn x List.mem_cons_self
    rw [readNodes]
    obtain ⟨s', r, hr⟩ : ∃ s' r, readNode load paths sel x = (s', r) := ⟨_, _, rfl⟩
    rw [hr] at hs hd ⊢
    simp only at hs hd
    subst hs hd
    exact ih _ fun m hm => hn m (List.mem_cons_of_mem _ hm)

/-- With a consumed iterator, every node gets an empty dictionary. -/
theorem readNodes_empty {load : P → Except PyErr A} {paths : List (N × List (M × P))} (ns : List N)
    (acc : List (N × List (M × A))) : readNodes load paths (.iter (.once [])) ns acc =
      ([], .iter (.once []), .ok (ns.foldl (fun a n => dictSet a n []) acc)) := by
  induction ns generalizing acc with
  | nil => rfl
  | cons n ns ih =>
    rw [readNodes]
    exact ih _

theorem foldl_empty (ns : List N) (acc : List (N × List (M × A))) (n : N) :
    dictGet (ns.foldl (fun a n => dictSet a n []) acc) n = if n ∈ ns then .ok [] else dictGet acc n := by
  induction ns generalizing acc with
  | nil => simp
  | cons x ns ih =>
    rw [List.foldl_cons, ih, dictGet_set]
    by_cases h : n ∈ ns
    · rw [if_pos h, if_pos (List.mem_cons_of_mem _ h)]
    · rw [if_neg h]
      by_cases hx : n = x
      · rw [if_pos hx, if_pos (by rw [hx]; exact List.mem_cons_self)]
      · rw [if_neg hx, if_neg (by simp [h, hx])]

end Danse
