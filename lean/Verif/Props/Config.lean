import Verif.Proofs.Config2

/-!
# Properties C43, C44, C65: export folder and configuration files
-/

namespace Danse

/-! ## C43 -/

/-- C43 (a): a file disappears from the export folder only if the exports are not bypassed,
overwriting was not requested in the parameters, and the user's first valid answer was `y`/`Y`. -/
theorem C43_no_silent_loss {bypass over : Bool} {canDelete : String → Bool} {st st' : PathState}
    {ans rest : List String} {runit : Bool}
    (h : checkExportFolder bypass over canDelete st ans = .ok (runit, st', rest))
    {e : String × String} (he : e ∈ st.files) (he' : e ∉ st'.files) :
    bypass = false ∧ over = false ∧ runit = true ∧
      ∃ a, FirstValidAnswer ans a rest ∧ (a = "y" ∨ a = "Y") := by
  unfold checkExportFolder at h
  by_cases hb : bypass = true
  · rw [if_pos hb] at h
    injection h with h; injection h with _ h; injection h with h _
    exact absurd (h ▸ he) he'
  rw [if_neg hb] at h
  have hb : bypass = false := by simpa using hb
  cases st with
  | absent => simp [PathState.files] at he
  | file => simp [PathState.files] at he
  | dir es =>
    simp only at h
    by_cases ho : over = true
    · rw [if_pos ho] at h
      injection h with h; injection h with _ h; injection h with h _
      exact absurd (h ▸ he) he'
    rw [if_neg ho] at h
    have ho : over = false := by simpa using ho
    by_cases hes : es.isEmpty = true
    · rw [if_pos hes] at h
      injection h with h; injection h with _ h; injection h with h _
      exact absurd (h ▸ he) he'
    rw [if_neg hes] at h
    cases hask : askOverwrite ans with
    | error e => rw [hask] at h; cases h
    | ok q =>
      obtain ⟨b, r⟩ := q
      rw [hask] at h
      cases b with
      | false =>
        injection h with h; injection h with _ h; injection h with h _
        exact absurd (h ▸ he) he'
      | true =>
        injection h with h; injection h with h1 h; injection h with h2 h3
        subst h3
        obtain ⟨a, ha, hy⟩ := askOverwrite_ok.1 hask
        refine ⟨hb, ho, h1.symm, a, ha, ?_⟩
        have := of_decide_eq_true hy.symm
        simpa using this

example : checkExportFolder false false (fun _ => true) (.dir [("a.wav", "x")]) ["maybe", "Y", "n"] =
    .ok (true, .dir [], ["n"]) := by decide

/-- C43 (b): the run is refused exactly when the folder is a non-empty directory, neither bypass
nor overwriting was requested, and the first valid answer is `n`/`N`; nothing is then deleted. -/
theorem C43_refusal (bypass over : Bool) (canDelete : String → Bool) (st st' : PathState)
    (ans rest : List String) :
    checkExportFolder bypass over canDelete st ans = .ok (false, st', rest) ↔
      bypass = false ∧ over = false ∧ st' = st ∧ st.files ≠ [] ∧
      ∃ a, FirstValidAnswer ans a rest ∧ (a = "n" ∨ a = "N") := by
  unfold checkExportFolder
  by_cases hb : bypass = true
  · rw [if_pos hb]
    simp [hb]
  rw [if_neg hb]
  have hb : bypass = false := by simpa using hb
  cases st with
  | absent => simp [PathState.files]
  | file => simp [PathState.files]
  | dir es =>
    simp only
    by_cases ho : over = true
    · rw [if_pos ho]; simp [ho]
    rw [if_neg ho]
    have ho : over = false := by simpa using ho
    by_cases hes : es.isEmpty = true
    · rw [if_pos hes]
      have : es = [] := by simpa using hes
      simp [this, PathState.files]
    rw [if_neg hes]
    have hne : es ≠ [] := by simpa using hes
    constructor
    · intro h
      cases hask : askOverwrite ans with
      | error e => rw [hask] at h; cases h
      | ok q =>
        obtain ⟨b, r⟩ := q
        rw [hask] at h
        cases b with
        | true => simp at h
        | false =>
          injection h with h; injection h with h1 h; injection h with h2 h3
          subst h3
          obtain ⟨a, ha, hy⟩ := askOverwrite_ok.1 hask
          refine ⟨hb, ho, h2.symm, hne, a, ha, ?_⟩
          have h4 := of_decide_eq_false hy.symm
          obtain ⟨_, _, _, h5⟩ := ha
          simp only [List.mem_cons, List.not_mem_nil, or_false] at h4 h5
          tauto
    · rintro ⟨_, _, h1, _, a, ha, hn⟩
      have : askOverwrite ans = .ok (false, rest) := by
        refine askOverwrite_ok.2 ⟨a, ha, ?_⟩
        rcases hn with h | h <;> subst h <;> decide
      rw [this, h1]

example : checkExportFolder false false (fun _ => true) (.dir [("a.wav", "x")]) ["no", "n"] =
    .ok (false, .dir [("a.wav", "x")], []) := by decide

/-- C43 (c): when the run is allowed and exports are not bypassed, the export folder exists
afterwards; files other than those the user agreed to lose are all still there, none is added,
and after an accepted overwrite only entries that could not be deleted remain. -/
theorem C43_folder_after {over : Bool} {canDelete : String → Bool} {st st' : PathState}
    {ans rest : List String}
    (h : checkExportFolder false over canDelete st ans = .ok (true, st', rest)) :
    ∃ es', st' = .dir es' ∧
      (es' = st.files ∨ (over = false ∧ ∀ e, e ∈ es' ↔ e ∈ st.files ∧ canDelete e.1 = false)) := by
  unfold checkExportFolder at h
  rw [if_neg (by simp)] at h
  cases st with
  | absent =>
    injection h with h; injection h with _ h; injection h with h _
    exact ⟨[], h.symm, Or.inl rfl⟩
  | file => cases h
  | dir es =>
    simp only at h
    by_cases ho : over = true
    · rw [if_pos ho] at h
      injection h with h; injection h with _ h; injection h with h _
      exact ⟨es, h.symm, Or.inl rfl⟩
    rw [if_neg ho] at h
    have ho : over = false := by simpa using ho
    by_cases hes : es.isEmpty = true
    · rw [if_pos hes] at h
      injection h with h; injection h with _ h; injection h with h _
      exact ⟨es, h.symm, Or.inl rfl⟩
    rw [if_neg hes] at h
    cases hask : askOverwrite ans with
    | error e => rw [hask] at h; cases h
    | ok q =>
      obtain ⟨b, r⟩ := q
      rw [hask] at h
      cases b with
      | false => simp at h
      | true =>
        injection h with h; injection h with h1 h; injection h with h2 h3
        refine ⟨_, h2.symm, Or.inr ⟨ho, fun e => ?_⟩⟩
        simp [wipeFolder, PathState.files]

/-- C43 (d): the check fails only when the path is a file, or when the input ends before a valid
answer; in particular it never loops once a valid answer is available. -/
theorem C43_failures (bypass over : Bool) (canDelete : String → Bool) (st : PathState)
    (ans : List String) (e : PyErr)
    (h : checkExportFolder bypass over canDelete st ans = .error e) :
    (e = .fileExistsError ∧ st = .file) ∨
      (e = .eofError ∧ st.files ≠ [] ∧ over = false ∧ ∀ a ∈ ans, a ∉ ["y", "Y", "n", "N"]) := by
  unfold checkExportFolder at h
  by_cases hb : bypass = true
  · rw [if_pos hb] at h; cases h
  rw [if_neg hb] at h
  cases st with
  | absent => cases h
  | file => injection h with h; exact Or.inl ⟨h.symm, rfl⟩
  | dir es =>
    simp only at h
    by_cases ho : over = true
    · rw [if_pos ho] at h; cases h
    rw [if_neg ho] at h
    by_cases hes : es.isEmpty = true
    · rw [if_pos hes] at h; cases h
    rw [if_neg hes] at h
    cases hask : askOverwrite ans with
    | error e' =>
      rw [hask] at h
      injection h with h
      subst h
      obtain ⟨h1, h2⟩ := askOverwrite_error.1 hask
      exact Or.inr ⟨h1, by simpa [PathState.files] using hes, by simpa using ho, h2⟩
    | ok q =>
      obtain ⟨b, r⟩ := q
      rw [hask] at h
      cases b <;> cases h

example : checkExportFolder false false (fun _ => true) (.dir [("a.wav", "x")]) ["?", "yes"] =
    .error .eofError := by decide

/-- C43, refuted part: with `writeOverPrevious` the announced overwriting keeps every old file. -/
theorem C43_refuted_overwrite_wipes (canDelete : String → Bool) (es : List (String × String))
    (ans : List String) :
    checkExportFolder false true canDelete (.dir es) ans = .ok (true, .dir es, ans) := rfl

/-! ## C44 -/

/-- C44 (a): every value given in the configuration file, at any depth, is what the parameter
object contains afterwards (before re-initialisation), bracketed strings being parsed and lists
turned into arrays exactly for the fields declared as arrays. -/
theorem C44_given {ev : String → Except PyErr Leaf} {decl : Decl} {a a' : Attrs} {y : YDict}
    (hu : y.Uniq) (h : loadFromYaml ev decl a (some y) = .ok a') {p : List String} {v : Leaf}
    (hv : y.get p = some (.leaf v)) :
    ∃ w, Means ev (declaredArray decl a p) v w ∧ a'.get p = some (.leaf w) := by
  induction p generalizing decl a a' y with
  | nil => cases hv
  | cons k p ih =>
    have hf := loadFromYaml_find hu h k
    rw [YDict.get_cons] at hv
    rw [Attrs.get_cons]
    cases hy : y.find k with
    | none => rw [hy] at hv; cases hv
    | some x =>
      rw [hy] at hv hf
      cases x with
      | leaf v0 =>
        cases p with
        | cons k' p => cases hv
        | nil =>
          injection hv with hv
          injection hv with hv
          subst hv
          obtain ⟨u, w, h1, h2, h3⟩ := hf
          exact ⟨w, means_of h1 h2, by rw [h3]; rfl⟩
      | node s =>
        cases p with
        | nil => cases hv
        | cons k' p =>
          change s.get (k' :: p) = _ at hv
          rcases hf with ⟨w, g1, g2, g3⟩ | ⟨d, sub, sub', g1, g2, g3⟩
          · rw [g2] at hv; cases hv
          · obtain ⟨w, hw, hw2⟩ := ih (hu.find_node hy) g2 hv
            refine ⟨w, ?_, ?_⟩
            · simp only [declaredArray, g1]; exact hw
            · rw [g3]; exact hw2

/-- A literal evaluator for the examples. -/
def exEv : String → Except PyErr Leaf
  | "[1, 2]" => .ok (.list ⟨[2], [1, 2]⟩)
  | _ => .error .valueError

/-- An object with a sub-dataclass whose field `sro` is declared as an array. -/
def exAttrs : Attrs :=
  .leaf "seed" (.scalar "12345")
    (.node "wasn" [("sro", true), ("names", false)]
      (.leaf "sro" (.arr ⟨[1], [0]⟩) (.leaf "names" (.list ⟨[0], []⟩) .nil)) .nil)

/-- `{seed: 3, wasn: {sro: "[1, 2]"}}` -/
def exYaml : YDict :=
  .leaf "seed" (.scalar "3") (.node "wasn" (.leaf "sro" (.str "[1, 2]") .nil) .nil)

example : loadFromYaml exEv [("seed", false)] exAttrs (some exYaml) = .ok
    (.leaf "seed" (.scalar "3")
      (.node "wasn" [("sro", true), ("names", false)]
        (.leaf "sro" (.arr ⟨[2], [1, 2]⟩) (.leaf "names" (.list ⟨[0], []⟩) .nil)) .nil)) := by
  decide +kernel

example : exYaml.Uniq := by simp [exYaml, YDict.Uniq, YDict.find]

/-- C44 (b): every field that the file does not mention (neither it nor an enclosing section
replaced by a plain value) keeps the value it had. -/
theorem C44_untouched {ev : String → Except PyErr Leaf} {decl : Decl} {a a' : Attrs} {y : YDict}
    (hu : y.Uniq) (h : loadFromYaml ev decl a (some y) = .ok a') {p : List String}
    (hp : ∀ q, q <+: p → ∀ v, y.get q ≠ some (.leaf v)) (v : Leaf) :
    a'.get p = some (.leaf v) ↔ a.get p = some (.leaf v) := by
  induction p generalizing decl a a' y with
  | nil => simp [Attrs.get, AVal.at]
  | cons k p ih =>
    have hf := loadFromYaml_find hu h k
    rw [Attrs.get_cons, Attrs.get_cons]
    cases hy : y.find k with
    | none => rw [hy] at hf; rw [hf]
    | some x =>
      rw [hy] at hf
      cases x with
      | leaf v0 =>
        exact absurd (by rw [YDict.get_cons, hy]; rfl) (hp [k] (by simp) v0)
      | node s =>
        rcases hf with ⟨w, g1, g2, g3⟩ | ⟨d, sub, sub', g1, g2, g3⟩
        · rw [g1, g3]
        · rw [g1, g3]
          cases p with
          | nil => simp [AVal.at]
          | cons k' p =>
            refine ih (hu.find_node hy) g2 ?_
            intro q hq v0
            have := hp (k :: q) (by simpa using hq) v0
            rw [YDict.get_cons, hy] at this
            cases q with
            | nil => intro hc; cases hc
            | cons q0 q => exact this

/-- C44 (c): a non-empty section of the file that is not a sub-object of the parameters makes the
load fail: after a successful load every section corresponds to one. -/
theorem C44_sections_known {ev : String → Except PyErr Leaf} {decl : Decl} {a a' : Attrs}
    {y s : YDict} (hu : y.Uniq) (h : loadFromYaml ev decl a (some y) = .ok a') {p : List String}
    (hs : y.get p = some (.node s)) (hne : s ≠ .nil) :
    ∃ d sub, a.get p = some (.node d sub) := by
  induction p generalizing decl a a' y with
  | nil => exact ⟨[], a, rfl⟩
  | cons k p ih =>
    have hf := loadFromYaml_find hu h k
    rw [YDict.get_cons] at hs
    rw [Attrs.get_cons]
    cases hy : y.find k with
    | none => rw [hy] at hs; cases hs
    | some x =>
      rw [hy] at hs hf
      cases x with
      | leaf v0 => cases p <;> cases hs
      | node s0 =>
        rcases hf with ⟨w, g1, g2, g3⟩ | ⟨d, sub, sub', g1, g2, g3⟩
        · rw [g2] at hs
          cases p with
          | nil => injection hs with hs; injection hs with hs; exact absurd hs.symm hne
          | cons k' p => cases hs
        · rw [g1]
          cases p with
          | nil => exact ⟨d, sub, rfl⟩
          | cons k' p => exact ih (hu.find_node hy) g2 hs

/-- C44 (d): a list given for a name that is not a declared field, at any depth, is rejected. -/
theorem C44_unknown_list_rejected (ev : String → Except PyErr Leaf) (decl : Decl) (a : Attrs)
    (y : YDict) (hu : y.Uniq) (p : List String) (l : NumArr)
    (hv : y.get p = some (.leaf (.list l))) (hd : declaredArray decl a p = none) :
    ∃ e, loadFromYaml ev decl a (some y) = .error e := by
  cases h : loadFromYaml ev decl a (some y) with
  | error e => exact ⟨e, rfl⟩
  | ok a' =>
    obtain ⟨w, ⟨u, h1, h2⟩, _⟩ := C44_given hu h hv
    rw [hd] at h2
    simp only at h1
    subst h1
    simp at h2

example : loadFromYaml exEv [("seed", false)] exAttrs
    (some (.node "wasn" (.leaf "sros" (.list ⟨[1], [5]⟩) .nil) .nil)) = .error .keyError := by
  decide +kernel

/-- C44, refuted part: a misspelt name with a plain value is silently accepted, whatever the
parameter object: it becomes a new attribute, and every declared field keeps its value. -/
theorem C44_refuted_unknown_name (ev : String → Except PyErr Leaf) (decl : Decl) (a : Attrs)
    (k s : String) (hk : a.find k = none) :
    ∃ a', loadFromYaml ev decl a (some (.leaf k (.scalar s) .nil)) = .ok a' ∧
      a.get [k] = none ∧ a'.get [k] = some (.leaf (.scalar s)) ∧
      ∀ k' p, k' ≠ k → a'.get (k' :: p) = a.get (k' :: p) := by
  refine ⟨a.set k (.leaf (.scalar s)), rfl, ?_, ?_, ?_⟩
  · rw [Attrs.get_cons, hk]; rfl
  · rw [Attrs.get_cons, find_set_same]; rfl
  · intro k' p h
    rw [Attrs.get_cons, Attrs.get_cons, find_set_other _ _ (fun h' => h h'.symm)]

/-! ## C65 -/

/-- C65 (refuted isolation, in general): whatever objects are created and whatever configuration
files are loaded into whichever of them, all parameter objects of the process always agree on
every nested parameter. -/
theorem C65_refuted_isolation_all_agree {dflt : Attrs} (hd : dflt.Flat) (steps : List ParamStep)
    {w w' : ParamWorld} (hw : ∀ o ∈ w.own, o.Flat) (h : w.run dflt steps = .ok w')
    (i j : Nat) (hi : i < w'.own.length) (hj : j < w'.own.length) (k k' : String)
    (p : List String) : w'.read i (k :: k' :: p) = w'.read j (k :: k' :: p) := by
  have hflat : ∀ o ∈ w'.own, o.Flat := by
    clear hi hj
    induction steps generalizing w with
    | nil => injection h with h; rw [← h]; exact hw
    | cons s r ih =>
      obtain ⟨w1, h1, h⟩ := bind_ok_inv h
      refine ih ?_ h
      cases s with
      | new =>
        injection h1 with h1
        rw [← h1]
        intro o ho
        rcases List.mem_append.1 ho with ho | ho
        · exact hw o ho
        · rw [List.mem_singleton.1 ho]; exact hd
      | load i y =>
        simp only [ParamWorld.step] at h1
        cases ho : w.own[i]? with
        | none => rw [ho] at h1; cases h1
        | some o =>
          rw [ho] at h1
          obtain ⟨o', g1, h1⟩ := bind_ok_inv h1
          obtain ⟨s', g2, h1⟩ := bind_ok_inv h1
          injection h1 with h1
          rw [← h1]
          intro x hx
          rcases List.mem_or_eq_of_mem_set hx with hx | hx
          · exact hw x hx
          · rw [hx]; exact flat_loadInto (hw o (List.mem_of_getElem? ho)) g1
  unfold ParamWorld.read
  rw [List.getElem?_eq_getElem hi, List.getElem?_eq_getElem hj]
  simp only
  rw [flat_get (hflat _ (List.getElem_mem hi)), flat_get (hflat _ (List.getElem_mem hj))]

/-- C65 (refuted, concrete): two parameter objects, each loaded from its own file; the second
load changes what the first object says. -/
theorem C65_refuted_isolation :
    ∃ (dflt : Attrs) (w0 w1 w2 : ParamWorld) (y1 y2 : YDict) (p : List String) (v1 v2 : Leaf),
      w0.own = [] ∧
      w0.run dflt [.new, .load 0 y1] = .ok w1 ∧ w1.read 0 p = some (.leaf v1) ∧
      w1.run dflt [.new, .load 1 y2] = .ok w2 ∧ w2.read 0 p = some (.leaf v2) ∧ v1 ≠ v2 := by
  refine ⟨.leaf "seed" (.scalar "12345") .nil,
    ⟨.node "wasnParams" [] (.leaf "t60" (.scalar "0") .nil) .nil, []⟩,
    ⟨.node "wasnParams" [] (.leaf "t60" (.scalar "0.2") .nil) .nil,
      [.leaf "seed" (.scalar "12345") .nil]⟩,
    ⟨.node "wasnParams" [] (.leaf "t60" (.scalar "0.7") .nil) .nil,
      [.leaf "seed" (.scalar "12345") .nil, .leaf "seed" (.scalar "12345") .nil]⟩,
    .node "wasnParams" (.leaf "t60" (.scalar "0.2") .nil) .nil,
    .node "wasnParams" (.leaf "t60" (.scalar "0.7") .nil) .nil,
    ["wasnParams", "t60"], .scalar "0.2", .scalar "0.7", rfl, ?_, ?_, ?_, ?_, by decide⟩
  all_goals simp [ParamWorld.run, ParamWorld.step, YDict.leaves, YDict.nodes, loadInto,
    Attrs.find, Attrs.set, ParamWorld.read, Attrs.get, AVal.at, bind, Except.bind]

/-- C65 (what does hold): loading a file into one object gives every object of the process the
nested values of that file, and leaves every nested value the file does not mention as it was,
including those set by earlier files. -/
theorem C65_load_effect {dflt : Attrs} {w w' : ParamWorld} {i : Nat} {y : YDict}
    (hflat : ∀ o ∈ w.own, o.Flat) (hu : y.Uniq) (h : w.step dflt (.load i y) = .ok w')
    (j : Nat) (hj : j < w.own.length) (k k' : String) (p : List String) :
    (∀ v, y.get (k :: k' :: p) = some (.leaf v) →
      w'.read j (k :: k' :: p) = some (.leaf v)) ∧
    ((∀ q, q <+: k :: k' :: p → ∀ v, y.get q ≠ some (.leaf v)) → ∀ v,
      (w'.read j (k :: k' :: p) = some (.leaf v) ↔ w.read j (k :: k' :: p) = some (.leaf v))) := by
  simp only [ParamWorld.step] at h
  cases ho : w.own[i]? with
  | none => rw [ho] at h; cases h
  | some o =>
    rw [ho] at h
    obtain ⟨o', g1, h⟩ := bind_ok_inv h
    obtain ⟨s', g2, h⟩ := bind_ok_inv h
    injection h with h
    have hr : ∀ q, w'.read j (k :: k' :: q) = s'.get (k :: k' :: q) := by
      intro q
      rw [← h]
      unfold ParamWorld.read
      have hj' : j < (w.own.set i o').length := by rw [List.length_set]; exact hj
      rw [List.getElem?_eq_getElem hj']
      simp only
      rw [flat_get]
      have := List.getElem_mem hj'
      rcases List.mem_or_eq_of_mem_set this with hx | hx
      · exact hflat _ hx
      · rw [hx]; exact flat_loadInto (hflat o (List.mem_of_getElem? ho)) g1
    have hr0 : ∀ q, w.read j (k :: k' :: q) = w.shared.get (k :: k' :: q) := by
      intro q
      unfold ParamWorld.read
      rw [List.getElem?_eq_getElem hj]
      simp only
      rw [flat_get (hflat _ (List.getElem_mem hj))]
    refine ⟨?_, ?_⟩
    · intro v hv
      rw [hr]
      refine loadInto_get (nodes_uniq hu) g2 ?_
      rcases nodes_get (y := y) k k' p with h1 | ⟨v', h1⟩
      · rw [h1]; exact hv
      · rw [YDict.get_cons] at h1 hv
        cases hy : y.find k with
        | none => rw [hy] at h1; cases h1
        | some x => rw [hy] at h1 hv; cases x <;> first | cases hv | cases h1
    · intro hp v
      rw [hr, hr0]
      refine loadInto_untouched (nodes_uniq hu) g2 ?_ v
      intro q hq v'
      rcases q with _ | ⟨q0, _ | ⟨q1, q⟩⟩
      · intro hc; cases hc
      · have hk : q0 = k := by
          obtain ⟨t, ht⟩ := hq
          simp at ht
          exact ht.1
        subst hk
        rw [YDict.get_cons]
        rcases nodes_find y q0 with h1 | ⟨v'', h1⟩
        · rw [h1]
          cases y.find q0 with
          | none => simp
          | some x => cases x <;> simp [YVal.at]
        · exact absurd (by rw [YDict.get_cons, h1]; rfl) (hp [q0] (by simp) v'')
      · rcases nodes_get (y := y) q0 q1 q with h1 | ⟨v'', h1⟩
        · rw [h1]; exact hp _ hq v'
        · refine absurd h1 (hp [q0] ?_ v'')
          obtain ⟨t, ht⟩ := hq
          exact ⟨q1 :: q ++ t, by simpa using ht⟩

end Danse
