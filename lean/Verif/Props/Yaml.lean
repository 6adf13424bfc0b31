import Verif.Proofs.Yaml

/-!
# Property C118: a template of a parameter object can be loaded again

`dumpTemplate decl a` is the mapping that `dump_to_yaml_template` writes for an instance with declared fields
`decl` and attributes `a`; `loadFromYaml` reads a mapping into an instance `b` (`__post_init__` not included).
-/

namespace Danse

/-- C118 (round trip): a template of an object whose values survive is written, and loading it into any
instance of the same classes succeeds and gives all the declared fields, also those of nested instances,
the values they had in the object; attributes that are not declared keep their values. -/
theorem C118_roundtrip (ev : String → Except PyErr Leaf) {decl : Decl} {a b : Attrs} (h : Dumpable decl a)
    (hb : SameClasses decl a b) :
    ∃ y c, dumpTemplate decl a = .ok y ∧ loadFromYaml ev decl b (some y) = .ok c ∧ SameValues decl a c ∧
      ∀ k, k ∉ decl.map (·.1) → c.find k = b.find k := by
  obtain ⟨y, t, h1, h2, h3, h4⟩ := dump_passes ev h
  obtain ⟨c, l1, l2, l3⟩ := load_tree h hb h2
  refine ⟨y, c, h1, ?_, l2, l3⟩
  unfold loadFromYaml
  simp only
  rw [h3]
  change (dealWithArrays decl b y).bind (fun y2 => loadInto b y2) = _
  rw [h4 decl b hb (lookup_of_nodup h.nodup)]
  exact l1

/-- C118 (missing value): a declared field without a value, or a nested instance of which no template can be
made, makes the dump fail. -/
theorem C118_unset {decl : Decl} {a : Attrs} {y : YDict} (h : dumpTemplate decl a = .ok y) :
    ∀ p ∈ decl, ∃ x, a.find p.1 = some x ∧ ∀ d s, x = .node d s → ∃ y', dumpTemplate d s = .ok y' := by
  unfold dumpTemplate at h ⊢
  induction decl generalizing y with
  | nil => simp
  | cons q r ih =>
    obtain ⟨k, f⟩ := q
    rw [fieldTree] at h
    split at h
    · cases h
    · rename_i v hf
      obtain ⟨t, ht, -⟩ := bind_ok_inv h
      intro p hp
      rcases List.mem_cons.1 hp with rfl | hp
      · exact ⟨_, hf, fun d s e => by cases e⟩
      · exact ih ht p hp
    · rename_i d s hf
      obtain ⟨t1, hs, h⟩ := bind_ok_inv h
      obtain ⟨t, ht, -⟩ := bind_ok_inv h
      intro p hp
      rcases List.mem_cons.1 hp with rfl | hp
      · refine ⟨_, hf, fun d' s' e => ?_⟩
        injection e with e1 e2
        subst e1 e2
        exact ⟨_, hs⟩
      · exact ih ht p hp

/-- C118 (refuted for arrays in list fields): an array that is the value of a field declared as something else
(such as `nSensorPerNode` after a layout was loaded) comes back as a list. -/
theorem C118_refuted_array (ev : String → Except PyErr Leaf) (k : String) (x : NumArr) (b : Attrs) :
    ∃ y c, dumpTemplate [(k, false)] (.leaf k (.arr x) .nil) = .ok y ∧
      loadFromYaml ev [(k, false)] b (some y) = .ok c ∧ c.find k = some (.leaf (.list x)) := by
  refine ⟨.leaf k (.list x) .nil, b.set k (.leaf (.list x)), ?_, ?_, Attrs.find_set_self _ _ _⟩
  · exact fieldTree_leaf (v := .arr x) (by simp [Attrs.find]) (by rw [fieldTree])
  · have e : dealLeaf [(k, false)] k (.list x) = .ok (.list x) := by simp [dealLeaf, List.lookup]
    change ((dealLeaf [(k, false)] k (.list x)).bind fun v => _).bind _ = _
    rw [e]
    rfl

/-- C118 (refuted for strings that look like lists): a string in square brackets comes back as what
`ast.literal_eval` makes of it, or makes loading fail. -/
theorem C118_refuted_string (ev : String → Except PyErr Leaf) (k s : String) (hs : looksLikeList s = true) (b : Attrs) :
    ∃ y, dumpTemplate [(k, false)] (.leaf k (.str s) .nil) = .ok y ∧
      (∀ e, ev s = .error e → loadFromYaml ev [(k, false)] b (some y) = .error e) ∧
      ∀ v, ev s = .ok v → ∃ c, loadFromYaml ev [(k, false)] b (some y) = .ok c ∧ c.find k = some (.leaf v) := by
  refine ⟨.leaf k (.str s) .nil, fieldTree_leaf (v := .str s) (by simp [Attrs.find]) (by rw [fieldTree]),
    fun e he => ?_, fun v hv => ⟨b.set k (.leaf v), ?_, Attrs.find_set_self _ _ _⟩⟩
  · change ((interpretLeaf ev (.str s)).bind fun v => _).bind _ = _
    unfold interpretLeaf
    simp only
    rw [if_pos hs, he]
    rfl
  · change ((interpretLeaf ev (.str s)).bind fun v => _).bind _ = _
    unfold interpretLeaf
    simp only
    rw [if_pos hs, hv]
    have e : dealLeaf [(k, false)] k v = .ok v := by
      cases v <;> simp [dealLeaf, List.lookup]
    change ((dealLeaf [(k, false)] k v).bind fun v => _).bind _ = _
    rw [e]
    rfl

/-- A class with a number, an array, a list and a nested instance with one string. -/
def exTplDecl : Decl := [("seed", false), ("rd", true), ("files", false), ("topo", false)]
def exTplObj (ty : String) (rd : List ℚ) : Attrs :=
  .leaf "seed" (.scalar "12345") (.leaf "rd" (.arr ⟨[3], rd⟩) (.leaf "files" (.list ⟨[2], [1, 2]⟩)
    (.node "topo" [("type", false)] (.leaf "type" (.str ty) .nil) (.leaf "testid" (.str "J1") .nil))))

/-- The hypotheses of `C118_roundtrip` are met; the loaded object differed in two values. -/
example : Dumpable exTplDecl (exTplObj "ad-hoc" [5, 5, 5]) ∧
    SameClasses exTplDecl (exTplObj "ad-hoc" [5, 5, 5]) (exTplObj "fully-connected" [1, 2, 3]) ∧
    (do let y ← dumpTemplate exTplDecl (exTplObj "ad-hoc" [5, 5, 5])
        loadFromYaml (fun _ => .error .valueError) exTplDecl (exTplObj "fully-connected" [1, 2, 3]) (some y)) =
      .ok (exTplObj "ad-hoc" [5, 5, 5]) := by
  refine ⟨?_, ?_, ?_⟩
  · refine .leaf rfl trivial (by decide) (.leaf rfl rfl (by decide) (.leaf rfl rfl (by decide)
      (.node rfl (.leaf rfl (by unfold Survives; decide +kernel) (by decide) (.nil _)) (by decide) (.nil _))))
  · exact .leaf rfl (.leaf rfl (.leaf rfl (.node rfl rfl (.leaf rfl (.nil _ _)) (.nil _ _))))
  · have e : dumpTemplate exTplDecl (exTplObj "ad-hoc" [5, 5, 5]) =
        .ok (.leaf "seed" (.scalar "12345") (.leaf "rd" (.list ⟨[3], [5, 5, 5]⟩) (.leaf "files" (.list ⟨[2], [1, 2]⟩)
          (.node "topo" (.leaf "type" (.str "ad-hoc") .nil) .nil)))) := by
      refine fieldTree_leaf (v := .scalar "12345") rfl (fieldTree_leaf (v := .arr _) rfl (fieldTree_leaf (v := .list _) rfl
        (fieldTree_node (d := [("type", false)]) rfl (fieldTree_leaf (v := .str "ad-hoc") rfl (by rw [fieldTree])) (by rw [fieldTree]))))
    rw [e]
    decide +kernel

/-- The hypothesis of `C118_refuted_string` is met. -/
example : looksLikeList "[0, 1]" = true := by decide +kernel

end Danse
