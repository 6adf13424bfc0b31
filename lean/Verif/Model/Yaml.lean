import Verif.Model.Config

/-!
# Model of `dump_to_yaml_template`

`danse_toolbox/dataclass_methods.py` 217-255: a dataclass instance (and its nested instances) as a YAML
mapping, with arrays as lists. Writing the mapping to a file and reading it again (`yaml.dump`,
`yaml.load`) is not modelled: it is taken to give the same mapping.
-/

namespace Danse

theorem Attrs.find_sizeOf {a : Attrs} {k : String} {d : Decl} {s : Attrs} :
    a.find k = some (.node d s) → sizeOf s < sizeOf a := by
  induction a with
  | nil => intro h; cases h
  | leaf k' v r ih =>
    intro h
    unfold Attrs.find at h
    by_cases hk : k' = k
    · rw [if_pos hk] at h; cases h
    · rw [if_neg hk] at h
      have := ih h
      simp only [Attrs.leaf.sizeOf_spec]
      omega
  | node k' d' s' r _ ih =>
    intro h
    unfold Attrs.find at h
    by_cases hk : k' = k
    · rw [if_pos hk] at h
      injection h with h
      injection h with h1 h2
      subst h2
      simp only [Attrs.node.sizeOf_spec]
      omega
    · rw [if_neg hk] at h
      have := ih h
      simp only [Attrs.node.sizeOf_spec]
      omega

/-- `.tolist()` of an array; other values as they are (dataclass_methods.py 243-247). -/
def toListLeaf : Leaf → Leaf
  | .arr a => .list a
  | v => v

/-- The declared fields of an instance with their values, `conv` applied to those that are not instances;
the recursion of `_convert_to_dict` (dataclass_methods.py 232-248). A declared field without a value is an
`AttributeError` (`getattr`). -/
def fieldTree (conv : Leaf → Leaf) : Decl → Attrs → Except PyErr YDict
  | [], _ => .ok .nil
  | (k, _) :: r, a =>
    match _h : a.find k with
    | none => .error .attributeError
    | some (.leaf v) => do
      let r' ← fieldTree conv r a
      .ok (.leaf k (conv v) r')
    | some (.node d s) => do
      let s' ← fieldTree conv d s
      let r' ← fieldTree conv r a
      .ok (.node k s' r')
termination_by d a => (sizeOf a, d.length)
decreasing_by
  all_goals simp_wf
  all_goals first
    | (apply Prod.Lex.right; omega)
    | (apply Prod.Lex.left; exact Attrs.find_sizeOf (by assumption))

/-- `_convert_to_dict` (dataclass_methods.py 232-248): what `dump_to_yaml_template` writes. -/
def dumpTemplate (decl : Decl) (a : Attrs) : Except PyErr YDict := fieldTree toListLeaf decl a

end Danse
