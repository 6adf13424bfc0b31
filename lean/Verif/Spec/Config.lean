import Verif.Model.Config

/-!
# Specification of configuration and result files
-/

namespace Danse

/-- The first answer the prompt recognises is `a`; the answers after it are `rest`. -/
def FirstValidAnswer (answers : List String) (a : String) (rest : List String) : Prop :=
  ∃ pre, answers = pre ++ a :: rest ∧ (∀ b ∈ pre, b ∉ ["y", "Y", "n", "N"]) ∧
    a ∈ ["y", "Y", "n", "N"]

/-- Files of a path. -/
def PathState.files : PathState → List (String × String)
  | .dir es => es
  | _ => []

/-- Value at a path of attribute names. -/
def AVal.at : AVal → List String → Option AVal
  | v, [] => some v
  | .leaf _, _ :: _ => none
  | .node _ s, k :: p => (s.find k).bind fun x => AVal.at x p

/-- The value of the attribute `obj.p₁.p₂…`. -/
def Attrs.get (a : Attrs) (p : List String) : Option AVal := AVal.at (.node [] a) p

/-- A YAML value. -/
inductive YVal where
  | leaf (v : Leaf)
  | node (s : YDict)

/-- Entry of a mapping. -/
def YDict.find : YDict → String → Option YVal
  | .nil, _ => none
  | .leaf k v r, key => if k = key then some (.leaf v) else r.find key
  | .node k s r, key => if k = key then some (.node s) else r.find key

/-- Value at a path of keys. -/
def YVal.at : YVal → List String → Option YVal
  | v, [] => some v
  | .leaf _, _ :: _ => none
  | .node s, k :: p => (s.find k).bind fun x => YVal.at x p

/-- The entry `y[p₁][p₂]…`. -/
def YDict.get (y : YDict) (p : List String) : Option YVal := YVal.at (.node y) p

/-- No mapping has twice the same key (a Python dict). -/
def YDict.Uniq : YDict → Prop
  | .nil => True
  | .leaf k _ r => r.find k = none ∧ r.Uniq
  | .node k s r => r.find k = none ∧ s.Uniq ∧ r.Uniq

/-- No object has twice the same attribute. -/
def Attrs.Uniq : Attrs → Prop
  | .nil => True
  | .leaf k _ r => r.find k = none ∧ r.Uniq
  | .node k _ s r => r.find k = none ∧ s.Uniq ∧ r.Uniq

/-- The declaration of field `p₁.p₂…`: `some true` when its type is `np.ndarray`. -/
def declaredArray (decl : Decl) : Attrs → List String → Option Bool
  | _, [] => none
  | _, [k] => decl.lookup k
  | a, k :: k' :: p =>
    match a.find k with
    | some (.node d s) => declaredArray d s (k' :: p)
    | _ => none

/-- A string of the form `[…]`. -/
def Bracketed (s : String) : Prop := ∃ m : List Char, s.toList = '[' :: (m ++ [']'])

/-- `w` is what a YAML value `v` means for a field whose declared-array flag is `isArr`: bracketed
strings are parsed with `ev`, and lists become arrays for array fields. -/
def Means (ev : String → Except PyErr Leaf) (isArr : Option Bool) (v w : Leaf) : Prop :=
  ∃ u : Leaf,
    (match v with
      | .str s => (Bracketed s ∧ ev s = .ok u) ∨ (¬ Bracketed s ∧ u = .str s)
      | v => u = v) ∧
    (match u with
      | .list a => (isArr = some true ∧ w = .arr a) ∨ (isArr = some false ∧ w = .list a)
      | u => w = u)

/-- An object without sub-objects. -/
def Attrs.Flat : Attrs → Prop
  | .nil => True
  | .leaf _ _ r => r.Flat
  | .node _ _ _ _ => False

/-- What the user reads at `p` on parameter object `i` of a process. -/
def ParamWorld.read (w : ParamWorld) (i : Nat) (p : List String) : Option AVal :=
  match w.own[i]? with
  | none => none
  | some o => match o.get p with
    | some v => some v
    | none => w.shared.get p

/-- Two plain attribute values count as equal: arrays must have the same shape and be close
element by element (`|x-y| ≤ 1e-8 + 1e-5 |y|`, `y` in the first object), other values must be the
same; an array in the first object only is left to NumPy (`mixed`). -/
def LeafAgrees (mixed : Leaf → NumArr → Except PyErr Bool) (v w : Leaf) : Prop :=
  match v, w with
  | .arr v, .arr w => v.shape = w.shape ∧ ∀ (i : Nat) x y, w.data[i]? = some x →
      v.data[i]? = some y → |x - y| ≤ 1 / 10 ^ 8 + 1 / 10 ^ 5 * |y|
  | .arr v, w => mixed w v = .ok true
  | _, .arr _ => False
  | v, w => v = w

/-- Every attribute of the first object, at any depth, is also in the second and agrees. -/
def AgreesWith (mixed : Leaf → NumArr → Except PyErr Bool) (a b : Attrs) : Prop :=
  (∀ p v, a.get p = some (.leaf v) → ∃ w, b.get p = some (.leaf w) ∧ LeafAgrees mixed v w) ∧
  (∀ p d s, a.get p = some (.node d s) → ∃ d' s', b.get p = some (.node d' s'))

/-- The object last saved as a pickle under class name `cls` in `folder`. -/
def lastSaved {O : Type} (cls : O → String) (c folder : String)
    (hist : List (O × String × String)) : Option O :=
  (hist.filter fun h => decide (cls h.1 = c ∧ h.2.1 = folder ∧ h.2.2 = "pkl")).getLast?.map (·.1)

/-- A sequence of `save` calls (object, folder, export type); exceptions are caught by the
caller. -/
def saveAll {O : Type} (cls txt : O → String) (fs : FS O) (hist : List (O × String × String)) :
    FS O :=
  hist.foldl (fun fs h => (saveDc cls txt fs h.1 h.2.1 h.2.2).1) fs

end Danse
