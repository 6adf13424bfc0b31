import Verif.Model.Config

/-!
# Specification: templates of parameter objects
-/

namespace Danse

/-- A value that is not an instance survives a template: a string does not look like a list; arrays are in
fields declared as arrays and lists in others. -/
def Survives (isArr : Bool) : Leaf → Prop
  | .scalar _ => True
  | .str s => looksLikeList s = false
  | .list _ => isArr = false
  | .arr _ => isArr = true

/-- The fields of the class are all set, have different names, and their values survive, also in nested
instances. -/
inductive Dumpable : Decl → Attrs → Prop
  | nil (a : Attrs) : Dumpable [] a
  | leaf {a : Attrs} {k : String} {isArr : Bool} {r : Decl} {v : Leaf} (h : a.find k = some (.leaf v))
      (hv : Survives isArr v) (hk : k ∉ r.map (·.1)) (hr : Dumpable r a) : Dumpable ((k, isArr) :: r) a
  | node {a : Attrs} {k : String} {isArr : Bool} {r : Decl} {d : Decl} {s : Attrs}
      (h : a.find k = some (.node d s)) (hs : Dumpable d s) (hk : k ∉ r.map (·.1)) (hr : Dumpable r a) :
      Dumpable ((k, isArr) :: r) a

/-- Wherever `a` holds a nested instance, so does `b`, of the same class. -/
inductive SameClasses : Decl → Attrs → Attrs → Prop
  | nil (a b : Attrs) : SameClasses [] a b
  | leaf {a b : Attrs} {k : String} {isArr : Bool} {r : Decl} {v : Leaf} (h : a.find k = some (.leaf v))
      (hr : SameClasses r a b) : SameClasses ((k, isArr) :: r) a b
  | node {a b : Attrs} {k : String} {isArr : Bool} {r : Decl} {d : Decl} {s s' : Attrs}
      (h : a.find k = some (.node d s)) (h' : b.find k = some (.node d s')) (hs : SameClasses d s s')
      (hr : SameClasses r a b) : SameClasses ((k, isArr) :: r) a b

/-- All the declared fields of `a` and `c` have the same values, also in nested instances. -/
inductive SameValues : Decl → Attrs → Attrs → Prop
  | nil (a c : Attrs) : SameValues [] a c
  | leaf {a c : Attrs} {k : String} {isArr : Bool} {r : Decl} {v : Leaf} (h : a.find k = some (.leaf v))
      (h' : c.find k = some (.leaf v)) (hr : SameValues r a c) : SameValues ((k, isArr) :: r) a c
  | node {a c : Attrs} {k : String} {isArr : Bool} {r : Decl} {d : Decl} {s s' : Attrs}
      (h : a.find k = some (.node d s)) (h' : c.find k = some (.node d s')) (hs : SameValues d s s')
      (hr : SameValues r a c) : SameValues ((k, isArr) :: r) a c

end Danse
