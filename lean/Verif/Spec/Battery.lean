import Verif.Model.Battery

/-!
# Specification: what is in a folder
-/

namespace Danse

/-- What is found under the name `f`: `none` no such file, `some none` a file that is not completely written,
`some (some t)` the complete results of test `t`. -/
def Dir.read {T : Type} (d : Option (Dir T)) (f : String) : Option (Option T) := (d.getD []).lookup f

end Danse
