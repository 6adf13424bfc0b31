import Verif.Model.Evaluate

/-! # Specification vocabulary for the evaluation of a run -/

namespace Danse

variable {A V D : Type}

/-- Samples `s`, `s + 1`, ..., `e - 1`. -/
def evalSeg (s e : Nat) (x : List A) : List A := (x.drop s).take (e - s)

/-- `M` holds these scores: before and after, of the centralised, local and single-sensor-broadcast
estimates (0 if there is none), and the best one (`None` if there is none). The other differences are
never computed. -/
structure MetricVal.Is [Zero V] [Sub V] (M : MetricVal V D) (before after : Except PyErr V)
    (centr loc ssbc best : Option (Except PyErr V)) : Prop where
  before : before = .ok M.before
  after : after = .ok M.after
  diff : M.diff = M.after - M.before
  centr : centr.getD (.ok 0) = .ok M.afterCentr
  loc : loc.getD (.ok 0) = .ok M.afterLocal
  ssbc : ssbc.getD (.ok 0) = .ok M.afterSSBC
  best : best = M.best.map .ok
  diffs : M.diffCentr = 0 ∧ M.diffLocal = 0 ∧ M.diffSSBC = 0

/-- One kind of estimate: the estimate, its speech and its noise component. -/
structure EstTriple (A : Type) where
  est : List A
  speech : List A
  noise : List A

/-- The optional arguments are given as triples. -/
structure EvalArgs.Given (a : EvalArgs A) (enhan : List A) (c l s : Option (EstTriple A)) : Prop where
  enhan : a.enhan = some enhan
  eC : a.enhanC = c.map (·.est)
  sC : a.filtSpeechC = c.map (·.speech)
  nC : a.filtNoiseC = c.map (·.noise)
  eL : a.enhanL = l.map (·.est)
  sL : a.filtSpeechL = l.map (·.speech)
  nL : a.filtNoiseL = l.map (·.noise)
  eS : a.enhanS = s.map (·.est)
  sS : a.filtSpeechS = s.map (·.speech)
  nS : a.filtNoiseS = s.map (·.noise)

/-- The metric is in the returned dictionary exactly if it was asked for, and then holds these scores. -/
def Reported [Zero V] [Sub V] (asked : Prop) (m : Option (MetricVal V D)) (before after : Except PyErr V)
    (centr loc ssbc best : Option (Except PyErr V)) : Prop :=
  (m.isSome ↔ asked) ∧ ∀ M, m = some M → M.Is before after centr loc ssbc best

/-- Evaluation window: samples `s` to `e - 1`; the best performance is evaluated `sh` samples (0.2 s)
further inside. -/
structure EvalArgs.Window (a : EvalArgs A) (s e sh : Nat) : Prop where
  start : a.startIdx = s
  stop : a.endIdx = some (e : Int) ∨ a.endIdx = none ∧ e = a.clean.length
  shift : (sh : Int) = ⌊a.fs / 5⌋

/-- Equal but for the dynamic metrics. -/
def MetricVal.SameAs (M M' : MetricVal V D) : Prop := { M with dynamic := M'.dynamic } = M'

end Danse
