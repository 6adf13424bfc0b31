import Verif.Model.Py
import Mathlib.Analysis.SpecialFunctions.Log.Base

/-!
# Model of the SNR estimate from the voice activity

`getSNR` (`danse_toolbox/d_eval.py` 540-570) and `get_snr_old` (627-656). Real numbers; voice activity flags are booleans. A division
by zero is not an exception (NumPy warns and goes on).
-/

namespace Danse

/-- The value: a number, infinite, or not a number. -/
inductive OldSnr where
  | num (x : ℝ)
  | negInf
  | posInf
  | nan

/-- `x[v == b]` for flags as long as the signal. -/
def selWhere (x : List ℝ) (v : List Bool) (b : Bool) : List ℝ := ((x.zip v).filter fun p => p.2 = b).map Prod.fst

/-- `np.mean(np.power(x, 2))` (558-559), `x` not empty. -/
noncomputable def meanPower (x : List ℝ) : ℝ := (x.map fun a => a ^ 2).sum / x.length

/-- Lines 560-564: the value from the two powers. -/
noncomputable def snrOfPowers (signal noise : ℝ) : OldSnr :=
  if signal - noise < 0 then .negInf
  else if noise = 0 then (if signal - noise = 0 then .nan else .posInf)
  else if signal - noise = 0 then .negInf
  else .num (20 * Real.logb 10 ((signal - noise) / noise))

/-- `getSNR` (540-570). -/
noncomputable def oldSnr (x : List ℝ) (vad : List Bool) : Except PyErr OldSnr :=
  let v := if x.length < vad.length then vad.take x.length else vad
  let ls := v.count true
  let ln := v.length - ls
  if 0 < ls ∧ 0 < ln then
    if v.length = x.length then .ok (snrOfPowers (meanPower (selWhere x v true)) (meanPower (selWhere x v false)))
    else .error .indexError
  else if ls = 0 then .ok .negInf
  else .ok .posInf

/-- `get_snr_old` (627-656) for an array of two dimensions (`rows`, `cols`, entries): one value per channel. -/
noncomputable def snrOldAll (rows cols : ℕ) (y : ℕ → ℕ → ℝ) (vad : List Bool) : Except PyErr (List OldSnr) :=
  if cols > rows then (List.range rows).mapM fun c => oldSnr ((List.range cols).map fun t => y c t) vad
  else (List.range cols).mapM fun c => oldSnr ((List.range rows).map fun t => y t c) vad

end Danse
