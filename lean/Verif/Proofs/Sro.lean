import Mathlib.Algebra.BigOperators.Fin
import Mathlib.Tactic.Linarith
import Mathlib.Tactic.Ring
import Mathlib.Tactic.FieldSimp
import Mathlib.Tactic.NormNum
import Verif.Spec.Sro
import Verif.Proofs.Config

/-! # Lemmas for the SRO pipeline -/

set_option linter.unusedSectionVars false

namespace Danse

theorem mapRange_length (l : List ℚ) (a b : Nat) (f : ℚ → ℚ) : (mapRange l a b f).length = l.length := by
  simp [mapRange]

theorem mapRange_get? (l : List ℚ) (a b : Nat) (f : ℚ → ℚ) (j : Nat) :
    (mapRange l a b f)[j]? = (l[j]?).map fun v => if a ≤ j ∧ j < b then f v else v := by
  simp only [mapRange, List.getElem?_map, List.getElem?_zipIdx]
  cases l[j]? <;> simp

theorem mapRange_getD {l : List ℚ} {j : Nat} (hj : j < l.length) (a b : Nat) (f : ℚ → ℚ) :
    (mapRange l a b f).getD j 0 = if a ≤ j ∧ j < b then f (l.getD j 0) else l.getD j 0 := by
  simp only [List.getD_eq_getElem?_getD, mapRange_get?, List.getElem?_eq_getElem hj]
  simp

theorem zipAdd_getD {l m : List ℚ} (h : l.length = m.length) (j : Nat) :
    (List.zipWith (· + ·) l m).getD j 0 = l.getD j 0 + m.getD j 0 := by
  simp only [List.getD_eq_getElem?_getD, List.getElem?_zipWith]
  by_cases hj : j < l.length
  · simp [List.getElem?_eq_getElem hj, List.getElem?_eq_getElem (h ▸ hj)]
  · simp [List.getElem?_eq_none (not_lt.mp hj), List.getElem?_eq_none (h ▸ not_lt.mp hj)]

theorem getD_replicate_zero (n j : Nat) : (List.replicate n (0 : ℚ)).getD j 0 = 0 := by
  simp only [List.getD_eq_getElem?_getD, List.getElem?_replicate]
  split <;> rfl

/-! ### Extra shifts -/

theorem extraShifts_snoc (nLocal dim : Nat) (l : List (Option ℚ)) (a : Option ℚ) :
    extraShifts nLocal dim (l ++ [a]) = match a with
      | some v => ((extraShifts nLocal dim l).1.set (nLocal + l.length) v, (extraShifts nLocal dim l).2)
      | none => ((extraShifts nLocal dim l).1, true) := by
  simp only [extraShifts, List.zipIdx_append, List.foldl_append, List.zipIdx_cons, List.zipIdx_nil,
    List.foldl_cons, List.foldl_nil, Nat.zero_add]
  cases a <;> rfl

theorem extraShifts_length (nLocal dim : Nat) (l : List (Option ℚ)) :
    (extraShifts nLocal dim l).1.length = dim := by
  induction l using List.reverseRecOn with
  | nil => simp [extraShifts]
  | append_singleton l a ih => rw [extraShifts_snoc]; cases a <;> simp [ih]

theorem flagAt_snoc (l : List (Option ℚ)) (a : Option ℚ) (q : Nat) :
    flagAt (l ++ [a]) q = if q = l.length then a.getD 0 else flagAt l q := by
  unfold flagAt
  simp only [List.getD_eq_getElem?_getD, List.getElem?_append]
  by_cases h : q < l.length
  · rw [if_pos h, if_neg (by omega)]
  · rw [if_neg h]
    by_cases h2 : q = l.length
    · simp [h2]
    · rw [if_neg h2, List.getElem?_eq_none (l := [a]) (by simp; omega), List.getElem?_eq_none (not_lt.mp h)]

theorem extraShifts_get (nLocal dim : Nat) (l : List (Option ℚ)) {j : Nat} (hj : j < dim) :
    (extraShifts nLocal dim l).1.getD j 0 = if nLocal ≤ j then flagAt l (j - nLocal) else 0 := by
  induction l using List.reverseRecOn with
  | nil => simp [extraShifts, flagAt, hj]
  | append_singleton l a ih =>
    rw [extraShifts_snoc, flagAt_snoc]
    have hl := extraShifts_length nLocal dim l
    cases a with
    | none =>
      simp only [Option.getD_none]
      rw [ih]
      by_cases h : nLocal ≤ j
      · simp only [h, if_true]
        by_cases h2 : j - nLocal = l.length
        · rw [if_pos h2, h2]; simp [flagAt]
        · rw [if_neg h2]
      · simp [h]
    | some v =>
      simp only [Option.getD_some, List.getD_eq_getElem?_getD, List.getElem?_set] at ih ⊢
      by_cases h : nLocal ≤ j
      · simp only [h, if_true] at ih ⊢
        by_cases h2 : j - nLocal = l.length
        · rw [if_pos (by omega), if_pos h2, if_pos (by omega)]; rfl
        · rw [if_neg (by omega), if_neg h2, ih]
      · simp only [h, if_false] at ih ⊢
        rw [if_neg (by omega), ih]

theorem extraShifts_skip (nLocal dim : Nat) (l : List (Option ℚ)) :
    (extraShifts nLocal dim l).2 = true ↔ none ∈ l := by
  induction l using List.reverseRecOn with
  | nil => simp [extraShifts]
  | append_singleton l a ih => rw [extraShifts_snoc]; cases a <;> simp [ih]

/-! ### Channel ranges -/

theorem take_succ_sum (n : List Nat) {q : Nat} (h : q < n.length) :
    (n.take (q + 1)).sum = (n.take q).sum + n.getD q 0 := by
  rw [List.take_succ_eq_append_getElem h, List.sum_append, List.getD_eq_getElem?_getD,
    List.getElem?_eq_getElem h]
  simp

theorem take_sum_mono (n : List Nat) {a b : Nat} (h : a ≤ b) : (n.take a).sum ≤ (n.take b).sum := by
  induction b with
  | zero => rw [Nat.le_zero.mp h]
  | succ b ih =>
    rcases Nat.lt_or_ge b a with h1 | h1
    · rw [show a = b + 1 by omega]
    · refine (ih h1).trans ?_
      by_cases hb : b < n.length
      · rw [take_succ_sum n hb]; omega
      · rw [List.take_of_length_le (not_lt.mp hb), List.take_of_length_le (by omega)]

theorem erase_take_le (n : List Nat) {k q : Nat} (h : q ≤ k) : (n.eraseIdx k).take q = n.take q := by
  rw [List.eraseIdx_eq_take_drop_succ, List.take_append, List.take_take, min_eq_left h]
  by_cases hk : k ≤ n.length
  · have : (n.take k).length = k := by simp [hk]
    rw [this, show q - k = 0 by omega]; simp
  · rw [List.drop_eq_nil_of_le (by omega)]; simp

theorem erase_take_gt (n : List Nat) {k q : Nat} (h : k ≤ q) (hk : k < n.length) :
    ((n.eraseIdx k).take q).sum + n.getD k 0 = (n.take (q + 1)).sum := by
  induction q with
  | zero =>
    obtain rfl : k = 0 := by omega
    rw [take_succ_sum n hk]; simp
  | succ q ih =>
    by_cases hq : k ≤ q
    · by_cases hl : q + 1 < n.length
      · rw [take_succ_sum n hl, ← ih hq,
          take_succ_sum _ (by rw [List.length_eraseIdx_of_lt hk]; omega)]
        have : (n.eraseIdx k).getD q 0 = n.getD (q + 1) 0 := by
          rw [List.getD_eq_getElem?_getD, List.getD_eq_getElem?_getD, List.getElem?_eraseIdx,
            if_neg (by omega)]
        rw [this]; omega
      · rw [List.take_of_length_le (by rw [List.length_eraseIdx_of_lt hk]; omega),
          List.take_of_length_le (l := n) (by omega)]
        have := ih hq
        rw [List.take_of_length_le (by rw [List.length_eraseIdx_of_lt hk]; omega),
          List.take_of_length_le (l := n) (by omega)] at this
        exact this
    · obtain rfl : k = q + 1 := by omega
      rw [erase_take_le n le_rfl, take_succ_sum n hk]

theorem channelOf_unique {n : List Nat} {q q' j : Nat} (h : channelOf n q j) (h' : channelOf n q' j) :
    q = q' := by
  unfold channelOf at h h'
  rcases Nat.lt_trichotomy q q' with hl | hl | hl
  · have := take_sum_mono n (show q + 1 ≤ q' by omega); omega
  · exact hl
  · have := take_sum_mono n (show q' + 1 ≤ q by omega); omega

theorem channelOf_lt {n : List Nat} {q j : Nat} (h : channelOf n q j) : q < n.length ∧ j < n.sum := by
  unfold channelOf at h
  have h2 : (n.take (q + 1)).sum ≤ n.sum := by
    have := take_sum_mono n (show q + 1 ≤ max (q + 1) n.length by omega)
    rwa [List.take_of_length_le (i := max (q + 1) n.length) (by omega)] at this
  refine ⟨?_, by omega⟩
  by_contra hq
  rw [List.take_of_length_le (by omega), List.take_of_length_le (by omega)] at h
  omega

/-! ### Extra shifts in the centralised case -/

theorem extraShiftsC_snoc (n : List Nat) (k : Nat) (l : List (Option ℚ)) (a : Option ℚ) :
    extraShiftsC n k (l ++ [a]) = if l.length = k then extraShiftsC n k l else match a with
      | some v => (mapRange (extraShiftsC n k l).1 (flagRange n k l.length).1
          (flagRange n k l.length).2 (fun _ => v), (extraShiftsC n k l).2)
      | none => ((extraShiftsC n k l).1, true) := by
  simp only [extraShiftsC, List.zipIdx_append, List.foldl_append, List.zipIdx_cons, List.zipIdx_nil,
    List.foldl_cons, List.foldl_nil, Nat.zero_add]
  split
  · rfl
  · cases a <;> rfl

theorem extraShiftsC_length (n : List Nat) (k : Nat) (l : List (Option ℚ)) :
    (extraShiftsC n k l).1.length = n.sum := by
  induction l using List.reverseRecOn with
  | nil => simp [extraShiftsC]
  | append_singleton l a ih =>
    rw [extraShiftsC_snoc]
    split
    · exact ih
    · cases a <;> simp [ih, mapRange_length]

/-- When no flag but that of node `q` reaches channel `j`. -/
theorem extraShiftsC_get {n : List Nat} {k q j : Nat} (l : List (Option ℚ)) (hj : j < n.sum)
    (hq : q ≠ k → (flagRange n k q).1 ≤ j ∧ j < (flagRange n k q).2)
    (ho : ∀ q' < l.length, q' ≠ k → q' ≠ q → ¬ ((flagRange n k q').1 ≤ j ∧ j < (flagRange n k q').2)) :
    (extraShiftsC n k l).1.getD j 0 = if q = k then 0 else flagAt l q := by
  induction l using List.reverseRecOn with
  | nil => simp only [extraShiftsC, List.zipIdx_nil, List.foldl_nil, getD_replicate_zero]; simp [flagAt]
  | append_singleton l a ih =>
    have ih := ih (fun q' h => ho q' (by simp; omega))
    have hl := extraShiftsC_length n k l
    rw [extraShiftsC_snoc, flagAt_snoc]
    by_cases hk : l.length = k
    · rw [if_pos hk, ih]
      by_cases h : q = k
      · simp [h]
      · rw [if_neg h, if_neg h, if_neg (by omega)]
    · rw [if_neg hk]
      by_cases h : q = l.length
      · subst h
        rw [if_neg hk, if_pos rfl]
        rw [if_neg hk] at ih
        cases a with
        | none => simp only [Option.getD_none]; rw [ih]; simp [flagAt]
        | some v =>
          simp only [Option.getD_some]
          rw [mapRange_getD (by rw [hl]; exact hj), if_pos (hq hk)]
      · rw [if_neg h]
        cases a with
        | none => exact ih
        | some v =>
          simp only
          rw [mapRange_getD (by rw [hl]; exact hj), if_neg (ho l.length (by simp) hk (Ne.symm h))]
          exact ih

/-! ### The estimation step -/

/-- Body of the loop over the neighbours. -/
def estBody (c : SroCfg) (x : SroIn) (s : SroSt) (q : Nat) : SroSt :=
  let e := newEstimate c.method (s.est s.i q) (c.residual s.i x q)
    (c.oracleSro (c.neighbors.getD q 0))
  { s with est := Function.update s.est s.i (Function.update (s.est s.i) q e),
           psf := mapRange s.psf (c.nLocal + q) (c.nLocal + q + 1) (fun v => v - e * c.Ns) }

/-- Body of the loop over the nodes. -/
def estBodyC (c : SroCfg) (x : SroIn) (s : SroSt) (q : Nat) : SroSt :=
  let e := newEstimate c.method (s.estC s.i q) (c.residualC s.i x q) (c.oracleSro q)
  { s with estC := Function.update s.estC s.i (Function.update (s.estC s.i) q e),
           psfC := mapRange s.psfC (nodeRange c.nSensors q).1 (nodeRange c.nSensors q).2
             (fun v => v - e * c.Ns) }

theorem estFold (c : SroCfg) (x : SroIn) (s : SroSt) (m : Nat) :
    let r := (List.range m).foldl (estBody c x) s
    r.i = s.i ∧ r.psfC = s.psfC ∧ r.estC = s.estC ∧ r.psf.length = s.psf.length ∧
    r.flagIts = s.flagIts ∧
    (∀ i q, r.est i q = if i = s.i ∧ q < m then newEstimate c.method (s.est s.i q)
      (c.residual s.i x q) (c.oracleSro (c.neighbors.getD q 0)) else s.est i q) ∧
    (∀ j < s.psf.length, r.psf.getD j 0 = s.psf.getD j 0 -
      if c.nLocal ≤ j ∧ j < c.nLocal + m then newEstimate c.method (s.est s.i (j - c.nLocal))
        (c.residual s.i x (j - c.nLocal)) (c.oracleSro (c.neighbors.getD (j - c.nLocal) 0)) * c.Ns
      else 0) := by
  induction m with
  | zero =>
    intro r
    refine ⟨rfl, rfl, rfl, rfl, rfl, fun i q => by simp [r], fun j hj => ?_⟩
    rw [if_neg (by omega), sub_zero]; rfl
  | succ m ih =>
    simp only [List.range_succ, List.foldl_append, List.foldl_cons, List.foldl_nil] at ih ⊢
    set r := (List.range m).foldl (estBody c x) s
    obtain ⟨h1, h2, h3, h4, h4', h5, h6⟩ := ih
    have he : r.est r.i m = s.est s.i m := by
      rw [h1, h5, if_neg (by omega)]
    refine ⟨h1, h2, h3, by simp [estBody, mapRange_length, h4], h4', fun i q => ?_, fun j hj => ?_⟩
    · simp only [estBody, he]
      rw [h1]
      by_cases hi : i = s.i
      · subst hi
        rw [Function.update_self]
        by_cases hq : q = m
        · subst hq; rw [Function.update_self, if_pos ⟨rfl, by omega⟩]
        · rw [Function.update_of_ne hq, h5]
          by_cases hqm : q < m
          · rw [if_pos ⟨rfl, hqm⟩, if_pos ⟨rfl, by omega⟩]
          · rw [if_neg (by omega), if_neg (by omega)]
      · rw [Function.update_of_ne hi, h5, if_neg (by tauto), if_neg (by tauto)]
    · simp only [estBody, he]
      rw [mapRange_getD (by rw [h4]; exact hj), h6 j hj, h1]
      by_cases hjm : j = c.nLocal + m
      · subst hjm
        rw [if_pos (by omega), if_neg (by omega), if_pos (by omega)]
        rw [Nat.add_sub_cancel_left]; ring
      · rw [if_neg (by omega)]
        by_cases hc : c.nLocal ≤ j ∧ j < c.nLocal + m
        · rw [if_pos hc, if_pos (by omega)]
        · rw [if_neg hc, if_neg (by omega)]

theorem estFoldC (c : SroCfg) (x : SroIn) (s : SroSt) (m : Nat) :
    let r := (List.range m).foldl (estBodyC c x) s
    r.i = s.i ∧ r.psf = s.psf ∧ r.est = s.est ∧ r.psfC.length = s.psfC.length ∧
    r.flagIts = s.flagIts ∧
    (∀ i q, r.estC i q = if i = s.i ∧ q < m then newEstimate c.method (s.estC s.i q)
      (c.residualC s.i x q) (c.oracleSro q) else s.estC i q) ∧
    (∀ j < s.psfC.length, ∀ q, channelOf c.nSensors q j → r.psfC.getD j 0 = s.psfC.getD j 0 -
      if q < m then newEstimate c.method (s.estC s.i q)
        (c.residualC s.i x q) (c.oracleSro q) * c.Ns else 0) := by
  induction m with
  | zero =>
    intro r
    refine ⟨rfl, rfl, rfl, rfl, rfl, fun i q => by simp [r], fun j hj q _ => ?_⟩
    rw [if_neg (by omega), sub_zero]; rfl
  | succ m ih =>
    simp only [List.range_succ, List.foldl_append, List.foldl_cons, List.foldl_nil] at ih ⊢
    set r := (List.range m).foldl (estBodyC c x) s
    obtain ⟨h1, h2, h3, h4, h4', h5, h6⟩ := ih
    have he : r.estC r.i m = s.estC s.i m := by
      rw [h1, h5, if_neg (by omega)]
    refine ⟨h1, h2, h3, by simp [estBodyC, mapRange_length, h4], h4', fun i q => ?_, fun j hj q hq => ?_⟩
    · simp only [estBodyC, he]
      rw [h1]
      by_cases hi : i = s.i
      · subst hi
        rw [Function.update_self]
        by_cases hq : q = m
        · subst hq; rw [Function.update_self, if_pos ⟨rfl, by omega⟩]
        · rw [Function.update_of_ne hq, h5]
          by_cases hqm : q < m
          · rw [if_pos ⟨rfl, hqm⟩, if_pos ⟨rfl, by omega⟩]
          · rw [if_neg (by omega), if_neg (by omega)]
      · rw [Function.update_of_ne hi, h5, if_neg (by tauto), if_neg (by tauto)]
    · simp only [estBodyC, he]
      rw [mapRange_getD (by rw [h4]; exact hj), h6 j hj q hq, h1]
      by_cases hqm : q = m
      · subst hqm
        rw [if_pos (show (nodeRange c.nSensors q).1 ≤ j ∧ j < (nodeRange c.nSensors q).2 from hq),
          if_neg (by omega), if_pos (by omega)]; ring
      · rw [if_neg (show ¬ ((nodeRange c.nSensors m).1 ≤ j ∧ j < (nodeRange c.nSensors m).2) from
          fun h => hqm (channelOf_unique hq h))]
        by_cases hc : q < m
        · rw [if_pos hc, if_pos (by omega)]
        · rw [if_neg hc, if_neg (by omega)]

end Danse
