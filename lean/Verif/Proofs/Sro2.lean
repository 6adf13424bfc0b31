import Verif.Proofs.Sro

/-! # Invariant of the SRO pipeline -/

namespace Danse

/-- SRO used for neighbour number `q` at iteration `i`. -/
def sroAt (c : SroCfg) (i : Nat) (x : SroIn) (q : Nat) : ℚ :=
  newEstimate c.method 0 (c.residual i x q) (c.oracleSro (c.neighbors.getD q 0))

/-- SRO used for node `q` at iteration `i`, centralised. -/
def sroAtC (c : SroCfg) (i : Nat) (x : SroIn) (q : Nat) : ℚ :=
  newEstimate c.method 0 (c.residualC i x q) (c.oracleSro q)

def sroSum (c : SroCfg) (xs : List SroIn) (q : Nat) : ℚ :=
  (xs.zipIdx.map fun p => sroAt c p.2 p.1 q).sum

def sroSumC (c : SroCfg) (xs : List SroIn) (q : Nat) : ℚ :=
  (xs.zipIdx.map fun p => sroAtC c p.2 p.1 q).sum

/-- Flags that reached channel `j`. -/
def extraSumC (c : SroCfg) (xs : List SroIn) (j : Nat) : ℚ :=
  (xs.map fun x => (extraShiftsC c.nSensors c.k x.flagsC).1.getD j 0).sum

theorem sroSum_snoc (c : SroCfg) (xs : List SroIn) (x : SroIn) (q : Nat) :
    sroSum c (xs ++ [x]) q = sroSum c xs q + sroAt c xs.length x q := by
  simp [sroSum, List.zipIdx_append]

theorem sroSumC_snoc (c : SroCfg) (xs : List SroIn) (x : SroIn) (q : Nat) :
    sroSumC c (xs ++ [x]) q = sroSumC c xs q + sroAtC c xs.length x q := by
  simp [sroSumC, List.zipIdx_append]

theorem flagTotal_snoc (xs : List SroIn) (x : SroIn) (q : Nat) :
    flagTotal (xs ++ [x]) q = flagTotal xs q + flagAt x.flags q := by simp [flagTotal]

theorem extraSumC_snoc (c : SroCfg) (xs : List SroIn) (x : SroIn) (j : Nat) :
    extraSumC c (xs ++ [x]) j = extraSumC c xs j +
      (extraShiftsC c.nSensors c.k x.flagsC).1.getD j 0 := by simp [extraSumC]

/-- State after the updates `xs`. -/
structure SroInv (c : SroCfg) (xs : List SroIn) (s : SroSt) : Prop where
  i : s.i = xs.length
  len : s.psf.length = c.nLocal + c.neighbors.length
  lenC : s.psfC.length = c.nSensors.sum
  est0 : ∀ i q, xs.length ≤ i → s.est i q = 0
  estC0 : ∀ i q, xs.length ≤ i → s.estC i q = 0
  loc : ∀ j < c.nLocal, s.psf.getD j 0 = 0
  nb : ∀ q < c.neighbors.length, s.psf.getD (c.nLocal + q) 0 =
    (if c.includeFSD then flagTotal xs q else 0) - sroSum c xs q * c.Ns
  est : ∀ (i q : Nat) (x : SroIn), xs[i]? = some x → q < c.neighbors.length →
    s.est i q = sroAt c i x q
  ctr : c.centralised = true → ∀ q j, channelOf c.nSensors q j → s.psfC.getD j 0 =
    (if c.includeFSD then extraSumC c xs j else 0) - sroSumC c xs q * c.Ns
  estC : c.centralised = true → ∀ (i q : Nat) (x : SroIn), xs[i]? = some x → q < c.nSensors.length →
    s.estC i q = sroAtC c i x q

theorem sroInv_init (c : SroCfg) : SroInv c [] (SroSt.init c) := by
  refine ⟨rfl, by simp [SroSt.init], by simp [SroSt.init], fun _ _ _ => rfl, fun _ _ _ => rfl,
    fun j _ => getD_replicate_zero _ _, fun q _ => ?_, fun i q x h => by simp at h,
    fun _ q j _ => ?_, fun _ i q x h => by simp at h⟩
  · rw [show (SroSt.init c).psf.getD (c.nLocal + q) 0 = 0 from getD_replicate_zero _ _]
    simp [flagTotal, sroSum]
  · rw [show (SroSt.init c).psfC.getD j 0 = 0 from getD_replicate_zero _ _]
    simp [extraSumC, sroSumC]

/-- What one update applies. -/
structure SroApplied (c : SroCfg) (xs : List SroIn) (x : SroIn) (o : SroOut) : Prop where
  skip : o.skip = true ↔ none ∈ x.flags
  app : ∃ a, o.applied = some a ∧ a.length = c.nLocal + c.neighbors.length ∧
    (∀ j < c.nLocal, a.getD j 0 = 0) ∧
    (∀ q < c.neighbors.length, a.getD (c.nLocal + q) 0 =
      (if c.includeFSD then flagTotal (xs ++ [x]) q else 0) - sroSum c xs q * c.Ns)
  appC : c.centralised = true → ∃ a, o.appliedC = some a ∧ a.length = c.nSensors.sum ∧
    ∀ q j, channelOf c.nSensors q j → a.getD j 0 =
      (if c.includeFSD then extraSumC c (xs ++ [x]) j else 0) - sroSumC c xs q * c.Ns

theorem sroStep_inv {c : SroCfg} (hc : c.compensate = true) {xs : List SroIn} {s : SroSt}
    (hi : SroInv c xs s) {x : SroIn} {s' : SroSt} {o : SroOut} (h : s.step c x = .ok (s', o)) :
    SroInv c (xs ++ [x]) s' ∧ SroApplied c xs x o := by
  unfold SroSt.step at h
  by_cases h0 : s.i ≥ c.nIter
  · rw [if_pos h0] at h; cases h
  rw [if_neg h0] at h
  obtain ⟨⟨s1, o1⟩, h1, h⟩ := bind_ok_inv h
  obtain ⟨s2, h2, h⟩ := bind_ok_inv h
  simp only [Except.ok.injEq, Prod.mk.injEq] at h
  obtain ⟨rfl, rfl⟩ := h
  unfold SroSt.compensate at h1
  by_cases he1 : c.compensate ∧ c.k = 0 ∧ c.neighbors = []
  · simp only [if_pos he1] at h1; cases h1
  simp only [if_neg he1] at h1
  by_cases he2 : c.ssbc ∧ c.compensate
  · simp only [if_pos he2] at h1; cases h1
  simp only [if_neg he2] at h1
  simp only [hc, if_true, true_and, Except.ok.injEq, Prod.mk.injEq] at h1
  obtain ⟨rfl, rfl⟩ := h1
  have hel : s.psf.length = (extraShifts c.nLocal (c.nLocal + c.neighbors.length) x.flags).1.length := by
    rw [extraShifts_length, hi.len]
  have helC : s.psfC.length = (extraShiftsC c.nSensors c.k x.flagsC).1.length := by
    rw [extraShiftsC_length, hi.lenC]
  -- the compensated factors
  set psf := if c.includeFSD then List.zipWith (· + ·) s.psf
    (extraShifts c.nLocal (c.nLocal + c.neighbors.length) x.flags).1 else s.psf with hpsf
  set psfC := if c.includeFSD then List.zipWith (· + ·) s.psfC
    (extraShiftsC c.nSensors c.k x.flagsC).1 else s.psfC with hpsfC
  have hpl : psf.length = c.nLocal + c.neighbors.length := by
    rw [hpsf]; split
    · rw [List.length_zipWith, ← hel, hi.len]; simp
    · exact hi.len
  have hpCl : psfC.length = c.nSensors.sum := by
    rw [hpsfC]; split
    · rw [List.length_zipWith, ← helC, hi.lenC]; simp
    · exact hi.lenC
  have hloc : ∀ j < c.nLocal, psf.getD j 0 = 0 := by
    intro j hj
    rw [hpsf]; split
    · rw [zipAdd_getD hel, hi.loc j hj, extraShifts_get _ _ _ (by omega), if_neg (by omega), add_zero]
    · exact hi.loc j hj
  have hnb : ∀ q < c.neighbors.length, psf.getD (c.nLocal + q) 0 =
      (if c.includeFSD then flagTotal (xs ++ [x]) q else 0) - sroSum c xs q * c.Ns := by
    intro q hq
    rw [hpsf]
    by_cases hf : c.includeFSD = true
    · rw [if_pos hf, if_pos hf, zipAdd_getD hel, hi.nb q hq, extraShifts_get _ _ _ (by omega),
        if_pos (show c.nLocal ≤ c.nLocal + q by omega), flagTotal_snoc, if_pos hf, Nat.add_sub_cancel_left]
      ring
    · rw [if_neg hf, if_neg hf, hi.nb q hq, if_neg hf]
  have hctr : c.centralised = true → ∀ q j, channelOf c.nSensors q j → psfC.getD j 0 =
      (if c.includeFSD then extraSumC c (xs ++ [x]) j else 0) - sroSumC c xs q * c.Ns := by
    intro hcc q j hj
    rw [hpsfC]
    by_cases hf : c.includeFSD = true
    · rw [if_pos hf, if_pos hf, zipAdd_getD helC, hi.ctr hcc q j hj, extraSumC_snoc, if_pos hf]
      ring
    · rw [if_neg hf, if_neg hf, hi.ctr hcc q j hj, if_neg hf]
  refine ⟨?_, ⟨extraShifts_skip _ _ _, ⟨psf, rfl, hpl, hloc, hnb⟩, fun hcc => ⟨psfC, by simp [hcc], hpCl, hctr hcc⟩⟩⟩
  -- estimation
  unfold SroSt.estimate at h2
  by_cases hm : c.method = .dxcp
  · rw [if_pos hm] at h2; cases h2
  rw [if_neg hm] at h2
  by_cases hn : c.networkWide ∧ c.neighbors.length ≠ 1
  · rw [if_pos hn] at h2; cases h2
  rw [if_neg hn, if_neg (by simp [hc])] at h2
  set s1 : SroSt := { s with
    psf := psf, psfC := if c.centralised = true then psfC else s.psfC,
    flagIts := s.flagIts ++ x.flags.filterMap fun f => if f.isSome ∧ f ≠ some 0 then some s.i else none }
    with hs1
  have key1 := estFold c x s1 c.neighbors.length
  change (let s1 := (List.range c.neighbors.length).foldl (estBody c x) s1
    if ¬ c.centralised then Except.ok s1 else
      .ok ((List.range c.nSensors.length).foldl (estBodyC c x) s1)) = _ at h2
  simp only at h2 key1
  set r := (List.range c.neighbors.length).foldl (estBody c x) s1 with hr
  obtain ⟨a1, a2, a3, a4, _, a5, a6⟩ := key1
  have hi1 : s1.i = xs.length := hi.i
  have z1 : ∀ q, s1.est s1.i q = 0 := fun q => by rw [hi1]; exact hi.est0 _ _ le_rfl
  have z2 : ∀ q, s1.estC s1.i q = 0 := fun q => by rw [hi1]; exact hi.estC0 _ _ le_rfl
  have pl : s1.psf.length = c.nLocal + c.neighbors.length := hpl
  have B1 : ∀ j < c.nLocal, r.psf.getD j 0 = 0 := by
    intro j hj
    rw [a6 j (by omega), if_neg (by omega), sub_zero]; exact hloc j hj
  have B2 : ∀ q < c.neighbors.length, r.psf.getD (c.nLocal + q) 0 =
      (if c.includeFSD then flagTotal (xs ++ [x]) q else 0) - sroSum c (xs ++ [x]) q * c.Ns := by
    intro q hq
    rw [a6 _ (by omega), if_pos (by omega), Nat.add_sub_cancel_left, sroSum_snoc, z1,
      show s1.psf.getD (c.nLocal + q) 0 = _ from hnb q hq, hi1]
    unfold sroAt
    ring
  have B3 : ∀ i q, (xs ++ [x]).length ≤ i → r.est i q = 0 := by
    intro i q hl
    simp only [List.length_append, List.length_singleton] at hl
    rw [a5, if_neg (by omega)]; exact hi.est0 i q (by omega)
  have B4 : ∀ (i q : Nat) (y : SroIn), (xs ++ [x])[i]? = some y → q < c.neighbors.length →
      r.est i q = sroAt c i y q := by
    intro i q y hy hq
    rw [a5]
    by_cases he : i = xs.length
    · subst he
      rw [if_pos ⟨hi1.symm, hq⟩, z1, hi1]
      simp only [List.getElem?_append_right le_rfl, Nat.sub_self, List.getElem?_cons_zero,
        Option.some.injEq] at hy
      rw [hy]; rfl
    · rw [if_neg (by omega)]
      rw [List.getElem?_append] at hy
      split at hy
      · exact hi.est i q y hy hq
      · have := (List.getElem?_eq_some_iff.mp hy).1
        simp at this; omega
  by_cases hcc : c.centralised = true
  · rw [if_neg (by simp [hcc])] at h2
    have key2 := estFoldC c x r c.nSensors.length
    simp only at key2
    set r2 := (List.range c.nSensors.length).foldl (estBodyC c x) r
    obtain ⟨b1, b2, b3, b4, _, b5, b6⟩ := key2
    obtain rfl : r2 = s2 := by injection h2
    have rC : r.psfC = psfC := by rw [a2, hs1]; simp [hcc]
    have z3 : ∀ q, r.estC r.i q = 0 := fun q => by rw [a1, a3]; exact z2 q
    have hri : r.i = xs.length := a1.trans hi1
    refine ⟨?_, ?_, ?_, ?_, ?_, ?_, ?_, ?_, ?_, ?_⟩
    · show r2.i + 1 = _
      rw [b1, hri]; simp
    · show r2.psf.length = _
      rw [b2, a4]; exact hpl
    · show r2.psfC.length = _
      rw [b4, rC]; exact hpCl
    · intro i q hl; show r2.est i q = 0; rw [b3]; exact B3 i q hl
    · intro i q hl; show r2.estC i q = 0
      simp only [List.length_append, List.length_singleton] at hl
      rw [b5, if_neg (by omega), a3]; exact hi.estC0 i q (by omega)
    · intro j hj; show r2.psf.getD j 0 = 0; rw [b2]; exact B1 j hj
    · intro q hq; show r2.psf.getD _ 0 = _; rw [b2]; exact B2 q hq
    · intro i q y hy hq; show r2.est i q = _; rw [b3]; exact B4 i q y hy hq
    · intro _ q j hj
      show r2.psfC.getD j 0 = _
      obtain ⟨hq, hjs⟩ := channelOf_lt hj
      rw [b6 j (by rw [rC, hpCl]; exact hjs) q hj, if_pos hq, rC, hctr hcc q j hj, sroSumC_snoc, z3, hri]
      unfold sroAtC
      ring
    · intro _ i q y hy hq
      show r2.estC i q = _
      rw [b5]
      by_cases he : i = xs.length
      · subst he
        rw [if_pos ⟨hri.symm, hq⟩, z3, hri]
        simp only [List.getElem?_append_right le_rfl, Nat.sub_self, List.getElem?_cons_zero,
          Option.some.injEq] at hy
        rw [hy]; rfl
      · rw [if_neg (by omega)]
        rw [List.getElem?_append] at hy
        split at hy
        · rw [a3]; exact hi.estC hcc i q y hy hq
        · have := (List.getElem?_eq_some_iff.mp hy).1
          simp at this; omega
  · rw [if_pos hcc] at h2
    obtain rfl : r = s2 := by injection h2
    refine ⟨?_, ?_, ?_, ?_, ?_, ?_, ?_, ?_, fun h => absurd h hcc, fun h => absurd h hcc⟩
    · show r.i + 1 = _
      rw [a1, hi1]; simp
    · show r.psf.length = _
      rw [a4]; exact hpl
    · show r.psfC.length = _
      rw [a2, hs1]; simp [hcc, hi.lenC]
    · intro i q hl; exact B3 i q hl
    · intro i q hl; show r.estC i q = 0
      simp only [List.length_append, List.length_singleton] at hl
      rw [a3]; exact hi.estC0 i q (by omega)
    · intro j hj; exact B1 j hj
    · intro q hq; exact B2 q hq
    · intro i q y hy hq; exact B4 i q y hy hq

theorem sroRun_inv {c : SroCfg} (hc : c.compensate = true) (ys : List SroIn) :
    ∀ {xs : List SroIn} {s : SroSt}, SroInv c xs s → ∀ {s' : SroSt} {os : List SroOut},
    s.run c ys = .ok (s', os) →
    SroInv c (xs ++ ys) s' ∧ os.length = ys.length ∧
    ∀ (i : Nat) (x : SroIn) (o : SroOut), ys[i]? = some x → os[i]? = some o →
      SroApplied c (xs ++ ys.take i) x o := by
  induction ys with
  | nil =>
    intro xs s hi s' os h
    simp only [SroSt.run, Except.ok.injEq, Prod.mk.injEq] at h
    obtain ⟨rfl, rfl⟩ := h
    exact ⟨by simpa using hi, rfl, fun i x o h => by simp at h⟩
  | cons y ys ih =>
    intro xs s hi s' os h
    unfold SroSt.run at h
    obtain ⟨⟨s1, o1⟩, h1, h⟩ := bind_ok_inv h
    obtain ⟨⟨s2, os2⟩, h2, h⟩ := bind_ok_inv h
    simp only [Except.ok.injEq, Prod.mk.injEq] at h
    obtain ⟨rfl, rfl⟩ := h
    obtain ⟨ha, hb⟩ := sroStep_inv hc hi h1
    obtain ⟨c1, c2, c3⟩ := ih ha h2
    refine ⟨by simpa using c1, by simp [c2], ?_⟩
    intro i x o hx ho
    cases i with
    | zero =>
      simp only [List.getElem?_cons_zero, Option.some.injEq] at hx ho
      subst hx; subst ho
      simpa using hb
    | succ i =>
      simp only [List.getElem?_cons_succ] at hx ho
      simpa using c3 i x o hx ho

end Danse
