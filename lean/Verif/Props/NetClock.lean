import Verif.Spec.NetClock
import Verif.Props.Sro

/-!
# C150: network-wide compensation of clock offsets
-/

namespace Danse

theorem applyShift_zero (N : ℕ) (Y : List ℂ) : applyShift N 0 Y = Y := by
  unfold applyShift phaseFactor
  apply List.ext_getElem
  · simp
  · intro i h1 h2; simp

/-- C150 (delay): the shift of a real frame by a whole number of samples is a circular delay, and the result is real. -/
theorem C150_delay {N : ℕ} (hN : 0 < N) (he : 2 ∣ N) (d : ℤ) {x : List ℝ} (hx : x.length = N) :
    shiftFrameTD N d (x.map Complex.ofReal) = .ok ((circDelay N d x).map Complex.ofReal) := C54_is_delay hN he d hx

theorem shiftFrameTD_zero {N : ℕ} (hN : 0 < N) (he : 2 ∣ N) {x : List ℝ} (hx : x.length = N) :
    shiftFrameTD N 0 (x.map Complex.ofReal) = .ok (x.map Complex.ofReal) := by
  unfold shiftFrameTD
  rw [applyShift_zero]
  apply backToTD_dft (dft_root N hN) he (by simp [hx])
  intro t _
  unfold at0
  simp only [List.getD_eq_getElem?_getD, List.getElem?_map]
  cases x[t]? <;> simp

/-- C150 (magnitude): whatever the factor, the shift keeps the magnitude of every bin, and leaves the bin 0 as it is. -/
theorem C150_magnitude (N : ℕ) (shift : ℝ) (Y : List ℂ) (κ : ℕ) (v : ℂ) (h : Y[κ]? = some v) :
    ∃ w, (applyShift N shift Y)[κ]? = some w ∧ ‖w‖ = ‖v‖ ∧ (κ = 0 → w = v) := by
  refine ⟨v * phaseFactor N κ shift, ?_, by rw [norm_mul, phaseFactor_norm, mul_one], ?_⟩
  · unfold applyShift
    rw [List.getElem?_map, List.getElem?_zipIdx, h]
    simp
  · rintro rfl
    simp [phaseFactor]

theorem getD_zeros {l : List ℝ} (h : ∀ x ∈ l, x = 0) (k : ℕ) : l.getD k 0 = 0 := by
  rw [List.getD_eq_getElem?_getD]
  cases e : l[k]? with
  | none => rfl
  | some v => exact h v (List.mem_of_getElem? e)

theorem mapM_shift_zero {N : ℕ} (hN : 0 < N) (he : 2 ∣ N) : ∀ {cols : List (List ℝ)}, (∀ x ∈ cols, x.length = N) →
    (cols.map fun x => x.map Complex.ofReal).mapM (shiftFrameTD N 0) = .ok (cols.map fun x => x.map Complex.ofReal)
  | [], _ => rfl
  | x :: cols, h => by
    rw [List.map_cons, List.mapM_cons, mapM_shift_zero hN he fun y hy => h y (List.mem_cons_of_mem _ hy),
      shiftFrameTD_zero hN he (h x List.mem_cons_self)]
    rfl

theorem netRun_zero (netwide compensate : Bool) {N : ℕ} (hN : 0 < N) (he : 2 ∣ N) (Ns : ℕ) :
    ∀ (ups : List (ℕ × List (List ℝ))) (s : NetClock), (∀ x ∈ s.sro, x = 0) → (∀ x ∈ s.psf, x = 0) →
      (∀ u ∈ ups, ∀ x ∈ u.2, x.length = N) →
      ∃ s', s.run netwide compensate N Ns (ups.map fun u => (u.1, u.2.map fun x => x.map Complex.ofReal)) =
        .ok (s', ups.map fun u => u.2.map fun x => x.map Complex.ofReal)
  | [], s, _, _, _ => ⟨s, rfl⟩
  | (k, cols) :: ups, s, h1, h2, h3 => by
    have hs : (s.advance Ns k).psf = s.psf.set k 0 := by
      unfold NetClock.advance
      simp only [getD_zeros h1, getD_zeros h2, zero_mul, sub_zero]
    have hz : ∀ x ∈ (s.advance Ns k).psf, x = 0 := by
      rw [hs]
      intro x hx
      rcases List.mem_or_eq_of_mem_set hx with hx | hx
      · exact h2 x hx
      · exact hx
    have hf : ∃ s1 : NetClock, s.localFrame netwide compensate N Ns k (cols.map fun x => x.map Complex.ofReal) =
        .ok (s1, cols.map fun x => x.map Complex.ofReal) ∧ (∀ x ∈ s1.sro, x = 0) ∧ ∀ x ∈ s1.psf, x = 0 := by
      unfold NetClock.localFrame
      by_cases hb : (netwide && compensate) = true
      · rw [if_pos hb, getD_zeros hz, mapM_shift_zero hN he fun x hx => h3 (k, cols) List.mem_cons_self x hx]
        exact ⟨_, rfl, h1, hz⟩
      · rw [if_neg hb]
        exact ⟨_, rfl, h1, h2⟩
    obtain ⟨s1, e1, a1, a2⟩ := hf
    obtain ⟨s', e2⟩ := netRun_zero netwide compensate hN he Ns ups s1 a1 a2 fun u hu => h3 u (List.mem_cons_of_mem _ hu)
    refine ⟨s', ?_⟩
    rw [List.map_cons, NetClock.run]
    simp only [e1, e2]
    rfl

/-- C150 (refuted: "the network-wide strategy compensates the clock offsets"): at every update of a run the local frame is the recorded one,
with the compensation or without it, whatever the offsets of the clocks. -/
theorem C150_refuted_netwide (netwide compensate : Bool) (n : ℕ) {N : ℕ} (hN : 0 < N) (he : 2 ∣ N) (Ns : ℕ)
    {ups : List (ℕ × List (List ℝ))} (h : ∀ u ∈ ups, ∀ x ∈ u.2, x.length = N) :
    ∃ s, (NetClock.init n).run netwide compensate N Ns (ups.map fun u => (u.1, u.2.map fun x => x.map Complex.ofReal)) =
      .ok (s, ups.map fun u => u.2.map fun x => x.map Complex.ofReal) :=
  netRun_zero netwide compensate hN he Ns ups _ (fun x hx => List.eq_of_mem_replicate hx) (fun x hx => List.eq_of_mem_replicate hx) h

/-- C150 (off): without the strategy, or without compensation, the frames are the recorded ones and the factors stay, whatever they are. -/
theorem C150_off {netwide compensate : Bool} (h : (netwide && compensate) = false) (N Ns : ℕ) (s : NetClock)
    (ups : List (ℕ × List (List ℂ))) : s.run netwide compensate N Ns ups = .ok (s, ups.map Prod.snd) := by
  induction ups with
  | nil => rfl
  | cons u ups ih =>
    rw [NetClock.run]
    unfold NetClock.localFrame
    rw [h]
    simp only [Bool.false_eq_true, if_false, ih, List.map_cons]

/-- C150 (given offsets): with given offsets `localSROwrtRoot`, the frame of node `k` at the update that follows `ups` is shifted by the factor
that its `m` earlier updates and this one add up to. -/
theorem C150_given {N Ns k : ℕ} {cols : List (List ℂ)} {s' : NetClock} {fs : List (List (List ℂ))} :
    ∀ (ups : List (ℕ × List (List ℂ))) (s : NetClock), k < s.psf.length →
      s.run true true N Ns (ups ++ [(k, cols)]) = .ok (s', fs) →
      ∃ f, fs.getLast? = some f ∧
        cols.mapM (shiftFrameTD N (s.psf.getD k 0 - ((ups.countP fun u => u.1 = k) + 1 : ℕ) * (s.sro.getD k 0 * Ns))) = .ok f
  | [], s, hk, h => by
    have ev : (s.advance Ns k).psf.getD k 0 = s.psf.getD k 0 - s.sro.getD k 0 * Ns := by
      unfold NetClock.advance
      rw [List.getD_eq_getElem?_getD, List.getElem?_set_self hk]
      rfl
    rw [List.nil_append, NetClock.run] at h
    unfold NetClock.localFrame at h
    rw [if_pos (show (true && true) = true from rfl), ev] at h
    cases hm : cols.mapM (shiftFrameTD N (s.psf.getD k 0 - s.sro.getD k 0 * Ns)) with
    | error e => rw [hm] at h; simp at h
    | ok f =>
      rw [hm] at h
      simp only [NetClock.run, Except.ok.injEq, Prod.mk.injEq] at h
      refine ⟨f, by rw [← h.2]; rfl, ?_⟩
      simpa using hm
  | (j, c) :: ups, s, hk, h => by
    rw [List.cons_append, NetClock.run] at h
    unfold NetClock.localFrame at h
    rw [if_pos (show (true && true) = true from rfl)] at h
    cases hm : c.mapM (shiftFrameTD N ((s.advance Ns j).psf.getD j 0)) with
    | error e => rw [hm] at h; simp at h
    | ok f0 =>
      rw [hm] at h
      simp only at h
      cases hr : (s.advance Ns j).run true true N Ns (ups ++ [(k, cols)]) with
      | error e => rw [hr] at h; simp at h
      | ok p =>
        obtain ⟨s2, fs2⟩ := p
        rw [hr] at h
        simp only [Except.ok.injEq, Prod.mk.injEq] at h
        obtain ⟨rfl, rfl⟩ := h
        obtain ⟨f, h1, h2⟩ := C150_given ups (s.advance Ns j) (by simpa [NetClock.advance] using hk) hr
        refine ⟨f, by rw [List.getLast?_cons, h1]; rfl, ?_⟩
        rw [← h2]
        congr 2
        by_cases hj : j = k
        · subst hj
          have ev : (s.advance Ns j).psf.getD j 0 = s.psf.getD j 0 - s.sro.getD j 0 * Ns := by
            unfold NetClock.advance
            rw [List.getD_eq_getElem?_getD, List.getElem?_set_self hk]
            rfl
          have es : (s.advance Ns j).sro = s.sro := rfl
          rw [ev, es, List.countP_cons_of_pos (by simp)]
          push_cast
          ring
        · have ev : (s.advance Ns j).psf.getD k 0 = s.psf.getD k 0 := by
            unfold NetClock.advance
            simp only []
            rw [List.getD_eq_getElem?_getD, List.getElem?_set_ne hj, List.getD_eq_getElem?_getD]
          have es : (s.advance Ns j).sro = s.sro := rfl
          rw [ev, es, List.countP_cons_of_neg (by simp [hj])]

theorem estRun_psf (ppm : List ℝ) (Ns k : ℕ) : ∀ (ups : List (ℕ × ℕ)) (s : NetClock), s.sro.length = s.psf.length →
    (∀ u ∈ ups, u.2 < s.psf.length) → k < s.psf.length →
    ∃ s', s.estRun .oracle ppm Ns ups = .ok s' ∧ s'.psf.length = s.psf.length ∧
      s'.psf.getD k 0 = s.psf.getD k 0 - aheadSamples Ns (ppm.getD k 0) (rootsOf ppm k ups)
  | [], s, _, _, _ => ⟨s, rfl, rfl, by simp [aheadSamples, rootsOf]⟩
  | (root, j) :: ups, s, hl, hu, hk => by
    have hj : j < s.psf.length := hu (root, j) List.mem_cons_self
    obtain ⟨s', e, l, v⟩ := estRun_psf ppm Ns k ups
      (({ s with sro := s.sro.set j ((ppm.getD j 0 - ppm.getD root 0) * (1 / 1000000)) } : NetClock).advance Ns j)
      (by simp [NetClock.advance, hl]) (by simpa [NetClock.advance] using fun u h => hu u (List.mem_cons_of_mem _ h))
      (by simpa [NetClock.advance] using hk)
    refine ⟨s', by rw [NetClock.estRun]; exact e, by rw [l]; simp [NetClock.advance], ?_⟩
    rw [v]
    have hset : (s.sro.set j ((ppm.getD j 0 - ppm.getD root 0) * (1 / 1000000))).getD j 0 =
        (ppm.getD j 0 - ppm.getD root 0) * (1 / 1000000) := by
      rw [List.getD_eq_getElem?_getD, List.getElem?_set_self (by omega)]
      rfl
    by_cases hjk : j = k
    · subst hjk
      have e1 : (NetClock.advance Ns j { s with sro := s.sro.set j ((ppm.getD j 0 - ppm.getD root 0) * (1 / 1000000)) }).psf.getD j 0 =
          s.psf.getD j 0 - (ppm.getD j 0 - ppm.getD root 0) * (1 / 1000000) * Ns := by
        unfold NetClock.advance
        simp only [hset]
        rw [List.getD_eq_getElem?_getD, List.getElem?_set_self hj]
        rfl
      rw [e1]
      have e2 : rootsOf ppm j ((root, j) :: ups) = ppm.getD root 0 :: rootsOf ppm j ups := by simp [rootsOf]
      rw [e2]
      unfold aheadSamples
      rw [List.map_cons, List.sum_cons]
      ring
    · have e1 : (NetClock.advance Ns j { s with sro := s.sro.set j ((ppm.getD j 0 - ppm.getD root 0) * (1 / 1000000)) }).psf.getD k 0 =
          s.psf.getD k 0 := by
        unfold NetClock.advance
        simp only []
        rw [List.getD_eq_getElem?_getD, List.getElem?_set_ne hjk, List.getD_eq_getElem?_getD]
      have e2 : rootsOf ppm k ((root, j) :: ups) = rootsOf ppm k ups := by simp [rootsOf, hjk]
      rw [e1, e2]

/-- C150 (oracle): were the estimation called at every update, node `k` would be shifted back by the samples it has run ahead of the roots of
its updates, whatever the order of the updates of the nodes. -/
theorem C150_oracle (ppm : List ℝ) (Ns : ℕ) {n k : ℕ} {ups : List (ℕ × ℕ)} (hu : ∀ u ∈ ups, u.2 < n) (hk : k < n) :
    ∃ s, (NetClock.init n).estRun .oracle ppm Ns ups = .ok s ∧
      s.psf.getD k 0 = -aheadSamples Ns (ppm.getD k 0) (rootsOf ppm k ups) := by
  obtain ⟨s, e, _, v⟩ := estRun_psf ppm Ns k ups (NetClock.init n) (by simp [NetClock.init]) (by simpa [NetClock.init] using hu)
    (by simpa [NetClock.init] using hk)
  refine ⟨s, e, ?_⟩
  rw [v, getD_zeros (by intro x hx; exact List.eq_of_mem_replicate hx), zero_sub]

theorem aheadSamples_sub (Ns : ℕ) (e e' : ℝ) (roots : List ℝ) :
    aheadSamples Ns e roots - aheadSamples Ns e' roots = roots.length * (Ns * (e - e') / 1000000) := by
  unfold aheadSamples
  induction roots with
  | nil => simp
  | cons r roots ih =>
    simp only [List.map_cons, List.sum_cons, List.length_cons]
    push_cast
    linear_combination ih

/-- C150 (any root): two nodes whose updates have the same roots would be shifted against each other by their own relative offset, whatever
the roots. -/
theorem C150_relative (ppm : List ℝ) (Ns : ℕ) {n k l : ℕ} {ups : List (ℕ × ℕ)} (hu : ∀ u ∈ ups, u.2 < n) (hk : k < n) (hl : l < n)
    (h : (ups.filter fun u => u.2 = k).map Prod.fst = (ups.filter fun u => u.2 = l).map Prod.fst) :
    ∃ s, (NetClock.init n).estRun .oracle ppm Ns ups = .ok s ∧
      s.psf.getD l 0 - s.psf.getD k 0 = (ups.countP fun u => u.2 = k) * (Ns * (ppm.getD k 0 - ppm.getD l 0) / 1000000) := by
  obtain ⟨s, e, v⟩ := C150_oracle ppm Ns hu hk
  obtain ⟨s', e', v'⟩ := C150_oracle ppm Ns hu hl
  obtain rfl : s = s' := by
    rw [e] at e'
    exact Except.ok.inj e'
  have hr : rootsOf ppm l ups = rootsOf ppm k ups := by
    have := congrArg (List.map fun r => ppm.getD r 0) h
    simp only [List.map_map] at this
    exact this.symm
  refine ⟨s, e, ?_⟩
  rw [v, v', hr, neg_sub_neg, aheadSamples_sub, rootsOf, List.length_map, List.countP_eq_length_filter]

/-- C150 (exceptions): an odd size of the transform raises `ValueError`; a method other than the oracle is not there. -/
theorem C150_errors {N : ℕ} (ho : ¬ 2 ∣ N) (Ns k : ℕ) (x : List ℂ) (cols : List (List ℂ)) (s : NetClock) (ppm : List ℝ) (root : ℕ) :
    s.localFrame true true N Ns k (x :: cols) = .error .valueError ∧
      s.estimate .cohDrift ppm root k = .error .notImplementedError ∧ s.estimate .dxcpphat ppm root k = .error .notImplementedError ∧
      s.estimate .other ppm root k = .error .unboundLocalError := by
  refine ⟨?_, rfl, rfl, rfl⟩
  have e : ∀ shift, shiftFrameTD N shift x = .error .valueError := by
    intro shift
    unfold shiftFrameTD backToTD
    rw [if_pos]
    simp only [applyShift, List.length_map, List.length_zipIdx, List.length_take, dft_length]
    omega
  unfold NetClock.localFrame
  rw [if_pos (show (true && true) = true from rfl), List.mapM_cons, e]
  rfl

/-- Three updates of two nodes with the compensation: hypotheses of `C150_refuted_netwide`. -/
example : ∀ u ∈ [(0, [[1, 2]]), (1, [[3, 4]]), (0, [[5, 6], [7, 8]])], ∀ x ∈ (u : ℕ × List (List ℝ)).2, x.length = 2 := by
  simp

/-- Node 1 (100 ppm), updated twice under the root 0 and once under itself as root: 1024 samples an update, 0.2048 samples ahead. -/
example : ∃ s, (NetClock.init 2).estRun .oracle [0, 100] 1024 [(0, 0), (0, 1), (1, 1), (1, 0), (0, 1)] = .ok s ∧
    s.psf.getD 1 0 = -(2048 / 10000) ∧ s.psf.getD 0 0 = 1024 / 10000 := by
  obtain ⟨s, e, v⟩ := C150_oracle [0, 100] 1024 (n := 2) (k := 1) (ups := [(0, 0), (0, 1), (1, 1), (1, 0), (0, 1)]) (by simp) (by omega)
  obtain ⟨s', e', v'⟩ := C150_oracle [0, 100] 1024 (n := 2) (k := 0) (ups := [(0, 0), (0, 1), (1, 1), (1, 0), (0, 1)]) (by simp) (by omega)
  obtain rfl : s = s' := by
    rw [e] at e'
    exact Except.ok.inj e'
  refine ⟨s, e, ?_, ?_⟩
  · rw [v]
    norm_num [aheadSamples, rootsOf]
  · rw [v']
    norm_num [aheadSamples, rootsOf]

/-- Two nodes with given offsets: the second update of node 1 shifts by twice two samples. -/
example : ∃ s fs, (NetClock.mk [0, 1] [0, 0]).run true true 4 2 ([(1, []), (0, [])] ++ [(1, [([1, 2, 3, 4] : List ℝ).map Complex.ofReal])]) =
    .ok (s, fs) ∧ fs.getLast? = some [([1, 2, 3, 4] : List ℝ).map Complex.ofReal] := by
  have e : shiftFrameTD 4 (-2 - 2) (([1, 2, 3, 4] : List ℝ).map Complex.ofReal) = .ok (([1, 2, 3, 4] : List ℝ).map Complex.ofReal) := by
    have := C150_delay (N := 4) (by norm_num) (by norm_num) (-4) (x := [1, 2, 3, 4]) (by simp)
    have c : (-2 - 2 : ℝ) = ((-4 : ℤ) : ℝ) := by norm_num
    rw [c, this]
    norm_num [circDelay, List.range_succ]
    exact ⟨rfl, rfl⟩
  refine ⟨⟨[0, 1], [0, -2 - 2]⟩, [[], [], [([1, 2, 3, 4] : List ℝ).map Complex.ofReal]], ?_, rfl⟩
  simp only [List.cons_append, List.nil_append, NetClock.run, NetClock.localFrame, Bool.and_self, if_true, List.mapM_nil, List.mapM_cons,
    NetClock.advance, List.set_cons_succ, List.set_cons_zero, List.getD_cons_succ, List.getD_cons_zero, zero_mul, sub_zero, one_mul,
    Nat.cast_ofNat, zero_sub, e, pure, bind, Except.pure, Except.bind]

/-- The frame of the recording that is delayed by one sample. -/
example : shiftFrameTD 4 ((1 : ℤ) : ℝ) (([1, 2, 3, 4] : List ℝ).map Complex.ofReal) =
    .ok (([4, 1, 2, 3] : List ℝ).map Complex.ofReal) := by
  rw [C150_delay (by norm_num) (by norm_num) 1 (by simp)]
  norm_num [circDelay, List.range_succ]
  exact ⟨rfl, rfl⟩

end Danse
