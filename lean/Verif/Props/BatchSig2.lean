import Verif.Props.BatchSig

/-! # C99: the best achievable performance and the costs of batch mode -/

set_option linter.unusedSectionVars false

namespace Danse
open Matrix

section
variable {K : Nat} {S : Fin K → Type} [∀ k, Fintype (S k)] [∀ k, DecidableEq (S k)]

/-- C99: the best-performance signals. For recordings of any length of at least one frame, the signal
of node `k` is made of exactly the complete frames, filtered in every bin with the given filters or,
if none are given, with the filters that the filter update yields from the covariance matrices of
all frames of all sensors, split by the VAD "active at any node". -/
theorem C99_output {c : SigBatch S} (h : c.Ok) {given : Option (Nat → Fin K → NetCh S → ℂ)}
    {w : Nat → Fin K → NetCh S → ℂ} {out : Fin K → List ℝ} (hr : c.best given = .ok (w, out)) :
    (∀ f < c.F, ∀ k, ∃ R N, covBatch (F := Unit) ((c.allFrames f).map fun y _ => y)
        (centrVad c.vad) = .ok (R, N) ∧
        match given with
        | some g => w f k = g f k
        | none => c.updC k (R ()) (N ()) = .ok (w f k)) ∧
      ∀ k, c.Made (fun t f => star (w f k) ⬝ᵥ c.obs t f) (out k) :=
  SigBatch.best_ok h hr

/-- C99: the run succeeds, also for recordings that the frames fit exactly (unlike `danse_batch`,
`C98_refuted_exact_fit`), whenever the covariance matrices exist and the updates succeed. -/
theorem C99_total {c : SigBatch S} (h : c.Ok) (given : Option (Nat → Fin K → NetCh S → ℂ))
    {R : Nat → (Unit → Matrix (NetCh S) (NetCh S) ℂ) × (Unit → Matrix (NetCh S) (NetCh S) ℂ)}
    (hc : ∀ f < c.F, covBatch (F := Unit) ((c.allFrames f).map fun y _ => y)
      (centrVad c.vad) = .ok (R f))
    (hu : given = none → ∀ f < c.F, ∀ k, ∃ w, c.updC k ((R f).1 ()) ((R f).2 ()) = .ok w) :
    ∃ r, c.best given = .ok r := by
  obtain ⟨X, h1, h2, -⟩ := h.transform
  unfold SigBatch.best
  rw [h1]
  have hcov : (List.range c.F).mapM (fun f =>
      covBatch (F := Unit) ((c.bin X f).frames.map fun y _ => y) (centrVad c.vad)) =
      .ok ((List.range c.F).map R) := by
    apply mapM_ok
    intro f hf
    have : (c.bin X f).frames = c.allFrames f := h2 f
    rw [this]
    exact hc f (List.mem_range.mp hf)
  have hget : ∀ f < c.F, ((List.range c.F).map R)[f]? = some (R f) := by
    intro f hf
    rw [List.getElem?_map, List.getElem?_range hf]
    rfl
  have hw : ∃ ws, (List.finRange K).mapM (fun k => (List.range c.F).mapM
      (c.bestFilter given ((List.range c.F).map R) k)) = .ok ws := by
    obtain ⟨ws, h3, -⟩ := mapM_ok_of_forall (P := fun _ _ => True) (l := List.finRange K)
      (f := fun k => (List.range c.F).mapM (c.bestFilter given ((List.range c.F).map R) k))
      fun k _ => by
        obtain ⟨v, h4, -⟩ := mapM_ok_of_forall (P := fun _ _ => True) (l := List.range c.F)
          (f := c.bestFilter given ((List.range c.F).map R) k) fun f hf => by
            unfold SigBatch.bestFilter
            cases given with
            | some g => exact ⟨_, rfl, trivial⟩
            | none =>
              obtain ⟨v, hv⟩ := hu rfl f (List.mem_range.mp hf) k
              simp only [hget f (List.mem_range.mp hf)]
              exact ⟨v, hv, trivial⟩
        exact ⟨v, h4, trivial⟩
    exact ⟨ws, h3⟩
  obtain ⟨ws, hws⟩ := hw
  have hb : bestFrames (numIter c.len c.N c.Ns) c.T = .ok c.complete := by
    have hT := h.T_eq
    unfold bestFrames
    rw [h.iter]
    by_cases e : c.T = c.complete
    · rw [if_pos e, e]
    · by_cases hd : c.Ns ∣ c.len - c.N
      · rw [if_pos hd] at hT; omega
      · rw [if_neg hd] at hT
        rw [if_neg e, if_pos hT, hT]
        rfl
  change ∃ r, ((List.range c.F).mapM (fun f =>
      covBatch (F := Unit) ((c.bin X f).frames.map fun y _ => y) (centrVad c.vad)) >>= _) = _
  rw [hcov]
  change ∃ r, ((List.finRange K).mapM (fun k => (List.range c.F).mapM
      (c.bestFilter given ((List.range c.F).map R) k)) >>= _) = _
  rw [hws]
  change ∃ r, (bestFrames (numIter c.len c.N c.Ns) c.T >>= _) = _
  rw [hb]
  exact ⟨_, rfl⟩

/-- C99: it is the centralised estimate. Where batch mode computes centralised signals at all, the
best-performance signals are the same. -/
theorem C99_is_centralised {c : SigBatch S} (h : c.Ok) (hd : ¬ c.Ns ∣ c.len - c.N)
    {w : Nat → Fin K → NetCh S → ℂ} {out outC : Fin K → List ℝ} (hr : c.best none = .ok (w, out))
    (hc : c.centr = .ok outC) : out = outC := by
  obtain ⟨h1, h2⟩ := SigBatch.best_ok h hr
  obtain ⟨w', h3, h4⟩ := SigBatch.centr_ok h hd hc
  have hw : ∀ f < c.F, ∀ k, w f k = w' f k := by
    intro f hf k
    obtain ⟨R, N, h5, h6⟩ := h1 f hf k
    obtain ⟨R', N', h7, h8⟩ := h3 f hf k
    rw [h5] at h7
    injection h7 with h7
    injection h7 with h9 h10
    change c.updC k (R ()) (N ()) = .ok (w f k) at h6
    rw [h9, h10, h8] at h6
    injection h6 with h6
    exact h6.symm
  funext k
  have h5 := (h2 k).congr (Y := fun t f => star (w' f k) ⬝ᵥ c.obs t f)
    fun t _ f hf => by rw [hw f hf k]
  apply List.ext_getElem?
  intro n
  by_cases hn : n < c.len
  · rw [h5.2 n hn, (h4 k).2 n hn]
  · have e1 : (out k)[n]? = none := by rw [List.getElem?_eq_none_iff, h5.1]; omega
    have e2 : (outC k)[n]? = none := by rw [List.getElem?_eq_none_iff, (h4 k).1]; omega
    rw [e1, e2]

/-- C99: speech and noise of the best-performance signals add up. If the recordings are the sums of
the speech and noise recordings, then the speech-only and noise-only runs with the filters of the
main run give signals that add up to the signal of the main run, sample by sample. -/
theorem C99_adds_up {c cs cn : SigBatch S} (h : c.Ok) (hs : cs.win = c.win ∧ cs.Ns = c.Ns ∧
      cs.len = c.len) (hn : cn.win = c.win ∧ cn.Ns = c.Ns ∧ cn.len = c.len)
    (hy : ∀ a i, c.y a i = cs.y a i + cn.y a i)
    {w ws wn : Nat → Fin K → NetCh S → ℂ} {out outS outN : Fin K → List ℝ}
    (hr : c.best none = .ok (w, out)) (hrs : cs.best (some w) = .ok (ws, outS))
    (hrn : cn.best (some w) = .ok (wn, outN)) (k : Fin K) :
    out k = List.zipWith (· + ·) (outS k) (outN k) := by
  have hNs : cs.N = c.N := by unfold SigData.N; rw [hs.1]
  have hNn : cn.N = c.N := by unfold SigData.N; rw [hn.1]
  have hos : cs.Ok := by
    refine ⟨?_, ?_, ?_, ?_⟩
    · rw [hs.1]; exact h.sum
    · rw [hs.2.1]; exact h.shift
    · rw [hs.2.1, hNs]; exact h.overlap
    · rw [hs.2.2, hNs]; exact h.long
  have hon : cn.Ok := by
    refine ⟨?_, ?_, ?_, ?_⟩
    · rw [hn.1]; exact h.sum
    · rw [hn.2.1]; exact h.shift
    · rw [hn.2.1, hNn]; exact h.overlap
    · rw [hn.2.2, hNn]; exact h.long
  have hFs : cs.F = c.F := by unfold SigData.F; rw [hNs]
  have hFn : cn.F = c.F := by unfold SigData.F; rw [hNn]
  obtain ⟨-, h2⟩ := SigBatch.best_ok h hr
  obtain ⟨h3, h4⟩ := SigBatch.best_ok hos hrs
  obtain ⟨h5, h6⟩ := SigBatch.best_ok hon hrn
  have hws : ∀ f < cs.F, ws f k = w f k := by
    intro f hf
    obtain ⟨_, _, _, e⟩ := h3 f hf k
    exact e
  have hwn : ∀ f < cn.F, wn f k = w f k := by
    intro f hf
    obtain ⟨_, _, _, e⟩ := h5 f hf k
    exact e
  have m1 := (h4 k).congr (Y := fun t f => star (w f k) ⬝ᵥ cs.obs t f)
    fun t _ f hf => by rw [hws f hf]
  have m2 := (h6 k).congr (Y := fun t f => star (w f k) ⬝ᵥ cn.obs t f)
    fun t _ f hf => by rw [hwn f hf]
  exact C98_additive (w := fun f => w f k) hs.1 hn.1 hs.2.1 hn.2.1 hs.2.2 hn.2.2 hy (h2 k) m1 m2

end

/-! ### Costs -/

theorem costTruncAt_eq {m : Nat} (hm : 0 < m) {target d : List ℝ} (hl : target.length = d.length) :
    costTruncAt m target d = if target.length ≤ 2 * m then none else
      some ((∑ n ∈ Finset.Ico m (target.length - m), |target.getD n 0 - d.getD n 0| ^ 2) /
        (target.length - 2 * m : Nat)) := by
  have hsl : ∀ l : List ℝ, pySlice l m (-m) = (l.drop m).take (l.length - 2 * m) := by
    intro l
    unfold pySlice pySliceBound
    simp only []
    rw [if_neg (by omega : ¬ ((m : Int) < 0)), if_pos (by omega : (-(m : Int)) < 0)]
    by_cases h : l.length ≤ m
    · rw [List.drop_eq_nil_of_le (by omega), List.drop_eq_nil_of_le h, List.take_nil, List.take_nil]
    · rw [Int.toNat_natCast, Nat.min_eq_left (by omega)]
      congr 1
      omega
  unfold costTruncAt costWhole meanOpt
  rw [hsl, hsl, hl]
  have hlen : (List.zipWith (fun a b : ℝ => |a - b| ^ 2) ((target.drop m).take (d.length - 2 * m))
      ((d.drop m).take (d.length - 2 * m))).length = d.length - 2 * m := by
    simp only [List.length_zipWith, List.length_take, List.length_drop]
    omega
  by_cases h : d.length ≤ 2 * m
  · rw [if_pos h, if_pos]
    rw [← List.length_eq_zero_iff, hlen]
    omega
  · rw [if_neg h, if_neg]
    · rw [hlen]
      congr 2
      have e : List.zipWith (fun a b : ℝ => |a - b| ^ 2) ((target.drop m).take (d.length - 2 * m))
          ((d.drop m).take (d.length - 2 * m)) = (List.range (d.length - 2 * m)).map
          fun i => |target.getD (m + i) 0 - d.getD (m + i) 0| ^ 2 := by
        apply List.ext_getElem
        · rw [hlen, List.length_map, List.length_range]
        · intro i h1 h2
          rw [hlen] at h1
          rw [List.getElem_zipWith, List.getElem_take, List.getElem_take, List.getElem_drop,
            List.getElem_drop, List.getElem_map, List.getElem_range, getD_lt (by omega),
            getD_lt (by omega)]
      rw [e, list_sum_range_map, Finset.sum_Ico_eq_sum_range]
      congr 2
      omega
    · intro e0
      rw [← List.length_eq_zero_iff, hlen] at e0
      omega

/-- C99: the cost of the DANSE estimate is the mean squared error over all samples but the first and
last 1000; it exists (is not NaN) exactly if there are more than 2000 samples. -/
theorem C99_cost {target d : List ℝ} (hl : target.length = d.length) :
    costTrunc target d = if target.length ≤ 2000 then none else
      some ((∑ n ∈ Finset.Ico 1000 (target.length - 1000), |target.getD n 0 - d.getD n 0| ^ 2) /
        (target.length - 2000 : Nat)) :=
  costTruncAt_eq (by norm_num) hl

/-- C99: the costs of the unprocessed, local and centralised signals are over all samples. -/
theorem C99_cost_whole {target d : List ℝ} (hl : target.length = d.length) :
    costWhole target d = if target.length = 0 then none else
      some ((∑ n ∈ Finset.range target.length, |target.getD n 0 - d.getD n 0| ^ 2) /
        target.length) := by
  unfold costWhole meanOpt
  have e : List.zipWith (fun a b : ℝ => |a - b| ^ 2) target d = (List.range target.length).map
      fun i => |target.getD i 0 - d.getD i 0| ^ 2 := by
    apply List.ext_getElem
    · simp; omega
    · intro i h1 h2
      simp at h1
      rw [List.getElem_zipWith, List.getElem_map, List.getElem_range, getD_lt (by omega),
        getD_lt (by omega)]
  rw [e, list_sum_range_map, List.length_map, List.length_range]
  by_cases h : target.length = 0
  · rw [if_pos h, if_pos (by rw [h]; rfl)]
  · rw [if_neg h, if_neg (by rw [List.map_eq_nil_iff, List.range_eq_nil]; exact h)]

/-- C99 is refuted for the comparison of the costs: there are signals for which the DANSE estimate is
the centralised estimate, sample by sample, and yet its reported cost is lower than the reported cost
of the centralised one. -/
theorem C99_refuted_comparison : ∃ (target d : List ℝ) (cD cC : ℝ), target.length = d.length ∧
    costTrunc target d = some cD ∧ costWhole target d = some cC ∧ cD < cC := by
  have key : ∀ m : Nat, 0 < m → ∃ (target d : List ℝ) (cD cC : ℝ), target.length = d.length ∧
      costTruncAt m target d = some cD ∧ costWhole target d = some cC ∧ cD < cC := by
    intro m hm
    have hl : (List.replicate (2 * m + 1) (0 : ℝ)).length =
        (1 :: List.replicate (2 * m) (0 : ℝ)).length := by
      rw [List.length_cons, List.length_replicate, List.length_replicate]
    have hlen : (List.replicate (2 * m + 1) (0 : ℝ)).length = 2 * m + 1 := List.length_replicate
    have hterm : ∀ n, 1 ≤ n → |(List.replicate (2 * m + 1) (0 : ℝ)).getD n 0 -
        (1 :: List.replicate (2 * m) (0 : ℝ)).getD n 0| ^ 2 = 0 := by
      intro n hn
      obtain ⟨j, rfl⟩ : ∃ j, n = j + 1 := ⟨n - 1, by omega⟩
      rw [List.getD_cons_succ, List.getD_eq_getElem?_getD, List.getD_eq_getElem?_getD,
        List.getElem?_replicate, List.getElem?_replicate]
      split <;> split <;> simp
    refine ⟨List.replicate (2 * m + 1) 0, 1 :: List.replicate (2 * m) 0, 0,
      1 / ((2 * m + 1 : Nat) : ℝ), hl, ?_, ?_, by positivity⟩
    · rw [costTruncAt_eq hm hl, hlen, if_neg (by omega)]
      rw [Finset.sum_eq_zero (fun n hn => hterm n (by have := (Finset.mem_Ico.mp hn).1; omega)),
        zero_div]
    · rw [C99_cost_whole hl, hlen, if_neg (by omega)]
      rw [Finset.sum_range_succ', Finset.sum_eq_zero (fun n _ => hterm (n + 1) (by omega))]
      congr 1
      rw [List.getD_cons_zero, List.getD_eq_getElem?_getD, List.getElem?_replicate,
        if_pos (by omega)]
      norm_num
  exact key 1000 (by norm_num)

/-! ### The best performance in the example of C98 -/

theorem exSigBatch_best : ∃ w out, exSigBatch.best none = .ok (w, out) := by
  obtain ⟨r, hr⟩ := C99_total exSigBatch_ok none (R := fun _ => (fun _ => demoR, fun _ => 1))
    (fun f hf => (exSigBatch_single f hf).covCentr) (fun _ f hf k => ⟨_, demo_centr k⟩)
  exact ⟨r.1, r.2, hr⟩

/-- The filters are (1/3, 1/3), and the first sample (2 at both sensors) of both outputs is 4/3. -/
example (k : Fin 2) : ∃ w out, exSigBatch.best none = .ok (w, out) ∧ (out k)[0]? = some (4 / 3) := by
  obtain ⟨w, out, h⟩ := exSigBatch_best
  refine ⟨w, out, h, ?_⟩
  obtain ⟨h1, h2⟩ := C99_output exSigBatch_ok h
  have hw : ∀ f < exSigBatch.F, w f k = fun _ => 1 / 3 := by
    intro f hf
    obtain ⟨R, N, h3, h4⟩ := h1 f hf k
    have h5 := h3.symm.trans (exSigBatch_single f hf).covCentr
    injection h5 with h5
    injection h5 with h6 h7
    change updateW (R ()) (N ()) (⟨k, ()⟩ : NetCh (K := 2) (fun _ => Unit)) = .ok (w f k) at h4
    rw [h6, h7, demo_centr k] at h4
    injection h4 with h4
    exact h4.symm
  have hm := (h2 k).congr (Y := fun t f => winSpectrum exSigBatch.win exSigBatch.Ns
      (fun n => 1 / 3 * (exSigBatch.y ⟨0, ()⟩ n + exSigBatch.y ⟨1, ()⟩ n)) t f) fun t _ f hf => by
    rw [hw f hf, dotProduct, Fintype.sum_sigma, Fin.sum_univ_two]
    simp only [Finset.univ_unique, Finset.sum_singleton]
    have e : star (fun _ : NetCh (K := 2) (fun _ => Unit) => (1 / 3 : ℂ)) = fun _ => 1 / 3 := by
      funext a
      simp
    rw [e, ← mul_add]
    unfold SigData.obs winSpectrum
    rw [← Finset.sum_add_distrib, Finset.mul_sum]
    apply Finset.sum_congr rfl
    intro n _
    push_cast
    ring
  rw [hm.2 0 (by norm_num [exSigBatch])]
  rw [olaSample_winSpectrum]
  · norm_num [exSigBatch, exBatchVals]
  · refine C98_rectangular exSigBatch_ok (g := 1) (by norm_num) rfl ?_
    change 0 < 4 + _
    omega

end Danse
