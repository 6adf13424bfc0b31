import Verif.Proofs.BatchSig3
import Verif.Props.Vad

/-! # C98: the enhanced signals of batch mode -/

set_option linter.unusedSectionVars false

namespace Danse
open Matrix
open Filter (Tendsto)

/-- C98: the transform of a recording. There is one frame for every complete frame of the recording
and, exactly if samples are left over, one more, in which the missing samples are zeros. -/
theorem C98_frames {win : List ℝ} {Ns L : Nat} (x : Nat → ℝ) (hs : 0 < win.sum) (h0 : 0 < Ns)
    (h1 : Ns ≤ win.length) (h2 : win.length ≤ L) :
    stft win Ns L x = .ok ((List.range (numComplete L win.length Ns +
      if Ns ∣ L - win.length then 0 else 1)).map fun (t : Nat) (f : Nat) =>
        winSpectrum win Ns (zeroExt L x) t f) := by
  obtain ⟨X, h3, h4, h5⟩ := stft_frame x hs h0 h2
  rw [h3]
  congr 1
  have hc : stftCount L win.length Ns = numComplete L win.length Ns +
      if Ns ∣ L - win.length then 0 else 1 := by
    unfold numComplete
    rw [if_pos h2, stftCount_eq h0 h1 h2]
  apply List.ext_getElem (by rw [h4, hc, List.length_map, List.length_range])
  intro t ht ht'
  have := h5 t (by omega)
  rw [getD_lt ht] at this
  rw [this, List.getElem_map, List.getElem_range]
  rfl

/-- C98: recordings shorter than one window are rejected. -/
theorem C98_too_short {win : List ℝ} {Ns L : Nat} (x : Nat → ℝ) (h : L < win.length) :
    stft win Ns L x = .error .valueError := by
  unfold stft
  rw [if_pos h]

section
variable {K : Nat} {S : Fin K → Type} [∀ k, Fintype (S k)] [∀ k, DecidableEq (S k)]

/-- C98: the output of fully connected batch DANSE. If samples are left over after the last complete
frame, then a run that ends normally has, in every bin, gone through `B + 1` batch updates on all
frames, and the signal of node `k` is made of the complete frames (and only those), each filtered
with one filter per bin on all sensors of the network: the filter that the internal filter of
the node after the last update amounts to with the fused signals used in that update. -/
theorem C98_output {c : SigBatch S} (h : c.Ok) (hd : ¬ c.Ns ∣ c.len - c.N)
    (hu : c.nodeUpdating = "seq" ∨ c.nodeUpdating = "sim" ∨ c.nodeUpdating = "asy")
    {st0 : Nat → BatchSt S} {B : Nat} {out : Fin K → List ℝ} (hr : c.run st0 (B + 1) = .ok out) :
    ∃ s s' : Nat → BatchSt S,
      (∀ f < c.F, batchRun (c.problem f) (st0 f) B = .ok (s f)) ∧
      (∀ f < c.F, batchRun (c.problem f) (st0 f) (B + 1) = .ok (s' f)) ∧
      ∀ k, c.Made (fun t f =>
        star (netFilter (fun q => ((s f).ext q).ext) k ((s' f).wT k)) ⬝ᵥ c.obs t f) (out k) := by
  obtain ⟨s, s', h1, h2, h3⟩ := SigBatch.run_ok h hd hu hr
  refine ⟨s, s', h1, h2, fun k => ?_⟩
  refine (h3 k).congr fun t _ f _ => ?_
  rw [netFilter_output]

/-- C98: the same for batch TI-DANSE. -/
theorem C98_output_ti {c : TiSigBatch S} (h : c.Ok) (hd : ¬ c.Ns ∣ c.len - c.N)
    (hu : c.seq = true ∨ c.sim = true)
    {st0 : Nat → TiBatchSt S} {B : Nat} {out : Fin K → List ℝ} (hr : c.run st0 (B + 1) = .ok out) :
    ∃ s s' : Nat → TiBatchSt S,
      (∀ f < c.F, tiBatchRun (c.problem f) (st0 f) B = .ok (s f)) ∧
      (∀ f < c.F, tiBatchRun (c.problem f) (st0 f) (B + 1) = .ok (s' f)) ∧
      ∀ k, c.Made (fun t f =>
        star (tiNetFilter (tiP (s f).exts) k ((s' f).wT k)) ⬝ᵥ c.obs t f) (out k) := by
  obtain ⟨s, s', h1, h2, h3⟩ := TiSigBatch.run_ok h hd hu hr
  refine ⟨s, s', h1, h2, fun k => ?_⟩
  refine (h3 k).congr fun t _ f _ => ?_
  rw [tiNetFilter_output]

/-- C98: the centralised signals are made of the same frames with the centralised filters. -/
theorem C98_centralised {c : SigBatch S} (h : c.Ok) (hd : ¬ c.Ns ∣ c.len - c.N)
    {out : Fin K → List ℝ} (hr : c.centr = .ok out) :
    ∃ w : Nat → Fin K → NetCh S → ℂ,
      (∀ f < c.F, ∀ k, ∃ R N, covBatch (F := Unit) ((c.allFrames f).map fun y _ => y)
        (centrVad c.vad) = .ok (R, N) ∧ c.updC k (R ()) (N ()) = .ok (w f k)) ∧
      ∀ k, c.Made (fun t f => star (w f k) ⬝ᵥ c.obs t f) (out k) :=
  SigBatch.centr_ok h hd hr

/-- C98: a filter that lets one sensor pass gives back the recording of that sensor, wherever the
squared windows sum up to more than `1e-10`. -/
theorem C98_pass_through {c : SigData S} {x : List ℝ} (a : NetCh S) {w : Nat → NetCh S → ℂ}
    (hw : ∀ f < c.F, w f = Pi.single a 1) (hm : c.Made (fun t f => star (w f) ⬝ᵥ c.obs t f) x)
    {n : Nat} (hn : n < c.len) (hp : 1e-10 < olaNorm c.win c.Ns c.complete n) :
    x[n]? = some (c.y a n) := by
  rw [hm.2 n hn]
  congr 1
  rw [← olaSample_winSpectrum (c.y a) hp]
  apply olaSample_congr
  intro t _ f hf
  rw [hw f hf, ← Pi.single_star, star_one, single_one_dotProduct]
  rfl

/-- C98: with a rectangular window that is every sample up to the end of the last complete frame. -/
theorem C98_rectangular {c : SigData S} (h : c.Ok) {g : ℝ} (hg : 1e-5 < g)
    (hw : c.win = List.replicate c.N g) {n : Nat}
    (hn : n < c.N + (c.complete - 1) * c.Ns) : 1e-10 < olaNorm c.win c.Ns c.complete n := by
  have hp := h.pos
  have h0 := h.shift
  have ho := h.overlap
  have hN : c.win.length = c.N := rfl
  have hval : ∀ i < c.N, c.win.getD i 0 = g := by
    intro i hi
    rw [hw, List.getD_eq_getElem?_getD, List.getElem?_replicate, if_pos hi]
    rfl
  have hex : ∃ t ∈ hits c.win.length c.Ns c.complete n, c.win.getD (n - t * c.Ns) 0 = g := by
    rw [hN]
    have hd := Nat.div_add_mod n c.Ns
    have hmod := Nat.mod_lt n h0
    refine ⟨min (n / c.Ns) (c.complete - 1), ?_, ?_⟩
    · unfold hits
      rw [Finset.mem_filter, Finset.mem_range]
      by_cases e : n / c.Ns ≤ c.complete - 1
      · rw [Nat.min_eq_left e, Nat.mul_comm (n / c.Ns)]
        omega
      · rw [Nat.min_eq_right (by omega)]
        refine ⟨by omega, ?_, by omega⟩
        have : (c.complete - 1) * c.Ns ≤ n / c.Ns * c.Ns := Nat.mul_le_mul_right _ (by omega)
        rw [Nat.mul_comm (n / c.Ns)] at this
        omega
    · apply hval
      by_cases e : n / c.Ns ≤ c.complete - 1
      · rw [Nat.min_eq_left e, Nat.mul_comm (n / c.Ns)]
        omega
      · rw [Nat.min_eq_right (by omega)]
        omega
  obtain ⟨t, ht, hv⟩ := hex
  unfold olaNorm
  have := Finset.single_le_sum (f := fun t => c.win.getD (n - t * c.Ns) 0 ^ 2)
    (fun i _ => sq_nonneg _) ht
  simp only [hv] at this
  nlinarith

/-- C98: what is always lost. Whatever the filters, the output is zero after the last complete frame,
and, if the window starts with zero (the default `sqrt(hanning)` does), at the first sample. -/
theorem C98_lost {c : SigData S} (h : c.Ok) {X : Nat → Nat → ℂ} {x : List ℝ} (hm : c.Made X x) {n : Nat}
    (hn : n < c.len)
    (hl : c.N + (c.complete - 1) * c.Ns ≤ n ∨ (n = 0 ∧ c.win.getD 0 0 = 0)) :
    x[n]? = some 0 := by
  rw [hm.2 n hn]
  congr 1
  rcases hl with hl | ⟨h1, h2⟩
  · exact olaSample_none X h.pos hl
  · subst h1
    unfold olaSample
    rw [Finset.sum_eq_zero, zero_div]
    intro t _
    rw [Nat.zero_sub, h2, mul_zero]

/-- C98: with fixed filters the output is additive in the recordings. -/
theorem C98_additive {c c1 c2 : SigData S} (hw1 : c1.win = c.win) (hw2 : c2.win = c.win)
    (hn1 : c1.Ns = c.Ns) (hn2 : c2.Ns = c.Ns) (hl1 : c1.len = c.len) (hl2 : c2.len = c.len)
    (hy : ∀ a n, c.y a n = c1.y a n + c2.y a n) {w : Nat → NetCh S → ℂ} {x x1 x2 : List ℝ}
    (hm : c.Made (fun t f => star (w f) ⬝ᵥ c.obs t f) x)
    (hm1 : c1.Made (fun t f => star (w f) ⬝ᵥ c1.obs t f) x1)
    (hm2 : c2.Made (fun t f => star (w f) ⬝ᵥ c2.obs t f) x2) :
    x = List.zipWith (· + ·) x1 x2 := by
  have hc1 : c1.complete = c.complete := by
    unfold SigData.complete SigData.N; rw [hw1, hn1, hl1]
  have hc2 : c2.complete = c.complete := by
    unfold SigData.complete SigData.N; rw [hw2, hn2, hl2]
  apply List.ext_getElem?
  intro n
  rw [List.getElem?_zipWith]
  by_cases hn : n < c.len
  · rw [hm.2 n hn, hm1.2 n (by omega), hm2.2 n (by omega), hw1, hw2, hn1, hn2, hc1, hc2]
    simp only [Option.some.injEq]
    rw [← olaSample_add]
    apply olaSample_congr
    intro t _ f _
    rw [← dotProduct_add]
    congr 1
    funext a
    unfold SigData.obs winSpectrum
    rw [hw1, hw2, hn1, hn2, Pi.add_apply, ← Finset.sum_add_distrib]
    apply Finset.sum_congr rfl
    intro i _
    rw [hy]
    push_cast
    ring
  · have e1 : x[n]? = none := by rw [List.getElem?_eq_none_iff, hm.1]; omega
    have e2 : x1[n]? = none := by rw [List.getElem?_eq_none_iff, hm1.1]; omega
    rw [e1, e2]

/-- C98: when a run succeeds. If samples are left over after the last complete frame, all that is
needed is that the updates succeed in every bin. -/
theorem C98_total {c : SigBatch S} (h : c.Ok) (hd : ¬ c.Ns ∣ c.len - c.N)
    {st0 : Nat → BatchSt S} {B : Nat}
    (hr : ∀ f < c.F, ∃ s, batchRun (c.problem f) (st0 f) B = .ok s) :
    ∃ out, c.run st0 B = .ok out :=
  SigBatch.run_total h hd hr

/-- C98: the same for TI-DANSE. -/
theorem C98_total_ti {c : TiSigBatch S} (h : c.Ok) (hd : ¬ c.Ns ∣ c.len - c.N)
    {st0 : Nat → TiBatchSt S} {B : Nat}
    (hr : ∀ f < c.F, ∃ s, tiBatchRun (c.problem f) (st0 f) B = .ok s) :
    ∃ out, c.run st0 B = .ok out :=
  TiSigBatch.run_total h hd hr

/-- C98 is refuted for recordings that the frames fit exactly: then no batch run with at least one
update ends normally, whatever the data (but for recordings of exactly two frames). -/
theorem C98_refuted_exact_fit {c : SigBatch S} (h : c.Ok) (hd : c.Ns ∣ c.len - c.N)
    (h1 : c.len ≠ c.N + c.Ns) (hK : 0 < K)
    (hu : c.nodeUpdating = "seq" ∨ c.nodeUpdating = "sim" ∨ c.nodeUpdating = "asy")
    (st0 : Nat → BatchSt S) (B : Nat) (out : Fin K → List ℝ) : c.run st0 (B + 1) ≠ .ok out :=
  SigBatch.run_err h hd h1 hK hu st0 B out

/-- C98: the same for TI-DANSE. -/
theorem C98_refuted_exact_fit_ti {c : TiSigBatch S} (h : c.Ok) (hd : c.Ns ∣ c.len - c.N)
    (h1 : c.len ≠ c.N + c.Ns) (hK : 0 < K) (hu : c.seq = true ∨ c.sim = true)
    (st0 : Nat → TiBatchSt S) (B : Nat) (out : Fin K → List ℝ) : c.run st0 (B + 1) ≠ .ok out :=
  TiSigBatch.run_err h hd h1 hK hu st0 B out

/-- C98 is refuted for recordings of exactly two frames: the run ends normally, but the estimate of the
first frame is used for the second one too. -/
theorem C98_refuted_two_frames {c : SigBatch S} (h : c.Ok) (he : c.len = c.N + c.Ns)
    (hu : c.nodeUpdating = "seq" ∨ c.nodeUpdating = "sim" ∨ c.nodeUpdating = "asy")
    {st0 : Nat → BatchSt S} {B : Nat} {out : Fin K → List ℝ} (hr : c.run st0 (B + 1) = .ok out) :
    ∃ s s' : Nat → BatchSt S,
      (∀ f < c.F, batchRun (c.problem f) (st0 f) B = .ok (s f)) ∧
      (∀ f < c.F, batchRun (c.problem f) (st0 f) (B + 1) = .ok (s' f)) ∧
      ∀ k, c.Made (fun _ f =>
        star (netFilter (fun q => ((s f).ext q).ext) k ((s' f).wT k)) ⬝ᵥ c.obs 0 f) (out k) := by
  obtain ⟨s, s', D, h1, h2, h3, h4⟩ := SigBatch.run_parts h hu hr
  refine ⟨s, s', h1, h2, fun k => ?_⟩
  refine (h.made_two he (h4 k)).congr fun t _ f hf => ?_
  rw [h3 f hf k, h.dropLast_two he]
  change star ((s' f).wT k) ⬝ᵥ _ = _
  rw [netFilter_output]

/-- C98: enough VAD frames. If the overlap is at least one half, the frame-wise VAD derived from a VAD
of the length of the recordings covers all frames of the transform, so the covariance matrices of
every bin exist. -/
theorem C98_vad_frames {c : SigData S} (h : c.Ok) (h2 : 2 * c.Ns ≤ c.N) {vad : List ℚ} {p : ℚ}
    {v : List Bool} (hl : vad.length = c.len) (hv : vadPerFrame vad c.N c.Ns p = .ok v) (f : Nat) :
    ∃ R, covBatch (F := Unit) ((c.allFrames f).map fun y _ => y) v = .ok R := by
  have hc := h.complete_eq
  have hlen := C37_length hv
  rw [hl] at hlen
  have hdiv : (c.len - c.N) / c.Ns + 2 ≤ c.len / c.Ns := by
    rw [Nat.le_div_iff_mul_le h.shift, Nat.add_mul]
    have := Nat.div_mul_le_self (c.len - c.N) c.Ns
    have := h.long
    omega
  have hfr := c.allFrames_length f
  have hge : (c.allFrames f).length ≤ v.length := by
    have : numComplete c.len c.N c.Ns = c.complete := rfl
    rw [hfr, hlen, this]
    split <;> omega
  unfold covBatch
  simp only [List.length_map]
  by_cases e : v.length > (c.allFrames f).length
  · rw [if_pos e, if_neg (by rw [List.length_take]; omega)]
    exact ⟨_, rfl⟩
  · rw [if_neg e, if_neg (by omega)]
    exact ⟨_, rfl⟩

/-- C98 is refuted without overlap: the frame-wise VAD does not cover the last, incomplete frame, and
the covariance matrices raise `IndexError`. -/
theorem C98_refuted_no_overlap {c : SigData S} (h : c.Ok) (h2 : c.Ns = c.N)
    (hd : ¬ c.Ns ∣ c.len - c.N) {vad : List ℚ} {p : ℚ}
    {v : List Bool} (hl : vad.length = c.len) (hv : vadPerFrame vad c.N c.Ns p = .ok v) (f : Nat) :
    covBatch (F := Unit) ((c.allFrames f).map fun y _ => y) v = .error .indexError := by
  have hc := h.complete_eq
  have hlen := C37_length hv
  rw [hl] at hlen
  have hdiv : c.len / c.Ns = (c.len - c.N) / c.Ns + 1 := by
    have e : c.len = (c.len - c.N) + c.Ns := by have := h.long; omega
    conv_lhs => rw [e]
    rw [Nat.add_div_right _ h.shift]
  have hfr := c.allFrames_length f
  rw [if_neg hd] at hfr
  have hlt : v.length < (c.allFrames f).length := by
    rw [hfr, hlen, hdiv]
    omega
  unfold covBatch
  simp only [List.length_map]
  rw [if_neg (by omega : ¬ v.length > (c.allFrames f).length),
    if_pos (by omega : v.length ≠ (c.allFrames f).length)]

/-- C98: convergence of the signals. If in every bin the data has one source (and the centralised
filters use every node), then, sample by sample, the enhanced signals of sequential batch DANSE
converge to the centralised ones as the number of batch updates grows. -/
theorem C98_converges {c : SigBatch S} (h : c.Ok) (hd : ¬ c.Ns ∣ c.len - c.N)
    (hs : c.nodeUpdating = "seq") (ht : ∀ f, TiedCfg (c.problem f))
    {ref : ∀ k, S k} {R Nn : Nat → Matrix (NetCh S) (NetCh S) ℂ} {rho : Nat → ℂ}
    {a : Nat → NetCh S → ℂ}
    (hb : ∀ f < c.F, SingleSource (c.problem f) ref (R f) (Nn f) (rho f) (a f))
    (hC : ∀ k, c.updC k = fun Ry Rn => updateW Ry Rn ⟨k, ref k⟩)
    (hz : ∀ f < c.F, ∀ k w, updateW (R f) (Nn f) ⟨k, ref k⟩ = .ok w → ∃ s, w ⟨k, s⟩ ≠ 0)
    {st0 : Nat → BatchSt S} {out : Nat → Fin K → List ℝ} (hrun : ∀ B, c.run st0 B = .ok (out B))
    {outC : Fin K → List ℝ} (hc : c.centr = .ok outC) (k : Fin K) {n : Nat} (hn : n < c.len) :
    ∃ (x : Nat → ℝ) (xC : ℝ), (∀ B, (out (B + 1) k)[n]? = some (x B)) ∧ (outC k)[n]? = some xC ∧
      Tendsto x Filter.atTop (nhds xC) := by
  obtain ⟨w, hw, hm⟩ := SigBatch.centr_ok h hd hc
  have hw' : ∀ f < c.F, ∀ q, updateW (R f) (Nn f) ⟨q, ref q⟩ = .ok (w f q) := by
    intro f hf q
    obtain ⟨R', N', h1, h2⟩ := hw f hf q
    have h3 := (hb f hf).covCentr
    have h4 := h1.symm.trans h3
    injection h4 with h4
    injection h4 with h5 h6
    rw [hC, h5, h6] at h2
    exact h2
  have hst : ∀ f, ∃ x : Nat → BatchSt S, f < c.F →
      ∀ B, batchRun (c.problem f) (st0 f) B = .ok (x B) := by
    intro f
    by_cases hf : f < c.F
    · choose x hx using fun B => SigBatch.run_states h (hrun B) hf
      exact ⟨x, fun _ => hx⟩
    · exact ⟨fun _ => st0 f, fun e => absurd e hf⟩
  choose xs hxs using hst
  have hW : ∀ f, ∃ W : Nat → NetCh S → ℂ, f < c.F →
      (∀ B, (xs f (B + 1)).dhat k = (c.problem f).frames.dropLast.map fun y => star (W B) ⬝ᵥ y) ∧
      Tendsto W Filter.atTop (nhds (w f k)) := by
    intro f
    by_cases hf : f < c.F
    · obtain ⟨W, h1, h2⟩ := C59_outputs (hb f hf) (ht f) hs (st0 f) (xs f) (hxs f hf) (hw' f hf)
        (fun q => hz f hf q _ (hw' f hf q)) k
      exact ⟨W, fun _ => ⟨h1, h2⟩⟩
    · exact ⟨fun _ => 0, fun e => absurd e hf⟩
  choose W hW using hW
  refine ⟨fun B => olaSample c.win c.Ns c.complete (fun t f => star (W f B) ⬝ᵥ c.obs t f) n, _, ?_,
    (hm k).2 n hn, ?_⟩
  · intro B
    obtain ⟨s, s', h1, h2, h3⟩ := SigBatch.run_ok h hd (Or.inl hs) (hrun (B + 1))
    rw [(h3 k).2 n hn]
    congr 1
    apply olaSample_congr
    intro t ht' f hf
    have e1 : s' f = xs f (B + 1) := Except.ok.inj ((h2 f hf).symm.trans (hxs f hf (B + 1)))
    have e0 : s f = xs f B := Except.ok.inj ((h1 f hf).symm.trans (hxs f hf B))
    obtain ⟨st1, h4, h5⟩ := batchRun_last (c := c.problem f) (Or.inl hs) (hxs f hf (B + 1))
    have e2 : st1 = xs f B := Except.ok.inj (h4.symm.trans (hxs f hf B))
    have h6 := h5 k
    rw [(hW f hf).1 B] at h6
    have := dropLast_map_get h hd ht' h6
    rw [e1, e0, ← e2]
    exact this.symm
  · apply olaSample_tendsto
    intro t _ f hf
    have h1 := (hW f hf).2
    have h2 : Continuous fun v : NetCh S → ℂ => star v ⬝ᵥ c.obs t f := by
      unfold dotProduct
      exact continuous_finsetSum _ fun i _ =>
        ((continuous_star.comp (continuous_apply i)).mul continuous_const)
    exact (h2.tendsto _).comp h1

end

/-! ### A concrete case: two nodes with one sensor, 25 samples, frames of 4 samples, shift 2 -/

/-- Values every four samples at the two nodes. -/
def exBatchVals : Nat → ℝ × ℝ
  | 0 => (2, 2)
  | 1 => (2, 0)
  | 2 => (0, 2)
  | 3 => (0, 0)
  | 4 => (1, 1)
  | 5 => (1, -1)
  | 6 => (2, 2)
  | _ => (0, 0)

noncomputable def exSigBatch : SigBatch (K := 2) (fun _ => Unit) where
  win := [1, 1, 1, 1]
  Ns := 2
  len := 25
  y := fun a n => if n % 4 = 0 then
    (if a.1 = 0 then (exBatchVals (n / 4)).1 else (exBatchVals (n / 4)).2) else 0
  vad := fun _ => [true, true, true, true, true, true, true, false, false, false, false, true]
  upd := fun _ Ry Rn => updateW Ry Rn (Sum.inl ())
  updC := fun k Ry Rn => updateW Ry Rn ⟨k, ()⟩
  ext := fun _ => ⟨false, fun _ => 1, false, false, false, true, 0, 1, 0⟩
  nodeUpdating := "seq"

theorem exSigBatch_ok : exSigBatch.Ok where
  sum := by norm_num [exSigBatch]
  shift := by norm_num [exSigBatch]
  overlap := by norm_num [exSigBatch, SigData.N]
  long := by norm_num [exSigBatch, SigData.N]

theorem exSigBatch_left : ¬ exSigBatch.Ns ∣ exSigBatch.len - exSigBatch.N := by
  have e1 : exSigBatch.Ns = 2 := rfl
  have e2 : exSigBatch.len = 25 := rfl
  have e3 : exSigBatch.N = 4 := rfl
  rw [e1, e2, e3]
  decide

theorem winSpectrum_ex (x : Nat → ℝ) (hx : ∀ n, n % 2 = 1 → x n = 0) (t f : Nat) :
    winSpectrum [1, 1, 1, 1] 2 x t f = x (t * 2) + (-1) ^ f * x (t * 2 + 2) := by
  unfold winSpectrum
  change ∑ n ∈ Finset.range 4, _ = _
  rw [Finset.sum_range_succ, Finset.sum_range_succ, Finset.sum_range_succ, Finset.sum_range_one,
    hx (t * 2 + 1) (by omega), hx (t * 2 + 3) (by omega)]
  have h1 : Complex.exp (-2 * Real.pi * Complex.I * f * (2 : ℕ) / ([1, 1, 1, 1] : List ℝ).length) =
      (-1) ^ f := by
    rw [← Complex.exp_pi_mul_I, ← Complex.exp_nat_mul]
    rw [Complex.exp_eq_exp_iff_exists_int]
    refine ⟨-f, ?_⟩
    push_cast
    simp
    ring
  rw [h1]
  simp
  ring

theorem exSigBatch_frames (f : Nat) : exSigBatch.allFrames f =
    [demoFrame 2 2, fun a => (-1) ^ f * demoFrame 2 0 a, demoFrame 2 0,
      fun a => (-1) ^ f * demoFrame 0 2 a, demoFrame 0 2, fun a => (-1) ^ f * demoFrame 0 0 a,
      demoFrame 0 0, fun a => (-1) ^ f * demoFrame 1 1 a, demoFrame 1 1,
      fun a => (-1) ^ f * demoFrame 1 (-1) a, demoFrame 1 (-1),
      fun a => (-1) ^ f * demoFrame 2 2 a] := by
  have h1 : exSigBatch.allFrames f = (List.range 12).map fun (t : Nat) a =>
      winSpectrum [1, 1, 1, 1] 2 (zeroExt 25 (exSigBatch.y a)) t f := by
    unfold SigData.allFrames
    rw [if_neg exSigBatch_left]
    rfl
  rw [h1]
  have h2 : ∀ (a : NetCh (K := 2) (fun _ => Unit)) (t : Nat),
      winSpectrum [1, 1, 1, 1] 2 (zeroExt 25 (exSigBatch.y a)) t f =
      (zeroExt 25 (exSigBatch.y a) (t * 2) : ℝ) +
        (-1) ^ f * (zeroExt 25 (exSigBatch.y a) (t * 2 + 2) : ℝ) := by
    intro a t
    rw [winSpectrum_ex]
    intro n hn
    unfold zeroExt
    split
    · change (if n % 4 = 0 then _ else _) = (0 : ℝ)
      rw [if_neg (by omega)]
    · rfl
  simp only [h2]
  simp only [List.range, List.range.loop, List.map_cons, List.map_nil, List.cons.injEq, and_true]
  refine ⟨?_, ?_, ?_, ?_, ?_, ?_, ?_, ?_, ?_, ?_, ?_, ?_⟩ <;> funext ⟨a, u⟩ <;>
    fin_cases a <;> simp [zeroExt, exSigBatch, exBatchVals, demoFrame]

theorem exSigBatch_cov (f : Nat) (hf : f < 3) (v : List Bool)
    (hv : v = [true, true, true, true, true, true, true, false, false, false, false, true]) :
    covBatch (F := Unit) ((exSigBatch.allFrames f).map fun y _ => y) v =
      .ok (fun _ => demoR, fun _ => 1) := by
  subst hv
  rw [exSigBatch_frames]
  have hs : ((-1 : ℂ) ^ f = 1) ∨ ((-1 : ℂ) ^ f = -1) := neg_one_pow_eq_or ℂ f
  generalize (-1 : ℂ) ^ f = z at hs
  unfold covBatch
  simp only [List.map_cons, List.map_nil, List.length_cons, List.length_nil]
  simp
  have h2 : (starRingEnd ℂ) 2 = 2 := Complex.conj_ofNat 2
  constructor
  · funext u
    ext ⟨i, _⟩ ⟨j, _⟩
    rcases hs with rfl | rfl <;>
    fin_cases i <;> fin_cases j <;> simp [demoR, demoFrame, h2] <;> norm_num
  · funext u
    ext ⟨i, _⟩ ⟨j, _⟩
    rcases hs with rfl | rfl <;>
    fin_cases i <;> fin_cases j <;> simp [demoFrame] <;> norm_num

theorem exSigBatch_single (f : Nat) (hf : f < exSigBatch.F) :
    SingleSource (exSigBatch.problem f) (fun _ => ()) demoR 1 1 (fun _ => 1) where
  upd := fun _ => rfl
  cov := fun _ => exSigBatch_cov f hf _ rfl
  covCentr := exSigBatch_cov f hf _ (by
    change centrVad (K := 2) (fun _ => [true, true, true, true, true, true, true, false, false,
      false, false, true]) = _
    decide)
  speech := demo_single.speech
  det := demoR_det
  heard := fun _ => one_ne_zero

theorem exSigBatch_tied (f : Nat) : TiedCfg (exSigBatch.problem f) :=
  fun _ => ⟨rfl, Or.inl rfl, Or.inr rfl⟩

theorem exSigBatch_run (B : Nat) : ∃ out, exSigBatch.run (fun _ => batchDemoSt) B = .ok out := by
  refine C98_total exSigBatch_ok exSigBatch_left fun f hf => ?_
  obtain ⟨x, hx, -⟩ := C59_single_sensor (exSigBatch_single f hf) (exSigBatch_tied f) rfl demo_centr
    (fun _ _ => by norm_num) (st := batchDemoSt) (fun _ _ => one_ne_zero) (fun _ _ => one_ne_zero) B
  exact ⟨x, hx⟩

theorem exSigBatch_centr : ∃ out, exSigBatch.centr = .ok out := by
  obtain ⟨X, h1, h2, -⟩ := exSigBatch_ok.transform
  unfold SigBatch.centr
  rw [h1]
  obtain ⟨outs, h5, -⟩ := mapM_ok_of_forall (f := fun k => do
      let ds ← (List.range exSigBatch.F).mapM fun f =>
        batchCentr (exSigBatch.bin X f) (exSigBatch.updC k)
      exSigBatch.estimate fun f => (ds[f]?.map fun r => r.2).getD [])
    (P := fun _ _ => True) (l := List.finRange 2) fun k _ => by
      obtain ⟨ds, h6, -⟩ := mapM_ok_of_forall
        (f := fun f => batchCentr (exSigBatch.bin X f) (exSigBatch.updC k))
        (P := fun _ _ => True) (l := List.range exSigBatch.F) fun f hf => by
          unfold batchCentr
          have h7 : (exSigBatch.bin X f).frames = exSigBatch.allFrames f := h2 f
          have h8 := (exSigBatch_single f (List.mem_range.mp hf)).covCentr
          rw [h7]
          change covBatch (F := Unit) ((exSigBatch.allFrames f).map fun y _ => y)
            (centrVad exSigBatch.vad) = _ at h8
          change ∃ y, (covBatch (F := Unit) ((exSigBatch.allFrames f).map fun y _ => y)
            (centrVad exSigBatch.vad) >>= _) = _ ∧ _
          rw [h8]
          change ∃ y, (updateW demoR 1 (⟨k, ()⟩ : NetCh (K := 2) (fun _ => Unit)) >>= _) = _ ∧ _
          rw [demo_centr k]
          exact ⟨_, rfl, trivial⟩
      obtain ⟨x, hx, -⟩ := exSigBatch_ok.estimate exSigBatch_left fun f =>
        (ds[f]?.map fun r => r.2).getD []
      refine ⟨x, ?_, trivial⟩
      rw [h6]
      exact hx
  simp only [bind, Except.bind] at h5 ⊢
  rw [h5]
  exact ⟨_, rfl⟩

/-- The hypotheses of C98_converges hold for this network, and the centralised output is not zero. -/
example (k : Fin 2) (n : Nat) (hn : n < 25) :
    ∃ (out : Nat → Fin 2 → List ℝ) (outC : Fin 2 → List ℝ) (x : Nat → ℝ) (xC : ℝ),
      (∀ B, exSigBatch.run (fun _ => batchDemoSt) B = .ok (out B)) ∧ exSigBatch.centr = .ok outC ∧
      (∀ B, (out (B + 1) k)[n]? = some (x B)) ∧ (outC k)[n]? = some xC ∧
      Tendsto x Filter.atTop (nhds xC) := by
  choose out hout using exSigBatch_run
  obtain ⟨outC, hC⟩ := exSigBatch_centr
  obtain ⟨x, xC, h1, h2, h3⟩ := C98_converges (ref := fun _ => ()) (R := fun _ => demoR)
    (Nn := fun _ => 1) (rho := fun _ => 1) (a := fun _ _ => 1) exSigBatch_ok exSigBatch_left rfl
    exSigBatch_tied exSigBatch_single (fun _ => rfl) (fun f hf q w hw => by
      rw [demo_centr q] at hw
      injection hw with hw
      exact ⟨(), by rw [← hw]; norm_num⟩) hout hC k hn
  exact ⟨out, outC, x, xC, hout, hC, h1, h2, h3⟩

/-- The transform of 6 samples with a rectangular window of 4 and shift 2: two frames; of 7 samples:
three. -/
example (x : Nat → ℝ) : (∃ X, stft [1, 1, 1, 1] 2 6 x = .ok X ∧ X.length = 2) ∧
    ∃ X, stft [1, 1, 1, 1] 2 7 x = .ok X ∧ X.length = 3 := by
  refine ⟨⟨_, C98_frames x (by norm_num) (by norm_num) (by norm_num) (by norm_num), ?_⟩,
    ⟨_, C98_frames x (by norm_num) (by norm_num) (by norm_num) (by norm_num), ?_⟩⟩
  · rw [List.length_map, List.length_range]; decide
  · rw [List.length_map, List.length_range]; decide

end Danse
