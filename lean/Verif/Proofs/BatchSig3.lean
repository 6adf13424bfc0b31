import Verif.Proofs.BatchSig2
import Verif.Props.Batch
import Verif.Props.BatchTI
import Mathlib.Topology.Algebra.InfiniteSum.Basic

/-! # Lemmas about the signal path of batch mode: limits, totality -/

set_option linter.unusedSectionVars false

namespace Danse
open Matrix
open Filter (Tendsto)

theorem irfft_tendsto {ι : Type} {l : _root_.Filter ι} {N : Nat} {X : ι → Nat → ℂ} {Y : Nat → ℂ}
    (h : ∀ f < N / 2 + 1, Tendsto (fun b => X b f) l (nhds (Y f))) (t : Nat) :
    Tendsto (fun b => irfft N (X b) t) l (nhds (irfft N Y t)) := by
  unfold irfft
  apply Tendsto.div_const
  apply tendsto_finset_sum
  intro k hk
  have := Finset.mem_range.mp hk
  refine (Complex.continuous_re.tendsto _).comp ?_
  apply Tendsto.mul_const
  by_cases h2 : 2 * k ≤ N
  · simp only [if_pos h2]
    exact h k (by omega)
  · simp only [if_neg h2]
    exact (continuous_star.tendsto _).comp (h (N - k) (by omega))

theorem olaSample_tendsto {ι : Type} {l : _root_.Filter ι} {win : List ℝ} {Ns T : Nat}
    {X : ι → Nat → Nat → ℂ} {Y : Nat → Nat → ℂ}
    (h : ∀ t < T, ∀ f < win.length / 2 + 1, Tendsto (fun b => X b t f) l (nhds (Y t f))) (n : Nat) :
    Tendsto (fun b => olaSample win Ns T (X b) n) l (nhds (olaSample win Ns T Y n)) := by
  unfold olaSample
  apply Tendsto.div_const
  apply tendsto_finset_sum
  intro t ht
  have := Finset.mem_range.mp (Finset.mem_filter.mp ht).1
  exact (irfft_tendsto (h t this) _).mul_const _

section
variable {K : Nat} {S : Fin K → Type} [∀ k, Fintype (S k)] [∀ k, DecidableEq (S k)]

theorem SigBatch.run_states {c : SigBatch S} (h : c.Ok) {st0 : Nat → BatchSt S} {B : Nat}
    {out : Fin K → List ℝ} (hr : c.run st0 B = .ok out) {f : Nat} (hf : f < c.F) :
    ∃ s, batchRun (c.problem f) (st0 f) B = .ok s := by
  obtain ⟨X, h1, h2, -⟩ := h.transform
  unfold SigBatch.run at hr
  obtain ⟨X', hX, hr⟩ := bind_ok_inv hr
  rw [h1] at hX
  injection hX with hX
  subst hX
  obtain ⟨sts, h3, h4⟩ := bind_ok_inv hr
  obtain ⟨-, h7⟩ := mapM_get h3
  obtain ⟨s, h8, h9⟩ := h7 f f (by rw [List.getElem?_range hf])
  refine ⟨s, ?_⟩
  unfold SigBatch.bin at h9
  rw [h2] at h9
  exact h9

theorem TiSigBatch.run_states {c : TiSigBatch S} (h : c.Ok) {st0 : Nat → TiBatchSt S} {B : Nat}
    {out : Fin K → List ℝ} (hr : c.run st0 B = .ok out) {f : Nat} (hf : f < c.F) :
    ∃ s, tiBatchRun (c.problem f) (st0 f) B = .ok s := by
  obtain ⟨X, h1, h2, -⟩ := h.transform
  unfold TiSigBatch.run at hr
  obtain ⟨X', hX, hr⟩ := bind_ok_inv hr
  rw [h1] at hX
  injection hX with hX
  subst hX
  obtain ⟨sts, h3, h4⟩ := bind_ok_inv hr
  obtain ⟨-, h7⟩ := mapM_get h3
  obtain ⟨s, h8, h9⟩ := h7 f f (by rw [List.getElem?_range hf])
  refine ⟨s, ?_⟩
  unfold TiSigBatch.bin at h9
  rw [h2] at h9
  exact h9

/-- A run succeeds when all bins do and samples are left over. -/
theorem SigBatch.run_total {c : SigBatch S} (h : c.Ok) (hd : ¬ c.Ns ∣ c.len - c.N)
    {st0 : Nat → BatchSt S} {B : Nat}
    (hr : ∀ f < c.F, ∃ s, batchRun (c.problem f) (st0 f) B = .ok s) :
    ∃ out, c.run st0 B = .ok out := by
  obtain ⟨X, h1, h2, -⟩ := h.transform
  unfold SigBatch.run
  rw [h1]
  have hbin : ∀ f, c.bin X f = c.problem f := by
    intro f
    unfold SigBatch.bin SigBatch.problem
    rw [h2]
  obtain ⟨sts, h3, -⟩ := mapM_ok_of_forall (f := fun f => batchRun (c.bin X f) (st0 f) B)
    (P := fun _ _ => True) (l := List.range c.F) fun f hf => by
      obtain ⟨s, hs⟩ := hr f (List.mem_range.mp hf)
      exact ⟨s, by rw [hbin]; exact hs, trivial⟩
  simp only [bind, Except.bind]
  rw [h3]
  simp only []
  split
  · exact ⟨_, rfl⟩
  · obtain ⟨outs, h5, -⟩ := mapM_ok_of_forall (f := fun k => c.estimate fun f =>
        (sts[f]?.map fun st => st.dhat k).getD [])
      (P := fun _ _ => True) (l := List.finRange K) fun k _ => by
        obtain ⟨x, hx, -⟩ := h.estimate hd fun f =>
          (sts[f]?.map fun st => st.dhat k).getD []
        exact ⟨x, hx, trivial⟩
    rw [h5]
    exact ⟨_, rfl⟩

theorem TiSigBatch.run_total {c : TiSigBatch S} (h : c.Ok) (hd : ¬ c.Ns ∣ c.len - c.N)
    {st0 : Nat → TiBatchSt S} {B : Nat}
    (hr : ∀ f < c.F, ∃ s, tiBatchRun (c.problem f) (st0 f) B = .ok s) :
    ∃ out, c.run st0 B = .ok out := by
  obtain ⟨X, h1, h2, -⟩ := h.transform
  unfold TiSigBatch.run
  rw [h1]
  have hbin : ∀ f, c.bin X f = c.problem f := by
    intro f
    unfold TiSigBatch.bin TiSigBatch.problem
    rw [h2]
  obtain ⟨sts, h3, -⟩ := mapM_ok_of_forall (f := fun f => tiBatchRun (c.bin X f) (st0 f) B)
    (P := fun _ _ => True) (l := List.range c.F) fun f hf => by
      obtain ⟨s, hs⟩ := hr f (List.mem_range.mp hf)
      exact ⟨s, by rw [hbin]; exact hs, trivial⟩
  simp only [bind, Except.bind]
  rw [h3]
  simp only []
  split
  · exact ⟨_, rfl⟩
  · obtain ⟨outs, h5, -⟩ := mapM_ok_of_forall (f := fun k => c.estimate fun f =>
        (sts[f]?.map fun st => st.dhat k).getD [])
      (P := fun _ _ => True) (l := List.finRange K) fun k _ => by
        obtain ⟨x, hx, -⟩ := h.estimate hd fun f =>
          (sts[f]?.map fun st => st.dhat k).getD []
        exact ⟨x, hx, trivial⟩
    rw [h5]
    exact ⟨_, rfl⟩

/-- With no samples left over, no update can be completed. -/
theorem SigBatch.run_err {c : SigBatch S} (h : c.Ok) (hd : c.Ns ∣ c.len - c.N)
    (h1 : c.len ≠ c.N + c.Ns) (hK : 0 < K)
    (hu : c.nodeUpdating = "seq" ∨ c.nodeUpdating = "sim" ∨ c.nodeUpdating = "asy")
    (st0 : Nat → BatchSt S) (B : Nat) (out : Fin K → List ℝ) : c.run st0 (B + 1) ≠ .ok out := by
  intro hr
  unfold SigBatch.run at hr
  obtain ⟨X', hX, hr⟩ := bind_ok_inv hr
  obtain ⟨sts, h3, h4⟩ := bind_ok_inv hr
  rw [if_neg (by push Not; exact ⟨by omega, fun a b => by tauto⟩)] at h4
  obtain ⟨outs, h5, h6⟩ := bind_ok_inv h4
  have h9 := mapM_finRange_get [] h5 ⟨0, hK⟩
  rw [h.estimate_err hd h1] at h9
  cases h9

theorem TiSigBatch.run_err {c : TiSigBatch S} (h : c.Ok) (hd : c.Ns ∣ c.len - c.N)
    (h1 : c.len ≠ c.N + c.Ns) (hK : 0 < K) (hu : c.seq = true ∨ c.sim = true)
    (st0 : Nat → TiBatchSt S) (B : Nat) (out : Fin K → List ℝ) : c.run st0 (B + 1) ≠ .ok out := by
  intro hr
  unfold TiSigBatch.run at hr
  obtain ⟨X', hX, hr⟩ := bind_ok_inv hr
  obtain ⟨sts, h3, h4⟩ := bind_ok_inv hr
  rw [if_neg (by push Not; exact ⟨by omega, fun a => by rw [a] at hu; simpa using hu⟩)] at h4
  obtain ⟨outs, h5, h6⟩ := bind_ok_inv h4
  have h9 := mapM_finRange_get [] h5 ⟨0, hK⟩
  rw [h.estimate_err hd h1] at h9
  cases h9

theorem dropLast_map_get {c : SigData S} (h : c.Ok) (hd : ¬ c.Ns ∣ c.len - c.N) {f t : Nat}
    (ht : t < c.complete) {g g' : (NetCh S → ℂ) → ℂ}
    (e : (c.allFrames f).dropLast.map g = (c.allFrames f).dropLast.map g') :
    g (c.obs t f) = g' (c.obs t f) := by
  rw [h.dropLast hd, List.map_map, List.map_map] at e
  have := congrArg (fun l => l.getD t 0) e
  beta_reduce at this
  rw [getD_map_range ht, getD_map_range ht] at this
  exact this

end
end Danse
