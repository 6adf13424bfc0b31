import Verif.Proofs.BatchSig
import Verif.Proofs.Config
import Verif.Proofs.Online4
import Verif.Proofs.Py
import Verif.Proofs.Batch4

/-! # Lemmas about the signal path of batch mode: whole runs -/

set_option linter.unusedSectionVars false

namespace Danse
open Matrix

section
variable {K : Nat} {S : Fin K → Type} [∀ k, Fintype (S k)] [∀ k, DecidableEq (S k)]

theorem SigData.Ok.T_eq {c : SigData S} (h : c.Ok) :
    c.T = c.complete + if c.Ns ∣ c.len - c.N then 0 else 1 := by
  unfold SigData.T SigData.complete numComplete
  rw [stftCount_eq h.shift h.overlap h.long, if_pos h.long]

theorem SigData.Ok.complete_eq {c : SigData S} (h : c.Ok) :
    c.complete = (c.len - c.N) / c.Ns + 1 := by
  unfold SigData.complete numComplete
  rw [if_pos h.long]

theorem SigData.Ok.iter {c : SigData S} (h : c.Ok) : numIter c.len c.N c.Ns = c.complete :=
  h.complete_eq.symm

theorem SigData.Ok.pos {c : SigData S} (h : c.Ok) : 0 < c.complete := by
  rw [h.complete_eq]; exact Nat.succ_pos _

theorem SigData.Ok.inside {c : SigData S} (h : c.Ok) {t n : Nat} (ht : t < c.complete)
    (hn : n < c.N) : t * c.Ns + n < c.len := by
  rw [h.complete_eq] at ht
  have h1 : t * c.Ns ≤ (c.len - c.N) / c.Ns * c.Ns := Nat.mul_le_mul_right _ (by omega)
  have h2 := Nat.div_mul_le_self (c.len - c.N) c.Ns
  have := h.long
  omega

theorem SigData.Ok.fits {c : SigData S} (h : c.Ok) :
    c.win.length + (c.complete - 1) * c.Ns ≤ c.len := by
  have := h.long
  have h2 := Nat.div_mul_le_self (c.len - c.N) c.Ns
  rw [h.complete_eq, Nat.add_sub_cancel]
  unfold SigData.N at *
  omega

/-- The transform and its frames. -/
theorem SigData.Ok.transform {c : SigData S} (h : c.Ok) :
    ∃ X, c.transform = .ok X ∧ (∀ f, c.binFrames X f = c.allFrames f) ∧
      ∀ t < c.complete, ∀ f a, (X a).getD t 0 f = c.obs t f a := by
  unfold SigData.transform
  rw [if_neg (by have := h.shift; omega), if_neg (by have := h.long; omega)]
  have key : ∀ a, ∀ t < c.T, ∀ f, ((match stft c.win c.Ns c.len (c.y a) with
      | .ok X => X | .error _ => []) : List (Nat → ℂ)).getD t 0 f =
      winSpectrum c.win c.Ns (zeroExt c.len (c.y a)) t f := by
    intro a t ht f
    obtain ⟨X, h1, h2, h3⟩ := stft_frame (c.y a) h.sum h.shift h.long
    rw [h1]
    change X.getD t 0 f = _
    rw [h3 t ht]
    rfl
  refine ⟨_, rfl, ?_, ?_⟩
  · intro f
    unfold SigData.binFrames SigData.allFrames
    have hT := h.T_eq
    unfold SigData.complete at hT
    rw [← hT]
    apply List.map_congr_left
    intro t ht
    funext a
    exact key a t (List.mem_range.mp ht) f
  · intro t ht f a
    refine (key a t (by rw [h.T_eq]; omega) f).trans ?_
    unfold SigData.obs
    apply winSpectrum_congr
    intro n hn
    unfold zeroExt
    rw [if_pos (h.inside ht hn)]

theorem SigData.Ok.dropLast {c : SigData S} (h : c.Ok) (hd : ¬ c.Ns ∣ c.len - c.N) (f : Nat) :
    (c.allFrames f).dropLast = (List.range c.complete).map fun (t : Nat) => c.obs t f := by
  unfold SigData.allFrames
  rw [if_neg hd, List.range_succ, List.map_append, List.map_singleton, List.dropLast_concat]
  apply List.map_congr_left
  intro t ht
  have ht : t < c.complete := List.mem_range.mp ht
  funext a
  unfold SigData.obs
  apply winSpectrum_congr
  intro n hn
  unfold zeroExt
  rw [if_pos (h.inside ht hn)]

theorem SigData.allFrames_length (c : SigData S) (f : Nat) : (c.allFrames f).length =
    c.complete + if c.Ns ∣ c.len - c.N then 0 else 1 := by
  unfold SigData.allFrames SigData.complete
  rw [List.length_map, List.length_range]

/-- Storing the estimates of the complete frames and going back to the time domain. -/
theorem SigData.Ok.estimate {c : SigData S} (h : c.Ok) (hd : ¬ c.Ns ∣ c.len - c.N)
    (d : Nat → List ℂ) :
    ∃ x, c.estimate d = .ok x ∧ c.Made (fun t f => (d f).getD t 0) x := by
  unfold SigData.estimate assignFrames
  have hT : c.T - 1 = c.complete := by rw [h.T_eq, if_neg hd]; omega
  rw [hT, h.iter, if_pos (by rw [List.length_map, List.length_range])]
  refine ⟨_, rfl, ?_⟩
  obtain ⟨h1, h2⟩ := batchOut_get (win := c.win) (Ns := c.Ns) (L := c.len)
    (fr := (List.range c.complete).map fun (t : Nat) (f : Nat) => (d f).getD t 0) h.sum
    (by rw [List.length_map, List.length_range]; exact h.pos)
    (by rw [List.length_map, List.length_range]; exact h.fits)
  refine ⟨h1, fun n hn => ?_⟩
  rw [h2 n hn, List.length_map, List.length_range]
  congr 1
  apply olaSample_congr
  intro t ht f _
  rw [List.getD_eq_getElem?_getD, List.getElem?_map, List.getElem?_range ht]
  rfl

theorem SigData.Ok.made {c : SigData S} (h : c.Ok) (hd : ¬ c.Ns ∣ c.len - c.N)
    {d : Nat → List ℂ} {x : List ℝ} (hx : c.estimate d = .ok x) :
    c.Made (fun t f => (d f).getD t 0) x := by
  obtain ⟨x', h1, h2⟩ := h.estimate hd d
  rw [h1] at hx
  injection hx with hx
  rwa [← hx]

/-- With no samples left over, one frame is missing. -/
theorem SigData.Ok.estimate_err {c : SigData S} (h : c.Ok) (hd : c.Ns ∣ c.len - c.N)
    (h1 : c.len ≠ c.N + c.Ns) (d : Nat → List ℂ) : c.estimate d = .error .valueError := by
  unfold SigData.estimate assignFrames
  have hT : c.T - 1 = c.complete - 1 := by rw [h.T_eq, if_pos hd]; omega
  have hp := h.pos
  rw [hT, h.iter, if_neg (by rw [List.length_map, List.length_range]; omega), if_neg]
  · rfl
  · rw [List.length_map, List.length_range]
    intro e
    apply h1
    have h2 := h.complete_eq
    have h3 := Nat.div_mul_cancel hd
    have h4 : (c.len - c.N) / c.Ns = 1 := by omega
    rw [h4] at h3
    have := h.long
    omega

theorem batchRun_last {c : BatchCfg S} {st st2 : BatchSt S} {B : Nat}
    (hu : c.nodeUpdating = "seq" ∨ c.nodeUpdating = "sim" ∨ c.nodeUpdating = "asy")
    (h : batchRun c st (B + 1) = .ok st2) :
    ∃ st1, batchRun c st B = .ok st1 ∧ ∀ k, st2.dhat k = c.frames.dropLast.map fun y =>
      star (st2.wT k) ⬝ᵥ yTildeB (fun q => (st1.ext q).ext) k y := by
  obtain ⟨st1, h1⟩ := batchRun_prev c h
  refine ⟨st1, h1, ?_⟩
  rw [batchRun, h1] at h
  change (if c.nodeUpdating = "seq" then _ else if c.nodeUpdating = "sim" ∨
      c.nodeUpdating = "asy" then _ else _) = _ at h
  have key : ∀ up, batchStep c up st1 = .ok st2 → ∀ k, st2.dhat k = c.frames.dropLast.map fun y =>
      star (st2.wT k) ⬝ᵥ yTildeB (fun q => (st1.ext q).ext) k y := by
    intro up h
    obtain ⟨covs, -, h2⟩ := batchStep_ok c up h
    exact fun k => (h2 k).2.2.2
  by_cases hs : c.nodeUpdating = "seq"
  · rw [if_pos hs] at h
    exact key _ h
  · rw [if_neg hs, if_pos (by tauto)] at h
    exact key _ h

theorem getD_map_range {α : Type} {d : α} {g : Nat → α} {n i : Nat} (h : i < n) :
    ((List.range n).map g).getD i d = g i := by
  rw [List.getD_eq_getElem?_getD, List.getElem?_map, List.getElem?_range h]
  rfl

theorem mapM_finRange_get {β : Type} {g : Fin K → Except PyErr β} {r : List β} (d : β)
    (h : (List.finRange K).mapM g = .ok r) (k : Fin K) : g k = .ok (r.getD k.val d) := by
  obtain ⟨h1, h2⟩ := mapM_get h
  obtain ⟨b, h3, h4⟩ := h2 k.val k (by simp)
  rw [h4, List.getD_eq_getElem?_getD, h3]
  rfl

theorem SigData.Made.congr {c : SigData S} {X Y : Nat → Nat → ℂ} {x : List ℝ} (h : c.Made X x)
    (e : ∀ t < c.complete, ∀ f < c.F, X t f = Y t f) : c.Made Y x := by
  refine ⟨h.1, fun n hn => ?_⟩
  rw [h.2 n hn]
  congr 1
  exact olaSample_congr e

theorem SigBatch.run_parts {c : SigBatch S} (h : c.Ok)
    (hu : c.nodeUpdating = "seq" ∨ c.nodeUpdating = "sim" ∨ c.nodeUpdating = "asy")
    {st0 : Nat → BatchSt S} {B : Nat} {out : Fin K → List ℝ} (hr : c.run st0 (B + 1) = .ok out) :
    ∃ (s s' : Nat → BatchSt S) (D : Fin K → Nat → List ℂ),
      (∀ f < c.F, batchRun (c.problem f) (st0 f) B = .ok (s f)) ∧
      (∀ f < c.F, batchRun (c.problem f) (st0 f) (B + 1) = .ok (s' f)) ∧
      (∀ f < c.F, ∀ k, D k f = (c.allFrames f).dropLast.map fun y =>
        star ((s' f).wT k) ⬝ᵥ yTildeB (fun q => ((s f).ext q).ext) k y) ∧
      ∀ k, c.estimate (D k) = .ok (out k) := by
  obtain ⟨X, h1, h2, -⟩ := h.transform
  unfold SigBatch.run at hr
  obtain ⟨X', hX, hr⟩ := bind_ok_inv hr
  rw [h1] at hX
  injection hX with hX
  subst hX
  obtain ⟨sts, h3, h4⟩ := bind_ok_inv hr
  rw [if_neg (by push Not; exact ⟨by omega, fun a b => by tauto⟩)] at h4
  obtain ⟨outs, h5, h6⟩ := bind_ok_inv h4
  injection h6 with h6
  have hbin : ∀ f, c.bin X f = c.problem f := by
    intro f
    unfold SigBatch.bin SigBatch.problem
    rw [h2]
  obtain ⟨-, h7⟩ := mapM_get h3
  have h8 : ∀ f, ∃ s s' : BatchSt S, f < c.F → sts[f]? = some s' ∧
      batchRun (c.problem f) (st0 f) B = .ok s ∧ batchRun (c.problem f) (st0 f) (B + 1) = .ok s' ∧
      ∀ k, s'.dhat k = (c.problem f).frames.dropLast.map fun y =>
        star (s'.wT k) ⬝ᵥ yTildeB (fun q => (s.ext q).ext) k y := by
    intro f
    by_cases hf : f < c.F
    · obtain ⟨s', h9, h10⟩ := h7 f f (by rw [List.getElem?_range hf])
      rw [hbin] at h10
      obtain ⟨s, h11, h12⟩ := batchRun_last (c := c.problem f) hu h10
      exact ⟨s, s', fun _ => ⟨h9, h11, h10, h12⟩⟩
    · exact ⟨st0 f, st0 f, fun e => absurd e hf⟩
  choose s s' hs using h8
  refine ⟨s, s', fun k f => (sts[f]?.map fun st => st.dhat k).getD [], fun f hf => (hs f hf).2.1,
    fun f hf => (hs f hf).2.2.1, ?_, ?_⟩
  · intro f hf k
    simp only [(hs f hf).1, Option.map_some, Option.getD_some]
    exact (hs f hf).2.2.2 k
  · intro k
    have h9 := mapM_finRange_get [] h5 k
    rw [← h6]
    exact h9

/-- What a run returns. -/
theorem SigBatch.run_ok {c : SigBatch S} (h : c.Ok) (hd : ¬ c.Ns ∣ c.len - c.N)
    (hu : c.nodeUpdating = "seq" ∨ c.nodeUpdating = "sim" ∨ c.nodeUpdating = "asy")
    {st0 : Nat → BatchSt S} {B : Nat} {out : Fin K → List ℝ} (hr : c.run st0 (B + 1) = .ok out) :
    ∃ s s' : Nat → BatchSt S,
      (∀ f < c.F, batchRun (c.problem f) (st0 f) B = .ok (s f)) ∧
      (∀ f < c.F, batchRun (c.problem f) (st0 f) (B + 1) = .ok (s' f)) ∧
      ∀ k, c.Made (fun t f => star ((s' f).wT k) ⬝ᵥ
        yTildeB (fun q => ((s f).ext q).ext) k (c.obs t f)) (out k) := by
  obtain ⟨s, s', D, h1, h2, h3, h4⟩ := SigBatch.run_parts h hu hr
  refine ⟨s, s', h1, h2, fun k => ?_⟩
  refine (h.made hd (h4 k)).congr fun t ht f hf => ?_
  rw [h3 f hf k, h.dropLast hd, List.map_map, getD_map_range ht]
  rfl

/-- Two frames: the first one is used twice. -/
theorem SigData.Ok.made_two {c : SigData S} (h : c.Ok) (he : c.len = c.N + c.Ns)
    {d : Nat → List ℂ} {x : List ℝ} (hx : c.estimate d = .ok x) :
    c.Made (fun _ f => (d f).getD 0 0) x := by
  have h0 := h.shift
  have hsub : c.len - c.N = c.Ns := by omega
  have hd : c.Ns ∣ c.len - c.N := by rw [hsub]
  have h2 : c.complete = 2 := by rw [h.complete_eq, hsub, Nat.div_self h0]
  have hT : c.T - 1 = 1 := by rw [h.T_eq, if_pos hd, h2]
  unfold SigData.estimate assignFrames at hx
  rw [hT, h.iter, h2, if_neg (by simp), if_pos (by simp)] at hx
  injection hx with hx
  rw [← hx]
  obtain ⟨h3, h4⟩ := batchOut_get (win := c.win) (Ns := c.Ns) (L := c.len)
    (fr := List.replicate 2 ((List.map (fun (t : Nat) (f : Nat) => (d f).getD t 0)
      (List.range 1)).getD 0 0)) h.sum (by simp)
    (by have := h.fits; rw [h2] at this; rw [List.length_replicate]; exact this)
  refine ⟨h3, fun n hn => ?_⟩
  rw [h4 n hn, List.length_replicate, h2]
  congr 1
  apply olaSample_congr
  intro t ht f _
  rw [List.getD_eq_getElem?_getD, List.getElem?_replicate, if_pos ht]
  rfl

theorem SigData.Ok.dropLast_two {c : SigData S} (h : c.Ok) (he : c.len = c.N + c.Ns) (f : Nat) :
    (c.allFrames f).dropLast = [c.obs 0 f] := by
  have h0 := h.shift
  have hsub : c.len - c.N = c.Ns := by omega
  have hd : c.Ns ∣ c.len - c.N := by rw [hsub]
  have h2 : c.complete = 2 := by rw [h.complete_eq, hsub, Nat.div_self h0]
  unfold SigData.allFrames
  unfold SigData.complete at h2
  rw [if_pos hd, h2]
  change [_] = _
  congr 1
  funext a
  unfold SigData.obs
  apply winSpectrum_congr
  intro n hn
  unfold zeroExt
  have hn' : n < c.N := hn
  rw [if_pos]
  rw [Nat.zero_mul]
  omega

theorem tiBatchRun_last {c : TiBatchCfg S} {st st2 : TiBatchSt S} {B : Nat}
    (hu : c.seq = true ∨ c.sim = true)
    (h : tiBatchRun c st (B + 1) = .ok st2) :
    ∃ st1, tiBatchRun c st B = .ok st1 ∧ ∀ k, st2.dhat k = c.frames.dropLast.map fun y =>
      star (st2.wT k) ⬝ᵥ tiY (tiP st1.exts) k y := by
  obtain ⟨st1, h1⟩ := tiBatchRun_prev h
  refine ⟨st1, h1, ?_⟩
  rw [tiBatchRun, h1] at h
  change (if c.seq = true then _ else if c.sim = true then _ else _) = _ at h
  have key : ∀ up, tiBatchStep c up st1 = .ok st2 → ∀ k, st2.dhat k =
      c.frames.dropLast.map fun y => star (st2.wT k) ⬝ᵥ tiY (tiP st1.exts) k y := by
    intro up h
    obtain ⟨covs, -, h2⟩ := tiBatchStep_ok c up h
    exact fun k => (h2 k).2.2.2
  by_cases hs : c.seq = true
  · rw [if_pos hs] at h
    exact key _ h
  · rw [if_neg hs, if_pos (by tauto)] at h
    exact key _ h

/-- What a run of TI-DANSE returns. -/
theorem TiSigBatch.run_ok {c : TiSigBatch S} (h : c.Ok) (hd : ¬ c.Ns ∣ c.len - c.N)
    (hu : c.seq = true ∨ c.sim = true)
    {st0 : Nat → TiBatchSt S} {B : Nat} {out : Fin K → List ℝ} (hr : c.run st0 (B + 1) = .ok out) :
    ∃ s s' : Nat → TiBatchSt S,
      (∀ f < c.F, tiBatchRun (c.problem f) (st0 f) B = .ok (s f)) ∧
      (∀ f < c.F, tiBatchRun (c.problem f) (st0 f) (B + 1) = .ok (s' f)) ∧
      ∀ k, c.Made (fun t f => star ((s' f).wT k) ⬝ᵥ tiY (tiP (s f).exts) k (c.obs t f))
        (out k) := by
  obtain ⟨X, h1, h2, -⟩ := h.transform
  unfold TiSigBatch.run at hr
  obtain ⟨X', hX, hr⟩ := bind_ok_inv hr
  rw [h1] at hX
  injection hX with hX
  subst hX
  obtain ⟨sts, h3, h4⟩ := bind_ok_inv hr
  rw [if_neg (by push Not; exact ⟨by omega, fun a => by rw [a] at hu; simpa using hu⟩)] at h4
  obtain ⟨outs, h5, h6⟩ := bind_ok_inv h4
  injection h6 with h6
  have hbin : ∀ f, c.bin X f = c.problem f := by
    intro f
    unfold TiSigBatch.bin TiSigBatch.problem
    rw [h2]
  obtain ⟨-, h7⟩ := mapM_get h3
  have h8 : ∀ f, ∃ s s' : TiBatchSt S, f < c.F → sts[f]? = some s' ∧
      tiBatchRun (c.problem f) (st0 f) B = .ok s ∧
      tiBatchRun (c.problem f) (st0 f) (B + 1) = .ok s' ∧
      ∀ k, s'.dhat k = (c.problem f).frames.dropLast.map fun y =>
        star (s'.wT k) ⬝ᵥ tiY (tiP s.exts) k y := by
    intro f
    by_cases hf : f < c.F
    · obtain ⟨s', h9, h10⟩ := h7 f f (by rw [List.getElem?_range hf])
      rw [hbin] at h10
      obtain ⟨s, h11, h12⟩ := tiBatchRun_last (c := c.problem f) hu h10
      exact ⟨s, s', fun _ => ⟨h9, h11, h10, h12⟩⟩
    · exact ⟨st0 f, st0 f, fun e => absurd e hf⟩
  choose s s' hs using h8
  refine ⟨s, s', fun f hf => (hs f hf).2.1, fun f hf => (hs f hf).2.2.1, fun k => ?_⟩
  have h9 := mapM_finRange_get [] h5 k
  have h11 := h.made hd h9
  rw [← h6]
  change c.Made _ (outs.getD k.val [])
  refine h11.congr fun t ht f hf => ?_
  simp only [(hs f hf).1, Option.map_some, Option.getD_some]
  rw [(hs f hf).2.2.2 k]
  change (List.map _ (c.allFrames f).dropLast).getD t 0 = _
  rw [h.dropLast hd, List.map_map, getD_map_range ht]
  rfl

/-- The centralised signals. -/
theorem SigBatch.centr_ok {c : SigBatch S} (h : c.Ok) (hd : ¬ c.Ns ∣ c.len - c.N)
    {out : Fin K → List ℝ} (hr : c.centr = .ok out) :
    ∃ w : Nat → Fin K → NetCh S → ℂ,
      (∀ f < c.F, ∀ k, ∃ R N, covBatch (F := Unit) ((c.allFrames f).map fun y _ => y)
        (centrVad c.vad) = .ok (R, N) ∧ c.updC k (R ()) (N ()) = .ok (w f k)) ∧
      ∀ k, c.Made (fun t f => star (w f k) ⬝ᵥ c.obs t f) (out k) := by
  obtain ⟨X, h1, h2, -⟩ := h.transform
  unfold SigBatch.centr at hr
  obtain ⟨X', hX, hr⟩ := bind_ok_inv hr
  rw [h1] at hX
  injection hX with hX
  subst hX
  obtain ⟨outs, h5, h6⟩ := bind_ok_inv hr
  injection h6 with h6
  have hbin : ∀ f, c.bin X f = c.problem f := by
    intro f
    unfold SigBatch.bin SigBatch.problem
    rw [h2]
  have key : ∀ k : Fin K, ∃ w : Nat → NetCh S → ℂ, (∀ f < c.F, ∃ R N,
      covBatch (F := Unit) ((c.allFrames f).map fun y _ => y)
        (centrVad c.vad) = .ok (R, N) ∧ c.updC k (R ()) (N ()) = .ok (w f)) ∧
      c.Made (fun t f => star (w f) ⬝ᵥ c.obs t f) (out k) := by
    intro k
    have h9 := mapM_finRange_get [] h5 k
    obtain ⟨ds, h10, h11⟩ := bind_ok_inv h9
    obtain ⟨-, h7⟩ := mapM_get h10
    have h8 : ∀ f, ∃ w : NetCh S → ℂ, f < c.F → (∃ R N,
        covBatch (F := Unit) ((c.allFrames f).map fun y _ => y)
          (centrVad c.vad) = .ok (R, N) ∧ c.updC k (R ()) (N ()) = .ok w) ∧
        ds[f]? = some (w, (c.allFrames f).dropLast.map fun y => star w ⬝ᵥ y) := by
      intro f
      by_cases hf : f < c.F
      · obtain ⟨r, h12, h13⟩ := h7 f f (by rw [List.getElem?_range hf])
        rw [hbin] at h13
        unfold batchCentr at h13
        obtain ⟨⟨R, N⟩, h14, h15⟩ := bind_ok_inv h13
        obtain ⟨w, h16, h17⟩ := bind_ok_inv h15
        injection h17 with h17
        exact ⟨w, fun _ => ⟨⟨R, N, h14, h16⟩, by rw [h12, ← h17]; rfl⟩⟩
      · exact ⟨0, fun e => absurd e hf⟩
    choose w hw using h8
    refine ⟨w, fun f hf => (hw f hf).1, ?_⟩
    have h13 := h.made hd h11
    rw [← h6]
    change c.Made _ (outs.getD k.val [])
    refine h13.congr fun t ht f hf => ?_
    simp only [(hw f hf).2, Option.map_some, Option.getD_some]
    rw [h.dropLast hd, List.map_map, getD_map_range ht]
    rfl
  choose w hw using key
  exact ⟨fun f k => w k f, fun f hf k => (hw k).1 f hf, fun k => (hw k).2⟩

/-- The best-performance run. -/
theorem SigBatch.best_ok {c : SigBatch S} (h : c.Ok) {given : Option (Nat → Fin K → NetCh S → ℂ)}
    {w : Nat → Fin K → NetCh S → ℂ} {out : Fin K → List ℝ} (hr : c.best given = .ok (w, out)) :
    (∀ f < c.F, ∀ k, ∃ R N, covBatch (F := Unit) ((c.allFrames f).map fun y _ => y)
        (centrVad c.vad) = .ok (R, N) ∧
        match given with
        | some g => w f k = g f k
        | none => c.updC k (R ()) (N ()) = .ok (w f k)) ∧
      ∀ k, c.Made (fun t f => star (w f k) ⬝ᵥ c.obs t f) (out k) := by
  obtain ⟨X, h1, h2, h3⟩ := h.transform
  unfold SigBatch.best at hr
  obtain ⟨X', hX, hr⟩ := bind_ok_inv hr
  rw [h1] at hX
  injection hX with hX
  subst hX
  obtain ⟨covs, h4, hr⟩ := bind_ok_inv hr
  obtain ⟨ws, h5, hr⟩ := bind_ok_inv hr
  obtain ⟨used, h6, hr⟩ := bind_ok_inv hr
  injection hr with hr
  injection hr with hw hout
  have hused : used = c.complete := by
    unfold bestFrames at h6
    rw [h.iter] at h6
    by_cases e : c.T = c.complete
    · rw [if_pos e] at h6
      injection h6 with h6; omega
    · rw [if_neg e] at h6
      by_cases e2 : c.T = c.complete + 1
      · rw [if_pos e2] at h6
        injection h6 with h6; omega
      · rw [if_neg e2] at h6; cases h6
  constructor
  · intro f hf k
    obtain ⟨-, h7⟩ := mapM_get h4
    obtain ⟨⟨R, N⟩, h8, h9⟩ := h7 f f (by rw [List.getElem?_range hf])
    refine ⟨R, N, by change covBatch (F := Unit) ((c.binFrames X f).map fun y _ => y) _ = _ at h9; rw [h2] at h9; exact h9, ?_⟩
    have h10 := mapM_finRange_get [] h5 k
    obtain ⟨-, h11⟩ := mapM_get h10
    obtain ⟨v, h12, h13⟩ := h11 f f (by rw [List.getElem?_range hf])
    have hv : w f k = v := by
      rw [← hw]
      change (ws.getD k.val []).getD f 0 = v
      rw [List.getD_eq_getElem?_getD, h12]; rfl
    unfold SigBatch.bestFilter at h13
    cases given with
    | some g =>
      injection h13 with h13
      change w f k = g f k
      rw [hv, h13]
    | none =>
      change c.updC k (R ()) (N ()) = .ok (w f k)
      rw [hv]
      simp only [h8] at h13
      exact h13
  · intro k
    rw [← hout]
    change c.Made _ (batchOut _ _ _ _)
    obtain ⟨h8, h9⟩ := batchOut_get (win := c.win) (Ns := c.Ns) (L := c.len)
      (fr := (List.range used).map fun (t : Nat) (f : Nat) =>
        star ((ws.getD k.val []).getD f 0) ⬝ᵥ fun a => (X a).getD t 0 f) h.sum
      (by rw [List.length_map, List.length_range, hused]; exact h.pos)
      (by rw [List.length_map, List.length_range, hused]; exact h.fits)
    refine ⟨h8, fun n hn => ?_⟩
    rw [h9 n hn, List.length_map, List.length_range, hused]
    congr 1
    apply olaSample_congr
    intro t ht f _
    rw [getD_map_range ht, ← hw]
    change _ ⬝ᵥ _ = _ ⬝ᵥ _
    congr 1
    funext a
    exact h3 t ht f a

end
end Danse
