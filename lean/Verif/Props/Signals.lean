import Mathlib.RingTheory.RootsOfUnity.Complex
import Mathlib.Analysis.Complex.Basic
import Verif.Proofs.Compress2

/-!
# Properties C33-C35: transforms, overlap-add and convolution

Vocabulary: `Verif/Spec/Signals.lean`. `DftRoot ζ n` says that `ζ` plays the role of
`exp(2πi/n)`; the example at the end of the section shows that the complex exponential does.
-/

set_option linter.unusedSectionVars false

namespace Danse
section
variable {K : Type} [Field K] [StarRing K] {ζ : K}

/-! ## C35 -/

/-- C35 (a): a half spectrum is accepted iff it has `n/2 + 1` bins for an even `n > 0`; otherwise
`ValueError`. -/
theorem C35_accepts_iff {n : Nat} (x : List K) :
    ((∃ s, backToTD ζ n x = .ok s) ↔ 0 < n ∧ 2 ∣ n ∧ x.length = n / 2 + 1) ∧
    ((¬ ∃ s, backToTD ζ n x = .ok s) → backToTD ζ n x = .error .valueError) := by
  unfold backToTD
  by_cases h : 2 * x.length = n + 2
  · rw [if_neg (by simpa using h)]
    by_cases h0 : n = 0
    · rw [if_pos h0]
      refine ⟨⟨fun ⟨s, hs⟩ => (by cases hs), fun hh => (by omega)⟩, fun _ => rfl⟩
    · rw [if_neg h0]
      refine ⟨⟨fun _ => by omega, fun _ => ⟨_, rfl⟩⟩, fun hn => absurd ⟨_, rfl⟩ hn⟩
  · rw [if_pos (by simpa using h)]
    refine ⟨⟨fun ⟨s, hs⟩ => (by cases hs), fun hh => (by omega)⟩, fun _ => rfl⟩

/-- C35 (b): the result has `n` samples, all real, and its spectrum is the given half spectrum
(real parts at the first and last bin) extended by conjugate symmetry. -/
theorem C35_real [CharZero K] {n : Nat} (r : DftRoot ζ n) {x s : List K}
    (h : backToTD ζ n x = .ok s) :
    s.length = n ∧ IsReal s ∧
    (∀ t < n, at0 s t * n = ∑ k ∈ Finset.range n, at0 (hermExt x) k * ζ ^ (k * t)) ∧
    (hermExt x).length = n ∧ ∀ k < n, at0 (hermExt x) k =
      if k = 0 ∨ 2 * k = n then rePart (at0 x k)
      else if 2 * k < n then at0 x k else star (at0 x (n - k)) := by
  have hx : 2 * x.length = n + 2 := by
    by_contra hc
    unfold backToTD at h
    rw [if_pos hc] at h; cases h
  have hn := r.pos
  rw [backToTD_ok hx hn] at h
  cases h
  refine ⟨idft_length _, ?_, ?_, hermExt_length hx hn, fun k hk => at0_hermExt hx hn hk⟩
  · intro a ha
    obtain ⟨i, hi, rfl⟩ := List.getElem_of_mem ha
    have := idft_real r (fun k hk => hermExt_symm hx hn hk) i (by rwa [idft_length] at hi)
    unfold at0 at this
    rwa [getD_lt hi] at this
  · intro t ht
    unfold idft
    rw [at0_range_map ht, div_mul_cancel₀]
    exact Nat.cast_ne_zero.mpr (by omega)

/-- C35 (c): transforming a real frame, keeping the bins `0 .. n/2` and going back to the time
domain gives the frame back. -/
theorem C35_round_trip [CharZero K] {n : Nat} (r : DftRoot ζ n) (he : 2 ∣ n) {x : List K}
    (hl : x.length = n) (hx : IsReal x) :
    backToTD ζ n ((dft ζ n x).take (n / 2 + 1)) = .ok x :=
  backToTD_dft r he hl (fun t _ => hx.at0 t)

/-- The complex exponential is such a `ζ`, for every DFT size. -/
theorem dftRoot_complex {n : Nat} (hn : 0 < n) :
    DftRoot (Complex.exp (2 * Real.pi * Complex.I / n)) n := by
  refine ⟨hn, Complex.isPrimitiveRoot_exp n (by omega), ?_⟩
  rw [← Complex.exp_neg]
  change (starRingEnd ℂ) _ = _
  rw [← Complex.exp_conj]
  congr 1
  rw [map_div₀, map_mul, map_mul, Complex.conj_I, Complex.conj_ofReal, map_natCast,
    show ((2 : ℂ)) = ((2 : ℝ) : ℂ) by norm_num, Complex.conj_ofReal]
  ring

/-! ## C33 -/

theorem mapM_ok {β γ : Type} {g : β → Except PyErr γ} {g' : β → γ} : ∀ (l : List β),
    (∀ x ∈ l, g x = .ok (g' x)) → l.mapM g = .ok (l.map g') := by
  intro l
  induction l with
  | nil => intro _; rfl
  | cons x l ih =>
    intro h
    rw [List.mapM_cons, h x (by simp), ih (fun y hy => h y (by simp [hy]))]
    rfl

/-- C33 (d): for arbitrary filters, applying them (conjugated) in the frequency domain to real
frames and going back to the time domain is, sample by sample, the sum over the sensors of the
circular convolutions of the windowed frames with the filters' time-domain responses. -/
theorem C33_filtering [CharZero K] {N : Nat} (r : DftRoot ζ N) (he : 2 ∣ N)
    {c : K} (hc : c ≠ 0) (hcr : star c = c) {h : List K} (hh : IsReal h) (hhl : h.length = N)
    {w Y : List (List K)} (hY : ∀ y ∈ Y, IsReal y ∧ y.length = N)
    (hw : ∀ a ∈ w, a.length = N / 2 + 1) :
    ∃ z gs, backToTD ζ N (combine (N / 2 + 1) w (Y.map (analysis ζ N c h))) = .ok z ∧
      w.mapM (fun a => backToTD ζ N (a.map star)) = .ok gs ∧
      ∀ t < N, c * at0 z t = ((gs.zip Y).map fun p =>
        ∑ u ∈ Finset.range N, at0 p.1 ((t + N - u) % N) * (at0 p.2 u * at0 h u)).sum := by
  have hN := r.pos
  have h0 : backToTD ζ N (combine (N / 2 + 1) w (Y.map (analysis ζ N c h))) =
     .ok (idft ζ N (hermExt (combine (N / 2 + 1) w (Y.map (analysis ζ N c h))))) :=
    backToTD_ok (by unfold combine; rw [List.length_map, List.length_range]; omega) hN
  have h1 : w.mapM (fun a => backToTD ζ N (a.map star)) = .ok (w.map fun a => idft ζ N (hermExt (a.map star))) := by
    exact mapM_ok _ (fun a ha => backToTD_ok (by rw [List.length_map, hw a ha]; omega) hN)
  rw [h0, h1]
  refine ⟨_, _, rfl, rfl, ?_⟩
  intro t ht
  have := filtering_core r he hc hcr hh hhl hY hw ht
  exact this

variable [DecidableEq K]

/-- The new half-frame is completely silent, or has a non-zero sample where the window is not
zero. (Automatic for windows without zeros.) -/
def WindowSees (h y : List K) (Ns k : Nat) : Prop :=
  (∃ j < Ns, at0 h (Ns + j) ≠ 0 ∧ at0 y ((k + 1) * Ns + j) ≠ 0) ∨
  ∀ j < Ns, at0 y ((k + 1) * Ns + j) = 0

theorem olaStep {Ns : Nat} (hNs : 0 < Ns) {h y prev cur : List K} (hl : h.length = 2 * Ns)
    (hw : ∀ j < Ns, at0 h (Ns + j) ^ 2 + at0 h j ^ 2 ≠ 0) {k : Nat} (hs : WindowSees h y Ns k)
    (hpl : prev.length = 2 * Ns)
    (hp : ∀ j < Ns, at0 prev (Ns + j) = at0 h (Ns + j) ^ 2 * at0 y (k * Ns + (Ns + j)))
    (hcl : cur.length = 2 * Ns)
    (hc : ∀ j < 2 * Ns, at0 cur j = at0 h j ^ 2 * at0 y ((k + 1) * Ns + j)) :
    ∃ z, overlapAdd (2 * Ns) Ns h prev cur = .ok z ∧ z.length = 2 * Ns ∧
      (∀ j < Ns, at0 z j = at0 y ((k + 1) * Ns + j)) ∧
      (∀ j < Ns, at0 z (Ns + j) = at0 h (Ns + j) ^ 2 * at0 y ((k + 1) * Ns + (Ns + j))) := by
  unfold overlapAdd
  by_cases ha : prev.all (fun x => x = 0) = true
  · rw [if_pos ha]
    refine ⟨cur, rfl, hcl, ?_, fun j hj => hc _ (by omega)⟩
    have hz : ∀ j < Ns, at0 h (Ns + j) ^ 2 * at0 y (k * Ns + (Ns + j)) = 0 := by
      intro j hj
      rw [← hp j hj]
      unfold at0
      rw [getD_lt (by omega)]
      have := List.all_eq_true.mp ha _ (List.getElem_mem (by omega : Ns + j < prev.length))
      simpa using this
    have hy : ∀ j < Ns, at0 y ((k + 1) * Ns + j) = 0 := by
      rcases hs with ⟨j, hj, h1, h2⟩ | hs
      · have := hz j hj
        rw [show k * Ns + (Ns + j) = (k + 1) * Ns + j by ring] at this
        rcases mul_eq_zero.mp this with h3 | h3
        · exact absurd (pow_eq_zero_iff (by omega) |>.mp h3) h1
        · exact absurd h3 h2
      · exact hs
    intro j hj
    rw [hc j (by omega), hy j hj, mul_zero]
  · rw [if_neg ha, if_neg (by omega), if_neg (by omega)]
    obtain ⟨nv, h1, h2⟩ := normVal_half hNs hl
    rw [h1]
    refine ⟨_, rfl, by simp, ?_, ?_⟩
    · intro j hj
      rw [at0_range_map (by omega)]
      simp only
      rw [if_pos hj, if_pos (by omega), h2 j hj, hpl, hc j (by omega),
        show 2 * Ns - (2 * Ns - Ns) + j = Ns + j by omega, hp j hj,
        show k * Ns + (Ns + j) = (k + 1) * Ns + j by ring, ← add_mul,
        mul_div_cancel_left₀ _ (hw j hj)]
    · intro j hj
      rw [at0_range_map (by omega)]
      simp only
      rw [if_neg (by omega), if_neg (by omega), zero_add, hc _ (by omega)]

theorem wholeChunk_selector [CharZero K] {Ns : Nat} (r : DftRoot ζ (2 * Ns)) {c : K} (hc : c ≠ 0)
    (hcr : star c = c) {h : List K} (hh : IsReal h) (hhl : h.length = 2 * Ns) {y : List K}
    (hy : IsReal y) {Y : List (List K)} {ref k : Nat} (hr : ref < Y.length)
    (hYr : Y.getD ref [] = frameAt y (k * Ns) (2 * Ns)) (hlen : (k + 2) * Ns ≤ y.length)
    (prev : List K) :
    ∃ cur, wholeChunk ζ (2 * Ns) Ns c h h Y (selector Y.length ref (2 * Ns / 2 + 1)) prev =
        overlapAdd (2 * Ns) Ns h prev cur ∧ cur.length = 2 * Ns ∧
      ∀ j < 2 * Ns, at0 cur j = at0 h j ^ 2 * at0 y (k * Ns + j) := by
  have hfl : (frameAt y (k * Ns) (2 * Ns)).length = 2 * Ns := by
    unfold frameAt
    rw [List.length_take, List.length_drop]
    have : (k + 2) * Ns = k * Ns + 2 * Ns := by ring
    omega
  have hfr : IsReal (frameAt y (k * Ns) (2 * Ns)) :=
    fun a ha => hy a (List.mem_of_mem_drop (List.mem_of_mem_take ha))
  obtain ⟨z, h1, h2⟩ := identity_frame r ⟨Ns, rfl⟩ hc hcr hh hhl hr (by rw [hYr]; exact hfr)
    (by rw [hYr, hfl])
  unfold wholeChunk
  simp only [h1, h2, hYr, bind, Except.bind]
  refine ⟨_, rfl, by simp [hfl, hhl], ?_⟩
  intro j hj
  rw [at0_zipWith (by simp [hfl, hhl]; omega) (by omega), at0_zipWith (by omega) (by omega)]
  unfold frameAt
  rw [at0_take (by omega), at0_drop]
  ring

theorem wholeChunkRun_from [CharZero K] {Ns : Nat} (hNs : 0 < Ns) (r : DftRoot ζ (2 * Ns)) {c : K}
    (hc : c ≠ 0) (hcr : star c = c) {h : List K} (hh : IsReal h) (hhl : h.length = 2 * Ns)
    (hw : ∀ j < Ns, at0 h (Ns + j) ^ 2 + at0 h j ^ 2 ≠ 0) {y : List K} (hy : IsReal y)
    {M ref : Nat} (hr : ref < M) :
    ∀ (frames : List (List (List K))) (k : Nat) (prev : List K),
      prev.length = 2 * Ns →
      (∀ j < Ns, at0 prev (Ns + j) = at0 h (Ns + j) ^ 2 * at0 y (k * Ns + (Ns + j))) →
      (∀ (i : Nat) (Y : List (List K)), frames[i]? = some Y → Y.length = M ∧
        Y.getD ref [] = frameAt y ((k + 1 + i) * Ns) (2 * Ns)) →
      (k + 2 + frames.length) * Ns ≤ y.length →
      (∀ i < frames.length, WindowSees h y Ns (k + i)) →
      wholeChunkRun ζ (2 * Ns) Ns c h h (selector M ref (2 * Ns / 2 + 1)) prev frames =
        .ok ((List.range frames.length).map fun i => frameAt y ((k + 1 + i) * Ns) Ns) := by
  intro frames
  induction frames with
  | nil => intros; rfl
  | cons Y fs ih =>
    intro k prev hpl hp hf hlen hs
    obtain ⟨hYM, hYr⟩ := hf 0 Y rfl
    rw [Nat.add_zero] at hYr
    rw [List.length_cons] at hlen hs
    have hle : (k + 1 + 2) * Ns ≤ y.length :=
      le_trans (Nat.mul_le_mul_right _ (by omega)) hlen
    obtain ⟨cur, h1, h2, h3⟩ := wholeChunk_selector r hc hcr hh hhl hy (by omega) hYr hle prev
    rw [hYM] at h1
    obtain ⟨z, h4, h5, h6, h7⟩ := olaStep hNs hhl hw (by simpa using hs 0 (by omega)) hpl hp h2 h3
    have hrec := ih (k + 1) z h5 h7
      (fun i Y' hi => by
        obtain ⟨e1, e2⟩ := hf (i + 1) Y' (by simpa using hi)
        exact ⟨e1, by rw [e2]; congr 2; omega⟩)
      (le_trans (Nat.mul_le_mul_right _ (by omega)) hlen)
      (fun i hi => by
        have := hs (i + 1) (by omega)
        rwa [show k + (i + 1) = k + 1 + i by omega] at this)
    simp only [wholeChunkRun, h1, h4, hrec, bind, Except.bind]
    congr 1
    rw [List.length_cons, List.range_succ_eq_map, List.map_cons, List.map_map]
    congr 1
    · have hexp : (k + 1 + 2) * Ns = (k + 1) * Ns + 2 * Ns := by ring
      apply at0_ext
      · unfold frameAt
        rw [List.length_take, List.length_take, List.length_drop, h5]
        simp only [Nat.add_zero]
        omega
      · intro j hj
        rw [List.length_take] at hj
        unfold frameAt
        rw [at0_take (by omega), at0_take (by omega), at0_drop, h6 j (by omega)]
    · apply List.map_congr_left
      intro i _
      simp only [Function.comp]
      congr 2; omega

/-- C33 (a): whole-chunk broadcasting with 50% overlap and equal analysis and synthesis windows.
When the node's filter selects one of its sensors, the chunks sent are exactly that sensor's
samples, in order and without gap, from the second broadcast on; the first chunk is the windowed
signal. -/
theorem C33_whole_chunk_identity [CharZero K] {Ns : Nat} (hNs : 0 < Ns) (r : DftRoot ζ (2 * Ns))
    {c : K} (hc : c ≠ 0) (hcr : star c = c) {h : List K} (hh : IsReal h) (hhl : h.length = 2 * Ns)
    (hw : ∀ j < Ns, at0 h (Ns + j) ^ 2 + at0 h j ^ 2 ≠ 0) {y : List K} (hy : IsReal y)
    {M ref : Nat} (hr : ref < M) {frames : List (List (List K))}
    (hf : ∀ (i : Nat) (Y : List (List K)), frames[i]? = some Y → Y.length = M ∧
        Y.getD ref [] = frameAt y (i * Ns) (2 * Ns))
    (hlen : (frames.length + 1) * Ns ≤ y.length)
    (hs : ∀ i, i + 1 < frames.length → WindowSees h y Ns i) :
    ∃ chunks, wholeChunkRun ζ (2 * Ns) Ns c h h (selector M ref (2 * Ns / 2 + 1)) [] frames =
        .ok chunks ∧ chunks.length = frames.length ∧
      (∀ i, 0 < i → i < frames.length → chunks[i]? = some (frameAt y (i * Ns) Ns)) ∧
      ∀ ch, chunks[0]? = some ch → ch.length = Ns ∧ ∀ j < Ns, at0 ch j = at0 h j ^ 2 * at0 y j := by
  cases frames with
  | nil => exact ⟨[], rfl, rfl, by simp, by simp⟩
  | cons Y fs =>
    obtain ⟨hYM, hYr⟩ := hf 0 Y rfl
    rw [List.length_cons] at hlen
    have hle : (0 + 2) * Ns ≤ y.length := le_trans (Nat.mul_le_mul_right _ (by omega)) hlen
    obtain ⟨cur, h1, h2, h3⟩ := wholeChunk_selector r hc hcr hh hhl hy (by omega) hYr hle []
    have h4 : overlapAdd (2 * Ns) Ns h [] cur = .ok cur := by unfold overlapAdd; simp
    have hrec := wholeChunkRun_from hNs r hc hcr hh hhl hw hy hr fs 0 cur h2
      (fun j hj => h3 _ (by omega))
      (fun i Y' hi => by
        obtain ⟨e1, e2⟩ := hf (i + 1) Y' (by simpa using hi)
        exact ⟨e1, by rw [e2]; congr 2; omega⟩)
      (le_trans (Nat.mul_le_mul_right _ (by omega)) hlen)
      (fun i hi => by
        have := hs i (by simpa using hi)
        simpa using this)
    rw [hYM, h4] at h1
    refine ⟨cur.take Ns :: (List.range fs.length).map fun i => frameAt y ((0 + 1 + i) * Ns) Ns,
      ?_, by simp, ?_, ?_⟩
    · simp only [wholeChunkRun, h1, hrec, bind, Except.bind]
    · intro i h0 hi
      obtain ⟨i, rfl⟩ : ∃ m, i = m + 1 := ⟨i - 1, by omega⟩
      have hi' : i < fs.length := by simpa using hi
      rw [List.getElem?_cons_succ, List.getElem?_map, List.getElem?_range hi']
      simp only [Option.map_some, Option.some.injEq]
      congr 2; omega
    · intro ch hch
      simp only [List.getElem?_cons_zero, Option.some.injEq] at hch
      subst hch
      refine ⟨by rw [List.length_take]; omega, ?_⟩
      intro j hj
      rw [at0_take hj, h3 j (by omega)]
      simp

/-- C33 (b), disagreement: with an overlap of two thirds or more (three or more frames per sample)
the normalisation raises `ValueError` as soon as the previous chunk is not silent, whatever the
signals and filters. -/
theorem C33_high_overlap_fails {N Ns : Nat} (hNs : 0 < Ns) (h3 : 3 ≤ N / Ns) {c : K} {h f : List K}
    (hl : h.length = N) {Y w : List (List K)} {prev : List K} (hp : ∃ x ∈ prev, x ≠ 0) :
    wholeChunk ζ N Ns c h f Y w prev = .error .valueError := by
  unfold wholeChunk
  cases hb : backToTD ζ N (combine (N / 2 + 1) w (Y.map (analysis ζ N c h))) with
  | error e =>
    have : e = .valueError := by
      unfold backToTD at hb
      split at hb
      · exact ((Except.error.injEq _ _).mp hb).symm
      · split at hb
        · exact ((Except.error.injEq _ _).mp hb).symm
        · cases hb
    subst this; simp only [hb, bind, Except.bind]
  | ok z =>
    simp only [hb, bind, Except.bind]
    unfold overlapAdd
    have hN : 3 * Ns ≤ N := by rw [← Nat.le_div_iff_mul_le hNs]; exact h3
    obtain ⟨x, hx, hx0⟩ := hp
    have ha : ¬ prev.all (fun x => x = 0) = true := by
      intro h
      exact hx0 (by simpa using List.all_eq_true.mp h x hx)
    rw [if_neg ha, if_neg (by omega), if_neg (by omega), normVal_error hNs h3 hl]
    rfl

theorem addFrame_ok {d : List K} {b N : Nat} {frame : List K} (hN : 0 < N) (hf : frame.length = N)
    (hd : b + N ≤ d.length) : ∃ d', addFrame d b (b + N) frame = .ok d' ∧ d'.length = d.length ∧
      ∀ n < d.length, at0 d' n = at0 d n + if b ≤ n ∧ n < b + N then at0 frame (n - b) else 0 := by
  unfold addFrame
  simp only [show min (b + N) d.length - b = N by omega]
  rw [if_neg (by omega)]
  refine ⟨_, rfl, by simp, ?_⟩
  intro n hn
  rw [at0_zipIdx_map hn]
  simp only
  split
  · rw [hf, show N - N + (n - b) = n - b by omega]
  · rw [add_zero]

/-- C33 (c): output synthesis. When every filter selects sensor `ref`, the output signal is that
sensor's signal multiplied by the sum, over the frames covering the sample, of the products of the
analysis and synthesis windows: it is exact if and only if these products add up to one. -/
theorem C33_output_gain [CharZero K] {N : Nat} (r : DftRoot ζ N) (he : 2 ∣ N)
    {c : K} (hc : c ≠ 0) (hcr : star c = c) {h win : List K} (hh : IsReal h) (hhl : h.length = N)
    (hwl : win.length = N) {y : List K} (hy : IsReal y) {M ref : Nat} (hr : ref < M)
    {T : Nat} (hTy : T ≤ y.length) :
    ∀ (items : List (Nat × Nat × List (List K) × List (List K))) (d : List K), d.length = T →
      (∀ it ∈ items, it.2.1 = it.1 + N ∧ it.2.1 ≤ T ∧ it.2.2.1 = selector M ref (N / 2 + 1) ∧
        it.2.2.2.length = M ∧ it.2.2.2.getD ref [] = frameAt y it.1 N) →
      ∃ d', desiredRun ζ N c h win d items = .ok d' ∧ d'.length = T ∧
        ∀ n < T, at0 d' n = at0 d n + ((items.map fun it =>
          if it.1 ≤ n ∧ n < it.1 + N then at0 win (n - it.1) * at0 h (n - it.1) else 0).sum)
            * at0 y n := by
  have hN := r.pos
  intro items
  induction items with
  | nil => intro d hd _; exact ⟨d, rfl, hd, by simp⟩
  | cons it items ih =>
    obtain ⟨b, e, w, Y⟩ := it
    intro d hd hit
    obtain ⟨h1, h2, h3, h4, h5⟩ := hit (b, e, w, Y) (by simp)
    simp only at h1 h2 h3 h4 h5
    subst h1
    have hfl : (frameAt y b N).length = N := by
      unfold frameAt; rw [List.length_take, List.length_drop]; omega
    have hfr : IsReal (frameAt y b N) :=
      fun a ha => hy a (List.mem_of_mem_drop (List.mem_of_mem_take ha))
    obtain ⟨z, h6, h7⟩ := identity_frame r he hc hcr hh hhl (Y := Y) (ref := ref) (by omega)
      (by rw [h5]; exact hfr) (by rw [h5, hfl])
    have hzl : z.length = N := by
      have := congrArg List.length h7
      rw [List.length_map, List.length_zipWith, h5, hfl, hhl] at this
      omega
    have hz : ∀ j < N, c * at0 z j = at0 y (b + j) * at0 h j := by
      intro j hj
      have := congrArg (fun l => at0 l j) h7
      rw [at0_map (mul_zero c), at0_zipWith (by rw [h5, hfl]; omega) (by omega), h5] at this
      rw [this]
      unfold frameAt
      rw [at0_take hj, at0_drop]
    have hfrm : desiredFrame ζ N c win w (Y.map (analysis ζ N c h)) =
        .ok (List.zipWith (fun a b => c * a * b) win z) := by
      unfold desiredFrame
      rw [h3, ← h4, h6]
      rfl
    have hfm : (List.zipWith (fun a b => c * a * b) win z).length = N := by
      rw [List.length_zipWith]; omega
    obtain ⟨d1, h8, h9, h10⟩ := addFrame_ok (d := d) (b := b) hN hfm (by omega)
    obtain ⟨d2, h11, h12, h13⟩ := ih d1 (by omega) (fun it hi => hit it (by simp [hi]))
    refine ⟨d2, ?_, h12, ?_⟩
    · simp only [desiredRun, hfrm, h8, h11, bind, Except.bind]
    · intro n hn
      rw [h13 n hn, h10 n (by omega), List.map_cons, List.sum_cons, add_mul, ← add_assoc]
      congr 2
      simp only
      by_cases hc2 : b ≤ n ∧ n < b + N
      · rw [if_pos hc2, if_pos hc2, at0_zipWith (by omega) (by omega), mul_right_comm, hz _ (by omega),
          show b + (n - b) = n by omega]
        ring
      · rw [if_neg hc2, if_neg hc2, zero_mul]

/-! ## C34 -/

/-- C34 (a): the requested samples of a convolution are those of the full linear convolution. -/
theorem C34_convolution {a b : List K} (ids : List Nat) (h : ∀ m ∈ ids, m < a.length + b.length) :
    extractConv (ids.map fun (m : Nat) => (m : Int)) a b = .ok (ids.map (linConv a b)) :=
  extractConv_eq ids h

/-- C34 (b): the `L` samples that a node broadcasts in few-samples mode are the samples
`P - L + 1, ..., P` of the sum over its sensors of the full linear convolutions with its
time-domain filters of length `P`. -/
theorem C34_few_samples {L P : Nat} {wIR yq : List (List K)} (hL : L ≤ P)
    (hw : ∀ a ∈ wIR, a.length = P) (hy : ∀ b ∈ yq, 0 < b.length) :
    fewSamples L P wIR yq = .ok ((List.range L).map fun (l : Nat) =>
      ((wIR.zip yq).map fun p => linConv p.1 p.2 (P - L + 1 + l)).sum) := by
  unfold fewSamples
  have hids : ((List.range L).map fun (l : Nat) => (P : Int) - L + 1 + l) =
      ((List.range L).map fun l => P - L + 1 + l).map fun (m : Nat) => (m : Int) := by
    rw [List.map_map]
    apply List.map_congr_left
    intro l _
    simp only [Function.comp]
    omega
  rw [hids, mapM_ok (g' := fun p => ((List.range L).map fun l => P - L + 1 + l).map
    (linConv p.1 p.2))]
  · simp only [bind, Except.bind]
    congr 1
    unfold sumChannels
    apply List.map_congr_left
    intro l hl
    rw [List.map_map]
    congr 1
    apply List.map_congr_left
    intro p _
    simp only [Function.comp]
    rw [List.map_map, at0_range_map (List.mem_range.mp hl)]
    rfl
  · intro p hp
    have h1 := hw p.1 (List.of_mem_zip hp).1
    have h2 := hy p.2 (List.of_mem_zip hp).2
    apply extractConv_eq
    intro m hm
    obtain ⟨l, hl, rfl⟩ := List.mem_map.mp hm
    have := List.mem_range.mp hl
    omega

/-- The same for the output in `conv` mode, whose samples are `P - Ns, ..., P - 1`. -/
theorem C34_conv_output {Ns P : Nat} {wIR yTD : List (List K)} (hL : Ns ≤ P)
    (hw : ∀ a ∈ wIR, a.length = P) :
    desiredConv Ns P wIR yTD = .ok ((List.range Ns).map fun (l : Nat) =>
      ((wIR.zip yTD).map fun p => linConv p.1 p.2 (P - Ns + l)).sum) := by
  unfold desiredConv
  have hids : ((List.range Ns).map fun (l : Nat) => (P : Int) - Ns + l) =
      ((List.range Ns).map fun l => P - Ns + l).map fun (m : Nat) => (m : Int) := by
    rw [List.map_map]
    apply List.map_congr_left
    intro l _
    simp only [Function.comp]
    omega
  rw [hids, mapM_ok (g' := fun p => ((List.range Ns).map fun l => P - Ns + l).map
    (linConv p.1 p.2))]
  · simp only [bind, Except.bind]
    congr 1
    unfold sumChannels
    apply List.map_congr_left
    intro l hl
    rw [List.map_map]
    congr 1
    apply List.map_congr_left
    intro p _
    simp only [Function.comp]
    rw [List.map_map, at0_range_map (List.mem_range.mp hl)]
    rfl
  · intro p hp
    have h1 := hw p.1 (List.of_mem_zip hp).1
    apply extractConv_eq
    intro m hm
    obtain ⟨l, hl, rfl⟩ := List.mem_map.mp hm
    have := List.mem_range.mp hl
    omega

/-- Entry of the distortion function: at position `d + n` (lag `d`), the filter tap of that lag
times the correlation of the windows at lag `d + 1`. -/
theorem distFctTD_at {n : Nat} (hn : 0 < n) {w h f : List K} (hw : w.length = n) {R : K} {p : Nat}
    (hp : p < 2 * n - 1) : at0 (distFctTD n w h f R) p =
      at0 w (p % n) * (∑ i ∈ Finset.range n,
        if n - 1 ≤ i + p ∧ i + p - (n - 1) < n then at0 f i * at0 h (i + p - (n - 1)) else 0) / R := by
  unfold distFctTD
  rw [at0_range_map hp]
  congr 1
  rw [Finset.mul_sum]
  apply Finset.sum_congr rfl
  intro i hi
  have hi' := Finset.mem_range.mp hi
  split
  · next hc =>
    have : circFlip n w i (i + p - (n - 1)) = at0 w (p % n) := by
      unfold circFlip
      rw [at0_reverse (by rw [hw]; exact Nat.mod_lt _ hn), hw]
      congr 1
      have e1 : i + n - (i + p - (n - 1)) = 2 * n - 1 - p := by omega
      rw [e1]
      rcases Nat.lt_or_ge p n with h1 | h1
      · rw [Nat.mod_eq_of_lt h1]
        have : 2 * n - 1 - p = (n - 1 - p) + n := by omega
        rw [this, Nat.add_mod_right, Nat.mod_eq_of_lt (by omega)]; omega
      · have : p = (p - n) + n := by omega
        rw [this, Nat.add_mod_right, Nat.mod_eq_of_lt (by omega),
          Nat.mod_eq_of_lt (by omega : p - n < n)]; omega
    rw [this]; ring
  · rw [mul_zero]

/-- Gain of the time-domain approximation for a filter that passes everything. -/
def passGain (n : Nat) (h f : List K) (R : K) : K :=
  (∑ i ∈ Finset.range (n - 1), at0 f i * at0 h (i + 1)) / R

theorem ones_td [CharZero K] {n : Nat} (r : DftRoot ζ n) (he : 2 ∣ n) :
    backToTD ζ n ((List.replicate (n / 2 + 1) (1 : K)).map star) =
      .ok (1 :: List.replicate (n - 1) 0) := by
  have hn := r.pos
  have hreal : IsReal ((1 : K) :: List.replicate (n - 1) 0) := by
    intro a ha
    rcases List.mem_cons.mp ha with h | h
    · rw [h]; exact star_one _
    · rw [List.eq_of_mem_replicate h]; exact star_zero _
  have hd : dft ζ n ((1 : K) :: List.replicate (n - 1) 0) = List.replicate n 1 := by
    rw [List.eq_replicate_iff]
    refine ⟨dft_length _, ?_⟩
    intro b hb
    unfold dft at hb
    obtain ⟨k, _, rfl⟩ := List.mem_map.mp hb
    rw [Finset.sum_eq_single 0]
    · simp [at0]
    · intro t ht ht0
      obtain ⟨t, rfl⟩ : ∃ m, t = m + 1 := ⟨t - 1, by omega⟩
      have : at0 ((1 : K) :: List.replicate (n - 1) 0) (t + 1) = 0 := by
        have h2 : at0 ((1 : K) :: List.replicate (n - 1) 0) (t + 1) =
            at0 (List.replicate (n - 1) (0 : K)) t := by simp [at0]
        rw [h2, at0_replicate (by have := Finset.mem_range.mp ht; omega)]
      rw [this, zero_mul]
    · intro h; exact absurd (Finset.mem_range.mpr hn) h
  have := C35_round_trip r he (x := (1 : K) :: List.replicate (n - 1) 0) (by simp; omega) hreal
  rw [hd, List.take_replicate] at this
  rw [List.map_replicate, star_one]
  rw [show min (n / 2 + 1) n = n / 2 + 1 by
    rcases Nat.lt_or_ge n 2 with h | h <;> omega] at this
  exact this

theorem linConv_pass {n : Nat} (hn : 2 ≤ n) {h f y : List K} {R : K} (hy : y.length = n) {m : Nat}
    (h1 : n ≤ m) :
    linConv (distFctTD n ((1 : K) :: List.replicate (n - 1) 0) h f R) y m =
      passGain n h f R * at0 y (m - n) := by
  have hone : ((1 : K) :: List.replicate (n - 1) 0).length = n := by simp; omega
  unfold linConv
  rw [Finset.sum_eq_single n]
  · rw [distFctTD_at (by omega) hone (by omega), Nat.mod_self]
    congr 1
    unfold passGain
    have e0 : at0 ((1 : K) :: List.replicate (n - 1) 0) 0 = 1 := by simp [at0]
    rw [e0, one_mul]
    congr 1
    obtain ⟨q, rfl⟩ : ∃ q, n = q + 1 := ⟨n - 1, by omega⟩
    rw [Finset.sum_range_succ, if_neg (by omega), add_zero]
    apply Finset.sum_congr rfl
    intro i hi
    have := Finset.mem_range.mp hi
    rw [if_pos (by omega), show i + (q + 1) - (q + 1 - 1) = i + 1 by omega]
  · intro p _ hpn
    by_cases hp : p < 2 * n - 1
    · by_cases hp0 : p = 0
      · rw [at0_of_ge (x := y) (by omega), mul_zero]
      · rw [distFctTD_at (by omega) hone hp]
        have : at0 ((1 : K) :: List.replicate (n - 1) 0) (p % n) = 0 := by
          have hpm : p % n ≠ 0 := by
            rcases Nat.lt_or_ge p n with h2 | h2
            · rw [Nat.mod_eq_of_lt h2]; exact hp0
            · have : p = (p - n) + n := by omega
              rw [this, Nat.add_mod_right, Nat.mod_eq_of_lt (by omega)]; omega
          obtain ⟨t, ht⟩ : ∃ t, p % n = t + 1 := ⟨p % n - 1, by omega⟩
          have hlt := Nat.mod_lt p (by omega : n > 0)
          rw [ht]
          have h2 : at0 ((1 : K) :: List.replicate (n - 1) 0) (t + 1) =
              at0 (List.replicate (n - 1) (0 : K)) t := by simp [at0]
          rw [h2, at0_replicate (by omega)]
        rw [this, zero_mul, zero_div, zero_mul]
    · rw [at0_of_ge (by unfold distFctTD; simp; omega), zero_mul]
  · intro h; exact absurd (Finset.mem_range.mpr (by omega)) h

/-- C34 (c): with a single sensor and a filter that passes everything, the time-domain filter
computed from it makes the node broadcast exactly the `L` newest samples of its frame (up to the
constant window gain): no delay and no loss. -/
theorem C34_broadcast_newest [CharZero K] {n L : Nat} (r : DftRoot ζ n) (he : 2 ∣ n) (hL : L ≤ n)
    {h f y : List K} {R : K} (hy : y.length = n) :
    ∃ wIR, distFct ζ n [List.replicate (n / 2 + 1) 1] h f R = .ok wIR ∧
      fewSamples L (2 * n - 1) wIR [y] =
        .ok ((List.range L).map fun l => passGain n h f R * at0 y (n - L + l)) := by
  have hn := r.pos
  refine ⟨[distFctTD n (1 :: List.replicate (n - 1) 0) h f R], ?_, ?_⟩
  · unfold distFct
    rw [List.mapM_cons, ones_td r he]; rfl
  · rw [C34_few_samples (by omega) (by simp [distFctTD]) (by simp; omega)]
    congr 1
    apply List.map_congr_left
    intro l hl
    have := List.mem_range.mp hl
    simp only [List.zip_cons_cons, List.zip_nil_left, List.map_cons, List.map_nil, List.sum_cons,
      List.sum_nil, add_zero]
    rw [linConv_pass (by omega) hy (by omega)]
    congr 2; omega

/-- C34 (d), disagreement: in `conv` output mode the same filter gives an output that is one sample
late: the newest sample of the frame is not in the output, the sample before the frame's last `Ns`
samples is. -/
theorem C34_conv_output_late [CharZero K] {n Ns : Nat} (r : DftRoot ζ n) (he : 2 ∣ n) (hL : Ns < n)
    {h f y : List K} {R : K} (hy : y.length = n) :
    ∃ wIR, distFct ζ n [List.replicate (n / 2 + 1) 1] h f R = .ok wIR ∧
      desiredConv Ns (2 * n - 1) wIR [y] =
        .ok ((List.range Ns).map fun l => passGain n h f R * at0 y (n - Ns + l - 1)) := by
  have hn := r.pos
  refine ⟨[distFctTD n (1 :: List.replicate (n - 1) 0) h f R], ?_, ?_⟩
  · unfold distFct
    rw [List.mapM_cons, ones_td r he]; rfl
  · rw [C34_conv_output (by omega) (by simp [distFctTD])]
    congr 1
    apply List.map_congr_left
    intro l hl
    have := List.mem_range.mp hl
    simp only [List.zip_cons_cons, List.zip_nil_left, List.map_cons, List.map_nil, List.sum_cons,
      List.sum_nil, add_zero]
    rw [linConv_pass (by omega) hy (by omega)]
    congr 2; omega

/-! ## Concrete cases -/

example : DftRoot (Complex.exp (2 * Real.pi * Complex.I / (1024 : ℕ))) 1024 :=
  dftRoot_complex (by norm_num)

example : extractConv [0, 1, 2, 3] [1, 2, (3 : ℚ)] [4, 5] = .ok [4, 13, 22, 15] := by
  have := C34_convolution (K := ℚ) (a := [1, 2, 3]) (b := [4, 5]) [0, 1, 2, 3] (by decide)
  refine Eq.trans this ?_
  norm_num [linConv, Finset.sum_range_succ, at0]

/-- A window without zeros, 50% overlap: the hypotheses of C33 (a) hold for any signal. -/
example (y : List ℚ) (k : Nat) : WindowSees [1, 2, 2, (1 : ℚ)] y 2 k := by
  unfold WindowSees
  by_cases h : ∀ j < 2, at0 y ((k + 1) * 2 + j) = 0
  · exact .inr h
  · push Not at h
    obtain ⟨j, hj, h1⟩ := h
    refine .inl ⟨j, hj, ?_, h1⟩
    interval_cases j <;> norm_num [at0]

/-- `n = 2` with `ζ = -1` over the rationals (trivial conjugation). -/
example : letI : StarRing ℚ := starRingOfComm; DftRoot (-1 : ℚ) 2 := by
  letI : StarRing ℚ := starRingOfComm
  refine ⟨by norm_num, ?_, ?_⟩
  · refine ⟨by norm_num, ?_⟩
    intro l hl
    rcases Nat.even_or_odd l with he | ho
    · exact he.two_dvd
    · rw [ho.neg_one_pow] at hl; norm_num at hl
  · show (-1 : ℚ) = _
    norm_num

/-- C33 (a) instantiated: three frames of two samples with hop one; the chunks after the first are
the samples 5 and 7 themselves. -/
example : letI : StarRing ℚ := starRingOfComm
    DftRoot (-1 : ℚ) 2 → ∃ chunks, wholeChunkRun (-1 : ℚ) 2 1 1 [1, 2] [1, 2] (selector 1 0 2) []
      [[[3, 5]], [[5, 7]], [[7, 9]]] = .ok chunks ∧ chunks[1]? = some [5] ∧ chunks[2]? = some [7] := by
  letI : StarRing ℚ := starRingOfComm
  intro r
  have hreal : ∀ x : List ℚ, IsReal x := fun x a _ => rfl
  obtain ⟨ch, h1, _, h3, _⟩ := C33_whole_chunk_identity (K := ℚ) (Ns := 1) (by norm_num) r
    (c := 1) (by norm_num) rfl (hreal [1, 2]) rfl
    (by intro j hj; interval_cases j; norm_num [at0]) (hreal [3, 5, 7, 9]) (M := 1) (ref := 0)
    (by norm_num) (frames := [[[3, 5]], [[5, 7]], [[7, 9]]])
    (by
      intro i Y h
      match i with
      | 0 => simp at h; subst h; exact ⟨rfl, rfl⟩
      | 1 => simp at h; subst h; exact ⟨rfl, rfl⟩
      | 2 => simp at h; subst h; exact ⟨rfl, rfl⟩
      | (k + 3) => simp at h)
    (by simp)
    (by
      intro i hi
      left
      refine ⟨0, by norm_num, by norm_num [at0], ?_⟩
      have : i < 2 := by simp at hi; omega
      interval_cases i <;> norm_num [at0])
  exact ⟨ch, h1, h3 1 (by norm_num) (by simp), h3 2 (by norm_num) (by simp)⟩

/-- C33 (d) instantiated: two sensors, frames of two samples, filters that are not selectors. -/
example : letI : StarRing ℚ := starRingOfComm
    DftRoot (-1 : ℚ) 2 → ∃ z gs, backToTD (-1 : ℚ) 2
        (combine 2 [[1, 3], [2, 5]] ([[3, 5], [7, 1]].map (analysis (-1 : ℚ) 2 1 [1, 2]))) = .ok z ∧
      [[(1 : ℚ), 3], [2, 5]].mapM (fun a => backToTD (-1 : ℚ) 2 (a.map star)) = .ok gs ∧
      ∀ t < 2, 1 * at0 z t = ((gs.zip [[3, 5], [7, 1]]).map fun p =>
        ∑ u ∈ Finset.range 2, at0 p.1 ((t + 2 - u) % 2) * (at0 p.2 u * at0 [1, 2] u)).sum := by
  letI : StarRing ℚ := starRingOfComm
  intro r
  have hreal : ∀ x : List ℚ, IsReal x := fun x a _ => rfl
  exact C33_filtering (K := ℚ) (N := 2) r (by norm_num) (by norm_num) rfl (hreal _) rfl
    (by intro y hy; simp at hy; rcases hy with rfl | rfl <;> exact ⟨hreal _, rfl⟩)
    (by intro a ha; simp at ha; rcases ha with rfl | rfl <;> rfl)

end
end Danse
