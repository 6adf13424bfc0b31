import Verif.Spec.SiSnr
import Verif.Proofs.Metrics
import Verif.Proofs.Config
import Mathlib.Analysis.Real.Pi.Bounds
import Mathlib.Tactic.LinearCombination

/-! # Lemmas on the speech-intelligibility-weighted SNR -/

namespace Danse

theorem sosSection_length (q : Sos) (x : List ℝ) (z0 z1 : ℝ) : (sosSection q z0 z1 x).length = x.length := by
  induction x generalizing z0 z1 with
  | nil => rfl
  | cons a r ih => unfold sosSection; simp only [List.length_cons, ih]

theorem sosSection_step2 (q : Sos) (x : List ℝ) : ∀ (z0 z1 : ℝ) (k : Nat), k + 2 < x.length →
    (sosSection q z0 z1 x).getD (k + 2) 0 = q.b0 * x.getD (k + 2) 0 + q.b1 * x.getD (k + 1) 0 +
      q.b2 * x.getD k 0 - q.a1 * (sosSection q z0 z1 x).getD (k + 1) 0 -
      q.a2 * (sosSection q z0 z1 x).getD k 0 := by
  induction x with
  | nil => intro z0 z1 k hk; simp at hk
  | cons a r ih =>
    intro z0 z1 k hk
    rw [sosSection]
    rcases k with _ | k
    · match r, hk with
      | b :: c :: r, _ =>
        simp only [sosSection, List.getD_cons_succ, List.getD_cons_zero]
        ring
    · simp only [List.getD_cons_succ]
      exact ih _ _ k (by rw [List.length_cons] at hk; omega)

theorem sosSection_responds (q : Sos) (x : List ℝ) : Responds q x (sosSection q 0 0 x) := by
  refine ⟨sosSection_length q x 0 0, fun k hk => ?_⟩
  match k with
  | 0 =>
    match x, hk with
    | a :: r, _ => simp [sosSection, sosDelayed]
  | 1 =>
    match x, hk with
    | a :: b :: r, _ =>
      simp [sosSection, sosDelayed]
      ring
  | k + 2 =>
    rw [sosSection_step2 q x 0 0 k hk]
    simp [sosDelayed]

theorem sosSection_smul (q : Sos) (g : ℝ) (x : List ℝ) (z0 z1 : ℝ) :
    sosSection q (g * z0) (g * z1) (x.map (g * ·)) = (sosSection q z0 z1 x).map (g * ·) := by
  induction x generalizing z0 z1 with
  | nil => rfl
  | cons a r ih =>
    rw [List.map_cons]
    unfold sosSection
    simp only [List.map_cons]
    rw [← ih]
    congr 1
    · ring
    · congr 1 <;> ring

theorem sosFilt_length (l : List Sos) (x : List ℝ) : (sosFilt l x).length = x.length := by
  unfold sosFilt
  induction l generalizing x with
  | nil => rfl
  | cons q r ih => rw [List.foldl_cons, ih, sosSection_length]

theorem sosFilt_smul (l : List Sos) (g : ℝ) (x : List ℝ) :
    sosFilt l (x.map (g * ·)) = (sosFilt l x).map (g * ·) := by
  unfold sosFilt
  induction l generalizing x with
  | nil => rfl
  | cons q r ih =>
    rw [List.foldl_cons, List.foldl_cons, ← ih]
    congr 1
    have := sosSection_smul q g x 0 0
    rwa [mul_zero] at this

theorem sum_foldlM {B : Type} (f : B → Except PyErr ℝ) (g : B → ℝ) (l : List B) (h : ∀ b ∈ l, f b = .ok (g b))
    (acc : ℝ) : l.foldlM (fun acc b => do
      let t ← f b
      (.ok (acc + t) : Except PyErr ℝ)) acc = .ok (acc + (l.map g).sum) := by
  induction l generalizing acc with
  | nil => simp; rfl
  | cons b r ih =>
    rw [List.foldlM_cons, h b (by simp)]
    show List.foldlM _ (acc + g b) r = _
    rw [ih (fun b hb => h b (by simp [hb])), List.map_cons, List.sum_cons, add_assoc]

theorem foldlM_error {B : Type} (f : B → Except PyErr ℝ) (e : PyErr) (l : List B)
    (h : ∀ b ∈ l, (∃ v, f b = .ok v) ∨ f b = .error e) (hx : ∃ b ∈ l, f b = .error e) (acc : ℝ) :
    l.foldlM (fun acc b => do
      let t ← f b
      (.ok (acc + t) : Except PyErr ℝ)) acc = .error e := by
  induction l generalizing acc with
  | nil => obtain ⟨b, hb, _⟩ := hx; cases hb
  | cons b r ih =>
    rw [List.foldlM_cons]
    rcases h b (by simp) with ⟨v, hv⟩ | he
    · rw [hv]
      show List.foldlM _ (acc + v) r = _
      refine ih (fun b hb => h b (by simp [hb])) ?_ _
      obtain ⟨b', hb', he⟩ := hx
      rcases List.mem_cons.mp hb' with rfl | hb'
      · rw [hv] at he; cases he
      · exact ⟨b', hb', he⟩
    · rw [he]; rfl

theorem sixth_pos : (0 : ℝ) < 2 ^ (1 / 6 : ℝ) := by positivity

theorem sixth_pow : ((2 : ℝ) ^ (1 / 6 : ℝ)) ^ 6 = 2 := by
  rw [← Real.rpow_natCast, ← Real.rpow_mul (by norm_num)]
  norm_num

theorem sixth_gt : (1 : ℝ) < 2 ^ (1 / 6 : ℝ) := Real.one_lt_rpow (by norm_num) (by norm_num)

theorem sixth_lt : (2 : ℝ) ^ (1 / 6 : ℝ) < 11225 / 10000 := by
  by_contra h
  push Not at h
  have : (11225 / 10000 : ℝ) ^ 6 ≤ (2 ^ (1 / 6 : ℝ)) ^ 6 := pow_le_pow_left₀ (by norm_num) h 6
  rw [sixth_pow] at this
  norm_num at this

theorem siBands_mem {b : Nat × Nat} (h : b ∈ siBands) : 0 < b.1 ∧ 160 ≤ b.2 ∧ b.2 ≤ 8000 := by
  have : ∀ b ∈ siBands, 0 < b.1 ∧ 160 ≤ b.2 ∧ b.2 ≤ 8000 := by decide
  exact this b h

theorem edges_ok {fs fc : ℝ} (hfs : 0 < fs) (hfc : 0 < fc) :
    (0 < (siEdges fs fc).1 ∧ (siEdges fs fc).1 < 2 * Real.pi / 2 ∧ 0 < (siEdges fs fc).2 ∧
      (siEdges fs fc).2 < 2 * Real.pi / 2) ↔ fc * 2 ^ (1 / 6 : ℝ) < Real.pi * fs := by
  unfold siEdges
  simp only
  have h1 : 1 / fs * (fc * 2 ^ (1 / 6 : ℝ)) < 2 * Real.pi / 2 ↔ fc * 2 ^ (1 / 6 : ℝ) < Real.pi * fs := by
    rw [one_div, inv_mul_lt_iff₀ hfs]
    constructor <;> intro h <;> linarith
  have h2 : (2 : ℝ) ^ (-(1 / 6) : ℝ) < 2 ^ (1 / 6 : ℝ) := Real.rpow_lt_rpow_of_exponent_lt (by norm_num) (by norm_num)
  rw [h1]
  constructor
  · exact fun h => h.2.2.2
  · intro h
    refine ⟨by positivity, ?_, by positivity, h⟩
    refine lt_trans ?_ (h1.mpr h)
    exact mul_lt_mul_of_pos_left (mul_lt_mul_of_pos_left h2 hfc) (by positivity)

theorem siBandTerm_ok (design : ℝ → ℝ → List Sos) {s n : List ℝ} (hl : s.length = n.length) (vad : List Bool)
    {fs : ℝ} (hfs : 0 < fs) {b : Nat × Nat} (hb : b ∈ siBands)
    (h : (b.2 : ℝ) * 2 ^ (1 / 6 : ℝ) < Real.pi * fs) :
    siBandTerm design s n (some vad) fs true b = .ok ((b.1 : ℝ) / 10000 *
      bandSnr design fs (thirdLo b.2 / (2 * Real.pi)) (thirdHi b.2 / (2 * Real.pi)) s n) := by
  have hfc : (0 : ℝ) < b.2 := by exact_mod_cast (siBands_mem hb).2.1.trans_lt' (by norm_num)
  unfold siBandTerm butterBand
  rw [if_pos ((edges_ok hfs hfc).mpr h)]
  show Except.ok _ = _
  rw [snr_bypass _ _ _ (by rw [sosFilt_length, sosFilt_length, hl])]
  have hp := Real.pi_pos
  have e1 : (siEdges fs b.2).1 / (2 * Real.pi / 2) = thirdLo b.2 / (2 * Real.pi) / (fs / 2) := by
    unfold siEdges thirdLo
    field_simp
  have e2 : (siEdges fs b.2).2 / (2 * Real.pi / 2) = thirdHi b.2 / (2 * Real.pi) / (fs / 2) := by
    unfold siEdges thirdHi
    field_simp
  rw [e1, e2]
  rfl

theorem siBandTerm_error (design : ℝ → ℝ → List Sos) {s n : List ℝ} (vad : Option (List Bool)) (by' : Bool)
    {fs : ℝ} (hfs : 0 < fs) {b : Nat × Nat} (hb : b ∈ siBands)
    (h : ¬ (b.2 : ℝ) * 2 ^ (1 / 6 : ℝ) < Real.pi * fs) :
    siBandTerm design s n vad fs by' b = .error .valueError := by
  have hfc : (0 : ℝ) < b.2 := by exact_mod_cast (siBands_mem hb).2.1.trans_lt' (by norm_num)
  unfold siBandTerm butterBand
  rw [if_neg (fun hh => h ((edges_ok hfs hfc).mp hh))]
  rfl

end Danse
