import Verif.Model.Metrics
import Mathlib.Tactic.Linarith
import Mathlib.Tactic.FieldSimp
import Mathlib.Tactic.Positivity
import Mathlib.Tactic.Ring
import Mathlib.Tactic.NormNum

/-!
# Lemmas on the metrics and the audio export
-/

namespace Danse

theorem pyInt_mono {x y : ℚ} (h : x ≤ y) : pyInt x ≤ pyInt y := by
  unfold pyInt
  by_cases hx : 0 ≤ x
  · rw [if_pos hx, if_pos (le_trans hx h)]
    exact Int.floor_le_floor h
  · rw [if_neg hx]
    by_cases hy : 0 ≤ y
    · rw [if_pos hy]
      rw [not_le] at hx
      have h1 : ⌈x⌉ ≤ 0 := Int.ceil_le.2 (by simpa using hx.le)
      have h2 : 0 ≤ ⌊y⌋ := Int.floor_nonneg.2 hy
      omega
    · rw [if_neg hy]
      exact Int.ceil_le_ceil h

theorem pyInt_intCast (z : Int) : pyInt (z : ℚ) = z := by
  unfold pyInt
  split <;> simp

theorem foldl_max_le (r : List ℚ) (x : ℚ) : x ≤ r.foldl max x ∧ ∀ v ∈ r, v ≤ r.foldl max x := by
  induction r generalizing x with
  | nil => simp
  | cons y r ih =>
    simp only [List.foldl_cons]
    obtain ⟨h1, h2⟩ := ih (max x y)
    refine ⟨le_trans (le_max_left x y) h1, ?_⟩
    intro v hv
    rcases List.mem_cons.1 hv with h | h
    · rw [h]; exact le_trans (le_max_right x y) h1
    · exact h2 v h

theorem le_amax {x : List ℚ} {v : ℚ} (hv : v ∈ x) : v ≤ amax x := by
  cases x with
  | nil => simp at hv
  | cons y r =>
    obtain ⟨h1, h2⟩ := foldl_max_le r y
    rcases List.mem_cons.1 hv with h | h
    · rw [h]; exact h1
    · exact h2 v h

theorem amax_replicate_zero (n : Nat) : amax (List.replicate (n + 1) 0) = 0 := by
  rw [List.replicate_succ]
  simp only [amax]
  induction n with
  | zero => rfl
  | succ n ih => rw [List.replicate_succ, List.foldl_cons, max_self]; exact ih

theorem wrap16_id {z : Int} (h1 : -32768 ≤ z) (h2 : z ≤ 32767) : wrap16 z = z := by
  unfold wrap16
  omega

theorem raw_mono {m : ℚ} (hm : 0 < m) {u v : ℚ} (h : u ≤ v) : toInt16Raw m u ≤ toInt16Raw m v := by
  apply pyInt_mono
  gcongr

theorem raw_amax {m : ℚ} (hm : 0 < m) : toInt16Raw m m = 16383 := by
  unfold toInt16Raw
  have : (32767 : ℚ) * m / m * (1 / 2) = 32767 / 2 := by field_simp
  rw [this]
  decide +kernel

theorem raw_high {m v : ℚ} (hm : 0 < m) (h : v ≤ m) : toInt16Raw m v ≤ 16383 := by
  rw [← raw_amax hm]
  exact raw_mono hm h

theorem raw_bounds {m v : ℚ} (hm : 0 < m) (h1 : -2 * m ≤ v) (h2 : v ≤ m) :
    -32767 ≤ toInt16Raw m v ∧ toInt16Raw m v ≤ 16383 := by
  refine ⟨?_, raw_high hm h2⟩
  have : toInt16Raw m (-2 * m) = -32767 := by
    unfold toInt16Raw
    have : (32767 : ℚ) * (-2 * m) / m * (1 / 2) = ((-32767 : Int) : ℚ) := by
      push_cast
      field_simp
    rw [this, pyInt_intCast]
  rw [← this]
  exact raw_mono hm h1

theorem raw_low {m v : ℚ} (hm : 0 < m) (h : -(65538 / 32767) * m < v) :
    -32768 ≤ toInt16Raw m v := by
  unfold toInt16Raw pyInt
  have key : (-32769 : ℚ) < 32767 * v / m * (1 / 2) := by
    rw [mul_one_div, lt_div_iff₀ (by norm_num), lt_div_iff₀ hm]
    linarith
  split
  · rename_i h0
    have := Int.floor_nonneg.2 h0
    omega
  · have h3 : (-32769 : Int) < ⌈(32767 * v / m * (1 / 2) : ℚ)⌉ := by
      apply Int.lt_ceil.2
      push_cast
      exact key
    omega

theorem wrap_of_low {m v : ℚ} (hm : 0 < m) (h : v ≤ -(65538 / 32767) * m)
    (hw : wrap16 (toInt16Raw m v) = toInt16Raw m v) : False := by
  have key : toInt16Raw m v ≤ -32769 := by
    have e : toInt16Raw m (-(65538 / 32767) * m) = -32769 := by
      unfold toInt16Raw
      have : (32767 : ℚ) * (-(65538 / 32767) * m) / m * (1 / 2) = ((-32769 : Int) : ℚ) := by
        push_cast
        field_simp
        norm_num
      rw [this, pyInt_intCast]
    rw [← e]
    exact raw_mono hm h
  unfold wrap16 at hw
  omega

/-! ## clamp -/

theorem fwClamp_bounds (u : ℚ) : 0 ≤ fwClamp u ∧ fwClamp u ≤ 35 := by
  unfold fwClamp
  by_cases h : u < 0
  · simp only [if_pos h]
    norm_num
  · simp only [if_neg h]
    rw [not_lt] at h
    by_cases h2 : u > 35
    · simp [h2]
    · simp only [if_neg h2]
      exact ⟨h, not_lt.1 h2⟩

theorem fwClamp_id (v : ℚ) (h1 : 0 ≤ v) (h2 : v ≤ 35) : fwClamp v = v := by
  unfold fwClamp
  simp [not_lt.2 h1, not_lt.2 h2]

theorem sum_bounds (l : List ℚ) (h : ∀ v ∈ l, 0 ≤ v ∧ v ≤ 35) :
    0 ≤ l.sum ∧ l.sum ≤ 35 * l.length := by
  induction l with
  | nil => simp
  | cons x r ih =>
    obtain ⟨a, b⟩ := ih fun v hv => h v (by simp [hv])
    obtain ⟨c, d⟩ := h x (by simp)
    rw [List.sum_cons, List.length_cons]
    push_cast
    constructor <;> linarith

/-! ## dynamic metrics -/

theorem dynStart_eq (N : Nat) (ovlp : ℚ) (h1 : ovlp < 1) (c : Nat) :
    dynStart N ovlp c = ⌊(c : ℚ) * N * (1 - ovlp)⌋ := by
  unfold dynStart pyInt
  rw [if_pos]
  have : 0 ≤ 1 - ovlp := by linarith
  positivity

theorem dynNChunks_nonneg (L N : Nat) (ovlp : ℚ) (h1 : ovlp < 1) : 0 ≤ dynNChunks L N ovlp := by
  unfold dynNChunks
  apply Int.floor_nonneg.2
  have : 0 ≤ 1 - ovlp := by linarith
  positivity

theorem dynStart_mono (N : Nat) (ovlp : ℚ) (h1 : ovlp < 1) {c d : Nat} (h : c ≤ d) :
    dynStart N ovlp c ≤ dynStart N ovlp d := by
  rw [dynStart_eq N ovlp h1, dynStart_eq N ovlp h1]
  apply Int.floor_le_floor
  have h3 : 0 ≤ 1 - ovlp := by linarith
  gcongr

theorem dyn_count (L N : Nat) (ovlp : ℚ) (hN : 0 < N) (h1 : ovlp < 1) :
    ∃ n : Nat, ∀ c : Nat, c < n ↔ dynStart N ovlp c + N ≤ L := by
  have hpos : (0 : ℚ) < N * (1 - ovlp) := by
    have : (0 : ℚ) < N := by exact_mod_cast hN
    have : 0 < 1 - ovlp := by linarith
    positivity
  have hex : ∃ c : Nat, ¬ (dynStart N ovlp c + N ≤ L) := by
    obtain ⟨c, hc⟩ := exists_nat_gt ((L : ℚ) / (N * (1 - ovlp)))
    refine ⟨c, ?_⟩
    rw [div_lt_iff₀ hpos] at hc
    rw [dynStart_eq N ovlp h1]
    have : (L : Int) ≤ ⌊(c : ℚ) * N * (1 - ovlp)⌋ := by
      apply Int.le_floor.2
      push_cast
      linarith
    omega
  classical
  refine ⟨Nat.find hex, fun c => ?_⟩
  constructor
  · intro h
    by_contra hc
    exact Nat.find_min hex h hc
  · intro h
    by_contra hc
    rw [not_lt] at hc
    have := Nat.find_spec hex
    have := dynStart_mono N ovlp h1 hc
    omega

theorem dyn_bound {L N : Nat} {ovlp : ℚ} (hN : 0 < N) (h0 : 0 ≤ ovlp) (h1 : ovlp < 1)
    (hov : ovlp = 0 ∨ 1 ≤ N * ovlp) {c : Nat} (h : dynStart N ovlp c + N ≤ L) :
    (c : Int) + 1 ≤ dynNChunks L N ovlp := by
  have hpos : (0 : ℚ) < N * (1 - ovlp) := by
    have : (0 : ℚ) < N := by exact_mod_cast hN
    have : 0 < 1 - ovlp := by linarith
    positivity
  unfold dynNChunks
  apply Int.le_floor.2
  rw [le_div_iff₀ hpos]
  push_cast
  have hq : ((dynStart N ovlp c : Int) : ℚ) + N ≤ L := by exact_mod_cast h
  rcases hov with h' | h'
  · subst h'
    have e : dynStart N 0 c = ((c * N : Nat) : Int) := by
      rw [dynStart_eq N 0 (by norm_num)]
      have : (c : ℚ) * N * (1 - 0) = ((c * N : Nat) : ℚ) := by push_cast; ring
      rw [this, Int.floor_natCast]
    rw [e] at hq
    push_cast at hq
    linarith
  · have hfl : (c : ℚ) * N * (1 - ovlp) < dynStart N ovlp c + 1 := by
      rw [dynStart_eq N ovlp h1]
      exact Int.lt_floor_add_one _
    nlinarith

theorem dynLoop_eq {M : Type} {L N : Nat} {ovlp : ℚ} {f : Int → Int → M} {n : Nat}
    (hn : ∀ c : Nat, c < n ↔ dynStart N ovlp c + N ≤ L)
    (hb : ∀ c, c < n → (c : Int) + 1 ≤ dynNChunks L N ovlp) (fuel c : Nat) (acc : List M)
    (hc : c ≤ n) (hf : n - c < fuel) :
    dynLoop L N ovlp f fuel c acc = some (.ok (acc ++
      (List.range' c (n - c)).map fun c => f (dynStart N ovlp c) (dynStart N ovlp c + N))) := by
  induction fuel generalizing c acc with
  | zero => omega
  | succ fuel ih =>
    rw [dynLoop]
    by_cases hlt : c < n
    · have h1 := (hn c).1 hlt
      have h2 := hb c hlt
      rw [if_neg (by omega), if_neg (by omega), if_neg (by push_cast; omega),
        ih (c + 1) _ (by omega) (by omega)]
      have e : n - c = (n - (c + 1)) + 1 := by omega
      rw [e, List.range'_succ]
      simp
    · have h1 : ¬ (dynStart N ovlp c + N ≤ L) := fun h => hlt ((hn c).2 h)
      rw [if_pos (by omega)]
      have e : n - c = 0 := by omega
      rw [e]
      simp

theorem dynStart_step (N : Nat) (ovlp : ℚ) (h0 : 0 ≤ ovlp) (h1 : ovlp < 1) (c : Nat) :
    dynStart N ovlp c ≤ dynStart N ovlp (c + 1) ∧
      dynStart N ovlp (c + 1) ≤ dynStart N ovlp c + N := by
  refine ⟨dynStart_mono N ovlp h1 (by omega), ?_⟩
  rw [dynStart_eq N ovlp h1, dynStart_eq N ovlp h1]
  have e : (⌊(c : ℚ) * N * (1 - ovlp)⌋ : Int) + N = ⌊(c : ℚ) * N * (1 - ovlp) + N⌋ := by
    rw [Int.floor_add_natCast]
  rw [e]
  apply Int.floor_le_floor
  push_cast
  have : 0 ≤ (N : ℚ) := by positivity
  nlinarith

theorem dynStart_zero (N c : Nat) : dynStart N 0 c = ((c * N : Nat) : Int) := by
  rw [dynStart_eq N 0 (by norm_num)]
  have : (c : ℚ) * N * (1 - 0) = ((c * N : Nat) : ℚ) := by push_cast; ring
  rw [this, Int.floor_natCast]

theorem dynNChunks_zero (L N : Nat) : dynNChunks L N 0 = ((L / N : Nat) : Int) := by
  unfold dynNChunks
  rw [sub_zero, mul_one]
  exact Rat.floor_intCast_div_natCast L N

theorem dynStart_half (h c : Nat) : dynStart (2 * h) (1 / 2) c = ((c * h : Nat) : Int) := by
  rw [dynStart_eq _ _ (by norm_num)]
  have : (c : ℚ) * (2 * h : Nat) * (1 - 1 / 2) = ((c * h : Nat) : ℚ) := by push_cast; ring
  rw [this, Int.floor_natCast]

theorem dynNChunks_half (h k : Nat) (hh : 0 < h) :
    dynNChunks ((k + 2) * h) (2 * h) (1 / 2) = ((k + 2 : Nat) : Int) := by
  unfold dynNChunks
  have hq : (h : ℚ) ≠ 0 := by exact_mod_cast (by omega : h ≠ 0)
  have : (((k + 2) * h : Nat) : ℚ) / ((2 * h : Nat) * (1 - 1 / 2)) = ((k + 2 : Nat) : ℚ) := by
    push_cast
    field_simp
    norm_num
  rw [this, Int.floor_natCast]

/-! ## SNR -/

theorem maskSel_replicate {α : Type} (x : List α) :
    maskSel x (List.replicate x.length true) = x := by
  unfold maskSel
  induction x with
  | nil => rfl
  | cons a r ih =>
    rw [List.length_cons, List.replicate_succ, List.zip_cons_cons]
    simp only [List.filter_cons, if_true, List.map_cons]
    rw [ih]

theorem maskSel_true {α : Type} (n : Nat) (v : α) :
    maskSel (List.replicate n v) (List.replicate n true) = List.replicate n v := by
  have := maskSel_replicate (List.replicate n v)
  rwa [List.length_replicate] at this

theorem snr_bypass (s n : List ℝ) (vad : List Bool) (h : s.length = n.length) :
    getSnr s n (some vad) true = 10 * Real.logb 10 (avgPow s / avgPow n) := by
  unfold getSnr
  simp only
  rw [maskSel_replicate, h, maskSel_replicate]

theorem pySlice_length_congr {α β : Type} {x : List α} {y : List β} (h : x.length = y.length)
    (a b : Int) : (pySlice x a b).length = (pySlice y a b).length := by
  unfold pySlice
  simp [h]

theorem pySlice_map {α β : Type} (g : α → β) (x : List α) (a b : Int) :
    pySlice (x.map g) a b = (pySlice x a b).map g := by
  unfold pySlice
  simp [List.map_take, List.map_drop]

theorem avgPow_gain (g : ℝ) (x : List ℝ) : avgPow (x.map (g * ·)) = g ^ 2 * avgPow x := by
  unfold avgPow
  rw [List.map_map, List.length_map, mul_div_assoc']
  congr 1
  induction x with
  | nil => simp
  | cons a r ih =>
    rw [List.map_cons, List.sum_cons, ih, List.map_cons, List.sum_cons, mul_add]
    simp only [Function.comp, sq_abs]
    ring

end Danse
