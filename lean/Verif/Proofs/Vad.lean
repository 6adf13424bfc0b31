import Verif.Spec.Vad
import Mathlib.Tactic.Linarith
import Mathlib.Algebra.BigOperators.Fin

/-! # Lemmas on the VAD -/

namespace Danse

theorem pySliceBound_nat (n i : Nat) : pySliceBound n (i : Int) = min i n := by
  unfold pySliceBound
  rw [if_neg (by omega), Int.toNat_natCast]

theorem pySlice_nat {α : Type} (l : List α) (a b : Nat) :
    pySlice l (a : Int) (b : Int) = (l.drop (min a l.length)).take (min b l.length - min a l.length) := by
  simp only [pySlice, pySliceBound_nat]

theorem pySlice_inside {α : Type} (l : List α) {a b : Nat} (hab : a ≤ b) (hb : b ≤ l.length) :
    pySlice l (a : Int) (b : Int) = (l.drop a).take (b - a) := by
  rw [pySlice_nat, Nat.min_eq_left hb, Nat.min_eq_left (hab.trans hb)]

theorem sum_drop_take (l : List ℚ) (f : ℚ → ℚ) (a k : Nat) (h : a + k ≤ l.length) :
    (((l.drop a).take k).map f).sum = ∑ j ∈ Finset.Ico a (a + k), f (smp l j) := by
  induction k with
  | zero => simp
  | succ k ih =>
    have hk : a + k < l.length := by omega
    rw [List.take_add_one, List.map_append, List.sum_append, ih (by omega), ← Nat.add_assoc,
      Finset.sum_Ico_succ_top (by omega), List.getElem?_drop, List.getElem?_eq_getElem hk]
    simp [smp, List.getD, List.getElem?_eq_getElem hk]

theorem length_drop_take {α : Type} (l : List α) (a k : Nat) (h : a + k ≤ l.length) :
    ((l.drop a).take k).length = k := by
  simp; omega

section frame
variable {vad : List ℚ} {N Ns : Nat} {p : ℚ}

/-- Decision of frame `i`. -/
def frameDec (vad : List ℚ) (N Ns : Nat) (p : ℚ) (i : Nat) : Bool :=
  decide (N * p ≤ ∑ j ∈ Finset.Ico (i * Ns) (i * Ns + N), smp vad j)

theorem complete_mono {i j len : Nat} (h : i * Ns + N ≤ len) (hj : j ≤ i) : j * Ns + N ≤ len := by
  have := Nat.mul_le_mul_right Ns hj; omega

theorem frameDec_eq {i : Nat} (h : i * Ns + N ≤ vad.length) :
    decide (((pySlice vad (i * Ns : Nat) (i * Ns + N : Nat)).length : ℚ) * p ≤
      (pySlice vad (i * Ns : Nat) (i * Ns + N : Nat)).sum) = frameDec vad N Ns p i := by
  rw [pySlice_inside vad (by omega) h, Nat.add_sub_cancel_left, length_drop_take _ _ _ h]
  have := sum_drop_take vad id (i * Ns) N h
  rw [List.map_id] at this
  rw [this]
  rfl

theorem vadFrameLoop_get (rem ii : Nat) (arr : List Bool) (hl : arr.length = ii + rem)
    (hc : ∀ i < ii, i * Ns + N ≤ vad.length) (i : Nat) :
    (vadFrameLoop vad N Ns p rem ii arr)[i]? =
      if i < ii then arr[i]? else if ii + rem ≤ i then none
      else if i * Ns + N ≤ vad.length then some (frameDec vad N Ns p i)
      else if i = 0 ∨ (i - 1) * Ns + N ≤ vad.length then arr[i]? else none := by
  induction rem generalizing ii arr with
  | zero =>
    rw [vadFrameLoop]
    by_cases h : i < ii
    · rw [if_pos h]
    · rw [if_neg h, if_pos (by omega), List.getElem?_eq_none (by omega)]
  | succ rem ih =>
    rw [vadFrameLoop]
    by_cases hq : vad.length < ii * Ns + N
    · rw [if_pos hq, List.getElem?_take]
      by_cases h1 : i < ii
      · rw [if_pos (by omega), if_pos h1]
      rw [if_neg h1]
      by_cases h2 : i = ii
      · subst h2
        rw [if_pos (by omega), if_neg (by omega), if_neg (by omega), if_pos]
        rcases Nat.eq_zero_or_pos i with h0 | h0
        · exact Or.inl h0
        · exact Or.inr (hc (i - 1) (by omega))
      · rw [if_neg (by omega)]
        have hn : ¬ (i * Ns + N ≤ vad.length) := fun h => by
          have := complete_mono h (show ii ≤ i by omega); omega
        have hn' : ¬ (i = 0 ∨ (i - 1) * Ns + N ≤ vad.length) := by
          rintro (h | h)
          · omega
          · have := complete_mono h (show ii ≤ i - 1 by omega); omega
        rw [if_neg hn, if_neg hn', ite_self]
    · rw [if_neg hq]
      simp only
      rw [frameDec_eq (by omega), ih (ii + 1) _ (by rw [List.length_set]; omega) (fun j hj => by
        rcases Nat.lt_or_ge j ii with h | h
        · exact hc j h
        · have : j = ii := by omega
          subst this; omega)]
      by_cases h1 : i < ii
      · rw [if_pos (by omega), if_pos h1, List.getElem?_set_ne (by omega)]
      rw [if_neg h1]
      by_cases h2 : i = ii
      · subst h2
        rw [if_pos (by omega), if_neg (by omega), if_pos (by omega), List.getElem?_set_self (by omega)]
      · rw [if_neg (by omega), List.getElem?_set_ne (by omega)]
        have e : (ii + 1 + rem ≤ i) = (ii + (rem + 1) ≤ i) := by
          apply propext; constructor <;> intro h <;> omega
        simp only [e]

theorem vadPerFrame_get {r : List Bool} (h : vadPerFrame vad N Ns p = .ok r) (i : Nat) :
    r[i]? = if vad.length / Ns ≤ i then none
      else if i * Ns + N ≤ vad.length then some (frameDec vad N Ns p i)
      else if i = 0 ∨ (i - 1) * Ns + N ≤ vad.length then some false else none := by
  unfold vadPerFrame at h
  by_cases h1 : vad.length = 0
  · rw [if_pos h1] at h; cases h
  by_cases h2 : Ns = 0
  · rw [if_neg h1, if_pos h2] at h; cases h
  rw [if_neg h1, if_neg h2] at h
  rw [← Except.ok.inj h, vadFrameLoop_get _ _ _ (by simp) (fun i hi => by omega)]
  rw [if_neg (by omega), Nat.zero_add]
  by_cases h3 : vad.length / Ns ≤ i
  · rw [if_pos h3, if_pos h3]
  · rw [if_neg h3, if_neg h3, List.getElem?_replicate, if_pos (by omega : i < vad.length / Ns)]

end frame

theorem oracleVAD_get (x : List ℚ) (tw thrs Fs : ℚ) {i : Nat} (hi : i < x.length) :
    (oracleVAD x tw thrs Fs)[i]? = some (computeVAD
      ((x.drop (i - vadWinLen tw Fs / 2)).take
        (min (i + vadWinLen tw Fs / 2) x.length - (i - vadWinLen tw Fs / 2))) thrs) := by
  unfold oracleVAD
  rw [List.getElem?_map, List.getElem?_range hi, Option.map_some]
  simp only
  generalize vadWinLen tw Fs / 2 = h
  have e1 : max ((i : Int) - (h : Nat)) 0 = ((i - h : Nat) : Int) := by omega
  have e2 : min ((i : Int) + (h : Nat)) x.length = ((min (i + h) x.length : Nat) : Int) := by omega
  rw [e1, e2, pySlice_inside x (by omega) (by omega)]

theorem computeVAD_window (x : List ℚ) (thrs : ℚ) {i h : Nat} (hi : i < x.length) :
    computeVAD ((x.drop (i - h)).take (min (i + h) x.length - (i - h))) thrs = true ↔
      (vadWindow x.length i h).Nonempty ∧
      thrs < (∑ j ∈ vadWindow x.length i h, smp x j ^ 2) / (vadWindow x.length i h).card := by
  have hle : i - h ≤ min (i + h) x.length := by omega
  have hlen := length_drop_take x (i - h) (min (i + h) x.length - (i - h)) (by omega)
  have hsum := sum_drop_take x (fun y => |y| ^ 2) (i - h) (min (i + h) x.length - (i - h)) (by omega)
  have hcard : (vadWindow x.length i h).card = min (i + h) x.length - (i - h) := by
    simp [vadWindow]
  have hico : i - h + (min (i + h) x.length - (i - h)) = min (i + h) x.length := by omega
  rw [hico] at hsum
  unfold computeVAD
  by_cases he : (x.drop (i - h)).take (min (i + h) x.length - (i - h)) = []
  · rw [if_pos he]
    rw [he] at hlen
    constructor
    · intro h; cases h
    · rintro ⟨hn, -⟩
      rw [← Finset.card_pos, hcard, ← hlen] at hn
      simp at hn
  · rw [if_neg he, decide_eq_true_eq, hsum, hlen, hcard]
    have hn : (vadWindow x.length i h).Nonempty := by
      rw [← Finset.card_pos, hcard, ← hlen]
      exact List.length_pos_iff.mpr he
    simp only [sq_abs]
    exact ⟨fun h => ⟨hn, h⟩, fun h => h.2⟩

/-! ## VAD changes -/

theorem mem_vadChanges (vad : List Bool) (i : Nat) :
    i ∈ vadChanges vad ↔ 1 ≤ i ∧ i < vad.length ∧ vad[i]? ≠ vad[i - 1]? := by
  unfold vadChanges
  rw [List.mem_filter, List.mem_range'_1]
  simp only [bne_iff_ne]
  constructor
  · rintro ⟨h1, h2⟩; exact ⟨by omega, by omega, h2⟩
  · rintro ⟨h1, h2, h3⟩; exact ⟨⟨by omega, by omega⟩, h3⟩

theorem vadChanges_sorted (vad : List Bool) : (vadChanges vad).Pairwise (· < ·) :=
  List.Pairwise.filter _ (List.pairwise_lt_range' (s := 1) (n := vad.length - 1) (step := 1) (by omega))

/-- No change means constant. -/
theorem vad_const {vad : List Bool} {a b : Nat} (hb : b ≤ vad.length)
    (h : ∀ i, a < i → i < b → i ∉ vadChanges vad) {m : Nat} (h1 : a ≤ m) (h2 : m < b) :
    vad[m]? = vad[a]? := by
  induction m, h1 using Nat.le_induction with
  | base => rfl
  | succ m hm ih =>
    have hn := h (m + 1) (by omega) h2
    rw [mem_vadChanges] at hn
    have : vad[m + 1]? = vad[m + 1 - 1]? := by
      by_contra hc
      exact hn ⟨by omega, by omega, hc⟩
    rw [this, Nat.add_sub_cancel, ih (by omega)]

theorem sorted_get_lt {l : List Nat} (h : l.Pairwise (· < ·)) {i j : Nat} (hj : j < l.length)
    (hij : i < j) : l[i]'(by omega) < l[j] :=
  List.pairwise_iff_getElem.mp h i j (by omega) hj hij

/-- Nothing between two consecutive entries. -/
theorem sorted_gap {l : List Nat} (h : l.Pairwise (· < ·)) {i : Nat} (hi : i + 1 < l.length) {x : Nat}
    (h1 : l[i] < x) (h2 : x < l[i + 1]) : x ∉ l := by
  intro hx
  obtain ⟨j, hj, rfl⟩ := List.getElem_of_mem hx
  rcases Nat.lt_trichotomy j i with hlt | rfl | hgt
  · have := sorted_get_lt h (by omega : i < l.length) hlt; omega
  · omega
  · rcases Nat.lt_or_ge (i + 1) j with hlt | hge
    · have := sorted_get_lt h hj hlt; omega
    · have : j = i + 1 := by omega
      subst this; omega

theorem vad_before_first {vad : List Bool} {m : Nat} (h0 : 0 < (vadChanges vad).length)
    (hm : m < (vadChanges vad)[0]) : vad[m]? = vad[0]? := by
  have hmem := (mem_vadChanges vad _).mp (List.getElem_mem h0)
  refine vad_const (b := (vadChanges vad)[0]) (by omega) (fun i _ hi hc => ?_) (by omega) hm
  obtain ⟨j, hj, rfl⟩ := List.getElem_of_mem hc
  rcases Nat.eq_zero_or_pos j with rfl | hp
  · omega
  · have := sorted_get_lt (vadChanges_sorted vad) hj hp; omega

theorem vad_between {vad : List Bool} {i m : Nat} (hi : i + 1 < (vadChanges vad).length)
    (h1 : (vadChanges vad)[i] ≤ m) (h2 : m < (vadChanges vad)[i + 1]) :
    vad[m]? = vad[(vadChanges vad)[i]]? := by
  have hmem := (mem_vadChanges vad _).mp (List.getElem_mem hi)
  exact vad_const (by omega) (fun x hx hx' => sorted_gap (vadChanges_sorted vad) hi hx hx') h1 h2

/-- The VAD alternates at its changes. -/
theorem vad_at_change {vad : List Bool} {v0 : Bool} (hv : vad[0]? = some v0) {i : Nat}
    (hi : i < (vadChanges vad).length) :
    vad[(vadChanges vad)[i]]? = some (if i % 2 = 0 then !v0 else v0) ∧
    vad[(vadChanges vad)[i] - 1]? = some (if i % 2 = 0 then v0 else !v0) := by
  induction i with
  | zero =>
    have hmem := (mem_vadChanges vad _).mp (List.getElem_mem hi)
    have hb := vad_before_first (m := (vadChanges vad)[0] - 1) hi (by omega)
    rw [hv] at hb
    refine ⟨?_, by simpa using hb⟩
    have hne := hmem.2.2
    rw [hb, List.getElem?_eq_getElem hmem.2.1] at hne
    rw [List.getElem?_eq_getElem hmem.2.1]
    simp only [ne_eq, Option.some.injEq] at hne
    simp only [Nat.zero_mod, if_true, Option.some.injEq]
    cases v0 <;> simpa using hne
  | succ i ih =>
    have ih := ih (by omega)
    have hmem := (mem_vadChanges vad _).mp (List.getElem_mem hi)
    have hlt := sorted_get_lt (vadChanges_sorted vad) hi (Nat.lt_succ_self i)
    have hb := vad_between (m := (vadChanges vad)[i + 1] - 1) hi (by omega) (by omega)
    rw [ih.1] at hb
    have hpar : (if (i + 1) % 2 = 0 then v0 else !v0) = (if i % 2 = 0 then !v0 else v0) := by
      rcases Nat.mod_two_eq_zero_or_one i with e | e
      · rw [if_pos e, if_neg (by omega : ¬ (i + 1) % 2 = 0)]
      · rw [if_neg (by omega : ¬ i % 2 = 0), if_pos (by omega : (i + 1) % 2 = 0)]
    rw [hpar]
    refine ⟨?_, hb⟩
    have hne := hmem.2.2
    rw [hb, List.getElem?_eq_getElem hmem.2.1] at hne
    rw [List.getElem?_eq_getElem hmem.2.1]
    simp only [ne_eq, Option.some.injEq] at hne ⊢
    rcases Nat.mod_two_eq_zero_or_one i with e | e
    · have e' : (i + 1) % 2 ≠ 0 := by omega
      rw [if_pos e] at hne; rw [if_neg e']; cases v0 <;> simpa using hne
    · have e' : (i + 1) % 2 = 0 := by omega
      have e'' : i % 2 ≠ 0 := by omega
      rw [if_neg e''] at hne; rw [if_pos e']; cases v0 <;> simpa using hne

/-- Pauses are the pairs of consecutive changes of the right parity. -/
theorem pause_iff {vad : List Bool} {v0 : Bool} (hv : vad[0]? = some v0) (i j : Nat) :
    Pause vad i j ↔ ∃ (a : Nat) (h : a + 1 < (vadChanges vad).length),
      a % 2 = (if v0 then 0 else 1) ∧ i = (vadChanges vad)[a] ∧ j = (vadChanges vad)[a + 1] := by
  constructor
  · intro hp
    have hjl : j < vad.length := (List.getElem?_eq_some_iff.mp hp.next).1
    have hic : i ∈ vadChanges vad := by
      rw [mem_vadChanges]
      refine ⟨hp.pos, by have := hp.lt; omega, ?_⟩
      rw [hp.silent i le_rfl hp.lt, hp.before]; simp
    have hjc : j ∈ vadChanges vad := by
      rw [mem_vadChanges]
      refine ⟨by have := hp.lt; omega, hjl, ?_⟩
      rw [hp.next, hp.silent (j - 1) (by have := hp.lt; omega) (by have := hp.lt; omega)]; simp
    obtain ⟨a, ha, ea⟩ := List.getElem_of_mem hic
    obtain ⟨b, hb, eb⟩ := List.getElem_of_mem hjc
    have hlt := hp.lt
    have hs := vadChanges_sorted vad
    have hab : a < b := by
      by_contra hc
      rcases Nat.lt_or_ge b a with h | h
      · have := sorted_get_lt hs ha h; omega
      · have : a = b := by omega
        subst this; omega
    have hb1 : b = a + 1 := by
      by_contra hc
      have h1 : a + 1 < b := by omega
      have h2 := sorted_get_lt hs hb h1
      have h3 := sorted_get_lt hs (by omega : a + 1 < (vadChanges vad).length) (Nat.lt_succ_self a)
      have h4 := (mem_vadChanges vad _).mp
        (List.getElem_mem (by omega : a + 1 < (vadChanges vad).length))
      apply h4.2.2
      rw [hp.silent _ (by omega) (by omega), hp.silent _ (by omega) (by omega)]
    subst hb1
    refine ⟨a, hb, ?_, ea.symm, eb.symm⟩
    have := (vad_at_change hv ha).1
    rw [ea, hp.silent i le_rfl hlt] at this
    rcases Nat.mod_two_eq_zero_or_one a with e | e <;> rw [e] at this ⊢ <;> cases v0 <;> simp_all
  · rintro ⟨a, ha, hpar, rfl, rfl⟩
    have hs := vadChanges_sorted vad
    have hlt := sorted_get_lt hs ha (Nat.lt_succ_self a)
    have hc := vad_at_change hv (i := a) (by omega)
    have hc1 := vad_at_change hv ha
    have hmem := (mem_vadChanges vad _).mp (List.getElem_mem (by omega : a < (vadChanges vad).length))
    have e1 : (if a % 2 = 0 then !v0 else v0) = false := by rw [hpar]; cases v0 <;> rfl
    have e2 : (if a % 2 = 0 then v0 else !v0) = true := by rw [hpar]; cases v0 <;> rfl
    have e3 : (if (a + 1) % 2 = 0 then !v0 else v0) = true := by
      rw [Nat.add_mod, hpar]; cases v0 <;> rfl
    rw [e1, e2] at hc
    rw [e3] at hc1
    exact ⟨hmem.1, hlt, hc.2, fun m h1 h2 => by rw [vad_between ha h1 h2, hc.1], hc1.1⟩

theorem jumpShort_ok {ch : List Nat} {D : ℚ} (idx : Nat) {r : Nat} (h : jumpShort ch D idx = .ok r) :
    ∃ hr : r + 1 < ch.length, idx ≤ r ∧ r % 2 = idx % 2 ∧ D ≤ (ch[r + 1] : ℚ) - ch[r] ∧
      ∀ (a : Nat) (ha : a + 1 < ch.length), idx ≤ a → a < r → a % 2 = idx % 2 →
        (ch[a + 1] : ℚ) - ch[a] < D := by
  induction idx using jumpShort.induct ch D with
  | case1 idx hlt hs ih =>
    rw [jumpShort, dif_pos hlt, if_pos hs] at h
    obtain ⟨hr, h1, h2, h3, h4⟩ := ih h
    refine ⟨hr, by omega, by omega, h3, fun a ha hia har hpar => ?_⟩
    rcases Nat.lt_or_ge a (idx + 2) with hl | hl
    · have : a = idx := by omega
      subst this; exact hs
    · exact h4 a ha hl har (by omega)
  | case2 idx hlt hs =>
    rw [jumpShort, dif_pos hlt, if_neg hs] at h
    cases h
    exact ⟨hlt, le_rfl, rfl, not_lt.mp hs, fun a _ h1 h2 => by omega⟩
  | case3 idx hlt =>
    rw [jumpShort, dif_neg hlt] at h
    cases h

theorem jumpShort_error {ch : List Nat} {D : ℚ} (idx : Nat) {e : PyErr}
    (h : jumpShort ch D idx = .error e) : e = .indexError ∧
      ∀ (a : Nat) (ha : a + 1 < ch.length), idx ≤ a → a % 2 = idx % 2 →
        (ch[a + 1] : ℚ) - ch[a] < D := by
  induction idx using jumpShort.induct ch D with
  | case1 idx hlt hs ih =>
    rw [jumpShort, dif_pos hlt, if_pos hs] at h
    obtain ⟨h1, h4⟩ := ih h
    refine ⟨h1, fun a ha hia hpar => ?_⟩
    rcases Nat.lt_or_ge a (idx + 2) with hl | hl
    · have : a = idx := by omega
      subst this; exact hs
    · exact h4 a ha hl (by omega)
  | case2 idx hlt hs =>
    rw [jumpShort, dif_pos hlt, if_neg hs] at h
    cases h
  | case3 idx hlt =>
    rw [jumpShort, dif_neg hlt] at h
    cases h
    exact ⟨rfl, fun a ha h1 _ => by omega⟩

/-- The pause found by `_jump_over_short_changes`. -/
theorem jumpShort_pause {vad : List Bool} {v0 : Bool} (hv : vad[0]? = some v0) (D : ℚ) :
    (∀ r, jumpShort (vadChanges vad) D (if v0 then 0 else 1) = .ok r →
      ∃ hr : r + 1 < (vadChanges vad).length,
        FirstLongPause vad D (vadChanges vad)[r] (vadChanges vad)[r + 1]) ∧
    (∀ e, jumpShort (vadChanges vad) D (if v0 then 0 else 1) = .error e →
      e = .indexError ∧ ∀ i j, Pause vad i j → (j : ℚ) - i < D) := by
  have hp : ∀ a, a % 2 = (if v0 then 0 else 1) ↔
      (if v0 then 0 else 1) ≤ a ∧ a % 2 = (if v0 then 0 else 1) % 2 := by
    intro a; cases v0 <;> simp <;> omega
  constructor
  · intro r h
    obtain ⟨hr, h1, h2, h3, h4⟩ := jumpShort_ok _ h
    refine ⟨hr, (pause_iff hv _ _).mpr ⟨r, hr, (hp r).mpr ⟨h1, h2⟩, rfl, rfl⟩, h3, ?_⟩
    intro i' j' hpp hlt
    obtain ⟨a, ha, hpar, rfl, rfl⟩ := (pause_iff hv _ _).mp hpp
    have har : a < r := by
      by_contra hc
      rcases Nat.lt_or_ge r a with h | h
      · have := sorted_get_lt (vadChanges_sorted vad) (by omega : a < (vadChanges vad).length) h; omega
      · have : a = r := by omega
        subst this; omega
    have := (hp a).mp hpar
    exact h4 a ha this.1 har this.2
  · intro e h
    obtain ⟨h1, h2⟩ := jumpShort_error _ h
    refine ⟨h1, fun i j hpp => ?_⟩
    obtain ⟨a, ha, hpar, rfl, rfl⟩ := (pause_iff hv _ _).mp hpp
    have := (hp a).mp hpar
    exact h2 a ha this.1 this.2

end Danse
