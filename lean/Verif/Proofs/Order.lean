import Verif.Spec.Order
import Verif.Proofs.Gain3

/-!
# Helper lemmas for C143: lists in another order
-/

set_option linter.unusedSectionVars false

namespace Danse

/-- The permutation maps the first `n` numbers to themselves. -/
def Stable (σ : Equiv.Perm Nat) (n : Nat) : Prop := ∀ c, σ c < n ↔ c < n

section
variable {α β : Type} [Inhabited α] [Inhabited β] {σ : Equiv.Perm Nat}

theorem SensorOrder.stable {M : Nat → Nat} {ref : Nat} {σ : Nat → Equiv.Perm Nat} (h : SensorOrder M ref σ) {k n : Nat}
    (hn : M k ≤ n) : Stable (σ k) n := by
  intro c
  by_cases hc : c < M k
  · refine ⟨fun _ => by omega, fun _ => ?_⟩
    by_contra hx
    have h1 := h.fix k (σ k c) (by omega)
    have := (σ k).injective h1
    omega
  · rw [h.fix k c (by omega)]

theorem reordered_length (σ : Equiv.Perm Nat) (x : List α) : (reordered σ x).length = x.length := by simp [reordered]

theorem reordered_get {x : List α} (h : Stable σ x.length) (c : Nat) : (reordered σ x)[c]? = x[σ c]? := by
  unfold reordered
  rw [List.getElem?_map]
  by_cases hc : c < x.length
  · rw [List.getElem?_range hc]
    simp only [Option.map_some, List.getD_eq_getElem?_getD]
    rw [List.getElem?_eq_getElem ((h c).2 hc)]
    rfl
  · rw [List.getElem?_eq_none (by simpa using hc), List.getElem?_eq_none (by have := h c; omega)]
    rfl

theorem reordered_perm {x : List α} (h : Stable σ x.length) : (reordered σ x).Perm x := by
  have h1 : ((List.range x.length).map σ).Perm (List.range x.length) := by
    refine (List.perm_ext_iff_of_nodup ?_ List.nodup_range).mpr fun c => ?_
    · exact List.Nodup.map σ.injective List.nodup_range
    · simp only [List.mem_map, List.mem_range]
      constructor
      · rintro ⟨a, ha, rfl⟩
        exact (h a).2 ha
      · intro hc
        refine ⟨σ.symm c, (h _).1 (by simpa using hc), by simp⟩
  have h2 := h1.map (fun c => x.getD c default)
  rw [List.map_map] at h2
  refine List.Perm.trans ?_ (List.Perm.trans h2 ?_)
  · exact List.Perm.refl _
  · apply List.Perm.of_eq
    apply List.ext_getElem?
    intro i
    rw [List.getElem?_map]
    by_cases hc : i < x.length
    · rw [List.getElem?_range hc]
      simp only [Option.map_some, List.getD_eq_getElem?_getD]
      rw [List.getElem?_eq_getElem hc]
      rfl
    · rw [List.getElem?_eq_none (by simpa using hc), List.getElem?_eq_none (by omega)]
      rfl

theorem reordered_map {x : List α} (h : Stable σ x.length) (f : α → β) : (reordered σ x).map f = reordered σ (x.map f) := by
  apply List.ext_getElem?
  intro i
  rw [List.getElem?_map, reordered_get h, reordered_get (by rw [List.length_map]; exact h), List.getElem?_map]

theorem reordered_zip {x : List α} {y : List β} {M : Nat} (h : ∀ n, M ≤ n → Stable σ n) (hx : M ≤ x.length) (hy : M ≤ y.length) :
    (reordered σ x).zip (reordered σ y) = reordered σ (x.zip y) := by
  apply List.ext_getElem?
  intro i
  rw [reordered_get (h _ (by simp only [List.length_zip]; omega))]
  unfold List.zip
  rw [List.getElem?_zipWith, List.getElem?_zipWith, reordered_get (h _ hx), reordered_get (h _ hy)]

theorem reordered_append {x z : List α} (hs : ∀ n, x.length ≤ n → Stable σ n) (hf : ∀ c, x.length ≤ c → σ c = c) :
    reordered σ x ++ z = reordered σ (x ++ z) := by
  apply List.ext_getElem?
  intro i
  rw [reordered_get (hs _ (by simp))]
  by_cases hi : i < x.length
  · rw [List.getElem?_append_left (by rw [reordered_length]; exact hi), reordered_get (hs _ le_rfl),
      List.getElem?_append_left ((hs _ le_rfl i).2 hi)]
  · rw [List.getElem?_append_right (by rw [reordered_length]; omega), hf i (by omega), reordered_length,
      List.getElem?_append_right (by omega)]

theorem reordered_take {x : List α} {M : Nat} (hs : ∀ n, M ≤ n → Stable σ n) (hx : M ≤ x.length) :
    (reordered σ x).take M = reordered σ (x.take M) := by
  apply List.ext_getElem?
  intro i
  rw [reordered_get (hs _ (by rw [List.length_take]; omega)), List.getElem?_take, List.getElem?_take, reordered_get (hs _ hx)]
  have := hs M le_rfl i
  by_cases hi : i < M
  · rw [if_pos hi, if_pos (this.2 hi)]
  · rw [if_neg hi, if_neg (fun h => hi (this.1 h))]

theorem mapM_of_get {q : α → Except PyErr β} {x : List α} {y : List β} (hl : y.length = x.length)
    (h : ∀ (i : Nat) a, x[i]? = some a → ∃ b, y[i]? = some b ∧ q a = .ok b) : x.mapM q = .ok y := by
  induction x generalizing y with
  | nil => rw [List.length_eq_zero_iff.mp hl]; rfl
  | cons a x ih =>
    cases y with
    | nil => simp at hl
    | cons b y =>
      obtain ⟨b', hb, hq⟩ := h 0 a rfl
      simp at hb
      subst hb
      rw [List.mapM_cons, hq, ih (by simpa using hl) (fun i a ha => by
        obtain ⟨c, hc, hq⟩ := h (i + 1) a (by simpa using ha)
        exact ⟨c, by simpa using hc, hq⟩)]
      rfl

/-- The only exception is `e`. -/
def OneErr (q : α → Except PyErr β) (e : PyErr) : Prop := ∀ u e', q u = .error e' → e' = e

omit [Inhabited α] [Inhabited β] in
theorem OneErr.mapM {q : α → Except PyErr β} {e : PyErr} (hq : OneErr q e) : OneErr (fun l : List α => l.mapM q) e := by
  intro l
  induction l with
  | nil => intro e' h; cases h
  | cons a l ih =>
    intro e' h
    simp only [List.mapM_cons] at h
    cases ha : q a with
    | error e1 => rw [ha] at h; injection h with h; rw [← h]; exact hq a e1 ha
    | ok b =>
      rw [ha] at h
      cases hl : l.mapM q with
      | error e2 => 
        simp only [hl] at h
        injection h with h; rw [← h]; exact ih e2 hl
      | ok r => simp only [hl] at h; cases h

theorem reordered_mapM {q : α → Except PyErr β} {e : PyErr} (hq : OneErr q e) {x : List α} (h : Stable σ x.length) :
    (reordered σ x).mapM q = (x.mapM q).map (reordered σ) := by
  cases hx : x.mapM q with
  | ok y =>
    obtain ⟨h1, h2⟩ := mapM_get hx
    have hs : Stable σ y.length := by rw [h1]; exact h
    refine mapM_of_get (by rw [reordered_length, reordered_length, h1]) fun i a ha => ?_
    rw [reordered_get h] at ha
    rw [reordered_get hs]
    exact h2 _ _ ha
  | error e1 =>
    cases hy : (reordered σ x).mapM q with
    | error e2 => 
      rw [hq.mapM _ _ hx, hq.mapM _ _ hy]
      rfl
    | ok y =>
      obtain ⟨h1, h2⟩ := mapM_get hy
      have : ∃ y, x.mapM q = .ok y := by
        have hs : Stable σ y.length := by rw [h1, reordered_length]; exact h
        have hs' : Stable σ.symm y.length := fun c => by have := hs (σ.symm c); simpa using this.symm
        refine ⟨reordered σ.symm y, mapM_of_get (by rw [reordered_length, h1, reordered_length]) fun i a ha => ?_⟩
        rw [reordered_get hs']
        refine h2 _ _ ?_
        rw [reordered_get h]
        simpa using ha
      obtain ⟨z, hz⟩ := this
      rw [hz] at hx
      cases hx

end

section
variable {K : Type} [Field K] {σ : Equiv.Perm Nat} {M : Nat}

theorem reordered_selector (hr : ∀ n, M ≤ n → Stable σ n) {m ref nf : Nat} (hm : M ≤ m) (h : σ ref = ref) :
    reordered σ (selector m ref nf : List (List K)) = selector m ref nf := by
  have hl : (selector m ref nf : List (List K)).length = m := by simp [selector]
  apply List.ext_getElem?
  intro i
  rw [reordered_get (by rw [hl]; exact hr _ hm)]
  unfold selector
  rw [List.getElem?_map, List.getElem?_map]
  by_cases hi : i < m
  · rw [List.getElem?_range hi, List.getElem?_range ((hr _ hm i).2 hi)]
    simp only [Option.map_some]
    have : (σ i = ref) ↔ i = ref := ⟨fun e => σ.injective (e.trans h.symm), fun e => by rw [e, h]⟩
    simp only [this]
  · rw [List.getElem?_eq_none (l := List.range m) (i := i) (by simpa using hi),
      List.getElem?_eq_none (l := List.range m) (i := σ i) (by rw [List.length_range]; have := hr _ hm i; omega)]

theorem combine_reordered [StarRing K] (hs : ∀ n, M ≤ n → Stable σ n) (nf : Nat) {w y : List (List K)} (hw : M ≤ w.length)
    (hy : M ≤ y.length) : combine nf (reordered σ w) (reordered σ y) = combine nf w y := by
  unfold combine
  refine List.map_congr_left fun k _ => ?_
  rw [reordered_zip hs hw hy]
  exact ((reordered_perm (hs _ (by simp only [List.length_zip]; omega))).map _).sum_eq

theorem sumChannels_perm (L : Nat) {a b : List (List K)} (h : a.Perm b) : sumChannels L a = sumChannels L b := by
  unfold sumChannels
  exact List.map_congr_left fun i _ => (h.map _).sum_eq

theorem extractConv_oneErr (ids : List Int) : OneErr (fun p : List K × List K => extractConv ids p.1 p.2) .valueError := by
  intro p e' h
  unfold extractConv at h
  refine OneErr.mapM (q := fun id => if (pySlice (List.replicate p.1.length 0 ++ p.2 ++ List.replicate p.1.length 0) (id + 1)
      (id + 1 + p.1.length)).length ≠ p.1.length then Except.error PyErr.valueError
      else .ok (List.zipWith (· * ·) (pySlice (List.replicate p.1.length 0 ++ p.2 ++ List.replicate p.1.length 0) (id + 1)
        (id + 1 + p.1.length)) p.1.reverse).sum) ?_ ids e' h
  intro u e1 h1
  simp only at h1
  split_ifs at h1
  injection h1 with h1
  exact h1.symm

theorem convs_reordered (hs : ∀ n, M ≤ n → Stable σ n) (ids : List Int) (L : Nat) {w y : List (List K)} (hw : M ≤ w.length)
    (hy : M ≤ y.length) :
    (((reordered σ w).zip (reordered σ y)).mapM fun p => extractConv ids p.1 p.2).map (sumChannels L) =
      ((w.zip y).mapM fun p => extractConv ids p.1 p.2).map (sumChannels L) := by
  rw [reordered_zip hs hw hy, reordered_mapM (extractConv_oneErr ids) (hs _ (by simp only [List.length_zip]; omega))]
  cases hx : (w.zip y).mapM (fun p => extractConv ids p.1 p.2) with
  | error e => rfl
  | ok l =>
    have := (mapM_get hx).1
    change Except.ok _ = Except.ok _
    rw [sumChannels_perm L (reordered_perm (hs _ (by rw [this, List.length_zip]; omega)))]

theorem fewSamples_reordered (hs : ∀ n, M ≤ n → Stable σ n) (L P : Nat) {w y : List (List K)} (hw : M ≤ w.length)
    (hy : M ≤ y.length) : fewSamples L P (reordered σ w) (reordered σ y) = fewSamples L P w y :=
  convs_reordered hs _ L hw hy

theorem desiredConv_reordered (hs : ∀ n, M ≤ n → Stable σ n) (L P : Nat) {w y : List (List K)} (hw : M ≤ w.length)
    (hy : M ≤ y.length) : desiredConv L P (reordered σ w) (reordered σ y) = desiredConv L P w y :=
  convs_reordered hs _ L hw hy

theorem distFct_reordered [StarRing K] (ζ : K) (n : Nat) {w : List (List K)} (hw : Stable σ w.length) (h f : List K) (R : K) :
    distFct ζ n (reordered σ w) h f R = (distFct ζ n w h f R).map (reordered σ) := by
  unfold distFct
  refine reordered_mapM (e := .valueError) (fun u e' he => ?_) hw
  simp only [backToTD] at he
  split_ifs at he <;> first | (injection he with he; exact he.symm) | cases he

theorem localChunk_oneErr (N : Nat) (e : Int) : OneErr (fun y : List K => localChunk y N e) .valueError := by
  intro y e' h
  simp only [localChunk] at h
  split_ifs at h
  injection h with h
  exact h.symm

theorem chunkForUpdate_oneErr (t fs : ℚ) (b : BcType) (N Ns : Nat) :
    OneErr (fun y : List K => chunkForUpdate y t fs b.name N Ns) .valueError := by
  intro y e' h
  simp only [chunkForUpdate] at h
  cases b with
  | whole => exact localChunk_oneErr _ _ y e' (by simpa [BcType.name] using h)
  | few L eff => exact localChunk_oneErr _ _ y e' (by simpa [BcType.name] using h)

theorem chunkForBroadcast_oneErr (t fs : ℚ) (N : Nat) :
    OneErr (fun y : List K => chunkForBroadcast y t fs N) .valueError := by
  intro y e' h
  exact localChunk_oneErr _ _ y e' h

end
end Danse
