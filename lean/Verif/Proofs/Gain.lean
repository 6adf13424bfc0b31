import Verif.Spec.Gain
import Verif.Proofs.Scale3

/-!
# Helper lemmas for C125: channels with gains, filters that make up for them
-/

set_option linter.unusedSectionVars false

namespace Danse
section
variable {α β γ δ : Type}

theorem mapM_mapIdx_comm {k : α → Except PyErr γ} {k' : β → Except PyErr δ} (l : List α)
    {f : Nat → α → β} {g : Nat → γ → δ} (h : ∀ i u, k' (f i u) = (k u).map (g i)) :
    (l.mapIdx f).mapM k' = (l.mapM k).map (List.mapIdx g) := by
  induction l generalizing f g with
  | nil => simp [pure, Except.pure, Except.map]
  | cons x l ih =>
    simp only [List.mapIdx_cons, List.mapM_cons]
    rw [h, ih (f := fun i => f (i + 1)) (g := fun i => g (i + 1)) (fun i u => h (i + 1) u)]
    refine map_bind_comm fun u => ?_
    refine map_bind_comm fun v => ?_
    simp [pure, Except.pure, Except.map]

theorem zip_mapIdx (f : Nat → α → γ) (g : Nat → β → δ) (x : List α) (y : List β) :
    (x.mapIdx f).zip (y.mapIdx g) = (x.zip y).mapIdx fun i p => (f i p.1, g i p.2) := by
  induction x generalizing f g y with
  | nil => simp
  | cons a x ih =>
    cases y with
    | nil => simp
    | cons b y =>
      simp only [List.mapIdx_cons, List.zip_cons_cons]
      rw [ih (fun i => f (i + 1)) (fun i => g (i + 1))]

end

section
variable {K : Type} [Field K]

theorem gained_eq (g : Nat → K) (x : List (List K)) : gained g x = x.mapIdx fun c ch => scaled (g c) ch := rfl

theorem gained_length (g : Nat → K) (x : List (List K)) : (gained g x).length = x.length := by simp [gained]

theorem gained_getD (g : Nat → K) (x : List (List K)) (i : Nat) :
    (gained g x).getD i [] = scaled (g i) (x.getD i []) := by
  simp only [gained_eq, List.getD_eq_getElem?_getD, List.getElem?_mapIdx]
  cases x[i]? <;> rfl

theorem gained_const (a : K) (x : List (List K)) : gained (fun _ => a) x = scaledM a x := by
  rw [gained_eq, scaledM, List.mapIdx_eq_zipIdx_map]
  conv_rhs => rw [← List.zipIdx_map_fst 0 x, List.map_map]
  rfl

theorem gained_take (g : Nat → K) (n : Nat) (x : List (List K)) : (gained g x).take n = gained g (x.take n) := by
  apply List.ext_getElem?
  intro i
  simp only [gained, List.getElem?_take, List.getElem?_mapIdx]
  split_ifs <;> rfl

theorem gained_append (g g' : Nat → K) (x y : List (List K)) :
    gained g x ++ gained g' y = gained (fun c => if c < x.length then g c else g' (c - x.length)) (x ++ y) := by
  simp only [gained_eq, List.mapIdx_append]
  congr 1
  · apply List.ext_getElem?
    intro i
    simp only [List.getElem?_mapIdx]
    by_cases h : i < x.length
    · simp [h]
    · rw [List.getElem?_eq_none (by omega)]; rfl
  · congr 1
    funext i ch
    simp

theorem gained_congr {g g' : Nat → K} {x : List (List K)} (h : ∀ c < x.length, g c = g' c) : gained g x = gained g' x := by
  apply List.ext_getElem?
  intro i
  simp only [gained, List.getElem?_mapIdx]
  by_cases hi : i < x.length
  · rw [h i hi]
  · rw [List.getElem?_eq_none (by omega)]; rfl

theorem gained_map {f : List K → List K} (h : ∀ a x, f (scaled a x) = scaled a (f x)) (g : Nat → K)
    (x : List (List K)) : (gained g x).map f = gained g (x.map f) := by
  apply List.ext_getElem?
  intro i
  simp only [gained_eq, List.getElem?_map, List.getElem?_mapIdx]
  cases x[i]? <;> simp [h]

theorem scaled_one (x : List K) : scaled 1 x = x := by simp [scaled]

theorem scaled_scaled (a b : K) (x : List K) : scaled a (scaled b x) = scaled (a * b) x := by
  simp [scaled, mul_assoc, Function.comp_def]

theorem scaled_of_zero {a : K} {x : List K} (h : ∀ v ∈ x, v = 0) : scaled a x = x := by
  unfold scaled
  conv_rhs => rw [← List.map_id x]
  exact List.map_congr_left fun v hv => by simp [h v hv]

theorem gained_selects {g : Nat → K} {r : Nat} {w : List (List K)} (h : Selects r w) (hr : g r = 1) :
    gained g w = w := by
  apply List.ext_getElem?
  intro i
  simp only [gained_eq, List.getElem?_mapIdx]
  cases hi : w[i]? with
  | none => rfl
  | some ch =>
    simp only [Option.map_some, Option.some.injEq]
    by_cases e : i = r
    · subst e; rw [hr, scaled_one]
    · refine scaled_of_zero fun v hv => h i e v ?_
      rw [List.getD_eq_getElem?_getD, hi]
      exact hv

theorem scaled_zipWith_right (a : K) (x w : List K) :
    List.zipWith (· * ·) x (scaled a w) = scaled a (List.zipWith (· * ·) x w) := by
  simp only [scaled, List.zipWith_map_right, List.map_zipWith]
  congr 1
  funext u v
  ring

variable [StarRing K] {ρ : K} {f g : Nat → K}

theorem gained_combine (nf : Nat) (hf : ∀ c, star (f c) = f c) (hfg : ∀ c, f c * g c = ρ) (w y : List (List K)) :
    combine nf (gained f w) (gained g y) = scaled ρ (combine nf w y) := by
  unfold combine
  refine scaled_range ρ nf _ _ fun k => ?_
  rw [← scaled_sum]
  congr 1
  rw [gained_eq, gained_eq, zip_mapIdx]
  apply List.ext_getElem?
  intro i
  simp only [scaled, List.getElem?_map, List.getElem?_mapIdx]
  cases (w.zip y)[i]? with
  | none => rfl
  | some p =>
    simp only [Option.map_some, Option.some.injEq]
    have h1 := scaled_at0 (f i) p.1 k
    have h2 := scaled_at0 (g i) p.2 k
    unfold scaled at h1 h2
    rw [h1, h2, star_mul, hf, ← hfg i]
    ring

theorem scaled_extractConv_left (a : K) (ids : List Int) (w x : List K) :
    extractConv ids (scaled a w) x = (extractConv ids w x).map (scaled a) := by
  unfold extractConv
  simp only [scaled_length]
  have hr : (scaled a w).reverse = scaled a w.reverse := by simp [scaled]
  have h2 := mapM_map_comm (f := (id : Int → Int)) (g := (a * ·))
    (k := fun id => if (pySlice (List.replicate w.length 0 ++ x ++ List.replicate w.length 0) (id + 1)
        (id + 1 + w.length)).length ≠ w.length then Except.error PyErr.valueError
      else .ok (List.zipWith (· * ·) (pySlice (List.replicate w.length 0 ++ x ++ List.replicate w.length 0) (id + 1)
        (id + 1 + w.length)) w.reverse).sum)
    (k' := fun id => if (pySlice (List.replicate w.length 0 ++ x ++ List.replicate w.length 0) (id + 1)
        (id + 1 + w.length)).length ≠ w.length then Except.error PyErr.valueError
      else .ok (List.zipWith (· * ·) (pySlice (List.replicate w.length 0 ++ x ++ List.replicate w.length 0)
        (id + 1) (id + 1 + w.length)) (scaled a w).reverse).sum) (fun i => by
      dsimp only [id]
      split_ifs
      · rfl
      · rw [hr, scaled_zipWith_right, scaled_sum]; rfl) ids
  rw [List.map_id] at h2
  exact h2

theorem map_map_scaled (a b : K) (x : Except PyErr (List K)) :
    (x.map (scaled b)).map (scaled a) = x.map (scaled (a * b)) := by
  cases x with
  | error e => rfl
  | ok v => exact congrArg Except.ok (scaled_scaled a b v)

theorem gained_convs (hfg : ∀ c, f c * g c = ρ) (ids : List Int) (wIR y : List (List K)) :
    (((gained f wIR).zip (gained g y)).mapM fun p => extractConv ids p.1 p.2) =
      ((wIR.zip y).mapM fun p => extractConv ids p.1 p.2).map (scaledM ρ) := by
  rw [gained_eq, gained_eq, zip_mapIdx]
  have := mapM_mapIdx_comm (k := fun p : List K × List K => extractConv ids p.1 p.2)
    (k' := fun p : List K × List K => extractConv ids p.1 p.2) (wIR.zip y)
    (f := fun i p => (scaled (f i) p.1, scaled (g i) p.2)) (g := fun _ => scaled ρ) (fun i p => by
      simp only
      rw [scaled_extractConv_left, scaled_extractConv, map_map_scaled, hfg])
  rw [this]
  congr 1
  funext l
  exact gained_const ρ l

theorem gained_fewSamples (hfg : ∀ c, f c * g c = ρ) (L P : Nat) (wIR y : List (List K)) :
    fewSamples L P (gained f wIR) (gained g y) = (fewSamples L P wIR y).map (scaled ρ) := by
  unfold fewSamples
  rw [gained_convs hfg]
  exact map_bind_comm fun r => congrArg Except.ok (scaled_sumChannels L r)

theorem gained_desiredConv (hfg : ∀ c, f c * g c = ρ) (L P : Nat) (wIR y : List (List K)) :
    desiredConv L P (gained f wIR) (gained g y) = (desiredConv L P wIR y).map (scaled ρ) := by
  unfold desiredConv
  rw [gained_convs hfg]
  exact map_bind_comm fun r => congrArg Except.ok (scaled_sumChannels L r)

theorem scaled_distFctTD (a : K) (n : Nat) (w h f : List K) (R : K) :
    distFctTD n (scaled a w) h f R = scaled a (distFctTD n w h f R) := by
  unfold distFctTD
  refine scaled_range a _ _ _ fun p => ?_
  rw [← mul_div_assoc, Finset.mul_sum]
  congr 1
  refine Finset.sum_congr rfl fun i _ => ?_
  split_ifs
  · have : circFlip n (scaled a w) i (i + p - (n - 1)) = a * circFlip n w i (i + p - (n - 1)) := by
      unfold circFlip
      rw [show (scaled a w).reverse = scaled a w.reverse by simp [scaled], scaled_at0]
    rw [this]; ring
  · simp

theorem gained_distFct (hf : ∀ c, star (f c) = f c) (ζ : K) (n : Nat) (w : List (List K)) (h h' : List K) (R : K) :
    distFct ζ n (gained f w) h h' R = (distFct ζ n w h h' R).map (gained f) := by
  unfold distFct
  rw [gained_eq]
  refine (mapM_mapIdx_comm (k := fun w => backToTD ζ n (w.map star) >>= fun wTD => .ok (distFctTD n wTD h h' R))
    (g := fun i => scaled (f i)) w fun i u => ?_).trans ?_
  · have e : (scaled (f i) u).map star = scaled (f i) (u.map star) := by
      simp only [scaled, List.map_map]
      refine List.map_congr_left fun v _ => ?_
      simp only [Function.comp, star_mul, hf]
      ring
    rw [e, scaled_backToTD (hf i)]
    exact map_bind_comm fun v => congrArg Except.ok (scaled_distFctTD _ _ _ _ _ _)
  · rfl

theorem gained_desiredFrame (hf : ∀ c, star (f c) = f c) (hρ : star ρ = ρ) (hfg : ∀ c, f c * g c = ρ) (ζ : K) (N : Nat)
    (c : K) (win : List K) (w y : List (List K)) :
    desiredFrame ζ N c win (gained f w) (gained g y) = (desiredFrame ζ N c win w y).map (scaled ρ) := by
  unfold desiredFrame
  rw [gained_combine _ hf hfg, scaled_backToTD hρ]
  refine map_bind_comm fun z => ?_
  change Except.ok _ = Except.ok _
  congr 1
  simp only [scaled, List.zipWith_map_right, List.map_zipWith]
  congr 1
  funext u v
  ring

theorem gained_analysisM (ζ : K) (N : Nat) (c : K) (h : List K) (x : List (List K)) :
    (gained g x).map (analysis ζ N c h) = gained g (x.map (analysis ζ N c h)) :=
  gained_map (fun a x => scaled_analysis a ζ N c h x) g x

variable [DecidableEq K]

theorem gained_wholeChunk (hf : ∀ c, star (f c) = f c) (hρ : star ρ = ρ) (h0 : ρ ≠ 0) (hfg : ∀ c, f c * g c = ρ) (ζ : K)
    (N Ns : Nat) (c : K) (h h' : List K) (y w : List (List K)) (prev : List K) :
    wholeChunk ζ N Ns c h h' (gained g y) (gained f w) (scaled ρ prev) =
      (wholeChunk ζ N Ns c h h' y w prev).map (scaled ρ) := by
  unfold wholeChunk
  simp only
  rw [gained_analysisM, gained_combine _ hf hfg, scaled_backToTD hρ]
  refine map_bind_comm fun z => ?_
  rw [← scaled_overlapAdd h0]
  congr 1
  rw [← scaled_zipWith_left]
  congr 1
  simp only [scaled, List.map_map]
  exact List.map_congr_left fun v _ => by simp only [Function.comp]; ring

end
end Danse
