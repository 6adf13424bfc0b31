import Verif.Spec.Scale
import Verif.Proofs.Given

/-!
# Helper lemmas for C121: every stage of a run commutes with a real factor
-/

set_option linter.unusedSectionVars false

namespace Danse
section
variable {α β γ δ : Type}

theorem map_bind_comm {x : Except PyErr α} {f : α → β} {k : α → Except PyErr γ} {k' : β → Except PyErr δ}
    {g : γ → δ} (h : ∀ u, k' (f u) = (k u).map g) : (x.map f >>= k') = (x >>= k).map g := by
  cases x with
  | error e => rfl
  | ok u => exact h u

theorem mapM_map_comm {f : α → β} {k : α → Except PyErr γ} {k' : β → Except PyErr δ} {g : γ → δ}
    (h : ∀ u, k' (f u) = (k u).map g) (l : List α) :
    (l.map f).mapM k' = (l.mapM k).map (List.map g) := by
  induction l with
  | nil => rfl
  | cons x l ih =>
    simp only [List.map_cons, List.mapM_cons]
    rw [h, ih]
    refine map_bind_comm fun u => ?_
    refine map_bind_comm fun v => ?_
    rfl

theorem foldlM_map_comm {f : α → β} {k : α → δ → Except PyErr α} {k' : β → δ → Except PyErr β}
    (h : ∀ u e, k' (f u) e = (k u e).map f) (l : List δ) (u : α) :
    l.foldlM k' (f u) = (l.foldlM k u).map f := by
  induction l generalizing u with
  | nil => rfl
  | cons e l ih =>
    simp only [List.foldlM_cons]
    rw [h]
    exact map_bind_comm fun v => ih v

theorem same_bind_comm {x : Except PyErr α} {k : α → Except PyErr γ} {k' : α → Except PyErr δ}
    {g : γ → δ} (h : ∀ u, k' u = (k u).map g) : (x >>= k') = (x >>= k).map g := by
  cases x with
  | error e => rfl
  | ok u => exact h u

theorem modify_map_comm {f : α → β} {p : α → α} {q : β → β} (h : ∀ x, q (f x) = f (p x)) (n : Nat) (l : List α) :
    (l.map f).modify n q = (l.modify n p).map f := by
  induction l generalizing n with
  | nil => simp
  | cons x l ih =>
    cases n with
    | zero => simp [h]
    | succ n => simp [ih]

end

section
variable {K : Type} [Field K] (a : K)

theorem scaled_length (x : List K) : (scaled a x).length = x.length := List.length_map _
theorem scaledM_length (x : List (List K)) : (scaledM a x).length = x.length := List.length_map _
theorem scaled_nil : scaled a ([] : List K) = [] := rfl
theorem scaledM_nil : scaledM a ([] : List (List K)) = [] := rfl
theorem scaled_append (x y : List K) : scaled a (x ++ y) = scaled a x ++ scaled a y := List.map_append
theorem scaledM_append (x y : List (List K)) : scaledM a (x ++ y) = scaledM a x ++ scaledM a y := List.map_append
theorem scaled_zeros (n : Nat) : scaled a (List.replicate n 0) = List.replicate n 0 := by simp [scaled]
theorem scaled_getD (x : List (List K)) (i : Nat) : (scaledM a x).getD i [] = scaled a (x.getD i []) := by
  simp only [scaledM, List.getD_eq_getElem?_getD, List.getElem?_map]
  cases x[i]? <;> rfl

theorem scaled_take (n : Nat) (x : List K) : (scaled a x).take n = scaled a (x.take n) := by simp [scaled, List.map_take]
theorem scaled_drop (n : Nat) (x : List K) : (scaled a x).drop n = scaled a (x.drop n) := by simp [scaled, List.map_drop]
theorem scaledM_take (n : Nat) (x : List (List K)) : (scaledM a x).take n = scaledM a (x.take n) := by
  simp [scaledM, List.map_take]

theorem scaled_lastN (n : Nat) (x : List K) : lastN n (scaled a x) = scaled a (lastN n x) := by
  unfold lastN; rw [scaled_length, scaled_drop]

theorem scaled_chunkOf (n : Int) (x : List K) : chunkOf (scaled a x) n = scaled a (chunkOf x n) := by
  unfold chunkOf
  split_ifs
  · exact scaled_lastN a _ _
  · exact scaled_take a _ _
  · rfl

theorem scaled_pySlice (x : List K) (s e : Int) : pySlice (scaled a x) s e = scaled a (pySlice x s e) := by
  unfold pySlice
  simp only [scaled_length, scaled_drop, scaled_take]

theorem scaled_at0 (x : List K) (i : Nat) : at0 (scaled a x) i = a * at0 x i := by
  simp only [at0, scaled, List.getD_eq_getElem?_getD, List.getElem?_map]
  cases x[i]? <;> simp

theorem scaled_sum (x : List K) : (scaled a x).sum = a * x.sum := by
  induction x with
  | nil => simp [scaled]
  | cons v x ih =>
    simp only [scaled, List.map_cons, List.sum_cons, mul_add] at ih ⊢
    rw [ih]

theorem scaled_range (n : Nat) (f g : Nat → K) (h : ∀ i, f i = a * g i) :
    (List.range n).map f = scaled a ((List.range n).map g) := by
  simp only [scaled, List.map_map]
  exact List.map_congr_left fun i _ => h i

theorem scaled_zipWith_left (x w : List K) :
    List.zipWith (· * ·) (scaled a x) w = scaled a (List.zipWith (· * ·) x w) := by
  simp only [scaled, List.zipWith_map_left, List.map_zipWith, mul_assoc]

variable [StarRing K]

theorem scaled_dft (ζ : K) (n : Nat) (x : List K) : dft ζ n (scaled a x) = scaled a (dft ζ n x) := by
  unfold dft
  refine scaled_range a n _ _ fun k => ?_
  rw [Finset.mul_sum]
  exact Finset.sum_congr rfl fun t _ => by rw [scaled_at0, mul_assoc]

theorem scaled_idft (ζ : K) (n : Nat) (x : List K) : idft ζ n (scaled a x) = scaled a (idft ζ n x) := by
  unfold idft
  refine scaled_range a n _ _ fun k => ?_
  rw [← mul_div_assoc, Finset.mul_sum]
  congr 1
  exact Finset.sum_congr rfl fun t _ => by rw [scaled_at0, mul_assoc]

theorem scaled_analysis (ζ : K) (N : Nat) (c : K) (h x : List K) :
    analysis ζ N c h (scaled a x) = scaled a (analysis ζ N c h x) := by
  unfold analysis
  rw [scaled_zipWith_left, scaled_dft, scaled_take]
  simp only [scaled, List.map_map]
  exact List.map_congr_left fun v _ => mul_div_assoc _ _ _

theorem scaled_analysisM (ζ : K) (N : Nat) (c : K) (h : List K) (x : List (List K)) :
    (scaledM a x).map (analysis ζ N c h) = scaledM a (x.map (analysis ζ N c h)) := by
  simp only [scaledM, List.map_map]
  exact List.map_congr_left fun v _ => scaled_analysis a ζ N c h v

theorem scaled_combine (nf : Nat) (w y : List (List K)) : combine nf w (scaledM a y) = scaled a (combine nf w y) := by
  unfold combine
  refine scaled_range a nf _ _ fun k => ?_
  rw [← scaled_sum]
  congr 1
  simp only [scaled, scaledM, List.zip_map_right, List.map_map]
  refine List.map_congr_left fun p _ => ?_
  simp only [Function.comp, Prod.map]
  simp only [id]
  rw [scaled_at0]
  ring

variable {a} (ha : star a = a)
include ha

theorem scaled_hermExt (x : List K) : hermExt (scaled a x) = scaled a (hermExt x) := by
  have hre : ∀ v : K, rePart (a * v) = a * rePart v := fun v => by
    unfold rePart; rw [star_mul, ha]; ring
  have h1 : ∀ n (l : List K), (scaled a l).modify n rePart = scaled a (l.modify n rePart) :=
    fun n l => modify_map_comm hre n l
  unfold hermExt
  simp only
  rw [h1, scaled_length, h1, scaled_append]
  congr 1
  simp only [scaled, List.map_dropLast, List.map_map, List.map_reverse]
  congr 2
  refine congrArg List.dropLast (List.map_congr_left fun v _ => ?_)
  simp only [Function.comp, star_mul, ha]
  ring

theorem scaled_backToTD (ζ : K) (n : Nat) (x : List K) :
    backToTD ζ n (scaled a x) = (backToTD ζ n x).map (scaled a) := by
  unfold backToTD
  rw [scaled_length]
  split_ifs
  · rfl
  · rfl
  · rw [scaled_hermExt ha, scaled_idft]; rfl

theorem scaled_desiredFrame (ζ : K) (N : Nat) (c : K) (win : List K) (w y : List (List K)) :
    desiredFrame ζ N c win w (scaledM a y) = (desiredFrame ζ N c win w y).map (scaled a) := by
  unfold desiredFrame
  rw [scaled_combine, scaled_backToTD ha]
  refine map_bind_comm fun z => ?_
  change Except.ok _ = Except.ok _
  congr 1
  simp only [scaled, List.zipWith_map_right, List.map_zipWith]
  congr 1
  funext u v
  ring

omit ha in
theorem scaled_extractConv (ids : List Int) (w x : List K) :
    extractConv ids w (scaled a x) = (extractConv ids w x).map (scaled a) := by
  unfold extractConv
  have : List.replicate w.length 0 ++ scaled a x ++ List.replicate w.length 0 =
      scaled a (List.replicate w.length 0 ++ x ++ List.replicate w.length 0) := by
    rw [scaled_append, scaled_append, scaled_zeros]
  simp only [this, scaled_pySlice, scaled_length]
  have h2 := mapM_map_comm (f := (id : Int → Int)) (g := (a * ·))
    (k := fun id => if (pySlice (List.replicate w.length 0 ++ x ++ List.replicate w.length 0) (id + 1)
        (id + 1 + w.length)).length ≠ w.length then Except.error PyErr.valueError
      else .ok (List.zipWith (· * ·) (pySlice (List.replicate w.length 0 ++ x ++ List.replicate w.length 0) (id + 1)
        (id + 1 + w.length)) w.reverse).sum)
    (k' := fun id => if (pySlice (List.replicate w.length 0 ++ x ++ List.replicate w.length 0) (id + 1)
        (id + 1 + w.length)).length ≠ w.length then Except.error PyErr.valueError
      else .ok (List.zipWith (· * ·) (scaled a (pySlice (List.replicate w.length 0 ++ x ++ List.replicate w.length 0)
        (id + 1) (id + 1 + w.length))) w.reverse).sum) (fun i => by
      dsimp only [id]
      split_ifs
      · rfl
      · rw [scaled_zipWith_left, scaled_sum]; rfl) ids
  rw [List.map_id] at h2
  exact h2

omit ha in
theorem scaled_sumChannels (L : Nat) (l : List (List K)) : sumChannels L (scaledM a l) = scaled a (sumChannels L l) := by
  unfold sumChannels
  refine scaled_range a L _ _ fun k => ?_
  rw [← scaled_sum]
  congr 1
  simp only [scaledM, List.map_map]
  rw [scaled, List.map_map]
  exact List.map_congr_left fun v _ => scaled_at0 a v k

omit ha in
theorem scaled_convs (ids : List Int) (wIR y : List (List K)) :
    ((wIR.zip (scaledM a y)).mapM fun p => extractConv ids p.1 p.2) =
      ((wIR.zip y).mapM fun p => extractConv ids p.1 p.2).map (scaledM a) := by
  have := mapM_map_comm (f := Prod.map (id : List K → List K) (scaled a)) (g := scaled a)
    (k := fun p : List K × List K => extractConv ids p.1 p.2)
    (k' := fun p : List K × List K => extractConv ids p.1 p.2)
    (fun p => scaled_extractConv ids p.1 p.2) (wIR.zip y)
  refine Eq.trans (congrArg _ ?_) this
  simp only [scaledM, List.zip_map_right]

omit ha in
theorem scaled_fewSamples (L P : Nat) (wIR y : List (List K)) :
    fewSamples L P wIR (scaledM a y) = (fewSamples L P wIR y).map (scaled a) := by
  unfold fewSamples
  rw [scaled_convs]
  exact map_bind_comm fun r => congrArg Except.ok (scaled_sumChannels L r)

omit ha in
theorem scaled_desiredConv (L P : Nat) (wIR y : List (List K)) :
    desiredConv L P wIR (scaledM a y) = (desiredConv L P wIR y).map (scaled a) := by
  unfold desiredConv
  rw [scaled_convs]
  exact map_bind_comm fun r => congrArg Except.ok (scaled_sumChannels L r)

omit ha in
theorem scaled_zipIdx (x : List K) (f f' : K → Nat → K) (h : ∀ v j, f' (a * v) j = a * f v j) :
    ((scaled a x).zipIdx.map fun p => f' p.1 p.2) = scaled a (x.zipIdx.map fun p => f p.1 p.2) := by
  simp only [scaled, List.zipIdx_map, List.map_map]
  exact List.map_congr_left fun p _ => h p.1 p.2

omit ha in
theorem scaled_addFrame (d : List K) (b e : Nat) (fr : List K) :
    addFrame (scaled a d) b e (scaled a fr) = (addFrame d b e fr).map (scaled a) := by
  unfold addFrame
  simp only [scaled_length]
  split_ifs
  · rfl
  · refine congrArg Except.ok (scaled_zipIdx d (fun x j => if b ≤ j ∧ j < e then
      x + at0 fr (fr.length - (min e d.length - b) + (j - b)) else x) (fun x j => if b ≤ j ∧ j < e then
      x + at0 (scaled a fr) (fr.length - (min e d.length - b) + (j - b)) else x) fun v j => ?_)
    split_ifs
    · rw [scaled_at0]; ring
    · rfl

omit ha in
theorem scaled_setSlice (d : List K) (b e : Int) (ch : List K) :
    setSlice (scaled a d) b e (scaled a ch) = (setSlice d b e ch).map (scaled a) := by
  unfold setSlice
  simp only [scaled_length]
  split_ifs
  · refine congrArg Except.ok (scaled_zipIdx d (fun x j => if b ≤ j ∧ (j : Int) < e then
      at0 ch (j - b.toNat) else x) (fun x j => if b ≤ j ∧ (j : Int) < e then
      at0 (scaled a ch) (j - b.toNat) else x) fun v j => ?_)
    split_ifs
    · rw [scaled_at0]
    · rfl
  · rfl

variable [DecidableEq K]

omit ha in
theorem scaled_overlapAdd (h0 : a ≠ 0) (N Ns : Nat) (h prev cur : List K) :
    overlapAdd N Ns h (scaled a prev) (scaled a cur) = (overlapAdd N Ns h prev cur).map (scaled a) := by
  unfold overlapAdd
  have : (scaled a prev).all (fun x => decide (x = 0)) = prev.all (fun x => decide (x = 0)) := by
    simp only [scaled, List.all_map]
    congr 1
    funext x
    simp [h0]
  rw [this]
  split_ifs
  · rfl
  · rfl
  · rfl
  · refine same_bind_comm fun nv => congrArg Except.ok (scaled_range a N _ _ fun j => ?_)
    simp only [scaled_at0, scaled_length]
    split_ifs <;> ring

theorem scaled_wholeChunk (h0 : a ≠ 0) (ζ : K) (N Ns : Nat) (c : K) (h f : List K) (y w : List (List K))
    (prev : List K) :
    wholeChunk ζ N Ns c h f (scaledM a y) w (scaled a prev) = (wholeChunk ζ N Ns c h f y w prev).map (scaled a) := by
  unfold wholeChunk
  simp only
  rw [scaled_analysisM, scaled_combine, scaled_backToTD ha]
  refine map_bind_comm fun z => ?_
  rw [← scaled_overlapAdd h0]
  congr 1
  rw [← scaled_zipWith_left]
  congr 1
  simp only [scaled, List.map_map]
  exact List.map_congr_left fun v _ => by simp only [Function.comp]; ring

end
end Danse
