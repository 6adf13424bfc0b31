import Verif.Model.Batch
import Verif.Proofs.Scm2
import Verif.Proofs.Mwf2
import Verif.Proofs.ExtFilters

set_option linter.unusedSectionVars false

namespace Danse
open Matrix

section
variable {ι : Type} [DecidableEq ι] {α : ι → Type}

theorem foldlM_update_ok (f : ∀ k, Except PyErr (α k)) (l : List ι) {a a' : ∀ k, α k}
    (h : l.foldlM (m := Except PyErr) (fun cv k => do
      let r ← f k
      return Function.update cv k r) a = .ok a') (hn : l.Nodup) :
    (∀ k ∈ l, f k = .ok (a' k)) ∧ ∀ k, k ∉ l → a' k = a k := by
  induction l generalizing a with
  | nil =>
    have : a = a' := Except.ok.inj h
    subst this
    exact ⟨by simp, fun _ _ => rfl⟩
  | cons b l ih =>
    rw [List.foldlM_cons] at h
    rw [List.nodup_cons] at hn
    cases hb : f b with
    | error e => rw [hb] at h; cases h
    | ok r =>
      rw [hb] at h
      change l.foldlM _ (Function.update a b r) = _ at h
      obtain ⟨i1, i2⟩ := ih h hn.2
      constructor
      · intro k hk
        rcases List.mem_cons.mp hk with rfl | hk
        · rw [hb, i2 _ hn.1, Function.update_self]
        · exact i1 k hk
      · intro k hk
        rw [List.mem_cons, not_or] at hk
        rw [i2 k hk.2, Function.update_of_ne hk.1]

theorem foldlM_update_total (f : ∀ k, Except PyErr (α k)) (g : ∀ k, α k) (l : List ι)
    (a : ∀ k, α k) (h : ∀ k ∈ l, f k = .ok (g k)) :
    ∃ a', l.foldlM (m := Except PyErr) (fun cv k => do
      let r ← f k
      return Function.update cv k r) a = .ok a' := by
  induction l generalizing a with
  | nil => exact ⟨a, rfl⟩
  | cons b l ih =>
    rw [List.foldlM_cons, h b (by simp)]
    exact ih (Function.update a b (g b)) fun k hk => h k (by simp [hk])

end

section
variable {K : Nat} {S : Fin K → Type} [∀ k, Fintype (S k)] [∀ k, DecidableEq (S k)]

theorem batchNode_fold_ok (c : BatchCfg S) (ext0 : ∀ q, S q → ℂ)
    (covs : ∀ k, Matrix (ObsCh S k) (ObsCh S k) ℂ × Matrix (ObsCh S k) (ObsCh S k) ℂ)
    (up : Fin K → Bool) (l : List (Fin K)) (hn : l.Nodup) {st st' : BatchSt S}
    (h : l.foldlM (batchNode c ext0 covs up) st = .ok st') :
    (∀ k ∈ l, batchFilter c covs up st k = .ok (st'.wT k) ∧
      st'.ext k = extStep (c.ext k) (st.ext k) (fun s => st'.wT k (.inl s)) none ∧
      st'.i k = st.i k + 1 ∧
      st'.dhat k = c.frames.dropLast.map fun y => star (st'.wT k) ⬝ᵥ yTildeB ext0 k y) ∧
    ∀ k, k ∉ l → st'.wT k = st.wT k ∧ st'.ext k = st.ext k ∧ st'.i k = st.i k ∧
      st'.dhat k = st.dhat k := by
  induction l generalizing st with
  | nil =>
    have : st = st' := Except.ok.inj h
    subst this
    exact ⟨by simp, fun _ _ => ⟨rfl, rfl, rfl, rfl⟩⟩
  | cons b l ih =>
    rw [List.foldlM_cons] at h
    rw [List.nodup_cons] at hn
    unfold batchNode at h
    cases hb : batchFilter c covs up st b with
    | error e => rw [hb] at h; cases h
    | ok w =>
      rw [hb] at h
      change l.foldlM (batchNode c ext0 covs up) (BatchSt.mk _ _ _ _) = _ at h
      obtain ⟨i1, i2⟩ := ih hn.2 h
      constructor
      · intro k hk
        rcases List.mem_cons.mp hk with rfl | hk'
        · obtain ⟨a1, a2, a3, a4⟩ := i2 _ hn.1
          simp only [Function.update_self] at a1 a2 a3 a4
          rw [hb, a1]
          exact ⟨rfl, by rw [a2], a3, a4⟩
        · have hne : k ≠ b := fun e => hn.1 (e ▸ hk')
          obtain ⟨a1, a2, a3, a4⟩ := i1 k hk'
          simp only [batchFilter, Function.update_of_ne hne] at a1 a2 a3
          exact ⟨a1, a2, a3, a4⟩
      · intro k hk
        rw [List.mem_cons, not_or] at hk
        obtain ⟨a1, a2, a3, a4⟩ := i2 k hk.2
        simp only [Function.update_of_ne hk.1] at a1 a2 a3 a4
        exact ⟨a1, a2, a3, a4⟩

theorem batchNode_fold_total (c : BatchCfg S) (ext0 : ∀ q, S q → ℂ)
    (covs : ∀ k, Matrix (ObsCh S k) (ObsCh S k) ℂ × Matrix (ObsCh S k) (ObsCh S k) ℂ)
    (up : Fin K → Bool) (l : List (Fin K)) (st : BatchSt S)
    (h : ∀ k ∈ l, up k = true → ∃ w, c.upd k (covs k).1 (covs k).2 = .ok w) :
    ∃ st', l.foldlM (batchNode c ext0 covs up) st = .ok st' := by
  induction l generalizing st with
  | nil => exact ⟨st, rfl⟩
  | cons b l ih =>
    have : ∃ st1, batchNode c ext0 covs up st b = .ok st1 := by
      unfold batchNode batchFilter
      by_cases hu : up b = true
      · obtain ⟨w, hw⟩ := h b (by simp) hu
        rw [if_pos hu, hw]
        exact ⟨_, rfl⟩
      · rw [if_neg hu]
        exact ⟨_, rfl⟩
    obtain ⟨st1, h1⟩ := this
    rw [List.foldlM_cons, h1]
    exact ih st1 fun k hk => h k (by simp [hk])

/-- One batch update, node by node. -/
theorem batchStep_ok (c : BatchCfg S) (up : Fin K → Bool) {st st' : BatchSt S}
    (h : batchStep c up st = .ok st') :
    ∃ covs : ∀ k, Matrix (ObsCh S k) (ObsCh S k) ℂ × Matrix (ObsCh S k) (ObsCh S k) ℂ,
      (∀ k, batchCov c (fun q => (st.ext q).ext) k = .ok (covs k)) ∧
      ∀ k, batchFilter c covs up st k = .ok (st'.wT k) ∧
        st'.ext k = extStep (c.ext k) (st.ext k) (fun s => st'.wT k (.inl s)) none ∧
        st'.i k = st.i k + 1 ∧
        st'.dhat k = c.frames.dropLast.map fun y =>
          star (st'.wT k) ⬝ᵥ yTildeB (fun q => (st.ext q).ext) k y := by
  unfold batchStep at h
  cases hc : (List.finRange K).foldlM (m := Except PyErr) (fun cv k => do
    let r ← batchCov c (fun q => (st.ext q).ext) k
    return Function.update cv k r)
    (fun _ => (0, 0) : ∀ k, Matrix (ObsCh S k) (ObsCh S k) ℂ × Matrix (ObsCh S k) (ObsCh S k) ℂ)
    with
  | error e => rw [hc] at h; cases h
  | ok covs =>
    rw [hc] at h
    obtain ⟨h1, -⟩ := foldlM_update_ok _ _ hc (List.nodup_finRange K)
    obtain ⟨h2, -⟩ := batchNode_fold_ok c _ covs up _ (List.nodup_finRange K) h
    exact ⟨covs, fun k => h1 k (List.mem_finRange k), fun k => h2 k (List.mem_finRange k)⟩

theorem batchStep_total (c : BatchCfg S) (up : Fin K → Bool) (st : BatchSt S)
    (covs : ∀ k, Matrix (ObsCh S k) (ObsCh S k) ℂ × Matrix (ObsCh S k) (ObsCh S k) ℂ)
    (h1 : ∀ k, batchCov c (fun q => (st.ext q).ext) k = .ok (covs k))
    (h2 : ∀ k, up k = true → ∃ w, c.upd k (covs k).1 (covs k).2 = .ok w) :
    ∃ st', batchStep c up st = .ok st' := by
  unfold batchStep
  obtain ⟨cv, hcv⟩ := foldlM_update_total (fun k => batchCov c (fun q => (st.ext q).ext) k) covs
    (List.finRange K) (fun _ => (0, 0)) fun k _ => h1 k
  have : cv = covs := by
    obtain ⟨h3, -⟩ := foldlM_update_ok _ _ hcv (List.nodup_finRange K)
    funext k
    have := h3 k (List.mem_finRange k)
    rw [h1 k] at this
    exact (Except.ok.inj this).symm
  subst this
  rw [hcv]
  exact batchNode_fold_total c _ cv up _ st fun k _ => h2 k

end

/-! ### Compression -/

section
variable {K : Nat} {S : Fin K → Type} [∀ k, Fintype (S k)] [∀ k, DecidableEq (S k)]

/-- The matrix with `ỹ = Cᴴ y`. -/
noncomputable def compress (ext : ∀ q, S q → ℂ) (k : Fin K) : Matrix (NetCh S) (ObsCh S k) ℂ :=
  Matrix.of fun a b => match b with
    | .inl s => if a = ⟨k, s⟩ then 1 else 0
    | .inr q => if a.1 = q.1 then ext a.1 a.2 else 0

theorem compress_mul (ext : ∀ q, S q → ℂ) (k : Fin K) (y : NetCh S → ℂ) :
    (compress ext k)ᴴ *ᵥ y = yTildeB ext k y := by
  funext b
  rw [mulVec, dotProduct]
  cases b with
  | inl s =>
    simp only [conjTranspose_apply, compress, of_apply, yTildeB]
    rw [Finset.sum_eq_single ⟨k, s⟩]
    · simp
    · intro a _ ha; simp [ha]
    · simp
  | inr q =>
    simp only [conjTranspose_apply, compress, of_apply, yTildeB]
    rw [Fintype.sum_sigma, Finset.sum_eq_single q.1]
    · simp
    · intro p _ hp
      simp [hp]
    · simp

theorem outer_compress {m n : Type} [Fintype m] [Fintype n] (C : Matrix m n ℂ) (y : m → ℂ) :
    vecMulVec (Cᴴ *ᵥ y) (star (Cᴴ *ᵥ y)) = Cᴴ * vecMulVec y (star y) * C := by
  rw [mul_vecMulVec, vecMulVec_mul, star_mulVec, conjTranspose_conjTranspose]

/-- Batch covariance matrices of linearly transformed frames. -/
theorem covBatch_compress {m n : Type} [Fintype m] [Fintype n] (C : Matrix m n ℂ)
    (frames : List (m → ℂ)) (vad : List Bool) {R N : Matrix m m ℂ}
    (h : covBatch (F := Unit) (frames.map fun y _ => y) vad = .ok (fun _ => R, fun _ => N)) :
    covBatch (F := Unit) (frames.map fun y _ => Cᴴ *ᵥ y) vad =
      .ok (fun _ => Cᴴ * R * C, fun _ => Cᴴ * N * C) := by
  unfold covBatch at h ⊢
  simp only [List.length_map] at h ⊢
  by_cases hl : (if vad.length > frames.length then vad.take frames.length else vad).length ≠
      frames.length
  · rw [if_pos hl] at h; cases h
  · rw [if_neg hl] at h ⊢
    have key : ∀ (p : Bool → Bool) (v : List Bool),
        (((((frames.map fun y (_ : Unit) => Cᴴ *ᵥ y).zip v).filter fun q => p q.2).map (·.1)).map
          fun y => (Matrix.of fun j k => y () j * star (y () k) : Matrix n n ℂ)) =
        (((((frames.map fun y (_ : Unit) => y).zip v).filter fun q => p q.2).map (·.1)).map
          fun y => Cᴴ * (Matrix.of fun j k => y () j * star (y () k) : Matrix m m ℂ) * C) := by
      intro p v
      have e1 : (frames.map fun y (_ : Unit) => Cᴴ *ᵥ y) =
          (frames.map fun y (_ : Unit) => y).map fun f (_ : Unit) => Cᴴ *ᵥ f () := by
        rw [List.map_map]; rfl
      rw [e1, List.zip_map_left, List.filter_map, List.map_map, List.map_map, List.map_map]
      apply List.map_congr_left
      rintro ⟨f, b⟩ -
      exact outer_compress C (f ())
    have hsum : ∀ (l : List (Matrix m m ℂ)), (l.map fun A => Cᴴ * A * C).sum = Cᴴ * l.sum * C := by
      intro l
      induction l with
      | nil => simp
      | cons a l ih => rw [List.map_cons, List.sum_cons, List.sum_cons, ih, Matrix.mul_add,
          Matrix.add_mul]
    have hlen : ∀ (p : Bool → Bool) (v : List Bool),
        (((frames.map fun y (_ : Unit) => Cᴴ *ᵥ y).zip v).filter fun q => p q.2).length =
        (((frames.map fun y (_ : Unit) => y).zip v).filter fun q => p q.2).length := by
      intro p v
      have := congrArg List.length (key p v)
      simpa using this
    have h' := Except.ok.inj h
    have hR := congrFun (congrArg Prod.fst h') ()
    have hN := congrFun (congrArg Prod.snd h') ()
    simp only at hR hN
    congr 2
    · funext u
      rw [← hR]
      have k1 := key (fun b => b) (if vad.length > frames.length then vad.take frames.length else vad)
      have k2 := hlen (fun b => b) (if vad.length > frames.length then vad.take frames.length else vad)
      try simp only [List.length_map] at k1 k2 ⊢
      rw [k1, k2, Matrix.mul_smul, Matrix.smul_mul, ← hsum]
      simp only [List.map_map]
      rfl
    · funext u
      rw [← hN]
      have k1 := key (fun b => !b) (if vad.length > frames.length then vad.take frames.length else vad)
      have k2 := hlen (fun b => !b) (if vad.length > frames.length then vad.take frames.length else vad)
      try simp only [List.length_map] at k1 k2 ⊢
      rw [k1, k2, Matrix.mul_smul, Matrix.smul_mul, ← hsum]
      simp only [List.map_map]
      rfl

end
end Danse
