import Verif.Model.Layout
import Verif.Spec.Layout
import Verif.Proofs.Topo
import Mathlib.Tactic.LinearCombination
import Mathlib.Tactic.FieldSimp
import Mathlib.Tactic.IntervalCases

/-!
# Lemmas for C96: arrays of sensors
-/

namespace Danse
open Matrix

theorem ptDist_eq_norm3 (a b : Pt) : ptDist a b = norm3 (a - b) := rfl

theorem norm3_three (a : Pt) : norm3 a = Real.sqrt (a 0 ^ 2 + a 1 ^ 2 + a 2 ^ 2) := by
  unfold norm3
  rw [Fin.sum_univ_three]

theorem norm3_orth {R : Matrix (Fin 3) (Fin 3) ℝ} (hR : Orthogonal R) (v : Pt) : norm3 (R *ᵥ v) = norm3 v := by
  have h : (R *ᵥ v) ⬝ᵥ (R *ᵥ v) = v ⬝ᵥ v := by
    rw [Matrix.dotProduct_mulVec, Matrix.vecMul_mulVec, ← Matrix.dotProduct_mulVec]
    unfold Orthogonal at hR
    rw [hR, Matrix.one_mulVec]
  unfold norm3
  congr 1
  simpa [dotProduct, pow_two] using h

theorem ptDist_orth {R : Matrix (Fin 3) (Fin 3) ℝ} (hR : Orthogonal R) (p q c d : Pt) :
    ptDist (R *ᵥ (p - c) + d) (R *ᵥ (q - c) + d) = ptDist p q := by
  rw [ptDist_eq_norm3, ptDist_eq_norm3]
  have : R *ᵥ (p - c) + d - (R *ᵥ (q - c) + d) = R *ᵥ (p - q) := by
    have h := Matrix.mulVec_sub R (p - c) (q - c)
    rw [show p - c - (q - c) = p - q by abel] at h
    rw [h]
    abel
  rw [this, norm3_orth hR]

/-! ## Means -/

theorem sum_map_add_const {α : Type} (l : List α) (f : α → ℝ) (c : ℝ) :
    (l.map fun x => f x + c).sum = (l.map f).sum + l.length * c := by
  induction l with
  | nil => simp
  | cons a l ih => simp only [List.map_cons, List.sum_cons, ih, List.length_cons]; push_cast; ring

theorem sum_mulVec (R : Matrix (Fin 3) (Fin 3) ℝ) (l : List Pt) (i : Fin 3) :
    (l.map fun v => (R *ᵥ v) i).sum = (R *ᵥ fun j => (l.map (· j)).sum) i := by
  induction l with
  | nil =>
    simp only [List.map_nil, List.sum_nil]
    have : (fun _ => 0 : Pt) = 0 := rfl
    rw [this, Matrix.mulVec_zero]
    rfl
  | cons a l ih =>
    simp only [List.map_cons, List.sum_cons]
    have : (fun j => a j + (l.map (· j)).sum : Pt) = a + fun j => (l.map (· j)).sum := rfl
    rw [this, Matrix.mulVec_add, Pi.add_apply, ih]

/-- The centre of points that are turned around their centre. -/
theorem meanPt_affine (R : Matrix (Fin 3) (Fin 3) ℝ) {l : List Pt} (hl : l ≠ []) (d : Pt) :
    meanPt (l.map fun p => R *ᵥ (p - meanPt l) + d) = d := by
  have h0 : (l.length : ℝ) ≠ 0 := by
    have := List.length_pos_of_ne_nil hl
    positivity
  funext i
  unfold meanPt
  rw [List.map_map, List.length_map]
  have e : ((fun x : Pt => x i) ∘ fun p => R *ᵥ (p - fun i => (l.map (· i)).sum / l.length) + d) =
      fun p => (R *ᵥ (p - fun i => (l.map (· i)).sum / l.length)) i + d i := rfl
  rw [e, sum_map_add_const]
  have e2 : (l.map fun p => (R *ᵥ (p - fun i => (l.map (· i)).sum / l.length)) i) =
      ((l.map fun p => p - fun i => (l.map (· i)).sum / l.length).map fun v => (R *ᵥ v) i) := by
    rw [List.map_map]; rfl
  rw [e2, sum_mulVec]
  have e3 : (fun j => ((l.map fun p => p - fun i => (l.map (· i)).sum / l.length).map (· j)).sum : Pt) = 0 := by
    funext j
    rw [List.map_map]
    have : ((fun x : Pt => x j) ∘ fun p : Pt => p - fun i => (l.map (· i)).sum / l.length) =
        fun p => p j + -((l.map (· j)).sum / l.length) := by
      funext p; simp [sub_eq_add_neg]
    rw [this, sum_map_add_const, Pi.zero_apply]
    field_simp
    ring
  rw [e3, Matrix.mulVec_zero, Pi.zero_apply]
  field_simp
  ring

/-! ## Linear arrays -/

theorem linspace_length {K : Type} [Field K] (a b : K) (n : Nat) : (linspace a b n).length = n := by
  unfold linspace
  split
  · simp [*]
  · simp

theorem linspace_get {a b : ℝ} {n i : Nat} (hn : 2 ≤ n) (hi : i < n) :
    (linspace a b n)[i]? = some (a + i * ((b - a) / (n - 1))) := by
  unfold linspace
  rw [if_neg (by omega), List.getElem?_map, List.getElem?_range hi]
  rfl

theorem linspace_sum {a b : ℝ} {n : Nat} (hn : 2 ≤ n) : (linspace a b n).sum = n * ((a + b) / 2) := by
  unfold linspace
  rw [if_neg (by omega)]
  have h : ∀ m : Nat, ∀ c : ℝ, ((List.range m).map fun (i : Nat) => a + i * c).sum = m * a + m * (m - 1) / 2 * c := by
    intro m c
    induction m with
    | zero => simp
    | succ m ih =>
      rw [List.range_succ, List.map_append, List.sum_append, ih]
      simp only [List.map_cons, List.map_nil, List.sum_cons, List.sum_nil]
      push_cast
      ring
  rw [h]
  have : (n : ℝ) - 1 ≠ 0 := by
    have : (2 : ℝ) ≤ n := by exact_mod_cast hn
    linarith
  field_simp
  ring

theorem linearArray_get {R : Matrix (Fin 3) (Fin 3) ℝ} {node : Pt} {Mk : Nat} {sep : ℝ} (hM : 2 ≤ Mk) {i : Nat}
    (hi : i < Mk) : (linearArray R node Mk sep)[i]? =
      some (R *ᵥ ![(i - (Mk - 1) / 2) * (Mk / (Mk - 1) * sep), 0, 0] + node) := by
  unfold linearArray
  simp only
  rw [List.getElem?_map, linspace_get hM hi, linspace_sum hM, linspace_length]
  have h2 : (2 : ℝ) ≤ Mk := by exact_mod_cast hM
  have h0 : (Mk : ℝ) ≠ 0 := by positivity
  have h1 : (Mk : ℝ) - 1 ≠ 0 := by linarith
  simp only [Option.map_some, zero_add, sub_zero]
  congr 5
  field_simp

theorem norm3_axis (x : ℝ) : norm3 ![x, 0, 0] = |x| := by
  rw [norm3_three]
  simp [Real.sqrt_sq_eq_abs]

/-! ## The geometry 'radius' -/

theorem radiusDraw_spec {radius : ℝ} : ∀ {draws : List Pt} {r rest}, radiusDraw radius draws = some (r, rest) →
    r ∈ draws ∧ norm3 r ≤ radius ∧ ∀ x ∈ rest, x ∈ draws := by
  intro draws
  induction draws with
  | nil => intro r rest h; simp [radiusDraw] at h
  | cons a l ih =>
    intro r rest h
    unfold radiusDraw at h
    by_cases hc : Real.sqrt (a 0 ^ 2 + a 1 ^ 2 + a 2 ^ 2) ≤ radius
    · rw [if_pos hc] at h
      injection h with h
      injection h with h1 h2
      subst h1 h2
      exact ⟨by simp, by rw [norm3_three]; exact hc, fun x hx => by simp [hx]⟩
    · rw [if_neg hc] at h
      obtain ⟨h1, h2, h3⟩ := ih h
      exact ⟨by simp [h1], h2, fun x hx => by simp [h3 x hx]⟩

theorem radiusArray_spec {node : Pt} {radius : ℝ} : ∀ {Mk : Nat} {draws : List Pt} {pts},
    radiusArray node radius Mk draws = some pts → pts.length = Mk ∧
      ∀ p ∈ pts, ∃ r ∈ draws, norm3 r ≤ radius ∧ p = fun i => r i + node i - radius / 2 := by
  intro Mk
  induction Mk with
  | zero =>
    intro draws pts h
    injection h with h
    subst h
    simp
  | succ Mk ih =>
    intro draws pts h
    unfold radiusArray at h
    cases h1 : radiusDraw radius draws with
    | none => rw [h1] at h; cases h
    | some rr =>
      obtain ⟨r, rest⟩ := rr
      rw [h1] at h
      cases h2 : radiusArray node radius Mk rest with
      | none => simp [h2] at h
      | some tl =>
        simp only [Option.bind_eq_bind, Option.bind_some, h2, Option.pure_def, Option.some.injEq] at h
        subst h
        obtain ⟨a, b, c⟩ := radiusDraw_spec h1
        obtain ⟨l1, l2⟩ := ih h2
        refine ⟨by simp [l1], ?_⟩
        intro p hp
        rcases List.mem_cons.mp hp with rfl | hp
        · exact ⟨r, a, b, rfl⟩
        · obtain ⟨r', hr', hn, e⟩ := l2 p hp
          exact ⟨r', c r' hr', hn, e⟩

/-! ## The geometry 'grid3d' -/

/-- The point number `n` of the grid. -/
noncomputable def gridPt (node : Pt) (d : ℝ) (n : Nat) : Pt :=
  ![node 0 + ((n / 3 % 3 : Nat) - 1) * d, node 1 + ((n / 9 : Nat) - 1) * d, node 2 + ((n % 3 : Nat) - 1) * d]

theorem gridFlat_eq (node : Pt) (d : ℝ) : gridFlat node d = (List.range 27).map (gridPt node d) := by
  have h3 : ∀ c : ℝ, linspace (c - d) (c + d) 3 = [c + ((0 : Nat) - 1) * d, c + ((1 : Nat) - 1) * d, c + ((2 : Nat) - 1) * d] := by
    intro c
    unfold linspace
    rw [if_neg (by decide)]
    simp only [List.range_succ, List.range_zero, List.nil_append, List.map_append, List.map_cons, List.map_nil,
      List.cons_append]
    norm_num
    ring_nf
    simp
  unfold gridFlat
  rw [h3, h3, h3]
  simp only [List.range_succ, List.range_zero, List.nil_append, List.flatMap_append, List.flatMap_cons, List.flatMap_nil,
    List.map_append, List.map_cons, List.map_nil, List.append_nil, List.cons_append, List.getD_cons_zero, List.getD_cons_succ]
  rfl

theorem gridFlat_get {node : Pt} {d : ℝ} {n : Nat} (hn : n < 27) : pyGet (gridFlat node d) (n : Int) = .ok (gridPt node d n) := by
  rw [gridFlat_eq]
  unfold pyGet
  simp only
  rw [if_neg (by omega), if_neg (by omega), Int.toNat_natCast, List.getElem?_map, List.getElem?_range hn]
  rfl

/-- The order in which the points of the grid are used. -/
def gridOrder : List Nat := atomicIdx ++ restIdx

theorem gridOrder_spec : gridOrder.Nodup ∧ gridOrder.length = 27 ∧ ∀ n ∈ gridOrder, n < 27 := by decide

theorem mapM_pyGet_ok {α β : Type} {f : α → Except PyErr β} {g : α → β} : ∀ {l : List α}, (∀ a ∈ l, f a = .ok (g a)) →
    l.mapM f = .ok (l.map g) := by
  intro l
  induction l with
  | nil => intro _; rfl
  | cons a l ih =>
    intro h
    rw [List.mapM_cons, h a (by simp), ih fun b hb => h b (by simp [hb])]
    rfl

theorem gridArray_eq {node : Pt} {Mk : Nat} {d : ℝ} (hM : Mk ≤ 27) :
    gridArray node Mk d = .ok ((gridOrder.take Mk).map (gridPt node d)) := by
  have hr : restIdx.length = 20 := by decide
  unfold gridArray
  simp only
  have h1 : ((atomicIdx.take (min 7 Mk)).mapM fun (i : Nat) => pyGet (gridFlat node d) (i : Int)) =
      .ok ((atomicIdx.take (min 7 Mk)).map (gridPt node d)) :=
    mapM_pyGet_ok fun a ha => gridFlat_get (gridOrder_spec.2.2 a (by
      unfold gridOrder; exact List.mem_append_left _ (List.mem_of_mem_take ha)))
  have h2 : ((List.range (Mk - 7)).mapM fun (ii : Nat) => (do
      let i ← pyGet restIdx (ii : Int)
      pyGet (gridFlat node d) (i : Int) : Except PyErr Pt)) =
      .ok ((List.range (Mk - 7)).map fun ii => gridPt node d (restIdx.getD ii 0)) := by
    refine mapM_pyGet_ok fun ii hii => ?_
    have hlt : ii < restIdx.length := by rw [hr]; have := List.mem_range.mp hii; omega
    have e : pyGet restIdx (ii : Int) = .ok (restIdx.getD ii 0) := by
      unfold pyGet
      simp only
      rw [if_neg (by omega), if_neg (by omega), Int.toNat_natCast, List.getElem?_eq_getElem hlt,
        List.getD_eq_getElem?_getD, List.getElem?_eq_getElem hlt]
      rfl
    rw [e]
    refine gridFlat_get (gridOrder_spec.2.2 _ ?_)
    unfold gridOrder
    refine List.mem_append_right _ ?_
    rw [List.getD_eq_getElem?_getD, List.getElem?_eq_getElem hlt]
    exact List.getElem_mem _
  rw [h1]
  simp only [bind, Except.bind] at h2 ⊢
  rw [h2]
  simp only [Except.ok.injEq]
  unfold gridOrder
  rw [List.take_append, List.map_append]
  have hl : atomicIdx.length = 7 := rfl
  congr 1
  · congr 1
    by_cases h : Mk ≤ 7
    · rw [Nat.min_eq_right h]
    · rw [Nat.min_eq_left (by omega), List.take_of_length_le (by rw [hl]), List.take_of_length_le (by rw [hl]; omega)]
  · rw [hl]
    apply List.ext_getElem
    · simp [hr]; omega
    · intro i h1 h2
      have h3 : i < restIdx.length := by simp at h1; rw [hr]; omega
      simp [List.getElem?_eq_getElem h3]

theorem gridArray_err {node : Pt} {Mk : Nat} {d : ℝ} (hM : 27 < Mk) : gridArray node Mk d = .error .indexError := by
  have hr : restIdx.length = 20 := by decide
  unfold gridArray
  simp only
  have h1 : ((atomicIdx.take (min 7 Mk)).mapM fun (i : Nat) => pyGet (gridFlat node d) (i : Int)) =
      .ok ((atomicIdx.take (min 7 Mk)).map (gridPt node d)) :=
    mapM_pyGet_ok fun a ha => gridFlat_get (gridOrder_spec.2.2 a (by
      unfold gridOrder; exact List.mem_append_left _ (List.mem_of_mem_take ha)))
  have h2 : ∀ m, 20 < m → ((List.range m).mapM fun (ii : Nat) => (do
      let i ← pyGet restIdx (ii : Int)
      pyGet (gridFlat node d) (i : Int) : Except PyErr Pt)) = .error .indexError := by
    intro m hm
    obtain ⟨e, rfl⟩ : ∃ e, m = 20 + (e + 1) := ⟨m - 21, by omega⟩
    rw [List.range_add, List.mapM_append]
    have h3 : ((List.range 20).mapM fun (ii : Nat) => (do
        let i ← pyGet restIdx (ii : Int)
        pyGet (gridFlat node d) (i : Int) : Except PyErr Pt)) =
        .ok ((List.range 20).map fun ii => gridPt node d (restIdx.getD ii 0)) := by
      refine mapM_pyGet_ok fun ii hii => ?_
      have hlt : ii < restIdx.length := by rw [hr]; exact List.mem_range.mp hii
      have e : pyGet restIdx (ii : Int) = .ok (restIdx.getD ii 0) := by
        unfold pyGet
        simp only
        rw [if_neg (by omega), if_neg (by omega), Int.toNat_natCast, List.getElem?_eq_getElem hlt,
          List.getD_eq_getElem?_getD, List.getElem?_eq_getElem hlt]
        rfl
      rw [e]
      refine gridFlat_get (gridOrder_spec.2.2 _ ?_)
      unfold gridOrder
      refine List.mem_append_right _ ?_
      rw [List.getD_eq_getElem?_getD, List.getElem?_eq_getElem hlt]
      exact List.getElem_mem _
    rw [h3, (List.range_succ_eq_map : List.range (e + 1) = _)]
    simp only [List.map_cons, List.mapM_cons]
    have h4 : pyGet restIdx ((20 + 0 : Nat) : Int) = .error .indexError := by decide
    rw [h4]
    rfl
  rw [h1]
  have h3 := h2 (Mk - 7) (by omega)
  simp only [bind, Except.bind] at h3 ⊢
  rw [h3]

/-- Two points of the grid differ by at least the step in one coordinate. -/
theorem gridPt_apart {node : Pt} {d : ℝ} {m n : Nat} (h : m ≠ n) : |d| ≤ ptDist (gridPt node d m) (gridPt node d n) := by
  have key : ∀ a b : Nat, a ≠ b → |d| ^ 2 ≤ (((a : ℝ) - 1) * d - ((b : ℝ) - 1) * d) ^ 2 := by
    intro a b hab
    have h1 : (1 : ℝ) ≤ ((a : ℝ) - b) ^ 2 := by
      have : (1 : Int) ≤ ((a : Int) - b) ^ 2 := by
        have h0 : (a : Int) - b ≠ 0 := by omega
        have := sq_pos_of_ne_zero h0
        omega
      exact_mod_cast this
    have h2 : ((a : ℝ) - 1) * d - ((b : ℝ) - 1) * d = ((a : ℝ) - b) * d := by ring
    rw [h2, mul_pow, sq_abs]
    nlinarith [sq_nonneg d]
  have hdig : m / 3 % 3 ≠ n / 3 % 3 ∨ m / 9 ≠ n / 9 ∨ m % 3 ≠ n % 3 := by omega
  rw [ptDist_eq_norm3, norm3_three]
  apply Real.le_sqrt_of_sq_le
  have e0 : (gridPt node d m - gridPt node d n) 0 = (((m / 3 % 3 : Nat) : ℝ) - 1) * d - (((n / 3 % 3 : Nat) : ℝ) - 1) * d := by
    simp [gridPt]
  have e1 : (gridPt node d m - gridPt node d n) 1 = (((m / 9 : Nat) : ℝ) - 1) * d - (((n / 9 : Nat) : ℝ) - 1) * d := by
    simp [gridPt]
  have e2 : (gridPt node d m - gridPt node d n) 2 = (((m % 3 : Nat) : ℝ) - 1) * d - (((n % 3 : Nat) : ℝ) - 1) * d := by
    simp [gridPt]
  rw [e0, e1, e2]
  rcases hdig with h | h | h
  · have := key _ _ h; nlinarith [sq_nonneg ((((m / 9 : Nat) : ℝ) - 1) * d - (((n / 9 : Nat) : ℝ) - 1) * d), sq_nonneg ((((m % 3 : Nat) : ℝ) - 1) * d - (((n % 3 : Nat) : ℝ) - 1) * d)]
  · have := key _ _ h; nlinarith [sq_nonneg ((((m / 3 % 3 : Nat) : ℝ) - 1) * d - (((n / 3 % 3 : Nat) : ℝ) - 1) * d), sq_nonneg ((((m % 3 : Nat) : ℝ) - 1) * d - (((n % 3 : Nat) : ℝ) - 1) * d)]
  · have := key _ _ h; nlinarith [sq_nonneg ((((m / 9 : Nat) : ℝ) - 1) * d - (((n / 9 : Nat) : ℝ) - 1) * d), sq_nonneg ((((m / 3 % 3 : Nat) : ℝ) - 1) * d - (((n / 3 % 3 : Nat) : ℝ) - 1) * d)]

theorem gridPt_box {node : Pt} {d : ℝ} {n : Nat} (h : n < 27) (i : Fin 3) : |gridPt node d n i - node i| ≤ |d| := by
  have key : ∀ a : Nat, a < 3 → |((a : ℝ) - 1) * d| ≤ |d| := by
    intro a ha
    rw [abs_mul]
    have : |(a : ℝ) - 1| ≤ 1 := by interval_cases a <;> norm_num
    nlinarith [abs_nonneg d]
  fin_cases i
  · simpa [gridPt] using key (n / 3 % 3) (by omega)
  · simpa [gridPt] using key (n / 9) (by omega)
  · simpa [gridPt] using key (n % 3) (by omega)

end Danse
