import Verif.Spec.Given
import Verif.Model.GivenRun
import Verif.Proofs.Compress2
import Verif.Proofs.Config

/-!
# Helper lemmas for C30: additivity of every stage of a run with given filters
-/

set_option linter.unusedSectionVars false

namespace Danse
section
variable {α β γ α' β' γ' : Type} {R : α → β → γ → Prop} {S : α' → β' → γ' → Prop}

theorem All3.length {a : List α} {b : List β} {c : List γ} (h : All3 R a b c) :
    a.length = c.length ∧ b.length = c.length := by
  induction h with
  | nil => exact ⟨rfl, rfl⟩
  | cons _ _ ih => simp [ih.1, ih.2]

theorem All3.append {a a' : List α} {b b' : List β} {c c' : List γ} (h : All3 R a b c)
    (h' : All3 R a' b' c') : All3 R (a ++ a') (b ++ b') (c ++ c') := by
  induction h with
  | nil => exact h'
  | cons hx _ ih => exact .cons hx ih

theorem All3.map {f : α → α'} {g : β → β'} {k : γ → γ'} (hR : ∀ x y z, R x y z → S (f x) (g y) (k z))
    {a : List α} {b : List β} {c : List γ} (h : All3 R a b c) : All3 S (a.map f) (b.map g) (c.map k) := by
  induction h with
  | nil => exact .nil
  | cons hx _ ih => exact .cons (hR _ _ _ hx) ih

theorem All3.take (n : Nat) {a : List α} {b : List β} {c : List γ} (h : All3 R a b c) :
    All3 R (a.take n) (b.take n) (c.take n) := by
  induction h generalizing n with
  | nil => simpa using All3.nil
  | cons hx _ ih =>
    cases n with
    | zero => exact .nil
    | succ n => exact .cons hx (ih n)

theorem All3.drop (n : Nat) {a : List α} {b : List β} {c : List γ} (h : All3 R a b c) :
    All3 R (a.drop n) (b.drop n) (c.drop n) := by
  induction h generalizing n with
  | nil => simpa using All3.nil
  | cons hx ht ih =>
    cases n with
    | zero => exact .cons hx ht
    | succ n => exact ih n

theorem All3.replicate (n : Nat) {x : α} {y : β} {z : γ} (h : R x y z) :
    All3 R (List.replicate n x) (List.replicate n y) (List.replicate n z) := by
  induction n with
  | zero => exact .nil
  | succ n ih => exact .cons h ih

theorem All3.reverse {a : List α} {b : List β} {c : List γ} (h : All3 R a b c) :
    All3 R a.reverse b.reverse c.reverse := by
  induction h with
  | nil => exact .nil
  | cons hx _ ih =>
    simp only [List.reverse_cons]
    exact ih.append (.cons hx .nil)

theorem All3.dropLast {a : List α} {b : List β} {c : List γ} (h : All3 R a b c) :
    All3 R a.dropLast b.dropLast c.dropLast := by
  rw [List.dropLast_eq_take, List.dropLast_eq_take, List.dropLast_eq_take, h.length.1, h.length.2]
  exact h.take _

theorem All3.modify {f : α → α} {g : β → β} {k : γ → γ} (hR : ∀ x y z, R x y z → R (f x) (g y) (k z))
    (n : Nat) {a : List α} {b : List β} {c : List γ} (h : All3 R a b c) :
    All3 R (a.modify n f) (b.modify n g) (c.modify n k) := by
  induction h generalizing n with
  | nil => simpa using All3.nil
  | cons hx ht ih =>
    cases n with
    | zero => exact .cons (hR _ _ _ hx) ht
    | succ n => exact .cons hx (ih n)

theorem All3.zipIdx {a : List α} {b : List β} {c : List γ} (h : All3 R a b c) (n : Nat) :
    All3 (fun (x : α × Nat) (y : β × Nat) (z : γ × Nat) => R x.1 y.1 z.1 ∧ x.2 = z.2 ∧ y.2 = z.2)
      (a.zipIdx n) (b.zipIdx n) (c.zipIdx n) := by
  induction h generalizing n with
  | nil => exact .nil
  | cons hx _ ih =>
    simp only [List.zipIdx_cons]
    exact .cons ⟨hx, rfl, rfl⟩ (ih (n + 1))

theorem All3.range {f : Nat → α} {g : Nat → β} {k : Nat → γ} (n : Nat)
    (h : ∀ i < n, R (f i) (g i) (k i)) :
    All3 R ((List.range n).map f) ((List.range n).map g) ((List.range n).map k) := by
  induction n with
  | zero => exact .nil
  | succ n ih =>
    simp only [List.range_succ, List.map_append]
    exact (ih fun i hi => h i (by omega)).append (.cons (h n (by omega)) .nil)

theorem All3.pySlice {a : List α} {b : List β} {c : List γ} (h : All3 R a b c) (s e : Int) :
    All3 R (Danse.pySlice a s e) (Danse.pySlice b s e) (Danse.pySlice c s e) := by
  unfold Danse.pySlice
  simp only [h.length.1, h.length.2]
  exact (h.drop _).take _

theorem All3.lastN (m : Nat) {a : List α} {b : List β} {c : List γ} (h : All3 R a b c) :
    All3 R (Danse.lastN m a) (Danse.lastN m b) (Danse.lastN m c) := by
  unfold Danse.lastN
  rw [h.length.1, h.length.2]
  exact h.drop _

theorem All3.chunkOf (n : Int) {a : List α} {b : List β} {c : List γ} (h : All3 R a b c) :
    All3 R (Danse.chunkOf a n) (Danse.chunkOf b n) (Danse.chunkOf c n) := by
  unfold Danse.chunkOf
  split
  · exact h.lastN _
  · split
    · exact h.take _
    · exact .nil

theorem All3.getD {a : List α} {b : List β} {c : List γ} (h : All3 R a b c) {x : α} {y : β} {z : γ}
    (hd : R x y z) (i : Nat) : R (a.getD i x) (b.getD i y) (c.getD i z) := by
  induction h generalizing i with
  | nil => simpa using hd
  | cons hx _ ih =>
    cases i with
    | zero => simpa using hx
    | succ i => simpa using ih i

/-- Results of monadic computations. -/
def Ok3 (R : α → β → γ → Prop) (a : Except PyErr α) (b : Except PyErr β) (c : Except PyErr γ) : Prop :=
  ∀ x y, a = .ok x → b = .ok y → ∃ z, c = .ok z ∧ R x y z

theorem Ok3.ok {x : α} {y : β} {z : γ} (h : R x y z) : Ok3 R (.ok x) (.ok y) (.ok z) := by
  intro x' y' hx hy
  injection hx with hx
  injection hy with hy
  subst hx; subst hy
  exact ⟨z, rfl, h⟩

theorem Ok3.err {e : PyErr} {b : Except PyErr β} {c : Except PyErr γ} : Ok3 R (.error e) b c := by
  intro x y hx
  cases hx

theorem Ok3.bind {a : Except PyErr α} {b : Except PyErr β} {c : Except PyErr γ}
    {f : α → Except PyErr α'} {g : β → Except PyErr β'} {k : γ → Except PyErr γ'}
    (h : Ok3 R a b c) (hf : ∀ x y z, R x y z → Ok3 S (f x) (g y) (k z)) :
    Ok3 S (a >>= f) (b >>= g) (c >>= k) := by
  intro x y hx hy
  obtain ⟨u, hu, hx⟩ := bind_ok_inv hx
  obtain ⟨v, hv, hy⟩ := bind_ok_inv hy
  obtain ⟨w, hw, hr⟩ := h u v hu hv
  obtain ⟨z, hz, hs⟩ := hf u v w hr x y hx hy
  exact ⟨z, by rw [hw]; exact hz, hs⟩

theorem Ok3.mapM {f : α → Except PyErr α'} {g : β → Except PyErr β'} {k : γ → Except PyErr γ'}
    (hf : ∀ x y z, R x y z → Ok3 S (f x) (g y) (k z)) {a : List α} {b : List β} {c : List γ}
    (h : All3 R a b c) : Ok3 (All3 S) (a.mapM f) (b.mapM g) (c.mapM k) := by
  induction h with
  | nil => exact Ok3.ok .nil
  | cons hx _ ih =>
    simp only [List.mapM_cons]
    apply (hf _ _ _ hx).bind
    intro u v w hr
    apply ih.bind
    intro us vs ws hs
    exact Ok3.ok (.cons hr hs)

/-- Monadic folds over the same list. -/
theorem Ok3.foldlM {δ : Type} {f : α → δ → Except PyErr α} {g : β → δ → Except PyErr β}
    {k : γ → δ → Except PyErr γ} (l : List δ)
    (hf : ∀ e ∈ l, ∀ x y z, R x y z → Ok3 R (f x e) (g y e) (k z e)) {x : α} {y : β} {z : γ}
    (h : R x y z) : Ok3 R (l.foldlM f x) (l.foldlM g y) (l.foldlM k z) := by
  induction l generalizing x y z with
  | nil => exact Ok3.ok h
  | cons e l ih =>
    simp only [List.foldlM_cons]
    apply (hf e (by simp) x y z h).bind
    intro x' y' z' h'
    exact ih (fun e he => hf e (by simp [he])) h'
end

section
variable {K : Type} [Field K] [StarRing K]

theorem Sums.at0 {a b c : List K} (h : Sums a b c) (i : Nat) :
    Danse.at0 c i = Danse.at0 a i + Danse.at0 b i :=
  All3.getD (R := fun x y z => z = x + y) h (by simp) i

theorem Sums.at0M {a b c : List (List K)} (h : SumsM a b c) (i j : Nat) :
    Danse.at0 (c.getD i []) j = Danse.at0 (a.getD i []) j + Danse.at0 (b.getD i []) j :=
  Sums.at0 (All3.getD (R := Sums) h .nil i) j

theorem Sums.map {f : K → K} (hf : ∀ x y, f (x + y) = f x + f y) {a b c : List K} (h : Sums a b c) :
    Sums (a.map f) (b.map f) (c.map f) :=
  All3.map (fun x y z hz => by rw [hz, hf]) h

theorem Sums.zipWith_left {a b c : List K} (h : Sums a b c) (f : K → K → K)
    (hf : ∀ w x y, f w (x + y) = f w x + f w y) (w : List K) :
    Sums (List.zipWith f w a) (List.zipWith f w b) (List.zipWith f w c) := by
  induction h generalizing w with
  | nil => simp only [List.zipWith_nil_left, List.zipWith_nil_right, List.zip_nil_left, List.zip_nil_right, List.map_nil]; exact All3.nil
  | cons hx _ ih =>
    cases w with
    | nil => simp only [List.zipWith_nil_left, List.zipWith_nil_right, List.zip_nil_left, List.zip_nil_right, List.map_nil]; exact All3.nil
    | cons v w => exact .cons (by rw [hx, hf]) (ih w)

theorem Sums.zipWith_right {a b c : List K} (h : Sums a b c) (w : List K) :
    Sums (List.zipWith (· * ·) a w) (List.zipWith (· * ·) b w) (List.zipWith (· * ·) c w) := by
  induction h generalizing w with
  | nil => simp only [List.zipWith_nil_left, List.zipWith_nil_right, List.zip_nil_left, List.zip_nil_right, List.map_nil]; exact All3.nil
  | cons hx _ ih =>
    cases w with
    | nil => simp only [List.zipWith_nil_left, List.zipWith_nil_right, List.zip_nil_left, List.zip_nil_right, List.map_nil]; exact All3.nil
    | cons v w => exact .cons (by subst hx; exact add_mul _ _ _) (ih w)

theorem Sums.sum {a b c : List K} (h : Sums a b c) : c.sum = a.sum + b.sum := by
  induction h with
  | nil => simp
  | cons hx _ ih => rw [List.sum_cons, List.sum_cons, List.sum_cons, hx, ih]; ring

variable {ζ : K} {N : Nat}

theorem Sums.dft {a b c : List K} (h : Sums a b c) : Sums (Danse.dft ζ N a) (Danse.dft ζ N b) (Danse.dft ζ N c) := by
  apply All3.range
  intro i _
  rw [← Finset.sum_add_distrib]
  exact Finset.sum_congr rfl fun t _ => by rw [h.at0, add_mul]

theorem Sums.idft {a b c : List K} (h : Sums a b c) :
    Sums (Danse.idft ζ N a) (Danse.idft ζ N b) (Danse.idft ζ N c) := by
  apply All3.range
  intro i _
  rw [← add_div, ← Finset.sum_add_distrib]
  congr 1
  exact Finset.sum_congr rfl fun t _ => by rw [h.at0, add_mul]

theorem Sums.analysis {a b c : List K} (h : Sums a b c) (cc : K) (win : List K) :
    Sums (Danse.analysis ζ N cc win a) (Danse.analysis ζ N cc win b) (Danse.analysis ζ N cc win c) := by
  unfold Danse.analysis
  apply Sums.map (fun x y => add_div x y cc)
  exact All3.take _ (h.zipWith_right win).dft

theorem SumsM.combine {a b c : List (List K)} (h : SumsM a b c) (nf : Nat) (w : List (List K)) :
    Sums (Danse.combine nf w a) (Danse.combine nf w b) (Danse.combine nf w c) := by
  apply All3.range
  intro i _
  have : Sums ((w.zip a).map fun p => star (at0 p.1 i) * at0 p.2 i)
      ((w.zip b).map fun p => star (at0 p.1 i) * at0 p.2 i)
      ((w.zip c).map fun p => star (at0 p.1 i) * at0 p.2 i) := by
    induction h generalizing w with
    | nil => simp only [List.zipWith_nil_left, List.zipWith_nil_right, List.zip_nil_left, List.zip_nil_right, List.map_nil]; exact All3.nil
    | cons hx _ ih =>
      cases w with
      | nil => simp only [List.zipWith_nil_left, List.zipWith_nil_right, List.zip_nil_left, List.zip_nil_right, List.map_nil]; exact All3.nil
      | cons v w =>
        simp only [List.zip_cons_cons, List.map_cons]
        exact .cons (by rw [hx.at0, mul_add]) (ih w)
  exact this.sum

theorem Sums.hermExt {a b c : List K} (h : Sums a b c) :
    Sums (Danse.hermExt a) (Danse.hermExt b) (Danse.hermExt c) := by
  have hre : ∀ x y z : K, z = x + y → rePart z = rePart x + rePart y := by
    rintro x y z rfl
    exact rePart_add x y
  unfold Danse.hermExt
  have h1 : Sums (a.modify 0 rePart) (b.modify 0 rePart) (c.modify 0 rePart) :=
    All3.modify hre 0 h
  have h2 : Sums ((a.modify 0 rePart).modify ((a.modify 0 rePart).length - 1) rePart)
      ((b.modify 0 rePart).modify ((b.modify 0 rePart).length - 1) rePart)
      ((c.modify 0 rePart).modify ((c.modify 0 rePart).length - 1) rePart) := by
    rw [All3.length h1 |>.1, All3.length h1 |>.2]
    exact All3.modify hre _ h1
  exact All3.append h2 (All3.dropLast (All3.reverse (Sums.map (fun x y => star_add x y) (All3.dropLast h2))))

theorem Sums.backToTD {a b c : List K} (h : Sums a b c) :
    Ok3 Sums (Danse.backToTD ζ N a) (Danse.backToTD ζ N b) (Danse.backToTD ζ N c) := by
  unfold Danse.backToTD
  rw [All3.length h |>.1, All3.length h |>.2]
  split
  · exact Ok3.err
  · split
    · exact Ok3.err
    · exact Ok3.ok h.hermExt.idft

variable [DecidableEq K] {Ns : Nat}

theorem Sums.overlapAdd {win p q r a b c : List K} (hp : Sums p q r) (h : Sums a b c)
    (h1 : silent p = silent r) (h2 : silent q = silent r) :
    Ok3 Sums (Danse.overlapAdd N Ns win p a) (Danse.overlapAdd N Ns win q b)
      (Danse.overlapAdd N Ns win r c) := by
  unfold silent at h1 h2
  unfold Danse.overlapAdd
  rw [h1, h2]
  split
  · exact Ok3.ok h
  · split
    · exact Ok3.err
    · split
      · exact Ok3.err
      · apply Ok3.bind (R := fun x y z => x = z ∧ y = z) (a := normVal N Ns win)
        · intro x y hx hy
          rw [hx] at hy
          injection hy with hy
          exact ⟨x, hx, rfl, hy.symm⟩
        · rintro x y nv ⟨rfl, rfl⟩
          apply Ok3.ok
          apply All3.range
          intro j _
          simp only [All3.length hp |>.1, All3.length hp |>.2, hp.at0, h.at0]
          split <;> split <;> ring

theorem SumsM.wholeChunk {cc : K} {win f p q r : List K} {a b c : List (List K)} (h : SumsM a b c)
    (w : List (List K)) (hp : Sums p q r) (h1 : silent p = silent r) (h2 : silent q = silent r) :
    Ok3 Sums (Danse.wholeChunk ζ N Ns cc win f a w p) (Danse.wholeChunk ζ N Ns cc win f b w q)
      (Danse.wholeChunk ζ N Ns cc win f c w r) := by
  unfold Danse.wholeChunk
  have ha : SumsM (a.map (analysis ζ N cc win)) (b.map (analysis ζ N cc win))
      (c.map (analysis ζ N cc win)) := All3.map (fun x y z hz => Sums.analysis hz cc win) h
  apply (SumsM.combine ha _ w).backToTD.bind
  intro x y z hz
  exact Sums.overlapAdd hp ((Sums.map (fun u v => mul_add cc u v) hz).zipWith_right f) h1 h2

omit [DecidableEq K] in
theorem Sums.extractConv {a b c : List K} (h : Sums a b c) (ids : List Int) (w : List K) :
    Ok3 Sums (Danse.extractConv ids w a) (Danse.extractConv ids w b) (Danse.extractConv ids w c) := by
  unfold Danse.extractConv
  have hz : Sums (List.replicate w.length 0 ++ a ++ List.replicate w.length 0)
      (List.replicate w.length 0 ++ b ++ List.replicate w.length 0)
      (List.replicate w.length 0 ++ c ++ List.replicate w.length 0) := by
    have h0 : Sums (List.replicate w.length (0 : K)) (List.replicate w.length 0)
        (List.replicate w.length 0) := All3.replicate _ (by simp)
    exact All3.append (All3.append h0 h) h0
  have hi : All3 (fun x y z : Int => x = z ∧ y = z) ids ids ids := by
    induction ids with
    | nil => exact .nil
    | cons x l ih => exact .cons ⟨rfl, rfl⟩ ih
  refine Ok3.mapM ?_ hi
  rintro x y i ⟨rfl, rfl⟩
  have hs := All3.pySlice hz (y + 1) (y + 1 + w.length)
  simp only [All3.length hs |>.1, All3.length hs |>.2]
  split
  · exact Ok3.err
  · exact Ok3.ok (Sums.zipWith_right hs _).sum

omit [DecidableEq K] in
theorem zipFixed {a b c : List (List K)} (h : SumsM a b c) (w : List (List K)) :
    All3 (fun x y z : List K × List K => x.1 = z.1 ∧ y.1 = z.1 ∧ Sums x.2 y.2 z.2)
      (w.zip a) (w.zip b) (w.zip c) := by
  induction h generalizing w with
  | nil => simp only [List.zipWith_nil_left, List.zipWith_nil_right, List.zip_nil_left, List.zip_nil_right, List.map_nil]; exact All3.nil
  | cons hx _ ih =>
    cases w with
    | nil => simp only [List.zipWith_nil_left, List.zipWith_nil_right, List.zip_nil_left, List.zip_nil_right, List.map_nil]; exact All3.nil
    | cons v w => exact .cons ⟨rfl, rfl, hx⟩ (ih w)

omit [DecidableEq K] in
theorem SumsM.sumChannels {a b c : List (List K)} (h : SumsM a b c) (L : Nat) :
    Sums (Danse.sumChannels L a) (Danse.sumChannels L b) (Danse.sumChannels L c) := by
  apply All3.range
  intro i _
  exact Sums.sum (All3.map (fun x y z hz => Sums.at0 hz i) h)

omit [DecidableEq K] in
theorem SumsM.fewSamples {a b c : List (List K)} (h : SumsM a b c) (L P : Nat) (w : List (List K)) :
    Ok3 Sums (Danse.fewSamples L P w a) (Danse.fewSamples L P w b) (Danse.fewSamples L P w c) := by
  unfold Danse.fewSamples
  apply (Ok3.mapM (S := Sums) ?_ (zipFixed h w)).bind
  · intro x y z hz
    exact Ok3.ok (SumsM.sumChannels hz L)
  · rintro ⟨x1, x2⟩ ⟨y1, y2⟩ ⟨z1, z2⟩ ⟨h1, h2, h3⟩
    simp only at h1 h2 h3
    subst h1; subst h2
    exact Sums.extractConv h3 _ _

omit [DecidableEq K] in
theorem SumsM.desiredConv {a b c : List (List K)} (h : SumsM a b c) (L P : Nat) (w : List (List K)) :
    Ok3 Sums (Danse.desiredConv L P w a) (Danse.desiredConv L P w b) (Danse.desiredConv L P w c) := by
  unfold Danse.desiredConv
  apply (Ok3.mapM (S := Sums) ?_ (zipFixed h w)).bind
  · intro x y z hz
    exact Ok3.ok (SumsM.sumChannels hz L)
  · rintro ⟨x1, x2⟩ ⟨y1, y2⟩ ⟨z1, z2⟩ ⟨h1, h2, h3⟩
    simp only at h1 h2 h3
    subst h1; subst h2
    exact Sums.extractConv h3 _ _

omit [DecidableEq K] in
theorem SumsM.desiredFrame {a b c : List (List K)} (h : SumsM a b c) (cc : K) (win : List K)
    (w : List (List K)) :
    Ok3 Sums (Danse.desiredFrame ζ N cc win w a) (Danse.desiredFrame ζ N cc win w b)
      (Danse.desiredFrame ζ N cc win w c) := by
  unfold Danse.desiredFrame
  apply (SumsM.combine h _ w).backToTD.bind
  intro x y z hz
  exact Ok3.ok (hz.zipWith_left _ (fun w x y => by ring) win)

omit [DecidableEq K] in
theorem Sums.addFrame {d1 d2 d3 a b c : List K} (hd : Sums d1 d2 d3) (h : Sums a b c) (i j : Nat) :
    Ok3 Sums (Danse.addFrame d1 i j a) (Danse.addFrame d2 i j b) (Danse.addFrame d3 i j c) := by
  unfold Danse.addFrame
  simp only [All3.length hd |>.1, All3.length hd |>.2, All3.length h |>.1, All3.length h |>.2]
  split
  · exact Ok3.err
  · apply Ok3.ok
    refine All3.map ?_ (All3.zipIdx hd 0)
    rintro ⟨x, n⟩ ⟨y, n'⟩ ⟨z, m⟩ ⟨hz, e1, e2⟩
    simp only at hz e1 e2
    subst e1 hz
    subst e2
    simp only
    split
    · rw [h.at0]; ring
    · rfl

omit [DecidableEq K] in
theorem Sums.setSlice {d1 d2 d3 a b c : List K} (hd : Sums d1 d2 d3) (h : Sums a b c) (i j : Int) :
    Ok3 Sums (Danse.setSlice d1 i j a) (Danse.setSlice d2 i j b) (Danse.setSlice d3 i j c) := by
  unfold Danse.setSlice
  simp only [All3.length hd |>.1, All3.length hd |>.2, All3.length h |>.1, All3.length h |>.2]
  split
  · apply Ok3.ok
    refine All3.map ?_ (All3.zipIdx hd 0)
    rintro ⟨x, n⟩ ⟨y, n'⟩ ⟨z, m⟩ ⟨hz, e1, e2⟩
    simp only at hz e1 e2
    subst e1 hz
    subst e2
    simp only
    split
    · rw [h.at0]
    · rfl
  · exact Ok3.err

end
end Danse
