import Verif.Model.TI
import Verif.Proofs.Tree
import Verif.Proofs.Dft

namespace Danse
section
variable {K : Type} [Field K] {V : Type} [DecidableEq V]

/-- The fused frame of node `v` used at the current instant: the most recent samples. -/
def fusedFrame (Ns : Nat) (prime buf : V → List K) (v : V) : List K :=
  (prime v).drop Ns ++ (buf v).take Ns

theorem fusedFrame_length {N Ns : Nat} {prime buf : V → List K} {v : V}
    (h1 : (prime v).length = N) (h2 : Ns ≤ (buf v).length) (h : Ns < N) :
    (fusedFrame Ns prime buf v).length = N := by
  unfold fusedFrame; simp; omega

theorem at0_zipWith' {f : K → K → K} {x y : List K} {i : Nat} (h : i < x.length)
    (h' : i < y.length) : at0 (List.zipWith f x y) i = f (at0 x i) (at0 y i) := by
  unfold at0
  rw [getD_lt (by simp; omega), getD_lt h, getD_lt h', List.getElem_zipWith]

theorem slice_frame {N Ns : Nat} {p b : List K} (h1 : p.length = N) (h : Ns < N) :
    pySlice p (-((N : Int) - Ns)) p.length ++ pySlice b 0 Ns = p.drop Ns ++ b.take Ns := by
  congr 1
  · unfold pySlice pySliceBound
    simp only
    rw [if_pos (by omega : (-((N : Int) - Ns)) < 0), if_neg (by omega), show ((-((N : Int) - Ns)) + (p.length : Int)).toNat = Ns by omega]
    apply List.take_of_length_le
    simp
  · unfold pySlice pySliceBound
    simp only
    rw [if_neg (by omega), if_neg (by omega)]
    simp [List.take_take]

theorem foldlM_cons_ok {β γ : Type} {f : γ → β → Except PyErr γ} {a : γ} {b : β} {l : List β}
    {a' : γ} (h : f a b = .ok a') : (b :: l).foldlM f a = l.foldlM f a' := by
  rw [List.foldlM_cons, h]; rfl

theorem foldlM_append_ok {β γ : Type} {f : γ → β → Except PyErr γ} {a a' : γ} {l m : List β}
    (h : l.foldlM f a = .ok a') : (l ++ m).foldlM f a = m.foldlM f a' := by
  rw [List.foldlM_append, h]; rfl

theorem npIAdd_ok {a b : List K} (h : a.length = b.length) :
    npIAdd a b = .ok (List.zipWith (· + ·) a b) := by unfold npIAdd; rw [if_pos h]

theorem npSub_ok {a b : List K} (h : a.length = b.length) :
    npSub a b = .ok (List.zipWith (· - ·) a b) := by unfold npSub; rw [if_pos h]

/-- The inner loop of the partial sum. -/
theorem partialLoop {N : Nat} (hN : 0 < N) {k : V} : ∀ (l : List V) (s : TIState V K), k ∉ l →
    (s.zloc k).length = N → (∀ c ∈ l, (s.zloc c).length = N) →
    ∃ z, l.foldlM (fun (s : TIState V K) l =>
      if (s.zloc l).length = 0 then (.ok s : Except PyErr _)
      else do
        let z ← npIAdd (s.zloc k) (s.zloc l)
        .ok { s with zloc := Function.update s.zloc k z }) s =
        .ok { s with zloc := Function.update s.zloc k z } ∧ z.length = N ∧
      ∀ t < N, at0 z t = at0 (s.zloc k) t + (l.map fun c => at0 (s.zloc c) t).sum := by
  intro l
  induction l with
  | nil =>
    intro s _ h1 _
    exact ⟨s.zloc k, by simp; rfl, h1, by simp⟩
  | cons c l ih =>
    intro s hk h1 h2
    have hc := h2 c (by simp)
    have hkc : c ≠ k := by rintro rfl; simp at hk
    have hstep : (fun (s : TIState V K) l =>
      if (s.zloc l).length = 0 then (.ok s : Except PyErr _)
      else do
        let z ← npIAdd (s.zloc k) (s.zloc l)
        .ok { s with zloc := Function.update s.zloc k z }) s c =
        .ok { s with zloc := Function.update s.zloc k (List.zipWith (· + ·) (s.zloc k) (s.zloc c)) } := by
      simp only
      rw [if_neg (by omega), npIAdd_ok (by omega)]
      rfl
    rw [foldlM_cons_ok hstep]
    obtain ⟨z, e1, e2, e3⟩ := ih
      { s with zloc := Function.update s.zloc k (List.zipWith (· + ·) (s.zloc k) (s.zloc c)) }
      (by simp at hk; exact hk.2) (by simp; omega)
      (by
        intro x hx
        have : x ≠ k := by rintro rfl; simp at hk; exact hk.2 hx
        simp only [Function.update_of_ne this]
        exact h2 x (by simp [hx]))
    refine ⟨z, by rw [e1]; simp, e2, ?_⟩
    intro t ht
    rw [e3 t ht]
    simp only [Function.update_self]
    rw [at0_zipWith' (by omega) (by omega), List.map_cons, List.sum_cons, add_assoc]
    congr 2
    congr 1
    apply List.map_congr_left
    intro x hx
    have : x ≠ k := by rintro rfl; simp at hk; exact hk.2 hx
    simp only [Function.update_of_ne this]

/-- One partial sum. -/
theorem tiPartialSum_ok {N Ns : Nat} (h : Ns < N) {up : V → List V} {root k : V} {s : TIState V K}
    (hk : k ∉ up k) (hp : (s.prime k).length = N) (hb : Ns ≤ (s.buf k).length)
    (hc : ∀ c ∈ up k, (s.zloc c).length = N) :
    ∃ s', tiPartialSum up root N Ns s k = .ok s' ∧
      s'.prime = Function.update s.prime k (fusedFrame Ns s.prime s.buf k) ∧ s'.buf = s.buf ∧
      (∀ v, v ≠ k → s'.zloc v = s.zloc v) ∧ (s'.zloc k).length = N ∧
      (∀ t < N, at0 (s'.zloc k) t = at0 (fusedFrame Ns s.prime s.buf k) t +
        ((up k).map fun c => at0 (s.zloc c) t).sum) ∧
      (root ≠ k → s'.eta = s.eta ∧ s'.etaMk = s.etaMk) ∧
      (root = k → s'.eta k = s'.zloc k ∧ (s'.etaMk k).length = N ∧
        ∀ t < N, at0 (s'.etaMk k) t = at0 (s'.zloc k) t - at0 (fusedFrame Ns s.prime s.buf k) t) := by
  have hfl := fusedFrame_length hp hb h
  unfold tiPartialSum
  simp only
  rw [slice_frame hp h]
  obtain ⟨z, e1, e2, e3⟩ := partialLoop (K := K) (by omega : 0 < N) (up k)
    { s with prime := Function.update s.prime k (fusedFrame Ns s.prime s.buf k),
             zloc := Function.update s.zloc k (fusedFrame Ns s.prime s.buf k) } hk
    (by simp [hfl])
    (by
      intro c hc'
      have : c ≠ k := by rintro rfl; exact hk hc'
      simp only [Function.update_of_ne this]
      exact hc c hc')
  unfold fusedFrame at e1
  rw [e1]
  simp only [bind, Except.bind, Function.update_idem]
  have hz : ∀ t < N, at0 z t = at0 (fusedFrame Ns s.prime s.buf k) t +
        ((up k).map fun c => at0 (s.zloc c) t).sum := by
    intro t ht
    rw [e3 t ht]
    simp only [Function.update_self]
    congr 2
    apply List.map_congr_left
    intro c hc'
    have : c ≠ k := by rintro rfl; exact hk hc'
    simp only [Function.update_of_ne this]
  by_cases hr : root = k
  · rw [if_pos hr]
    simp only [Function.update_self]
    rw [npSub_ok (by rw [e2]; exact hfl.symm)]
    refine ⟨_, rfl, rfl, rfl, ?_, ?_, ?_, ?_, ?_⟩
    · intro v hv; simp only [Function.update_of_ne hv]
    · simpa using e2
    · intro t ht; simp only [Function.update_self]; exact hz t ht
    · intro hc'; exact absurd hr hc'
    · intro _
      simp only [Function.update_self, true_and]
      have hfl' : ((s.prime k).drop Ns ++ (s.buf k).take Ns).length = N := hfl
      refine ⟨by rw [List.length_zipWith, e2, hfl']; simp, ?_⟩
      intro t ht
      rw [at0_zipWith' (by omega) (by omega)]
      rfl
  · rw [if_neg hr]
    refine ⟨_, rfl, rfl, rfl, ?_, ?_, ?_, ?_, ?_⟩
    · intro v hv; simp only [Function.update_of_ne hv]
    · simpa using e2
    · intro t ht; simp only [Function.update_self]; exact hz t ht
    · intro _; exact ⟨rfl, rfl⟩
    · intro hc'; exact absurd hc' hr

/-- Partial sums at all nodes of `l`, upstream neighbours first. -/
theorem partialRun {N Ns : Nat} (h : Ns < N) {up : V → List V} {root : V} {fused : V → List K} :
    ∀ (l pre : List V) (s : TIState V K) (f : V → List K), (pre ++ l).Nodup →
    (∀ k ∈ l, k ∉ up k ∧ (s.prime k).length = N ∧ Ns ≤ (s.buf k).length ∧
      f k = fusedFrame Ns s.prime s.buf k) →
    (∀ a b l1 l2, l = l1 ++ a :: l2 → b ∈ up a → b ∈ pre ++ l1) →
    (∀ k ∈ pre, s.prime k = f k ∧ (s.zloc k).length = N ∧ (∀ c ∈ up k, c ∈ pre) ∧
      ∀ t < N, at0 (s.zloc k) t = at0 (f k) t + ((up k).map fun c => at0 (s.zloc c) t).sum) →
    (root ∈ pre → s.eta root = s.zloc root ∧ (s.etaMk root).length = N ∧
      ∀ t < N, at0 (s.etaMk root) t = at0 (s.zloc root) t - at0 (f root) t) →
    ∃ s', (l.map TIEv.bc).foldlM (tiEvent up root N Ns fused) s = .ok s' ∧
      (∀ k ∈ pre ++ l, s'.prime k = f k ∧ (s'.zloc k).length = N ∧
        ∀ t < N, at0 (s'.zloc k) t = at0 (f k) t + ((up k).map fun c => at0 (s'.zloc c) t).sum) ∧
      (root ∈ pre ++ l → s'.eta root = s'.zloc root ∧ (s'.etaMk root).length = N ∧
        ∀ t < N, at0 (s'.etaMk root) t = at0 (s'.zloc root) t - at0 (f root) t) := by
  intro l
  induction l with
  | nil =>
    intro pre s f _ _ _ h3 h4
    refine ⟨s, rfl, ?_, by simpa using h4⟩
    intro k hk
    have := h3 k (by simpa using hk)
    exact ⟨this.1, this.2.1, this.2.2.2⟩
  | cons k l ih =>
    intro pre s f hn h1 h2 h3 h4
    obtain ⟨hk1, hk2, hk3, hk4⟩ := h1 k (by simp)
    have hup : ∀ b ∈ up k, b ∈ pre := fun b hb => by simpa using h2 k b [] l rfl hb
    have hkpre : k ∉ pre := fun hc => (List.nodup_append.mp hn).2.2 k hc k (by simp) rfl
    obtain ⟨s', e1, e2, e3, e4, e5, e6, e7, e8⟩ := tiPartialSum_ok (up := up) (root := root) h hk1
      hk2 hk3 (fun c hc => (h3 c (hup c hc)).2.1)
    have hpre : ∀ x ∈ pre, x ≠ k := by rintro x hx rfl; exact hkpre hx
    rw [List.map_cons, foldlM_cons_ok (f := tiEvent up root N Ns fused) (b := TIEv.bc k) (a' := s') e1]
    obtain ⟨s'', g1, g2, g3⟩ := ih (pre ++ [k]) s' f (by simpa using hn)
      (by
        intro x hx
        obtain ⟨a1, a2, a3, a4⟩ := h1 x (by simp [hx])
        have hxk : x ≠ k := by
          rintro rfl
          have := (List.nodup_append.mp hn).2.1
          exact (List.nodup_cons.mp this).1 hx
        refine ⟨a1, ?_, ?_, ?_⟩
        · rw [e2, Function.update_of_ne hxk]; exact a2
        · rw [e3]; exact a3
        · rw [a4]; unfold fusedFrame; rw [e2, e3, Function.update_of_ne hxk])
      (by
        intro a b l1 l2 hl hb
        have := h2 a b (k :: l1) l2 (by rw [hl]; rfl) hb
        simpa using this)
      (by
        intro x hx
        rcases List.mem_append.mp hx with hx | hx
        · obtain ⟨a1, a2, a3, a4⟩ := h3 x hx
          refine ⟨?_, ?_, fun c hc => by simp [a3 c hc], ?_⟩
          · rw [e2, Function.update_of_ne (hpre x hx)]; exact a1
          · rw [e4 x (hpre x hx)]; exact a2
          · intro t ht
            rw [e4 x (hpre x hx), a4 t ht]
            congr 2
            apply List.map_congr_left
            intro c hc
            rw [e4 c (hpre c (a3 c hc))]
        · rw [List.mem_singleton] at hx
          subst hx
          refine ⟨?_, e5, fun c hc => by simp [hup c hc], ?_⟩
          · rw [e2, Function.update_self, hk4]
          · intro t ht
            rw [e6 t ht, ← hk4]
            congr 2
            apply List.map_congr_left
            intro c hc
            rw [e4 c (hpre c (hup c hc))])
      (by
        intro hr
        rcases List.mem_append.mp hr with hr | hr
        · have hne := hpre root hr
          obtain ⟨b1, b2⟩ := e7 hne
          rw [b1, b2, e4 root hne]
          exact h4 hr
        · rw [List.mem_singleton] at hr
          obtain ⟨b1, b2, b3⟩ := e8 hr
          rw [← hr] at b1 b2 b3 hk4
          refine ⟨b1, b2, ?_⟩
          intro t ht
          rw [b3 t ht, hk4])
    refine ⟨s'', g1, ?_, ?_⟩
    · intro x hx; exact g2 x (by simpa using hx)
    · intro hr; exact g3 (by simpa using hr)

/-- One relay. -/
theorem relayLoop {N : Nat} (hN : 0 < N) {k : V} : ∀ (l : List V) (s : TIState V K), k ∉ l →
    (s.eta k).length = N → (∀ c ∈ l, (s.prime c).length = N) →
    ∃ s', l.foldlM (fun (s : TIState V K) l => (do
      let s1 : TIState V K := { s with eta := Function.update s.eta l (s.eta k) }
      if (s1.eta l).length > 0 then do
        let e ← npSub (s1.eta l) (s1.prime l)
        .ok { s1 with etaMk := Function.update s1.etaMk l e }
      else .ok { s1 with etaMk := Function.update s1.etaMk l [] } : Except PyErr _)) s = .ok s' ∧
      s'.prime = s.prime ∧ s'.buf = s.buf ∧
      (∀ v, v ∉ l → s'.eta v = s.eta v ∧ s'.etaMk v = s.etaMk v) ∧
      (∀ v, v ∈ l → s'.eta v = s.eta k ∧
        s'.etaMk v = List.zipWith (· - ·) (s.eta k) (s.prime v)) := by
  intro l
  induction l with
  | nil => intro s _ _ _; exact ⟨s, rfl, rfl, rfl, fun v _ => ⟨rfl, rfl⟩, fun v hv => by cases hv⟩
  | cons c l ih =>
    intro s hk h1 h2
    have hck : k ≠ c := by rintro rfl; simp at hk
    have hstep : (fun (s : TIState V K) l => (do
      let s1 : TIState V K := { s with eta := Function.update s.eta l (s.eta k) }
      if (s1.eta l).length > 0 then do
        let e ← npSub (s1.eta l) (s1.prime l)
        .ok { s1 with etaMk := Function.update s1.etaMk l e }
      else .ok { s1 with etaMk := Function.update s1.etaMk l [] } : Except PyErr _)) s c =
        .ok { s with eta := Function.update s.eta c (s.eta k),
                     etaMk := Function.update s.etaMk c
                      (List.zipWith (· - ·) (s.eta k) (s.prime c)) } := by
      simp only [Function.update_self]
      rw [if_pos (by omega), npSub_ok (by rw [h1, h2 c (by simp)])]
      rfl
    rw [foldlM_cons_ok hstep]
    obtain ⟨s', g1, g2, g3, g4, g5⟩ := ih
      { s with eta := Function.update s.eta c (s.eta k),
               etaMk := Function.update s.etaMk c (List.zipWith (· - ·) (s.eta k) (s.prime c)) }
      (by simp at hk; exact hk.2) (by simp only [Function.update_of_ne hck]; exact h1)
      (fun x hx => h2 x (by simp [hx]))
    refine ⟨s', g1, g2, g3, ?_, ?_⟩
    · intro v hv
      simp only [List.mem_cons, not_or] at hv
      obtain ⟨a, b⟩ := g4 v hv.2
      simp only [Function.update_of_ne hv.1] at a b
      exact ⟨a, b⟩
    · intro v hv
      by_cases hvl : v ∈ l
      · obtain ⟨a, b⟩ := g5 v hvl
        simp only [Function.update_of_ne hck] at a b
        exact ⟨a, b⟩
      · obtain ⟨a, b⟩ := g4 v hvl
        have hvc : v = c := by
          rcases List.mem_cons.mp hv with h | h
          · exact h
          · exact absurd h hvl
        subst hvc
        simp only [Function.update_self] at a b
        exact ⟨a, b⟩

/-- Relays at all nodes of `l`, downstream neighbour first: every reached node ends with the
root's sum. `reached` is the set of nodes holding the sum. -/
theorem relayRun {N Ns : Nat} (hN : 0 < N) {up : V → List V} {root : V} {fused : V → List K}
    (hself : ∀ v, v ∉ up v) :
    ∀ (l pre : List V) (s : TIState V K) (E : List K) (f : V → List K), E.length = N →
    (∀ v, s.prime v = f v ∧ (f v).length = N) →
    (∀ k l1 l2, l = l1 ++ k :: l2 → k = root ∨ ∃ b ∈ pre ++ l1, k ∈ up b) →
    (∀ v, (v = root ∨ ∃ b ∈ pre, v ∈ up b) →
      s.eta v = E ∧ s.etaMk v = List.zipWith (· - ·) E (f v)) →
    ∃ s', (l.map TIEv.re).foldlM (tiEvent up root N Ns fused) s = .ok s' ∧
      (∀ v, s'.prime v = f v) ∧
      (∀ v, (v = root ∨ ∃ b ∈ pre ++ l, v ∈ up b) →
        s'.eta v = E ∧ s'.etaMk v = List.zipWith (· - ·) E (f v)) := by
  intro l
  induction l with
  | nil => intro pre s E f _ h1 _ h3; exact ⟨s, rfl, fun v => (h1 v).1, by simpa using h3⟩
  | cons k l ih =>
    intro pre s E f hE h1 h2 h3
    have hk : s.eta k = E := (h3 k (by simpa using h2 k [] l rfl)).1
    obtain ⟨s', g1, g2, g3, g4, g5⟩ := relayLoop hN (up k) s (hself k) (by rw [hk]; exact hE)
      (fun c _ => by rw [(h1 c).1]; exact (h1 c).2)
    rw [List.map_cons, foldlM_cons_ok (f := tiEvent up root N Ns fused) (b := TIEv.re k) (a' := s') g1]
    obtain ⟨s'', e1, e2, e3⟩ := ih (pre ++ [k]) s' E f hE
      (fun v => by rw [g2]; exact h1 v)
      (by
        intro x l1 l2 hl
        have := h2 x (k :: l1) l2 (by rw [hl]; rfl)
        simpa using this)
      (by
        intro v hv
        by_cases hvk : v ∈ up k
        · obtain ⟨a, b⟩ := g5 v hvk
          rw [a, b, hk, (h1 v).1]; exact ⟨rfl, rfl⟩
        · obtain ⟨a, b⟩ := g4 v hvk
          rw [a, b]
          apply h3
          rcases hv with hv | ⟨b, hb, hv⟩
          · exact .inl hv
          · rcases List.mem_append.mp hb with hb | hb
            · exact .inr ⟨b, hb, hv⟩
            · rw [List.mem_singleton] at hb
              exact absurd (hb ▸ hv) hvk)
    exact ⟨s'', e1, e2, by simpa using e3⟩

/-- Fusion at all nodes of `l`. -/
theorem fuseRun {N Ns : Nat} {up : V → List V} {root : V} {fused : V → List K} :
    ∀ (l : List V) (s : TIState V K), ∃ s',
      (l.map TIEv.fu).foldlM (tiEvent up root N Ns fused) s = .ok s' ∧
      s'.prime = s.prime ∧ (∀ v ∈ l, s'.buf v = fused v) := by
  have key : ∀ (l : List V) (s : TIState V K),
      ∃ s', (l.map TIEv.fu).foldlM (tiEvent up root N Ns fused) s = .ok s' ∧
        s'.prime = s.prime ∧ (∀ v, s'.buf v = if v ∈ l then fused v else s.buf v) := by
    intro l
    induction l with
    | nil => intro s; exact ⟨s, rfl, rfl, by simp⟩
    | cons k l ih =>
      intro s
      rw [List.map_cons,
        foldlM_cons_ok (a' := { s with buf := Function.update s.buf k (fused k) }) rfl]
      obtain ⟨s', e1, e2, e3⟩ := ih { s with buf := Function.update s.buf k (fused k) }
      refine ⟨s', e1, e2, ?_⟩
      intro v
      rw [e3 v]
      by_cases hv : v ∈ l
      · rw [if_pos hv, if_pos (by simp [hv])]
      · rw [if_neg hv]
        by_cases hvk : v = k
        · subst hvk; simp
        · rw [if_neg (by simp [hv, hvk])]; simp only [Function.update_of_ne hvk]
  intro l s
  obtain ⟨s', e1, e2, e3⟩ := key l s
  exact ⟨s', e1, e2, fun v hv => by rw [e3 v, if_pos hv]⟩

/-- Telescoping the partial sums over the levels of the tree. -/
theorem rt_total [Fintype V] {nbr : V → List V} {root : V} {par : V → V} {dep : V → Nat}
    (h : RT nbr root par dep) {Z f : V → K}
    (hZ : ∀ v, Z v = f v + ((kidsIn root par v (nbr v)).map Z).sum) :
    Z root = ∑ v, f v := by
  obtain ⟨M, hM1, hM⟩ := h.exists_max
  have step : ∀ d, ((lvl nbr root par d).map Z).sum =
      ((lvl nbr root par d).map f).sum + ((lvl nbr root par (d + 1)).map Z).sum := by
    intro d
    simp only [lvl]
    generalize lvl nbr root par d = L
    induction L with
    | nil => simp
    | cons v L ih =>
      simp only [List.map_cons, List.sum_cons, List.flatMap_cons, List.map_append,
        List.sum_append, ih]
      rw [hZ v]; ring
  have tel : ∀ d, Z root = ((below nbr root par d).map f).sum +
      ((lvl nbr root par d).map Z).sum := by
    intro d
    induction d with
    | zero => simp [below, lvl]
    | succ d ih =>
      rw [ih, step d]
      unfold below
      rw [List.range_succ, List.flatMap_append]
      simp only [List.map_append, List.sum_append, List.flatMap_cons, List.flatMap_nil,
        List.append_nil]
      ring
  rw [tel (M + 1), (hM (M + 1)).mpr (by omega), List.map_nil, List.sum_nil, add_zero]
  have hnd : (below nbr root par (M + 1)).Nodup := by
    unfold below
    rw [List.nodup_flatMap]
    refine ⟨fun d _ => nodup_lvl h d, ?_⟩
    refine List.nodup_range.imp ?_
    intro a b hab x hx hy
    rw [mem_lvl h] at hx hy
    exact hab (hx.symm.trans hy)
  rw [← List.sum_toFinset f hnd]
  apply Finset.sum_congr _ (fun _ _ => rfl)
  ext v
  simp only [List.mem_toFinset, Finset.mem_univ, iff_true]
  rw [mem_below h]
  by_contra hc
  have h1 := (hM (dep v)).mpr (by omega)
  have h2 := (mem_lvl h (dep v)).mpr (rfl : dep v = dep v)
  rw [h1] at h2; cases h2

end
end Danse
