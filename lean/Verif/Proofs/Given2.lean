import Verif.Proofs.Given

/-!
# Helper lemmas for C30: additivity of a whole run with given filters
-/

set_option linter.unusedSectionVars false

namespace Danse
section
variable {K : Type} [Field K] [StarRing K] [DecidableEq K]

/-- Equal values in three runs. -/
def Same {α : Type} (x y z : α) : Prop := x = z ∧ y = z

theorem Ok3.same {α : Type} (a : Except PyErr α) : Ok3 Same a a a := by
  intro x y hx hy
  rw [hx] at hy
  injection hy with hy
  exact ⟨x, hx, rfl, hy.symm⟩

/-- Buffers, frames and flags of three runs, the third on the sum. -/
structure NetRel (a b c : NetSt K) : Prop where
  it : Same a.it b.it c.it
  flags : Same a.flags b.flags c.flags
  buf : ∀ q i, Sums (a.zBuffer q i) (b.zBuffer q i) (c.zBuffer q i)
  z : ∀ k, SumsM (a.z k) (b.z k) (c.z k)

theorem Sums.nil : Sums ([] : List K) [] [] := All3.nil

theorem Sums.update {a b c : Nat → List K} (h : ∀ i, Sums (a i) (b i) (c i)) (j : Nat) {x y z : List K}
    (hx : Sums x y z) (i : Nat) :
    Sums (Function.update a j x i) (Function.update b j y i) (Function.update c j z i) := by
  by_cases e : i = j
  · subst e; simpa using hx
  · simpa [Function.update_of_ne e] using h i

theorem fillBuffers_sums (nb : Nat → List Nat) {a b c : Nat → Nat → List K}
    (h : ∀ q i, Sums (a q i) (b q i) (c q i)) (k : Nat) {x y z : List K} (hx : Sums x y z) :
    Ok3 (fun a b c : Nat → Nat → List K => ∀ q i, Sums (a q i) (b q i) (c q i))
      (fillBuffers nb a k x) (fillBuffers nb b k y) (fillBuffers nb c k z) := by
  unfold fillBuffers
  refine Ok3.foldlM (R := fun a b c : Nat → Nat → List K => ∀ q i, Sums (a q i) (b q i) (c q i))
    (nb k) ?_ h
  intro q _ a b c h
  apply (Ok3.same (slotOf (nb q) k)).bind
  rintro s1 s2 s ⟨rfl, rfl⟩
  apply Ok3.ok
  intro q' i'
  by_cases e : q' = q
  · subst e
    simp only [Function.update_self]
    exact Sums.update (h q') _ (All3.append (h q' _) hx) i'
  · simpa [Function.update_of_ne e] using h q' i'

theorem frameOf_sums {N Ns : Nat} {first : Bool} {p q r x y z : List K} (hp : Sums p q r)
    (h : Sums x y z) :
    Sums (frameOf N Ns first p x).1 (frameOf N Ns first q y).1 (frameOf N Ns first r z).1 ∧
      Same (frameOf N Ns first p x).2 (frameOf N Ns first q y).2 (frameOf N Ns first r z).2 := by
  have h0 : ∀ n, Sums (List.replicate n (0 : K)) (List.replicate n 0) (List.replicate n 0) :=
    fun n => All3.replicate n (by simp)
  unfold frameOf
  simp only [All3.length h |>.1, All3.length h |>.2]
  cases first
  · simp only [Bool.false_eq_true, if_false]
    split
    · exact ⟨All3.append (All3.lastN _ hp) h, rfl, rfl⟩
    · exact ⟨h, rfl, rfl⟩
  · simp only [if_true]
    split
    · exact ⟨h, rfl, rfl⟩
    · split
      · exact ⟨All3.append (h0 _) h, rfl, rfl⟩
      · exact ⟨All3.lastN _ h, rfl, rfl⟩

theorem all3_all {α β γ : Type} {R : α → β → γ → Prop} {p : α → Bool} {q : β → Bool} {r : γ → Bool}
    (hR : ∀ x y z, R x y z → p x = r z ∧ q y = r z) {a : List α} {b : List β} {c : List γ}
    (h : All3 R a b c) : a.all p = c.all r ∧ b.all q = c.all r := by
  induction h with
  | nil => exact ⟨rfl, rfl⟩
  | cons hx _ ih => simp only [List.all_cons, (hR _ _ _ hx).1, (hR _ _ _ hx).2, ih.1, ih.2, and_self]

theorem all3_any {α β γ : Type} {R : α → β → γ → Prop} {p : α → Bool} {q : β → Bool} {r : γ → Bool}
    (hR : ∀ x y z, R x y z → p x = r z ∧ q y = r z) {a : List α} {b : List β} {c : List γ}
    (h : All3 R a b c) : a.any p = c.any r ∧ b.any q = c.any r := by
  induction h with
  | nil => exact ⟨rfl, rfl⟩
  | cons hx _ ih => simp only [List.any_cons, (hR _ _ _ hx).1, (hR _ _ _ hx).2, ih.1, ih.2, and_self]

theorem all3_same {α : Type} {a b c : List α} (h : All3 Same a b c) : Same a b c := by
  induction h with
  | nil => exact ⟨rfl, rfl⟩
  | cons hx _ ih => exact ⟨by rw [hx.1, ih.1], by rw [hx.2, ih.2]⟩

theorem processBuffers_sums (nb : Nat → List Nat) {N Ns : Nat} {a b c : NetSt K} (h : NetRel a b c)
    (k : Nat) :
    Ok3 (fun x y z : List (List K) × List Int => SumsM x.1 y.1 z.1 ∧ Same x.2 y.2 z.2)
      (processBuffers nb N Ns a k) (processBuffers nb N Ns b k) (processBuffers nb N Ns c k) := by
  unfold processBuffers
  rw [h.it.1, h.it.2]
  have hr : All3 (fun x y z : List K × Int => Sums x.1 y.1 z.1 ∧ Same x.2 y.2 z.2)
      ((List.range (nb k).length).map fun idx =>
        frameOf N Ns (c.it k = 0) ((a.z k).getD idx []) (a.zBuffer k idx))
      ((List.range (nb k).length).map fun idx =>
        frameOf N Ns (c.it k = 0) ((b.z k).getD idx []) (b.zBuffer k idx))
      ((List.range (nb k).length).map fun idx =>
        frameOf N Ns (c.it k = 0) ((c.z k).getD idx []) (c.zBuffer k idx)) := by
    apply All3.range
    intro i _
    exact frameOf_sums (All3.getD (R := Sums) (h.z k) .nil i) (h.buf k i)
  have hall := all3_all (p := fun x : List K × Int => decide (x.1.length = N))
    (q := fun x : List K × Int => decide (x.1.length = N))
    (r := fun x : List K × Int => decide (x.1.length = N))
    (fun x y z hz => by simp [All3.length hz.1 |>.1, All3.length hz.1 |>.2]) hr
  simp only [hall.1, hall.2]
  split
  · apply Ok3.ok
    exact ⟨All3.map (fun x y z hz => hz.1) hr, all3_same (All3.map (fun x y z hz => hz.2) hr)⟩
  · exact Ok3.err

theorem netStep_bc_sums (nb : Nat → List Nat) {N Ns : Nat} {a b c : NetSt K} (h : NetRel a b c)
    (k : Nat) {x y z : List K} (hx : Sums x y z) :
    Ok3 NetRel (netStep nb N Ns a (.bc k x)) (netStep nb N Ns b (.bc k y)) (netStep nb N Ns c (.bc k z)) := by
  unfold netStep
  apply (fillBuffers_sums nb h.buf k hx).bind
  intro a' b' c' hb
  exact Ok3.ok ⟨h.it, h.flags, hb, h.z⟩

theorem netStep_up_sums (nb : Nat → List Nat) {N Ns : Nat} {a b c : NetSt K} (h : NetRel a b c)
    (k : Nat) :
    Ok3 NetRel (netStep nb N Ns a (.up k)) (netStep nb N Ns b (.up k)) (netStep nb N Ns c (.up k)) := by
  unfold netStep
  apply (processBuffers_sums nb h k).bind
  rintro ⟨z1, f1⟩ ⟨z2, f2⟩ ⟨z3, f3⟩ ⟨hz, hf⟩
  simp only at hz hf
  apply Ok3.ok
  refine ⟨?_, ?_, ?_, ?_⟩
  · simp only [h.it.1, h.it.2]; exact ⟨rfl, rfl⟩
  · simp only [h.flags.1, h.flags.2, hf.1, hf.2]; exact ⟨rfl, rfl⟩
  · intro q i
    by_cases e : q = k
    · subst e; simpa using Sums.nil
    · simpa [Function.update_of_ne e] using h.buf q i
  · intro q
    by_cases e : q = k
    · subst e; simpa using hz
    · simpa [Function.update_of_ne e] using h.z q

/-- The states of three runs, the third on the sum of the signals of the others. -/
structure GivenRel (a b c : GivenSt K) : Prop where
  net : NetRel a.net b.net c.net
  zLocal : ∀ k, Sums (a.zLocal k) (b.zLocal k) (c.zLocal k)
  wIR : Same a.wIR b.wIR c.wIR
  lastUp : Same a.lastUp b.lastUp c.lastUp
  lastBc : Same a.lastBc b.lastBc c.lastBc
  d : ∀ k, Sums (a.d k) (b.d k) (c.d k)
  dLoc : ∀ k, Sums (a.dLoc k) (b.dLoc k) (c.dLoc k)

theorem localChunk_sums {N : Nat} {x y z : List K} (h : Sums x y z) (e : Int) :
    Ok3 (fun u v w : List K × Int × Int => Sums u.1 v.1 w.1)
      (localChunk x N e) (localChunk y N e) (localChunk z N e) := by
  unfold localChunk
  have hs := All3.pySlice h (max (e - N) 0) e
  simp only [All3.length hs |>.1, All3.length hs |>.2]
  split
  · split
    · exact Ok3.err
    · apply Ok3.ok
      exact All3.append (All3.replicate _ (by simp)) hs
  · exact Ok3.ok hs

theorem any_len {p : Nat → Bool} {a b c : List (List K × Int × Int)}
    (h : All3 (fun u v w : List K × Int × Int => Sums u.1 v.1 w.1) a b c) :
    a.any (fun x => p x.1.length) = c.any (fun x => p x.1.length) ∧
      b.any (fun x => p x.1.length) = c.any (fun x => p x.1.length) :=
  all3_any (fun x y z hz => by simp [All3.length hz |>.1, All3.length hz |>.2]) h

variable {g : GivenCfg K}

theorem broadcast_sums {y1 y2 y3 : Nat → List (List K)} (hy : ∀ k, SumsM (y1 k) (y2 k) (y3 k))
    {a b c : GivenSt K} (h : GivenRel a b c) (t : ℚ) (k : Nat)
    (hs : g.bc = .whole → silent (a.zLocal k) = silent (c.zLocal k) ∧
      silent (b.zLocal k) = silent (c.zLocal k)) :
    Ok3 GivenRel (g.broadcast y1 a t k) (g.broadcast y2 b t k) (g.broadcast y3 c t k) := by
  unfold GivenCfg.broadcast
  have hm : Ok3 (All3 fun u v w : List K × Int × Int => Sums u.1 v.1 w.1)
      ((y1 k).mapM fun ch => chunkForBroadcast ch t (g.fs k) g.N)
      ((y2 k).mapM fun ch => chunkForBroadcast ch t (g.fs k) g.N)
      ((y3 k).mapM fun ch => chunkForBroadcast ch t (g.fs k) g.N) :=
    Ok3.mapM (fun x y z hz => localChunk_sums hz _) (hy k)
  apply hm.bind
  intro f1 f2 f3 hf
  have hany := any_len (p := fun n => decide (n < g.N)) hf
  have hf1 : SumsM (f1.map (·.1)) (f2.map (·.1)) (f3.map (·.1)) :=
    All3.map (f := fun x : List K × Int × Int => x.1) (g := fun x : List K × Int × Int => x.1)
      (k := fun x : List K × Int × Int => x.1) (fun x y z hz => hz) hf
  simp only [hany.1, hany.2]
  split
  · exact Ok3.err
  · rw [h.net.it.1, h.net.it.2]
    cases hbc : g.bc with
    | whole =>
      simp only
      apply (SumsM.wholeChunk hf1 _ (h.zLocal k) (hs hbc).1 (hs hbc).2).bind
      intro z1 z2 z3 hz
      apply (netStep_bc_sums g.nb h.net k (All3.chunkOf _ hz)).bind
      intro n1 n2 n3 hn
      apply Ok3.ok
      exact ⟨hn, fun i => Sums.update h.zLocal k hz i, h.wIR, h.lastUp, h.lastBc, h.d, h.dLoc⟩
    | few L eff =>
      simp only
      have e1 : g.currL a L eff t k = g.currL c L eff t k := by
        unfold GivenCfg.currL; rw [h.lastBc.1]
      have e2 : g.currL b L eff t k = g.currL c L eff t k := by
        unfold GivenCfg.currL; rw [h.lastBc.2]
      have w1 : g.bcFilter a (y1 k).length t k = g.bcFilter c (y3 k).length t k := by
        unfold GivenCfg.bcFilter
        rw [h.lastUp.1, h.wIR.1, h.net.it.1, (hy k).length.1]
      have w2 : g.bcFilter b (y2 k).length t k = g.bcFilter c (y3 k).length t k := by
        unfold GivenCfg.bcFilter
        rw [h.lastUp.2, h.wIR.2, h.net.it.2, (hy k).length.2]
      rw [e1, e2, w1, w2]
      apply (Ok3.same _).bind
      rintro l1 l2 l ⟨rfl, rfl⟩
      apply (Ok3.same _).bind
      rintro u v wIR ⟨rfl, rfl⟩
      apply (SumsM.fewSamples hf1 _ _ _).bind
      intro z1 z2 z3 hz
      apply (netStep_bc_sums g.nb h.net k (All3.chunkOf _ hz)).bind
      intro n1 n2 n3 hn
      apply Ok3.ok
      refine ⟨hn, fun i => Sums.update h.zLocal k hz i, ?_, ?_, ?_, h.d, h.dLoc⟩
      · simp only [h.wIR.1, h.wIR.2]; exact ⟨rfl, rfl⟩
      · simp only [h.lastUp.1, h.lastUp.2]; exact ⟨rfl, rfl⟩
      · simp only [h.lastBc.1, h.lastBc.2]; exact ⟨rfl, rfl⟩

theorem rotate_sums (k i : Nat) {a b c : List (List K)} (h : SumsM a b c) :
    SumsM (g.rotate k i a) (g.rotate k i b) (g.rotate k i c) := by
  unfold GivenCfg.rotate
  refine All3.map ?_ (All3.zipIdx h 0)
  rintro ⟨x, n⟩ ⟨y, n'⟩ ⟨z, m⟩ ⟨hz, e1, e2⟩
  simp only at hz e1 e2
  subst e1
  subst e2
  refine All3.map ?_ (All3.zipIdx hz 0)
  rintro ⟨x, p⟩ ⟨y, p'⟩ ⟨z, q⟩ ⟨hz, e1, e2⟩
  simp only at hz e1 e2
  subst e1 hz
  subst e2
  simp only
  ring

theorem desired_sums (w : List (List K)) {h1 h2 h3 t1 t2 t3 : List (List K)} (hh : SumsM h1 h2 h3)
    (ht : SumsM t1 t2 t3) {d1 d2 d3 : List K} (hd : Sums d1 d2 d3) (b e : Int) :
    Ok3 Sums (g.desired w h1 t1 d1 b e) (g.desired w h2 t2 d2 b e) (g.desired w h3 t3 d3 b e) := by
  unfold GivenCfg.desired
  split
  · apply (Ok3.same _).bind
    rintro u v wIR ⟨rfl, rfl⟩
    apply (SumsM.desiredConv ht _ _ _).bind
    intro c1 c2 c3 hc
    exact Sums.setSlice hd hc _ _
  · apply (SumsM.desiredFrame hh _ _ _).bind
    intro c1 c2 c3 hc
    simp only [All3.length hd |>.1, All3.length hd |>.2]
    exact Sums.addFrame hd hc _ _

theorem update_sums {y1 y2 y3 : Nat → List (List K)} (hy : ∀ k, SumsM (y1 k) (y2 k) (y3 k))
    {a b c : GivenSt K} (h : GivenRel a b c) (t : ℚ) (k : Nat) :
    Ok3 GivenRel (g.update y1 a t k) (g.update y2 b t k) (g.update y3 c t k) := by
  unfold GivenCfg.update
  apply (netStep_up_sums g.nb h.net k).bind
  intro n1 n2 n3 hn
  have hm : Ok3 (All3 fun u v w : List K × Int × Int => Sums u.1 v.1 w.1)
      ((y1 k).mapM fun ch => chunkForUpdate ch t (g.fs k) g.bc.name g.N g.Ns)
      ((y2 k).mapM fun ch => chunkForUpdate ch t (g.fs k) g.bc.name g.N g.Ns)
      ((y3 k).mapM fun ch => chunkForUpdate ch t (g.fs k) g.bc.name g.N g.Ns) := by
    refine Ok3.mapM (fun x y z hz => ?_) (hy k)
    unfold chunkForUpdate
    split
    · exact localChunk_sums hz _
    · split
      · exact localChunk_sums hz _
      · exact Ok3.err
  apply hm.bind
  intro f1 f2 f3 hf
  have hany := any_len (p := fun n => decide (n ≠ g.N)) hf
  have hf1 : SumsM (f1.map (·.1)) (f2.map (·.1)) (f3.map (·.1)) :=
    All3.map (f := fun x : List K × Int × Int => x.1) (g := fun x : List K × Int × Int => x.1)
      (k := fun x : List K × Int × Int => x.1) (fun x y z hz => hz) hf
  simp only [hany.1, hany.2]
  split
  · exact Ok3.err
  · rw [h.net.it.1, h.net.it.2, (hy k).length.1, (hy k).length.2]
    have hT : SumsM (f1.map (·.1) ++ n1.z k) (f2.map (·.1) ++ n2.z k) (f3.map (·.1) ++ n3.z k) :=
      All3.append hf1 (hn.z k)
    have han : ∀ {a b c : List (List K)}, SumsM a b c →
        SumsM (a.map (analysis g.ζ g.N g.c g.h)) (b.map (analysis g.ζ g.N g.c g.h))
          (c.map (analysis g.ζ g.N g.c g.h)) :=
      fun ha => All3.map (R := Sums) (fun x y z hz => Sums.analysis hz g.c g.h) ha
    apply (desired_sums _ (rotate_sums k _ (han hT)) (All3.take _ hT) (h.d k) _ _).bind
    intro d1 d2 d3 hd
    apply (desired_sums _ (han hf1) hf1 (h.dLoc k) _ _).bind
    intro l1 l2 l3 hl
    apply Ok3.ok
    exact ⟨hn, h.zLocal, h.wIR, h.lastUp, h.lastBc, fun i => Sums.update h.d k hd i,
      fun i => Sums.update h.dLoc k hl i⟩

theorem step_sums {y1 y2 y3 : Nat → List (List K)} (hy : ∀ k, SumsM (y1 k) (y2 k) (y3 k))
    {a b c : GivenSt K} (h : GivenRel a b c) (ev : ℚ × Nat × EvType)
    (hs : g.bc = .whole → ∀ k, silent (a.zLocal k) = silent (c.zLocal k) ∧
      silent (b.zLocal k) = silent (c.zLocal k)) :
    Ok3 GivenRel (g.step y1 a ev) (g.step y2 b ev) (g.step y3 c ev) := by
  unfold GivenCfg.step
  split
  · exact broadcast_sums hy h _ _ (fun e => hs e _)
  · exact update_sums hy h _ _
  · exact Ok3.err

theorem init_rel (N r T : Nat) (M : Nat → Nat) :
    GivenRel (GivenSt.init (K := K) N r T M) (GivenSt.init N r T M) (GivenSt.init N r T M) := by
  have h0 : Sums (List.replicate T (0 : K)) (List.replicate T 0) (List.replicate T 0) :=
    All3.replicate T (by simp)
  exact ⟨⟨⟨rfl, rfl⟩, ⟨rfl, rfl⟩, fun _ _ => All3.nil, fun _ => All3.nil⟩, fun _ => All3.nil, ⟨rfl, rfl⟩,
    ⟨rfl, rfl⟩, ⟨rfl, rfl⟩, fun _ => h0, fun _ => h0⟩

theorem run_sums {y1 y2 y3 : Nat → List (List K)} (hy : ∀ k, SumsM (y1 k) (y2 k) (y3 k))
    (evs : List (ℚ × Nat × EvType)) : ∀ {a b c : GivenSt K}, GivenRel a b c →
    (g.bc = .whole → ∀ pre post, evs = pre ++ post → ∀ a' b' c', g.run y1 a pre = .ok a' →
      g.run y2 b pre = .ok b' → g.run y3 c pre = .ok c' →
      ∀ k, silent (a'.zLocal k) = silent (c'.zLocal k) ∧ silent (b'.zLocal k) = silent (c'.zLocal k)) →
    Ok3 GivenRel (g.run y1 a evs) (g.run y2 b evs) (g.run y3 c evs) := by
  induction evs with
  | nil => intro a b c h _; exact Ok3.ok h
  | cons ev evs ih =>
    intro a b c h hs
    unfold GivenCfg.run
    simp only [List.foldlM_cons]
    intro x y hx hy'
    obtain ⟨a1, ha, hx⟩ := bind_ok_inv hx
    obtain ⟨b1, hb, hy'⟩ := bind_ok_inv hy'
    obtain ⟨c1, hc, hr⟩ := step_sums hy h ev
      (fun e k => hs e [] (ev :: evs) rfl a b c rfl rfl rfl k) a1 b1 ha hb
    obtain ⟨z, hz, hrel⟩ := ih hr (by
      intro e pre post hsplit a' b' c' h1 h2 h3 k
      apply hs e (ev :: pre) post (by rw [hsplit]; rfl) a' b' c' _ _ _ k
      · unfold GivenCfg.run; rw [List.foldlM_cons, ha]; exact h1
      · unfold GivenCfg.run; rw [List.foldlM_cons, hb]; exact h2
      · unfold GivenCfg.run; rw [List.foldlM_cons, hc]; exact h3) x y hx hy'
    exact ⟨z, by rw [hc]; exact hz, hrel⟩

end
end Danse
