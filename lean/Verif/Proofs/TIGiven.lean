import Verif.Proofs.Given2
import Verif.Proofs.TIRun2
import Verif.Spec.TIGiven

/-!
# Helper lemmas: TI-DANSE runs with given filters are additive
-/

set_option linter.unusedSectionVars false

namespace Danse
section
variable {n : Nat} {K : Type} [Field K] [StarRing K] [DecidableEq K] {g : GivenCfg K}

theorem Sums.length_eq {a b c : List K} (h : Sums a b c) : a.length = c.length ∧ b.length = c.length :=
  All3.length h

theorem Sums.zipAdd {a b c a' b' c' : List K} (h : Sums a b c) : Sums a' b' c' →
    Sums (List.zipWith (· + ·) a a') (List.zipWith (· + ·) b b') (List.zipWith (· + ·) c c') := by
  induction h generalizing a' b' c' with
  | nil => intro _; exact All3.nil
  | cons hx _ ih =>
    intro h'
    cases h' with
    | nil => exact All3.nil
    | cons hy h' => exact All3.cons (by rw [hx, hy]; ring) (ih h')

theorem Sums.zipSub {a b c a' b' c' : List K} (h : Sums a b c) : Sums a' b' c' →
    Sums (List.zipWith (· - ·) a a') (List.zipWith (· - ·) b b') (List.zipWith (· - ·) c c') := by
  induction h generalizing a' b' c' with
  | nil => intro _; exact All3.nil
  | cons hx _ ih =>
    intro h'
    cases h' with
    | nil => exact All3.nil
    | cons hy h' => exact All3.cons (by rw [hx, hy]; ring) (ih h')

theorem npIAdd_sums {a b c a' b' c' : List K} (h : Sums a b c) (h' : Sums a' b' c') :
    Ok3 Sums (npIAdd a a') (npIAdd b b') (npIAdd c c') := by
  unfold npIAdd
  rw [h.length_eq.1, h.length_eq.2, h'.length_eq.1, h'.length_eq.2]
  split
  · exact Ok3.ok (h.zipAdd h')
  · split
    · refine Ok3.ok (All3.map (fun x y z hz => ?_) h)
      rw [hz, h'.at0]; ring
    · exact Ok3.err

theorem npSub_sums {a b c a' b' c' : List K} (h : Sums a b c) (h' : Sums a' b' c') :
    Ok3 Sums (npSub a a') (npSub b b') (npSub c c') := by
  unfold npSub
  rw [h.length_eq.1, h.length_eq.2, h'.length_eq.1, h'.length_eq.2]
  split
  · exact Ok3.ok (h.zipSub h')
  · split
    · refine Ok3.ok (All3.map (fun x y z hz => ?_) h)
      rw [hz, h'.at0]; ring
    · split
      · refine Ok3.ok (All3.map (fun x y z hz => ?_) h')
        rw [hz, h.at0]; ring
      · exact Ok3.err

variable {V : Type} [DecidableEq V]

structure TINetRel (a b c : TIState V K) : Prop where
  prime : ∀ v, Sums (a.prime v) (b.prime v) (c.prime v)
  buf : ∀ v, Sums (a.buf v) (b.buf v) (c.buf v)
  zloc : ∀ v, Sums (a.zloc v) (b.zloc v) (c.zloc v)
  eta : ∀ v, Sums (a.eta v) (b.eta v) (c.eta v)
  etaMk : ∀ v, Sums (a.etaMk v) (b.etaMk v) (c.etaMk v)

theorem sums_update {a b c : V → List K} (h : ∀ i, Sums (a i) (b i) (c i)) (j : V) {x y z : List K}
    (hx : Sums x y z) (i : V) :
    Sums (Function.update a j x i) (Function.update b j y i) (Function.update c j z i) := by
  by_cases e : i = j
  · subst e; simpa using hx
  · simpa [Function.update_of_ne e] using h i

theorem tiPartialSum_sums (up : V → List V) (root : V) (N Ns : Nat) {a b c : TIState V K} (h : TINetRel a b c) (k : V) :
    Ok3 TINetRel (tiPartialSum up root N Ns a k) (tiPartialSum up root N Ns b k)
      (tiPartialSum up root N Ns c k) := by
  unfold tiPartialSum
  have hp : Sums (pySlice (a.prime k) (-((N : Int) - Ns)) (a.prime k).length ++ pySlice (a.buf k) 0 Ns)
      (pySlice (b.prime k) (-((N : Int) - Ns)) (b.prime k).length ++ pySlice (b.buf k) 0 Ns)
      (pySlice (c.prime k) (-((N : Int) - Ns)) (c.prime k).length ++ pySlice (c.buf k) 0 Ns) := by
    rw [(h.prime k).length_eq.1, (h.prime k).length_eq.2]
    exact All3.append (All3.pySlice (h.prime k) _ _) (All3.pySlice (h.buf k) _ _)
  simp only
  refine (Ok3.foldlM (R := TINetRel) (up k) ?_ ?_).bind ?_
  · intro l _ x y z hr
    rw [(hr.zloc l).length_eq.1, (hr.zloc l).length_eq.2]
    split
    · exact Ok3.ok hr
    · refine (npIAdd_sums (hr.zloc k) (hr.zloc l)).bind ?_
      intro u v w hw
      exact Ok3.ok ⟨hr.prime, hr.buf, fun i => sums_update hr.zloc k hw i, hr.eta, hr.etaMk⟩
  · exact ⟨fun i => sums_update h.prime k hp i, h.buf, fun i => sums_update h.zloc k hp i, h.eta, h.etaMk⟩
  · intro x y z hr
    split
    · refine (npSub_sums (sums_update hr.eta k (hr.zloc k) k) (hr.prime k)).bind ?_
      intro u v w hw
      exact Ok3.ok ⟨hr.prime, hr.buf, hr.zloc, fun i => sums_update hr.eta k (hr.zloc k) i,
        fun i => sums_update hr.etaMk k hw i⟩
    · exact Ok3.ok hr

theorem tiRelay_sums (up : V → List V) {a b c : TIState V K} (h : TINetRel a b c) (k : V) :
    Ok3 TINetRel (tiRelay up a k) (tiRelay up b k) (tiRelay up c k) := by
  unfold tiRelay
  refine Ok3.foldlM (R := TINetRel) (up k) ?_ h
  intro l _ x y z hr
  have he : ∀ i, Sums _ _ _ := fun i => sums_update hr.eta l (hr.eta k) i
  simp only
  rw [(he l).length_eq.1, (he l).length_eq.2]
  split
  · refine (npSub_sums (he l) (hr.prime l)).bind ?_
    intro u v w hw
    exact Ok3.ok ⟨hr.prime, hr.buf, hr.zloc, he, fun i => sums_update hr.etaMk l hw i⟩
  · exact Ok3.ok ⟨hr.prime, hr.buf, hr.zloc, he, fun i => sums_update hr.etaMk l All3.nil i⟩

structure TINodeRel (a b c : TINode K) : Prop where
  ext : Same a.ext b.ext c.ext
  started : Same a.started b.started c.started
  wIR : Same a.wIR b.wIR c.wIR
  lastUp : Same a.lastUp b.lastUp c.lastUp
  lastBc : Same a.lastBc b.lastBc c.lastBc
  hist : Same a.hist.length b.hist.length c.hist.length
  d : Sums a.d b.d c.d
  dLoc : Sums a.dLoc b.dLoc c.dLoc

theorem tiFuse_sums {y1 y2 y3 : List (List K)} (hy : SumsM y1 y2 y3) (t : ℚ) (k : Nat) {a b c : TINode K}
    (h : TINodeRel a b c) {p q r : List K} (hp : Sums p q r)
    (hs : g.bc = .whole → silent p = silent r ∧ silent q = silent r) :
    Ok3 (fun x y z => TINodeRel x.1 y.1 z.1 ∧ Sums x.2 y.2 z.2)
      (tiFuse g y1 t k a p) (tiFuse g y2 t k b q) (tiFuse g y3 t k c r) := by
  unfold tiFuse
  have hm : Ok3 (All3 fun u v w : List K × Int × Int => Sums u.1 v.1 w.1)
      (y1.mapM fun ch => chunkForBroadcast ch t (g.fs k) g.N)
      (y2.mapM fun ch => chunkForBroadcast ch t (g.fs k) g.N)
      (y3.mapM fun ch => chunkForBroadcast ch t (g.fs k) g.N) :=
    Ok3.mapM (fun x y z hz => localChunk_sums hz _) hy
  refine hm.bind ?_
  intro f1 f2 f3 hf
  have hany := any_len (p := fun n => decide (n < g.N)) hf
  have hf1 : SumsM (f1.map (·.1)) (f2.map (·.1)) (f3.map (·.1)) :=
    All3.map (f := fun x : List K × Int × Int => x.1) (g := fun x : List K × Int × Int => x.1)
      (k := fun x : List K × Int × Int => x.1) (fun x y z hz => hz) hf
  simp only [hany.1, hany.2]
  split
  · exact Ok3.ok ⟨h, hp⟩
  · cases hbc : g.bc with
    | whole =>
      simp only
      rw [h.ext.1, h.ext.2, h.started.1, h.started.2, hy.length.1, hy.length.2]
      refine (Ok3.same _).bind ?_
      rintro u v w ⟨rfl, rfl⟩
      refine (SumsM.wholeChunk hf1 _ hp (hs hbc).1 (hs hbc).2).bind ?_
      intro z1 z2 z3 hz
      exact Ok3.ok ⟨h, hz⟩
    | few L eff =>
      simp only
      have e1 : tiCurrL g k a L eff t = tiCurrL g k c L eff t := by
        unfold tiCurrL; rw [h.lastBc.1]
      have e2 : tiCurrL g k b L eff t = tiCurrL g k c L eff t := by
        unfold tiCurrL; rw [h.lastBc.2]
      have w1 : tiBcFilter g y1.length a t = tiBcFilter g y3.length c t := by
        unfold tiBcFilter
        rw [h.lastUp.1, h.wIR.1, h.ext.1, hy.length.1]
      have w2 : tiBcFilter g y2.length b t = tiBcFilter g y3.length c t := by
        unfold tiBcFilter
        rw [h.lastUp.2, h.wIR.2, h.ext.2, hy.length.2]
      rw [e1, e2, w1, w2]
      refine (Ok3.same _).bind ?_
      rintro l1 l2 l ⟨rfl, rfl⟩
      refine (Ok3.same _).bind ?_
      rintro u v wIR ⟨rfl, rfl⟩
      refine (SumsM.fewSamples hf1 _ _ _).bind ?_
      intro z1 z2 z3 hz
      refine Ok3.ok ⟨⟨h.ext, h.started, ⟨rfl, rfl⟩, ?_, ?_, h.hist, h.d, h.dLoc⟩, hz⟩
      · simp only [h.lastUp.1, h.lastUp.2]; exact ⟨rfl, rfl⟩
      · simp only [h.lastBc.1, h.lastBc.2]; exact ⟨rfl, rfl⟩

theorem tiUpdate_sums {F : Nat → Rows K} {y1 y2 y3 : List (List K)} (hy : SumsM y1 y2 y3) (t : ℚ) (k : Nat)
    (bp : Bool) {a b c : TINode K} (h : TINodeRel a b c) {p q r : List K} (hp : Sums p q r) :
    Ok3 TINodeRel (tiUpdate g (fun h => F h.length) (fun _ => false) y1 t k bp a p)
      (tiUpdate g (fun h => F h.length) (fun _ => false) y2 t k bp b q)
      (tiUpdate g (fun h => F h.length) (fun _ => false) y3 t k bp c r) := by
  unfold tiUpdate
  have hm : Ok3 (All3 fun u v w : List K × Int × Int => Sums u.1 v.1 w.1)
      (y1.mapM fun ch => chunkForUpdate ch t (g.fs k) g.bc.name g.N g.Ns)
      (y2.mapM fun ch => chunkForUpdate ch t (g.fs k) g.bc.name g.N g.Ns)
      (y3.mapM fun ch => chunkForUpdate ch t (g.fs k) g.bc.name g.N g.Ns) := by
    refine Ok3.mapM (fun x y z hz => ?_) hy
    unfold chunkForUpdate
    split
    · exact localChunk_sums hz _
    · split
      · exact localChunk_sums hz _
      · exact Ok3.err
  refine hm.bind ?_
  intro f1 f2 f3 hf
  have hany := any_len (p := fun n => decide (n ≠ g.N)) hf
  have hf1 : SumsM (f1.map (·.1)) (f2.map (·.1)) (f3.map (·.1)) :=
    All3.map (f := fun x : List K × Int × Int => x.1) (g := fun x : List K × Int × Int => x.1)
      (k := fun x : List K × Int × Int => x.1) (fun x y z hz => hz) hf
  simp only [hany.1, hany.2, hp.length_eq.1, hp.length_eq.2]
  split
  · exact Ok3.err
  · simp only [List.length_append, List.length_singleton, h.hist.1, h.hist.2]
    have hT : SumsM (f1.map (·.1) ++ [p]) (f2.map (·.1) ++ [q]) (f3.map (·.1) ++ [r]) :=
      All3.append hf1 (All3.cons hp All3.nil)
    have han : ∀ {a b c : List (List K)}, SumsM a b c →
        SumsM (a.map (analysis g.ζ g.N g.c g.h)) (b.map (analysis g.ζ g.N g.c g.h))
          (c.map (analysis g.ζ g.N g.c g.h)) :=
      fun ha => All3.map (R := Sums) (fun x y z hz => Sums.analysis hz g.c g.h) ha
    refine (desired_sums _ (han hT) hf1 h.d _ _).bind ?_
    intro d1 d2 d3 hd
    refine (desired_sums _ (han hf1) hf1 h.dLoc _ _).bind ?_
    intro l1 l2 l3 hl
    refine Ok3.ok ⟨⟨rfl, rfl⟩, ⟨rfl, rfl⟩, h.wIR, h.lastUp, h.lastBc, ?_, hd, hl⟩
    simp only [List.length_append, List.length_singleton, h.hist.1, h.hist.2]
    exact ⟨rfl, rfl⟩

structure TIStRel (a b c : TISt n K) : Prop where
  net : TINetRel a.net b.net c.net
  node : ∀ k, TINodeRel (a.node k) (b.node k) (c.node k)
  up : Same a.up b.up c.up
  root : Same a.root b.root c.root
  formed : Same a.formed b.formed c.formed

theorem nodeRel_update {a b c : Fin n → TINode K} (h : ∀ i, TINodeRel (a i) (b i) (c i)) (j : Fin n)
    {x y z : TINode K} (hx : TINodeRel x y z) (i : Fin n) :
    TINodeRel (Function.update a j x i) (Function.update b j y i) (Function.update c j z i) := by
  by_cases e : i = j
  · subst e; simpa using hx
  · simpa [Function.update_of_ne e] using h i

theorem tiStepEv_sums {F : Fin n → Nat → Rows K} {y1 y2 y3 : Fin n → List (List K)}
    (hy : ∀ k, SumsM (y1 k) (y2 k) (y3 k)) (trees : List (TreeObj n)) (t : ℚ) {a b c : TISt n K}
    (h : TIStRel a b c) (e : OutEv)
    (hs : g.bc = .whole → ∀ k, silent (a.net.buf k) = silent (c.net.buf k) ∧
      silent (b.net.buf k) = silent (c.net.buf k)) :
    Ok3 TIStRel (tiStepEv g (.given F) y1 trees t a e) (tiStepEv g (.given F) y2 trees t b e)
      (tiStepEv g (.given F) y3 trees t c e) := by
  unfold tiStepEv
  cases e.ty with
  | tr =>
    simp only
    rw [h.formed.1, h.formed.2]
    cases trees[c.formed]? with
    | none => exact Ok3.err
    | some T =>
      exact Ok3.ok ⟨h.net, h.node, ⟨rfl, rfl⟩, ⟨rfl, rfl⟩, ⟨rfl, rfl⟩⟩
  | fu =>
    simp only
    split
    · next hk =>
      refine (tiFuse_sums (hy ⟨e.node, hk⟩) t _ (h.node _) (h.net.buf _) (fun hw => hs hw _)).bind ?_
      rintro x y z ⟨h1, h2⟩
      exact Ok3.ok ⟨⟨h.net.prime, fun i => sums_update h.net.buf _ h2 i, h.net.zloc, h.net.eta, h.net.etaMk⟩,
        fun i => nodeRel_update h.node _ h1 i, h.up, h.root, h.formed⟩
    · exact Ok3.err
  | bc =>
    simp only
    rw [h.root.1, h.root.2, h.up.1, h.up.2]
    split
    · cases c.root with
      | none => exact Ok3.err
      | some root =>
        refine (tiPartialSum_sums c.up root g.N g.Ns h.net _).bind ?_
        intro x y z hr
        exact Ok3.ok ⟨hr, h.node, ⟨rfl, rfl⟩, ⟨rfl, rfl⟩, h.formed⟩
    · exact Ok3.err
  | re =>
    simp only
    rw [h.up.1, h.up.2]
    split
    · refine (tiRelay_sums c.up h.net _).bind ?_
      intro x y z hr
      exact Ok3.ok ⟨hr, h.node, ⟨rfl, rfl⟩, h.root, h.formed⟩
    · exact Ok3.err
  | up =>
    simp only
    split
    · next hk =>
      refine (tiUpdate_sums (F := F ⟨e.node, hk⟩) (hy ⟨e.node, hk⟩) t _ e.bypass (h.node _) (h.net.etaMk _)).bind ?_
      intro x y z h1
      exact Ok3.ok ⟨h.net, fun i => nodeRel_update h.node _ h1 i, h.up, h.root, h.formed⟩
    · exact Ok3.err

theorem tiInit_rel (N r T : Nat) {y1 y2 y3 : Fin n → List (List K)} (hy : ∀ k, SumsM (y1 k) (y2 k) (y3 k))
    (ext : Fin n → List (List K)) (up0 : Fin n → List (Fin n)) :
    TIStRel (TISt.init N r T y1 ext up0) (TISt.init N r T y2 ext up0) (TISt.init N r T y3 ext up0) := by
  have h0 : ∀ T, Sums (List.replicate T (0 : K)) (List.replicate T 0) (List.replicate T 0) :=
    fun T => All3.replicate T (by simp)
  refine ⟨⟨fun _ => h0 N, fun _ => All3.nil, fun _ => All3.nil, fun _ => All3.nil, fun _ => All3.nil⟩, fun k => ?_,
    ⟨rfl, rfl⟩, ⟨rfl, rfl⟩, ⟨rfl, rfl⟩⟩
  simp only [TISt.init]
  rw [(hy k).length.1, (hy k).length.2]
  exact ⟨⟨rfl, rfl⟩, ⟨rfl, rfl⟩, ⟨rfl, rfl⟩, ⟨rfl, rfl⟩, ⟨rfl, rfl⟩, ⟨rfl, rfl⟩, h0 T, h0 T⟩

end
end Danse
