import Verif.Proofs.Scale3
import Verif.Proofs.Danse2
import Verif.Props.Given
import Verif.Model.Pipeline
import Verif.Spec.Pipeline

/-!
# Helper lemmas for C126: whether a run with given filters ends normally depends on the shape of the signals only

The shape of a signal is the signal times zero.
-/

set_option linter.unusedSectionVars false

namespace Danse
section
variable {K : Type} [Field K]

theorem shape_of_length {x y : List K} (h : x.length = y.length) : scaled 0 x = scaled 0 y := by
  have e : ∀ l : List K, scaled 0 l = List.replicate l.length 0 := by
    intro l
    unfold scaled
    rw [List.eq_replicate_iff]
    simp
  rw [e, e, h]

theorem shape_of_same {x y : List (List K)} (h : SameShape x y) : scaledM 0 x = scaledM 0 y := by
  unfold SameShape at h
  unfold scaledM
  induction x generalizing y with
  | nil =>
    cases y with
    | nil => rfl
    | cons b y => simp at h
  | cons a x ih =>
    cases y with
    | nil => simp at h
    | cons b y =>
      simp only [List.map_cons, List.cons.injEq] at h
      rw [List.map_cons, List.map_cons, shape_of_length h.1, ih h.2]

theorem RelE.of_maps {α β : Type} {f : α → β} {x y : Except PyErr α} (h : x.map f = y.map f) :
    RelE (fun u v => f u = f v) x y := by
  cases x with
  | error e =>
    cases y with
    | error e' => exact (by injection h)
    | ok b => cases h
  | ok a =>
    cases y with
    | error e' => cases h
    | ok b => exact (by injection h)

theorem RelE.maps {α β : Type} {f : α → β} {x y : Except PyErr α} (h : RelE (fun u v => f u = f v) x y) :
    x.map f = y.map f := by
  cases x <;> cases y
  · exact congrArg Except.error h
  · exact h.elim
  · exact h.elim
  · exact congrArg Except.ok h

theorem RelE.mono {α β : Type} {R S : α → β → Prop} {x : Except PyErr α} {y : Except PyErr β} (h : RelE R x y)
    (hs : ∀ u v, R u v → S u v) : RelE S x y := by
  cases x <;> cases y
  · exact h
  · exact h.elim
  · exact h.elim
  · exact hs _ _ h

theorem RelE.ok_right {α β : Type} {R : α → β → Prop} {x : Except PyErr α} {y : Except PyErr β} (h : RelE R x y)
    {u : α} (hu : x = .ok u) : ∃ v, y = .ok v ∧ R u v := by
  subst hu
  cases y with
  | error e => exact h.elim
  | ok v => exact ⟨v, rfl, h⟩

variable [StarRing K] [DecidableEq K] {g : GivenCfg K}

/-- What whole-chunk broadcasts need in order not to depend on which chunks are silent. -/
def GivenCfg.WholeOk (g : GivenCfg K) : Prop :=
  g.bc = .whole → 0 < g.Ns ∧ g.Ns < g.N ∧ g.f.length = g.N ∧ ∃ v, normVal g.N g.Ns g.h = .ok v

theorem analysis_shape (ζ : K) (N : Nat) (c : K) (h : List K) {y y' : List (List K)} (hy : scaledM 0 y = scaledM 0 y')
    (w : List (List K)) (nf : Nat) : scaled 0 (combine nf w (y.map (analysis ζ N c h))) =
      scaled 0 (combine nf w (y'.map (analysis ζ N c h))) := by
  rw [← scaled_combine, ← scaled_combine, ← scaled_analysisM, ← scaled_analysisM, hy]

theorem backToTD_length {ζ : K} {n : Nat} {x z : List K} (h : backToTD ζ n x = .ok z) : z.length = n := by
  unfold backToTD at h
  split_ifs at h
  all_goals (injection h with h; subst h; unfold idft; simp)

theorem overlapAdd_len {N Ns : Nat} {h prev cur : List K} (h0 : 0 < Ns) (h1 : Ns < N) {v : List K}
    (hv : normVal N Ns h = .ok v) (hc : cur.length = N) : ∃ z, overlapAdd N Ns h prev cur = .ok z ∧ z.length = N := by
  unfold overlapAdd
  rw [hv]
  rw [if_neg (by omega : ¬ N - Ns = 0), if_neg (by omega : ¬ Ns = 0)]
  split_ifs
  · exact ⟨_, rfl, hc⟩
  · exact ⟨_, rfl, by simp⟩

theorem wholeChunk_shape (hg : 0 < g.Ns ∧ g.Ns < g.N ∧ g.f.length = g.N ∧ ∃ v, normVal g.N g.Ns g.h = .ok v)
    {y y' : List (List K)} (hy : scaledM 0 y = scaledM 0 y') (w : List (List K)) (prev prev' : List K) :
    RelE (fun u v => scaled 0 u = scaled 0 v) (wholeChunk g.ζ g.N g.Ns g.c g.h g.f y w prev)
      (wholeChunk g.ζ g.N g.Ns g.c g.h g.f y' w prev') := by
  obtain ⟨h0, h1, h2, v, hv⟩ := hg
  unfold wholeChunk
  simp only
  refine RelE.bind (R := fun u v => u.length = g.N ∧ v.length = g.N) ?_ fun u v huv => ?_
  · have e : RelE (fun u v => scaled 0 u = scaled 0 v) (backToTD g.ζ g.N (combine (g.N / 2 + 1) w (y.map (analysis g.ζ g.N g.c g.h))))
        (backToTD g.ζ g.N (combine (g.N / 2 + 1) w (y'.map (analysis g.ζ g.N g.c g.h)))) := by
      apply RelE.of_maps
      rw [← scaled_backToTD (star_zero K), ← scaled_backToTD (star_zero K), analysis_shape _ _ _ _ hy]
    cases hx : backToTD g.ζ g.N (combine (g.N / 2 + 1) w (y.map (analysis g.ζ g.N g.c g.h))) with
    | error e1 => 
      rw [hx] at e
      cases hx' : backToTD g.ζ g.N (combine (g.N / 2 + 1) w (y'.map (analysis g.ζ g.N g.c g.h))) with
      | error e2 => rw [hx'] at e; exact e
      | ok b => rw [hx'] at e; exact e.elim
    | ok a =>
      rw [hx] at e
      cases hx' : backToTD g.ζ g.N (combine (g.N / 2 + 1) w (y'.map (analysis g.ζ g.N g.c g.h))) with
      | error e2 => rw [hx'] at e; exact e.elim
      | ok b => exact ⟨backToTD_length hx, backToTD_length hx'⟩
  · obtain ⟨z, e1, l1⟩ := overlapAdd_len (prev := prev) (cur := List.zipWith (· * ·) (u.map (g.c * ·)) g.f) h0 h1 hv
      (by simp [huv.1, h2])
    obtain ⟨z', e2, l2⟩ := overlapAdd_len (prev := prev') (cur := List.zipWith (· * ·) (v.map (g.c * ·)) g.f) h0 h1 hv
      (by simp [huv.2, h2])
    rw [e1, e2]
    exact shape_of_length (l1.trans l2.symm)

theorem scaled_st_ext {s s' : GivenSt K} (h : s.scaled 0 = s'.scaled 0) :
    s.net.scaled 0 = s'.net.scaled 0 ∧ (∀ k, scaled 0 (s.zLocal k) = scaled 0 (s'.zLocal k)) ∧ s.wIR = s'.wIR ∧
      s.lastUp = s'.lastUp ∧ s.lastBc = s'.lastBc ∧ (∀ k, scaled 0 (s.d k) = scaled 0 (s'.d k)) ∧
      ∀ k, scaled 0 (s.dLoc k) = scaled 0 (s'.dLoc k) := by
  unfold GivenSt.scaled at h
  injection h with h1 h2 h3 h4 h5 h6 h7
  exact ⟨h1, fun k => congrFun h2 k, h3, h4, h5, fun k => congrFun h6 k, fun k => congrFun h7 k⟩

theorem broadcast_whole_shape (hb : g.bc = .whole)
    (hg : 0 < g.Ns ∧ g.Ns < g.N ∧ g.f.length = g.N ∧ ∃ v, normVal g.N g.Ns g.h = .ok v)
    {y y' : Nat → List (List K)} (hy : ∀ k, scaledM 0 (y k) = scaledM 0 (y' k)) {s s' : GivenSt K}
    (hs : s.scaled 0 = s'.scaled 0) (t : ℚ) (k : Nat) :
    RelE (fun u v => GivenSt.scaled 0 u = GivenSt.scaled 0 v) (g.broadcast y s t k) (g.broadcast y' s' t k) := by
  obtain ⟨s1, s2, s3, s4, s5, s6, s7⟩ := scaled_st_ext hs
  unfold GivenCfg.broadcast
  have hm : ∀ y : Nat → List (List K), ((scaledM 0 (y k)).mapM fun ch => chunkForBroadcast ch t (g.fs k) g.N) =
      ((y k).mapM fun ch => chunkForBroadcast ch t (g.fs k) g.N).map
        (List.map fun p => (scaled 0 p.1, p.2)) := fun y =>
    mapM_map_comm (f := scaled 0) (g := fun p : List K × Int × Int => (scaled 0 p.1, p.2))
      (fun ch => scaled_localChunk g.N ch _) (y k)
  refine RelE.bind (R := fun u v => (u.map fun p => (scaled 0 p.1, p.2)) = v.map fun p => (scaled 0 p.1, p.2))
    (RelE.of_maps ?_) fun u v huv => ?_
  · rw [← hm, ← hm, hy]
  · have e1 : ∀ fr : List (List K × Int × Int), fr.any (fun x => decide (x.1.length < g.N)) =
        (fr.map fun p => (scaled 0 p.1, p.2)).any (fun x => decide (x.1.length < g.N)) := by
      intro fr
      simp only [List.any_map, Function.comp_def, scaled_length]
    have e2 : ∀ fr : List (List K × Int × Int),
        scaledM 0 (fr.map (·.1)) = (fr.map fun p => (scaled 0 p.1, p.2)).map (·.1) := by
      intro fr
      simp only [List.map_map, scaledM]; rfl
    rw [e1 u, e1 v, huv]
    by_cases hany : ((v.map fun p => (scaled 0 p.1, p.2)).any (fun x => decide (x.1.length < g.N))) = true
    · rw [if_pos hany, if_pos hany]; rfl
    · rw [if_neg hany, if_neg hany, hb]
      simp only
      have hit : s.net.it = s'.net.it := by
        have := s1
        unfold NetSt.scaled at this
        injection this
      rw [hit]
      refine (wholeChunk_shape hg (by rw [e2, e2, huv]) _ _ _).bind fun z z' hz => ?_
      refine RelE.bind (R := fun u v => NetSt.scaled 0 u = NetSt.scaled 0 v) (RelE.of_maps ?_) fun n n' hn => ?_
      · rw [← scaled_netStep_bc, ← scaled_netStep_bc, s1, ← scaled_chunkOf, ← scaled_chunkOf, hz]
      · change GivenSt.scaled 0 _ = GivenSt.scaled 0 _
        simp only [GivenSt.scaled]
        rw [hn, s3, s4, s5]
        congr 1
        · funext q
          by_cases hq : q = k
          · subst hq; simp [hz]
          · simp [Function.update_of_ne hq, s2 q]
        · funext q; exact s6 q
        · funext q; exact s7 q

theorem step_shape (hg : g.WholeOk) {y y' : Nat → List (List K)} (hy : ∀ k, scaledM 0 (y k) = scaledM 0 (y' k))
    {s s' : GivenSt K} (hs : s.scaled 0 = s'.scaled 0) (ev : ℚ × Nat × EvType) :
    RelE (fun u v => GivenSt.scaled 0 u = GivenSt.scaled 0 v) (g.step y s ev) (g.step y' s' ev) := by
  have hyy : (fun q => scaledM 0 (y q)) = fun q => scaledM 0 (y' q) := funext hy
  unfold GivenCfg.step
  split
  · cases hb : g.bc with
    | whole => exact broadcast_whole_shape hb (hg hb) hy hs _ _
    | few L eff =>
      apply RelE.of_maps
      rw [← scaled_broadcast_of (star_zero K) (fun e => by rw [hb] at e; cases e),
        ← scaled_broadcast_of (star_zero K) (fun e => by rw [hb] at e; cases e), hyy, hs]
  · apply RelE.of_maps
    rw [← scaled_update (star_zero K), ← scaled_update (star_zero K), hyy, hs]
  · rfl

theorem run_shape (hg : g.WholeOk) {y y' : Nat → List (List K)} (hy : ∀ k, scaledM 0 (y k) = scaledM 0 (y' k))
    (evs : List (ℚ × Nat × EvType)) {s s' : GivenSt K} (hs : s.scaled 0 = s'.scaled 0) :
    RelE (fun u v => GivenSt.scaled 0 u = GivenSt.scaled 0 v) (g.run y s evs) (g.run y' s' evs) :=
  RelE.foldlM (fun _ _ e h => step_shape hg hy h e) evs hs

theorem wholeOk_few {L : Nat} {eff : Bool} (hb : g.bc = .few L eff) : g.WholeOk := fun h => by rw [hb] at h; cases h

/-- Sums have the shape of their parts. -/
theorem SumsM.shape {a b c : List (List K)} (h : SumsM a b c) : SameShape a c ∧ SameShape b c := by
  unfold SameShape
  induction h with
  | nil => exact ⟨rfl, rfl⟩
  | cons h1 _ ih =>
    have := All3.length h1
    simp [ih.1, ih.2, this.1, this.2]

/-- The run of `danse` with the filters that a run has recorded, on the same signals. -/
theorem danseRun_again {D : DanseCfg K} {y : Nat → List (List K)} {T : Nat} {evs : List (ℚ × Nat × EvType)}
    {a : DanseSt D} (h : danseRun D y T evs = .ok a) :
    a.run.cfg.fixed D.g ∧ a.run.cfg.run y (.init D.g.N D.g.refSensor T D.M) evs = .ok a.run.st := by
  have h1 := (danseRun_adapt evs h).1
  have h2 := adaptRun_written (s0 := .init D.g.N D.g.refSensor T D.M) (fun _ => rfl) evs h1
  exact ⟨h2.1.fixed, h2.2⟩

end
end Danse

namespace Danse

/-- With at most half of the window overlapping. -/
theorem normVal_ok {K : Type} [Field K] {N Ns : Nat} {h : List K} (h0 : 0 < Ns) (h2 : N < 3 * Ns) (hh : h.length = N) :
    ∃ v, normVal N Ns h = .ok v := by
  unfold normVal
  have hd : N / Ns < 3 := by
    rw [Nat.div_lt_iff_lt_mul h0]; exact h2
  have hok : ∀ ii ∈ List.range (N / Ns), ¬ (min (ii * Ns + N) (N + Ns) - ii * Ns ≠ h.length) := by
    intro ii hi
    rw [List.mem_range] at hi
    have : ii * Ns ≤ Ns := by
      have : ii ≤ 1 := by omega
      nlinarith
    rw [hh]
    omega
  generalize List.range (N / Ns) = l at hok
  generalize List.replicate (N + Ns) (0 : K) = v
  induction l generalizing v with
  | nil => exact ⟨v, rfl⟩
  | cons i l ih =>
    rw [List.foldlM_cons, if_neg (hok i (List.mem_cons_self ..))]
    exact ih (fun j hj => hok j (List.mem_cons_of_mem _ hj)) _

end Danse
