import Verif.Proofs.TIDanse3
import Verif.Props.TITotal
import Verif.Props.Danse2

/-!
# Property C119: the filters of a whole online TI-DANSE run

`tiDanseRun D T y up0 trees out` is the main loop of `tidanse` on the signals `y` over the schedule `out`;
`(a.run.node k).hist` is what node `k` observed at its updates (C83), `D.tiHeard k h` its spectra, the in-network sum
being the last channel, `a.row k i` row `i` of its filter array (Spec/TIDanse.lean).
-/

set_option linter.unusedSectionVars false

namespace Danse
section
variable {n : Nat} {K : Type} [Field K] [StarRing K] [DecidableEq K] {D : DanseCfg K} {T : Nat}
  {y : Fin n → List (List K)} {up0 : Fin n → List (Fin n)} {trees : List (TreeObj n)} {out : List (Instant ℚ)}
  {a : TIDanseSt n D}
open Matrix

/-- C119 (instance): a TI-DANSE run is one of the runs that C81-C85 and C92 are about: its nodes compute their
filters from their own observations only. -/
theorem C119_instance (h : tiDanseRun D T y up0 trees out = .ok a) :
    tiRun D.g (D.tiStrategy n) y trees (.init D.g.N D.g.refSensor T y (fun k => D.g.wExt k 0) up0) out = .ok a.run :=
  (tiDanse_run (tiDanse_init_ok T up0) out h).1

/-- C119 (rows): if the events are in the order of time (C01), a node at its `i`-th update writes in row `i + 1`: a
copy of row `i` if the update is bypassed, else the initial filter as long as updating has not started, else
what the update rule gives for the exponentially weighted covariance matrices of all the active and of all
the inactive frames heard so far, this one included; except that node 0, when nodes update in turns and one
second has gone by, replaces its weight on the in-network sum (which must not be zero) by one. The same
holds for the local filters, with the frames of its own sensors and without exception. -/
theorem C119_rows (h : tiDanseRun D T y up0 trees out = .ok a) (hs : (out.map (·.t)).Pairwise (· ≤ ·)) {k : Fin n}
    {i : Nat} {o : TIObs K} (ho : (a.run.node k).hist[i]? = some o) :
    (∃ V, D.RowOk k (D.tiHeard k ((a.run.node k).hist.take (i + 1))) o.bypass (a.row k i) (D.g.wInt k (i + 1)) V ∧
      (D.seq = true ∧ k.val = 0 ∧ o.bypass = false ∧ 1 ≤ o.t → ∀ κ : Fin D.nb, coef V κ (D.M k) ≠ 0 ∧
        coef (a.row k (i + 1)) κ (D.M k) = 1 ∧ ∀ c < D.M k, coef (a.row k (i + 1)) κ c = coef V κ c) ∧
      (¬ (D.seq = true ∧ k.val = 0 ∧ o.bypass = false ∧ 1 ≤ o.t) → a.row k (i + 1) = V)) ∧
    D.RowOk k (D.tiHeardLoc k ((a.run.node k).hist.take (i + 1))) o.bypass (a.rowLoc k i) (D.g.wLoc k (i + 1))
      (a.rowLoc k (i + 1)) :=
  tiRun_rowOk (tiDanse_run (tiDanse_init_ok T up0) out h).2 ho
    (tiRun_times out (C119_instance h) hs k List.Pairwise.nil (fun o ho => by cases ho))

/-- C119 (start): a node counts as started, and divides by its weight on the in-network sum in the fusion of
whole chunks, exactly when it has started in the sense of C117. -/
theorem C119_started (h : tiDanseRun D T y up0 trees out = .ok a) (k : Fin n) :
    (a.run.node k).started = true ↔ D.Started k (D.tiHeard k (a.run.node k).hist) := by
  obtain ⟨r, hr, -, -, hst⟩ := (tiDanse_run (tiDanse_init_ok T up0) out h).2 k
  rw [hst, (tiNodeFold_inv _ hr).started]
  exact nodeRun_startedBy (D.kind k (D.M k + 1)) rfl (s := D.kind0 k (D.M k + 1) (D.g.wInt k)) rfl rfl rfl rfl _

/-- C119 (Wiener filter): without GEVD, a row that is neither a copy nor initial nor normalised is in every bin
the one solution of `Ryy w = (Ryy - Rnn) e_ref`, where `Ryy` and `Rnn` are the weighted covariance matrices of
the active and inactive frames heard so far, of own sensors and in-network sum; and so is the local row, for
the frames of its own sensors. -/
theorem C119_wiener (hrule : D.rule = mwfRule) (h : tiDanseRun D T y up0 trees out = .ok a)
    (hs : (out.map (·.t)).Pairwise (· ≤ ·)) {k : Fin n} {i : Nat} {o : TIObs K}
    (ho : (a.run.node k).hist[i]? = some o) (hb : o.bypass = false) (ha : D.bypassAll = false) :
    (D.Started k (D.tiHeard k ((a.run.node k).hist.take (i + 1))) → ¬ (D.seq = true ∧ k.val = 0 ∧ 1 ≤ o.t) →
      ∃ href : D.g.refSensor < D.M k + 1, ∀ (κ : Fin D.nb) (v : Fin (D.M k + 1) → K),
        D.scm k true (D.tiHeard k ((a.run.node k).hist.take (i + 1))) κ *ᵥ v =
          (D.scm k true (D.tiHeard k ((a.run.node k).hist.take (i + 1))) κ -
            D.scm k false (D.tiHeard k ((a.run.node k).hist.take (i + 1))) κ) *ᵥ
              Pi.single ⟨D.g.refSensor, href⟩ 1 ↔
        v = fun c : Fin (D.M k + 1) => coef (a.row k (i + 1)) κ c) ∧
    (D.Started k (D.tiHeardLoc k ((a.run.node k).hist.take (i + 1))) →
      ∃ href : D.g.refSensor < D.M k, ∀ (κ : Fin D.nb) (v : Fin (D.M k) → K),
        D.scm k true (D.tiHeardLoc k ((a.run.node k).hist.take (i + 1))) κ *ᵥ v =
          (D.scm k true (D.tiHeardLoc k ((a.run.node k).hist.take (i + 1))) κ -
            D.scm k false (D.tiHeardLoc k ((a.run.node k).hist.take (i + 1))) κ) *ᵥ
              Pi.single ⟨D.g.refSensor, href⟩ 1 ↔
        v = fun c : Fin (D.M k) => coef (a.rowLoc k (i + 1)) κ c) := by
  have key : ∀ {m : Nat} (l : List (UpEv (Fin D.nb) (Fin m) K ℚ)) (prev init new : List (List K)),
      D.RowOk k l o.bypass prev init new → D.Started k l →
      ∃ href : D.g.refSensor < m, ∀ (κ : Fin D.nb) (v : Fin m → K),
        D.scm k true l κ *ᵥ v = (D.scm k true l κ - D.scm k false l κ) *ᵥ
          Pi.single ⟨D.g.refSensor, href⟩ 1 ↔ v = fun c : Fin m => coef new κ c := by
    intro m l prev init new hr hs
    have hr := hr.2.2.2 hb ha hs
    rw [hrule] at hr
    have href : D.g.refSensor < m := by
      by_contra hn
      have := hr ⟨0, by unfold DanseCfg.nb; omega⟩
      unfold mwfRule at this
      rw [dif_neg hn] at this
      cases this
    refine ⟨href, fun κ v => ?_⟩
    have hw := hr κ
    unfold mwfRule at hw
    rw [dif_pos href] at hw
    obtain ⟨hd, -⟩ := updateW_ok hw
    have hn := updateW_normal hw
    constructor
    · intro hv
      rw [← hn] at hv
      have := congrArg ((D.scm k true l κ)⁻¹ *ᵥ ·) hv
      simpa [mulVec_mulVec, nonsing_inv_mul _ (Ne.isUnit hd)] using this
    · rintro rfl
      exact hn
  obtain ⟨⟨V, r1, -, r3⟩, r2⟩ := C119_rows h hs ho
  refine ⟨fun h1 h2 => ?_, key _ _ _ _ r2⟩
  rw [r3 (fun hh => h2 ⟨hh.1, hh.2.1, hh.2.2.2⟩)]
  exact key _ _ _ _ r1 h1

/-- C119 (refuted for normalised rows): the normalisation of node 0 divides the weight on the in-network sum and
leaves the other weights alone. The row that is stored and used for the estimate is the one that the update
rule gave only if that weight was one in every bin. -/
theorem C119_refuted_normalised (h : tiDanseRun D T y up0 trees out = .ok a) (hs : (out.map (·.t)).Pairwise (· ≤ ·))
    {k : Fin n} {i : Nat} {o : TIObs K} (ho : (a.run.node k).hist[i]? = some o) (hq : D.seq = true) (hk : k.val = 0)
    (hb : o.bypass = false) (ht : 1 ≤ o.t) (ha : D.bypassAll = false)
    (hst : D.Started k (D.tiHeard k ((a.run.node k).hist.take (i + 1)))) :
    ∃ w : Fin D.nb → Fin (D.M k + 1) → K,
      (∀ κ, D.rule (D.M k + 1) (D.scm k true (D.tiHeard k ((a.run.node k).hist.take (i + 1))) κ)
        (D.scm k false (D.tiHeard k ((a.run.node k).hist.take (i + 1))) κ) D.g.refSensor = .ok (w κ)) ∧
      ∀ κ, (w κ = fun c : Fin (D.M k + 1) => coef (a.row k (i + 1)) κ c) ↔ w κ (Fin.last _) = 1 := by
  obtain ⟨⟨V, r1, r2, -⟩, -⟩ := C119_rows h hs ho
  refine ⟨fun κ c => coef V κ c, fun κ => r1.2.2.2 hb ha hst κ, fun κ => ?_⟩
  obtain ⟨z1, z2, z3⟩ := r2 ⟨hq, hk, hb, ht⟩ κ
  constructor
  · intro e
    have := congrFun e (Fin.last _)
    simp only [Fin.val_last] at this ⊢
    rw [this, z2]
  · intro e
    funext c
    by_cases hc : c = Fin.last _
    · subst hc
      simp only [Fin.val_last] at e ⊢
      rw [e, z2]
    · have : c.val < D.M k := by
        have h1 := c.isLt
        have h2 : c.val ≠ D.M k := fun e => hc (Fin.ext e)
        omega
      exact (z3 c.val this).symm

/-- C119 (refuted for the default filters): when nodes update in turns and the initial filters have a zero
weight on the in-network sum (as with 'selectFirstSensor'), a run ends normally only if node 0 has started at
each of its own turns from second 1 on: otherwise it divides zero by zero. -/
theorem C119_refuted_default (h : tiDanseRun D T y up0 trees out = .ok a) (hs : (out.map (·.t)).Pairwise (· ≤ ·))
    {k : Fin n} {i : Nat} {o : TIObs K} (ho : (a.run.node k).hist[i]? = some o) (hq : D.seq = true) (hk : k.val = 0)
    (hb : o.bypass = false) (ht : 1 ≤ o.t) {κ : Fin D.nb} (h0 : coef (D.g.wInt k (i + 1)) κ (D.M k) = 0) :
    D.bypassAll = false ∧ D.Started k (D.tiHeard k ((a.run.node k).hist.take (i + 1))) := by
  obtain ⟨⟨V, r1, r2, -⟩, -⟩ := C119_rows h hs ho
  by_contra hn
  have hV := r1.2.2.1 hb (by
    by_cases hc : D.bypassAll = true
    · exact .inl hc
    · exact .inr fun hst => hn ⟨by simpa using hc, hst⟩) κ (Fin.last _)
  simp only [Fin.val_last] at hV
  exact (r2 ⟨hq, hk, hb, ht⟩ κ).1 (hV.trans h0)

/-- C119 (external filters): the filters `E i` that a node fuses its signals with after `i` updates, and the
targets: `E 0` is the initial one; each update gives the selector of the reference sensor if only that is to be
broadcast, `E i` again for a single sensor that is not to be fused, the new row when nodes update in turns or
without relaxation; otherwise a mixture of `E i` and of a target that is moved towards the new row at most
once in every `extEvery` seconds. -/
theorem C119_external (h : tiDanseRun D T y up0 trees out = .ok a) (k : Fin n) :
    ∃ (E : Nat → List (List K)) (target : Nat → Nat → Nat → K) (last : Nat → ℚ),
      E 0 = D.g.wExt k 0 ∧ E (a.run.node k).hist.length = (a.run.node k).ext ∧
      (∀ (κ : Fin D.nb) (c : Fin (D.M k + 1)), target 0 κ c = coef (D.extTarget0 k) κ c) ∧ last 0 = 0 ∧
      ∀ i o, (a.run.node k).hist[i]? = some o →
        (D.onlyRef = true → ∀ (κ : Fin D.nb) (c : Fin (D.M k + 1)),
          coef (E (i + 1)) κ c = if c.val = D.g.refSensor then 1 else 0) ∧
        (D.onlyRef = false → D.M k = 1 → D.g.noFusion = true → ∀ (κ : Fin D.nb) (c : Fin (D.M k + 1)),
          coef (E (i + 1)) κ c = coef (E i) κ c) ∧
        (D.onlyRef = false → ¬ (D.M k = 1 ∧ D.g.noFusion = true) → D.noRelax = true ∨ D.seq = true →
          ∀ (κ : Fin D.nb) (c : Fin (D.M k + 1)), coef (E (i + 1)) κ c = coef (a.row k (i + 1)) κ c) ∧
        (D.onlyRef = false → ¬ (D.M k = 1 ∧ D.g.noFusion = true) → D.noRelax = false → D.seq = false →
          (∀ (κ : Fin D.nb) (c : Fin (D.M k + 1)), coef (E (i + 1)) κ c =
            D.betaExt k * coef (E i) κ c + (1 - D.betaExt k) * target i κ c) ∧
          (D.extEvery ≤ o.t - last i → last (i + 1) = o.t ∧ ∀ (κ : Fin D.nb) (c : Fin (D.M k + 1)),
            target (i + 1) κ c = (1 - D.alpha) * target i κ c + D.alpha * coef (a.row k (i + 1)) κ c) ∧
          (¬ D.extEvery ≤ o.t - last i → last (i + 1) = last i ∧ ∀ (κ : Fin D.nb) (c : Fin (D.M k + 1)),
            target (i + 1) κ c = target i κ c)) := by
  classical
  have ha := (tiDanse_run (tiDanse_init_ok T up0) out h).2
  obtain ⟨r, hr, hx1, hx2, -⟩ := ha k
  let st : Nat → ExtSt (Frame (Fin D.nb) (Fin (D.M k + 1)) K) ℚ := fun i =>
    ((D.tiNodeFold k ((a.run.node k).hist.take i)).toOption.map (·.1.ext)).getD (D.tiNode0 k).ext
  let E : Nat → List (List K) := fun i => if i = 0 then D.g.wExt k 0 else frameRow (st i).ext
  have hE : ∀ i (κ : Fin D.nb) (c : Fin (D.M k + 1)), coef (E i) κ c = (st i).ext κ c := by
    intro i κ c
    by_cases hi : i = 0
    · subst hi; rfl
    · simp only [E, if_neg hi, coef_frameRow]
  have hdf : ∀ (f : Frame (Fin D.nb) (Fin (D.M k + 1)) K) (κ : Fin D.nb) (c : Fin (D.M k + 1)),
      (if hk : κ.val < D.nb ∧ c.val < D.M k + 1 then f ⟨κ, hk.1⟩ ⟨c, hk.2⟩ else 0) = f κ c := by
    intro f κ c
    rw [dif_pos ⟨κ.isLt, c.isLt⟩]
  refine ⟨E, fun i κ c => if hk : κ < D.nb ∧ c < D.M k + 1 then (st i).target ⟨κ, hk.1⟩ ⟨c, hk.2⟩ else 0,
    fun i => (st i).last, rfl, ?_, fun κ c => ?_, rfl, fun i o ho => ?_⟩
  · by_cases hl : (a.run.node k).hist.length = 0
    · rw [hl]
      exact (hx2 (List.length_eq_zero_iff.1 hl)).symm
    · simp only [E, if_neg hl]
      rw [hx1 (fun e => hl (by rw [e]; rfl))]
      simp only [st, List.take_length, hr]
      rfl
  · dsimp only; rw [hdf]; rfl
  · obtain ⟨e1, e2, q, p, r0, hq, hp, hu, -, -, k3, -⟩ := tiRun_update ha ho
    obtain ⟨-, -, V, W, wl, -, -, hW, -, hext, -⟩ := tiNodeUpdate_inv (tiNodeFold_inv _ hq) hu
    rw [e2] at hW
    have hs1 : st (i + 1) = extStep (D.tiExt k) (st i) W (some o.t) := by
      simp only [st, hp, hq]
      exact hext
    have hrow : ∀ (κ : Fin D.nb) (c : Fin (D.M k + 1)), coef (a.row k (i + 1)) κ c = W κ c := by
      intro κ c
      have : a.row k (i + 1) = frameRow W := by unfold TIDanseSt.row; rw [k3, hW]; rfl
      rw [this, coef_frameRow]
    unfold extStep DanseCfg.tiExt at hs1
    refine ⟨fun h1 κ c => ?_, fun h1 h2 h3 κ c => ?_, fun h1 h2 h3 κ c => ?_, fun h1 h2 h3 h4 => ?_⟩
    · rw [hE, hs1]
      simp only [h1, if_true]
    · rw [hE, hE, hs1]
      simp only [h1, h2, h3, reduceCtorEq, if_false, beq_self_eq_true, and_self, if_true]
    · rw [hE, hs1, hrow]
      simp only
      rw [if_neg (by simp [h1]), if_neg (by simpa using h2), if_pos h3]
    · simp only at hs1
      rw [if_neg (by simp [h1]), if_neg (by simpa using h2), if_neg (by simp [h3, h4])] at hs1
      refine ⟨fun κ c => ?_, fun hd => ?_, fun hd => ?_⟩
      · dsimp only
        rw [hE, hE, hdf, hs1]
        split <;> rfl
      · rw [if_pos hd] at hs1
        refine ⟨by dsimp only; rw [hs1], fun κ c => ?_⟩
        dsimp only
        rw [hdf, hdf, hs1, hrow]
        rfl
      · rw [if_neg hd] at hs1
        refine ⟨by dsimp only; rw [hs1], fun κ c => ?_⟩
        dsimp only
        rw [hdf, hdf, hs1]

/-- C119 (order): the events of synchronous nodes are in the order of time, over trees of any shape. -/
theorem C119_times {fs : ℚ} {m : Nat} (hg : SyncTI D.g fs m y) {nbs : List (List Nat)} (hn : nbs.length = n)
    {seq keep sim : Bool} {r start : Nat} {minF : Int} (hr : sim = true → r < n)
    (hstart : start < n) {ordOf : Nat → List Level} {treeOf : Nat → TreeObj n}
    (hT : ∀ k < n, OrientedTree (treeOf k) (ordOf k)) {fsInf : List ℚ}
    (h : initEventsTI D.g.bc D.g.N D.g.Ns seq keep sim r start minF (syncNodes fs m nbs) ordOf treeOf =
      .ok (out, fsInf, trees)) : (out.map (·.t)).Pairwise (· ≤ ·) := by
  subst hn
  obtain ⟨out', tr, h1, h2, -, h4⟩ := initEventsTI_sync (seq := seq) (keep := keep) (sim := sim)
    (r := r) hg.shift (by have := hg.overlap; omega) hg.pos hg.rate hg.clock hg.whole hg.L_pos nbs minF hr hstart
    hg.exchange (fun _ _ => hg.update) ordOf treeOf
  rw [h] at h1
  injection h1 with h1
  injection h1 with e1 h1
  subst e1
  have hcov : ∀ o ∈ tr.2, CoversNodes nbs.length o := by
    intro o ho
    rw [h4] at ho
    obtain ⟨j, _, rfl⟩ := List.mem_map.mp ho
    exact (hT _ (Nat.mod_lt _ (by omega))).covers
  exact (C01_exactly_once h2 fun _ => by simpa [tiArgs] using hcov).1.imp le_of_lt

/-- C119 (topology): all that the nodes compute (filters, covariance matrices, estimates) depends neither on the
network, nor on how it is pruned to trees, nor on whether it is re-rooted. -/
theorem C119_topology {fs : ℚ} {m : Nat} (hg : SyncTI D.g fs m y) {nbs nbs' : List (List Nat)} (hn : nbs.length = n)
    (hn' : nbs'.length = n) {seq keep keep' sim : Bool} {r start : Nat} {minF : Int} (hr : sim = true → r < n)
    (hstart : start < n) {ordOf ordOf' : Nat → List Level} {treeOf treeOf' : Nat → TreeObj n}
    (hT : ∀ k < n, OrientedTree (treeOf k) (ordOf k)) (hT' : ∀ k < n, OrientedTree (treeOf' k) (ordOf' k))
    {out' : List (Instant ℚ)} {fsInf fsInf' : List ℚ} {trees' : List (TreeObj n)}
    (h : initEventsTI D.g.bc D.g.N D.g.Ns seq keep sim r start minF (syncNodes fs m nbs) ordOf treeOf =
      .ok (out, fsInf, trees))
    (h' : initEventsTI D.g.bc D.g.N D.g.Ns seq keep' sim r start minF (syncNodes fs m nbs') ordOf' treeOf' =
      .ok (out', fsInf', trees'))
    (up0' : Fin n → List (Fin n)) (hs : tiDanseRun D T y up0 trees out = .ok a) :
    ∃ a', tiDanseRun D T y up0' trees' out' = .ok a' ∧ a'.node = a.node ∧ a'.run.node = a.run.node := by
  obtain ⟨s', h1, h2, -⟩ := C82_topology (U := D.tiStrategy n) hg hn hn' hr hstart hT hT' h h' T
    (fun k => D.g.wExt k 0) up0 up0' (C119_instance hs)
  have ha := (tiDanse_run (tiDanse_init_ok T up0) out hs).2
  obtain ⟨a', h3, h4⟩ := tiDanse_run_of (D := D) (tiDanse_init_ok T up0') out' (s := s') (fun k => by
    obtain ⟨r, hr, -⟩ := ha k
    rw [h2]
    exact ⟨_, hr⟩) h1
  refine ⟨a', h3, ?_, by rw [h4, h2]⟩
  funext k
  obtain ⟨r1, e1, -⟩ := ha k
  obtain ⟨r2, e2, -⟩ := (tiDanse_run (tiDanse_init_ok T up0') out' h3).2 k
  rw [h4, h2, e1] at e2
  injection e2 with e2
  injection e2 with e2 _
  exact e2.symm

end

section
open scoped ComplexOrder
variable {n : Nat} {D : DanseCfg ℂ} {y : Fin n → List (List ℂ)}

/-- C119 (the run ends): for synchronous nodes, over trees of any shape, with broadcasts of `Ns` samples at a
time, the whole run with all its covariance and filter updates ends without an exception, whatever the signals,
the VAD decisions and the bypassed updates, if nodes do not normalise (they do not update in turns), the
reference sensor is a sensor of every node, the forgetting factors are in `(0, 1]`, the initial matrices are
positive semidefinite or not used, and the rank test passes invertible matrices only. -/
theorem C119_completes (hseq : D.seq = false) (hrule : D.rule = mwfRule) (href : ∀ k, D.g.refSensor < D.M k)
    (hβ : ∀ k, ∃ b : ℝ, 0 < b ∧ b ≤ 1 ∧ D.beta k = (b : ℂ))
    (hv : ∀ m Rnn Ryy, D.valid m Rnn Ryy = true → ∀ κ, (Rnn κ).det ≠ 0 ∧ (Ryy κ).det ≠ 0)
    (hR : D.use1st = true ∨ ∀ k m κ, (D.R0 k m κ).PosSemidef)
    {fs : ℚ} {m : Nat} (hg : SyncTI D.g fs m y) (he : 2 ∣ D.g.N) (hb : D.g.bc = .few D.g.Ns false)
    (hw : ∀ k, ∀ b ∈ D.g.wExt k 0, b.length = D.nb)
    {nbs : List (List Nat)} (hn : nbs.length = n) {keep sim : Bool} {ri start : Nat} (minF : Int)
    (hri : sim = true → ri < n) (hstart : start < n)
    {ordOf : Nat → List Level} {treeOf : Nat → TreeObj n} (hT : ∀ k < n, OrientedTree (treeOf k) (ordOf k))
    (up0 : Fin n → List (Fin n)) :
    ∃ out trees a, initEventsTI D.g.bc D.g.N D.g.Ns false keep sim ri start minF (syncNodes fs m nbs) ordOf treeOf =
        .ok (out, List.replicate n fs, trees) ∧ tiDanseRun D m y up0 trees out = .ok a := by
  obtain ⟨out, trees, s, h1, h2, -⟩ := C84_completes (U := D.tiStrategy n) hg he
    (by rw [hb]; intro h; cases h) (by rw [hb]; intro L eff h; injection h with h; exact h.symm)
    tiStrategy_bins (by rw [hb]; intro h; cases h) (ext := fun k => D.g.wExt k 0) (fun k => hw k) hn
    (seq := false) (keep := keep) (sim := sim) minF hri hstart hT up0
  obtain ⟨a, h3, -⟩ := tiDanse_run_of (D := D) (tiDanse_init_ok m up0) out (fun k => by
    obtain ⟨b, b0, b1, bb⟩ := hβ k
    exact tiNodeFold_total hseq b0 b1 bb (fun m hm Ryy Rnn p _ => by
      rw [hrule]; exact mwfRule_total (lt_of_lt_of_le (href k) hm) p) hv (hR.imp_right fun h => h k) _) h2
  exact ⟨out, trees, a, h1, h3⟩

/-- C119 (the run ends, GEVD): the same with the GEVD-based update: for synchronous nodes, over trees of any shape, with broadcasts of `Ns` samples at a
time, the whole run with all its covariance and filter updates ends without an exception, whatever the signals,
the VAD decisions and the bypassed updates, if nodes do not normalise (they do not update in turns), the
reference sensor is a sensor of every node, the forgetting factors are in `(0, 1]`, the initial matrices are
positive semidefinite or not used, the rank test passes invertible matrices only, the rank to keep is at most the
number of sensors of every node and the library finds generalised eigenvectors of positive definite matrices. -/
theorem C119_completes_gevd (hseq : D.seq = false) {lib : (m : Nat) → LinAlg m} {rank : Nat}
    (hrule : D.rule = gevdRule lib rank) (hrank : ∀ k, rank ≤ D.M k)
    (hlib : ∀ m A B, Matrix.PosDef A → Matrix.PosDef B → ∃ σ X, (lib m).Ok A B σ X)
    (href : ∀ k, D.g.refSensor < D.M k)
    (hβ : ∀ k, ∃ b : ℝ, 0 < b ∧ b ≤ 1 ∧ D.beta k = (b : ℂ))
    (hv : ∀ m Rnn Ryy, D.valid m Rnn Ryy = true → ∀ κ, (Rnn κ).det ≠ 0 ∧ (Ryy κ).det ≠ 0)
    (hR : D.use1st = true ∨ ∀ k m κ, (D.R0 k m κ).PosSemidef)
    {fs : ℚ} {m : Nat} (hg : SyncTI D.g fs m y) (he : 2 ∣ D.g.N) (hb : D.g.bc = .few D.g.Ns false)
    (hw : ∀ k, ∀ b ∈ D.g.wExt k 0, b.length = D.nb)
    {nbs : List (List Nat)} (hn : nbs.length = n) {keep sim : Bool} {ri start : Nat} (minF : Int)
    (hri : sim = true → ri < n) (hstart : start < n)
    {ordOf : Nat → List Level} {treeOf : Nat → TreeObj n} (hT : ∀ k < n, OrientedTree (treeOf k) (ordOf k))
    (up0 : Fin n → List (Fin n)) :
    ∃ out trees a, initEventsTI D.g.bc D.g.N D.g.Ns false keep sim ri start minF (syncNodes fs m nbs) ordOf treeOf =
        .ok (out, List.replicate n fs, trees) ∧ tiDanseRun D m y up0 trees out = .ok a := by
  obtain ⟨out, trees, s, h1, h2, -⟩ := C84_completes (U := D.tiStrategy n) hg he
    (by rw [hb]; intro h; cases h) (by rw [hb]; intro L eff h; injection h with h; exact h.symm)
    tiStrategy_bins (by rw [hb]; intro h; cases h) (ext := fun k => D.g.wExt k 0) (fun k => hw k) hn
    (seq := false) (keep := keep) (sim := sim) minF hri hstart hT up0
  obtain ⟨a, h3, -⟩ := tiDanse_run_of (D := D) (tiDanse_init_ok m up0) out (fun k => by
    obtain ⟨b, b0, b1, bb⟩ := hβ k
    exact tiNodeFold_total hseq b0 b1 bb (fun m hm Ryy Rnn p q => by
      rw [hrule]
      exact gevdRule_total (lt_of_lt_of_le (href k) hm) (le_trans (hrank k) hm) (hlib m Ryy Rnn p q)) hv (hR.imp_right fun h => h k) _) h2
  exact ⟨out, trees, a, h1, h3⟩

end
end Danse
