import Verif.Proofs.Fused
import Verif.Props.Sched
import Verif.Props.TIHear
import Verif.Props.GainTI

/-!
# Property C142: the fused signals of the outputs

`fusedRun` is an online DANSE run (any rule `U` that computes the filters) together with the signals `zFull` that the
outputs hold and `export_sounds` writes to `fused/z_N{k+1}.wav`; `fusedTIRun` a TI-DANSE run with the signals `eFull` of
`fused_ti/etaMk_N{k+1}.wav`.
-/

set_option linter.unusedSectionVars false

namespace Danse
section
variable {K : Type} [Field K] [StarRing K] [DecidableEq K] {y : Nat → List (List K)} {U : Strategy K} {g : GivenCfg K}
  {T : Nat} {M : Nat → Nat}

/-- C142 (a): the exported fused signal of node `k` is what its neighbours hear. At every update of a node `q` (its
observation `o`), the frame that it uses of neighbour `k` is the last `N` samples, preceded by silence, of the exported
signal of `k` as it was when the update began; and what is exported is never changed afterwards, only extended. Keeping the
signals changes nothing of the run. -/
theorem C142_heard (hb : g.bc = .whole) (gd : GoodNeighbours g.nb) {evs : List (ℚ × Nat × EvType)} {s : FusedSt K}
    (h : fusedRun U y g T M evs = .ok s) :
    adaptRun U y (.init g T M) evs = .ok s.run ∧
    ∀ (q i : Nat) (o : Obs K), (s.run.hist q)[i]? = some o →
      ∃ pre post s1, evs = pre ++ (o.t, q, EvType.up) :: post ∧ evUps pre q = i ∧ fusedRun U y g T M pre = .ok s1 ∧
        (∀ k, s1.zFull k <+: s.zFull k) ∧ o.z.length = (g.nb q).length ∧
        ∀ (idx k : Nat) (col : List K), (g.nb q)[idx]? = some k → o.z[idx]? = some col →
          LastSamples g.N (s1.zFull k) col := by
  obtain ⟨hrun, -, -⟩ := fusedRun_ops evs h
  refine ⟨hrun, fun q i o ho => ?_⟩
  have hi : i < evUps evs q := by
    rw [← evUps_length, ← (C77_observed hrun q).1, List.length_map]
    exact (List.getElem?_eq_some_iff.mp ho).1
  obtain ⟨pre, t, post, rfl, hpre⟩ := split_up q evs hi
  obtain ⟨s1, r1, -, p1⟩ := fusedRun_append h
  have h0 := h
  rw [show pre ++ (t, q, EvType.up) :: post = (pre ++ [(t, q, .up)]) ++ post by simp] at h0
  obtain ⟨s2, r2, g2, -⟩ := fusedRun_append h0
  obtain ⟨a2, -, ops2, o1, o2, -⟩ := fusedRun_ops _ r2
  obtain ⟨a1, -, ops1, q1, q2, q3, -⟩ := fusedRun_ops _ r1
  -- the observation is the one of the state right after the update
  have hobs := C77_observed a2 q
  have hlen : (s2.run.hist q).length = i + 1 := by
    have := congrArg List.length hobs.1
    rw [List.length_map, evUps_length] at this
    rw [this]
    unfold evUps at hpre ⊢
    rw [List.countP_append, hpre]
    simp
  have hgrow : ∀ (l : List (ℚ × Nat × EvType)) {u v : FusedSt K}, l.foldlM (fusedStep U y) u = .ok v →
      u.run.hist q <+: v.run.hist q := by
    intro l
    induction l with
    | nil => intro u v hv; injection hv with hv; subst hv; exact List.prefix_refl _
    | cons e l ih =>
      intro u v hv
      rw [List.foldlM_cons] at hv
      obtain ⟨c, hc, hv⟩ := bind_ok_inv hv
      refine List.IsPrefix.trans ?_ (ih hv)
      unfold fusedStep at hc
      obtain ⟨a, ha, hc⟩ := bind_ok_inv hc
      injection hc with hc
      subst hc
      exact adaptStep_hist ha q
  have hget : (s2.run.hist q)[i]? = some o := by
    obtain ⟨l, hl⟩ := hgrow post g2
    rw [← hl, List.getElem?_append_left (by omega)] at ho
    exact ho
  have ht : o.t = t := by
    have h3 : ((s2.run.hist q).map (·.t))[i]? = some o.t := by rw [List.getElem?_map, hget]; rfl
    have h4 : (upTimes pre q).length = i := by rw [evUps_length, hpre]
    rw [hobs.1, upTimes_snoc, if_pos ⟨rfl, rfl⟩, List.getElem?_append_right (by omega), h4] at h3
    simp at h3
    exact h3.symm
  subst ht
  have hz : o.z = s2.run.st.net.z q := hobs.2.2.1 o (by rw [List.getLast?_eq_getElem?, hlen]; exact hget)
  refine ⟨pre, post, s1, rfl, hpre, r1, p1, ?_⟩
  -- the operations on the buffers up to the update
  obtain ⟨fp, hfp, s2', hs2, hs3⟩ : ∃ a : AdaptSt K, adaptStep U y s1.run (o.t, q, .up) = .ok a ∧
      ∃ c : FusedSt K, c.run = a ∧ c = s2 := by
    unfold fusedRun at r1 r2
    rw [List.foldlM_append, r1] at r2
    change List.foldlM (fusedStep U y) s1 [(o.t, q, .up)] = _ at r2
    rw [List.foldlM_cons] at r2
    obtain ⟨c, hc, r2⟩ := bind_ok_inv r2
    injection r2 with r2
    unfold fusedStep at hc
    obtain ⟨a, ha, hc⟩ := bind_ok_inv hc
    injection hc with hc
    exact ⟨a, ha, c, by rw [← hc], r2⟩
  obtain ⟨op, u1, u2, -⟩ := adaptStep_op hfp
  have hop : op = .up q := by
    cases op with
    | up j => obtain ⟨e, -⟩ : q = j ∧ EvType.up = EvType.up := u1; rw [e]
    | bc j c => exact absurd (u1 : q = j ∧ EvType.up = EvType.bc).2 (by simp)
  subst hop
  obtain ⟨-, fx, -⟩ := fusedRun_ops _ r1
  have e1 : s1.run.cfg.nb = g.nb := by rw [fx]
  have e2 : s1.run.cfg.N = g.N := by rw [fx]
  have e3 : s1.run.cfg.Ns = g.Ns := by rw [fx]
  rw [e1, e2, e3] at u2
  have hnet : netRun g.nb g.N g.Ns (ops1 ++ [.up q]) = .ok s2.run.st.net := by
    unfold netRun at q2 ⊢
    rw [List.foldlM_append, q2]
    change List.foldlM (netStep g.nb g.N g.Ns) s1.run.st.net [.up q] = _
    rw [List.foldlM_cons, u2, ← hs3, hs2]
    rfl
  have hup : 0 < numUps q (ops1 ++ [(.up q : BufOp K)]) := by
    unfold numUps
    rw [List.countP_append]
    simp [BufOp.isUp]
  obtain ⟨l1, l2⟩ := C16_frame gd hnet hup
  rw [hz]
  refine ⟨l1, fun idx k col hk hcol => ?_⟩
  have := l2 idx k col hk hcol
  rw [untilUp_snoc_up q ops1 (by simp [BufOp.isUp]), sent_append, sent_up, List.append_nil, ← q3 hb k] at this
  exact this

/-- C142 (b): with few-sample broadcasts the exported fused signals are empty. -/
theorem C142_few {L : Nat} {eff : Bool} (hb : g.bc = .few L eff) {evs : List (ℚ × Nat × EvType)} {s : FusedSt K}
    (h : fusedRun U y g T M evs = .ok s) (k : Nat) : s.zFull k = [] := by
  obtain ⟨-, -, ops, -, -, -, h1⟩ := fusedRun_ops evs h
  exact h1 (by rw [hb]; simp) k

/-- C142 (c): synchronous nodes, the schedule of the code, frames of two hops. While the filter for the broadcasts of node
`k` selects one of its sensors, its exported fused signal is the signal of that sensor, sample for sample from the second hop
on and without delay (the first hop is weighted with the squared window); it ends two hops before the last multiple of
`Ns` in the recording. -/
theorem C142_selected [CharZero K] {n : Nat} (hn : 0 < n) {fs : ℚ} (hfs : 0 < fs)
    (hf : inferFs (clockStamps fs n) = .ok fs) (nbs : List (List Nat)) {seq sim : Bool} {ri : Nat} {first minF : Int}
    {fsInf : List ℚ} {out : List (Instant ℚ)} (hri : sim = true → ri < nbs.length)
    (hout : initEventsFC g.bc g.N g.Ns seq sim ri first minF (syncNodes fs n nbs) = .ok (out, fsInf))
    (hb : g.bc = .whole) (hNs : 0 < g.Ns) (hN : g.N = 2 * g.Ns) (r : DftRoot g.ζ g.N)
    (hc : g.c ≠ 0) (hcr : star g.c = g.c) (hh : IsReal g.h) (hhl : g.h.length = g.N) (hfh : g.f = g.h)
    (hw : ∀ j < g.Ns, at0 g.h (g.Ns + j) ^ 2 + at0 g.h j ^ 2 ≠ 0) {k ref : Nat} (hk : k < nbs.length) (hkf : g.fs k = fs)
    {x : List K} (hx : (y k)[ref]? = some x) (hxn : x.length = n) (hxr : IsReal x)
    (hsee : ∀ i, WindowSees g.h x g.Ns i) (hsel0 : g.wExt k 0 = selector (y k).length ref (g.N / 2 + 1))
    {s : FusedSt K} (h : fusedRun U y g T M (flatEvents out) = .ok s)
    (hsel : ∀ i < (s.run.hist k).length, (U.rows k ((s.run.hist k).take (i + 1))).ext =
      selector (y k).length ref (g.N / 2 + 1)) :
    (s.zFull k).length = ((n - 1) / g.Ns - 2) * g.Ns ∧
    ∀ p < ((n - 1) / g.Ns - 2) * g.Ns, (s.zFull k)[p]? = if p < g.Ns then some (g.h.getD p 0 ^ 2 * x.getD p 0) else x[p]? := by
  have hdvd : g.Ns ∣ g.N := ⟨2, by rw [hN, Nat.mul_comm]⟩
  obtain ⟨out', ho, ht, -⟩ := C78_schedule (bc := g.bc) (N := g.N) (seq := seq) (sim := sim) (r := ri) hNs hn hfs hf
    (fun _ => hdvd) (fun L eff e => by rw [hb] at e; cases e) nbs first minF hri
  rw [hout] at ho
  injection ho with ho
  obtain ⟨rfl, -⟩ := Prod.mk.inj ho
  have hbc := (ht k hk).2
  rw [hb] at hbc
  have hdiv : g.N / g.Ns = 2 := by rw [hN]; exact Nat.mul_div_cancel _ hNs
  obtain ⟨J, hJ⟩ : ∃ J, (n - 1) / g.Ns - 2 = J := ⟨_, rfl⟩
  have hbc' : bcTimes (flatEvents out) k = everySep g.Ns fs 2 (2 + J) := by
    rw [hbc]
    change everySep g.Ns fs (g.N / g.Ns) _ = _
    rw [hdiv]
    unfold everySep
    rw [hJ, Nat.add_sub_cancel_left]
  have hlen : 0 < J → (J + 1) * g.Ns ≤ x.length := by
    intro h0
    have h1 := Nat.div_mul_le_self (n - 1) g.Ns
    have h2 : (J + 1) * g.Ns ≤ (n - 1) / g.Ns * g.Ns := Nat.mul_le_mul_right _ (by omega)
    omega
  obtain ⟨-, j2, j3⟩ := fused_content hb hNs hN r hc hcr hh hhl hfh hw hx hxr hfs hkf hsee hsel0 _ h hbc' hlen hsel
  rw [hJ]
  refine ⟨j2, fun p hp => ?_⟩
  have hpx : p < x.length := by
    have h0 : 0 < J := by
      rcases Nat.eq_zero_or_pos J with h0 | h0
      · rw [h0, Nat.zero_mul] at hp; omega
      · exact h0
    have h1 := hlen h0
    rw [Nat.add_mul] at h1
    omega
  rw [getElem?_of_at0 j2 hp (j3 p hp), List.getElem?_eq_getElem hpx]
  by_cases hpN : p < g.Ns
  · rw [if_pos hpN, if_pos hpN]; rfl
  · rw [if_neg hpN, if_neg hpN, one_mul]
    unfold at0
    rw [List.getD_eq_getElem?_getD, List.getElem?_eq_getElem hpx, Option.getD_some]

end
section
variable {n : Nat} {K : Type} [Field K] [StarRing K] [DecidableEq K] {g : GivenCfg K} {U : TIStrategy n K}
  {fs : ℚ} {m : Nat} {y : Fin n → List (List K)}

/-- C142 (d): the exported signal of TI-DANSE holds the oldest `Ns` samples of the in-network sum that the node used at each
of its updates, in order. Keeping it changes nothing of the run. -/
theorem C142_ti {T : Nat} {ext : Fin n → List (List K)} {up0 : Fin n → List (Fin n)} {trees : List (TreeObj n)}
    {out : List (Instant ℚ)} {s : FusedTISt n K}
    (h : fusedTIRun g U y trees (.init g.N g.refSensor T y ext up0) out = .ok s) :
    tiRun g U y trees (.init g.N g.refSensor T y ext up0) out = .ok s.run ∧
    ∀ k, s.eFull k = (s.run.node k).hist.flatMap fun o => o.eta.take g.Ns :=
  fusedTI_run out (fun _ => rfl) h

/-- C142 (e), under the hypotheses of `C83_whole`: the exported in-network sum of node `k` is the sum of the selected sensors
of all the other nodes, but it starts at their sample `Ns`: it is `Ns` samples early with respect to all the other exported
signals, which start at sample 0. -/
theorem C142_ti_selected [CharZero K] (hg : SyncTI g fs m y) (hb : g.bc = .whole) (hN : g.N = 2 * g.Ns)
    (r : DftRoot g.ζ g.N) (hc : g.c ≠ 0) (hcr : star g.c = g.c) (hh : IsReal g.h) (hhl : g.h.length = g.N)
    (hfh : g.f = g.h) (hwin : ∀ j < g.Ns, at0 g.h (g.Ns + j) ^ 2 + at0 g.h j ^ 2 ≠ 0)
    {ref : Fin n → Nat} {x : Fin n → List K} (hx : ∀ q, (y q)[ref q]? = some (x q)) (hxr : ∀ q, IsReal (x q))
    (hsee : ∀ q i, WindowSees g.h (x q) g.Ns i) {ext : Fin n → List (List K)}
    (hsel0 : ∀ q, tiFilter (y q).length (ext q) false = .ok (selector (y q).length (ref q) (g.N / 2 + 1)))
    (hsel : ∀ q hist, tiFilter (y q).length (U.rows q hist).ext (U.started q hist) =
      .ok (selector (y q).length (ref q) (g.N / 2 + 1)))
    {nbs : List (List Nat)} (hn : nbs.length = n)
    {seq keep sim : Bool} {ri start : Nat} {minF : Int} (hr : sim = true → ri < n) (hstart : start < n)
    {ordOf : Nat → List Level} {treeOf : Nat → TreeObj n} (hT : ∀ k < n, OrientedTree (treeOf k) (ordOf k))
    {out : List (Instant ℚ)} {fsInf : List ℚ} {trees : List (TreeObj n)}
    (h : initEventsTI g.bc g.N g.Ns seq keep sim ri start minF (syncNodes fs m nbs) ordOf treeOf =
      .ok (out, fsInf, trees))
    {T : Nat} {up0 : Fin n → List (Fin n)} {s : FusedTISt n K}
    (hs : fusedTIRun g U y trees (.init g.N g.refSensor T y ext up0) out = .ok s) (k : Fin n) :
    s.eFull k = (List.range (((m - 1) / g.Ns - 4) * g.Ns)).map fun p =>
      ∑ v ∈ Finset.univ.erase k, (x v).getD (g.Ns + p) 0 := by
  obtain ⟨h1, h2⟩ := C142_ti hs
  have h3 := C83_whole hg hb hN r hc hcr hh hhl hfh hwin hx hxr hsee hsel0 hsel hn hr hstart hT h h1 k
  have h4 : (s.run.node k).hist.flatMap (fun o => o.eta.take g.Ns) =
      ((s.run.node k).hist.map TIObs.seen).flatMap (fun u => u.2.2.take g.Ns) := by
    rw [List.flatMap_map]; rfl
  rw [h2, h4, h3, List.flatMap_map, ← range_blocks]
  apply List.flatMap_congr
  intro j _
  simp only [observedAt]
  unfold sumOthers
  rw [← List.map_take, List.take_range, Nat.min_eq_left (by omega)]
  apply List.map_congr_left
  intro i hi
  have hi' := List.mem_range.mp hi
  apply Finset.sum_congr rfl
  intro v _
  have he : (4 + j - 1) * g.Ns = 2 * g.Ns + (g.Ns + j * g.Ns) := by
    rw [show 4 + j - 1 = 3 + j by omega]; ring
  rw [at0_frameBefore (by omega), hN, he, if_pos (by omega)]
  unfold at0
  congr 1
  omega

end

/-! ## Concrete cases -/

section
local instance exFusedStar : StarRing ℚ := starRingOfComm

/-- Two nodes that send their sensor. -/
def exFused : GivenCfg ℚ :=
  { exTI .whole with
    h := [1, 2], f := [1, 2]
    nb := fun k => if k = 0 then [1] else if k = 1 then [0] else []
    wInt := fun _ _ => [[1, 1], [0, 0]], wExt := fun _ _ => [[1, 1]], wLoc := fun _ _ => [[1, 1]] }

/-- Filters that keep it that way. -/
def exFusedU : Strategy ℚ :=
  { rot := fun _ _ _ _ => 1, rows := fun _ hist => ⟨[[(hist.length : ℚ), 1], [0, 1]], [[1, 1]], [[1, 1]]⟩ }

def exFusedEvs : List (ℚ × Nat × EvType) :=
  [(2, 0, .bc), (2, 1, .bc), (2, 0, .up), (2, 1, .up), (3, 0, .bc), (3, 1, .bc), (3, 0, .up), (3, 1, .up),
   (4, 0, .bc), (4, 1, .bc), (4, 0, .up), (4, 1, .up), (5, 0, .bc), (5, 1, .bc), (5, 0, .up), (5, 1, .up)]

/-- The schedule of the code. -/
theorem exFused_sched : inferFs (clockStamps 1 7) = .ok 1 ∧
    (initEventsFC .whole 2 1 true false 0 0 1 (syncNodes 1 7 [[1], [0]])).toOption.map
      (fun o => (flatEvents o.1, o.2)) = some (exFusedEvs, [1, 1]) := by
  decide_cbv

/-- The hypotheses of C142 (a) and (c) are met; the fused signals are those of `exSync` (the first sample is weighted), and
the last frame that node 0 uses is the end of the fused signal of node 1. -/
example : DftRoot exFused.ζ exFused.N ∧ GoodNeighbours exFused.nb ∧ exFused.N = 2 * exFused.Ns ∧
    (∀ k < 2, exFused.wExt k 0 = selector 1 0 2 ∧ (exSync k)[0]? = some ((exSync k).getD 0 []) ∧
      ∀ i, WindowSees exFused.h ((exSync k).getD 0 []) exFused.Ns i) ∧
    (fusedRun exFusedU exSync exFused 7 (fun _ => 1) exFusedEvs).toOption.map
      (fun s => (s.zFull 0, s.zFull 1, (s.run.hist 0).map (·.z), (s.run.hist 0).map (·.t))) =
      some ([3, 1, 4, 1], [2, 7, 1, 8], [[[0, 2]], [[2, 7]], [[7, 1]], [[1, 8]]], [2, 3, 4, 5]) := by
  refine ⟨⟨by decide, ⟨by decide +kernel, by
      intro l hl
      exact ((neg_one_pow_eq_one_iff_even (by norm_num)).mp hl).two_dvd⟩, by decide +kernel⟩, ⟨?_, ?_⟩, rfl, ?_,
    by decide +kernel⟩
  · intro k
    change (if k = 0 then [1] else if k = 1 then [0] else []).Nodup
    split_ifs <;> simp
  · intro k q hq
    change q ∈ (if k = 0 then [1] else if k = 1 then [0] else []) at hq
    change k ∈ (if q = 0 then [1] else if q = 1 then [0] else [])
    split_ifs at hq with h1 h2
    · rw [List.mem_singleton] at hq; subst h1 hq; simp
    · rw [List.mem_singleton] at hq; subst h2 hq; simp
    · cases hq
  · intro k hk
    refine ⟨rfl, by unfold exSync; split_ifs <;> rfl, fun i => ?_⟩
    by_cases hz : at0 ((exSync k).getD 0 []) ((i + 1) * 1 + 0) = 0
    · right
      intro j hj
      have hj' : j < 1 := hj
      rw [show j = 0 by omega]
      exact hz
    · exact .inl ⟨0, by decide, by decide +kernel, hz⟩

/-- The exported in-network sum of node 1 of the TI-DANSE run of `C83_whole`: 1 + 4 + 6 and 4 + 1 + 1, the sums of
the samples 1 and 2 of the other nodes (sample 0 is missing: `Ns = 1`). -/
example : ((fusedTIRun (exTI .whole) exTISel exTISig [(exTITree 0 0).1, (exTITree 0 1).1]
      (.init 2 0 7 exTISig (fun _ => [[1, 1], [0, 0]]) (fun _ => [])) exTIOut).toOption.map fun s => s.eFull 1) =
      some [11, 6] := by
  decide +kernel

end
end Danse
