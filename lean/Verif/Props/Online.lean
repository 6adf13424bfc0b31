import Verif.Proofs.Online7
import Verif.Props.Given

/-!
# Properties C72-C76: what a whole online run can and cannot depend on

`U` is any way in which the nodes compute filters and phase factors from what they observed, `g` the
parameters and the network, `evs` any schedule of broadcasts and updates, `y` the sensor signals.
-/

namespace Danse
section
variable {K : Type} [Field K] [StarRing K] [DecidableEq K] {g : GivenCfg K}
  {y y' : Nat → List (List K)}

/-- C72 (a): all the events up to a time `τ` give the same result (the same error, or the same state
of every node: output, filters, buffers) on recordings that agree up to that time, whatever follows in
the recordings. With whole-chunk broadcasts, updates must not happen before the first `N - Ns` samples
are there. -/
theorem C72_causal (U : Strategy K) (T : Nat) (M : Nat → Nat) {τ : ℚ} (hNs : g.Ns ≤ g.N)
    (hfs : ∀ k, 0 ≤ g.fs k) (hy : ∀ k, SameUntil ⌊τ * g.fs k⌋.toNat (y k) (y' k))
    {evs : List (ℚ × Nat × EvType)} (ht : ∀ ev ∈ evs, 0 ≤ ev.1 ∧ ev.1 ≤ τ)
    (hw : g.bc = .whole → ∀ ev ∈ evs, ev.2.2 = .up → (g.N : ℤ) - g.Ns ≤ ⌊ev.1 * g.fs ev.2.1⌋) :
    adaptRun U y (.init g T M) evs = adaptRun U y' (.init g T M) evs := by
  refine adaptRun_until U (ns := fun k => ⌊τ * g.fs k⌋.toNat) evs _ hy hNs fun ev hev => ?_
  have h1 := ht ev hev
  have h0 : 0 ≤ ⌊ev.1 * g.fs ev.2.1⌋ := Int.floor_nonneg.mpr (mul_nonneg h1.1 (hfs _))
  refine ⟨h0, ?_, fun e => hw e ev hev⟩
  have : ⌊ev.1 * g.fs ev.2.1⌋ ≤ ⌊τ * g.fs ev.2.1⌋ :=
    Int.floor_le_floor (mul_le_mul_of_nonneg_right h1.2 (hfs _))
  have e : (AdaptSt.init g T M : AdaptSt K).cfg = g := rfl
  rw [e]
  omega

/-- C72 (b): so in two complete runs on recordings that agree up to time `τ`, the output samples of a
node that come before the frames of all its updates after `τ` are the same. -/
theorem C72_output (U : Strategy K) (T : Nat) (M : Nat → Nat) {τ : ℚ} (hNs : g.Ns ≤ g.N)
    (hfs : ∀ k, 0 ≤ g.fs k) (hy : ∀ k, SameUntil ⌊τ * g.fs k⌋.toNat (y k) (y' k))
    {pre post : List (ℚ × Nat × EvType)} (ht : ∀ ev ∈ pre, 0 ≤ ev.1 ∧ ev.1 ≤ τ)
    (hw : g.bc = .whole → ∀ ev ∈ pre, ev.2.2 = .up → (g.N : ℤ) - g.Ns ≤ ⌊ev.1 * g.fs ev.2.1⌋)
    {a a' : AdaptSt K} (h : adaptRun U y (.init g T M) (pre ++ post) = .ok a)
    (h' : adaptRun U y' (.init g T M) (pre ++ post) = .ok a') {k n : Nat}
    (hn : ∀ e ∈ frameEnds g.bc g.N g.Ns (g.fs k) k post, (n : Int) ≤ e - g.N) {j : Nat} (hj : j < n) :
    (a.st.d k)[j]? = (a'.st.d k)[j]? ∧ (a.st.dLoc k)[j]? = (a'.st.dLoc k)[j]? := by
  have hc := C72_causal U T M hNs hfs hy ht hw
  unfold adaptRun at h h' hc
  rw [List.foldlM_append] at h h'
  obtain ⟨b, hb, h⟩ := bind_ok_inv h
  obtain ⟨b', hb', h'⟩ := bind_ok_inv h'
  rw [← hc, hb] at hb'
  injection hb' with hb'
  subst hb'
  have hfix : ∀ (evs : List (ℚ × Nat × EvType)) (a b : AdaptSt K),
      evs.foldlM (adaptStep U y) a = .ok b → b.cfg.fixed a.cfg := by
    intro evs
    induction evs with
    | nil => intro a b h; injection h with h; subst h; rfl
    | cons ev evs ih =>
      intro a b h
      rw [List.foldlM_cons] at h
      obtain ⟨c, hc, h⟩ := bind_ok_inv h
      exact (ih c b h).trans (adaptStep_fixed hc)
  obtain ⟨p1, p2, p3, p4, _⟩ := (hfix pre _ b hb).parts
  have e : (AdaptSt.init g T M : AdaptSt K).cfg = g := rfl
  rw [e] at p1 p2 p3 p4
  have hE : ∀ e ∈ frameEnds b.cfg.bc b.cfg.N b.cfg.Ns (b.cfg.fs k) k post, (n : Int) ≤ max (e - b.cfg.N) 0 := by
    rw [p1, p2, p3, p4]
    exact fun e he => le_max_of_le_left (hn e he)
  have r1 := adaptRun_before (k := k) (n := n) post b a (by rw [p2, p3]; exact hNs) hE h
  have r2 := adaptRun_before (k := k) (n := n) post b a' (by rw [p2, p3]; exact hNs) hE h'
  exact ⟨(r1.1 j hj).trans (r2.1 j hj).symm, (r1.2 j hj).trans (r2.2 j hj).symm⟩

/-- C73 (a): let `S` be a set of nodes that contains the neighbours of its nodes. What the nodes of `S`
produce (outputs, filters, observations) depends only on the signals of the nodes of `S` and on how the
nodes of `S` compute their filters: two runs that end normally agree at every node of `S`. -/
theorem C73_component {U U' : Strategy K} {S : Nat → Prop} (hS : Closed g.nb S)
    (hU : ∀ q, S q → U.rows q = U'.rows q ∧ U.rot q = U'.rot q) (hy : ∀ q, S q → y q = y' q)
    (T : Nat) (M : Nat → Nat) (evs : List (ℚ × Nat × EvType)) {a b : AdaptSt K}
    (ha : adaptRun U y (.init g T M) evs = .ok a) (hb : adaptRun U' y' (.init g T M) evs = .ok b) :
    ∀ k, S k → a.view k = b.view k := by
  have h := adaptRun_local hS hU hy evs (a := .init g T M) (b := .init g T M) rfl
    ⟨LocRel.rfl_of _ _, fun _ _ => rfl⟩ a b ha hb
  intro k hk
  unfold AdaptSt.view
  rw [h.loc.d k hk, h.loc.dLoc k hk, h.loc.wInt k hk, h.loc.wExt k hk, h.loc.wLoc k hk, h.hist k hk]

/-- C73 (b): with given filters, the output of node `k` depends only on its own filters and signals and
on the signals and broadcast filters of its neighbours. -/
theorem C73_neighbours {f : GivenCfg K} {k : Nat} (hcfg : f = { g with
      wInt := f.wInt, wExt := f.wExt, wLoc := f.wLoc, rot := f.rot })
    (hext : ∀ q, q = k ∨ q ∈ g.nb k → f.wExt q = g.wExt q ∧ y q = y' q)
    (hint : f.wInt k = g.wInt k) (hloc : f.wLoc k = g.wLoc k) (hrot : f.rot k = g.rot k)
    (N r T : Nat) (M : Nat → Nat) (evs : List (ℚ × Nat × EvType)) {a b : GivenSt K}
    (ha : f.run y (.init N r T M) evs = .ok a) (hb : g.run y' (.init N r T M) evs = .ok b) :
    a.d k = b.d k ∧ a.dLoc k = b.dLoc k := by
  have h := run_local (A := fun q => q = k ∨ q ∈ g.nb k) (B := fun q => q = k) (f := f) (g := g)
    (y := y) (y' := y') (fun q hq => .inl hq) (by rintro q rfl p hp; exact .inr hp)
    (fun q hq => (hext q hq).2) evs (a := .init N r T M) (b := .init N r T M)
    ⟨hcfg, fun q hq => (hext q hq).1, by rintro q rfl; exact hint, by rintro q rfl; exact hloc,
      by rintro q rfl; exact hrot, rfl, fun _ _ => rfl, fun _ _ => rfl, fun _ _ => rfl, fun _ _ => rfl,
      fun _ _ => rfl, fun _ _ => rfl, fun _ _ => rfl, fun _ _ => rfl, fun _ _ => rfl⟩ a b ha hb
  exact ⟨h.d k rfl, h.dLoc k rfl⟩

/-- C74, refuted property: with linear-convolution synthesis (`desSigProcessingType = 'conv'`) the
DANSE output of a node does not depend on what its neighbours record: two runs in which node `k` has
the same signals have the same output at node `k`, with any filters. -/
theorem C74_refuted_conv_uses_neighbours (hconv : g.conv = true) {k : Nat} (hy : y k = y' k)
    (N r T : Nat) (M : Nat → Nat) (evs : List (ℚ × Nat × EvType)) {a b : GivenSt K}
    (ha : g.run y (.init N r T M) evs = .ok a) (hb : g.run y' (.init N r T M) evs = .ok b) :
    a.d k = b.d k :=
  (run_conv hconv hy evs _ _ rfl rfl rfl a b ha hb).1

/-- C75 (a): when the filters of node `k` select its reference sensor in every bin, its output at every
sample is the sample of that sensor times the sum, over the frames of all its updates, of the products
of the windows; whatever the schedule and the neighbours do. -/
theorem C75_gain [CharZero K] (r : DftRoot g.ζ g.N) (he : 2 ∣ g.N) (hc : g.c ≠ 0)
    (hcr : star g.c = g.c) (hh : IsReal g.h) (hhl : g.h.length = g.N) (hfl : g.f.length = g.N)
    (hconv : g.conv = false) {k ref : Nat} {x : List K} (hx : (y k)[ref]? = some x) (hxr : IsReal x)
    (hw : ∀ i, g.wInt k (i + 1) = selector ((y k).length + (g.nb k).length) ref (g.N / 2 + 1))
    (hrot : ∀ i κ, g.rot k i ref κ = 1) {T : Nat} (hT : T ≤ x.length) (M : Nat → Nat)
    {evs : List (ℚ × Nat × EvType)}
    (hE : ∀ e ∈ frameEnds g.bc g.N g.Ns (g.fs k) k evs, 0 < e ∧ e ≤ T) {s : GivenSt K}
    (h : g.run y (.init g.N g.refSensor T M) evs = .ok s) {n : Nat} (hn : n < T) :
    (s.d k)[n]? = some
      (((frameEnds g.bc g.N g.Ns (g.fs k) k evs).map (windowGain g.N g.h g.f n)).sum * x.getD n 0) := by
  have hl : ((GivenSt.init g.N g.refSensor T M : GivenSt K).d k).length = T := by simp [GivenSt.init]
  obtain ⟨h1, h2⟩ := run_gain r he hc hcr hh hhl hfl hconv hx hxr hw hrot evs _ s (by rw [hl]; exact hT)
    (by rw [hl]; exact hE) h
  rw [hl] at h1 h2
  have h3 := h2 n hn
  have h4 : at0 ((GivenSt.init g.N g.refSensor T M : GivenSt K).d k) n = 0 := by
    unfold at0 GivenSt.init
    simp [hn]
  rw [h4, zero_add] at h3
  rw [List.getElem?_eq_getElem (by rw [h1]; exact hn), Option.some.injEq]
  have h5 : at0 (s.d k) n = (s.d k)[n]'(by rw [h1]; exact hn) := by
    unfold at0
    rw [List.getD_eq_getElem?_getD, List.getElem?_eq_getElem (by rw [h1]; exact hn), Option.getD_some]
  rw [← h5, h3]
  rfl

/-- C75 (b): when in addition the updates of node `k` come regularly (the ends of their frames are
`e0, e0 + Ns, e0 + 2 Ns, ...`, `J` of them), the frame length is a multiple `R` of the hop and the
products of the windows add up to 1 over the `R` overlapping positions, the output is the signal of the
reference sensor, sample for sample, from the start of the last hop of the first frame up to where
frames that are not there yet would contribute. -/
theorem C75_passthrough [CharZero K] (r : DftRoot g.ζ g.N) (he : 2 ∣ g.N) (hc : g.c ≠ 0)
    (hcr : star g.c = g.c) (hh : IsReal g.h) (hhl : g.h.length = g.N) (hfl : g.f.length = g.N)
    (hconv : g.conv = false) {k ref : Nat} {x : List K} (hx : (y k)[ref]? = some x) (hxr : IsReal x)
    (hw : ∀ i, g.wInt k (i + 1) = selector ((y k).length + (g.nb k).length) ref (g.N / 2 + 1))
    (hrot : ∀ i κ, g.rot k i ref κ = 1) {T : Nat} (hT : T ≤ x.length) (M : Nat → Nat)
    {evs : List (ℚ × Nat × EvType)} {R J : Nat} {e0 : Int} (hNs : 0 < g.Ns) (hR : 0 < R)
    (hN : g.N = R * g.Ns) (hcola : ∀ ρ < g.Ns, ∑ m ∈ Finset.range R,
      g.h.getD (ρ + m * g.Ns) 0 * g.f.getD (ρ + m * g.Ns) 0 = 1)
    (hreg : frameEnds g.bc g.N g.Ns (g.fs k) k evs = (List.range J).map fun (j : Nat) => e0 + j * g.Ns)
    (h0 : 0 < e0) (hJ : e0 + J * g.Ns ≤ T + g.Ns) {s : GivenSt K}
    (h : g.run y (.init g.N g.refSensor T M) evs = .ok s) {n : Nat}
    (h1 : e0 - g.Ns ≤ n) (h2 : (n : Int) < e0 + J * g.Ns - g.N) :
    (s.d k)[n]? = x[n]? := by
  have hE : ∀ e ∈ frameEnds g.bc g.N g.Ns (g.fs k) k evs, 0 < e ∧ e ≤ T := by
    rw [hreg]
    intro e he
    obtain ⟨j, hj, rfl⟩ := List.mem_map.mp he
    have hj' := List.mem_range.mp hj
    have e1 : ((j : Int) + 1) * g.Ns ≤ J * g.Ns := by
      apply mul_le_mul_of_nonneg_right <;> omega
    have e2 : 0 ≤ (j : Int) * g.Ns := by positivity
    rw [add_mul, one_mul] at e1
    constructor <;> omega
  have hn : n < T := by
    have : g.Ns ≤ g.N := by rw [hN]; exact Nat.le_mul_of_pos_left _ hR
    omega
  rw [C75_gain r he hc hcr hh hhl hfl hconv hx hxr hw hrot hT M hE h hn, hreg]
  have key := regular_gain (J := J) (n := n) hNs hR hcola (e0 := e0) (by omega) (by rw [← hN]; omega)
  rw [← hN] at key
  rw [key, one_mul, List.getD_eq_getElem?_getD, List.getElem?_eq_getElem (by omega), Option.getD_some]

/-- C76 (a): few samples are broadcast at a time, and node `k` has its initial broadcast filter (its
filter has not been updated yet, or it is a single-sensor node that does not fuse). When its broadcasts
come every `L` samples, the frame that any neighbour `q` has of node `k` at an update consists of the
last `N` samples of the signal of the reference sensor of node `k` that were sent, in order and without
loss or repetition, preceded by silence if fewer were sent. -/
theorem C76_delivery {L : Nat} (hb : g.bc = .few L false) (hN : 2 ≤ g.N) (hL : L ≤ g.N)
    (hnb : GoodNeighbours g.nb) {k : Nat} {x : List K} (hx : (y k)[g.refSensor]? = some x)
    {M : Nat → Nat} (hM : M k = (y k).length) {pre : List (ℚ × Nat × EvType)} {t : ℚ} {q idx : Nat}
    (hk : (g.nb q)[idx]? = some k)
    (hkeep : (g.noFusion = true ∧ (y k).length = 1) ∨ ∀ ev ∈ pre, |ev.1| < g.upTDEvery) {e0 J : Nat}
    (hreg : bcEnds (g.fs k) k pre = (List.range J).map fun (j : Nat) => ((e0 + (j + 1) * L : Nat) : Int))
    (hlen : e0 + J * L ≤ x.length) {T : Nat} {s : GivenSt K}
    (h : g.run y (.init g.N g.refSensor T M) (pre ++ [(t, q, .up)]) = .ok s) :
    ∃ col, (s.net.z q)[idx]? = some col ∧ LastSamples g.N ((x.take (e0 + J * L)).drop e0) col := by
  unfold GivenCfg.run at h
  rw [List.foldlM_append] at h
  obtain ⟨s1, h1, h⟩ := bind_ok_inv h
  have hends : ∀ ev ∈ pre, ev.2.1 = k → ev.2.2 = .bc →
      (L : Int) ≤ ⌊ev.1 * g.fs k⌋ ∧ ⌊ev.1 * g.fs k⌋ ≤ x.length := by
    intro ev hev e1 e2
    have hm : ⌊ev.1 * g.fs k⌋ ∈ bcEnds (g.fs k) k pre := by
      unfold bcEnds
      rw [List.mem_filterMap]
      exact ⟨ev, hev, by rw [if_pos ⟨e1, e2⟩]⟩
    rw [hreg] at hm
    obtain ⟨j, hj, e⟩ := List.mem_map.mp hm
    have hj' := List.mem_range.mp hj
    rw [← e]
    have l1 : (j + 1) * L ≤ J * L := Nat.mul_le_mul_right _ (by omega)
    have l2 : L ≤ (j + 1) * L := Nat.le_mul_of_pos_left _ (by omega)
    constructor <;> omega
  obtain ⟨ops, ho, hr⟩ := run_keeps hb hN hL hx pre _ s1
    ⟨by simp only [GivenSt.init, diracIR, hM], .inr rfl⟩ hkeep hends h1
  have hup : netRun g.nb g.N g.Ns (ops ++ [.up q]) = .ok s.net := by
    rw [netRun_snoc]
    have hr' : netRun g.nb g.N g.Ns ops = .ok s1.net := hr
    rw [hr']
    obtain ⟨ops2, ho2, hr2⟩ := run_net [(t, q, .up)] s1 s h
    cases ho2 with
    | cons a b =>
      cases b
      rename_i op
      cases op with
      | bc j c => simp [evOp] at a
      | up j =>
        have : q = j := a.1
        subst this
        rw [List.foldlM_cons] at hr2
        obtain ⟨n1, hn1, hr2⟩ := bind_ok_inv hr2
        injection hr2 with hr2
        subst hr2
        exact hn1
  have hsince : sinceUp q (ops ++ [.up q]) = ([] : List (BufOp K)) := by
    unfold sinceUp
    rw [List.foldl_append]
    simp [BufOp.isUp]
  have huntil : untilUp q (ops ++ [.up q]) = ops ++ [(.up q : BufOp K)] := by
    unfold untilUp
    rw [hsince]
    simp
  have hnum : 0 < numUps q (ops ++ [(.up q : BufOp K)]) := by
    unfold numUps
    rw [List.countP_append]
    simp [BufOp.isUp]
  obtain ⟨f1, f2⟩ := C16_frame hnb hup hnum
  have hidx : idx < (s.net.z q).length := by rw [f1]; exact (List.getElem?_eq_some_iff.mp hk).1
  refine ⟨_, List.getElem?_eq_getElem hidx, ?_⟩
  have f3 := f2 idx k _ hk (List.getElem?_eq_getElem hidx)
  rw [huntil] at f3
  have hsent : sent (ops ++ [(.up q : BufOp K)]) k = sent ops k := by
    unfold sent; simp
  rw [hsent, sent_of ho, hreg, newest_stream x e0 L J hlen] at f3
  exact f3

/-- C76 (b): in particular, once at least a frame has been sent, the frame at the neighbour is the
frame of the reference sensor of node `k` that ends at its last broadcast. -/
theorem C76_frame {L : Nat} (hb : g.bc = .few L false) (hN : 2 ≤ g.N) (hL : L ≤ g.N)
    (hnb : GoodNeighbours g.nb) {k : Nat} {x : List K} (hx : (y k)[g.refSensor]? = some x)
    {M : Nat → Nat} (hM : M k = (y k).length) {pre : List (ℚ × Nat × EvType)} {t : ℚ} {q idx : Nat}
    (hk : (g.nb q)[idx]? = some k)
    (hkeep : (g.noFusion = true ∧ (y k).length = 1) ∨ ∀ ev ∈ pre, |ev.1| < g.upTDEvery) {e0 J : Nat}
    (hreg : bcEnds (g.fs k) k pre = (List.range J).map fun (j : Nat) => ((e0 + (j + 1) * L : Nat) : Int))
    (hlen : e0 + J * L ≤ x.length) (hJ : g.N ≤ J * L) {T : Nat} {s : GivenSt K}
    (h : g.run y (.init g.N g.refSensor T M) (pre ++ [(t, q, .up)]) = .ok s) :
    (s.net.z q)[idx]? = some (frameAt x (e0 + J * L - g.N) g.N) := by
  obtain ⟨col, h1, h2, p, h3⟩ := C76_delivery hb hN hL hnb hx hM hk hkeep hreg hlen h
  rw [h1]
  congr 1
  have hp : p.length = J * L := by
    have := congrArg List.length h3
    simp [h2] at this
    omega
  have h4 := congrArg (List.drop p.length) h3
  rw [List.drop_left] at h4
  rw [← h4, hp, List.drop_append, List.drop_eq_nil_of_le (by simp; omega), List.nil_append,
    List.length_replicate, List.drop_drop, frameAt, List.drop_take]
  congr 1
  · omega
  · congr 1; omega

end

/-! ## Concrete runs -/

/-- Each node averages, at an update, what it sees: a strategy that depends on the observations. -/
def exStrategy : Strategy ℚ :=
  { rot := fun _ _ _ _ => 1
    rows := fun k h =>
      let o := h.getLastD ⟨0, [], [], []⟩
      let v := ((o.loc ++ o.z).map List.sum).sum + k + h.length
      ⟨[[0, v], [1, 1]], [[v, 1]], [[1, v]]⟩ }


/-- Recordings that agree in the first three samples. -/
def exRec (c : ℚ) (k : Nat) : List (List ℚ) := [[k, 1, 3, c, c]]

/-- The hypotheses of `C72_causal` and `C72_output` are met, with filters that depend on the signals:
the outputs agree in the first two samples and differ from where the frame of the update at time 4 is. -/
example : letI : StarRing ℚ := starRingOfComm
    (∀ k, SameUntil ⌊(3 : ℚ) * 1⌋.toNat (exRec 5 k) (exRec 7 k)) ∧
    frameEnds (.few 1 false) 2 1 1 0 [(4, 0, .bc), (4, 1, .bc), (4, 0, .up)] = [4] ∧
    ((adaptRun exStrategy (exRec 5) (.init (exGiven (.few 1 false) [1, 0]) 5 fun _ => 1)
      (exEvs ++ [(4, 0, .bc), (4, 1, .bc), (4, 0, .up)])).toOption.map fun a => a.st.d 0) =
      some [0, -13 / 2, -24, 113 / 2, 0] ∧
    ((adaptRun exStrategy (exRec 7) (.init (exGiven (.few 1 false) [1, 0]) 5 fun _ => 1)
      (exEvs ++ [(4, 0, .bc), (4, 1, .bc), (4, 0, .up)])).toOption.map fun a => a.st.d 0) =
      some [0, -13 / 2, -80, 243 / 2, 0] := by
  refine ⟨fun k => ?_, ?_⟩
  · have : ⌊(3 : ℚ) * 1⌋.toNat = 3 := by norm_num; rfl
    rw [this]
    exact .cons ⟨rfl, by simp, by simp⟩ .nil
  · decide +kernel

/-- Four nodes in two pairs. -/
def exPair (conv : Bool) (w : List (List ℚ)) : GivenCfg ℚ :=
  { exGiven (.few 1 false) [1, 0] with
    nb := fun k => [if k % 2 = 0 then k + 1 else k - 1], wInt := fun _ _ => w, conv := conv,
    f := [1 / 2, 1 / 2], noFusion := true }

/-- Signals that differ in the second pair only. -/
def exTwo (c : ℚ) (k : Nat) : List (List ℚ) := if k < 2 then [[1, 2, 3, 4, 5]] else [[c, 1, c, 2, 1]]

def exTwoEvs : List (ℚ × Nat × EvType) :=
  [(2, 0, .bc), (2, 2, .bc), (3, 0, .bc), (3, 1, .bc), (3, 2, .bc), (3, 3, .bc), (3, 0, .up), (3, 2, .up)]

/-- The hypotheses of `C73_component` are met for the first pair of nodes; the outputs of the second
pair differ. -/
example : letI : StarRing ℚ := starRingOfComm
    Closed (exPair false []).nb (· < 2) ∧ (∀ q < 2, exTwo 1 q = exTwo 2 q) ∧
    ((adaptRun exStrategy (exTwo 1) (.init (exPair false []) 5 fun _ => 1) exTwoEvs).toOption.map
      fun a => (a.st.d 0, a.st.d 2)) = some ([0, -9 / 4, 15 / 4, 0, 0], [0, 0, 1 / 2, 0, 0]) ∧
    ((adaptRun exStrategy (exTwo 2) (.init (exPair false []) 5 fun _ => 1) exTwoEvs).toOption.map
      fun a => (a.st.d 0, a.st.d 2)) = some ([0, -9 / 4, 15 / 4, 0, 0], [0, -2, 3, 0, 0]) := by
  refine ⟨?_, fun q hq => by simp [exTwo, hq], ?_⟩
  · intro k hk q hq
    have : k = 0 ∨ k = 1 := by have : k < 2 := hk; omega
    rcases this with rfl | rfl <;> simp [exPair] at hq <;> omega
  · decide +kernel

/-- Signals of node 0 and of its neighbour. -/
def exReg (c : ℚ) (k : Nat) : List (List ℚ) :=
  if k = 0 then [[3, 1, 4, 1, 5]] else [[c, 2 * c, 3 * c, 4 * c, 5 * c]]

/-- Regular broadcasts of node 1 and updates of node 0. -/
def exRegEvs : List (ℚ × Nat × EvType) :=
  [(2, 1, .bc), (2, 0, .up), (3, 1, .bc), (3, 0, .up), (4, 1, .bc), (4, 0, .up)]

/-- The hypotheses of `C73_neighbours` and `C74_refuted_conv_uses_neighbours` are met; with WOLA
synthesis and the same filters (last two runs) the output does depend on the neighbour. -/
example : letI : StarRing ℚ := starRingOfComm
    let o := fun conv c => ((exPair conv [[1, 1], [1, 2]]).run (exReg c) (.init 2 0 5 fun _ => 1)
      exRegEvs).toOption.map fun a => a.d 0
    o true 1 = some [0, 3 / 4, 1 / 4, 1, 0] ∧ o true 2 = some [0, 3 / 4, 1 / 4, 1, 0] ∧
    o false 1 = some [1, 13 / 4, 7, 11 / 4, 0] ∧ o false 2 = some [1 / 2, 11 / 2, 10, 5, 0] := by
  decide +kernel

/-- The hypotheses of `C75_passthrough` are met: the output of node 0 is its signal 3, 1, 4, 1, 5 at
the samples 1 and 2 (with half the gain at the samples that a single frame covers). The hypotheses of
`C76_frame` are met: node 0 has the newest two samples of its neighbour. -/
example : letI : StarRing ℚ := starRingOfComm
    let g := exPair false [[1, 1], [0, 0]]
    DftRoot g.ζ g.N ∧ [[1, 1], [0, 0]] = selector (K := ℚ) 2 0 2 ∧
    (∀ ρ < g.Ns, ∑ m ∈ Finset.range 2, g.h.getD (ρ + m * g.Ns) 0 * g.f.getD (ρ + m * g.Ns) 0 = 1) ∧
    frameEnds g.bc g.N g.Ns (g.fs 0) 0 exRegEvs = (List.range 3).map (fun (j : Nat) => (2 : Int) + j * 1) ∧
    bcEnds (g.fs 1) 1 (exRegEvs.take 5) =
      (List.range 3).map (fun (j : Nat) => ((1 + (j + 1) * 1 : Nat) : Int)) ∧
    (g.run (exReg 1) (.init 2 0 5 fun _ => 1) (exRegEvs.take 5 ++ [(4, 0, .up)])).toOption.map
      (fun a => (a.d 0, a.net.z 0)) = some ([3 / 2, 1, 4, 1 / 2, 0], [[3, 4]]) := by
  letI : StarRing ℚ := starRingOfComm
  refine ⟨?_, by decide +kernel, ?_, by decide +kernel, by decide +kernel, by decide +kernel⟩
  · refine ⟨by norm_num [exPair, exGiven], ⟨by norm_num [exPair, exGiven], ?_⟩, ?_⟩
    · intro l hl
      rcases Nat.even_or_odd l with he | ho
      · exact he.two_dvd
      · simp only [exPair, exGiven] at hl
        rw [ho.neg_one_pow] at hl; norm_num at hl
    · show (-1 : ℚ) = (-1)⁻¹
      norm_num
  · intro ρ hρ
    have : ρ = 0 := by simp only [exPair, exGiven] at hρ; omega
    subst this
    simp [exPair, exGiven, Finset.sum_range_succ]
    norm_num

/-- The neighbour relation of these runs is the one of a pair. -/
example : GoodNeighbours (exPair false []).nb := by
  refine ⟨fun k => by simp [exPair], fun k q hq => ?_⟩
  simp only [exPair, List.mem_singleton] at hq ⊢
  split at hq <;> split <;> omega

end Danse
