import Verif.Proofs.Online9
import Verif.Props.Signals
import Verif.Props.Buffers

/-! # Helper lemmas: an online run with few-sample broadcasts goes through -/

set_option linter.unusedSectionVars false

namespace Danse
section
variable {K : Type} [Field K] [StarRing K] [DecidableEq K] {g : GivenCfg K} {y : Nat → List (List K)}

/-- Filters have one value per bin. -/
def BinsOk (N : Nat) (w : List (List K)) : Prop := ∀ b ∈ w, b.length = N / 2 + 1

theorem distFct_ok {ζ : K} {n : Nat} (hn : 0 < n) (he : 2 ∣ n) {w : List (List K)} (hw : BinsOk n w)
    (h f : List K) (R : K) : ∃ r, distFct ζ n w h f R = .ok r ∧ ∀ a ∈ r, a.length = 2 * n - 1 := by
  unfold distFct
  obtain ⟨r, hr, hf⟩ := mapM_ok_of_forall (l := w)
    (f := fun w => do
      let wTD ← backToTD ζ n (w.map star)
      .ok (distFctTD n wTD h f R)) (P := fun _ a => a.length = 2 * n - 1) (fun x hx => by
    obtain ⟨s, hs⟩ := (C35_accepts_iff (ζ := ζ) (n := n) (x.map star)).1.mpr
      ⟨hn, he, by rw [List.length_map]; exact hw x hx⟩
    refine ⟨distFctTD n s h f R, ?_, by simp [distFctTD]⟩
    rw [hs]
    rfl)
  refine ⟨r, hr, fun a ha => ?_⟩
  obtain ⟨i, hi, rfl⟩ := List.getElem_of_mem ha
  exact (List.forall₂_iff_get.mp hf).2 i (by rw [hf.length_eq]; exact hi) hi

theorem mapM_chunk {ys : List (List K)} {N : Nat} {e : Int} (h0 : 0 ≤ e) (h1 : ∀ ch ∈ ys, e ≤ ch.length) :
    ∃ fr, ys.mapM (fun ch => localChunk ch N e) = .ok fr ∧ ∀ x ∈ fr, x.1.length = N := by
  obtain ⟨fr, hr, hf⟩ := mapM_ok_of_forall (l := ys) (f := fun ch => localChunk ch N e)
    (P := fun _ a => a.1.length = N) (fun x hx => by
    obtain ⟨c, hc, hl⟩ := localChunk_ok (N := N) h0 (h1 x hx)
    exact ⟨_, hc, hl.1⟩)
  refine ⟨fr, hr, fun a ha => ?_⟩
  obtain ⟨i, hi, rfl⟩ := List.getElem_of_mem ha
  exact (List.forall₂_iff_get.mp hf).2 i (by rw [hf.length_eq]; exact hi) hi

theorem netStep_bc_ok (gd : GoodNeighbours g.nb) (s : NetSt K) (k : Nat) (c : List K) :
    ∃ s', netStep g.nb g.N g.Ns s (.bc k c) = .ok s' := by
  unfold netStep
  have : ∃ b, fillBuffers g.nb s.zBuffer k c = .ok b := by
    unfold fillBuffers
    have key : ∀ (l : List Nat) (buf : Nat → Nat → List K), (∀ q ∈ l, k ∈ g.nb q) →
        ∃ b, l.foldlM (fun buf q => do
          let idx ← slotOf (g.nb q) k
          .ok (Function.update buf q (Function.update (buf q) idx (buf q idx ++ c)))) buf =
          (.ok b : Except PyErr _) := by
      intro l
      induction l with
      | nil => intro buf _; exact ⟨buf, rfl⟩
      | cons q l ih =>
        intro buf hl
        have hs : ∃ i, slotOf (g.nb q) k = .ok i := by
          unfold slotOf
          obtain ⟨i, hi, he⟩ := List.getElem_of_mem (hl q (by simp))
          have hm : i ∈ (g.nb q).zipIdx.filterMap fun (x, i) => if x = k then some i else none := by
            rw [List.mem_filterMap]
            refine ⟨(k, i), ?_, by simp⟩
            rw [List.mk_mem_zipIdx_iff_getElem?, List.getElem?_eq_getElem hi, he]
          generalize (g.nb q).zipIdx.filterMap (fun (x, i) => if x = k then some i else none) = l at hm
          cases l with
          | nil => simp at hm
          | cons a r => exact ⟨a, by simp [pyGet]⟩
        obtain ⟨i, hi⟩ := hs
        rw [List.foldlM_cons, hi]
        exact ih _ fun q hq => hl q (List.mem_cons_of_mem _ hq)
    exact key _ _ fun q hq => gd.symm k q hq
  obtain ⟨b, hb⟩ := this
  simp only [hb]
  exact ⟨_, rfl⟩

theorem broadcast_total {L : Nat} (hb : g.bc = .few L false) (hN : 0 < g.N) (he : 2 ∣ g.N)
    (hL : L ≤ 2 * g.N - 1) (gd : GoodNeighbours g.nb) {s : GivenSt K}
    (hext : ∀ k i, BinsOk g.N (g.wExt k i)) (hwIR : ∀ k, ∀ a ∈ s.wIR k, a.length = 2 * g.N - 1)
    {t : ℚ} {k : Nat} (h0 : 0 ≤ ⌊t * g.fs k⌋) (h1 : ∀ ch ∈ y k, ⌊t * g.fs k⌋ ≤ ch.length) :
    ∃ s' c, g.broadcast y s t k = .ok s' ∧ c.length = L ∧
      netStep g.nb g.N g.Ns s.net (.bc k c) = .ok s'.net ∧ s'.d = s.d ∧ s'.dLoc = s.dLoc ∧
      ∀ k, ∀ a ∈ s'.wIR k, a.length = 2 * g.N - 1 := by
  obtain ⟨fr, hfr, hfl⟩ := mapM_chunk (N := g.N) h0 h1
  have hf : ∃ w, g.bcFilter s (y k).length t k = .ok w ∧ ∀ a ∈ w, a.length = 2 * g.N - 1 := by
    unfold GivenCfg.bcFilter
    by_cases hc : |t - s.lastUp k| ≥ g.upTDEvery ∧ ¬ (g.noFusion = true ∧ (y k).length = 1)
    · rw [if_pos hc]
      exact distFct_ok hN he (hext _ _) _ _ _
    · rw [if_neg hc]
      exact ⟨_, rfl, hwIR k⟩
  obtain ⟨w, hw, hwl⟩ := hf
  have hz := C34_few_samples (L := L) (P := 2 * g.N - 1) (wIR := w) (yq := fr.map (·.1)) hL hwl (by
    intro b hb'
    obtain ⟨x, hx, rfl⟩ := List.mem_map.mp hb'
    rw [hfl x hx]; exact hN)
  generalize hzz : ((List.range L).map fun (l : Nat) =>
      ((w.zip (fr.map (·.1))).map fun p => linConv p.1 p.2 (2 * g.N - 1 - L + 1 + l)).sum) = z at hz
  have hzl : z.length = L := by rw [← hzz]; simp
  have hcl : (chunkOf z (-(L : Int))).length = L := by
    unfold chunkOf lastN
    split
    · simp; omega
    · split
      · omega
      · simp; omega
  obtain ⟨net, hnet⟩ := netStep_bc_ok gd s.net k (chunkOf z (-(L : Int)))
  unfold GivenCfg.broadcast
  have hfr' : ((y k).mapM fun ch => chunkForBroadcast ch t (g.fs k) g.N) = .ok fr := hfr
  rw [hfr']
  simp only [bind, Except.bind]
  rw [if_neg (by
    simp only [List.any_eq_true, decide_eq_true_eq, not_exists, not_and, not_lt]
    intro x hx
    rw [hfl x hx]), hb]
  simp only [GivenCfg.currL, Bool.false_eq_true, if_false]
  rw [hw]
  simp only
  rw [hz]
  simp only
  rw [hnet]
  refine ⟨_, chunkOf z (-(L : Int)), rfl, hcl, hnet, rfl, rfl, ?_⟩
  intro k' a ha
  simp only at ha
  by_cases hk : k' = k
  · subst hk
    rw [Function.update_self] at ha
    exact hwl a ha
  · rw [Function.update_of_ne hk] at ha
    exact hwIR k' a ha

theorem desired_total {w yHat yTD : List (List K)} {d : List K} {e : Int} (hN : 0 < g.N) (he : 2 ∣ g.N)
    (hNs : g.Ns ≤ g.N) (hfl : g.f.length = g.N) (hw : g.conv = true → BinsOk g.N w) (h0 : 0 < e)
    (hd : e ≤ d.length) (hc : g.conv = true → (g.Ns : Int) ≤ e) :
    ∃ d', g.desired w yHat yTD d (max (e - g.N) 0) e = .ok d' ∧ d'.length = d.length := by
  unfold GivenCfg.desired
  by_cases hcv : g.conv = true
  · rw [if_pos hcv]
    obtain ⟨r, hr, hrl⟩ := distFct_ok (ζ := g.ζ) hN he (hw hcv) g.f g.f (g.Ns : K)
    rw [hr]
    simp only [bind, Except.bind]
    rw [C34_conv_output (by omega) hrl]
    simp only
    unfold setSlice
    have := hc hcv
    rw [if_pos (by simp; omega)]
    exact ⟨_, rfl, by simp⟩
  · rw [if_neg hcv]
    unfold desiredFrame
    obtain ⟨z, hz⟩ := (C35_accepts_iff (ζ := g.ζ) (n := g.N) (combine (g.N / 2 + 1) w yHat)).1.mpr
      ⟨hN, he, by simp [combine]⟩
    have hzl : z.length = g.N := by
      unfold backToTD at hz
      split at hz
      · cases hz
      · split at hz
        · cases hz
        · injection hz with hz
          rw [← hz, idft_length]
    rw [hz]
    simp only [bind, Except.bind]
    unfold addFrame
    simp only
    have hbb : pySliceBound d.length (max (e - g.N) 0) = (max (e - g.N) 0).toNat := by
      unfold pySliceBound; rw [if_neg (by omega)]; omega
    have hbe : pySliceBound d.length e = e.toNat := by
      unfold pySliceBound; rw [if_neg (by omega)]; omega
    rw [hbb, hbe, if_neg (by rw [List.length_zipWith, hfl, hzl]; omega)]
    exact ⟨_, rfl, by simp⟩

theorem update_total {L : Nat} {eff : Bool} (hb : g.bc = .few L eff) (hN : 0 < g.N) (he : 2 ∣ g.N)
    (hNs : g.Ns ≤ g.N) (hfl : g.f.length = g.N) {s : GivenSt K} {k : Nat}
    (hint : ∀ i, BinsOk g.N (g.wInt k i)) (hloc : ∀ i, BinsOk g.N (g.wLoc k i)) {t : ℚ}
    (h0 : 0 < ⌊t * g.fs k⌋) (h1 : ∀ ch ∈ y k, ⌊t * g.fs k⌋ ≤ ch.length)
    (hd : ⌊t * g.fs k⌋ ≤ (s.d k).length) (hdL : ⌊t * g.fs k⌋ ≤ (s.dLoc k).length)
    (hc : g.conv = true → (g.Ns : Int) ≤ ⌊t * g.fs k⌋)
    {net : NetSt K} (hnet : netStep g.nb g.N g.Ns s.net (.up k) = .ok net) :
    ∃ s', g.update y s t k = .ok s' ∧ s'.net = net ∧ s'.wIR = s.wIR ∧
      (∀ q, (s'.d q).length = (s.d q).length) ∧ ∀ q, (s'.dLoc q).length = (s.dLoc q).length := by
  obtain ⟨fr, hfr, hl⟩ := mapM_chunk (ys := y k) (N := g.N) h0.le h1
  have hfr' : ((y k).mapM fun ch => chunkForUpdate ch t (g.fs k) g.bc.name g.N g.Ns) = .ok fr := by
    rw [hb]
    unfold chunkForUpdate BcType.name
    simp only [if_true]
    exact hfr
  have hr : g.updRange t k = (max (⌊t * g.fs k⌋ - g.N) 0, ⌊t * g.fs k⌋) := by
    unfold GivenCfg.updRange
    rw [hb]
  unfold GivenCfg.update
  rw [hnet]
  simp only [bind, Except.bind]
  rw [hfr']
  simp only
  rw [if_neg (by
    simp only [List.any_eq_true, decide_eq_true_eq, not_exists, not_and, not_not]
    intro x hx
    rw [hl x hx]), hr]
  simp only
  obtain ⟨d', hd', hdl⟩ := desired_total (g := g) (w := g.wInt k (s.net.it k + 1))
    (yHat := g.rotate k (s.net.it k) ((fr.map (·.1) ++ net.z k).map (analysis g.ζ g.N g.c g.h)))
    (yTD := (fr.map (·.1) ++ net.z k).take (y k).length) hN he hNs hfl (fun _ => hint _) h0 hd hc
  obtain ⟨dL', hdL', hdLl⟩ := desired_total (g := g) (w := g.wLoc k (s.net.it k + 1))
    (yHat := (fr.map (·.1)).map (analysis g.ζ g.N g.c g.h))
    (yTD := fr.map (·.1)) hN he hNs hfl (fun _ => hloc _) h0 hdL hc
  rw [hd']
  simp only
  rw [hdL']
  refine ⟨_, rfl, rfl, rfl, fun q => ?_, fun q => ?_⟩
  · simp only
    by_cases hq : q = k
    · subst hq; rw [Function.update_self, hdl]
    · rw [Function.update_of_ne hq]
  · simp only
    by_cases hq : q = k
    · subst hq; rw [Function.update_self, hdLl]
    · rw [Function.update_of_ne hq]

end
end Danse
