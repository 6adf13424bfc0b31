import Verif.Proofs.Online6
import Verif.Props.Buffers
import Verif.Props.Signals

/-!
# Helper lemmas for C76: what arrives at the neighbours
-/

set_option linter.unusedSectionVars false

namespace Danse
section
variable {K : Type} [Field K] [StarRing K] [DecidableEq K]

/-- The initial time-domain broadcast filters. -/
def diracIR (N M ref : Nat) : List (List K) :=
  (List.range M).map fun m =>
    if m = ref then (List.range (2 * N - 1)).map fun p => if p = N then 1 else 0
    else List.replicate (2 * N - 1) 0

theorem linConv_dirac {N : Nat} (hN : 2 ≤ N) (b : List K) {m : Nat} (hm : N ≤ m) :
    linConv ((List.range (2 * N - 1)).map fun p => if p = N then (1 : K) else 0) b m = at0 b (m - N) := by
  unfold linConv
  rw [Finset.sum_eq_single N]
  · rw [at0_range_map (by omega), if_pos rfl, one_mul]
  · intro p _ hp
    by_cases h : p < 2 * N - 1
    · rw [at0_range_map h, if_neg hp, zero_mul]
    · rw [at0_of_ge (by simp; omega), zero_mul]
  · intro h; exact absurd (Finset.mem_range.mpr (by omega)) h

theorem linConv_zeros (n : Nat) (b : List K) (m : Nat) : linConv (List.replicate n 0) b m = 0 := by
  unfold linConv
  apply Finset.sum_eq_zero
  intro i _
  by_cases h : i < n
  · rw [at0_replicate h, zero_mul]
  · rw [at0_of_ge (by simp; omega), zero_mul]

theorem few_dirac {N L M ref : Nat} (hN : 2 ≤ N) (hL : L ≤ N) {yq : List (List K)} (hM : yq.length = M)
    {b : List K} (hb : yq[ref]? = some b) (hy : ∀ b ∈ yq, 0 < b.length) :
    fewSamples L (2 * N - 1) (diracIR N M ref) yq =
      .ok ((List.range L).map fun l => at0 b (N - L + l)) := by
  have hr : ref < M := by rw [← hM]; exact (List.getElem?_eq_some_iff.mp hb).1
  rw [C34_few_samples (by omega) ?_ hy]
  · congr 1
    apply List.map_congr_left
    intro l hl
    have hl' := List.mem_range.mp hl
    have e : ((diracIR N M ref).zip yq).map (fun p => linConv p.1 p.2 (2 * N - 1 - L + 1 + l)) =
        (List.range M).map fun m => if m = ref then at0 b (N - L + l) else 0 := by
      apply List.ext_getElem?
      intro m
      simp only [diracIR, List.zip, List.getElem?_map, List.getElem?_zipWith]
      by_cases hm : m < M
      · rw [List.getElem?_range hm, List.getElem?_eq_getElem (by omega)]
        simp only [Option.map_some]
        by_cases e : m = ref
        · subst e
          rw [List.getElem?_eq_getElem (by omega), Option.some.injEq] at hb
          rw [if_pos rfl, if_pos rfl, hb, linConv_dirac hN _ (by omega)]
          congr 2; omega
        · rw [if_neg e, if_neg e, linConv_zeros]
      · have h1 : (List.range M)[m]? = none := List.getElem?_eq_none (by simp; omega)
        rw [h1]
        simp
    rw [e]
    have : ((List.range M).map fun m => if m = ref then at0 b (N - L + l) else 0).sum =
        ∑ m ∈ Finset.range M, if m = ref then at0 b (N - L + l) else 0 := rfl
    rw [this, Finset.sum_ite_eq' , if_pos (Finset.mem_range.mpr hr)]
  · intro a ha
    simp only [diracIR, List.mem_map] at ha
    obtain ⟨m, _, rfl⟩ := ha
    split <;> simp

/-- The samples `e - L, ..., e - 1` of a signal. -/
def newest (x : List K) (e : Int) (L : Nat) : List K := (x.take e.toNat).drop (e.toNat - L)

variable {g : GivenCfg K} {y : Nat → List (List K)} {k : Nat}

/-- Node `k` still has its initial broadcast filter and keeps it. -/
structure Keeps (g : GivenCfg K) (y : Nat → List (List K)) (k : Nat) (s : GivenSt K) : Prop where
  ir : s.wIR k = diracIR g.N (y k).length g.refSensor
  why : (g.noFusion = true ∧ (y k).length = 1) ∨ s.lastUp k = 0

/-- The operation of an event of the run; node `k` sends the newest samples of `x`. -/
def evOpK (fs : ℚ) (k L : Nat) (x : List K) (ev : ℚ × Nat × EvType) (op : BufOp K) : Prop :=
  evOp ev op ∧ (ev.2.1 = k → ev.2.2 = .bc → op = .bc k (newest x ⌊ev.1 * fs⌋ L))

theorem broadcast_keeps {L : Nat} (hb : g.bc = .few L false) (hN : 2 ≤ g.N) (hL : L ≤ g.N) {x : List K}
    (hx : (y k)[g.refSensor]? = some x) {s s' : GivenSt K} (hk : Keeps g y k s) {t : ℚ}
    (ht : (g.noFusion = true ∧ (y k).length = 1) ∨ |t| < g.upTDEvery)
    (h0 : (L : Int) ≤ ⌊t * g.fs k⌋) (h1 : ⌊t * g.fs k⌋ ≤ x.length)
    (h : g.broadcast y s t k = .ok s') :
    Keeps g y k s' ∧ netStep g.nb g.N g.Ns s.net (.bc k (newest x ⌊t * g.fs k⌋ L)) = .ok s'.net := by
  unfold GivenCfg.broadcast at h
  obtain ⟨fr, hfr, h⟩ := bind_ok_inv h
  split at h
  · cases h
  · rename_i hshort
    rw [hb] at h
    simp only at h
    obtain ⟨l, hl, h⟩ := bind_ok_inv h
    obtain ⟨w, hw, h⟩ := bind_ok_inv h
    obtain ⟨z, hz, h⟩ := bind_ok_inv h
    obtain ⟨n, hn, hfin⟩ := bind_ok_inv h
    have hl' : l = L := by
      unfold GivenCfg.currL at hl
      simp only [Bool.false_eq_true, if_false] at hl
      injection hl with hl; exact hl.symm
    subst hl'
    have hnot : ¬ (|t - s.lastUp k| ≥ g.upTDEvery ∧ ¬ (g.noFusion = true ∧ (y k).length = 1)) := by
      rintro ⟨ha, hc⟩
      rcases hk.why with h | h
      · exact hc h
      · rcases ht with h' | h'
        · exact hc h'
        · rw [h, sub_zero] at ha
          exact absurd h' (not_lt.mpr ha)
    have hw' : w = s.wIR k := by
      unfold GivenCfg.bcFilter at hw
      rw [if_neg hnot] at hw
      injection hw with hw; exact hw.symm
    obtain ⟨hfl, hfi⟩ := mapM_get hfr
    obtain ⟨c, hc, hcx⟩ := hfi _ _ hx
    unfold chunkForBroadcast at hcx
    obtain ⟨b, hb1, hb2, hb3⟩ := localChunk_at (y := x) (N := g.N) (e := ⌊t * g.fs k⌋) (by omega) h1
    rw [hb1] at hcx
    injection hcx with hcx
    have hz' := few_dirac (N := g.N) (L := l) (M := (y k).length) (ref := g.refSensor) hN hL
      (yq := fr.map (·.1)) (by simp [hfl]) (b := b) (by rw [List.getElem?_map, hc, ← hcx]; rfl) (by
        intro b hb
        obtain ⟨a, ha, rfl⟩ := List.mem_map.mp hb
        have : ¬ a.1.length < g.N := by
          intro hlt
          exact hshort (List.any_eq_true.mpr ⟨a, ha, by simpa using hlt⟩)
        omega)
    rw [hw', hk.ir, hz'] at hz
    injection hz with hz
    have hzl : z.length = l := by rw [← hz]; simp
    have hzn : z = newest x ⌊t * g.fs k⌋ l := by
      apply at0_ext
      · rw [hzl]; unfold newest; simp; omega
      · rw [hzl]
        intro i hi
        rw [← hz, at0_range_map hi]
        unfold newest
        rw [hb3 _ (by omega), if_pos (by omega), at0_drop, at0_take (by omega)]
        congr 1; omega
    have hchunk : chunkOf z (-(l : Int)) = z := by
      obtain ⟨h1, _, h3⟩ := C15_chunk z (-(l : Int))
      rcases Nat.eq_zero_or_pos l with e | e
      · rw [e] at hzl ⊢
        have : z = [] := List.length_eq_zero_iff.mp hzl
        subst this; rfl
      · obtain ⟨pre, hp⟩ := h1 (by omega)
        have hlen := congrArg List.length hp
        rw [List.length_append, h3, hzl] at hlen
        have : pre = [] := List.length_eq_zero_iff.mp (by omega)
        rw [this] at hp
        exact hp.symm
    rw [hchunk, hzn] at hn
    injection hfin with hfin
    subst hfin
    refine ⟨⟨?_, ?_⟩, hn⟩
    · simp only [Function.update_self]; rw [hw']; exact hk.ir
    · rcases hk.why with h | h
      · exact .inl h
      · rcases ht with h' | h'
        · exact .inl h'
        · right
          simp only
          rw [if_neg]
          · exact h
          · rw [h, sub_zero]; exact not_le.mpr h'

theorem run_keeps {L : Nat} (hb : g.bc = .few L false) (hN : 2 ≤ g.N) (hL : L ≤ g.N) {x : List K}
    (hx : (y k)[g.refSensor]? = some x) (evs : List (ℚ × Nat × EvType)) : ∀ s s' : GivenSt K,
    Keeps g y k s →
    ((g.noFusion = true ∧ (y k).length = 1) ∨ ∀ ev ∈ evs, |ev.1| < g.upTDEvery) →
    (∀ ev ∈ evs, ev.2.1 = k → ev.2.2 = .bc → (L : Int) ≤ ⌊ev.1 * g.fs k⌋ ∧ ⌊ev.1 * g.fs k⌋ ≤ x.length) →
    g.run y s evs = .ok s' →
    ∃ ops, List.Forall₂ (evOpK (g.fs k) k L x) evs ops ∧
      ops.foldlM (netStep g.nb g.N g.Ns) s.net = .ok s'.net := by
  induction evs with
  | nil => intro s s' _ _ _ h; injection h with h; subst h; exact ⟨[], .nil, rfl⟩
  | cons ev evs ih =>
    intro s s' hk ht he h
    unfold GivenCfg.run at h
    rw [List.foldlM_cons] at h
    obtain ⟨s1, h1, hrest⟩ := bind_ok_inv h
    obtain ⟨t, q, ty⟩ := ev
    have ht1 : (g.noFusion = true ∧ (y k).length = 1) ∨ |t| < g.upTDEvery :=
      ht.elim .inl fun h => .inr (h (t, q, ty) List.mem_cons_self)
    have ht2 : (g.noFusion = true ∧ (y k).length = 1) ∨ ∀ ev ∈ evs, |ev.1| < g.upTDEvery :=
      ht.elim .inl fun h => .inr fun ev hev => h ev (List.mem_cons_of_mem _ hev)
    have he2 : ∀ ev ∈ evs, ev.2.1 = k → ev.2.2 = .bc →
        (L : Int) ≤ ⌊ev.1 * g.fs k⌋ ∧ ⌊ev.1 * g.fs k⌋ ≤ x.length :=
      fun ev hev => he ev (List.mem_cons_of_mem _ hev)
    have hone : g.run y s [(t, q, ty)] = .ok s1 := by
      unfold GivenCfg.run
      rw [List.foldlM_cons, h1]; rfl
    have fin : Keeps g y k s1 → (∃ op, evOpK (g.fs k) k L x (t, q, ty) op ∧
        netStep g.nb g.N g.Ns s.net op = .ok s1.net) →
        ∃ ops, List.Forall₂ (evOpK (g.fs k) k L x) ((t, q, ty) :: evs) ops ∧
          ops.foldlM (netStep g.nb g.N g.Ns) s.net = .ok s'.net := by
      rintro hk1 ⟨op, ho, hop⟩
      obtain ⟨ops, h2, h3⟩ := ih s1 s' hk1 ht2 he2 hrest
      exact ⟨op :: ops, .cons ho h2, by rw [List.foldlM_cons, hop]; exact h3⟩
    have other : ¬ (q = k ∧ ty = .bc) → ∃ op, evOpK (g.fs k) k L x (t, q, ty) op ∧
        netStep g.nb g.N g.Ns s.net op = .ok s1.net := by
      intro hne
      obtain ⟨ops, ho, hr⟩ := run_net [(t, q, ty)] s s1 hone
      cases ho with
      | cons h2 h3 =>
        cases h3
        refine ⟨_, ⟨h2, fun e1 e2 => absurd ⟨e1, e2⟩ hne⟩, ?_⟩
        rw [List.foldlM_cons] at hr
        obtain ⟨n1, hn1, hr⟩ := bind_ok_inv hr
        injection hr with hr
        rw [hn1, hr]
    unfold GivenCfg.step at h1
    cases ty with
    | bc =>
      simp only at h1
      by_cases hq : q = k
      · subst hq
        obtain ⟨b1, b2⟩ := he _ List.mem_cons_self rfl rfl
        obtain ⟨c1, c2⟩ := broadcast_keeps hb hN hL hx hk ht1 b1 b2 h1
        exact fin c1 ⟨.bc q _, ⟨And.intro rfl rfl, fun _ _ => rfl⟩, c2⟩
      · have hf := broadcast_frame (A := fun j => j ≠ q) (B := fun _ => False) (by simp)
          (fun _ h => h.elim) h1
        exact fin ⟨by rw [hf.wIR k (Ne.symm hq)]; exact hk.ir, by rw [hf.lastUp k (Ne.symm hq)]; exact hk.why⟩
          (other (by rintro ⟨e, _⟩; exact hq e))
    | up =>
      simp only at h1
      obtain ⟨_, _, _, u1, u2, _⟩ := update_frame h1
      exact fin ⟨by rw [u1]; exact hk.ir, by rw [u2]; exact hk.why⟩ (other (by rintro ⟨_, e⟩; cases e))
    | _ => cases h1

theorem sent_of {fs : ℚ} {L : Nat} {x : List K} {evs : List (ℚ × Nat × EvType)} {ops : List (BufOp K)}
    (h : List.Forall₂ (evOpK fs k L x) evs ops) :
    sent ops k = (bcEnds fs k evs).flatMap fun e => newest x e L := by
  induction h with
  | nil => rfl
  | cons hx hr ih =>
    rename_i ev op evs ops
    obtain ⟨t, q, ty⟩ := ev
    have hs : sent (op :: ops) k = (sent [op] k) ++ sent ops k := by
      unfold sent; simp
    have hb : bcEnds fs k ((t, q, ty) :: evs) = bcEnds fs k [(t, q, ty)] ++ bcEnds fs k evs := by
      unfold bcEnds
      rw [← List.filterMap_append]
      rfl
    rw [hs, hb, List.flatMap_append, ih]
    congr 1
    obtain ⟨h1, h2⟩ := hx
    cases op with
    | up j =>
      unfold evOp at h1
      simp only at h1
      obtain ⟨rfl, rfl⟩ := h1
      simp [sent, bcEnds]
    | bc j c =>
      unfold evOp at h1
      simp only at h1
      obtain ⟨rfl, rfl⟩ := h1
      by_cases hq : q = k
      · have := h2 hq rfl
        injection this with _ hc
        subst hc
        simp [sent, bcEnds, hq]
      · simp [sent, bcEnds, hq]

theorem newest_stream (x : List K) (e0 L : Nat) : ∀ J : Nat, e0 + J * L ≤ x.length →
    (((List.range J).map fun (j : Nat) => ((e0 + (j + 1) * L : Nat) : Int)).flatMap fun e => newest x e L) =
      (x.take (e0 + J * L)).drop e0 := by
  intro J
  induction J with
  | zero => intro _; simp
  | succ J ih =>
    intro h
    have h1 : (J + 1) * L = J * L + L := by ring
    rw [List.range_succ, List.map_append, List.flatMap_append, ih (by omega)]
    simp only [List.map_cons, List.map_nil, List.flatMap_cons, List.flatMap_nil, List.append_nil, newest,
      Int.toNat_natCast]
    rw [h1, show e0 + (J * L + L) - L = e0 + J * L by omega]
    have e1 : x.take (e0 + J * L) = (x.take (e0 + (J * L + L))).take (e0 + J * L) := by
      rw [List.take_take]; congr 1; omega
    rw [e1]
    generalize x.take (e0 + (J * L + L)) = v
    rw [List.drop_take]
    have e2 : v.drop (e0 + J * L) = (v.drop e0).drop (J * L) := by rw [List.drop_drop]
    rw [e2, show e0 + J * L - e0 = J * L by omega, List.take_append_drop]

end
end Danse
