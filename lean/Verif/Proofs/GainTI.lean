import Verif.Proofs.DeadTI
import Verif.Proofs.TIRun11
import Verif.Proofs.Online4
import Verif.Proofs.Online5
import Verif.Proofs.Sched3
import Verif.Props.TISched

/-!
# Auxiliary facts for C141: outputs of TI-DANSE nodes whose filters select a sensor
-/

set_option linter.unusedSectionVars false

namespace Danse
section
variable {n : Nat} {K : Type} [Field K] [StarRing K] [DecidableEq K] {g : GivenCfg K} {U : TIStrategy n K}
  {y : Fin n → List (List K)} {trees : List (TreeObj n)}

/-- One frame of output with filters that select a channel. -/
theorem desired_gain [CharZero K] (r : DftRoot g.ζ g.N) (he : 2 ∣ g.N) (hc : g.c ≠ 0)
    (hcr : star g.c = g.c) (hh : IsReal g.h) (hhl : g.h.length = g.N) (hfl : g.f.length = g.N)
    (hconv : g.conv = false) {yk : List (List K)} {ref k : Nat} {x : List K} (hx : yk[ref]? = some x) (hxr : IsReal x)
    {t : ℚ} {loc : List (List K × Int × Int)}
    (hl : yk.mapM (fun ch => chunkForUpdate ch t (g.fs k) g.bc.name g.N g.Ns) = .ok loc)
    {Z yTD : List (List K)} {d d' : List K} {w : List (List K)}
    (hw : w = selector (yk.length + Z.length) ref (g.N / 2 + 1))
    (h0 : 0 < frameEnd g.bc g.N g.Ns t (g.fs k)) (h1 : frameEnd g.bc g.N g.Ns t (g.fs k) ≤ d.length)
    (hxl : d.length ≤ x.length)
    (hd : g.desired w ((loc.map (·.1) ++ Z).map (analysis g.ζ g.N g.c g.h)) yTD d (g.updRange t k).1 (g.updRange t k).2 =
      .ok d') :
    d'.length = d.length ∧ ∀ n < d.length, at0 d' n = at0 d n +
      windowGain g.N g.h g.f n (frameEnd g.bc g.N g.Ns t (g.fs k)) * at0 x n := by
  have hN := r.pos
  rw [updRange_eq] at hd
  set e := frameEnd g.bc g.N g.Ns t (g.fs k) with hedef
  obtain ⟨l1, l2⟩ := mapM_get hl
  obtain ⟨⟨ch, b, e'⟩, hch, hF⟩ := l2 ref x hx
  rw [chunkForUpdate_eq, ← hedef] at hF
  obtain ⟨ch', hF', hchl, hcat⟩ := localChunk_at (y := x) (N := g.N) (le_of_lt h0) (by omega)
  have hreal := localChunk_real hxr hF
  rw [hF'] at hF
  injection hF with hF
  injection hF with hF _
  subst hF
  unfold GivenCfg.desired at hd
  rw [if_neg (by simp [hconv])] at hd
  obtain ⟨fr, hfr, hd2⟩ := bind_ok_inv hd
  set Y := loc.map (·.1) ++ Z with hY
  have hrefl : ref < yk.length := (List.getElem?_eq_some_iff.mp hx).1
  have hYl : Y.length = yk.length + Z.length := by
    rw [hY, List.length_append, List.length_map, l1]
  have hYr : Y.getD ref [] = ch' := by
    rw [hY, List.getD_eq_getElem?_getD, List.getElem?_append_left (by simpa [l1] using hrefl),
      List.getElem?_map, hch]
    rfl
  obtain ⟨z, h6, h7⟩ := identity_frame r he hc hcr hh hhl (Y := Y) (ref := ref) (by omega)
    (by rw [hYr]; exact hreal) (by rw [hYr, hchl])
  have hzl : z.length = g.N := by
    have := congrArg List.length h7
    rw [List.length_map, List.length_zipWith, hYr, hchl, hhl] at this
    omega
  have hz : ∀ j < g.N, g.c * at0 z j = at0 ch' j * at0 g.h j := by
    intro j hj
    have := congrArg (fun l => at0 l j) h7
    rw [at0_map (mul_zero g.c), at0_zipWith (by rw [hYr, hchl]; omega) (by omega), hYr] at this
    exact this
  unfold desiredFrame at hfr
  rw [hw, ← hYl, h6] at hfr
  injection hfr with hfr
  have hfrl : fr.length = g.N := by rw [← hfr, List.length_zipWith]; omega
  obtain ⟨a1, a2⟩ := addFrame_at hN hfrl h0 h1 hd2
  refine ⟨a1, fun n hn => ?_⟩
  rw [a2 n hn]
  congr 1
  unfold windowGain
  by_cases hc2 : e - g.N ≤ n ∧ (n : Int) < e
  · rw [if_pos hc2, if_pos hc2, ← hfr, at0_zipWith (by omega) (by omega), mul_right_comm,
      hz _ (by omega), hcat _ (by omega), if_pos (by omega)]
    have : (e + ((n - (e - g.N)).toNat : Int) - g.N).toNat = n := by omega
    rw [this]
    unfold at0
    ring
  · rw [if_neg hc2, if_neg hc2, zero_mul]

theorem tiUpdate_out {rows : List (TIObs K) → Rows K} {started : List (TIObs K) → Bool} {yk : List (List K)}
    {t : ℚ} {k : Nat} {byp : Bool} {nd nd' : TINode K} {eta : List K}
    (h : tiUpdate g rows started yk t k byp nd eta = .ok nd') :
    ∃ loc, yk.mapM (fun ch => chunkForUpdate ch t (g.fs k) g.bc.name g.N g.Ns) = .ok loc ∧
      nd'.hist = nd.hist ++ [⟨t, byp, loc.map (·.1), eta⟩] ∧
      g.desired (rows nd'.hist).int ((loc.map (·.1) ++ [eta]).map (analysis g.ζ g.N g.c g.h)) (loc.map (·.1)) nd.d
        (g.updRange t k).1 (g.updRange t k).2 = .ok nd'.d ∧
      g.desired (rows nd'.hist).loc ((loc.map (·.1)).map (analysis g.ζ g.N g.c g.h)) (loc.map (·.1)) nd.dLoc
        (g.updRange t k).1 (g.updRange t k).2 = .ok nd'.dLoc := by
  unfold tiUpdate at h
  obtain ⟨loc, h1, h2⟩ := Except.bind_ok h
  split at h2
  · cases h2
  · obtain ⟨d, h3, h4⟩ := Except.bind_ok h2
    obtain ⟨d', h5, h6⟩ := Except.bind_ok h4
    cases h6
    exact ⟨loc, h1, rfl, h3, h5⟩

theorem tiFuse_out {yk : List (List K)} {t : ℚ} {k : Nat} {nd : TINode K} {buf : List K}
    {r : TINode K × List K} (h : tiFuse g yk t k nd buf = .ok r) :
    r.1.hist = nd.hist ∧ r.1.d = nd.d ∧ r.1.dLoc = nd.dLoc := by
  unfold tiFuse at h
  obtain ⟨fr, _, h1⟩ := Except.bind_ok h
  split at h1
  · cases h1; exact ⟨rfl, rfl, rfl⟩
  · split at h1
    · obtain ⟨_, _, h1⟩ := Except.bind_ok h1
      obtain ⟨_, _, h1⟩ := Except.bind_ok h1
      cases h1; exact ⟨rfl, rfl, rfl⟩
    · obtain ⟨_, _, h1⟩ := Except.bind_ok h1
      obtain ⟨_, _, h1⟩ := Except.bind_ok h1
      obtain ⟨_, _, h1⟩ := Except.bind_ok h1
      cases h1; exact ⟨rfl, rfl, rfl⟩

/-- What one event does to the history and the outputs of node `k`. -/
theorem tiStepEv_out {t : ℚ} {s s' : TISt n K} {e : OutEv} (h : tiStepEv g U y trees t s e = .ok s') (k : Fin n) :
    (¬ (e.node = k.val ∧ e.ty = .up) ∧ (s'.node k).hist = (s.node k).hist ∧ (s'.node k).d = (s.node k).d ∧
      (s'.node k).dLoc = (s.node k).dLoc) ∨
    (e.node = k.val ∧ e.ty = .up ∧ ∃ byp eta,
      tiUpdate g (U.rows k) (U.started k) (y k) t k byp (s.node k) eta = .ok (s'.node k)) := by
  unfold tiStepEv at h
  cases hty : e.ty with
  | tr =>
    rw [hty] at h
    simp only at h
    split at h
    · cases h
    · cases h; exact .inl ⟨by simp, rfl, rfl, rfl⟩
  | fu =>
    rw [hty] at h
    simp only at h
    split at h
    · obtain ⟨r, hr, h⟩ := Except.bind_ok h
      cases h
      refine .inl ⟨by simp, ?_⟩
      simp only
      rename_i hlt
      by_cases hk : k = ⟨e.node, hlt⟩
      · subst hk
        rw [Function.update_self]
        exact tiFuse_out hr
      · rw [Function.update_of_ne hk]; exact ⟨rfl, rfl, rfl⟩
    · cases h
  | bc =>
    rw [hty] at h
    simp only at h
    split at h
    · split at h
      · cases h
      · obtain ⟨r, hr, h⟩ := Except.bind_ok h
        cases h; exact .inl ⟨by simp, rfl, rfl, rfl⟩
    · cases h
  | re =>
    rw [hty] at h
    simp only at h
    split at h
    · obtain ⟨r, hr, h⟩ := Except.bind_ok h
      cases h; exact .inl ⟨by simp, rfl, rfl, rfl⟩
    · cases h
  | up =>
    rw [hty] at h
    simp only at h
    split at h
    · obtain ⟨nd, hnd, h⟩ := Except.bind_ok h
      cases h
      rename_i hlt
      by_cases hk : k = ⟨e.node, hlt⟩
      · subst hk
        refine .inr ⟨rfl, rfl, e.bypass, s.net.etaMk ⟨e.node, hlt⟩, ?_⟩
        simp only [Function.update_self]
        exact hnd
      · refine .inl ⟨fun hc => hk (Fin.ext hc.1.symm), ?_⟩
        simp only [Function.update_of_ne hk]
        exact ⟨trivial, trivial, trivial⟩
    · cases h

/-- A property of the variables of node `k` that its updates preserve holds to the end of a run. -/
theorem tiRun_node_induct {k : Fin n} (P : List (TIObs K) → List K → List K → Prop)
    (hup : ∀ t byp eta (nd nd' : TINode K), P nd.hist nd.d nd.dLoc →
      tiUpdate g (U.rows k) (U.started k) (y k) t k byp nd eta = .ok nd' → P nd'.hist nd'.d nd'.dLoc)
    (out : List (Instant ℚ)) : ∀ {s s' : TISt n K}, tiRun g U y trees s out = .ok s' →
    P (s.node k).hist (s.node k).d (s.node k).dLoc → P (s'.node k).hist (s'.node k).d (s'.node k).dLoc := by
  have ev : ∀ (t : ℚ) (evs : List OutEv) {s s' : TISt n K}, evs.foldlM (tiStepEv g U y trees t) s = .ok s' →
      P (s.node k).hist (s.node k).d (s.node k).dLoc → P (s'.node k).hist (s'.node k).d (s'.node k).dLoc := by
    intro t evs
    induction evs with
    | nil => intro s s' h hs; injection h with h; subst h; exact hs
    | cons e evs ih =>
      intro s s' h hs
      rw [List.foldlM_cons] at h
      obtain ⟨b, hb, h⟩ := bind_ok_inv h
      refine ih h ?_
      rcases tiStepEv_out hb k with ⟨-, e1, e2, e3⟩ | ⟨-, -, byp, eta, hu⟩
      · rw [e1, e2, e3]; exact hs
      · exact hup t byp eta _ _ hs hu
  unfold tiRun
  induction out with
  | nil => intro s s' h hs; injection h with h; subst h; exact hs
  | cons e out ih =>
    intro s s' h hs
    rw [List.foldlM_cons] at h
    obtain ⟨b, hb, h⟩ := bind_ok_inv h
    exact ih h (ev _ _ hb hs)

/-- The observations of a node are made at the times of its updates in the schedule. -/
theorem tiRun_upTimes (out : List (Instant ℚ)) : ∀ {s s' : TISt n K}, tiRun g U y trees s out = .ok s' → ∀ k : Fin n,
    (s'.node k).hist.map TIObs.t = (s.node k).hist.map TIObs.t ++ upTimes (flatEvents out) k := by
  have ev : ∀ (t : ℚ) (evs : List OutEv) {s s' : TISt n K}, evs.foldlM (tiStepEv g U y trees t) s = .ok s' → ∀ k : Fin n,
      (s'.node k).hist.map TIObs.t = (s.node k).hist.map TIObs.t ++
        upTimes (evs.map fun e => (t, e.node, e.ty)) k := by
    intro t evs
    induction evs with
    | nil => intro s s' h k; injection h with h; subst h; simp [upTimes]
    | cons e evs ih =>
      intro s s' h k
      rw [List.foldlM_cons] at h
      obtain ⟨b, hb, h⟩ := bind_ok_inv h
      rw [ih h k]
      rcases tiStepEv_out hb k with ⟨hn, e1, -⟩ | ⟨h1, h2, byp, eta, hu⟩
      · rw [e1]
        simp [upTimes, hn]
      · obtain ⟨loc, -, hh, -⟩ := tiUpdate_out hu
        rw [hh]
        simp [upTimes, h1, h2]
  unfold tiRun
  induction out with
  | nil => intro s s' h k; injection h with h; subst h; simp [upTimes, flatEvents]
  | cons e out ih =>
    intro s s' h k
    rw [List.foldlM_cons] at h
    obtain ⟨b, hb, h⟩ := bind_ok_inv h
    rw [ih h k, ev _ _ hb k]
    simp [upTimes, flatEvents]

theorem selector_of_nil {m ref B : Nat} : selector (K := K) (m + ([] : List (List K)).length) ref B = selector m ref B := rfl

/-- The output of a node whose filters select a sensor. -/
theorem tiRun_gain [CharZero K] (r : DftRoot g.ζ g.N) (he : 2 ∣ g.N) (hc : g.c ≠ 0)
    (hcr : star g.c = g.c) (hh : IsReal g.h) (hhl : g.h.length = g.N) (hfl : g.f.length = g.N)
    (hconv : g.conv = false) {k : Fin n} {ref : Nat} {x : List K} (hx : (y k)[ref]? = some x) (hxr : IsReal x)
    {T : Nat} (hT : T ≤ x.length) {ext : Fin n → List (List K)} {up0 : Fin n → List (Fin n)} (out : List (Instant ℚ))
    {s : TISt n K} (h : tiRun g U y trees (.init g.N g.refSensor T y ext up0) out = .ok s)
    (hE : ∀ o ∈ (s.node k).hist, 0 < frameEnd g.bc g.N g.Ns o.t (g.fs k) ∧ frameEnd g.bc g.N g.Ns o.t (g.fs k) ≤ T) :
    ((∀ i < (s.node k).hist.length, (U.rows k ((s.node k).hist.take (i + 1))).int =
        selector ((y k).length + 1) ref (g.N / 2 + 1)) →
      (s.node k).d.length = T ∧ ∀ m < T, at0 (s.node k).d m =
        ((s.node k).hist.map fun o => windowGain g.N g.h g.f m (frameEnd g.bc g.N g.Ns o.t (g.fs k))).sum * at0 x m) ∧
    ((∀ i < (s.node k).hist.length, (U.rows k ((s.node k).hist.take (i + 1))).loc =
        selector (y k).length ref (g.N / 2 + 1)) →
      (s.node k).dLoc.length = T ∧ ∀ m < T, at0 (s.node k).dLoc m =
        ((s.node k).hist.map fun o => windowGain g.N g.h g.f m (frameEnd g.bc g.N g.Ns o.t (g.fs k))).sum * at0 x m) := by
  refine tiRun_node_induct (g := g) (U := U) (y := y) (trees := trees) (k := k)
    (fun hist d dLoc => (∀ o ∈ hist, 0 < frameEnd g.bc g.N g.Ns o.t (g.fs k) ∧ frameEnd g.bc g.N g.Ns o.t (g.fs k) ≤ T) →
      ((∀ i < hist.length, (U.rows k (hist.take (i + 1))).int = selector ((y k).length + 1) ref (g.N / 2 + 1)) →
        d.length = T ∧ ∀ m < T, at0 d m =
          (hist.map fun o => windowGain g.N g.h g.f m (frameEnd g.bc g.N g.Ns o.t (g.fs k))).sum * at0 x m) ∧
      ((∀ i < hist.length, (U.rows k (hist.take (i + 1))).loc = selector (y k).length ref (g.N / 2 + 1)) →
        dLoc.length = T ∧ ∀ m < T, at0 dLoc m =
          (hist.map fun o => windowGain g.N g.h g.f m (frameEnd g.bc g.N g.Ns o.t (g.fs k))).sum * at0 x m)) ?_ out h ?_ hE
  · intro t byp eta nd nd' ih hu hE
    obtain ⟨loc, hl, hh', hd, hdl⟩ := tiUpdate_out hu
    rw [hh'] at hE
    obtain ⟨i1, i2⟩ := ih fun o ho => hE o (List.mem_append_left _ ho)
    obtain ⟨e0, e1⟩ := hE _ (List.mem_append_right _ (List.mem_singleton_self _))
    simp only at e0 e1
    have hprev : ∀ i < nd.hist.length, nd'.hist.take (i + 1) = nd.hist.take (i + 1) := by
      intro i hi
      rw [hh', List.take_append_of_le_length (by omega)]
    have hlen : nd'.hist.length = nd.hist.length + 1 := by rw [hh']; simp
    have hlast : nd'.hist.take (nd.hist.length + 1) = nd'.hist := List.take_of_length_le (by omega)
    constructor
    · intro hr
      obtain ⟨j1, j2⟩ := i1 fun i hi => by rw [← hprev i hi]; exact hr i (by omega)
      have hw := hr nd.hist.length (by omega)
      rw [hlast] at hw
      obtain ⟨u1, u2⟩ := desired_gain r he hc hcr hh hhl hfl hconv hx hxr hl (Z := [eta]) hw e0 (by omega) (by omega) hd
      refine ⟨by omega, fun m hm => ?_⟩
      rw [u2 m (by omega), j2 m hm, hh', List.map_append, List.sum_append, List.map_singleton, List.sum_singleton]
      ring
    · intro hr
      obtain ⟨j1, j2⟩ := i2 fun i hi => by rw [← hprev i hi]; exact hr i (by omega)
      have hw := hr nd.hist.length (by omega)
      rw [hlast] at hw
      obtain ⟨u1, u2⟩ := desired_gain r he hc hcr hh hhl hfl hconv hx hxr hl (Z := []) (d := nd.dLoc) hw e0 (by omega) (by omega)
        (by rw [List.append_nil]; exact hdl)
      refine ⟨by omega, fun m hm => ?_⟩
      rw [u2 m (by omega), j2 m hm, hh', List.map_append, List.sum_append, List.map_singleton, List.sum_singleton]
      ring
  · intro _
    have hz : ∀ m, at0 (List.replicate T (0 : K)) m = 0 := fun m => by
      unfold at0
      rw [List.getD_eq_getElem?_getD, List.getElem?_replicate]
      split_ifs <;> rfl
    refine ⟨fun _ => ⟨by simp [TISt.init, TINode.init], fun m _ => ?_⟩, fun _ => ⟨by simp [TISt.init, TINode.init], fun m _ => ?_⟩⟩ <;>
    · simp only [TISt.init, TINode.init, List.map_nil, List.sum_nil, zero_mul]
      exact hz m

/-- The update times of a synchronous TI-DANSE schedule, in order. -/
theorem syncTI_upTimes {fs : ℚ} {m : Nat} (hg : SyncTI g fs m y) {nbs : List (List Nat)} (hn : nbs.length = n)
    {seq keep sim : Bool} {r start : Nat} {minF : Int} (hr : sim = true → r < n) (hstart : start < n)
    {ordOf : Nat → List Level} {treeOf : Nat → TreeObj n} (hT : ∀ k < n, OrientedTree (treeOf k) (ordOf k))
    {out : List (Instant ℚ)} {fsInf : List ℚ} {trees : List (TreeObj n)}
    (h : initEventsTI g.bc g.N g.Ns seq keep sim r start minF (syncNodes fs m nbs) ordOf treeOf =
      .ok (out, fsInf, trees)) (k : Fin n) :
    upTimes (flatEvents out) k = syncUpTI g.bc g.N g.Ns m fs := by
  subst hn
  obtain ⟨out', tr, h1, h2, h3, h4⟩ := initEventsTI_sync (seq := seq) (keep := keep) (sim := sim)
    (r := r) hg.shift (by have := hg.overlap; omega) hg.pos hg.rate hg.clock hg.whole hg.L_pos nbs minF hr hstart
    hg.exchange (fun _ _ => hg.update) ordOf treeOf
  obtain ⟨out2, tr2, k1, k2, -⟩ := C82_schedule hg rfl (seq := seq) (keep := keep) minF hr hstart ordOf
    (fun k hk => (hT k hk).covers) treeOf
  rw [h] at h1 k1
  injection h1 with h1
  injection h1 with e1 h1
  injection k1 with k1
  injection k1 with e2 k1
  subst e1 e2
  have hcov : ∀ o ∈ tr.2, CoversNodes nbs.length o := by
    intro o ho
    rw [h4] at ho
    obtain ⟨j, _, rfl⟩ := List.mem_map.mp ho
    exact (hT _ (Nat.mod_lt _ (by omega))).covers
  obtain ⟨c1, -, c3, -⟩ := C01_exactly_once h2 fun _ => by simpa [tiArgs] using hcov
  have hd : flatEvents out = delivered out := rfl
  unfold upTimes
  rw [hd]
  apply sorted_ext
  · rw [List.pairwise_filterMap]
    refine ((delivered_sorted c1).and c3).imp ?_
    rintro ⟨t, k1, ty1⟩ ⟨t', k2, ty2⟩ ⟨hle, hne⟩ x hx y hy
    simp only at hx hy
    split at hx
    · split at hy
      · rename_i c1 c2
        injection hx with hx
        injection hy with hy
        subst hx hy
        apply lt_of_le_of_ne hle
        rintro rfl
        apply hne
        rw [c1.1, c1.2, c2.1, c2.2]
      · cases hy
    · cases hx
  · unfold syncUpTI
    split
    · exact everySep_sorted hg.shift hg.rate _ _
    · exact everySep_sorted hg.shift hg.rate _ _
  · intro t
    rw [List.mem_filterMap]
    constructor
    · rintro ⟨⟨t', k', ty'⟩, hm, he⟩
      simp only at he
      split at he
      · rename_i hc
        obtain ⟨rfl, rfl⟩ := hc
        injection he with he
        subst he
        exact ((k2 _ _).mp hm).2
      · cases he
    · intro ht
      exact ⟨_, (k2 t k).mpr ⟨k.isLt, ht⟩, by simp⟩

end
end Danse
