import Verif.Proofs.Order

/-!
# Helper lemmas for C143: a run with given filters, sensors in another order
-/

set_option linter.unusedSectionVars false

namespace Danse
section
variable {K : Type}

/-- The same filters, in the other order of the channels. -/
def GivenCfg.reord (σ : Nat → Equiv.Perm Nat) (g : GivenCfg K) : GivenCfg K :=
  { g with
    wInt := fun k i => reordered (σ k) (g.wInt k i)
    wExt := fun k i => reordered (σ k) (g.wExt k i)
    wLoc := fun k i => reordered (σ k) (g.wLoc k i) }

def GivenSt.reord (σ : Nat → Equiv.Perm Nat) (s : GivenSt K) : GivenSt K :=
  { s with wIR := fun k => reordered (σ k) (s.wIR k) }

def Obs.reord (σ : Equiv.Perm Nat) (o : Obs K) : Obs K := { o with loc := reordered σ o.loc }

def Rows.reord (σ : Equiv.Perm Nat) (r : Rows K) : Rows K := ⟨reordered σ r.int, reordered σ r.ext, reordered σ r.loc⟩

def AdaptSt.reord (σ : Nat → Equiv.Perm Nat) (s : AdaptSt K) : AdaptSt K :=
  ⟨s.cfg.reord σ, s.st.reord σ, fun k => (s.hist k).map (Obs.reord (σ k))⟩

/-- All filters have (at least) one row per sensor. -/
structure GivenCfg.Wide (M : Nat → Nat) (g : GivenCfg K) : Prop where
  int : ∀ k i, M k ≤ (g.wInt k i).length
  ext : ∀ k i, M k ≤ (g.wExt k i).length
  loc : ∀ k i, M k ≤ (g.wLoc k i).length

def GivenSt.Wide (M : Nat → Nat) (s : GivenSt K) : Prop := ∀ k, M k ≤ (s.wIR k).length

variable [Field K] [StarRing K] [DecidableEq K] {M : Nat → Nat} {σ : Nat → Equiv.Perm Nat} {ref : Nat} {g : GivenCfg K}

theorem bind_map_eq {α β : Type} {x : Except PyErr α} {f : α → α} {k k' : α → Except PyErr β}
    (h : ∀ u, x = .ok u → k' (f u) = k u) : (x.map f >>= k') = (x >>= k) := by
  cases x with
  | error e => rfl
  | ok u => exact h u rfl

/-- Frames of the channels in another order, and a test of their lengths. -/
theorem reord_frames {α : Type} {x : List (List K)} {τ : Equiv.Perm Nat} (hx : Stable τ x.length)
    {q : List K → Except PyErr (List K × Int × Int)} (hq : OneErr q .valueError) (p : Nat → Bool) (e : PyErr) {S : α → α}
    {k k' : List (List K) → Except PyErr α}
    (hk : ∀ l : List (List K × Int × Int), x.mapM q = .ok l → l.length = x.length →
      k' (reordered τ (l.map (·.1))) = (k (l.map (·.1))).map S) :
    ((reordered τ x).mapM q >>= fun fr => if fr.any (fun y => p y.1.length) then .error e else k' (fr.map (·.1))) =
      (x.mapM q >>= fun fr => if fr.any (fun y => p y.1.length) then .error e else k (fr.map (·.1))).map S := by
  rw [reordered_mapM hq hx]
  cases hm : x.mapM q with
  | error e => rfl
  | ok l =>
    have hl := (mapM_get hm).1
    have hs : Stable τ l.length := by rw [hl]; exact hx
    simp only [Except.map, bind, Except.bind]
    have e1 : (reordered τ l).any (fun y => p y.1.length) = l.any (fun y => p y.1.length) :=
      (reordered_perm hs).any_eq
    rw [e1, reordered_map hs]
    have := hk l hm hl
    split_ifs
    · rfl
    · exact this

theorem reord_bcFilter (hs : SensorOrder M ref σ) (hg : g.Wide M) (s : GivenSt K) (m : Nat) (t : ℚ) (k : Nat) :
    (g.reord σ).bcFilter (s.reord σ) m t k = (g.bcFilter s m t k).map (reordered (σ k)) := by
  unfold GivenCfg.bcFilter
  change (if |t - s.lastUp k| ≥ g.upTDEvery ∧ ¬ (g.noFusion ∧ m = 1) then
    distFct g.ζ g.N (reordered (σ k) (g.wExt k (s.net.it k))) g.h g.f (g.Ns : K)
    else .ok (reordered (σ k) (s.wIR k))) = _
  split_ifs
  · exact distFct_reordered _ _ (hs.stable (hg.ext _ _)) _ _ _
  · rfl

theorem distFct_length {ζ : K} {n : Nat} {w : List (List K)} {h f : List K} {R : K} {v : List (List K)}
    (hv : distFct ζ n w h f R = .ok v) : v.length = w.length := (mapM_get hv).1

theorem bcFilter_wide (hg : g.Wide M) {s : GivenSt K} (hw : s.Wide M) {m : Nat} {t : ℚ} {k : Nat} {w : List (List K)}
    (h : g.bcFilter s m t k = .ok w) : M k ≤ w.length := by
  unfold GivenCfg.bcFilter at h
  split_ifs at h
  · rw [distFct_length h]; exact hg.ext _ _
  · injection h with h; subst h; exact hw k

theorem wholeChunk_reord {τ : Equiv.Perm Nat} {m : Nat} (hs : ∀ n, m ≤ n → Stable τ n) (ζ : K) (N Ns : Nat) (c : K)
    (h h' : List K) {y w : List (List K)} (hy : m ≤ y.length) (hw : m ≤ w.length) (prev : List K) :
    wholeChunk ζ N Ns c h h' (reordered τ y) (reordered τ w) prev = wholeChunk ζ N Ns c h h' y w prev := by
  unfold wholeChunk
  rw [reordered_map (hs _ hy), combine_reordered hs _ hw (by rw [List.length_map]; exact hy)]

theorem reord_broadcast (hs : SensorOrder M ref σ) (hg : g.Wide M) {y : Nat → List (List K)} {s : GivenSt K} (hw : s.Wide M)
    (t : ℚ) {k : Nat} (hy : (y k).length = M k) :
    (g.reord σ).broadcast (fun q => reordered (σ q) (y q)) (s.reord σ) t k =
      (g.broadcast y s t k).map (GivenSt.reord σ) := by
  have hst : ∀ n, M k ≤ n → Stable (σ k) n := fun n hn => hs.stable hn
  unfold GivenCfg.broadcast
  change ((reordered (σ k) (y k)).mapM (fun ch => chunkForBroadcast ch t (g.fs k) g.N) >>= _) = _
  cases hb : g.bc with
  | whole =>
    have hb' : (g.reord σ).bc = .whole := hb
    simp only [hb']
    refine reord_frames (p := fun n => decide (n < g.N)) (hst _ hy.ge) (chunkForBroadcast_oneErr t (g.fs k) g.N)
      (k := fun fr => wholeChunk g.ζ g.N g.Ns g.c g.h g.f fr (g.wExt k (s.net.it k)) (s.zLocal k) >>= fun z =>
        netStep g.nb g.N g.Ns s.net (.bc k (chunkOf z g.Ns)) >>= fun net =>
        .ok { s with net := net, zLocal := Function.update s.zLocal k z })
      (k' := fun fr => wholeChunk g.ζ g.N g.Ns g.c g.h g.f fr (reordered (σ k) (g.wExt k (s.net.it k)))
          (s.zLocal k) >>= fun z =>
        netStep g.nb g.N g.Ns s.net (.bc k (chunkOf z g.Ns)) >>= fun net =>
        .ok { s.reord σ with net := net, zLocal := Function.update s.zLocal k z })
      (e := .unboundLocalError) (fun l _ hl => ?_)
    simp only
    rw [wholeChunk_reord hst _ _ _ _ _ _ (by rw [List.length_map, hl, hy]) (hg.ext _ _)]
    refine same_bind_comm fun z => ?_
    refine same_bind_comm fun n => ?_
    rfl
  | few L eff =>
    have hb' : (g.reord σ).bc = .few L eff := hb
    simp only [hb']
    refine reord_frames (p := fun n => decide (n < g.N)) (hst _ hy.ge) (chunkForBroadcast_oneErr t (g.fs k) g.N)
      (k := fun fr => g.currL s L eff t k >>= fun l => g.bcFilter s (y k).length t k >>= fun wIR =>
        fewSamples l (2 * g.N - 1) wIR fr >>= fun z =>
        netStep g.nb g.N g.Ns s.net (.bc k (chunkOf z (-(l : Int)))) >>= fun net =>
        .ok { s with
          net := net
          zLocal := Function.update s.zLocal k z
          wIR := Function.update s.wIR k wIR
          lastUp := if |t - s.lastUp k| ≥ g.upTDEvery then Function.update s.lastUp k t else s.lastUp
          lastBc := if eff then Function.update s.lastBc k t else s.lastBc })
      (k' := fun fr => g.currL s L eff t k >>= fun l =>
        (g.reord σ).bcFilter (s.reord σ) (reordered (σ k) (y k)).length t k >>= fun wIR =>
        fewSamples l (2 * g.N - 1) wIR fr >>= fun z =>
        netStep g.nb g.N g.Ns s.net (.bc k (chunkOf z (-(l : Int)))) >>= fun net =>
        .ok { s.reord σ with
          net := net
          zLocal := Function.update s.zLocal k z
          wIR := Function.update (s.reord σ).wIR k wIR
          lastUp := if |t - s.lastUp k| ≥ g.upTDEvery then Function.update s.lastUp k t else s.lastUp
          lastBc := if eff then Function.update s.lastBc k t else s.lastBc })
      (e := .unboundLocalError) (fun l _ hl => ?_)
    simp only
    refine same_bind_comm fun l' => ?_
    rw [reordered_length, reord_bcFilter hs hg]
    cases hf : g.bcFilter s (y k).length t k with
    | error e => rfl
    | ok w =>
      simp only [Except.map, bind, Except.bind]
      rw [fewSamples_reordered hst _ _ (bcFilter_wide hg hw hf) (by rw [List.length_map, hl, hy])]
      cases fewSamples l' (2 * g.N - 1) w (l.map (·.1)) with
      | error e => rfl
      | ok z =>
        simp only
        cases netStep g.nb g.N g.Ns s.net (.bc k (chunkOf z (-(l' : Int)))) with
        | error e => rfl
        | ok n =>
          simp only [Except.ok.injEq]
          have : Function.update (s.reord σ).wIR k (reordered (σ k) w) = fun q => reordered (σ q) (Function.update s.wIR k w q) := by
            funext q
            by_cases hq : q = k
            · subst hq; simp
            · simp [Function.update_of_ne hq, GivenSt.reord]
          rw [this]
          rfl

theorem reord_rotate {τ : Equiv.Perm Nat} {k i : Nat} {yH : List (List K)} {m : Nat} (hs : ∀ n, m ≤ n → Stable τ n)
    (hf : ∀ c, m ≤ c → τ c = c) (hm : m ≤ yH.length) (hr : ∀ c κ, c < m → g.rot k i c κ = 1) :
    g.rotate k i (reordered τ yH) = reordered τ (g.rotate k i yH) := by
  unfold GivenCfg.rotate
  have hl : (yH.zipIdx.map fun (p : List K × Nat) => p.1.zipIdx.map fun (q : K × Nat) => q.1 * g.rot k i p.2 q.2).length = yH.length := by simp
  apply List.ext_getElem?
  intro c
  rw [reordered_get (by rw [hl]; exact hs _ hm)]
  simp only [List.getElem?_map, List.getElem?_zipIdx, Nat.zero_add]
  rw [reordered_get (hs _ hm)]
  have hrot : ∀ κ, g.rot k i (τ c) κ = g.rot k i c κ := by
    intro κ
    by_cases h : c < m
    · rw [hr c κ h, hr _ κ ((hs m le_rfl c).2 h)]
    · rw [hf c (by omega)]
  cases yH[τ c]? with
  | none => rfl
  | some ch => simp only [Option.map_some, hrot]

theorem reord_desired {τ : Equiv.Perm Nat} {m : Nat} (hs : ∀ n, m ≤ n → Stable τ n) {w yH yT : List (List K)}
    (hw : m ≤ w.length) (hH : m ≤ yH.length) (hT : m ≤ yT.length) (d : List K) (b e : Int) :
    g.desired (reordered τ w) (reordered τ yH) (reordered τ yT) d b e = g.desired w yH yT d b e := by
  unfold GivenCfg.desired
  split_ifs
  · rw [distFct_reordered _ _ (hs _ hw)]
    refine bind_map_eq fun u hu => ?_
    rw [desiredConv_reordered hs _ _ (by rw [distFct_length hu]; exact hw) hT]
  · unfold desiredFrame
    rw [combine_reordered hs _ hw hH]

theorem reord_update (hs : SensorOrder M ref σ) (hg : g.Wide M) {y : Nat → List (List K)} (s : GivenSt K) (t : ℚ) {k : Nat}
    (hy : (y k).length = M k) (hr : ∀ c κ, c < M k → g.rot k (s.net.it k) c κ = 1) :
    (g.reord σ).update (fun q => reordered (σ q) (y q)) (s.reord σ) t k = (g.update y s t k).map (GivenSt.reord σ) := by
  have hst : ∀ n, M k ≤ n → Stable (σ k) n := fun n hn => hs.stable hn
  unfold GivenCfg.update
  change (netStep g.nb g.N g.Ns s.net _ >>= _) = _
  refine same_bind_comm fun n => ?_
  refine reord_frames (p := fun n => decide (n ≠ g.N)) (hst _ hy.ge) (chunkForUpdate_oneErr t (g.fs k) g.bc g.N g.Ns)
    (k := fun yL =>
      g.desired (g.wInt k (s.net.it k + 1)) (g.rotate k (s.net.it k) ((yL ++ n.z k).map (analysis g.ζ g.N g.c g.h)))
        ((yL ++ n.z k).take (y k).length) (s.d k) (g.updRange t k).1 (g.updRange t k).2 >>= fun d =>
      g.desired (g.wLoc k (s.net.it k + 1)) (yL.map (analysis g.ζ g.N g.c g.h)) yL (s.dLoc k)
        (g.updRange t k).1 (g.updRange t k).2 >>= fun dL =>
      .ok { s with net := n, d := Function.update s.d k d, dLoc := Function.update s.dLoc k dL })
    (k' := fun yL =>
      g.desired (reordered (σ k) (g.wInt k (s.net.it k + 1)))
        (g.rotate k (s.net.it k) ((yL ++ n.z k).map (analysis g.ζ g.N g.c g.h)))
        ((yL ++ n.z k).take (reordered (σ k) (y k)).length) (s.d k)
        (g.updRange t k).1 (g.updRange t k).2 >>= fun d =>
      g.desired (reordered (σ k) (g.wLoc k (s.net.it k + 1))) (yL.map (analysis g.ζ g.N g.c g.h)) yL
        (s.dLoc k) (g.updRange t k).1 (g.updRange t k).2 >>= fun dL =>
      .ok { s.reord σ with net := n, d := Function.update s.d k d, dLoc := Function.update s.dLoc k dL })
    (e := .valueError) (fun l _ hl => ?_)
  simp only
  have hlen : (l.map (·.1)).length = M k := by rw [List.length_map, hl, hy]
  have hall : M k ≤ (l.map (·.1) ++ n.z k).length := by rw [List.length_append, hlen]; omega
  rw [reordered_append (by rw [hlen]; exact hst) (by rw [hlen]; exact hs.fix k), reordered_map (hst _ hall),
    reord_rotate hst (hs.fix k) (by rw [List.length_map]; exact hall) hr, reordered_length, hy,
    reordered_take hst hall, reordered_map (hst _ hlen.ge),
    reord_desired hst (hg.int _ _) (by simp [GivenCfg.rotate]; simp at hlen; omega) (by rw [List.length_take]; omega),
    reord_desired hst (hg.loc _ _) (by rw [List.length_map]; exact hlen.ge) hlen.ge]
  refine same_bind_comm fun d => ?_
  refine same_bind_comm fun dl => ?_
  rfl

theorem reord_observe (hs : SensorOrder M ref σ) {y : Nat → List (List K)} (s : GivenSt K) (t : ℚ) {k : Nat}
    (hy : (y k).length = M k) :
    (g.reord σ).observe (fun q => reordered (σ q) (y q)) (s.reord σ) t k = (g.observe y s t k).map (Obs.reord (σ k)) := by
  unfold GivenCfg.observe
  change (netStep g.nb g.N g.Ns s.net _ >>= _) = _
  refine same_bind_comm fun n => ?_
  change ((reordered (σ k) (y k)).mapM (fun ch => chunkForUpdate ch t (g.fs k) g.bc.name g.N g.Ns) >>= _) = _
  rw [reordered_mapM (chunkForUpdate_oneErr t (g.fs k) g.bc g.N g.Ns) (hs.stable hy.ge)]
  cases hm : (y k).mapM (fun ch => chunkForUpdate ch t (g.fs k) g.bc.name g.N g.Ns) with
  | error e => rfl
  | ok l =>
    change Except.ok _ = Except.ok _
    congr 1
    simp only [Obs.reord]
    rw [reordered_map (hs.stable (by rw [(mapM_get hm).1, hy]))]

/-- Widths are kept. -/
theorem step_wide (hg : g.Wide M) {y : Nat → List (List K)} {s s' : GivenSt K} (hw : s.Wide M) {ev : ℚ × Nat × EvType}
    (h : g.step y s ev = .ok s') : s'.Wide M := by
  unfold GivenCfg.step at h
  split at h
  · unfold GivenCfg.broadcast at h
    obtain ⟨fr, -, h⟩ := bind_ok_inv h
    by_cases hc : (fr.any fun x => decide (x.1.length < g.N)) = true
    · rw [if_pos hc] at h; cases h
    rw [if_neg hc] at h
    cases hb : g.bc with
    | whole =>
      rw [hb] at h
      simp only at h
      obtain ⟨z, -, h⟩ := bind_ok_inv h
      obtain ⟨n, -, h⟩ := bind_ok_inv h
      injection h with h
      subst h
      exact hw
    | few L eff =>
      rw [hb] at h
      simp only at h
      obtain ⟨l, -, h⟩ := bind_ok_inv h
      obtain ⟨w, h1, h⟩ := bind_ok_inv h
      obtain ⟨z, -, h⟩ := bind_ok_inv h
      obtain ⟨n, -, h⟩ := bind_ok_inv h
      injection h with h
      subst h
      intro q
      by_cases hq : q = ev.2.1
      · subst hq
        simp only [Function.update_self]
        exact bcFilter_wide hg hw h1
      · simp only [Function.update_of_ne hq]
        exact hw q
  · unfold GivenCfg.update at h
    obtain ⟨n, -, h⟩ := bind_ok_inv h
    obtain ⟨fr, -, h⟩ := bind_ok_inv h
    split_ifs at h
    obtain ⟨d, -, h⟩ := bind_ok_inv h
    obtain ⟨dl, -, h⟩ := bind_ok_inv h
    injection h with h
    subst h
    exact hw
  · cases h

end
end Danse
