import Verif.Proofs.Gain
import Verif.Proofs.Online4

/-!
# Helper lemmas for C125: a run with given filters, microphones with gains
-/

set_option linter.unusedSectionVars false

namespace Danse
section
variable {K : Type} [Field K]

/-- Gains `γ k c` of the sensors of a network; `r` is the reference sensor. -/
structure Mics (K : Type) where
  γ : Nat → Nat → K
  r : Nat
  M : Nat → Nat
  nb : Nat → List Nat

/-- Gain of the reference sensor, which is that of the broadcast signal and of the output. -/
def Mics.ref (H : Mics K) (k : Nat) : K := H.γ k H.r
/-- Gain of the signal from neighbour number `i`. -/
def Mics.z (H : Mics K) (k i : Nat) : K := ((H.nb k).map H.ref).getD i 1
/-- Gains of all the channels of a node. -/
def Mics.all (H : Mics K) (k c : Nat) : K := if c < H.M k ∨ c = H.r then H.γ k c else H.z k (c - H.M k)
/-- What the filters are multiplied with. -/
def Mics.fLoc (H : Mics K) (k c : Nat) : K := H.ref k / H.γ k c
def Mics.fInt (H : Mics K) (k c : Nat) : K := H.ref k / H.all k c

def NetSt.gained (H : Mics K) (s : NetSt K) : NetSt K :=
  ⟨fun q i => Danse.scaled (H.z q i) (s.zBuffer q i), fun k => Danse.gained (H.z k) (s.z k), s.it, s.flags⟩

def GivenSt.gained (H : Mics K) (s : GivenSt K) : GivenSt K :=
  { net := s.net.gained H
    zLocal := fun k => Danse.scaled (H.ref k) (s.zLocal k)
    wIR := fun k => Danse.gained (H.fLoc k) (s.wIR k)
    lastUp := s.lastUp
    lastBc := s.lastBc
    d := fun k => Danse.scaled (H.ref k) (s.d k)
    dLoc := fun k => Danse.scaled (H.ref k) (s.dLoc k) }

def GivenCfg.gained (H : Mics K) (g : GivenCfg K) : GivenCfg K :=
  { g with
    wInt := fun k i => Danse.gained (H.fInt k) (g.wInt k i)
    wExt := fun k i => Danse.gained (H.fLoc k) (g.wExt k i)
    wLoc := fun k i => Danse.gained (H.fLoc k) (g.wLoc k i) }

def Obs.gained (H : Mics K) (k : Nat) (o : Obs K) : Obs K :=
  ⟨o.t, o.flags, Danse.gained (H.γ k) o.loc, Danse.gained (H.z k) o.z⟩

def Rows.gained (H : Mics K) (k : Nat) (w : Rows K) : Rows K :=
  ⟨Danse.gained (H.fInt k) w.int, Danse.gained (H.fLoc k) w.ext, Danse.gained (H.fLoc k) w.loc⟩

def AdaptSt.gained (H : Mics K) (s : AdaptSt K) : AdaptSt K :=
  ⟨s.cfg.gained H, s.st.gained H, fun k => (s.hist k).map (Obs.gained H k)⟩

theorem slotOf_get {nbq : List Nat} {k idx : Nat} (h : slotOf nbq k = .ok idx) : nbq[idx]? = some k := by
  unfold slotOf pyGet at h
  cases hx : (nbq.zipIdx.filterMap fun (x, i) => if x = k then some i else none) with
  | nil => rw [hx] at h; simp at h
  | cons a l =>
    rw [hx] at h
    simp at h
    subst h
    have : a ∈ (nbq.zipIdx.filterMap fun (x, i) => if x = k then some i else none) := by rw [hx]; simp
    rw [List.mem_filterMap] at this
    obtain ⟨⟨x, i⟩, h1, h2⟩ := this
    simp only [Option.ite_none_right_eq_some, Option.some.injEq] at h2
    obtain ⟨rfl, rfl⟩ := h2
    exact List.mem_zipIdx_iff_getElem?.mp h1

theorem update_gained {f : Nat → List K} (ρ : Nat → K) (k : Nat) (x : List K) :
    Function.update (fun q => scaled (ρ q) (f q)) k (scaled (ρ k) x) =
      fun q => scaled (ρ q) (Function.update f k x q) := by
  funext q
  by_cases h : q = k
  · subst h; simp
  · simp [Function.update_of_ne h]

theorem update_gainedM {f : Nat → List (List K)} (ρ : Nat → Nat → K) (k : Nat) (x : List (List K)) :
    Function.update (fun q => gained (ρ q) (f q)) k (gained (ρ k) x) =
      fun q => gained (ρ q) (Function.update f k x q) := by
  funext q
  by_cases h : q = k
  · subst h; simp
  · simp [Function.update_of_ne h]

variable {H : Mics K}

theorem Mics.z_slot {q k idx : Nat} (h : slotOf (H.nb q) k = .ok idx) : H.z q idx = H.ref k := by
  unfold Mics.z
  rw [List.getD_eq_getElem?_getD, List.getElem?_map, slotOf_get h]
  rfl

theorem gained_fillBuffers (buf : Nat → Nat → List K) (k : Nat) (ch : List K) :
    fillBuffers H.nb (fun q i => scaled (H.z q i) (buf q i)) k (scaled (H.ref k) ch) =
      (fillBuffers H.nb buf k ch).map (fun b q i => Danse.scaled (H.z q i) (b q i)) := by
  unfold fillBuffers
  refine foldlM_map_comm (f := fun (b : Nat → Nat → List K) q i => scaled (H.z q i) (b q i)) (fun b q => ?_) (H.nb k) buf
  cases hs : slotOf (H.nb q) k with
  | error e => rfl
  | ok idx =>
    change Except.ok _ = Except.ok _
    congr 1
    funext q' i'
    by_cases h : q' = q
    · subst h
      simp only [Function.update_self]
      by_cases h' : i' = idx
      · subst h'
        simp only [Function.update_self, scaled_append, Mics.z_slot hs]
      · simp only [Function.update_of_ne h']
    · simp only [Function.update_of_ne h]

theorem gained_netStep_bc (N Ns : Nat) (s : NetSt K) (k : Nat) (ch : List K) :
    netStep H.nb N Ns (s.gained H) (.bc k (scaled (H.ref k) ch)) = (netStep H.nb N Ns s (.bc k ch)).map (NetSt.gained H) := by
  unfold netStep
  simp only [NetSt.gained]
  rw [gained_fillBuffers]
  exact map_bind_comm fun b => rfl

theorem gained_netStep_up (N Ns : Nat) (s : NetSt K) (k : Nat) :
    netStep H.nb N Ns (s.gained H) (.up k) = (netStep H.nb N Ns s (.up k)).map (NetSt.gained H) := by
  have hp : processBuffers H.nb N Ns (s.gained H) k =
      (processBuffers H.nb N Ns s k).map (fun p => (gained (H.z k) p.1, p.2)) := by
    unfold processBuffers
    have e : ((List.range (H.nb k).length).map fun idx =>
        frameOf N Ns ((s.gained H).it k = 0) (((s.gained H).z k).getD idx []) ((s.gained H).zBuffer k idx)) =
        ((List.range (H.nb k).length).map fun idx =>
          frameOf N Ns (s.it k = 0) ((s.z k).getD idx []) (s.zBuffer k idx)).mapIdx
          (fun i p => (scaled (H.z k i) p.1, p.2)) := by
      apply List.ext_getElem?
      intro i
      simp only [List.getElem?_map, List.getElem?_mapIdx]
      by_cases hi : i < (H.nb k).length
      · rw [List.getElem?_range hi]
        simp only [Option.map_some, Option.some.injEq, NetSt.gained, gained_getD]
        exact scaled_frameOf _ _ _ _ _
      · rw [List.getElem?_eq_none (by simpa using hi)]; rfl
    rw [e]
    generalize ((List.range (H.nb k).length).map fun idx =>
          frameOf N Ns (s.it k = 0) ((s.z k).getD idx []) (s.zBuffer k idx)) = l
    have e1 : (l.mapIdx fun i p => (scaled (H.z k i) p.1, p.2)).map (·.1) = gained (H.z k) (l.map (·.1)) := by
      apply List.ext_getElem?
      intro i
      simp only [gained_eq, List.getElem?_map, List.getElem?_mapIdx]
      cases l[i]? <;> rfl
    have e2 : (l.mapIdx fun i p => (scaled (H.z k i) p.1, p.2)).map (·.2) = l.map (·.2) := by
      apply List.ext_getElem?
      intro i
      simp only [List.getElem?_map, List.getElem?_mapIdx]
      cases l[i]? <;> rfl
    have e3 : (l.mapIdx fun i p => (scaled (H.z k i) p.1, p.2)).all (fun x => decide (x.1.length = N)) =
        l.all (fun x => decide (x.1.length = N)) := by
      have : ∀ (l : List (List K × Int)) (g : Nat → K),
          (l.mapIdx fun i p => (scaled (g i) p.1, p.2)).all (fun x => decide (x.1.length = N)) =
            l.all (fun x => decide (x.1.length = N)) := by
        intro l
        induction l with
        | nil => intro g; rfl
        | cons a l ih =>
          intro g
          simp only [List.mapIdx_cons, List.all_cons, scaled_length]
          rw [ih fun i => g (i + 1)]
      exact this l _
    simp only
    rw [e1, e2, e3]
    split_ifs <;> rfl
  unfold netStep
  simp only
  rw [hp]
  refine map_bind_comm fun p => ?_
  obtain ⟨z, fl⟩ := p
  change Except.ok _ = Except.ok _
  congr 1
  simp only [NetSt.gained, NetSt.mk.injEq, and_true, true_and]
  constructor
  · funext q i
    by_cases h : q = k
    · subst h; simp [scaled]
    · simp [Function.update_of_ne h]
  · exact update_gainedM _ _ _

/-- The gains are real and not zero. -/
def Mics.Real [StarRing K] (H : Mics K) : Prop := ∀ k c, star (H.γ k c) = H.γ k c ∧ H.γ k c ≠ 0

variable [StarRing K]

theorem Mics.Real.z (h : H.Real) (k i : Nat) : star (H.z k i) = H.z k i ∧ H.z k i ≠ 0 := by
  unfold Mics.z
  rw [List.getD_eq_getElem?_getD, List.getElem?_map]
  cases (H.nb k)[i]? with
  | none => simp
  | some q => exact h q H.r

theorem Mics.Real.all (h : H.Real) (k c : Nat) : star (H.all k c) = H.all k c ∧ H.all k c ≠ 0 := by
  unfold Mics.all
  split_ifs
  · exact h k c
  · exact h.z k _

theorem star_div_real {a b : K} (ha : star a = a) (hb : star b = b) : star (a / b) = a / b := by
  rw [div_eq_mul_inv, star_mul, star_inv₀, ha, hb, mul_comm]

theorem Mics.Real.ref (h : H.Real) (k : Nat) : star (H.ref k) = H.ref k ∧ H.ref k ≠ 0 := h k H.r
theorem Mics.Real.fLoc (h : H.Real) (k c : Nat) : star (H.fLoc k c) = H.fLoc k c := star_div_real (h k _).1 (h k c).1
theorem Mics.Real.fInt (h : H.Real) (k c : Nat) : star (H.fInt k c) = H.fInt k c := star_div_real (h k _).1 (h.all k c).1
theorem Mics.Real.mulLoc (h : H.Real) (k c : Nat) : H.fLoc k c * H.γ k c = H.ref k := div_mul_cancel₀ _ (h k c).2
theorem Mics.Real.mulInt (h : H.Real) (k c : Nat) : H.fInt k c * H.all k c = H.ref k := div_mul_cancel₀ _ (h.all k c).2

variable [DecidableEq K] {g : GivenCfg K}

theorem gained_chunks {x : List (List K)} (f : Nat → K) {q q' : List K → Except PyErr (List K × Int × Int)}
    (h : ∀ a u, q' (scaled a u) = (q u).map fun p => (scaled a p.1, p.2)) :
    ((gained f x).mapM q').map (List.map (·.1)) = ((x.mapM q).map (List.map (·.1))).map (gained f) := by
  rw [gained_eq, mapM_mapIdx_comm (k := q) (g := fun i p => (scaled (f i) p.1, p.2)) x (fun i u => h _ _)]
  cases x.mapM q with
  | error e => rfl
  | ok l =>
    simp only [Except.map, Except.ok.injEq]
    apply List.ext_getElem?
    intro i
    simp only [gained_eq, List.getElem?_map, List.getElem?_mapIdx]
    cases l[i]? <;> rfl

/-- Frames of the channels of a node, and a test of their lengths. -/
theorem gained_frames {α : Type} {x : List (List K)} (f : Nat → K) {q : List K → Except PyErr (List K × Int × Int)}
    (h : ∀ a u, q (scaled a u) = (q u).map fun p => (scaled a p.1, p.2)) (p : Nat → Bool) (e : PyErr) {S : α → α}
    {k k' : List (List K) → Except PyErr α}
    (hk : ∀ l : List (List K × Int × Int), x.mapM q = .ok l → k' (gained f (l.map (·.1))) = (k (l.map (·.1))).map S) :
    ((gained f x).mapM q >>= fun fr => if fr.any (fun y => p y.1.length) then .error e else k' (fr.map (·.1))) =
      (x.mapM q >>= fun fr => if fr.any (fun y => p y.1.length) then .error e else k (fr.map (·.1))).map S := by
  rw [gained_eq, mapM_mapIdx_comm (k := q) (g := fun i p => (scaled (f i) p.1, p.2)) x (fun i u => h _ _)]
  cases hx : x.mapM q with
  | error e => rfl
  | ok l =>
    have e1 : (l.mapIdx fun i p => (scaled (f i) p.1, p.2)).map (·.1) = gained f (l.map (·.1)) := by
      apply List.ext_getElem?
      intro i
      simp only [gained_eq, List.getElem?_map, List.getElem?_mapIdx]
      cases l[i]? <;> rfl
    have e3 : (l.mapIdx fun i p => (scaled (f i) p.1, p.2)).any (fun y => p y.1.length) =
        l.any (fun y => p y.1.length) := by
      have : ∀ (l : List (List K × Int × Int)) (g : Nat → K),
          (l.mapIdx fun i p => (scaled (g i) p.1, p.2)).any (fun y => p y.1.length) =
            l.any (fun y => p y.1.length) := by
        intro l
        induction l with
        | nil => intro g; rfl
        | cons a l ih =>
          intro g
          simp only [List.mapIdx_cons, List.any_cons, scaled_length]
          rw [ih fun i => g (i + 1)]
      exact this l _
    simp only [Except.map, bind, Except.bind]
    rw [e3, e1]
    have := hk l hx
    split_ifs
    · rfl
    · exact this

theorem gained_bcFilter (hH : H.Real) (s : GivenSt K) (M : Nat) (t : ℚ) (k : Nat) :
    (g.gained H).bcFilter (s.gained H) M t k = (g.bcFilter s M t k).map (gained (H.fLoc k)) := by
  unfold GivenCfg.bcFilter
  change (if |t - s.lastUp k| ≥ g.upTDEvery ∧ ¬ (g.noFusion ∧ M = 1) then
    distFct g.ζ g.N (gained (H.fLoc k) (g.wExt k (s.net.it k))) g.h g.f (g.Ns : K)
    else .ok (gained (H.fLoc k) (s.wIR k))) = _
  split_ifs
  · exact gained_distFct (hH.fLoc k) _ _ _ _ _ _
  · rfl

theorem gained_broadcast (hH : H.Real) (hn : H.nb = g.nb) (y : Nat → List (List K)) (s : GivenSt K) (t : ℚ) (k : Nat) :
    (g.gained H).broadcast (fun q => gained (H.γ q) (y q)) (s.gained H) t k =
      (g.broadcast y s t k).map (GivenSt.gained H) := by
  have hnet : ∀ (n : Int) (z : List K), netStep g.nb g.N g.Ns (s.net.gained H) (.bc k (chunkOf (scaled (H.ref k) z) n)) =
      (netStep g.nb g.N g.Ns s.net (.bc k (chunkOf z n))).map (NetSt.gained H) := by
    intro n z
    rw [scaled_chunkOf, ← hn]
    exact gained_netStep_bc _ _ _ _ _
  unfold GivenCfg.broadcast
  change ((gained (H.γ k) (y k)).mapM (fun ch => chunkForBroadcast ch t (g.fs k) g.N) >>= _) = _
  cases hb : g.bc with
  | whole =>
    have hb' : (g.gained H).bc = .whole := hb
    simp only [hb']
    refine gained_frames (p := fun n => decide (n < g.N)) (H.γ k)
      (q := fun ch => chunkForBroadcast ch t (g.fs k) g.N)
      (k := fun fr => wholeChunk g.ζ g.N g.Ns g.c g.h g.f fr (g.wExt k (s.net.it k)) (s.zLocal k) >>= fun z =>
        netStep g.nb g.N g.Ns s.net (.bc k (chunkOf z g.Ns)) >>= fun net =>
        .ok { s with net := net, zLocal := Function.update s.zLocal k z })
      (k' := fun fr => wholeChunk g.ζ g.N g.Ns g.c g.h g.f fr (gained (H.fLoc k) (g.wExt k (s.net.it k)))
          (scaled (H.ref k) (s.zLocal k)) >>= fun z =>
        netStep g.nb g.N g.Ns (s.net.gained H) (.bc k (chunkOf z g.Ns)) >>= fun net =>
        .ok { s.gained H with net := net, zLocal := Function.update (s.gained H).zLocal k z })
      (fun a u => scaled_localChunk g.N u _) .unboundLocalError (fun l _ => ?_)
    simp only
    rw [gained_wholeChunk (hH.fLoc k) (hH.ref k).1 (hH.ref k).2 (hH.mulLoc k)]
    refine map_bind_comm fun z => ?_
    rw [hnet]
    refine map_bind_comm fun n => ?_
    change Except.ok _ = Except.ok _
    congr 1
    simp only [GivenSt.gained, update_gained H.ref]
  | few L eff =>
    have hb' : (g.gained H).bc = .few L eff := hb
    simp only [hb']
    refine gained_frames (p := fun n => decide (n < g.N)) (H.γ k)
      (q := fun ch => chunkForBroadcast ch t (g.fs k) g.N)
      (k := fun fr => g.currL s L eff t k >>= fun l => g.bcFilter s (y k).length t k >>= fun wIR =>
        fewSamples l (2 * g.N - 1) wIR fr >>= fun z =>
        netStep g.nb g.N g.Ns s.net (.bc k (chunkOf z (-(l : Int)))) >>= fun net =>
        .ok { s with
          net := net
          zLocal := Function.update s.zLocal k z
          wIR := Function.update s.wIR k wIR
          lastUp := if |t - s.lastUp k| ≥ g.upTDEvery then Function.update s.lastUp k t else s.lastUp
          lastBc := if eff then Function.update s.lastBc k t else s.lastBc })
      (k' := fun fr => g.currL s L eff t k >>= fun l =>
        (g.gained H).bcFilter (s.gained H) (gained (H.γ k) (y k)).length t k >>= fun wIR =>
        fewSamples l (2 * g.N - 1) wIR fr >>= fun z =>
        netStep g.nb g.N g.Ns (s.net.gained H) (.bc k (chunkOf z (-(l : Int)))) >>= fun net =>
        .ok { s.gained H with
          net := net
          zLocal := Function.update (s.gained H).zLocal k z
          wIR := Function.update (s.gained H).wIR k wIR
          lastUp := if |t - s.lastUp k| ≥ g.upTDEvery then Function.update s.lastUp k t else s.lastUp
          lastBc := if eff then Function.update s.lastBc k t else s.lastBc })
      (fun a u => scaled_localChunk g.N u _) .unboundLocalError (fun l _ => ?_)
    simp only
    refine same_bind_comm fun l => ?_
    rw [gained_length, gained_bcFilter hH]
    refine map_bind_comm fun w => ?_
    rw [gained_fewSamples (hH.mulLoc k)]
    refine map_bind_comm fun z => ?_
    rw [hnet]
    refine map_bind_comm fun n => ?_
    change Except.ok _ = Except.ok _
    congr 1
    simp only [GivenSt.gained, update_gained H.ref, update_gainedM H.fLoc]

theorem gained_rotate {f : Nat → K} (k i : Nat) (y : List (List K)) : g.rotate k i (gained f y) = gained f (g.rotate k i y) := by
  unfold GivenCfg.rotate
  apply List.ext_getElem?
  intro m
  simp only [gained_eq, List.getElem?_map, List.getElem?_mapIdx, List.getElem?_zipIdx]
  cases y[m]? with
  | none => rfl
  | some ch =>
    simp only [Option.map_some, Option.some.injEq]
    exact scaled_zipIdx ch (fun v κ => v * g.rot k i (0 + m) κ) (fun v κ => v * g.rot k i (0 + m) κ)
      (fun v j => mul_assoc _ v _)

theorem gained_desired {f h : Nat → K} {ρ : K} (hf : ∀ c, star (f c) = f c) (hρ : star ρ = ρ) (hfg : ∀ c, f c * h c = ρ)
    (w yH yT : List (List K)) (d : List K) (b e : Int) :
    g.desired (gained f w) (gained h yH) (gained h yT) (scaled ρ d) b e = (g.desired w yH yT d b e).map (scaled ρ) := by
  unfold GivenCfg.desired
  split_ifs
  · rw [gained_distFct hf]
    refine map_bind_comm fun wIR => ?_
    rw [gained_desiredConv hfg]
    exact map_bind_comm fun ch => scaled_setSlice _ _ _ _
  · rw [gained_desiredFrame hf hρ hfg]
    refine map_bind_comm fun fr => ?_
    rw [scaled_length]
    exact scaled_addFrame _ _ _ _

theorem gained_channels {k : Nat} {l z : List (List K)} (hl : l.length = H.M k) (hr : H.r < H.M k) :
    gained (H.γ k) l ++ gained (H.z k) z = gained (H.all k) (l ++ z) := by
  rw [gained_append, hl]
  refine gained_congr fun c _ => ?_
  unfold Mics.all
  by_cases h : c < H.M k
  · rw [if_pos h, if_pos (.inl h)]
  · rw [if_neg h, if_neg (by omega)]

theorem gained_update (hH : H.Real) (hn : H.nb = g.nb) {y : Nat → List (List K)} (s : GivenSt K) (t : ℚ) {k : Nat}
    (hy : (y k).length = H.M k) (hr : H.r < H.M k) :
    (g.gained H).update (fun q => gained (H.γ q) (y q)) (s.gained H) t k = (g.update y s t k).map (GivenSt.gained H) := by
  unfold GivenCfg.update
  change (netStep g.nb g.N g.Ns (s.net.gained H) _ >>= _) = _
  rw [← hn, gained_netStep_up]
  refine map_bind_comm fun n => ?_
  refine gained_frames (p := fun n => decide (n ≠ g.N)) (H.γ k)
    (q := fun ch => chunkForUpdate ch t (g.fs k) g.bc.name g.N g.Ns)
    (k := fun yL =>
      g.desired (g.wInt k (s.net.it k + 1)) (g.rotate k (s.net.it k) ((yL ++ n.z k).map (analysis g.ζ g.N g.c g.h)))
        ((yL ++ n.z k).take (y k).length) (s.d k) (g.updRange t k).1 (g.updRange t k).2 >>= fun d =>
      g.desired (g.wLoc k (s.net.it k + 1)) (yL.map (analysis g.ζ g.N g.c g.h)) yL (s.dLoc k)
        (g.updRange t k).1 (g.updRange t k).2 >>= fun dL =>
      .ok { s with net := n, d := Function.update s.d k d, dLoc := Function.update s.dLoc k dL })
    (k' := fun yL =>
      g.desired (gained (H.fInt k) (g.wInt k (s.net.it k + 1)))
        (g.rotate k (s.net.it k) ((yL ++ gained (H.z k) (n.z k)).map (analysis g.ζ g.N g.c g.h)))
        ((yL ++ gained (H.z k) (n.z k)).take (gained (H.γ k) (y k)).length) (scaled (H.ref k) (s.d k))
        (g.updRange t k).1 (g.updRange t k).2 >>= fun d =>
      g.desired (gained (H.fLoc k) (g.wLoc k (s.net.it k + 1))) (yL.map (analysis g.ζ g.N g.c g.h)) yL
        (scaled (H.ref k) (s.dLoc k)) (g.updRange t k).1 (g.updRange t k).2 >>= fun dL =>
      .ok { s.gained H with
        net := n.gained H, d := Function.update (s.gained H).d k d, dLoc := Function.update (s.gained H).dLoc k dL })
    (fun a u => scaled_chunkForUpdate u _ _ _ _ _) .valueError (fun l hl => ?_)
  simp only
  have hlen : (l.map (·.1)).length = H.M k := by rw [List.length_map, (mapM_get hl).1, hy]
  rw [gained_channels hlen hr, gained_analysisM, gained_rotate, gained_length, gained_take, gained_analysisM,
    gained_desired (hH.fInt k) (hH.ref k).1 (hH.mulInt k)]
  refine map_bind_comm fun d => ?_
  rw [gained_desired (hH.fLoc k) (hH.ref k).1 (hH.mulLoc k)]
  refine map_bind_comm fun dl => ?_
  change Except.ok _ = Except.ok _
  congr 1
  simp only [GivenSt.gained, update_gained H.ref]

theorem gained_step (hH : H.Real) (hn : H.nb = g.nb) {y : Nat → List (List K)} (s : GivenSt K) (ev : ℚ × Nat × EvType)
    (hy : (y ev.2.1).length = H.M ev.2.1) (hr : H.r < H.M ev.2.1) :
    (g.gained H).step (fun q => gained (H.γ q) (y q)) (s.gained H) ev = (g.step y s ev).map (GivenSt.gained H) := by
  unfold GivenCfg.step
  split
  · exact gained_broadcast hH hn _ _ _ _
  · exact gained_update hH hn _ _ hy hr
  · rfl

theorem gained_observe (hn : H.nb = g.nb) (y : Nat → List (List K)) (s : GivenSt K) (t : ℚ) (k : Nat) :
    (g.gained H).observe (fun q => gained (H.γ q) (y q)) (s.gained H) t k =
      (g.observe y s t k).map (Obs.gained H k) := by
  unfold GivenCfg.observe
  change (netStep g.nb g.N g.Ns (s.net.gained H) _ >>= _) = _
  rw [← hn, gained_netStep_up]
  refine map_bind_comm fun n => ?_
  have := gained_chunks (x := y k) (H.γ k) (q := fun ch => chunkForUpdate ch t (g.fs k) g.bc.name g.N g.Ns)
    (q' := fun ch => chunkForUpdate ch t (g.fs k) g.bc.name g.N g.Ns) (fun a u => scaled_chunkForUpdate u _ _ _ _ _)
  change ((gained (H.γ k) (y k)).mapM (fun ch => chunkForUpdate ch t (g.fs k) g.bc.name g.N g.Ns) >>= _) = _
  revert this
  cases (gained (H.γ k) (y k)).mapM (fun ch => chunkForUpdate ch t (g.fs k) g.bc.name g.N g.Ns) with
  | error e =>
    cases (y k).mapM (fun ch => chunkForUpdate ch t (g.fs k) g.bc.name g.N g.Ns) with
    | error e' => exact fun h => by injection h with h; subst h; rfl
    | ok l => exact fun h => by cases h
  | ok l' =>
    cases (y k).mapM (fun ch => chunkForUpdate ch t (g.fs k) g.bc.name g.N g.Ns) with
    | error e' => exact fun h => by cases h
    | ok l =>
      intro h
      injection h with h
      change Except.ok _ = Except.ok _
      congr 1
      simp only [Obs.gained, h]
      rfl

end
end Danse
