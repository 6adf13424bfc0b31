import Verif.Proofs.Order3
import Verif.Proofs.ScaleTI
import Verif.Spec.OrderTI

/-!
# Helper lemmas for C144: a TI-DANSE run, sensors in another order
-/

set_option linter.unusedSectionVars false

namespace Danse
section
variable {K : Type}

def TIObs.reord (τ : Equiv.Perm Nat) (o : TIObs K) : TIObs K := { o with loc := reordered τ o.loc }

def TINode.reord (τ : Equiv.Perm Nat) (s : TINode K) : TINode K :=
  { s with ext := reordered τ s.ext, wIR := reordered τ s.wIR, hist := s.hist.map (TIObs.reord τ) }

def TISt.reord {n : Nat} (σ : Nat → Equiv.Perm Nat) (s : TISt n K) : TISt n K :=
  { s with node := fun k => (s.node k).reord (σ k) }

/-- Filters have a row per sensor and one for the sum. -/
structure TINode.Wide (M : Nat) (s : TINode K) : Prop where
  ext : s.ext.length = M + 1
  wIR : M ≤ s.wIR.length

variable [Field K] [StarRing K] [DecidableEq K] {τ : Equiv.Perm Nat} {m : Nat} {g : GivenCfg K}

theorem reordered_last {α : Type} [Inhabited α] (hs : ∀ n, m ≤ n → Stable τ n) (hf : ∀ c, m ≤ c → τ c = c) {x : List α}
    (hx : x.length = m + 1) (d : α) : (reordered τ x).getLastD d = x.getLastD d := by
  rw [List.getLastD_eq_getLast?, List.getLastD_eq_getLast?, List.getLast?_eq_getElem?, List.getLast?_eq_getElem?,
    reordered_length, reordered_get (hs _ (by omega)), hx, hf _ (by omega)]

theorem reord_tiFilter (hs : ∀ n, m ≤ n → Stable τ n) (hf : ∀ c, m ≤ c → τ c = c) {ext : List (List K)}
    (hx : ext.length = m + 1) (st : Bool) : tiFilter m (reordered τ ext) st = (tiFilter m ext st).map (reordered τ) := by
  unfold tiFilter
  simp only [reordered_last hs hf hx, reordered_take hs (by omega : m ≤ ext.length)]
  split_ifs
  · rfl
  · simp only [Except.map]
    rw [reordered_map (hs _ (by rw [List.length_take]; omega))]
  · rfl

theorem tiFilter_length {ext : List (List K)} (hx : ext.length = m + 1) {st : Bool} {p : List (List K)}
    (h : tiFilter m ext st = .ok p) : p.length = m := by
  unfold tiFilter at h
  simp only at h
  split_ifs at h <;> (injection h with h; subst h; simp [hx])

theorem reord_tiBcFilter (hs : ∀ n, m ≤ n → Stable τ n) {nd : TINode K} (hw : nd.Wide m) (M : Nat) (t : ℚ) :
    tiBcFilter g M (nd.reord τ) t = (tiBcFilter g M nd t).map (reordered τ) := by
  unfold tiBcFilter
  change (if |t - nd.lastUp| ≥ g.upTDEvery ∧ ¬ (g.noFusion ∧ M = 1) then
    distFct g.ζ g.N (reordered τ nd.ext) g.h g.f (g.Ns : K) else .ok (reordered τ nd.wIR)) = _
  split_ifs
  · exact distFct_reordered _ _ (hs _ (by rw [hw.ext]; omega)) _ _ _
  · rfl

theorem tiBcFilter_wide {nd : TINode K} (hw : nd.Wide m) {M : Nat} {t : ℚ} {w : List (List K)}
    (h : tiBcFilter g M nd t = .ok w) : m ≤ w.length := by
  unfold tiBcFilter at h
  split_ifs at h
  · rw [distFct_length h, hw.ext]; omega
  · injection h with h; subst h; exact hw.wIR

theorem reord_tiFuse (hs : ∀ n, m ≤ n → Stable τ n) (hf : ∀ c, m ≤ c → τ c = c) {yk : List (List K)} (hy : yk.length = m)
    (t : ℚ) (k : Nat) {nd : TINode K} (hw : nd.Wide m) (buf : List K) :
    tiFuse g (reordered τ yk) t k (nd.reord τ) buf = (tiFuse g yk t k nd buf).map fun p => (p.1.reord τ, p.2) := by
  unfold tiFuse
  rw [reordered_mapM (chunkForBroadcast_oneErr t (g.fs k) g.N) (hs _ hy.ge)]
  cases hm : yk.mapM (fun ch => chunkForBroadcast ch t (g.fs k) g.N) with
  | error e => rfl
  | ok l =>
    have hl : l.length = m := by rw [(mapM_get hm).1, hy]
    simp only [Except.map, bind, Except.bind]
    have e1 : (reordered τ l).any (fun y => decide (y.1.length < g.N)) = l.any (fun y => decide (y.1.length < g.N)) :=
      (reordered_perm (hs _ hl.ge)).any_eq
    rw [e1, reordered_map (hs _ hl.ge), reordered_length, hy]
    by_cases hany : (l.any fun y => decide (y.1.length < g.N)) = true
    · rw [if_pos hany, if_pos hany]
    · rw [if_neg hany, if_neg hany]
      have hlm : m ≤ (l.map (·.1)).length := by rw [List.length_map]; omega
      cases hb : g.bc with
      | whole =>
        simp only
        have e2 : tiFilter m (nd.reord τ).ext (nd.reord τ).started = _ := reord_tiFilter hs hf hw.ext nd.started
        rw [e2]
        cases hp : tiFilter m nd.ext nd.started with
        | error e => rfl
        | ok p =>
          simp only [Except.map]
          rw [wholeChunk_reord hs _ _ _ _ _ _ hlm (tiFilter_length hw.ext hp).ge]
          cases wholeChunk g.ζ g.N g.Ns g.c g.h g.f (l.map (·.1)) p buf <;> rfl
      | few L eff =>
        simp only
        have e2 : tiCurrL g k (nd.reord τ) L eff t = tiCurrL g k nd L eff t := rfl
        rw [e2]
        cases tiCurrL g k nd L eff t with
        | error e => rfl
        | ok l' =>
          simp only
          rw [reord_tiBcFilter hs hw]
          cases hp : tiBcFilter g m nd t with
          | error e => rfl
          | ok p =>
            simp only [Except.map]
            rw [fewSamples_reordered hs _ _ (tiBcFilter_wide hw hp) hlm]
            cases fewSamples l' (2 * g.N - 1) p (l.map (·.1)) <;> rfl

theorem tiFuse_wide {yk : List (List K)} (t : ℚ) (k : Nat) {nd : TINode K} (hw : nd.Wide m) {buf : List K}
    {r : TINode K × List K} (h : tiFuse g yk t k nd buf = .ok r) : r.1.Wide m := by
  unfold tiFuse at h
  obtain ⟨fr, -, h⟩ := bind_ok_inv h
  by_cases hc : (fr.any fun x => decide (x.1.length < g.N)) = true
  · rw [if_pos hc] at h; injection h with h; subst h; exact hw
  rw [if_neg hc] at h
  cases hb : g.bc with
  | whole =>
    rw [hb] at h
    simp only at h
    obtain ⟨z, -, h⟩ := bind_ok_inv h
    obtain ⟨n, -, h⟩ := bind_ok_inv h
    injection h with h
    subst h
    exact hw
  | few L eff =>
    rw [hb] at h
    simp only at h
    obtain ⟨l, -, h⟩ := bind_ok_inv h
    obtain ⟨w, h1, h⟩ := bind_ok_inv h
    obtain ⟨z, -, h⟩ := bind_ok_inv h
    injection h with h
    subst h
    exact ⟨hw.ext, tiBcFilter_wide hw h1⟩

theorem reord_tiObserve (hs : ∀ n, m ≤ n → Stable τ n) {yk : List (List K)} (hy : yk.length = m) (t : ℚ) (k : Nat)
    (bypass : Bool) (eta : List K) :
    tiObserve g (reordered τ yk) t k bypass eta = (tiObserve g yk t k bypass eta).map (TIObs.reord τ) := by
  unfold tiObserve
  rw [reordered_mapM (chunkForUpdate_oneErr t (g.fs k) g.bc g.N g.Ns) (hs _ hy.ge)]
  cases hm : yk.mapM (fun ch => chunkForUpdate ch t (g.fs k) g.bc.name g.N g.Ns) with
  | error e => rfl
  | ok l =>
    have hl : l.length = m := by rw [(mapM_get hm).1, hy]
    simp only [Except.map, bind, Except.bind]
    have e1 : (reordered τ l).any (fun y => decide (y.1.length ≠ g.N)) = l.any (fun y => decide (y.1.length ≠ g.N)) :=
      (reordered_perm (hs _ hl.ge)).any_eq
    rw [e1, reordered_map (hs _ hl.ge)]
    split_ifs <;> rfl

theorem tiObserve_length {yk : List (List K)} {t : ℚ} {k : Nat} {bypass : Bool} {eta : List K} {o : TIObs K}
    (h : tiObserve g yk t k bypass eta = .ok o) : o.loc.length = yk.length := by
  unfold tiObserve at h
  obtain ⟨l, hl, h⟩ := bind_ok_inv h
  by_cases hc : (l.any fun x => decide (x.1.length ≠ g.N)) = true ∨ eta.length ≠ g.N
  · rw [if_pos hc] at h; cases h
  · rw [if_neg hc] at h
    injection h with h
    subst h
    rw [List.length_map, (mapM_get hl).1]

theorem reord_tiUpdate (hs : ∀ n, m ≤ n → Stable τ n) (hf : ∀ c, m ≤ c → τ c = c) {yk : List (List K)} (hy : yk.length = m)
    {rows : Rows K} (h1 : m ≤ rows.int.length) (h3 : m ≤ rows.loc.length) (st : Bool) (t : ℚ) (k : Nat) (bypass : Bool)
    (nd : TINode K) (eta : List K) :
    tiUpdate g (fun _ => rows.reord τ) (fun _ => st) (reordered τ yk) t k bypass (nd.reord τ) eta =
      (tiUpdate g (fun _ => rows) (fun _ => st) yk t k bypass nd eta).map (TINode.reord τ) := by
  unfold tiUpdate
  rw [reordered_mapM (chunkForUpdate_oneErr t (g.fs k) g.bc g.N g.Ns) (hs _ hy.ge)]
  cases hm : yk.mapM (fun ch => chunkForUpdate ch t (g.fs k) g.bc.name g.N g.Ns) with
  | error e => rfl
  | ok l =>
    have hl : l.length = m := by rw [(mapM_get hm).1, hy]
    have hlm : (l.map (·.1)).length = m := by rw [List.length_map]; omega
    change (if _ then _ else _) = Except.map _ (if _ then _ else _)
    have e1 : (reordered τ l).any (fun y => decide (y.1.length ≠ g.N)) = l.any (fun y => decide (y.1.length ≠ g.N)) :=
      (reordered_perm (hs _ hl.ge)).any_eq
    simp only [e1]
    by_cases hany : (l.any fun x => decide (x.1.length ≠ g.N)) = true ∨ eta.length ≠ g.N
    · rw [if_pos hany, if_pos hany]; rfl
    · rw [if_neg hany, if_neg hany]
      have hap : m ≤ (l.map (·.1) ++ [eta]).length := by rw [List.length_append]; omega
      rw [reordered_map (hs _ hl.ge), reordered_append (by rw [hlm]; exact hs) (by rw [hlm]; exact hf),
        reordered_map (hs _ hap), reordered_map (hs _ hlm.ge)]
      change (g.desired (reordered τ rows.int) _ _ nd.d _ _ >>= _) = _
      rw [reord_desired hs h1 (by rw [List.length_map]; exact hap) hlm.ge]
      refine same_bind_comm fun d => ?_
      change (g.desired (reordered τ rows.loc) _ _ nd.dLoc _ _ >>= _) = _
      rw [reord_desired hs h3 (by rw [List.length_map]; exact hlm.ge) hlm.ge]
      refine same_bind_comm fun dl => ?_
      simp only [Except.map, TINode.reord, List.map_append, List.map_cons, List.map_nil, TIObs.reord, Rows.reord]

theorem tiUpdate_wide {yk : List (List K)} {rows : Rows K} (h2 : rows.ext.length = m + 1) {st : Bool} {t : ℚ} {k : Nat}
    {bypass : Bool} {nd nd' : TINode K} (hw : nd.Wide m) {eta : List K}
    (h : tiUpdate g (fun _ => rows) (fun _ => st) yk t k bypass nd eta = .ok nd') : nd'.Wide m := by
  unfold tiUpdate at h
  obtain ⟨l, -, h⟩ := bind_ok_inv h
  by_cases hc : (l.any fun x => decide (x.1.length ≠ g.N)) = true ∨ eta.length ≠ g.N
  · rw [if_pos hc] at h; cases h
  · rw [if_neg hc] at h
    simp only at h
    obtain ⟨d, -, h⟩ := bind_ok_inv h
    obtain ⟨dl, -, h⟩ := bind_ok_inv h
    injection h with h
    subst h
    exact ⟨h2, hw.wIR⟩

end
end Danse
