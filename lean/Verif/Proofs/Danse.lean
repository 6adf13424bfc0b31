import Verif.Spec.Danse
import Verif.Proofs.Scm2
import Verif.Proofs.Online9
import Verif.Proofs.ExtFilters
import Verif.Props.Scm

/-!
# Helper lemmas for C117: the parts of a DANSE run
-/

set_option linter.unusedSectionVars false

namespace Danse
section
variable {F n K W T : Type} [Fintype n] [Field K] [StarRing K] [Preorder T] [DecidableLE T]

theorem nodeRun_scmOf (c : NodeCfg F n K W T) {s : NodeSt F n K W} (h1 : s.scm.numRyy = 0)
    (h2 : s.scm.numRnn = 0) (l : List (UpEv F n K T)) :
    (nodeRun c s l).scm.ryy = scmOf c.use1st c.beta s.scm.ryy (framesWith true l) ∧
    (nodeRun c s l).scm.rnn = scmOf c.use1st c.beta s.scm.rnn (framesWith false l) := by
  obtain ⟨-, -, h3, h4⟩ := nodeRun_scm c h1 h2 l
  cases hu : c.use1st with
  | false =>
    obtain ⟨a, b⟩ := h3 hu
    rw [a, b]
    constructor
    · cases framesWith true l with
      | nil => exact expWeighted_nil _ _
      | cons => rfl
    · cases framesWith false l with
      | nil => exact expWeighted_nil _ _
      | cons => rfl
  | true =>
    obtain ⟨a, b, d, e⟩ := h4 hu
    constructor
    · cases h : framesWith true l with
      | nil => exact a h
      | cons y r => exact d y r h
    · cases h : framesWith false l with
      | nil => exact b h
      | cons y r => exact e y r h

theorem nodeRun_startedBy (c : NodeCfg F n K W T) (hb : c.batchInit = false) {s : NodeSt F n K W}
    (h1 : s.scm.numRyy = 0) (h2 : s.scm.numRnn = 0) (h3 : s.started = false)
    (he : s.scm.ryy = s.scm.rnn) (l : List (UpEv F n K T)) :
    (nodeRun c s l).started = true ↔
      StartedBy c.use1st c.beta s.scm.ryy c.valid c.startAfter l := by
  constructor
  · intro h
    obtain ⟨l1, e, l2, hl, a, b, d, v⟩ := nodeRun_started_imp c hb h1 h2 h3 l h
    refine ⟨l1, e, ⟨l2, by rw [hl]; simp⟩, d, a, b, ?_⟩
    obtain ⟨r1, r2⟩ := nodeRun_scmOf c h1 h2 (l1 ++ [e])
    rw [← r1]
    rw [he, ← r2]
    exact v
  · rintro ⟨l1, e, ⟨l2, rfl⟩, d, a, b, v⟩
    apply nodeRun_started_mono
    obtain ⟨r1, r2⟩ := nodeRun_scmOf c h1 h2 (l1 ++ [e])
    apply C25_starts c hb h1 h2 l1 e a b d
    rw [r1, r2, ← he]
    exact v

/-- The row written by the last event. -/
theorem nodeRun_row (c : NodeCfg F n K W T) (s : NodeSt F n K W) (hi : s.i = 0) (l : List (UpEv F n K T)) (e : UpEv F n K T) :
    (nodeRun c s (l ++ [e])).w (l.length + 1) =
      (if e.bypass then (nodeRun c s l).w l.length
      else if c.bypassAll = false ∧ (nodeRun c s (l ++ [e])).started = true then
        c.upd (nodeRun c s (l ++ [e])).scm.ryy (nodeRun c s (l ++ [e])).scm.rnn
      else (nodeRun c s l).w (l.length + 1)) ∧
    ∀ j, j ≠ l.length + 1 → (nodeRun c s (l ++ [e])).w j = (nodeRun c s l).w j := by
  have hl : (nodeRun c s l).i = l.length := by rw [nodeRun_i, hi, zero_add]
  rw [nodeRun_snoc, nodeStep_scm, nodeStep_started]
  generalize nodeRun c s l = st at *
  unfold nodeStep
  simp only
  cases hb : e.bypass with
  | true =>
    simp only [if_true, hl]
    exact ⟨trivial, fun j hj => by rw [if_neg hj]⟩
  | false =>
    simp only [reduceCtorEq, if_false]
    by_cases h : c.bypassAll = false ∧
        checkCov c (scmUpdate c.use1st c.beta st.scm e.y e.vad e.vad) st.started e.t = true
    · rw [if_pos h, if_pos h]
      simp only [hl, if_true]
      exact ⟨trivial, fun j hj => by rw [if_neg hj]⟩
    · rw [if_neg h, if_neg h]
      exact ⟨rfl, fun j _ => rfl⟩

/-- Rows that are not written yet. -/
theorem nodeRun_unwritten (c : NodeCfg F n K W T) (s : NodeSt F n K W) (hi : s.i = 0)
    (l : List (UpEv F n K T)) : ∀ j, l.length < j → (nodeRun c s l).w j = s.w j := by
  induction l using List.reverseRecOn with
  | nil => intro j _; rfl
  | append_singleton l e ih =>
    intro j hj
    rw [List.length_append, List.length_singleton] at hj
    rw [(nodeRun_row c s hi l e).2 j (by omega), ih j (by omega)]

/-- Row 0 is never written. -/
theorem nodeRun_row0 (c : NodeCfg F n K W T) (s : NodeSt F n K W) (hi : s.i = 0)
    (l : List (UpEv F n K T)) : (nodeRun c s l).w 0 = s.w 0 := by
  induction l using List.reverseRecOn with
  | nil => rfl
  | append_singleton l e ih => rw [(nodeRun_row c s hi l e).2 0 (by omega), ih]

end

section
variable {K : Type} [Field K] [StarRing K] [DecidableEq K]

theorem coef_frameRow {B m : Nat} (w : Frame (Fin B) (Fin m) K) (κ : Fin B) (c : Fin m) :
    coef (frameRow w) κ c = w κ c := by
  simp [coef, frameRow, at0]

theorem rowFrame_apply (B m : Nat) (rows : List (List K)) (κ : Fin B) (c : Fin m) :
    rowFrame B m rows κ c = coef rows κ c := rfl

theorem frameRow_shape {B m : Nat} (w : Frame (Fin B) (Fin m) K) :
    (frameRow w).length = m ∧ ∀ ch ∈ frameRow w, ch.length = B := by
  refine ⟨by simp [frameRow], fun ch h => ?_⟩
  unfold frameRow at h
  rw [List.mem_ofFn] at h
  obtain ⟨c, rfl⟩ := h
  simp

theorem seqBins_ok {B : Nat} {α : Type} [Zero α] {u : Fin B → Except PyErr α} {v : Fin B → α}
    (h : seqBins u = .ok v) (κ : Fin B) : u κ = .ok (v κ) := by
  unfold seqBins at h
  obtain ⟨l, hl, h⟩ := bind_ok_inv h
  injection h with h
  subst h
  obtain ⟨b, hb, hk⟩ := (mapM_get hl).2 κ.val κ (by simp)
  rw [hk]
  simp [hb]

theorem seqBins_total {B : Nat} {α : Type} [Zero α] {u : Fin B → Except PyErr α}
    (h : ∀ κ, ∃ v, u κ = .ok v) : ∃ v, seqBins u = .ok v := by
  unfold seqBins
  have : ∃ l, (List.finRange B).mapM u = .ok l := by
    generalize List.finRange B = L
    induction L with
    | nil => exact ⟨[], rfl⟩
    | cons a L ih =>
      obtain ⟨v, hv⟩ := h a
      obtain ⟨l, hl⟩ := ih
      refine ⟨v :: l, ?_⟩
      rw [List.mapM_cons, hv, hl]; rfl
  obtain ⟨l, hl⟩ := this
  rw [hl]
  exact ⟨_, rfl⟩

variable {D : DanseCfg K} {k : Nat}

theorem heard_snoc (h : List (Obs K)) (o : Obs K) : D.heard k (h ++ [o]) = D.heard k h ++
    [⟨fun κ c => coef ((o.loc ++ o.z).map (analysis D.g.ζ D.g.N D.g.c D.g.h)) κ c *
        D.rot k ((h ++ [o]).map fun o => (o.t, o.flags)) c κ,
      D.vad k h.length, o.t, D.bypass k h.length⟩] := by
  unfold DanseCfg.heard
  rw [List.zipIdx_append, List.map_append]
  congr 1
  · apply List.map_congr_left
    rintro ⟨a, i⟩ hi
    have hi := (List.mem_zipIdx hi).2.1
    simp only [zero_add] at hi
    simp only
    rw [List.take_append_of_le_length (by omega)]
  · simp only [List.zipIdx_cons, List.zipIdx_nil, List.map_cons, List.map_nil, zero_add]
    rw [List.take_of_length_le (by simp)]

theorem heardLoc_snoc (h : List (Obs K)) (o : Obs K) : D.heardLoc k (h ++ [o]) = D.heardLoc k h ++
    [⟨fun κ c => coef (o.loc.map (analysis D.g.ζ D.g.N D.g.c D.g.h)) κ c, D.vad k h.length, o.t,
      D.bypass k h.length⟩] := by
  unfold DanseCfg.heardLoc
  rw [List.zipIdx_append, List.map_append]
  simp

theorem heard_length (h : List (Obs K)) : (D.heard k h).length = h.length := by simp [DanseCfg.heard]

theorem heardLoc_length (h : List (Obs K)) : (D.heardLoc k h).length = h.length := by
  simp [DanseCfg.heardLoc]

/-- State of a node after the updates on `h`. -/
structure NodeInv (D : DanseCfg K) (k : Nat) (h : List (Obs K))
    (p : DNode D.nb (D.dim k) (D.M k) K × Rows K) : Prop where
  danse : p.1.danse = nodeRun (D.kind k (D.dim k)) (D.kind0 k (D.dim k) (D.g.wInt k)) (D.heard k h)
  loc : p.1.loc = nodeRun (D.kind k (D.M k)) (D.kind0 k (D.M k) (D.g.wLoc k)) (D.heardLoc k h)
  times : p.1.times = h.map fun o => (o.t, o.flags)

theorem nodeFold_snoc (h : List (Obs K)) (o : Obs K) :
    D.nodeFold k (h ++ [o]) = (D.nodeFold k h >>= fun p => D.nodeUpdate k p.1 o) := by
  unfold DanseCfg.nodeFold
  rw [List.foldlM_append]
  congr 1
  funext p
  rw [List.foldlM_cons]
  cases D.nodeUpdate k p.1 o <;> rfl

theorem nodeFold_inv (h : List (Obs K)) : ∀ {p}, D.nodeFold k h = .ok p → NodeInv D k h p := by
  induction h using List.reverseRecOn with
  | nil =>
    intro p hp
    injection hp with hp
    subst hp
    exact ⟨rfl, rfl, rfl⟩
  | append_singleton h o ih =>
    intro p hp
    rw [nodeFold_snoc] at hp
    obtain ⟨q, hq, hp⟩ := bind_ok_inv hp
    have iq := ih hq
    unfold DanseCfg.nodeUpdate at hp
    obtain ⟨w, hw, hp⟩ := bind_ok_inv hp
    obtain ⟨wl, hwl, hp⟩ := bind_ok_inv hp
    injection hp with hp
    have hi : q.1.danse.i = h.length := by
      rw [iq.danse, nodeRun_i, heard_length]; exact Nat.zero_add _
    subst hp
    refine ⟨?_, ?_, ?_⟩
    · rw [heard_snoc, nodeRun_snoc, ← iq.danse]
      simp only [hi, iq.times]
      have e : (h ++ [o]).map (fun o => (o.t, o.flags)) =
        h.map (fun o => (o.t, o.flags)) ++ [(o.t, o.flags)] := List.map_append
      rw [e]
      rfl
    · rw [heardLoc_snoc, nodeRun_snoc, ← iq.loc]
      simp only [hi]
      rfl
    · simp [iq.times]

/-- The rows of the last update. -/
theorem nodeFold_rows (h : List (Obs K)) (o : Obs K) {p} (hp : D.nodeFold k (h ++ [o]) = .ok p) :
    ∃ q w wl, D.nodeFold k h = .ok q ∧
      (nodeRun (D.kind k (D.dim k)) (D.kind0 k (D.dim k) (D.g.wInt k)) (D.heard k (h ++ [o]))).w
        (h.length + 1) = .ok w ∧
      (nodeRun (D.kind k (D.M k)) (D.kind0 k (D.M k) (D.g.wLoc k)) (D.heardLoc k (h ++ [o]))).w
        (h.length + 1) = .ok wl ∧
      p.1.ext = extStep (D.ext k) q.1.ext (localPart (D.M k) _ w) (some o.t) ∧
      p.2 = ⟨frameRow w, frameRow p.1.ext.ext, frameRow wl⟩ := by
  have ip := nodeFold_inv _ hp
  rw [nodeFold_snoc] at hp
  obtain ⟨q, hq, hp⟩ := bind_ok_inv hp
  have iq := nodeFold_inv _ hq
  have hi : q.1.danse.i = h.length := by
    rw [iq.danse, nodeRun_i, heard_length]; exact Nat.zero_add _
  unfold DanseCfg.nodeUpdate at hp
  obtain ⟨w, hw, hp⟩ := bind_ok_inv hp
  obtain ⟨wl, hwl, hp⟩ := bind_ok_inv hp
  injection hp with hp
  refine ⟨q, w, wl, hq, ?_, ?_, ?_, ?_⟩
  · rw [← ip.danse, ← hp, ← hi]; exact hw
  · rw [← ip.loc, ← hp, ← hi]; exact hwl
  · rw [← hp]
  · rw [← hp]

theorem nodeFold_prefix {h h' : List (Obs K)} (hp : h' <+: h) {p} (hk : D.nodeFold k h = .ok p) :
    ∃ q, D.nodeFold k h' = .ok q := by
  obtain ⟨t, rfl⟩ := hp
  unfold DanseCfg.nodeFold at hk
  rw [List.foldlM_append] at hk
  obtain ⟨q, hq, -⟩ := bind_ok_inv hk
  exact ⟨q, hq⟩

end
end Danse
