import Verif.Proofs.DemoNet
import Verif.Proofs.Dxcp

/-! # Lemmas about the simulations -/

namespace Danse

set_option linter.unusedSectionVars false

variable {N : Type} [DecidableEq N] {E F A : Type}

/-! ## Existence of the synchronised run -/

/-- The pairs of reference and node of a level. -/
def levelPairs (L : List (List N)) : List (N × N) := L.flatMap fun B => B.tail.map fun n => (B.headD n, n)

theorem levelPairs_snd (L : List (List N)) : (levelPairs L).map (·.2) = children L := by
  unfold levelPairs children
  rw [List.map_flatMap]
  congr 1
  funext B
  rw [List.map_map]
  exact List.map_id' _

theorem mem_levelPairs {L : List (List N)} {h c : N} : (h, c) ∈ levelPairs L ↔ ∃ t, h :: t ∈ L ∧ c ∈ t := by
  unfold levelPairs
  rw [List.mem_flatMap]
  constructor
  · rintro ⟨B, hB, hm⟩
    cases B with
    | nil => simp at hm
    | cons h' t =>
      simp only [List.tail_cons, List.headD_cons, List.mem_map, Prod.mk.injEq] at hm
      obtain ⟨n, hn, rfl, rfl⟩ := hm
      exact ⟨t, hB, hn⟩
  · rintro ⟨t, hB, hc⟩
    refine ⟨_, hB, ?_⟩
    simp only [List.tail_cons, List.headD_cons, List.mem_map, Prod.mk.injEq]
    exact ⟨c, hc, by simp⟩

theorem find_levelPairs {L : List (List N)} (hn : (children L).Nodup) {h c : N} (hm : (h, c) ∈ levelPairs L) :
    (levelPairs L).find? (fun p => p.2 = c) = some (h, c) := by
  rw [← levelPairs_snd] at hn
  generalize levelPairs L = ps at hn hm
  induction ps with
  | nil => simp at hm
  | cons p ps ih =>
    rw [List.map_cons, List.nodup_cons] at hn
    rcases List.mem_cons.mp hm with hm | hm
    · subst hm
      simp [List.find?_cons]
    · have : p.2 ≠ c := by
        intro e
        exact hn.1 (List.mem_map.mpr ⟨_, hm, e.symm⟩)
      rw [List.find?_cons, decide_eq_false this]
      exact ih hn.2 hm

theorem find_none {L : List (List N)} {c : N} (hc : c ∉ children L) :
    (levelPairs L).find? (fun p => p.2 = c) = none := by
  rw [List.find?_eq_none]
  intro p hp h
  apply hc
  rw [← levelPairs_snd]
  exact List.mem_map.mpr ⟨p, hp, by simpa using h⟩

/-- The signal of a node with its delay. -/
def delayed (zero : F) (sig : Nat → Nat → F) (l j t : Nat) : F := if t < 2 * l then zero else sig (t - 2 * l) j

/-- One level of the synchronised run. -/
def syncStep (e : Estimator E F A) (zero : F) (sig : Nat → Nat → F) (acs : Nat → A) (ctl : Bool) (col : N → Nat)
    (acc : N → Nat → EstOut F) (p : List (List N) × Nat) : N → Nat → EstOut F := fun c =>
  match (levelPairs p.1).find? (fun q => q.2 = c) with
  | none => acc c
  | some q => pairOut e (if ctl then 200 * p.2 else 0) (fun t => (acc q.1 t).blk) (delayed zero sig p.2 (col c)) acs

variable (e : Estimator E F A) (zero : F) (sig : Nat → Nat → F) (acs : Nat → A) (ctl : Bool) (col : N → Nat)

theorem syncStep_other (acc : N → Nat → EstOut F) (p : List (List N) × Nat) {c : N} (hc : c ∉ children p.1) :
    syncStep e zero sig acs ctl col acc p c = acc c := by
  unfold syncStep
  rw [find_none hc]

theorem syncFold_other : ∀ (r : List (List (List N) × Nat)) (acc : N → Nat → EstOut F) (c : N),
    (∀ p ∈ r, c ∉ children p.1) → r.foldl (syncStep e zero sig acs ctl col) acc c = acc c := by
  intro r
  induction r with
  | nil => intro acc c _; rfl
  | cons p r ih =>
    intro acc c hc
    rw [List.foldl_cons, ih _ c fun q hq => hc q (List.mem_cons_of_mem _ hq),
      syncStep_other e zero sig acs ctl col acc p (hc p List.mem_cons_self)]

variable {levels : List (List (List N))} {white : List N} {root : N} {early : Nat → N → Prop}

theorem syncFold_child : ∀ (r : List (List (List N))) (k : Nat) (acc : N → Nat → EstOut F),
    (r.flatMap children).Nodup →
    (∀ (l : Nat) L h t, r[l]? = some L → h :: t ∈ L → ∀ (m : Nat) L', l ≤ m → r[m]? = some L' → h ∉ children L') →
    ∀ (l : Nat) L h t c, r[l]? = some L → h :: t ∈ L → c ∈ t →
      (r.zipIdx k).foldl (syncStep e zero sig acs ctl col) acc c =
        pairOut e (if ctl then 200 * (k + l) else 0)
          (fun s => ((r.zipIdx k).foldl (syncStep e zero sig acs ctl col) acc h s).blk)
          (delayed zero sig (k + l) (col c)) acs := by
  intro r
  induction r with
  | nil => intro k acc _ _ l L h t c hl; simp at hl
  | cons L0 r ih =>
    intro k acc hn hh l L h t c hl hB hc
    have hn' := hn
    rw [List.flatMap_cons] at hn
    obtain ⟨n1, n2, n3⟩ := List.nodup_append.mp hn
    rw [List.zipIdx_cons, List.foldl_cons]
    cases l with
    | zero =>
      simp only [List.getElem?_cons_zero, Option.some.injEq] at hl
      subst hl
      rw [syncFold_other, syncFold_other, Nat.add_zero, syncStep_other e zero sig acs ctl col acc _ (c := h)]
      · conv_lhs => unfold syncStep
        rw [find_levelPairs n1 (mem_levelPairs.mpr ⟨t, hB, hc⟩)]
      · exact hh 0 L0 h t rfl hB 0 L0 le_rfl rfl
      · intro p hp
        obtain ⟨m, hm, he⟩ := List.getElem_of_mem (List.fst_mem_of_mem_zipIdx hp)
        exact hh 0 L0 h t rfl hB (m + 1) p.1 (by omega) (by rw [List.getElem?_cons_succ, List.getElem?_eq_getElem hm, he])
      · intro p hp h'
        exact n3 c (mem_children.mpr ⟨h, t, hB, hc⟩) c
          (List.mem_flatMap.mpr ⟨p.1, List.fst_mem_of_mem_zipIdx hp, h'⟩) rfl
    | succ l =>
      rw [List.getElem?_cons_succ] at hl
      have := ih (k + 1) (syncStep e zero sig acs ctl col acc (L0, k)) n2
        (fun l L h t h1 h2 m L' h3 h4 => hh (l + 1) L h t (by rw [List.getElem?_cons_succ]; exact h1) h2 (m + 1) L' (by omega)
          (by rw [List.getElem?_cons_succ]; exact h4)) l L h t c hl hB hc
      rw [this, show k + 1 + l = k + (l + 1) by omega]

/-- A reference is not synchronised in its level or later. -/
theorem TopoOk.head_before (h : TopoOk levels white root early) (he : ∀ l n, early l n → n = root) :
    ∀ (l : Nat) L x t, levels[l]? = some L → x :: t ∈ L → ∀ (m : Nat) L', l ≤ m → levels[m]? = some L' → x ∉ children L' := by
  intro l L x t hl hB m L' hm hL' hx
  have hcn := h.children_nodup
  have hroot : x ≠ root := by
    rintro rfl
    exact h.rootNever L' (List.mem_of_getElem? hL') hx
  cases l with
  | zero =>
    obtain ⟨t0, rest, rfl⟩ := h.first
    simp only [List.getElem?_cons_zero, Option.some.injEq] at hl
    subst hl
    simp only [List.mem_singleton, List.cons.injEq] at hB
    exact hroot hB.1
  | succ l =>
    have hlt : l < levels.length := by
      have := (List.getElem?_eq_some_iff.mp hl).1
      omega
    rcases h.heads l _ L (List.getElem?_eq_getElem hlt) hl x t hB with h1 | h1
    · obtain ⟨hm1, rfl⟩ := List.getElem?_eq_some_iff.mp hL'
      exact List.pairwise_iff_getElem.mp h.leafOnce l m hlt hm1 (by omega) x h1 hx
    · exact hroot (he _ _ h1)

theorem TopoOk.sync (h : TopoOk levels white root early) (he : ∀ l n, early l n → n = root) :
    ∃ out, SyncRun e zero sig acs levels root ctl col out := by
  refine ⟨levels.zipIdx.foldl (syncStep e zero sig acs ctl col) fun _ t => ⟨0, 0, sig t 0⟩, ?_, ?_⟩
  · intro t
    rw [syncFold_other]
    intro p hp
    exact h.rootNever p.1 (List.fst_mem_of_mem_zipIdx hp)
  · intro l L x B c hl hB hc
    have := syncFold_child e zero sig acs ctl col levels 0 (fun _ t => ⟨0, 0, sig t 0⟩) h.children_nodup
      (h.head_before he) l L x B c hl hB hc
    simp only [Nat.zero_add] at this
    exact this

/-! ## The online simulation -/

/-- The estimator of node `c` before frame `t`. -/
def estAt (d : N → Nat) (par : N → N) (out : N → Nat → EstOut F) (c : N) (t : Nat) : E :=
  pairState e (d c * if ctl then 100 else 0) (fun s => (out (par c) s).blk)
    (fun s => if s < d c then zero else sig (s - d c) (col c)) acs t

/-- The input buffer of node `c` before frame `t`. -/
def bufAt (d : N → Nat) (c : N) (t : Nat) : DelayBuf F :=
  ((List.range t).map fun s => sig s (col c)).foldl DelayBuf.write (DelayBuf.init zero (d c + 1))

theorem bufAt_succ (d : N → Nat) (c : N) (t : Nat) :
    (bufAt zero sig col d c t).write (sig t (col c)) = bufAt zero sig col d c (t + 1) := by
  unfold bufAt
  rw [List.range_succ, List.map_append, List.foldl_append]
  rfl

theorem bufAt_read (d : N → Nat) (c : N) (t : Nat) :
    (bufAt zero sig col d c (t + 1)).deref (bufAt zero sig col d c (t + 1)).read =
      some (if t < d c then zero else sig (t - d c) (col c)) := by
  obtain ⟨h1, h2, h3⟩ := delay_inv zero (Nat.succ_pos (d c)) ((List.range (t + 1)).map fun s => sig s (col c))
  have h4 := h3 0 (Nat.succ_pos _)
  simp only [Nat.add_zero] at h4
  unfold DelayBuf.deref DelayBuf.read bufAt
  rw [show d c + 1 = (d c).succ from rfl]
  rw [h2, h4]
  rw [List.length_map, List.length_range]
  by_cases ht : t < d c
  · rw [if_pos ht, List.getElem?_append_left (by rw [List.length_replicate]; omega), List.getElem?_replicate,
      if_pos (by omega)]
  · rw [if_neg ht, List.getElem?_append_right (by rw [List.length_replicate]; omega), List.length_replicate,
      List.getElem?_map, List.getElem?_range (by omega), show t + 1 - (d c).succ = t - d c by omega]
    rfl

/-- Invariant within frame `t`: the nodes in `done` have been processed. -/
structure OnInv (cs : List N) (d : N → Nat) (par : N → N) (out : N → Nat → EstOut F) (k : N → Nat)
    (s : OnSt E F) : Prop where
  est : s.est = cs.map fun c => estAt e zero sig acs ctl col d par out c (k c)
  buf : s.buf = cs.map fun c => bufAt zero sig col d c (k c)
  sro : ∀ c ∈ cs, ∀ i, s.out.sro i (cs.idxOf c) = if i < k c then -(out c i).sro else 0
  dsro : ∀ c ∈ cs, ∀ i, s.out.dsro i (cs.idxOf c) = if i < k c then -(out c i).dsro else 0
  ref : ∀ i, s.out.synced i 0 = sig i 0
  synced : ∀ c ∈ cs, ∀ i, s.out.synced i (cs.idxOf c + 1) =
    if 1 ≤ i ∧ i + d c + 2 < k c then (out c (i + d c + 2)).blk else zero

variable {cs : List N} {d : N → Nat} {par : N → N} {out : N → Nat → EstOut F}

/-- What the run needs to know of the topology. -/
structure OnCtx (cs : List N) (d : N → Nat) (par : N → N) (out : N → Nat → EstOut F) (root : N) : Prop where
  nd : (root :: cs).Nodup
  colEq : ∀ c ∈ cs, col c = cs.idxOf c + 1
  outEq : ∀ c ∈ cs, out c = pairOut e (d c * if ctl then 100 else 0) (fun s => (out (par c) s).blk)
    (fun s => if s < d c then zero else sig (s - d c) (col c)) acs
  rootEq : ∀ t, (out root t).blk = sig t 0

theorem idxOf_cons_mem {cs : List N} {root c : N} (hn : (root :: cs).Nodup) (hc : c ∈ cs) :
    (root :: cs).idxOf c = cs.idxOf c + 1 := by
  apply List.idxOf_cons_ne
  rintro rfl
  exact (List.nodup_cons.mp hn).1 hc

theorem idxOf_inj_mem {cs : List N} {c c' : N} (hc : c ∈ cs) (h : cs.idxOf c = cs.idxOf c') : c = c' :=
  (List.idxOf_inj hc).mp h

theorem onNode_ok {k : N → Nat} {s : OnSt E F} {lev : N → Option F} {t : Nat} {c : N}
    (hx : OnCtx e zero sig acs ctl col cs d par out root)
    (hi : OnInv e zero sig acs ctl col cs d par out k s) (hc : c ∈ cs) (hk : k c = t) :
    ∃ s', onNode e sig acs (root :: cs) (cs.map d) t ((out (par c) t).blk) (s, lev) c =
        .ok (s', fun m => if m = c then some (out c t).blk else lev m) ∧
      OnInv e zero sig acs ctl col cs d par out (Function.update k c (t + 1)) s' := by
  have hn := (List.nodup_cons.mp hx.nd).2
  have hidx := idxOf_cons_mem hx.nd hc
  have e1 : s.est[cs.idxOf c]? = some (estAt e zero sig acs ctl col d par out c t) := by
    rw [hi.est, getElem?_idxOf_map _ hc, hk]
  have e2 : s.buf[cs.idxOf c]? = some (bufAt zero sig col d c t) := by
    rw [hi.buf, getElem?_idxOf_map _ hc, hk]
  have e3 : (cs.map d)[cs.idxOf c]? = some (d c) := getElem?_idxOf_map _ hc
  have hstep : e.step (estAt e zero sig acs ctl col d par out c t) ((out (par c) t).blk)
      (if t < d c then zero else sig (t - d c) (col c)) (acs t) =
        (estAt e zero sig acs ctl col d par out c (t + 1), out c t) := by
    have := hx.outEq c hc
    apply Prod.ext
    · rfl
    · conv_rhs => rw [this]
      rfl
  unfold onNode
  simp only
  rw [hidx, Nat.add_sub_cancel, e1, e2, e3]
  simp only
  rw [← hx.colEq c hc, bufAt_succ, bufAt_read]
  simp only
  rw [hstep]
  refine ⟨_, rfl, ?_, ?_, ?_, ?_, ?_, ?_⟩
  · simp only
    rw [hi.est, map_set_idxOf hn _ hc]
    refine List.map_congr_left fun m _ => ?_
    by_cases hm : m = c
    · subst hm; rw [Function.update_self, Function.update_self]
    · rw [Function.update_of_ne hm, Function.update_of_ne hm]
  · simp only
    rw [hi.buf, map_set_idxOf hn _ hc]
    refine List.map_congr_left fun m _ => ?_
    by_cases hm : m = c
    · subst hm; rw [Function.update_self, Function.update_self]
    · rw [Function.update_of_ne hm, Function.update_of_ne hm]
  · intro m hm i
    simp only [setAt]
    by_cases hmc : m = c
    · subst hmc
      rw [Function.update_self]
      by_cases hit : i = t
      · subst hit
        rw [if_pos ⟨rfl, rfl⟩, if_pos (by omega)]
      · rw [if_neg (by tauto), hi.sro m hm i, hk]
        by_cases h1 : i < t
        · rw [if_pos h1, if_pos (by omega)]
        · rw [if_neg h1, if_neg (by omega)]
    · rw [Function.update_of_ne hmc, if_neg, hi.sro m hm i]
      rintro ⟨_, h⟩
      exact hmc (idxOf_inj_mem hm h)
  · intro m hm i
    simp only [setAt]
    by_cases hmc : m = c
    · subst hmc
      rw [Function.update_self]
      by_cases hit : i = t
      · subst hit
        rw [if_pos ⟨rfl, rfl⟩, if_pos (by omega)]
      · rw [if_neg (by tauto), hi.dsro m hm i, hk]
        by_cases h1 : i < t
        · rw [if_pos h1, if_pos (by omega)]
        · rw [if_neg h1, if_neg (by omega)]
    · rw [Function.update_of_ne hmc, if_neg, hi.dsro m hm i]
      rintro ⟨_, h⟩
      exact hmc (idxOf_inj_mem hm h)
  · intro i
    simp only
    rw [hx.colEq c hc]
    split
    · simp only [setAt]
      rw [if_neg (by omega), hi.ref]
    · exact hi.ref i
  · intro m hm i
    simp only
    rw [hx.colEq c hc]
    by_cases hmc : m = c
    · subst hmc
      rw [Function.update_self]
      by_cases htd : t > d m + 2
      · rw [if_pos htd]
        simp only [setAt]
        by_cases hit : i = t - (d m + 2)
        · subst hit
          rw [if_pos (by simp), if_pos (by omega), show t - (d m + 2) + d m + 2 = t by omega]
        · rw [if_neg (by tauto), hi.synced m hm i, hk]
          by_cases h1 : 1 ≤ i ∧ i + d m + 2 < t
          · rw [if_pos h1, if_pos (by omega)]
          · rw [if_neg h1, if_neg (by omega)]
      · rw [if_neg htd, hi.synced m hm i, hk, if_neg (by omega), if_neg (by omega)]
    · rw [Function.update_of_ne hmc]
      split
      · simp only [setAt]
        rw [if_neg, hi.synced m hm i]
        rintro ⟨_, h⟩
        exact hmc (idxOf_inj_mem hm (by omega))
      · exact hi.synced m hm i

theorem OnInv.congr {k k' : N → Nat} {s : OnSt E F} (h : OnInv e zero sig acs ctl col cs d par out k s)
    (hk : ∀ c ∈ cs, k c = k' c) : OnInv e zero sig acs ctl col cs d par out k' s where
  est := by rw [h.est]; exact List.map_congr_left fun c hc => by rw [hk c hc]
  buf := by rw [h.buf]; exact List.map_congr_left fun c hc => by rw [hk c hc]
  sro := fun c hc i => by rw [← hk c hc]; exact h.sro c hc i
  dsro := fun c hc i => by rw [← hk c hc]; exact h.dsro c hc i
  ref := h.ref
  synced := fun c hc i => by rw [← hk c hc]; exact h.synced c hc i

theorem onTail_ok (hx : OnCtx e zero sig acs ctl col cs d par out root) {t : Nat} {h : N} : ∀ (ts : List N)
    (k : N → Nat) (s : OnSt E F) (lev : N → Option F), ts.Nodup → (∀ c ∈ ts, c ∈ cs ∧ par c = h ∧ k c = t) →
    OnInv e zero sig acs ctl col cs d par out k s →
    ∃ s' k' lev', ts.foldlM (onNode e sig acs (root :: cs) (cs.map d) t ((out h t).blk)) (s, lev) = .ok (s', lev') ∧
      OnInv e zero sig acs ctl col cs d par out k' s' ∧ (∀ c, k' c = if c ∈ ts then t + 1 else k c) ∧
      ∀ m, lev' m = if m ∈ ts then some (out m t).blk else lev m := by
  intro ts
  induction ts with
  | nil => intro k s lev _ _ hi; exact ⟨s, k, lev, rfl, hi, by simp, by simp⟩
  | cons c ts ih =>
    intro k s lev hn hc hi
    obtain ⟨n1, n2⟩ := List.nodup_cons.mp hn
    obtain ⟨c1, c2, c3⟩ := hc c List.mem_cons_self
    obtain ⟨s1, h1, h2⟩ := onNode_ok e zero sig acs ctl col (lev := lev) hx hi c1 c3
    obtain ⟨s', k', lev', h3, h4, h5, h6⟩ := ih (Function.update k c (t + 1)) s1
      (fun m => if m = c then some (out c t).blk else lev m) n2 (by
        intro c' hc'
        obtain ⟨a, b, b'⟩ := hc c' (List.mem_cons_of_mem _ hc')
        refine ⟨a, b, ?_⟩
        rw [Function.update_of_ne, b']
        rintro rfl
        exact n1 hc') h2
    refine ⟨s', k', lev', ?_, h4, ?_, ?_⟩
    · rw [c2] at h1
      rw [List.foldlM_cons, h1]
      exact h3
    · intro m
      rw [h5 m]
      by_cases hm : m ∈ ts
      · rw [if_pos hm, if_pos (List.mem_cons_of_mem _ hm)]
      · rw [if_neg hm]
        by_cases hmc : m = c
        · subst hmc; rw [Function.update_self, if_pos List.mem_cons_self]
        · rw [Function.update_of_ne hmc, if_neg (by simp [hm, hmc])]
    · intro m
      rw [h6 m]
      by_cases hm : m ∈ ts
      · rw [if_pos hm, if_pos (List.mem_cons_of_mem _ hm)]
      · rw [if_neg hm]
        by_cases hmc : m = c
        · subst hmc; rw [if_pos rfl, if_pos List.mem_cons_self]
        · rw [if_neg hmc, if_neg (by simp [hm, hmc])]

theorem onBranches_ok (hx : OnCtx e zero sig acs ctl col cs d par out root) {t : Nat} {prev : N → Option F} :
    ∀ (L : List (List N)) (k : N → Nat) (s : OnSt E F) (lev : N → Option F), (children L).Nodup → (∀ B ∈ L, B ≠ []) →
    (∀ h ts, h :: ts ∈ L → prev h = some (out h t).blk ∧ ∀ c ∈ ts, c ∈ cs ∧ par c = h ∧ k c = t) →
    OnInv e zero sig acs ctl col cs d par out k s →
    ∃ s' k' lev', L.foldlM (onBranch e sig acs (root :: cs) (cs.map d) t prev) (s, lev) = .ok (s', lev') ∧
      OnInv e zero sig acs ctl col cs d par out k' s' ∧ (∀ c, k' c = if c ∈ children L then t + 1 else k c) ∧
      ∀ m, lev' m = if m ∈ children L then some (out m t).blk else lev m := by
  intro L
  induction L with
  | nil => intro k s lev _ _ _ hi; exact ⟨s, k, lev, rfl, hi, by simp [children], by simp [children]⟩
  | cons B L ih =>
    intro k s lev hn hne hB hi
    cases B with
    | nil => exact absurd rfl (hne [] List.mem_cons_self)
    | cons h ts =>
      have hcc : children ((h :: ts) :: L) = ts ++ children L := by simp [children]
      rw [hcc] at hn ⊢
      obtain ⟨n1, n2, n3⟩ := List.nodup_append.mp hn
      obtain ⟨p1, p2⟩ := hB h ts List.mem_cons_self
      obtain ⟨s1, k1, lev1, h1, h2, h3, h4⟩ := onTail_ok e zero sig acs ctl col hx ts k s lev n1 p2 hi
      obtain ⟨s', k', lev', g1, g2, g3, g4⟩ := ih k1 s1 lev1 n2 (fun B hB => hne B (List.mem_cons_of_mem _ hB)) (by
        intro h' ts' hB'
        obtain ⟨q1, q2⟩ := hB h' ts' (List.mem_cons_of_mem _ hB')
        refine ⟨q1, fun c hc => ?_⟩
        obtain ⟨a, b, b'⟩ := q2 c hc
        refine ⟨a, b, ?_⟩
        rw [h3 c, if_neg, b']
        intro hct
        exact n3 c hct c (mem_children.mpr ⟨h', ts', hB', hc⟩) rfl) h2
      refine ⟨s', k', lev', ?_, g2, ?_, ?_⟩
      · have e0 : onBranch e sig acs (root :: cs) (cs.map d) t prev (s, lev) (h :: ts) = .ok (s1, lev1) := by
          unfold onBranch
          simp only [p1]
          exact h1
        rw [List.foldlM_cons, e0]
        exact g1
      · intro m
        rw [g3 m, h3 m]
        by_cases hm : m ∈ children L
        · rw [if_pos hm, if_pos (List.mem_append_right _ hm)]
        · rw [if_neg hm]; simp [hm]
      · intro m
        rw [g4 m, h4 m]
        by_cases hm : m ∈ children L
        · rw [if_pos hm, if_pos (List.mem_append_right _ hm)]
        · rw [if_neg hm]; simp [hm]

theorem onLevels_ok (hx : OnCtx e zero sig acs ctl col cs d par out root) {t : Nat} :
    ∀ (r : List (List (List N))) (k : N → Nat) (s : OnSt E F) (prev : N → Option F),
    (r.flatMap children).Nodup → (∀ L ∈ r, ∀ B ∈ L, B ≠ []) →
    (∀ L ∈ r, ∀ h ts, h :: ts ∈ L → ∀ c ∈ ts, c ∈ cs ∧ par c = h ∧ k c = t) →
    (∀ L ∈ r.head?, ∀ h ts, h :: ts ∈ L → prev h = some (out h t).blk) →
    (∀ (l : Nat) L L', r[l]? = some L → r[l + 1]? = some L' → ∀ h ts, h :: ts ∈ L' → h ∈ children L) →
    OnInv e zero sig acs ctl col cs d par out k s →
    ∃ s' k' prev', r.foldlM (onLevel e sig acs (root :: cs) (cs.map d) t) (s, prev) = .ok (s', prev') ∧
      OnInv e zero sig acs ctl col cs d par out k' s' ∧
      ∀ c, k' c = if c ∈ r.flatMap children then t + 1 else k c := by
  intro r
  induction r with
  | nil => intro k s prev _ _ _ _ _ hi; exact ⟨s, k, prev, rfl, hi, by simp⟩
  | cons L r ih =>
    intro k s prev hn hne hB hp hh hi
    rw [List.flatMap_cons] at hn
    obtain ⟨n1, n2, n3⟩ := List.nodup_append.mp hn
    obtain ⟨s1, k1, lev1, h1, h2, h3, h4⟩ := onBranches_ok e zero sig acs ctl col hx L k s (fun _ => none) n1
      (hne L List.mem_cons_self) (fun h ts hm => ⟨hp L rfl h ts hm, hB L List.mem_cons_self h ts hm⟩) hi
    obtain ⟨s', k', prev', g1, g2, g3⟩ := ih k1 s1 lev1 n2 (fun L hL => hne L (List.mem_cons_of_mem _ hL)) (by
        intro L' hL' h ts hm c hc
        obtain ⟨a, b, b'⟩ := hB L' (List.mem_cons_of_mem _ hL') h ts hm c hc
        refine ⟨a, b, ?_⟩
        rw [h3 c, if_neg, b']
        intro hcL
        exact n3 c hcL c (List.mem_flatMap.mpr ⟨L', hL', mem_children.mpr ⟨h, ts, hm, hc⟩⟩) rfl) (by
        intro L' hL' h ts hm
        rw [Option.mem_def, List.head?_eq_getElem?] at hL'
        rw [h4 h, if_pos (hh 0 L L' rfl hL' h ts hm)]) (fun l L1 L2 e1 e2 => hh (l + 1) L1 L2 e1 e2) h2
    refine ⟨s', k', prev', ?_, g2, ?_⟩
    · have e0 : onLevel e sig acs (root :: cs) (cs.map d) t (s, prev) L = .ok (s1, lev1) := h1
      rw [List.foldlM_cons, e0]
      exact g1
    · intro m
      rw [g3 m, h3 m, List.flatMap_cons]
      by_cases hm : m ∈ r.flatMap children
      · rw [if_pos hm, if_pos (List.mem_append_right _ hm)]
      · rw [if_neg hm]
        by_cases hm' : m ∈ children L
        · rw [if_pos hm', if_pos (List.mem_append_left _ hm')]
        · rw [if_neg hm', if_neg]
          intro h
          rcases List.mem_append.mp h with h | h
          · exact hm' h
          · exact hm h

theorem onFrames_ok (hx : OnCtx e zero sig acs ctl col cs d par out root) (hT : ProperTopo levels white root)
    (hcs : cs = levels.flatMap children)
    (hpar : ∀ L ∈ levels, ∀ h ts, h :: ts ∈ L → ∀ c ∈ ts, par c = h) : ∀ (n t : Nat) (s : OnSt E F),
    OnInv e zero sig acs ctl col cs d par out (fun _ => t) s →
    ∃ s', (List.range' t n).foldlM (onFrame e sig acs levels (root :: cs) (cs.map d)) s = .ok s' ∧
      OnInv e zero sig acs ctl col cs d par out (fun _ => t + n) s' := by
  intro n
  induction n with
  | zero => intro t s hi; exact ⟨s, rfl, hi⟩
  | succ n ih =>
    intro t s hi
    obtain ⟨s1, k1, prev1, h1, h2, h3⟩ := onLevels_ok e zero sig acs ctl col hx (t := t) levels (fun _ => t) s
      (fun m => if m = root then some (sig t 0) else none) hT.children_nodup
      (fun L hL B hB h => by
        have := hT.two L hL B hB
        rw [h] at this
        simp at this)
      (fun L hL h ts hm c hc => ⟨by
        rw [hcs]
        exact List.mem_flatMap.mpr ⟨L, hL, mem_children.mpr ⟨h, ts, hm, hc⟩⟩, hpar L hL h ts hm c hc, rfl⟩)
      (by
        obtain ⟨t0, rest, rfl⟩ := hT.first
        simp only [List.head?_cons, Option.mem_some_iff, forall_eq', List.mem_singleton, List.cons.injEq]
        rintro h ts ⟨rfl, _⟩
        rw [if_pos rfl, hx.rootEq])
      (fun l L L' e1 e2 h ts hm => (hT.heads l L L' e1 e2 h ts hm).resolve_right id) hi
    have h2' : OnInv e zero sig acs ctl col cs d par out (fun _ => t + 1) s1 :=
      h2.congr e zero sig acs ctl col fun c hc => by rw [h3 c, if_pos (hcs ▸ hc)]
    obtain ⟨s', g1, g2⟩ := ih (t + 1) s1 h2'
    refine ⟨s', ?_, ?_⟩
    · have e0 : onFrame e sig acs levels (root :: cs) (cs.map d) s t = .ok s1 := by
        unfold onFrame
        rw [List.head?_cons]
        simp only
        rw [h1]
        rfl
      rw [List.range'_succ, List.foldlM_cons, e0]
      exact g1
    · rw [show t + (n + 1) = t + 1 + n by omega]
      exact g2

/-- The reference of a node. -/
def refOf (levels : List (List (List N))) (root c : N) : N :=
  (((levels.flatMap levelPairs).find? (fun p => p.2 = c)).map (·.1)).getD root

theorem TopoOk.refOf_eq (h : TopoOk levels white root early) {L : List (List N)} (hL : L ∈ levels) {x c : N}
    {t : List N} (hB : x :: t ∈ L) (hc : c ∈ t) : refOf levels root c = x := by
  have hn := h.children_nodup
  have hm : (x, c) ∈ levels.flatMap levelPairs := List.mem_flatMap.mpr ⟨L, hL, mem_levelPairs.mpr ⟨t, hB, hc⟩⟩
  have e1 : (levels.flatMap levelPairs).map (·.2) = levels.flatMap children := by
    rw [List.map_flatMap]
    congr 1
    funext L
    exact levelPairs_snd L
  unfold refOf
  rw [← e1] at hn
  generalize levels.flatMap levelPairs = ps at hn hm
  have : ps.find? (fun p => p.2 = c) = some (x, c) := by
    induction ps with
    | nil => simp at hm
    | cons p ps ih =>
      rw [List.map_cons, List.nodup_cons] at hn
      rcases List.mem_cons.mp hm with hm | hm
      · subst hm
        simp
      · have : p.2 ≠ c := by
          intro e
          exact hn.1 (List.mem_map.mpr ⟨_, hm, e.symm⟩)
        rw [List.find?_cons, decide_eq_false this]
        exact ih hn.2 hm
  rw [this]
  rfl

end Danse
