import Verif.Spec.Events
import Verif.Proofs.Events4
import Mathlib.Order.Nat
import Mathlib.Order.Lattice

/-!
# Properties C01-C06: the event schedule of a DANSE run

`buildEvents` models `build_events_matrix` (d_base.py 962-1225). The vocabulary of the
statements (`Scheduled`, `delivered`, `performed`, `frameInstants`, ...) is in
`Verif/Spec/Events.lean`.
-/

set_option linter.unusedSectionVars false

namespace Danse
section
variable {τ : Type} [LinearOrder τ]

deriving instance DecidableEq for Instant
deriving instance DecidableEq for Except

/-- C01 (a): the schedule is always produced when the lists of instants cover all nodes (or are
absent) and, for tree networks, there is an ordering for each tree formed. -/
theorem C01_schedule_produced (a : EvArgs τ)
    (hbc : a.bc_t = [] ∨ a.up_t.length ≤ a.bc_t.length)
    (hre : a.tiFlag = true → a.re_t = [] ∨ a.up_t.length ≤ a.re_t.length)
    (htr : a.tiFlag = true → a.tr_t = [] ∨ a.up_t.length ≤ a.tr_t.length)
    (hne : a.tiFlag = true → a.orderings ≠ [])
    (hlen : a.tiFlag = true → a.tr_t.flatten.dedup.length ≤ a.orderings.length) :
    ∃ out, buildEvents a = .ok out := by
  obtain ⟨rows, hr⟩ := flatRows_total hbc hre htr
  obtain ⟨out, ho⟩ := processRows_total hr (List.mergeSort_perm rows _) (rowsSort_sorted rows)
    hne hlen
  exact ⟨out, by unfold buildEvents; rw [hr]; exact ho⟩

/-- C01 (b): strictly increasing times, no empty instant, every scheduled (time, node, type)
delivered exactly once and nothing else. -/
theorem C01_exactly_once {a : EvArgs τ} {out : List (Instant τ)} (h : buildEvents a = .ok out)
    (hcov : a.tiFlag = true → ∀ o ∈ a.orderings, CoversNodes a.up_t.length o) :
    (out.map (·.t)).Pairwise (· < ·) ∧ (∀ i ∈ out, i.evs ≠ []) ∧ (delivered out).Nodup ∧
    ∀ t k ty, (t, k, ty) ∈ delivered out ↔ Scheduled a a.tiFlag t k ty := by
  unfold buildEvents at h
  obtain ⟨rows, hr, hp⟩ := Except.bind_ok h
  exact processRows_spec hr (List.mergeSort_perm rows _) (rowsSort_sorted rows) hcov hp

/-- C01 (c): whatever way the (unstable) time sort breaks ties, the schedule is the same:
processing any time-sorted permutation of the event rows gives the result of
`buildEvents`. -/
theorem C01_tie_break_independent {a : EvArgs τ} {rows sorted : List (Ev τ)}
    (hr : flatRows a = .ok rows) (hp : sorted.Perm rows)
    (hs : sorted.Pairwise (fun x y => x.t ≤ y.t)) :
    processRows a sorted = buildEvents a := by
  have hb : buildEvents a = processRows a (rows.mergeSort (fun x y => decide (x.t ≤ y.t))) := by
    unfold buildEvents; rw [hr]; rfl
  rw [hb]
  exact processRows_perm (hp.trans (List.mergeSort_perm rows _).symm)
    (hp.nodup_iff.mpr (flatRows_spec hr).1) hs (rowsSort_sorted rows)

/-- C02: fully connected networks: inside an instant, broadcasts precede updates, and events of
the same type are in strictly increasing node order. -/
theorem C02_broadcasts_before_updates {a : EvArgs τ} {out : List (Instant τ)}
    (h : buildEvents a = .ok out) (hfc : a.tiFlag = false) {i : Instant τ} (hi : i ∈ out) :
    (∀ e ∈ i.evs, e.ty = .bc ∨ e.ty = .up) ∧
    i.evs.Pairwise (fun x y =>
      (x.ty = .bc ∧ y.ty = .up) ∨ (x.ty = y.ty ∧ x.node < y.node)) := by
  have hcov : a.tiFlag = true → ∀ o ∈ a.orderings, CoversNodes a.up_t.length o := by
    intro h; rw [hfc] at h; cases h
  have hty : ∀ e ∈ i.evs, e.ty = .bc ∨ e.ty = .up := by
    intro e he
    have hd := ((C01_exactly_once h hcov).2.2.2 i.t e.node e.ty).mp (by
      unfold delivered
      exact List.mem_flatMap.mpr ⟨i, hi, List.mem_map.mpr ⟨e, he, rfl⟩⟩)
    rw [hfc] at hd
    unfold Scheduled at hd
    cases ht : e.ty <;> simp [ht] at hd ⊢
  refine ⟨hty, ?_⟩
  obtain ⟨evss, hout, hall⟩ := buildEvents_run h hcov
  rw [hout] at hi
  obtain ⟨e, he, b', rfl⟩ := mem_runBypass hi
  obtain ⟨h1, h2, order, evs, h3, h6, h4, h5, _⟩ := hall e he
  have hp : (bypassStep ⟨a.up_t.length, a.seq, a.minFrames⟩ b' e.2).1.Pairwise (fun x y =>
      evRank x.ty < evRank y.ty ∨ (x.ty = y.ty ∧ x.node < y.node)) := by
    apply pairwise_bypassStep
    · intro x y x' y' e1 e2 e3 e4 hr
      rw [← e1, ← e2, ← e3, ← e4]; exact hr
    · simp only
      rw [h6, hfc]
      exact sortSimultaneous_fc_order h4 h5 _
  refine hp.imp_of_mem ?_
  intro x y hx hy hr
  rcases hr with hr | hr
  · rcases hty x hx with hx | hx <;> rcases hty y hy with hy | hy <;> simp_all [evRank]
  · exact .inr hr

/-- C03: tree networks: inside an instant the events respect the data dependencies of the tree
currently in force: the one formed last, i.e. with index (number of distinct tree-formation
instants so far) - 1. -/
theorem C03_tree_dependencies {a : EvArgs τ} {out : List (Instant τ)}
    (h : buildEvents a = .ok out) (hti : a.tiFlag = true)
    (hcov : ∀ o ∈ a.orderings, CoversNodes a.up_t.length o) {i : Instant τ} (hi : i ∈ out) :
    ∃ order, pyGet a.orderings ((treesFormedUpTo a i.t : Int) - 1) = .ok order ∧
      i.evs.Pairwise (TreeOrder order) := by
  obtain ⟨evss, hout, hall⟩ := buildEvents_run h (fun _ => hcov)
  rw [hout] at hi
  obtain ⟨e, he, b', rfl⟩ := mem_runBypass hi
  obtain ⟨h1, h2, order, evs, h3, h6, h4, h5, _⟩ := hall e he
  refine ⟨order, (h3 hti).1, ?_⟩
  apply pairwise_bypassStep
  · intro x y x' y' e1 e2 e3 e4 hr
    unfold TreeOrder at *
    rw [← e1, ← e2, ← e3, ← e4]; exact hr
  · rw [h6, hti]
    exact sortSimultaneous_ti_order h4 h5 (h3 hti).2.1

/-- C04 (a): with sequential updating, the instant following a prefix `pre` of the run performs
exactly the update of the node whose turn it is, `first + (number of updates performed so far)`
modulo the number of nodes, provided that node has an update event there and the minimum
spacing is respected; otherwise it performs no update. -/
theorem C04_turn_taken {a : EvArgs τ} {pre post : List (Instant τ)} {i : Instant τ}
    (h : buildEvents a = .ok (pre ++ i :: post)) (hseq : a.seq = true)
    (hcov : a.tiFlag = true → ∀ o ∈ a.orderings, CoversNodes a.up_t.length o) {k : Nat}
    (hk : (k : Int) = (a.firstUpdatingNode + (performed pre).length) % (a.up_t.length : Int)) :
    performedAt i =
      if a.minFrames ≤ (framesSinceUpdate pre : Int) + 1 ∧
        (∃ e ∈ i.evs, e.ty = .up ∧ e.node = k)
      then [k] else [] := by
  obtain ⟨evss, hout, hall⟩ := buildEvents_run h hcov
  obtain ⟨l1, g, l2, hsplit, hpre, hi⟩ := runBypass_split hout.symm
  have hg := hall g (by rw [hsplit]; simp)
  by_cases hn : a.up_t.length = 0
  · have : i.evs = [] := by
      have h2 := hg.2.1
      rw [hn] at h2
      have hge : g.2 = [] := List.eq_nil_iff_forall_not_mem.mpr (fun x hx => by
        have := h2 x hx; omega)
      rw [hi, hge]; rfl
    exact absurd this ((C01_exactly_once h hcov).2.1 i (by simp))
  have hpos : 0 < (⟨a.up_t.length, a.seq, a.minFrames⟩ : BypassCfg).nNodes := by
    simp only; omega
  have hlast := stateAfter_last ⟨a.up_t.length, a.seq, a.minFrames⟩ a.firstUpdatingNode l1 hseq
    hpos (fun g hg => (hall g (by rw [hsplit]; simp [hg])).1)
  rw [← hpre] at hlast
  have hp := performedAt_seq ⟨a.up_t.length, a.seq, a.minFrames⟩
    (stateAfter ⟨a.up_t.length, a.seq, a.minFrames⟩ ⟨a.firstUpdatingNode - 1, 0⟩ l1) g.1 hseq
    hg.1 (k := k) (hk.trans hlast.symm)
  rw [← hi] at hp
  rw [hp, stateAfter_nFrames, ← hpre]
  have hiff : (∃ e ∈ g.2, e.ty = EvType.up ∧ e.node = k) ↔
      (∃ e ∈ i.evs, e.ty = EvType.up ∧ e.node = k) := by
    have hkeys := bypassStep_keys (⟨a.up_t.length, a.seq, a.minFrames⟩ : BypassCfg)
      (stateAfter ⟨a.up_t.length, a.seq, a.minFrames⟩ ⟨a.firstUpdatingNode - 1, 0⟩ l1) g.2
    have hevs : i.evs = (bypassStep (⟨a.up_t.length, a.seq, a.minFrames⟩ : BypassCfg)
      (stateAfter ⟨a.up_t.length, a.seq, a.minFrames⟩ ⟨a.firstUpdatingNode - 1, 0⟩ l1) g.2).1 := by
      rw [hi]
    rw [← hevs] at hkeys
    have e1 : (∃ e ∈ g.2, e.ty = EvType.up ∧ e.node = k) ↔
        (k, EvType.up) ∈ g.2.map (fun e => (e.node, e.ty)) := by
      simp only [List.mem_map, Prod.mk.injEq]
      exact ⟨fun ⟨e, he, h1, h2⟩ => ⟨e, he, h2, h1⟩, fun ⟨e, he, h2, h1⟩ => ⟨e, he, h1, h2⟩⟩
    have e2 : (∃ e ∈ i.evs, e.ty = EvType.up ∧ e.node = k) ↔
        (k, EvType.up) ∈ i.evs.map (fun e => (e.node, e.ty)) := by
      simp only [List.mem_map, Prod.mk.injEq]
      exact ⟨fun ⟨e, he, h1, h2⟩ => ⟨e, he, h2, h1⟩, fun ⟨e, he, h2, h1⟩ => ⟨e, he, h1, h2⟩⟩
    rw [e1, e2, hkeys]
  by_cases hc : a.minFrames ≤ (framesSinceUpdate pre : Int) + 1 ∧
      (∃ e ∈ i.evs, e.ty = .up ∧ e.node = k)
  · rw [if_pos hc, if_pos ⟨hc.1, hiff.mpr hc.2⟩]
  · rw [if_neg hc, if_neg (fun hc' => hc ⟨hc'.1, hiff.mp hc'.2⟩)]

/-- C04 (b): with sequential updating, at most one node updates per instant, and the nodes that
update, read along the run, are `first`, `first+1`, `first+2`, ... modulo the number of
nodes. -/
theorem C04_round_robin {a : EvArgs τ} {out : List (Instant τ)} (h : buildEvents a = .ok out)
    (hseq : a.seq = true)
    (hcov : a.tiFlag = true → ∀ o ∈ a.orderings, CoversNodes a.up_t.length o) :
    (∀ i ∈ out, (performedAt i).length ≤ 1) ∧
    ∀ j k : Nat, (performed out)[j]? = some k →
      (k : Int) = (a.firstUpdatingNode + j) % (a.up_t.length : Int) := by
  have key : ∀ n pre post, out = pre ++ post → pre.length = n →
      (∀ i ∈ pre, (performedAt i).length ≤ 1) ∧
      ∀ j k : Nat, (performed pre)[j]? = some k →
        (k : Int) = (a.firstUpdatingNode + j) % (a.up_t.length : Int) := by
    intro n
    induction n with
    | zero =>
      intro pre post _ hl
      rw [List.length_eq_zero_iff.mp hl]
      simp [performed]
    | succ n ih =>
      intro pre post hs hl
      have hne : pre ≠ [] := by rintro rfl; simp at hl
      obtain ⟨p, i, rfl⟩ : ∃ p i, pre = p ++ [i] :=
        ⟨pre.dropLast, pre.getLast hne, (List.dropLast_append_getLast hne).symm⟩
      have hs' : out = p ++ i :: post := by rw [hs]; simp
      obtain ⟨ih1, ih2⟩ := ih p (i :: post) hs' (by simpa using hl)
      have hn : 0 < a.up_t.length := by
        have h2 := (C01_exactly_once h hcov).2.1 i (by rw [hs']; simp)
        obtain ⟨e, he⟩ := List.exists_mem_of_ne_nil _ h2
        have := ((C01_exactly_once h hcov).2.2.2 i.t e.node e.ty).mp (by
          unfold delivered
          exact List.mem_flatMap.mpr ⟨i, by rw [hs']; simp, List.mem_map.mpr ⟨e, he, rfl⟩⟩)
        have := this.1
        omega
      obtain ⟨k0, hk0⟩ := Int.eq_ofNat_of_zero_le (Int.emod_nonneg
        (a.firstUpdatingNode + (performed p).length) (b := (a.up_t.length : Int)) (by omega))
      have ht := C04_turn_taken (hs' ▸ h) hseq hcov hk0.symm
      have hcases : performedAt i = [k0] ∨ performedAt i = [] := by
        rw [ht]; split <;> simp
      constructor
      · intro x hx
        rcases List.mem_append.mp hx with hx | hx
        · exact ih1 x hx
        · rw [List.mem_singleton.mp hx]
          rcases hcases with hc | hc <;> rw [hc] <;> simp
      · intro j k hj
        have happ : performed (p ++ [i]) = performed p ++ performedAt i := by
          simp [performed]
        rw [happ] at hj
        by_cases hlt : j < (performed p).length
        · rw [List.getElem?_append_left hlt] at hj
          exact ih2 j k hj
        · rw [List.getElem?_append_right (by omega)] at hj
          rcases hcases with hc | hc
          · rw [hc] at hj
            have h0 : j - (performed p).length = 0 := by
              by_contra h0
              rw [List.getElem?_eq_none (by simp; omega)] at hj
              cases hj
            rw [h0] at hj
            simp only [List.getElem?_cons_zero, Option.some.injEq] at hj
            rw [← hj, show j = (performed p).length by omega]
            exact hk0.symm
          · rw [hc] at hj; simp at hj
  exact key out.length out [] (by simp) rfl

/-- C05: minimum spacing. Number the frame instants of the run `0, 1, 2, ...`. If updates are
performed at frame instants `i < j` then `j - i ≥ minFrames`; the first performed update is not
before the `minFrames`-th frame instant. -/
theorem C05_minimum_spacing {a : EvArgs τ} {out : List (Instant τ)} (h : buildEvents a = .ok out)
    (hcov : a.tiFlag = true → ∀ o ∈ a.orderings, CoversNodes a.up_t.length o)
    {j : Nat} {y : Instant τ} (hj : (frameInstants out)[j]? = some y)
    (hy : performedAt y ≠ []) :
    a.minFrames ≤ (j : Int) + 1 ∧
    ∀ i x, i < j → (frameInstants out)[i]? = some x → performedAt x ≠ [] →
      a.minFrames ≤ (j : Int) - i := by
  obtain ⟨pre, post, hs, hpre⟩ := frameInstants_split hj
  have hsp : a.minFrames ≤ (framesSinceUpdate pre : Int) + 1 :=
    spacing_at_split (hs ▸ h) hcov hy
  have hle : framesSinceUpdate pre ≤ j := by
    unfold framesSinceUpdate
    have h1 := (List.takeWhile_prefix (fun i : Instant τ => (performedAt i).isEmpty)
      (l := (frameInstants pre).reverse)).length_le
    rw [hpre] at h1 ⊢
    simp only [List.length_reverse, List.length_take] at h1
    omega
  refine ⟨by omega, ?_⟩
  intro i x hij hi hx
  have hle2 : framesSinceUpdate pre + i + 1 ≤ j := by
    unfold framesSinceUpdate
    rw [hpre]
    exact takeWhile_reverse_take_le hij hi (by simpa using hx)
      (by obtain ⟨hlt, _⟩ := List.getElem?_eq_some_iff.mp hj; omega)
  omega

/-- C06: simultaneous or asynchronous updating. Only update events can be bypassed, and the
updates of the `j`-th frame instant (counting from 0) are all performed if `max minFrames 1`
divides `j+1` and all bypassed otherwise. In particular (`minFrames ≤ 1`) none is ever
bypassed. -/
theorem C06_no_silent_skip {a : EvArgs τ} {out : List (Instant τ)} (h : buildEvents a = .ok out)
    (hcov : a.tiFlag = true → ∀ o ∈ a.orderings, CoversNodes a.up_t.length o)
    (hseq : a.seq = false) :
    (∀ i ∈ out, ∀ e ∈ i.evs, e.ty ≠ .up → e.bypass = false) ∧
    ∀ (j : Nat) (i : Instant τ), (frameInstants out)[j]? = some i → ∀ e ∈ i.evs, e.ty = .up →
      (e.bypass = false ↔ max a.minFrames 1 ∣ (j : Int) + 1) := by
  constructor
  · intro i hi e he hty
    obtain ⟨evss, hout, _⟩ := buildEvents_run h hcov
    rw [hout] at hi
    obtain ⟨g, _, b', rfl⟩ := mem_runBypass hi
    exact bypassStep_nonUp he hty
  · intro j i hj e he hty
    obtain ⟨pre, post, hs, hpre⟩ := frameInstants_split hj
    obtain ⟨evss, hout, hall⟩ := buildEvents_run (hs ▸ h) hcov
    obtain ⟨l1, g, l2, hsplit, hpre', hi⟩ := runBypass_split hout.symm
    have hfs := framesSince_mod ⟨a.up_t.length, a.seq, a.minFrames⟩ hseq
      (a.firstUpdatingNode - 1) l1
    rw [← hpre', hpre] at hfs
    have hlen : ((frameInstants out).take j).length = j := by
      obtain ⟨hlt, _⟩ := List.getElem?_eq_some_iff.mp hj
      simp only [List.length_take]; omega
    rw [hlen] at hfs
    rw [hi] at he
    rw [bypassStep_nonseq _ hseq _ he hty, stateAfter_nFrames, ← hpre', hfs]
    simp only
    have hm : 0 < max a.minFrames 1 := by omega
    have h1 := Int.emod_nonneg (j : Int) (show max a.minFrames 1 ≠ 0 by omega)
    have h2 := Int.emod_lt_of_pos (j : Int) hm
    constructor
    · intro hle
      have h3 : (j : Int) % max a.minFrames 1 = max a.minFrames 1 - 1 := by omega
      refine Int.dvd_of_emod_eq_zero ?_
      rw [Int.add_emod, h3]
      by_cases h4 : max a.minFrames 1 = 1
      · rw [h4]; simp
      · rw [Int.emod_eq_of_lt (by omega : (0 : Int) ≤ 1) (by omega)]
        simp
    · intro hd
      by_contra hlt
      have h3 : (j : Int) % max a.minFrames 1 + 1 < max a.minFrames 1 := by omega
      have h4 := Int.emod_eq_zero_of_dvd hd
      rw [Int.add_emod, Int.emod_eq_of_lt (by omega : (0 : Int) ≤ 1) (by omega),
        Int.emod_eq_of_lt (by omega) h3] at h4
      omega

end

/-! ## Concrete schedules meeting the hypotheses -/

/-- Three nodes, fully connected, asynchronous update instants, sequential updating from node 1,
at least two frames between updates. -/
def exSeq : EvArgs Nat :=
  { up_t := [[10, 20, 30, 40], [12, 20, 32, 40], [10, 20, 30, 40, 40]]
    bc_t := [[10, 20, 30], [5, 12, 20], [10]]
    seq := true, firstUpdatingNode := 1, minFrames := 2 }

/-- The same instants with simultaneous updating. -/
def exSim : EvArgs Nat := { exSeq with seq := false }

/-- A path network `0 - 1 - 2` re-rooted twice. -/
def exTree : EvArgs Nat :=
  { up_t := [[10, 20], [10, 20], [10, 20]], bc_t := [[10], [10], [10, 20]]
    fuse_t := [[10], [10], [10]], re_t := [[10], [10], [10]], tr_t := [[0, 20], [], []]
    orderings := [[.many [0], .one 1, .one 2], [.many [0, 2], .one 1]]
    seq := true, firstUpdatingNode := 0, minFrames := 1 }

example : exSeq.tiFlag = false ∧ (buildEvents exSeq).map (fun out =>
      (performed out, out.map (·.t), (delivered out).length)) =
    .ok ([1, 2, 0], [5, 10, 12, 20, 30, 32, 40], 19) := by
  cbv

example : exSim.seq = false ∧
    (buildEvents exSim).map (fun out => (frameInstants out).map performedAt) =
    .ok [[], [1], [], [0, 2], [], [0, 1, 2]] := by
  cbv

example : (∀ o ∈ exTree.orderings, CoversNodes exTree.up_t.length o) ∧ exTree.tiFlag = true ∧
    exTree.tr_t.flatten.dedup.length ≤ exTree.orderings.length := by
  unfold CoversNodes
  refine ⟨?_, ?_, ?_⟩ <;> decide

example : (buildEvents exTree).map (fun out => (performed out,
      out.map fun i => (i.t, i.evs.map fun e => (e.ty.code, e.node)))) =
    .ok ([0, 1],
      [(0, [(-1, 0)]),
       (10, [(0, 0), (0, 1), (0, 2), (1, 0), (1, 1), (1, 2), (2, 2), (2, 1), (2, 0),
        (3, 2), (3, 1), (3, 0)]),
       (20, [(-1, 0), (1, 2), (3, 1), (3, 0), (3, 2)])]) := by
  cbv

end Danse
