import Verif.Proofs.DemoNet3

/-! # C103, C104: topology descriptions and the simulation of a network of clocks -/

namespace Danse

set_option linter.unusedSectionVars false

variable {N : Type} [DecidableEq N] {E F A : Type}
variable {levels : List (List (List N))} {white : List N} {root : N}

/-- C103 (a): `verify_topology` accepts exactly the descriptions of the specification. -/
theorem C103_verify (levels : List (List (List N))) (white : List N) :
    verifyTopology levels white = true ↔ ∃ root, AcceptedTopo levels white root := accepted_iff white levels

/-- C103 (b): for an accepted description the list of nodes holds every node of the description exactly once:
the root first, then the nodes in the order in which they are synchronised. -/
theorem C103_nodes (h : AcceptedTopo levels white root) :
    uniqueNodeList levels = nodeOrder levels root ∧ (uniqueNodeList levels).Nodup ∧
      ∀ n, n ∈ uniqueNodeList levels ↔ ∃ L ∈ levels, ∃ B ∈ L, n ∈ B := by
  have e := h.unique (fun l n h => h.2)
  refine ⟨e, e ▸ h.nodup, fun n => ?_⟩
  rw [e]
  unfold nodeOrder
  rw [List.mem_cons, List.mem_flatMap]
  constructor
  · rintro (rfl | ⟨L, hL, hn⟩)
    · obtain ⟨t, rest, rfl⟩ := h.first
      exact ⟨_, List.mem_cons_self, _, List.mem_cons_self, List.mem_cons_self⟩
    · obtain ⟨x, t, hB, hn⟩ := mem_children.mp hn
      exact ⟨L, hL, _, hB, List.mem_cons_of_mem _ hn⟩
  · rintro ⟨L, hL, B, hB, hn⟩
    cases B with
    | nil => simp at hn
    | cons x t =>
      rcases List.mem_cons.mp hn with rfl | hn
      · obtain ⟨l, hl, rfl⟩ := List.getElem_of_mem hL
        cases l with
        | zero =>
          obtain ⟨t0, rest, rfl⟩ := h.first
          simp only [List.getElem_cons_zero, List.mem_singleton, List.cons.injEq] at hB
          exact .inl hB.1
        | succ l =>
          have hl' : l < levels.length := by omega
          rcases h.heads l _ _ (List.getElem?_eq_getElem hl') (List.getElem?_eq_getElem hl) n t hB with h1 | h1
          · exact .inr ⟨_, List.getElem_mem hl', h1⟩
          · exact .inl h1.2
      · exact .inr ⟨L, hL, mem_children.mpr ⟨x, t, hB, hn⟩⟩

/-- C103 (c): every node but the root is synchronised in exactly one branch of exactly one level, the root in
none. -/
theorem C103_one_reference (h : AcceptedTopo levels white root) {n : N} (hn : n ∈ uniqueNodeList levels) :
    (n = root ∧ ∀ L ∈ levels, ∀ B ∈ L, n ∉ B.tail) ∨
      (n ≠ root ∧ ∃ (l : Nat) (L : List (List N)) (x : N) (B : List N), levels[l]? = some L ∧ x :: B ∈ L ∧ n ∈ B ∧
        ∀ (l' : Nat) (L' : List (List N)) (x' : N) (B' : List N), levels[l']? = some L' → x' :: B' ∈ L' → n ∈ B' →
          l' = l ∧ x' = x ∧ B' = B) := by
  obtain ⟨e, _, _⟩ := C103_nodes h
  rw [e] at hn
  rcases List.mem_cons.mp hn with rfl | hn
  · left
    refine ⟨rfl, fun L hL B hB hn' => h.rootNever L hL (List.mem_flatMap.mpr ⟨B, hB, hn'⟩)⟩
  · right
    obtain ⟨L, hL, hn⟩ := List.mem_flatMap.mp hn
    refine ⟨?_, ?_⟩
    · intro hr
      exact h.rootNever L hL (hr ▸ hn)
    · obtain ⟨l, hl, rfl⟩ := List.getElem_of_mem hL
      obtain ⟨x, B, hB, hnB⟩ := mem_children.mp hn
      refine ⟨l, _, x, B, List.getElem?_eq_getElem hl, hB, hnB, ?_⟩
      intro l' L' x' B' hl' hB' hn'
      obtain ⟨hlt', rfl⟩ := List.getElem?_eq_some_iff.mp hl'
      have hll : l' = l := by
        by_contra hne
        rcases Nat.lt_or_gt_of_ne hne with hlt | hlt
        · exact List.pairwise_iff_getElem.mp h.leafOnce l' l hlt' hl hlt n (mem_children.mpr ⟨x', B', hB', hn'⟩) hn
        · exact List.pairwise_iff_getElem.mp h.leafOnce l l' hl hlt' hlt n hn (mem_children.mpr ⟨x', B', hB', hn'⟩)
      subst hll
      have hflat := h.once _ hL
      refine ⟨rfl, ?_⟩
      by_contra hne
      have hBne : x :: B ≠ x' :: B' := by
        intro h'
        injection h' with h1 h2
        exact hne ⟨h1.symm, h2.symm⟩
      rw [List.nodup_flatten] at hflat
      obtain ⟨i, hi, hiB⟩ := List.getElem_of_mem hB
      obtain ⟨j, hj, hjB⟩ := List.getElem_of_mem hB'
      have hij : i ≠ j := by
        rintro rfl
        exact hBne (hiB.symm.trans hjB)
      rcases Nat.lt_or_gt_of_ne hij with hlt | hlt
      · have := List.pairwise_iff_getElem.mp hflat.2 i j hi hj hlt
        rw [hiB, hjB] at this
        exact this (List.mem_cons_of_mem _ hnB) (List.mem_cons_of_mem _ hn')
      · have := List.pairwise_iff_getElem.mp hflat.2 j i hj hi hlt
        rw [hiB, hjB] at this
        exact this (List.mem_cons_of_mem _ hn') (List.mem_cons_of_mem _ hnB)

/-- C103 (d): the input delay of a node is its level times the delay per level; there is one entry per node
other than the root, in the order of the list of nodes. -/
theorem C103_delays (h : AcceptedTopo levels white root) (per : Nat) :
    (asyncNodeDelays levels per).length + 1 = (uniqueNodeList levels).length ∧
      ∀ (l : Nat) L c, levels[l]? = some L → c ∈ children L →
        (asyncNodeDelays levels per)[(uniqueNodeList levels).idxOf c - 1]? = some (l * per) := by
  obtain ⟨d, h1, h2⟩ := h.delays (fun l n h => h.2) per
  have e := h.unique (fun l n h => h.2)
  rw [h1, e]
  refine ⟨by simp [nodeOrder], fun l L c hl hc => ?_⟩
  have hcs : c ∈ levels.flatMap children := List.mem_flatMap.mpr ⟨L, List.mem_of_getElem? hl, hc⟩
  unfold nodeOrder
  rw [idxOf_cons_mem h.nodup hcs, Nat.add_sub_cancel, getElem?_idxOf_map d hcs, h2 l L c hl hc]

/-- A chain of references from the root. -/
inductive Linked (levels : List (List (List N))) (root : N) : Nat → N → Prop
  | root : Linked levels root 0 root
  | child {l : Nat} {L : List (List N)} {x c : N} {B : List N} : levels[l]? = some L → x :: B ∈ L → c ∈ B →
      Linked levels root l x → Linked levels root (l + 1) c

/-- C103 (e): in a tree described level by level, every node of level `l` is reached from the root in `l + 1`
steps from reference to node. -/
theorem C103_reachable (h : ProperTopo levels white root) : ∀ (l : Nat) (L : List (List N)) (c : N),
    levels[l]? = some L → c ∈ children L → Linked levels root (l + 1) c := by
  intro l
  induction l with
  | zero =>
    intro L c hl hc
    obtain ⟨x, B, hB, hcB⟩ := mem_children.mp hc
    refine .child hl hB hcB ?_
    obtain ⟨t0, rest, rfl⟩ := h.first
    simp only [List.getElem?_cons_zero, Option.some.injEq] at hl
    subst hl
    simp only [List.mem_singleton, List.cons.injEq] at hB
    rw [hB.1]
    exact .root
  | succ l ih =>
    intro L c hl hc
    obtain ⟨x, B, hB, hcB⟩ := mem_children.mp hc
    have hlt : l < levels.length := by
      have := (List.getElem?_eq_some_iff.mp hl).1
      omega
    refine .child hl hB hcB (ih _ x (List.getElem?_eq_getElem hlt) ?_)
    exact (h.heads l _ L (List.getElem?_eq_getElem hlt) hl x B hB).resolve_right id

/-- The chain of `C103_reachable` is what the package calls a parallel tree. -/
def exLevels : List (List (List Nat)) := [[[0, 2, 3]], [[3, 4, 5]]]

/-- Root 0 is used again as the reference of a branch of the second level. -/
def exReuse : List (List (List Nat)) := [[[0, 1]], [[0, 2]]]

theorem exLevels_proper : ProperTopo exLevels [0, 1, 2, 3, 4, 5] 0 where
  first := ⟨[2, 3], [[[3, 4, 5]]], rfl⟩
  nonempty := by decide
  two := by decide
  known := by decide
  once := by decide
  leafOnce := by decide
  rootNever := by decide
  heads := by
    intro l L L' h1 h2 h t hB
    match l with
    | 0 =>
      simp only [exLevels, List.getElem?_cons_zero, Option.some.injEq, List.getElem?_cons_succ] at h1 h2
      subst h1 h2
      simp only [List.mem_singleton, List.cons.injEq] at hB
      rw [hB.1]
      left
      decide
    | l + 1 => simp [exLevels] at h2

example : verifyTopology exLevels [0, 1, 2, 3, 4, 5] = true := by decide

example : asyncNodeDelays exLevels 2 = [0, 0, 2, 2] ∧ uniqueNodeList exLevels = [0, 2, 3, 4, 5] := by decide

/-- C103 (f), refuted: that an accepted description is a tree described level by level. The second level may
refer to the root. -/
theorem C103_refuted_root_again : verifyTopology exReuse [0, 1, 2] = true ∧
    ∀ root, ¬ ProperTopo exReuse [0, 1, 2] root := by
  refine ⟨by decide, fun root h => ?_⟩
  rcases h.heads 0 _ _ rfl rfl 0 [2] (by decide) with h1 | h1
  · revert h1; decide
  · exact h1

/-! ## The simulations -/

variable (e : Estimator E F A) (zero : F) (sig : Nat → Nat → F) (acs : Nat → A) (ctl : Bool)

/-- C104 (a): the run in which every node is synchronised with the synchronised signal of its reference
exists. -/
theorem C104_exists (h : ProperTopo levels white root) (col : N → Nat) :
    ∃ out, SyncRun e zero sig acs levels root ctl col out := h.sync e zero sig acs ctl col (fun _ _ h => h.elim)

theorem onCtx (h : ProperTopo levels white root) {d : N → Nat} {out : N → Nat → EstOut F}
    (hd : ∀ (l : Nat) L c, levels[l]? = some L → c ∈ children L → d c = l * 2)
    (hs : SyncRun e zero sig acs levels root ctl (fun c => (nodeOrder levels root).idxOf c) out) :
    OnCtx e zero sig acs ctl (fun c => (nodeOrder levels root).idxOf c) (levels.flatMap children) d
      (refOf levels root) out root where
  nd := h.nodup
  colEq := fun c hc => idxOf_cons_mem h.nodup hc
  outEq := by
    intro c hc
    obtain ⟨L, hL, hcL⟩ := List.mem_flatMap.mp hc
    obtain ⟨l, hl, rfl⟩ := List.getElem_of_mem hL
    obtain ⟨x, B, hB, hcB⟩ := mem_children.mp hcL
    have := hs.child l _ x B c (List.getElem?_eq_getElem hl) hB hcB
    rw [this, hd l _ c (List.getElem?_eq_getElem hl) hcL, h.refOf_eq hL hB hcB, Nat.mul_comm l 2]
    have e3 : 2 * l * (if ctl then 100 else 0) = if ctl then 200 * l else 0 := by
      cases ctl
      · simp
      · simp only [if_true]; omega
    rw [e3]
  rootEq := hs.root

/-- C104 (b): the online simulation of a tree never fails. For node `c` of level `l`, in column `j` of the
signals, `SRO_est` and `dSRO_est` hold the negated estimates of all frames; the synchronised signal in frame `t`
is the frame that the estimator returned `2 l + 2` frames later. Frame 0 is never written, and remains zero. -/
theorem C104_online (h : ProperTopo levels white root) {out : N → Nat → EstOut F}
    (hs : SyncRun e zero sig acs levels root ctl (fun c => (nodeOrder levels root).idxOf c) out) (nFrames : Nat) :
    ∃ R, simOnline e zero sig acs nFrames levels ctl = .ok R ∧ (∀ t, R.synced t 0 = sig t 0) ∧
      ∀ (l : Nat) L c, levels[l]? = some L → c ∈ children L → ∀ j, (nodeOrder levels root).idxOf c = j + 1 →
        (∀ t < nFrames, R.sro t j = -(out c t).sro ∧ R.dsro t j = -(out c t).dsro) ∧
        ∀ t, R.synced t (j + 1) =
          if 1 ≤ t ∧ t + 2 * l + 2 < nFrames then (out c (t + 2 * l + 2)).blk else zero := by
  obtain ⟨d, h1, h2⟩ := h.delays (fun _ _ h => h.elim) 2
  have eN := h.unique (fun _ _ h => h.elim)
  have hx := onCtx e zero sig acs ctl h h2 hs
  unfold simOnline
  simp only
  rw [h1, eN]
  unfold nodeOrder
  rw [List.map_map, List.map_map]
  obtain ⟨s', g1, g2⟩ := onFrames_ok e zero sig acs ctl _ hx h rfl
    (fun L hL x ts hB c hc => h.refOf_eq hL hB hc) nFrames 0
    ⟨(levels.flatMap children).map ((fun d => e.init (d * if ctl = true then 100 else 0)) ∘ d),
      (levels.flatMap children).map ((fun d => DelayBuf.init zero (d + 1)) ∘ d),
      ⟨fun t j => if j = 0 then sig t 0 else zero, fun _ _ => 0, fun _ _ => 0⟩⟩
    ⟨rfl, rfl, fun _ _ _ => rfl, fun _ _ _ => rfl, fun _ => rfl, fun _ _ i => by
      simp only
      rw [if_neg (by omega), if_neg (by omega)]⟩
  rw [List.range_eq_range', g1]
  refine ⟨_, rfl, g2.ref, ?_⟩
  intro l L c hl hc j hj
  have hcs : c ∈ levels.flatMap children := List.mem_flatMap.mpr ⟨L, List.mem_of_getElem? hl, hc⟩
  have hj' : (levels.flatMap children).idxOf c = j := by
    have := idxOf_cons_mem h.nodup hcs
    omega
  subst hj'
  refine ⟨fun t ht => ?_, fun t => ?_⟩
  · rw [g2.sro c hcs t, g2.dsro c hcs t, if_pos (by omega), if_pos (by omega)]
    exact ⟨rfl, rfl⟩
  · rw [g2.synced c hcs t, h2 l L c hl hc, Nat.mul_comm l 2, Nat.zero_add]

/-- C104 (c): the parallel simulation of a tree returns for every order in which the processes of a level
deliver their results, and always the same. Its estimates are those of the online simulation; the synchronised
signals hold frame 0 too, but the last frame is not compensated for the delay. -/
theorem C104_parallel (h : ProperTopo levels white root) {out : N → Nat → EstOut F}
    (hs : SyncRun e zero sig acs levels root ctl (fun c => (nodeOrder levels root).idxOf c) out) (nFrames : Nat)
    {arrivals : Nat → List N} (harr : ∀ (l : Nat) L, levels[l]? = some L → (arrivals l).Perm (children L)) :
    ∃ R, simParallel e zero sig acs nFrames levels ctl arrivals = some R ∧ (∀ t, R.synced t 0 = sig t 0) ∧
      ∀ (l : Nat) L c, levels[l]? = some L → c ∈ children L → ∀ j, (nodeOrder levels root).idxOf c = j + 1 →
        (∀ t, R.sro t j = -(out c t).sro ∧ R.dsro t j = -(out c t).dsro) ∧
        ∀ t, R.synced t (j + 1) =
          if t + 2 * l + 2 < nFrames then (out c (t + 2 * l + 2)).blk
          else if t + 1 < nFrames then zero else (out c t).blk := by
  obtain ⟨d, h1, h2⟩ := h.delays (fun _ _ h => h.elim) 2
  have eN := h.unique (fun _ _ h => h.elim)
  unfold simParallel
  simp only
  rw [h1, eN]
  have hhead : ∀ L ∈ levels.head?, ∀ x ts, x :: ts ∈ L → x = root ∨ (x ∈ levels.flatMap children ∧ False) := by
    obtain ⟨t0, rest, rfl⟩ := h.first
    simp only [List.head?_cons, Option.mem_some_iff, forall_eq', List.mem_singleton, List.cons.injEq]
    rintro x ts ⟨rfl, _⟩
    exact .inl rfl
  obtain ⟨o, g1, g2⟩ := parLevels_ok zero sig e acs ctl (cs := levels.flatMap children) (d := d)
    (col := fun c => (nodeOrder levels root).idxOf c) h rfl
    (fun c hc => idxOf_cons_mem h.nodup hc) h2 hs arrivals harr levels 0 (fun _ => False)
    ⟨fun t j => if j = 0 then sig t 0 else zero, fun _ _ => 0, fun _ _ => 0⟩ (fun l L hl => by rwa [Nat.zero_add])
    hhead ⟨fun _ => rfl, fun _ _ h => h.elim⟩
  unfold nodeOrder
  rw [g1]
  refine ⟨_, rfl, ?_, ?_⟩
  · intro t
    simp only [lt_irrefl, false_and, if_false]
    exact g2.ref t
  · intro l L c hl hc j hj
    have hcs : c ∈ levels.flatMap children := List.mem_flatMap.mpr ⟨L, List.mem_of_getElem? hl, hc⟩
    have hj' : (levels.flatMap children).idxOf c = j := by
      have := idxOf_cons_mem h.nodup hcs
      omega
    subst hj'
    have hy := g2.yes c hcs (.inr hcs)
    refine ⟨fun t => (hy t).2, fun t => ?_⟩
    have hlt := List.idxOf_lt_length_of_mem hcs
    have ed : ((levels.flatMap children).map d).getD ((levels.flatMap children).idxOf c + 1 - 1) 0 = l * 2 := by
      rw [Nat.add_sub_cancel, List.getD_eq_getElem?_getD, getElem?_idxOf_map d hcs, h2 l L c hl hc]
      rfl
    simp only
    rw [if_pos ⟨by omega, by rw [List.length_cons]; omega⟩, ed]
    unfold shiftBack
    simp only
    rw [show t + (l * 2 + 2) = t + 2 * l + 2 by omega, (hy _).1, (hy _).1]

/-- C104 (d): the two simulations of a tree return the same estimates in all frames, and the same synchronised
signals in all frames but the first and the last, whatever the order of the processes. -/
theorem C104_agree (h : ProperTopo levels white root) {nFrames : Nat} {R R' : SimOut F}
    {arrivals : Nat → List N} (harr : ∀ (l : Nat) L, levels[l]? = some L → (arrivals l).Perm (children L))
    (h1 : simOnline e zero sig acs nFrames levels ctl = .ok R)
    (h2 : simParallel e zero sig acs nFrames levels ctl arrivals = some R') :
    ∀ t < nFrames, ∀ j, j + 1 < (nodeOrder levels root).length →
      R.sro t j = R'.sro t j ∧ R.dsro t j = R'.dsro t j ∧
        (1 ≤ t → t + 1 < nFrames → R.synced t (j + 1) = R'.synced t (j + 1)) := by
  obtain ⟨out, hs⟩ := C104_exists e zero sig acs ctl h (fun c => (nodeOrder levels root).idxOf c)
  obtain ⟨_, e1, _, v1⟩ := C104_online e zero sig acs ctl h hs nFrames
  obtain ⟨_, e2, _, v2⟩ := C104_parallel e zero sig acs ctl h hs nFrames harr
  rw [h1] at e1
  rw [h2] at e2
  injection e1 with e1
  injection e2 with e2
  subst e1 e2
  intro t ht j hj
  have hc : (nodeOrder levels root)[j + 1] ∈ levels.flatMap children := by
    have hj' : j < (levels.flatMap children).length := by
      unfold nodeOrder at hj
      simpa using hj
    have : (nodeOrder levels root)[j + 1] = (levels.flatMap children)[j] := rfl
    rw [this]
    exact List.getElem_mem _
  obtain ⟨L, hL, hcL⟩ := List.mem_flatMap.mp hc
  obtain ⟨l, hl, rfl⟩ := List.getElem_of_mem hL
  have hidx : (nodeOrder levels root).idxOf (nodeOrder levels root)[j + 1] = j + 1 :=
    List.Nodup.idxOf_getElem h.nodup _ _
  obtain ⟨a1, a2⟩ := v1 l _ _ (List.getElem?_eq_getElem hl) hcL j hidx
  obtain ⟨b1, b2⟩ := v2 l _ _ (List.getElem?_eq_getElem hl) hcL j hidx
  refine ⟨?_, ?_, ?_⟩
  · rw [(a1 t ht).1, (b1 t).1]
  · rw [(a1 t ht).2, (b1 t).2]
  · intro t1 t2
    rw [a2 t, b2 t]
    by_cases h3 : t + 2 * l + 2 < nFrames
    · rw [if_pos ⟨t1, h3⟩, if_pos h3]
    · rw [if_neg (fun h => h3 h.2), if_neg h3, if_pos t2]

/-- C104 (e), refuted: that every accepted description can be simulated. If the second level refers to the
root, the online simulation raises KeyError in the first frame, whatever the estimator and the signals. -/
theorem C104_refuted_root_again (nFrames : Nat) :
    simOnline e zero sig acs (nFrames + 1) exReuse ctl = .error .keyError := by
  have e1 : uniqueNodeList exReuse = [0, 1, 2] := by decide
  have e2 : asyncNodeDelays exReuse 2 = [0, 2] := by decide
  unfold simOnline
  simp only
  rw [List.range_succ_eq_map, List.foldlM_cons, e1, e2]
  have : ∀ s : OnSt E F, s.est.length = 2 → s.buf = [DelayBuf.init zero 1, DelayBuf.init zero 3] →
      onFrame e sig acs exReuse [0, 1, 2] [0, 2] s 0 = .error .keyError := by
    intro s h1 h2
    obtain ⟨x, y, hxy⟩ := List.length_eq_two.mp h1
    unfold onFrame exReuse
    simp [onLevel, onBranch, onNode, hxy, h2, DelayBuf.init, DelayBuf.write, DelayBuf.deref, DelayBuf.read, Except.map]
    rfl
  rw [this _ rfl rfl]
  rfl

/-- C104 (f), refuted: that the parallel simulation aligns the signals of every accepted description. If the
second level refers to the root, the signal of the node is delayed by two frames and compared with the undelayed
one of the root. -/
theorem C104_refuted_alignment (nFrames : Nat) (arrivals : Nat → List Nat) (h0 : arrivals 0 = [1])
    (h1 : arrivals 1 = [2]) : ∃ R, simParallel e zero sig acs nFrames exReuse ctl arrivals = some R ∧
      ∀ t, R.sro t 1 = -(pairOut e (if ctl then 200 else 0) (fun t => sig t 0)
        (fun t => if t < 2 then zero else sig (t - 2) 2) acs t).sro := by
  unfold simParallel exReuse
  simp only [List.zipIdx_cons, List.zipIdx_nil, List.foldlM_cons, List.foldlM_nil]
  unfold parLevel
  simp only [h0, h1]
  refine ⟨_, rfl, fun t => ?_⟩
  cases ctl <;> rfl

/-- An estimator that counts frames and returns the reference frame of the previous call. -/
def exEst : Estimator (Nat × Nat) Nat Nat :=
  ⟨fun _ => (0, 0), fun s ref x _ => ((s.1 + 1, ref), ⟨x, s.1, s.2⟩)⟩

example : ∃ out, SyncRun exEst 0 (fun t j => 10 * t + j) (fun _ => 1) exLevels 0 true
    (fun c => (nodeOrder exLevels 0).idxOf c) out :=
  C104_exists exEst 0 _ _ true exLevels_proper _

/-- The processes of the levels of `exLevels` in reversed order. -/
example : ∀ (l : Nat) L, exLevels[l]? = some L → ((fun l => if l = 0 then [3, 2] else [5, 4]) l).Perm (children L) := by
  intro l L hl
  match l with
  | 0 =>
    simp only [exLevels, List.getElem?_cons_zero, Option.some.injEq] at hl
    subst hl
    decide
  | 1 =>
    simp only [exLevels, List.getElem?_cons_zero, List.getElem?_cons_succ, Option.some.injEq] at hl
    subst hl
    decide
  | l + 2 => simp [exLevels] at hl

end Danse
