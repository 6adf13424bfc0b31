import Verif.Proofs.Prune2
import Mathlib.Combinatorics.SimpleGraph.Hasse
import Mathlib.Tactic.FinCases

/-!
# C93: pruning a network to a tree, and choosing its root

The minimum-spanning-tree algorithm is any one that returns a spanning forest of the least total weight.
-/

namespace Danse

section
variable {n : Nat} {mst : SimpleGraph (Fin n) → (Fin n → Fin n → ℝ) → SimpleGraph (Fin n)}
  {A : Fin n → Fin n → ℝ} {p : Fin n → Pt} {c : RootCfg n}

/-- C93 (a): a connected network in which no two linked nodes are at the same place (or all nodes are) is
pruned, for every root, to a tree made of links of the network, of the least total length; the tree is
the same for all roots; its neighbour lists are those of the tree, the root is the one asked for, the
other nodes with one neighbour are leaves, and it is orientated towards the root. -/
theorem C93_tree (hm : MstAlgorithm mst) (hA : (linksOf A).Connected)
    (hp : NearlySamePosition p ∨ ∀ u v, (linksOf A).Adj u v → p u ≠ p v) :
    ∃ T : SimpleGraph (Fin n), T ≤ linksOf A ∧ T.IsTree ∧
      (¬ NearlySamePosition p → ∀ T' ≤ linksOf A, T'.IsTree →
        totalWeight (fun u v => ptDist (p u) (p v)) T ≤ totalWeight (fun u v => ptDist (p u) (p v)) T') ∧
      ∀ r : Fin n, ∃ P, pruneToTree mst A (fun k => some (p k)) c (some r) = .ok (some P) ∧
        NeighboursOf T P.nbr ∧ P.root = r ∧
        OrientedTree ⟨P.root, P.orient.up⟩ (P.order.map TreeLevel.toLevel) ∧
        ∀ k, P.nodeType k = if k = r then .root else if (P.nbr k).length = 1 then .leaf else .default := by
  classical
  set w := linkWeight (fun k => some (p k)) (decide (NearlySamePosition p)) with hw
  obtain ⟨hf, hmin⟩ := hm (linksOf A) w
  have hT := hf.tree hA
  have hpos : ∀ u v, (mst (linksOf A) w).Adj u v → 0 < w u v := by
    intro u v huv
    rw [hw, linkWeight_some]
    split
    · exact one_pos
    · rename_i h
      refine ptDist_pos ?_
      rcases hp with hp | hp
      · exact absurd (by simpa using hp) h
      · exact hp u v (hf.links huv)
  refine ⟨mst (linksOf A) w, hf.links, hT, ?_, ?_⟩
  · intro hs T' h1 h2
    have e : w = fun u v => ptDist (p u) (p v) := by
      funext u v
      rw [hw, linkWeight_some, if_neg (by simpa using hs)]
    rw [← e]
    exact hmin T' ⟨h1, h2.isAcyclic, fun u v _ => h2.connected.preconnected u v⟩
  · intro r
    have hn := nbr_of_tree hpos
    obtain ⟨o, ho, _⟩ := C21_orientation hT hn r
    have hn1 : n < n + 1 := by omega
    have hn2 : n < n * n + 2 := by nlinarith
    have e : pruneToTree mst A (fun k => some (p k)) c (some r) =
        .ok (finishPrune (weightMatrix (mst (linksOf A) w) w) r) := by
      unfold pruneToTree
      rw [allAtSamePosition_some]
      rfl
    refine ⟨_, by rw [e, finishPrune, ho (n * n + 2) (by simpa using hn2)]; rfl, hn, rfl, ?_, fun k => rfl⟩
    exact ⟨_, _, o, hT, hn, ho (n + 1) (by simp), rfl, rfl⟩

/-- C93 (b): pruning always terminates; with a given root it fails exactly when the position of a node is
unknown, which is the case for every network that is not set in a simulated room. -/
theorem C93_total (A : Fin n → Fin n → ℝ) (pos : Fin n → Option Pt) (c : RootCfg n) (r : Fin n) :
    ((∃ P, pruneToTree mst A pos c (some r) = .ok (some P)) ↔ ∀ k, pos k ≠ none) ∧
    ((∃ k, pos k = none) → pruneToTree mst A pos c (some r) = .error .typeError) := by
  classical
  have h2 : (∃ k, pos k = none) → pruneToTree mst A pos c (some r) = .error .typeError := by
    intro h
    unfold pruneToTree allAtSamePosition
    rw [if_pos h]
    rfl
  refine ⟨⟨?_, ?_⟩, h2⟩
  · rintro ⟨P, hP⟩ k hk
    rw [h2 ⟨k, hk⟩] at hP
    cases hP
  · intro h
    obtain ⟨b, hb⟩ : ∃ b, allAtSamePosition pos = .ok b := by
      unfold allAtSamePosition
      rw [if_neg (by push Not; exact h)]
      exact ⟨_, rfl⟩
    obtain ⟨P, hP⟩ := finishPrune_some (weightMatrix (mst (linksOf A) (linkWeight pos b))
      (linkWeight pos b)) r
    refine ⟨P, ?_⟩
    unfold pruneToTree
    rw [hb]
    exact congrArg _ hP

/-- C93 (c): but two linked nodes at the same place, with another node elsewhere, break it: whatever the
minimum-spanning-tree algorithm, the tree has a link of length 0, which is lost on the way back to the
network; the pruned network is not connected, and its leaf-to-root ordering does not list every node. -/
theorem C93_colocated_refuted (hm : MstAlgorithm mst) (hA : (linksOf A).Connected)
    (hs : ¬ NearlySamePosition p) {u v : Fin n} (huv : (linksOf A).Adj u v) (h0 : p u = p v) (r : Fin n)
    {P : PrunedWasn n} (hP : pruneToTree mst A (fun k => some (p k)) c (some r) = .ok (some P)) :
    ¬ (nbrGraph P.nbr).Connected ∧ ∃ k : Fin n, ∀ l ∈ P.order, k ∉ l.nodes := by
  classical
  set w := linkWeight (fun k => some (p k)) (decide (NearlySamePosition p)) with hw
  have hwe : ∀ a b, w a b = ptDist (p a) (p b) := by
    intro a b
    rw [hw, linkWeight_some, if_neg (by simpa using hs)]
  obtain ⟨hf, hmin⟩ := hm (linksOf A) w
  have hT := hf.tree hA
  -- the tree has a link of length 0
  obtain ⟨a, b, hab, hz⟩ : ∃ a b, (mst (linksOf A) w).Adj a b ∧ ¬ 0 < w a b := by
    by_contra hc
    push Not at hc
    obtain ⟨T', h1, h2⟩ := exchange hT hf.links hc huv (by rw [hwe, h0, ptDist_self])
      (by rw [hwe, h0, ptDist_self])
    exact absurd (hmin T' h1) (not_le.mpr h2)
  have e : pruneToTree mst A (fun k => some (p k)) c (some r) =
      .ok (finishPrune (weightMatrix (mst (linksOf A) w) w) r) := by
    unfold pruneToTree
    rw [allAtSamePosition_some]
    rfl
  rw [e] at hP
  injection hP with hP
  unfold finishPrune at hP
  obtain ⟨o, ho, hP⟩ := Option.map_eq_some_iff.mp hP
  have hnbr : P.nbr = nbrFromMatrix (weightMatrix (mst (linksOf A) w) w) := by rw [← hP]
  have hord : P.order = o.2 := by rw [← hP]
  have hle : nbrGraph P.nbr ≤ (mst (linksOf A) w).deleteEdges {s(a, b)} := by
    intro x y hxy
    rw [nbrGraph, SimpleGraph.fromRel_adj, hnbr] at hxy
    rw [SimpleGraph.deleteEdges_adj]
    have key : ∀ x y, x ∈ nbrFromMatrix (weightMatrix (mst (linksOf A) w) w) y →
        (mst (linksOf A) w).Adj x y ∧ s(x, y) ≠ s(a, b) := by
      intro x y h
      rw [mem_nbr_weight] at h
      refine ⟨h.1, fun he => ?_⟩
      rcases Sym2.eq_iff.mp he with ⟨rfl, rfl⟩ | ⟨rfl, rfl⟩
      · exact hz h.2
      · have hsym : w x y = w y x := linkWeight_comm _ _ _ _
        rw [hsym] at h
        exact hz h.2
    rcases hxy.2 with h | h
    · exact key x y h
    · obtain ⟨h1, h2⟩ := key y x h
      exact ⟨h1.symm, by rw [Set.mem_singleton_iff, Sym2.eq_swap]; exact h2⟩
  have hnr : ¬ ((mst (linksOf A) w).deleteEdges {s(a, b)}).Reachable a b :=
    SimpleGraph.isBridge_iff.mp ((SimpleGraph.isAcyclic_iff_forall_adj_isBridge.mp hT.isAcyclic) hab)
  have hdis : ¬ (nbrGraph P.nbr).Connected := fun h => hnr ((h.preconnected a b).mono hle)
  refine ⟨hdis, ?_⟩
  obtain ⟨k, hk⟩ : ∃ k, ¬ (nbrGraph P.nbr).Reachable r k := by
    by_contra hc
    push Not at hc
    have : Nonempty (Fin n) := ⟨r⟩
    exact hdis (SimpleGraph.Connected.mk fun x y => (hc x).symm.trans (hc y))
  refine ⟨k, fun l hl hkl => hk ?_⟩
  rw [hord] at hl
  refine orientate_reach (fun x => (nbrGraph P.nbr).Reachable r x) ?_ (SimpleGraph.Reachable.refl r) ho l hl
    k hkl
  intro x hx q hq
  refine hx.trans (SimpleGraph.Adj.reachable ?_)
  rw [nbrGraph, SimpleGraph.fromRel_adj]
  rw [← hnbr] at hq
  refine ⟨?_, Or.inr hq⟩
  rintro rfl
  rw [hnbr, mem_nbr_weight] at hq
  exact (mst (linksOf A) w).loopless.irrefl _ hq.1

/-- C93 (d): in TI-DANSE with the original tree kept, such a network leaves at least one node without any
event: it never fuses, broadcasts, relays or updates. -/
theorem C93_colocated_silent {K : Type} [Field K] [StarRing K] {g : GivenCfg K} {fs : ℚ} {m : Nat}
    {y : Fin n → List (List K)} (hg : SyncTI g fs m y) (hm : MstAlgorithm mst)
    (hA : (linksOf A).Connected) (hs : ¬ NearlySamePosition p) {u v : Fin n} (huv : (linksOf A).Adj u v)
    (h0 : p u = p v) {P : Nat → PrunedWasn n}
    (hP : ∀ k (h : k < n), pruneToTree mst A (fun k => some (p k)) c (some ⟨k, h⟩) = .ok (some (P k)))
    {nbs : List (List Nat)} (hn : nbs.length = n) {seq sim : Bool} {q start : Nat} {minF : Int}
    (hq : sim = true → q < n) (hstart : start < n) {out : List (Instant ℚ)} {fsInf : List ℚ}
    {trees : List (TreeObj n)}
    (h : initEventsTI g.bc g.N g.Ns seq true sim q start minF (syncNodes fs m nbs)
      (fun k => (P k).order.map TreeLevel.toLevel) (fun k => ⟨(P k).root, (P k).orient.up⟩) =
        .ok (out, fsInf, trees)) :
    ∃ k : Fin n, ∀ t ty, (t, k.val, ty) ∉ delivered out := by
  subst hn
  obtain ⟨out', tr, h1, h2, h3, h4⟩ := initEventsTI_sync (seq := seq) (keep := true) (sim := sim)
    (r := q) hg.shift (by have := hg.overlap; omega) hg.pos hg.rate hg.clock hg.whole hg.L_pos nbs minF hq hstart
    hg.exchange (fun _ _ => hg.update) (fun k => (P k).order.map TreeLevel.toLevel)
    (fun k => (⟨(P k).root, (P k).orient.up⟩ : TreeObj nbs.length))
  have hlen := keep_one_tree h1
  simp only [List.length_map, List.length_range] at hlen
  rw [h] at h1
  injection h1 with h1
  injection h1 with e1 h1
  subst e1
  obtain ⟨_, k, hk⟩ := C93_colocated_refuted hm hA hs huv h0 ⟨start, hstart⟩ (hP start hstart)
  refine ⟨k, unlisted_no_event h3.ti ?_ h2⟩
  show ∀ o ∈ tr.2, _
  rw [h4, hlen]
  intro o ho
  rw [List.range_one, List.map_singleton, List.mem_singleton] at ho
  subst ho
  rw [Nat.add_zero, Nat.mod_eq_of_lt hstart]
  intro hmem
  obtain ⟨l, hl, hkl⟩ := List.mem_flatMap.mp hmem
  obtain ⟨l', hl', rfl⟩ := List.mem_map.mp hl
  refine hk l' hl' ?_
  cases l' with
  | one x =>
    have : k.val = x.val := by simpa [TreeLevel.toLevel, Level.nodes] using hkl
    rw [TreeLevel.nodes, List.mem_singleton]
    exact Fin.ext this
  | many xs =>
    obtain ⟨x, hx, hxk⟩ := List.mem_map.mp (by simpa [TreeLevel.toLevel, Level.nodes] using hkl)
    rw [TreeLevel.nodes, ← Fin.ext hxk]
    exact hx

/-- C93 (i): a network that is not connected is pruned without complaint, and the nodes that have no path
to the root are not in the leaf-to-root ordering (by `unlisted_no_event` they get no event). -/
theorem C93_disconnected (hm : MstAlgorithm mst) (r : Fin n) :
    ∃ P, pruneToTree mst A (fun k => some (p k)) c (some r) = .ok (some P) ∧
      ∀ k, ¬ (linksOf A).Reachable r k → ∀ l ∈ P.order, k ∉ l.nodes := by
  classical
  obtain ⟨P, hP⟩ := finishPrune_some (prunedMatrix mst A p) r
  refine ⟨P, by rw [prune_some, hP], fun k hk l hl hkl => hk ?_⟩
  unfold finishPrune at hP
  obtain ⟨o, ho, rfl⟩ := Option.map_eq_some_iff.mp hP
  refine orientate_reach (fun x => (linksOf A).Reachable r x) ?_ (SimpleGraph.Reachable.refl r) ho l hl k hkl
  intro x hx q hq
  unfold prunedMatrix at hq
  rw [mem_nbr_weight] at hq
  exact hx.trans ((hm (linksOf A) _).1.links hq.1.symm).reachable

/-- C93 (e): the outputs of TI-DANSE do not depend on the network, on where the nodes are, on the
minimum-spanning-tree algorithm, nor on whether the tree is re-rooted: runs in two networks, each pruned
as above, give the same signals and the same observations. -/
theorem C93_topology {K : Type} [Field K] [StarRing K] [DecidableEq K] {g : GivenCfg K} {U : TIStrategy n K} {fs : ℚ}
    {m : Nat} {y : Fin n → List (List K)} (hg : SyncTI g fs m y)
    {mst' : SimpleGraph (Fin n) → (Fin n → Fin n → ℝ) → SimpleGraph (Fin n)} {A' : Fin n → Fin n → ℝ}
    {p' : Fin n → Pt} (hm : MstAlgorithm mst) (hm' : MstAlgorithm mst') (hA : (linksOf A).Connected)
    (hA' : (linksOf A').Connected)
    (hp : NearlySamePosition p ∨ ∀ u v, (linksOf A).Adj u v → p u ≠ p v)
    (hp' : NearlySamePosition p' ∨ ∀ u v, (linksOf A').Adj u v → p' u ≠ p' v)
    {P P' : Nat → PrunedWasn n}
    (hP : ∀ k (h : k < n), pruneToTree mst A (fun k => some (p k)) c (some ⟨k, h⟩) = .ok (some (P k)))
    (hP' : ∀ k (h : k < n), pruneToTree mst' A' (fun k => some (p' k)) c (some ⟨k, h⟩) = .ok (some (P' k)))
    {nbs nbs' : List (List Nat)} (hn : nbs.length = n) (hn' : nbs'.length = n) {seq keep keep' sim : Bool}
    {q start : Nat} {minF : Int} (hq : sim = true → q < n) (hstart : start < n)
    {out out' : List (Instant ℚ)} {fsInf fsInf' : List ℚ} {trees trees' : List (TreeObj n)}
    (h : initEventsTI g.bc g.N g.Ns seq keep sim q start minF (syncNodes fs m nbs)
      (fun k => (P k).order.map TreeLevel.toLevel) (fun k => ⟨(P k).root, (P k).orient.up⟩) =
        .ok (out, fsInf, trees))
    (h' : initEventsTI g.bc g.N g.Ns seq keep' sim q start minF (syncNodes fs m nbs')
      (fun k => (P' k).order.map TreeLevel.toLevel) (fun k => ⟨(P' k).root, (P' k).orient.up⟩) =
        .ok (out', fsInf', trees'))
    (T : Nat) (ext : Fin n → List (List K)) (up0 up0' : Fin n → List (Fin n)) {s : TISt n K}
    (hs : tiRun g U y trees (.init g.N g.refSensor T y ext up0) out = .ok s) :
    ∃ s', tiRun g U y trees' (.init g.N g.refSensor T y ext up0') out' = .ok s' ∧ s'.node = s.node ∧
      s'.net.etaMk = s.net.etaMk := by
  have key : ∀ {mst : SimpleGraph (Fin n) → (Fin n → Fin n → ℝ) → SimpleGraph (Fin n)}
      {A : Fin n → Fin n → ℝ} {p : Fin n → Pt} {P : Nat → PrunedWasn n}, MstAlgorithm mst →
      (linksOf A).Connected → (NearlySamePosition p ∨ ∀ u v, (linksOf A).Adj u v → p u ≠ p v) →
      (∀ k (h : k < n), pruneToTree mst A (fun k => some (p k)) c (some ⟨k, h⟩) = .ok (some (P k))) →
      ∀ k < n, OrientedTree ⟨(P k).root, (P k).orient.up⟩ ((P k).order.map TreeLevel.toLevel) := by
    intro mst A p P hm hA hp hP k hk
    obtain ⟨T, _, _, _, hT⟩ := C93_tree (c := c) hm hA hp
    obtain ⟨Q, hQ, _, _, ho, _⟩ := hT ⟨k, hk⟩
    rw [hP k hk] at hQ
    injection hQ with hQ
    injection hQ with hQ
    rw [hQ]
    exact ho
  exact C82_topology hg hn hn' hq hstart (key hm hA hp hP) (key hm' hA' hp' hP') h h' T ext up0 up0' hs

/-! ## Choosing the root -/

/-- C93 (f): when no root is asked for, the measure decides: an unknown one, or a missing user-defined
root, is rejected with `ValueError`; a user-defined root is used. -/
theorem C93_user_root (hn : 0 < n) :
    (∀ r, c.measure = "user-defined" → c.userRoot = some r →
      pruneToTree mst A (fun k => some (p k)) c none = pruneToTree mst A (fun k => some (p k)) c (some r)) ∧
    (c.measure = "user-defined" → c.userRoot = none →
      pruneToTree mst A (fun k => some (p k)) c none = .error .valueError) ∧
    (c.measure ≠ "user-defined" → c.measure ≠ "snr" →
      pruneToTree mst A (fun k => some (p k)) c none = .error .valueError) := by
  refine ⟨fun r h1 h2 => ?_, fun h1 h2 => ?_, fun h1 h2 => ?_⟩
  · rw [prune_none, prune_some, setTreeRoot_tree hn, if_neg (by rw [h1]; decide), if_pos h1, h2]
    exact dif_pos r.isLt
  · rw [prune_none, setTreeRoot_tree hn, if_neg (by rw [h1]; decide), if_pos h1, h2]
    rfl
  · rw [prune_none, setTreeRoot_tree hn, if_neg h2, if_neg h1]
    rfl

/-- C93 (g): with the SNR measure, the root is the node with the largest value of the estimate (the first
one if there are several; a node whose estimate is not a number wins over all others). -/
theorem C93_snr_root (hn : 0 < n) (hc : c.measure = "snr") :
    ∃ r : Fin n, pruneToTree mst A (fun k => some (p k)) c none =
        pruneToTree mst A (fun k => some (p k)) c (some r) ∧
      (∀ q, (snrEstimate (c.data q) (c.vad q)).key ≤ (snrEstimate (c.data r) (c.vad r)).key) ∧
      ∀ q < r, (snrEstimate (c.data q) (c.vad q)).key < (snrEstimate (c.data r) (c.vad r)).key := by
  have hne : ((List.finRange n).map fun k => (snrEstimate (c.data k) (c.vad k)).key) ≠ [] := by
    intro h
    have := congrArg List.length h
    simp at this
    omega
  obtain ⟨m, h1, h2, h3⟩ := npArgmax_spec hne
  set i := npArgmax ((List.finRange n).map fun k => (snrEstimate (c.data k) (c.vad k)).key) with hi
  have hin : i < n := by
    by_contra hcon
    rw [List.getElem?_eq_none (by simpa using hcon)] at h1
    cases h1
  have hm : m = (snrEstimate (c.data ⟨i, hin⟩) (c.vad ⟨i, hin⟩)).key := by
    rw [List.getElem?_map, List.getElem?_eq_getElem (by simpa using hin)] at h1
    simpa using h1.symm
  refine ⟨⟨i, hin⟩, ?_, ?_, ?_⟩
  · rw [prune_none, prune_some, setTreeRoot_tree hn, if_pos hc, ← hi]
    exact dif_pos hin
  · intro q
    rw [← hm]
    exact h2 _ (List.mem_map.mpr ⟨q, by simp, rfl⟩)
  · intro q hq
    rw [← hm]
    refine h3 q hq _ ?_
    rw [List.getElem?_map, List.getElem?_eq_getElem (by simp)]
    simp

/-- C93 (h): the estimate is upside down. When all nodes have the same VAD, with active and inactive
samples, the root is a node with the LOWEST signal-to-noise ratio: the power while active over the power
while inactive of every other node is at least as large. A node that is better than some other one is
never chosen. -/
theorem C93_snr_root_refuted (hn : 0 < n) (hc : c.measure = "snr") {v : List Bool} (ht : true ∈ v)
    (hf : false ∈ v) (hv : ∀ k, c.vad k = v) (hd : ∀ k, (c.data k).length = v.length)
    (ha : ∀ k, 0 < powerWhen true (c.data k) v) (hi : ∀ k, 0 < powerWhen false (c.data k) v) :
    ∃ r : Fin n, pruneToTree mst A (fun k => some (p k)) c none =
        pruneToTree mst A (fun k => some (p k)) c (some r) ∧
      (∀ q, powerWhen true (c.data r) v / powerWhen false (c.data r) v ≤
        powerWhen true (c.data q) v / powerWhen false (c.data q) v) ∧
      ∀ q q', powerWhen true (c.data q') v / powerWhen false (c.data q') v <
        powerWhen true (c.data q) v / powerWhen false (c.data q) v → q ≠ r := by
  obtain ⟨r, h1, h2, _⟩ := C93_snr_root (mst := mst) (A := A) (p := p) hn hc
  have hle : ∀ q, powerWhen true (c.data r) v / powerWhen false (c.data r) v ≤
      powerWhen true (c.data q) v / powerWhen false (c.data q) v := by
    intro q
    have h := h2 q
    rw [hv, hv, snrEstimate_eq _ v (hd q) ht hf (ha q), snrEstimate_eq _ v (hd r) ht hf (ha r), SnrVal.key,
      SnrVal.key, WithTop.coe_le_coe, WithTop.coe_le_coe, hd, hd] at h
    have hct : (0 : ℝ) < v.count true := by exact_mod_cast List.count_pos_iff.mpr ht
    have hcf : (0 : ℝ) < v.count false := by exact_mod_cast List.count_pos_iff.mpr hf
    have hl : (0 : ℝ) < v.length := by
      have := List.length_pos_of_mem ht
      exact_mod_cast this
    have e : ∀ k, 0 < powerWhen false (c.data k) v / powerWhen true (c.data k) v := fun k =>
      div_pos (hi k) (ha k)
    have h' := (Real.logb_le_logb (b := 10) (by norm_num)
      (div_pos (add_pos hct (mul_pos hcf (e q))) hl) (div_pos (add_pos hct (mul_pos hcf (e r))) hl)).mp
      (by linarith)
    rw [div_le_div_iff_of_pos_right hl, add_le_add_iff_left, mul_le_mul_iff_right₀ hcf,
      div_le_div_iff₀ (ha q) (ha r)] at h'
    rw [div_le_div_iff₀ (hi r) (hi q)]
    linarith
  refine ⟨r, h1, hle, ?_⟩
  rintro q q' hlt rfl
  exact absurd (hle q') (not_le.mpr hlt)

end

/-! ## Concrete cases -/

/-- A line of four nodes: node `k` is linked with `k - 1` and `k + 1`. -/
def exLine (u v : Fin 4) : ℝ := if u.val = v.val + 1 ∨ v.val = u.val + 1 then 1 else 0

/-- Nodes at one metre from each other. -/
def exApart (k : Fin 4) : Pt := fun i => if i = 0 then (k.val : ℝ) else 0

/-- The last two nodes share their place. -/
def exPaired (k : Fin 4) : Pt := fun i => if i = 0 then (min k.val 2 : ℕ) else 0

theorem exLine_adj {u v : Fin 4} : (linksOf exLine).Adj u v ↔ u.val = v.val + 1 ∨ v.val = u.val + 1 := by
  unfold linksOf exLine
  simp only
  constructor
  · rintro ⟨_, h | h⟩
    · by_contra hc; simp [hc] at h
    · by_contra hc; simp [Or.comm.not.mp hc] at h
  · intro h
    refine ⟨by rintro rfl; omega, Or.inl ?_⟩
    simp [h]

theorem exLine_connected : (linksOf exLine).Connected := by
  have h : ∀ v : Fin 4, (linksOf exLine).Reachable 0 v := by
    have a01 : (linksOf exLine).Adj 0 1 := exLine_adj.mpr (by decide)
    have a12 : (linksOf exLine).Adj 1 2 := exLine_adj.mpr (by decide)
    have a23 : (linksOf exLine).Adj 2 3 := exLine_adj.mpr (by decide)
    intro v
    fin_cases v
    · exact .refl _
    · exact a01.reachable
    · exact a01.reachable.trans a12.reachable
    · exact (a01.reachable.trans a12.reachable).trans a23.reachable
  exact SimpleGraph.Connected.mk fun x y => (h x).symm.trans (h y)

theorem exApart_ok (u v : Fin 4) (h : (linksOf exLine).Adj u v) : exApart u ≠ exApart v := by
  intro he
  have := congrFun he 0
  simp only [exApart, if_true] at this
  have h' : u.val = v.val := by exact_mod_cast this
  rw [exLine_adj] at h
  omega

/-- The hypotheses of C93 (a), (e) hold for four nodes in a line. -/
example : ∃ mst : SimpleGraph (Fin 4) → (Fin 4 → Fin 4 → ℝ) → SimpleGraph (Fin 4), MstAlgorithm mst ∧
    (linksOf exLine).Connected ∧ ∀ u v, (linksOf exLine).Adj u v → exApart u ≠ exApart v := by
  obtain ⟨mst, hm⟩ := exists_mst 4
  exact ⟨mst, hm, exLine_connected, exApart_ok⟩

/-- The hypotheses of C93 (c), (d) hold for the line with two nodes in one place. -/
example : ∃ mst : SimpleGraph (Fin 4) → (Fin 4 → Fin 4 → ℝ) → SimpleGraph (Fin 4), MstAlgorithm mst ∧
    (linksOf exLine).Connected ∧ ¬ NearlySamePosition exPaired ∧ (linksOf exLine).Adj 2 3 ∧
    exPaired 2 = exPaired 3 ∧
    ∀ c r, ∃ P, pruneToTree mst exLine (fun k => some (exPaired k)) c (some r) = .ok (some P) := by
  obtain ⟨mst, hm⟩ := exists_mst 4
  refine ⟨mst, hm, exLine_connected, ?_, exLine_adj.mpr (by decide), ?_, ?_⟩
  · intro h
    have := h 0 2 rfl 0
    simp [exPaired] at this
    norm_num at this
  · funext i
    simp [exPaired]
  · intro c r
    exact (C93_total exLine (fun k => some (exPaired k)) c r).1.mpr (by simp)

/-- Four nodes without any link: only the root is listed. -/
example : ∃ mst : SimpleGraph (Fin 4) → (Fin 4 → Fin 4 → ℝ) → SimpleGraph (Fin 4), MstAlgorithm mst ∧
    ∀ k : Fin 4, k ≠ 0 → ¬ (linksOf (fun _ _ : Fin 4 => (0 : ℝ))).Reachable 0 k := by
  obtain ⟨mst, hm⟩ := exists_mst 4
  refine ⟨mst, hm, fun k hk h => ?_⟩
  have e : linksOf (fun _ _ : Fin 4 => (0 : ℝ)) = ⊥ := by
    ext u v
    simp [linksOf]
  rw [e, SimpleGraph.reachable_bot] at h
  exact hk h.symm

/-- Three nodes without known positions. -/
example (mst) (A : Fin 3 → Fin 3 → ℝ) (c : RootCfg 3) :
    pruneToTree mst A (fun _ => none) c (some 0) = .error .typeError :=
  (C93_total A (fun _ => none) c 0).2 ⟨0, rfl⟩

/-- Two nodes, the first one with a signal-to-noise ratio of 9, the second one of 4. -/
noncomputable def exRoots : RootCfg 2 :=
  { measure := "snr", userRoot := none
    data := fun k => if k = 0 then [3, 1, 3, 1] else [2, 1, 2, 1]
    vad := fun _ => [true, false, true, false] }

/-- The hypotheses of C93 (h) hold, and the worse node becomes the root. -/
example (mst) (A : Fin 2 → Fin 2 → ℝ) (p : Fin 2 → Pt) :
    pruneToTree mst A (fun k => some (p k)) exRoots none =
      pruneToTree mst A (fun k => some (p k)) exRoots (some 1) := by
  have h0t : powerWhen true (exRoots.data 0) [true, false, true, false] = 9 := by
    norm_num [powerWhen, exRoots, meanOf]
  have h0f : powerWhen false (exRoots.data 0) [true, false, true, false] = 1 := by
    norm_num [powerWhen, exRoots, meanOf]
  have h1t : powerWhen true (exRoots.data 1) [true, false, true, false] = 4 := by
    norm_num [powerWhen, exRoots, meanOf]
  have h1f : powerWhen false (exRoots.data 1) [true, false, true, false] = 1 := by
    norm_num [powerWhen, exRoots, meanOf]
  obtain ⟨r, h1, _, h3⟩ := C93_snr_root_refuted (mst := mst) (A := A) (p := p) (c := exRoots) (n := 2)
    (by decide) rfl (v := [true, false, true, false]) (by decide) (by decide) (fun _ => rfl)
    (fun k => by fin_cases k <;> rfl)
    (fun k => by fin_cases k <;> simp only [Fin.zero_eta, Fin.mk_one, h0t, h1t] <;> norm_num)
    (fun k => by fin_cases k <;> simp only [Fin.zero_eta, Fin.mk_one, h0f, h1f] <;> norm_num)
  have hr : (0 : Fin 2) ≠ r := h3 0 1 (by rw [h0t, h0f, h1t, h1f]; norm_num)
  have : r = 1 := by
    revert hr; revert r; intro r _ _ _; fin_cases r <;> simp
  rw [h1, this]

end Danse
