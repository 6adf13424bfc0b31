import Verif.Proofs.Topo

/-! # Properties C36 (topology) and C40 (sensor bookkeeping) -/

namespace Danse

/-- C36: whatever topology is accepted, the result is a list of neighbour lists of an undirected
network, one list per node, without self-loops. -/
theorem C36_neighbours {c : TopoCfg} {s2n : List Nat} {coords : Option (List Pt)}
    {rnd : Nat → Nat → Nat} {topo : Nat → Nat → ℝ} {nb : List (List Nat)}
    (h : getTopo c s2n coords rnd = .ok (topo, nb)) :
    ∃ n, n - 1 ∈ s2n ∧ (∀ k ∈ s2n, k < n) ∧ NeighbourLists n (fun k q => 0 < topo k q) nb := by
  have hne : s2n ≠ [] := by rintro rfl; cases h
  rw [getTopo_eq hne] at h
  cases ht : topoMatrix c s2n coords rnd (topoNodes s2n) with
  | error e => rw [ht] at h; cases h
  | ok topo' =>
    rw [ht] at h
    have h := Except.ok.inj h
    rw [Prod.mk.injEq] at h
    obtain ⟨rfl, rfl⟩ := h
    have hsym := topoMatrix_symm ht
    have hs : ∀ k < topoNodes s2n, ∀ q < topoNodes s2n, 0 < topo' k q ↔ 0 < topo' q k :=
      fun k hk q hq => by rw [hsym k hk q hq]
    refine ⟨topoNodes s2n, ?_, ?_, ?_, ?_, ?_, hs⟩
    · cases s2n with
      | nil => exact absurd rfl hne
      | cons x r =>
        have := (foldl_max_spec r x).2
        have e : topoNodes (x :: r) - 1 = r.foldl max x := by simp [topoNodes]
        rw [e]; exact this
    · intro k hk
      have := (foldl_max_spec s2n 0).1 k (by simp [hk])
      unfold topoNodes; omega
    · simp
    · intro k l hl
      rw [List.getElem?_map] at hl
      cases hr : (List.range (topoNodes s2n))[k]? with
      | none => rw [hr] at hl; cases hl
      | some k' =>
        rw [hr] at hl
        rw [← Option.some.inj hl]
        exact List.Pairwise.filter _ List.pairwise_lt_range
    · intro k l hl q
      rw [List.getElem?_map] at hl
      cases hr : (List.range (topoNodes s2n))[k]? with
      | none => rw [hr] at hl; cases hl
      | some k' =>
        rw [hr] at hl
        have hk : k < topoNodes s2n ∧ k = k' := by
          rw [List.getElem?_eq_some_iff] at hr
          obtain ⟨hk, e⟩ := hr
          exact ⟨by simpa using hk, by simpa using e⟩
        rw [← Option.some.inj hl, List.mem_filter]
        simp only [List.mem_range, Bool.and_eq_true, decide_eq_true_eq, bne_iff_ne, ← hk.2]
        constructor
        · rintro ⟨hq, h1, h2⟩; exact ⟨hq, h2, (hs k hk.1 q hq).mpr h1⟩
        · rintro ⟨hq, h2, h1⟩; exact ⟨hq, (hs k hk.1 q hq).mp h1, h2⟩

/-- C36: with at least one sensor at the last node, there is one neighbour list per node. -/
theorem C36_one_list_per_node {c : TopoCfg} {nS : List Nat} {coords : Option (List Pt)}
    {rnd : Nat → Nat → Nat} {topo : Nat → Nat → ℝ} {nb : List (List Nat)}
    (h : getTopo c (sensorToNode nS) coords rnd = .ok (topo, nb))
    (hlast : ∃ s, 0 < s ∧ nS.getLast? = some s) : nb.length = nS.length := by
  obtain ⟨n, h1, h2, h3⟩ := C36_neighbours h
  rw [h3.length]
  obtain ⟨s, hs, hl⟩ := hlast
  rw [List.getLast?_eq_getElem?] at hl
  have hlen : 0 < nS.length := by
    rcases Nat.eq_zero_or_pos nS.length with e | e
    · rw [List.length_eq_zero_iff] at e; subst e; simp at hl
    · exact e
  have ha := h2 (nS.length - 1) (List.mem_of_getElem?
    ((s2n_getElem? nS _ _).mpr ⟨0, s, hl, hs, rfl⟩))
  obtain ⟨m, hm⟩ := List.mem_iff_getElem?.mp h1
  obtain ⟨j, s', hs', _⟩ := (s2n_getElem? nS _ _).mp hm
  have := (List.getElem?_eq_some_iff.mp hs').1
  omega

/-- C36: "every node gets a neighbour list" fails when the last node has no sensor. -/
theorem C36_refuted_empty_last_node (c : TopoCfg) (hc : c.topologyType = "fully-connected") :
    ∃ topo, getTopo c (sensorToNode [2, 0]) none (fun _ _ => 0) = .ok (topo, [[]]) := by
  refine ⟨fun _ _ => 1, ?_⟩
  have e : sensorToNode [2, 0] = [0, 0] := by decide
  rw [e, getTopo_eq (by simp)]
  unfold topoMatrix
  rw [if_pos hc]
  have e2 : topoNodes [0, 0] = 1 := rfl
  simp [Except.map, e2]

/-- C36: fully connected: every other node is a neighbour. -/
theorem C36_fully_connected {c : TopoCfg} (hc : c.topologyType = "fully-connected")
    {s2n : List Nat} (hne : s2n ≠ []) (coords : Option (List Pt)) (rnd : Nat → Nat → Nat) :
    ∃ topo nb, getTopo c s2n coords rnd = .ok (topo, nb) ∧ ∀ k q, 0 < topo k q := by
  rw [getTopo_eq hne]
  unfold topoMatrix
  rw [if_pos hc]
  exact ⟨_, _, rfl, fun _ _ => zero_lt_one⟩

/-- C36: ad hoc in a room: two nodes are linked iff their centres are closer than the communication
distance. -/
theorem C36_ad_hoc {c : TopoCfg} (hc : c.topologyType = "ad-hoc")
    {s2n : List Nat} (hne : s2n ≠ []) (cs : List Pt) (rnd : Nat → Nat → Nat) :
    ∃ topo nb, getTopo c s2n (some cs) rnd = .ok (topo, nb) ∧
      ∀ k q a b, nodeCentre s2n cs k = some a → nodeCentre s2n cs q = some b →
        (0 < topo k q ↔ ptDist a b < c.commDistance) := by
  rw [getTopo_eq hne]
  unfold topoMatrix
  rw [if_neg (by rw [hc]; decide), if_pos hc]
  refine ⟨_, _, rfl, fun k q a b ha hb => ?_⟩
  simp only [ha, hb]
  rw [ptDist_comm b a]
  by_cases h : ptDist a b < c.commDistance
  · simp [h]
  · simp [h]

/-- C36: user-defined: accepted iff valid, and then the links are the 1 entries. -/
theorem C36_user_defined {c : TopoCfg} (hc : c.topologyType = "user-defined")
    {nS : List Nat} (hlast : ∃ s, 0 < s ∧ nS.getLast? = some s)
    (coords : Option (List Pt)) (rnd : Nat → Nat → Nat) :
    (ValidConn nS.length c.userDefinedTopo → ∃ topo nb,
      getTopo c (sensorToNode nS) coords rnd = .ok (topo, nb) ∧
      ∀ k < nS.length, ∀ q < nS.length, 0 < topo k q ↔ c.userDefinedTopo.at' k q = 1) ∧
    (¬ ValidConn nS.length c.userDefinedTopo →
      getTopo c (sensorToNode nS) coords rnd = .error .valueError) := by
  have hlen : topoNodes (sensorToNode nS) = nS.length ∧ sensorToNode nS ≠ [] := by
    obtain ⟨topo, nb, h, -⟩ := C36_fully_connected (c := ⟨"fully-connected", 0, ⟨0, 0, 0⟩⟩) rfl
      (s2n := sensorToNode nS) (by
        intro e
        obtain ⟨s, hs, hl⟩ := hlast
        rw [List.getLast?_eq_getElem?] at hl
        have := (s2n_getElem? nS _ _).mpr ⟨0, s, hl, hs, rfl⟩
        rw [e] at this; simp at this) none (fun _ _ => 0)
    have h1 := C36_one_list_per_node h hlast
    have hne : sensorToNode nS ≠ [] := by intro e; rw [e] at h; cases h
    rw [getTopo_eq hne] at h
    unfold topoMatrix at h
    rw [if_pos rfl] at h
    have := (Prod.mk.inj (Except.ok.inj h)).2
    rw [← this] at h1
    exact ⟨by simpa using h1, hne⟩
  rw [getTopo_eq hlen.2, hlen.1]
  unfold topoMatrix
  rw [if_neg (by rw [hc]; decide), if_neg (by rw [hc]; decide), if_pos hc]
  simp only
  have hclose : (∀ i < nS.length, ∀ j < nS.length,
      c.userDefinedTopo.at' i j = c.userDefinedTopo.at' j i) →
      c.userDefinedTopo.rows = nS.length → c.userDefinedTopo.cols = nS.length →
      npAllcloseT c.userDefinedTopo := by
    intro h hr hcol i hi j hj
    rw [h i (by omega) j (by omega), sub_self, abs_zero]
    positivity
  constructor
  · rintro ⟨hr, hcol, hv, hs⟩
    rw [if_neg (by rw [hr, hcol, not_not]), if_neg (by
      rw [hr, hcol, not_not]; exact hv), if_neg (by rw [not_not]; exact hclose hs hr hcol)]
    refine ⟨_, _, rfl, fun k hk q hq => ?_⟩
    rcases hv k hk q hq with e | e <;> rw [e] <;> norm_num
  · intro hn
    by_cases h4 : (c.userDefinedTopo.rows, c.userDefinedTopo.cols) ≠ (nS.length, nS.length)
    · rw [if_pos h4]; rfl
    rw [if_neg h4]
    by_cases h5 : ¬ ∀ i < c.userDefinedTopo.rows, ∀ j < c.userDefinedTopo.cols,
        c.userDefinedTopo.at' i j = 0 ∨ c.userDefinedTopo.at' i j = 1
    · rw [if_pos h5]; rfl
    rw [if_neg h5]
    by_cases h6 : ¬ npAllcloseT c.userDefinedTopo
    · rw [if_pos h6]; rfl
    exfalso
    apply hn
    rw [not_not] at h4 h5 h6
    simp only [Prod.mk.injEq] at h4
    refine ⟨h4.1, h4.2, fun i hi j hj => h5 i (by omega) j (by omega), fun i hi j hj => ?_⟩
    have a := h6 i (by omega) j (by omega)
    rcases h5 i (by omega) j (by omega) with e | e <;>
      rcases h5 j (by omega) i (by omega) with e' | e' <;> rw [e, e'] at a ⊢
    · norm_num at a
    · norm_num at a

/-- C36: any other topology name is rejected. -/
theorem C36_unknown_rejected {c : TopoCfg} (s2n : List Nat) (coords : Option (List Pt))
    (rnd : Nat → Nat → Nat)
    (hc : c.topologyType ∉ ["fully-connected", "ad-hoc", "user-defined"]) :
    getTopo c s2n coords rnd = .error .valueError := by
  simp only [List.mem_cons, not_or, List.not_mem_nil, not_false_eq_true, and_true] at hc
  by_cases hne : s2n = []
  · subst hne; rfl
  rw [getTopo_eq hne]
  unfold topoMatrix
  rw [if_neg hc.1, if_neg hc.2.1, if_neg hc.2.2]
  rfl

/-- C36: "an accepted topology is connected" fails for ad-hoc networks: two nodes out of reach are
accepted with no link at all. -/
theorem C36_refuted_connected :
    ∃ topo, getTopo ⟨"ad-hoc", 1, ⟨0, 0, 0⟩⟩ [0, 1] (some [fun _ => 0, fun _ => 1]) (fun _ _ => 0) =
      .ok (topo, [[], []]) := by
  obtain ⟨topo, nb, h, hl⟩ := C36_ad_hoc (c := ⟨"ad-hoc", 1, ⟨0, 0, 0⟩⟩) rfl (s2n := [0, 1])
    (by simp) [fun _ => 0, fun _ => 1] (fun _ _ => 0)
  obtain ⟨n, h1, h2, h3⟩ := C36_neighbours h
  have hn : n = 2 := by
    have := h2 1 (by simp)
    simp only [List.mem_cons, List.not_mem_nil, or_false] at h1; omega
  subst hn
  have c0 : nodeCentre [0, 1] [fun _ => 0, fun _ => 1] 0 = some fun _ => 0 := by
    have e : npWhereEq [0, 1] 0 = [0] := by decide
    simp only [nodeCentre, e]
    rw [if_neg (by simp)]
    simp
  have c1 : nodeCentre [0, 1] [fun _ => 0, fun _ => 1] 1 = some fun _ => 1 := by
    have e : npWhereEq [0, 1] 1 = [1] := by decide
    simp only [nodeCentre, e]
    rw [if_neg (by simp)]
    simp
  have hd : ¬ ptDist (fun _ => 0) (fun _ => 1) < 1 := by
    unfold ptDist
    rw [not_lt, Real.le_sqrt (by norm_num) (Finset.sum_nonneg fun i _ => sq_nonneg _)]
    norm_num
  have no01 : ¬ 0 < topo 0 1 := by rw [hl 0 1 _ _ c0 c1]; exact hd
  have no10 : ¬ 0 < topo 1 0 := by rw [hl 1 0 _ _ c1 c0, ptDist_comm]; exact hd
  refine ⟨topo, ?_⟩
  rw [h]
  congr 2
  have hlen := h3.length
  match nb, hlen with
  | [l0, l1], _ =>
    have m0 := h3.mem 0 l0 rfl
    have m1 := h3.mem 1 l1 rfl
    have e0 : l0 = [] := by
      rw [List.eq_nil_iff_forall_not_mem]
      intro q hq
      obtain ⟨hq2, hq0, hl⟩ := (m0 q).mp hq
      have : q = 1 := by omega
      subst this; exact no01 hl
    have e1 : l1 = [] := by
      rw [List.eq_nil_iff_forall_not_mem]
      intro q hq
      obtain ⟨hq2, hq0, hl⟩ := (m1 q).mp hq
      have : q = 0 := by omega
      subst this; exact no10 hl
    rw [e0, e1]

/-- Three nodes in a line, user-defined, are accepted. -/
example : ValidConn [1, 2, 1].length
    ⟨3, 3, fun i j => if i = j + 1 ∨ j = i + 1 then 1 else 0⟩ := by
  refine ⟨rfl, rfl, fun i _ j _ => ?_, fun i _ j _ => ?_⟩
  · simp only; split <;> simp
  · simp only [or_comm]

/-- C40: the sensor-to-node map lists, for every sensor of the network, the node that owns it; its
length is the number of sensors. -/
theorem C40_partition (nS : List Nat) (m k : Nat) :
    ((sensorToNode nS)[m]? = some k ↔ ∃ j, Owns nS k j m) ∧ (sensorToNode nS).length = nS.sum :=
  ⟨s2n_getElem? nS m k, s2n_length nS⟩

/-- C40: the node owns a block of consecutive sensors, one for each of its sensors. -/
theorem C40_block {nS : List Nat} {k s : Nat} (h : nS[k]? = some s) :
    npWhereEq (sensorToNode nS) k = (List.range s).map (firstSensor nS k + ·) :=
  npWhereEq_s2n h

/-- C40: replacing sensors by noise hits exactly the requested sensor: for every sensor index the
code finds the node owning it and its position there, and fails if there is no such sensor. -/
theorem C40_sensor_owner (nS : List Nat) (m : Nat) :
    (∀ k j, sensorOwner nS m = .ok (k, j) ↔ Owns nS k j m) ∧
    (nS.sum ≤ m → sensorOwner nS m = .error .indexError) := by
  unfold sensorOwner
  rw [pyGet_nat]
  cases h : (sensorToNode nS)[m]? with
  | none =>
    constructor
    · intro k j
      constructor
      · intro e; cases e
      · intro e
        rw [(s2n_getElem? nS m k).mpr ⟨j, e⟩] at h; cases h
    · intro _; rfl
  | some k0 =>
    obtain ⟨j0, ho⟩ := (s2n_getElem? nS m k0).mp h
    have ho' := ho
    obtain ⟨s, hs, hj, e⟩ := ho'
    have hf : (npWhereEq (sensorToNode nS) k0).findIdx? (· == m) = some j0 := by
      rw [npWhereEq_s2n hs, List.findIdx?_eq_some_iff_getElem]
      refine ⟨by simpa using hj, by simp [e], fun j hjl => ?_⟩
      simp [e]; omega
    constructor
    · intro k j
      change (match (npWhereEq (sensorToNode nS) k0).findIdx? (· == m) with
        | some j => Except.ok (k0, j)
        | none => Except.error PyErr.valueError) = _ ↔ _
      rw [hf]
      constructor
      · intro e
        obtain ⟨rfl, rfl⟩ := Prod.mk.inj (Except.ok.inj e)
        exact ho
      · intro ho2
        obtain ⟨rfl, rfl⟩ := ho.unique ho2
        rfl
    · intro hle
      have := (List.getElem?_eq_some_iff.mp h).1
      rw [s2n_length] at this; omega

/-- C40: what the reference-microphone SNR option selects: the node NUMBERED like the first sensor of
node number `m`. -/
theorem C40_ref_mic {nS : List Nat} {m s : Nat} (h : nS[m]? = some s) (hs : 0 < s) :
    refMicOf nS m = .ok (firstSensor nS m,
      (m : Int) - (firstSensor nS (firstSensor nS m) : Nat)) := by
  unfold refMicOf
  rw [npWhereEq_s2n h]
  cases s with
  | zero => omega
  | succ s =>
    rw [List.range_succ_eq_map, List.map_cons, Nat.add_zero]
    rfl

/-- C40: the option is right when every node has one sensor. -/
theorem C40_ref_mic_single_sensors {K m : Nat} (h : m < K) :
    refMicOf (List.replicate K 1) m = .ok (m, 0) ∧ Owns (List.replicate K 1) m 0 m := by
  have hf : ∀ k ≤ K, firstSensor (List.replicate K 1) k = k := by
    intro k hk
    unfold firstSensor
    rw [List.take_replicate, Nat.min_eq_left hk]; simp
  have hget : (List.replicate K 1)[m]? = some 1 := by simp [h]
  refine ⟨?_, 1, hget, by omega, ?_⟩
  · rw [C40_ref_mic hget (by omega), hf m (by omega), hf m (by omega)]; simp
  · rw [hf m (by omega), Nat.add_zero]

/-- C40: "the reference-microphone option selects the microphone of that index" fails: with two
sensors at each of two nodes, microphone 1 belongs to node 0 (sensor 1) but the code selects a node 2,
which does not exist; microphone 2 (node 1, sensor 0) raises `IndexError` at once. -/
theorem C40_refuted_ref_mic :
    (Owns [2, 2] 0 1 1 ∧ refMicOf [2, 2] 1 = .ok (2, -3)) ∧
    (Owns [2, 2] 1 0 2 ∧ refMicOf [2, 2] 2 = .error .indexError) :=
  ⟨⟨⟨2, rfl, by decide, rfl⟩, rfl⟩, ⟨2, rfl, by decide, rfl⟩, rfl⟩

example : sensorToNode [2, 1, 3] = [0, 0, 1, 2, 2, 2] ∧ sensorOwner [2, 1, 3] 4 = .ok (2, 1) := by
  constructor <;> rfl

end Danse
