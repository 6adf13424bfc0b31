import Verif.Model.NoiseSensors
import Verif.Props.Topo
import Verif.Proofs.Config

/-!
# C110: sensors made useless
-/

namespace Danse

variable {σ : Type}

/-- Every node has as many signals of each kind as sensors, at least one more than `ref`, and its reference
signals are those of sensor `ref`. -/
structure NodesOk (nS : List Nat) (ref : Nat) (nodes : List (NodeSigs σ)) : Prop where
  length : nodes.length = nS.length
  shape : ∀ (k : Nat) nd, nodes[k]? = some nd → nS[k]? = some nd.data.length ∧
    nd.speech.length = nd.data.length ∧ nd.noise.length = nd.data.length
  refs : ∀ (k : Nat) nd, nodes[k]? = some nd → nd.speech[ref]? = some nd.speechRef ∧
    nd.noise[ref]? = some nd.noiseRef

/-- The three signals of sensor `j` of node `k`. -/
def sensorSigs (nodes : List (NodeSigs σ)) (k j : Nat) : Option σ × Option σ × Option σ :=
  (nodes[k]?.bind (·.data[j]?), nodes[k]?.bind (·.speech[j]?), nodes[k]?.bind (·.noise[j]?))

theorem pyGet_some {α : Type} {l : List α} {i : Nat} {x : α} (h : l[i]? = some x) : pyGet l i = .ok x := by
  rw [pyGet_nat, h]

theorem findIdx_owner {nS : List Nat} {k j m : Nat} (ho : Owns nS k j m) :
    (npWhereEq (sensorToNode nS) k).findIdx? (fun (i : Nat) => (i : Int) == (m : Int)) = some j := by
  obtain ⟨s, hs, hj, e⟩ := ho
  rw [npWhereEq_s2n hs, List.findIdx?_eq_some_iff_getElem]
  refine ⟨by simpa using hj, by simp [e], fun j hjl => ?_⟩
  simp [e]; omega

theorem replaceSensor_ok {nS : List Nat} {ref k j m : Nat} {nodes : List (NodeSigs σ)}
    (h : NodesOk nS ref nodes) (ho : Owns nS k j m) (x : σ × σ × σ) :
    ∃ nodes', replaceSensor (sensorToNode nS) ref nodes m x = .ok nodes' ∧ NodesOk nS ref nodes' ∧
      sensorSigs nodes' k j = (some x.1, some x.2.1, some x.2.2) ∧
      (∀ k' j', (k', j') ≠ (k, j) → sensorSigs nodes' k' j' = sensorSigs nodes k' j') ∧
      ∀ k' : Nat, nodes'[k']?.map (·.nSensors) = nodes[k']?.map (·.nSensors) := by
  have hk : pyGet (sensorToNode nS) m = .ok k := pyGet_some ((s2n_getElem? nS m k).mpr ⟨j, ho⟩)
  have hj := findIdx_owner ho
  obtain ⟨s, hs, hjs, e⟩ := ho
  have hkl : k < nodes.length := by
    rw [h.length]; exact (List.getElem?_eq_some_iff.mp hs).1
  obtain ⟨nd, hnd⟩ : ∃ nd, nodes[k]? = some nd := ⟨_, List.getElem?_eq_getElem hkl⟩
  obtain ⟨s1, s2, s3⟩ := h.shape k nd hnd
  obtain ⟨r1, r2⟩ := h.refs k nd hnd
  rw [hs] at s1
  injection s1 with s1
  have hr1 : ref < nd.speech.length := (List.getElem?_eq_some_iff.mp r1).1
  have hr2 : ref < nd.noise.length := (List.getElem?_eq_some_iff.mp r2).1
  obtain ⟨sr, hsr⟩ : ∃ sr, (nd.speech.set j x.2.1)[ref]? = some sr :=
    ⟨_, List.getElem?_eq_getElem (by rw [List.length_set]; exact hr1)⟩
  obtain ⟨nr, hnr⟩ : ∃ nr, (nd.noise.set j x.2.2)[ref]? = some nr :=
    ⟨_, List.getElem?_eq_getElem (by rw [List.length_set]; exact hr2)⟩
  refine ⟨nodes.set k { nd with
      data := nd.data.set j x.1, speech := nd.speech.set j x.2.1, noise := nd.noise.set j x.2.2,
      speechRef := sr, noiseRef := nr }, ?_, ⟨?_, ?_, ?_⟩, ?_, ?_, ?_⟩
  · unfold replaceSensor
    rw [hk]
    change (do
      let j ← ((npWhereEq (sensorToNode nS) k).findIdx? (fun (i : Nat) => (i : Int) == (m : Int))).elim
        (Except.error PyErr.valueError) Except.ok
      let nd ← pyGet nodes k
      if j < nd.data.length then do
        let sr ← pyGet (nd.speech.set j x.2.1) ref
        let nr ← pyGet (nd.noise.set j x.2.2) ref
        return nodes.set k { nd with
          data := nd.data.set j x.1, speech := nd.speech.set j x.2.1, noise := nd.noise.set j x.2.2,
          speechRef := sr, noiseRef := nr }
      else throw PyErr.indexError : Except PyErr (List (NodeSigs σ))) = _
    rw [hj]
    change (do
      let nd ← pyGet nodes k
      if j < nd.data.length then do
        let sr ← pyGet (nd.speech.set j x.2.1) ref
        let nr ← pyGet (nd.noise.set j x.2.2) ref
        return nodes.set k { nd with
          data := nd.data.set j x.1, speech := nd.speech.set j x.2.1, noise := nd.noise.set j x.2.2,
          speechRef := sr, noiseRef := nr }
      else throw PyErr.indexError : Except PyErr (List (NodeSigs σ))) = _
    rw [pyGet_some hnd]
    change (if j < nd.data.length then do
        let sr ← pyGet (nd.speech.set j x.2.1) ref
        let nr ← pyGet (nd.noise.set j x.2.2) ref
        return nodes.set k { nd with
          data := nd.data.set j x.1, speech := nd.speech.set j x.2.1, noise := nd.noise.set j x.2.2,
          speechRef := sr, noiseRef := nr }
      else throw PyErr.indexError : Except PyErr (List (NodeSigs σ))) = _
    rw [if_pos (by omega), pyGet_some hsr]
    change (do
        let nr ← pyGet (nd.noise.set j x.2.2) ref
        return nodes.set k { nd with
          data := nd.data.set j x.1, speech := nd.speech.set j x.2.1, noise := nd.noise.set j x.2.2,
          speechRef := sr, noiseRef := nr }) = _
    rw [pyGet_some hnr]
    rfl
  · rw [List.length_set]; exact h.length
  · intro k' nd' hnd'
    by_cases hkk : k = k'
    · subst hkk
      rw [List.getElem?_set_self hkl] at hnd'
      injection hnd' with hnd'
      subst hnd'
      simp only [List.length_set]
      exact ⟨by rw [hs, s1], s2, s3⟩
    · rw [List.getElem?_set_ne hkk] at hnd'
      exact h.shape k' nd' hnd'
  · intro k' nd' hnd'
    by_cases hkk : k = k'
    · subst hkk
      rw [List.getElem?_set_self hkl] at hnd'
      injection hnd' with hnd'
      subst hnd'
      exact ⟨hsr, hnr⟩
    · rw [List.getElem?_set_ne hkk] at hnd'
      exact h.refs k' nd' hnd'
  · unfold sensorSigs
    rw [List.getElem?_set_self hkl]
    simp only [Option.bind_some]
    rw [List.getElem?_set_self (by omega), List.getElem?_set_self (by omega), List.getElem?_set_self (by omega)]
  · intro k' j' hne
    unfold sensorSigs
    by_cases hkk : k = k'
    · subst hkk
      have hjj : j ≠ j' := fun e => hne (by rw [e])
      rw [List.getElem?_set_self hkl, hnd]
      simp only [Option.bind_some]
      rw [List.getElem?_set_ne hjj, List.getElem?_set_ne hjj, List.getElem?_set_ne hjj]
    · rw [List.getElem?_set_ne hkk]
  · intro k'
    by_cases hkk : k = k'
    · subst hkk
      rw [List.getElem?_set_self hkl, hnd]; rfl
    · rw [List.getElem?_set_ne hkk]

/-- **C110 (replaced sensors).** Asked to replace sensors of the network, not only sensor 0: exactly the
signals of those sensors are replaced, by what is drawn for them; the reference signals follow. -/
theorem C110_replaced {nS : List Nat} {ref : Nat} {nodes : List (NodeSigs σ)} (h : NodesOk nS ref nodes)
    (ms : List Nat) (hms : ∀ m ∈ ms, m < nS.sum) (hnz : ∃ m ∈ ms, m ≠ 0) (draw : Nat → σ × σ × σ) :
    ∃ nodes', replaceSensors (sensorToNode nS) ref (ms.map Int.ofNat) draw nodes = .ok nodes' ∧
      NodesOk nS ref nodes' ∧
      (∀ k' : Nat, nodes'[k']?.map (·.nSensors) = nodes[k']?.map (·.nSensors)) ∧
      ∀ k j m, Owns nS k j m →
        (m ∉ ms → sensorSigs nodes' k j = sensorSigs nodes k j) ∧
        ∀ p, ms[p]? = some m → m ∉ ms.drop (p + 1) →
          sensorSigs nodes' k j = (some (draw p).1, some (draw p).2.1, some (draw p).2.2) := by
  unfold replaceSensors
  have hany : (ms.map Int.ofNat).any (· != 0) = true := by
    obtain ⟨m, hm, h0⟩ := hnz
    rw [List.any_eq_true]
    exact ⟨Int.ofNat m, List.mem_map_of_mem hm, by simpa using h0⟩
  rw [if_pos hany]
  clear hnz hany
  induction ms using List.reverseRecOn with
  | nil => exact ⟨nodes, rfl, h, fun _ => rfl, fun k j m ho => ⟨fun _ => rfl, by simp⟩⟩
  | append_singleton l m ih =>
    obtain ⟨n1, e1, h1, c1, f1⟩ := ih (fun m hm => hms m (by simp [hm]))
    obtain ⟨k0, hk0⟩ : ∃ k0, (sensorToNode nS)[m]? = some k0 := by
      have : m < (sensorToNode nS).length := by rw [s2n_length]; exact hms m (by simp)
      exact ⟨_, List.getElem?_eq_getElem this⟩
    obtain ⟨j0, ho0⟩ := (s2n_getElem? nS m k0).mp hk0
    obtain ⟨n2, e2, h2, g2, f2, c2⟩ := replaceSensor_ok h1 ho0 (draw l.length)
    refine ⟨n2, ?_, h2, fun k' => (c2 k').trans (c1 k'), ?_⟩
    · rw [List.map_append, List.zipIdx_append, List.foldlM_append, e1]
      simp only [List.map_cons, List.map_nil, List.length_map, List.zipIdx_cons, List.zipIdx_nil,
        List.foldlM_cons, List.foldlM_nil, Nat.zero_add]
      change (replaceSensor (sensorToNode nS) ref n1 m (draw l.length) >>= fun s => pure s) = _
      rw [e2]; rfl
    · intro k j m' ho
      by_cases hmm : m' = m
      · subst hmm
        obtain ⟨rfl, rfl⟩ := ho.unique ho0
        refine ⟨fun hn => absurd (by simp) hn, ?_⟩
        intro p hp hd
        have hpl : p = l.length := by
          by_contra hne
          have hlt : p < l.length := by
            have := (List.getElem?_eq_some_iff.mp hp).1
            rw [List.length_append, List.length_singleton] at this
            omega
          apply hd
          rw [List.drop_append_of_le_length (by omega)]
          simp
        subst hpl
        exact g2
      · have hne : (k, j) ≠ (k0, j0) := by
          intro e
          obtain ⟨rfl, rfl⟩ := Prod.mk.inj e
          apply hmm
          obtain ⟨s, -, -, ea⟩ := ho
          obtain ⟨s', -, -, eb⟩ := ho0
          rw [ea, eb]
        rw [f2 k j hne]
        refine ⟨fun hn => (f1 k j m' ho).1 (fun hm => hn (by simp [hm])), ?_⟩
        intro p hp hd
        have hlt : p < l.length := by
          by_contra hge
          have h3 := (List.getElem?_eq_some_iff.mp hp).1
          rw [List.length_append, List.length_singleton] at h3
          have : p = l.length := by omega
          subst this
          simp at hp
          exact hmm hp.symm
        refine (f1 k j m' ho).2 p (by rw [List.getElem?_append_left hlt] at hp; exact hp) ?_
        intro hm
        apply hd
        rw [List.drop_append_of_le_length (by omega)]
        simp [hm]

/-- **C110, refuted (sensor 0).** Sensor 0 alone is not replaced. -/
theorem C110_refuted_sensor_zero (s2n : List Nat) (ref : Nat) (draw : Nat → σ × σ × σ)
    (nodes : List (NodeSigs σ)) : replaceSensors s2n ref [0] draw nodes = .ok nodes := rfl

/-- **C110, refuted (components).** The signal of a replaced sensor is not the sum of its components: there
is a network in which it was the sum at every sensor, and is not afterwards. -/
theorem C110_refuted_components : ∃ (nodes nodes' : List (NodeSigs Int)) (draw : Nat → Int × Int × Int),
    NodesOk [2] 0 nodes ∧ (∀ nd ∈ nodes, nd.data = List.zipWith (· + ·) nd.speech nd.noise) ∧
    replaceSensors (sensorToNode [2]) 0 [1] draw nodes = .ok nodes' ∧
    ∃ nd ∈ nodes', nd.data ≠ List.zipWith (· + ·) nd.speech nd.noise := by
  refine ⟨[⟨2, [3, 5], [1, 2], [2, 3], 1, 2⟩], _, fun _ => (1, 1, 1), ⟨rfl, ?_, ?_⟩, by decide, rfl,
    _, List.mem_singleton_self _, by decide⟩
  · intro k nd h
    rcases k with _ | k
    · injection h with h; subst h; exact ⟨rfl, rfl, rfl⟩
    · simp at h
  · intro k nd h
    rcases k with _ | k
    · injection h with h; subst h; exact ⟨rfl, rfl⟩
    · simp at h

theorem addSensors_get {nodes nodes' : List (NodeSigs σ)} {ii : Nat} {sig : List σ}
    (h : addSensors nodes ii sig = .ok nodes') :
    ∃ nd, nodes[ii]? = some nd ∧ nodes' = nodes.set ii { nd with
      nSensors := nd.nSensors + sig.length, data := nd.data ++ sig, speech := nd.speech ++ sig,
      noise := nd.noise ++ sig } := by
  unfold addSensors at h
  obtain ⟨nd, hnd, h⟩ := bind_ok_inv h
  injection h with h
  refine ⟨nd, ?_, h.symm⟩
  rw [pyGet_nat] at hnd
  cases hl : nodes[ii]? with
  | none => rw [hl] at hnd; cases hnd
  | some y => rw [hl] at hnd; injection hnd with hnd; rw [hnd]

/-- **C110 (added sensors).** With one number per node, none negative: node `k` gets that many more sensors,
after its own, which are unchanged; the signals of an added sensor are all the same one; the reference
signals do not change. -/
theorem C110_added (nodes : List (NodeSigs σ)) (added : List Nat) (hl : added.length ≤ nodes.length)
    (draw : Nat → Nat → σ) :
    ∃ nodes', addAll (added.map Int.ofNat) draw nodes = .ok nodes' ∧ nodes'.length = nodes.length ∧
      ∀ (k : Nat) nd, nodes[k]? = some nd →
        nodes'[k]? = some { nd with
          nSensors := nd.nSensors + added.getD k 0
          data := nd.data ++ (List.range (added.getD k 0)).map (draw k)
          speech := nd.speech ++ (List.range (added.getD k 0)).map (draw k)
          noise := nd.noise ++ (List.range (added.getD k 0)).map (draw k) } := by
  unfold addAll
  induction added using List.reverseRecOn with
  | nil => exact ⟨nodes, rfl, rfl, fun k nd h => by simpa using h⟩
  | append_singleton l a ih =>
    rw [List.length_append, List.length_singleton] at hl
    obtain ⟨n1, e1, l1, f1⟩ := ih (by omega)
    obtain ⟨nd0, hnd0⟩ : ∃ nd, nodes[l.length]? = some nd :=
      ⟨_, List.getElem?_eq_getElem (by omega)⟩
    have h1 := f1 _ _ hnd0
    have h0 : l.getD l.length 0 = 0 := by simp
    rw [h0] at h1
    simp only [List.range_zero, List.map_nil, List.append_nil, Nat.add_zero] at h1
    refine ⟨n1.set l.length { nd0 with
        nSensors := nd0.nSensors + a, data := nd0.data ++ (List.range a).map (draw l.length),
        speech := nd0.speech ++ (List.range a).map (draw l.length),
        noise := nd0.noise ++ (List.range a).map (draw l.length) }, ?_, by rw [List.length_set, l1], ?_⟩
    · rw [List.map_append, List.zipIdx_append, List.foldlM_append, e1]
      simp only [List.map_cons, List.map_nil, List.length_map, List.zipIdx_cons, List.zipIdx_nil,
        List.foldlM_cons, List.foldlM_nil, Nat.zero_add]
      change ((if (a : Int) < 0 then Except.error PyErr.valueError else
        addSensors n1 l.length ((List.range (Int.ofNat a).toNat).map (draw l.length))) >>= fun s => pure s) = _
      rw [if_neg (by omega)]
      unfold addSensors
      rw [pyGet_some h1]
      simp
    · intro k nd hk
      by_cases hkl : l.length = k
      · subst hkl
        rw [List.getElem?_set_self (by rw [l1]; omega)]
        rw [hnd0] at hk
        injection hk with hk
        subst hk
        simp
      · rw [List.getElem?_set_ne hkl, f1 k nd hk]
        have : (l ++ [a]).getD k 0 = l.getD k 0 := by
          rw [List.getD_eq_getElem?_getD, List.getD_eq_getElem?_getD, List.getElem?_append]
          by_cases hlt : k < l.length
          · rw [if_pos hlt]
          · rw [if_neg hlt]
            obtain ⟨c, hc⟩ : ∃ c, k - l.length = c + 1 := ⟨k - l.length - 1, by omega⟩
            rw [hc, List.getElem?_eq_none (by omega : l.length ≤ k)]
            simp
        rw [this]

/-- Concrete: sensors 0 and 4 of a network with 2, 1 and 3 sensors are replaced. -/
example : (∀ m ∈ [0, 4], m < [2, 1, 3].sum) ∧ (∃ m ∈ [0, 4], m ≠ 0) ∧ Owns [2, 1, 3] 2 1 4 ∧
    [0, 4][1]? = some 4 ∧ 4 ∉ [0, 4].drop 2 := by
  refine ⟨by decide, ⟨4, by decide, by decide⟩, ⟨3, rfl, by decide, rfl⟩, rfl, by decide⟩

end Danse
