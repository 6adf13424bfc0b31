import Verif.Proofs.DanseCentr7

/-!
# Property C130 (2): what the nodes of a synchronous network hear for these estimates
-/

set_option linter.unusedSectionVars false

namespace Danse
section
variable {K : Type} [Field K] [StarRing K] [DecidableEq K] {C : CDanseCfg K} {y : Nat → List (List K)} {T : Nat}
  {fs : ℚ} {n : Nat} {nbs : List (List Nat)} {out : List (Instant ℚ)} {a : CDanseSt C}

/-- C130 (i): in a synchronous network (Spec/DanseCentr.lean), without SRO compensation, what a node has heard for its
centralised estimate is what a device with all the sensors of the network would have recorded: their raw signals, in the
order of the nodes, aligned to the sample, from the first update on. -/
theorem C130_heard (hs : C.Sync y fs n nbs out) (hc : C.centr = true) {k : Nat} (hk : k < C.n)
    (hrot : ∀ l c κ, C.rotC k l c κ = 1) (h : cdanseRun C y T (flatEvents out) = .ok a) :
    C.heardC k (a.chist k) =
      C.recorded ((List.range C.n).flatMap y) C.total C.cvad (C.D.bypass k) fs n := by
  have hlen := cdanse_chist_length hs h hk
  apply List.ext_getElem?
  intro i
  unfold CDanseCfg.heardC CDanseCfg.recorded
  simp only
  rw [List.getElem?_map, List.getElem?_map, List.getElem?_zipIdx]
  by_cases hi : i < (a.chist k).length
  · obtain ⟨o, ho⟩ : ∃ o, (a.chist k)[i]? = some o := ⟨_, List.getElem?_eq_getElem hi⟩
    obtain ⟨ht, hy⟩ := cdanse_sync hs hc h hk ho
    rw [ho, List.getElem?_range (by omega)]
    simp only [Option.map_some, Nat.zero_add]
    congr 2
    funext κ c
    rw [hrot, mul_one]
    unfold coef
    congr 1
    have hcl : (c : Nat) < ((List.range C.n).flatMap y).length := by rw [flatMap_total hs.sensors]; exact c.isLt
    rw [hy, List.getD_eq_getElem?_getD, List.getElem?_map, List.getElem?_map, List.getElem?_eq_getElem hcl,
      List.getD_eq_getElem?_getD (l := (List.range C.n).flatMap y), List.getElem?_eq_getElem hcl]
    rfl
  · rw [List.getElem?_eq_none (by omega), List.getElem?_eq_none (by simp; omega)]
    rfl

/-- C130 (j): and for its single-sensor-broadcast estimate the raw signals of its own sensors, then of the first sensor of
every other node. -/
theorem C130_heard_single (hs : C.Sync y fs n nbs out) (hc : C.centr = true) (hss : C.ssbc = true)
    (hpos : ∀ q < C.n, 0 < C.D.M q) {k : Nat} (hk : k < C.n) (h : cdanseRun C y T (flatEvents out) = .ok a) :
    C.heardS k (a.chist k) =
      C.recorded (y k ++ (C.others k).map fun q => (y q).getD 0 []) (C.D.dim k) (C.D.vad k) (C.D.bypass k) fs n := by
  have hlen := cdanse_chist_length hs h hk
  apply List.ext_getElem?
  intro i
  unfold CDanseCfg.heardS CDanseCfg.recorded
  simp only
  rw [List.getElem?_map, List.getElem?_map, List.getElem?_zipIdx]
  by_cases hi : i < (a.chist k).length
  · obtain ⟨o, ho⟩ : ∃ o, (a.chist k)[i]? = some o := ⟨_, List.getElem?_eq_getElem hi⟩
    obtain ⟨ht, hy⟩ := cdanse_sync hs hc h hk ho
    have hup : o.t ∈ upTimes (flatEvents out) k := by
      obtain ⟨pre, post, b, e, -, -⟩ := cdanse_at h ho
      rw [e]; exact List.mem_of_getElem? upTimes_at
    have hNn := (cdanse_long hs hk hup).1
    obtain ⟨hd, hp⟩ := cdanse_places hc hss hs.hN hs.sensors
      (fun q hq x hx => by rw [hs.samples q hq x hx]; omega) (cdanse_times hs).2 hk
      (fun t ht => (cdanse_long hs hk ht).2) (fun q hq _ => hpos q hq) h ho
    rw [ho, List.getElem?_range (by omega)]
    simp only [Option.map_some, Nat.zero_add]
    congr 2
    funext κ c
    unfold coef
    congr 1
    have hb := blocks_place (C := C) (f := y) hs.sensors (c := c) hk (fun q hq _ => hpos q hq) (by rw [← hd]; exact c.isLt)
    have hl : (c : Nat) < (y k ++ (C.others k).map fun q => (y q).getD 0 []).length := by
      rw [List.length_append, List.length_map, hs.sensors, ← hd]; exact c.isLt
    rw [List.getElem?_eq_getElem hl] at hb
    rw [List.getD_eq_getElem?_getD, List.getElem?_map, hp c c.isLt, hy, List.getElem?_map, ← hb,
      List.getD_eq_getElem?_getD (l := y k ++ _), List.getElem?_eq_getElem hl]
    rfl
  · rw [List.getElem?_eq_none (by omega), List.getElem?_eq_none (by simp; omega)]
    rfl

/-- C130 (k): so all the nodes that average alike have the same centralised covariance matrices at every update. -/
theorem C130_same (hs : C.Sync y fs n nbs out) (hc : C.centr = true) {k q : Nat} (hk : k < C.n) (hq : q < C.n)
    (hrk : ∀ l c κ, C.rotC k l c κ = 1) (hrq : ∀ l c κ, C.rotC q l c κ = 1)
    (hβ : C.D.beta k = C.D.beta q) (hR : ∀ m, C.D.R0 k m = C.D.R0 q m)
    (h : cdanseRun C y T (flatEvents out) = .ok a) (i : Nat) (b : Bool) :
    C.D.scm k b (C.heardC k ((a.chist k).take i)) = C.D.scm q b (C.heardC q ((a.chist q).take i)) := by
  have key : ∀ j < C.n, (∀ l c κ, C.rotC j l c κ = 1) → framesWith b (C.heardC j ((a.chist j).take i)) =
      framesWith b ((C.recorded ((List.range C.n).flatMap y) C.total C.cvad (fun _ => false) fs n).take i) := by
    intro j hj hr
    have e : C.heardC j ((a.chist j).take i) = (C.heardC j (a.chist j)).take i := heardC_take _ _ _
    rw [e, C130_heard hs hc hj hr h]
    unfold CDanseCfg.recorded framesWith
    simp only
    rw [← List.map_take, ← List.map_take, List.filter_map, List.filter_map, List.map_map, List.map_map]
    rfl
  unfold DanseCfg.scm
  rw [key k hk hrk, key q hq hrq, hβ, hR]

end
end Danse
