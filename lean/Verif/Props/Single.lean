import Verif.Proofs.Single
import Verif.Spec.Single
import Verif.Props.Danse2

/-!
# Property C128: single-sensor nodes that do not fuse are as good as wired
-/

set_option linter.unusedSectionVars false

namespace Danse
section
variable {K : Type} [Field K] [StarRing K] [DecidableEq K] {D : DanseCfg K} {y : Nat → List (List K)}
open Matrix

/-- C128 (a): the schedule of the code for synchronous nodes, few-sample broadcasts of `L` samples with `L` a divisor of
the frame shift, no SRO compensation. If the neighbours of node `q` have one sensor each and single-sensor nodes do not
fuse, then what node `q` has heard at its updates is what it would have heard with cables to their sensors: their raw
signals, aligned to the sample with its own, from the first update on, whatever filters the neighbours have. -/
theorem C128_heard {n L : Nat} (hn : 0 < n) {fs : ℚ} (hfs : 0 < fs)
    (hf : inferFs (clockStamps fs n) = .ok fs) (nbs : List (List Nat)) {seq sim : Bool}
    {ri : Nat} {first minF : Int} {fsInf : List ℚ} {out : List (Instant ℚ)} (hg : ∀ k, D.g.fs k = fs)
    (hb : D.g.bc = .few L false) (hL0 : 0 < L) (hLNs : L ∣ D.g.Ns) (hNs : 0 < D.g.Ns)
    (hout : initEventsFC D.g.bc D.g.N D.g.Ns seq sim ri first minF (syncNodes fs n nbs) = .ok (out, fsInf))
    (hri : sim = true → ri < nbs.length) (hN : 2 ≤ D.g.N) (hLN : L ≤ D.g.N) (gd : GoodNeighbours D.g.nb)
    {q : Nat} (hq : q < nbs.length) (hnb : ∀ k ∈ D.g.nb q, k < nbs.length)
    (hone : ∀ k ∈ D.g.nb q, D.M k = 1) (hM : ∀ k, (y k).length = D.M k)
    (hy : ∀ k < nbs.length, ∀ ch ∈ y k, ch.length = n)
    (href : D.g.refSensor = 0) (hfus : D.g.noFusion = true) (hrot : ∀ l c κ, D.rot q l c κ = 1)
    {T : Nat} {a : DanseSt D} (h : danseRun D y T (flatEvents out) = .ok a) :
    D.heard q (a.run.hist q) = D.wired y fs n q := by
  have hlen : (a.run.hist q).length = (n - 1) / D.g.Ns - ⌈(D.g.N : ℚ) / D.g.Ns⌉₊ := by
    obtain ⟨out', h3, h4, -⟩ := C78_schedule (bc := D.g.bc) (N := D.g.N) (Ns := D.g.Ns) (n := n) hNs hn hfs hf
      (by rw [hb]; intro h; cases h) (by rw [hb]; intro L e h; injection h with a b; subst a b; exact ⟨hL0, rfl⟩)
      nbs (seq := seq) (sim := sim) (r := ri) first minF hri
    rw [hout] at h3
    injection h3 with h3
    injection h3 with h3
    subst h3
    have h5 := (C77_observed (C117_instance h) q).1
    rw [(h4 q hq).1] at h5
    have := congrArg List.length h5
    rw [List.length_map, everySep_length] at this
    exact this
  have hal : (D.around y q).length = D.dim q := by
    unfold DanseCfg.around DanseCfg.dim
    rw [List.length_append, hM, List.length_flatMap]
    congr 1
    rw [List.map_congr_left (g := fun _ => 1) (fun k hk => by rw [hM, hone k hk])]
    simp
  apply List.ext_getElem?
  intro i
  unfold DanseCfg.heard DanseCfg.wired
  simp only
  rw [List.getElem?_map, List.getElem?_map, List.getElem?_zipIdx]
  by_cases hi : i < (a.run.hist q).length
  · obtain ⟨o, ho⟩ : ∃ o, (a.run.hist q)[i]? = some o := ⟨_, List.getElem?_eq_getElem hi⟩
    obtain ⟨j, hj, ht, -, -, hc⟩ := single_obs hn hfs hf nbs hg hb hL0 hLNs hNs hout hri hN hLN gd hq hnb
      (fun k hk => by rw [hM, hone k hk]) hy hone href hfus (C117_instance h) ho
    rw [ho, List.getElem?_range (by omega)]
    simp only [Option.map_some, Nat.zero_add]
    congr 2
    · funext κ c
      rw [hrot, mul_one]
      unfold coef
      congr 1
      have hcl : (c : Nat) < (D.around y q).length := by rw [hal]; exact c.isLt
      have h1 := hc c _ (List.getElem?_eq_getElem hcl)
      rw [List.getD_eq_getElem?_getD, List.getElem?_map, h1, List.getD_eq_getElem?_getD, List.getElem?_eq_getElem hcl, ← hj]
      rfl
    · rw [ht, hj]
  · rw [List.getElem?_eq_none (by omega), List.getElem?_eq_none (by simp; omega)]
    rfl

/-- C128 (b): so the filters of node `q` are those of a device that has all these sensors: without GEVD, once updating
has started, its row at the `i`-th update is in every bin the one solution of `Ryy w = (Ryy - Rnn) e_ref` with the
covariance matrices of the raw sensor signals up to that update. Nothing is lost by the network. -/
theorem C128_wiener (hrule : D.rule = mwfRule) {n L : Nat} (hn : 0 < n) {fs : ℚ} (hfs : 0 < fs)
    (hf : inferFs (clockStamps fs n) = .ok fs) (nbs : List (List Nat)) {seq sim : Bool}
    {ri : Nat} {first minF : Int} {fsInf : List ℚ} {out : List (Instant ℚ)} (hg : ∀ k, D.g.fs k = fs)
    (hb : D.g.bc = .few L false) (hL0 : 0 < L) (hLNs : L ∣ D.g.Ns) (hNs : 0 < D.g.Ns)
    (hout : initEventsFC D.g.bc D.g.N D.g.Ns seq sim ri first minF (syncNodes fs n nbs) = .ok (out, fsInf))
    (hri : sim = true → ri < nbs.length) (hN : 2 ≤ D.g.N) (hLN : L ≤ D.g.N) (gd : GoodNeighbours D.g.nb)
    {q : Nat} (hq : q < nbs.length) (hnb : ∀ k ∈ D.g.nb q, k < nbs.length)
    (hone : ∀ k ∈ D.g.nb q, D.M k = 1) (hM : ∀ k, (y k).length = D.M k)
    (hy : ∀ k < nbs.length, ∀ ch ∈ y k, ch.length = n)
    (href : D.g.refSensor = 0) (hfus : D.g.noFusion = true) (hrot : ∀ l c κ, D.rot q l c κ = 1)
    {T : Nat} {a : DanseSt D} (h : danseRun D y T (flatEvents out) = .ok a) {i : Nat}
    (hi : i < (n - 1) / D.g.Ns - ⌈(D.g.N : ℚ) / D.g.Ns⌉₊) (hbp : D.bypass q i = false) (ha : D.bypassAll = false)
    (hs : D.Started q ((D.wired y fs n q).take (i + 1))) (hd : 0 < D.M q) (κ : Fin D.nb) (v : Fin (D.dim q) → K) :
    D.scm q true ((D.wired y fs n q).take (i + 1)) κ *ᵥ v = (D.scm q true ((D.wired y fs n q).take (i + 1)) κ -
        D.scm q false ((D.wired y fs n q).take (i + 1)) κ) *ᵥ Pi.single ⟨0, Nat.add_pos_left hd _⟩ 1 ↔
      v = fun c : Fin (D.dim q) => coef (a.run.cfg.wInt q (i + 1)) κ c := by
  have hw := C128_heard hn hfs hf nbs hg hb hL0 hLNs hNs hout hri hN hLN gd hq hnb hone hM hy href hfus hrot h
  have htake : D.heard q ((a.run.hist q).take (i + 1)) = (D.wired y fs n q).take (i + 1) := by
    rw [← hw, heard_take]
  have hlt : i < evUps (flatEvents out) q := by
    rw [← evUps_length, ← (C77_observed (C117_instance h) q).1, List.length_map]
    have := congrArg List.length hw
    rw [heard_length] at this
    simp only [DanseCfg.wired, List.length_map, List.length_range] at this
    omega
  obtain ⟨href', hwr⟩ := (C117_wiener hrule h hlt hbp ha).1 (by rw [htake]; exact hs)
  rw [htake] at hwr
  have e : (⟨D.g.refSensor, href'⟩ : Fin (D.dim q)) = ⟨0, Nat.add_pos_left hd _⟩ := Fin.ext href
  rw [e] at hwr
  exact hwr κ v

end
end Danse
