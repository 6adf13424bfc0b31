import Verif.Proofs.Single2
import Verif.Props.CostEx
import Verif.Props.Single
import Verif.Props.Total3

/-!
# Property C134: efficient broadcasts lose nothing: single-sensor nodes that do not fuse are as good as wired
-/

set_option linter.unusedSectionVars false

namespace Danse
section
variable {K : Type} [Field K] [StarRing K] [DecidableEq K] {g : GivenCfg K} {y : Nat → List (List K)}

/-- C134 (a): efficient few-sample broadcasts (the default), all clocks at the same rate, frame shift a divisor of the frame
length, signals of `n` samples. As long as node `k` keeps its initial broadcast filter, at every update of its neighbour `q`, at
sample `i Ns`, `q` has of node `k` the frame that ends at sample `⌊i Ns / L⌋ L`: the last multiple of `L`, so no sample is lost or
repeated although a node broadcasts only right before the updates. -/
theorem C134_neighbour_frame {n L : Nat} (hn : 0 < n) {fs : ℚ} (hfs : 0 < fs)
    (hf : inferFs (clockStamps fs n) = .ok fs) (nbs : List (List Nat))
    (hne : ∀ nb ∈ nbs, nb ≠ [] ∧ ∀ q ∈ nb, q < nbs.length) {seq sim : Bool}
    {ri : Nat} {first minF : Int} {fsInf : List ℚ} {out : List (Instant ℚ)} (hg : ∀ k, g.fs k = fs)
    (hst : ∀ k, g.stamps k = clockStamps fs n)
    (hb : g.bc = .few L true) (hL0 : 0 < L) (hLn : L < n) (hLNs : L ≤ g.Ns)
    (hout : initEventsFC g.bc g.N g.Ns seq sim ri first minF (syncNodes fs n nbs) = .ok (out, fsInf))
    (hri : sim = true → ri < nbs.length) (hN : 2 ≤ g.N) (hNsN : g.Ns ∣ g.N)
    (hbuf : g.Ns + L ≤ g.N + 1 ∨ L ∣ g.Ns ∧ g.Ns ≤ g.N)
    (hnb : GoodNeighbours g.nb) {k : Nat} (hkn : k < nbs.length) {x : List K}
    (hx : (y k)[g.refSensor]? = some x) (hxn : x.length = n) {M : Nat → Nat} (hM : M k = (y k).length)
    {q idx : Nat} (hqn : q < nbs.length) (hk : (g.nb q)[idx]? = some k) {t : ℚ}
    {pre post : List (ℚ × Nat × EvType)} (hev : flatEvents out = pre ++ (t, q, .up) :: post)
    (hkeep : (g.noFusion = true ∧ (y k).length = 1) ∨ ∀ ev ∈ pre, |ev.1| < g.upTDEvery)
    {T : Nat} {s : GivenSt K}
    (h : g.run y (.init g.N g.refSensor T M) (pre ++ [(t, q, .up)]) = .ok s) :
    ∃ i : Nat, t = (i : ℚ) * g.Ns / fs ∧ g.N ≤ i * g.Ns ∧ i * g.Ns < n ∧
      ∃ col, (s.net.z q)[idx]? = some col ∧ LastSamples g.N (x.take (i * g.Ns / L * L)) col ∧
        (g.N ≤ i * g.Ns / L * L → col = frameAt x (i * g.Ns / L * L - g.N) g.N) :=
  eff_neighbour_frame hn hfs hf nbs hne hg hst hb hL0 hLn hLNs hout hri hN hNsN hbuf hnb hkn hx hxn hM hqn hk hev hkeep h

end

section
variable {K : Type} [Field K] [StarRing K] [DecidableEq K] {D : DanseCfg K} {y : Nat → List (List K)}
open Matrix

/-- C134 (b): the schedule of the code for synchronous nodes, efficient few-sample broadcasts of multiples of `L` samples
with `L` a divisor of the frame shift and the shift a divisor of the frame length, no SRO compensation. If the neighbours of node `q` have one sensor each and single-sensor nodes do not
fuse, then what node `q` has heard at its updates is what it would have heard with cables to their sensors: their raw
signals, aligned to the sample with its own, from the first update on, whatever filters the neighbours have. -/
theorem C134_heard {n L : Nat} (hn : 0 < n) {fs : ℚ} (hfs : 0 < fs)
    (hf : inferFs (clockStamps fs n) = .ok fs) (nbs : List (List Nat))
    (hne : ∀ nb ∈ nbs, nb ≠ [] ∧ ∀ q ∈ nb, q < nbs.length) {seq sim : Bool}
    {ri : Nat} {first minF : Int} {fsInf : List ℚ} {out : List (Instant ℚ)} (hg : ∀ k, D.g.fs k = fs)
    (hst : ∀ k, D.g.stamps k = clockStamps fs n)
    (hb : D.g.bc = .few L true) (hL0 : 0 < L) (hLn : L < n) (hLNs : L ∣ D.g.Ns) (hNs : 0 < D.g.Ns)
    (hout : initEventsFC D.g.bc D.g.N D.g.Ns seq sim ri first minF (syncNodes fs n nbs) = .ok (out, fsInf))
    (hri : sim = true → ri < nbs.length) (hN : 2 ≤ D.g.N) (hNsN : D.g.Ns ∣ D.g.N) (gd : GoodNeighbours D.g.nb)
    {q : Nat} (hq : q < nbs.length) (hnb : ∀ k ∈ D.g.nb q, k < nbs.length)
    (hone : ∀ k ∈ D.g.nb q, D.M k = 1) (hM : ∀ k, (y k).length = D.M k)
    (hy : ∀ k < nbs.length, ∀ ch ∈ y k, ch.length = n)
    (href : D.g.refSensor = 0) (hfus : D.g.noFusion = true) (hrot : ∀ l c κ, D.rot q l c κ = 1)
    {T : Nat} {a : DanseSt D} (h : danseRun D y T (flatEvents out) = .ok a) :
    D.heard q (a.run.hist q) = D.wired y fs n q := by
  have hlen : (a.run.hist q).length = (n - 1) / D.g.Ns - ⌈(D.g.N : ℚ) / D.g.Ns⌉₊ := by
    obtain ⟨out', h3, h4, -⟩ := C87_schedule_efficient (N := D.g.N) (Ns := D.g.Ns) (L := L) hNs (by omega) hn hL0
      (Nat.le_of_dvd hNs hLNs) hLn hfs hf nbs hne (seq := seq) (sim := sim) (r := ri) first minF hri
    rw [← hb] at h3
    rw [hout] at h3
    injection h3 with h3
    injection h3 with h3
    subst h3
    have h5 := (C77_observed (C117_instance h) q).1
    rw [(h4 q hq).1] at h5
    have := congrArg List.length h5
    rw [List.length_map, everySep_length] at this
    exact this
  have hal : (D.around y q).length = D.dim q := by
    unfold DanseCfg.around DanseCfg.dim
    rw [List.length_append, hM, List.length_flatMap]
    congr 1
    rw [List.map_congr_left (g := fun _ => 1) (fun k hk => by rw [hM, hone k hk])]
    simp
  apply List.ext_getElem?
  intro i
  unfold DanseCfg.heard DanseCfg.wired
  simp only
  rw [List.getElem?_map, List.getElem?_map, List.getElem?_zipIdx]
  by_cases hi : i < (a.run.hist q).length
  · obtain ⟨o, ho⟩ : ∃ o, (a.run.hist q)[i]? = some o := ⟨_, List.getElem?_eq_getElem hi⟩
    obtain ⟨j, hj, ht, -, -, hc⟩ := single_obs_eff hn hfs hf nbs hne hg hst hb hL0 hLn hLNs hNs hout hri hN hNsN gd hq hnb
      (fun k hk => by rw [hM, hone k hk]) hy hone href hfus (C117_instance h) ho
    rw [ho, List.getElem?_range (by omega)]
    simp only [Option.map_some, Nat.zero_add]
    congr 2
    · funext κ c
      rw [hrot, mul_one]
      unfold coef
      congr 1
      have hcl : (c : Nat) < (D.around y q).length := by rw [hal]; exact c.isLt
      have h1 := hc c _ (List.getElem?_eq_getElem hcl)
      rw [List.getD_eq_getElem?_getD, List.getElem?_map, h1, List.getD_eq_getElem?_getD, List.getElem?_eq_getElem hcl, ← hj]
      rfl
    · rw [ht, hj]
  · rw [List.getElem?_eq_none (by omega), List.getElem?_eq_none (by simp; omega)]
    rfl

/-- C134 (c): so the filters of node `q` are those of a device that has all these sensors: without GEVD, once updating
has started, its row at the `i`-th update is in every bin the one solution of `Ryy w = (Ryy - Rnn) e_ref` with the
covariance matrices of the raw sensor signals up to that update. Nothing is lost by the network. -/
theorem C134_wiener (hrule : D.rule = mwfRule) {n L : Nat} (hn : 0 < n) {fs : ℚ} (hfs : 0 < fs)
    (hf : inferFs (clockStamps fs n) = .ok fs) (nbs : List (List Nat))
    (hne : ∀ nb ∈ nbs, nb ≠ [] ∧ ∀ q ∈ nb, q < nbs.length) {seq sim : Bool}
    {ri : Nat} {first minF : Int} {fsInf : List ℚ} {out : List (Instant ℚ)} (hg : ∀ k, D.g.fs k = fs)
    (hst : ∀ k, D.g.stamps k = clockStamps fs n)
    (hb : D.g.bc = .few L true) (hL0 : 0 < L) (hLn : L < n) (hLNs : L ∣ D.g.Ns) (hNs : 0 < D.g.Ns)
    (hout : initEventsFC D.g.bc D.g.N D.g.Ns seq sim ri first minF (syncNodes fs n nbs) = .ok (out, fsInf))
    (hri : sim = true → ri < nbs.length) (hN : 2 ≤ D.g.N) (hNsN : D.g.Ns ∣ D.g.N) (gd : GoodNeighbours D.g.nb)
    {q : Nat} (hq : q < nbs.length) (hnb : ∀ k ∈ D.g.nb q, k < nbs.length)
    (hone : ∀ k ∈ D.g.nb q, D.M k = 1) (hM : ∀ k, (y k).length = D.M k)
    (hy : ∀ k < nbs.length, ∀ ch ∈ y k, ch.length = n)
    (href : D.g.refSensor = 0) (hfus : D.g.noFusion = true) (hrot : ∀ l c κ, D.rot q l c κ = 1)
    {T : Nat} {a : DanseSt D} (h : danseRun D y T (flatEvents out) = .ok a) {i : Nat}
    (hi : i < (n - 1) / D.g.Ns - ⌈(D.g.N : ℚ) / D.g.Ns⌉₊) (hbp : D.bypass q i = false) (ha : D.bypassAll = false)
    (hs : D.Started q ((D.wired y fs n q).take (i + 1))) (hd : 0 < D.M q) (κ : Fin D.nb) (v : Fin (D.dim q) → K) :
    D.scm q true ((D.wired y fs n q).take (i + 1)) κ *ᵥ v = (D.scm q true ((D.wired y fs n q).take (i + 1)) κ -
        D.scm q false ((D.wired y fs n q).take (i + 1)) κ) *ᵥ Pi.single ⟨0, Nat.add_pos_left hd _⟩ 1 ↔
      v = fun c : Fin (D.dim q) => coef (a.run.cfg.wInt q (i + 1)) κ c := by
  have hw := C134_heard hn hfs hf nbs hne hg hst hb hL0 hLn hLNs hNs hout hri hN hNsN gd hq hnb hone hM hy href hfus hrot h
  have htake : D.heard q ((a.run.hist q).take (i + 1)) = (D.wired y fs n q).take (i + 1) := by
    rw [← hw, heard_take]
  have hlt : i < evUps (flatEvents out) q := by
    rw [← evUps_length, ← (C77_observed (C117_instance h) q).1, List.length_map]
    have := congrArg List.length hw
    rw [heard_length] at this
    simp only [DanseCfg.wired, List.length_map, List.length_range] at this
    omega
  obtain ⟨href', hwr⟩ := (C117_wiener hrule h hlt hbp ha).1 (by rw [htake]; exact hs)
  rw [htake] at hwr
  have e : (⟨D.g.refSensor, href'⟩ : Fin (D.dim q)) = ⟨0, Nat.add_pos_left hd _⟩ := Fin.ext href
  rw [e] at hwr
  exact hwr κ v

end

section
open scoped ComplexOrder Matrix

/-- The two nodes of `exCost` with efficient broadcasts. -/
noncomputable def exCostE : DanseCfg ℂ := { exCost with g := { exOnlineG with bc := .few 1 true, stamps := fun _ => clockStamps 1 12 } }

theorem exCostE_started : exCostE.Started 0 ((exCostE.wired exCostY 1 12 0).take 6) := exCost_started

/-- The hypotheses of C134 are met: a run of `exCostE` on the clicks of `exCostY`, in which updating of node 0 has started at the
sixth update; its filter solves the normal equations of the raw signals of both sensors. -/
example : ∃ out a, initEventsFC exCostE.g.bc 2 1 false false 0 0 0 (syncNodes 1 12 [[1], [0]]) = .ok (out, [1, 1]) ∧
    danseRun exCostE exCostY 12 (flatEvents out) = .ok a ∧
    exCostE.heard 0 (a.run.hist 0) = exCostE.wired exCostY 1 12 0 ∧
    ∀ (κ : Fin exCostE.nb) (v : Fin (exCostE.dim 0) → ℂ),
      exCostE.scm 0 true ((exCostE.wired exCostY 1 12 0).take (5 + 1)) κ *ᵥ v =
        (exCostE.scm 0 true ((exCostE.wired exCostY 1 12 0).take (5 + 1)) κ -
          exCostE.scm 0 false ((exCostE.wired exCostY 1 12 0).take (5 + 1)) κ) *ᵥ Pi.single ⟨0, Nat.succ_pos _⟩ 1 ↔
      v = fun c : Fin (exCostE.dim 0) => coef (a.run.cfg.wInt 0 (5 + 1)) κ c := by
  have hf : inferFs (clockStamps 1 12) = .ok 1 := by decide_cbv
  have gd : GoodNeighbours exCostE.g.nb := ⟨fun k => by change [if k % 2 = 0 then k + 1 else k - 1].Nodup; simp, fun k q => by
      change q ∈ [if k % 2 = 0 then k + 1 else k - 1] → k ∈ [if q % 2 = 0 then q + 1 else q - 1]
      simp only [List.mem_singleton]; split <;> split <;> omega⟩
  have hy : ∀ k < ([[1], [0]] : List (List Nat)).length, ∀ ch ∈ exCostY k, ch.length = 12 := by
    intro k _ ch hch
    unfold exCostY at hch
    split at hch <;> (rw [List.mem_singleton] at hch; subst hch; rfl)
  obtain ⟨out, a, h1, h2⟩ := C132_danse (D := exCostE) (y := exCostY) rfl (fun _ => Nat.one_pos)
    (fun _ => ⟨1 / 2, by norm_num, by norm_num, rfl⟩)
    (fun m Rnn Ryy h κ => (of_decide_eq_true h) κ) (.inl rfl)
    (n := 12) (L := 1) (by norm_num) one_pos hf [[1], [0]] (by decide) (seq := false) (sim := false) (ri := 0) 0 0
    (by simp) (fun _ => rfl) (fun _ => rfl) rfl one_pos (le_refl _) (by norm_num) (by change 0 < 2; norm_num)
    (by change 2 ∣ 2; norm_num)
    (.inl (by change 1 + 1 ≤ 2 + 1; norm_num)) rfl gd
    (by intro q hq k hk; change k ∈ [if q % 2 = 0 then q + 1 else q - 1] at hk; simp at hk hq ⊢; split at hk <;> omega)
    hy (fun k i => by simp [exCostE, exCost, exOnline, exOnlineG, DanseCfg.nb])
  have hnb : ∀ k ∈ exCostE.g.nb 0, k < ([[1], [0]] : List (List Nat)).length := by
    intro k hk; change k ∈ [1] at hk; simp at hk; subst hk; norm_num
  have hM : ∀ k, (exCostY k).length = exCostE.M k := fun k => by
    change (exCostY k).length = 1; unfold exCostY; split <;> rfl
  refine ⟨out, a, h1, h2, ?_, ?_⟩
  · exact C134_heard (D := exCostE) (y := exCostY) (n := 12) (L := 1) (q := 0) (by norm_num) one_pos hf [[1], [0]] (by decide)
      (fun _ => rfl) (fun _ => rfl) rfl one_pos (by norm_num) (one_dvd _) (by change 0 < 1; norm_num) h1 (by simp)
      (by change 2 ≤ 2; norm_num) (by change 1 ∣ 2; norm_num) gd (by norm_num) hnb (fun _ _ => rfl) hM hy rfl rfl (fun _ _ _ => rfl) h2
  · intro κ v
    exact C134_wiener (D := exCostE) (y := exCostY) rfl (n := 12) (L := 1) (q := 0) (by norm_num) one_pos hf [[1], [0]] (by decide)
      (fun _ => rfl) (fun _ => rfl) rfl one_pos (by norm_num) (one_dvd _) (by change 0 < 1; norm_num) h1 (by simp)
      (by change 2 ≤ 2; norm_num) (by change 1 ∣ 2; norm_num) gd (by norm_num) hnb (fun _ _ => rfl) hM hy rfl rfl (fun _ _ _ => rfl)
      h2 (i := 5) (by change 5 < (12 - 1) / 1 - ⌈((2 : ℕ) : ℚ) / ((1 : ℕ) : ℚ)⌉₊; norm_num) rfl rfl exCostE_started
      (by change 0 < 1; norm_num) κ v

end
end Danse
