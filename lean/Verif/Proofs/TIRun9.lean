import Verif.Proofs.TIRun8
import Verif.Props.TIRun

/-!
# Helper lemmas: the TI-DANSE schedule of synchronous nodes
-/

set_option linter.unusedSectionVars false

namespace Danse

theorem tiArgs_times {K : Nat} {u ex : List ℚ} {seq : Bool} {start : Nat} {minF : Int}
    {tr : List (List ℚ) × List (List Level)} (hex : ex ≠ []) (hl : tr.1.length = K) (hnd : tr.1.flatten.Nodup)
    (h0 : 0 ∈ tr.1.flatten) (hup : ∀ t ∈ u, 0 < t) (hbp : ∀ t ∈ ex, 0 < t) :
    TITimes K (tiArgs (List.replicate K u) (List.replicate K ex) seq start minF tr) ex where
  nodes := by simp [tiArgs]
  fuse := rfl
  bc := rfl
  re := rfl
  some := hex
  one := by
    show (tr.1.take K).flatten.Nodup
    rw [List.take_of_length_le (by omega)]
    exact hnd
  first := by
    refine ⟨0, ?_, fun t ht => (hbp t ht).le, ?_⟩
    · show 0 ∈ (tr.1.take K).flatten
      rw [List.take_of_length_le (by omega)]
      exact h0
    · intro t ht
      obtain ⟨v, hv, ht⟩ := List.mem_flatten.mp ht
      rw [List.eq_of_mem_replicate hv] at ht
      exact (hup t ht).le

/-- The schedule of synchronous nodes, given their update and exchange instants. -/
theorem initEventsTI_of {β : Type} {bc : BcType} {N Ns m : Nat} (hm : 0 < m)
    {fs : ℚ} (hf : inferFs (clockStamps fs m) = .ok fs) (nbs : List (List Nat)) {seq keep sim : Bool}
    {r start : Nat} (minF : Int) (hr : sim = true → r < nbs.length) (hstart : start < nbs.length)
    {u ex : List ℚ} (hti : tiInstants bc N Ns (syncNodes fs m nbs) (List.replicate nbs.length fs)
        (List.replicate nbs.length (((m - 1 : Nat) : ℚ) / fs)) =
      .ok (List.replicate nbs.length u, List.replicate nbs.length ex))
    (hus : u.Pairwise (· < ·)) (hup : ∀ t ∈ u, 0 < t) (hbp : ∀ t ∈ ex, 0 < t)
    (hex : ex ≠ []) (hu : seq = true → keep = false → u ≠ [])
    (ordOf : Nat → List Level) (treeOf : Nat → β) :
    ∃ out tr, initEventsTI bc N Ns seq keep sim r start minF (syncNodes fs m nbs) ordOf treeOf =
        .ok (out, List.replicate nbs.length fs, (List.range tr.2.length).map fun j =>
          treeOf ((start + j) % nbs.length)) ∧
      buildEvents (tiArgs (List.replicate nbs.length u)
        (List.replicate nbs.length ex) seq start minF tr) = .ok out ∧
      TITimes nbs.length (tiArgs (List.replicate nbs.length u)
        (List.replicate nbs.length ex) seq start minF tr) ex ∧
      tr.2 = (List.range tr.2.length).map fun j => ordOf ((start + j) % nbs.length) := by
  obtain ⟨arr, ords, ht, hl, hnd, h0, hle, hne, hords⟩ := tiTrees_sync (n := nbs.length) (ordOf := ordOf)
    (hus.imp fun h => h.le) hu hup hstart
  have htt := tiArgs_times (seq := seq) (start := start) (minF := minF) (tr := (arr, ords)) hex hl hnd h0 hup hbp
  obtain ⟨out, ho⟩ := C01_schedule_produced (tiArgs (List.replicate nbs.length u)
        (List.replicate nbs.length ex) seq start minF (arr, ords))
    (by right; simp [tiArgs]) (fun _ => by right; simp [tiArgs])
    (fun _ => by right; show (List.replicate _ _).length ≤ arr.length; simp [hl])
    (fun _ => hne) (fun _ => by
      show arr.flatten.dedup.length ≤ ords.length
      rw [hnd.dedup]
      exact hle)
  refine ⟨out, (arr, ords), ?_, ho, htt, hords⟩
  unfold initEventsTI
  rw [baseChecks_sync hf nbs hr]
  have e : (syncNodes fs m nbs).mapM (fun n => pyGet n.stamps (-1)) =
      .ok (List.replicate nbs.length (((m - 1 : Nat) : ℚ) / fs)) := by
    rw [mapM_const (b := ((m - 1 : Nat) : ℚ) / fs)]
    · simp [syncNodes]
    · intro x hx
      unfold syncNodes at hx
      obtain ⟨nb, _, rfl⟩ := List.mem_map.mp hx
      exact clockStamps_last hm
  simp only [bind, Except.bind]
  rw [e]
  simp only
  rw [hti]
  simp only
  rw [ht]
  simp only
  unfold tiArgs at ho
  simp only at ho
  rw [ho]
  have e3 : (syncNodes fs m nbs).length = nbs.length := by simp [syncNodes]
  simp only [e3]

theorem initEventsTI_sync {β : Type} {bc : BcType} {N Ns m : Nat} (hNs : 0 < Ns) (hN : 0 < N) (hm : 0 < m)
    {fs : ℚ} (hfs : 0 < fs) (hf : inferFs (clockStamps fs m) = .ok fs) (hw : bc = .whole → Ns ∣ N)
    (hL : ∀ L eff, bc = .few L eff → 0 < L ∧ eff = false) (nbs : List (List Nat)) {seq keep sim : Bool}
    {r start : Nat} (minF : Int) (hr : sim = true → r < nbs.length) (hstart : start < nbs.length)
    (hex : syncBc bc N Ns m fs ≠ []) (hu : seq = true → keep = false → syncUpTI bc N Ns m fs ≠ [])
    (ordOf : Nat → List Level) (treeOf : Nat → β) :
    ∃ out tr, initEventsTI bc N Ns seq keep sim r start minF (syncNodes fs m nbs) ordOf treeOf =
        .ok (out, List.replicate nbs.length fs, (List.range tr.2.length).map fun j =>
          treeOf ((start + j) % nbs.length)) ∧
      buildEvents (tiArgs (List.replicate nbs.length (syncUpTI bc N Ns m fs))
        (List.replicate nbs.length (syncBc bc N Ns m fs)) seq start minF tr) = .ok out ∧
      TITimes nbs.length (tiArgs (List.replicate nbs.length (syncUpTI bc N Ns m fs))
        (List.replicate nbs.length (syncBc bc N Ns m fs)) seq start minF tr) (syncBc bc N Ns m fs) ∧
      tr.2 = (List.range tr.2.length).map fun j => ordOf ((start + j) % nbs.length) := by
  obtain ⟨hus, hup⟩ := syncUpTI_spec (bc := bc) (N := N) (n := m) hNs hN hfs
  obtain ⟨hbs, hbp⟩ := syncBc_pos (bc := bc) (N := N) (n := m) hNs hN hw (fun L eff h => (hL L eff h).1) hfs
  exact initEventsTI_of hm hf nbs minF hr hstart (tiInstants_sync hNs hm hfs nbs hw hL) hus hup hbp hex hu
    ordOf treeOf

end Danse
