import Verif.Spec.Clock
import Verif.Spec.Online
import Verif.Props.Events
import Verif.Props.Instants
import Verif.Proofs.Clock

/-! # Helper lemmas: the events of each node in the schedule of a synchronous network -/

namespace Danse

theorem sorted_ext {l m : List ℚ} (hl : l.Pairwise (· < ·)) (hm : m.Pairwise (· < ·))
    (h : ∀ x, x ∈ l ↔ x ∈ m) : l = m := by
  have p : l.Perm m := (List.perm_ext_iff_of_nodup (hl.imp fun h => ne_of_lt h)
    (hm.imp fun h => ne_of_lt h)).mpr h
  exact p.eq_of_pairwise (fun a b _ _ h1 h2 => absurd h1 (lt_asymm h2)) hl hm

theorem npUnique_of_sorted {l : List ℚ} (h : l.Pairwise (· < ·)) : npUnique l = l :=
  sorted_ext (npUnique_sorted l) h fun _ => mem_npUnique

theorem delivered_sorted {out : List (Instant ℚ)} (h : (out.map (·.t)).Pairwise (· < ·)) :
    (delivered out).Pairwise (fun x y => x.1 ≤ y.1) := by
  unfold delivered
  rw [List.pairwise_flatMap]
  constructor
  · intro i _
    rw [List.pairwise_map]
    exact List.pairwise_of_forall (fun _ _ => le_rfl)
  · rw [List.pairwise_map] at h
    refine h.imp fun {i j} hij x hx y hy => ?_
    obtain ⟨_, _, rfl⟩ := List.mem_map.mp hx
    obtain ⟨_, _, rfl⟩ := List.mem_map.mp hy
    exact hij.le

/-- The events of one type of one node are its scheduled instants, in order. -/
theorem schedule_times {a : EvArgs ℚ} {out : List (Instant ℚ)} (h : buildEvents a = .ok out)
    (hfc : a.tiFlag = false) (k : Nat) (ty : EvType) {ts : List ℚ} (hts : ts.Pairwise (· < ·))
    (hmem : ∀ t, Scheduled a false t k ty ↔ t ∈ ts) :
    ((flatEvents out).filterMap fun ev => if ev.2.1 = k ∧ ev.2.2 = ty then some ev.1 else none) = ts := by
  have hcov : a.tiFlag = true → ∀ o ∈ a.orderings, CoversNodes a.up_t.length o := by
    intro h; rw [hfc] at h; cases h
  obtain ⟨h1, _, h3, h4⟩ := C01_exactly_once h hcov
  have hd : flatEvents out = delivered out := rfl
  rw [hd]
  apply sorted_ext _ hts
  · intro t
    rw [List.mem_filterMap, ← hmem t, ← hfc, ← h4]
    constructor
    · rintro ⟨⟨t', k', ty'⟩, hm, he⟩
      simp only at he
      split at he
      · rename_i hc
        obtain ⟨rfl, rfl⟩ := hc
        injection he with he
        subst he
        exact hm
      · cases he
    · intro hm
      exact ⟨_, hm, by simp⟩
  · rw [List.pairwise_filterMap]
    refine ((delivered_sorted h1).and h3).imp ?_
    rintro ⟨t, k1, ty1⟩ ⟨t', k2, ty2⟩ ⟨hle, hne⟩ x hx y hy
    simp only at hx hy
    split at hx
    · split at hy
      · rename_i c1 c2
        injection hx with hx
        injection hy with hy
        subst hx hy
        apply lt_of_le_of_ne hle
        rintro rfl
        apply hne
        rw [c1.1, c1.2, c2.1, c2.2]
      · cases hy
    · cases hx

/-! ## Instants of a regular clock -/

theorem everySep_sorted {sep : Nat} (hs : 0 < sep) {fs : ℚ} (hfs : 0 < fs) (a b : Nat) :
    (everySep sep fs a b).Pairwise (· < ·) := by
  unfold everySep
  rw [List.pairwise_map]
  refine List.pairwise_lt_range.imp fun {i j} hij => ?_
  have h1 : ((a + i : Nat) : ℚ) < ((a + j : Nat) : ℚ) := by exact_mod_cast (by omega : a + i < a + j)
  have h2 : (0 : ℚ) < sep := by exact_mod_cast hs
  gcongr

theorem generateAligned_clock {sep a b n : Nat} (hs : 0 < sep) {fs : ℚ}
    (hn : ∀ j, j < b → j * sep < n) :
    generateAligned (a : ℚ) (b : Int) sep fs (clockStamps fs n) = .ok (everySep sep fs a b) := by
  have hnom : nominalInstants (a : ℚ) (b : Int) sep fs = everySep sep fs a b := by
    unfold nominalInstants everySep
    have : (⌈((b : Int) : ℚ) - (a : ℚ)⌉).toNat = b - a := by
      have e : ((b : Int) : ℚ) - (a : ℚ) = (((b : Int) - (a : Int) : Int) : ℚ) := by push_cast; ring
      rw [e, Int.ceil_intCast]
      omega
    rw [this]
    simp only [Nat.cast_add]
  unfold generateAligned alignInstants
  rw [hnom]
  have : ∀ l : List ℚ, (∀ t ∈ l, t ∈ clockStamps fs n) →
      l.mapM (alignInstant (clockStamps fs n)) = .ok l := by
    intro l
    induction l with
    | nil => intro _; rfl
    | cons t l ih =>
      intro h
      rw [List.mapM_cons, ih fun t ht => h t (List.mem_cons_of_mem _ ht)]
      unfold alignInstant
      rw [if_pos (h t (by simp))]
      rfl
  apply this
  intro t ht
  obtain ⟨j, hj, rfl⟩ := List.mem_map.mp ht
  have hj' := List.mem_range.mp hj
  unfold clockStamps
  rw [List.mem_map]
  refine ⟨(a + j) * sep, List.mem_range.mpr (hn _ (by omega)), ?_⟩
  push_cast
  ring

theorem floor_total {n sep : Nat} (hn : 0 < n) {fs : ℚ} (hfs : 0 < fs) :
    ⌊((n - 1 : Nat) : ℚ) / fs * fs / sep⌋ = (((n - 1) / sep : Nat) : Int) := by
  rw [div_mul_cancel₀ _ hfs.ne']
  exact Rat.floor_natCast_div_natCast _ _

end Danse
