import Verif.Proofs.TIRun7
import Verif.Proofs.Sched2
import Verif.Proofs.Seq
import Verif.Props.Instants
import Verif.Model.ClockTI

/-!
# Helper lemmas: TI-DANSE schedules of synchronous nodes
-/

set_option linter.unusedSectionVars false

namespace Danse

theorem tiInstants_sync {bc : BcType} {N Ns n : Nat} (hNs : 0 < Ns) (hn : 0 < n) {fs : ℚ}
    (hfs : 0 < fs) (nbs : List (List Nat)) (hw : bc = .whole → Ns ∣ N)
    (hL : ∀ L eff, bc = .few L eff → 0 < L ∧ eff = false) :
    tiInstants bc N Ns (syncNodes fs n nbs) (List.replicate nbs.length fs)
        (List.replicate nbs.length (((n - 1 : Nat) : ℚ) / fs)) =
      .ok (List.replicate nbs.length (syncUpTI bc N Ns n fs),
        List.replicate nbs.length (syncBc bc N Ns n fs)) := by
  have hup : ∀ N : Nat, (syncNodes fs n nbs).zipIdx.mapM (fun x : ClockNode × Nat =>
      generateAligned (⌈(N : ℚ) / Ns⌉ : ℚ) ⌊(List.replicate nbs.length (((n - 1 : Nat) : ℚ) / fs)).getD x.2 0 *
        (List.replicate nbs.length fs).getD x.2 0 / Ns⌋ Ns x.1.fs x.1.stamps) =
      .ok (List.replicate nbs.length (everySep Ns fs ⌈(N : ℚ) / Ns⌉₊ ((n - 1) / Ns))) := by
    intro N
    refine mapM_zipIdx_sync nbs fun k hk nb => ?_
    simp only
    rw [getD_replicate hk, getD_replicate hk, floor_total hn hfs, ceil_cast]
    exact generateAligned_clock hNs fun j hj => mul_lt_of_lt_div hn hNs hj
  unfold tiInstants
  match bc, hw, hL with
  | .whole, hw, _ =>
    simp only [syncBc, syncUpTI]
    rw [hup]
    simp only [bind, Except.bind]
    have hd : (N : ℚ) / Ns = ((N / Ns : Nat) : ℚ) := by
      rw [Nat.cast_div (hw rfl) (by positivity)]
    have hb : (syncNodes fs n nbs).zipIdx.mapM (fun x : ClockNode × Nat =>
      generateAligned ((N : ℚ) / Ns) ⌊(List.replicate nbs.length (((n - 1 : Nat) : ℚ) / fs)).getD x.2 0 *
        (List.replicate nbs.length fs).getD x.2 0 / Ns⌋ Ns x.1.fs x.1.stamps) =
      .ok (List.replicate nbs.length (everySep Ns fs (N / Ns) ((n - 1) / Ns))) := by
      refine mapM_zipIdx_sync nbs fun k hk nb => ?_
      simp only
      rw [getD_replicate hk, getD_replicate hk, floor_total hn hfs, hd]
      exact generateAligned_clock hNs fun j hj => mul_lt_of_lt_div hn hNs hj
    rw [hb]
  | .few L false, _, hL =>
    simp only [syncBc, syncUpTI]
    rw [hup]
    simp only [bind, Except.bind]
    have hL' := (hL L false rfl).1
    have hb : (syncNodes fs n nbs).zipIdx.mapM (fun x : ClockNode × Nat =>
      generateAligned 1 ⌊(List.replicate nbs.length (((n - 1 : Nat) : ℚ) / fs)).getD x.2 0 *
        (List.replicate nbs.length fs).getD x.2 0 / L⌋ L x.1.fs x.1.stamps) =
      .ok (List.replicate nbs.length (everySep L fs 1 ((n - 1) / L))) := by
      refine mapM_zipIdx_sync nbs fun k hk nb => ?_
      simp only
      rw [getD_replicate hk, getD_replicate hk, floor_total hn hfs]
      have := generateAligned_clock (a := 1) (fs := fs) hL' fun j hj => mul_lt_of_lt_div hn hL' hj
      rw [← this]
      norm_num
    rw [if_neg (by simp), hb]
  | .few L true, _, hL => exact absurd (hL L true rfl).2 (by simp)

/-- With synchronous updates the trees can be prepared. -/
theorem prepTree_sync {n : Nat} {u : List ℚ} {start : Nat} {ordOf : Nat → List Level}
    (hu : u.Pairwise (· ≤ ·)) (hune : u ≠ []) (hpos : ∀ t ∈ u, 0 < t) (hstart : start < n) :
    ∃ arr ords, prepTree (List.replicate n u) 0 start ordOf = .ok (arr, ords) := by
  have hus : ∀ v ∈ List.replicate n u, v.Pairwise (· ≤ ·) := by
    intro v hv; rw [List.eq_of_mem_replicate hv]; exact hu
  have hst : start < (List.replicate n u).length := by simpa using hstart
  obtain ⟨ts, ns, hg⟩ := C09_terminates (ups := List.replicate n u)
    (fun v hv => by rw [List.eq_of_mem_replicate hv]; exact hune) 0 hst
  obtain ⟨hlen, hprep, ⟨v, hv1, hv2⟩, heq⟩ := C09_lengths hus hst hg ordOf
  have hvu : v = u := List.eq_of_mem_replicate (List.mem_of_getElem? hv1)
  subst hvu
  have htsne : ts ≠ [] := by
    rintro rfl
    obtain ⟨x, hx⟩ := List.exists_mem_of_ne_nil _ hune
    have h1 := hv2 x hx
    simp only [List.getLast_singleton] at h1
    exact absurd (hpos x hx) (not_lt.mpr h1)
  obtain ⟨⟨arr, ords⟩, h⟩ := hprep.mpr (heq.mpr ⟨v, htsne, by
    have hlt : (start + (ts.length - 1)) % (List.replicate n v).length <
        (List.replicate n v).length := Nat.mod_lt _ (by omega)
    rw [List.getElem?_eq_getElem hlt]; simp, hv2⟩)
  exact ⟨arr, ords, h⟩

/-- The formation times of the trees: each once, the first one at time 0. -/
theorem prepTree_times {ups : List (List ℚ)} {start : Nat} {ordOf : Nat → List Level}
    {arr : List (List ℚ)} {ords : List (List Level)} (hu : ∀ u ∈ ups, u.Pairwise (· ≤ ·))
    (hstart : start < ups.length) (h : prepTree ups 0 start ordOf = .ok (arr, ords)) :
    arr.length = ups.length ∧ arr.flatten.Nodup ∧ 0 ∈ arr.flatten ∧ arr.flatten.length ≤ ords.length ∧
      ords = (List.range ords.length).map fun j => ordOf ((start + j) % ups.length) := by
  obtain ⟨t0, rest, ns, hg, hl, hf, ho⟩ := prepTree_ok (by omega) h
  obtain ⟨hs, _, hns⟩ := C09_round_robin_instants hu hstart hg
  have hz : (0 :: rest).Pairwise (· < ·) := by
    rw [List.pairwise_cons] at hs ⊢
    have h2 := List.pairwise_cons.mp hs.2
    exact ⟨fun x hx => hs.1 x (by simp [hx]), h2.2⟩
  have hzn : (0 :: rest).Nodup := hz.imp fun h => ne_of_lt h
  have hlen : arr.length = ups.length := by rw [← hf.length_eq]; simp
  have hget : ∀ k (hk : k < arr.length), maskEq (0 :: rest) ns k = .ok arr[k] := by
    intro k hk
    have := (List.forall₂_iff_get.mp hf).2 k (by simpa using hlen ▸ hk) hk
    simpa using this
  have hnd : arr.flatten.Nodup := by
    rw [List.nodup_flatten]
    constructor
    · intro r hr
      obtain ⟨k, hk, rfl⟩ := List.getElem_of_mem hr
      have := hget k hk
      unfold maskEq at this
      split at this
      · injection this with this
        rw [← this]
        refine List.Nodup.filterMap ?_ ?_
        · rintro ⟨x, i⟩ ⟨x', i'⟩ b hb hb'
          simp only [Option.mem_def] at hb hb'
          split at hb
          · split at hb'
            · rename_i e1 e2
              injection hb with hb
              injection hb' with hb'
              rw [hb, hb', e1, e2]
            · cases hb'
          · cases hb
        · refine List.Nodup.of_map Prod.fst ?_
          exact hzn.sublist (by
            rw [List.map_fst_zip (by rw [List.length_cons]; omega)])
      · cases this
    · rw [List.pairwise_iff_getElem]
      intro i j hi hj hij x hx hx'
      obtain ⟨a, ha, ha2⟩ := (mem_maskEq (hget i hi) x).mp hx
      obtain ⟨b, hb, hb2⟩ := (mem_maskEq (hget j hj) x).mp hx'
      obtain ⟨hal, ha'⟩ := List.getElem?_eq_some_iff.mp ha
      obtain ⟨hbl, hb'⟩ := List.getElem?_eq_some_iff.mp hb
      have : a = b := (List.Nodup.getElem_inj_iff hzn).mp (ha'.trans hb'.symm)
      subst this
      rw [ha2] at hb2
      injection hb2 with e
      omega
  have hsub : ∀ x ∈ arr.flatten, x ∈ 0 :: rest := by
    intro x hx
    obtain ⟨r, hr, hx⟩ := List.mem_flatten.mp hx
    obtain ⟨k, hk, rfl⟩ := List.getElem_of_mem hr
    obtain ⟨j, hj, _⟩ := (mem_maskEq (hget k hk) x).mp hx
    exact List.mem_of_getElem? hj
  refine ⟨hlen, hnd, ?_, ?_, ?_⟩
  · have h0 : ns[0]? = some ns[0] := List.getElem?_eq_getElem (by omega)
    have hk : ns[0] < arr.length := by
      rw [hns 0 _ h0, hlen]
      exact Nat.mod_lt _ (by omega)
    rw [List.mem_flatten]
    exact ⟨_, List.getElem_mem hk, (mem_maskEq (hget _ hk) 0).mpr ⟨0, rfl, h0⟩⟩
  · have h1 : ords.length = (0 :: rest).length := by rw [ho]; simp
    rw [h1]
    exact (hnd.subperm hsub).length_le
  · have : ords.length = rest.length + 1 := by rw [ho]; simp
    rw [this]
    exact ho

theorem tiTrees_sync {n : Nat} {u : List ℚ} {start : Nat} {ordOf : Nat → List Level} {seq keep : Bool}
    (hu : u.Pairwise (· ≤ ·)) (hune : seq = true → keep = false → u ≠ []) (hpos : ∀ t ∈ u, 0 < t)
    (hstart : start < n) :
    ∃ arr ords, tiTrees (List.replicate n u) seq keep start ordOf = .ok (arr, ords) ∧
      arr.length = n ∧ arr.flatten.Nodup ∧ 0 ∈ arr.flatten ∧ arr.flatten.length ≤ ords.length ∧ ords ≠ [] ∧
      ords = (List.range ords.length).map fun j => ordOf ((start + j) % n) := by
  unfold tiTrees
  by_cases hc : seq = true ∧ keep = false
  · rw [if_pos hc]
    obtain ⟨arr, ords, h⟩ := prepTree_sync (ordOf := ordOf) hu (hune hc.1 hc.2) hpos hstart
    obtain ⟨h1, h2, h3, h4, h5⟩ := prepTree_times (ups := List.replicate n u)
      (by intro v hv; rw [List.eq_of_mem_replicate hv]; exact hu) (by simpa using hstart) h
    refine ⟨arr, ords, h, by simpa using h1, h2, h3, h4, ?_, by simpa using h5⟩
    rintro rfl
    have : arr.flatten.length ≤ 0 := h4
    have h6 := List.length_pos_of_mem h3
    omega
  · rw [if_neg hc]
    have hfl : ((List.range n).map fun k => if k = start then [(0 : ℚ)] else []).flatten = [0] := by
      have : ∀ m, ((List.range m).map fun k => if k = start then [(0 : ℚ)] else []).flatten =
          if start < m then [0] else [] := by
        intro m
        induction m with
        | zero => simp
        | succ m ih =>
          rw [List.range_succ, List.map_append, List.flatten_append, ih]
          by_cases h1 : start < m
          · rw [if_pos h1, if_pos (by omega)]
            have : m ≠ start := by omega
            simp [this]
          · rw [if_neg h1]
            by_cases h2 : m = start
            · rw [if_pos (by omega)]; simp [h2]
            · rw [if_neg (by omega)]; simp [h2]
      rw [this, if_pos hstart]
    refine ⟨_, _, rfl, by simp, ?_, ?_, ?_, by simp, ?_⟩
    · simp only [List.length_replicate]; rw [hfl]; simp
    · simp only [List.length_replicate]; rw [hfl]; simp
    · simp only [List.length_replicate]; rw [hfl]; simp
    · simp

/-- The arguments with which `initialize_events` builds the event matrix. -/
def tiArgs (up ex : List (List ℚ)) (seq : Bool) (start : Nat) (minFrames : Int)
    (tr : List (List ℚ) × List (List Level)) : EvArgs ℚ :=
  { up_t := up, bc_t := ex, seq := seq, fuse_t := ex, re_t := ex, tr_t := tr.1,
    orderings := tr.2, firstUpdatingNode := start, minFrames := minFrames }

theorem everySep_pos {sep : Nat} (hs : 0 < sep) {fs : ℚ} (hfs : 0 < fs) {a b : Nat} (ha : 0 < a) :
    ∀ t ∈ everySep sep fs a b, 0 < t := by
  intro t ht
  obtain ⟨j, _, rfl⟩ := List.mem_map.mp ht
  have h1 : (0 : ℚ) < ((a + j : Nat) : ℚ) := by exact_mod_cast (by omega : 0 < a + j)
  have h2 : (0 : ℚ) < sep := by exact_mod_cast hs
  positivity

theorem syncUpTI_spec {bc : BcType} {N Ns n : Nat} (hNs : 0 < Ns) (hN : 0 < N) {fs : ℚ} (hfs : 0 < fs) :
    (syncUpTI bc N Ns n fs).Pairwise (· < ·) ∧ ∀ t ∈ syncUpTI bc N Ns n fs, 0 < t := by
  have hp : ∀ M : Nat, 0 < M → 0 < ⌈(M : ℚ) / Ns⌉₊ := by
    intro M hM
    rw [Nat.ceil_pos]
    have h1 : (0 : ℚ) < M := by exact_mod_cast hM
    have h2 : (0 : ℚ) < Ns := by exact_mod_cast hNs
    positivity
  cases bc with
  | whole => exact ⟨everySep_sorted hNs hfs _ _, everySep_pos hNs hfs (hp _ (by omega))⟩
  | few L eff => exact ⟨everySep_sorted hNs hfs _ _, everySep_pos hNs hfs (hp _ hN)⟩

theorem syncBc_pos {bc : BcType} {N Ns n : Nat} (hNs : 0 < Ns) (hN : 0 < N) (hw : bc = .whole → Ns ∣ N)
    (hL : ∀ L eff, bc = .few L eff → 0 < L) {fs : ℚ} (hfs : 0 < fs) :
    (syncBc bc N Ns n fs).Pairwise (· < ·) ∧ ∀ t ∈ syncBc bc N Ns n fs, 0 < t := by
  cases bc with
  | whole =>
    have : 0 < N / Ns := Nat.div_pos (Nat.le_of_dvd hN (hw rfl)) hNs
    exact ⟨everySep_sorted hNs hfs _ _, everySep_pos hNs hfs this⟩
  | few L eff => exact ⟨everySep_sorted (hL L eff rfl) hfs _ _, everySep_pos (hL L eff rfl) hfs (by omega)⟩

end Danse
