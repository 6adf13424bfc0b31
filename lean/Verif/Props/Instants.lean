import Verif.Proofs.Seq
import Mathlib.Tactic.NormNum
import Mathlib.Tactic.FieldSimp
import Mathlib.Tactic.GCongr

/-!
# Properties C07-C10: event instants

Vocabulary (`IsAlignedUp`, `IsAlignedDown`, `IsMultipleStamp`, `IsEarliestAfter`) is in
`Verif/Spec/Instants.lean`.
-/

set_option linter.unusedSectionVars false

namespace Danse
section
variable {τ : Type} [LinearOrder τ]

/-- C07 (a): for any increasing clock, the alignment of any nominal instant is the earliest time
stamp not before it, or the last time stamp after the end. -/
theorem C07_aligned_to_stamp {stamps : List τ} (hs : stamps.Pairwise (· < ·)) (hne : stamps ≠ [])
    (t : τ) : ∃ r, alignInstant stamps t = .ok r ∧ IsAlignedUp stamps t r :=
  alignInstant_spec hs hne t

/-- C07 (b): the instants generated for a node are, one by one, the alignments of the nominal
instants `(start + j) * sep / fs`, there are `⌈n - start⌉` of them, and they are
non-decreasing. -/
theorem C07_generated_instants {stamps : List ℚ} (hs : stamps.Pairwise (· < ·)) (hne : stamps ≠ [])
    (startIdx : ℚ) (nTotal : Int) (sep : Nat) {fs : ℚ} (hfs : 0 < fs) :
    ∃ evs, generateAligned startIdx nTotal sep fs stamps = .ok evs ∧
      evs.length = (⌈(nTotal : ℚ) - startIdx⌉).toNat ∧
      (∀ (j : Nat) e, evs[j]? = some e → IsAlignedUp stamps ((startIdx + j) * sep / fs) e) ∧
      evs.Pairwise (· ≤ ·) := by
  unfold generateAligned alignInstants
  obtain ⟨evs, he, hf⟩ := mapM_ok_of_forall
    (fun x (_ : x ∈ nominalInstants startIdx nTotal sep fs) => alignInstant_spec hs hne x)
  have hget : ∀ (j : Nat) e, evs[j]? = some e →
      IsAlignedUp stamps ((startIdx + j) * sep / fs) e := by
    intro j e hj
    obtain ⟨hlt, hx⟩ := List.getElem?_eq_some_iff.mp hj
    have hl := hf.length_eq
    have := (List.forall₂_iff_get.mp hf).2 j (by omega) hlt
    simp only [List.get_eq_getElem, hx] at this
    unfold nominalInstants at this
    simpa using this
  refine ⟨evs, he, ?_, hget, ?_⟩
  · rw [← hf.length_eq]; simp [nominalInstants]
  · rw [List.pairwise_iff_getElem]
    intro i j hi hj hij
    refine (hget i _ (List.getElem?_eq_getElem hi)).mono
      (hget j _ (List.getElem?_eq_getElem hj)) ?_
    have h1 : (i : ℚ) ≤ j := by exact_mod_cast hij.le
    gcongr

/-- C07 (c): without any time stamp there is nothing to align to: an error. -/
theorem C07_no_stamps (t : τ) : alignInstant ([] : List τ) t = .error .indexError := by
  simp [alignInstant, pyGet]

/-- C08: efficient few-sample broadcasting. The broadcast instants of a node are, one by one and
in order, the alignments to the past of the distinct update instants of its neighbours, and every
one is a time stamp whose index is a positive multiple of `L`. -/
theorem C08_efficient_broadcast {stamps : List τ} (hs : stamps.Pairwise (· < ·)) {L : Nat}
    (hL : 0 < L) (hlen : L < stamps.length) {ups : List (List τ)} {nb : List Nat}
    (hnb : ∀ q ∈ nb, q < ups.length) :
    ∃ causes bcs possible, efficientBc stamps L ups nb = .ok bcs ∧
      (∀ x, x ∈ possible ↔ IsMultipleStamp stamps L x) ∧
      causes.Pairwise (· < ·) ∧
      (∀ t, t ∈ causes ↔ ∃ q ∈ nb, ∃ u, ups[q]? = some u ∧ t ∈ u) ∧
      List.Forall₂ (IsAlignedDown possible) causes bcs := by
  obtain ⟨all, hall, _⟩ := mapM_ok_of_forall (f := fun (q : Nat) => pyGet ups (q : Int))
    (P := fun _ _ => True) (l := nb) (by
      intro q hq
      rw [pyGet_natCast, List.getElem?_eq_getElem (hnb q hq)]
      exact ⟨_, rfl, trivial⟩)
  obtain ⟨comb, hcomb⟩ : ∃ c, combinedUp ups nb = .ok c := by
    unfold combinedUp; rw [hall]; exact ⟨_, rfl⟩
  obtain ⟨ps, hps⟩ : ∃ ps, possibleBc stamps L = .ok ps := by
    unfold possibleBc; rw [if_neg (by omega)]; exact ⟨_, rfl⟩
  have hmem := mem_possibleBc hps
  have hne : ps ≠ [] := by
    intro h0
    have : stamps[L] ∈ ps := (hmem _).mpr ⟨1, le_rfl, by simp [hlen]⟩
    rw [h0] at this; simp at this
  obtain ⟨bcs, hb, hf⟩ := mapM_ok_of_forall
    (fun x (_ : x ∈ comb) => alignBc_spec (possibleBc_sorted hs hps) hne x)
  obtain ⟨hc1, hc2⟩ := combinedUp_spec hcomb
  refine ⟨comb, bcs, ps, ?_, hmem, hc1, hc2, hf⟩
  unfold efficientBc
  rw [hcomb]
  simp only [bind, Except.bind]
  rw [hps]
  exact hb

/-- C09 (a): the sequential update instants always exist when every node has at least one update
instant (the construction terminates). -/
theorem C09_terminates {ups : List (List τ)} (hne : ∀ u ∈ ups, u ≠ []) (zero : τ) {start : Nat}
    (hstart : start < ups.length) : ∃ ts ns, getSeqUp ups zero start = .ok (ts, ns) := by
  obtain ⟨⟨ts, ns⟩, hr⟩ := seqUpLoop_total hne _ zero start hstart rfl
  exact ⟨ts, start :: ns, by unfold getSeqUp; rw [hr]⟩

/-- C09 (b): they are strictly increasing, the `j`-th is the earliest update instant of node
`start + j` (modulo the number of nodes) after the previous one, and the `j`-th listed node is
that node. -/
theorem C09_round_robin_instants {ups : List (List τ)} (hu : ∀ u ∈ ups, u.Pairwise (· ≤ ·))
    {zero : τ} {start : Nat} (hstart : start < ups.length) {ts : List τ} {ns : List Nat}
    (h : getSeqUp ups zero start = .ok (ts, ns)) :
    (zero :: ts).Pairwise (· < ·) ∧
    (∀ j t prev, ts[j]? = some t → (zero :: ts)[j]? = some prev →
      ∃ u, ups[(start + j) % ups.length]? = some u ∧ IsEarliestAfter u prev t) ∧
    (∀ j k, ns[j]? = some k → k = (start + j) % ups.length) := by
  unfold getSeqUp at h
  split at h
  · cases h
  next r ts' ns' hr =>
  cases h
  obtain ⟨h1, h2, _⟩ := seqUpLoop_spec hu _ _ _ _ _ rfl hr
  refine ⟨h1.sorted, ?_, h2.get hstart⟩
  intro j t prev hj hp
  obtain ⟨u, hu', he⟩ := h1.get hstart j t hj
  rw [hp] at he
  exact ⟨u, hu', he⟩

/-- C09 (c): the construction only stops when the node whose turn it would be has run out; the
list of nodes is as long as the list of instants, or one longer; tree construction succeeds
exactly in the first case, which is exactly the case where there is at least one instant and the
node that updated last is the one that ran out. -/
theorem C09_lengths {ups : List (List τ)} (hu : ∀ u ∈ ups, u.Pairwise (· ≤ ·))
    {zero : τ} {start : Nat} (hstart : start < ups.length) {ts : List τ} {ns : List Nat}
    (h : getSeqUp ups zero start = .ok (ts, ns)) (ordOf : Nat → List Level) :
    (ns.length = ts.length ∨ ns.length = ts.length + 1) ∧
    ((∃ r, prepTree ups zero start ordOf = .ok r) ↔ ns.length = ts.length) ∧
    (∃ u, ups[(start + (ns.length - 1)) % ups.length]? = some u ∧
      ∀ s ∈ u, s ≤ (zero :: ts).getLast (by simp)) ∧
    (ns.length = ts.length ↔ ∃ u, ts ≠ [] ∧
      ups[(start + (ts.length - 1)) % ups.length]? = some u ∧
      ∀ s ∈ u, s ≤ (zero :: ts).getLast (by simp)) := by
  have hrr := C09_round_robin_instants hu hstart h
  have hg := h
  unfold getSeqUp at h
  split at h
  · cases h
  next r ts' ns' hr =>
  cases h
  obtain ⟨h1, h2, h3⟩ := seqUpLoop_spec hu _ _ _ _ _ rfl hr
  have hlastk : ∀ k, (start :: ns').getLast? = some k →
      k = (start + ((start :: ns').length - 1)) % ups.length := by
    intro k hk
    rw [List.getLast?_eq_getElem?] at hk
    exact hrr.2.2 _ k hk
  have hlastt : ∀ t, ts.getLast? = some t → (zero :: ts).getLast (by simp) = t := by
    intro t ht
    have : (zero :: ts).getLast? = some t := by rw [List.getLast?_cons, ht]; rfl
    rw [List.getLast?_eq_some_getLast (by simp)] at this
    exact Option.some.inj this
  refine ⟨?_, prepTree_ok_iff (by omega) hg (by simp), ?_, ?_⟩
  · rcases h3 with ⟨e1, e2, _⟩ | ⟨_, e, _⟩ | ⟨_, e, _⟩
    · subst e1; subst e2; right; rfl
    · left; simpa using e
    · right; simpa using e
  · rcases h3 with ⟨e1, e2, u, e3, e4⟩ | ⟨_, e, k, t, e1, e2, u, e3, e4⟩ |
      ⟨_, e, k, t, e1, e2, ⟨u, e3, e4⟩, _⟩
    · subst e1; subst e2
      refine ⟨u, ?_, by simpa using e4⟩
      simpa [Nat.mod_eq_of_lt hstart] using e3
    · refine ⟨u, ?_, ?_⟩
      · rw [← hlastk k e1]; exact e3
      · rw [hlastt t e2]; exact e4
    · refine ⟨u, ?_, ?_⟩
      · rw [← hlastk k e1]; exact e3
      · rw [hlastt t e2]; exact e4
  · rcases h3 with ⟨e1, e2, _⟩ | ⟨e0, e, k, t, e1, e2, u, e3, e4⟩ |
      ⟨e0, e, k, t, e1, e2, _, p, e5, e6⟩
    · subst e1; subst e2; simp
    · have hl : (start :: ns').length = ts.length := by simpa using e
      refine ⟨fun _ => ⟨u, e0, ?_, ?_⟩, fun _ => hl⟩
      · rw [← hl, ← hlastk k e1]; exact e3
      · rw [hlastt t e2]; exact e4
    · have hl : (start :: ns').length = ts.length + 1 := by simpa using e
      refine ⟨fun hc => by omega, ?_⟩
      rintro ⟨u, _, hu1, hu2⟩
      exfalso
      apply e6
      rw [hlastt t e2] at hu2
      refine ⟨u, ?_, hu2⟩
      rw [← hu1]
      congr 1
      have htl : 0 < ts.length := List.length_pos_of_ne_nil e0
      rw [List.getLast?_eq_getElem?, List.getElem?_dropLast] at e5
      simp only [List.length_dropLast] at e5
      rw [if_pos (by omega)] at e5
      rw [hrr.2.2 _ p e5]
      congr 2
      omega

/-- C10 (a): sequential TI-DANSE with re-rooting and `updateEvery ≤ 1`, any clocks. At every
instant up to the last re-rooting instant, if some node performs an update, then the tree in
force (selected by the number of trees formed so far) is the one rooted at that node. -/
theorem C10_updater_is_root {ups : List (List τ)} {zero : τ} {start : Nat}
    {ordOf : Nat → List Level} {arr : List (List τ)} {ords : List (List Level)}
    (hprep : prepTree ups zero start ordOf = .ok (arr, ords))
    (hu : ∀ u ∈ ups, u.Pairwise (· ≤ ·)) (hpos : ∀ u ∈ ups, ∀ t ∈ u, zero < t)
    (hstart : start < ups.length) {a : EvArgs τ} (hup : a.up_t = ups) (htr : a.tr_t = arr)
    (hord : a.orderings = ords) (hseq : a.seq = true) (hfirst : a.firstUpdatingNode = start)
    (hmin : a.minFrames ≤ 1) (hcov : ∀ r < ups.length, CoversNodes ups.length (ordOf r))
    {out : List (Instant τ)} (h : buildEvents a = .ok out)
    {ts : List τ} {ns : List Nat} {last : τ} (hg : getSeqUp ups zero start = .ok (ts, ns))
    (hlast : ts.getLast? = some last) {i : Instant τ} (hi : i ∈ out) (hle : i.t ≤ last)
    {k : Nat} (hk : k ∈ performedAt i) :
    performedAt i = [k] ∧
    pyGet a.orderings ((treesFormedUpTo a i.t : Int) - 1) = .ok (ordOf k) := by
  subst hup; subst htr; subst hord
  obtain ⟨t0, rest, ns', hg', hl, hf, hords⟩ := prepTree_ok (by omega) hprep
  rw [hg'] at hg
  cases hg
  have hn' := (C09_round_robin_instants hu hstart hg').2.2
  have hchain : SeqChain a.up_t zero start (t0 :: rest) := by
    unfold getSeqUp at hg'
    split at hg'
    · cases hg'
    next r ts' ns'' hr =>
    cases hg'
    exact (seqUpLoop_spec hu _ _ _ _ _ rfl hr).1
  have hcov' : a.tiFlag = true → ∀ o ∈ a.orderings, CoversNodes a.up_t.length o := by
    intro _ o ho
    rw [hords] at ho
    obtain ⟨j, _, rfl⟩ := List.mem_map.mp ho
    exact hcov _ (Nat.mod_lt _ (by omega))
  obtain ⟨pre, post, hs⟩ := List.append_of_mem hi
  obtain ⟨_, hp⟩ := performed_follow_seq h hcov' hseq hmin hfirst hstart hpos hchain last hlast
    pre.length pre post i rfl hs hle
  set T := t0 :: rest with hT
  have hTs : T.Pairwise (· < ·) := (List.pairwise_cons.mp hchain.sorted).2
  have hTz : ∀ t ∈ T, zero < t := (List.pairwise_cons.mp hchain.sorted).1
  by_cases hm : i.t ∈ T
  · rw [if_pos hm] at hp
    have hkk : k = (start + (T.filter fun s => decide (s < i.t)).length) % a.up_t.length := by
      rw [hp] at hk; simpa using hk
    refine ⟨by rw [hp, hkk], ?_⟩
    -- number of trees formed
    have hmemarr : ∀ x, x ∈ (a.tr_t.take a.up_t.length).flatten ↔ x ∈ zero :: rest := by
      intro x
      have hlen : a.tr_t.length = a.up_t.length := by rw [← hf.length_eq]; simp
      rw [List.take_of_length_le (by omega), List.mem_flatten]
      constructor
      · rintro ⟨r, hr, hx⟩
        obtain ⟨kk, _, hkr⟩ := forall₂_mem_right hf hr
        obtain ⟨j, hj, _⟩ := (mem_maskEq hkr x).mp hx
        exact List.mem_of_getElem? hj
      · intro hx
        obtain ⟨j, hj⟩ := List.mem_iff_getElem?.mp hx
        have hjl : j < ns.length := by
          have := (List.getElem?_eq_some_iff.mp hj).1
          simp only [List.length_cons] at this
          omega
        have hnj : ns[j]? = some ns[j] := List.getElem?_eq_getElem hjl
        have hlt : ns[j] < a.up_t.length := by
          rw [hn' j _ hnj]; exact Nat.mod_lt _ (by omega)
        have := (List.forall₂_iff_get.mp hf).2 ns[j] (by simpa using hlt) (by omega)
        simp only [List.get_eq_getElem, List.getElem_range] at this
        exact ⟨_, List.getElem_mem _, (mem_maskEq this x).mpr ⟨j, hj, hnj⟩⟩
    have hzr : (zero :: rest).Pairwise (· < ·) := by
      rw [hT] at hTs hTz
      rw [List.pairwise_cons] at hTs ⊢
      exact ⟨fun x hx => hTz x (by simp [hx]), hTs.2⟩
    have hcount : treesFormedUpTo a i.t = ((zero :: rest).filter fun x => decide (x ≤ i.t)).length := by
      unfold treesFormedUpTo
      apply List.Perm.length_eq
      apply List.Perm.filter
      rw [List.perm_ext_iff_of_nodup (List.nodup_dedup _) (hzr.imp (fun h => ne_of_lt h))]
      intro x
      rw [List.mem_dedup]
      exact hmemarr x
    have h0 : zero ≤ i.t := (hTz _ hm).le
    have ht0 : t0 ≤ i.t := by
      rw [hT] at hm hTs
      rcases List.mem_cons.mp hm with e | hm
      · exact e.ge
      · exact (List.rel_of_pairwise_cons hTs hm).le
    have hcount2 : treesFormedUpTo a i.t =
        (T.filter fun s => decide (s < i.t)).length + 1 := by
      have hle2 := filter_le_length hTs i.t
      rw [if_pos hm] at hle2
      rw [hcount, ← hle2, hT]
      simp [h0, ht0]
    rw [hcount2, hords]
    have hjlt : (T.filter fun s => decide (s < i.t)).length < rest.length + 1 := by
      have h5 : (T.filter fun s => decide (s < i.t)).length < T.length :=
        List.length_filter_lt_length_iff_exists.mpr ⟨i.t, hm, by simp⟩
      simpa [hT] using h5
    have : (((T.filter fun s => decide (s < i.t)).length + 1 : Nat) : Int) - 1 =
        ((T.filter fun s => decide (s < i.t)).length : Nat) := by push_cast; omega
    rw [this, pyGet_natCast, List.getElem?_map, List.getElem?_range hjlt, hkk]
    rfl
  · rw [if_neg hm] at hp
    rw [hp] at hk
    simp at hk

/-- C10 (b): with synchronous clocks (all nodes share the update instants) this holds at every
instant of the run. -/
theorem C10_updater_is_root_synchronous {n : Nat} {u : List τ} {zero : τ} {start : Nat}
    {ordOf : Nat → List Level} (hu : u.Pairwise (· ≤ ·)) (hune : u ≠ [])
    (hpos : ∀ t ∈ u, zero < t) (hstart : start < n)
    (hcov : ∀ r < n, CoversNodes n (ordOf r)) :
    ∃ arr ords, prepTree (List.replicate n u) zero start ordOf = .ok (arr, ords) ∧
      ∀ (a : EvArgs τ) (out : List (Instant τ)), a.up_t = List.replicate n u → a.tr_t = arr →
        a.orderings = ords → a.seq = true → a.firstUpdatingNode = start → a.minFrames ≤ 1 →
        buildEvents a = .ok out → ∀ i ∈ out, ∀ k ∈ performedAt i,
        pyGet a.orderings ((treesFormedUpTo a i.t : Int) - 1) = .ok (ordOf k) := by
  have hus : ∀ v ∈ List.replicate n u, v.Pairwise (· ≤ ·) := by
    intro v hv; rw [List.eq_of_mem_replicate hv]; exact hu
  have hst : start < (List.replicate n u).length := by simpa using hstart
  have hget : ∀ (j : Nat) v, (List.replicate n u)[j]? = some v → v = u := by
    intro j v hv
    exact List.eq_of_mem_replicate (List.mem_of_getElem? hv)
  obtain ⟨ts, ns, hg⟩ := C09_terminates (ups := List.replicate n u)
    (fun v hv => by rw [List.eq_of_mem_replicate hv]; exact hune) zero hst
  obtain ⟨hlen, hprep, ⟨v, hv1, hv2⟩, heq⟩ := C09_lengths hus hst hg ordOf
  have hvu := hget _ _ hv1
  subst hvu
  have htsne : ts ≠ [] := by
    rintro rfl
    obtain ⟨x, hx⟩ := List.exists_mem_of_ne_nil _ hune
    have h1 := hv2 x hx
    simp only [List.getLast_singleton] at h1
    exact absurd (hpos x hx) (not_lt.mpr h1)
  have hok : ns.length = ts.length := by
    apply heq.mpr
    have hlt : (start + (ts.length - 1)) % (List.replicate n v).length <
        (List.replicate n v).length := Nat.mod_lt _ (by omega)
    exact ⟨v, htsne, by rw [List.getElem?_eq_getElem hlt]; simp, hv2⟩
  obtain ⟨⟨arr, ords⟩, hpr⟩ := hprep.mpr hok
  refine ⟨arr, ords, hpr, ?_⟩
  intro a out h1 h2 h3 h4 h5 h6 h7 i hi k hk
  have hcov' : a.tiFlag = true → ∀ o ∈ a.orderings, CoversNodes a.up_t.length o := by
    intro _ o ho
    obtain ⟨t0, rest, ns', _, _, _, hords⟩ := prepTree_ok (by omega) hpr
    rw [h3, hords] at ho
    obtain ⟨j, _, rfl⟩ := List.mem_map.mp ho
    rw [h1]
    simp only [List.length_replicate]
    exact hcov _ (Nat.mod_lt _ (by omega))
  -- the performed update happens at one of the shared instants
  have hmem : i.t ∈ v := by
    have hk2 : ∃ e ∈ i.evs, e.ty = .up ∧ e.node = k := by
      unfold performedAt at hk
      simp only [List.mem_map, List.mem_filter, Bool.and_eq_true, decide_eq_true_eq] at hk
      obtain ⟨e, ⟨he, ht, _⟩, hn⟩ := hk
      exact ⟨e, he, ht, hn⟩
    obtain ⟨w, hw, hit⟩ := (up_event_iff h7 hcov' hi k).mp hk2
    rw [h1] at hw
    rw [hget _ _ hw] at hit
    exact hit
  refine (C10_updater_is_root hpr hus
    (fun w hw => by rw [List.eq_of_mem_replicate hw]; exact hpos) hst h1 h2 h3 h4 h5 h6
    (by simpa using hcov) h7 hg (last := ts.getLast htsne)
    (List.getLast?_eq_some_getLast htsne) hi ?_ hk).2
  have := hv2 i.t hmem
  rwa [List.getLast_cons htsne] at this

end

/-! ## Concrete cases and the refutation for `updateEvery = 2` -/

/-- Path `0 - 1`: ordering of the tree rooted at `r`. -/
def exOrd (r : Nat) : List Level := if r = 0 then [.many [1], .one 0] else [.many [0], .one 1]

/-- Two synchronous nodes with re-rooting, `updateEvery = m`. -/
def exReroot (m : Int) : EvArgs Nat :=
  { up_t := [[10, 20, 30], [10, 20, 30]], bc_t := [[10, 20, 30], [10, 20, 30]]
    fuse_t := [[10, 20, 30], [10, 20, 30]], re_t := [[10, 20, 30], [10, 20, 30]]
    tr_t := [[0, 30], [20]], orderings := [exOrd 0, exOrd 1, exOrd 0]
    seq := true, firstUpdatingNode := 0, minFrames := m }

/-- The example's tree instants are what the code prepares. -/
example : prepTree (exReroot 1).up_t 0 0 exOrd =
    .ok ((exReroot 1).tr_t, (exReroot 1).orderings) := by
  cbv

example : ∀ r < 2, CoversNodes 2 (exOrd r) := by
  unfold CoversNodes; decide

example : (buildEvents (exReroot 1)).map (fun out => out.map performedAt) =
    .ok [[], [0], [1], [0]] := by
  cbv

/-- C10 (c), disagreement: with `updateEvery = 2` (and everything else as in C10 (b)) there is an
instant at which node 0 performs an update while the tree in force is rooted at node 1. -/
theorem C10_refuted_for_updateEvery_two :
    ∃ (a : EvArgs Nat) (out : List (Instant Nat)) (i : Instant Nat),
      prepTree a.up_t 0 0 exOrd = .ok (a.tr_t, a.orderings) ∧ a.seq = true ∧
      a.firstUpdatingNode = 0 ∧ a.minFrames = 2 ∧ buildEvents a = .ok out ∧ i ∈ out ∧
      performedAt i = [0] ∧
      pyGet a.orderings ((treesFormedUpTo a i.t : Int) - 1) = .ok (exOrd 1) ∧
      exOrd 1 ≠ exOrd 0 := by
  have hb : (buildEvents (exReroot 2)).map
      (fun out => (out.drop 2).head?.map (fun i => (i.t, performedAt i))) =
      .ok (some (20, [0])) := by cbv
  cases ho : buildEvents (exReroot 2) with
  | error e => rw [ho] at hb; cases hb
  | ok out =>
    rw [ho] at hb
    simp only [Except.map, Except.ok.injEq, Option.map_eq_some_iff] at hb
    obtain ⟨i, hi, he⟩ := hb
    have hmem : i ∈ out := List.mem_of_mem_drop (List.mem_of_mem_head? hi)
    simp only [Prod.mk.injEq] at he
    refine ⟨exReroot 2, out, i, by cbv, rfl, rfl, rfl, ho, hmem, he.2, ?_, by decide⟩
    rw [he.1]
    cbv

/-- C07: a clock with a sample-rate offset. -/
example : generateAligned (2 : ℚ) 5 2 16 [0, 1/15, 2/15, 3/15, 4/15, 5/15, 6/15, 7/15] =
    .ok [4/15, 6/15, 7/15] ∧
    ([0, 1/15, 2/15, 3/15, 4/15, 5/15, 6/15, 7/15] : List ℚ).Pairwise (· < ·) := by
  constructor
  · have h : (⌈((5 : Int) : ℚ) - 2⌉).toNat = 3 := by norm_num; rfl
    unfold generateAligned nominalInstants
    rw [h]
    norm_num [alignInstants, alignInstant, List.range_succ,
      pyGet, List.mapM_cons, bind, Except.bind, pure, Except.pure]
    rfl
  · norm_num

/-- C08: `L = 2`, one neighbour with update instants between the admissible ones. -/
example : efficientBc [0, 3, 6, 9, 12, 15, 18] 2 [[], [1, 7, 12, 13]] [1] =
    .ok [6, 6, 12, 12] := by
  cbv

/-- C09: asynchronous clocks, lists of equal length. -/
example : getSeqUp [[10, 20], [15, 25, 35]] 0 0 = .ok ([10, 15, 20], [0, 1, 0]) := by
  cbv

/-- C09 (d), disagreement: two nodes whose clocks differ by one frame over the recording. The node
list is one longer than the instant list and the preparation of the run raises `IndexError`. -/
theorem C09_tree_construction_can_fail :
    ∃ (ups : List (List Nat)) (ordOf : Nat → List Level), (∀ u ∈ ups, u.Pairwise (· < ·)) ∧
      getSeqUp ups 0 1 = .ok ([10, 20], [1, 0, 1]) ∧
      prepTree ups 0 1 ordOf = .error .indexError := by
  refine ⟨[[10, 20, 30], [10, 20]], exOrd, by decide, by cbv, by cbv⟩

end Danse
