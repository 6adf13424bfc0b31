import Mathlib.Data.List.Sort
import Mathlib.Tactic.Linarith
import Mathlib.Tactic.Positivity
import Verif.Proofs.Py
import Verif.Proofs.Events
import Verif.Model.Instants
import Verif.Spec.Instants

/-! # Helper lemmas on event instants -/

set_option linter.unusedSectionVars false

namespace Danse
section
variable {τ : Type} [LinearOrder τ]

theorem alignInstant_spec {stamps : List τ} (hs : stamps.Pairwise (· < ·)) (hne : stamps ≠ [])
    (t : τ) : ∃ r, alignInstant stamps t = .ok r ∧ IsAlignedUp stamps t r := by
  unfold alignInstant IsAlignedUp
  by_cases hm : t ∈ stamps
  · rw [if_pos hm]
    refine ⟨t, rfl, hm, fun _ => ⟨le_rfl, fun s _ h => h⟩, fun h => ?_⟩
    exact absurd (h t hm) (lt_irrefl t)
  rw [if_neg hm]
  have hne' : ∀ s ∈ stamps, t ≠ s := fun s hs' h => hm (h ▸ hs')
  simp only
  cases hp : stamps.filter (fun s => decide (t < s)) with
  | nil =>
    rw [if_neg (by simp)]
    rw [List.filter_eq_nil_iff] at hp
    refine ⟨_, pyGet_neg_one _ hne, List.getLast_mem hne, ?_, ?_⟩
    · rintro ⟨s, hs1, hs2⟩
      exact absurd (by simpa using lt_of_le_of_ne hs2 (hne' s hs1)) (hp s hs1)
    · intro _ s hs1
      rcases List.mem_iff_getElem.mp hs1 with ⟨i, hi, rfl⟩
      rw [List.getLast_eq_getElem]
      rcases Nat.lt_or_ge i (stamps.length - 1) with h | h
      · exact (List.pairwise_iff_getElem.mp hs i _ hi (by omega) h).le
      · have : i = stamps.length - 1 := by omega
        subst this; exact le_rfl
  | cons a r =>
    rw [if_pos (by simp), pyGet_zero_cons]
    have ha : a ∈ stamps.filter (fun s => decide (t < s)) := by rw [hp]; simp
    rw [List.mem_filter] at ha
    have hta : t < a := by simpa using ha.2
    refine ⟨a, rfl, ha.1, fun _ => ⟨hta.le, ?_⟩, fun h => absurd (h a ha.1) (not_lt.mpr hta.le)⟩
    intro s hs1 hs2
    have hsr : s ∈ a :: r := by
      rw [← hp, List.mem_filter]
      exact ⟨hs1, by simpa using lt_of_le_of_ne hs2 (hne' s hs1)⟩
    have hpw : (a :: r).Pairwise (· < ·) := hp ▸ hs.filter _
    rcases List.mem_cons.mp hsr with rfl | h
    · exact le_rfl
    · exact (List.rel_of_pairwise_cons hpw h).le

theorem IsAlignedUp.mono {stamps : List τ} {t t' r r' : τ} (h : IsAlignedUp stamps t r)
    (h' : IsAlignedUp stamps t' r') (hle : t ≤ t') : r ≤ r' := by
  obtain ⟨h1, h2, h3⟩ := h
  obtain ⟨h1', h2', h3'⟩ := h'
  by_cases hex : ∃ s ∈ stamps, t' ≤ s
  · obtain ⟨a1, a2⟩ := h2' hex
    obtain ⟨s, hs, hle'⟩ := hex
    exact (h2 ⟨s, hs, hle.trans hle'⟩).2 r' h1' (hle.trans a1)
  · push Not at hex
    exact h3' hex r h1

theorem mem_possibleBc {stamps : List τ} {L : Nat} {ps : List τ} (hL : possibleBc stamps L = .ok ps)
    (x : τ) : x ∈ ps ↔ IsMultipleStamp stamps L x := by
  unfold possibleBc at hL
  split at hL
  · cases hL
  next h0 =>
  cases hL
  rw [List.mem_filterMap]
  unfold IsMultipleStamp
  constructor
  · rintro ⟨⟨y, i⟩, hm, hif⟩
    simp only at hif
    split at hif
    · next hc =>
      cases hif
      have hi := List.mem_zipIdx_iff_getElem?.mp hm
      simp only at hi
      refine ⟨i / L, ?_, ?_⟩
      · exact Nat.div_pos hc.1 (by omega)
      · have hd : L ∣ i := by
          have := Nat.dvd_of_mod_eq_zero hc.2
          have h2 := Nat.dvd_add this (dvd_refl L)
          rwa [Nat.sub_add_cancel hc.1] at h2
        rw [Nat.div_mul_cancel hd]
        exact hi
    · cases hif
  · rintro ⟨m, hm, hx⟩
    refine ⟨(x, m * L), List.mem_zipIdx_iff_getElem?.mpr hx, ?_⟩
    simp only
    rw [if_pos]
    refine ⟨Nat.le_mul_of_pos_left L hm, ?_⟩
    obtain ⟨m', rfl⟩ : ∃ m', m = m' + 1 := ⟨m - 1, by omega⟩
    rw [Nat.add_mul, Nat.one_mul, Nat.add_sub_cancel]
    simp

theorem possibleBc_sorted {stamps : List τ} {L : Nat} {ps : List τ}
    (hs : stamps.Pairwise (· < ·)) (hL : possibleBc stamps L = .ok ps) :
    ps.Pairwise (· < ·) := by
  unfold possibleBc at hL
  split at hL
  · cases hL
  cases hL
  rw [List.pairwise_filterMap]
  have : (stamps.zipIdx).Pairwise (fun a b => a.1 < b.1) := by
    rw [← List.pairwise_map (f := Prod.fst) (R := (· < ·)), List.zipIdx_map_fst]
    exact hs
  refine this.imp ?_
  rintro ⟨a, i⟩ ⟨b, j⟩ hab x hx y hy
  simp only at hx hy hab
  split at hx <;> simp at hx
  split at hy <;> simp at hy
  subst hx; subst hy; exact hab

theorem alignBc_spec {possible : List τ} (hs : possible.Pairwise (· < ·)) (hne : possible ≠ [])
    (t : τ) : ∃ r, alignBc possible t = .ok r ∧ IsAlignedDown possible t r := by
  unfold alignBc IsAlignedDown
  by_cases hm : t ∈ possible
  · rw [if_pos hm]
    refine ⟨t, rfl, hm, fun _ => ⟨le_rfl, fun s _ h => h⟩, fun h => ?_⟩
    exact absurd (h t hm) (lt_irrefl t)
  rw [if_neg hm]
  have hne' : ∀ s ∈ possible, s ≠ t := fun s hs' h => hm (h ▸ hs')
  simp only
  by_cases hp : possible.filter (fun s => decide (s < t)) = []
  · rw [hp, if_neg (by simp)]
    rw [List.filter_eq_nil_iff] at hp
    cases possible with
    | nil => exact absurd rfl hne
    | cons a r =>
      refine ⟨a, pyGet_zero_cons a r, by simp, ?_, ?_⟩
      · rintro ⟨s, hs1, hs2⟩
        exact absurd (by simpa using lt_of_le_of_ne hs2 (hne' s hs1)) (hp s hs1)
      · intro _ s hs1
        rcases List.mem_cons.mp hs1 with rfl | h
        · exact le_rfl
        · exact (List.rel_of_pairwise_cons hs h).le
  · rw [if_pos (List.length_pos_of_ne_nil hp), pyGet_neg_one _ hp]
    generalize hpast : possible.filter (fun s => decide (s < t)) = past at hp ⊢
    have hlast : past.getLast hp ∈ possible ∧ decide (past.getLast hp < t) = true := by
      have := List.getLast_mem hp
      generalize past.getLast hp = z at this ⊢
      rw [← hpast, List.mem_filter] at this
      exact this
    have hlt : past.getLast hp < t := by simpa using hlast.2
    refine ⟨_, rfl, hlast.1, fun _ => ⟨hlt.le, ?_⟩,
      fun h => absurd (h _ hlast.1) (not_lt.mpr hlt.le)⟩
    intro s hs1 hs2
    have hsp : s ∈ past := by
      rw [← hpast, List.mem_filter]
      exact ⟨hs1, by simpa using lt_of_le_of_ne hs2 (hne' s hs1)⟩
    have hpw : past.Pairwise (· < ·) := hpast ▸ hs.filter _
    rcases List.mem_iff_getElem.mp hsp with ⟨i, hi, rfl⟩
    rw [List.getLast_eq_getElem]
    rcases Nat.lt_or_ge i (past.length - 1) with h | h
    · exact (List.pairwise_iff_getElem.mp hpw i _ hi (by omega) h).le
    · have : i = past.length - 1 := by omega
      subst this; exact le_rfl

/-- The union fold keeps exactly the distinct values. -/
theorem unionFold_spec (l : List τ) (acc : List τ) (hacc : acc.Nodup) :
    (l.foldl (fun acc t => if t ∈ acc then acc else acc ++ [t]) acc).Nodup ∧
    ∀ x, x ∈ l.foldl (fun acc t => if t ∈ acc then acc else acc ++ [t]) acc ↔
      x ∈ acc ∨ x ∈ l := by
  induction l generalizing acc with
  | nil => simp [hacc]
  | cons a r ih =>
    simp only [List.foldl_cons]
    by_cases h : a ∈ acc
    · rw [if_pos h]
      obtain ⟨h1, h2⟩ := ih acc hacc
      refine ⟨h1, fun x => ?_⟩
      rw [h2]
      simp only [List.mem_cons]
      constructor
      · rintro (h | h) <;> simp [h]
      · rintro (h' | rfl | h') <;> simp_all
    · rw [if_neg h]
      obtain ⟨h1, h2⟩ := ih (acc ++ [a]) (by
        rw [List.nodup_append]
        refine ⟨hacc, by simp, ?_⟩
        rintro x hx y hy rfl
        rw [List.mem_singleton.mp hy] at hx
        exact h hx)
      refine ⟨h1, fun x => ?_⟩
      rw [h2]
      simp only [List.mem_append, List.mem_cons, List.not_mem_nil, or_false]
      tauto

theorem combinedUp_spec {ups : List (List τ)} {nb : List Nat} {c : List τ}
    (h : combinedUp ups nb = .ok c) :
    c.Pairwise (· < ·) ∧ ∀ t, t ∈ c ↔ ∃ q ∈ nb, ∃ u, ups[q]? = some u ∧ t ∈ u := by
  unfold combinedUp at h
  cases hm : nb.mapM (fun (q : Nat) => pyGet ups (q : Int)) with
  | error e => rw [hm] at h; cases h
  | ok all =>
    rw [hm] at h
    cases h
    have hf := mapM_ok_forall₂ hm
    obtain ⟨h1, h2⟩ := unionFold_spec all.flatten [] List.nodup_nil
    constructor
    · have hle := List.pairwise_mergeSort (le := fun a b : τ => decide (a ≤ b))
        (fun a b c hab hbc => by
          simp only [decide_eq_true_eq] at *; exact hab.trans hbc)
        (fun a b => by simp only [Bool.or_eq_true, decide_eq_true_eq]; exact le_total a b)
        (all.flatten.foldl (fun acc t => if t ∈ acc then acc else acc ++ [t]) [])
      have hnd : ((all.flatten.foldl (fun acc t => if t ∈ acc then acc else acc ++ [t])
          []).mergeSort (fun a b => decide (a ≤ b))).Nodup :=
        (List.mergeSort_perm _ _).nodup_iff.mpr h1
      refine (hle.and hnd).imp ?_
      rintro a b ⟨hab, hne⟩
      exact lt_of_le_of_ne (by simpa using hab) hne
    · intro t
      rw [(List.mergeSort_perm _ _).mem_iff, h2]
      simp only [List.not_mem_nil, false_or, List.mem_flatten]
      constructor
      · rintro ⟨u, hu, ht⟩
        obtain ⟨q, hq, hqu⟩ : ∃ q ∈ nb, pyGet ups (q : Int) = .ok u := by
          clear h2 h1 hm ht
          induction hf with
          | nil => simp at hu
          | @cons x y xs ys hr _ ih =>
            rcases List.mem_cons.mp hu with rfl | hu
            · exact ⟨x, by simp, hr⟩
            · obtain ⟨q, hq, hh⟩ := ih hu
              exact ⟨q, by simp [hq], hh⟩
        refine ⟨q, hq, u, ?_, ht⟩
        rw [pyGet_natCast] at hqu
        split at hqu
        · next hx => cases hqu; exact hx
        · cases hqu
      · rintro ⟨q, hq, u, hu, ht⟩
        refine ⟨u, ?_, ht⟩
        clear h2 h1 hm
        induction hf with
        | nil => simp at hq
        | @cons x y xs ys hr _ ih =>
          rcases List.mem_cons.mp hq with rfl | hq
          · rw [pyGet_natCast, hu] at hr
            cases hr; simp
          · exact List.mem_cons_of_mem _ (ih hq)

theorem npAmax_spec {u : List τ} {m : τ} (h : npAmax u = .ok m) : m ∈ u ∧ ∀ x ∈ u, x ≤ m := by
  cases u with
  | nil => cases h
  | cons a r =>
    simp only [npAmax, Except.ok.injEq] at h
    subst h
    have : ∀ (l : List τ) (acc : τ), (l.foldl max acc ∈ l ∨ l.foldl max acc = acc) ∧
        acc ≤ l.foldl max acc ∧ ∀ x ∈ l, x ≤ l.foldl max acc := by
      intro l
      induction l with
      | nil => intro acc; simp
      | cons b l ih =>
        intro acc
        obtain ⟨h1, h2, h3⟩ := ih (max acc b)
        simp only [List.foldl_cons]
        refine ⟨?_, (le_max_left _ _).trans h2, ?_⟩
        · rcases h1 with h1 | h1
          · left; simp [h1]
          · rw [h1]
            rcases max_choice acc b with h | h
            · right; exact h
            · left; rw [h]; simp
        · intro x hx
          rcases List.mem_cons.mp hx with rfl | hx
          · exact (le_max_right _ _).trans h2
          · exact h3 x hx
    obtain ⟨h1, h2, h3⟩ := this r a
    refine ⟨?_, ?_⟩
    · rcases h1 with h1 | h1
      · simp [h1]
      · rw [h1]; simp
    · intro x hx
      rcases List.mem_cons.mp hx with rfl | hx
      · exact h2
      · exact h3 x hx

theorem nextInstant_spec {u : List τ} (hu : u.Pairwise (· ≤ ·)) {curr t : τ}
    (h : nextInstant u curr = .ok t) : IsEarliestAfter u curr t := by
  obtain ⟨h1, h2⟩ := nextInstant_mem h
  refine ⟨h1, h2, ?_⟩
  intro s hs hlt
  unfold nextInstant at h
  cases hf : u.filter (fun t => decide (curr < t)) with
  | nil => rw [hf, pyGet_zero_nil] at h; cases h
  | cons a r =>
    rw [hf, pyGet_zero_cons] at h
    cases h
    have hsr : s ∈ t :: r := by rw [← hf, List.mem_filter]; exact ⟨hs, by simpa using hlt⟩
    have hpw : (t :: r).Pairwise (· ≤ ·) := hf ▸ hu.filter _
    rcases List.mem_cons.mp hsr with rfl | h
    · exact le_rfl
    · exact List.rel_of_pairwise_cons hpw h

theorem nextInstant_ok {u : List τ} {curr m : τ} (hm : m ∈ u) (h : curr < m) :
    ∃ t, nextInstant u curr = .ok t := by
  unfold nextInstant
  cases hf : u.filter (fun t => decide (curr < t)) with
  | nil =>
    rw [List.filter_eq_nil_iff] at hf
    exact absurd (by simpa using h) (hf m hm)
  | cons a r => exact ⟨a, pyGet_zero_cons a r⟩

/-- The chain property of the loop: `t`, started after `prev` at node `node`. -/
def SeqChain (ups : List (List τ)) : τ → Nat → List τ → Prop
  | _, _, [] => True
  | prev, node, t :: ts => (∃ u, ups[node]? = some u ∧ IsEarliestAfter u prev t) ∧
      SeqChain ups t ((node + 1) % ups.length) ts

/-- Node numbers of the loop. -/
def NodeChain (n : Nat) : Nat → List Nat → Prop
  | _, [] => True
  | node, k :: ks => k = (node + 1) % n ∧ NodeChain n k ks

/-- A node has no instant after `t`. -/
def Exhausted (ups : List (List τ)) (node : Nat) (t : τ) : Prop :=
  ∃ u, ups[node]? = some u ∧ ∀ s ∈ u, s ≤ t

theorem seqUpLoop_spec {ups : List (List τ)} (hu : ∀ u ∈ ups, u.Pairwise (· ≤ ·)) :
    ∀ (n : Nat) (curr : τ) (node : Nat) (ts : List τ) (ns : List Nat),
      (ups.flatten.filter fun x => decide (curr < x)).length = n →
      seqUpLoop ups curr node = .ok (ts, ns) →
      SeqChain ups curr node ts ∧ NodeChain ups.length node ns ∧
      ((ts = [] ∧ ns = [] ∧ Exhausted ups node curr) ∨
       (ts ≠ [] ∧ ns.length + 1 = ts.length ∧ ∃ k t, (node :: ns).getLast? = some k ∧
          ts.getLast? = some t ∧ Exhausted ups k t) ∨
       (ts ≠ [] ∧ ns.length = ts.length ∧ ∃ k t, (node :: ns).getLast? = some k ∧
          ts.getLast? = some t ∧ Exhausted ups k t ∧
          ∃ p, (node :: ns).dropLast.getLast? = some p ∧ ¬ Exhausted ups p t)) := by
  intro n
  induction n using Nat.strong_induction_on with
  | _ n ih =>
  intro curr node ts ns hn h
  rw [seqUpLoop] at h
  split at h
  case isFalse => cases h
  next hlt =>
  have hget : ups[node]? = some ups[node] := List.getElem?_eq_getElem hlt
  cases hm : npAmax ups[node] with
  | error e => simp [hm] at h
  | ok m =>
    obtain ⟨hmem, hmax⟩ := npAmax_spec hm
    simp only [hm] at h
    by_cases hc : curr < m
    · simp only [if_pos hc] at h
      obtain ⟨t, ht⟩ := nextInstant_ok hmem hc
      have hear := nextInstant_spec (hu _ (List.getElem_mem hlt)) ht
      have hdec : (ups.flatten.filter fun x => decide (t < x)).length < n := by
        have hm' : t ∈ ups.flatten := List.mem_flatten.mpr ⟨_, List.getElem_mem hlt, hear.1⟩
        have hsub : (ups.flatten.filter fun x => decide (t < x)) =
            ((ups.flatten.filter fun x => decide (curr < x)).filter fun x => decide (t < x)) := by
          rw [List.filter_filter]
          apply List.filter_congr
          intro x _
          by_cases h : t < x
          · simp [h, hear.2.1.trans h]
          · simp [h]
        rw [hsub, ← hn]
        apply List.length_filter_lt_length_iff_exists.mpr
        exact ⟨t, List.mem_filter.mpr ⟨hm', by simpa using hear.2.1⟩, by simp⟩
      split at h
      · next e he => rw [ht] at he; cases he
      next t' ht' =>
      rw [ht] at ht'
      cases ht'
      by_cases htm : t < m
      · rw [if_pos htm] at h
        split at h
        · cases h
        next r ts' ns' hrec =>
        cases h
        obtain ⟨i1, i2, i3⟩ := ih _ hdec t _ ts' ns' rfl hrec
        have hnex : ¬ Exhausted ups node t := by
          rintro ⟨u, hu', hall⟩
          rw [hget] at hu'
          cases hu'
          exact absurd (hall m hmem) (not_le.mpr htm)
        refine ⟨⟨⟨_, hget, hear⟩, i1⟩, ⟨rfl, i2⟩, ?_⟩
        rcases i3 with ⟨h1, h2, h3⟩ | ⟨h1, h2, k, x, h3, h4, h5⟩ |
          ⟨h1, h2, k, x, h3, h4, h5, p, h6, h7⟩
        · right; right
          subst h1; subst h2
          exact ⟨by simp, by simp, _, t, by simp, by simp, h3, node, by simp, hnex⟩
        · right; left
          refine ⟨by simp, by simp [← h2], k, x, ?_, ?_, h5⟩
          · rw [List.getLast?_cons_cons]; exact h3
          · rw [List.getLast?_cons, h4]; rfl
        · right; right
          refine ⟨by simp, by simp [h2], k, x, ?_, ?_, h5, p, ?_, h7⟩
          · rw [List.getLast?_cons_cons]; exact h3
          · rw [List.getLast?_cons, h4]; rfl
          · rw [List.dropLast_cons_cons, List.getLast?_cons, h6]; rfl
      · rw [if_neg htm] at h
        have htm' : t = m := le_antisymm (hmax t hear.1) (not_lt.mp htm)
        have hstop : seqUpLoop ups t node = .ok ([], []) := by
          rw [seqUpLoop, dif_pos hlt]
          simp only [hm, if_neg htm]
        rw [hstop] at h
        cases h
        refine ⟨⟨⟨_, hget, hear⟩, trivial⟩, trivial, ?_⟩
        right; left
        refine ⟨by simp, by simp, node, t, by simp, by simp, _, hget, ?_⟩
        intro s hs
        rw [htm']; exact hmax s hs
    · rw [if_neg hc] at h
      cases h
      refine ⟨trivial, trivial, .inl ⟨rfl, rfl, _, hget, ?_⟩⟩
      intro s hs
      exact (hmax s hs).trans (not_lt.mp hc)

theorem seqUpLoop_total {ups : List (List τ)} (hne : ∀ u ∈ ups, u ≠ []) :
    ∀ (n : Nat) (curr : τ) (node : Nat), node < ups.length →
      (ups.flatten.filter fun x => decide (curr < x)).length = n →
      ∃ r, seqUpLoop ups curr node = .ok r := by
  intro n
  induction n using Nat.strong_induction_on with
  | _ n ih =>
  intro curr node hlt hn
  rw [seqUpLoop, dif_pos hlt]
  cases hm : npAmax ups[node] with
  | error e =>
    cases hu : ups[node] with
    | nil => exact absurd hu (hne _ (List.getElem_mem hlt))
    | cons a r => rw [hu] at hm; cases hm
  | ok m =>
    obtain ⟨hmem, hmax⟩ := npAmax_spec hm
    simp only
    by_cases hc : curr < m
    · rw [if_pos hc]
      obtain ⟨t, ht⟩ := nextInstant_ok hmem hc
      obtain ⟨h1, h2⟩ := nextInstant_mem ht
      have hdec : (ups.flatten.filter fun x => decide (t < x)).length < n := by
        have hm' : t ∈ ups.flatten := List.mem_flatten.mpr ⟨_, List.getElem_mem hlt, h1⟩
        have hsub : (ups.flatten.filter fun x => decide (t < x)) =
            ((ups.flatten.filter fun x => decide (curr < x)).filter fun x => decide (t < x)) := by
          rw [List.filter_filter]
          apply List.filter_congr
          intro x _
          by_cases h : t < x
          · simp [h, h2.trans h]
          · simp [h]
        rw [hsub, ← hn]
        apply List.length_filter_lt_length_iff_exists.mpr
        exact ⟨t, List.mem_filter.mpr ⟨hm', by simpa using h2⟩, by simp⟩
      split
      · next e he => rw [ht] at he; cases he
      next t' ht' =>
      rw [ht] at ht'
      cases ht'
      split
      · obtain ⟨r, hr⟩ := ih _ hdec t ((node + 1) % ups.length) (Nat.mod_lt _ (by omega)) rfl
        simp only [hr]
        exact ⟨_, rfl⟩
      · obtain ⟨r, hr⟩ := ih _ hdec t node hlt rfl
        rw [hr]
        exact ⟨_, rfl⟩
    · rw [if_neg hc]; exact ⟨_, rfl⟩

theorem SeqChain.get {ups : List (List τ)} {prev : τ} {node : Nat} {ts : List τ}
    (h : SeqChain ups prev node ts) (hnode : node < ups.length) :
    ∀ j t, ts[j]? = some t → ∃ u, ups[(node + j) % ups.length]? = some u ∧
      IsEarliestAfter u ((prev :: ts)[j]?.getD prev) t := by
  induction ts generalizing prev node with
  | nil => intro j t h; simp at h
  | cons a r ih =>
    intro j t hj
    obtain ⟨h1, h2⟩ := h
    cases j with
    | zero =>
      simp only [List.getElem?_cons_zero, Option.some.injEq] at hj
      subst hj
      rw [Nat.add_zero, Nat.mod_eq_of_lt hnode]
      simpa using h1
    | succ j =>
      have := ih h2 (Nat.mod_lt _ (by omega)) j t (by simpa using hj)
      obtain ⟨u, hu, he⟩ := this
      refine ⟨u, ?_, ?_⟩
      · rw [← hu, Nat.mod_add_mod]
        congr 2
        omega
      · have hlt : j < (a :: r).length := by
          have : j < r.length := by
            have := List.getElem?_eq_some_iff.mp hj
            simpa using this.1
          simp; omega
        simp only [List.getElem?_cons_succ]
        rw [List.getElem?_eq_getElem hlt] at he ⊢
        simpa using he

theorem SeqChain.sorted {ups : List (List τ)} {prev : τ} {node : Nat} {ts : List τ}
    (h : SeqChain ups prev node ts) : (prev :: ts).Pairwise (· < ·) := by
  induction ts generalizing prev node with
  | nil => simp
  | cons a r ih =>
    obtain ⟨⟨u, _, h1⟩, h2⟩ := h
    have hp := ih h2
    rw [List.pairwise_cons] at hp ⊢
    refine ⟨?_, List.pairwise_cons.mpr hp⟩
    intro x hx
    rcases List.mem_cons.mp hx with rfl | hx
    · exact h1.2.1
    · exact h1.2.1.trans (hp.1 x hx)

theorem NodeChain.get {n node : Nat} {ns : List Nat} (h : NodeChain n node ns)
    (hnode : node < n) : ∀ j k, (node :: ns)[j]? = some k → k = (node + j) % n := by
  induction ns generalizing node with
  | nil =>
    intro j k hj
    cases j with
    | zero => simp at hj; rw [← hj]; simp [Nat.mod_eq_of_lt hnode]
    | succ j => simp at hj
  | cons a r ih =>
    intro j k hj
    obtain ⟨h1, h2⟩ := h
    cases j with
    | zero => simp at hj; rw [← hj]; simp [Nat.mod_eq_of_lt hnode]
    | succ j =>
      have := ih h2 (by rw [h1]; exact Nat.mod_lt _ (by omega)) j k (by simpa using hj)
      rw [this, h1, Nat.mod_add_mod]
      congr 1
      omega

end
end Danse
