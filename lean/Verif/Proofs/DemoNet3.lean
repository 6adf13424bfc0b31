import Verif.Proofs.DemoNet2

/-! # Lemmas about the parallel simulation -/

namespace Danse

set_option linter.unusedSectionVars false

variable {N : Type} [DecidableEq N] {E F A : Type}
variable {levels : List (List (List N))} {white : List N} {root : N}
variable {cs : List N} {out : N → Nat → EstOut F} (zero : F) (sig : Nat → Nat → F)

/-- The columns of the nodes in `done` hold their results. -/
structure ParInv (cs : List N) (out : N → Nat → EstOut F) (P : N → Prop) (o : SimOut F) : Prop where
  ref : ∀ i, o.synced i 0 = sig i 0
  yes : ∀ c ∈ cs, P c → ∀ i, o.synced i (cs.idxOf c + 1) = (out c i).blk ∧
    o.sro i (cs.idxOf c) = -(out c i).sro ∧ o.dsro i (cs.idxOf c) = -(out c i).dsro

theorem collect_ok (hn : (root :: cs).Nodup) {res : N → Option (PairRes F)} :
    ∀ (arr pending : List N) (P : N → Prop) (o : SimOut F), arr.Perm pending → pending.Nodup → arr ≠ [] →
    (∀ a ∈ arr, a ∈ cs ∧ res a = some ⟨fun t => -(out a t).sro, fun t => -(out a t).dsro, fun t => (out a t).blk⟩) →
    ParInv sig cs out P o →
    ∃ o', collect (root :: cs) res pending arr o = some o' ∧ ParInv sig cs out (fun c => P c ∨ c ∈ arr) o' := by
  intro arr
  induction arr with
  | nil => intro _ _ _ _ _ h; exact absurd rfl h
  | cons a r ih =>
    intro pending P o hp hnd _ hres hi
    obtain ⟨ha, hr⟩ := hres a List.mem_cons_self
    have hidx := idxOf_cons_mem hn ha
    unfold collect
    rw [hr]
    simp only
    rw [hidx, Nat.add_sub_cancel]
    have hi' : ParInv sig cs out (fun c => P c ∨ c = a)
        ⟨setCol o.synced (cs.idxOf a + 1) fun t => (out a t).blk, setCol o.sro (cs.idxOf a) fun t => -(out a t).sro,
          setCol o.dsro (cs.idxOf a) fun t => -(out a t).dsro⟩ := by
      constructor
      · intro i
        simp only [setCol]
        rw [if_neg (by omega), hi.ref]
      · intro c hc hP i
        simp only [setCol]
        by_cases hca : c = a
        · subst hca
          simp
        · have hne : cs.idxOf c ≠ cs.idxOf a := fun h => hca (idxOf_inj_mem hc h)
          rw [if_neg (by omega), if_neg hne, if_neg hne]
          exact hi.yes c hc (hP.resolve_right hca) i
    have hpf : r.Perm (pending.filter (· ≠ a)) := by
      have h1 : ((a :: r).filter (· ≠ a)).Perm (pending.filter (· ≠ a)) := hp.filter _
      have h2 : (a :: r).filter (· ≠ a) = r := by
        have hnar : a ∉ r := (List.nodup_cons.mp (hp.nodup_iff.mpr hnd)).1
        rw [List.filter_cons_of_neg (by simp), List.filter_eq_self]
        intro b hb
        simp only [decide_eq_true_eq]
        rintro rfl
        exact hnar hb
      rwa [h2] at h1
    by_cases hr0 : r = []
    · subst hr0
      have he : pending.filter (· ≠ a) = [] := List.Perm.nil_eq hpf |>.symm
      rw [if_pos he]
      refine ⟨_, rfl, ?_⟩
      simpa using hi'
    · have he : pending.filter (· ≠ a) ≠ [] := by
        intro h
        rw [h] at hpf
        exact hr0 hpf.eq_nil
      rw [if_neg he]
      obtain ⟨o', h1, h2⟩ := ih (pending.filter (· ≠ a)) (fun c => P c ∨ c = a) _ hpf (hnd.filter _) hr0
        (fun b hb => hres b (List.mem_cons_of_mem _ hb)) hi'
      refine ⟨o', h1, h2.ref, ?_⟩
      intro c hc hP
      refine h2.yes c hc ?_
      rcases hP with h | h
      · exact .inl (.inl h)
      · rcases List.mem_cons.mp h with h | h
        · exact .inl (.inr h)
        · exact .inr h

variable (e : Estimator E F A) (acs : Nat → A) (ctl : Bool) {col : N → Nat} {d : N → Nat}

theorem parLevels_ok (hT : ProperTopo levels white root) (hcs : cs = levels.flatMap children)
    (hcol : ∀ c ∈ cs, col c = cs.idxOf c + 1)
    (hd : ∀ (l : Nat) L c, levels[l]? = some L → c ∈ children L → d c = l * 2)
    (hs : SyncRun e zero sig acs levels root ctl col out) (arrivals : Nat → List N)
    (harr : ∀ (l : Nat) L, levels[l]? = some L → (arrivals l).Perm (children L)) :
    ∀ (r : List (List (List N))) (k : Nat) (P : N → Prop) (o : SimOut F),
    (∀ (l : Nat) L, r[l]? = some L → levels[k + l]? = some L) →
    (∀ L ∈ r.head?, ∀ h ts, h :: ts ∈ L → h = root ∨ (h ∈ cs ∧ P h)) →
    ParInv sig cs out P o →
    ∃ o', (r.zipIdx k).foldlM (parLevel e zero sig acs (root :: cs) (cs.map d) ctl arrivals) o = some o' ∧
      ParInv sig cs out (fun c => P c ∨ c ∈ r.flatMap children) o' := by
  have hnd : (root :: cs).Nodup := by rw [hcs]; exact hT.nodup
  intro r
  induction r with
  | nil =>
    intro k P o _ _ hi
    refine ⟨o, rfl, hi.ref, ?_⟩
    intro c hc hP
    simp only [List.flatMap_nil, List.not_mem_nil, or_false] at hP
    exact hi.yes c hc hP
  | cons L r ih =>
    intro k P o hlev hP hi
    have hL : levels[k]? = some L := by simpa using hlev 0 L rfl
    have hLm : L ∈ levels := List.mem_of_getElem? hL
    have hLn : (children L).Nodup := (hT.once L hLm).sublist (children_sublist L)
    have hp := harr k L hL
    have hsub : ∀ c ∈ children L, c ∈ cs := fun c hc => by
      rw [hcs]; exact List.mem_flatMap.mpr ⟨L, hLm, hc⟩
    have hne : arrivals k ≠ [] := by
      intro h
      rw [h] at hp
      have h0 : children L = [] := (List.Perm.nil_eq hp).symm
      cases hLL : L with
      | nil => exact hT.nonempty L hLm hLL
      | cons B L' =>
        have h2 := hT.two L hLm B (by rw [hLL]; exact List.mem_cons_self)
        have : B.tail = [] := by
          rw [hLL] at h0
          unfold children at h0
          rw [List.flatMap_cons, List.append_eq_nil_iff] at h0
          exact h0.1
        have hlen := congrArg List.length this
        rw [List.length_tail, List.length_nil] at hlen
        omega
    have hres : ∀ a ∈ arrivals k, a ∈ cs ∧
        ((levelPairs L).find? (fun p => p.2 = a)).map (fun p => pairProc e zero sig acs (root :: cs) (cs.map d) ctl k o p.1 p.2) =
          some ⟨fun t => -(out a t).sro, fun t => -(out a t).dsro, fun t => (out a t).blk⟩ := by
      intro a ha
      have ha' : a ∈ children L := hp.mem_iff.mp ha
      have hac := hsub a ha'
      obtain ⟨h, ts, hB, hat⟩ := mem_children.mp ha'
      refine ⟨hac, ?_⟩
      rw [find_levelPairs hLn (mem_levelPairs.mpr ⟨ts, hB, hat⟩), Option.map_some]
      unfold pairProc
      simp only
      have hidx := idxOf_cons_mem hnd hac
      have e1 : (cs.map d).getD ((root :: cs).idxOf a - 1) 0 = k * 2 := by
        rw [hidx, Nat.add_sub_cancel, List.getD_eq_getElem?_getD, getElem?_idxOf_map d hac, hd k L a hL ha']
        rfl
      have e2 : (fun t => o.synced t ((root :: cs).idxOf h)) = fun t => (out h t).blk := by
        funext t
        rcases hP L rfl h ts hB with h1 | ⟨h1, h2⟩
        · subst h1
          rw [List.idxOf_cons_self, hi.ref, hs.root]
        · rw [idxOf_cons_mem hnd h1]
          exact (hi.yes h h1 h2 t).1
      have e3 : (if ctl then 100 else 0) * (k * 2) = if ctl then 200 * k else 0 := by
        cases ctl
        · simp
        · simp only [if_true]; omega
      rw [e1, e2, e3, hidx, ← hcol a hac]
      have := hs.child k L h ts a hL hB hat
      rw [← this]
    obtain ⟨o1, h1, h2⟩ := collect_ok sig hnd (arrivals k) (children L) P o hp hLn hne hres hi
    obtain ⟨o', g1, g2⟩ := ih (k + 1) (fun c => P c ∨ c ∈ arrivals k) o1 (fun l L' hl => by
        have := hlev (l + 1) L' (by rw [List.getElem?_cons_succ]; exact hl)
        rwa [show k + 1 + l = k + (l + 1) by omega]) (by
        intro L' hL' h ts hB
        rw [Option.mem_def, List.head?_eq_getElem?] at hL'
        have h0 := hlev 1 L' (by rw [List.getElem?_cons_succ]; exact hL')
        have := (hT.heads k L L' hL h0 h ts hB).resolve_right id
        exact .inr ⟨hsub h this, .inr (hp.mem_iff.mpr this)⟩) h2
    refine ⟨o', ?_, g2.ref, ?_⟩
    · have e0 : parLevel e zero sig acs (root :: cs) (cs.map d) ctl arrivals o (L, k) = some o1 := by
        unfold parLevel
        simp only
        have : (L.flatMap fun B => B.tail.map fun n => (B.headD n, n)) = levelPairs L := rfl
        rw [this, levelPairs_snd]
        exact h1
      rw [List.zipIdx_cons, List.foldlM_cons, e0]
      exact g1
    · intro c hc hP'
      refine g2.yes c hc ?_
      rw [List.flatMap_cons, List.mem_append] at hP'
      rcases hP' with h | h | h
      · exact .inl (.inl h)
      · exact .inl (.inr (hp.mem_iff.mpr h))
      · exact .inr h

end Danse
