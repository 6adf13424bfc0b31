import Verif.Proofs.Buffers2
import Verif.Props.Events

/-! # Synchronous rounds: helper lemmas for C11 -/

set_option linter.unusedSectionVars false

namespace Danse
section
variable {α : Type} [Zero α]

theorem run_bcs {nb : Nat → List Nat} (g : GoodNeighbours nb) {Ndft Ns : Nat} (c : Nat → List α)
    (L : List Nat) (hL : L.Nodup) :
    ∀ {ops : List (BufOp α)} {s : NetSt α}, BufInv nb Ndft Ns ops s →
    ∃ s', (L.map fun k => BufOp.bc k (c k)).foldlM (netStep nb Ndft Ns) s = .ok s' ∧
      BufInv nb Ndft Ns (ops ++ L.map fun k => BufOp.bc k (c k)) s' ∧
      (∀ q, s'.flags q = s.flags q) ∧
      (∀ q, numUps q (ops ++ L.map fun k => BufOp.bc k (c k)) = numUps q ops) ∧
      ∀ q k, sent (sinceUp q (ops ++ L.map fun k => BufOp.bc k (c k))) k =
        sent (sinceUp q ops) k ++ if k ∈ L then c k else [] := by
  induction L with
  | nil => intro ops s h; exact ⟨s, rfl, by simpa using h, by simp, by simp, by simp⟩
  | cons k L ih =>
    intro ops s h
    obtain ⟨s1, h1, h2⟩ := step_bc g h k (c k)
    obtain ⟨s', h3, h4, h5, h6, h7⟩ := ih (List.nodup_cons.mp hL).2 h2
    have hfl : ∀ q, s1.flags q = s.flags q := by
      intro q
      unfold netStep at h1
      simp only at h1
      cases hf : fillBuffers nb s.zBuffer k (c k) with
      | error e => rw [hf] at h1; cases h1
      | ok b => rw [hf] at h1; cases h1; rfl
    refine ⟨s', ?_, ?_, ?_, ?_, ?_⟩
    · rw [List.map_cons, List.foldlM_cons, h1]; exact h3
    · simpa using h4
    · intro q; rw [h5, hfl]
    · intro q
      have := h6 q
      rw [List.map_cons, show ops ++ BufOp.bc k (c k) :: L.map (fun k => BufOp.bc k (c k)) =
        ops ++ [BufOp.bc k (c k)] ++ L.map (fun k => BufOp.bc k (c k)) by simp, this]
      simp [numUps, BufOp.isUp]
    · intro q j
      have := h7 q j
      rw [List.map_cons, show ops ++ BufOp.bc k (c k) :: L.map (fun k => BufOp.bc k (c k)) =
        ops ++ [BufOp.bc k (c k)] ++ L.map (fun k => BufOp.bc k (c k)) by simp, this]
      rw [sinceUp_snoc, if_neg (by simp [BufOp.isUp]), sent_append, sent_bc, List.append_assoc]
      congr 1
      by_cases e : k = j
      · subst e
        have := (List.nodup_cons.mp hL).1
        simp [this]
      · have e' : j ≠ k := Ne.symm e
        simp [e, e']

/-- Fully connected neighbourhoods of `n` nodes. -/
theorem fc_good (n : Nat) : GoodNeighbours (fcNeighbours n) := by
  constructor
  · intro k
    unfold fcNeighbours
    split
    · exact List.nodup_range.filter _
    · exact List.nodup_nil
  · intro k q hq
    unfold fcNeighbours at hq ⊢
    split at hq
    · next hk =>
      simp only [List.mem_filter, List.mem_range, decide_eq_true_eq] at hq
      rw [if_pos hq.1]
      simp [hk, Ne.symm hq.2]
    · simp at hq

theorem eq_range_of_sorted {n : Nat} {l : List Nat} (hs : l.Pairwise (· < ·))
    (hm : ∀ k, k ∈ l ↔ k < n) : l = List.range n := by
  have hp : l.Perm (List.range n) := by
    rw [List.perm_ext_iff_of_nodup (hs.imp (fun h => Nat.ne_of_lt h)) List.nodup_range]
    intro k; rw [hm, List.mem_range]
  exact List.Perm.eq_of_pairwise (le := (· < ·)) (fun a b _ _ h1 h2 => absurd h1 (Nat.lt_asymm h2))
    hs List.pairwise_lt_range hp

end
end Danse

namespace Danse
section
variable {τ : Type} [LinearOrder τ]

theorem split_by_bool {β : Type} (p : β → Bool) {l : List β}
    (h : l.Pairwise (fun x y => ¬ (p x = false ∧ p y = true))) :
    l = l.filter p ++ l.filter (fun x => !p x) := by
  induction l with
  | nil => rfl
  | cons a r ih =>
    rw [List.pairwise_cons] at h
    cases hp : p a
    · have hr : r.filter p = [] := by
        rw [List.filter_eq_nil_iff]
        intro y hy hyp
        exact h.1 y hy ⟨hp, hyp⟩
      have hr2 : r.filter (fun x => !p x) = r := by
        rw [List.filter_eq_self]
        intro y hy
        have := h.1 y hy
        cases hq : p y
        · rfl
        · exact absurd ⟨hp, hq⟩ this
      simp [hp, hr, hr2]
    · simp only [List.filter_cons, hp, if_true]
      simp only [Bool.not_true, Bool.false_eq_true, if_false]
      rw [List.cons_append, ← ih h.2]

/-- Synchronous schedules consist of full rounds: at each instant all nodes broadcast, then,
if it is an update instant, all nodes update. -/
theorem sync_rounds {a : EvArgs τ} {out : List (Instant τ)} (h : buildEvents a = .ok out)
    {n : Nat} {us bs : List τ} (hup : a.up_t = List.replicate n us)
    (hbc : a.bc_t = List.replicate n bs) (hsub : ∀ t ∈ us, t ∈ bs)
    (hti : a.tiFlag = false) {i : Instant τ} (hi : i ∈ out) :
    i.t ∈ bs ∧ i.evs.map (fun e => (e.node, e.ty)) =
      (List.range n).map (fun k => (k, EvType.bc)) ++
        (if i.t ∈ us then (List.range n).map (fun k => (k, .up)) else []) := by
  have hn : a.up_t.length = n := by simp [hup]
  obtain ⟨c1, c2, c3, c4⟩ := C01_exactly_once h (by simp [hti])
  obtain ⟨d1, d2⟩ := C02_broadcasts_before_updates h hti hi
  have hmem : ∀ e ∈ i.evs, (i.t, e.node, e.ty) ∈ delivered out := by
    intro e he
    exact List.mem_flatMap.mpr ⟨i, hi, List.mem_map.mpr ⟨e, he, rfl⟩⟩
  have hget : ∀ (x : List τ), ∀ k < n, (List.replicate n x)[k]? = some x := by
    intro x k hk; simp [hk]
  have hlt : ∀ e ∈ i.evs, e.node < n := by
    intro e he
    have := ((c4 _ _ _).mp (hmem e he)).1
    omega
  have hupt : ∀ e ∈ i.evs, e.ty = .up → i.t ∈ us := by
    intro e he ht
    have hs := (c4 _ _ _).mp (hmem e he)
    have hk := hlt e he
    rw [ht] at hs
    obtain ⟨_, ts', h1, h2⟩ := hs
    rw [hup, hget _ _ hk] at h1
    cases h1; exact h2
  have hit : i.t ∈ bs := by
    obtain ⟨e, he⟩ := List.exists_mem_of_ne_nil _ (c2 i hi)
    have hs := (c4 _ _ _).mp (hmem e he)
    have hk := hlt e he
    rcases d1 e he with ht | ht
    · rw [ht] at hs
      obtain ⟨_, ts', h1, h2⟩ := hs
      rw [hbc, hget _ _ hk] at h1
      cases h1; exact h2
    · exact hsub _ (hupt e he ht)
  refine ⟨hit, ?_⟩
  have huniq : ∀ j ∈ out, j.t = i.t → j = i := by
    intro j hj hjt
    by_contra hne
    have hpw : out.Pairwise (fun x y => x.t < y.t) := by
      simpa [List.pairwise_map] using c1
    rw [List.pairwise_iff_getElem] at hpw
    obtain ⟨x, hx, rfl⟩ := List.getElem_of_mem hj
    obtain ⟨y, hy, rfl⟩ := List.getElem_of_mem hi
    rcases Nat.lt_trichotomy x y with hxy | hxy | hxy
    · exact absurd hjt (ne_of_lt (hpw x y hx hy hxy))
    · subst hxy; exact hne rfl
    · exact absurd hjt.symm (ne_of_lt (hpw y x hy hx hxy))
  have hall : ∀ k < n, ∀ ty, ty = EvType.bc ∨ (ty = .up ∧ i.t ∈ us) →
      ∃ e ∈ i.evs, e.node = k ∧ e.ty = ty := by
    intro k hk ty hty
    have hs : Scheduled a a.tiFlag i.t k ty := by
      refine ⟨by omega, ?_⟩
      rcases hty with rfl | ⟨rfl, hu⟩
      · exact ⟨bs, by rw [hbc]; exact hget _ k hk, hit⟩
      · exact ⟨us, by rw [hup]; exact hget _ k hk, hu⟩
    have := (c4 _ _ _).mpr hs
    obtain ⟨j, hj, hje⟩ := List.mem_flatMap.mp this
    obtain ⟨e, he, hee⟩ := List.mem_map.mp hje
    simp only [Prod.mk.injEq] at hee
    rw [huniq j hj hee.1] at he
    exact ⟨e, he, hee.2⟩
  have hsplit := split_by_bool (fun e : OutEv => decide (e.ty = .bc)) (l := i.evs)
    (d2.imp (fun {x y} hxy => by
      rintro ⟨h1, h2⟩
      simp only [decide_eq_false_iff_not, decide_eq_true_eq] at h1 h2
      rcases hxy with ⟨h, _⟩ | ⟨h, _⟩
      · exact h1 h
      · exact h1 (h.trans h2)))
  have hb : (i.evs.filter (fun e : OutEv => decide (e.ty = .bc))).map (·.node) = List.range n := by
    apply eq_range_of_sorted
    · rw [List.pairwise_map]
      refine (d2.filter _).imp_of_mem ?_
      intro x y hx hy hxy
      have h1 : x.ty = .bc := by simpa using (List.mem_filter.mp hx).2
      have h2 : y.ty = .bc := by simpa using (List.mem_filter.mp hy).2
      rcases hxy with ⟨_, h⟩ | ⟨_, h⟩
      · rw [h2] at h; cases h
      · exact h
    · intro k
      constructor
      · intro hk
        obtain ⟨e, he, rfl⟩ := List.mem_map.mp hk
        exact hlt e (List.mem_filter.mp he).1
      · intro hk
        obtain ⟨e, he, h1, h2⟩ := hall k hk .bc (.inl rfl)
        exact List.mem_map.mpr ⟨e, List.mem_filter.mpr ⟨he, by simp [h2]⟩, h1⟩
  have hty : ∀ e ∈ i.evs.filter (fun e : OutEv => !decide (e.ty = .bc)), e.ty = .up := by
    intro e he
    have h1 := List.mem_filter.mp he
    rcases d1 e h1.1 with h | h
    · simp [h] at h1
    · exact h
  rw [hsplit, List.map_append, ← hb]
  congr 1
  · rw [List.map_map]
    apply List.map_congr_left
    intro e he
    have h1 : e.ty = .bc := by simpa using (List.mem_filter.mp he).2
    simp [h1]
  · rw [hb]
    split
    · next hu =>
      have hu : (i.evs.filter (fun e : OutEv => !decide (e.ty = .bc))).map (·.node)
          = List.range n := by
        apply eq_range_of_sorted
        · rw [List.pairwise_map]
          refine (d2.filter _).imp_of_mem ?_
          intro x y hx hy hxy
          have h1 : ¬ x.ty = .bc := by simpa using (List.mem_filter.mp hx).2
          rcases hxy with ⟨h, _⟩ | ⟨_, h⟩
          · exact absurd h h1
          · exact h
        · intro k
          constructor
          · intro hk
            obtain ⟨e, he, rfl⟩ := List.mem_map.mp hk
            exact hlt e (List.mem_filter.mp he).1
          · intro hk
            obtain ⟨e, he, h1, h2⟩ := hall k hk .up (.inr ⟨rfl, hu⟩)
            exact List.mem_map.mpr ⟨e, List.mem_filter.mpr ⟨he, by simp [h2]⟩, h1⟩
      rw [← hu, List.map_map]
      apply List.map_congr_left
      intro e he
      simp [hty e he]
    · next hu =>
      rw [List.map_eq_nil_iff, List.eq_nil_iff_forall_not_mem]
      intro e he
      exact hu (hupt e (List.mem_filter.mp he).1 (hty e he))

/-- The instants of a synchronous schedule are the broadcast instants. -/
theorem sync_times {a : EvArgs τ} {out : List (Instant τ)} (h : buildEvents a = .ok out)
    {n : Nat} (hn0 : 0 < n) {us bs : List τ} (hup : a.up_t = List.replicate n us)
    (hbc : a.bc_t = List.replicate n bs) (hsub : ∀ t ∈ us, t ∈ bs)
    (hti : a.tiFlag = false) (hbs : bs.Pairwise (· < ·)) : out.map (·.t) = bs := by
  have hn : a.up_t.length = n := by simp [hup]
  obtain ⟨c1, c2, c3, c4⟩ := C01_exactly_once h (by simp [hti])
  have hp : (out.map (·.t)).Perm bs := by
    rw [List.perm_ext_iff_of_nodup (c1.imp ne_of_lt) (hbs.imp ne_of_lt)]
    intro t
    constructor
    · intro ht
      obtain ⟨i, hi, rfl⟩ := List.mem_map.mp ht
      exact (sync_rounds h hup hbc hsub hti hi).1
    · intro ht
      have hs : Scheduled a a.tiFlag t 0 .bc :=
        ⟨by omega, bs, by rw [hbc]; simp [hn0], ht⟩
      obtain ⟨j, hj, hje⟩ := List.mem_flatMap.mp ((c4 _ _ _).mpr hs)
      obtain ⟨e, he, hee⟩ := List.mem_map.mp hje
      simp only [Prod.mk.injEq] at hee
      exact List.mem_map.mpr ⟨j, hj, hee.1⟩
  exact List.Perm.eq_of_pairwise (le := (· < ·))
    (fun a b _ _ h1 h2 => absurd h1 (lt_asymm h2)) c1 hbs hp

end

section
variable {τ : Type} {α : Type} [Zero α]

theorem opsAt_round (ch : τ → Nat → List α) (t : τ) (n : Nat) (p : Prop) [Decidable p] :
    opsAt ch t ((List.range n).map (fun k => (k, EvType.bc)) ++
      if p then (List.range n).map (fun k => (k, .up)) else []) =
    ((List.range n).map fun k => BufOp.bc k (ch t k)) ++
      if p then (List.range n).map fun k => .up k else [] := by
  unfold opsAt
  rw [List.filterMap_append]
  congr 1
  · rw [List.filterMap_map, ← List.filterMap_eq_map]; rfl
  · split
    · rw [List.filterMap_map, ← List.filterMap_eq_map]; rfl
    · rfl

/-- Flags expected in a synchronous run: `m` updates so far, `c` samples received since the last
one, `L` samples per round, one round per Boolean (update or not). -/
def flagsSpec (Ndft Ns L : Nat) : Nat → Nat → List Bool → List Int
  | _, _, [] => []
  | m, c, true :: r => (((c + L : Nat) : Int) - (if m = 0 then Ndft else Ns : Nat))
      :: flagsSpec Ndft Ns L (m + 1) 0 r
  | m, c, false :: r => flagsSpec Ndft Ns L m (c + L) r

/-- No buffer ever exceeds a frame at an update. -/
def flagsOk (Ndft L : Nat) : Nat → List Bool → Prop
  | _, [] => True
  | c, true :: r => c + L ≤ Ndft ∧ flagsOk Ndft L 0 r
  | c, false :: r => flagsOk Ndft L (c + L) r

theorem run_ups' {nb : Nat → List Nat} {Ndft Ns : Nat}
    (L : List Nat) (hL : L.Nodup) (c : Nat) (hc' : c ≤ Ndft) :
    ∀ {ops : List (BufOp α)} {s : NetSt α}, BufInv nb Ndft Ns ops s →
    (∀ q ∈ L, ∀ k ∈ nb q, (sent (sinceUp q ops) k).length = c) →
    ∃ s', (L.map fun k => (BufOp.up k : BufOp α)).foldlM (netStep nb Ndft Ns) s = .ok s' ∧
      BufInv nb Ndft Ns (ops ++ L.map fun k => BufOp.up k) s' ∧
      (∀ q, s'.flags q = if q ∈ L then s.flags q ++
          [(nb q).map fun _ => (c : Int) - (if numUps q ops = 0 then Ndft else Ns : Nat)]
        else s.flags q) ∧
      (∀ q, numUps q (ops ++ L.map fun k => BufOp.up k) =
        numUps q ops + if q ∈ L then 1 else 0) ∧
      ∀ q k, sent (sinceUp q (ops ++ L.map fun k => BufOp.up k)) k =
        if q ∈ L then [] else sent (sinceUp q ops) k := by
  induction L with
  | nil => intro ops s h _; exact ⟨s, rfl, by simpa using h, by simp, by simp, by simp⟩
  | cons p L ih =>
    intro ops s h hlen
    have hc : CanUpdate nb Ndft ops p := by
      right; intro k hk; rw [hlen p (by simp) k hk]; exact hc'
    obtain ⟨s1, h1, h2, h2f⟩ := step_up h p hc
    have hp := List.nodup_cons.mp hL
    have hs1 : ∀ q k, sent (sinceUp q (ops ++ [(BufOp.up p : BufOp α)])) k =
        if q = p then [] else sent (sinceUp q ops) k := by
      intro q k
      rw [sinceUp_snoc]
      by_cases e : q = p
      · subst e; simp [BufOp.isUp, sent]
      · have : (BufOp.up p : BufOp α).isUp q = false := by simp [BufOp.isUp, Ne.symm e]
        rw [this, if_neg (by simp), sent_append, sent_up, if_neg e]; simp
    have hlen' : ∀ q ∈ L, ∀ k ∈ nb q,
        (sent (sinceUp q (ops ++ [(BufOp.up p : BufOp α)])) k).length = c := by
      intro q hq k hk
      have hne : q ≠ p := fun e => hp.1 (e ▸ hq)
      rw [hs1, if_neg hne]
      exact hlen q (by simp [hq]) k hk
    obtain ⟨s', h3, h4, h5, h6, h7⟩ := ih hp.2 h2 hlen'
    have hn1 : ∀ q, numUps q (ops ++ [(BufOp.up p : BufOp α)]) =
        numUps q ops + if q = p then 1 else 0 := by
      intro q
      by_cases e : q = p
      · subst e; simp [numUps, BufOp.isUp]
      · simp [numUps, BufOp.isUp, e, Ne.symm e]
    have hother : ∀ q, q ≠ p → s1.flags q = s.flags q := by
      intro q hq
      unfold netStep at h1
      simp only at h1
      cases hf : processBuffers nb Ndft Ns s p with
      | error e => rw [hf] at h1; cases h1
      | ok b => rw [hf] at h1; cases h1; simp [hq]
    have happ : ops ++ BufOp.up p :: L.map (fun k => (BufOp.up k : BufOp α)) =
        ops ++ [BufOp.up p] ++ L.map (fun k => BufOp.up k) := by simp
    refine ⟨s', ?_, ?_, ?_, ?_, ?_⟩
    · rw [List.map_cons, List.foldlM_cons, h1]; exact h3
    · rw [List.map_cons, happ]; exact h4
    · intro q
      rw [h5]
      by_cases e : q = p
      · subst e
        rw [if_neg hp.1, if_pos (by simp), h2f]
        congr 2
        apply List.map_congr_left
        intro k hk
        rw [hlen q (by simp) k hk]
      · rw [hother q e, hn1 q]
        simp [e]
    · intro q
      rw [List.map_cons, happ, h6, hn1]
      by_cases e : q = p
      · subst e; simp [hp.1]
      · simp [e]
    · intro q k
      rw [List.map_cons, happ, h7, hs1]
      by_cases e : q = p
      · subst e; simp
      · simp [e]

theorem rounds_run {nb : Nat → List Nat} (g : GoodNeighbours nb) {Ndft Ns L : Nat}
    {n : Nat} (hnb : ∀ k q, q ∈ nb k → q < n) (ch : τ → Nat → List α)
    (hch : ∀ t k, (ch t k).length = L) (rs : List (τ × Bool)) :
    ∀ {ops : List (BufOp α)} {s : NetSt α} (m c : Nat), BufInv nb Ndft Ns ops s →
      (∀ q < n, numUps q ops = m ∧ ∀ k < n, (sent (sinceUp q ops) k).length = c) →
      flagsOk Ndft L c (rs.map (·.2)) →
      ∃ s', (rs.flatMap fun r => ((List.range n).map fun k => BufOp.bc k (ch r.1 k)) ++
          if r.2 = true then (List.range n).map fun k => (BufOp.up k : BufOp α) else []).foldlM
            (netStep nb Ndft Ns) s = .ok s' ∧
        ∀ q < n, s'.flags q = s.flags q ++ (flagsSpec Ndft Ns L m c (rs.map (·.2))).map
          (fun x => (nb q).map fun _ => x) := by
  induction rs with
  | nil => intro ops s m c h _ _; exact ⟨s, rfl, by simp [flagsSpec]⟩
  | cons r rs ih =>
    obtain ⟨t, b⟩ := r
    intro ops s m c h hm hok
    obtain ⟨s1, h1, h2, h3, h4, h5⟩ := run_bcs g (ch t) (List.range n) List.nodup_range h
    have hlen : ∀ q < n, ∀ k < n, (sent (sinceUp q (ops ++
        (List.range n).map fun k => BufOp.bc k (ch t k))) k).length = c + L := by
      intro q hq k hk
      rw [h5, if_pos (List.mem_range.mpr hk), List.length_append, (hm q hq).2 k hk, hch]
    cases b with
    | false =>
      obtain ⟨s', f1, f2⟩ := ih m (c + L) h2
        (fun q hq => ⟨by rw [h4]; exact (hm q hq).1, hlen q hq⟩) hok
      refine ⟨s', ?_, ?_⟩
      · rw [List.flatMap_cons, List.foldlM_append]
        simp only [Bool.false_eq_true, if_false, List.append_nil]
        rw [h1]
        exact f1
      · intro q hq
        rw [f2 q hq, h3]
        rfl
    | true =>
      obtain ⟨hcl, hok'⟩ := hok
      obtain ⟨s2, k1, k2, k3, k4, k5⟩ := run_ups' (List.range n) List.nodup_range (c + L) hcl h2
        (fun q hq k hk => hlen q (List.mem_range.mp hq) k (hnb q k hk))
      obtain ⟨s', f1, f2⟩ := ih (m + 1) 0 k2 (by
        intro q hq
        refine ⟨by rw [k4, if_pos (List.mem_range.mpr hq), h4, (hm q hq).1], fun k hk => ?_⟩
        rw [k5, if_pos (List.mem_range.mpr hq)]; rfl) hok'
      refine ⟨s', ?_, ?_⟩
      · rw [List.flatMap_cons, List.foldlM_append]
        simp only [if_true]
        rw [List.foldlM_append, h1]
        show ((List.map (fun k => BufOp.up k) (List.range n)).foldlM (netStep nb Ndft Ns) s1
          >>= _) = _
        rw [k1]
        exact f1
      · intro q hq
        have hqr := List.mem_range.mpr hq
        rw [f2 q hq, k3, if_pos hqr, h3, h4, (hm q hq).1]
        simp [flagsSpec]

end
end Danse
