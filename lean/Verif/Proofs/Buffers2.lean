import Verif.Proofs.Buffers

/-! # The buffer invariant over histories -/

namespace Danse
section
variable {α : Type} [Zero α]

/-- The frame of a stream: the last `n` samples, preceded by silence. -/
def frameSpec (n : Nat) (stream : List α) : List α := lastN n (List.replicate n 0 ++ stream)

/-- What holds after the history `ops`. -/
structure BufInv (nb : Nat → List Nat) (Ndft Ns : Nat) (ops : List (BufOp α)) (s : NetSt α) :
    Prop where
  buf : ∀ q idx k, (nb q)[idx]? = some k → s.zBuffer q idx = sent (sinceUp q ops) k
  it : ∀ q, s.it q = numUps q ops
  z : ∀ q, 0 < numUps q ops → s.z q = (nb q).map fun k => frameSpec Ndft (sent (untilUp q ops) k)
  flen : ∀ q, (s.flags q).length = numUps q ops
  flags : ∀ q, 0 < numUps q ops → ∀ idx k, (nb q)[idx]? = some k →
    ((s.flags q).map fun f => f.getD idx 0).sum =
      ((sent (untilUp q ops) k).length : Int) - (Ndft + ((numUps q ops : Int) - 1) * Ns)
  fcols : ∀ q, ∀ f ∈ s.flags q, f.length = (nb q).length

theorem BufInv.init (nb : Nat → List Nat) (Ndft Ns : Nat) :
    BufInv nb Ndft Ns ([] : List (BufOp α)) NetSt.init := by
  constructor <;> simp [NetSt.init, sinceUp, sent, numUps]

/-- The update at node `q` after `ops` can be processed: first update, or no buffer longer than a
frame. -/
def CanUpdate (nb : Nat → List Nat) (Ndft : Nat) (ops : List (BufOp α)) (q : Nat) : Prop :=
  numUps q ops = 0 ∨ ∀ k ∈ nb q, (sent (sinceUp q ops) k).length ≤ Ndft

theorem step_bc {nb : Nat → List Nat} (g : GoodNeighbours nb) {Ndft Ns : Nat}
    {ops : List (BufOp α)} {s : NetSt α} (h : BufInv nb Ndft Ns ops s) (k : Nat) (c : List α) :
    ∃ s', netStep nb Ndft Ns s (.bc k c) = .ok s' ∧ BufInv nb Ndft Ns (ops ++ [.bc k c]) s' := by
  obtain ⟨b', hb, hs⟩ := fillBuffers_ok g s.zBuffer k c
  refine ⟨{ s with zBuffer := b' }, ?_, ?_⟩
  · unfold netStep; simp only; rw [hb]; rfl
  · have hup : ∀ q, (BufOp.isUp q (.bc k c : BufOp α)) = false := fun _ => rfl
    have hnum : ∀ q, numUps q (ops ++ [.bc k c]) = numUps q ops := by
      intro q; simp [numUps, hup]
    refine ⟨?_, ?_, ?_, ?_, ?_, h.fcols⟩
    · intro q idx j hj
      simp only
      rw [hs, sinceUp_snoc]
      simp only [hup, Bool.false_eq_true, if_false]
      rw [sent_append, sent_bc, h.buf q idx j hj, hj]
      by_cases e : k = j
      · simp [e]
      · rw [if_neg (fun x => e (by simpa using x.symm)), if_neg e]; simp
    · intro q; rw [hnum]; exact h.it q
    · intro q hq
      rw [hnum] at hq
      rw [untilUp_snoc_other q ops (hup q)]
      exact h.z q hq
    · intro q; rw [hnum]; exact h.flen q
    · intro q hq
      rw [hnum] at hq ⊢
      rw [untilUp_snoc_other q ops (hup q)]
      exact h.flags q hq

/-- The pairs computed at an update. -/
theorem process_frames {nb : Nat → List Nat} {Ndft Ns : Nat}
    {ops : List (BufOp α)} {s : NetSt α} (h : BufInv nb Ndft Ns ops s) (q : Nat)
    (hc : CanUpdate nb Ndft ops q) :
    ((List.range (nb q).length).map fun idx =>
      frameOf Ndft Ns (s.it q = 0) ((s.z q).getD idx []) (s.zBuffer q idx)) =
    (nb q).map fun k => (frameSpec Ndft (sent ops k),
      ((sent (sinceUp q ops) k).length : Int) - (if numUps q ops = 0 then Ndft else Ns : Nat)) := by
  apply List.ext_getElem
  · simp
  intro i h1 h2
  simp only [List.length_map] at h2
  have hk : (nb q)[i]? = some (nb q)[i] := List.getElem?_eq_getElem h2
  simp only [List.getElem_map, List.getElem_range]
  rw [h.buf q i _ hk, h.it q]
  by_cases h0 : numUps q ops = 0
  · simp only [h0, decide_true, if_true]
    rw [frameOf_first]
    refine Prod.ext ?_ rfl
    simp only [frameSpec]
    have hu : untilUp q ops = [] := by
      have : ∀ l : List (BufOp α), l.countP (BufOp.isUp q) = 0 → sinceUp q l = l := by
        intro l
        induction l using List.reverseRecOn with
        | nil => simp [sinceUp]
        | append_singleton l x ih =>
          intro hl
          rw [List.countP_append] at hl
          have hx : x.isUp q = false := by
            cases hx : x.isUp q
            · rfl
            · simp [hx] at hl
          rw [sinceUp_snoc, if_neg (by simp [hx]), ih (by omega)]
      unfold untilUp
      rw [this ops h0]; simp
    rw [sent_split q _ ops, hu]
    simp [sent]
  · simp only [h0, decide_false, if_false]
    have hlen := (hc.resolve_left h0) _ (List.getElem_mem h2)
    have hz : (s.z q).getD i [] = frameSpec Ndft (sent (untilUp q ops) (nb q)[i]) := by
      rw [h.z q (by omega)]
      simp [h2]
    rw [hz]
    refine Prod.ext ?_ ?_
    · rw [sent_split q _ ops]
      exact frameOf_next hlen
    · exact frameOf_next_flag _ _ _ _

theorem step_up {nb : Nat → List Nat} {Ndft Ns : Nat}
    {ops : List (BufOp α)} {s : NetSt α} (h : BufInv nb Ndft Ns ops s) (q : Nat)
    (hc : CanUpdate nb Ndft ops q) :
    ∃ s', netStep nb Ndft Ns s (.up q) = .ok s' ∧ BufInv nb Ndft Ns (ops ++ [.up q]) s' ∧
      s'.flags q = s.flags q ++ [(nb q).map fun k =>
        ((sent (sinceUp q ops) k).length : Int) -
          (if numUps q ops = 0 then Ndft else Ns : Nat)] := by
  have hp := process_frames h q hc
  have hpb : processBuffers nb Ndft Ns s q = .ok
      ((nb q).map (fun k => frameSpec Ndft (sent ops k)),
       (nb q).map fun k => ((sent (sinceUp q ops) k).length : Int) -
        (if numUps q ops = 0 then Ndft else Ns : Nat)) := by
    unfold processBuffers
    simp only
    rw [hp, if_pos]
    · simp [Function.comp_def]
    · simp [frameSpec, lastN_pad_length]
  refine ⟨_, by unfold netStep; simp only; rw [hpb]; rfl, ?_, by simp⟩
  have hself : BufOp.isUp q (.up q : BufOp α) = true := by simp [BufOp.isUp]
  have hoth : ∀ q', q' ≠ q → BufOp.isUp q' (.up q : BufOp α) = false := by
    intro q' hq; simp [BufOp.isUp, Ne.symm hq]
  have hnum : numUps q (ops ++ [.up q]) = numUps q ops + 1 := by simp [numUps, hself]
  have hnumo : ∀ q', q' ≠ q → numUps q' (ops ++ [.up q]) = numUps q' ops := by
    intro q' hq; simp [numUps, hoth q' hq]
  refine ⟨?_, ?_, ?_, ?_, ?_, ?_⟩
  · intro q' idx j hj
    simp only
    by_cases e : q' = q
    · subst e
      simp [sinceUp_snoc, hself, sent]
    · rw [sinceUp_snoc, if_neg (by simp [hoth q' e]), sent_append, sent_up]
      simp [e, h.buf q' idx j hj]
  · intro q'
    simp only
    by_cases e : q' = q
    · subst e; simp [hnum, h.it]
    · simp [e, hnumo q' e, h.it]
  · intro q' hq
    simp only
    by_cases e : q' = q
    · subst e
      rw [untilUp_snoc_up q' ops hself]
      simp [sent_append, sent_up]
    · rw [hnumo q' e] at hq
      rw [untilUp_snoc_other q' ops (hoth q' e)]
      simp [e, h.z q' hq]
  · intro q'
    simp only
    by_cases e : q' = q
    · subst e; simp [hnum, h.flen]
    · simp [e, hnumo q' e, h.flen]
  · intro q' hq idx k hk
    simp only
    by_cases e : q' = q
    · subst e
      rw [untilUp_snoc_up q' ops hself, hnum]
      simp only [Function.update_self, List.map_append, List.sum_append, List.map_cons,
        List.map_nil, List.sum_cons, List.sum_nil, add_zero]
      have hget : ((nb q').map fun k => ((sent (sinceUp q' ops) k).length : Int) -
          (if numUps q' ops = 0 then Ndft else Ns : Nat)).getD idx 0 =
          ((sent (sinceUp q' ops) k).length : Int) -
          (if numUps q' ops = 0 then Ndft else Ns : Nat) := by
        simp [List.getD, hk]
      rw [hget, sent_append, sent_up, List.append_nil, sent_split q' k ops, List.length_append]
      by_cases h0 : numUps q' ops = 0
      · have hf : s.flags q' = [] := List.eq_nil_of_length_eq_zero (by rw [h.flen, h0])
        have hu : (sent (untilUp q' ops) k).length = 0 := by
          have : untilUp q' ops = [] := by
            have : ∀ l : List (BufOp α), l.countP (BufOp.isUp q') = 0 → sinceUp q' l = l := by
              intro l
              induction l using List.reverseRecOn with
              | nil => simp [sinceUp]
              | append_singleton l x ih =>
                intro hl
                rw [List.countP_append] at hl
                have hx : x.isUp q' = false := by
                  cases hx : x.isUp q'
                  · rfl
                  · simp [hx] at hl
                rw [sinceUp_snoc, if_neg (by simp [hx]), ih (by omega)]
            unfold untilUp
            rw [this ops h0]; simp
          rw [this]; rfl
        rw [hf, h0, hu]
        simp
      · rw [h.flags q' (by omega) idx k hk, if_neg h0]
        push_cast
        ring
    · rw [hnumo q' e] at hq ⊢
      rw [untilUp_snoc_other q' ops (hoth q' e)]
      simp only [Function.update_of_ne e]
      exact h.flags q' hq idx k hk
  · intro q' f hf
    simp only at hf
    by_cases e : q' = q
    · subst e
      simp only [Function.update_self, List.mem_append, List.mem_singleton] at hf
      rcases hf with hf | hf
      · exact h.fcols q' f hf
      · rw [hf]; simp
    · simp only [Function.update_of_ne e] at hf
      exact h.fcols q' f hf

theorem step_up_fails {nb : Nat → List Nat} {Ndft Ns : Nat}
    {ops : List (BufOp α)} {s : NetSt α} (h : BufInv nb Ndft Ns ops s) (q : Nat)
    (hc : ¬ CanUpdate nb Ndft ops q) :
    netStep nb Ndft Ns s (.up q) = .error .valueError := by
  unfold CanUpdate at hc
  push Not at hc
  obtain ⟨h0, k, hk, hlen⟩ := hc
  obtain ⟨idx, hi, hki⟩ := List.getElem_of_mem hk
  have : processBuffers nb Ndft Ns s q = .error .valueError := by
    unfold processBuffers
    simp only
    rw [if_neg]
    rw [List.all_eq_true]
    intro hall
    have := hall _ (List.mem_map.mpr ⟨idx, List.mem_range.mpr hi, rfl⟩)
    have hb := h.buf q idx k (by rw [List.getElem?_eq_getElem hi, hki])
    rw [hb, h.it q] at this
    simp only [h0, decide_false, frameOf_next_long hlen, decide_eq_true_eq] at this
    omega
  unfold netStep; simp only; rw [this]; rfl

theorem netRun_snoc (nb : Nat → List Nat) (Ndft Ns : Nat) (ops : List (BufOp α)) (op : BufOp α) :
    netRun nb Ndft Ns (ops ++ [op]) = (netRun nb Ndft Ns ops).bind
      (fun s => netStep nb Ndft Ns s op) := by
  unfold netRun
  rw [List.foldlM_append]
  simp only [List.foldlM_cons, List.foldlM_nil]
  cases h : List.foldlM (netStep nb Ndft Ns) NetSt.init ops with
  | error e => rfl
  | ok s =>
    show (netStep nb Ndft Ns s op >>= fun s' => pure s') = netStep nb Ndft Ns s op
    cases netStep nb Ndft Ns s op <;> rfl

theorem netRun_inv {nb : Nat → List Nat} (g : GoodNeighbours nb) {Ndft Ns : Nat}
    (ops : List (BufOp α)) :
    (∃ s, netRun nb Ndft Ns ops = .ok s ∧ BufInv nb Ndft Ns ops s ∧
      ∀ pre q post, ops = pre ++ .up q :: post → CanUpdate nb Ndft pre q) ∨
    (netRun nb Ndft Ns ops = .error .valueError ∧
      ∃ pre q post, ops = pre ++ .up q :: post ∧ ¬ CanUpdate nb Ndft pre q) := by
  induction ops using List.reverseRecOn with
  | nil => exact .inl ⟨_, rfl, BufInv.init nb Ndft Ns, by simp⟩
  | append_singleton ops op ih =>
    rw [netRun_snoc]
    rcases ih with ⟨s, hs, hi, hall⟩ | ⟨he, pre, q, post, hp, hn⟩
    · rw [hs]
      have hsplit : ∀ pre q post, ops ++ [op] = pre ++ .up q :: post →
          (post = [] ∧ pre = ops ∧ op = .up q) ∨ ∃ post', ops = pre ++ .up q :: post' := by
        intro pre q post hp
        rcases List.eq_nil_or_concat post with rfl | ⟨p', x, rfl⟩
        · have h1 := List.append_inj' hp (by simp)
          simp at h1
          exact .inl ⟨rfl, h1.1.symm, h1.2⟩
        · right
          have : ops ++ [op] = (pre ++ .up q :: p') ++ [x] := by rw [hp]; simp
          have h1 := List.append_inj' this (by simp)
          exact ⟨p', h1.1⟩
      cases op with
      | bc k c =>
        obtain ⟨s', h1, h2⟩ := step_bc g hi k c
        refine .inl ⟨s', h1, h2, ?_⟩
        intro pre q post hp
        rcases hsplit pre q post hp with ⟨_, _, h⟩ | ⟨p', h⟩
        · cases h
        · exact hall _ _ _ h
      | up q =>
        by_cases hc : CanUpdate nb Ndft ops q
        · obtain ⟨s', h1, h2, _⟩ := step_up hi q hc
          refine .inl ⟨s', h1, h2, ?_⟩
          intro pre q' post hp
          rcases hsplit pre q' post hp with ⟨_, rfl, h⟩ | ⟨p', h⟩
          · cases h; exact hc
          · exact hall _ _ _ h
        · exact .inr ⟨step_up_fails hi q hc, ops, q, [], rfl, hc⟩
    · rw [he]
      exact .inr ⟨rfl, pre, q, post ++ [op], by rw [hp]; simp, hn⟩

theorem netRun_ok_inv {nb : Nat → List Nat} (g : GoodNeighbours nb) {Ndft Ns : Nat}
    {ops : List (BufOp α)} {s : NetSt α} (h : netRun nb Ndft Ns ops = .ok s) :
    BufInv nb Ndft Ns ops s ∧
      ∀ pre q post, ops = pre ++ .up q :: post → CanUpdate nb Ndft pre q := by
  rcases netRun_inv g ops with ⟨s', hs, hi, hall⟩ | ⟨he, _⟩
  · rw [hs] at h; cases h; exact ⟨hi, hall⟩
  · rw [he] at h; cases h

theorem frameSpec_last (n : Nat) (st : List α) : LastSamples n st (frameSpec n st) :=
  ⟨lastN_pad_length n st, lastN_suffix _ _⟩

theorem LastSamples.unique {n : Nat} {st a b : List α} (ha : LastSamples n st a)
    (hb : LastSamples n st b) : a = b := by
  obtain ⟨h1, p, hp⟩ := ha
  obtain ⟨h2, q, hq⟩ := hb
  rw [hp] at hq
  exact (List.append_inj' hq (by omega)).2

end
end Danse
