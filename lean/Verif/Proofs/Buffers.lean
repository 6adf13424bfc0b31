import Verif.Spec.Buffers
import Verif.Proofs.Py
import Mathlib.Data.List.Basic
import Mathlib.Data.List.Nodup
import Mathlib.Data.List.Induction
import Mathlib.Tactic.Ring

/-! # Helper lemmas on buffers -/

namespace Danse
section
variable {α : Type}

theorem lastN_length (m : Nat) (l : List α) : (lastN m l).length = min m l.length := by
  unfold lastN; simp; omega

theorem lastN_append_of_le {m : Nat} {a b : List α} (h : b.length ≤ m) :
    lastN m (a ++ b) = lastN (m - b.length) a ++ b := by
  unfold lastN
  rw [List.length_append, List.drop_append]
  congr 1
  · congr 1; omega
  · rw [show a.length + b.length - m - a.length = 0 by omega]
    rfl

theorem lastN_append_of_ge {m : Nat} {a b : List α} (h : m ≤ b.length) :
    lastN m (a ++ b) = lastN m b := by
  unfold lastN
  rw [List.length_append, List.drop_append]
  rw [List.drop_eq_nil_iff.mpr (by omega)]
  simp only [List.nil_append]
  congr 1; omega

theorem lastN_of_length_le {m : Nat} {a : List α} (h : a.length ≤ m) : lastN m a = a := by
  unfold lastN
  rw [show a.length - m = 0 by omega]; rfl

theorem lastN_lastN {m n : Nat} (h : m ≤ n) (a : List α) : lastN m (lastN n a) = lastN m a := by
  unfold lastN
  rw [List.drop_drop, List.length_drop]
  by_cases h1 : n ≤ a.length
  · congr 1; omega
  · congr 1; omega

theorem lastN_suffix (m : Nat) (l : List α) : ∃ pre, l = pre ++ lastN m l :=
  ⟨l.take (l.length - m), (List.take_append_drop _ _).symm⟩

theorem lastN_replicate (m n : Nat) (x : α) : lastN m (List.replicate n x) =
    List.replicate (min m n) x := by
  unfold lastN; simp; omega

/-! ## histories -/

theorem sinceUp_snoc (q : Nat) (ops : List (BufOp α)) (op : BufOp α) :
    sinceUp q (ops ++ [op]) = if op.isUp q then [] else sinceUp q ops ++ [op] := by
  simp [sinceUp]

theorem sinceUp_suffix (q : Nat) (ops : List (BufOp α)) :
    ops = untilUp q ops ++ sinceUp q ops := by
  have h : ∃ pre, ops = pre ++ sinceUp q ops := by
    induction ops using List.reverseRecOn with
    | nil => exact ⟨[], rfl⟩
    | append_singleton ops op ih =>
      rw [sinceUp_snoc]
      split
      · exact ⟨ops ++ [op], by simp⟩
      · obtain ⟨pre, hp⟩ := ih
        exact ⟨pre, by conv_lhs => rw [hp]
                       simp⟩
  obtain ⟨pre, hp⟩ := h
  have : untilUp q ops = pre := by
    unfold untilUp
    conv_lhs => rw [hp]
    have hl := congrArg List.length hp
    rw [List.length_append] at hl
    rw [List.take_append_of_le_length (by rw [← hp]; omega)]
    rw [List.take_of_length_le (by rw [← hp]; omega)]
  rw [this]; exact hp

theorem untilUp_snoc_up (q : Nat) (ops : List (BufOp α)) {op : BufOp α} (h : op.isUp q = true) :
    untilUp q (ops ++ [op]) = ops ++ [op] := by
  unfold untilUp
  rw [sinceUp_snoc, if_pos h]
  exact List.take_of_length_le (by simp)

theorem untilUp_snoc_other (q : Nat) (ops : List (BufOp α)) {op : BufOp α}
    (h : op.isUp q = false) : untilUp q (ops ++ [op]) = untilUp q ops := by
  have h1 := sinceUp_suffix q (ops ++ [op])
  rw [sinceUp_snoc, if_neg (by simp [h])] at h1
  have h2 := sinceUp_suffix q ops
  rw [← List.append_assoc] at h1
  have h3 := List.append_cancel_right h1
  rw [h2] at h3
  conv at h3 => rhs; rw [← h2]
  exact (List.append_cancel_right h3).symm

theorem sent_append (a b : List (BufOp α)) (k : Nat) : sent (a ++ b) k = sent a k ++ sent b k := by
  simp [sent]

theorem sent_up (q k : Nat) : sent [(.up q : BufOp α)] k = [] := by simp [sent]

theorem sent_bc (j k : Nat) (c : List α) : sent [(.bc j c : BufOp α)] k = if j = k then c else [] := by
  simp [sent]

theorem sent_split (q k : Nat) (ops : List (BufOp α)) :
    sent ops k = sent (untilUp q ops) k ++ sent (sinceUp q ops) k := by
  rw [← sent_append, ← sinceUp_suffix]

/-! ## slots and filling -/

theorem slotOf_ok {l : List Nat} (hn : l.Nodup) {k : Nat} (hk : k ∈ l) :
    ∃ i, slotOf l k = .ok i ∧ ∀ j, l[j]? = some k ↔ j = i := by
  unfold slotOf
  induction l using List.reverseRecOn with
  | nil => simp at hk
  | append_singleton l x ih =>
    have hn' := (List.nodup_append.mp hn)
    rw [List.zipIdx_append, List.filterMap_append]
    by_cases h : k ∈ l
    · obtain ⟨i, hi, hj⟩ := ih hn'.1 h
      have hx : x ≠ k := fun hx => hn'.2.2 k h x (by simp) hx.symm
      refine ⟨i, ?_, ?_⟩
      · simpa [hx] using hi
      · intro j
        rw [List.getElem?_append]
        split
        · exact hj j
        · next hjl =>
          have : ∀ j', l[j']? = some k → j' < l.length := fun j' h' =>
            (List.getElem?_eq_some_iff.mp h').1
          have hi' := this i ((hj i).mpr rfl)
          constructor
          · intro hh
            rw [List.getElem?_eq_some_iff] at hh
            obtain ⟨h1, h2⟩ := hh
            simp at h1
            have : x = k := by
              have h3 : j - l.length = 0 := by omega
              simp [h3] at h2
              exact h2
            exact absurd this hx
          · intro hh; omega
    · have hx : x = k := by
        rcases List.mem_append.mp hk with hh | hh
        · exact absurd hh h
        · simpa using (List.mem_singleton.mp hh).symm
      subst hx
      have hnil : (l.zipIdx.filterMap fun (y, i) => if y = x then some i else none) = [] := by
        rw [List.filterMap_eq_nil_iff]
        rintro ⟨y, i⟩ hy
        have hyl : y ∈ l := by
          have := List.mem_zipIdx hy
          have h2 := this.2.2
          rw [h2]; exact List.getElem_mem _
        have : y ≠ x := fun e => h (e ▸ hyl)
        simp [this]
      refine ⟨l.length, ?_, ?_⟩
      · rw [hnil]
        simp [pyGet]
      · intro j
        rw [List.getElem?_append]
        split
        · next hj =>
          constructor
          · intro hh
            exact absurd (List.mem_of_getElem? hh) h
          · intro hh; omega
        · next hj =>
          constructor
          · intro hh
            have := (List.getElem?_eq_some_iff.mp hh).1
            simp at this; omega
          · intro hh; subst hh; simp

theorem fillBuffers_ok {nb : Nat → List Nat} (g : GoodNeighbours nb) (buf : Nat → Nat → List α)
    (k : Nat) (chunk : List α) :
    ∃ buf', fillBuffers nb buf k chunk = .ok buf' ∧
      ∀ q idx, buf' q idx = if (nb q)[idx]? = some k then buf q idx ++ chunk else buf q idx := by
  unfold fillBuffers
  have main : ∀ (l : List Nat) (buf : Nat → Nat → List α), l.Nodup → (∀ q ∈ l, k ∈ nb q) →
      ∃ buf', l.foldlM (fun buf q => do
          let idx ← slotOf (nb q) k
          Except.ok (Function.update buf q (Function.update (buf q) idx (buf q idx ++ chunk)))) buf
          = .ok buf' ∧
        ∀ q idx, buf' q idx = if q ∈ l ∧ (nb q)[idx]? = some k then buf q idx ++ chunk
          else buf q idx := by
    intro l
    induction l with
    | nil => intro buf _ _; exact ⟨buf, rfl, by simp⟩
    | cons q l ih =>
      intro buf hn hm
      obtain ⟨i, hi, hj⟩ := slotOf_ok (g.nodup q) (hm q (by simp))
      obtain ⟨b', hb, hs⟩ := ih (Function.update buf q (Function.update (buf q) i (buf q i ++ chunk)))
        (List.nodup_cons.mp hn).2 (fun x hx => hm x (by simp [hx]))
      refine ⟨b', ?_, ?_⟩
      · rw [List.foldlM_cons, hi]
        exact hb
      · intro q' idx
        rw [hs]
        have hql := (List.nodup_cons.mp hn).1
        by_cases e : q' = q
        · subst e
          rw [if_neg (fun h => hql h.1)]
          simp only [Function.update_self]
          by_cases e2 : idx = i
          · subst e2
            rw [if_pos ⟨by simp, (hj idx).mpr rfl⟩]
            simp
          · rw [if_neg (fun h => e2 ((hj idx).mp h.2))]
            simp [Function.update_of_ne e2]
        · simp [e]
  obtain ⟨b', hb, hs⟩ := main (nb k) buf (g.nodup k) (fun q hq => g.symm k q hq)
  refine ⟨b', hb, fun q idx => ?_⟩
  rw [hs]
  by_cases h : (nb q)[idx]? = some k
  · have := g.symm q k (List.mem_of_getElem? h)
    simp [h, this]
  · simp [h]

/-! ## frames -/

theorem frameOf_first [Zero α] (Ndft Ns : Nat) (zp buf : List α) :
    frameOf Ndft Ns true zp buf =
      (lastN Ndft (List.replicate Ndft 0 ++ buf), (buf.length : Int) - Ndft) := by
  unfold frameOf
  simp only [if_true]
  rcases Nat.lt_trichotomy buf.length Ndft with h | h | h
  · rw [if_neg (by omega), if_pos h]
    rw [lastN_append_of_le (by omega), lastN_replicate]
    refine Prod.ext ?_ ?_
    · simp only
      congr 2; omega
    · simp only; omega
  · rw [if_pos h]
    rw [lastN_append_of_ge (by omega), lastN_of_length_le (by omega)]
    refine Prod.ext rfl ?_
    simp only; omega
  · rw [if_neg (by omega), if_neg (by omega)]
    rw [lastN_append_of_ge (by omega)]
    refine Prod.ext rfl ?_
    simp only; omega

theorem frameOf_next_flag [Zero α] (Ndft Ns : Nat) (zp buf : List α) :
    (frameOf Ndft Ns false zp buf).2 = (buf.length : Int) - Ns := by
  unfold frameOf
  simp only [Bool.false_eq_true, if_false]
  split <;> (simp only; split_ifs <;> omega)

theorem frameOf_next [Zero α] {Ndft Ns : Nat} {old buf : List α} (h : buf.length ≤ Ndft) :
    (frameOf Ndft Ns false (lastN Ndft (List.replicate Ndft 0 ++ old)) buf).1 =
      lastN Ndft (List.replicate Ndft 0 ++ (old ++ buf)) := by
  unfold frameOf
  simp only [Bool.false_eq_true, if_false]
  rw [← List.append_assoc, lastN_append_of_le h]
  split
  · simp only
    rw [lastN_lastN (by omega)]
  · simp only
    have : Ndft - buf.length = 0 := by omega
    rw [this]
    simp [lastN]

theorem frameOf_next_long [Zero α] {Ndft Ns : Nat} {zp buf : List α} (h : Ndft < buf.length) :
    (frameOf Ndft Ns false zp buf).1 = buf := by
  unfold frameOf
  simp only [Bool.false_eq_true, if_false]
  rw [if_neg (by omega)]

theorem lastN_pad_length [Zero α] (n : Nat) (s : List α) :
    (lastN n (List.replicate n 0 ++ s)).length = n := by
  rw [lastN_length]; simp

end
end Danse
