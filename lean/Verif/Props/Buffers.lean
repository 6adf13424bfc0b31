import Verif.Proofs.Sync2
import Verif.Props.Events

/-!
# Properties C11, C15-C18, C20: inter-node buffers

Vocabulary (`sent`, `sinceUp`, `untilUp`, `numUps`, `GoodNeighbours`, `LastSamples`) is in
`Verif/Spec/Buffers.lean`; `netRun` runs an arbitrary history of broadcasts and updates.
-/

set_option linter.unusedSectionVars false

namespace Danse
section
variable {α : Type} [Zero α]

/-! ## C15 -/

/-- C15 (a): after any history of broadcasts and updates, the buffer that node `q` holds for its
neighbour `k` is the concatenation, in order, of the chunks `k` broadcast since `q`'s last
update. -/
theorem C15_fifo {nb : Nat → List Nat} (g : GoodNeighbours nb) {Ndft Ns : Nat}
    {ops : List (BufOp α)} {s : NetSt α} (h : netRun nb Ndft Ns ops = .ok s)
    {q idx k : Nat} (hk : (nb q)[idx]? = some k) :
    s.zBuffer q idx = sent (sinceUp q ops) k :=
  (netRun_ok_inv g h).1.buf q idx k hk

/-- C15 (b): the chunk that is broadcast is the end (`n < 0`) or the start (`n > 0`) of the local
compressed signal, of length `min |n| (length)`, and nothing for `n = 0`. -/
theorem C15_chunk (z : List α) (n : Int) :
    (n < 0 → (∃ pre, z = pre ++ chunkOf z n)) ∧ (0 < n → ∃ post, z = chunkOf z n ++ post) ∧
    (chunkOf z n).length = min n.natAbs z.length := by
  unfold chunkOf
  refine ⟨fun h => ?_, fun h => ?_, ?_⟩
  · rw [if_pos h]; exact lastN_suffix _ _
  · rw [if_neg (by omega), if_pos h]
    exact ⟨z.drop n.toNat, (List.take_append_drop _ _).symm⟩
  · split
    · exact lastN_length _ _
    · split
      · rw [List.length_take]; omega
      · simp; omega

/-- C15 (c): with an asymmetric neighbour list the broadcast fails instead of losing data. -/
theorem C15_asymmetric_fails {nb : Nat → List Nat} (buf : Nat → Nat → List α) {k q : Nat}
    {rest : List Nat} (h : nb k = q :: rest) (hq : k ∉ nb q) (chunk : List α) :
    fillBuffers nb buf k chunk = .error .indexError := by
  unfold fillBuffers
  have : slotOf (nb q) k = .error .indexError := by
    unfold slotOf
    have hnil : ((nb q).zipIdx.filterMap fun (y, i) => if y = k then some i else none) = [] := by
      rw [List.filterMap_eq_nil_iff]
      rintro ⟨y, i⟩ hy
      have hyl : y ∈ nb q := by
        have h2 := (List.mem_zipIdx hy).2.2
        rw [h2]; exact List.getElem_mem _
      have : y ≠ k := fun e => hq (e ▸ hyl)
      simp [this]
    rw [hnil]
    simp [pyGet]
  rw [h, List.foldlM_cons, this]
  rfl

/-! ## C16 -/

/-- C16 (a): the frame of node `q` for its neighbour `k` has `Ndft` samples and consists of the
last `Ndft` samples of everything `k` broadcast before `q`'s latest update, preceded by silence;
one frame per neighbour, in neighbour order. -/
theorem C16_frame {nb : Nat → List Nat} (g : GoodNeighbours nb) {Ndft Ns : Nat}
    {ops : List (BufOp α)} {s : NetSt α} (h : netRun nb Ndft Ns ops = .ok s)
    {q : Nat} (hu : 0 < numUps q ops) :
    (s.z q).length = (nb q).length ∧
    ∀ (idx k : Nat) (col : List α), (nb q)[idx]? = some k → (s.z q)[idx]? = some col →
      LastSamples Ndft (sent (untilUp q ops) k) col := by
  have hz := (netRun_ok_inv g h).1.z q hu
  refine ⟨by rw [hz]; simp, ?_⟩
  intro idx k col hk hc
  rw [hz, List.getElem?_map, hk] at hc
  simp only [Option.map_some, Option.some.injEq] at hc
  rw [← hc]
  exact frameSpec_last _ _

/-- C16 (b): the run goes through exactly when, at every update that is not the first of its node,
no buffer holds more than `Ndft` samples; otherwise the stacking of frames raises an error. -/
theorem C16_runs_iff {nb : Nat → List Nat} (g : GoodNeighbours nb) (Ndft Ns : Nat)
    (ops : List (BufOp α)) :
    ((∃ s, netRun nb Ndft Ns ops = .ok s) ↔
      ∀ pre q post, ops = pre ++ .up q :: post → 0 < numUps q pre →
        ∀ k ∈ nb q, (sent (sinceUp q pre) k).length ≤ Ndft) ∧
    ((¬ ∃ s, netRun nb Ndft Ns ops = .ok s) → netRun nb Ndft Ns ops = .error .valueError) := by
  rcases netRun_inv g (Ndft := Ndft) (Ns := Ns) ops with ⟨s, hs, hi, hall⟩ | ⟨he, pre, q, post, hp, hn⟩
  · refine ⟨⟨fun _ pre q post hp h0 => ?_, fun _ => ⟨s, hs⟩⟩, fun h => absurd ⟨s, hs⟩ h⟩
    rcases hall pre q post hp with h | h
    · omega
    · exact h
  · refine ⟨⟨fun ⟨s, hs⟩ => ?_, fun hall => ?_⟩, fun _ => he⟩
    · rw [he] at hs; cases hs
    · exfalso
      apply hn
      by_cases h0 : numUps q pre = 0
      · exact .inl h0
      · exact .inr (hall pre q post hp (by omega))

/-! ## C17 -/

/-- C17: the flags recorded by node `q` (one vector per update, one entry per neighbour) add up to
the number of samples received from the neighbour minus the number expected: `Ndft` at the first
update and `Ns` at each following one. -/
theorem C17_flags_account {nb : Nat → List Nat} (g : GoodNeighbours nb) {Ndft Ns : Nat}
    {ops : List (BufOp α)} {s : NetSt α} (h : netRun nb Ndft Ns ops = .ok s) (q : Nat) :
    (s.flags q).length = numUps q ops ∧ (∀ f ∈ s.flags q, f.length = (nb q).length) ∧
    (0 < numUps q ops → ∀ (idx k : Nat), (nb q)[idx]? = some k →
      ((s.flags q).map fun f => f.getD idx 0).sum =
        ((sent (untilUp q ops) k).length : Int) - (Ndft + ((numUps q ops : Int) - 1) * Ns)) := by
  have hi := (netRun_ok_inv g h).1
  exact ⟨hi.flen q, hi.fcols q, fun h0 idx k hk => hi.flags q h0 idx k hk⟩

/-- C17 (b): the flag added at one update is the number of samples in that buffer minus the number
expected at that update. -/
theorem C17_each_flag {nb : Nat → List Nat} (g : GoodNeighbours nb) {Ndft Ns : Nat}
    {ops : List (BufOp α)} {q : Nat} {s s' : NetSt α} (h : netRun nb Ndft Ns ops = .ok s)
    (h' : netRun nb Ndft Ns (ops ++ [.up q]) = .ok s') :
    s'.flags q = s.flags q ++ [(nb q).map fun k => ((sent (sinceUp q ops) k).length : Int) -
      (if numUps q ops = 0 then Ndft else Ns : Nat)] := by
  have hi := (netRun_ok_inv g h).1
  have hc := (netRun_ok_inv g h').2 ops q [] rfl
  obtain ⟨s2, h1, _, h3⟩ := step_up hi q hc
  rw [netRun_snoc, h] at h'
  have : netStep nb Ndft Ns s (.up q) = .ok s' := h'
  rw [h1] at this
  cases this
  exact h3

/-- Two neighbours exchanging chunks, with a late and an early delivery. -/
def exOps : List (BufOp Int) :=
  [.bc 0 [1, 2, 3], .bc 1 [7, 8, 9, 10, 11], .up 0, .bc 1 [12], .up 0, .bc 1 [13, 14, 15], .up 1]

example : ((netRun (fcNeighbours 2) 4 2 exOps).map fun s => (s.z 0, s.flags 0, s.z 1, s.flags 1,
    s.zBuffer 0 0)) =
    .ok ([[9, 10, 11, 12]], [[1], [-1]], [[0, 1, 2, 3]], [[-1]], [13, 14, 15]) := by
  cbv

example : GoodNeighbours (fcNeighbours 5) := fc_good 5

/-! ## C18 -/

/-- C18: in the centralised buffers the slot used for writing what `k` sends to `q` is the slot
`q` reads for `k`; it is the position of `k` in the list of slots of `q`; hence it exists, is
different for different senders and follows the node order. -/
theorem C18_centralised_slots {n q k : Nat} (hk : k < n) (hne : k ≠ q) :
    centrSlot k q = centrReadSlot q k ∧
    (q < n → (centrSlots n q)[centrSlot k q]? = some k ∧ (centrSlots n q).length = n - 1) ∧
    ∀ k', k' ≠ q → (k < k' ↔ centrSlot k q < centrSlot k' q) := by
  refine ⟨?_, ?_, ?_⟩
  · unfold centrSlot centrReadSlot; split_ifs <;> omega
  · intro hq
    have hl : centrSlots n q = List.range q ++ (List.range' (q + 1) (n - 1 - q)) := by
      unfold centrSlots
      rw [show List.range n = List.range q ++ (q :: List.range' (q + 1) (n - 1 - q)) by
        rw [List.range_eq_range', List.range_eq_range',
          show (q :: List.range' (q + 1) (n - 1 - q)) = List.range' q (n - 1 - q + 1) by
            rw [List.range'_succ]]
        rw [show List.range' q (n - 1 - q + 1) = List.range' (0 + q) (n - 1 - q + 1) by
          rw [Nat.zero_add], List.range'_append_1]
        congr 1; omega]
      rw [List.filter_append, List.filter_cons]
      simp only [ne_eq, not_true_eq_false, decide_false, Bool.false_eq_true, if_false]
      congr 1
      · rw [List.filter_eq_self]
        intro a ha; have := List.mem_range.mp ha; simp; omega
      · rw [List.filter_eq_self]
        intro a ha; have := List.mem_range'_1.mp ha; simp; omega
    rw [hl]
    refine ⟨?_, by simp; omega⟩
    unfold centrSlot
    split
    · next h => rw [List.getElem?_append_left (by simpa using h)]; simp [h]
    · next h =>
      rw [List.getElem?_append_right (by simp; omega)]
      rw [List.getElem?_range' (by simp; omega)]
      simp; omega
  · intro k' hk'
    unfold centrSlot; split_ifs <;> omega

/-- C18 (b): the columns that node `k` reserves for the other nodes in its centralised observation
matrix are consecutive: the range of `q` starts where the ranges of the other nodes before `q`
end. -/
theorem C18_centralised_columns {ns : List Nat} {k q : Nat} (hkq : q ≠ k) (hq : q < ns.length) :
    centrCols ns k q =
      ((((List.range q).filter (fun i => i ≠ k)).map fun i => ns.getD i 0).sum,
       (((List.range q).filter (fun i => i ≠ k)).map fun i => ns.getD i 0).sum + ns.getD q 0) := by
  have hfold : ∀ (l : List Nat) (a : Nat),
      l.foldl (fun acc i => acc + ns.getD i 0) a = a + (l.map fun i => ns.getD i 0).sum := by
    intro l
    induction l with
    | nil => simp
    | cons x r ih => intro a; simp only [List.foldl_cons, List.map_cons, List.sum_cons]; rw [ih]; omega
  have hfil : (List.range ns.length).filter (fun i => i ≠ k ∧ i < q) =
      (List.range q).filter (fun i => i ≠ k) := by
    obtain ⟨m, hm⟩ : ∃ m, ns.length = q + m := ⟨ns.length - q, by omega⟩
    rw [hm, List.range_add, List.filter_append]
    have h2 : ((List.range m).map (fun x => q + x)).filter (fun i => decide (i ≠ k ∧ i < q)) = [] := by
      rw [List.filter_eq_nil_iff]
      intro a ha
      obtain ⟨x, _, rfl⟩ := List.mem_map.mp ha
      simp
    rw [h2, List.append_nil]
    apply List.filter_congr
    intro x hx
    have := List.mem_range.mp hx
    simp [this]
  unfold centrCols
  simp only
  rw [hfil, hfold]
  by_cases h0 : centrReadSlot k q = 0
  · rw [if_pos h0]
    have : (List.range q).filter (fun i => decide (i ≠ k)) = [] := by
      rw [List.filter_eq_nil_iff]
      intro a ha
      have := List.mem_range.mp ha
      unfold centrReadSlot at h0
      simp
      split at h0 <;> omega
    rw [this]; simp
  · rw [if_neg h0]; simp

example : centrSlots 4 1 = [0, 2, 3] ∧ centrSlot 3 1 = 2 ∧ centrCols [2, 3, 4, 5] 1 3 = (6, 11) := by
  decide

/-! ## C20 -/

section
variable {τ : Type} [LinearOrder τ]

theorem count_between {stamps : List τ} (hs : stamps.Pairwise (· < ·)) {a b : Nat}
    (ha : a ≤ b) (hb : b < stamps.length) :
    (stamps.filter fun t => decide (stamps[a]'(by omega) < t) && decide (t ≤ stamps[b])).length
      = b - a := by
  have hmono : ∀ i j (hi : i < stamps.length) (hj : j < stamps.length),
      stamps[i] < stamps[j] ↔ i < j := by
    rw [List.pairwise_iff_getElem] at hs
    intro i j hi hj
    constructor
    · intro h
      by_contra hc
      rcases Nat.lt_or_eq_of_le (Nat.not_lt.mp hc) with h1 | h1
      · exact absurd h (lt_asymm (hs j i hj hi h1))
      · subst h1; exact lt_irrefl _ h
    · exact hs i j hi hj
  have hle : ∀ i j (hi : i < stamps.length) (hj : j < stamps.length),
      stamps[i] ≤ stamps[j] ↔ i ≤ j := by
    intro i j hi hj
    rw [← not_lt, hmono j i hj hi, Nat.not_lt]
  have heq : stamps = (List.range stamps.length).attach.map (fun i => stamps[i.1]'(by
      have := i.2; simpa using this)) := by
    apply List.ext_getElem
    · simp
    · intro i h1 h2; simp
  have hfm : ∀ P : τ → Bool, (stamps.filter P).length =
      ((List.range stamps.length).attach.filter (P ∘ fun i => stamps[i.1]'(by
      have := i.2; simpa using this))).length := by
    intro P
    conv_lhs => rw [heq]
    rw [List.filter_map, List.length_map]
  rw [hfm]
  have : ((fun t => decide (stamps[a]'(by omega) < t) && decide (t ≤ stamps[b])) ∘
      fun (i : {x // x ∈ List.range stamps.length}) => stamps[i.1]'(by
      have := i.2; simpa using this)) = fun i => decide (a < i.1) && decide (i.1 ≤ b) := by
    funext i
    have hi : i.1 < stamps.length := by have := i.2; simpa using this
    simp only [Function.comp]
    rw [Bool.eq_iff_iff]
    simp [hmono, hle]
  rw [this]
  rw [← List.countP_eq_length_filter]
  have h3 : ∀ (l : List Nat), l.attach.countP (fun i => decide (a < i.1) && decide (i.1 ≤ b)) =
      l.countP (fun i => decide (a < i) && decide (i ≤ b)) := by
    intro l
    exact List.countP_attach (p := fun i => decide (a < i) && decide (i ≤ b))
  rw [h3]
  obtain ⟨m, hm⟩ : ∃ m, stamps.length = (b + 1) + m := ⟨stamps.length - (b + 1), by omega⟩
  rw [hm, List.range_add, List.countP_append]
  have h4 : ((List.range m).map (fun x => b + 1 + x)).countP
      (fun i => decide (a < i) && decide (i ≤ b)) = 0 := by
    rw [List.countP_eq_zero]
    intro x hx
    obtain ⟨y, _, rfl⟩ := List.mem_map.mp hx
    simp; omega
  rw [h4, show b + 1 = (a + 1) + (b - a) by omega, List.range_add, List.countP_append]
  have h5 : (List.range (a + 1)).countP (fun i => decide (a < i) && decide (i ≤ b)) = 0 := by
    rw [List.countP_eq_zero]
    intro x hx
    have := List.mem_range.mp hx
    simp; omega
  have h6 : ((List.range (b - a)).map (fun x => a + 1 + x)).countP
      (fun i => decide (a < i) && decide (i ≤ b)) = b - a := by
    have : ((List.range (b - a)).map (fun x => a + 1 + x)).countP
      (fun i => decide (a < i) && decide (i ≤ b)) =
      ((List.range (b - a)).map (fun x => a + 1 + x)).length := by
      rw [List.countP_eq_length]
      intro x hx
      obtain ⟨y, hy, rfl⟩ := List.mem_map.mp hx
      have := List.mem_range.mp hy
      simp; omega
    rw [this]; simp
  rw [h5, h6]; omega

end

/-- C20 (a): whatever the clock and the instants, the number of samples sent is a multiple of `L`,
at most the number of samples recorded since the last broadcast, and fewer than `L` of those are
left out. -/
theorem C20_multiple {τ : Type} [LinearOrder τ] {stamps : List τ} {last now : τ} {L : Nat}
    (hL : 0 < L) :
    ∃ n, bufferSizeEff stamps last now L = .ok n ∧ L ∣ n ∧
      n ≤ (stamps.filter fun t => decide (last < t) && decide (t ≤ now)).length ∧
      (stamps.filter fun t => decide (last < t) && decide (t ≤ now)).length < n + L := by
  unfold bufferSizeEff
  rw [if_neg (by omega)]
  refine ⟨_, rfl, Nat.dvd_mul_right _ _, Nat.mul_div_le _ _, ?_⟩
  have := Nat.lt_mul_div_succ
    (stamps.filter fun t => decide (last < t) && decide (t ≤ now)).length hL
  rw [Nat.mul_add, Nat.mul_one] at this
  exact this

/-- Sizes of successive efficient broadcasts at the given instants, starting from `last`
(`broadcast` stores the instant in `lastBroadcastInstant`, d_classes.py 1105-1107). -/
def effSizes {τ : Type} [LinearOrder τ] (stamps : List τ) (L : Nat) :
    τ → List τ → Except PyErr (List Nat)
  | _, [] => .ok []
  | last, t :: ts => do
    let n ← bufferSizeEff stamps last t L
    let r ← effSizes stamps L t ts
    .ok (n :: r)

/-- C20 (b): when the broadcasts happen at time stamps whose index is a multiple of `L` (as the
efficient schedule guarantees, C08), in order, starting from time stamp 0, each broadcast sends
exactly the samples recorded since the previous one: the sizes telescope, so that after any number
of broadcasts the total is the index of the last broadcast instant. -/
theorem C20_partition {τ : Type} [LinearOrder τ] {stamps : List τ}
    (hs : stamps.Pairwise (· < ·)) {L : Nat} (hL : 0 < L) :
    ∀ (ms : List Nat) (m0 : Nat), (m0 :: ms).Pairwise (· ≤ ·) →
      (∀ m ∈ m0 :: ms, m * L < stamps.length) →
      ∀ last, stamps[m0 * L]? = some last → ∀ ts,
        ms.map (fun m => stamps[m * L]?) = ts.map some →
      ∃ sizes, effSizes stamps L last ts = .ok sizes ∧
        sizes.sum + m0 * L = (((m0 :: ms).getLast (by simp)) * L) ∧
        List.Forall₂ (fun m n => n = m * L) 
          (List.zipWith (fun x y => y - x) (m0 :: ms) ms) sizes := by
  intro ms
  induction ms with
  | nil =>
    intro m0 _ _ last _ ts hts
    have : ts = [] := by simpa using hts.symm
    subst this
    exact ⟨[], rfl, by simp, by simp⟩
  | cons m ms ih =>
    intro m0 hp hlt last hlast ts hts
    cases ts with
    | nil => simp at hts
    | cons t ts =>
    simp only [List.map_cons, List.cons.injEq] at hts
    rw [List.pairwise_cons] at hp
    have hm0 : m0 ≤ m := hp.1 m (by simp)
    have hl0 := hlt m0 (by simp)
    have hl1 := hlt m (by simp)
    have hab : m0 * L ≤ m * L := Nat.mul_le_mul_right _ hm0
    obtain ⟨sizes, h1, h2, h3⟩ := ih m hp.2 (fun x hx => hlt x (by simp at hx ⊢; tauto)) t hts.1
      ts hts.2
    have e1 : last = stamps[m0 * L] := by
      rw [List.getElem?_eq_getElem hl0] at hlast; exact (Option.some.inj hlast).symm
    have e2 : t = stamps[m * L] := by
      have := hts.1
      rw [List.getElem?_eq_getElem hl1] at this; exact (Option.some.inj this).symm
    have hn : bufferSizeEff stamps last t L = .ok ((m - m0) * L) := by
      unfold bufferSizeEff
      rw [if_neg (by omega), e1, e2, count_between hs hab hl1, ← Nat.sub_mul,
        Nat.mul_div_cancel _ hL, Nat.mul_comm]
    refine ⟨(m - m0) * L :: sizes, ?_, ?_, ?_⟩
    · simp only [effSizes, hn, h1, bind, Except.bind]
    · rw [List.getLast_cons (by simp), ← h2, List.sum_cons]
      have : (m - m0) * L + m0 * L = m * L := by rw [← Nat.add_mul]; congr 1; omega
      omega
    · simpa using h3

example : effSizes [0, 1, 2, 3, 4, 5, 6, 7, 8, 9] 2 (0 : Int) [2, 6, 8] = .ok [2, 4, 2] := by
  decide

/-! ## C11 -/

theorem length_others {n q : Nat} (hq : q < n) :
    ((List.range n).filter (fun i => decide (i ≠ q))).length + 1 = n := by
  have h1 := List.length_eq_countP_add_countP (fun i => decide (i = q)) (l := List.range n)
  have h2 : (List.range n).countP (fun i => decide (i = q)) = 1 := by
    have : (List.range n).countP (fun i => decide (i = q)) = (List.range n).count q := by
      unfold List.count; congr 1
    rw [this, List.count_eq_one_of_mem List.nodup_range (List.mem_range.mpr hq)]
  rw [h2] at h1
  rw [← List.countP_eq_length_filter]
  have h3 : (fun i => decide (i ≠ q)) = fun i => decide ¬ decide (i = q) = true := by
    funext i; simp
  rw [h3]
  simp only [List.length_range] at h1
  omega

theorem flagsSpec_length (Ndft Ns L : Nat) : ∀ (bs : List Bool) (m c : Nat),
    (flagsSpec Ndft Ns L m c bs).length = bs.countP (· = true) := by
  intro bs
  induction bs with
  | nil => intros; rfl
  | cons b r ih =>
    intro m c
    cases b
    · rw [flagsSpec, ih]; simp
    · rw [flagsSpec, List.length_cons, ih]; simp

/-- C11 (a): synchronous fully connected network, whole-chunk broadcasting, hop dividing the frame.
For every number of nodes, frame geometry and signal length, the events run without error, and at
every update after the first one every buffer holds exactly the expected number of samples. The
first update is the exception: it always sees `Ndft - Ns` samples too few. -/
theorem C11_whole_chunk {n Ndft Ns N : Nat} {fs : ℚ} (hNs : 0 < Ns) (hd : 0 < Ndft)
    (hdvd : Ns ∣ Ndft) {up bc : List ℚ}
    (hi : fcWholeChunkInstants Ndft Ns fs (((N - 1 : Nat) : ℚ) / fs) (clock fs N) = .ok (up, bc))
    {a : EvArgs ℚ} (hup : a.up_t = List.replicate n up) (hbc : a.bc_t = List.replicate n bc)
    (hfu : a.fuse_t = List.replicate n []) {out : List (Instant ℚ)}
    (h : buildEvents a = .ok out) (ch : ℚ → Nat → List α) (hch : ∀ t k, (ch t k).length = Ns) :
    ∃ s, netRun (fcNeighbours n) Ndft Ns (opsOf ch out) = .ok s ∧
      ∀ q < n, (s.flags q).length = out.length ∧
        ∀ j f, (s.flags q)[j]? = some f → f.length = n - 1 ∧
          ∀ x ∈ f, x = if j = 0 then (Ns : Int) - Ndft else 0 := by
  have hub : up = bc := by
    unfold fcWholeChunkInstants at hi
    rw [ceil_dvd hNs hdvd] at hi
    have e : (Ndft : ℚ) / Ns = ((Ndft / Ns : Nat) : ℚ) := by
      obtain ⟨c, rfl⟩ := hdvd
      rw [Nat.mul_div_cancel_left _ hNs]
      push_cast
      rw [mul_div_cancel_left₀ _ (by positivity)]
    rw [e] at hi
    cases hg : generateAligned ((Ndft / Ns : Nat) : ℚ)
        ⌊((N - 1 : Nat) : ℚ) / fs * fs / (Ns : ℚ)⌋ Ns fs (clock fs N) with
    | error e => rw [hg] at hi; cases hi
    | ok l => rw [hg] at hi; cases hi; rfl
  subst hub
  have hti : a.tiFlag = false := by
    unfold EvArgs.tiFlag
    rw [hfu, Bool.and_eq_false_iff]
    left
    rw [List.any_eq_false]
    intro x hx
    rw [(List.mem_replicate.mp hx).2]; simp
  have hle : Ns ≤ Ndft := Nat.le_of_dvd hd hdvd
  have hops : opsOf ch out = (out.map fun i => (i.t, true)).flatMap fun r =>
      ((List.range n).map fun k => BufOp.bc k (ch r.1 k)) ++
        if r.2 = true then (List.range n).map fun k => (BufOp.up k : BufOp α) else [] := by
    unfold opsOf
    rw [List.flatMap_map]
    apply List.flatMap_congr
    intro i hi'
    obtain ⟨h1, h2⟩ := sync_rounds h hup hbc (fun _ ht => ht) hti hi'
    rw [h2, opsAt_round]
    simp [h1]
  have hok : ∀ (l : List (Instant ℚ)), flagsOk Ndft Ns 0 ((l.map fun i => (i.t, true)).map (·.2)) := by
    intro l
    induction l with
    | nil => trivial
    | cons x r ih => exact ⟨by omega, ih⟩
  obtain ⟨s, hs, hf⟩ := rounds_run (fc_good n) (Ndft := Ndft) (Ns := Ns) (L := Ns)
    (fun k q hq => by
      unfold fcNeighbours at hq
      split at hq
      · exact List.mem_range.mp (List.mem_filter.mp hq).1
      · simp at hq) ch hch (out.map fun i => (i.t, true)) 0 0
    (BufInv.init (fcNeighbours n) Ndft Ns)
    (fun q _ => ⟨rfl, fun k _ => rfl⟩) (hok out)
  refine ⟨s, by unfold netRun; rw [hops]; exact hs, ?_⟩
  intro q hq
  have hspec : ∀ (l : List (Instant ℚ)) (m : Nat),
      flagsSpec Ndft Ns Ns m 0 ((l.map fun i => (i.t, true)).map (·.2)) =
        (List.range l.length).map fun (j : Nat) =>
          if m + j = 0 then (Ns : Int) - Ndft else 0 := by
    intro l
    induction l with
    | nil => intro m; rfl
    | cons x r ih =>
      intro m
      rw [List.map_cons, List.map_cons, flagsSpec, List.length_cons]
      rw [List.range_succ_eq_map, List.map_cons, ih, List.map_map]
      congr 1
      · simp only [Nat.add_zero, Nat.zero_add]; split <;> omega
      · apply List.map_congr_left
        intro j _
        simp only [Function.comp]
        rw [show m + 1 + j = m + j.succ by omega]
  rw [hf q hq, hspec]
  simp only [NetSt.init, List.nil_append]
  refine ⟨by simp, ?_⟩
  intro j f hj
  rw [List.getElem?_map, List.getElem?_map] at hj
  cases hr : (List.range out.length)[j]? with
  | none => rw [hr] at hj; simp at hj
  | some j' =>
    rw [hr] at hj
    have : j' = j := by
      obtain ⟨_, h2⟩ := List.getElem?_eq_some_iff.mp hr
      simpa using h2.symm
    subst this
    simp only [Option.map_some, Option.some.injEq, Nat.zero_add] at hj
    rw [← hj]
    refine ⟨?_, ?_⟩
    · unfold fcNeighbours
      rw [if_pos hq]
      have hl := length_others hq
      simp only [List.length_map]
      omega
    · intro x hx
      exact (List.mem_map.mp hx).choose_spec.2.symm

/-- C11 (b): the same network with few-sample broadcasting (every `L` samples, `L` dividing the
hop): no update at all, including the first one, sees a missing or an extra sample. -/
theorem C11_few_samples {n Ndft Ns L N : Nat} {fs : ℚ} (hn : 0 < n) (hfs : 0 < fs) (hL : 0 < L)
    (hNs : 0 < Ns) (hd : 0 < Ndft) (h1 : L ∣ Ns) (h2 : Ns ∣ Ndft) {up bc : List ℚ}
    (hi : fcFewSamplesInstants Ndft Ns L fs (((N - 1 : Nat) : ℚ) / fs) (clock fs N) = .ok (up, bc))
    {a : EvArgs ℚ} (hup : a.up_t = List.replicate n up) (hbc : a.bc_t = List.replicate n bc)
    (hfu : a.fuse_t = List.replicate n []) {out : List (Instant ℚ)}
    (h : buildEvents a = .ok out) (ch : ℚ → Nat → List α) (hch : ∀ t k, (ch t k).length = L) :
    ∃ s, netRun (fcNeighbours n) Ndft Ns (opsOf ch out) = .ok s ∧
      ∀ q < n, (s.flags q).length = up.length ∧
        ∀ f ∈ s.flags q, f.length = n - 1 ∧ ∀ x ∈ f, x = 0 := by
  have hti : a.tiFlag = false := by
    unfold EvArgs.tiFlag
    rw [hfu, Bool.and_eq_false_iff]
    left
    rw [List.any_eq_false]
    intro x hx
    rw [(List.mem_replicate.mp hx).2]; simp
  -- the two grids
  have hT : ∀ (T s sep : Nat), 0 < sep → T = (N - 1) / sep → ∀ j < T - s, (s + j) * sep < N := by
    intro T s sep hsep hT j hj
    have h3 : (s + j) * sep < T * sep := Nat.mul_lt_mul_of_pos_right (by omega) hsep
    have h4 : T * sep ≤ N - 1 := by rw [hT]; exact Nat.div_mul_le_self _ _
    omega
  have hupe := generateAligned_grid (fs := fs) (hT ((N - 1) / Ns) (Ndft / Ns) Ns hNs rfl)
  have hbce := generateAligned_grid (fs := fs) (hT ((N - 1) / L) 1 L hL rfl)
  unfold fcFewSamplesInstants at hi
  rw [ceil_dvd hNs h2, floor_grid hfs, floor_grid hfs] at hi
  rw [hupe] at hi
  rw [show (1 : ℚ) = ((1 : Nat) : ℚ) by simp, hbce] at hi
  simp only [bind, Except.bind, Except.ok.injEq, Prod.mk.injEq] at hi
  obtain ⟨hupv, hbcv⟩ := hi
  obtain ⟨r, hr⟩ := h1
  obtain ⟨D, hD⟩ := h2
  have hDv : Ndft / Ns = D := by rw [hD, Nat.mul_div_cancel_left _ hNs]
  rw [hDv] at hupv
  have hrpos : 0 < r := by
    rcases Nat.eq_zero_or_pos r with h | h
    · subst h; simp at hr; omega
    · exact h
  set U := (N - 1) / Ns with hU
  set B := (N - 1) / L with hB
  have hUB : U * r ≤ B := by
    rw [hB, Nat.le_div_iff_mul_le hL]
    calc U * r * L = U * Ns := by rw [hr]; ring
      _ ≤ N - 1 := Nat.div_mul_le_self _ _
  have hcast : ∀ x y : Nat, ((x : ℚ) / fs = (y : ℚ) / fs ↔ x = y) := by
    intro x y
    rw [div_left_inj' (ne_of_gt hfs)]
    exact Nat.cast_inj
  -- update instants are broadcast instants
  have hsub : ∀ t ∈ up, t ∈ bc := by
    intro t ht
    rw [← hupv] at ht
    obtain ⟨j, hj, rfl⟩ := List.mem_map.mp ht
    have hj' := List.mem_range.mp hj
    rw [← hbcv]
    have hge : 1 ≤ (D + j) * r := by
      have hDpos : 0 < D := by
        rcases Nat.eq_zero_or_pos D with h | h
        · subst h; simp at hD; omega
        · exact h
      exact Nat.mul_pos (by omega) hrpos
    refine List.mem_map.mpr ⟨(D + j) * r - 1, List.mem_range.mpr ?_, ?_⟩
    · have h5 : (D + j + 1) * r ≤ U * r := Nat.mul_le_mul_right _ (by omega)
      have h6 : (D + j + 1) * r = (D + j) * r + r := by ring
      omega
    · rw [hcast]
      rw [show 1 + ((D + j) * r - 1) = (D + j) * r by omega, hr]; ring
  have hbs : bc.Pairwise (· < ·) := by
    rw [← hbcv, List.pairwise_map]
    refine List.pairwise_lt_range.imp ?_
    intro x y hxy
    have : ((1 + x) * L : Nat) < ((1 + y) * L : Nat) :=
      Nat.mul_lt_mul_of_pos_right (by omega) hL
    have h7 : (((1 + x) * L : Nat) : ℚ) < (((1 + y) * L : Nat) : ℚ) := by exact_mod_cast this
    exact (div_lt_div_iff_of_pos_right hfs).mpr h7
  have htimes := sync_times h hn hup hbc hsub hti hbs
  have hops : opsOf ch out = (bc.map fun t => (t, decide (t ∈ up))).flatMap fun r =>
      ((List.range n).map fun k => BufOp.bc k (ch r.1 k)) ++
        if r.2 = true then (List.range n).map fun k => (BufOp.up k : BufOp α) else [] := by
    rw [← htimes]
    unfold opsOf
    rw [List.map_map, List.flatMap_map]
    apply List.flatMap_congr
    intro i hi'
    obtain ⟨h1, h2⟩ := sync_rounds h hup hbc hsub hti hi'
    rw [h2, opsAt_round]
    simp
  have hbools : (bc.map fun t => (t, decide (t ∈ up))).map (·.2) =
      (List.range' 0 (B - 1)).map fun j =>
        decide (∃ i < U - D, (j + 1) * L = Ndft + i * Ns) := by
    rw [← hbcv, List.map_map, List.map_map, List.range_eq_range']
    apply List.map_congr_left
    intro j _
    simp only [Function.comp]
    rw [Bool.eq_iff_iff, decide_eq_true_eq, decide_eq_true_eq, ← hupv]
    constructor
    · intro ht
      obtain ⟨i, hi', he⟩ := List.mem_map.mp ht
      refine ⟨i, List.mem_range.mp hi', ?_⟩
      rw [hcast] at he
      rw [Nat.add_comm j 1, ← he, hD]; ring
    · rintro ⟨i, hi', he⟩
      refine List.mem_map.mpr ⟨i, List.mem_range.mpr hi', ?_⟩
      rw [hcast, Nat.add_comm 1 j, he, hD]; ring
  obtain ⟨f1, f2⟩ := few_flags (nu := U - D) hL hNs hd ⟨r, hr⟩ ⟨D, hD⟩ (B - 1) 0 0 0 (by simp)
    (dvd_zero _) (by omega) (fun _ => by simpa [expected] using hd)
  obtain ⟨s, hs, hf⟩ := rounds_run (fc_good n) (Ndft := Ndft) (Ns := Ns) (L := L)
    (fun k q hq => by
      unfold fcNeighbours at hq
      split at hq
      · exact List.mem_range.mp (List.mem_filter.mp hq).1
      · simp at hq) ch hch (bc.map fun t => (t, decide (t ∈ up))) 0 0
    (BufInv.init (fcNeighbours n) Ndft Ns)
    (fun q _ => ⟨rfl, fun k _ => rfl⟩) (by rw [hbools]; exact f2)
  refine ⟨s, by unfold netRun; rw [hops]; exact hs, ?_⟩
  intro q hq
  refine ⟨?_, ?_⟩
  · rw [hf q hq]
    simp only [NetSt.init, List.nil_append, List.length_map]
    rw [flagsSpec_length, List.map_map, List.countP_map, List.countP_eq_length_filter]
    apply List.Perm.length_eq
    have hupnd : up.Nodup := by
      rw [← hupv]
      refine List.Nodup.map_on ?_ List.nodup_range
      intro x _ y _ hxy
      rw [hcast] at hxy
      have := Nat.eq_of_mul_eq_mul_right hNs hxy
      omega
    refine (List.perm_ext_iff_of_nodup ((hbs.imp (fun h => ne_of_lt h)).filter _) hupnd).mpr ?_
    intro t
    rw [List.mem_filter]
    constructor
    · rintro ⟨_, h8⟩; simpa using h8
    · intro h8; exact ⟨hsub t h8, by simpa using h8⟩
  intro f hfm
  rw [hf q hq, hbools] at hfm
  simp only [NetSt.init, List.nil_append] at hfm
  obtain ⟨y, hy, rfl⟩ := List.mem_map.mp hfm
  refine ⟨?_, ?_⟩
  · unfold fcNeighbours
    rw [if_pos hq]
    have hl := length_others hq
    simp only [List.length_map]
    omega
  intro x hx
  obtain ⟨_, _, rfl⟩ := List.mem_map.mp hx
  exact f1 _ hy

/-- Frames of 4 samples, hop 2, broadcasts of 1 sample, 9 samples at 1 Hz: the hypotheses of C11
hold, with 2 updates in the run. -/
example : fcFewSamplesInstants 4 2 1 1 (((9 - 1 : Nat) : ℚ) / 1) (clock 1 9) =
      .ok ([4, 6], [1, 2, 3, 4, 5, 6, 7]) ∧
    fcWholeChunkInstants 4 2 1 (((9 - 1 : Nat) : ℚ) / 1) (clock 1 9) = .ok ([4, 6], [4, 6]) := by
  have hu := generateAligned_grid (fs := 1) (N := 9) (s := 2) (T := 4) (sep := 2)
    (by intro j hj; omega)
  have hb := generateAligned_grid (fs := 1) (N := 9) (s := 1) (T := 8) (sep := 1)
    (by intro j hj; omega)
  have h1 : (⌈((4 : Nat) : ℚ) / (2 : Nat)⌉ : ℚ) = ((2 : Nat) : ℚ) :=
    ceil_dvd (a := 4) (b := 2) (by omega) ⟨2, rfl⟩
  have h2 := floor_grid (fs := 1) (by norm_num) (N := 9) (d := 2)
  have h3 := floor_grid (fs := 1) (by norm_num) (N := 9) (d := 1)
  have h4 : ((4 : Nat) : ℚ) / (2 : Nat) = ((2 : Nat) : ℚ) := by norm_num
  constructor
  · unfold fcFewSamplesInstants
    rw [h1, h2, h3, show (9 - 1) / 2 = 4 from rfl, show (9 - 1) / 1 = 8 from rfl, hu,
      show (1 : ℚ) = ((1 : Nat) : ℚ) by simp]
    rw [show ((1 : Nat) : ℚ) = 1 by simp] at hb ⊢
    have : generateAligned 1 ((8 : Nat) : Int) 1 1 (clock 1 9) = _ := hb
    rw [this]
    norm_num [List.range_succ, bind, Except.bind]
  · unfold fcWholeChunkInstants
    rw [h1, h2, h4, show (9 - 1) / 2 = 4 from rfl, hu]
    norm_num [List.range_succ, bind, Except.bind]

/-- A run of two such nodes, checked by evaluation. -/
example : ((buildEvents { exSim with
      up_t := List.replicate 2 [4, 6], bc_t := List.replicate 2 [1, 2, 3, 4, 5, 6, 7],
      fuse_t := List.replicate 2 [] }).bind fun out =>
    (netRun (fcNeighbours 2) 4 2 (opsOf (fun _ _ => [(1 : Int)]) out)).map fun s => s.flags 1) =
    .ok [[0], [0]] := by
  cbv

end
end Danse
