import Verif.Proofs.Centr2

/-!
# Helper lemmas: invariant of the centralised buffers along a run
-/

set_option linter.unusedSectionVars false

namespace Danse
section
variable {K : Type} [Field K] [StarRing K] [DecidableEq K] {c : CentrCfg K} {y : Nat → List (List K)}

theorem rawOps_snoc (g : GivenCfg K) (evs : List (ℚ × Nat × EvType)) (ev : ℚ × Nat × EvType) (m : Nat) :
    rawOps g y (evs ++ [ev]) m = rawOps g y evs m ++ [match ev.2.2 with
      | .bc => .bc ev.2.1 (rawChunk g y (lastBcTime evs ev.2.1) ev.1 ev.2.1 m)
      | _ => .up ev.2.1] := by
  unfold rawOps
  rw [List.zipIdx_append, List.map_append]
  congr 1
  · apply List.map_congr_left
    rintro ⟨e, i⟩ hi
    have h1 := List.mem_zipIdx hi
    have h2 : (evs ++ [ev]).take i = evs.take i := by
      rw [List.take_append_of_le_length (by omega)]
    simp only [h2]
  · simp
    cases ev.2.2 <;> rfl

theorem lastBcTime_snoc (evs : List (ℚ × Nat × EvType)) (ev : ℚ × Nat × EvType) (k : Nat) :
    lastBcTime (evs ++ [ev]) k = if ev.2.1 = k ∧ ev.2.2 = .bc then ev.1 else lastBcTime evs k := by
  unfold lastBcTime bcTimes
  rw [List.filterMap_append]
  by_cases h : ev.2.1 = k ∧ ev.2.2 = .bc
  · rw [if_pos h]
    simp [h.1, h.2, List.getLastD_eq_getLast?]
  · rw [if_neg h]
    simp [h]

theorem centrSlot_eq (k q : Nat) : centrSlot k q = if k < q then k else k - 1 := rfl

theorem centrReadSlot_inj {k q q' : Nat} (h : q ≠ k) (h' : q' ≠ k) :
    centrReadSlot k q = centrSlot q' k ↔ q = q' := by
  unfold centrReadSlot centrSlot
  split_ifs <;> omega

theorem map_eq_range_getD {β : Type} (l : List (List K)) (F : List K → β) :
    l.map F = (List.range l.length).map fun j => F (l.getD j []) := by
  apply List.ext_getElem
  · simp
  · intro i h1 h2
    simp at h1
    simp [h1]

/-- The samples that are appended to the buffers at a broadcast. -/
theorem raw_chunks {s : CentrSt K} {t : ℚ} {k : Nat} {raw : List (List K)} {m : Int} {b : GivenSt K}
    (hN : 0 < c.g.N) (hlen : ∀ x ∈ y k, c.g.N ≤ x.length) (ht : 0 ≤ ⌊t * c.g.fs k⌋)
    (h1 : c.rawFrames y s t k = .ok raw) (h2 : c.g.broadcast y s.base t k = .ok b)
    (h3 : c.nSamplesToBC s t k = .ok m) (hm : m ≠ 0) :
    raw.map (chunkOf · m) =
      (List.range (y k).length).map fun j => rawChunk c.g y (s.base.lastBc k) t k j := by
  obtain ⟨_, _, fr, hfr, hlong⟩ := broadcast_base h2
  have hfm : fr.map (·.1) = (y k).map fun x => frameBefore c.g.N x ⌊t * c.g.fs k⌋.toNat := by
    apply mapM_frames hfr
    intro x hx z hz hzr
    exact (localChunk_full hN ht (hlen x hx) hz (hlong z hzr)).2
  unfold CentrCfg.rawFrames at h1
  rw [hfr] at h1
  obtain ⟨fr', e, h1⟩ := bind_ok_inv h1
  injection e with e
  subst e
  unfold CentrCfg.nSamplesToBC at h3
  unfold rawChunk
  cases hb : c.g.bc with
  | whole =>
    rw [hb] at h1 h3
    injection h1 with h1
    injection h3 with h3
    subst h1; subst h3
    rw [hfm, List.map_map, map_eq_range_getD]
    apply List.map_congr_left
    intro j _
    simp only [Function.comp_apply]
    unfold chunkOf
    rw [if_neg (by omega), if_pos (by omega)]
    simp
  | few L eff =>
    rw [hb] at h1 h3
    cases eff with
    | false => cases h1
    | true =>
      obtain ⟨l, hl, h1⟩ := bind_ok_inv h1
      obtain ⟨l', hl', h3⟩ := bind_ok_inv h3
      rw [hl] at hl'
      injection hl' with hl'
      subst hl'
      injection h1 with h1
      injection h3 with h3
      subst h1; subst h3
      have hl0 : l ≠ 0 := by omega
      unfold GivenCfg.currL bufferSizeEff at hl
      simp only [if_true] at hl
      by_cases hL : L = 0
      · rw [if_pos hL] at hl; cases hl
      · rw [if_neg hL] at hl
        injection hl with hl
        have e2 : fr.map (fun x => if l = 0 then x.1 else lastN l x.1) =
            (fr.map (·.1)).map (lastN l) := by
          rw [List.map_map]
          apply List.map_congr_left
          intro z _
          rw [if_neg hl0]; rfl
        rw [e2, hfm, List.map_map, List.map_map, map_eq_range_getD]
        apply List.map_congr_left
        intro j _
        simp only [Function.comp_apply]
        rw [hl]
        unfold chunkOf
        rw [if_pos (by omega), Int.natAbs_neg, Int.natAbs_natCast, lastN_lastN (le_refl _)]

/-- What the centralised buffers contain after a history. -/
structure CInv (c : CentrCfg K) (y : Nat → List (List K)) (evs : List (ℚ × Nat × EvType))
    (s : CentrSt K) : Prop where
  it : ∀ m k, s.base.net.it k = numUps k (rawOps c.g y evs m)
  last : ∀ L, c.g.bc = .few L true → ∀ k, s.base.lastBc k = lastBcTime evs k
  buf : ∀ k < c.n, ∀ q < c.n, q ≠ k → s.buf k (centrReadSlot k q) =
    (List.range (y q).length).map fun m => sent (sinceUp k (rawOps c.g y evs m)) q
  yc : ∀ k < c.n, 0 < s.base.net.it k → s.yc k = (centrSlots c.n k).flatMap fun q =>
    (List.range (y q).length).map fun m => frameSpec c.g.N (sent (untilUp k (rawOps c.g y evs m)) q)

theorem CInv.init (T : Nat) : CInv c y [] (.init c.n c.g.N c.g.refSensor T fun q => (y q).length) := by
  refine ⟨fun m k => rfl, fun L _ k => rfl, fun k hk q hq hne => ?_, fun k hk h => ?_⟩
  · simp only [CentrSt.init, emptyCentr, centrSlots_at hq hne]
    have e : (fun m => sent (sinceUp k (rawOps c.g y [] m)) q) = fun _ => ([] : List K) := by
      funext m; rfl
    rw [e, List.map_const', List.length_range]
  · simp [CentrSt.init, GivenSt.init, NetSt.init] at h

theorem zipWith_range {β : Type} (n : Nat) (f g : Nat → List β) :
    List.zipWith (· ++ ·) ((List.range n).map f) ((List.range n).map g) =
      (List.range n).map fun j => f j ++ g j := by
  rw [List.zipWith_map]
  simp [List.zipWith_self]

theorem rawChunk_last {g : GivenCfg K} {a b : ℚ} (h : ∀ L, g.bc = .few L true → a = b) (hb : ∀ L, g.bc ≠ .few L false)
    (t : ℚ) (k j : Nat) : rawChunk g y a t k j = rawChunk g y b t k j := by
  unfold rawChunk
  cases hbc : g.bc with
  | whole => rfl
  | few L eff =>
    cases eff with
    | false => exact absurd hbc (hb L)
    | true => rw [h L hbc]

theorem CInv.bc {evs : List (ℚ × Nat × EvType)} {s s' : CentrSt K} {t : ℚ} {k : Nat} (hc : c.centr = true)
    (hi : CInv c y evs s) (hN : 0 < c.g.N) (hlen : ∀ x ∈ y k, c.g.N ≤ x.length)
    (ht : 0 ≤ ⌊t * c.g.fs k⌋) (h : c.broadcast y s t k = .ok s') : CInv c y (evs ++ [(t, k, .bc)]) s' := by
  unfold CentrCfg.broadcast at h
  rw [if_pos hc] at h
  obtain ⟨raw, h1, h⟩ := bind_ok_inv h
  obtain ⟨b, h2, h⟩ := bind_ok_inv h
  obtain ⟨m, h3, h⟩ := bind_ok_inv h
  obtain ⟨bf, h4, h⟩ := bind_ok_inv h
  injection h with h
  obtain ⟨b1, b2, _⟩ := broadcast_base h2
  obtain ⟨f1, f2⟩ := fillCentr_inv h4
  have hnf : ∀ L, c.g.bc ≠ .few L false := by
    intro L e
    unfold CentrCfg.rawFrames at h1
    rw [e] at h1
    obtain ⟨_, _, h1⟩ := bind_ok_inv h1
    cases h1
  subst h
  refine ⟨fun m k' => ?_, fun L hL k' => ?_, fun k' hk' q hq hne => ?_, fun k' hk' h0 => ?_⟩
  · rw [rawOps_snoc]
    simp only [b1, hi.it m k', numUps, List.countP_append]
    simp [BufOp.isUp]
  · simp only [b2 L hL, lastBcTime_snoc]
    by_cases hk : k = k'
    · subst hk
      simp
    · rw [Function.update_of_ne (Ne.symm hk), if_neg (fun h => hk h.1)]
      exact hi.last L hL k'
  · simp only
    rw [f1]
    have e : ∀ m, sent (sinceUp k' (rawOps c.g y (evs ++ [(t, k, EvType.bc)]) m)) q =
        sent (sinceUp k' (rawOps c.g y evs m)) q ++
          if k = q then rawChunk c.g y (lastBcTime evs k) t k m else [] := by
      intro m
      rw [rawOps_snoc, sinceUp_snoc]
      simp only [BufOp.isUp, Bool.false_eq_true, if_false]
      rw [sent_append, sent_bc]
    simp only [e]
    by_cases hk : k' = k
    · rw [if_neg (fun h => h.2.1 hk), hi.buf k' hk' q hq hne]
      subst hk
      simp [Ne.symm hne]
    · by_cases hqk : q = k
      · subst hqk
        rw [if_pos ⟨hk', hk, (centrReadSlot_inj hne hne).mpr rfl⟩, hi.buf k' hk' q hq hne,
          raw_chunks hN hlen ht h1 h2 h3 (f2 k' hk' hk), zipWith_range]
        apply List.map_congr_left
        intro j _
        simp only [if_true]
        rw [rawChunk_last (fun L hL => hi.last L hL q) hnf]
      · rw [if_neg (fun h => hqk ((centrReadSlot_inj hne (Ne.symm hk)).mp h.2.2)), hi.buf k' hk' q hq hne]
        simp [Ne.symm hqk]
  · simp only at h0 ⊢
    rw [b1] at h0
    rw [hi.yc k' hk' h0]
    have e : ∀ m, untilUp k' (rawOps c.g y (evs ++ [(t, k, EvType.bc)]) m) =
        untilUp k' (rawOps c.g y evs m) := by
      intro m
      rw [rawOps_snoc]
      exact untilUp_snoc_other _ _ rfl
    simp only [e]

end
end Danse
