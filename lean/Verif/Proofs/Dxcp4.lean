import Verif.Proofs.Dxcp3
import Verif.Spec.Dxcp

/-!
# The estimator's buffering and scheduling over whole histories
-/

namespace Danse

section
variable {α A C E : Type}

theorem latest_length [Zero α] (m : Nat) (frames : List (List α)) (n : Nat) :
    (latest m frames n).length = m := by
  unfold latest
  simp only [List.length_drop, List.length_append, List.length_replicate]
  omega

/-- Appending a frame slides the window. -/
theorem latest_succ [Zero α] {m F : Nat} (hF : F ≤ m) {frames : List (List α)} {n : Nat} {x : List α}
    (hx : frames[n]? = some x) (hl : x.length = F) :
    latest m frames (n + 1) = (latest m frames n).drop F ++ x := by
  unfold latest
  rw [List.take_add_one, hx, Option.toList_some, List.flatten_append]
  simp only [List.flatten_cons, List.flatten_nil, List.append_nil]
  rw [← List.append_assoc]
  set h := List.replicate m (0 : α) ++ (frames.take n).flatten with hh
  have hm : m ≤ h.length := by rw [hh]; simp
  rw [List.length_append, hl, List.drop_drop, List.drop_append_of_le_length (by omega)]
  congr 2
  omega

/-- The entry of the padded history of averages. -/
def padAvg [Zero A] (f : DxFuns α A C E) (bufs : Nat → List α) (c t : Nat) : A :=
  if t < c then 0 else specAvg f bufs (t - c + 1)

/-- State after `u` updates. -/
structure UpdInv [Zero A] [Zero C] [Zero E] (p : DxParams) (f : DxFuns α A C E)
    (bufs : Nat → List α) (u : Nat) (s : DxSt α A C E) : Prop where
  upd : s.updates = u
  ell : s.ell = u + 1
  ini : s.initiated = decide (0 < u)
  avg : 0 < u → s.avg = specAvg f bufs u
  cont : s.cont = (List.range p.contNum).map fun j => padAvg f bufs p.contNum (u + j)
  avg2 : s.avg2 = specAvg2 f bufs p.first2.toNat (p.contNum - 1) u
  est : s.est = specEst f bufs p.first2.toNat (p.contNum - 1) (p.first2.toNat + p.settle) u

theorem specAvg2_zero [Zero A] [Zero C] (f : DxFuns α A C E) (bufs : Nat → List α) {start sep m : Nat}
    (h : m < start) : specAvg2 f bufs start sep m = 0 := by
  cases m with
  | zero => rfl
  | succ m => rw [specAvg2, if_neg (by omega)]

theorem updInv_step [Zero A] [Zero C] [Zero E] {p : DxParams} (hc : 2 ≤ p.contNum) (hi : 1 ≤ p.inv)
    {f : DxFuns α A C E} {bufs : Nat → List α} {u : Nat} {s : DxSt α A C E}
    (h : UpdInv p f bufs u s) (hb : s.buf = bufs (u + 1)) :
    UpdInv p f bufs (u + 1) (s.update p f) := by
  obtain ⟨h1, h2, h3, h4, h5, h6, h7⟩ := h
  have hf : (p.contNum : Int) ≤ p.first2 := by unfold DxParams.first2; omega
  have hcast : ∀ k : Nat, ((k : Int) ≥ p.first2) ↔ p.first2.toNat ≤ k := by intro k; omega
  have havg : (if s.initiated then f.smooth1 s.avg (f.gcsd s.buf) else f.gcsd s.buf) =
      specAvg f bufs (u + 1) := by
    rw [h3, hb]
    cases u with
    | zero => simp [specAvg]
    | succ u => simp [specAvg, h4 (by omega)]
  have hcont : s.cont.drop 1 ++ [specAvg f bufs (u + 1)] =
      (List.range p.contNum).map fun j => padAvg f bufs p.contNum (u + 1 + j) := by
    rw [h5]
    apply List.ext_getElem
    · simp; omega
    · intro i h1 h2
      simp only [List.length_map, List.length_range] at h2
      rw [List.getElem_append]
      split
      · next hlt => 
        simp only [List.getElem_drop, List.getElem_map, List.getElem_range]
        congr 1; omega
      · next hge =>
        simp only [List.length_drop, List.length_map, List.length_range] at hge
        simp only [List.getElem_map, List.getElem_range, List.getElem_singleton]
        have : u + 1 + i = p.contNum + u := by omega
        rw [this]
        unfold padAvg
        rw [if_neg (by omega), Nat.add_sub_cancel_left]
  have hlast : (s.cont.drop 1 ++ [specAvg f bufs (u + 1)]).getLastD (specAvg f bufs (u + 1)) =
      specAvg f bufs (u + 1) := by simp [List.getLastD_eq_getLast?]
  have hhead : p.contNum ≤ u + 1 →
      (s.cont.drop 1 ++ [specAvg f bufs (u + 1)]).headD (specAvg f bufs (u + 1)) =
      specAvg f bufs (u + 1 - (p.contNum - 1)) := by
    intro hle
    rw [hcont]
    obtain ⟨c, hcc⟩ : ∃ c, p.contNum = c + 1 := ⟨p.contNum - 1, by omega⟩
    rw [hcc, List.range_succ_eq_map]
    simp only [List.map_cons, List.headD_cons, Nat.add_zero]
    unfold padAvg
    rw [if_neg (by omega)]
    congr 1; omega
  have havg2 : (if (s.ell : Int) ≥ p.first2 then
      (if s.initiated then f.smooth2 s.avg2 (f.cross
        ((s.cont.drop 1 ++ [specAvg f bufs (u + 1)]).getLastD (specAvg f bufs (u + 1)))
        ((s.cont.drop 1 ++ [specAvg f bufs (u + 1)]).headD (specAvg f bufs (u + 1))))
       else f.cross
        ((s.cont.drop 1 ++ [specAvg f bufs (u + 1)]).getLastD (specAvg f bufs (u + 1)))
        ((s.cont.drop 1 ++ [specAvg f bufs (u + 1)]).headD (specAvg f bufs (u + 1))))
      else s.avg2) = specAvg2 f bufs p.first2.toNat (p.contNum - 1) (u + 1) := by
    rw [h2, specAvg2]
    by_cases hle : p.first2.toNat ≤ u + 1
    · rw [if_pos ((hcast _).2 hle), if_pos hle, hlast, hhead (by omega), h3, h6]
      have : 0 < u := by omega
      simp [this]
    · rw [if_neg (fun hh => hle ((hcast _).1 hh)), if_neg hle, h6, specAvg2_zero _ _ (by omega)]
  unfold DxSt.update
  simp only [havg, havg2]
  refine ⟨by simp [h1], by simp [h2], by simp, fun _ => rfl, hcont, rfl, ?_⟩
  simp only
  unfold specEst
  rw [h2]
  by_cases hle : p.first2.toNat + p.settle ≤ u + 1
  · rw [if_pos (by omega), if_pos hle]
  · rw [if_neg (by omega), if_neg hle, h7]
    unfold specEst
    rw [if_neg (by omega)]

/-- State after `n` frames. -/
structure DxInv [Zero α] [Zero A] [Zero C] [Zero E] (p : DxParams) (f : DxFuns α A C E)
    (frames : List (List α)) (n : Nat) (s : DxSt α A C E) : Prop where
  buf : s.buf = latest p.fftSize frames n
  exec : s.exec = n % (p.fftShift / p.frame) + 1
  upd : UpdInv p f (fun m => latest p.fftSize frames (p.fftShift / p.frame * m))
    (n / (p.fftShift / p.frame)) s

theorem UpdInv.congr [Zero A] [Zero C] [Zero E] {p : DxParams} {f : DxFuns α A C E}
    {bufs : Nat → List α} {u : Nat} {s s' : DxSt α A C E} (h : UpdInv p f bufs u s)
    (e1 : s'.updates = s.updates) (e2 : s'.ell = s.ell) (e3 : s'.initiated = s.initiated)
    (e4 : s'.avg = s.avg) (e5 : s'.cont = s.cont) (e6 : s'.avg2 = s.avg2) (e7 : s'.est = s.est) :
    UpdInv p f bufs u s' := by
  obtain ⟨h1, h2, h3, h4, h5, h6, h7⟩ := h
  exact ⟨e1.trans h1, e2.trans h2, e3.trans h3, fun h => e4.trans (h4 h), e5.trans h5, e6.trans h6,
    e7.trans h7⟩

theorem dxInv_step [Zero α] [Zero A] [Zero C] [Zero E] {p : DxParams} (hc : 2 ≤ p.contNum)
    (hi : 1 ≤ p.inv) (hF : p.frame ≤ p.fftSize) (hR : 0 < p.fftShift / p.frame)
    {f : DxFuns α A C E} {frames : List (List α)} {n : Nat} {s : DxSt α A C E}
    (h : DxInv p f frames n s) {x : List α} (hx : frames[n]? = some x) (hl : x.length = p.frame) :
    ∃ s', s.process p f x = .ok (s', specEst f
        (fun m => latest p.fftSize frames (p.fftShift / p.frame * m)) p.first2.toNat (p.contNum - 1)
        (p.first2.toNat + p.settle) ((n + 1) / (p.fftShift / p.frame))) ∧
      DxInv p f frames (n + 1) s' := by
  obtain ⟨h1, h2, h3⟩ := h
  set R := p.fftShift / p.frame with hRd
  have hbuf : s.buf.drop p.frame ++ x = latest p.fftSize frames (n + 1) := by
    rw [h1, latest_succ hF hx hl]
  unfold DxSt.process
  rw [if_neg (by simp [hl])]
  simp only [h2, hbuf]
  by_cases hex : n % R + 1 = R
  · rw [if_pos hex]
    have hdiv : (n + 1) / R = n / R + 1 := by
      have := Nat.div_add_mod n R
      have e : n + 1 = R * (n / R + 1) := by rw [Nat.mul_add, Nat.mul_one]; omega
      rw [e, Nat.mul_div_cancel_left _ hR]
    have hmod : (n + 1) % R = 0 := by
      have := Nat.div_add_mod n R
      have e : n + 1 = R * (n / R + 1) := by rw [Nat.mul_add, Nat.mul_one]; omega
      rw [e, Nat.mul_mod_right]
    have hmul : R * (n / R + 1) = n + 1 := by
      have := Nat.div_add_mod n R
      rw [Nat.mul_add, Nat.mul_one]; omega
    have hU : UpdInv p f (fun m => latest p.fftSize frames (R * m)) (n / R + 1)
        (DxSt.update p f { s with buf := latest p.fftSize frames (n + 1), exec := 0 }) := by
      apply updInv_step hc hi
      · exact h3.congr rfl rfl rfl rfl rfl rfl rfl
      · simp only [hmul]
    rw [hdiv]
    refine ⟨_, by rw [← hU.est], ⟨rfl, ?_, ?_⟩⟩
    · change 0 + 1 = _; rw [← hRd, hmod]
    · rw [← hRd, hdiv]; exact hU.congr rfl rfl rfl rfl rfl rfl rfl
  · rw [if_neg hex]
    have hlt : n % R + 1 < R := by
      have := Nat.mod_lt n hR; omega
    have hdm := Nat.div_add_mod n R
    have hdiv : (n + 1) / R = n / R := by
      have e : n + 1 = R * (n / R) + (n % R + 1) := by omega
      rw [e, Nat.mul_add_div hR, Nat.div_eq_of_lt hlt, Nat.add_zero]
    have hmod : (n + 1) % R = n % R + 1 := by
      have e : n + 1 = R * (n / R) + (n % R + 1) := by omega
      rw [e, Nat.mul_add_mod, Nat.mod_eq_of_lt hlt]
    rw [hdiv]
    refine ⟨_, by rw [← h3.est], ⟨rfl, ?_, ?_⟩⟩
    · change n % R + 1 + 1 = _; rw [← hRd, hmod]
    · rw [← hRd, hdiv]; exact h3.congr rfl rfl rfl rfl rfl rfl rfl

theorem dxInv_init [Zero α] [Zero A] [Zero C] [Zero E] {p : DxParams} (hc : 2 ≤ p.contNum)
    (hi : 1 ≤ p.inv) (f : DxFuns α A C E) (frames : List (List α)) :
    DxInv p f frames 0 (DxSt.init p) := by
  have hf : (p.contNum : Int) ≤ p.first2 := by unfold DxParams.first2; omega
  refine ⟨?_, ?_, ?_⟩
  · unfold DxSt.init latest; simp
  · simp [DxSt.init]
  · rw [Nat.zero_div]
    refine ⟨rfl, rfl, rfl, by omega, ?_, ?_, ?_⟩
    · unfold DxSt.init padAvg
      symm
      apply List.eq_replicate_iff.2
      refine ⟨by simp, ?_⟩
      intro b hb
      obtain ⟨j, hj, rfl⟩ := List.mem_map.1 hb
      rw [List.mem_range] at hj
      rw [if_pos (by omega)]
    · rfl
    · unfold specEst DxSt.init
      rw [if_neg (by omega)]

theorem dx_run [Zero α] [Zero A] [Zero C] [Zero E] {p : DxParams} (hc : 2 ≤ p.contNum)
    (hi : 1 ≤ p.inv) (hF : p.frame ≤ p.fftSize) (hR : 0 < p.fftShift / p.frame)
    (f : DxFuns α A C E) (frames : List (List α)) (hl : ∀ x ∈ frames, x.length = p.frame) :
    ∀ (rest : List (List α)) (n : Nat) (s : DxSt α A C E), frames.drop n = rest →
      DxInv p f frames n s → ∃ s', s.run p f rest = .ok (s', (List.range rest.length).map fun j =>
        specEst f (fun m => latest p.fftSize frames (p.fftShift / p.frame * m)) p.first2.toNat
          (p.contNum - 1) (p.first2.toNat + p.settle) ((n + j + 1) / (p.fftShift / p.frame))) ∧
        DxInv p f frames (n + rest.length) s' := by
  intro rest
  induction rest with
  | nil => intro n s _ h; exact ⟨s, rfl, h⟩
  | cons x r ih =>
    intro n s hd h
    have hx : frames[n]? = some x := by
      have := List.getElem?_drop (xs := frames) (i := n) (j := 0)
      rw [hd] at this
      simpa using this.symm
    have hr : frames.drop (n + 1) = r := by
      rw [← List.drop_drop, hd]; rfl
    obtain ⟨s1, hp, hi1⟩ := dxInv_step hc hi hF hR h hx (hl x (List.mem_of_getElem? hx))
    obtain ⟨s2, hq, hi2⟩ := ih (n + 1) s1 hr hi1
    refine ⟨s2, ?_, by rw [List.length_cons, show n + (r.length + 1) = n + 1 + r.length by omega]; exact hi2⟩
    change (s.process p f x >>= fun q => q.1.run p f r >>= fun z => Except.ok (z.1, q.2 :: z.2)) = _
    rw [hp]
    change (s1.run p f r >>= _) = _
    rw [hq, List.length_cons, List.range_succ_eq_map, List.map_cons, List.map_map]
    have key : ∀ j : Nat, n + (j + 1) + 1 = n + 1 + j + 1 := by intro j; omega
    have e : ((fun (j : Nat) => specEst f (fun m => latest p.fftSize frames (p.fftShift / p.frame * m))
        p.first2.toNat (p.contNum - 1) (p.first2.toNat + p.settle)
        ((n + j + 1) / (p.fftShift / p.frame))) ∘ Nat.succ) = fun (j : Nat) => specEst f
        (fun m => latest p.fftSize frames (p.fftShift / p.frame * m)) p.first2.toNat (p.contNum - 1)
        (p.first2.toNat + p.settle) ((n + 1 + j + 1) / (p.fftShift / p.frame)) := by
      funext j; rw [Function.comp_apply, Nat.succ_eq_add_one, key]
    rw [e]
    rfl

/-- With a frame longer than the FFT shift the estimator is never executed. -/
theorem dx_never [Zero α] [Zero A] [Zero C] [Zero E] {p : DxParams} (hR : p.fftShift / p.frame = 0)
    (f : DxFuns α A C E) : ∀ (rest : List (List α)) (s : DxSt α A C E),
      (∀ x ∈ rest, x.length = p.frame) → 0 < s.exec → s.updates = 0 → s.est = 0 →
      ∃ s', s.run p f rest = .ok (s', List.replicate rest.length 0) ∧ s'.updates = 0 := by
  intro rest
  induction rest with
  | nil => intro s _ _ h _; exact ⟨s, rfl, h⟩
  | cons x r ih =>
    intro s hl he hu hest
    have hp : s.process p f x = .ok ({ s with buf := s.buf.drop p.frame ++ x, exec := s.exec + 1 },
        s.est) := by
      unfold DxSt.process
      rw [if_neg (by simp [hl x (by simp)])]
      simp only
      rw [if_neg (by rw [hR]; omega)]
    obtain ⟨s2, hq, h2⟩ := ih { s with buf := s.buf.drop p.frame ++ x, exec := s.exec + 1 }
      (fun y hy => hl y (by simp [hy])) (by simp) hu hest
    refine ⟨s2, ?_, h2⟩
    change (s.process p f x >>= fun q => q.1.run p f r >>= fun z => Except.ok (z.1, q.2 :: z.2)) = _
    rw [hp]
    change (DxSt.run p f _ r >>= _) = _
    rw [hq, hest]
    rfl

end
end Danse
