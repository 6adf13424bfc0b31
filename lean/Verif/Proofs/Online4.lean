import Verif.Proofs.Online3
import Verif.Props.Signals

/-!
# Helper lemmas: output of a whole run
-/

set_option linter.unusedSectionVars false

namespace Danse
section
variable {K : Type} [Field K] [StarRing K] [DecidableEq K]

/-- Samples of a local frame. -/
theorem localChunk_at {y : List K} {N : Nat} {e : Int} (h0 : 0 ≤ e) (h1 : e ≤ y.length) :
    ∃ c, localChunk y N e = .ok (c, max (e - N) 0, e) ∧ c.length = N ∧
      ∀ j < N, at0 c j = if (N : Int) ≤ e + j then at0 y (e + j - N).toNat else 0 := by
  obtain ⟨c, h2, h3, p, h4⟩ := localChunk_ok (y := y) (N := N) h0 h1
  refine ⟨c, h2, h3, fun j hj => ?_⟩
  have hpl : p.length = e.toNat := by
    have := congrArg List.length h4
    simp at this
    omega
  have h5 : at0 c j = at0 (List.replicate N (0 : K) ++ y.take e.toNat) (e.toNat + j) := by
    rw [h4]
    unfold at0
    rw [List.getD_eq_getElem?_getD, List.getD_eq_getElem?_getD, List.getElem?_append_right (by omega), hpl]
    congr 2
    omega
  rw [h5]
  unfold at0
  rw [List.getD_eq_getElem?_getD]
  split
  · rw [List.getElem?_append_right (by simp; omega), List.length_replicate,
      List.getElem?_take_of_lt (by omega), List.getD_eq_getElem?_getD]
    congr 2
    omega
  · rw [List.getElem?_append_left (by simp; omega), List.getElem?_replicate]
    split <;> simp

theorem localChunk_real {y c : List K} (hy : IsReal y) {N : Nat} {e b e' : Int}
    (h : localChunk y N e = .ok (c, b, e')) : IsReal c := by
  have hs : IsReal (pySlice y (max (e - N) 0) e) := by
    intro a ha
    unfold pySlice at ha
    exact hy a (List.mem_of_mem_drop (List.mem_of_mem_take ha))
  unfold localChunk at h
  simp only at h
  split at h
  · split at h
    · cases h
    · injection h with h
      injection h with h _
      subst h
      intro a ha
      rcases List.mem_append.mp ha with ha | ha
      · rw [(List.mem_replicate.mp ha).2, star_zero]
      · exact hs a ha
  · injection h with h
    injection h with h _
    subst h
    exact hs

theorem mapM_get {α β : Type} {F : α → Except PyErr β} {l : List α} {r : List β}
    (h : l.mapM F = .ok r) : r.length = l.length ∧
      ∀ (i : Nat) (a : α), l[i]? = some a → ∃ b, r[i]? = some b ∧ F a = .ok b := by
  induction l generalizing r with
  | nil =>
    injection h with h
    subst h
    exact ⟨rfl, by simp⟩
  | cons x l ih =>
    rw [List.mapM_cons] at h
    obtain ⟨b, hb, h⟩ := bind_ok_inv h
    obtain ⟨t, ht, h⟩ := bind_ok_inv h
    injection h with h
    subst h
    obtain ⟨i1, i2⟩ := ih ht
    refine ⟨by simp [i1], fun i a ha => ?_⟩
    cases i with
    | zero => simp only [List.getElem?_cons_zero, Option.some.injEq] at ha; subst ha; exact ⟨b, rfl, hb⟩
    | succ i => simpa using i2 i a (by simpa using ha)

theorem addFrame_at {d fr d' : List K} {N : Nat} {e : Int} (hN : 0 < N) (hf : fr.length = N)
    (h0 : 0 < e) (h1 : e ≤ d.length)
    (h : addFrame d (pySliceBound d.length (max (e - N) 0)) (pySliceBound d.length e) fr = .ok d') :
    d'.length = d.length ∧ ∀ n < d.length, at0 d' n = at0 d n +
      if e - N ≤ n ∧ (n : Int) < e then at0 fr (n - (e - N)).toNat else 0 := by
  have e1 : pySliceBound d.length (max (e - N) 0) = (e - N).toNat := by
    unfold pySliceBound; split <;> omega
  have e2 : pySliceBound d.length e = e.toNat := by
    unfold pySliceBound; split <;> omega
  rw [e1, e2] at h
  unfold addFrame at h
  simp only [show min e.toNat d.length - (e - N).toNat = e.toNat - (e - N).toNat by omega] at h
  rw [if_neg (by omega)] at h
  injection h with h
  subst h
  refine ⟨by simp, fun n hn => ?_⟩
  rw [at0_zipIdx_map hn]
  simp only
  by_cases hc : e - N ≤ n ∧ (n : Int) < e
  · rw [if_pos (by omega), if_pos hc, hf]
    congr 2
    omega
  · rw [if_neg (by omega), if_neg hc, add_zero]

variable {g : GivenCfg K} {y : Nat → List (List K)} {s s' : GivenSt K} {t : ℚ} {k : Nat}

theorem updRange_eq (t : ℚ) (k : Nat) : g.updRange t k =
    (max (frameEnd g.bc g.N g.Ns t (g.fs k) - g.N) 0, frameEnd g.bc g.N g.Ns t (g.fs k)) := by
  unfold GivenCfg.updRange frameEnd
  cases g.bc <;> rfl

theorem chunkForUpdate_eq (x : List K) (t fs : ℚ) :
    chunkForUpdate x t fs g.bc.name g.N g.Ns = localChunk x g.N (frameEnd g.bc g.N g.Ns t fs) := by
  unfold chunkForUpdate frameEnd
  cases g.bc with
  | whole =>
    have e1 : ¬ BcType.whole.name = "fewSamples" := by decide
    have e2 : BcType.whole.name = "wholeChunk" := rfl
    rw [if_neg e1, if_pos e2]
  | few L e =>
    have e1 : (BcType.few L e).name = "fewSamples" := rfl
    rw [if_pos e1]

theorem netStep_up_z {nb : Nat → List Nat} {N Ns : Nat} {a a' : NetSt K}
    (h : netStep nb N Ns a (.up k) = .ok a') : (a'.z k).length = (nb k).length := by
  unfold netStep at h
  obtain ⟨⟨z, fl⟩, hp, h⟩ := bind_ok_inv h
  injection h with h
  subst h
  unfold processBuffers at hp
  simp only at hp
  split at hp
  · injection hp with hp
    injection hp with hp _
    simp [← hp]
  · cases hp

theorem rotate_channel (i ref : Nat) (hr : ∀ κ, g.rot k i ref κ = 1) (Y : List (List K)) :
    (g.rotate k i Y).length = Y.length ∧ (ref < Y.length → (g.rotate k i Y).getD ref [] = Y.getD ref []) := by
  unfold GivenCfg.rotate
  refine ⟨by simp, fun h => ?_⟩
  rw [List.getD_eq_getElem?_getD, List.getD_eq_getElem?_getD, List.getElem?_map, List.getElem?_zipIdx,
    List.getElem?_eq_getElem h]
  simp only [Option.map_some, Option.getD_some, zero_add, hr, mul_one]
  exact List.zipIdx_map_fst 0 _

/-- One update with filters that select the reference sensor. -/
theorem update_gain [CharZero K] (r : DftRoot g.ζ g.N) (he : 2 ∣ g.N) (hc : g.c ≠ 0)
    (hcr : star g.c = g.c) (hh : IsReal g.h) (hhl : g.h.length = g.N) (hfl : g.f.length = g.N)
    (hconv : g.conv = false) {ref : Nat} {x : List K} (hx : (y k)[ref]? = some x) (hxr : IsReal x)
    (hw : g.wInt k (s.net.it k + 1) =
      selector ((y k).length + (g.nb k).length) ref (g.N / 2 + 1))
    (hrot : ∀ κ, g.rot k (s.net.it k) ref κ = 1)
    (h0 : 0 < frameEnd g.bc g.N g.Ns t (g.fs k)) (h1 : frameEnd g.bc g.N g.Ns t (g.fs k) ≤ (s.d k).length)
    (hxl : (s.d k).length ≤ x.length) (h : g.update y s t k = .ok s') :
    (s'.d k).length = (s.d k).length ∧ ∀ n < (s.d k).length, at0 (s'.d k) n = at0 (s.d k) n +
      windowGain g.N g.h g.f n (frameEnd g.bc g.N g.Ns t (g.fs k)) * at0 x n := by
  have hN := r.pos
  unfold GivenCfg.update at h
  obtain ⟨net, hn, h⟩ := bind_ok_inv h
  obtain ⟨loc, hl, h⟩ := bind_ok_inv h
  simp only at h
  rw [updRange_eq] at h
  set e := frameEnd g.bc g.N g.Ns t (g.fs k) with hedef
  split at h
  · cases h
  · obtain ⟨d, hd, h⟩ := bind_ok_inv h
    obtain ⟨dl, _, h⟩ := bind_ok_inv h
    injection h with h
    have hs' : s'.d k = d := by rw [← h]; simp
    rw [hs']
    obtain ⟨l1, l2⟩ := mapM_get hl
    obtain ⟨⟨ch, b, e'⟩, hch, hF⟩ := l2 ref x hx
    rw [chunkForUpdate_eq, ← hedef] at hF
    obtain ⟨ch', hF', hchl, hcat⟩ := localChunk_at (y := x) (N := g.N) (le_of_lt h0) (by omega)
    have hreal := localChunk_real hxr hF
    rw [hF'] at hF
    injection hF with hF
    injection hF with hF _
    subst hF
    unfold GivenCfg.desired at hd
    rw [if_neg (by simp [hconv])] at hd
    obtain ⟨fr, hfr, hd2⟩ := bind_ok_inv hd
    -- the observation and its reference channel
    set Y := loc.map (·.1) ++ net.z k with hY
    have hrefl : ref < (y k).length := (List.getElem?_eq_some_iff.mp hx).1
    have hYl : Y.length = (y k).length + (g.nb k).length := by
      rw [hY, List.length_append, List.length_map, l1, netStep_up_z hn]
    have hYr : Y.getD ref [] = ch' := by
      rw [hY, List.getD_eq_getElem?_getD, List.getElem?_append_left (by simpa [l1] using hrefl),
        List.getElem?_map, hch]
      rfl
    have hrc := rotate_channel (g := g) (k := k) (s.net.it k) ref hrot (Y.map (analysis g.ζ g.N g.c g.h))
    have hcomb : combine (g.N / 2 + 1) (g.wInt k (s.net.it k + 1))
        (g.rotate k (s.net.it k) (Y.map (analysis g.ζ g.N g.c g.h))) =
        combine (g.N / 2 + 1) (selector Y.length ref (g.N / 2 + 1)) (Y.map (analysis g.ζ g.N g.c g.h)) := by
      have hA : (Y.map (analysis g.ζ g.N g.c g.h)).getD ref [] = analysis g.ζ g.N g.c g.h (Y.getD ref []) :=
        getD_map_lt (by omega)
      have q1 := combine_selector (nf := g.N / 2 + 1) (Y := Y.map (analysis g.ζ g.N g.c g.h)) (ref := ref)
        (by rw [hA, analysis_length hN])
      have q2 := combine_selector (nf := g.N / 2 + 1)
        (Y := g.rotate k (s.net.it k) (Y.map (analysis g.ζ g.N g.c g.h))) (ref := ref)
        (by rw [hrc.2 (by simp; omega), hA, analysis_length hN])
      rw [hrc.1, List.length_map] at q2
      rw [List.length_map] at q1
      rw [hw, ← hYl, q2, q1, hrc.2 (by simp; omega)]
    obtain ⟨z, h6, h7⟩ := identity_frame r he hc hcr hh hhl (Y := Y) (ref := ref) (by omega)
      (by rw [hYr]; exact hreal) (by rw [hYr, hchl])
    have hzl : z.length = g.N := by
      have := congrArg List.length h7
      rw [List.length_map, List.length_zipWith, hYr, hchl, hhl] at this
      omega
    have hz : ∀ j < g.N, g.c * at0 z j = at0 ch' j * at0 g.h j := by
      intro j hj
      have := congrArg (fun l => at0 l j) h7
      rw [at0_map (mul_zero g.c), at0_zipWith (by rw [hYr, hchl]; omega) (by omega), hYr] at this
      exact this
    unfold desiredFrame at hfr
    rw [hcomb, h6] at hfr
    injection hfr with hfr
    have hfrl : fr.length = g.N := by rw [← hfr, List.length_zipWith]; omega
    obtain ⟨a1, a2⟩ := addFrame_at hN hfrl h0 h1 hd2
    refine ⟨a1, fun n hn => ?_⟩
    rw [a2 n hn]
    congr 1
    unfold windowGain
    by_cases hc2 : e - g.N ≤ n ∧ (n : Int) < e
    · rw [if_pos hc2, if_pos hc2, ← hfr, at0_zipWith (by omega) (by omega), mul_right_comm,
        hz _ (by omega), hcat _ (by omega), if_pos (by omega)]
      have : (e + ((n - (e - g.N)).toNat : Int) - g.N).toNat = n := by omega
      rw [this]
      unfold at0
      ring
    · rw [if_neg hc2, if_neg hc2, zero_mul]

theorem run_gain [CharZero K] (r : DftRoot g.ζ g.N) (he : 2 ∣ g.N) (hc : g.c ≠ 0)
    (hcr : star g.c = g.c) (hh : IsReal g.h) (hhl : g.h.length = g.N) (hfl : g.f.length = g.N)
    (hconv : g.conv = false) {ref : Nat} {x : List K} (hx : (y k)[ref]? = some x) (hxr : IsReal x)
    (hw : ∀ i, g.wInt k (i + 1) = selector ((y k).length + (g.nb k).length) ref (g.N / 2 + 1))
    (hrot : ∀ i κ, g.rot k i ref κ = 1) (evs : List (ℚ × Nat × EvType)) :
    ∀ (s s' : GivenSt K), (s.d k).length ≤ x.length →
    (∀ e ∈ frameEnds g.bc g.N g.Ns (g.fs k) k evs, 0 < e ∧ e ≤ (s.d k).length) →
    g.run y s evs = .ok s' →
    (s'.d k).length = (s.d k).length ∧ ∀ n < (s.d k).length, at0 (s'.d k) n = at0 (s.d k) n +
      ((frameEnds g.bc g.N g.Ns (g.fs k) k evs).map (windowGain g.N g.h g.f n)).sum * at0 x n := by
  induction evs with
  | nil =>
    intro s s' _ _ h
    injection h with h
    subst h
    exact ⟨rfl, fun n _ => by simp [frameEnds]⟩
  | cons ev evs ih =>
    intro s s' hl hE h
    unfold GivenCfg.run at h
    rw [List.foldlM_cons] at h
    obtain ⟨s1, h1, hrest⟩ := bind_ok_inv h
    obtain ⟨t, q, ty⟩ := ev
    have hother : ¬ (q = k ∧ ty = .up) → s1.d k = s.d k := by
      intro hne
      unfold GivenCfg.step at h1
      cases ty with
      | bc =>
        have := broadcast_frame (A := fun _ => False) (B := fun _ => False) (fun h => h)
          (fun _ h => h.elim) h1
        rw [this.d]
      | up =>
        have hq : k ≠ q := fun e => hne ⟨e.symm, rfl⟩
        exact ((update_frame h1).2.1 k hq).2.2.2.1
      | _ => cases h1
    by_cases hk : q = k ∧ ty = .up
    · obtain ⟨rfl, rfl⟩ := hk
      have hcons : frameEnds g.bc g.N g.Ns (g.fs q) q ((t, q, .up) :: evs) =
          frameEnd g.bc g.N g.Ns t (g.fs q) :: frameEnds g.bc g.N g.Ns (g.fs q) q evs := by
        simp [frameEnds]
      rw [hcons] at hE ⊢
      obtain ⟨e1, e2⟩ := hE _ List.mem_cons_self
      obtain ⟨u1, u2⟩ := update_gain r he hc hcr hh hhl hfl hconv hx hxr (hw _) (hrot _) e1 e2 hl h1
      obtain ⟨v1, v2⟩ := ih s1 s' (by omega)
        (fun e he' => by rw [u1]; exact hE e (List.mem_cons_of_mem _ he')) hrest
      refine ⟨by omega, fun n hn => ?_⟩
      rw [v2 n (by omega), u2 n hn, List.map_cons, List.sum_cons]
      ring
    · have hcons : frameEnds g.bc g.N g.Ns (g.fs k) k ((t, q, ty) :: evs) =
          frameEnds g.bc g.N g.Ns (g.fs k) k evs := by
        simp [frameEnds, hk]
      rw [hcons] at hE ⊢
      have hd := hother hk
      obtain ⟨v1, v2⟩ := ih s1 s' (by rw [hd]; exact hl) (fun e he' => by rw [hd]; exact hE e he') hrest
      rw [hd] at v1 v2
      exact ⟨v1, v2⟩

end
end Danse
