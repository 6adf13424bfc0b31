import Verif.Proofs.Dead
import Verif.Proofs.Buffers

/-!
# Auxiliary facts for C124: a node that broadcasts nothing but zeros
-/

namespace Danse
section
variable {K : Type} [Field K] [StarRing K] [DecidableEq K]

theorem silent_append {x y : List K} (hx : Silent x) (hy : Silent y) : Silent (x ++ y) := fun v hv =>
  (List.mem_append.mp hv).elim (hx v) (hy v)

theorem silent_subset {x y : List K} (hy : Silent y) (h : ∀ v ∈ x, v ∈ y) : Silent x := fun v hv => hy v (h v hv)

theorem silent_nil : Silent ([] : List K) := fun _ h => by cases h

theorem silent_chunkOf {x : List K} (hx : Silent x) (n : Int) : Silent (chunkOf x n) := by
  rw [silent_iff.mp hx, scaled_chunkOf]; exact silent_scaled _

theorem silent_frameOf {x b : List K} (hx : Silent x) (hb : Silent b) (N Ns : Nat) (first : Bool) :
    Silent (frameOf N Ns first x b).1 := by
  rw [silent_iff.mp hx, silent_iff.mp hb, scaled_frameOf]; exact silent_scaled _

theorem silentM {l : List (List K)} (h : ∀ ch ∈ l, Silent ch) : l = scaledM 0 l := by
  unfold scaledM
  conv_lhs => rw [← List.map_id l]
  exact List.map_congr_left fun x hx => silent_iff.mp (h x hx)

theorem silent_map {r : Except PyErr (List K)} {z} (h : r.map (scaled 0) = .ok z) : Silent z := by
  cases r with
  | error _ => cases h
  | ok x => injection h with h; rw [← h]; exact silent_scaled x

theorem silent_fewSamples {L P : Nat} {wIR y : List (List K)} (hy : ∀ ch ∈ y, Silent ch) {z}
    (h : fewSamples L P wIR y = .ok z) : Silent z := by
  rw [silentM hy, scaled_fewSamples] at h
  exact silent_map h

theorem silent_wholeChunk {ζ : K} {N Ns : Nat} {c : K} {h f : List K} {y w : List (List K)} {prev z : List K}
    (hy : ∀ ch ∈ y, Silent ch) (hp : Silent prev) (hz : wholeChunk ζ N Ns c h f y w prev = .ok z) : Silent z := by
  unfold wholeChunk at hz
  obtain ⟨u, h1, h2⟩ := bind_ok_inv hz
  have hu : Silent u := by
    rw [silentM hy, scaled_analysisM, scaled_combine, scaled_backToTD (star_zero K)] at h1
    exact silent_map h1
  have hall : prev.all (fun x => decide (x = 0)) = true := by
    rw [List.all_eq_true]; intro x hx; simpa using hp x hx
  unfold overlapAdd at h2
  rw [if_pos hall] at h2
  injection h2 with h2
  rw [← h2]
  intro v hv
  rw [List.mem_iff_getElem?] at hv
  obtain ⟨i, hi⟩ := hv
  rw [List.getElem?_zipWith, List.getElem?_map] at hi
  cases hx : u[i]? with
  | none => rw [hx] at hi; cases hi
  | some x =>
    rw [hx, hu x (List.mem_of_getElem? hx)] at hi
    cases hf : f[i]? with
    | none => rw [hf] at hi; cases hi
    | some r => rw [hf] at hi; simp at hi; exact hi.symm

/-- What stays true when node `q` records zeros. -/
structure SilInv (q : Nat) (nb : Nat → List Nat) (s : GivenSt K) : Prop where
  own : Silent (s.zLocal q)
  buf : ∀ k idx, (nb k)[idx]? = some q → Silent (s.net.zBuffer k idx)
  z : ∀ k idx, (nb k)[idx]? = some q → Silent ((s.net.z k).getD idx [])

theorem silInv_bc {q : Nat} {nb : Nat → List Nat} (gd : GoodNeighbours nb) {N Ns : Nat} {s : GivenSt K}
    (hs : SilInv q nb s) {k : Nat} {ch : List K} (hc : k = q → Silent ch) {net : NetSt K}
    (h : netStep nb N Ns s.net (.bc k ch) = .ok net) :
    (∀ k idx, (nb k)[idx]? = some q → Silent (net.zBuffer k idx)) ∧
    (∀ k idx, (nb k)[idx]? = some q → Silent ((net.z k).getD idx [])) := by
  unfold netStep at h
  obtain ⟨b, h1, h2⟩ := bind_ok_inv h
  injection h2 with h2
  subst h2
  obtain ⟨b', e1, e2⟩ := fillBuffers_ok gd s.net.zBuffer k ch
  rw [e1] at h1
  injection h1 with h1
  subst h1
  refine ⟨fun k' idx hk => ?_, hs.z⟩
  simp only [e2]
  split_ifs with h3
  · rw [hk] at h3
    injection h3 with h3
    exact silent_append (hs.buf k' idx hk) (hc h3.symm)
  · exact hs.buf k' idx hk

theorem silInv_up {q : Nat} {nb : Nat → List Nat} {N Ns : Nat} {s : GivenSt K} (hs : SilInv q nb s) {k : Nat}
    {net : NetSt K} (h : netStep nb N Ns s.net (.up k) = .ok net) :
    (∀ k idx, (nb k)[idx]? = some q → Silent (net.zBuffer k idx)) ∧
    (∀ k idx, (nb k)[idx]? = some q → Silent ((net.z k).getD idx [])) := by
  unfold netStep at h
  obtain ⟨⟨z, fl⟩, h1, h2⟩ := bind_ok_inv h
  injection h2 with h2
  subst h2
  unfold processBuffers at h1
  simp only at h1
  split_ifs at h1 with h3
  injection h1 with h1
  injection h1 with h1 _
  constructor
  · intro k' idx hk
    by_cases e : k' = k
    · subst e; simp [silent_nil]
    · simp only [Function.update_of_ne e]; exact hs.buf k' idx hk
  · intro k' idx hk
    by_cases e : k' = k
    · subst e
      simp only [Function.update_self]
      rw [← h1, List.getD_eq_getElem?_getD, List.map_map, List.getElem?_map]
      have hlt := (List.getElem?_eq_some_iff.mp hk).1
      rw [List.getElem?_range hlt]
      exact silent_frameOf (hs.z k' idx hk) (hs.buf k' idx hk) _ _ _
    · simp only [Function.update_of_ne e]; exact hs.z k' idx hk

theorem silInv_broadcast {q : Nat} {g : GivenCfg K} (gd : GoodNeighbours g.nb) {y : Nat → List (List K)}
    (hy : ∀ ch ∈ y q, Silent ch) {s r : GivenSt K} (hs : SilInv q g.nb s) {t : ℚ} {k : Nat}
    (h : g.broadcast y s t k = .ok r) : SilInv q g.nb r := by
  unfold GivenCfg.broadcast at h
  obtain ⟨fr, h1, h⟩ := bind_ok_inv h
  have hfr : k = q → ∀ ch ∈ fr.map (·.1), Silent ch := by
    rintro rfl ch hch
    obtain ⟨p, hp, rfl⟩ := List.mem_map.mp hch
    obtain ⟨i, hi⟩ := List.mem_iff_getElem?.mp hp
    obtain ⟨hl, hg⟩ := mapM_get h1
    have hlt : i < (y k).length := by have := (List.getElem?_eq_some_iff.mp hi).1; omega
    obtain ⟨b, hb, hF⟩ := hg i _ (List.getElem?_eq_getElem hlt)
    rw [hi] at hb
    injection hb with hb
    subst hb
    exact silent_localChunk (hy _ (List.getElem_mem hlt)) hF
  by_cases hl : (fr.any fun x => x.1.length < g.N) = true
  · simp only [hl, if_true] at h
    cases h
  · rw [if_neg hl] at h
    cases hb : g.bc with
    | whole =>
      simp only [hb] at h
      obtain ⟨z, hz, h⟩ := bind_ok_inv h
      obtain ⟨net, hn, h⟩ := bind_ok_inv h
      injection h with h
      subst h
      have hsz : k = q → Silent z := by
        rintro rfl
        exact silent_wholeChunk (hfr rfl) hs.own hz
      obtain ⟨e1, e2⟩ := silInv_bc gd hs (fun e => silent_chunkOf (hsz e) _) hn
      refine ⟨?_, e1, e2⟩
      by_cases e : q = k
      · subst e; simpa using hsz rfl
      · simpa [Function.update_of_ne e] using hs.own
    | few L eff =>
      simp only [hb] at h
      obtain ⟨l, _, h⟩ := bind_ok_inv h
      obtain ⟨wIR, _, h⟩ := bind_ok_inv h
      obtain ⟨z, hz, h⟩ := bind_ok_inv h
      obtain ⟨net, hn, h⟩ := bind_ok_inv h
      injection h with h
      subst h
      have hsz : k = q → Silent z := by
        rintro rfl
        exact silent_fewSamples (hfr rfl) hz
      obtain ⟨e1, e2⟩ := silInv_bc gd hs (fun e => silent_chunkOf (hsz e) _) hn
      refine ⟨?_, e1, e2⟩
      by_cases e : q = k
      · subst e; simpa using hsz rfl
      · simpa [Function.update_of_ne e] using hs.own

theorem silInv_update {q : Nat} {g : GivenCfg K} {y : Nat → List (List K)} {s r : GivenSt K} (hs : SilInv q g.nb s)
    {t : ℚ} {k : Nat} (h : g.update y s t k = .ok r) : SilInv q g.nb r := by
  unfold GivenCfg.update at h
  obtain ⟨net, h1, h⟩ := bind_ok_inv h
  obtain ⟨loc, h2, h⟩ := bind_ok_inv h
  by_cases hl : (loc.any fun x => x.1.length ≠ g.N) = true
  · simp only [hl, if_true] at h
    cases h
  · rw [if_neg hl] at h
    obtain ⟨d, h3, h⟩ := bind_ok_inv h
    obtain ⟨dL, h4, h⟩ := bind_ok_inv h
    injection h with h
    subst h
    obtain ⟨e1, e2⟩ := silInv_up hs h1
    exact ⟨hs.own, e1, e2⟩

variable {D : DanseCfg K}

/-- The same for the whole run. -/
structure SilRun (q : Nat) (D : DanseCfg K) (a : DanseSt D) : Prop where
  nb : a.run.cfg.nb = D.g.nb
  inv : SilInv q D.g.nb a.run.st
  hist : ∀ k, ∀ o ∈ a.run.hist k, ∀ idx, (D.g.nb k)[idx]? = some q → Silent (o.z.getD idx [])

theorem danseStep_silent {q : Nat} (gd : GoodNeighbours D.g.nb) {y : Nat → List (List K)} (hy : ∀ ch ∈ y q, Silent ch)
    {a b : DanseSt D} (ha : SilRun q D a) {ev : ℚ × Nat × EvType} (h : danseStep D y a ev = .ok b) : SilRun q D b := by
  obtain ⟨t, k, ty⟩ := ev
  have hinv : SilInv q a.run.cfg.nb a.run.st := by rw [ha.nb]; exact ha.inv
  by_cases hty : ty = .up
  · subst hty
    unfold danseStep at h
    obtain ⟨o, h1, h⟩ := bind_ok_inv h
    obtain ⟨r, h2, h⟩ := bind_ok_inv h
    obtain ⟨s, h3, h⟩ := bind_ok_inv h
    injection h with h
    subst h
    refine ⟨ha.nb, ?_, ?_⟩
    · have := silInv_update (g := (a.run.cfg.record k (a.run.st.net.it k + 1) r.2).setRot k (a.run.st.net.it k)
        (D.rot k r.1.times)) hinv h3
      change SilInv q a.run.cfg.nb s at this
      rw [ha.nb] at this
      exact this
    · intro k' o' ho' idx hidx
      simp only at ho'
      by_cases e : k' = k
      · subst e
        simp only [Function.update_self] at ho'
        rcases List.mem_append.mp ho' with ho' | ho'
        · exact ha.hist k' o' ho' idx hidx
        · rw [List.mem_singleton] at ho'
          subst ho'
          unfold GivenCfg.observe at h1
          obtain ⟨net, h4, h1⟩ := bind_ok_inv h1
          obtain ⟨loc, h5, h1⟩ := bind_ok_inv h1
          injection h1 with h1
          subst h1
          exact (silInv_up hinv h4).2 k' idx (by rw [ha.nb]; exact hidx)
      · simp only [Function.update_of_ne e] at ho'
        exact ha.hist k' o' ho' idx hidx
  · have h' : (a.run.cfg.step y a.run.st (t, k, ty) >>= fun s => .ok { a with run := { a.run with st := s } }) =
        Except.ok b := by
      cases ty with
      | up => exact absurd rfl hty
      | bc => exact h
      | tr => exact h
      | fu => exact h
      | re => exact h
    obtain ⟨s, h1, h2⟩ := bind_ok_inv h'
    injection h2 with h2
    subst h2
    refine ⟨ha.nb, ?_, ha.hist⟩
    cases ty with
    | up => exact absurd rfl hty
    | bc =>
      have := silInv_broadcast (by rw [ha.nb]; exact gd) hy hinv h1
      rw [ha.nb] at this
      exact this
    | tr => cases h1
    | fu => cases h1
    | re => cases h1

theorem danseRun_silent {q : Nat} (gd : GoodNeighbours D.g.nb) {y : Nat → List (List K)} (hy : ∀ ch ∈ y q, Silent ch)
    {T : Nat} {evs : List (ℚ × Nat × EvType)} {a : DanseSt D} (h : danseRun D y T evs = .ok a) : SilRun q D a := by
  have h0 : SilRun q D (.init D T) :=
    ⟨rfl, ⟨silent_nil, fun _ _ _ => silent_nil, fun _ _ _ => silent_nil⟩, fun _ o ho => by cases ho⟩
  unfold danseRun at h
  revert h0 h
  generalize DanseSt.init D T = s0
  induction evs generalizing s0 with
  | nil =>
    intro h h0
    injection h with h
    exact h ▸ h0
  | cons e l ih =>
    intro h h0
    rw [List.foldlM_cons] at h
    obtain ⟨s1, h1, h2⟩ := bind_ok_inv h
    exact ih s1 h2 (danseStep_silent gd hy h0 h1)

end
end Danse
