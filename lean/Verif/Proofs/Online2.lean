import Verif.Proofs.Online

/-!
# Helper lemmas for C73: which nodes influence a node
-/

set_option linter.unusedSectionVars false

namespace Danse
section
variable {K : Type} [Field K] [StarRing K] [DecidableEq K]

/-- If both runs end normally, their results are related. -/
def Ok2 {α β : Type} (R : α → β → Prop) (a : Except PyErr α) (b : Except PyErr β) : Prop :=
  ∀ x y, a = .ok x → b = .ok y → R x y

theorem Ok2.ok {α β : Type} {R : α → β → Prop} {x : α} {y : β} (h : R x y) :
    Ok2 R (.ok x) (.ok y) := by
  intro a b ha hb
  injection ha with ha
  injection hb with hb
  subst ha; subst hb
  exact h

theorem Ok2.bind {α β α' β' : Type} {R : α → β → Prop} {Q : α' → β' → Prop}
    {a : Except PyErr α} {b : Except PyErr β} (h : Ok2 R a b)
    {f : α → Except PyErr α'} {f' : β → Except PyErr β'} (hf : ∀ x y, R x y → Ok2 Q (f x) (f' y)) :
    Ok2 Q (a >>= f) (b >>= f') := by
  intro x y hx hy
  obtain ⟨u, hu, hx⟩ := bind_ok_inv hx
  obtain ⟨v, hv, hy⟩ := bind_ok_inv hy
  exact hf u v (h u v hu hv) x y hx hy

theorem Ok2.refl {α : Type} (a : Except PyErr α) : Ok2 (· = ·) a a := by
  intro x y hx hy
  rw [hx] at hy
  injection hy

theorem Ok2.errL {α β : Type} {R : α → β → Prop} {e : PyErr} {b : Except PyErr β} :
    Ok2 R (.error e) b := by intro x y hx; cases hx

theorem slotOf_mem {l : List Nat} {k i : Nat} (h : slotOf l k = .ok i) : k ∈ l := by
  by_contra hk
  unfold slotOf at h
  have : (l.zipIdx.filterMap fun (x, i) => if x = k then some i else none) = [] := by
    rw [List.filterMap_eq_nil_iff]
    rintro ⟨x, j⟩ hx
    have hx' := List.mem_zipIdx hx
    simp only [ite_eq_right_iff, reduceCtorEq, imp_false]
    intro e
    apply hk
    rw [← e, hx'.2.2]
    exact List.getElem_mem _
  rw [this] at h
  cases h

/-- Filling the buffers with the same chunk keeps the buffers of a node equal. -/
theorem fillBuffers_same (nb : Nat → List Nat) (B : Nat → Prop) {a b : Nat → Nat → List K}
    (h : ∀ q, B q → a q = b q) (k : Nat) (c : List K) :
    Ok2 (fun a b : Nat → Nat → List K => ∀ q, B q → a q = b q)
      (fillBuffers nb a k c) (fillBuffers nb b k c) := by
  unfold fillBuffers
  generalize nb k = l
  induction l generalizing a b with
  | nil => exact Ok2.ok h
  | cons q l ih =>
    simp only [List.foldlM_cons]
    refine Ok2.bind (R := fun a b : Nat → Nat → List K => ∀ q, B q → a q = b q) ?_ (fun x y hxy => ih hxy)
    refine Ok2.bind (Ok2.refl _) ?_
    rintro i _ rfl
    refine Ok2.ok ?_
    intro q' hq'
    by_cases e : q' = q
    · subst e; simp [h q' hq']
    · simp [Function.update_of_ne e, h q' hq']

/-- A broadcast of a node that is not a neighbour does not touch the buffers of a node. -/
theorem fillBuffers_other {nb : Nat → List Nat} {a a' : Nat → Nat → List K} {k q : Nat} {c : List K}
    (h : fillBuffers nb a k c = .ok a') (hq : k ∉ nb q) : a' q = a q := by
  unfold fillBuffers at h
  generalize nb k = l at h
  induction l generalizing a with
  | nil => injection h with h; subst h; rfl
  | cons p l ih =>
    rw [List.foldlM_cons] at h
    obtain ⟨b, hb, h⟩ := bind_ok_inv h
    obtain ⟨i, hi, hb⟩ := bind_ok_inv hb
    injection hb with hb
    have hp : p ≠ q := by rintro rfl; exact hq (slotOf_mem hi)
    rw [ih h, ← hb, Function.update_of_ne hp.symm]

/-- Configurations and states of two runs that agree at the nodes of `A` as far as sending is
concerned and at the nodes of `B` as far as receiving and estimating is concerned. -/
structure LocRel (A B : Nat → Prop) (f g : GivenCfg K) (a b : GivenSt K) : Prop where
  cfg : f.fixed g
  wExt : ∀ q, A q → f.wExt q = g.wExt q
  wInt : ∀ q, B q → f.wInt q = g.wInt q
  wLoc : ∀ q, B q → f.wLoc q = g.wLoc q
  rot : ∀ q, B q → f.rot q = g.rot q
  it : a.net.it = b.net.it
  buf : ∀ q, B q → a.net.zBuffer q = b.net.zBuffer q
  z : ∀ q, B q → a.net.z q = b.net.z q
  flags : ∀ q, B q → a.net.flags q = b.net.flags q
  zLocal : ∀ q, A q → a.zLocal q = b.zLocal q
  wIR : ∀ q, A q → a.wIR q = b.wIR q
  lastUp : ∀ q, A q → a.lastUp q = b.lastUp q
  lastBc : ∀ q, A q → a.lastBc q = b.lastBc q
  d : ∀ q, B q → a.d q = b.d q
  dLoc : ∀ q, B q → a.dLoc q = b.dLoc q

/-- Part of the state that other nodes' broadcasts may change. -/
structure BcFrame (A B : Nat → Prop) (a a' : GivenSt K) : Prop where
  it : a'.net.it = a.net.it
  buf : ∀ q, B q → a'.net.zBuffer q = a.net.zBuffer q
  z : a'.net.z = a.net.z
  flags : a'.net.flags = a.net.flags
  zLocal : ∀ q, A q → a'.zLocal q = a.zLocal q
  wIR : ∀ q, A q → a'.wIR q = a.wIR q
  lastUp : ∀ q, A q → a'.lastUp q = a.lastUp q
  lastBc : ∀ q, A q → a'.lastBc q = a.lastBc q
  d : a'.d = a.d
  dLoc : a'.dLoc = a.dLoc

theorem netStep_bc_inv {nb : Nat → List Nat} {N Ns : Nat} {s s' : NetSt K} {k : Nat} {c : List K}
    (h : netStep nb N Ns s (.bc k c) = .ok s') :
    ∃ b, fillBuffers nb s.zBuffer k c = .ok b ∧ s' = { s with zBuffer := b } := by
  unfold netStep at h
  obtain ⟨b, hb, h⟩ := bind_ok_inv h
  injection h with h
  exact ⟨b, hb, h.symm⟩

theorem update_ne_of {α : Type} {A : Nat → Prop} {f : Nat → α} {k : Nat} {v : α} (hk : ¬ A k) :
    ∀ q, A q → Function.update f k v q = f q := by
  intro q hq
  rw [Function.update_of_ne]
  rintro rfl
  exact hk hq

theorem ite_update_ne_of {α : Type} {A : Nat → Prop} {f : Nat → α} {k : Nat} {v : α} {c : Prop}
    [Decidable c] (hk : ¬ A k) : ∀ q, A q → (if c then Function.update f k v else f) q = f q := by
  intro q hq
  split
  · exact update_ne_of hk q hq
  · rfl

theorem broadcast_frame {g : GivenCfg K} {y : Nat → List (List K)} {a a' : GivenSt K} {t : ℚ} {k : Nat}
    {A B : Nat → Prop} (hk : ¬ A k) (hB : ∀ q, B q → ∀ p ∈ g.nb q, A p)
    (h : g.broadcast y a t k = .ok a') : BcFrame A B a a' := by
  have hq : ∀ q, B q → k ∉ g.nb q := fun q hq hm => hk (hB q hq k hm)
  unfold GivenCfg.broadcast at h
  obtain ⟨fr, _, h⟩ := bind_ok_inv h
  split at h
  · cases h
  · split at h
    · obtain ⟨z, _, h⟩ := bind_ok_inv h
      obtain ⟨n, hn, h⟩ := bind_ok_inv h
      injection h with h
      obtain ⟨b, hb, rfl⟩ := netStep_bc_inv hn
      subst h
      exact ⟨rfl, fun q hB => fillBuffers_other hb (hq q hB), rfl, rfl, update_ne_of hk, fun _ _ => rfl,
        fun _ _ => rfl, fun _ _ => rfl, rfl, rfl⟩
    · obtain ⟨l, _, h⟩ := bind_ok_inv h
      obtain ⟨w, _, h⟩ := bind_ok_inv h
      obtain ⟨z, _, h⟩ := bind_ok_inv h
      obtain ⟨n, hn, h⟩ := bind_ok_inv h
      injection h with h
      obtain ⟨b, hb, rfl⟩ := netStep_bc_inv hn
      subst h
      exact ⟨rfl, fun q hB => fillBuffers_other hb (hq q hB), rfl, rfl, update_ne_of hk,
        update_ne_of hk, ite_update_ne_of hk, ite_update_ne_of hk, rfl, rfl⟩

/-- Part of the state that an update of a node changes. -/
theorem update_frame {g : GivenCfg K} {y : Nat → List (List K)} {a a' : GivenSt K} {t : ℚ} {k : Nat}
    (h : g.update y a t k = .ok a') :
    a'.net.it = Function.update a.net.it k (a.net.it k + 1) ∧
    (∀ q, q ≠ k → a'.net.zBuffer q = a.net.zBuffer q ∧ a'.net.z q = a.net.z q ∧
      a'.net.flags q = a.net.flags q ∧ a'.d q = a.d q ∧ a'.dLoc q = a.dLoc q) ∧
    a'.zLocal = a.zLocal ∧ a'.wIR = a.wIR ∧ a'.lastUp = a.lastUp ∧ a'.lastBc = a.lastBc := by
  unfold GivenCfg.update at h
  obtain ⟨n, hn, h⟩ := bind_ok_inv h
  obtain ⟨fr, _, h⟩ := bind_ok_inv h
  split at h
  · cases h
  · obtain ⟨d, _, h⟩ := bind_ok_inv h
    obtain ⟨dl, _, h⟩ := bind_ok_inv h
    injection h with h
    unfold netStep at hn
    obtain ⟨⟨z, fl⟩, _, hn⟩ := bind_ok_inv hn
    injection hn with hn
    subst h
    subst hn
    refine ⟨rfl, fun q hq => ?_, rfl, rfl, rfl, rfl⟩
    simp [Function.update_of_ne hq]

section
variable {A B : Nat → Prop} {f g : GivenCfg K} {a b : GivenSt K} {y y' : Nat → List (List K)}

theorem update_agree_of {α : Type} {A : Nat → Prop} {f g : Nat → α} (h : ∀ q, A q → f q = g q) (k : Nat)
    (v : α) : ∀ q, A q → Function.update f k v q = Function.update g k v q := by
  intro q hq
  by_cases e : q = k
  · subst e; simp
  · simp [Function.update_of_ne e, h q hq]

theorem ite_update_agree_of {α : Type} {A : Nat → Prop} {f g : Nat → α} (h : ∀ q, A q → f q = g q)
    (k : Nat) (v : α) (c : Prop) [Decidable c] :
    ∀ q, A q → (if c then Function.update f k v else f) q = (if c then Function.update g k v else g) q := by
  split
  · exact update_agree_of h k v
  · exact h

theorem netStep_bc_same {nb : Nat → List Nat} {N Ns : Nat} {a b : NetSt K}
    (hit : a.it = b.it) (hbuf : ∀ q, B q → a.zBuffer q = b.zBuffer q) (hz : ∀ q, B q → a.z q = b.z q)
    (hf : ∀ q, B q → a.flags q = b.flags q) (k : Nat) (c : List K) :
    Ok2 (fun a b : NetSt K => a.it = b.it ∧ (∀ q, B q → a.zBuffer q = b.zBuffer q) ∧
        (∀ q, B q → a.z q = b.z q) ∧ ∀ q, B q → a.flags q = b.flags q)
      (netStep nb N Ns a (.bc k c)) (netStep nb N Ns b (.bc k c)) := by
  unfold netStep
  refine Ok2.bind (fillBuffers_same nb B hbuf k c) ?_
  intro x y hxy
  exact Ok2.ok ⟨hit, hxy, hz, hf⟩

theorem netStep_up_same {nb : Nat → List Nat} {N Ns : Nat} {a b : NetSt K}
    (hit : a.it = b.it) (hbuf : ∀ q, B q → a.zBuffer q = b.zBuffer q) (hz : ∀ q, B q → a.z q = b.z q)
    (hf : ∀ q, B q → a.flags q = b.flags q) {k : Nat} (hk : B k) :
    Ok2 (fun a b : NetSt K => a.it = b.it ∧ (∀ q, B q → a.zBuffer q = b.zBuffer q) ∧
        (∀ q, B q → a.z q = b.z q) ∧ ∀ q, B q → a.flags q = b.flags q)
      (netStep nb N Ns a (.up k)) (netStep nb N Ns b (.up k)) := by
  unfold netStep
  have e : processBuffers nb N Ns a k = processBuffers nb N Ns b k := by
    unfold processBuffers
    rw [hit, hbuf k hk, hz k hk]
  simp only [e]
  refine Ok2.bind (Ok2.refl _) ?_
  rintro ⟨z, fl⟩ _ rfl
  refine Ok2.ok ?_
  refine ⟨?_, ?_, ?_, ?_⟩
  · simp only [hit]
  · exact update_agree_of hbuf k _
  · exact update_agree_of hz k _
  · simp only [hf k hk]; exact update_agree_of hf k _

theorem broadcast_same (h : LocRel A B f g a b) (t : ℚ) {k : Nat} (hk : A k) (hy : y k = y' k) :
    Ok2 (LocRel A B f g) (f.broadcast y a t k) (g.broadcast y' b t k) := by
  have hf := h.cfg
  unfold GivenCfg.fixed at hf
  have hnet := netStep_bc_same (nb := g.nb) (N := g.N) (Ns := g.Ns) h.it h.buf h.z h.flags k
  have e : f.broadcast y a t k = g.broadcast y' a t k := by
    unfold GivenCfg.broadcast GivenCfg.bcFilter GivenCfg.currL
    rw [hf]
    simp only [hy, h.wExt k hk]
  rw [e]
  unfold GivenCfg.broadcast
  refine Ok2.bind (Ok2.refl _) ?_
  rintro fr _ rfl
  split
  · exact Ok2.errL
  · split
    · rw [h.it, h.zLocal k hk]
      refine Ok2.bind (Ok2.refl _) ?_
      rintro z _ rfl
      refine Ok2.bind (hnet _) ?_
      rintro n1 n2 ⟨h1, h2, h3, h4⟩
      refine Ok2.ok ?_
      exact ⟨h.cfg, h.wExt, h.wInt, h.wLoc, h.rot, h1, h2, h3, h4, update_agree_of h.zLocal k _, h.wIR,
        h.lastUp, h.lastBc, h.d, h.dLoc⟩
    · rename_i L eff _
      have e1 : g.currL a L eff t k = g.currL b L eff t k := by
        unfold GivenCfg.currL; rw [h.lastBc k hk]
      have e2 : g.bcFilter a (y' k).length t k = g.bcFilter b (y' k).length t k := by
        unfold GivenCfg.bcFilter; rw [h.lastUp k hk, h.wIR k hk, h.it]
      rw [e1, e2]
      refine Ok2.bind (Ok2.refl _) ?_
      rintro l _ rfl
      refine Ok2.bind (Ok2.refl _) ?_
      rintro w _ rfl
      refine Ok2.bind (Ok2.refl _) ?_
      rintro z _ rfl
      refine Ok2.bind (hnet _) ?_
      rintro n1 n2 ⟨h1, h2, h3, h4⟩
      refine Ok2.ok ?_
      refine ⟨h.cfg, h.wExt, h.wInt, h.wLoc, h.rot, h1, h2, h3, h4, update_agree_of h.zLocal k _,
        update_agree_of h.wIR k _, ?_, ite_update_agree_of h.lastBc k _ _, h.d, h.dLoc⟩
      simp only [h.lastUp k hk]
      exact ite_update_agree_of h.lastUp k _ _

theorem update_same (h : LocRel A B f g a b) (t : ℚ) {k : Nat} (hk : B k) (hy : y k = y' k) :
    Ok2 (LocRel A B f g) (f.update y a t k) (g.update y' b t k) := by
  have hf := h.cfg
  unfold GivenCfg.fixed at hf
  have hnet := netStep_up_same (nb := g.nb) (N := g.N) (Ns := g.Ns) h.it h.buf h.z h.flags hk
  have e : f.update y a t k = g.update y' a t k := by
    unfold GivenCfg.update GivenCfg.desired GivenCfg.rotate GivenCfg.updRange
    rw [hf]
    simp only [hy, h.wInt k hk, h.wLoc k hk, h.rot k hk]
  rw [e]
  unfold GivenCfg.update
  refine Ok2.bind hnet ?_
  rintro n1 n2 ⟨h1, h2, h3, h4⟩
  refine Ok2.bind (Ok2.refl _) ?_
  rintro fr _ rfl
  split
  · exact Ok2.errL
  · rw [h.it, h.d k hk, h.dLoc k hk, h3 k hk]
    refine Ok2.bind (Ok2.refl _) ?_
    rintro d _ rfl
    refine Ok2.bind (Ok2.refl _) ?_
    rintro dl _ rfl
    refine Ok2.ok ?_
    exact ⟨h.cfg, h.wExt, h.wInt, h.wLoc, h.rot, h1, h2, h3, h4, h.zLocal, h.wIR, h.lastUp, h.lastBc,
      update_agree_of h.d k _, update_agree_of h.dLoc k _⟩

/-- One event of two runs, with configurations that stay the same. -/
theorem step_local (h : LocRel A B f g a b) (hB : ∀ q, B q → A q) (hN : ∀ q, B q → ∀ p ∈ g.nb q, A p)
    (hy : ∀ q, A q → y q = y' q) (ev : ℚ × Nat × EvType) :
    Ok2 (LocRel A B f g) (f.step y a ev) (g.step y' b ev) := by
  obtain ⟨t, k, ty⟩ := ev
  have hfn : f.nb = g.nb := by rw [h.cfg]
  unfold GivenCfg.step
  cases ty with
  | bc =>
    by_cases hk : A k
    · exact broadcast_same h t hk (hy k hk)
    · intro x z hx hz
      have r1 := broadcast_frame hk (by rw [hfn]; exact hN) hx
      have r2 := broadcast_frame hk hN hz
      exact ⟨h.cfg, h.wExt, h.wInt, h.wLoc, h.rot, by rw [r1.it, r2.it, h.it],
        fun q hq => by rw [r1.buf q hq, r2.buf q hq, h.buf q hq],
        fun q hq => by rw [r1.z, r2.z, h.z q hq], fun q hq => by rw [r1.flags, r2.flags, h.flags q hq],
        fun q hq => by rw [r1.zLocal q hq, r2.zLocal q hq, h.zLocal q hq],
        fun q hq => by rw [r1.wIR q hq, r2.wIR q hq, h.wIR q hq],
        fun q hq => by rw [r1.lastUp q hq, r2.lastUp q hq, h.lastUp q hq],
        fun q hq => by rw [r1.lastBc q hq, r2.lastBc q hq, h.lastBc q hq],
        fun q hq => by rw [r1.d, r2.d, h.d q hq], fun q hq => by rw [r1.dLoc, r2.dLoc, h.dLoc q hq]⟩
  | up =>
    by_cases hk : B k
    · exact update_same h t hk (hy k (hB k hk))
    · intro x z hx hz
      obtain ⟨i1, f1, l1, w1, u1, c1⟩ := update_frame hx
      obtain ⟨i2, f2, l2, w2, u2, c2⟩ := update_frame hz
      have ne : ∀ q, B q → q ≠ k := by rintro q hq rfl; exact hk hq
      exact ⟨h.cfg, h.wExt, h.wInt, h.wLoc, h.rot, by rw [i1, i2, h.it],
        fun q hq => by rw [(f1 q (ne q hq)).1, (f2 q (ne q hq)).1, h.buf q hq],
        fun q hq => by rw [(f1 q (ne q hq)).2.1, (f2 q (ne q hq)).2.1, h.z q hq],
        fun q hq => by rw [(f1 q (ne q hq)).2.2.1, (f2 q (ne q hq)).2.2.1, h.flags q hq],
        fun q hq => by rw [l1, l2, h.zLocal q hq], fun q hq => by rw [w1, w2, h.wIR q hq],
        fun q hq => by rw [u1, u2, h.lastUp q hq], fun q hq => by rw [c1, c2, h.lastBc q hq],
        fun q hq => by rw [(f1 q (ne q hq)).2.2.2.1, (f2 q (ne q hq)).2.2.2.1, h.d q hq],
        fun q hq => by rw [(f1 q (ne q hq)).2.2.2.2, (f2 q (ne q hq)).2.2.2.2, h.dLoc q hq]⟩
  | _ => exact Ok2.errL

theorem run_local (hB : ∀ q, B q → A q) (hN : ∀ q, B q → ∀ p ∈ g.nb q, A p)
    (hy : ∀ q, A q → y q = y' q) (evs : List (ℚ × Nat × EvType)) :
    ∀ {a b : GivenSt K}, LocRel A B f g a b → Ok2 (LocRel A B f g) (f.run y a evs) (g.run y' b evs) := by
  induction evs with
  | nil => intro a b h; exact Ok2.ok h
  | cons ev evs ih =>
    intro a b h
    unfold GivenCfg.run
    simp only [List.foldlM_cons]
    exact (step_local h hB hN hy ev).bind fun x z hxz => ih hxz

end

end
end Danse
