import Verif.Spec.Battery

/-!
# Lemmas on test batteries
-/

namespace Danse
section
variable {T ρ : Type} [DecidableEq ρ] {c : BatteryCfg} {ref : T → ρ} {yes : T → Bool}

theorem Dir.has_iff (d : Option (Dir T)) (f : String) : Dir.has d f = true ↔ ∃ x, Dir.read d f = some x := by
  unfold Dir.has Dir.read
  induction d.getD [] with
  | nil => simp
  | cons e l ih =>
    rw [List.any_cons, List.lookup_cons]
    by_cases h : f = e.1
    · subst h; simp
    · have h' : (e.1 == f) = false := by simpa using fun h' => h h'.symm
      have h'' : (f == e.1) = false := by simpa using h
      rw [h', h'']
      simpa using ih

theorem lookup_filter {α : Type} (l : List (String × α)) (f g : String) :
    (l.filter (fun e => e.1 ≠ f)).lookup g = if g = f then none else l.lookup g := by
  induction l with
  | nil => simp
  | cons e l ih =>
    rw [List.filter_cons]
    by_cases h : e.1 = f
    · rw [if_neg (by simpa using h), ih]
      by_cases hg : g = f
      · rw [if_pos hg, if_pos hg]
      · rw [if_neg hg, if_neg hg, List.lookup_cons]
        have : (g == e.1) = false := by simpa using fun h' => hg (h'.trans h)
        rw [this]
    · rw [if_pos (by simpa using h), List.lookup_cons, ih, List.lookup_cons]
      by_cases hg : g = f
      · have : (g == e.1) = false := by simpa using fun h' => h (h'.symm.trans hg)
        simp only [this, if_pos hg]
      · simp only [if_neg hg]

theorem read_put (d : Dir T) (f g : String) (x : Option T) :
    Dir.read (some (d.put f x)) g = if g = f then some x else Dir.read (some d) g := by
  unfold Dir.read Dir.put
  simp only [Option.getD_some]
  rw [List.lookup_cons]
  by_cases h : g = f
  · subst h; simp
  · have : (g == f) = false := by simpa using h
    rw [this, lookup_filter, if_neg h, if_neg h]

/-- The name under which an action writes. -/
def FsAct.target : FsAct → Option String
  | .mkdir => none
  | .remove _ => none
  | .create f => some f
  | .finish f => some f

theorem apply_read (t : T) (d : Option (Dir T)) (a : FsAct) (f : String) :
    Dir.read (a.apply t d) f = none ∨ Dir.read (a.apply t d) f = Dir.read d f ∨
      (a = .create f ∧ Dir.read (a.apply t d) f = some none) ∨
      (a = .finish f ∧ Dir.read (a.apply t d) f = some (some t)) := by
  cases a with
  | mkdir => exact .inl rfl
  | remove g =>
    cases d with
    | none => exact .inl rfl
    | some d =>
      have : Dir.read ((FsAct.remove g).apply t (some d)) f = if f = g then none else Dir.read (some d) f := by
        unfold FsAct.apply Dir.read
        exact lookup_filter d g f
      rw [this]
      split
      · exact .inl rfl
      · exact .inr (.inl rfl)
  | create g =>
    cases d with
    | none => exact .inl rfl
    | some d =>
      have : Dir.read ((FsAct.create g).apply t (some d)) f = if f = g then some none else Dir.read (some d) f :=
        read_put d g f none
      rw [this]
      by_cases h : f = g
      · subst h; simp
      · simp [h]
  | finish g =>
    cases d with
    | none => exact .inl rfl
    | some d =>
      have : Dir.read ((FsAct.finish g).apply t (some d)) f =
        if f = g then some (some t) else Dir.read (some d) f := read_put d g f (some t)
      rw [this]
      by_cases h : f = g
      · subst h; simp
      · simp [h]

/-- A file is only ever: absent, incomplete, or complete with the results of the test. -/
theorem fold_own (t : T) (f : String) (acts : List FsAct) {d : Option (Dir T)}
    (h : Dir.read d f = none ∨ Dir.read d f = some none ∨ Dir.read d f = some (some t)) :
    Dir.read (acts.foldl (FsAct.apply t) d) f = none ∨ Dir.read (acts.foldl (FsAct.apply t) d) f = some none ∨
      Dir.read (acts.foldl (FsAct.apply t) d) f = some (some t) := by
  induction acts generalizing d with
  | nil => exact h
  | cons a r ih =>
    rw [List.foldl_cons]
    refine ih ?_
    rcases apply_read t d a f with e | e | ⟨-, e⟩ | ⟨-, e⟩ <;> rw [e]
    · exact .inl rfl
    · exact h
    · exact .inr (.inl rfl)
    · exact .inr (.inr rfl)

/-- Without a `finish` of that file it does not become complete. -/
theorem fold_never (t : T) (f : String) (acts : List FsAct) (ha : ∀ a ∈ acts, a ≠ .finish f) {d : Option (Dir T)}
    (h : Dir.read d f = none ∨ Dir.read d f = some none) :
    Dir.read (acts.foldl (FsAct.apply t) d) f = none ∨ Dir.read (acts.foldl (FsAct.apply t) d) f = some none := by
  induction acts generalizing d with
  | nil => exact h
  | cons a r ih =>
    rw [List.foldl_cons]
    refine ih (fun b hb => ha b (List.mem_cons_of_mem _ hb)) ?_
    rcases apply_read t d a f with e | e | ⟨-, e⟩ | ⟨e', -⟩
    · exact .inl e
    · rw [e]; exact h
    · exact .inr e
    · exact absurd e' (ha a List.mem_cons_self)

theorem fold_some (t : T) (acts : List FsAct) {d : Option (Dir T)} (h : d.isSome = true) :
    (acts.foldl (FsAct.apply t) d).isSome = true := by
  induction acts generalizing d with
  | nil => exact h
  | cons a r ih =>
    rw [List.foldl_cons]
    refine ih ?_
    cases d with
    | none => cases h
    | some d => cases a <;> rfl

theorem fold_writes (t : T) (f : String) (fs : List String) (hf : f ∉ fs) (d : Option (Dir T)) :
    Dir.read ((fs.flatMap writeFile).foldl (FsAct.apply t) d) f = Dir.read d f := by
  induction fs generalizing d with
  | nil => rfl
  | cons g r ih =>
    rw [List.flatMap_cons, List.foldl_append, ih (fun h => hf (List.mem_cons_of_mem _ h))]
    have hg : f ≠ g := fun h => hf (h ▸ List.mem_cons_self)
    cases d with
    | none => rfl
    | some d =>
      change Dir.read (some ((d.put g none).put g (some t))) f = _
      rw [read_put, if_neg hg, read_put, if_neg hg]

theorem exports_full (hf : c.metricsFile = true) (hp : c.metricsPlot = true) (ha : "metrics.pkl" ∉ c.after)
    (t : T) {d : Option (Dir T)} (hd : d.isSome = true) :
    c.exports.2 = false ∧ Dir.read (c.exports.1.foldl (FsAct.apply t) d) "metrics.pkl" = some (some t) := by
  unfold BatteryCfg.exports
  simp only [hf, hp, if_true]
  refine ⟨trivial, ?_⟩
  rw [List.foldl_append, List.foldl_append, fold_writes t _ _ ha]
  have := fold_some t (c.before.flatMap writeFile) hd
  generalize (c.before.flatMap writeFile).foldl (FsAct.apply t) d = e at this
  cases e with
  | none => cases this
  | some e =>
    change Dir.read (some ((e.put "metrics.pkl" none).put "metrics.pkl" (some t))) _ = _
    rw [read_put, if_pos rfl]

theorem launch_full (hf : c.metricsFile = true) (hp : c.metricsPlot = true) (ha : "metrics.pkl" ∉ c.after)
    (t : T) (d : Option (Dir T)) {y : Bool} (hy : y = true ∨ c.overwrite = true) :
    (c.launch d y).2 = false ∧
      Dir.read ((c.launch d y).1.foldl (FsAct.apply t) d) "metrics.pkl" = some (some t) := by
  unfold BatteryCfg.launch
  cases d with
  | none =>
    obtain ⟨h1, h2⟩ := exports_full hf hp ha t (d := some []) rfl
    exact ⟨h1, h2⟩
  | some es =>
    simp only
    by_cases ho : (c.overwrite || es.isEmpty) = true
    · rw [if_pos ho]
      exact exports_full hf hp ha t rfl
    · rw [if_neg ho]
      have hyt : y = true := by
        rcases hy with h | h
        · exact h
        · rw [h] at ho; simp at ho
      rw [if_pos hyt]
      rw [List.foldl_append]
      exact exports_full hf hp ha t (fold_some t _ rfl)

theorem launch_raises (hp : c.metricsPlot = true) (d : Option (Dir T)) (y : Bool) : (c.launch d y).2 = false := by
  have : c.exports.2 = false := by
    unfold BatteryCfg.exports
    simp only [hp, if_true]
    split <;> rfl
  unfold BatteryCfg.launch
  cases d with
  | none => exact this
  | some es => simp only; split_ifs <;> first | exact this | rfl

/-- Folders of other tests are left alone. -/
theorem batteryRun_other {q : ρ} (tests : List T) (hq : ∀ t ∈ tests, ref t ≠ q) (p : Nat) (fs : ρ → Option (Dir T)) :
    (batteryRun c ref yes tests p fs).1 q = fs q := by
  induction tests generalizing p fs with
  | nil => rfl
  | cons t r ih =>
    unfold batteryRun
    have ih := fun p fs => ih (fun t h => hq t (List.mem_cons_of_mem _ h)) p fs
    have ht := hq t List.mem_cons_self
    simp only
    split_ifs
    · exact ih p fs
    · exact Function.update_of_ne ht.symm _ _
    · rw [ih]
      exact Function.update_of_ne ht.symm _ _

/-- A folder with `metrics.pkl` is left alone. -/
theorem batteryRun_kept (hs : c.skip = true) {q : ρ} (tests : List T) (p : Nat) (fs : ρ → Option (Dir T))
    (hq : Dir.has (fs q) "metrics.pkl" = true) :
    (batteryRun c ref yes tests p fs).1 q = fs q ∧
      ∀ t ∈ (batteryRun c ref yes tests p fs).2.1, ref t ≠ q := by
  induction tests generalizing p fs with
  | nil => exact ⟨rfl, fun t h => by cases h⟩
  | cons t r ih =>
    unfold batteryRun
    by_cases hc : (c.skip && Dir.has (fs (ref t)) "metrics.pkl") = true
    · rw [if_pos hc]
      exact ih p fs hq
    · rw [if_neg hc]
      have ht : ref t ≠ q := by
        intro h
        rw [h, hs, hq] at hc
        exact hc rfl
      have hu : ∀ x, Function.update fs (ref t) x q = fs q := fun x => Function.update_of_ne ht.symm _ _
      simp only
      split_ifs
      · exact ⟨hu _, fun t' h => by rw [List.mem_singleton] at h; rw [h]; exact ht⟩
      · obtain ⟨h1, h2⟩ := ih _ (Function.update fs (ref t) _) ((congrArg (fun d => Dir.has d "metrics.pkl") (hu _)).trans hq)
        refine ⟨h1.trans (hu _), fun t' h => ?_⟩
        rcases List.mem_cons.1 h with rfl | h
        · exact ht
        · exact h2 t' h

theorem batteryRuns_kept (hs : c.skip = true) {q : ρ} (tests : List T) (h : List (Nat × (T → Bool)))
    (fs : ρ → Option (Dir T)) (hq : Dir.has (fs q) "metrics.pkl" = true) :
    (batteryRuns c ref tests h fs).1 q = fs q ∧ ∀ t ∈ (batteryRuns c ref tests h fs).2, ref t ≠ q := by
  induction h generalizing fs with
  | nil => exact ⟨rfl, fun t h => by cases h⟩
  | cons r h ih =>
    unfold batteryRuns
    obtain ⟨h1, h2⟩ := batteryRun_kept (yes := r.2) (ref := ref) hs tests r.1 fs hq
    obtain ⟨h3, h4⟩ := ih (batteryRun c ref r.2 tests r.1 fs).1 (by rw [h1]; exact hq)
    refine ⟨h3.trans h1, fun t ht => ?_⟩
    rcases List.mem_append.1 ht with h | h
    · exact h2 t h
    · exact h4 t h

/-- What a run can do to the folder of a test `t`: nothing, or a beginning of one launch of some test of
the same name. -/
theorem batteryRun_inv {P : Option (Dir T) → Prop} {q : ρ} (tests : List T)
    (hstep : ∀ t ∈ tests, ref t = q → ∀ d y p, P d →
      P (((c.launch d y).1.take p).foldl (FsAct.apply t) d)) (p : Nat) (fs : ρ → Option (Dir T)) (h : P (fs q)) :
    P ((batteryRun c ref yes tests p fs).1 q) := by
  induction tests generalizing p fs with
  | nil => exact h
  | cons t r ih =>
    unfold batteryRun
    have ih := fun p fs => ih (fun t h => hstep t (List.mem_cons_of_mem _ h)) p fs
    have key : P (Function.update fs (ref t)
        (((c.launch (fs (ref t)) (yes t)).1.take p).foldl (FsAct.apply t) (fs (ref t))) q) := by
      by_cases hq : ref t = q
      · rw [← hq, Function.update_self]
        exact hstep t List.mem_cons_self hq _ _ _ (hq ▸ h)
      · rw [Function.update_of_ne (fun e => hq e.symm)]
        exact h
    simp only
    split_ifs
    · exact ih p fs h
    · exact key
    · exact ih _ _ key

theorem batteryRuns_inv {P : Option (Dir T) → Prop} {q : ρ} (tests : List T)
    (hstep : ∀ t ∈ tests, ref t = q → ∀ d y p, P d →
      P (((c.launch d y).1.take p).foldl (FsAct.apply t) d)) (h : List (Nat × (T → Bool)))
    (fs : ρ → Option (Dir T)) (h0 : P (fs q)) : P ((batteryRuns c ref tests h fs).1 q) := by
  induction h generalizing fs with
  | nil => exact h0
  | cons r h ih => exact ih _ (batteryRun_inv tests hstep _ _ h0)

/-- A run that comes to its end. -/
theorem batteryRun_finished (hs : c.skip = true) (hf : c.metricsFile = true) (hp : c.metricsPlot = true)
    (ha : "metrics.pkl" ∉ c.after) (tests : List T) (hy : ∀ t ∈ tests, yes t = true ∨ c.overwrite = true) (p : Nat)
    (fs : ρ → Option (Dir T)) (h : (batteryRun c ref yes tests p fs).2.2 = true) :
    ∀ t ∈ tests, (Dir.has (fs (ref t)) "metrics.pkl" = true ∧
        (batteryRun c ref yes tests p fs).1 (ref t) = fs (ref t)) ∨
      ∃ t' ∈ tests, ref t' = ref t ∧
        Dir.read ((batteryRun c ref yes tests p fs).1 (ref t)) "metrics.pkl" = some (some t') := by
  induction tests generalizing p fs with
  | nil => intro t h; cases h
  | cons t r ih =>
    have ih := fun p fs => ih (fun t h => hy t (List.mem_cons_of_mem _ h)) p fs
    unfold batteryRun at h ⊢
    by_cases hc : (c.skip && Dir.has (fs (ref t)) "metrics.pkl") = true
    · rw [if_pos hc] at h ⊢
      intro t' ht'
      rcases List.mem_cons.1 ht' with rfl | ht'
      · have hh : Dir.has (fs (ref t')) "metrics.pkl" = true := by rw [hs] at hc; exact hc
        exact .inl ⟨hh, (batteryRun_kept hs r p fs hh).1⟩
      · rcases ih p fs h t' ht' with h | ⟨s, h1, h2⟩
        · exact .inl h
        · exact .inr ⟨s, List.mem_cons_of_mem _ h1, h2⟩
    · rw [if_neg hc] at h ⊢
      simp only at h ⊢
      by_cases hl : p < (c.launch (fs (ref t)) (yes t)).1.length ∨ (c.launch (fs (ref t)) (yes t)).2 = true
      · rw [if_pos hl] at h; cases h
      · rw [if_neg hl] at h ⊢
        simp only at h ⊢
        have hle : (c.launch (fs (ref t)) (yes t)).1.length ≤ p := by
          by_contra hn
          exact hl (.inl (by omega))
        rw [List.take_of_length_le hle] at h ⊢
        obtain ⟨-, hfull⟩ := launch_full hf hp ha t (fs (ref t)) (hy t List.mem_cons_self)
        generalize hfs : Function.update fs (ref t)
          (((c.launch (fs (ref t)) (yes t)).1).foldl (FsAct.apply t) (fs (ref t))) = fs' at h ⊢
        have hself : Dir.read (fs' (ref t)) "metrics.pkl" = some (some t) := by
          rw [← hfs, Function.update_self]; exact hfull
        have hkept := (batteryRun_kept (ref := ref) (yes := yes) hs r (p - (c.launch (fs (ref t)) (yes t)).1.length) fs'
          ((Dir.has_iff _ _).2 ⟨_, hself⟩)).1
        intro t' ht'
        by_cases heq : ref t' = ref t
        · refine .inr ⟨t, List.mem_cons_self, heq.symm, ?_⟩
          rw [heq, hkept]
          exact hself
        · rcases List.mem_cons.1 ht' with rfl | ht'
          · exact absurd rfl heq
          · rcases ih _ fs' h t' ht' with ⟨h1, h2⟩ | ⟨s, h1, h2⟩
            · have : fs' (ref t') = fs (ref t') := by rw [← hfs]; exact Function.update_of_ne heq _ _
              rw [this] at h1
              exact .inl ⟨h1, h2.trans this⟩
            · exact .inr ⟨s, List.mem_cons_of_mem _ h1, h2⟩

theorem batteryRun_ends (hp : c.metricsPlot = true) (tests : List T) (fs : ρ → Option (Dir T)) :
    ∃ p0, ∀ p ≥ p0, (batteryRun c ref yes tests p fs).2.2 = true := by
  induction tests generalizing fs with
  | nil => exact ⟨0, fun _ _ => rfl⟩
  | cons t r ih =>
    by_cases hc : (c.skip && Dir.has (fs (ref t)) "metrics.pkl") = true
    · obtain ⟨p0, h⟩ := ih fs
      refine ⟨p0, fun p hp => ?_⟩
      unfold batteryRun
      rw [if_pos hc]
      exact h p hp
    · obtain ⟨p0, h⟩ := ih (Function.update fs (ref t)
        (((c.launch (fs (ref t)) (yes t)).1).foldl (FsAct.apply t) (fs (ref t))))
      refine ⟨p0 + (c.launch (fs (ref t)) (yes t)).1.length, fun p hpp => ?_⟩
      unfold batteryRun
      rw [if_neg hc]
      simp only
      rw [if_neg (by rw [launch_raises hp]; simp; omega)]
      simp only
      rw [List.take_of_length_le (by omega)]
      exact h _ (by omega)

end
end Danse
