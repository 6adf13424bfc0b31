import Verif.Proofs.Config
import Mathlib.Algebra.Order.Ring.Abs
import Mathlib.Tactic.Linarith
import Mathlib.Tactic.Positivity

/-!
# Lemmas on comparison of parameter objects, and on saving and loading
-/

namespace Danse

theorem zipWith_all_isclose (w v : List ℚ) :
    (List.zipWith isclose w v).all id = true ↔
      ∀ (i : Nat) x y, w[i]? = some x → v[i]? = some y →
        |x - y| ≤ 1 / 10 ^ 8 + 1 / 10 ^ 5 * |y| := by
  rw [List.all_eq_true]
  constructor
  · intro h i x y hx hy
    have := h (isclose x y) (by
      apply List.mem_of_getElem? (i := i)
      rw [List.getElem?_zipWith, hx, hy])
    simpa [isclose] using this
  · intro h b hb
    obtain ⟨i, hi⟩ := List.mem_iff_getElem?.1 hb
    rw [List.getElem?_zipWith] at hi
    cases hx : w[i]? with
    | none => rw [hx] at hi; simp at hi
    | some x =>
      cases hy : v[i]? with
      | none => rw [hx, hy] at hi; simp at hi
      | some y =>
        rw [hx, hy] at hi
        injection hi with hi
        rw [← hi]
        simpa [isclose] using h i x y hx hy

theorem leafEqual_true_iff (mixed : Leaf → NumArr → Except PyErr Bool) (v w : Leaf) :
    leafEqual mixed v w = .ok true ↔ LeafAgrees mixed v w := by
  cases v <;> cases w <;> simp only [leafEqual, LeafAgrees]
  case arr.arr v w =>
    rw [← zipWith_all_isclose]
    by_cases hs : w.shape = v.shape
    · rw [if_neg (by simpa using hs)]
      simp [hs]
    · rw [if_pos (by simpa using hs)]
      simp only [Except.ok.injEq, Bool.false_eq_true, false_iff, not_and]
      intro h
      exact absurd h.symm hs
  all_goals
    simp only [Except.ok.injEq, beq_iff_eq, reduceCtorEq]
    try exact eq_comm

theorem dcEqual_sound {mixed : Leaf → NumArr → Except PyErr Bool} {a b : Attrs}
    (h : dcEqual mixed a b = .ok true) (k : String) :
    (match a.find k with
      | none => True
      | some (.leaf v) => ∃ w, b.find k = some (.leaf w) ∧ LeafAgrees mixed v w
      | some (.node _ s) => ∃ d' s', b.find k = some (.node d' s') ∧
          dcEqual mixed s s' = .ok true) := by
  induction a with
  | nil => trivial
  | leaf k0 v r ih =>
    simp only [dcEqual] at h
    cases hb : b.find k0 with
    | none => rw [hb] at h; cases h
    | some x =>
      rw [hb] at h
      cases x with
      | node d s => simp at h
      | leaf w =>
        simp only at h
        cases hl : leafEqual mixed v w with
        | error e => rw [hl] at h; cases h
        | ok c =>
          rw [hl] at h
          cases c with
          | false => simp at h
          | true =>
            simp only [Attrs.find]
            by_cases hk : k0 = k
            · simp only [if_pos hk]
              exact ⟨w, hk ▸ hb, (leafEqual_true_iff mixed v w).1 hl⟩
            · simp only [if_neg hk]
              exact ih h
  | node k0 d s r _ ih =>
    simp only [dcEqual] at h
    cases hb : b.find k0 with
    | none => rw [hb] at h; cases h
    | some x =>
      rw [hb] at h
      cases x with
      | leaf w => cases h
      | node d' s' =>
        simp only at h
        cases hl : dcEqual mixed s s' with
        | error e => rw [hl] at h; cases h
        | ok c =>
          rw [hl] at h
          cases c with
          | false => simp at h
          | true =>
            simp only [Attrs.find]
            by_cases hk : k0 = k
            · simp only [if_pos hk]
              exact ⟨d', s', hk ▸ hb, hl⟩
            · simp only [if_neg hk]
              exact ih h

theorem agreesWith_tail {mixed : Leaf → NumArr → Except PyErr Bool} {a r b : Attrs}
    (hsub : ∀ k x, r.find k = some x → a.find k = some x) (h : AgreesWith mixed a b) :
    AgreesWith mixed r b := by
  have key : ∀ p, p ≠ [] → ∀ x, r.get p = some x → a.get p = some x := by
    intro p hp x hx
    cases p with
    | nil => exact absurd rfl hp
    | cons k p =>
      rw [Attrs.get_cons] at hx ⊢
      cases hr : r.find k with
      | none => rw [hr] at hx; cases hx
      | some z => rw [hr] at hx; rw [hsub k z hr]; exact hx
  refine ⟨?_, ?_⟩
  · intro p v hv
    cases p with
    | nil => cases hv
    | cons k p => exact h.1 _ v (key _ (by simp) _ hv)
  · intro p d s hs
    cases p with
    | nil => exact ⟨[], b, rfl⟩
    | cons k p => exact h.2 _ d s (key _ (by simp) _ hs)

theorem dcEqual_complete {mixed : Leaf → NumArr → Except PyErr Bool} {a b : Attrs} (hu : a.Uniq)
    (h : AgreesWith mixed a b) : dcEqual mixed a b = .ok true := by
  induction a generalizing b with
  | nil => rfl
  | leaf k0 v r ih =>
    obtain ⟨w, hw, hl⟩ := h.1 [k0] v (by simp [Attrs.get_cons, Attrs.find, AVal.at])
    rw [Attrs.get_cons] at hw
    have htail : AgreesWith mixed r b := by
      refine agreesWith_tail (a := .leaf k0 v r) ?_ h
      intro k x hx
      simp only [Attrs.find]
      rw [if_neg, hx]
      rintro rfl
      rw [hu.1] at hx; cases hx
    cases hb : b.find k0 with
    | none => rw [hb] at hw; cases hw
    | some x =>
      rw [hb] at hw
      injection hw with hw
      subst hw
      simp only [dcEqual, hb, (leafEqual_true_iff mixed v w).2 hl]
      exact ih hu.2 htail
  | node k0 d s r ihs ih =>
    obtain ⟨d', s', hw⟩ := h.2 [k0] d s (by simp [Attrs.get_cons, Attrs.find, AVal.at])
    rw [Attrs.get_cons] at hw
    have htail : AgreesWith mixed r b := by
      refine agreesWith_tail (a := .node k0 d s r) ?_ h
      intro k x hx
      simp only [Attrs.find]
      rw [if_neg, hx]
      rintro rfl
      rw [hu.1] at hx; cases hx
    cases hb : b.find k0 with
    | none => rw [hb] at hw; cases hw
    | some x =>
      rw [hb] at hw
      injection hw with hw
      subst hw
      have hsub : dcEqual mixed s s' = .ok true := by
        apply ihs hu.2.1
        refine ⟨?_, ?_⟩
        · intro p v hv
          cases p with
          | nil => cases hv
          | cons k p =>
            have := h.1 (k0 :: k :: p) v (by
              rw [Attrs.get_cons]; simp only [Attrs.find, if_true]; exact hv)
            rw [Attrs.get_cons, hb] at this
            exact this
        · intro p d0 s0 hv
          cases p with
          | nil => exact ⟨[], s', rfl⟩
          | cons k p =>
            have := h.2 (k0 :: k :: p) d0 s0 (by
              rw [Attrs.get_cons]; simp only [Attrs.find, if_true]; exact hv)
            rw [Attrs.get_cons, hb] at this
            exact this
      simp only [dcEqual, hb, hsub]
      exact ih hu.2.2 htail

theorem dcEqual_agrees {mixed : Leaf → NumArr → Except PyErr Bool} {a b : Attrs}
    (h : dcEqual mixed a b = .ok true) : AgreesWith mixed a b := by
  have key : ∀ p, ∀ a b, dcEqual mixed a b = .ok true →
      (∀ v, a.get p = some (.leaf v) → ∃ w, b.get p = some (.leaf w) ∧ LeafAgrees mixed v w) ∧
      (∀ d s, a.get p = some (.node d s) → ∃ d' s', b.get p = some (.node d' s')) := by
    intro p
    induction p with
    | nil =>
      intro a b _
      exact ⟨fun v hv => (by cases hv), fun d s _ => ⟨[], b, rfl⟩⟩
    | cons k p ih =>
      intro a b h
      have hk := dcEqual_sound h k
      rw [Attrs.get_cons, Attrs.get_cons]
      cases ha : a.find k with
      | none => exact ⟨fun v hv => (by cases hv), fun d s hv => (by cases hv)⟩
      | some x =>
        rw [ha] at hk
        cases x with
        | leaf v0 =>
          obtain ⟨w, hb, hl⟩ := hk
          rw [hb]
          cases p with
          | nil =>
            refine ⟨fun v hv => ?_, fun d s hv => (by cases hv)⟩
            injection hv with hv
            injection hv with hv
            subst hv
            exact ⟨w, rfl, hl⟩
          | cons k' p => exact ⟨fun v hv => (by cases hv), fun d s hv => (by cases hv)⟩
        | node d0 s0 =>
          obtain ⟨d', s', hb, hs⟩ := hk
          rw [hb]
          cases p with
          | nil => exact ⟨fun v hv => (by cases hv), fun d s _ => ⟨d', s', rfl⟩⟩
          | cons k' p => exact ih s0 s' hs
  exact ⟨fun p => (key p a b h).1, fun p => (key p a b h).2⟩

theorem leafAgrees_refl (mixed : Leaf → NumArr → Except PyErr Bool) (v : Leaf) :
    LeafAgrees mixed v v := by
  cases v with
  | arr a =>
    refine ⟨rfl, ?_⟩
    intro i x y hx hy
    rw [hx] at hy
    injection hy with hy
    subst hy
    simp only [sub_self, abs_zero]
    positivity
  | _ => rfl

/-! ## save/load -/

theorem str_append_right_cancel {a b s : String} (h : a ++ s = b ++ s) : a = b := by
  have := congrArg String.toList h
  rw [String.toList_append, String.toList_append] at this
  exact String.toList_inj.1 (List.append_cancel_right this)

theorem str_suffix_ne {a b s t : String} (hs : s.toList.getLast? ≠ t.toList.getLast?)
    (h1 : s.toList ≠ []) (h2 : t.toList ≠ []) : a ++ s ≠ b ++ t := by
  intro h
  have := congrArg (fun x => x.toList.getLast?) h
  simp only [String.toList_append] at this
  rw [List.getLast?_append_of_ne_nil _ h1, List.getLast?_append_of_ne_nil _ h2] at this
  exact hs this

theorem pkl_ne_txt (a b : String) : a ++ ".pkl.gz" ≠ b ++ "_text.txt" :=
  str_suffix_ne (by decide) (by decide) (by decide)

theorem json_ne_pkl (a b : String) : a ++ ".json" ≠ b ++ ".pkl.gz" :=
  str_suffix_ne (by decide) (by decide) (by decide)

theorem json_ne_txt (a b : String) : a ++ ".json" ≠ b ++ "_text.txt" :=
  str_suffix_ne (by decide) (by decide) (by decide)

/-- What the folder `f` holds for class `c`. -/
def stored {O : Type} (fs : FS O) (f name : String) : Option (FileContent O) :=
  (fs f).bind fun d => d name

theorem stored_ensure {O : Type} (fs : FS O) (folder f name : String) :
    stored (fs.ensure folder) f name = stored fs f name := by
  unfold stored FS.ensure
  by_cases h : f = folder
  · subst h
    simp only [if_true]
    cases fs f <;> rfl
  · simp [h]

theorem stored_write {O : Type} (fs : FS O) (folder f n name : String) (c : FileContent O) :
    stored (fs.write folder n c) f name =
      if f = folder ∧ name = n then some c else stored fs f name := by
  unfold stored FS.write
  by_cases h : f = folder
  · subst h
    simp only [if_true, true_and, Option.bind_some]
    by_cases h2 : name = n
    · simp [h2]
    · simp only [if_neg h2]
      cases fs f <;> rfl
  · simp [h]

theorem folder_ensure {O : Type} (fs : FS O) (folder f : String) :
    (fs.ensure folder f).isSome = (decide (f = folder) || (fs f).isSome) := by
  unfold FS.ensure
  by_cases h : f = folder
  · subst h; simp; cases fs f <;> rfl
  · simp [h]

theorem folder_write {O : Type} (fs : FS O) (folder f n : String) (c : FileContent O) :
    (fs.write folder n c f).isSome = (decide (f = folder) || (fs f).isSome) := by
  unfold FS.write
  by_cases h : f = folder
  · subst h; simp
  · simp [h]

theorem stored_save {O : Type} (cls txt : O → String) (fs : FS O) (o : O) (folder ty f c : String) :
    stored (saveDc cls txt fs o folder ty).1 f (c ++ ".pkl.gz") =
      (if cls o = c ∧ folder = f ∧ ty = "pkl" then some (.pickle o)
        else stored fs f (c ++ ".pkl.gz")) ∧
    stored (saveDc cls txt fs o folder ty).1 f (c ++ ".json") = stored fs f (c ++ ".json") := by
  unfold saveDc
  by_cases hj : ty = "json"
  · subst hj
    simp [stored_ensure]
  · simp only [if_neg hj]
    have e1 : ∀ fs' : FS O, stored (fs'.write folder (cls o ++ "_text.txt") (.text (txt o))) f
        (c ++ ".pkl.gz") = stored fs' f (c ++ ".pkl.gz") := by
      intro fs'
      rw [stored_write, if_neg]
      rintro ⟨_, h⟩
      exact pkl_ne_txt _ _ h
    have e2 : ∀ fs' : FS O, stored (fs'.write folder (cls o ++ "_text.txt") (.text (txt o))) f
        (c ++ ".json") = stored fs' f (c ++ ".json") := by
      intro fs'
      rw [stored_write, if_neg]
      rintro ⟨_, h⟩
      exact json_ne_txt _ _ h
    rw [e1, e2]
    by_cases hp : ty = "pkl"
    · subst hp
      rw [if_pos rfl, stored_write, stored_write, stored_ensure, stored_ensure]
      refine ⟨?_, ?_⟩
      · by_cases hc : cls o = c ∧ folder = f
        · rw [if_pos ⟨hc.2.symm, by rw [hc.1]⟩, if_pos ⟨hc.1, hc.2, rfl⟩]
        · rw [if_neg (fun h => hc ⟨h.1, h.2.1⟩ : ¬ (cls o = c ∧ folder = f ∧ "pkl" = "pkl")),
            if_neg]
          rintro ⟨h1, h2⟩
          exact hc ⟨(str_append_right_cancel h2).symm, h1.symm⟩
      · rw [if_neg]
        rintro ⟨_, h⟩
        exact json_ne_pkl _ _ h
    · simp [hp, stored_ensure]

theorem folder_save {O : Type} (cls txt : O → String) (fs : FS O) (o : O) (folder ty f : String) :
    ((saveDc cls txt fs o folder ty).1 f).isSome = (decide (f = folder) || (fs f).isSome) := by
  unfold saveDc
  by_cases hj : ty = "json"
  · subst hj
    simp [folder_ensure]
  · simp only [if_neg hj]
    rw [folder_write]
    by_cases hp : ty = "pkl"
    · simp only [if_pos hp]
      rw [folder_write, folder_ensure]
      cases decide (f = folder) <;> simp
    · simp only [if_neg hp]
      rw [folder_ensure]
      cases decide (f = folder) <;> simp

theorem saveAll_append {O : Type} (cls txt : O → String) (fs : FS O)
    (h : List (O × String × String)) (x : O × String × String) :
    saveAll cls txt fs (h ++ [x]) = (saveDc cls txt (saveAll cls txt fs h) x.1 x.2.1 x.2.2).1 := by
  simp [saveAll, List.foldl_append]

theorem lastSaved_append {O : Type} (cls : O → String) (c f : String)
    (h : List (O × String × String)) (x : O × String × String) :
    lastSaved cls c f (h ++ [x]) =
      if cls x.1 = c ∧ x.2.1 = f ∧ x.2.2 = "pkl" then some x.1 else lastSaved cls c f h := by
  unfold lastSaved
  rw [List.filter_append]
  by_cases hc : cls x.1 = c ∧ x.2.1 = f ∧ x.2.2 = "pkl"
  · simp [hc]
  · rw [if_neg hc]
    have : List.filter (fun h => decide (cls h.1 = c ∧ h.2.1 = f ∧ h.2.2 = "pkl")) [x] = [] := by
      simp only [List.filter_cons, List.filter_nil, decide_eq_true_eq, if_neg hc]
    rw [this, List.append_nil]

theorem stored_saveAll {O : Type} (cls txt : O → String) (hist : List (O × String × String))
    (f c : String) :
    stored (saveAll cls txt (fun _ => none) hist) f (c ++ ".pkl.gz") =
      (lastSaved cls c f hist).map .pickle ∧
    stored (saveAll cls txt (fun _ => none) hist) f (c ++ ".json") = none ∧
    ((lastSaved cls c f hist).isSome = true →
      ((saveAll cls txt (fun _ => none) hist) f).isSome = true) := by
  induction hist using List.reverseRecOn with
  | nil => exact ⟨rfl, rfl, fun h => by cases h⟩
  | append_singleton h x ih =>
    rw [saveAll_append, lastSaved_append]
    obtain ⟨s1, s2⟩ := stored_save cls txt (saveAll cls txt (fun _ => none) h) x.1 x.2.1 x.2.2 f c
    rw [s1, s2, folder_save]
    refine ⟨?_, ih.2.1, ?_⟩
    · by_cases hc : cls x.1 = c ∧ x.2.1 = f ∧ x.2.2 = "pkl"
      · rw [if_pos hc, if_pos hc]; rfl
      · rw [if_neg hc, if_neg hc]; exact ih.1
    · by_cases hc : cls x.1 = c ∧ x.2.1 = f ∧ x.2.2 = "pkl"
      · simp [hc.2.1]
      · rw [if_neg hc]
        intro h'
        simp [ih.2.2 h']

theorem loadDc_eq {O : Type} (post : O → Except PyErr O) (fs : FS O) (c f ty : String)
    (hty : ty = "pkl" ∨ ty = "json") (hj : stored fs f (c ++ ".json") = none) :
    loadDc post c fs f ty =
      (match stored fs f (c ++ ".pkl.gz") with
        | some (.pickle o) => post o
        | _ => .error .valueError) := by
  unfold loadDc
  unfold stored at *
  cases hf : fs f with
  | none => rfl
  | some d =>
    rw [hf] at hj
    simp only [Option.bind_some] at hj ⊢
    rcases hty with rfl | rfl
    · cases hd : d (c ++ ".pkl.gz") with
      | none => simp [hd, hj]
      | some x => cases x <;> simp [hd]
    · cases hd : d (c ++ ".pkl.gz") with
      | none => simp [hd, hj]
      | some x => cases x <;> simp [hd, hj]

end Danse
