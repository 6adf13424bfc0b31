import Verif.Model.Tree
import Mathlib.Combinatorics.SimpleGraph.Acyclic
import Mathlib.Tactic

namespace Danse
section
variable {V : Type} [DecidableEq V]

/-- A rooted tree given by parents and depths. -/
structure RT (nbr : V → List V) (root : V) (par : V → V) (dep : V → Nat) : Prop where
  nodup : ∀ v, (nbr v).Nodup
  mem : ∀ v q, q ∈ nbr v ↔ (q ≠ root ∧ par q = v) ∨ (v ≠ root ∧ par v = q)
  dep0 : dep root = 0
  depS : ∀ v, v ≠ root → dep v = dep (par v) + 1

variable {nbr : V → List V} {root : V} {par : V → V} {dep : V → Nat}

def kidsIn (root : V) (par : V → V) (v : V) (l : List V) : List V :=
  l.filter fun q => decide (q ≠ root ∧ par q = v)

theorem mem_kidsIn {v q : V} {l : List V} :
    q ∈ kidsIn root par v l ↔ q ∈ l ∧ q ≠ root ∧ par q = v := by
  unfold kidsIn; simp

/-- State after all of `D` and, for the node `v`, the neighbours `pre` have been processed. -/
def St (nbr : V → List V) (root : V) (par : V → V) (D : List V) (v : V) (pre : List V) :
    Orient V where
  down q := if q ≠ root ∧ (par q ∈ D ∨ (par q = v ∧ q ∈ pre)) then [par q] else []
  up q := if q = root then
      (if root ∈ D then kidsIn root par root (nbr root)
       else if v = root then kidsIn root par root pre else [])
    else if par q ∈ D ∨ (par q = v ∧ q ∈ pre) then kidsIn root par q (nbr q) else []

def St0 (nbr : V → List V) (root : V) (par : V → V) (D : List V) : Orient V where
  down q := if q ≠ root ∧ par q ∈ D then [par q] else []
  up q := if q = root then (if root ∈ D then kidsIn root par root (nbr root) else [])
    else if par q ∈ D then kidsIn root par q (nbr q) else []

theorem RT.par_ne (h : RT nbr root par dep) {v : V} (hv : v ≠ root) : par v ≠ v := by
  intro hc
  have := h.depS v hv
  rw [hc] at this; omega

theorem RT.not_kid_of_par (h : RT nbr root par dep) {v : V} (hv : v ≠ root)
    (hp : par v ≠ root) : par (par v) ≠ v := by
  intro hc
  have h1 := h.depS v hv
  have h2 := h.depS _ hp
  rw [hc] at h2; omega

theorem classifyRest_id {q : V} : ∀ (l : List V) {s : Orient V},
    (∀ i ∈ l, i ∈ s.down q ∨ i ∈ s.up q) → classifyRest q l s = s := by
  intro l
  induction l with
  | nil => intros; rfl
  | cons i l ih =>
    intro s h
    unfold classifyRest
    rw [List.foldl_cons, if_neg (by have := h i (by simp); tauto)]
    exact ih (fun j hj => h j (by simp [hj]))

theorem classifyRest_fill {q v : V} : ∀ (l : List V) {s : Orient V}, s.down q = [v] → l.Nodup →
    (∀ i ∈ l, i ∉ s.up q) →
    classifyRest q l s =
      { s with up := Function.update s.up q (s.up q ++ l.filter fun i => decide (i ≠ v)) } := by
  intro l
  induction l with
  | nil => intro s _ _ _; simp [classifyRest]
  | cons i l ih =>
    intro s hd hn hu
    have hn' := List.nodup_cons.mp hn
    unfold classifyRest
    rw [List.foldl_cons]
    by_cases hi : i = v
    · rw [if_neg (by rw [hd, hi]; simp)]
      have := ih hd hn'.2 (fun j hj => hu j (by simp [hj]))
      unfold classifyRest at this
      rw [this, List.filter_cons_of_neg (by simpa using hi)]
    · rw [if_pos ⟨by rw [hd]; simpa using hi, hu i (by simp)⟩]
      have := ih (s := { s with up := Function.update s.up q (s.up q ++ [i]) }) hd hn'.2
        (by
          intro j hj
          simp only [Function.update_self, List.mem_append, List.mem_singleton, not_or]
          exact ⟨hu j (by simp [hj]), fun hc => hn'.1 (hc ▸ hj)⟩)
      unfold classifyRest at this
      rw [this, List.filter_cons_of_pos (by simpa using hi)]
      simp

theorem kids_eq_filter (h : RT nbr root par dep) {q v : V} (hq : q ≠ root) (hv : par q = v) :
    (nbr q).filter (fun i => decide (i ≠ v)) = kidsIn root par q (nbr q) := by
  unfold kidsIn
  apply List.filter_congr
  intro i hi
  rw [decide_eq_decide]
  constructor
  · intro hne
    rcases (h.mem q i).mp hi with h1 | ⟨_, h1⟩
    · exact h1
    · exact absurd (h1.symm.trans hv) hne
  · rintro ⟨h1, h2⟩ hc
    subst hc
    rw [← hv] at h2
    exact h.not_kid_of_par hq (hv ▸ h1) h2

theorem kidsIn_append {v : V} {l m : List V} :
    kidsIn root par v (l ++ m) = kidsIn root par v l ++ kidsIn root par v m := by
  unfold kidsIn; exact List.filter_append ..

theorem orient_ext {s t : Orient V} (h1 : ∀ q, s.up q = t.up q) (h2 : ∀ q, s.down q = t.down q) :
    s = t := by
  cases s; cases t
  simp only [Orient.mk.injEq]
  exact ⟨funext h1, funext h2⟩

theorem visitNbr_st (h : RT nbr root par dep) {D pre : List V} {v q : V} (hq : q ∈ nbr v)
    (hp : q ∉ pre) (hvD : v ∉ D) (hclosed : ∀ x ∈ D, x = root ∨ par x ∈ D)
    (hready : (v = root ∧ root ∉ D) ∨ (v ≠ root ∧ par v ∈ D)) (next : List V) :
    visitNbr nbr v D (next, St nbr root par D v pre) q =
      (next ++ kidsIn root par v [q], St nbr root par D v (pre ++ [q])) := by
  by_cases hk : q ≠ root ∧ par q = v
  · obtain ⟨hqr, hqv⟩ := hk
    have hqD : q ∉ D := by
      intro hc
      rcases hclosed q hc with h1 | h1
      · exact hqr h1
      · exact hvD (hqv ▸ h1)
    have hqv' : q ≠ v := fun hc => h.par_ne hqr (hqv.trans hc.symm)
    have hd : (St nbr root par D v pre).down q = [] := by
      simp only [St]; rw [if_neg]; rintro ⟨_, h1 | h1⟩
      · exact hvD (hqv ▸ h1)
      · exact hp h1.2
    have hu : (St nbr root par D v pre).up q = [] := by
      simp only [St]; rw [if_neg hqr, if_neg]; rintro (h1 | h1)
      · exact hvD (hqv ▸ h1)
      · exact hp h1.2
    have hkid : kidsIn root par v [q] = [q] := by
      unfold kidsIn; rw [List.filter_cons_of_pos (by simp [hqr, hqv])]; rfl
    unfold visitNbr
    simp only
    rw [if_pos ⟨by rw [hd]; simp, by rw [hu]; simp⟩, if_pos hqD]
    simp only
    rw [hkid]
    congr 1
    rw [hd]
    have hnoin : ∀ i ∈ nbr q, i ∉ ([] : List V) := by simp
    by_cases hvr : v = root
    · have hrD : root ∉ D := by
        rcases hready with h1 | h1
        · exact h1.2
        · exact absurd hvr h1.1
      have hk2 : kidsIn root par root [q] = [q] := by
        have := hkid; rw [hvr] at this; exact this
      have hupv : (St nbr root par D v pre).up v = kidsIn root par root pre := by
        simp only [St]; rw [if_pos hvr, if_neg hrD, if_pos hvr]
      rw [if_pos (by rw [hupv, mem_kidsIn]; tauto)]
      rw [classifyRest_fill (v := v) _ (by simp) (h.nodup q)
        (by simp only [Function.update_of_ne hqv', hu]; exact hnoin)]
      simp only [Function.update_of_ne hqv', hu, List.nil_append]
      rw [kids_eq_filter h hqr hqv]
      apply orient_ext
      · intro x
        simp only
        by_cases hx : x = q
        · subst hx
          rw [Function.update_self]
          simp only [St]
          rw [if_neg hqr, if_pos (.inr ⟨hqv, by simp⟩)]
        · rw [Function.update_of_ne hx]
          by_cases hx2 : x = v
          · subst hx2
            rw [Function.update_self, hupv]
            simp only [St]
            rw [if_pos hvr, if_neg hrD, if_pos hvr, kidsIn_append, hk2]
          · rw [Function.update_of_ne hx2]
            simp only [St]
            by_cases hxr : x = root
            · exact absurd (hxr.trans hvr.symm) hx2
            · rw [if_neg hxr, if_neg hxr]
              have : (par x = v ∧ x ∈ pre) ↔ (par x = v ∧ x ∈ pre ++ [q]) := by
                simp [hx]
              simp only [this]
      · intro x
        simp only
        by_cases hx : x = q
        · subst hx
          rw [Function.update_self]
          simp only [St]
          rw [if_pos ⟨hqr, .inr ⟨hqv, by simp⟩⟩, hqv]
        · rw [Function.update_of_ne hx]
          simp only [St]
          have : (par x = v ∧ x ∈ pre) ↔ (par x = v ∧ x ∈ pre ++ [q]) := by
            simp [hx]
          simp only [this]
    · have hpv : par v ∈ D := by
        rcases hready with h1 | h1
        · exact absurd h1.1 hvr
        · exact h1.2
      have hupv : (St nbr root par D v pre).up v = kidsIn root par v (nbr v) := by
        simp only [St]; rw [if_neg hvr, if_pos (.inl hpv)]
      rw [if_neg (by rw [hupv, mem_kidsIn]; tauto)]
      rw [classifyRest_fill (v := v) _ (by simp) (h.nodup q)
        (by simp only [hu]; exact hnoin)]
      simp only [hu, List.nil_append]
      rw [kids_eq_filter h hqr hqv]
      apply orient_ext
      · intro x
        simp only
        by_cases hx : x = q
        · subst hx
          rw [Function.update_self]
          simp only [St]
          rw [if_neg hqr, if_pos (.inr ⟨hqv, by simp⟩)]
        · rw [Function.update_of_ne hx]
          simp only [St]
          have : (par x = v ∧ x ∈ pre) ↔ (par x = v ∧ x ∈ pre ++ [q]) := by
            simp [hx]
          simp only [this, if_neg hvr]
      · intro x
        simp only
        by_cases hx : x = q
        · subst hx
          rw [Function.update_self]
          simp only [St]
          rw [if_pos ⟨hqr, .inr ⟨hqv, by simp⟩⟩, hqv]
        · rw [Function.update_of_ne hx]
          simp only [St]
          have : (par x = v ∧ x ∈ pre) ↔ (par x = v ∧ x ∈ pre ++ [q]) := by
            simp [hx]
          simp only [this]
  · -- `q` is the parent of `v`
    have hpar : v ≠ root ∧ par v = q := by
      rcases (h.mem v q).mp hq with h1 | h1
      · exact absurd h1 hk
      · exact h1
    have hqD : q ∈ D := by
      rcases hready with h1 | h1
      · exact absurd h1.1 hpar.1
      · exact hpar.2 ▸ h1.2
    have huq : (St nbr root par D v pre).up q = kidsIn root par q (nbr q) := by
      simp only [St]
      rcases hclosed q hqD with h1 | h1
      · rw [if_pos h1, if_pos (h1 ▸ hqD), h1]
      · by_cases hqr : q = root
        · rw [if_pos hqr, if_pos (hqr ▸ hqD), hqr]
        · rw [if_neg hqr, if_pos (.inl h1)]
    have hvq : v ∈ kidsIn root par q (nbr q) := by
      rw [mem_kidsIn]
      exact ⟨(h.mem q v).mpr (.inl hpar), hpar⟩
    have hkid : kidsIn root par v [q] = [] := by
      unfold kidsIn; rw [List.filter_cons_of_neg (by simpa using hk)]; rfl
    unfold visitNbr
    simp only
    rw [if_neg (by rw [huq]; tauto), hkid, List.append_nil]
    simp only
    congr 1
    rw [classifyRest_id]
    · apply orient_ext
      all_goals
        intro x
        simp only [St]
        have : x ≠ root → ((par x = v ∧ x ∈ pre) ↔ (par x = v ∧ x ∈ pre ++ [q])) := by
          intro hxr
          constructor
          · rintro ⟨a, b⟩; exact ⟨a, by simp [b]⟩
          · rintro ⟨a, b⟩
            refine ⟨a, ?_⟩
            rcases List.mem_append.mp b with b | b
            · exact b
            · rw [List.mem_singleton] at b
              exact absurd ⟨b ▸ hxr, b ▸ a⟩ hk
      · by_cases hxr : x = root
        · rw [if_pos hxr, if_pos hxr, if_neg hpar.1, if_neg hpar.1]
        · rw [if_neg hxr, if_neg hxr]
          simp only [this hxr]
      · by_cases hxr : x = root
        · rw [if_neg (by tauto), if_neg (by tauto)]
        · simp only [this hxr]
    · intro i hi
      rcases (h.mem q i).mp hi with h1 | h1
      · right; rw [huq, mem_kidsIn]; exact ⟨hi, h1⟩
      · left
        simp only [St]
        have : par q ∈ D := by
          rcases hclosed q hqD with h2 | h2
          · exact absurd h2 h1.1
          · exact h2
        rw [if_pos ⟨h1.1, .inl this⟩, h1.2]; simp

theorem identify_st (h : RT nbr root par dep) {D : List V} {v : V} (hvD : v ∉ D)
    (hclosed : ∀ x ∈ D, x = root ∨ par x ∈ D)
    (hready : (v = root ∧ root ∉ D) ∨ (v ≠ root ∧ par v ∈ D)) :
    identifyUpDown nbr v (St0 nbr root par D) D =
      (kidsIn root par v (nbr v), St0 nbr root par (D ++ [v])) := by
  have key : ∀ (l pre next : List V), (pre ++ l).Nodup → (∀ q ∈ l, q ∈ nbr v) →
      l.foldl (visitNbr nbr v D) (next, St nbr root par D v pre) =
        (next ++ kidsIn root par v l, St nbr root par D v (pre ++ l)) := by
    intro l
    induction l with
    | nil => intro pre next _ _; simp [kidsIn]
    | cons q l ih =>
      intro pre next hn hl
      rw [List.foldl_cons, visitNbr_st h (hl q (by simp)) ?_ hvD hclosed hready,
        ih _ _ (by simpa using hn) (fun x hx => hl x (by simp [hx]))]
      · rw [List.append_assoc, List.append_assoc, ← kidsIn_append]; rfl
      · intro hc
        have := List.nodup_append.mp hn
        exact this.2.2 q hc q (by simp) rfl
  have h0 : St0 nbr root par D = St nbr root par D v [] := by
    apply orient_ext
    · intro q; simp only [St0, St]; simp [kidsIn]
    · intro q; simp only [St0, St]; simp
  unfold identifyUpDown
  rw [h0, key (nbr v) [] [] (by simpa using h.nodup v) (fun q hq => hq)]
  simp only [List.nil_append]
  congr 1
  apply orient_ext
  · intro q
    simp only [St0, St, List.mem_append, List.mem_singleton]
    by_cases hqr : q = root
    · rw [if_pos hqr, if_pos hqr]
      by_cases hD : root ∈ D
      · rw [if_pos hD, if_pos (.inl hD)]
      · rw [if_neg hD]
        by_cases hv : v = root
        · rw [if_pos hv, if_pos (.inr hv.symm), hv]
        · rw [if_neg hv, if_neg (by rintro (a | a); exacts [hD a, hv a.symm])]
    · rw [if_neg hqr, if_neg hqr]
      have : (par q = v ∧ q ∈ nbr v) ↔ par q = v := by
        constructor
        · exact fun a => a.1
        · exact fun a => ⟨a, (h.mem v q).mpr (.inl ⟨hqr, a⟩)⟩
      simp only [this]
  · intro q
    simp only [St0, St, List.mem_append, List.mem_singleton]
    by_cases hqr : q = root
    · rw [if_neg (by tauto), if_neg (by tauto)]
    · have : (par q = v ∧ q ∈ nbr v) ↔ par q = v := by
        constructor
        · exact fun a => a.1
        · exact fun a => ⟨a, (h.mem v q).mpr (.inl ⟨hqr, a⟩)⟩
      simp only [this]

theorem orientLevel_st (h : RT nbr root par dep) : ∀ (L : List V) {D : List V},
    L.Nodup → (∀ v ∈ L, v ∉ D) → (∀ x ∈ D, x = root ∨ par x ∈ D) →
    (∀ v ∈ L, (v = root ∧ root ∉ D) ∨ (v ≠ root ∧ par v ∈ D)) →
    orientLevel nbr L (St0 nbr root par D) D =
      (St0 nbr root par (D ++ L), D ++ L, L.flatMap fun v => kidsIn root par v (nbr v)) := by
  have key : ∀ (L : List V) (D acc : List V), L.Nodup → (∀ v ∈ L, v ∉ D) →
      (∀ x ∈ D, x = root ∨ par x ∈ D) →
      (∀ v ∈ L, (v = root ∧ root ∉ D) ∨ (v ≠ root ∧ par v ∈ D)) →
      L.foldl (fun (st : Orient V × List V × List V) k =>
        let (foo, s') := identifyUpDown nbr k st.1 st.2.1
        (s', st.2.1 ++ [k], st.2.2 ++ foo)) (St0 nbr root par D, D, acc) =
      (St0 nbr root par (D ++ L), D ++ L, acc ++ L.flatMap fun v => kidsIn root par v (nbr v)) := by
    intro L
    induction L with
    | nil => intro D acc _ _ _ _; simp
    | cons v L ih =>
      intro D acc hn hD hc hr
      have hn' := List.nodup_cons.mp hn
      rw [List.foldl_cons]
      simp only
      rw [identify_st h (hD v (by simp)) hc (hr v (by simp))]
      simp only
      rw [ih (D ++ [v]) _ hn'.2]
      · simp
      · intro x hx hc'
        rcases List.mem_append.mp hc' with h1 | h1
        · exact hD x (by simp [hx]) h1
        · rw [List.mem_singleton] at h1; exact hn'.1 (h1 ▸ hx)
      · intro x hx
        rcases List.mem_append.mp hx with h1 | h1
        · rcases hc x h1 with h2 | h2
          · exact .inl h2
          · exact .inr (by simp [h2])
        · rw [List.mem_singleton] at h1
          rcases hr v (by simp) with h2 | h2
          · exact .inl (h1.trans h2.1)
          · exact .inr (by rw [h1]; simp [h2.2])
      · intro x hx
        rcases hr x (by simp [hx]) with h1 | h1
        · left
          refine ⟨h1.1, ?_⟩
          intro hc'
          rcases List.mem_append.mp hc' with h2 | h2
          · exact h1.2 h2
          · rw [List.mem_singleton] at h2
            exact hn'.1 (by rw [← h2, ← h1.1]; exact hx)
        · exact .inr ⟨h1.1, by simp [h1.2]⟩
  intro L D h1 h2 h3 h4
  unfold orientLevel
  rw [key L D [] h1 h2 h3 h4]
  simp

/-- The levels of the tree, from the root on. -/
def lvl (nbr : V → List V) (root : V) (par : V → V) : Nat → List V
  | 0 => [root]
  | d + 1 => (lvl nbr root par d).flatMap fun v => kidsIn root par v (nbr v)

theorem RT.dep_zero (h : RT nbr root par dep) {v : V} : dep v = 0 ↔ v = root := by
  constructor
  · intro h0
    by_contra hc
    have := h.depS v hc
    omega
  · rintro rfl; exact h.dep0

theorem mem_lvl (h : RT nbr root par dep) : ∀ (d : Nat) {v : V},
    v ∈ lvl nbr root par d ↔ dep v = d := by
  intro d
  induction d with
  | zero => intro v; rw [h.dep_zero]; simp [lvl]
  | succ d ih =>
    intro v
    simp only [lvl, List.mem_flatMap, mem_kidsIn]
    constructor
    · rintro ⟨u, hu, _, hr, hp⟩
      rw [h.depS v hr, hp, ih.mp hu]
    · intro hd
      have hr : v ≠ root := by rintro rfl; rw [h.dep0] at hd; omega
      refine ⟨par v, ih.mpr ?_, (h.mem _ _).mpr (.inl ⟨hr, rfl⟩), hr, rfl⟩
      have := h.depS v hr; omega

theorem nodup_lvl (h : RT nbr root par dep) : ∀ (d : Nat), (lvl nbr root par d).Nodup := by
  intro d
  induction d with
  | zero => simp [lvl]
  | succ d ih =>
    simp only [lvl]
    rw [List.nodup_flatMap]
    refine ⟨fun v _ => (h.nodup v).filter _, ?_⟩
    refine ih.imp ?_
    intro a b hab x hx hy
    rw [mem_kidsIn] at hx hy
    exact hab (hx.2.2.symm.trans hy.2.2)

/-- All nodes of depth less than `d`. -/
def below (nbr : V → List V) (root : V) (par : V → V) (d : Nat) : List V :=
  (List.range d).flatMap (lvl nbr root par)

theorem mem_below (h : RT nbr root par dep) {d : Nat} {v : V} :
    v ∈ below nbr root par d ↔ dep v < d := by
  unfold below
  simp [List.mem_flatMap, mem_lvl h]

theorem orientLevel_lvl (h : RT nbr root par dep) (d : Nat) :
    orientLevel nbr (lvl nbr root par d) (St0 nbr root par (below nbr root par d))
      (below nbr root par d) =
    (St0 nbr root par (below nbr root par (d + 1)), below nbr root par (d + 1),
      lvl nbr root par (d + 1)) := by
  rw [orientLevel_st h _ (nodup_lvl h d)]
  · have : below nbr root par d ++ lvl nbr root par d = below nbr root par (d + 1) := by
      unfold below; rw [List.range_succ, List.flatMap_append]; simp
    rw [this]; rfl
  · intro v hv
    rw [mem_below h, (mem_lvl h d).mp hv]; omega
  · intro x hx
    by_cases hr : x = root
    · exact .inl hr
    · right
      rw [mem_below h] at hx ⊢
      have := h.depS x hr; omega
  · intro v hv
    rw [mem_lvl h] at hv
    by_cases hr : v = root
    · left
      refine ⟨hr, ?_⟩
      rw [mem_below h, h.dep0]
      rw [hr, h.dep0] at hv; omega
    · right
      refine ⟨hr, ?_⟩
      rw [mem_below h]
      have := h.depS v hr; omega

theorem orientLoop_lvl (h : RT nbr root par dep) {M : Nat}
    (hM : ∀ d, lvl nbr root par d = [] ↔ M < d) : ∀ (fuel d : Nat) (order : List (TreeLevel V)),
    d ≤ M + 1 → M + 1 < fuel + d →
    orientLoop nbr fuel (lvl nbr root par d) (St0 nbr root par (below nbr root par d))
      (below nbr root par d) order =
    some (St0 nbr root par (below nbr root par (M + 1)),
      order ++ (List.range (M - d)).map fun (j : Nat) => TreeLevel.many (lvl nbr root par (d + 1 + j))) := by
  intro fuel
  induction fuel with
  | zero => intro d order h1 h2; omega
  | succ fuel ih =>
    intro d order h1 h2
    unfold orientLoop
    by_cases hd : lvl nbr root par d = []
    · have := (hM d).mp hd
      have e : d = M + 1 := by omega
      subst e
      rw [if_pos hd]
      simp
    · have hle : ¬ M < d := fun hc => hd ((hM d).mpr hc)
      rw [if_neg hd, orientLevel_lvl h]
      simp only
      rw [ih (d + 1) _ (by omega) (by omega)]
      congr 2
      by_cases hd1 : lvl nbr root par (d + 1) = []
      · have := (hM _).mp hd1
        rw [if_pos hd1, show M - d = 0 by omega, show M - (d + 1) = 0 by omega]
        simp
      · have : ¬ M < d + 1 := fun hc => hd1 ((hM _).mpr hc)
        rw [if_neg hd1, show M - d = (M - (d + 1)) + 1 by omega, List.range_succ_eq_map]
        simp only [List.map_cons, List.map_map, List.append_assoc, List.singleton_append]
        congr 2
        apply List.map_congr_left
        intro j _
        simp only [Function.comp]
        congr 2
        omega

theorem RT.exists_dep (h : RT nbr root par dep) : ∀ (n : Nat) (v : V), dep v = n →
    ∀ j ≤ n, ∃ u, dep u = j := by
  intro n
  induction n with
  | zero => intro v hv j hj; exact ⟨v, by omega⟩
  | succ n ih =>
    intro v hv j hj
    by_cases hjn : j = n + 1
    · exact ⟨v, by omega⟩
    · have hr : v ≠ root := by rintro rfl; rw [h.dep0] at hv; omega
      exact ih (par v) (by have := h.depS v hr; omega) j (by omega)

theorem RT.dep_lt [Fintype V] (h : RT nbr root par dep) (v : V) : dep v < Fintype.card V := by
  have h1 : Finset.range (dep v + 1) ⊆ Finset.univ.image dep := by
    intro j hj
    obtain ⟨u, hu⟩ := h.exists_dep _ v rfl j (by have := Finset.mem_range.mp hj; omega)
    exact Finset.mem_image.mpr ⟨u, Finset.mem_univ _, hu⟩
  have h2 := (Finset.card_le_card h1).trans Finset.card_image_le
  rw [Finset.card_range] at h2
  exact h2

theorem RT.exists_max [Fintype V] (h : RT nbr root par dep) :
    ∃ M, M < Fintype.card V ∧ ∀ d, lvl nbr root par d = [] ↔ M < d := by
  have hne : (Finset.univ : Finset V).Nonempty := ⟨root, Finset.mem_univ _⟩
  obtain ⟨v, _, hv⟩ := Finset.exists_max_image Finset.univ dep hne
  refine ⟨dep v, h.dep_lt v, fun d => ?_⟩
  constructor
  · intro he
    by_contra hc
    obtain ⟨u, hu⟩ := h.exists_dep _ v rfl d (by omega)
    have := (mem_lvl h d).mpr hu
    rw [he] at this; cases this
  · intro hd
    apply List.eq_nil_iff_forall_not_mem.mpr
    intro u hu
    have := hv u (Finset.mem_univ _)
    rw [(mem_lvl h d).mp hu] at this; omega

/-- Result of `orientate` on a rooted tree. -/
theorem orientate_rt [Fintype V] (h : RT nbr root par dep) :
    ∃ M, (∀ d, lvl nbr root par d = [] ↔ M < d) ∧
      ∀ fuel, Fintype.card V < fuel → orientate nbr root fuel =
        some (⟨fun q => kidsIn root par q (nbr q), fun q => if q = root then [] else [par q]⟩,
          ((TreeLevel.one root) :: (List.range M).map fun (j : Nat) => TreeLevel.many (lvl nbr root par (1 + j))).reverse) := by
  obtain ⟨M, hM1, hM⟩ := h.exists_max
  refine ⟨M, hM, ?_⟩
  intro fuel hf
  unfold orientate
  have h0 : (⟨fun _ => [], fun _ => []⟩ : Orient V) = St0 nbr root par (below nbr root par 0) := by
    apply orient_ext <;> intro q <;> simp [St0, below]
  have := orientLoop_lvl h hM fuel 0 [.one root] (by omega) (by omega)
  simp only [lvl] at this
  rw [h0]
  have hb : below nbr root par 0 = [] := rfl
  rw [hb] at this ⊢
  rw [this]
  simp only [Option.map_some]
  congr 2
  · have hall : ∀ q, dep q < M + 1 := by
      intro q
      by_contra hc
      have := (hM (dep q)).mpr (by omega)
      have h2 := (mem_lvl h (dep q)).mpr (rfl : dep q = dep q)
      rw [this] at h2; cases h2
    apply orient_ext
    · intro q
      simp only [St0]
      by_cases hq : q = root
      · rw [if_pos hq, if_pos ((mem_below h).mpr (hall _)), hq]
      · rw [if_neg hq, if_pos ((mem_below h).mpr (hall _))]
    · intro q
      simp only [St0]
      by_cases hq : q = root
      · rw [if_neg (by tauto), if_pos hq]
      · rw [if_neg hq, if_pos ⟨hq, (mem_below h).mpr (hall _)⟩]

end

/-! ## Termination on arbitrary networks -/

section
variable {V : Type} [DecidableEq V] [Fintype V] {nbr : V → List V}

/-- Pairs not yet recorded as downstream. -/
def openPairs (s : Orient V) : Nat :=
  (Finset.univ.filter fun p : V × V => p.1 ∉ s.down p.2).card

omit [Fintype V] in
theorem classifyRest_down {q : V} : ∀ (l : List V) (s : Orient V),
    (classifyRest q l s).down = s.down := by
  intro l
  induction l with
  | nil => intro s; rfl
  | cons i l ih =>
    intro s
    unfold classifyRest at ih ⊢
    rw [List.foldl_cons, ih]
    split <;> rfl

theorem openPairs_congr {s t : Orient V} (h : s.down = t.down) : openPairs s = openPairs t := by
  unfold openPairs; rw [h]

theorem openPairs_push {s t : Orient V} {v q : V} (hv : v ∉ s.down q)
    (h : t.down = Function.update s.down q (s.down q ++ [v])) : openPairs t + 1 ≤ openPairs s := by
  unfold openPairs
  apply Finset.card_lt_card
  rw [Finset.ssubset_iff_of_subset]
  · refine ⟨(v, q), by simp [hv], by simp [h]⟩
  · rintro ⟨a, b⟩ hab
    simp only [Finset.mem_filter, Finset.mem_univ, true_and] at hab ⊢
    intro hc
    apply hab
    rw [h]
    by_cases hb : b = q
    · subst hb; simp [hc]
    · rw [Function.update_of_ne hb]; exact hc

theorem visitNbr_measure (v : V) (passed : List V) (next : List V) (s : Orient V) (q : V) :
    (visitNbr nbr v passed (next, s) q).1.length + openPairs (visitNbr nbr v passed (next, s) q).2 ≤
      next.length + openPairs s := by
  unfold visitNbr
  simp only
  rw [openPairs_congr (classifyRest_down _ _)]
  by_cases h : v ∉ s.down q ∧ v ∉ s.up q
  · rw [if_pos h]
    have hpush : ∀ t : Orient V, t.down = Function.update s.down q (s.down q ++ [v]) →
        openPairs t + 1 ≤ openPairs s := fun t ht => openPairs_push h.1 ht
    by_cases hq : q ∉ passed
    · rw [if_pos hq]
      simp only [List.length_append, List.length_singleton]
      split
      · have := hpush { up := Function.update s.up v (s.up v ++ [q]),
                        down := Function.update s.down q (s.down q ++ [v]) } rfl
        omega
      · have := hpush { up := s.up, down := Function.update s.down q (s.down q ++ [v]) } rfl
        omega
    · rw [if_neg hq]
      have := hpush { up := s.up, down := Function.update s.down q (s.down q ++ [v]) } rfl
      simp only
      omega
  · rw [if_neg h]

theorem identify_measure (v : V) (passed : List V) (s : Orient V) :
    (identifyUpDown nbr v s passed).1.length + openPairs (identifyUpDown nbr v s passed).2 ≤
      openPairs s := by
  unfold identifyUpDown
  have key : ∀ (l : List V) (acc : List V × Orient V),
      (l.foldl (visitNbr nbr v passed) acc).1.length +
        openPairs (l.foldl (visitNbr nbr v passed) acc).2 ≤ acc.1.length + openPairs acc.2 := by
    intro l
    induction l with
    | nil => intro acc; exact le_refl _
    | cons q l ih =>
      intro acc
      rw [List.foldl_cons]
      exact (ih _).trans (visitNbr_measure v passed acc.1 acc.2 q)
  simpa using key (nbr v) ([], s)

theorem orientLevel_measure (L : List V) (s : Orient V) (passed : List V) :
    (orientLevel nbr L s passed).2.2.length + openPairs (orientLevel nbr L s passed).1 ≤
      openPairs s := by
  unfold orientLevel
  have key : ∀ (L : List V) (st : Orient V × List V × List V),
      (L.foldl (fun (st : Orient V × List V × List V) k =>
        let (foo, s') := identifyUpDown nbr k st.1 st.2.1
        (s', st.2.1 ++ [k], st.2.2 ++ foo)) st).2.2.length +
      openPairs (L.foldl (fun (st : Orient V × List V × List V) k =>
        let (foo, s') := identifyUpDown nbr k st.1 st.2.1
        (s', st.2.1 ++ [k], st.2.2 ++ foo)) st).1 ≤ st.2.2.length + openPairs st.1 := by
    intro L
    induction L with
    | nil => intro st; exact le_refl _
    | cons k L ih =>
      intro st
      rw [List.foldl_cons]
      refine (ih _).trans ?_
      have := identify_measure (nbr := nbr) k st.2.1 st.1
      simp only [List.length_append]
      omega
  simpa using key L (s, passed, [])

theorem orientLoop_terminates : ∀ (fuel : Nat) (L : List V) (s : Orient V) (passed : List V)
    (order : List (TreeLevel V)), openPairs s + 2 ≤ fuel →
    ∃ r, orientLoop nbr fuel L s passed order = some r := by
  intro fuel
  induction fuel with
  | zero => intro L s passed order h; omega
  | succ fuel ih =>
    intro L s passed order h
    unfold orientLoop
    by_cases hL : L = []
    · rw [if_pos hL]; exact ⟨_, rfl⟩
    · rw [if_neg hL]
      have hm := orientLevel_measure (nbr := nbr) L s passed
      generalize hr : orientLevel nbr L s passed = r at hm
      obtain ⟨s', p', n'⟩ := r
      simp only at hm ⊢
      by_cases hn : n' = []
      · obtain ⟨f, rfl⟩ : ∃ f, fuel = f + 1 := ⟨fuel - 1, by omega⟩
        rw [hn]
        unfold orientLoop
        rw [if_pos rfl]
        exact ⟨_, rfl⟩
      · apply ih
        have : 0 < n'.length := List.length_pos_iff.mpr hn
        omega

end

/-! ## Trees of Mathlib are rooted trees -/

section
variable {V : Type} {G : SimpleGraph V}

theorem tree_parent_exists (hG : G.IsTree) {r v : V} (hv : v ≠ r) :
    ∃ p, G.Adj v p ∧ G.dist r v = G.dist r p + 1 := by
  obtain ⟨w, hw, hl⟩ := (hG.connected.preconnected r v).exists_path_of_dist
  have hnn : ¬ w.Nil := by
    intro hc
    exact hv hc.eq.symm
  refine ⟨w.penultimate, (w.adj_penultimate hnn).symm, ?_⟩
  rcases hG.dist_eq_dist_add_one_of_adj r (w.adj_penultimate hnn).symm with h | h
  · exact h
  · exfalso
    have : G.dist r w.penultimate ≤ w.dropLast.length := SimpleGraph.dist_le _
    have h2 : w.dropLast.length = w.length - 1 := by
      simp [SimpleGraph.Walk.dropLast, SimpleGraph.Walk.take_length]
    omega

theorem tree_parent_unique (hG : G.IsTree) {r v p p' : V} (h1 : G.Adj v p)
    (hd1 : G.dist r v = G.dist r p + 1) (h2 : G.Adj v p') (hd2 : G.dist r v = G.dist r p' + 1) :
    p = p' := by
  classical
  obtain ⟨w, hw, hl⟩ := (hG.connected.preconnected r v).exists_path_of_dist
  have key : ∀ u, G.Adj v u → G.dist r v = G.dist r u + 1 → u = w.penultimate := by
    intro u hu hd
    obtain ⟨x, hx, hxl⟩ := (hG.connected.preconnected r u).exists_path_of_dist
    have hnot : v ∉ x.support := by
      intro hc
      have h3 : G.dist r v ≤ (x.takeUntil v hc).length := SimpleGraph.dist_le _
      have h4 := x.length_takeUntil_le hc
      omega
    exact hG.isAcyclic.eq_penultimate_of_adj_end hw hu
      (hG.isAcyclic.mem_support_of_ne_mem_support_of_adj_of_isPath hw hx hu hnot)
  rw [key p h1 hd1, key p' h2 hd2]

theorem tree_RT [DecidableEq V] (hG : G.IsTree) {nbr : V → List V}
    (hn : ∀ v, (nbr v).Nodup ∧ ∀ q, q ∈ nbr v ↔ G.Adj v q) (root : V) :
    ∃ par, RT nbr root par (G.dist root) ∧
      ∀ v, v ≠ root → G.Adj v (par v) ∧ G.dist root v = G.dist root (par v) + 1 := by
  classical
  refine ⟨fun v => if hv : v = root then root else (tree_parent_exists hG hv).choose, ?_, ?_⟩
  · have hpar : ∀ v, v ≠ root → ∀ q, (if hv : v = root then root
        else (tree_parent_exists hG hv).choose) = q ↔
        (G.Adj v q ∧ G.dist root v = G.dist root q + 1) := by
      intro v hv q
      rw [dif_neg hv]
      have hs := (tree_parent_exists hG hv).choose_spec
      constructor
      · rintro rfl; exact hs
      · rintro ⟨h1, h2⟩; exact tree_parent_unique hG hs.1 hs.2 h1 h2
    refine ⟨fun v => (hn v).1, ?_, by simp, ?_⟩
    · intro v q
      rw [(hn v).2]
      constructor
      · intro ha
        rcases hG.dist_eq_dist_add_one_of_adj root ha with h1 | h1
        · right
          have hv : v ≠ root := by rintro rfl; simp at h1
          exact ⟨hv, (hpar v hv q).mpr ⟨ha, h1⟩⟩
        · left
          have hv : q ≠ root := by rintro rfl; simp at h1
          exact ⟨hv, (hpar q hv v).mpr ⟨ha.symm, h1⟩⟩
      · rintro (⟨h1, h2⟩ | ⟨h1, h2⟩)
        · exact ((hpar q h1 v).mp h2).1.symm
        · exact ((hpar v h1 q).mp h2).1
    · intro v hv
      exact ((hpar v hv _).mp rfl).2
  · intro v hv
    simp only
    rw [dif_neg hv]
    exact (tree_parent_exists hG hv).choose_spec

end
end Danse
