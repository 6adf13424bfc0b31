import Verif.Spec.BatTable
import Mathlib.Tactic.IntervalCases
import Mathlib.Data.List.Nodup
import Mathlib.Data.List.Perm.Basic
import Mathlib.Tactic.Linarith

/-!
# Helper lemmas for C146
-/

namespace Danse

/-! ## Names -/

theorem btChar (n : Nat) (h : n < 10) : (Char.ofNat (48 + n)).isDigit = true ∧ (Char.ofNat (48 + n)).toNat - 48 = n := by
  interval_cases n <;> decide

theorem decimal_digit (n : Nat) : ∀ c ∈ decimal n, c.isDigit = true := by
  induction n using Nat.strong_induction_on with
  | _ n ih =>
    intro c hc
    unfold decimal at hc
    by_cases h : n < 10
    · rw [if_pos h] at hc
      simp only [List.mem_singleton] at hc
      subst hc
      exact (btChar n h).1
    · rw [if_neg h, List.mem_append] at hc
      rcases hc with hc | hc
      · exact ih (n / 10) (by omega) c hc
      · simp only [List.mem_singleton] at hc
        subst hc
        exact (btChar (n % 10) (by omega)).1

theorem decimal_ne (n : Nat) : decimal n ≠ [] := by
  unfold decimal
  split_ifs <;> simp

theorem natOf_decimal (n : Nat) : natOf (decimal n) = some n := by
  unfold natOf
  rw [if_neg (decimal_ne n)]
  induction n using Nat.strong_induction_on with
  | _ n ih =>
    unfold decimal
    by_cases h : n < 10
    · rw [if_pos h]
      simp only [List.foldl_cons, List.foldl_nil, Option.bind_some, (btChar n h).1, (btChar n h).2, if_true]
      simp
    · rw [if_neg h, List.foldl_append, ih (n / 10) (by omega)]
      have := btChar (n % 10) (by omega)
      simp only [List.foldl_cons, List.foldl_nil, Option.bind_some, this.1, this.2, if_true, Option.some.injEq]
      omega

theorem decimal_not (n : Nat) {c : Char} (hc : c.isDigit = false) : c ∉ decimal n := by
  intro h
  rw [decimal_digit n c h] at hc
  cases hc

theorem intOf_decimal (n : Nat) : intOf (decimal n) = .ok (n : Int) := by
  unfold intOf
  have : (decimal n).head? ≠ some '-' := by
    intro h
    exact decimal_not n (c := '-') (by decide) (List.mem_of_head? h)
  rw [if_neg this, natOf_decimal]
  rfl

theorem intOf_intStr (z : Int) : intOf (intStr z) = .ok z := by
  unfold intStr
  by_cases h : z < 0
  · rw [if_pos h]
    unfold intOf
    rw [if_pos (by simp), List.drop_one, List.tail_cons, natOf_decimal]
    simp only [Option.elim_some, Except.ok.injEq]
    omega
  · rw [if_neg h, intOf_decimal]
    congr 1
    omega

theorem intStr_not (z : Int) {c : Char} (hc : c.isDigit = false) (hm : c ≠ '-') : c ∉ intStr z := by
  unfold intStr
  split_ifs
  · simp only [List.mem_cons, not_or]
    exact ⟨hm, decimal_not _ hc⟩
  · exact decimal_not _ hc

theorem takeWhile_und (a b : List Char) (ha : '_' ∉ a) : (a ++ '_' :: b).takeWhile (· != '_') = a := by
  rw [List.takeWhile_append_of_pos]
  · simp
  · intro c hc
    simp only [bne_iff_ne, ne_eq]
    rintro rfl
    exact ha hc

theorem dropWhile_und (a b : List Char) (ha : '_' ∉ a) : (a ++ '_' :: b).dropWhile (· != '_') = '_' :: b := by
  rw [List.dropWhile_append_of_pos]
  · simp
  · intro c hc
    simp only [bne_iff_ne, ne_eq]
    rintro rfl
    exact ha hc

theorem takeWhile_all (a : List Char) (ha : '_' ∉ a) : a.takeWhile (· != '_') = a := by
  suffices this : ∀ c ∈ a, (c != '_') = true by
    have h2 := List.takeWhile_append_of_pos (l₂ := []) this
    simpa using h2
  intro c hc
  simp only [bne_iff_ne, ne_eq]
  rintro rfl
  exact ha hc

/-- The part of the name after the broadcast length. -/
theorem parseName_sro (Ns : Int) (a : List Char) (sro : Int) (ha : '_' ∉ a) {l : Int}
    (hl : (if ['w', 'h', 'o', 'l', 'e', 'C', 'h', 'u', 'n', 'k'] <:+: a ++ '_' :: 'S' :: 'R' :: 'O' :: intStr sro then .ok Ns
      else intOf (a.drop 1) : Except PyErr Int) = .ok l) :
    parseName Ns (a ++ '_' :: 'S' :: 'R' :: 'O' :: intStr sro) = .ok (l, sro) := by
  have h2 : '_' ∉ 'S' :: 'R' :: 'O' :: intStr sro := by
    simp only [List.mem_cons, not_or]
    exact ⟨by decide, by decide, by decide, intStr_not sro (by decide) (by decide)⟩
  have e1 : parseL Ns (a ++ '_' :: 'S' :: 'R' :: 'O' :: intStr sro) = .ok l := by
    unfold parseL
    rw [takeWhile_und a _ ha, hl]
  have e2 : parseSro (a ++ '_' :: 'S' :: 'R' :: 'O' :: intStr sro) = .ok sro := by
    unfold parseSro
    rw [if_pos (by simp), dropWhile_und a _ ha, List.drop_one, List.tail_cons, takeWhile_all _ h2]
    exact intOf_intStr sro
  unfold parseName
  rw [e1, e2]
  rfl

theorem parseName_few (Ns : Int) (n : Nat) (sro : Int) :
    parseName Ns ('L' :: (decimal n ++ ('_' :: 'S' :: 'R' :: 'O' :: intStr sro))) = .ok ((n : Int), sro) := by
  have := parseName_sro Ns ('L' :: decimal n) sro (l := n) (by
    simp only [List.mem_cons, not_or]
    exact ⟨by decide, decimal_not n (by decide)⟩) (by
    have hw : ¬ ['w', 'h', 'o', 'l', 'e', 'C', 'h', 'u', 'n', 'k'] <:+: ('L' :: decimal n) ++ '_' :: 'S' :: 'R' :: 'O' :: intStr sro := by
      intro h
      have : 'w' ∈ ('L' :: decimal n) ++ '_' :: 'S' :: 'R' :: 'O' :: intStr sro := h.subset (by simp)
      simp only [List.mem_append, List.mem_cons] at this
      rcases this with (h | h) | h | h | h | h | h
      · revert h; decide
      · exact decimal_not n (by decide) h
      · revert h; decide
      · revert h; decide
      · revert h; decide
      · revert h; decide
      · exact intStr_not sro (by decide) (by decide) h
    rw [if_neg hw, List.drop_one, List.tail_cons, intOf_decimal])
  exact this

theorem parseName_whole (Ns : Int) (sro : Int) :
    parseName Ns (['w', 'h', 'o', 'l', 'e', 'C', 'h', 'u', 'n', 'k'] ++ ('_' :: 'S' :: 'R' :: 'O' :: intStr sro)) = .ok (Ns, sro) :=
  parseName_sro Ns _ sro (by decide) (by rw [if_pos (List.prefix_append _ _).isInfix])

/-- What a test is. -/
theorem mem_prepare {sros : List Int} {Ls : List Nat} {t : BatTest} : t ∈ prepareBattery sros Ls ↔
    t.sro ∈ sros ∧
      ((∃ l, t.L = some l ∧ t.few = true ∧ (0 < t.sro ∧ l ∈ Ls ∨ t.sro ≤ 0 ∧ l = 1) ∧
          t.ref = 'L' :: (decimal l ++ ('_' :: 'S' :: 'R' :: 'O' :: intStr t.sro))) ∨
        t.L = none ∧ t.few = false ∧
          t.ref = ['w', 'h', 'o', 'l', 'e', 'C', 'h', 'u', 'n', 'k'] ++ ('_' :: 'S' :: 'R' :: 'O' :: intStr t.sro)) := by
  have d1 : decimal 1 = ['1'] := by unfold decimal; decide
  unfold prepareBattery
  simp only [List.mem_flatMap, List.mem_append, List.mem_singleton]
  constructor
  · rintro ⟨sro, hs, h | h⟩
    · by_cases hp : sro > 0
      · rw [if_pos hp, List.mem_map] at h
        obtain ⟨l, hl, rfl⟩ := h
        exact ⟨hs, .inl ⟨l, rfl, rfl, .inl ⟨hp, hl⟩, rfl⟩⟩
      · rw [if_neg hp, List.mem_singleton] at h
        subst h
        refine ⟨hs, .inl ⟨1, rfl, rfl, .inr ⟨not_lt.1 hp, rfl⟩, ?_⟩⟩
        rw [d1]
        rfl
    · subst h
      exact ⟨hs, .inr ⟨rfl, rfl, rfl⟩⟩
  · obtain ⟨L, sro, few, ref⟩ := t
    simp only
    rintro ⟨hs, ⟨l, rfl, rfl, h, rfl⟩ | ⟨rfl, rfl, rfl⟩⟩
    · refine ⟨sro, hs, .inl ?_⟩
      rcases h with ⟨hp, hl⟩ | ⟨hp, rfl⟩
      · rw [if_pos hp, List.mem_map]
        exact ⟨l, hl, rfl⟩
      · rw [if_neg (by omega), List.mem_singleton, d1]
        rfl
    · exact ⟨sro, hs, .inr rfl⟩

theorem parse_ref {sros : List Int} {Ls : List Nat} {t : BatTest} (h : t ∈ prepareBattery sros Ls) (Ns : Int) :
    parseName Ns t.ref = .ok (t.column Ns, t.sro) := by
  rw [mem_prepare] at h
  rcases h.2 with ⟨l, hl, -, -, hr⟩ | ⟨hl, -, hr⟩
  · rw [hr, BatTest.column, hl, parseName_few]
    rfl
  · rw [hr, BatTest.column, hl, parseName_whole]
    rfl

/-- The name determines the test. -/
theorem ref_inj {sros : List Int} {Ls : List Nat} {t t' : BatTest} (h : t ∈ prepareBattery sros Ls)
    (h' : t' ∈ prepareBattery sros Ls) (e : t.ref = t'.ref) : t = t' := by
  have p := parse_ref h (-1)
  rw [e, parse_ref h' (-1)] at p
  simp only [Except.ok.injEq, Prod.mk.injEq, BatTest.column] at p
  rw [mem_prepare] at h h'
  obtain ⟨L, s, f, r⟩ := t
  obtain ⟨L', s', f', r'⟩ := t'
  simp only at p e h h'
  rcases h.2 with ⟨l, rfl, rfl, -, -⟩ | ⟨rfl, rfl, -⟩ <;> rcases h'.2 with ⟨l', rfl, rfl, -, -⟩ | ⟨rfl, rfl, -⟩
  · simp only [Option.elim_some] at p
    have : l = l' := by omega
    rw [this, p.2, e]
  · simp only [Option.elim_some, Option.elim_none] at p
    omega
  · simp only [Option.elim_some, Option.elim_none] at p
    omega
  · rw [p.2, e]

theorem ref_not_und {sros : List Int} {Ls : List Nat} {t : BatTest} (h : t ∈ prepareBattery sros Ls) : t.ref.head? ≠ some '_' := by
  rw [mem_prepare] at h
  rcases h.2 with ⟨l, -, -, -, hr⟩ | ⟨-, -, hr⟩ <;> rw [hr] <;> simp

theorem prepare_nodup {sros : List Int} {Ls : List Nat} (hs : sros.Nodup) (hL : Ls.Nodup) : (prepareBattery sros Ls).Nodup := by
  unfold prepareBattery
  rw [List.nodup_flatMap]
  constructor
  · intro sro _
    rw [List.nodup_append]
    refine ⟨?_, by simp, ?_⟩
    · split_ifs
      · exact hL.map fun a b h => by simpa using (congrArg BatTest.L h)
      · simp
    · intro a ha b hb e
      rw [List.mem_singleton] at hb
      subst e
      subst hb
      split_ifs at ha
      · rw [List.mem_map] at ha
        obtain ⟨l, -, h⟩ := ha
        exact absurd (congrArg BatTest.few h) (by simp)
      · simp at ha
  · refine hs.imp ?_
    intro a b hab t hta htb
    apply hab
    have key : ∀ s, t ∈ ((if s > 0 then Ls.map fun l => (⟨some l, s, true, 'L' :: (decimal l ++ ('_' :: 'S' :: 'R' :: 'O' :: intStr s))⟩ : BatTest)
        else [⟨some 1, s, true, 'L' :: '1' :: '_' :: 'S' :: 'R' :: 'O' :: intStr s⟩]) ++
        [⟨none, s, false, ['w', 'h', 'o', 'l', 'e', 'C', 'h', 'u', 'n', 'k'] ++ ('_' :: 'S' :: 'R' :: 'O' :: intStr s)⟩]) → t.sro = s := by
      intro s h
      rw [List.mem_append, List.mem_singleton] at h
      rcases h with h | rfl
      · split_ifs at h
        · rw [List.mem_map] at h
          obtain ⟨l, -, rfl⟩ := h
          rfl
        · rw [List.mem_singleton] at h
          subst h
          rfl
      · rfl
    rw [← key a hta, ← key b htb]

/-! ## Parameters -/

theorem addNew_inv (l acc : List Int) (h : acc.Nodup) :
    (l.foldl (fun acc x => if x ∈ acc then acc else acc ++ [x]) acc).Nodup ∧
      ∀ x, x ∈ l.foldl (fun acc x => if x ∈ acc then acc else acc ++ [x]) acc ↔ x ∈ acc ∨ x ∈ l := by
  induction l generalizing acc with
  | nil => simp [h]
  | cons a l ih =>
    rw [List.foldl_cons]
    by_cases ha : a ∈ acc
    · rw [if_pos ha]
      refine ⟨(ih acc h).1, fun x => ?_⟩
      rw [(ih acc h).2, List.mem_cons]
      constructor
      · tauto
      · rintro (h | rfl | h) <;> tauto
    · rw [if_neg ha]
      have hn : (acc ++ [a]).Nodup := by
        rw [List.nodup_append]
        refine ⟨h, by simp, ?_⟩
        intro x hx y hy e
        rw [List.mem_singleton] at hy
        subst e hy
        exact ha hx
      refine ⟨(ih _ hn).1, fun x => ?_⟩
      rw [(ih _ hn).2, List.mem_append, List.mem_singleton, List.mem_cons]
      tauto

theorem sortedParams_asc (l : List Int) : Ascending (sortedParams l) (· ∈ l) := by
  have h := addNew_inv l [] List.nodup_nil
  unfold sortedParams Ascending
  constructor
  · have h1 := List.pairwise_insertionSort (· ≤ ·) (l.foldl (fun acc x => if x ∈ acc then acc else acc ++ [x]) [])
    have h2 := (List.perm_insertionSort (· ≤ ·) (l.foldl (fun acc x => if x ∈ acc then acc else acc ++ [x]) [])).nodup_iff.2 h.1
    exact (h1.and h2).imp fun hab => lt_of_le_of_ne hab.1 hab.2
  · intro x
    rw [(List.perm_insertionSort (· ≤ ·) _).mem_iff, h.2]
    simp

/-! ## Tables -/

theorem fillTable_ok {α : Type} (k : Nat) (v : ResData α → α) (ds : List (ResData α)) (h : ∀ d ∈ ds, d.metrics[k]? = some (v d))
    (hu : ∀ d ∈ ds, ∀ d' ∈ ds, d.sro = d'.sro → d.L = d'.L → v d = v d') :
    ∃ cell, fillTable k ds = .ok cell ∧ (∀ d ∈ ds, cell d.sro d.L = some (v d)) ∧
      ∀ s l, (∀ d ∈ ds, ¬ (d.sro = s ∧ d.L = l)) → cell s l = none := by
  unfold fillTable
  have gen : ∀ (ds0 : List (ResData α)), (∀ d ∈ ds0, d ∈ ds) → ∀ (c0 : Int → Int → Option α),
      ∃ cell, ds0.foldlM (fillStep k) c0 = .ok cell ∧
      (∀ d ∈ ds, (d ∈ ds0 ∨ c0 d.sro d.L = some (v d)) → cell d.sro d.L = some (v d)) ∧
      ∀ s l, (∀ d ∈ ds0, ¬ (d.sro = s ∧ d.L = l)) → cell s l = c0 s l := by
    intro ds0
    induction ds0 with
    | nil => exact fun _ c0 => ⟨c0, rfl, fun d _ h => h.resolve_left (by simp), fun _ _ _ => rfl⟩
    | cons d ds0 ih =>
      intro hsub c0
      have hd := hsub d List.mem_cons_self
      obtain ⟨cell, h1, h2, h3⟩ := ih (fun x hx => hsub x (List.mem_cons_of_mem _ hx))
        (fun s l => if s = d.sro ∧ l = d.L then some (v d) else c0 s l)
      refine ⟨cell, ?_, ?_, ?_⟩
      · have e : fillStep k c0 d = .ok fun s l => if s = d.sro ∧ l = d.L then some (v d) else c0 s l := by
          unfold fillStep
          rw [h d hd]
        rw [List.foldlM_cons, e]
        exact h1
      · intro d' hd' hor
        apply h2 d' hd'
        by_cases hk : d'.sro = d.sro ∧ d'.L = d.L
        · right
          rw [if_pos hk, hu d hd d' hd' hk.1.symm hk.2.symm]
        · rcases hor with hor | hor
          · rcases List.mem_cons.1 hor with rfl | hor
            · exact absurd ⟨rfl, rfl⟩ hk
            · exact .inl hor
          · right
            rw [if_neg hk, hor]
      · intro s l hn
        rw [h3 s l fun x hx => hn x (List.mem_cons_of_mem _ hx), if_neg]
        intro hk
        exact hn d List.mem_cons_self ⟨hk.1.symm, hk.2.symm⟩
  obtain ⟨cell, h1, h2, h3⟩ := gen ds (fun _ h => h) (fun _ _ => none)
  exact ⟨cell, h1, fun d hd => h2 d hd (.inl hd), fun s l hn => h3 s l hn⟩

/-! ## Folders -/

theorem loadFolder_ok {α : Type} {Ns : Int} {f : ResFolder α} {l s : Int} {m : List α} (hp : parseName Ns f.name = .ok (l, s))
    (hm : f.scores = .ok m) : (loadFolder Ns f).1 = .ok ⟨l, s, m⟩ := by
  unfold loadFolder
  rw [hp]
  unfold ResFolder.scores at hm
  cases hpk : f.pkl with
  | none =>
    rw [hpk] at hm
    simp only [Option.getD_none] at hm
    simp only [hm]
  | some x =>
    rw [hpk] at hm
    simp only [Option.getD_some] at hm
    subst hm
    rfl

theorem loadFolder_name {α : Type} (Ns : Int) (f : ResFolder α) : (loadFolder Ns f).2.name = f.name := by
  unfold loadFolder
  cases parseName Ns f.name with
  | error e => rfl
  | ok p =>
    obtain ⟨l, s⟩ := p
    cases f.pkl with
    | none => cases f.outputs <;> rfl
    | some x => cases x <;> rfl

/-- A second look gives the same and changes nothing. -/
theorem loadFolder_again {α : Type} (Ns : Int) (f : ResFolder α) : loadFolder Ns (loadFolder Ns f).2 = loadFolder Ns f := by
  unfold loadFolder
  cases hp : parseName Ns f.name with
  | error e => simp only [hp]
  | ok p =>
    obtain ⟨l, s⟩ := p
    cases hk : f.pkl with
    | none =>
      cases ho : f.outputs with
      | error e => simp only [hp, hk, ho]
      | ok m => simp only [hp]
    | some x => cases x <;> simp only [hp, hk]

theorem loadLoop_und {α : Type} (Ns : Int) (ii : Nat) {f : ResFolder α} (h : f.name.head? = some '_') (fs : List (ResFolder α)) :
    loadLoop Ns ii (f :: fs) = (f :: (loadLoop Ns (ii + 1) fs).1, (loadLoop Ns (ii + 1) fs).2) := by
  rw [loadLoop, if_pos h]

theorem loadLoop_err {α : Type} (Ns : Int) (ii : Nat) {f f' : ResFolder α} {e : PyErr} (h : f.name.head? ≠ some '_')
    (hf : loadFolder Ns f = (.error e, f')) (fs : List (ResFolder α)) : loadLoop Ns ii (f :: fs) = (f' :: fs, .error e) := by
  rw [loadLoop, if_neg h, hf]

theorem loadLoop_cons {α : Type} (Ns : Int) (ii : Nat) {f f' : ResFolder α} {d : ResData α} (h : f.name.head? ≠ some '_')
    (hf : loadFolder Ns f = (.ok d, f')) (fs : List (ResFolder α)) : loadLoop Ns ii (f :: fs) = (f' :: (loadLoop Ns (ii + 1) fs).1,
      (loadLoop Ns (ii + 1) fs).2.map fun r => (d :: r.1, if ii = 0 then some d.metrics.length else r.2)) := by
  rw [loadLoop, if_neg h, hf]

theorem loadLoop_again {α : Type} (Ns : Int) (ii : Nat) (fs : List (ResFolder α)) :
    loadLoop Ns ii (loadLoop Ns ii fs).1 = loadLoop Ns ii fs := by
  induction fs generalizing ii with
  | nil => rfl
  | cons f fs ih =>
    by_cases h : f.name.head? = some '_'
    · rw [loadLoop_und Ns ii h, loadLoop_und Ns ii h, ih]
    · obtain ⟨r, f', hf⟩ : ∃ r f', loadFolder Ns f = (r, f') := ⟨_, _, rfl⟩
      have hn := loadFolder_name Ns f
      have ha := loadFolder_again Ns f
      rw [hf] at hn ha
      simp only at hn ha
      rw [← hn] at h
      have h' := h
      rw [hn] at h'
      cases r with
      | error e => rw [loadLoop_err Ns ii h' hf, loadLoop_err Ns ii h ha]
      | ok d => rw [loadLoop_cons Ns ii h' hf, loadLoop_cons Ns ii h ha, ih]

theorem loadLoop_ok {α : Type} (Ns : Int) (g : ResFolder α → ResData α) (ii : Nat) (fs : List (ResFolder α))
    (h : ∀ f ∈ fs, f.name.head? ≠ some '_' → (loadFolder Ns f).1 = .ok (g f)) :
    ∃ n, (loadLoop Ns ii fs).2 = .ok ((fs.filter fun f => f.name.head? ≠ some '_').map g, n) ∧
      (ii = 0 → ∀ f, fs.head? = some f → f.name.head? ≠ some '_' → n = some (g f).metrics.length) ∧
      (ii = 0 → ∀ f, fs.head? = some f → f.name.head? = some '_' → n = none) ∧ (ii ≠ 0 → n = none) := by
  induction fs generalizing ii with
  | nil => exact ⟨none, rfl, by simp, by simp, fun _ => rfl⟩
  | cons f fs ih =>
    obtain ⟨n, h1, -, -, h2⟩ := ih (ii + 1) fun x hx => h x (List.mem_cons_of_mem _ hx)
    by_cases hu : f.name.head? = some '_'
    · rw [loadLoop_und Ns ii hu]
      refine ⟨n, ?_, ?_, fun _ _ _ _ => h2 (by omega), fun _ => h2 (by omega)⟩
      · rw [List.filter_cons_of_neg (by simpa using hu)]
        exact h1
      · intro _ x hx hxu
        simp only [List.head?_cons, Option.some.injEq] at hx
        subst hx
        exact absurd hu hxu
    · obtain ⟨r, f', hf⟩ : ∃ r f', loadFolder Ns f = (r, f') := ⟨_, _, rfl⟩
      have hr := h f List.mem_cons_self hu
      rw [hf] at hr
      simp only at hr
      subst hr
      rw [loadLoop_cons Ns ii hu hf, h1]
      refine ⟨if ii = 0 then some (g f).metrics.length else n, ?_, ?_, ?_, ?_⟩
      · rw [List.filter_cons_of_pos (by simpa using hu)]
        rfl
      · intro h0 x hx _
        simp only [List.head?_cons, Option.some.injEq] at hx
        subst hx
        rw [if_pos h0]
      · intro _ x hx hxu
        simp only [List.head?_cons, Option.some.injEq] at hx
        subst hx
        exact absurd hxu hu
      · intro h0
        rw [if_neg h0]
        exact h2 (by omega)

/-- Without the first folder, the number of nodes is not known. -/
theorem loadLoop_later {α : Type} (Ns : Int) (ii : Nat) (h0 : ii ≠ 0) (fs : List (ResFolder α)) {ds n}
    (h : (loadLoop Ns ii fs).2 = .ok (ds, n)) : n = none := by
  induction fs generalizing ii ds n with
  | nil =>
    simp only [loadLoop, Except.ok.injEq, Prod.mk.injEq] at h
    exact h.2.symm
  | cons f fs ih =>
    by_cases hu : f.name.head? = some '_'
    · rw [loadLoop_und Ns ii hu] at h
      exact ih (ii + 1) (by omega) h
    · obtain ⟨r, f', hf⟩ : ∃ r f', loadFolder Ns f = (r, f') := ⟨_, _, rfl⟩
      cases r with
      | error e =>
        rw [loadLoop_err Ns ii hu hf] at h
        simp at h
      | ok d =>
        rw [loadLoop_cons Ns ii hu hf] at h
        cases hl : (loadLoop Ns (ii + 1) fs).2 with
        | error e => rw [hl] at h; simp [Except.map] at h
        | ok p =>
          rw [hl] at h
          simp only [Except.map, Except.ok.injEq, Prod.mk.injEq, if_neg h0] at h
          rw [← h.2]
          exact ih (ii + 1) (by omega) (ds := p.1) (n := p.2) hl

end Danse
