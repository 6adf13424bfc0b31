import Verif.Model.Align
import Verif.Proofs.Config
import Verif.Proofs.Params
import Verif.Proofs.Online4
import Verif.Proofs.Evaluate
import Verif.Props.Scenario

/-!
# C111, C112: random noise files, predefined layouts
-/

set_option linter.unusedSectionVars false

namespace Danse

variable {F : Type} [DecidableEq F]

/-! ### C111 -/

theorem pruneLoop_sublist (alt : F → F) (i : Nat) (files : List F) :
    (pruneLoop alt i files).Sublist files := by
  fun_induction pruneLoop alt i files with
  | case1 i files h ha ih => exact ih.trans List.erase_sublist
  | case2 i files h ha ih => exact ih
  | case3 i files h => exact List.Sublist.refl _

/-- Which files are dropped: going through the list, a file with a counterpart is dropped, and the file after
it is then kept unseen. -/
def dropSeen (has : F → Prop) [DecidablePred has] : List F → List F
  | [] => []
  | [f] => if has f then [] else [f]
  | f :: g :: t => if has f then g :: dropSeen has t else f :: dropSeen has (g :: t)

/-- Counterparts have no counterparts of their own. -/
def PlainAlts (alt : F → F) (files : List F) : Prop := ∀ f ∈ files, alt f ∈ files → alt (alt f) ∉ files

theorem pruneLoop_eq (alt : F → F) (all : List F) (hp : PlainAlts alt all) :
    ∀ (rest pre : List F), (pre ++ rest).Nodup → (∀ f ∈ pre ++ rest, f ∈ all) →
      (∀ f ∈ all, alt f ∉ all → f ∈ pre ++ rest) →
      pruneLoop alt pre.length (pre ++ rest) = pre ++ dropSeen (fun f => alt f ∈ all) rest := by
  intro rest
  induction hn : rest.length using Nat.strong_induction_on generalizing rest with
  | _ n ih =>
    intro pre hd hs hk
    cases rest with
    | nil =>
      rw [pruneLoop]
      simp [dropSeen]
    | cons f t =>
      have hfa : f ∈ all := hs f (by simp)
      have hlt : pre.length < (pre ++ f :: t).length := by simp
      have hf : (pre ++ f :: t)[pre.length] = f := by simp
      have hmem : alt f ∈ pre ++ f :: t ↔ alt f ∈ all :=
        ⟨fun h => hs _ h, fun h => hk _ h (hp f hfa h)⟩
      rw [pruneLoop, dif_pos hlt]
      simp only [hf]
      have hnp : f ∉ pre := by
        intro h
        rw [List.nodup_append] at hd
        exact hd.2.2 f h f (by simp) rfl
      by_cases ha : alt f ∈ all
      · rw [if_pos (hmem.mpr ha)]
        have he : (pre ++ f :: t).erase f = pre ++ t := by
          rw [List.erase_append_right _ hnp, List.erase_cons_head]
        rw [he]
        have hd' : (pre ++ t).Nodup := hd.sublist (by simp)
        have hs' : ∀ g ∈ pre ++ t, g ∈ all := fun g hg => hs g (by
          rw [List.mem_append] at hg ⊢
          exact hg.imp id (List.mem_cons_of_mem _))
        have hk' : ∀ g ∈ all, alt g ∉ all → g ∈ pre ++ t := by
          intro g hg hga
          have := hk g hg hga
          rw [List.mem_append, List.mem_cons] at this
          rw [List.mem_append]
          rcases this with h | rfl | h
          · exact .inl h
          · exact absurd ha hga
          · exact .inr h
        cases t with
        | nil =>
          rw [pruneLoop, dif_neg (by simp)]
          simp [dropSeen, ha]
        | cons g u =>
          have := ih u.length (by simp at hn; omega) u rfl (pre ++ [g]) (by simpa using hd')
            (by simpa using hs') (by simpa using hk')
          simp only [List.append_assoc, List.singleton_append, List.length_append, List.length_singleton] at this
          rw [this, dropSeen, if_pos ha]
      · rw [if_neg (fun h => ha (hmem.mp h))]
        have := ih t.length (by simp at hn; omega) t rfl (pre ++ [f]) (by simpa using hd)
          (by simpa using hs) (by simpa using hk)
        simp only [List.append_assoc, List.singleton_append, List.length_append, List.length_singleton] at this
        rw [this]
        cases t with
        | nil => simp [dropSeen, ha]
        | cons g u => rw [dropSeen, if_neg ha]

theorem selectFiles_ok {alt : F → F} {babble : F → Bool} {d : Folder F} {n : Nat} {r : List F}
    (h : selectFiles alt babble d n = .ok r) :
    n ≤ (pruneLoop alt 0 (d.files.filter fun f => !babble f)).length ∧
    ((d.choice (pruneLoop alt 0 (d.files.filter fun f => !babble f)).length n).mapM fun (i : Nat) =>
      pyGet (pruneLoop alt 0 (d.files.filter fun f => !babble f)) i) = .ok r := by
  unfold selectFiles at h
  simp only at h
  by_cases hn : n ≤ (pruneLoop alt 0 (d.files.filter fun f => !babble f)).length
  · rw [if_pos hn] at h
    exact ⟨hn, h⟩
  · rw [if_neg hn] at h; cases h

/-- **C111 (selection).** The noise files chosen from a folder are as many different files of it as there are
noise sources, none of them the file of diffuse babble. -/
theorem C111_selected {alt : F → F} {babble : F → Bool} {d : Folder F} {n : Nat} {r : List F}
    (hf : d.Fair) (hd : d.files.Nodup) (h : selectFiles alt babble d n = .ok r) :
    r.length = n ∧ r.Nodup ∧ ∀ f ∈ r, f ∈ d.files ∧ babble f = false := by
  obtain ⟨hn, hr⟩ := selectFiles_ok h
  have hsub := pruneLoop_sublist alt 0 (d.files.filter fun f => !babble f)
  generalize pruneLoop alt 0 (d.files.filter fun f => !babble f) = files at *
  obtain ⟨hl, hnd, hlt⟩ := hf files.length n hn
  have hfn : files.Nodup := (hd.filter _).sublist hsub
  obtain ⟨h1, h2⟩ := mapM_get hr
  have hget : ∀ (i : Nat) f, r[i]? = some f → ∃ j, (d.choice files.length n)[i]? = some j ∧ files[j]? = some f := by
    intro i f hi
    have hil := (List.getElem?_eq_some_iff.mp hi).1
    have hil' : i < (d.choice files.length n).length := by omega
    obtain ⟨y, hy, hy'⟩ := h2 i _ (List.getElem?_eq_getElem hil')
    rw [hi] at hy; injection hy with hy; subst hy
    exact ⟨_, List.getElem?_eq_getElem hil', pyGet_ok_nat hy'⟩
  refine ⟨by omega, ?_, ?_⟩
  · rw [List.nodup_iff_getElem?_ne_getElem?]
    intro i j hij hj he
    obtain ⟨f, hf1⟩ : ∃ f, r[j]? = some f := ⟨_, List.getElem?_eq_getElem hj⟩
    rw [hf1] at he
    obtain ⟨a, ha, ha'⟩ := hget i f he
    obtain ⟨b, hb, hb'⟩ := hget j f hf1
    have hab : a = b := by
      have hal := (List.getElem?_eq_some_iff.mp ha').1
      by_contra hne
      exact hne ((List.getElem?_inj hal hfn).mp (ha'.trans hb'.symm))
    subst hab
    have := (List.getElem?_inj (by
      have := (List.getElem?_eq_some_iff.mp ha).1; exact this) hnd).mp (ha.trans hb.symm)
    omega
  · intro f hfm
    obtain ⟨i, hi⟩ := List.mem_iff_getElem?.mp hfm
    obtain ⟨j, -, hj⟩ := hget i f hi
    have := hsub.subset (List.mem_of_getElem? hj)
    rw [List.mem_filter] at this
    exact ⟨this.1, by simpa using this.2⟩

/-- **C111 (candidates).** If files of the right sampling rate have no counterparts of their own: the
candidates are the usable files without those dropped by the pass `dropSeen`, so that the selection succeeds
iff there are enough of those. -/
theorem C111_candidates {alt : F → F} {babble : F → Bool} {d : Folder F} (n : Nat) (hf : d.Fair)
    (hd : d.files.Nodup) (hp : PlainAlts alt (d.files.filter fun f => !babble f)) :
    (∀ r, selectFiles alt babble d n = .ok r →
      ∀ f ∈ r, f ∈ dropSeen (fun f => alt f ∈ d.files.filter fun f => !babble f)
        (d.files.filter fun f => !babble f)) ∧
    ((∃ r, selectFiles alt babble d n = .ok r) ↔
      n ≤ (dropSeen (fun f => alt f ∈ d.files.filter fun f => !babble f)
        (d.files.filter fun f => !babble f)).length) ∧
    ((¬ ∃ r, selectFiles alt babble d n = .ok r) → selectFiles alt babble d n = .error .valueError) := by
  have he := pruneLoop_eq alt (d.files.filter fun f => !babble f) hp (d.files.filter fun f => !babble f) []
    (by simpa using hd.filter _) (by simp) (by intro f hf _; simpa using hf)
  simp only [List.length_nil, List.nil_append] at he
  refine ⟨?_, ⟨?_, ?_⟩, ?_⟩
  · intro r hr f hfr
    obtain ⟨-, hr⟩ := selectFiles_ok hr
    rw [he] at hr
    obtain ⟨i, hi⟩ := List.mem_iff_getElem?.mp hfr
    obtain ⟨h1, h2⟩ := mapM_get hr
    have hil := (List.getElem?_eq_some_iff.mp hi).1
    obtain ⟨y, hy, hy'⟩ := h2 i _ (List.getElem?_eq_getElem (by omega))
    rw [hi] at hy; injection hy with hy; subst hy
    exact List.mem_of_getElem? (pyGet_ok_nat hy')
  · rintro ⟨r, hr⟩
    have := (selectFiles_ok hr).1
    rwa [he] at this
  · intro hn
    unfold selectFiles
    simp only [he]
    rw [if_pos hn]
    generalize dropSeen (fun f => alt f ∈ d.files.filter fun f => !babble f)
        (d.files.filter fun f => !babble f) = files at hn ⊢
    obtain ⟨-, -, hlt⟩ := hf files.length n hn
    generalize d.choice files.length n = l at hlt
    induction l with
    | nil => exact ⟨[], rfl⟩
    | cons i t ih =>
      obtain ⟨r, hr⟩ := ih fun j hj => hlt j (by simp [hj])
      have hi := hlt i (by simp)
      refine ⟨files[i] :: r, ?_⟩
      rw [List.mapM_cons, pyGet_nat_ok (List.getElem?_eq_getElem hi), scenBind, hr]
      rfl
  · intro hno
    unfold selectFiles at hno ⊢
    simp only at hno ⊢
    by_cases hn : n ≤ (pruneLoop alt 0 (d.files.filter fun f => !babble f)).length
    · exfalso
      apply hno
      rw [if_pos hn]
      generalize pruneLoop alt 0 (d.files.filter fun f => !babble f) = files at hn ⊢
      obtain ⟨-, -, hlt⟩ := hf files.length n hn
      generalize d.choice files.length n = l at hlt
      clear hno
      induction l with
      | nil => exact ⟨[], rfl⟩
      | cons i t ih =>
        obtain ⟨r, hr⟩ := ih fun j hj => hlt j (by simp [hj])
        have hi := hlt i (by simp)
        refine ⟨files[i] :: r, ?_⟩
        rw [List.mapM_cons, pyGet_nat_ok (List.getElem?_eq_getElem hi), scenBind, hr]
        rfl
    · rw [if_neg hn]

theorem dropSeen_keeps (has : F → Prop) [DecidablePred has] {f : F} (hf : ¬ has f) :
    ∀ l : List F, f ∈ l → f ∈ dropSeen has l := by
  intro l
  fun_induction dropSeen has l with
  | case1 => simp
  | case2 g hg => intro h; simp at h; exact absurd (h ▸ hg) hf
  | case3 g hg => simp
  | case4 a g t ha ih =>
    intro h
    simp only [List.mem_cons] at h ⊢
    rcases h with rfl | rfl | h
    · exact absurd ha hf
    · exact .inl rfl
    · exact .inr (ih h)
  | case5 a g t ha ih =>
    intro h
    rw [List.mem_cons] at h ⊢
    exact h.imp id ih

theorem dropSeen_isolated (has : F → Prop) [DecidablePred has] : ∀ l : List F,
    List.IsChain (fun f g => ¬ (has f ∧ has g)) l → ∀ f ∈ dropSeen has l, ¬ has f := by
  intro l
  fun_induction dropSeen has l with
  | case1 => simp
  | case2 g hg => simp
  | case3 g hg => simpa using hg
  | case4 a g t ha ih =>
    intro hc f hf
    rw [List.isChain_cons_cons] at hc
    rw [List.mem_cons] at hf
    rcases hf with rfl | hf
    · exact fun h => hc.1 ⟨ha, h⟩
    · refine ih ?_ f hf
      cases t with
      | nil => simp
      | cons b u => exact (List.isChain_cons_cons.mp hc.2).2
  | case5 a g t ha ih =>
    intro hc f hf
    rw [List.mem_cons] at hf
    rcases hf with rfl | hf
    · exact ha
    · exact ih (List.isChain_cons_cons.mp hc).2 f hf

/-- **C111 (no file is lost).** Every usable file without a counterpart stays a candidate, so that for every
usable file the file itself or its counterpart can be chosen. -/
theorem C111_kept {alt : F → F} {babble : F → Bool} {d : Folder F} (f : F)
    (hp : PlainAlts alt (d.files.filter fun f => !babble f)) (h : f ∈ d.files) (hb : babble f = false) :
    f ∈ dropSeen (fun f => alt f ∈ d.files.filter fun f => !babble f) (d.files.filter fun f => !babble f) ∨
    alt f ∈ dropSeen (fun f => alt f ∈ d.files.filter fun f => !babble f)
      (d.files.filter fun f => !babble f) := by
  have hm : f ∈ d.files.filter fun f => !babble f := List.mem_filter.mpr ⟨h, by simp [hb]⟩
  by_cases ha : alt f ∈ d.files.filter fun f => !babble f
  · exact .inr (dropSeen_keeps (fun f => alt f ∈ d.files.filter fun f => !babble f) (hp f hm ha) _ ha)
  · exact .inl (dropSeen_keeps (fun f => alt f ∈ d.files.filter fun f => !babble f) ha _ hm)

/-- **C111 (sampling rate).** If of any two consecutive usable files at most one has a counterpart at the right
sampling rate, no chosen file has one. -/
theorem C111_right_rate {alt : F → F} {babble : F → Bool} {d : Folder F} {n : Nat} {r : List F}
    (hf : d.Fair) (hd : d.files.Nodup) (hp : PlainAlts alt (d.files.filter fun f => !babble f))
    (hc : (d.files.filter fun f => !babble f).IsChain fun f g =>
      ¬ (alt f ∈ (d.files.filter fun f => !babble f) ∧ alt g ∈ (d.files.filter fun f => !babble f)))
    (h : selectFiles alt babble d n = .ok r) :
    ∀ f ∈ r, alt f ∉ d.files.filter fun f => !babble f :=
  fun f hfr => dropSeen_isolated _ _ hc f ((C111_candidates n hf hd hp).1 r h f hfr)

/-- Files 0 and 1 with counterparts 10 and 11; draw of the indices in order. -/
def exFolder : Folder Nat := ⟨[0, 1, 10, 11], fun _ size => List.range size⟩

def exAlt (f : Nat) : Nat := f + 10

theorem exFolder_fair : exFolder.Fair := by
  intro len size h
  refine ⟨by simp [exFolder], by simpa [exFolder] using List.nodup_range, ?_⟩
  intro i hi
  simp only [exFolder, List.mem_range] at hi
  omega

/-- **C111, refuted (sampling rate).** Of two consecutive files with counterparts the second stays a candidate
and can be chosen. -/
theorem C111_refuted_rate : ∃ r, selectFiles exAlt (fun _ => false) exFolder 3 = .ok r ∧
    ∃ f ∈ r, exAlt f ∈ exFolder.files := by
  refine ⟨[1, 10, 11], ?_, 1, by simp, by decide⟩
  have h : pruneLoop exAlt 0 (exFolder.files.filter fun f => !(fun _ => false : Nat → Bool) f) = [1, 10, 11] := by
    have := pruneLoop_eq exAlt exFolder.files (by unfold PlainAlts; decide) exFolder.files [] (by decide) (by simp)
      (by intro f hf _; simpa using hf)
    simp only [List.length_nil, List.nil_append] at this
    have e : (exFolder.files.filter fun f => !(fun _ => false : Nat → Bool) f) = exFolder.files := by decide
    rw [e, this]
    decide
  unfold selectFiles
  simp only [h]
  rfl

/-- The hypotheses of the theorems above hold of a folder in which the files with counterparts are not
consecutive. -/
example : let d : Folder Nat := ⟨[0, 10, 1, 11, 5], fun _ size => List.range size⟩
    d.files.Nodup ∧ PlainAlts exAlt (d.files.filter fun f => !(fun _ => false : Nat → Bool) f) ∧
    (d.files.filter fun f => !(fun _ => false : Nat → Bool) f).IsChain (fun f g =>
      ¬ (exAlt f ∈ (d.files.filter fun f => !(fun _ => false : Nat → Bool) f) ∧
        exAlt g ∈ (d.files.filter fun f => !(fun _ => false : Nat → Bool) f))) := by
  refine ⟨by decide, ?_, by decide⟩
  unfold PlainAlts
  decide

/-! ### C112 -/

theorem npMin_le : ∀ {l : List ℚ} {m : ℚ}, npMin l = .ok m → m ∈ l ∧ ∀ x ∈ l, m ≤ x := by
  intro l m h
  cases l with
  | nil => cases h
  | cons x l =>
    injection h with h
    subst h
    induction l using List.reverseRecOn with
    | nil => simp
    | append_singleton l a ih =>
      rw [List.foldl_append]
      simp only [List.foldl_cons, List.foldl_nil]
      obtain ⟨h1, h2⟩ := ih
      constructor
      · rcases min_choice (l.foldl min x) a with h | h
        · rw [h]
          simp only [List.mem_cons, List.mem_append] at h1 ⊢
          tauto
        · rw [h]; simp
      · intro y hy
        simp only [List.mem_cons, List.mem_append, List.not_mem_nil, or_false] at hy
        rcases hy with hy | hy | hy
        · exact (min_le_left _ _).trans (h2 y (by simp [hy]))
        · exact (min_le_left _ _).trans (h2 y (by simp [hy]))
        · exact hy ▸ min_le_right _ _

theorem checkWalls_ok {p : SceneParams F} (h : p.checkWalls = .ok ()) :
    p.rd ≠ [] ∧ ∀ x ∈ p.rd, 3 * p.minDistToWalls < x := by
  unfold SceneParams.checkWalls at h
  obtain ⟨m, hm, h⟩ := bind_ok_inv h
  obtain ⟨h1, h2⟩ := npMin_le hm
  by_cases hc : p.minDistToWalls ≥ m / 3
  · rw [if_pos hc] at h; cases h
  refine ⟨List.ne_nil_of_mem h1, fun x hx => ?_⟩
  have := h2 x hx
  push Not at hc
  linarith

theorem checkWalls_total {p : SceneParams F} (h1 : p.rd ≠ []) (h2 : ∀ x ∈ p.rd, 3 * p.minDistToWalls < x) :
    p.checkWalls = .ok () := by
  obtain ⟨m, hm⟩ : ∃ m, npMin p.rd = .ok m := by
    cases hr : p.rd with
    | nil => exact absurd hr h1
    | cons x l => exact ⟨_, rfl⟩
  have := h2 m (npMin_le hm).1
  unfold SceneParams.checkWalls
  rw [hm, scenBind, if_neg (by push Not; linarith)]
  rfl

theorem pickNoise_ok {alt : F → F} {babble : F → Bool} {p q : SceneParams F}
    (h : p.pickNoise alt babble = .ok q) :
    q.wasn = p.wasn ∧ q.rd = p.rd ∧ q.minDistToWalls = p.minDistToWalls ∧ q.nDesired = p.nDesired ∧
      q.nNoise = p.nNoise ∧ q.desiredFiles = p.desiredFiles ∧
      (∃ l, q.noiseFiles = .files l ∧
        (p.folder = none ∧ p.noiseFiles = .files l ∧ q.folder = none ∨
          ∃ d, (p.noiseFiles = .loadFrom d ∨ p.folder = some d) ∧ q.folder = some d ∧
            selectFiles alt babble d p.nNoise = .ok l)) := by
  unfold SceneParams.pickNoise at h
  cases hn : p.noiseFiles with
  | loadFrom d =>
    rw [hn] at h
    obtain ⟨l, hl, h⟩ := map_ok_inv h
    subst h
    exact ⟨rfl, rfl, rfl, rfl, rfl, rfl, l, rfl, .inr ⟨d, .inl rfl, rfl, hl⟩⟩
  | files l =>
    rw [hn] at h
    cases hf : p.folder with
    | none =>
      simp only [hf] at h
      injection h with h
      subst h
      exact ⟨rfl, rfl, rfl, rfl, rfl, rfl, l, hn, .inl ⟨rfl, rfl, hf⟩⟩
    | some d =>
      simp only [hf] at h
      obtain ⟨l', hl, h⟩ := map_ok_inv h
      subst h
      exact ⟨rfl, rfl, rfl, rfl, rfl, rfl, l', rfl, .inr ⟨d, .inr rfl, rfl, hl⟩⟩

theorem scene_postInit_ok {alt : F → F} {babble : F → Bool} {p q : SceneParams F}
    (h : p.postInit alt babble = .ok q) :
    ∃ p' w, p.checkWalls = .ok () ∧ p.pickNoise alt babble = .ok p' ∧ p'.wasn.postInit = .ok w ∧
      q = { p' with wasn := w } := by
  unfold SceneParams.postInit at h
  obtain ⟨u, h1, h⟩ := bind_ok_inv h
  obtain ⟨p', h2, h⟩ := bind_ok_inv h
  obtain ⟨w, h3, h⟩ := bind_ok_inv h
  injection h with h
  exact ⟨p', w, h1, h2, h3, h.symm⟩

theorem checkFiles_ok {p q : SceneParams F} (h : p.checkFiles = .ok q) :
    q = p ∧ p.nDesired ≤ p.desiredFiles.length ∧ p.nNoise ≤ p.noiseFiles.count := by
  unfold SceneParams.checkFiles at h
  by_cases h1 : p.nDesired > p.desiredFiles.length
  · rw [if_pos h1] at h; cases h
  rw [if_neg h1] at h
  by_cases h2 : p.nNoise > p.noiseFiles.count
  · rw [if_pos h2] at h; cases h
  rw [if_neg h2] at h
  injection h with h
  exact ⟨h.symm, by omega, by omega⟩

theorem checkFiles_or (p : SceneParams F) : p.checkFiles = .ok p ∨ p.checkFiles = .error .valueError := by
  unfold SceneParams.checkFiles
  by_cases h1 : p.nDesired > p.desiredFiles.length
  · rw [if_pos h1]; exact .inr rfl
  rw [if_neg h1]
  by_cases h2 : p.nNoise > p.noiseFiles.count
  · rw [if_pos h2]; exact .inr rfl
  rw [if_neg h2]; exact .inl rfl

/-- Values per node that can be used in a network of `n` nodes: one each, or all the same, or none. -/
def FitsNodes (v : List Int) (n : Nat) : Prop := v.length = n ∨ ∀ x ∈ v, ∀ y ∈ v, x = y

/-- What is used then. -/
def fitNodes (v : List Int) (n : Nat) : List Int :=
  if v.length = n then v else List.replicate n (v.headD 0)

theorem dimCheck_eq (v : List Int) (n : Nat) :
    (FitsNodes v n → dimCheck v n = .ok (fitNodes v n)) ∧ (¬ FitsNodes v n → dimCheck v n = .error .valueError) := by
  unfold dimCheck fitNodes FitsNodes
  by_cases hl : v.length = n
  · simp [hl]
  · rw [if_pos hl, if_neg hl]
    cases v with
    | nil => simp
    | cons a t =>
      simp only
      by_cases ha : ((a :: t).all fun x => decide (x = a)) = true
      · rw [if_pos ha]
        simp only [List.all_eq_true, decide_eq_true_eq] at ha
        refine ⟨fun _ => rfl, fun h => ?_⟩
        exact absurd (.inr fun x hx y hy => (ha x hx).trans (ha y hy).symm) h
      · rw [if_neg ha]
        refine ⟨?_, fun _ => rfl⟩
        rintro (h | h)
        · exact absurd h hl
        · exfalso
          apply ha
          simp only [List.all_eq_true, decide_eq_true_eq]
          exact fun x hx => h x hx a (by simp)

/-- **C112 (aligned).** Parameters aligned with a layout file describe the network of that file: its room,
sensors, nodes, sources; one sampling-rate offset and one number of added sensors per node; a file for every
source; a room in which the distance to the walls can be kept. -/
theorem C112_aligned {alt : F → F} {babble : F → Bool} {p q : SceneParams F} {l : LayoutFile}
    (h : p.align alt babble l = .ok q) :
    q.rd = l.rd ∧ (∀ x ∈ q.rd, 3 * q.minDistToWalls < x) ∧
    q.wasn.nSensorPerNode = l.Mk ∧ q.wasn.nNodes = l.Mk.length ∧
    q.wasn.sensorToNodeIndices = sensorToNode l.Mk ∧
    q.wasn.SROperNode = fitNodes p.wasn.SROperNode l.Mk.length ∧
    q.wasn.addedNoise = fitNodes p.wasn.addedNoise l.Mk.length ∧
    q.nDesired = l.nTargets ∧ q.nNoise = l.nInterferers ∧ q.desiredFiles = p.desiredFiles ∧
    l.nTargets ≤ q.desiredFiles.length ∧
    ∃ f, q.noiseFiles = .files f ∧ l.nInterferers ≤ f.length ∧
      (p.folder = none ∧ p.noiseFiles = .files f ∨
        ∃ d, (p.noiseFiles = .loadFrom d ∨ p.folder = some d) ∧ q.folder = some d ∧
          selectFiles alt babble d l.nInterferers = .ok f) := by
  unfold SceneParams.align at h
  obtain ⟨q', h1, h⟩ := bind_ok_inv h
  obtain ⟨rfl, hd, hn⟩ := checkFiles_ok h
  obtain ⟨p', w, hw, hp, hi, rfl⟩ := scene_postInit_ok h1
  obtain ⟨e1, e2, e3, e4, e5, e6, f, e7, e8⟩ := pickNoise_ok hp
  simp only at e1 e2 e3 e4 e5 e6 e8 hd hn
  rw [e1] at hi
  obtain ⟨an, sro, h2, h3, rfl⟩ := wasn_postInit_ok hi
  simp only at h2 h3
  have hfit : ∀ v n r, dimCheck v n = .ok r → r = fitNodes v n := by
    intro v n r hr
    by_cases hv : FitsNodes v n
    · rw [(dimCheck_eq v n).1 hv] at hr
      injection hr with hr
      exact hr.symm
    · rw [(dimCheck_eq v n).2 hv] at hr; cases hr
  have hwl := (checkWalls_ok hw).2
  simp only at hwl
  rw [e7] at hn
  refine ⟨e2, ?_, rfl, rfl, rfl, hfit _ _ _ h3, hfit _ _ _ h2, e4, e5, e6, ?_, f, e7, ?_, ?_⟩
  · simp only [e2, e3]; exact hwl
  · rw [← e4]; exact hd
  · rw [← e5]; exact hn
  · rcases e8 with ⟨a, b, -⟩ | ⟨d, a, b, c⟩
    · exact .inl ⟨a, b⟩
    · exact .inr ⟨d, a, b, c⟩

/-- **C112 (when it works).** With noise files given by name: alignment succeeds iff the room is large enough
for the distance to the walls, the offsets and added sensors fit the number of nodes, and there is a file for
every source; otherwise it raises `ValueError`. -/
theorem C112_iff {alt : F → F} {babble : F → Bool} {p : SceneParams F} {l : LayoutFile} {f : List F}
    (h1 : p.noiseFiles = .files f) (h2 : p.folder = none) :
    ((∃ q, p.align alt babble l = .ok q) ↔
      (l.rd ≠ [] ∧ ∀ x ∈ l.rd, 3 * p.minDistToWalls < x) ∧ FitsNodes p.wasn.addedNoise l.Mk.length ∧
      FitsNodes p.wasn.SROperNode l.Mk.length ∧ l.nTargets ≤ p.desiredFiles.length ∧
      l.nInterferers ≤ f.length) ∧
    ((¬ ∃ q, p.align alt babble l = .ok q) → p.align alt babble l = .error .valueError) := by
  set p0 : SceneParams F := { p with
    rd := l.rd, wasn := { p.wasn with nSensorPerNode := l.Mk, nNodes := l.Mk.length },
    nDesired := l.nTargets, nNoise := l.nInterferers } with hp0
  have hpick : p0.pickNoise alt babble = .ok p0 := by
    unfold SceneParams.pickNoise
    rw [hp0]
    simp only [h1, h2]
  have hal : p.align alt babble l = (p0.checkWalls >>= fun _ => p0.wasn.postInit >>= fun w =>
      SceneParams.checkFiles { p0 with wasn := w }) := by
    unfold SceneParams.align SceneParams.postInit
    rw [← hp0]
    cases hw : p0.checkWalls with
    | error e => rfl
    | ok u =>
      rw [scenBind, scenBind, hpick, scenBind]
      cases hi : p0.wasn.postInit with
      | error e => rfl
      | ok w => rfl
  have hcw : p0.checkWalls = .ok () ∨ p0.checkWalls = .error .valueError := by
    unfold SceneParams.checkWalls
    cases hr : p0.rd with
    | nil => exact .inr rfl
    | cons x t =>
      change (if _ then _ else _) = _ ∨ (if _ then _ else _) = _
      split
      · exact .inr rfl
      · exact .inl rfl
  have key : (l.rd ≠ [] ∧ (∀ x ∈ l.rd, 3 * p.minDistToWalls < x)) ∧ FitsNodes p.wasn.addedNoise l.Mk.length ∧
      FitsNodes p.wasn.SROperNode l.Mk.length ∧ l.nTargets ≤ p.desiredFiles.length ∧
      l.nInterferers ≤ f.length → ∃ q, p.align alt babble l = .ok q := by
    rintro ⟨hw, ha, hs, hd, hn⟩
    rw [hal, checkWalls_total (p := p0) hw.1 hw.2, scenBind]
    unfold WasnParams.postInit
    simp only [hp0]
    rw [(dimCheck_eq _ _).1 ha, scenBind, (dimCheck_eq _ _).1 hs, scenBind, scenBind]
    unfold SceneParams.checkFiles
    simp only [h1, NoiseFiles.count]
    rw [if_neg (by omega), if_neg (by omega)]
    exact ⟨_, rfl⟩
  refine ⟨⟨?_, key⟩, ?_⟩
  · rintro ⟨q, hq⟩
    rw [hal] at hq
    obtain ⟨u, hw, hq⟩ := bind_ok_inv hq
    obtain ⟨w, hi, hq⟩ := bind_ok_inv hq
    obtain ⟨rfl, hd, hn⟩ := checkFiles_ok hq
    obtain ⟨an, sro, h3, h4, rfl⟩ := wasn_postInit_ok hi
    simp only [hp0, h1, NoiseFiles.count] at h3 h4 hd hn
    have hfit : ∀ v n r, dimCheck v n = .ok r → FitsNodes v n := by
      intro v n r hr
      by_contra hv
      rw [(dimCheck_eq v n).2 hv] at hr; cases hr
    have hwl := checkWalls_ok hw
    simp only [hp0] at hwl
    exact ⟨hwl, hfit _ _ _ h3, hfit _ _ _ h4, hd, hn⟩
  · intro hno
    rw [hal] at hno ⊢
    rcases hcw with hw | hw
    · rw [hw, scenBind] at hno ⊢
      unfold WasnParams.postInit at hno ⊢
      by_cases ha : FitsNodes p0.wasn.addedNoise p0.wasn.nSensorPerNode.length
      · by_cases hs : FitsNodes p0.wasn.SROperNode p0.wasn.nSensorPerNode.length
        · simp only at hno ⊢
          rw [(dimCheck_eq _ _).1 ha, scenBind, (dimCheck_eq _ _).1 hs, scenBind, scenBind] at hno ⊢
          rcases checkFiles_or (F := F) _ with h | h
          · exact absurd ⟨_, h⟩ hno
          · exact h
        · simp only
          rw [(dimCheck_eq _ _).1 ha, scenBind, (dimCheck_eq _ _).2 hs]
          rfl
      · simp only
        rw [(dimCheck_eq _ _).2 ha]
        rfl
    · rw [hw]; rfl

/-- **C112, refuted (random signals).** A layout file with a target cannot be used with random signals and no
signal files: the run fails whatever `signalType` is. -/
theorem C112_refuted_random_signals {alt : F → F} {babble : F → Bool} {p : SceneParams F} {l : LayoutFile}
    (hd : p.desiredFiles = []) (hl : 1 ≤ l.nTargets) (q : SceneParams F) : p.align alt babble l ≠ .ok q := by
  intro h
  obtain ⟨-, -, -, -, -, -, -, -, -, e, hle, -⟩ := C112_aligned h
  rw [e, hd] at hle
  simp at hle
  omega

/-- **C112 (offsets of the layout's nodes).** Offsets that differ between nodes are accepted only if there are
as many as nodes both in the parameters and in the layout file. -/
theorem C112_offsets {alt : F → F} {babble : F → Bool} {p p' q : SceneParams F} {l : LayoutFile}
    (h : p.postInit alt babble = .ok p') (ha : p'.align alt babble l = .ok q) {x y : Int}
    (hx : x ∈ p.wasn.SROperNode) (hy : y ∈ p.wasn.SROperNode) (hxy : x ≠ y) :
    p.wasn.nSensorPerNode.length = p.wasn.SROperNode.length ∧ l.Mk.length = p.wasn.SROperNode.length ∧
      q.wasn.SROperNode = p.wasn.SROperNode := by
  obtain ⟨p1, w, -, hp, hi, rfl⟩ := scene_postInit_ok h
  obtain ⟨e1, -⟩ := pickNoise_ok hp
  rw [e1] at hi
  obtain ⟨an, sro, h2, h3, rfl⟩ := wasn_postInit_ok hi
  have hfits : ∀ n, FitsNodes p.wasn.SROperNode n → p.wasn.SROperNode.length = n := by
    rintro n (h | h)
    · exact h
    · exact absurd (h x hx y hy) hxy
  have hf : FitsNodes p.wasn.SROperNode p.wasn.nSensorPerNode.length := by
    by_contra hv
    rw [(dimCheck_eq _ _).2 hv] at h3; cases h3
  have hl1 := hfits _ hf
  rw [(dimCheck_eq _ _).1 hf] at h3
  injection h3 with h3
  have hsro : sro = p.wasn.SROperNode := by
    rw [← h3]
    unfold fitNodes
    rw [if_pos hl1]
  subst hsro
  unfold SceneParams.align at ha
  obtain ⟨q', h4, ha⟩ := bind_ok_inv ha
  obtain ⟨rfl, -, -⟩ := checkFiles_ok ha
  obtain ⟨p2, w, -, hp2, hi2, rfl⟩ := scene_postInit_ok h4
  obtain ⟨e1', -⟩ := pickNoise_ok hp2
  rw [e1'] at hi2
  obtain ⟨an2, sro2, h5, h6, rfl⟩ := wasn_postInit_ok hi2
  simp only at h6
  have hf2 : FitsNodes p.wasn.SROperNode l.Mk.length := by
    by_contra hv
    rw [(dimCheck_eq _ _).2 hv] at h6; cases h6
  have hl2 := hfits _ hf2
  rw [(dimCheck_eq _ _).1 hf2] at h6
  injection h6 with h6
  refine ⟨hl1.symm, hl2.symm, ?_⟩
  simp only
  rw [← h6]
  unfold fitNodes
  rw [if_pos hl2]

/-- A layout with two nodes for parameters written for one. -/
def exScene : SceneParams Nat where
  wasn := { nSensorPerNode := [1], SROperNode := [50], addedNoise := [] }
  rd := [5, 5, 5]
  minDistToWalls := 1
  nDesired := 1
  nNoise := 1
  desiredFiles := [7]
  noiseFiles := .files [3, 4]

def exLayoutFile : LayoutFile := ⟨[4, 5, 6], [2, 3], 1, 2⟩

example : ∃ q, exScene.align exAlt (fun _ => false) exLayoutFile = .ok q ∧ q.wasn.SROperNode = [50, 50] := by
  obtain ⟨q, hq⟩ := (C112_iff (alt := exAlt) (babble := fun _ => false) (p := exScene) (l := exLayoutFile)
    (f := [3, 4]) rfl rfl).1.mpr
    ⟨⟨by simp [exLayoutFile], by simp only [exLayoutFile, exScene]; norm_num⟩, .inr (by simp [exScene]),
      .inr (by simp [exScene]), by simp [exScene, exLayoutFile], by simp [exLayoutFile]⟩
  exact ⟨q, hq, (C112_aligned hq).2.2.2.2.2.1⟩

end Danse
