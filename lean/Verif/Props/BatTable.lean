import Verif.Proofs.BatTable

/-!
# C146: the tables of a test battery say what the tests gave
-/

namespace Danse

/-- C146 (battery): the tests are: for every SRO, one with whole chunks; for every positive SRO one for every broadcast length; for an SRO
that is not positive one with length 1. -/
theorem C146_battery (sros : List Int) (Ls : List Nat) (L : Option Nat) (sro : Int) (few : Bool) :
    (∃ t ∈ prepareBattery sros Ls, t.L = L ∧ t.sro = sro ∧ t.few = few) ↔
      sro ∈ sros ∧ (L = none ∧ few = false ∨ ∃ l, L = some l ∧ few = true ∧ (0 < sro ∧ l ∈ Ls ∨ sro ≤ 0 ∧ l = 1)) := by
  constructor
  · rintro ⟨t, ht, rfl, rfl, rfl⟩
    rw [mem_prepare] at ht
    obtain ⟨h1, ⟨l, h2, h3, h4, -⟩ | ⟨h2, h3, -⟩⟩ := ht
    · exact ⟨h1, .inr ⟨l, h2, h3, h4⟩⟩
    · exact ⟨h1, .inl ⟨h2, h3⟩⟩
  · rintro ⟨h1, ⟨rfl, rfl⟩ | ⟨l, rfl, rfl, h⟩⟩
    · exact ⟨⟨none, sro, false, ['w', 'h', 'o', 'l', 'e', 'C', 'h', 'u', 'n', 'k'] ++ ('_' :: 'S' :: 'R' :: 'O' :: intStr sro)⟩, mem_prepare.2 ⟨h1, .inr ⟨rfl, rfl, rfl⟩⟩, rfl, rfl, rfl⟩
    · exact ⟨⟨some l, sro, true, 'L' :: (decimal l ++ ('_' :: 'S' :: 'R' :: 'O' :: intStr sro))⟩, mem_prepare.2 ⟨h1, .inl ⟨l, rfl, rfl, h, rfl⟩⟩, rfl, rfl, rfl⟩

/-- C146 (folders): no two tests write to the same folder. -/
theorem C146_refs {sros : List Int} {Ls : List Nat} (hs : sros.Nodup) (hL : Ls.Nodup) :
    ((prepareBattery sros Ls).map BatTest.ref).Nodup :=
  List.Nodup.map_on (fun _ ha _ hb h => ref_inj ha hb h) (prepare_nodup hs hL)

/-- C146 (round trip): the parameters are read back from the name of the folder. -/
theorem C146_name {sros : List Int} {Ls : List Nat} {t : BatTest} (h : t ∈ prepareBattery sros Ls) (Ns : Int) :
    parseName Ns t.ref = .ok (t.column Ns, t.sro) := parse_ref h Ns

/-- C146: if `Ns` is not one of the broadcast lengths, the tables hold, for every order in which the folders are listed with one of the
battery first, the score of each test in the row of its SRO and the column of its broadcast length, and nothing else; rows and
columns are the SROs and the lengths, in increasing order. -/
theorem C146_table {α : Type} {sros : List Int} {Ls : List Nat} {Ns : Int} (hNs : ∀ t ∈ prepareBattery sros Ls, t.few = true → t.L.map Int.ofNat ≠ some Ns)
    {score : BatTest → List α} {n : Nat} (hn : ∀ t ∈ prepareBattery sros Ls, (score t).length = n) {f0 : ResFolder α}
    {fs : List (ResFolder α)} (hl : Listing (prepareBattery sros Ls) score (f0 :: fs)) (h0 : ¬ f0.Ignored) :
    ∃ tabs, (getTables Ns (f0 :: fs)).2 = .ok tabs ∧ tabs.length = n ∧
      ∀ (k : Nat) tab, tabs[k]? = some tab →
        Ascending tab.rows (fun s => ∃ t ∈ prepareBattery sros Ls, t.sro = s) ∧
        Ascending tab.cols (fun l => ∃ t ∈ prepareBattery sros Ls, t.column Ns = l) ∧
        (∀ t ∈ prepareBattery sros Ls, tab.cell t.sro (t.column Ns) = (score t)[k]?) ∧
        ∀ s l, (∀ t ∈ prepareBattery sros Ls, ¬ (t.sro = s ∧ t.column Ns = l)) → tab.cell s l = none := by
  classical
  have hund : ∀ f : ResFolder α, f.Ignored ↔ f.name.head? = some '_' := by
    intro f
    unfold ResFolder.Ignored
    cases f.name with
    | nil => simp
    | cons c r => simp
  -- the data of a folder of the battery
  have hdata : ∀ f ∈ f0 :: fs, f.name.head? ≠ some '_' → ∃ t ∈ prepareBattery sros Ls, f.name = t.ref ∧
      (loadFolder Ns f).1 = .ok ⟨t.column Ns, t.sro, score t⟩ := by
    intro f hf hu
    rcases hl.only f hf with h | ⟨t, ht, he⟩
    · exact absurd ((hund f).1 h) hu
    · exact ⟨t, ht, he, loadFolder_ok (by rw [he]; exact parse_ref ht Ns) (hl.holds f hf t ht he)⟩
  let g : ResFolder α → ResData α := fun f => match (loadFolder Ns f).1 with
    | .ok d => d
    | .error _ => ⟨0, 0, []⟩
  have hg : ∀ f ∈ f0 :: fs, f.name.head? ≠ some '_' → (loadFolder Ns f).1 = .ok (g f) := by
    intro f hf hu
    obtain ⟨t, -, -, h⟩ := hdata f hf hu
    simp only [g, h]
  have hg2 : ∀ f ∈ f0 :: fs, f.name.head? ≠ some '_' → ∃ t ∈ prepareBattery sros Ls, f.name = t.ref ∧
      g f = ⟨t.column Ns, t.sro, score t⟩ := by
    intro f hf hu
    obtain ⟨t, ht, he, h⟩ := hdata f hf hu
    exact ⟨t, ht, he, by simp only [g, h]⟩
  obtain ⟨m, hm1, hm2, -, -⟩ := loadLoop_ok Ns g 0 (f0 :: fs) hg
  have hu0 : f0.name.head? ≠ some '_' := fun h => h0 ((hund f0).2 h)
  have hm : m = some n := by
    rw [hm2 rfl f0 rfl hu0]
    obtain ⟨t, ht, -, h⟩ := hg2 f0 List.mem_cons_self hu0
    rw [h, hn t ht]
  subst hm
  generalize hds : ((f0 :: fs).filter fun f => f.name.head? ≠ some '_').map g = ds at hm1
  -- the data are those of the tests
  have hd1 : ∀ d ∈ ds, ∃ t ∈ prepareBattery sros Ls, d = ⟨t.column Ns, t.sro, score t⟩ := by
    intro d hd
    rw [← hds, List.mem_map] at hd
    obtain ⟨f, hf, rfl⟩ := hd
    rw [List.mem_filter] at hf
    obtain ⟨t, ht, -, h⟩ := hg2 f hf.1 (by simpa using hf.2)
    exact ⟨t, ht, h⟩
  have hd2 : ∀ t ∈ prepareBattery sros Ls, (⟨t.column Ns, t.sro, score t⟩ : ResData α) ∈ ds := by
    intro t ht
    obtain ⟨f, hf, he⟩ := hl.all t ht
    have hu : f.name.head? ≠ some '_' := by rw [he]; exact ref_not_und ht
    obtain ⟨t', ht', he', h⟩ := hg2 f hf hu
    have : t' = t := ref_inj ht' ht (by rw [← he', he])
    subst this
    rw [← hds, List.mem_map]
    exact ⟨f, List.mem_filter.2 ⟨hf, by simpa using hu⟩, h⟩
  -- row and column determine the test
  have hkey : ∀ t ∈ prepareBattery sros Ls, ∀ t' ∈ prepareBattery sros Ls, t.sro = t'.sro → t.column Ns = t'.column Ns → t = t' := by
    intro t ht t' ht' e1 e2
    have q := hNs t ht
    have q' := hNs t' ht'
    rw [mem_prepare] at ht ht'
    obtain ⟨L, s, f, r⟩ := t
    obtain ⟨L', s', f', r'⟩ := t'
    simp only [BatTest.column] at e1 e2 ht ht' q q'
    subst e1
    rcases ht.2 with ⟨l, rfl, rfl, -, hr⟩ | ⟨rfl, rfl, hr⟩ <;> rcases ht'.2 with ⟨l', rfl, rfl, -, hr'⟩ | ⟨rfl, rfl, hr'⟩
    · simp only [Option.elim_some] at e2
      have : l = l' := by omega
      subst this
      rw [hr, hr']
    · simp only [Option.elim_some, Option.elim_none] at e2
      exact absurd (congrArg some e2) (by simpa using q rfl)
    · simp only [Option.elim_some, Option.elim_none] at e2
      exact absurd (congrArg some e2.symm) (by simpa using q' rfl)
    · rw [hr, hr']
  -- the table of node `k`
  have htab : ∀ k, k < n → ∃ cell, fillTable k ds = .ok cell ∧
      (∀ t ∈ prepareBattery sros Ls, cell t.sro (t.column Ns) = (score t)[k]?) ∧
      ∀ s l, (∀ t ∈ prepareBattery sros Ls, ¬ (t.sro = s ∧ t.column Ns = l)) → cell s l = none := by
    intro k hk
    obtain ⟨t0, ht0, -, -⟩ := hg2 f0 List.mem_cons_self hu0
    have hx : k < (score t0).length := by rw [hn t0 ht0]; exact hk
    obtain ⟨cell, h1, h2, h3⟩ := fillTable_ok k (fun d => (d.metrics[k]?).getD (score t0)[k]) ds (by
      intro d hd
      obtain ⟨t, ht, rfl⟩ := hd1 d hd
      have : k < (score t).length := by rw [hn t ht]; exact hk
      simp [List.getElem?_eq_getElem this]) (by
      intro d hd d' hd' e1 e2
      obtain ⟨t, ht, rfl⟩ := hd1 d hd
      obtain ⟨t', ht', rfl⟩ := hd1 d' hd'
      rw [hkey t ht t' ht' e1 e2])
    refine ⟨cell, h1, fun t ht => ?_, fun s l hno => h3 s l fun d hd => ?_⟩
    · have : k < (score t).length := by rw [hn t ht]; exact hk
      rw [h2 _ (hd2 t ht)]
      simp [List.getElem?_eq_getElem this]
    · obtain ⟨t, ht, rfl⟩ := hd1 d hd
      exact hno t ht
  choose! cell hc1 hc2 hc3 using htab
  refine ⟨(List.range n).map fun k => ⟨sortedParams (ds.map (·.sro)), sortedParams (ds.map (·.L)), cell k⟩, ?_, by simp, ?_⟩
  · unfold getTables
    rw [hm1]
    change (List.range n).mapM _ = _
    have gen : ∀ ks : List Nat, (∀ k ∈ ks, k < n) → ks.mapM (fun k => do
        let cell ← fillTable k ds
        return (⟨sortedParams (ds.map (·.sro)), sortedParams (ds.map (·.L)), cell⟩ : ResTable α)) =
        (.ok (ks.map fun k => ⟨sortedParams (ds.map (·.sro)), sortedParams (ds.map (·.L)), cell k⟩) : Except PyErr _) := by
      intro ks
      induction ks with
      | nil => exact fun _ => rfl
      | cons k ks ih =>
        intro hk
        rw [List.mapM_cons, hc1 k (hk k List.mem_cons_self), ih fun x hx => hk x (List.mem_cons_of_mem _ hx)]
        rfl
    exact gen _ fun k hk => List.mem_range.1 hk
  · intro k tab hk
    rw [List.getElem?_map, Option.map_eq_some_iff] at hk
    obtain ⟨k', hk', rfl⟩ := hk
    have hlt : k' < n := by
      have := List.mem_of_getElem? hk'
      exact List.mem_range.1 this
    have hkk : k' = k := by
      obtain ⟨hb, he⟩ := List.getElem?_eq_some_iff.1 hk'
      simpa using he.symm
    subst hkk
    refine ⟨⟨(sortedParams_asc _).1, fun s => ?_⟩, ⟨(sortedParams_asc _).1, fun l => ?_⟩, hc2 k' hlt, hc3 k' hlt⟩
    · refine ((sortedParams_asc _).2 _).trans (List.mem_map.trans ?_)
      constructor
      · rintro ⟨d, hd, rfl⟩
        obtain ⟨t, ht, rfl⟩ := hd1 d hd
        exact ⟨t, ht, rfl⟩
      · rintro ⟨t, ht, rfl⟩
        exact ⟨_, hd2 t ht, rfl⟩
    · refine ((sortedParams_asc _).2 _).trans (List.mem_map.trans ?_)
      constructor
      · rintro ⟨d, hd, rfl⟩
        obtain ⟨t, ht, rfl⟩ := hd1 d hd
        exact ⟨t, ht, rfl⟩
      · rintro ⟨t, ht, rfl⟩
        exact ⟨_, hd2 t ht, rfl⟩

/-- C146 (refuted: "other folders do not matter"): if the first folder of the listing is one that is to be ignored, there are no tables,
whatever the other folders hold. -/
theorem C146_refuted_ignored {α : Type} (Ns : Int) {f0 : ResFolder α} (h0 : f0.Ignored) (fs : List (ResFolder α)) :
    ∃ e, (getTables Ns (f0 :: fs)).2 = .error e := by
  obtain ⟨r, hr⟩ := h0
  have hu : f0.name.head? = some '_' := by rw [hr]; rfl
  unfold getTables
  rw [loadLoop_und Ns 0 hu]
  simp only
  cases h : (loadLoop Ns (0 + 1) fs).2 with
  | error e => exact ⟨e, rfl⟩
  | ok p =>
    have := loadLoop_later Ns (0 + 1) (by omega) fs (ds := p.1) (n := p.2) h
    refine ⟨.keyError, ?_⟩
    change (match p.2 with | none => _ | some n => _ : Except PyErr (List (ResTable α))) = _
    rw [this]

/-- C146 (again): what a call has saved for the next one changes nothing: a second call finds the same tables (or the same exception) and
writes nothing. -/
theorem C146_again {α : Type} (Ns : Int) (fs : List (ResFolder α)) :
    getTables Ns (getTables Ns fs).1 = getTables Ns fs := by
  unfold getTables
  simp only [loadLoop_again]

/-! ## Concrete tables -/

/-- Folder with the scores of one node. -/
def exRes (name : List Char) (x : Nat) : ResFolder Nat := ⟨name, none, .ok [x]⟩

theorem exDecimal : decimal 2 = ['2'] ∧ decimal 4 = ['4'] ∧ decimal 0 = ['0'] := by
  refine ⟨?_, ?_, ?_⟩ <;> unfold decimal <;> decide

theorem exBatTests (l : Nat) : prepareBattery [4] [l] = [⟨some l, 4, true, 'L' :: (decimal l ++ ('_' :: 'S' :: 'R' :: 'O' :: ['4']))⟩,
    ⟨none, 4, false, ['w', 'h', 'o', 'l', 'e', 'C', 'h', 'u', 'n', 'k', '_', 'S', 'R', 'O', '4']⟩] := by
  have : intStr 4 = ['4'] := by unfold intStr; exact exDecimal.2.1
  unfold prepareBattery
  simp [this]

def exFew : ResFolder Nat := exRes ['L', '2', '_', 'S', 'R', 'O', '4'] 7
def exWhole : ResFolder Nat := exRes ['w', 'h', 'o', 'l', 'e', 'C', 'h', 'u', 'n', 'k', '_', 'S', 'R', 'O', '4'] 9
def exOther : ResFolder Nat := exRes ['_', 'q'] 5

theorem exListing : Listing (prepareBattery [4] [2]) (fun t => if t.few then [7] else [9]) [exWhole, exOther, exFew] := by
  have e := exBatTests 2
  rw [exDecimal.1] at e
  rw [e]
  constructor
  · simp [exFew, exWhole, exOther, exRes]
  · simp [exFew, exWhole, exOther, exRes, ResFolder.Ignored]
  · simp [exFew, exWhole, exOther, exRes, ResFolder.scores]

/-- The hypotheses of `C146_table` are met by a listing with another folder, and the table of the node has the columns 2 and 512. -/
example : ∃ tabs : List (ResTable Nat), (getTables 512 [exWhole, exOther, exFew]).2 = .ok tabs ∧ tabs.length = 1 ∧
    ∀ tab, tabs[0]? = some tab → tab.cell 4 2 = some 7 ∧ tab.cell 4 512 = some 9 ∧ tab.cell 4 1 = none := by
  have e := exBatTests 2
  rw [exDecimal.1] at e
  obtain ⟨tabs, h1, h2, h3⟩ := C146_table (Ns := 512) (sros := [4]) (Ls := [2]) (n := 1) (by rw [e]; simp) (by rw [e]; simp) exListing
    (by simp [exWhole, exRes, ResFolder.Ignored])
  refine ⟨tabs, h1, h2, fun tab ht => ?_⟩
  obtain ⟨-, -, h4, h5⟩ := h3 0 tab ht
  rw [e] at h4 h5
  refine ⟨?_, ?_, ?_⟩
  · simpa [BatTest.column] using h4 ⟨some 2, 4, true, _⟩ List.mem_cons_self
  · simpa [BatTest.column] using h4 ⟨none, 4, false, _⟩ (List.mem_cons_of_mem _ List.mem_cons_self)
  · apply h5
    simp [BatTest.column]

/-- C146 (refuted: "for every list of broadcast lengths"): if `Ns` is one of them, the results of whole chunks and of that length have the
same cell, and the one that is listed last is shown. -/
theorem C146_refuted_collision :
    ((getTables 2 [exFew, exWhole]).2.map fun tabs => tabs.map fun tab => (tab.cols, tab.cell 4 2)) = .ok [([2], some 9)] ∧
    ((getTables 2 [exWhole, exFew]).2.map fun tabs => tabs.map fun tab => (tab.cols, tab.cell 4 2)) = .ok [([2], some 7)] := by
  constructor <;> decide +kernel

/-- The other folder first: `KeyError`. -/
example : ((getTables 512 [exOther, exFew, exWhole]).2.map fun tabs => tabs.length) = .error .keyError := by decide +kernel

end Danse
