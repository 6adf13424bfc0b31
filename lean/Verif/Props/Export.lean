import Verif.Spec.Export

/-!
# C138: the sound files of a run
-/

namespace Danse

theorem exportWav_ok {kind : WavKind} {node : Nat} {fs : ℚ} {x : List ℚ} {f : WavFile}
    (h : exportWav kind node fs x = .ok f) :
    f.kind = kind ∧ f.node = node ∧ f.fs = pyInt fs ∧ Is16Bit x f.data := by
  unfold exportWav at h
  rcases hn : normalizeToInt16 x with e | d
  · rw [hn] at h
    cases e <;> simp only at h <;> cases h
    refine ⟨rfl, rfl, rfl, ?_⟩
    unfold Is16Bit
    simp only
    unfold normalizeToInt16 at hn
    by_cases h1 : x = []
    · rw [if_pos h1] at hn; cases hn
    · by_cases h2 : amax x = 0
      · exact ⟨h1, h2⟩
      · rw [if_neg h1, if_neg h2] at hn; cases hn
  · rw [hn] at h
    cases h
    exact ⟨rfl, rfl, rfl, hn⟩

theorem writeWavs_ok {fs : ℚ} {node : Nat} {l : List (WavKind × Except PyErr (List ℚ))} {files : List WavFile}
    (h : writeWavs fs node l = (files, none)) :
    List.Forall₂ (fun (p : WavKind × Except PyErr (List ℚ)) (f : WavFile) =>
      f.kind = p.1 ∧ f.node = node ∧ f.fs = pyInt fs ∧ ∃ x, p.2 = .ok x ∧ Is16Bit x f.data) l files := by
  induction l generalizing files with
  | nil => unfold writeWavs at h; cases h; exact .nil
  | cons p l ih =>
    obtain ⟨kind, x⟩ := p
    unfold writeWavs at h
    rcases x with e | x
    · simp only [Except.bind] at h
      cases (Prod.mk.inj h).2
    · simp only [Except.bind] at h
      rcases hx : exportWav kind node fs x with e | f
      · rw [hx] at h; cases (Prod.mk.inj h).2
      · rw [hx] at h
        simp only at h
        obtain ⟨h1, h2⟩ := Prod.mk.inj h
        obtain ⟨a, b, c, d⟩ := exportWav_ok hx
        rw [← h1]
        exact .cons ⟨a, b, c, x, rfl, d⟩ (ih (by rw [← h2]))

theorem optWav_mem {kind kind' : WavKind} {on : Bool} {x : Option (List ℚ)} {y : List ℚ} :
    (kind', Except.ok y) ∈ wavPlan.optWav kind on x ↔ kind' = kind ∧ on = true ∧ x = some y ∧ y ≠ [] := by
  unfold wavPlan.optWav
  cases on
  · simp
  · rcases x with _ | x
    · simp
    · simp only [if_true]
      by_cases h : x.length > 0
      · rw [if_pos h]
        simp only [List.mem_singleton, Prod.mk.injEq, Except.ok.injEq, Option.some.injEq, true_and]
        constructor
        · rintro ⟨rfl, rfl⟩
          exact ⟨rfl, rfl, List.ne_nil_of_length_pos h⟩
        · rintro ⟨rfl, rfl, -⟩
          exact ⟨rfl, rfl⟩
      · rw [if_neg h]
        have : x = [] := List.length_eq_zero_iff.mp (by omega)
        subst this
        simp only [List.not_mem_nil, Option.some.injEq, true_and, false_iff, not_and, ne_eq, not_not]
        rintro _ rfl; rfl

theorem optWav_kind {kind : WavKind} {on : Bool} {x : Option (List ℚ)} {p : WavKind × Except PyErr (List ℚ)}
    (h : p ∈ wavPlan.optWav kind on x) : p.1 = kind := by
  unfold wavPlan.optWav at h
  cases on
  · simp at h
  · rcases x with _ | x
    · simp at h; rw [h]
    · simp only [if_true] at h
      split_ifs at h
      · simp at h; rw [h]
      · simp at h

theorem optWav_kinds (kind : WavKind) (on : Bool) (x : Option (List ℚ)) :
    (wavPlan.optWav kind on x).map (·.1) = [] ∨ (wavPlan.optWav kind on x).map (·.1) = [kind] := by
  unfold wavPlan.optWav
  cases on
  · simp
  · rcases x with _ | x
    · simp
    · simp only [if_true]
      split_ifs <;> simp

/-- The plan of a node asks exactly for the wanted signals. -/
theorem wavPlan_mem (o : WavOut) (fc : Bool) (nd : WavNode) (k : Nat) (kind : WavKind) (x : List ℚ) :
    (kind, Except.ok x) ∈ wavPlan o fc nd k ↔ WantedWav o fc nd k kind x := by
  have hest : (o.est k).length > 0 ↔ o.est k ≠ [] := List.length_pos_iff
  unfold wavPlan
  simp only [List.mem_append, optWav_mem, List.mem_cons, List.not_mem_nil, or_false, Prod.mk.injEq,
    Except.ok.injEq, Option.map_eq_some_iff]
  unfold WantedWav
  cases kind with
  | noisy r =>
    simp only [reduceCtorEq, false_and, or_false]
    split_ifs <;> simp
  | desired r =>
    simp only [reduceCtorEq, false_and, or_false]
    constructor
    · rintro ((h | h) | h)
      · exact h.elim
      · obtain ⟨h1, h2⟩ := h
        rcases hc : nd.clean[o.refSensor]? with _ | y
        · rw [hc] at h2; cases h2
        · rw [hc] at h2
          injection h2 with h2
          injection h1 with h1
          exact ⟨h1, by rw [h2]⟩
      · exfalso; split_ifs at h <;> simp at h
    · rintro ⟨rfl, h⟩
      rw [h]; simp
  | enhanced =>
    simp only [reduceCtorEq, false_and, or_false, false_or]
    by_cases h : (o.est k).length > 0
    · rw [if_pos h]
      have : o.est k ≠ [] := hest.mp h
      constructor
      · intro hm
        split_ifs at hm <;> simp at hm <;> exact ⟨hm, hm ▸ this⟩
      · rintro ⟨rfl, -⟩; simp
    · rw [if_neg h]
      have : o.est k = [] := by by_contra c; exact h (hest.mpr c)
      simp only [List.not_mem_nil, false_iff, not_and, ne_eq, not_not]
      rintro rfl; exact this
  | fused =>
    simp only [reduceCtorEq, false_and, or_false, false_or]
    by_cases h : (o.est k).length > 0
    · rw [if_pos h]
      have : o.est k ≠ [] := hest.mp h
      cases hw : o.wholeChunk <;> cases fc <;> cases hb : o.batch <;> simp [this]
    · rw [if_neg h]
      have : o.est k = [] := by by_contra c; exact h (hest.mpr c)
      simp [this]
  | fusedTI =>
    simp only [reduceCtorEq, false_and, or_false, false_or]
    by_cases h : (o.est k).length > 0
    · rw [if_pos h]
      have : o.est k ≠ [] := hest.mp h
      cases hw : o.wholeChunk <;> cases fc <;> cases hb : o.batch <;> cases hf : o.fusedTI <;> simp [this, eq_comm]
    · rw [if_neg h]
      have : o.est k = [] := by by_contra c; exact h (hest.mpr c)
      simp [this]
  | centr =>
    simp only [reduceCtorEq, false_and, or_false, false_or, true_and]
    constructor
    · rintro (h | ⟨h1, ⟨f, h2, h3⟩, h4⟩)
      · exfalso; split_ifs at h <;> simp at h
      · exact ⟨h1, h4, f, h2, h3.symm⟩
    · rintro ⟨h1, h4, f, h2, h3⟩
      exact Or.inr ⟨h1, ⟨f, h2, h3.symm⟩, h4⟩
  | loc =>
    simp only [reduceCtorEq, false_and, or_false, false_or, true_and]
    constructor
    · rintro (h | ⟨h1, ⟨f, h2, h3⟩, h4⟩)
      · exfalso; split_ifs at h <;> simp at h
      · exact ⟨h1, h4, f, h2, h3.symm⟩
    · rintro ⟨h1, h4, f, h2, h3⟩
      exact Or.inr ⟨h1, ⟨f, h2, h3.symm⟩, h4⟩
  | ssbc =>
    simp only [reduceCtorEq, false_and, or_false, false_or, true_and]
    constructor
    · rintro (h | ⟨h1, ⟨f, h2, h3⟩, h4⟩)
      · exfalso; split_ifs at h <;> simp at h
      · exact ⟨h1, h4, f, h2, h3.symm⟩
    · rintro ⟨h1, h4, f, h2, h3⟩
      exact Or.inr ⟨h1, ⟨f, h2, h3.symm⟩, h4⟩

theorem Is16Bit.unique {x : List ℚ} {d d' : Option (List Int)} (h : Is16Bit x d) (h' : Is16Bit x d') : d = d' := by
  have key : ∀ v : List Int, x ≠ [] → amax x = 0 → normalizeToInt16 x = .ok v → False := by
    intro v h1 h2 h3
    unfold normalizeToInt16 at h3
    rw [if_neg h1, if_pos h2] at h3
    cases h3
  unfold Is16Bit at h h'
  cases d <;> cases d' <;> simp only at h h'
  · rfl
  · exact (key _ h.1 h.2 h').elim
  · exact (key _ h'.1 h'.2 h).elim
  · rw [h] at h'; cases h'; rfl

theorem wavPlan_kinds (o : WavOut) (fc : Bool) (nd : WavNode) (k : Nat) :
    ((wavPlan o fc nd k).map (·.1)).Nodup := by
  unfold wavPlan
  simp only [List.map_append]
  rcases optWav_kinds .centr o.computeCentralised (o.estC.map (· k)) with h1 | h1 <;>
  rcases optWav_kinds .loc o.computeLocal (o.estL.map (· k)) with h2 | h2 <;>
  rcases optWav_kinds .ssbc o.computeSSBC (o.estS.map (· k)) with h3 | h3 <;>
  rw [h1, h2, h3] <;> split_ifs <;> simp

theorem writeWavs_files {fs : ℚ} {node : Nat} {l : List (WavKind × Except PyErr (List ℚ))} {files : List WavFile}
    (h : writeWavs fs node l = (files, none)) (hk : (l.map (·.1)).Nodup) :
    (∀ f, f ∈ files ↔ f.node = node ∧ f.fs = pyInt fs ∧
      ∃ x, (f.kind, Except.ok x) ∈ l ∧ Is16Bit x f.data) ∧
    (files.map fun f => (f.kind, f.node)).Nodup := by
  have hf := writeWavs_ok h
  clear h
  induction hf with
  | nil => simp
  | @cons p f l files hpf hl ih =>
    rw [List.map_cons, List.nodup_cons] at hk
    obtain ⟨ih1, ih2⟩ := ih hk.2
    obtain ⟨h1, h2, h3, x, hx, hd⟩ := hpf
    refine ⟨fun g => ?_, ?_⟩
    · rw [List.mem_cons, ih1]
      constructor
      · rintro (rfl | ⟨a, b, y, hy, hy'⟩)
        · exact ⟨h2, h3, x, List.mem_cons.mpr (Or.inl (by rw [h1, ← hx])), hd⟩
        · exact ⟨a, b, y, List.mem_cons_of_mem _ hy, hy'⟩
      · rintro ⟨a, b, y, hy, hy'⟩
        rcases List.mem_cons.mp hy with hy | hy
        · left
          obtain ⟨k, m, c, d⟩ := g
          obtain ⟨k', m', c', d'⟩ := f
          obtain ⟨p1, p2⟩ := p
          simp only at *
          obtain ⟨rfl, rfl⟩ := Prod.mk.inj hy
          injection hx with hx
          subst hx h1 h2 h3 a b
          rw [Is16Bit.unique hy' hd]
        · exact Or.inr ⟨a, b, y, hy, hy'⟩
    · rw [List.map_cons, List.nodup_cons]
      refine ⟨fun hm => hk.1 ?_, ih2⟩
      obtain ⟨g, hg, he⟩ := List.mem_map.mp hm
      obtain ⟨-, -, y, hy, -⟩ := (ih1 g).mp hg
      have : g.kind = p.1 := (Prod.mk.inj he).1.trans h1
      rw [this] at hy
      exact List.mem_map.mpr ⟨_, hy, rfl⟩

theorem exportNodes_files {o : WavOut} {fc : Bool} {l : List (WavNode × Nat)} {files : List WavFile}
    (h : exportNodes o fc l = (files, none)) (hl : (l.map (·.2)).Nodup) :
    (∀ f, f ∈ files ↔ ∃ nd k, (nd, k) ∈ l ∧ f.node = k + 1 ∧ f.fs = pyInt nd.fs ∧
      ∃ x, WantedWav o fc nd k f.kind x ∧ Is16Bit x f.data) ∧
    (files.map fun f => (f.kind, f.node)).Nodup := by
  induction l generalizing files with
  | nil => unfold exportNodes at h; cases h; simp
  | cons p l ih =>
    obtain ⟨nd, k⟩ := p
    unfold exportNodes at h
    rcases hw : writeWavs nd.fs (k + 1) (wavPlan o fc nd k) with ⟨fs, e⟩
    rw [hw] at h
    rcases e with _ | e
    · simp only at h
      obtain ⟨e1, e2⟩ := Prod.mk.inj h
      rw [List.map_cons, List.nodup_cons] at hl
      obtain ⟨ih1, ih2⟩ := ih (files := (exportNodes o fc l).1) (by rw [← e2]) hl.2
      obtain ⟨w1, w2⟩ := writeWavs_files hw (wavPlan_kinds o fc nd k)
      rw [← e1]
      refine ⟨fun f => ?_, ?_⟩
      · rw [List.mem_append, ih1, w1]
        constructor
        · rintro (⟨a, b, x, hx, hd⟩ | ⟨nd', k', hm, r⟩)
          · exact ⟨nd, k, List.mem_cons_self, a, b, x, (wavPlan_mem ..).mp hx, hd⟩
          · exact ⟨nd', k', List.mem_cons_of_mem _ hm, r⟩
        · rintro ⟨nd', k', hm, a, b, x, hx, hd⟩
          rcases List.mem_cons.mp hm with hm | hm
          · obtain ⟨rfl, rfl⟩ := Prod.mk.inj hm
            exact Or.inl ⟨a, b, x, (wavPlan_mem ..).mpr hx, hd⟩
          · exact Or.inr ⟨nd', k', hm, a, b, x, hx, hd⟩
      · rw [List.map_append, List.nodup_append]
        refine ⟨w2, ih2, ?_⟩
        intro a ha b hb hab
        obtain ⟨f, hf, rfl⟩ := List.mem_map.mp ha
        obtain ⟨g, hg, rfl⟩ := List.mem_map.mp hb
        obtain ⟨nd', k', hm, hg1, -⟩ := (ih1 g).mp hg
        have hf1 := ((w1 f).mp hf).1
        have := (Prod.mk.inj hab).2
        have hkk : k = k' := by omega
        subst hkk
        exact hl.1 (List.mem_map.mpr ⟨(nd', k), hm, rfl⟩)
    · simp only at h
      cases (Prod.mk.inj h).2

theorem zipIdx_nodes_nodup (wasn : List WavNode) : (wasn.zipIdx.map (·.2)).Nodup := by
  have : wasn.zipIdx.map (·.2) = List.range' 0 wasn.length := by simp [List.zipIdx_map_snd]
  rw [this]; exact List.nodup_range'

/-- C138: an export that ends normally has written, under different names, exactly the wanted files: for every node
the sensor signals, the clean speech at the reference sensor, the estimate if there is one, the fused signal for
whole-chunk broadcasts (of an online fully connected run) resp. the in-network sum (otherwise connected networks),
and the centralised, local and single-sensor-broadcast estimates that were asked for; each file has the rate of its
node and the 16-bit version of its signal. -/
theorem C138_files {o : WavOut} {wasn : List WavNode} {fc : Bool} {files : List WavFile}
    (h : exportSounds o wasn fc = (files, none)) :
    (∀ f, f ∈ files ↔ ∃ nd k, wasn[k]? = some nd ∧ f.node = k + 1 ∧ f.fs = pyInt nd.fs ∧
      ∃ x, WantedWav o fc nd k f.kind x ∧ Is16Bit x f.data) ∧
    (files.map fun f => (f.kind, f.node)).Nodup := by
  obtain ⟨h1, h2⟩ := exportNodes_files h (zipIdx_nodes_nodup wasn)
  refine ⟨fun f => ?_, h2⟩
  rw [h1]
  constructor
  · rintro ⟨nd, k, hm, r⟩
    exact ⟨nd, k, List.mem_zipIdx_iff_getElem?.mp hm, r⟩
  · rintro ⟨nd, k, hm, r⟩
    exact ⟨nd, k, List.mem_zipIdx_iff_getElem?.mpr hm, r⟩

theorem writeWavs_none (fs : ℚ) (node : Nat) (l : List (WavKind × Except PyErr (List ℚ))) :
    (writeWavs fs node l).2 = none ↔ ∀ p ∈ l, ∃ x, p.2 = .ok x ∧ x ≠ [] := by
  induction l with
  | nil => simp [writeWavs]
  | cons p l ih =>
    obtain ⟨kind, x⟩ := p
    unfold writeWavs
    rcases x with e | x
    · simp [Except.bind]
    · simp only [Except.bind]
      rw [List.forall_mem_cons]
      have hex : (∃ y, (Except.ok x : Except PyErr (List ℚ)) = .ok y ∧ y ≠ []) ↔ x ≠ [] := by
        constructor
        · rintro ⟨y, hy, h⟩; cases hy; exact h
        · intro h; exact ⟨x, rfl, h⟩
      rw [hex]
      by_cases hx : x = []
      · subst hx
        have : exportWav kind node fs [] = .error .valueError := rfl
        rw [this]
        simp
      · have : ∃ f, exportWav kind node fs x = .ok f := by
          unfold exportWav normalizeToInt16
          rw [if_neg hx]
          by_cases c : amax x = 0
          · rw [if_pos c]; exact ⟨_, rfl⟩
          · rw [if_neg c]; exact ⟨_, rfl⟩
        obtain ⟨f, hf⟩ := this
        rw [hf]
        simp only
        rw [ih]
        exact ⟨fun h => ⟨hx, h⟩, fun h => h.2⟩

theorem exportNodes_none (o : WavOut) (fc : Bool) (l : List (WavNode × Nat)) :
    (exportNodes o fc l).2 = none ↔ ∀ p ∈ l, ∀ q ∈ wavPlan o fc p.1 p.2, ∃ x, q.2 = .ok x ∧ x ≠ [] := by
  induction l with
  | nil => simp [exportNodes]
  | cons p l ih =>
    obtain ⟨nd, k⟩ := p
    rw [List.forall_mem_cons, ← ih, ← writeWavs_none nd.fs (k + 1)]
    rcases hw : writeWavs nd.fs (k + 1) (wavPlan o fc nd k) with ⟨fs, e⟩
    conv_lhs => rw [exportNodes, hw]
    rcases e with _ | e <;> simp

/-- C138: when the export ends normally: every node has samples and a reference sensor, the requested estimates
exist, and the fused signals (whole-chunk broadcasts) are not empty. -/
theorem C138_ends_iff (o : WavOut) (wasn : List WavNode) (fc : Bool) :
    (exportSounds o wasn fc).2 = none ↔
      ∀ nd k, wasn[k]? = some nd →
        nd.data.flatten ≠ [] ∧ (∃ x, nd.clean[o.refSensor]? = some x ∧ x ≠ []) ∧
        (o.est k ≠ [] → o.wholeChunk = true → fc = true → o.batch = false → o.fused k ≠ []) ∧
        (o.est k ≠ [] → o.wholeChunk = true → fc = false → ∃ f, o.fusedTI = some f ∧ f k ≠ []) ∧
        (o.computeCentralised = true → o.estC ≠ none) ∧ (o.computeLocal = true → o.estL ≠ none) ∧
        (o.computeSSBC = true → o.estS ≠ none) := by
  unfold exportSounds
  rw [exportNodes_none]
  have hopt : ∀ (kind : WavKind) (on : Bool) (x : Option (List ℚ)),
      (∀ q ∈ wavPlan.optWav kind on x, ∃ y, q.2 = .ok y ∧ y ≠ []) ↔ (on = true → x ≠ none) := by
    intro kind on x
    unfold wavPlan.optWav
    cases on
    · simp
    · rcases x with _ | x
      · simp
      · simp only [if_true]
        by_cases h : x.length > 0
        · rw [if_pos h]
          simp [List.ne_nil_of_length_pos h]
        · rw [if_neg h]; simp
  have hplan : ∀ nd k, (∀ q ∈ wavPlan o fc nd k, ∃ x, q.2 = .ok x ∧ x ≠ []) ↔
        nd.data.flatten ≠ [] ∧ (∃ x, nd.clean[o.refSensor]? = some x ∧ x ≠ []) ∧
        (o.est k ≠ [] → o.wholeChunk = true → fc = true → o.batch = false → o.fused k ≠ []) ∧
        (o.est k ≠ [] → o.wholeChunk = true → fc = false → ∃ f, o.fusedTI = some f ∧ f k ≠ []) ∧
        (o.computeCentralised = true → o.estC ≠ none) ∧ (o.computeLocal = true → o.estL ≠ none) ∧
        (o.computeSSBC = true → o.estS ≠ none) := by
    intro nd k
    have hmap : ∀ f : Option (Nat → List ℚ), f.map (· k) ≠ none ↔ f ≠ none := by
      intro f; cases f <;> simp
    unfold wavPlan
    simp only [List.forall_mem_append, hopt, hmap, List.forall_mem_cons]
    have e1 : (∃ x, (Except.ok nd.data.flatten : Except PyErr (List ℚ)) = .ok x ∧ x ≠ []) ↔ nd.data.flatten ≠ [] := by
      constructor
      · rintro ⟨y, hy, h⟩; cases hy; exact h
      · intro h; exact ⟨_, rfl, h⟩
    have e2 : (∃ x, (nd.clean[o.refSensor]?).elim (.error .indexError) (Except.ok : _ → Except PyErr (List ℚ)) = .ok x ∧ x ≠ []) ↔ ∃ x, nd.clean[o.refSensor]? = some x ∧ x ≠ [] := by
      rcases nd.clean[o.refSensor]? with _ | y
      · simp
      · simp
    rw [e1, e2]
    have e3 : (∀ q ∈ (if (o.est k).length > 0 then
        [(WavKind.enhanced, (Except.ok (o.est k) : Except PyErr (List ℚ)))] ++
        (if o.wholeChunk && fc && !o.batch then [(.fused, .ok (o.fused k))]
         else if !o.wholeChunk then []
         else if !fc then [(.fusedTI, o.fusedTI.elim (.error .attributeError) fun f => .ok (f k))]
         else [])
       else []), ∃ x, q.2 = .ok x ∧ x ≠ []) ↔
        (o.est k ≠ [] → o.wholeChunk = true → fc = true → o.batch = false → o.fused k ≠ []) ∧
        (o.est k ≠ [] → o.wholeChunk = true → fc = false → ∃ f, o.fusedTI = some f ∧ f k ≠ []) := by
      by_cases h : (o.est k).length > 0
      · have h' : o.est k ≠ [] := List.ne_nil_of_length_pos h
        rw [if_pos h]
        cases hw : o.wholeChunk <;> cases fc <;> cases hb : o.batch <;> cases hf : o.fusedTI <;> simp [h']
      · have h' : o.est k = [] := List.length_eq_zero_iff.mp (by omega)
        rw [if_neg h]
        simp [h']
    rw [e3]
    simp only [List.not_mem_nil, false_imp_iff, implies_true, and_true, and_assoc]
  constructor
  · intro h nd k hk
    exact (hplan nd k).mp (h (nd, k) (List.mem_zipIdx_iff_getElem?.mpr hk))
  · rintro h ⟨nd, k⟩ hp
    exact (hplan nd k).mpr (h nd k (List.mem_zipIdx_iff_getElem?.mp hp))

/-- C138: an export that is stopped by an exception has written all files of the nodes before the one it stopped at,
as the export of these nodes alone would have. -/
theorem C138_stopped {o : WavOut} {wasn : List WavNode} {fc : Bool} {files : List WavFile} {e : PyErr}
    (h : exportSounds o wasn fc = (files, some e)) :
    ∃ k < wasn.length, ∃ before rest, exportSounds o (wasn.take k) fc = (before, none) ∧ files = before ++ rest ∧
      ∀ f ∈ rest, f.node = k + 1 := by
  have hnode : ∀ (fs : ℚ) (node : Nat) (l : List (WavKind × Except PyErr (List ℚ))),
      ∀ f ∈ (writeWavs fs node l).1, f.node = node := by
    intro fs node l
    induction l with
    | nil => simp [writeWavs]
    | cons p l ih =>
      obtain ⟨kind, x⟩ := p
      unfold writeWavs
      rcases hx : x.bind (exportWav kind node fs) with e | f
      · simp
      · rcases x with e | x
        · cases hx
        · simp only [List.forall_mem_cons]
          exact ⟨(exportWav_ok hx).2.1, ih⟩
  have key : ∀ (l : List (WavNode × Nat)) (files : List WavFile), exportNodes o fc l = (files, some e) →
      ∃ m, ∃ hm : m < l.length, ∃ before rest, exportNodes o fc (l.take m) = (before, none) ∧
        files = before ++ rest ∧ ∀ f ∈ rest, f.node = l[m].2 + 1 := by
    intro l
    induction l with
    | nil => intro files h; cases h
    | cons p l ih =>
      intro files h
      obtain ⟨nd, k⟩ := p
      unfold exportNodes at h
      rcases hw : writeWavs nd.fs (k + 1) (wavPlan o fc nd k) with ⟨fs, e'⟩
      rw [hw] at h
      rcases e' with _ | e'
      · simp only at h
        obtain ⟨h1, h2⟩ := Prod.mk.inj h
        obtain ⟨m, hm, before, rest, a, b, c⟩ := ih (exportNodes o fc l).1 (by rw [← h2])
        refine ⟨m + 1, by simpa using hm, fs ++ before, rest, ?_, ?_, ?_⟩
        · rw [List.take_succ_cons, exportNodes, hw]
          simp only
          rw [a]
        · rw [← h1, b, List.append_assoc]
        · simpa using c
      · simp only at h
        obtain ⟨h1, h2⟩ := Prod.mk.inj h
        refine ⟨0, by simp, [], files, rfl, rfl, ?_⟩
        intro f hf
        rw [← h1] at hf
        have := hnode nd.fs (k + 1) (wavPlan o fc nd k)
        rw [hw] at this
        exact this f hf
  obtain ⟨m, hm, before, rest, a, b, c⟩ := key wasn.zipIdx files h
  have hm' : m < wasn.length := by simpa using hm
  refine ⟨m, hm', before, rest, ?_, b, ?_⟩
  · unfold exportSounds
    have : (wasn.take m).zipIdx = wasn.zipIdx.take m := by
      apply List.ext_getElem?
      intro i
      simp only [List.getElem?_zipIdx, List.getElem?_take]
      split_ifs <;> simp
    rw [this, a]
  · intro f hf
    have := c f hf
    simpa using this

/-- C138, refuted part: in batch mode, a network that is not fully connected has no in-network sum recorded (an empty
array). With whole-chunk broadcasts (the default) the export then stops at the first node, with a `ValueError`, after
its first three files, and the other nodes get none. -/
theorem C138_refuted_batch_ti (o : WavOut) (nd : WavNode) (others : List WavNode)
    (hw : o.wholeChunk = true) (hti : o.fusedTI = some fun _ => []) (hest : o.est 0 ≠ [])
    (hdata : nd.data.flatten ≠ []) (x : List ℚ) (hclean : nd.clean[o.refSensor]? = some x) (hx : x ≠ []) :
    ∃ files, exportSounds o (nd :: others) false = (files, some .valueError) ∧
      files.map (fun f => (f.kind, f.node)) =
        [(.noisy (o.refSensor + 1), 1), (.desired (o.refSensor + 1), 1), (.enhanced, 1)] := by
  have hwav : ∀ (kind : WavKind) (y : List ℚ), y ≠ [] → ∃ f, exportWav kind 1 nd.fs y = .ok f ∧
      f.kind = kind ∧ f.node = 1 := by
    intro kind y hy
    have : ∃ f, exportWav kind 1 nd.fs y = .ok f := by
      unfold exportWav normalizeToInt16
      rw [if_neg hy]
      by_cases c : amax y = 0
      · rw [if_pos c]; exact ⟨_, rfl⟩
      · rw [if_neg c]; exact ⟨_, rfl⟩
    obtain ⟨f, hf⟩ := this
    exact ⟨f, hf, (exportWav_ok hf).1, (exportWav_ok hf).2.1⟩
  obtain ⟨f1, a1, b1, c1⟩ := hwav (.noisy (o.refSensor + 1)) _ hdata
  obtain ⟨f2, a2, b2, c2⟩ := hwav (.desired (o.refSensor + 1)) _ hx
  obtain ⟨f3, a3, b3, c3⟩ := hwav .enhanced _ hest
  have hplan : ∃ tl, wavPlan o false nd 0 = (.noisy (o.refSensor + 1), .ok nd.data.flatten) ::
      (.desired (o.refSensor + 1), .ok x) :: (.enhanced, .ok (o.est 0)) :: (.fusedTI, .ok []) :: tl := by
    unfold wavPlan
    rw [if_pos (List.length_pos_iff.mpr hest), hw, hti, hclean]
    simp
  obtain ⟨tl, hplan⟩ := hplan
  have hwr : writeWavs nd.fs (0 + 1) (wavPlan o false nd 0) = ([f1, f2, f3], some .valueError) := by
    rw [hplan]
    simp only [writeWavs, Except.bind, a1, a2, a3, Nat.zero_add]
    rfl
  refine ⟨[f1, f2, f3], ?_, by simp [b1, c1, b2, c2, b3, c3]⟩
  unfold exportSounds
  rw [List.zipIdx_cons, exportNodes, hwr]

/-- Outputs of an online run with whole-chunk broadcasts and the centralised estimate, one node with two sensors. -/
def exWavOut : WavOut where
  refSensor := 0
  wholeChunk := true
  batch := false
  computeCentralised := true
  computeLocal := false
  computeSSBC := false
  est := fun _ => [1, 2]
  estC := some fun _ => [2, 1]
  estL := none
  estS := none
  fused := fun _ => [1, 1]
  fusedTI := none

def exWavNode : WavNode := ⟨16000, [[1, 2], [2, 1]], [[1, 0], [0, 1]]⟩

/-- The export of one node writes five files; in batch mode with a tree, three. -/
example : (exportSounds exWavOut [exWavNode] true).2 = none ∧
    ((exportSounds exWavOut [exWavNode] true).1.map (·.kind)) =
      [.noisy 1, .desired 1, .enhanced, .fused, .centr] ∧
    (exportSounds { exWavOut with batch := true, fusedTI := some fun _ => [] } [exWavNode, exWavNode] false).2 =
      some .valueError := by
  decide_cbv

end Danse
