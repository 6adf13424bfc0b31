import Verif.Proofs.Config3

/-!
# Properties C45, C46: comparing, saving and loading parameter objects
-/

namespace Danse

/-! ## C45 -/

/-- C45 (a): the comparison answers "equal" exactly when every attribute of the first object, at
any depth, exists in the second object and agrees with it. -/
theorem C45_equal_iff {mixed : Leaf → NumArr → Except PyErr Bool} {a : Attrs} (hu : a.Uniq)
    (b : Attrs) : dcEqual mixed a b = .ok true ↔ AgreesWith mixed a b :=
  ⟨dcEqual_agrees, dcEqual_complete hu⟩

/-- C45 (b): every object is equal to itself. -/
theorem C45_refl {mixed : Leaf → NumArr → Except PyErr Bool} {a : Attrs} (hu : a.Uniq) :
    dcEqual mixed a a = .ok true :=
  dcEqual_complete hu
    ⟨fun _ v hv => ⟨v, hv, leafAgrees_refl mixed v⟩, fun _ d s hs => ⟨d, s, hs⟩⟩

example : (Attrs.node "w" [] (.leaf "sro" (.arr ⟨[2], [0, 50]⟩) .nil) (.leaf "n" (.scalar "3") .nil)).Uniq := by
  simp [Attrs.Uniq, Attrs.find]

example : dcEqual (fun _ _ => .error .valueError)
    (.node "w" [] (.leaf "sro" (.arr ⟨[2], [0, 50]⟩) .nil) (.leaf "n" (.scalar "3") .nil))
    (.node "w" [] (.leaf "sro" (.arr ⟨[2], [0, 50 + 1/10000]⟩) .nil) (.leaf "n" (.scalar "3") .nil))
    = .ok true := by decide +kernel

example : dcEqual (fun _ _ => .error .valueError)
    (.node "w" [] (.leaf "sro" (.arr ⟨[2], [0, 50]⟩) .nil) (.leaf "n" (.scalar "3") .nil))
    (.node "w" [] (.leaf "sro" (.arr ⟨[2], [0, 51]⟩) .nil) (.leaf "n" (.scalar "3") .nil))
    = .ok false := by decide +kernel

/-- C45, refuted part: the comparison is not symmetric. An object is "equal" to any object that
has one attribute more, and the reverse comparison raises an exception instead of answering. -/
theorem C45_refuted_symmetric (mixed : Leaf → NumArr → Except PyErr Bool) (a : Attrs)
    (hu : a.Uniq) (k : String) (v : Leaf) (hk : a.find k = none) :
    dcEqual mixed a (.leaf k v a) = .ok true ∧
      dcEqual mixed (.leaf k v a) a = .error .keyError := by
  refine ⟨?_, by simp [dcEqual, hk]⟩
  have hf : ∀ k' x, a.find k' = some x → (Attrs.leaf k v a).find k' = some x := by
    intro k' x hx
    simp only [Attrs.find]
    rw [if_neg, hx]
    rintro rfl
    rw [hk] at hx; cases hx
  have hg : ∀ k' p x, a.get (k' :: p) = some x → (Attrs.leaf k v a).get (k' :: p) = some x := by
    intro k' p x hx
    rw [Attrs.get_cons] at hx ⊢
    cases ha : a.find k' with
    | none => rw [ha] at hx; cases hx
    | some z => rw [ha] at hx; rw [hf k' z ha]; exact hx
  apply dcEqual_complete hu
  refine ⟨?_, ?_⟩
  · intro p w hw
    cases p with
    | nil => cases hw
    | cons k' p => exact ⟨w, hg _ _ _ hw, leafAgrees_refl mixed w⟩
  · intro p d s hs
    cases p with
    | nil => exact ⟨[], _, rfl⟩
    | cons k' p => exact ⟨d, s, hg _ _ _ hs⟩

/-- C45, refuted part: also with the same attributes, near the tolerance the answer depends on
the order. -/
theorem C45_refuted_symmetric_close :
    ∃ a b : Attrs, ∀ mixed, dcEqual mixed a b = .ok true ∧ dcEqual mixed b a = .ok false := by
  refine ⟨.leaf "x" (.arr ⟨[1], [1 + 1 / 10 ^ 5 + 1 / 10 ^ 8 + 1 / 10 ^ 11]⟩) .nil,
    .leaf "x" (.arr ⟨[1], [1]⟩) .nil, fun mixed => ⟨?_, ?_⟩⟩
  all_goals
    simp only [dcEqual, Attrs.find, leafEqual, if_true]
    decide +kernel

/-! ## C46 -/

/-- C46 (a): after any sequence of saves (any objects, folders and export types), loading class
`c` from a folder gives the object of that class last saved there as a pickle, re-initialised;
if there is none, `ValueError`. The requested data type does not matter. -/
theorem C46_load_last_saved {O : Type} (cls txt : O → String) (post : O → Except PyErr O)
    (hist : List (O × String × String)) (c folder ty : String) (hty : ty = "pkl" ∨ ty = "json") :
    loadDc post c (saveAll cls txt (fun _ => none) hist) folder ty =
      (match lastSaved cls c folder hist with
        | some o => post o
        | none => .error .valueError) := by
  obtain ⟨h1, h2, _⟩ := stored_saveAll cls txt hist folder c
  rw [loadDc_eq post _ c folder ty hty h2, h1]
  cases lastSaved cls c folder hist <;> rfl

example : lastSaved (fun n : Nat => if n < 10 then "Small" else "Big") "Small" "out"
    [(1, "out", "pkl"), (12, "out", "pkl"), (2, "out", "pkl"), (3, "elsewhere", "pkl"),
      (4, "out", "json")] = some 2 := by decide

/-- C46 (b): saving then loading (nothing else in between) gives back the saved object,
re-initialised, whatever was on the disk before, provided no JSON file of that class is there or
the pickle is asked for. -/
theorem C46_roundtrip {O : Type} (cls txt : O → String) (post : O → Except PyErr O) (fs : FS O)
    (o : O) (folder : String) :
    (saveDc cls txt fs o folder "pkl").2 = none ∧
    loadDc post (cls o) (saveDc cls txt fs o folder "pkl").1 folder "pkl" = post o := by
  refine ⟨by simp [saveDc], ?_⟩
  obtain ⟨s1, _⟩ := stored_save cls txt fs o folder "pkl" folder (cls o)
  rw [if_pos ⟨rfl, rfl, rfl⟩] at s1
  unfold loadDc
  unfold stored at s1
  cases hf : (saveDc cls txt fs o folder "pkl").1 folder with
  | none => rw [hf] at s1; cases s1
  | some d =>
    rw [hf] at s1
    simp only [Option.bind_some] at s1
    simp [s1]

/-- C46 (c): saving never touches another folder, nor any file of that folder other than the
pickle and the text file of that class. -/
theorem C46_save_frame {O : Type} (cls txt : O → String) (fs : FS O) (o : O) (folder ty : String)
    (f name : String)
    (h : f ≠ folder ∨ (name ≠ cls o ++ ".pkl.gz" ∧ name ≠ cls o ++ "_text.txt")) :
    stored (saveDc cls txt fs o folder ty).1 f name = stored fs f name := by
  unfold saveDc
  by_cases hj : ty = "json"
  · simp [hj, stored_ensure]
  · simp only [if_neg hj]
    rw [stored_write, if_neg (by rintro ⟨h1, h2⟩; rcases h with h | h; exacts [h h1, h.2 h2])]
    by_cases hp : ty = "pkl"
    · simp only [if_pos hp]
      rw [stored_write, if_neg (by rintro ⟨h1, h2⟩; rcases h with h | h; exacts [h h1, h.1 h2]),
        stored_ensure]
    · simp only [if_neg hp, stored_ensure]

/-- C46, refuted part: the advertised JSON export always raises and writes no file at all. -/
theorem C46_refuted_json_save {O : Type} (cls txt : O → String) (fs : FS O) (o : O)
    (folder f name : String) :
    (saveDc cls txt fs o folder "json").2 = some .valueError ∧
      stored (saveDc cls txt fs o folder "json").1 f name = stored fs f name := by
  simp [saveDc, stored_ensure]

/-- C46, refuted part: if a JSON file of that class is present and asked for, loading fails. -/
theorem C46_refuted_json_load {O : Type} (post : O → Except PyErr O) (fs : FS O) (c folder : String)
    (d : String → Option (FileContent O)) (hf : fs folder = some d)
    (hd : (d (c ++ ".json")).isSome = true) :
    loadDc post c fs folder "json" = .error .attributeError := by
  simp [loadDc, hf, hd]

/-- C46, refuted part: any other export type is accepted silently but writes nothing that can be
loaded. -/
theorem C46_refuted_unknown_type {O : Type} (cls txt : O → String) (fs : FS O) (o : O)
    (folder ty : String) (h1 : ty ≠ "pkl") (h2 : ty ≠ "json") (f c : String) :
    (saveDc cls txt fs o folder ty).2 = none ∧
      stored (saveDc cls txt fs o folder ty).1 f (c ++ ".pkl.gz") =
        stored fs f (c ++ ".pkl.gz") := by
  refine ⟨by simp [saveDc, h2], ?_⟩
  rw [(stored_save cls txt fs o folder ty f c).1, if_neg (fun h => h1 h.2.2)]

end Danse
