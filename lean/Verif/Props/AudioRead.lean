import Verif.Proofs.AudioRead

/-!
# C147: the audio reader reads what it is asked for
-/

namespace Danse

variable {N M P A : Type} [DecidableEq N] [DecidableEq M]

theorem arMic {r : AudioReader N M} {paths : List (N × List (M × P))} {n : N} {m : M} :
    r.Mic paths n m ↔ ∃ ms, r.mics.items paths n = .ok ms ∧ m ∈ ms := by
  obtain ⟨ns, sel⟩ := r
  unfold AudioReader.Mic MicSel.items
  cases sel with
  | all => cases dictGet paths n <;> simp [Except.map]
  | dict d => simp only; cases dictGet d n <;> simp [Except.map]
  | str m' => simp
  | iter s => simp

theorem arSig (load : P → Except PyErr A) (paths : List (N × List (M × P))) (n : N) (m : M) :
    micSignal load paths n m = (dictGet paths n >>= fun p => dictGet p m >>= load) := rfl

theorem arReusable {r : AudioReader N M} (h : r.Reusable) : r.mics.Reusable := by
  obtain ⟨ns, sel⟩ := r
  have := h.2
  unfold MicSel.Reusable
  cases sel <;> exact this

/-- The nodes of a call. -/
theorem arCall (load : P → Except PyErr A) (r : AudioReader N M) (paths : List (N × List (M × P))) : ∃ ns, (∀ n, r.Node paths n ↔ n ∈ ns) ∧
    (r.call load paths).2 = (readNodes load paths r.mics ns []).2.2 := by
  obtain ⟨nodes, sel⟩ := r
  cases nodes with
  | none => exact ⟨paths.map (·.1), fun n => Iff.rfl, rfl⟩
  | some s => exact ⟨s.items, fun n => Iff.rfl, rfl⟩

/-- C147: what a reader without iterators returns has exactly the nodes that are asked for, each with exactly the microphones that are asked
for, and their signals. -/
theorem C147_read {load : P → Except PyErr A} {r : AudioReader N M} (hr : r.Reusable) {paths : List (N × List (M × P))}
    {out : List (N × List (M × A))} (h : (r.call load paths).2 = .ok out) (n : N) :
    (r.Node paths n → ∃ d, dictGet out n = .ok d ∧ ∀ m,
        (r.Mic paths n m → ∃ a, micSignal load paths n m = .ok a ∧ dictGet d m = .ok a) ∧
        (¬ r.Mic paths n m → dictGet d m = .error .keyError)) ∧
      (¬ r.Node paths n → dictGet out n = .error .keyError) := by
  obtain ⟨ns, h1, h2⟩ := arCall load r paths
  rw [h2] at h
  obtain ⟨h3, h4⟩ := readNodes_ok (arReusable hr) h n
  rw [h1]
  refine ⟨fun hn => ?_, h4⟩
  obtain ⟨d, hd, ho⟩ := h3 hn
  refine ⟨d, ho, fun m => ?_⟩
  rw [readNode_res] at hd
  rw [arMic]
  cases hi : r.mics.items paths n with
  | error e => rw [hi] at hd; cases hd
  | ok ms =>
    rw [hi] at hd
    obtain ⟨-, h5⟩ := readMics_ok (acc := []) (show (readMics load (dictGet paths n) ms []).2 = .ok d from hd)
    constructor
    · rintro ⟨ms', e, hm⟩
      cases e
      exact (h5 m).1 hm
    · intro hm
      exact (h5 m).2 fun hm' => hm ⟨ms, rfl, hm'⟩

/-- C147 (exceptions): a call ends with an exception if and only if the microphones of a node that is asked for are not known, or the signal of
one of them cannot be had. -/
theorem C147_ok {load : P → Except PyErr A} {r : AudioReader N M} (hr : r.Reusable) (paths : List (N × List (M × P))) :
    (∃ out, (r.call load paths).2 = .ok out) ↔ ∀ n, r.Node paths n →
      (r.mics = .all → ∃ p, dictGet paths n = .ok p) ∧ (∀ d, r.mics = .dict d → ∃ s, dictGet d n = .ok s) ∧
        ∀ m, r.Mic paths n m → ∃ a, micSignal load paths n m = .ok a := by
  constructor
  · rintro ⟨out, h⟩ n hn
    obtain ⟨d, -, h2⟩ := (C147_read hr h n).1 hn
    obtain ⟨ns, h3, h4⟩ := arCall load r paths
    rw [h4] at h
    obtain ⟨d', hd', -⟩ := (readNodes_ok (arReusable hr) h n).1 ((h3 n).1 hn)
    rw [readNode_res] at hd'
    refine ⟨fun e => ?_, fun d e => ?_, fun m hm => ?_⟩
    · rw [e] at hd'
      cases hp : dictGet paths n with
      | ok p => exact ⟨p, rfl⟩
      | error x =>
        unfold MicSel.items at hd'
        rw [hp] at hd'
        cases hd'
    · rw [e] at hd'
      cases hp : dictGet d n with
      | ok p => exact ⟨p, rfl⟩
      | error x =>
        unfold MicSel.items at hd'
        simp only [hp] at hd'
        cases hd'
    · obtain ⟨a, ha, -⟩ := (h2 m).1 hm
      exact ⟨a, ha⟩
  · intro h
    obtain ⟨ns, h3, h4⟩ := arCall load r paths
    rw [h4]
    refine readNodes_total (arReusable hr) [] fun n hn => ?_
    obtain ⟨h5, h6, h7⟩ := h n ((h3 n).2 hn)
    rw [readNode_res]
    have hi : ∃ ms, r.mics.items paths n = .ok ms := by
      unfold MicSel.items
      cases hm : r.mics with
      | all =>
        obtain ⟨p, hp⟩ := h5 hm
        exact ⟨_, by simp only [hp]; rfl⟩
      | dict d =>
        obtain ⟨s, hs⟩ := h6 d hm
        exact ⟨_, by simp only [hs]; rfl⟩
      | str m => exact ⟨_, rfl⟩
      | iter s => exact ⟨_, rfl⟩
    obtain ⟨ms, hi⟩ := hi
    rw [hi]
    exact readMics_total [] fun m hm => h7 m (arMic.2 ⟨ms, hi, hm⟩)

/-- C147 (history): a call leaves a reader without iterators as it was, also when it ends with an exception. -/
theorem C147_again {load : P → Except PyErr A} {r : AudioReader N M} (hr : r.Reusable) (paths : List (N × List (M × P))) :
    (r.call load paths).1 = r := by
  obtain ⟨nodes, sel⟩ := r
  have hs : sel.Reusable := arReusable hr
  cases nodes with
  | none =>
    unfold AudioReader.call
    simp only [readNodes_sel hs]
  | some s =>
    unfold AudioReader.call
    simp only [readNodes_sel hs]
    rw [left_of_coll (fun l e => hr.1 l (by rw [e]))]

/-- C147 (refuted: "whatever the iterable"): with `mic_ids` an iterator (a generator, say), only the first node gets signals; the others get none,
without an exception; and so do all nodes in the next call. -/
theorem C147_refuted_once {load : P → Except PyErr A} {n0 : N} {ns : List N} (h0 : n0 ∉ ns) {ms : List M} (paths : List (N × List (M × P)))
    (hok : ∀ m ∈ ms, ∃ a, micSignal load paths n0 m = .ok a) :
    ∃ (r' : AudioReader N M) (out : List (N × List (M × A))) (d0 : List (M × A)),
      (⟨some (.coll (n0 :: ns)), .iter (.once ms)⟩ : AudioReader N M).call load paths = (r', .ok out) ∧
        dictGet out n0 = .ok d0 ∧ (∀ m ∈ ms, dictGet d0 m = micSignal load paths n0 m) ∧ (∀ n ∈ ns, dictGet out n = .ok []) ∧
        ∀ paths' : List (N × List (M × P)), ∃ out', (r'.call load paths').2 = .ok out' ∧
          ∀ n ∈ n0 :: ns, dictGet out' n = .ok ([] : List (M × A)) := by
  obtain ⟨d0, hd⟩ := readMics_total (load := load) (paths := dictGet paths n0) (ms := ms) [] hok
  obtain ⟨hr, hd2⟩ := readMics_ok hd
  have hn : readNode load paths (.iter (.once ms)) n0 = (.iter (.once []), .ok d0) := by
    unfold readNode
    simp only [PyIter.items, PyIter.left]
    rw [hr, hd]
  have hall : readNodes load paths (.iter (.once ms)) (n0 :: ns) [] =
      ([], .iter (.once []), .ok (ns.foldl (fun a n => dictSet a n []) (dictSet [] n0 d0))) := by
    rw [readNodes, hn]
    exact readNodes_empty ns _
  refine ⟨⟨some (.coll (n0 :: ns)), .iter (.once [])⟩, ns.foldl (fun a n => dictSet a n []) (dictSet [] n0 d0), d0, ?_, ?_, ?_, ?_, ?_⟩
  · unfold AudioReader.call
    simp only [PyIter.items, hall, PyIter.left]
  · rw [foldl_empty, if_neg h0, dictGet_set, if_pos rfl]
  · intro m hm
    obtain ⟨a, h1, h2⟩ := (hd2 m).1 hm
    rw [h2, arSig, h1]
  · intro n hn'
    rw [foldl_empty, if_pos hn']
  · intro paths'
    refine ⟨(n0 :: ns).foldl (fun a n => dictSet a n []) [], ?_, fun n hn' => by rw [foldl_empty, if_pos hn']⟩
    unfold AudioReader.call
    simp only [PyIter.items, readNodes_empty]

/-! ## Concrete readers -/

/-- Two nodes, two microphones each; file `f` holds the signal `[f]`. -/
def exPaths : List (Nat × List (Nat × Nat)) := [(0, [(5, 50), (6, 60)]), (1, [(5, 51), (6, 61)])]
def exLoad : Nat → Except PyErr (List Nat) := fun f => if f = 61 then .error .fileNotFoundError else .ok [f]

/-- The hypothesis of `C147_read` and `C147_again` is met: microphone 5 of both nodes. -/
example : (⟨none, .str 5⟩ : AudioReader Nat Nat).Reusable ∧
    ((⟨none, .str 5⟩ : AudioReader Nat Nat).call exLoad exPaths).2 = .ok [(0, [(5, [50])]), (1, [(5, [51])])] :=
  ⟨⟨fun _ h => by simp at h, trivial⟩, rfl⟩

/-- A dictionary: the exceptions of a node without an entry and of a file that is not there. -/
example : ((⟨none, .dict [(0, .coll [6])]⟩ : AudioReader Nat Nat).call exLoad exPaths).2 = .error .keyError ∧
    ((⟨none, .all⟩ : AudioReader Nat Nat).call exLoad exPaths).2 = .error .fileNotFoundError ∧
    ((⟨some (.coll [0]), .dict [(0, .coll [6])]⟩ : AudioReader Nat Nat).call exLoad exPaths).2 = .ok [(0, [(6, [60])])] := by
  exact ⟨rfl, rfl, rfl⟩

/-- An iterator: node 1 gets nothing. -/
example : ((⟨some (.coll [0, 1]), .iter (.once [5])⟩ : AudioReader Nat Nat).call exLoad exPaths).2 = .ok [(0, [(5, [50])]), (1, [])] := rfl

end Danse
