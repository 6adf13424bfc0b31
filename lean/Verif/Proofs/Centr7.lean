import Verif.Proofs.Centr6
import Verif.Proofs.Given3

/-!
# Helper lemmas: the centralised estimates of a run on a sum of signals
-/

set_option linter.unusedSectionVars false

namespace Danse

theorem Ok3.get {α β γ : Type} {R : α → β → γ → Prop} {a : Except PyErr α} {b : Except PyErr β}
    {c : Except PyErr γ} (h : Ok3 R a b c) {x : α} {y : β} {z : γ} (hx : a = .ok x) (hy : b = .ok y)
    (hz : c = .ok z) : R x y z := by
  obtain ⟨w, hw, hr⟩ := h x y hx hy
  rw [hz] at hw
  injection hw with hw
  rw [hw]
  exact hr

theorem Ok3.whenOn {α : Type} {R : α → α → α → Prop} (o : Bool) {a b c : Except PyErr α} {x y z : α}
    (h : o = true → Ok3 R a b c) (hd : R x y z) :
    Ok3 R (Danse.whenOn o a x) (Danse.whenOn o b y) (Danse.whenOn o c z) := by
  cases o with
  | true => exact h rfl
  | false => exact Ok3.ok hd

section
variable {K : Type} [Field K] [StarRing K] [DecidableEq K] {c : CentrCfg K} {y : Nat → List (List K)}

/-- Parts of an update. -/
theorem centrUpdate_parts {s s' : CentrSt K} {t : ℚ} {k : Nat} (h : c.update y s t k = .ok s') :
    ∃ p loc yS dC dS, whenOn c.centr (processCentr c.n c.g.N c.g.Ns (fun q => (y q).length) s k)
        (s.yc k, []) = .ok p ∧
      (y k).mapM (fun ch => chunkForUpdate ch t (c.g.fs k) c.g.bc.name c.g.N c.g.Ns) = .ok loc ∧
      whenOn c.ssbc (buildSsbc c.n (fun q => (y q).length) k (loc.map (·.1)) p.1) [] = .ok yS ∧
      c.g.update y s.base t k = .ok s'.base ∧
      whenOn c.centr (c.g.desired (c.wC k (s.base.net.it k + 1))
            ((((if c.centr then buildCentr c.n (fun q => (y q).length) k (loc.map (·.1)) p.1 else []).map
              (analysis c.g.ζ c.g.N c.g.c c.g.h)).zipIdx.map fun (ch, m) =>
              ch.zipIdx.map fun (v, κ) => v * c.rotC k (s.base.net.it k) m κ))
            ((if c.centr then buildCentr c.n (fun q => (y q).length) k (loc.map (·.1)) p.1 else []).take
              (y k).length) (s.dC k) (c.g.updRange t k).1 (c.g.updRange t k).2) (s.dC k) = .ok dC ∧
      whenOn c.ssbc (c.g.desired (c.wS k (s.base.net.it k + 1)) (yS.map (analysis c.g.ζ c.g.N c.g.c c.g.h))
            (yS.take (y k).length) (s.dS k) (c.g.updRange t k).1 (c.g.updRange t k).2) (s.dS k) = .ok dS ∧
      s'.buf = (if c.centr then Function.update s.buf k (emptyCentr c.n (fun q => (y q).length) k) else s.buf) ∧
      s'.yc = Function.update s.yc k p.1 ∧
      s'.dC = Function.update s.dC k dC ∧ s'.dS = Function.update s.dS k dS := by
  unfold CentrCfg.update at h
  obtain ⟨_, _, h⟩ := bind_ok_inv h
  obtain ⟨p, hp, h⟩ := bind_ok_inv h
  obtain ⟨loc, hloc, h⟩ := bind_ok_inv h
  split at h
  · cases h
  · obtain ⟨yS, hyS, h⟩ := bind_ok_inv h
    split at h
    · cases h
    · obtain ⟨base, hb, h⟩ := bind_ok_inv h
      obtain ⟨dC, hdC, h⟩ := bind_ok_inv h
      obtain ⟨dS, hdS, h⟩ := bind_ok_inv h
      injection h with h
      subst h
      exact ⟨p, loc, yS, dC, dS, hp, hloc, hyS, hb, hdC, hdS, rfl, rfl, rfl, rfl⟩

/-- Parts of a broadcast. -/
theorem centrBroadcast_parts {s s' : CentrSt K} {t : ℚ} {k : Nat} (h : c.broadcast y s t k = .ok s') :
    c.g.broadcast y s.base t k = .ok s'.base ∧ s'.yc = s.yc ∧ s'.dC = s.dC ∧ s'.dS = s.dS ∧
      (c.centr = true → ∃ raw m, c.rawFrames y s t k = .ok raw ∧ c.nSamplesToBC s t k = .ok m ∧
        fillCentr c.n s.buf k raw m = .ok s'.buf) ∧ (c.centr = false → s'.buf = s.buf) := by
  unfold CentrCfg.broadcast at h
  split at h
  · rename_i hc
    obtain ⟨raw, h1, h⟩ := bind_ok_inv h
    obtain ⟨b, h2, h⟩ := bind_ok_inv h
    obtain ⟨m, h3, h⟩ := bind_ok_inv h
    obtain ⟨bf, h4, h⟩ := bind_ok_inv h
    injection h with h
    subst h
    exact ⟨h2, rfl, rfl, rfl, fun _ => ⟨raw, m, h1, h3, h4⟩, fun e => by rw [hc] at e; cases e⟩
  · rename_i hc
    obtain ⟨b, h2, h⟩ := bind_ok_inv h
    injection h with h
    subst h
    exact ⟨h2, rfl, rfl, rfl, fun e => absurd e hc, fun _ => rfl⟩

/-- The options only add to the run. -/
theorem centr_step_base {s s' : CentrSt K} {ev : ℚ × Nat × EvType} (h : c.step y s ev = .ok s') :
    c.g.step y s.base ev = .ok s'.base := by
  obtain ⟨t, k, ty⟩ := ev
  unfold CentrCfg.step at h
  unfold GivenCfg.step
  cases ty with
  | bc => exact (centrBroadcast_parts h).1
  | up =>
    obtain ⟨_, _, _, _, _, _, _, _, hb, _⟩ := centrUpdate_parts h
    exact hb
  | fu => cases h
  | re => cases h
  | tr => cases h

theorem centr_run_base (evs : List (ℚ × Nat × EvType)) {s s' : CentrSt K} (h : c.run y s evs = .ok s') :
    c.g.run y s.base evs = .ok s'.base := by
  induction evs generalizing s with
  | nil => injection h with h; subst h; rfl
  | cons ev evs ih =>
    unfold CentrCfg.run at h
    rw [List.foldlM_cons] at h
    obtain ⟨s1, h1, h⟩ := bind_ok_inv h
    unfold GivenCfg.run
    rw [List.foldlM_cons, centr_step_base h1]
    exact ih h

/-! ## Sums -/

/-- The states of three runs, the third on the sum of the signals of the others. -/
structure CentrRel (c : CentrCfg K) (s1 s2 s3 : CentrSt K) : Prop where
  it : Same s1.base.net.it s2.base.net.it s3.base.net.it
  lastBc : ∀ L, c.g.bc = .few L true → Same s1.base.lastBc s2.base.lastBc s3.base.lastBc
  buf : ∀ q i, SumsM (s1.buf q i) (s2.buf q i) (s3.buf q i)
  yc : ∀ k, SumsM (s1.yc k) (s2.yc k) (s3.yc k)
  dC : ∀ k, Sums (s1.dC k) (s2.dC k) (s3.dC k)
  dS : ∀ k, Sums (s1.dS k) (s2.dS k) (s3.dS k)

theorem All3.zipAppend {a a' b b' d d' : List (List K)} (h : SumsM a b d) (h' : SumsM a' b' d') :
    SumsM (List.zipWith (· ++ ·) a a') (List.zipWith (· ++ ·) b b') (List.zipWith (· ++ ·) d d') := by
  induction h generalizing a' b' d' with
  | nil => simp only [List.zipWith_nil_left]; exact All3.nil
  | cons hx _ ih =>
    cases h' with
    | nil => exact All3.nil
    | cons hx' ht' => exact All3.cons (All3.append hx hx') (ih ht')

theorem All3.flatMap {ι : Type} {f g k : ι → List (List K)} (l : List ι)
    (h : ∀ i ∈ l, SumsM (f i) (g i) (k i)) : SumsM (l.flatMap f) (l.flatMap g) (l.flatMap k) := by
  induction l with
  | nil => exact All3.nil
  | cons i l ih =>
    simp only [List.flatMap_cons]
    exact All3.append (h i (by simp)) (ih fun j hj => h j (by simp [hj]))

theorem fillCentr_sums (n : Nat) {b1 b2 b3 : Nat → Nat → List (List K)}
    (h : ∀ q i, SumsM (b1 q i) (b2 q i) (b3 q i)) (k : Nat) {r1 r2 r3 : List (List K)} (hr : SumsM r1 r2 r3)
    (m : Int) :
    Ok3 (fun b1 b2 b3 : Nat → Nat → List (List K) => ∀ q i, SumsM (b1 q i) (b2 q i) (b3 q i))
      (fillCentr n b1 k r1 m) (fillCentr n b2 k r2 m) (fillCentr n b3 k r3 m) := by
  unfold fillCentr
  refine Ok3.foldlM (R := fun b1 b2 b3 : Nat → Nat → List (List K) => ∀ q i, SumsM (b1 q i) (b2 q i) (b3 q i))
    (List.range n) ?_ h
  intro q _ a b d hb
  split
  · exact Ok3.ok hb
  · split
    · exact Ok3.err
    · apply Ok3.ok
      intro q' i'
      by_cases e : q' = q
      · subst e
        simp only [Function.update_self]
        by_cases e2 : i' = centrSlot k q'
        · subst e2
          simp only [Function.update_self]
          exact All3.zipAppend (hb q' _) (All3.map (R := Sums) (fun x y z hz => All3.chunkOf _ hz) hr)
        · simpa [Function.update_of_ne e2] using hb q' i'
      · simpa [Function.update_of_ne e] using hb q' i'

theorem emptyCentr_sums (n : Nat) (M : Nat → Nat) (k slot : Nat) :
    SumsM (emptyCentr (K := K) n M k slot) (emptyCentr n M k slot) (emptyCentr n M k slot) := by
  unfold emptyCentr
  split
  · exact All3.replicate _ All3.nil
  · exact All3.nil

theorem frameCentr_sums {N Ns : Nat} {M : List Nat} {first : Bool} {c1 c2 c3 : List (List K)} {k q : Nat}
    (hc : SumsM c1 c2 c3) {b1 b2 b3 : List (List K)} (hb : SumsM b1 b2 b3) :
    SumsM (frameCentr N Ns M first c1 k q b1).1 (frameCentr N Ns M first c2 k q b2).1
      (frameCentr N Ns M first c3 k q b3).1 := by
  unfold frameCentr
  refine All3.map ?_ (All3.zipIdx hb 0)
  rintro ⟨x, n⟩ ⟨y, n'⟩ ⟨z, m⟩ ⟨hz, e1, e2⟩
  simp only at hz e1 e2
  subst e1
  subst e2
  exact (frameOf_sums (All3.getD (R := Sums) hc All3.nil _) hz).1

theorem processCentr_sums {n N Ns : Nat} {M : Nat → Nat} {s1 s2 s3 : CentrSt K} {k : Nat}
    (hit : Same s1.base.net.it s2.base.net.it s3.base.net.it)
    (hb : ∀ q i, SumsM (s1.buf q i) (s2.buf q i) (s3.buf q i)) (hc : ∀ k, SumsM (s1.yc k) (s2.yc k) (s3.yc k)) :
    Ok3 (fun x y z : List (List K) × List Int => SumsM x.1 y.1 z.1)
      (processCentr n N Ns M s1 k) (processCentr n N Ns M s2 k) (processCentr n N Ns M s3 k) := by
  unfold processCentr
  rw [hit.1, hit.2]
  have hr : ∀ l : List Nat, All3 (fun x y z : List (List K) × Int => SumsM x.1 y.1 z.1)
      (l.map fun q => frameCentr N Ns ((List.range n).map M) (s3.base.net.it k = 0) (s1.yc k) k q
        (s1.buf k (centrReadSlot k q)))
      (l.map fun q => frameCentr N Ns ((List.range n).map M) (s3.base.net.it k = 0) (s2.yc k) k q
        (s2.buf k (centrReadSlot k q)))
      (l.map fun q => frameCentr N Ns ((List.range n).map M) (s3.base.net.it k = 0) (s3.yc k) k q
        (s3.buf k (centrReadSlot k q))) := by
    intro l
    induction l with
    | nil => exact All3.nil
    | cons q l ih => exact All3.cons (frameCentr_sums (hc k) (hb k _)) ih
  have hall := all3_all (p := fun x : List (List K) × Int => x.1.all fun ch => decide (ch.length = N))
    (q := fun x : List (List K) × Int => x.1.all fun ch => decide (ch.length = N))
    (r := fun x : List (List K) × Int => x.1.all fun ch => decide (ch.length = N))
    (fun x y z hz => all3_all (R := Sums) (fun u v w hw => by
      simp [All3.length hw |>.1, All3.length hw |>.2]) hz) (hr (centrSlots n k))
  simp only [hall.1, hall.2]
  split
  · apply Ok3.ok
    simp only [List.flatMap_map]
    exact All3.flatMap _ fun q _ => frameCentr_sums (hc k) (hb k _)
  · exact Ok3.err

theorem buildCentr_sums (n : Nat) (M : Nat → Nat) (k : Nat) {l1 l2 l3 c1 c2 c3 : List (List K)}
    (hl : SumsM l1 l2 l3) (hc : SumsM c1 c2 c3) :
    SumsM (buildCentr n M k l1 c1) (buildCentr n M k l2 c2) (buildCentr n M k l3 c3) := by
  unfold buildCentr
  have : ∀ (l : List Nat) (a1 a2 a3 : List (List K)) (j : Nat), SumsM a1 a2 a3 →
      SumsM (l.foldl (fun (acc : List (List K) × Nat) q => if q = k then (acc.1 ++ l1, acc.2)
        else (acc.1 ++ (c1.drop (nbSensorsBefore n M k acc.2)).take
          (nbSensorsBefore n M k (acc.2 + 1) - nbSensorsBefore n M k acc.2), acc.2 + 1)) (a1, j)).1
      (l.foldl (fun (acc : List (List K) × Nat) q => if q = k then (acc.1 ++ l2, acc.2)
        else (acc.1 ++ (c2.drop (nbSensorsBefore n M k acc.2)).take
          (nbSensorsBefore n M k (acc.2 + 1) - nbSensorsBefore n M k acc.2), acc.2 + 1)) (a2, j)).1
      (l.foldl (fun (acc : List (List K) × Nat) q => if q = k then (acc.1 ++ l3, acc.2)
        else (acc.1 ++ (c3.drop (nbSensorsBefore n M k acc.2)).take
          (nbSensorsBefore n M k (acc.2 + 1) - nbSensorsBefore n M k acc.2), acc.2 + 1)) (a3, j)).1 := by
    intro l
    induction l with
    | nil => intro a1 a2 a3 j h; exact h
    | cons q l ih =>
      intro a1 a2 a3 j h
      simp only [List.foldl_cons]
      by_cases hq : q = k
      · simp only [hq, if_true]
        exact ih _ _ _ _ (All3.append h hl)
      · simp only [hq, if_false]
        exact ih _ _ _ _ (All3.append h ((hc.drop _).take _))
  exact this _ _ _ _ 0 All3.nil

theorem pyGet_sums {l1 l2 l3 : List (List K)} (h : SumsM l1 l2 l3) (i : Int) :
    Ok3 Sums (pyGet l1 i) (pyGet l2 i) (pyGet l3 i) := by
  unfold pyGet
  simp only [All3.length h |>.1, All3.length h |>.2]
  generalize (if i < 0 then i + (l3.length : Int) else i) = j
  split
  · exact Ok3.err
  · have := h.length
    by_cases hj : j.toNat < l3.length
    · rw [List.getElem?_eq_getElem hj, List.getElem?_eq_getElem (by omega), List.getElem?_eq_getElem (by omega)]
      apply Ok3.ok
      have := All3.getD (R := Sums) h (x := []) (y := []) (z := []) All3.nil j.toNat
      simpa [List.getD_eq_getElem?_getD, hj, h.length.1, h.length.2] using this
    · rw [List.getElem?_eq_none (by omega : l1.length ≤ _)]
      exact Ok3.err

theorem buildSsbc_sums (n : Nat) (M : Nat → Nat) (k : Nat) {l1 l2 l3 c1 c2 c3 : List (List K)}
    (hl : SumsM l1 l2 l3) (hc : SumsM c1 c2 c3) :
    Ok3 SumsM (buildSsbc n M k l1 c1) (buildSsbc n M k l2 c2) (buildSsbc n M k l3 c3) := by
  unfold buildSsbc
  refine (Ok3.foldlM (R := fun x y z : List (List K) × Nat => SumsM x.1 y.1 z.1 ∧ Same x.2 y.2 z.2)
    (List.range n) ?_ (x := (l1, 0)) (y := (l2, 0)) (z := (l3, 0)) ⟨hl, rfl, rfl⟩).bind fun x y z hz => Ok3.ok hz.1
  rintro q _ ⟨x, i⟩ ⟨y, i'⟩ ⟨z, j⟩ ⟨hz, e1, e2⟩
  simp only at hz e1 e2
  subst e1
  subst e2
  simp only
  split
  · exact Ok3.ok ⟨hz, rfl, rfl⟩
  · exact (pyGet_sums hc _).bind fun u v w hw => Ok3.ok ⟨All3.append hz (All3.cons hw All3.nil), rfl, rfl⟩

theorem rotC_sums (r : Nat → Nat → K) {a b d : List (List K)} (h : SumsM a b d) :
    SumsM (a.zipIdx.map fun (ch, m) => ch.zipIdx.map fun (v, κ) => v * r m κ)
      (b.zipIdx.map fun (ch, m) => ch.zipIdx.map fun (v, κ) => v * r m κ)
      (d.zipIdx.map fun (ch, m) => ch.zipIdx.map fun (v, κ) => v * r m κ) := by
  refine All3.map ?_ (All3.zipIdx h 0)
  rintro ⟨x, n⟩ ⟨y, n'⟩ ⟨z, m⟩ ⟨hz, e1, e2⟩
  simp only at hz e1 e2
  subst e1
  subst e2
  refine All3.map ?_ (All3.zipIdx hz 0)
  rintro ⟨x, p⟩ ⟨y, p'⟩ ⟨z, q⟩ ⟨hz, e1, e2⟩
  simp only at hz e1 e2
  subst e1 hz
  subst e2
  simp only
  ring

theorem centrUpdate_sums {y1 y2 y3 : Nat → List (List K)} (hy : ∀ k, SumsM (y1 k) (y2 k) (y3 k))
    {a b d a' b' d' : CentrSt K} (h : CentrRel c a b d) {t : ℚ} {k : Nat}
    (ha : c.update y1 a t k = .ok a') (hb : c.update y2 b t k = .ok b') (hd : c.update y3 d t k = .ok d') :
    CentrRel c a' b' d' := by
  obtain ⟨p1, loc1, yS1, dC1, dS1, a1, a2, a3, a4, a5, a6, a7, a8, a9, a10⟩ := centrUpdate_parts ha
  obtain ⟨p2, loc2, yS2, dC2, dS2, b1, b2, b3, b4, b5, b6, b7, b8, b9, b10⟩ := centrUpdate_parts hb
  obtain ⟨p3, loc3, yS3, dC3, dS3, d1, d2, d3, d4, d5, d6, d7, d8, d9, d10⟩ := centrUpdate_parts hd
  have hM1 : (fun q => (y1 q).length) = fun q => (y3 q).length := by funext q; exact (hy q).length.1
  have hM2 : (fun q => (y2 q).length) = fun q => (y3 q).length := by funext q; exact (hy q).length.2
  rw [hM1] at a1 a3 a5 a7
  rw [hM2] at b1 b3 b5 b7
  rw [(hy k).length.1] at a5 a6
  rw [(hy k).length.2] at b5 b6
  have hp : SumsM p1.1 p2.1 p3.1 :=
    (Ok3.whenOn (R := fun x y z : List (List K) × List Int => SumsM x.1 y.1 z.1) c.centr
      (fun _ => processCentr_sums h.it h.buf h.yc) (h.yc k)).get a1 b1 d1
  have hloc := (Ok3.mapM (S := fun u v w : List K × Int × Int => Sums u.1 v.1 w.1)
    (f := fun ch => chunkForUpdate ch t (c.g.fs k) c.g.bc.name c.g.N c.g.Ns)
    (g := fun ch => chunkForUpdate ch t (c.g.fs k) c.g.bc.name c.g.N c.g.Ns)
    (k := fun ch => chunkForUpdate ch t (c.g.fs k) c.g.bc.name c.g.N c.g.Ns) (fun x y z hz => by
      unfold chunkForUpdate
      split
      · exact localChunk_sums hz _
      · split
        · exact localChunk_sums hz _
        · exact Ok3.err) (hy k)).get a2 b2 d2
  have hL : SumsM (loc1.map (·.1)) (loc2.map (·.1)) (loc3.map (·.1)) :=
    All3.map (f := fun x : List K × Int × Int => x.1) (g := fun x : List K × Int × Int => x.1)
      (k := fun x : List K × Int × Int => x.1) (fun x y z hz => hz) hloc
  have hyS : SumsM yS1 yS2 yS3 :=
    (Ok3.whenOn (R := SumsM) c.ssbc (fun _ => buildSsbc_sums _ _ _ hL hp) All3.nil).get a3 b3 d3
  have hyC : SumsM (if c.centr then buildCentr c.n (fun q => (y3 q).length) k (loc1.map (·.1)) p1.1 else [])
      (if c.centr then buildCentr c.n (fun q => (y3 q).length) k (loc2.map (·.1)) p2.1 else [])
      (if c.centr then buildCentr c.n (fun q => (y3 q).length) k (loc3.map (·.1)) p3.1 else []) := by
    split
    · exact buildCentr_sums _ _ _ hL hp
    · exact All3.nil
  have han : ∀ {a b d : List (List K)}, SumsM a b d →
      SumsM (a.map (analysis c.g.ζ c.g.N c.g.c c.g.h)) (b.map (analysis c.g.ζ c.g.N c.g.c c.g.h))
        (d.map (analysis c.g.ζ c.g.N c.g.c c.g.h)) :=
    fun ha => All3.map (R := Sums) (fun x y z hz => Sums.analysis hz c.g.c c.g.h) ha
  rw [h.it.1] at a5 a6
  rw [h.it.2] at b5 b6
  have hdC : Sums dC1 dC2 dC3 :=
    (Ok3.whenOn (R := Sums) c.centr (fun _ => desired_sums _ (rotC_sums _ (han hyC)) (hyC.take _) (h.dC k) _ _)
      (h.dC k)).get a5 b5 d5
  have hdS : Sums dS1 dS2 dS3 :=
    (Ok3.whenOn (R := Sums) c.ssbc (fun _ => desired_sums _ (han hyS) (hyS.take _) (h.dS k) _ _)
      (h.dS k)).get a6 b6 d6
  refine ⟨?_, ?_, ?_, ?_, ?_, ?_⟩
  · rw [(update_base a4).1, (update_base b4).1, (update_base d4).1, h.it.1, h.it.2]
    exact ⟨rfl, rfl⟩
  · intro L hL
    rw [(update_base a4).2, (update_base b4).2, (update_base d4).2]
    exact h.lastBc L hL
  · intro q i
    rw [a7, b7, d7]
    split
    · by_cases e : q = k
      · subst e; simpa using emptyCentr_sums _ _ _ _
      · simpa [Function.update_of_ne e] using h.buf q i
    · exact h.buf q i
  · intro q
    rw [a8, b8, d8]
    by_cases e : q = k
    · subst e; simpa using hp
    · simpa [Function.update_of_ne e] using h.yc q
  · intro q
    rw [a9, b9, d9]
    exact Sums.update h.dC k hdC q
  · intro q
    rw [a10, b10, d10]
    exact Sums.update h.dS k hdS q

theorem rawFrames_sums {y1 y2 y3 : Nat → List (List K)} (hy : ∀ k, SumsM (y1 k) (y2 k) (y3 k))
    {a b d : CentrSt K} (h : CentrRel c a b d) (t : ℚ) (k : Nat) :
    Ok3 SumsM (c.rawFrames y1 a t k) (c.rawFrames y2 b t k) (c.rawFrames y3 d t k) := by
  unfold CentrCfg.rawFrames
  have hm : Ok3 (All3 fun u v w : List K × Int × Int => Sums u.1 v.1 w.1)
      ((y1 k).mapM fun ch => chunkForBroadcast ch t (c.g.fs k) c.g.N)
      ((y2 k).mapM fun ch => chunkForBroadcast ch t (c.g.fs k) c.g.N)
      ((y3 k).mapM fun ch => chunkForBroadcast ch t (c.g.fs k) c.g.N) :=
    Ok3.mapM (fun x y z hz => localChunk_sums hz _) (hy k)
  refine hm.bind ?_
  intro f1 f2 f3 hf
  cases hbc : c.g.bc with
  | whole =>
    apply Ok3.ok
    exact All3.map (f := fun x : List K × Int × Int => x.1) (g := fun x : List K × Int × Int => x.1)
      (k := fun x : List K × Int × Int => x.1) (fun x y z hz => hz) hf
  | few L eff =>
    cases eff with
    | false => exact Ok3.err
    | true =>
      simp only
      have e1 : c.g.currL a.base L true t k = c.g.currL d.base L true t k := by
        unfold GivenCfg.currL; rw [(h.lastBc L hbc).1]
      have e2 : c.g.currL b.base L true t k = c.g.currL d.base L true t k := by
        unfold GivenCfg.currL; rw [(h.lastBc L hbc).2]
      rw [e1, e2]
      refine (Ok3.same _).bind ?_
      rintro l1 l2 l ⟨rfl, rfl⟩
      apply Ok3.ok
      refine All3.map (R := fun u v w : List K × Int × Int => Sums u.1 v.1 w.1) ?_ hf
      intro x y z hz
      split
      · exact hz
      · exact All3.lastN _ hz

theorem nSamplesToBC_same {a b d : CentrSt K} (h : CentrRel c a b d) (t : ℚ) (k : Nat) :
    c.nSamplesToBC a t k = c.nSamplesToBC d t k ∧ c.nSamplesToBC b t k = c.nSamplesToBC d t k := by
  unfold CentrCfg.nSamplesToBC
  cases hbc : c.g.bc with
  | whole => exact ⟨rfl, rfl⟩
  | few L eff =>
    cases eff with
    | false => exact ⟨rfl, rfl⟩
    | true =>
      simp only [GivenCfg.currL]
      rw [(h.lastBc L hbc).1, (h.lastBc L hbc).2]
      exact ⟨rfl, rfl⟩

theorem centrBroadcast_sums {y1 y2 y3 : Nat → List (List K)} (hy : ∀ k, SumsM (y1 k) (y2 k) (y3 k))
    {a b d a' b' d' : CentrSt K} (h : CentrRel c a b d) {t : ℚ} {k : Nat}
    (ha : c.broadcast y1 a t k = .ok a') (hb : c.broadcast y2 b t k = .ok b')
    (hd : c.broadcast y3 d t k = .ok d') : CentrRel c a' b' d' := by
  obtain ⟨a1, a2, a3, a4, a5, a6⟩ := centrBroadcast_parts ha
  obtain ⟨b1, b2, b3, b4, b5, b6⟩ := centrBroadcast_parts hb
  obtain ⟨d1, d2, d3, d4, d5, d6⟩ := centrBroadcast_parts hd
  refine ⟨?_, ?_, ?_, ?_, ?_, ?_⟩
  · rw [(broadcast_base a1).1, (broadcast_base b1).1, (broadcast_base d1).1]
    exact h.it
  · intro L hL
    rw [(broadcast_base a1).2.1 L hL, (broadcast_base b1).2.1 L hL, (broadcast_base d1).2.1 L hL,
      (h.lastBc L hL).1, (h.lastBc L hL).2]
    exact ⟨rfl, rfl⟩
  · cases hc : c.centr with
    | false =>
      rw [a6 hc, b6 hc, d6 hc]
      exact h.buf
    | true =>
      obtain ⟨r1, m1, u1, u2, u3⟩ := a5 hc
      obtain ⟨r2, m2, v1, v2, v3⟩ := b5 hc
      obtain ⟨r3, m3, w1, w2, w3⟩ := d5 hc
      have hr := (rawFrames_sums hy h t k).get u1 v1 w1
      rw [(nSamplesToBC_same h t k).1, w2] at u2
      rw [(nSamplesToBC_same h t k).2, w2] at v2
      injection u2 with u2
      injection v2 with v2
      subst u2
      rw [← v2] at v3
      exact (fillCentr_sums c.n h.buf k hr _).get u3 v3 w3
  · rw [a2, b2, d2]; exact h.yc
  · rw [a3, b3, d3]; exact h.dC
  · rw [a4, b4, d4]; exact h.dS

theorem centrRun_sums {y1 y2 y3 : Nat → List (List K)} (hy : ∀ k, SumsM (y1 k) (y2 k) (y3 k))
    (evs : List (ℚ × Nat × EvType)) : ∀ {a b d a' b' d' : CentrSt K}, CentrRel c a b d →
    c.run y1 a evs = .ok a' → c.run y2 b evs = .ok b' → c.run y3 d evs = .ok d' → CentrRel c a' b' d' := by
  induction evs with
  | nil =>
    intro a b d a' b' d' h ha hb hd
    injection ha with ha; injection hb with hb; injection hd with hd
    subst ha hb hd
    exact h
  | cons ev evs ih =>
    intro a b d a' b' d' h ha hb hd
    unfold CentrCfg.run at ha hb hd
    rw [List.foldlM_cons] at ha hb hd
    obtain ⟨a1, ha1, ha⟩ := bind_ok_inv ha
    obtain ⟨b1, hb1, hb⟩ := bind_ok_inv hb
    obtain ⟨d1, hd1, hd⟩ := bind_ok_inv hd
    refine ih ?_ ha hb hd
    obtain ⟨t, k, ty⟩ := ev
    unfold CentrCfg.step at ha1 hb1 hd1
    cases ty with
    | bc => exact centrBroadcast_sums hy h ha1 hb1 hd1
    | up => exact centrUpdate_sums hy h ha1 hb1 hd1
    | fu => cases ha1
    | re => cases ha1
    | tr => cases ha1

theorem centr_init_rel (n N r T : Nat) (M : Nat → Nat) :
    CentrRel c (CentrSt.init (K := K) n N r T M) (.init n N r T M) (.init n N r T M) := by
  have h0 : Sums (List.replicate T (0 : K)) (List.replicate T 0) (List.replicate T 0) :=
    All3.replicate T (by simp)
  exact ⟨⟨rfl, rfl⟩, fun _ _ => ⟨rfl, rfl⟩, fun q i => emptyCentr_sums n M q i, fun _ => All3.nil,
    fun _ => h0, fun _ => h0⟩

end
end Danse
