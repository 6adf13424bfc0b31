import Verif.Model.Divisors
import Mathlib.Data.Nat.Prime.Basic
import Mathlib.Data.Nat.Factorization.Basic
import Mathlib.Algebra.BigOperators.Group.Finset.Basic

/-! # Helper lemmas on the divisor functions -/

namespace Danse

theorem primeFactorsFrom_spec : ∀ (m n i : Nat), n - i = m → 1 ≤ n →
    2 ≤ i → (∀ p, p.Prime → p ∣ n → i ≤ p) →
    (primeFactorsFrom n i).prod = n ∧ ∀ p ∈ primeFactorsFrom n i, p.Prime := by
  intro m
  induction m using Nat.strong_induction_on with
  | _ m ih =>
  intro n i hm hn hi hp
  rw [primeFactorsFrom]
  split
  · next h =>
    have hin : i < n := by nlinarith [h.1, h.2]
    split
    · next hd =>
      have hdvd : i ∣ n := Nat.dvd_of_mod_eq_zero hd
      have hlt : n / i < n := Nat.div_lt_self (by omega) (by omega)
      have hpos : 1 ≤ n / i := Nat.div_pos hin.le (by omega)
      obtain ⟨h1, h2⟩ := ih (n / i - i) (by omega) (n / i) i rfl hpos hi
        (fun p hp' hpd => hp p hp' (hpd.trans (Nat.div_dvd_of_dvd hdvd)))
      refine ⟨?_, ?_⟩
      · rw [List.prod_cons, h1, Nat.mul_div_cancel' hdvd]
      · intro p hpm
        rcases List.mem_cons.mp hpm with rfl | hpm
        · -- `i` is prime: its least prime factor is at least `i`
          have h3 := hp _ (Nat.minFac_prime (show p ≠ 1 by omega)) ((Nat.minFac_dvd p).trans hdvd)
          have h4 := Nat.minFac_le (show 0 < p by omega)
          have : p.minFac = p := by omega
          exact this ▸ Nat.minFac_prime (show p ≠ 1 by omega)
        · exact h2 p hpm
    · next hd =>
      refine ih (n - (i + 1)) (by omega) n (i + 1) rfl hn (by omega) ?_
      intro p hp' hpd
      have h3 := hp p hp' hpd
      rcases Nat.lt_or_ge i p with h4 | h4
      · omega
      · exfalso
        have : p = i := by omega
        subst this
        exact hd (Nat.mod_eq_zero_of_dvd hpd)
  · next h =>
    split
    · next h1 =>
      refine ⟨by simp, ?_⟩
      intro p hpm
      rw [List.mem_singleton.mp hpm]
      by_contra hnp
      have h3 := hp _ (Nat.minFac_prime (show n ≠ 1 by omega)) (Nat.minFac_dvd n)
      have h4 := Nat.minFac_sq_le_self (by omega) hnp
      apply h
      refine ⟨hi, ?_⟩
      nlinarith
    · next h1 =>
      have : n = 1 := by omega
      subst this
      simp

theorem primeFactors_spec {n : Nat} (hn : 1 ≤ n) :
    (primeFactors n).prod = n ∧ ∀ p ∈ primeFactors n, p.Prime :=
  primeFactorsFrom_spec _ n 2 rfl hn le_rfl (fun _ hp _ => hp.two_le)

theorem pyProd_eq (l : List Nat) : pyProd l = l.prod := by
  unfold pyProd
  rw [List.prod_eq_foldl]

theorem firstOcc_spec (l acc : List Nat) (hacc : acc.Nodup) :
    (l.foldl (fun acc t => if t ∈ acc then acc else acc ++ [t]) acc).Nodup ∧
    ∀ x, x ∈ l.foldl (fun acc t => if t ∈ acc then acc else acc ++ [t]) acc ↔
      x ∈ acc ∨ x ∈ l := by
  induction l generalizing acc with
  | nil => simp [hacc]
  | cons a r ih =>
    simp only [List.foldl_cons]
    by_cases h : a ∈ acc
    · rw [if_pos h]
      obtain ⟨h1, h2⟩ := ih acc hacc
      refine ⟨h1, fun x => ?_⟩
      rw [h2]
      simp only [List.mem_cons]
      constructor
      · rintro (h | h) <;> simp [h]
      · rintro (h' | rfl | h') <;> simp_all
    · rw [if_neg h]
      obtain ⟨h1, h2⟩ := ih (acc ++ [a]) (by
        rw [List.nodup_append]
        refine ⟨hacc, by simp, ?_⟩
        rintro x hx y hy rfl
        rw [List.mem_singleton.mp hy] at hx
        exact h hx)
      refine ⟨h1, fun x => ?_⟩
      rw [h2]
      simp only [List.mem_append, List.mem_cons, List.not_mem_nil, or_false]
      tauto

theorem counterItems_spec (l : List Nat) :
    ((counterItems l).map (·.1)).Nodup ∧ (∀ x ∈ counterItems l, x.1 ∈ l) ∧
    ((counterItems l).map fun x => x.1 ^ x.2).prod = l.prod := by
  obtain ⟨h1, h2⟩ := firstOcc_spec l [] List.nodup_nil
  unfold counterItems
  generalize l.foldl (fun acc t => if t ∈ acc then acc else acc ++ [t]) [] = d at *
  have hd : ∀ x, x ∈ d ↔ x ∈ l := by simpa using h2
  refine ⟨by simpa [List.map_map, Function.comp_def] using h1, ?_, ?_⟩
  · intro x hx
    obtain ⟨y, hy, rfl⟩ := List.mem_map.mp hx
    exact (hd y).mp hy
  · rw [List.map_map, Finset.prod_list_count l]
    have : l.toFinset = d.toFinset := by
      ext x; simp [hd]
    rw [this, List.prod_toFinset _ h1]
    rfl

theorem divisors_of_powers (ps : List (Nat × Nat)) (hn : (ps.map (·.1)).Nodup)
    (hp : ∀ x ∈ ps, x.1.Prime) :
    let L := (cartesian (ps.map fun (f, c) => (List.range (c + 1)).map fun i => f ^ i)).map List.prod
    L.Nodup ∧ ∀ d, d ∈ L ↔ d ∣ (ps.map fun x => x.1 ^ x.2).prod := by
  induction ps with
  | nil =>
    simp [cartesian]
  | cons a r ih =>
    obtain ⟨p, c⟩ := a
    simp only [List.map_cons, List.nodup_cons] at hn
    obtain ⟨i1, i2⟩ := ih hn.2 (fun x hx => hp x (by simp [hx]))
    have hpp : p.Prime := hp (p, c) (by simp)
    set M := (r.map fun x => x.1 ^ x.2).prod with hM
    set L' := (cartesian (r.map fun (f, c) => (List.range (c + 1)).map fun i => f ^ i)).map
      List.prod with hL'
    have hcop : ∀ e, e ∣ M → ¬ p ∣ e := by
      intro e he hpe
      have hpM : p ∣ M := hpe.trans he
      rw [hM, hpp.prime.dvd_prod_iff] at hpM
      obtain ⟨y, hy, hpy⟩ := hpM
      obtain ⟨x, hx, rfl⟩ := List.mem_map.mp hy
      have hxp := hp x (by simp [hx])
      have := (Nat.prime_dvd_prime_iff_eq hpp hxp).mp (hpp.dvd_of_dvd_pow hpy)
      exact hn.1 (this ▸ List.mem_map_of_mem hx)
    have hL : ((cartesian ((((p, c) :: r).map fun (f, c) =>
        (List.range (c + 1)).map fun i => f ^ i))).map List.prod) =
        (List.range (c + 1)).flatMap fun i => L'.map fun e => p ^ i * e := by
      simp only [List.map_cons, cartesian, List.map_flatMap, List.flatMap_map, hL', List.map_map]
      rfl
    simp only
    rw [hL]
    have hMp : ((((p, c) :: r).map fun x => x.1 ^ x.2)).prod = p ^ c * M := by
      simp [hM]
    rw [hMp]
    constructor
    · rw [List.nodup_flatMap]
      constructor
      · intro i _
        exact i1.map (fun a b hab => Nat.eq_of_mul_eq_mul_left (pow_pos hpp.pos i) hab)
      · have : (List.range (c + 1)).Pairwise (· < ·) := List.pairwise_lt_range
        refine this.imp ?_
        intro i j hij x hx hy
        obtain ⟨e, he, rfl⟩ := List.mem_map.mp hx
        obtain ⟨e', he', heq⟩ := List.mem_map.mp hy
        have h1 := hcop e ((i2 e).mp he)
        apply h1
        have hj : j = i + (j - i) := by omega
        rw [hj, pow_add, mul_assoc] at heq
        have := Nat.eq_of_mul_eq_mul_left (pow_pos hpp.pos i) heq
        rw [← this]
        exact Dvd.dvd.mul_right (dvd_pow_self p (by omega)) _
    · intro d
      simp only [List.mem_flatMap, List.mem_range, List.mem_map]
      constructor
      · rintro ⟨i, hi, e, he, rfl⟩
        exact Nat.mul_dvd_mul (pow_dvd_pow p (by omega)) ((i2 e).mp he)
      · intro hd
        obtain ⟨x, y, hx, hy, rfl⟩ := (Nat.dvd_mul).mp hd
        obtain ⟨i, hi, rfl⟩ := (Nat.dvd_prime_pow hpp).mp hx
        exact ⟨i, by omega, y, (i2 y).mpr hy, rfl⟩

end Danse
