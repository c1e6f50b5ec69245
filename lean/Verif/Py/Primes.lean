import Verif.Py.PrimesModel
import Mathlib.NumberTheory.Bertrand
import Mathlib.Data.Nat.Nth
import Mathlib.Data.Nat.Prime.Nth
import Mathlib.Tactic.Linarith
import Mathlib.Tactic.Positivity
import Mathlib.Tactic.IntervalCases

/-!
# C164, C165: the list of primes and the spacing of multiples of a prime

Specification: `Nat.nth Nat.Prime`, and the distance around the box.
-/

set_option autoImplicit false

namespace Verif.Py

theorem scan_spec (p : Nat) (hp : 2 ≤ p) : ∀ (l : List Nat), l.Pairwise (· < ·) → (∀ x ∈ l, x.Prime) →
    (∀ f, f.Prime → f * f ≤ p → f ∣ p → f ∈ l) → (∃ x ∈ l, p < x * x) → (scan p l = true ↔ p.Prime)
  | [], _, _, _, hB => by obtain ⟨x, hx, _⟩ := hB; simp at hx
  | q :: l, hs, hpr, hA, hB => by
    rw [List.pairwise_cons] at hs
    unfold scan
    split_ifs with h1 h2
    · simp only [true_iff]
      by_contra hn
      have hf : p.minFac ^ 2 ≤ p := Nat.minFac_sq_le_self (by omega) hn
      rw [pow_two] at hf
      rcases List.mem_cons.mp (hA _ (Nat.minFac_prime (by omega)) hf (Nat.minFac_dvd p)) with e | hm
      · rw [e] at hf; omega
      · have := hs.1 _ hm
        have := Nat.mul_le_mul this.le this.le
        omega
    · simp only [Bool.false_eq_true, false_iff]
      intro h
      have hq := hpr q (by simp)
      rcases (Nat.dvd_prime h).mp (Nat.dvd_of_mod_eq_zero h2) with e | e
      · rw [e] at hq; exact Nat.not_prime_one hq
      · rw [← e] at h1
        have := hq.two_le
        have := Nat.mul_le_mul_right q this
        omega
    · apply scan_spec p hp l hs.2 (fun x hx => hpr x (by simp [hx]))
      · intro f hf hff hfp
        rcases List.mem_cons.mp (hA f hf hff hfp) with e | hm
        · subst e; exact absurd (Nat.mod_eq_zero_of_dvd hfp) h2
        · exact hm
      · obtain ⟨x, hx, hlt⟩ := hB
        rcases List.mem_cons.mp hx with e | hm
        · subst e; omega
        · exact ⟨x, hm, hlt⟩

theorem searchPrime_spec (l : List Nat) (hs : l.Pairwise (· < ·)) (hpr : ∀ x ∈ l, x.Prime) (q r : Nat) (hq : q ∈ l)
    (hr2 : r % 2 = 1) (hr : r.Prime) (hrq : r < q * q) (hgap : ∀ f, f.Prime → q < f → r ≤ f) (hall : ∀ f, f.Prime → f < r → f ∈ l) :
    ∀ (fuel p : Nat), p % 2 = 1 → q ≤ p → p < r → r ≤ p + 2 * fuel → searchPrime l fuel p = some r := by
  intro fuel
  induction fuel with
  | zero => intro p _ _ h1 h2; omega
  | succ fuel ih =>
    intro p h0 hqp h1 h2
    unfold searchPrime
    have hs2 : scan (p + 2) l = true ↔ (p + 2).Prime := by
      apply scan_spec _ (by omega) l hs hpr
      · intro f hf hff _
        apply hall f hf
        have := hf.two_le
        have := Nat.mul_le_mul_right f this
        omega
      · exact ⟨q, hq, by omega⟩
    by_cases he : p + 2 = r
    · rw [if_pos (hs2.mpr (by rw [he]; exact hr)), he]
    · rw [if_neg, ih (p + 2) (by omega) (by omega) (by omega) (by omega)]
      intro hc
      have := hgap _ (hs2.mp hc) (by omega)
      omega

/-- The first `k` primes. -/
noncomputable def firstPrimes (k : Nat) : List Nat := (List.range k).map (Nat.nth Nat.Prime)

theorem nth_lt {i j : Nat} (h : i < j) : Nat.nth Nat.Prime i < Nat.nth Nat.Prime j :=
  Nat.nth_strictMono Nat.infinite_setOfPred_prime h

theorem mem_firstPrimes {k f : Nat} (hf : f.Prime) (h : f < Nat.nth Nat.Prime k) : f ∈ firstPrimes k := by
  unfold firstPrimes
  rw [List.mem_map]
  refine ⟨Nat.count Nat.Prime f, ?_, Nat.nth_count hf⟩
  rw [List.mem_range]
  by_contra hc
  have : Nat.nth Nat.Prime k ≤ Nat.nth Nat.Prime (Nat.count Nat.Prime f) :=
    (Nat.nth_strictMono Nat.infinite_setOfPred_prime).monotone (by omega)
  rw [Nat.nth_count hf] at this
  omega

theorem nth_le_two_mul (k : Nat) : Nat.nth Nat.Prime (k + 1) ≤ 2 * Nat.nth Nat.Prime k := by
  have hp := Nat.prime_nth_prime k
  obtain ⟨p, h1, h2, h3⟩ := Nat.exists_prime_lt_and_le_two_mul _ hp.ne_zero
  by_contra hc
  have hm := mem_firstPrimes (k := k + 1) h1 (by omega)
  unfold firstPrimes at hm
  obtain ⟨i, hi, rfl⟩ := List.mem_map.mp hm
  rw [List.mem_range] at hi
  have : Nat.nth Nat.Prime i ≤ Nat.nth Nat.Prime k := (Nat.nth_strictMono Nat.infinite_setOfPred_prime).monotone (by omega)
  omega

/-- C164: from the first `k` primes, two or more, `append_prime` makes the first `k + 1`, and stops after at most as many
turns as the last prime. -/
theorem C164_append (k fuel : Nat) (hf : Nat.nth Nat.Prime (k + 1) ≤ fuel) :
    appendPrime fuel (firstPrimes (k + 2)) = some (firstPrimes (k + 3)) := by
  have hq := Nat.prime_nth_prime (k + 1)
  have hr := Nat.prime_nth_prime (k + 2)
  have h3 : 3 ≤ Nat.nth Nat.Prime (k + 1) := by
    rw [← Nat.nth_prime_one_eq_three]
    exact (Nat.nth_strictMono Nat.infinite_setOfPred_prime).monotone (by omega)
  have hlt := nth_lt (show k + 1 < k + 2 by omega)
  have h2 : Nat.nth Nat.Prime (k + 2) ≤ 2 * Nat.nth Nat.Prime (k + 1) := nth_le_two_mul (k + 1)
  have odd : ∀ p : Nat, p.Prime → 3 ≤ p → p % 2 = 1 := by
    intro p hp h
    rcases hp.eq_two_or_odd with e | e
    · omega
    · exact e
  have e : firstPrimes (k + 2) = firstPrimes (k + 1) ++ [Nat.nth Nat.Prime (k + 1)] := by
    unfold firstPrimes
    rw [List.range_succ (n := k + 1), List.map_append]
    rfl
  have e' : firstPrimes (k + 3) = firstPrimes (k + 2) ++ [Nat.nth Nat.Prime (k + 2)] := by
    unfold firstPrimes
    rw [List.range_succ (n := k + 2), List.map_append]
    rfl
  unfold appendPrime
  have hl : (firstPrimes (k + 2)).getLast? = some (Nat.nth Nat.Prime (k + 1)) := by rw [e]; simp
  rw [hl]
  simp only
  rw [searchPrime_spec (firstPrimes (k + 2)) ?_ ?_ (Nat.nth Nat.Prime (k + 1)) (Nat.nth Nat.Prime (k + 2)) ?_
    (odd _ hr (by omega)) hr ?_ ?_ ?_ fuel _ (odd _ hq h3) le_rfl hlt (by omega), Option.map_some, e']
  · unfold firstPrimes
    rw [List.pairwise_map]
    exact List.pairwise_lt_range.imp fun h => nth_lt h
  · intro x hx
    unfold firstPrimes at hx
    obtain ⟨i, _, rfl⟩ := List.mem_map.mp hx
    exact Nat.prime_nth_prime i
  · rw [e]; simp
  · have := Nat.mul_le_mul_right (Nat.nth Nat.Prime (k + 1)) h3
    omega
  · intro f hf h
    by_contra hc
    have hm := mem_firstPrimes (k := k + 2) hf (by omega)
    unfold firstPrimes at hm
    obtain ⟨i, hi, rfl⟩ := List.mem_map.mp hm
    rw [List.mem_range] at hi
    have : Nat.nth Nat.Prime i ≤ Nat.nth Nat.Prime (k + 1) :=
      (Nat.nth_strictMono Nat.infinite_setOfPred_prime).monotone (by omega)
    omega
  · intro f hf h
    exact mem_firstPrimes hf h

/-- C164: the list of the script is the list of the first primes. -/
theorem C164_list (count : Nat) : ∃ fuel0, ∀ fuel, fuel0 ≤ fuel → primeList fuel count = some (firstPrimes (count + 2)) := by
  refine ⟨Nat.nth Nat.Prime (count + 1), fun fuel h => ?_⟩
  have : ∀ c, c ≤ count → primeList fuel c = some (firstPrimes (c + 2)) := by
    intro c
    induction c with
    | zero =>
      intro _
      unfold primeList firstPrimes
      simp [List.range_succ, Nat.nth_prime_zero_eq_two, Nat.nth_prime_one_eq_three]
    | succ c ih =>
      intro hc
      unfold primeList
      rw [ih (by omega), Option.bind_some]
      apply C164_append
      exact le_trans ((Nat.nth_strictMono Nat.infinite_setOfPred_prime).monotone (by omega)) h
  exact this count le_rfl

example : primeList 10 5 = some [2, 3, 5, 7, 11, 13, 17] := by decide +kernel

/-! ### Spacing -/

/-- `d` is the squared distance from the origin to the grid point with index `i` in a periodic box of width `w`: the index
counts first along one axis, then along the next, and the distance is to the nearest image. -/
def SqDist (w i : Nat) (d : Int) : Prop :=
  ∃ a b c : Nat, a < w ∧ b < w ∧ c < w ∧ i = (a * w + b) * w + c ∧
    IsLeast {s : Int | ∃ k l m : Int, s = (a + k * w) ^ 2 + (b + l * w) ^ 2 + (c + m * w) ^ 2} d

theorem leg_le (w x : Nat) (h : x < w) (k : Int) : leg w x ≤ ((x : Int) + k * w) ^ 2 := by
  unfold leg
  have h0 : (0 : Int) ≤ x := by omega
  have h1 : (x : Int) < w := by omega
  rcases lt_or_ge k 0 with hk | hk
  · apply le_trans (min_le_right _ _)
    have : ((w : Int) - x) ≤ -((x : Int) + k * w) := by nlinarith
    nlinarith
  · apply le_trans (min_le_left _ _)
    have : (x : Int) ≤ x + k * w := by nlinarith
    nlinarith

theorem leg_attained (w x : Nat) : ∃ k : Int, leg w x = ((x : Int) + k * w) ^ 2 := by
  unfold leg
  rcases min_choice ((x : Int) ^ 2) (((w : Int) - x) ^ 2) with h | h
  · exact ⟨0, by rw [h]; ring⟩
  · exact ⟨-1, by rw [h]; ring⟩

theorem leg_nonneg (w x : Int) : 0 ≤ leg w x := le_min (sq_nonneg _) (sq_nonneg _)

/-- The squared distance, from the legs. -/
def sqd (w i : Nat) : Int := leg w (gridPt w i).1 + leg w (gridPt w i).2.1 + leg w (gridPt w i).2.2

theorem sqDist_iff (w i : Nat) (hi : i < w * w * w) (d : Int) : SqDist w i d ↔ d = sqd w i := by
  have hw : 0 < w := by
    rcases Nat.eq_zero_or_pos w with h | h
    · subst h; omega
    · exact h
  have least : ∀ a b c : Nat, a < w → b < w → c < w →
      IsLeast {s : Int | ∃ k l m : Int, s = (a + k * w) ^ 2 + (b + l * w) ^ 2 + (c + m * w) ^ 2}
        (leg w b + leg w a + leg w c) := by
    intro a b c ha hb hc
    constructor
    · obtain ⟨k, hk⟩ := leg_attained w a
      obtain ⟨l, hl⟩ := leg_attained w b
      obtain ⟨m, hm⟩ := leg_attained w c
      exact ⟨k, l, m, by rw [hk, hl, hm]; ring⟩
    · rintro s ⟨k, l, m, rfl⟩
      have := leg_le w a ha k
      have := leg_le w b hb l
      have := leg_le w c hc m
      linarith
  have ha : i / (w * w) < w := Nat.div_lt_of_lt_mul (by rw [show w * w * w = w * w * w from rfl] at hi; exact hi)
  have hb : i / w % w < w := Nat.mod_lt _ hw
  have hc : i % w < w := Nat.mod_lt _ hw
  have e : i = (i / (w * w) * w + i / w % w) * w + i % w := by
    rw [← Nat.div_div_eq_div_mul, Nat.mul_comm (i / w / w) w, Nat.div_add_mod, Nat.mul_comm, Nat.div_add_mod]
  constructor
  · rintro ⟨a, b, c, h1, h2, h3, h4, h5⟩
    have ec : i % w = c := by rw [h4, Nat.mul_add_mod_self_right, Nat.mod_eq_of_lt h3]
    have ed : i / w = a * w + b := by
      rw [h4, Nat.add_comm, Nat.add_mul_div_right _ _ hw, Nat.div_eq_of_lt h3, Nat.zero_add]
    have eb : i / w % w = b := by rw [ed, Nat.mul_add_mod_self_right, Nat.mod_eq_of_lt h2]
    have ea : i / (w * w) = a := by
      rw [← Nat.div_div_eq_div_mul, ed, Nat.add_comm, Nat.add_mul_div_right _ _ hw, Nat.div_eq_of_lt h2, Nat.zero_add]
    have := h5.unique (least a b c h1 h2 h3)
    rw [this]
    unfold sqd gridPt
    simp only [ea, eb, ec]
  · rintro rfl
    exact ⟨_, _, _, ha, hb, hc, e, least _ _ _ ha hb hc⟩

/-- The multiples of `p` the script looks at. -/
theorem mem_multiples (w p i : Nat) :
    i ∈ ((List.range (w * w * w)).filter fun i => i % p = 0).tail ↔ 0 < i ∧ i < w * w * w ∧ p ∣ i := by
  rcases Nat.eq_zero_or_pos (w * w * w) with h | h
  · rw [h]; simp
  · obtain ⟨n, hn⟩ : ∃ n, w * w * w = n + 1 := ⟨w * w * w - 1, by omega⟩
    rw [hn, List.range_succ_eq_map]
    rw [List.filter_cons_of_pos (by simp)]
    simp only [List.tail_cons, List.mem_filter, List.mem_map, List.mem_range, decide_eq_true_eq]
    constructor
    · rintro ⟨⟨a, ha, rfl⟩, h2⟩
      exact ⟨by omega, by omega, Nat.dvd_of_mod_eq_zero h2⟩
    · rintro ⟨h1, h2, h3⟩
      exact ⟨⟨i - 1, by omega, by omega⟩, Nat.mod_eq_zero_of_dvd h3⟩

/-- C165: let `d` be the smallest squared distance from the origin to another of the points whose index is a multiple of `p`.
The script reports the square root of a number between `d² / 3` and `d²`. -/
theorem C165_spacing_partial (w p : Nat) (hp : 0 < p) (hpw : p < w * w * w) :
    ∃ s d, spacing w p = some s ∧ IsLeast {d | ∃ i, 0 < i ∧ i < w * w * w ∧ p ∣ i ∧ SqDist w i d} d ∧
      s ≤ d ^ 2 ∧ d ^ 2 ≤ 3 * s := by
  have hS : ∀ i, legSum w i = leg w (gridPt w i).1 ^ 2 + leg w (gridPt w i).2.1 ^ 2 + leg w (gridPt w i).2.2 ^ 2 :=
    fun i => rfl
  have h1 : ∀ i, legSum w i ≤ sqd w i ^ 2 := by
    intro i
    rw [hS]
    unfold sqd
    have a := leg_nonneg w (gridPt w i).1
    have b := leg_nonneg w (gridPt w i).2.1
    have c := leg_nonneg w (gridPt w i).2.2
    nlinarith [mul_nonneg a b, mul_nonneg a c, mul_nonneg b c]
  have h2 : ∀ i, sqd w i ^ 2 ≤ 3 * legSum w i := by
    intro i
    rw [hS]
    unfold sqd
    nlinarith [sq_nonneg (leg w (gridPt w i).1 - leg w (gridPt w i).2.1), sq_nonneg (leg w (gridPt w i).1 - leg w (gridPt w i).2.2),
      sq_nonneg (leg w (gridPt w i).2.1 - leg w (gridPt w i).2.2)]
  have h0 : ∀ i, 0 ≤ sqd w i := fun i =>
    add_nonneg (add_nonneg (leg_nonneg _ _) (leg_nonneg _ _)) (leg_nonneg _ _)
  have min_spec : ∀ f : Nat → Int, ∃ s, (((List.range (w * w * w)).filter fun i => i % p = 0).tail.map f).min? = some s ∧
      (∃ i, 0 < i ∧ i < w * w * w ∧ p ∣ i ∧ f i = s) ∧ ∀ i, 0 < i → i < w * w * w → p ∣ i → s ≤ f i := by
    intro f
    have hne : (((List.range (w * w * w)).filter fun i => i % p = 0).tail.map f) ≠ [] := by
      intro hc
      rw [List.map_eq_nil_iff] at hc
      have := (mem_multiples w p p).mpr ⟨hp, hpw, dvd_rfl⟩
      rw [hc] at this
      simp at this
    obtain ⟨s, hs⟩ : ∃ s, (((List.range (w * w * w)).filter fun i => i % p = 0).tail.map f).min? = some s :=
      Option.ne_none_iff_exists'.mp (fun hc => hne (List.min?_eq_none_iff.mp hc))
    have hs' := List.min?_eq_some_iff.mp hs
    refine ⟨s, hs, ?_, ?_⟩
    · obtain ⟨i, hi, e⟩ := List.mem_map.mp hs'.1
      rw [mem_multiples w p i] at hi
      exact ⟨i, hi.1, hi.2.1, hi.2.2, e⟩
    · intro i a b c
      exact hs'.2 _ (List.mem_map.mpr ⟨i, (mem_multiples w p i).mpr ⟨a, b, c⟩, rfl⟩)
  obtain ⟨s, e, ⟨i, i1, i2, i3, i4⟩, smin⟩ := min_spec (legSum w)
  obtain ⟨d, _, ⟨j, j1, j2, j3, j4⟩, dmin⟩ := min_spec (sqd w)
  refine ⟨s, d, e, ⟨⟨j, j1, j2, j3, (sqDist_iff w j j2 d).mpr j4.symm⟩, ?_⟩, ?_, ?_⟩
  · rintro x ⟨k, k1, k2, k3, k4⟩
    rw [(sqDist_iff w k k2 x).mp k4]
    exact dmin k k1 k2 k3
  · rw [← j4]
    exact le_trans (smin j j1 j2 j3) (h1 j)
  · rw [← i4]
    refine le_trans ?_ (h2 i)
    have := dmin i i1 i2 i3
    have h0' : 0 ≤ d := by rw [← j4]; exact h0 j
    nlinarith

/-- C165 fails: in a box of width 5 the multiples of 19 come as close as the square root of 5; the script reports the square
root of 17, because it squares the legs twice. -/
theorem C165_squared_twice_counterexample : spacing 5 19 = some 17 ∧
    IsLeast {d | ∃ i, 0 < i ∧ i < 5 * 5 * 5 ∧ 19 ∣ i ∧ SqDist 5 i d} 5 := by
  refine ⟨by decide +kernel, ⟨19, by norm_num, by norm_num, by norm_num, (sqDist_iff 5 19 (by norm_num) 5).mpr (by decide +kernel)⟩, ?_⟩
  rintro x ⟨k, k1, k2, k3, k4⟩
  rw [(sqDist_iff 5 k k2 x).mp k4]
  obtain ⟨q, rfl⟩ := k3
  have hq : q < 7 := by omega
  have hq0 : 0 < q := by omega
  revert k4
  interval_cases q <;> intro _ <;> decide +kernel

end Verif.Py
