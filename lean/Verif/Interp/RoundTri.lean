import Verif.Interp.RoundSplineModel
import Verif.Interp.Round
import Verif.Interp.TriDiag
import Mathlib.Data.Finset.Max

/-! Tridiagonal systems with rounding: property C150, first part. -/

set_option autoImplicit false

namespace Verif.Interp

open Verif.Go Verif.Mat

/-! ### The sequences computed by the two loops -/

section
variable (f : FP) (A B C R : Nat → ℚ)

/-- Pivots. -/
def tBetR : Nat → ℚ
  | 0 => B 0
  | i + 1 => f.mac (B (i + 1)) (-A (i + 1)) (f.fl (C i / tBetR i))

/-- Right-hand sides after the forward pass. -/
def tGR : Nat → ℚ
  | 0 => f.fl (R 0 / tBetR f A B C 0)
  | i + 1 => f.fl (f.mac (R (i + 1)) (-A (i + 1)) (tGR i) / tBetR f A B C (i + 1))

/-- `tUR d` is the solution `d` places before the last one. -/
def tUR (n : Nat) : Nat → ℚ
  | 0 => tGR f A B C R (n - 1)
  | d + 1 => f.mac (tGR f A B C R (n - 1 - (d + 1)))
      (-f.fl (C (n - 1 - (d + 1)) / tBetR f A B C (n - 1 - (d + 1)))) (tUR n d)

end

theorem triForwardR_step {f : FP} {as bs cs rs : List ℚ} {A B C R : Nat → ℚ} {n : Nat}
    (ha : ∀ i < n, as[i]? = some (A i)) (hb : ∀ i < n, bs[i]? = some (B i))
    (hc : ∀ i < n, cs[i]? = some (C i)) (hr : ∀ i < n, rs[i]? = some (R i)) {k : Nat} (hk : k + 1 < n)
    {tmp out : List ℚ} (ht : tmp.length = n) (ho : out.length = n)
    (hg : out[k]? = some (tGR f A B C R k)) :
    triForwardR f as bs cs rs ((k + 1 : Nat) : Int) (tmp, tBetR f A B C k, out) =
      if tBetR f A B C (k + 1) = 0 then none
      else some (tmp.set (k + 1) (f.fl (C k / tBetR f A B C k)), tBetR f A B C (k + 1),
        out.set (k + 1) (tGR f A B C R (k + 1))) := by
  have e1 : rd cs (((k + 1 : Nat) : Int) - 1) = some (C k) :=
    rd_fn_nat hc k (by push_cast; ring) (by omega)
  have e2 : rd out (((k + 1 : Nat) : Int) - 1) = some (tGR f A B C R k) := by
    rw [show ((k + 1 : Nat) : Int) - 1 = (k : Int) by push_cast; ring, rd_natCast, hg]
  have e3 : rd as ((k + 1 : Nat) : Int) = some (A (k + 1)) := rd_fn_nat ha (k + 1) rfl hk
  have e4 : rd bs ((k + 1 : Nat) : Int) = some (B (k + 1)) := rd_fn_nat hb (k + 1) rfl hk
  have e5 : rd rs ((k + 1 : Nat) : Int) = some (R (k + 1)) := rd_fn_nat hr (k + 1) rfl hk
  have e6 : rd (tmp.set (k + 1) (f.fl (C k / tBetR f A B C k))) ((k + 1 : Nat) : Int) =
      some (f.fl (C k / tBetR f A B C k)) := by
    rw [rd_natCast, List.getElem?_set]
    rw [if_pos rfl, if_pos (by omega)]
  unfold triForwardR
  simp only [e1, e2, e3, e4, e5, bind, Option.bind_some, wr_natCast (show k + 1 < tmp.length by omega),
    wr_natCast (show k + 1 < out.length by omega), e6]
  by_cases h : tBetR f A B C (k + 1) = 0
  · rw [if_pos h, if_pos (by simpa [tBetR] using h)]
  · rw [if_neg h, if_neg (by simpa [tBetR] using h)]
    rfl

/-- The forward loop. -/
theorem triForwardR_loop {f : FP} {as bs cs rs : List ℚ} {A B C R : Nat → ℚ} {n : Nat}
    (ha : ∀ i < n, as[i]? = some (A i)) (hb : ∀ i < n, bs[i]? = some (B i))
    (hc : ∀ i < n, cs[i]? = some (C i)) (hr : ∀ i < n, rs[i]? = some (R i))
    {tmp out : List ℚ} (ht : tmp.length = n) (ho : out.length = n)
    (hg : out[0]? = some (tGR f A B C R 0)) (h0 : tBetR f A B C 0 ≠ 0) (hn : 1 ≤ n) :
    ((∀ i < n, tBetR f A B C i ≠ 0) → ∃ tmp' out',
      forRange 1 n (triForwardR f as bs cs rs) (tmp, tBetR f A B C 0, out) =
        some (tmp', tBetR f A B C (n - 1), out') ∧
      tmp'.length = n ∧ out'.length = n ∧ (∀ i, 1 ≤ i → i < n → tmp'[i]? =
        some (f.fl (C (i - 1) / tBetR f A B C (i - 1)))) ∧ ∀ i < n, out'[i]? = some (tGR f A B C R i)) ∧
    ((∃ i < n, tBetR f A B C i = 0) →
      forRange 1 n (triForwardR f as bs cs rs) (tmp, tBetR f A B C 0, out) = none) := by
  let Inv : Nat → List ℚ × ℚ × List ℚ → Prop := fun k s =>
    s.1.length = n ∧ s.2.2.length = n ∧ s.2.1 = tBetR f A B C (k - 1) ∧
    (∀ i, 1 ≤ i → i < k → s.1[i]? = some (f.fl (C (i - 1) / tBetR f A B C (i - 1)))) ∧
    (∀ i < k, s.2.2[i]? = some (tGR f A B C R i)) ∧ ∀ i < k, tBetR f A B C i ≠ 0
  have init : Inv 1 (tmp, tBetR f A B C 0, out) := by
    refine ⟨ht, ho, rfl, by intro i h1 h2; omega, ?_, ?_⟩
    · intro i hi; obtain rfl : i = 0 := by omega
      exact hg
    · intro i hi; obtain rfl : i = 0 := by omega
      exact h0
  have step : ∀ (j : Nat) s, 1 ≤ j → j < n → Inv j s →
      ∃ s', triForwardR f as bs cs rs (j : Int) s = (if tBetR f A B C j = 0 then none else some s') ∧
        (tBetR f A B C j ≠ 0 → Inv (j + 1) s') := by
    rintro j ⟨t, b, o⟩ h1 h2 ⟨i1, i2, i3, i4, i5, i6⟩
    obtain ⟨k, rfl⟩ : ∃ k, j = k + 1 := ⟨j - 1, by omega⟩
    simp only at i1 i2 i3 i4 i5
    rw [i3]
    refine ⟨_, triForwardR_step ha hb hc hr h2 i1 i2 (i5 k (by omega)), ?_⟩
    intro hne
    refine ⟨by simpa using i1, by simpa using i2, rfl, ?_, ?_, ?_⟩
    · intro i h3 h4
      simp only
      rw [List.getElem?_set]
      by_cases e : k + 1 = i
      · subst e; rw [if_pos rfl, if_pos (by omega)]; simp
      · rw [if_neg e]; exact i4 i h3 (by omega)
    · intro i h3
      simp only
      rw [List.getElem?_set]
      by_cases e : k + 1 = i
      · subst e; rw [if_pos rfl, if_pos (by omega)]
      · rw [if_neg e]; exact i5 i (by omega)
    · intro i h3
      by_cases e : i = k + 1
      · rw [e]; exact hne
      · exact i6 i (by omega)
  constructor
  · intro hall
    obtain ⟨⟨t, b, o⟩, e, i1, i2, i3, i4, i5, _⟩ := forRange_nat Inv hn (triForwardR f as bs cs rs) _ init (by
      intro j s h1 h2 h3
      obtain ⟨s', e, h⟩ := step j s h1 h2 h3
      rw [if_neg (hall j h2)] at e
      exact ⟨s', e, h (hall j h2)⟩)
    simp only at i1 i2 i3 i4 i5
    rw [Nat.cast_one] at e
    rw [i3] at e
    exact ⟨t, o, e, i1, i2, i4, i5⟩
  · rintro ⟨i, hi, hz⟩
    by_contra hne
    obtain ⟨s', e⟩ := Option.ne_none_iff_exists'.mp hne
    have := forRange_nat_inv Inv hn (triForwardR f as bs cs rs) _ s' init (by
      intro j s s' h1 h2 h3 h4
      obtain ⟨s'', e, h⟩ := step j s h1 h2 h3
      rw [h4] at e
      by_cases hz : tBetR f A B C j = 0
      · rw [if_pos hz] at e; cases e
      · rw [if_neg hz] at e
        rw [Option.some.inj e]
        exact h hz) (by rw [Nat.cast_one]; exact e)
    exact this.2.2.2.2.2 i hi hz

/-- The backward loop. -/
theorem triBackwardR_loop {f : FP} {A B C R : Nat → ℚ} {n : Nat} {tmp out : List ℚ} (hn : 1 ≤ n)
    (ho : out.length = n)
    (ht : ∀ i, 1 ≤ i → i < n → tmp[i]? = some (f.fl (C (i - 1) / tBetR f A B C (i - 1))))
    (hg : ∀ i < n, out[i]? = some (tGR f A B C R i)) :
    forDown ((n : Int) - 2) 0 (triBackwardR f tmp) out =
      some ((List.range n).map (fun i => tUR f A B C R n (n - 1 - i))) := by
  obtain ⟨s, e, h1, h2, h3⟩ := forDown_spec (fun j (s : List ℚ) => s.length = n ∧
      (∀ i : Nat, (i : Int) ≤ j → s[i]? = some (tGR f A B C R i)) ∧
      ∀ i : Nat, j < i → i < n → s[i]? = some (tUR f A B C R n (n - 1 - i)))
    (lo := 0) (hi := (n : Int) - 2) (by omega) (triBackwardR f tmp) out
    ⟨ho, fun i hi => hg i (by omega), fun i h1 h2 => by
      obtain rfl : i = n - 1 := by omega
      rw [hg _ h2]; simp [tUR]⟩ (by
      intro j s h1 h2 ⟨i1, i2, i3⟩
      obtain ⟨k, rfl⟩ := Int.eq_ofNat_of_zero_le h1
      have r1 : rd s (k : Int) = some (tGR f A B C R k) := by rw [rd_natCast]; exact i2 k le_rfl
      have r2 : rd s ((k : Int) + 1) = some (tUR f A B C R n (n - 1 - (k + 1))) := by
        rw [show (k : Int) + 1 = ((k + 1 : Nat) : Int) by push_cast; rfl, rd_natCast]
        exact i3 (k + 1) (by push_cast; omega) (by omega)
      have r3 : rd tmp ((k : Int) + 1) = some (f.fl (C k / tBetR f A B C k)) := by
        rw [show (k : Int) + 1 = ((k + 1 : Nat) : Int) by push_cast; rfl, rd_natCast,
          ht (k + 1) (by omega) (by omega)]
        simp
      have u : tUR f A B C R n (n - 1 - k) =
          f.mac (tGR f A B C R k) (-f.fl (C k / tBetR f A B C k)) (tUR f A B C R n (n - 1 - (k + 1))) := by
        obtain ⟨d, hd⟩ : ∃ d, n - 1 - k = d + 1 := ⟨n - 1 - k - 1, by omega⟩
        rw [hd, tUR, show n - 1 - (k + 1) = d by omega, show n - 1 - (d + 1) = k by omega]
      refine ⟨s.set k (tUR f A B C R n (n - 1 - k)), ?_, by simpa using i1, ?_, ?_⟩
      · unfold triBackwardR
        simp only [r1, r2, r3, bind, Option.bind_some]
        rw [wr_natCast (by omega), u]
      · intro i hi
        rw [List.getElem?_set, if_neg (by omega)]
        exact i2 i (by omega)
      · intro i hi1 hi2
        rw [List.getElem?_set]
        by_cases e : k = i
        · subst e; rw [if_pos rfl, if_pos (by omega)]
        · rw [if_neg e]; exact i3 i (by omega) hi2)
  rw [e]
  congr 1
  apply List.ext_getElem?
  intro i
  by_cases hi : i < n
  · rw [h3 i (by omega) hi]; simp [hi]
  · rw [List.getElem?_eq_none (by omega), List.getElem?_eq_none (by simpa using hi)]

/-- Complete description of `TriDiagAt` on slices of equal length. -/
theorem triDiagAtR_eq {f : FP} {as bs cs rs out : List ℚ} {A B C R : Nat → ℚ} {n : Nat}
    (ha : ∀ i < n, as[i]? = some (A i)) (hb : ∀ i < n, bs[i]? = some (B i))
    (hc : ∀ i < n, cs[i]? = some (C i)) (hr : ∀ i < n, rs[i]? = some (R i))
    (la : as.length = n) (lb : bs.length = n) (lc : cs.length = n) (lr : rs.length = n)
    (lo : out.length = n) :
    triDiagAtR f as bs cs rs out = if 1 ≤ n ∧ ∀ i < n, tBetR f A B C i ≠ 0 then
      some ((List.range n).map (fun i => tUR f A B C R n (n - 1 - i))) else none := by
  unfold triDiagAtR
  rw [if_neg (by omega)]
  rcases Nat.eq_zero_or_pos n with h | hn
  · subst h
    rw [if_neg (by omega), rd_none (by right; omega)]
    rfl
  have e0 : rd bs 0 = some (B 0) := rd_fn_nat hb 0 rfl hn
  have e1 : rd rs 0 = some (R 0) := rd_fn_nat hr 0 rfl hn
  have w0 : wr out 0 (f.fl (R 0 / B 0)) = some (out.set 0 (f.fl (R 0 / B 0))) := wr_natCast (i := 0) (by omega)
  simp only [e0, e1, bind, Option.bind_some]
  by_cases h0 : B 0 = 0
  · rw [if_pos h0, if_neg]
    rintro ⟨_, h⟩
    exact h 0 hn h0
  rw [if_neg h0, w0]
  simp only [Option.bind_some, List.length_set, lo]
  have loop := triForwardR_loop (tmp := List.replicate as.length 0) (out := out.set 0 (f.fl (R 0 / B 0)))
    ha hb hc hr (by simpa using la) (by simpa using lo)
    (by rw [List.getElem?_set, if_pos rfl, if_pos (by omega)]; rfl) h0 hn
  by_cases hall : ∀ i < n, tBetR f A B C i ≠ 0
  · rw [if_pos ⟨hn, hall⟩]
    obtain ⟨t, o, e, l1, l2, h1, h2⟩ := loop.1 hall
    rw [tBetR] at e
    rw [e]
    simp only [Option.bind_some, l2]
    exact triBackwardR_loop hn l2 h1 h2
  · rw [if_neg (fun h => hall h.2)]
    push Not at hall
    have e := loop.2 hall
    rw [tBetR] at e
    rw [e]
    rfl

/-! ### Rounding errors -/

theorem rel' {f : FP} {u : ℚ} (h : f.Laws u) (hu : u ≤ 1 / 1024) (x : ℚ) : ∃ e, |e| ≤ u ∧ f.fl x * (1 + e) = x := by
  by_cases hx : f.fl x = 0
  · have := h.err' x
    rw [hx, abs_zero, mul_zero, zero_sub, abs_neg] at this
    have hx0 : x = 0 := abs_eq_zero.mp (le_antisymm this (abs_nonneg _))
    exact ⟨0, by simpa using h.nonneg, by rw [hx, hx0]; ring⟩
  · refine ⟨(x - f.fl x) / f.fl x, ?_, by field_simp; ring⟩
    rw [abs_div, div_le_iff₀ (abs_pos.mpr hx), abs_sub_comm]
    exact h.err' x

theorem mac_rel {f : FP} {u : ℚ} (h : f.Laws u) (c a b : ℚ) :
    ∃ d e, |d| ≤ u ∧ |e| ≤ u ∧ f.mac c a b = (c + a * b * (1 + d)) * (1 + e) := by
  have key : ∀ x y : ℚ, |y - x| ≤ u * |x| → ∃ d, |d| ≤ u ∧ y = x * (1 + d) := by
    intro x y hxy
    by_cases hx : x = 0
    · rw [hx, abs_zero, mul_zero, sub_zero] at hxy
      have : y = 0 := abs_eq_zero.mp (le_antisymm hxy (abs_nonneg _))
      exact ⟨0, by simpa using h.nonneg, by rw [this, hx]; ring⟩
    · refine ⟨(y - x) / x, ?_, by field_simp; ring⟩
      rw [abs_div, div_le_iff₀ (abs_pos.mpr hx)]
      exact hxy
  obtain ⟨q, h1, h2, -⟩ := h.mac c a b
  obtain ⟨d, hd, rfl⟩ := key _ _ h1
  obtain ⟨e, he, hh⟩ := key _ _ h2
  exact ⟨d, e, hd, he, hh⟩

theorem mac_rel' {f : FP} {u : ℚ} (h : f.Laws u) (c a b : ℚ) :
    ∃ d e, |d| ≤ u ∧ |e| ≤ u ∧ f.mac c a b * (1 + e) = c + a * b * (1 + d) := by
  obtain ⟨q, h1, -, h2⟩ := h.mac c a b
  generalize a * b = ab at *
  obtain ⟨d, hd, hq⟩ : ∃ d, |d| ≤ u ∧ q = ab * (1 + d) := by
    by_cases hx : ab = 0
    · rw [hx, abs_zero, mul_zero, sub_zero] at h1
      have : q = 0 := abs_eq_zero.mp (le_antisymm h1 (abs_nonneg _))
      exact ⟨0, by simpa using h.nonneg, by rw [this, hx]; ring⟩
    · refine ⟨(q - ab) / ab, ?_, by field_simp; ring⟩
      rw [abs_div, div_le_iff₀ (abs_pos.mpr hx)]
      exact h1
  obtain ⟨s, hs'⟩ : ∃ s, s = c + q := ⟨_, rfl⟩
  rw [← hs'] at h2
  suffices ∃ e, |e| ≤ u ∧ f.mac c a b * (1 + e) = s by
    obtain ⟨e, he, hh⟩ := this
    exact ⟨d, e, hd, he, by rw [hh, hs', hq]⟩
  by_cases hx : f.mac c a b = 0
  · rw [hx, abs_zero, mul_zero, zero_sub, abs_neg] at h2
    have hs : s = 0 := abs_eq_zero.mp (le_antisymm h2 (abs_nonneg _))
    exact ⟨0, by simpa using h.nonneg, by rw [hx, hs]; ring⟩
  · refine ⟨(s - f.mac c a b) / f.mac c a b, ?_, by field_simp; ring⟩
    rw [abs_div, div_le_iff₀ (abs_pos.mpr hx), abs_sub_comm]
    exact h2

/-- A pivot in a row that is strongly dominated by its diagonal. -/
theorem pivot_bounds {u A B C t d e : ℚ} (hu : u ≤ 1 / 1024) (hd : |d| ≤ u) (he : |e| ≤ u)
    (hdom : 15 / 8 * (|A| + |C|) ≤ |B|) (ht : |t| ≤ 9 / 16) :
    2 / 3 * |B| ≤ |(B + -A * t * (1 + d)) * (1 + e)| ∧ |(B + -A * t * (1 + d)) * (1 + e)| ≤ 4 / 3 * |B| ∧
      |C| ≤ 8192 / 15345 * |(B + -A * t * (1 + d)) * (1 + e)| := by
  have hA := abs_nonneg A
  have hC := abs_nonneg C
  have h1 : |-A * t * (1 + d)| ≤ |A| * (577 / 1024) := by
    rw [abs_mul, abs_mul, abs_neg, mul_assoc]
    refine mul_le_mul_of_nonneg_left ?_ hA
    have : |1 + d| ≤ 1025 / 1024 := by
      have := abs_add_le 1 d
      rw [abs_one] at this
      linarith
    calc |t| * |1 + d| ≤ 9 / 16 * (1025 / 1024) := mul_le_mul ht this (abs_nonneg _) (by norm_num)
      _ ≤ 577 / 1024 := by norm_num
  have h2 : 1023 / 1024 ≤ |1 + e| := by
    have := abs_sub_abs_le_abs_sub 1 (-e)
    rw [abs_one, abs_neg, sub_neg_eq_add] at this
    linarith
  have h3 : |1 + e| ≤ 1025 / 1024 := by
    have := abs_add_le 1 e
    rw [abs_one] at this
    linarith
  have h4 : |B| - |A| * (577 / 1024) ≤ |B + -A * t * (1 + d)| := by
    have := abs_sub_abs_le_abs_sub B (-(-A * t * (1 + d)))
    rw [abs_neg, sub_neg_eq_add] at this
    linarith
  have h5 : |B + -A * t * (1 + d)| ≤ |B| + |A| * (577 / 1024) := by
    have := abs_add_le B (-A * t * (1 + d))
    linarith
  rw [abs_mul]
  generalize |B + -A * t * (1 + d)| = S at *
  have hS : 0 ≤ S := by linarith
  have l1 : S * (1023 / 1024) ≤ S * |1 + e| := mul_le_mul_of_nonneg_left h2 hS
  have l2 : S * |1 + e| ≤ S * (1025 / 1024) := mul_le_mul_of_nonneg_left h3 hS
  refine ⟨?_, ?_, ?_⟩ <;> linarith

theorem multiplier_bound {f : FP} {u : ℚ} (h : f.Laws u) (hu : u ≤ 1 / 1024) {C β : ℚ} (hβ : 0 < |β|)
    (hC : |C| ≤ 8192 / 15345 * |β|) : |f.fl (C / β)| ≤ 9 / 16 := by
  obtain ⟨d, hd, e⟩ := rel h (C / β)
  rw [e, abs_mul, abs_div]
  have h1 : |C| / |β| ≤ 8192 / 15345 := by rw [div_le_iff₀ hβ]; exact hC
  have h2 : |1 + d| ≤ 1025 / 1024 := by
    have := abs_add_le 1 d
    rw [abs_one] at this
    linarith
  calc |C| / |β| * |1 + d| ≤ 8192 / 15345 * (1025 / 1024) := mul_le_mul h1 h2 (abs_nonneg _) (by norm_num)
    _ ≤ 9 / 16 := by norm_num

/-- All pivots and multipliers of a strongly dominant system. -/
theorem tri_pivots {f : FP} {u : ℚ} (h : f.Laws u) (hu : u ≤ 1 / 1024) {A B C : ℕ → ℚ} {n : ℕ}
    (hB : ∀ i < n, B i ≠ 0) (hdom : ∀ i < n, 15 / 8 * (|A i| + |C i|) ≤ |B i|) (i : ℕ) (hi : i < n) :
    tBetR f A B C i ≠ 0 ∧ |tBetR f A B C i| ≤ 4 / 3 * |B i| ∧ |f.fl (C i / tBetR f A B C i)| ≤ 9 / 16 := by
  induction i with
  | zero =>
    have hb := hB 0 hi
    have h0 := pivot_bounds (u := 0) (A := A 0) (B := B 0) (C := C 0) (t := 0) (d := 0) (e := 0) (by norm_num) (by simp)
      (by simp) (hdom 0 hi) (by norm_num)
    simp only [mul_zero, add_zero, mul_one] at h0
    rw [tBetR]
    exact ⟨hb, h0.2.1, multiplier_bound h hu (abs_pos.mpr hb) h0.2.2⟩
  | succ i ih =>
    obtain ⟨-, -, ht⟩ := ih (by omega)
    obtain ⟨d, e, hd, he, hm⟩ := mac_rel h (B (i + 1)) (-A (i + 1)) (f.fl (C i / tBetR f A B C i))
    have h0 := pivot_bounds hu hd he (hdom (i + 1) hi) ht
    rw [← hm] at h0
    rw [tBetR]
    have hb := abs_pos.mpr (hB (i + 1) hi)
    have hpos : 0 < |f.mac (B (i + 1)) (-A (i + 1)) (f.fl (C i / tBetR f A B C i))| := by linarith [h0.1]
    exact ⟨abs_pos.mp hpos, h0.2.1, multiplier_bound h hu hpos h0.2.2⟩

/-- The computed solution, with a zero before the first and after the last entry. -/
def solR (f : FP) (A B C R : ℕ → ℚ) (m j : ℕ) : ℚ :=
  if j = 0 ∨ m < j then 0 else tUR f A B C R m (m - j)

/-- The sizes of the perturbations in one row. -/
theorem row_bound {u A β B C t x' x x'' e1 e2 e3 e4 e6 d1 d3 d4 d5 d6 : ℚ} (hu : u ≤ 1 / 1024) (h1 : |e1| ≤ u)
    (h2 : |e2| ≤ u) (h3 : |e3| ≤ u) (h4 : |e4| ≤ u) (h6 : |e6| ≤ u) (k1 : |d1| ≤ u) (k3 : |d3| ≤ u) (k4 : |d4| ≤ u)
    (k5 : |d5| ≤ u) (k6 : |d6| ≤ u) (hβ : |β| ≤ 4 / 3 * |B|) (ht : |t| ≤ 9 / 16) (hA : 15 / 8 * (|A| + |C|) ≤ |B|) :
    |β * x * ((1 + e1) * (1 + e2) * (1 + e3) - (1 + e6)) + C * x'' * ((1 + d5) * ((1 + e1) * (1 + e2)) * (1 + d3) - 1) +
      A * x' * ((1 + d1) * (1 + e4) - 1) + A * t * x * ((1 + d1) * (1 + d4) - (1 + d6))| ≤
      7 * u * (|A| * |x'| + |B| * |x| + |C| * |x''|) := by
  have u0 : 0 ≤ u := (abs_nonneg _).trans h1
  have two : ∀ a b α β' : ℚ, |a - 1| ≤ α * u → |b - 1| ≤ β' * u → 0 ≤ α → 0 ≤ β' →
      |a * b - 1| ≤ (α + β' + α * β' / 1024) * u := by
    intro a b α β' ha hb hα hβ'
    refine (one_mul_one ha hb).trans ?_
    have : u * u ≤ u * (1 / 1024) := mul_le_mul_of_nonneg_left hu u0
    have h := mul_le_mul_of_nonneg_left this (mul_nonneg hα hβ')
    linarith
  have one : ∀ a : ℚ, |a| ≤ u → |(1 + a) - 1| ≤ 1 * u := fun a ha => by rw [add_sub_cancel_left, one_mul]; exact ha
  have E12 := two _ _ _ _ (one _ h1) (one _ h2) (by norm_num) (by norm_num)
  have E123 := two _ _ _ _ E12 (one _ h3) (by norm_num) (by norm_num)
  have E512 := two _ _ _ _ (one _ k5) E12 (by norm_num) (by norm_num)
  have E5123 := two _ _ _ _ E512 (one _ k3) (by norm_num) (by norm_num)
  have E14 := two _ _ _ _ (one _ k1) (one _ h4) (by norm_num) (by norm_num)
  have F14 := two _ _ _ _ (one _ k1) (one _ k4) (by norm_num) (by norm_num)
  generalize (1 + e1) * (1 + e2) * (1 + e3) = P at *
  generalize (1 + d5) * ((1 + e1) * (1 + e2)) * (1 + d3) = Q at *
  generalize (1 + d1) * (1 + e4) = S at *
  generalize (1 + d1) * (1 + d4) = T at *
  have p1 : |P - (1 + e6)| ≤ 41 / 10 * u := by
    have := abs_sub (P - 1) e6
    rw [show P - 1 - e6 = P - (1 + e6) by ring] at this
    linarith
  have p2 : |Q - 1| ≤ 41 / 10 * u := by linarith
  have p3 : |S - 1| ≤ 21 / 10 * u := by linarith
  have p4 : |T - (1 + d6)| ≤ 31 / 10 * u := by
    have := abs_sub (T - 1) d6
    rw [show T - 1 - d6 = T - (1 + d6) by ring] at this
    linarith
  have a1 := abs_add_le (β * x * (P - (1 + e6)) + C * x'' * (Q - 1) + A * x' * (S - 1)) (A * t * x * (T - (1 + d6)))
  have a2 := abs_add_le (β * x * (P - (1 + e6)) + C * x'' * (Q - 1)) (A * x' * (S - 1))
  have a3 := abs_add_le (β * x * (P - (1 + e6))) (C * x'' * (Q - 1))
  have hx := abs_nonneg x
  have hA0 := abs_nonneg A
  have hC0 := abs_nonneg C
  have b1 : |β * x * (P - (1 + e6))| ≤ 4 / 3 * |B| * |x| * (41 / 10 * u) := by
    rw [abs_mul, abs_mul]
    exact mul_le_mul (mul_le_mul_of_nonneg_right hβ hx) p1 (abs_nonneg _) (by positivity)
  have b2 : |C * x'' * (Q - 1)| ≤ |C| * |x''| * (41 / 10 * u) := by
    rw [abs_mul, abs_mul]
    exact mul_le_mul_of_nonneg_left p2 (by positivity)
  have b3 : |A * x' * (S - 1)| ≤ |A| * |x'| * (21 / 10 * u) := by
    rw [abs_mul, abs_mul]
    exact mul_le_mul_of_nonneg_left p3 (by positivity)
  have b4 : |A * t * x * (T - (1 + d6))| ≤ 8 / 15 * |B| * (9 / 16) * |x| * (31 / 10 * u) := by
    rw [abs_mul, abs_mul, abs_mul]
    refine mul_le_mul (mul_le_mul_of_nonneg_right (mul_le_mul (by linarith) ht (abs_nonneg _) (by positivity)) hx) p4
      (abs_nonneg _) (by positivity)
  have q1 : 0 ≤ |B| * |x| * u := by positivity
  have q2 : 0 ≤ |C| * |x''| * u := by positivity
  have q3 : 0 ≤ |A| * |x'| * u := by positivity
  linarith

/-- The residual of every row is a few rounding errors of its terms. -/
theorem tri_residual {f : FP} {u : ℚ} (h : f.Laws u) (hu : u ≤ 1 / 1024) {A B C R : ℕ → ℚ} {m : ℕ}
    (hB : ∀ i < m, B i ≠ 0) (hdom : ∀ i < m, 15 / 8 * (|A i| + |C i|) ≤ |B i|) (i : ℕ) (hi : i < m) :
    |R i - (A i * solR f A B C R m i + B i * solR f A B C R m (i + 1) + C i * solR f A B C R m (i + 2))| ≤
      7 * u * (|A i| * |solR f A B C R m i| + |B i| * |solR f A B C R m (i + 1)| +
        |C i| * |solR f A B C R m (i + 2)|) := by
  have zero : |(0 : ℚ)| ≤ u := by simpa using h.nonneg
  have piv := tri_pivots h hu hB hdom
  -- backward pass
  have back : ∀ j < m, ∃ d e, |d| ≤ u ∧ |e| ≤ u ∧ tGR f A B C R j = solR f A B C R m (j + 1) * (1 + e) +
      f.fl (C j / tBetR f A B C j) * solR f A B C R m (j + 2) * (1 + d) := by
    intro j hj
    have s1 : solR f A B C R m (j + 1) = tUR f A B C R m (m - (j + 1)) := by rw [solR, if_neg (by omega)]
    by_cases hl : j + 1 = m
    · refine ⟨0, 0, zero, zero, ?_⟩
      rw [s1, show solR f A B C R m (j + 2) = 0 by rw [solR, if_pos (by omega)], show m - (j + 1) = 0 by omega, tUR,
        show m - 1 = j by omega]
      ring
    · have s2 : solR f A B C R m (j + 2) = tUR f A B C R m (m - (j + 2)) := by rw [solR, if_neg (by omega)]
      obtain ⟨d, e, hd, he, hm⟩ := mac_rel' h (tGR f A B C R j) (-f.fl (C j / tBetR f A B C j))
        (tUR f A B C R m (m - (j + 2)))
      refine ⟨d, e, hd, he, ?_⟩
      rw [s1, s2, show m - (j + 1) = (m - (j + 2)) + 1 by omega, tUR, show m - 1 - (m - (j + 2) + 1) = j by omega, hm]
      ring
  obtain ⟨d3, e3, hd3, he3, hy⟩ := back i hi
  obtain ⟨hne, hβ, -⟩ := piv i hi
  obtain ⟨d5, hd5, ht5⟩ := rel h (C i / tBetR f A B C i)
  have ht5' : tBetR f A B C i * f.fl (C i / tBetR f A B C i) = C i * (1 + d5) := by
    rw [ht5]; field_simp
  generalize f.fl (C i / tBetR f A B C i) = t'' at *
  generalize solR f A B C R m (i + 2) = x'' at *
  cases i with
  | zero =>
    have hx' : solR f A B C R m 0 = 0 := by rw [solR, if_pos (Or.inl rfl)]
    obtain ⟨e1, he1, hr⟩ := rel' h hu (R 0 / tBetR f A B C 0)
    have hR : R 0 = tBetR f A B C 0 * tGR f A B C R 0 * (1 + e1) := by
      rw [mul_assoc, tGR, hr]; field_simp
    rw [hx']
    have key := row_bound (A := A 0) (β := tBetR f A B C 0) (B := B 0) (C := C 0) (t := 0) (x' := 0)
      (x := solR f A B C R m (0 + 1)) (x'' := x'') hu he1 zero he3 zero zero zero hd3 zero hd5 zero hβ
      (by norm_num) (hdom 0 hi)
    refine le_trans (le_of_eq (congrArg _ ?_)) key
    have hB0 : B 0 = tBetR f A B C 0 := rfl
    rw [hR, hy, hB0]
    linear_combination (x'' * (1 + e1) * (1 + d3)) * ht5'
  | succ i =>
    obtain ⟨d4, e4, hd4, he4, hy'⟩ := back i (by omega)
    obtain ⟨-, -, ht⟩ := piv i (by omega)
    obtain ⟨e1, he1, hr⟩ := rel' h hu (f.mac (R (i + 1)) (-A (i + 1)) (tGR f A B C R i) / tBetR f A B C (i + 1))
    obtain ⟨d1, e2, hd1, he2, hm⟩ := mac_rel' h (R (i + 1)) (-A (i + 1)) (tGR f A B C R i)
    obtain ⟨d6, e6, hd6, he6, hb⟩ := mac_rel' h (B (i + 1)) (-A (i + 1)) (f.fl (C i / tBetR f A B C i))
    have hb' : tBetR f A B C (i + 1) * (1 + e6) =
        B (i + 1) + -A (i + 1) * f.fl (C i / tBetR f A B C i) * (1 + d6) := hb
    have hr' : tBetR f A B C (i + 1) * (tGR f A B C R (i + 1) * (1 + e1)) =
        f.mac (R (i + 1)) (-A (i + 1)) (tGR f A B C R i) := by
      rw [tGR, hr]; field_simp
    generalize f.mac (R (i + 1)) (-A (i + 1)) (tGR f A B C R i) = w at *
    generalize f.fl (C i / tBetR f A B C i) = t at *
    have key := row_bound (A := A (i + 1)) (β := tBetR f A B C (i + 1)) (B := B (i + 1)) (C := C (i + 1)) (t := t)
      (x' := solR f A B C R m (i + 1)) (x := solR f A B C R m (i + 1 + 1)) (x'' := x'') hu he1 he2 he3 he4 he6 hd1 hd3 hd4
      hd5 hd6 hβ ht (hdom (i + 1) hi)
    refine le_trans (le_of_eq (congrArg _ ?_)) key
    have e : i + 2 = i + 1 + 1 := rfl
    rw [e] at hy'
    generalize solR f A B C R m (i + 1 + 1) = x at *
    generalize solR f A B C R m (i + 1) = x' at *
    generalize tGR f A B C R (i + 1) = y at *
    generalize tGR f A B C R i = y' at *
    generalize tBetR f A B C (i + 1) = β at *
    linear_combination (-1 : ℚ) * hm - (1 + e2) * hr' + β * (1 + e1) * (1 + e2) * hy +
      A (i + 1) * (1 + d1) * hy' + x'' * (1 + e1) * (1 + e2) * (1 + d3) * ht5' + x * hb'

/-- A strongly dominant system is well conditioned. -/
theorem dominant_max {A B C e : ℕ → ℚ} {m : ℕ} {τ : ℚ} (hτ : 0 ≤ τ) (hB : ∀ i < m, B i ≠ 0)
    (hdom : ∀ i < m, 15 / 8 * (|A i| + |C i|) ≤ |B i|) (h0 : e 0 = 0) (hm : ∀ j, m < j → e j = 0)
    (h : ∀ i < m, |A i * e i + B i * e (i + 1) + C i * e (i + 2)| ≤ τ * |B i|) (j : ℕ) : |e j| ≤ 15 / 7 * τ := by
  have out : ∀ j, j = 0 ∨ m < j → |e j| ≤ 15 / 7 * τ := by
    rintro j (hj | hj)
    · rw [hj, h0, abs_zero]; positivity
    · rw [hm j hj, abs_zero]; positivity
  by_cases hj : j = 0 ∨ m < j
  · exact out j hj
  have hne : (Finset.range m).Nonempty := ⟨j - 1, Finset.mem_range.mpr (by omega)⟩
  obtain ⟨k, hk, hmax⟩ := Finset.exists_max_image (Finset.range m) (fun i => |e (i + 1)|) hne
  have hk' := Finset.mem_range.mp hk
  have hle : ∀ i, |e i| ≤ |e (k + 1)| := by
    intro i
    by_cases hi : i = 0 ∨ m < i
    · rcases hi with hi | hi
      · rw [hi, h0, abs_zero]; exact abs_nonneg _
      · rw [hm i hi, abs_zero]; exact abs_nonneg _
    · have := hmax (i - 1) (Finset.mem_range.mpr (by omega))
      rwa [show i - 1 + 1 = i by omega] at this
  refine (hle j).trans ?_
  have row := h k hk'
  have hb := abs_pos.mpr (hB k hk')
  have hd := hdom k hk'
  have a1 : |B k * e (k + 1)| ≤ τ * |B k| + |A k * e k| + |C k * e (k + 2)| := by
    have b1 := abs_sub (A k * e k + B k * e (k + 1) + C k * e (k + 2)) (A k * e k + C k * e (k + 2))
    have b2 := abs_add_le (A k * e k) (C k * e (k + 2))
    rw [show A k * e k + B k * e (k + 1) + C k * e (k + 2) - (A k * e k + C k * e (k + 2)) = B k * e (k + 1) by ring] at b1
    linarith
  rw [abs_mul, abs_mul, abs_mul] at a1
  have a2 : |A k| * |e k| ≤ |A k| * |e (k + 1)| := mul_le_mul_of_nonneg_left (hle _) (abs_nonneg _)
  have a3 : |C k| * |e (k + 2)| ≤ |C k| * |e (k + 1)| := mul_le_mul_of_nonneg_left (hle _) (abs_nonneg _)
  have a4 : 15 / 8 * (|A k| + |C k|) * |e (k + 1)| ≤ |B k| * |e (k + 1)| := mul_le_mul_of_nonneg_right hd (abs_nonneg _)
  have a5 : |B k| * (7 / 15 * |e (k + 1)|) ≤ |B k| * τ := by linarith
  have := le_of_mul_le_mul_left a5 hb
  linarith

theorem getD_out {l : List ℚ} {i : ℕ} (h : l.length ≤ i) : l.getD i 0 = 0 := by
  rw [List.getD_eq_getElem?_getD, List.getElem?_eq_none h, Option.getD_none]

/-! ### Specification -/

/-- Left-hand side of row `i` of the tridiagonal system, as in `SolvesTri`. -/
def triRow (as bs cs us : List ℚ) (i : ℕ) : ℚ :=
  (if i = 0 then 0 else as.getD i 0 * us.getD (i - 1) 0) + bs.getD i 0 * us.getD i 0 +
    (if i + 1 = us.length then 0 else cs.getD i 0 * us.getD (i + 1) 0)

/-- The same with the sizes of all terms. -/
def triSize (as bs cs us : List ℚ) (i : ℕ) : ℚ :=
  (if i = 0 then 0 else |as.getD i 0| * |us.getD (i - 1) 0|) + |bs.getD i 0| * |us.getD i 0| +
    (if i + 1 = us.length then 0 else |cs.getD i 0| * |us.getD (i + 1) 0|)

/-- The elements next to the diagonal together are at most 8/15 of it. -/
def StronglyDominant (as bs cs : List ℚ) : Prop :=
  ∀ i < bs.length, bs.getD i 0 ≠ 0 ∧ 15 / 8 * (|as.getD i 0| + |cs.getD i 0|) ≤ |bs.getD i 0|

/-- **C150** for `TriDiagAt`: in machine arithmetic of ten or more bits a system whose diagonal is about twice as large as
the rest is solved without a panic; every row holds up to seven rounding errors of its terms, and every unknown is right up
to 24 rounding errors of the largest one. -/
theorem C150_tridiag {p : ℕ} (hp : 10 ≤ p) (fused : Bool) (as bs cs rs out : List ℚ) (hne : bs ≠ [])
    (la : as.length = bs.length) (lc : cs.length = bs.length) (lr : rs.length = bs.length) (lo : out.length = bs.length)
    (hdom : StronglyDominant as bs cs) :
    ∃ us, triDiagAtR (fp p fused) as bs cs rs out = some us ∧ us.length = bs.length ∧
      (∀ i < bs.length, |triRow as bs cs us i - rs.getD i 0| ≤ 7 * (1 / 2 ^ p) * triSize as bs cs us i) ∧
      ∀ zs Z, SolvesTri as bs cs rs zs → (∀ z ∈ zs, |z| ≤ Z) →
        ∀ i < bs.length, |us.getD i 0 - zs.getD i 0| ≤ 24 * (1 / 2 ^ p) * Z := by
  obtain ⟨f, hf⟩ : ∃ f, f = fp p fused := ⟨_, rfl⟩
  obtain ⟨u, hu'⟩ : ∃ u : ℚ, u = 1 / 2 ^ p := ⟨_, rfl⟩
  have h : f.Laws u := by rw [hf, hu']; exact fp_laws (by omega) fused
  have hu : u ≤ 1 / 1024 := by
    rw [hu']
    have : (2 : ℚ) ^ 10 ≤ 2 ^ p := pow_le_pow_right₀ (by norm_num) hp
    exact one_div_le_one_div_of_le (by norm_num) (by linarith)
  rw [← hf, ← hu']
  clear hf hu'
  obtain ⟨m, hm⟩ : ∃ m, m = bs.length := ⟨_, rfl⟩
  have m1 : 1 ≤ m := by rw [hm]; exact List.length_pos_iff.mpr hne
  rw [← hm] at la lc lr lo ⊢
  unfold StronglyDominant at hdom
  rw [← hm] at hdom
  have fn : ∀ (l : List ℚ), l.length = m → ∀ i < m, l[i]? = some (l.getD i 0) := fun l hl i hi => rd_getD (by omega)
  have e := triDiagAtR_eq (f := f) (fn as la) (fn bs hm.symm) (fn cs lc) (fn rs lr) la hm.symm lc lr lo
  obtain ⟨A, hA⟩ : ∃ A : ℕ → ℚ, A = fun i => as.getD i 0 := ⟨_, rfl⟩
  obtain ⟨B, hB⟩ : ∃ B : ℕ → ℚ, B = fun i => bs.getD i 0 := ⟨_, rfl⟩
  obtain ⟨C, hC⟩ : ∃ C : ℕ → ℚ, C = fun i => cs.getD i 0 := ⟨_, rfl⟩
  obtain ⟨R, hR⟩ : ∃ R : ℕ → ℚ, R = fun i => rs.getD i 0 := ⟨_, rfl⟩
  rw [← hA, ← hB, ← hC, ← hR] at e
  have dom : ∀ i < m, 15 / 8 * (|A i| + |C i|) ≤ |B i| := by rw [hA, hB, hC]; exact fun i hi => (hdom i hi).2
  have bne : ∀ i < m, B i ≠ 0 := by rw [hB]; exact fun i hi => (hdom i hi).1
  rw [if_pos ⟨m1, fun i hi => (tri_pivots h hu bne dom i hi).1⟩] at e
  obtain ⟨us, hus⟩ : ∃ us, us = (List.range m).map (fun i => tUR f A B C R m (m - 1 - i)) := ⟨_, rfl⟩
  rw [← hus] at e
  have lu : us.length = m := by rw [hus]; simp
  have gu : ∀ i < m, us.getD i 0 = solR f A B C R m (i + 1) := by
    intro i hi
    rw [hus, solR, if_neg (by omega), show m - (i + 1) = m - 1 - i by omega]
    simp [hi]
  have z0 : solR f A B C R m 0 = 0 := by rw [solR, if_pos (Or.inl rfl)]
  have zm : ∀ j, m < j → solR f A B C R m j = 0 := fun j hj => by rw [solR, if_pos (Or.inr hj)]
  have res := fun i hi => tri_residual (R := R) h hu bne dom i hi
  refine ⟨us, e, lu, ?_, ?_⟩
  · intro i hi
    have t1 : triRow as bs cs us i = A i * solR f A B C R m i + B i * solR f A B C R m (i + 1) +
        C i * solR f A B C R m (i + 2) := by
      unfold triRow
      rw [lu, gu i hi, hA, hB, hC]
      congr 1
      · congr 1
        by_cases c : i = 0
        · rw [if_pos c, c]; rw [← hA, ← hB, ← hC, z0, mul_zero]
        · rw [if_neg c, gu (i - 1) (by omega), show i - 1 + 1 = i by omega, hA, hB, hC]
      · by_cases c : i + 1 = m
        · rw [if_pos c]; rw [← hA, ← hB, ← hC, zm _ (by omega), mul_zero]
        · rw [if_neg c, gu (i + 1) (by omega), hA, hB, hC]
    have t2 : triSize as bs cs us i = |A i| * |solR f A B C R m i| + |B i| * |solR f A B C R m (i + 1)| +
        |C i| * |solR f A B C R m (i + 2)| := by
      unfold triSize
      rw [lu, gu i hi, hA, hB, hC]
      congr 1
      · congr 1
        by_cases c : i = 0
        · rw [if_pos c, c]; rw [← hA, ← hB, ← hC, z0, abs_zero, mul_zero]
        · rw [if_neg c, gu (i - 1) (by omega), show i - 1 + 1 = i by omega, hA, hB, hC]
      · by_cases c : i + 1 = m
        · rw [if_pos c]; rw [← hA, ← hB, ← hC, zm _ (by omega), abs_zero, mul_zero]
        · rw [if_neg c, gu (i + 1) (by omega), hA, hB, hC]
    rw [t1, t2, abs_sub_comm]
    have := res i hi
    rw [hR] at this ⊢
    exact this
  · intro zs Z hz hZ i hi
    obtain ⟨lz, hz⟩ := hz
    rw [← hm] at lz
    have hz' : ∀ i < m, A i * (if i = 0 then 0 else zs.getD (i - 1) 0) + B i * zs.getD i 0 + C i * zs.getD (i + 1) 0 = R i := by
      intro i hi
      have := hz i _ _ _ _ _ (fn as la i hi) (fn bs hm.symm i hi) (fn cs lc i hi) (fn rs lr i hi) (fn zs lz i hi)
      rw [lz] at this
      rw [hA, hB, hC, hR]
      dsimp only
      have e1 : as.getD i 0 * (if i = 0 then 0 else zs.getD (i - 1) 0) =
          if i = 0 then 0 else as.getD i 0 * zs.getD (i - 1) 0 := by
        split <;> simp
      have e2 : cs.getD i 0 * zs.getD (i + 1) 0 = if i + 1 = m then 0 else cs.getD i 0 * zs.getD (i + 1) 0 := by
        by_cases c : i + 1 = m
        · rw [if_pos c, getD_out (show zs.length ≤ i + 1 by omega), mul_zero]
        · rw [if_neg c]
      rw [e1, e2]
      exact this
    have hZ0 : 0 ≤ Z := (abs_nonneg _).trans (hZ _ (List.mem_of_getElem? (fn zs lz 0 (by omega))))
    obtain ⟨z, hzz⟩ : ∃ z : ℕ → ℚ, z = fun j => if j = 0 ∨ m < j then 0 else zs.getD (j - 1) 0 := ⟨_, rfl⟩
    have zZ : ∀ j, |z j| ≤ Z := by
      intro j
      rw [hzz]
      dsimp only
      by_cases c : j = 0 ∨ m < j
      · rw [if_pos c, abs_zero]; exact hZ0
      · rw [if_neg c]; exact hZ _ (List.mem_of_getElem? (fn zs lz (j - 1) (by omega)))
    have zrow : ∀ i < m, A i * z i + B i * z (i + 1) + C i * z (i + 2) = R i := by
      intro i hi
      rw [← hz' i hi, hzz]
      dsimp only
      congr 1
      · congr 1
        · by_cases c : i = 0
          · rw [if_pos (Or.inl c), if_pos c]
          · rw [if_neg (by omega), if_neg c]
        · rw [if_neg (by omega)]; rfl
      · by_cases c : m < i + 2
        · rw [if_pos (Or.inr c), getD_out (by omega)]
        · rw [if_neg (by omega)]; rfl
    obtain ⟨w, hw⟩ : ∃ w : ℕ → ℚ, w = fun j => solR f A B C R m j - z j := ⟨_, rfl⟩
    -- bound the difference by the largest computed value, twice
    have bound : ∀ M, (∀ j, |solR f A B C R m j| ≤ M) → ∀ j, |w j| ≤ 23 * u * M := by
      intro M hM j
      have M0 : 0 ≤ M := (abs_nonneg _).trans (hM 0)
      have := dominant_max (A := A) (B := B) (C := C) (e := w) (m := m) (τ := 7 * u * (23 / 15) * M)
        (by have := h.nonneg; positivity) bne dom (by rw [hw, hzz]; simp [z0])
        (fun j hj => by rw [hw, hzz]; simp [zm j hj, hj]) (fun i hi => by
          have r := res i hi
          have e1 : A i * w i + B i * w (i + 1) + C i * w (i + 2) =
              -(R i - (A i * solR f A B C R m i + B i * solR f A B C R m (i + 1) + C i * solR f A B C R m (i + 2))) := by
            rw [hw, ← zrow i hi]; ring
          rw [e1, abs_neg]
          refine r.trans ?_
          have m1 := mul_le_mul_of_nonneg_left (hM i) (abs_nonneg (A i))
          have m2 := mul_le_mul_of_nonneg_left (hM (i + 1)) (abs_nonneg (B i))
          have m3 := mul_le_mul_of_nonneg_left (hM (i + 2)) (abs_nonneg (C i))
          have m4 : (|A i| + |C i|) * M ≤ 8 / 15 * |B i| * M := mul_le_mul_of_nonneg_right (by linarith [dom i hi]) M0
          have m5 := mul_le_mul_of_nonneg_left (show |A i| * |solR f A B C R m i| + |B i| * |solR f A B C R m (i + 1)| +
            |C i| * |solR f A B C R m (i + 2)| ≤ 23 / 15 * |B i| * M by linarith) (show 0 ≤ 7 * u by linarith [h.nonneg])
          linarith) j
      linarith
    obtain ⟨k, -, hmax⟩ := Finset.exists_max_image (Finset.range (m + 1)) (fun i => |solR f A B C R m i|) ⟨0, by simp⟩
    have hM : ∀ j, |solR f A B C R m j| ≤ |solR f A B C R m k| := by
      intro j
      by_cases c : m < j
      · rw [zm j c, abs_zero]; exact abs_nonneg _
      · exact hmax j (Finset.mem_range.mpr (by omega))
    have b := bound _ hM
    have bk := b k
    have hk : |solR f A B C R m k| ≤ |w k| + Z := by
      have := abs_add_le (w k) (z k)
      rw [hw] at this ⊢
      dsimp only at this ⊢
      rw [sub_add_cancel] at this
      linarith [zZ k]
    have u0 := h.nonneg
    have hM24 : 23 * u * |solR f A B C R m k| ≤ 24 * u * Z := by
      have k1 : |solR f A B C R m k| * (1 - 23 * u) ≤ Z := by linarith
      have k2 : |solR f A B C R m k| * (23 / 24) ≤ Z := by
        have := mul_le_mul_of_nonneg_left (show (23 / 24 : ℚ) ≤ 1 - 23 * u by linarith) (abs_nonneg (solR f A B C R m k))
        linarith
      have := mul_le_mul_of_nonneg_left k2 (show 0 ≤ 24 * u by linarith)
      linarith
    have fin := (b (i + 1)).trans hM24
    rw [hw, hzz] at fin
    dsimp only at fin
    rw [if_neg (by omega), ← gu i hi] at fin
    exact fin

example : StronglyDominant [0, 1, -1] [3, 5, 4] [1, 3 / 2, 0] ∧
    triDiagAtR (fp 53 true) [0, 1, -1] [3, 5, 4] [1, 3 / 2, 0] [1, 2, 3] [0, 0, 0] ≠ none ∧
    (triDiagAtR (fp 53 true) [0, 1, -1] [3, 5, 4] [1, 3 / 2, 0] [1, 2, 3] [0, 0, 0]).map (triRow [0, 1, -1] [3, 5, 4] [1, 3 / 2, 0] · 1)
      ≠ some 2 := by
  refine ⟨?_, by decide +kernel, by decide +kernel⟩
  intro i hi
  rw [List.length_cons, List.length_cons, List.length_cons, List.length_nil] at hi
  have h : i = 0 ∨ i = 1 ∨ i = 2 := by omega
  rcases h with rfl | rfl | rfl <;> decide +kernel

end Verif.Interp
