import Mathlib.Data.Rat.Floor
import Mathlib.Data.Nat.Log
import Mathlib.Algebra.Order.Floor.Ring
import Mathlib.Algebra.Order.Field.Power
import Mathlib.Tactic.Linarith
import Mathlib.Tactic.Ring
import Mathlib.Tactic.FieldSimp
import Mathlib.Tactic.Positivity
import Mathlib.Tactic.NormNum

/-!
# Binary floating point with round to nearest, ties to even

Numbers of `p` bits with an exponent of any size: overflow, underflow, infinities and NaN are left out. `float64` has `p = 53`,
`float32` has `p = 24`; the operations `+ - * /` and conversions round the exact result (IEEE 754, which the Go
specification prescribes, apart from fused operations on some processors).
-/

set_option autoImplicit false

namespace Verif.Go

/-- `2 ^ e` for an integer `e`. -/
def two : ℤ → ℚ
  | .ofNat n => ((2 ^ n : ℕ) : ℚ)
  | .negSucc n => 1 / ((2 ^ (n + 1) : ℕ) : ℚ)

theorem two_eq (e : ℤ) : two e = (2 : ℚ) ^ e := by
  cases e with
  | ofNat n => simp [two]
  | negSucc n => simp [two, zpow_negSucc]

/-- The numbers with `p` significant bits. -/
def Rep (p : ℕ) (x : ℚ) : Prop := ∃ m e : ℤ, |m| < 2 ^ p ∧ x = m * (2 : ℚ) ^ e

/-- The exponent of the leading bit of `x ≠ 0`. -/
def expo (x : ℚ) : ℤ :=
  let n := x.num.natAbs
  let d := x.den
  let e : ℤ := (Nat.log2 n : ℤ) - Nat.log2 d
  if |x| < two e then e - 1 else e

/-- The integer nearest to `x`, the even one of two. -/
def rne (x : ℚ) : ℤ :=
  let f := ⌊x⌋
  if x - f < 1 / 2 then f
  else if x - f = 1 / 2 ∧ f % 2 = 0 then f
  else f + 1

/-- `x` rounded to `p` bits. -/
def rnd (p : ℕ) (x : ℚ) : ℚ :=
  if x = 0 then 0
  else
    let u := two (expo x - (p - 1))
    rne (x / u) * u

example : rnd 53 (1 / 10) = 3602879701896397 / 2 ^ 55 := by decide +kernel
example : rnd 24 (1 / 10) = 13421773 / 2 ^ 27 := by decide +kernel
example : rnd 53 (1 + 1 / 2 ^ 53) = 1 := by decide +kernel
example : rnd 53 (1 + 3 / 2 ^ 53) = 1 + 1 / 2 ^ 51 := by decide +kernel

/-- `a * b + c`; a compiler may use one operation with a single rounding ("fused"), which the Go specification allows. -/
def mulAdd (fused : Bool) (p : ℕ) (a b c : ℚ) : ℚ :=
  if fused then rnd p (a * b + c) else rnd p (rnd p (a * b) + c)

/-! ### The exponent -/

theorem expo_spec {x : ℚ} (hx : x ≠ 0) : (2 : ℚ) ^ expo x ≤ |x| ∧ |x| < (2 : ℚ) ^ (expo x + 1) := by
  have hn : x.num.natAbs ≠ 0 := by simpa using hx
  have hd : x.den ≠ 0 := x.den_nz
  have h1 : 2 ^ Nat.log2 x.num.natAbs ≤ x.num.natAbs := Nat.log2_self_le hn
  have h2 : x.num.natAbs < 2 ^ (Nat.log2 x.num.natAbs + 1) := Nat.lt_log2_self
  have h3 : 2 ^ Nat.log2 x.den ≤ x.den := Nat.log2_self_le hd
  have h4 : x.den < 2 ^ (Nat.log2 x.den + 1) := Nat.lt_log2_self
  have hx' : |x| = (x.num.natAbs : ℚ) / x.den := by
    rw [Nat.cast_natAbs, Int.cast_abs]
    conv_lhs => rw [← Rat.num_div_den x]
    rw [abs_div, Nat.abs_cast]
  have hdp : (0 : ℚ) < x.den := by exact_mod_cast Nat.pos_of_ne_zero hd
  have e1 : (2 : ℚ) ^ Nat.log2 x.num.natAbs ≤ x.num.natAbs := by exact_mod_cast h1
  have e2 : (x.num.natAbs : ℚ) < 2 ^ (Nat.log2 x.num.natAbs + 1) := by exact_mod_cast h2
  have e3 : (2 : ℚ) ^ Nat.log2 x.den ≤ x.den := by exact_mod_cast h3
  have e4 : (x.den : ℚ) < 2 ^ (Nat.log2 x.den + 1) := by exact_mod_cast h4
  unfold expo
  simp only [two_eq]
  generalize Nat.log2 x.num.natAbs = a at *
  generalize Nat.log2 x.den = b at *
  have t0 : (2 : ℚ) ≠ 0 := two_ne_zero
  have hup : |x| < (2 : ℚ) ^ ((a : ℤ) - b + 1) := by
    rw [hx', div_lt_iff₀ hdp]
    have : (2 : ℚ) ^ ((a : ℤ) - b + 1) * 2 ^ b = 2 ^ (a + 1) := by
      rw [← zpow_natCast, ← zpow_natCast, ← zpow_add₀ t0]; congr 1; push_cast; ring
    calc (x.num.natAbs : ℚ) < 2 ^ (a + 1) := e2
      _ = (2 : ℚ) ^ ((a : ℤ) - b + 1) * 2 ^ b := this.symm
      _ ≤ _ := by gcongr
  have hlo : (2 : ℚ) ^ ((a : ℤ) - b - 1) ≤ |x| := by
    rw [hx', le_div_iff₀ hdp]
    have : (2 : ℚ) ^ ((a : ℤ) - b - 1) * 2 ^ (b + 1) = 2 ^ a := by
      rw [← zpow_natCast, ← zpow_natCast, ← zpow_add₀ t0]; congr 1; push_cast; ring
    calc (2 : ℚ) ^ ((a : ℤ) - b - 1) * x.den ≤ (2 : ℚ) ^ ((a : ℤ) - b - 1) * 2 ^ (b + 1) := by gcongr
      _ = 2 ^ a := this
      _ ≤ _ := e1
  split_ifs with h
  · exact ⟨hlo, by simpa using h⟩
  · exact ⟨not_lt.mp h, hup⟩

theorem expo_unique {x : ℚ} (hx : x ≠ 0) {e : ℤ} (h1 : (2 : ℚ) ^ e ≤ |x|) (h2 : |x| < (2 : ℚ) ^ (e + 1)) : expo x = e := by
  obtain ⟨h3, h4⟩ := expo_spec hx
  have a : e < expo x + 1 := (zpow_lt_zpow_iff_right₀ (by norm_num : (1 : ℚ) < 2)).mp (h1.trans_lt h4)
  have b : expo x < e + 1 := (zpow_lt_zpow_iff_right₀ (by norm_num : (1 : ℚ) < 2)).mp (h3.trans_lt h2)
  omega

theorem expo_neg (x : ℚ) : expo (-x) = expo x := by
  unfold expo; simp

theorem expo_mono {x y : ℚ} (hx : x ≠ 0) (h : |x| ≤ |y|) : expo x ≤ expo y := by
  have hy : y ≠ 0 := by
    rintro rfl
    rw [abs_zero] at h
    exact hx (abs_nonpos_iff.mp h)
  have : expo x < expo y + 1 := (zpow_lt_zpow_iff_right₀ (by norm_num : (1 : ℚ) < 2)).mp
    ((expo_spec hx).1.trans_lt (h.trans_lt (expo_spec hy).2))
  omega

/-! ### Rounding to integers -/

theorem rne_err (x : ℚ) : |(rne x : ℚ) - x| ≤ 1 / 2 := by
  have h1 := Int.floor_le x
  have h2 := Int.lt_floor_add_one x
  unfold rne
  dsimp only
  split_ifs with a b
  · rw [abs_le]; constructor <;> linarith
  · rw [abs_le]; constructor <;> linarith [b.1]
  · push_cast
    rw [abs_le]; constructor <;> linarith

theorem rne_int (n : ℤ) : rne n = n := by simp [rne]

theorem rne_mono {x y : ℚ} (h : x ≤ y) : rne x ≤ rne y := by
  have h1 := Int.floor_le x
  have h2 := Int.lt_floor_add_one y
  have hf : ⌊x⌋ ≤ ⌊y⌋ := Int.floor_le_floor h
  unfold rne
  dsimp only
  rcases hf.eq_or_lt with e | e
  · rw [e] at h1 ⊢
    by_cases A : y - (⌊y⌋ : ℚ) < 1 / 2
    · rw [if_pos A, if_pos (by linarith)]
    · by_cases B : y - (⌊y⌋ : ℚ) = 1 / 2 ∧ ⌊y⌋ % 2 = 0
      · rw [if_neg A, if_pos B]
        by_cases C : x - (⌊y⌋ : ℚ) < 1 / 2
        · rw [if_pos C]
        · rw [if_neg C, if_pos ⟨by linarith [B.1], B.2⟩]
      · rw [if_neg A, if_neg B]
        split_ifs <;> omega
  · split_ifs <;> omega

theorem rne_neg (x : ℚ) : rne (-x) = -rne x := by
  by_cases hi : (⌊x⌋ : ℚ) = x
  · rw [← hi, ← Int.cast_neg, rne_int, rne_int]
  · have h1 := (Int.floor_le x).lt_of_ne hi
    have h2 := Int.lt_floor_add_one x
    have hf : ⌊-x⌋ = -⌊x⌋ - 1 := by
      rw [Int.floor_eq_iff]; push_cast; constructor <;> linarith
    have hv : -x - ((-⌊x⌋ - 1 : ℤ) : ℚ) = 1 - (x - (⌊x⌋ : ℚ)) := by push_cast; ring
    unfold rne
    dsimp only
    rw [hf, hv]
    generalize x - (⌊x⌋ : ℚ) = r at *
    generalize ⌊x⌋ = n at *
    rcases lt_trichotomy r (1 / 2) with q | q | q
    · have a : ¬ 1 - r < 1 / 2 := by linarith
      have b : ¬ (1 - r = 1 / 2 ∧ (-n - 1) % 2 = 0) := fun z => by linarith [z.1]
      rw [if_neg a, if_neg b, if_pos q]
      ring
    · have a : ¬ 1 - r < 1 / 2 := by linarith
      rw [if_neg a, if_neg q.not_lt]
      by_cases z : n % 2 = 0
      · have b : ¬ (1 - r = 1 / 2 ∧ (-n - 1) % 2 = 0) := fun w => by have := w.2; omega
        rw [if_neg b, if_pos ⟨q, z⟩]
        ring
      · have b : 1 - r = 1 / 2 ∧ (-n - 1) % 2 = 0 := ⟨by linarith, by omega⟩
        rw [if_pos b, if_neg (fun w => z w.2)]
        ring
    · have a : 1 - r < 1 / 2 := by linarith
      have b : ¬ (r = 1 / 2 ∧ n % 2 = 0) := fun z => by linarith [z.1]
      rw [if_pos a, if_neg (by linarith), if_neg b]
      ring

theorem rne_nearest (x : ℚ) (k : ℤ) : |(rne x : ℚ) - x| ≤ |(k : ℚ) - x| := by
  have h := rne_err x
  by_contra hc
  rw [not_le] at hc
  have h1 : |(rne x : ℚ) - k| < 1 := by
    have := abs_sub_le (rne x : ℚ) x k
    rw [abs_sub_comm x] at this
    linarith
  have h2 : |rne x - k| < 1 := by exact_mod_cast h1
  have h3 : rne x = k := by rw [Int.abs_lt_one_iff] at h2; omega
  rw [h3] at hc
  exact lt_irrefl _ hc

/-! ### Rounding -/

theorem rnd_zero (p : ℕ) : rnd p 0 = 0 := by simp [rnd]

theorem rnd_eq {p : ℕ} {x : ℚ} (hx : x ≠ 0) :
    rnd p x = rne (x / (2 : ℚ) ^ (expo x - (p - 1))) * (2 : ℚ) ^ (expo x - (p - 1)) := by
  simp only [rnd, if_neg hx, two_eq]

theorem rnd_neg (p : ℕ) (x : ℚ) : rnd p (-x) = -rnd p x := by
  by_cases hx : x = 0
  · simp [hx, rnd_zero]
  · rw [rnd_eq hx, rnd_eq (neg_ne_zero.mpr hx), expo_neg, neg_div, rne_neg]
    push_cast
    ring

theorem rep_zero (p : ℕ) : Rep p 0 := ⟨0, 0, by simp, by simp⟩

theorem rep_neg {p : ℕ} {x : ℚ} (h : Rep p x) : Rep p (-x) := by
  obtain ⟨m, e, h1, h2⟩ := h
  exact ⟨-m, e, by rwa [abs_neg], by rw [h2]; push_cast; ring⟩

theorem rep_int {p : ℕ} {m : ℤ} (h : |m| ≤ 2 ^ p) (hp : 0 < p) (e : ℤ) : Rep p (m * (2 : ℚ) ^ e) := by
  rcases h.lt_or_eq with h | h
  · exact ⟨m, e, h, rfl⟩
  · obtain ⟨q, rfl⟩ : ∃ q, p = q + 1 := ⟨p - 1, by omega⟩
    have : m = 2 * 2 ^ q ∨ m = 2 * (-2 ^ q) := by
      rcases abs_eq (by positivity : (0 : ℤ) ≤ 2 ^ (q + 1)) |>.mp h with r | r
      · left; rw [r]; ring
      · right; rw [r]; ring
    rcases this with r | r
    · refine ⟨2 ^ q, e + 1, ?_, ?_⟩
      · rw [abs_of_pos (by positivity), pow_succ]
        have : (0 : ℤ) < 2 ^ q := by positivity
        linarith
      · rw [r, zpow_add_one₀ two_ne_zero]; push_cast; ring
    · refine ⟨-2 ^ q, e + 1, ?_, ?_⟩
      · rw [abs_neg, abs_of_pos (by positivity), pow_succ]
        have : (0 : ℤ) < 2 ^ q := by positivity
        linarith
      · rw [r, zpow_add_one₀ two_ne_zero]; push_cast; ring

/-- Integers up to `2 ^ p` are numbers of `p` bits. -/
theorem rep_of_int {p : ℕ} {m : ℤ} (h : |m| ≤ 2 ^ p) (hp : 0 < p) : Rep p m := by
  simpa using rep_int h hp 0

/-- Scaled to integers: the range of the significand. -/
theorem scaled_bounds {p : ℕ} (hp : 0 < p) {x : ℚ} (hx : 0 < x) :
    (2 : ℚ) ^ (p - 1) ≤ x / (2 : ℚ) ^ (expo x - (p - 1)) ∧ x / (2 : ℚ) ^ (expo x - (p - 1)) < (2 : ℚ) ^ p := by
  obtain ⟨h1, h2⟩ := expo_spec hx.ne'
  rw [abs_of_pos hx] at h1 h2
  have t0 : (2 : ℚ) ≠ 0 := two_ne_zero
  have hu : (0 : ℚ) < (2 : ℚ) ^ (expo x - (p - 1)) := by positivity
  rw [le_div_iff₀ hu, div_lt_iff₀ hu]
  constructor
  · have : (2 : ℚ) ^ (p - 1) * (2 : ℚ) ^ (expo x - ((p : ℤ) - 1)) = (2 : ℚ) ^ expo x := by
      rw [← zpow_natCast, ← zpow_add₀ t0]; congr 1; push_cast [hp]; ring
    rw [this]; exact h1
  · have : (2 : ℚ) ^ p * (2 : ℚ) ^ (expo x - ((p : ℤ) - 1)) = (2 : ℚ) ^ (expo x + 1) := by
      rw [← zpow_natCast, ← zpow_add₀ t0]; congr 1; ring
    rw [this]; exact h2

theorem rne_bounds {p : ℕ} (hp : 0 < p) {x : ℚ} (hx : 0 < x) :
    2 ^ (p - 1) ≤ rne (x / (2 : ℚ) ^ (expo x - (p - 1))) ∧ rne (x / (2 : ℚ) ^ (expo x - (p - 1))) ≤ 2 ^ p := by
  obtain ⟨h1, h2⟩ := scaled_bounds hp hx
  constructor
  · have := rne_mono (x := ((2 ^ (p - 1) : ℤ) : ℚ)) (by push_cast; exact h1)
    rwa [rne_int] at this
  · have := rne_mono (y := ((2 ^ p : ℤ) : ℚ)) (by push_cast; exact h2.le)
    rwa [rne_int] at this

theorem rnd_bounds {p : ℕ} (hp : 0 < p) {x : ℚ} (hx : 0 < x) :
    (2 : ℚ) ^ expo x ≤ rnd p x ∧ rnd p x ≤ (2 : ℚ) ^ (expo x + 1) := by
  obtain ⟨h1, h2⟩ := rne_bounds hp hx
  have t0 : (2 : ℚ) ≠ 0 := two_ne_zero
  rw [rnd_eq hx.ne']
  have hu : (0 : ℚ) < (2 : ℚ) ^ (expo x - (p - 1)) := by positivity
  constructor
  · have : (2 : ℚ) ^ expo x = ((2 ^ (p - 1) : ℤ) : ℚ) * (2 : ℚ) ^ (expo x - ((p : ℤ) - 1)) := by
      push_cast
      rw [← zpow_natCast, ← zpow_add₀ t0]; congr 1; push_cast [hp]; ring
    rw [this]
    gcongr
  · have : (2 : ℚ) ^ (expo x + 1) = ((2 ^ p : ℤ) : ℚ) * (2 : ℚ) ^ (expo x - ((p : ℤ) - 1)) := by
      push_cast
      rw [← zpow_natCast, ← zpow_add₀ t0]; congr 1; ring
    rw [this]
    gcongr

theorem rnd_pos {p : ℕ} (hp : 0 < p) {x : ℚ} (hx : 0 < x) : 0 < rnd p x :=
  lt_of_lt_of_le (by positivity) (rnd_bounds hp hx).1

/-- The result of rounding has `p` bits. -/
theorem rep_rnd {p : ℕ} (hp : 0 < p) (x : ℚ) : Rep p (rnd p x) := by
  rcases lt_trichotomy x 0 with hx | rfl | hx
  · have hx' : 0 < -x := neg_pos.mpr hx
    rw [← neg_neg x, rnd_neg]
    apply rep_neg
    rw [rnd_eq hx'.ne']
    obtain ⟨h1, h2⟩ := rne_bounds hp hx'
    have h0 : (0 : ℤ) < 2 ^ (p - 1) := by positivity
    exact rep_int (by rw [abs_of_pos (h0.trans_le h1)]; exact h2) hp _
  · rw [rnd_zero]; exact rep_zero p
  · rw [rnd_eq hx.ne']
    obtain ⟨h1, h2⟩ := rne_bounds hp hx
    have h0 : (0 : ℤ) < 2 ^ (p - 1) := by positivity
    exact rep_int (by rw [abs_of_pos (h0.trans_le h1)]; exact h2) hp _

/-- Numbers of `p` bits are not changed. -/
theorem rnd_of_rep {p : ℕ} {x : ℚ} (h : Rep p x) : rnd p x = x := by
  by_cases hx : x = 0
  · rw [hx, rnd_zero]
  obtain ⟨m, e, h1, h2⟩ := h
  have t0 : (2 : ℚ) ≠ 0 := two_ne_zero
  have h3 := (expo_spec hx).1
  have h4 : |x| < (2 : ℚ) ^ ((p : ℤ) + e) := by
    rw [h2, abs_mul, abs_of_pos (by positivity : (0 : ℚ) < 2 ^ e), zpow_add₀ t0, zpow_natCast]
    gcongr
    exact_mod_cast h1
  have h5 : expo x < p + e := (zpow_lt_zpow_iff_right₀ (by norm_num : (1 : ℚ) < 2)).mp (h3.trans_lt h4)
  obtain ⟨k, hk⟩ : ∃ k : ℕ, e = expo x - (p - 1) + k := ⟨(e - (expo x - (p - 1))).toNat, by omega⟩
  rw [rnd_eq hx]
  have hu : (2 : ℚ) ^ (expo x - ((p : ℤ) - 1)) ≠ 0 := by positivity
  have : x / (2 : ℚ) ^ (expo x - ((p : ℤ) - 1)) = ((m * 2 ^ k : ℤ) : ℚ) := by
    rw [div_eq_iff hu]
    conv_lhs => rw [h2, hk, zpow_add₀ t0]
    push_cast [zpow_natCast]
    ring
  rw [this, rne_int, ← this, div_mul_cancel₀ _ hu]

theorem rnd_idem {p : ℕ} (hp : 0 < p) (x : ℚ) : rnd p (rnd p x) = rnd p x := rnd_of_rep (rep_rnd hp x)

private theorem rnd_mono_pos {p : ℕ} (hp : 0 < p) {x y : ℚ} (hx : 0 < x) (h : x ≤ y) : rnd p x ≤ rnd p y := by
  have hy : 0 < y := hx.trans_le h
  have he : expo x ≤ expo y := expo_mono hx.ne' (by rw [abs_of_pos hx, abs_of_pos hy]; exact h)
  rcases he.eq_or_lt with e | e
  · rw [rnd_eq hx.ne', rnd_eq hy.ne', e]
    have : rne (x / (2 : ℚ) ^ (expo y - ((p : ℤ) - 1))) ≤ rne (y / (2 : ℚ) ^ (expo y - ((p : ℤ) - 1))) :=
      rne_mono (by gcongr)
    gcongr
  · calc rnd p x ≤ (2 : ℚ) ^ (expo x + 1) := (rnd_bounds hp hx).2
      _ ≤ (2 : ℚ) ^ expo y := zpow_le_zpow_right₀ (by norm_num) (by omega)
      _ ≤ rnd p y := (rnd_bounds hp hy).1

/-- Rounding keeps the order. -/
theorem rnd_mono {p : ℕ} (hp : 0 < p) {x y : ℚ} (h : x ≤ y) : rnd p x ≤ rnd p y := by
  rcases lt_trichotomy x 0 with hx | rfl | hx
  · rcases lt_trichotomy y 0 with hy | rfl | hy
    · have := rnd_mono_pos hp (neg_pos.mpr hy) (neg_le_neg h)
      rw [rnd_neg, rnd_neg] at this
      linarith
    · have := rnd_pos hp (neg_pos.mpr hx)
      rw [rnd_neg] at this
      rw [rnd_zero]; linarith
    · have h1 := rnd_pos hp (neg_pos.mpr hx)
      rw [rnd_neg] at h1
      have h2 := rnd_pos hp hy
      linarith
  · rcases h.eq_or_lt with rfl | h
    · rfl
    · rw [rnd_zero]; exact (rnd_pos hp h).le
  · exact rnd_mono_pos hp hx h

theorem rnd_nonneg {p : ℕ} (hp : 0 < p) {x : ℚ} (hx : 0 ≤ x) : 0 ≤ rnd p x := by
  simpa [rnd_zero] using rnd_mono hp hx

theorem rnd_nonpos {p : ℕ} (hp : 0 < p) {x : ℚ} (hx : x ≤ 0) : rnd p x ≤ 0 := by
  simpa [rnd_zero] using rnd_mono hp hx

theorem rnd_neg_iff {p : ℕ} (hp : 0 < p) (x : ℚ) : rnd p x < 0 ↔ x < 0 := by
  constructor
  · intro h
    by_contra hx
    exact absurd (rnd_nonneg hp (not_lt.mp hx)) (not_le.mpr h)
  · intro h
    have := rnd_pos hp (neg_pos.mpr h)
    rw [rnd_neg] at this
    linarith

/-- A bound with `p` bits is kept. -/
theorem rnd_le {p : ℕ} (hp : 0 < p) {x y : ℚ} (hy : Rep p y) (h : x ≤ y) : rnd p x ≤ y := by
  simpa [rnd_of_rep hy] using rnd_mono hp h

theorem le_rnd {p : ℕ} (hp : 0 < p) {x y : ℚ} (hx : Rep p x) (h : x ≤ y) : x ≤ rnd p y := by
  simpa [rnd_of_rep hx] using rnd_mono hp h

/-- The error is at most half a unit of the last place. -/
theorem rnd_err_ulp {p : ℕ} {x : ℚ} (hx : x ≠ 0) : |rnd p x - x| ≤ (2 : ℚ) ^ (expo x - p) := by
  rw [rnd_eq hx]
  have hu : (0 : ℚ) < (2 : ℚ) ^ (expo x - ((p : ℤ) - 1)) := by positivity
  have h := rne_err (x / (2 : ℚ) ^ (expo x - ((p : ℤ) - 1)))
  have e : (rne (x / (2 : ℚ) ^ (expo x - ((p : ℤ) - 1))) : ℚ) * (2 : ℚ) ^ (expo x - ((p : ℤ) - 1)) - x =
      ((rne (x / (2 : ℚ) ^ (expo x - ((p : ℤ) - 1))) : ℚ) - x / (2 : ℚ) ^ (expo x - ((p : ℤ) - 1))) *
        (2 : ℚ) ^ (expo x - ((p : ℤ) - 1)) := by
    rw [sub_mul, div_mul_cancel₀ _ hu.ne']
  rw [e, abs_mul, abs_of_pos hu]
  calc _ ≤ 1 / 2 * (2 : ℚ) ^ (expo x - ((p : ℤ) - 1)) := by gcongr
    _ = (2 : ℚ) ^ (expo x - p) := by
      rw [show expo x - ((p : ℤ) - 1) = expo x - p + 1 by ring, zpow_add_one₀ two_ne_zero]; ring

/-- The error relative to the exact result. -/
theorem rnd_err (p : ℕ) (x : ℚ) : |rnd p x - x| ≤ |x| / 2 ^ p := by
  by_cases hx : x = 0
  · simp [hx, rnd_zero]
  refine (rnd_err_ulp hx).trans ?_
  rw [zpow_sub₀ two_ne_zero, zpow_natCast]
  gcongr
  exact (expo_spec hx).1

theorem rep_multiple {p : ℕ} {y : ℚ} (hy : Rep p y) {E : ℤ} (h : (2 : ℚ) ^ E ≤ |y|) :
    ∃ k : ℤ, y = k * (2 : ℚ) ^ (E - (p - 1)) := by
  obtain ⟨m, e, h1, h2⟩ := hy
  have t0 : (2 : ℚ) ≠ 0 := two_ne_zero
  have h4 : |y| < (2 : ℚ) ^ ((p : ℤ) + e) := by
    rw [h2, abs_mul, abs_of_pos (by positivity : (0 : ℚ) < 2 ^ e), zpow_add₀ t0, zpow_natCast]
    gcongr
    exact_mod_cast h1
  have h5 : E < p + e := (zpow_lt_zpow_iff_right₀ (by norm_num : (1 : ℚ) < 2)).mp (h.trans_lt h4)
  obtain ⟨k, hk⟩ : ∃ k : ℕ, e = E - (p - 1) + k := ⟨(e - (E - (p - 1))).toNat, by omega⟩
  refine ⟨m * 2 ^ k, ?_⟩
  rw [h2, hk, zpow_add₀ t0]
  push_cast [zpow_natCast]
  ring

theorem rep_two {p : ℕ} (hp : 0 < p) (e : ℤ) : Rep p ((2 : ℚ) ^ e) := by
  have := rep_int (p := p) (m := 1) (by rw [abs_one]; exact one_le_pow₀ (by norm_num)) hp e
  simpa using this

private theorem rnd_nearest_pos {p : ℕ} (hp : 0 < p) {x : ℚ} (hx : 0 < x) {y : ℚ} (hy : Rep p y) :
    |rnd p x - x| ≤ |y - x| := by
  have h1 := (expo_spec hx.ne').1
  rw [abs_of_pos hx] at h1
  have key : ∀ z : ℚ, Rep p z → (2 : ℚ) ^ expo x ≤ z → |rnd p x - x| ≤ |z - x| := by
    intro z hz hz2
    obtain ⟨k, hk⟩ := rep_multiple hz (hz2.trans (le_abs_self z))
    have hu : (0 : ℚ) < (2 : ℚ) ^ (expo x - ((p : ℤ) - 1)) := by positivity
    have h := rne_nearest (x / (2 : ℚ) ^ (expo x - ((p : ℤ) - 1))) k
    rw [rnd_eq hx.ne', hk]
    generalize (2 : ℚ) ^ (expo x - ((p : ℤ) - 1)) = u at *
    have e : ∀ n : ℤ, (n : ℚ) * u - x = ((n : ℚ) - x / u) * u := fun n => by
      rw [sub_mul, div_mul_cancel₀ _ hu.ne']
    rw [e, e, abs_mul, abs_mul]
    gcongr
  rcases le_total ((2 : ℚ) ^ expo x) y with h | h
  · exact key y hy h
  · refine (key _ (rep_two hp _) le_rfl).trans ?_
    rw [abs_of_nonpos (by linarith), abs_of_nonpos (by linarith)]
    linarith

/-- No number of `p` bits is nearer. -/
theorem rnd_nearest {p : ℕ} (hp : 0 < p) (x : ℚ) {y : ℚ} (hy : Rep p y) : |rnd p x - x| ≤ |y - x| := by
  rcases lt_trichotomy x 0 with hx | rfl | hx
  · have := rnd_nearest_pos hp (neg_pos.mpr hx) (rep_neg hy)
    rw [rnd_neg] at this
    rw [← abs_neg, ← abs_neg (y - x)]
    convert this using 2 <;> ring
  · simp [rnd_zero]
  · exact rnd_nearest_pos hp hx hy

/-- Differences of numbers that are not far apart are exact (Sterbenz). -/
theorem rep_sub {p : ℕ} (hp : 0 < p) {x y : ℚ} (hx : Rep p x) (hy : Rep p y) (h1 : y / 2 ≤ x) (h2 : x ≤ 2 * y) :
    Rep p (x - y) := by
  have key : ∀ x y : ℚ, Rep p x → Rep p y → 0 < y → y ≤ x → x ≤ 2 * y → Rep p (x - y) := by
    intro x y hx hy h0 h1 h2
    obtain ⟨e1, e2⟩ := expo_spec h0.ne'
    rw [abs_of_pos h0] at e1 e2
    obtain ⟨a, ha⟩ := rep_multiple hx (E := expo y) (by rw [abs_of_pos (by linarith)]; linarith)
    obtain ⟨b, hb⟩ := rep_multiple hy (E := expo y) (by rw [abs_of_pos h0]; exact e1)
    have hb' : b < 2 ^ p := by
      have hu : (0 : ℚ) < (2 : ℚ) ^ (expo y - ((p : ℤ) - 1)) := by positivity
      have : (b : ℚ) < 2 ^ p := by
        rw [← mul_lt_mul_iff_left₀ hu, ← hb]
        refine e2.trans_eq ?_
        rw [← zpow_natCast, ← zpow_add₀ two_ne_zero]; congr 1; ring
      exact_mod_cast this
    have hu : (0 : ℚ) < (2 : ℚ) ^ (expo y - ((p : ℤ) - 1)) := by positivity
    refine ⟨a - b, expo y - (p - 1), ?_, by push_cast; rw [sub_mul, ← ha, ← hb]⟩
    have c1 : b ≤ a := by
      have : (b : ℚ) ≤ a := by rw [← mul_le_mul_iff_left₀ hu, ← ha, ← hb]; exact h1
      exact_mod_cast this
    have c2 : a ≤ 2 * b := by
      have : (a : ℚ) ≤ 2 * b := by rw [← mul_le_mul_iff_left₀ hu, ← ha, mul_assoc, ← hb]; exact h2
      exact_mod_cast this
    rw [abs_of_nonneg (by omega)]
    omega
  have hy0 : 0 ≤ y := by linarith
  rcases hy0.eq_or_lt with e | h0
  · rw [← e, sub_zero]; exact hx
  rcases le_total y x with h | h
  · exact key x y hx hy h0 h h2
  · have := rep_neg (key y x hy hx (by linarith) h (by linarith))
    rwa [neg_sub] at this

/-- A factor below one makes a number smaller, also after rounding. -/
theorem rnd_mul_lt {p : ℕ} (hp : 0 < p) {f h : ℚ} (hf : Rep p f) (hh : Rep p h) (h0 : 0 < h) (h1 : f < 1) :
    rnd p (f * h) < h := by
  have t0 : (2 : ℚ) ≠ 0 := two_ne_zero
  -- the largest number below 1
  have f1 : f ≤ 1 - (2 : ℚ) ^ (-(p : ℤ)) := by
    by_contra hc
    rw [not_le] at hc
    have hhalf : (2 : ℚ) ^ (-1 : ℤ) ≤ |f| := by
      have : (2 : ℚ) ^ (-(p : ℤ)) ≤ (2 : ℚ) ^ (-1 : ℤ) := zpow_le_zpow_right₀ (by norm_num) (by omega)
      have h3 : (2 : ℚ) ^ (-1 : ℤ) = 1 / 2 := by norm_num
      rw [h3] at this ⊢
      exact le_trans (by linarith) (le_abs_self f)
    obtain ⟨k, hk⟩ := rep_multiple hf hhalf
    have e : (-1 : ℤ) - ((p : ℤ) - 1) = -p := by ring
    rw [e] at hk
    have hu : (0 : ℚ) < (2 : ℚ) ^ (-(p : ℤ)) := by positivity
    have hone : (2 : ℚ) ^ (-(p : ℤ)) * 2 ^ p = 1 := by
      rw [← zpow_natCast, ← zpow_add₀ t0]; simp
    have a1 : (k : ℚ) < 2 ^ p := by
      rw [← mul_lt_mul_iff_left₀ hu, ← hk, mul_comm, hone]; exact h1
    have a2 : (2 ^ p - 1 : ℚ) < k := by
      rw [← mul_lt_mul_iff_left₀ hu, ← hk, sub_mul, mul_comm, hone, one_mul]; exact hc
    have b1 : k < 2 ^ p := by exact_mod_cast a1
    have b2 : (2 ^ p - 1 : ℤ) < k := by exact_mod_cast a2
    omega
  obtain ⟨e1, e2⟩ := expo_spec h0.ne'
  rw [abs_of_pos h0] at e1 e2
  obtain ⟨m, hm⟩ := rep_multiple hh (E := expo h) (by rw [abs_of_pos h0]; exact e1)
  have hlt : f * h ≤ h - (2 : ℚ) ^ (-(p : ℤ)) * h := by nlinarith
  have hle : rnd p (f * h) ≤ h := rnd_le hp hh (by nlinarith)
  refine lt_of_le_of_ne hle fun heq => ?_
  have hu : (0 : ℚ) < (2 : ℚ) ^ (expo h - ((p : ℤ) - 1)) := by positivity
  rcases e1.eq_or_lt with c | c
  · -- a power of two
    have g : Rep p (h - (2 : ℚ) ^ (-(p : ℤ)) * h) := by
      refine ⟨2 ^ p - 1, expo h - p, ?_, ?_⟩
      · have : (1 : ℤ) ≤ 2 ^ p := one_le_pow₀ (by norm_num)
        rw [abs_of_nonneg (by omega)]; omega
      · rw [zpow_sub₀ t0, c, zpow_neg, zpow_natCast]
        push_cast
        field_simp
    have := rnd_le hp g hlt
    rw [heq] at this
    have : (0 : ℚ) < (2 : ℚ) ^ (-(p : ℤ)) * h := by positivity
    linarith
  · have hm1 : (2 : ℚ) ^ (p - 1) < m := by
      rw [← mul_lt_mul_iff_left₀ hu, ← hm]
      refine lt_of_eq_of_lt ?_ c
      rw [← zpow_natCast, ← zpow_add₀ t0]; congr 1; push_cast [hp]; ring
    have hm2 : (m : ℚ) < 2 ^ p := by
      rw [← mul_lt_mul_iff_left₀ hu, ← hm]
      refine e2.trans_eq ?_
      rw [← zpow_natCast, ← zpow_add₀ t0]; congr 1; ring
    have hm1' : (2 : ℤ) ^ (p - 1) < m := by exact_mod_cast hm1
    have hm2' : m < (2 : ℤ) ^ p := by exact_mod_cast hm2
    have hpos : (0 : ℤ) < 2 ^ (p - 1) := by positivity
    have g : Rep p (((m - 1 : ℤ) : ℚ) * (2 : ℚ) ^ (expo h - ((p : ℤ) - 1))) :=
      ⟨m - 1, _, by rw [abs_of_nonneg (by omega)]; omega, rfl⟩
    have hn := rnd_nearest hp (f * h) g
    have gap : (2 : ℚ) ^ (expo h - ((p : ℤ) - 1)) / 2 < (2 : ℚ) ^ (-(p : ℤ)) * h := by
      have : (2 : ℚ) ^ (expo h - ((p : ℤ) - 1)) / 2 = (2 : ℚ) ^ (-(p : ℤ)) * (2 : ℚ) ^ expo h := by
        rw [← zpow_add₀ t0, show expo h - ((p : ℤ) - 1) = -p + expo h + 1 by ring, zpow_add_one₀ t0]; ring
      rw [this]
      gcongr
    have hgv : (((m - 1 : ℤ) : ℚ) * (2 : ℚ) ^ (expo h - ((p : ℤ) - 1))) = h - (2 : ℚ) ^ (expo h - ((p : ℤ) - 1)) := by
      push_cast; rw [sub_mul, ← hm, one_mul]
    rw [heq, hgv, abs_of_nonneg (by nlinarith)] at hn
    rcases le_total (h - (2 : ℚ) ^ (expo h - ((p : ℤ) - 1))) (f * h) with q | q
    · rw [abs_of_nonpos (by linarith)] at hn
      linarith
    · rw [hgv] at g
      have := rnd_le hp g q
      rw [heq] at this
      linarith

/-- The product of a factor below one and a rounded number does not exceed the number itself. -/
theorem rnd_mul_rnd_le {p : ℕ} (hp : 0 < p) {f d : ℚ} (hf : Rep p f) (h0 : 0 ≤ f) (h1 : f < 1) (hd : 0 ≤ d) :
    rnd p (f * rnd p d) ≤ d := by
  rcases hd.eq_or_lt with rfl | hd
  · simp [rnd_zero]
  have hr := rnd_pos hp hd
  have hlt := rnd_mul_lt hp hf (rep_rnd hp d) hr h1
  by_contra hc
  rw [not_le] at hc
  have := rnd_nearest hp d (rep_rnd hp (f * rnd p d))
  rw [abs_of_pos (by linarith), abs_of_pos (by linarith)] at this
  linarith

theorem rep_scale {p : ℕ} {x : ℚ} (h : Rep p x) (k : ℤ) : Rep p (x * (2 : ℚ) ^ k) := by
  obtain ⟨m, e, h1, h2⟩ := h
  exact ⟨m, e + k, h1, by rw [h2, zpow_add₀ two_ne_zero]; ring⟩

theorem rep_one {p : ℕ} (hp : 0 < p) : Rep p 1 := by simpa using rep_two hp 0

/-- More bits hold more numbers. -/
theorem rep_le {p q : ℕ} (h : p ≤ q) {x : ℚ} (hx : Rep p x) : Rep q x := by
  obtain ⟨m, e, h1, h2⟩ := hx
  exact ⟨m, e, h1.trans_le (pow_le_pow_right₀ (by norm_num) h), h2⟩

/-- Multiples of the last place of a range. -/
theorem rep_of_multiple {p : ℕ} (hp : 0 < p) {E : ℤ} {k : ℤ} (h : |(k : ℚ) * (2 : ℚ) ^ (E - p)| ≤ (2 : ℚ) ^ E) :
    Rep p (k * (2 : ℚ) ^ (E - p)) := by
  apply rep_int _ hp
  have hu : (0 : ℚ) < (2 : ℚ) ^ (E - (p : ℤ)) := by positivity
  rw [abs_mul, abs_of_pos hu] at h
  have : |(k : ℚ)| ≤ 2 ^ p := by
    rw [← mul_le_mul_iff_left₀ hu]
    refine h.trans_eq ?_
    rw [← zpow_natCast, ← zpow_add₀ two_ne_zero]; congr 1; ring
  exact_mod_cast this

end Verif.Go
