import Verif.Fp.HistModel
import Verif.Fp.Pixels
import Verif.Hist.Bins

/-!
# C131: histogram bins in machine arithmetic
-/

set_option autoImplicit false

namespace Verif.Fp

open Verif.Go Verif.Geom Verif.Render

/-! ## Specification -/

/-- A value on the axis that is divided evenly. -/
def onAxis (lg : ℚ → ℚ) (info : HistInfo64) (x : ℚ) : ℚ := if info.isLog then lg x else x

/-- Sensible histogram parameters; the logarithm is a `float64` number. -/
structure HistInfo64.Valid (lg : ℚ → ℚ) (info : HistInfo64) : Prop where
  min : F64 (onAxis lg info info.min)
  max : F64 (onAxis lg info info.max)
  lt : onAxis lg info info.min < onAxis lg info info.max
  bins : 0 < info.bins
  bins_le : info.bins ≤ 2 ^ 53

/-- The lower edge of bin `j`, with exact arithmetic. -/
def binEdge (lg : ℚ → ℚ) (info : HistInfo64) (j : ℤ) : ℚ :=
  onAxis lg info info.min + (onAxis lg info info.max - onAxis lg info info.min) * (j / info.bins)

/-- The value belongs to bin `j` widened by `slack` at both ends. -/
def NearBin (lg : ℚ → ℚ) (info : HistInfo64) (slack : ℚ) (j : ℤ) (x : ℚ) : Prop :=
  (info.isLog = true → 0 < x) ∧ binEdge lg info j - slack ≤ onAxis lg info x ∧
    onAxis lg info x < binEdge lg info (j + 1) + slack

/-- The value belongs to the range of the histogram, whose upper end is moved up by `slack`. -/
def NearRange (lg : ℚ → ℚ) (info : HistInfo64) (slack : ℚ) (x : ℚ) : Prop :=
  (info.isLog = true → 0 < x) ∧ onAxis lg info info.min ≤ onAxis lg info x ∧
    onAxis lg info x < onAxis lg info info.max + slack

open Classical in
/-- The number of flagged values with a property. -/
noncomputable def flagged (P : ℚ → Prop) (xs : List ℚ) (ok : List Bool) : ℤ :=
  ((Finset.range xs.length).filter fun i => ok.getD i false = true ∧ P (xs.getD i 0)).card

/-! ## One value -/

open Classical in
theorem flagged_mono {P Q : ℚ → Prop} (h : ∀ x, P x → Q x) (xs : List ℚ) (ok : List Bool) :
    flagged P xs ok ≤ flagged Q xs ok := by
  unfold flagged
  refine Int.ofNat_le.mpr (Finset.card_le_card ?_)
  intro i hi
  rw [Finset.mem_filter] at hi ⊢
  exact ⟨hi.1, hi.2.1, h _ hi.2.2⟩

/-- Four roundings. -/
theorem ratio_bounds : ((1 + 1 / 2 ^ 53) / (1 - 1 / 2 ^ 53) ^ 2 * (1 + 1 / 2 ^ 53) : ℚ) ≤ 1 + 1 / 2 ^ 50 ∧
    (1 - 1 / 2 ^ 50 : ℚ) ≤ (1 - 1 / 2 ^ 53) / (1 + 1 / 2 ^ 53) ^ 2 * (1 - 1 / 2 ^ 53) := by
  constructor <;> norm_num

theorem f64_between {x : ℚ} (h : 0 ≤ x) : x * (1 - 1 / 2 ^ 53) ≤ f64 x ∧ f64 x ≤ x * (1 + 1 / 2 ^ 53) := by
  have := f64_err x
  rw [abs_of_nonneg h, abs_le] at this
  constructor <;> linarith

theorem histIdx_err {lo hi v : ℚ} {n : ℕ} (hn : 0 < n) (hn' : n ≤ 2 ^ 53) (hlt : lo < hi) (hv : lo ≤ v) :
    |histIdx64 lo hi n v - (v - lo) / ((hi - lo) / n)| ≤ (v - lo) / ((hi - lo) / n) / 2 ^ 50 := by
  have en : f64 (n : ℚ) = n := by
    have := f64_of (f64_int (m := (n : ℤ)) (by rw [abs_of_nonneg (by positivity)]; exact_mod_cast hn'))
    exact_mod_cast this
  unfold histIdx64
  dsimp only
  rw [en]
  have hn0 : (0 : ℚ) < n := by exact_mod_cast hn
  have d0 : 0 < hi - lo := by linarith
  have t0 : 0 ≤ v - lo := by linarith
  generalize hi - lo = d at *
  generalize v - lo = t at *
  obtain ⟨a1, a2⟩ := f64_between d0.le
  have u1 : (0 : ℚ) < 1 - 1 / 2 ^ 53 := by norm_num
  have D0 : 0 < f64 d := lt_of_lt_of_le (mul_pos d0 u1) a1
  obtain ⟨b1, b2⟩ := f64_between (div_pos D0 hn0).le
  have w0 : 0 < d / n := div_pos d0 hn0
  have c1 : d / n * (1 - 1 / 2 ^ 53) ^ 2 ≤ f64 (f64 d / n) := by
    refine le_trans ?_ b1
    rw [show d / n * (1 - 1 / 2 ^ 53) ^ 2 = (d * (1 - 1 / 2 ^ 53)) / n * (1 - 1 / 2 ^ 53) by ring]
    gcongr
  have c2 : f64 (f64 d / n) ≤ d / n * (1 + 1 / 2 ^ 53) ^ 2 := by
    refine le_trans b2 ?_
    rw [show d / n * (1 + 1 / 2 ^ 53) ^ 2 = (d * (1 + 1 / 2 ^ 53)) / n * (1 + 1 / 2 ^ 53) by ring]
    gcongr
  obtain ⟨e1, e2⟩ := f64_between t0
  generalize f64 (f64 d / n) = dx at *
  generalize d / n = w at *
  have dx0 : 0 < dx := lt_of_lt_of_le (by positivity) c1
  have ft : 0 ≤ f64 t := f64_nonneg t0
  obtain ⟨g1, g2⟩ := f64_between (div_nonneg ft dx0.le)
  have q0 : 0 ≤ t / w := div_nonneg t0 w0.le
  have h2 : f64 t / dx ≤ t / w * ((1 + 1 / 2 ^ 53) / (1 - 1 / 2 ^ 53) ^ 2) := by
    rw [show t / w * ((1 + 1 / 2 ^ 53) / (1 - 1 / 2 ^ 53) ^ 2) = (t * (1 + 1 / 2 ^ 53)) / (w * (1 - 1 / 2 ^ 53) ^ 2) by
      rw [div_mul_div_comm]]
    gcongr
  have h1 : t / w * ((1 - 1 / 2 ^ 53) / (1 + 1 / 2 ^ 53) ^ 2) ≤ f64 t / dx := by
    rw [show t / w * ((1 - 1 / 2 ^ 53) / (1 + 1 / 2 ^ 53) ^ 2) = (t * (1 - 1 / 2 ^ 53)) / (w * (1 + 1 / 2 ^ 53) ^ 2) by
      rw [div_mul_div_comm]]
    gcongr
  obtain ⟨r1, r2⟩ := ratio_bounds
  generalize t / w = q at *
  generalize f64 t / dx = p at *
  have k2 : f64 p ≤ q * (1 + 1 / 2 ^ 50) := by
    refine g2.trans (le_trans (mul_le_mul_of_nonneg_right h2 (by norm_num)) ?_)
    rw [mul_assoc]
    exact mul_le_mul_of_nonneg_left r1 q0
  have k1 : q * (1 - 1 / 2 ^ 50) ≤ f64 p := by
    refine le_trans ?_ ((mul_le_mul_of_nonneg_right h1 (by norm_num)).trans g1)
    rw [mul_assoc]
    exact mul_le_mul_of_nonneg_left r2 q0
  rw [abs_le]
  constructor <;> linarith

theorem binWidth_pos {lo hi : ℚ} {n : ℕ} (hn : 0 < n) (hlt : lo < hi) :
    0 < f64 (f64 (hi - lo) / f64 n) := by
  have hn0 : (0 : ℚ) < n := by exact_mod_cast hn
  have a : 0 < f64 (hi - lo) := rnd_pos (by norm_num) (by linarith)
  have b : 0 < f64 (n : ℚ) := rnd_pos (by norm_num) hn0
  exact rnd_pos (by norm_num) (div_pos a b)

theorem histIdx_mono {lo hi v v' : ℚ} {n : ℕ} (hn : 0 < n) (hlt : lo < hi) (h : v ≤ v') :
    histIdx64 lo hi n v ≤ histIdx64 lo hi n v' := by
  have := binWidth_pos hn hlt
  unfold histIdx64
  dsimp only
  refine f64_mono (div_le_div_of_nonneg_right (f64_mono (by linarith)) this.le)

theorem histIdx_neg {lo hi v : ℚ} {n : ℕ} (hn : 0 < n) (hlt : lo < hi) :
    histIdx64 lo hi n v < 0 ↔ v < lo := by
  have := binWidth_pos hn hlt
  unfold histIdx64
  dsimp only
  rw [show ∀ x, f64 x = rnd 53 x from fun _ => rfl, rnd_neg_iff (by norm_num)]
  constructor
  · intro h
    by_contra hc
    exact absurd (div_nonneg (f64_nonneg (sub_nonneg.mpr (not_lt.mp hc))) this.le) (not_le.mpr h)
  · intro h
    exact div_neg_of_neg_of_pos ((rnd_neg_iff (by norm_num) _).mpr (by linarith)) this

/-- The bin of a value, when there is one, is the exact one up to a small part of the range. -/
theorem histIdx_bin {lo hi v : ℚ} {n : ℕ} {j : ℤ} (hn : 0 < n) (hn' : n ≤ 2 ^ 53) (hlt : lo < hi) (h0 : 0 ≤ j) (h1 : j < n) :
    (⌊histIdx64 lo hi n v⌋ = j → lo + (hi - lo) * (j / n) - (hi - lo) / 2 ^ 49 ≤ v ∧
      v < lo + (hi - lo) * ((j + 1) / n) + (hi - lo) / 2 ^ 49) ∧
    (lo + (hi - lo) * (j / n) + (hi - lo) / 2 ^ 49 ≤ v → v < lo + (hi - lo) * ((j + 1) / n) - (hi - lo) / 2 ^ 49 →
      ⌊histIdx64 lo hi n v⌋ = j) := by
  have hn0 : (0 : ℚ) < n := by exact_mod_cast hn
  have d0 : 0 < hi - lo := by linarith
  have j0 : (0 : ℚ) ≤ j := by exact_mod_cast h0
  have j1 : (j : ℚ) + 1 ≤ n := by exact_mod_cast h1
  have key : ∀ q : ℚ, lo + (hi - lo) * (q / n) = lo + q * ((hi - lo) / n) := by intro q; ring
  have w0 : 0 < (hi - lo) / n := div_pos d0 hn0
  have hw : ∀ k : ℚ, (hi - lo) / k = n * ((hi - lo) / n) / k := by intro k; field_simp
  have hq : lo ≤ v → v = lo + (v - lo) / ((hi - lo) / n) * ((hi - lo) / n) := by
    intro _
    rw [div_mul_cancel₀ _ w0.ne']; ring
  constructor
  · intro h
    have hp0 : 0 ≤ histIdx64 lo hi n v := by
      have := Int.floor_le (histIdx64 lo hi n v)
      rw [h] at this; linarith
    have hv : lo ≤ v := by
      by_contra hc
      exact absurd ((histIdx_neg hn hlt).mpr (not_le.mp hc)) (not_lt.mpr hp0)
    have he := histIdx_err hn hn' hlt hv
    rw [Int.floor_eq_iff] at h
    have hvq := hq hv
    have q0 : 0 ≤ (v - lo) / ((hi - lo) / n) := div_nonneg (by linarith) w0.le
    rw [key, key, hw (2 ^ 49), hvq]
    generalize (v - lo) / ((hi - lo) / n) = q at *
    generalize histIdx64 lo hi n v = p at *
    rw [abs_le] at he
    have hlo : (j : ℚ) - n / 2 ^ 49 ≤ q := by linarith
    have hhi : q < j + 1 + n / 2 ^ 49 := by linarith
    have a := mul_le_mul_of_nonneg_right hlo w0.le
    have b := mul_lt_mul_of_pos_right hhi w0
    constructor <;> linarith
  · intro g1 g2
    have hpos : 0 ≤ (hi - lo) * ((j : ℚ) / n) := by positivity
    have hv : lo ≤ v := by
      have : 0 < (hi - lo) / 2 ^ 49 := by positivity
      linarith
    have he := histIdx_err hn hn' hlt hv
    have hvq := hq hv
    have q0 : 0 ≤ (v - lo) / ((hi - lo) / n) := div_nonneg (by linarith) w0.le
    rw [key, hw (2 ^ 49), hvq] at g1 g2
    generalize (v - lo) / ((hi - lo) / n) = q at *
    generalize histIdx64 lo hi n v = p at *
    generalize (hi - lo) / n = w at *
    rw [abs_le] at he
    have a : (j : ℚ) + n / 2 ^ 49 ≤ q := by
      refine le_of_mul_le_mul_right ?_ w0
      linarith
    have b : q < j + 1 - n / 2 ^ 49 := by
      refine lt_of_mul_lt_mul_right ?_ w0.le
      linarith
    rw [Int.floor_eq_iff]
    constructor <;> linarith

/-! ## Lists of values -/

/-- The value is counted in bin `j`. -/
def Landed (lg : ℚ → ℚ) (info : HistInfo64) (j : ℤ) (x : ℚ) : Prop :=
  (info.isLog = true → 0 < x) ∧
    ⌊histIdx64 (onAxis lg info info.min) (onAxis lg info info.max) info.bins (onAxis lg info x)⌋ = j

open Classical in
/-- One for a flagged value counted in bin `j`, else zero. -/
noncomputable def landed (lg : ℚ → ℚ) (info : HistInfo64) (j : ℤ) (x : ℚ) (ok : Bool) : ℤ :=
  if ok = true ∧ Landed lg info j x then 1 else 0

open Classical in
theorem histogram64_adds {lg : ℚ → ℚ} {info : HistInfo64} (hi : info.Valid lg) {xs : List ℚ} {ok : List Bool}
    (hlen : xs.length ≤ ok.length)
    (hneg : info.isLog = true → ∀ i < xs.length, ok.getD i false = true → 0 ≤ xs.getD i 0) :
    Adds info.bins (histogram64 lg info xs ok) (fun j => flagged (Landed lg info j) xs ok) := by
  have hb : (0 : ℚ) < info.bins := by exact_mod_cast hi.bins
  have en : f64 (info.bins : ℚ) = info.bins := by
    have := f64_of (f64_int (m := (info.bins : ℤ)) (by rw [abs_of_nonneg (by positivity)]; exact_mod_cast hi.bins_le))
    exact_mod_cast this
  have rok : ∀ i : ℕ, i < xs.length → rd ok (i : ℤ) = some (ok.getD i false) := by
    intro i h
    rw [rd_natCast, List.getD, List.getElem?_eq_getElem (by omega)]
    rfl
  have rxs : ∀ i : ℕ, i < xs.length → rd xs (i : ℤ) = some (xs.getD i 0) := by
    intro i h
    rw [rd_natCast, List.getD, List.getElem?_eq_getElem h]
    rfl
  have hsum : ∀ j : ℤ, ∑ i ∈ Finset.Ico (0 : ℤ) xs.length,
      landed lg info j (xs.getD i.toNat 0) (ok.getD i.toNat false) =
      flagged (Landed lg info j) xs ok := by
    intro j
    unfold flagged
    rw [Finset.card_filter]
    push_cast
    refine Finset.sum_bij (fun i _ => i.toNat) ?_ ?_ ?_ ?_
    · intro a ha
      rw [Finset.mem_Ico] at ha
      rw [Finset.mem_range]; omega
    · intro a ha b hb e
      rw [Finset.mem_Ico] at ha hb
      omega
    · intro a ha
      rw [Finset.mem_range] at ha
      exact ⟨a, by rw [Finset.mem_Ico]; omega, by simp⟩
    · intro a _; rfl
  have one : ∀ p : ℚ,
      Adds (M := ℤ) info.bins
        (fun counts => if p < 0 ∨ p ≥ info.bins then some counts else accum counts (trunc p) 1)
        (fun j => if ⌊p⌋ = j then 1 else 0) := by
    intro p
    by_cases h : p < 0 ∨ p ≥ info.bins
    · simp only [if_pos h]
      refine adds_congr (adds_skip _) fun j h0 h1 => ?_
      rw [if_neg]
      intro e
      rcases h with h | h
      · have : ⌊p⌋ < 0 := Int.floor_lt.mpr (by simpa using h)
        omega
      · have : (info.bins : ℤ) ≤ ⌊p⌋ := Int.le_floor.mpr (by push_cast; exact h)
        omega
    · simp only [if_neg h]
      push Not at h
      rw [trunc_of_nonneg h.1]
      refine adds_congr (adds_accum (Int.floor_nonneg.mpr h.1) (Int.floor_lt.mpr (by push_cast; exact h.2)) 1) ?_
      intro j _ _
      simp only [eq_comm]
  by_cases hl : info.isLog = true
  · unfold histogram64
    simp only [if_pos hl, en]
    refine adds_congr (adds_forRange (G := fun i j =>
      landed lg info j (xs.getD i.toNat 0) (ok.getD i.toNat false)) ?_)
      (fun j _ _ => hsum j)
    intro k h0 h1
    obtain ⟨i, rfl⟩ := Int.eq_ofNat_of_zero_le h0
    have hi' : i < xs.length := by omega
    rw [rok i hi', rxs i hi']
    simp only [Option.bind_eq_bind, Option.bind_some, Int.toNat_natCast]
    by_cases ho : ok.getD i false = false
    · simp only [if_pos ho]
      exact adds_congr (adds_skip _) fun j _ _ => by rw [ho]; simp [landed]
    · simp only [if_neg ho]
      rw [Bool.not_eq_false] at ho
      have hn := hneg hl i hi' ho
      generalize xs.getD i 0 = x at *
      simp only [if_neg (not_lt.mpr hn), ho, true_and, landed]
      by_cases hx0 : x = 0
      · simp only [if_pos hx0]
        refine adds_congr (adds_skip _) fun j _ _ => ?_
        rw [if_neg]
        rintro ⟨h, _⟩
        have := h hl
        linarith
      · simp only [if_neg hx0]
        have hx : 0 < x := lt_of_le_of_ne hn (Ne.symm hx0)
        refine adds_congr (one _) fun j _ _ => ?_
        simp only [Landed, onAxis, if_pos hl, hx, implies_true, true_and]
  · unfold histogram64
    simp only [if_neg hl, en]
    refine adds_congr (adds_forRange (G := fun i j =>
      landed lg info j (xs.getD i.toNat 0) (ok.getD i.toNat false)) ?_)
      (fun j _ _ => hsum j)
    intro k h0 h1
    obtain ⟨i, rfl⟩ := Int.eq_ofNat_of_zero_le h0
    have hi' : i < xs.length := by omega
    rw [rok i hi', rxs i hi']
    simp only [Option.bind_eq_bind, Option.bind_some, Int.toNat_natCast]
    by_cases ho : ok.getD i false = false
    · simp only [if_pos ho]
      exact adds_congr (adds_skip _) fun j _ _ => by rw [ho]; simp [landed]
    · simp only [if_neg ho]
      rw [Bool.not_eq_false] at ho
      generalize xs.getD i 0 = x at *
      simp only [ho, true_and, landed]
      refine adds_congr (one _) fun j _ _ => ?_
      simp only [Landed, onAxis, if_neg hl]
      simp [hl]

open Classical in
theorem flagged_sum {lg : ℚ → ℚ} {info : HistInfo64} (xs : List ℚ) (ok : List Bool) :
    ∑ j ∈ Finset.Ico (0 : ℤ) info.bins, flagged (Landed lg info j) xs ok =
      flagged (fun x => ∃ j : ℤ, (0 ≤ j ∧ j < info.bins) ∧ Landed lg info j x) xs ok := by
  unfold flagged
  rw [← Nat.cast_sum]
  congr 1
  rw [← Finset.card_biUnion]
  · congr 1
    ext i
    simp only [Finset.mem_biUnion, Finset.mem_filter, Finset.mem_Ico]
    constructor
    · rintro ⟨j, hj, h1, h2, h3⟩
      exact ⟨h1, h2, j, hj, h3⟩
    · rintro ⟨h1, h2, j, hj, h3⟩
      exact ⟨j, hj, h1, h2, h3⟩
  · intro a _ b _ hab
    rw [Function.onFun, Finset.disjoint_left]
    intro i h1 h2
    rw [Finset.mem_filter] at h1 h2
    exact hab (h1.2.2.2.symm.trans h2.2.2.2)

/-- **C131**: a histogram of `float64` values. The program never stops; the count of a bin grows by the number of flagged
values in it, where values nearer to an edge than a `2⁻⁴⁹`th of the range may go to either side; and the sum of the
counts grows by the number of flagged values in the range, with the same proviso for its upper end only. With logarithmic
scale this holds of the computed logarithms, and no flagged value may be negative. The wanted statement has no slack. -/
theorem C131_partial {lg : ℚ → ℚ} {info : HistInfo64} (hi : info.Valid lg) {xs : List ℚ} {ok : List Bool} {counts : List ℤ}
    (hlen : xs.length ≤ ok.length) (hc : counts.length = info.bins)
    (hneg : info.isLog = true → ∀ i < xs.length, ok.getD i false = true → 0 ≤ xs.getD i 0) :
    let slack := (onAxis lg info info.max - onAxis lg info info.min) / 2 ^ 49
    ∃ out, histogram64 lg info xs ok counts = some out ∧ out.length = info.bins ∧
      (∀ (j : ℤ) (v : ℤ), 0 ≤ j → j < info.bins → rd counts j = some v → ∃ k, rd out j = some (v + k) ∧
        flagged (NearBin lg info (-slack) j) xs ok ≤ k ∧ k ≤ flagged (NearBin lg info slack j) xs ok) ∧
      flagged (NearRange lg info (-slack)) xs ok ≤ out.sum - counts.sum ∧
      out.sum - counts.sum ≤ flagged (NearRange lg info slack) xs ok := by
  intro slack
  have ha := histogram64_adds hi hlen hneg
  obtain ⟨ys, e, hl, hy⟩ := ha.run counts (by exact_mod_cast hc)
  have hs := ha.sum (by exact_mod_cast hc) e
  rw [flagged_sum] at hs
  have hb := fun (j : ℤ) (x : ℚ) => histIdx_bin (v := onAxis lg info x) (j := j) hi.bins hi.bins_le hi.lt
  have hsl : slack = (onAxis lg info info.max - onAxis lg info info.min) / 2 ^ 49 := rfl
  have hb0 : (0 : ℚ) < info.bins := by exact_mod_cast hi.bins
  refine ⟨ys, e, by omega, ?_, ?_, ?_⟩
  · intro j v h0 h1 hv
    refine ⟨_, hy j v h0 h1 hv, flagged_mono ?_ _ _, flagged_mono ?_ _ _⟩
    · rintro x ⟨hx, g1, g2⟩
      refine ⟨hx, (hb j x h0 h1).2 ?_ ?_⟩
      · unfold binEdge at g1; rw [hsl] at g1; linarith
      · unfold binEdge at g2; rw [hsl] at g2; push_cast at g2; linarith
    · rintro x ⟨hx, g⟩
      obtain ⟨g1, g2⟩ := (hb j x h0 h1).1 g
      refine ⟨hx, ?_, ?_⟩
      · unfold binEdge; rw [hsl]; exact g1
      · unfold binEdge; rw [hsl]; push_cast; exact g2
  · rw [hs, add_sub_cancel_left]
    refine flagged_mono ?_ _ _
    rintro x ⟨hx, g1, g2⟩
    have he := histIdx_err hi.bins hi.bins_le hi.lt g1
    have h0 : 0 ≤ histIdx64 (onAxis lg info info.min) (onAxis lg info info.max) info.bins (onAxis lg info x) := by
      rw [← not_lt, histIdx_neg hi.bins hi.lt]
      exact not_lt.mpr g1
    refine ⟨_, ⟨Int.floor_nonneg.mpr h0, ?_⟩, hx, rfl⟩
    rw [Int.floor_lt]
    push_cast
    have hlt := hi.lt
    generalize onAxis lg info info.min = lo at *
    generalize onAxis lg info info.max = up at *
    generalize onAxis lg info x = y at *
    have hq : (y - lo) / ((up - lo) / info.bins) ≤ info.bins * (1 - 1 / 2 ^ 49) := by
      rw [div_le_iff₀ (div_pos (by linarith) hb0)]
      rw [show info.bins * (1 - 1 / 2 ^ 49) * ((up - lo) / info.bins) = (up - lo) * (1 - 1 / 2 ^ 49) by field_simp]
      linarith
    rw [abs_le] at he
    linarith
  · rw [hs, add_sub_cancel_left]
    refine flagged_mono ?_ _ _
    rintro x ⟨j, ⟨h0, h1⟩, hx, g⟩
    obtain ⟨-, g2⟩ := (hb j x h0 h1).1 g
    refine ⟨hx, ?_, ?_⟩
    · by_contra hcon
      have := (histIdx_neg hi.bins hi.lt).mpr (not_le.mp hcon)
      have : ⌊histIdx64 (onAxis lg info info.min) (onAxis lg info info.max) info.bins (onAxis lg info x)⌋ < 0 :=
        Int.floor_lt.mpr (by simpa using this)
      omega
    · refine g2.trans_le ?_
      have : ((j : ℚ) + 1) / info.bins ≤ 1 := by
        rw [div_le_one hb0]; exact_mod_cast h1
      have hlt := sub_pos.mpr hi.lt
      have := mul_le_mul_of_nonneg_left this hlt.le
      rw [hsl]
      linarith

theorem valid_linear {lg : ℚ → ℚ} {mn mx : ℚ} {n : ℕ} (h1 : F64 mn) (h2 : F64 mx) (h3 : mn < mx) (h4 : 0 < n)
    (h5 : n ≤ 2 ^ 53) : HistInfo64.Valid lg ⟨mn, mx, n, false⟩ := ⟨h1, h2, h3, h4, h5⟩

/-- Ten bins between zero and one. -/
example : ∃ out, histogram64 id ⟨0, 1, 10, false⟩ [1 / 4, 3, f64 (3 / 10), 1 / 4] [true, true, true, false]
    (List.replicate 10 0) = some out ∧ out.length = 10 :=
  let ⟨o, h, l, _⟩ := C131_partial (lg := id) (info := ⟨0, 1, 10, false⟩) (counts := List.replicate 10 0)
    (xs := [1 / 4, 3, f64 (3 / 10), 1 / 4]) (ok := [true, true, true, false])
    (valid_linear (rep_zero _) (rep_one (by norm_num)) (by norm_num) (by norm_num) (by norm_num)) (by simp) (by simp)
    (fun h => absurd h (by decide))
  ⟨o, h, l⟩

example : histogram64 id ⟨0, 1, 10, false⟩ [1 / 4, 3, f64 (3 / 10), 1 / 4] [true, true, true, false]
    (List.replicate 10 0) = some [0, 0, 2, 0, 0, 0, 0, 0, 0, 0] := by decide +kernel

/-- Logarithmic scale, with a function that has the right value at powers of ten. -/
example : let lg : ℚ → ℚ := fun x => if x < 10 then 0 else if x < 100 then 1 else 2
    HistInfo64.Valid lg ⟨1, 100, 2, true⟩ ∧
      histogram64 lg ⟨1, 100, 2, true⟩ [0, 5, 50, 60, 500] [true, true, true, true, true] [0, 0] = some [1, 2] := by
  intro lg
  refine ⟨⟨?_, ?_, ?_, by norm_num, by norm_num⟩, by decide +kernel⟩
  · have : onAxis lg ⟨1, 100, 2, true⟩ 1 = 0 := by decide +kernel
    show F64 (onAxis lg ⟨1, 100, 2, true⟩ 1)
    rw [this]; exact rep_zero _
  · have : onAxis lg ⟨1, 100, 2, true⟩ 100 = 2 := by decide +kernel
    show F64 (onAxis lg ⟨1, 100, 2, true⟩ 100)
    rw [this]; exact f64_int (m := 2) (by norm_num)
  · decide +kernel

/-- **C131**: larger values are never counted in lower bins. -/
theorem C131_monotone {lg : ℚ → ℚ} {info : HistInfo64} (hi : info.Valid lg) {x y : ℚ} {i j : ℤ}
    (h : onAxis lg info x ≤ onAxis lg info y) (hx : Landed lg info i x) (hy : Landed lg info j y) : i ≤ j := by
  rw [← hx.2, ← hy.2]
  exact Int.floor_le_floor (histIdx_mono hi.bins hi.lt h)

example : ∃ i j : ℤ, Landed id ⟨0, 1, 10, false⟩ i (1 / 4) ∧ Landed id ⟨0, 1, 10, false⟩ j (3 / 4) ∧ i < j := by
  refine ⟨2, 7, ⟨fun h => absurd h (by decide), by decide +kernel⟩, ⟨fun h => absurd h (by decide), by decide +kernel⟩,
    by norm_num⟩

theorem histogram64_linear (lg : ℚ → ℚ) {info : HistInfo64} (h : info.isLog = false) (xs : List ℚ) (ok : List Bool)
    (counts : List ℤ) : histogram64 lg info xs ok counts = histogram64 id info xs ok counts := by
  unfold histogram64
  simp only [h, Bool.false_eq_true, if_false]

/-- **C131**: exact bins are not reproduced. With 93 bins between zero and one, the value one is counted, in the last bin;
with three bins, the largest number below one is not counted. -/
theorem C131_counterexample :
    (∀ lg, ∃ out, histogram64 lg ⟨0, 1, 93, false⟩ [1] [true] (List.replicate 93 0) = some out ∧ rd out 92 = some 1) ∧
    F64 (1 - 1 / 2 ^ 53) ∧
    (∀ lg, histogram64 lg ⟨0, 1, 3, false⟩ [1 - 1 / 2 ^ 53] [true] [0, 0, 0] = some [0, 0, 0]) := by
  refine ⟨fun lg => ⟨List.replicate 92 0 ++ [1], ?_, by decide +kernel⟩, ⟨2 ^ 53 - 1, -53, by norm_num, by norm_num⟩,
    fun lg => ?_⟩
  · rw [histogram64_linear lg rfl]
    decide +kernel
  · rw [histogram64_linear lg rfl]
    decide +kernel

/-! ## Centres -/

theorem center_err {fused : Bool} {lo hi M : ℚ} {n j : ℕ} (hn : 0 < n) (hn' : n ≤ 2 ^ 52) (hlt : lo < hi) (hj : j < n)
    (hlo : |lo| ≤ M) (hhi : |hi| ≤ M) :
    |mulAdd fused 53 (f64 (f64 (hi - lo) / f64 n)) (f64 (f64 j + 1 / 2)) lo - (lo + (hi - lo) / n * (j + 1 / 2))| ≤
      M / 2 ^ 49 := by
  have en : ∀ k : ℕ, k ≤ 2 ^ 52 → f64 (k : ℚ) = k := by
    intro k hk
    have := f64_of (f64_int (m := (k : ℤ)) (by
      rw [abs_of_nonneg (by positivity)]
      exact_mod_cast hk.trans (by norm_num : 2 ^ 52 ≤ 2 ^ 53)))
    exact_mod_cast this
  have eh : f64 ((j : ℚ) + 1 / 2) = j + 1 / 2 := by
    refine f64_of ⟨2 * j + 1, -1, ?_, ?_⟩
    · rw [abs_of_nonneg (by positivity)]
      have : j + 1 ≤ 2 ^ 52 := by omega
      have : (2 * (j : ℤ) + 1) < 2 ^ 53 := by omega
      exact_mod_cast this
    · push_cast
      norm_num
      ring
  rw [en n hn', en j (by omega), eh]
  have hn0 : (0 : ℚ) < n := by exact_mod_cast hn
  have d0 : 0 < hi - lo := by linarith
  obtain ⟨l1, l2⟩ := abs_le.mp hlo
  obtain ⟨m1, m2⟩ := abs_le.mp hhi
  have u1 : (0 : ℚ) < 1 - 1 / 2 ^ 53 := by norm_num
  obtain ⟨a1, a2⟩ := f64_between d0.le
  have D0 : 0 < f64 (hi - lo) := lt_of_lt_of_le (mul_pos d0 u1) a1
  obtain ⟨b1, b2⟩ := f64_between (div_pos D0 hn0).le
  have c1 : (hi - lo) / n * (1 - 1 / 2 ^ 53) ^ 2 ≤ f64 (f64 (hi - lo) / n) := by
    refine le_trans ?_ b1
    rw [show (hi - lo) / n * (1 - 1 / 2 ^ 53) ^ 2 = ((hi - lo) * (1 - 1 / 2 ^ 53)) / n * (1 - 1 / 2 ^ 53) by ring]
    gcongr
  have c2 : f64 (f64 (hi - lo) / n) ≤ (hi - lo) / n * (1 + 1 / 2 ^ 53) ^ 2 := by
    refine le_trans b2 ?_
    rw [show (hi - lo) / n * (1 + 1 / 2 ^ 53) ^ 2 = ((hi - lo) * (1 + 1 / 2 ^ 53)) / n * (1 + 1 / 2 ^ 53) by ring]
    gcongr
  have hj0 : (0 : ℚ) ≤ j + 1 / 2 := by positivity
  have hjn : (j : ℚ) + 1 / 2 ≤ n := by
    have : (j : ℚ) + 1 ≤ n := by exact_mod_cast hj
    linarith
  have p1 := mul_le_mul_of_nonneg_right c1 hj0
  have p2 := mul_le_mul_of_nonneg_right c2 hj0
  have pd : (hi - lo) / n * ((j : ℚ) + 1 / 2) ≤ hi - lo := by
    rw [div_mul_eq_mul_div, div_le_iff₀ hn0]
    exact mul_le_mul_of_nonneg_left hjn d0.le
  have p0 : 0 ≤ (hi - lo) / n * ((j : ℚ) + 1 / 2) := by positivity
  rw [show (hi - lo) / n * (1 - 1 / 2 ^ 53) ^ 2 * ((j : ℚ) + 1 / 2) =
    (hi - lo) / n * ((j : ℚ) + 1 / 2) * (1 - 1 / 2 ^ 53) ^ 2 by ring] at p1
  rw [show (hi - lo) / n * (1 + 1 / 2 ^ 53) ^ 2 * ((j : ℚ) + 1 / 2) =
    (hi - lo) / n * ((j : ℚ) + 1 / 2) * (1 + 1 / 2 ^ 53) ^ 2 by ring] at p2
  obtain ⟨g, hg⟩ : ∃ g, g = f64 (f64 (hi - lo) / n) * ((j : ℚ) + 1 / 2) := ⟨_, rfl⟩
  rw [← hg] at p1 p2
  generalize (hi - lo) / n * ((j : ℚ) + 1 / 2) = t at *
  have g0 : 0 ≤ g := le_trans (by positivity) p1
  obtain ⟨r1, r2⟩ := f64_between g0
  unfold mulAdd
  rw [← hg]
  have fin : ∀ s : ℚ, t * (1 - 1 / 2 ^ 53) ^ 3 ≤ s → s ≤ t * (1 + 1 / 2 ^ 53) ^ 3 →
      |f64 (s + lo) - (lo + t)| ≤ M / 2 ^ 49 := by
    intro s s1 s2
    have e := f64_err (s + lo)
    have k1 : t - t / 2 ^ 51 ≤ s := by
      refine le_trans ?_ s1
      have : (1 - 1 / 2 ^ 51 : ℚ) ≤ (1 - 1 / 2 ^ 53) ^ 3 := by norm_num
      have := mul_le_mul_of_nonneg_left this p0
      linarith
    have k2 : s ≤ t + t / 2 ^ 51 := by
      refine s2.trans ?_
      have : (1 + 1 / 2 ^ 53) ^ 3 ≤ (1 + 1 / 2 ^ 51 : ℚ) := by norm_num
      have := mul_le_mul_of_nonneg_left this p0
      linarith
    have hs : |s + lo| ≤ 2 * M := by
      rw [abs_le]
      constructor <;> linarith
    rw [abs_le] at e ⊢
    constructor <;> linarith
  split_ifs
  · refine fin g (le_trans ?_ p1) (p2.trans ?_)
    · refine mul_le_mul_of_nonneg_left (by norm_num) p0
    · refine mul_le_mul_of_nonneg_left (by norm_num) p0
  · refine fin (f64 g) ?_ ?_
    · refine le_trans ?_ r1
      rw [pow_succ _ 2, ← mul_assoc]
      exact mul_le_mul_of_nonneg_right p1 (by norm_num)
    · refine r2.trans ?_
      rw [pow_succ _ 2, ← mul_assoc]
      exact mul_le_mul_of_nonneg_right p2 (by norm_num)

/-- **C131**: the centres written beside the counts. When the bins are wide compared with the resolution of the largest
value, the centre of a bin is the middle of the bin up to a quarter of a bin, and a value equal to it is counted in that
bin. The wanted statement has no condition on the widths. -/
theorem C131_centers_partial (fused : Bool) {info : HistInfo64} (hlin : info.isLog = false) (hb : 0 < info.bins)
    (hlt : info.min < info.max) (h1 : info.bins * |info.min| ≤ 2 ^ 46 * (info.max - info.min))
    (h2 : info.bins * |info.max| ≤ 2 ^ 46 * (info.max - info.min)) (j : ℕ) (hj : j < info.bins) :
    ∃ c, (histCenters64 fused info)[j]? = some c ∧
      |c - (info.min + (info.max - info.min) / info.bins * (j + 1 / 2))| ≤ max |info.min| |info.max| / 2 ^ 49 ∧
      max |info.min| |info.max| / 2 ^ 49 ≤ (info.max - info.min) / info.bins / 4 ∧
      ∀ lg, Landed lg info j c ∧ NearBin lg info 0 j c := by
  have hb0 : (0 : ℚ) < info.bins := by exact_mod_cast hb
  have d0 : 0 < info.max - info.min := by linarith
  obtain ⟨M, hM⟩ : ∃ M, M = max |info.min| |info.max| := ⟨_, rfl⟩
  have l1 : |info.min| ≤ M := hM ▸ le_max_left _ _
  have l2 : |info.max| ≤ M := hM ▸ le_max_right _ _
  have hbM : info.bins * M ≤ 2 ^ 46 * (info.max - info.min) := by
    rw [hM]
    rcases max_choice |info.min| |info.max| with h | h <;> rw [h]
    · exact h1
    · exact h2
  obtain ⟨a1, a2⟩ := abs_le.mp l1
  obtain ⟨b1, b2⟩ := abs_le.mp l2
  have M0 : 0 < M := by linarith
  have hn : info.bins ≤ 2 ^ 47 := by
    have : (info.bins : ℚ) * M ≤ 2 ^ 47 * M := by linarith
    have := le_of_mul_le_mul_right this M0
    exact_mod_cast this
  have hnq : (info.bins : ℚ) ≤ 2 ^ 47 := by exact_mod_cast hn
  have hw : (info.max - info.min) = info.bins * ((info.max - info.min) / info.bins) := by field_simp
  have w0 : 0 < (info.max - info.min) / info.bins := div_pos d0 hb0
  have hMw : M / 2 ^ 49 ≤ (info.max - info.min) / info.bins / 8 := by
    rw [div_div, le_div_iff₀ (by positivity)]
    linarith
  have hdw : (info.max - info.min) / 2 ^ 49 ≤ (info.max - info.min) / info.bins / 4 := by
    rw [div_div]
    refine div_le_div_of_nonneg_left d0.le (by positivity) ?_
    linarith
  have he := center_err (fused := fused) hb (hn.trans (by norm_num)) hlt hj l1 l2
  refine ⟨_, ?_, hM ▸ he, hM ▸ (by linarith), fun lg => ?_⟩
  · unfold histCenters64
    rw [List.getElem?_map, List.getElem?_range hj]
    rfl
  · generalize mulAdd fused 53 (f64 (f64 (info.max - info.min) / f64 info.bins)) (f64 (f64 j + 1 / 2)) info.min = c at *
    have ax : ∀ x, onAxis lg info x = x := fun x => if_neg (by rw [hlin]; decide)
    have hjq : ((j : ℤ) : ℚ) = j := by push_cast; rfl
    rw [abs_le] at he
    have e1 : (info.max - info.min) * ((j : ℚ) / info.bins) = (info.max - info.min) / info.bins * j := by ring
    have e2 : (info.max - info.min) * (((j : ℚ) + 1) / info.bins) = (info.max - info.min) / info.bins * (j + 1) := by ring
    refine ⟨⟨fun h => absurd h (by rw [hlin]; decide), ?_⟩, fun h => absurd h (by rw [hlin]; decide), ?_, ?_⟩
    · rw [ax, ax, ax]
      refine (histIdx_bin hb (hn.trans (by norm_num)) hlt (by positivity) (by exact_mod_cast hj)).2 ?_ ?_
      · rw [hjq, e1]; linarith
      · rw [hjq, e2]; linarith
    · unfold binEdge
      rw [ax, ax, ax, hjq, e1]; linarith
    · unfold binEdge
      rw [ax, ax, ax]
      push_cast
      rw [e2]; linarith

example : ∀ j : ℕ, j < 40 → ∃ c, (histCenters64 true ⟨-100, 1000, 40, false⟩)[j]? = some c ∧
    ∀ lg, Landed lg ⟨-100, 1000, 40, false⟩ j c := fun j hj =>
  let ⟨c, h, _, _, h'⟩ := C131_centers_partial true (info := ⟨-100, 1000, 40, false⟩) rfl (by norm_num) (by norm_num)
    (by norm_num) (by norm_num) j hj
  ⟨c, h, fun lg => (h' lg).1⟩

/-- **C131**: without the condition the centre of the last bin can be the upper end of the range, which is not counted. -/
theorem C131_centers_counterexample (fused : Bool) :
    histCenters64 fused ⟨2 ^ 53, 2 ^ 53 + 2, 2, false⟩ = [2 ^ 53, 2 ^ 53 + 2] ∧
    ∀ lg, histogram64 lg ⟨2 ^ 53, 2 ^ 53 + 2, 2, false⟩ [2 ^ 53, 2 ^ 53 + 2] [true, true] [0, 0] = some [1, 0] := by
  refine ⟨by cases fused <;> decide +kernel, fun lg => ?_⟩
  rw [histogram64_linear lg rfl]
  decide +kernel

end Verif.Fp
