import Verif.Fp.Hist

/-!
# C132: density lookup in machine arithmetic
-/

set_option autoImplicit false

namespace Verif.Fp

open Verif.Go Verif.Geom Verif.Render Verif.Hist

theorem floor_near {x y e : ℚ} (h : |x - y| ≤ e) (o1 : e < |y - ⌊y⌋|) (o2 : e < |y - ((⌊y⌋ + 1 : ℤ) : ℚ)|) : ⌊x⌋ = ⌊y⌋ := by
  obtain ⟨h1, h2⟩ := abs_le.mp h
  have a := Int.floor_le y
  have b := Int.lt_floor_add_one y
  rw [abs_of_nonneg (by linarith)] at o1
  rw [abs_sub_comm, abs_of_nonneg (by push_cast; linarith)] at o2
  push_cast at o2
  rw [Int.floor_eq_iff]
  constructor <;> linarith

/-- The edges of an image in machine arithmetic. -/
theorem loc_err {c : ℤ} {pw X : ℚ} (hc0 : 0 ≤ c) (hc : c ≤ 2 ^ 53) (hpw : 0 < pw) (h : c * pw ≤ X) :
    |locAxis64 c pw - c * pw| ≤ X / 2 ^ 53 ∧ 0 ≤ locAxis64 c pw := by
  have hq : (0 : ℚ) ≤ c := by exact_mod_cast hc0
  unfold locAxis64
  rw [f64_of (f64_int (by rw [abs_of_nonneg hc0]; exact hc))]
  refine ⟨(f64_err _).trans ?_, f64_nonneg (by positivity)⟩
  rw [abs_of_nonneg (by positivity)]
  gcongr

/-- What the lookup computes along one axis: the distance from the lower edge of the image modulo the width of the box, up
to four roundings. -/
theorem delta_spec {L org v A : ℚ} (hL : 0 < L) (hLr : F64 L) (ho0 : 0 ≤ org) (ho1 : org ≤ L) (hv0 : 0 ≤ v)
    (hv1 : v ≤ L) (hA : |org - A| ≤ L / 2 ^ 53) :
    ∃ d1 : ℚ, (if f64 (v - org) < 0 then f64 (f64 (v - org) + L) else f64 (v - org)) = d1 ∧ 0 ≤ d1 ∧ d1 ≤ L ∧
      |d1 - (if f64 (v - org) < 0 then v - A + L else v - A)| ≤ 3 * L / 2 ^ 53 := by
  have e0 := f64_err (v - org)
  have b0 : -L ≤ f64 (v - org) := le_f64 (rep_neg hLr) (by linarith)
  have b1 : f64 (v - org) ≤ L := f64_le hLr (by linarith)
  have a0 : |v - org| ≤ L := by rw [abs_le]; constructor <;> linarith
  rw [abs_le] at hA e0
  by_cases h : f64 (v - org) < 0
  · refine ⟨_, rfl, ?_, ?_, ?_⟩
    · rw [if_pos h]; exact f64_nonneg (by linarith)
    · rw [if_pos h]; exact f64_le hLr (by linarith)
    · rw [if_pos h, if_pos h]
      have e1 := f64_err (f64 (v - org) + L)
      have a1 : |f64 (v - org) + L| ≤ L := by rw [abs_le]; constructor <;> linarith
      rw [abs_le] at e1 ⊢
      constructor <;> linarith
  · refine ⟨_, rfl, ?_, ?_, ?_⟩
    · rw [if_neg h]; exact not_lt.mp h
    · rw [if_neg h]; exact b1
    · rw [if_neg h, if_neg h, abs_le]
      constructor <;> linarith

/-- **C132**: lookup along one axis, for every position in the box. A pixel is found only if it contains the position up to
a `2⁻⁵⁰`th of the box; positions in the image are found unless they are that near to its edges; and positions that are not
near to a face of a pixel get exactly the pixel that contains them. The index can be one too large, see
`C132_counterexample`. -/
theorem C132_axis_partial {L pw v : ℚ} {o n : ℤ} (hL : 0 < L) (hLr : F64 L) (hpw : 0 < pw) (ho0 : 0 ≤ o) (ho : o ≤ 2 ^ 53)
    (ho1 : o * pw ≤ L) (hn0 : 0 ≤ n) (hn : n ≤ 2 ^ 53) (hn1 : n * pw ≤ 3 * L) (hv0 : 0 ≤ v) (hv1 : v ≤ L) :
    let r := gridAxis64 L (locAxis64 o pw) (locAxis64 n pw) pw v
    (∀ i, r = some i → (0 ≤ i ∧ i ≤ n) ∧
      ∃ m : ℤ, o * pw + i * pw - L / 2 ^ 50 ≤ v + m * L ∧ v + m * L < o * pw + (i + 1) * pw + L / 2 ^ 50) ∧
    (r = none → ∀ m : ℤ, ¬ (o * pw + L / 2 ^ 50 ≤ v + m * L ∧ v + m * L < o * pw + n * pw - L / 2 ^ 50)) ∧
    ((∀ m z : ℤ, |m| ≤ 1 → 0 ≤ z → z ≤ n → L / 2 ^ 50 < |v + m * L - (o * pw + z * pw)|) → r = gridAxis L (o * pw) (n * pw) pw v) := by
  intro r
  obtain ⟨eo, o0⟩ := loc_err ho0 ho hpw ho1
  obtain ⟨en, n0⟩ := loc_err hn0 hn hpw hn1
  have hoL : locAxis64 o pw ≤ L := by
    unfold locAxis64
    rw [f64_of (f64_int (by rw [abs_of_nonneg ho0]; exact ho))]
    exact f64_le hLr ho1
  have hnq : (0 : ℚ) ≤ n := by exact_mod_cast hn0
  have hnear : ∀ d, F64 d → d < locAxis64 n pw → d < n * pw := by
    intro d hd h
    by_contra hc
    unfold locAxis64 at h
    rw [f64_of (f64_int (by rw [abs_of_nonneg hn0]; exact hn))] at h
    exact absurd (f64_le hd (not_lt.mp hc)) (not_le.mpr h)
  obtain ⟨d1, hd1, d1a, d1b, hd1e⟩ := delta_spec hL hLr o0 hoL hv0 hv1 eo
  have d1r : F64 d1 := by
    rw [← hd1]
    split_ifs
    · exact f64_rep _
    · exact f64_rep _
  have hr : r = (let delta := if d1 ≥ locAxis64 n pw then f64 (d1 - L) else d1
      if delta < 0 ∨ delta ≥ locAxis64 n pw then none else some (trunc (f64 (delta / pw)))) := by
    show gridAxis64 L (locAxis64 o pw) (locAxis64 n pw) pw v = _
    unfold gridAxis64
    dsimp only
    rw [hd1]
  have hsign : (∀ m z : ℤ, |m| ≤ 1 → 0 ≤ z → z ≤ n → L / 2 ^ 50 < |v + m * L - (o * pw + z * pw)|) → (f64 (v - locAxis64 o pw) < 0 ↔ v - o * pw < 0) := by
    intro off
    have h0 := off 0 0 (by norm_num) le_rfl hn0
    simp only [Int.cast_zero, zero_mul, add_zero] at h0
    rw [show ∀ x, f64 x = rnd 53 x from fun _ => rfl, rnd_neg_iff (by norm_num)]
    rw [abs_le] at eo
    rw [lt_abs] at h0
    constructor
    · intro h
      rcases h0 with h0 | h0 <;> linarith
    · intro h
      rcases h0 with h0 | h0 <;> linarith
  obtain ⟨m0, hm0r, hm0, hm0'⟩ : ∃ m0 : ℤ, (0 ≤ m0 ∧ m0 ≤ 1) ∧ (if f64 (v - locAxis64 o pw) < 0 then v - o * pw + L else v - o * pw) = v + m0 * L - o * pw ∧
      ((∀ m z : ℤ, |m| ≤ 1 → 0 ≤ z → z ≤ n → L / 2 ^ 50 < |v + m * L - (o * pw + z * pw)|) →
        (if v - o * pw < 0 then v - o * pw + L else v - o * pw) = v + m0 * L - o * pw) := by
    by_cases h : f64 (v - locAxis64 o pw) < 0
    · refine ⟨1, by norm_num, by rw [if_pos h]; push_cast; ring, fun off => ?_⟩
      rw [if_pos ((hsign off).mp h)]; push_cast; ring
    · refine ⟨0, by norm_num, by rw [if_neg h]; push_cast; ring, fun off => ?_⟩
      rw [if_neg (fun h' => h ((hsign off).mpr h'))]; push_cast; ring
  rw [hm0] at hd1e
  clear hm0 hsign
  generalize locAxis64 n pw = span at *
  -- the second step
  obtain ⟨d2, hd2⟩ : ∃ d2, d2 = if d1 ≥ span then f64 (d1 - L) else d1 := ⟨_, rfl⟩
  have hr' : r = if d2 < 0 ∨ d2 ≥ span then none else some (trunc (f64 (d2 / pw))) := by rw [hr, hd2]
  have e2 := f64_err (d1 - L)
  have a2 : |d1 - L| ≤ L := by rw [abs_le]; constructor <;> linarith
  have c2 : f64 (d1 - L) ≤ 0 := f64_le (rep_zero _) (by linarith)
  have d2r : F64 d2 := by
    rw [hd2]
    split_ifs
    · exact f64_rep _
    · exact d1r
  have d2L : d2 ≤ L := by
    rw [hd2]
    split_ifs
    · linarith
    · exact d1b
  obtain ⟨m1, hm1r, hm1, hm1'⟩ : ∃ m1 : ℤ, |m1| ≤ 1 ∧ |d2 - (v + m1 * L - o * pw)| ≤ 4 * L / 2 ^ 53 ∧
      ((d1 ≥ span ↔ v + m0 * L - o * pw ≥ n * pw) →
        (if v + m0 * L - o * pw ≥ n * pw then v + m0 * L - o * pw - L else v + m0 * L - o * pw) = v + m1 * L - o * pw) := by
    rw [abs_le] at hd1e e2
    by_cases h : d1 ≥ span
    · refine ⟨m0 - 1, by rw [abs_le]; omega, ?_, fun h' => ?_⟩
      · rw [hd2, if_pos h, abs_le]
        push_cast
        constructor <;> linarith
      · rw [if_pos (h'.mp h)]; push_cast; ring
    · refine ⟨m0, by rw [abs_le]; omega, ?_, fun h' => ?_⟩
      · rw [hd2, if_neg h, abs_le]
        constructor <;> linarith
      · rw [if_neg (fun g => h (h'.mpr g))]
  rw [abs_le] at hm1 en hd1e
  -- the quotient
  have quo : 0 ≤ d2 → |f64 (d2 / pw) - d2 / pw| * pw ≤ L / 2 ^ 53 := by
    intro h
    have e := f64_err (d2 / pw)
    rw [abs_of_nonneg (div_nonneg h hpw.le)] at e
    calc |f64 (d2 / pw) - d2 / pw| * pw ≤ d2 / pw / 2 ^ 53 * pw := by gcongr
      _ = d2 / 2 ^ 53 := by field_simp
      _ ≤ L / 2 ^ 53 := by gcongr
  refine ⟨?_, ?_, ?_⟩
  · intro i hi
    rw [hr'] at hi
    by_cases hc : d2 < 0 ∨ d2 ≥ span
    · rw [if_pos hc] at hi; cases hi
    · rw [if_neg hc] at hi
      push Not at hc
      have hq0 : 0 ≤ f64 (d2 / pw) := f64_nonneg (div_nonneg hc.1 hpw.le)
      rw [trunc_of_nonneg hq0] at hi
      have hi := (Option.some.inj hi).symm
      have hlt := hnear d2 d2r hc.2
      have hqn : f64 (d2 / pw) ≤ n := f64_le (f64_int (by rw [abs_of_nonneg hn0]; exact hn)) (by
        rw [div_le_iff₀ hpw]; exact hlt.le)
      have f1 := Int.floor_le (f64 (d2 / pw))
      have f2 := Int.lt_floor_add_one (f64 (d2 / pw))
      rw [← hi] at f1 f2
      refine ⟨⟨?_, ?_⟩, m1, ?_⟩
      · rw [hi]; exact Int.floor_nonneg.mpr hq0
      · exact_mod_cast f1.trans hqn
      · have q := quo hc.1
        have k1 := mul_le_mul_of_nonneg_right f1 hpw.le
        have k2 := mul_lt_mul_of_pos_right f2 hpw
        have ab := abs_le.mp (le_refl |f64 (d2 / pw) - d2 / pw|)
        have k3 := mul_le_mul_of_nonneg_right ab.1 hpw.le
        have k4 := mul_le_mul_of_nonneg_right ab.2 hpw.le
        have k5 : (f64 (d2 / pw) - d2 / pw) * pw = f64 (d2 / pw) * pw - d2 := by field_simp
        rw [k5] at k3 k4
        constructor <;> linarith
  · intro hnone m
    rw [hr'] at hnone
    rintro ⟨g1, g2⟩
    by_cases hc : d2 < 0 ∨ d2 ≥ span
    · by_cases h : d1 ≥ span
      · rw [hd2, if_pos h] at hc
        rcases le_or_gt m0 m with hm | hm
        · have : (m0 : ℚ) * L ≤ m * L := mul_le_mul_of_nonneg_right (by exact_mod_cast hm) hL.le
          linarith
        · have : (m : ℚ) * L ≤ (m0 - 1) * L := mul_le_mul_of_nonneg_right (by
            have : m ≤ m0 - 1 := by omega
            exact_mod_cast this) hL.le
          linarith
      · rw [hd2, if_neg h] at hc
        rcases hc with hc | hc
        · linarith
        · exact h hc
    · rw [if_neg hc] at hnone; cases hnone
  · intro off
    have hsp : d1 ≥ span ↔ v + m0 * L - o * pw ≥ n * pw := by
      have := off m0 n (by rw [abs_le]; omega) hn0 le_rfl
      rw [lt_abs] at this
      constructor
      · intro h
        rcases this with this | this <;> linarith
      · intro h
        rcases this with this | this <;> linarith
    rw [hr']
    unfold gridAxis
    dsimp only
    rw [hm0' off, hm1' hsp]
    have hneg : d2 < 0 ↔ v + m1 * L - o * pw < 0 := by
      have := off m1 0 hm1r le_rfl hn0
      rw [lt_abs] at this
      simp only [Int.cast_zero, zero_mul, add_zero] at this
      constructor
      · intro h
        rcases this with this | this <;> linarith
      · intro h
        rcases this with this | this <;> linarith
    have hsp2 : d2 ≥ span ↔ v + m1 * L - o * pw ≥ n * pw := by
      have := off m1 n hm1r hn0 le_rfl
      rw [lt_abs] at this
      constructor
      · intro h
        rcases this with this | this <;> linarith
      · intro h
        rcases this with this | this <;> linarith
    by_cases hc : v + m1 * L - o * pw < 0 ∨ v + m1 * L - o * pw ≥ n * pw
    · rw [if_pos (hc.imp hneg.mpr hsp2.mpr), if_pos hc]
    · rw [if_neg (fun h => hc (h.imp hneg.mp hsp2.mp)), if_neg hc]
      push Not at hc
      have hd0 : 0 ≤ d2 := by
        by_contra h
        exact absurd (hneg.mp (not_le.mp h)) (not_lt.mpr hc.1)
      rw [trunc_of_nonneg (f64_nonneg (div_nonneg hd0 hpw.le)), trunc_of_nonneg (div_nonneg hc.1 hpw.le)]
      congr 1
      have far : ∀ z : ℤ, 0 ≤ z → z ≤ n → L / 2 ^ 50 / pw < |(v + m1 * L - o * pw) / pw - z| := by
        intro z z0 z1
        have := off m1 z hm1r z0 z1
        rw [div_lt_iff₀ hpw, ← abs_of_pos hpw, ← abs_mul, abs_of_pos hpw]
        rw [show ((v + m1 * L - o * pw) / pw - z) * pw = v + m1 * L - (o * pw + z * pw) by field_simp; ring]
        exact this
      have y0 : 0 ≤ ⌊(v + m1 * L - o * pw) / pw⌋ := Int.floor_nonneg.mpr (div_nonneg hc.1 hpw.le)
      have y1 : ⌊(v + m1 * L - o * pw) / pw⌋ < n := by
        rw [Int.floor_lt, div_lt_iff₀ hpw]; exact hc.2
      refine floor_near (e := L / 2 ^ 50 / pw) ?_ (far _ y0 y1.le) (far _ (by omega) (by omega))
      rw [le_div_iff₀ hpw]
      have q := quo hd0
      have t := abs_add_le (f64 (d2 / pw) - d2 / pw) ((d2 - (v + m1 * L - o * pw)) / pw)
      rw [show f64 (d2 / pw) - d2 / pw + (d2 - (v + m1 * L - o * pw)) / pw =
        f64 (d2 / pw) - (v + m1 * L - o * pw) / pw by ring, abs_div, abs_of_pos hpw] at t
      have t := mul_le_mul_of_nonneg_right t hpw.le
      rw [add_mul, div_mul_cancel₀ _ hpw.ne'] at t
      have := abs_le.mpr hm1
      linarith

/-- An image of the cells 3 to 6 of ten cells of width `f64 (1 / 10)`. -/
example : gridAxis64 1 (locAxis64 3 (f64 (1 / 10))) (locAxis64 4 (f64 (1 / 10))) (f64 (1 / 10)) (f32 (11 / 20)) = some 2 ∧
    (3 : ℤ) * f64 (1 / 10) ≤ 1 ∧ (4 : ℤ) * f64 (1 / 10) ≤ 3 * 1 ∧ 0 ≤ f32 (11 / 20) ∧ f32 (11 / 20) ≤ 1 := by
  refine ⟨by decide +kernel, by decide +kernel, by decide +kernel, by decide +kernel, by decide +kernel⟩

/-- Membership in the analysed box, away from its upper edge. -/
theorem contains64_eq {L a s b : ℚ} (hL : 0 < L) (ha0 : 0 ≤ a) (ha1 : a < L) (hs0 : 0 ≤ s) (hs1 : s ≤ L) (hb1 : b ≤ L)
    (off : ∀ m : ℤ, L / 2 ^ 50 < |b + m * L - (a + s)|) : contains64 a s b L = contains1D a s b L := by
  have e1 := f64_err (a + s)
  have a1 : |a + s| ≤ 2 * L := by rw [abs_le]; constructor <;> linarith
  have e2 := f64_err (f64 (a + s) - L)
  rw [abs_le] at e1
  have a2 : |f64 (a + s) - L| ≤ 2 * L := by rw [abs_le]; constructor <;> linarith
  rw [abs_le] at e2
  obtain ⟨b', hb', m, hm, hb0⟩ : ∃ b', (if b ≥ L then f64 (b - L) else b) = b' ∧ ∃ m : ℤ, b' = b + m * L ∧
      (if b ≥ L then b - L else b) = b' := by
    by_cases h : b ≥ L
    · have : b = L := le_antisymm hb1 h
      rw [if_pos h, if_pos h, this, sub_self, f64_zero]
      exact ⟨0, rfl, -1, by push_cast; ring, rfl⟩
    · rw [if_neg h, if_neg h]
      exact ⟨b, rfl, 0, by push_cast; ring, rfl⟩
  unfold contains64 contains1D
  dsimp only
  rw [hb', hb0]
  have o0 := off m
  have o1 := off (m + 1)
  push_cast at o1
  rw [lt_abs] at o0 o1
  have k1 : (f64 (a + s) > b') ↔ (a + s > b') := by
    constructor <;> intro h <;> rcases o0 with o0 | o0 <;> linarith
  have k2 : (f64 (f64 (a + s) - L) > b') ↔ (a + s - L > b') := by
    constructor <;> intro h <;> rcases o1 with o1 | o1 <;> linarith
  simp only [k1, k2]

/-- A sampled coordinate is put back into the box, up to the rounding of a `float32` number. -/
theorem wrapHist_spec {L x : ℚ} (hL : 0 < L) (hLr : F32 L) (hx : F32 x) (h0 : -L ≤ x) (h1 : x < 2 * L) :
    F32 (wrapHist32 L x) ∧ (0 ≤ wrapHist32 L x ∧ wrapHist32 L x ≤ L) ∧
      ∃ m : ℤ, |wrapHist32 L x - (x + m * L)| ≤ L / 2 ^ 24 ∧ (0 ≤ x → wrapHist32 L x = x + m * L) := by
  unfold wrapHist32
  dsimp only
  rw [f32_of hLr]
  by_cases h : x ≥ L
  · have e : f32 (x - L) = x - L := f32_of (rep_sub (by norm_num) hx hLr (by linarith) (by linarith))
    rw [if_pos h, e, if_neg (by linarith)]
    refine ⟨e ▸ f32_rep _, ⟨by linarith, by linarith⟩, -1, ?_, fun _ => by push_cast; ring⟩
    push_cast
    rw [show x - L - (x + -1 * L) = 0 by ring, abs_zero]
    positivity
  · rw [if_neg h]
    by_cases hn : x < 0
    · rw [if_pos hn]
      have e := f32_err (x + L)
      rw [abs_of_nonneg (by linarith : 0 ≤ x + L)] at e
      refine ⟨f32_rep _, ⟨f32_nonneg (by linarith), f32_le hLr (by linarith)⟩, 1, ?_, fun hx0 => absurd hx0 (not_le.mpr hn)⟩
      push_cast
      rw [one_mul]
      refine e.trans ?_
      gcongr
      linarith
    · rw [if_neg hn]
      refine ⟨hx, ⟨not_lt.mp hn, (not_le.mp h).le⟩, 0, ?_, fun _ => by push_cast; ring⟩
      push_cast
      rw [show x - (x + 0 * L) = 0 by ring, abs_zero]
      positivity

/-- An image in a box of width `L`: pixels of width `pw`, `n` per side, the first of them `o` pixels from the origin. -/
structure ImageOk (L pw : ℚ) (o n : IVec) : Prop where
  pos : 0 < L
  rep : F32 L
  pw0 : 0 < pw
  o0 : ∀ k, 0 ≤ o k
  o1 : ∀ k, o k * pw ≤ L
  n0 : ∀ k, 0 ≤ n k
  n1 : ∀ k, n k * pw ≤ 3 * L
  o2 : ∀ k, o k ≤ 2 ^ 53
  n2 : ∀ k, n k ≤ 2 ^ 53

/-- The position and its neighbouring periodic images are not near to a face of a pixel. -/
def OffFaces (L pw : ℚ) (o n : IVec) (v : Vec) : Prop :=
  ∀ k, ∀ m z : ℤ, |m| ≤ 1 → 0 ≤ z → z ≤ n k → L / 2 ^ 50 < |v k + m * L - (o k * pw + z * pw)|

/-- The position is not near to the upper edge of the analysed box. -/
def OffEdges (L : ℚ) (boxO boxS v : Vec) : Prop := ∀ k, ∀ m : ℤ, L / 2 ^ 50 < |v k + m * L - (boxO k + boxS k)|

/-- **C132**: the index looked up for a position in the box is `-1` or at least zero, but at most the number of pixels plus
a row and a layer; and for positions not near to a face it is the index of the pixel that contains the position, and `-1`
exactly when the position is not in the image. -/
theorem C132_index_partial {L pw : ℚ} {o n : IVec} (h : ImageOk L pw o n) {v : Vec} (hv : ∀ k, 0 ≤ v k ∧ v k ≤ L) :
    let r := gridIndex64 L o n pw v
    (r = -1 ∨ 0 ≤ r ∧ r ≤ n 0 + n 1 * n 0 + n 2 * (n 0 * n 1)) ∧
    (OffFaces L pw o n v → r = gridIndex L (fun k => o k * pw) (fun k => n k * pw) n pw v) := by
  intro r
  have hLr : F64 L := h.rep.f64
  have ax := fun k => C132_axis_partial h.pos hLr h.pw0 (h.o0 k) (h.o2 k) (h.o1 k) (h.n0 k) (h.n2 k) (h.n1 k) (hv k).1 (hv k).2
  have hr : r = gridIndex64 L o n pw v := rfl
  constructor
  · unfold gridIndex64 at hr
    dsimp only at hr
    rcases h0 : gridAxis64 L (locAxis64 (o 0) pw) (locAxis64 (n 0) pw) pw (v 0) with _ | i
    · left; rw [hr, h0]
    rcases h1 : gridAxis64 L (locAxis64 (o 1) pw) (locAxis64 (n 1) pw) pw (v 1) with _ | j
    · left; rw [hr, h0, h1]
    rcases h2 : gridAxis64 L (locAxis64 (o 2) pw) (locAxis64 (n 2) pw) pw (v 2) with _ | k
    · left; rw [hr, h0, h1, h2]
    right
    rw [h0, h1, h2] at hr
    dsimp only at hr
    obtain ⟨⟨i0, i1⟩, -⟩ := (ax 0).1 i h0
    obtain ⟨⟨j0, j1⟩, -⟩ := (ax 1).1 j h1
    obtain ⟨⟨k0, k1⟩, -⟩ := (ax 2).1 k h2
    have n00 := h.n0 0
    have n01 : 0 ≤ n 0 * n 1 := mul_nonneg (h.n0 0) (h.n0 1)
    rw [hr]
    constructor
    · positivity
    · have a := mul_le_mul_of_nonneg_right j1 n00
      have b := mul_le_mul_of_nonneg_right k1 n01
      linarith
  · intro off
    rw [hr]
    unfold gridIndex64 gridIndex
    dsimp only
    rw [(ax 0).2.2 (off 0), (ax 1).2.2 (off 1), (ax 2).2.2 (off 2)]
    rfl

theorem gridAxis_top {L o span pw : ℚ} (h0 : 0 < o) (h1 : o < L) : gridAxis L o span pw L = gridAxis L o span pw 0 := by
  unfold gridAxis
  dsimp only
  rw [if_neg (by linarith : ¬ L - o < 0), if_pos (by linarith : 0 - o < 0), show 0 - o + L = L - o by ring]

theorem halfOpen_shift {L a w x : ℚ} (k : ℤ) : InHalfOpen L a w (x + k * L) ↔ InHalfOpen L a w x := by
  constructor
  · rintro ⟨n, h1, h2⟩
    refine ⟨n + k, ?_, ?_⟩ <;> push_cast <;> linarith
  · rintro ⟨n, h1, h2⟩
    refine ⟨n - k, ?_, ?_⟩ <;> push_cast <;> linarith

/-- **C132**: the density recorded for a sample. The sample is first put back into the box, which moves it by at most a
`2⁻²⁴`th of the box, and not at all when it is not negative. If the result is not near to a face of a pixel or the upper
edge of the analysed box, the program does not stop, the sample counts exactly when it lies in the analysed box and in the
image, and its density is that of the pixel that contains it. The wanted statement has no conditions on nearness. -/
theorem C132_density_partial {L pw : ℚ} {o n : IVec} (h : ImageOk L pw o n) (ho : ∀ k, o k * pw < L) {boxO boxS : Vec}
    (hbo : ∀ k, 0 ≤ boxO k ∧ boxO k < L) (hbs : ∀ k, 0 ≤ boxS k ∧ boxS k ≤ L) {grid : List ℚ}
    (hg : (grid.length : ℤ) = n 0 * n 1 * n 2) {v : Vec} (hv : ∀ k, F32 (v k) ∧ -L ≤ v k ∧ v k < 2 * L) :
    ∃ v' : Vec, (∀ k, F32 (v' k) ∧ (0 ≤ v' k ∧ v' k ≤ L) ∧
      ∃ m : ℤ, |v' k - (v k + m * L)| ≤ L / 2 ^ 24 ∧ (0 ≤ v k → v' k = v k + m * L)) ∧
      (OffFaces L pw o n v' → OffEdges L boxO boxS v' →
        ∃ d ok, density64 L boxO boxS o n pw grid v = some (d, ok) ∧
          (ok = true ↔ (∀ k, Verif.Hist.Inside L (boxO k) (boxS k) (v' k)) ∧ ∀ k, InHalfOpen L (o k * pw) (n k * pw) (v' k)) ∧
          (ok = true → ∃ c : IVec, (∀ k, (0 ≤ c k ∧ c k < n k) ∧ InHalfOpen L (o k * pw + c k * pw) pw (v' k)) ∧
            rd grid (c 0 + c 1 * n 0 + c 2 * (n 0 * n 1)) = some d)) := by
  have hw := fun k => wrapHist_spec h.pos h.rep (hv k).1 (hv k).2.1 (hv k).2.2
  refine ⟨fun k => wrapHist32 L (v k), fun k => hw k, fun off edges => ?_⟩
  have hL := h.pos
  -- the same point with the upper end of the box replaced by the lower one
  obtain ⟨w, hwk⟩ : ∃ w : Vec, ∀ k, wrapHist32 L (v k) = L ∧ w k = 0 ∨ wrapHist32 L (v k) < L ∧ w k = wrapHist32 L (v k) := by
    refine ⟨fun k => if wrapHist32 L (v k) = L then 0 else wrapHist32 L (v k), fun k => ?_⟩
    by_cases hk : wrapHist32 L (v k) = L
    · left; exact ⟨hk, if_pos hk⟩
    · right; exact ⟨lt_of_le_of_ne (hw k).2.1.2 hk, if_neg hk⟩
  have hwr : ∀ k, 0 ≤ w k ∧ w k < L := by
    intro k
    rcases hwk k with ⟨_, e⟩ | ⟨hk, e⟩
    · rw [e]; exact ⟨le_rfl, hL⟩
    · rw [e]; exact ⟨(hw k).2.1.1, hk⟩
  have hin : ∀ k, ∃ m : ℤ, w k = wrapHist32 L (v k) + m * L := by
    intro k
    rcases hwk k with ⟨hk, e⟩ | ⟨hk, e⟩
    · exact ⟨-1, by rw [hk, e]; push_cast; ring⟩
    · exact ⟨0, by rw [e]; push_cast; ring⟩
  obtain ⟨d, ok, e, h1, h2⟩ := C60_density (L := L) (pw := pw) (origin := fun k => o k * pw) (boxO := boxO) (boxS := boxS)
    (n := n) (grid := grid) h.pos h.pw0 (fun k => ⟨mul_nonneg (by exact_mod_cast h.o0 k) h.pw0.le, ho k⟩) hbo
    (fun k => (hbs k).2) hg (v := w) (fun k => ⟨by linarith [(hwr k).1], by linarith [(hwr k).2]⟩)
  have hor : ∀ k, wrapHist32 L (v k) = L → 0 < o k * pw := by
    intro k hk
    rcases (mul_nonneg (by exact_mod_cast h.o0 k) h.pw0.le : 0 ≤ (o k : ℚ) * pw).lt_or_eq with hp | hp
    · exact hp
    · have := off k (-1) 0 (by norm_num) le_rfl (h.n0 k)
      dsimp only at this
      rw [← hp, hk, show L + ((-1 : ℤ) : ℚ) * L - (0 + ((0 : ℤ) : ℚ) * pw) = 0 by push_cast; ring, abs_zero] at this
      have : 0 < L / 2 ^ 50 := by positivity
      linarith
  have hgi : gridIndex64 L o n pw (fun k => wrapHist32 L (v k)) =
      gridIndex L (fun k => o k * pw) (fun k => n k * pw) n pw w := by
    rw [(C132_index_partial h (fun k => (hw k).2.1)).2 off]
    have : ∀ k, gridAxis L (o k * pw) (n k * pw) pw (wrapHist32 L (v k)) = gridAxis L (o k * pw) (n k * pw) pw (w k) := by
      intro k
      rcases hwk k with ⟨hk, e⟩ | ⟨hk, e⟩
      · rw [hk, e]
        exact gridAxis_top (hor k hk) (ho k)
      · rw [e]
    unfold gridIndex
    dsimp only
    rw [this 0, this 1, this 2]
  have hbc : boxContains64 boxO boxS (fun k => wrapHist32 L (v k)) L = boxContains boxO boxS w L := by
    have : ∀ k, contains64 (boxO k) (boxS k) (wrapHist32 L (v k)) L = contains1D (boxO k) (boxS k) (w k) L := by
      intro k
      rw [contains64_eq h.pos (hbo k).1 (hbo k).2 (hbs k).1 (hbs k).2 (hw k).2.1.2 (edges k)]
      rcases hwk k with ⟨hk, e⟩ | ⟨hk, e⟩
      · rw [hk, e]
        unfold contains1D
        dsimp only
        rw [if_pos le_rfl, sub_self, if_neg (by linarith)]
      · rw [e]
    unfold boxContains64 boxContains
    rw [this 0, this 1, this 2]
  have i1 : ∀ k, Verif.Hist.Inside L (boxO k) (boxS k) (w k) ↔ Verif.Hist.Inside L (boxO k) (boxS k) (wrapHist32 L (v k)) := by
    intro k
    obtain ⟨m, hm⟩ := hin k
    rw [hm]
    exact inside_shift m
  have i2 : ∀ k a b, InHalfOpen L a b (w k) ↔ InHalfOpen L a b (wrapHist32 L (v k)) := by
    intro k a b
    obtain ⟨m, hm⟩ := hin k
    rw [hm]
    exact halfOpen_shift m
  refine ⟨d, ok, ?_, ?_, ?_⟩
  · rw [← e]
    have hid : (fun k => (let x := if w k ≥ L then w k - L else w k
        if x < 0 then x + L else x : ℚ)) = w := by
      funext k
      dsimp only
      rw [if_neg (not_le.mpr (hwr k).2), if_neg (not_lt.mpr (hwr k).1)]
    unfold density64 density
    dsimp only at hid ⊢
    rw [hgi, hbc, hid]
  · rw [h1]
    simp only [i1, i2]
  · intro hok
    obtain ⟨c, hc, hd⟩ := h2 hok
    exact ⟨c, fun k => ⟨(hc k).1, (i2 k _ _).mp (hc k).2⟩, hd⟩

/-- One pixel per side across, ten of eleven pixels along the third axis. -/
theorem exImage : ImageOk 1 (f64 (1 / 11)) ![0, 0, 1] ![1, 1, 10] := by
  have h : f64 (1 / 11) ≤ 1 / 10 := by decide +kernel
  have h0 : 0 < f64 (1 / 11) := by decide +kernel
  refine ⟨by norm_num, rep_one (by norm_num), h0, ?_, ?_, ?_, ?_, ?_, ?_⟩ <;>
    (intro k; fin_cases k <;> simp <;> linarith)

example : OffFaces 1 (f64 (1 / 11)) ![0, 0, 1] ![1, 1, 10] ![1 / 32, 1 / 32, 1 / 8] ∧
    OffEdges 1 ![0, 0, 1 / 2] ![1 / 2, 1 / 2, 3 / 4] ![1 / 32, 1 / 32, 1 / 8] ∧
    density64 1 ![0, 0, 1 / 2] ![1 / 2, 1 / 2, 3 / 4] ![0, 0, 1] ![1, 1, 10] (f64 (1 / 11))
      [10, 11, 12, 13, 14, 15, 16, 17, 18, 19] ![1 / 32, 1 / 32, 1 / 8] = some (10, true) := by
  refine ⟨?_, ?_, by decide +kernel⟩
  · intro k m z hm z0 z1
    rw [abs_le] at hm
    obtain ⟨m0, m1⟩ := hm
    have key : ∀ m ∈ ([-1, 0, 1] : List ℤ), ∀ z ∈ ([0, 1, 2, 3, 4, 5, 6, 7, 8, 9, 10] : List ℤ),
        (1 : ℚ) / 2 ^ 50 < |1 / 32 + m * 1 - (((0 : ℤ) : ℚ) * f64 (1 / 11) + z * f64 (1 / 11))| ∧
        (1 : ℚ) / 2 ^ 50 < |1 / 8 + m * 1 - (((1 : ℤ) : ℚ) * f64 (1 / 11) + z * f64 (1 / 11))| := by decide +kernel
    have zn : z ≤ 10 := by
      fin_cases k <;> simp at z1 <;> omega
    have hm : m ∈ ([-1, 0, 1] : List ℤ) := by simp; omega
    have hz : z ∈ ([0, 1, 2, 3, 4, 5, 6, 7, 8, 9, 10] : List ℤ) := by simp; omega
    fin_cases k
    · exact (key m hm z hz).1
    · exact (key m hm z hz).1
    · exact (key m hm z hz).2
  · intro k m
    have key : ∀ a : ℚ, a ∈ ([1 / 32 - 1 / 2, 1 / 8 - 5 / 4] : List ℚ) → (1 : ℚ) / 2 ^ 50 < |m + a| := by
      intro a ha
      simp only [List.mem_cons, List.not_mem_nil, or_false] at ha
      rw [lt_abs]
      rcases le_or_gt m 0 with h | h
      · have : (m : ℚ) ≤ 0 := by exact_mod_cast h
        rcases ha with rfl | rfl <;> right <;> norm_num <;> linarith
      · rcases le_or_gt m 1 with h' | h'
        · have : m = 1 := by omega
          subst this
          rcases ha with rfl | rfl
          · left; norm_num
          · right; norm_num
        · have : (2 : ℚ) ≤ m := by exact_mod_cast h'
          rcases ha with rfl | rfl <;> left <;> norm_num <;> linarith
    have k0 : (1 : ℚ) / 2 ^ 50 < |(1 / 32 : ℚ) + m * 1 - (0 + 1 / 2)| := by
      rw [show (1 / 32 + m * 1 - (0 + 1 / 2) : ℚ) = m + (1 / 32 - 1 / 2) by ring]
      exact key _ (by simp)
    have k2 : (1 : ℚ) / 2 ^ 50 < |(1 / 8 : ℚ) + m * 1 - (1 / 2 + 3 / 4)| := by
      rw [show (1 / 8 + m * 1 - (1 / 2 + 3 / 4) : ℚ) = m + (1 / 8 - 5 / 4) by ring]
      exact key _ (by simp)
    fin_cases k
    · exact k0
    · exact k0
    · exact k2

/-- **C132**: a sample at the boundary of the box, which is the upper edge of an image of the last ten of eleven cells, gets
the index ten; the program stops with an index out of range. Along another axis a sample gets the density of a pixel of the
next row. -/
theorem C132_counterexample :
    gridAxis64 1 (locAxis64 1 (f64 (1 / 11))) (locAxis64 10 (f64 (1 / 11))) (f64 (1 / 11)) 0 = some 10 ∧
    (∀ grid : List ℚ, grid.length = 10 → density64 1 ![0, 0, 1 / 2] ![1 / 2, 1 / 2, 3 / 4] ![0, 0, 1] ![1, 1, 10] (f64 (1 / 11))
      grid ![1 / 32, 1 / 32, 0] = none) ∧
    density64 1 ![1 / 2, 0, 0] ![3 / 4, 1 / 2, 1 / 2] ![1, 0, 0] ![10, 2, 1] (f64 (1 / 11))
      [0, 1, 2, 3, 4, 5, 6, 7, 8, 9, 10, 11, 12, 13, 14, 15, 16, 17, 18, 19] ![0, 1 / 32, 1 / 32] = some (10, true) := by
  refine ⟨by decide +kernel, fun grid hg => ?_, by decide +kernel⟩
  have e : boxContains64 ![0, 0, 1 / 2] ![1 / 2, 1 / 2, 3 / 4] (fun k => wrapHist32 1 (![1 / 32, 1 / 32, 0] k)) 1 = true := by
    decide +kernel
  have e' : gridIndex64 1 ![0, 0, 1] ![1, 1, 10] (f64 (1 / 11)) (fun k => wrapHist32 1 (![1 / 32, 1 / 32, 0] k)) = 10 := by
    decide +kernel
  unfold density64
  dsimp only
  rw [e, e', if_neg (by decide), if_pos (by decide)]
  have : rd grid 10 = none := by
    rw [show (10 : ℤ) = ((10 : ℕ) : ℤ) by norm_num, rd_natCast]
    exact List.getElem?_eq_none (by omega)
  rw [this]
  rfl

end Verif.Fp
