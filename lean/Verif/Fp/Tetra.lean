import Verif.Fp.TetraModel
import Verif.Fp.Scale
import Verif.Fp.Box
import Verif.Geom.Tetra
import Mathlib.Tactic.Linarith
import Mathlib.Tactic.Positivity

/-!
# C197: volumes of tetrahedra and points in them on the actual machine
-/

set_option autoImplicit false

namespace Verif.Fp

open Verif.Go Verif.Geom

/-- `y` stands for `x`, which is at most `B`, with an error of at most `B * (G - 1)`. -/
def Near (B G y x : ℚ) : Prop := |x| ≤ B ∧ |y - x| ≤ B * (G - 1)

theorem Near.nonneg {B G y x : ℚ} (h : Near B G y x) : 0 ≤ B := (abs_nonneg x).trans h.1

theorem Near.size {B G y x : ℚ} (h : Near B G y x) : |y| ≤ B * G := by
  have h1 : |y| ≤ |y - x| + |x| := by
    have := abs_add_le (y - x) x
    simpa using this
  have := h.1
  have := h.2
  nlinarith

theorem Near.mono {B G H y x : ℚ} (h : Near B G y x) (hg : G ≤ H) : Near B H y x :=
  ⟨h.1, h.2.trans (mul_le_mul_of_nonneg_left (by linarith) h.nonneg)⟩

theorem Near.mul {B C G H a b x y : ℚ} (h : Near B G a x) (k : Near C H b y) : Near (B * C) (G * H) (a * b) (x * y) := by
  have hB := h.nonneg
  have hC := k.nonneg
  refine ⟨by rw [abs_mul]; exact mul_le_mul h.1 k.1 (abs_nonneg _) hB, ?_⟩
  have e : a * b - x * y = (a - x) * b + x * (b - y) := by ring
  rw [e]
  have h1 := abs_add_le ((a - x) * b) (x * (b - y))
  rw [abs_mul, abs_mul] at h1
  have h2 : |a - x| * |b| ≤ B * (G - 1) * (C * H) :=
    mul_le_mul h.2 k.size (abs_nonneg _) ((abs_nonneg _).trans h.2)
  have h3 : |x| * |b - y| ≤ B * (C * (H - 1)) := mul_le_mul h.1 k.2 (abs_nonneg _) hB
  nlinarith

theorem Near.sub {B C G a b x y : ℚ} (h : Near B G a x) (k : Near C G b y) : Near (B + C) G (a - b) (x - y) := by
  refine ⟨(abs_sub x y).trans (add_le_add h.1 k.1), ?_⟩
  have e : a - b - (x - y) = (a - x) - (b - y) := by ring
  rw [e, add_mul]
  exact (abs_sub _ _).trans (add_le_add h.2 k.2)

theorem Near.add {B C G a b x y : ℚ} (h : Near B G a x) (k : Near C G b y) : Near (B + C) G (a + b) (x + y) := by
  refine ⟨(abs_add_le x y).trans (add_le_add h.1 k.1), ?_⟩
  have e : a + b - (x + y) = (a - x) + (b - y) := by ring
  rw [e, add_mul]
  exact (abs_add_le _ _).trans (add_le_add h.2 k.2)

theorem Near.rnd {B G y x : ℚ} (p : ℕ) (h : Near B G y x) : Near B (G * (1 + 1 / 2 ^ p)) (Verif.Go.rnd p y) x := by
  refine ⟨h.1, ?_⟩
  have h1 := rnd_err p y
  have h2 := h.size
  have h3 : |Verif.Go.rnd p y - x| ≤ |Verif.Go.rnd p y - y| + |y - x| := by
    have := abs_add_le (Verif.Go.rnd p y - y) (y - x)
    simpa using this
  have h4 : |y| / 2 ^ p ≤ B * G / 2 ^ p := by gcongr
  have h5 := h.2
  calc |Verif.Go.rnd p y - x| ≤ B * G / 2 ^ p + B * (G - 1) := by linarith
    _ = B * (G * (1 + 1 / 2 ^ p) - 1) := by ring

theorem Near.exact {B x : ℚ} (h : |x| ≤ B) : Near B 1 x x := ⟨h, by simp⟩

/-- One rounding to a `float32`. -/
def g32 : ℚ := 1 + 1 / 2 ^ 24

/-- One rounding to a `float64`. -/
def g64 : ℚ := 1 + 1 / 2 ^ 53

theorem one_le_g32 : 1 ≤ g32 := by unfold g32; norm_num

theorem one_le_g64 : 1 ≤ g64 := by unfold g64; norm_num

theorem Near.f32 {B G y x : ℚ} (h : Near B G y x) : Near B (G * g32) (f32 y) x := h.rnd 24

theorem Near.f64 {B G y x : ℚ} (h : Near B G y x) : Near B (G * g64) (f64 y) x := h.rnd 53

theorem mulSub32_near {D a b c d x y z w : ℚ} (fz : Fuse) (ha : Near D g32 a x) (hb : Near D g32 b y) (hc : Near D g32 c z)
    (hd : Near D g32 d w) : Near (2 * D ^ 2) (g32 ^ 4) (mulSub32 fz a b c d) (x * y - z * w) := by
  have h1 := ha.mul hb
  have h2 := hc.mul hd
  have hg : g32 * g32 ≤ g32 * g32 * g32 := le_mul_of_one_le_right (by have := one_le_g32; positivity) one_le_g32
  have e : D * D + D * D = 2 * D ^ 2 := by ring
  have eg : g32 * g32 * g32 * g32 = g32 ^ 4 := by ring
  rw [← e, ← eg]
  cases fz with
  | no => exact (h1.f32.sub h2.f32).f32
  | first => exact ((h1.mono hg).sub h2.f32).f32
  | second => exact (h1.f32.sub (h2.mono hg)).f32

theorem dot_near {D : ℚ} {l k l' k' : Vec} (hl : ∀ i, Near D g32 (l i) (l' i)) (hk : ∀ i, Near (2 * D ^ 2) (g32 ^ 4) (k i) (k' i)) :
    Near (6 * D ^ 3) (g32 ^ 6 * g64 ^ 3) (dot32 l k) (l'.dot k') := by
  have ht : ∀ i, Near (2 * D ^ 3) (g32 ^ 6) (Verif.Fp.f32 (l i * k i)) (l' i * k' i) := by
    intro i
    have h := ((hl i).mul (hk i)).f32
    have e1 : D * (2 * D ^ 2) = 2 * D ^ 3 := by ring
    have e2 : g32 * g32 ^ 4 * g32 = g32 ^ 6 := by ring
    rwa [e1, e2] at h
  have hp : 0 ≤ g32 ^ 6 := by have := one_le_g32; positivity
  have hq : 0 ≤ g32 ^ 6 * g64 := by have := one_le_g64; positivity
  have m1 : g32 ^ 6 ≤ g32 ^ 6 * g64 := le_mul_of_one_le_right hp one_le_g64
  have m2 : g32 ^ 6 * g64 ≤ g32 ^ 6 * g64 * g64 := le_mul_of_one_le_right hq one_le_g64
  have s0 : Near (2 * D ^ 3) (g32 ^ 6 * g64) (Verif.Fp.f64 (0 + Verif.Fp.f32 (l 0 * k 0))) (l' 0 * k' 0) := by
    rw [zero_add]; exact (ht 0).f64
  have s1 := (s0.add ((ht 1).mono m1)).f64
  have s2 := (s1.add ((ht 2).mono (m1.trans m2))).f64
  have e1 : 2 * D ^ 3 + 2 * D ^ 3 + 2 * D ^ 3 = 6 * D ^ 3 := by ring
  have e2 : g32 ^ 6 * g64 * g64 * g64 = g32 ^ 6 * g64 ^ 3 := by ring
  rw [e1, e2] at s2
  have e3 : l'.dot k' = l' 0 * k' 0 + l' 1 * k' 1 + l' 2 * k' 2 := by unfold Vec.dot; ring
  rw [e3]
  exact s2

/-- The error of all roundings together. -/
theorem all_roundings : g32 ^ 6 * g64 ^ 4 - 1 ≤ 7 / 2 ^ 24 := by unfold g32 g64; norm_num

/-- C197: a signed volume is wrong by at most `7 / 2^24` of the cube of the largest difference of coordinates. -/
theorem signedVolume32_err (fz : Fin 3 → Fuse) {D : ℚ} {c0 c1 c2 c3 : Vec} (h1 : ∀ i, |c1 i - c0 i| ≤ D)
    (h2 : ∀ i, |c2 i - c0 i| ≤ D) (h3 : ∀ i, |c3 i - c0 i| ≤ D) :
    |signedVolume32 fz c0 c1 c2 c3 - signedVolume c0 c1 c2 c3| ≤ 7 / 2 ^ 24 * D ^ 3 ∧ |signedVolume c0 c1 c2 c3| ≤ D ^ 3 := by
  have n : ∀ {x : ℚ}, |x| ≤ D → Near D g32 (Verif.Fp.f32 x) x := fun h => by
    have := (Near.exact h).f32; rwa [one_mul] at this
  have hD : 0 ≤ D := (abs_nonneg _).trans (h1 0)
  have hx : ∀ i, Near (2 * D ^ 2) (g32 ^ 4)
      (cross32 fz (fun i => Verif.Fp.f32 (c2 i - c0 i)) (fun i => Verif.Fp.f32 (c3 i - c0 i)) i)
      (Vec.cross (fun i => c2 i - c0 i) (fun i => c3 i - c0 i) i) := by
    intro i
    fin_cases i
    · exact mulSub32_near (fz 0) (n (h3 1)) (n (h2 2)) (n (h3 2)) (n (h2 1))
    · exact mulSub32_near (fz 1) (n (h3 2)) (n (h2 0)) (n (h3 0)) (n (h2 2))
    · exact mulSub32_near (fz 2) (n (h3 0)) (n (h2 1)) (n (h3 1)) (n (h2 0))
  have hd := dot_near (fun i => n (h1 i)) hx
  have h6 : Near (D ^ 3) (g32 ^ 6 * g64 ^ 3)
      (dot32 (fun i => Verif.Fp.f32 (c1 i - c0 i))
        (cross32 fz (fun i => Verif.Fp.f32 (c2 i - c0 i)) (fun i => Verif.Fp.f32 (c3 i - c0 i))) / 6)
      (signedVolume c0 c1 c2 c3) := by
    constructor
    · have := hd.1
      unfold signedVolume
      rw [abs_div, div_le_iff₀ (by norm_num)]
      rw [abs_of_pos (by norm_num : (0 : ℚ) < 6)]
      linarith
    · have := hd.2
      unfold signedVolume
      simp only
      rw [← sub_div, abs_div, abs_of_pos (by norm_num : (0 : ℚ) < 6), div_le_iff₀ (by norm_num)]
      linarith
  have h7 := h6.f64
  refine ⟨?_, h7.1⟩
  have h8 := h7.2
  have e : g32 ^ 6 * g64 ^ 3 * g64 = g32 ^ 6 * g64 ^ 4 := by ring
  rw [e] at h8
  calc _ ≤ _ := h8
    _ ≤ D ^ 3 * (7 / 2 ^ 24) := mul_le_mul_of_nonneg_left all_roundings (by positivity)
    _ = _ := by ring

/-- C197: the volume of a tetrahedron is right up to `7 / 2^24` of the cube of the largest difference of coordinates. -/
theorem C197_volume (fz : Fin 3 → Fuse) {D : ℚ} (c : Fin 4 → Vec) (h : ∀ k i, |c k i - c 0 i| ≤ D) :
    |volume32 fz c - tetVolume c| ≤ 7 / 2 ^ 24 * D ^ 3 := by
  have := (signedVolume32_err fz (c0 := c 0) (h 1) (h 2) (h 3)).1
  rw [← abs_signedVolume]
  unfold volume32
  exact (abs_abs_sub_abs_le_abs_sub _ _).trans this

/-! ## Points in a tetrahedron -/

theorem contains32_signs {fz : Fin 3 → Fuse} {c : Fin 4 → Vec} {v : Vec} (h : contains32 fz c v = true) :
    signbit (signedVolume32 fz v (c 1) (c 3) (c 2)) = signbit (signedVolume32 fz v (c 0) (c 1) (c 2)) ∧
    signbit (signedVolume32 fz v (c 0) (c 3) (c 1)) = signbit (signedVolume32 fz v (c 0) (c 1) (c 2)) ∧
    signbit (signedVolume32 fz v (c 0) (c 2) (c 3)) = signbit (signedVolume32 fz v (c 0) (c 1) (c 2)) := by
  unfold contains32 at h
  simp only at h
  split at h
  · cases h
  split at h
  · cases h
  rename_i h1
  split at h
  · cases h
  split at h
  · cases h
  rename_i h2
  split at h
  · cases h
  split at h
  · cases h
  rename_i h3
  exact ⟨by simpa using h1, by simpa using h2, by simpa using h3⟩

/-- A number further from 0 than the error has the sign of what it stands for. -/
theorem signbit_near {x y E : ℚ} (h : |y - x| ≤ E) (hx : E < |x|) : signbit y = signbit x := by
  unfold signbit
  rw [decide_eq_decide]
  obtain ⟨h1, h2⟩ := abs_le.mp h
  rcases lt_abs.mp hx with h3 | h3
  · constructor <;> intro <;> linarith [(abs_nonneg (y - x)).trans h]
  · constructor <;> intro <;> linarith [(abs_nonneg (y - x)).trans h]

theorem f64_bounds {x : ℚ} (h : 0 ≤ x) : x * (1 - 1 / 2 ^ 53) ≤ f64 x ∧ f64 x ≤ x * (1 + 1 / 2 ^ 53) := by
  have h1 := f64_err x
  rw [abs_of_nonneg h] at h1
  obtain ⟨h2, h3⟩ := abs_le.mp h1
  constructor <;> [skip; skip] <;> ring_nf at * <;> linarith

/-- What is left of the limit after rounding. -/
theorem volLimit_ge {vol : ℚ} (h : 0 ≤ vol) : vol * (1 + 4999 / 100000000) ≤ volLimit vol := by
  unfold volLimit
  have h1 := (f64_bounds (x := 1 + eps) (by unfold eps; norm_num)).1
  have h0 : (1 : ℚ) + 49999 / 1000000000 ≤ f64 (1 + eps) := le_trans (by unfold eps; norm_num) h1
  have h2 : vol * (1 + 49999 / 1000000000) ≤ vol * f64 (1 + eps) := mul_le_mul_of_nonneg_left h0 h
  have h3 := (f64_bounds (x := vol * f64 (1 + eps)) (by nlinarith)).1
  nlinarith

/-- The final comparison of two positive numbers that differ by little. -/
theorem epsEq32_close {x y : ℚ} (hx : 0 < x) (hy : 0 < y) (h : |x - y| ≤ 4999 / 100000000 * x) : epsEq32 x y = true := by
  have h1 := f64_err (x - y)
  have h2 : |f64 (x - y)| ≤ |x - y| * (1 + 1 / 2 ^ 53) := by
    have := abs_add_le (f64 (x - y) - (x - y)) (x - y)
    rw [sub_add_cancel] at this
    ring_nf at *
    linarith
  have h3 : |f64 (x - y) / x| ≤ 4999 / 100000000 * (1 + 1 / 2 ^ 53) := by
    rw [abs_div, abs_of_pos hx, div_le_iff₀ hx]
    nlinarith
  have h4 : |f64 (f64 (x - y) / x)| ≤ 4999 / 100000000 * (1 + 1 / 2 ^ 53) * (1 + 1 / 2 ^ 53) := by
    have h5 := f64_err (f64 (x - y) / x)
    have := abs_add_le (f64 (f64 (x - y) / x) - f64 (x - y) / x) (f64 (x - y) / x)
    rw [sub_add_cancel] at this
    ring_nf at *
    linarith
  have h6 : (49999 : ℚ) / 1000000000 ≤ f64 eps :=
    le_trans (by unfold eps; norm_num) (f64_bounds (x := eps) (by unfold eps; norm_num)).1
  have h7 : |f64 (f64 (x - y) / x)| ≤ f64 eps := h4.trans (le_trans (by norm_num) h6)
  unfold epsEq32
  simp [hx.ne', hy.ne', h7]

/-- Four volumes of one sign that add up to the whole, each known up to `E`, pass all tests. -/
theorem tests_pass {W E vol a0 a1 a2 a3 b0 b1 b2 b3 : ℚ} (hW : 0 < W) (hE : E * 119837 ≤ W) (hE0 : 0 ≤ E)
    (hv : |vol - W| ≤ E) (hs : a0 + a1 + a2 + a3 = W) (p0 : 0 ≤ a0) (p1 : 0 ≤ a1) (p2 : 0 ≤ a2) (p3 : 0 ≤ a3)
    (n0 : |b0 - a0| ≤ E) (n1 : |b1 - a1| ≤ E) (n2 : |b2 - a2| ≤ E) (n3 : |b3 - a3| ≤ E)
    (q0 : 0 ≤ b0) (q1 : 0 ≤ b1) (q2 : 0 ≤ b2) (q3 : 0 ≤ b3) :
    b0 ≤ volLimit vol ∧ f64 (b0 + b1) ≤ volLimit vol ∧ f64 (f64 (b0 + b1) + b2) ≤ volLimit vol ∧
    epsEq32 (f64 (b3 + f64 (f64 (b0 + b1) + b2))) vol = true := by
  obtain ⟨v1, v2⟩ := abs_le.mp hv
  obtain ⟨_, m0⟩ := abs_le.mp n0
  obtain ⟨_, m1⟩ := abs_le.mp n1
  obtain ⟨_, m2⟩ := abs_le.mp n2
  obtain ⟨_, m3⟩ := abs_le.mp n3
  have vpos : 0 < vol := by linarith
  have lim := volLimit_ge vpos.le
  obtain ⟨x1, y1⟩ := f64_bounds (x := b0 + b1) (by linarith)
  have z1 : 0 ≤ f64 (b0 + b1) := le_trans (mul_nonneg (by linarith) (by norm_num)) x1
  obtain ⟨x2, y2⟩ := f64_bounds (x := f64 (b0 + b1) + b2) (by linarith)
  have z2 : 0 ≤ f64 (f64 (b0 + b1) + b2) := le_trans (mul_nonneg (by linarith) (by norm_num)) x2
  obtain ⟨x3, y3⟩ := f64_bounds (x := b3 + f64 (f64 (b0 + b1) + b2)) (by linarith)
  norm_num at x1 y1 x2 y2 x3 y3
  refine ⟨by linarith, by linarith, by linarith, epsEq32_close ?_ vpos ?_⟩
  · linarith
  · rw [abs_le]
    constructor <;> linarith

/-- Differences of all coordinates are at most `D`. -/
def Within (D : ℚ) (c : Fin 4 → Vec) (v : Vec) : Prop := ∀ k i, |c k i - c 0 i| ≤ D ∧ |c k i - v i| ≤ D

theorem faces_err (fz : Fin 3 → Fuse) {D : ℚ} {c : Fin 4 → Vec} {v : Vec} {l : Fin 4 → ℚ} (hD : Within D c v) (hb : IsBary c l v) :
    let V := signedVolume (c 0) (c 1) (c 2) (c 3)
    |signedVolume32 fz v (c 0) (c 1) (c 2) - -(l 3 * V)| ≤ 7 / 2 ^ 24 * D ^ 3 ∧
    |signedVolume32 fz v (c 1) (c 3) (c 2) - -(l 0 * V)| ≤ 7 / 2 ^ 24 * D ^ 3 ∧
    |signedVolume32 fz v (c 0) (c 3) (c 1) - -(l 2 * V)| ≤ 7 / 2 ^ 24 * D ^ 3 ∧
    |signedVolume32 fz v (c 0) (c 2) (c 3) - -(l 1 * V)| ≤ 7 / 2 ^ 24 * D ^ 3 := by
  obtain ⟨f3, f0, f2, f1⟩ := faceVolumes hb
  have d : ∀ k i, |c k i - v i| ≤ D := fun k i => (hD k i).2
  refine ⟨?_, ?_, ?_, ?_⟩
  · rw [← f3]; exact (signedVolume32_err fz (d 0) (d 1) (d 2)).1
  · rw [← f0]; exact (signedVolume32_err fz (d 1) (d 3) (d 2)).1
  · rw [← f2]; exact (signedVolume32_err fz (d 0) (d 3) (d 1)).1
  · rw [← f1]; exact (signedVolume32_err fz (d 0) (d 2) (d 3)).1

/-- C197: a point outside the tetrahedron that is clear of all four planes through the faces is not reported to be inside, however
thin the tetrahedron. -/
theorem C197_rejects (fz : Fin 3 → Fuse) {D : ℚ} {c : Fin 4 → Vec} {v : Vec} {l : Fin 4 → ℚ} (hD : Within D c v) (hb : IsBary c l v)
    (hfar : ∀ k, 7 / 2 ^ 24 * D ^ 3 < |l k| * tetVolume c) (hout : ∃ k, l k < 0) : contains32 fz c v = false := by
  by_contra hc
  rw [Bool.not_eq_false] at hc
  obtain ⟨s0, s2, s1⟩ := contains32_signs hc
  obtain ⟨e3, e0, e2, e1⟩ := faces_err fz hD hb
  rw [← abs_signedVolume] at hfar
  have hf : ∀ k, 7 / 2 ^ 24 * D ^ 3 < |-(l k * signedVolume (c 0) (c 1) (c 2) (c 3))| := by
    intro k; rw [abs_neg, abs_mul]; exact hfar k
  rw [signbit_near e0 (hf 0), signbit_near e3 (hf 3)] at s0
  rw [signbit_near e2 (hf 2), signbit_near e3 (hf 3)] at s2
  rw [signbit_near e1 (hf 1), signbit_near e3 (hf 3)] at s1
  set V := signedVolume (c 0) (c 1) (c 2) (c 3)
  have hE : 0 ≤ 7 / 2 ^ 24 * D ^ 3 := by
    have : 0 ≤ D := (abs_nonneg _).trans (hD 0 0).1
    positivity
  have hV : V ≠ 0 := by
    intro h
    have := hfar 0
    rw [h, abs_zero, mul_zero] at this
    linarith
  have hl : ∀ k, l k ≠ 0 := by
    intro k h
    have := hfar k
    rw [h, abs_zero, zero_mul] at this
    linarith
  have hs := hb.1
  simp only [Fin.sum_univ_four] at hs
  have sg : ∀ k, signbit (-(l k * V)) = signbit (-(l 3 * V)) := by
    intro k; fin_cases k
    · exact s0
    · exact s1
    · exact s2
    · rfl
  -- all coordinates have the same sign
  have same : ∀ k, l k < 0 ↔ l 3 < 0 := by
    intro k
    have h := sg k
    unfold signbit at h
    rw [decide_eq_decide] at h
    rcases lt_or_gt_of_ne hV with hn | hp
    · have t : ∀ x : ℚ, -(x * V) < 0 ↔ x < 0 := fun x => by
        rw [neg_lt_zero, mul_pos_iff]; constructor
        · rintro (⟨_, h⟩ | ⟨h, _⟩) <;> linarith
        · intro h; exact Or.inr ⟨h, hn⟩
      rwa [t, t] at h
    · have t : ∀ j, -(l j * V) < 0 ↔ ¬ l j < 0 := fun j => by
        rw [neg_lt_zero, mul_pos_iff]; constructor
        · rintro (⟨h, _⟩ | ⟨_, h⟩) <;> intro <;> linarith
        · intro h; exact Or.inl ⟨lt_of_le_of_ne (not_lt.mp h) (hl j).symm, hp⟩
      rw [t, t] at h
      exact not_iff_not.mp h
  obtain ⟨k, hk⟩ := hout
  have h3 := (same k).mp hk
  have := (same 0).mpr h3
  have := (same 1).mpr h3
  have := (same 2).mpr h3
  linarith

/-- C197: a point inside a tetrahedron which is not thin, clear of the faces, is reported to be inside. -/
theorem C197_accepts_partial (fz : Fin 3 → Fuse) {D : ℚ} {c : Fin 4 → Vec} {v : Vec} {l : Fin 4 → ℚ} (hD : Within D c v)
    (hb : IsBary c l v) (hfat : D ^ 3 ≤ 20 * tetVolume c) (hfar : ∀ k, 7 / 2 ^ 24 * D ^ 3 < |l k| * tetVolume c)
    (hin : ∀ k, 0 ≤ l k) : contains32 fz c v = true := by
  obtain ⟨e3, e0, e2, e1⟩ := faces_err fz hD hb
  have hvol := C197_volume fz c (fun k i => (hD k i).1)
  have hD0 : 0 ≤ D := (abs_nonneg _).trans (hD 0 0).1
  have hE : 0 ≤ 7 / 2 ^ 24 * D ^ 3 := by positivity
  have hs := hb.1
  simp only [Fin.sum_univ_four] at hs
  have hW : 0 < tetVolume c := by
    have h := hfar 0
    by_contra hc
    have : |l 0| * tetVolume c ≤ 0 := mul_nonpos_of_nonneg_of_nonpos (abs_nonneg _) (not_lt.mp hc)
    linarith
  have hW' := hW
  rw [← abs_signedVolume] at hfar hvol hfat hW'
  set V := signedVolume (c 0) (c 1) (c 2) (c 3)
  have hf : ∀ k, 7 / 2 ^ 24 * D ^ 3 < |-(l k * V)| := by
    intro k; rw [abs_neg, abs_mul]; exact hfar k
  have hV : V ≠ 0 := abs_pos.mp hW'
  have hl : ∀ k, 0 < l k := by
    intro k
    refine lt_of_le_of_ne (hin k) ?_
    intro h
    have := hfar k
    rw [← h, abs_zero, zero_mul] at this
    linarith
  have sg : ∀ k, signbit (-(l k * V)) = signbit (-V) := by
    intro k
    unfold signbit
    rw [decide_eq_decide, neg_lt_zero, neg_lt_zero]
    exact mul_pos_iff_of_pos_left (hl k)
  have g3 := (signbit_near e3 (hf 3)).trans (sg 3)
  have g0 := (signbit_near e0 (hf 0)).trans (sg 0)
  have g2 := (signbit_near e2 (hf 2)).trans (sg 2)
  have g1 := (signbit_near e1 (hf 1)).trans (sg 1)
  have ab : ∀ {k : Fin 4} {x : ℚ}, |x - -(l k * V)| ≤ 7 / 2 ^ 24 * D ^ 3 → abs (|x| - l k * |V|) ≤ 7 / 2 ^ 24 * D ^ 3 := by
    intro k x h
    have h1 := abs_abs_sub_abs_le_abs_sub x (-(l k * V))
    rw [abs_neg, abs_mul, abs_of_pos (hl k)] at h1
    exact h1.trans h
  have tot : l 3 * |V| + l 0 * |V| + l 2 * |V| + l 1 * |V| = |V| := by
    rw [← add_mul, ← add_mul, ← add_mul, show l 3 + l 0 + l 2 + l 1 = 1 by linarith, one_mul]
  have np : ∀ k, 0 ≤ l k * |V| := fun k => mul_nonneg (hin k) (abs_nonneg _)
  obtain ⟨t0, t1, t2, t3⟩ := tests_pass hW' (by norm_num; linarith) hE hvol tot (np 3) (np 0) (np 2) (np 1) (ab e3) (ab e0) (ab e2)
    (ab e1) (abs_nonneg _) (abs_nonneg _) (abs_nonneg _) (abs_nonneg _)
  unfold contains32
  simp only [g0, g1, g2, g3, bne_self_eq_false, not_lt.mpr t0, not_lt.mpr t1, not_lt.mpr t2, t3, if_false, gt_iff_lt,
    Bool.false_eq_true]

/-! ## A thin tetrahedron -/

/-- Four corners with 24 bits after the point. -/
def thinCorners : Fin 4 → Vec := ![![16144640 / 2 ^ 24, 3512576 / 2 ^ 24, 13864768 / 2 ^ 24],
  ![4352768 / 2 ^ 24, 15052800 / 2 ^ 24, 10790976 / 2 ^ 24], ![1015552 / 2 ^ 24, 9775104 / 2 ^ 24, 5649216 / 2 ^ 24],
  ![5268992 / 2 ^ 24, 6710016 / 2 ^ 24, 7323136 / 2 ^ 24]]

/-- The mean of the corners. -/
def thinCentre : Vec := ![6695488 / 2 ^ 24, 8762624 / 2 ^ 24, 9407024 / 2 ^ 24]

/-- The mean of the corners of a thin tetrahedron, itself an exact point, is reported to be outside. -/
theorem C197_thin_counterexample :
    (∀ k i, F32 (thinCorners k i)) ∧ (∀ i, F32 (thinCentre i)) ∧ IsBary thinCorners (fun _ => 1 / 4) thinCentre ∧
    NonDegenerate thinCorners ∧ Within 1 thinCorners thinCentre ∧
    (∀ k : Fin 4, 7 / 2 ^ 24 * (1 : ℚ) ^ 3 < |(fun _ => 1 / 4 : Fin 4 → ℚ) k| * tetVolume thinCorners) ∧
    contains32 (fun _ => .no) thinCorners thinCentre = false := by
  refine ⟨?_, ?_, ⟨by decide +kernel, by decide +kernel⟩, ?_, ?_, ?_, by decide +kernel⟩
  · intro k i
    have h : ∀ k i, f32 (thinCorners k i) = thinCorners k i := by decide +kernel
    rw [← h k i]; exact f32_rep _
  · intro i
    have h : ∀ i, f32 (thinCentre i) = thinCentre i := by decide +kernel
    rw [← h i]; exact f32_rep _
  · unfold NonDegenerate; rw [← abs_signedVolume]; decide +kernel
  · unfold Within; decide +kernel
  · rw [← abs_signedVolume]; decide +kernel

/-- The corner of a cube and a point in it: the hypotheses of `C197_accepts_partial` hold. -/
example : let c : Fin 4 → Vec := ![![0, 0, 0], ![1, 0, 0], ![0, 1, 0], ![0, 0, 1]]
    let v : Vec := ![1 / 4, 1 / 8, 1 / 2]
    Within 1 c v ∧ IsBary c ![1 / 8, 1 / 4, 1 / 8, 1 / 2] v ∧ (1 : ℚ) ^ 3 ≤ 20 * tetVolume c ∧
    (∀ k, 7 / 2 ^ 24 * (1 : ℚ) ^ 3 < |(![1 / 8, 1 / 4, 1 / 8, 1 / 2] : Fin 4 → ℚ) k| * tetVolume c) ∧
    contains32 (fun _ => .no) c v = true := by
  refine ⟨by unfold Within; decide +kernel, ⟨by decide +kernel, by decide +kernel⟩, ?_, ?_, by decide +kernel⟩
  · rw [← abs_signedVolume]; decide +kernel
  · rw [← abs_signedVolume]; decide +kernel

/-- A point beyond a face: the hypotheses of `C197_rejects` hold. -/
example : let c : Fin 4 → Vec := ![![0, 0, 0], ![1, 0, 0], ![0, 1, 0], ![0, 0, 1]]
    let v : Vec := ![1 / 2, 1 / 2, 1 / 2]
    Within 1 c v ∧ IsBary c ![-1 / 2, 1 / 2, 1 / 2, 1 / 2] v ∧
    (∀ k, 7 / 2 ^ 24 * (1 : ℚ) ^ 3 < |(![-1 / 2, 1 / 2, 1 / 2, 1 / 2] : Fin 4 → ℚ) k| * tetVolume c) ∧
    contains32 (fun _ => .first) c v = false := by
  refine ⟨by unfold Within; decide +kernel, ⟨by decide +kernel, by decide +kernel⟩, ?_, by decide +kernel⟩
  rw [← abs_signedVolume]; decide +kernel

/-- A volume which is not exact, with a difference of at most 1. -/
example : let c : Fin 4 → Vec := ![![0, 0, 0], ![1, 0, 0], ![0, 1 / 2, 0], ![0, 0, 1 / 4]]
    (∀ k i, |c k i - c 0 i| ≤ 1) ∧ volume32 (fun _ => .no) c ≠ tetVolume c := by
  refine ⟨by decide +kernel, ?_⟩
  rw [← abs_signedVolume]; decide +kernel

end Verif.Fp
