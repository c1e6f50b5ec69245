import Verif.Fp.Box

/-! # C128: scaled positions and the buffer of a segment in machine arithmetic -/

set_option autoImplicit false

namespace Verif.Fp

open Verif.Go Verif.Geom Verif.Main

/-- Two numbers of `p` bits that are very close are equal. -/
theorem rep_near {p : ℕ} {x y : ℚ} (hx : Rep p x) (hy : Rep p y) (h0 : 0 < x) (h : |y - x| < x / 2 ^ (p + 1)) : y = x := by
  obtain ⟨e1, e2⟩ := expo_spec h0.ne'
  rw [abs_of_pos h0] at e1 e2
  have hp1 : x / 2 ^ (p + 1) ≤ x / 2 := by
    apply div_le_div_of_nonneg_left h0.le (by norm_num)
    calc (2 : ℚ) = 2 ^ 1 := by norm_num
      _ ≤ 2 ^ (p + 1) := pow_le_pow_right₀ (by norm_num) (by omega)
  obtain ⟨h1, h2⟩ := abs_lt.mp h
  have hE : (2 : ℚ) ^ (expo x - 1) = (2 : ℚ) ^ expo x / 2 := by rw [zpow_sub₀ two_ne_zero, zpow_one]
  have hle : x ≤ (2 : ℚ) ^ (expo x + 1) := e2.le
  obtain ⟨a, ha⟩ := rep_multiple hx (E := expo x - 1) (by
    have : (0 : ℚ) < (2 : ℚ) ^ expo x := by positivity
    rw [abs_of_pos h0, hE]; linarith)
  obtain ⟨b, hb⟩ := rep_multiple hy (E := expo x - 1) (by
    rw [abs_of_pos (by linarith), hE]; linarith)
  generalize expo x = e at *
  have hu : (0 : ℚ) < (2 : ℚ) ^ (e - 1 - ((p : ℤ) - 1)) := by positivity
  have hlt : |((b - a : ℤ) : ℚ)| * (2 : ℚ) ^ (e - 1 - ((p : ℤ) - 1)) < 1 * (2 : ℚ) ^ (e - 1 - ((p : ℤ) - 1)) := by
    have ee : |y - x| = |((b - a : ℤ) : ℚ)| * (2 : ℚ) ^ (e - 1 - ((p : ℤ) - 1)) := by
      have : y - x = ((b - a : ℤ) : ℚ) * (2 : ℚ) ^ (e - 1 - ((p : ℤ) - 1)) := by
        push_cast; linear_combination hb - ha
      rw [this, abs_mul, abs_of_pos hu]
    rw [← ee, one_mul]
    refine h.trans_le ?_
    rw [div_le_iff₀ (by positivity)]
    calc x ≤ (2 : ℚ) ^ (e + 1) := hle
      _ = (2 : ℚ) ^ (e - 1 - ((p : ℤ) - 1)) * 2 ^ (p + 1) := by
        rw [← zpow_natCast, ← zpow_add₀ two_ne_zero]
        congr 1
        push_cast
        ring
  have h3 := lt_of_mul_lt_mul_right hlt hu.le
  have h4 : |b - a| < 1 := by exact_mod_cast h3
  have h5 : b = a := by rw [abs_lt] at h4; omega
  rw [h5] at hb
  exact hb.trans ha.symm

theorem f64_err (x : ℚ) : |f64 x - x| ≤ |x| / 2 ^ 53 := rnd_err 53 x

theorem f64_cells {C : ℤ} (h0 : 0 < C) (h1 : C ≤ 2 ^ 24) : f64 (C : ℚ) = C :=
  f64_of (f64_int (by rw [abs_of_pos h0]; exact h1.trans (by norm_num)))

theorem f32_cells {C : ℤ} (h0 : 0 ≤ C) (h1 : C ≤ 2 ^ 24) : f32 (C : ℚ) = C :=
  f32_of (rep_of_int (by rw [abs_of_nonneg h0]; exact h1) (by norm_num))

/-- The width of a cell. -/
theorem cellWidth_err {L : ℚ} {C : ℤ} (hL : 0 < L) (hC : 0 < C) (hC' : C ≤ 2 ^ 24) :
    |f64 (L / f64 C) - L / C| ≤ L / C / 2 ^ 53 := by
  rw [f64_cells hC hC']
  have := f64_err (L / C)
  have hc : (0 : ℚ) < C := by exact_mod_cast hC
  rwa [abs_of_pos (by positivity : (0 : ℚ) < L / C)] at this

/-- The width of the box that the renderer passes on is the box size. -/
theorem boxWidth_eq {L : ℚ} {C : ℤ} (hF : F32 L) (hL : 0 < L) (hC : 0 < C) (hC' : C ≤ 2 ^ 24) :
    f32 (boxWidth64 L C) = L := by
  have hc : (0 : ℚ) < C := by exact_mod_cast hC
  have e1 := cellWidth_err hL hC hC'
  unfold boxWidth64
  rw [f64_cells hC hC'] at *
  obtain ⟨a1, a2⟩ := abs_le.mp e1
  set cw := f64 (L / C)
  have b1 : |cw * C - L| ≤ L / 2 ^ 53 := by
    have : cw * C - L = (cw - L / C) * C := by field_simp
    rw [this, abs_mul, abs_of_pos hc]
    calc |cw - L / C| * C ≤ L / C / 2 ^ 53 * C := by gcongr
      _ = L / 2 ^ 53 := by field_simp
  obtain ⟨b1a, b1b⟩ := abs_le.mp b1
  have g : L / 2 ^ 53 * 2 ^ 28 = L / 2 ^ 25 := by ring
  have g0 : 0 < L / 2 ^ 53 := by positivity
  have b2 := f64_err (cw * C)
  have hcw : |cw * C| / 2 ^ 53 ≤ 2 * (L / 2 ^ 53) := by
    rw [← mul_div_assoc]
    gcongr
    rw [abs_le]; constructor <;> linarith
  obtain ⟨b2a, b2b⟩ := abs_le.mp (b2.trans hcw)
  set bw := f64 (cw * C)
  have b3 := rnd_nearest (p := 24) (by norm_num) bw hF
  have b4 : |L - bw| ≤ 3 * (L / 2 ^ 53) := by rw [abs_le]; constructor <;> linarith
  obtain ⟨b4a, b4b⟩ := abs_le.mp b4
  obtain ⟨b5a, b5b⟩ := abs_le.mp (b3.trans b4)
  apply rep_near hF (f32_rep _) hL
  change -_ ≤ f32 bw - bw at b5a
  change f32 bw - bw ≤ _ at b5b
  rw [abs_lt]
  norm_num at *
  constructor <;> linarith

/-- The cell of a coordinate in double precision. -/
theorem quot_err {L a : ℚ} {C : ℤ} (hL : 0 < L) (hC : 0 < C) (hC' : C ≤ 2 ^ 24) (h0 : 0 ≤ a) (h1 : a ≤ 2 * L) :
    |f64 (a / f64 (L / f64 C)) - a * C / L| ≤ C / 2 ^ 50 := by
  have hc : (0 : ℚ) < C := by exact_mod_cast hC
  have e1 := cellWidth_err hL hC hC'
  set cw := f64 (L / f64 C)
  obtain ⟨a1, a2⟩ := abs_le.mp e1
  have hd : 0 < L / C := by positivity
  have hcw : L / C / 2 ≤ cw := by
    have : L / C / 2 ^ 53 ≤ L / C / 2 := by
      apply div_le_div_of_nonneg_left hd.le (by norm_num) (by norm_num)
    linarith
  have hcw0 : 0 < cw := by linarith [half_pos hd]
  have q1 : a / cw ≤ 4 * C := by
    rw [div_le_iff₀ hcw0]
    calc a ≤ 2 * L := h1
      _ = 4 * C * (L / C / 2) := by field_simp; ring
      _ ≤ 4 * C * cw := by gcongr
  have q0 : 0 ≤ a / cw := by positivity
  have d1 : |a / cw - a * C / L| ≤ 4 * (C / 2 ^ 53) := by
    have : a / cw - a * C / L = a / cw * ((L / C - cw) / (L / C)) := by field_simp
    rw [this, abs_mul, abs_of_nonneg q0, abs_div, abs_of_pos hd]
    have h2 : |L / C - cw| / (L / C) ≤ 1 / 2 ^ 53 := by
      rw [div_le_iff₀ hd, abs_sub_comm]
      linarith
    calc a / cw * (|L / C - cw| / (L / C)) ≤ 4 * C * (1 / 2 ^ 53) := by gcongr
      _ = _ := by ring
  have d2 := f64_err (a / cw)
  rw [abs_of_nonneg q0] at d2
  have d3 : a / cw / 2 ^ 53 ≤ 4 * C / 2 ^ 53 := by gcongr
  have := abs_sub_le (f64 (a / cw)) (a / cw) (a * C / L)
  have e : (C : ℚ) / 2 ^ 50 = 8 * (C / 2 ^ 53) := by ring
  rw [e]
  have e2 : 4 * (C : ℚ) / 2 ^ 53 = 4 * (C / 2 ^ 53) := by ring
  linarith

/-- C128: what scaling does to a coordinate: up to `C / 2 ^ 21` it is the coordinate in cells from the origin of the segment
on, plus a period when that is negative. -/
theorem C128_scale {L x : ℚ} {C org : ℤ} (hF : F32 L) (hL : 0 < L) (hC : 0 < C) (hC' : C ≤ 2 ^ 24) (h0 : 0 ≤ x)
    (h1 : x ≤ L) (ho : 0 ≤ org) (ho' : org ≤ C) :
    (x * C / L - org ≥ C / 2 ^ 21 → |scaleSeg32 C (boxWidth64 L C) org x - (x * C / L - org)| ≤ C / 2 ^ 21) ∧
      (x * C / L - org ≤ -(C / 2 ^ 21) →
        |scaleSeg32 C (boxWidth64 L C) org x - (x * C / L - org + C)| ≤ C / 2 ^ 21) := by
  have hc : (0 : ℚ) < C := by exact_mod_cast hC
  have hoq : (0 : ℚ) ≤ org := by exact_mod_cast ho
  have hoq' : (org : ℚ) ≤ C := by exact_mod_cast ho'
  unfold scaleSeg32
  rw [boxWidth_eq hF hL hC hC', f32_cells hC.le hC', f32_cells ho (ho'.trans hC')]
  dsimp only
  set g : ℚ := C / 2 ^ 24 with hg
  have hg0 : 0 < g := by positivity
  have hg21 : (C : ℚ) / 2 ^ 21 = 8 * g := by rw [hg]; ring
  have hgC : (C : ℚ) = 2 ^ 24 * g := by rw [hg]; ring
  rw [hg21]
  have hs := f32_err ((C : ℚ) / L)
  rw [abs_of_pos (by positivity : (0 : ℚ) < C / L)] at hs
  have q0 : 0 ≤ x * C / L := by positivity
  have q1 : x * C / L ≤ C := by rw [div_le_iff₀ hL, mul_comm (C : ℚ)]; gcongr
  -- the product
  have d1 : |x * f32 (C / L) - x * C / L| ≤ g := by
    have : x * f32 (C / L) - x * C / L = x * (f32 (C / L) - C / L) := by ring
    rw [this, abs_mul, abs_of_nonneg h0]
    calc x * |f32 (C / L) - C / L| ≤ L * (C / L / 2 ^ 24) := by gcongr
      _ = g := by rw [hg]; field_simp
  obtain ⟨d1a, d1b⟩ := abs_le.mp d1
  generalize x * f32 ((C : ℚ) / L) = y at *
  generalize x * C / L = q at *
  have d2 := f32_err y
  have d2' : |y| / 2 ^ 24 ≤ 2 * g := by
    rw [div_le_iff₀ (by norm_num), abs_le]; constructor <;> linarith
  obtain ⟨d2a, d2b⟩ := abs_le.mp (d2.trans d2')
  generalize f32 y = z at *
  have d3 := f32_err (z - org)
  have d3' : |z - org| / 2 ^ 24 ≤ 2 * g := by
    rw [div_le_iff₀ (by norm_num), abs_le]; constructor <;> linarith
  obtain ⟨d3a, d3b⟩ := abs_le.mp (d3.trans d3')
  generalize f32 (z - org) = t at *
  constructor
  · intro h
    rw [if_neg (by linarith), abs_le]
    constructor <;> linarith
  · intro h
    rw [if_pos (by linarith)]
    have d4 := f32_err (t + C)
    have d4' : |t + C| / 2 ^ 24 ≤ 2 * g := by
      rw [div_le_iff₀ (by norm_num), abs_le]; constructor <;> linarith
    obtain ⟨d4a, d4b⟩ := abs_le.mp (d4.trans d4')
    rw [abs_le]
    constructor <;> linarith

example : scaleSeg32 8 (boxWidth64 8 8) 3 (7 / 2) = 1 / 2 ∧ scaleSeg32 8 (boxWidth64 8 8) 3 (1 / 2) = 11 / 2 := by
  decide +kernel

/-- The arithmetic of the cells: `oc` and `wc` are the extent of the header in cells, `Q` and `R` what the program computes
for its ends. -/
theorem cells_core {C : ℤ} {g oc wc Q R : ℚ} (hC : 8 ≤ C) (hC' : C ≤ 2 ^ 24) (hg : (C : ℚ) = 2 ^ 24 * g)
    (hQ : |Q - oc| ≤ g / 2 ^ 26) (hR : |R - (oc + wc)| ≤ 2 * g) (hQ0 : 0 ≤ Q) (hoc : oc ≤ C) (hwc : wc ≤ C / 2) :
    0 ≤ ⌊Q⌋ ∧ ⌊Q⌋ ≤ C ∧ 1 + ⌊R⌋ - ⌊Q⌋ ≤ C := by
  have hc8 : (8 : ℚ) ≤ C := by exact_mod_cast hC
  have hc24 : (C : ℚ) ≤ 2 ^ 24 := by exact_mod_cast hC'
  obtain ⟨q1, q2⟩ := abs_le.mp hQ
  obtain ⟨r1, r2⟩ := abs_le.mp hR
  have a1 := Int.floor_le Q
  have a2 := Int.lt_floor_add_one Q
  have b1 := Int.floor_le R
  norm_num at hg q1 q2 hc24
  refine ⟨Int.floor_nonneg.mpr hQ0, ?_, ?_⟩
  · have : (⌊Q⌋ : ℚ) < C + 1 := by linarith
    exact_mod_cast Int.lt_add_one_iff.mp (by exact_mod_cast this)
  · have : 1 + (⌊R⌋ : ℚ) < C + 1 + ⌊Q⌋ := by linarith
    have : 1 + ⌊R⌋ < C + 1 + ⌊Q⌋ := by exact_mod_cast this
    omega

/-- The cells of the particles: `q` is the coordinate of a particle in cells. -/
theorem cells_particle {C k : ℤ} {g oc wc Q R n q D : ℚ} (hD : 0 ≤ D) (hC : 0 < C) (hg : (C : ℚ) = 2 ^ 24 * g)
    (hQ : |Q - oc| ≤ g / 2 ^ 26) (hR : |R - (oc + wc)| ≤ 2 * g) (c0 : 0 ≤ ⌊Q⌋) (c1 : ⌊Q⌋ ≤ C)
    (cW : 1 + ⌊R⌋ - ⌊Q⌋ ≤ C) (hn : 0 ≤ n) (q0 : 0 ≤ q) (q1 : q ≤ C) (k1 : oc - 4 * (n + 3) * g ≤ q + k * C)
    (k2 : q + k * C ≤ oc + wc + 4 * (n + 3) * g) (off : ∀ z : ℤ, (4 * (n + 3) + 16 + D) * g < |q - z|) :
    (k = 0 ∨ k = 1) ∧ (28 + D) * g < q + k * C - ⌊Q⌋ ∧
      q + k * C - ⌊Q⌋ < ((1 + ⌊R⌋ - ⌊Q⌋ : ℤ) : ℚ) - (28 + D) * g := by
  have hc0 : (0 : ℚ) < C := by exact_mod_cast hC
  have g0 : 0 < g := by linarith
  have hng : 0 ≤ n * g := by positivity
  have hDg : 0 ≤ D * g := by positivity
  obtain ⟨e1, e2⟩ := abs_le.mp hQ
  obtain ⟨r1, r2⟩ := abs_le.mp hR
  have a1 := Int.floor_le Q
  have b2 := Int.lt_floor_add_one R
  have cWq : 1 + (⌊R⌋ : ℚ) - ⌊Q⌋ ≤ C := by exact_mod_cast cW
  have c0q : (0 : ℚ) ≤ ⌊Q⌋ := by exact_mod_cast c0
  have c1q : (⌊Q⌋ : ℚ) ≤ C := by exact_mod_cast c1
  have lo : (28 + D) * g < q + k * C - ⌊Q⌋ := by
    have := off (⌊Q⌋ - k * C)
    push_cast at this
    rcases lt_abs.mp this with h | h
    · linarith
    · exfalso
      norm_num at e1 e2
      linarith
  have hi : q + k * C - ⌊Q⌋ < 1 + (⌊R⌋ : ℚ) - ⌊Q⌋ - (28 + D) * g := by
    have := off (1 + ⌊R⌋ - k * C)
    push_cast at this
    rcases lt_abs.mp this with h | h
    · exfalso; linarith
    · linarith
  have hk0 : -1 < k := by
    by_contra hcon
    have : (k : ℚ) ≤ -1 := by exact_mod_cast not_lt.mp hcon
    nlinarith
  have hk2 : k < 2 := by
    by_contra hcon
    have : (2 : ℚ) ≤ k := by exact_mod_cast not_lt.mp hcon
    nlinarith
  refine ⟨by omega, lo, ?_⟩
  push_cast
  exact hi

/-- Where particles that keep a small distance from the faces of the cells are scaled to. -/
theorem scaled_full {L x0 : ℚ} {xs : List ℚ} {C : ℤ} {D : ℚ} (hD : 0 ≤ D) (hL : F32 L) (hL0 : 0 < L) (r0 : F32 x0)
    (h0 : x0 ∈ xs)
    (h01 : ∀ x ∈ xs, 0 ≤ x ∧ x ≤ L) {b S : ℚ} (hin : ∀ x ∈ xs, ∃ k : ℤ, b ≤ x + k * L ∧ x + k * L ≤ b + S)
    (hroom : S + 2 * ((moves L ⟨x0, 0, 0⟩ xs + 3) * (L / 2 ^ 22)) ≤ L / 2) (hC : 8 ≤ C) (hC' : C ≤ 2 ^ 24)
    (hoff : ∀ x ∈ xs, ∀ z : ℤ, (4 * (moves L ⟨x0, 0, 0⟩ xs + 3) + 16 + D) * (C / 2 ^ 24) < |x * C / L - z|) :
    let hd := (axisBox L x0 xs).stored L
    let cb := cellAxis L hd.1 hd.2 C
    cb.2 ≤ C ∧ ∀ x ∈ xs, (20 + D) * (C / 2 ^ 24) < scaleSeg32 C (boxWidth64 L C) cb.1 x ∧
      scaleSeg32 C (boxWidth64 L C) cb.1 x < cb.2 - (20 + D) * (C / 2 ^ 24) ∧
      C ∣ ⌊scaleSeg32 C (boxWidth64 L C) cb.1 x⌋ + cb.1 - ⌊x * C / L⌋ ∧
      (∀ z : ℤ, (20 + D) * (C / 2 ^ 24) < |scaleSeg32 C (boxWidth64 L C) cb.1 x - z|) ∧
      ∃ k : ℤ, |scaleSeg32 C (boxWidth64 L C) cb.1 x - (x * C / L + k * C - cb.1)| ≤ 8 * (C / 2 ^ 24) ∧
        hd.1 * C / L - 4 * (moves L ⟨x0, 0, 0⟩ xs + 3) * (C / 2 ^ 24) ≤ x * C / L + k * C ∧
        x * C / L + k * C ≤ hd.1 * C / L + hd.2 * C / L + 4 * (moves L ⟨x0, 0, 0⟩ xs + 3) * (C / 2 ^ 24) := by
  intro hd cb
  obtain ⟨A, ⟨o0, oL⟩, w0, j, j1, j2⟩ := C127_partial hL hL0 r0 h0 h01 hin hroom
  have hC0 : 0 < C := by omega
  have hc : (0 : ℚ) < C := by exact_mod_cast hC0
  have hcb : cb = (⌊f64 (hd.1 / f64 (L / f64 C))⌋,
    1 + ⌊f64 (f32 (hd.1 + hd.2) / f64 (L / f64 C))⌋ - ⌊f64 (hd.1 / f64 (L / f64 C))⌋) := rfl
  clear_value cb
  subst hcb
  dsimp only
  change ∀ x ∈ xs, InPeriodic L (hd.1 - _) (hd.2 + _) x at A
  change 0 ≤ hd.1 at o0
  change hd.1 ≤ L at oL
  change 0 ≤ hd.2 at w0
  change _ ≤ hd.1 at j1
  change hd.1 + hd.2 ≤ _ at j2
  clear_value hd
  obtain ⟨o, w⟩ := hd
  dsimp only at *
  have hn0 : (0 : ℚ) ≤ (moves L ⟨x0, 0, 0⟩ xs : ℚ) := Nat.cast_nonneg _
  generalize (moves L ⟨x0, 0, 0⟩ xs : ℚ) = n at *
  have hw : w ≤ L / 2 := by linarith
  obtain ⟨g, hg⟩ : ∃ g : ℚ, g = C / 2 ^ 24 := ⟨_, rfl⟩
  rw [← hg] at hoff ⊢
  have hg0 : 0 < g := by rw [hg]; positivity
  have hgC : (C : ℚ) = 2 ^ 24 * g := by rw [hg]; ring
  have hg50 : (C : ℚ) / 2 ^ 50 = g / 2 ^ 26 := by rw [hg]; ring
  have hg21 : (C : ℚ) / 2 ^ 21 = 8 * g := by rw [hg]; ring
  have hdc : (n + 3) * (L / 2 ^ 22) * C / L = 4 * (n + 3) * g := by rw [hg]; field_simp; ring
  -- the sum of origin and width
  have es := f32_err (o + w)
  rw [abs_of_nonneg (by linarith : 0 ≤ o + w)] at es
  have s0 : 0 ≤ f32 (o + w) := f32_nonneg (by linarith)
  have es' : (o + w) / 2 ^ 24 ≤ 3 / 2 * (L / 2 ^ 24) := by
    rw [← mul_div_assoc]; gcongr; linarith
  have sL : L / 2 ^ 24 ≤ L / 4 := div_le_div_of_nonneg_left hL0.le (by norm_num) (by norm_num)
  obtain ⟨es1, es2⟩ := abs_le.mp (es.trans es')
  have qo := quot_err hL0 hC0 hC' o0 (by linarith : o ≤ 2 * L)
  have qs := quot_err hL0 hC0 hC' s0 (by linarith : f32 (o + w) ≤ 2 * L)
  rw [hg50] at qo qs
  have fo0 : 0 ≤ f64 (o / f64 (L / f64 C)) := by
    have : 0 ≤ f64 (L / f64 C) := f64_nonneg (by rw [f64_cells hC0 hC']; positivity)
    exact f64_nonneg (by positivity)
  have hsq : |f32 (o + w) * C / L - (o + w) * C / L| ≤ 3 / 2 * g := by
    have e : f32 (o + w) * C / L - (o + w) * C / L = (f32 (o + w) - (o + w)) * (C / L) := by ring
    rw [e, abs_mul, abs_of_pos (by positivity : (0 : ℚ) < C / L)]
    calc |f32 (o + w) - (o + w)| * (C / L) ≤ 3 / 2 * (L / 2 ^ 24) * (C / L) := by
          gcongr
          exact es.trans es'
      _ = 3 / 2 * g := by rw [hg]; field_simp
  have hsum : (o + w) * C / L = o * C / L + w * C / L := by ring
  rw [hsum] at hsq
  have qs' : |f64 (f32 (o + w) / f64 (L / f64 C)) - (o * C / L + w * C / L)| ≤ 2 * g := by
    have := abs_sub_le (f64 (f32 (o + w) / f64 (L / f64 C))) (f32 (o + w) * C / L) (o * C / L + w * C / L)
    have hg50' : g / 2 ^ 26 ≤ g / 2 := div_le_div_of_nonneg_left hg0.le (by norm_num) (by norm_num)
    linarith
  have hwC : w * C / L ≤ C / 2 := by
    rw [div_le_iff₀ hL0]; nlinarith
  have hoC : o * C / L ≤ C := by
    rw [div_le_iff₀ hL0, mul_comm (C : ℚ)]; gcongr
  clear hsq qs
  have kk : ∀ x ∈ xs, ∃ k : ℤ, o * C / L - 4 * (n + 3) * g ≤ x * C / L + k * C ∧
      x * C / L + k * C ≤ o * C / L + w * C / L + 4 * (n + 3) * g := by
    intro x hx
    obtain ⟨k, k1, k2⟩ := A x hx
    refine ⟨k, ?_, ?_⟩
    · rw [← hdc]
      have : x * C / L + k * C = (x + k * L) * C / L := by field_simp
      rw [this, ← sub_div, ← sub_mul]
      gcongr
    · rw [← hdc]
      have : x * C / L + k * C = (x + k * L) * C / L := by field_simp
      rw [this, ← add_div, ← add_mul, ← add_div, ← add_mul]
      exact div_le_div_of_nonneg_right (mul_le_mul_of_nonneg_right (by linarith) hc.le) hL0.le
  generalize o * C / L = oc at *
  generalize w * C / L = wc at *
  generalize f64 (o / f64 (L / f64 C)) = Q at *
  generalize f64 (f32 (o + w) / f64 (L / f64 C)) = R at *
  obtain ⟨c0, c1, cW⟩ := cells_core hC hC' hgC qo qs' fo0 hoC hwC
  refine ⟨cW, fun x hx => ?_⟩
  obtain ⟨k, k1, k2⟩ := kk x hx
  obtain ⟨x1, x2⟩ := h01 x hx
  obtain ⟨sc1, sc2⟩ := C128_scale hL hL0 hC0 hC' x1 x2 c0 c1
  have q0 : 0 ≤ x * C / L := by positivity
  have q1 : x * C / L ≤ C := by rw [div_le_iff₀ hL0, mul_comm (C : ℚ)]; gcongr
  have off := hoff x hx
  rw [hg21] at sc1 sc2
  generalize x * C / L = q at *
  obtain ⟨hk, lo, hi⟩ := cells_particle hD hC0 hgC qo qs' c0 c1 cW hn0 q0 q1 k1 k2 off
  have hWq : ((1 + ⌊R⌋ - ⌊Q⌋ : ℤ) : ℚ) ≤ C := by exact_mod_cast cW
  have hDg : 0 ≤ D * g := by positivity
  have key : |scaleSeg32 C (boxWidth64 L C) ⌊Q⌋ x - (q + k * C - ⌊Q⌋)| ≤ 8 * g := by
    rcases hk with rfl | rfl
    · have := sc1 (by push_cast at lo; linarith)
      push_cast
      rwa [zero_mul, add_zero]
    · have := sc2 (by push_cast at hi hWq; linarith)
      push_cast
      rwa [one_mul, show q + (C : ℚ) - ⌊Q⌋ = q - ⌊Q⌋ + C by ring]
  generalize scaleSeg32 C (boxWidth64 L C) ⌊Q⌋ x = y at *
  obtain ⟨y1, y2⟩ := abs_le.mp key
  refine ⟨by linarith, by linarith, ⟨k, ?_⟩, fun z => ?_, k, key, k1, k2⟩
  rotate_left
  · have hng : 0 ≤ n * g := by positivity
    have o1 := off (z - k * C + ⌊Q⌋)
    push_cast at o1
    rw [lt_abs] at o1 ⊢
    rcases o1 with h | h
    · left; linarith
    · right; linarith
  have hf : ⌊y⌋ = ⌊q⌋ + k * C - ⌊Q⌋ := by
    rw [Int.floor_eq_iff]
    push_cast
    have hng : 0 ≤ n * g := by positivity
    have f1 := Int.floor_le q
    have f2 := Int.lt_floor_add_one q
    have o1 := off ⌊q⌋
    have o2 := off (⌊q⌋ + 1)
    push_cast at o2
    rw [abs_of_nonneg (by linarith : (0 : ℚ) ≤ q - ⌊q⌋)] at o1
    rw [abs_of_neg (by linarith : q - (⌊q⌋ + 1) < 0)] at o2
    constructor <;> linarith
  rw [hf]
  ring

/-- Particles that keep a small distance from the faces of the cells keep a distance from the faces of the buffer and of its
cells. -/
theorem scaled_margin {L x0 : ℚ} {xs : List ℚ} {C : ℤ} {D : ℚ} (hD : 0 ≤ D) (hL : F32 L) (hL0 : 0 < L) (r0 : F32 x0)
    (h0 : x0 ∈ xs)
    (h01 : ∀ x ∈ xs, 0 ≤ x ∧ x ≤ L) {b S : ℚ} (hin : ∀ x ∈ xs, ∃ k : ℤ, b ≤ x + k * L ∧ x + k * L ≤ b + S)
    (hroom : S + 2 * ((moves L ⟨x0, 0, 0⟩ xs + 3) * (L / 2 ^ 22)) ≤ L / 2) (hC : 8 ≤ C) (hC' : C ≤ 2 ^ 24)
    (hoff : ∀ x ∈ xs, ∀ z : ℤ, (4 * (moves L ⟨x0, 0, 0⟩ xs + 3) + 16 + D) * (C / 2 ^ 24) < |x * C / L - z|) :
    let hd := (axisBox L x0 xs).stored L
    let cb := cellAxis L hd.1 hd.2 C
    cb.2 ≤ C ∧ ∀ x ∈ xs, (20 + D) * (C / 2 ^ 24) < scaleSeg32 C (boxWidth64 L C) cb.1 x ∧
      scaleSeg32 C (boxWidth64 L C) cb.1 x < cb.2 - (20 + D) * (C / 2 ^ 24) ∧
      C ∣ ⌊scaleSeg32 C (boxWidth64 L C) cb.1 x⌋ + cb.1 - ⌊x * C / L⌋ ∧
      ∀ z : ℤ, (20 + D) * (C / 2 ^ 24) < |scaleSeg32 C (boxWidth64 L C) cb.1 x - z| := by
  obtain ⟨h1, h2⟩ := scaled_full hD hL hL0 r0 h0 h01 hin hroom hC hC' hoff
  exact ⟨h1, fun x hx => ⟨(h2 x hx).1, (h2 x hx).2.1, (h2 x hx).2.2.1, (h2 x hx).2.2.2.1⟩⟩

/-- C128: particles that keep a small distance from the faces of the cells are scaled into the buffer of their segment, and
into the right cell: for particles that span less than about half a box and whose coordinate in cells differs from every
integer by more than `(4 (n + 3) + 16) C / 2 ^ 24`, where `n` is the number of particles that changed the box of the
segment while it grew. -/
theorem C128_partial {L x0 : ℚ} {xs : List ℚ} {C : ℤ} (hL : F32 L) (hL0 : 0 < L) (r0 : F32 x0) (h0 : x0 ∈ xs)
    (h01 : ∀ x ∈ xs, 0 ≤ x ∧ x ≤ L) {b S : ℚ} (hin : ∀ x ∈ xs, ∃ k : ℤ, b ≤ x + k * L ∧ x + k * L ≤ b + S)
    (hroom : S + 2 * ((moves L ⟨x0, 0, 0⟩ xs + 3) * (L / 2 ^ 22)) ≤ L / 2) (hC : 8 ≤ C) (hC' : C ≤ 2 ^ 24)
    (hoff : ∀ x ∈ xs, ∀ z : ℤ, (4 * (moves L ⟨x0, 0, 0⟩ xs + 3) + 16) * (C / 2 ^ 24) < |x * C / L - z|) :
    let hd := (axisBox L x0 xs).stored L
    let cb := cellAxis L hd.1 hd.2 C
    cb.2 ≤ C ∧ ∀ x ∈ xs, 0 ≤ scaleSeg32 C (boxWidth64 L C) cb.1 x ∧ scaleSeg32 C (boxWidth64 L C) cb.1 x < cb.2 ∧
      C ∣ ⌊scaleSeg32 C (boxWidth64 L C) cb.1 x⌋ + cb.1 - ⌊x * C / L⌋ := by
  intro hd cb
  obtain ⟨h1, h2⟩ := scaled_margin le_rfl hL hL0 r0 h0 h01 hin hroom hC hC' (by simpa using hoff)
  have hg : (0 : ℚ) < (20 + 0) * (C / 2 ^ 24) := by
    have : (0 : ℚ) < C := by exact_mod_cast (by omega : 0 < C)
    positivity
  refine ⟨h1, fun x hx => ?_⟩
  obtain ⟨a, b, c, -⟩ := h2 x hx
  exact ⟨(hg.trans a).le, by linarith, c⟩

/-- The hypotheses are met, here across the edge of the box. -/
example : let xs : List ℚ := [7.5, 0.25, 1.25]
    (∀ x ∈ xs, ∃ k : ℤ, (7.5 : ℚ) ≤ x + k * 8 ∧ x + k * 8 ≤ 7.5 + 1.75) ∧
      (∀ x ∈ xs, ∀ z : ℤ, (4 * ((moves 8 ⟨7.5, 0, 0⟩ xs : ℚ) + 3) + 16) * ((8 : ℤ) / 2 ^ 24) < |x * (8 : ℤ) / 8 - z|) ∧
      (1.75 : ℚ) + 2 * ((moves 8 ⟨7.5, 0, 0⟩ xs + 3) * (8 / 2 ^ 22)) ≤ 8 / 2 := by
  have hmv : moves 8 ⟨7.5, 0, 0⟩ [7.5, 0.25, 1.25] ≤ 3 := moves_le_length _ _ _
  have hmv' : ((moves 8 ⟨7.5, 0, 0⟩ [7.5, 0.25, 1.25] : ℕ) : ℚ) ≤ 3 := by exact_mod_cast hmv
  refine ⟨?_, ?_, by linarith⟩
  · intro x hx
    simp only [List.mem_cons, List.not_mem_nil, or_false] at hx
    rcases hx with rfl | rfl | rfl
    · exact ⟨0, by norm_num⟩
    · exact ⟨1, by norm_num⟩
    · exact ⟨1, by norm_num⟩
  · intro x hx z
    have h4 : (1 : ℚ) / 4 ≤ |x - z| := by
      have : ∃ m : ℤ, x * 4 = m ∧ m % 4 ≠ 0 := by
        simp only [List.mem_cons, List.not_mem_nil, or_false] at hx
        rcases hx with rfl | rfl | rfl
        · exact ⟨30, by norm_num⟩
        · exact ⟨1, by norm_num⟩
        · exact ⟨5, by norm_num⟩
      obtain ⟨m, hm, hm4⟩ := this
      have h1 : 1 ≤ |m - 4 * z| := Int.one_le_abs (by omega)
      have h2 : (1 : ℚ) ≤ |(m : ℚ) - 4 * z| := by exact_mod_cast h1
      rw [← hm, show x * 4 - 4 * z = 4 * (x - z) by ring, abs_mul, abs_of_pos (by norm_num : (0 : ℚ) < 4)] at h2
      linarith
    push_cast
    rw [mul_div_assoc x 8 8, div_self (by norm_num), mul_one]
    refine lt_of_lt_of_le ?_ h4
    linarith

/-- C128: two particles in one segment are enough for a position outside the buffer of the segment: that at `3 - 2 ^ -22` is
scaled to 8, the buffer is one cell wide. -/
theorem C128_counterexample :
    let xs : List ℚ := [3 - 1 / 2 ^ 22, 3.5625]
    let hd := (axisBox 8 (3 - 1 / 2 ^ 22) xs).stored 8
    let cb := cellAxis 8 hd.1 hd.2 8
    cb = (3, 1) ∧ scaleSeg32 8 (boxWidth64 8 8) cb.1 (3 - 1 / 2 ^ 22) = 8 := by
  decide +kernel

end Verif.Fp
