import Verif.Fp.BoxModel
import Verif.Fp.Wrap
import Verif.Main.BBox

/-! # C127: the extent of a segment in machine arithmetic -/

set_option autoImplicit false

namespace Verif.Fp

open Verif.Go Verif.Geom Verif.Main

theorem F32.half {x : ℚ} (h : F32 x) : F32 (x / 2) := by
  have := rep_scale h (-1)
  rwa [zpow_neg_one, ← div_eq_mul_inv] at this

theorem F32.double {x : ℚ} (h : F32 x) : F32 (x * 2) := by
  have := rep_scale h 1
  rwa [zpow_one] at this

theorem f32_err (x : ℚ) : |f32 x - x| ≤ |x| / 2 ^ 24 := rnd_err 24 x

/-- What holds of one axis: the coordinates `xs` seen so far have periodic images in the box up to `E`, and the box is in
the interval `[b, b + S]` up to `E`. -/
structure AxisOk (w b S E : ℚ) (xs : List ℚ) (a : Axis32) : Prop where
  rc : F32 a.center
  rmax : F32 a.toMax
  rmin : F32 a.toMin
  lo : a.toMin ≤ 0
  hi : 0 ≤ a.toMax
  low : b - E ≤ a.center + a.toMin
  high : a.center + a.toMax ≤ b + S + E
  bal : |a.toMax + a.toMin| ≤ w / 2 ^ 23
  ratio : a.toMax ≤ 2 * -a.toMin ∧ -a.toMin ≤ 2 * a.toMax
  all : ∀ x ∈ xs, ∃ k : ℤ, a.center + a.toMin - E ≤ x + k * w ∧ x + k * w ≤ a.center + a.toMax + E

theorem minMax_spec {lo hi : ℚ} (h : lo ≤ hi) (x : ℚ) : minMax lo hi x = (min lo x, max hi x) := by
  unfold minMax
  split_ifs with c1 c2
  · rw [min_eq_left (by linarith), max_eq_right (by linarith)]
  · rw [min_eq_right (by linarith), max_eq_left (by linarith)]
  · rw [min_eq_left (by linarith), max_eq_left (by linarith)]

theorem AxisOk.add {w b S E : ℚ} {xs : List ℚ} {a : Axis32} (h : AxisOk w b S E xs a) (hw : F32 w) (hw0 : 0 < w)
    (hE : 0 ≤ E) (hS : 0 ≤ S) (hb : -S ≤ b ∧ b ≤ w) (hroom : S + 2 * (E + w / 2 ^ 22) ≤ w / 2) {x : ℚ}
    (hx : 0 ≤ x ∧ x ≤ w) (hin : ∃ k : ℤ, b ≤ x + k * w ∧ x + k * w ≤ b + S) :
    AxisOk w b S (E + w / 2 ^ 22) (x :: xs) (a.add w x) ∧
      ∃ k : ℤ, (a.add w x).center + (a.add w x).toMin - w / 2 ^ 22 ≤ x + k * w ∧
        x + k * w ≤ (a.add w x).center + (a.add w x).toMax + w / 2 ^ 22 := by
  obtain ⟨c, M, m⟩ := a
  obtain ⟨rc, rM, rm, lo, hi, low, high, bal, -, all⟩ := h
  dsimp only at *
  obtain ⟨k, k1, k2⟩ := hin
  set g : ℚ := w / 2 ^ 24 with hg
  have hg0 : 0 < g := by positivity
  have hg22 : w / 2 ^ 22 = 4 * g := by rw [hg]; ring
  have hg23 : w / 2 ^ 23 = 2 * g := by rw [hg]; ring
  rw [hg22] at hroom ⊢
  rw [hg23] at bal
  have hgw : w = 2 ^ 24 * g := by rw [hg]; ring
  -- the displacement
  have hxc : |x - c| ≤ 3 / 2 * w := by rw [abs_le]; constructor <;> linarith
  obtain ⟨p1, k', p2⟩ := subC32_spec (a := x) (b := c) hw (by linarith)
  have e1 := f32_err (x - c)
  have e1' : |x - c| / 2 ^ 24 ≤ 3 / 2 * g := by
    rw [div_le_iff₀ (by norm_num)]
    linarith
  obtain ⟨e1a, e1b⟩ := abs_le.mp (e1.trans e1')
  obtain ⟨p1a, p1b⟩ := abs_le.mp p1
  have hk : k' = k := by
    have d1 : ((k' - k : ℤ) : ℚ) * w < 1 * w := by push_cast; linarith
    have d2 : (-1 : ℚ) * w < ((k' - k : ℤ) : ℚ) * w := by push_cast; linarith
    have d1' := lt_of_mul_lt_mul_right d1 hw0.le
    have d2' := lt_of_mul_lt_mul_right d2 hw0.le
    have f1 : k' - k < 1 := by exact_mod_cast d1'
    have f2 : -1 < k' - k := by exact_mod_cast d2'
    omega
  rw [hk] at p2
  have rx : F32 (subC32 w x c) := by
    unfold subC32
    dsimp only
    split_ifs <;> exact f32_rep _
  unfold Axis32.add
  dsimp only
  rw [minMax_spec (lo.trans hi)]
  dsimp only
  generalize subC32 w x c = y at *
  have rM1 : F32 (max M y) := by rcases max_choice M y with e | e <;> rw [e] <;> assumption
  have rm1 : F32 (min m y) := by rcases min_choice m y with e | e <;> rw [e] <;> assumption
  have hM1 : M ≤ max M y := le_max_left _ _
  have hM2 : y ≤ max M y := le_max_right _ _
  have hm1 : min m y ≤ m := min_le_left _ _
  have hm2 : min m y ≤ y := min_le_right _ _
  have hMu : c + max M y ≤ b + S + (E + 3 / 2 * g) := by
    rcases max_choice M y with e | e <;> rw [e] <;> linarith
  have hml : b - (E + 3 / 2 * g) ≤ c + min m y := by
    rcases min_choice m y with e | e <;> rw [e] <;> linarith
  generalize max M y = M1 at *
  generalize min m y = m1 at *
  -- the shift
  have et : f32 (f64 (f32 (M1 + m1) * (1 / 2))) = f32 (M1 + m1) / 2 := by
    have hr : F32 (f32 (M1 + m1) / 2) := (f32_rep _).half
    rw [mul_one_div, f64_of (F32.f64 hr), f32_of hr]
  rw [et]
  have t1 : m1 ≤ f32 (M1 + m1) / 2 := by
    have := le_f32 rm1.double (show m1 * 2 ≤ M1 + m1 by linarith)
    linarith
  have t2 : f32 (M1 + m1) / 2 ≤ M1 := by
    have := f32_le rM1.double (show M1 + m1 ≤ M1 * 2 by linarith)
    linarith
  have t3 := f32_err (M1 + m1)
  have hsum : |M1 + m1| / 2 ^ 24 ≤ g / 2 := by
    rw [div_le_iff₀ (by norm_num), abs_le]
    constructor <;> linarith
  obtain ⟨t3a, t3b⟩ := abs_le.mp (t3.trans hsum)
  generalize f32 (M1 + m1) = T at *
  -- the new bounds
  have hwM : F32 (w / 2) := hw.half
  have sub_plain : ∀ u : ℚ, |u - T / 2| ≤ w / 2 → subC32 w u (T / 2) = f32 (u - T / 2) := by
    intro u hu
    obtain ⟨u1, u2⟩ := abs_le.mp hu
    have v1 : -(w / 2) ≤ f32 (u - T / 2) := le_f32 (rep_neg hwM) u1
    have v2 : f32 (u - T / 2) ≤ w / 2 := f32_le hwM u2
    unfold subC32
    rw [f32_of hw, f32_of hwM]
    dsimp only
    generalize f32 (u - T / 2) = r at *
    rw [if_neg (by linarith : ¬ r < -w), if_neg (by linarith : ¬ r ≥ w), if_neg (by linarith : ¬ r > w / 2),
      if_neg (by linarith : ¬ r < -(w / 2))]
  have aM : |M1 - T / 2| ≤ w / 2 := by rw [abs_le]; constructor <;> linarith
  have am : |m1 - T / 2| ≤ w / 2 := by rw [abs_le]; constructor <;> linarith
  rw [sub_plain M1 aM, sub_plain m1 am]
  have half : ∀ u : ℚ, |u| ≤ w / 2 → |u| / 2 ^ 24 ≤ g / 2 := by
    intro u hu
    rw [div_le_iff₀ (by norm_num)]
    linarith
  obtain ⟨eMa, eMb⟩ := abs_le.mp ((f32_err (M1 - T / 2)).trans (half _ aM))
  obtain ⟨ema, emb⟩ := abs_le.mp ((f32_err (m1 - T / 2)).trans (half _ am))
  have ec := f32_err (c + T / 2)
  have ec' : |c + T / 2| / 2 ^ 24 ≤ 3 / 2 * g := by
    rw [div_le_iff₀ (by norm_num), abs_le]
    constructor <;> linarith
  obtain ⟨eca, ecb⟩ := abs_le.mp (ec.trans ec')
  have hM0 : 0 ≤ f32 (M1 - T / 2) := f32_nonneg (by linarith)
  have hm0 : f32 (m1 - T / 2) ≤ 0 := rnd_nonpos (by norm_num) (by linarith)
  have hrel : |M1 + m1| / 2 ^ 24 ≤ (M1 - m1) / 2 ^ 24 := by
    gcongr
    rw [abs_le]; constructor <;> linarith
  obtain ⟨t4a, t4b⟩ := abs_le.mp (t3.trans hrel)
  have eM' := f32_err (M1 - T / 2)
  have em' := f32_err (m1 - T / 2)
  rw [abs_of_nonneg (by linarith : 0 ≤ M1 - T / 2)] at eM'
  rw [abs_of_nonpos (by linarith : m1 - T / 2 ≤ 0)] at em'
  obtain ⟨eMc, eMd⟩ := abs_le.mp eM'
  obtain ⟨emc, emd⟩ := abs_le.mp em'
  refine ⟨⟨f32_rep _, f32_rep _, f32_rep _, hm0, hM0, ?_, ?_, ?_, ⟨by linarith, by linarith⟩, ?_⟩, k, by linarith,
    by linarith⟩ <;> dsimp only
  · linarith
  · linarith
  · rw [abs_le, hg23]; constructor <;> linarith
  · intro z hz
    rcases List.mem_cons.mp hz with rfl | hz
    · exact ⟨k, by linarith, by linarith⟩
    · obtain ⟨j, j1, j2⟩ := all z hz
      exact ⟨j, by linarith, by linarith⟩

/-- The number of particles that change the box. -/
def moves (w : ℚ) : Axis32 → List ℚ → ℕ
  | _, [] => 0
  | a, x :: xs => (if a.add w x = a then 0 else 1) + moves w (a.add w x) xs

/-- All coordinates one after the other; the error grows by `w / 2 ^ 22` with each that changes the box. -/
theorem AxisOk.foldl {w b S : ℚ} (hw : F32 w) (hw0 : 0 < w) (hS : 0 ≤ S) (hb : -S ≤ b ∧ b ≤ w) (ys : List ℚ) :
    ∀ {E : ℚ} {xs : List ℚ} {a : Axis32}, AxisOk w b S E xs a → w / 2 ^ 22 ≤ E →
      S + 2 * (E + (moves w a ys + 1) * (w / 2 ^ 22)) ≤ w / 2 →
      (∀ y ∈ ys, 0 ≤ y ∧ y ≤ w) → (∀ y ∈ ys, ∃ k : ℤ, b ≤ y + k * w ∧ y + k * w ≤ b + S) →
      ∃ zs, (∀ z, z ∈ zs ↔ z ∈ xs ∨ z ∈ ys) ∧
        AxisOk w b S (E + moves w a ys * (w / 2 ^ 22)) zs (ys.foldl (Axis32.add w) a) := by
  have hg : 0 < w / 2 ^ 22 := by positivity
  induction ys with
  | nil => intro E xs a h _ _ _ _; exact ⟨xs, by simp, by simpa [moves] using h⟩
  | cons y ys ih =>
    intro E xs a h hE hroom h01 hin
    have hn : (0 : ℚ) ≤ moves w (a.add w y) ys * (w / 2 ^ 22) := by positivity
    have hroom1 : S + 2 * (E + w / 2 ^ 22) ≤ w / 2 := by
      have : (0 : ℚ) ≤ moves w a (y :: ys) * (w / 2 ^ 22) := by positivity
      linarith
    obtain ⟨h1, k, k1, k2⟩ :=
      h.add hw hw0 (by linarith) hS hb hroom1 (h01 y (List.mem_cons_self ..)) (hin y (List.mem_cons_self ..))
    have h01' : ∀ z ∈ ys, 0 ≤ z ∧ z ≤ w := fun z hz => h01 z (List.mem_cons_of_mem _ hz)
    have hin' : ∀ z ∈ ys, ∃ k : ℤ, b ≤ z + k * w ∧ z + k * w ≤ b + S := fun z hz => hin z (List.mem_cons_of_mem _ hz)
    by_cases hst : a.add w y = a
    · have e : moves w a (y :: ys) = moves w a ys := by simp [moves, hst]
      rw [e] at hroom ⊢
      rw [hst] at k1 k2
      have h2 : AxisOk w b S E (y :: xs) a :=
        ⟨h.rc, h.rmax, h.rmin, h.lo, h.hi, h.low, h.high, h.bal, h.ratio, fun z hz => by
          rcases List.mem_cons.mp hz with rfl | hz
          · exact ⟨k, by linarith, by linarith⟩
          · exact h.all z hz⟩
      obtain ⟨zs, hz, h3⟩ := ih h2 hE hroom h01' hin'
      refine ⟨zs, fun z => by rw [hz, List.mem_cons, List.mem_cons]; tauto, ?_⟩
      rw [List.foldl_cons, hst]
      exact h3
    · have e : (moves w a (y :: ys) : ℚ) = 1 + moves w (a.add w y) ys := by simp [moves, hst]
      rw [e] at hroom ⊢
      obtain ⟨zs, hz, h2⟩ := ih h1 (by linarith) (by linarith) h01' hin'
      refine ⟨zs, fun z => by rw [hz, List.mem_cons, List.mem_cons]; tauto, ?_⟩
      rw [List.foldl_cons]
      have e : E + (1 + (moves w (a.add w y) ys : ℚ)) * (w / 2 ^ 22) =
          E + w / 2 ^ 22 + moves w (a.add w y) ys * (w / 2 ^ 22) := by ring
      rw [e]
      exact h2

/-- The number of particles that were outside the box when they were added. -/
def records (w : ℚ) : Axis32 → List ℚ → ℕ
  | _, [] => 0
  | a, x :: xs => (if a.toMin ≤ subC32 w x a.center ∧ subC32 w x a.center ≤ a.toMax then 0 else 1) +
      records w (a.add w x) xs

/-- A particle inside a box makes it symmetric. -/
theorem Axis32.add_inside {w : ℚ} {a : Axis32} (hw : F32 w) (hw0 : 0 < w) (rc : F32 a.center) (rM : F32 a.toMax)
    (rm : F32 a.toMin) (lo : a.toMin ≤ 0) (hi : 0 ≤ a.toMax) (hlen : a.toMax - a.toMin ≤ w / 2)
    (ratio : a.toMax ≤ 2 * -a.toMin ∧ -a.toMin ≤ 2 * a.toMax) {x : ℚ}
    (hx : a.toMin ≤ subC32 w x a.center ∧ subC32 w x a.center ≤ a.toMax) :
    (a.add w x).toMin = -(a.add w x).toMax ∧ (a.toMin = -a.toMax → a.add w x = a) := by
  obtain ⟨c, M, m⟩ := a
  dsimp only at *
  have hs : F32 (M + m) := by
    have := rep_sub (p := 24) (by norm_num) rM (rep_neg rm) (by linarith) (by linarith)
    rwa [sub_neg_eq_add] at this
  have et : f32 (f64 (f32 (M + m) * (1 / 2))) = (M + m) / 2 := by
    rw [f32_of hs, mul_one_div, f64_of (F32.f64 hs.half), f32_of hs.half]
  have hwM : F32 (w / 2) := hw.half
  have sub_plain : ∀ u v : ℚ, |u - v| ≤ w / 2 → subC32 w u v = f32 (u - v) := by
    intro u v hu
    obtain ⟨u1, u2⟩ := abs_le.mp hu
    have v1 : -(w / 2) ≤ f32 (u - v) := le_f32 (rep_neg hwM) u1
    have v2 : f32 (u - v) ≤ w / 2 := f32_le hwM u2
    unfold subC32
    rw [f32_of hw, f32_of hwM]
    dsimp only
    generalize f32 (u - v) = r at *
    rw [if_neg (by linarith : ¬ r < -w), if_neg (by linarith : ¬ r ≥ w), if_neg (by linarith : ¬ r > w / 2),
      if_neg (by linarith : ¬ r < -(w / 2))]
  have e : Axis32.add w ⟨c, M, m⟩ x = ⟨f32 (c + (M + m) / 2), f32 (M - (M + m) / 2), f32 (m - (M + m) / 2)⟩ := by
    unfold Axis32.add
    dsimp only
    rw [minMax_spec (lo.trans hi), min_eq_left hx.1, max_eq_left hx.2]
    dsimp only
    rw [et, sub_plain M _ (by rw [abs_le]; constructor <;> linarith), sub_plain m _ (by rw [abs_le]; constructor <;> linarith)]
  rw [e]
  dsimp only
  constructor
  · rw [show m - (M + m) / 2 = -(M - (M + m) / 2) by ring]
    exact rnd_neg 24 _
  · rintro rfl
    rw [show M + -M = 0 by ring, zero_div, add_zero, sub_zero, sub_zero, f32_of rc, f32_of rM, f32_of rm]

/-- Apart from one more step each, only particles outside the box change it. -/
theorem moves_le_records {w b S : ℚ} (hw : F32 w) (hw0 : 0 < w) (hS : 0 ≤ S) (hb : -S ≤ b ∧ b ≤ w) (ys : List ℚ) :
    ∀ {E : ℚ} {xs : List ℚ} {a : Axis32}, AxisOk w b S E xs a → w / 2 ^ 22 ≤ E →
      S + 2 * (E + (moves w a ys + 1) * (w / 2 ^ 22)) ≤ w / 2 →
      (∀ y ∈ ys, 0 ≤ y ∧ y ≤ w) → (∀ y ∈ ys, ∃ k : ℤ, b ≤ y + k * w ∧ y + k * w ≤ b + S) →
      moves w a ys ≤ 2 * records w a ys + if a.toMin = -a.toMax then 0 else 1 := by
  have hg : 0 < w / 2 ^ 22 := by positivity
  induction ys with
  | nil => intro E xs a h _ _ _ _; simp [moves]
  | cons y ys ih =>
    intro E xs a h hE hroom h01 hin
    have hn : (0 : ℚ) ≤ moves w (a.add w y) ys * (w / 2 ^ 22) := by positivity
    have hroom1 : S + 2 * (E + w / 2 ^ 22) ≤ w / 2 := by
      have : (0 : ℚ) ≤ moves w a (y :: ys) * (w / 2 ^ 22) := by positivity
      linarith
    have h01' : ∀ z ∈ ys, 0 ≤ z ∧ z ≤ w := fun z hz => h01 z (List.mem_cons_of_mem _ hz)
    have hin' : ∀ z ∈ ys, ∃ k : ℤ, b ≤ z + k * w ∧ z + k * w ≤ b + S := fun z hz => hin z (List.mem_cons_of_mem _ hz)
    have inside := fun hx => Axis32.add_inside (x := y) hw hw0 h.rc h.rmax h.rmin h.lo h.hi
      (by linarith [h.low, h.high]) h.ratio hx
    by_cases hst : a.add w y = a
    · have e : moves w a (y :: ys) = moves w a ys := by simp [moves, hst]
      rw [e] at hroom ⊢
      obtain ⟨-, k, k1, k2⟩ :=
        h.add hw hw0 (by linarith) hS hb hroom1 (h01 y (List.mem_cons_self ..)) (hin y (List.mem_cons_self ..))
      have := ih h hE hroom h01' hin'
      have er : records w a ys ≤ records w a (y :: ys) := by simp [records, hst]
      omega
    · have e : moves w a (y :: ys) = 1 + moves w (a.add w y) ys := by simp [moves, hst]
      have e' : (moves w a (y :: ys) : ℚ) = 1 + moves w (a.add w y) ys := by rw [e]; push_cast; ring
      rw [e'] at hroom
      rw [e]
      have h1 :=
        (h.add hw hw0 (by linarith) hS hb hroom1 (h01 y (List.mem_cons_self ..)) (hin y (List.mem_cons_self ..))).1
      have := ih h1 (by linarith) (by linarith) h01' hin'
      by_cases hx : a.toMin ≤ subC32 w y a.center ∧ subC32 w y a.center ≤ a.toMax
      · obtain ⟨i1, i2⟩ := inside hx
        have hns : a.toMin ≠ -a.toMax := fun hc => hst (i2 hc)
        rw [if_pos i1] at this
        rw [if_neg hns]
        have er : records w a (y :: ys) = records w (a.add w y) ys := by simp [records, hx]
        omega
      · have er : records w a (y :: ys) = 1 + records w (a.add w y) ys := by simp only [records, if_neg hx]
        have : (if (a.add w y).toMin = -(a.add w y).toMax then 0 else 1) ≤ 1 := by split_ifs <;> simp
        omega

theorem moves_le_length (w : ℚ) (xs : List ℚ) : ∀ a, moves w a xs ≤ xs.length := by
  induction xs with
  | nil => intro a; rfl
  | cons x xs ih =>
    intro a
    have := ih (a.add w x)
    simp only [moves, List.length_cons]
    split_ifs <;> omega

/-- C127: the extent in the header of a segment of particles that span less than about half a box contains all particles
up to `(n + 3) L / 2 ^ 22`, where `n` is the number of particles that changed the box while it grew, and is larger than
their span by at most as much on each side. -/
theorem C127_partial {L x0 : ℚ} {xs : List ℚ} (hL : F32 L) (hL0 : 0 < L) (r0 : F32 x0) (h0 : x0 ∈ xs)
    (h01 : ∀ x ∈ xs, 0 ≤ x ∧ x ≤ L) {b S : ℚ} (hin : ∀ x ∈ xs, ∃ k : ℤ, b ≤ x + k * L ∧ x + k * L ≤ b + S)
    (hroom : S + 2 * ((moves L ⟨x0, 0, 0⟩ xs + 3) * (L / 2 ^ 22)) ≤ L / 2) :
    (∀ x ∈ xs, InPeriodic L (((axisBox L x0 xs).stored L).1 - (moves L ⟨x0, 0, 0⟩ xs + 3) * (L / 2 ^ 22))
        (((axisBox L x0 xs).stored L).2 + 2 * ((moves L ⟨x0, 0, 0⟩ xs + 3) * (L / 2 ^ 22))) x) ∧
      (0 ≤ ((axisBox L x0 xs).stored L).1 ∧ ((axisBox L x0 xs).stored L).1 ≤ L) ∧
      0 ≤ ((axisBox L x0 xs).stored L).2 ∧
      ∃ j : ℤ, b + j * L - (moves L ⟨x0, 0, 0⟩ xs + 3) * (L / 2 ^ 22) ≤ ((axisBox L x0 xs).stored L).1 ∧
        ((axisBox L x0 xs).stored L).1 + ((axisBox L x0 xs).stored L).2 ≤
          b + S + j * L + (moves L ⟨x0, 0, 0⟩ xs + 3) * (L / 2 ^ 22) := by
  obtain ⟨k0, a1, a2⟩ := hin x0 h0
  obtain ⟨x1, x2⟩ := h01 x0 h0
  have hS : 0 ≤ S := by linarith
  set g : ℚ := L / 2 ^ 24 with hgd
  have hg0 : 0 < g := by positivity
  have hg22 : L / 2 ^ 22 = 4 * g := by rw [hgd]; ring
  have hg23 : L / 2 ^ 23 = 2 * g := by rw [hgd]; ring
  have hgw : L = 2 ^ 24 * g := by rw [hgd]; ring
  have hn0 : (0 : ℚ) ≤ moves L ⟨x0, 0, 0⟩ xs * (L / 2 ^ 22) := by positivity
  have start : AxisOk L (b - k0 * L) S (4 * g) [x0] ⟨x0, 0, 0⟩ :=
    ⟨r0, rep_zero _, rep_zero _, le_rfl, le_rfl, by dsimp only; linarith, by dsimp only; linarith,
      by simp; positivity, by simp, fun z hz => by
        rw [List.mem_singleton.mp hz]
        exact ⟨0, by simp; linarith, by simp; linarith⟩⟩
  obtain ⟨zs, hz, ok⟩ := start.foldl hL hL0 hS ⟨by linarith, by linarith⟩ xs (by rw [hg22]) (by linarith) h01 (by
    intro y hy
    obtain ⟨k, b1, b2⟩ := hin y hy
    exact ⟨k - k0, by push_cast; linarith, by push_cast; linarith⟩)
  change AxisOk L _ S _ zs (axisBox L x0 xs) at ok
  generalize axisBox L x0 xs = a at *
  obtain ⟨c, M, m⟩ := a
  obtain ⟨-, rM, rm, lo, hi, low, high, bal, -, all⟩ := ok
  dsimp only at *
  set E : ℚ := 4 * g + moves L ⟨x0, 0, 0⟩ xs * (L / 2 ^ 22) with hE
  have hd : ((moves L ⟨x0, 0, 0⟩ xs : ℚ) + 3) * (L / 2 ^ 22) = E + 8 * g := by rw [hE, hg22]; ring
  rw [hd] at *
  rw [hg23] at bal
  obtain ⟨bal1, bal2⟩ := abs_le.mp bal
  have hwid : ((⟨c, M, m⟩ : Axis32).stored L).2 = M * 2 := by
    unfold Axis32.stored
    dsimp only
    rw [f64_of (F32.f64 rM.double), f32_of rM.double]
  rw [hwid]
  have eo := f32_err (c + m)
  have eo' : |c + m| / 2 ^ 24 ≤ 3 / 2 * g := by
    rw [div_le_iff₀ (by norm_num), abs_le]
    constructor <;> linarith
  obtain ⟨eoa, eob⟩ := abs_le.mp (eo.trans eo')
  have ro : F32 (f32 (c + m)) := f32_rep _
  have horg : ((⟨c, M, m⟩ : Axis32).stored L).1 = modC32 L (f32 (c + m)) := rfl
  rw [horg]
  generalize f32 (c + m) = o at *
  have ho : 0 ≤ modC32 L o ∧ modC32 L o ≤ L ∧ ∃ y, SamePos L o y ∧ |modC32 L o - y| ≤ g := by
    by_cases hneg : o < 0
    · obtain ⟨q1, q2, q3, -⟩ := C125_mod_partial hL (by linarith) hneg
      exact ⟨q1, q2, q3⟩
    · obtain ⟨-, q1, q2, q3⟩ := C125_mod_exact hL ro (by linarith) (by linarith) (.inl (not_lt.mp hneg))
      exact ⟨q1, q2.le, _, q3, by rw [sub_self, abs_zero]; exact hg0.le⟩
  obtain ⟨ho1, ho2, y, ⟨k1, rfl⟩, hy⟩ := ho
  obtain ⟨hy1, hy2⟩ := abs_le.mp hy
  generalize modC32 L o = r at *
  refine ⟨fun x hx => ?_, ⟨ho1, ho2⟩, by linarith, k1 - k0, by push_cast; linarith, by push_cast; linarith⟩
  obtain ⟨k, c1, c2⟩ := all x ((hz x).mpr (.inr hx))
  exact ⟨k + k1, by push_cast; linarith, by push_cast; linarith⟩

/-- C127: how many particles change the box: no more than there are, and at most two for each particle that lay outside the
box when it was added. -/
theorem C127_moves {L x0 : ℚ} {xs : List ℚ} (hL : F32 L) (hL0 : 0 < L) (r0 : F32 x0) (h0 : x0 ∈ xs)
    (h01 : ∀ x ∈ xs, 0 ≤ x ∧ x ≤ L) {b S : ℚ} (hin : ∀ x ∈ xs, ∃ k : ℤ, b ≤ x + k * L ∧ x + k * L ≤ b + S)
    (hroom : S + 2 * ((moves L ⟨x0, 0, 0⟩ xs + 3) * (L / 2 ^ 22)) ≤ L / 2) :
    moves L ⟨x0, 0, 0⟩ xs ≤ xs.length ∧ moves L ⟨x0, 0, 0⟩ xs ≤ 2 * records L ⟨x0, 0, 0⟩ xs := by
  obtain ⟨k0, a1, a2⟩ := hin x0 h0
  obtain ⟨x1, x2⟩ := h01 x0 h0
  have hg : 0 < L / 2 ^ 22 := by positivity
  have start : AxisOk L (b - k0 * L) S (L / 2 ^ 22) [x0] ⟨x0, 0, 0⟩ :=
    ⟨r0, rep_zero _, rep_zero _, le_rfl, le_rfl, by dsimp only; linarith, by dsimp only; linarith,
      by simp; positivity, by simp, fun z hz => by
        rw [List.mem_singleton.mp hz]
        exact ⟨0, by simpa using hg.le, by simpa using hg.le⟩⟩
  refine ⟨moves_le_length _ _ _, ?_⟩
  have := moves_le_records hL hL0 (by linarith : 0 ≤ S) ⟨by linarith, by linarith⟩ xs start le_rfl (by linarith) h01 (by
    intro y hy
    obtain ⟨k, b1, b2⟩ := hin y hy
    exact ⟨k - k0, by push_cast; linarith, by push_cast; linarith⟩)
  simpa using this

/-- The hypotheses are met, here across the upper end of the box. -/
example : ∀ x ∈ [7.5, 0.25, (1 : ℚ)], (0 ≤ x ∧ x ≤ 8) ∧ ∃ k : ℤ, 7.5 ≤ x + k * 8 ∧ x + k * 8 ≤ 7.5 + 1.5 := by
  intro x hx
  simp only [List.mem_cons, List.not_mem_nil, or_false] at hx
  rcases hx with rfl | rfl | rfl
  · exact ⟨by norm_num, 0, by norm_num⟩
  · exact ⟨by norm_num, 1, by norm_num⟩
  · exact ⟨by norm_num, 1, by norm_num⟩

example : ((axisBox 8 7.5 [7.5, 0.25, 1]).stored 8) = (7.5, 1.5) := by decide +kernel

/-- C127: two particles are enough for an extent that does not contain one of them: that at `3 - 2 ^ -22` lies below the
header's origin 3. -/
theorem C127_counterexample :
    let xs : List ℚ := [3 - 1 / 2 ^ 22, 3.5625]
    (∀ x ∈ xs, F32 x ∧ 0 ≤ x ∧ x < 8) ∧ (axisBox 8 (3 - 1 / 2 ^ 22) xs).stored 8 = (3, 0.5625 + 1 / 2 ^ 22) ∧
      ¬ InPeriodic 8 3 (0.5625 + 1 / 2 ^ 22) (3 - 1 / 2 ^ 22) := by
  refine ⟨?_, by decide +kernel, ?_⟩
  · intro x hx
    simp only [List.mem_cons, List.not_mem_nil, or_false] at hx
    rcases hx with rfl | rfl
    · exact ⟨⟨12582911, -22, by norm_num, by norm_num⟩, by norm_num, by norm_num⟩
    · exact ⟨⟨57, -4, by norm_num, by norm_num⟩, by norm_num, by norm_num⟩
  · rintro ⟨n, h1, h2⟩
    have a : (0 : ℚ) < n := by by_contra hc; linarith
    have b : (n : ℚ) < 1 := by by_contra hc; linarith
    have a' : 0 < n := by exact_mod_cast a
    have b' : n < 1 := by exact_mod_cast b
    omega

end Verif.Fp
