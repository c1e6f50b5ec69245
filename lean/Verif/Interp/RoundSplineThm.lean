import Verif.Interp.RoundSplineErr

/-! Splines in machine arithmetic: property C150. -/

set_option autoImplicit false

namespace Verif.Interp

open Verif.Go Verif.Mat

theorem Dir.half {s : ℚ} {X : Nat → ℚ} {n : Nat} (d : Dir s X n) {i : Nat} (hi : i < n - 2) :
    |sA X i| + |sC X i| = |sB X i| / 2 ∧ 0 < |sB X i| ∧
      |X (i + 1) - X i| + |X (i + 2) - X (i + 1)| = 3 * |sB X i| := by
  have h1 := d.lt i (i + 1) (by omega) (by omega)
  have h2 := d.lt (i + 1) (i + 2) (by omega) (by omega)
  unfold sA sB sC
  rw [abs_div, abs_div, abs_div, abs_of_pos (show (0 : ℚ) < 6 by norm_num), abs_of_pos (show (0 : ℚ) < 3 by norm_num)]
  rcases d.sgn with e | e
  · rw [e] at h1 h2
    simp only [one_mul] at h1 h2
    rw [abs_of_pos (show 0 < X (i + 1) - X i by linarith), abs_of_pos (show 0 < X (i + 2) - X i by linarith),
      abs_of_pos (show 0 < X (i + 2) - X (i + 1) by linarith)]
    refine ⟨by ring, by linarith, by ring⟩
  · rw [e] at h1 h2
    simp only [neg_mul, one_mul, neg_lt_neg_iff] at h1 h2
    rw [abs_of_neg (show X (i + 1) - X i < 0 by linarith), abs_of_neg (show X (i + 2) - X i < 0 by linarith),
      abs_of_neg (show X (i + 2) - X (i + 1) < 0 by linarith)]
    refine ⟨by ring, by linarith, by ring⟩

theorem row_entry {f : FP} {u : ℚ} (h : f.Laws u) (hu : u ≤ 1 / 1024) (h0 : 0 < u) (x : ℚ) {c : ℚ} (hc : 0 < c) :
    Ap u |x / c| (41 / 20 * |x / c|) (f.fl (f.fl x / c)) (x / c) := by
  have := (((Ap.refl u x).fl h hu).smul (show (0 : ℚ) ≤ 1 / c by positivity)).fl h hu
  rw [show 1 / c * f.fl x = f.fl x / c by ring, show 1 / c * x = x / c by ring,
    show 1 / c * |x| = |x / c| by rw [abs_div, abs_of_pos hc]; ring,
    show 1 / c * (|x| + 0 * (1025 / 1024)) = |x / c| by rw [abs_div, abs_of_pos hc]; ring] at this
  exact this.weaken h0.le le_rfl (by linarith [abs_nonneg (x / c)])

theorem slope_err {f : FP} {u : ℚ} (h : f.Laws u) (hu : u ≤ 1 / 1024) (h0 : 0 < u) (y : ℚ) {x : ℚ} (hx : x ≠ 0) :
    Ap u |y / x| (16 / 5 * |y / x|) (f.fl (f.fl y / f.fl x)) (y / x) := by
  have k := (((Ap.refl u y).fl h hu).div_fl h hu h0 hx le_rfl).2
  have H0 : 0 < |x| := abs_pos.mpr hx
  refine ⟨le_rfl, ?_⟩
  rw [show f.fl (f.fl y / f.fl x) - y / x = (f.fl (f.fl y / f.fl x) * x - y) / x by field_simp, abs_div, div_le_iff₀ H0]
  refine k.trans ?_
  rw [show 16 / 5 * |y / x| * u * |x| = 16 / 5 * |y| * u by rw [abs_div]; field_simp]
  exact mul_le_mul_of_nonneg_right (by linarith [abs_nonneg y]) h0.le

/-- The rounded system is still strongly dominated by its diagonal. -/
theorem rounded_dominant {f : FP} {u : ℚ} (h : f.Laws u) (hu : u ≤ 1 / 1024) (h0 : 0 < u) {s : ℚ} {X : Nat → ℚ} {n : Nat}
    (d : Dir s X n) {i : Nat} (hi : i < n - 2) :
    sBR f X i ≠ 0 ∧ 15 / 8 * (|sAR f X i| + |sCR f X i|) ≤ |sBR f X i| := by
  obtain ⟨e, p, -⟩ := d.half hi
  have a := (row_entry h hu h0 (X (i + 1) - X i) (show (0 : ℚ) < 6 by norm_num)).size
  have b := (row_entry h hu h0 (X (i + 2) - X i) (show (0 : ℚ) < 3 by norm_num)).2
  have c := (row_entry h hu h0 (X (i + 2) - X (i + 1)) (show (0 : ℚ) < 6 by norm_num)).size
  change |sAR f X i| ≤ |sA X i| + 41 / 20 * |sA X i| * u at a
  change |sBR f X i - sB X i| ≤ 41 / 20 * |sB X i| * u at b
  change |sCR f X i| ≤ |sC X i| + 41 / 20 * |sC X i| * u at c
  have b1 := abs_sub_abs_le_abs_sub (sB X i) (sBR f X i)
  rw [abs_sub_comm] at b1
  have m1 := mul_le_mul_of_nonneg_left hu (abs_nonneg (sA X i))
  have m2 := mul_le_mul_of_nonneg_left hu (abs_nonneg (sB X i))
  have m3 := mul_le_mul_of_nonneg_left hu (abs_nonneg (sC X i))
  have key : 15 / 8 * (|sAR f X i| + |sCR f X i|) ≤ |sBR f X i| := by linarith
  refine ⟨?_, key⟩
  intro hz
  rw [hz] at b b1
  rw [abs_zero] at b1
  linarith

theorem sSR_eq {f : FP} {X Y : Nat → ℚ} {n : Nat} (hn : 3 ≤ n) (k : Nat) :
    sSR f X Y n k = solR f (sAR f X) (sBR f X) (sCR f X) (sRR f X Y) (n - 2) k := by
  unfold sSR solR
  by_cases c : k = 0 ∨ n ≤ k + 1
  · rw [if_pos c, if_pos (by omega)]
  · rw [if_neg c, if_neg (by omega), show n - 2 - 1 - (k - 1) = n - 2 - k by omega]

/-- The size of the exact second derivatives at the knots. -/
theorem sS_size {s : ℚ} {X Y : Nat → ℚ} {n : Nat} (hn : 3 ≤ n) (d : Dir s X n) {G : ℚ} (hG0 : 0 ≤ G)
    (hG : ∀ i < n - 2, |(Y (i + 2) - Y (i + 1)) / (X (i + 2) - X (i + 1))| + |(Y (i + 1) - Y i) / (X (i + 1) - X i)| ≤
      G * (|X (i + 1) - X i| + |X (i + 2) - X (i + 1)|)) (k : Nat) : |sS X Y n k| ≤ 45 / 7 * G := by
  have := dominant_max (A := sA X) (B := sB X) (C := sC X) (e := sS X Y n) (m := n - 2) (τ := 3 * G) (by positivity)
    (fun i hi => abs_pos.mp (d.half hi).2.1) (fun i hi => by have := d.half hi; linarith [this.1])
    (by rw [sS, if_pos (Or.inl rfl)]) (fun j hj => by rw [sS, if_pos (Or.inr (by omega))]) (fun i hi => by
      rw [sS_row (d.ok hn) hi]
      have h1 := abs_sub ((Y (i + 2) - Y (i + 1)) / (X (i + 2) - X (i + 1))) ((Y (i + 1) - Y i) / (X (i + 1) - X i))
      have h2 := hG i hi
      rw [(d.half hi).2.2] at h2
      unfold sR
      linarith) k
  linarith

theorem row_err {u A B C R A' B' C' R' z0 z1 z2 S0 S1 S2 M G : ℚ} (a : Ap u |A| (41 / 20 * |A|) A' A)
    (b : Ap u |B| (41 / 20 * |B|) B' B) (c : Ap u |C| (41 / 20 * |C|) C' C)
    (res : |R' - (A' * z0 + B' * z1 + C' * z2)| ≤ 7 * u * (|A'| * |z0| + |B'| * |z1| + |C'| * |z2|))
    (r : |R' - R| ≤ 12.9 * G * |B| * u) (row : A * S0 + B * S1 + C * S2 = R) (hu : u ≤ 1 / 1024) (h0 : 0 < u) (p : 0 < |B|)
    (e : |A| + |C| = |B| / 2) (h1 : |z0| ≤ M) (h2 : |z1| ≤ M) (h3 : |z2| ≤ M) (hG : 0 ≤ G) :
    |A * (z0 - S0) + B * (z1 - S1) + C * (z2 - S2)| ≤ (14 * M + 12.9 * G) * u * |B| := by
  have M0 : 0 ≤ M := (abs_nonneg _).trans h1
  have term : ∀ {x x' z : ℚ}, Ap u |x| (41 / 20 * |x|) x' x → |z| ≤ M →
      |(x - x') * z| ≤ 41 / 20 * |x| * u * M ∧ |x'| * |z| ≤ |x| * (1026.1 / 1024) * M := by
    intro x x' z k hz
    constructor
    · rw [abs_mul, abs_sub_comm]
      exact mul_le_mul k.2 hz (abs_nonneg _) k.K_nonneg
    · have k1 := k.size
      have k2 := mul_le_mul_of_nonneg_left hu (abs_nonneg x)
      exact mul_le_mul (by linarith [abs_nonneg x]) hz (abs_nonneg _) (by positivity)
  obtain ⟨a1, a2⟩ := term a h1
  obtain ⟨b1, b2⟩ := term b h2
  obtain ⟨c1, c2⟩ := term c h3
  have id : A * (z0 - S0) + B * (z1 - S1) + C * (z2 - S2) =
      ((A - A') * z0 + (B - B') * z1 + (C - C') * z2) + ((R' - R) - (R' - (A' * z0 + B' * z1 + C' * z2))) := by
    rw [← row]; ring
  rw [id]
  have t1 := abs_add_le ((A - A') * z0 + (B - B') * z1 + (C - C') * z2) ((R' - R) - (R' - (A' * z0 + B' * z1 + C' * z2)))
  have t2 := abs_add_three ((A - A') * z0) ((B - B') * z1) ((C - C') * z2)
  have t3 := abs_sub (R' - R) (R' - (A' * z0 + B' * z1 + C' * z2))
  have e1 : (|A| + |C|) * (u * M) = |B| / 2 * (u * M) := by rw [e]
  have q := mul_le_mul_of_nonneg_left (add_le_add (add_le_add a2 b2) c2) (show 0 ≤ 7 * u by linarith)
  have q2 : 0 ≤ |B| * (u * M) := by positivity
  linarith

/-- The computed second derivatives at the knots. -/
theorem sSR_err {f : FP} {u : ℚ} (h : f.Laws u) (hu : u ≤ 1 / 1024) (h0 : 0 < u) {s : ℚ} {X Y : Nat → ℚ} {n : Nat}
    (hn : 3 ≤ n) (d : Dir s X n) {G : ℚ} (hG0 : 0 ≤ G)
    (hG : ∀ i < n - 2, |(Y (i + 2) - Y (i + 1)) / (X (i + 2) - X (i + 1))| + |(Y (i + 1) - Y i) / (X (i + 1) - X i)| ≤
      G * (|X (i + 1) - X i| + |X (i + 2) - X (i + 1)|)) (k : Nat) :
    Ap u (45 / 7 * G) (256 * G) (sSR f X Y n k) (sS X Y n k) := by
  have size := sS_size hn d hG0 hG
  refine ⟨size k, ?_⟩
  have dom := fun i hi => rounded_dominant h hu h0 d (i := i) hi
  have res := fun i hi => tri_residual (R := sRR f X Y) h hu (fun i hi => (dom i hi).1) (fun i hi => (dom i hi).2) i hi
  simp only [← sSR_eq hn] at res
  obtain ⟨z, hz⟩ : ∃ z, z = sSR f X Y n := ⟨_, rfl⟩
  obtain ⟨S, hS⟩ : ∃ S, S = sS X Y n := ⟨_, rfl⟩
  have z0 : z 0 = 0 := by rw [hz, sSR, if_pos (Or.inl rfl)]
  have zn : ∀ j, n - 2 < j → z j = 0 := fun j hj => by rw [hz, sSR, if_pos (Or.inr (by omega))]
  have S0 : S 0 = 0 := by rw [hS, sS, if_pos (Or.inl rfl)]
  have Sn : ∀ j, n - 2 < j → S j = 0 := fun j hj => by rw [hS, sS, if_pos (Or.inr (by omega))]
  have row := fun i hi => sS_row (Y := Y) (d.ok hn) (i := i) hi
  rw [← hz] at res ⊢
  rw [← hS] at row size ⊢
  obtain ⟨m, -, hmax⟩ := Finset.exists_max_image (Finset.range (n - 1)) (fun i => |z i|) ⟨0, by simp; omega⟩
  obtain ⟨M, hM'⟩ : ∃ M, M = |z m| := ⟨_, rfl⟩
  have hM : ∀ j, |z j| ≤ M := by
    intro j
    rw [hM']
    by_cases c : n - 2 < j
    · rw [zn j c, abs_zero]; exact abs_nonneg _
    · exact hmax j (Finset.mem_range.mpr (by omega))
  have M0 : 0 ≤ M := (abs_nonneg _).trans (hM 0)
  have err : ∀ j, |z j - S j| ≤ (30 * M + 28 * G) * u := by
    intro j
    have := dominant_max (A := sA X) (B := sB X) (C := sC X) (e := fun j => z j - S j) (m := n - 2)
      (τ := (14 * M + 12.9 * G) * u) (by positivity)
      (fun i hi => abs_pos.mp (d.half hi).2.1) (fun i hi => by have := d.half hi; linarith [this.1])
      (by simp [z0, S0]) (fun j hj => by simp [zn j hj, Sn j hj]) (fun i hi => by
        obtain ⟨e, p, e3⟩ := d.half hi
        have a := (row_entry h hu h0 (X (i + 1) - X i) (show (0 : ℚ) < 6 by norm_num))
        have b := (row_entry h hu h0 (X (i + 2) - X i) (show (0 : ℚ) < 3 by norm_num))
        have c := (row_entry h hu h0 (X (i + 2) - X (i + 1)) (show (0 : ℚ) < 6 by norm_num))
        change Ap u |sA X i| (41 / 20 * |sA X i|) (sAR f X i) (sA X i) at a
        change Ap u |sB X i| (41 / 20 * |sB X i|) (sBR f X i) (sB X i) at b
        change Ap u |sC X i| (41 / 20 * |sC X i|) (sCR f X i) (sC X i) at c
        have r : |sRR f X Y i - sR X Y i| ≤ 12.9 * G * |sB X i| * u := by
          have r1 := ((slope_err h hu h0 (Y (i + 2) - Y (i + 1)) (d.ne (i := i + 1) (by omega))).sub
            (slope_err h hu h0 (Y (i + 1) - Y i) (d.ne (i := i) (by omega)))).fl h hu
          refine r1.2.trans (mul_le_mul_of_nonneg_right ?_ h0.le)
          have h2 := hG i hi
          rw [e3] at h2
          have q1 := abs_nonneg ((Y (i + 2) - Y (i + 1)) / (X (i + 2) - X (i + 1)))
          have q2 := abs_nonneg ((Y (i + 1) - Y i) / (X (i + 1) - X i))
          show |(Y (i + 2) - Y (i + 1)) / (X (i + 2) - X (i + 1))| + _ + _ * (1025 / 1024) ≤ _
          show |(Y (i + 2) - Y (i + 1)) / (X (i + 2) - X (i + 1))| + _ +
            (16 / 5 * |(Y (i + 2) - Y (i + 1)) / (X (i + 2) - X (i + 1))| + _) * (1025 / 1024) ≤ _
          linarith
        exact row_err a b c (res i hi) r (row i hi) hu h0 p e (hM i) (hM (i + 1)) (hM (i + 2)) hG0) j
    refine this.trans ?_
    linarith [mul_nonneg M0 h0.le, mul_nonneg hG0 h0.le]
  have hk : M ≤ (30 * M + 28 * G) * u + 45 / 7 * G := by
    have := abs_add_le (z m - S m) (S m)
    rw [sub_add_cancel, ← hM'] at this
    linarith [err m, size m]
  have hM7 : M ≤ 27 / 4 * G := by
    have m1 := mul_le_mul_of_nonneg_left hu (show 0 ≤ 30 * M + 28 * G by positivity)
    linarith
  exact (err k).trans (mul_le_mul_of_nonneg_right (by linarith) h0.le)

/-! ### Evaluation -/

theorem bsearchR_spec {sp : Spline} {f : FP} {s : ℚ} {X Y : Nat → ℚ} {n : Nat} (k : sp.ForR f s X Y n) {x : ℚ}
    (h0 : s * X 0 ≤ s * x) (h1 : s * x ≤ s * X (n - 1)) :
    ∃ i : Nat, sp.bsearchR f x = some (i : Int) ∧ i + 1 < n ∧ Brk s X i x := by
  have hn := k.three
  have r0 : rd sp.xs 0 = some (X 0) := rd_fn_nat k.hx 0 rfl (by omega)
  unfold Spline.bsearchR
  simp only [r0, bind, Option.bind_some]
  obtain ⟨sp', f', hx', -⟩ := spline_init hn k.dir k.lx k.ly k.hx k.hy
  obtain ⟨i, e, hi⟩ := bsearchWith_spec f' h0 h1 (trunc (f.fl (f.fl (x - X 0) / sp.dx)))
  refine ⟨i, ?_, hi⟩
  rw [← e]
  unfold Spline.bsearchWith
  rw [hx', k.incr, f'.incr]

theorem splineR_inside {sp : Spline} {f : FP} {s : ℚ} {X Y : Nat → ℚ} {n : Nat} (k : sp.ForR f s X Y n) (left : Bool) {x : ℚ}
    (h0 : s * X 0 ≤ s * x) (h1 : s * x ≤ s * X (n - 1)) :
    (s = 1 ∧ x = X 0 ∧ sp.evalR f left x = some (Y 0)) ∨ (s = 1 ∧ x = X (n - 1) ∧ sp.evalR f left x = some (Y (n - 1))) ∨
    ∃ i, i + 1 < n ∧ Brk s X i x ∧
      sp.evalR f left x = some (cubicR f left (sKR f X Y (sSR f X Y n) i) (f.fl (x - X i))) := by
  have hn := k.three
  have r0 : rd sp.xs 0 = some (X 0) := rd_fn_nat k.hx 0 rfl (by omega)
  have rl : rd sp.xs ((sp.xs.length : Int) - 1) = some (X (n - 1)) :=
    rd_fn_nat k.hx (n - 1) (by rw [k.lx]; omega) (by omega)
  have y0 : rd sp.ys 0 = some (Y 0) := rd_fn_nat k.hy 0 rfl (by omega)
  have yl : rd sp.ys ((sp.ys.length : Int) - 1) = some (Y (n - 1)) :=
    rd_fn_nat k.hy (n - 1) (by rw [k.ly]; omega) (by omega)
  unfold Spline.evalR
  simp only [r0, rl, bind, Option.bind_some]
  by_cases c : decide (x ≤ X 0) = sp.incr ∨ decide (x ≥ X (n - 1)) = sp.incr
  · rw [if_pos c]
    rw [k.incr] at c
    rcases k.dir.sgn with e | e
    · rw [e] at c h0 h1
      simp at c h0 h1
      rcases c with c | c
      · have : x = X 0 := le_antisymm c h0
        left
        exact ⟨e, this, by rw [if_pos this, y0]⟩
      · have hx : x = X (n - 1) := le_antisymm h1 c
        right; left
        refine ⟨e, hx, ?_⟩
        have lt := k.dir.lt 0 (n - 1) (by omega) (by omega)
        rw [e, one_mul, one_mul] at lt
        rw [if_neg (by rw [hx]; exact lt.ne'), if_pos hx, yl]
    · exfalso
      rw [e, decide_eq_false (show ¬ ((-1 : ℚ) = 1) by norm_num)] at c
      rw [e] at h0 h1
      simp at c h0 h1
      rcases c with c | c <;> linarith
  · rw [if_neg c]
    obtain ⟨j, e, hj, bj⟩ := bsearchR_spec k h0 h1
    have rx : rd sp.xs (j : Int) = some (X j) := rd_fn_nat k.hx j rfl (by omega)
    have rk : rd sp.coeffs (j : Int) = some (sKR f X Y (sSR f X Y n) j) := rd_fn_nat k.hk j rfl (by omega)
    right; right
    exact ⟨j, hj, bj, by simp only [e, rx, rk, Option.bind_some]⟩

theorem splineR_ends {sp : Spline} {f : FP} {X Y : Nat → ℚ} {n : Nat} (k : sp.ForR f 1 X Y n) (left : Bool) :
    sp.evalR f left (X 0) = some (Y 0) ∧ sp.evalR f left (X (n - 1)) = some (Y (n - 1)) := by
  have hn := k.three
  have r0 : rd sp.xs 0 = some (X 0) := rd_fn_nat k.hx 0 rfl (by omega)
  have rl : rd sp.xs ((sp.xs.length : Int) - 1) = some (X (n - 1)) :=
    rd_fn_nat k.hx (n - 1) (by rw [k.lx]; omega) (by omega)
  have y0 : rd sp.ys 0 = some (Y 0) := rd_fn_nat k.hy 0 rfl (by omega)
  have yl : rd sp.ys ((sp.ys.length : Int) - 1) = some (Y (n - 1)) :=
    rd_fn_nat k.hy (n - 1) (by rw [k.ly]; omega) (by omega)
  have lt := k.dir.lt 0 (n - 1) (by omega) (by omega)
  rw [one_mul, one_mul] at lt
  unfold Spline.evalR
  simp only [r0, rl, bind, Option.bind_some, k.incr]
  constructor
  · rw [if_pos (by simp), if_pos trivial, y0]
  · rw [if_pos (by simp), if_neg lt.ne', if_pos trivial, yl]

theorem splineR_outside {sp : Spline} {f : FP} {s : ℚ} {X Y : Nat → ℚ} {n : Nat} (k : sp.ForR f s X Y n) (left : Bool) {x : ℚ}
    (h : s * x < s * X 0 ∨ s * X (n - 1) < s * x) : sp.evalR f left x = none := by
  have hn := k.three
  have r0 : rd sp.xs 0 = some (X 0) := rd_fn_nat k.hx 0 rfl (by omega)
  have rl : rd sp.xs ((sp.xs.length : Int) - 1) = some (X (n - 1)) :=
    rd_fn_nat k.hx (n - 1) (by rw [k.lx]; omega) (by omega)
  have hlt := k.dir.lt 0 (n - 1) (by omega) (by omega)
  unfold Spline.evalR
  simp only [r0, rl, bind, Option.bind_some]
  rw [if_pos, if_neg, if_neg]
  · rintro rfl; rcases h with h | h
    · exact absurd (h.trans hlt) (lt_irrefl _)
    · exact lt_irrefl _ h
  · rintro rfl; rcases h with h | h
    · exact lt_irrefl _ h
    · exact absurd (h.trans hlt) (lt_irrefl _)
  · rw [k.incr]
    rcases k.dir.sgn with e | e
    · rw [e] at h ⊢; simp only [one_mul] at h; simp
      rcases h with h | h
      · left; exact h.le
      · right; exact h.le
    · rw [e] at h ⊢; simp only [neg_mul, one_mul, neg_lt_neg_iff] at h
      rw [decide_eq_false (show ¬ ((-1 : ℚ) = 1) by norm_num)]; simp
      exact h

/-- The rounded pivots never vanish. -/
theorem Dir.okR {f : FP} {u : ℚ} (h : f.Laws u) (hu : u ≤ 1 / 1024) (h0 : 0 < u) {s : ℚ} {X : Nat → ℚ} {n : Nat}
    (d : Dir s X n) (hn : 3 ≤ n) : sOkR f X n :=
  ⟨by omega, fun i hi => (tri_pivots h hu (fun i hi => (rounded_dominant h hu h0 d hi).1)
    (fun i hi => (rounded_dominant h hu h0 d hi).2) i hi).1⟩

/-! ### Specification -/

/-- Slope of the line through the points `i` and `i + 1`. -/
def chord (xs ys : List ℚ) (i : ℕ) : ℚ := (ys.getD (i + 1) 0 - ys.getD i 0) / (xs.getD (i + 1) 0 - xs.getD i 0)

/-- `G` bounds how much the table bends: the slopes on both sides of every inner knot are at most `G` times the distance of
its neighbours. -/
def Bend (xs ys : List ℚ) (G : ℚ) : Prop :=
  ∀ i, i + 2 < xs.length → |chord xs ys i| + |chord xs ys (i + 1)| ≤ G * |xs.getD (i + 2) 0 - xs.getD i 0|

/-- Allowed error in cell `i`. -/
def splineTol (u G : ℚ) (xs ys : List ℚ) (i : ℕ) : ℚ :=
  u * (2 * |ys.getD i 0| + 10 * |ys.getD (i + 1) 0 - ys.getD i 0| + 512 * (G * (xs.getD (i + 1) 0 - xs.getD i 0) ^ 2))

/-- **C150** for splines: in machine arithmetic of ten or more bits the constructor accepts every strictly monotone table of
three or more points. Inside the table `Eval` returns a value within `splineTol` of the natural cubic spline through the points;
outside it panics. On an increasing table the values at the two ends are those of the table. -/
theorem C150_spline {p : ℕ} (hp : 10 ≤ p) (fused left : Bool) (xs ys : List ℚ) (hl : xs.length = ys.length)
    (hn : 3 ≤ xs.length) (hm : xs.Pairwise (· < ·) ∨ xs.Pairwise (· > ·)) :
    ∃ sp P, newSplineR (fp p fused) xs ys = some sp ∧ NaturalSpline xs ys P ∧
      (∀ x, (∃ i, InCell xs i x) → ∃ i r, InCell xs i x ∧ sp.evalR (fp p fused) left x = some r ∧
        ∀ G, Bend xs ys G → |r - (P i).eval x| ≤ splineTol (1 / 2 ^ p) G xs ys i) ∧
      (∀ x, (∀ a ∈ xs, x < a) ∨ (∀ a ∈ xs, a < x) → sp.evalR (fp p fused) left x = none) ∧
      (xs.Pairwise (· < ·) → ∀ x y, (xs.head? = some x ∧ ys.head? = some y) ∨ (xs.getLast? = some x ∧ ys.getLast? = some y) →
        sp.evalR (fp p fused) left x = some y) := by
  obtain ⟨f, hf⟩ : ∃ f, f = fp p fused := ⟨_, rfl⟩
  obtain ⟨u, hu'⟩ : ∃ u : ℚ, u = 1 / 2 ^ p := ⟨_, rfl⟩
  have h : f.Laws u := by rw [hf, hu']; exact fp_laws (by omega) fused
  have hu : u ≤ 1 / 1024 := by
    rw [hu']
    have : (2 : ℚ) ^ 10 ≤ 2 ^ p := pow_le_pow_right₀ (by norm_num) hp
    exact one_div_le_one_div_of_le (by norm_num) (by linarith)
  have h0 : 0 < u := by rw [hu']; positivity
  rw [← hf, ← hu']
  clear hf hu'
  obtain ⟨s, d⟩ := monotone_dir hm
  obtain ⟨sp, e, k, hxs, hys, -⟩ := spline_newR (f := f) hn d (d.okR h hu h0 hn) rfl hl.symm (fun i hi => rd_getD hi)
    (fun i hi => rd_getD (show i < ys.length by omega))
  have ns := sP_natural hn d rfl (fun i hi => rd_getD hi) (ys := ys) (fun i hi => rd_getD (show i < ys.length by omega))
  refine ⟨sp, _, e, ns, ?_, ?_, ?_⟩
  · rintro x ⟨i0, hx⟩
    obtain ⟨hi0, b0⟩ := (inCell_brk d).mp hx
    obtain ⟨g0, g1⟩ := brk_range d hi0 b0
    have tol0 : ∀ {G : ℚ} {i : ℕ}, Bend xs ys G → 0 ≤ G ∧ 0 ≤ splineTol u G xs ys i := by
      intro G i hG
      have := hG 0 (by omega)
      have lt := d.lt 0 2 (by omega) (by omega)
      have ne : 0 < |xs.getD 2 0 - xs.getD 0 0| := by
        apply abs_pos.mpr
        intro hz
        rw [sub_eq_zero.mp hz] at lt
        exact lt_irrefl _ lt
      have G0 : 0 ≤ G := by
        by_contra c
        have := mul_neg_of_neg_of_pos (not_le.mp c) ne
        have q1 := abs_nonneg (chord xs ys 0)
        have q2 := abs_nonneg (chord xs ys 1)
        simp only [zero_add] at *
        linarith
      refine ⟨G0, ?_⟩
      unfold splineTol
      positivity
    rcases splineR_inside k left g0 g1 with ⟨hs, hx0, he⟩ | ⟨hs, hx1, he⟩ | ⟨i, hi, bi, he⟩
    · refine ⟨0, _, (inCell_brk d).mpr ⟨by omega, ?_⟩, he, ?_⟩
      · rw [hx0]; exact ⟨le_rfl, (d.lt 0 1 (by omega) (by omega)).le⟩
      · intro G hG
        rw [sP_eval, hx0, pc_left, sub_self, abs_zero]
        exact (tol0 hG).2
    · obtain ⟨m, hm'⟩ : ∃ m, xs.length - 1 = m + 1 := ⟨xs.length - 2, by omega⟩
      rw [hm'] at hx1 he
      refine ⟨m, _, (inCell_brk d).mpr ⟨by omega, ?_⟩, he, ?_⟩
      · rw [hx1]; exact ⟨(d.lt m (m + 1) (by omega) (by omega)).le, le_rfl⟩
      · intro G hG
        rw [sP_eval, hx1, pc_right d _ _ (by omega), sub_self, abs_zero]
        exact (tol0 hG).2
    · refine ⟨i, _, (inCell_brk d).mpr ⟨hi, bi⟩, he, ?_⟩
      intro G hG
      obtain ⟨G0, -⟩ := tol0 (i := 0) hG
      have hG' : ∀ i < xs.length - 2, |(ys.getD (i + 2) 0 - ys.getD (i + 1) 0) / (xs.getD (i + 2) 0 - xs.getD (i + 1) 0)| +
          |(ys.getD (i + 1) 0 - ys.getD i 0) / (xs.getD (i + 1) 0 - xs.getD i 0)| ≤
          G * (|xs.getD (i + 1) 0 - xs.getD i 0| + |xs.getD (i + 2) 0 - xs.getD (i + 1) 0|) := by
        intro i hi
        have h1 := hG i (by omega)
        have h2 := abs_add_le (xs.getD (i + 1) 0 - xs.getD i 0) (xs.getD (i + 2) 0 - xs.getD (i + 1) 0)
        have h3 := mul_le_mul_of_nonneg_left h2 G0
        rw [show xs.getD (i + 1) 0 - xs.getD i 0 + (xs.getD (i + 2) 0 - xs.getD (i + 1) 0) =
          xs.getD (i + 2) 0 - xs.getD i 0 by ring] at h3
        unfold chord at h1
        rw [show i + 1 + 1 = i + 2 by omega] at h1
        linarith
      have es := sSR_err h hu h0 (Y := fun i => ys.getD i 0) hn d G0 hG'
      have ht : |x - xs.getD i 0| ≤ |xs.getD (i + 1) 0 - xs.getD i 0| := by
        obtain ⟨b1, b2⟩ := bi
        rcases d.sgn with c | c
        · rw [c] at b1 b2
          simp only [one_mul] at b1 b2
          rw [abs_of_nonneg (by linarith), abs_of_nonneg (by linarith)]
          linarith
        · rw [c] at b1 b2
          simp only [neg_mul, one_mul, neg_le_neg_iff] at b1 b2
          rw [abs_of_nonpos (by linarith), abs_of_nonpos (by linarith)]
          linarith
      have := cubic_err h hu h0 left (y0 := ys.getD i 0) (y1 := ys.getD (i + 1) 0) (d.ne hi) (es i) (es (i + 1)) ht
      rw [sP_eval]
      exact this
  · intro x hx
    apply splineR_outside k
    have l0 := List.mem_of_getElem? (rd_getD (show 0 < xs.length by omega))
    have l1 := List.mem_of_getElem? (rd_getD (show xs.length - 1 < xs.length by omega))
    rcases d.sgn with c | c
    · rw [c]
      simp only [one_mul]
      rcases hx with hx | hx
      · exact Or.inl (hx _ l0)
      · exact Or.inr (hx _ l1)
    · rw [c]
      simp only [neg_mul, one_mul, neg_lt_neg_iff]
      rcases hx with hx | hx
      · exact Or.inr (hx _ l1)
      · exact Or.inl (hx _ l0)
  · intro inc x y hxy
    have hs : s = 1 := by
      have l1 := d.lt 0 1 (by omega) (by omega)
      have l2 := (dir_incr inc).lt 0 1 (by omega) (by omega)
      rcases d.sgn with c | c
      · exact c
      · rw [c] at l1
        linarith
    rw [hs] at k
    obtain ⟨e0, e1⟩ := splineR_ends k left
    rcases hxy with ⟨hx, hy⟩ | ⟨hx, hy⟩
    · rw [List.head?_eq_getElem?, rd_getD (show 0 < xs.length by omega)] at hx
      rw [List.head?_eq_getElem?, rd_getD (show 0 < ys.length by omega)] at hy
      rw [← Option.some.inj hx, ← Option.some.inj hy]
      exact e0
    · rw [List.getLast?_eq_getElem?, rd_getD (show xs.length - 1 < xs.length by omega)] at hx
      rw [List.getLast?_eq_getElem?, ← hl, rd_getD (show xs.length - 1 < ys.length by omega)] at hy
      rw [← Option.some.inj hx, ← Option.some.inj hy]
      exact e1

example : ([0, 1, 2, 3, 7] : List ℚ).Pairwise (· < ·) ∧ Bend [0, 1, 2, 3, 7] [1, 0, 2, 5, 7] (5 / 2) ∧
    (newSplineR (fp 53 true) [0, 1, 2, 3, 7] [1, 0, 2, 5, 7]).isSome ∧
    ((newSplineR (fp 53 true) [0, 1, 2, 3, 7] [1, 0, 2, 5, 7]).bind (·.evalR (fp 53 true) true (5 / 2))) ≠
      (newSpline [0, 1, 2, 3, 7] [1, 0, 2, 5, 7]).bind (·.eval (5 / 2)) := by
  refine ⟨by decide +kernel, ?_, by decide +kernel, by decide +kernel⟩
  intro i hi
  rw [List.length_cons, List.length_cons, List.length_cons, List.length_cons, List.length_cons, List.length_nil] at hi
  have h : i = 0 ∨ i = 1 ∨ i = 2 := by omega
  rcases h with rfl | rfl | rfl <;> decide +kernel

theorem rep_of_rnd {v : ℚ} (h : rnd 53 v = v) : Rep 53 v := h ▸ rep_rnd (by norm_num) v

/-- C150: at an inner knot the value need not be that of the table, even for whole numbers: the search may pick the cell on
the left of the knot, and its cubic misses the value by a rounding error. -/
theorem C150_knot_counterexample (fused left : Bool) :
    ∃ (xs ys : List ℚ) (x y r : ℚ), xs.length = ys.length ∧ xs.Pairwise (· < ·) ∧ (∀ v ∈ xs ++ ys, Rep 53 v) ∧
      xs[2]? = some x ∧ ys[2]? = some y ∧
      (newSplineR (fp 53 fused) xs ys).bind (·.evalR (fp 53 fused) left x) = some r ∧ r ≠ y :=
  ⟨[0, 1, 2, 3, 7], [1, 0, 2, 5, 7], 2, 2, 9007199254740991 / 4503599627370496, rfl, by decide +kernel, by
      intro v hv
      simp only [List.cons_append, List.nil_append, List.mem_cons, List.not_mem_nil, or_false] at hv
      rcases hv with rfl | rfl | rfl | rfl | rfl | rfl | rfl | rfl | rfl | rfl <;> exact rep_of_rnd (by decide +kernel), rfl, rfl, by
      cases fused <;> cases left <;> decide +kernel, by norm_num⟩

end Verif.Interp
