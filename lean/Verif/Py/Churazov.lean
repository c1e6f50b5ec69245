import Verif.Py.ChurazovModel
import Mathlib.Analysis.SpecialFunctions.Log.Deriv
import Mathlib.Analysis.SpecialFunctions.ExpDeriv
import Mathlib.Analysis.SpecialFunctions.Pow.Deriv
import Mathlib.Tactic.Linarith
import Mathlib.Tactic.FieldSimp
import Mathlib.Tactic.Ring

/-! # Properties of the logarithmic fits and conversions of `render/scripts/deriv.py` -/

set_option autoImplicit false

namespace Verif.Py

/-! ## Specification -/

/-- Sum of the squares of the differences between the logarithms and the line `a f + b`, weighted by a Gaussian of width
`δ` about `log x0`. -/
noncomputable def lineCost (δ x0 a b : ℝ) : List (ℝ × ℝ) → ℝ
  | [] => 0
  | p :: l => Real.exp (-(Real.log x0 - Real.log p.1) ^ 2 / (2 * δ ^ 2)) * (Real.log p.2 - a * Real.log p.1 - b) ^ 2 +
      lineCost δ x0 a b l

/-! ## Sums -/

/-- `Σ w (f) g(f, s)` over pairs of logarithms. -/
noncomputable def wsum (w : ℝ → ℝ) (g : ℝ → ℝ → ℝ) : List (ℝ × ℝ) → ℝ
  | [] => 0
  | p :: l => w p.1 * g p.1 p.2 + wsum w g l

theorem wsum_lin (w : ℝ → ℝ) (g h : ℝ → ℝ → ℝ) (a b : ℝ) (l : List (ℝ × ℝ)) :
    wsum w (fun f s => a * g f s + b * h f s) l = a * wsum w g l + b * wsum w h l := by
  induction l with
  | nil => simp [wsum]
  | cons p l ih => simp only [wsum, ih]; ring

theorem wsum_nonneg (w : ℝ → ℝ) (g : ℝ → ℝ → ℝ) (hw : ∀ f, 0 < w f) (hg : ∀ f s, 0 ≤ g f s) (l : List (ℝ × ℝ)) :
    0 ≤ wsum w g l := by
  induction l with
  | nil => simp [wsum]
  | cons p l ih => exact add_nonneg (mul_nonneg (hw _).le (hg _ _)) ih

theorem wsum_pos (w : ℝ → ℝ) (g : ℝ → ℝ → ℝ) (hw : ∀ f, 0 < w f) (hg : ∀ f s, 0 ≤ g f s) (l : List (ℝ × ℝ))
    (h : ∃ p ∈ l, 0 < g p.1 p.2) : 0 < wsum w g l := by
  induction l with
  | nil => simp at h
  | cons q l ih =>
    obtain ⟨p, hp, h0⟩ := h
    rcases List.mem_cons.1 hp with rfl | hp
    · exact add_pos_of_pos_of_nonneg (mul_pos (hw _) h0) (wsum_nonneg w g hw hg l)
    · exact add_pos_of_nonneg_of_pos (mul_nonneg (hw _).le (hg _ _)) (ih ⟨p, hp, h0⟩)

theorem wsum_congr (w : ℝ → ℝ) (g h : ℝ → ℝ → ℝ) (l : List (ℝ × ℝ)) (e : ∀ p ∈ l, g p.1 p.2 = h p.1 p.2) :
    wsum w g l = wsum w h l := by
  induction l with
  | nil => rfl
  | cons p l ih =>
    simp only [wsum]
    rw [e p (by simp), ih fun q hq => e q (by simp [hq])]

/-- The pairs of logarithms. -/
noncomputable def logs (pts : List (ℝ × ℝ)) : List (ℝ × ℝ) := pts.map fun p => (Real.log p.1, Real.log p.2)

/-- The interpolant of a list of points. -/
noncomputable def churazovOf (pts : List (ℝ × ℝ)) (δ : ℝ) : Churazov := churazov (pts.map Prod.fst) (pts.map Prod.snd) δ

theorem localParams_eq (pts : List (ℝ × ℝ)) (δ x0 : ℝ) :
    let w := (churazovOf pts δ).weight x0
    let W := wsum w (fun _ _ => 1) (logs pts)
    let F := wsum w (fun f _ => f) (logs pts)
    let FF := wsum w (fun f _ => f * f) (logs pts)
    let S := wsum w (fun _ s => s) (logs pts)
    let FS := wsum w (fun f s => f * s) (logs pts)
    (churazovOf pts δ).localParams x0 =
      ((FS * W - S * F) / (FF * W - F ^ 2), (S - (FS * W - S * F) / (FF * W - F ^ 2) * F) / W) := by
  intro w W F FF S FS
  have h : ∀ (v : ℝ → ℝ) (l : List (ℝ × ℝ)),
      ((l.map fun p => Real.log p.1).map v).sum = wsum v (fun _ _ => 1) (logs l) ∧
      (List.zipWith (· * ·) (l.map fun p => Real.log p.1) ((l.map fun p => Real.log p.1).map v)).sum =
        wsum v (fun f _ => f) (logs l) ∧
      (List.zipWith (· * ·) (List.zipWith (· * ·) (l.map fun p => Real.log p.1) (l.map fun p => Real.log p.1))
        ((l.map fun p => Real.log p.1).map v)).sum = wsum v (fun f _ => f * f) (logs l) ∧
      (List.zipWith (· * ·) ((l.map fun p => Real.log p.1).map v) (l.map fun p => Real.log p.2)).sum =
        wsum v (fun _ s => s) (logs l) ∧
      (List.zipWith (· * ·) (List.zipWith (· * ·) (l.map fun p => Real.log p.1) ((l.map fun p => Real.log p.1).map v))
        (l.map fun p => Real.log p.2)).sum = wsum v (fun f s => f * s) (logs l) := by
    intro v l
    induction l with
    | nil => simp [wsum, logs]
    | cons p l ih =>
      obtain ⟨h1, h2, h3, h4, h5⟩ := ih
      simp only [logs] at h1 h2 h3 h4 h5
      refine ⟨?_, ?_, ?_, ?_, ?_⟩
      · simp only [List.map_cons, List.sum_cons, logs, wsum, h1]; ring
      · simp only [List.map_cons, List.zipWith_cons_cons, List.sum_cons, logs, wsum, h2]; ring
      · simp only [List.map_cons, List.zipWith_cons_cons, List.sum_cons, logs, wsum, h3]; ring
      · simp only [List.map_cons, List.zipWith_cons_cons, List.sum_cons, logs, wsum, h4]
      · simp only [List.map_cons, List.zipWith_cons_cons, List.sum_cons, logs, wsum, h5]; ring
  obtain ⟨h1, h2, h3, h4, h5⟩ := h w pts
  have e1 : (churazovOf pts δ).fs = pts.map fun p => Real.log p.1 := by simp [churazovOf, churazov, Function.comp_def]
  have e2 : (churazovOf pts δ).ss = pts.map fun p => Real.log p.2 := by simp [churazovOf, churazov, Function.comp_def]
  simp only [Churazov.localParams, e1, e2]
  simp only [w] at h1 h2 h3 h4 h5
  rw [h1, h2, h3, h4, h5]

theorem weight_pos (c : Churazov) (x0 f : ℝ) : 0 < c.weight x0 f := Real.exp_pos _

/-- Two different abscissae make the system regular. -/
theorem det_pos (w : ℝ → ℝ) (hw : ∀ f, 0 < w f) (l : List (ℝ × ℝ)) (h : ∃ p ∈ l, ∃ q ∈ l, p.1 ≠ q.1) :
    0 < wsum w (fun _ _ => 1) l ∧
      0 < wsum w (fun f _ => f * f) l * wsum w (fun _ _ => 1) l - wsum w (fun f _ => f) l ^ 2 := by
  obtain ⟨p, hp, q, hq, hne⟩ := h
  have hW : 0 < wsum w (fun _ _ => 1) l := wsum_pos w _ hw (fun _ _ => zero_le_one) l ⟨p, hp, zero_lt_one⟩
  refine ⟨hW, ?_⟩
  set W := wsum w (fun _ _ => 1) l with eW
  set F := wsum w (fun f _ => f) l with eF
  set FF := wsum w (fun f _ => f * f) l with eFF
  have hpos : 0 < wsum w (fun f _ => (W * f - F) ^ 2) l := by
    apply wsum_pos w _ hw (fun _ _ => sq_nonneg _)
    by_cases hc : W * p.1 - F = 0
    · refine ⟨q, hq, ?_⟩
      have : W * q.1 - F ≠ 0 := by
        intro h2
        apply hne
        have : W * p.1 = W * q.1 := by linarith
        exact mul_left_cancel₀ hW.ne' this
      positivity
    · exact ⟨p, hp, by positivity⟩
  have he : wsum w (fun f _ => (W * f - F) ^ 2) l = W * (FF * W - F ^ 2) := by
    have e1 : wsum w (fun f _ => (W * f - F) ^ 2) l =
        wsum w (fun f s => W ^ 2 * (fun f _ => f * f) f s + 1 * (fun f _ => (-(2 * W * F)) * f + F ^ 2 * 1) f s) l :=
      wsum_congr _ _ _ _ fun p _ => by ring
    rw [e1, wsum_lin w (fun f _ => f * f) (fun f _ => (-(2 * W * F)) * f + F ^ 2 * 1),
      wsum_lin w (fun f _ => f) (fun _ _ => 1), ← eW, ← eF, ← eFF]
    ring
  rw [he] at hpos
  exact (mul_pos_iff_of_pos_left hW).1 hpos

theorem lineCost_eq (pts : List (ℝ × ℝ)) (δ x0 a b : ℝ) :
    lineCost δ x0 a b pts = wsum ((churazovOf pts δ).weight x0) (fun f s => (s - a * f - b) ^ 2) (logs pts) := by
  have h : ∀ (c : Churazov), c.deltaR = δ → ∀ l : List (ℝ × ℝ),
      lineCost δ x0 a b l = wsum (c.weight x0) (fun f s => (s - a * f - b) ^ 2) (logs l) := by
    intro c hc l
    induction l with
    | nil => rfl
    | cons p l ih => simp only [lineCost, logs, List.map_cons, wsum, Churazov.weight, hc] at ih ⊢; rw [ih]
  exact h _ rfl pts

/-! ## C173 -/

/-- At every place the line fitted has the least weighted sum of squares of all lines. -/
theorem C173_least (pts : List (ℝ × ℝ)) (δ x0 : ℝ) (h : ∃ p ∈ pts, ∃ q ∈ pts, Real.log p.1 ≠ Real.log q.1) (a b : ℝ) :
    lineCost δ x0 ((churazovOf pts δ).localParams x0).1 ((churazovOf pts δ).localParams x0).2 pts ≤
      lineCost δ x0 a b pts ∧
    (lineCost δ x0 a b pts =
        lineCost δ x0 ((churazovOf pts δ).localParams x0).1 ((churazovOf pts δ).localParams x0).2 pts →
      (a, b) = (churazovOf pts δ).localParams x0) := by
  have hd : ∃ p ∈ logs pts, ∃ q ∈ logs pts, p.1 ≠ q.1 := by
    obtain ⟨p, hp, q, hq, hne⟩ := h
    exact ⟨_, List.mem_map_of_mem hp, _, List.mem_map_of_mem hq, hne⟩
  have hw := weight_pos (churazovOf pts δ) x0
  obtain ⟨hW, hD⟩ := det_pos _ hw _ hd
  have hpar := localParams_eq pts δ x0
  simp only at hpar
  simp only [lineCost_eq]
  set w := (churazovOf pts δ).weight x0 with ew
  set W := wsum w (fun _ _ => 1) (logs pts) with eW
  set F := wsum w (fun f _ => f) (logs pts) with eF
  set FF := wsum w (fun f _ => f * f) (logs pts) with eFF
  set S := wsum w (fun _ s => s) (logs pts) with eS
  set FS := wsum w (fun f s => f * s) (logs pts) with eFS
  set a0 := (FS * W - S * F) / (FF * W - F ^ 2) with ea
  set b0 := (S - a0 * F) / W with eb
  rw [hpar]
  simp only
  have n0 : b0 * W = S - a0 * F := by rw [eb]; exact div_mul_cancel₀ _ hW.ne'
  have n1 : a0 * F + b0 * W = S := by linarith
  have n2 : a0 * FF + b0 * F = FS := by
    have : a0 * (FF * W - F ^ 2) = FS * W - S * F := by rw [ea]; exact div_mul_cancel₀ _ hD.ne'
    have h2 : (a0 * FF + b0 * F) * W = FS * W := by
      have h3 : b0 * W = S - a0 * F := by linarith
      calc (a0 * FF + b0 * F) * W = a0 * FF * W + (b0 * W) * F := by ring
        _ = a0 * (FF * W - F ^ 2) + S * F := by rw [h3]; ring
        _ = FS * W := by rw [this]; ring
    exact mul_right_cancel₀ hW.ne' h2
  have hx : wsum w (fun f s => (s - a * f - b) ^ 2) (logs pts) =
      wsum w (fun f s => (s - a0 * f - b0) ^ 2) (logs pts) +
        wsum w (fun f _ => ((a - a0) * f + (b - b0)) ^ 2) (logs pts) := by
    have e1 : wsum w (fun f s => (s - a * f - b) ^ 2) (logs pts) =
        wsum w (fun f s => 1 * (fun f s => (s - a0 * f - b0) ^ 2) f s + 1 * (fun f s =>
          1 * (fun f _ => ((a - a0) * f + (b - b0)) ^ 2) f s + (-2) * (fun f s =>
            (a - a0) * (fun f s => 1 * (f * s) + (-1) * (a0 * (f * f) + b0 * f)) f s +
            (b - b0) * (fun f s => 1 * s + (-1) * (a0 * f + b0 * 1)) f s) f s) f s) (logs pts) :=
      wsum_congr _ _ _ _ fun p _ => by ring
    rw [e1, wsum_lin w (fun f s => (s - a0 * f - b0) ^ 2), wsum_lin w (fun f _ => ((a - a0) * f + (b - b0)) ^ 2),
      wsum_lin w (fun f s => 1 * (f * s) + (-1) * (a0 * (f * f) + b0 * f)),
      wsum_lin w (fun f s => f * s) (fun f _ => a0 * (f * f) + b0 * f), wsum_lin w (fun f _ => f * f) (fun f _ => f),
      wsum_lin w (fun _ s => s) (fun f _ => a0 * f + b0 * 1), wsum_lin w (fun f _ => f) (fun _ _ => 1),
      ← eW, ← eF, ← eFF, ← eS, ← eFS, n1, n2]
    ring
  refine ⟨?_, ?_⟩
  · rw [hx]
    exact le_add_of_nonneg_right (wsum_nonneg w _ hw (fun _ _ => sq_nonneg _) _)
  · intro he
    rw [hx] at he
    have hz : wsum w (fun f _ => ((a - a0) * f + (b - b0)) ^ 2) (logs pts) = 0 := by linarith
    have hall : ∀ p ∈ logs pts, (a - a0) * p.1 + (b - b0) = 0 := by
      intro p hp
      by_contra hc
      have := wsum_pos w (fun f _ => ((a - a0) * f + (b - b0)) ^ 2) hw (fun _ _ => sq_nonneg _) _
        ⟨p, hp, by positivity⟩
      linarith
    obtain ⟨p, hp, q, hq, hne⟩ := hd
    have h1 := hall p hp
    have h2 := hall q hq
    have h3 : (a - a0) * (p.1 - q.1) = 0 := by linear_combination h1 - h2
    have h4 : a - a0 = 0 := by
      rcases mul_eq_zero.1 h3 with h | h
      · exact h
      · exact absurd (sub_eq_zero.1 h) hne
    rw [h4] at h1
    have h5 : a = a0 := by linarith
    have h6 : b = b0 := by linarith
    rw [h5, h6]

/-- For points on a power law `A x ^ p` the curve, its logarithmic slope and its slope are those of the power law, at every
place and for every width. -/
theorem C173_power (xs : List ℝ) (A p δ x0 : ℝ) (hA : 0 < A) (hpos : ∀ x ∈ xs, 0 < x)
    (h2 : ∃ x ∈ xs, ∃ y ∈ xs, x ≠ y) (h0 : 0 < x0) :
    (churazov xs (xs.map fun x => A * x ^ p) δ).logDeriv x0 = p ∧
    (churazov xs (xs.map fun x => A * x ^ p) δ).curve x0 = A * x0 ^ p ∧
    (churazov xs (xs.map fun x => A * x ^ p) δ).deriv x0 = A * p * x0 ^ (p - 1) := by
  set pts : List (ℝ × ℝ) := xs.map fun x => (x, A * x ^ p) with ep
  have e : churazov xs (xs.map fun x => A * x ^ p) δ = churazovOf pts δ := by
    simp [churazovOf, ep, Function.comp_def]
  rw [e]
  have hd : ∃ p ∈ pts, ∃ q ∈ pts, Real.log p.1 ≠ Real.log q.1 := by
    obtain ⟨x, hx, y, hy, hne⟩ := h2
    refine ⟨_, List.mem_map_of_mem hx, _, List.mem_map_of_mem hy, ?_⟩
    intro h
    exact hne (Real.log_injOn_pos (hpos x hx) (hpos y hy) h)
  have hcost : ∀ (l : List ℝ), (∀ x ∈ l, 0 < x) →
      lineCost δ x0 p (Real.log A) (l.map fun x => (x, A * x ^ p)) = 0 := by
    intro l hl
    induction l with
    | nil => rfl
    | cons x l ih =>
      have hx := hl x (by simp)
      rw [List.map_cons, lineCost, ih fun y hy => hl y (by simp [hy])]
      simp only
      rw [Real.log_mul hA.ne' (Real.rpow_pos_of_pos hx p).ne', Real.log_rpow hx]
      ring
  have hle := C173_least pts δ x0 hd p (Real.log A)
  have hz : lineCost δ x0 p (Real.log A) pts = 0 := hcost xs hpos
  have hnn : 0 ≤ lineCost δ x0 ((churazovOf pts δ).localParams x0).1 ((churazovOf pts δ).localParams x0).2 pts := by
    rw [lineCost_eq]
    exact wsum_nonneg _ _ (weight_pos _ _) (fun _ _ => sq_nonneg _) _
  have hpar := hle.2 (le_antisymm (by rw [hz]; exact hnn) hle.1)
  have hc : Real.exp (p * Real.log x0 + Real.log A) = A * x0 ^ p := by
    rw [Real.exp_add, Real.exp_log hA, Real.rpow_def_of_pos h0, mul_comm (Real.log x0)]; ring
  refine ⟨?_, ?_, ?_⟩
  · rw [Churazov.logDeriv, ← hpar]
  · rw [Churazov.curve, ← hpar]; exact hc
  · rw [Churazov.deriv, ← hpar]
    simp only
    rw [hc, Real.rpow_sub_one h0.ne']
    ring

/-- Three points of `2 x ^ 3`. -/
example : (churazov [1, 2, 5] ([1, 2, 5].map fun x : ℝ => 2 * x ^ (3 : ℝ)) 0.3).logDeriv 7 = 3 :=
  (C173_power [1, 2, 5] 2 3 0.3 7 (by norm_num) (by intro x hx; fin_cases hx <;> norm_num)
    ⟨1, by simp, 2, by simp, by norm_num⟩ (by norm_num)).1

example : ∃ p ∈ [((1 : ℝ), (1 : ℝ)), (2, 7)], ∃ q ∈ [((1 : ℝ), (1 : ℝ)), (2, 7)], Real.log p.1 ≠ Real.log q.1 :=
  ⟨(1, 1), by simp, (2, 7), by simp, by
    simp only [Real.log_one]; exact (Real.log_pos (by norm_num)).ne⟩

/-! ## C174 -/

/-- The function is given and read in powers of this. -/
noncomputable def powOf (base : Option ℝ) (t : ℝ) : ℝ := match base with
  | none => Real.exp t
  | some b => b ^ t

/-- Logarithm for a base. -/
noncomputable def logOf (base : Option ℝ) (x : ℝ) : ℝ := match base with
  | none => Real.log x
  | some b => Real.log x / Real.log b

/-- Bases that make sense. -/
def GoodBase (base : Option ℝ) : Prop := ∀ b, base = some b → 0 < b ∧ b ≠ 1

theorem log_ne {b : ℝ} (h : 0 < b ∧ b ≠ 1) : Real.log b ≠ 0 := by
  intro h0
  rcases Real.log_eq_zero.1 h0 with h1 | h1 | h1
  · linarith [h.1]
  · exact h.2 h1
  · linarith [h.1]

theorem powOf_logOf (base : Option ℝ) (hb : GoodBase base) {x : ℝ} (hx : 0 < x) : powOf base (logOf base x) = x := by
  rcases base with _ | b
  · exact Real.exp_log hx
  · have h := hb b rfl
    have h1 := log_ne h
    simp only [powOf, logOf]
    rw [Real.rpow_def_of_pos h.1, mul_div_cancel₀ _ h1, Real.exp_log hx]

theorem hasDerivAt_powOf (base : Option ℝ) (hb : GoodBase base) {x : ℝ} (hx : 0 < x) :
    HasDerivAt (powOf base) (match base with | none => x | some b => x * Real.log b) (logOf base x) := by
  have e := powOf_logOf base hb hx
  rcases base with _ | b
  · have h := Real.hasDerivAt_exp (logOf none x)
    simp only [powOf] at e ⊢
    rw [e] at h
    exact h
  · have hb' := hb b rfl
    have h := (hasDerivAt_id (logOf (some b) x)).const_rpow hb'.1
    simp only [powOf, id] at e h ⊢
    rw [e] at h
    exact h.congr_deriv (by ring)

/-- The two conversions of one axis, and their inverse; the slope in logarithms of both axes. For every function with a
slope, everywhere it is positive, for every base. -/
theorem C174_conversions_partial (f : ℝ → ℝ) (d x : ℝ) (base : Option ℝ) (hb : GoodBase base) (hx : 0 < x)
    (hf : HasDerivAt f d x) :
    HasDerivAt (fun t => f (powOf base t)) (linearToLogBase x d base) (logOf base x) ∧
    (∀ d', logToLinearBase (logOf base x) (linearToLogBase x d' base) base = d') ∧
    (∀ d', linearToLogBase x (logToLinearBase (logOf base x) d' base) base = d') ∧
    (f x ≠ 0 → HasDerivAt (fun t => logOf base (f (powOf base t))) (linearToLog x (f x) d base) (logOf base x)) := by
  have e := powOf_logOf base hb hx
  have hp := hasDerivAt_powOf base hb hx
  have hf' : HasDerivAt f d (powOf base (logOf base x)) := by rw [e]; exact hf
  have h1 : HasDerivAt (fun t => f (powOf base t)) (linearToLogBase x d base) (logOf base x) := by
    have h := HasDerivAt.comp (logOf base x) hf' hp
    rcases base with _ | b <;> exact h
  refine ⟨h1, ?_, ?_, ?_⟩
  · intro d'
    rcases base with _ | b
    · simp only [powOf] at e
      simp only [logToLinearBase, linearToLogBase, e]
      field_simp
    · have h3 := log_ne (hb b rfl)
      simp only [powOf] at e
      simp only [logToLinearBase, linearToLogBase, e]
      field_simp
  · intro d'
    rcases base with _ | b
    · simp only [powOf] at e
      simp only [logToLinearBase, linearToLogBase, e]
      field_simp
    · have h3 := log_ne (hb b rfl)
      simp only [powOf] at e
      simp only [logToLinearBase, linearToLogBase, e]
      field_simp
  · intro hne
    have hne' : f (powOf base (logOf base x)) ≠ 0 := by rw [e]; exact hne
    have h := h1.log hne'
    rcases base with _ | b
    · refine h.congr_deriv ?_
      rw [e]; rfl
    · have h3 := log_ne (hb b rfl)
      have h4 := h.div_const (Real.log b)
      refine h4.congr_deriv ?_
      rw [e]
      simp only [linearToLogBase, linearToLog]
      field_simp

/-- The conversion of slopes in logarithms of both axes gives no result: it should be the inverse of `linear_to_log`. -/
theorem C174_counterexample : ¬ ∀ (x y d : ℝ) (base : Option ℝ), GoodBase base → 0 < x → 0 < y →
    logToLinear (logOf base x) (logOf base y) (linearToLog x y d base) base = some d := by
  intro h
  have := h 1 1 1 none (by intro b hb; cases hb) one_pos one_pos
  simp [logToLinear] at this

/-- The square function, base 10. -/
example : linearToLog 3 9 6 (some 10) = 2 ∧ GoodBase (some 10) ∧ HasDerivAt (fun x : ℝ => x ^ 2) 6 3 := by
  refine ⟨by norm_num [linearToLog], ?_, ?_⟩
  · intro b hb
    cases hb
    norm_num
  · have := hasDerivAt_pow 2 (3 : ℝ)
    norm_num at this
    exact this

end Verif.Py
