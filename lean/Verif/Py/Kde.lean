import Verif.Py.KdeModel
import Mathlib.Analysis.SpecialFunctions.Gaussian.GaussianIntegral
import Mathlib.MeasureTheory.Group.Integral
import Mathlib.Algebra.Order.BigOperators.Group.List
import Mathlib.Data.List.GetD
import Mathlib.Tactic.Linarith
import Mathlib.Tactic.FieldSimp

/-! # C185: density estimates of radii -/

set_option autoImplicit false

namespace Verif.Py

/-- The estimate at `e`: a sum of bell curves around the points. -/
noncomputable def estimate (xs : List ℝ) (h e : ℝ) : ℝ :=
  (xs.map fun x => Real.exp (-(((x - e) / h) ^ 2))).sum / (Real.sqrt (Real.pi * 2) * xs.length * h)

theorem kdeVals_eq (xs : List ℝ) (h low high : ℝ) (bins : Nat) :
    kdeVals xs h low high bins = (linspaceR low high bins).map (estimate xs h) := by
  have key : ∀ (ev : List ℝ) (ys : List ℝ) (g : ℝ → ℝ),
      ys.foldl (fun vals x => List.zipWith (fun v e => v + Real.exp (-(((x - e) / h) ^ 2))) vals ev) (ev.map g) =
        ev.map fun e => g e + (ys.map fun x => Real.exp (-(((x - e) / h) ^ 2))).sum := by
    intro ev ys
    induction ys with
    | nil => intro g; simp
    | cons y ys ih =>
      intro g
      have e1 : List.zipWith (fun v e => v + Real.exp (-(((y - e) / h) ^ 2))) (ev.map g) ev =
          ev.map fun e => g e + Real.exp (-(((y - e) / h) ^ 2)) := by
        clear ih
        induction ev with
        | nil => rfl
        | cons a ev ih => simp [ih]
      rw [List.foldl_cons, e1, ih]
      simp [add_assoc]
  unfold kdeVals
  simp only [key, List.map_map]
  apply List.map_congr_left
  intro e _
  simp [estimate]

theorem bell_lt {x e e' h : ℝ} (hh : 0 < h) (h1 : e < e') (h2 : e' ≤ x) :
    Real.exp (-(((x - e) / h) ^ 2)) < Real.exp (-(((x - e') / h) ^ 2)) := by
  apply Real.exp_lt_exp.2
  have h3 : (x - e') / h < (x - e) / h := by
    apply div_lt_div_of_pos_right _ hh
    linarith
  have h4 : 0 ≤ (x - e') / h := div_nonneg (by linarith) hh.le
  have := pow_lt_pow_left₀ h3 h4 (n := 2) (by norm_num)
  linarith

theorem bell_lt' {x e e' h : ℝ} (hh : 0 < h) (h1 : e < e') (h2 : x ≤ e) :
    Real.exp (-(((x - e') / h) ^ 2)) < Real.exp (-(((x - e) / h) ^ 2)) := by
  apply Real.exp_lt_exp.2
  have h3 : (e - x) / h < (e' - x) / h := by
    apply div_lt_div_of_pos_right _ hh
    linarith
  have h4 : 0 ≤ (e - x) / h := div_nonneg (by linarith) hh.le
  have := pow_lt_pow_left₀ h3 h4 (n := 2) (by norm_num)
  have e1 : ((x - e) / h) ^ 2 = ((e - x) / h) ^ 2 := by ring
  have e2 : ((x - e') / h) ^ 2 = ((e' - x) / h) ^ 2 := by ring
  rw [e1, e2]
  linarith

theorem norm_pos {xs : List ℝ} {h : ℝ} (hx : xs ≠ []) (hh : 0 < h) : 0 < Real.sqrt (Real.pi * 2) * xs.length * h := by
  have h1 : 0 < Real.sqrt (Real.pi * 2) := Real.sqrt_pos.2 (by positivity)
  have h2 : (0 : ℝ) < xs.length := by exact_mod_cast List.length_pos_iff.2 hx
  positivity

theorem estimate_lt {xs : List ℝ} {h e e' : ℝ} (hx : xs ≠ []) (hh : 0 < h) (h1 : e < e') (h2 : ∀ x ∈ xs, e' ≤ x) :
    estimate xs h e < estimate xs h e' :=
  div_lt_div_of_pos_right (List.sum_lt_sum_of_ne_nil hx _ _ fun x hm => bell_lt hh h1 (h2 x hm)) (norm_pos hx hh)

theorem estimate_lt' {xs : List ℝ} {h e e' : ℝ} (hx : xs ≠ []) (hh : 0 < h) (h1 : e < e') (h2 : ∀ x ∈ xs, x ≤ e) :
    estimate xs h e' < estimate xs h e :=
  div_lt_div_of_pos_right (List.sum_lt_sum_of_ne_nil hx _ _ fun x hm => bell_lt' hh h1 (h2 x hm)) (norm_pos hx hh)

/-- C185: the estimate does not depend on the order of the points. -/
theorem C185_order {xs ys : List ℝ} (hp : xs.Perm ys) (h low high : ℝ) (bins : Nat) :
    kdeVals xs h low high bins = kdeVals ys h low high bins := by
  rw [kdeVals_eq, kdeVals_eq]
  apply List.map_congr_left
  intro e _
  unfold estimate
  rw [(hp.map _).sum_eq, hp.length_eq]

example : kdeVals [1, 2, 3] 1 0 4 100 = kdeVals [3, 1, 2] 1 0 4 100 := 
  C185_order (List.perm_append_comm (l₁ := [1, 2]) (l₂ := [3])) _ _ _ _

theorem bell_integrable (x : ℝ) {h : ℝ} (hh : 0 < h) :
    MeasureTheory.Integrable (fun e => Real.exp (-(((x - e) / h) ^ 2))) ∧
      ∫ e, Real.exp (-(((x - e) / h) ^ 2)) = h * Real.sqrt Real.pi := by
  have e1 : (fun e : ℝ => Real.exp (-(((x - e) / h) ^ 2))) = fun e => (fun t => Real.exp (-(1 / h ^ 2) * t ^ 2)) (x - e) := by
    funext e
    congr 1
    field_simp
  have hb : 0 < 1 / h ^ 2 := by positivity
  rw [e1]
  refine ⟨(integrable_exp_neg_mul_sq hb).comp_sub_left x, ?_⟩
  rw [MeasureTheory.integral_sub_left_eq_self (fun t => Real.exp (-(1 / h ^ 2) * t ^ 2)), integral_gaussian,
    show Real.pi / (1 / h ^ 2) = h ^ 2 * Real.pi by field_simp, Real.sqrt_mul (by positivity), Real.sqrt_sq hh.le]

theorem sum_integral (xs : List ℝ) {h : ℝ} (hh : 0 < h) :
    MeasureTheory.Integrable (fun e => (xs.map fun x => Real.exp (-(((x - e) / h) ^ 2))).sum) ∧
      ∫ e, (xs.map fun x => Real.exp (-(((x - e) / h) ^ 2))).sum = xs.length * (h * Real.sqrt Real.pi) := by
  induction xs with
  | nil => simp
  | cons x xs ih =>
    obtain ⟨h1, h2⟩ := bell_integrable x hh
    simp only [List.map_cons, List.sum_cons, List.length_cons]
    refine ⟨h1.add ih.1, ?_⟩
    rw [MeasureTheory.integral_add h1 ih.1, h2, ih.2]
    push_cast
    ring

/-- C185: the integral of the estimate is the root of one half, whatever the points and the width. -/
theorem C185_integral (xs : List ℝ) (h : ℝ) (hx : xs ≠ []) (hh : 0 < h) : ∫ e, estimate xs h e = 1 / Real.sqrt 2 := by
  unfold estimate
  rw [MeasureTheory.integral_div, (sum_integral xs hh).2, Real.sqrt_mul Real.pi_pos.le]
  have h1 : (xs.length : ℝ) ≠ 0 := by exact_mod_cast (List.length_pos_iff.2 hx).ne'
  have h2 : Real.sqrt Real.pi ≠ 0 := (Real.sqrt_pos.2 Real.pi_pos).ne'
  have h3 : Real.sqrt 2 ≠ 0 := (Real.sqrt_pos.2 (by norm_num)).ne'
  field_simp

/-- C185 does not hold for the norm: the estimate is no probability density, its integral is never one. -/
theorem C185_counterexample_norm (xs : List ℝ) (h : ℝ) (hx : xs ≠ []) (hh : 0 < h) : ∫ e, estimate xs h e ≠ 1 := by
  rw [C185_integral xs h hx hh]
  intro e
  have h3 : Real.sqrt 2 ≠ 0 := (Real.sqrt_pos.2 (by norm_num)).ne'
  rw [div_eq_iff h3, one_mul] at e
  have : Real.sqrt 2 * Real.sqrt 2 = 2 := Real.mul_self_sqrt (by norm_num)
  rw [← e] at this
  norm_num at this

example : ∫ e, estimate [1, 2, 2] 3 e = 1 / Real.sqrt 2 := C185_integral _ _ (by simp) (by norm_num)

theorem argmaxFrom_spec : ∀ (l pre : List ℝ) (best : ℝ) (at_ : Nat), pre[at_]? = some best → (∀ v ∈ pre, v ≤ best) →
    ∃ m, (pre ++ l)[argmaxFrom best at_ pre.length l]? = some m ∧ ∀ v ∈ pre ++ l, v ≤ m
  | [], pre, best, at_, h1, h2 => ⟨best, by simpa [argmaxFrom] using h1, by simpa using h2⟩
  | v :: l, pre, best, at_, h1, h2 => by
    have e : pre ++ v :: l = (pre ++ [v]) ++ l := by simp
    have el : pre.length + 1 = (pre ++ [v]).length := by simp
    unfold argmaxFrom
    split_ifs with hv
    · rw [el, e]
      apply argmaxFrom_spec
      · simp
      · intro w hw
        rcases List.mem_append.1 hw with hw | hw
        · linarith [h2 w hw]
        · rw [List.mem_singleton.1 hw]
    · rw [el, e]
      apply argmaxFrom_spec
      · rw [List.getElem?_append_left (by by_contra hc; rw [List.getElem?_eq_none (by omega)] at h1; simp at h1)]
        exact h1
      · intro w hw
        rcases List.mem_append.1 hw with hw | hw
        · exact h2 w hw
        · rw [List.mem_singleton.1 hw]
          exact not_lt.1 hv

theorem argmaxR_spec (l : List ℝ) (hl : l ≠ []) : ∃ k m, argmaxR l = some k ∧ l[k]? = some m ∧ ∀ v ∈ l, v ≤ m := by
  cases l with
  | nil => exact absurd rfl hl
  | cons a l =>
    obtain ⟨m, h1, h2⟩ := argmaxFrom_spec l [a] a 0 (by simp) (by simp)
    exact ⟨_, m, rfl, h1, h2⟩

theorem linspaceR_get (low high : ℝ) {bins i : Nat} (hi : i < bins) :
    (linspaceR low high bins)[i]? = some (low + i * ((high - low) / ((bins : ℝ) - 1))) := by
  unfold linspaceR
  rw [List.getElem?_map, List.getElem?_range hi]
  rfl

theorem linspaceR_length (low high : ℝ) (bins : Nat) : (linspaceR low high bins).length = bins := by simp [linspaceR]

/-- The spacing of the points in which the estimates are looked at. -/
noncomputable def gridStep (low high : ℝ) : ℝ := (high - low) / 99

/-- C185: the peak that is shown is the highest of the 100 estimates, and is at most one spacing away from the range of the
points. -/
theorem C185_peak (xs : List ℝ) (h low high a b : ℝ) (hx : xs ≠ []) (hh : 0 < h) (hlh : low < high) (ha : ∀ x ∈ xs, a ≤ x)
    (hb : ∀ x ∈ xs, x ≤ b) (hla : low ≤ a) (hbh : b ≤ high) :
    ∃ r, kdePeak xs h low high = some (r, estimate xs h r) ∧ (∃ i : Nat, i < 100 ∧ r = low + i * gridStep low high) ∧
      (∀ i : Nat, i < 100 → estimate xs h (low + i * gridStep low high) ≤ estimate xs h r) ∧
      a - gridStep low high < r ∧ r < b + gridStep low high := by
  have hsp : 0 < gridStep low high := by unfold gridStep; apply div_pos <;> linarith
  have hg : ∀ i : Nat, i < 100 → (linspaceR low high 100)[i]? = some (low + i * gridStep low high) := by
    intro i hi
    rw [linspaceR_get low high hi]
    unfold gridStep
    norm_num
  obtain ⟨k, m, e1, e2, e3⟩ := argmaxR_spec (kdeVals xs h low high 100) (by
    rw [kdeVals_eq]
    intro hc
    have := congrArg List.length hc
    simp [linspaceR_length] at this)
  rw [kdeVals_eq] at e1 e2 e3
  have hk : k < 100 := by
    by_contra hc
    rw [List.getElem?_eq_none (by rw [List.length_map, linspaceR_length]; omega)] at e2
    simp at e2
  have em : m = estimate xs h (low + k * gridStep low high) := by
    rw [List.getElem?_map, hg k hk] at e2
    exact (Option.some.inj e2).symm
  have hmax : ∀ i : Nat, i < 100 → estimate xs h (low + i * gridStep low high) ≤ estimate xs h (low + k * gridStep low high) := by
    intro i hi
    rw [← em]
    exact e3 _ (List.mem_map_of_mem (List.mem_of_getElem? (hg i hi)))
  have hne : ∃ x, x ∈ xs := List.exists_mem_of_ne_nil xs hx
  obtain ⟨x0, hx0⟩ := hne
  have h99 : low + (99 : ℝ) * gridStep low high = high := by unfold gridStep; field_simp; ring
  refine ⟨low + k * gridStep low high, ?_, ⟨k, hk, rfl⟩, hmax, ?_, ?_⟩
  · unfold kdePeak
    simp only [kdeVals_eq, e1, hg k hk, e2, Option.bind_eq_bind, Option.bind_some, em]
  · by_contra hc
    push Not at hc
    have hk1 : k + 1 < 100 := by
      by_contra hk1
      have : k = 99 := by omega
      subst this
      have := ha x0 hx0
      have := hb x0 hx0
      push_cast at hc
      linarith
    have h1 := hmax (k + 1) hk1
    push_cast at h1
    have h2 := estimate_lt (xs := xs) (h := h) (e := low + k * gridStep low high) (e' := low + (k + 1) * gridStep low high) hx hh
      (by linarith) (fun x hm => by have := ha x hm; linarith)
    linarith
  · by_contra hc
    push Not at hc
    have hk1 : k ≠ 0 := by
      rintro rfl
      have := ha x0 hx0
      have := hb x0 hx0
      push_cast at hc
      linarith
    obtain ⟨j, rfl⟩ := Nat.exists_eq_succ_of_ne_zero hk1
    have h1 := hmax j (by omega)
    push_cast [Nat.succ_eq_add_one] at h1 hc
    have h2 := estimate_lt' (xs := xs) (h := h) (e := low + j * gridStep low high) (e' := low + (j + 1) * gridStep low high) hx hh
      (by linarith) (fun x hm => by have := hb x hm; linarith)
    linarith

example : ∃ r, kdePeak [1, 2, 3] 1 0 4 = some (r, estimate [1, 2, 3] 1 r) ∧ 1 - gridStep 0 4 < r ∧ r < 3 + gridStep 0 4 := by
  obtain ⟨r, h1, -, -, h2⟩ := C185_peak [1, 2, 3] 1 0 4 1 3 (by simp) (by norm_num) (by norm_num)
    (by intro x hx; simp at hx; rcases hx with rfl | rfl | rfl <;> norm_num)
    (by intro x hx; simp at hx; rcases hx with rfl | rfl | rfl <;> norm_num) (by norm_num) (by norm_num)
  exact ⟨r, h1, h2⟩

theorem mem_argmaxesR (l : List ℝ) (i : Nat) : i ∈ argmaxesR l ↔ 1 ≤ i ∧ i + 1 < l.length ∧
    l.getD (i + 1) 0 < l.getD i 0 ∧ l.getD (i - 1) 0 < l.getD i 0 := by
  unfold argmaxesR
  rw [List.mem_filter, List.mem_range'_1, Bool.and_eq_true, decide_eq_true_eq, decide_eq_true_eq]
  constructor
  · rintro ⟨h1, h2⟩
    exact ⟨h1.1, by omega, h2⟩
  · rintro ⟨h1, h2, h3⟩
    exact ⟨⟨h1, by omega⟩, h3⟩

/-- C185: the maxima of a node of the tree are exactly the inner points whose estimate is above both neighbours. -/
theorem C185_maxima (xs : List ℝ) (h maxR r : ℝ) : r ∈ nodeMaxima xs h maxR ↔
    ∃ i : Nat, 1 ≤ i ∧ i < 99 ∧ r = i * gridStep 0 maxR ∧ estimate xs h (r + gridStep 0 maxR) < estimate xs h r ∧
      estimate xs h (r - gridStep 0 maxR) < estimate xs h r := by
  have hd : ∀ i : Nat, i < 100 → (linspaceR 0 maxR 100).getD i 0 = i * gridStep 0 maxR := by
    intro i hi
    rw [List.getD_eq_getElem?_getD, linspaceR_get 0 maxR hi]
    unfold gridStep
    simp only [Option.getD_some]
    norm_num
  have hv : ∀ i : Nat, i < 100 → (kdeVals xs h 0 maxR 100).getD i 0 = estimate xs h (i * gridStep 0 maxR) := by
    intro i hi
    rw [kdeVals_eq, List.getD_eq_getElem?_getD, List.getElem?_map, linspaceR_get 0 maxR hi]
    unfold gridStep
    simp only [Option.map_some, Option.getD_some]
    norm_num
  have hlen : (kdeVals xs h 0 maxR 100).length = 100 := by rw [kdeVals_eq, List.length_map, linspaceR_length]
  unfold nodeMaxima
  rw [List.mem_map]
  constructor
  · rintro ⟨i, hi, rfl⟩
    obtain ⟨h1, h2, h3, h4⟩ := (mem_argmaxesR _ _).1 hi
    rw [hlen] at h2
    rw [hv _ (by omega), hv _ (by omega)] at h3 h4
    refine ⟨i, h1, by omega, hd i (by omega), ?_, ?_⟩
    · rw [hd i (by omega)]
      convert h3 using 2
      push_cast
      ring
    · rw [hd i (by omega)]
      convert h4 using 2
      rw [Nat.cast_sub h1]
      push_cast
      ring
  · rintro ⟨i, h1, h2, rfl, h3, h4⟩
    refine ⟨i, (mem_argmaxesR _ _).2 ⟨h1, by omega, ?_, ?_⟩, hd i (by omega)⟩
    · rw [hv _ (by omega), hv _ (by omega)]
      convert h3 using 2
      push_cast
      ring
    · rw [hv _ (by omega), hv _ (by omega)]
      convert h4 using 2
      rw [Nat.cast_sub h1]
      push_cast
      ring

/-- C185: all of them are at most one spacing away from the range of the radii of the node. -/
theorem C185_maxima_near (xs : List ℝ) (h maxR a b r : ℝ) (hx : xs ≠ []) (hh : 0 < h) (hm : 0 < maxR) (ha : ∀ x ∈ xs, a ≤ x)
    (hb : ∀ x ∈ xs, x ≤ b) (hr : r ∈ nodeMaxima xs h maxR) : a - gridStep 0 maxR < r ∧ r < b + gridStep 0 maxR := by
  have hsp : 0 < gridStep 0 maxR := by unfold gridStep; apply div_pos <;> linarith
  obtain ⟨i, -, -, -, h3, h4⟩ := (C185_maxima xs h maxR r).1 hr
  constructor
  · by_contra hc
    push Not at hc
    have := estimate_lt (h := h) (e := r) (e' := r + gridStep 0 maxR) hx hh (by linarith)
      (fun x hx => by have := ha x hx; linarith)
    linarith
  · by_contra hc
    push Not at hc
    have := estimate_lt' (h := h) (e := r - gridStep 0 maxR) (e' := r) hx hh (by linarith)
      (fun x hx => by have := hb x hx; linarith)
    linarith

/-- C185: points that all lie at the middle of the range make one maximum there. -/
theorem C185_single (n : Nat) (h maxR : ℝ) (k : Nat) (h1 : 1 ≤ k) (h2 : k < 99) (hh : 0 < h) (hm : 0 < maxR) (r : ℝ) :
    r ∈ nodeMaxima (List.replicate (n + 1) (k * gridStep 0 maxR)) h maxR ↔ r = k * gridStep 0 maxR := by
  have hsp : 0 < gridStep 0 maxR := by unfold gridStep; apply div_pos <;> linarith
  have hx : List.replicate (n + 1) ((k : ℝ) * gridStep 0 maxR) ≠ [] := by simp
  constructor
  · intro hr
    obtain ⟨i, -, -, rfl, -⟩ := (C185_maxima _ _ _ _).1 hr
    obtain ⟨h3, h4⟩ := C185_maxima_near _ h maxR (k * gridStep 0 maxR) (k * gridStep 0 maxR) _ hx hh hm
      (fun x hx => (List.eq_of_mem_replicate hx).ge) (fun x hx => (List.eq_of_mem_replicate hx).le) hr
    have h5 : ((k : ℝ) - 1) < i := by
      by_contra hc
      push Not at hc
      have := mul_le_mul_of_nonneg_right hc hsp.le
      linarith
    have h6 : (i : ℝ) < k + 1 := by
      by_contra hc
      push Not at hc
      have := mul_le_mul_of_nonneg_right hc hsp.le
      linarith
    have h7 : k < i + 1 := by
      have : (k : ℝ) < i + 1 := by linarith
      exact_mod_cast this
    have h8 : i < k + 1 := by exact_mod_cast h6
    rw [show i = k by omega]
  · rintro rfl
    refine (C185_maxima _ _ _ _).2 ⟨k, h1, h2, rfl, ?_, ?_⟩
    · exact estimate_lt' hx hh (by linarith) (fun x hx => (List.eq_of_mem_replicate hx).le)
    · exact estimate_lt hx hh (by linarith) (fun x hx => (List.eq_of_mem_replicate hx).ge)

example : nodeMaxima [50 * gridStep 0 10] 1 10 ≠ [] := by
  intro hc
  have := (C185_single 0 1 10 50 (by norm_num) (by norm_num) (by norm_num) (by norm_num) (50 * gridStep 0 10)).2 (by norm_num)
  norm_num at this
  rw [hc] at this
  simp at this

theorem maxOfR_spec (rs : List ℝ) {M : ℝ} (h : maxOfR rs = some M) : M ∈ rs ∧ ∀ x ∈ rs, x ≤ M := by
  cases rs with
  | nil => simp [maxOfR] at h
  | cons v l =>
    have h : l.foldl max v = M := Option.some.inj h
    subst h
    induction l generalizing v with
    | nil => simp
    | cons w l ih =>
      obtain ⟨h1, h2⟩ := ih (max v w) rfl
      rw [List.foldl_cons]
      refine ⟨?_, fun x hx => ?_⟩
      · rcases List.mem_cons.1 h1 with h1 | h1
        · rcases max_choice v w with e | e <;> rw [h1, e] <;> simp
        · simp [h1]
      · have hm := h2 (max v w) (by simp)
        rcases List.mem_cons.1 hx with rfl | hx
        · exact (le_max_left _ _).trans hm
        · rcases List.mem_cons.1 hx with rfl | hx
          · exact (le_max_right _ _).trans hm
          · exact h2 x (by simp [hx])

/-- C185: the root of the tree is the innermost maximum of the estimate for all the radii, with a tenth of the greatest radius
for the width and looked for in 100 points up to the greatest radius. -/
theorem C185_root (rs : List ℝ) (r : ℝ) (h : treeRoot rs = some r) : ∃ M ∈ rs, (∀ x ∈ rs, x ≤ M) ∧
    ∃ i : Nat, 1 ≤ i ∧ i < 99 ∧ r = i * gridStep 0 M ∧ estimate rs (M / 10) (r + gridStep 0 M) < estimate rs (M / 10) r ∧
      estimate rs (M / 10) (r - gridStep 0 M) < estimate rs (M / 10) r ∧
      ∀ j : Nat, 1 ≤ j → j < i → ¬ (estimate rs (M / 10) ((j + 1) * gridStep 0 M) < estimate rs (M / 10) (j * gridStep 0 M) ∧
        estimate rs (M / 10) ((j - 1) * gridStep 0 M) < estimate rs (M / 10) (j * gridStep 0 M)) := by
  unfold treeRoot at h
  rcases hm : maxOfR rs with _ | M
  · rw [hm] at h; cases h
  rw [hm] at h
  change (nodeMaxima rs (M / 10) M)[0]? = some r at h
  obtain ⟨h1, h2⟩ := maxOfR_spec rs hm
  refine ⟨M, h1, h2, ?_⟩
  have hval : ∀ i : Nat, i < 100 → (linspaceR 0 M 100).getD i 0 = i * gridStep 0 M := by
    intro i hi
    rw [List.getD_eq_getElem?_getD, linspaceR_get 0 M hi]
    unfold gridStep
    simp only [Option.getD_some]
    norm_num
  have hlen : (kdeVals rs (M / 10) 0 M 100).length = 100 := by
    rw [kdeVals_eq, List.length_map]
    simp [linspaceR]
  have hsort : (argmaxesR (kdeVals rs (M / 10) 0 M 100)).Pairwise (· < ·) :=
    List.Pairwise.sublist List.filter_sublist (List.pairwise_lt_range')
  have hv : ∀ i : Nat, i < 100 → (kdeVals rs (M / 10) 0 M 100).getD i 0 = estimate rs (M / 10) (i * gridStep 0 M) := by
    intro i hi
    rw [kdeVals_eq, List.getD_eq_getElem?_getD, List.getElem?_map, linspaceR_get 0 M hi]
    unfold gridStep
    simp only [Option.map_some, Option.getD_some]
    norm_num
  have hmem := fun j => mem_argmaxesR (kdeVals rs (M / 10) 0 M 100) j
  unfold nodeMaxima at h
  generalize argmaxesR (kdeVals rs (M / 10) 0 M 100) = l at *
  cases l with
  | nil => simp at h
  | cons i l =>
    simp only [List.map_cons, List.getElem?_cons_zero, Option.some.injEq] at h
    obtain ⟨a1, a2, a3, a4⟩ := (hmem i).1 (by simp)
    rw [hlen] at a2
    rw [hval i (by omega)] at h
    rw [hv i (by omega)] at a3 a4
    rw [hv (i + 1) (by omega)] at a3
    rw [hv (i - 1) (by omega)] at a4
    refine ⟨i, a1, by omega, h.symm, ?_, ?_, ?_⟩
    · convert a3 using 2 <;> rw [← h]
      push_cast
      ring
    · convert a4 using 2 <;> rw [← h]
      push_cast [Nat.cast_sub a1]
      ring
    · rintro j hj hji ⟨b1, b2⟩
      have : j ∈ i :: l := (hmem j).2 ⟨hj, by omega, by
        rw [hv j (by omega), hv (j + 1) (by omega)]
        push_cast
        exact b1, by
        rw [hv j (by omega), hv (j - 1) (by omega)]
        push_cast [Nat.cast_sub hj]
        exact b2⟩
      rcases List.mem_cons.1 this with e | e
      · omega
      · have := (List.pairwise_cons.1 hsort).1 j e
        omega

example : ∃ r, treeRoot [33, 33, 33, 99] = some r := by
  have hm : maxOfR [33, 33, 33, 99] = some 99 := by
    unfold maxOfR
    norm_num
  have hg : gridStep 0 99 = 1 := by unfold gridStep; norm_num
  have hmem : (33 : ℝ) ∈ nodeMaxima [33, 33, 33, 99] (99 / 10) 99 := by
    rw [C185_maxima, hg]
    refine ⟨33, by norm_num, by norm_num, by norm_num, ?_, estimate_lt (by simp) (by norm_num) (by norm_num) (by
      intro x hx
      simp only [List.mem_cons, List.not_mem_nil, or_false] at hx
      rcases hx with rfl | rfl | rfl | rfl <;> norm_num)⟩
    unfold estimate
    refine div_lt_div_of_pos_right ?_ (norm_pos (by simp) (by norm_num))
    simp only [List.map_cons, List.map_nil, List.sum_cons, List.sum_nil]
    have le : ∀ t : ℝ, 0 ≤ t → Real.exp (-t) ≤ 1 / (1 + t) := by
      intro t ht
      rw [Real.exp_neg, ← one_div]
      exact one_div_le_one_div_of_le (by linarith) (by linarith [Real.add_one_le_exp t])
    have h1 := le (((33 - (33 + 1)) / (99 / 10)) ^ 2) (by positivity)
    have h2 := le (((99 - (33 + 1)) / (99 / 10)) ^ 2) (by positivity)
    have h3 : Real.exp (-((33 - 33 : ℝ) / (99 / 10)) ^ 2) = 1 := by norm_num
    have h4 := Real.exp_pos (-((99 - 33 : ℝ) / (99 / 10)) ^ 2)
    rw [h3]
    norm_num at h1 h2 h4 ⊢
    linarith
  have : nodeMaxima [33, 33, 33, 99] (99 / 10) 99 ≠ [] := List.ne_nil_of_mem hmem
  unfold treeRoot
  rw [hm]
  change ∃ r, (nodeMaxima [33, 33, 33, 99] (99 / 10) 99)[0]? = some r
  cases h : nodeMaxima [33, 33, 33, 99] (99 / 10) 99 with
  | nil => exact absurd h this
  | cons a l => exact ⟨a, rfl⟩

/-- C185 does not hold for a shell: if all radii are the same, the estimate has no inner maximum and building the tree ends in
an exception, for any number of points. -/
theorem C185_counterexample_shell (n : Nat) (r : ℝ) (hr : 0 < r) : treeRoot (List.replicate (n + 1) r) = none := by
  have hmax : maxOfR (List.replicate (n + 1) r) = some r := by
    rw [List.replicate_succ]
    have : (List.replicate n r).foldl max r = r := by
      induction n with
      | zero => rfl
      | succ n ih => rw [List.replicate_succ, List.foldl_cons, max_self, ih]
    exact congrArg some this
  have hx : List.replicate (n + 1) r ≠ [] := by simp
  have hnil : nodeMaxima (List.replicate (n + 1) r) (r / 10) r = [] := by
    apply List.eq_nil_iff_forall_not_mem.2
    intro y hy
    obtain ⟨i, -, h2, rfl, h3, -⟩ := (C185_maxima _ _ _ _).1 hy
    have hsp : 0 < gridStep 0 r := by unfold gridStep; apply div_pos <;> linarith
    have h99 : (99 : ℝ) * gridStep 0 r = r := by unfold gridStep; field_simp; ring
    have hi : (i : ℝ) + 1 ≤ 99 := by exact_mod_cast (by omega : i + 1 ≤ 99)
    have := mul_le_mul_of_nonneg_right hi hsp.le
    have := estimate_lt (xs := List.replicate (n + 1) r) (h := r / 10) (e := i * gridStep 0 r) (e' := i * gridStep 0 r + gridStep 0 r)
      hx (by linarith) (by linarith) (fun x hx => by rw [List.eq_of_mem_replicate hx]; linarith)
    linarith
  unfold treeRoot
  simp only [hmax, Option.bind_eq_bind, Option.bind_some, hnil]
  rfl

end Verif.Py
