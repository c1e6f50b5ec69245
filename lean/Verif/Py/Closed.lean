import Verif.Py.ClosedModel
import Mathlib.Data.List.GetD
import Mathlib.Data.List.Basic
import Mathlib.Tactic.Linarith
import Mathlib.Tactic.Ring
import Mathlib.Tactic.FieldSimp
import Mathlib.Tactic.NormNum
import Mathlib.Tactic.Positivity

/-!
# C190: the closed curve through the peaks and the points near it
-/

set_option autoImplicit false

namespace Verif.Py

/-- The angles in the middle of `n` equal parts of the circle, continued over all turns: `node n k` for integers `k`. -/
noncomputable def node (n : Nat) (k : ℤ) : ℝ := Real.pi * (2 * k + 1) / n

theorem tripleThs_eq (n : Nat) (hn : 0 < n) :
    tripleThs (thRow n) = (List.range (3 * n)).map fun i : Nat => node n ((i : ℤ) - n) := by
  have h0 : (n : ℝ) ≠ 0 := by exact_mod_cast hn.ne'
  have e : List.range (3 * n) = (List.range n ++ (List.range n).map (n + ·)) ++ (List.range n).map (fun i => n + n + i) := by
    rw [show 3 * n = n + n + n by ring, List.range_add, List.range_add]
  rw [e]
  unfold tripleThs thRow
  simp only [List.map_append, List.map_map]
  congr 1
  · congr 1
    · refine List.map_congr_left fun i _ => ?_
      simp only [Function.comp, node]
      push_cast
      field_simp
      ring
    · refine List.map_congr_left fun i _ => ?_
      simp only [Function.comp, node]
      push_cast
      field_simp
      ring
  · refine List.map_congr_left fun i _ => ?_
    simp only [Function.comp, node]
    push_cast
    field_simp
    ring

/-- Property C190: the angles given to the spline are the middles of the parts over three turns, increasing, and every angle from
-π to 3π, so every value of `arctan2` and every angle of a turn, lies between two of them. -/
theorem C190_angles (n : Nat) (hn : 0 < n) :
    tripleThs (thRow n) = ((List.range (3 * n)).map fun i : Nat => node n ((i : ℤ) - n)) ∧
      (tripleThs (thRow n)).Pairwise (· < ·) ∧
      ∀ θ, -Real.pi ≤ θ → θ ≤ 3 * Real.pi → ∃ a b, (tripleThs (thRow n)).head? = some a ∧
        (tripleThs (thRow n)).getLast? = some b ∧ a ≤ θ ∧ θ ≤ b := by
  have hpi := Real.pi_pos
  have hnr : (0 : ℝ) < n := by exact_mod_cast hn
  have hn1 : (1 : ℝ) ≤ n := by exact_mod_cast hn
  refine ⟨tripleThs_eq n hn, ?_, ?_⟩
  · rw [tripleThs_eq n hn, List.pairwise_map]
    refine List.pairwise_lt_range.imp fun {i j} hij => ?_
    unfold node
    have : (i : ℝ) < j := by exact_mod_cast hij
    refine (div_lt_div_iff_of_pos_right hnr).mpr (mul_lt_mul_of_pos_left ?_ hpi)
    push_cast
    linarith
  · intro θ h1 h2
    refine ⟨node n (-n), node n (2 * n - 1), ?_, ?_, ?_, ?_⟩
    · rw [tripleThs_eq n hn, List.head?_eq_getElem?]
      simp [hn]
    · rw [tripleThs_eq n hn, List.getLast?_eq_getElem?]
      have h3 : 3 * n - 1 < 3 * n := by omega
      simp only [List.length_map, List.length_range, List.getElem?_map, List.getElem?_range h3, Option.map_some]
      congr 2
      omega
    · refine le_trans ?_ h1
      unfold node
      rw [div_le_iff₀ hnr]
      push_cast
      nlinarith
    · refine le_trans h2 ?_
      unfold node
      rw [le_div_iff₀ hnr]
      push_cast
      nlinarith

example : (tripleThs (thRow 2)).length = 6 ∧ node 2 0 = Real.pi / 2 ∧ node 2 (-1) = -(Real.pi / 2) := by
  refine ⟨by simp [tripleThs, thRow], by simp [node], ?_⟩
  unfold node
  push_cast
  ring

/-- What is known of the spline of SciPy with `s=0`: with increasing positions, more than three of them, it goes through its
points. -/
def Interpolates (spl : List ℝ → List ℝ → ℝ → ℝ) : Prop :=
  ∀ xs ys : List ℝ, xs.Pairwise (· < ·) → xs.length = ys.length → 3 < xs.length →
    ∀ (i : Nat) (x y : ℝ), xs[i]? = some x → ys[i]? = some y → spl xs ys x = y

theorem triple_getElem? (rs : List ℝ) (i : Nat) (h : i < 3 * rs.length) : (tripleRs rs)[i]? = rs[i % rs.length]? := by
  unfold tripleRs
  have hl : 0 < rs.length := by omega
  rcases Nat.lt_or_ge i rs.length with h1 | h1
  · rw [List.getElem?_append_left (by simp; omega), List.getElem?_append_left h1, Nat.mod_eq_of_lt h1]
  · rcases Nat.lt_or_ge i (rs.length + rs.length) with h2 | h2
    · rw [List.getElem?_append_left (by simpa using h2), List.getElem?_append_right h1,
        Nat.mod_eq_sub_mod h1, Nat.mod_eq_of_lt (by omega)]
    · rw [List.getElem?_append_right (by simpa using h2)]
      simp only [List.length_append]
      rw [Nat.mod_eq_sub_mod h1, Nat.mod_eq_sub_mod (by omega : rs.length ≤ i - rs.length), Nat.mod_eq_of_lt (by omega)]
      congr 1
      omega

/-- Property C190: in the direction of a node the curve is at the radius of the node, also a turn before and after; with either
of the two ways to make it. -/
theorem C190_curve {spl : List ℝ → List ℝ → ℝ → ℝ} (hs : Interpolates spl) (base : Bool) (maxes : List ℝ) (hn : 1 < maxes.length)
    (hr : ∀ r ∈ maxes, 0 ≤ r) (i : Nat) (r : ℝ) (hi : maxes[i]? = some r) (turn : ℤ) (ht : turn = -1 ∨ turn = 0 ∨ turn = 1) :
    curve spl base maxes (thRow maxes.length) (node maxes.length i + 2 * Real.pi * turn) = r := by
  have hil : i < maxes.length := by
    by_contra hc
    rw [List.getElem?_eq_none (by omega)] at hi
    simp at hi
  generalize hN : maxes.length = n at *
  have hn0 : 0 < n := by omega
  obtain ⟨_, hinc, _⟩ := C190_angles n hn0
  have hlen : (tripleThs (thRow n)).length = 3 * n := by rw [tripleThs_eq n hn0]; simp
  have hlr : (tripleRs maxes).length = 3 * n := by simp [tripleRs]; omega
  obtain ⟨j, hj, hjm, hjt⟩ : ∃ j : Nat, j < 3 * n ∧ j % n = i ∧ (j : ℤ) - n = i + n * turn := by
    rcases ht with rfl | rfl | rfl
    · exact ⟨i, by omega, Nat.mod_eq_of_lt hil, by ring⟩
    · exact ⟨i + n, by omega, by rw [Nat.add_mod_right, Nat.mod_eq_of_lt hil], by push_cast; ring⟩
    · exact ⟨i + n + n, by omega, by rw [Nat.add_mod_right, Nat.add_mod_right, Nat.mod_eq_of_lt hil], by push_cast; ring⟩
  have eθ : node n i + 2 * Real.pi * turn = node n ((j : ℤ) - n) := by
    rw [hjt]
    unfold node
    have : (n : ℝ) ≠ 0 := by exact_mod_cast hn0.ne'
    push_cast
    field_simp
    ring
  have ex : (tripleThs (thRow n))[j]? = some (node n ((j : ℤ) - n)) := by
    rw [tripleThs_eq n hn0]
    simp [hj]
  have er : (tripleRs maxes)[j]? = some r := by
    rw [triple_getElem? maxes j (by omega), hN, hjm, hi]
  have hr0 : 0 ≤ r := hr r (List.mem_of_getElem? hi)
  rw [eθ]
  unfold curve
  cases base with
  | true =>
    simp only [if_true]
    exact hs _ _ hinc (by rw [hlen, hlr]) (by omega) j _ _ ex er
  | false =>
    simp only [Bool.false_eq_true, if_false]
    rw [hs _ _ hinc (by simp [hlen, hlr]) (by omega) j _ (Real.cos (node n ((j : ℤ) - n)) * r) ex
        (by rw [List.getElem?_zipWith, er, ex]),
      hs _ _ hinc (by simp [hlen, hlr]) (by omega) j _ (Real.sin (node n ((j : ℤ) - n)) * r) ex
        (by rw [List.getElem?_zipWith, er, ex])]
    have e : (Real.cos (node n ((j : ℤ) - n)) * r) ^ 2 + (Real.sin (node n ((j : ℤ) - n)) * r) ^ 2 = r ^ 2 := by
      have := Real.sin_sq_add_cos_sq (node n ((j : ℤ) - n))
      linear_combination r ^ 2 * this
    rw [e, Real.sqrt_sq hr0]

/-- There is an interpolation: the value of the point at the position, otherwise 0. -/
example : ∃ spl, Interpolates spl := by
  classical
  refine ⟨fun xs ys x => ys.getD (xs.idxOf x) 0, ?_⟩
  intro xs ys hp _ _ i x y hx hy
  have hnd : xs.Nodup := hp.imp fun h => ne_of_lt h
  obtain ⟨hi, rfl⟩ := List.getElem?_eq_some_iff.mp hx
  beta_reduce
  rw [hnd.idxOf_getElem i hi, List.getD_eq_getElem?_getD, hy]
  rfl

example : (1 : ℕ) < [3, 2, 4, 3].length ∧ (∀ r ∈ [(3 : ℝ), 2, 4, 3], 0 ≤ r) ∧ [(3 : ℝ), 2, 4, 3][2]? = some 4 := by
  refine ⟨by norm_num, ?_, rfl⟩
  intro r hr
  simp only [List.mem_cons, List.not_mem_nil, or_false] at hr
  rcases hr with rfl | rfl | rfl | rfl <;> norm_num

theorem maskBy_tab {α : Type} (n : Nat) (f : Nat → α) (v : Nat → Bool) :
    maskBy ((List.range n).map v) ((List.range n).map f) = ((List.range n).filter v).map f := by
  unfold maskBy
  rw [List.zip_map', List.filter_map, List.map_map]
  rfl

/-- Property C190: the indices returned are those of the points closer to the curve than the distance, in order, and the radii
and angles are those of the same points. -/
theorem C190_nearby (sp : ℝ → ℝ) (h : ℝ) (n : Nat) (r t : Nat → ℝ) (dr : Option ℝ) :
    ∃ idxs : List Nat, filterNearby sp h ((List.range n).map r) ((List.range n).map t) dr = some (idxs.map r, idxs.map t, idxs) ∧
      idxs.Pairwise (· < ·) ∧ ∀ i, i ∈ idxs ↔ i < n ∧ |r i - sp (t i)| < (match dr with | none => h | some d => d) := by
  classical
  unfold filterNearby
  rw [if_neg (by simp)]
  have e : ∀ d, List.zipWith (fun r t => decide (|r - sp t| < d)) ((List.range n).map r) ((List.range n).map t) =
      (List.range n).map fun i => decide (|r i - sp (t i)| < d) := by
    intro d
    rw [List.zipWith_map, List.zipWith_self]
  simp only [e, List.length_map, List.length_range]
  have e2 : ∀ v : Nat → Bool, maskBy ((List.range n).map v) (List.range n) = (List.range n).filter v := by
    intro v
    have := maskBy_tab n id v
    simpa using this
  refine ⟨_, by rw [maskBy_tab, maskBy_tab, e2], List.pairwise_lt_range.filter _, ?_⟩
  intro i
  simp only [List.mem_filter, List.mem_range, decide_eq_true_eq]
  cases dr <;> rfl

/-- Property C190: arrays of different lengths are refused. -/
theorem C190_refused (sp : ℝ → ℝ) (h : ℝ) (rs ts : List ℝ) (dr : Option ℝ) :
    filterNearby sp h rs ts dr = none ↔ rs.length ≠ ts.length := by
  unfold filterNearby
  split_ifs with hl
  · exact ⟨fun _ => hl, fun _ => rfl⟩
  · simp [hl]

/-- A point on the curve and one away from it. -/
example : ∃ idxs : List Nat, filterNearby (fun _ => 1) 3 ((List.range 2).map fun i : Nat => (1 + 5 * i : ℝ))
    ((List.range 2).map fun _ => 0) none = some (idxs.map (fun i : Nat => (1 + 5 * i : ℝ)), idxs.map (fun _ => (0 : ℝ)), idxs) ∧ 0 ∈ idxs ∧ 1 ∉ idxs := by
  obtain ⟨idxs, h1, _, h3⟩ := C190_nearby (fun _ => 1) 3 2 (fun i => 1 + 5 * i) (fun _ => 0) none
  refine ⟨idxs, h1, (h3 0).mpr ⟨by norm_num, by norm_num⟩, fun h => ?_⟩
  have := ((h3 1).mp h).2
  norm_num at this

end Verif.Py
