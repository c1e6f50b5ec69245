import Verif.Mat.RoundModel
import Verif.Mat.LU

/-! Products of matrices with rounding: property C137. -/

set_option autoImplicit false

namespace Verif.Mat

open Verif.Go

/-! ### The arithmetic -/

/-- What the proofs need of the arithmetic: the error of an operation is at most `u` times its exact or its rounded result,
and the product in `c + a * b` may be rounded too. -/
structure FP.Laws (f : FP) (u : ℚ) : Prop where
  nonneg : 0 ≤ u
  err : ∀ x, |f.fl x - x| ≤ u * |x|
  err' : ∀ x, |f.fl x - x| ≤ u * |f.fl x|
  pos : ∀ x, 0 < x → 0 < f.fl x
  mac : ∀ c a b, ∃ q, |q - a * b| ≤ u * |a * b| ∧ |f.mac c a b - (c + q)| ≤ u * |c + q| ∧
    |f.mac c a b - (c + q)| ≤ u * |f.mac c a b|
  mac_zero : ∀ a b, |f.mac 0 a b - a * b| ≤ u * |a * b|

theorem rnd_err_result {p : ℕ} (hp : 0 < p) (x : ℚ) : |rnd p x - x| ≤ 1 / 2 ^ p * |rnd p x| := by
  by_cases hx : x = 0
  · simp [hx, rnd_zero]
  refine (rnd_err_ulp hx).trans ?_
  have h : (2 : ℚ) ^ expo x ≤ |rnd p x| := by
    rcases lt_or_gt_of_ne hx with h | h
    · have := (rnd_bounds hp (neg_pos.mpr h)).1
      rw [expo_neg, rnd_neg] at this
      exact this.trans (neg_le_abs _)
    · exact (rnd_bounds hp h).1.trans (le_abs_self _)
  rw [zpow_sub₀ two_ne_zero, zpow_natCast, div_eq_mul_one_div, mul_comm]
  exact mul_le_mul_of_nonneg_left h (by positivity)

theorem fp_laws {p : ℕ} (hp : 0 < p) (fused : Bool) : (fp p fused).Laws (1 / 2 ^ p) where
  nonneg := by positivity
  err x := by
    have := rnd_err p x
    rw [div_eq_mul_one_div, mul_comm] at this
    exact this
  err' := rnd_err_result hp
  pos x hx := rnd_pos hp hx
  mac c a b := by
    have h := rnd_err p
    simp only [div_eq_mul_one_div (|_|), mul_comm (|_|)] at h
    cases fused
    · refine ⟨rnd p (a * b), h _, ?_, ?_⟩
      · have := h (c + rnd p (a * b))
        simpa [fp, mulAdd, add_comm c] using this
      · have := rnd_err_result hp (c + rnd p (a * b))
        simpa [fp, mulAdd, add_comm c] using this
    · refine ⟨a * b, by simp; positivity, ?_, ?_⟩
      · have := h (c + a * b)
        simpa [fp, mulAdd, add_comm c] using this
      · have := rnd_err_result hp (c + a * b)
        simpa [fp, mulAdd, add_comm c] using this
  mac_zero a b := by
    have h : |rnd p (a * b) - a * b| ≤ 1 / 2 ^ p * |a * b| := by
      have := rnd_err p (a * b)
      rwa [div_eq_mul_one_div, mul_comm (|_|)] at this
    cases fused
    · simpa only [fp, mulAdd, add_zero, rnd_idem hp, if_false, Bool.false_eq_true] using h
    · simpa only [fp, mulAdd, add_zero, if_true] using h

theorem exact_laws : exactFP.Laws 0 where
  nonneg := le_rfl
  err x := by simp [exactFP]
  err' x := by simp [exactFP]
  pos x hx := hx
  mac c a b := ⟨a * b, by simp [exactFP]⟩
  mac_zero a b := by simp [exactFP]

/-! ### Sums of products -/

/-- The running sum after `k` products. -/
def macs (f : FP) (a b : Nat → ℚ) : Nat → ℚ
  | 0 => 0
  | k + 1 => f.mac (macs f a b k) (a k) (b k)

theorem macs_congr {f : FP} {a b a' b' : Nat → ℚ} {k : Nat} (h : ∀ i < k, a i = a' i ∧ b i = b' i) :
    macs f a b k = macs f a' b' k := by
  induction k with
  | zero => rfl
  | succ k ih =>
    have := h k (by omega)
    rw [macs, macs, ih fun i hi => h i (by omega), this.1, this.2]

/-- One operation `c + a * b`. -/
theorem FP.Laws.mac_err {f : FP} {u : ℚ} (h : f.Laws u) (c a b : ℚ) :
    |f.mac c a b - (c + a * b)| ≤ u * |c| + ((1 + u) ^ 2 - 1) * |a * b| := by
  obtain ⟨q, h1, h2, -⟩ := h.mac c a b
  have hu := h.nonneg
  have hq : |q| ≤ (1 + u) * |a * b| := by
    have := abs_add_le (q - a * b) (a * b)
    rw [sub_add_cancel] at this
    linarith
  have e : f.mac c a b - (c + a * b) = (f.mac c a b - (c + q)) + (q - a * b) := by ring
  rw [e]
  have h3 := abs_add_le (f.mac c a b - (c + q)) (q - a * b)
  have h4 : u * |c + q| ≤ u * (|c| + |q|) := mul_le_mul_of_nonneg_left (abs_add_le _ _) hu
  have h5 : u * |q| ≤ u * ((1 + u) * |a * b|) := mul_le_mul_of_nonneg_left hq hu
  nlinarith

/-- The error of a sum of `k` products. -/
theorem macs_err {f : FP} {u : ℚ} (h : f.Laws u) (a b : Nat → ℚ) (k : Nat) :
    |macs f a b k - ∑ i ∈ Finset.range k, a i * b i| ≤ ((1 + u) ^ k - 1) * ∑ i ∈ Finset.range k, |a i| * |b i| := by
  have hu := h.nonneg
  rcases k with _ | k
  · simp [macs]
  induction k with
  | zero =>
    have := h.mac_zero (a 0) (b 0)
    simpa [macs, abs_mul] using this
  | succ k ih =>
    rw [macs, Finset.sum_range_succ, Finset.sum_range_succ _ (k + 1)]
    generalize macs f a b (k + 1) = s at *
    have hT : |∑ i ∈ Finset.range (k + 1), a i * b i| ≤ ∑ i ∈ Finset.range (k + 1), |a i| * |b i| := by
      refine (Finset.abs_sum_le_sum_abs _ _).trans (Finset.sum_le_sum fun i _ => ?_)
      rw [abs_mul]
    generalize (∑ i ∈ Finset.range (k + 1), |a i| * |b i|) = T at *
    generalize (∑ i ∈ Finset.range (k + 1), a i * b i) = S at *
    have h1 := h.mac_err s (a (k + 1)) (b (k + 1))
    rw [abs_mul] at h1
    have hx : (0 : ℚ) ≤ |a (k + 1)| * |b (k + 1)| := by positivity
    generalize hX : |a (k + 1)| * |b (k + 1)| = X at *
    generalize a (k + 1) * b (k + 1) = x at *
    have hs : |s| ≤ |S| + |s - S| := by
      have := abs_add_le S (s - S)
      rwa [add_sub_cancel] at this
    have e : f.mac s (a (k + 1)) (b (k + 1)) - (S + x) = (f.mac s (a (k + 1)) (b (k + 1)) - (s + x)) + (s - S) := by ring
    rw [e]
    have h2 := abs_add_le (f.mac s (a (k + 1)) (b (k + 1)) - (s + x)) (s - S)
    have hg : (1 : ℚ) ≤ (1 + u) ^ k := one_le_pow₀ (by linarith)
    have hp : (1 + u) ^ (k + 1 + 1) = (1 + u) ^ k * (1 + u) ^ 2 := by ring
    have hp' : (1 + u) ^ (k + 1) = (1 + u) ^ k * (1 + u) := by ring
    rw [hp'] at ih
    rw [hp]
    generalize (1 + u) ^ k = g at *
    have hT0 : 0 ≤ T := (abs_nonneg _).trans hT
    have h3 : u * |s| ≤ u * (T + (g * (1 + u) - 1) * T) :=
      mul_le_mul_of_nonneg_left (by linarith) hu
    have h4 : ((1 + u) ^ 2 - 1) * X ≤ (g * (1 + u) ^ 2 - 1) * X :=
      mul_le_mul_of_nonneg_right (by nlinarith [sq_nonneg (1 + u)]) hx
    nlinarith

/-- The absolute values of the entries. -/
def absM {h w : Nat} (A : _root_.Matrix (Fin h) (Fin w) ℚ) : _root_.Matrix (Fin h) (Fin w) ℚ := A.map fun x => |x|

/-! ### Mult -/

theorem multR_inner (f : FP) {m1 m2 : List ℚ} {h w : Nat} {A B C : Nat → Nat → ℚ} (r1 : Rep m1 h w A)
    (r2 : Rep m2 w w B) {i j : Nat} (hi : i < h) (hj : j < w) (vals : List ℚ) (r : Rep vals h w C) (h0 : C i j = 0) :
    ∃ vals', forRange 0 w (fun k vals => do
          let o ← rd vals ((i : Int) * w + j)
          let a ← rd m1 ((i : Int) * w + k)
          let b ← rd m2 (k * w + j)
          wr vals ((i : Int) * w + j) (f.mac o a b)) vals = some vals' ∧
      Rep vals' h w (fun a b => if a = i ∧ b = j then macs f (A i) (fun k => B k j) w else C a b) := by
  obtain ⟨v', e, h'⟩ := forRange_nat (fun k v => Rep v h w
      (fun a b => if a = i ∧ b = j then macs f (A i) (fun k => B k j) k else C a b)) (lo := 0) (hi := w) (Nat.zero_le _)
    (fun k vals => do
          let o ← rd vals ((i : Int) * w + j)
          let a ← rd m1 ((i : Int) * w + k)
          let b ← rd m2 (k * w + j)
          wr vals ((i : Int) * w + j) (f.mac o a b)) vals (by
      apply r.congr
      intro a b _ _
      split
      · next c => rw [c.1, c.2, h0]; rfl
      · rfl) (by
      intro k v _ hk hv
      have a1 := hv.rd hi hj
      simp only [and_self, if_true] at a1
      obtain ⟨v', e, rv⟩ := hv.wr hi hj (macs f (A i) (fun k => B k j) (k + 1))
      refine ⟨v', bind_of a1 (bind_of (r1.rd hi hk) (bind_of (r2.rd hk hj) e)), rv.congr ?_⟩
      intro a b _ _
      split <;> rfl)
  rw [Nat.cast_zero] at e
  exact ⟨v', e, h'⟩

theorem multR_eq (f : FP) {h w : Nat} (hh : 0 < h) (hw : 0 < w) (a b : List ℚ)
    (A : _root_.Matrix (Fin h) (Fin w) ℚ) (B : _root_.Matrix (Fin w) (Fin w) ℚ) (ha : Holds a A)
    (hb : Holds b B) : ∃ c, Matrix.multR f ⟨a, w, h⟩ ⟨b, w, w⟩ = some ⟨c, w, h⟩ ∧
      Holds c (_root_.Matrix.of fun (i : Fin h) (j : Fin w) => macs f (fnOf a w i) (fun k => fnOf b w k j) w) := by
  have r1 := ha.rep
  have r2 := hb.rep
  obtain ⟨vals, e, r⟩ := forRange_nat (fun i vals => Rep vals h w (fun x y =>
      if x < i then macs f (fnOf a w x) (fun k => fnOf b w k y) w else 0)) (lo := 0) (hi := h) (Nat.zero_le _)
    (fun i vals =>
      forRange 0 w (fun j vals =>
        forRange 0 w (fun k vals => do
          let o ← rd vals (i * w + j)
          let x ← rd a (i * w + k)
          let y ← rd b (k * w + j)
          wr vals (i * w + j) (f.mac o x y)) vals) vals) (List.replicate (h * w) 0) (by
      refine ⟨by simp, fun i j hi hj => ?_⟩
      rw [List.getElem?_replicate, if_pos (idx_lt hi hj)]
      simp) (by
      intro i vals _ hi hv
      obtain ⟨v', e, r⟩ := forRange_nat (fun j v => Rep v h w (fun x y =>
          if x < i ∨ (x = i ∧ y < j) then macs f (fnOf a w x) (fun k => fnOf b w k y) w else 0)) (lo := 0) (hi := w)
        (Nat.zero_le _) (fun j vals =>
        forRange 0 w (fun k vals => do
          let o ← rd vals ((i : Int) * w + j)
          let x ← rd a ((i : Int) * w + k)
          let y ← rd b (k * w + j)
          wr vals ((i : Int) * w + j) (f.mac o x y)) vals) vals (by
          apply hv.congr
          intro x y _ _
          by_cases c : x < i
          · rw [if_pos c, if_pos (Or.inl c)]
          · rw [if_neg c, if_neg (by omega)]) (by
          intro j v _ hj hv'
          obtain ⟨v'', e, r⟩ := multR_inner f r1 r2 hi hj v hv' (by rw [if_neg (by omega)])
          refine ⟨v'', e, r.congr ?_⟩
          intro x y _ _
          by_cases c : x = i ∧ y = j
          · obtain ⟨rfl, rfl⟩ := c
            rw [if_pos ⟨rfl, rfl⟩, if_pos (by omega)]
          · rw [if_neg c]
            by_cases c' : x < i ∨ (x = i ∧ y < j)
            · rw [if_pos c', if_pos (by omega)]
            · rw [if_neg c', if_neg (by omega)])
      rw [Nat.cast_zero] at e
      refine ⟨v', e, r.congr ?_⟩
      intro x y _ hy
      by_cases c : x < i + 1
      · rw [if_pos c, if_pos (by omega)]
      · rw [if_neg c, if_neg (by omega)])
  rw [Nat.cast_zero] at e
  refine ⟨vals, ?_, ?_⟩
  · unfold Matrix.multR
    simp only
    rw [newMatrix_eq hw hh (by simp)]
    simp only [bind, Option.bind_some, Matrix.multAtR, List.length_replicate, ne_eq, not_true_eq_false,
      if_false]
    simp only [bind] at e
    rw [e]
    rfl
  · refine (r.congr (M' := fun x y => macs f (fnOf a w x) (fun k => fnOf b w k y) w) ?_).holds
    intro x y hx _
    rw [if_pos hx]

theorem sum_fin {n : Nat} (g : Nat → ℚ) : ∑ i ∈ Finset.range n, g i = ∑ i : Fin n, g i := Finset.sum_range g

/-- C137: `Mult` of a matrix with a square one, in arithmetic with `p` bits: every entry differs from that of the exact product
by at most `(1 + 2^-p)^w - 1` times the sum of the absolute values of the products.
Missing: right factors that are not square, for which `Mult` is wrong even with exact arithmetic (C25). -/
theorem C137_mult_partial {p : ℕ} (hp : 0 < p) (fused : Bool) {h w : Nat} (hh : 0 < h) (hw : 0 < w) (a b : List ℚ)
    (A : _root_.Matrix (Fin h) (Fin w) ℚ) (B : _root_.Matrix (Fin w) (Fin w) ℚ) (ha : Holds a A) (hb : Holds b B) :
    ∃ c C, Matrix.multR (fp p fused) ⟨a, w, h⟩ ⟨b, w, w⟩ = some ⟨c, w, h⟩ ∧ Holds c C ∧
      ∀ i j, |C i j - (A * B) i j| ≤ ((1 + 1 / 2 ^ p) ^ w - 1) * (absM A * absM B) i j := by
  obtain ⟨c, e, hc⟩ := multR_eq (fp p fused) hh hw a b A B ha hb
  refine ⟨c, _, e, hc, ?_⟩
  intro i j
  have := macs_err (fp_laws hp fused) (fnOf a w i) (fun k => fnOf b w k j) w
  rw [_root_.Matrix.mul_apply, _root_.Matrix.mul_apply, _root_.Matrix.of_apply]
  rw [sum_fin, sum_fin] at this
  simp only [absM, _root_.Matrix.map_apply, ha.eq_fnOf, hb.eq_fnOf]
  exact this

/-- `0.1 * 0.1` in double precision, with the numbers nearest to `0.1`. -/
example : (∃ c, Matrix.multR (fp 53 false) ⟨[rnd 53 (1 / 10), 1], 2, 1⟩ ⟨[rnd 53 (1 / 10), 0, 1, 1], 2, 2⟩ = some ⟨c, 2, 1⟩ ∧
      c ≠ [rnd 53 (1 / 10) * rnd 53 (1 / 10) + 1, 1]) ∧
    Holds [rnd 53 (1 / 10), 1] (_root_.Matrix.of ![![rnd 53 (1 / 10), 1]]) := by
  refine ⟨⟨[4548635623644201 / 4503599627370496, 1], by decide +kernel⟩, rfl, ?_⟩
  decide +kernel

/-! ### MultVec and VecMult -/

/-- C137: `MultVec` with rounding. -/
theorem C137_multVec {p : ℕ} (hp : 0 < p) (fused : Bool) {h w : Nat} (m : List ℚ) (A : _root_.Matrix (Fin h) (Fin w) ℚ)
    (hm : Holds m A) (v out : List ℚ) (hv : v.length = w) (ho : out.length = h) :
    ∃ r, multVecR (fp p fused) ⟨m, w, h⟩ v out = some r ∧ r.length = h ∧
      ∀ i : Fin h, |r.getD i 0 - ∑ j : Fin w, A i j * v.getD j 0| ≤
        ((1 + 1 / 2 ^ p) ^ w - 1) * ∑ j : Fin w, |A i j| * |v.getD j 0| := by
  have rm := hm.rep
  have hv' : ∀ i < w, v[i]? = some (v.getD i 0) := fun i hi => rd_getD' (by rw [hv]; exact hi)
  set f := fp p fused with hf
  set S : Nat → ℚ := fun j => macs f (fnOf m w j) (fun i => v.getD i 0) w with hS
  obtain ⟨s, e, h1, h2, h3⟩ := forRange_nat (fun j (s : List ℚ × Int) => s.2 = (j : Int) * w ∧ s.1.length = h ∧
      ∀ i, i < h → s.1.getD i 0 = if i < j then S i else 0) (lo := 0) (hi := h) (Nat.zero_le _)
    (fun j (s : List ℚ × Int) => do
      let out ← forRange 0 w (fun i out => do
        let o ← rd out j
        let a ← rd m (s.2 + i)
        let x ← rd v i
        wr out j (f.mac o a x)) s.1
      some (out, s.2 + w)) (List.replicate h 0, 0) (by
      refine ⟨by simp, by simp, fun i hi => ?_⟩
      rw [if_neg (by omega), List.getD_eq_getElem?_getD, List.getElem?_replicate, if_pos hi]
      rfl) (by
      rintro j ⟨o, off⟩ _ hj ⟨rfl, hl, ho⟩
      dsimp only at hl ho ⊢
      obtain ⟨o', e, hl', ho'⟩ := forRange_nat (fun k (o' : List ℚ) => o'.length = h ∧
          ∀ i, i < h → o'.getD i 0 = if i = j then macs f (fnOf m w j) (fun i => v.getD i 0) k else o.getD i 0)
        (lo := 0) (hi := w) (Nat.zero_le _)
        (fun i out => do
        let o ← rd out (j : Int)
        let a ← rd m ((j : Int) * w + i)
        let x ← rd v i
        wr out (j : Int) (f.mac o a x)) o (by
          refine ⟨hl, fun i hi => ?_⟩
          split
          · next c => rw [c, ho j hj, if_neg (by omega)]; rfl
          · rfl) (by
          rintro k o' _ hk ⟨hl', ho'⟩
          have a1 : rd o' (j : Int) = some (macs f (fnOf m w j) (fun i => v.getD i 0) k) := by
            rw [rd_natCast, rd_getD' (by omega), ho' j hj, if_pos rfl]
          have hlt : j < o'.length := by omega
          refine ⟨_, bind_of a1 (bind_of (rm.rd hj hk) (bind_of (rd_fn_nat hv' k rfl hk) (wr_natCast hlt))),
            by simpa using hl', fun i hi => ?_⟩
          rw [getD_set hlt]
          by_cases c : j = i
          · rw [if_pos c, if_pos c.symm]; rfl
          · rw [if_neg c, if_neg (Ne.symm c), ho' i hi, if_neg (Ne.symm c)])
      rw [Nat.cast_zero] at e
      refine ⟨_, bind_of e rfl, by push_cast; ring, hl', fun i hi => ?_⟩
      dsimp only
      rw [ho' i hi]
      by_cases c : i = j
      · rw [if_pos c, if_pos (by omega), c]
      · rw [if_neg c, ho i hi]
        by_cases c' : i < j
        · rw [if_pos c', if_pos (by omega)]
        · rw [if_neg c', if_neg (by omega)])
  rw [Nat.cast_zero] at e
  refine ⟨s.1, ?_, h2, fun i => ?_⟩
  · unfold multVecR
    dsimp only
    rw [if_neg (by rw [hv, ho]; simp), ho]
    exact bind_of e rfl
  · rw [h3 i i.2, if_pos i.2]
    have := macs_err (fp_laws hp fused) (fnOf m w i) (fun k => v.getD k 0) w
    rw [sum_fin, sum_fin] at this
    simp only [hm.eq_fnOf]
    exact this

/-- C137: `VecMult` with rounding. -/
theorem C137_vecMult {p : ℕ} (hp : 0 < p) (fused : Bool) {h w : Nat} (m : List ℚ) (A : _root_.Matrix (Fin h) (Fin w) ℚ)
    (hm : Holds m A) (v out : List ℚ) (hv : v.length = h) (ho : out.length = w) :
    ∃ r, vecMultR (fp p fused) v ⟨m, w, h⟩ out = some r ∧ r.length = w ∧
      ∀ j : Fin w, |r.getD j 0 - ∑ i : Fin h, v.getD i 0 * A i j| ≤
        ((1 + 1 / 2 ^ p) ^ h - 1) * ∑ i : Fin h, |v.getD i 0| * |A i j| := by
  have rm := hm.rep
  have hv' : ∀ i < h, v[i]? = some (v.getD i 0) := fun i hi => rd_getD' (by rw [hv]; exact hi)
  set f := fp p fused with hf
  set S : Nat → ℚ := fun j => macs f (fun i => v.getD i 0) (fun i => fnOf m w i j) h with hS
  obtain ⟨r, e, hl, hr⟩ := forRange_fill S (lo := 0) (hi := w) (n := w) (Nat.zero_le _) le_rfl (List.replicate w 0) (by simp)
    (fun i out => do
      let sum ← forRange 0 h (fun j sum => do
        let x ← rd v j
        let a ← rd m (i + w * j)
        some (f.mac sum x a)) 0
      wr out i sum) (by
      intro j st _ hj hst _
      obtain ⟨s, e, hs⟩ := forRange_nat (fun k s => s = macs f (fun i => v.getD i 0) (fun i => fnOf m w i j) k)
        (lo := 0) (hi := h) (Nat.zero_le _) (fun i sum => do
        let x ← rd v i
        let a ← rd m ((j : Int) + w * i)
        some (f.mac sum x a)) 0 rfl (by
          intro k s _ hk hs
          have a2 : rd m ((j : Int) + w * k) = some (fnOf m w k j) := by
            rw [show (j : Int) + w * k = (k : Int) * w + j by ring]
            exact rm.rd hk hj
          exact ⟨_, bind_of (rd_fn_nat hv' k rfl hk) (bind_of a2 rfl), by rw [hs]; rfl⟩)
      rw [Nat.cast_zero] at e
      exact bind_of e (by rw [hs]))
  rw [Nat.cast_zero] at e
  refine ⟨r, ?_, hl, fun j => ?_⟩
  · unfold vecMultR
    dsimp only
    rw [if_neg (by rw [hv, ho]; simp), ho]
    exact e
  · rw [List.getD_eq_getElem?_getD, hr, if_pos ⟨Nat.zero_le _, j.2⟩]
    have := macs_err (fp_laws hp fused) (fun i => v.getD i 0) (fun i => fnOf m w i j) h
    rw [sum_fin, sum_fin] at this
    simp only [hm.eq_fnOf]
    exact this

example : multVecR (fp 24 true) ⟨[1 / 4, 16777215, 3, 1], 2, 2⟩ [1, 1] [0, 0] = some [16777215, 4] ∧
    vecMultR (fp 24 true) [1, 1] ⟨[1 / 4, 3, 16777215, 1], 2, 2⟩ [0, 0] = some [16777215, 4] ∧
    Holds [1 / 4, 16777215, 3, 1] (_root_.Matrix.of ![![(1 : ℚ) / 4, 16777215], ![3, 1]]) :=
  ⟨by decide +kernel, by decide +kernel, rfl, by decide +kernel⟩

end Verif.Mat
