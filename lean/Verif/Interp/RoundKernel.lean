import Verif.Interp.RoundKernelModel
import Verif.Interp.Kernel
import Verif.Mat.Round
import Mathlib.Algebra.Order.Ring.Pow
import Mathlib.Tactic.Linarith
import Mathlib.Tactic.Positivity

/-!
# C198: smoothing with kernels in machine arithmetic
-/

set_option autoImplicit false

namespace Verif.Interp

open Verif.Go Verif.Mat

/-! ### Convolution -/

/-- The sum the machine forms at index `i` of the extended signal. -/
def convMach (f : FP) (k : Kernel) (b : Boundary) (xs : List ℚ) (i : Nat) : ℚ :=
  macs f (fun j => extended b xs ((i : Int) + j - k.center)) (fun j => k.cs.getD j 0) k.cs.length

theorem sumAtR_eq (f : FP) (k : Kernel) (get : Int → Option ℚ) (G : Int → ℚ) (i : Int)
    (h : ∀ j : Nat, j < k.cs.length → get (i + j - k.center) = some (G (i + j - k.center))) :
    k.sumAtR f get i = some (macs f (fun j => G (i + j - k.center)) (fun j => k.cs.getD j 0) k.cs.length) := by
  unfold Kernel.sumAtR
  have hc : ∀ j < k.cs.length, k.cs[j]? = some (k.cs.getD j 0) := fun j hj => rd_getD hj
  obtain ⟨s, e, hs⟩ := forRange_nat (fun m s => s = macs f (fun j => G (i + j - k.center)) (fun j => k.cs.getD j 0) m)
    (lo := 0) (hi := k.cs.length) (Nat.zero_le _) (fun j sum => do
      let c ← rd k.cs j
      let x ← get (i + j - k.center)
      some (f.mac sum x c)) 0 rfl (by
      intro j t _ hj ht
      have a1 : rd k.cs (j : Int) = some (k.cs.getD j 0) := rd_fn_nat hc j rfl hj
      simp only [a1, h j hj, bind, Option.bind_some]
      exact ⟨_, rfl, by rw [ht, macs]⟩)
  rw [Nat.cast_zero] at e
  rw [e, hs]

/-- The three loops. `L` is whatever the left loop computes. -/
theorem convolveAtR_eq {f : FP} {k : Kernel} {xs out : List ℚ} {b : Boundary} (c : Nat) (hc : k.center = c)
    (hck : c < k.cs.length) (hn : k.cs.length ≤ xs.length) (ho : out.length = xs.length) (L : Nat → ℚ)
    (hL : ∀ i ≤ c, k.sumAtR f (leftGet b xs) (i : Int) = some (L i)) :
    k.convolveAtR f xs b out = some ((List.range xs.length).map
      (fun i => if i ≤ c then L i else convMach f k b xs i)) := by
  have mid : ∀ i : Nat, c < i → (i : Int) < xs.length - (k.cs.length - 1 - c : Int) →
      k.sumAtR f (rd xs) (i : Int) = some (convMach f k b xs i) := by
    intro i h1 h2
    apply sumAtR_eq f k (rd xs) (extended b xs)
    intro j hj
    exact rd_ext (by rw [hc]; omega) (by rw [hc]; omega)
  have right : ∀ i : Nat, (xs.length : Int) - (k.cs.length - 1 - c : Int) ≤ i → i < xs.length →
      k.sumAtR f (rightGet b xs) (i : Int) = some (convMach f k b xs i) := by
    intro i h1 h2
    apply sumAtR_eq f k (rightGet b xs) (extended b xs)
    intro j hj
    exact rightGet_eq (by rw [hc]; omega) (by rw [hc]; omega) (by omega)
  unfold Kernel.convolveAtR
  simp only [hc, bind]
  obtain ⟨o1, e1, l1, h1⟩ := forRange_fill L (lo := 0) (hi := c + 1) (n := xs.length) (by omega) (by omega) out
    ho (fun i out => (k.sumAtR f (leftGet b xs) i).bind (fun s => wr out i s)) (by
      intro i st _ hi _ _
      simp only [hL i (by omega), Option.bind_some])
  rw [Nat.cast_zero, show ((c + 1 : Nat) : Int) = (c : Int) + 1 by push_cast; rfl] at e1
  rw [e1]
  simp only [Option.bind_some]
  obtain ⟨o2, e2, l2, h2⟩ := forRange_fill (convMach f k b xs) (lo := c + 1)
    (hi := xs.length - (k.cs.length - 1 - c)) (n := xs.length) (by omega) (by omega) o1
    l1 (fun i out => (k.sumAtR f (rd xs) i).bind (fun s => wr out i s)) (by
      intro i st hi1 hi _ _
      simp only [mid i (by omega) (by omega), Option.bind_some])
  rw [show ((c + 1 : Nat) : Int) = (c : Int) + 1 by push_cast; rfl,
    show ((xs.length - (k.cs.length - 1 - c) : Nat) : Int) =
      (xs.length : Int) - ((k.cs.length : Int) - 1 - c) by omega] at e2
  rw [e2]
  simp only [Option.bind_some]
  obtain ⟨o3, e3, l3, h3⟩ := forRange_fill (convMach f k b xs) (lo := xs.length - (k.cs.length - 1 - c))
    (hi := xs.length) (n := xs.length) (by omega) (by omega) o2
    l2 (fun i out => (k.sumAtR f (rightGet b xs) i).bind (fun s => wr out i s)) (by
      intro i st hi1 hi _ _
      simp only [right i (by omega) (by omega), Option.bind_some])
  rw [show ((xs.length - (k.cs.length - 1 - c) : Nat) : Int) =
      (xs.length : Int) - ((k.cs.length : Int) - 1 - c) by omega] at e3
  rw [e3]
  congr 1
  apply List.ext_getElem?
  intro i
  by_cases hi : i < xs.length
  · rw [h3, List.getElem?_map, List.getElem?_range hi, Option.map_some]
    by_cases a : xs.length - (k.cs.length - 1 - c) ≤ i
    · rw [if_pos ⟨a, hi⟩, if_neg (by omega)]
    · rw [if_neg (by omega), h2]
      by_cases a' : c + 1 ≤ i
      · rw [if_pos (by omega), if_neg (by omega)]
      · rw [if_neg (by omega), h1, if_pos (by omega), if_pos (by omega)]
  · rw [List.getElem?_eq_none (by omega), List.getElem?_eq_none (by simpa using hi)]

theorem convolveAtR_zero_extension (f : FP) (k : Kernel) (xs out : List ℚ) (b : Boundary) (c : Nat) (hc : k.center = c)
    (hck : c < k.cs.length) (hn : k.cs.length ≤ xs.length) (ho : out.length = xs.length)
    (hb : b = .zeroPad ∨ b = .extension) :
    k.convolveAtR f xs b out = some ((List.range xs.length).map (convMach f k b xs)) := by
  rw [convolveAtR_eq c hc hck hn ho (convMach f k b xs)]
  · congr 1
    apply List.map_congr_left
    intro i _
    split <;> rfl
  · intro i hi
    apply sumAtR_eq f k (leftGet b xs) (extended b xs)
    intro j hj
    refine leftGet_eq (by rw [hc]; omega) (by omega) ?_
    rcases hb with h | h
    · exact Or.inl h
    · exact Or.inr (Or.inl h)

/-- The sum of the absolute values in a convolution. -/
def convAbs (k : Kernel) (b : Boundary) (xs : List ℚ) (i : Nat) : ℚ :=
  ∑ j ∈ Finset.range k.cs.length, |k.cs.getD j 0| * |extended b xs ((i : Int) + j - k.center)|

theorem convMach_err {f : FP} {u : ℚ} (h : f.Laws u) (k : Kernel) (b : Boundary) (xs : List ℚ) (i : Nat) :
    |convMach f k b xs i - convSpec k b xs i| ≤ ((1 + u) ^ k.cs.length - 1) * convAbs k b xs i := by
  have := macs_err h (fun j => extended b xs ((i : Int) + j - k.center)) (fun j => k.cs.getD j 0) k.cs.length
  unfold convMach convSpec convAbs
  simp only [mul_comm (k.cs.getD _ 0), mul_comm |k.cs.getD _ 0|]
  exact this

/-- C198: with zero padding or constant extension every smoothed value is that of exact arithmetic up to the error of as many
operations as the kernel is wide, relative to the sum of absolute values, with or without fused operations. -/
theorem C198_convolve (fused : Bool) (k : Kernel) (xs out : List ℚ) (b : Boundary) (c : Nat) (hc : k.center = c)
    (hck : c < k.cs.length) (hn : k.cs.length ≤ xs.length) (ho : out.length = xs.length)
    (hb : b = .zeroPad ∨ b = .extension) :
    ∃ r, k.convolveAtR (fp 53 fused) xs b out = some r ∧ r.length = xs.length ∧ ∀ i < xs.length, ∃ v, r[i]? = some v ∧
      |v - convSpec k b xs i| ≤ ((1 + 1 / 2 ^ 53) ^ k.cs.length - 1) * convAbs k b xs i := by
  refine ⟨_, convolveAtR_zero_extension (fp 53 fused) k xs out b c hc hck hn ho hb, by simp, ?_⟩
  intro i hi
  refine ⟨_, by rw [List.getElem?_map, List.getElem?_range hi, Option.map_some], ?_⟩
  exact convMach_err (fp_laws (by norm_num) fused) k b xs i

/-- C198 for periodic and mirrored boundaries, at the indices whose window does not reach beyond the left end. Missing: the left
end, where other entries are read (`C23_periodic_counterexample`, `C23_reflection_counterexample`). -/
theorem C198_convolve_partial (fused : Bool) (k : Kernel) (xs out : List ℚ) (b : Boundary) (c : Nat) (hc : k.center = c)
    (hck : c < k.cs.length) (hn : k.cs.length + 1 ≤ xs.length) (ho : out.length = xs.length) :
    ∃ r, k.convolveAtR (fp 53 fused) xs b out = some r ∧ r.length = xs.length ∧ ∀ i, c ≤ i → i < xs.length → ∃ v, r[i]? = some v ∧
      |v - convSpec k b xs i| ≤ ((1 + 1 / 2 ^ 53) ^ k.cs.length - 1) * convAbs k b xs i := by
  have hL : ∀ i ≤ c, ∃ v, k.sumAtR (fp 53 fused) (leftGet b xs) (i : Int) = some v ∧ (i = c → v = convMach (fp 53 fused) k b xs i) := by
    intro i hi
    have hg : ∀ j : Nat, j < k.cs.length → leftGet b xs ((i : Int) + j - k.center) =
        some ((leftGet b xs ((i : Int) + j - k.center)).getD 0) := by
      intro j hj
      rw [hc]
      unfold leftGet
      by_cases h : (i : Int) + j - c < 0
      · simp only [if_pos h]
        cases b with
        | periodic =>
          simp only
          obtain ⟨v, hv⟩ := rd_isSome (xs := xs) (i := (xs.length : Int) - 1 + ((i : Int) + j - c))
            (by omega) (by omega)
          rw [hv]; rfl
        | reflection =>
          simp only
          obtain ⟨v, hv⟩ := rd_isSome (xs := xs) (i := -((i : Int) + j - c - 1)) (by omega) (by omega)
          rw [hv]; rfl
        | zeroPad => rfl
        | extension =>
          simp only
          obtain ⟨v, hv⟩ := rd_isSome (xs := xs) (i := 0) (by omega) (by omega)
          rw [hv]; rfl
      · simp only [if_neg h]
        obtain ⟨v, hv⟩ := rd_isSome (xs := xs) (i := (i : Int) + j - c) (by omega) (by omega)
        rw [hv]; rfl
    refine ⟨_, sumAtR_eq (fp 53 fused) k (leftGet b xs) (fun i => (leftGet b xs i).getD 0) i hg, ?_⟩
    rintro rfl
    unfold convMach
    apply macs_congr
    intro j hj
    refine ⟨?_, rfl⟩
    rw [leftGet_eq (by rw [hc]; omega) (by omega) (Or.inr (Or.inr (by rw [hc]; omega)))]
    rfl
  choose! L hL1 hL2 using hL
  refine ⟨_, convolveAtR_eq c hc hck (by omega) ho L hL1, by simp, ?_⟩
  intro i h1 h2
  refine ⟨convMach (fp 53 fused) k b xs i, ?_, convMach_err (fp_laws (by norm_num) fused) k b xs i⟩
  rw [List.getElem?_map, List.getElem?_range h2, Option.map_some]
  by_cases h : i ≤ c
  · obtain rfl : i = c := by omega
    rw [if_pos h, hL2 i le_rfl rfl]
  · rw [if_neg h]

/-! ### Order -/

theorem mac_mono (fused : Bool) {a a' x x' c : ℚ} (ha : a ≤ a') (hx : x ≤ x') (hc : 0 ≤ c) :
    (fp 53 fused).mac a x c ≤ (fp 53 fused).mac a' x' c := by
  have h := mul_le_mul_of_nonneg_right hx hc
  cases fused
  · exact rnd_mono (by norm_num) (add_le_add (rnd_mono (by norm_num) h) ha)
  · exact rnd_mono (by norm_num) (add_le_add h ha)

theorem macs_mono (fused : Bool) {a a' c : Nat → ℚ} (k : Nat) (ha : ∀ i < k, a i ≤ a' i) (hc : ∀ i < k, 0 ≤ c i) :
    macs (fp 53 fused) a c k ≤ macs (fp 53 fused) a' c k := by
  induction k with
  | zero => exact le_rfl
  | succ k ih =>
    rw [macs, macs]
    exact mac_mono fused (ih (fun i hi => ha i (by omega)) fun i hi => hc i (by omega)) (ha k (by omega)) (hc k (by omega))

theorem extended_mono (b : Boundary) {xs ys : List ℚ} (hl : xs.length = ys.length) (h : ∀ i, xs.getD i 0 ≤ ys.getD i 0) (i : Int) :
    extended b xs i ≤ extended b ys i := by
  unfold extended
  simp only [hl]
  split
  · exact h _
  · cases b with
    | zeroPad => exact le_rfl
    | extension => simp only; split <;> exact h _
    | periodic => exact h _
    | reflection => simp only; split <;> exact h _

/-- C198: a kernel without negative weights keeps the order of two signals exactly. -/
theorem C198_monotone (fused : Bool) (k : Kernel) (xs ys out : List ℚ) (b : Boundary) (c : Nat) (hc : k.center = c)
    (hck : c < k.cs.length) (hn : k.cs.length ≤ xs.length) (ho : out.length = xs.length)
    (hb : b = .zeroPad ∨ b = .extension) (hw : ∀ j < k.cs.length, 0 ≤ k.cs.getD j 0) (hl : xs.length = ys.length)
    (h : ∀ i, xs.getD i 0 ≤ ys.getD i 0) :
    ∃ r s, k.convolveAtR (fp 53 fused) xs b out = some r ∧ k.convolveAtR (fp 53 fused) ys b out = some s ∧
      r.length = s.length ∧ ∀ i, r.getD i 0 ≤ s.getD i 0 := by
  refine ⟨_, _, convolveAtR_zero_extension (fp 53 fused) k xs out b c hc hck hn ho hb,
    convolveAtR_zero_extension (fp 53 fused) k ys out b c hc hck (by omega) (by omega) hb, by simp [hl], ?_⟩
  intro i
  rw [List.getD_eq_getElem?_getD, List.getD_eq_getElem?_getD, List.getElem?_map, List.getElem?_map]
  by_cases hi : i < xs.length
  · rw [List.getElem?_range hi, List.getElem?_range (by omega)]
    exact macs_mono fused _ (fun j _ => extended_mono b hl h _) hw
  · rw [List.getElem?_eq_none (by simpa using hi), List.getElem?_eq_none (by simpa [← hl] using hi)]
    exact le_rfl

/-! ### Weights -/

/-- What a smoothing kernel of width `w` is on the machine: odd width, centred, exactly symmetric, positive weights whose exact sum
is 1 up to `2 * (w + 1)` roundings. -/
structure SmoothingR (k : Kernel) (w : Nat) : Prop where
  odd : w % 2 = 1
  len : k.cs.length = w
  center : k.center = ((w / 2 : Nat) : Int)
  sym : ∀ i, i < w → k.cs.getD i 0 = k.cs.getD (w - 1 - i) 0
  pos : ∀ i, i < w → 0 < k.cs.getD i 0
  sum : |k.cs.sum - 1| ≤ 2 * (w + 1) / 2 ^ 53

theorem fl_bounds {f : FP} {u : ℚ} (h : f.Laws u) {x : ℚ} (hx : 0 ≤ x) : (1 - u) * x ≤ f.fl x ∧ f.fl x ≤ (1 + u) * x := by
  have h1 := h.err x
  rw [abs_of_nonneg hx] at h1
  obtain ⟨h2, h3⟩ := abs_le.mp h1
  constructor <;> linarith

theorem foldl_bounds {f : FP} {u : ℚ} (h : f.Laws u) (hu : u ≤ 1) : ∀ (l : List ℚ) (s : ℚ), 0 ≤ s → (∀ c ∈ l, 0 ≤ c) →
    (1 - u) ^ l.length * (s + l.sum) ≤ l.foldl (fun s c => f.fl (s + c)) s ∧
    l.foldl (fun s c => f.fl (s + c)) s ≤ (1 + u) ^ l.length * (s + l.sum) := by
  intro l
  have hu0 := h.nonneg
  induction l with
  | nil => intro s _ _; simp
  | cons c l ih =>
    intro s hs hl
    have hc : 0 ≤ c := hl c (by simp)
    have hl' : ∀ x ∈ l, 0 ≤ x := fun x hx => hl x (by simp [hx])
    have hls : 0 ≤ l.sum := List.sum_nonneg hl'
    obtain ⟨b1, b2⟩ := fl_bounds h (add_nonneg hs hc)
    have h0 : 0 ≤ f.fl (s + c) := le_trans (mul_nonneg (by linarith) (by linarith)) b1
    obtain ⟨i1, i2⟩ := ih (f.fl (s + c)) h0 hl'
    rw [List.foldl_cons, List.sum_cons, List.length_cons, pow_succ, pow_succ]
    constructor
    · refine le_trans ?_ i1
      rw [mul_assoc]
      exact mul_le_mul_of_nonneg_left (by nlinarith) (pow_nonneg (by linarith) _)
    · refine i2.trans ?_
      rw [mul_assoc]
      exact mul_le_mul_of_nonneg_left (by nlinarith) (pow_nonneg (by linarith) _)

theorem sum_map_fl {f : FP} {u : ℚ} (h : f.Laws u) (t : ℚ) (ht : 0 < t) : ∀ l : List ℚ, (∀ c ∈ l, 0 ≤ c) →
    (1 - u) * (l.sum / t) ≤ (l.map fun c => f.fl (c / t)).sum ∧ (l.map fun c => f.fl (c / t)).sum ≤ (1 + u) * (l.sum / t) := by
  intro l
  induction l with
  | nil => intro _; simp
  | cons c l ih =>
    intro hl
    obtain ⟨i1, i2⟩ := ih fun x hx => hl x (by simp [hx])
    obtain ⟨b1, b2⟩ := fl_bounds h (div_nonneg (hl c (by simp)) ht.le)
    rw [List.map_cons, List.sum_cons, List.sum_cons, add_div]
    constructor <;> linarith

/-- The exact sum of normalised weights. -/
theorem normalizeR_sum {f : FP} {u : ℚ} (h : f.Laws u) (cs : List ℚ) (hpos : ∀ c ∈ cs, 0 < c) (hne : cs ≠ [])
    (hn : (cs.length : ℚ) * u ≤ 1 / 128) (hu : u ≤ 1 / 128) :
    0 < cs.foldl (fun s c => f.fl (s + c)) 0 ∧ |(normalizeR f cs).sum - 1| ≤ 2 * (cs.length + 1) * u := by
  have hu0 := h.nonneg
  have hS : 0 < cs.sum := List.sum_pos _ hpos hne
  obtain ⟨b1, b2⟩ := foldl_bounds h (by linarith) cs 0 le_rfl fun c hc => (hpos c hc).le
  rw [zero_add] at b1 b2
  unfold normalizeR
  simp only
  set T := cs.foldl (fun s c => f.fl (s + c)) 0 with hT
  set n : ℚ := (cs.length : ℚ) with hnn
  have hlo : 1 - n * u ≤ (1 - u) ^ cs.length := by
    have := one_add_mul_le_pow (a := -u) (by linarith) cs.length
    have e : (1 : ℚ) + -u = 1 - u := by ring
    rw [e] at this
    linarith
  have hup : (1 + u) ^ cs.length * (1 - n * u) ≤ 1 := by
    have h1 : (1 + u) ^ cs.length * (1 - u) ^ cs.length ≤ 1 := by
      rw [← mul_pow]
      exact pow_le_one₀ (by nlinarith) (by nlinarith)
    exact (mul_le_mul_of_nonneg_left hlo (pow_nonneg (by linarith) _)).trans h1
  have T1 : (1 - n * u) * cs.sum ≤ T := (mul_le_mul_of_nonneg_right hlo hS.le).trans b1
  have T2 : T * (1 - n * u) ≤ cs.sum := by
    have := mul_le_mul_of_nonneg_right b2 (by linarith : 0 ≤ 1 - n * u)
    nlinarith
  have T0 : 0 < T := lt_of_lt_of_le (mul_pos (by linarith) hS) T1
  refine ⟨T0, ?_⟩
  obtain ⟨m1, m2⟩ := sum_map_fl h T T0 cs fun c hc => (hpos c hc).le
  have q1 : 1 - n * u ≤ cs.sum / T := by rw [le_div_iff₀ T0]; linarith
  have q2 : (cs.sum / T) * (1 - n * u) ≤ 1 := by
    rw [div_mul_eq_mul_div, div_le_one T0]; linarith
  have hn0 : 0 ≤ n * u := mul_nonneg (Nat.cast_nonneg _) hu0
  have q3 : cs.sum / T ≤ 1 + 128 / 127 * (n * u) := by nlinarith
  have e : 2 * (n + 1) * u = 2 * (n * u) + 2 * u := by ring
  rw [abs_le, e]
  constructor
  · have := mul_le_mul_of_nonneg_left q1 (by linarith : 0 ≤ 1 - u)
    nlinarith
  · have := mul_le_mul_of_nonneg_left q3 (by linarith : 0 ≤ 1 + u)
    nlinarith

theorem normalizeR_getD (f : FP) (cs : List ℚ) {i : Nat} (hi : i < cs.length) :
    (normalizeR f cs).getD i 0 = f.fl (cs.getD i 0 / cs.foldl (fun s c => f.fl (s + c)) 0) := by
  unfold normalizeR
  simp only
  rw [List.getD_eq_getElem?_getD, List.getElem?_map, rd_getD hi]
  rfl

theorem normalizeR_smoothing (fused : Bool) {cs : List ℚ} {w : Nat} (hodd : w % 2 = 1) (hw : w ≤ 2 ^ 40) (hl : cs.length = w)
    (sym : ∀ i, i < w → cs.getD i 0 = cs.getD (w - 1 - i) 0) (pos : ∀ i, i < w → 0 < cs.getD i 0) {c : Int}
    (hc : c = ((w / 2 : Nat) : Int)) : SmoothingR ⟨normalizeR (fp 53 fused) cs, c⟩ w := by
  have hL := fp_laws (p := 53) (by norm_num) fused
  have hmem : ∀ x ∈ cs, 0 < x := by
    intro x hx
    obtain ⟨i, hi⟩ := List.getElem?_of_mem hx
    have hil := (List.getElem?_eq_some_iff.mp hi).1
    rw [rd_getD hil] at hi
    rw [← Option.some.inj hi]
    exact pos i (by omega)
  have hne : cs ≠ [] := by rintro rfl; simp at hl; omega
  have hq : (cs.length : ℚ) ≤ 2 ^ 40 := by rw [hl]; exact_mod_cast hw
  obtain ⟨T0, hs⟩ := normalizeR_sum hL cs hmem hne (by
    calc (cs.length : ℚ) * (1 / 2 ^ 53) ≤ 2 ^ 40 * (1 / 2 ^ 53) := by gcongr
      _ ≤ 1 / 128 := by norm_num) (by norm_num)
  refine ⟨hodd, by simp [normalizeR, hl], hc, ?_, ?_, ?_⟩
  · intro i hi
    simp only
    rw [normalizeR_getD _ _ (by omega), normalizeR_getD _ _ (by omega), sym i hi]
  · intro i hi
    simp only
    rw [normalizeR_getD _ _ (by omega)]
    exact hL.pos _ (div_pos (pos i hi) T0)
  · rw [hl] at hs
    calc _ ≤ _ := hs
      _ = _ := by ring

theorem foldl_ones (fused : Bool) : ∀ (w s : Nat), s + w ≤ 2 ^ 53 →
    (List.replicate w (1 : ℚ)).foldl (fun s c => (fp 53 fused).fl (s + c)) (s : ℚ) = ((s + w : Nat) : ℚ) := by
  intro w
  induction w with
  | zero => intro s _; simp
  | succ w ih =>
    intro s h
    rw [List.replicate_succ, List.foldl_cons]
    have e : (fp 53 fused).fl ((s : ℚ) + 1) = ((s + 1 : Nat) : ℚ) := by
      have h1 : Rep 53 (((s + 1 : Nat) : Int) : ℚ) := rep_of_int (by rw [abs_of_nonneg (by omega)]; exact_mod_cast (by omega)) (by norm_num)
      have h2 := rnd_of_rep h1
      push_cast at h2 ⊢
      exact h2
    rw [e, ih (s + 1) (by omega)]
    congr 1
    omega

theorem even_none {width : Int} (h : width < 0 ∨ width % 2 = 0) : width.tmod 2 ≠ 1 := by
  intro e
  rcases h with h | h
  · have := tmod_neg_le h
    omega
  · have h2 : (2 : Int) ∣ width := Int.dvd_of_emod_eq_zero h
    rw [Int.tmod_eq_zero_of_dvd h2] at e
    omega

/-- C198: `NewTophatKernel` panics for even or negative widths and otherwise gives a smoothing kernel, all of whose weights are the
number next to `1 / width`. -/
theorem C198_tophat (fused : Bool) (width : Int) :
    (∀ w : Nat, width = w → w % 2 = 1 → w ≤ 2 ^ 40 → ∃ k, newTophatR (fp 53 fused) width = some k ∧ SmoothingR k w ∧
      ∀ i < w, k.cs.getD i 0 = rnd 53 (1 / w)) ∧
    ((width < 0 ∨ width % 2 = 0) → newTophatR (fp 53 fused) width = none) := by
  constructor
  · rintro w rfl hodd hw
    unfold newTophatR
    have e : (w : Int).tmod 2 = 1 := by
      rw [Int.tmod_eq_emod_of_nonneg (by omega)]; omega
    rw [if_neg (by rw [e]; simp)]
    have one : ∀ i < w, (List.replicate w (1 : ℚ)).getD i 0 = 1 := by
      intro i hi
      rw [List.getD_eq_getElem?_getD, List.getElem?_replicate, if_pos hi]; rfl
    refine ⟨_, rfl, ?_, ?_⟩
    · simp only [Int.toNat_natCast]
      apply normalizeR_smoothing fused hodd hw (by simp)
      · intro i hi
        rw [one i hi, one _ (by omega)]
      · intro i hi; rw [one i hi]; norm_num
      · rw [Int.tdiv_eq_ediv_of_nonneg (by omega)]; omega
    · intro i hi
      simp only [Int.toNat_natCast]
      rw [normalizeR_getD _ _ (by simpa using hi), one i hi]
      have := foldl_ones fused w 0 (by omega)
      rw [Nat.cast_zero, zero_add] at this
      rw [this]
      rfl
  · intro h
    unfold newTophatR
    rw [if_pos (even_none h)]

/-- C198: `NewGaussianKernel` gives a smoothing kernel for every odd width, whatever `sigma` and `dx`; all that is used of `exp` is
that it is positive. -/
theorem C198_gaussian (fused : Bool) (exp : ℚ → ℚ) (hexp : ∀ t, 0 < exp t) (sigma dx : ℚ) (width : Int) :
    (∀ w : Nat, width = w → w % 2 = 1 → w ≤ 2 ^ 40 → ∃ k, newGaussianR (fp 53 fused) exp width sigma dx = some k ∧
      SmoothingR k w) ∧
    ((width < 0 ∨ width % 2 = 0) → newGaussianR (fp 53 fused) exp width sigma dx = none) := by
  constructor
  · rintro w rfl hodd hw
    unfold newGaussianR
    have e : (w : Int).tmod 2 = 1 := by
      rw [Int.tmod_eq_emod_of_nonneg (by omega)]; omega
    have ec : (w : Int).tdiv 2 = ((w / 2 : Nat) : Int) := by
      rw [Int.tdiv_eq_ediv_of_nonneg (by omega)]; omega
    rw [if_neg (by rw [e]; simp)]
    simp only [ec, Int.toNat_natCast, bind]
    let G : Int → ℚ := fun i =>
      let x := (fp 53 fused).fl (((i - (w / 2 : Nat) : Int) : ℚ) * dx)
      exp ((fp 53 fused).fl ((fp 53 fused).fl (-x * x) / (fp 53 fused).fl ((fp 53 fused).fl (2 * sigma) * sigma)))
    let E : Nat → ℚ := fun i => G i
    have hE : ∀ i, 0 < E i := fun i => hexp _
    obtain ⟨o1, e1, l1, h1⟩ := forRange_fill E (lo := 0) (hi := w / 2 + 1) (n := w) (by omega) (by omega)
      (List.replicate w 0) (by simp) (fun i cs => wr cs i (G i)) (by
        intro i st _ hi _ _
        rfl)
    rw [Nat.cast_zero, show ((w / 2 + 1 : Nat) : Int) = ((w / 2 : Nat) : Int) + 1 by push_cast; rfl] at e1
    rw [e1]
    simp only [Option.bind_some]
    obtain ⟨o2, e2, l2, h2⟩ := forRange_fill (fun i => E (w - 1 - i)) (lo := w / 2 + 1) (hi := w) (n := w)
      (by omega) (by omega) o1 l1 (fun i cs =>
        (rd cs ((cs.length : Int) - 1 - i)).bind (fun c => wr cs i c)) (by
        intro i st hi1 hi hl hst
        have : rd st ((st.length : Int) - 1 - i) = some (E (w - 1 - i)) := by
          rw [hl, show (w : Int) - 1 - i = ((w - 1 - i : Nat) : Int) by omega, rd_natCast, hst,
            if_neg (by omega), h1, if_pos (by omega)]
        rw [this, Option.bind_some])
    rw [show ((w / 2 + 1 : Nat) : Int) = ((w / 2 : Nat) : Int) + 1 by push_cast; rfl] at e2
    rw [l1, e2]
    simp only [Option.bind_some]
    have g : ∀ i < w, o2.getD i 0 = if i ≤ w / 2 then E i else E (w - 1 - i) := by
      intro i hi
      rw [List.getD_eq_getElem?_getD, h2]
      by_cases c : i ≤ w / 2
      · rw [if_neg (by omega), h1, if_pos (by omega), if_pos c]; rfl
      · rw [if_pos (by omega), if_neg c]; rfl
    refine ⟨_, rfl, normalizeR_smoothing fused hodd hw l2 ?_ ?_ rfl⟩
    · intro i hi
      rw [g i hi, g (w - 1 - i) (by omega)]
      by_cases c : i ≤ w / 2
      · by_cases c' : w - 1 - i ≤ w / 2
        · have : w - 1 - i = i := by omega
          rw [if_pos c, if_pos c', this]
        · rw [if_pos c, if_neg c', show w - 1 - (w - 1 - i) = i by omega]
      · rw [if_neg c, if_pos (by omega)]
    · intro i hi
      rw [g i hi]
      split <;> exact hE _
  · intro h
    unfold newGaussianR
    rw [if_pos (even_none h)]

/-! ### Constant signals -/

theorem list_sum_range (l : List ℚ) : ∑ j ∈ Finset.range l.length, l.getD j 0 = l.sum := by
  induction l with
  | nil => simp
  | cons a l ih =>
    rw [List.length_cons, Finset.sum_range_succ', List.sum_cons]
    simp only [List.getD_cons_succ, List.getD_cons_zero]
    rw [ih, add_comm]

theorem extended_const (n : Nat) (hn : 1 ≤ n) (v : ℚ) (t : Int) : extended .extension (List.replicate n v) t = v := by
  have rep : ∀ m : Nat, m < n → (List.replicate n v).getD m 0 = v := by
    intro m hm
    rw [List.getD_eq_getElem?_getD, List.getElem?_replicate, if_pos hm]; rfl
  unfold extended
  simp only [List.length_replicate]
  split
  · exact rep _ (by omega)
  · split <;> exact rep _ (by omega)

/-- C198: a smoothing kernel gives back a constant signal up to `4 * (width + 1)` roundings. -/
theorem C198_constants (fused : Bool) (k : Kernel) (w : Nat) (h : SmoothingR k w) (hw : w ≤ 2 ^ 40) (n : Nat) (hn : w ≤ n) (v : ℚ)
    (out : List ℚ) (ho : out.length = n) :
    ∃ r, k.convolveAtR (fp 53 fused) (List.replicate n v) .extension out = some r ∧ r.length = n ∧
      ∀ x ∈ r, |x - v| ≤ 4 * (w + 1) / 2 ^ 53 * |v| := by
  have hodd := h.odd
  have hl := h.len
  refine ⟨_, convolveAtR_zero_extension (fp 53 fused) k (List.replicate n v) out .extension (w / 2) h.center (by omega)
    (by simpa using by omega) (by simpa using ho) (Or.inr rfl), by simp, ?_⟩
  intro x hx
  rw [List.mem_map] at hx
  obtain ⟨i, -, rfl⟩ := hx
  have herr := convMach_err (fp_laws (p := 53) (by norm_num) fused) k .extension (List.replicate n v) i
  have e1 : convSpec k .extension (List.replicate n v) i = k.cs.sum * v := by
    unfold convSpec
    simp only [extended_const n (by omega)]
    rw [← Finset.sum_mul, list_sum_range]
  have e2 : convAbs k .extension (List.replicate n v) i = k.cs.sum * |v| := by
    unfold convAbs
    simp only [extended_const n (by omega)]
    rw [← Finset.sum_mul, ← list_sum_range]
    congr 1
    apply Finset.sum_congr rfl
    intro j hj
    rw [Finset.mem_range] at hj
    exact abs_of_pos (h.pos j (by omega))
  rw [e1, e2, hl] at herr
  have hs := abs_le.mp h.sum
  have hq : (w : ℚ) ≤ 2 ^ 40 := by exact_mod_cast hw
  have hw0 : (0 : ℚ) ≤ w := Nat.cast_nonneg _
  generalize k.cs.sum = S at *
  obtain ⟨u, hu⟩ : ∃ u : ℚ, u = 1 / 2 ^ 53 := ⟨_, rfl⟩
  rw [← hu] at herr
  have hu0 : 0 < u := by rw [hu]; positivity
  have hs2 : 2 * ((w : ℚ) + 1) / 2 ^ 53 = 2 * (w * u) + 2 * u := by rw [hu]; ring
  rw [hs2] at hs
  have hb2 : 4 * ((w : ℚ) + 1) / 2 ^ 53 = 4 * (w * u) + 4 * u := by rw [hu]; ring
  rw [hb2]
  have ht : (w : ℚ) * u ≤ 1 / 8192 := by
    calc (w : ℚ) * u ≤ 2 ^ 40 * u := by gcongr
      _ = 1 / 8192 := by rw [hu]; norm_num
  have hu1 : u ≤ 1 / 8192 := by rw [hu]; norm_num
  clear hs2 hb2 hu hq
  have hlo : 1 - (w : ℚ) * u ≤ (1 - u) ^ w := by
    have := one_add_mul_le_pow (a := -u) (by linarith) w
    have e : (1 : ℚ) + -u = 1 - u := by ring
    rw [e] at this
    linarith
  have hup : (1 + u) ^ w * (1 - w * u) ≤ 1 := by
    have h1 : (1 + u) ^ w * (1 - u) ^ w ≤ 1 := by
      rw [← mul_pow]
      exact pow_le_one₀ (by nlinarith) (by nlinarith)
    exact (mul_le_mul_of_nonneg_left hlo (pow_nonneg (by linarith) _)).trans h1
  have ht0 : 0 ≤ (w : ℚ) * u := by positivity
  have hP1 : 1 ≤ (1 + u) ^ w := one_le_pow₀ (by linarith)
  generalize (w : ℚ) * u = t at *
  generalize (1 + u) ^ w = P at *
  have hP : P - 1 ≤ 11 / 10 * t := by nlinarith
  have hS : S ≤ 11 / 10 := by linarith [hs.2]
  have hPS : (P - 1) * S ≤ 121 / 100 * t := by
    have h1 : (P - 1) * S ≤ (P - 1) * (11 / 10) := mul_le_mul_of_nonneg_left hS (by linarith)
    linarith
  have hSv : |S * v - v| ≤ (2 * t + 2 * u) * |v| := by
    have e : S * v - v = (S - 1) * v := by ring
    rw [e, abs_mul]
    exact mul_le_mul_of_nonneg_right (abs_le.mpr ⟨by linarith [hs.1], hs.2⟩) (abs_nonneg _)
  have hfin := abs_add_le (convMach (fp 53 fused) k .extension (List.replicate n v) i - S * v) (S * v - v)
  rw [sub_add_sub_cancel] at hfin
  have h3 : (P - 1) * (S * |v|) ≤ 121 / 100 * t * |v| := by
    rw [← mul_assoc]; exact mul_le_mul_of_nonneg_right hPS (abs_nonneg _)
  have h4 : 0 ≤ t * |v| := mul_nonneg ht0 (abs_nonneg _)
  have h5 : 0 ≤ u * |v| := mul_nonneg hu0.le (abs_nonneg _)
  linarith

/-- A window of seven does not give back the constant 1 exactly. -/
example : ∃ k, newTophatR (fp 53 false) 7 = some k ∧ SmoothingR k 7 ∧
    k.convolveAtR (fp 53 false) (List.replicate 7 1) .extension (List.replicate 7 0) =
      some (List.replicate 7 (1 - 1 / 2 ^ 52)) := by
  obtain ⟨k, e, h, -⟩ := (C198_tophat false 7).1 7 rfl (by norm_num) (by norm_num)
  refine ⟨k, e, h, ?_⟩
  have e2 : newTophatR (fp 53 false) 7 = some ⟨List.replicate 7 (rnd 53 (1 / 7)), 3⟩ := by decide +kernel
  rw [e2] at e
  obtain rfl := Option.some.inj e
  decide +kernel

/-- The hypotheses of `C198_convolve` and `C198_monotone`: a kernel of three weights and two signals of four values. -/
example : (Kernel.mk [1 / 4, 1 / 2, 1 / 4] 1).convolveAtR (fp 53 true) [1 / 2, 1, 3, 5] .zeroPad [0, 0, 0, 0] = some [1 / 2, 11 / 8, 3, 13 / 4] ∧
    (Kernel.mk [1 / 4, 1 / 2, 1 / 4] 1).convolveAtR (fp 53 true) [1 / 2, 1, 4, 5] .zeroPad [0, 0, 0, 0] = some [1 / 2, 13 / 8, 7 / 2, 7 / 2] := by
  decide +kernel

/-- The hypotheses of `C198_convolve_partial`. -/
example : (Kernel.mk [1, 2, 4] 1).convolveAtR (fp 53 false) [1, 10, 100, 1000] .periodic [0, 0, 0, 0] = some [142, 421, 4210, 2104] := by
  decide +kernel

/-- A bell-shaped kernel. -/
example : newGaussianR (fp 53 false) (fun t => if t = 0 then 1 else 1 / 2) 3 1 1 = some ⟨[1 / 4, 1 / 2, 1 / 4], 1⟩ := by
  decide +kernel

end Verif.Interp
