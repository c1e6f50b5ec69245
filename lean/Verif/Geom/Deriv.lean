import Verif.Geom.DerivModel
import Mathlib.Tactic.Ring
import Mathlib.Tactic.Linarith
import Mathlib.Tactic.FieldSimp
import Mathlib.Tactic.LinearCombination
import Mathlib.Algebra.Polynomial.Derivative
import Mathlib.Algebra.Polynomial.Eval.Degree

/-!
# Finite-difference derivatives on a grid (C43) and the operators built on them (C44, C91)
-/

set_option autoImplicit false

namespace Verif.Geom

open Verif.Go

/-! ## Specification -/

/-- Cell `(x, y, z)`, counted from the corner of the grid, lies in a grid of widths `w`. -/
def IsCell (w : IVec) (x y z : ℤ) : Prop :=
  (0 ≤ x ∧ x < w 0) ∧ (0 ≤ y ∧ y < w 1) ∧ (0 ≤ z ∧ z < w 2)

/-- A slice holds the field `F` in the order x fastest, z slowest. -/
def HoldsField (w : IVec) (xs : List ℚ) (F : ℤ → ℤ → ℤ → ℚ) : Prop :=
  (xs.length : ℤ) = w 0 * w 1 * w 2 ∧
    ∀ x y z, IsCell w x y z → rd xs (x + w 0 * (y + w 1 * z)) = some (F x y z)

/-- Values met when walking along an axis through a cell. -/
def along (axis : ℤ) (F : ℤ → ℤ → ℤ → ℚ) (x y z : ℤ) : ℤ → ℚ := fun i =>
  if axis = 0 then F i y z else if axis = 1 then F x i z else F x y i

/-- Coordinate of a cell on an axis. -/
def coordOf (axis x y z : ℤ) : ℤ := if axis = 0 then x else if axis = 1 then y else z

/-- Centred difference quotient with spacing `h`. -/
def centred (order : ℤ) (h : ℚ) (L : ℤ → ℚ) (i : ℤ) : ℚ :=
  if order = 2 then (L (i + 1) - L (i - 1)) / (2 * h)
  else (L (i - 2) - 8 * L (i - 1) + 8 * L (i + 1) - L (i + 2)) / (12 * h)

/-- Difference quotient on `n` points `0 .. n-1` which uses only these points. -/
def oneSided (order : ℤ) (h : ℚ) (n : ℤ) (L : ℤ → ℚ) (i : ℤ) : ℚ :=
  if order = 2 then
    if i = 0 then (-3 * L 0 + 4 * L 1 - L 2) / (2 * h)
    else if i = n - 1 then (3 * L i - 4 * L (i - 1) + L (i - 2)) / (2 * h)
    else centred 2 h L i
  else
    if i = 0 then (-25 * L 0 + 48 * L 1 - 36 * L 2 + 16 * L 3 - 3 * L 4) / (12 * h)
    else if i = 1 then (-3 * L 0 - 10 * L 1 + 18 * L 2 - 6 * L 3 + L 4) / (12 * h)
    else if i = n - 2 then
      (3 * L (i + 1) + 10 * L i - 18 * L (i - 1) + 6 * L (i - 2) - L (i - 3)) / (12 * h)
    else if i = n - 1 then
      (25 * L i - 48 * L (i - 1) + 36 * L (i - 2) - 16 * L (i - 3) + 3 * L (i - 4)) / (12 * h)
    else centred 4 h L i

/-- The derivative of the property: periodic centred or one-sided. -/
def derivSpec (order : ℤ) (periodic : Prop) [Decidable periodic] (h : ℚ) (n : ℤ) (L : ℤ → ℚ) (i : ℤ) : ℚ :=
  if periodic then centred order h (fun j => L (j % n)) i else oneSided order h n L i

/-! ## Values that are computed -/

/-- Terms of the centred stencil in the order in which they are added. -/
def centredTerms (order : ℤ) (L : ℤ → ℚ) (i : ℤ) : List (ℚ × ℚ) :=
  if order = 2 then [(1, L (i + 1)), (-1, L (i - 1))]
  else [(-1, L (i + 2)), (8, L (i + 1)), (-8, L (i - 1)), (1, L (i - 2))]

/-- What is computed near the ends of a line of `n` points. -/
def edgeValue (A : DArith) (order n : ℤ) (denom : ℚ) (L : ℤ → ℚ) (i : ℤ) : ℚ :=
  if order = 2 then
    if i = 0 then A.comb (.edge 1) [(-3, L 0), (4, L 1), (-1, L 2)] denom
    else A.comb (.edge (-1)) [(-3, L i), (4, L (i - 1)), (-1, L (i - 2))] (-denom)
  else
    if i = 0 then A.comb (.edge 1) [(-3, L 4), (16, L 3), (-36, L 2), (48, L 1), (-25, L 0)] denom
    else if i = 1 then A.comb (.edge 2) [(-3, L 0), (-10, L 1), (18, L 2), (-6, L 3), (1, L 4)] denom
    else if i = n - 2 then
      A.comb (.edge (-2)) [(-3, L (i + 1)), (-10, L i), (18, L (i - 1)), (-6, L (i - 2)), (1, L (i - 3))] (-denom)
    else
      A.comb (.edge (-1)) [(-3, L (i - 4)), (16, L (i - 3)), (-36, L (i - 2)), (48, L (i - 1)), (-25, L i)] (-denom)

/-- What is computed at a point of a line of `n` points. -/
def stencilValue (A : DArith) (order : ℤ) (periodic : Prop) [Decidable periodic] (denom : ℚ) (n : ℤ) (L : ℤ → ℚ)
    (i : ℤ) : ℚ :=
  if order / 2 ≤ i ∧ i < n - order / 2 then A.comb .flat (centredTerms order L i) denom
  else if periodic then A.comb .wrap (centredTerms order (fun j => L (j % n)) i) denom
  else edgeValue A order n denom L i

/-! ## Cells and indices -/

theorem cellIdx_eq (o w : IVec) (x y z : ℤ) :
    (newGrid o w).cellIdx x y z = x + w 0 * (y + w 1 * z) := by
  simp only [Grid.cellIdx, newGrid]; ring

theorem cell_range {w : IVec} {x y z : ℤ} (h : IsCell w x y z) :
    0 ≤ x + w 0 * (y + w 1 * z) ∧ x + w 0 * (y + w 1 * z) < w 0 * w 1 * w 2 := by
  obtain ⟨⟨a, b⟩, ⟨c, d⟩, e, f⟩ := h
  have h1 : 0 ≤ y + w 1 * z := by have := mul_nonneg (by omega : 0 ≤ w 1) e; omega
  have h2 : y + w 1 * z + 1 ≤ w 1 * w 2 := by
    have := mul_le_mul_of_nonneg_left (by omega : z + 1 ≤ w 2) (by omega : 0 ≤ w 1)
    rw [mul_add, mul_one] at this
    omega
  constructor
  · have := mul_nonneg (by omega : 0 ≤ w 0) h1; omega
  · have := mul_le_mul_of_nonneg_left h2 (by omega : 0 ≤ w 0)
    rw [mul_add, mul_one] at this
    rw [mul_assoc]; omega

theorem mul_add_inj {n a b q r : ℤ} (h1 : 0 ≤ a ∧ a < n) (h2 : 0 ≤ b ∧ b < n) (h : a + n * q = b + n * r) :
    a = b ∧ q = r := by
  have hn : n ≠ 0 := by omega
  have e : a = b := by
    have := congrArg (· % n) h
    simpa [Int.add_mul_emod_self_left, Int.emod_eq_of_lt h1.1 h1.2, Int.emod_eq_of_lt h2.1 h2.2] using this
  subst e
  exact ⟨rfl, by have : n * q = n * r := by linarith
                 exact mul_left_cancel₀ hn this⟩

theorem cell_inj {w : IVec} {x y z x' y' z' : ℤ} (h : IsCell w x y z) (h' : IsCell w x' y' z')
    (e : x + w 0 * (y + w 1 * z) = x' + w 0 * (y' + w 1 * z')) : x = x' ∧ y = y' ∧ z = z' := by
  obtain ⟨e1, e2⟩ := mul_add_inj h.1 h'.1 e
  obtain ⟨e3, e4⟩ := mul_add_inj h.2.1 h'.2.1 e2
  exact ⟨e1, e3, e4⟩

theorem stride_eq (o w : IVec) (axis : ℤ) (ha : axis = 0 ∨ axis = 1 ∨ axis = 2) :
    stride (newGrid o w) axis = if axis = 0 then 1 else if axis = 1 then w 0 else w 0 * w 1 := by
  rcases ha with rfl | rfl | rfl <;> rfl

theorem widthOf_eq (o w : IVec) (axis : ℤ) :
    widthOf (newGrid o w) axis = coordOf axis (w 0) (w 1) (w 2) := rfl

/-- Reading `m` cells further along the axis. -/
theorem read_along {o w : IVec} {vals : List ℚ} {V : ℤ → ℤ → ℤ → ℚ} (hv : HoldsField w vals V) {axis : ℤ}
    (ha : axis = 0 ∨ axis = 1 ∨ axis = 2) {x y z : ℤ} (hc : IsCell w x y z) (m : ℤ)
    (h0 : 0 ≤ coordOf axis x y z + m) (h1 : coordOf axis x y z + m < widthOf (newGrid o w) axis) :
    rd vals (x + w 0 * (y + w 1 * z) + m * stride (newGrid o w) axis) =
      some (along axis V x y z (coordOf axis x y z + m)) := by
  rcases ha with rfl | rfl | rfl
  · have := hv.2 (x + m) y z ⟨⟨h0, h1⟩, hc.2.1, hc.2.2⟩
    have e : x + w 0 * (y + w 1 * z) + m * stride (newGrid o w) 0 = x + m + w 0 * (y + w 1 * z) := by
      simp only [stride]; norm_num; ring
    rw [e, this]; rfl
  · have := hv.2 x (y + m) z ⟨hc.1, ⟨h0, h1⟩, hc.2.2⟩
    have e : x + w 0 * (y + w 1 * z) + m * stride (newGrid o w) 1 = x + w 0 * (y + m + w 1 * z) := by
      simp only [stride, newGrid]; norm_num; ring
    rw [e, this]; rfl
  · have := hv.2 x y (z + m) ⟨hc.1, hc.2.1, ⟨h0, h1⟩⟩
    have e : x + w 0 * (y + w 1 * z) + m * stride (newGrid o w) 2 = x + w 0 * (y + w 1 * (z + m)) := by
      simp only [stride, newGrid]; norm_num; ring
    rw [e, this]; rfl

/-- The slice that holds a given field. -/
def fieldList (w : IVec) (F : ℤ → ℤ → ℤ → ℚ) : List ℚ :=
  (List.range (w 0 * w 1 * w 2).toNat).map fun (i : ℕ) => F (i % w 0) (i / w 0 % w 1) (i / w 0 / w 1)

/-- Every field is held by some slice. -/
theorem fieldList_holds {w : IVec} (hw : ∀ i, 0 < w i) (F : ℤ → ℤ → ℤ → ℚ) : HoldsField w (fieldList w F) F := by
  have h0 := hw 0
  have h1 := hw 1
  have hp : 0 < w 0 * w 1 * w 2 := mul_pos (mul_pos h0 h1) (hw 2)
  constructor
  · unfold fieldList
    rw [List.length_map, List.length_range, Int.toNat_of_nonneg hp.le]
  · intro x y z hc
    have hr := cell_range hc
    set j := x + w 0 * (y + w 1 * z) with hj
    obtain ⟨k, hk⟩ := Int.eq_ofNat_of_zero_le hr.1
    rw [hk, rd_natCast]
    unfold fieldList
    rw [List.getElem?_map, List.getElem?_range (by omega)]
    have e1 : ((k : ℕ) : ℤ) % w 0 = x := by
      rw [← hk, hj, Int.add_mul_emod_self_left]; exact Int.emod_eq_of_lt hc.1.1 hc.1.2
    have e2 : ((k : ℕ) : ℤ) / w 0 = y + w 1 * z := by
      rw [← hk, hj, Int.add_mul_ediv_left _ _ h0.ne', Int.ediv_eq_zero_of_lt hc.1.1 hc.1.2, zero_add]
    have e3 : (y + w 1 * z) % w 1 = y := by
      rw [Int.add_mul_emod_self_left]; exact Int.emod_eq_of_lt hc.2.1.1 hc.2.1.2
    have e4 : (y + w 1 * z) / w 1 = z := by
      rw [Int.add_mul_ediv_left _ _ h1.ne', Int.ediv_eq_zero_of_lt hc.2.1.1 hc.2.1.2, zero_add]
    simp only [Option.map_some, e1, e2, e3, e4]

/-! ## Loops which update a set of cells -/

open Classical in
/-- The field after the cells in `S` have been combined with `V`. -/
noncomputable def upd (op : ℚ → ℚ → ℚ) (S : ℤ → ℤ → ℤ → Prop) (V F : ℤ → ℤ → ℤ → ℚ) : ℤ → ℤ → ℤ → ℚ :=
  fun x y z => if S x y z then op (F x y z) (V x y z) else F x y z

theorem HoldsField.congr {w : IVec} {xs : List ℚ} {F G : ℤ → ℤ → ℤ → ℚ} (h : HoldsField w xs F)
    (e : ∀ x y z, IsCell w x y z → F x y z = G x y z) : HoldsField w xs G :=
  ⟨h.1, fun x y z hc => by rw [h.2 x y z hc, e x y z hc]⟩

theorem upd_congr_set {op : ℚ → ℚ → ℚ} {S T : ℤ → ℤ → ℤ → Prop} {V F : ℤ → ℤ → ℤ → ℚ}
    {x y z : ℤ} (e : S x y z ↔ T x y z) : upd op S V F x y z = upd op T V F x y z := by
  unfold upd
  by_cases h : S x y z
  · rw [if_pos h, if_pos (e.mp h)]
  · rw [if_neg h, if_neg (fun t => h (e.mpr t))]

theorem put_step {w : IVec} {op : ℚ → ℚ → ℚ} {out : List ℚ} {F V : ℤ → ℤ → ℤ → ℚ} (h : HoldsField w out F)
    {x y z : ℤ} (hc : IsCell w x y z) {v : Option ℚ} (hv : v = some (V x y z)) :
    ∃ out', putM op out (x + w 0 * (y + w 1 * z)) v = some out' ∧
      HoldsField w out' (upd op (fun a b c => a = x ∧ b = y ∧ c = z) V F) := by
  have hr := cell_range hc
  have hl : x + w 0 * (y + w 1 * z) < out.length := by rw [h.1]; exact hr.2
  subst hv
  refine ⟨_, bind_of rfl (bind_of (h.2 x y z hc) (wr_of_lt hr.1 hl)), by simpa using h.1, ?_⟩
  intro a b c hd
  rw [rd_set _ _ _ _ (by omega)]
  unfold upd
  have hn : (((x + w 0 * (y + w 1 * z)).toNat : ℕ) : ℤ) = x + w 0 * (y + w 1 * z) := Int.toNat_of_nonneg hr.1
  rw [hn]
  by_cases e : a = x ∧ b = y ∧ c = z
  · rw [if_pos e]
    obtain ⟨rfl, rfl, rfl⟩ := e
    rw [if_pos rfl]
  · rw [if_neg e, if_neg (fun t => e (cell_inj hd hc t)), h.2 a b c hd]

theorem loop_upd {w : IVec} {op : ℚ → ℚ → ℚ} {V : ℤ → ℤ → ℤ → ℚ} (S : ℤ → ℤ → ℤ → ℤ → Prop) (lo hi : ℤ)
    (body : ℤ → List ℚ → Option (List ℚ))
    (hd : ∀ k l, lo ≤ k → k < l → l < hi → ∀ x y z, IsCell w x y z → S k x y z → ¬ S l x y z)
    (hb : ∀ k, lo ≤ k → k < hi → ∀ F out, HoldsField w out F →
      ∃ out', body k out = some out' ∧ HoldsField w out' (upd op (S k) V F))
    {F : ℤ → ℤ → ℤ → ℚ} {out : List ℚ} (h : HoldsField w out F) :
    ∃ out', forRange lo hi body out = some out' ∧
      HoldsField w out' (upd op (fun x y z => ∃ k, lo ≤ k ∧ k < hi ∧ S k x y z) V F) := by
  by_cases hle : lo ≤ hi
  · refine forRange_spec
      (fun i s => HoldsField w s (upd op (fun x y z => ∃ k, lo ≤ k ∧ k < i ∧ S k x y z) V F)) hle body out ?_ ?_
    · refine h.congr fun x y z _ => ?_
      unfold upd
      rw [if_neg]
      rintro ⟨k, h1, h2, _⟩; omega
    · intro j s h1 h2 hs
      obtain ⟨s', e, hs'⟩ := hb j h1 h2 _ s hs
      refine ⟨s', e, hs'.congr fun x y z hc => ?_⟩
      unfold upd
      by_cases hj : S j x y z
      · have hn : ¬ ∃ k, lo ≤ k ∧ k < j ∧ S k x y z := by
          rintro ⟨k, k1, k2, k3⟩
          exact hd k j k1 k2 h2 x y z hc k3 hj
        rw [if_pos hj, if_neg hn, if_pos ⟨j, h1, by omega, hj⟩]
      · rw [if_neg hj]
        by_cases hk : ∃ k, lo ≤ k ∧ k < j ∧ S k x y z
        · obtain ⟨k, k1, k2, k3⟩ := hk
          rw [if_pos ⟨k, k1, k2, k3⟩, if_pos ⟨k, k1, by omega, k3⟩]
        · rw [if_neg hk, if_neg]
          rintro ⟨k, k1, k2, k3⟩
          rcases (by omega : k < j ∨ k = j) with h | rfl
          · exact hk ⟨k, k1, h, k3⟩
          · exact hj k3
  · rw [forRange_empty (by omega)]
    refine ⟨_, rfl, h.congr fun x y z _ => ?_⟩
    unfold upd
    rw [if_neg]
    rintro ⟨k, h1, h2, _⟩; omega

/-! ## The interior loop -/

theorem flat_value (A : DArith) {order : ℤ} (ho : order = 2 ∨ order = 4) {vals : List ℚ} {denom : ℚ}
    {idx di i n : ℤ} {L : ℤ → ℚ}
    (hr : ∀ m, 0 ≤ i + m → i + m < n → rd vals (idx + m * di) = some (L (i + m)))
    (h0 : order / 2 ≤ i) (h1 : i < n - order / 2) :
    flat A order vals denom idx di = some (A.comb .flat (centredTerms order L i) denom) := by
  rcases ho with rfl | rfl
  · norm_num at h0 h1
    have a := hr 1 (by omega) (by omega)
    have b := hr (-1) (by omega) (by omega)
    rw [one_mul] at a
    rw [show idx + -1 * di = idx - di by ring, show i + -1 = i - 1 by ring] at b
    unfold flat centredTerms
    rw [if_pos rfl, if_pos rfl]
    exact bind_of a (bind_of b rfl)
  · norm_num at h0 h1
    have a := hr 2 (by omega) (by omega)
    have b := hr 1 (by omega) (by omega)
    have c := hr (-1) (by omega) (by omega)
    have d := hr (-2) (by omega) (by omega)
    rw [one_mul] at b
    rw [show idx + -1 * di = idx - di by ring, show i + -1 = i - 1 by ring] at c
    rw [show idx + -2 * di = idx - 2 * di by ring, show i + -2 = i - 2 by ring] at d
    unfold flat centredTerms
    rw [if_neg (by norm_num), if_neg (by norm_num)]
    exact bind_of a (bind_of b (bind_of c (bind_of d rfl)))

/-- Interior cells of an axis. -/
def Inner (w : IVec) (axis d x y z : ℤ) : Prop :=
  IsCell w x y z ∧ d ≤ coordOf axis x y z ∧ coordOf axis x y z < coordOf axis (w 0) (w 1) (w 2) - d

theorem inner_iff (o w : IVec) {axis d : ℤ} (ha : axis = 0 ∨ axis = 1 ∨ axis = 2) (hd : 0 ≤ d) (x y z : ℤ) :
    Inner w axis d x y z ↔
      (lowBounds axis d 0 ≤ x ∧ x < highBounds (newGrid o w) axis d 0) ∧
      (lowBounds axis d 1 ≤ y ∧ y < highBounds (newGrid o w) axis d 1) ∧
      (lowBounds axis d 2 ≤ z ∧ z < highBounds (newGrid o w) axis d 2) := by
  unfold Inner IsCell lowBounds highBounds coordOf
  rcases ha with rfl | rfl | rfl <;> simp [newGrid] <;> omega

theorem flatLoop_spec (A : DArith) {o w : IVec} {axis : ℤ} (ha : axis = 0 ∨ axis = 1 ∨ axis = 2) (opt : DerivOptions)
    (ho : opt.order = 2 ∨ opt.order = 4) {vals out : List ℚ} {V F : ℤ → ℤ → ℤ → ℚ} {denom : ℚ}
    (hv : HoldsField w vals V) (hf : HoldsField w out F) :
    ∃ out', (newGrid o w).flatLoop A axis opt (lowBounds axis (opt.order / 2))
        (highBounds (newGrid o w) axis (opt.order / 2)) vals denom out = some out' ∧
      HoldsField w out' (upd (A.ap opt.op) (Inner w axis (opt.order / 2))
        (fun x y z => A.comb .flat (centredTerms opt.order (along axis V x y z) (coordOf axis x y z)) denom) F) := by
  have hh : 0 ≤ opt.order / 2 := by rcases ho with e | e <;> rw [e] <;> norm_num
  set lB := lowBounds axis (opt.order / 2) with hlB
  set uB := highBounds (newGrid o w) axis (opt.order / 2) with huB
  have hin : ∀ x y z, Inner w axis (opt.order / 2) x y z ↔ (lB 0 ≤ x ∧ x < uB 0) ∧ (lB 1 ≤ y ∧ y < uB 1) ∧
      (lB 2 ≤ z ∧ z < uB 2) := inner_iff o w ha hh
  set D : ℤ → ℤ → ℤ → ℚ :=
    fun x y z => A.comb .flat (centredTerms opt.order (along axis V x y z) (coordOf axis x y z)) denom with hD
  unfold Grid.flatLoop
  obtain ⟨out', e, hout⟩ := loop_upd (w := w) (op := A.ap opt.op) (V := D)
    (fun x a b c => a = x ∧ ∃ y, lB 1 ≤ y ∧ y < uB 1 ∧ ∃ z, lB 2 ≤ z ∧ z < uB 2 ∧ (a = x ∧ b = y ∧ c = z))
    (lB 0) (uB 0) (fun x out =>
    forRange (lB 1) (uB 1) (fun y out =>
      forRange (lB 2) (uB 2) (fun z out =>
        putM (A.ap opt.op) out ((newGrid o w).cellIdx x y z)
          (flat A opt.order vals denom ((newGrid o w).cellIdx x y z) (stride (newGrid o w) axis))) out) out)
    (by rintro k l - h1 - x y z - ⟨rfl, -⟩ ⟨rfl, -⟩; omega)
    (by
      intro x hx1 hx2 F out hF
      obtain ⟨out', e, hout⟩ := loop_upd (w := w) (op := A.ap opt.op) (V := D)
        (fun y a b c => ∃ z, lB 2 ≤ z ∧ z < uB 2 ∧ (a = x ∧ b = y ∧ c = z))
        (lB 1) (uB 1) (fun y out =>
          forRange (lB 2) (uB 2) (fun z out =>
            putM (A.ap opt.op) out ((newGrid o w).cellIdx x y z)
              (flat A opt.order vals denom ((newGrid o w).cellIdx x y z) (stride (newGrid o w) axis))) out)
        (by rintro k l - h1 - x y z - ⟨_, _, _, _, rfl, _⟩ ⟨_, _, _, _, rfl, _⟩; omega)
        (by
          intro y hy1 hy2 F out hF
          exact loop_upd (w := w) (op := A.ap opt.op) (V := D) (fun z a b c => a = x ∧ b = y ∧ c = z)
            (lB 2) (uB 2) (fun z out =>
              putM (A.ap opt.op) out ((newGrid o w).cellIdx x y z)
                (flat A opt.order vals denom ((newGrid o w).cellIdx x y z) (stride (newGrid o w) axis)))
            (by rintro k l - h1 - x y z - ⟨_, _, rfl⟩ ⟨_, _, rfl⟩; omega)
            (by
              intro z hz1 hz2 F out hF
              have hI : Inner w axis (opt.order / 2) x y z := (hin x y z).mpr ⟨⟨hx1, hx2⟩, ⟨hy1, hy2⟩, hz1, hz2⟩
              have hc := hI.1
              rw [cellIdx_eq]
              refine put_step hF hc ?_
              exact flat_value A ho (fun m h0 h1 => read_along (o := o) hv ha hc m h0 h1) hI.2.1 hI.2.2) hF)
        hF
      refine ⟨out', e, hout.congr fun a b c _ => upd_congr_set ?_⟩
      constructor
      · rintro ⟨y, h1, h2, z, h3, h4, h5, h6⟩; exact ⟨h5, y, h1, h2, z, h3, h4, h5, h6⟩
      · rintro ⟨-, h⟩; exact h)
    hf
  refine ⟨out', e, hout.congr fun a b c _ => upd_congr_set ?_⟩
  rw [hin]
  constructor
  · rintro ⟨x, h1, h2, -, y, h3, h4, z, h5, h6, rfl, rfl, rfl⟩; exact ⟨⟨h1, h2⟩, ⟨h3, h4⟩, h5, h6⟩
  · rintro ⟨⟨h1, h2⟩, ⟨h3, h4⟩, h5, h6⟩
    exact ⟨a, h1, h2, rfl, b, h3, h4, c, h5, h6, rfl, rfl, rfl⟩

/-! ## The faces -/

/-- One face: axis 0 and 1. -/
theorem faceBody_spec {o w : IVec} {axis : ℤ} (ha : axis = 0 ∨ axis = 1) {d pos : ℤ} (op : ℚ → ℚ → ℚ)
    (hp : pos ≠ 0) {f : ℤ → ℤ → ℤ → Option ℚ} {D F : ℤ → ℤ → ℤ → ℚ}
    (hpos : 0 ≤ aIdx (widthOf (newGrid o w) axis) pos ∧
      aIdx (widthOf (newGrid o w) axis) pos < widthOf (newGrid o w) axis)
    (hfv : ∀ x y z, IsCell w x y z → coordOf axis x y z = aIdx (widthOf (newGrid o w) axis) pos →
      f pos (stride (newGrid o w) axis) (x + w 0 * (y + w 1 * z)) = some (D x y z))
    {out : List ℚ} (hf : HoldsField w out F) :
    ∃ out', (newGrid o w).faceBody axis op (lowBounds axis d) (highBounds (newGrid o w) axis d) f pos out =
        some out' ∧
      HoldsField w out' (upd op (fun x y z => coordOf axis x y z = aIdx (widthOf (newGrid o w) axis) pos) D F) := by
  unfold Grid.faceBody
  rw [if_neg hp]
  rcases ha with rfl | rfl
  · rw [if_pos rfl]
    dsimp only
    set x := aIdx ((newGrid o w).width 0) pos with hx
    have hb : ∀ y z, (0 ≤ y ∧ y < w 1) → (0 ≤ z ∧ z < w 2) → IsCell w x y z := fun y z h1 h2 => ⟨hpos, h1, h2⟩
    have e1 : lowBounds 0 d 1 = 0 := rfl
    have e2 : lowBounds 0 d 2 = 0 := rfl
    have e3 : highBounds (newGrid o w) 0 d 1 = w 1 := rfl
    have e4 : highBounds (newGrid o w) 0 d 2 = w 2 := rfl
    rw [e1, e2, e3, e4]
    obtain ⟨out', e, hout⟩ := loop_upd (w := w) (op := op) (V := D)
      (fun z a b c => ∃ y, 0 ≤ y ∧ y < w 1 ∧ (a = x ∧ b = y ∧ c = z)) 0 (w 2) (fun z out =>
        forRange 0 (w 1) (fun y out =>
          putM op out ((newGrid o w).cellIdx x y z) (f pos 1 ((newGrid o w).cellIdx x y z))) out)
      (by rintro k l - h1 - x y z - ⟨_, _, _, _, _, rfl⟩ ⟨_, _, _, _, _, rfl⟩; omega)
      (by
        intro z hz1 hz2 F out hF
        exact loop_upd (w := w) (op := op) (V := D) (fun y a b c => a = x ∧ b = y ∧ c = z) 0 (w 1)
          (fun y out => putM op out ((newGrid o w).cellIdx x y z) (f pos 1 ((newGrid o w).cellIdx x y z)))
          (by rintro k l - h1 - x y z - ⟨_, rfl, _⟩ ⟨_, rfl, _⟩; omega)
          (by
            intro y hy1 hy2 F out hF
            rw [cellIdx_eq]
            exact put_step hF (hb y z ⟨hy1, hy2⟩ ⟨hz1, hz2⟩) (hfv x y z (hb y z ⟨hy1, hy2⟩ ⟨hz1, hz2⟩) rfl)) hF)
      hf
    refine ⟨out', e, hout.congr fun a b c hc => upd_congr_set ?_⟩
    constructor
    · rintro ⟨z, h1, h2, y, h3, h4, rfl, rfl, rfl⟩; rfl
    · intro h; exact ⟨c, hc.2.2.1, hc.2.2.2, b, hc.2.1.1, hc.2.1.2, h, rfl, rfl⟩
  · rw [if_neg (by norm_num), if_pos rfl]
    dsimp only
    set y := aIdx ((newGrid o w).width 1) pos with hy
    have hb : ∀ x z, (0 ≤ x ∧ x < w 0) → (0 ≤ z ∧ z < w 2) → IsCell w x y z := fun x z h1 h2 => ⟨h1, hpos, h2⟩
    have e1 : lowBounds 1 d 0 = 0 := rfl
    have e2 : lowBounds 1 d 2 = 0 := rfl
    have e3 : highBounds (newGrid o w) 1 d 0 = w 0 := rfl
    have e4 : highBounds (newGrid o w) 1 d 2 = w 2 := rfl
    rw [e1, e2, e3, e4]
    obtain ⟨out', e, hout⟩ := loop_upd (w := w) (op := op) (V := D)
      (fun z a b c => ∃ x, 0 ≤ x ∧ x < w 0 ∧ (a = x ∧ b = y ∧ c = z)) 0 (w 2) (fun z out =>
        forRange 0 (w 0) (fun x out =>
          putM op out ((newGrid o w).cellIdx x y z)
            (f pos (newGrid o w).length ((newGrid o w).cellIdx x y z))) out)
      (by rintro k l - h1 - x y z - ⟨_, _, _, _, _, rfl⟩ ⟨_, _, _, _, _, rfl⟩; omega)
      (by
        intro z hz1 hz2 F out hF
        exact loop_upd (w := w) (op := op) (V := D) (fun x a b c => a = x ∧ b = y ∧ c = z) 0 (w 0)
          (fun x out => putM op out ((newGrid o w).cellIdx x y z)
            (f pos (newGrid o w).length ((newGrid o w).cellIdx x y z)))
          (by rintro k l - h1 - x y z - ⟨rfl, _, _⟩ ⟨rfl, _, _⟩; omega)
          (by
            intro x hx1 hx2 F out hF
            rw [cellIdx_eq]
            exact put_step hF (hb x z ⟨hx1, hx2⟩ ⟨hz1, hz2⟩) (hfv x y z (hb x z ⟨hx1, hx2⟩ ⟨hz1, hz2⟩) rfl)) hF)
      hf
    refine ⟨out', e, hout.congr fun a b c hc => upd_congr_set ?_⟩
    constructor
    · rintro ⟨z, h1, h2, x, h3, h4, rfl, rfl, rfl⟩; rfl
    · intro h; exact ⟨c, hc.2.2.1, hc.2.2.2, a, hc.1.1, hc.1.2, rfl, h, rfl⟩

theorem aIdx_pos {n d pos : ℤ} (hd : 2 * d ≤ n) (h1 : -d ≤ pos) (h2 : pos < d + 1) (h0 : pos ≠ 0) :
    0 ≤ aIdx n pos ∧ aIdx n pos < n := by
  unfold aIdx; split <;> omega

/-- All faces of axis 0 or 1. -/
theorem faces_spec {o w : IVec} {axis : ℤ} (ha : axis = 0 ∨ axis = 1) {d : ℤ} (op : ℚ → ℚ → ℚ)
    (hn : 2 * d ≤ widthOf (newGrid o w) axis)
    {f : ℤ → ℤ → ℤ → Option ℚ} {D F : ℤ → ℤ → ℤ → ℚ}
    (hfv : ∀ pos, -d ≤ pos → pos ≤ d → pos ≠ 0 → ∀ x y z, IsCell w x y z →
      coordOf axis x y z = aIdx (widthOf (newGrid o w) axis) pos →
      f pos (stride (newGrid o w) axis) (x + w 0 * (y + w 1 * z)) = some (D x y z))
    {out : List ℚ} (hf : HoldsField w out F) :
    ∃ out', forRange (-d) (d + 1)
        ((newGrid o w).faceBody axis op (lowBounds axis d) (highBounds (newGrid o w) axis d) f) out = some out' ∧
      HoldsField w out' (upd op (fun x y z => ¬ Inner w axis d x y z) D F) := by
  set n := widthOf (newGrid o w) axis with hnd
  obtain ⟨out', e, hout⟩ := loop_upd (w := w) (op := op) (V := D)
    (fun pos x y z => pos ≠ 0 ∧ coordOf axis x y z = aIdx n pos) (-d) (d + 1)
    ((newGrid o w).faceBody axis op (lowBounds axis d) (highBounds (newGrid o w) axis d) f)
    (by
      rintro k l h1 h2 h3 x y z - ⟨k0, e1⟩ ⟨l0, e2⟩
      rw [e1] at e2
      unfold aIdx at e2
      split at e2 <;> split at e2 <;> omega)
    (by
      intro pos h1 h2 F out hF
      by_cases h0 : pos = 0
      · refine ⟨out, by simp [Grid.faceBody, h0], hF.congr fun x y z _ => ?_⟩
        unfold upd; rw [if_neg]; simp [h0]
      · obtain ⟨out', e, hout⟩ := faceBody_spec (o := o) ha (d := d) op h0
          (aIdx_pos hn h1 h2 h0) (hfv pos h1 (by omega) h0) hF
        exact ⟨out', e, hout.congr fun x y z _ => upd_congr_set (by simp [h0, hnd])⟩)
    hf
  refine ⟨out', e, hout.congr fun x y z hc => upd_congr_set ?_⟩
  have hcr : 0 ≤ coordOf axis x y z ∧ coordOf axis x y z < n := by
    rcases ha with rfl | rfl
    · exact hc.1
    · exact hc.2.1
  have hw : coordOf axis (w 0) (w 1) (w 2) = n := rfl
  unfold Inner
  rw [hw]
  generalize coordOf axis x y z = i at *
  constructor
  · rintro ⟨pos, h1, h2, h3, h4⟩ ⟨-, h5, h6⟩
    rw [h4] at h5 h6
    unfold aIdx at h5 h6
    split at h5 <;> omega
  · intro h
    have h : ¬ (d ≤ i ∧ i < n - d) := fun t => h ⟨hc, t⟩
    by_cases hi : i < d
    · exact ⟨i + 1, by omega, by omega, by omega, by unfold aIdx; rw [if_pos (by omega)]; omega⟩
    · exact ⟨i - n, by omega, by omega, by omega, by unfold aIdx; rw [if_neg (by omega)]; omega⟩

/-! ## Values of the face stencils -/

theorem edge_value (A : DArith) {order : ℤ} (ho : order = 2 ∨ order = 4) {vals : List ℚ} {denom : ℚ}
    {idx di i n pos : ℤ} {L : ℤ → ℚ}
    (hr : ∀ m, 0 ≤ i + m → i + m < n → rd vals (idx + m * di) = some (L (i + m)))
    (hn : order + 1 ≤ n) (hp : pos ≠ 0) (hp1 : -(order / 2) ≤ pos) (hp2 : pos ≤ order / 2) (hi : i = aIdx n pos) :
    edge A order vals denom idx di pos = some (edgeValue A order n denom L i) := by
  have R : ∀ m j k, idx + m * di = j → i + m = k → 0 ≤ k → k < n → rd vals j = some (L k) := by
    rintro m j k rfl rfl h0 h1; exact hr m h0 h1
  rcases ho with rfl | rfl
  · norm_num at hp1 hp2 hn
    unfold edge edgeValue
    rw [if_pos rfl, if_pos rfl]
    unfold edge2
    rcases (by omega : pos = -1 ∨ pos = 1) with rfl | rfl
    · have hi : i = n - 1 := by rw [hi]; unfold aIdx; norm_num; ring
      rw [if_neg (by norm_num), if_pos rfl, if_neg (by omega)]
      refine bind_of (R 0 _ i (by ring) (by ring) (by omega) (by omega))
        (bind_of (R (-1) _ (i - 1) (by ring) (by ring) (by omega) (by omega))
        (bind_of (R (-2) _ (i - 2) (by ring) (by ring) (by omega) (by omega)) ?_))
      rfl
    · have hi : i = 0 := by rw [hi]; unfold aIdx; norm_num
      rw [if_pos rfl, if_pos hi]
      refine bind_of (R 0 _ 0 (by ring) (by omega) (by omega) (by omega))
        (bind_of (R 1 _ 1 (by ring) (by omega) (by omega) (by omega))
        (bind_of (R 2 _ 2 (by ring) (by omega) (by omega) (by omega)) ?_))
      rfl
  · norm_num at hp1 hp2 hn
    unfold edge edgeValue
    rw [if_neg (by norm_num), if_neg (by norm_num)]
    unfold edge4
    rcases (by omega : pos = -2 ∨ pos = -1 ∨ pos = 1 ∨ pos = 2) with rfl | rfl | rfl | rfl
    · have hi : i = n - 2 := by rw [hi]; unfold aIdx; norm_num; ring
      rw [if_neg (by norm_num), if_neg (by norm_num), if_pos rfl, if_neg (by omega), if_neg (by omega), if_pos hi]
      refine bind_of (R 1 _ (i + 1) (by ring) (by omega) (by omega) (by omega))
        (bind_of (R 0 _ i (by ring) (by omega) (by omega) (by omega))
        (bind_of (R (-1) _ (i - 1) (by ring) (by omega) (by omega) (by omega))
        (bind_of (R (-2) _ (i - 2) (by ring) (by omega) (by omega) (by omega))
        (bind_of (R (-3) _ (i - 3) (by ring) (by omega) (by omega) (by omega)) ?_))))
      rfl
    · have hi : i = n - 1 := by rw [hi]; unfold aIdx; norm_num; ring
      rw [if_neg (by norm_num), if_neg (by norm_num), if_neg (by norm_num), if_pos rfl, if_neg (by omega),
        if_neg (by omega), if_neg (by omega)]
      refine bind_of (R (-4) _ (i - 4) (by ring) (by omega) (by omega) (by omega))
        (bind_of (R (-3) _ (i - 3) (by ring) (by omega) (by omega) (by omega))
        (bind_of (R (-2) _ (i - 2) (by ring) (by omega) (by omega) (by omega))
        (bind_of (R (-1) _ (i - 1) (by ring) (by omega) (by omega) (by omega))
        (bind_of (R 0 _ i (by ring) (by omega) (by omega) (by omega)) ?_))))
      rfl
    · have hi : i = 0 := by rw [hi]; unfold aIdx; norm_num
      rw [if_pos rfl, if_pos hi]
      refine bind_of (R 4 _ 4 (by ring) (by omega) (by omega) (by omega))
        (bind_of (R 3 _ 3 (by ring) (by omega) (by omega) (by omega))
        (bind_of (R 2 _ 2 (by ring) (by omega) (by omega) (by omega))
        (bind_of (R 1 _ 1 (by ring) (by omega) (by omega) (by omega))
        (bind_of (R 0 _ 0 (by ring) (by omega) (by omega) (by omega)) ?_))))
      rfl
    · have hi : i = 1 := by rw [hi]; unfold aIdx; norm_num
      rw [if_neg (by norm_num), if_pos rfl, if_neg (by omega), if_pos hi]
      refine bind_of (R (-1) _ 0 (by ring) (by omega) (by omega) (by omega))
        (bind_of (R 0 _ 1 (by ring) (by omega) (by omega) (by omega))
        (bind_of (R 1 _ 2 (by ring) (by omega) (by omega) (by omega))
        (bind_of (R 2 _ 3 (by ring) (by omega) (by omega) (by omega))
        (bind_of (R 3 _ 4 (by ring) (by omega) (by omega) (by omega)) ?_))))
      rfl

theorem wrap_value (A : DArith) {order : ℤ} (ho : order = 2 ∨ order = 4) {vals : List ℚ} {denom : ℚ}
    {idx di i n pos : ℤ} {L : ℤ → ℚ}
    (hr : ∀ m, 0 ≤ i + m → i + m < n → rd vals (idx + m * di) = some (L (i + m)))
    (hn : order ≤ n) (hn3 : 3 ≤ n) (hp : pos ≠ 0) (hp1 : -(order / 2) ≤ pos) (hp2 : pos ≤ order / 2)
    (hi : i = aIdx n pos) :
    wrap A order vals denom idx di pos n = some (A.comb .wrap (centredTerms order (fun j => L (j % n)) i) denom) := by
  have R : ∀ m j k, idx + m * di = j → (i + m = k ∨ i + m = k + n ∨ i + m = k - n) → 0 ≤ i + m → i + m < n →
      rd vals j = some (L (k % n)) := by
    rintro m j k rfl hk h0 h1
    rw [hr m h0 h1]
    have : k % n = i + m := by
      rcases hk with e | e | e
      · rw [← e]; exact Int.emod_eq_of_lt h0 h1
      · rw [← Int.add_emod_right, ← e]; exact Int.emod_eq_of_lt h0 h1
      · rw [← Int.sub_emod_right, ← e]; exact Int.emod_eq_of_lt h0 h1
    rw [this]
  rcases ho with rfl | rfl
  · norm_num at hp1 hp2 hn
    unfold wrap centredTerms
    rw [if_pos rfl, if_pos rfl]
    unfold wrap2
    rcases (by omega : pos = -1 ∨ pos = 1) with rfl | rfl
    · have hi : i = n - 1 := by rw [hi]; unfold aIdx; norm_num; ring
      rw [if_neg (by norm_num), if_pos rfl]
      refine bind_of (R (-(n - 1)) _ (i + 1) (by ring) (by omega) (by omega) (by omega))
        (bind_of (R (-1) _ (i - 1) (by ring) (by omega) (by omega) (by omega)) ?_)
      rfl
    · have hi : i = 0 := by rw [hi]; unfold aIdx; norm_num
      rw [if_pos rfl]
      refine bind_of (R 1 _ (i + 1) (by ring) (by omega) (by omega) (by omega))
        (bind_of (R (n - 1) _ (i - 1) (by ring) (by omega) (by omega) (by omega)) ?_)
      rfl
  · norm_num at hp1 hp2 hn
    unfold wrap centredTerms
    rw [if_neg (by norm_num), if_neg (by norm_num)]
    unfold wrap4 wrap4Idx
    rcases (by omega : pos = -2 ∨ pos = -1 ∨ pos = 1 ∨ pos = 2) with rfl | rfl | rfl | rfl
    · have hi : i = n - 2 := by rw [hi]; unfold aIdx; norm_num; ring
      rw [if_neg (by norm_num), if_neg (by norm_num), if_pos rfl]
      refine bind_of rfl (bind_of (R (-(n - 2)) _ (i + 2) (by ring) (by omega) (by omega) (by omega))
        (bind_of (R 1 _ (i + 1) (by ring) (by omega) (by omega) (by omega))
        (bind_of (R (-1) _ (i - 1) (by ring) (by omega) (by omega) (by omega))
        (bind_of (R (-2) _ (i - 2) (by ring) (by omega) (by omega) (by omega)) ?_))))
      rfl
    · have hi : i = n - 1 := by rw [hi]; unfold aIdx; norm_num; ring
      rw [if_neg (by norm_num), if_neg (by norm_num), if_neg (by norm_num), if_pos rfl]
      refine bind_of rfl (bind_of (R (-(n - 2)) _ (i + 2) (by ring) (by omega) (by omega) (by omega))
        (bind_of (R (-(n - 1)) _ (i + 1) (by ring) (by omega) (by omega) (by omega))
        (bind_of (R (-1) _ (i - 1) (by ring) (by omega) (by omega) (by omega))
        (bind_of (R (-2) _ (i - 2) (by ring) (by omega) (by omega) (by omega)) ?_))))
      rfl
    · have hi : i = 0 := by rw [hi]; unfold aIdx; norm_num
      rw [if_pos rfl]
      refine bind_of rfl (bind_of (R 2 _ (i + 2) (by ring) (by omega) (by omega) (by omega))
        (bind_of (R 1 _ (i + 1) (by ring) (by omega) (by omega) (by omega))
        (bind_of (R (n - 1) _ (i - 1) (by ring) (by omega) (by omega) (by omega))
        (bind_of (R (n - 2) _ (i - 2) (by ring) (by omega) (by omega) (by omega)) ?_))))
      rfl
    · have hi : i = 1 := by rw [hi]; unfold aIdx; norm_num
      rw [if_neg (by norm_num), if_pos rfl]
      refine bind_of rfl (bind_of (R 2 _ (i + 2) (by ring) (by omega) (by omega) (by omega))
        (bind_of (R 1 _ (i + 1) (by ring) (by omega) (by omega) (by omega))
        (bind_of (R (-1) _ (i - 1) (by ring) (by omega) (by omega) (by omega))
        (bind_of (R (n - 2) _ (i - 2) (by ring) (by omega) (by omega) (by omega)) ?_))))
      rfl

theorem derivSpec_inner {order : ℤ} (ho : order = 2 ∨ order = 4) (P : Prop) [Decidable P] (h : ℚ) {n i : ℤ}
    (L : ℤ → ℚ) (h1 : order / 2 ≤ i) (h2 : i < n - order / 2) :
    derivSpec order P h n L i = centred order h L i := by
  unfold derivSpec
  split
  · rcases ho with rfl | rfl
    · norm_num at h1 h2
      simp only [centred, if_pos]
      rw [Int.emod_eq_of_lt (by omega) (by omega), Int.emod_eq_of_lt (by omega) (by omega)]
    · norm_num at h1 h2
      simp only [centred]
      rw [Int.emod_eq_of_lt (by omega) (by omega), Int.emod_eq_of_lt (by omega) (by omega),
        Int.emod_eq_of_lt (by omega) (by omega), Int.emod_eq_of_lt (by omega) (by omega)]
  · rcases ho with rfl | rfl
    · norm_num at h1 h2
      unfold oneSided
      rw [if_pos rfl, if_neg (by omega), if_neg (by omega)]
    · norm_num at h1 h2
      unfold oneSided
      rw [if_neg (by norm_num), if_neg (by omega), if_neg (by omega), if_neg (by omega), if_neg (by omega)]

/-! ## C43 -/

/-- The grid is treated as periodic along the axis: the option is set and the grid spans the whole box. -/
def Wraps (g : GridLocation) (axis : ℤ) (opt : DerivOptions) : Prop :=
  opt.periodic = true ∧ g.cells = widthOf g.toGrid axis

instance (g : GridLocation) (axis : ℤ) (opt : DerivOptions) : Decidable (Wraps g axis opt) := by
  unfold Wraps; infer_instance

/-- The grid is wide enough for the stencil. -/
def WideEnough (g : GridLocation) (axis : ℤ) (opt : DerivOptions) : Prop :=
  3 ≤ widthOf g.toGrid axis ∧ opt.order ≤ widthOf g.toGrid axis ∧
    (¬ Wraps g axis opt → opt.order + 1 ≤ widthOf g.toGrid axis)

/-- The value `Deriv` should give at a cell. -/
def derivAt (g : GridLocation) (axis : ℤ) (opt : DerivOptions) (V : ℤ → ℤ → ℤ → ℚ) (x y z : ℤ) : ℚ :=
  derivSpec opt.order (Wraps g axis opt) (g.boxWidth / g.cells) (widthOf g.toGrid axis) (along axis V x y z)
    (coordOf axis x y z)

/-- What is computed at a cell. -/
def stencilAt (A : DArith) (g : GridLocation) (axis : ℤ) (opt : DerivOptions) (V : ℤ → ℤ → ℤ → ℚ) (x y z : ℤ) : ℚ :=
  stencilValue A opt.order (Wraps g axis opt) (A.denom opt.order g.boxWidth g.cells) (widthOf g.toGrid axis)
    (along axis V x y z) (coordOf axis x y z)

/-- `Deriv` along the first two axes, in any arithmetic. -/
theorem deriv_value (A : DArith) (o w : IVec) (boxWidth : ℚ) (cells axis : ℤ) (ha : axis = 0 ∨ axis = 1)
    (opt : DerivOptions) (ho : opt.order = 2 ∨ opt.order = 4)
    (hw : WideEnough (newGridLocation o w boxWidth cells) axis opt)
    (vals out : List ℚ) (V F : ℤ → ℤ → ℤ → ℚ) (hv : HoldsField w vals V) (hf : HoldsField w out F) :
    ∃ out', (newGridLocation o w boxWidth cells).deriv vals out axis opt A = some out' ∧
      HoldsField w out' (fun x y z => A.ap opt.op (F x y z)
        (stencilAt A (newGridLocation o w boxWidth cells) axis opt V x y z)) := by
  have ha' : axis = 0 ∨ axis = 1 ∨ axis = 2 := by omega
  obtain ⟨w3, w4, w5⟩ := hw
  set g := newGridLocation o w boxWidth cells with hg
  have hgg : g.toGrid = newGrid o w := rfl
  rw [hgg] at w3 w4 w5
  unfold GridLocation.deriv
  rw [if_neg (by omega), if_neg (by rw [hgg]; omega), if_neg (by omega)]
  set denom := A.denom opt.order g.boxWidth g.cells with hdn
  obtain ⟨o1, e1, h1⟩ := flatLoop_spec A (o := o) ha' opt ho (denom := denom) hv hf
  have hcr : ∀ x y z, IsCell w x y z → 0 ≤ coordOf axis x y z ∧ coordOf axis x y z < widthOf (newGrid o w) axis := by
    intro x y z hc
    rcases ha with rfl | rfl
    · exact hc.1
    · exact hc.2.1
  have key : ∀ o2, HoldsField w o2 (upd (A.ap opt.op) (fun x y z => ¬ Inner w axis (opt.order / 2) x y z)
      (fun x y z => stencilAt A g axis opt V x y z)
      (upd (A.ap opt.op) (Inner w axis (opt.order / 2))
        (fun x y z => A.comb .flat (centredTerms opt.order (along axis V x y z) (coordOf axis x y z)) denom) F)) →
      HoldsField w o2 (fun x y z => A.ap opt.op (F x y z) (stencilAt A g axis opt V x y z)) := by
    intro o2 h2
    refine h2.congr fun x y z hc => ?_
    unfold upd
    by_cases hi : Inner w axis (opt.order / 2) x y z
    · rw [if_neg (not_not.mpr hi), if_pos hi]
      unfold stencilAt stencilValue
      exact congrArg _ (if_pos hi.2).symm
    · rw [if_pos hi, if_neg hi]
  have hd2 : 2 * (opt.order / 2) ≤ widthOf (newGrid o w) axis := by rcases ho with e | e <;> rw [e] at w4 ⊢ <;> omega
  have out_of : ∀ {pos x y z : ℤ}, -(opt.order / 2) ≤ pos → pos ≤ opt.order / 2 → pos ≠ 0 →
      coordOf axis x y z = aIdx (widthOf (newGrid o w) axis) pos →
      ¬ (opt.order / 2 ≤ coordOf axis x y z ∧ coordOf axis x y z < widthOf g.toGrid axis - opt.order / 2) := by
    intro pos x y z p1 p2 p0 hi
    rw [hi, hgg]
    unfold aIdx
    split <;> omega
  by_cases hwr : Wraps g axis opt
  · obtain ⟨o2, e2, h2⟩ := faces_spec (o := o) ha (d := opt.order / 2) (A.ap opt.op) hd2
      (f := fun pos di idx => wrap A opt.order vals denom idx di pos (widthOf (newGrid o w) axis))
      (D := fun x y z => stencilAt A g axis opt V x y z) (by
        intro pos p1 p2 p0 x y z hc hi
        unfold stencilAt stencilValue
        rw [if_neg (out_of p1 p2 p0 hi), if_pos hwr]
        exact wrap_value A ho (fun m h0 h1 => read_along (o := o) hv ha' hc m h0 h1) w4 w3 p0 p1 p2 hi) h1
    refine ⟨o2, ?_, key o2 h2⟩
    refine bind_of e1 ?_
    rw [if_neg (by unfold Wraps at hwr; simp [hwr.1, hwr.2])]
    exact e2
  · obtain ⟨o2, e2, h2⟩ := faces_spec (o := o) ha (d := opt.order / 2) (A.ap opt.op) hd2
      (f := fun pos di idx => edge A opt.order vals denom idx di pos)
      (D := fun x y z => stencilAt A g axis opt V x y z) (by
        intro pos p1 p2 p0 x y z hc hi
        unfold stencilAt stencilValue
        rw [if_neg (out_of p1 p2 p0 hi), if_neg hwr]
        exact edge_value A ho (fun m h0 h1 => read_along (o := o) hv ha' hc m h0 h1) (w5 hwr) p0 p1 p2 hi) h1
    refine ⟨o2, ?_, key o2 h2⟩
    refine bind_of e1 ?_
    rw [if_pos (by
      unfold Wraps at hwr
      by_contra hcon
      push Not at hcon
      exact hwr ⟨by simpa using hcon.1, hcon.2⟩)]
    exact e2

theorem exactD_ap : exactD.ap = DerivOp.apply := by
  funext op a b
  cases op <;> rfl

/-- In exact arithmetic the values are those of the property. -/
theorem stencilValue_exact {order : ℤ} (ho : order = 2 ∨ order = 4) (P : Prop) [Decidable P] (boxWidth : ℚ) (cells : ℤ)
    {n i : ℤ} (hn : ¬ P → order + 1 ≤ n) (L : ℤ → ℚ) (h0 : 0 ≤ i) (h1 : i < n) :
    stencilValue exactD order P (exactD.denom order boxWidth cells) n L i =
      derivSpec order P (boxWidth / cells) n L i := by
  have hc : ∀ (site : DerivSite) (L : ℤ → ℚ), exactD.comb site (centredTerms order L i) (exactD.denom order boxWidth cells) =
      centred order (boxWidth / cells) L i := by
    intro site L
    rcases ho with rfl | rfl
    · simp [exactD, centredTerms, centred]; ring
    · simp [exactD, centredTerms, centred]; ring
  unfold stencilValue
  by_cases hin : order / 2 ≤ i ∧ i < n - order / 2
  · rw [if_pos hin, hc, derivSpec_inner ho P _ L hin.1 hin.2]
  rw [if_neg hin]
  unfold derivSpec
  by_cases hP : P
  · rw [if_pos hP, if_pos hP, hc]
  rw [if_neg hP, if_neg hP]
  have hn := hn hP
  rcases ho with rfl | rfl
  · norm_num at hin hn
    unfold edgeValue oneSided
    rw [if_pos rfl, if_pos rfl]
    split_ifs with a b
    · simp [exactD]; ring
    · simp [exactD]; ring
    · omega
  · norm_num at hin hn
    unfold edgeValue oneSided
    rw [if_neg (show ¬ (4 : ℤ) = 2 by norm_num), if_neg (show ¬ (4 : ℤ) = 2 by norm_num)]
    split_ifs with a b c d
    · simp [exactD]; ring
    · simp [exactD]; ring
    · simp [exactD]; ring
    · simp [exactD]; ring
    · omega

theorem coordOf_range {o w : IVec} {axis x y z : ℤ} (ha : axis = 0 ∨ axis = 1 ∨ axis = 2) (hc : IsCell w x y z) :
    0 ≤ coordOf axis x y z ∧ coordOf axis x y z < widthOf (newGrid o w) axis := by
  rcases ha with rfl | rfl | rfl
  · exact hc.1
  · exact hc.2.1
  · exact hc.2.2

theorem stencilAt_exact {o w : IVec} {boxWidth : ℚ} {cells axis : ℤ} (ha : axis = 0 ∨ axis = 1 ∨ axis = 2)
    {opt : DerivOptions} (ho : opt.order = 2 ∨ opt.order = 4)
    (hw : WideEnough (newGridLocation o w boxWidth cells) axis opt) (V : ℤ → ℤ → ℤ → ℚ) {x y z : ℤ}
    (hc : IsCell w x y z) :
    stencilAt exactD (newGridLocation o w boxWidth cells) axis opt V x y z =
      derivAt (newGridLocation o w boxWidth cells) axis opt V x y z :=
  stencilValue_exact ho _ _ _ hw.2.2 _ (coordOf_range (o := o) ha hc).1 (coordOf_range (o := o) ha hc).2

/-- Along the first two axes `Deriv` gives, at every cell, the centred stencil with periodic neighbours or the
one-sided stencil, combined with the old contents as the options say. The full property is missing the third
axis (whose faces are wrong) and grids too narrow for the stencil (which are accepted). -/
theorem C43_deriv_partial (o w : IVec) (boxWidth : ℚ) (cells axis : ℤ) (ha : axis = 0 ∨ axis = 1)
    (opt : DerivOptions) (ho : opt.order = 2 ∨ opt.order = 4)
    (hw : WideEnough (newGridLocation o w boxWidth cells) axis opt)
    (vals out : List ℚ) (V F : ℤ → ℤ → ℤ → ℚ) (hv : HoldsField w vals V) (hf : HoldsField w out F) :
    ∃ out', (newGridLocation o w boxWidth cells).deriv vals out axis opt = some out' ∧
      HoldsField w out' (fun x y z => opt.op.apply (F x y z)
        (derivAt (newGridLocation o w boxWidth cells) axis opt V x y z)) := by
  obtain ⟨out', e, h⟩ := deriv_value exactD o w boxWidth cells axis ha opt ho hw vals out V F hv hf
  refine ⟨out', e, h.congr fun x y z hc => ?_⟩
  rw [exactD_ap, stencilAt_exact (by omega) ho hw V hc]

example : WideEnough (newGridLocation ![0, 0, 0] ![5, 6, 7] 10 20) 1 ⟨false, .add, 4⟩ ∧
    ¬ Wraps (newGridLocation ![0, 0, 0] ![5, 6, 7] 10 20) 1 ⟨false, .add, 4⟩ ∧
    Wraps (newGridLocation ![0, 0, 0] ![5, 6, 7] 10 6) 1 ⟨true, .add, 4⟩ := by
  refine ⟨⟨by decide, by decide, fun _ => by decide⟩, by decide, by decide⟩

/-- Writing only in some faces of the third axis leaves the other cells alone. -/
theorem faceBody2_frame {o w : IVec} {d pos : ℤ} (op : ℚ → ℚ → ℚ) {f : ℤ → ℤ → ℤ → Option ℚ}
    (hd : 2 * d ≤ w 2) (hp1 : -d ≤ pos) (hp2 : pos < d + 1) {F : ℤ → ℤ → ℤ → ℚ} {out out' : List ℚ}
    (hw : 0 ≤ w 0 ∧ 0 ≤ w 1)
    (hl : (out.length : ℤ) = w 0 * w 1 * w 2)
    (h : ∀ x y z, Inner w 2 d x y z → rd out (x + w 0 * (y + w 1 * z)) = some (F x y z))
    (e : (newGrid o w).faceBody 2 op (lowBounds 2 d) (highBounds (newGrid o w) 2 d) f pos out = some out') :
    (out'.length : ℤ) = w 0 * w 1 * w 2 ∧
    ∀ x y z, Inner w 2 d x y z → rd out' (x + w 0 * (y + w 1 * z)) = some (F x y z) := by
  unfold Grid.faceBody at e
  by_cases h0 : pos = 0
  · rw [if_pos h0] at e
    cases e
    exact ⟨hl, h⟩
  rw [if_neg h0, if_neg (by norm_num), if_neg (by norm_num)] at e
  dsimp only at e
  have e1 : lowBounds 2 d 0 = 0 := rfl
  have e2 : lowBounds 2 d 1 = 0 := rfl
  have e3 : highBounds (newGrid o w) 2 d 0 = w 0 := rfl
  have e4 : highBounds (newGrid o w) 2 d 1 = w 1 := rfl
  rw [e1, e2, e3, e4] at e
  set z0 := aIdx ((newGrid o w).width 2) pos with hz0
  have hz : 0 ≤ z0 ∧ z0 < w 2 := aIdx_pos (n := w 2) hd hp1 hp2 h0
  have hzn : ∀ x y z, Inner w 2 d x y z → z ≠ z0 := by
    rintro x y z ⟨-, h1, h2⟩ rfl
    simp only [coordOf] at h1 h2
    norm_num at h1 h2
    have : z0 = aIdx (w 2) pos := rfl
    unfold aIdx at this
    split at this <;> omega
  refine forRange_inv (fun _ s => (s.length : ℤ) = w 0 * w 1 * w 2 ∧
    ∀ x y z, Inner w 2 d x y z → rd s (x + w 0 * (y + w 1 * z)) = some (F x y z)) hw.2 _ out out' ⟨hl, h⟩ ?_ e
  intro y s s' hy1 hy2 hs es
  refine forRange_inv (fun _ s => (s.length : ℤ) = w 0 * w 1 * w 2 ∧
    ∀ x y z, Inner w 2 d x y z → rd s (x + w 0 * (y + w 1 * z)) = some (F x y z)) hw.1 _ s s' hs ?_ es
  intro x s s' hx1 hx2 hs es
  rw [cellIdx_eq] at es
  have hc : IsCell w x y z0 := ⟨⟨hx1, hx2⟩, ⟨hy1, hy2⟩, hz⟩
  have hr := cell_range hc
  unfold putM put at es
  obtain ⟨v, -, es⟩ := Option.bind_eq_some_iff.mp es
  obtain ⟨u, -, es⟩ := Option.bind_eq_some_iff.mp es
  obtain ⟨q1, q2, rfl⟩ := wr_some es
  refine ⟨by simpa using hs.1, ?_⟩
  intro a b c hi
  rw [rd_set _ _ _ _ (by omega), Int.toNat_of_nonneg hr.1, if_neg, hs.2 a b c hi]
  intro t
  exact hzn a b c hi (cell_inj hi.1 hc t).2.2

/-- `Deriv` along the third axis away from its faces, in any arithmetic. -/
theorem deriv_value3 (A : DArith) (o w : IVec) (boxWidth : ℚ) (cells : ℤ) (opt : DerivOptions)
    (hw : WideEnough (newGridLocation o w boxWidth cells) 2 opt) (hw0 : 0 ≤ w 0) (hw1 : 0 ≤ w 1)
    (vals out out' : List ℚ) (V F : ℤ → ℤ → ℤ → ℚ) (hv : HoldsField w vals V) (hf : HoldsField w out F)
    (e : (newGridLocation o w boxWidth cells).deriv vals out 2 opt A = some out') :
    (out'.length : ℤ) = w 0 * w 1 * w 2 ∧ ∀ x y z, IsCell w x y z → opt.order / 2 ≤ z → z < w 2 - opt.order / 2 →
      rd out' (x + w 0 * (y + w 1 * z)) = some (A.ap opt.op (F x y z)
        (stencilAt A (newGridLocation o w boxWidth cells) 2 opt V x y z)) := by
  obtain ⟨w3, w4, w5⟩ := hw
  set g := newGridLocation o w boxWidth cells with hg
  have hgg : g.toGrid = newGrid o w := rfl
  rw [hgg] at w3 w4 w5
  unfold GridLocation.deriv at e
  rw [if_neg (by norm_num), if_neg (by rw [hgg]; omega)] at e
  by_cases ho : opt.order ≠ 2 ∧ opt.order ≠ 4
  · rw [if_pos ho] at e; cases e
  rw [if_neg ho] at e
  have ho : opt.order = 2 ∨ opt.order = 4 := by omega
  dsimp only at e
  set denom := A.denom opt.order g.boxWidth g.cells with hdn
  obtain ⟨o1, e1, h1⟩ := flatLoop_spec A (o := o) (axis := 2) (by norm_num) opt ho (denom := denom) hv hf
  rw [show g.toGrid = newGrid o w from rfl, e1] at e
  replace e : _ = some out' := e
  have hd2 : 2 * (opt.order / 2) ≤ w 2 := by
    have : widthOf (newGrid o w) 2 = w 2 := rfl
    rw [this] at w4
    rcases ho with e | e <;> rw [e] at w4 ⊢ <;> omega
  have h0 : 0 ≤ opt.order / 2 := by rcases ho with e | e <;> rw [e] <;> norm_num
  have fin : ∀ f, forRange (-(opt.order / 2)) (opt.order / 2 + 1) ((newGrid o w).faceBody 2 (A.ap opt.op)
      (lowBounds 2 (opt.order / 2)) (highBounds (newGrid o w) 2 (opt.order / 2)) f) o1 = some out' →
      (out'.length : ℤ) = w 0 * w 1 * w 2 ∧ ∀ x y z, IsCell w x y z → opt.order / 2 ≤ z → z < w 2 - opt.order / 2 →
      rd out' (x + w 0 * (y + w 1 * z)) = some (A.ap opt.op (F x y z) (stencilAt A g 2 opt V x y z)) := by
    intro f ef
    have := forRange_inv (fun _ s => (s.length : ℤ) = w 0 * w 1 * w 2 ∧
      ∀ x y z, Inner w 2 (opt.order / 2) x y z → rd s (x + w 0 * (y + w 1 * z)) = some (A.ap opt.op (F x y z)
        (stencilAt A g 2 opt V x y z))) (by omega) _ o1 out' ⟨h1.1, ?_⟩ ?_ ef
    · exact ⟨this.1, fun x y z hc hz1 hz2 => this.2 x y z ⟨hc, hz1, hz2⟩⟩
    · intro a b c hi
      rw [h1.2 a b c hi.1]
      unfold upd
      rw [if_pos hi]
      unfold stencilAt stencilValue
      exact congrArg (fun t => some (A.ap opt.op (F a b c) t)) (if_pos hi.2).symm
    · intro pos s s' p1 p2 hs es
      exact faceBody2_frame (A.ap opt.op) hd2 p1 p2 ⟨hw0, hw1⟩ hs.1 hs.2 es
  by_cases hp : opt.periodic = false ∨ g.cells ≠ widthOf (newGrid o w) 2
  · replace e : (if opt.periodic = false ∨ g.cells ≠ widthOf (newGrid o w) 2 then _ else _) = some out' := e
    rw [if_pos hp] at e
    exact fin _ e
  · replace e : (if opt.periodic = false ∨ g.cells ≠ widthOf (newGrid o w) 2 then _ else _) = some out' := e
    rw [if_neg hp] at e
    exact fin _ e

/-- Along the third axis the cells which are not on its faces get the centred stencil (when the call returns).
Missing: the faces, which are wrong. -/
theorem C43_third_axis_partial (o w : IVec) (boxWidth : ℚ) (cells : ℤ) (opt : DerivOptions)
    (hw : WideEnough (newGridLocation o w boxWidth cells) 2 opt) (hw0 : 0 ≤ w 0) (hw1 : 0 ≤ w 1)
    (vals out out' : List ℚ) (V F : ℤ → ℤ → ℤ → ℚ) (hv : HoldsField w vals V) (hf : HoldsField w out F)
    (e : (newGridLocation o w boxWidth cells).deriv vals out 2 opt = some out') :
    (out'.length : ℤ) = w 0 * w 1 * w 2 ∧ ∀ x y z, IsCell w x y z → opt.order / 2 ≤ z → z < w 2 - opt.order / 2 →
      rd out' (x + w 0 * (y + w 1 * z)) = some (opt.op.apply (F x y z)
        (derivAt (newGridLocation o w boxWidth cells) 2 opt V x y z)) := by
  have ho : opt.order = 2 ∨ opt.order = 4 := by
    by_contra hcon
    unfold GridLocation.deriv at e
    rw [if_neg (by norm_num)] at e
    split_ifs at e
    all_goals first | cases e | omega
  obtain ⟨hl, h⟩ := deriv_value3 exactD o w boxWidth cells opt hw hw0 hw1 vals out out' V F hv hf e
  refine ⟨hl, fun x y z hc h1 h2 => ?_⟩
  rw [h x y z hc h1 h2, exactD_ap, stencilAt_exact (by omega) ho hw V hc]

/-- The faces of the third axis are differentiated along the first axis: the field `z` gets derivative `-1/2`
in a corner instead of 1, also on a periodic grid where it gets 0 instead of `-1/2`. -/
theorem C43_third_axis_counterexample :
    (∃ (w : IVec) (out' : List ℚ) (opt : DerivOptions), (∀ i, 0 < w i) ∧
      WideEnough (newGridLocation ![0, 0, 0] w 3 3) 2 opt ∧ ¬ Wraps (newGridLocation ![0, 0, 0] w 3 3) 2 opt ∧
      (newGridLocation ![0, 0, 0] w 3 3).deriv (fieldList w fun _ _ z => z) (fieldList w fun _ _ _ => 0) 2 opt =
        some out' ∧
      rd out' 0 = some (-1/2) ∧
      derivAt (newGridLocation ![0, 0, 0] w 3 3) 2 opt (fun _ _ z => z) 0 0 0 = 1) ∧
    (∃ (w : IVec) (out' : List ℚ) (opt : DerivOptions), (∀ i, 0 < w i) ∧
      WideEnough (newGridLocation ![0, 0, 0] w 3 3) 2 opt ∧ Wraps (newGridLocation ![0, 0, 0] w 3 3) 2 opt ∧
      (newGridLocation ![0, 0, 0] w 3 3).deriv (fieldList w fun _ _ z => z) (fieldList w fun _ _ _ => 0) 2 opt =
        some out' ∧
      rd out' 0 = some 0 ∧
      derivAt (newGridLocation ![0, 0, 0] w 3 3) 2 opt (fun _ _ z => z) 0 0 0 = -1/2) := by
  refine ⟨⟨![2, 1, 3], [-1/2, 3/2, 1, 1, 3/2, -1/2], ⟨false, .none, 2⟩, by decide,
      ⟨by decide, by decide, fun _ => by decide⟩, by decide, by decide +kernel, by decide +kernel, by decide +kernel⟩,
    ⟨![3, 3, 3], _, ⟨true, .none, 2⟩, by decide,
      ⟨by decide, by decide, fun h => absurd (by decide) h⟩, by decide, rfl, by decide +kernel, by decide +kernel⟩⟩

/-- A grid of 4 cells passes the width check, but the fourth-order derivative panics. -/
theorem C43_narrow_counterexample :
    ∃ (w : IVec) (vals : List ℚ) (opt : DerivOptions), (∀ i, 0 < w i) ∧ (vals.length : ℤ) = w 0 * w 1 * w 2 ∧
      3 ≤ w 0 ∧ opt.order = 4 ∧ (newGridLocation ![0, 0, 0] w 3 3).deriv vals vals 0 opt = none :=
  ⟨![4, 1, 1], [0, 0, 0, 0], ⟨false, .none, 4⟩, by decide, by decide, by decide, rfl, by decide +kernel⟩

/-- The one-sided stencils of order 2 are exact on quadratics and those of order 4 on quartics. -/
theorem oneSided_exact {order : ℤ} (ho : order = 2 ∨ order = 4) {h : ℚ} (hh : h ≠ 0) {n : ℤ}
    (hn : order + 1 ≤ n) (L : ℤ → ℚ) (P : Polynomial ℚ) (hP : (P.natDegree : ℤ) ≤ order) (x0 : ℚ)
    (hL : ∀ i, 0 ≤ i → i < n → L i = P.eval (x0 + h * i)) {i : ℤ} (h0 : 0 ≤ i) (h1 : i < n) :
    oneSided order h n L i = P.derivative.eval (x0 + h * i) := by
  rcases ho with rfl | rfl
  · have hd : P.natDegree < 3 := by omega
    have ev : ∀ t, P.eval t = P.coeff 0 + P.coeff 1 * t + P.coeff 2 * t ^ 2 := by
      intro t
      rw [Polynomial.eval_eq_sum_range' hd]
      simp [Finset.sum_range_succ]
    have dv : ∀ t, P.derivative.eval t = P.coeff 1 + 2 * P.coeff 2 * t := by
      intro t
      have hd' : P.derivative.natDegree < 2 := lt_of_le_of_lt (Polynomial.natDegree_derivative_le P) (by omega)
      rw [Polynomial.eval_eq_sum_range' hd']
      simp only [Finset.sum_range_succ, Polynomial.coeff_derivative, Finset.sum_range_zero]
      push_cast
      ring
    rw [dv]
    unfold oneSided centred
    rw [if_pos rfl, if_pos rfl]
    split_ifs with c1 c2
    · rw [hL 0 (by omega) (by omega), hL 1 (by omega) (by omega), hL 2 (by omega) (by omega), ev, ev, ev, c1]
      push_cast; field_simp; ring
    · rw [hL i (by omega) (by omega), hL (i - 1) (by omega) (by omega), hL (i - 2) (by omega) (by omega), ev, ev, ev]
      push_cast; field_simp; ring
    · rw [hL (i + 1) (by omega) (by omega), hL (i - 1) (by omega) (by omega), ev, ev]
      push_cast; field_simp; ring
  · have hd : P.natDegree < 5 := by omega
    have ev : ∀ t, P.eval t = P.coeff 0 + P.coeff 1 * t + P.coeff 2 * t ^ 2 + P.coeff 3 * t ^ 3 +
        P.coeff 4 * t ^ 4 := by
      intro t
      rw [Polynomial.eval_eq_sum_range' hd]
      simp [Finset.sum_range_succ]
    have dv : ∀ t, P.derivative.eval t = P.coeff 1 + 2 * P.coeff 2 * t + 3 * P.coeff 3 * t ^ 2 +
        4 * P.coeff 4 * t ^ 3 := by
      intro t
      have hd' : P.derivative.natDegree < 4 := lt_of_le_of_lt (Polynomial.natDegree_derivative_le P) (by omega)
      rw [Polynomial.eval_eq_sum_range' hd']
      simp only [Finset.sum_range_succ, Polynomial.coeff_derivative, Finset.sum_range_zero]
      push_cast
      ring
    rw [dv]
    unfold oneSided
    rw [if_neg (by norm_num)]
    split_ifs with c1 c2 c3 c4
    · rw [hL 0 (by omega) (by omega), hL 1 (by omega) (by omega), hL 2 (by omega) (by omega),
        hL 3 (by omega) (by omega), hL 4 (by omega) (by omega), ev, ev, ev, ev, ev, c1]
      push_cast; field_simp; ring
    · rw [hL 0 (by omega) (by omega), hL 1 (by omega) (by omega), hL 2 (by omega) (by omega),
        hL 3 (by omega) (by omega), hL 4 (by omega) (by omega), ev, ev, ev, ev, ev, c2]
      push_cast; field_simp; ring
    · rw [hL (i + 1) (by omega) (by omega), hL i (by omega) (by omega), hL (i - 1) (by omega) (by omega),
        hL (i - 2) (by omega) (by omega), hL (i - 3) (by omega) (by omega), ev, ev, ev, ev, ev]
      push_cast; field_simp; ring
    · rw [hL i (by omega) (by omega), hL (i - 1) (by omega) (by omega), hL (i - 2) (by omega) (by omega),
        hL (i - 3) (by omega) (by omega), hL (i - 4) (by omega) (by omega), ev, ev, ev, ev, ev]
      push_cast; field_simp; ring
    · unfold centred
      rw [if_neg (by norm_num)]
      rw [hL (i - 2) (by omega) (by omega), hL (i - 1) (by omega) (by omega), hL (i + 1) (by omega) (by omega),
        hL (i + 2) (by omega) (by omega), ev, ev, ev, ev]
      push_cast; field_simp; ring

/-- Exactness along the first two axes: if the field is a polynomial of degree at most the order along every
line of the axis, `Deriv` (overwriting, not periodic) returns its derivative at every cell. The third axis is
missing, see `C43_third_axis_counterexample`. -/
theorem C43_exact_partial (o w : IVec) (boxWidth : ℚ) (cells axis : ℤ) (ha : axis = 0 ∨ axis = 1)
    (opt : DerivOptions) (ho : opt.order = 2 ∨ opt.order = 4) (hp : opt.periodic = false) (hop : opt.op = .none)
    (hw : opt.order + 1 ≤ widthOf (newGrid o w) axis) (hb : boxWidth ≠ 0) (hc : cells ≠ 0)
    (vals out : List ℚ) (V F : ℤ → ℤ → ℤ → ℚ) (hv : HoldsField w vals V) (hf : HoldsField w out F)
    (P : ℤ → ℤ → ℤ → Polynomial ℚ) (hP : ∀ x y z, ((P x y z).natDegree : ℤ) ≤ opt.order)
    (hV : ∀ x y z, IsCell w x y z → ∀ i, 0 ≤ i → i < widthOf (newGrid o w) axis →
      along axis V x y z i = (P x y z).eval (boxWidth / cells * i)) :
    ∃ out', (newGridLocation o w boxWidth cells).deriv vals out axis opt = some out' ∧
      HoldsField w out' (fun x y z => (P x y z).derivative.eval (boxWidth / cells * coordOf axis x y z)) := by
  have hnw : ¬ Wraps (newGridLocation o w boxWidth cells) axis opt := by
    unfold Wraps; simp [hp]
  obtain ⟨out', e, h⟩ := C43_deriv_partial o w boxWidth cells axis ha opt ho
    (by
      have hw' : opt.order + 1 ≤ widthOf (newGridLocation o w boxWidth cells).toGrid axis := hw
      exact ⟨by omega, by omega, fun _ => hw'⟩) vals out V F hv hf
  refine ⟨out', e, h.congr fun x y z hcell => ?_⟩
  rw [hop]
  show derivAt _ _ _ _ _ _ _ = _
  unfold derivAt derivSpec
  rw [if_neg hnw]
  have hcr : 0 ≤ coordOf axis x y z ∧ coordOf axis x y z < widthOf (newGrid o w) axis := by
    rcases ha with rfl | rfl
    · exact hcell.1
    · exact hcell.2.1
  have hhn : boxWidth / (cells : ℚ) ≠ 0 := div_ne_zero hb (by exact_mod_cast hc)
  have := oneSided_exact ho hhn hw (along axis V x y z) (P x y z) (hP x y z) 0
    (by intro i h0 h1; rw [zero_add]; exact hV x y z hcell i h0 h1) hcr.1 hcr.2
  rw [zero_add] at this
  exact this

example : (5 : ℤ) ≤ widthOf (newGrid ![0, 0, 0] ![6, 5, 4]) 1 ∧
    HoldsField ![6, 5, 4] (fieldList ![6, 5, 4] fun x y z => x + z * (y : ℚ) ^ 4) (fun x y z => x + z * (y : ℚ) ^ 4) :=
  ⟨by decide, fieldList_holds (by decide) _⟩

end Verif.Geom
