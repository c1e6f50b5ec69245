import Verif.Go.Slice
import Mathlib.Algebra.BigOperators.Group.Finset.Basic
import Mathlib.Algebra.BigOperators.Intervals
import Mathlib.Algebra.Order.Floor.Ring
import Mathlib.Algebra.Order.Floor.Semiring
import Mathlib.Data.Rat.Floor

/-! Derived rules for common loop shapes, and float-to-int conversion. -/

namespace Verif.Go

variable {α : Type}

/-- `int(x)` for a float `x`: truncation towards zero (Go specification, "Conversions"). Overflow is not
modelled. -/
def trunc (x : ℚ) : Int := if 0 ≤ x then ⌊x⌋ else ⌈x⌉

theorem trunc_of_nonneg {x : ℚ} (h : 0 ≤ x) : trunc x = ⌊x⌋ := if_pos h

theorem trunc_nonneg {x : ℚ} (h : 0 ≤ x) : 0 ≤ trunc x := by
  rw [trunc_of_nonneg h]; exact Int.floor_nonneg.mpr h

theorem trunc_intCast (n : Int) : trunc (n : ℚ) = n := by
  unfold trunc; split <;> simp

/-- Reading a slice described by a function. -/
theorem rd_fn {xs : List α} {X : Nat → α} {n : Nat} (hx : ∀ i < n, xs[i]? = some (X i)) {i : Int}
    (h0 : 0 ≤ i) (h1 : i < n) : rd xs i = some (X i.toNat) := by
  obtain ⟨k, rfl⟩ := Int.eq_ofNat_of_zero_le h0
  rw [rd_natCast]
  exact hx k (by omega)

theorem rd_fn_nat {xs : List α} {X : Nat → α} {n : Nat} (hx : ∀ i < n, xs[i]? = some (X i)) {i : Int}
    (k : Nat) (h : i = k) (h1 : k < n) : rd xs i = some (X k) := by
  subst h
  rw [rd_natCast]
  exact hx k h1

theorem rd_none {xs : List α} {i : Int} (h : i < 0 ∨ xs.length ≤ i) : rd xs i = none := by
  rcases h with h | h
  · simp [rd, h]
  · by_cases h0 : i < 0
    · simp [rd, h0]
    · obtain ⟨k, rfl⟩ := Int.eq_ofNat_of_zero_le (by omega : 0 ≤ i)
      rw [rd_natCast, List.getElem?_eq_none]
      exact_mod_cast h

theorem wr_none {xs : List α} {i : Int} {v : α} (h : i < 0 ∨ xs.length ≤ i) : wr xs i v = none := by
  unfold wr
  rw [if_neg]
  omega

theorem getElem?_fn_length {xs : List α} {X : Nat → α} {n : Nat} (hl : xs.length = n)
    (h : ∀ i (hi : i < xs.length), xs[i] = X i) : ∀ i < n, xs[i]? = some (X i) := by
  intro i hi
  rw [List.getElem?_eq_getElem (by omega), h]

/-- Total-correctness rule in which the counter is a natural number. -/
theorem forRange_nat {σ : Type} (Inv : Nat → σ → Prop) {lo hi : Nat} (hle : lo ≤ hi)
    (body : Int → σ → Option σ) (s : σ) (h0 : Inv lo s)
    (hb : ∀ (j : Nat) s, lo ≤ j → j < hi → Inv j s → ∃ s', body (j : Int) s = some s' ∧ Inv (j + 1) s') :
    ∃ s', forRange lo hi body s = some s' ∧ Inv hi s' := by
  obtain ⟨s', e, h⟩ := forRange_spec (fun i s => Inv i.toNat s) (lo := lo) (hi := hi) (by omega) body s
    (by simpa using h0) (by
      intro j s h1 h2 h3
      obtain ⟨k, rfl⟩ := Int.eq_ofNat_of_zero_le (by omega : 0 ≤ j)
      obtain ⟨s', e, h⟩ := hb k s (by omega) (by omega) (by simpa using h3)
      refine ⟨s', e, ?_⟩
      have : ((k : Int) + 1).toNat = k + 1 := by omega
      show Inv ((k : Int) + 1).toNat s'
      rw [this]; exact h)
  exact ⟨s', e, by simpa using h⟩

/-- Partial-correctness rule in which the counter is a natural number. -/
theorem forRange_nat_inv {σ : Type} (Inv : Nat → σ → Prop) {lo hi : Nat} (hle : lo ≤ hi)
    (body : Int → σ → Option σ) (s s' : σ) (h0 : Inv lo s)
    (hb : ∀ (j : Nat) s s', lo ≤ j → j < hi → Inv j s → body (j : Int) s = some s' → Inv (j + 1) s')
    (e : forRange lo hi body s = some s') : Inv hi s' := by
  have := forRange_inv (fun i s => Inv i.toNat s) (lo := lo) (hi := hi) (by omega) body s s'
    (by simpa using h0) (by
      intro j s s' h1 h2 h3 h4
      obtain ⟨k, rfl⟩ := Int.eq_ofNat_of_zero_le (by omega : 0 ≤ j)
      have := hb k s s' (by omega) (by omega) (by simpa using h3) h4
      have e : ((k : Int) + 1).toNat = k + 1 := by omega
      show Inv ((k : Int) + 1).toNat s'
      rw [e]; exact this) e
  simpa using this

/-- A loop that writes `F i` at position `i`. -/
theorem forRange_fill (F : Nat → α) {lo hi n : Nat} (hle : lo ≤ hi) (hn : hi ≤ n) (xs : List α)
    (hl : xs.length = n) (body : Int → List α → Option (List α))
    (hb : ∀ (k : Nat) (st : List α), lo ≤ k → k < hi → st.length = n →
      (∀ i, st[i]? = if lo ≤ i ∧ i < k then some (F i) else xs[i]?) →
      body (k : Int) st = wr st (k : Int) (F k)) :
    ∃ ys, forRange lo hi body xs = some ys ∧ ys.length = n ∧
      ∀ i, ys[i]? = if lo ≤ i ∧ i < hi then some (F i) else xs[i]? := by
  refine forRange_nat (fun k st => st.length = n ∧
    ∀ i, st[i]? = if lo ≤ i ∧ i < k then some (F i) else xs[i]?) hle body xs ⟨hl, ?_⟩ ?_
  · intro i; rw [if_neg (by omega)]
  · intro k st h1 h2 ⟨h3, h4⟩
    rw [hb k st h1 h2 h3 h4, wr_natCast (by omega)]
    refine ⟨_, rfl, by simpa using h3, ?_⟩
    intro i
    rw [List.getElem?_set]
    by_cases e : k = i
    · subst e
      rw [if_pos rfl, if_pos (by omega), if_pos (by omega)]
    · rw [if_neg e, h4]
      by_cases c : lo ≤ i ∧ i < k
      · rw [if_pos c, if_pos (by omega)]
      · rw [if_neg c, if_neg (by omega)]

/-- A loop that adds `F i` to an accumulator. -/
theorem forRange_sum {M : Type} [AddCommMonoid M] (F : Nat → M) {lo hi : Nat} (hle : lo ≤ hi) (s : M)
    (body : Int → M → Option M)
    (hb : ∀ (k : Nat) (t : M), lo ≤ k → k < hi → body (k : Int) t = some (t + F k)) :
    forRange lo hi body s = some (s + ∑ i ∈ Finset.Ico lo hi, F i) := by
  obtain ⟨s', e, h⟩ := forRange_nat (fun k t => t = s + ∑ i ∈ Finset.Ico lo k, F i) hle body s
    (by simp) (by
      intro k t h1 h2 h3
      refine ⟨_, hb k t h1 h2, ?_⟩
      rw [h3, Finset.sum_Ico_succ_top h1, add_assoc])
  rw [e, h]

theorem bind_of {α β : Type} {o : Option α} {a : α} {f : α → Option β} {r : Option β} (h : o = some a)
    (h' : f a = r) : (o >>= f) = r := by
  subst h; exact h'

end Verif.Go
