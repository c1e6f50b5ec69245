import Verif.Interp.Search
import Mathlib.Algebra.Order.Field.Basic
import Mathlib.Algebra.Order.AbsoluteValue.Basic

/-! Tridiagonal systems: property C18. -/

namespace Verif.Interp

open Verif.Go

/-! Specification. -/

/-- `us` solves the tridiagonal system with sub-diagonal `as` (from row 1), diagonal `bs`, super-diagonal
`cs` (up to the row before the last) and right-hand side `rs`. -/
def SolvesTri (as bs cs rs us : List ℚ) : Prop :=
  us.length = bs.length ∧
  ∀ (i : Nat) (a b c r u : ℚ), as[i]? = some a → bs[i]? = some b → cs[i]? = some c → rs[i]? = some r →
    us[i]? = some u →
    (if i = 0 then 0 else a * us.getD (i - 1) 0) + b * u +
      (if i + 1 = us.length then 0 else c * us.getD (i + 1) 0) = r

/-- Strict diagonal dominance of the system. -/
def DiagDominant (as bs cs : List ℚ) : Prop :=
  ∀ (i : Nat) (a b c : ℚ), as[i]? = some a → bs[i]? = some b → cs[i]? = some c →
    (if i = 0 then 0 else |a|) + (if i + 1 = bs.length then 0 else |c|) < |b|

/-! The sequences computed by the two loops. -/

section
variable (A B C R : Nat → ℚ)

/-- Pivots. -/
def tBet : Nat → ℚ
  | 0 => B 0
  | i + 1 => B (i + 1) - A (i + 1) * (C i / tBet i)

/-- Right-hand sides after the forward pass. -/
def tG : Nat → ℚ
  | 0 => R 0 / tBet A B C 0
  | i + 1 => (R (i + 1) - A (i + 1) * tG i) / tBet A B C (i + 1)

/-- `tU d` is the solution `d` places before the last one. -/
def tU (n : Nat) : Nat → ℚ
  | 0 => tG A B C R (n - 1)
  | d + 1 => tG A B C R (n - 1 - (d + 1)) -
      (C (n - 1 - (d + 1)) / tBet A B C (n - 1 - (d + 1))) * tU n d

end

theorem triForward_step {as bs cs rs : List ℚ} {A B C R : Nat → ℚ} {n : Nat}
    (ha : ∀ i < n, as[i]? = some (A i)) (hb : ∀ i < n, bs[i]? = some (B i))
    (hc : ∀ i < n, cs[i]? = some (C i)) (hr : ∀ i < n, rs[i]? = some (R i)) {k : Nat} (hk : k + 1 < n)
    {tmp out : List ℚ} (ht : tmp.length = n) (ho : out.length = n)
    (hg : out[k]? = some (tG A B C R k)) :
    triForward as bs cs rs ((k + 1 : Nat) : Int) (tmp, tBet A B C k, out) =
      if tBet A B C (k + 1) = 0 then none
      else some (tmp.set (k + 1) (C k / tBet A B C k), tBet A B C (k + 1),
        out.set (k + 1) (tG A B C R (k + 1))) := by
  have e1 : rd cs (((k + 1 : Nat) : Int) - 1) = some (C k) :=
    rd_fn_nat hc k (by push_cast; ring) (by omega)
  have e2 : rd out (((k + 1 : Nat) : Int) - 1) = some (tG A B C R k) := by
    rw [show ((k + 1 : Nat) : Int) - 1 = (k : Int) by push_cast; ring, rd_natCast, hg]
  have e3 : rd as ((k + 1 : Nat) : Int) = some (A (k + 1)) := rd_fn_nat ha (k + 1) rfl hk
  have e4 : rd bs ((k + 1 : Nat) : Int) = some (B (k + 1)) := rd_fn_nat hb (k + 1) rfl hk
  have e5 : rd rs ((k + 1 : Nat) : Int) = some (R (k + 1)) := rd_fn_nat hr (k + 1) rfl hk
  have e6 : rd (tmp.set (k + 1) (C k / tBet A B C k)) ((k + 1 : Nat) : Int) =
      some (C k / tBet A B C k) := by
    rw [rd_natCast, List.getElem?_set]
    rw [if_pos rfl, if_pos (by omega)]
  unfold triForward
  simp only [e1, e2, e3, e4, e5, bind, Option.bind_some, wr_natCast (show k + 1 < tmp.length by omega),
    wr_natCast (show k + 1 < out.length by omega), e6]
  by_cases h : tBet A B C (k + 1) = 0
  · rw [if_pos h, if_pos (by simpa [tBet] using h)]
  · rw [if_neg h, if_neg (by simpa [tBet] using h)]
    rfl

/-- The forward loop. -/
theorem triForward_loop {as bs cs rs : List ℚ} {A B C R : Nat → ℚ} {n : Nat}
    (ha : ∀ i < n, as[i]? = some (A i)) (hb : ∀ i < n, bs[i]? = some (B i))
    (hc : ∀ i < n, cs[i]? = some (C i)) (hr : ∀ i < n, rs[i]? = some (R i))
    {tmp out : List ℚ} (ht : tmp.length = n) (ho : out.length = n)
    (hg : out[0]? = some (tG A B C R 0)) (h0 : tBet A B C 0 ≠ 0) (hn : 1 ≤ n) :
    ((∀ i < n, tBet A B C i ≠ 0) → ∃ tmp' out',
      forRange 1 n (triForward as bs cs rs) (tmp, tBet A B C 0, out) =
        some (tmp', tBet A B C (n - 1), out') ∧
      tmp'.length = n ∧ out'.length = n ∧ (∀ i, 1 ≤ i → i < n → tmp'[i]? =
        some (C (i - 1) / tBet A B C (i - 1))) ∧ ∀ i < n, out'[i]? = some (tG A B C R i)) ∧
    ((∃ i < n, tBet A B C i = 0) →
      forRange 1 n (triForward as bs cs rs) (tmp, tBet A B C 0, out) = none) := by
  let Inv : Nat → List ℚ × ℚ × List ℚ → Prop := fun k s =>
    s.1.length = n ∧ s.2.2.length = n ∧ s.2.1 = tBet A B C (k - 1) ∧
    (∀ i, 1 ≤ i → i < k → s.1[i]? = some (C (i - 1) / tBet A B C (i - 1))) ∧
    (∀ i < k, s.2.2[i]? = some (tG A B C R i)) ∧ ∀ i < k, tBet A B C i ≠ 0
  have init : Inv 1 (tmp, tBet A B C 0, out) := by
    refine ⟨ht, ho, rfl, by intro i h1 h2; omega, ?_, ?_⟩
    · intro i hi; obtain rfl : i = 0 := by omega
      exact hg
    · intro i hi; obtain rfl : i = 0 := by omega
      exact h0
  have step : ∀ (j : Nat) s, 1 ≤ j → j < n → Inv j s →
      ∃ s', triForward as bs cs rs (j : Int) s = (if tBet A B C j = 0 then none else some s') ∧
        (tBet A B C j ≠ 0 → Inv (j + 1) s') := by
    rintro j ⟨t, b, o⟩ h1 h2 ⟨i1, i2, i3, i4, i5, i6⟩
    obtain ⟨k, rfl⟩ : ∃ k, j = k + 1 := ⟨j - 1, by omega⟩
    simp only at i1 i2 i3 i4 i5
    rw [i3]
    refine ⟨_, triForward_step ha hb hc hr h2 i1 i2 (i5 k (by omega)), ?_⟩
    intro hne
    refine ⟨by simpa using i1, by simpa using i2, rfl, ?_, ?_, ?_⟩
    · intro i h3 h4
      simp only
      rw [List.getElem?_set]
      by_cases e : k + 1 = i
      · subst e; rw [if_pos rfl, if_pos (by omega)]; simp
      · rw [if_neg e]; exact i4 i h3 (by omega)
    · intro i h3
      simp only
      rw [List.getElem?_set]
      by_cases e : k + 1 = i
      · subst e; rw [if_pos rfl, if_pos (by omega)]
      · rw [if_neg e]; exact i5 i (by omega)
    · intro i h3
      by_cases e : i = k + 1
      · rw [e]; exact hne
      · exact i6 i (by omega)
  constructor
  · intro hall
    obtain ⟨⟨t, b, o⟩, e, i1, i2, i3, i4, i5, _⟩ := forRange_nat Inv hn (triForward as bs cs rs) _ init (by
      intro j s h1 h2 h3
      obtain ⟨s', e, h⟩ := step j s h1 h2 h3
      rw [if_neg (hall j h2)] at e
      exact ⟨s', e, h (hall j h2)⟩)
    simp only at i1 i2 i3 i4 i5
    rw [Nat.cast_one] at e
    rw [i3] at e
    exact ⟨t, o, e, i1, i2, i4, i5⟩
  · rintro ⟨i, hi, hz⟩
    by_contra hne
    obtain ⟨s', e⟩ := Option.ne_none_iff_exists'.mp hne
    have := forRange_nat_inv Inv hn (triForward as bs cs rs) _ s' init (by
      intro j s s' h1 h2 h3 h4
      obtain ⟨s'', e, h⟩ := step j s h1 h2 h3
      rw [h4] at e
      by_cases hz : tBet A B C j = 0
      · rw [if_pos hz] at e; cases e
      · rw [if_neg hz] at e
        rw [Option.some.inj e]
        exact h hz) (by rw [Nat.cast_one]; exact e)
    exact this.2.2.2.2.2 i hi hz

/-- The backward loop. -/
theorem triBackward_loop {A B C R : Nat → ℚ} {n : Nat} {tmp out : List ℚ} (hn : 1 ≤ n)
    (ho : out.length = n)
    (ht : ∀ i, 1 ≤ i → i < n → tmp[i]? = some (C (i - 1) / tBet A B C (i - 1)))
    (hg : ∀ i < n, out[i]? = some (tG A B C R i)) :
    forDown ((n : Int) - 2) 0 (triBackward tmp) out =
      some ((List.range n).map (fun i => tU A B C R n (n - 1 - i))) := by
  obtain ⟨s, e, h1, h2, h3⟩ := forDown_spec (fun j (s : List ℚ) => s.length = n ∧
      (∀ i : Nat, (i : Int) ≤ j → s[i]? = some (tG A B C R i)) ∧
      ∀ i : Nat, j < i → i < n → s[i]? = some (tU A B C R n (n - 1 - i)))
    (lo := 0) (hi := (n : Int) - 2) (by omega) (triBackward tmp) out
    ⟨ho, fun i hi => hg i (by omega), fun i h1 h2 => by
      obtain rfl : i = n - 1 := by omega
      rw [hg _ h2]; simp [tU]⟩ (by
      intro j s h1 h2 ⟨i1, i2, i3⟩
      obtain ⟨k, rfl⟩ := Int.eq_ofNat_of_zero_le h1
      have r1 : rd s (k : Int) = some (tG A B C R k) := by rw [rd_natCast]; exact i2 k le_rfl
      have r2 : rd s ((k : Int) + 1) = some (tU A B C R n (n - 1 - (k + 1))) := by
        rw [show (k : Int) + 1 = ((k + 1 : Nat) : Int) by push_cast; rfl, rd_natCast]
        exact i3 (k + 1) (by push_cast; omega) (by omega)
      have r3 : rd tmp ((k : Int) + 1) = some (C k / tBet A B C k) := by
        rw [show (k : Int) + 1 = ((k + 1 : Nat) : Int) by push_cast; rfl, rd_natCast,
          ht (k + 1) (by omega) (by omega)]
        simp
      have u : tU A B C R n (n - 1 - k) =
          tG A B C R k - C k / tBet A B C k * tU A B C R n (n - 1 - (k + 1)) := by
        obtain ⟨d, hd⟩ : ∃ d, n - 1 - k = d + 1 := ⟨n - 1 - k - 1, by omega⟩
        rw [hd, tU, show n - 1 - (k + 1) = d by omega, show n - 1 - (d + 1) = k by omega]
      refine ⟨s.set k (tU A B C R n (n - 1 - k)), ?_, by simpa using i1, ?_, ?_⟩
      · unfold triBackward
        simp only [r1, r2, r3, bind, Option.bind_some]
        rw [wr_natCast (by omega), u]
      · intro i hi
        rw [List.getElem?_set, if_neg (by omega)]
        exact i2 i (by omega)
      · intro i hi1 hi2
        rw [List.getElem?_set]
        by_cases e : k = i
        · subst e; rw [if_pos rfl, if_pos (by omega)]
        · rw [if_neg e]; exact i3 i (by omega) hi2)
  rw [e]
  congr 1
  apply List.ext_getElem?
  intro i
  by_cases hi : i < n
  · rw [h3 i (by omega) hi]; simp [hi]
  · rw [List.getElem?_eq_none (by omega), List.getElem?_eq_none (by simpa using hi)]

/-- Complete description of `TriDiagAt` on slices of equal length. -/
theorem triDiagAt_eq {as bs cs rs out : List ℚ} {A B C R : Nat → ℚ} {n : Nat}
    (ha : ∀ i < n, as[i]? = some (A i)) (hb : ∀ i < n, bs[i]? = some (B i))
    (hc : ∀ i < n, cs[i]? = some (C i)) (hr : ∀ i < n, rs[i]? = some (R i))
    (la : as.length = n) (lb : bs.length = n) (lc : cs.length = n) (lr : rs.length = n)
    (lo : out.length = n) :
    triDiagAt as bs cs rs out = if 1 ≤ n ∧ ∀ i < n, tBet A B C i ≠ 0 then
      some ((List.range n).map (fun i => tU A B C R n (n - 1 - i))) else none := by
  unfold triDiagAt
  rw [if_neg (by omega)]
  rcases Nat.eq_zero_or_pos n with h | hn
  · subst h
    rw [if_neg (by omega), rd_none (by right; omega)]
    rfl
  have e0 : rd bs 0 = some (B 0) := rd_fn_nat hb 0 rfl hn
  have e1 : rd rs 0 = some (R 0) := rd_fn_nat hr 0 rfl hn
  have w0 : wr out 0 (R 0 / B 0) = some (out.set 0 (R 0 / B 0)) := wr_natCast (i := 0) (by omega)
  simp only [e0, e1, bind, Option.bind_some]
  by_cases h0 : B 0 = 0
  · rw [if_pos h0, if_neg]
    rintro ⟨_, h⟩
    exact h 0 hn h0
  rw [if_neg h0, w0]
  simp only [Option.bind_some, List.length_set, lo]
  have loop := triForward_loop (tmp := List.replicate as.length 0) (out := out.set 0 (R 0 / B 0))
    ha hb hc hr (by simpa using la) (by simpa using lo)
    (by rw [List.getElem?_set, if_pos rfl, if_pos (by omega)]; rfl) h0 hn
  by_cases hall : ∀ i < n, tBet A B C i ≠ 0
  · rw [if_pos ⟨hn, hall⟩]
    obtain ⟨t, o, e, l1, l2, h1, h2⟩ := loop.1 hall
    rw [tBet] at e
    rw [e]
    simp only [Option.bind_some, l2]
    exact triBackward_loop hn l2 h1 h2
  · rw [if_neg (fun h => hall h.2)]
    push Not at hall
    have e := loop.2 hall
    rw [tBet] at e
    rw [e]
    rfl

theorem tri_solves {A B C R : Nat → ℚ} {n : Nat} (hne : ∀ i < n, tBet A B C i ≠ 0) (i : Nat)
    (hi : i < n) :
    (if i = 0 then 0 else A i * tU A B C R n (n - 1 - (i - 1))) + B i * tU A B C R n (n - 1 - i) +
      (if i + 1 = n then 0 else C i * tU A B C R n (n - 1 - (i + 1))) = R i := by
  have back : ∀ k, k + 1 < n → tU A B C R n (n - 1 - k) =
      tG A B C R k - C k / tBet A B C k * tU A B C R n (n - 1 - (k + 1)) := by
    intro k hk
    obtain ⟨d, hd⟩ : ∃ d, n - 1 - k = d + 1 := ⟨n - 1 - k - 1, by omega⟩
    rw [hd, tU, show n - 1 - (k + 1) = d by omega, show n - 1 - (d + 1) = k by omega]
  -- after elimination the row reads `β u_i + C u_{i+1} = β g_i`
  have fwd : (if i = 0 then 0 else A i * tU A B C R n (n - 1 - (i - 1))) +
      B i * tU A B C R n (n - 1 - i) =
      tBet A B C i * tU A B C R n (n - 1 - i) + (R i - tBet A B C i * tG A B C R i) := by
    cases i with
    | zero =>
      have : tBet A B C 0 ≠ 0 := hne 0 hi
      rw [if_pos rfl, tG]
      simp only [tBet] at this ⊢
      field_simp
      ring
    | succ k =>
      have h1 : tBet A B C (k + 1) ≠ 0 := hne _ hi
      rw [if_neg (by omega), show k + 1 - 1 = k by omega, back k (by omega), tG, mul_div_cancel₀ _ h1]
      rw [tBet]
      ring
  rw [fwd]
  have hb := hne i hi
  by_cases h : i + 1 = n
  · rw [if_pos h, show n - 1 - i = 0 by omega, tU, show n - 1 = i by omega]
    ring
  · rw [if_neg h, back i (by omega)]
    field_simp
    ring

theorem tri_dominant {A B C : Nat → ℚ} {n : Nat}
    (hd : ∀ i < n, (if i = 0 then 0 else |A i|) + (if i + 1 = n then 0 else |C i|) < |B i|) (i : Nat)
    (hi : i < n) : (if i + 1 = n then 0 else |C i|) < |tBet A B C i| := by
  induction i with
  | zero =>
    have := hd 0 hi
    rw [if_pos rfl] at this
    rw [tBet]; linarith
  | succ k ih =>
    have ih := ih (by omega)
    rw [if_neg (by omega)] at ih
    have h := hd (k + 1) hi
    rw [if_neg (by omega)] at h
    rw [tBet]
    have hpos : 0 < |tBet A B C k| := lt_of_le_of_lt (abs_nonneg _) ih
    have h1 : |A (k + 1) * (C k / tBet A B C k)| ≤ |A (k + 1)| := by
      rw [abs_mul, abs_div]
      have : |C k| / |tBet A B C k| ≤ 1 := (div_le_one hpos).mpr ih.le
      nlinarith [abs_nonneg (A (k + 1))]
    have h2 := abs_sub_abs_le_abs_sub (B (k + 1)) (A (k + 1) * (C k / tBet A B C k))
    linarith

theorem tri_lengths {as bs cs rs out us : List ℚ} (h : triDiagAt as bs cs rs out = some us) :
    bs.length = as.length ∧ cs.length = as.length ∧ rs.length = as.length ∧
      out.length = as.length := by
  unfold triDiagAt at h
  by_cases c : as.length ≠ bs.length ∨ as.length ≠ cs.length ∨ as.length ≠ out.length ∨
      as.length ≠ rs.length
  · rw [if_pos c] at h; cases h
  · omega

/-- C18: whenever `TriDiagAt` returns, its output solves the system; for a non-empty, strictly diagonally
dominant system (with slices of one length, which is required in any case) it returns. -/
theorem C18_tridiag (as bs cs rs out : List ℚ) :
    (∀ us, triDiagAt as bs cs rs out = some us → SolvesTri as bs cs rs us) ∧
    (as ≠ [] → as.length = bs.length → as.length = cs.length → as.length = rs.length →
      as.length = out.length → DiagDominant as bs cs → ∃ us, triDiagAt as bs cs rs out = some us) := by
  have fn : ∀ (l : List ℚ), l.length = as.length → ∀ i < as.length, l[i]? = some (l.getD i 0) :=
    fun l hl i hi => rd_getD (by omega)
  constructor
  · intro us h
    obtain ⟨lb, lc, lr, lo⟩ := tri_lengths h
    rw [triDiagAt_eq (fn as rfl) (fn bs lb) (fn cs lc) (fn rs lr) rfl lb lc lr lo] at h
    by_cases c : 1 ≤ as.length ∧
        ∀ i < as.length, tBet (fun i => as.getD i 0) (fun i => bs.getD i 0) (fun i => cs.getD i 0) i ≠ 0
    · rw [if_pos c] at h
      have h := (Option.some.inj h).symm
      have lu : us.length = as.length := by rw [h]; simp
      refine ⟨by omega, ?_⟩
      intro i a b c' r u ea eb ec er eu
      have hi : i < as.length := (List.getElem?_eq_some_iff.mp ea).1
      rw [fn as rfl i hi] at ea
      rw [fn bs lb i hi] at eb
      rw [fn cs lc i hi] at ec
      rw [fn rs lr i hi] at er
      rw [fn us lu i hi] at eu
      have gu : ∀ k < as.length, us.getD k 0 = tU (fun i => as.getD i 0) (fun i => bs.getD i 0)
          (fun i => cs.getD i 0) (fun i => rs.getD i 0) as.length (as.length - 1 - k) := by
        intro k hk
        rw [h]; simp [hk]
      have key := tri_solves (A := fun i => as.getD i 0) (B := fun i => bs.getD i 0)
        (C := fun i => cs.getD i 0) (R := fun i => rs.getD i 0) c.2 i hi
      rw [← gu i hi] at key
      rw [← Option.some.inj ea, ← Option.some.inj eb, ← Option.some.inj ec, ← Option.some.inj er,
        ← Option.some.inj eu, lu]
      by_cases h1 : i = 0 <;> by_cases h2 : i + 1 = as.length
      · rw [if_pos h1, if_pos h2] at key ⊢; exact key
      · rw [if_pos h1, if_neg h2] at key ⊢
        rw [gu (i + 1) (by omega)]; exact key
      · rw [if_neg h1, if_pos h2] at key ⊢
        rw [gu (i - 1) (by omega)]; exact key
      · rw [if_neg h1, if_neg h2] at key ⊢
        rw [gu (i - 1) (by omega), gu (i + 1) (by omega)]; exact key
    · rw [if_neg c] at h; cases h
  · intro hne lb lc lr lo hd
    rw [triDiagAt_eq (fn as rfl) (fn bs lb.symm) (fn cs lc.symm) (fn rs lr.symm) rfl lb.symm lc.symm
      lr.symm lo.symm]
    have : 1 ≤ as.length := List.length_pos_iff.mpr hne
    rw [if_pos]
    · exact ⟨_, rfl⟩
    · refine ⟨this, ?_⟩
      intro i hi hz
      have := tri_dominant (A := fun i => as.getD i 0) (B := fun i => bs.getD i 0)
        (C := fun i => cs.getD i 0) (n := as.length) (by
          intro i hi
          have := hd i _ _ _ (fn as rfl i hi) (fn bs lb.symm i hi) (fn cs lc.symm i hi)
          rwa [← lb] at this) i hi
      rw [hz, abs_zero] at this
      split at this
      · exact lt_irrefl _ this
      · exact absurd this (not_lt.mpr (abs_nonneg _))

example : DiagDominant [0, 1, -1] [4, 4, 4] [1, 2, 0] := by
  intro i a b c h1 h2 h3
  rcases i with _ | _ | _ | i
  all_goals simp at h1 h2 h3
  all_goals subst h1 h2 h3; norm_num

example : triDiagAt [0, 1, -1] [4, 4, 4] [1, 2, 0] [6, 15, 10] [7, 7, 7] = some [1, 2, 3] := by
  decide +kernel

/-- C18: the result does not depend on what `out` held. -/
theorem C18_tridiag_out (as bs cs rs out out' : List ℚ) (h : out.length = out'.length) :
    triDiagAt as bs cs rs out = triDiagAt as bs cs rs out' := by
  by_cases c : as.length ≠ bs.length ∨ as.length ≠ cs.length ∨ as.length ≠ out.length ∨
      as.length ≠ rs.length
  · unfold triDiagAt
    rw [if_pos c, if_pos (by omega)]
  · have fn : ∀ (l : List ℚ), l.length = as.length → ∀ i < as.length, l[i]? = some (l.getD i 0) :=
      fun l hl i hi => rd_getD (by omega)
    rw [triDiagAt_eq (fn as rfl) (fn bs (by omega)) (fn cs (by omega)) (fn rs (by omega)) rfl (by omega)
      (by omega) (by omega) (by omega),
      triDiagAt_eq (fn as rfl) (fn bs (by omega)) (fn cs (by omega)) (fn rs (by omega)) rfl (by omega)
      (by omega) (by omega) (by omega)]

example : triDiagAt [0, 1] [4, 4] [1, 0] [6, 9] [0, 0] = some [1, 2] ∧
    triDiagAt [0, 1] [4, 4] [1, 0] [6, 9] [5, -8] = some [1, 2] := by
  decide +kernel

end Verif.Interp
