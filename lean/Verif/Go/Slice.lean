import Mathlib.Data.List.Basic
import Mathlib.Tactic.Ring
import Mathlib.Tactic.Linarith

/-!
# Run-time model: slices and counted loops

Go semantics (Go specification, "Index expressions", "For statements"): indexing a slice outside
`0 ≤ i < len` panics.  `none` stands for a panic.
-/

namespace Verif.Go

variable {α β σ : Type*}

/-- `xs[i]` as a Go expression: panics (`none`) when `i` is negative or `≥ len(xs)`. -/
def rd (xs : List α) (i : Int) : Option α :=
  if i < 0 then none else xs[i.toNat]?

/-- `xs[i] = v` as a Go statement: panics (`none`) when `i` is negative or `≥ len(xs)`. -/
def wr (xs : List α) (i : Int) (v : α) : Option (List α) :=
  if 0 ≤ i ∧ i.toNat < xs.length then some (xs.set i.toNat v) else none

/-- `n` iterations of a loop whose counter starts at `i` and is incremented by one. -/
def iterFrom (body : Int → σ → Option σ) : Nat → Int → σ → Option σ
  | 0, _, s => some s
  | n + 1, i, s => (body i s).bind (iterFrom body n (i + 1))

/-- `for i := lo; i < hi; i++ { body }`. -/
def forRange (lo hi : Int) (body : Int → σ → Option σ) (s : σ) : Option σ :=
  iterFrom body (hi - lo).toNat lo s

/-- `n` iterations of a loop whose counter starts at `i` and is decremented by one. -/
def iterDown (body : Int → σ → Option σ) : Nat → Int → σ → Option σ
  | 0, _, s => some s
  | n + 1, i, s => (body i s).bind (iterDown body n (i - 1))

/-- `for i := hi; i >= lo; i-- { body }`. -/
def forDown (hi lo : Int) (body : Int → σ → Option σ) (s : σ) : Option σ :=
  iterDown body (hi - lo + 1).toNat hi s

theorem rd_some_iff {xs : List α} {i : Int} {v : α} :
    rd xs i = some v ↔ 0 ≤ i ∧ xs[i.toNat]? = some v := by
  unfold rd; split <;> simp <;> omega

theorem rd_natCast (xs : List α) (i : Nat) : rd xs (i : Int) = xs[i]? := by
  unfold rd; split
  · omega
  · simp

theorem rd_of_lt {xs : List α} {i : Nat} (h : i < xs.length) : rd xs (i : Int) = some xs[i] := by
  rw [rd_natCast]; simp [h]

theorem rd_isSome {xs : List α} {i : Int} (h0 : 0 ≤ i) (h1 : i < xs.length) :
    ∃ v, rd xs i = some v := by
  obtain ⟨k, rfl⟩ := Int.eq_ofNat_of_zero_le h0
  exact ⟨xs[k]'(by exact_mod_cast h1), rd_of_lt (by exact_mod_cast h1)⟩

theorem rd_some_lt {xs : List α} {i : Int} {v : α} (h : rd xs i = some v) :
    0 ≤ i ∧ i < xs.length := by
  rw [rd_some_iff] at h
  refine ⟨h.1, ?_⟩
  have := (List.getElem?_eq_some_iff.mp h.2).1
  omega

theorem wr_natCast {xs : List α} {i : Nat} {v : α} (h : i < xs.length) :
    wr xs (i : Int) v = some (xs.set i v) := by
  unfold wr; simp [h]

theorem wr_of_lt {xs : List α} {i : Int} {v : α} (h0 : 0 ≤ i) (h : i < xs.length) :
    wr xs i v = some (xs.set i.toNat v) := by
  unfold wr; rw [if_pos]; omega

theorem wr_some {xs ys : List α} {i : Int} {v : α} (h : wr xs i v = some ys) :
    0 ≤ i ∧ i < xs.length ∧ ys = xs.set i.toNat v := by
  unfold wr at h; split at h
  · simp at h; refine ⟨by omega, by omega, h.symm⟩
  · simp at h

/-- Reading back after a write. -/
theorem rd_set (xs : List α) (i : Int) (k : Nat) (v : α) (hk : k < xs.length) :
    rd (xs.set k v) i = if i = k then some v else rd xs i := by
  unfold rd
  by_cases h : i < 0
  · simp [h]; omega
  · simp only [h, if_false, List.getElem?_set]
    by_cases h2 : i = k
    · subst h2; simp [hk]
    · have : k ≠ i.toNat := by omega
      simp [h2, this]

/-- Total correctness rule for counted loops. -/
theorem iterFrom_spec (Inv : Int → σ → Prop) (body : Int → σ → Option σ) :
    ∀ (n : Nat) (i : Int) (s : σ), Inv i s →
      (∀ j s, i ≤ j → j < i + n → Inv j s → ∃ s', body j s = some s' ∧ Inv (j + 1) s') →
      ∃ s', iterFrom body n i s = some s' ∧ Inv (i + n) s' := by
  intro n
  induction n with
  | zero => intro i s h _; exact ⟨s, rfl, by simpa using h⟩
  | succ n ih =>
    intro i s h hb
    obtain ⟨s1, e1, h1⟩ := hb i s (le_refl _) (by push_cast; omega) h
    obtain ⟨s2, e2, h2⟩ := ih (i + 1) s1 h1 (by
      intro j s hj hj2 hI
      exact hb j s (by omega) (by push_cast; omega) hI)
    refine ⟨s2, ?_, ?_⟩
    · simp [iterFrom, e1, e2]
    · have : i + ((n + 1 : Nat) : Int) = i + 1 + n := by push_cast; omega
      rw [this]; exact h2

theorem forRange_spec (Inv : Int → σ → Prop) {lo hi : Int} (hle : lo ≤ hi)
    (body : Int → σ → Option σ) (s : σ) (h0 : Inv lo s)
    (hb : ∀ j s, lo ≤ j → j < hi → Inv j s → ∃ s', body j s = some s' ∧ Inv (j + 1) s') :
    ∃ s', forRange lo hi body s = some s' ∧ Inv hi s' := by
  have := iterFrom_spec Inv body (hi - lo).toNat lo s h0 (by
    intro j s hj hj2; exact hb j s hj (by omega))
  have e : lo + ((hi - lo).toNat : Int) = hi := by omega
  rw [e] at this
  exact this

/-- A loop whose upper bound does not exceed its lower bound does nothing. -/
theorem forRange_empty {lo hi : Int} (h : hi ≤ lo) (body : Int → σ → Option σ) (s : σ) :
    forRange lo hi body s = some s := by
  unfold forRange
  have : (hi - lo).toNat = 0 := by omega
  rw [this]; rfl

/-- Peeling the first iteration. -/
theorem forRange_step {lo hi : Int} (h : lo < hi) (body : Int → σ → Option σ) (s : σ) :
    forRange lo hi body s = (body lo s).bind (forRange (lo + 1) hi body) := by
  unfold forRange
  have : (hi - lo).toNat = (hi - (lo + 1)).toNat + 1 := by omega
  rw [this]; rfl

theorem iterFrom_add (body : Int → σ → Option σ) :
    ∀ (n m : Nat) (i : Int) (s : σ),
      iterFrom body (n + m) i s = (iterFrom body n i s).bind (iterFrom body m (i + n)) := by
  intro n
  induction n with
  | zero => intro m i s; simp [iterFrom]
  | succ n ih =>
    intro m i s
    have : n + 1 + m = (n + m) + 1 := by omega
    rw [this]
    simp only [iterFrom]
    cases h : body i s with
    | none => simp
    | some s1 =>
      simp only [Option.bind_some]
      rw [ih]
      congr 1
      push_cast
      rw [show i + 1 + (n : Int) = i + (n + 1) by ring]

/-- Splitting a loop in two. -/
theorem forRange_split {lo mid hi : Int} (h1 : lo ≤ mid) (h2 : mid ≤ hi)
    (body : Int → σ → Option σ) (s : σ) :
    forRange lo hi body s = (forRange lo mid body s).bind (forRange mid hi body) := by
  unfold forRange
  have : (hi - lo).toNat = (mid - lo).toNat + (hi - mid).toNat := by omega
  rw [this, iterFrom_add]
  congr 2
  omega

/-- Peeling the last iteration. -/
theorem forRange_last {lo hi : Int} (h : lo ≤ hi) (body : Int → σ → Option σ) (s : σ) :
    forRange lo (hi + 1) body s = (forRange lo hi body s).bind (body hi) := by
  rw [forRange_split h (by omega : hi ≤ hi + 1)]
  congr 1
  funext t
  rw [forRange_step (by omega)]
  cases body hi t with
  | none => rfl
  | some x => simp [forRange_empty]

/-- Partial correctness rule: if the loop finishes, the invariant holds at the end. -/
theorem iterFrom_inv (Inv : Int → σ → Prop) (body : Int → σ → Option σ) :
    ∀ (n : Nat) (i : Int) (s s' : σ), Inv i s →
      (∀ j s s', i ≤ j → j < i + n → Inv j s → body j s = some s' → Inv (j + 1) s') →
      iterFrom body n i s = some s' → Inv (i + n) s' := by
  intro n
  induction n with
  | zero => intro i s s' h _ e; simp [iterFrom] at e; subst e; simpa using h
  | succ n ih =>
    intro i s s' h hb e
    simp only [iterFrom, Option.bind_eq_some_iff] at e
    obtain ⟨s1, e1, e2⟩ := e
    have h1 := hb i s s1 (le_refl _) (by push_cast; omega) h e1
    have := ih (i + 1) s1 s' h1 (by
      intro j s s' hj hj2; exact hb j s s' (by omega) (by push_cast; omega)) e2
    have e : i + ((n + 1 : Nat) : Int) = i + 1 + n := by push_cast; omega
    rw [e]; exact this

theorem forRange_inv (Inv : Int → σ → Prop) {lo hi : Int} (hle : lo ≤ hi)
    (body : Int → σ → Option σ) (s s' : σ) (h0 : Inv lo s)
    (hb : ∀ j s s', lo ≤ j → j < hi → Inv j s → body j s = some s' → Inv (j + 1) s')
    (e : forRange lo hi body s = some s') : Inv hi s' := by
  have := iterFrom_inv Inv body (hi - lo).toNat lo s s' h0 (by
    intro j s s' hj hj2; exact hb j s s' hj (by omega)) e
  have e : lo + ((hi - lo).toNat : Int) = hi := by omega
  rwa [e] at this

/-- Total correctness rule for counted-down loops; `Inv i` holds before the iteration with
counter `i`. -/
theorem iterDown_spec (Inv : Int → σ → Prop) (body : Int → σ → Option σ) :
    ∀ (n : Nat) (i : Int) (s : σ), Inv i s →
      (∀ j s, i - n < j → j ≤ i → Inv j s → ∃ s', body j s = some s' ∧ Inv (j - 1) s') →
      ∃ s', iterDown body n i s = some s' ∧ Inv (i - n) s' := by
  intro n
  induction n with
  | zero => intro i s h _; exact ⟨s, rfl, by simpa using h⟩
  | succ n ih =>
    intro i s h hb
    obtain ⟨s1, e1, h1⟩ := hb i s (by push_cast; omega) (le_refl _) h
    obtain ⟨s2, e2, h2⟩ := ih (i - 1) s1 h1 (by
      intro j s hj hj2 hI
      exact hb j s (by push_cast; omega) (by omega) hI)
    refine ⟨s2, ?_, ?_⟩
    · simp [iterDown, e1, e2]
    · have : i - ((n + 1 : Nat) : Int) = i - 1 - n := by push_cast; omega
      rw [this]; exact h2

theorem forDown_spec (Inv : Int → σ → Prop) {lo hi : Int} (hle : lo ≤ hi + 1)
    (body : Int → σ → Option σ) (s : σ) (h0 : Inv hi s)
    (hb : ∀ j s, lo ≤ j → j ≤ hi → Inv j s → ∃ s', body j s = some s' ∧ Inv (j - 1) s') :
    ∃ s', forDown hi lo body s = some s' ∧ Inv (lo - 1) s' := by
  have := iterDown_spec Inv body (hi - lo + 1).toNat hi s h0 (by
    intro j s hj hj2; exact hb j s (by omega) hj2)
  have e : hi - ((hi - lo + 1).toNat : Int) = lo - 1 := by omega
  rw [e] at this
  exact this

end Verif.Go
