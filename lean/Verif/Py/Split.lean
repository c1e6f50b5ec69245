import Verif.Py.SplitModel
import Mathlib.Data.List.Basic
import Mathlib.Tactic.Ring

/-!
# C158: a profile is split at its NaN entries

Specification: `Runs nan l gs` says that `gs` are the maximal blocks of entries of `l` that are not NaN, in order.
-/

set_option autoImplicit false

namespace Verif.Py

open Verif.Go

/-- `gs` are the maximal blocks of `l` without NaN entries. -/
inductive Runs {α : Type} (nan : α → Bool) : List α → List (List α) → Prop
  | nil : Runs nan [] []
  | skip {a : α} {l : List α} {gs : List (List α)} : nan a = true → Runs nan l gs → Runs nan (a :: l) gs
  | run {g l : List α} {gs : List (List α)} : g ≠ [] → (∀ a ∈ g, nan a = false) → (∀ a ∈ l.head?, nan a = true) →
      Runs nan l gs → Runs nan (g ++ l) (g :: gs)

variable {α : Type} {nan : α → Bool}

theorem Runs.append_nan {l : List α} {gs : List (List α)} (h : Runs nan l gs) {a : α} (ha : nan a = true) :
    Runs nan (l ++ [a]) gs := by
  induction h with
  | nil => exact Runs.skip ha Runs.nil
  | skip hb _ ih => exact Runs.skip hb ih
  | @run g l gs h1 h2 h3 _ ih =>
    rw [List.append_assoc]
    refine Runs.run h1 h2 ?_ ih
    cases l with
    | nil => simpa using ha
    | cons b l => simpa using h3

theorem Runs.append_run {l : List α} {gs : List (List α)} (h : Runs nan l gs) {g : List α} (hg : g ≠ [])
    (hn : ∀ a ∈ g, nan a = false) (hl : ∀ a ∈ l.getLast?, nan a = true) : Runs nan (l ++ g) (gs ++ [g]) := by
  induction h with
  | nil => simpa using Runs.run hg hn (l := []) (by simp) Runs.nil
  | @skip a l gs hb _ ih =>
    refine Runs.skip hb (ih ?_)
    intro b hb'
    cases l with
    | nil => simp at hb'
    | cons c l => exact hl b (by simpa [List.getLast?_cons_cons] using hb')
  | @run g' l gs h1 h2 h3 _ ih =>
    rw [List.append_assoc]
    cases l with
    | nil =>
      exfalso
      have hmem := List.getLast_mem h1
      have := hl (g'.getLast h1) (by simp [List.getLast?_eq_some_getLast h1])
      rw [h2 _ hmem] at this
      exact absurd this (by simp)
    | cons b l =>
      refine Runs.run h1 h2 (by simpa using h3) (ih ?_)
      intro c hc
      exact hl c (by simpa [List.getLast?_append] using hc)

/-- The blocks are determined by the list. -/
theorem Runs.unique {l : List α} {gs gs' : List (List α)} (h : Runs nan l gs) (h' : Runs nan l gs') : gs = gs' := by
  induction h generalizing gs' with
  | nil =>
    generalize he : ([] : List α) = l at h'
    cases h' with
    | nil => rfl
    | skip => simp at he
    | run hg => simp at he; exact absurd he.1 hg
  | @skip a l gs ha _ ih =>
    generalize he : a :: l = l' at h'
    cases h' with
    | nil => simp at he
    | skip _ h' => simp at he; rw [he.2] at ih; exact ih h'
    | @run g _ _ hg hn _ _ =>
      exfalso
      cases g with
      | nil => exact hg rfl
      | cons b g =>
        simp only [List.cons_append, List.cons.injEq] at he
        have := hn b (by simp)
        rw [← he.1, ha] at this
        simp at this
  | @run g l gs hg hn hl _ ih =>
    generalize he : g ++ l = l' at h'
    cases h' with
    | nil => simp at he; exact absurd he.1 hg
    | @skip b _ _ hb _ =>
      exfalso
      cases g with
      | nil => exact hg rfl
      | cons c g =>
        simp only [List.cons_append, List.cons.injEq] at he
        have := hn c (by simp)
        rw [he.1, hb] at this
        simp at this
    | @run g2 l2 gs2 hg2 hn2 hl2 h2 =>
      have tw : ∀ (g l : List α), (∀ a ∈ g, nan a = false) → (∀ a ∈ l.head?, nan a = true) →
          (g ++ l).takeWhile (fun a => !nan a) = g ∧ (g ++ l).dropWhile (fun a => !nan a) = l := by
        intro g l hn hl
        induction g with
        | nil =>
          cases l with
          | nil => simp
          | cons a l => have := hl a (by simp); simp [this]
        | cons a g ih =>
          have ha := hn a (by simp)
          have := ih (fun b hb => hn b (by simp [hb]))
          simp [ha, this.1, this.2]
      obtain ⟨a1, b1⟩ := tw g l hn hl
      obtain ⟨a2, b2⟩ := tw g2 l2 hn2 hl2
      rw [he] at a1 b1
      have e1 : g = g2 := a1.symm.trans a2
      have e2 : l = l2 := b1.symm.trans b2
      subst e2
      rw [e1, ih h2]

theorem slice_zip (xs ys : List F) (lo hi : Int) : (slice xs lo hi).zip (slice ys lo hi) = slice (xs.zip ys) lo hi := by
  unfold slice
  rw [List.zip_eq_zipWith, List.zip_eq_zipWith, ← List.drop_zipWith, ← List.take_zipWith]

theorem take_slice {α : Type} (l : List α) {s i : Nat} (h : s ≤ i) : l.take i = l.take s ++ slice l s i := by
  unfold slice
  simp only [Int.toNat_natCast]
  have := List.take_append_drop s (l.take i)
  rw [List.take_take, min_eq_left h] at this
  exact this.symm

/-- What holds before turn `i`. -/
structure SplitInv (nan : F → F → Bool) (xs ys : List F) (i : Nat) (s : Split) : Prop where
  len : ∀ g ∈ s.groups, g.1.length = g.2.length
  nans : s.prev = true → Runs (fun p : F × F => nan p.1 p.2) ((xs.zip ys).take i) (s.groups.map fun g => g.1.zip g.2)
  vals : s.prev = false → ∃ k : Nat, s.start = k ∧ (k < i ∨ (k = 0 ∧ i = 0)) ∧
    Runs (fun p : F × F => nan p.1 p.2) ((xs.zip ys).take k) (s.groups.map fun g => g.1.zip g.2) ∧
    (∀ p ∈ ((xs.zip ys).take k).getLast?, nan p.1 p.2 = true) ∧ ∀ p ∈ slice (xs.zip ys) k i, nan p.1 p.2 = false
  last : s.prev = true → ∀ p ∈ ((xs.zip ys).take i).getLast?, nan p.1 p.2 = true

theorem splitTurn_inv (nan : F → F → Bool) (xs ys : List F) (hl : xs.length = ys.length) (i : Nat) (hi : i < xs.length)
    (s : Split) (h : SplitInv nan xs ys i s) :
    ∃ s', splitTurn nan xs ys i s = some s' ∧ SplitInv nan xs ys (i + 1) s' := by
  have hz : i < (xs.zip ys).length := by simp [hl]; omega
  have ez : (xs.zip ys).take (i + 1) = (xs.zip ys).take i ++ [(xs[i], ys[i]'(hl ▸ hi))] := by
    rw [List.take_succ_eq_append_getElem hz]; simp
  have lz : ((xs.zip ys).take (i + 1)).getLast? = some (xs[i], ys[i]'(hl ▸ hi)) := by rw [ez]; simp
  have sl : ∀ k : Nat, k ≤ i → slice (xs.zip ys) k ((i + 1 : Nat) : Int) =
      slice (xs.zip ys) k (i : Nat) ++ [(xs[i], ys[i]'(hl ▸ hi))] := by
    intro k hk
    unfold slice
    simp only [Int.toNat_natCast]
    rw [ez, List.drop_append_of_le_length (by simp; omega)]
  have slen : ∀ (l : List F), l.length = xs.length → ∀ k : Nat, (slice l k (i : Nat)).length = i - k := by
    intro l h k
    unfold slice
    simp
    omega
  unfold splitTurn
  rw [rd_of_lt hi, rd_of_lt (hl ▸ hi : i < ys.length)]
  simp only [Option.bind_eq_bind, Option.bind_some]
  cases hn : nan xs[i] (ys[i]'(hl ▸ hi)) with
  | true =>
    simp only [if_true]
    by_cases hp : s.prev = true
    · rw [if_neg (by simp [hp])]
      refine ⟨_, rfl, ⟨h.len, fun _ => ?_, by simp, fun _ => ?_⟩⟩
      · rw [ez]; exact (h.nans hp).append_nan hn
      · intro p hp; rw [lz] at hp; simp at hp; subst hp; exact hn
    · rw [Bool.not_eq_true] at hp
      obtain ⟨k, ek, hk, hr, hlast, hv⟩ := h.vals hp
      by_cases h0 : (i : Int) ≠ s.start
      · rw [if_pos ⟨hp, h0⟩]
        refine ⟨_, rfl, ⟨?_, fun _ => ?_, by simp, fun _ => ?_⟩⟩
        · intro g hg
          simp only [List.mem_append, List.mem_singleton] at hg
          rcases hg with hg | rfl
          · exact h.len g hg
          · simp only
            rw [ek, slen xs rfl, slen ys hl.symm]
        · have hk' : k < i := by omega
          rw [ez]
          refine Runs.append_nan (nan := fun p : F × F => nan p.1 p.2) ?_ hn
          rw [List.map_append, List.map_singleton, slice_zip, ek, take_slice _ hk'.le]
          refine hr.append_run ?_ hv hlast
          intro e
          have := congrArg List.length e
          unfold slice at this
          simp at this
          omega
        · intro p hp; rw [lz] at hp; simp at hp; subst hp; exact hn
      · rw [if_neg (fun c => h0 c.2)]
        refine ⟨_, rfl, ⟨h.len, fun _ => ?_, by simp, fun _ => ?_⟩⟩
        · push Not at h0
          have : k = i := by omega
          subst this
          rw [ez]; exact hr.append_nan hn
        · intro p hp; rw [lz] at hp; simp at hp; subst hp; exact hn
  | false =>
    simp only [Bool.false_eq_true, if_false]
    by_cases hp : s.prev = true
    · rw [if_pos hp]
      refine ⟨_, rfl, ⟨h.len, by simp, fun _ => ⟨i, rfl, by omega, h.nans hp, h.last hp, ?_⟩, by simp⟩⟩
      intro p hp
      rw [sl i le_rfl] at hp
      have : slice (xs.zip ys) i (i : Nat) = [] := by
        unfold slice; simp
      rw [this] at hp
      simp at hp
      subst hp
      exact hn
    · rw [if_neg hp]
      rw [Bool.not_eq_true] at hp
      obtain ⟨k, ek, hk, hr, hlast, hv⟩ := h.vals hp
      refine ⟨_, rfl, ⟨h.len, by simp, fun _ => ⟨k, ek, by omega, hr, hlast, ?_⟩, by simp⟩⟩
      intro p hp
      rw [sl k (by omega)] at hp
      simp only [List.mem_append, List.mem_singleton] at hp
      rcases hp with hp | rfl
      · exact hv p hp
      · exact hn

/-- C158: for arrays of equal length with at least one entry `nan_split` ends without an error, and the groups it returns
are the maximal blocks of entries in which neither array is NaN, in order, and no others (`Runs.unique`). -/
theorem C158_split (nan : F → F → Bool) (xs ys : List F) (hl : xs.length = ys.length) (h0 : xs ≠ []) :
    ∃ gs, nanSplitWith nan xs ys = some gs ∧ (∀ g ∈ gs, g.1.length = g.2.length) ∧
      Runs (fun p : F × F => nan p.1 p.2) (xs.zip ys) (gs.map fun g => g.1.zip g.2) := by
  obtain ⟨s, e, hs⟩ := forRange_nat (Inv := fun i s => SplitInv nan xs ys i s) (Nat.zero_le xs.length)
    (splitTurn nan xs ys) ⟨[], 0, false⟩
    ⟨by simp, by simp, fun _ => ⟨0, rfl, Or.inr ⟨rfl, rfl⟩, by simpa using Runs.nil, by simp, by simp [slice]⟩, by simp⟩
    (fun i s _ hi h => splitTurn_inv nan xs ys hl i hi s h)
  simp only [Nat.cast_zero] at e
  unfold nanSplitWith
  rw [e]
  simp only [Option.bind_eq_bind, Option.bind_some]
  have hlen : 0 < xs.length := List.length_pos_iff.mpr h0
  have full : (xs.zip ys).take xs.length = xs.zip ys := by
    rw [List.take_of_length_le]; simp
  by_cases hp : s.prev = true
  · rw [if_pos hp]
    have := hs.nans hp
    rw [full] at this
    exact ⟨_, rfl, by simpa using hs.len, by simpa using this⟩
  · rw [if_neg hp]
    rw [Bool.not_eq_true] at hp
    obtain ⟨k, ek, hk, hr, hlast, hv⟩ := hs.vals hp
    refine ⟨_, rfl, ?_, ?_⟩
    · intro g hg
      simp only [List.mem_append, List.mem_singleton] at hg
      rcases hg with hg | rfl
      · exact hs.len g hg
      · unfold slice; simp [hl]
    · rw [List.map_append, List.map_singleton, ← hl, slice_zip, ek]
      have := take_slice (xs.zip ys) (show k ≤ xs.length by omega)
      rw [full] at this
      conv => arg 2; rw [this]
      refine hr.append_run ?_ ?_ hlast
      · intro e
        have := congrArg List.length e
        unfold slice at this
        simp [hl] at this
        omega
      · intro p hp
        exact hv p hp

/-- The two conditions of the scripts. -/
example : nanSplit [some 1, some 2, none, some 4, some 5, some 6] [none, some 20, some 30, some 40, none, some 60] =
    some [([some 2], [some 20]), ([some 4], [some 40]), ([some 6], [some 60])] := by decide +kernel

example : nanSplitWith nanSecond [some 1, some 2, none, some 4] [none, some 20, some 30, some 40] =
    some [([some 2, none, some 4], [some 20, some 30, some 40])] := by decide +kernel

/-- C158 for the function of `profile.py`: its groups are the maximal blocks of positions where both arrays hold numbers. -/
theorem C158_nan_split (xs ys : List F) (hl : xs.length = ys.length) (h0 : xs ≠ []) :
    ∃ gs, nanSplit xs ys = some gs ∧ (∀ g ∈ gs, g.1.length = g.2.length) ∧
      Runs (fun p : F × F => decide (p.1 = none ∨ p.2 = none)) (xs.zip ys) (gs.map fun g => g.1.zip g.2) := by
  obtain ⟨gs, e, h1, h2⟩ := C158_split nanEither xs ys hl h0
  refine ⟨gs, e, h1, ?_⟩
  have : (fun p : F × F => nanEither p.1 p.2) = fun p : F × F => decide (p.1 = none ∨ p.2 = none) := by
    funext p
    rcases p with ⟨_ | _, _ | _⟩ <;> simp [nanEither]
  rw [← this]; exact h2

/-- C158 for the function of the two older scripts: only the second array is looked at. -/
theorem C158_second (xs ys : List F) (hl : xs.length = ys.length) (h0 : xs ≠ []) :
    ∃ gs, nanSplitWith nanSecond xs ys = some gs ∧ (∀ g ∈ gs, g.1.length = g.2.length) ∧
      Runs (fun p : F × F => decide (p.2 = none)) (xs.zip ys) (gs.map fun g => g.1.zip g.2) := by
  obtain ⟨gs, e, h1, h2⟩ := C158_split nanSecond xs ys hl h0
  refine ⟨gs, e, h1, ?_⟩
  have : (fun p : F × F => nanSecond p.1 p.2) = fun p : F × F => decide (p.2 = none) := by
    funext p
    rcases p with ⟨_ | _, _ | _⟩ <;> simp [nanSecond]
  rw [← this]; exact h2

example : nanSplit [some 1, none, some 3] [some 5, some 6, some 7] = some [([some 1], [some 5]), ([some 3], [some 7])] := by
  decide +kernel

/-- Arrays without entries give one group without entries, and a second array that is too short is an error. -/
theorem C158_split_edges (nan : F → F → Bool) :
    nanSplitWith nan [] [] = some [([], [])] ∧
      ∀ xs ys : List F, ys.length < xs.length → nanSplitWith nan xs ys = none := by
  refine ⟨rfl, fun xs ys h => ?_⟩
  unfold nanSplitWith
  rw [forRange_split (mid := ys.length) (by omega) (by omega)]
  cases forRange 0 (ys.length : Int) (splitTurn nan xs ys) ⟨[], 0, false⟩ with
  | none => rfl
  | some s =>
    simp only [Option.bind_eq_bind, Option.bind_some]
    rw [forRange_step (by omega)]
    unfold splitTurn
    have : rd ys (ys.length : Int) = none := by simp [rd]
    rw [this]
    rfl

example : nanSplit [some 1, some 2] [none] = none := by decide +kernel

end Verif.Py
