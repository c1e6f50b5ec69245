import Verif.Py.RebinModel
import Verif.Py.Rsp
import Mathlib.Algebra.BigOperators.Group.Finset.Basic
import Mathlib.Algebra.BigOperators.Intervals
import Mathlib.Data.List.GetD
import Mathlib.Tactic.Linarith
import Mathlib.Tactic.FieldSimp
import Mathlib.Tactic.Ring

/-!
# C160: conversion of a curve to other bins

Specification: `Rebinned`.
-/

set_option autoImplicit false

namespace Verif.Py

open Verif.Go

/-- `V` are averages of a curve with integral `I`, known between `x0` and `xl`, over the parts of the bins with edges `E`
where the curve is known. -/
structure Rebinned (I : ℚ → ℚ → ℚ) (x0 xl : ℚ) (bins E V : List ℚ) : Prop where
  len : E.length = V.length + 1
  pos : V ≠ []
  sorted : E.Pairwise (· < ·)
  low : E.getD 0 0 ≤ x0
  high : xl ≤ E.getD V.length 0
  origin : E = [x0, xl] ∨ E <:+: bins
  avg : ∀ k, k < V.length → max (E.getD k 0) x0 < min (E.getD (k + 1) 0) xl ∧
    V.getD k 0 = I (max (E.getD k 0) x0) (min (E.getD (k + 1) 0) xl) /
      (min (E.getD (k + 1) 0) xl - max (E.getD k 0) x0)

theorem lt_searchsorted (edges : List ℚ) (he : edges.Pairwise (· < ·)) (x : ℚ) : ∀ i, i < edges.length →
    (edges.getD i 0 < x ↔ i < searchsorted edges x) := by
  unfold searchsorted
  induction edges with
  | nil => intro i h; simp at h
  | cons e edges ih =>
    intro i hi
    obtain ⟨h1, h2⟩ := List.pairwise_cons.mp he
    by_cases hex : e < x
    · rw [List.filter_cons_of_pos (by simpa using hex)]
      cases i with
      | zero => simpa using hex
      | succ i =>
        have := ih h2 i (by simpa using hi)
        simpa using this
    · have hnil : edges.filter (· < x) = [] := by
        rw [List.filter_eq_nil_iff]
        intro a ha
        have := h1 a ha
        simp only [decide_eq_true_eq, not_lt]
        push Not at hex
        linarith
      rw [List.filter_cons_of_neg (by simpa using hex), hnil]
      simp only [List.length_nil, Nat.not_lt_zero, iff_false, not_lt]
      push Not at hex
      cases i with
      | zero => simpa using hex
      | succ i =>
        have := h1 (edges.getD i 0) (by
          rw [List.getD_eq_getElem _ _ (by simpa using hi)]; exact List.getElem_mem _)
        simp only [List.getD_cons_succ]
        linarith

theorem searchsorted_le (edges : List ℚ) (x : ℚ) : searchsorted edges x ≤ edges.length := List.length_filter_le _ _

theorem getD_lt_getD {l : List ℚ} (h : l.Pairwise (· < ·)) {i j : Nat} (hij : i < j) (hj : j < l.length) :
    l.getD i 0 < l.getD j 0 := by
  rw [List.getD_eq_getElem _ _ (by omega), List.getD_eq_getElem _ _ hj]
  exact List.pairwise_iff_getElem.mp h i j (by omega) hj hij

theorem getD_le_getD {l : List ℚ} (h : l.Pairwise (· < ·)) {i j : Nat} (hij : i ≤ j) (hj : j < l.length) :
    l.getD i 0 ≤ l.getD j 0 := by
  rcases Nat.lt_or_eq_of_le hij with h' | rfl
  · exact (getD_lt_getD h h' hj).le
  · exact le_rfl

theorem slice_getD (l : List ℚ) (a b : Nat) (i : Nat) (h : a + i < b) : (slice l a b).getD i 0 = l.getD (a + i) 0 := by
  unfold slice
  simp only [Int.toNat_natCast]
  rw [List.getD_eq_getElem?_getD, List.getElem?_drop, List.getElem?_take, if_pos h, List.getD_eq_getElem?_getD]

theorem slice_length (l : List ℚ) (a b : Nat) (h : b ≤ l.length) : (slice l a b).length = b - a := by
  unfold slice
  simp
  omega

theorem slice_infix (l : List ℚ) (a b : Int) : slice l a b <:+: l :=
  (List.drop_suffix _ _).isInfix.trans (List.take_prefix _ _).isInfix

/-- The part of `convert` after the choice of the edges. -/
theorem bins_spec (trim : Bool) (I : ℚ → ℚ → ℚ) (bins : List ℚ) (he : bins.Pairwise (· < ·)) (x0 xl : ℚ) (lo hi : Nat)
    (h1 : 1 ≤ lo) (h2 : lo < hi) (h3 : hi < bins.length) (a1 : bins.getD (lo - 1) 0 ≤ x0) (a2 : x0 ≤ bins.getD lo 0)
    (a3 : bins.getD (hi - 1) 0 < xl) (a4 : xl ≤ bins.getD hi 0) (E : List ℚ)
    (hE : E = slice bins ((lo : Int) - 1) ((hi : Int) + 1)) :
    ∃ first mid last, firstBin I E x0 = some first ∧ midBins I E = some mid ∧ lastBin I E xl = some last ∧
      last ≠ [] ∧ (first = [] ↔ x0 = bins.getD lo 0) ∧ (trim = true ∨ x0 ≠ bins.getD lo 0 →
      Rebinned I x0 xl bins (if trim ∧ first = [] then E.drop 1 else E) (first ++ mid ++ last)) := by
  obtain ⟨m, rfl⟩ : ∃ m, lo = m + 1 := ⟨lo - 1, by omega⟩
  obtain ⟨L, rfl⟩ : ∃ L, hi = m + 2 + L := ⟨hi - m - 2, by omega⟩
  simp only [Nat.add_sub_cancel] at a1
  rw [show m + 2 + L - 1 = m + (L + 1) by omega] at a3
  rw [show m + 2 + L = m + (L + 2) by omega] at a4 h3
  have hE' : E = slice bins (m : Nat) ((m + L + 3 : Nat) : Int) := by
    rw [hE]; congr 1 <;> push_cast <;> ring
  have lenE : E.length = L + 3 := by rw [hE', slice_length _ _ _ (by omega)]; omega
  have eE : ∀ i, i < L + 3 → E.getD i 0 = bins.getD (m + i) 0 := by
    intro i hi; rw [hE', slice_getD _ _ _ _ (by omega)]
  have sE : E.Pairwise (· < ·) := he.sublist (hE' ▸ (slice_infix bins _ _).sublist)
  have iE : E <:+: bins := hE' ▸ slice_infix bins _ _
  have r1 : rd E 1 = some (bins.getD (m + 1) 0) := by
    rw [show (1 : Int) = ((1 : Nat) : Int) by rfl, rd_of_lt (by omega), ← eE 1 (by omega),
      List.getD_eq_getElem _ _ (by omega)]
  have r2 : rd E ((E.length : Int) - 2) = some (bins.getD (m + (L + 1)) 0) := by
    rw [lenE, show ((L + 3 : Nat) : Int) - 2 = ((L + 1 : Nat) : Int) by push_cast; ring, rd_of_lt (by omega),
      ← eE (L + 1) (by omega), List.getD_eq_getElem _ _ (by omega)]
  generalize hmid : (List.range L).map (fun i => I (E.getD (i + 1) 0) (E.getD (i + 2) 0) /
    (E.getD (i + 2) 0 - E.getD (i + 1) 0)) = mid
  have lmid : mid.length = L := by rw [← hmid]; simp
  have emid : ∀ i, i < L → mid.getD i 0 = I (E.getD (i + 1) 0) (E.getD (i + 2) 0) /
      (E.getD (i + 2) 0 - E.getD (i + 1) 0) := by
    intro i hi; rw [← hmid, List.getD_eq_getElem _ _ (by simp [hi])]; simp
  have c : ∀ i j, i < j → j ≤ L + 2 → bins.getD (m + i) 0 < bins.getD (m + j) 0 :=
    fun i j h1 h2 => getD_lt_getD he (by omega) (by omega)
  have c' : ∀ i j, i ≤ j → j ≤ L + 2 → bins.getD (m + i) 0 ≤ bins.getD (m + j) 0 :=
    fun i j h1 h2 => getD_le_getD he (by omega) (by omega)
  -- the average over an inner bin and over the last one
  have inner : ∀ i, i < L → max (E.getD (i + 1) 0) x0 = E.getD (i + 1) 0 ∧ min (E.getD (i + 2) 0) xl = E.getD (i + 2) 0 ∧
      E.getD (i + 1) 0 < E.getD (i + 2) 0 := by
    intro i hi
    rw [eE _ (by omega), eE _ (by omega)]
    refine ⟨max_eq_left (a2.trans (c' 1 (i + 1) (by omega) (by omega))),
      min_eq_left ((c' (i + 2) (L + 1) (by omega) (by omega)).trans a3.le), c _ _ (by omega) (by omega)⟩
  have outer : max (E.getD (L + 1) 0) x0 = E.getD (L + 1) 0 ∧ min (E.getD (L + 2) 0) xl = xl ∧ E.getD (L + 1) 0 < xl := by
    rw [eE _ (by omega), eE _ (by omega)]
    exact ⟨max_eq_left (a2.trans (c' 1 (L + 1) (by omega) (by omega))), min_eq_right a4, a3⟩
  have mE : midBins I E = some mid := by
    unfold midBins
    rw [if_neg (by omega), lenE]
    exact congrArg some hmid
  have lE : lastBin I E xl = some [I (E.getD (L + 1) 0) xl / (xl - E.getD (L + 1) 0)] := by
    unfold lastBin
    rw [r2, eE _ (by omega)]
    simp only [Option.bind_eq_bind, Option.bind_some]
    rw [if_neg a3.ne']
  by_cases h0 : x0 = bins.getD (m + 1) 0
  · refine ⟨[], mid, _, ?_, mE, lE, by simp, by simp [h0], ?_⟩
    · unfold firstBin
      rw [r1]
      simp only [Option.bind_eq_bind, Option.bind_some]
      rw [if_pos h0]
    · intro ht
      have ht : trim = true := ht.resolve_right (fun h => h h0)
      rw [if_pos ⟨ht, rfl⟩]
      have dE : ∀ i, (E.drop 1).getD i 0 = E.getD (i + 1) 0 := by
        intro i; rw [List.getD_eq_getElem?_getD, List.getElem?_drop, List.getD_eq_getElem?_getD, Nat.add_comm]
      refine ⟨by simp [lenE, lmid], by simp, sE.sublist (List.drop_sublist _ _), ?_, ?_,
        Or.inr ((List.drop_suffix _ _).isInfix.trans iE), ?_⟩
      · rw [dE, eE _ (by omega), h0]
      · simp only [List.nil_append, List.length_append, List.length_singleton, lmid]
        rw [dE, eE _ (by omega)]
        exact a4
      · intro k hk
        simp only [List.nil_append, List.length_append, List.length_singleton, lmid] at hk
        rw [dE, dE]
        by_cases hkL : k < L
        · obtain ⟨i1, i2, i3⟩ := inner k hkL
          rw [i1, i2]
          refine ⟨i3, ?_⟩
          rw [List.nil_append, List.getD_append _ _ _ _ (by omega), emid k hkL]
        · have : k = L := by omega
          subst this
          obtain ⟨i1, i2, i3⟩ := outer
          rw [i1, i2]
          refine ⟨i3, ?_⟩
          rw [List.nil_append, List.getD_append_right _ _ _ _ (by omega), lmid]
          simp
  · refine ⟨[I x0 (E.getD 1 0) / (E.getD 1 0 - x0)], mid, _, ?_, mE, lE, by simp, iff_of_false (by simp) h0, ?_⟩
    · unfold firstBin
      rw [r1, eE _ (by omega)]
      simp only [Option.bind_eq_bind, Option.bind_some]
      rw [if_neg h0]
    · intro _
      rw [if_neg (by simp)]
      refine ⟨by simp [lenE, lmid], by simp, sE, ?_, ?_, Or.inr iE, ?_⟩
      · rw [eE _ (by omega)]; exact a1
      · simp only [List.length_append, List.length_singleton, lmid]
        rw [show 1 + L + 1 = L + 2 by omega, eE _ (by omega)]
        exact a4
      · intro k hk
        simp only [List.length_append, List.length_singleton, lmid] at hk
        rcases k with _ | k
        · have e0 : max (E.getD 0 0) x0 = x0 := by rw [eE _ (by omega)]; exact max_eq_right a1
          have e1 : min (E.getD 1 0) xl = E.getD 1 0 := by
            rw [eE _ (by omega)]
            exact min_eq_left ((c' 1 (L + 1) (by omega) (by omega)).trans a3.le)
          simp only [Nat.zero_add]
          rw [e0, e1]
          refine ⟨?_, by simp⟩
          rw [eE _ (by omega)]
          exact lt_of_le_of_ne a2 h0
        · rw [List.append_assoc, List.singleton_append, List.getD_cons_succ]
          by_cases hkL : k < L
          · obtain ⟨i1, i2, i3⟩ := inner k hkL
            rw [show k + 1 + 1 = k + 2 by omega, i1, i2]
            refine ⟨i3, ?_⟩
            rw [List.getD_append _ _ _ _ (by omega), emid k hkL]
          · have : k = L := by omega
            subst this
            obtain ⟨i1, i2, i3⟩ := outer
            rw [show k + 1 + 1 = k + 2 by omega, i1, i2]
            refine ⟨i3, ?_⟩
            rw [List.getD_append_right _ _ _ _ (by omega), lmid]
            simp

/-- The points of the curve inside the bins. -/
def inside (edges xs ys : List ℚ) : List (ℚ × ℚ) :=
  (xs.zip ys).filter fun p => decide (edges.headD 0 ≤ p.1) && decide (p.1 ≤ edges.getLastD 0)

/-- C160: a curve with at least four points inside the bins is converted to averages over the bins, or over the parts of
the first and last bin where the curve is known. `trim = true` is `BinConverter`; without trimming (the older scripts)
this holds when the curve does not begin exactly on an inner edge. -/
theorem C160_convert (trim : Bool) (edges : List ℚ) (he : edges.Pairwise (· < ·)) (h2 : 2 ≤ edges.length)
    (spline : List ℚ → List ℚ → ℚ → ℚ → ℚ) (xs ys : List ℚ) (hl : xs.length = ys.length) (hx : xs.Pairwise (· < ·)) :
    ((inside edges xs ys).length ≤ 3 → convert trim edges spline xs ys = some none) ∧
    (3 < (inside edges xs ys).length → ∃ x0 xl E V, convert trim edges spline xs ys = some (some (E, V)) ∧
      ((inside edges xs ys).map Prod.fst).head? = some x0 ∧ ((inside edges xs ys).map Prod.fst).getLast? = some xl ∧
      (trim = true ∨ x0 ∉ edges.tail →
        Rebinned (spline ((inside edges xs ys).map Prod.fst) ((inside edges xs ys).map Prod.snd)) x0 xl edges E V)) := by
  have mem : ∀ p ∈ inside edges xs ys, edges.headD 0 ≤ p.1 ∧ p.1 ≤ edges.getLastD 0 := by
    intro p hp
    simpa using (List.mem_filter.mp hp).2
  have pw : ((inside edges xs ys).map Prod.fst).Pairwise (· < ·) := by
    refine hx.sublist ?_
    have h1 : ((inside edges xs ys).map Prod.fst).Sublist ((xs.zip ys).map Prod.fst) :=
      (List.filter_sublist (l := xs.zip ys)).map _
    rwa [List.map_fst_zip (by omega)] at h1
  have unf : convert trim edges spline xs ys = (if (inside edges xs ys).length ≤ 3 then some none else
      convert trim edges spline xs ys) := by
    split
    · rename_i h
      unfold convert
      rw [if_neg (by simpa using hl)]
      simp only
      rw [if_pos (by simpa [inside] using h)]
    · rfl
  refine ⟨fun h => by rw [unf, if_pos h], fun h => ?_⟩
  unfold convert
  rw [if_neg (by simpa using hl)]
  simp only
  rw [show (xs.zip ys).filter (fun p => decide (edges.headD 0 ≤ p.1) && decide (p.1 ≤ edges.getLastD 0)) =
    inside edges xs ys from rfl]
  rw [if_neg (by simpa using h)]
  have mem' : ∀ x ∈ (inside edges xs ys).map Prod.fst, edges.headD 0 ≤ x ∧ x ≤ edges.getLastD 0 := by
    intro x hx
    obtain ⟨p, hp, rfl⟩ := List.mem_map.mp hx
    exact mem p hp
  have h' : 3 < ((inside edges xs ys).map Prod.fst).length := by simpa using h
  generalize hI : spline ((inside edges xs ys).map Prod.fst) ((inside edges xs ys).map Prod.snd) = I
  revert mem' h' pw
  generalize (inside edges xs ys).map Prod.fst = X
  intro pw mem' h'
  have r0 : rd X 0 = some (X.getD 0 0) := by
    rw [show (0 : Int) = ((0 : Nat) : Int) by rfl, rd_of_lt (by omega), List.getD_eq_getElem _ _ (by omega)]
  have r1 : rd X ((X.length : Int) - 1) = some (X.getD (X.length - 1) 0) := by
    rw [show (X.length : Int) - 1 = ((X.length - 1 : Nat) : Int) by omega, rd_of_lt (by omega),
      List.getD_eq_getElem _ _ (by omega)]
  rw [r0, r1]
  simp only [Option.bind_eq_bind, Option.bind_some]
  have hd : X.head? = some (X.getD 0 0) := by
    rw [List.head?_eq_getElem?, List.getD_eq_getElem?_getD, List.getElem?_eq_getElem (by omega)]; rfl
  have hg : X.getLast? = some (X.getD (X.length - 1) 0) := by
    rw [List.getLast?_eq_getElem?, List.getD_eq_getElem?_getD, List.getElem?_eq_getElem (by omega)]; rfl
  have m0 := mem' (X.getD 0 0) (by rw [List.getD_eq_getElem _ _ (by omega)]; exact List.getElem_mem _)
  have ml := mem' (X.getD (X.length - 1) 0) (by rw [List.getD_eq_getElem _ _ (by omega)]; exact List.getElem_mem _)
  have hlt : X.getD 0 0 < X.getD (X.length - 1) 0 := getD_lt_getD pw (by omega) (by omega)
  rw [hd, hg]
  revert m0 ml hlt
  generalize X.getD 0 0 = x0
  generalize X.getD (X.length - 1) 0 = xl
  intro m0 ml hlt
  have e0 : edges.headD 0 = edges.getD 0 0 := by cases edges <;> simp
  have el : edges.getLastD 0 = edges.getD (edges.length - 1) 0 := by
    rw [List.getLastD_eq_getLast?, List.getLast?_eq_getElem?, List.getD_eq_getElem?_getD]
  rw [e0, el] at m0 ml
  have S := lt_searchsorted edges he
  -- the edges around the first and the last point
  have hiH : searchsorted edges xl < edges.length := by
    by_contra hc
    have := (S xl (edges.length - 1) (by omega)).mpr (by have := searchsorted_le edges xl; omega)
    linarith [ml.2]
  have hi1 : 1 ≤ searchsorted edges xl := (S xl 0 (by omega)).mp (by linarith [m0.1])
  have b3 : edges.getD (searchsorted edges xl - 1) 0 < xl := (S xl _ (by omega)).mpr (by omega)
  have b4 : xl ≤ edges.getD (searchsorted edges xl) 0 := by
    by_contra hc
    push Not at hc
    have := (S xl _ hiH).mp hc
    omega
  obtain ⟨lo, hlo⟩ : ∃ lo, (if searchsorted edges x0 = 0 then 1 else searchsorted edges x0) = lo := ⟨_, rfl⟩
  have low : 1 ≤ lo ∧ lo ≤ searchsorted edges xl ∧ edges.getD (lo - 1) 0 ≤ x0 ∧ x0 ≤ edges.getD lo 0 ∧
      (x0 = edges.getD lo 0 → x0 ∈ edges.tail) := by
    have tl : ∀ k, 1 ≤ k → k < edges.length → edges.getD k 0 ∈ edges.tail := by
      intro k h1 h2
      cases edges with
      | nil => simp at h2
      | cons e edges =>
        obtain ⟨k, rfl⟩ : ∃ k', k = k' + 1 := ⟨k - 1, by omega⟩
        simp only [List.getD_cons_succ, List.tail_cons]
        rw [List.getD_eq_getElem _ _ (by simpa using h2)]
        exact List.getElem_mem _
    by_cases hz : searchsorted edges x0 = 0
    · rw [if_pos hz] at hlo
      subst hlo
      have : ¬ edges.getD 0 0 < x0 := fun hc => by have := (S x0 0 (by omega)).mp hc; omega
      have eq : x0 = edges.getD 0 0 := le_antisymm (not_lt.mp this) m0.1
      have := getD_lt_getD he (show 0 < 1 by omega) (by omega)
      exact ⟨le_rfl, hi1, eq.ge, by rw [eq]; exact this.le, fun h => by rw [h]; exact tl 1 le_rfl (by omega)⟩
    · rw [if_neg hz] at hlo
      subst hlo
      have c1 : edges.getD (searchsorted edges x0 - 1) 0 < x0 :=
        (S x0 _ (by have := searchsorted_le edges x0; omega)).mpr (by omega)
      have hle : searchsorted edges x0 ≤ searchsorted edges xl := by
        have := (S xl (searchsorted edges x0 - 1) (by have := searchsorted_le edges x0; omega)).mp (c1.trans hlt)
        omega
      refine ⟨by omega, hle, c1.le, ?_, fun h => by rw [h]; exact tl _ (by omega) (by omega)⟩
      by_contra hc
      push Not at hc
      have := (S x0 _ (by omega)).mp hc
      omega
  rw [hlo]
  obtain ⟨l1, l2, l3, l4, l5⟩ := low
  split
  · rename_i heq
    refine ⟨x0, xl, [x0, xl], _, rfl, rfl, rfl, fun _ => ⟨rfl, by simp, by simpa using hlt, by simp, by simp, Or.inl rfl, ?_⟩⟩
    intro k hk
    simp only [List.length_singleton, Nat.lt_one_iff] at hk
    subst hk
    simpa using hlt
  · rename_i hne
    obtain ⟨first, mid, last, f1, f2, f3, f4, f5, f6⟩ := bins_spec trim I edges he x0 xl lo (searchsorted edges xl) l1
      (by omega) hiH l3 l4 b3 b4 _ rfl
    rw [f1, f2, f3]
    simp only [Option.bind_some]
    refine ⟨x0, xl, _, _, rfl, rfl, rfl, fun ht => ?_⟩
    rw [show (if trim = true ∧ last = [] then
      List.take ((if trim = true ∧ first = [] then List.drop 1 (slice edges ((lo : Int) - 1) ((searchsorted edges xl : Int) + 1))
        else slice edges ((lo : Int) - 1) ((searchsorted edges xl : Int) + 1)).length - 1)
        (if trim = true ∧ first = [] then List.drop 1 (slice edges ((lo : Int) - 1) ((searchsorted edges xl : Int) + 1))
        else slice edges ((lo : Int) - 1) ((searchsorted edges xl : Int) + 1)) else
      (if trim = true ∧ first = [] then List.drop 1 (slice edges ((lo : Int) - 1) ((searchsorted edges xl : Int) + 1))
        else slice edges ((lo : Int) - 1) ((searchsorted edges xl : Int) + 1))) =
      (if trim = true ∧ first = [] then List.drop 1 (slice edges ((lo : Int) - 1) ((searchsorted edges xl : Int) + 1))
        else slice edges ((lo : Int) - 1) ((searchsorted edges xl : Int) + 1)) from if_neg (fun h => f4 h.2)]
    refine f6 ?_
    rcases ht with h | h
    · exact Or.inl h
    · exact Or.inr (fun hc => h (l5 hc))

/-- C160: the averages keep the integral: added up with the widths they were taken over they give the integral over the
whole of the curve. -/
theorem C160_integral (I : ℚ → ℚ → ℚ) (hI : ∀ a b c, I a b + I b c = I a c) (x0 xl : ℚ) (bins E V : List ℚ)
    (h : Rebinned I x0 xl bins E V) :
    ∑ k ∈ Finset.range V.length, V.getD k 0 * (min (E.getD (k + 1) 0) xl - max (E.getD k 0) x0) = I x0 xl := by
  have key : ∀ n, n < V.length → ∑ k ∈ Finset.range (n + 1),
      V.getD k 0 * (min (E.getD (k + 1) 0) xl - max (E.getD k 0) x0) = I x0 (min (E.getD (n + 1) 0) xl) := by
    intro n
    induction n with
    | zero =>
      intro hn
      obtain ⟨h1, h2⟩ := h.avg 0 hn
      rw [Finset.sum_range_one, h2, max_eq_right h.low, div_mul_cancel₀]
      rw [max_eq_right h.low] at h1
      linarith
    | succ n ih =>
      intro hn
      obtain ⟨h1, h2⟩ := h.avg (n + 1) hn
      obtain ⟨h3, _⟩ := h.avg n (by omega)
      rw [Finset.sum_range_succ, ih (by omega), h2, div_mul_cancel₀ _ (by linarith)]
      have e1 : E.getD (n + 1) 0 < xl := lt_of_le_of_lt (le_max_left _ x0) (lt_of_lt_of_le h1 (min_le_right _ _))
      have e2 : x0 < E.getD (n + 1) 0 := lt_of_le_of_lt (le_max_right _ _) (lt_of_lt_of_le h3 (min_le_left _ _))
      rw [min_eq_left e1.le, max_eq_left e2.le, hI]
  have hpos : 0 < V.length := List.length_pos_iff.mpr h.pos
  have := key (V.length - 1) (by omega)
  rw [show V.length - 1 + 1 = V.length by omega, min_eq_right h.high] at this
  exact this

/-- Bins of the class, `BinConverter(low, high, bins)`: ascending, with `bins + 1` edges. -/
theorem binEdges_sorted (low high : ℚ) (bins : Nat) (h : low < high) (hb : 0 < bins) :
    (binEdges low high bins).Pairwise (· < ·) ∧ (binEdges low high bins).length = bins + 1 := by
  refine ⟨?_, by simp [binEdges]⟩
  unfold binEdges
  rw [List.pairwise_map]
  refine List.pairwise_lt_range.imp ?_
  intro a b hab
  have hb' : (0 : ℚ) < bins := by exact_mod_cast hb
  have hd : 0 < (high - low) / bins := div_pos (by linarith) hb'
  have hab' : (a : ℚ) < b := by exact_mod_cast hab
  nlinarith

/-- A curve `y = x`, whose integral is known. -/
example : convert true (binEdges 0 4 4) (fun _ _ a b => (b * b - a * a) / 2) [1/2, 1, 2, 5/2, 7] [1/2, 1, 2, 5/2, 7] =
    some (some ([0, 1, 2, 3], [3/4, 3/2, 9/4])) := by decide +kernel

example : convert true (binEdges 0 4 4) (fun _ _ a b => (b * b - a * a) / 2) [1, 3/2, 2, 5/2] [1, 3/2, 2, 5/2] =
    some (some ([1, 2, 3], [3/2, 9/4])) := by decide +kernel

/-- C160 fails for `SplinedBinConverter` of the older scripts when the first point is on an inner edge: the bins returned
are one more than the values. -/
theorem C160_untrimmed_counterexample :
    convert false (binEdges 0 4 4) (fun _ _ a b => (b * b - a * a) / 2) [1, 3/2, 2, 5/2] [1, 3/2, 2, 5/2] =
      some (some ([0, 1, 2, 3], [3/2, 9/4])) := by decide +kernel

end Verif.Py
