import Verif.Mat.Model
import Mathlib.Data.Matrix.Mul
import Mathlib.Algebra.BigOperators.Fin

/-! Products and transposes: properties C25, C26, C27. -/

set_option autoImplicit false

namespace Verif.Mat

open Verif.Go

/-! Specification: a slice holds a matrix row by row. -/

/-- The slice `m` holds the `h` by `w` matrix `A`, row by row. -/
def Holds {h w : Nat} (m : List ℚ) (A : _root_.Matrix (Fin h) (Fin w) ℚ) : Prop :=
  m.length = h * w ∧ ∀ (i : Fin h) (j : Fin w), m[i.val * w + j.val]? = some (A i j)

/-! Representation by functions of natural numbers. -/

/-- As `Holds`, with indices that are natural numbers. -/
def Rep (m : List ℚ) (h w : Nat) (M : Nat → Nat → ℚ) : Prop :=
  m.length = h * w ∧ ∀ i j, i < h → j < w → m[i * w + j]? = some (M i j)

theorem idx_lt {h w i j : Nat} (hi : i < h) (hj : j < w) : i * w + j < h * w :=
  calc i * w + j < i * w + w := by omega
    _ = (i + 1) * w := by ring
    _ ≤ h * w := Nat.mul_le_mul_right _ hi

theorem idx_inj {w i j i' j' : Nat} (hj : j < w) (hj' : j' < w) (h : i * w + j = i' * w + j') :
    i = i' ∧ j = j' := by
  have w0 : 0 < w := by omega
  have e1 : (i * w + j) / w = i := by
    rw [Nat.add_comm, Nat.add_mul_div_right _ _ w0, Nat.div_eq_of_lt hj, Nat.zero_add]
  have e2 : (i' * w + j') / w = i' := by
    rw [Nat.add_comm, Nat.add_mul_div_right _ _ w0, Nat.div_eq_of_lt hj', Nat.zero_add]
  rw [h, e2] at e1
  subst e1
  exact ⟨rfl, by omega⟩

theorem idx_exists {h w p : Nat} (hp : p < h * w) : ∃ i j, i < h ∧ j < w ∧ p = i * w + j := by
  have w0 : 0 < w := Nat.pos_of_ne_zero (by rintro rfl; simp at hp)
  refine ⟨p / w, p % w, (Nat.div_lt_iff_lt_mul w0).mpr hp, Nat.mod_lt _ w0, ?_⟩
  have := Nat.div_add_mod p w
  rw [Nat.mul_comm] at this
  exact this.symm

theorem Rep.rd {m : List ℚ} {h w : Nat} {M : Nat → Nat → ℚ} (r : Rep m h w M) {i j : Nat} (hi : i < h)
    (hj : j < w) : rd m ((i : Int) * w + j) = some (M i j) := by
  rw [show (i : Int) * w + j = ((i * w + j : Nat) : Int) by push_cast; ring, rd_natCast]
  exact r.2 i j hi hj

theorem Rep.wr {m : List ℚ} {h w : Nat} {M : Nat → Nat → ℚ} (r : Rep m h w M) {i j : Nat} (hi : i < h)
    (hj : j < w) (v : ℚ) : ∃ m', wr m ((i : Int) * w + j) v = some m' ∧
      Rep m' h w (fun a b => if a = i ∧ b = j then v else M a b) := by
  have hlt := idx_lt hi hj
  refine ⟨m.set (i * w + j) v, ?_, ?_, ?_⟩
  · rw [show (i : Int) * w + j = ((i * w + j : Nat) : Int) by push_cast; ring, wr_natCast (by rw [r.1]; exact hlt)]
  · simpa using r.1
  · intro a b ha hb
    rw [List.getElem?_set]
    by_cases c : i * w + j = a * w + b
    · obtain ⟨rfl, rfl⟩ := idx_inj hj hb c
      rw [if_pos rfl, if_pos (by rw [r.1]; exact hlt)]
      simp
    · rw [if_neg c, r.2 a b ha hb]
      simp only
      rw [if_neg]
      rintro ⟨rfl, rfl⟩
      exact c rfl

theorem Rep.congr {m : List ℚ} {h w : Nat} {M M' : Nat → Nat → ℚ} (r : Rep m h w M)
    (e : ∀ i j, i < h → j < w → M i j = M' i j) : Rep m h w M' :=
  ⟨r.1, fun i j hi hj => by rw [r.2 i j hi hj, e i j hi hj]⟩

/-- The function behind a slice. -/
def fnOf (m : List ℚ) (w : Nat) (i j : Nat) : ℚ := m.getD (i * w + j) 0

theorem rep_fnOf {m : List ℚ} {h w : Nat} (hl : m.length = h * w) : Rep m h w (fnOf m w) := by
  refine ⟨hl, ?_⟩
  intro i j hi hj
  have := idx_lt hi hj
  unfold fnOf
  rw [List.getD_eq_getElem?_getD, List.getElem?_eq_getElem (by omega)]
  rfl

theorem Holds.eq_fnOf {h w : Nat} {m : List ℚ} {A : _root_.Matrix (Fin h) (Fin w) ℚ} (H : Holds m A)
    (i : Fin h) (j : Fin w) : A i j = fnOf m w i j := by
  unfold fnOf
  rw [List.getD_eq_getElem?_getD, H.2 i j]
  rfl

theorem Holds.rep {h w : Nat} {m : List ℚ} {A : _root_.Matrix (Fin h) (Fin w) ℚ} (H : Holds m A) :
    Rep m h w (fnOf m w) := rep_fnOf H.1

theorem Rep.holds {h w : Nat} {m : List ℚ} {M : Nat → Nat → ℚ} (r : Rep m h w M) :
    Holds m (_root_.Matrix.of (fun (i : Fin h) (j : Fin w) => M i j)) :=
  ⟨r.1, fun i j => r.2 i j i.2 j.2⟩

theorem newMatrix_eq {vals : List ℚ} {w h : Nat} (hw : 0 < w) (hh : 0 < h) (hl : vals.length = h * w) :
    newMatrix vals w h = some ⟨vals, w, h⟩ := by
  unfold newMatrix
  rw [if_neg (by omega), if_neg (by omega), if_neg]
  · simp
  · rw [hl]; push_cast; simp [mul_comm]

/-! ### MultAt -/

theorem rd_getD' {xs : List ℚ} {i : Nat} (h : i < xs.length) : xs[i]? = some (xs.getD i 0) := by
  rw [List.getD_eq_getElem?_getD, List.getElem?_eq_getElem h]; rfl

/-- The innermost loop adds one sum to one entry. -/
theorem multAt_inner {m1 m2 : List ℚ} {h w w2 : Nat} {A B : Nat → Nat → ℚ} (r1 : Rep m1 h w A)
    (r2 : Rep m2 w w2 B) {i j : Nat} (hi : i < h) (hj : j < w2) (vals : List ℚ)
    (hp : i * w + j < vals.length) :
    forRange 0 w (fun k vals => do
          let o ← rd vals ((i : Int) * w + j)
          let a ← rd m1 ((i : Int) * w + k)
          let b ← rd m2 (k * w2 + j)
          wr vals ((i : Int) * w + j) (o + a * b)) vals =
      some (vals.set (i * w + j) (vals.getD (i * w + j) 0 + ∑ k ∈ Finset.range w, A i k * B k j)) := by
  obtain ⟨v', e, h'⟩ := forRange_nat (fun k v => v = vals.set (i * w + j)
      (vals.getD (i * w + j) 0 + ∑ k ∈ Finset.range k, A i k * B k j)) (lo := 0) (hi := w) (Nat.zero_le _)
    (fun k vals => do
          let o ← rd vals ((i : Int) * w + j)
          let a ← rd m1 ((i : Int) * w + k)
          let b ← rd m2 (k * w2 + j)
          wr vals ((i : Int) * w + j) (o + a * b)) vals (by
      rw [Finset.sum_range_zero, add_zero]
      apply List.ext_getElem?
      intro p
      rw [List.getElem?_set]
      split
      · next c => subst c; exact rd_getD' hp
      · rfl) (by
      intro k v _ hk hv
      have ei : (i : Int) * w + j = ((i * w + j : Nat) : Int) := by push_cast; ring
      have a1 : rd v ((i : Int) * w + j) = some (vals.getD (i * w + j) 0 + ∑ k ∈ Finset.range k, A i k * B k j) := by
        rw [ei, rd_natCast, hv, List.getElem?_set, if_pos rfl, if_pos hp]
      have a2 := r1.rd hi hk
      have a3 := r2.rd hk hj
      refine ⟨_, ?_, rfl⟩
      simp only [a1, a2, a3, bind, Option.bind_some]
      rw [ei, wr_natCast (by rw [hv]; simpa using hp), hv, List.set_set, Finset.sum_range_succ, add_assoc])
  rw [Nat.cast_zero] at e
  rw [e, h']

theorem getD_set {xs : List ℚ} {p q : Nat} {v : ℚ} (h : p < xs.length) :
    (xs.set p v).getD q 0 = if p = q then v else xs.getD q 0 := by
  rw [List.getD_eq_getElem?_getD, List.getElem?_set, List.getD_eq_getElem?_getD]
  split
  · rfl
  · rfl

/-- What the three loops compute, whatever the shape of the output. -/
theorem multAt_loops {m1 m2 : List ℚ} {h w w2 : Nat} {A B : Nat → Nat → ℚ} (r1 : Rep m1 h w A)
    (r2 : Rep m2 w w2 B) (N : Nat) (hN : ∀ i j, i < h → j < w2 → i * w + j < N) :
    ∃ vals, forRange 0 h (fun i vals =>
      forRange 0 w2 (fun j vals =>
        forRange 0 w (fun k vals => do
          let o ← rd vals (i * w + j)
          let a ← rd m1 (i * w + k)
          let b ← rd m2 (k * w2 + j)
          wr vals (i * w + j) (o + a * b)) vals) vals) (List.replicate N 0) = some vals ∧
      vals.length = N ∧ ∀ p, vals.getD p 0 = ∑ i ∈ Finset.range h, ∑ j ∈ Finset.range w2,
        if i * w + j = p then ∑ k ∈ Finset.range w, A i k * B k j else 0 := by
  have := forRange_nat (fun i vals => vals.length = N ∧ ∀ p, vals.getD p 0 =
      ∑ i ∈ Finset.range i, ∑ j ∈ Finset.range w2,
        if i * w + j = p then ∑ k ∈ Finset.range w, A i k * B k j else 0) (lo := 0) (hi := h) (Nat.zero_le _)
    (fun i vals =>
      forRange 0 w2 (fun j vals =>
        forRange 0 w (fun k vals => do
          let o ← rd vals (i * w + j)
          let a ← rd m1 (i * w + k)
          let b ← rd m2 (k * w2 + j)
          wr vals (i * w + j) (o + a * b)) vals) vals) (List.replicate N 0) (by
      refine ⟨by simp, ?_⟩
      intro p
      rw [Finset.sum_range_zero, List.getD_eq_getElem?_getD, List.getElem?_replicate]
      split <;> rfl) (by
      intro i vals _ hi ⟨hl, hv⟩
      obtain ⟨v', e, hl', hv'⟩ := forRange_nat (fun j v => v.length = N ∧ ∀ p, v.getD p 0 = vals.getD p 0 +
          ∑ j ∈ Finset.range j, if i * w + j = p then ∑ k ∈ Finset.range w, A i k * B k j else 0)
        (lo := 0) (hi := w2) (Nat.zero_le _)
        (fun j vals =>
        forRange 0 w (fun k vals => do
          let o ← rd vals ((i : Int) * w + j)
          let a ← rd m1 ((i : Int) * w + k)
          let b ← rd m2 (k * w2 + j)
          wr vals ((i : Int) * w + j) (o + a * b)) vals) vals ⟨hl, by intro p; simp⟩ (by
          intro j v _ hj ⟨hl', hv'⟩
          have hp := hN i j hi hj
          refine ⟨_, multAt_inner r1 r2 hi hj v (by omega), by simpa using hl', ?_⟩
          intro p
          rw [getD_set (by omega), Finset.sum_range_succ]
          split
          · next c => rw [← c, hv']; ring
          · rw [hv', add_zero])
      rw [Nat.cast_zero] at e
      refine ⟨v', e, hl', ?_⟩
      intro p
      rw [hv', hv, Finset.sum_range_succ])
  rw [Nat.cast_zero] at this
  exact this

/-- C25 when the right factor is square, for every number of rows of the left factor: `Mult` returns the
matrix product.
Missing: right factors that are not square, for which the property is false (`C25_mult_counterexample`,
`C25_mult_panics`). -/
theorem C25_mult_partial {h w : Nat} (hh : 0 < h) (hw : 0 < w) (a b : List ℚ)
    (A : _root_.Matrix (Fin h) (Fin w) ℚ) (B : _root_.Matrix (Fin w) (Fin w) ℚ) (ha : Holds a A)
    (hb : Holds b B) : ∃ c, Matrix.mult ⟨a, w, h⟩ ⟨b, w, w⟩ = some ⟨c, w, h⟩ ∧ Holds c (A * B) := by
  obtain ⟨vals, e, hl, hv⟩ := multAt_loops ha.rep hb.rep (h * w) (fun i j hi hj => idx_lt hi hj)
  refine ⟨vals, ?_, hl, ?_⟩
  · unfold Matrix.mult
    simp only
    rw [newMatrix_eq hw hh (by simp)]
    simp only [bind, Option.bind_some, Matrix.multAt, List.length_replicate, ne_eq, not_true_eq_false,
      if_false]
    simp only [bind] at e
    rw [e]
    rfl
  · intro i j
    rw [rd_getD' (by rw [hl]; exact idx_lt i.2 j.2), hv]
    congr 1
    rw [Finset.sum_eq_single i.val, Finset.sum_eq_single j.val, if_pos rfl, _root_.Matrix.mul_apply,
      Finset.sum_range]
    · apply Finset.sum_congr rfl
      intro k _
      rw [ha.eq_fnOf, hb.eq_fnOf]
    · intro j' hj' ne
      rw [Finset.mem_range] at hj'
      rw [if_neg]
      intro c
      exact ne (idx_inj hj' j.2 c).2
    · intro c; exact absurd (Finset.mem_range.mpr j.2) c
    · intro i' _ ne
      apply Finset.sum_eq_zero
      intro j' hj'
      rw [Finset.mem_range] at hj'
      rw [if_neg]
      intro c
      exact ne (idx_inj hj' j.2 c).1
    · intro c; exact absurd (Finset.mem_range.mpr i.2) c

example : Matrix.mult ⟨[1, 2, 3, 4, 5, 6], 2, 3⟩ ⟨[1, 1, 0, 2], 2, 2⟩ =
    some ⟨[1, 5, 3, 11, 5, 17], 2, 3⟩ := by decide +kernel

/-- C25 fails for right factors that are not square: a column times a row. -/
theorem C25_mult_counterexample :
    Matrix.mult ⟨[1, 2], 1, 2⟩ ⟨[1, 10], 2, 1⟩ = some ⟨[1, 12, 20, 0], 2, 2⟩ := by decide +kernel

/-- If a loop returns, each of its iterations returned, from a state reached by earlier iterations. -/
theorem forRange_visit {σ : Type} (Inv : σ → Prop) {lo hi : Int} (body : Int → σ → Option σ) (s s' : σ)
    (h0 : Inv s) (hb : ∀ j s s', lo ≤ j → j < hi → Inv s → body j s = some s' → Inv s')
    (e : forRange lo hi body s = some s') (j : Int) (h1 : lo ≤ j) (h2 : j < hi) :
    ∃ t t', Inv t ∧ body j t = some t' := by
  rw [forRange_split (mid := j) h1 (by omega), Option.bind_eq_some_iff] at e
  obtain ⟨t, e1, e2⟩ := e
  have ht := forRange_inv (fun _ s => Inv s) h1 body s t h0 (fun j s s' a b => hb j s s' a (by omega)) e1
  rw [forRange_step h2, Option.bind_eq_some_iff] at e2
  obtain ⟨t', e2, _⟩ := e2
  exact ⟨t, t', ht, e2⟩

theorem forRange_length {lo hi : Int} {N : Nat} (hle : lo ≤ hi) (body : Int → List ℚ → Option (List ℚ))
    (s s' : List ℚ) (h0 : s.length = N)
    (hb : ∀ j s s', lo ≤ j → j < hi → s.length = N → body j s = some s' → s'.length = N)
    (e : forRange lo hi body s = some s') : s'.length = N :=
  forRange_inv (fun _ s => s.length = N) hle body s s' h0 (fun j s s' a b c d => hb j s s' a b c d) e

/-- C25 fails for every right factor with fewer columns than rows, as soon as the left factor has two rows:
`Mult` panics. -/
theorem C25_mult_panics (a b : List ℚ) (h w w2 : Nat) (hh : 2 ≤ h) (hw : w2 < w) :
    Matrix.mult ⟨a, w, h⟩ ⟨b, w2, w⟩ = none := by
  rcases Nat.eq_zero_or_pos w2 with rfl | hw2
  · unfold Matrix.mult newMatrix
    simp
  unfold Matrix.mult
  simp only
  rw [newMatrix_eq hw2 (by omega) (by simp)]
  simp only [bind, Option.bind_some, Matrix.multAt, List.length_replicate, ne_eq, not_true_eq_false,
      if_false]
  rw [Option.bind_eq_none_iff]
  intro vals e
  exfalso
  have inner : ∀ (i j : Int) (s s' : List ℚ), s.length = h * w2 → (forRange 0 w (fun k vals =>
      (rd vals (i * w + j)).bind fun o => (rd a (i * w + k)).bind fun x =>
        (rd b (k * w2 + j)).bind fun y => wr vals (i * w + j) (o + x * y)) s) = some s' →
      s'.length = h * w2 := by
    intro i j s s' hs e
    refine forRange_length (by omega) _ s s' hs ?_ e
    intro k t t' _ _ ht et
    simp only [Option.bind_eq_some_iff] at et
    obtain ⟨o, _, x, _, y, _, et⟩ := et
    obtain ⟨_, _, rfl⟩ := wr_some et
    simpa using ht
  have mid : ∀ (i : Int) (s s' : List ℚ), s.length = h * w2 → (forRange 0 w2 (fun j vals =>
      forRange 0 w (fun k vals =>
      (rd vals (i * w + j)).bind fun o => (rd a (i * w + k)).bind fun x =>
        (rd b (k * w2 + j)).bind fun y => wr vals (i * w + j) (o + x * y)) vals) s) = some s' →
      s'.length = h * w2 := by
    intro i s s' hs e
    refine forRange_length (by omega) _ s s' hs ?_ e
    intro j t t' _ _ ht et
    exact inner i j t t' ht et
  obtain ⟨t, t', ht, et⟩ := forRange_visit (fun s => s.length = h * w2) _ _ _ (by simp)
    (fun i s s' _ _ hs e => mid i s s' hs e) e ((h : Int) - 1) (by omega) (by omega)
  obtain ⟨u, u', hu, eu⟩ := forRange_visit (fun s => s.length = h * w2) _ _ _ ht
    (fun j s s' _ _ hs e => inner _ j s s' hs e) et ((w2 : Int) - 1) (by omega) (by omega)
  rw [forRange_step (by omega)] at eu
  simp only [Option.bind_eq_some_iff] at eu
  obtain ⟨_, ⟨o, eo, _⟩, _⟩ := eu
  obtain ⟨_, lt⟩ := rd_some_lt eo
  rw [hu] at lt
  push_cast at lt
  nlinarith

example : (2 : Nat) ≤ 2 ∧ 1 < 2 ∧ Matrix.mult ⟨[1, 2, 3, 4], 2, 2⟩ ⟨[1, 10], 1, 2⟩ = none :=
  ⟨le_rfl, by omega, by decide +kernel⟩

/-- C25: `MultAt` rejects shapes that do not conform. -/
theorem C25_shapes (m1 m2 out : Matrix) (h : m1.width ≠ m2.height) : m1.multAt m2 out = none := by
  unfold Matrix.multAt; rw [if_pos h]

example : Matrix.multAt ⟨[1, 2], 2, 1⟩ ⟨[1, 2, 3], 1, 3⟩ ⟨[0], 1, 1⟩ = none := by decide +kernel

/-! ### C27 -/

/-- C27 for `MultVec`. The old contents of `out` are irrelevant. -/
theorem C27_multVec {h w : Nat} (m : List ℚ) (A : _root_.Matrix (Fin h) (Fin w) ℚ) (hm : Holds m A)
    (v out : List ℚ) :
    (∀ x : Fin w → ℚ, v = List.ofFn x → out.length = h →
      multVec ⟨m, w, h⟩ v out = some (List.ofFn (A.mulVec x))) ∧
    ((v.length ≠ w ∨ out.length ≠ h) → multVec ⟨m, w, h⟩ v out = none) := by
  constructor
  · rintro x rfl ho
    unfold multVec
    simp only
    rw [if_neg (by rw [List.length_ofFn, ho]; simp), ho]
    have hv : ∀ i < w, (List.ofFn x)[i]? = some ((List.ofFn x).getD i 0) :=
      fun i hi => rd_getD' (by simpa using hi)
    have row : ∀ (j : Nat), j < h → ∀ st : List ℚ, st.length = h → st[j]? = some 0 →
        forRange 0 w (fun i out => do
          let o ← rd out (j : Int)
          let a ← rd m (((j : Int) * w) + i)
          let x ← rd (List.ofFn x) i
          wr out (j : Int) (o + a * x)) st = wr st (j : Int)
            (∑ i ∈ Finset.range w, fnOf m w j i * (List.ofFn x).getD i 0) := by
      intro j hj st hl h0
      obtain ⟨st', e, h'⟩ := forRange_nat (fun i st' => st' = st.set j
          (∑ i ∈ Finset.range i, fnOf m w j i * (List.ofFn x).getD i 0)) (lo := 0) (hi := w) (Nat.zero_le _)
        (fun i out => do
          let o ← rd out (j : Int)
          let a ← rd m (((j : Int) * w) + i)
          let x ← rd (List.ofFn x) i
          wr out (j : Int) (o + a * x)) st (by
          rw [Finset.sum_range_zero]
          apply List.ext_getElem?
          intro p
          rw [List.getElem?_set]
          split
          · next c => subst c; rw [if_pos (by omega), h0]
          · rfl) (by
          intro i t _ hi ht
          have a1 : rd t (j : Int) = some (∑ i ∈ Finset.range i, fnOf m w j i * (List.ofFn x).getD i 0) := by
            rw [rd_natCast, ht, List.getElem?_set, if_pos rfl, if_pos (by omega)]
          have a2 := hm.rep.rd hj hi
          have a3 : rd (List.ofFn x) (i : Int) = some ((List.ofFn x).getD i 0) := rd_fn_nat hv i rfl hi
          refine ⟨_, ?_, rfl⟩
          simp only [a1, a2, a3, bind, Option.bind_some]
          rw [wr_natCast (by rw [ht]; simp; omega), ht, List.set_set, Finset.sum_range_succ])
      rw [Nat.cast_zero] at e
      rw [e, h', wr_natCast (by omega)]
    have := forRange_nat (fun k (s : List ℚ × Int) => s.2 = (k : Int) * w ∧ s.1.length = h ∧
        ∀ i, s.1[i]? = if i < k then some (∑ i' ∈ Finset.range w, fnOf m w i i' * (List.ofFn x).getD i' 0)
          else (List.replicate h (0 : ℚ))[i]?) (lo := 0) (hi := h) (Nat.zero_le _)
      (fun j (s : List ℚ × Int) => do
      let out ← forRange 0 w (fun i out => do
        let o ← rd out j
        let a ← rd m (s.2 + i)
        let x ← rd (List.ofFn x) i
        wr out j (o + a * x)) s.1
      some (out, s.2 + w)) (List.replicate h 0, 0) ⟨by simp, by simp, by intro i; rw [if_neg (by omega)]⟩ (by
        rintro j ⟨st, off⟩ _ hj ⟨h1, h2, h3⟩
        simp only at h1 h2 h3
        subst h1
        have h0 : st[j]? = some 0 := by
          rw [h3, if_neg (by omega), List.getElem?_replicate, if_pos hj]
        have e := row j hj st h2 h0
        rw [wr_natCast (by omega)] at e
        refine ⟨_, bind_of e rfl, ?_, by simpa using h2, ?_⟩
        · push_cast; ring
        · intro i
          rw [List.getElem?_set]
          by_cases c : j = i
          · subst c; rw [if_pos rfl, if_pos (by omega), if_pos (by omega)]
          · rw [if_neg c, h3]
            by_cases c' : i < j
            · rw [if_pos c', if_pos (by omega)]
            · rw [if_neg c', if_neg (by omega)])
    rw [Nat.cast_zero] at this
    obtain ⟨⟨st, off⟩, e, h1, h2, h3⟩ := this
    simp only at h1 h2 h3
    refine bind_of e ?_
    congr 1
    apply List.ext_getElem?
    intro i
    by_cases hi : i < h
    · rw [h3, if_pos hi, List.getElem?_ofFn, dif_pos hi]
      congr 1
      rw [Finset.sum_range]
      simp only [_root_.Matrix.mulVec, dotProduct]
      apply Finset.sum_congr rfl
      intro k _
      rw [hm.eq_fnOf]
      simp
    · rw [List.getElem?_eq_none (by simp only; omega), List.getElem?_eq_none (by simpa using hi)]
  · intro hc
    unfold multVec
    simp only
    rw [if_pos]
    rcases hc with c | c
    · exact Or.inr (fun e => c e.symm)
    · exact Or.inl (fun e => c e.symm)

example : multVec ⟨[1, 2, 3, 4, 5, 6], 3, 2⟩ [1, 10, 100] [7, 7] = some [321, 654] ∧
    multVec ⟨[1, 2, 3, 4, 5, 6], 3, 2⟩ [1, 10] [7, 7] = none := by decide +kernel

/-- C27 for `VecMult`. -/
theorem C27_vecMult {h w : Nat} (m : List ℚ) (A : _root_.Matrix (Fin h) (Fin w) ℚ) (hm : Holds m A)
    (v out : List ℚ) :
    (∀ x : Fin h → ℚ, v = List.ofFn x → out.length = w →
      vecMult v ⟨m, w, h⟩ out = some (List.ofFn (A.vecMul x))) ∧
    ((v.length ≠ h ∨ out.length ≠ w) → vecMult v ⟨m, w, h⟩ out = none) := by
  constructor
  · rintro x rfl ho
    unfold vecMult
    simp only
    rw [if_neg (by rw [List.length_ofFn, ho]; simp), ho]
    have hv : ∀ i < h, (List.ofFn x)[i]? = some ((List.ofFn x).getD i 0) :=
      fun i hi => rd_getD' (by simpa using hi)
    obtain ⟨st, e, h2, h3⟩ := forRange_fill (fun i => ∑ j ∈ Finset.range h, (List.ofFn x).getD j 0 * fnOf m w j i)
      (lo := 0) (hi := w) (Nat.zero_le _) le_rfl (List.replicate w 0) (by simp)
      (fun i out => do
      let sum ← forRange 0 h (fun j sum => do
        let x ← rd (List.ofFn x) j
        let a ← rd m (i + w * j)
        some (sum + x * a)) 0
      wr out i sum) (by
        intro i st _ hi _ _
        have := forRange_sum (fun j => (List.ofFn x).getD j 0 * fnOf m w j i) (lo := 0) (hi := h)
          (Nat.zero_le _) 0 (fun j sum => do
        let x ← rd (List.ofFn x) j
        let a ← rd m ((i : Int) + w * j)
        some (sum + x * a)) (by
          intro j t _ hj
          have a2 := hm.rep.rd hj hi
          have a3 : rd (List.ofFn x) (j : Int) = some ((List.ofFn x).getD j 0) := rd_fn_nat hv j rfl hj
          rw [show (j : Int) * w + i = i + w * j by ring] at a2
          simp only [a2, a3, bind, Option.bind_some])
        rw [Nat.cast_zero] at this
        refine bind_of this ?_
        rw [zero_add, Finset.range_eq_Ico])
    rw [Nat.cast_zero] at e
    rw [e]
    congr 1
    apply List.ext_getElem?
    intro i
    by_cases hi : i < w
    · rw [h3, if_pos ⟨Nat.zero_le _, hi⟩, List.getElem?_ofFn, dif_pos hi]
      congr 1
      rw [Finset.sum_range]
      simp only [_root_.Matrix.vecMul, dotProduct]
      apply Finset.sum_congr rfl
      intro k _
      rw [hm.eq_fnOf]
      simp
    · rw [List.getElem?_eq_none (by omega), List.getElem?_eq_none (by simpa using hi)]
  · intro hc
    unfold vecMult
    simp only
    rw [if_pos]
    rcases hc with c | c
    · exact Or.inl (fun e => c e.symm)
    · exact Or.inr (fun e => c e.symm)

example : vecMult [1, 10] ⟨[1, 2, 3, 4, 5, 6], 3, 2⟩ [7, 7, 7] = some [41, 52, 63] := by decide +kernel

/-! ### C26 -/

theorem baseTranspose_spec {m : List ℚ} {w h : Nat} {M : Nat → Nat → ℚ} (r : Rep m h w M)
    {xl yl xw yw : Nat} (hx : xl + xw ≤ w) (hy : yl + yw ≤ h) {out : List ℚ} {O : Nat → Nat → ℚ}
    (ro : Rep out w h O) :
    ∃ out', baseTranspose m w h xl yl xw yw yl xl out = some out' ∧
      Rep out' w h (fun a b => if (xl ≤ a ∧ a < xl + xw) ∧ (yl ≤ b ∧ b < yl + yw) then M b a else O a b) := by
  unfold baseTranspose
  have := forRange_nat (fun y st => Rep st w h (fun a b =>
      if (xl ≤ a ∧ a < xl + xw) ∧ (yl ≤ b ∧ b < yl + y) then M b a else O a b)) (lo := 0) (hi := yw)
    (Nat.zero_le _) (fun y out =>
    forRange 0 xw (fun x out => do
      let v ← rd m ((yl + y) * w + (xl + x))
      wr out ((xl + x) * h + (yl + y)) v) out) out (by
      apply ro.congr
      intro a b _ _
      rw [if_neg (by omega)]) (by
      intro y st _ hyy rs
      have := forRange_nat (fun x st' => Rep st' w h (fun a b =>
          if ((xl ≤ a ∧ a < xl + xw) ∧ (yl ≤ b ∧ b < yl + y)) ∨ ((xl ≤ a ∧ a < xl + x) ∧ b = yl + y) then M b a
          else O a b)) (lo := 0) (hi := xw) (Nat.zero_le _) (fun x out => do
      let v ← rd m (((yl : Int) + y) * w + (xl + x))
      wr out ((xl + x) * h + (yl + y)) v) st (by
          apply rs.congr
          intro a b _ _
          by_cases c : (xl ≤ a ∧ a < xl + xw) ∧ (yl ≤ b ∧ b < yl + y)
          · rw [if_pos c, if_pos (Or.inl c)]
          · rw [if_neg c, if_neg (by omega)]) (by
          intro x t _ hxx rt
          have a1 := r.rd (i := yl + y) (j := xl + x) (by omega) (by omega)
          push_cast at a1
          obtain ⟨t', e, rt'⟩ := rt.wr (i := xl + x) (j := yl + y) (by omega) (by omega) (M (yl + y) (xl + x))
          push_cast at e
          refine ⟨t', bind_of a1 e, ?_⟩
          apply rt'.congr
          intro a b _ _
          by_cases c : a = xl + x ∧ b = yl + y
          · rw [if_pos c, if_pos (by omega), c.1, c.2]
          · rw [if_neg c]
            by_cases c' : ((xl ≤ a ∧ a < xl + xw) ∧ (yl ≤ b ∧ b < yl + y)) ∨ ((xl ≤ a ∧ a < xl + x) ∧ b = yl + y)
            · rw [if_pos c', if_pos (by omega)]
            · rw [if_neg c', if_neg (by omega)])
      rw [Nat.cast_zero] at this
      obtain ⟨t, e, rt⟩ := this
      refine ⟨t, e, ?_⟩
      apply rt.congr
      intro a b _ _
      by_cases c : ((xl ≤ a ∧ a < xl + xw) ∧ (yl ≤ b ∧ b < yl + y)) ∨ ((xl ≤ a ∧ a < xl + xw) ∧ b = yl + y)
      · rw [if_pos c, if_pos (by omega)]
      · rw [if_neg c, if_neg (by omega)])
  rw [Nat.cast_zero] at this
  exact this

theorem recTranspose_spec (T : Nat) {m : List ℚ} {w h : Nat} {M : Nat → Nat → ℚ} (r : Rep m h w M) :
    ∀ (N xl yl xw yw : Nat), xw + yw ≤ N → xl + xw ≤ w → yl + yw ≤ h →
    ∀ {out : List ℚ} {O : Nat → Nat → ℚ}, Rep out w h O →
    ∃ out', recTranspose T m w h xl yl xw yw yl xl out = some out' ∧
      Rep out' w h (fun a b => if (xl ≤ a ∧ a < xl + xw) ∧ (yl ≤ b ∧ b < yl + yw) then M b a else O a b) := by
  intro N
  induction N with
  | zero =>
    intro xl yl xw yw hN hx hy out O ro
    rw [recTranspose, if_pos (by omega)]
    exact baseTranspose_spec r hx hy ro
  | succ N ih =>
    intro xl yl xw yw hN hx hy out O ro
    rw [recTranspose]
    by_cases c : xw ≤ T + 1 ∧ yw ≤ T + 1
    · rw [if_pos c]; exact baseTranspose_spec r hx hy ro
    · rw [if_neg c]
      by_cases c2 : xw > yw
      · rw [if_pos c2]
        obtain ⟨o1, e1, r1⟩ := ih xl yl (xw / 2) yw (by omega) (by omega) hy ro
        obtain ⟨o2, e2, r2⟩ := ih (xl + xw / 2) yl (xw - xw / 2) yw (by omega) (by omega) hy r1
        refine ⟨o2, bind_of e1 e2, r2.congr ?_⟩
        intro a b _ _
        by_cases c3 : (xl + xw / 2 ≤ a ∧ a < xl + xw / 2 + (xw - xw / 2)) ∧ (yl ≤ b ∧ b < yl + yw)
        · rw [if_pos c3, if_pos (by omega)]
        · rw [if_neg c3]
          by_cases c4 : (xl ≤ a ∧ a < xl + xw / 2) ∧ (yl ≤ b ∧ b < yl + yw)
          · rw [if_pos c4, if_pos (by omega)]
          · rw [if_neg c4, if_neg (by omega)]
      · rw [if_neg c2]
        obtain ⟨o1, e1, r1⟩ := ih xl yl xw (yw / 2) (by omega) hx (by omega) ro
        obtain ⟨o2, e2, r2⟩ := ih xl (yl + yw / 2) xw (yw - yw / 2) (by omega) hx (by omega) r1
        refine ⟨o2, bind_of e1 e2, r2.congr ?_⟩
        intro a b _ _
        by_cases c3 : (xl ≤ a ∧ a < xl + xw) ∧ (yl + yw / 2 ≤ b ∧ b < yl + yw / 2 + (yw - yw / 2))
        · rw [if_pos c3, if_pos (by omega)]
        · rw [if_neg c3]
          by_cases c4 : (xl ≤ a ∧ a < xl + xw) ∧ (yl ≤ b ∧ b < yl + yw / 2)
          · rw [if_pos c4, if_pos (by omega)]
          · rw [if_neg c4, if_neg (by omega)]

/-- C26: for every shape and every blocking threshold, `Transpose` returns the transposed matrix. -/
theorem C26_transpose_any (T : Nat) {h w : Nat} (hh : 0 < h) (hw : 0 < w) (m : List ℚ)
    (A : _root_.Matrix (Fin h) (Fin w) ℚ) (hm : Holds m A) :
    ∃ c, Matrix.transposeWith T ⟨m, w, h⟩ = some ⟨c, h, w⟩ ∧ Holds c A.transpose := by
  have r0 : Rep (List.replicate (h * w) (0 : ℚ)) w h (fnOf (List.replicate (h * w) (0 : ℚ)) h) :=
    rep_fnOf (by simp [mul_comm])
  obtain ⟨c, e, rc⟩ := recTranspose_spec T hm.rep (w + h) 0 0 w h le_rfl (by omega) (by omega) r0
  refine ⟨c, ?_, rc.1, ?_⟩
  · unfold Matrix.transposeWith
    simp only
    rw [newMatrix_eq hh hw (by simp [mul_comm])]
    simp only [bind, Option.bind_some, Matrix.transposeAtWith]
    rw [e]
    rfl
  · intro i j
    rw [rc.2 i j i.2 j.2]
    simp only
    rw [if_pos (by have := i.2; have := j.2; omega), _root_.Matrix.transpose_apply, hm.eq_fnOf]

/-- C26 with the threshold of the code. -/
theorem C26_transpose {h w : Nat} (hh : 0 < h) (hw : 0 < w) (m : List ℚ)
    (A : _root_.Matrix (Fin h) (Fin w) ℚ) (hm : Holds m A) :
    ∃ c, Matrix.transpose ⟨m, w, h⟩ = some ⟨c, h, w⟩ ∧ Holds c A.transpose :=
  C26_transpose_any transposeThreshold hh hw m A hm

theorem holds_unique {h w : Nat} {m m' : List ℚ} {A : _root_.Matrix (Fin h) (Fin w) ℚ} (a : Holds m A)
    (b : Holds m' A) : m = m' := by
  apply List.ext_getElem?
  intro p
  by_cases hp : p < h * w
  · obtain ⟨i, j, hi, hj, rfl⟩ := idx_exists hp
    have e1 := a.2 ⟨i, hi⟩ ⟨j, hj⟩
    have e2 := b.2 ⟨i, hi⟩ ⟨j, hj⟩
    simp only at e1 e2
    rw [e1, e2]
  · rw [List.getElem?_eq_none (by rw [a.1]; omega), List.getElem?_eq_none (by rw [b.1]; omega)]

/-- C26: transposing twice gives back the matrix. -/
theorem C26_involution {h w : Nat} (hh : 0 < h) (hw : 0 < w) (m : List ℚ) (hl : m.length = h * w) :
    ∃ t, Matrix.transpose ⟨m, w, h⟩ = some t ∧ t.transpose = some ⟨m, w, h⟩ := by
  have H := (rep_fnOf hl).holds
  obtain ⟨c, e, hc⟩ := C26_transpose hh hw m _ H
  obtain ⟨c', e', hc'⟩ := C26_transpose hw hh c _ hc
  rw [_root_.Matrix.transpose_transpose] at hc'
  refine ⟨_, e, ?_⟩
  rw [e', holds_unique hc' H]

example : Matrix.transposeWith 0 ⟨[1, 2, 3, 4, 5, 6], 3, 2⟩ = some ⟨[1, 4, 2, 5, 3, 6], 2, 3⟩ := by
  obtain ⟨c, e, hc⟩ := C26_transpose_any 0 (h := 2) (w := 3) (by omega) (by omega) [1, 2, 3, 4, 5, 6]
    _ (rep_fnOf (h := 2) (w := 3) rfl).holds
  rw [e]
  congr 2
  refine holds_unique hc ⟨rfl, ?_⟩
  decide +kernel

end Verif.Mat
