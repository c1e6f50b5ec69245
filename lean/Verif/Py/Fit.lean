import Verif.Py.FitModel
import Mathlib.Data.List.Basic
import Mathlib.Algebra.BigOperators.Group.List.Basic
import Mathlib.Algebra.Order.BigOperators.Group.List
import Mathlib.Tactic.Linarith
import Mathlib.Tactic.Positivity
import Mathlib.Tactic.Ring
import Mathlib.Tactic.NormNum
import Mathlib.Tactic.FieldSimp

/-!
# C189: bins on the sphere and fits with several limits
-/

set_option autoImplicit false

namespace Verif.Py

/-- Property C189: bin `i` holds the radii of the points in pixel `i`, in their order. -/
theorem C189_bins (npix : Nat) (pts : List (ℚ × Nat)) (h : ∀ p ∈ pts, p.2 < npix) :
    healpixBins npix (pts.map Prod.fst) (pts.map Prod.snd) =
      some ((List.range npix).map fun i => (pts.filter fun p => p.2 = i).map Prod.fst) := by
  unfold healpixBins
  rw [List.zip_map', List.map_id'' (fun _ => rfl)]
  induction pts using List.reverseRecOn with
  | nil => simp [List.map_const']
  | append_singleton ps p ih =>
    have hp : p.2 < npix := h p (by simp)
    rw [List.foldlM_append, ih fun q hq => h q (by simp [hq])]
    simp only [Option.bind_eq_bind, Option.bind_some, List.foldlM_cons, List.foldlM_nil]
    have e : ((List.range npix).map fun i => (ps.filter fun p => decide (p.2 = i)).map Prod.fst)[p.2]? =
        some ((ps.filter fun q => decide (q.2 = p.2)).map Prod.fst) := by simp [hp]
    rw [e]
    simp only [Option.map_some, Option.bind_some]
    refine congrArg some (List.ext_getElem (by simp) fun i h1 h2 => ?_)
    rw [List.getElem_set]
    simp only [List.getElem_map, List.getElem_range]
    by_cases hi : p.2 = i
    · simp [hi]
    · simp [hi]

/-- Property C189: a pixel outside the sphere is an exception. -/
theorem C189_bins_raise (npix : Nat) (pts : List (ℚ × Nat)) :
    healpixBins npix (pts.map Prod.fst) (pts.map Prod.snd) = none ↔ ∃ p ∈ pts, npix ≤ p.2 := by
  constructor
  · intro h
    by_contra hc
    push Not at hc
    rw [C189_bins npix pts hc] at h
    simp at h
  · rintro ⟨p, hp, hn⟩
    unfold healpixBins
    rw [List.zip_map', List.map_id'' (fun _ => rfl)]
    have key : ∀ (pts : List (ℚ × Nat)) (bins : List (List ℚ)), bins.length = npix → p ∈ pts →
        pts.foldlM (fun bins p => (bins[p.2]?).map fun b => bins.set p.2 (b ++ [p.1])) bins = none := by
      intro pts
      induction pts with
      | nil => intro bins _ h; simp at h
      | cons q qs ih =>
        intro bins hb hm
        rw [List.foldlM_cons]
        rcases Nat.lt_or_ge q.2 npix with hq | hq
        · have : p ∈ qs := by
            rcases List.mem_cons.mp hm with rfl | h
            · omega
            · exact h
          rw [List.getElem?_eq_getElem (by omega)]
          simp only [Option.map_some, Option.bind_eq_bind, Option.bind_some]
          exact ih _ (by simpa using hb) this
        · rw [List.getElem?_eq_none (by omega)]
          rfl
    exact key pts _ (by simp) hp

example : healpixBins 3 ([(5, 2), (7, 0), (1, 2)].map Prod.fst) ([(5, 2), (7, 0), (1, 2)].map Prod.snd) =
    some [[7], [], [5, 1]] := by decide +kernel

/-- The mean square of the residuals of `n` points over the degrees of freedom `n - 1 - ν` the program uses. -/
def MeanSquare {P : Type} (r f : P → ℚ) (pts : List P) (ν : Nat) (v : ℚ) : Prop :=
  v * ((pts.length : ℚ) - 1 - ν) = (pts.map fun p => (r p - f p) ^ 2).sum

theorem zipWith_sum {P : Type} (r f : P → ℚ) (d : ℚ) (pts : List P) :
    (List.zipWith (fun v f => (v - f) ^ 2 / d) (pts.map r) (pts.map f)).sum = (pts.map fun p => (r p - f p) ^ 2).sum / d := by
  induction pts with
  | nil => simp
  | cons p ps ih =>
    simp only [List.map_cons, List.zipWith_cons_cons, List.sum_cons, ih]
    ring

/-- Property C189: for more than `ν + 1` points the value is the mean square of the residuals, not negative, and zero exactly if
every point is on the shell. -/
theorem C189_chi2 {P : Type} (r f : P → ℚ) (pts : List P) (ν : Nat) (h : ν + 1 < pts.length) :
    ∃ v, chi2Nu (pts.map r) (pts.map f) ν = some v ∧ MeanSquare r f pts ν v ∧ 0 ≤ v ∧ (v = 0 ↔ ∀ p ∈ pts, r p = f p) := by
  have hd : (0 : ℚ) < (pts.length : ℚ) - 1 - ν := by
    have : ((ν + 1 : Nat) : ℚ) < pts.length := by exact_mod_cast h
    push_cast at this
    linarith
  have hs : ∀ l : List P, 0 ≤ (l.map fun p => (r p - f p) ^ 2).sum := fun l =>
    List.sum_nonneg (by simp only [List.mem_map]; rintro _ ⟨p, _, rfl⟩; positivity)
  have hz : ∀ l : List P, (l.map fun p => (r p - f p) ^ 2).sum = 0 ↔ ∀ p ∈ l, r p = f p := by
    intro l
    induction l with
    | nil => simp
    | cons p l ih =>
      simp only [List.map_cons, List.sum_cons, List.mem_cons, forall_eq_or_imp, ← ih]
      have h1 : 0 ≤ (r p - f p) ^ 2 := by positivity
      have h2 := hs l
      constructor
      · intro h
        have h3 : (r p - f p) ^ 2 = 0 := by linarith
        have h4 := pow_eq_zero_iff (two_ne_zero) |>.mp h3
        exact ⟨by linarith, by linarith⟩
      · rintro ⟨h3, h4⟩
        rw [h3, h4]; ring
  refine ⟨(pts.map fun p => (r p - f p) ^ 2).sum / ((pts.length : ℚ) - 1 - ν), ?_, ?_, ?_, ?_⟩
  · unfold chi2Nu
    simp only [List.length_map]
    rw [if_neg (by omega), zipWith_sum]
    push_cast
    rfl
  · unfold MeanSquare
    rw [div_mul_cancel₀ _ hd.ne']
  · exact div_nonneg (hs _) hd.le
  · rw [div_eq_zero_iff, hz]
    constructor
    · rintro (h | h)
      · exact h
      · exact absurd h hd.ne'
    · exact Or.inl

example : chi2Nu ([3, 4, 6, 5].map fun x : ℚ => x) ([3, 4, 6, 5].map fun _ => 4) 2 = some 6 := by decide +kernel

/-- The points within a limit. -/
def within {P : Type} (r : P → ℚ) (pts : List P) (lim : ℚ) : List P := pts.filter fun p => r p < lim

/-- Property C189, as far as it holds: there is one fit and one value for every limit with more than `2(N+1)²` points within, in
order, made from just these points. -/
theorem C189_fits_partial {P C : Type} (r : P → ℚ) (coeff : List P → C) (shell : C → P → ℚ) (pts : List P) (N : Nat)
    (lims : List ℚ) :
    List.Forall₂ (fun lim (o : C × Option ℚ) => o.1 = coeff (within r pts lim) ∧
        (2 * (N + 1) ^ 2 + 1 = (within r pts lim).length → o.2 = none) ∧
        (2 * (N + 1) ^ 2 + 1 < (within r pts lim).length →
          ∃ v, o.2 = some v ∧ MeanSquare r (shell o.1) (within r pts lim) (2 * (N + 1) ^ 2) v ∧ 0 ≤ v))
      (lims.filter fun lim => 2 * (N + 1) ^ 2 < (within r pts lim).length) (multiFit r coeff shell pts N lims) := by
  unfold multiFit
  induction lims using List.reverseRecOn with
  | nil => exact List.Forall₂.nil
  | append_singleton ls lim ih =>
    rw [List.foldl_append, List.filter_append, List.foldl_cons, List.foldl_nil]
    generalize List.foldl (multiFitTurn r coeff shell pts N) [] ls = out at ih ⊢
    unfold multiFitTurn
    simp only
    change List.Forall₂ _ _ (if (within r pts lim).length ≤ (N + 1) ^ 2 * 2 then out else out ++
      [(coeff (within r pts lim), chi2Nu ((within r pts lim).map r) ((within r pts lim).map (shell (coeff (within r pts lim))))
        (((N + 1) ^ 2 * 2 : Nat) : Int))])
    by_cases hl : 2 * (N + 1) ^ 2 < (within r pts lim).length
    · rw [if_neg (by omega), List.filter_cons_of_pos (by simpa using hl), List.filter_nil]
      refine List.rel_append ih (List.Forall₂.cons ⟨rfl, ?_, ?_⟩ List.Forall₂.nil)
      · intro he
        simp only [chi2Nu, List.length_map]
        rw [if_pos ⟨by omega, by
          intro h
          have := congrArg List.length h
          simp only [List.length_map, List.length_nil] at this
          omega⟩]
      · intro hlt
        obtain ⟨v, h1, h2, h3, _⟩ := C189_chi2 r (shell (coeff (within r pts lim))) (within r pts lim) (2 * (N + 1) ^ 2) hlt
        rw [show (N + 1) ^ 2 * 2 = 2 * (N + 1) ^ 2 by ring]
        exact ⟨v, h1, h2, h3⟩
    · rw [if_pos (by omega), List.filter_cons_of_neg (by simpa using hl), List.filter_nil, List.append_nil]
      exact ih

/-- The mean as a shell: five points of which four are within 7, three within 5. -/
example : multiFit (fun x : ℚ => x) (fun l => l.sum / l.length) (fun c _ => c) [3, 4, 6, 4, 8] 0 [5, 7, 9] =
    [(11 / 3, none), (17 / 4, some (19 / 4)), (5, some 8)] := by decide +kernel

/-- Property C189 is false: with one point more than there are coefficients (19 points for the default `N = 2`) the value is not
a number, however good the fit. -/
theorem C189_counterexample {P C : Type} (r : P → ℚ) (coeff : List P → C) (shell : C → P → ℚ) (pts : List P) (N : Nat) (lim : ℚ)
    (h : (within r pts lim).length = 2 * (N + 1) ^ 2 + 1) :
    multiFit r coeff shell pts N [lim] = [(coeff (within r pts lim), none)] := by
  have := C189_fits_partial r coeff shell pts N [lim]
  rw [List.filter_cons_of_pos (by simp [h]), List.filter_nil] at this
  cases hm : multiFit r coeff shell pts N [lim] with
  | nil => rw [hm] at this; cases this
  | cons o l =>
    rw [hm] at this
    cases this with
    | cons h1 h2 =>
      cases h2
      obtain ⟨a, b, _⟩ := h1
      have b := b h.symm
      rw [← a, ← b]

example : (within (fun x : ℚ => x) ((List.range 25).map fun i => (i : ℚ)) 19).length = 2 * (2 + 1) ^ 2 + 1 := by decide +kernel

end Verif.Py
