import Verif.Py.PlateauModel
import Verif.Py.Rsp

/-!
# C194: the plateau of a profile

Specification: `IsPlateau` on functions of the index.
-/

set_option autoImplicit false

namespace Verif.Py.Plateau

open Verif.Py

/-- The points from `a` to `b` are the plateau inside of point `sp` for the densities `ρ`: `b` is the outer end of the
outermost rise, and `a` the first point less dense than `b`. -/
structure IsPlateau (ρ : Nat → ℚ) (sp a b : Nat) : Prop where
  order : a < b ∧ b ≤ sp
  rise : ρ (b - 1) < ρ b
  falls : ∀ j, b ≤ j → j < sp → ρ (j + 1) ≤ ρ j
  less : ρ a < ρ b
  first : ∀ j, j < a → ρ b ≤ ρ j

/-- There is at most one plateau. -/
theorem IsPlateau.unique {ρ : Nat → ℚ} {sp a b a' b' : Nat} (h : IsPlateau ρ sp a b) (h' : IsPlateau ρ sp a' b') :
    a = a' ∧ b = b' := by
  have hb : b = b' := by
    rcases Nat.lt_trichotomy b b' with hl | he | hl
    · have h1 := h.falls (b' - 1) (by omega) (by have := h'.order; omega)
      rw [show b' - 1 + 1 = b' by omega] at h1
      exact absurd h'.rise (not_lt.mpr h1)
    · exact he
    · have h1 := h'.falls (b - 1) (by omega) (by have := h.order; omega)
      rw [show b - 1 + 1 = b by omega] at h1
      exact absurd h.rise (not_lt.mpr h1)
  subst hb
  refine ⟨?_, rfl⟩
  rcases Nat.lt_trichotomy a a' with hl | he | hl
  · exact absurd h.less (not_lt.mpr (h'.first a hl))
  · exact he
  · exact absurd h'.less (not_lt.mpr (h.first a' hl))

theorem tab_get {n i : Nat} (f : Nat → ℚ) (h : i < n) : (tab n f)[i]? = some (f i) := by
  simp [tab, h]

theorem endLoop_spec {n : Nat} (ρ : Nat → ℚ) (e : Nat) : ∀ k, k < n → ∃ b, endLoop (some (tab n ρ)) e k = some b ∧
    ((b = e ∧ ∀ j, j < k → ρ (j + 1) ≤ ρ j) ∨
      (0 < b ∧ b ≤ k ∧ ρ (b - 1) < ρ b ∧ ∀ j, b ≤ j → j < k → ρ (j + 1) ≤ ρ j)) := by
  intro k
  induction k with
  | zero => intro _; exact ⟨e, rfl, Or.inl ⟨rfl, by intro j hj; omega⟩⟩
  | succ k ih =>
    intro hk
    have h1 := tab_get (n := n) ρ (i := k + 1) hk
    have h0 := tab_get (n := n) ρ (i := k) (by omega)
    by_cases hc : ρ (k + 1) > ρ k
    · refine ⟨k + 1, ?_, Or.inr ⟨by omega, le_rfl, by simpa using hc, by intro j h1 h2; omega⟩⟩
      simp only [endLoop, bind, Option.bind, h1, h0]
      rw [if_pos hc]
    · obtain ⟨b, hb, hs⟩ := ih (by omega)
      refine ⟨b, ?_, ?_⟩
      · simp only [endLoop, bind, Option.bind, h1, h0]
        rw [if_neg hc]
        exact hb
      · have hk' : ρ (k + 1) ≤ ρ k := not_lt.mp hc
        rcases hs with ⟨rfl, h⟩ | ⟨p, q, r, h⟩
        · refine Or.inl ⟨rfl, ?_⟩
          intro j hj
          rcases Nat.lt_or_eq_of_le (Nat.lt_succ_iff.mp hj) with h2 | rfl
          · exact h j h2
          · exact hk'
        · refine Or.inr ⟨p, by omega, r, ?_⟩
          intro j h1 hj
          rcases Nat.lt_or_eq_of_le (Nat.lt_succ_iff.mp hj) with h2 | rfl
          · exact h j h1 h2
          · exact hk'

theorem startLoop_spec {N : Nat} (ρ : Nat → ℚ) (e : Nat) (he : e < N) : ∀ n k, k + n = e → (∀ j, j < k → ρ e ≤ ρ j) →
    ∃ a, startLoop (some (tab N ρ)) e n k = some a ∧ a ≤ e ∧ (∀ j, j < a → ρ e ≤ ρ j) ∧ (a < e → ρ a < ρ e) := by
  intro n
  induction n with
  | zero =>
    intro k hk hj
    obtain rfl : k = e := by omega
    refine ⟨k, ?_, le_rfl, hj, by omega⟩
    unfold startLoop
    simp [tab_get ρ he]
  | succ n ih =>
    intro k hk hj
    have h1 := tab_get (n := N) ρ (i := k) (by omega)
    have h2 := tab_get (n := N) ρ (i := e) he
    by_cases hc : ρ k < ρ e
    · refine ⟨k, ?_, by omega, hj, fun _ => hc⟩
      unfold startLoop
      simp [h1, h2, hc]
    · obtain ⟨a, ha, hs⟩ := ih (k + 1) (by omega) (by
        intro j hj'
        rcases Nat.lt_or_eq_of_le (Nat.lt_succ_iff.mp hj') with h | rfl
        · exact hj j h
        · exact not_lt.mp hc)
      refine ⟨a, ?_, hs⟩
      unfold startLoop
      simp [h1, h2, hc, ha]

theorem falls_le {ρ : Nat → ℚ} {k : Nat} (h : ∀ j, j < k → ρ (j + 1) ≤ ρ j) : ∀ d j, j + d ≤ k → ρ (j + d) ≤ ρ j := by
  intro d
  induction d with
  | zero => intro j _; exact le_rfl
  | succ d ih => intro j hj; exact (h (j + d) (by omega)).trans (ih j (by omega))

/-- The search of the plateau, were it given the densities of the segment: it finds the plateau inside of the splashback
radius if there is one, and says that there is none exactly if the densities do not rise anywhere inside. -/
theorem C194_search {n sp : Nat} (ρ : Nat → ℚ) (h : sp < n) :
    (∀ a b : Nat, search (some (tab n ρ)) sp = some ((a : Int), (b : Int)) ↔ IsPlateau ρ sp a b) ∧
    (search (some (tab n ρ)) sp = some (-1, -1) ↔ ∀ j, j < sp → ρ (j + 1) ≤ ρ j) ∧
    ((∃ a b : Nat, search (some (tab n ρ)) sp = some ((a : Int), (b : Int))) ∨
      search (some (tab n ρ)) sp = some (-1, -1)) := by
  obtain ⟨e, he, hs⟩ := endLoop_spec (n := n) ρ sp sp h
  have hen : e < n := by rcases hs with ⟨rfl, _⟩ | ⟨_, h2, _⟩ <;> omega
  obtain ⟨s, hs1, hs2, hs3, hs4⟩ := startLoop_spec (N := n) ρ e hen e 0 (by omega) (by intro j hj; omega)
  have hv : search (some (tab n ρ)) sp = if s = e then some (-1, -1) else some ((s : Int), (e : Int)) := by
    simp [search, he, hs1]
  have hmono : s = e → ∀ j, j < sp → ρ (j + 1) ≤ ρ j := by
    intro hse
    rcases hs with ⟨rfl, h1⟩ | ⟨p, q, r, _⟩
    · exact h1
    · exact absurd (hs3 (e - 1) (by omega)) (not_le.mpr r)
  have hpl : s ≠ e → IsPlateau ρ sp s e := by
    intro hne
    have hlt : s < e := by omega
    rcases hs with ⟨rfl, h1⟩ | ⟨p, q, r, hf⟩
    · have := falls_le h1 (e - s) s (by omega)
      rw [show s + (e - s) = e by omega] at this
      exact absurd (hs4 hlt) (not_lt.mpr this)
    · exact ⟨⟨hlt, q⟩, r, hf, hs4 hlt, hs3⟩
  have hno : (∀ j, j < sp → ρ (j + 1) ≤ ρ j) → ∀ a b, ¬ IsPlateau ρ sp a b := by
    intro hm a b hp
    have := hm (b - 1) (by have := hp.order; omega)
    rw [show b - 1 + 1 = b by have := hp.order; omega] at this
    exact absurd hp.rise (not_lt.mpr this)
  rw [hv]
  by_cases hse : s = e
  · rw [if_pos hse]
    refine ⟨?_, ⟨fun _ => hmono hse, fun _ => rfl⟩, Or.inr rfl⟩
    intro a b
    constructor
    · intro hc
      have := congrArg (fun o => o.map Prod.fst) hc
      simp at this
    · intro hp
      exact absurd hp (hno (hmono hse) a b)
  · rw [if_neg hse]
    refine ⟨?_, ⟨?_, ?_⟩, Or.inl ⟨s, e, rfl⟩⟩
    · intro a b
      constructor
      · intro hc
        have h1 := congrArg (fun o => o.map Prod.fst) hc
        have h2 := congrArg (fun o => o.map Prod.snd) hc
        simp at h1 h2
        subst h1 h2
        exact hpl hse
      · intro hp
        obtain ⟨rfl, rfl⟩ := hp.unique (hpl hse)
        rfl
    · intro hc
      have := congrArg (fun o => o.map Prod.fst) hc
      simp at this
    · intro hm
      exact absurd (hpl hse) (hno hm s e)

/-- Densities 9, 4, 2, 3, 5, 5, 1: the plateau inside of point 6 is from point 1 to point 4. -/
example : search (some [9, 4, 2, 3, 5, 5, 1]) 6 = some (1, 4) := by
  norm_num [search, endLoop, startLoop]

example : IsPlateau (fun i => [9, 4, 2, 3, 5, 5, 1].getD i 0) 6 1 4 := by
  refine ⟨by omega, by norm_num, ?_, by norm_num, ?_⟩
  · intro j h1 h2; interval_cases j <;> norm_num
  · intro j h1; interval_cases j; norm_num

/-- Without a name `rhos` the search is an exception, whatever the profile. -/
theorem search_none (sp : Nat) : search none sp = none := by
  cases sp with
  | zero => unfold search endLoop startLoop; rfl
  | succ k => unfold search endLoop; rfl

/-- C194: what `plateau` gives on a new profile, as the module is: `(None, None)` if there is no splashback radius, and an
exception for every profile with one. -/
theorem C194_module_partial (lim : ℚ) (n : Nat) (r ρ s : Nat → ℚ) :
    ((∀ i, ¬ Caustic lim n ρ s i) →
      (plateau Names.module lim (tab n r) (tab n ρ) (tab n s) Saved.fresh).1 = some none) ∧
    ((∃ i, Caustic lim n ρ s i) →
      (plateau Names.module lim (tab n r) (tab n ρ) (tab n s) Saved.fresh).1 = none) := by
  obtain ⟨k, e, h⟩ := C159_index lim n ρ s
  have e' : spSaved lim (tab n r) (tab n ρ) (tab n s) Saved.fresh = some k := by
    simp [spSaved, Saved.fresh, tab_length, e]
  rcases h with ⟨rfl, h⟩ | ⟨i, rfl, hc, _⟩
  · refine ⟨fun _ => ?_, fun ⟨i, hi⟩ => absurd hi (h i)⟩
    simp only [plateau, plateauIdxs, e', if_true]
    simp [answer, Saved.fresh]
  · refine ⟨fun hn => absurd hc (hn i), fun _ => ?_⟩
    have hk : ((i : Nat) : Int) ≠ -1 := by omega
    simp only [plateau, plateauIdxs, e', if_neg hk, Names.module, search_none]
    rfl

/-- C194: `plateau` would still fail with the densities at hand, for every profile with a plateau: the pair of indices is
looked up under a name at which it was not saved. Without a plateau it would give `(None, None)`. -/
theorem C194_second (lim : ℚ) (n : Nat) (r ρ s : Nat → ℚ) {sp : Nat}
    (hsp : rSpIdx lim n (tab n ρ) (tab n s) = some (sp : Int)) (hn : sp < n) :
    ((∃ a b, IsPlateau ρ sp a b) →
      (plateau ⟨some (tab n ρ), none⟩ lim (tab n r) (tab n ρ) (tab n s) Saved.fresh).1 = none) ∧
    ((∀ j, j < sp → ρ (j + 1) ≤ ρ j) →
      (plateau ⟨some (tab n ρ), none⟩ lim (tab n r) (tab n ρ) (tab n s) Saved.fresh).1 = some none) := by
  have e' : spSaved lim (tab n r) (tab n ρ) (tab n s) Saved.fresh = some (sp : Int) := by
    simp [spSaved, Saved.fresh, tab_length, hsp]
  have hk : ((sp : Nat) : Int) ≠ -1 := by omega
  obtain ⟨h1, h2, _⟩ := C194_search ρ hn
  constructor
  · rintro ⟨a, b, hp⟩
    have := (h1 a b).mpr hp
    simp only [plateau, plateauIdxs, e', if_neg hk, Int.toNat_natCast, this]
    simp [answer, Saved.fresh]
  · intro hm
    have := h2.mpr hm
    simp only [plateau, plateauIdxs, e', if_neg hk, Int.toNat_natCast, this]
    simp [answer, Saved.fresh]

/-- A profile with a splashback radius and a plateau: `plateau` is an exception though the plateau is from point 2 to
point 4. -/
theorem C194_counterexample : ∃ (lim : ℚ) (rs rhos ld : List ℚ),
    (rSpCall lim rs rhos ld Saved.fresh).1 = some (some 6) ∧
    IsPlateau (fun i => rhos.getD i 0) 5 2 4 ∧
    (plateau Names.module lim rs rhos ld Saved.fresh).1 = none := by
  refine ⟨-5, [1, 2, 3, 4, 5, 6, 7], [90, 80, 20, 22, 25, 4, 3], [-1, -6, -2, -7, -3, -8, -1], ?_, ?_, ?_⟩
  · decide +kernel
  · refine ⟨by omega, by norm_num, ?_, by norm_num, ?_⟩
    · intro j h1 h2; interval_cases j; norm_num
    · intro j h1; interval_cases j <;> norm_num
  · decide +kernel

/-- What is saved belongs to the profile. -/
def Fits (nm : Names) (lim : ℚ) (rs rhos ld : List ℚ) (s : Saved) : Prop :=
  (∀ k, s.sp = some k → rSpIdx lim rs.length rhos ld = some k) ∧
  ∀ p, s.p = some p → (plateauIdxs nm lim rs rhos ld Saved.fresh).1 = some p

theorem spSaved_fits {nm : Names} {lim : ℚ} {rs rhos ld : List ℚ} {s : Saved} (h : Fits nm lim rs rhos ld s) :
    spSaved lim rs rhos ld s = rSpIdx lim rs.length rhos ld := by
  unfold spSaved
  cases e : s.sp with
  | none => rfl
  | some k => exact (h.1 k e).symm

theorem spSaved_fresh (lim : ℚ) (rs rhos ld : List ℚ) :
    spSaved lim rs rhos ld Saved.fresh = rSpIdx lim rs.length rhos ld := rfl

theorem call_fits (nm : Names) (lim : ℚ) (rs rhos ld : List ℚ) (c : Call) {s : Saved} (h : Fits nm lim rs rhos ld s) :
    (call nm lim rs rhos ld c s).1 = (call nm lim rs rhos ld c Saved.fresh).1 ∧
      Fits nm lim rs rhos ld (call nm lim rs rhos ld c s).2 := by
  have hs := spSaved_fits h
  have hf := spSaved_fresh lim rs rhos ld
  cases c with
  | rsp =>
    simp only [call, rSpCall, hs, hf]
    cases e : rSpIdx lim rs.length rhos ld with
    | none => exact ⟨rfl, h⟩
    | some k =>
      by_cases hk : k = -1
      · simp only [if_pos hk]
        exact ⟨trivial, fun k' hk' => by simp at hk'; rw [e, hk'], h.2⟩
      · simp only [if_neg hk]
        exact ⟨trivial, fun k' hk' => by simp at hk'; rw [e, hk'], h.2⟩
  | plateau =>
    have h1 : (plateauIdxs nm lim rs rhos ld s).1 = (plateauIdxs nm lim rs rhos ld Saved.fresh).1 := by
      simp only [plateauIdxs, hs, hf]
      cases e : rSpIdx lim rs.length rhos ld with
      | none => rfl
      | some k => by_cases hk : k = -1 <;> simp [hk]
    have h2 : (∀ k, (plateauIdxs nm lim rs rhos ld s).2.sp = some k → rSpIdx lim rs.length rhos ld = some k) ∧
        (plateauIdxs nm lim rs rhos ld s).2.p = s.p := by
      simp only [plateauIdxs, hs]
      cases e : rSpIdx lim rs.length rhos ld with
      | none => exact ⟨fun k hk => by rw [← e]; exact h.1 k hk, rfl⟩
      | some k => by_cases hk : k = -1 <;> simp [hk]
    have hfr : (plateau nm lim rs rhos ld Saved.fresh).1 =
        ((plateauIdxs nm lim rs rhos ld Saved.fresh).1).bind (answer nm rs) := by
      simp only [plateau, Saved.fresh]
      split
      · rename_i hx; rw [hx]; rfl
      · rename_i hx; rw [hx]; rfl
    simp only [call, hfr]
    cases e : s.p with
    | some p =>
      have := h.2 p e
      simp only [plateau, e, this]
      exact ⟨rfl, h⟩
    | none =>
      simp only [plateau, e]
      rw [← h1]
      rcases hx : plateauIdxs nm lim rs rhos ld s with ⟨_ | p, s'⟩
      · rw [hx] at h2
        exact ⟨rfl, h2.1, fun p hp => by simp only at hp; rw [h2.2, e] at hp; simp at hp⟩
      · rw [hx] at h2 h1
        refine ⟨rfl, h2.1, fun p' hp => ?_⟩
        simp only [Option.some.injEq] at hp
        rw [← h1, ← hp]

/-- C194: what is saved never changes an answer: each of any number of calls, in any order, answers as the first call on a
new profile would. -/
theorem C194_repeat (nm : Names) (lim : ℚ) (rs rhos ld : List ℚ) (cs : List Call) :
    calls nm lim rs rhos ld cs Saved.fresh = cs.map fun c => (call nm lim rs rhos ld c Saved.fresh).1 := by
  have key : ∀ s, Fits nm lim rs rhos ld s →
      calls nm lim rs rhos ld cs s = cs.map fun c => (call nm lim rs rhos ld c Saved.fresh).1 := by
    induction cs with
    | nil => intro s _; rfl
    | cons c cs ih =>
      intro s hs
      obtain ⟨h1, h2⟩ := call_fits nm lim rs rhos ld c hs
      simp only [calls, List.map_cons, h1, ih _ h2]
  exact key _ ⟨by intro k hk; simp [Saved.fresh] at hk, by intro p hp; simp [Saved.fresh] at hp⟩

/-- Radius, plateau and radius again, of a profile that does not rise, were the densities at hand. -/
example : calls ⟨some [90, 80, 30, 20, 10, 4, 3], none⟩ (-5) [1, 2, 3, 4, 5, 6, 7] [90, 80, 30, 20, 10, 4, 3]
    [-1, -6, -2, -7, -3, -8, -1] [.rsp, .plateau, .rsp] Saved.fresh =
    [.rsp (some (some 6)), .plateau (some none), .rsp (some (some 6))] := by
  rw [C194_repeat]
  have h1 : (rSpCall (-5) [1, 2, 3, 4, 5, 6, 7] [90, 80, 30, 20, 10, 4, 3]
    [-1, -6, -2, -7, -3, -8, -1] Saved.fresh).1 = some (some 6) := by decide +kernel
  have h2 : (plateau ⟨some [90, 80, 30, 20, 10, 4, 3], none⟩ (-5) [1, 2, 3, 4, 5, 6, 7] [90, 80, 30, 20, 10, 4, 3]
    [-1, -6, -2, -7, -3, -8, -1] Saved.fresh).1 = some none := by decide +kernel
  simp only [List.map_cons, List.map_nil, call, h1, h2]

end Verif.Py.Plateau
