import Verif.Py.SelectModel
import Mathlib.Tactic.Linarith
import Mathlib.Tactic.NormNum
import Mathlib.Data.List.Pairwise

/-!
# C192: halos of a range of masses
-/

set_option autoImplicit false

namespace Verif.Py

/-- At or above the upper limit. -/
def heavy (m : ℚ) : Bool := decide (1500000000000 ≤ m)

/-- Within the range of masses. -/
def inRange (m : ℚ) : Bool := decide (800000000000 ≤ m) && decide (m < 1500000000000)

/-- Below the lower limit. -/
def light (m : ℚ) : Bool := decide (m < 800000000000)

theorem isLim_iff (x y : ℚ) : isLim x y = true ↔
    (1500000000000 ≤ x ∧ y < 1500000000000) ∨ (800000000000 ≤ x ∧ y < 800000000000) := by
  unfold isLim massLims
  simp

theorem limIdxs_stay (p : ℚ → Bool) (hp : ∀ x y, p x = true → p y = true → isLim x y = false) (A B : List ℚ) :
    ∀ (prev : ℚ) (i : ℕ), p prev = true → (∀ x ∈ A, p x = true) →
      ∃ prev', p prev' = true ∧ limIdxs prev i (A ++ B) = limIdxs prev' (i + A.length) B := by
  induction A with
  | nil => exact fun prev i h _ => ⟨prev, h, rfl⟩
  | cons a A ih =>
    intro prev i h hA
    have ha := hA a (by simp)
    obtain ⟨q, hq, e⟩ := ih a (i + 1) ha fun x hx => hA x (by simp [hx])
    refine ⟨q, hq, ?_⟩
    rw [List.cons_append, limIdxs, hp prev a h ha, e, List.length_cons]
    simp
    congr 1
    omega

theorem heavy_stay (x y : ℚ) (hx : heavy x = true) (hy : heavy y = true) : isLim x y = false := by
  rw [Bool.eq_false_iff]
  intro h
  rw [isLim_iff] at h
  simp only [heavy, decide_eq_true_eq] at hx hy
  rcases h with h | h <;> linarith [h.2]

theorem inRange_stay (x y : ℚ) (hx : inRange x = true) (hy : inRange y = true) : isLim x y = false := by
  rw [Bool.eq_false_iff]
  intro h
  rw [isLim_iff] at h
  simp only [inRange, Bool.and_eq_true, decide_eq_true_eq] at hx hy
  rcases h with h | h
  · linarith [h.1, hx.2]
  · linarith [h.2, hy.1]

theorem light_stay (x y : ℚ) (hx : light x = true) (_ : light y = true) : isLim x y = false := by
  rw [Bool.eq_false_iff]
  intro h
  rw [isLim_iff] at h
  simp only [light, decide_eq_true_eq] at hx
  rcases h with h | h <;> linarith [h.1]

theorem limIdxs_all (p : ℚ → Bool) (hp : ∀ x y, p x = true → p y = true → isLim x y = false) (A : List ℚ) (prev : ℚ) (i : ℕ)
    (h : p prev = true) (hA : ∀ x ∈ A, p x = true) : limIdxs prev i A = [] := by
  obtain ⟨q, _, e⟩ := limIdxs_stay p hp A [] prev i h hA
  rw [List.append_nil] at e
  rw [e]
  rfl

/-- A list sorted by falling mass is made of the heavy, those in the range and the light. -/
theorem sorted_split {α : Type} (mass : α → ℚ) (rows : List α) (h : rows.Pairwise fun a b => mass b ≤ mass a) :
    rows = rows.filter (fun r => heavy (mass r)) ++ (rows.filter (fun r => inRange (mass r)) ++
      rows.filter (fun r => light (mass r))) := by
  induction rows with
  | nil => rfl
  | cons r rows ih =>
    rw [List.pairwise_cons] at h
    have e := ih h.2
    by_cases h1 : 1500000000000 ≤ mass r
    · have a1 : heavy (mass r) = true := by simpa [heavy] using h1
      have a2 : inRange (mass r) = false := by simp only [inRange, Bool.and_eq_false_iff, decide_eq_false_iff_not]; right; linarith
      have a3 : light (mass r) = false := by simp only [light, decide_eq_false_iff_not]; linarith
      rw [List.filter_cons_of_pos (p := fun r => heavy (mass r)) a1,
        List.filter_cons_of_neg (p := fun r => inRange (mass r)) (by simp [a2]),
        List.filter_cons_of_neg (p := fun r => light (mass r)) (by simp [a3]), List.cons_append, ← e]
    · have n1 : rows.filter (fun r => heavy (mass r)) = [] := by
        rw [List.filter_eq_nil_iff]
        intro x hx
        have := h.1 x hx
        simp only [heavy, decide_eq_true_eq]
        linarith
      have a1 : ¬ heavy (mass r) = true := by simpa [heavy] using h1
      rw [List.filter_cons_of_neg (p := fun r => heavy (mass r)) a1]
      rw [n1, List.nil_append] at e
      rw [n1, List.nil_append]
      by_cases h2 : 800000000000 ≤ mass r
      · have a2 : inRange (mass r) = true := by
          simp only [inRange, Bool.and_eq_true, decide_eq_true_eq]
          exact ⟨h2, by linarith⟩
        have a3 : ¬ light (mass r) = true := by simp only [light, decide_eq_true_eq]; linarith
        rw [List.filter_cons_of_pos (p := fun r => inRange (mass r)) a2,
          List.filter_cons_of_neg (p := fun r => light (mass r)) a3, List.cons_append, ← e]
      · have n2 : rows.filter (fun r => inRange (mass r)) = [] := by
          rw [List.filter_eq_nil_iff]
          intro x hx
          have := h.1 x hx
          simp only [inRange, Bool.and_eq_true, decide_eq_true_eq]
          intro hc
          linarith [hc.1]
        have a2 : ¬ inRange (mass r) = true := by
          simp only [inRange, Bool.and_eq_true, decide_eq_true_eq]
          intro hc
          linarith [hc.1]
        have a3 : light (mass r) = true := by simp only [light, decide_eq_true_eq]; linarith
        rw [n2, List.nil_append] at e
        rw [List.filter_cons_of_neg (p := fun r => inRange (mass r)) a2,
          List.filter_cons_of_pos (p := fun r => light (mass r)) a3, n2, List.nil_append, ← e]

/-- The two indices of a list made of the three kinds. -/
theorem selectIdxs_split (A B C : List ℚ) (hA : ∀ x ∈ A, heavy x = true) (hB : ∀ x ∈ B, inRange x = true)
    (hC : ∀ x ∈ C, light x = true) :
    selectIdxs (A ++ (B ++ C)) =
      if A ≠ [] ∧ B ≠ [] ∧ C ≠ [] then [A.length, A.length + B.length]
      else if A ≠ [] ∧ B ++ C ≠ [] then [A.length]
      else if B ≠ [] ∧ C ≠ [] then [A.length + B.length] else [] := by
  have lim_hr : ∀ x y, heavy x = true → inRange y = true → isLim x y = true := by
    intro x y hx hy
    simp only [heavy, inRange, Bool.and_eq_true, decide_eq_true_eq] at hx hy
    exact (isLim_iff x y).mpr (Or.inl ⟨hx, hy.2⟩)
  have lim_l : ∀ x y, (heavy x = true ∨ inRange x = true) → light y = true → isLim x y = true := by
    intro x y hx hy
    simp only [heavy, inRange, light, Bool.and_eq_true, decide_eq_true_eq] at hx hy
    refine (isLim_iff x y).mpr (Or.inr ⟨?_, hy⟩)
    rcases hx with hx | hx
    · linarith
    · exact hx.1
  have light_end : ∀ (C : List ℚ) (prev : ℚ) (i : ℕ), (∀ x ∈ C, light x = true) → light prev = true → limIdxs prev i C = [] :=
    fun C prev i h hp => limIdxs_all light light_stay C prev i hp h
  have toLight : ∀ (prev : ℚ) (i : ℕ), (heavy prev = true ∨ inRange prev = true) →
      limIdxs prev i C = if C ≠ [] then [i] else [] := by
    intro prev i hp
    cases C with
    | nil => rfl
    | cons c C =>
      have hc := hC c (by simp)
      rw [limIdxs, lim_l prev c hp hc, light_end C c (i + 1) (fun x hx => hC x (by simp [hx])) hc]
      simp
  have fromRange : ∀ (B' : List ℚ) (prev : ℚ) (i : ℕ), (∀ x ∈ B', inRange x = true) → inRange prev = true →
      limIdxs prev i (B' ++ C) = if C ≠ [] then [i + B'.length] else [] := by
    intro B' prev i h hp
    obtain ⟨q, hq, e⟩ := limIdxs_stay inRange inRange_stay B' C prev i hp h
    rw [e, toLight q _ (Or.inr hq)]
  cases A with
  | nil =>
    cases B with
    | nil =>
      cases C with
      | nil => rfl
      | cons c C =>
        simp only [List.nil_append, selectIdxs]
        rw [light_end C c 1 (fun x hx => hC x (by simp [hx])) (hC c (by simp))]
        simp
    | cons b B =>
      simp only [List.nil_append, List.cons_append, selectIdxs]
      rw [fromRange B b 1 (fun x hx => hB x (by simp [hx])) (hB b (by simp))]
      by_cases hc : C = [] <;> simp [hc]
      omega
  | cons a A =>
    simp only [List.cons_append, selectIdxs]
    obtain ⟨q, hq, e⟩ := limIdxs_stay heavy heavy_stay A (B ++ C) a 1 (hA a (by simp)) (fun x hx => hA x (by simp [hx]))
    rw [e]
    cases B with
    | nil =>
      rw [List.nil_append, toLight q _ (Or.inl hq)]
      by_cases hc : C = [] <;> simp [hc]
      omega
    | cons b B =>
      have hb := hB b (by simp)
      rw [List.cons_append, limIdxs, lim_hr q b hq hb, fromRange B b _ (fun x hx => hB x (by simp [hx])) hb]
      by_cases hc : C = [] <;> simp [hc] <;> omega

theorem filter_ne_nil {α : Type} (p : α → Bool) (l : List α) : l.filter p ≠ [] ↔ ∃ x ∈ l, p x = true := by
  rw [Ne, List.filter_eq_nil_iff]
  push Not
  rfl

/-- The indices in terms of the rows. -/
theorem selectIdxs_rows {α : Type} (mass : α → ℚ) (rows : List α) (h : rows.Pairwise fun a b => mass b ≤ mass a) :
    selectIdxs (rows.map mass) =
      if (∃ r ∈ rows, heavy (mass r) = true) ∧ (∃ r ∈ rows, inRange (mass r) = true) ∧ (∃ r ∈ rows, light (mass r) = true) then
        [(rows.filter fun r => heavy (mass r)).length,
          (rows.filter fun r => heavy (mass r)).length + (rows.filter fun r => inRange (mass r)).length]
      else (selectIdxs (rows.map mass)).take 1 := by
  have key := selectIdxs_split ((rows.filter fun r => heavy (mass r)).map mass) ((rows.filter fun r => inRange (mass r)).map mass)
    ((rows.filter fun r => light (mass r)).map mass) (by intro x; simp only [List.mem_map, List.mem_filter]; rintro ⟨y, ⟨_, h⟩, rfl⟩; exact h)
    (by intro x; simp only [List.mem_map, List.mem_filter]; rintro ⟨y, ⟨_, h⟩, rfl⟩; exact h)
    (by intro x; simp only [List.mem_map, List.mem_filter]; rintro ⟨y, ⟨_, h⟩, rfl⟩; exact h)
  rw [← List.map_append, ← List.map_append, ← sorted_split mass rows h] at key
  rw [key]
  simp only [ne_eq, List.map_eq_nil_iff, List.length_map]
  simp only [← ne_eq, filter_ne_nil]
  split_ifs <;> rfl

/-- C192: from a list sorted by falling mass the program draws among the halos within the limits and the first halo below them,
when there are halos above, within and below the limits. Missing: the claim that only halos within the limits are drawn, and lists
that begin or end within the limits or have no halo there; the theorems below show that both fail. -/
theorem C192_range_partial {α : Type} (mass : α → ℚ) (rows : List α) (h : rows.Pairwise fun a b => mass b ≤ mass a)
    (h1 : ∃ r ∈ rows, 1500000000000 ≤ mass r) (h2 : ∃ r ∈ rows, 800000000000 ≤ mass r ∧ mass r < 1500000000000)
    (h3 : ∃ r ∈ rows, mass r < 800000000000) :
    selectRows mass rows = some (rows.filter (fun r => decide (800000000000 ≤ mass r) && decide (mass r < 1500000000000)) ++
      (rows.filter fun r => decide (mass r < 800000000000)).take 1) := by
  have hk := selectIdxs_rows mass rows h
  rw [if_pos ⟨by simpa [heavy] using h1, by simpa [inRange] using h2, by simpa [light] using h3⟩] at hk
  unfold selectRows
  rw [hk]
  simp only [List.getElem?_cons_zero, List.getElem?_cons_succ, Option.bind_eq_bind, Option.bind_some]
  congr 1
  conv_lhs => rw [sorted_split mass rows h]
  set A := rows.filter fun r => heavy (mass r)
  set B := rows.filter fun r => inRange (mass r) with hB
  set C := rows.filter fun r => light (mass r) with hC
  have eA : (A ++ (B ++ C)).filter (fun r => heavy (mass r)) = A := by
    rw [← sorted_split mass rows h]
  have eB : (A ++ (B ++ C)).filter (fun r => inRange (mass r)) = B := by
    rw [← sorted_split mass rows h]
  have hl : A.length + B.length + 1 = A.length + (B.length + 1) := by omega
  try rw [eA]
  try rw [eB]
  rw [hl, List.take_append, List.take_of_length_le (by omega), List.drop_left, Nat.add_sub_cancel_left, List.take_append,
    List.take_of_length_le (by omega), Nat.add_sub_cancel_left]
  rfl

example : selectRows id [3000000000000, 1400000000000, 900000000000, 700000000000, 600000000000] =
    some [1400000000000, 900000000000, 700000000000] := by
  rw [C192_range_partial id _ (by simp; norm_num) ⟨3000000000000, by simp, by norm_num⟩
    ⟨1400000000000, by simp, by norm_num, by norm_num⟩ ⟨600000000000, by simp, by norm_num⟩]
  decide

/-- C192 is false: whenever the program chooses at all from a list sorted by falling mass, one of the halos it draws from is
below the lower limit. -/
theorem C192_counterexample {α : Type} (mass : α → ℚ) (rows sel : List α) (h : rows.Pairwise fun a b => mass b ≤ mass a)
    (hs : selectRows mass rows = some sel) : ∃ r ∈ sel, mass r < 800000000000 := by
  by_cases hc : (∃ r ∈ rows, heavy (mass r) = true) ∧ (∃ r ∈ rows, inRange (mass r) = true) ∧ (∃ r ∈ rows, light (mass r) = true)
  · have h3 : ∃ r ∈ rows, mass r < 800000000000 := by simpa [light] using hc.2.2
    rw [C192_range_partial mass rows h (by simpa [heavy] using hc.1) (by simpa [inRange] using hc.2.1) h3] at hs
    obtain ⟨r, hr, hm⟩ := h3
    have hne : rows.filter (fun r => decide (mass r < 800000000000)) ≠ [] := (filter_ne_nil _ _).mpr ⟨r, hr, by simpa using hm⟩
    obtain ⟨x, l, e⟩ := List.exists_cons_of_ne_nil hne
    have hx : x ∈ rows.filter (fun r => decide (mass r < 800000000000)) := by rw [e]; simp
    refine ⟨x, ?_, by simpa using (List.mem_filter.mp hx).2⟩
    rw [← Option.some.inj hs, e]
    simp
  · have hk := selectIdxs_rows mass rows h
    rw [if_neg hc] at hk
    unfold selectRows at hs
    rw [hk] at hs
    exfalso
    cases hz : selectIdxs (rows.map mass) with
    | nil => rw [hz] at hs; simp at hs
    | cons a l => rw [hz] at hs; simp at hs

/-- C192 is false also for lists without a halo above, within or below the limits: the program stops with an exception. -/
theorem C192_counterexample_refused {α : Type} (mass : α → ℚ) (rows : List α) (h : rows.Pairwise fun a b => mass b ≤ mass a) :
    selectRows mass rows = none ↔ (∀ r ∈ rows, mass r < 1500000000000) ∨
      (∀ r ∈ rows, ¬ (800000000000 ≤ mass r ∧ mass r < 1500000000000)) ∨ (∀ r ∈ rows, 800000000000 ≤ mass r) := by
  constructor
  · intro hn
    by_contra hc
    push Not at hc
    obtain ⟨h1, h2, h3⟩ := hc
    rw [C192_range_partial mass rows h h1 h2 h3] at hn
    cases hn
  · intro hc
    have hk := selectIdxs_rows mass rows h
    rw [if_neg] at hk
    · unfold selectRows
      rw [hk]
      cases hz : selectIdxs (rows.map mass) with
      | nil => simp
      | cons a l => simp
    · rintro ⟨⟨r, hr, e⟩, ⟨s, hs, e'⟩, ⟨t, ht, e''⟩⟩
      simp only [heavy, inRange, light, Bool.and_eq_true, decide_eq_true_eq] at e e' e''
      rcases hc with hc | hc | hc
      · linarith [hc r hr]
      · exact hc s hs e'
      · linarith [hc t ht]

example : selectRows id [1400000000000, 900000000000, 700000000000] = none :=
  (C192_counterexample_refused id _ (by simp; norm_num)).mpr (Or.inl (by simp; norm_num))

/-- C192: the number of particles written is a whole number of at least 20 and falls short of the formula by less than one. -/
theorem C192_particles (L l pixels : ℚ) :
    20 ≤ particlesWritten L l pixels ∧ 500 * (L / (3 * l)) ^ 3 * (pixels / 500) ^ 3 < particlesWritten L l pixels + 1 ∧
      (20 ≤ 500 * (L / (3 * l)) ^ 3 * (pixels / 500) ^ 3 →
        (particlesWritten L l pixels : ℚ) ≤ 500 * (L / (3 * l)) ^ 3 * (pixels / 500) ^ 3) := by
  unfold particlesWritten renderParticles
  refine ⟨Int.le_floor.mpr (by push_cast; exact le_max_right _ _), lt_of_le_of_lt (le_max_left _ 20) (Int.lt_floor_add_one _), ?_⟩
  intro h
  rw [max_eq_left h]
  exact Int.floor_le _

example : 20 ≤ particlesWritten 63 2 400 := (C192_particles 63 2 400).1

/-! ## Files -/

theorem scriptPath_inj {dir n n' s s' : List Char} (hs : s ∈ ["_shell.sh".toList, "_render.txt".toList, "_halo.txt".toList])
    (hs' : s' ∈ ["_shell.sh".toList, "_render.txt".toList, "_halo.txt".toList])
    (h : scriptPath dir n s = scriptPath dir n' s') : n = n' ∧ s = s' := by
  have h' : n ++ s = n' ++ s' := by
    unfold scriptPath at h
    have := List.append_cancel_left h
    exact (List.cons.inj this).2
  have fifth : ∀ m t : List Char, t ∈ ["_shell.sh".toList, "_render.txt".toList, "_halo.txt".toList] →
      (m ++ t).reverse[4]? = t.reverse[4]? := by
    intro m t ht
    rw [List.reverse_append, List.getElem?_append_left]
    revert t
    decide
  have hr : s.reverse[4]? = s'.reverse[4]? := by rw [← fifth n s hs, h', fifth n' s' hs']
  have key : s = s' := by
    have all : ∀ s ∈ ["_shell.sh".toList, "_render.txt".toList, "_halo.txt".toList],
        ∀ s' ∈ ["_shell.sh".toList, "_render.txt".toList, "_halo.txt".toList], s.reverse[4]? = s'.reverse[4]? → s = s' := by
      decide
    exact all s hs s' hs' hr
  subst key
  exact ⟨List.append_cancel_right h', rfl⟩

theorem genScripts_other (dir name a b c : List Char) (d : Disk) (n s : List Char) (hn : n ≠ name)
    (hs : s ∈ ["_shell.sh".toList, "_render.txt".toList, "_halo.txt".toList]) :
    genScripts dir name a b c d (scriptPath dir n s) = d (scriptPath dir n s) := by
  unfold genScripts Disk.write
  rw [if_neg (fun e => hn (scriptPath_inj hs (by simp) e).1), if_neg (fun e => hn (scriptPath_inj hs (by simp) e).1),
    if_neg (fun e => hn (scriptPath_inj hs (by simp) e).1)]

theorem genScripts_own (dir name a b c : List Char) (d : Disk) :
    genScripts dir name a b c d (scriptPath dir name "_shell.sh".toList) = some a ∧
      genScripts dir name a b c d (scriptPath dir name "_render.txt".toList) = some b ∧
      genScripts dir name a b c d (scriptPath dir name "_halo.txt".toList) = some c := by
  unfold genScripts Disk.write
  have ne : ∀ s s' : List Char, s ∈ ["_shell.sh".toList, "_render.txt".toList, "_halo.txt".toList] →
      s' ∈ ["_shell.sh".toList, "_render.txt".toList, "_halo.txt".toList] → s ≠ s' →
      scriptPath dir name s ≠ scriptPath dir name s' := fun s s' hs hs' h e => h (scriptPath_inj hs hs' e).2
  refine ⟨?_, ?_, ?_⟩
  · rw [if_neg (ne _ _ (by simp) (by simp) (by decide)), if_neg (ne _ _ (by simp) (by simp) (by decide)), if_pos rfl]
  · rw [if_neg (ne _ _ (by simp) (by simp) (by decide)), if_pos rfl]
  · rw [if_pos rfl]

/-- C192: when the halos drawn have different names, every one ends up with its own three files. -/
theorem C192_files {α : Type} (dir : List Char) (name shell render ball : α → List Char) (rows : List α) (d : Disk)
    (h : rows.Pairwise fun a b => name a ≠ name b) (r : α) (hr : r ∈ rows) :
    genAll dir name shell render ball rows d (scriptPath dir (name r) "_shell.sh".toList) = some (shell r) ∧
      genAll dir name shell render ball rows d (scriptPath dir (name r) "_render.txt".toList) = some (render r) ∧
      genAll dir name shell render ball rows d (scriptPath dir (name r) "_halo.txt".toList) = some (ball r) := by
  have stay : ∀ (rows : List α) (d : Disk) (n s : List Char), (∀ x ∈ rows, n ≠ name x) →
      s ∈ ["_shell.sh".toList, "_render.txt".toList, "_halo.txt".toList] →
      genAll dir name shell render ball rows d (scriptPath dir n s) = d (scriptPath dir n s) := by
    intro rows
    induction rows with
    | nil => intro d n s _ _; rfl
    | cons x rows ih =>
      intro d n s hn hs
      have := ih (genScripts dir (name x) (shell x) (render x) (ball x) d) n s (fun y hy => hn y (by simp [hy])) hs
      unfold genAll at this ⊢
      rw [List.foldl_cons, this, genScripts_other _ _ _ _ _ _ _ _ (hn x (by simp)) hs]
  induction rows generalizing d with
  | nil => simp at hr
  | cons x rows ih =>
    rw [List.pairwise_cons] at h
    have e : ∀ f, genAll dir name shell render ball (x :: rows) d f =
        genAll dir name shell render ball rows (genScripts dir (name x) (shell x) (render x) (ball x) d) f := fun f => rfl
    rw [e, e, e]
    rcases List.mem_cons.mp hr with rfl | hr
    · rw [stay rows _ _ _ h.1 (by simp), stay rows _ _ _ h.1 (by simp), stay rows _ _ _ h.1 (by simp)]
      exact genScripts_own _ _ _ _ _ _
    · exact ih _ h.2 hr

example : genAll "d".toList id id id id ["m_1e+12".toList, "m_2e+12".toList] (fun _ => none) (scriptPath "d".toList "m_1e+12".toList "_halo.txt".toList) =
    some "m_1e+12".toList :=
  (C192_files "d".toList id id id id ["m_1e+12".toList, "m_2e+12".toList] (fun _ => none) (by decide) "m_1e+12".toList
    (by decide)).2.2

/-- C192: two halos with the same name (masses that agree in six digits) share their files: those of the first are lost. -/
theorem C192_counterexample_names {α : Type} (dir : List Char) (name shell render ball : α → List Char) (a b : α) (d : Disk)
    (h : name a = name b) :
    genAll dir name shell render ball [a, b] d (scriptPath dir (name a) "_halo.txt".toList) = some (ball b) := by
  unfold genAll
  rw [List.foldl_cons, List.foldl_cons, List.foldl_nil, h]
  exact (genScripts_own _ _ _ _ _ _).2.2

example : genAll "d".toList (fun _ : ℕ => "m_1e+12".toList) (fun _ => []) (fun _ => []) (fun i => Nat.toDigits 10 i) [1, 2] (fun _ => none)
    (scriptPath "d".toList "m_1e+12".toList "_halo.txt".toList) = some ['2'] :=
  C192_counterexample_names "d".toList (fun _ : ℕ => "m_1e+12".toList) (fun _ => []) (fun _ => []) (fun i => Nat.toDigits 10 i) 1 2
    (fun _ => none) rfl

end Verif.Py
