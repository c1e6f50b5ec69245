import Verif.Py.AutomateModel
import Mathlib.Tactic.Linarith
import Mathlib.Data.List.Nodup
import Mathlib.Data.List.Pairwise

/-! # C184: arguments and file names of the script that joins the programs -/

set_option autoImplicit false

namespace Verif.Py

open Verif.Halo Verif.Main

/-- What the message of the script asks for, apart from the sign of the halo: three arguments, a number or `None`, a known
radius and an odd positive number. -/
def GoodArgs (pyInt : String → Option ℤ) (argv : List String) : Prop :=
  ∃ p a r f, argv = [p, a, r, f] ∧ (a = "None" ∨ ∃ ih, pyInt a = some ih) ∧
    (r = "vir" ∨ r = "200c" ∨ r = "500c" ∨ r = "200m") ∧ ∃ n : Nat, pyInt f = some (2 * (n : ℤ) + 1)

theorem isEven_iff (k : ℤ) : (decide (k > 0) && !isEven k) = true ↔ ∃ n : Nat, k = 2 * n + 1 := by
  have h : isEven k = true ↔ k % 2 = 0 := by
    unfold isEven
    rw [beq_iff_eq, Int.fdiv_eq_ediv_of_nonneg _ (by norm_num)]
    omega
  simp only [Bool.and_eq_true, decide_eq_true_eq, Bool.not_eq_true', ← Bool.not_eq_true, h]
  constructor
  · intro ⟨h0, h1⟩
    exact ⟨(k / 2).toNat, by omega⟩
  · rintro ⟨n, rfl⟩
    omega

theorem rDefs_iff (r : String) : rDefs.contains r = true ↔ (r = "vir" ∨ r = "200c" ∨ r = "500c" ∨ r = "200m") := by
  simp [rDefs]

/-- C184: the script shows its usage exactly when the arguments are not as it asks, fails with an exception exactly when the
halo is `None`, and otherwise goes on with the halo, radius and filter of the arguments. -/
theorem C184_arguments (pyInt : String → Option ℤ) (dir : List Char) (argv : List String) :
    (automate pyInt dir argv = .usage ↔ ¬ GoodArgs pyInt argv) ∧
    (automate pyInt dir argv = .typeError ↔ GoodArgs pyInt argv ∧ argv[1]? = some "None") ∧
    ∀ n, automate pyInt dir argv = .ok n ↔ GoodArgs pyInt argv ∧ ∃ p a r f ih k, argv = [p, a, r, f] ∧ a ≠ "None" ∧
      pyInt a = some ih ∧ pyInt f = some k ∧ n = names dir ih r k := by
  rcases argv with _ | ⟨p, _ | ⟨a, _ | ⟨r, _ | ⟨f, _ | ⟨x, t⟩⟩⟩⟩⟩
  · simp [automate, GoodArgs]
  · simp [automate, GoodArgs]
  · simp [automate, GoodArgs]
  · simp [automate, GoodArgs]
  · have hg : GoodArgs pyInt [p, a, r, f] ↔ (a = "None" ∨ ∃ ih, pyInt a = some ih) ∧ rDefs.contains r = true ∧
        ∃ k, pyInt f = some k ∧ (decide (k > 0) && !isEven k) = true := by
      rw [rDefs_iff]
      constructor
      · rintro ⟨p', a', r', f', e, h1, h2, n, h3⟩
        simp only [List.cons.injEq, and_true] at e
        obtain ⟨rfl, rfl, rfl, rfl⟩ := e
        exact ⟨h1, h2, _, h3, (isEven_iff _).2 ⟨n, rfl⟩⟩
      · rintro ⟨h1, h2, k, h3, h4⟩
        obtain ⟨n, rfl⟩ := (isEven_iff _).1 h4
        exact ⟨p, a, r, f, rfl, h1, h2, n, h3⟩
    rw [hg]
    cases hr : rDefs.contains r
    · have : automate pyInt dir [p, a, r, f] = .usage := by
        unfold automate
        simp only [hr]
        split <;> simp_all
      simp [this]
    · cases hf : pyInt f with
      | none =>
        have : automate pyInt dir [p, a, r, f] = .usage := by
          unfold automate
          simp only [hf]
          split
          · simp_all
          · rfl
        simp [this]
      | some k =>
        by_cases hk : (decide (k > 0) && !isEven k) = true
        · by_cases ha : a = "None"
          · subst ha
            have : automate pyInt dir [p, "None", r, f] = .typeError := by
              unfold automate
              simp only [if_true, hf, hr, hk]
              rfl
            simp only [this, reduceCtorEq, false_iff, not_not, true_or, true_and, Option.some.injEq, exists_eq_left', hk]
            refine ⟨by simp, ?_⟩
            rintro n ⟨p', a', r', f', ih, k', e, h, -⟩
            simp only [List.cons.injEq, and_true] at e
            exact h e.2.1.symm
          · cases hi : pyInt a with
            | none =>
              have : automate pyInt dir [p, a, r, f] = .usage := by
                unfold automate
                simp only [if_neg ha, hi, hf]
                rfl
              simp [this, ha]
            | some ih =>
              have : automate pyInt dir [p, a, r, f] = .ok (names dir ih r k) := by
                unfold automate
                simp only [if_neg ha, hi, hf, Option.map_some, hr, hk]
                rfl
              simp only [this, reduceCtorEq, false_iff, Option.some.injEq, exists_eq', or_true, true_and, exists_eq_left', hk,
                not_true, not_false_eq_true, List.getElem?_cons_succ, List.getElem?_cons_zero, ha, Outcome.ok.injEq]
              intro n
              constructor
              · rintro rfl
                exact ⟨p, a, r, f, ih, k, rfl, ha, hi, hf, rfl⟩
              · rintro ⟨p', a', r', f', ih', k', e, -, h1, h2, rfl⟩
                simp only [List.cons.injEq, and_true] at e
                obtain ⟨rfl, rfl, rfl, rfl⟩ := e
                rw [hi] at h1
                rw [hf] at h2
                simp only [Option.some.injEq] at h1 h2
                rw [h1, h2]
        · have : automate pyInt dir [p, a, r, f] = .usage := by
            unfold automate
            simp only [hf]
            split
            · simp_all
            · rfl
          have hn : ¬ ∃ k', some k = some k' ∧ (decide (k' > 0) && !isEven k') = true := by
            rintro ⟨k', e, h⟩
            simp only [Option.some.injEq] at e
            exact hk (e ▸ h)
          simp only [this, hn, and_false, false_and, not_false_eq_true, reduceCtorEq, implies_true, and_self]
  · simp [automate, GoodArgs]

/-- A reader of two numbers. -/
def exInt (s : String) : Option ℤ := if s = "-5" then some (-5) else if s = "21" then some 21 else none

example : GoodArgs exInt ["automate.py", "21", "200c", "21"] ∧ ¬ GoodArgs exInt ["automate.py", "21", "200c"] :=
  ⟨⟨_, _, _, _, rfl, .inr ⟨21, by decide +kernel⟩, by simp, 10, by decide +kernel⟩, by rintro ⟨_, _, _, _, e, -⟩; simp at e⟩

/-- C184 does not hold for the halo: the message asks for `1 <= n`, and a negative halo is accepted. -/
theorem C184_counterexample_halo : ∃ n, automate exInt "d".toList ["automate.py", "-5", "200c", "21"] = .ok n ∧ n.gtetFile = "d/-5h.gtet".toList := by
  refine ⟨names "d".toList (-5) "200c" 21, rfl, by decide +kernel⟩

/-- C184: the radius given on is known to the halo program, which writes the file of subhalos of halo `ih` under the name that
the script works out, the ball under the name of the image, and the image and lines have the names that the script works out.
For all radii but the virial one. -/
theorem C184_names_partial (lower : Char → Char) (hl : ∀ c ∈ "0125cm".toList, lower c = c) (dir : List Char) (ih : ℤ)
    (r : String) (k : ℤ) (hr : r = "200c" ∨ r = "500c" ∨ r = "200m") :
    ∃ rad rs, radiusFromString lower (names dir ih r k).rDef = (rad, true) ∧ radiusString rad = some rs ∧
      (scriptFiles dir (haloName ih) rs.toList)[3]? = some (names dir ih r k).shFile ∧
      (names dir ih r k).gtetFile = join dir (imageName [] (haloName ih) []) ∧
      profileFiles (names dir ih r k).outPrefix = (names dir ih r k).lines := by
  have h0 := hl '0' (by decide)
  have h2 := hl '2' (by decide)
  have h5 := hl '5' (by decide)
  have hc := hl 'c' (by decide)
  have hm := hl 'm' (by decide)
  have hp : profileFiles (names dir ih r k).outPrefix = (names dir ih r k).lines := by
    simp only [profileFiles, names, join, List.append_assoc, List.cons_append]
  have hg : (names dir ih r k).gtetFile = join dir (imageName [] (haloName ih) []) := by
    simp [names, imageName, haloName, join]
  have hs : ∀ rs : List Char, 'R' :: r.toList = rs →
      (scriptFiles dir (haloName ih) rs)[3]? = some (names dir ih r k).shFile := by
    rintro rs rfl
    simp [names, scriptFiles, haloName, join]
  rcases hr with rfl | rfl | rfl
  · refine ⟨r200c, "R200c", ?_, by decide, hs _ rfl, hg, hp⟩
    simp only [names, radiusFromString, show "200c".toList = ['2', '0', '0', 'c'] from rfl, List.map_cons, List.map_nil, h0, h2,
      hc]
    decide +kernel
  · refine ⟨r500c, "R500c", ?_, by decide, hs _ rfl, hg, hp⟩
    simp only [names, radiusFromString, show "500c".toList = ['5', '0', '0', 'c'] from rfl, List.map_cons, List.map_nil, h0, h5,
      hc]
    decide +kernel
  · refine ⟨r200m, "R200m", ?_, by decide, hs _ rfl, hg, hp⟩
    simp only [names, radiusFromString, show "200m".toList = ['2', '0', '0', 'm'] from rfl, List.map_cons, List.map_nil, h0, h2,
      hm]
    decide +kernel

example : ∀ c ∈ "0125cm".toList, c.toLower = c := by decide +kernel

/-- C184 does not hold for the virial radius: the halo program writes `RVir`, the script expects `Rvir`. -/
theorem C184_counterexample_vir (dir : List Char) (ih k : ℤ) : radiusFromString Char.toLower (names dir ih "vir" k).rDef =
      (rVirial, true) ∧ radiusString rVirial = some "RVir" ∧
    (names dir ih "vir" k).shFile ∉ scriptFiles dir (haloName ih) "RVir".toList := by
  refine ⟨by simp only [names]; decide +kernel, by decide, ?_⟩
  simp [names, scriptFiles, haloName, join]

theorem digits_split : ∀ (a b s t : List Char), (∀ c ∈ a, c.isDigit = true) → (∀ c ∈ b, c.isDigit = true) →
    a ++ 'h' :: s = b ++ 'h' :: t → a = b ∧ s = t
  | [], [], s, t, _, _, h => by simpa using h
  | [], d :: b, s, t, _, hb, h => by
    simp only [List.nil_append, List.cons_append, List.cons.injEq] at h
    have := hb d (by simp)
    rw [← h.1] at this
    exact absurd this (by decide)
  | d :: a, [], s, t, ha, _, h => by
    simp only [List.nil_append, List.cons_append, List.cons.injEq] at h
    have := ha d (by simp)
    rw [h.1] at this
    exact absurd this (by decide)
  | d :: a, e :: b, s, t, ha, hb, h => by
    simp only [List.cons_append, List.cons.injEq] at h
    obtain ⟨h1, h2⟩ := digits_split a b s t (fun c hc => ha c (by simp [hc])) (fun c hc => hb c (by simp [hc])) h.2
    exact ⟨by rw [h.1, h1], h2⟩

theorem haloName_split (m n : ℤ) (s t : List Char) (h : haloName m ++ s = haloName n ++ t) : m = n ∧ s = t := by
  have e : ∀ k : ℤ, ∀ u, haloName k ++ u = (if k < 0 then ['-'] else []) ++ (Nat.toDigits 10 k.natAbs ++ 'h' :: u) := by
    intro k u
    simp [haloName, dec]
  rw [e, e] at h
  have hd : ∀ k : Nat, ∀ c ∈ Nat.toDigits 10 k, c.isDigit = true := fun k c hc =>
    Nat.isDigit_of_mem_toDigits (by norm_num) (by norm_num) hc
  have minus : ∀ (l b u : List Char), (∀ c ∈ b, c.isDigit = true) → '-' :: l ≠ b ++ 'h' :: u := by
    intro l b u hb hc
    cases b with
    | nil => simp at hc
    | cons d b =>
      simp only [List.cons_append, List.cons.injEq] at hc
      have := hb d (by simp)
      rw [← hc.1] at this
      exact absurd this (by decide)
  have nat : ∀ a b : Nat, Nat.toDigits 10 a = Nat.toDigits 10 b → a = b := by
    intro a b hab
    rw [← Nat.ofDigitChars_ten_toDigits (n := a), hab, Nat.ofDigitChars_ten_toDigits]
  by_cases hm : m < 0 <;> by_cases hn : n < 0
  · rw [if_pos hm, if_pos hn] at h
    simp only [List.cons_append, List.nil_append, List.cons.injEq, true_and] at h
    obtain ⟨h1, h2⟩ := digits_split _ _ _ _ (hd _) (hd _) h
    have := nat _ _ h1
    exact ⟨by omega, h2⟩
  · rw [if_pos hm, if_neg hn] at h
    exact absurd h (minus _ _ _ (hd _))
  · rw [if_neg hm, if_pos hn] at h
    exact absurd h.symm (minus _ _ _ (hd _))
  · rw [if_neg hm, if_neg hn] at h
    obtain ⟨h1, h2⟩ := digits_split _ _ _ _ (hd _) (hd _) h
    have := nat _ _ h1
    exact ⟨by omega, h2⟩

theorem mem_scriptFiles (dir rs f : List Char) (n : ℤ) (h : f ∈ scriptFiles dir (haloName n) rs) :
    ∃ s, f = join dir (haloName n ++ s) := by
  simp only [scriptFiles, List.mem_cons, List.not_mem_nil, or_false] at h
  rcases h with rfl | rfl | rfl | rfl
  · exact ⟨_, rfl⟩
  · exact ⟨_, rfl⟩
  · exact ⟨_, rfl⟩
  · exact ⟨'_' :: rs ++ "_sh.txt".toList, by simp⟩

/-- C184: for different halos, no file of the halo program is written twice: each halo has four files of its own. -/
theorem C184_distinct (dir : List Char) (r : ℤ) (rs : String) (hr : radiusString r = some rs) (idxs : List ℤ)
    (hd : idxs.Nodup) : (writtenFiles dir rs.toList idxs).Nodup ∧ (writtenFiles dir rs.toList idxs).length = 4 * idxs.length := by
  have hlen : ∀ l : List ℤ, (writtenFiles dir rs.toList l).length = 4 * l.length := by
    intro l
    induction l with
    | nil => rfl
    | cons a l ih =>
      have : writtenFiles dir rs.toList (a :: l) = scriptFiles dir (haloName a) rs.toList ++ writtenFiles dir rs.toList l := rfl
      rw [this, List.length_append, ih, List.length_cons]
      simp only [scriptFiles, List.length_cons, List.length_nil]
      ring
  refine ⟨?_, hlen idxs⟩
  unfold writtenFiles
  rw [List.nodup_flatMap]
  constructor
  · intro n _
    have hrs : rs.toList.head? = some 'R' := by
      unfold radiusString at hr
      split_ifs at hr <;> simp only [Option.some.injEq] at hr <;> subst hr <;> rfl
    obtain ⟨l, hl⟩ : ∃ l, rs.toList = 'R' :: l := by
      cases h : rs.toList with
      | nil => simp [h] at hrs
      | cons a l => simp [h] at hrs; exact ⟨l, by rw [hrs]⟩
    rw [hl]
    simp [scriptFiles, join]
  · refine hd.imp ?_
    intro m n hmn f h1 h2
    obtain ⟨s, e1⟩ := mem_scriptFiles dir rs.toList f m h1
    obtain ⟨t, e2⟩ := mem_scriptFiles dir rs.toList f n h2
    rw [e1] at e2
    unfold join at e2
    have := List.append_cancel_left e2
    simp only [List.cons.injEq, true_and] at this
    exact hmn (haloName_split m n s t this).1

example : writtenFiles "d".toList "R200c".toList [7, 12] = ["d/7h_shell.sh".toList, "d/7h_render.txt".toList,
    "d/7h_ball.txt".toList, "d/7h_R200c_sh.txt".toList, "d/12h_shell.sh".toList, "d/12h_render.txt".toList,
    "d/12h_ball.txt".toList, "d/12h_R200c_sh.txt".toList] := by decide +kernel

end Verif.Py
