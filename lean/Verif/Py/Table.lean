import Verif.Py.TableModel
import Verif.Scripts.LinesProps
import Mathlib.Data.List.GetD
import Mathlib.Tactic.IntervalCases

/-!
# C166, C167: tables of profiles and of caustics are read back as they were written

Specification: numbers are read back as `q`, what is left of them after printing; everything else is the identity.
-/

set_option autoImplicit false

namespace Verif.Py

open Verif.Go

/-! ### Splitting -/

theorem splitOn_ne (c : Char) (s : List Char) : splitOn c s ≠ [] := by
  cases s with
  | nil => simp [splitOn]
  | cons x s =>
    unfold splitOn
    split
    · simp
    · split <;> simp

theorem splitOn_cons_sep (c : Char) (s : List Char) : splitOn c (c :: s) = [] :: splitOn c s := by
  rw [splitOn]
  split
  · rename_i h; exact absurd h (splitOn_ne c s)
  · rename_i h; rw [if_pos rfl, h]

theorem splitOn_append (c : Char) (a b : List Char) : splitOn c (a ++ c :: b) = splitOn c a ++ splitOn c b := by
  induction a with
  | nil => rw [List.nil_append, splitOn_cons_sep]; rfl
  | cons x a ih =>
    rw [List.cons_append, splitOn, splitOn, ih]
    cases h : splitOn c a with
    | nil => exact absurd h (splitOn_ne c a)
    | cons w ws =>
      simp only [List.cons_append]
      split <;> rfl

theorem splitOn_free (c : Char) (a : List Char) (h : c ∉ a) : splitOn c a = [a] := by
  induction a with
  | nil => rfl
  | cons x a ih =>
    rw [splitOn, ih (fun hc => h (by simp [hc]))]
    simp only
    rw [if_neg (fun e => h (by simp [e]))]

theorem words_append (a b : List Char) : words (a ++ ' ' :: b) = words a ++ words b := by
  unfold words
  rw [splitOn_append, List.filter_append]

theorem words_space (b : List Char) : words (' ' :: b) = words b := by
  have := words_append [] b
  rw [List.nil_append] at this
  rw [this]
  simp [words, splitOn]

/-- A text of one token. -/
structure Token (t : List Char) : Prop where
  ne : t ≠ []
  sp : ' ' ∉ t
  nl : '\n' ∉ t
  hash : '#' ∉ t

theorem words_token {t : List Char} (h : Token t) : words t = [t] := by
  unfold words
  rw [splitOn_free _ _ h.sp]
  simp [h.ne]

theorem words_pad {t : List Char} (h : Token t) (w : Nat) : words (pad w t) = [t] := by
  unfold pad
  induction w - t.length with
  | zero => simpa using words_token h
  | succ k ih => rw [List.replicate_succ, List.cons_append, words_space, ih]

theorem pad_free {t : List Char} {c : Char} (hc : c ≠ ' ') (h : c ∉ t) (w : Nat) : c ∉ pad w t := by
  unfold pad
  simp [List.mem_replicate, hc, h]

/-! ### Profiles -/

theorem words_row {V : Type} {tok : V → List Char} (ht : ∀ v, Token (tok v)) (row : List (V × V)) :
    words (row.flatMap (fun p => pad 9 (tok p.1) ++ ' ' :: pad 9 (tok p.2) ++ [' '])) =
      row.flatMap fun p => [tok p.1, tok p.2] := by
  induction row with
  | nil => rfl
  | cons p row ih =>
    rw [List.flatMap_cons, List.flatMap_cons, List.append_assoc, List.append_assoc, List.cons_append, List.singleton_append,
      words_append, words_append, ih, words_pad (ht _), words_pad (ht _)]
    rfl

theorem row_free {V : Type} {tok : V → List Char} (ht : ∀ v, Token (tok v)) (row : List (V × V)) (c : Char) (hc : c ≠ ' ')
    (hcn : ∀ v, c ∉ tok v) : c ∉ row.flatMap (fun p => pad 9 (tok p.1) ++ ' ' :: pad 9 (tok p.2) ++ [' ']) := by
  intro h
  rw [List.mem_flatMap] at h
  obtain ⟨p, _, h⟩ := h
  simp only [List.mem_append, List.mem_cons, List.not_mem_nil, or_false] at h
  rcases h with (h | h | h) | h
  · exact pad_free hc (hcn _) _ h
  · exact hc h
  · exact pad_free hc (hcn _) _ h
  · exact hc h

/-- Lines of a text that ends its last line. -/
theorem splitOn_rows {V : Type} {tok : V → List Char} (ht : ∀ v, Token (tok v)) (rows : List (List (V × V))) (rest : List Char) :
    splitOn '\n' (rows.flatMap (rowText tok) ++ rest) =
      rows.map (fun row => row.flatMap (fun p => pad 9 (tok p.1) ++ ' ' :: pad 9 (tok p.2) ++ [' '])) ++ splitOn '\n' rest := by
  induction rows with
  | nil => rfl
  | cons r rows ih =>
    rw [List.flatMap_cons, rowText, List.append_assoc, List.append_assoc, List.singleton_append, splitOn_append, ih,
      splitOn_free _ _ (row_free ht r '\n' (by decide) (fun v => (ht v).nl))]
    rfl

theorem takeWhile_free {s : List Char} (h : '#' ∉ s) : s.takeWhile (· ≠ '#') = s := by
  induction s with
  | nil => rfl
  | cons x s ih =>
    have hx : x ≠ '#' := fun e => h (by simp [e])
    rw [List.takeWhile_cons_of_pos (by simp [hx]), ih (fun hc => h (by simp [hc]))]

theorem mapM_parse {V Q : Type} {tok : V → List Char} {parse : List Char → Option Q} {q : V → Q}
    (hq : ∀ v, parse (tok v) = some (q v)) (row : List (V × V)) :
    (row.flatMap fun p => [tok p.1, tok p.2]).mapM parse = some (row.flatMap fun p => [q p.1, q p.2]) := by
  induction row with
  | nil => rfl
  | cons p row ih =>
    rw [List.flatMap_cons, List.flatMap_cons, List.mapM_append, ih]
    simp [hq]

theorem loadtxt_rows {V Q : Type} {tok : V → List Char} {parse : List Char → Option Q} {q : V → Q} (ht : ∀ v, Token (tok v))
    (hq : ∀ v, parse (tok v) = some (q v)) (n : Nat) (hn : 0 < n) (top rows : List (List (V × V)))
    (hl : ∀ r ∈ top ++ rows, r.length = n) (c1 c2 : List Char) (h1 : '\n' ∉ c1) (h2 : '\n' ∉ c2) :
    loadtxt parse ('#' :: c1 ++ ['\n'] ++ top.flatMap (rowText tok) ++ ('#' :: c2 ++ ['\n']) ++ rows.flatMap (rowText tok)) =
      some ((top ++ rows).map fun row => row.flatMap fun p => [q p.1, q p.2]) := by
  have hh : ∀ c : List Char, '\n' ∉ c → '\n' ∉ '#' :: c := by
    intro c hc h
    rcases List.mem_cons.mp h with h | h
    · exact absurd h (by decide)
    · exact hc h
  have es : splitOn '\n' ('#' :: c1 ++ ['\n'] ++ top.flatMap (rowText tok) ++ ('#' :: c2 ++ ['\n']) ++ rows.flatMap (rowText tok)) =
      ('#' :: c1) :: (top.map (fun row => row.flatMap (fun p => pad 9 (tok p.1) ++ ' ' :: pad 9 (tok p.2) ++ [' '])) ++
        (('#' :: c2) :: (rows.map (fun row => row.flatMap (fun p => pad 9 (tok p.1) ++ ' ' :: pad 9 (tok p.2) ++ [' '])) ++ [[]]))) := by
    have e2 : splitOn '\n' (rows.flatMap (rowText tok)) =
        rows.map (fun row => row.flatMap (fun p => pad 9 (tok p.1) ++ ' ' :: pad 9 (tok p.2) ++ [' '])) ++ [[]] := by
      have := splitOn_rows ht rows []
      rw [List.append_nil] at this
      rw [this]; rfl
    rw [show '#' :: c1 ++ ['\n'] ++ top.flatMap (rowText tok) ++ ('#' :: c2 ++ ['\n']) ++ rows.flatMap (rowText tok) =
      ('#' :: c1) ++ '\n' :: (top.flatMap (rowText tok) ++ (('#' :: c2) ++ '\n' :: rows.flatMap (rowText tok))) by
        simp only [List.append_assoc, List.cons_append, List.nil_append, List.singleton_append]]
    rw [splitOn_append, splitOn_rows ht, splitOn_append, splitOn_free _ _ (hh c1 h1), splitOn_free _ _ (hh c2 h2), e2]
    rfl
  have er : ∀ r ∈ top ++ rows, words ((r.flatMap (fun p => pad 9 (tok p.1) ++ ' ' :: pad 9 (tok p.2) ++ [' '])).takeWhile (· ≠ '#')) =
      r.flatMap fun p => [tok p.1, tok p.2] := by
    intro r _
    rw [takeWhile_free (row_free ht r '#' (by decide) (fun v => (ht v).hash)), words_row ht]
  have ek : ∀ l : List (List (V × V)), (∀ r ∈ l, r ∈ top ++ rows) →
      ((l.map (fun row => row.flatMap (fun p => pad 9 (tok p.1) ++ ' ' :: pad 9 (tok p.2) ++ [' ']))).map
        fun l => words (l.takeWhile (· ≠ '#'))).filter (· ≠ []) = l.map fun row => row.flatMap fun p => [tok p.1, tok p.2] := by
    intro l hl'
    rw [List.map_map]
    rw [show l.map ((fun l => words (List.takeWhile (· ≠ '#') l)) ∘ fun row =>
        List.flatMap (fun p : V × V => pad 9 (tok p.1) ++ ' ' :: pad 9 (tok p.2) ++ [' ']) row) =
        l.map (fun row => row.flatMap fun p => [tok p.1, tok p.2]) from
      List.map_congr_left (fun r hr => er r (hl' r hr))]
    rw [List.filter_eq_self]
    intro x hx
    obtain ⟨r, hr, rfl⟩ := List.mem_map.mp hx
    have := hl r (hl' r hr)
    cases r with
    | nil => simp at this; omega
    | cons a r => simp
  have hlines : ((splitOn '\n' ('#' :: c1 ++ ['\n'] ++ top.flatMap (rowText tok) ++ ('#' :: c2 ++ ['\n']) ++ rows.flatMap (rowText tok))).map
      fun l => words (l.takeWhile (· ≠ '#'))).filter (· ≠ []) = (top ++ rows).map fun row => row.flatMap fun p => [tok p.1, tok p.2] := by
    rw [es]
    rw [List.map_cons, List.filter_cons_of_neg (by simp [words, splitOn]), List.map_append, List.filter_append,
      ek top (fun r hr => by simp [hr]), List.map_cons, List.filter_cons_of_neg (by simp [words, splitOn]), List.map_append,
      List.filter_append, ek rows (fun r hr => by simp [hr]), List.map_append]
    simp [words, splitOn]
  have hm : ((top ++ rows).map fun row => row.flatMap fun p => [tok p.1, tok p.2]).mapM (fun ws => ws.mapM parse) =
      some ((top ++ rows).map fun row => row.flatMap fun p => [q p.1, q p.2]) := by
    generalize top ++ rows = l
    induction l with
    | nil => rfl
    | cons r l ih => rw [List.map_cons, List.mapM_cons, mapM_parse hq, ih]; rfl
  unfold loadtxt
  simp only [hlines, hm, Option.bind_eq_bind, Option.bind_some]
  rw [if_pos]
  rw [List.all_eq_true]
  have len : ∀ x ∈ (top ++ rows).map (fun row => row.flatMap fun p => [q p.1, q p.2]), x.length = 2 * n := by
    intro x hx
    obtain ⟨r, hr, rfl⟩ := List.mem_map.mp hx
    rw [← hl r hr]
    clear hx hr
    induction r with
    | nil => rfl
    | cons a r ih => rw [List.flatMap_cons, List.length_append, ih]; simp; omega
  intro x hx
  rw [decide_eq_true_eq, len x hx]
  cases hc : (top ++ rows).map (fun row => row.flatMap fun p => [q p.1, q p.2]) with
  | nil => rw [hc] at hx; simp at hx
  | cons a l => rw [List.headD_cons, len a (by rw [hc]; simp)]

theorem pairs_length {A Q : Type} (f g : A → Q) (l : List A) : (l.flatMap fun a => [f a, g a]).length = 2 * l.length := by
  induction l with
  | nil => rfl
  | cons a l ih => rw [List.flatMap_cons, List.length_append, ih]; simp; omega

theorem pairs_even {A Q : Type} (f g : A → Q) (l : List A) (i : Nat) :
    (l.flatMap fun a => [f a, g a])[2 * i]? = l[i]?.map f ∧ (l.flatMap fun a => [f a, g a])[2 * i + 1]? = l[i]?.map g := by
  induction l generalizing i with
  | nil => simp
  | cons a l ih =>
    cases i with
    | zero => simp
    | succ i =>
      obtain ⟨h1, h2⟩ := ih i
      rw [List.flatMap_cons, show 2 * (i + 1) = 2 * i + 1 + 1 by omega]
      simpa using ⟨h1, h2⟩

theorem everySecond_pairs {A Q : Type} [Inhabited Q] (f g : A → Q) (l : List A) :
    everySecond 0 (l.flatMap fun a => [f a, g a]) = l.map f := by
  unfold everySecond
  rw [pairs_length, Nat.mul_div_cancel_left _ (by omega)]
  apply List.ext_getElem
  · simp
  · intro i h1 h2
    simp only [List.length_map, List.length_range] at h1
    simp only [List.getElem_map, List.getElem_range, List.getD_eq_getElem?_getD, Nat.add_zero]
    rw [(pairs_even f g l i).1, List.getElem?_eq_getElem h1]
    rfl

/-- C166: the text the profile program writes is read back by the plotting script with every direction next to its own
profile: the three components of the directions, and of each profile its first points, as many as the shortest profile has.
The numbers are as their printed text says (`q`). -/
theorem C166_profiles {V Q : Type} [Inhabited Q] (tok : V → List Char) (ht : ∀ v, Token (tok v)) (parse : List Char → Option Q)
    (q : V → Q) (hq : ∀ v, parse (tok v) = some (q v)) (nan : V) (vecs : List (Fin 3 → V)) (profs : List (List V × List V))
    (hv : vecs.length = profs.length) (hne : profs ≠ []) (heq : ∀ p ∈ profs, p.1.length = p.2.length) :
    ∃ text m, printData tok nan vecs profs = some text ∧ (∀ p ∈ profs, m ≤ p.1.length) ∧ (∃ p ∈ profs, m = p.1.length) ∧
      readProfiles parse text = if m = 0 then none else
        some ⟨vecs.map fun v => q (v 0), vecs.map fun v => q (v 1), vecs.map fun v => q (v 2),
          profs.map fun p => (p.1.take m).map q, profs.map fun p => (p.2.take m).map q⟩ := by
  obtain ⟨rows, er, h1, h2, h3⟩ := Scripts.printProfiles_spec profs hne heq
  have hn : 0 < profs.length := List.length_pos_iff.mpr hne
  have hl : ∀ r ∈ [0, 1, 2].map (fun d : Fin 3 => vecs.map fun v => (v d, nan)) ++ rows, r.length = profs.length := by
    intro r hr
    rcases List.mem_append.mp hr with hr | hr
    · obtain ⟨d, _, rfl⟩ := List.mem_map.mp hr
      rw [List.length_map, hv]
    · obtain ⟨i, hi, e⟩ := List.getElem_of_mem hr
      obtain ⟨row, e', l, _⟩ := h3 i hi
      rw [List.getElem?_eq_getElem hi, e] at e'
      rw [Option.some.inj e', l]
  have ld := loadtxt_rows ht hq profs.length hn _ rows hl " The first three rows are unit vector components.".toList
    " The rest are individual profiles.".toList (by decide) (by decide)
  refine ⟨_, rows.length, by unfold printData; rw [er]; rfl, h1, h2, ?_⟩
  have et : ("# The first three rows are unit vector components.\n".toList ++
      [0, 1, 2].flatMap (fun d : Fin 3 => rowText tok (vecs.map fun v => (v d, nan))) ++
      "# The rest are individual profiles.\n".toList ++ rows.flatMap (rowText tok)) =
      '#' :: " The first three rows are unit vector components.".toList ++ ['\n'] ++
        ([0, 1, 2].map (fun d : Fin 3 => vecs.map fun v => (v d, nan))).flatMap (rowText tok) ++
        ('#' :: " The rest are individual profiles.".toList ++ ['\n']) ++ rows.flatMap (rowText tok) := by
    rfl
  unfold readProfiles
  rw [et, ld]
  simp only [Option.bind_eq_bind, Option.bind_some, List.map_cons, List.map_nil, List.cons_append,
    List.nil_append, List.getElem?_cons_zero, List.getElem?_cons_succ, List.drop_succ_cons, List.drop_zero]
  cases hr : rows with
  | nil => simp
  | cons r0 rest =>
    rw [← hr]
    have hpos : rows.length ≠ 0 := by rw [hr]; simp
    rw [if_neg hpos]
    have l0 : r0.length = profs.length := hl r0 (by rw [hr]; simp)
    have ef : (rows.map fun row => row.flatMap fun p => [q p.1, q p.2])[0]? = some (r0.flatMap fun p => [q p.1, q p.2]) := by
      rw [hr]; rfl
    rw [ef]
    simp only [Option.bind_some]
    have e1 : everySecond 0 ((List.range (r0.flatMap fun p => [q p.1, q p.2]).length).map fun j =>
        (rows.map fun row => row.flatMap fun p => [q p.1, q p.2]).map fun r => r.getD j default) =
        profs.map fun p => (p.1.take rows.length).map q := by
      unfold everySecond
      rw [List.length_map, List.length_range, pairs_length, Nat.mul_div_cancel_left _ (by omega), l0]
      apply List.ext_getElem
      · simp
      · intro k hk1 hk2
        have hk : k < profs.length := by simpa using hk1
        simp only [List.getElem_map, List.getElem_range]
        rw [List.getD_eq_getElem _ _ (by simp [pairs_length, l0]; omega)]
        simp only [List.getElem_map, List.getElem_range, List.map_map]
        apply List.ext_getElem
        · simp; exact h1 _ (List.getElem_mem hk)
        · intro c hc1 hc2
          have hc : c < rows.length := by simpa using hc1
          obtain ⟨row, e, _, hrow⟩ := h3 c hc
          obtain ⟨a, b, ea, eb, _⟩ := hrow k hk
          have erow : rows[c] = row := by rw [List.getElem?_eq_getElem hc] at e; exact Option.some.inj e
          simp only [List.getElem_map, Function.comp, erow, List.getElem_take, List.getD_eq_getElem?_getD, Nat.add_zero]
          rw [(pairs_even (fun p : V × V => q p.1) (fun p => q p.2) row k).1, ea]
          simp only [Option.map_some, Option.getD_some]
          congr 1
          have hh : c < profs[k].1.length := lt_of_lt_of_le hc (h1 _ (List.getElem_mem hk))
          rw [List.getElem?_eq_getElem hh] at eb
          exact (Option.some.inj eb).symm
    have e2 : everySecond 1 ((List.range (r0.flatMap fun p => [q p.1, q p.2]).length).map fun j =>
        (rows.map fun row => row.flatMap fun p => [q p.1, q p.2]).map fun r => r.getD j default) =
        profs.map fun p => (p.2.take rows.length).map q := by
      unfold everySecond
      rw [List.length_map, List.length_range, pairs_length, Nat.mul_div_cancel_left _ (by omega), l0]
      apply List.ext_getElem
      · simp
      · intro k hk1 hk2
        have hk : k < profs.length := by simpa using hk1
        simp only [List.getElem_map, List.getElem_range]
        rw [List.getD_eq_getElem _ _ (by simp [pairs_length, l0]; omega)]
        simp only [List.getElem_map, List.getElem_range, List.map_map]
        have hle : rows.length ≤ profs[k].2.length := by
          rw [← heq _ (List.getElem_mem hk)]; exact h1 _ (List.getElem_mem hk)
        apply List.ext_getElem
        · simp; exact hle
        · intro c hc1 hc2
          have hc : c < rows.length := by simpa using hc1
          obtain ⟨row, e, _, hrow⟩ := h3 c hc
          obtain ⟨a, b, ea, _, eb⟩ := hrow k hk
          have erow : rows[c] = row := by rw [List.getElem?_eq_getElem hc] at e; exact Option.some.inj e
          simp only [List.getElem_map, Function.comp, erow, List.getElem_take, List.getD_eq_getElem?_getD]
          rw [(pairs_even (fun p : V × V => q p.1) (fun p => q p.2) row k).2, ea]
          simp only [Option.map_some, Option.getD_some]
          congr 1
          have hh : c < profs[k].2.length := lt_of_lt_of_le hc hle
          rw [List.getElem?_eq_getElem hh] at eb
          exact (Option.some.inj eb).symm
    rw [e1, e2]
    have ev : ∀ d : Fin 3, everySecond 0 ((vecs.map fun v => (v d, nan)).flatMap fun p => [q p.1, q p.2]) = vecs.map fun v => q (v d) := by
      intro d
      rw [everySecond_pairs (fun p : V × V => q p.1) (fun p => q p.2), List.map_map]
      rfl
    rw [ev 0, ev 1, ev 2]
    congr 2
    · rw [List.take_of_length_le (by simp [hv])]
    · rw [List.take_of_length_le (by simp [hv])]
    · rw [List.take_of_length_le (by simp [hv])]
    · rw [List.take_of_length_le (by simp)]
    · rw [List.take_of_length_le (by simp)]

/-- Two directions, profiles of three and two points; numbers are single digits. -/
example : ∃ text, printData (fun n : Nat => [Char.ofNat (48 + n)]) 9 [fun _ => 1, fun d => d.val]
      [([0, 1, 2], [5, 6, 7]), ([0, 2], [4, 3])] = some text ∧
    (readProfiles (fun s => s.head?.map fun c => c.toNat - 48) text).map (fun p => (p.xs, p.ys, p.rs, p.rhos)) =
      some ([1, 0], [1, 1], [[0, 1], [0, 2]], [[5, 6], [4, 3]]) := by
  refine ⟨_, rfl, by decide +kernel⟩

/-! ### Caustics -/

theorem words_caustic {V : Type} {tok : V → List Char} (ht : ∀ v, Token (tok v)) (x y z r : V) {c : List Char} (hc : Token c) :
    words (causticLine tok x y z r c) = [tok x, tok y, tok z, tok r, c] := by
  unfold causticLine
  rw [words_append, words_append, words_append, words_append, words_pad (ht _), words_pad (ht _), words_pad (ht _),
    words_pad (ht _), words_pad hc]
  rfl

theorem caustic_free {V : Type} {tok : V → List Char} (ht : ∀ v, Token (tok v)) (x y z r : V) {c : List Char} (hc : Token c) :
    '\n' ∉ causticLine tok x y z r c := by
  unfold causticLine
  simp only [List.mem_append, List.mem_cons, not_or]
  have h : ∀ v, '\n' ∉ pad 12 (tok v) := fun v => pad_free (by decide) (ht v).nl _
  exact ⟨h _, by decide, h _, by decide, h _, by decide, h _, by decide, pad_free (by decide) hc.nl _⟩

theorem splitOn_intercalate (c : Char) (lines : List (List Char)) (hne : lines ≠ []) (h : ∀ l ∈ lines, c ∉ l) :
    splitOn c ([c].intercalate lines) = lines := by
  induction lines with
  | nil => exact absurd rfl hne
  | cons l ls ih =>
    cases ls with
    | nil =>
      rw [List.intercalate_singleton]
      exact splitOn_free c l (h l (by simp))
    | cons m ms =>
      rw [List.intercalate_cons_cons, List.append_assoc, List.singleton_append, splitOn_append,
        splitOn_free c l (h l (by simp)), ih (by simp) (fun x hx => h x (by simp [hx]))]
      rfl

/-- The caustic points of the profiles, in order: direction and radius. -/
def causticPts {V : Type} (profs : List (SmProf V)) : List (V × V × V × V) :=
  profs.flatMap fun p => p.rsp.filterMap fun r => r.map fun r => (p.unit.1, p.unit.2.1, p.unit.2.2, r)

theorem caustic_lines {V : Type} (tok : V → List Char) (color : Nat → List Char) (profs : List (SmProf V)) :
    ∀ (s : List (List Char) × Nat), ∃ cs : List Nat, cs.length = (causticPts profs).length ∧
      (profs.foldl (fun (s : List (List Char) × Nat) p =>
        (s.1 ++ p.rsp.filterMap fun r => r.map fun r => causticLine tok p.unit.1 p.unit.2.1 p.unit.2.2 r (color s.2),
          if p.rsp.any Option.isSome then s.2 + 1 else s.2)) s).1 =
        s.1 ++ List.zipWith (fun p c => causticLine tok p.1 p.2.1 p.2.2.1 p.2.2.2 (color c)) (causticPts profs) cs := by
  induction profs with
  | nil => intro s; exact ⟨[], rfl, by simp [causticPts]⟩
  | cons p profs ih =>
    intro s
    obtain ⟨cs, hl, e⟩ := ih (s.1 ++ p.rsp.filterMap fun r => r.map fun r => causticLine tok p.unit.1 p.unit.2.1 p.unit.2.2 r (color s.2),
      if p.rsp.any Option.isSome then s.2 + 1 else s.2)
    have e1 : causticPts (p :: profs) = (p.rsp.filterMap fun r => r.map fun r => (p.unit.1, p.unit.2.1, p.unit.2.2, r)) ++ causticPts profs := rfl
    have e2 : ∀ l : List (Option V), (l.filterMap fun r => r.map fun r => causticLine tok p.unit.1 p.unit.2.1 p.unit.2.2 r (color s.2)) =
        List.zipWith (fun p c => causticLine tok p.1 p.2.1 p.2.2.1 p.2.2.2 (color c))
          (l.filterMap fun r => r.map fun r => (p.unit.1, p.unit.2.1, p.unit.2.2, r))
          (List.replicate (l.filterMap fun r => r.map fun r => (p.unit.1, p.unit.2.1, p.unit.2.2, r)).length s.2) := by
      intro l
      induction l with
      | nil => rfl
      | cons r l ih2 =>
        cases r with
        | none => simpa using ih2
        | some r => simp [List.replicate_succ, ih2]
    refine ⟨List.replicate (p.rsp.filterMap fun r => r.map fun r => (p.unit.1, p.unit.2.1, p.unit.2.2, r)).length s.2 ++ cs, ?_, ?_⟩
    · rw [e1, List.length_append, List.length_append, hl, List.length_replicate]
    · rw [List.foldl_cons, e, e1, List.zipWith_append (by simp), ← e2, List.append_assoc]

/-- C167: if the directions lie in a coordinate plane and there is at least one splashback radius, the file of caustics is
read back as the points radius times direction, in the plane, one for every splashback radius and in order. Directions
that lie in no coordinate plane raise. -/
theorem C167_caustics_partial {V : Type} (tok : V → List Char) (ht : ∀ v, Token (tok v)) (parse : List Char → Option ℚ) (q : V → ℚ)
    (hq : ∀ v, parse (tok v) = some (q v)) (color : Nat → List Char) (hc : ∀ i, Token (color i)) (profs : List (SmProf V))
    (hne : causticPts profs ≠ []) :
    readPts parse (writeCaustic tok color profs) =
      if ∀ p ∈ causticPts profs, q p.1 = 0 then some ((causticPts profs).map fun p => (q p.2.1 * q p.2.2.2, q p.2.2.1 * q p.2.2.2))
      else if ∀ p ∈ causticPts profs, q p.2.1 = 0 then some ((causticPts profs).map fun p => (q p.1 * q p.2.2.2, q p.2.2.1 * q p.2.2.2))
      else if ∀ p ∈ causticPts profs, q p.2.2.1 = 0 then some ((causticPts profs).map fun p => (q p.1 * q p.2.2.2, q p.2.1 * q p.2.2.2))
      else none := by
  obtain ⟨cs, hl, e⟩ := caustic_lines tok color profs ([], 0)
  rw [List.nil_append] at e
  unfold readPts writeCaustic
  simp only [e]
  have hz : ∀ (ps : List (V × V × V × V)) (cs : List Nat), cs.length = ps.length →
      (∀ l ∈ List.zipWith (fun p c => causticLine tok p.1 p.2.1 p.2.2.1 p.2.2.2 (color c)) ps cs, '\n' ∉ l) ∧
      (List.zipWith (fun p c => causticLine tok p.1 p.2.1 p.2.2.1 p.2.2.2 (color c)) ps cs).mapM (readRow parse) =
        some (ps.map fun p => (q p.1, q p.2.1, q p.2.2.1, q p.2.2.2)) := by
    intro ps
    induction ps with
    | nil => intro cs _; exact ⟨by simp, by simp⟩
    | cons p ps ih =>
      intro cs h
      cases cs with
      | nil => simp at h
      | cons c cs =>
        obtain ⟨i1, i2⟩ := ih cs (by simpa using h)
        refine ⟨?_, ?_⟩
        · intro l hl
          rw [List.zipWith_cons_cons] at hl
          rcases List.mem_cons.mp hl with rfl | hl
          · exact caustic_free ht _ _ _ _ (hc c)
          · exact i1 l hl
        · rw [List.zipWith_cons_cons, List.mapM_cons, i2]
          have : readRow parse (causticLine tok p.1 p.2.1 p.2.2.1 p.2.2.2 (color c)) =
              some (q p.1, q p.2.1, q p.2.2.1, q p.2.2.2) := by
            unfold readRow
            rw [words_caustic ht _ _ _ _ (hc c)]
            simp [hq]
          rw [this]
          rfl
  obtain ⟨z1, z2⟩ := hz (causticPts profs) cs hl
  rw [splitOn_intercalate _ _ (by
    intro hn
    have := congrArg List.length hn
    rw [List.length_zipWith, hl] at this
    simp at this
    exact hne this) z1, z2]
  simp only [Option.bind_eq_bind, Option.bind_some, List.all_eq_true, decide_eq_true_eq, List.map_map, List.forall_mem_map]
  rfl

example : ∀ n : Nat, n < 10 → Token [Char.ofNat (48 + n)] := by
  intro n hn
  interval_cases n <;> exact ⟨by decide, by decide, by decide, by decide⟩

example : readPts (fun s => s.head?.map fun c => ((c.toNat - 48 : Nat) : ℚ)) (writeCaustic (fun n : Nat => [Char.ofNat (48 + n)])
    (fun i => if i = 0 then "Red".toList else "w".toList) [⟨(0, 1, 2), [some 3, none, some 2]⟩, ⟨(0, 0, 1), []⟩, ⟨(0, 1, 1), [some 4]⟩]) =
      some [(3, 6), (2, 4), (4, 4)] := by decide +kernel

/-- C167 fails without any splashback radius: the file is empty, and reading it raises. -/
theorem C167_empty_counterexample {V : Type} (tok : V → List Char) (parse : List Char → Option ℚ) (color : Nat → List Char)
    (profs : List (SmProf V)) (h : causticPts profs = []) : readPts parse (writeCaustic tok color profs) = none := by
  obtain ⟨cs, hl, e⟩ := caustic_lines tok color profs ([], 0)
  unfold readPts writeCaustic
  simp only [e, h]
  rfl

example : causticPts ([⟨(0, 0, 1), [none, none]⟩] : List (SmProf ℚ)) = [] := rfl

end Verif.Py
