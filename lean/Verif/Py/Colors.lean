import Verif.Py.ColorsModel
import Verif.Py.Table
import Mathlib.Tactic.IntervalCases

/-!
# C195: the colours of the file of caustics are those of the plot

Specification: `rank`, the number of profiles with a caustic before a profile, and `entries`, the caustics in order.
-/

set_option autoImplicit false

namespace Verif.Py.Colors

open Verif.Py

/-- How many of the first `i` profiles have a caustic. -/
def rank {V : Type} (profs : List (SmProf V)) (i : Nat) : Nat :=
  ((profs.take i).filter fun p => p.rsp.any Option.isSome).length

/-- The caustics of all profiles in order, with the index of profile and segment. -/
def entries {V : Type} (profs : List (SmProf V)) : List (Nat × Nat × V) :=
  profs.zipIdx.flatMap fun e => e.1.rsp.zipIdx.filterMap fun f => f.1.map fun r => (e.2, f.2, r)

theorem rank_append {V : Type} (pre : List (SmProf V)) (p : SmProf V) (ps : List (SmProf V)) :
    rank (pre ++ p :: ps) pre.length = (pre.filter fun p => p.rsp.any Option.isSome).length := by
  simp [rank]

/-- The text after line `n` of one profile: the lines of its caustics. -/
theorem prof_lines {V : Type} (tok : V → List Char) (p : SmProf V) (c : List Char) : ∀ (l : List (Option V)) (n i : Nat),
    (l.filterMap fun r => r.map fun r => causticLine tok p.unit.1 p.unit.2.1 p.unit.2.2 r c) =
      ((l.zipIdx n).filterMap fun f => f.1.map fun r => (i, f.2, r)).map
        fun e => causticLine tok p.unit.1 p.unit.2.1 p.unit.2.2 e.2.2 c := by
  intro l
  induction l with
  | nil => intro n i; rfl
  | cons r l ih =>
    intro n i
    cases r with
    | none => simpa using ih (n + 1) i
    | some r => simpa using ih (n + 1) i

theorem mem_zipIdx_filterMap {V : Type} {p : SmProf V} {i : Nat} {e : Nat × Nat × V}
    (h : e ∈ p.rsp.zipIdx.filterMap fun f => f.1.map fun r => (i, f.2, r)) : e.1 = i := by
  simp only [List.mem_filterMap, Option.map_eq_some_iff] at h
  obtain ⟨f, _, r, _, rfl⟩ := h
  rfl

theorem file_lines {V : Type} (tok : V → List Char) (color : Nat → List Char) (ps : List (SmProf V)) :
    ∀ (pre : List (SmProf V)) (acc : List (List Char)),
      (ps.foldl (fun (s : List (List Char) × Nat) p =>
        (s.1 ++ p.rsp.filterMap fun r => r.map fun r => causticLine tok p.unit.1 p.unit.2.1 p.unit.2.2 r (color s.2),
          if p.rsp.any Option.isSome then s.2 + 1 else s.2))
        (acc, (pre.filter fun p => p.rsp.any Option.isSome).length)).1 =
      acc ++ (ps.zipIdx pre.length).flatMap fun e =>
        (e.1.rsp.zipIdx.filterMap fun f => f.1.map fun r => (e.2, f.2, r)).map fun x =>
          causticLine tok e.1.unit.1 e.1.unit.2.1 e.1.unit.2.2 x.2.2 (color (rank (pre ++ ps) e.2)) := by
  induction ps with
  | nil => intro pre acc; simp
  | cons p ps ih =>
    intro pre acc
    have hk : (if p.rsp.any Option.isSome then (pre.filter fun p => p.rsp.any Option.isSome).length + 1
        else (pre.filter fun p => p.rsp.any Option.isSome).length) =
        ((pre ++ [p]).filter fun p => p.rsp.any Option.isSome).length := by
      by_cases h : p.rsp.any Option.isSome <;> simp [h]
    rw [List.foldl_cons]
    simp only [hk]
    rw [ih (pre ++ [p])]
    simp only [List.zipIdx_cons, List.flatMap_cons, List.length_append, List.length_cons, List.length_nil, Nat.zero_add,
      List.append_assoc, List.singleton_append, rank_append]
    rw [prof_lines tok p _ p.rsp 0 pre.length]

theorem color_lt {k : Nat} (h : k < 10) : color k = cs.getD k [] := by
  unfold color
  rw [if_pos (by simpa [cs] using h)]

theorem color_ge {k : Nat} (h : 10 ≤ k) : color k = "w".toList := by
  unfold color
  rw [if_neg (by simpa [cs] using h)]

theorem color_token (k : Nat) : Token (color k) := by
  by_cases h : k < 10
  · interval_cases k <;> exact ⟨by decide, by decide, by decide, by decide⟩
  · rw [color_ge (by omega)]
    exact ⟨by decide, by decide, by decide, by decide⟩

/-- White is the colour from number ten on, and the others are all different. -/
theorem color_white (k : Nat) : color k = "w".toList ↔ 10 ≤ k := by
  constructor
  · intro h
    by_contra hc
    have : ∀ k, k < 10 → color k ≠ "w".toList := by decide
    exact this k (by omega) h
  · exact color_ge

theorem color_inj {k l : Nat} (h : color k = color l) (hw : color k ≠ "w".toList) : k = l := by
  have hk : k < 10 := by
    by_contra hc; exact hw (color_ge (by omega))
  have hl : l < 10 := by
    by_contra hc; rw [h] at hw; exact hw (color_ge (by omega))
  have : ∀ k, k < 10 → ∀ l, l < 10 → color k = color l → k = l := by decide
  exact this k hk l hl h

/-- C195: the lines of the file of caustics, one for each caustic in order: the fourth word of a line is the radius, the fifth
the colour whose number is the number of profiles with a caustic before. -/
theorem C195_file {V : Type} (tok : V → List Char) (ht : ∀ v, Token (tok v)) (profs : List (SmProf V))
    (hne : entries profs ≠ []) :
    (splitOn '\n' (writeCaustic tok color profs)).map (fun l => ((words l)[3]?, (words l)[4]?)) =
      (entries profs).map fun e => (some (tok e.2.2), some (color (rank profs e.1))) := by
  have h := file_lines tok color profs [] []
  simp only [List.filter_nil, List.length_nil, List.nil_append] at h
  unfold writeCaustic
  simp only
  rw [h, splitOn_intercalate]
  · unfold entries
    rw [List.map_flatMap, List.map_flatMap]
    apply List.flatMap_congr
    intro e _
    rw [List.map_map]
    apply List.map_congr_left
    intro x hx
    simp only [Function.comp, words_caustic ht _ _ _ _ (color_token _)]
    rw [mem_zipIdx_filterMap hx]
    rfl
  · intro hc
    apply hne
    unfold entries
    rw [List.flatMap_eq_nil_iff] at hc ⊢
    intro e he
    exact List.map_eq_nil_iff.mp (hc e he)
  · intro l hl
    simp only [List.mem_flatMap, List.mem_map] at hl
    obtain ⟨e, _, x, _, rfl⟩ := hl
    exact caustic_free ht _ _ _ _ (color_token _)

theorem rank_ge {V : Type} (pre ps : List (SmProf V)) {i : Nat} (h : pre.length ≤ i) :
    (pre.filter fun p => p.rsp.any Option.isSome).length ≤ rank (pre ++ ps) i := by
  unfold rank
  rw [List.take_append, List.take_of_length_le h, List.filter_append, List.length_append]
  omega

theorem validLoop_eq {V : Type} (ps : List (SmProf V)) : ∀ pre : List (SmProf V),
    validLoop (pre.filter fun p => p.rsp.any Option.isSome).length pre.length ps =
      (ps.zipIdx pre.length).flatMap fun e =>
        if e.1.rsp.any Option.isSome ∧ rank (pre ++ ps) e.2 < 10 then
          e.1.rsp.zipIdx.map fun f => (e.2, f.2, f.1, color (rank (pre ++ ps) e.2)) else [] := by
  induction ps with
  | nil => intro pre; rfl
  | cons p ps ih =>
    intro pre
    unfold validLoop
    by_cases hk : (pre.filter fun p => p.rsp.any Option.isSome).length < 10
    · rw [if_pos (by simpa [cs] using hk)]
      have h1 := ih (pre ++ [p])
      simp only [List.length_append, List.length_cons, List.length_nil, Nat.zero_add, List.append_assoc,
        List.singleton_append] at h1
      simp only [List.zipIdx_cons, List.flatMap_cons, rank_append]
      by_cases hc : p.rsp.any Option.isSome
      · rw [if_pos (by simpa [hasCaustic] using hc), if_pos ⟨hc, hk⟩, ← h1]
        simp [hc, drawProf]
      · rw [if_neg (by simpa [hasCaustic] using hc), if_neg (fun h => hc h.1), ← h1]
        simp [hc]
    · rw [if_neg (by simpa [cs] using hk)]
      symm
      rw [List.flatMap_eq_nil_iff]
      intro e he
      have h2 : pre.length ≤ e.2 := by
        have := List.le_snd_of_mem_zipIdx he
        exact this
      have h3 := rank_ge pre (p :: ps) h2
      rw [if_neg (by rintro ⟨_, h⟩; omega)]

/-- C195: what the plot of the profiles with a caustic shows: the first ten of them with all segments, each in the colour whose
number is the number of profiles with a caustic before. -/
theorem C195_plot {V : Type} (profs : List (SmProf V)) :
    plotValid profs = profs.zipIdx.flatMap fun e =>
      if e.1.rsp.any Option.isSome ∧ rank profs e.2 < 10 then
        e.1.rsp.zipIdx.map fun f => (e.2, f.2, f.1, color (rank profs e.2)) else [] := by
  have h := validLoop_eq profs []
  simpa [plotValid] using h

theorem marks_lines {V : Type} (i : Nat) (c : List Char) (l : List (Option V)) : ∀ n : Nat,
    (((l.zipIdx n).map fun f => ((i, f.2, f.1, c) : Mark V)).filterMap fun m => m.2.2.1.map fun r => (m.1, m.2.1, r, m.2.2.2)) =
      ((l.zipIdx n).filterMap fun f => f.1.map fun r => (i, f.2, r)).map fun e => (e.1, e.2.1, e.2.2, c) := by
  induction l with
  | nil => intro n; rfl
  | cons r l ih =>
    intro n
    cases r with
    | none => simpa using ih (n + 1)
    | some r => simpa using ih (n + 1)

theorem no_entries {V : Type} (i : Nat) (l : List (Option V)) (h : ¬ l.any Option.isSome = true) : ∀ n : Nat,
    ((l.zipIdx n).filterMap fun f => f.1.map fun r => (i, f.2, r)) = [] := by
  induction l with
  | nil => intro n; rfl
  | cons r l ih =>
    intro n
    cases r with
    | none => simpa using ih (by simpa using h) (n + 1)
    | some r => simp at h

/-- C195: the radii marked in the plot of the profiles with a caustic, with their colours, are the lines of the file of caustics
that are not white, in the same order. -/
theorem C195_agree {V : Type} (profs : List (SmProf V)) :
    (plotValid profs).filterMap (fun m => m.2.2.1.map fun r => (m.1, m.2.1, r, m.2.2.2)) =
      ((entries profs).map fun e => (e.1, e.2.1, e.2.2, color (rank profs e.1))).filter fun e => e.2.2.2 ≠ "w".toList := by
  rw [C195_plot]
  unfold entries
  rw [List.filterMap_flatMap, List.map_flatMap, List.filter_flatMap]
  apply List.flatMap_congr
  intro e _
  have hcong : ((e.1.rsp.zipIdx.filterMap fun f => f.1.map fun r => (e.2, f.2, r)).map
      fun x => (x.1, x.2.1, x.2.2, color (rank profs x.1))) =
      (e.1.rsp.zipIdx.filterMap fun f => f.1.map fun r => (e.2, f.2, r)).map
        fun x => (x.1, x.2.1, x.2.2, color (rank profs e.2)) := by
    apply List.map_congr_left
    intro x hx
    rw [mem_zipIdx_filterMap hx]
  rw [hcong]
  by_cases hk : rank profs e.2 < 10
  · have hw : color (rank profs e.2) ≠ "w".toList := fun h => by
      have := (color_white _).mp h; omega
    rw [List.filter_eq_self.mpr]
    · by_cases hc : e.1.rsp.any Option.isSome
      · rw [if_pos ⟨hc, hk⟩, marks_lines]
      · rw [if_neg (fun h => hc h.1), no_entries _ _ hc]
        rfl
    · intro x hx
      obtain ⟨y, _, rfl⟩ := List.mem_map.mp hx
      simpa using hw
  · rw [if_neg (fun h => hk h.2), List.filterMap_nil]
    symm
    rw [List.filter_eq_nil_iff]
    intro x hx
    obtain ⟨y, _, rfl⟩ := List.mem_map.mp hx
    simp [color_ge (not_lt.mp hk)]

theorem rank_lt {V : Type} (profs : List (SmProf V)) {i j : Nat} (hij : i < j) {p : SmProf V} (hp : profs[i]? = some p)
    (hc : p.rsp.any Option.isSome) : rank profs i < rank profs j := by
  unfold rank
  have h1 : (profs.take (i + 1)) = profs.take i ++ [p] := by
    rw [List.take_add_one, hp]; rfl
  have h2 : (profs.take (i + 1)).filter (fun p => p.rsp.any Option.isSome) =
      (profs.take i).filter (fun p => p.rsp.any Option.isSome) ++ [p] := by
    rw [h1, List.filter_append]; simp [hc]
  have h3 : List.Sublist (profs.take (i + 1)) (profs.take j) := List.take_sublist_take_left (by omega)
  have h4 := (h3.filter (fun p => p.rsp.any Option.isSome)).length_le
  rw [h2, List.length_append] at h4
  simp at h4
  simpa using h4

/-- C195: a colour that is not white belongs to one profile: two caustics have it only if they are of the same profile. -/
theorem C195_names {V : Type} (profs : List (SmProf V)) {e f : Nat × Nat × V} (he : e ∈ entries profs) (hf : f ∈ entries profs)
    (hw : color (rank profs e.1) ≠ "w".toList) : color (rank profs e.1) = color (rank profs f.1) ↔ e.1 = f.1 := by
  have key : ∀ x ∈ entries profs, ∃ p, profs[x.1]? = some p ∧ p.rsp.any Option.isSome = true := by
    intro x hx
    unfold entries at hx
    simp only [List.mem_flatMap, List.mem_filterMap, Option.map_eq_some_iff] at hx
    obtain ⟨a, ha, b, hb, r, hr, rfl⟩ := hx
    refine ⟨a.1, List.mem_zipIdx_iff_getElem?.mp ha, ?_⟩
    have hb1 := List.fst_mem_of_mem_zipIdx hb
    rw [List.any_eq_true]
    exact ⟨b.1, hb1, by rw [hr]; rfl⟩
  constructor
  · intro h
    have hr := color_inj h hw
    obtain ⟨p, hp, hpc⟩ := key e he
    obtain ⟨q, hq, hqc⟩ := key f hf
    rcases Nat.lt_trichotomy e.1 f.1 with hl | he | hl
    · have := rank_lt profs hl hp hpc; omega
    · exact he
    · have := rank_lt profs hl hq hqc; omega
  · intro h; rw [h]

theorem flatMap_pick {A B : Type} (g : A × Nat → List B) (l : List A) : ∀ (n i : Nat) (a : A), l[i]? = some a →
    ((l.zipIdx n).flatMap fun e => if e.2 = n + i then g e else []) = g (a, n + i) := by
  induction l with
  | nil => intro n i a h; simp at h
  | cons x l ih =>
    intro n i a h
    rw [List.zipIdx_cons, List.flatMap_cons]
    cases i with
    | zero =>
      simp only [List.getElem?_cons_zero, Option.some.injEq] at h
      subst h
      simp only [Nat.add_zero, if_true]
      have : ((l.zipIdx (n + 1)).flatMap fun e => if e.2 = n then g e else []) = [] := by
        rw [List.flatMap_eq_nil_iff]
        intro e he
        have := List.le_snd_of_mem_zipIdx he
        rw [if_neg (by omega)]
      rw [this, List.append_nil]
    | succ i =>
      have h1 := ih (n + 1) i a (by simpa using h)
      rw [show n + 1 + i = n + (i + 1) by omega] at h1
      rw [h1, if_neg (by simp), List.nil_append]

/-- C195, the plot of all profiles: it shows the first ten, each in the colour of its number, which is that of the file as long
as all profiles before have a caustic. -/
theorem C195_first_partial {V : Type} (profs : List (SmProf V)) {i : Nat} (hi : i < 10) {p : SmProf V}
    (hp : profs[i]? = some p) :
    (plotProfiles profs).filter (fun m => m.1 = i) = p.rsp.zipIdx.map (fun f => (i, f.2, f.1, color i)) ∧
    (color i = color (rank profs i) ↔ ∀ j, j < i → ∃ q, profs[j]? = some q ∧ q.rsp.any Option.isSome = true) := by
  constructor
  · unfold plotProfiles
    rw [List.filter_flatMap]
    have h1 : (fun e : SmProf V × Nat => (drawProf e.2 (color e.2) e.1).filter fun m => decide (m.1 = i)) =
        fun e => if e.2 = 0 + i then drawProf e.2 (color e.2) e.1 else [] := by
      funext e
      by_cases h : e.2 = i
      · rw [if_pos (by omega), List.filter_eq_self]
        intro m hm
        obtain ⟨y, _, rfl⟩ := List.mem_map.mp hm
        simpa using h
      · rw [if_neg (by omega), List.filter_eq_nil_iff]
        intro m hm
        obtain ⟨y, _, rfl⟩ := List.mem_map.mp hm
        simpa using h
    rw [h1, flatMap_pick _ _ 0 i p (by
      rw [List.getElem?_take, if_pos (by simpa [cs] using hi)]
      exact hp)]
    simp [drawProf]
  · have hlen : i < profs.length := (List.getElem?_eq_some_iff.mp hp).1
    have hl : (profs.take i).length = i := by rw [List.length_take]; omega
    have hw : color i ≠ "w".toList := fun h => by have := (color_white _).mp h; omega
    have h1 : color i = color (rank profs i) ↔
        ((profs.take i).filter fun p => p.rsp.any Option.isSome).length = (profs.take i).length := by
      rw [hl]
      constructor
      · intro h; exact (color_inj h hw).symm
      · intro h
        have : rank profs i = i := h
        rw [this]
    rw [h1, List.length_filter_eq_length_iff]
    constructor
    · intro h j hj
      refine ⟨profs[j]'(by omega), List.getElem?_eq_getElem _, h _ ?_⟩
      rw [List.mem_take_iff_getElem]
      exact ⟨j, by omega, rfl⟩
    · intro h q hq
      rw [List.mem_take_iff_getElem] at hq
      obtain ⟨j, hj, rfl⟩ := hq
      obtain ⟨q, hq, hc⟩ := h j (by omega)
      rw [List.getElem?_eq_getElem (by omega), Option.some.injEq] at hq
      rw [hq]
      exact hc

/-- C195 fails for the plot of all profiles: behind a profile without a caustic the colours are others than in the file. Here
red is profile 0 in that plot, and profile 1 in the file and in the other plot. -/
theorem C195_first_counterexample : ∃ profs : List (SmProf Nat),
    plotProfiles profs = [(0, 0, none, "Red".toList), (1, 0, some 3, "Blue".toList)] ∧
    plotValid profs = [(1, 0, some 3, "Red".toList)] ∧
    (splitOn '\n' (writeCaustic (fun n => [Char.ofNat (48 + n)]) color profs)).map (fun l => ((words l)[3]?, (words l)[4]?)) =
      [(some ['3'], some "Red".toList)] :=
  ⟨[⟨(0, 1, 2), [none]⟩, ⟨(0, 2, 1), [some 3]⟩], by decide +kernel, by decide +kernel, by decide +kernel⟩

/-- Two profiles with caustics and one without between them. -/
example : entries ([⟨(0, 1, 2), [some 3, none, some 2]⟩, ⟨(0, 0, 1), [none]⟩, ⟨(0, 1, 1), [some 4]⟩] : List (SmProf Nat)) =
      [(0, 0, 3), (0, 2, 2), (2, 0, 4)] ∧
    plotValid ([⟨(0, 1, 2), [some 3, none, some 2]⟩, ⟨(0, 0, 1), [none]⟩, ⟨(0, 1, 1), [some 4]⟩] : List (SmProf Nat)) =
      [(0, 0, some 3, "Red".toList), (0, 1, none, "Red".toList), (0, 2, some 2, "Red".toList),
        (2, 0, some 4, "Blue".toList)] := by
  constructor <;> decide +kernel

end Verif.Py.Colors
