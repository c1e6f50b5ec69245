import Verif.Py.MultiProfModel
import Verif.Py.Smooth

/-!
# C196: a profile smoothed with several windows is a profile

Specification: the steady segments (`Stable`) in order, each with its radius for the window asked for.
-/

set_option autoImplicit false

namespace Verif.Py.MultiProf

open Verif.Py Verif.Go

/-- A segment is steady for window `5 + 2 * j`: radii for at least two windows, that window among them, none of which jumps. -/
def Steady (maxWindow j : Nat) (rsp : Nat → Option ℚ) : Prop :=
  ∃ (k : Nat) (r : Nat → ℚ), Stable rsp maxWindow k r ∧ 2 ≤ k ∧ j < k

theorem pyRd_nat {α : Type} (xs : List α) (i : Nat) : pyRd xs (i : Int) = xs[i]? := by
  simp [pyRd, rd, if_neg (by omega : ¬ (i : Int) < 0)]

theorem mk_fold (sgWindow maxWindow : Nat) (segs : List (Nat → Option ℚ)) : ∀ (m0 m : Multi),
    segs.foldlM (fun (m : Multi) rsp => do
      let r ← multiSmooth rsp sgWindow maxWindow
      some { m with profs := m.profs ++ [r.1], valid := if r.2 then m.valid ++ [r.1] else m.valid }) m0 = some m →
    ∃ rs : List (List (Nat × ℚ) × Bool), segs.mapM (fun rsp => multiSmooth rsp sgWindow maxWindow) = some rs ∧
      m.unit = m0.unit ∧ m.sgWindow = m0.sgWindow ∧ m.profs = m0.profs ++ rs.map Prod.fst ∧
      m.valid = m0.valid ++ (rs.filter fun r => r.2).map Prod.fst := by
  induction segs with
  | nil =>
    intro m0 m h
    simp only [List.foldlM_nil, pure, Option.some.injEq] at h
    subst h
    exact ⟨[], rfl, rfl, rfl, by simp, by simp⟩
  | cons s segs ih =>
    intro m0 m h
    rw [List.foldlM_cons] at h
    cases hs : multiSmooth s sgWindow maxWindow with
    | none => simp [hs] at h
    | some r =>
      simp only [hs, Option.bind_eq_bind, Option.bind_some] at h
      obtain ⟨rs, h1, h2, h3, h4, h5⟩ := ih _ m h
      refine ⟨r :: rs, ?_, h2, h3, ?_, ?_⟩
      · rw [List.mapM_cons, hs, h1]; rfl
      · rw [h4]; simp
      · rw [h5]
        by_cases hr : r.2 <;> simp [hr]

theorem mk_spec {unit : ℚ × ℚ × ℚ} {sgWindow maxWindow : Nat} {segs : List (Nat → Option ℚ)} {m : Multi}
    (h : mk unit sgWindow maxWindow segs = some m) :
    ∃ rs : List (List (Nat × ℚ) × Bool), segs.mapM (fun rsp => multiSmooth rsp sgWindow maxWindow) = some rs ∧
      m.unit = unit ∧ m.sgWindow = sgWindow ∧ m.profs = rs.map Prod.fst ∧
      m.valid = (rs.filter fun r => r.2).map Prod.fst := by
  obtain ⟨rs, h1, h2, h3, h4, h5⟩ := mk_fold sgWindow maxWindow segs _ m h
  exact ⟨rs, h1, h2, h3, by simpa using h4, by simpa using h5⟩

open Classical in
theorem valid_radii {maxWindow j : Nat} (segs : List (Nat → Option ℚ)) : ∀ rs : List (List (Nat × ℚ) × Bool),
    segs.mapM (fun rsp => multiSmooth rsp (5 + 2 * j) maxWindow) = some rs →
    ((rs.filter fun r => r.2).map fun r => multiRsp r.1 (5 + 2 * j)) =
      (segs.filter fun s => decide (Steady maxWindow j s)).map fun s => s (5 + 2 * j) := by
  induction segs with
  | nil =>
    intro rs h
    simp only [List.mapM_nil, pure, Option.some.injEq] at h
    subst h; rfl
  | cons s segs ih =>
    intro rs h
    rw [List.mapM_cons] at h
    cases hs : multiSmooth s (5 + 2 * j) maxWindow with
    | none => simp [hs] at h
    | some r =>
      cases ht : segs.mapM (fun rsp => multiSmooth rsp (5 + 2 * j) maxWindow) with
      | none => simp [hs, ht] at h
      | some t =>
        simp only [hs, ht, Option.bind_eq_bind, Option.bind_some, pure, Option.some.injEq] at h
        subst h
        have h1 := ih t ht
        rcases r with ⟨p, b⟩
        cases b with
        | true =>
          obtain ⟨k, r, a1, a2, a3, a4, a5⟩ := (C171_valid s maxWindow j p).mp hs
          have hst : Steady maxWindow j s := ⟨k, r, a1, a2, a3⟩
          rw [List.filter_cons_of_pos (by rfl), List.filter_cons_of_pos (by simpa using hst), List.map_cons, List.map_cons,
            h1, a5]
        | false =>
          have hst : ¬ Steady maxWindow j s := by
            rintro ⟨k, r, a1, a2, a3⟩
            have := (C171_valid s maxWindow j ((List.range k).map fun i => (5 + 2 * i, r i))).mpr
              ⟨k, r, a1, a2, a3, rfl, by
                unfold multiRsp pyRd
                rw [show (((5 + 2 * j : Nat) : Int) - 5) / 2 = j by omega, if_neg (by omega)]
                rw [a1.has j a3]
                simp [rd, a3]⟩
            rw [hs] at this
            simp at this
          rw [List.filter_cons_of_neg (by simp), List.filter_cons_of_neg (by simpa using hst), h1]

open Classical in
/-- C196: such a profile has the steady segments and no others, in order, and their radii are those found with the window asked
for, here any odd window from 5 on. -/
theorem C196_radii {unit : ℚ × ℚ × ℚ} {j maxWindow : Nat} {segs : List (Nat → Option ℚ)} {m : Multi}
    (h : mk unit (5 + 2 * j) maxWindow segs = some m) :
    (List.range (segments m)).map (fun (i : Nat) => rSp m i) =
      (segs.filter fun s => decide (Steady maxWindow j s)).map fun s => s (5 + 2 * j) := by
  obtain ⟨rs, h1, h2, h3, h4, h5⟩ := mk_spec h
  rw [← valid_radii segs rs h1]
  unfold segments rSp
  rw [h3, h5]
  apply List.ext_getElem
  · simp
  · intro i hi hi'
    simp only [List.length_map, List.length_range] at hi
    simp only [List.getElem_map, List.getElem_range, pyRd_nat]
    rw [List.getElem?_eq_getElem (by simpa using hi)]
    simp

/-- C196: the windows listed with the smoothed profiles of a segment are those they were smoothed with, 5, 7, and so on, and each
profile has the radius found with its window. -/
theorem C196_windows {unit : ℚ × ℚ × ℚ} {sgWindow maxWindow : Nat} {segs : List (Nat → Option ℚ)} {m : Multi}
    (h : mk unit sgWindow maxWindow segs = some m) :
    fullSegments m = segs.length ∧
    ∀ (i : Nat) (s : Nat → Option ℚ), segs[i]? = some s → ∃ ps, smoothedFull m i = some (ps.map Prod.fst, ps) ∧
      ∀ p ∈ ps, s p.1 = some p.2 := by
  obtain ⟨rs, h1, h2, h3, h4, h5⟩ := mk_spec h
  have hl : rs.length = segs.length := by
    have := congrArg (fun o => o.map List.length) h1
    clear h h2 h3 h4 h5
    revert rs
    induction segs with
    | nil => intro rs h1 _; simp at h1; subst h1; rfl
    | cons s segs ih =>
      intro rs h1 _
      rw [List.mapM_cons] at h1
      cases hs : multiSmooth s sgWindow maxWindow with
      | none => simp [hs] at h1
      | some r =>
        cases ht : segs.mapM (fun rsp => multiSmooth rsp sgWindow maxWindow) with
        | none => simp [hs, ht] at h1
        | some t =>
          simp only [hs, ht, Option.bind_eq_bind, Option.bind_some, pure, Option.some.injEq] at h1
          subst h1
          simp [ih t ht (by rw [ht])]
  refine ⟨by simp [fullSegments, h4, hl], ?_⟩
  intro i s hi
  have hx : ∃ r, rs[i]? = some r ∧ multiSmooth s sgWindow maxWindow = some r := by
    clear h h2 h3 h4 h5 hl
    revert rs i
    induction segs with
    | nil => intro rs h1 i hi; simp at hi
    | cons a segs ih =>
      intro rs h1 i hi
      rw [List.mapM_cons] at h1
      cases hs : multiSmooth a sgWindow maxWindow with
      | none => simp [hs] at h1
      | some r =>
        cases ht : segs.mapM (fun rsp => multiSmooth rsp sgWindow maxWindow) with
        | none => simp [hs, ht] at h1
        | some t =>
          simp only [hs, ht, Option.bind_eq_bind, Option.bind_some, pure, Option.some.injEq] at h1
          subst h1
          cases i with
          | zero =>
            simp only [List.getElem?_cons_zero, Option.some.injEq] at hi
            subst hi
            exact ⟨r, by simp, hs⟩
          | succ i =>
            simpa using ih t ht i (by simpa using hi)
  obtain ⟨q, hq, hm⟩ := hx
  obtain ⟨r, k, e1, e2, e3⟩ := multi_cases s maxWindow
  have hq1 : q.1 = (List.range k).map fun i => (5 + 2 * i, r i) := by
    unfold multiSmooth at hm
    simp only [e1] at hm
    split_ifs at hm <;> simp at hm <;> rw [← hm]
  have hhas : ∀ i, i < k → s (5 + 2 * i) = some (r i) := by
    cases hb : (multiLoop s (windows maxWindow) none []).2 with
    | true => intro i hi; exact (e3 hb).1 i hi.le
    | false => exact (e2 hb).has
  refine ⟨q.1, ?_, ?_⟩
  · unfold smoothedFull
    rw [h4, pyRd_nat, List.getElem?_map, hq]
    simp only [Option.map_some, Option.bind_eq_bind, Option.bind_some, Option.some.injEq, Prod.mk.injEq, and_true]
    rw [hq1, List.map_map, List.length_map, List.length_range]
    apply List.map_congr_left
    intro a _
    simp only [Function.comp]
    omega
  · intro p hp
    rw [hq1] at hp
    obtain ⟨a, ha, rfl⟩ := List.mem_map.mp hp
    exact hhas a (List.mem_range.mp ha)

theorem valid_some {unit : ℚ × ℚ × ℚ} {j maxWindow : Nat} {segs : List (Nat → Option ℚ)} {m : Multi}
    (h : mk unit (5 + 2 * j) maxWindow segs = some m) {i : Nat} (hi : i < segments m) :
    ∃ p q, m.valid[i]? = some p ∧ pyRd p (((m.sgWindow : Int) - 5) / 2) = some q ∧ rSp m i = some q.2 := by
  classical
  have hr := C196_radii h
  have hv : m.valid[i]? = some (m.valid[i]'hi) := List.getElem?_eq_getElem _
  have h1 := congrArg (fun l => l[i]?) hr
  simp only [List.getElem?_map, List.getElem?_range hi, Option.map_some] at h1
  cases hf : (segs.filter fun s => decide (Steady maxWindow j s))[i]? with
  | none => rw [hf] at h1; simp at h1
  | some s =>
    rw [hf] at h1
    have hmem := List.mem_of_getElem? hf
    rw [List.mem_filter] at hmem
    have hst : Steady maxWindow j s := by simpa using hmem.2
    obtain ⟨k, r, a1, _, a3⟩ := hst
    simp only [Option.map_some, Option.some.injEq, a1.has j a3] at h1
    have h2 := h1
    unfold rSp at h2
    rw [pyRd_nat, hv] at h2
    simp only [Option.bind_eq_bind, Option.bind_some] at h2
    unfold multiRsp at h2
    rw [Option.map_eq_some_iff] at h2
    obtain ⟨q, hq, hq2⟩ := h2
    exact ⟨_, q, hv, hq, by rw [h1, hq2]⟩

/-- C196, the text of a segment, as far as it holds: for the first segment it has the direction and the radius of that segment.
For every other segment it is an exception. -/
theorem C196_string_partial {unit : ℚ × ℚ × ℚ} {j maxWindow : Nat} {segs : List (Nat → Option ℚ)} {m : Multi}
    (h : mk unit (5 + 2 * j) maxWindow segs = some m) (c : Nat) :
    (0 < segments m → ∃ r, rSp m 0 = some r ∧ string m 0 c = some (unit.1, unit.2.1, unit.2.2, r, c)) ∧
    ∀ i : Nat, 0 < i → i < segments m → (∃ r, rSp m i = some r) ∧ string m i c = none := by
  have hu : m.unit = unit := by
    obtain ⟨_, _, h2, _⟩ := mk_spec h
    exact h2
  constructor
  · intro h0
    obtain ⟨p, q, h1, h2, h3⟩ := valid_some h h0
    refine ⟨q.2, h3, ?_⟩
    unfold string
    have e0 : pyRd m.valid 0 = some p := by have := pyRd_nat m.valid 0; rw [h1] at this; exact this
    rw [e0]
    simp only [Option.bind_eq_bind, Option.bind_some, h2]
    unfold oneString
    have e1 : pyRd [q] 0 = some q := by have := pyRd_nat [q] 0; simpa using this
    rw [e1, hu]
    rfl
  · intro i hi hs
    obtain ⟨p, q, h1, h2, h3⟩ := valid_some h hs
    refine ⟨⟨q.2, h3⟩, ?_⟩
    unfold string
    rw [pyRd_nat, h1]
    simp only [Option.bind_eq_bind, Option.bind_some, h2]
    unfold oneString
    rw [pyRd_nat, List.getElem?_eq_none (by simp; omega)]
    rfl

/-- C196: the file of caustics cannot be written for such profiles: every list with one of them is an exception. -/
theorem C196_write (ms : List Multi) (h : ms ≠ []) : writeLoop ms [] 0 = none := by
  cases ms with
  | nil => exact absurd rfl h
  | cons m ms =>
    unfold writeLoop
    have : containsCaustic m [] = none := rfl
    rw [this]
    simp only [Option.bind_eq_bind, Option.bind_none, Option.bind_fun_none]

/-- Two steady segments. -/
def two : List (Nat → Option ℚ) :=
  [fun w => if w < 12 then some (100 - w) else none, fun _ => none, fun w => if w < 10 then some (200 - w) else none]

/-- C196 fails for the second segment: it has a radius and no text. -/
theorem C196_counterexample : ∃ m, mk (1, 0, 0) 7 81 two = some m ∧ segments m = 2 ∧ rSp m 1 = some 193 ∧
    string m 0 3 = some (1, 0, 0, 93, 3) ∧ string m 1 3 = none := by
  refine ⟨⟨(1, 0, 0), 7, [[(5, 95), (7, 93), (9, 91), (11, 89)], [], [(5, 195), (7, 193), (9, 191)]],
    [[(5, 95), (7, 93), (9, 91), (11, 89)], [(5, 195), (7, 193), (9, 191)]]⟩, ?_, ?_, ?_, ?_, ?_⟩ <;> decide +kernel

end Verif.Py.MultiProf
