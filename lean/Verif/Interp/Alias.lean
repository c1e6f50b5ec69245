import Verif.Interp.AliasModel
import Verif.Interp.Cubic
import Verif.Interp.CubicAll

/-!
# C157: results written over an argument

Specification: the same call with a separate slice for the result.
-/

set_option autoImplicit false

namespace Verif.Interp

open Verif.Go

theorem forRange_rel {σ τ : Type} (R : Int → σ → τ → Prop) {lo hi : Int} (h : lo ≤ hi) (f : Int → σ → Option σ)
    (g : Int → τ → Option τ)
    (hb : ∀ i s t, lo ≤ i → i < hi → R i s t → Option.Rel (R (i + 1)) (f i s) (g i t)) :
    ∀ {s : σ} {t : τ}, R lo s t → Option.Rel (R hi) (forRange lo hi f s) (forRange lo hi g t) := by
  obtain ⟨n, rfl⟩ : ∃ n : Nat, hi = lo + n := ⟨(hi - lo).toNat, by omega⟩
  clear h
  induction n generalizing lo with
  | zero =>
    intro s t h
    rw [forRange_empty (by simp), forRange_empty (by simp)]
    simpa using Option.Rel.some h
  | succ n ih =>
    intro s t h
    rw [forRange_step (by push_cast; omega), forRange_step (by push_cast; omega)]
    have h1 := hb lo s t le_rfl (by push_cast; omega) h
    revert h1
    generalize f lo s = w1
    generalize g lo t = w2
    intro h1
    have e : lo + ((n + 1 : Nat) : Int) = lo + 1 + (n : Nat) := by push_cast; ring
    cases h1 with
    | none => exact Option.Rel.none
    | some h1 =>
      simp only [Option.bind_some]
      rw [e]
      exact ih (fun i s t a b c => hb i s t (by omega) (by omega) c) h1

/-- Two output slices: the entries before `i` are the same, the rest of the first is that of `o0`. -/
structure Behind (o0 : List ℚ) (i : Int) (o1 o2 : List ℚ) : Prop where
  len1 : o1.length = o0.length
  len2 : o2.length = o0.length
  done : ∀ k : Nat, (k : Int) < i → o1[k]? = o2[k]?
  rest : ∀ k : Nat, i ≤ k → o1[k]? = o0[k]?

theorem Behind.wr {o0 o1 o2 : List ℚ} {i : Int} (h : Behind o0 i o1 o2) (v : ℚ) :
    Option.Rel (Behind o0 (i + 1)) (wr o1 i v) (wr o2 i v) := by
  unfold Go.wr
  rw [h.len1, h.len2]
  split
  · apply Option.Rel.some
    refine ⟨by simpa using h.len1, by simpa using h.len2, ?_, ?_⟩
    · intro k hk
      simp only [List.getElem?_set, h.len1, h.len2]
      split
      · rfl
      · exact h.done k (by omega)
    · intro k hk
      simp only [List.getElem?_set]
      rw [if_neg (by omega)]
      exact h.rest k (by omega)
  · exact Option.Rel.none

theorem Behind.read {o0 o1 o2 : List ℚ} {i : Int} (h : Behind o0 i o1 o2) {k : Int} (hk : i ≤ k) :
    rd o1 k = rd o0 k := by
  unfold rd
  split
  · rfl
  · exact h.rest _ (by omega)

theorem Behind.eq {o0 o1 o2 : List ℚ} {i : Int} (h : Behind o0 i o1 o2) (hi : (o0.length : Int) ≤ i) : o1 = o2 := by
  apply List.ext_getElem?
  intro k
  by_cases hk : (k : Int) < i
  · exact h.done k hk
  · rw [List.getElem?_eq_none (by rw [h.len1]; omega), List.getElem?_eq_none (by rw [h.len2]; omega)]

theorem Behind.start {o0 o2 : List ℚ} (h : o2.length = o0.length) : Behind o0 0 o0 o2 :=
  ⟨rfl, h, fun k hk => by omega, fun _ _ => rfl⟩

/-- C157 for `EvalAll` (all kinds, `eval` is `Eval` with the state it leaves): when the result is written over the first of
the argument slices, or over another one of that length, the values returned, the state and the panics are those of a
call with a separate slice. `pt out i` are the arguments of call `i` while the shared slice holds `out`: they depend on
the entry `i` of that slice only. -/
theorem C157_evalAll {σ α : Type} (eval : σ → α → σ × Option ℚ) (pt : List ℚ → Int → Option α)
    (hpt : ∀ (o o' : List ℚ) (i : Int), rd o i = rd o' i → pt o i = pt o' i) (xs out : List ℚ)
    (hl : out.length = xs.length) (s : σ) :
    evalAllShared eval xs.length pt xs s = evalAllM eval xs.length (pt xs) (some out) s := by
  unfold evalAllShared evalAllM outSlice
  have := forRange_rel (fun i (a b : σ × List ℚ) => a.1 = b.1 ∧ Behind xs i a.2 b.2) (lo := 0) (hi := xs.length)
    (by omega) (evalTurnShared eval pt) (evalTurn eval (pt xs)) (by
      rintro i ⟨s1, o1⟩ ⟨s2, o2⟩ h0 h1 ⟨e, h⟩
      simp only at e h
      subst e
      unfold evalTurnShared evalTurn
      simp only
      rw [hpt o1 xs i (h.read le_rfl)]
      cases pt xs i with
      | none => exact Option.Rel.none
      | some p =>
        simp only [Option.bind_eq_bind, Option.bind_some]
        cases (eval s1 p).2 with
        | none => exact Option.Rel.none
        | some v =>
          simp only [Option.bind_some]
          have := h.wr v
          revert this
          generalize wr o1 i v = w1
          generalize wr o2 i v = w2
          intro this
          cases this with
          | none => exact Option.Rel.none
          | some h => exact Option.Rel.some ⟨rfl, h⟩) (s := (s, xs)) (t := (s, out)) ⟨rfl, Behind.start hl⟩
  revert this
  generalize forRange _ _ (evalTurnShared eval pt) _ = w1
  generalize forRange _ _ (evalTurn eval (pt xs)) _ = w2
  intro this
  cases this with
  | none => rfl
  | some h =>
    rename_i a b
    obtain ⟨e, h⟩ := h
    rw [Prod.ext e (h.eq le_rfl)]

/-- The argument functions of `EvalAll` in two and three dimensions read only entry `i`. -/
theorem pt2_first (ys o o' : List ℚ) (i : Int) (h : rd o i = rd o' i) : pt2 o ys i = pt2 o' ys i := by
  unfold pt2; rw [h]

theorem pt2_second (xs o o' : List ℚ) (i : Int) (h : rd o i = rd o' i) : pt2 xs o i = pt2 xs o' i := by
  unfold pt2; rw [h]

theorem pt2_both (o o' : List ℚ) (i : Int) (h : rd o i = rd o' i) : pt2 o o i = pt2 o' o' i := by
  unfold pt2; rw [h]

theorem pt3_first (ys zs o o' : List ℚ) (i : Int) (h : rd o i = rd o' i) : pt3 o ys zs i = pt3 o' ys zs i := by
  unfold pt3; rw [h]

theorem pt3_second (xs zs o o' : List ℚ) (i : Int) (h : rd o i = rd o' i) : pt3 xs o zs i = pt3 xs o' zs i := by
  unfold pt3; rw [h]

theorem pt3_third (xs ys o o' : List ℚ) (i : Int) (h : rd o i = rd o' i) : pt3 xs ys o i = pt3 xs ys o' i := by
  unfold pt3; rw [h]

/-- C157 for `EvalAll` of `Linear` and `Spline` (`eval` is `Eval`). -/
theorem C157_evalAll_one (eval : ℚ → Option ℚ) (xs out : List ℚ) (hl : out.length = xs.length) :
    (evalAllShared (fun (s : Unit) x => (s, eval x)) xs.length rd xs ()).map Prod.snd = evalAll eval xs (some out) := by
  rw [C157_evalAll _ rd (fun _ _ _ h => h) xs out hl]
  unfold evalAllM evalAll outSlice
  have := forRange_rel (fun _ (a : Unit × List ℚ) b => a.2 = b) (lo := 0) (hi := xs.length) (by omega)
    (evalTurn (fun (s : Unit) x => (s, eval x)) (rd xs))
    (fun i out => do
      let x ← rd xs i
      let v ← eval x
      wr out i v) (by
      rintro i ⟨s1, o1⟩ o2 h0 h1 h
      simp only at h
      subst h
      unfold evalTurn
      cases rd xs i with
      | none => exact Option.Rel.none
      | some p =>
        simp only [Option.bind_eq_bind, Option.bind_some]
        cases eval p with
        | none => exact Option.Rel.none
        | some v =>
          simp only [Option.bind_some]
          cases wr o1 i v with
          | none => exact Option.Rel.none
          | some w => exact Option.Rel.some rfl) (s := ((), out)) (t := out) rfl
  revert this
  simp only
  generalize forRange _ _ (evalTurn _ _) _ = w1
  generalize forRange _ _ _ out = w2
  intro this
  cases this with
  | none => rfl
  | some h => simpa using h

example : ((newLinear [0, 1, 3] [5, 6, 10]).bind fun lin =>
    (evalAllShared (fun (s : Unit) x => (s, lin.eval x)) 3 rd [2, 0, 1/2] ()).map Prod.snd) = some [8, 5, 11/2] := by
  decide +kernel

/-- C157 for `BiCubic`, over the first slice. -/
theorem C157_bicubic (bi : BiCubic) (xs ys out : List ℚ) (hl : out.length = xs.length) :
    evalAllShared (fun (s : BiCubic) (p : ℚ × ℚ) => s.eval p.1 p.2) xs.length (fun o => pt2 o ys) xs bi =
      bi.evalAll xs ys (some out) :=
  C157_evalAll _ _ (pt2_first ys) xs out hl bi

/-- C157 for `TriCubic`, over the last slice. -/
theorem C157_tricubic (tri : TriCubic) (xs ys zs out : List ℚ) (hz : zs.length = xs.length) (hl : out.length = zs.length) :
    evalAllShared (fun (s : TriCubic) (p : ℚ × ℚ × ℚ) => s.eval p.1 p.2.1 p.2.2) zs.length (fun o => pt3 xs ys o) zs tri =
      tri.evalAll xs ys zs (some out) := by
  rw [C157_evalAll _ _ (pt3_third xs ys) zs out hl tri]
  unfold TriCubic.evalAll
  rw [hz]

example : ((newBiCubic [0, 1, 2] [0, 1, 2] [0, 0, 0, 10, 10, 10, 20, 20, 20]).bind fun bi =>
    (evalAllShared (fun (s : BiCubic) (p : ℚ × ℚ) => s.eval p.1 p.2) 3 (fun o => pt2 o [2, 0, 1]) [0, 1, 2] bi).map
      Prod.snd) = some [20, 0, 10] := by decide +kernel

/-- C157 for `TriDiagAt`: the solution may be written over the right hand side, the diagonal or the lower diagonal (or
several of them, if they are one slice). -/
theorem C157_tridiag_partial (sa sb sr : Bool) (as bs cs rs out out' : List ℚ) (hl : out'.length = out.length)
    (ha : sa = true → out = as) (hb : sb = true → out = bs) (hr : sr = true → out = rs) :
    triDiagAtShared sa sb false sr as bs cs rs out = triDiagAt as bs cs rs out' := by
  unfold triDiagAtShared triDiagAt
  rw [hl]
  split
  · rfl
  rename_i hn
  push Not at hn
  obtain ⟨n1, n2, n3, n4⟩ := hn
  have sh : ∀ (s : Bool) (own : List ℚ), (s = true → out = own) → share s own out = own := by
    intro s own h
    cases s
    · rfl
    · exact h rfl
  have shr : ∀ (s : Bool) (own : List ℚ), (s = true → out = own) → ∀ {i : Int} {o1 o2 : List ℚ}, Behind out i o1 o2 →
      rd (share s own o1) i = rd own i := by
    intro s own h i o1 o2 hb
    cases s
    · rfl
    · rw [← h rfl]; exact hb.read le_rfl
  rw [sh sb bs hb, sh sr rs hr]
  cases hbeta : rd bs 0 with
  | none => rfl
  | some beta =>
    simp only [Option.bind_eq_bind, Option.bind_some]
    split
    · rfl
    cases hr0 : rd rs 0 with
    | none => rfl
    | some r =>
      simp only [Option.bind_some]
      have h0 := (Behind.start hl).wr (r / beta)
      revert h0
      generalize wr out 0 (r / beta) = w1
      generalize wr out' 0 (r / beta) = w2
      intro h0
      cases h0 with
      | none => rfl
      | some h0 =>
        rename_i o1 o2
        simp only [Option.bind_some]
        rw [h0.len1, h0.len2]
        by_cases hlt : (1 : Int) ≤ out.length
        · have := forRange_rel (fun i (a b : List ℚ × ℚ × List ℚ) => a.1 = b.1 ∧ a.2.1 = b.2.1 ∧ Behind out i a.2.2 b.2.2)
            (lo := 1) (hi := out.length) hlt (triForwardShared sa sb false sr as bs cs rs) (triForward as bs cs rs) (by
            rintro i ⟨t1, b1, o1⟩ ⟨t2, b2, o2⟩ i0 i1 ⟨e1, e2, h⟩
            simp only at e1 e2 h
            subst e1 e2
            unfold triForwardShared triForward
            simp only
            rw [show share false cs o1 = cs from rfl, shr sb bs hb h, shr sa as ha h, shr sr rs hr h]
            have ho : rd o1 (i - 1) = rd o2 (i - 1) := by
              unfold rd
              split
              · rfl
              · exact h.done _ (by omega)
            rw [ho]
            cases rd cs (i - 1) with
            | none => exact Option.Rel.none
            | some c =>
              simp only [Option.bind_eq_bind, Option.bind_some]
              cases wr t1 i (c / b1) with
              | none => exact Option.Rel.none
              | some t =>
                simp only [Option.bind_some]
                cases rd bs i with
                | none => exact Option.Rel.none
                | some b =>
                  simp only [Option.bind_some]
                  cases rd as i with
                  | none => exact Option.Rel.none
                  | some a =>
                    simp only [Option.bind_some]
                    cases rd t i with
                    | none => exact Option.Rel.none
                    | some ti =>
                      simp only [Option.bind_some]
                      split
                      · exact Option.Rel.none
                      · cases rd rs i with
                        | none => exact Option.Rel.none
                        | some ri =>
                          simp only [Option.bind_some]
                          cases rd o2 (i - 1) with
                          | none => exact Option.Rel.none
                          | some o =>
                            simp only [Option.bind_some]
                            have := h.wr ((ri - a * o) / (b - a * ti))
                            revert this
                            generalize wr o1 i _ = w1
                            generalize wr o2 i _ = w2
                            intro this
                            cases this with
                            | none => exact Option.Rel.none
                            | some h => exact Option.Rel.some ⟨rfl, rfl, h⟩)
            (s := (List.replicate as.length 0, beta, o1)) (t := (List.replicate as.length 0, beta, o2))
            ⟨rfl, rfl, by simpa using h0⟩
          revert this
          generalize forRange 1 _ (triForwardShared sa sb false sr as bs cs rs) _ = w1
          generalize forRange 1 _ (triForward as bs cs rs) _ = w2
          intro this
          cases this with
          | none => rfl
          | some h =>
            rename_i a b
            obtain ⟨a1, a2, a3⟩ := a
            obtain ⟨b1, b2, b3⟩ := b
            obtain ⟨e1, e2, h⟩ := h
            simp only at e1 e2 h
            subst e1
            have e3 := h.eq le_rfl
            subst e3
            simp only [Option.bind_some]
        · rw [forRange_empty (by omega), forRange_empty (by omega)]
          simp only [Option.bind_some]
          have : o1 = o2 := h0.eq (by omega)
          rw [this]

example : triDiagAtShared false false false true [0, 1, 1] [2, 4, 4] [1, 1, 0] [4, 12, 14] [4, 12, 14] =
    triDiagAt [0, 1, 1] [2, 4, 4] [1, 1, 0] [4, 12, 14] [0, 0, 0] ∧
    triDiagAt [0, 1, 1] [2, 4, 4] [1, 1, 0] [4, 12, 14] [0, 0, 0] = some [1, 2, 3] := by decide +kernel

/-- C157 fails for the upper diagonal of `TriDiagAt`, and for `ConvolveAt`. -/
theorem C157_alias_counterexample :
    triDiagAtShared false false true false [0, 1, 1] [2, 4, 4] [1, 1, 0] [4, 12, 14] [1, 1, 0] ≠
      triDiagAt [0, 1, 1] [2, 4, 4] [1, 1, 0] [4, 12, 14] [0, 0, 0] ∧
    ((newTophat 3).bind fun k => k.convolve [3, 0, 9, 0, 3] .zeroPad) = some [1, 4, 3, 4, 1] ∧
    ((newTophat 3).bind fun k => k.convolveSelf [3, 0, 9, 0, 3] .zeroPad) =
      some [1, 10 / 3, 37 / 9, 64 / 27, 145 / 81] := by
  decide +kernel

end Verif.Interp
