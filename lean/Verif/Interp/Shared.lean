import Verif.Interp.SharedModel
import Verif.Interp.Cubic

/-!
# C154: a cubic interpolator shared between goroutines

Specification: `current` follows only which coordinates were asked for last; `answers` lists what the callers get.
-/

set_option autoImplicit false

namespace Verif.Interp

open Verif.Go

/-- The answers when every second half returns `ref x a` for the `a` of the first half done last before it. -/
def answers {A : Type} (ref : ℚ → A → Option ℚ) : A → List (Half A) → List (Option ℚ)
  | _, [] => []
  | _, .fresh a :: l => answers ref a l
  | a, .read x :: l => ref x a :: answers ref a l

/-- The coordinates asked for. -/
def asked {A : Type} : List (Half A) → List A
  | [] => []
  | .fresh a :: l => a :: asked l
  | .read _ :: l => asked l

/-- A call of `Eval` is its first half followed by its second half. -/
theorem bi_halves (bi : BiCubic) (x y : ℚ) :
    bi.eval x y = ((bi.fresh y).1, if (bi.fresh y).2 then (bi.fresh y).1.xSpline.eval x else none) := by
  unfold BiCubic.eval BiCubic.fresh
  split
  · dsimp only
    split
    · split <;> simp_all
    · simp
  · simp

theorem triY_halves (tri : TriCubic) (x y : ℚ) :
    tri.finish x y = ((tri.freshY y).1, if (tri.freshY y).2 then (tri.freshY y).1.xSpline.eval x else none) := by
  unfold TriCubic.finish TriCubic.freshY
  dsimp only
  split <;> rename_i h <;> simp only [h] <;> rfl

theorem tri_halves (tri : TriCubic) (x y z : ℚ) :
    tri.eval x y z = ((tri.fresh y z).1, if (tri.fresh y z).2 then (tri.fresh y z).1.xSpline.eval x else none) := by
  unfold TriCubic.eval TriCubic.fresh
  split
  · split
    · dsimp only
      split
      · rw [triY_halves]
      · simp
    · rw [triY_halves]
  · simp

theorem bi_fresh_after (bi : BiCubic) (y : ℚ) (hist : List (ℚ × ℚ)) :
    ((bi.after hist).fresh y).1 = bi.after (hist ++ [(0, y)]) := by
  have := congrArg Prod.fst (bi_halves (bi.after hist) 0 y)
  simp only at this
  rw [← this]
  simp [BiCubic.after]

theorem tri_fresh_after (tri : TriCubic) (y z : ℚ) (hist : List (ℚ × ℚ × ℚ)) :
    ((tri.after hist).fresh y z).1 = tri.after (hist ++ [(0, y, z)]) := by
  have := congrArg Prod.fst (tri_halves (tri.after hist) 0 y z)
  simp only at this
  rw [← this]
  simp [TriCubic.after]

/-- The second half is a call with the coordinates asked for last. -/
theorem bi_read (bi : BiCubic) (x : ℚ) : bi.xSpline.eval x = (bi.eval x bi.lastY).2 := by
  simp [BiCubic.eval]

theorem tri_read (tri : TriCubic) (x : ℚ) : tri.xSpline.eval x = (tri.eval x tri.lastY tri.lastZ).2 := by
  simp [TriCubic.eval]

theorem bi_shared {xs ys vals : List ℚ} {bi : BiCubic} {ySp : Nat → Spline} (tx : Table xs)
    (inv : BiInv xs ys ySp bi)
    (hy : ∀ i, SplineOf ys ((List.range ys.length).map (fun j => vals.getD (xs.length * j + i) 0)) (ySp i))
    (l : List (Half ℚ)) :
    ∀ (hist : List (ℚ × ℚ)), InTab ys (bi.after hist).lastY → (∀ y ∈ asked l, InTab ys y) →
      (bi.after hist).shared l = answers (biRef xs ys vals) (bi.after hist).lastY l := by
  induction l with
  | nil => intro hist _ _; rfl
  | cons h l ih =>
    intro hist ht hl
    cases h with
    | fresh y =>
      have hlast := (bi_after tx (fun i => (hy i).inside) (fun i => (hy i).outside) (hist ++ [(0, y)]) inv).2
      simp only [List.getLast?_append, List.getLast?_singleton, Option.some_or, Option.map_some, Option.getD_some]
        at hlast
      simp only [BiCubic.shared, answers, bi_fresh_after]
      rw [ih (hist ++ [(0, y)]) (by rw [hlast]; exact hl y (by simp [asked])) (fun y hy => hl y (by simp [asked, hy])),
        hlast]
    | read x =>
      simp only [BiCubic.shared, answers]
      rw [ih hist ht (fun y hy => hl y (by simpa [asked] using hy))]
      obtain ⟨inv', _⟩ := bi_after tx (fun i => (hy i).inside) (fun i => (hy i).outside) hist inv
      obtain ⟨_, _, h1, _⟩ := bi_step tx (fun i => (hy i).inside) (fun i => (hy i).outside) inv' x
        (bi.after hist).lastY
      obtain ⟨sp, hsp, ev⟩ := h1 ht
      rw [bi_read, ev, (biRef_eq tx hy x _).1 ht sp hsp]

/-- C154 for `BiCubic`: however the halves of calls alternate, a caller gets the table's value at their `x` and at the
`y` of whichever call refreshed the interpolator last (where the constructor left it, if none did). -/
theorem C154_bicubic_last_partial (xs ys vals : List ℚ) (tx : Table xs) (ty : Table ys)
    (hl : vals.length = xs.length * ys.length) :
    ∃ bi, newBiCubic xs ys vals = some bi ∧ ∀ l : List (Half ℚ), (∀ y ∈ asked l, InTab ys y) →
      bi.shared l = answers (biRef xs ys vals) bi.lastY l := by
  obtain ⟨bi, ySp, e, inv, t0, hy⟩ := bi_new tx ty hl
  exact ⟨bi, e, fun l h => bi_shared tx inv hy l [] t0 h⟩

theorem turns_asked {A : Type} (calls : List (ℚ × A)) (a : A) :
    a ∈ asked (calls.flatMap (fun c => [.fresh c.2, .read c.1])) → ∃ c ∈ calls, c.2 = a := by
  induction calls with
  | nil => simp [asked]
  | cons c cs ih =>
    simp only [List.flatMap_cons, List.cons_append, List.nil_append, asked, List.mem_cons]
    rintro (r | r)
    · exact ⟨c, by simp, r.symm⟩
    · obtain ⟨c', h', e'⟩ := ih r
      exact ⟨c', by simp [h'], e'⟩

theorem turns_answers {A : Type} (ref : ℚ → A → Option ℚ) (calls : List (ℚ × A)) (a : A) :
    answers ref a (calls.flatMap (fun c => [.fresh c.2, .read c.1])) = calls.map (fun c => ref c.1 c.2) := by
  induction calls generalizing a with
  | nil => rfl
  | cons c cs ih => simp [answers, ih]

/-- C154 for `BiCubic`: callers who take turns (a lock around `Eval`) each get their own value. -/
theorem C154_bicubic_turns_partial (xs ys vals : List ℚ) (tx : Table xs) (ty : Table ys)
    (hl : vals.length = xs.length * ys.length) :
    ∃ bi, newBiCubic xs ys vals = some bi ∧ ∀ calls : List (ℚ × ℚ), (∀ c ∈ calls, InTab ys c.2) →
      bi.shared (calls.flatMap (fun c => [.fresh c.2, .read c.1])) =
        calls.map (fun c => biRef xs ys vals c.1 c.2) := by
  obtain ⟨bi, e, h⟩ := C154_bicubic_last_partial xs ys vals tx ty hl
  refine ⟨bi, e, fun calls hc => ?_⟩
  rw [h]
  · rw [turns_answers]
  · intro a ha
    obtain ⟨c, h', e'⟩ := turns_asked calls a ha
    exact e' ▸ hc c h'

theorem tri_shared {xs ys zs vals : List ℚ} {tri : TriCubic} {zSp : Nat → Nat → Spline} (tx : Table xs) (ty : Table ys)
    (inv : TriInv xs ys zs zSp tri)
    (hz : ∀ i j, SplineOf zs ((List.range zs.length).map
        (fun k => vals.getD (xs.length * ys.length * k + xs.length * j + i) 0)) (zSp i j))
    (l : List (Half (ℚ × ℚ))) :
    ∀ (hist : List (ℚ × ℚ × ℚ)), InTab ys (tri.after hist).lastY → InTab zs (tri.after hist).lastZ →
      (∀ a ∈ asked l, InTab ys a.1 ∧ InTab zs a.2) →
      (tri.after hist).shared l = answers (fun x a => triRef xs ys zs vals x a.1 a.2)
        ((tri.after hist).lastY, (tri.after hist).lastZ) l := by
  have hin : ∀ z, InTab zs z → ∀ i j, (zSp i j).eval z = some (((zSp i j).eval z).getD 0) :=
    fun z h i j => (hz i j).inside z h
  have hout : ∀ z, ¬ InTab zs z → ∀ i j, (zSp i j).eval z = none := fun z h i j => (hz i j).outside z h
  induction l with
  | nil => intro hist _ _ _; rfl
  | cons h l ih =>
    intro hist h1 h2 hl
    cases h with
    | fresh a =>
      obtain ⟨y, z⟩ := a
      obtain ⟨ay, az⟩ := hl (y, z) (by simp [asked])
      obtain ⟨_, l1, l2⟩ := tri_after tx ty hin hout (hist ++ [(0, y, z)]) inv
      simp only [List.getLast?_append, List.getLast?_singleton, Option.some_or, Option.map_some, Option.getD_some]
        at l1 l2
      have l3 := l2 (by rw [l1]; exact az)
      simp only [TriCubic.shared, answers, tri_fresh_after]
      rw [ih (hist ++ [(0, y, z)]) (by rw [l3]; exact ay) (by rw [l1]; exact az)
        (fun a ha => hl a (by simp [asked, ha])), l1, l3]
    | read x =>
      simp only [TriCubic.shared, answers]
      rw [ih hist h1 h2 (fun y hy => hl y (by simpa [asked] using hy))]
      obtain ⟨inv', _⟩ := tri_after tx ty hin hout hist inv
      obtain ⟨_, _, _, g, _⟩ := tri_step tx ty hin hout inv' x (tri.after hist).lastY (tri.after hist).lastZ
      obtain ⟨sp, hsp, ev⟩ := g h2 h1
      rw [tri_read, ev, (triRef_eq tx ty hz x _ _).1 h2 h1 sp hsp]

/-- C154 for `TriCubic`: a caller gets the value at their `x` and at the `y` and `z` of whichever call refreshed the
interpolator last. -/
theorem C154_tricubic_last_partial (xs ys zs vals : List ℚ) (tx : Table xs) (ty : Table ys) (tz : Table zs)
    (hl : vals.length = xs.length * ys.length * zs.length) :
    ∃ tri, newTriCubic xs ys zs vals = some tri ∧ ∀ l : List (Half (ℚ × ℚ)),
      (∀ a ∈ asked l, InTab ys a.1 ∧ InTab zs a.2) →
      tri.shared l = answers (fun x a => triRef xs ys zs vals x a.1 a.2) (tri.lastY, tri.lastZ) l := by
  obtain ⟨tri, zSp, e, inv, iz, iy, hz⟩ := tri_new tx ty tz hl
  exact ⟨tri, e, fun l h => tri_shared tx ty inv hz l [] iy iz h⟩

/-- C154 for `TriCubic`: callers who take turns each get their own value. -/
theorem C154_tricubic_turns_partial (xs ys zs vals : List ℚ) (tx : Table xs) (ty : Table ys) (tz : Table zs)
    (hl : vals.length = xs.length * ys.length * zs.length) :
    ∃ tri, newTriCubic xs ys zs vals = some tri ∧ ∀ calls : List (ℚ × ℚ × ℚ),
      (∀ c ∈ calls, InTab ys c.2.1 ∧ InTab zs c.2.2) →
      tri.shared (calls.flatMap (fun c => [.fresh c.2, .read c.1])) =
        calls.map (fun c => triRef xs ys zs vals c.1 c.2.1 c.2.2) := by
  obtain ⟨tri, e, h⟩ := C154_tricubic_last_partial xs ys zs vals tx ty tz hl
  refine ⟨tri, e, fun calls hc => ?_⟩
  rw [h]
  · rw [turns_answers]
  · intro a ha
    obtain ⟨c, h', e'⟩ := turns_asked calls a ha
    exact e' ▸ hc c h'

/-- Two overlapping calls: the second caller has moved the interpolator to `y = 2` before the first reads it. -/
def overlap : List (Half ℚ) := [.fresh 1, .fresh 2, .read 0, .read 0]

example : Table [0, 1, 2] ∧ (∀ y ∈ asked overlap, InTab [0, 1, 2] y) := by
  refine ⟨⟨by simp, by left; simp⟩, ?_⟩
  simp [asked, overlap, InTab]

example : (newTriCubic [0, 1, 2] [0, 1, 2] [0, 1, 2] triData).map (fun tri =>
    tri.shared [.fresh (1, 1), .read 0, .fresh (1, 0), .read 1, .fresh (2, 2), .read 2]) =
      some [some 12, some 4, some 26] := by decide +kernel

/-- C154 fails for overlapping calls: callers of `Eval(0, 1)` and `Eval(0, 2)` on the table of `10 y` should get 10 and
20; both get 20. -/
theorem C154_overlap_counterexample :
    ∃ bi, newBiCubic [0, 1, 2] [0, 1, 2] [0, 0, 0, 10, 10, 10, 20, 20, 20] = some bi ∧
      (bi.eval 0 1).2 = some 10 ∧ (bi.eval 0 2).2 = some 20 ∧
      bi.shared overlap = [some 20, some 20] := by
  have h : (newBiCubic [0, 1, 2] [0, 1, 2] [0, 0, 0, 10, 10, 10, 20, 20, 20]).map (fun bi =>
      ((bi.eval 0 1).2, (bi.eval 0 2).2, bi.shared overlap)) =
      some (some 10, some 20, [some 20, some 20]) := by decide +kernel
  obtain ⟨bi, e, h⟩ := Option.map_eq_some_iff.mp h
  simp only [Prod.mk.injEq] at h
  exact ⟨bi, e, h⟩

end Verif.Interp
