import Verif.Interp.Spline

/-! BiCubic and TriCubic interpolators: properties C22 and C89. -/

namespace Verif.Interp

open Verif.Go

/-! Specification. -/

/-- `y` lies within the table. -/
def InTab (ys : List ℚ) (y : ℚ) : Prop := (∃ a ∈ ys, a ≤ y) ∧ ∃ a ∈ ys, y ≤ a

/-- A strictly monotone table of three or more points. -/
structure Table (xs : List ℚ) : Prop where
  three : 3 ≤ xs.length
  mono : xs.Pairwise (· < ·) ∨ xs.Pairwise (· > ·)

/-- Reference value for bicubic interpolation: for each `x` grid line the spline in `y` through its data,
evaluated at `y`; then the spline in `x` through these values.  Nothing is remembered between calls. -/
def biRef (xs ys vals : List ℚ) (x y : ℚ) : Option ℚ := do
  let row ← (List.range xs.length).mapM (fun i => do
    let sp ← newSpline ys ((List.range ys.length).map (fun j => vals.getD (xs.length * j + i) 0))
    sp.eval y)
  let sp ← newSpline xs row
  sp.eval x

/-- Reference value for tricubic interpolation. -/
def triRef (xs ys zs vals : List ℚ) (x y z : ℚ) : Option ℚ := do
  let row ← (List.range xs.length).mapM (fun i => do
    let col ← (List.range ys.length).mapM (fun j => do
      let sp ← newSpline zs ((List.range zs.length).map
        (fun k => vals.getD (xs.length * ys.length * k + xs.length * j + i) 0))
      sp.eval z)
    let sp ← newSpline ys col
    sp.eval y)
  let sp ← newSpline xs row
  sp.eval x

/-- The object after a history of calls, some of which may have panicked (and been recovered). Calls of
math/interpolate/cubic_interpolators.go 88-105 one after the other. -/
def BiCubic.after (bi : BiCubic) (hist : List (ℚ × ℚ)) : BiCubic :=
  hist.foldl (fun b p => (b.eval p.1 p.2).1) bi

/-- The object after a history of calls, some of which may have panicked (and been recovered). Calls of
math/interpolate/cubic_interpolators.go 239-272 one after the other. -/
def TriCubic.after (tri : TriCubic) (hist : List (ℚ × ℚ × ℚ)) : TriCubic :=
  hist.foldl (fun b p => (b.eval p.1 p.2.1 p.2.2).1) tri

/-! Lemmas. -/

theorem mapM_some {α β : Type} (f : α → Option β) (g : α → β) :
    ∀ l : List α, (∀ a ∈ l, f a = some (g a)) → l.mapM f = some (l.map g) := by
  intro l
  induction l with
  | nil => intro _; rfl
  | cons a l ih =>
    intro h
    rw [List.mapM_cons, h a (by simp), ih (fun b hb => h b (by simp [hb]))]
    rfl

theorem mapM_none {α β : Type} (f : α → Option β) (l : List α) (a : α) (h : a ∈ l) (ha : f a = none) :
    l.mapM f = none := by
  induction l with
  | nil => simp at h
  | cons b l ih =>
    rw [List.mapM_cons]
    rcases List.mem_cons.mp h with h | h
    · subst h; rw [ha]; rfl
    · cases f b with
      | none => rfl
      | some v => simp [ih h]

theorem mapM_congr {α β : Type} (f g : α → Option β) :
    ∀ l : List α, (∀ a ∈ l, f a = g a) → l.mapM f = l.mapM g := by
  intro l
  induction l with
  | nil => intro _; rfl
  | cons a l ih =>
    intro h
    rw [List.mapM_cons, List.mapM_cons, h a (by simp), ih (fun b hb => h b (by simp [hb]))]

theorem mapM_map {α β γ : Type} (f : β → Option γ) (g : α → β) :
    ∀ l : List α, (l.map g).mapM f = l.mapM (fun a => f (g a)) := by
  intro l
  induction l with
  | nil => rfl
  | cons a l ih => rw [List.map_cons, List.mapM_cons, List.mapM_cons, ih]

/-- Sizes of the slices of a spline object. -/
structure Spline.Sized (sp : Spline) (n : Nat) : Prop where
  lx : sp.xs.length = n
  ly : sp.ys.length = n
  l2 : sp.y2s.length = n
  lk : sp.coeffs.length = n - 1

/-- What is needed of a spline through `(xs, ys)`. -/
structure SplineOf (xs ys : List ℚ) (sp : Spline) : Prop where
  new : newSpline xs ys = some sp
  reinit : ∀ sp0 : Spline, sp0.Sized xs.length → sp0.init xs ys = some sp
  inside : ∀ x, InTab xs x → sp.eval x = some ((sp.eval x).getD 0)
  outside : ∀ x, ¬ InTab xs x → sp.eval x = none
  knot : ∀ (i : Nat) (x y : ℚ), xs[i]? = some x → ys[i]? = some y → sp.eval x = some y
  sized : sp.Sized xs.length

theorem Table.spline {xs : List ℚ} (t : Table xs) (ys : List ℚ) (hl : ys.length = xs.length) :
    ∃ sp, SplineOf xs ys sp := by
  obtain ⟨s, d⟩ := monotone_dir t.mono
  have hx : ∀ i < xs.length, xs[i]? = some (xs.getD i 0) := fun i hi => rd_getD hi
  have hy : ∀ i < xs.length, ys[i]? = some (ys.getD i 0) := fun i hi => rd_getD (by omega)
  obtain ⟨sp, e, f, _, _, hinit⟩ := spline_new t.three d rfl hl hx hy
  have n3 := t.three
  have ends : ∀ i, i < xs.length → s * xs.getD 0 0 ≤ s * xs.getD i 0 ∧
      s * xs.getD i 0 ≤ s * xs.getD (xs.length - 1) 0 := by
    intro i hi
    constructor
    · rcases Nat.eq_zero_or_pos i with h | h
      · rw [h]
      · exact (d.lt 0 i h hi).le
    · rcases Nat.lt_or_ge i (xs.length - 1) with h | h
      · exact (d.lt i _ h (by omega)).le
      · rw [show i = xs.length - 1 by omega]
  have mem : ∀ a ∈ xs, ∃ i, i < xs.length ∧ a = xs.getD i 0 := by
    intro a ha
    obtain ⟨i, hi⟩ := List.getElem?_of_mem ha
    have h := (List.getElem?_eq_some_iff.mp hi).1
    rw [rd_getD h] at hi
    exact ⟨i, h, (Option.some.inj hi).symm⟩
  have m0 : xs.getD 0 0 ∈ xs := List.mem_of_getElem? (hx 0 (by omega))
  have ml : xs.getD (xs.length - 1) 0 ∈ xs := List.mem_of_getElem? (hx _ (by omega))
  have tab : ∀ x, InTab xs x ↔ s * xs.getD 0 0 ≤ s * x ∧ s * x ≤ s * xs.getD (xs.length - 1) 0 := by
    intro x
    constructor
    · rintro ⟨⟨a, ha, hax⟩, b, hb, hbx⟩
      obtain ⟨i, hi, rfl⟩ := mem a ha
      obtain ⟨j, hj, rfl⟩ := mem b hb
      have e1 := ends i hi
      have e2 := ends j hj
      rcases d.sgn with h | h
      · rw [h] at e1 e2 ⊢; constructor <;> linarith [e1.1, e1.2, e2.1, e2.2]
      · rw [h] at e1 e2 ⊢; constructor <;> linarith [e1.1, e1.2, e2.1, e2.2]
    · rintro ⟨h0, h1⟩
      rcases d.sgn with h | h
      · rw [h] at h0 h1
        exact ⟨⟨_, m0, by linarith⟩, _, ml, by linarith⟩
      · rw [h] at h0 h1
        exact ⟨⟨_, ml, by linarith⟩, _, m0, by linarith⟩
  refine ⟨sp, e, ?_, ?_, ?_, ?_, ⟨f.lx, f.ly, f.l2, f.lk⟩⟩
  · intro sp0 h
    exact hinit sp0 h.lx h.ly h.l2 h.lk
  · intro x h
    obtain ⟨h0, h1⟩ := (tab x).mp h
    obtain ⟨i, hi, b⟩ := exists_brk f h0 h1
    rw [spline_eval f hi b]; rfl
  · intro x h
    apply spline_eval_outside f
    by_contra c
    push Not at c
    exact h ((tab x).mpr ⟨c.1, c.2⟩)
  · intro i x y h1 h2
    have hi := (List.getElem?_eq_some_iff.mp h1).1
    rw [hx i hi] at h1
    rw [hy i hi] at h2
    rw [← Option.some.inj h1, ← Option.some.inj h2]
    by_cases c : i + 1 < xs.length
    · rw [spline_eval f c ⟨le_rfl, (d.lt i (i + 1) (by omega) c).le⟩]
      exact congrArg some (pc_left (fun i => xs.getD i 0) _ _ i)
    · obtain ⟨k, rfl⟩ : ∃ k, i = k + 1 := ⟨i - 1, by omega⟩
      rw [spline_eval f hi ⟨(d.lt k (k + 1) (by omega) hi).le, le_rfl⟩]
      exact congrArg some (pc_right d _ _ hi)

theorem Spline.Sized.setYs {sp : Spline} {n : Nat} (h : sp.Sized n) {ys : List ℚ} (hl : ys.length = n) :
    ({ sp with ys := ys } : Spline).Sized n := ⟨h.lx, hl, h.l2, h.lk⟩

theorem fillVals_ok (y : ℚ) : ∀ (sps : List Spline) (vs : List ℚ), sps.length = vs.length →
    (∀ sp ∈ sps, sp.eval y = some ((sp.eval y).getD 0)) →
    fillVals sps y vs = (sps.map (fun sp => (sp.eval y).getD 0), true) := by
  intro sps
  induction sps with
  | nil =>
    intro vs hl _
    obtain rfl : vs = [] := List.length_eq_zero_iff.mp (by simpa using hl.symm)
    rfl
  | cons sp sps ih =>
    intro vs hl h
    cases vs with
    | nil => simp at hl
    | cons v vs =>
      have := h sp (by simp)
      rw [fillVals, this, ih vs (by simpa using hl) (fun s hs => h s (by simp [hs]))]
      simp [← this]

theorem fillVals_fail (y : ℚ) (sp : Spline) (sps : List Spline) (v : ℚ) (vs : List ℚ)
    (h : sp.eval y = none) : fillVals (sp :: sps) y (v :: vs) = (v :: vs, false) := by
  rw [fillVals, h]

/-! ### BiCubic -/

section Bi
variable (xs ys : List ℚ) (ySp : Nat → Spline)

/-- Values at height `y` on the `x` grid lines. -/
def biRow (y : ℚ) : List ℚ := (List.range xs.length).map (fun i => ((ySp i).eval y).getD 0)

/-- Invariant of the state. -/
structure BiInv (bi : BiCubic) : Prop where
  hxs : bi.xs = xs
  spl : bi.ySplines = (List.range xs.length).map ySp
  lv : bi.xSplineVals.length = xs.length
  sized : bi.xSpline.Sized xs.length
  cur : InTab ys bi.lastY → SplineOf xs (biRow xs ySp bi.lastY) bi.xSpline

variable {xs ys ySp}

theorem bi_step (tx : Table xs) (hin : ∀ i y, InTab ys y → (ySp i).eval y = some (((ySp i).eval y).getD 0))
    (hout : ∀ i y, ¬ InTab ys y → (ySp i).eval y = none) {bi : BiCubic} (inv : BiInv xs ys ySp bi)
    (x y : ℚ) :
    BiInv xs ys ySp (bi.eval x y).1 ∧ (bi.eval x y).1.lastY = y ∧
    (InTab ys y → ∃ sp, SplineOf xs (biRow xs ySp y) sp ∧ (bi.eval x y).2 = sp.eval x) ∧
    (¬ InTab ys y → y ≠ bi.lastY → (bi.eval x y).2 = none) := by
  have n3 := tx.three
  unfold BiCubic.eval
  by_cases c : y = bi.lastY
  · rw [if_neg (by simpa using c)]
    refine ⟨inv, c.symm, ?_, fun _ h => absurd c h⟩
    intro h
    rw [c] at h ⊢
    exact ⟨_, inv.cur h, rfl⟩
  · rw [if_pos c]
    by_cases ht : InTab ys y
    · have fv := fillVals_ok y bi.ySplines bi.xSplineVals (by rw [inv.spl, inv.lv]; simp) (by
        intro sp hsp
        rw [inv.spl] at hsp
        obtain ⟨i, _, rfl⟩ := List.mem_map.mp hsp
        exact hin i y ht)
      have er : bi.ySplines.map (fun sp => (sp.eval y).getD 0) = biRow xs ySp y := by
        rw [inv.spl, List.map_map]; rfl
      rw [er] at fv
      obtain ⟨sp, hsp⟩ := tx.spline (biRow xs ySp y) (by simp [biRow])
      have ri := hsp.reinit { bi.xSpline with ys := biRow xs ySp y }
        (inv.sized.setYs (by simp [biRow]))
      simp only [fv, if_true, inv.hxs, ri]
      exact ⟨⟨rfl, inv.spl, by simp [biRow], hsp.sized, fun _ => hsp⟩, trivial, fun _ => ⟨sp, hsp, rfl⟩,
        fun h => absurd ht h⟩
    · obtain ⟨k, hk⟩ : ∃ k, xs.length = k + 1 := ⟨xs.length - 1, by omega⟩
      have e1 : bi.ySplines = ySp 0 :: ((List.range k).map Nat.succ).map ySp := by
        rw [inv.spl, hk, List.range_succ_eq_map]; rfl
      obtain ⟨v, vs, e2⟩ : ∃ v vs, bi.xSplineVals = v :: vs := by
        cases h : bi.xSplineVals with
        | nil => have := inv.lv; rw [h] at this; simp at this; omega
        | cons v vs => exact ⟨v, vs, rfl⟩
      have fv : fillVals bi.ySplines y bi.xSplineVals = (bi.xSplineVals, false) := by
        rw [e1, e2]; exact fillVals_fail y _ _ _ _ (hout 0 y ht)
      simp only [fv, Bool.false_eq_true, if_false]
      exact ⟨⟨inv.hxs, inv.spl, inv.lv, inv.sized.setYs inv.lv, fun h => absurd h ht⟩, trivial,
        fun h => absurd h ht, fun _ _ => trivial⟩

theorem bi_after (tx : Table xs) (hin : ∀ i y, InTab ys y → (ySp i).eval y = some (((ySp i).eval y).getD 0))
    (hout : ∀ i y, ¬ InTab ys y → (ySp i).eval y = none) (hist : List (ℚ × ℚ)) :
    ∀ {bi : BiCubic}, BiInv xs ys ySp bi → BiInv xs ys ySp (bi.after hist) ∧
      (bi.after hist).lastY = ((hist.getLast?).map Prod.snd).getD bi.lastY := by
  induction hist using List.reverseRecOn with
  | nil => intro bi h; exact ⟨h, rfl⟩
  | append_singleton hist p ih =>
    intro bi h
    have h1 := (ih h).1
    have := bi_step tx hin hout h1 p.1 p.2
    have e : bi.after (hist ++ [p]) = ((bi.after hist).eval p.1 p.2).1 := by
      simp [BiCubic.after]
    rw [e]
    exact ⟨this.1, by rw [this.2.1]; simp⟩

end Bi

/-- Construction of a bicubic interpolator. -/
theorem bi_new {xs ys vals : List ℚ} (tx : Table xs) (ty : Table ys)
    (hl : vals.length = xs.length * ys.length) :
    ∃ bi ySp, newBiCubic xs ys vals = some bi ∧ BiInv xs ys ySp bi ∧ InTab ys bi.lastY ∧
      ∀ i, SplineOf ys ((List.range ys.length).map (fun j => vals.getD (xs.length * j + i) 0)) (ySp i) := by
  choose ySp hy using fun i : Nat => ty.spline
    ((List.range ys.length).map (fun j => vals.getD (xs.length * j + i) 0)) (by simp)
  have n3 := ty.three
  have h0 : rd ys 0 = some (ys.getD 0 0) := by
    have := rd_natCast ys 0
    rw [Nat.cast_zero] at this
    rw [this]; exact rd_getD (by omega)
  have m0 : ys.getD 0 0 ∈ ys := List.mem_of_getElem? (rd_getD (show 0 < ys.length by omega))
  have t0 : InTab ys (ys.getD 0 0) := ⟨⟨_, m0, le_rfl⟩, _, m0, le_rfl⟩
  obtain ⟨sp, hsp⟩ := tx.spline (biRow xs ySp (ys.getD 0 0)) (by simp [biRow])
  refine ⟨⟨xs, ys, ys.getD 0 0, (List.range xs.length).map ySp, biRow xs ySp (ys.getD 0 0), sp⟩, ySp, ?_,
    ⟨rfl, rfl, by simp [biRow], hsp.sized, fun _ => hsp⟩, t0, hy⟩
  unfold newBiCubic
  rw [if_neg (by omega)]
  unfold biInitSplines
  rw [mapM_some _ ySp (List.range xs.length) (by
    intro i hi
    rw [List.mem_range] at hi
    rw [mapM_some _ (fun j => vals.getD (xs.length * j + i) 0) (List.range ys.length) (by
      intro j hj
      rw [List.mem_range] at hj
      have e : (xs.length : Int) * (j : Int) + (i : Int) = ((xs.length * j + i : Nat) : Int) := by
        push_cast; ring
      rw [e, rd_natCast]
      apply rd_getD
      have : xs.length * j + i < xs.length * (j + 1) := by rw [Nat.mul_succ]; omega
      rw [hl]
      exact lt_of_lt_of_le this (Nat.mul_le_mul_left _ hj))]
    exact (hy i).new)]
  simp only [bind, Option.bind_some, h0]
  rw [mapM_some _ (fun sp => (sp.eval (ys.getD 0 0)).getD 0) _ (by
    intro s hs
    obtain ⟨i, _, rfl⟩ := List.mem_map.mp hs
    exact (hy i).inside _ t0), List.map_map]
  simp only [Option.bind_some]
  have := hsp.new
  unfold biRow at this
  simp only [Function.comp_def]
  rw [this]
  rfl

theorem biRef_eq {xs ys vals : List ℚ} (tx : Table xs) {ySp : Nat → Spline}
    (hy : ∀ i, SplineOf ys ((List.range ys.length).map (fun j => vals.getD (xs.length * j + i) 0)) (ySp i))
    (x y : ℚ) :
    (InTab ys y → ∀ sp, SplineOf xs (biRow xs ySp y) sp → biRef xs ys vals x y = sp.eval x) ∧
    (¬ InTab ys y → biRef xs ys vals x y = none) := by
  unfold biRef
  have hm : (List.range xs.length).mapM (fun i => do
      let sp ← newSpline ys ((List.range ys.length).map (fun j => vals.getD (xs.length * j + i) 0))
      sp.eval y) = (List.range xs.length).mapM (fun i => (ySp i).eval y) := by
    apply mapM_congr
    intro i _
    rw [(hy i).new]; rfl
  rw [hm]
  constructor
  · intro ht sp hsp
    rw [mapM_some _ (fun i => ((ySp i).eval y).getD 0) _ (fun i _ => (hy i).inside y ht)]
    simp only [bind, Option.bind_some]
    have := hsp.new
    unfold biRow at this
    rw [this]; rfl
  · intro ht
    have := tx.three
    rw [mapM_none _ _ 0 (by simp; omega) ((hy 0).outside y ht)]
    rfl

/-- C22 for `BiCubic`: whatever was evaluated before, panicking calls included, every call with `y` within
the table returns the reference value (or panics exactly if it does); and a call with `y` outside the table
panics, unless `y` is the `y` of the call just before it.
Missing: that last case, in which the property is false (`C22_bicubic_counterexample`). -/
theorem C22_bicubic_partial (xs ys vals : List ℚ) (tx : Table xs) (ty : Table ys)
    (hl : vals.length = xs.length * ys.length) :
    ∃ bi, newBiCubic xs ys vals = some bi ∧ ∀ (hist : List (ℚ × ℚ)) (x y : ℚ),
      (InTab ys y ∨ ∀ p, hist.getLast? = some p → p.2 ≠ y) →
      ((bi.after hist).eval x y).2 = biRef xs ys vals x y := by
  obtain ⟨bi, ySp, e, inv, t0, hy⟩ := bi_new tx ty hl
  refine ⟨bi, e, ?_⟩
  intro hist x y hyp
  obtain ⟨inv', hlast⟩ := bi_after tx (fun i => (hy i).inside) (fun i => (hy i).outside) hist inv
  obtain ⟨_, _, h1, h2⟩ := bi_step tx (fun i => (hy i).inside) (fun i => (hy i).outside) inv' x y
  by_cases ht : InTab ys y
  · obtain ⟨sp, hsp, ev⟩ := h1 ht
    rw [ev, (biRef_eq tx hy x y).1 ht sp hsp]
  · rw [(biRef_eq tx hy x y).2 ht]
    apply h2 ht
    rw [hlast]
    cases hg : hist.getLast? with
    | none =>
      simp only [Option.map_none, Option.getD_none]
      rintro rfl
      exact ht t0
    | some p =>
      rcases hyp with h | h
      · exact absurd h ht
      · simp only [Option.map_some, Option.getD_some]
        exact (h p hg).symm

example : Table [0, 1, 2] ∧ Table [3, 1, 0] ∧
    ((newBiCubic [0, 1, 2] [3, 1, 0] [0, 1, 2, 10, 11, 12, 20, 21, 22]).map fun bi =>
      ((bi.after [(0, 1), (7, 2), (1, 50)]).eval 1 3).2) = some (some 1) := by
  refine ⟨⟨by simp, by left; simp⟩, ⟨by simp, by right; simp⟩, ?_⟩
  decide +kernel

/-- C22 fails: evaluating twice at a `y` outside the table, the second call returns a value. -/
theorem C22_bicubic_counterexample :
    ∃ bi, newBiCubic [0, 1, 2] [0, 1, 2] [0, 0, 0, 1, 1, 1, 2, 2, 2] = some bi ∧
      (bi.eval 1 5).2 = none ∧ ((bi.after [(1, 5)]).eval 1 5).2 = some 0 ∧
      ((bi.after [(1, 2), (1, 5)]).eval 1 5).2 = some 2 := by
  have h : (newBiCubic [0, 1, 2] [0, 1, 2] [0, 0, 0, 1, 1, 1, 2, 2, 2]).map (fun bi =>
      ((bi.eval 1 5).2, ((bi.after [(1, 5)]).eval 1 5).2, ((bi.after [(1, 2), (1, 5)]).eval 1 5).2)) =
      some (none, some 0, some 2) := by decide +kernel
  obtain ⟨bi, e, h⟩ := Option.map_eq_some_iff.mp h
  simp only [Prod.mk.injEq] at h
  exact ⟨bi, e, h⟩

/-- C89 for `BiCubic`: after any history the interpolator reproduces the table at every grid point. -/
theorem C89_bicubic_grid (xs ys vals : List ℚ) (tx : Table xs) (ty : Table ys)
    (hl : vals.length = xs.length * ys.length) :
    ∃ bi, newBiCubic xs ys vals = some bi ∧ ∀ (hist : List (ℚ × ℚ)) (i j : Nat) (x y v : ℚ),
      xs[i]? = some x → ys[j]? = some y → vals[xs.length * j + i]? = some v →
      ((bi.after hist).eval x y).2 = some v := by
  obtain ⟨bi, ySp, e, inv, t0, hy⟩ := bi_new tx ty hl
  refine ⟨bi, e, ?_⟩
  intro hist i j x y v hx hy' hv
  obtain ⟨inv', _⟩ := bi_after tx (fun i => (hy i).inside) (fun i => (hy i).outside) hist inv
  obtain ⟨_, _, h1, _⟩ := bi_step tx (fun i => (hy i).inside) (fun i => (hy i).outside) inv' x y
  have my : y ∈ ys := List.mem_of_getElem? hy'
  obtain ⟨sp, hsp, ev⟩ := h1 ⟨⟨y, my, le_rfl⟩, y, my, le_rfl⟩
  rw [ev]
  have hi := (List.getElem?_eq_some_iff.mp hx).1
  have hj := (List.getElem?_eq_some_iff.mp hy').1
  have hvl := (List.getElem?_eq_some_iff.mp hv).1
  rw [rd_getD hvl] at hv
  have hv := Option.some.inj hv
  apply hsp.knot i x v hx
  have := (hy i).knot j y v hy' (by simp only [List.getElem?_map, List.getElem?_range hj, Option.map_some]; rw [hv])
  simp only [biRow, List.getElem?_map, List.getElem?_range hi, Option.map_some]
  rw [this]; rfl

example : ((newBiCubic [0, 1, 2] [3, 1, 0] [0, 1, 2, 10, 11, 12, 20, 21, 22]).map fun bi =>
      ((bi.after [(0, 1), (7, 2), (1, 50)]).eval 2 1).2) = some (some 12) := by
  decide +kernel

/-! ### TriCubic -/

section Tri
variable (xs ys zs : List ℚ) (zSp : Nat → Nat → Spline)

/-- Values at height `z` on the `y` grid lines, for the `x` grid line `i`. -/
def triCol (z : ℚ) (i : Nat) : List ℚ := (List.range ys.length).map (fun j => ((zSp i j).eval z).getD 0)

/-- The splines in `y` are those for height `z`. -/
def YFor (z : ℚ) (sps : List Spline) : Prop :=
  ∃ ySp : Nat → Spline, (∀ i, SplineOf ys (triCol ys zSp z i) (ySp i)) ∧
    sps = (List.range xs.length).map ySp

/-- `sp` is the spline in `x` for heights `y`, `z`. -/
def XFor (y z : ℚ) (sp : Spline) : Prop :=
  ∃ ySp : Nat → Spline, (∀ i, SplineOf ys (triCol ys zSp z i) (ySp i)) ∧ SplineOf xs (biRow xs ySp y) sp

/-- Invariant of the state. -/
structure TriInv (tri : TriCubic) : Prop where
  hxs : tri.xs = xs
  hys : tri.ys = ys
  spl : tri.zSplines = (List.range xs.length).map (fun i => (List.range ys.length).map (zSp i))
  ly : tri.ySplines.length = xs.length
  sy : ∀ sp ∈ tri.ySplines, sp.Sized ys.length
  sx : tri.xSpline.Sized xs.length
  curY : InTab zs tri.lastZ → YFor xs ys zSp tri.lastZ tri.ySplines
  curX : InTab zs tri.lastZ → InTab ys tri.lastY → XFor xs ys zSp tri.lastY tri.lastZ tri.xSpline

variable {xs ys zs zSp}

theorem refillY_ok (z : ℚ) (ySp : Nat → Spline) (hin : ∀ i j, (zSp i j).eval z = some (((zSp i j).eval z).getD 0))
    (hy : ∀ i, SplineOf ys (triCol ys zSp z i) (ySp i)) :
    ∀ (l : List Nat) (sps : List Spline), sps.length = l.length → (∀ sp ∈ sps, sp.Sized ys.length) →
      refillY ys z (l.map (fun i => (List.range ys.length).map (zSp i))) sps = (l.map ySp, true) := by
  intro l
  induction l with
  | nil => intro sps hl _; obtain rfl : sps = [] := List.length_eq_zero_iff.mp hl; rfl
  | cons i l ih =>
    intro sps hl hs
    cases sps with
    | nil => simp at hl
    | cons sp sps =>
      have e : (((List.range ys.length).map (zSp i)).mapM (fun (s : Spline) => s.eval z)) =
          some (triCol ys zSp z i) := by
        rw [mapM_map, mapM_some _ (fun j => ((zSp i j).eval z).getD 0) _ (fun j _ => hin i j)]
        rfl
      rw [List.map_cons, refillY, e, Option.bind_some, (hy i).reinit sp (hs sp (by simp)),
        ih sps (by simpa using hl) (fun s h => hs s (by simp [h]))]
      rfl

theorem refillY_fail (z : ℚ) (hout : ∀ i j, (zSp i j).eval z = none) (hy : 0 < ys.length) (i : Nat)
    (l : List Nat) (sp : Spline) (sps : List Spline) :
    refillY ys z ((i :: l).map (fun i => (List.range ys.length).map (zSp i))) (sp :: sps) =
      (sp :: sps, false) := by
  have e : (((List.range ys.length).map (zSp i)).mapM (fun (s : Spline) => s.eval z)) = none := by
    rw [mapM_map]
    exact mapM_none _ _ 0 (by simpa using hy) (hout i 0)
  rw [List.map_cons, refillY, e]
  rfl

/-- The second half of `Eval`, when the splines in `y` are right. -/
theorem tri_finish (tx : Table xs) {tri : TriCubic} (hxs : tri.xs = xs) (hys : tri.ys = ys)
    (spl : tri.zSplines = (List.range xs.length).map (fun i => (List.range ys.length).map (zSp i)))
    (sx : tri.xSpline.Sized xs.length) (ly : tri.ySplines.length = xs.length)
    (sy : ∀ sp ∈ tri.ySplines, sp.Sized ys.length)
    (curY : InTab zs tri.lastZ → YFor xs ys zSp tri.lastZ tri.ySplines) (x y : ℚ) :
    TriInv xs ys zs zSp (tri.finish x y).1 ∧ (tri.finish x y).1.lastZ = tri.lastZ ∧
    (tri.finish x y).1.lastY = y ∧
    (InTab zs tri.lastZ → InTab ys y →
      ∃ sp, XFor xs ys zSp y tri.lastZ sp ∧ (tri.finish x y).2 = sp.eval x) ∧
    (InTab zs tri.lastZ → ¬ InTab ys y → (tri.finish x y).2 = none) := by
  have n3 := tx.three
  unfold TriCubic.finish
  simp only
  cases hm : (tri.ySplines.mapM (fun (sp : Spline) => sp.eval y)).bind
      (fun vals => tri.xSpline.init tri.xs vals) with
  | none =>
    simp only
    have no : InTab zs tri.lastZ → ¬ InTab ys y := by
      intro hz hy
      obtain ⟨ySp, h1, h2⟩ := curY hz
      rw [h2, mapM_map, mapM_some _ (fun i => ((ySp i).eval y).getD 0) _
        (fun i _ => (h1 i).inside y hy)] at hm
      obtain ⟨sp, hsp⟩ := tx.spline (biRow xs ySp y) (by simp [biRow])
      have := hsp.reinit tri.xSpline sx
      rw [Option.bind_some, hxs] at hm
      unfold biRow at this
      rw [this] at hm
      cases hm
    exact ⟨⟨hxs, hys, spl, ly, sy, sx, curY, fun hz hy => absurd hy (no hz)⟩, trivial, trivial,
      fun hz hy => absurd hy (no hz), fun _ _ => trivial⟩
  | some sp =>
    simp only
    have key : InTab zs tri.lastZ → InTab ys y ∧ XFor xs ys zSp y tri.lastZ sp := by
      intro hz
      obtain ⟨ySp, h1, h2⟩ := curY hz
      by_cases hy : InTab ys y
      · refine ⟨hy, ySp, h1, ?_⟩
        rw [h2, mapM_map, mapM_some _ (fun i => ((ySp i).eval y).getD 0) _
          (fun i _ => (h1 i).inside y hy)] at hm
        obtain ⟨sp', hsp⟩ := tx.spline (biRow xs ySp y) (by simp [biRow])
        have := hsp.reinit tri.xSpline sx
        rw [Option.bind_some, hxs] at hm
        unfold biRow at this
        rw [this] at hm
        rw [← Option.some.inj hm]
        exact hsp
      · rw [h2, mapM_map, mapM_none _ _ 0 (by simp; omega) ((h1 0).outside y hy)] at hm
        cases hm
    have hsz : sp.Sized xs.length := by
      rw [Option.bind_eq_some_iff] at hm
      obtain ⟨vals, hv, hi⟩ := hm
      rw [hxs] at hi
      have hlen : vals.length = xs.length := by
        have hc : ¬ (xs.length ≠ tri.xSpline.xs.length ∨ vals.length ≠ tri.xSpline.ys.length) := by
          intro c
          unfold Spline.init at hi
          rw [if_pos c] at hi
          cases hi
        have := sx.ly
        omega
      obtain ⟨sp', hsp⟩ := tx.spline vals hlen
      rw [hsp.reinit _ sx] at hi
      rw [← Option.some.inj hi]
      exact hsp.sized
    refine ⟨⟨hxs, hys, spl, ly, sy, hsz, curY, fun hz _ => (key hz).2⟩, trivial, trivial,
      fun hz hy => ⟨sp, (key hz).2, rfl⟩, fun hz hy => absurd (key hz).1 hy⟩

theorem tri_step (tx : Table xs) (ty : Table ys)
    (hin : ∀ z, InTab zs z → ∀ i j, (zSp i j).eval z = some (((zSp i j).eval z).getD 0))
    (hout : ∀ z, ¬ InTab zs z → ∀ i j, (zSp i j).eval z = none) {tri : TriCubic}
    (inv : TriInv xs ys zs zSp tri) (x y z : ℚ) :
    TriInv xs ys zs zSp (tri.eval x y z).1 ∧ (tri.eval x y z).1.lastZ = z ∧
    (InTab zs z → (tri.eval x y z).1.lastY = y) ∧
    (InTab zs z → InTab ys y → ∃ sp, XFor xs ys zSp y z sp ∧ (tri.eval x y z).2 = sp.eval x) ∧
    (¬ InTab zs z → z ≠ tri.lastZ → (tri.eval x y z).2 = none) ∧
    (InTab zs z → ¬ InTab ys y → (y ≠ tri.lastY ∨ z ≠ tri.lastZ) → (tri.eval x y z).2 = none) := by
  have n3 := tx.three
  have m3 := ty.three
  unfold TriCubic.eval
  by_cases c : y ≠ tri.lastY ∨ z ≠ tri.lastZ
  · rw [if_pos c]
    by_cases cz : z ≠ tri.lastZ
    · rw [if_pos cz]
      by_cases hz : InTab zs z
      · choose ySp hy using fun i : Nat => ty.spline (triCol ys zSp z i) (by simp [triCol])
        have rf := refillY_ok (zSp := zSp) z ySp (hin z hz) hy (List.range xs.length) tri.ySplines
          (by rw [inv.ly]; simp) inv.sy
        rw [← inv.spl] at rf
        simp only [inv.hys, rf, if_true]
        have fin := tri_finish (xs := xs) (ys := ys) (zs := zs) (zSp := zSp) tx
          (tri := { tri with lastZ := z, ySplines := (List.range xs.length).map ySp })
          inv.hxs inv.hys inv.spl inv.sx (by simp) (by
            intro sp hsp
            obtain ⟨i, _, rfl⟩ := List.mem_map.mp hsp
            exact (hy i).sized) (fun _ => ⟨ySp, hy, rfl⟩) x y
        have e : (TriCubic.mk tri.xs ys tri.lastY z tri.zSplines
            ((List.range xs.length).map ySp) tri.xSpline) =
            { tri with lastZ := z, ySplines := (List.range xs.length).map ySp } := by
          rw [← inv.hys]
        rw [← e] at fin
        obtain ⟨f1, f2, f3, f4, f5⟩ := fin
        exact ⟨f1, f2, fun _ => f3, f4, fun h => absurd hz h, fun h1 h2 _ => f5 h1 h2⟩
      · obtain ⟨k, hk⟩ : ∃ k, xs.length = k + 1 := ⟨xs.length - 1, by omega⟩
        obtain ⟨v, vs, e2⟩ : ∃ v vs, tri.ySplines = v :: vs := by
          cases h : tri.ySplines with
          | nil => have := inv.ly; rw [h] at this; simp at this; omega
          | cons v vs => exact ⟨v, vs, rfl⟩
        have rf : refillY tri.ys z tri.zSplines tri.ySplines = (tri.ySplines, false) := by
          rw [inv.spl, inv.hys, e2, hk, List.range_succ_eq_map]
          exact refillY_fail z (hout z hz) (by omega) _ _ _ _
        simp only [rf, Bool.false_eq_true, if_false]
        exact ⟨⟨inv.hxs, inv.hys, inv.spl, inv.ly, inv.sy, inv.sx, fun h => absurd h hz,
          fun h => absurd h hz⟩, trivial, fun h => absurd h hz, fun h => absurd h hz, fun _ _ => trivial,
          fun h => absurd h hz⟩
    · rw [if_neg cz]
      have cz : z = tri.lastZ := by simpa using cz
      subst cz
      obtain ⟨f1, f2, f3, f4, f5⟩ := tri_finish (zs := zs) tx inv.hxs inv.hys inv.spl inv.sx inv.ly inv.sy
        inv.curY x y
      exact ⟨f1, f2, fun _ => f3, f4, fun _ h => absurd rfl h, fun h1 h2 _ => f5 h1 h2⟩
  · rw [if_neg c]
    push Not at c
    obtain ⟨rfl, rfl⟩ := c
    exact ⟨inv, rfl, fun _ => rfl, fun hz hy => ⟨_, inv.curX hz hy, rfl⟩, fun _ h => absurd rfl h,
      fun _ _ h => by simp at h⟩

theorem tri_after (tx : Table xs) (ty : Table ys)
    (hin : ∀ z, InTab zs z → ∀ i j, (zSp i j).eval z = some (((zSp i j).eval z).getD 0))
    (hout : ∀ z, ¬ InTab zs z → ∀ i j, (zSp i j).eval z = none) (hist : List (ℚ × ℚ × ℚ)) :
    ∀ {tri : TriCubic}, TriInv xs ys zs zSp tri → TriInv xs ys zs zSp (tri.after hist) ∧
      (tri.after hist).lastZ = ((hist.getLast?).map (fun p => p.2.2)).getD tri.lastZ ∧
      (InTab zs (tri.after hist).lastZ →
        (tri.after hist).lastY = ((hist.getLast?).map (fun p => p.2.1)).getD tri.lastY) := by
  induction hist using List.reverseRecOn with
  | nil => intro tri h; exact ⟨h, rfl, fun _ => rfl⟩
  | append_singleton hist p ih =>
    intro tri h
    have h1 := (ih h).1
    obtain ⟨f1, f2, f3, _⟩ := tri_step tx ty hin hout h1 p.1 p.2.1 p.2.2
    have e : tri.after (hist ++ [p]) = ((tri.after hist).eval p.1 p.2.1 p.2.2).1 := by
      simp [TriCubic.after]
    rw [e]
    refine ⟨f1, by rw [f2]; simp, ?_⟩
    intro hz
    rw [f2] at hz
    rw [f3 hz]; simp

end Tri

/-- Construction of a tricubic interpolator. -/
theorem tri_new {xs ys zs vals : List ℚ} (tx : Table xs) (ty : Table ys) (tz : Table zs)
    (hl : vals.length = xs.length * ys.length * zs.length) :
    ∃ tri zSp, newTriCubic xs ys zs vals = some tri ∧ TriInv xs ys zs zSp tri ∧ InTab zs tri.lastZ ∧
      InTab ys tri.lastY ∧
      ∀ i j, SplineOf zs ((List.range zs.length).map
        (fun k => vals.getD (xs.length * ys.length * k + xs.length * j + i) 0)) (zSp i j) := by
  choose zSp hz using fun i j : Nat => tz.spline ((List.range zs.length).map
        (fun k => vals.getD (xs.length * ys.length * k + xs.length * j + i) 0)) (by simp)
  have first : ∀ {l : List ℚ}, Table l → rd l 0 = some (l.getD 0 0) ∧ InTab l (l.getD 0 0) := by
    intro l t
    have n3 := t.three
    have m0 : l.getD 0 0 ∈ l := List.mem_of_getElem? (rd_getD (show 0 < l.length by omega))
    refine ⟨?_, ⟨_, m0, le_rfl⟩, _, m0, le_rfl⟩
    have := rd_natCast l 0
    rw [Nat.cast_zero] at this
    rw [this]; exact rd_getD (by omega)
  obtain ⟨rz, iz⟩ := first tz
  obtain ⟨ry, iy⟩ := first ty
  choose ySp hy using fun i : Nat => ty.spline (triCol ys zSp (zs.getD 0 0) i) (by simp [triCol])
  obtain ⟨sp, hsp⟩ := tx.spline (biRow xs ySp (ys.getD 0 0)) (by simp [biRow])
  refine ⟨⟨xs, ys, ys.getD 0 0, zs.getD 0 0,
    (List.range xs.length).map (fun i => (List.range ys.length).map (zSp i)),
    (List.range xs.length).map ySp, sp⟩, zSp, ?_,
    ⟨rfl, rfl, rfl, by simp, ?_, hsp.sized, fun _ => ⟨ySp, hy, rfl⟩, fun _ _ => ⟨ySp, hy, hsp⟩⟩, iz, iy,
    hz⟩
  · unfold newTriCubic
    rw [if_neg (by omega)]
    unfold triInitSplines
    rw [mapM_some _ (fun i => (List.range ys.length).map (zSp i)) (List.range xs.length) (by
      intro i hi
      rw [List.mem_range] at hi
      rw [mapM_some _ (zSp i) (List.range ys.length) (by
        intro j hj
        rw [List.mem_range] at hj
        rw [mapM_some _ (fun k => vals.getD (xs.length * ys.length * k + xs.length * j + i) 0)
          (List.range zs.length) (by
          intro k hk
          rw [List.mem_range] at hk
          have e : (xs.length : Int) * (ys.length : Int) * (k : Int) + (xs.length : Int) * (j : Int) +
              (i : Int) = ((xs.length * ys.length * k + xs.length * j + i : Nat) : Int) := by
            push_cast; ring
          rw [e, rd_natCast]
          apply rd_getD
          have h1 : xs.length * j + i < xs.length * ys.length := by
            have : xs.length * j + i < xs.length * (j + 1) := by rw [Nat.mul_succ]; omega
            exact lt_of_lt_of_le this (Nat.mul_le_mul_left _ hj)
          have h2 : xs.length * ys.length * k + (xs.length * j + i) < xs.length * ys.length * (k + 1) := by
            rw [Nat.mul_succ]; omega
          rw [hl, add_assoc]
          exact lt_of_lt_of_le h2 (Nat.mul_le_mul_left _ hk))]
        exact (hz i j).new)])]
    simp only [bind, Option.bind_some, rz]
    rw [mapM_map, mapM_some _ ySp (List.range xs.length) (by
      intro i _
      rw [mapM_map, mapM_some _ (fun j => ((zSp i j).eval (zs.getD 0 0)).getD 0) _
        (fun j _ => (hz i j).inside _ iz)]
      exact (hy i).new)]
    simp only [Option.bind_some, ry]
    rw [mapM_map, mapM_some _ (fun i => ((ySp i).eval (ys.getD 0 0)).getD 0) _
      (fun i _ => (hy i).inside _ iy)]
    simp only [Option.bind_some]
    have := hsp.new
    unfold biRow at this
    rw [this]
    rfl
  · intro sp hsp
    obtain ⟨i, _, rfl⟩ := List.mem_map.mp hsp
    exact (hy i).sized

theorem triRef_eq {xs ys zs vals : List ℚ} (tx : Table xs) (ty : Table ys) {zSp : Nat → Nat → Spline}
    (hz : ∀ i j, SplineOf zs ((List.range zs.length).map
        (fun k => vals.getD (xs.length * ys.length * k + xs.length * j + i) 0)) (zSp i j)) (x y z : ℚ) :
    (InTab zs z → InTab ys y → ∀ sp, XFor xs ys zSp y z sp → triRef xs ys zs vals x y z = sp.eval x) ∧
    (¬ InTab zs z ∨ ¬ InTab ys y → triRef xs ys zs vals x y z = none) := by
  have n3 := tx.three
  have m3 := ty.three
  unfold triRef
  have hm : ∀ i, (List.range ys.length).mapM (fun j => do
      let sp ← newSpline zs ((List.range zs.length).map
        (fun k => vals.getD (xs.length * ys.length * k + xs.length * j + i) 0))
      sp.eval z) = (List.range ys.length).mapM (fun j => (zSp i j).eval z) := by
    intro i
    apply mapM_congr
    intro j _
    rw [(hz i j).new]; rfl
  simp only [hm]
  have inz : InTab zs z → ∀ i, (List.range ys.length).mapM (fun j => (zSp i j).eval z) =
      some (triCol ys zSp z i) := by
    intro h i
    rw [mapM_some _ (fun j => ((zSp i j).eval z).getD 0) _ (fun j _ => (hz i j).inside z h)]
    rfl
  constructor
  · rintro h1 h2 sp ⟨ySp, hy, hsp⟩
    simp only [inz h1, bind, Option.bind_some]
    rw [mapM_some _ (fun i => ((ySp i).eval y).getD 0) _ (fun i _ => by
      rw [(hy i).new]; exact (hy i).inside y h2)]
    simp only [Option.bind_some]
    have := hsp.new
    unfold biRow at this
    rw [this]; rfl
  · intro h
    rw [mapM_none _ _ 0 (by simp; omega)]
    · rfl
    · by_cases h1 : InTab zs z
      · have h2 : ¬ InTab ys y := by
          rcases h with h | h
          · exact absurd h1 h
          · exact h
        simp only [inz h1, bind, Option.bind_some]
        obtain ⟨sp, hsp⟩ := ty.spline (triCol ys zSp z 0) (by simp [triCol])
        rw [hsp.new]
        exact hsp.outside y h2
      · rw [mapM_none _ _ 0 (by simp; omega) ((hz 0 0).outside z h1)]
        rfl

/-- C22 for `TriCubic`: whatever was evaluated before, panicking calls included, every call with `y` and `z`
within the table returns the reference value (or panics exactly if it does); a call with `z` outside
panics unless the call before had the same `z`; a call with `z` inside and `y` outside panics unless the call
before had the same `y` and `z`.
Missing: these repeated calls, for which the property is false (`C22_tricubic_counterexample`). -/
theorem C22_tricubic_partial (xs ys zs vals : List ℚ) (tx : Table xs) (ty : Table ys) (tz : Table zs)
    (hl : vals.length = xs.length * ys.length * zs.length) :
    ∃ tri, newTriCubic xs ys zs vals = some tri ∧ ∀ (hist : List (ℚ × ℚ × ℚ)) (x y z : ℚ),
      (InTab ys y ∧ InTab zs z ∨ ¬ InTab zs z ∧ (∀ p, hist.getLast? = some p → p.2.2 ≠ z) ∨
        InTab zs z ∧ ∀ p, hist.getLast? = some p → p.2 ≠ (y, z)) →
      ((tri.after hist).eval x y z).2 = triRef xs ys zs vals x y z := by
  obtain ⟨tri, zSp, e, inv, iz, iy, hz⟩ := tri_new tx ty tz hl
  refine ⟨tri, e, ?_⟩
  intro hist x y z hyp
  have hin : ∀ z, InTab zs z → ∀ i j, (zSp i j).eval z = some (((zSp i j).eval z).getD 0) :=
    fun z h i j => (hz i j).inside z h
  have hout : ∀ z, ¬ InTab zs z → ∀ i j, (zSp i j).eval z = none := fun z h i j => (hz i j).outside z h
  obtain ⟨inv', l1, l2⟩ := tri_after tx ty hin hout hist inv
  obtain ⟨_, _, _, h1, h2, h3⟩ := tri_step tx ty hin hout inv' x y z
  by_cases hz' : InTab zs z
  · by_cases hy' : InTab ys y
    · obtain ⟨sp, hsp, ev⟩ := h1 hz' hy'
      rw [ev, (triRef_eq tx ty hz x y z).1 hz' hy' sp hsp]
    · rw [(triRef_eq tx ty hz x y z).2 (Or.inr hy')]
      apply h3 hz' hy'
      by_contra c
      push Not at c
      obtain ⟨c1, c2⟩ := c
      rw [l2 (c2 ▸ hz')] at c1
      rw [l1] at c2
      rcases hyp with h | h | h
      · exact hy' h.1
      · exact h.1 hz'
      · cases hg : hist.getLast? with
        | none => rw [hg] at c1; exact hy' (c1 ▸ iy)
        | some p =>
          rw [hg] at c1 c2
          simp only [Option.map_some, Option.getD_some] at c1 c2
          exact h.2 p hg (by rw [c1, c2])
  · rw [(triRef_eq tx ty hz x y z).2 (Or.inl hz')]
    apply h2 hz'
    rw [l1]
    rintro c
    cases hg : hist.getLast? with
    | none => rw [hg] at c; exact hz' (c ▸ iz)
    | some p =>
      rw [hg] at c
      simp only [Option.map_some, Option.getD_some] at c
      rcases hyp with h | h | h
      · exact hz' h.2
      · exact h.2 p hg c.symm
      · exact hz' h.1

/-- The data `v = 9z + 3y + x` on a 3×3×3 grid. -/
def triData : List ℚ := (List.range 27).map (fun i => (i : ℚ))

example : ((newTriCubic [0, 1, 2] [0, 1, 2] [0, 1, 2] triData).map fun tri =>
      ((tri.after [(0, 1, 1), (0, 9, 1), (0, 1, 9), (0, 2, 9)]).eval 1 1 1).2) = some (some 13) := by
  decide +kernel

/-- C22 fails for `TriCubic`: repeating an out-of-range call returns a value; so does changing only `y`
after an out-of-range `z`. -/
theorem C22_tricubic_counterexample :
    ∃ tri, newTriCubic [0, 1, 2] [0, 1, 2] [0, 1, 2] triData = some tri ∧
      (tri.eval 1 5 1).2 = none ∧ ((tri.after [(1, 5, 1)]).eval 1 5 1).2 = some 1 ∧
      (tri.eval 1 1 5).2 = none ∧ ((tri.after [(1, 1, 5)]).eval 1 1 5).2 = some 4 := by
  have h : (newTriCubic [0, 1, 2] [0, 1, 2] [0, 1, 2] triData).map (fun tri =>
      ((tri.eval 1 5 1).2, ((tri.after [(1, 5, 1)]).eval 1 5 1).2, (tri.eval 1 1 5).2,
        ((tri.after [(1, 1, 5)]).eval 1 1 5).2)) =
      some (none, some 1, none, some 4) := by decide +kernel
  obtain ⟨bi, e, h⟩ := Option.map_eq_some_iff.mp h
  simp only [Prod.mk.injEq] at h
  exact ⟨bi, e, h⟩

/-- C89 for `TriCubic`: after any history the interpolator reproduces the table at every grid point. -/
theorem C89_tricubic_grid (xs ys zs vals : List ℚ) (tx : Table xs) (ty : Table ys) (tz : Table zs)
    (hl : vals.length = xs.length * ys.length * zs.length) :
    ∃ tri, newTriCubic xs ys zs vals = some tri ∧
      ∀ (hist : List (ℚ × ℚ × ℚ)) (i j k : Nat) (x y z v : ℚ),
      xs[i]? = some x → ys[j]? = some y → zs[k]? = some z →
      vals[xs.length * ys.length * k + xs.length * j + i]? = some v →
      ((tri.after hist).eval x y z).2 = some v := by
  obtain ⟨tri, zSp, e, inv, iz, iy, hz⟩ := tri_new tx ty tz hl
  refine ⟨tri, e, ?_⟩
  intro hist i j k x y z v hx hy hz' hv
  have hin : ∀ z, InTab zs z → ∀ i j, (zSp i j).eval z = some (((zSp i j).eval z).getD 0) :=
    fun z h i j => (hz i j).inside z h
  have hout : ∀ z, ¬ InTab zs z → ∀ i j, (zSp i j).eval z = none := fun z h i j => (hz i j).outside z h
  obtain ⟨inv', _⟩ := tri_after tx ty hin hout hist inv
  obtain ⟨_, _, _, h1, _⟩ := tri_step tx ty hin hout inv' x y z
  have my : y ∈ ys := List.mem_of_getElem? hy
  have mz : z ∈ zs := List.mem_of_getElem? hz'
  obtain ⟨sp, ⟨ySp, hsy, hsx⟩, ev⟩ := h1 ⟨⟨z, mz, le_rfl⟩, z, mz, le_rfl⟩ ⟨⟨y, my, le_rfl⟩, y, my, le_rfl⟩
  rw [ev]
  have hi := (List.getElem?_eq_some_iff.mp hx).1
  have hj := (List.getElem?_eq_some_iff.mp hy).1
  have hk := (List.getElem?_eq_some_iff.mp hz').1
  have hvl := (List.getElem?_eq_some_iff.mp hv).1
  rw [rd_getD hvl] at hv
  have hv := Option.some.inj hv
  apply hsx.knot i x v hx
  have a := (hz i j).knot k z v hz'
    (by simp only [List.getElem?_map, List.getElem?_range hk, Option.map_some]; rw [hv])
  have b := (hsy i).knot j y v hy
    (by simp only [triCol, List.getElem?_map, List.getElem?_range hj, Option.map_some]; rw [a]; rfl)
  simp only [biRow, List.getElem?_map, List.getElem?_range hi, Option.map_some]
  rw [b]; rfl

example : ((newTriCubic [0, 1, 2] [0, 1, 2] [0, 1, 2] triData).map fun tri =>
      ((tri.after [(0, 1, 1), (0, 9, 1), (0, 1, 9)]).eval 2 1 2).2) = some (some 23) := by
  decide +kernel

end Verif.Interp
