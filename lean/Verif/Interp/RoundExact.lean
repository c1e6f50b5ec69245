import Verif.Interp.RoundSplineModel
import Verif.Interp.RoundMultiModel

/-! The model with rounding and that of `Model.lean` agree when the arithmetic is exact. Nothing else depends on this file. -/

set_option autoImplicit false

namespace Verif.Interp

open Verif.Go Verif.Mat

/-- With exact arithmetic this is the model of `Model.lean`. -/
theorem evalR_exact (lin : Linear) (x : ℚ) : lin.evalR exactFP x = lin.eval x := by
  have h1 : ∀ s : Searcher, ∀ x, s.searchR exactFP x = s.search x := fun s x => rfl
  have h2 : ∀ s : Searcher, ∀ i, s.valR exactFP i = s.val i := by
    intro s i
    unfold Searcher.valR Searcher.val exactFP
    simp only [add_comm]
  unfold Linear.evalR Linear.eval
  simp only [h1, h2]
  simp only [exactFP, id, add_comm]

theorem triDiagAtR_exact (as bs cs rs out : List ℚ) : triDiagAtR exactFP as bs cs rs out = triDiagAt as bs cs rs out := by
  have h1 : triForwardR exactFP as bs cs rs = triForward as bs cs rs := by
    funext i s
    unfold triForwardR triForward exactFP
    simp only [id, neg_mul, ← sub_eq_add_neg]
  have h2 : ∀ tmp, triBackwardR exactFP tmp = triBackward tmp := by
    intro tmp
    funext i s
    unfold triBackwardR triBackward exactFP
    simp only [neg_mul, ← sub_eq_add_neg]
  unfold triDiagAtR triDiagAt
  simp only [h1, h2]
  rfl

/-- With exact arithmetic the spline constructor is that of `Model.lean`. -/
theorem newSplineR_exact (xs ys : List ℚ) : newSplineR exactFP xs ys = newSpline xs ys := by
  have h1 : ∀ y2s, calcY2sR exactFP xs ys y2s = calcY2s xs ys y2s := by
    intro y2s
    unfold calcY2sR calcY2s
    simp only [triDiagAtR_exact]
    rfl
  have h2 : ∀ y2s co, calcCoeffsR exactFP xs ys y2s co = calcCoeffs xs ys y2s co := fun y2s co => rfl
  unfold newSplineR newSpline Spline.initR Spline.init
  simp only [h1, h2]
  rfl

/-- With exact arithmetic the evaluation is that of `Model.lean`, whichever product is fused. -/
theorem splineEvalR_exact (left : Bool) (sp : Spline) (x : ℚ) : sp.evalR exactFP left x = sp.eval x := by
  have h1 : ∀ x, sp.bsearchR exactFP x = sp.bsearch x := fun x => rfl
  unfold Spline.evalR Spline.eval
  simp only [h1]
  cases left
  · simp only [cubicR, exactFP, id, Bool.false_eq_true, if_false]
  · simp only [cubicR, exactFP, id, if_true, add_comm]

theorem valR_exact (s : Searcher) (i : Int) : s.valR exactFP i = s.val i := by
  unfold Searcher.valR Searcher.val exactFP
  simp only [add_comm]

theorem twoR_exact (left : Bool) (a s b t : ℚ) : twoR exactFP left a s b t = a * s + b * t := by
  cases left
  · simp only [twoR, exactFP, id, Bool.false_eq_true, if_false]
  · simp only [twoR, exactFP, id, if_true, add_comm]

/-- With exact arithmetic the bilinear interpolator is that of `Model.lean`. -/
theorem bilinearR_exact (left : Bool) (bi : BiLinear) (x y : ℚ) : bi.evalR exactFP left x y = bi.eval x y := by
  have h1 : ∀ s : Searcher, ∀ x, s.searchR exactFP x = s.search x := fun s x => rfl
  have h2 : ∀ x1 x2 y1 y2 v11 v12 v21 v22, bilinR exactFP left x1 x2 y1 y2 v11 v12 v21 v22 x y =
      (v11 * (x2 - x) * (y2 - y) + v12 * (x2 - x) * (y - y1) + v21 * (x - x1) * (y2 - y) + v22 * (x - x1) * (y - y1)) /
        ((x2 - x1) * (y2 - y1)) := by
    intro x1 x2 y1 y2 v11 v12 v21 v22
    unfold bilinR
    simp only [twoR_exact]
    rfl
  unfold BiLinear.evalR BiLinear.eval
  simp only [h1, h2, valR_exact]

theorem newBiLinearR_exact (xs ys vals : List ℚ) : newBiLinearR exactFP xs ys vals = newBiLinear xs ys vals := rfl

/-- With exact arithmetic the trilinear interpolator is that of `Model.lean`. -/
theorem trilinearR_exact (left : Bool) (tri : TriLinear) (x y z : ℚ) : tri.evalR exactFP left x y z = tri.eval x y z := by
  have h1 : ∀ s : Searcher, ∀ x, s.searchR exactFP x = s.search x := fun s x => rfl
  have h2 : ∀ x, exactFP.fl x = x := fun x => rfl
  unfold TriLinear.evalR TriLinear.eval
  simp only [h1, h2, trilinR, twoR_exact, valR_exact]

theorem newTriLinearR_exact (xs ys zs vals : List ℚ) : newTriLinearR exactFP xs ys zs vals = newTriLinear xs ys zs vals := rfl

end Verif.Interp
