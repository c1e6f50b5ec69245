import Verif.Mat.RoundModel

/-! The model with rounding and that of `Model.lean` agree when the arithmetic is exact. Nothing else depends on this file. -/

set_option autoImplicit false

namespace Verif.Mat

open Verif.Go

theorem mult_exact (a b : Matrix) : a.multR exactFP b = a.mult b := rfl

theorem multVec_exact (m : Matrix) (v out : List ℚ) : multVecR exactFP m v out = multVec m v out := rfl

theorem vecMult_exact (v : List ℚ) (m : Matrix) (out : List ℚ) : vecMultR exactFP v m out = vecMult v m out := rfl

theorem eliminate_exact (n : Nat) (k : Int) (m : List ℚ) : eliminateR exactFP n k m = eliminate n k m := by
  unfold eliminateR eliminate exactFP
  simp only [id, neg_mul, sub_eq_add_neg]

theorem LU_exact (m : Matrix) : m.LUR exactFP = m.LU := by
  have h : ∀ n k s, luStepR exactFP n k s = luStep n k s := by
    intro n k s
    unfold luStepR luStep
    simp only [eliminate_exact]
    rfl
  have h' : ∀ n m p, factorizeR exactFP n m p = factorize n m p := by
    intro n m p
    unfold factorizeR factorize
    rw [show luStepR exactFP n = luStep n from funext fun k => funext fun s => h n k s]
    rfl
  unfold Matrix.LUR Matrix.LU Matrix.luFactorsAtR Matrix.luFactorsAt
  simp only [h']

theorem solveVector_exact (luf : LUFactors) (bs xs : List ℚ) :
    luf.solveVectorR exactFP bs xs = luf.solveVector bs xs := rfl

theorem determinant_exact (m : Matrix) : m.determinantR exactFP = m.determinant := by
  unfold Matrix.determinantR Matrix.determinant
  rw [LU_exact]
  rfl

theorem solveMatrix_exact (luf : LUFactors) (b x : Matrix) : luf.solveMatrixR exactFP b x = luf.solveMatrix b x := rfl

theorem invert_exact (m : Matrix) : m.invertR exactFP = m.invert := by
  unfold Matrix.invertR Matrix.invert
  rw [LU_exact]
  rfl

theorem matSolveMatrix_exact (m b : Matrix) : m.solveMatrixR exactFP b = m.solveMatrix b := by
  unfold Matrix.solveMatrixR Matrix.solveMatrix
  rw [LU_exact]
  rfl

end Verif.Mat
