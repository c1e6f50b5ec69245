import Verif.Geom.Model
import Mathlib.Analysis.SpecialFunctions.Pow.Real

/-! Model of `Norm` of `render/geom/vec.go`; the square root is the real one, without rounding. -/

set_option autoImplicit false

namespace Verif.Geom

/-- `Norm`, render/geom/vec.go 105-108. -/
noncomputable def Vec.norm (v : Vec) : ℝ := Real.sqrt ((v.dot v : ℚ) : ℝ)

end Verif.Geom
