import Verif.Go.Limits
import Verif.Fp.WrapModel
import Verif.Fp.SumModel

/-!
# Wrapping, sums and draws with the limits of the exponent

The definitions of `Verif.Fp.WrapModel`, `Verif.Fp.SumModel` and `Verif.Fp.RandModel` for the numbers that `float32` and `float64`
really have. `none` is an infinite result.
-/

set_option autoImplicit false

namespace Verif.Fp

open Verif.Go Verif.Rand

/-- One coordinate of `Vec.ModAt`, render/geom/vec.go 42-53. -/
def modCL (width x : ℚ) : Option ℚ := do
  let w ← single.op width
  if x ≥ w then single.op (x - w) else if x < 0 then single.op (x + w) else some x

/-- One coordinate of `Vec.SubAt`, render/geom/vec.go 82-104. -/
def subCL (width x1 x2 : ℚ) : Option ℚ := do
  let w ← single.op width
  let w2 ← single.op (w / 2)
  let diff ← single.op (x1 - x2)
  let diff ← if diff < -w then single.op (diff + w) else if diff ≥ w then single.op (diff - w) else some diff
  if diff > w2 then single.op (diff - w) else if diff < -w2 then single.op (diff + w) else some diff

/-- `WrapDistance`, render/io/io.go 121-128. -/
def wrapL (boxSize x : ℚ) : Option ℚ :=
  if x < 0 then double.op (x + boxSize) else if x ≥ boxSize then double.op (x - boxSize) else some x

/-- A coordinate of a Gadget particle as stored, render/io/io.go 243. -/
def gadgetPosL (boxSize x : ℚ) : Option ℚ := do single.op (← wrapL boxSize x)

/-- A pixel to which values are added one after the other, render/density/buffer.go 74-90 and render/box.go 253-485. -/
def sumL : List ℚ → ℚ → Option ℚ
  | [], s => some s
  | v :: vs, s => do sumL vs (← double.op (s + v))

/-- The value of a Xorshift state, math/rand/xorshift.go 28 (= line 38). -/
def xorValueL (g : Xor) : Option ℚ := do
  let n ← double.op ((4294967295#32 - g.w).toNat : ℚ)
  let d ← double.op 4294967295
  double.op (n / d)

/-- `Uniform`, math/rand/rand.go 62-65 (= line 71), as a function of the value drawn, without fused operations. -/
def uniformL (low high f : ℚ) : Option ℚ :=
  if low = 0 ∧ high = 1 then some f
  else do
    let d ← double.op (high - low)
    let m ← double.op (f * d)
    double.op (m + low)

/-- The new value of the Tausworthe generator, math/rand/tausworthe.go 37-38 (= lines 55-56), from the two old ones. -/
def tausValueL (a b : ℚ) : Option ℚ := do
  let next ← double.op (a - b)
  if next < 0 then double.op (next + 1) else some next

/-- `Next`, math/rand/tausworthe.go 36-50. -/
def tausNextL (g : Taus) : Option (Taus × ℚ) := do
  let a ← rd g.seq g.firstFollower
  let b ← rd g.seq g.secondFollower
  let next ← tausValueL a b
  let seq ← wr g.seq g.leader next
  let leader := if g.leader = 0 then (seq.length : ℤ) else g.leader
  let first := if g.firstFollower = 0 then (seq.length : ℤ) else g.firstFollower
  let second := if g.secondFollower = 0 then (seq.length : ℤ) else g.secondFollower
  some ({ seq := seq, leader := leader - 1, firstFollower := first - 1, secondFollower := second - 1 }, next)

end Verif.Fp
