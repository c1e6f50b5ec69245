import Verif.Go.Float
import Verif.Rand.Model

/-!
# The generators of `/repo/math/rand` in machine arithmetic

Versions of the definitions of `Verif.Rand.Model` in which every operation on `float64` is rounded to 53 bits (see
`Verif.Go.Float` for what is left out). The bit operations are those of `Verif.Rand.Model`.
-/

set_option autoImplicit false

namespace Verif.Fp

open Verif.Go Verif.Rand

/-- A result of an operation on `float64`. -/
def f64 (x : ℚ) : ℚ := rnd 53 x

/-- A result of an operation on `float32`. -/
def f32 (x : ℚ) : ℚ := rnd 24 x

/-- The value of a Xorshift state, math/rand/xorshift.go 28 (= line 38): `float64(MaxUint32 - w) / float64(MaxUint32)`. -/
def xorValue (g : Xor) : ℚ := f64 (f64 ((4294967295#32 - g.w).toNat : ℚ) / f64 4294967295)

/-- `Next`, math/rand/xorshift.go 24-31, with at most four state updates (as `Xor.next`). -/
def xorNextFuel : ℕ → Xor → Option (Xor × ℚ)
  | 0, _ => none
  | n + 1, g =>
    let g := g.step
    if xorValue g = 1 then xorNextFuel n g else some (g, xorValue g)

/-- `Next`, math/rand/xorshift.go 24-31. -/
def xorNext (g : Xor) : Option (Xor × ℚ) := xorNextFuel 4 g

/-- `Uniform`, math/rand/rand.go 62-65, as a function of the value drawn; `fused` says how the compiler translates
`a * b + c`. The product is `gen.backend.Next() * (high - low)`. -/
def uniform (fused : Bool) (low high f : ℚ) : ℚ :=
  if low = 0 ∧ high = 1 then f else mulAdd fused 53 f (f64 (high - low)) low

/-- `UniformAt`, math/rand/rand.go 67-73, as a function of the values drawn. -/
def uniformAt (fused : Bool) (low high : ℚ) (target : List ℚ) : List ℚ :=
  if low = 0 ∧ high = 1 then target else target.map fun f => mulAdd fused 53 f (f64 (high - low)) low

/-- `UniformInt`, math/rand/rand.go 56-60; `float64(high - low)` and `float64(low)` are rounded conversions. -/
def uniformInt (fused : Bool) (low high : ℤ) (f : ℚ) : ℤ :=
  ⌊mulAdd fused 53 (f64 ((high - low : ℤ) : ℚ)) f (f64 (low : ℚ))⌋

/-- Filling the table of the Tausworthe generator, math/rand/tausworthe.go 21-25. -/
def tausFill (fused : Bool) (draw : ℕ → ℚ) : Option (List ℚ × ℚ × ℕ) :=
  forRange 0 tauswortheDigitsRandomized (fun _ s => do
    let (seq, f, pos) := s
    let s2 ← forRange 0 seq.length (fun i s => do
      let (seq, pos) := s
      let old ← rd seq i
      let seq ← wr seq i (f64 (old + uniform fused 0 f (draw pos)))
      some (seq, pos + 1)) (seq, pos)
    some (s2.1, f64 (f / 2), s2.2)) (List.replicate tauswortheSeqLen 0, 1, 0)

/-- `Init`, math/rand/tausworthe.go 16-34. -/
def tausInit (fused : Bool) (draw : ℕ → ℚ) : Option Taus := do
  let s ← tausFill fused draw
  some { seq := s.1.map (fun v => if v ≥ 1 then f64 (v - 1) else v)
         leader := 0
         firstFollower := tauswortheFirstOffset
         secondFollower := tauswortheSecondOffset }

/-- `Next`, math/rand/tausworthe.go 36-50 (the loop body of `NextSequence`, lines 53-67, is a copy). -/
def tausNext (g : Taus) : Option (Taus × ℚ) := do
  let a ← rd g.seq g.firstFollower
  let b ← rd g.seq g.secondFollower
  let next := f64 (a - b)
  let next := if next < 0 then f64 (next + 1) else next
  let seq ← wr g.seq g.leader next
  let leader := if g.leader = 0 then (seq.length : ℤ) else g.leader
  let first := if g.firstFollower = 0 then (seq.length : ℤ) else g.firstFollower
  let second := if g.secondFollower = 0 then (seq.length : ℤ) else g.secondFollower
  some ({ seq := seq, leader := leader - 1, firstFollower := first - 1, secondFollower := second - 1 }, next)

end Verif.Fp
