import Verif.Interp.Model

/-! Model of the uniform cubic interpolators and of `EvalAll` in two and three dimensions. -/

set_option autoImplicit false

namespace Verif.Interp

open Verif.Go

/-- The loops `for i := range xs { xs[i] = x0 + float64(i)*dx }` of `math/interpolate/cubic_interpolators.go:57-60` and
`184-189`, for a slice of length `n`. -/
def uniformLine (x0 dx : ℚ) (n : Int) : List ℚ := (List.range n.toNat).map (fun (i : Nat) => x0 + (i : ℚ) * dx)

/-- `math/interpolate/cubic_interpolators.go:41-65` (`NewUniformBiCubic`); making a slice of negative length panics. -/
def newUniformBiCubic (x0 dx : ℚ) (nx : Int) (y0 dy : ℚ) (ny : Int) (vals : List ℚ) : Option BiCubic :=
  if nx * ny ≠ vals.length then none
  else if nx < 0 ∨ ny < 0 then none
  else biInitSplines nx (uniformLine x0 dx nx) (uniformLine y0 dy ny) vals

/-- `math/interpolate/cubic_interpolators.go:164-194` (`NewUniformTriCubic`); making a slice of negative length panics. -/
def newUniformTriCubic (x0 dx : ℚ) (nx : Int) (y0 dy : ℚ) (ny : Int) (z0 dz : ℚ) (nz : Int) (vals : List ℚ) :
    Option TriCubic :=
  if nx * ny * nz ≠ vals.length then none
  else if nx < 0 ∨ ny < 0 ∨ nz < 0 then none
  else triInitSplines nx ny (uniformLine x0 dx nx) (uniformLine y0 dy ny) (uniformLine z0 dz nz) vals

/-- `if len(out) == 0 { out = [][]float64{ make([]float64, len(xs)) } }`: the slice `EvalAll` writes to,
`math/interpolate/linear_interpolators.go:189` and `319`, `math/interpolate/cubic_interpolators.go:102` and `269`. -/
def outSlice (n : Nat) : Option (List ℚ) → List ℚ
  | none => List.replicate n 0
  | some o => o

/-- One turn of the loops `for i := range xs { out[0][i] = bi.Eval(xs[i], ys[i]) }`,
`math/interpolate/linear_interpolators.go:190` and `320`, `math/interpolate/cubic_interpolators.go:103` and `270`: `pt i`
reads the arguments of call `i`, `eval` is `Eval` together with the state it leaves. -/
def evalTurn {σ α : Type} (eval : σ → α → σ × Option ℚ) (pt : Int → Option α) (i : Int) (st : σ × List ℚ) :
    Option (σ × List ℚ) := do
  let p ← pt i
  let v ← (eval st.1 p).2
  let out ← wr st.2 i v
  some ((eval st.1 p).1, out)

/-- The body shared by the `EvalAll` methods with two and three arguments
(`math/interpolate/linear_interpolators.go:188-192` and `318-322`, `math/interpolate/cubic_interpolators.go:101-105` and
`268-272`); `out` is the first optional output slice, which must not share memory with the arguments. -/
def evalAllM {σ α : Type} (eval : σ → α → σ × Option ℚ) (n : Nat) (pt : Int → Option α) (out : Option (List ℚ)) (s : σ) :
    Option (σ × List ℚ) :=
  forRange 0 n (evalTurn eval pt) (s, outSlice n out)

/-- Arguments `i` of two slices. Part of `math/interpolate/linear_interpolators.go:190`. -/
def pt2 (xs ys : List ℚ) (i : Int) : Option (ℚ × ℚ) := do
  let x ← rd xs i
  let y ← rd ys i
  some (x, y)

/-- Arguments `i` of three slices. Part of `math/interpolate/linear_interpolators.go:320`. -/
def pt3 (xs ys zs : List ℚ) (i : Int) : Option (ℚ × ℚ × ℚ) := do
  let x ← rd xs i
  let y ← rd ys i
  let z ← rd zs i
  some (x, y, z)

/-- `math/interpolate/linear_interpolators.go:188-192` (`EvalAll`). -/
def BiLinear.evalAll (bi : BiLinear) (xs ys : List ℚ) (out : Option (List ℚ)) : Option (List ℚ) :=
  (evalAllM (fun (s : Unit) p => (s, bi.eval p.1 p.2)) xs.length (pt2 xs ys) out ()).map Prod.snd

/-- `math/interpolate/linear_interpolators.go:318-322` (`EvalAll`). -/
def TriLinear.evalAll (tri : TriLinear) (xs ys zs : List ℚ) (out : Option (List ℚ)) : Option (List ℚ) :=
  (evalAllM (fun (s : Unit) p => (s, tri.eval p.1 p.2.1 p.2.2)) xs.length (pt3 xs ys zs) out ()).map Prod.snd

/-- `math/interpolate/cubic_interpolators.go:101-105` (`EvalAll`), with the object afterwards. -/
def BiCubic.evalAll (bi : BiCubic) (xs ys : List ℚ) (out : Option (List ℚ)) : Option (BiCubic × List ℚ) :=
  evalAllM (fun s p => s.eval p.1 p.2) xs.length (pt2 xs ys) out bi

/-- `math/interpolate/cubic_interpolators.go:268-272` (`EvalAll`), with the object afterwards. -/
def TriCubic.evalAll (tri : TriCubic) (xs ys zs : List ℚ) (out : Option (List ℚ)) : Option (TriCubic × List ℚ) :=
  evalAllM (fun s p => s.eval p.1 p.2.1 p.2.2) xs.length (pt3 xs ys zs) out tri

end Verif.Interp
