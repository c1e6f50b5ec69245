import Verif.Fp.SampleModel

/-!
# Volumes of tetrahedra in machine arithmetic

`Volume` and `Contains` with the rounding of `float32` and `float64`, without limits of the exponent.
-/

set_option autoImplicit false

namespace Verif.Fp

open Verif.Go Verif.Geom

/-- Which product, if any, is fused with the subtraction in `a*b - c*d`: a choice of the compiler. render/geom/vec.go
129-131. -/
inductive Fuse
  | no
  | first
  | second

/-- `a*b - c*d` for `float32`, render/geom/vec.go 129-131. -/
def mulSub32 (fz : Fuse) (a b c d : ℚ) : ℚ :=
  match fz with
  | .no => f32 (f32 (a * b) - f32 (c * d))
  | .first => f32 (a * b - f32 (c * d))
  | .second => f32 (f32 (a * b) - c * d)

/-- `CrossSelf`, render/geom/vec.go 124-134. -/
def cross32 (fz : Fin 3 → Fuse) (recv arg : Vec) : Vec :=
  let v2 := recv
  let v1 := arg
  ![mulSub32 (fz 0) (v1 1) (v2 2) (v1 2) (v2 1), mulSub32 (fz 1) (v1 2) (v2 0) (v1 0) (v2 2),
    mulSub32 (fz 2) (v1 0) (v2 1) (v1 1) (v2 0)]

/-- `Dot`, render/geom/vec.go 111-117: the products are `float32`, the sum `float64`. -/
def dot32 (v1 v2 : Vec) : ℚ :=
  f64 (f64 (f64 (0 + f32 (v1 0 * v2 0)) + f32 (v1 1 * v2 1)) + f32 (v1 2 * v2 2))

/-- `signedVolume`, render/geom/tetra.go 285-296. -/
def signedVolume32 (fz : Fin 3 → Fuse) (c0 c1 c2 c3 : Vec) : ℚ :=
  let leg1 : Vec := fun i => f32 (c1 i - c0 i)
  let leg2 : Vec := fun i => f32 (c2 i - c0 i)
  let leg3 : Vec := fun i => f32 (c3 i - c0 i)
  f64 (dot32 leg1 (cross32 fz leg2 leg3) / 6)

/-- `Volume` of a tetrahedron with nothing saved, render/geom/tetra.go 226-238. -/
def volume32 (fz : Fin 3 → Fuse) (c : Fin 4 → Vec) : ℚ := |signedVolume32 fz (c 0) (c 1) (c 2) (c 3)|

/-- `vol*(1+eps)`, render/geom/tetra.go 249: the constant is rounded to a `float64`. -/
def volLimit (vol : ℚ) : ℚ := f64 (vol * f64 (1 + eps))

/-- `epsEq`, render/geom/tetra.go 280-283. -/
def epsEq32 (x y : ℚ) : Bool :=
  (x = 0 && y = 0) || (x ≠ 0 && y ≠ 0 && |f64 (f64 (x - y) / x)| ≤ f64 eps)

/-- `Contains` of a tetrahedron with nothing saved, render/geom/tetra.go 240-278. The sign of a zero is taken as positive. -/
def contains32 (fz : Fin 3 → Fuse) (c : Fin 4 → Vec) (v : Vec) : Bool :=
  let vol := volume32 fz c
  let v0 := signedVolume32 fz v (c 0) (c 1) (c 2)
  let sign := signbit v0
  let s0 := |v0|
  if s0 > volLimit vol then false
  else
    let v1 := signedVolume32 fz v (c 1) (c 3) (c 2)
    if signbit v1 != sign then false
    else
      let s1 := f64 (s0 + |v1|)
      if s1 > volLimit vol then false
      else
        let v2 := signedVolume32 fz v (c 0) (c 3) (c 1)
        if signbit v2 != sign then false
        else
          let s2 := f64 (s1 + |v2|)
          if s2 > volLimit vol then false
          else
            let v3 := signedVolume32 fz v (c 0) (c 2) (c 3)
            if signbit v3 != sign then false
            else epsEq32 (f64 (|v3| + s2)) vol

end Verif.Fp
