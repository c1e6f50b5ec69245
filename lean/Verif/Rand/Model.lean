import Verif.Go.Slice
import Mathlib.Data.Rat.Floor

/-!
# Model of `/repo/math/rand`

`uint32`/`uint64` are `BitVec`.  `float64` values are rationals: the Xorshift quotient
`float64(MaxUint32 - w) / float64(MaxUint32)` is taken exactly.  (In IEEE arithmetic the quotient is
rounded; it equals `1.0` exactly when `w = 0`, as here, because the next smaller quotient differs from 1
by more than 2^-33.)
-/

namespace Verif.Rand

open Verif.Go

/-! ### Xorshift -/

/-- `math/rand/xorshift.go:13-15`. -/
structure Xor where
  w : BitVec 32
  x : BitVec 32
  y : BitVec 32
  z : BitVec 32
deriving DecidableEq, Repr

/-- `math/rand/xorshift.go:17-22` (`Init`). -/
def Xor.init (seed : BitVec 64) : Xor :=
  { x := 123456789, y := 362436069, z := 521288629, w := seed.truncate 32 }

/-- `math/rand/xorshift.go:25-27` (= lines 35-37): one state update. -/
def Xor.step (g : Xor) : Xor :=
  let t := g.x ^^^ (g.x <<< 11)
  { x := g.y, y := g.z, z := g.w, w := g.w ^^^ (g.w >>> 19) ^^^ (t ^^^ (t >>> 8)) }

/-- `math/rand/xorshift.go:28` (= line 38): the value computed from the state.
`MaxUint32 - gen.w` is unsigned 32-bit subtraction, which cannot wrap. -/
def Xor.value (g : Xor) : ℚ := ((4294967295#32 - g.w).toNat : ℚ) / 4294967295

/-- `math/rand/xorshift.go:24-31` (`Next`); the first argument bounds the number of redraws. -/
def Xor.nextFuel : Nat → Xor → Option (Xor × ℚ)
  | 0, _ => none
  | f + 1, g =>
    let g := g.step
    if g.value = 1 then Xor.nextFuel f g else some (g, g.value)

/-- `math/rand/xorshift.go:24-31` (`Next`), with at most four state updates per call; `Props.lean` shows
that allowing more makes no difference on reachable states. -/
def Xor.next (g : Xor) : Option (Xor × ℚ) := Xor.nextFuel 4 g

/-- `math/rand/xorshift.go:33-41` (`NextSequence`): the loop
`for i := 0; i < len(target); i++ { ...; if target[i] == 1.0 { i-- } }`, `i` being the loop counter; the
first argument bounds the number of iterations. -/
def Xor.seqLoop : Nat → Int → Xor → List ℚ → Option (Xor × List ℚ)
  | 0, i, g, target => if i < target.length then none else some (g, target)
  | f + 1, i, g, target =>
    if i < target.length then do
      let g := g.step
      let target ← wr target i g.value
      let v ← rd target i
      let i := if v = 1 then i - 1 else i
      Xor.seqLoop f (i + 1) g target
    else some (g, target)

/-- `math/rand/xorshift.go:33-41` (`NextSequence`). -/
def Xor.nextSequence (g : Xor) (target : List ℚ) : Option (Xor × List ℚ) :=
  Xor.seqLoop (4 * target.length) 0 g target

/-! ### Tausworthe -/

/-- `math/rand/tausworthe.go:4`. -/
def tauswortheDigitsRandomized : Int := 15
/-- `math/rand/tausworthe.go:6`. -/
def tauswortheSeqLen : Nat := 9689
/-- `math/rand/tausworthe.go:7`. -/
def tauswortheFirstOffset : Int := 2444
/-- `math/rand/tausworthe.go:8`. -/
def tauswortheSecondOffset : Int := 4187

/-- `math/rand/tausworthe.go:11-14`. -/
structure Taus where
  seq : List ℚ
  leader : Int
  firstFollower : Int
  secondFollower : Int
deriving DecidableEq

/-- `math/rand/rand.go:62-65` (`Uniform`), as a function of the value `f` drawn from the backend. -/
def uniformVal (low high f : ℚ) : ℚ :=
  if low = 0 ∧ high = 1 then f else f * (high - low) + low

/-- `math/rand/tausworthe.go:21-25`: filling the table.  `draw k` is the `k`-th value returned by the
`Golang` backend (package `math/rand` of the Go library, not modelled).  State: table, `f`, number of
draws. -/
def Taus.fill (draw : Nat → ℚ) : Option (List ℚ × ℚ × Nat) :=
  forRange 0 tauswortheDigitsRandomized (fun _ s => do
    let (seq, f, pos) := s
    let s2 ← forRange 0 seq.length (fun i s => do
      let (seq, pos) := s
      let old ← rd seq i
      let seq ← wr seq i (old + uniformVal 0 f (draw pos))
      some (seq, pos + 1)) (seq, pos)
    some (s2.1, f / 2, s2.2)) (List.replicate tauswortheSeqLen 0, 1, 0)

/-- `math/rand/tausworthe.go:16-34` (`Init`). -/
def Taus.init (draw : Nat → ℚ) : Option Taus := do
  let s ← Taus.fill draw
  let seq := s.1
  some { seq := seq.map (fun v => if v ≥ 1 then v - 1 else v)
         leader := 0
         firstFollower := tauswortheFirstOffset
         secondFollower := tauswortheSecondOffset }

/-- `math/rand/tausworthe.go:36-50` (`Next`). -/
def Taus.next (g : Taus) : Option (Taus × ℚ) := do
  let a ← rd g.seq g.firstFollower
  let b ← rd g.seq g.secondFollower
  let next := a - b
  let next := if next < 0 then next + 1 else next
  let seq ← wr g.seq g.leader next
  let leader := if g.leader = 0 then (seq.length : Int) else g.leader
  let first := if g.firstFollower = 0 then (seq.length : Int) else g.firstFollower
  let second := if g.secondFollower = 0 then (seq.length : Int) else g.secondFollower
  some ({ seq := seq, leader := leader - 1, firstFollower := first - 1, secondFollower := second - 1 },
    next)

/-- `math/rand/tausworthe.go:53-67`: the body of the loop of `NextSequence`, a copy of `Next` that
stores the value in the target. -/
def Taus.seqBody (i : Int) (s : Taus × List ℚ) : Option (Taus × List ℚ) := do
  let (g, target) := s
  let a ← rd g.seq g.firstFollower
  let b ← rd g.seq g.secondFollower
  let next := a - b
  let next := if next < 0 then next + 1 else next
  let seq ← wr g.seq g.leader next
  let leader := if g.leader = 0 then (seq.length : Int) else g.leader
  let first := if g.firstFollower = 0 then (seq.length : Int) else g.firstFollower
  let second := if g.secondFollower = 0 then (seq.length : Int) else g.secondFollower
  let target ← wr target i next
  some ({ seq := seq, leader := leader - 1, firstFollower := first - 1, secondFollower := second - 1 },
    target)

/-- `math/rand/tausworthe.go:52-68` (`NextSequence`). -/
def Taus.nextSequence (g : Taus) (target : List ℚ) : Option (Taus × List ℚ) :=
  forRange 0 target.length Taus.seqBody (g, target)

/-! ### Generator -/

/-- `math/rand/rand.go:56-60` (`UniformInt`), as a function of the backend value. -/
def uniformIntVal (low high : Int) (f : ℚ) : Int :=
  ⌊((high - low : Int) : ℚ) * f + (low : ℚ)⌋

/-- `math/rand/rand.go:67-73` (`UniformAt`), as a function of the block of backend values. -/
def uniformAtVals (low high : ℚ) (target : List ℚ) : List ℚ :=
  if low = 0 ∧ high = 1 then target else target.map (fun f => f * (high - low) + low)

/-! ### Sobol -/

/-- `math/rand/sobol.go:10`. -/
def MaxDim : Nat := 6
/-- `math/rand/sobol.go:11`. -/
def MaxBit : Nat := 30

/-- `math/rand/sobol.go:17`. -/
def initMDeg : List Nat := [1, 2, 3, 3, 4, 4]
/-- `math/rand/sobol.go:18`. -/
def initIp : List (BitVec 32) := [0, 1, 1, 2, 1, 4]
/-- `math/rand/sobol.go:19-21` (the rest of the array is zero). -/
def initIv : List (BitVec 32) :=
  [1, 1, 1, 1, 1, 1, 3, 1, 3, 3, 1, 1, 5, 7, 7, 3, 3, 5, 15, 11, 5, 15, 13, 9] ++
    List.replicate (MaxBit * MaxDim - 24) 0

/-- `math/rand/sobol.go:24-31`; `mdeg` and `ip` never change after `Init` and are the constants above. -/
structure Sobol where
  seqNum : BitVec 32
  ix : List (BitVec 32)
  iv : List (BitVec 32)
  isInit : Bool
deriving DecidableEq

/-- `math/rand/sobol.go:34`: the zero value `&SobolSequence{}`. -/
def Sobol.zero : Sobol :=
  { seqNum := 0, ix := List.replicate MaxDim 0, iv := List.replicate (MaxBit * MaxDim) 0, isInit := false }

/-- `math/rand/sobol.go:60-63`: `for l := deg-1; l >= 1; l-- { if 1 & ipp == 1 { i ^= iv[..] }; ipp >>= 1 }`,
`n` being the number of iterations; `prev` is `seq.iv[MaxDim * (j - 1) + k]`, which does not depend on
`l`. -/
def sobolMix (prev : BitVec 32) : Nat → BitVec 32 → BitVec 32 → BitVec 32
  | 0, _, i => i
  | n + 1, ipp, i => sobolMix prev n (ipp >>> 1) (if 1#32 &&& ipp = 1#32 then i ^^^ prev else i)

/-- `math/rand/sobol.go:49-67`: computing the direction numbers. -/
def sobolTable : Option (List (BitVec 32)) :=
  forRange 0 MaxDim (fun k iv => do
    let deg ← rd initMDeg k
    let ip ← rd initIp k
    let iv ← forRange 0 deg (fun j (iv : List (BitVec 32)) => do
      let v ← rd iv (MaxDim * j + k)
      wr iv (MaxDim * j + k) (v <<< (MaxBit - j - 1).toNat)) iv
    forRange deg MaxBit (fun j (iv : List (BitVec 32)) => do
      let i ← rd iv (MaxDim * (j - deg) + k)
      let i := i ^^^ (i >>> deg)
      let prev ← rd iv (MaxDim * (j - 1) + k)
      wr iv (MaxDim * j + k) (sobolMix prev (deg - 1) ip i)) iv) initIv

/-- `math/rand/sobol.go:40-70` (`Init`). -/
def Sobol.init (s : Sobol) : Option Sobol :=
  let s := { s with ix := List.replicate MaxDim 0 }
  if s.isInit then some s
  else do
    let iv ← sobolTable
    some { s with seqNum := 0, iv := iv, isInit := true }

/-- `math/rand/sobol.go:33-37` (`NewSobolSequence`). -/
def newSobol : Option Sobol := Sobol.zero.init

/-- `math/rand/sobol.go:92-95`: index of the lowest zero bit, or `MaxBit`; `n` is the number of remaining
iterations, `z` the loop variable. -/
def lowestZero (seqNum : BitVec 32) : Nat → Nat → Nat
  | 0, z => z
  | n + 1, z => if seqNum &&& (1#32 <<< z) = 0#32 then z else lowestZero seqNum n (z + 1)

/-- `math/rand/sobol.go:80-102` (`NextAt`) on a target of length `dim`; `log.Fatalf` is `none`.
Returns the new state and the values written to the target. -/
def Sobol.nextAt (s : Sobol) (dim : Nat) : Option (Sobol × List ℚ) :=
  if dim > MaxDim then none
  else if s.seqNum.toNat ≥ 2 ^ MaxBit then none
  else
    let seqNum := s.seqNum + 1
    let zeroIdx := lowestZero seqNum MaxBit 0
    let im : Int := zeroIdx * MaxDim
    do
      let (ix, target) ← forRange 0 dim (fun k st => do
        let (ix, target) := st
        let a ← rd ix k
        let b ← rd s.iv (im + k)
        let ix ← wr ix k (a ^^^ b)
        let v ← rd ix k
        let target ← wr target k ((v.toNat : ℚ) * (1 / 2 ^ MaxBit))
        some (ix, target)) (s.ix, List.replicate dim 0)
      some ({ s with seqNum := seqNum, ix := ix }, target)

end Verif.Rand
