import Verif.Render.Model
import Verif.Geom.DerivModel

/-!
# Model of the buffers, the quantities and the manager's passes

render/density/buffer.go, render/density/quantity.go and the sequential part of render/render.go.
`float32` conversions are exact here.
-/

set_option autoImplicit false

namespace Verif.Render

open Verif.Go Verif.Geom

/-! ## Slices of a reused array -/

/-- A buffer: a slice starting at `off` of length `len` of a backing array (`scalarBuffer.vals`, `velocityBuffer.vecs`
with `num`: the element type is then a pair). render/density/buffer.go 74, 129, 257-262. -/
structure WBuf (M : Type) where
  data : List M
  off : ℕ
  len : ℕ

/-- The elements the slice shows. render/density/buffer.go 78-80: what `buf.vals` is after `Slice`. -/
def WBuf.visible {M : Type} (b : WBuf M) : List M := (b.data.drop b.off).take b.len

/-- `make`, render/density/buffer.go 30-64. -/
def WBuf.new {M : Type} [Zero M] (n : ℕ) : WBuf M := ⟨List.replicate n 0, 0, n⟩

/-- `Slice`, render/density/buffer.go 78-80, 133-135, 265-268: Go slicing up to the capacity. -/
def WBuf.slice {M : Type} (b : WBuf M) (low high : ℤ) : Option (WBuf M) :=
  if 0 ≤ low ∧ low ≤ high ∧ high ≤ b.data.length - b.off then
    some ⟨b.data, b.off + low.toNat, (high - low).toNat⟩
  else none

/-- Overwrite the shown elements. The writes of render/density/buffer.go 86-88. -/
def WBuf.put {M : Type} (b : WBuf M) (xs : List M) : WBuf M :=
  { b with data := b.data.take b.off ++ xs ++ b.data.drop (b.off + xs.length) }

/-- `Clear`, render/density/buffer.go 86-88, 141-145, 270-275, 326-331, 392-397. -/
def WBuf.clear {M : Type} [Zero M] (b : WBuf M) : WBuf M := b.put (b.visible.map fun _ => 0)

/-- What `initWorkspaces` does to one worker's buffer, render/render.go 206-208. -/
def initBuf {M : Type} [Zero M] (b : WBuf M) (size : ℤ) : Option (WBuf M) := do
  let b ← b.slice 0 size
  some b.clear

/-! ## NewManager -/

/-- The buffer size and the list of files of `NewManager`, render/render.go 91-115: files are numbers,
`hit f i` is the intersection test of box `i`, `size f i` its `Overlap(..).BufferSize()`. -/
def planFiles (hit : ℕ → ℕ → Bool) (size : ℕ → ℕ → ℤ) (boxes : ℕ) (files : List ℕ) : ℤ × List ℕ :=
  files.foldl (fun (st : ℤ × List ℕ) f =>
    let r := (List.range boxes).foldl (fun (r : ℤ × Bool) i =>
      if hit f i then (if size f i > r.1 then size f i else r.1, true) else r) (st.1, false)
    (r.1, if r.2 then st.2 ++ [f] else st.2)) (0, [])

/-- The passes of `RenderDensity`: files of the plan, boxes they were found to intersect, in order;
render/render.go 230-236, 257-260. -/
def passes (hit : ℕ → ℕ → Bool) (boxes : ℕ) (files : List ℕ) : List (ℕ × ℕ) :=
  files.flatMap fun f => ((List.range boxes).filter fun i => hit f i).map fun i => (f, i)

/-! ## Quantities -/

/-- `Quantity.String`, render/density/quantity.go 17-36. -/
def quantityString (q : ℤ) : Option String :=
  if q ≤ 0 ∨ q ≥ 5 then none
  else if q = 0 then some "Density"
  else if q = 1 then some "DensityGradient"
  else if q = 2 then some "Velocity"
  else if q = 3 then some "VelocityDivergence"
  else if q = 4 then some "VelocityCurl"
  else none

/-- `QuantityFromString`, render/density/quantity.go 38-52. -/
def quantityFromString (s : String) : ℤ × Bool :=
  if s = "Density" then (0, true)
  else if s = "DensityGradient" then (1, true)
  else if s = "Velocity" then (2, true)
  else if s = "VelocityDivergence" then (3, true)
  else if s = "VelocityCurl" then (4, true)
  else (0, false)

/-- `Quantity.RequiresVelocity`, render/density/quantity.go 54-62. -/
def requiresVelocity (q : ℤ) : Option Bool :=
  if q = 0 ∨ q = 1 then some false else if q = 2 ∨ q = 3 ∨ q = 4 then some true else none

/-- `Quantity.CanProject`, render/density/quantity.go 64-77. -/
def canProject (q : ℤ) : Option Bool :=
  if q < 0 ∨ q ≥ 5 then none
  else if q = 0 ∨ q = 2 then some true
  else if q = 1 ∨ q = 4 ∨ q = 3 then some false
  else none

/-! ## Finalised buffers -/

/-- Arithmetic of the finalised buffers: the derivatives, a sum divided by a count (render/density/buffer.go 296-303, 353-359,
419-422), and `float32(x)` (render/density/buffer.go 241). -/
structure BArith extends DArith where
  mean : ℚ → ℤ → ℚ
  conv : ℚ → ℚ

/-- Exact arithmetic: a simplification of render/density/buffer.go 239-250, 293-308, 345-364 and 415-428, which round. -/
def exactB : BArith := { exactD with mean := fun v n => v / n, conv := fun x => x }

/-- One iteration of the loops that divide by the counts; component `j` of the result comes from component `pick j` of
the sum. render/density/buffer.go 293-308, 345-364, 415-428. -/
def meanStep (pick : Fin 3 → Fin 3) (vecs : List Vec) (num : List ℤ) (i : ℤ) (out : Fin 3 → List ℚ)
    (B : BArith := exactB) : Option (Fin 3 → List ℚ) := do
  let vec ← rd vecs i
  let n ← rd num i
  if n = 0 then some out
  else do
    let xs ← wr (out 0) i (B.mean (vec (pick 0)) n)
    let ys ← wr (out 1) i (B.mean (vec (pick 1)) n)
    let zs ← wr (out 2) i (B.mean (vec (pick 2)) n)
    some ![xs, ys, zs]

/-- `velocityBuffer.FinalizedVectorBuffer`, render/density/buffer.go 293-306. The remainder in line 298 panics when
the divisor `len/30` is zero. -/
def velFinalize (vecs : List Vec) (num : List ℤ) (B : BArith := exactB) : Option (Fin 3 → List ℚ) :=
  forRange 0 vecs.length (fun i out =>
    if (vecs.length : ℤ).tdiv 30 = 0 then none
    else meanStep id vecs num i out B) (fun _ => List.replicate vecs.length 0)

/-- `divergenceBuffer.FinalizedScalarBuffer`, render/density/buffer.go 345-364 (line 357 reads component 0). -/
def divFinalize (g : GridLocation) (dflt : DerivOptions) (vecs : List Vec) (num : List ℤ)
    (B : BArith := exactB) : Option (List ℚ) := do
  let m ← forRange 0 vecs.length (fun i out => meanStep ![0, 0, 2] vecs num i out B)
    (fun _ => List.replicate vecs.length 0)
  let r ← g.divergence m (List.replicate vecs.length 0) (some ⟨true, .none, 4⟩) dflt B.toDArith
  some r.out

/-- `curlBuffer.FinalizedVectorBuffer`, render/density/buffer.go 415-428. -/
def curlFinalize (g : GridLocation) (dflt : DerivOptions) (vecs : List Vec) (num : List ℤ)
    (B : BArith := exactB) : Option (Fin 3 → List ℚ) := do
  let m ← forRange 0 vecs.length (fun i out => meanStep id vecs num i out B)
    (fun _ => List.replicate vecs.length 0)
  let r ← g.curl m (fun _ => List.replicate vecs.length 0) (some ⟨true, .none, 4⟩) dflt B.toDArith
  some r.out

/-- `gradientBuffer.FinalizedVectorBuffer`, render/density/buffer.go 239-250. -/
def gradFinalize (g : GridLocation) (dflt : DerivOptions) (vals : List ℚ) (B : BArith := exactB) :
    Option (Fin 3 → List ℚ) := do
  let r ← g.gradient (vals.map B.conv) (fun _ => List.replicate vals.length 0) (some ⟨true, .none, 4⟩) dflt B.toDArith
  some r.out

end Verif.Render
