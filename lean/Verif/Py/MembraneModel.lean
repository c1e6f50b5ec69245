import Verif.Py.VecDerivModel
import Verif.Go.Loops
import Mathlib.Analysis.SpecialFunctions.Exp

/-!
# Model of `render/scripts/mcarlo.py`: the Metropolis sampler and the membrane
-/

set_option autoImplicit false

namespace Verif.Py

open Verif.Go

/-- `Membrane`, render/scripts/mcarlo.py 69-86: the sorted radii of the points of each bin and the radius of the membrane in
each bin. The weights are left out, `min_E` does not use them (lines 112-114). -/
structure Membrane where
  bins : Int
  ptBins : List (List ℚ)
  rs : List ℚ

/-- `min_E`, render/scripts/mcarlo.py 112-114. -/
def minE (rMin r : ℚ) : ℚ := (r - rMin) ^ 2

/-- `dE`, render/scripts/mcarlo.py 116-128. `none` is an exception. -/
def Membrane.dE (m : Membrane) (i : Int) (r1 : ℚ) : Option ℚ := do
  let n := m.bins
  let r0 ← pyRd m.rs i
  let rl ← pyRd m.rs ((i + n - 1) % n)
  let rr ← pyRd m.rs ((i + 1) % n)
  let pts ← pyRd m.ptBins i
  match pts with
  | [] => some ((r1 - rl) ^ 2 + (r1 - rr) ^ 2 - ((r0 - rl) ^ 2 + (r0 - rr) ^ 2))
  | rpt :: _ =>
    some ((r1 - rl) ^ 2 + (r1 - rr) ^ 2 + minE r1 rpt - ((r0 - rl) ^ 2 + (r0 - rr) ^ 2 + minE r0 rpt))

/-- `change`, render/scripts/mcarlo.py 130-132. -/
def Membrane.change (m : Membrane) (i : Int) (r : ℚ) : Option Membrane := (pyWr m.rs i r).map fun rs => { m with rs := rs }

/-- `update_candidates`, render/scripts/mcarlo.py 107-110: `idx` is the bin drawn, `a` the uniform draw, `dr` the step. -/
def Membrane.candidate (m : Membrane) (dr : ℚ) (idx : Int) (a : ℚ) : Option ℚ := (pyRd m.rs idx).map fun r => (a * 2 - 1) * dr + r

/-- The condition of line 22 of render/scripts/mcarlo.py; `u` is the draw of `rand.random()`. -/
def accepted (dE T u : ℝ) : Prop := dE < 0 ∨ u < Real.exp (-dE / T)

/-- What one step draws: the bin, the uniform number of the candidate, the uniform number of the acceptance. -/
structure Draw where
  idx : Int
  a : ℚ
  u : ℚ

/-- What `sample` and `update_stats` keep. A snapshot is a reference to `self.rs` (`state` returns the array itself, line
135), so only their number is recorded: all of them are the array as it is at the end, when `np.array(snapshots)` (line 29)
copies it. -/
structure Sampler where
  mem : Membrane
  rsSum : List ℚ
  rsSqr : List ℚ
  trials : Int
  snaps : Int
  accepts : Int

/-- Lines 18-24 of render/scripts/mcarlo.py for the membrane, with one candidate. `ok` decides line 22 from `dE` and the
draw. -/
def moveTurn (ok : ℚ → ℚ → Bool) (dr : ℚ) (d : Draw) (m : Membrane) : Option (Membrane × Bool) := do
  let r ← m.candidate dr d.idx d.a
  let e ← m.dE d.idx r
  if ok e d.u then (m.change d.idx r).map fun m => (m, true) else some (m, false)

/-- `update_stats`, render/scripts/mcarlo.py 96-99. -/
def Sampler.updateStats (s : Sampler) : Sampler :=
  { s with
    trials := s.trials + 1
    rsSum := List.zipWith (· + ·) s.rsSum s.mem.rs
    rsSqr := List.zipWith (· + ·) s.rsSqr (List.zipWith (· * ·) s.mem.rs s.mem.rs) }

/-- One turn of the loop of `sample`, render/scripts/mcarlo.py 17-28. `self.tracks_stats` in line 25 is the method, not its
result, so the condition is only `burn_in <= step`. A `sample_rate` of `None` is `none`; a rate of 0 raises. -/
def sampleTurn (ok : ℚ → ℚ → Bool) (dr : ℚ) (draws : Nat → Draw) (rate : Option Int) (burnIn : Int) (step : Int)
    (s : Sampler) : Option Sampler := do
  let (m, acc) ← moveTurn ok dr (draws step.toNat) s.mem
  let s := { s with mem := m, accepts := s.accepts + (if acc then 1 else 0) }
  let s := if burnIn ≤ step then s.updateStats else s
  match rate with
  | none => some s
  | some k => if k = 0 then none else if step % k = 0 then some { s with snaps := s.snaps + 1 } else some s

/-- `sample` of a `Membrane`, render/scripts/mcarlo.py 13-29, with `reset_stats` (lines 91-94): returns the object, the
snapshots and the number of accepted moves. -/
def Membrane.sample (ok : ℚ → ℚ → Bool) (dr : ℚ) (draws : Nat → Draw) (rate : Option Int) (burnIn steps : Int)
    (m : Membrane) : Option (Sampler × List (List ℚ) × Int) :=
  let z := List.replicate m.bins.toNat (0 : ℚ)
  (forRange 0 steps (sampleTurn ok dr draws rate burnIn) ⟨m, z, z, 0, 0, 0⟩).map fun s =>
    (s, List.replicate s.snaps.toNat s.mem.rs, s.accepts)

/-- `get_mean`, render/scripts/mcarlo.py 101-102; a division by zero, a warning in NumPy, gives 0. -/
def Sampler.mean (s : Sampler) : List ℚ := s.rsSum.map (· / s.trials)

/-- `sample` of a `Potential1D`, render/scripts/mcarlo.py 13-29 and 42-55: one float is changed in place of an array, so
snapshots are values; line 26 calls `update_stats`, which this class does not have. -/
def potentialTurn (ok : ℚ → ℚ → Bool) (f : ℚ → ℚ) (dx : ℚ) (draws : Nat → Draw) (burnIn : Int) (step : Int)
    (s : ℚ × List ℚ × Int) : Option (ℚ × List ℚ × Int) :=
  let d := draws step.toNat
  let c := s.1 + (dx * 2 * d.a - dx)
  let s' := if ok (f c - f s.1) d.u then (c, s.2.1, s.2.2 + 1) else s
  if burnIn ≤ step then none else some (s'.1, s'.2.1 ++ [s'.1], s'.2.2)

/-- `sample` of a `Potential1D` with a sample rate of 1. render/scripts/mcarlo.py 13-29. -/
def potentialSample (ok : ℚ → ℚ → Bool) (f : ℚ → ℚ) (dx : ℚ) (draws : Nat → Draw) (burnIn steps : Int) (x0 : ℚ) :
    Option (List ℚ × Int) :=
  (forRange 0 steps (potentialTurn ok f dx draws burnIn) (x0, [], 0)).map Prod.snd

end Verif.Py
