import Mathlib.Data.Rat.Defs
import Mathlib.Algebra.Order.Ring.Rat

/-!
# Model of the search for the splashback radius

`render/scripts/profile.py`, `render/scripts/plot_profile.py` and `render/scripts/plot_savgol_profile.py`.
-/

set_option autoImplicit false

namespace Verif.Py

/-- `np.minimum.accumulate(rhos)`, render/scripts/profile.py 198. -/
def minAccum : List ℚ → List ℚ
  | [] => []
  | r :: rs => r :: (minAccum rs).map (min r)

/-- `rhos <= np.minimum.accumulate(rhos)`, render/scripts/profile.py 198. -/
def currMin (rhos : List ℚ) : List Bool := List.zipWith (fun a b => decide (a ≤ b)) rhos (minAccum rhos)

/-- `signal.argrelextrema(lderivs, np.less)[0]` of SciPy: the entries smaller than both neighbours; at the ends an entry is
its own neighbour (`mode='clip'`). render/scripts/profile.py 199. -/
def argrelmin (ld : List ℚ) : List Nat :=
  (List.range ld.length).filter fun i =>
    decide (ld.getD i 0 < ld.getD (i - 1) 0) && decide (ld.getD i 0 < ld.getD (min (i + 1) (ld.length - 1)) 0)

/-- `idxs[np.argmin(lderivs[idxs])]`: the first of the smallest. render/scripts/profile.py 206. -/
def argmin (f : Nat → ℚ) : List Nat → Option Nat
  | [] => none
  | a :: l => some (l.foldl (fun b c => if f c < f b then c else b) a)

/-- `r_sp_idx`, render/scripts/profile.py 188-206; `lim` is `lderiv_lim`. `none` is an exception (an array that is too
short). The same text with other names is render/scripts/plot_profile.py 113-123 and
render/scripts/plot_savgol_profile.py 101-111. -/
def rSpIdx (lim : ℚ) (n : Nat) (rhos ld : List ℚ) : Option Int :=
  let idxs := (argrelmin ld).filter fun (i : Nat) => i ≠ 0 ∧ (i : Int) ≠ (n : Int) - 1
  if idxs = [] then some (-1)
  else if idxs.any (fun i => decide (rhos.length ≤ i)) then none
  else
    let idxs := idxs.filter fun i => (currMin rhos).getD i false
    if idxs = [] then some (-1)
    else
      let idxs := idxs.filter fun i => decide (ld.getD i 0 < lim)
      if idxs = [] then some (-1)
      else (argmin (fun i => ld.getD i 0) idxs).map Nat.cast

/-- `r_sp`, render/scripts/profile.py 175-186: the saved index of an earlier call (`_r_sp_idxs[i]`) is used again. Returns the
radius, if there is one, and the index saved. -/
def rSp (lim : ℚ) (rs rhos ld : List ℚ) (saved : Option Int) : Option (Option ℚ × Option Int) :=
  match (match saved with
    | some k => some k
    | none => rSpIdx lim rs.length rhos ld) with
  | none => none
  | some k => if k = -1 then some (none, some k) else (rs[k.toNat]?).map fun r => (some r, some k)

end Verif.Py
