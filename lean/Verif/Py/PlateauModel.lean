import Verif.Py.RspModel

/-!
# Model of the plateau of a profile

`plateau` and `plateau_idxs` of `render/scripts/profile.py` for one segment. Lines 242 and 246 read a name `rhos` that is not a
variable of the function, and line 225 an attribute `_p_idxs` that is not set anywhere: both are parameters here, `none` if
there is no such name.
-/

set_option autoImplicit false

namespace Verif.Py.Plateau

open Verif.Py

/-- The names read by the functions: the global `rhos` and the attribute `_p_idxs`. render/scripts/profile.py 225, 242 and
246. -/
structure Names where
  rhos : Option (List ℚ)
  pIdxs : Option (Int × Int)

/-- The names there are in the module: neither. render/scripts/profile.py 1-16 and 119-152. -/
def Names.module : Names := ⟨none, none⟩

/-- The indices saved for one segment, `_r_sp_idxs[i]` and `_r_p_idxs[i]`, render/scripts/profile.py 151-152. -/
structure Saved where
  sp : Option Int
  p : Option (Int × Int)

/-- What is saved at first, render/scripts/profile.py 151-152. -/
def Saved.fresh : Saved := ⟨none, none⟩

/-- `xrange(sp_idx-1, -1, -1)` and the loop over it, render/scripts/profile.py 241-244; `k` is the number of turns left and
`e` the value of `p_end_idx` before. An index out of range is an exception. -/
def endLoop (rhos : Option (List ℚ)) (e : Nat) : Nat → Option Nat
  | 0 => some e
  | k + 1 => do
    let r ← rhos
    let a ← r[k + 1]?
    let b ← r[k]?
    if a > b then some (k + 1) else endLoop rhos e k

/-- The loop of lines 245-246 of render/scripts/profile.py, over `k, k + 1, ..., e` where `n = e - k`: the value of
`p_start_idx` after the loop. -/
def startLoop (rhos : Option (List ℚ)) (e : Nat) : Nat → Nat → Option Nat
  | n, k => do
    let r ← rhos
    let a ← r[k]?
    let b ← r[e]?
    if a < b then some k else
      match n with
      | 0 => some k
      | n + 1 => startLoop rhos e n (k + 1)

/-- Lines 240-249 of `plateau_idxs`, render/scripts/profile.py, for the index `sp` of the splashback radius. -/
def search (rhos : Option (List ℚ)) (sp : Nat) : Option (Int × Int) := do
  let e ← endLoop rhos sp sp
  let s ← startLoop rhos e e 0
  if s = e then some (-1, -1) else some (s, e)

/-- The index of the splashback radius, saved at the first call: `none` is an exception. render/scripts/profile.py 182-183
and 235-236. -/
def spSaved (lim : ℚ) (rs rhos ld : List ℚ) (s : Saved) : Option Int :=
  match s.sp with
  | some k => some k
  | none => rSpIdx lim rs.length rhos ld

/-- `r_sp` with what it saves, render/scripts/profile.py 175-186. The outer `none` is an exception, which leaves what was
saved as it was. -/
def rSpCall (lim : ℚ) (rs rhos ld : List ℚ) (s : Saved) : Option (Option ℚ) × Saved :=
  match spSaved lim rs rhos ld s with
  | none => (none, s)
  | some k => if k = -1 then (some none, { s with sp := some k }) else ((rs[k.toNat]?).map some, { s with sp := some k })

/-- `plateau_idxs`, render/scripts/profile.py 228-249, with what it saves. -/
def plateauIdxs (nm : Names) (lim : ℚ) (rs rhos ld : List ℚ) (s : Saved) : Option (Int × Int) × Saved :=
  match spSaved lim rs rhos ld s with
  | none => (none, s)
  | some k =>
    if k = -1 then (some (-1, -1), { s with sp := some k })
    else (search nm.rhos k.toNat, { s with sp := some k })

/-- Lines 223-226 of `plateau`, render/scripts/profile.py, where `p` is `_r_p_idxs[i]`. -/
def answer (nm : Names) (rs : List ℚ) (p : Int × Int) : Option (Option (ℚ × ℚ)) :=
  if p.1 = -1 then some none
  else do
    let (lo, hi) ← nm.pIdxs
    let a ← rs[lo.toNat]?
    let b ← rs[hi.toNat]?
    some (some (a, b))

/-- `plateau`, render/scripts/profile.py 213-226, with what it saves. The outer `none` is an exception, `some none` the
answer `(None, None)`. -/
def plateau (nm : Names) (lim : ℚ) (rs rhos ld : List ℚ) (s : Saved) : Option (Option (ℚ × ℚ)) × Saved :=
  match s.p with
  | some p => (answer nm rs p, s)
  | none =>
    match plateauIdxs nm lim rs rhos ld s with
    | (none, s') => (none, s')
    | (some p, s') => (answer nm rs p, { s' with p := some p })

/-- A call by a user on one segment. render/scripts/profile.py 175 and 213. -/
inductive Call
  | rsp
  | plateau

/-- What a call gives: the radius or the pair of radii. -/
inductive Ans
  | rsp (r : Option (Option ℚ))
  | plateau (p : Option (Option (ℚ × ℚ)))

/-- One call, render/scripts/profile.py 175-226. -/
def call (nm : Names) (lim : ℚ) (rs rhos ld : List ℚ) : Call → Saved → Ans × Saved
  | .rsp, s => ((.rsp (rSpCall lim rs rhos ld s).1), (rSpCall lim rs rhos ld s).2)
  | .plateau, s => ((.plateau (plateau nm lim rs rhos ld s).1), (plateau nm lim rs rhos ld s).2)

/-- Calls one after the other on one profile. -/
def calls (nm : Names) (lim : ℚ) (rs rhos ld : List ℚ) : List Call → Saved → List Ans
  | [], _ => []
  | c :: cs, s => (call nm lim rs rhos ld c s).1 :: calls nm lim rs rhos ld cs (call nm lim rs rhos ld c s).2

end Verif.Py.Plateau
