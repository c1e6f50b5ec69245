import Verif.Geom.Deriv

/-!
# Curl, divergence and gradient: options (C44) and values (C91)
-/

set_option autoImplicit false

namespace Verif.Geom

open Verif.Go

/-! ## Histories of calls -/

/-- Contents of all options records; record 0 is the global default, which is also what nil stands for.
render/geom/deriv.go 13-20. -/
abbrev Heap := ℕ → DerivOptions

/-- The heap before any call: the caller's records are arbitrary. render/geom/deriv.go 20. -/
def initialHeap (records : ℕ → DerivOptions) : Heap := fun p => if p = 0 then derivOptionsDefault else records p

/-- A call of one of the operators, with the record `ptr` as options (0: nil). render/geom/deriv.go 322-366. -/
inductive Call where
  | deriv (g : GridLocation) (vals out : List ℚ) (axis : ℤ) (ptr : ℕ)
  | curl (g : GridLocation) (vecs out : Fin 3 → List ℚ) (ptr : ℕ)
  | divergence (g : GridLocation) (vecs : Fin 3 → List ℚ) (out : List ℚ) (ptr : ℕ)
  | gradient (g : GridLocation) (vals : List ℚ) (out : Fin 3 → List ℚ) (ptr : ℕ)

/-- The options argument seen by an operator. The argument `op` of render/geom/deriv.go 322-366. -/
def argOf (h : Heap) (ptr : ℕ) : Option DerivOptions := if ptr = 0 then none else some (h ptr)

/-- Heap after an operator returned. The writes through `op` of render/geom/deriv.go 327-356. -/
def heapAfter {α : Type} (h : Heap) (ptr : ℕ) (r : OpResult α) : Heap :=
  fun p => if p = 0 then r.dflt else if p = ptr then r.caller.getD (h p) else h p

/-- Run one call: its outputs and the heap afterwards (`none`: the process stops). render/geom/deriv.go 322-366. -/
def Call.run (h : Heap) : Call → Option (List (List ℚ) × Heap)
  | .deriv g vals out axis ptr => do
    let o ← g.deriv vals out axis (h ptr)
    some ([o], h)
  | .curl g vecs out ptr => do
    let r ← g.curl vecs out (argOf h ptr) (h 0)
    some ([r.out 0, r.out 1, r.out 2], heapAfter h ptr r)
  | .divergence g vecs out ptr => do
    let r ← g.divergence vecs out (argOf h ptr) (h 0)
    some ([r.out], heapAfter h ptr r)
  | .gradient g vals out ptr => do
    let r ← g.gradient vals out (argOf h ptr) (h 0)
    some ([r.out 0, r.out 1, r.out 2], heapAfter h ptr r)

/-- Run a history of calls. Calls of render/geom/deriv.go 322-366 one after the other. -/
def runCalls : Heap → List Call → Option Heap
  | h, [] => some h
  | h, c :: cs => do
    let r ← c.run h
    runCalls r.2 cs

/-- The options record of a call. -/
def Call.ptr : Call → ℕ
  | .deriv _ _ _ _ p | .curl _ _ _ p | .divergence _ _ _ p | .gradient _ _ _ p => p

/-- The call is a `Curl` or `Divergence` using record `p`. -/
def Call.Touches (p : ℕ) : Call → Prop
  | .curl _ _ _ q | .divergence _ _ _ q => q = p
  | _ => False

theorem heapAfter_store {α : Type} (h : Heap) (ptr : ℕ) (o : DerivOptions) (out : α) (p : ℕ) :
    heapAfter h ptr (storeOpts (argOf h ptr) (h 0) o out) p = if p = ptr then o else h p := by
  unfold heapAfter argOf storeOpts
  by_cases hp : ptr = 0
  · subst hp
    by_cases h0 : p = 0
    · simp [h0]
    · simp [h0]
  · by_cases h0 : p = 0
    · subst h0; simp [hp, Ne.symm hp]
    · simp [hp, h0]

theorem workOpts_arg (h : Heap) (ptr : ℕ) : workOpts (argOf h ptr) (h 0) = h ptr := by
  unfold workOpts argOf
  by_cases hp : ptr = 0 <;> simp [hp]

/-- Only the record a `Curl` or `Divergence` was given (the global default for nil) is changed. -/
theorem run_heap {h h' : Heap} {c : Call} {os : List (List ℚ)} (e : c.run h = some (os, h')) {p : ℕ}
    (hp : ¬ c.Touches p) : h' p = h p := by
  cases c with
  | deriv g vals out axis ptr =>
    obtain ⟨o, -, e⟩ := Option.bind_eq_some_iff.mp e
    cases e; rfl
  | curl g vecs out ptr =>
    obtain ⟨r, er, e⟩ := Option.bind_eq_some_iff.mp e
    cases e
    unfold GridLocation.curl at er
    obtain ⟨a, -, er⟩ := Option.bind_eq_some_iff.mp er
    obtain ⟨a, -, er⟩ := Option.bind_eq_some_iff.mp er
    obtain ⟨a, -, er⟩ := Option.bind_eq_some_iff.mp er
    obtain ⟨a, -, er⟩ := Option.bind_eq_some_iff.mp er
    obtain ⟨a, -, er⟩ := Option.bind_eq_some_iff.mp er
    obtain ⟨a, -, er⟩ := Option.bind_eq_some_iff.mp er
    cases er
    rw [heapAfter_store, if_neg]
    exact fun t => hp t.symm
  | divergence g vecs out ptr =>
    obtain ⟨r, er, e⟩ := Option.bind_eq_some_iff.mp e
    cases e
    unfold GridLocation.divergence at er
    obtain ⟨a, -, er⟩ := Option.bind_eq_some_iff.mp er
    obtain ⟨a, -, er⟩ := Option.bind_eq_some_iff.mp er
    obtain ⟨a, -, er⟩ := Option.bind_eq_some_iff.mp er
    cases er
    rw [heapAfter_store, if_neg]
    exact fun t => hp t.symm
  | gradient g vals out ptr =>
    obtain ⟨r, er, e⟩ := Option.bind_eq_some_iff.mp e
    cases e
    unfold GridLocation.gradient at er
    obtain ⟨a, -, er⟩ := Option.bind_eq_some_iff.mp er
    obtain ⟨a, -, er⟩ := Option.bind_eq_some_iff.mp er
    obtain ⟨a, -, er⟩ := Option.bind_eq_some_iff.mp er
    cases er
    rw [heapAfter_store, workOpts_arg]
    split
    · next t => rw [t]
    · rfl

theorem runCalls_heap {h h' : Heap} {cs : List Call} (e : runCalls h cs = some h') {p : ℕ}
    (hp : ∀ c ∈ cs, ¬ c.Touches p) : h' p = h p := by
  induction cs generalizing h with
  | nil => cases e; rfl
  | cons c cs ih =>
    obtain ⟨r, er, e⟩ := Option.bind_eq_some_iff.mp e
    rw [ih e (fun d hd => hp d (by simp [hd])), run_heap (os := r.1) (h' := r.2) er (hp c (by simp))]

/-- The outputs of a call depend on the heap only through its own record. -/
theorem run_out (c : Call) {h h' : Heap} (e : h c.ptr = h' c.ptr) :
    (c.run h).map Prod.fst = (c.run h').map Prod.fst := by
  cases c with
  | deriv g vals out axis ptr =>
    simp only [Call.ptr] at e
    simp only [Call.run, e]
    cases g.deriv vals out axis (h' ptr) <;> rfl
  | curl g vecs out ptr =>
    simp only [Call.ptr] at e
    have key : ∀ h : Heap, (Call.run h (.curl g vecs out ptr)).map Prod.fst =
        (g.curl vecs out (some (h ptr)) (h ptr)).map (fun r => [r.out 0, r.out 1, r.out 2]) := by
      intro h
      simp only [Call.run, GridLocation.curl, workOpts_arg]
      have : workOpts (some (h ptr)) (h ptr) = h ptr := rfl
      rw [this]
      cases g.deriv (vecs 2) (out 0) 1 (h ptr) <;> [rfl; skip]
      cases g.deriv (vecs 0) (out 1) 2 (h ptr) <;> [rfl; skip]
      cases g.deriv (vecs 1) (out 2) 0 (h ptr) <;> [rfl; skip]
      simp only [Option.bind_eq_bind, Option.bind_some]
      cases g.deriv (vecs 1) _ 2 { h ptr with op := .subtract } <;> [rfl; skip]
      simp only [Option.bind_some]
      cases g.deriv (vecs 2) _ 0 { h ptr with op := .subtract } <;> [rfl; skip]
      simp only [Option.bind_some]
      cases g.deriv (vecs 0) _ 1 { h ptr with op := .subtract } <;> [rfl; skip]
      simp only [Option.bind_some, Option.map_some]
      unfold storeOpts
      cases argOf h ptr <;> rfl
    rw [key, key, e]
  | divergence g vecs out ptr =>
    simp only [Call.ptr] at e
    have key : ∀ h : Heap, (Call.run h (.divergence g vecs out ptr)).map Prod.fst =
        (g.divergence vecs out (some (h ptr)) (h ptr)).map (fun r => [r.out]) := by
      intro h
      simp only [Call.run, GridLocation.divergence, workOpts_arg]
      have : workOpts (some (h ptr)) (h ptr) = h ptr := rfl
      rw [this]
      cases g.deriv (vecs 0) out 0 (h ptr) <;> [rfl; skip]
      simp only [Option.bind_eq_bind, Option.bind_some]
      cases g.deriv (vecs 1) _ 1 { h ptr with op := .add } <;> [rfl; skip]
      simp only [Option.bind_some]
      cases g.deriv (vecs 2) _ 2 { h ptr with op := .add } <;> [rfl; skip]
      simp only [Option.bind_some, Option.map_some]
      unfold storeOpts
      cases argOf h ptr <;> rfl
    rw [key, key, e]
  | gradient g vals out ptr =>
    simp only [Call.ptr] at e
    have key : ∀ h : Heap, (Call.run h (.gradient g vals out ptr)).map Prod.fst =
        (g.gradient vals out (some (h ptr)) (h ptr)).map (fun r => [r.out 0, r.out 1, r.out 2]) := by
      intro h
      simp only [Call.run, GridLocation.gradient, workOpts_arg]
      have : workOpts (some (h ptr)) (h ptr) = h ptr := rfl
      rw [this]
      cases g.deriv vals (out 0) 0 (h ptr) <;> [rfl; skip]
      cases g.deriv vals (out 1) 1 (h ptr) <;> [rfl; skip]
      cases g.deriv vals (out 2) 2 (h ptr) <;> [rfl; skip]
      simp only [Option.bind_eq_bind, Option.bind_some, Option.map_some]
      unfold storeOpts
      cases argOf h ptr <;> rfl
    rw [key, key, e]

/-! ## C44 -/

/-- A call gives the same result whatever calls came before, provided none of them was a `Curl` or `Divergence`
with the same options record (nil counts as the global record). Missing: the excluded histories, for which the
property is false. -/
theorem C44_history_partial (h h' : Heap) (cs : List Call) (e : runCalls h cs = some h') (c : Call)
    (hc : ∀ d ∈ cs, ¬ d.Touches c.ptr) : (c.run h').map Prod.fst = (c.run h).map Prod.fst :=
  run_out c (runCalls_heap e hc)

/-- A grid of 5 cells along each axis. -/
def grid5 : GridLocation := newGridLocation ![0, 0, 0] ![5, 5, 5] 5 5

/-- `Divergence` of the zero field into an output full of ones, options nil. -/
def divZero : Call := .divergence grid5 (fun _ => List.replicate 125 0) (List.replicate 125 1) 0

/-- The same nil call twice: first it overwrites the output with the divergence, zero; the second time it adds
to the old contents, because the first call has changed the global default. -/
theorem C44_counterexample (records : ℕ → DerivOptions) :
    ∃ h', divZero.run (initialHeap records) = some ([List.replicate 125 0], h') ∧
      (divZero.run h').map Prod.fst = some [List.replicate 125 1] := by
  have k1 : ∃ r, grid5.divergence (fun _ => List.replicate 125 0) (List.replicate 125 1) none
      derivOptionsDefault = some r ∧ r.out = List.replicate 125 0 ∧ r.dflt = ⟨false, .add, 4⟩ := by
    have : ((grid5.divergence (fun _ => List.replicate 125 0) (List.replicate 125 1) none
      derivOptionsDefault).map fun r => (r.out, r.dflt)) = some (List.replicate 125 0, ⟨false, .add, 4⟩) := by
      decide +kernel
    obtain ⟨r, er, e⟩ := Option.map_eq_some_iff.mp this
    simp only [Prod.mk.injEq] at e
    exact ⟨r, er, e.1, e.2⟩
  have k2 : ((grid5.divergence (fun _ => List.replicate 125 0) (List.replicate 125 1) none
      ⟨false, .add, 4⟩).map fun r => [r.out]) = some [List.replicate 125 1] := by
    decide +kernel
  obtain ⟨r, er, e1, e2⟩ := k1
  refine ⟨heapAfter (initialHeap records) 0 r, ?_, ?_⟩
  · refine bind_of (a := r) er ?_
    rw [e1]
  · have e3 : heapAfter (initialHeap records) 0 r 0 = ⟨false, .add, 4⟩ := by simp [heapAfter, e2]
    show (Call.run _ (.divergence _ _ _ _)).map Prod.fst = _
    simp only [Call.run, e3]
    rw [show argOf (heapAfter (initialHeap records) 0 r) 0 = none from rfl]
    obtain ⟨r', er', e4⟩ := Option.map_eq_some_iff.mp k2
    rw [er']
    simp only [Option.bind_eq_bind, Option.bind_some, Option.map_some]
    rw [e4]

example : ¬ divZero.Touches 3 := by simp [divZero, Call.Touches]

/-! ## C91: values of the operators -/

/-- Any slice of the right length holds some field. -/
theorem exists_field {w : IVec} {xs : List ℚ} (h : (xs.length : ℤ) = w 0 * w 1 * w 2) :
    ∃ F, HoldsField w xs F := by
  refine ⟨fun x y z => (rd xs (x + w 0 * (y + w 1 * z))).getD 0, h, fun x y z hc => ?_⟩
  have hr := cell_range hc
  obtain ⟨v, hv⟩ := rd_isSome hr.1 (by rw [h]; exact hr.2)
  beta_reduce
  rw [hv]; rfl

/-- The options are usable on all three axes. -/
def Usable (g : GridLocation) (opt : DerivOptions) : Prop :=
  (opt.order = 2 ∨ opt.order = 4) ∧ ∀ axis, 0 ≤ axis → axis ≤ 2 → WideEnough g axis opt

theorem derivAt_op (g : GridLocation) (axis : ℤ) (opt : DerivOptions) (op : DerivOp) (V : ℤ → ℤ → ℤ → ℚ) (x y z : ℤ) :
    derivAt g axis { opt with op := op } V x y z = derivAt g axis opt V x y z := rfl

/-- See `C91_divergence_partial`; in any arithmetic. -/
theorem divergence_value (A : DArith) (o w : IVec) (boxWidth : ℚ) (cells : ℤ) (hw : ∀ i, 0 < w i)
    (op : Option DerivOptions) (dflt : DerivOptions)
    (hu : Usable (newGridLocation o w boxWidth cells) (op.getD dflt)) (hop : (op.getD dflt).op = .none)
    (vecs : Fin 3 → List ℚ) (V : Fin 3 → ℤ → ℤ → ℤ → ℚ) (hv : ∀ i, HoldsField w (vecs i) (V i))
    (out : List ℚ) (hl : (out.length : ℤ) = w 0 * w 1 * w 2) (r : OpResult (List ℚ))
    (e : (newGridLocation o w boxWidth cells).divergence vecs out op dflt A = some r)
    (x y z : ℤ) (hc : IsCell w x y z) (hz1 : (op.getD dflt).order / 2 ≤ z)
    (hz2 : z < w 2 - (op.getD dflt).order / 2) :
    rd r.out (x + w 0 * (y + w 1 * z)) = some (A.add (A.add
      (stencilAt A (newGridLocation o w boxWidth cells) 0 (op.getD dflt) (V 0) x y z)
      (stencilAt A (newGridLocation o w boxWidth cells) 1 (op.getD dflt) (V 1) x y z))
      (stencilAt A (newGridLocation o w boxWidth cells) 2 (op.getD dflt) (V 2) x y z)) := by
  set opt := op.getD dflt with hopt
  obtain ⟨F, hF⟩ := exists_field hl
  unfold GridLocation.divergence at e
  have hwo : workOpts op dflt = opt := rfl
  dsimp only at e
  rw [hwo] at e
  obtain ⟨o0, e0, h0⟩ := deriv_value A o w boxWidth cells 0 (Or.inl rfl) opt hu.1 (hu.2 0 (by norm_num) (by norm_num))
    (vecs 0) out (V 0) F (hv 0) hF
  rw [e0] at e
  obtain ⟨o1, e1, h1⟩ := deriv_value A o w boxWidth cells 1 (Or.inr rfl) { opt with op := .add } hu.1
    (hu.2 1 (by norm_num) (by norm_num)) (vecs 1) o0 (V 1) _ (hv 1) h0
  replace e := (Option.bind_some _ _).symm.trans e
  simp only [Option.bind_eq_bind] at e
  rw [e1] at e
  simp only [Option.bind_some] at e
  obtain ⟨o2, e2, e⟩ := Option.bind_eq_some_iff.mp e
  have h2 := deriv_value3 A o w boxWidth cells { opt with op := .add } (hu.2 2 (by norm_num) (by norm_num))
    (hw 0).le (hw 1).le (vecs 2) o1 o2 (V 2) _ (hv 2) h1 e2
  have hr : r.out = o2 := by
    cases e
    unfold storeOpts
    cases op <;> rfl
  rw [hr, h2.2 x y z hc hz1 hz2, hop]
  rfl

/-- `Divergence` with overwriting options: away from the faces of the third axis every cell gets the sum of
the three axis derivatives. The full property is missing those faces, where the third derivative is wrong. -/
theorem C91_divergence_partial (o w : IVec) (boxWidth : ℚ) (cells : ℤ) (hw : ∀ i, 0 < w i)
    (op : Option DerivOptions) (dflt : DerivOptions)
    (hu : Usable (newGridLocation o w boxWidth cells) (op.getD dflt)) (hop : (op.getD dflt).op = .none)
    (vecs : Fin 3 → List ℚ) (V : Fin 3 → ℤ → ℤ → ℤ → ℚ) (hv : ∀ i, HoldsField w (vecs i) (V i))
    (out : List ℚ) (hl : (out.length : ℤ) = w 0 * w 1 * w 2) (r : OpResult (List ℚ))
    (e : (newGridLocation o w boxWidth cells).divergence vecs out op dflt = some r)
    (x y z : ℤ) (hc : IsCell w x y z) (hz1 : (op.getD dflt).order / 2 ≤ z)
    (hz2 : z < w 2 - (op.getD dflt).order / 2) :
    rd r.out (x + w 0 * (y + w 1 * z)) = some (
      derivAt (newGridLocation o w boxWidth cells) 0 (op.getD dflt) (V 0) x y z +
      derivAt (newGridLocation o w boxWidth cells) 1 (op.getD dflt) (V 1) x y z +
      derivAt (newGridLocation o w boxWidth cells) 2 (op.getD dflt) (V 2) x y z) := by
  have h := divergence_value exactD o w boxWidth cells hw op dflt hu hop vecs V hv out hl r e x y z hc hz1 hz2
  rw [stencilAt_exact (by omega) hu.1 (hu.2 0 (by norm_num) (by norm_num)) _ hc,
    stencilAt_exact (by omega) hu.1 (hu.2 1 (by norm_num) (by norm_num)) _ hc,
    stencilAt_exact (by omega) hu.1 (hu.2 2 (by norm_num) (by norm_num)) _ hc] at h
  exact h

/-- See `C91_curl_partial`; in any arithmetic. -/
theorem curl_value (A : DArith) (o w : IVec) (boxWidth : ℚ) (cells : ℤ) (hw : ∀ i, 0 < w i)
    (op : Option DerivOptions) (dflt : DerivOptions)
    (hu : Usable (newGridLocation o w boxWidth cells) (op.getD dflt)) (hop : (op.getD dflt).op = .none)
    (vecs : Fin 3 → List ℚ) (V : Fin 3 → ℤ → ℤ → ℤ → ℚ) (hv : ∀ i, HoldsField w (vecs i) (V i))
    (out : Fin 3 → List ℚ) (hl : ∀ i, ((out i).length : ℤ) = w 0 * w 1 * w 2) (r : OpResult (Fin 3 → List ℚ))
    (e : (newGridLocation o w boxWidth cells).curl vecs out op dflt A = some r)
    (x y z : ℤ) (hc : IsCell w x y z) (hz1 : (op.getD dflt).order / 2 ≤ z)
    (hz2 : z < w 2 - (op.getD dflt).order / 2) :
    rd (r.out 0) (x + w 0 * (y + w 1 * z)) = some (A.sub
      (stencilAt A (newGridLocation o w boxWidth cells) 1 (op.getD dflt) (V 2) x y z)
      (stencilAt A (newGridLocation o w boxWidth cells) 2 (op.getD dflt) (V 1) x y z)) ∧
    rd (r.out 1) (x + w 0 * (y + w 1 * z)) = some (A.sub
      (stencilAt A (newGridLocation o w boxWidth cells) 2 (op.getD dflt) (V 0) x y z)
      (stencilAt A (newGridLocation o w boxWidth cells) 0 (op.getD dflt) (V 2) x y z)) ∧
    rd (r.out 2) (x + w 0 * (y + w 1 * z)) = some (A.sub
      (stencilAt A (newGridLocation o w boxWidth cells) 0 (op.getD dflt) (V 1) x y z)
      (stencilAt A (newGridLocation o w boxWidth cells) 1 (op.getD dflt) (V 0) x y z)) := by
  set opt := op.getD dflt with hopt
  unfold GridLocation.curl at e
  have hwo : workOpts op dflt = opt := rfl
  dsimp only at e
  rw [hwo] at e
  obtain ⟨a0, ea0, e⟩ := Option.bind_eq_some_iff.mp e
  obtain ⟨a1, ea1, e⟩ := Option.bind_eq_some_iff.mp e
  obtain ⟨a2, ea2, e⟩ := Option.bind_eq_some_iff.mp e
  obtain ⟨b0, eb0, e⟩ := Option.bind_eq_some_iff.mp e
  obtain ⟨b1, eb1, e⟩ := Option.bind_eq_some_iff.mp e
  obtain ⟨b2, eb2, e⟩ := Option.bind_eq_some_iff.mp e
  have hr : r.out = ![b0, b1, b2] := by
    cases e
    unfold storeOpts
    cases op <;> rfl
  obtain ⟨F0, hF0⟩ := exists_field (hl 0)
  obtain ⟨F1, hF1⟩ := exists_field (hl 1)
  obtain ⟨F2, hF2⟩ := exists_field (hl 2)
  have w0 := hu.2 0 (by norm_num) (by norm_num)
  have w1 := hu.2 1 (by norm_num) (by norm_num)
  have w2 := hu.2 2 (by norm_num) (by norm_num)
  refine ⟨?_, ?_, ?_⟩
  · obtain ⟨s, es, hs⟩ := deriv_value A o w boxWidth cells 1 (Or.inr rfl) opt hu.1 w1 (vecs 2) (out 0) (V 2) F0
      (hv 2) hF0
    rw [ea0] at es
    cases es
    have h2 := deriv_value3 A o w boxWidth cells { opt with op := .subtract } w2
      (hw 0).le (hw 1).le (vecs 1) a0 b0 (V 1) _ (hv 1) hs eb0
    rw [hr]
    show rd b0 _ = _
    rw [h2.2 x y z hc hz1 hz2, hop]
    rfl
  · have h2 := deriv_value3 A o w boxWidth cells opt w2
      (hw 0).le (hw 1).le (vecs 0) (out 1) a1 (V 0) _ (hv 0) hF1 ea1
    obtain ⟨G, hG⟩ := exists_field h2.1
    obtain ⟨s, es, hs⟩ := deriv_value A o w boxWidth cells 0 (Or.inl rfl) { opt with op := .subtract } hu.1 w0
      (vecs 2) a1 (V 2) G (hv 2) hG
    rw [eb1] at es
    cases es
    have hGv : G x y z = stencilAt A (newGridLocation o w boxWidth cells) 2 opt (V 0) x y z := by
      have h3 := h2.2 x y z hc hz1 hz2
      rw [hG.2 x y z hc, hop] at h3
      exact Option.some.inj h3
    rw [hr]
    show rd b1 _ = _
    rw [hs.2 x y z hc]
    beta_reduce
    rw [hGv]
    rfl
  · obtain ⟨s, es, hs⟩ := deriv_value A o w boxWidth cells 0 (Or.inl rfl) opt hu.1 w0 (vecs 1) (out 2) (V 1) F2
      (hv 1) hF2
    rw [ea2] at es
    cases es
    obtain ⟨t, et, ht⟩ := deriv_value A o w boxWidth cells 1 (Or.inr rfl) { opt with op := .subtract } hu.1 w1
      (vecs 0) a2 (V 0) _ (hv 0) hs
    rw [eb2] at et
    cases et
    rw [hr]
    show rd b2 _ = _
    rw [ht.2 x y z hc, hop]
    rfl

/-- `Curl` with overwriting options: away from the faces of the third axis every cell gets the curl built from
the axis derivatives. The full property is missing those faces. -/
theorem C91_curl_partial (o w : IVec) (boxWidth : ℚ) (cells : ℤ) (hw : ∀ i, 0 < w i)
    (op : Option DerivOptions) (dflt : DerivOptions)
    (hu : Usable (newGridLocation o w boxWidth cells) (op.getD dflt)) (hop : (op.getD dflt).op = .none)
    (vecs : Fin 3 → List ℚ) (V : Fin 3 → ℤ → ℤ → ℤ → ℚ) (hv : ∀ i, HoldsField w (vecs i) (V i))
    (out : Fin 3 → List ℚ) (hl : ∀ i, ((out i).length : ℤ) = w 0 * w 1 * w 2) (r : OpResult (Fin 3 → List ℚ))
    (e : (newGridLocation o w boxWidth cells).curl vecs out op dflt = some r)
    (x y z : ℤ) (hc : IsCell w x y z) (hz1 : (op.getD dflt).order / 2 ≤ z)
    (hz2 : z < w 2 - (op.getD dflt).order / 2) :
    rd (r.out 0) (x + w 0 * (y + w 1 * z)) = some (
      derivAt (newGridLocation o w boxWidth cells) 1 (op.getD dflt) (V 2) x y z -
      derivAt (newGridLocation o w boxWidth cells) 2 (op.getD dflt) (V 1) x y z) ∧
    rd (r.out 1) (x + w 0 * (y + w 1 * z)) = some (
      derivAt (newGridLocation o w boxWidth cells) 2 (op.getD dflt) (V 0) x y z -
      derivAt (newGridLocation o w boxWidth cells) 0 (op.getD dflt) (V 2) x y z) ∧
    rd (r.out 2) (x + w 0 * (y + w 1 * z)) = some (
      derivAt (newGridLocation o w boxWidth cells) 0 (op.getD dflt) (V 1) x y z -
      derivAt (newGridLocation o w boxWidth cells) 1 (op.getD dflt) (V 0) x y z) := by
  have D0 := fun V => stencilAt_exact (axis := 0) (by omega) hu.1 (hu.2 0 (by norm_num) (by norm_num)) V hc
  have D1 := fun V => stencilAt_exact (axis := 1) (by omega) hu.1 (hu.2 1 (by norm_num) (by norm_num)) V hc
  have D2 := fun V => stencilAt_exact (axis := 2) (by omega) hu.1 (hu.2 2 (by norm_num) (by norm_num)) V hc
  have h := curl_value exactD o w boxWidth cells hw op dflt hu hop vecs V hv out hl r e x y z hc hz1 hz2
  simp only [D0, D1, D2] at h
  exact h

/-- See `C91_gradient_partial`; in any arithmetic. -/
theorem gradient_value (A : DArith) (o w : IVec) (boxWidth : ℚ) (cells : ℤ) (hw : ∀ i, 0 < w i)
    (op : Option DerivOptions) (dflt : DerivOptions)
    (hu : Usable (newGridLocation o w boxWidth cells) (op.getD dflt)) (hop : (op.getD dflt).op = .none)
    (vals : List ℚ) (V : ℤ → ℤ → ℤ → ℚ) (hv : HoldsField w vals V)
    (out : Fin 3 → List ℚ) (hl : ∀ i, ((out i).length : ℤ) = w 0 * w 1 * w 2) (r : OpResult (Fin 3 → List ℚ))
    (e : (newGridLocation o w boxWidth cells).gradient vals out op dflt A = some r)
    (x y z : ℤ) (hc : IsCell w x y z) :
    rd (r.out 0) (x + w 0 * (y + w 1 * z)) =
      some (stencilAt A (newGridLocation o w boxWidth cells) 0 (op.getD dflt) V x y z) ∧
    rd (r.out 1) (x + w 0 * (y + w 1 * z)) =
      some (stencilAt A (newGridLocation o w boxWidth cells) 1 (op.getD dflt) V x y z) ∧
    ((op.getD dflt).order / 2 ≤ z → z < w 2 - (op.getD dflt).order / 2 →
      rd (r.out 2) (x + w 0 * (y + w 1 * z)) =
        some (stencilAt A (newGridLocation o w boxWidth cells) 2 (op.getD dflt) V x y z)) := by
  set opt := op.getD dflt with hopt
  unfold GridLocation.gradient at e
  have hwo : workOpts op dflt = opt := rfl
  dsimp only at e
  rw [hwo] at e
  obtain ⟨a0, ea0, e⟩ := Option.bind_eq_some_iff.mp e
  obtain ⟨a1, ea1, e⟩ := Option.bind_eq_some_iff.mp e
  obtain ⟨a2, ea2, e⟩ := Option.bind_eq_some_iff.mp e
  have hr : r.out = ![a0, a1, a2] := by
    cases e
    unfold storeOpts
    cases op <;> rfl
  obtain ⟨F0, hF0⟩ := exists_field (hl 0)
  obtain ⟨F1, hF1⟩ := exists_field (hl 1)
  obtain ⟨F2, hF2⟩ := exists_field (hl 2)
  refine ⟨?_, ?_, ?_⟩
  · obtain ⟨s, es, hs⟩ := deriv_value A o w boxWidth cells 0 (Or.inl rfl) opt hu.1
      (hu.2 0 (by norm_num) (by norm_num)) vals (out 0) V F0 hv hF0
    rw [ea0] at es
    cases es
    rw [hr]
    show rd a0 _ = _
    rw [hs.2 x y z hc, hop]
    rfl
  · obtain ⟨s, es, hs⟩ := deriv_value A o w boxWidth cells 1 (Or.inr rfl) opt hu.1
      (hu.2 1 (by norm_num) (by norm_num)) vals (out 1) V F1 hv hF1
    rw [ea1] at es
    cases es
    rw [hr]
    show rd a1 _ = _
    rw [hs.2 x y z hc, hop]
    rfl
  · intro hz1 hz2
    have h2 := deriv_value3 A o w boxWidth cells opt (hu.2 2 (by norm_num) (by norm_num))
      (hw 0).le (hw 1).le vals (out 2) a2 V _ hv hF2 ea2
    rw [hr]
    show rd a2 _ = _
    rw [h2.2 x y z hc hz1 hz2, hop]
    rfl

/-- `Gradient` with overwriting options: every component is the axis derivative, the third one away from its
faces. -/
theorem C91_gradient_partial (o w : IVec) (boxWidth : ℚ) (cells : ℤ) (hw : ∀ i, 0 < w i)
    (op : Option DerivOptions) (dflt : DerivOptions)
    (hu : Usable (newGridLocation o w boxWidth cells) (op.getD dflt)) (hop : (op.getD dflt).op = .none)
    (vals : List ℚ) (V : ℤ → ℤ → ℤ → ℚ) (hv : HoldsField w vals V)
    (out : Fin 3 → List ℚ) (hl : ∀ i, ((out i).length : ℤ) = w 0 * w 1 * w 2) (r : OpResult (Fin 3 → List ℚ))
    (e : (newGridLocation o w boxWidth cells).gradient vals out op dflt = some r)
    (x y z : ℤ) (hc : IsCell w x y z) :
    rd (r.out 0) (x + w 0 * (y + w 1 * z)) =
      some (derivAt (newGridLocation o w boxWidth cells) 0 (op.getD dflt) V x y z) ∧
    rd (r.out 1) (x + w 0 * (y + w 1 * z)) =
      some (derivAt (newGridLocation o w boxWidth cells) 1 (op.getD dflt) V x y z) ∧
    ((op.getD dflt).order / 2 ≤ z → z < w 2 - (op.getD dflt).order / 2 →
      rd (r.out 2) (x + w 0 * (y + w 1 * z)) =
        some (derivAt (newGridLocation o w boxWidth cells) 2 (op.getD dflt) V x y z)) := by
  obtain ⟨h0, h1, h2⟩ := gradient_value exactD o w boxWidth cells hw op dflt hu hop vals V hv out hl r e x y z hc
  rw [stencilAt_exact (by omega) hu.1 (hu.2 0 (by norm_num) (by norm_num)) _ hc] at h0
  rw [stencilAt_exact (by omega) hu.1 (hu.2 1 (by norm_num) (by norm_num)) _ hc] at h1
  rw [stencilAt_exact (by omega) hu.1 (hu.2 2 (by norm_num) (by norm_num)) _ hc] at h2
  exact ⟨h0, h1, h2⟩

/-- With options that subtract, `Divergence` is not what was asked for: subtracting the divergence of the field `(x, y, 0)` from zero
gives 0 instead of -2, because only the first term is subtracted. -/
theorem C91_subtract_counterexample :
    ∃ r, (newGridLocation ![0, 0, 0] ![3, 3, 3] 3 3).divergence
        ![fieldList ![3, 3, 3] fun x _ _ => x, fieldList ![3, 3, 3] fun _ y _ => y, fieldList ![3, 3, 3] fun _ _ _ => 0]
        (fieldList ![3, 3, 3] fun _ _ _ => 0) (some ⟨false, .subtract, 2⟩) derivOptionsDefault = some r ∧
      rd r.out 13 = some 0 := by
  have : ((newGridLocation ![0, 0, 0] ![3, 3, 3] 3 3).divergence
        ![fieldList ![3, 3, 3] fun x _ _ => x, fieldList ![3, 3, 3] fun _ y _ => y, fieldList ![3, 3, 3] fun _ _ _ => 0]
        (fieldList ![3, 3, 3] fun _ _ _ => 0) (some ⟨false, .subtract, 2⟩) derivOptionsDefault).bind
        (fun r => rd r.out 13) = some 0 := by
    decide +kernel
  obtain ⟨r, er, e⟩ := Option.bind_eq_some_iff.mp this
  exact ⟨r, er, e⟩

example : Usable (newGridLocation ![0, 0, 0] ![5, 6, 7] 10 20) derivOptionsDefault := by
  refine ⟨Or.inr rfl, ?_⟩
  intro axis h0 h1
  rcases (by omega : axis = 0 ∨ axis = 1 ∨ axis = 2) with rfl | rfl | rfl <;>
    exact ⟨by decide, by decide, fun _ => by decide⟩

end Verif.Geom
