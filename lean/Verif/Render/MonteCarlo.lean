import Verif.Render.McModel
import Verif.Render.Workers
import Verif.Render.Accum
import Verif.Geom.Tetra

/-!
# Monte Carlo deposition of a segment: C94
-/

set_option autoImplicit false

namespace Verif.Render

open Verif.Go Verif.Geom

variable {M : Type}

/-! ## Specification -/

/-- Barycentric coordinates of a point of the unit tetrahedron. -/
def bary (p : Vec) : Fin 4 → ℚ := ![p 0, p 1, p 2, 1 - p 0 - p 1 - p 2]

/-- The point with the barycentric coordinates of `p` with respect to `c`. -/
def mix (c : Fin 4 → Vec) (p : Vec) : Vec := fun j => ∑ k, bary p k * c k j

/-- The points of the unit tetrahedron. -/
def UnitPoint (p : Vec) : Prop := 0 ≤ p 0 ∧ 0 ≤ p 1 ∧ 0 ≤ p 2 ∧ p 0 + p 1 + p 2 ≤ 1

/-- Entries of `xs` at the four corners of tetrahedron `d` of the cube `(x, y, z)`, in a segment of `segWidth + 1`
particles on a side with cubes of `skip` particles on a side. -/
def tetCorners (segWidth skip : ℤ) (xs : List Vec) (x y z : ℤ) (d : Fin 6) : Fin 4 → Vec := fun k =>
  xs.getD (particle (segWidth + 1) (fun i => skip * ((![x, y, z] : IVec) i + unitCorner d k i))).toNat 0

/-! ## Loops as lists of visits -/

theorem forRange_range {σ : Type} (n : ℤ) (body : ℤ → σ → Option σ) (s : σ) :
    forRange 0 n body s = (List.range n.toNat).foldlM (fun s (k : ℕ) => body (k : ℤ) s) s := by
  have key : ∀ (m : ℕ) s, forRange 0 (m : ℤ) body s = (List.range m).foldlM (fun s (k : ℕ) => body (k : ℤ) s) s := by
    intro m s
    induction m with
    | zero => exact forRange_empty (by simp) _ _
    | succ m ih =>
      rw [Nat.cast_succ, forRange_last (by omega), ih, List.range_succ, List.foldlM_append]
      change _ = Option.bind (List.foldlM _ s (List.range m)) _
      congr 1
      funext t
      simp
  by_cases h : 0 ≤ n
  · have := key n.toNat s
    rwa [Int.toNat_of_nonneg h] at this
  · rw [forRange_empty (by omega), Int.toNat_of_nonpos (by omega)]
    rfl

theorem foldlM_flatMap {α β σ : Type} (l : List α) (g : α → List β) (f : σ → β → Option σ) (s : σ) :
    (l.flatMap g).foldlM f s = l.foldlM (fun s a => (g a).foldlM f s) s := by
  induction l generalizing s with
  | nil => rfl
  | cons a l ih =>
    rw [List.flatMap_cons, List.foldlM_append, List.foldlM_cons]
    change (List.foldlM f s (g a)).bind _ = (List.foldlM f s (g a)).bind _
    congr 1
    funext t
    exact ih t

/-- The run of worker `id` is the visits of `workerVisits`, in that order. -/
theorem mcInterpolate_visits (mc : MC) (reqVel : Bool) (sub : List Vec → List Vec → List M → Option (List M))
    (pick : ℕ → ℤ) (xs vs : List Vec) (workers id : ℤ) (s : MCState M) :
    mcInterpolate mc reqVel sub pick xs vs id (segLen mc.segWidth mc.skip) workers s =
      (workerVisits mc.segWidth mc.skip workers id).foldlM (fun s v => mcVisit mc reqVel sub pick xs vs v s) s := by
  unfold mcInterpolate workerVisits
  rw [foldlM_flatMap]
  simp only
  unfold forStep
  rw [forRange_range]
  congr 1

/-! ## One visit -/

/-- What the code needs to be given. -/
structure MC.Ok (mc : MC) (pick : ℕ → ℤ) : Prop where
  seg : 0 ≤ mc.segWidth
  skip : 0 < mc.skip
  unit : ∀ u ∈ mc.unitBufs, (u.length : ℤ) = mc.points ∧ ∀ p ∈ u, UnitPoint p
  pick : ∀ n, 0 ≤ pick n ∧ pick n < mc.unitBufs.length
  arith : mc.arith = .exact

/-- Where the code puts the point `p` of the unit tetrahedron in the tetrahedron with corners `c`. -/
def Arith.place (A : Arith) (c : Fin 4 → Vec) (p : Vec) : Vec :=
  match A.distribute (newTetra (c 0) (c 1) (c 2) (c 3)) [p] [0] with
  | some (q :: _, _) => q
  | _ => 0

/-- What is needed of an arithmetic: points are treated one by one, only the corners of a new tetrahedron matter, and
nothing is rounded in `intFloor` of a positive number. -/
structure Arith.Laws (A : Arith) : Prop where
  spread : ∀ t : Tetra, t.baryValid = false → ∀ pts buf : List Vec, pts.length ≤ buf.length →
    ∃ out t', A.distribute t pts buf = some (out, t') ∧ t'.corners = t.corners ∧ out.length = buf.length ∧
      out.take pts.length = pts.map (A.place t.corners)
  bounds : ∀ s t : Tetra, s.corners = t.corners → A.cellBounds s = A.cellBounds t
  floor : ∀ x, 0 ≤ x → A.floor x = intFloor x

/-- What the code needs in any arithmetic. -/
structure MC.Runs (mc : MC) (pick : ℕ → ℤ) : Prop where
  seg : 0 ≤ mc.segWidth
  skip : 0 < mc.skip
  unit : ∀ u ∈ mc.unitBufs, (u.length : ℤ) = mc.points
  pick : ∀ n, 0 ≤ pick n ∧ pick n < mc.unitBufs.length
  laws : mc.arith.Laws

theorem mix_of_bary {c : Fin 4 → Vec} {p q : Vec} (h : IsBary c ![p 0, p 1, p 2, 1 - p 0 - p 1 - p 2] q) :
    q = mix c p := funext fun j => h.2 j

theorem mix_inSimplex {c : Fin 4 → Vec} {p : Vec} (h : UnitPoint p) : InSimplex c (mix c p) := by
  obtain ⟨h0, h1, h2, h3⟩ := h
  refine ⟨bary p, ⟨?_, fun _ => rfl⟩, ?_⟩
  · simp only [bary, Fin.sum_univ_four, Matrix.cons_val_zero, Matrix.cons_val_one, Matrix.cons_val]
    ring
  · intro k
    fin_cases k
    · exact h0
    · exact h1
    · exact h2
    · change 0 ≤ 1 - p 0 - p 1 - p 2
      linarith

/-- The corner indices of a visited tetrahedron. -/
theorem visit_idxs {segWidth skip x y z : ℤ} (hs : 0 < skip) (hc : IsCube (segWidth / skip) x y z) (d : Fin 6) :
    initIdxs (cubeVisit segWidth skip x y z (d.val : ℤ)).1 (segWidth + 1) skip (d.val : ℤ) =
      some (fun k => particle (segWidth + 1) (fun i => skip * ((![x, y, z] : IVec) i + unitCorner d k i))) ∧
    ∀ k, 0 ≤ particle (segWidth + 1) (fun i => skip * ((![x, y, z] : IVec) i + unitCorner d k i)) ∧
      particle (segWidth + 1) (fun i => skip * ((![x, y, z] : IVec) i + unitCorner d k i)) <
        (segWidth + 1) * (segWidth + 1) * (segWidth + 1) := by
  have h4 := Int.ediv_mul_le segWidth hs.ne'
  have key : ∀ a, 0 ≤ a → a < segWidth / skip → 0 ≤ skip * a ∧ skip * a + skip < segWidth + 1 := by
    intro a h0 h1
    have : (a + 1) * skip ≤ segWidth / skip * skip := mul_le_mul_of_nonneg_right (by omega) hs.le
    refine ⟨by positivity, ?_⟩
    have e : (a + 1) * skip = skip * a + skip := by ring
    omega
  have hb : ∀ i, 0 ≤ skip * (![x, y, z] : IVec) i ∧ skip * (![x, y, z] : IVec) i + skip < segWidth + 1 := by
    obtain ⟨⟨x0, x1⟩, ⟨y0, y1⟩, z0, z1⟩ := hc
    intro i
    fin_cases i
    · exact key x x0 x1
    · exact key y y0 y1
    · exact key z z0 z1
  have he : (cubeVisit segWidth skip x y z (d.val : ℤ)).1 =
      particle (segWidth + 1) (fun i => skip * (![x, y, z] : IVec) i) := by
    simp only [cubeVisit, particle, Matrix.cons_val_zero, Matrix.cons_val_one, Matrix.cons_val]
    ring
  have hd : ∀ k, (fun i => skip * (![x, y, z] : IVec) i + skip * unitCorner d k i) =
      fun i => skip * ((![x, y, z] : IVec) i + unitCorner d k i) := fun k => funext fun i => by ring
  constructor
  · rw [he, initIdxs_eq (fun i => by have := hb i; omega) d]
    simp only [hd]
  · intro k
    have := particle_range (corner_inLattice hs.le hb d k)
    simp only [hd] at this
    exact this

/-- Corners of the tetrahedron of a visit. render/density/interpolator.go 114-121. -/
def visitCorners (mc : MC) (xs : List Vec) (v : TetVisit) : Fin 4 → Vec :=
  match initIdxs v.1 (mc.segWidth + 1) mc.skip v.2 with
  | some idxs => fun k => xs.getD (idxs k).toNat 0
  | none => fun _ _ => 0

theorem visitCorners_eq (mc : MC) (xs : List Vec) {x y z : ℤ} (hs : 0 < mc.skip)
    (hc : IsCube (mc.segWidth / mc.skip) x y z) (d : Fin 6) :
    visitCorners mc xs (cubeVisit mc.segWidth mc.skip x y z (d.val : ℤ)) = tetCorners mc.segWidth mc.skip xs x y z d := by
  unfold visitCorners
  have e := (visit_idxs hs hc d).1
  rw [show (cubeVisit mc.segWidth mc.skip x y z (d.val : ℤ)).2 = (d.val : ℤ) from rfl, e]
  rfl

/-- The tetrahedra that are not skipped. render/density/interpolator.go 136-138. -/
def MC.drawnA (mc : MC) (c : Fin 4 → Vec) : Bool :=
  (mc.arith.cellBounds (newTetra (c 0) (c 1) (c 2) (c 3))).intersect mc.relCb mc.cells

/-- What happens to the sampled points before they are deposited. render/density/interpolator.go 147-153. -/
def MC.fixA (mc : MC) (c : Fin 4 → Vec) (p : Vec) : Vec :=
  if mc.neverMod then p
  else fun j => if coordNeg c j && decide (p j < 0) then mc.arith.shift mc.cells (p j) else p j

/-- The points deposited for a tetrahedron when the unit buffer `u` is drawn. render/density/interpolator.go 140-153.
-/
def MC.sampleA (mc : MC) (c : Fin 4 → Vec) (u : List Vec) : List Vec := u.map fun p => mc.fixA c (mc.arith.place c p)

/-- The tetrahedra that are not skipped, in exact arithmetic. render/density/interpolator.go 136-138. -/
def MC.drawn (mc : MC) (c : Fin 4 → Vec) : Bool :=
  ((newTetra (c 0) (c 1) (c 2) (c 3)).cellBounds 1).intersect mc.relCb mc.cells

/-- The same as `MC.fixA` in exact arithmetic. render/density/interpolator.go 147-153. -/
def MC.fix (mc : MC) (c : Fin 4 → Vec) (p : Vec) : Vec :=
  if mc.neverMod then p else fun j => if coordNeg c j && decide (p j < 0) then p j + mc.cells else p j

/-- Sizes of the scratch buffers. -/
structure MCState.Ok (s : MCState M) (mc : MC) (reqVel : Bool) : Prop where
  vec : (s.vecBuf.length : ℤ) = mc.points
  w : reqVel = true → mc.points ≤ s.wbuf.length

theorem distribute_full (t : Tetra) (pts buf : List Vec) (hl : pts.length = buf.length) :
    ∃ t', t.distributeTetra pts buf = some (pts.map (mix t.corners), t') ∧ t'.corners = t.corners := by
  obtain ⟨out, t', e, hc, hlen, _, h⟩ := C40_distributeTetra t pts buf hl.le
  refine ⟨t', ?_, hc⟩
  rw [e]
  congr 2
  refine List.ext_getElem? fun i => ?_
  rw [List.getElem?_map]
  cases hp : pts[i]? with
  | none =>
    rw [List.getElem?_eq_none_iff] at hp
    rw [List.getElem?_eq_none (by omega)]
    rfl
  | some p =>
    obtain ⟨q, hq, hb⟩ := h i p hp
    rw [hq, mix_of_bary hb]
    rfl

theorem distribute_prefix (t : Tetra) (pts buf : List Vec) (hl : pts.length ≤ buf.length) :
    ∃ out t', t.distributeTetra pts buf = some (out, t') ∧ t'.corners = t.corners ∧ out.length = buf.length ∧
      out.take pts.length = pts.map (mix t.corners) := by
  obtain ⟨out, t', e, hc, hlen, _, h⟩ := C40_distributeTetra t pts buf hl
  refine ⟨out, t', e, hc, hlen, ?_⟩
  refine List.ext_getElem? fun i => ?_
  rw [List.getElem?_map, List.getElem?_take]
  cases hp : pts[i]? with
  | none =>
    rw [List.getElem?_eq_none_iff] at hp
    rw [if_neg (by omega)]
    rfl
  | some p =>
    obtain ⟨q, hq, hb⟩ := h i p hp
    have := (List.getElem?_eq_some_iff.mp hp).1
    rw [if_pos this, hq, mix_of_bary hb]
    rfl

theorem place_exact : Arith.exact.place = mix := by
  funext c p
  have e : (newTetra (c 0) (c 1) (c 2) (c 3)).corners = c := by funext k; fin_cases k <;> rfl
  obtain ⟨t', ht, _⟩ := distribute_full (newTetra (c 0) (c 1) (c 2) (c 3)) [p] [0] rfl
  rw [e] at ht
  unfold Arith.place
  rw [show Arith.exact.distribute = Tetra.distributeTetra from rfl, ht]
  rfl

theorem laws_exact : Arith.exact.Laws := by
  constructor
  · intro t _ pts buf hl
    obtain ⟨out, t', e, hc, hlen, h⟩ := distribute_prefix t pts buf hl
    exact ⟨out, t', e, hc, hlen, by rw [place_exact]; exact h⟩
  · intro s t h
    show s.cellBounds 1 = t.cellBounds 1
    unfold Tetra.cellBounds
    rw [h]
  · exact fun _ _ => rfl

theorem MC.Ok.runs {mc : MC} {pick : ℕ → ℤ} (h : mc.Ok pick) : mc.Runs pick :=
  ⟨h.seg, h.skip, fun u hu => (h.unit u hu).1, h.pick, by rw [h.arith]; exact laws_exact⟩

theorem MC.Ok.drawnA {mc : MC} {pick : ℕ → ℤ} (h : mc.Ok pick) (c : Fin 4 → Vec) : mc.drawnA c = mc.drawn c := by
  unfold MC.drawnA MC.drawn
  rw [h.arith]
  rfl

theorem MC.Ok.fixA {mc : MC} {pick : ℕ → ℤ} (h : mc.Ok pick) (c : Fin 4 → Vec) (p : Vec) : mc.fixA c p = mc.fix c p := by
  unfold MC.fixA MC.fix
  rw [h.arith]
  rfl

theorem rd_getD {xs : List Vec} {i : ℤ} (h0 : 0 ≤ i) (h1 : i < xs.length) : rd xs i = some (xs.getD i.toNat 0) := by
  obtain ⟨k, rfl⟩ := Int.eq_ofNat_of_zero_le h0
  have hk : k < xs.length := by omega
  rw [rd_of_lt hk, Int.toNat_natCast]
  simp [hk]

/-- One visit either skips the tetrahedron and leaves the cells alone, or deposits the points of the next unit buffer
spread over the tetrahedron; the weights are the velocities at the same barycentric coordinates. -/
theorem mcVisit_eq {mc : MC} {pick : ℕ → ℤ} (h : mc.Runs pick) {reqVel : Bool}
    (sub : List Vec → List Vec → List M → Option (List M)) {xs vs : List Vec}
    (hx : (xs.length : ℤ) = (mc.segWidth + 1) * (mc.segWidth + 1) * (mc.segWidth + 1))
    (hv : reqVel = true → (vs.length : ℤ) = (mc.segWidth + 1) * (mc.segWidth + 1) * (mc.segWidth + 1))
    {x y z : ℤ} (hc : IsCube (mc.segWidth / mc.skip) x y z) (d : Fin 6) (s : MCState M) (hs : s.Ok mc reqVel) :
    let c := tetCorners mc.segWidth mc.skip xs x y z d
    let cv := tetCorners mc.segWidth mc.skip vs x y z d
    let r := mcVisit mc reqVel sub pick xs vs (cubeVisit mc.segWidth mc.skip x y z (d.val : ℤ)) s
    (mc.drawnA c = false → ∃ s', r = some s' ∧ s'.Ok mc reqVel ∧ s'.cells = s.cells) ∧
    (mc.drawnA c = true → ∃ u ∈ mc.unitBufs, ∃ w, (reqVel = true → w.take u.length = u.map (mc.arith.place cv)) ∧
      ∀ cells', sub (mc.sampleA c u) w s.cells = some cells' →
        ∃ s', r = some s' ∧ s'.Ok mc reqVel ∧ s'.cells = cells') := by
  intro c cv r
  obtain ⟨e, hr⟩ := visit_idxs h.skip hc d
  set I : Fin 4 → ℤ := fun k =>
    particle (mc.segWidth + 1) (fun i => mc.skip * ((![x, y, z] : IVec) i + unitCorner d k i)) with hI
  have hrx : ∀ k, rd xs (I k) = some (c k) := fun k => rd_getD (hr k).1 (by rw [hx]; exact (hr k).2)
  have hrv : reqVel = true → ∀ k, rd vs (I k) = some (cv k) :=
    fun hq k => rd_getD (hr k).1 (by rw [hv hq]; exact (hr k).2)
  have hvt : ∃ vtet : Tetra, (reqVel = true → vtet.corners = cv ∧ vtet.baryValid = false) ∧ velTetra reqVel vs I s.vtet = some vtet := by
    by_cases hq : reqVel = true
    · refine ⟨s.vtet.init (cv 0) (cv 1) (cv 2) (cv 3), fun _ => ?_, ?_⟩
      · refine ⟨?_, rfl⟩
        funext k
        fin_cases k <;> rfl
      · unfold velTetra
        rw [if_pos hq]
        exact bind_of (hrv hq 0) (bind_of (hrv hq 1) (bind_of (hrv hq 2) (bind_of (hrv hq 3) rfl)))
    · exact ⟨s.vtet, fun h => absurd h hq, by unfold velTetra; rw [if_neg hq]⟩
  obtain ⟨vtet, hvc, evt⟩ := hvt
  set tet := s.tet.init (c 0) (c 1) (c 2) (c 3) with htet
  have htc : tet.corners = c := by
    funext k
    fin_cases k <;> rfl
  have htv : tet.baryValid = false := rfl
  have hcb : (mc.arith.cellBounds tet).intersect mc.relCb mc.cells = mc.drawnA c := by
    unfold MC.drawnA
    rw [h.laws.bounds tet (newTetra (c 0) (c 1) (c 2) (c 3)) rfl]
  constructor
  · intro hd
    refine ⟨{ s with tet := tet, vtet := vtet }, ?_, ⟨hs.vec, hs.w⟩, rfl⟩
    refine bind_of e (bind_of (hrx 0) (bind_of (hrx 1) (bind_of (hrx 2) (bind_of (hrx 3) ?_))))
    refine bind_of evt ?_
    simp only
    rw [← htet, hcb, hd]
    rfl
  · intro hd
    obtain ⟨p0, p1⟩ := h.pick s.draws
    obtain ⟨u, hu⟩ := rd_isSome (xs := mc.unitBufs) p0 p1
    have hum : u ∈ mc.unitBufs := by
      obtain ⟨k, hk⟩ := Int.eq_ofNat_of_zero_le p0
      rw [hk, rd_natCast] at hu
      exact List.mem_of_getElem? hu
    have hul := h.unit u hum
    obtain ⟨vb, tet', et, htc', hvl, hvt⟩ := h.laws.spread tet htv u s.vecBuf (by have := hs.vec; omega)
    have hvb : vb = u.map (mc.arith.place c) := by
      rw [← htc, ← hvt, List.take_of_length_le]
      have := hs.vec
      omega
    subst hvb
    have hw : ∃ w vtet', (reqVel = true → w.take u.length = u.map (mc.arith.place cv)) ∧
        (reqVel = true → mc.points ≤ w.length) ∧
        velWeights mc.arith reqVel vtet u s.wbuf = some (w, vtet') := by
      by_cases hq : reqVel = true
      · obtain ⟨w, vt', ew, _, hl, ht⟩ := h.laws.spread vtet (hvc hq).2 u s.wbuf (by have := hs.w hq; omega)
        refine ⟨w, vt', fun _ => by rw [ht, (hvc hq).1], fun _ => by rw [hl]; exact hs.w hq, by unfold velWeights; rw [if_pos hq, ew]⟩
      · exact ⟨s.wbuf, vtet, fun h => absurd h hq, fun h => absurd h hq, by unfold velWeights; rw [if_neg hq]⟩
    obtain ⟨w, vtet', hw1, hw2, ew⟩ := hw
    refine ⟨u, hum, w, hw1, fun cells' hsub => ?_⟩
    have hfix : (if mc.neverMod = true then u.map (mc.arith.place c)
        else modCoords mc.arith tet'.corners mc.cells (u.map (mc.arith.place c))) = mc.sampleA c u := by
      unfold MC.sampleA MC.fixA
      rw [htc', htc]
      by_cases hm : mc.neverMod = true
      · simp only [hm, if_true]
      · simp only [hm]
        unfold modCoords
        rw [List.map_map]
        rfl
    refine ⟨⟨tet', vtet', mc.sampleA c u, w, s.draws + 1, cells'⟩, ?_,
      ⟨by simp [MC.sampleA, hul], hw2⟩, rfl⟩
    refine bind_of e (bind_of (hrx 0) (bind_of (hrx 1) (bind_of (hrx 2) (bind_of (hrx 3) ?_))))
    refine bind_of evt ?_
    simp only
    rw [← htet, hcb, hd]
    change (do
      let unit ← rd mc.unitBufs (pick s.draws)
      let (vecBuf, tet) ← mc.arith.distribute tet unit s.vecBuf
      let vecBuf := if mc.neverMod then vecBuf else modCoords mc.arith tet.corners mc.cells vecBuf
      let (wbuf, vtet) ← velWeights mc.arith reqVel vtet unit s.wbuf
      let cells ← sub vecBuf wbuf s.cells
      some (⟨tet, vtet, vecBuf, wbuf, s.draws + 1, cells⟩ : MCState M)) = _
    refine bind_of hu (bind_of et ?_)
    simp only [hfix]
    exact bind_of ew (bind_of hsub rfl)

/-! ## All visits of a worker -/

variable [AddCommMonoid M]

/-- What `subIntr.Interpolate` does with points that satisfy `Q`: it adds `D p w` for every point `p` with weight
`w`. -/
def SubOk (mc : MC) (reqVel : Bool) (sub : List Vec → List Vec → List M → Option (List M)) (N : ℤ) (Q : Vec → Prop)
    (D : Vec → Vec → ℤ → M) : Prop :=
  (∀ out w, (out.length : ℤ) = mc.points → (∀ p ∈ out, Q p) → (reqVel = true → mc.points ≤ w.length) →
    Adds N (sub out w) (fun c => ∑ i ∈ Finset.range mc.points.toNat, D (out.getD i 0) (w.getD i 0) c)) ∧
  (reqVel = false → ∀ p w w', D p w = D p w')

/-- What one tetrahedron with corners `c`, velocities `cv`, adds to a cell when the unit buffer `u` is drawn. -/
def MC.depositA (mc : MC) (D : Vec → Vec → ℤ → M) (c cv : Fin 4 → Vec) (u : List Vec) (cell : ℤ) : M :=
  if mc.drawnA c then ∑ i ∈ Finset.range mc.points.toNat,
    D (mc.fixA c (mc.arith.place c (u.getD i 0))) (mc.arith.place cv (u.getD i 0)) cell
  else 0

/-- The same in exact arithmetic. -/
def MC.deposit (mc : MC) (D : Vec → Vec → ℤ → M) (c cv : Fin 4 → Vec) (u : List Vec) (cell : ℤ) : M :=
  if mc.drawn c then ∑ i ∈ Finset.range mc.points.toNat, D (mc.fix c (mix c (u.getD i 0))) (mix cv (u.getD i 0)) cell
  else 0

theorem MC.Ok.depositA {mc : MC} {pick : ℕ → ℤ} (h : mc.Ok pick) (D : Vec → Vec → ℤ → M) (c cv : Fin 4 → Vec)
    (u : List Vec) (cell : ℤ) : mc.depositA D c cv u cell = mc.deposit D c cv u cell := by
  unfold MC.depositA MC.deposit
  simp only [h.drawnA, h.fixA]
  rw [h.arith, place_exact]

theorem mc_visits {mc : MC} {pick : ℕ → ℤ} (h : mc.Runs pick) {reqVel : Bool}
    {sub : List Vec → List Vec → List M → Option (List M)} {N : ℤ} {Q : Vec → Prop} {D : Vec → Vec → ℤ → M}
    (hsub : SubOk mc reqVel sub N Q D) {xs vs : List Vec}
    (hx : (xs.length : ℤ) = (mc.segWidth + 1) * (mc.segWidth + 1) * (mc.segWidth + 1))
    (hv : reqVel = true → (vs.length : ℤ) = (mc.segWidth + 1) * (mc.segWidth + 1) * (mc.segWidth + 1))
    (L : List TetVisit) (hnd : L.Nodup)
    (hL : ∀ v ∈ L, ∃ x y z, ∃ d : Fin 6, IsCube (mc.segWidth / mc.skip) x y z ∧
      v = cubeVisit mc.segWidth mc.skip x y z (d.val : ℤ))
    (hQ : ∀ v ∈ L, mc.drawnA (visitCorners mc xs v) = true → ∀ u ∈ mc.unitBufs, ∀ p ∈ u,
      Q (mc.fixA (visitCorners mc xs v) (mc.arith.place (visitCorners mc xs v) p)))
    (s : MCState M) (hs : s.Ok mc reqVel) (F : ℤ → M) (hF : Cells N s.cells F) :
    ∃ s', L.foldlM (fun s v => mcVisit mc reqVel sub pick xs vs v s) s = some s' ∧ s'.Ok mc reqVel ∧
      ∃ U : TetVisit → List Vec, (∀ v, U v ∈ mc.unitBufs) ∧
        Cells N s'.cells (fun cell => F cell +
          ∑ v ∈ L.toFinset, mc.depositA D (visitCorners mc xs v) (visitCorners mc vs v) (U v) cell) := by
  obtain ⟨u0, hu0⟩ := rd_isSome (xs := mc.unitBufs) (h.pick 0).1 (h.pick 0).2
  have hu0 : u0 ∈ mc.unitBufs := by
    obtain ⟨k, hk⟩ := Int.eq_ofNat_of_zero_le (h.pick 0).1
    rw [hk, rd_natCast] at hu0
    exact List.mem_of_getElem? hu0
  induction L generalizing s F with
  | nil => exact ⟨s, rfl, hs, fun _ => u0, fun _ => hu0, by simpa using hF⟩
  | cons v L ih =>
    obtain ⟨hvL, hndL⟩ := List.nodup_cons.mp hnd
    obtain ⟨x, y, z, d, hc, hve⟩ := hL v (by simp)
    have hvx : visitCorners mc xs v = tetCorners mc.segWidth mc.skip xs x y z d := by
      rw [hve, visitCorners_eq mc xs h.skip hc d]
    have hvv : visitCorners mc vs v = tetCorners mc.segWidth mc.skip vs x y z d := by
      rw [hve, visitCorners_eq mc vs h.skip hc d]
    obtain ⟨hskip, hdraw⟩ := mcVisit_eq h sub hx hv hc d s hs
    have step : ∃ s1, mcVisit mc reqVel sub pick xs vs v s = some s1 ∧ s1.Ok mc reqVel ∧ ∃ u ∈ mc.unitBufs,
        Cells N s1.cells (fun cell => F cell +
          mc.depositA D (visitCorners mc xs v) (visitCorners mc vs v) u cell) := by
      by_cases hd : mc.drawnA (visitCorners mc xs v) = true
      · rw [← hvx, ← hvv, ← hve] at hdraw
        obtain ⟨u, hu, w, hw, hrun⟩ := hdraw hd
        have hul := h.unit u hu
        have hwl : reqVel = true → mc.points ≤ w.length := by
          intro hq
          have := congrArg List.length (hw hq)
          rw [List.length_take, List.length_map] at this
          omega
        have hin : ∀ p ∈ mc.sampleA (visitCorners mc xs v) u, Q p := by
          intro p hp
          obtain ⟨q, hq, rfl⟩ := List.mem_map.mp hp
          exact hQ v (by simp) hd u hu q hq
        obtain ⟨cells', e, hcells⟩ := hsub.1 (mc.sampleA (visitCorners mc xs v) u) w (by simp [MC.sampleA, hul]) hin hwl
          s.cells F hF
        obtain ⟨s1, e1, h1, rfl⟩ := hrun cells' e
        refine ⟨s1, e1, h1, u, hu, ?_⟩
        refine ⟨hcells.1, fun cell c0 c1 => ?_⟩
        rw [hcells.2 cell c0 c1]
        unfold MC.depositA
        beta_reduce
        rw [if_pos hd]
        refine congrArg some (congrArg (F cell + ·) (Finset.sum_congr rfl fun i hi => ?_))
        rw [Finset.mem_range] at hi
        have hiu : i < u.length := by omega
        have e1 : (mc.sampleA (visitCorners mc xs v) u).getD i 0 =
            mc.fixA (visitCorners mc xs v) (mc.arith.place (visitCorners mc xs v) (u.getD i 0)) := by
          simp [MC.sampleA, hiu]
        rw [e1]
        by_cases hq : reqVel = true
        · have e2 : w.getD i 0 = mc.arith.place (visitCorners mc vs v) (u.getD i 0) := by
            have := congrArg (fun l => l.getD i 0) (hw hq)
            simp only [List.getD_eq_getElem?_getD, List.getElem?_take, if_pos hiu, List.getElem?_map] at this
            rw [List.getD_eq_getElem?_getD, this]
            simp [hiu]
          rw [e2]
        · rw [hsub.2 (by simpa using hq) _ (w.getD i 0) (mc.arith.place (visitCorners mc vs v) (u.getD i 0))]
      · rw [← hvx, ← hve] at hskip
        obtain ⟨s1, e1, h1, hcl⟩ := hskip (by simpa using hd)
        refine ⟨s1, e1, h1, u0, hu0, ?_⟩
        unfold MC.depositA
        simp only [if_neg hd, hcl, add_zero]
        exact hF
    obtain ⟨s1, e1, h1, u, hu, hc1⟩ := step
    obtain ⟨s', e', h', U, hU, hcells⟩ := ih hndL (fun v hv => hL v (by simp [hv])) (fun v hv => hQ v (by simp [hv]))
      s1 h1 _ hc1
    refine ⟨s', ?_, h', Function.update U v u, fun v' => ?_, ?_⟩
    · rw [List.foldlM_cons]
      exact bind_of e1 e'
    · by_cases ev : v' = v
      · rw [ev, Function.update_self]; exact hu
      · rw [Function.update_of_ne ev]; exact hU v'
    · refine ⟨hcells.1, fun cell c0 c1 => ?_⟩
      rw [hcells.2 cell c0 c1, List.toFinset_cons]
      beta_reduce
      rw [Finset.sum_insert (by simpa using hvL), Function.update_self, add_assoc]
      congr 3
      refine Finset.sum_congr rfl fun v' hv' => ?_
      have : v' ≠ v := by rintro rfl; exact hvL (by simpa using hv')
      rw [Function.update_of_ne this]

/-! ## All workers -/

/-- The tetrahedra of a segment with `n` cubes on a side. -/
def tetras (n : ℤ) : Finset (ℤ × ℤ × ℤ × Fin 6) :=
  Finset.Ico 0 n ×ˢ Finset.Ico 0 n ×ˢ Finset.Ico 0 n ×ˢ Finset.univ

theorem mem_tetras {n : ℤ} {t : ℤ × ℤ × ℤ × Fin 6} : t ∈ tetras n ↔ IsCube n t.1 t.2.1 t.2.2.1 := by
  obtain ⟨x, y, z, d⟩ := t
  simp [tetras, IsCube]

/-- The tetrahedra of worker `id`. -/
def myTetras (n workers : ℤ) (id : ℕ) : Finset (ℤ × ℤ × ℤ × Fin 6) :=
  (tetras n).filter fun t => ((t.1 + n * (t.2.1 + n * t.2.2.1)) % workers).toNat = id

theorem workerVisits_image {segWidth skip workers : ℤ} (h0 : 0 ≤ segWidth) (hs : 0 < skip) (hw : 0 < workers) (id : ℕ)
    (hid : (id : ℤ) < workers) :
    (workerVisits segWidth skip workers id).toFinset =
      (myTetras (segWidth / skip) workers id).image
        (fun t => cubeVisit segWidth skip t.1 t.2.1 t.2.2.1 (t.2.2.2.val : ℤ)) := by
  ext v
  rw [List.mem_toFinset, mem_workerVisits h0 hs hw (by omega), Finset.mem_image]
  constructor
  · rintro ⟨x, y, z, dir, hc, ⟨d0, d1⟩, rfl, k, ek⟩
    have hd : dir.toNat < 6 := by omega
    refine ⟨(x, y, z, ⟨dir.toNat, hd⟩), ?_, ?_⟩
    · rw [myTetras, Finset.mem_filter, mem_tetras]
      refine ⟨hc, ?_⟩
      dsimp only
      rw [ek, Int.add_mul_emod_self_right, Int.emod_eq_of_lt (by omega) hid, Int.toNat_natCast]
    · simp [Int.toNat_of_nonneg d0]
  · rintro ⟨⟨x, y, z, d⟩, ht, rfl⟩
    rw [myTetras, Finset.mem_filter, mem_tetras] at ht
    obtain ⟨hc, e⟩ := ht
    dsimp only at hc e ⊢
    have i0 := (cube_idx_range hc).1
    have e' : (x + segWidth / skip * (y + segWidth / skip * z)) % workers = id := by
      rw [← e, Int.toNat_of_nonneg (Int.emod_nonneg _ hw.ne')]
    refine ⟨x, y, z, d.val, hc, ⟨by omega, by have := d.isLt; omega⟩, rfl,
      ((x + segWidth / skip * (y + segWidth / skip * z)) / workers).toNat, ?_⟩
    rw [Int.toNat_of_nonneg (Int.ediv_nonneg i0 hw.le), ← e']
    generalize x + segWidth / skip * (y + segWidth / skip * z) = i
    rw [mul_comm]
    exact (Int.emod_add_mul_ediv _ workers).symm

/-- What all workers together add: every tetrahedron of the segment contributes once. -/
theorem mc_workersA {mc : MC} {pick : ℕ → ℕ → ℤ} (h : ∀ id, mc.Runs (pick id)) {reqVel : Bool}
    {sub : List Vec → List Vec → List M → Option (List M)} {N : ℤ} {Q : Vec → Prop} {D : Vec → Vec → ℤ → M}
    (hsub : SubOk mc reqVel sub N Q D) {xs vs : List Vec}
    (hx : (xs.length : ℤ) = (mc.segWidth + 1) * (mc.segWidth + 1) * (mc.segWidth + 1))
    (hv : reqVel = true → (vs.length : ℤ) = (mc.segWidth + 1) * (mc.segWidth + 1) * (mc.segWidth + 1))
    (hQ : ∀ x y z, IsCube (mc.segWidth / mc.skip) x y z → ∀ d,
      mc.drawnA (tetCorners mc.segWidth mc.skip xs x y z d) = true → ∀ u ∈ mc.unitBufs, ∀ p ∈ u,
      Q (mc.fixA (tetCorners mc.segWidth mc.skip xs x y z d) (mc.arith.place (tetCorners mc.segWidth mc.skip xs x y z d) p)))
    (workers : ℕ) (hw : 0 < workers) (s : ℕ → MCState M) (hs : ∀ id, (s id).Ok mc reqVel) (F : ℕ → ℤ → M)
    (hF : ∀ id, Cells N (s id).cells (F id)) :
    ∃ s' : ℕ → MCState M, ∃ G : ℕ → ℤ → M, ∃ U : ℤ × ℤ × ℤ × Fin 6 → List Vec, (∀ t, U t ∈ mc.unitBufs) ∧
      (∀ id < workers,
        mcInterpolate mc reqVel sub (pick id) xs vs id (segLen mc.segWidth mc.skip) workers (s id) = some (s' id) ∧
        (s' id).Ok mc reqVel ∧ Cells N (s' id).cells (fun c => F id c + G id c)) ∧
      ∀ c, ∑ id ∈ Finset.range workers, G id c = ∑ t ∈ tetras (mc.segWidth / mc.skip),
        mc.depositA D (tetCorners mc.segWidth mc.skip xs t.1 t.2.1 t.2.2.1 t.2.2.2)
          (tetCorners mc.segWidth mc.skip vs t.1 t.2.1 t.2.2.1 t.2.2.2) (U t) c := by
  have hw' : (0 : ℤ) < workers := by omega
  have h0 := (h 0).seg
  have hsk := (h 0).skip
  have one : ∀ id : ℕ, ∃ s' : MCState M, ∃ U : TetVisit → List Vec, id < workers → ((∀ v, U v ∈ mc.unitBufs) ∧
      mcInterpolate mc reqVel sub (pick id) xs vs id (segLen mc.segWidth mc.skip) workers (s id) = some s' ∧
      s'.Ok mc reqVel ∧ Cells N s'.cells (fun c => F id c +
          ∑ v ∈ (workerVisits mc.segWidth mc.skip workers id).toFinset,
            mc.depositA D (visitCorners mc xs v) (visitCorners mc vs v) (U v) c)) := by
    intro id
    by_cases hid : id < workers
    · have hL : ∀ v ∈ workerVisits mc.segWidth mc.skip workers id, ∃ x y z, ∃ d : Fin 6,
          IsCube (mc.segWidth / mc.skip) x y z ∧ v = cubeVisit mc.segWidth mc.skip x y z (d.val : ℤ) := by
        intro v hv
        rw [← List.mem_toFinset, workerVisits_image h0 hsk hw' id (by omega), Finset.mem_image] at hv
        obtain ⟨t, ht, rfl⟩ := hv
        exact ⟨_, _, _, _, mem_tetras.mp (Finset.mem_filter.mp ht).1, rfl⟩
      obtain ⟨s', e, ho, U, hU, hc⟩ := mc_visits (h id) hsub hx hv _
        (workerVisits_nodup h0 hsk hw' (by omega : (0 : ℤ) ≤ id)) hL (by
          intro v hv hd u hu p hp
          obtain ⟨x, y, z, d, hc, rfl⟩ := hL v hv
          rw [visitCorners_eq mc xs hsk hc d] at hd ⊢
          exact hQ x y z hc d hd u hu p hp) (s id) (hs id) (F id) (hF id)
      exact ⟨s', U, fun _ => ⟨hU, by rw [mcInterpolate_visits]; exact e, ho, hc⟩⟩
    · exact ⟨s id, fun _ => [], fun h => absurd h hid⟩
  choose s' U hone using one
  set n := mc.segWidth / mc.skip with hn
  let wk : ℤ × ℤ × ℤ × Fin 6 → ℕ := fun t => ((t.1 + n * (t.2.1 + n * t.2.2.1)) % (workers : ℤ)).toNat
  have hwk : ∀ t, wk t < workers := by
    intro t
    have := Int.emod_nonneg (t.1 + n * (t.2.1 + n * t.2.2.1)) hw'.ne'
    have := Int.emod_lt_of_pos (t.1 + n * (t.2.1 + n * t.2.2.1)) hw'
    show ((t.1 + n * (t.2.1 + n * t.2.2.1)) % (workers : ℤ)).toNat < workers
    omega
  refine ⟨s', fun id c => ∑ v ∈ (workerVisits mc.segWidth mc.skip workers id).toFinset,
    mc.depositA D (visitCorners mc xs v) (visitCorners mc vs v) (U id v) c,
    fun t => U (wk t) (cubeVisit mc.segWidth mc.skip t.1 t.2.1 t.2.2.1 (t.2.2.2.val : ℤ)),
    fun t => (hone _ (hwk t)).1 _, fun id hid => (hone id hid).2, fun c => ?_⟩
  rw [← Finset.sum_fiberwise_of_maps_to (s := tetras n) (t := Finset.range workers) (g := wk)
    (fun t _ => Finset.mem_range.mpr (hwk t))]
  refine Finset.sum_congr rfl fun id hid => ?_
  rw [Finset.mem_range] at hid
  beta_reduce
  rw [workerVisits_image h0 hsk hw' id (by omega), Finset.sum_image]
  · refine Finset.sum_congr rfl fun t ht => ?_
    obtain ⟨ht1, ht2⟩ := Finset.mem_filter.mp ht
    have hc := mem_tetras.mp ht1
    rw [visitCorners_eq mc xs hsk hc, visitCorners_eq mc vs hsk hc]
    have : wk t = id := ht2
    rw [this]
  · intro t ht t' ht' e
    have hc := mem_tetras.mp (Finset.mem_filter.mp ht).1
    have hc' := mem_tetras.mp (Finset.mem_filter.mp ht').1
    obtain ⟨a, b, c, d⟩ := cubeVisit_inj hsk hc hc' e
    obtain ⟨x, y, z, k⟩ := t
    obtain ⟨x', y', z', k'⟩ := t'
    simp only at a b c d
    have : k = k' := Fin.ext (by omega)
    rw [a, b, c, this]

/-- The same in exact arithmetic: every tetrahedron of the segment contributes once. -/
theorem mc_workers {mc : MC} {pick : ℕ → ℕ → ℤ} (h : ∀ id, mc.Ok (pick id)) {reqVel : Bool}
    {sub : List Vec → List Vec → List M → Option (List M)} {N : ℤ} {Q : Vec → Prop} {D : Vec → Vec → ℤ → M}
    (hsub : SubOk mc reqVel sub N Q D) {xs vs : List Vec}
    (hx : (xs.length : ℤ) = (mc.segWidth + 1) * (mc.segWidth + 1) * (mc.segWidth + 1))
    (hv : reqVel = true → (vs.length : ℤ) = (mc.segWidth + 1) * (mc.segWidth + 1) * (mc.segWidth + 1))
    (hQ : ∀ x y z, IsCube (mc.segWidth / mc.skip) x y z → ∀ d,
      mc.drawn (tetCorners mc.segWidth mc.skip xs x y z d) = true → ∀ u ∈ mc.unitBufs, ∀ p ∈ u,
      Q (mc.fix (tetCorners mc.segWidth mc.skip xs x y z d) (mix (tetCorners mc.segWidth mc.skip xs x y z d) p)))
    (workers : ℕ) (hw : 0 < workers) (s : ℕ → MCState M) (hs : ∀ id, (s id).Ok mc reqVel) (F : ℕ → ℤ → M)
    (hF : ∀ id, Cells N (s id).cells (F id)) :
    ∃ s' : ℕ → MCState M, ∃ G : ℕ → ℤ → M, ∃ U : ℤ × ℤ × ℤ × Fin 6 → List Vec, (∀ t, U t ∈ mc.unitBufs) ∧
      (∀ id < workers,
        mcInterpolate mc reqVel sub (pick id) xs vs id (segLen mc.segWidth mc.skip) workers (s id) = some (s' id) ∧
        (s' id).Ok mc reqVel ∧ Cells N (s' id).cells (fun c => F id c + G id c)) ∧
      ∀ c, ∑ id ∈ Finset.range workers, G id c = ∑ t ∈ tetras (mc.segWidth / mc.skip),
        mc.deposit D (tetCorners mc.segWidth mc.skip xs t.1 t.2.1 t.2.2.1 t.2.2.2)
          (tetCorners mc.segWidth mc.skip vs t.1 t.2.1 t.2.2.1 t.2.2.2) (U t) c := by
  simp only [← (h 0).drawnA, ← (h 0).fixA, ← (h 0).depositA, ← place_exact, ← (h 0).arith] at hQ ⊢
  exact mc_workersA (fun id => (h id).runs) hsub hx hv hQ workers hw s hs F hF

end Verif.Render
