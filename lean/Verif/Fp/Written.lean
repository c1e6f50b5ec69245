import Verif.Fp.PipelineModel
import Verif.Main.Grids

/-! # The files written in machine arithmetic -/

set_option autoImplicit false

namespace Verif.Fp

open Verif.Go Verif.Geom Verif.Render Verif.Main

/-! ## Specification -/

/-- The extent stored in the header of a file: that of the box which grows with its particles, starting at the first one. -/
def StoredBox (f : SheetFile) : Prop := ∀ j, (f.header.origin j, f.header.width j) =
  (axisBox f.header.totalWidth (f.xs.headD 0 j) (f.xs.map (· j))).stored f.header.totalWidth

/-! ## Loops -/

theorem iterFrom_sim {σ τ : Type} {R : σ → τ → Prop} {f : ℤ → σ → Option σ} {g : ℤ → τ → Option τ}
    (h : ∀ i s t s', R s t → f i s = some s' → ∃ t', g i t = some t' ∧ R s' t') (n : ℕ) :
    ∀ i s t s', R s t → iterFrom f n i s = some s' → ∃ t', iterFrom g n i t = some t' ∧ R s' t' := by
  induction n with
  | zero =>
    intro i s t s' hR e
    cases e
    exact ⟨t, rfl, hR⟩
  | succ n ih =>
    intro i s t s' hR e
    obtain ⟨s1, e1, e2⟩ := Option.bind_eq_some_iff.mp e
    obtain ⟨t1, g1, hR1⟩ := h i s t s1 hR e1
    obtain ⟨t', g2, hR2⟩ := ih (i + 1) s1 t1 s' hR1 e2
    exact ⟨t', Option.bind_eq_some_iff.mpr ⟨t1, g1, g2⟩, hR2⟩

/-- Two loops that keep their variables in a relation. -/
theorem forRange_sim {σ τ : Type} {R : σ → τ → Prop} {f : ℤ → σ → Option σ} {g : ℤ → τ → Option τ}
    (h : ∀ i s t s', R s t → f i s = some s' → ∃ t', g i t = some t' ∧ R s' t') {lo hi : ℤ} :
    ∀ s t s', R s t → forRange lo hi f s = some s' → ∃ t', forRange lo hi g t = some t' ∧ R s' t' :=
  iterFrom_sim h _ lo

theorem iterFrom_count {σ : Type} {f : ℤ → σ → Option σ} {c : σ → ℤ} {k : ℤ}
    (h : ∀ i s s', f i s = some s' → c s' = c s + k) (n : ℕ) :
    ∀ i s s', iterFrom f n i s = some s' → c s' = c s + n * k := by
  induction n with
  | zero =>
    intro i s s' e
    cases e
    simp
  | succ n ih =>
    intro i s s' e
    obtain ⟨s1, e1, e2⟩ := Option.bind_eq_some_iff.mp e
    rw [ih (i + 1) s1 s' e2, h i s s1 e1]
    push_cast
    ring

/-- A loop whose body adds the same to a variable. -/
theorem forRange_count {σ : Type} {f : ℤ → σ → Option σ} {c : σ → ℤ} {k : ℤ}
    (h : ∀ i s s', f i s = some s' → c s' = c s + k) {lo n : ℤ} (hn : 0 ≤ n) {s s' : σ}
    (e : forRange lo (lo + n) f s = some s') : c s' = c s + n * k := by
  have := iterFrom_count h _ lo s s' e
  rwa [add_sub_cancel_left, Int.toNat_of_nonneg hn] at this

/-! ## One segment -/

/-- The variables of the two versions of `copyToSegment`. -/
structure CopySim (w : ℚ) (p : Vec) (s : Copy) (t : Copy32) : Prop where
  idx : t.smallIdx = s.smallIdx
  vMin : t.vMin = s.vMin
  vMax : t.vMax = s.vMax
  xsSeg : t.xsSeg = s.xsSeg
  vsSeg : t.vsSeg = s.vsSeg
  box : ∃ n : ℕ, s.smallIdx = n ∧ n ≤ s.xsSeg.length ∧ ∀ j, t.box j = axisBox w (p j) ((s.xsSeg.take n).map (· j))

theorem copyStep_sim {w : ℚ} {p : Vec} {xs vs : List Vec} {i : ℤ} {s s' : Copy} {t : Copy32} (h : CopySim w p s t)
    (e : copyStep xs vs i s = some s') :
    s'.smallIdx = s.smallIdx + 1 ∧ ∃ t', copyStep32 w xs vs i t = some t' ∧ CopySim w p s' t' := by
  unfold copyStep at e
  obtain ⟨x, ex, e⟩ := Option.bind_eq_some_iff.mp e
  obtain ⟨a, ea, e⟩ := Option.bind_eq_some_iff.mp e
  obtain ⟨v, ev, e⟩ := Option.bind_eq_some_iff.mp e
  obtain ⟨b, eb, e⟩ := Option.bind_eq_some_iff.mp e
  rw [Option.some.injEq] at e
  subst e
  refine ⟨rfl, ⟨t.smallIdx + 1, fun d => (t.box d).add w (x d), fun d => (vBound (t.vMin d) (t.vMax d) (v d)).1,
    fun d => (vBound (t.vMin d) (t.vMax d) (v d)).2, a, b⟩, ?_, ?_⟩
  · unfold copyStep32
    refine bind_of ex (bind_of (a := a) ?_ (bind_of ev (bind_of (a := b) ?_ rfl)))
    · rw [h.idx, h.xsSeg]; exact ea
    · rw [h.idx, h.vsSeg]; exact eb
  · obtain ⟨n, hn, hl, hb⟩ := h.box
    have hwr : n < s.xsSeg.length ∧ a = s.xsSeg.set n x := by
      rw [hn] at ea
      unfold wr at ea
      split_ifs at ea with hc
      rw [Int.toNat_natCast] at hc ea
      exact ⟨hc.2, (Option.some.inj ea).symm⟩
    refine ⟨by rw [h.idx], by rw [h.vMin, h.vMax], by rw [h.vMin, h.vMax], rfl, rfl, n + 1, ?_, ?_, fun j => ?_⟩
    · show s.smallIdx + 1 = _
      rw [hn]; push_cast; rfl
    · show n + 1 ≤ a.length
      rw [hwr.2, List.length_set]; exact hwr.1
    · show (t.box j).add w (x j) = axisBox w (p j) ((a.take (n + 1)).map (· j))
      have e1 : a.take (n + 1) = s.xsSeg.take n ++ [x] := by
        have hna : n < a.length := by rw [hwr.2, List.length_set]; exact hwr.1
        rw [List.take_succ_eq_append_getElem hna]
        congr 1
        · rw [hwr.2, List.take_set, List.set_eq_of_length_le (by rw [List.length_take]; omega)]
        · simp [hwr.2]
      rw [e1, hb j, List.map_append]
      unfold axisBox
      rw [List.foldl_append]
      rfl

/-- Headers that differ only in what is rounded. -/
structure SheetSim (a b : Sheet) : Prop where
  count : b.count = a.count
  countWidth : b.countWidth = a.countWidth
  segmentWidth : b.segmentWidth = a.segmentWidth
  gridWidth : b.gridWidth = a.gridWidth
  gridCount : b.gridCount = a.gridCount
  idx : b.idx = a.idx
  cells : b.cells = a.cells
  mass : b.mass = a.mass
  totalWidth : b.totalWidth = a.totalWidth

theorem copyToSegment_sim {a b hd : Sheet} {xs vs xsSeg vsSeg xs' vs' : List Vec} (h : SheetSim a b) (hg : 0 ≤ a.gridWidth)
    (e : copyToSegment a xs vs xsSeg vsSeg = some (hd, xs', vs'))
    (hl : (xs'.length : ℤ) = a.gridWidth * (a.gridWidth * a.gridWidth)) :
    ∃ hd' p, copyToSegment32 b xs vs xsSeg vsSeg = some (hd', xs', vs') ∧ SheetSim hd hd' ∧
      rd xs (a.segmentWidth * a.idx.tmod a.cells + a.countWidth * (a.segmentWidth * (a.idx.tdiv a.cells).tmod a.cells) +
        a.countWidth * a.countWidth * (a.segmentWidth * a.idx.tdiv (a.cells * a.cells))) = some p ∧
      ∀ j, (hd'.origin j, hd'.width j) = (axisBox a.totalWidth (p j) (xs'.map (· j))).stored a.totalWidth := by
  unfold copyToSegment at e
  split_ifs at e with hc
  obtain ⟨p, ep, e⟩ := Option.bind_eq_some_iff.mp e
  obtain ⟨v0, ev, e⟩ := Option.bind_eq_some_iff.mp e
  obtain ⟨s, es, e⟩ := Option.bind_eq_some_iff.mp e
  rw [Option.some.injEq, Prod.mk.injEq, Prod.mk.injEq] at e
  obtain ⟨rfl, rfl, rfl⟩ := e
  obtain ⟨t, et, ht⟩ : ∃ t, forRange (a.segmentWidth * a.idx.tdiv (a.cells * a.cells))
      (a.segmentWidth * a.idx.tdiv (a.cells * a.cells) + a.gridWidth) (fun z s =>
        forRange (a.segmentWidth * (a.idx.tdiv a.cells).tmod a.cells)
          (a.segmentWidth * (a.idx.tdiv a.cells).tmod a.cells + a.gridWidth) (fun y s =>
          forRange (a.segmentWidth * a.idx.tmod a.cells) (a.segmentWidth * a.idx.tmod a.cells + a.gridWidth) (fun x s =>
            copyStep32 a.totalWidth xs vs (wrapIdx a.countWidth x + wrapIdx a.countWidth y * a.countWidth +
              wrapIdx a.countWidth z * (a.countWidth * a.countWidth)) s) s) s)
      ⟨0, fun d => ⟨p d, 0, 0⟩, v0, v0, xsSeg, vsSeg⟩ = some t ∧ CopySim a.totalWidth p s t := by
    refine forRange_sim (R := CopySim a.totalWidth p) (fun z s t s' hR e => ?_) _ _ _
      ⟨rfl, rfl, rfl, rfl, rfl, 0, rfl, Nat.zero_le _, fun j => rfl⟩ es
    refine forRange_sim (R := CopySim a.totalWidth p) (fun y s t s' hR e => ?_) _ _ _ hR e
    refine forRange_sim (R := CopySim a.totalWidth p) (fun x s t s' hR e => ?_) _ _ _ hR e
    exact (copyStep_sim hR e).2
  have hidx : s.smallIdx = 0 + a.gridWidth * (a.gridWidth * (a.gridWidth * 1)) := by
    refine forRange_count (c := Copy.smallIdx) (fun z s s' e => ?_) hg es
    refine forRange_count (c := Copy.smallIdx) (fun y s s' e => ?_) hg e
    refine forRange_count (c := Copy.smallIdx) (fun x s s' e => ?_) hg e
    unfold copyStep at e
    obtain ⟨x, ex, e⟩ := Option.bind_eq_some_iff.mp e
    obtain ⟨a, ea, e⟩ := Option.bind_eq_some_iff.mp e
    obtain ⟨v, ev, e⟩ := Option.bind_eq_some_iff.mp e
    obtain ⟨b, eb, e⟩ := Option.bind_eq_some_iff.mp e
    rw [Option.some.injEq] at e
    subst e
    rfl
  obtain ⟨n, hn, hnl, hb⟩ := ht.box
  have hnx : n = s.xsSeg.length := by
    have : (n : ℤ) = s.xsSeg.length := by rw [← hn, hidx, hl]; ring
    exact_mod_cast this
  refine ⟨{ b with
      origin := fun d => ((t.box d).stored b.totalWidth).1
      width := fun d => ((t.box d).stored b.totalWidth).2
      velocityOrigin := t.vMin
      velocityWidth := fun d => f32 (t.vMax d - t.vMin d) }, p, ?_,
    ⟨h.count, h.countWidth, h.segmentWidth, h.gridWidth, h.gridCount, h.idx, h.cells, h.mass, h.totalWidth⟩, ep, ?_⟩
  · unfold copyToSegment32
    rw [if_neg (by rw [h.cells]; exact hc)]
    refine bind_of (a := p) ?_ (bind_of ev (bind_of (a := t) ?_ ?_))
    · rw [h.segmentWidth, h.idx, h.cells, h.countWidth]; exact ep
    · rw [h.segmentWidth, h.idx, h.cells, h.countWidth, h.gridWidth, h.totalWidth]; exact et
    · rw [ht.xsSeg, ht.vsSeg]
  · intro j
    show ((t.box j).stored b.totalWidth) = _
    rw [hb j, hnx, List.take_length, h.totalWidth]

/-- The index at which a segment begins. -/
theorem start_large {shd : Sheet} {N c sw m : ℕ} (h : HeaderOk shd N c sw m) :
    shd.segmentWidth * shd.idx.tmod shd.cells + shd.countWidth * (shd.segmentWidth * (shd.idx.tdiv shd.cells).tmod shd.cells) +
      shd.countWidth * shd.countWidth * (shd.segmentWidth * shd.idx.tdiv (shd.cells * shd.cells)) =
      (large N (sw + 1) (corner c sw m) 0 : ℕ) := by
  obtain ⟨f1, f2, f3⟩ := corner_fits h.cpos h.fits h.inside
  have lt1 : ∀ a b, a = sw * b → a + sw ≤ N → a < N := by
    intro a b hab hle
    have := h.pos
    rcases Nat.eq_zero_or_pos sw with e | e
    · rw [e, zero_mul] at hab; omega
    · omega
  have l1 := lt1 (corner c sw m).1 _ rfl f1
  have l2 := lt1 (corner c sw m).2.1 _ rfl f2
  have l3 := lt1 (corner c sw m).2.2 _ rfl f3
  unfold large particleAt
  rw [Nat.zero_mod, Nat.zero_div, Nat.zero_mod, Nat.zero_div, add_zero, add_zero, add_zero, Nat.mod_eq_of_lt l1,
    Nat.mod_eq_of_lt l2, Nat.mod_eq_of_lt l3]
  unfold corner
  rw [h.segmentWidth, h.idx, h.cells, h.countWidth, ← Int.natCast_mul c c, ← Int.ofNat_tdiv, ← Int.ofNat_tdiv,
    ← Int.ofNat_tmod, ← Int.ofNat_tmod]
  push_cast
  ring

/-! ## All segments -/

/-- A file and its version in machine arithmetic. -/
structure FileSim (f g : SheetFile) : Prop where
  name : g.name = f.name
  xs : g.xs = f.xs
  vs : g.vs = f.vs
  header : SheetSim f.header g.header
  box : StoredBox g

/-- The variables of the two versions of `writeGrids`, with `Written` for the first. -/
structure WriteSim (s t : Writing) : Prop where
  shd : SheetSim s.shd t.shd
  xsSeg : t.xsSeg = s.xsSeg
  vsSeg : t.vsSeg = s.vsSeg
  files : List.Forall₂ FileSim s.files t.files

theorem write_sim {hd : Catalog} {N c sw m : ℕ} {xs vs : List Vec} {s s' t : Writing} {i j k : ℕ} (hN : 0 < N)
    (hc : 0 < c) (hf : sw * c ≤ N) (hx : xs.length = N * N * N) (hv : vs.length = N * N * N)
    (hi : i < c) (hj : j < c) (hk : k < c) (hm : m = slot c i j k) (h : Written hd N c sw xs vs m s) (hs : WriteSim s t)
    (e : (do
      let (shd, xsSeg, vsSeg) ← copyToSegment s.shd xs vs s.xsSeg s.vsSeg
      some (⟨{ shd with idx := shd.idx + 1 }, xsSeg, vsSeg,
        s.files ++ [⟨sheetName i j k, shd, xsSeg, vsSeg⟩]⟩ : Writing)) = some s') :
    ∃ t', (do
      let (shd, xsSeg, vsSeg) ← copyToSegment32 t.shd xs vs t.xsSeg t.vsSeg
      some (⟨{ shd with idx := shd.idx + 1 }, xsSeg, vsSeg,
        t.files ++ [⟨sheetName i j k, shd, xsSeg, vsSeg⟩]⟩ : Writing)) = some t' ∧ WriteSim s' t' := by
  have hin : m < c * c * c := by rw [hm]; exact slot_lt hi hj hk
  have hh : HeaderOk s.shd N c sw m := ⟨h.cells, h.countWidth, h.segmentWidth, h.gridWidth, h.idx, hN, hc, hf, hin⟩
  obtain ⟨⟨shd', xs', vs'⟩, e1, e2⟩ := Option.bind_eq_some_iff.mp e
  rw [Option.some.injEq] at e2
  subst e2
  obtain ⟨r, er, hr⟩ := copyToSegment_ok hh hx hv h.xlen h.vlen
  rw [e1, Option.some.injEq, Prod.mk.injEq, Prod.mk.injEq] at er
  obtain ⟨-, ex, ev⟩ := er
  have hlen : xs'.length = (sw + 1) * (sw + 1) * (sw + 1) := by rw [ex]; exact hr.xlen
  obtain ⟨hd', p, e32, hsim, hp, hbox⟩ := copyToSegment_sim hs.shd (by rw [h.gridWidth]; omega) e1 (by
    rw [hlen, h.gridWidth]; push_cast; ring)
  have htot : shd'.totalWidth = s.shd.totalWidth := by
    obtain ⟨r', er', -⟩ := copyToSegment_ok hh hx hv h.xlen h.vlen
    rw [e1, Option.some.injEq, Prod.mk.injEq] at er'
    rw [er'.1]
  refine ⟨_, bind_of (a := (hd', xs', vs')) (by rw [hs.xsSeg, hs.vsSeg]; exact e32) rfl, ⟨?_, rfl, rfl, ?_⟩⟩
  · exact ⟨hsim.count, hsim.countWidth, hsim.segmentWidth, hsim.gridWidth, hsim.gridCount,
      by show hd'.idx + 1 = shd'.idx + 1; rw [hsim.idx], hsim.cells, hsim.mass, hsim.totalWidth⟩
  · refine List.rel_append hs.files (List.Forall₂.cons ⟨rfl, rfl, rfl, hsim, fun d => ?_⟩ .nil)
    have hp0 : xs'.headD 0 = p := by
      have h0 := hr.x 0 (by positivity)
      rw [start_large hh, rd_natCast] at hp
      rw [List.getD_eq_getElem?_getD, hp, ← ex] at h0
      rw [List.headD_eq_head?_getD, List.head?_eq_getElem?, h0]
      rfl
    show (hd'.origin d, hd'.width d) = _
    rw [hbox d]
    show _ = (axisBox hd'.totalWidth (xs'.headD 0 d) (xs'.map (· d))).stored hd'.totalWidth
    rw [hp0, hsim.totalWidth, htot]

/-- What `writeGrids` makes of segment `m` in machine arithmetic. -/
structure FileOk32 (hd : Catalog) (N c sw m : ℕ) (xs vs : List Vec) (f : SheetFile) : Prop where
  name : f.name = sheetName ((m % c : ℕ) : ℤ) ((m / c % c : ℕ) : ℤ) ((m / (c * c) : ℕ) : ℤ)
  xblock : IsBlock N (sw + 1) (corner c sw m).1 (corner c sw m).2.1 (corner c sw m).2.2 xs f.xs
  vblock : IsBlock N (sw + 1) (corner c sw m).1 (corner c sw m).2.1 (corner c sw m).2.2 vs f.vs
  segmentWidth : f.header.segmentWidth = sw
  totalWidth : f.header.totalWidth = hd.totalWidth
  box : StoredBox f
  mem : ∀ x ∈ f.xs, x ∈ xs

theorem FileSim.ok {hd : Catalog} {N c sw m : ℕ} {xs vs : List Vec} {f g : SheetFile} (h : FileOk hd N c sw m xs vs f)
    (hs : FileSim f g) (hx : xs.length = N * N * N) (hv : vs.length = N * N * N) : FileOk32 hd N c sw m xs vs g where
  name := hs.name.trans h.name
  xblock := by rw [hs.xs]; exact h.xblock
  vblock := by rw [hs.vs]; exact h.vblock
  segmentWidth := hs.header.segmentWidth.trans (h.segmentWidth hx hv)
  totalWidth := by
    obtain ⟨s0, xsS, vsS, hh, ht, l1, l2, e⟩ := h.head
    obtain ⟨s, es, -⟩ := copyToSegment_ok hh hx hv l1 l2
    rw [e, Option.some.injEq] at es
    rw [hs.header.totalWidth, (Prod.mk.inj es).1]
    exact ht
  box := hs.box
  mem := by rw [hs.xs]; exact h.mem hx hv

/-- The files written in machine arithmetic: the same particles as in exact arithmetic, and the extent of the box that grew
with rounding. -/
theorem writeGrids32_ok (hd : Catalog) (N c : ℕ) (hN : 0 < N) (hc : 0 < c) (hcw : hd.countWidth = N)
    (xs vs : List Vec) (hx : xs.length = N * N * N) (hv : vs.length = N * N * N) :
    ∃ files, writeGrids32 hd c xs vs = some files ∧ files.length = c * c * c ∧
      ∀ m < c * c * c, ∃ f, files[m]? = some f ∧ FileOk32 hd N c (N / c) m xs vs f := by
  have hsw : hd.countWidth.tdiv (c : ℤ) = ((N / c : ℕ) : ℤ) := by rw [hcw, Int.ofNat_tdiv]
  set sw := N / c with hswd
  have hf : sw * c ≤ N := Nat.div_mul_le_self N c
  have hg : (sheetHeader hd c).gridCount = (((sw + 1) * (sw + 1) * (sw + 1) : ℕ) : ℤ) := by
    unfold sheetHeader
    simp only [hsw]
    push_cast
    rfl
  have hg0 : ¬ (sheetHeader hd c).gridCount < 0 := by rw [hg]; exact not_lt.mpr (Int.natCast_nonneg _)
  have step : ∀ (x y z : ℕ) (t : Writing), x < c → y < c → z < c →
      (∃ s, Written hd N c sw xs vs (slot c x y z) s ∧ WriteSim s t) →
      ∃ t', (do
        let (shd, xsSeg, vsSeg) ← copyToSegment32 t.shd xs vs t.xsSeg t.vsSeg
        some (⟨{ shd with idx := shd.idx + 1 }, xsSeg, vsSeg,
          t.files ++ [⟨sheetName x y z, shd, xsSeg, vsSeg⟩]⟩ : Writing)) = some t' ∧
        ∃ s, Written hd N c sw xs vs (slot c (x + 1) y z) s ∧ WriteSim s t' := by
    intro x y z t h1 h2 h3 ⟨s, hs, hst⟩
    obtain ⟨s', e, hs'⟩ := write_step hN hc hf hx hv h1 h2 h3 rfl hs
    obtain ⟨t', e', ht'⟩ := write_sim hN hc hf hx hv h1 h2 h3 rfl hs hst e
    refine ⟨t', e', s', ?_, ht'⟩
    rwa [show slot c (x + 1) y z = slot c x y z + 1 by unfold slot; omega]
  obtain ⟨t, e, s, hs, hst⟩ := forRange_nat (fun z t => ∃ s, Written hd N c sw xs vs (slot c 0 0 z) s ∧ WriteSim s t)
    (lo := 0) (hi := c) (Nat.zero_le _)
    (fun z (s : Writing) =>
      forRange 0 c (fun y (s : Writing) =>
        forRange 0 c (fun x (s : Writing) => do
          let (shd, xsSeg, vsSeg) ← copyToSegment32 s.shd xs vs s.xsSeg s.vsSeg
          some ⟨{ shd with idx := shd.idx + 1 }, xsSeg, vsSeg, s.files ++ [⟨sheetName x y z, shd, xsSeg, vsSeg⟩]⟩)
          s) s)
    ⟨sheetHeader hd c, List.replicate (sheetHeader hd c).gridCount.toNat 0,
      List.replicate (sheetHeader hd c).gridCount.toNat 0, []⟩
    (by
      have hz : slot c 0 0 0 = 0 := by simp [slot]
      refine ⟨_, ?_, ⟨⟨rfl, rfl, rfl, rfl, rfl, rfl, rfl, rfl, rfl⟩, rfl, rfl, .nil⟩⟩
      refine ⟨rfl, hcw, hsw, ?_, ?_, rfl, ?_, ?_, ?_, ?_⟩
      · change hd.countWidth.tdiv (c : ℤ) + 1 = _
        rw [hsw]
      · rw [hz]; rfl
      · rw [List.length_replicate, hg, Int.toNat_natCast]
      · rw [List.length_replicate, hg, Int.toNat_natCast]
      · rw [hz]; rfl
      · intro n hn
        rw [hz] at hn
        omega)
    (by
      intro z t _ hz hs
      obtain ⟨t', e, hs'⟩ := forRange_nat
        (fun y t => ∃ s, Written hd N c sw xs vs (slot c 0 y z) s ∧ WriteSim s t) (lo := 0) (hi := c)
        (Nat.zero_le _)
        (fun y (s : Writing) =>
          forRange 0 c (fun x (s : Writing) => do
            let (shd, xsSeg, vsSeg) ← copyToSegment32 s.shd xs vs s.xsSeg s.vsSeg
            some ⟨{ shd with idx := shd.idx + 1 }, xsSeg, vsSeg,
              s.files ++ [⟨sheetName x y z, shd, xsSeg, vsSeg⟩]⟩) s) t hs
        (by
          intro y t _ hy hs
          obtain ⟨t', e, hs'⟩ := forRange_nat
            (fun x t => ∃ s, Written hd N c sw xs vs (slot c x y z) s ∧ WriteSim s t) (lo := 0)
            (hi := c) (Nat.zero_le _)
            (fun x (s : Writing) => do
              let (shd, xsSeg, vsSeg) ← copyToSegment32 s.shd xs vs s.xsSeg s.vsSeg
              some ⟨{ shd with idx := shd.idx + 1 }, xsSeg, vsSeg,
                s.files ++ [⟨sheetName x y z, shd, xsSeg, vsSeg⟩]⟩) t hs
            (fun x t _ hxc hs => step x y z t hxc hy hz hs)
          refine ⟨t', e, ?_⟩
          rwa [show slot c 0 (y + 1) z = slot c c y z by unfold slot; rw [add_mul]; omega])
      refine ⟨t', e, ?_⟩
      rwa [show slot c 0 0 (z + 1) = slot c 0 c z by unfold slot; rw [add_mul]; omega])
  rw [show slot c 0 0 c = c * c * c by unfold slot; ring] at hs
  refine ⟨t.files, ?_, by rw [← hst.files.length_eq]; exact hs.flen, fun m hm => ?_⟩
  · unfold writeGrids32
    rw [if_neg (by omega)]
    simp only
    rw [if_neg hg0]
    exact bind_of e rfl
  · obtain ⟨f, hf1, hf2⟩ := hs.file m hm
    have hm' : m < t.files.length := by rw [← hst.files.length_eq, hs.flen]; exact hm
    have hm1 : m < s.files.length := by rw [hs.flen]; exact hm
    refine ⟨t.files[m], List.getElem?_eq_getElem hm', ?_⟩
    rw [List.getElem?_eq_getElem hm1, Option.some.injEq] at hf1
    have := hst.files.get hm1 hm'
    simp only [List.get_eq_getElem] at this
    rw [hf1] at this
    exact this.ok hf2 hx hv

end Verif.Fp
