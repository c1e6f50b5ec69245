import Verif.Fp.Wrap
import Verif.Main.Pipeline
import Verif.Render.Stuck

/-!
# C126: from Gadget coordinates to the image, with the rounding of the positions

Reading wraps the coordinates in machine arithmetic (C125). Conversion and rendering are those of C108, in exact arithmetic;
in the counterexample all numbers are small multiples of 1/8, for which machine arithmetic is exact, except for the
coordinate that is wrapped.
-/

set_option autoImplicit false

namespace Verif.Fp

open Verif.Go Verif.Geom Verif.Render Verif.Main

/-- Single precision coordinates that are wrapped to places inside the box (C125). -/
def Wraps (L x : ℚ) : Prop := F32 x ∧ (0 ≤ x ∧ x < 2 * L ∨ -L ≤ x ∧ x ≤ -(L / 2 ^ 23))

/-- C126: coordinates that are not negative and tiny give the density image of C108. -/
theorem C126_partial (hd : Catalog) (N c : ℕ) (hN : 0 < N) (hc : 0 < c) (hcw : hd.countWidth = N) (hdvd : c ∣ N)
    (raw vs : List Vec) (hx : raw.length = N * N * N) (hv : vs.length = N * N * N) (hL : 0 < hd.totalWidth)
    (hF : F32 hd.totalWidth) (hin : ∀ x ∈ raw, ∀ j, Wraps hd.totalWidth (x j))
    (skip : ℕ) (hs : 0 < skip) (hsd : skip ∣ N / c) (pts : ℕ) (hpts : 0 < pts) (cells : ℤ) (hcells : 0 < cells) (b : RBox)
    (hb : b = RBox.new hd.totalWidth pts cells (fun _ => 0) (fun _ => hd.totalWidth) none)
    (unitBufs : List (List Vec)) (hu : 0 < unitBufs.length)
    (hunit : ∀ u ∈ unitBufs, pts ≤ u.length ∧ ∀ p ∈ u, UnitPoint p) (m : ℕ) :
    ∃ files, writeGrids hd c (gadgetXs hd.totalWidth raw) vs = some files ∧ (∀ f ∈ files, GoodFile hd.totalWidth f) ∧
      ∀ ps : List Pass, ps.map Pass.file = files → (∀ p ∈ ps, p.Ok hd.totalWidth b skip unitBufs false) →
        (∃ out : List ℚ, Rendered false m (b.passes skip unitBufs (fun _ _ =>
            mcPtVal false pts skip (rendererPtVal false cells hd.countWidth)) ps)
            (List.replicate (boxLen3 b.cb).toNat 0) out) ∧
        ∀ out : List ℚ, Rendered false m (b.passes skip unitBufs (fun _ _ =>
            mcPtVal false pts skip (rendererPtVal false cells hd.countWidth)) ps)
            (List.replicate (boxLen3 b.cb).toNat 0) out →
          out.sum = cells ^ 3 := by
  obtain ⟨files, e, hg, hrun⟩ := C108_whole_box hd N c hN hc hcw hdvd (gadgetXs hd.totalWidth raw) vs
    (by rw [gadgetXs, List.length_map]; exact hx) hv hL (by
      intro x hxm j
      obtain ⟨y, hy, rfl⟩ := List.mem_map.mp hxm
      obtain ⟨h32, h⟩ := hin y hy j
      rcases h with ⟨h0, h1⟩ | ⟨h0, h1⟩
      · obtain ⟨a, b, -⟩ := C125_gadget_exact hF h32 h0 h1
        exact ⟨a, b⟩
      · have hz : (0 : ℚ) < hd.totalWidth / 2 ^ 23 := by positivity
        obtain ⟨a, -, -, b⟩ := C125_gadget_partial (F32.f64 hF) h0 (by linarith)
        exact ⟨a, b hF h1⟩)
    skip hs hsd pts hpts cells hcells b hb unitBufs hu hunit m
  exact ⟨files, e, hg, fun ps h1 h2 => ⟨(hrun ps h1 h2).1, fun out ho => ((hrun ps h1 h2).2 out ho).1⟩⟩

/-- Two layers of particles two units apart, in a box of width 8; the first one is just below the box. -/
def lowRaw : List Vec :=
  [![0, 0, -(1 / 2 ^ 40)], ![2, 0, 0], ![0, 2, 0], ![2, 2, 0], ![0, 0, 2], ![2, 0, 2], ![0, 2, 2], ![2, 2, 2]]

/-- The same with the first particle just inside the box. -/
def insideRaw : List Vec :=
  [![0, 0, 1 / 2 ^ 40], ![2, 0, 0], ![0, 2, 0], ![2, 2, 0], ![0, 0, 2], ![2, 0, 2], ![0, 2, 2], ![2, 2, 2]]

/-- The hypotheses of `C126_partial` are met. -/
example : ∀ x ∈ insideRaw, ∀ j, Wraps 8 (x j) := by
  have i : ∀ k : ℤ, |k| < 3 → F32 (k : ℚ) := fun k hk => rep_of_int (by norm_num; omega) (by norm_num)
  have h0 : Wraps 8 0 := ⟨rep_zero _, .inl (by norm_num)⟩
  have h2 : Wraps 8 2 := ⟨by simpa using i 2 (by norm_num), .inl (by norm_num)⟩
  have ht : Wraps 8 (1 / 2 ^ 40) := ⟨⟨1, -40, by norm_num, by norm_num⟩, .inl (by norm_num)⟩
  intro x hx j
  simp only [insideRaw, List.mem_cons, List.not_mem_nil, or_false] at hx
  rcases hx with rfl | rfl | rfl | rfl | rfl | rfl | rfl | rfl <;> fin_cases j <;> first | exact h0 | exact h2 | exact ht

/-- The first pass of the counterexample. -/
def badPass (f : SheetFile) : Pass := ⟨f, fun _ _ => 0, fun _ => []⟩

/-- The whole box in eight cells per side, one point per tetrahedron. -/
def badBox : RBox := RBox.new 8 1 8 (fun _ => 0) (fun _ => 8) none

/-- A unit buffer with one point. -/
def badUnits : List (List Vec) := [[![1 / 8, 1 / 8, 1 / 8]]]

/-- What is wrong with the first file. -/
def badFirst (val : ℚ) (files : Option (List SheetFile)) : Bool :=
  match files with
  | some (f :: _) =>
    let p := badBox.pass 1 badUnits (fun _ => val) f (fun _ _ => 0) (fun _ => [])
    badBox.requires f && decide (f.header.segmentWidth = 1) &&
      (mcVisit p.mc false p.sub (p.pick 0) p.xs p.vs (0, 0) (p.init 0)).isNone
  | _ => false

theorem visits_one (m : ℕ) : ∃ vs, workerVisits 1 1 (m + 1) 0 = (0, 0) :: vs := by
  have h : ((segLen 1 1 - 0 + ((m : ℤ) + 1) - 1) / ((m : ℤ) + 1)).toNat = 1 := by
    have : segLen 1 1 - 0 + ((m : ℤ) + 1) - 1 = (m : ℤ) + 1 := by
      rw [show segLen 1 1 = 1 from by decide]; ring
    rw [this, Int.ediv_self (by omega)]
    rfl
  unfold workerVisits
  rw [h]
  simp only [List.range_one, List.flatMap_cons, List.flatMap_nil, List.append_nil, Nat.cast_zero, zero_mul, add_zero]
  exact ⟨_, rfl⟩

/-- C126: a snapshot whose coordinates all lie within one box width of the box is converted without complaint, but no
number of workers and no schedule renders the whole box: the first particle, just below the box, is stored at its upper
end, and samples near it leave the buffer of their segment. -/
theorem C126_counterexample :
    (∀ x ∈ lowRaw, ∀ j, F32 (x j) ∧ -8 ≤ x j ∧ x j < 2 * 8) ∧ (∀ u ∈ badUnits, ∀ p ∈ u, UnitPoint p) ∧
    ∃ files, writeGrids ⟨8, 8, 2, 1, 8⟩ 2 (gadgetXs 8 lowRaw) (List.replicate 8 0) = some files ∧
      ∀ (m : ℕ) (grid out : List ℚ),
        ¬ Rendered false m (badBox.passes 1 badUnits (fun _ _ => mcPtVal false 1 1 (rendererPtVal false 8 2))
          (files.map badPass)) grid out := by
  refine ⟨?_, ?_, ?_⟩
  · have i : ∀ k : ℤ, |k| < 3 → F32 (k : ℚ) := fun k hk => rep_of_int (by norm_num; omega) (by norm_num)
    have h0 : F32 0 ∧ (-8 : ℚ) ≤ 0 ∧ (0 : ℚ) < 2 * 8 := ⟨rep_zero _, by norm_num⟩
    have h2 : F32 2 ∧ (-8 : ℚ) ≤ 2 ∧ (2 : ℚ) < 2 * 8 := ⟨by simpa using i 2 (by norm_num), by norm_num⟩
    have ht : F32 (-(1 / 2 ^ 40)) ∧ (-8 : ℚ) ≤ -(1 / 2 ^ 40) ∧ (-(1 / 2 ^ 40) : ℚ) < 2 * 8 :=
      ⟨⟨-1, -40, by norm_num, by norm_num⟩, by norm_num⟩
    intro x hx j
    simp only [lowRaw, List.mem_cons, List.not_mem_nil, or_false] at hx
    rcases hx with rfl | rfl | rfl | rfl | rfl | rfl | rfl | rfl <;> fin_cases j <;> first | exact h0 | exact h2 | exact ht
  · intro u hu p hp
    simp only [badUnits, List.mem_cons, List.not_mem_nil, or_false] at hu
    subst hu
    simp only [List.mem_cons, List.not_mem_nil, or_false] at hp
    subst hp
    simp [UnitPoint]
    norm_num
  · have key : badFirst (mcPtVal false 1 1 (rendererPtVal false 8 2))
        (writeGrids ⟨8, 8, 2, 1, 8⟩ 2 (gadgetXs 8 lowRaw) (List.replicate 8 0)) = true := by decide +kernel
    generalize writeGrids ⟨8, 8, 2, 1, 8⟩ 2 (gadgetXs 8 lowRaw) (List.replicate 8 0) = w at key
    generalize mcPtVal false 1 1 (rendererPtVal false 8 2) = val at key ⊢
    rcases w with - | ⟨- | ⟨f, fs⟩⟩
    · cases key
    · cases key
    refine ⟨f :: fs, rfl, fun m grid out hr => ?_⟩
    simp only [badFirst, Bool.and_eq_true, decide_eq_true_eq, Option.isNone_iff_eq_none] at key
    obtain ⟨⟨k1, k2⟩, k3⟩ := key
    obtain ⟨vs, hvs⟩ := visits_one m
    rw [RBox.passes, List.map_cons, List.filter_cons_of_pos (by exact k1), List.map_cons] at hr
    refine Rendered.not_of_first (v := (0, 0)) (vs := vs) ?_ ?_ hr
    · show workerVisits f.header.segmentWidth 1 (m + 1) 0 = _
      rw [k2]
      exact hvs
    · exact k3

end Verif.Fp
