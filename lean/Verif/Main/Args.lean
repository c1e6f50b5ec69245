import Verif.Main.ArgsModel
import Verif.Main.Basic
import Verif.Io.Config
import Verif.Hist.Files

/-!
# C135: what is checked before a mode starts; C136: the number of threads
-/

set_option autoImplicit false

namespace Verif.Main

open Verif.Go Verif.Io

/-! ## Specification -/

/-- Only the flag `-Render` is given. -/
def Args.OnlyRender (a : Args) : Prop :=
  a.render ≠ "" ∧ a.convertSnapshot = "" ∧ a.exampleConfig = "" ∧ a.tetraHist = ""

/-- Only the flag `-TetraHist` is given. -/
def Args.OnlyHist (a : Args) : Prop :=
  a.render = "" ∧ a.convertSnapshot = "" ∧ a.exampleConfig = "" ∧ a.tetraHist ≠ ""

/-- Only the flag `-ConvertSnapshot` is given. -/
def Args.OnlyConvert (a : Args) : Prop :=
  a.render = "" ∧ a.convertSnapshot ≠ "" ∧ a.exampleConfig = "" ∧ a.tetraHist = ""

/-- Only the flag `-ExampleConfig` is given. -/
def Args.OnlyExample (a : Args) : Prop :=
  a.render = "" ∧ a.convertSnapshot = "" ∧ a.exampleConfig ≠ "" ∧ a.tetraHist = ""

/-- The settings of a rendering that are required: where from, where to, a size of the image, a number of points, a positive
subsampling length. -/
structure RenderSettings.Given (con : RenderSettings) : Prop where
  input : con.input ≠ ""
  output : con.output ≠ ""
  subsample : 0 < con.con.subsampleLength
  pixels : 0 < con.con.imagePixels ∨ 0 < con.con.totalPixels
  points : 0 < con.con.particles ∨ 0 < con.con.projectionDepth ∨ con.con.autoParticles = true

/-- The settings of a histogram that are required: where from, where to, a subsampling length that is a power of two, a scale
and a range that fits it. -/
structure HistSettings.Given (con : HistSettings) : Prop where
  input : con.input ≠ ""
  output : con.output ≠ ""
  subsample : ∃ k : ℕ, con.subsampleLength = 2 ^ k
  scale : con.histScale = "Linear" ∨ con.histScale = "Log"
  range : con.histMin < con.histMax
  log : con.histScale = "Log" → 0 < con.histMin

/-- The settings of a conversion that are required: one snapshot or a sequence of them, each with a place for the output, a
number of cells, a size of the IDs and a format that can be read. -/
structure ConvertSettings.Given (con : ConvertSettings) : Prop where
  place : (con.con.iteratedInput ≠ "" ∧ con.con.iteratedOutput ≠ "") ∨
    (con.con.iteratedInput = "" ∧ con.con.iteratedOutput = "" ∧ con.con.input ≠ "" ∧ con.con.output ≠ "")
  cells : 0 < con.con.cells
  ids : con.gadget2IDSize = 32 ∨ con.gadget2IDSize = 64
  format : con.inputFormat = "LGadget-2" ∨ con.inputFormat = "Arepo-type-2"

/-! ## The checks -/

theorem checkRender_iff (con : RenderSettings) (bounds : List String) :
    (checkRender con bounds = .render con bounds ↔ con.Given ∧ bounds ≠ []) ∧
      (checkRender con bounds = .render con bounds ∨ checkRender con bounds = .fatal) := by
  unfold checkRender renderValidSubsampleLength
  have hb : bounds.length < 1 ↔ bounds = [] := by
    rw [Nat.lt_one_iff, List.length_eq_zero_iff]
  simp only [hb]
  constructor
  · constructor
    · intro h
      split_ifs at h with h1 h2 h3 h4 h5 h6
      simp only [Bool.not_eq_true', Bool.and_eq_true, decide_eq_false_iff_not, not_and, not_not, gt_iff_lt, ne_eq,
        not_lt] at h1 h2 h3 h4 h5
      refine ⟨⟨h1, h2, by omega, ?_, ?_⟩, h6⟩
      · by_cases h : 0 < con.con.imagePixels
        · exact .inl h
        · exact .inr (by have := h4 (by omega); omega)
      · by_cases h : 0 < con.con.particles
        · exact .inl h
        · by_cases h' : 0 < con.con.projectionDepth
          · exact .inr (.inl h')
          · exact .inr (.inr (by simpa using h5 ⟨by omega, by omega⟩))
    · rintro ⟨⟨h1, h2, h3, h4, h5⟩, h6⟩
      have e4 : (!decide (con.con.imagePixels > 0) && !decide (con.con.totalPixels > 0)) = false := by
        rcases h4 with h | h <;> simp [h]
      have e5 : (!decide (con.con.particles > 0) && !decide (con.con.projectionDepth > 0) && !con.con.autoParticles) = false := by
        rcases h5 with h | h | h <;> simp [h]
      simp [h1, h2, h3, e4, e5, h6]
  · split_ifs <;> simp

theorem checkHist_iff (con : HistSettings) (bounds : List String) :
    (checkHist con bounds = .hist con bounds ↔ con.Given ∧ bounds ≠ []) ∧
      (checkHist con bounds = .hist con bounds ∨ checkHist con bounds = .fatal) := by
  unfold checkHist
  have hb : bounds.length < 1 ↔ bounds = [] := by
    rw [Nat.lt_one_iff, List.length_eq_zero_iff]
  have hs := C71_subsample_hist con.subsampleLength
  have hr : con.validHistScale = true ↔ con.histScale = "Linear" ∨ con.histScale = "Log" := by
    simp [HistSettings.validHistScale]
  have hm : con.validHistMin = true ↔
      (con.histScale = "Linear" ∨ (con.histScale = "Log" ∧ 0 < con.histMin)) ∧ con.histMin < con.histMax := by
    simp [HistSettings.validHistMin]
  have hM : con.validHistMax = true ↔
      (con.histScale = "Linear" ∨ (con.histScale = "Log" ∧ 0 < con.histMax)) ∧ con.histMin < con.histMax := by
    simp [HistSettings.validHistMax]
  have hne : ("Linear" : String) ≠ "Log" := by decide
  simp only [hb]
  constructor
  · constructor
    · intro h
      split_ifs at h with h1 h2 h3 h4 h5 h6
      simp only [Bool.not_eq_true', Bool.or_eq_true, not_or, Bool.not_eq_false, ne_eq, decide_not, decide_eq_true_eq,
        Bool.not_not] at h1 h2 h3 h4 h5
      have k := hm.mp h5.1
      refine ⟨⟨h1, h2, hs.mp h3, hr.mp h4, k.2, ?_⟩, h6⟩
      intro e
      rcases k.1 with k | k
      · exact absurd (k.symm.trans e) hne
      · exact k.2
    · rintro ⟨⟨h1, h2, h3, h4, h5, h7⟩, h6⟩
      have e3 := hs.mpr h3
      have e4 := hr.mpr h4
      have e5 : con.validHistMin = true := by
        refine hm.mpr ⟨?_, h5⟩
        rcases h4 with h | h
        · exact .inl h
        · exact .inr ⟨h, h7 h⟩
      have e6 : con.validHistMax = true := by
        refine hM.mpr ⟨?_, h5⟩
        rcases h4 with h | h
        · exact .inl h
        · exact .inr ⟨h, (h7 h).trans h5⟩
      simp [h1, h2, e3, e4, e5, e6, h6]
  · split_ifs <;> simp

theorem checkConvert_iff (con : ConvertSettings) :
    (checkConvert con = .convert con ↔ con.Given) ∧ (checkConvert con = .convert con ∨ checkConvert con = .fatal) := by
  unfold checkConvert
  constructor
  · constructor
    · intro h
      split_ifs at h with h1 h2 h3 h4 h5 h6
      simp only [Bool.not_eq_true', Bool.and_eq_true, decide_eq_false_iff_not, not_and, not_not, gt_iff_lt, ne_eq,
        not_lt, Bool.or_eq_true, decide_eq_true_eq, Bool.or_eq_false_iff, bne_iff_ne, decide_eq_decide] at h1 h2 h3 h4 h5
      refine ⟨?_, by omega, by omega, h6⟩
      by_cases h : con.con.iteratedInput = ""
      · have h' : con.con.iteratedOutput = "" := by
          by_contra hc
          exact h4.mpr hc h
        exact .inr ⟨h, h', fun e => h1 e h, fun e => h2 e h'⟩
      · exact .inl ⟨h, h4.mp h⟩
    · rintro ⟨h1, h2, h3, h4⟩
      rcases h1 with ⟨a, b⟩ | ⟨a, b, c, d⟩ <;> rcases h3 with h3 | h3 <;> simp [*]
  · split_ifs <;> simp

theorem printExample_iff (name s : String) :
    (printExample name = .print s ↔ s = name ∧ name ∈ ["ConvertSnapshot", "Render", "TetraHist", "Box", "Ball"]) ∧
      (printExample name = .print name ∨ printExample name = .fatal) := by
  unfold printExample
  constructor
  · split_ifs with h
    · simp only [Action.print.injEq, List.mem_cons, List.not_mem_nil, or_false]
      exact ⟨fun e => ⟨e.symm, h⟩, fun e => e.1.symm⟩
    · simp only [reduceCtorEq, List.mem_cons, List.not_mem_nil, or_false, false_iff, not_and]
      exact fun _ => h
  · split_ifs <;> simp

/-! ## The mode -/

theorem modeName_eq (a : Args) (n : String) : getModeName a.vars = some n ↔
    (n = "Render" ∧ a.OnlyRender) ∨ (n = "TetraHist" ∧ a.OnlyHist) ∨ (n = "ConvertSnapshot" ∧ a.OnlyConvert) ∨
      (n = "ExampleConfig" ∧ a.OnlyExample) := by
  rw [getModeName_iff]
  unfold Args.OnlyRender Args.OnlyHist Args.OnlyConvert Args.OnlyExample Args.vars
  by_cases h1 : a.render = "" <;> by_cases h2 : a.convertSnapshot = "" <;> by_cases h3 : a.exampleConfig = "" <;>
    by_cases h4 : a.tetraHist = "" <;> simp only [List.filter, h1, h2, h3, h4, ne_eq, not_true_eq_false, not_false_eq_true, decide_true, decide_false,
      List.nil_eq, List.cons.injEq, Prod.mk.injEq, and_true, true_and, and_false, false_and, or_false, false_or,
      reduceCtorEq, exists_false, exists_and_left, exists_and_right, exists_eq', exists_eq_left', eq_comm (a := n)]

/-- What `main` does, by the flags that are given. -/
theorem mainAction_eq (cfg : Configs) (a : Args) {vars : List (String × String)} (hv : vars.Perm a.vars) :
    (a.OnlyRender → mainAction cfg a vars = match cfg.render a.render with
      | none => .fatal
      | some con => checkRender con a.rest) ∧
    (a.OnlyHist → mainAction cfg a vars = match cfg.hist a.tetraHist with
      | none => .fatal
      | some con => checkHist con a.rest) ∧
    (a.OnlyConvert → mainAction cfg a vars = match cfg.convert a.convertSnapshot with
      | none => .fatal
      | some con => checkConvert con) ∧
    (a.OnlyExample → mainAction cfg a vars = printExample a.exampleConfig) ∧
    (¬ a.OnlyRender → ¬ a.OnlyHist → ¬ a.OnlyConvert → ¬ a.OnlyExample → mainAction cfg a vars = .fatal) := by
  have key := modeName_eq a
  have e := C86_order vars a.vars hv
  refine ⟨fun h => ?_, fun h => ?_, fun h => ?_, fun h => ?_, fun h1 h2 h3 h4 => ?_⟩
  · unfold mainAction
    rw [e, (key "Render").mpr (.inl ⟨rfl, h⟩)]
    simp only [if_true]
    cases cfg.render a.render <;> rfl
  · unfold mainAction
    rw [e, (key "TetraHist").mpr (.inr (.inl ⟨rfl, h⟩))]
    simp only [String.reduceEq, if_false, if_true]
    cases cfg.hist a.tetraHist <;> rfl
  · unfold mainAction
    rw [e, (key "ConvertSnapshot").mpr (.inr (.inr (.inl ⟨rfl, h⟩)))]
    simp only [String.reduceEq, if_false, if_true]
    cases cfg.convert a.convertSnapshot <;> rfl
  · unfold mainAction
    rw [e, (key "ExampleConfig").mpr (.inr (.inr (.inr ⟨rfl, h⟩)))]
    simp only [String.reduceEq, if_false, if_true]
  · have : getModeName a.vars = none := by
      rw [Option.eq_none_iff_forall_ne_some]
      intro n hn
      rcases (key n).mp hn with h | h | h | h
      · exact h1 h.2
      · exact h2 h.2
      · exact h3 h.2
      · exact h4 h.2
    unfold mainAction
    rw [e, this]

theorem only_cases (a : Args) : a.OnlyRender ∨ a.OnlyHist ∨ a.OnlyConvert ∨ a.OnlyExample ∨
    (¬ a.OnlyRender ∧ ¬ a.OnlyHist ∧ ¬ a.OnlyConvert ∧ ¬ a.OnlyExample) := by
  tauto

theorem printExample_cases (s : String) : ∃ n, printExample s = .print n ∨ printExample s = .fatal :=
  ⟨s, (printExample_iff s s).2⟩

/-- C135: a rendering starts exactly when `-Render` is the only mode, its file can be read, the required settings are given
and there is a bounds file; it gets these settings and files. The order in which the flags are visited is irrelevant. -/
theorem C135_render (cfg : Configs) (a : Args) {vars : List (String × String)} (hv : vars.Perm a.vars)
    (con : RenderSettings) (bounds : List String) : mainAction cfg a vars = .render con bounds ↔
      a.OnlyRender ∧ cfg.render a.render = some con ∧ con.Given ∧ bounds = a.rest ∧ a.rest ≠ [] := by
  obtain ⟨m1, m2, m3, m4, m5⟩ := mainAction_eq cfg a hv
  constructor
  · intro h
    rcases only_cases a with o | o | o | o | o
    · rw [m1 o] at h
      cases hc : cfg.render a.render with
      | none => rw [hc] at h; cases h
      | some con' =>
        rw [hc] at h
        dsimp only at h
        have hk := (checkRender_iff con' a.rest)
        rcases hk.2 with k | k
        · have e := k.symm.trans h
          cases e
          exact ⟨o, rfl, (hk.1.mp k).1, rfl, (hk.1.mp k).2⟩
        · rw [k] at h
          cases h
    · rw [m2 o] at h
      cases hc : cfg.hist a.tetraHist with
      | none => rw [hc] at h; cases h
      | some con' =>
        rw [hc] at h
        dsimp only at h
        rcases (checkHist_iff con' a.rest).2 with k | k <;> rw [k] at h <;> cases h
    · rw [m3 o] at h
      cases hc : cfg.convert a.convertSnapshot with
      | none => rw [hc] at h; cases h
      | some con' =>
        rw [hc] at h
        dsimp only at h
        rcases (checkConvert_iff con').2 with k | k <;> rw [k] at h <;> cases h
    · rw [m4 o] at h
      rcases (printExample_iff a.exampleConfig a.exampleConfig).2 with k | k <;> rw [k] at h <;> cases h
    · rw [m5 o.1 o.2.1 o.2.2.1 o.2.2.2] at h
      cases h
  · rintro ⟨o, hc, hg, rfl, hr⟩
    rw [m1 o, hc]
    exact (checkRender_iff con a.rest).1.mpr ⟨hg, hr⟩

/-- C135: likewise for histograms. -/
theorem C135_hist (cfg : Configs) (a : Args) {vars : List (String × String)} (hv : vars.Perm a.vars)
    (con : HistSettings) (bounds : List String) : mainAction cfg a vars = .hist con bounds ↔
      a.OnlyHist ∧ cfg.hist a.tetraHist = some con ∧ con.Given ∧ bounds = a.rest ∧ a.rest ≠ [] := by
  obtain ⟨m1, m2, m3, m4, m5⟩ := mainAction_eq cfg a hv
  constructor
  · intro h
    rcases only_cases a with o | o | o | o | o
    · rw [m1 o] at h
      cases hc : cfg.render a.render with
      | none => rw [hc] at h; cases h
      | some con' =>
        rw [hc] at h
        dsimp only at h
        rcases (checkRender_iff con' a.rest).2 with k | k <;> rw [k] at h <;> cases h
    · rw [m2 o] at h
      cases hc : cfg.hist a.tetraHist with
      | none => rw [hc] at h; cases h
      | some con' =>
        rw [hc] at h
        dsimp only at h
        have hk := (checkHist_iff con' a.rest)
        rcases hk.2 with k | k
        · have e := k.symm.trans h
          cases e
          exact ⟨o, rfl, (hk.1.mp k).1, rfl, (hk.1.mp k).2⟩
        · rw [k] at h
          cases h
    · rw [m3 o] at h
      cases hc : cfg.convert a.convertSnapshot with
      | none => rw [hc] at h; cases h
      | some con' =>
        rw [hc] at h
        dsimp only at h
        rcases (checkConvert_iff con').2 with k | k <;> rw [k] at h <;> cases h
    · rw [m4 o] at h
      rcases (printExample_iff a.exampleConfig a.exampleConfig).2 with k | k <;> rw [k] at h <;> cases h
    · rw [m5 o.1 o.2.1 o.2.2.1 o.2.2.2] at h
      cases h
  · rintro ⟨o, hc, hg, rfl, hr⟩
    rw [m2 o, hc]
    exact (checkHist_iff con a.rest).1.mpr ⟨hg, hr⟩

/-- C135: likewise for conversions, which need no bounds file. -/
theorem C135_convert (cfg : Configs) (a : Args) {vars : List (String × String)} (hv : vars.Perm a.vars)
    (con : ConvertSettings) : mainAction cfg a vars = .convert con ↔
      a.OnlyConvert ∧ cfg.convert a.convertSnapshot = some con ∧ con.Given := by
  obtain ⟨m1, m2, m3, m4, m5⟩ := mainAction_eq cfg a hv
  constructor
  · intro h
    rcases only_cases a with o | o | o | o | o
    · rw [m1 o] at h
      cases hc : cfg.render a.render with
      | none => rw [hc] at h; cases h
      | some con' =>
        rw [hc] at h
        dsimp only at h
        rcases (checkRender_iff con' a.rest).2 with k | k <;> rw [k] at h <;> cases h
    · rw [m2 o] at h
      cases hc : cfg.hist a.tetraHist with
      | none => rw [hc] at h; cases h
      | some con' =>
        rw [hc] at h
        dsimp only at h
        rcases (checkHist_iff con' a.rest).2 with k | k <;> rw [k] at h <;> cases h
    · rw [m3 o] at h
      cases hc : cfg.convert a.convertSnapshot with
      | none => rw [hc] at h; cases h
      | some con' =>
        rw [hc] at h
        dsimp only at h
        have hk := (checkConvert_iff con')
        rcases hk.2 with k | k
        · have e := k.symm.trans h
          cases e
          exact ⟨o, rfl, hk.1.mp k⟩
        · rw [k] at h
          cases h
    · rw [m4 o] at h
      rcases (printExample_iff a.exampleConfig a.exampleConfig).2 with k | k <;> rw [k] at h <;> cases h
    · rw [m5 o.1 o.2.1 o.2.2.1 o.2.2.2] at h
      cases h
  · rintro ⟨o, hc, hg⟩
    rw [m3 o, hc]
    exact (checkConvert_iff con).1.mpr hg

/-- C135: an example is printed exactly when `-ExampleConfig` is the only mode and names one of the five examples. -/
theorem C135_example (cfg : Configs) (a : Args) {vars : List (String × String)} (hv : vars.Perm a.vars) (s : String) :
    mainAction cfg a vars = .print s ↔ a.OnlyExample ∧ s = a.exampleConfig ∧
      a.exampleConfig ∈ ["ConvertSnapshot", "Render", "TetraHist", "Box", "Ball"] := by
  obtain ⟨m1, m2, m3, m4, m5⟩ := mainAction_eq cfg a hv
  constructor
  · intro h
    rcases only_cases a with o | o | o | o | o
    · rw [m1 o] at h
      cases hc : cfg.render a.render with
      | none => rw [hc] at h; cases h
      | some con' =>
        rw [hc] at h
        dsimp only at h
        rcases (checkRender_iff con' a.rest).2 with k | k <;> rw [k] at h <;> cases h
    · rw [m2 o] at h
      cases hc : cfg.hist a.tetraHist with
      | none => rw [hc] at h; cases h
      | some con' =>
        rw [hc] at h
        dsimp only at h
        rcases (checkHist_iff con' a.rest).2 with k | k <;> rw [k] at h <;> cases h
    · rw [m3 o] at h
      cases hc : cfg.convert a.convertSnapshot with
      | none => rw [hc] at h; cases h
      | some con' =>
        rw [hc] at h
        dsimp only at h
        rcases (checkConvert_iff con').2 with k | k <;> rw [k] at h <;> cases h
    · rw [m4 o] at h
      exact ⟨o, (printExample_iff _ _).1.mp h⟩
    · rw [m5 o.1 o.2.1 o.2.2.1 o.2.2.2] at h
      cases h
  · rintro ⟨o, h⟩
    rw [m4 o]
    exact (printExample_iff _ _).1.mpr h

/-- C135: the program never gets to the place it calls impossible. -/
theorem C135_possible (cfg : Configs) (a : Args) {vars : List (String × String)} (hv : vars.Perm a.vars) :
    mainAction cfg a vars ≠ .panic := by
  obtain ⟨m1, m2, m3, m4, m5⟩ := mainAction_eq cfg a hv
  intro h
  rcases only_cases a with o | o | o | o | o
  · rw [m1 o] at h
    cases hc : cfg.render a.render with
    | none => rw [hc] at h; cases h
    | some con' =>
      rw [hc] at h
      dsimp only at h
      rcases (checkRender_iff con' a.rest).2 with k | k <;> rw [k] at h <;> cases h
  · rw [m2 o] at h
    cases hc : cfg.hist a.tetraHist with
    | none => rw [hc] at h; cases h
    | some con' =>
      rw [hc] at h
      dsimp only at h
      rcases (checkHist_iff con' a.rest).2 with k | k <;> rw [k] at h <;> cases h
  · rw [m3 o] at h
    cases hc : cfg.convert a.convertSnapshot with
    | none => rw [hc] at h; cases h
    | some con' =>
      rw [hc] at h
      dsimp only at h
      rcases (checkConvert_iff con').2 with k | k <;> rw [k] at h <;> cases h
  · rw [m4 o] at h
    rcases (printExample_iff a.exampleConfig a.exampleConfig).2 with k | k <;> rw [k] at h <;> cases h
  · rw [m5 o.1 o.2.1 o.2.2.1 o.2.2.2] at h
    cases h

/-! ### Examples -/

def exRenderSettings (skip : ℤ) : RenderSettings := ⟨"in", "out", "Density", ⟨0, 500, 25, 0, skip, false⟩⟩

def exHistSettings (quantity gridFile : String) (bins particles : ℤ) : HistSettings :=
  ⟨"in", "out", quantity, gridFile, 1 / 100, 10000, bins, "Log", particles, 4⟩

def exConvertSettings (format : String) : ConvertSettings := ⟨⟨"in", "out", "", "", 0, -1, 8⟩, 64, format⟩

theorem exRender_given {skip : ℤ} (h : 0 < skip) : (exRenderSettings skip).Given :=
  ⟨by simp [exRenderSettings], by simp [exRenderSettings], h, .inr (by simp [exRenderSettings]),
    .inl (by simp [exRenderSettings])⟩

theorem exHist_given (q g : String) (b p : ℤ) : (exHistSettings q g b p).Given :=
  ⟨by simp [exHistSettings], by simp [exHistSettings], ⟨2, by norm_num [exHistSettings]⟩, .inr rfl,
    by norm_num [exHistSettings], fun _ => by norm_num [exHistSettings]⟩

def exArgs (m : Fin 4) : Args :=
  ⟨if m = 0 then "a.cfg" else "", if m = 1 then "a.cfg" else "", if m = 2 then "Bounds" else "", if m = 3 then "a.cfg" else "",
    ["b.cfg"]⟩

def exConfigs (format : String) : Configs :=
  ⟨fun _ => some (exRenderSettings 3), fun _ => some (exHistSettings "Density" "g.gtet" 200 50),
    fun f => if f = "a.cfg" then some (exConvertSettings format) else none⟩

example : mainAction (exConfigs "LGadget-2") (exArgs 0) (exArgs 0).vars.reverse = .render (exRenderSettings 3) ["b.cfg"] :=
  (C135_render _ _ (List.reverse_perm _) _ _).mpr ⟨⟨by decide, by decide, by decide, by decide⟩, rfl,
    exRender_given (by norm_num), rfl, by decide⟩

example : mainAction (exConfigs "LGadget-2") (exArgs 3) (exArgs 3).vars = .hist (exHistSettings "Density" "g.gtet" 200 50)
    ["b.cfg"] :=
  (C135_hist _ _ (List.Perm.refl _) _ _).mpr ⟨⟨by decide, by decide, by decide, by decide⟩, rfl, exHist_given _ _ _ _, rfl,
    by decide⟩

example : mainAction (exConfigs "LGadget-2") (exArgs 1) (exArgs 1).vars = .convert (exConvertSettings "LGadget-2") ∧
    mainAction (exConfigs "Gadget-2") (exArgs 1) (exArgs 1).vars ≠ .convert (exConvertSettings "Gadget-2") := by
  constructor
  · exact (C135_convert _ _ (List.Perm.refl _) _).mpr ⟨⟨by decide, by decide, by decide, by decide⟩, by
      simp [exConfigs, exArgs],
      ⟨.inr ⟨by decide, by decide, by decide, by decide⟩, by decide, .inr rfl, .inl rfl⟩⟩
  · intro h
    have := ((C135_convert _ _ (List.Perm.refl _) _).mp h).2.2.format
    revert this
    simp [exConvertSettings]

example : mainAction (exConfigs "") { exArgs 2 with exampleConfig := "Ball" } ({ exArgs 2 with exampleConfig := "Ball" } : Args).vars =
    .print "Ball" :=
  (C135_example _ _ (List.Perm.refl _) _).mpr ⟨⟨by decide, by decide, by decide, by decide⟩, rfl, by decide⟩

example : mainAction (exConfigs "") (exArgs 0) (exArgs 0).vars ≠ .panic := C135_possible _ _ (List.Perm.refl _)

/-- C135 is false beyond these: a rendering starts with any positive subsampling length, although it must be a power of two;
a histogram starts with any number of bins, any number of particles, any quantity and no density grid, although all are
required; and the help text of `-ExampleConfig` offers "Bounds", which is refused. -/
theorem C135_counterexample (cfg : Configs) :
    (∀ skip : ℤ, 0 < skip → (cfg.render "a.cfg" = some (exRenderSettings skip)) →
      mainAction cfg (exArgs 0) (exArgs 0).vars = .render (exRenderSettings skip) ["b.cfg"]) ∧
    (∀ (q g : String) (bins particles : ℤ), cfg.hist "a.cfg" = some (exHistSettings q g bins particles) →
      mainAction cfg (exArgs 3) (exArgs 3).vars = .hist (exHistSettings q g bins particles) ["b.cfg"]) ∧
    mainAction cfg (exArgs 2) (exArgs 2).vars = .fatal := by
  refine ⟨fun skip h hc => ?_, fun q g b p hc => ?_, ?_⟩
  · exact (C135_render _ _ (List.Perm.refl _) _ _).mpr ⟨⟨by decide, by decide, by decide, by decide⟩, hc, exRender_given h, rfl,
      by decide⟩
  · exact (C135_hist _ _ (List.Perm.refl _) _ _).mpr ⟨⟨by decide, by decide, by decide, by decide⟩, hc, exHist_given _ _ _ _, rfl,
      by decide⟩
  · have h := (mainAction_eq cfg (exArgs 2) (List.Perm.refl _)).2.2.2.1 ⟨by decide, by decide, by decide, by decide⟩
    rw [h]
    simp [printExample, exArgs]

/-! ## The number of threads -/

/-- C136: for a positive number of threads a pass of the renderer starts exactly the workers 0, 1, ..., each once. -/
theorem C136_workers {n : ℕ} (hn : 0 < n) : passWorkers n = some ((List.range n).map fun (i : ℕ) => (i : ℤ)) := by
  obtain ⟨m, rfl⟩ : ∃ m, n = m + 1 := ⟨n - 1, by omega⟩
  unfold passWorkers
  rw [if_neg (by omega)]
  have hm : ((m + 1 : ℕ) : ℤ) - 1 = (m : ℤ) := by push_cast; omega
  have hl : ∀ i : ℕ, i < m + 1 → rd (List.replicate ((m + 1 : ℕ) : ℤ).toNat ()) (i : ℤ) = some () := by
    intro i hi
    rw [rd_natCast, List.getElem?_replicate, if_pos (by simpa using hi)]
  obtain ⟨s, e, h⟩ := forRange_nat (lo := 0) (hi := m) (fun k (s : List ℤ) => s = (List.range k).map fun (i : ℕ) => (i : ℤ))
    (Nat.zero_le _) (fun id ids => do
      let _ ← rd (List.replicate ((m + 1 : ℕ) : ℤ).toNat ()) id
      some (ids ++ [id])) [] rfl (by
    intro j s _ hj hs
    refine ⟨s ++ [(j : ℤ)], ?_, ?_⟩
    · rw [hl j (by omega)]
      rfl
    · rw [hs, List.range_succ, List.map_append, List.map_singleton])
  rw [hm]
  simp only [Nat.cast_zero] at e
  refine bind_of e ?_
  dsimp only
  refine bind_of (hl m (by omega)) ?_
  rw [h, List.range_succ, List.map_append, List.map_singleton]

example : passWorkers 3 = some [0, 1, 2] := C136_workers (n := 3) (by norm_num)

/-- C136: with a number of threads that is not positive the first pass panics; nothing rejects the number before. -/
theorem C136_render_counterexample {n : ℤ} (hn : n ≤ 0) : passWorkers n = none := by
  unfold passWorkers
  split_ifs with h
  · rfl
  · obtain rfl : n = 0 := by omega
    rfl

open Verif.Hist

/-- C136: the histograms are the same for every positive number of threads, under every schedule. -/
theorem C136_threads_partial {info : HistInfo} (hi : info.Valid) {g : DensityGrid} {L : ℚ} (hL : 0 < L)
    (hg : g.Ok L) (hneg : info.isLog = true → ∀ v ∈ g.values, 0 ≤ v) {unitBufs : List (List Geom.Vec)} (hu : UnitBufs unitBufs)
    {pick : ℕ → ℕ → ℤ → ℤ → ℤ} (hp : ∀ f i, PickOk unitBufs (pick f i)) {n n' : ℕ} (hn : 0 < n) (hn' : 0 < n')
    {order order' : ℕ → ℕ → List ℕ} (ho : ∀ f i, (order f i).Perm (List.range n))
    (ho' : ∀ f i, (order' f i).Perm (List.range n')) {files : List Hist.Sheet} (hf : files ≠ [])
    (hs : ∀ s ∈ files, s.Ok L) (pre app : List Char) {bounds : List BoundsFile} {cs : List BoxConfig}
    (hc : readAllBounds L bounds = some cs) (hr : ∀ c ∈ cs, RegionOk L (cornerOf c) (widthsOf c)) :
    ∃ out, tetraHistMain info pre app g 1 n unitBufs order pick files bounds = some out ∧
      tetraHistMain info pre app g 1 n' unitBufs order' pick files bounds = some out := by
  obtain ⟨out, e, hl, h⟩ := C118_files_partial hi hL hg hneg hu hp hn ho hf hs pre app hc hr
  obtain ⟨out', e', hl', h'⟩ := C118_files_partial hi hL hg hneg hu hp hn' ho' hf hs pre app hc hr
  refine ⟨out, e, ?_⟩
  rw [e']
  congr 1
  refine List.ext_getElem? fun i => ?_
  cases hi' : cs[i]? with
  | none =>
    have : cs.length ≤ i := List.getElem?_eq_none_iff.mp hi'
    rw [List.getElem?_eq_none (by omega), List.getElem?_eq_none (by omega)]
  | some c =>
    obtain ⟨rows, h1, h2, h3⟩ := h i c hi'
    obtain ⟨rows', h1', h2', h3'⟩ := h' i c hi'
    rw [h1, h1']
    congr 2
    refine List.ext_getElem? fun j => ?_
    by_cases hj : j < info.bins
    · rw [h3 j hj, h3' j hj]
    · rw [List.getElem?_eq_none (by omega), List.getElem?_eq_none (by omega)]

example : ∃ out, tetraHistMain exLin "a".toList "b".toList exDensity 1 3 exUnit (fun _ _ => [2, 0, 1]) (fun _ _ _ _ => 0)
      [exSheet 1 2 (1 / 2) 2] [exBounds] = some out ∧
    tetraHistMain exLin "a".toList "b".toList exDensity 1 1 exUnit (fun _ _ => [0]) (fun _ _ _ _ => 0)
      [exSheet 1 2 (1 / 2) 2] [exBounds] = some out :=
  C136_threads_partial exLin_valid (L := 10) (by norm_num) exDensity_ok (by simp [exLin]) exUnit_ok
    exPick_ok (n := 3) (n' := 1) (by norm_num) (by norm_num) (order := fun _ _ => [2, 0, 1]) (order' := fun _ _ => [0])
    (fun _ _ => by decide) (fun _ _ => by decide)
    (files := [exSheet 1 2 (1 / 2) 2]) (by simp) (by
      intro s hs
      rw [List.mem_singleton] at hs
      subst hs
      exact exSheet_ok (by norm_num) (by norm_num) (by norm_num) (by norm_num)) "a".toList "b".toList exBounds_read (by
      intro c hc k
      rw [List.mem_singleton] at hc
      subst hc
      fin_cases k <;> norm_num [cornerOf, widthsOf])

theorem histOneBox_zero (info : HistInfo) (s : Hist.Sheet) (g : DensityGrid) (skip : ℤ) (unitBufs : List (List Geom.Vec))
    (pick : ℤ → ℤ → ℤ) (box : HistBox) : histOneBox info s g skip 0 unitBufs [] pick box = some box := by
  unfold histOneBox
  split_ifs
  · rfl
  · simp [mergeHists]

theorem hist_zero (info : HistInfo) (g : DensityGrid) (skip : ℤ) (unitBufs : List (List Geom.Vec))
    (pick : ℕ → ℕ → ℤ → ℤ → ℤ) (files : List Hist.Sheet) (boxes : List HistBox) :
    hist info g skip 0 unitBufs (fun _ _ => []) pick files boxes =
      some (boxes.map fun b => { b with counts := List.replicate info.bins 0, centers := histCenters info }) := by
  unfold Hist.hist
  generalize (boxes.map fun b => ({ b with counts := List.replicate info.bins 0, centers := histCenters info } : HistBox)) = bs
  dsimp only
  induction files.zipIdx with
  | nil => rfl
  | cons f fs ih =>
    have : histFromFile info g skip 0 unitBufs (fun _ => []) (pick f.2) f.1 bs = some bs := by
      unfold histFromFile
      have h : bs.zipIdx.mapM (fun p => histOneBox info f.1 g skip 0 unitBufs [] (pick f.2 p.2) p.1) =
          bs.zipIdx.mapM (fun p => (some p.1 : Option HistBox)) := by
        congr 1
        funext p
        exact histOneBox_zero ..
      rw [h]
      have := List.mapM_pure (m := Option) (l := bs.zipIdx) (f := Prod.fst)
      refine this.trans ?_
      simp
    rw [List.foldlM_cons, this]
    exact ih

/-- C136 fails without threads: `-Threads 0` is accepted, and every histogram is written with the count zero in every row,
whatever the sheets are. -/
theorem C136_counterexample {info : HistInfo} (hi : info.Valid) (pre app : List Char) (g : DensityGrid) (skip : ℤ)
    (unitBufs : List (List Geom.Vec)) (pick : ℕ → ℕ → ℤ → ℤ → ℤ) (s : Hist.Sheet) (files : List Hist.Sheet)
    (bounds : List BoundsFile) (cs : List BoxConfig) (hc : readAllBounds s.totalWidth bounds = some cs) :
    ∃ out, tetraHistMain info pre app g skip 0 unitBufs (fun _ _ => []) pick (s :: files) bounds = some out ∧
      out.length = cs.length ∧ ∀ f ∈ out, f.2.length = info.bins ∧ ∀ row ∈ f.2, row.2 = 0 := by
  obtain ⟨c1, c2⟩ := C59_centers hi
  have hrow : ∀ b : HistBox, b.counts = List.replicate info.bins 0 → b.centers = histCenters info →
      histRows b = some ((List.range info.bins).map fun (j : ℕ) => (edge info (j + 1 / 2), (0 : ℤ))) := by
    intro b h1 h2
    exact histRows_eq hi h2 (F := fun _ => 0) (by rw [h1]; exact Render.cells_zero _)
  refine ⟨cs.map fun c => (histName pre c.name app, (List.range info.bins).map fun (j : ℕ) => (edge info (j + 1 / 2), (0 : ℤ))),
    ?_, by simp, ?_⟩
  · unfold tetraHistMain
    refine bind_of (a := s) rfl (bind_of hc ?_)
    dsimp only
    refine bind_of (hist_zero ..) ?_
    have : ∀ q ∈ cs.zip ((cs.map fun c => newHistBox c info.bins).map fun b =>
          ({ b with counts := List.replicate info.bins 0, centers := histCenters info } : HistBox)),
        (do let rows ← histRows q.2; some (histName pre q.1.name app, rows)) =
          some (histName pre q.1.name app, (List.range info.bins).map fun (j : ℕ) => (edge info (j + 1 / 2), (0 : ℤ))) := by
      intro q hq
      obtain ⟨b, -, hb⟩ := List.mem_map.mp (List.of_mem_zip hq).2
      exact bind_of (hrow q.2 (by rw [← hb]) (by rw [← hb])) rfl
    rw [mapM_exact this]
    congr 1
    have hz : ∀ l : List HistBox, l.length = cs.length → (cs.zip l).map (fun q => (histName pre q.1.name app,
        (List.range info.bins).map fun (j : ℕ) => (edge info (j + 1 / 2), (0 : ℤ)))) =
        cs.map fun c => (histName pre c.name app, (List.range info.bins).map fun (j : ℕ) => (edge info (j + 1 / 2), (0 : ℤ))) := by
      intro l hl
      rw [show (fun q : BoxConfig × HistBox => (histName pre q.1.name app,
        (List.range info.bins).map fun (j : ℕ) => (edge info (j + 1 / 2), (0 : ℤ)))) = (fun c : BoxConfig => (histName pre c.name app,
          (List.range info.bins).map fun (j : ℕ) => (edge info (j + 1 / 2), (0 : ℤ)))) ∘ Prod.fst from rfl, ← List.map_map,
        List.map_fst_zip (by omega)]
    exact hz _ (by simp)
  · intro f hf
    obtain ⟨c, -, rfl⟩ := List.mem_map.mp hf
    refine ⟨by simp, fun row hr => ?_⟩
    obtain ⟨j, -, rfl⟩ := List.mem_map.mp hr
    rfl

example : ∃ out, tetraHistMain exLin "a".toList "b".toList exDensity 1 0 exUnit (fun _ _ => []) (fun _ _ _ _ => 0)
      [exSheet 1 2 (1 / 2) 2] [exBounds] = some out ∧ out.length = 1 ∧
      ∀ f ∈ out, f.2.length = exLin.bins ∧ ∀ row ∈ f.2, row.2 = 0 :=
  C136_counterexample exLin_valid "a".toList "b".toList exDensity 1 exUnit (fun _ _ _ _ => 0) (exSheet 1 2 (1 / 2) 2) [] [exBounds]
    [⟨0, 0, 0, 5, 5, 5, [], "low".toList⟩] (by
      have h : (exSheet 1 2 (1 / 2) 2).totalWidth = 10 := rfl
      rw [h]
      exact exBounds_read)

end Verif.Main
