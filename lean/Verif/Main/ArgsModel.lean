import Verif.Main.Model
import Verif.Io.ConfigModel

/-!
# Model of `main`: flags, settings and the number of threads

Parsing of the command line (package `flag`) and of the configuration files (package `gcfg`) is not modelled: the values of
the flags are given, and a configuration file is given by the settings that `gcfg.ReadFileInto` makes of it, starting from
the default values, or `none` for an error. The texts of messages are left out. Numbers are exact.
-/

set_option autoImplicit false

namespace Verif.Main

open Verif.Go Verif.Io

/-- The values of the mode flags and the other arguments, render/main/main.go 59-95 and `flag.Args()`. -/
structure Args where
  render : String
  convertSnapshot : String
  exampleConfig : String
  tetraHist : String
  rest : List String

/-- The fields of `io.RenderConfig` that `main` looks at or that are used later, render/io/config.go 220-225 and 287-299. -/
structure RenderSettings where
  input : String
  output : String
  quantity : String
  con : RenderCon

/-- The fields of `io.TetraHistConfig`, render/io/config.go 510-524. -/
structure HistSettings where
  input : String
  output : String
  quantity : String
  gridFile : String
  histMin : ℚ
  histMax : ℚ
  histBins : ℤ
  histScale : String
  particles : ℤ
  subsampleLength : ℤ

/-- The fields of `io.ConvertSnapshotConfig` that `main` looks at, render/io/config.go 240-251. -/
structure ConvertSettings where
  con : ConvertConfig
  gadget2IDSize : ℤ
  inputFormat : String

/-- The results of `gcfg.ReadFileInto` for every file name, render/main/main.go 107, 144 and 170. -/
structure Configs where
  render : String → Option RenderSettings
  hist : String → Option HistSettings
  convert : String → Option ConvertSettings

/-- What `main` does: stop with a message (`log.Fatal`), print an example, call one of the secondary main functions, or
panic. -/
inductive Action
  | fatal
  | print (name : String)
  | render (con : RenderSettings) (bounds : List String)
  | hist (con : HistSettings) (bounds : List String)
  | convert (con : ConvertSettings)
  | panic

/-- `ValidHistMin`, render/io/config.go 556-560. -/
def HistSettings.validHistMin (con : HistSettings) : Bool :=
  (decide (con.histScale = "Linear") || (decide (con.histScale = "Log") && decide (con.histMin > 0))) &&
    decide (con.histMin < con.histMax)

/-- `ValidHistMax`, render/io/config.go 562-566. -/
def HistSettings.validHistMax (con : HistSettings) : Bool :=
  (decide (con.histScale = "Linear") || (decide (con.histScale = "Log") && decide (con.histMax > 0))) &&
    decide (con.histMin < con.histMax)

/-- `ValidHistScale`, render/io/config.go 572-574. -/
def HistSettings.validHistScale (con : HistSettings) : Bool :=
  decide (con.histScale = "Linear") || decide (con.histScale = "Log")

/-- The case "Render" of `main`, render/main/main.go 105-140; the predicates are in render/io/config.go 227-232 and
317-332. -/
def checkRender (con : RenderSettings) (bounds : List String) : Action :=
  if !decide (con.input ≠ "") then .fatal
  else if !decide (con.output ≠ "") then .fatal
  else if !renderValidSubsampleLength con.con.subsampleLength then .fatal
  else if !decide (con.con.imagePixels > 0) && !decide (con.con.totalPixels > 0) then .fatal
  else if !decide (con.con.particles > 0) && !decide (con.con.projectionDepth > 0) && !con.con.autoParticles then .fatal
  else if bounds.length < 1 then .fatal
  else .render con bounds

/-- The case "TetraHist" of `main`, render/main/main.go 142-167. -/
def checkHist (con : HistSettings) (bounds : List String) : Action :=
  if !decide (con.input ≠ "") then .fatal
  else if !decide (con.output ≠ "") then .fatal
  else if !histValidSubsampleLength con.subsampleLength then .fatal
  else if !con.validHistScale then .fatal
  else if !con.validHistMin || !con.validHistMax then .fatal
  else if bounds.length < 1 then .fatal
  else .hist con bounds

/-- The case "ConvertSnapshot" of `main`, render/main/main.go 168-191; the predicates are in render/io/config.go 227-232
and 265-279. -/
def checkConvert (con : ConvertSettings) : Action :=
  if !decide (con.con.input ≠ "") && !decide (con.con.iteratedInput ≠ "") then .fatal
  else if !decide (con.con.output ≠ "") && !decide (con.con.iteratedOutput ≠ "") then .fatal
  else if !decide (con.con.cells > 0) then .fatal
  else if decide (con.con.iteratedInput ≠ "") != decide (con.con.iteratedOutput ≠ "") then .fatal
  else if !(decide (con.gadget2IDSize = 64) || decide (con.gadget2IDSize = 32)) then .fatal
  else if con.inputFormat = "LGadget-2" ∨ con.inputFormat = "Arepo-type-2" then .convert con
  else .fatal

/-- The case "ExampleConfig" of `main`, render/main/main.go 193-211. -/
def printExample (name : String) : Action :=
  if name = "ConvertSnapshot" ∨ name = "Render" ∨ name = "TetraHist" ∨ name = "Box" ∨ name = "Ball" then .print name
  else .fatal

/-- The entries of the map `vars`, render/main/main.go 63-68. -/
def Args.vars (a : Args) : List (String × String) :=
  [("Render", a.render), ("ConvertSnapshot", a.convertSnapshot), ("ExampleConfig", a.exampleConfig),
    ("TetraHist", a.tetraHist)]

/-- `main`, render/main/main.go 53-215, after parsing of the command line. `vars` lists the entries of the map in the order
in which `range` visits them. -/
def mainAction (cfg : Configs) (a : Args) (vars : List (String × String)) : Action :=
  match getModeName vars with
  | none => .fatal
  | some modeName =>
    if modeName = "Render" then
      match cfg.render a.render with
      | none => .fatal
      | some con => checkRender con a.rest
    else if modeName = "TetraHist" then
      match cfg.hist a.tetraHist with
      | none => .fatal
      | some con => checkHist con a.rest
    else if modeName = "ConvertSnapshot" then
      match cfg.convert a.convertSnapshot with
      | none => .fatal
      | some con => checkConvert con
    else if modeName = "ExampleConfig" then printExample a.exampleConfig
    else .panic

/-- The workers of a pass of `RenderDensityFromFile`, in the order in which they are started: `make([]workspace, n)`
(render/render.go 74) panics for a negative length, lines 268-272 start the workers, the last one on the calling goroutine,
and `chanInterpolate` looks up its workspace (line 306). `n` is the value of the flag `-Threads`. -/
def passWorkers (n : ℤ) : Option (List ℤ) :=
  if n < 0 then none
  else do
    let workspaces := List.replicate n.toNat ()
    let ids ← forRange 0 (n - 1) (fun id ids => do
      let _ ← rd workspaces id
      some (ids ++ [id])) []
    let id := n - 1
    let _ ← rd workspaces id
    some (ids ++ [id])

end Verif.Main
