import Verif.Io.Model

/-!
# Model of reading the sheet files of a run

From the input directory to the data which the workers are given, for the rendering and the histogram mode. The result of a
run is the list of passes: number of the box, header, positions and velocities at the time the workers are started. What
the boxes need is a parameter: `mk hd` are the intersection tests of the boxes made from the header `hd`, or the failure of
making them. Directory entries are given by their contents, in the order of `ioutil.ReadDir`; names are distinct, so that a
file stands for its name. An error returned to `main` is followed by `log.Fatal`.
-/

set_option autoImplicit false

namespace Verif.Main.Files

open Verif.Io

/-- A directory entry: its contents, or `none` if it cannot be opened. A directory can be opened but not read: it is an
entry with no bytes. `os.OpenFile` in render/io/io.go 281-282. -/
abbrev DirEntry := Option (List Byte)

/-- `ReadSheetHeaderAt` with the file system, render/io/io.go 281-282 and 306-311. -/
def openHeader (e : DirEntry) : Res SheetHeader :=
  match e with
  | none => .err
  | some f => readSheetHeaderAt f

/-- `ReadSheetPositionsAt` with the file system, render/io/io.go 281-282 and 314-331; line 317 drops the error. -/
def openPositions (sys : Order) (e : DirEntry) (buf : List V3) : Res (List V3) :=
  match e with
  | none => .ok buf
  | some f => readSheetPositionsAt sys f buf

/-- `ReadSheetVelocitiesAt` with the file system, render/io/io.go 281-282 and 334-348. -/
def openVelocities (sys : Order) (e : DirEntry) (buf : List V3) : Res (List V3) :=
  match e with
  | none => .err
  | some f => readSheetVelocitiesAt sys f buf

/-- What is loaded: the fields `hd`, `xs` and `vs` of `Manager`, render/render.go 25-27. `vs` is empty when it is nil. -/
structure Loaded where
  hd : SheetHeader
  xs : List V3
  vs : List V3
deriving DecidableEq

/-- `loadFile`, render/render.go 290-303. -/
def loadFile (sys : Order) (vel : Bool) (m : Loaded) (e : DirEntry) : Res Loaded := do
  let hd ← openHeader e
  let xs ← openPositions sys e m.xs
  let vs ← if vel then openVelocities sys e m.vs else Res.ok m.vs
  Res.ok ⟨hd, xs, vs⟩

/-- `make([]geom.Vec, n)`, render/render.go 119 and render/hist.go 84. -/
def makeVecs (n : Word 8) : Res (List V3) :=
  if n.toInt < 0 then .panic else .ok (List.replicate n.toInt.toNat ⟨0, 0, 0⟩)

/-- The boxes that need a file with the given header, by number: what is stored in `validSegs`, render/render.go 98-110. -/
def boxesHit (tests : List (SheetHeader → Bool)) (hd : SheetHeader) : List ℕ :=
  (List.range tests.length).filter fun i => (tests[i]?.map fun t => t hd).getD false

/-- One turn of the loop over the files in `NewManager`, render/render.go 94-115. -/
def planFile (tests : List (SheetHeader → Bool)) (plan : List (DirEntry × List ℕ)) (e : DirEntry) :
    Res (List (DirEntry × List ℕ)) := do
  let hd ← openHeader e
  Res.ok (if boxesHit tests hd = [] then plan else plan ++ [(e, boxesHit tests hd)])

/-- `NewManager`, render/render.go 91-140: the buffers and the files to be rendered. With at least one worker,
`man.renderers[0]` in line 138 does not exist when there are no boxes. -/
def newManager (vel : Bool) (tests : List (SheetHeader → Bool)) (files : List DirEntry) :
    Res (Loaded × List (DirEntry × List ℕ)) := do
  let plan ← files.foldlM (planFile tests) []
  let first ← Res.ofOption files.head?
  let hd ← openHeader first
  let xs ← makeVecs hd.gridCount
  if tests = [] then Res.panic
  else Res.ok (⟨hd, xs, if vel then xs else []⟩, plan)

/-- `RenderDensityFromFile`, render/render.go 247-288, up to the work of the workers: the passes are appended to the trace. -/
def renderFile (sys : Order) (vel : Bool) (s : Loaded × List (ℕ × Loaded)) (e : DirEntry × List ℕ) :
    Res (Loaded × List (ℕ × Loaded)) := do
  let m ← loadFile sys vel s.1 e.1
  Res.ok (m, s.2 ++ e.2.map fun i => (i, m))

/-- `hd` of `densitySetupIO` and `tetraHistSetupIO`, render/main/main.go 636 and 674: the error of reading it is dropped,
which leaves the header as `new` made it. -/
def setupHeader (e : DirEntry) : Res SheetHeader :=
  match openHeader e with
  | .ok hd => .ok hd
  | .err => .ok ⟨0, 0, 0, 0, 0, 0, 0, 0, 0, 0, 0, 0, 0, ⟨0, 0, 0⟩, ⟨0, 0, 0⟩, ⟨0, 0, 0⟩, ⟨0, 0, 0⟩⟩
  | .panic => .panic

/-- The rendering mode, render/main/main.go 526-564, with `densitySetupIO` (lines 606-639) and `RenderDensity`
(render/render.go 230-236): the passes in order. -/
def renderRun (sys : Order) (vel : Bool) (mk : SheetHeader → Res (List (SheetHeader → Bool))) (files : List DirEntry) :
    Res (List (ℕ × Loaded)) := do
  let first ← Res.ofOption files.head?
  let hd ← setupHeader first
  let tests ← mk hd
  let (m, plan) ← newManager vel tests files
  let (_, trace) ← plan.foldlM (renderFile sys vel) (m, [])
  Res.ok trace

/-- One box in `HistFromFile`, render/hist.go 167-174: the error of reading the positions is dropped. -/
def histBox (sys : Order) (hd : SheetHeader) (e : DirEntry) (s : List V3 × List (ℕ × Loaded)) (i : ℕ) :
    Res (List V3 × List (ℕ × Loaded)) :=
  match openPositions sys e s.1 with
  | .ok xs => .ok (xs, s.2 ++ [(i, ⟨hd, xs, []⟩)])
  | .err => .ok (s.1, s.2 ++ [(i, ⟨hd, s.1, []⟩)])
  | .panic => .panic

/-- `HistFromFile`, render/hist.go 161-190, up to the work of the workers. -/
def histFile (sys : Order) (tests : List (SheetHeader → Bool)) (s : List V3 × List (ℕ × Loaded)) (e : DirEntry) :
    Res (List V3 × List (ℕ × Loaded)) := do
  let hd ← openHeader e
  (boxesHit tests hd).foldlM (histBox sys hd e) s

/-- The histogram mode: `tetraHistSetupIO`, render/main/main.go 644-677, `NewHistManager` and `Hist`, render/hist.go 72-140,
without the grid file: the passes in order. -/
def histRun (sys : Order) (mk : SheetHeader → Res (List (SheetHeader → Bool))) (files : List DirEntry) :
    Res (List (ℕ × Loaded)) := do
  let first ← Res.ofOption files.head?
  let hd ← setupHeader first
  let tests ← mk hd
  let hd ← openHeader first
  let xs ← makeVecs hd.gridCount
  let (_, trace) ← files.foldlM (histFile sys tests) (xs, [])
  Res.ok trace

end Verif.Main.Files
