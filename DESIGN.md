# Formal model of gotetra: design

Source: `/repo` (Go). Model: Lean 4 under `/verif/lean/Verif`. Properties: `/verif/properties.jsonl`.
Status per property: `/verif/MANIFEST.json`.

## 1. Modelling conventions

* **Panics.** Every Go function that can panic is modelled as a function into `Option`; `none` means
  "run-time panic / log.Fatal". Slices are `List`s read and written only through the checked
  operations `rd`/`wr` of `Verif/Go/Slice.lean`, which return `none` for a negative or too large
  index. A theorem saying "`f x = some y`" therefore also says that no index left its slice and that
  every loop ended.
* **Errors.** Go `error` results are `Except`.
* **Loops.** Counted loops are `forRange lo hi body`; other loops are recursive functions whose
  termination Lean checks, or take an explicit fuel argument together with a theorem that a stated
  amount of fuel is always enough.
* **Integers.** `int`/`int64` are unbounded `Int`/`Nat` (C182 shows where this is exact for the index arithmetic); `uint32`/`uint64` are `BitVec` wherever
  wrap-around, shifts or bytes matter. 64-bit overflow of `int` is modelled nowhere else.
* **Floats.** `float64`/`float32` are modelled as exact numbers (`Rat`, or a generic linearly ordered
  field, or `Real` where roots and powers occur). Every finite float is a rational, so the model
  computes what the Go code would compute without rounding. NaN, infinities, signed zero and rounding
  are not modelled, except where stated (sorting is proved for any strict weak order; file formats
  treat floats as raw bit patterns).
* **Rounded floats.** The area `Verif/Fp`, and the files `Round*` of `Mat`, `Interp` and `Calc`, have second versions of some definitions in which every operation is
  rounded to nearest, ties to even, with 53 or 24 significant bits (`rnd` in `Verif/Go/Float.lean`). The range of
  exponents is unbounded there: overflow, subnormal numbers, NaN, infinities and signed zero are still left out. `Go/Limits` adds overflow and subnormal numbers; C187 shows that they change nothing for wrapping, sums and draws.
  The Go compiler may fuse `a * b + c` into one operation; theorems hold for both translations (`mulAdd`).
* **In-place mutation** is modelled by returning the new state. Aliasing of arguments is modelled only
  where stated.
* **Goroutines** are modelled as a labelled transition system: a schedule is a list of steps.

## 2. File layout

* `Verif/Go/*` run-time model (slices, loops, truncation).
* `Verif/<Area>/*Model.lean` transcription of the Go code, each definition citing file and lines.
* The other files of an area hold the independent specification (first section of the file, or
  `Spec.lean`), helper lemmas, and the property theorems `Cnn_...`, each followed by an `example`
  showing that its hypotheses are met by a concrete non-trivial case.

| area | code transcribed | left out |
|------|------------------|----------|
| Sort | `math/sort/*.go` | nothing |
| Rand | `math/rand/{rand,xorshift,tausworthe,sobol}.go` | `golang.go` (wraps the standard library), `NewTimeSeed` (clock) |
| Calc | `math/calc/deriv.go`, also with rounding | nothing; with rounding: limits of the exponent |
| Interp | `math/interpolate/*.go`; with rounding `linear_interpolators.go`, `searcher.go`, `spline.go` (`TriDiagAt`, `NewSpline`, `Init`, `Eval`) and `filter.go` | `posGet` and `negGet` of `filter.go` (never called); the `Ref` methods (all `panic("NYI")`) and the thin `New…Interpolator` wrappers |
| Mat | `math/mat/mat.go`; with rounding also `mat32.go` (the same text with `float32`): products, LU, `SolveVector`, `Determinant`, `SolveMatrix`, `Invert` | with rounding: `Transpose` (no arithmetic); limits of the exponent |
| Geom | `render/geom/*.go` | private helpers that are never called: `minMax` of `tetra.go`, `maxV`, `minV`, `countInBounds`, `fMinMax` of `grid.go` |
| Render | `render/box.go`, `render/render.go`, `render/density/*.go` | logging, memory statistics, `maxWidth` bookkeeping of the interpolator (never read), garbage collection |
| Hist | `render/hist.go` | file reading (see Io), logging, `periodizeTetra` (never called) |
| Io | `render/io/{io,buffer,config,output}.go`, `python/{gotetra,gtet,render}.py` | the `gcfg` parser, example texts |
| Halo | `render/halo/*.go` | parsing of text tables (an assumed contract, below) |
| Cosmo | `cosmo/*.go` | nothing |
| Main | `render/main/main.go`: modes, checks of the settings, iteration, snapshot assembly, segments, sheet names, sampling options, the histogram program, loading the files of the input directory (with `loadFile` of `render/render.go`) | flag parsing, parsing of configuration files, profiling, log files, directory creation |
| Scripts | `render/scripts/{profile,read_halo}.go` | argument parsing, number formats |
| Fp | parts of the above again, with rounding: the generators of `math/rand`, wrapping of coordinates, segment headers, cell bounds and scaling into the buffer of a segment, values and sums of samples, pixel ranges of images, histogram bins, density lookup, sample points, images of part of the box, projections, the way from the snapshot to the image, the halo grid and the subhalo finder | see section 1, rounded floats |
| Py | `render/scripts/*.py`: `nan_split`, `r_sp_idx`, `r_sp`, `BinConverter`, `vector_deriv`, `mcarlo.py` (sampler, membrane, reading of points), `prime_spacing.py`, tables of profiles and caustics, `bin_by_thetas`, `KDETree` (peaks and their connection), `SmoothedProfile`, `MultiSmoothedProfile`, shells (`penna.py`, `andrey_penna.py`), `deriv.py`, `ProfileGroup2D`, `add_densities.py` | everything else in the Python files: plotting, fitting, files |
| Word | index arithmetic of Geom and Main again, with `int` as 64-bit words | the rest of the integer arithmetic |

Not modelled at all: `python/example.py`, the other Python files in `render/scripts`.

Contracts of code outside the repository, each used as a parameter or hypothesis and never as an axiom:
`linalg.pinv` satisfies the Moore-Penrose conditions; the integral of SciPy's interpolating spline is an arbitrary function of its ends (additive where that is asked); `argrelextrema`, `searchsorted`, `np.roll`, `np.argmin`, `binned_statistic` do what their documentation says;
`sort.Sort` performs some sequence of `Swap` calls after which the data are sorted by `Less`;
`table.ReadTable` returns columns of equal length; `strings.ToLower/ToUpper` are right on ASCII letters;
`binary.Read/Write` visit the fields in order of declaration; `os.File.Read` delivers what is left up to
the length of its buffer; `fmt.Sprintf` of the sheet names concatenates decimals;
`math.Pow`, `math.Log10`, `math.Sqrt` are the real functions. A directory is a list of writes, where a
later write to a name replaces an earlier one. Random draws are arbitrary numbers in the documented
range, so theorems hold for every seed. `path.Join` is left out.

When a property is false of the code as written, a theorem `Cnn_..._counterexample` proves the
negation on a concrete input, and a theorem `Cnn_..._partial` proves the part that does hold; both are
recorded in MANIFEST.json with status `partial`.

## 3. Plan per property

| id | what is modelled | how it is proved |
|----|------------------|------------------|
| C01 | `Shell` with its gap loop | loop invariants: each pass permutes; last pass (gap 1) is insertion sort |
| C02 | `Quick`, `partition`, `sort3` | partition post-condition by two-pointer invariant; well-founded induction on length |
| C03 | `NthLargest` | partition post-condition; induction on length; refinement to rank in sorted list |
| C04 | `Median`, `Percentile` | false as stated (rank off by one for odd lengths, p=0 panics): counterexamples, exact ranks as partial |
| C05 | `Reverse` | loop invariant |
| C06 | xorshift state over `BitVec 32` | step is injective and fixes 0, so the all-zero state is unreachable; at most four redraws |
| C07 | `NextSequence`, `UniformAt` | induction on target length, arbitrary split |
| C08 | Tausworthe ring buffer | refinement of the ring to the infinite recurrence |
| C09 | `Uniform*` | floor arithmetic |
| C10 | Sobol tables, `NextAt` | table computed in the kernel, invariant ix < 2^30; call 2^30-1 panics: partial |
| C11 | Sobol | triangular direction numbers, Gray code, linear algebra over GF(2) |
| C12 | Sobol `Init` | false (seqNum kept): counterexample |
| C13 | `calc.Deriv` | polynomial identities; order 0, order-4 interior, non-uniform edges false: partial |
| C14 | `searcher` | binary search invariant |
| C15 | `Linear` | from C14 |
| C16 | `BiLinear`, `TriLinear` | from C14; TriLinear false when zs differs from ys: partial |
| C17 | search and spline on decreasing tables | Linear always panics: counterexample; spline part proved |
| C18 | `TriDiagAt` | loop invariants (forward elimination, back substitution) |
| C19 | `Spline` | C18 + algebra of the coefficients |
| C20 | `Deriv` | polynomial derivative |
| C21 | `Integrate` | false when lo is not a knot: counterexample; exact for knots |
| C22 | `BiCubic`, `TriCubic` | cache invariant over call histories; false after recovered panics |
| C23 | `ConvolveAt`, `Get` | loop invariant against extension function; periodic/mirrored left edge off by one: partial |
| C24 | kernels | sums |
| C25 | `MultAt` | false for non-square: counterexample; square proved |
| C26 | `recTranspose` | induction on block size |
| C27 | `MultVec`, `VecMult` | loop invariant |
| C28 | `factorizeInPlace`, `Determinant` | Crout invariants |
| C29 | `SolveVector` | false with pivoting: counterexample; proved when no row is exchanged |
| C30 | `SolveMatrix`, `Invert` | false: counterexample |
| C31 | `ModAt`, `SubAt` | case analysis |
| C32 | `CrossAt` | sign is reversed: counterexample; orthogonality proved |
| C33 | `Grid` | div/mod arithmetic; Coords ignores origin: partial |
| C34 | `Intersect*` | interval arithmetic modulo width |
| C35 | `TetraIdxs` | order of coordinates gives the simplex |
| C36 | `InitCentered` | false for y,z: counterexample; x part proved |
| C37 | `Contains` | signed volumes are barycentric coordinates |
| C38 | `Tetra` state machine | invariant over histories |
| C39 | `Barycenter` | false: counterexample |
| C40 | `Distribute*` | affine algebra; explicit preimages |
| C41 | `CellBoundsAt` | min/max over corners, convexity |
| C42 | `ScaleVecs*` | case analysis |
| C43 | grid `Deriv` | stencil identities per axis; axis 2 edges false: partial |
| C44 | options state | false: counterexample (global mutated) |
| C45 | `initWorkspaces`, cube loop | residues mod workers |
| C46 | worker/receiver transition system | invariant over schedules, multiset of pending results |
| C47 | `Interpolate` deposits | fold over points |
| C48 | `Add` loops | loop invariants, periodic map |
| C49 | both overlaps | C47 + C48 |
| C50 | 2D overlaps | as C49 with depth sum |
| C51 | `newBox*` | floor arithmetic; whole box gives one extra cell: partial |
| C52 | `intFloor` | false at integers <= 0: counterexample, exact characterisation |
| C53 | worker buffer reuse | invariant over histories |
| C54 | `Subsample` | checks the old value: counterexample; isPowTwo exact |
| C55 | `Quantity` | finite case analysis; Density panics: partial |
| C56 | finalised buffers | grids under 30 cells panic; divergence uses x twice: partial |
| C57 | `chanHistogram` | exact for skip 1; drops cubes otherwise: partial |
| C58 | interval tests | identical intervals missed: counterexample; general-position completeness |
| C59 | `histogram` | fold over values |
| C60 | `gridIndex` | floor arithmetic |
| C61 | `ParticleBuffer` | refinement to direct writes |
| C62 | sheet byte format | codec round trip |
| C63 | sheet reading errors | case analysis; swallowed error: partial |
| C64 | byte swapping | list reversal; 64-bit vectors false: partial |
| C65 | grid byte format | codec round trip; vector flag false: partial |
| C66 | flag word | bit-level proof |
| C67 | Gadget count | BitVec: false, counterexample, exact value |
| C68 | `CellBounds` | floor arithmetic |
| C69-C71 | config predicates | decision logic |
| C72 | linked-list grid | invariant over insert loop |
| C73-C75 | subhalo search | refinement of the list building; non-periodic distance: partial |
| C76 | radius | real powers |
| C77 | record sort | permutation of records |
| C78 | columns | codec |
| C79-C81 | segments | index arithmetic, names; collisions from 11 cells on |
| C82 | bounding box | invariant over adds |
| C83 | iteration | unset end processes nothing: counterexample |
| C84 | `validCellNum` | accepts all positives: counterexample |
| C85, C86 | small decision logic | direct |
| C87 | cosmology | real algebra |
| C88 | `writeGrids`, then the cube loops of all workers over all files | C79 and C80 for the files, C45 for the workers, C35 for the six directions; equality of multisets by reindexing of sums |
| C89 | `BiCubic`, `TriCubic` | spline theorems C19 line by line; invariant of the cache |
| C90 | `LU` of singular matrices | false (pivot row kept between columns): counterexample; zero rows panic |
| C91 | `Curl`, `Divergence`, `Gradient` | C43 per axis and the three output modes; faces of the third axis and `Subtract` false: partial |
| C92, C93 | finalised velocity and derivative images | C47, C56 and C91; projected means are divided by the depth, divergence uses the first component twice: partial |
| C94 | `mcarlo.Interpolate` with both overlaps in three dimensions | per-tetrahedron step, sum over visits, convexity for the culling; cell faces with domain buffers: counterexample, partial; totals of wide images without conditions |
| C95 | culling of cubes in the histogram program | exact description of what is kept; the analysed box is not used: counterexample |
| C96, C97 | Gadget reader, wrapping | byte layout as a specification, decoded by the model; floor arithmetic |
| C98 | Python readers | composition of writer and reader |
| C99 | quantity names | finite case analysis |
| C100, C101 | catalogue conversion and access by flag | contract of `sort.Sort`; case analysis over flags |
| C102, C103 | resolution and particle options | floor arithmetic and decision logic |
| C104 | `createGrids` | C61 for the buffer, ids form a permutation |
| C105 | velocity bounds | loop invariant (minimum and maximum) |
| C106 | unit conversion | algebra; false unless XUnits is 1: counterexample |
| C107 | `RenderDensityFromFile` over a list of segments: workers, channel, `Add` | C46 for the schedule, C94 for each worker, C48 for `Add`; induction over passes; totals of wide images without conditions on faces |
| C108 | `writeGrids`, `NewManager` culling, `Overlap` choice, `ScaleVecs`, C107 | discharges the hypotheses of C107 from C82 and C42; files passed over contribute nothing by C34 |
| C109 | `NewSavGolKernel`, `savgol`, the LU solver, `ConvolveAt` | the weights solve the normal equations: moments by loop invariants, invertibility because a polynomial has few roots, first pivots by a weighted Chebyshev inequality; spec is least squares over all polynomials of Mathlib |
| C110 | `NewSavGolDerivKernel`, `factorial` | as C109; counterexample for the second derivative at order four (`SolveVector` in place, exchanged rows) |
| C111 | C94 and C107 for projected images: both two-dimensional overlaps, workers, channel, `Add` | sum over the voxels behind a pixel; segment buffers lose samples at depth exactly zero: counterexample, partial |
| C112 | C108 with a projected box | discharges the hypotheses of C111; depth sum commutes with the sum over files |
| C113 | `removeSubhalo`, `round`, the loop over subhalos | invariant "these cells are blanked" through three nested loops; cells of the bounds against cells of the cube modulo the period |
| C114 | `extractLine`, `lineProfiles`, `printProfiles` | points in closed form, bounds of the four corners; bilinear interpolation is exact on linear functions and a convex combination |
| C115 | `Halos` with `Swap` and `Less`, column choice, the two files, `particles` | the exchanges permute all columns alike; counterexamples by C76 and for missing identities |
| C116 | `ReadBoundsConfig` after parsing, `NewBox`, `renderMain` with its two loops; a map is the list of its entries in visiting order | induction over entries and files; C69 and C70 for single entries; the configuration that `particles` changes has no influence |
| C117 | `NewRenderInfo`, `NewLocationInfo`, `NewCosmoInfo`, C116, C65, C98 | the header read back (C65) against the box; the Python reader (C98) returns the values; counterexamples for options that the header ignores |
| C118 | `tetraHistMain`, `HistManager.Hist`, `HistFromFile`, `chanHistogram`, `getDensities`, bounds files | rows of every file as a sum over sheets, cubes, tetrahedra and samples; skipped sheets lose nothing (under conditions); partial: first corners on the boundary of the extent drop the cube (counterexample), subsampling 1 only |
| C119 | `getDensities` | barycentric argument for tetrahedra up to half a box wide; counterexample at the periodic boundary (`periodizeTetra` is never called) |
| C120 | `python/gtet.py`, `WriteSheet` | byte layout of the writer against the reader; the arrays are in order z, y, x, not x, y, z, and `omega_m` is the dark energy density (counterexamples) |
| C121 | `python/render.py` | layout and layers of the picture against a cell-by-cell spec; even and too large depths and the position in the title are wrong (counterexamples) |
| C122 | `projectionDepth`, `NewRenderInfo`, `particles` | algebra of the two rules; wrong way round with subsampling (counterexample) |
| C123 | `Uniform`, `UniformAt`, `UniformInt`, Xorshift, all rounded to 53 bits | monotone rounding to nearest even; the upper bound is reached (counterexample), closed interval proved, half-open for lower bound zero |
| C124 | Tausworthe `Init` and `Next`, rounded to 53 bits | exactness on multiples of 2⁻⁵³, range by monotonicity; a draw can be 1 (counterexample) |
| C125 | `ModAt`, `SubAt` (24 bits), `WrapDistance` and the conversion to `float32` | exact by Sterbenz's lemma from 0 on; below 0 one rounding; tiny negative coordinates are stored at the upper end (counterexample) |
| C126 | conversion with rounded positions, then density images with any schedule | through C125 to C108; counterexample by `Verif/Render/Stuck.lean`: when a worker panics no schedule finishes |
| C127 | bounding box of a segment and `Origin`, `Width` of its header, 24 bits, one axis at a time | invariant of the loop with an error that grows by `L/2²²` per particle that changes the box; counterexample with two particles |
| C128 | `CellBounds`, `boxWidth` and `ScaleVecsSegment`, rounded | error of each step, integers separated by the distance of the particles from cell faces; counterexample with two particles |
| C129 | whole passes of the renderer over buffers of rounded doubles | each run is related step by step to a run over ledgers (exact sum, sum of absolute values, number of samples), `Verif/Render/Relate.lean`; every merge order happens (`Verif/Render/Order.lean`), counterexample evaluated |
| C130 | `newBox2D`, `newBox3D` with rounding | relative error of the quotient of rounded numbers; same floor away from cell faces; whole-box images via C129; counterexamples evaluated |
| C131 | `histogram`, `histCenters` (linear scale) with rounding; `math.Log10` is an arbitrary function | four roundings per position; counts bounded from both sides by exact counts of slightly smaller and larger bins; counterexamples evaluated |
| C132 | `gridIndex`, `contains1D`, `NewLocationInfo`, wrapping of samples with rounding | step by step comparison with the exact functions away from pixel faces, then C60; counterexamples evaluated (the lookup leaves the grid and the program stops) |
| C133 | `fold`, `Barycenter`, corner sums and the loops of `Distribute`, `DistributeUnit`, `DistributeTetra` with the rounding of `float32` | error of each operation added up over the loop body; range of a combination with slightly negative weights; C128 with a margin for the buffer; counterexamples evaluated |
| C134 | whole passes with rounded coordinates, values and sums | the model of `mcarlo.Interpolate` takes its arithmetic as a parameter (`Render.Arith`); laws of the rounded one from C133, cell bounds unchanged away from faces, then the arguments of C107, C111 and C129 for any arithmetic with these laws; counterexample evaluated (a pass panics) |
| C135 | `main`: flags, the checks of the three kinds of settings, the examples; reading of the files is a parameter | case analysis of the chains of conditions against a list of required settings, mode from C86; counterexamples show what is not checked |
| C136 | start of the workers of a pass; the histogram program of C118 with any number of workers | workers by induction over the loop; histograms by comparing both runs with the counts of C118; counterexamples for zero threads |
| C137 | `MultAt`, `Mult`, `MultVec`, `VecMult` with rounding at any precision | error of a running sum by induction; the loops compute that sum |
| C138 | `factorizeInPlace`, `LUFactorsAt`, `LU`, `Determinant` with rounding | the invariant of C28 with an error bound: one elimination changes the represented matrix by at most `u` times the product of absolute values; a column without a pivot leaves a trace in the result, by a second invariant |
| C139 | `forwardSubst`, `backSubst`, `SolveVector` with rounding | residuals of both substitutions added to that of C138; counterexample evaluated for exchanged rows |
| C140 | `densitySetupIO`, the files of `NewManager`, `loadFile`, `RenderDensity` on the bytes of the directory entries; tests of the boxes are a parameter | folds over the directory; complete sheets by the round trip of C62, arbitrary entries by inversion; counterexample for every file that ends inside its positions |
| C141 | `tetraHistSetupIO`, `NewHistManager`, `Hist`, `HistFromFile` up to the start of the workers, on the bytes of the directory entries | as C140; counterexample for every pair of sheets of different sizes |
| C142 | `searcher`, `NewLinear`, `NewUniformLinear`, `Eval` with every operation rounded (arithmetic as in C137-C139) | any guess leads to the right cell (C14), so only the last line rounds; for uniform tables bounds on the rounded abscissas and quotient; counterexamples evaluated in `float64` |
| C143 | `SolveMatrix`, `InvertAt`, `Invert` of mat.go and mat32.go with rounding | column by column from the residual bound of C139; zeros stay zeros under any rounding, so `Matrix.SolveMatrix` answers zero |
| C144 | passes through buffers with the shape of the image (`domainOverlap3D`), with the rounded `ScaleVecsDomain`, `modCoord` and `intFloor` | the passes of C94 for any arithmetic whose floor is a parameter (`Render/McAny`); `fixed_cell`: wrapping and floor give the cell of a point 3/2^24 of the box away; bounds of C133 for twice the box; counterexample at the edge of the image evaluated |
| C145 | projected images through both kinds of buffers in machine arithmetic | as C134 and C144, with the sums of C111 over the voxels behind a pixel |
| C146 | `writeGrids`/`copyToSegment` with rounded boxes, `CellBounds`, `requiresFile`, the choice of the buffer, both scalings, and the passes of C144/C145 over all files | the rounded writer simulates the exact one (`writeGrids32_ok`); per axis the stored extent, the cells and the scaled particles are tied to one periodic image of the exact particles (`axis_full`); each pass meets `AnyPass`; files passed over hold no sample of the image (C34); induction over the list of files |
| C147 | `NewGrid`, `Insert`, `SphereBounds`, `markSubhalos`, `FindSubhalos` with every operation rounded to 53 bits, any choice of fused products (`Verif.Fp.HaloModel`); the parts that work on indices are those of C72-C75 | the lists of the grid depend on the arithmetic only through the index of a cell, so `Filled` is reused with the rounded index (`Filled64`); quotients by the rounded cell width have a relative error of `2^-51` (`cells_quot`), which bounds first and last cell of a sphere in units of cells (`sphereBounds64_core`); the test of a pair is a chain of relative errors (`sumSq64_near`, `reach_near`); `crossMatch_partners` turns the pairs into lists for any relation |
| C148 | `Deriv`, `Curl`, `Divergence`, `Gradient` and the finalised velocity, divergence, curl and gradient buffers with every operation rounded (`Verif.Fp.DerivModel`); the loops are those of C43, C91, C56 and C93, which take the arithmetic as a parameter (`DArith`, `BArith`; exact by default) | what a stencil computes in any arithmetic (`deriv_value`), then the rounding of sums of at most five products and of the denominator, measured by the stencil with all signs positive (`absAt`), and the propagation of rounded means through it (`derivAt_near`); a uniform field with a nonzero derivative is the counterexample; faces of the third axis wrong: partial |
| C149 | `NewSobolSequence`, `Next` as in C11 (`Verif.Rand.Model`); the points of a whole history, several coordinates at a time | the block of `2^m` calls walks through all combinations of the first `m` direction numbers (Gray code, `block_count`); a Gaussian elimination over the leading bits (`net`, proved correct for any vectors) shows that every allowed choice of leading bits is independent, so each combination occurs equally often (`net_spec`); the elimination is run in the kernel on the table for all 30 block sizes, for `[0,1]`, `[0,1,2]` and the 13 good pairs. In the table of the program two pairs of coordinates share digits in every point (counterexamples): `sobol.go:61` has `j - 1` where the recurrence needs `j - l`: partial |
| C150 | `TriDiagAt`, `NewSpline`, `Init`, `calcY2s`, `calcCoeffs`, `bsearch`, `Eval` with rounding (`Verif.Interp.RoundSplineModel`, arithmetic as parameter `FP`; with exact arithmetic it is the model of C18 and C19, `newSplineR_exact`, `splineEvalR_exact`); which of two products the compiler fuses is a parameter too | row by row backward error of the elimination (`tri_residual`) under a lower bound of the pivots carried through the recurrence (`tri_pivots`); strongly dominant systems are well conditioned (maximum of the unknowns, `dominant_max`), also for the difference of computed and exact unknowns; coefficients and cubic with a small calculus of sizes and errors (`Ap`). At inner knots the value can be off by a rounding error (counterexample): partial |
| C151 | `NewUniformBiCubic`, `NewUniformTriCubic`, the four `EvalAll` methods of two and three arguments (`Verif.Interp.CubicAllModel`), with the state the cubic interpolators keep | Induction over the points with an invariant on the state ("reached by some history of calls"), which with C22 gives the reference value at each point; the uniform constructors reduce to the general ones on the list of grid lines, strictly monotone for every spacing other than zero. A short argument or output slice is found by the loop rule for partial correctness |
| C152 | The unit buffers of `NewManager` and `initWorkspaces`: `maxPoints`, `unitBufs`, the slicing before each pass (`Verif.Render.UnitsModel`; slices have a capacity) | The buffers keep the shape "all drawn samples, cut to some length" through any sequence of passes; cutting such a buffer to a number up to `maxPoints` gives the first samples whatever the cut before. Sample number `j` of buffer `bi` uses draws `3(m·bi+j)` to `3(m·bi+j)+2` only |
| C153 | `NewBiLinear`, `NewTriLinear` and their `Eval` with rounding (`Verif.Interp.RoundMultiModel`, arithmetic as parameter `FP`; with exact arithmetic it is the model of C16, `bilinearR_exact`, `trilinearR_exact`); which of two products the compiler fuses is a parameter too. Uniform grids and `EvalAll` are not covered with rounding | error calculus of C150 (`Ap`): sizes and rounding units through sums, products and quotients; for the bilinear formula each summand has a relative error, so the bound is the interpolant of absolute values; for the trilinear one the computed weights are off by at most 4.1 units. Grid points: the computed weights are exactly 0 and 1. Partial because `Eval` takes the `y` lines for `z` |
| C154 | `Eval` of `BiCubic` and `TriCubic` split into the half that refreshes the splines and the half that reads them (`Verif.Interp.SharedModel`; `bi_halves`, `tri_halves`: one half after the other is the model of C22). Several callers: any list of halves. | False as stated (`C154_overlap_counterexample`). Proved: `C154_…_last_partial`, a reader gets the value at their `x` and at the coordinates refreshed last (specification `answers`, against the references of C22); `C154_…_turns_partial`, calls one at a time are right. Missing: interleavings inside a half (single memory accesses). |
| C155 | `Sub` and `Norm` of `vec.go` (`Verif.Geom.NormModel`, real square root) | `C155_shortest`: the result is the shortest of all equivalent displacements, from C31 along each axis. `C155_metric`: zero only for equal positions, symmetric, triangle inequality (sum of two displacements is equivalent to the third; Cauchy–Schwarz). Without rounding. |
| C156 | `MultAt`, `MultVec`, `VecMult` and `TransposeAt` of `mat.go` with one list for output and argument (`Verif.Mat.AliasModel`) | false for the code. `C156_mult_zero`, `C156_multVec_zero`, `C156_vecMult_zero`: the result is zero, by a loop invariant that the shared list stays zero. `C156_transpose_self`: the recursion writes the mirror image of one triangle. `C156_transpose_symmetric_partial`: right exactly for symmetric matrices. `C156_alias_counterexample`: one case of each. |
| C157 | `EvalAll` (all kinds), `TriDiagAt` and `ConvolveAt` with one list for output and argument (`Verif.Interp.AliasModel`) | `forRange_rel` relates two loops turn by turn; the invariant `Behind` says the written entries agree and the others still hold the argument. `C157_evalAll` covers every kind, `C157_evalAll_one`, `C157_bicubic`, `C157_tricubic` are instances; `C157_tridiag_partial` allows any subset of right hand side, diagonal and lower diagonal to be shared. `C157_alias_counterexample`: upper diagonal, and `ConvolveAt` in place. |
| C158 | `nan_split` of the three profile scripts, the NaN test as a parameter (`Verif.Py.SplitModel`) | `Runs` describes the maximal NaN-free blocks and is unique (`Runs.unique`); loop invariant over the open group. |
| C159 | `r_sp_idx`, `r_sp` with the saved index (`Verif.Py.RspModel`) | `Caustic` on functions of the index; running minimum and filters as membership, fold invariant for the first smallest entry. |
| C160 | `BinConverter` (trimming) and its older copies (not trimming), the spline integral as a parameter (`Verif.Py.RebinModel`) | `searchsorted` characterised by counting; `Rebinned` states edges and means; `C160_integral` telescopes for any additive integral. `C160_untrimmed_counterexample`: the older copies return one edge too many. |
| C161 | `vector_deriv` with NumPy negative indices and `np.roll` (`Verif.Py.VecDerivModel`) | arrays as tables of a function, every branch an identity of polynomials (`C161_order2`, `C161_order4`); `C161_errors`; `C161_uneven_counterexample` shows why even spacing is asked. |
| C162 | `dE`, `change`, `update_candidates` of the membrane and the acceptance test (`Verif.Py.MembraneModel`) | `energy` of a closed chain as sums over all bins; the two springs of the moved bin are taken out of the sum. Acceptance by Lebesgue measure of the accepting draws. One bin is a counterexample. |
| C163 | `sample`, `update_stats`, `get_mean`; snapshots are references to one array; `Potential1D` (`Verif.Py.MembraneModel`) | loop invariant `StatInv` against the sequence of states; snapshots and the potential fail. |
| C164 | `append_prime` and its loop (`Verif.Py.PrimesModel`) | `scan_spec` (trial division is right while the square of the last prime is larger), Bertrand's postulate keeps the candidates below that square; `Nat.nth Nat.Prime` as specification. |
| C165 | the distance loop of `prime_spacing.py` (`Verif.Py.PrimesModel`) | distance to the nearest image as `IsLeast`; inequality between sum of squares and square of sum. |
| C166 | `printData` as text, `np.loadtxt` and `read_profiles` (`Verif.Py.TableModel`) | lemmas on splitting padded tokens; transposition entry by entry from `printProfiles_spec`. |
| C167 | `write_caustic`, `string`, `read_row`, `read_pts` as text (`Verif.Py.TableModel`) | induction over profiles for the lines, splitting undoes joining; the empty file is the counterexample. |
| C168 | `bin_by_thetas` with a rounding as parameter (`Verif.Py.ThetaModel`) | the loop gives each bin the points sent to it; exact remainder for the identity, bounds of one rounding for floats; an angle of -2⁻⁵⁵ is the counterexample. |
| C169 | `argmaxes`, `_connect_maxes`, `_get_finest_max`, `get_conn_maxes` (`Verif.Py.TreeModel`), splines as parameters | invariant over levels and over the nodes of a level (`Connected`, `Link`); induction on the level for the nearest ancestor. |
| C170 | the loop of `SmoothedProfile.__init__` in logarithms (`Verif.Py.SmoothModel`), `savgol_filter` as parameter | from the exactness of the filter for quartics (met by the five-point formulas of C161); the spacing is off by n/(n-1). |
| C171 | `_multi_smooth`, `r_sp` of `MultiSmoothedProfile` (`Verif.Py.SmoothModel`), radius of each window as parameter | induction over the windows; both directions of "valid". |
| C172 | `penna_coeff` (residuals), `penna_func`, `fast_penna_coeffs`, `plot_func`, `chi2`, matrix and surface of `andrey_penna.py` (`Verif.Py.PennaModel`); reals, `pinv` as parameter, `leastsq` left out | three nested loops as sums with index (k(n+1)+j)(n+1)+i; angles of a direction by `Complex.arg` and `arccos`; least squares from the Moore-Penrose conditions; counterexample with two points for the weights. |
| C173 | `ChurazovInterpolant` (`Verif.Py.ChurazovModel`); reals | normal equations of the weighted sums, determinant positive for two abscissae, uniqueness of the minimum; power laws have cost 0. |
| C174 | `log_to_linear`, `linear_to_log`, `linear_to_log_base`, `log_to_linear_base` (`Verif.Py.ChurazovModel`) | chain rule with `HasDerivAt`; the first raises always. |
| C175 | `ProfileGroup2D.__init__`, `coords` (`Verif.Py.GroupModel`) | case analysis over the three planes; cosine and sine of `arctan2` of a unit vector. |
| C176 | `binned_mean`, `binned_std` (`Verif.Py.GroupModel`), `binned_statistic` as documented | `arctan2` of the upper half circle is the angle, of the lower half negative; counterexamples for both. |
| C177 | `add_densities.py` (`Verif.Py.GroupModel`), exact sums | induction over the files; sums of permuted lists. |
| C178 | `AbstractProfile.__init__` (`Verif.Py.RawModel`), `vector_deriv` from C161; logarithm a parameter | filters of lists; the derivative of any two arrays of five or more entries is computed entry by entry; counterexamples for any logarithm. |
| C179 | `RawProfile.__init__` (`Verif.Py.RawModel`) over `nan_split` (C158), `BinConverter.convert` (C160) and `vector_deriv` (C161) | composition of those theorems: groups are NaN-free blocks, inner bins of a line have the value at their centre, fourth order differences are exact on lines; the ends by evaluation. |
| C180 | `binnedMean` with its limits, mask and logarithms (`Verif.Scripts.BinnedModel`) | invariant of the loop over points (counts and sums of each bin), uniqueness of the bin of a point, invariant of the compaction in place; limits as least and greatest elements; counterexamples by evaluation. |
| C181 | `radii` (squares) and `randomUnit` (`Verif.Scripts.BinnedModel`) | three nested loop invariants over the running index; algebra. |
| C182 | `Word/Model.lean`: `NewGrid`, `Idx`, `BoundsCheck`, `IdxCheck`, `Coords`, `Intersect` (one axis), `compressCoords`, `TetraIdxs.Init` and the indices of `createSegments` again, in 64-bit words that wrap around | `Word/Props.lean`: each word is congruent to the unbounded result; the final value is in range, so it is equal (`C182_grid` up to 2^21 cells a side, `C182_volume` up to 2^63 cells, `C182_intersect` up to ±2^60, `C182_tetra` and `C182_segment` up to 2^20 particles a side). `C182_counterexample`: 2^21 cells a side have volume −2^63, 2.5 million a side a negative index, 2^32 divide by zero |
| C183 | `Scripts/SubhaloModel.lean`: the lines of the subhalo file (`newHalo`, `newHalos`, `Halo.String`), `readSubhalos` and the loop that cleans the image, `findIdx`; numbers of any type, printing and the table reader taken as inverse | `Scripts/Subhalo.lean`: loop of `readSubhalos` by the filling lemma, then composed with C113; partial where C113 is |
| C184 | `Py/AutomateModel.lean`: `automate.py` (arguments, file names), names in `genScripts` and `profile.go`; `int` of a string is a parameter, directories and commands left out | `Py/Automate.lean`: case analysis of the arguments; equality of names; distinct by reading digits back; counterexamples for the virial radius and negative halos |
| C185 | `Py/KdeModel.lean`: `gaussian_kde_spline` in its points, `kde_peak_heights`, `plot_kde_max`, the maxima and the root of `KDETree`; real numbers, the interpolating spline of SciPy goes through its points | `Py/Kde.lean`: loop as a sum of bell curves; Gaussian integral of Mathlib; strict monotony outside the range of the points; counterexamples for the norm and for shells |
| C186 | `Py/ShellModel.lean`: `find_max_r`, `filter_around_max`, `filter_around` and the limits of `multi_fit` of penna.py; exact numbers, the radii and the number of bins are parameters | `Py/Shell.lean`: every number between the limits is in exactly one bin (floor), sums over the bins by induction on the points; first largest entry by induction; counterexamples for round shells and for the furthest point |
| C187 | `Go/Limits.lean`: `float32` and `float64` with gradual underflow and overflow; `Fp/LimitsModel.lean`: `ModAt`, `SubAt`, `WrapDistance`, sums in a pixel, `Uniform` (not fused), Xorshift and Tausworthe draws over these numbers; no NaN, no sign of zero | `Fp/Limits.lean`: numbers of a format are multiples of its smallest one, so sums below the normal numbers are exact; nearest number of the format; induction over sums and draws |
| C188 | `Py/RangeModel.lean`: `find_splashback`, `splashback_range` of both scripts, `naive_caustic_min`, `local_caustic_min` and the choice by name; the filter, logarithm and power are parameters | `Py/Range.lean`: induction over the windows with uniqueness of the list, C159 for the point, exactness of the filter for polynomials; the version of plot_profile.py raises an exception |
| C189 | `Py/FitModel.lean`: `healpix_bins`, `chi2` and `multi_fit` of kde.py; rationals, the fit and healpy are parameters | `Py/Fit.lean`: induction over points and limits; with one point more than coefficients the value is not finite |
| C190 | `Py/ClosedModel.lean`: `get_spline` and `filter_nearby` of 2d_kde.py over the reals; the spline is a parameter | `Py/Closed.lean`: the three turns are the nodes numbered from -n to 2n - 1, increasing; radius from sine and cosine; filter by mask |
| C191 | `Io/PyHeaderModel.lean`: `Sizes`, `Header` with its parts, `read_header`, `read_grid` with shapes and byte order, names of gotetra.py | `Io/PyHeader.lean`: pieces of a string of words are strings of the pieces; composition with `WriteBuffer`; names and axes against the configuration and `NewRenderInfo` |
| C192 | `Py/SelectModel.lean`: limits, indices, rows, number of particles and files of select_random.py; rational masses | `Py/Select.lean`: a sorted list is heavy, in range, light; the indices are where the kind changes, by induction; files by injectivity of the names |
| C193 | `Py/HaloUnitsModel.lean`: constants, densities and `m_to_r` of read_halo.py over the reals | `Py/HaloUnits.lean`: both densities are a unit times the Friedmann sum; ratio of the units from the constants; the mean density has the sum once too often |
| C194 | `Py/PlateauModel.lean`: `plateau`, `plateau_idxs` and what they save; names that do not exist are parameters | `Py/Plateau.lean`: induction over both loops against `IsPlateau`; invariant on what is saved for any sequence of calls; exception for every profile with a caustic |
| C195 | `Py/ColorsModel.lean`: list of colours, both plots as lists of what is drawn; `writeCaustic` of `Py/TableModel.lean` for the file | `Py/Colors.lean`: induction over the profiles with the number of caustics so far; words of the lines of the text; equality of the two lists without white |
| C196 | `Py/MultiProfModel.lean`: constructor and methods of `MultiSmoothedProfile` over `multiSmooth` of `Py/SmoothModel.lean`, the loop of `write_caustic` over such profiles | `Py/MultiProf.lean`: induction over the segments with C171; the index of a segment handed to a profile of one segment; call without the argument |
| C197 | `Fp/TetraModel.lean`: `signedVolume`, `Volume`, `Contains`, `Dot`, `CrossSelf` with every rounding to `float32` and `float64`, a choice of fused products, no limits of the exponent, zero taken as positive | `Fp/Tetra.lean`: bounds for values and errors carried through products, sums and roundings; signs of the four volumes; the tests of `Contains` with the errors of the sum; a thin tetrahedron as counterexample |
| C198 | `Interp/RoundKernelModel.lean`: `ConvolveAt`, `normalize`, `NewTophatKernel`, `NewGaussianKernel` over the rounded arithmetic `FP`; `exp` an arbitrary function | `Interp/RoundKernel.lean`: loop invariants, the error of a sum of products (C137), monotone rounding, bounds of a rounded sum of positive numbers |
| C199 | `Calc/RoundModel.lean`: `Deriv` of orders 2 and 4 over the rounded arithmetic `FP` | `Calc/Round.lean`: closed forms by the loop lemma of C13, errors of each numerator carried through the division; `Calc/RoundExact.lean`: tables without rounding |
| C200 | `Interp/RoundSavGolModel.lean`: `savgol`, `NewSavGolKernel`, `NewSavGolDerivKernel` over the rounded arithmetic `FP`, with the rounded `LU` and `SolveVector` of `Mat/RoundModel.lean`; `math.Pow` an arbitrary function | `Mat/RoundParity.lean`: the pattern of zeros is an invariant of the factorisation, of the exchanges and of both substitutions; `Interp/RoundSavGol.lean`: exact cancellation of the odd sums, induction over the terms of a weight |

Remarks on single properties.

* C09: the theorem is about exact arithmetic. With rounding, `Uniform(low, high)` can return `high` (C123).
* C46, C107: one step of a worker is the visit of one tetrahedron. Workers share no memory except the
  scaled positions, which nobody writes during a pass, so finer interleavings have the same effect.
* C50, C92, C111, C112: with a segment buffer a projected image needs only that the depth of a sample inside the
  segment is not exactly zero; with a domain buffer the condition is on all three coordinates (C52).
* C47 to C50, C94, C107, C108, C111, C112: the image is exact; rounding of sums depends on the schedule.
* C94, C107, C108, C111, C112: the place of a sample exactly on certain faces is wrong in the code, so the theorems on
  single pixels are partial. `intFloor` moves such a sample by one cell, modulo the period, so an image at least as wide
  as the box keeps it: the theorems on totals and means have no condition on faces (`Render/McTotal.lean`).
* C51, C48, C94, C107, C108, C111, C112: a whole-box image gets `cells + 1` pixels per side. The theorems hold for
  images of any width and say that the pixels beyond the first period gain nothing. Therefore the mean density of a
  whole-box image is `(cells / (cells + 1))³` of that of the box (`C108_whole_box`, `C112_whole_box`), and one for
  images of `cells` pixels per side.

## 4. Trusted base

* Lean 4.33.0's kernel. No `sorry`, no axioms of our own, no `native_decide`, no `bv_decide`; `decide +kernel`
  is evaluated by the kernel itself.
* Mathlib, as far as its definitions appear in statements (finite sums, floor, rationals, reals, bit vectors,
  matrices). Its proofs are checked by the kernel.
* The reading of the Go text: every model definition cites the lines it transcribes, and nothing ties the two
  together but that reading.
* The contracts of section 2 for code outside the repository.

Axioms, from `#print axioms` on the 759 theorems named in MANIFEST.json:

* no axioms: `Verif.Io.C71_quantity_render_counterexample`, `Verif.Io.C99_density_counterexample`, `Verif.Render.C55_counterexample`.
* `propext`: `Verif.Geom.C33_idxCheck`, `Verif.Geom.C33_idxCheck_value`, `Verif.Halo.C78_column62_counterexample`, `Verif.Halo.C78_negative_counterexample`, `Verif.Io.C63_positions_counterexample`, `Verif.Io.C71_quantity_hist_partial`, `Verif.Io.C71_subsample_render_counterexample`, `Verif.Io.C99_requiresVelocity`, `Verif.Py.MultiProf.C196_write`, `Verif.Sort.C03_buffer_length`, `Verif.Word.C182_counterexample`.
* `Quot.sound`, `propext`: `Verif.Geom.C35_unknown_direction`, `Verif.Halo.C76_columns`, `Verif.Interp.C157_evalAll`, `Verif.Interp.C157_evalAll_one`, `Verif.Interp.C15_evalAll_panics`, `Verif.Interp.C23_get_counterexample`, `Verif.Interp.C23_get_partial`, `Verif.Interp.C23_get_reflection_partial`, `Verif.Io.C67_counterexample`, `Verif.Io.C67_low_word`, `Verif.Io.C67_partial`, `Verif.Io.C99_names_partial`, `Verif.Main.C136_render_counterexample`, `Verif.Main.C83_range_partial`, `Verif.Main.C83_unset_counterexample`, `Verif.Py.C158_split_edges`, `Verif.Py.C188_counterexample_choice`, `Verif.Py.C189_bins`, `Verif.Py.C189_bins_raise`, `Verif.Py.Plateau.C194_repeat`, `Verif.Rand.C12_sobol_restart_partial`, `Verif.Render.C152_weights`, `Verif.Render.C55_names_partial`, `Verif.Sort.C04_median_counterexample`.
* `propext`, `Classical.choice` and `Quot.sound`: the other 721 theorems, that is, each one named in MANIFEST.json
  and not listed above.
