{"id": "C01", "title": "Shell sorts", "statement": "sort.Shell returns, for every slice, a slice that is in non-decreasing order and is a rearrangement of the input (no value lost or duplicated); it never indexes out of range.", "quantifier": "every slice of comparable values, every length including 0 and 1", "why_tests_cant": "A test fixes finitely many inputs; the claim is about every input of every length.", "anchors": ["math/sort/shell.go:Shell"]}
{"id": "C02", "title": "Quick sorts", "statement": "sort.Quick terminates on every slice, never indexes out of range, and leaves the slice in non-decreasing order holding exactly the input values.", "quantifier": "every slice of comparable values, every length", "why_tests_cant": "A test fixes finitely many inputs; the claim is about every input of every length.", "anchors": ["math/sort/quick.go:Quick", "math/sort/quick.go:partition", "math/sort/quick.go:sort3"]}
{"id": "C03", "title": "NthLargest selects", "statement": "sort.NthLargest(xs, n) with 1 <= n <= len(xs) terminates and returns the value that sits at position n when xs is sorted in decreasing order; xs itself is not changed.", "quantifier": "every non-empty slice and every n in 1..len", "why_tests_cant": "A test fixes finitely many inputs; the claim is about every input of every length.", "anchors": ["math/sort/median.go:NthLargest", "math/sort/median.go:nthLargest"]}
{"id": "C04", "title": "Median and Percentile select the documented rank", "statement": "sort.Median(xs) is a middle value of xs (at least half of the values are <= it and at least half are >= it) and sort.Percentile(xs, p) returns a value for every p in [0, 1].", "quantifier": "every non-empty slice; every p in [0,1]", "why_tests_cant": "A test fixes finitely many inputs; the claim is about every input of every length.", "anchors": ["math/sort/median.go:Median", "math/sort/median.go:Percentile"]}
{"id": "C05", "title": "Reverse reverses", "statement": "sort.Reverse puts element i at position len-1-i, for every slice; applying it twice gives back the input.", "quantifier": "every slice", "why_tests_cant": "A test fixes finitely many inputs; the claim is about every input of every length.", "anchors": ["math/sort/sort.go:Reverse"]}
{"id": "C06", "title": "Xorshift stays in [0,1) and always answers", "statement": "For every seed and every number of previous draws, the Xorshift generator's Next returns (it never redraws forever) and the value is in [0, 1).", "quantifier": "every 64-bit seed, every number of draws", "why_tests_cant": "The state space has 2^128 states; no test can visit it, and the redraw loop only triggers on rare states.", "anchors": ["math/rand/xorshift.go:Init", "math/rand/xorshift.go:Next"]}
{"id": "C07", "title": "Block draws equal single draws", "statement": "Filling a slice with NextSequence gives the same values, and leaves the generator in the same state, as calling Next once per element; so any mix of block and single draws with the same total length reads the same stream.", "quantifier": "every generator state, every partition of the stream into block and single draws", "why_tests_cant": "A test runs a few call histories; the claim is about every history of calls on the same object.", "anchors": ["math/rand/xorshift.go:NextSequence", "math/rand/tausworthe.go:NextSequence", "math/rand/rand.go:UniformAt"]}
{"id": "C08", "title": "Tausworthe stream is the lagged recurrence", "statement": "After any number n of draws, the n-th value of the Tausworthe generator is the fractional part of (value n-2444) - (value n-4187), where negative positions refer to the initial table; every value is in [0, 1) and no index leaves the table.", "quantifier": "every initial table with entries in [0,1), every n", "why_tests_cant": "The recurrence is a statement about an unbounded stream and about ring-buffer wrap-arounds at every offset.", "anchors": ["math/rand/tausworthe.go:Init", "math/rand/tausworthe.go:Next"]}
{"id": "C09", "title": "Uniform draws land in the requested range", "statement": "UniformInt(low, high) is in [low, high) and Uniform/UniformAt(low, high) are in [low, high) whenever the backend returns values in [0, 1) and low < high.", "quantifier": "every backend value in [0,1), every low < high", "why_tests_cant": "A test fixes finitely many inputs; the claim is about every input of every length.", "anchors": ["math/rand/rand.go:UniformInt", "math/rand/rand.go:Uniform", "math/rand/rand.go:UniformAt"]}
{"id": "C10", "title": "Sobol values in [0,1) without index errors", "statement": "Every one of the allowed calls to SobolSequence.NextAt (at most 2^30, at most 6 dimensions) returns coordinates in [0, 1) without a run-time panic.", "quantifier": "every history of NextAt calls, with any mix of dimensions, up to the documented maximum", "why_tests_cant": "2^30 calls times every mix of dimensions is out of reach of a test.", "anchors": ["math/rand/sobol.go:Init", "math/rand/sobol.go:NextAt"]}
{"id": "C11", "title": "Sobol points are stratified", "statement": "In each of the six dimensions, for every m, each aligned run of 2^m consecutive points of a fresh sequence (the calls numbered a*2^m-1 to (a+1)*2^m-2, counting from 1) puts exactly one point in each interval [k/2^m, (k+1)/2^m).", "quantifier": "every dimension, every m up to 30, every aligned run", "why_tests_cant": "The number of runs and intervals is astronomically large and the claim is about all of them.", "anchors": ["math/rand/sobol.go:Init", "math/rand/sobol.go:NextAt"]}
{"id": "C12", "title": "Re-initialising a Sobol sequence restarts it", "statement": "Calling Init on a used SobolSequence makes it produce the same points as a fresh sequence.", "quantifier": "every history before Init and every number of draws after", "why_tests_cant": "A test runs a few call histories; the claim is about every history of calls on the same object.", "anchors": ["math/rand/sobol.go:Init"]}
{"id": "C13", "title": "calc.Deriv is exact on low-degree data", "statement": "Deriv of order 2 is exact for samples of quadratics on a uniform grid and order 4 for samples of quartics; order 0 returns the data; linear data on any grid give the slope.", "quantifier": "every polynomial of that degree, every grid, every point including the edges", "why_tests_cant": "A test fixes finitely many inputs; the claim is about every input of every length.", "anchors": ["math/calc/deriv.go:Deriv"]}
{"id": "C14", "title": "Table search brackets the argument", "statement": "For every strictly increasing table and every x between its first and last entries, the interpolators' table search terminates and finds neighbouring entries with xs[i] <= x <= xs[i+1]; outside the table the call panics rather than extrapolating.", "quantifier": "every strictly increasing table with at least two entries, every x", "why_tests_cant": "A test fixes finitely many inputs; the claim is about every input of every length.", "anchors": ["math/interpolate/search.go:search", "math/interpolate/search.go:init", "math/interpolate/search.go:unifInit"]}
{"id": "C15", "title": "Linear interpolation is right", "statement": "Linear.Eval reproduces the table at every knot, is the straight line through the bracketing knots in between (so lies between their values), and EvalAll is Eval element by element.", "quantifier": "every increasing table (general and uniform), every x in range", "why_tests_cant": "A test fixes finitely many inputs; the claim is about every input of every length.", "anchors": ["math/interpolate/linear_interpolators.go:Linear"]}
{"id": "C16", "title": "BiLinear and TriLinear interpolate the grid", "statement": "BiLinear.Eval and TriLinear.Eval reproduce the table at every grid point, and are exact for data that is affine in each coordinate.", "quantifier": "every increasing grid, every data set, every point in range", "why_tests_cant": "A test fixes finitely many inputs; the claim is about every input of every length.", "anchors": ["math/interpolate/linear_interpolators.go:BiLinear", "math/interpolate/linear_interpolators.go:TriLinear"]}
{"id": "C17", "title": "Decreasing tables are accepted", "statement": "As documented, Linear and Spline interpolators accept strictly decreasing tables and reproduce the knots.", "quantifier": "every strictly decreasing table, every x in range", "why_tests_cant": "A test fixes finitely many inputs; the claim is about every input of every length.", "anchors": ["math/interpolate/search.go:search", "math/interpolate/spline.go:Eval", "math/interpolate/spline.go:Deriv"]}
{"id": "C18", "title": "TriDiagAt solves the tridiagonal system", "statement": "Whenever TriDiagAt returns, its output solves the tridiagonal system given by its arguments; for a diagonally dominant system it returns.", "quantifier": "every system size, every coefficient", "why_tests_cant": "A test fixes finitely many inputs; the claim is about every input of every length.", "anchors": ["math/interpolate/spline.go:TriDiagAt"]}
{"id": "C19", "title": "Spline is a natural C2 cubic through the knots", "statement": "NewSpline accepts every strictly increasing table of three or more points without panicking; Eval equals the table at each knot; value, first and second derivative agree from both sides at each interior knot; the second derivative is zero at the two ends.", "quantifier": "every strictly increasing table, every data", "why_tests_cant": "A test fixes finitely many inputs; the claim is about every input of every length.", "anchors": ["math/interpolate/spline.go:NewSpline", "math/interpolate/spline.go:calcY2s", "math/interpolate/spline.go:calcCoeffs", "math/interpolate/spline.go:Eval"]}
{"id": "C20", "title": "Spline.Deriv differentiates Eval", "statement": "For every order, Spline.Deriv(x, order) is the order-th derivative of the cubic piece that Eval uses at x.", "quantifier": "every table, every x strictly inside, orders 0..3 and above", "why_tests_cant": "A test fixes finitely many inputs; the claim is about every input of every length.", "anchors": ["math/interpolate/spline.go:Deriv"]}
{"id": "C21", "title": "Spline.Integrate integrates Eval", "statement": "Spline.Integrate(lo, hi) is the integral of Eval from lo to hi for every lo <= hi inside the table.", "quantifier": "every table, every lo <= hi", "why_tests_cant": "A test fixes finitely many inputs; the claim is about every input of every length.", "anchors": ["math/interpolate/spline.go:Integrate"]}
{"id": "C22", "title": "Cubic interpolators have no memory", "statement": "BiCubic.Eval and TriCubic.Eval return a value that depends only on the table and the arguments, not on which points were evaluated before, including points that made Eval panic.", "quantifier": "every history of Eval calls", "why_tests_cant": "A test runs a few call histories; the claim is about every history of calls on the same object.", "anchors": ["math/interpolate/cubic_interpolators.go:BiCubic", "math/interpolate/cubic_interpolators.go:TriCubic"]}
{"id": "C23", "title": "Convolution follows the boundary condition", "statement": "Kernel.ConvolveAt computes, at every index, the sum of kernel weights times the input extended outside its range by the chosen boundary condition (zero, constant, periodic, mirrored).", "quantifier": "every input at least as long as the kernel, every odd kernel, every boundary condition", "why_tests_cant": "A test fixes finitely many inputs; the claim is about every input of every length.", "anchors": ["math/interpolate/filter.go:ConvolveAt", "math/interpolate/filter.go:Get"]}
{"id": "C24", "title": "Smoothing kernels preserve constants", "statement": "Tophat and Gaussian kernels have odd width, are symmetric, have weights summing to one, so convolving a constant signal with constant extension gives back the constant.", "quantifier": "every odd width, every signal length", "why_tests_cant": "A test fixes finitely many inputs; the claim is about every input of every length.", "anchors": ["math/interpolate/filter.go:NewTophatKernel", "math/interpolate/filter.go:NewGaussianKernel"]}
{"id": "C25", "title": "Matrix product", "statement": "Matrix.Mult returns the matrix product for all conforming shapes.", "quantifier": "every conforming pair of matrices", "why_tests_cant": "A test fixes finitely many inputs; the claim is about every input of every length.", "anchors": ["math/mat/mat.go:Mult", "math/mat/mat.go:MultAt"]}
{"id": "C26", "title": "Transpose", "statement": "Matrix.Transpose puts element (i,j) at (j,i), whichever way the recursive blocking splits the matrix; transposing twice is the identity.", "quantifier": "every shape, every blocking threshold", "why_tests_cant": "The recursion only splits above sixteen million entries, which tests do not reach.", "anchors": ["math/mat/mat.go:TransposeAt", "math/mat/mat.go:recTranspose", "math/mat/mat.go:baseTranspose"]}
{"id": "C27", "title": "Matrix-vector products", "statement": "MultVec and VecMult return M v and v M for all conforming shapes and panic otherwise.", "quantifier": "every conforming shape", "why_tests_cant": "A test fixes finitely many inputs; the claim is about every input of every length.", "anchors": ["math/mat/mat.go:MultVec", "math/mat/mat.go:VecMult"]}
{"id": "C28", "title": "LU factors the matrix", "statement": "After LU, the product of the stored lower and upper factors is the input with its rows permuted as recorded by the pivots, and Determinant is the determinant of the input.", "quantifier": "every non-degenerate square matrix of every size", "why_tests_cant": "A test fixes finitely many inputs; the claim is about every input of every length.", "anchors": ["math/mat/mat.go:LU", "math/mat/mat.go:factorizeInPlace", "math/mat/mat.go:Determinant"]}
{"id": "C29", "title": "LU solves linear systems", "statement": "LUFactors.SolveVector(bs, xs) returns xs with A xs = bs.", "quantifier": "every non-singular square matrix, every right hand side", "why_tests_cant": "A test fixes finitely many inputs; the claim is about every input of every length.", "anchors": ["math/mat/mat.go:SolveVector", "math/mat/mat.go:forwardSubst", "math/mat/mat.go:backSubst"]}
{"id": "C30", "title": "LU solves matrix systems", "statement": "LUFactors.SolveMatrix(b, x) returns x with A x = b and Invert returns the inverse.", "quantifier": "every non-singular square matrix, every right hand side", "why_tests_cant": "A test fixes finitely many inputs; the claim is about every input of every length.", "anchors": ["math/mat/mat.go:SolveMatrix", "math/mat/mat.go:InvertAt"]}
{"id": "C31", "title": "Periodic wrap and minimal image", "statement": "Vec.Mod maps coordinates in [-w, 2w) to the equivalent coordinate in [0, w); Vec.Sub of two positions in the box returns an equivalent displacement of length at most w/2 along each axis.", "quantifier": "every width, every pair of positions", "why_tests_cant": "A test fixes finitely many inputs; the claim is about every input of every length.", "anchors": ["render/geom/vec.go:ModAt", "render/geom/vec.go:SubAt"]}
{"id": "C32", "title": "Cross product orientation", "statement": "Vec.Cross is the right-handed cross product: orthogonal to both arguments, and e1 x e2 = e3.", "quantifier": "every pair of vectors", "why_tests_cant": "A test fixes finitely many inputs; the claim is about every input of every length.", "anchors": ["render/geom/vec.go:CrossAt"]}
{"id": "C33", "title": "Grid index and coordinates are inverse", "statement": "For every Grid, Idx is a bijection between the cells inside its bounds and 0..Volume-1, IdxCheck accepts exactly those cells, and Coords is its inverse.", "quantifier": "every grid bounds, every cell", "why_tests_cant": "A test fixes finitely many inputs; the claim is about every input of every length.", "anchors": ["render/geom/grid.go:Idx", "render/geom/grid.go:IdxCheck", "render/geom/grid.go:Coords"]}
{"id": "C34", "title": "Culling loses nothing", "statement": "CellBounds.Intersect never answers false for two boxes that share a cell of the periodic grid; IntersectUnbounded is exactly box overlap.", "quantifier": "every pair of boxes, every grid width", "why_tests_cant": "A test fixes finitely many inputs; the claim is about every input of every length.", "anchors": ["render/geom/grid.go:Intersect", "render/geom/grid.go:IntersectUnbounded", "render/geom/grid.go:bound"]}
{"id": "C35", "title": "Six tetrahedra tile the cube", "statement": "The six tetrahedra returned by TetraIdxs.Init for directions 0..5 have the cube's corners as vertices, cover the cube, overlap only in faces, and their vertex indices stay inside the particle grid.", "quantifier": "every cube of every grid and every skip, every point of the cube", "why_tests_cant": "A test fixes finitely many inputs; the claim is about every input of every length.", "anchors": ["render/geom/tetra.go:Init", "render/geom/tetra.go:InitCartesian", "render/geom/tetra.go:Dirs"]}
{"id": "C36", "title": "InitCentered reports out-of-grid tetrahedra", "statement": "TetraIdxs.InitCentered returns ok = true only if all four indices address particles of the grid.", "quantifier": "every centre index, grid width, skip and direction", "why_tests_cant": "A test fixes finitely many inputs; the claim is about every input of every length.", "anchors": ["render/geom/tetra.go:InitCentered", "render/geom/tetra.go:compressCoordsCheck"]}
{"id": "C37", "title": "Tetra.Contains is point-in-tetrahedron", "statement": "For a non-degenerate tetrahedron Contains accepts every point strictly inside and rejects every point strictly outside; the answer for boundary points does not depend on the ordering of the corners.", "quantifier": "every non-degenerate tetrahedron, every point", "why_tests_cant": "A test fixes finitely many inputs; the claim is about every input of every length.", "anchors": ["render/geom/tetra.go:Contains", "render/geom/tetra.go:signedVolume"]}
{"id": "C38", "title": "Tetra caches are coherent", "statement": "Volume and Barycenter always describe the tetrahedron most recently passed to Init, for every history of Init, Volume, Contains, Barycenter and Distribute calls; Volume is a sixth of the absolute determinant.", "quantifier": "every call history, every corner positions", "why_tests_cant": "A test runs a few call histories; the claim is about every history of calls on the same object.", "anchors": ["render/geom/tetra.go:Volume", "render/geom/tetra.go:Barycenter", "render/geom/tetra.go:Init"]}
{"id": "C39", "title": "Barycenter is the mean of the corners", "statement": "Tetra.Barycenter returns the mean of the four corners.", "quantifier": "every tetrahedron", "why_tests_cant": "A test fixes finitely many inputs; the claim is about every input of every length.", "anchors": ["render/geom/tetra.go:Barycenter"]}
{"id": "C40", "title": "Distributed points stay inside", "statement": "Tetra.Distribute / DistributeTetra map every point of the unit cube to a convex combination of the corners, whatever the cached barycenter is, and the unit-cube folding covers the unit tetrahedron uniformly: each interior point has the same number (six) of preimages through volume preserving pieces.", "quantifier": "every tetrahedron, every unit-cube point", "why_tests_cant": "Uniformity and containment are about a continuum of points.", "anchors": ["render/geom/tetra.go:DistributeUnit", "render/geom/tetra.go:DistributeTetra", "render/geom/tetra.go:Distribute"]}
{"id": "C41", "title": "Tetra.CellBoundsAt covers the tetrahedron", "statement": "Every point of the tetrahedron lies in a cell inside the bounds returned by CellBoundsAt, and no smaller box of cells has this property.", "quantifier": "every tetrahedron, every cell width, every point", "why_tests_cant": "A test fixes finitely many inputs; the claim is about every input of every length.", "anchors": ["render/geom/tetra.go:CellBoundsAt"]}
{"id": "C42", "title": "Segment scaling keeps positions in the segment's cell box", "statement": "After ScaleVecsSegment/ScaleVecsDomain every position is the original one expressed in cells relative to the box origin, wrapped into one period.", "quantifier": "every position, box, cell count", "why_tests_cant": "A test fixes finitely many inputs; the claim is about every input of every length.", "anchors": ["render/geom/grid.go:ScaleVecsSegment", "render/geom/grid.go:ScaleVecsDomain"]}
{"id": "C43", "title": "Grid derivatives are the finite-difference stencils", "statement": "Grid.Deriv applies at every cell, along the requested axis, the centred stencil with periodic neighbours (periodic grids) or the one-sided stencil at the edges, so order 2 is exact on quadratics and order 4 on quartics along each axis.", "quantifier": "every grid shape, every axis, every cell, every field", "why_tests_cant": "A test fixes finitely many inputs; the claim is about every input of every length.", "anchors": ["render/geom/deriv.go:Deriv", "render/geom/deriv.go:wrapDeriv", "render/geom/deriv.go:edgesDeriv"]}
{"id": "C44", "title": "Differential operators leave their options alone", "statement": "Curl, Divergence and Gradient with given options (or nil) give the same result whatever derivative calls were made before.", "quantifier": "every history of Deriv/Curl/Divergence calls", "why_tests_cant": "A test runs a few call histories; the claim is about every history of calls on the same object.", "anchors": ["render/geom/deriv.go:Curl", "render/geom/deriv.go:Divergence", "render/geom/deriv.go:DerivOptionsDefault"]}
{"id": "C45", "title": "Every cube is rendered by exactly one worker", "statement": "For every number of workers, the index ranges given to the workers partition the cubes of a segment: each cube is interpolated by exactly one worker, and in all six directions.", "quantifier": "every worker count, every segment size, every cube", "why_tests_cant": "A test fixes finitely many inputs; the claim is about every input of every length.", "anchors": ["render/render.go:initWorkspaces", "render/density/interpolator.go:Interpolate"]}
{"id": "C46", "title": "Rendering does not depend on the schedule", "statement": "The grid after RenderDensityFromFile equals the previous grid plus the contributions of all workers, whatever order the workers finish in, and the call always returns.", "quantifier": "every number of workers, every interleaving of workers and receiver", "why_tests_cant": "A test observes the schedules the runtime happened to pick; the claim is about every interleaving.", "anchors": ["render/render.go:RenderDensityFromFile", "render/render.go:chanInterpolate"]}
{"id": "C47", "title": "Deposits conserve mass", "statement": "Interpolating a tetrahedron into a buffer adds exactly (number of sample points) x (point value) in total, spread over the cells that contain the points, and touches no other cell.", "quantifier": "every buffer, every point set inside the buffer", "why_tests_cant": "A test fixes finitely many inputs; the claim is about every input of every length.", "anchors": ["render/box.go:segmentOverlap3D.Interpolate", "render/box.go:domainOverlap3D.Interpolate"]}
{"id": "C48", "title": "Segment buffers are added at the right periodic place", "statement": "Adding a segment buffer to the image adds each buffer cell to exactly the image cell with the same position modulo the box, and nothing else.", "quantifier": "every pair of cell boxes, every buffer contents", "why_tests_cant": "A test fixes finitely many inputs; the claim is about every input of every length.", "anchors": ["render/box.go:segmentOverlap3D.Add", "render/box.go:segmentOverlap2D.Add", "render/box.go:domainOverlap3D.Add"]}
{"id": "C49", "title": "Both render strategies agree", "statement": "Rendering a segment through a segment buffer or directly into a domain buffer gives the same image.", "quantifier": "every point set, every pair of cell boxes", "why_tests_cant": "A test fixes finitely many inputs; the claim is about every input of every length.", "anchors": ["render/box.go:segmentOverlap3D", "render/box.go:domainOverlap3D"]}
{"id": "C50", "title": "Projected image is the depth sum", "statement": "The 2D overlap used for projections holds, in each pixel, the depth-averaged sum of the 3D cells behind it.", "quantifier": "every point set, every projection axis and depth", "why_tests_cant": "A test fixes finitely many inputs; the claim is about every input of every length.", "anchors": ["render/box.go:segmentOverlap2D", "render/box.go:domainOverlap2D"]}
{"id": "C51", "title": "Image cells cover the requested box", "statement": "NewBox chooses cells such that every position of the requested region falls inside the image, and an image of the whole box has exactly the total number of pixels per side.", "quantifier": "every origin, width, pixel size", "why_tests_cant": "A test fixes finitely many inputs; the claim is about every input of every length.", "anchors": ["render/box.go:newBox2D", "render/box.go:newBox3D", "render/box.go:NewBox"]}
{"id": "C52", "title": "intFloor is floor", "statement": "The floor used when depositing points is the mathematical floor for every coordinate.", "quantifier": "every coordinate", "why_tests_cant": "A test fixes finitely many inputs; the claim is about every input of every length.", "anchors": ["render/box.go:intFloor"]}
{"id": "C53", "title": "Worker buffers carry nothing over", "statement": "Rendering a file adds only that file's contribution: stale contents of the reused worker buffers from earlier files or boxes never reach the image.", "quantifier": "every sequence of files and boxes with different buffer sizes", "why_tests_cant": "A test runs a few call histories; the claim is about every history of calls on the same object.", "anchors": ["render/render.go:RenderDensityFromFile", "render/density/buffer.go:Slice", "render/density/buffer.go:Clear"]}
{"id": "C54", "title": "Subsample accepts exactly powers of two", "statement": "Manager.Subsample and HistManager.Subsample accept a subsample length iff it is a power of two.", "quantifier": "every integer argument, every current setting", "why_tests_cant": "A test runs a few call histories; the claim is about every history of calls on the same object.", "anchors": ["render/render.go:Subsample", "render/render.go:isPowTwo", "render/hist.go:Subsample"]}
{"id": "C55", "title": "Quantity names round-trip", "statement": "QuantityFromString(q.String()) gives q back for every quantity, unknown names are rejected.", "quantifier": "every quantity, every string", "why_tests_cant": "A test fixes finitely many inputs; the claim is about every input of every length.", "anchors": ["render/density/quantity.go:String", "render/density/quantity.go:QuantityFromString"]}
{"id": "C56", "title": "Finalised buffers are mean values per cell", "statement": "FinalizedVectorBuffer of a velocity buffer returns, per cell, momentum divided by weight (zero where empty) for every grid size.", "quantifier": "every buffer size, every contents", "why_tests_cant": "A test fixes finitely many inputs; the claim is about every input of every length.", "anchors": ["render/density/buffer.go:velocityBuffer", "render/density/buffer.go:divergenceBuffer"]}
{"id": "C57", "title": "Histogram workers see every tetrahedron once", "statement": "For every worker count and subsample length, each cube of the (subsampled) sheet is processed by exactly one histogram worker.", "quantifier": "every worker count, subsample length, sheet width", "why_tests_cant": "A test fixes finitely many inputs; the claim is about every input of every length.", "anchors": ["render/hist.go:chanHistogram"]}
{"id": "C58", "title": "Interval overlap on the periodic axis", "statement": "The overlap test used to select sheets and cubes answers true for every two periodic intervals that share a position.", "quantifier": "every pair of intervals, every period", "why_tests_cant": "A test fixes finitely many inputs; the claim is about every input of every length.", "anchors": ["render/hist.go:intersect1D", "render/hist.go:contains1D", "render/hist.go:histIntersect", "render/hist.go:cubeIntersects"]}
{"id": "C59", "title": "Histogram bins", "statement": "Each value in [min, max) increments exactly the bin whose interval contains it, other values are ignored, bin centres lie in their bins; per-worker histograms merge to the histogram of all values.", "quantifier": "every list of values, every bin count, every split over workers", "why_tests_cant": "A test fixes finitely many inputs; the claim is about every input of every length.", "anchors": ["render/hist.go:histogram", "render/hist.go:histCenters", "render/hist.go:HistFromFile"]}
{"id": "C60", "title": "Density lookup index is inside the grid", "statement": "The pixel index used to look up a density at a position inside the box is a valid index of the grid and is the cell containing the position.", "quantifier": "every box, every position", "why_tests_cant": "A test fixes finitely many inputs; the claim is about every input of every length.", "anchors": ["render/hist.go:gridIndex", "render/hist.go:getDensities"]}
{"id": "C61", "title": "Particle buffering is invisible", "statement": "A ParticleBuffer, after any sequence of Append and Flush calls ending with Flush, has written to the target arrays exactly what direct writes in the same order would have (last write for an id wins), for any buffer size.", "quantifier": "every buffer size >= 1, every call history", "why_tests_cant": "A test runs a few call histories; the claim is about every history of calls on the same object.", "anchors": ["render/io/buffer.go:Append", "render/io/buffer.go:Flush"]}
{"id": "C62", "title": "Sheet files round-trip", "statement": "Reading header, positions and velocities from a file written by WriteSheet gives back the same header (with Count = CountWidth^3), positions and velocities; reading positions or velocities touches only its own section.", "quantifier": "every header and every pair of vector lists of the right length", "why_tests_cant": "A test fixes finitely many inputs; the claim is about every input of every length.", "anchors": ["render/io/io.go:WriteSheet", "render/io/io.go:ReadSheetHeaderAt", "render/io/io.go:ReadSheetPositionsAt", "render/io/io.go:ReadSheetVelocitiesAt"]}
{"id": "C63", "title": "Damaged sheet files are reported", "statement": "Reading a sheet whose header size field is wrong, whose endianness flag is unknown, or which is truncated is reported by an error (or panic), never silently accepted.", "quantifier": "every file contents", "why_tests_cant": "A test fixes finitely many inputs; the claim is about every input of every length.", "anchors": ["render/io/io.go:readSheetHeaderAt", "render/io/io.go:ReadSheetPositionsAt", "render/io/io.go:endianness"]}
{"id": "C64", "title": "Byte order conversion", "statement": "Reading 32- and 64-bit values in the non-native byte order gives the values that were written in that order.", "quantifier": "every value, both byte orders", "why_tests_cant": "A test fixes finitely many inputs; the claim is about every input of every length.", "anchors": ["render/io/io.go:readVecAsByte", "render/io/io.go:readVec64AsByte", "render/io/io.go:readInt32AsByte", "render/io/io.go:readInt64AsByte"]}
{"id": "C65", "title": "Grid files round-trip", "statement": "ReadGrid on a file written by WriteBuffer gives back the scalar grid; for a vector grid the header says so.", "quantifier": "every header, every grid", "why_tests_cant": "A test fixes finitely many inputs; the claim is about every input of every length.", "anchors": ["render/io/output.go:WriteBuffer", "render/io/output.go:ReadGrid", "render/io/output.go:ReadGridHeader"]}
{"id": "C66", "title": "Endianness/version word is decodable", "statement": "The first word of a grid file identifies byte order and version: decoding it as the Python reader does gives back the byte order and version.", "quantifier": "every version number below 2^31, both byte orders", "why_tests_cant": "A test fixes finitely many inputs; the claim is about every input of every length.", "anchors": ["render/io/output.go:EndiannessVersionFlag", "render/io/output.go:reverse", "python/gotetra.py:_read_endianness_version"]}
{"id": "C67", "title": "Gadget particle counts", "statement": "The particle count taken from a Gadget header combines both 32-bit words of the header, so more than 2^32 particles are counted.", "quantifier": "every header", "why_tests_cant": "A test fixes finitely many inputs; the claim is about every input of every length.", "anchors": ["render/io/io.go:Standardize"]}
{"id": "C68", "title": "Sheet cell bounds cover the sheet", "statement": "SheetHeader.CellBounds(cells) contains the cell of every position in the sheet's bounding box.", "quantifier": "every sheet header, cell count, position", "why_tests_cant": "A test fixes finitely many inputs; the claim is about every input of every length.", "anchors": ["render/io/io.go:CellBounds"]}
{"id": "C69", "title": "Box configuration validation", "statement": "BoxConfig.CheckInit accepts only boxes with origin inside the periodic volume, positive widths not exceeding it, and a legal projection axis; accepting is stable under repetition.", "quantifier": "every configuration", "why_tests_cant": "A test fixes finitely many inputs; the claim is about every input of every length.", "anchors": ["render/io/config.go:BoxConfig.CheckInit"]}
{"id": "C70", "title": "A ball's bounding box is a valid box containing it", "statement": "BallConfig.Box returns a valid box that contains every point within the ball's radius (times its multiplier) of its centre, modulo the period; CheckInit rejects non-positive radii.", "quantifier": "every ball configuration", "why_tests_cant": "A test fixes finitely many inputs; the claim is about every input of every length.", "anchors": ["render/io/config.go:BallConfig.Box", "render/io/config.go:BallConfig.CheckInit"]}
{"id": "C71", "title": "Configuration predicates", "statement": "ValidSubsampleLength accepts exactly powers of two, ValidQuantity accepts exactly the known quantities.", "quantifier": "every configuration value", "why_tests_cant": "A test fixes finitely many inputs; the claim is about every input of every length.", "anchors": ["render/io/config.go:ValidSubsampleLength", "render/io/config.go:ValidQuantity"]}
{"id": "C72", "title": "Halo grid lists every particle once", "statement": "After Insert of n positions, the cell lists partition 0..n-1: ReadIndexes of a cell lists exactly the particles whose position is in that cell, Length is their number, MaxLength and the average follow.", "quantifier": "every list of positions in the box, every cell count", "why_tests_cant": "A test fixes finitely many inputs; the claim is about every input of every length.", "anchors": ["render/halo/grid.go:Insert", "render/halo/grid.go:ReadIndexes", "render/halo/grid.go:Length", "render/halo/grid.go:MaxLength"]}
{"id": "C73", "title": "Subhalo search finds all overlaps", "statement": "After FindSubhalos, the overlap list of each halo holds exactly the other halos whose (scaled) spheres overlap it in the periodic box, each once; the lists are symmetric; Hosts are the larger ones, Subhalos the smaller ones; radii are left as given.", "quantifier": "every halo catalogue sorted by radius, every multiplier", "why_tests_cant": "A test fixes finitely many inputs; the claim is about every input of every length.", "anchors": ["render/halo/finder.go:FindSubhalos", "render/halo/finder.go:crossMatch", "render/halo/finder.go:Intersects"]}
{"id": "C74", "title": "A subhalo finder can be reused", "statement": "Calling FindSubhalos a second time gives the same lists as the first call.", "quantifier": "every catalogue, every number of calls", "why_tests_cant": "A test runs a few call histories; the claim is about every history of calls on the same object.", "anchors": ["render/halo/finder.go:FindSubhalos", "render/halo/finder.go:StartEnd"]}
{"id": "C75", "title": "Sphere bounds cover the sphere", "statement": "CellBounds.SphereBounds of a sphere contains every grid cell (modulo the grid) that meets the sphere's bounding cube.", "quantifier": "every centre, radius, cell width", "why_tests_cant": "A test fixes finitely many inputs; the claim is about every input of every length.", "anchors": ["render/halo/finder.go:SphereBounds"]}
{"id": "C76", "title": "Radius and mass conversions are inverse", "statement": "For each overdensity definition Mass and Radius are inverse conversions and are increasing; RadiusFromString inverts String; the Rockstar column used for the radius and mass match the definition.", "quantifier": "every definition, cosmology, mass", "why_tests_cant": "A test fixes finitely many inputs; the claim is about every input of every length.", "anchors": ["render/halo/radius.go:Radius", "render/halo/radius.go:Mass", "render/halo/radius.go:RadiusFromString"]}
{"id": "C77", "title": "Halo catalogues are sorted record-wise", "statement": "The catalogue returned by ReadRockstar is in non-increasing radius order and every record (position, id, radius, values) is a record of the file: sorting never mixes columns of different halos.", "quantifier": "every catalogue", "why_tests_cant": "Every permutation of records of every length.", "anchors": ["render/halo/io.go:ReadRockstar", "render/halo/io.go:halos.Swap"]}
{"id": "C78", "title": "Binary Rockstar columns", "statement": "Reading column c of a binary catalogue written by RockstarConvert gives column c of the text catalogue; columns outside the table are rejected.", "quantifier": "every catalogue, every column", "why_tests_cant": "A test fixes finitely many inputs; the claim is about every input of every length.", "anchors": ["render/halo/io.go:RockstarConvert", "render/halo/io.go:binaryColGetter"]}
{"id": "C79", "title": "Segments are periodic sub-blocks", "statement": "copyToSegment fills the segment's slot (i,j,k) with the particle at the segment origin plus (i,j,k), modulo the particle grid, for positions and velocities alike.", "quantifier": "every grid width, every segment, every slot", "why_tests_cant": "A test fixes finitely many inputs; the claim is about every input of every length.", "anchors": ["render/main/main.go:copyToSegment"]}
{"id": "C80", "title": "Segments cover the particle grid", "statement": "The segments written by writeGrids cover each elementary cube of the periodic particle grid exactly once.", "quantifier": "every particle grid width and number of cells", "why_tests_cant": "A test fixes finitely many inputs; the claim is about every input of every length.", "anchors": ["render/main/main.go:writeGrids", "render/main/main.go:copyToSegment"]}
{"id": "C81", "title": "Segment files do not overwrite each other", "statement": "Different segments are written to different file names.", "quantifier": "every number of cells", "why_tests_cant": "A test fixes finitely many inputs; the claim is about every input of every length.", "anchors": ["render/main/main.go:writeGrids"]}
{"id": "C82", "title": "Periodic bounding box contains all particles", "statement": "The bounding box accumulated by Init and Add contains every added particle modulo the period, when the particles span less than half the period; the stored origin is in the periodic volume.", "quantifier": "every list of positions spanning less than half the box, every order of adding", "why_tests_cant": "Every list length and every insertion order matters because the box is updated incrementally.", "anchors": ["render/main/main.go:boundingBox"]}
{"id": "C83", "title": "Snapshot iteration", "statement": "LGadget2 mode processes exactly the iterations IterationStart..IterationEnd, and all available ones when IterationEnd is unset.", "quantifier": "every configuration, every number of available snapshots", "why_tests_cant": "A test fixes finitely many inputs; the claim is about every input of every length.", "anchors": ["render/main/main.go:lGadget2Main"]}
{"id": "C84", "title": "Cell number validation", "statement": "validCellNum accepts exactly powers of two.", "quantifier": "every integer", "why_tests_cant": "A test fixes finitely many inputs; the claim is about every input of every length.", "anchors": ["render/main/main.go:validCellNum"]}
{"id": "C85", "title": "intCubeRoot is exact or panics", "statement": "If intCubeRoot returns, the result cubed is the argument, however the floating point power behaves.", "quantifier": "every argument, every rounding behaviour", "why_tests_cant": "A test fixes finitely many inputs; the claim is about every input of every length.", "anchors": ["render/main/main.go:intCubeRoot"]}
{"id": "C86", "title": "Exactly one mode flag", "statement": "The program runs a mode iff exactly one mode flag is set.", "quantifier": "every combination of flags", "why_tests_cant": "A test fixes finitely many inputs; the claim is about every input of every length.", "anchors": ["render/main/main.go:getModeName"]}
{"id": "C87", "title": "Density scalings", "statement": "RhoAverage scales as (1+z)^3, equals OmegaM x RhoCritical(z=0), HubbleFrac(0) = 1 in a flat universe and grows with z.", "quantifier": "every cosmology, every redshift", "why_tests_cant": "A test fixes finitely many inputs; the claim is about every input of every length.", "anchors": ["cosmo/param.go:HubbleFrac", "cosmo/param.go:RhoCritical", "cosmo/param.go:RhoAverage"]}
{"id": "C88", "title": "End-to-end: every tetrahedron rendered once", "statement": "Over all segment files, workers and directions, each of the 6 N^3 tetrahedra of the periodic N^3 particle grid is deposited exactly once when the number of cells divides N.", "quantifier": "every N, cells, worker count, skip dividing the segment width", "why_tests_cant": "Combines loops over files, workers and directions of unbounded size.", "anchors": ["render/main/main.go:writeGrids", "render/render.go:initWorkspaces", "render/density/interpolator.go:Interpolate", "render/geom/tetra.go:Init"]}
{"id": "C89", "title": "Bicubic and tricubic interpolation reproduce the table", "statement": "After any history of earlier evaluations, Eval of a bicubic or tricubic interpolator at a grid point returns the table value stored for that grid point.", "quantifier": "every grid and table, every grid point, every earlier sequence of evaluations", "why_tests_cant": "The interpolators cache splines between calls, so the claim ranges over every history of calls as well as every table.", "anchors": ["math/interpolate/cubic_interpolators.go:BiCubic.Eval", "math/interpolate/cubic_interpolators.go:TriCubic.Eval"]}
{"id": "C90", "title": "Determinant of a singular matrix", "statement": "Matrix.Determinant of a singular matrix is zero, or the call panics.", "quantifier": "every singular square matrix of every size", "why_tests_cant": "Singular matrices have measure zero, so random tests do not meet them; the claim ranges over all of them.", "anchors": ["math/mat/mat.go:Determinant", "math/mat/mat.go:factorizeInPlace"]}
{"id": "C91", "title": "Vector operators combine the axis derivatives", "statement": "Divergence, Curl and Gradient of a vector field give at every cell the usual combination of the three axis derivatives, for overwriting, adding and subtracting output alike.", "quantifier": "every grid shape, every field, every cell, every output option", "why_tests_cant": "A test fixes finitely many fields and grids; the claim is about all of them.", "anchors": ["render/geom/deriv.go:Curl", "render/geom/deriv.go:Divergence", "render/geom/deriv.go:Gradient"]}
{"id": "C92", "title": "Velocity images show mean velocities", "statement": "After rendering velocities into an empty image and finalising it, every pixel holds the arithmetic mean of the velocities of the points deposited in it, in three-dimensional and in projected images.", "quantifier": "every set of points and velocities, every image and projection axis", "why_tests_cant": "A test looks at a few images of one depth; the claim is about every depth and every point set.", "anchors": ["render/box.go:Interpolate", "render/density/buffer.go:velocityBuffer", "render/density/quantity.go:CanProject"]}
{"id": "C93", "title": "Derivative images show the derivative of the field", "statement": "The divergence and curl images hold the divergence and curl of the mean velocity field of the image, the gradient image the gradient of the density.", "quantifier": "every field, every cell", "why_tests_cant": "A field that is symmetric in its components, as in most tests, hides exchanged components.", "anchors": ["render/density/buffer.go:divergenceBuffer", "render/density/buffer.go:curlBuffer", "render/density/buffer.go:gradientBuffer"]}
{"id": "C95", "title": "No cube that meets the analysed box is skipped", "statement": "The bounding box test that lets a histogram worker skip a cube of the sheet never skips a cube one of whose tetrahedra has a point inside the analysed box.", "quantifier": "every sheet, cube, box and period", "why_tests_cant": "The filter is a geometric shortcut; a test can only show that some cubes are kept.", "anchors": ["render/hist.go:cubeIntersects", "render/hist.go:cubeBoundingBox"]}
{"id": "C96", "title": "Gadget files are read back as stored", "statement": "Reading a Gadget-2 file (either ID width) that stores N particles returns exactly the stored positions wrapped into the box, the stored velocities times the square root of the scale factor, and the stored IDs, in file order, in slices of length N, whatever was in the reused buffers before, for a file in either byte order on any machine.", "quantifier": "all particle counts, all stored values, both ID sizes, both byte orders, all previous buffer contents", "why_tests_cant": "The reader seeks and interprets raw record bytes; tests would need real multi-gigabyte simulation files and machines of both byte orders, and only ever compare a few of the unboundedly many contents.", "anchors": ["render/io/io.go:ReadGadgetParticlesAt", "render/io/io.go:ReadGadget"]}
{"id": "C97", "title": "Wrapping maps into the box and keeps the periodic position", "statement": "For every coordinate in [-L, 2L) the wrapped coordinate differs from it by a multiple of the box width L and lies in [0, L).", "quantifier": "all coordinates in three periods, all box widths", "why_tests_cant": "The claim is over a continuum of positions and all box widths; the edges 0 and L are the failing points and are easily missed.", "anchors": ["render/io/io.go:WrapDistance"]}
{"id": "C98", "title": "Python readers return what the Go writer wrote", "statement": "Reading with the Python read_grid an output file written by WriteBuffer returns the same pixel values in the same order and with the same shape, for scalar and vector quantities, projected or not.", "quantifier": "all grid shapes, all pixel values, scalar and vector quantities, all projection settings", "why_tests_cant": "Writer and reader are in two languages with separately written header layouts; tests in one language cannot exercise the pair and sample only few shapes.", "anchors": ["python/gotetra.py:read_grid", "render/io/output.go:WriteBuffer"]}
{"id": "C99", "title": "Names of quantities are unambiguous", "statement": "Parsing the printed name of any quantity gives the quantity back, distinct quantities have distinct names, unknown names are refused, and whether a quantity needs velocities is decided for every quantity that parses.", "quantifier": "all strings and all quantities", "why_tests_cant": "The set of strings is infinite, and refusing all others is a universal claim; printing is only exercised on error paths.", "anchors": ["render/density/quantity.go:String", "render/density/quantity.go:QuantityFromString", "render/density/quantity.go:RequiresVelocity"]}
{"id": "C100", "title": "Top-N conversion keeps the most massive halos", "statement": "RockstarConvertTopN(n) writes a binary catalogue with exactly min(n, number of halos) rows of the text catalogue, each once, in order of increasing M200b, such that no omitted halo is more massive than a kept one; every column of a kept row is that of the text catalogue.", "quantifier": "every catalogue, every n, every behaviour of the sort within its contract", "why_tests_cant": "The sort order and ties range over every permutation of every catalogue length.", "anchors": ["render/halo/io.go:RockstarConvertTopN", "render/halo/io.go:idxSort"]}
{"id": "C101", "title": "Catalogue values by flag", "statement": "ReadRockstarVals returns the identities and, for each requested flag in order, its column: radii computed with the matching overdensity definition from the matching mass column, scale radii in Mpc, other columns unchanged; ReadBinaryRockstarVals on the converted file returns the same.", "quantifier": "every catalogue, cosmology, every list of flags with repetitions", "why_tests_cant": "Every selection and order of flags, every catalogue length.", "anchors": ["render/halo/io.go:readRockstarVals", "render/halo/io.go:binaryColGetter"]}
{"id": "C102", "title": "Image resolution option", "statement": "With ImagePixels set, the total resolution is chosen so that the longest side of the rendered box covers ImagePixels pixels up to half a pixel, and a box wider than the simulation is refused; without ImagePixels the TotalPixels option is used unchanged.", "quantifier": "every box, every option value", "why_tests_cant": "The pixel count is a rational rounding computation for arbitrary boxes; examples sample few ratios.", "anchors": ["render/main/main.go:totalPixels", "render/main/main.go:maxWidth", "render/main/main.go:round"]}
{"id": "C103", "title": "Particles per tetrahedron option", "statement": "With automatic particle counts the number of points per tetrahedron is the positive ceiling of the documented resolution rule for the projected depth of each box; with an explicit projection depth the same rule applies to that depth; otherwise the configured count is used. The count never decreases with finer resolution or stronger subsampling.", "quantifier": "every configuration", "why_tests_cant": "The claim is about every resolution and option combination.", "anchors": ["render/main/main.go:particles"]}
{"id": "C104", "title": "Snapshot assembly by id", "statement": "After reading the files of a snapshot, every particle sits in the grid slot given by its id with converted units, however particles are spread over files, ordered or buffered; an id outside the grid stops the program.", "quantifier": "every snapshot with distinct ids in range, every distribution over files", "why_tests_cant": "Depends on the interleaving of buffer flushes with arbitrary file sizes and id orders.", "anchors": ["render/main/main.go:createGrids", "render/io/io.go:ParticleBuffer"]}
{"id": "C105", "title": "Velocity bounds of a segment", "statement": "The velocity bounds written to a sheet header contain the velocity of every particle of the segment.", "quantifier": "every segment of every particle grid", "why_tests_cant": "The bound is a running minimum and maximum over arbitrary data.", "anchors": ["render/main/main.go:copyToSegment"]}
{"id": "C106", "title": "Unit conversion keeps relative positions", "statement": "Converting the units of a snapshot keeps each particle's position relative to the width of the box in the header.", "quantifier": "every unit, every snapshot", "why_tests_cant": "A test with one unit setting of 1 cannot reveal it.", "anchors": ["render/main/main.go:createGrids", "render/io/io.go:Standardize"]}
{"id": "C94", "title": "Monte Carlo image of a segment", "statement": "For every segment, every worker count and every random choice, the interpolators of all workers together deposit exactly the sample points of each tetrahedron of the segment, each sample once, in the image cell that contains it modulo the period; skipping a tetrahedron by its bounding cells never loses a sample, and the choice between the two buffer kinds does not change the result.", "quantifier": "every segment, box, skip, number of points, worker count and every sequence of random draws", "why_tests_cant": "Combines a cull test, periodic wrapping and two buffer layouts over unbounded grids and random draws; a test sees one draw sequence.", "anchors": ["render/density/interpolator.go:Interpolate", "render/box.go:Add", "render/geom/tetra.go:DistributeTetra"]}
{"id": "C107", "title": "Finished image", "statement": "Rendering a list of segments leaves the image at its old content plus the value of every sample of every tetrahedron of every segment at its place in the periodic box, whatever the schedule of the workers; when the segments make up the whole box and the image has as many pixels as the box, the mean rendered density is exactly the mean density.", "quantifier": "every list of segments, worker count, schedule, random draw and image", "why_tests_cant": "Schedules, files and draws are unbounded; the total is an end-to-end statement over all of them.", "anchors": ["render/render.go:RenderDensityFromFile", "render/density/interpolator.go:Interpolate", "render/box.go:Add"]}
{"id": "C108", "title": "From snapshot to image", "statement": "A snapshot is converted into segment files and the files are rendered into an image: the image is its old content plus the value of every sample of every tetrahedron of every file at its place in the periodic box, also for files that the renderer passes over because they do not touch the image; if the number of segments divides the particle grid and the image has as many cells as the box, the mean of the rendered density is the mean density of the box.", "quantifier": "every snapshot, number of cells, image, subsampling, list of files, random choice and schedule of workers", "why_tests_cant": "The composition of two programs, with random draws and goroutines; tests can only look at one snapshot, one image and one schedule.", "anchors": ["render/main/main.go:343-517", "render/render.go:55-150", "render/render.go:173-279", "render/box.go:98-122", "render/io/io.go:390-406"]}
{"id": "C109", "title": "Savitzky-Golay smoothing is least squares", "statement": "A Savitzky-Golay kernel of some order and odd width exists whenever the order is not negative and below the width, and is refused otherwise. Filtering a signal with it gives, at each index, the value of the polynomial of at most that order that fits the window around the index best in the least-squares sense, the signal being continued by the boundary condition (for periodic and mirrored boundaries: at all indices at least half a width from the left end). Samples of a polynomial of at most that order are unchanged at least half a width from both ends.", "quantifier": "every order, odd width, boundary condition and signal at least as long as the kernel", "why_tests_cant": "Best means better than all infinitely many polynomials, for every signal, and the weights come out of a linear solve whose pivoting depends on order and width.", "anchors": ["math/interpolate/filter.go:182-266", "math/interpolate/filter.go:74-127", "math/mat/mat.go"]}
{"id": "C110", "title": "Savitzky-Golay derivatives", "statement": "A Savitzky-Golay derivative kernel gives, at each index, the derivative of the requested order of the least-squares polynomial through the window around the index, for points the given distance apart; requests with an even width, a polynomial order not below the width or a derivative order above the polynomial order are refused.", "quantifier": "every spacing, derivative order, polynomial order, odd width and signal", "why_tests_cant": "The result depends on the row exchanges inside the linear solver, which first appear at order four.", "anchors": ["math/interpolate/filter.go:208-272", "math/mat/mat.go"]}
{"id": "C111", "title": "Projected image of segments", "statement": "Rendering a list of segments into an image projected along an axis leaves each pixel at its old content plus the value of every sample of every tetrahedron of every segment that lies, modulo the period, in one of the voxels behind the pixel; no sample is lost or counted twice, whichever buffer kind is chosen and whatever the schedule of the workers. When the segments make up the box and the image spans it, the mean of the projected density is exactly the mean density.", "quantifier": "every projection axis, list of segments, image, worker count, schedule and random draw", "why_tests_cant": "The depth sum, periodic wrapping, culling and two buffer kinds interact for arbitrary sizes, and schedules and draws are unbounded.", "anchors": ["render/box.go:224-300", "render/box.go:423-540", "render/render.go:100-150", "render/density/interpolator.go"]}
{"id": "C112", "title": "From snapshot to projected image", "statement": "A snapshot is converted into segment files and the files are rendered into an image projected along an axis: each pixel gains the value of every sample of every tetrahedron of every file in the voxels behind it, also for files that the renderer passes over; if the number of segments divides the particle grid and the image spans the box, the projected density has the mean density of the box.", "quantifier": "every snapshot, number of cells, axis, image, subsampling, list of files, random choice and schedule of workers", "why_tests_cant": "The composition of two programs with random draws, goroutines and a projection; a test looks at one snapshot, one axis and one schedule.", "anchors": ["render/main/main.go:343-517", "render/render.go:55-150", "render/box.go:98-122", "render/box.go:224-300"]}
{"id": "C113", "title": "Removing subhalos from an image", "statement": "The profile program sets exactly those cells of the image to NaN that the cube around one of the given subhalos touches, periodic images included; all other cells keep their value, and the program does not fail.", "quantifier": "every image inside the box, list of subhalos, box width and number of cells", "why_tests_cant": "Subhalos near the faces of the box and images that cross them interact through two modular reductions; the wrong cells are only hit for special positions.", "anchors": ["render/scripts/profile.go:36-51", "render/scripts/profile.go:219-277", "render/geom/cellbounds.go"]}
{"id": "C114", "title": "Radial density profiles", "statement": "Each line profile of an image starts at its middle and gives the density at points one cell apart along the main axis of the direction, interpolated between the four cells around the point; radii grow by a constant step from 0, densities stay between the smallest and the largest value of the image, and each table has one row per point of the shortest profile with all profiles side by side.", "quantifier": "every grid, direction, cell width and number of profiles", "why_tests_cant": "Directions are drawn at random and grids are arbitrary; an index past the grid appears only for special directions and sizes.", "anchors": ["render/scripts/profile.go:58-217"]}
{"id": "C115", "title": "Files for rendering a halo", "statement": "The halo program writes, for a given halo identity, a subhalo file and a ball file whose lines are position and radius of the right rows of the catalogue, after sorting the catalogue by decreasing R200m; the ball has three times the radius; an identity that is not in the catalogue is reported; the number of particles is at least 20 and otherwise the wanted one rounded down.", "quantifier": "every catalogue, sequence of exchanges made by the sort, radius definition, identity and list of subhalos", "why_tests_cant": "The sort moves seven columns at once for catalogues of any length, and the radius definitions depend on the cosmology.", "anchors": ["render/scripts/read_halo.go:62-138", "render/scripts/read_halo.go:156-236"]}
{"id": "C116", "title": "One image per entry", "statement": "A run of the renderer accepts bounds files exactly if all their balls and boxes are legal, and leaves one image file for each of them, named after the entry with the configured prefix and suffix, showing the region of the entry: the box itself or a cube that contains the ball; the order in which entries are visited does not matter.", "quantifier": "every list of bounds files, configuration, quantity and visiting order of the maps", "why_tests_cant": "Go visits maps in random order, and entries of several files and two maps share one name space.", "anchors": ["render/io/config.go:481-508", "render/main/main.go:526-594", "render/box.go:126-137"]}
{"id": "C117", "title": "Image headers describe the image", "statement": "The header of an image file says where the image is (pixel origin, span and width, with the region of the entry beginning in the first and ending in the last pixel), along which axis it was projected and therefore how many values follow, how many pixels the box has and how many particles each tetrahedron was sampled with, and the cosmology; a reader that goes by the header gets the values of the image.", "quantifier": "every configuration, entry, quantity and content of the image", "why_tests_cant": "Header and image are computed in different places from different options; the combinations of options, quantities and axes are not enumerated by any test.", "anchors": ["render/io/output.go:94-182", "render/main/main.go:545-594", "render/box.go:126-213", "python/gotetra.py:67-136"]}
{"id": "C118", "title": "The histogram program counts every sample once", "statement": "Each entry of the bounds files gives one text file, named after the entry, with one row per bin: the centre of the bin, and the number of samples inside the region whose density on the grid belongs to the bin, out of all samples of all tetrahedra of all sheet files, each counted exactly once.", "quantifier": "every configuration, set of sheet files, density grid, bounds files, number of workers, order in which workers finish and choice of sample sets", "why_tests_cant": "Sheet selection, cube filter, worker split, sampling, binning and output interact; tests would need complete simulations and could only compare totals.", "anchors": ["render/main/main.go:761-819", "render/hist.go:86-384"]}
{"id": "C119", "title": "Samples lie where the matter lies", "statement": "A sample that the histogram program counts for a region lies in the tetrahedron it was drawn for, also when that tetrahedron crosses the periodic boundary of the box.", "quantifier": "every sheet file, tetrahedron, set of sample points and region", "why_tests_cant": "Only tetrahedra at the boundary of the box are affected and a wrong sample is not visible in a histogram.", "anchors": ["render/hist.go:335-384", "render/geom/tetra.go"]}
{"id": "C120", "title": "Sheet files read from Python", "statement": "The Python class for sheet files has the header fields that were written, under the documented meaning, and its arrays xn and vn hold at index [x, y, z] the particle with that position on the initial grid, x and v the same without the layer shared with other files.", "quantifier": "every header, positions and velocities, on a little-endian machine", "why_tests_cant": "A check on one file would have to compare against an independent reader; an exchange of axes or of two header fields gives plausible numbers.", "anchors": ["python/gtet.py:5-80", "render/io/io.go:54-74,352-386"]}
{"id": "C121", "title": "The picture of an image", "statement": "The Python program that shows an image averages the requested number of layers in its middle along the requested axis, draws every cell at its position, and its title gives the position and thickness of the slab; projected images are shown as they are and only along their axis.", "quantifier": "every image size, content, axis and depth", "why_tests_cant": "Python slices never fail: a wrong layer count or a wrong position in a title is not noticed on one picture.", "anchors": ["python/render.py:14-144"]}
{"id": "C122", "title": "Suggested projection depth", "statement": "The number of layers that the header of an image suggests for projections is the least one for which the particles per tetrahedron suffice by the rule of the automatic particle count, with a margin of four, for every resolution, particle count and subsampling length.", "quantifier": "every number of pixels and particles and every subsampling length", "why_tests_cant": "The two rules are written in different files with different constants; agreement for all values is an algebraic fact.", "anchors": ["render/io/output.go:103-124", "render/main/main.go:715-759"]}
{"id": "C123", "title": "Draws stay below their upper end in machine arithmetic", "statement": "With rounding to double precision, draws of Uniform, UniformAt and UniformInt between two bounds are at least the lower and less than the upper bound, whether or not the compiler fuses multiplication and addition, and the Xorshift generator returns numbers in [0, 1).", "quantifier": "every pair of bounds that are double precision numbers (integers up to 2^53 for UniformInt), every drawn number in [0, 1), every seed", "why_tests_cant": "The upper bound is reached only for one draw in billions; whether it can be reached follows from the rounding rule.", "anchors": ["math/rand/rand.go:56-73", "math/rand/xorshift.go:13-42"]}
{"id": "C124", "title": "Tausworthe draws in machine arithmetic", "statement": "With rounding to double precision, the table that initialises the Tausworthe generator holds numbers in [0, 1), all later draws lie in [0, 1), and they are exact differences when the table consists of multiples of 2^-53.", "quantifier": "every table, every stream of initial draws, any number of draws", "why_tests_cant": "A draw that is rounded up to one needs a table entry below 2^-53; no feasible number of draws shows one.", "anchors": ["math/rand/tausworthe.go:16-67"]}
{"id": "C125", "title": "Periodic wrapping in machine arithmetic", "statement": "With rounding, wrapping a coordinate into the box (Mod, and the conversion of Gadget positions) gives the same place up to a rounding error and a result that is at least 0 and less than the box size, and displacements (Sub) are at most half a box long and equal to the true displacement up to one rounding.", "quantifier": "every box size and coordinate within one box width of the box", "why_tests_cant": "The results that leave the box need coordinates within 2^-24 box widths of its edge.", "anchors": ["render/geom/vec.go:42-53", "render/geom/vec.go:82-104", "render/io/io.go:121-128", "render/io/io.go:235-250"]}
{"id": "C126", "title": "Snapshots with coordinates slightly outside the box can be rendered", "statement": "A snapshot whose single precision coordinates lie within one box width of the box is converted to segments from which the density of the whole box is rendered with the right total, with rounded positions.", "quantifier": "every snapshot, every number of workers, every schedule", "why_tests_cant": "The failing coordinates are those within 2^-24 box widths below 0; a schedule that finishes must be excluded for all schedules.", "anchors": ["render/io/io.go:235-250", "render/main/main.go:418-520", "render/render.go:60-200"]}
{"id": "C127", "title": "Segment headers contain their particles in machine arithmetic", "statement": "With rounding, the origin and width in the header of a segment describe an extent that contains all particles of the segment.", "quantifier": "every list of single precision coordinates in the box, in every order", "why_tests_cant": "An extent misses a particle only by a few units in the last place; tests with tolerances or round numbers do not see it.", "anchors": ["render/main/main.go:418-520"]}
{"id": "C128", "title": "Scaled positions stay inside the buffer of their segment in machine arithmetic", "statement": "With rounding, every particle of a segment is scaled to a coordinate inside the buffer of the segment's cells, in the cell that contains it.", "quantifier": "every list of single precision coordinates in the box, every grid up to 2^24 cells per side", "why_tests_cant": "Failing positions lie within a few units in the last place of a cell face: about one particle in a million for common grids, and only at the edge of a segment.", "anchors": ["render/geom/grid.go:153-173", "render/io/io.go:390-406", "render/box.go:70-122"]}
{"id": "C129", "title": "Images in machine arithmetic", "statement": "With rounded values and rounded sums, every pixel of a rendered image is the sum of the samples in its cell within the usual error bound of summation, whatever the schedule of the workers; the mean density stays one within that bound; and repeated renderings of the same input are identical.", "quantifier": "every number of workers, every schedule, every list of segments, every grid", "why_tests_cant": "Only few schedules happen in a test run, differences are in the last places of pixels, and the bound depends on the number of samples.", "anchors": ["render/render.go:182-189", "render/render.go:255-278", "render/density/interpolator.go:84-88", "render/box.go:253-485", "render/box.go:491-683"]}
{"id": "C130", "title": "The pixels of an image in machine arithmetic", "statement": "With rounding, the first and the last pixel of an image along each axis are the cells that contain the edges of the requested region; an image of the whole box covers every cell, and its densities add up to the number of cells of the box.", "quantifier": "every box width, grid up to 2^53 cells per side, and region with non-negative double precision origin", "why_tests_cant": "A region whose edge lies on a cell face is rounded to one side or the other depending on the grid size; tests see only some grid sizes.", "anchors": ["render/box.go:139-213", "render/io/config.go:429-475"]}
{"id": "C131", "title": "Histogram bins in machine arithmetic", "statement": "With rounding, every flagged value in the range of a histogram is counted exactly once, in the bin that contains it, and the written centre of each bin lies in that bin.", "quantifier": "every range, number of bins up to 2^53, list of double precision values, linear scale or any logarithm function", "why_tests_cant": "Only values within a few units in the last place of an edge go wrong, and which edges depends on the number of bins.", "anchors": ["render/hist.go:143-158", "render/hist.go:413-442"]}
{"id": "C132", "title": "Density lookup in machine arithmetic", "statement": "With rounding, a sample that lies in the analysed box and in the density grid gets the density of the pixel that contains it, every other sample is discarded, and the program never leaves the grid.", "quantifier": "every box, pixel width, image region and single precision position", "why_tests_cant": "The index leaves the grid only for positions within a few units in the last place of the upper edge of an image, for some grid sizes and regions; a random sample hits one rarely, a run with billions of samples almost surely.", "anchors": ["render/hist.go:330-402", "render/io/output.go:126-139"]}
{"id": "C133", "title": "Sample points in machine arithmetic", "statement": "With rounding, the points over which the mass of a tetrahedron is spread lie in the tetrahedron: the weights are those of a point of the unit tetrahedron, the point is the combination of the corners with these weights, and it is in the cell and in the buffer of the segment that the exact combination is in.", "quantifier": "every tetrahedron with single precision corners, every draw of the generator", "why_tests_cant": "Points leave the tetrahedron by a few units in the last place, and leave the buffer only for tetrahedra that touch its upper faces to that accuracy; tests compare with tolerances and use tetrahedra away from the faces.", "anchors": ["render/geom/tetra.go:326-461", "render/render.go:153-172"]}
{"id": "C134", "title": "Images in machine arithmetic", "statement": "With all coordinates, weights, values and sums rounded as in the program, rendering a list of segments finishes without a panic under every schedule, every pixel holds the sum of the values of the samples in it up to the rounding of the sum, density images agree with the exact ones, and the mean density of an image of the whole box (and of its projection) is one.", "quantifier": "every list of segments, buffer layout, draw of the generator and schedule of any number of workers", "why_tests_cant": "The samples that rounding moves are a few among billions, a panic needs a tetrahedron within a few units in the last place of the end of a buffer, and no test compares a whole rendering with an exact one under all schedules.", "anchors": ["render/density/interpolator.go:72-212", "render/geom/tetra.go:326-489", "render/render.go:153-286", "render/box.go:253-683"]}
{"id": "C135", "title": "Settings are checked before work starts", "statement": "A mode starts exactly when its flag is the only mode flag, its configuration file can be read, every required setting is given and valid, and (rendering and histograms) a bounds file is named; otherwise the program stops with a message. Whatever the documentation demands of a setting is part of the check.", "quantifier": "every combination of flags, arguments and configuration contents, every order in which the flags are visited", "why_tests_cant": "The settings are checked by a chain of conditions over a product of unbounded values, and the flags are visited in random order.", "anchors": ["render/main/main.go:main", "render/io/config.go:RenderConfig", "render/io/config.go:TetraHistConfig", "render/io/config.go:ConvertSnapshotConfig"]}
{"id": "C136", "title": "The number of threads does not change results", "statement": "The value of -Threads changes only the speed: rendering starts each worker once, histograms are the same for every number of threads and every schedule, and a number of threads that cannot work is refused.", "quantifier": "every number of threads, every schedule, all inputs", "why_tests_cant": "A run shows one number of threads and one schedule; the claim compares all of them.", "anchors": ["render/render.go:RenderDensityFromFile", "render/hist.go:HistFromFile", "render/main/main.go:main"]}
{"id": "C137", "title": "Matrix products keep their accuracy in floating point", "statement": "In double and single precision, with or without fused operations, every entry of Mult, MultVec and VecMult differs from the exact one by at most (1 + 2^-p)^w - 1 times the sum of the absolute values of the w products it adds.", "quantifier": "all matrices and vectors of fitting shapes, all values, every precision, fused or not", "why_tests_cant": "The rounding of a long sum depends on all values; tests compare a few small integer matrices for which nothing is rounded.", "anchors": ["math/mat/mat.go:Mult", "math/mat/mat.go:MultVec", "math/mat/mat.go:VecMult", "math/mat/mat32.go:Mult"]}
{"id": "C138", "title": "LU factors and determinants are those of a nearby matrix", "statement": "For every matrix without a zero row LU returns. Unless the result itself shows that a column had no pivot, the factors multiply to the matrix with rows exchanged as recorded, up to (1 + 2^-p)^(n-1) - 1 times the product of the absolute values of the factors, and the determinant is that of such a nearby matrix up to (1 + 2^-p)^n - 1 of its size.", "quantifier": "all square matrices without a zero row, of every size, every precision, fused or not", "why_tests_cant": "The error of each elimination feeds the next; no set of matrices covers the ways errors combine, and tests use integer matrices with exact factors.", "anchors": ["math/mat/mat.go:LU", "math/mat/mat.go:factorizeInPlace", "math/mat/mat.go:Determinant", "math/mat/mat32.go:LU"]}
{"id": "C139", "title": "Solutions of linear systems have small residuals", "statement": "SolveVector returns a vector x such that every entry of b - A x is at most (1 + 2^-p)^(3n) - 1 times the corresponding entry of the product of the absolute values of L, U and x.", "quantifier": "all square matrices whose factorisation finds a pivot in every column, all right hand sides, every precision", "why_tests_cant": "The residual depends on the rounding of every operation of the factorisation and both substitutions.", "anchors": ["math/mat/mat.go:SolveVector", "math/mat/mat.go:forwardSubst", "math/mat/mat.go:backSubst", "math/mat/mat32.go:SolveVector"]}
{"id": "C140", "title": "Every segment is rendered from its own file", "statement": "A rendering run over an input directory uses, for every sheet file that meets a requested box, exactly the header, positions and (for velocity quantities) velocities stored in that file, whatever was loaded before, in the order of the directory; an entry that cannot provide them stops the run before an image is written.", "quantifier": "for all directories (any number and contents of entries, any byte orders), boxes, quantities and machine byte orders", "why_tests_cant": "buffers are reused between files, and stale data only show for particular combinations of damaged and preceding files; tests load a few good files", "anchors": ["render/main/main.go:606", "render/render.go:91", "render/render.go:290", "render/io/io.go:314"]}
{"id": "C141", "title": "Every segment is analysed from its own file", "statement": "A histogram run over an input directory uses, for every sheet file that meets a requested box, exactly the header and positions stored in that file, whatever was loaded before; an entry that cannot provide them stops the run before a histogram is written.", "quantifier": "for all directories (any number and contents of entries, any byte orders), boxes and machine byte orders", "why_tests_cant": "buffers are reused between files and errors of the reader can be lost; tests load a few good files of one size", "anchors": ["render/main/main.go:644", "render/hist.go:73", "render/hist.go:161", "render/io/io.go:314"]}
{"id": "C142", "title": "Linear interpolation in machine arithmetic", "statement": "A linear interpolator built on a strictly increasing table, or on a uniform table whose step is not small compared with the rounding error of its abscissas, refuses points outside the table, never panics inside it, uses the cell that contains the point, and returns the straight line through the entries of that cell up to a few rounding errors of the values; at an entry of the table it returns the value given there.", "quantifier": "for all tables, values and points, every precision of at least six bits, with or without fused operations", "why_tests_cant": "the guess of the search, the abscissas of a uniform table and the line are all rounded; tests use a few round numbers", "anchors": ["math/interpolate/search.go:14", "math/interpolate/search.go:35", "math/interpolate/linear_interpolators.go:22", "math/interpolate/linear_interpolators.go:47"]}
{"id": "C143", "title": "Inverses and matrix systems in machine arithmetic", "statement": "For a matrix that has no zero row and for which the factorisation finds a pivot in every column, Invert and SolveMatrix return, in both precisions; the result is an inverse, or a solution for the given right hand side, up to a residual of a few rounding errors of the factors.", "quantifier": "for all sizes, matrices, right hand sides, precisions, with or without fused operations", "why_tests_cant": "tests invert a few matrices and compare with a tolerance that does not depend on the matrix", "anchors": ["math/mat/mat.go:171", "math/mat/mat.go:327", "math/mat/mat32.go:75", "math/mat/mat32.go:231"]}
{"id": "C144", "title": "A density or velocity image of part of the box survives float32 rounding", "statement": "Rendering an image of part of the box on the actual machine (float32 positions scaled relative to the image, rounded sample positions, rounded wrapping of negative positions and rounded integer floor, float64 sums), with any mix of segments that have their own buffers and segments that are drawn straight into buffers of the shape of the image, and any number of workers: no run panics; every sample ends up, up to the period of the box, in the cell of a point less than 35/2^24 of the box away from its exact place; each image cell is the exact sum over the samples in it up to the rounding of that sum; and in an image of the whole box the mean density is 1 up to that error.", "quantifier": "all boxes of at least one cell (the margin bounds the number of cells), all image origins and sizes, all lists of segments, worker counts and schedules, all particle positions that keep 160/2^24 of the box from the faces of cells, all draws of sample points", "why_tests_cant": "rounding differs for every position and the wrapped branch is taken only by tetrahedra that stick out of the image; a test checks a few positions, not all of them under all schedules", "anchors": ["render/geom/grid.go:175-209", "render/density/interpolator.go:84-194", "render/box.go:253-299", "render/box.go:536-691"]}
{"id": "C145", "title": "Pixels of a projected image survive float32 rounding", "statement": "Rendering a projection (a 2D image) on the actual machine: no run panics, every pixel is the exact sum over the samples counted in the voxels behind it up to the rounding of that sum, every sample is counted within 35/2^24 of the box of its exact place, and if no exact sample is that close to a face of a cell each pixel is that of exact arithmetic up to the error of the sum.", "quantifier": "all projection axes, image shapes, lists of segments with either kind of buffer, worker counts, schedules and draws of sample points", "why_tests_cant": "the depth test and the two buffer layouts each round separately; agreement on one image says nothing about others", "anchors": ["render/box.go:253-274", "render/box.go:313-388", "render/box.go:491-640", "render/density/interpolator.go:84-194"]}
{"id": "C146", "title": "From the snapshot to the image on the actual machine", "statement": "Converting a snapshot into sheet files and rendering them, everything in the float32/float64 arithmetic of the program: no step panics; files are passed over only if they hold no sample of the image; every sample of every tetrahedron of every file is counted within 46/2^24 of the box of its exact place (the combination of the periodic images of the particles nearest to each other); each cell or pixel holds the sum over the samples counted there up to the rounding of the sum; and in an image of the whole box the mean density is 1 up to that error.", "quantifier": "all snapshots, numbers of files, subsamplings, image boxes and projection axes, worker counts, schedules and draws, for particles that span a little less than half of the box per file and keep about 200/2^24 of the box from the faces of cells", "why_tests_cant": "the stored extent of a file, its cells and the scaled positions are each rounded on their own, by two programs that only share files; a test sees one snapshot", "anchors": ["render/main/main.go:363-517", "render/io/io.go:390-406", "render/render.go:94-278", "render/box.go:70-122", "render/box.go:249-311"]}
{"id": "C147", "title": "Halo grid and subhalo lists on the actual machine", "statement": "In float64 arithmetic, inserting halos into a grid and searching overlaps does not panic; every halo is in the list of exactly one cell, which contains it or is missed by it by less than 2^-50 of the box; every listed pair of halos touches if the radii are enlarged by 2^-50, every pair that overlaps by at least 2^-47 of the box is listed, lists are symmetric, sorted and free of repetitions, and the radii of the caller are left as given up to 2^-51, exactly for factors that are powers of two.", "quantifier": "all catalogues, numbers of cells up to 2^48, factors, and translations with or without fused products, for halos that are not within 2^-50 of the box of its upper edge and spheres that fit into the box", "why_tests_cant": "positions within rounding of a cell face or of the edge of the box, where the program panics or loses a pair, are one in 2^50; a test does not meet them", "anchors": ["render/halo/grid.go:17-98", "render/halo/finder.go:15-237"]}
{"id": "C148", "title": "Derivative images on the actual machine", "statement": "In the float32 arithmetic of the program, finalised velocity images hold the mean velocity of each cell to a relative error of 2^-22 and zero in empty cells; derivatives, gradients and curls are those of the exact difference formula (with periodic neighbours or one-sided at edges) up to 2^-20 of the sum of the sizes of its terms; second-order centred derivatives have a relative error of 2^-22, so their sign is right and they vanish exactly where neighbours are equal; and the derivative of a uniform field is zero.", "quantifier": "all grids, boxes, fields, orders, options and translations with or without fused products", "why_tests_cant": "the size of the rounding error depends on the cancellation between neighbours; a test compares a few smooth fields with a tolerance", "anchors": ["render/geom/deriv.go:26-319", "render/density/buffer.go:239-428"]}
{"id": "C149", "title": "Sobol points fill several dimensions evenly", "statement": "From a fresh sequence, blocks of 2^m successive points hit all dyadic boxes of the unit cube that have the same volume equally often, each exactly as often as its volume says, for boxes of volume at least 2^(t-m), where t depends only on the coordinates used (t is the sum of the degrees of their polynomials less one each).", "quantifier": "all histories of calls, blocks, boxes and choices of the six coordinates", "why_tests_cant": "a histogram of points cannot tell a regular sequence from one with a wrong table: each coordinate alone stays perfectly even, and the missing boxes show only when two particular coordinates are compared digit by digit", "anchors": ["math/rand/sobol.go:11-103"]}
{"id": "C150", "title": "Splines and tridiagonal systems stay accurate in machine arithmetic", "statement": "In the arithmetic of the machine (every operation rounded, products possibly fused with sums) TriDiagAt solves every system whose diagonal is at least 15/8 times the sum of its two neighbours in the row: it does not panic, each equation holds up to seven rounding errors of its terms, and each unknown is right up to 24 rounding errors of the largest one. NewSpline accepts every strictly increasing or decreasing table of three or more points, and Eval returns inside the table a value that differs from the natural cubic spline through the points by at most 2 rounding errors of the value at the knot, 10 of the step to the next value and 512 of the bending of the table times the squared width of the cell; outside the table it panics. At a point of the table Eval returns the value given there.", "quantifier": "all systems and all strictly monotone tables of any length, all arguments, precisions of ten or more bits, fused or separate products", "why_tests_cant": "The error of a recurrence over thousands of rows depends on all of them; a test compares a few tables with a tolerance chosen after looking at the result", "anchors": ["math/interpolate/spline.go:28-93", "math/interpolate/spline.go:166-288"]}
{"id": "C151", "title": "Many points at once, and uniform cubic tables", "statement": "EvalAll of the bilinear, trilinear, bicubic and tricubic interpolators returns what Eval returns at each point, in the order of the points, whatever the cubic interpolators were asked before, and panics if one of the points does; values of a given output slice behind the last point stay as they were; too short an argument or output slice panics. NewUniformBiCubic and NewUniformTriCubic with three or more lines each way and any spacing other than zero, negative ones included, give an interpolator that reproduces the table at x0+i*dx, y0+j*dy (z0+k*dz) with x running fastest, and agrees everywhere between the outer y (and z) lines with the interpolator on the list of these lines; a wrong number of values panics.", "quantifier": "all tables, spacings, histories of calls and lists of points of any length", "why_tests_cant": "The cubic interpolators remember the last y and z, so the value at a point depends on code paths chosen by the points before it; a test compares a few sequences", "anchors": ["math/interpolate/linear_interpolators.go:188-192", "math/interpolate/linear_interpolators.go:318-322", "math/interpolate/cubic_interpolators.go:41-65", "math/interpolate/cubic_interpolators.go:101-105", "math/interpolate/cubic_interpolators.go:164-194", "math/interpolate/cubic_interpolators.go:268-272"]}
{"id": "C152", "title": "Boxes with different numbers of samples in one run", "statement": "When one manager renders several boxes that ask for different numbers of samples per tetrahedron, every pass over a box uses exactly the number of samples that this box asks for. The samples are always the first of the same drawn ones, whatever boxes were rendered before, including boxes with fewer samples. All samples lie in the unit tetrahedron, no two share a random draw, and the space for sampled velocities is enough for every box. A negative number of samples makes the pass panic.", "quantifier": "All lists of boxes with their sample numbers, all orders and numbers of passes, all draws", "why_tests_cant": "A test renders one box or boxes with equal settings; the slices are cut anew before each pass and stay cut, so only particular orders of passes over unequal boxes would show a loss of samples", "anchors": ["render/render.go:62-66", "render/render.go:144-171", "render/render.go:191-213", "render/density/buffer.go:30-64"]}
{"id": "C153", "title": "Bilinear and trilinear interpolation in float64", "statement": "In machine arithmetic the bilinear interpolator of a table with increasing grid lines refuses points outside the grid and elsewhere returns the bilinear interpolant of the surrounding cell up to 12 rounding units of the interpolant of the absolute values; so values that are all positive never give a negative answer. The trilinear interpolator is within 34 rounding units of the largest corner value, and returns the value of the table exactly at a grid point (when the z lines are the y lines; otherwise it is wrong even without rounding). The bilinear one does not: in a table with a single value everywhere the answer at a grid point can exceed that value. All this whether or not the compiler fuses products and sums.", "quantifier": "All tables and points, all precisions from 10 bits, all choices of fused operations", "why_tests_cant": "A test compares a few values with a tolerance; the claim is a bound for all tables, and rounding at grid points depends on the digits of the values", "anchors": ["math/interpolate/linear_interpolators.go:105-120", "math/interpolate/linear_interpolators.go:153-181", "math/interpolate/linear_interpolators.go:234-252", "math/interpolate/linear_interpolators.go:282-316", "math/interpolate/search.go:14-79"]}
{"id": "C154", "title": "A cubic interpolator shared between goroutines gives each caller their own value", "statement": "When several goroutines call Eval on the same BiCubic or TriCubic, each gets the value at the point it asked for. What holds: a caller gets the table's value at their own x and at the y (and z) of whichever call refreshed the interpolator last, so calls that take turns are right and overlapping calls can be wrong; the Ref methods meant to give each goroutine its own copy panic.", "quantifier": "All tables, all numbers of callers, all points of the table and all orders in which first and second halves of calls can alternate.", "why_tests_cant": "A test of concurrent calls sees a few of the possible interleavings and usually the harmless ones.", "anchors": ["math/interpolate/cubic_interpolators.go:85-96", "math/interpolate/cubic_interpolators.go:246-274", "math/interpolate/interpolator.go"]}
{"id": "C155", "title": "Distances in the periodic box behave like distances", "statement": "For positions in the box, Norm of the displacement returned by Sub is the length of the shortest displacement between periodic copies of the two positions, at most half a diagonal of the box; it is zero only between equal positions, the same in both directions, and at most the sum of the distances by way of any third position.", "quantifier": "All box widths and all triples of positions in the box.", "why_tests_cant": "Tests compare distances of a few pairs; the triangle inequality across the faces of the box is about all triples.", "anchors": ["render/geom/vec.go:72-117"]}
{"id": "C156", "title": "Matrix products and transposes written over an argument", "statement": "MultAt, MultVec, VecMult and TransposeAt give the product or the transpose also when the output is one of the arguments. (False for the code: products written over an argument always come out as zero, because the output is cleared first, and an in-place TransposeAt copies one triangle onto the other, which is right only for symmetric matrices.)", "quantifier": "All sizes and all square matrices and vectors.", "why_tests_cant": "A test of the in-place call shows one wrong answer; that the answer is zero, or the mirrored triangle, whatever the contents, is about all matrices.", "anchors": ["math/mat/mat.go:60-122"]}
{"id": "C157", "title": "Interpolated values and tridiagonal solutions written over an argument", "statement": "EvalAll may be given one of its own argument slices as output and TriDiagAt may write the solution over the right hand side or over any of the diagonals, and ConvolveAt may write over its input: the results and panics are those of a call with separate memory. (False for the upper diagonal of TriDiagAt and for ConvolveAt; true for EvalAll and the other arguments of TriDiagAt.)", "quantifier": "All interpolators, all slices and all systems.", "why_tests_cant": "Whether an entry is read after it has been overwritten depends on the order of accesses in loops of every length; tests use separate slices.", "anchors": ["math/interpolate/linear_interpolators.go:61-65", "math/interpolate/spline.go:95-105", "math/interpolate/spline.go:259-288", "math/interpolate/filter.go:86-135", "math/interpolate/cubic_interpolators.go:101-105"]}
{"id": "C158", "title": "Splitting a profile at missing values", "statement": "Splitting two parallel columns at NaN returns, in order, exactly the longest unbroken stretches of rows without a NaN: no row with NaN appears in a group, every other row appears in exactly one group, neighbours without a NaN between them stay in one group, and no group is empty. A second column that is too short raises an error.", "quantifier": "for all columns of equal, positive length and all placements of NaN", "why_tests_cant": "the placements of NaN at both ends and in runs of any length are unbounded; tests try a few", "anchors": ["render/scripts/profile.py:88-110", "render/scripts/plot_profile.py:77-98", "render/scripts/plot_savgol_profile.py:77-98"]}
{"id": "C159", "title": "Splashback radius of a profile", "statement": "The splashback radius reported for a profile is the radius of an inner point where the slope is a strict local minimum below the limit and no point further in is less dense; among such points it is the steepest, the innermost one on ties. It is missing exactly when no such point exists. Asking again gives the same answer.", "quantifier": "for all profiles and slope limits", "why_tests_cant": "an extremum over a filtered set of unbounded size", "anchors": ["render/scripts/profile.py:175-206", "render/scripts/plot_profile.py:113-123", "render/scripts/plot_savgol_profile.py:101-111"]}
{"id": "C160", "title": "Rebinning a curve keeps its integral", "statement": "Converting a curve to fixed bins returns consecutive edges of the target bins covering the data, with one value per bin that is the mean of the interpolating curve over the part of the bin inside the data, so that the values times the covered widths add up to the integral over the data; with three points or fewer inside the bins nothing is returned.", "quantifier": "for all bin edges, all curves with increasing abscissae, and every way the data sit against the edges", "why_tests_cant": "the position of first and last point against the edges (inside a bin, on an edge, all in one bin) has many cases combined with unbounded numbers of bins", "anchors": ["render/scripts/profile.py:19-76", "render/scripts/plot_profile.py:20-41", "render/scripts/plot_savgol_profile.py:20-41"]}
{"id": "C161", "title": "Order of the tabulated derivative", "statement": "The numerical derivative of tabulated values is exact at every point, both ends included, for polynomials of degree at most 2 (order 2) or at most 4 (order 4) on evenly spaced points; arrays of different length, too few points and other orders raise an error.", "quantifier": "for all polynomials of that degree, all starting points and spacings and all numbers of points", "why_tests_cant": "exactness for every polynomial and every length is not a finite check", "anchors": ["render/scripts/deriv.py:5-38"]}
{"id": "C162", "title": "Energy and acceptance of the membrane sampler", "statement": "The change of energy the sampler computes for moving one bin of the membrane, from its two neighbours and its own points, equals the change of the energy of the whole closed membrane; moves are proposed symmetrically and accepted so that detailed balance holds at the given temperature.", "quantifier": "for all membranes of two or more bins, all moves, all energies and positive temperatures", "why_tests_cant": "a wrong local energy or acceptance gives plausible samples from another distribution; a test sees only samples", "anchors": ["render/scripts/mcarlo.py:13-29", "render/scripts/mcarlo.py:107-132"]}
{"id": "C163", "title": "Statistics and history of a sampling run", "statement": "After a run the number of accepted moves is right, the membrane is in its last state, the mean radii are the averages over the steps after burn-in, and the snapshots are the states at their steps.", "quantifier": "for all runs, random draws, burn-in lengths and sample rates", "why_tests_cant": "the states are random; a test cannot tell which mean or history is right without repeating the run", "anchors": ["render/scripts/mcarlo.py:13-29", "render/scripts/mcarlo.py:42-55", "render/scripts/mcarlo.py:91-105"]}
{"id": "C164", "title": "List of primes", "statement": "Appending to the list of the first primes gives the list with the next prime, always after finitely many steps, so the script's list is the list of the first primes.", "quantifier": "for all lengths of the list, two or more", "why_tests_cant": "that no prime is skipped when the list runs out of divisors needs Bertrand's postulate; tests try finitely many lengths", "anchors": ["render/scripts/prime_spacing.py:9-24"]}
{"id": "C165", "title": "Spacing of the multiples of a prime", "statement": "The spacing reported for a prime is the smallest distance, around the periodic box, from the origin to another grid point whose index is a multiple of the prime.", "quantifier": "for all widths and primes below the number of grid points", "why_tests_cant": "the result is one number from a minimum over a huge grid; a wrong metric looks plausible", "anchors": ["render/scripts/prime_spacing.py:26-50"]}
{"id": "C166", "title": "Profiles survive the way through the text file", "statement": "The file written by the profile program is read back by the plotting script with every direction next to its own profile: the components of each direction, and of each profile the radii and densities of its first points, as many as the shortest profile has. Numbers are what their printed text says. Files without points raise.", "quantifier": "for all numbers of directions, profiles of all lengths and all number formats without white space", "why_tests_cant": "pairing of columns and of skipped NaN columns must hold for every number of profiles", "anchors": ["render/scripts/profile.go:72-79", "render/scripts/profile.go:103-125", "render/scripts/plot_filament_remover.py:36-48"]}
{"id": "C167", "title": "Caustic points survive the way through the text file", "statement": "The file of caustics is read back as the points radius times direction in the plane of the directions, one per splashback radius and in order.", "quantifier": "for all lists of profiles with any number of segments, with and without splashback radii, and all colour names", "why_tests_cant": "the number of segments and which of them have a radius are unbounded", "anchors": ["render/scripts/plot_filament_remover.py:50-58", "render/scripts/profile.py:250-257", "render/scripts/mcarlo.py:159-175", "render/scripts/2d_kde.py:199-215"]}
{"id": "C168", "title": "Points are sorted into the angular bin of their angle", "statement": "The function of the plotting scripts that sorts points by angle puts every point into exactly one bin, the one whose sector contains its angle up to whole turns, keeps the points of a bin in order and loses none. The points of a node of the tree of bins are those of its two children.", "quantifier": "for every list of radii and angles, every number of bins, angles of either sign", "why_tests_cant": "Angles close to a border or to a whole turn behave differently from the others, and a test has to hit them", "anchors": ["render/scripts/mcarlo.py:57-65", "render/scripts/kde.py:13-21", "render/scripts/2d_kde.py:13-21"]}
{"id": "C169", "title": "The tree of density peaks connects every node to the right peak", "statement": "Connecting the peaks of the density estimates never raises, connects the root to the first peak and every other node to its own peak nearest to that of its parent if it is close enough (below the root: always), otherwise to one close to the curve through the level above, otherwise to none. Asking for the radii of a level gives for every node its own peak or that of its nearest connected ancestor.", "quantifier": "for every tree of peaks, every depth, every spacing and every spline", "why_tests_cant": "The number of nodes doubles at every level and what a node does depends on all levels above it", "anchors": ["render/scripts/2d_kde.py:33-35", "render/scripts/2d_kde.py:75-101", "render/scripts/2d_kde.py:139-153"]}
{"id": "C170", "title": "Slopes of smoothed profiles", "statement": "The logarithmic slopes of a smoothed profile are those of the profile when it is a polynomial of degree four or less in logarithms, and the splashback radius is found with them.", "quantifier": "for every number of segments, points, spacing, window and polynomial", "why_tests_cant": "The error depends on the number of points of a segment and is hidden by noise in any real profile", "anchors": ["render/scripts/profile.py:297-318"]}
{"id": "C171", "title": "Profiles smoothed with several windows", "statement": "A segment is accepted exactly if the radii found with windows 5, 7, ... change by no more than a tenth from one to the next and the window asked for is among them, and the radius reported is the one found with that window.", "quantifier": "for every sequence of radii, every window and every largest window", "why_tests_cant": "Which windows give a radius depends on the data; the number of windows is not fixed", "anchors": ["render/scripts/profile.py:320-367"]}
{"id": "C172", "title": "Shells fitted to points", "statement": "The radius of a fitted shell in a direction is the polynomial of its coefficients in the components of the direction (up to n in x and in y, 1 in z, ordered by z, y, x); residuals, drawn curves and drawn surfaces use that radius, the fit measure is 0 exactly for an exact fit, and the fast fit has the least sum of squared differences of radii.", "quantifier": "for every n, all coefficients, all points other than the origin, all angles, every plane", "why_tests_cant": "trigonometric and polynomial forms of the basis agree for all points and powers, and least squares is a statement about all other coefficients", "anchors": ["render/scripts/penna.py:53-128", "render/scripts/2d_kde.py:214-274", "render/scripts/kde.py:109-172", "render/scripts/andrey_penna.py:13-60"]}
{"id": "C173", "title": "Local power-law fits", "statement": "The curve, logarithmic slope and slope of a Churazov interpolant are those of the line through the logarithms with the least Gaussian-weighted sum of squares, so that power laws are reproduced exactly.", "quantifier": "for all points with at least two different abscissae, every place and width, all power laws", "why_tests_cant": "minimality against every other line and exactness for real exponents cannot be enumerated", "anchors": ["render/scripts/deriv.py:90-164"]}
{"id": "C174", "title": "Conversions between linear and logarithmic slopes", "statement": "The conversions turn the slope of a function into the slope of the function in logarithms of one axis or both and back.", "quantifier": "for every differentiable function, every place, natural logarithms and every base", "why_tests_cant": "a statement about derivatives of arbitrary functions", "anchors": ["render/scripts/deriv.py:44-87"]}
{"id": "C175", "title": "Splashback points of profiles in a plane", "statement": "The coordinates made from the radii and angles of a group of profiles are the splashback points of the segments, and the group is refused exactly if there is no splashback point or the directions are not in a plane of the axes.", "quantifier": "for all lists of profiles with unit directions", "why_tests_cant": "quantifies over all directions and lists; inverse trigonometric functions with all quadrants", "anchors": ["render/scripts/profile.py:394-423", "render/scripts/profile.py:457-467"]}
{"id": "C176", "title": "Mean and scatter of splashback radii by angle", "statement": "Mean and scatter reported for a bin of angles are those of the radii of the points whose direction is in the bin.", "quantifier": "for all points of the circle and every number of bins", "why_tests_cant": "quantifies over all real angles", "anchors": ["render/scripts/profile.py:425-441"]}
{"id": "C177", "title": "Sum of density grids", "statement": "The output is the sum of the grids of all files entry by entry, whatever their order, and a file of the wrong size is an error.", "quantifier": "for every width, number and order of files", "why_tests_cant": "all orders and sizes", "anchors": ["render/scripts/add_densities.py:4-12"]}
{"id": "C178", "title": "Radii, densities and slopes of a profile segment belong together", "statement": "In a segmented profile the i-th segment's radii, densities, logarithms and slopes have the same length and belong to the same points; segments of at most five points are left out everywhere. False when a density is not positive.", "quantifier": "for every list of segments", "why_tests_cant": "all lists of segments", "anchors": ["render/scripts/profile.py:119-147", "render/scripts/deriv.py:1-87"]}
{"id": "C179", "title": "Slopes of a power law through the profile constructor", "statement": "For densities on a power law, with any gaps, the profile built from the raw samples has segments on the evenly spaced grid of logarithmic bins and slopes equal to the exponent. False for the three points at either end of a segment.", "quantifier": "for every exponent, set of bins, set of samples and gaps", "why_tests_cant": "all samples and gaps", "anchors": ["render/scripts/profile.py:267-280", "render/scripts/profile.py:119-147"]}
{"id": "C180", "title": "Binned means of a profile", "statement": "The binned mean of points gives, for each bin that has a value, the centre of the bin and the mean of the values of the valid points in it, NaN left out; limits are those given or else the least and the greatest point. False when only one limit is given, when all points are equal and when all are negative.", "quantifier": "for every set of points, number of bins, limits and validity mask", "why_tests_cant": "all sets of points and limits", "anchors": ["render/scripts/profile.go:279-363"]}
{"id": "C181", "title": "Radii of grid cells and random directions", "statement": "The table of radii has one entry for each cell, its distance from the middle of the grid, and random directions have length 1 and stay in the plane asked for. The radii are false: the point is a quarter of a cell off along each axis.", "quantifier": "for every grid, cell and draw", "why_tests_cant": "all grids and cells", "anchors": ["render/scripts/profile.go:127-145", "render/scripts/profile.go:227-254"]}
{"id": "C182", "title": "Index arithmetic fits in 64-bit integers", "statement": "With 64-bit integers that wrap around, grid bounds, cell indices and coordinates, overlap of boxes, corners of tetrahedra and the places of segments in a snapshot are those of unbounded integers, for grids of up to 2^21 cells a side and snapshots of up to 2^20 particles a side. Beyond, volumes become negative and indices wrong.", "quantifier": "for every grid, cell, box, particle and segment within the limits", "why_tests_cant": "the sizes at which integers wrap around need more memory than a test has", "anchors": ["render/geom/grid.go:24-151", "render/geom/tetra.go:108-178", "render/main/main.go:465-490"]}
{"id": "C183", "title": "The subhalo file survives the trip from the halo program to the profile program", "statement": "For a halo and a list of subhalos of a catalogue, the profile program reads from the subhalo file that the halo program wrote the same halo (first line) and the same subhalos in the same order, each with its own index, position and radius; a file without lines is a panic and one with fewer than five columns a fatal error. With it, the image cleaned by the profile program is NaN in exactly the cells that the cube around one of the subhalos touches and unchanged elsewhere (for subhalos that do not cross the box edge in the way of C113). In a list that does not grow, the first index below a limit counts the entries at or above it.", "quantifier": "all catalogues, halos, lists of subhalos of any length, images and box widths", "why_tests_cant": "the two programs are separate main packages joined only by a text file; a row or column shifted on either side shows up as a wrong sphere blanked in an image", "anchors": ["render/scripts/read_halo.go:67-75", "render/scripts/read_halo.go:178-194", "render/scripts/read_halo.go:229-236", "render/scripts/read_halo.go:251-254", "render/scripts/profile.go:30-51", "render/scripts/profile.go:365-379"]}
{"id": "C184", "title": "The joining script checks its arguments and knows the file names", "statement": "The script shows its usage and stops exactly when it is not given three arguments of the form it asks for (a whole number or None, one of four radii, an odd positive filter width), and otherwise works out file names: the subhalo file, the image and the profile lines have exactly the names under which the halo program, the renderer and the profile program write them. The halo program writes four files per halo and, for different halos, never the same file twice.", "quantifier": "all argument lists, halo numbers, directories and lists of halos", "why_tests_cant": "the names are put together in four programs in two languages; a test runs one of them", "anchors": ["render/scripts/automate.py:11-53", "render/scripts/automate.py:71-99", "render/scripts/read_halo.go:167-183", "render/scripts/read_halo.go:212-215", "render/scripts/profile.go:62-65", "render/main/main.go:570-571", "render/halo/radius.go:20-51"]}
{"id": "C185", "title": "Density estimates of radii", "statement": "The estimate of the density of radii is a sum of bell curves around the points that integrates to one and does not depend on their order; the peak that is reported is the highest of the estimates in the 100 points that are looked at and at most one spacing outside the range of the radii; the maxima of a node of the tree are exactly the inner points above both neighbours, all within one spacing of the radii of the node; and a tree can be built for every set of points.", "quantifier": "all non-empty lists of radii, widths and ranges", "why_tests_cant": "peaks are statements about all grid points and all point sets; a plot with a wrong norm or a peak next to the data looks plausible", "anchors": ["render/scripts/mcarlo.py:176-198", "render/scripts/kde.py:57-83", "render/scripts/2d_kde.py:23-76"]}
{"id": "C186", "title": "Points chosen for a fitted shell", "statement": "The histogram of the radii counts every point exactly once; the radius found is the middle of the first fullest bin; the points kept are exactly those with radius strictly within the given fraction of it, with their coordinates belonging together; the script gets through for every set of points, and the last of the fits with growing limits uses all the points that were kept.", "quantifier": "all non-empty lists of points, numbers of bins and fractions", "why_tests_cant": "a histogram that loses a point at an edge or a fit without its furthest point gives a plausible picture", "anchors": ["render/scripts/penna.py:130-157", "render/scripts/penna.py:163-177", "render/scripts/penna.py:210-211"]}
{"id": "C187", "title": "Limits of the exponent", "statement": "With the largest and smallest numbers that float32 and float64 really have, wrapping coordinates into the box, displacements, the coordinates stored from a snapshot, the sums in pixels and the draws of the generators give exactly what rounding alone gives: no bit is lost below the normal numbers and nothing becomes infinite, except where a bound is named (boxes below 2^-70 or above 2^127 for snapshots, pixel sums from 2^1024 on, draws between bounds that nearly coincide or are huge).", "quantifier": "all finite numbers of the formats, all lengths of sums, all generator states and numbers of draws", "why_tests_cant": "underflow and overflow happen at numbers that no test uses", "anchors": ["render/geom/vec.go:42-53", "render/geom/vec.go:82-104", "render/io/io.go:121-128", "render/io/io.go:238-246", "math/rand/rand.go:62-73", "math/rand/xorshift.go:24-31", "math/rand/tausworthe.go:36-67", "render/box.go:253-485"]}
{"id": "C188", "title": "Splashback radii over several windows", "statement": "The radii that a script reports for a range of smoothing windows are those of the windows 5, 7, 9, ... in order, each the radius of the steepest caustic of the profile smoothed with that window, and the list ends at the first window that is not smaller than the limit or the number of points, or with which nothing is found. For polynomials of degree four or less every window finds the caustic of the true slopes. The other ways of choosing a caustic give the innermost point of least slope and the deepest strict local minimum.", "quantifier": "for all profiles, filters, limits and numbers of windows", "why_tests_cant": "quantifies over profiles and windows; the scripts are never imported by a test", "anchors": ["render/scripts/plot_savgol_profile.py:114-130", "render/scripts/plot_profile.py:101-111", "render/scripts/plot_profile.py:126-144", "render/scripts/plot_profile.py:225-258"]}
{"id": "C189", "title": "Bins on the sphere and fits with several limits", "statement": "Every radius is put into the bin of its pixel, in order. Fitting a shell with several limits gives, for each limit with more points within than coefficients, the fit of just these points and the mean square of its residuals, a finite number that is zero exactly for a perfect fit.", "quantifier": "for all lists of points, pixels, limits and orders of the shell", "why_tests_cant": "the value is undefined for one number of points only", "anchors": ["render/scripts/kde.py:174-180", "render/scripts/kde.py:187-209"]}
{"id": "C190", "title": "Closed curve through the peaks", "statement": "The curve through the peaks of a level goes around the circle without a gap: it is made from increasing angles that enclose every direction, and in the direction of a node it is at the radius of the node. The points kept are exactly those closer to the curve than the distance, with their own indices.", "quantifier": "for all numbers of nodes, radii, points and distances", "why_tests_cant": "quantifies over all directions and numbers of nodes", "anchors": ["render/scripts/2d_kde.py:154-178", "render/scripts/2d_kde.py:20"]}
{"id": "C191", "title": "Header, shape and names of a grid in Python", "statement": "Python reads from a grid file of the program every field of the header as it was written, without a warning, also for files of the first version. The arrays have the sides of the image in the order z, y, x without the axis of projection, so that vals[z, y, x] is the value of that pixel. The names of quantities and axes are those of the configuration.", "quantifier": "for all quantities, headers, sides, projections and values", "why_tests_cant": "the layout is written down twice, in two languages, and must agree for all headers", "anchors": ["python/gotetra.py:34-136", "python/gotetra.py:158-213", "python/gotetra.py:252-371", "render/io/output.go:23-57", "render/io/output.go:155-182"]}
{"id": "C192", "title": "Halos of a range of masses", "statement": "From a list of halos sorted by falling mass the script draws only halos between the two limits. It writes a number of particles of at least 20 for each, and three files of its own for each halo drawn.", "quantifier": "for all lists of halos, masses, sizes and directories", "why_tests_cant": "one halo too many among any number is not seen in a random sample", "anchors": ["render/scripts/select_random.py:38-39", "render/scripts/select_random.py:45-61", "render/scripts/select_random.py:72-94"]}
{"id": "C193", "title": "Densities and radii of the halo script", "statement": "The script for halo tables uses the same densities as the library, for the same cosmology: the critical density and the mean density at every redshift, in units that do not depend on the Hubble constant. Its radius is that of the sphere with 200 times the critical density.", "quantifier": "for all redshifts, Hubble constants and masses", "why_tests_cant": "two programs in two languages, with their own constants, must agree at every redshift", "anchors": ["render/scripts/read_halo.py:8-46", "render/scripts/read_halo.py:94-96", "cosmo/param.go:11-38", "cosmo/const.go:4-6"]}
{"id": "C194", "title": "Plateau of a profile", "statement": "Asked for the plateau of a segment, a profile gives the radii at its ends: the outer end is the top of the outermost rise of the density inside of the splashback radius, the inner end the first point less dense than that. It gives nothing if the density does not rise there, and answers the same however often and in whichever order radius and plateau are asked for.", "quantifier": "for all profiles, densities, slopes and sequences of calls", "why_tests_cant": "where the density rises differs from profile to profile, and the answers are saved between calls", "anchors": ["render/scripts/profile.py:175-249", "render/scripts/profile.py:150-152"]}
{"id": "C195", "title": "Colours of profiles and caustics", "statement": "The colour written with a caustic in the file is the colour of its profile in the plots: of the plot of the profiles with a caustic, and of the plot of all profiles. Two profiles never share a colour, except white, in which nothing is drawn.", "quantifier": "for all lists of profiles and all caustics in their segments", "why_tests_cant": "counters in three loops must agree for every pattern of profiles with and without caustics", "anchors": ["render/scripts/plot_filament_remover.py:18-24", "render/scripts/plot_filament_remover.py:49-102", "render/scripts/profile.py:208-211", "render/scripts/profile.py:250-257"]}
{"id": "C196", "title": "A profile smoothed with several windows can be used like any other", "statement": "It has the steady segments in order, with the radii found with the window asked for; the windows listed with the smoothed profiles of a segment are those they were smoothed with; the text of each segment has the direction and the radius of that segment; and the file of caustics can be written for such profiles.", "quantifier": "for all lists of segments, windows and radii", "why_tests_cant": "an interface shared by several classes, with lists of valid and of all segments numbered differently", "anchors": ["render/scripts/profile.py:322-392", "render/scripts/profile.py:250-257", "render/scripts/plot_filament_remover.py:49-57"]}
{"id": "C197", "title": "Volumes of tetrahedra and points in them with the rounding of the machine", "statement": "The volume of a tetrahedron is right up to 7/2^24 of the cube of the largest difference of coordinates, whichever products the compiler fuses; a point further from the faces than that error is reported inside exactly if it is inside.", "quantifier": "for all corners and points, all ways of fusing products, without limits of the exponent", "why_tests_cant": "roundings of the legs, products and sums in two precisions add up, and the final comparison of the sum of volumes with the volume is relative", "anchors": ["render/geom/tetra.go:226-296", "render/geom/vec.go:110-134"]}
{"id": "C198", "title": "Smoothing with kernels in machine arithmetic", "statement": "A smoothed value is that of exact arithmetic up to as many roundings as the kernel is wide, relative to the sum of absolute values, for every boundary condition; the top-hat and Gaussian kernels are exactly symmetric with positive weights whose sum is 1 up to 2(width+1) roundings; they give back a constant signal up to 4(width+1) roundings; and a kernel without negative weights keeps the order of two signals.", "quantifier": "for all kernels, signals, widths up to 2^40, boundary conditions, and both with and without fused operations", "why_tests_cant": "errors of the normalisation and of each sum add up, and whether a constant comes back exactly depends on the width", "anchors": ["math/interpolate/filter.go:77-180"]}
{"id": "C199", "title": "Derivatives of tabulated data in machine arithmetic", "statement": "The derivatives computed from a table are those the same formulas give in exact arithmetic, up to 48 roundings (order 2) or 427 roundings (order 4) of the largest value over the smallest distance between two places. Between the ends, derivatives of order 2 are the slope between the neighbours up to four roundings of the slope, and 0 exactly if the neighbours are equal. At the ends the derivative of a constant can differ from 0. For values that are multiples of a power of two by integers of at most 50 bits, at places a power of two apart, the derivatives of order 2 involve no rounding at all.", "quantifier": "for all tables of at least 3 (order 2) or 5 (order 4) rows, all values and places, with or without a caller's buffer, and both with and without fused operations", "why_tests_cant": "differences of nearby values lose digits, and how many depends on the data; the ends use longer formulas with larger errors", "anchors": ["math/calc/deriv.go:22-62"]}
{"id": "C200", "title": "Savitzky-Golay kernels are symmetric in machine arithmetic", "statement": "The weights of a Savitzky-Golay smoothing kernel are exactly the same on both sides of the centre, and those of a derivative kernel exactly the same or exactly opposite, as the order of the derivative is even or odd, in spite of rounding. This holds if the powers of half the width up to twice the order fit into 53 bits and every column of the system of equations has a pivot; for higher orders, such as order 9 with 21 points, the kernel is lopsided.", "quantifier": "for all orders, derivative orders and widths with (width/2)^(2 order) at most 2^53, all spacings, and both with and without fused operations", "why_tests_cant": "the symmetry depends on sums that cancel exactly and on zeros that survive a factorisation with row exchanges; whether they do changes with order and width", "anchors": ["math/interpolate/filter.go:182-272", "math/mat/mat.go:209-322"]}
