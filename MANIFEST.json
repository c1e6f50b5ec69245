{"claims": [
  {"property": "C01", "status": "proved", "theorems": ["Verif.Sort.C01_shell_sorts", "Verif.Sort.C01_shell_perm_any_order"], "note": "Generic over the comparison; sortedness for strict weak orders, permutation for any comparison (NaN included)."},
  {"property": "C02", "status": "proved", "theorems": ["Verif.Sort.C02_quick_sorts", "Verif.Sort.C02_partition"], "note": "Total correctness of Quick (and partition), including termination."},
  {"property": "C03", "status": "proved", "theorems": ["Verif.Sort.C03_nthLargest", "Verif.Sort.C03_buffer_length", "Verif.Sort.C03_spec_is_rank"], "note": ""},
  {"property": "C04", "status": "partial", "theorems": ["Verif.Sort.C04_median_counterexample", "Verif.Sort.C04_percentile_zero_counterexample", "Verif.Sort.C04_median_partial", "Verif.Sort.C04_median_odd_rank", "Verif.Sort.C04_percentile_partial"], "note": "The even-length median averages the wrong pair and Percentile(0) is rejected by the index check: counterexamples are proved, with what does hold."},
  {"property": "C05", "status": "proved", "theorems": ["Verif.Sort.C05_reverse"], "note": ""},
  {"property": "C06", "status": "proved", "theorems": ["Verif.Rand.C06_xorshift_range"], "note": ""},
  {"property": "C07", "status": "proved", "theorems": ["Verif.Rand.C07_xorshift_block", "Verif.Rand.C07_xorshift_mix", "Verif.Rand.C07_tausworthe_block"], "note": "The GoRand backend of the Go library is not modelled."},
  {"property": "C08", "status": "proved", "theorems": ["Verif.Rand.C08_tausworthe_recurrence", "Verif.Rand.C08_tausworthe_init"], "note": "Exact arithmetic."},
  {"property": "C09", "status": "proved", "theorems": ["Verif.Rand.C09_uniformInt_range", "Verif.Rand.C09_uniformInt_onto", "Verif.Rand.C09_uniform_range", "Verif.Rand.C09_uniformAt"], "note": "Exact arithmetic; see C09 note in DESIGN.md about rounding."},
  {"property": "C10", "status": "partial", "theorems": ["Verif.Rand.C10_sobol_range_partial", "Verif.Rand.C10_sobol_limit_counterexample"], "note": "Holds for 2^30-2 calls; the next call panics (proved), so the documented limit is wrong."},
  {"property": "C100", "status": "proved", "theorems": ["Verif.Halo.C100_topN", "Verif.Halo.C100_negative"], "note": "sort.Sort enters by its contract; negative n panics."},
  {"property": "C101", "status": "proved", "theorems": ["Verif.Halo.C101_text", "Verif.Halo.C101_binary", "Verif.Halo.C101_radii"], "note": "Columns returned by the table package are taken to be separate slices."},
  {"property": "C102", "status": "proved", "theorems": ["Verif.Main.C102_image", "Verif.Main.C102_other"], "note": ""},
  {"property": "C103", "status": "proved", "theorems": ["Verif.Main.C103_auto", "Verif.Main.C103_given", "Verif.Main.C103_monotone"], "note": ""},
  {"property": "C104", "status": "proved", "theorems": ["Verif.Main.C104_grids", "Verif.Main.C104_illegal_id"], "note": ""},
  {"property": "C105", "status": "proved", "theorems": ["Verif.Main.C105_velocities"], "note": ""},
  {"property": "C106", "status": "partial", "theorems": ["Verif.Main.C106_units_partial", "Verif.Main.C106_counterexample"], "note": "Holds when XUnits is 1; fails for every other value because the box width is not converted."},
  {"property": "C107", "status": "partial", "theorems": ["Verif.Render.C107_image_partial", "Verif.Render.C107_total", "Verif.Render.C107_mean"], "note": "The totals and the mean hold for all positions, draws and schedules (C107_total, C107_mean). Place by place (C107_image_partial) missing: the faces of C94_domain_partial, where the code is wrong. Images of any width. An image with exactly as many pixels as the box is one of a region at least one pixel shorter than the box (C51)."},
  {"property": "C108", "status": "partial", "theorems": ["Verif.Main.C108_image_partial", "Verif.Main.C108_total", "Verif.Main.C108_mean", "Verif.Main.C108_whole_box"], "note": "Composes writeGrids, requiresFile, ScaleVecs, Monte Carlo interpolation, schedule and Add, for images of any width. Totals and mean hold for all snapshots, draws and schedules (C108_total, C108_mean, C108_whole_box). Place by place (C108_image_partial) missing: samples exactly on a cell face at or below the low end of the image when the buffer has the extent of the image (the code misplaces these, see C52 and C94_counterexample). The image NewBox makes of the whole box has (cells+1)^3 pixels and mean density (cells/(cells+1))^3, not 1 (C108_whole_box)."},
  {"property": "C109", "status": "proved", "theorems": ["Verif.Interp.C109_kernel", "Verif.Interp.C109_fit_exists", "Verif.Interp.C109_convolve", "Verif.Interp.C109_polynomial"], "note": ""},
  {"property": "C11", "status": "proved", "theorems": ["Verif.Rand.C11_sobol_stratified", "Verif.Rand.C11_first_points_counterexample"], "note": "Proved for the runs of calls a*2^m-1 .. (a+1)*2^m-2; a run starting at the first call is not stratified (proved)."},
  {"property": "C110", "status": "partial", "theorems": ["Verif.Interp.C110_deriv_partial", "Verif.Interp.C110_convolve_partial", "Verif.Interp.C110_counterexample"], "note": "Proved for the value and first derivative at every order and for all derivatives up to order three. False above: at order four, width five the second derivative of x^2 comes out as zero."},
  {"property": "C111", "status": "partial", "theorems": ["Verif.Render.C111_segment_partial", "Verif.Render.C111_domain_partial", "Verif.Render.C111_segment_total", "Verif.Render.C111_domain_total", "Verif.Render.C111_image_partial", "Verif.Render.C111_total", "Verif.Render.C111_mean", "Verif.Render.C111_counterexample"], "note": "False for samples at depth exactly zero of a segment buffer (counterexample). Proved for all other samples with segment buffers, and off cell faces at zero and negative whole coordinates with domain buffers; images of any width, each place counted once. Totals and mean of images at least as wide and deep as the box hold without conditions on faces (C111_total, C111_mean). The mean is the mean density when the image has cells pixels per side."},
  {"property": "C112", "status": "partial", "theorems": ["Verif.Main.C112_image_partial", "Verif.Main.C112_total", "Verif.Main.C112_mean", "Verif.Main.C112_whole_box"], "note": "Snapshot to finished projected image for all draws and schedules, images of any width. Totals and mean hold for all snapshots (C112_total, C112_mean, C112_whole_box). Pixel by pixel (C112_image_partial) missing: samples exactly on certain cell faces, where the code is wrong (C52, C111). The image NewBox makes of the whole box has mean (cells/(cells+1))^3 (C112_whole_box), so the clause on the mean holds for images of cells pixels per side only."},
  {"property": "C113", "status": "partial", "theorems": ["Verif.Scripts.C113_removed_partial", "Verif.Scripts.C113_removed_counterexample", "Verif.Scripts.C113_panic_counterexample", "Verif.Scripts.C113_round"], "note": "holds when no subhalo reaches more than one period past the first cell of the image; otherwise the program blanks other cells or panics (counterexamples)"},
  {"property": "C114", "status": "partial", "theorems": ["Verif.Scripts.C114_no_panic", "Verif.Scripts.C114_points", "Verif.Scripts.C114_linear_partial", "Verif.Scripts.C114_center_counterexample", "Verif.Scripts.C114_box_counterexample", "Verif.Scripts.C114_bounds", "Verif.Scripts.C114_radii", "Verif.Scripts.C114_table"], "note": "the program takes the value of a cell for the value at its lower corner, so the profile is that of a ray moved by half a cell (exact for linear densities); for images that are not cubes profiles may be empty (counterexamples)"},
  {"property": "C115", "status": "partial", "theorems": ["Verif.Scripts.C115_files_partial", "Verif.Scripts.C115_radius_counterexample", "Verif.Scripts.C115_missing_counterexample", "Verif.Scripts.C115_particles"], "note": "holds for Rvir and R200m and identities in the catalogue; R500c and R2500c radii are too large and a missing identity silently becomes the largest halo (counterexamples)"},
  {"property": "C116", "status": "partial", "theorems": ["Verif.Main.C116_bounds", "Verif.Main.C116_order", "Verif.Main.C116_files_partial", "Verif.Main.C116_name_counterexample"], "note": "holds when no two entries have the same name; otherwise later images replace earlier ones without notice (counterexample)"},
  {"property": "C117", "status": "partial", "theorems": ["Verif.Main.C117_location", "Verif.Main.C117_shape_partial", "Verif.Main.C117_shape_counterexample", "Verif.Main.C117_sampling_partial", "Verif.Main.C117_sampling_counterexample", "Verif.Main.C117_cosmo"], "note": "location and cosmology hold; the header claims a projection for gradients, divergences and curls that are never projected, and repeats TotalPixels and Particles of the configuration even where ImagePixels, ProjectionDepth or AutoParticles replace them (counterexamples)"},
  {"property": "C118", "status": "partial", "theorems": ["Verif.Hist.C118_files_partial", "Verif.Hist.C118_skipped", "Verif.Hist.C118_all_partial", "Verif.Hist.C118_counterexample"], "note": "Names and rows of all files are exact for any bounds files, sheets, workers and order of finishing, without subsampling. Cubes whose first corner is on the boundary of the sheet's extent are dropped (counterexample); sheets with the extent of the region on an axis are dropped; leaving out other sheets is proved to lose nothing when the sheet does not cross the periodic boundary."},
  {"property": "C119", "status": "partial", "theorems": ["Verif.Hist.C119_samples_partial", "Verif.Hist.C119_samples_counterexample"], "note": "Holds for tetrahedra no wider than half a box; false at the periodic boundary (counterexample), because corners are not moved together before sampling."},
  {"property": "C12", "status": "partial", "theorems": ["Verif.Rand.C12_sobol_restart_counterexample", "Verif.Rand.C12_sobol_restart_partial"], "note": "Init does not reset the call counter: false in the code, counterexample proved."},
  {"property": "C120", "status": "partial", "theorems": ["Verif.Io.C120_sheet_partial", "Verif.Io.C120_axes_counterexample", "Verif.Io.C120_omega_counterexample"], "note": "All fields and arrays are proved, with two disagreements: the arrays are indexed z, y, x and not x, y, z, and omega_m holds the dark energy density while the matter density is called scale (counterexamples)."},
  {"property": "C121", "status": "partial", "theorems": ["Verif.Io.C121_layout", "Verif.Io.C121_layers_partial", "Verif.Io.C121_even_counterexample", "Verif.Io.C121_thick_counterexample", "Verif.Io.C121_title_partial", "Verif.Io.C121_title_counterexample", "Verif.Io.C121_projected"], "note": "Layout and edges hold for all images. The number of layers is right for odd numbers up to the width; even numbers get one layer too many and too large ones arbitrary layers; the position in the title uses the width along the wrong axis (counterexamples)."},
  {"property": "C122", "status": "partial", "theorems": ["Verif.Main.C122_depth_partial", "Verif.Main.C122_depth_counterexample"], "note": "Exact without subsampling. With subsampling the suggestion shrinks with the cube of the length where the rule grows with it (counterexample)."},
  {"property": "C123", "status": "partial", "theorems": ["Verif.Fp.C123_uniform_partial", "Verif.Fp.C123_uniform_zero", "Verif.Fp.C123_uniformAt_partial", "Verif.Fp.C123_uniformInt_partial", "Verif.Fp.C123_uniformInt_zero", "Verif.Fp.C123_counterexample", "Verif.Fp.C123_xorshift"], "note": "The upper bound can be returned: Uniform(1, 2) can give 2, and UniformInt(4194304, 4194305) gives 4194305 for a seed of Xorshift. Proved: draws lie in the closed interval, and below the upper bound when the lower one is zero; Xorshift values are in [0, 1)."},
  {"property": "C124", "status": "partial", "theorems": ["Verif.Fp.C124_range_partial", "Verif.Fp.C124_exact", "Verif.Fp.C124_init", "Verif.Fp.C124_counterexample"], "note": "A draw can be 1 when a table entry is smaller than 2^-53. Proved: draws in [0, 1], table in [0, 1), exact arithmetic on multiples of 2^-53."},
  {"property": "C125", "status": "partial", "theorems": ["Verif.Fp.C125_mod_exact", "Verif.Fp.C125_mod_partial", "Verif.Fp.C125_mod_counterexample", "Verif.Fp.C125_sub", "Verif.Fp.C125_gadget_exact", "Verif.Fp.C125_gadget_partial", "Verif.Fp.C125_gadget_counterexample"], "note": "False as stated: coordinates less than about L/2^25 below 0 are stored as the box size. Proved: exact from 0 on, closed box with one rounding below 0, half-open box for coordinates at least L/2^23 below 0; displacements as stated."},
  {"property": "C126", "status": "partial", "theorems": ["Verif.Fp.C126_partial", "Verif.Fp.C126_counterexample"], "note": "False as stated: one particle at -2^-40 in a box of size 8 is enough for a rendering that no schedule finishes. Proved for coordinates that are non-negative or at least L/2^23 below 0; headers, scaling and densities in exact arithmetic."},
  {"property": "C127", "status": "partial", "theorems": ["Verif.Fp.C127_partial", "Verif.Fp.C127_moves", "Verif.Fp.C127_counterexample"], "note": "False as stated: two particles are enough. Proved up to (n + 3) L/2^22, where n counts the particles that change the box, for particles that span less than about half a box."},
  {"property": "C128", "status": "partial", "theorems": ["Verif.Fp.C128_scale", "Verif.Fp.C128_partial", "Verif.Fp.C128_counterexample"], "note": "False as stated: two particles are enough for a position outside the buffer. Proved for particles farther than (4 (n + 3) + 16) C/2^24 cells from every cell face that span less than about half a box, at least 8 cells."},
  {"property": "C129", "status": "partial", "theorems": ["Verif.Fp.C129_image_partial", "Verif.Fp.C129_project_partial", "Verif.Fp.C129_schedules_partial", "Verif.Fp.C129_mean", "Verif.Fp.C129_mean_project", "Verif.Render.Sched.any_order", "Verif.Fp.C129_counterexample"], "note": "Error bound for every pixel under every schedule, 3d and projected, and for the mean density. Repeated renderings need not be identical: counterexample with two schedules of one pass. Missing: samples exactly on cell faces (as in C107 and C111), fused products for velocities, overflow and subnormal numbers; positions of samples are exact here."},
  {"property": "C13", "status": "partial", "theorems": ["Verif.Calc.C13_order2_quadratic", "Verif.Calc.C13_order2_linear_interior_partial", "Verif.Calc.C13_linear_edge_counterexample", "Verif.Calc.C13_order4_quartic_partial", "Verif.Calc.C13_order4_counterexample", "Verif.Calc.C13_order0_returns_xs", "Verif.Calc.C13_order0_counterexample", "Verif.Calc.C13_rejects"], "note": "The property is false in parts and the counterexamples are proved: the order-4 edge stencils are wrong, order 0 returns the abscissae, and linear data on a non-uniform grid get a wrong edge slope. Proved for all inputs: order 2 on quadratics, interior slopes of linear data on any grid, order 4 on quartics away from the failing points, and the rejected arguments."},
  {"property": "C130", "status": "partial", "theorems": ["Verif.Fp.C130_partial", "Verif.Fp.C130_box_partial", "Verif.Fp.C130_whole", "Verif.Fp.C130_mean", "Verif.Fp.C130_counterexample"], "note": "The pixels are the exact ones unless an edge lies within relative 2^-51 of a cell face; there the program can be off by one cell (counterexample: 93 cells over width 1). Images of the whole box always cover all cells and the mean density is one within the rounding of sums."},
  {"property": "C131", "status": "partial", "theorems": ["Verif.Fp.C131_partial", "Verif.Fp.C131_monotone", "Verif.Fp.C131_counterexample", "Verif.Fp.C131_centers_partial", "Verif.Fp.C131_centers_counterexample"], "note": "Counts are exact up to values within a 2^-49th of the range of an edge; the lower end of the range is exact. Counterexamples: with 93 bins the maximum is counted, with three bins the largest number below the maximum is not. Centres are right for bins that are wide compared with the resolution of the values. Nothing is proved about math.Log10 and math.Pow."},
  {"property": "C132", "status": "partial", "theorems": ["Verif.Fp.C132_axis_partial", "Verif.Fp.C132_index_partial", "Verif.Fp.C132_density_partial", "Verif.Fp.C132_counterexample"], "note": "Exact for positions farther than a 2^-50th of the box from pixel faces and box edges. Counterexample: an image of the last ten of eleven cells, sample at coordinate zero, the lookup leaves the grid and the program stops; along another axis the density of a wrong pixel is used."},
  {"property": "C133", "status": "partial", "theorems": ["Verif.Fp.C133_unit_partial", "Verif.Fp.C133_unitBuf_partial", "Verif.Fp.C133_sample_partial", "Verif.Fp.C133_distribute_partial", "Verif.Fp.C133_cell", "Verif.Fp.C133_buffer_partial", "Verif.Fp.C133_counterexample"], "note": "Weights are in the unit tetrahedron up to 10/2^24; samples are within M/2^20 of the exact combination for corners up to M, and leave the range of the corners by at most (16 M + 40 (hi - lo))/2^24; with particles that far from the faces of the cells all samples are in the buffer of their segment. Counterexamples: a folded point outside the unit tetrahedron, and a sample at 8 for corners just below 8."},
  {"property": "C134", "status": "partial", "theorems": ["Verif.Fp.C134_image_partial", "Verif.Fp.C134_density_partial", "Verif.Fp.C134_mean", "Verif.Fp.C134_mean_project", "Verif.Fp.C134_scaled", "Verif.Fp.C134_counterexample"], "note": "Buffers of segments, with scaled particles at least 56 cells/2^24 away from the faces of cells: no panic, every sample within M/2^20 of its exact place, pixel sums with an error bound, exact density image away from faces, mean density and mean projected density. The condition follows from one on the particles in the file (C134_scaled). Without it a pass can panic (counterexample). Missing: buffers that are the image itself (domain overlaps), pixels of projections, fused products for velocities, overflow and subnormal numbers."},
  {"property": "C135", "status": "partial", "theorems": ["Verif.Main.C135_render", "Verif.Main.C135_hist", "Verif.Main.C135_convert", "Verif.Main.C135_example", "Verif.Main.C135_possible", "Verif.Main.C135_counterexample"], "note": "Exact conditions under which each mode starts. Not everything the documentation demands is checked: rendering accepts subsampling lengths that are not powers of two, histograms accept any number of bins or particles, any quantity and no grid file, and the help text offers an example that does not exist. Parsing of flags and files is a parameter."},
  {"property": "C136", "status": "partial", "theorems": ["Verif.Main.C136_workers", "Verif.Main.C136_threads_partial", "Verif.Main.C136_render_counterexample", "Verif.Main.C136_counterexample"], "note": "Every positive number of threads gives the same histograms; with subsampling length 1 only. Zero threads are accepted: rendering panics, histograms are written with all counts zero."},
  {"property": "C137", "status": "partial", "theorems": ["Verif.Mat.C137_mult_partial", "Verif.Mat.C137_multVec", "Verif.Mat.C137_vecMult"], "note": "Mult only for square right factors (it is wrong for others, C25). No limits of the exponent."},
  {"property": "C138", "status": "proved", "theorems": ["Verif.Mat.C138_factors", "Verif.Mat.C138_determinant"], "note": "Backward error of the factorisation and the determinant for mat.go and mat32.go. The sign of a missing pivot is an entry of the result. No limits of the exponent."},
  {"property": "C139", "status": "partial", "theorems": ["Verif.Mat.C139_solve_partial", "Verif.Mat.C139_exchange_counterexample"], "note": "Residual bound when no rows were exchanged; false otherwise (as C29 without rounding). No limits of the exponent."},
  {"property": "C14", "status": "proved", "theorems": ["Verif.Interp.C14_table_search", "Verif.Interp.C14_any_guess", "Verif.Interp.C14_uniform_search"], "note": "Exact arithmetic (rationals)."},
  {"property": "C140", "status": "partial", "theorems": ["Verif.Main.Files.C140_files_partial", "Verif.Main.Files.C140_own_partial", "Verif.Main.Files.C140_stale_counterexample"], "note": "Exact for complete sheets; any foreign entry stops the run; complete sections are never mixed with old data. False for files that end inside a section: the rest is rendered with the positions of the file before (counterexample for all such files)."},
  {"property": "C141", "status": "partial", "theorems": ["Verif.Main.Files.C141_files_partial", "Verif.Main.Files.C141_own_partial", "Verif.Main.Files.C141_stale_counterexample"], "note": "Exact for complete sheets of the size of the first. False for sheets of another size and for cut files: the error of the reader is dropped and the positions of the file before are analysed (counterexample for all pairs of sizes)."},
  {"property": "C142", "status": "partial", "theorems": ["Verif.Interp.C142_table", "Verif.Interp.C142_uniform", "Verif.Interp.C142_overshoot_counterexample", "Verif.Interp.C142_coarse_counterexample"], "note": "The error bounds, the absence of panics and the choice of the cell hold as stated. False part: at an entry of the table the answer can exceed the value given there (29 at 7 gives 29.000000000000004), and uniform tables with a step close to the spacing of the machine numbers panic at points they accept. Linear interpolators only (splines: C150; BiLinear and TriLinear are modelled with exact arithmetic)."},
  {"property": "C143", "status": "partial", "theorems": ["Verif.Mat.C143_solveMatrix_partial", "Verif.Mat.C143_invert_partial", "Verif.Mat.C143_solveMatrix_counterexample", "Verif.Mat.C143_invert_counterexample"], "note": "Holds when no rows were exchanged and, for LUFactors.SolveMatrix, when the right hand side is stored in the result matrix. False otherwise: Matrix.SolveMatrix returns zero for every right hand side in every precision, and exchanged rows give a wrong inverse (as C30 without rounding). No limits of the exponent."},
  {"property": "C144", "status": "partial", "theorems": ["Verif.Fp.C144_image_partial", "Verif.Fp.C144_density_partial", "Verif.Fp.C144_mean", "Verif.Fp.C144_scaled", "Verif.Fp.C144_counterexample"], "note": "Machine arithmetic for images of part of the box (domain buffers), mixed with segment buffers. Particles have to keep 160/2^24 of the box from the faces of cells (C144_scaled derives this from the file); C144_counterexample shows that a distance is needed."},
  {"property": "C145", "status": "partial", "theorems": ["Verif.Fp.C145_pixel_partial", "Verif.Fp.C145_density_partial", "Verif.Fp.C145_mean"], "note": "Projected images in machine arithmetic, pixel by pixel, for both kinds of buffers. Same distance from the faces of cells as C134 and C144."},
  {"property": "C146", "status": "partial", "theorems": ["Verif.Fp.writeGrids32_ok", "Verif.Fp.C146_image_partial", "Verif.Fp.C146_pixel_partial", "Verif.Fp.C146_density_partial", "Verif.Fp.C146_projected_density_partial", "Verif.Fp.C146_mean_partial", "Verif.Fp.C146_projected_mean_partial", "Verif.Fp.C146_whole"], "note": "Missing: files that span half of the box or more, particles within about 200/2^24 of the box of a face of a cell (the program can crash there, C126), boxes of fewer than 8 cells. Counted cells are exact when no exact sample is within 46/2^24 of a face."},
  {"property": "C147", "status": "partial", "theorems": ["Verif.Fp.C147_edge_counterexample", "Verif.Fp.C147_outside_counterexample", "Verif.Fp.C147_face_counterexample", "Verif.Fp.C147_lists_partial", "Verif.Fp.C147_findSubhalos_partial", "Verif.Fp.C147_pair_counterexample", "Verif.Fp.C147_radii_counterexample", "Verif.Fp.C147_radii_partial"], "note": "Refuted within rounding: a halo just below the upper edge of the box, or just outside of the lower one, makes Insert panic; a halo next to a face can be in the neighbouring cell; two touching halos can be missed when the search sphere reaches through the lower face; the radii change in the last digit. Proved with margins of 2^-50 to 2^-47."},
  {"property": "C148", "status": "partial", "theorems": ["Verif.Fp.C148_deriv_partial", "Verif.Fp.C148_third_axis_partial", "Verif.Fp.C148_second_order_partial", "Verif.Fp.C148_uniform_counterexample", "Verif.Fp.C148_velocity_partial", "Verif.Fp.C148_gradient_partial", "Verif.Fp.C148_curl_partial", "Verif.Fp.C148_divergence_partial"], "note": "Error bounds for all fields and any fusing. False: the fourth-order derivative of a uniform field need not be zero (counterexample in every cell); the faces of the third axis are wrong (C43), the divergence image does not use the second component (C93), images of 1 to 29 cells panic (C56)."},
  {"property": "C149", "status": "partial", "theorems": ["Verif.Rand.C149_two_coordinates", "Verif.Rand.C149_three_coordinates_partial", "Verif.Rand.C149_pairs_partial", "Verif.Rand.C149_fourth_counterexample", "Verif.Rand.C149_sixth_counterexample"], "note": "Proved for the first two coordinates (t = 1), the first three (t = 3) and every pair except the third with the fourth and the fifth with the sixth. For these two pairs it is false: half of the boxes are never hit in any history, because the recurrence in sobol.go:61 takes index j - 1 where the algorithm has j - l. Four and more coordinates contain such a pair only if they include both members; other selections of three or more coordinates are not treated."},
  {"property": "C15", "status": "proved", "theorems": ["Verif.Interp.C15_linear", "Verif.Interp.C15_linear_uniform", "Verif.Interp.C15_evalAll", "Verif.Interp.C15_evalAll_panics"], "note": "Exact arithmetic (rationals)."},
  {"property": "C150", "status": "partial", "theorems": ["Verif.Interp.C150_tridiag", "Verif.Interp.C150_spline", "Verif.Interp.C150_knot_counterexample"], "note": "The bounds, the absence of panics inside the table and the panics outside hold as stated. False part: at an inner point of the table the value can differ from that of the table by a rounding error (the table 0,1,2,3,7 with values 1,0,2,5,7 gives 1.9999999999999998 at 2); at the two ends of an increasing table it is exact. No limits of the exponent."},
  {"property": "C151", "status": "proved", "theorems": ["Verif.Interp.C151_bilinear_all", "Verif.Interp.C151_trilinear_all", "Verif.Interp.C151_bicubic_all", "Verif.Interp.C151_tricubic_all", "Verif.Interp.C151_uniform_bicubic", "Verif.Interp.C151_uniform_tricubic", "Verif.Interp.C151_uniform_negative"], "note": "For the cubic interpolators the points must have their y (and z) in the table; outside it a repeated call is the false part of C22. Output slices sharing memory with the arguments are not covered. Exact arithmetic."},
  {"property": "C152", "status": "proved", "theorems": ["Verif.Render.C152_points", "Verif.Render.C152_samples", "Verif.Render.C152_weights", "Verif.Render.C152_negative"], "note": "Slices with a capacity; draws are arbitrary numbers in [0, 1]. The rounding of the draws to float32 is C144's business."},
  {"property": "C153", "status": "partial", "theorems": ["Verif.Interp.C153_bilinear", "Verif.Interp.C153_trilinear_partial", "Verif.Interp.C153_trilinear_nodes_partial", "Verif.Interp.C153_bilinear_nodes_counterexample"], "note": "Partial: the trilinear statements need the z grid to be the y grid (Eval looks z up in the y lines), and the bilinear interpolator does not reproduce grid points exactly."},
  {"property": "C154", "status": "partial", "theorems": ["Verif.Interp.C154_bicubic_last_partial", "Verif.Interp.C154_bicubic_turns_partial", "Verif.Interp.C154_tricubic_last_partial", "Verif.Interp.C154_tricubic_turns_partial", "Verif.Interp.C154_overlap_counterexample"], "note": "False for overlapping calls (counterexample). Proved: calls that take turns are right, and in any alternation of halves of calls a reader gets the value at the coordinates refreshed last. Interleavings within a half are not modelled."},
  {"property": "C155", "status": "proved", "theorems": ["Verif.Geom.C155_shortest", "Verif.Geom.C155_metric"], "note": "Exact arithmetic, real square root."},
  {"property": "C156", "status": "partial", "theorems": ["Verif.Mat.C156_mult_zero", "Verif.Mat.C156_multVec_zero", "Verif.Mat.C156_vecMult_zero", "Verif.Mat.C156_transpose_self", "Verif.Mat.C156_transpose_symmetric_partial", "Verif.Mat.C156_alias_counterexample"], "note": "False for the code; what the in-place calls return is proved for all matrices. Missing: nothing beyond the false part."},
  {"property": "C157", "status": "partial", "theorems": ["Verif.Interp.C157_evalAll", "Verif.Interp.C157_evalAll_one", "Verif.Interp.C157_bicubic", "Verif.Interp.C157_tricubic", "Verif.Interp.C157_tridiag_partial", "Verif.Interp.C157_alias_counterexample"], "note": "True for EvalAll and for TriDiagAt over the right hand side, the diagonal and the lower diagonal; counterexamples for the upper diagonal and ConvolveAt."},
  {"property": "C158", "status": "proved", "theorems": ["Verif.Py.C158_split", "Verif.Py.C158_nan_split", "Verif.Py.C158_second", "Verif.Py.C158_split_edges"], "note": "All three copies (the NaN test is a parameter). Two empty columns give one empty group."},
  {"property": "C159", "status": "proved", "theorems": ["Verif.Py.C159_index", "Verif.Py.C159_radius"], "note": "argrelextrema and argmin modelled as documented."},
  {"property": "C16", "status": "partial", "theorems": ["Verif.Interp.C16_bilinear", "Verif.Interp.C16_bilinear_uniform", "Verif.Interp.C16_trilinear_partial", "Verif.Interp.C16_trilinear_counterexample"], "note": "BiLinear: proved in full. TriLinear uses the y grid for z, so it is proved when the two grids are the same and refuted otherwise."},
  {"property": "C160", "status": "partial", "theorems": ["Verif.Py.C160_convert", "Verif.Py.C160_integral", "Verif.Py.C160_untrimmed_counterexample"], "note": "Holds for profile.py in full. The older converter of plot_profile.py and plot_savgol_profile.py returns one edge too many when the first point lies on an edge, the counterexample. The spline's integral is a parameter."},
  {"property": "C161", "status": "proved", "theorems": ["Verif.Py.C161_order4", "Verif.Py.C161_order2", "Verif.Py.C161_errors", "Verif.Py.C161_uneven_counterexample"], "note": "Evenly spaced points, as the statement asks; the function does not check the spacing, and the last theorem shows a straight line losing its slope on uneven points."},
  {"property": "C162", "status": "partial", "theorems": ["Verif.Py.C162_energy_partial", "Verif.Py.C162_move_partial", "Verif.Py.C162_accept", "Verif.Py.C162_balance", "Verif.Py.C162_symmetric", "Verif.Py.C162_one_bin_counterexample"], "note": "Holds for two bins or more; with one bin the energy is wrong, the counterexample. Random draws are parameters; that they are uniform is used in C162_accept through Lebesgue measure."},
  {"property": "C163", "status": "partial", "theorems": ["Verif.Py.C163_potential_partial", "Verif.Py.C163_runs", "Verif.Py.C163_stats", "Verif.Py.C163_snapshots", "Verif.Py.C163_snapshots_counterexample", "Verif.Py.C163_potential_counterexample"], "note": "Counts, last state and means are right. Snapshots are not: all are the last state. The sampler of a one-dimensional potential raises on every run that goes beyond burn-in."},
  {"property": "C164", "status": "proved", "theorems": ["Verif.Py.C164_append", "Verif.Py.C164_list"], "note": ""},
  {"property": "C165", "status": "partial", "theorems": ["Verif.Py.C165_spacing_partial", "Verif.Py.C165_squared_twice_counterexample"], "note": "False: the legs are squared twice. The reported number is the square root of a number between d^2/3 and d^2, d the smallest squared distance."},
  {"property": "C166", "status": "proved", "theorems": ["Verif.Py.C166_profiles"], "note": "Text level. The text of a number and its parser are parameters related by the parsed value."},
  {"property": "C167", "status": "partial", "theorems": ["Verif.Py.C167_caustics_partial", "Verif.Py.C167_empty_counterexample"], "note": "Holds with at least one splashback radius; otherwise the empty file raises when read."},
  {"property": "C168", "status": "partial", "theorems": ["Verif.Py.C168_bins", "Verif.Py.C168_children", "Verif.Py.C168_centres", "Verif.Py.C168_partial", "Verif.Py.C168_counterexample"], "note": "Exact for exact arithmetic. With floats an angle within 2^-51 below 0 raises an IndexError; otherwise, for a power of two of bins, right up to a turn over 2^52."},
  {"property": "C169", "status": "partial", "theorems": ["Verif.Py.C169_connect", "Verif.Py.C169_finest", "Verif.Py.C169_own", "Verif.Py.C169_argmaxes", "Verif.Py.C169_counterexample", "Verif.Py.C169_root_counterexample"], "note": "Holds when every node has a peak. A node without one below a connected parent raises, since line 82 tests the wrong list."},
  {"property": "C17", "status": "partial", "theorems": ["Verif.Interp.C17_spline_decreasing_partial", "Verif.Interp.C17_linear_decreasing_counterexample"], "note": "Splines accept decreasing abscissae and interpolate; the linear interpolator does not, and the end derivatives of a decreasing spline are evaluated in the wrong cell (C20_decreasing_ends_counterexample)."},
  {"property": "C170", "status": "partial", "theorems": ["Verif.Py.C170_slope_partial", "Verif.Py.C170_filter", "Verif.Py.C170_counterexample", "Verif.Py.C170_index"], "note": "All slopes come out too large by the factor n/(n-1), because the spacing is the length over the number of points. Positions of the minima do not change, the limit for them does. SciPy's filter enters by its exactness for polynomials."},
  {"property": "C171", "status": "partial", "theorems": ["Verif.Py.C171_valid", "Verif.Py.C171_counterexample"], "note": "Holds when at least two windows give a radius; with one only, the maximum of no differences raises."},
  {"property": "C172", "status": "partial", "theorems": ["Verif.Py.C172_function", "Verif.Py.C172_residual", "Verif.Py.C172_curve", "Verif.Py.C172_surface", "Verif.Py.C172_chi2", "Verif.Py.C172_fast_partial", "Verif.Py.C172_counterexample"], "note": "Everything but the fast fit, whose squares are weighted by the radii to the power 2(2n+1). pinv is a parameter with the Moore-Penrose conditions."},
  {"property": "C173", "status": "proved", "theorems": ["Verif.Py.C173_least", "Verif.Py.C173_power"], "note": "Exact real arithmetic."},
  {"property": "C174", "status": "partial", "theorems": ["Verif.Py.C174_conversions_partial", "Verif.Py.C174_counterexample"], "note": "log_to_linear raises for all arguments (undefined name); the other three are right."},
  {"property": "C175", "status": "proved", "theorems": ["Verif.Py.C175_coords"], "note": "Exact real arithmetic; signs of zeros left out."},
  {"property": "C176", "status": "partial", "theorems": ["Verif.Py.C176_mean_partial", "Verif.Py.C176_lower", "Verif.Py.C176_counterexample_mean", "Verif.Py.C176_std_partial", "Verif.Py.C176_counterexample_std"], "note": "Directions of the lower half circle are in no bin; the scatter is computed from the mean of the radii in place of that of their squares."},
  {"property": "C177", "status": "partial", "theorems": ["Verif.Py.C177_sum", "Verif.Py.C177_size_partial", "Verif.Py.C177_counterexample"], "note": "A file with a single number is added to every entry. Exact arithmetic."},
  {"property": "C178", "status": "partial", "theorems": ["Verif.Py.C178_aligned_partial", "Verif.Py.C178_counterexample"], "note": "With a density that is not positive, the logarithms lose the point and radii do not: slopes are shifted, or an IndexError is raised. Proved for positive densities."},
  {"property": "C179", "status": "partial", "theorems": ["Verif.Py.C179_power_law_partial", "Verif.Py.C179_segments", "Verif.Py.C179_counterexample"], "note": "Exact away from three points at either end of a segment; first and last bins are averages over their part with data, put at the centre of the bin. C179_segments: segments are the rebinned runs, in order. Logarithm, power and spline are parameters; the spline is asked to integrate lines exactly."},
  {"property": "C18", "status": "proved", "theorems": ["Verif.Interp.C18_tridiag", "Verif.Interp.C18_tridiag_out"], "note": "Exact rational arithmetic; nonzero pivots or diagonal dominance."},
  {"property": "C180", "status": "partial", "theorems": ["Verif.Scripts.C180_means_partial", "Verif.Scripts.C180_auto_partial", "Verif.Scripts.C180_high_ignored", "Verif.Scripts.C180_counterexample"], "note": "An upper limit alone is ignored, a lower limit alone panics, equal points panic, negative points give bins up to 0. Exact arithmetic; logarithm and exponential are parameters."},
  {"property": "C181", "status": "partial", "theorems": ["Verif.Scripts.C181_radii_partial", "Verif.Scripts.C181_radii_counterexample", "Verif.Scripts.C181_unit"], "note": "Radii are measured from a point a quarter of a cell off the middle. Squares of radii, exact arithmetic."},
  {"property": "C182", "status": "proved", "theorems": ["Verif.Word.C182_grid", "Verif.Word.C182_volume", "Verif.Word.C182_intersect", "Verif.Word.C182_tetra", "Verif.Word.C182_segment", "Verif.Word.C182_counterexample"], "note": "Int arithmetic as BitVec 64; the limits are stated in the theorems, the counterexample shows what happens beyond them"},
  {"property": "C183", "status": "partial", "theorems": ["Verif.Scripts.C183_roundtrip", "Verif.Scripts.C183_errors", "Verif.Scripts.C183_cleaned_partial", "Verif.Scripts.C183_findIdx"], "note": "Round trip and errors proved in full under the contract that printed numbers are read back as they were; the cleaned image as in C113 only for subhalos that the program handles at the box edge (C113_removed_counterexample)."},
  {"property": "C184", "status": "partial", "theorems": ["Verif.Py.C184_arguments", "Verif.Py.C184_names_partial", "Verif.Py.C184_distinct", "Verif.Py.C184_counterexample_halo", "Verif.Py.C184_counterexample_vir"], "note": "Names agree for 200c, 500c and 200m. For the virial radius the halo program writes RVir and the script expects Rvir (counterexample); negative halo numbers are accepted against the usage message (counterexample); the halo None passes the checks and ends in an exception."},
  {"property": "C185", "status": "partial", "theorems": ["Verif.Py.C185_order", "Verif.Py.C185_integral", "Verif.Py.C185_counterexample_norm", "Verif.Py.C185_peak", "Verif.Py.C185_maxima", "Verif.Py.C185_maxima_near", "Verif.Py.C185_single", "Verif.Py.C185_counterexample_shell", "Verif.Py.C185_root"], "note": "Order, peak and maxima proved. Two parts are false of the code: the estimate integrates to the root of one half, never to one, and for points that all have the same radius building the tree ends in an exception."},
  {"property": "C186", "status": "partial", "theorems": ["Verif.Py.C186_counts", "Verif.Py.C186_mode_partial", "Verif.Py.C186_filter", "Verif.Py.C186_counterexample_round", "Verif.Py.C186_counterexample_limits"], "note": "Holds except that the script ends in an exception when no bin is more than 1.3 times as far out as the fullest one, in particular for every shell whose radii are within a factor of 1.3 of each other, and that the furthest point is left out of every fit with a limit (counterexamples). The radius of a point and the number of bins are parameters of the model."},
  {"property": "C187", "status": "proved", "theorems": ["Verif.Fp.C187_nearest", "Verif.Fp.C187_formats", "Verif.Fp.C187_mod", "Verif.Fp.C187_sub", "Verif.Fp.C187_gadget", "Verif.Fp.C187_sum", "Verif.Fp.C187_xor", "Verif.Fp.C187_uniform", "Verif.Fp.C187_uniform_xor", "Verif.Fp.C187_taus", "Verif.Fp.C187_taus_draws"], "note": "Machine arithmetic with gradual underflow and overflow. C125 and C123, C124 (without fused operations) therefore hold of the machine with limits, in the ranges named. Products in images are not covered. The sign of zero and NaN are left out."},
  {"property": "C188", "status": "partial", "theorems": ["Verif.Py.C188_find", "Verif.Py.C188_polynomial", "Verif.Py.C188_range_partial", "Verif.Py.C188_naive", "Verif.Py.C188_local", "Verif.Py.C188_counterexample", "Verif.Py.C188_counterexample_plot", "Verif.Py.C188_counterexample_choice"], "note": "Proved of plot_savgol_profile.py. False of plot_profile.py: its splashback_range takes a number apart into two and raises an exception for every profile of more than five points, the statement that calls it raises one for every profile, and the choice it makes names a function that does not exist."},
  {"property": "C189", "status": "partial", "theorems": ["Verif.Py.C189_bins", "Verif.Py.C189_bins_raise", "Verif.Py.C189_chi2", "Verif.Py.C189_fits_partial", "Verif.Py.C189_counterexample"], "note": "False for one number of points: with exactly one point more than coefficients (19 for the default order) the program divides by zero degrees of freedom. The fit of the shell is a parameter."},
  {"property": "C19", "status": "proved", "theorems": ["Verif.Interp.C19_spline", "Verif.Interp.C19_two_points_panic"], "note": "Natural cubic spline for every increasing or decreasing table of at least three points."},
  {"property": "C190", "status": "proved", "theorems": ["Verif.Py.C190_angles", "Verif.Py.C190_curve", "Verif.Py.C190_nearby", "Verif.Py.C190_refused"], "note": "Real numbers; of the spline it is only used that it goes through its points when their positions increase."},
  {"property": "C191", "status": "proved", "theorems": ["Verif.Io.C191_header", "Verif.Io.C191_version1", "Verif.Io.C191_grid", "Verif.Io.C191_index", "Verif.Io.C191_names", "Verif.Io.C191_axis"], "note": "Little endian machine and files. The layout of the Python module is modelled by its own sizes and offsets. Files of version 1 are those with the header of version 2 without its last part."},
  {"property": "C192", "status": "partial", "theorems": ["Verif.Py.C192_range_partial", "Verif.Py.C192_counterexample", "Verif.Py.C192_counterexample_refused", "Verif.Py.C192_particles", "Verif.Py.C192_files", "Verif.Py.C192_counterexample_names"], "note": "False for the range: the first halo below the lower limit is always among those drawn from, and without halos above, within and below the limits the script stops with an exception. Halos of the same name to six digits share their files. The script as it stands stops at an assertion in line 42, which is left out. The texts of the files and the number format are parameters."},
  {"property": "C193", "status": "partial", "theorems": ["Verif.Py.HaloUnits.C193_units", "Verif.Py.HaloUnits.C193_critical", "Verif.Py.HaloUnits.C193_radius", "Verif.Py.HaloUnits.C193_r200c", "Verif.Py.HaloUnits.C193_mean_partial", "Verif.Py.HaloUnits.C193_counterexample"], "note": "False for the mean density at redshifts other than zero: it grows with the critical density and with the third power of 1 + z at once. The constants of script and library differ by less than one part in a million. Real numbers."},
  {"property": "C194", "status": "partial", "theorems": ["Verif.Py.Plateau.C194_search", "Verif.Py.Plateau.C194_module_partial", "Verif.Py.Plateau.C194_second", "Verif.Py.Plateau.C194_counterexample", "Verif.Py.Plateau.C194_repeat"], "note": "False: the search reads densities under a name that does not exist, so every profile with a splashback radius ends in an exception; with the densities at hand every profile with a plateau still would, for a second name. The search itself, given the densities, finds the plateau, and saving does not change answers."},
  {"property": "C195", "status": "partial", "theorems": ["Verif.Py.Colors.C195_file", "Verif.Py.Colors.C195_plot", "Verif.Py.Colors.C195_agree", "Verif.Py.Colors.C195_names", "Verif.Py.Colors.C195_first_partial", "Verif.Py.Colors.C195_first_counterexample"], "note": "File and plot of the profiles with a caustic agree. False for the plot of all profiles: its colours are those of the file exactly for profiles before which all have a caustic."},
  {"property": "C196", "status": "partial", "theorems": ["Verif.Py.MultiProf.C196_radii", "Verif.Py.MultiProf.C196_windows", "Verif.Py.MultiProf.C196_string_partial", "Verif.Py.MultiProf.C196_write", "Verif.Py.MultiProf.C196_counterexample"], "note": "False for the text of a segment, which is an exception for all segments but the first, and for the file of caustics, which is an exception for every list with such a profile. Radii and windows hold for all segments."},
  {"property": "C197", "status": "partial", "theorems": ["Verif.Fp.C197_volume", "Verif.Fp.C197_rejects", "Verif.Fp.C197_accepts_partial", "Verif.Fp.C197_thin_counterexample"], "note": "Volume and points outside hold for all tetrahedra. Points inside are proved to be accepted when the volume is at least a twentieth of the cube of the largest difference of coordinates; for a thinner tetrahedron the mean of the corners can be rejected, since the sum of the four volumes then differs from the volume by more than the relative tolerance."},
  {"property": "C198", "status": "partial", "theorems": ["Verif.Interp.C198_convolve", "Verif.Interp.C198_convolve_partial", "Verif.Interp.C198_monotone", "Verif.Interp.C198_tophat", "Verif.Interp.C198_gaussian", "Verif.Interp.C198_constants"], "note": "Holds for zero padding and constant extension. For the periodic and mirrored boundaries it holds at the indices whose window does not reach beyond the left end, where the code reads other entries (C23). Limits of the exponent are left out; exp is an arbitrary positive function."},
  {"property": "C199", "status": "partial", "theorems": ["Verif.Calc.C199_order2", "Verif.Calc.C199_interior", "Verif.Calc.C199_order4", "Verif.Calc.C199_constant_counterexample", "Verif.Calc.C199_exact"], "note": "The error bounds and the interior statement hold in full. At the ends the derivative of a constant need not be 0 (counterexample). Limits of the exponent are left out; of the ways to fuse a sum of products only the one the model names is covered."},
  {"property": "C20", "status": "proved", "theorems": ["Verif.Interp.C20_deriv", "Verif.Interp.C20_decreasing_ends_counterexample"], "note": "Deriv is the derivative of the cubic piece of the cell containing x."},
  {"property": "C200", "status": "partial", "theorems": ["Verif.Interp.C200_weights", "Verif.Interp.C200_smooth_partial", "Verif.Interp.C200_deriv_partial", "Verif.Interp.C200_counterexample"], "note": "Holds if the powers fit into 53 bits and no column of the system is without a pivot (seen from the factors). Without the first condition it is false (counterexample). math.Pow is an arbitrary function that is exact on integers of at most 53 bits, positive and even where the power is; limits of the exponent are left out."},
  {"property": "C21", "status": "partial", "theorems": ["Verif.Interp.C21_integrate_partial", "Verif.Interp.C21_integrate_counterexample"], "note": "Correct when lo is a knot; wrong in the code when lo is strictly inside a cell."},
  {"property": "C22", "status": "partial", "theorems": ["Verif.Interp.C22_bicubic_partial", "Verif.Interp.C22_bicubic_counterexample", "Verif.Interp.C22_tricubic_partial", "Verif.Interp.C22_tricubic_counterexample"], "note": "Cached splines change the answer after some histories; the partial theorems give the answers that do not depend on history."},
  {"property": "C23", "status": "partial", "theorems": ["Verif.Interp.C23_zero_extension", "Verif.Interp.C23_periodic_reflection_partial", "Verif.Interp.C23_periodic_counterexample", "Verif.Interp.C23_reflection_counterexample", "Verif.Interp.C23_get_partial", "Verif.Interp.C23_get_reflection_partial", "Verif.Interp.C23_get_counterexample"], "note": "Full for zero padding and constant extension; for periodic and mirrored boundaries the left end is wrong in the code."},
  {"property": "C24", "status": "proved", "theorems": ["Verif.Interp.C24_tophat", "Verif.Interp.C24_gaussian", "Verif.Interp.C24_constants"], "note": "exp is an arbitrary positive function."},
  {"property": "C25", "status": "partial", "theorems": ["Verif.Mat.C25_mult_partial", "Verif.Mat.C25_mult_counterexample", "Verif.Mat.C25_mult_panics", "Verif.Mat.C25_shapes"], "note": "Right for square right factors; the output index uses the wrong width otherwise (garbage, or a panic for every narrower right factor)."},
  {"property": "C26", "status": "proved", "theorems": ["Verif.Mat.C26_transpose_any", "Verif.Mat.C26_transpose", "Verif.Mat.C26_involution"], "note": "Every shape and every blocking threshold."},
  {"property": "C27", "status": "proved", "theorems": ["Verif.Mat.C27_multVec", "Verif.Mat.C27_vecMult"], "note": ""},
  {"property": "C28", "status": "proved", "theorems": ["Verif.Mat.C28_factors", "Verif.Mat.C28_determinant", "Verif.Mat.C28_zero_row", "Verif.Mat.C28_shapes"], "note": "Exact arithmetic, every nonsingular matrix."},
  {"property": "C29", "status": "partial", "theorems": ["Verif.Mat.C29_solveVector_partial", "Verif.Mat.C29_triangular", "Verif.Mat.C29_solveVector_counterexample"], "note": "Right for every right hand side exactly when the factorisation exchanged no rows."},
  {"property": "C30", "status": "partial", "theorems": ["Verif.Mat.C30_solveMatrix_partial", "Verif.Mat.C30_solveMatrix_counterexample", "Verif.Mat.C30_invert_partial", "Verif.Mat.C30_invert_counterexample"], "note": "Invert is right exactly when no rows are exchanged; Matrix.SolveMatrix always returns zero."},
  {"property": "C31", "status": "proved", "theorems": ["Verif.Geom.C31_mod", "Verif.Geom.C31_mod_fixes", "Verif.Geom.C31_sub", "Verif.Geom.C31_sub_antisymm"], "note": ""},
  {"property": "C32", "status": "partial", "theorems": ["Verif.Geom.C32_cross_partial", "Verif.Geom.C32_cross_counterexample", "Verif.Geom.C32_cross_norm"], "note": "False as stated: the sign of the cross product is reversed. Orthogonality and norm are proved."},
  {"property": "C33", "status": "partial", "theorems": ["Verif.Geom.C33_idxCheck", "Verif.Geom.C33_idxCheck_value", "Verif.Geom.C33_idx_range", "Verif.Geom.C33_idx_bijective", "Verif.Geom.C33_coords_partial", "Verif.Geom.C33_coords_zero_origin_partial", "Verif.Geom.C33_coords_counterexample"], "note": "Coords ignores the origin, so the round trip holds for grids at the origin only."},
  {"property": "C34", "status": "proved", "theorems": ["Verif.Geom.C34_intersect_complete", "Verif.Geom.C34_intersect_nearly_sound", "Verif.Geom.C34_intersectUnbounded"], "note": ""},
  {"property": "C35", "status": "proved", "theorems": ["Verif.Geom.C35_vertices", "Verif.Geom.C35_unknown_direction", "Verif.Geom.C35_cover", "Verif.Geom.C35_inside", "Verif.Geom.C35_overlap", "Verif.Geom.C35_interiors_disjoint", "Verif.Geom.C35_volume", "Verif.Geom.C35_cartesian"], "note": ""},
  {"property": "C36", "status": "partial", "theorems": ["Verif.Geom.C36_counterexample", "Verif.Geom.C36_negative_counterexample", "Verif.Geom.C36_centered_partial", "Verif.Geom.C36_interior_partial"], "note": "False: only the first axis is checked. Proved for centres at least skip away from the faces of the other two axes."},
  {"property": "C37", "status": "partial", "theorems": ["Verif.Geom.C37_accepts_interior", "Verif.Geom.C37_rejects_exterior", "Verif.Geom.C37_contains_partial", "Verif.Geom.C37_ordering_counterexample", "Verif.Geom.C37_degenerate"], "note": "Interior and exterior points proved; the claim that boundary points do not depend on corner order is false."},
  {"property": "C38", "status": "proved", "theorems": ["Verif.Geom.C38_volume", "Verif.Geom.C38_barycenter", "Verif.Geom.C38_contains"], "note": ""},
  {"property": "C39", "status": "partial", "theorems": ["Verif.Geom.C39_barycenter_counterexample", "Verif.Geom.C39_barycenter_partial"], "note": "False: the fourth corner is left out. The value returned is characterised."},
  {"property": "C40", "status": "proved", "theorems": ["Verif.Geom.C40_distribute", "Verif.Geom.C40_randomSample", "Verif.Geom.C40_distributeTetra", "Verif.Geom.C40_unit_then_tetra", "Verif.Geom.C40_six_preimages", "Verif.Geom.C40_volume_preserving"], "note": ""},
  {"property": "C41", "status": "proved", "theorems": ["Verif.Geom.C41_covers", "Verif.Geom.C41_minimal"], "note": ""},
  {"property": "C42", "status": "proved", "theorems": ["Verif.Geom.C42_segment", "Verif.Geom.C42_domain"], "note": ""},
  {"property": "C43", "status": "partial", "theorems": ["Verif.Geom.C43_deriv_partial", "Verif.Geom.C43_third_axis_partial", "Verif.Geom.C43_exact_partial", "Verif.Geom.C43_third_axis_counterexample", "Verif.Geom.C43_narrow_counterexample"], "note": "Proved for the first two axes and for the inner cells of the third; faces of the third axis are wrong and 4-cell grids panic at order 4."},
  {"property": "C44", "status": "partial", "theorems": ["Verif.Geom.C44_counterexample", "Verif.Geom.C44_history_partial"], "note": "False: Curl and Divergence change the record they are given, nil changes the global default. Proved for histories that do not touch the record."},
  {"property": "C45", "status": "proved", "theorems": ["Verif.Render.C45_partition", "Verif.Render.C45_coverage"], "note": "Every tetrahedron of every cube is visited by exactly one worker, once, and nothing else is visited. C45_coverage: the cubes tile the segment iff the subsampling length divides its width. The number of workers must be positive (with zero workers the code panics before rendering)."},
  {"property": "C46", "status": "proved", "theorems": ["Verif.Render.C46_schedule", "Verif.Render.C46_terminates"], "note": "Transition system of one pass, any number of workers and any interleaving: no deadlock, all executions finite, final grid is the old one plus all contributions, channel empty afterwards. Go's memory model enters as: a receive sees the buffer its sender wrote."},
  {"property": "C47", "status": "partial", "theorems": ["Verif.Render.C47_segment_partial", "Verif.Render.C47_domain_partial", "Verif.Render.C47_domain_counterexample"], "note": "Proved for the segment buffer with every point inside it, and for the domain buffer with points of positive coordinates. A point of the domain buffer with a coordinate exactly zero is lost (counterexample proved). Exact arithmetic."},
  {"property": "C48", "status": "partial", "theorems": ["Verif.Render.C48_add3_partial", "Verif.Render.C48_add2_partial", "Verif.Render.C48_add3_wide", "Verif.Render.C48_counterexample"], "note": "Proved for images not wider than the box and offsets below one period. NewBox of the whole box makes an image one layer wider, which is not filled (counterexample proved); C48_add3_wide says what such an image gets: the first period is filled, the pixels beyond it gain nothing."},
  {"property": "C49", "status": "partial", "theorems": ["Verif.Render.C49_strategies_agree_partial", "Verif.Render.C49_counterexample"], "note": "Proved for points whose domain coordinates are not whole numbers <= 0, where the two strategies differ (counterexample proved). Exact arithmetic: no rounding differences."},
  {"property": "C50", "status": "partial", "theorems": ["Verif.Render.C50_segment_partial", "Verif.Render.C50_domain_partial", "Verif.Render.C50_counterexample"], "note": "Proved for both strategies and all projection axes except points at depth exactly zero (counterexample proved)."},
  {"property": "C51", "status": "partial", "theorems": ["Verif.Render.C51_covers", "Verif.Render.C51_tight", "Verif.Render.C51_shift", "Verif.Render.C51_whole_box", "Verif.Render.C51_whole_box_counterexample", "Verif.Render.C51_fits_partial"], "note": "The image covers the region and no more. The image of the whole box has one pixel too many per side, always (counterexample proved); boxes at least one cell shorter fit."},
  {"property": "C52", "status": "partial", "theorems": ["Verif.Render.C52_intFloor_partial", "Verif.Render.C52_intFloor_counterexample"], "note": "Exact characterisation: intFloor is the floor except at zero and negative whole numbers, where it is one too small."},
  {"property": "C53", "status": "proved", "theorems": ["Verif.Render.C53_no_carry_over", "Verif.Render.C53_capacity"], "note": "Any sequence of passes, any buffer sizes, any schedules, any old buffer contents. C53_capacity: the allocated buffers fit every pass that is run."},
  {"property": "C54", "status": "partial", "theorems": ["Verif.Render.isPowTwo_iff", "Verif.Render.C54_subsample_partial", "Verif.Render.C54_counterexample"], "note": "The power-of-two test is right but is applied to the previous setting: proved exactly which call sequences are accepted, and that 3 is accepted and 4 after it rejected."},
  {"property": "C55", "status": "partial", "theorems": ["Verif.Render.C55_names_partial", "Verif.Render.C55_parse", "Verif.Render.C55_counterexample"], "note": "Round trip for all quantities but density, whose name cannot be printed (panic, counterexample proved). Exactly the five names are accepted."},
  {"property": "C56", "status": "partial", "theorems": ["Verif.Render.C56_mean_partial", "Verif.Render.C56_counterexample"], "note": "Means for empty images and those with at least 30 cells; every image of 1 to 29 cells panics (proved)."},
  {"property": "C57", "status": "partial", "theorems": ["Verif.Hist.C57_workers_partial", "Verif.Hist.C57_only_cubes", "Verif.Hist.C57_counterexample"], "note": "Proved for subsample length 1 (each cube by exactly one worker); false with subsampling: the worker test takes the unsubsampled index modulo skip^3*workers, so cubes are lost (counterexample for every skip >= 2 and workers <= skip)."},
  {"property": "C58", "status": "partial", "theorems": ["Verif.Hist.C58_contains", "Verif.Hist.C58_intersect_partial", "Verif.Hist.C58_intersect_counterexample", "Verif.Hist.C58_sheets"], "note": "Overlap test is exact except that two identical intervals are reported disjoint; proved as an iff, with the counterexample."},
  {"property": "C59", "status": "partial", "theorems": ["Verif.Hist.C59_bins", "Verif.Hist.C59_histogram_partial", "Verif.Hist.C59_histogram_counterexample", "Verif.Hist.C59_centers", "Verif.Hist.C59_merge"], "note": "Bins, centres and merge proved for every input except that a negative value on a logarithmic scale stops the program (counterexample). Exact real arithmetic."},
  {"property": "C60", "status": "proved", "theorems": ["Verif.Hist.C60_gridIndex", "Verif.Hist.C60_density"], "note": ""},
  {"property": "C61", "status": "proved", "theorems": ["Verif.Io.C61_writes", "Verif.Io.C61_illegal_id", "Verif.Io.C61_size_invisible"], "note": "Particle buffer against last-write-wins; ids outside 1..n panic; the buffer size (positive) does not matter."},
  {"property": "C62", "status": "proved", "theorems": ["Verif.Io.C62_roundtrip", "Verif.Io.C62_write_checks", "Verif.Io.C62_positions_section", "Verif.Io.C62_velocities_section"], "note": "Byte exact, both byte orders of the file and of the machine."},
  {"property": "C63", "status": "partial", "theorems": ["Verif.Io.C63_header", "Verif.Io.C63_velocities_partial", "Verif.Io.C63_positions_counterexample", "Verif.Io.C63_truncated_counterexample"], "note": "Headers and the velocity length check; the positions reader does not check the length and truncated files are accepted."},
  {"property": "C64", "status": "partial", "theorems": ["Verif.Io.C64_vec", "Verif.Io.C64_int64", "Verif.Io.C64_int32", "Verif.Io.C64_vec64_partial", "Verif.Io.C64_vec64_counterexample"], "note": "Proved for Vec, int64 and int32; the double precision reader is wrong when the file order differs from the machine order."},
  {"property": "C65", "status": "partial", "theorems": ["Verif.Io.C65_header", "Verif.Io.C65_scalar_partial", "Verif.Io.C65_projection_counterexample", "Verif.Io.C65_vector_counterexample"], "note": "Scalar unprojected grids written on a little-endian machine are read back exactly and the header always is. False for projected grids and for vector grids (counterexamples); big-endian writers see C66."},
  {"property": "C66", "status": "partial", "theorems": ["Verif.Io.C66_symmetric", "Verif.Io.C66_little_endian_partial", "Verif.Io.C66_big_endian_counterexample"], "note": "The flag reads the same in both bit orders, and the Python reader decodes order and version of a flag stored for little-endian; for a big-endian flag it decodes a wrong version and order (counterexample)."},
  {"property": "C67", "status": "partial", "theorems": ["Verif.Io.C67_low_word", "Verif.Io.C67_partial", "Verif.Io.C67_counterexample"], "note": "The count is the low word only: right below 2^32 particles, wrong at and above (counterexample)."},
  {"property": "C68", "status": "proved", "theorems": ["Verif.Io.C68_covers"], "note": "Coverage and minimality of the cell bounds, per axis; exact arithmetic."},
  {"property": "C69", "status": "partial", "theorems": ["Verif.Io.C69_checkInit_partial", "Verif.Io.C69_stable", "Verif.Io.C69_width_counterexample"], "note": "Exact characterisation of acceptance and stability. Widths larger than the volume are accepted (counterexample)."},
  {"property": "C70", "status": "partial", "theorems": ["Verif.Io.C70_contains", "Verif.Io.C70_valid_partial", "Verif.Io.C70_corner_counterexample", "Verif.Io.C70_negative_counterexample"], "note": "Containment for all configurations; validity of the box under the stated conditions; false for a centre at exactly the radius and for negative radii (counterexamples)."},
  {"property": "C71", "status": "partial", "theorems": ["Verif.Io.C71_subsample_hist", "Verif.Io.C71_quantity_hist_partial", "Verif.Io.C71_subsample_render_counterexample", "Verif.Io.C71_quantity_render_counterexample"], "note": "Histogram predicates are exact; the rendering predicates are not: non powers of two are accepted, and ValidQuantity panics for every input (counterexamples)."},
  {"property": "C72", "status": "proved", "theorems": ["Verif.Halo.C72_lists", "Verif.Halo.C72_edge_counterexample", "Verif.Halo.C72_second_insert_counterexample"], "note": "For positions in the box. The counterexamples are outside the claim: a coordinate exactly equal to the width panics, and a second Insert overwrites the lists of the first."},
  {"property": "C73", "status": "partial", "theorems": ["Verif.Halo.C73_findSubhalos_partial", "Verif.Halo.C73_symmetric", "Verif.Halo.C73_hosts_larger", "Verif.Halo.C73_periodic_counterexample", "Verif.Halo.C73_large_counterexample", "Verif.Halo.C73_empty"], "note": "Proved without periodic images and for spheres small against the box; the full claim is false: overlaps through the boundary are missed, large spheres are listed several times or missed."},
  {"property": "C74", "status": "partial", "theorems": ["Verif.Halo.C74_reuse_partial", "Verif.Halo.C74_reuse_counterexample"], "note": "The claim is false: entries of the first call are never removed. Proved when the first call found nothing."},
  {"property": "C75", "status": "partial", "theorems": ["Verif.Halo.C75_bounds_partial", "Verif.Halo.C75_inside", "Verif.Halo.C75_inside_unreduced", "Verif.Halo.C75_large_counterexample"], "note": "Proved for centres in the box and diameters below the width; false for larger spheres."},
  {"property": "C76", "status": "proved", "theorems": ["Verif.Halo.C76_inverse", "Verif.Halo.C76_increasing", "Verif.Halo.C76_mean_density", "Verif.Halo.C76_order", "Verif.Halo.C76_names", "Verif.Halo.C76_unknown", "Verif.Halo.C76_columns"], "note": "Real arithmetic, for cosmologies with matter, no negative dark energy and z > -1."},
  {"property": "C77", "status": "proved", "theorems": ["Verif.Halo.C77_catalogue", "Verif.Halo.C77_mass_radius"], "note": "sort.Sort enters by its contract: any exchanges in range, ending with no Less(i+1, i)."},
  {"property": "C78", "status": "partial", "theorems": ["Verif.Halo.C78_columns_partial", "Verif.Halo.C78_rejected", "Verif.Halo.C78_column62_counterexample", "Verif.Halo.C78_negative_counterexample"], "note": "All columns of the table are proved; the rejection of other columns is false for column 62 of an empty catalogue and for negative columns."},
  {"property": "C79", "status": "proved", "theorems": ["Verif.Main.C79_block"], "note": "Positions and velocities of every slot; the run does not fail."},
  {"property": "C80", "status": "partial", "theorems": ["Verif.Main.C80_cover_partial", "Verif.Main.C80_counterexample"], "note": "Proved when the number of cells divides the grid width; the counterexample shows cubes are lost otherwise."},
  {"property": "C81", "status": "partial", "theorems": ["Verif.Main.C81_names_partial", "Verif.Main.C81_counterexample"], "note": "Names are distinct for at most ten cells per side; for every larger number two segments share a name."},
  {"property": "C82", "status": "proved", "theorems": ["Verif.Main.C82_contains", "Verif.Main.C82_tight", "Verif.Main.C82_segment"], "note": "Containment is proved without a bound on the spread; tightness under the bound."},
  {"property": "C83", "status": "partial", "theorems": ["Verif.Main.C83_range_partial", "Verif.Main.C83_unset_counterexample"], "note": "The requested range is converted exactly; an unset end converts nothing instead of all snapshots."},
  {"property": "C84", "status": "partial", "theorems": ["Verif.Main.C84_positive_partial", "Verif.Main.C84_powers", "Verif.Main.C84_counterexample"], "note": "Powers of two are accepted and non-positive numbers rejected; every other positive number is accepted too."},
  {"property": "C85", "status": "proved", "theorems": ["Verif.Main.C85_exact", "Verif.Main.C85_complete", "Verif.Main.C85_rejects"], "note": "math.Pow is an arbitrary function."},
  {"property": "C86", "status": "proved", "theorems": ["Verif.Main.C86_mode", "Verif.Main.C86_order"], "note": ""},
  {"property": "C87", "status": "proved", "theorems": ["Verif.Cosmo.C87_average", "Verif.Cosmo.C87_hubbleFrac", "Verif.Cosmo.C87_critical", "Verif.Cosmo.C87_ratio", "Verif.Cosmo.C87_value"], "note": "Real arithmetic."},
  {"property": "C88", "status": "proved", "theorems": ["Verif.Main.C88_each_once"], "note": "Multiset of visited tetrahedra over all files and workers equals the six path tetrahedra of every cube of the periodic grid. Needs the number of cells to divide the grid width and the subsampling to divide the segment width; see C80 for what is lost otherwise."},
  {"property": "C89", "status": "proved", "theorems": ["Verif.Interp.C89_bicubic_grid", "Verif.Interp.C89_tricubic_grid"], "note": ""},
  {"property": "C90", "status": "partial", "theorems": ["Verif.Mat.C90_singular_counterexample", "Verif.Mat.C28_zero_row", "Verif.Mat.C28_shapes"], "note": "False: the pivot row is not reset between columns. Holds (by panic) for a zero row."},
  {"property": "C91", "status": "partial", "theorems": ["Verif.Geom.C91_divergence_partial", "Verif.Geom.C91_curl_partial", "Verif.Geom.C91_gradient_partial", "Verif.Geom.C91_subtract_counterexample"], "note": "Proved for overwriting output away from the faces of the third axis; false for subtracting output."},
  {"property": "C92", "status": "partial", "theorems": ["Verif.Render.C92_velocity3", "Verif.Render.C92_projected_partial", "Verif.Render.C92_projected_counterexample"], "note": "Proved in three dimensions (segment strategy). Projected images show the mean divided by the depth (proved for all inputs, counterexample given)."},
  {"property": "C93", "status": "partial", "theorems": ["Verif.Render.C93_curl_partial", "Verif.Render.C93_divergence_partial", "Verif.Render.C93_gradient_partial", "Verif.Render.C93_divergence_counterexample"], "note": "Curl and gradient are right away from the faces of the third axis (C43). The divergence image uses the first velocity component twice: proved what it holds, exactly when that is the divergence, and a counterexample."},
  {"property": "C94", "status": "partial", "theorems": ["Verif.Render.C94_skipped", "Verif.Render.C94_segment", "Verif.Render.C94_domain_partial", "Verif.Render.C94_segment_total", "Verif.Render.C94_domain_total", "Verif.Render.C94_counterexample"], "note": "C94_segment is complete for the buffers of the extent of the segment. With buffers of the extent of the image the code truncates instead of flooring: samples with a coordinate exactly zero or a negative whole number are misplaced or lost (C94_counterexample), all others are proved (C94_domain_partial). In images at least as wide as the box no sample is lost with either buffer (C94_segment_total, C94_domain_total). Images of any width; pixels beyond the first period gain nothing. Projected images are C111."},
  {"property": "C95", "status": "partial", "theorems": ["Verif.Hist.C95_cube_filter_partial", "Verif.Hist.C95_cube_filter_counterexample"], "note": "Exact characterisation of the cubes kept: those whose first corner lies strictly inside the sheet's own bounding box; the analysed box plays no role. The wanted statement is false (counterexample)."},
  {"property": "C96", "status": "partial", "theorems": ["Verif.Io.C96_read_partial", "Verif.Io.C96_lengths", "Verif.Io.C96_big_endian_counterexample"], "note": "Exact for little-endian files on machines of either order, float wrap and velocity scaling kept abstract (see C97 for the wrap); big-endian files are misread because the header is decoded as little-endian (counterexample)."},
  {"property": "C97", "status": "proved", "theorems": ["Verif.Io.C97_wrap", "Verif.Io.C97_wrap_range"], "note": "Exact arithmetic."},
  {"property": "C98", "status": "proved", "theorems": ["Verif.Io.C98_scalar", "Verif.Io.C98_vector"], "note": "All shapes; the writer always writes little-endian, as the program does. The Python reader is modelled from python/gotetra.py."},
  {"property": "C99", "status": "partial", "theorems": ["Verif.Io.C99_names_partial", "Verif.Io.C99_requiresVelocity", "Verif.Io.C99_density_counterexample"], "note": "Exact for all quantities except that printing the density panics (counterexample)."}
]}
