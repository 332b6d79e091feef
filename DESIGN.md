# Formal model of fredericjs/surfalize in Lean 4 — design

The statements of the properties are in `properties.jsonl`, their state in `MANIFEST.json`, the attempts to break the
theorems by wrong programs in `seeded/LOG.jsonl`.

## Approach

* Shallow functional models of the Python functions, one Lean definition per function, each citing file and lines.
  Exceptions are values (`Except Err α`, `Prelude/Err.lean`), a loop is a fold or structural recursion, in-place mutation
  returns the new state. Loops whose end is in question run on fuel (`Gwy.Run`) and the theorems speak about the fuel.
* Heights are exact numbers: a generic linearly ordered field `K` (instantiated with `ℚ` in witnesses), `ℝ` where `sqrt`,
  `sin`, `exp`, `log` occur, `ℂ` for the Fourier transform. A non-measured point (NaN) is `none : Option K`.
* External libraries are parameters with the assumed behaviour written as a hypothesis of the theorems (and shown to be
  satisfiable beside them), or the exact mathematical function they compute.
* State and history: cached objects (`Model/Cache`), views and buffers on a heap (`Model/Heap`), worker interleavings
  (`Model/Batch`), file systems (`Model/Convert`, `Model/Cag`, `Model/FileHandler`) are state machines; properties over
  histories are invariants proved by induction over arbitrary lists of actions.
* Files: bytes are `List UInt8`-like lists of numbers below 256 (`Prelude`), headers are `Layout`s as in
  `file/common.py`; floating-point fields go through a `FloatCodec` whose only assumption is correct rounding.
* Layout: `Verif/Prelude` (Python/numpy primitives), `Verif/Model` (the code), `Verif/Spec` (independent
  specifications), `Verif/Lemmas` (helpers), `Verif/Props` (property theorems with non-vacuity examples beside them).
* Names: `Cxx_…` proves (a clause of) property Cxx; the suffix `_partial` marks a theorem that proves only part of a
  property because of an extra hypothesis, `_violated`, `_fails`, `_not_…`, `_lost`, `_wrong` etc. mark theorems that prove
  the *negation* of a clause about the code as it is, with a witness or in general.

## Trusted base

* Lean's kernel (4.33.0) and Mathlib's definitions that occur in statements. No axioms are added; no theorem uses compiled
  evaluation. Of the theorems listed in the manifest, all depend at most on `propext`, `Classical.choice` and
  `Quot.sound`: 711 on propext, Classical.choice, Quot.sound; 61 on propext, Quot.sound; 41 on propext; 6 on none. `AXIOMS.md` lists them theorem by theorem (output of `#print axioms`).
* The reading of the Python source into the definitions under `Verif/Model`, and of the English properties into the
  theorem statements and `Verif/Spec`.
* The assumptions about external code listed next.

### Assumptions about external code

| external | assumption | where |
|---|---|---|
| numpy arithmetic | exact; floating-point rounding, overflow, signed zeros and infinities are not modelled, except for values stored in files (`FloatCodec.Nearest`: correctly rounded to the format), the invalid value of AL3D and the threshold of OS3D | all |
| `np.argsort`, `np.sort` | any permutation that sorts (`Spec.IsArgsort`, `IsSort`); ties in any order; for C97_affine also that the order depends on comparisons only (`ScaleFree`) | C36-C41, C43, C46, C74, C76, C88, C94, C97 |
| `np.linalg.lstsq` | returns a minimiser of the squared residual (`Spec.IsLstsq`; existence proved) | C27, C28, C38, C39, C73, C74, C90, C93 |
| `scipy.optimize.curve_fit` | arbitrary function (C77, C78), or an ideal fit that recovers an exact sinusoid (`Recovers`, C88; existence proved) | C45, C77, C78, C88 |
| `scipy.ndimage.gaussian_filter` | arbitrary kernel (C12); continuous Gaussian transfer function (C13); scipy's algorithm in exact arithmetic (C95) | C12, C13, C95 |
| `scipy.interpolate.griddata` (nearest) | some nearest measured point | C29 |
| `scipy.ndimage.rotate` | the size of its result, its values at multiples of 180 degrees; for C71 (real arrays) and C127 the documented turning about the centre with ideal interpolation and 0 outside | C30, C71, C127 |
| `scipy.ndimage.map_coordinates` | only the number of points, homogeneity (`LineLength`, `LineHomogeneous`) | C75 |
| `ndimage.label`, `binary_dilation` | 4-connected components and neighbours | C75 |
| `scipy.signal.fftconvolve`, `np.fft` | exact convolution and DFT | C42-C44, C76, C94 |
| `scipy.signal.find_peaks` | modelled after scipy's source | C94 |
| pandas | tables as lists of rows, inner join on the file column | C52 |
| multiprocessing / threads | any interleaving of the steps of the workers, one result per file | C48 |
| `zlib`, `gzip`, `lzma` | decompression inverts compression (`SflzSpec.Lossless`, `SaveLoadSpec.Sound`, size at most 2n+1000) | C58, C62, C89 |
| `zipfile`, XML, `hashlib.md5`, PIL, `dateutil`, clock, `np.loadtxt` | parameters (functions of their input) | C61, C66, C84-C86, C91 |
| `str.lower`, codecs | ASCII exactly, others by `UnitsSpec.Faithful`; UTF-8 and Latin-1 modelled | C56, C57, C81 |
| `str(float)`, `float(str)` | `FloatText.Faithful` (shortest text reads back), `SdfSpec.Log10`, plain number texts | C59, C66 |
| `re` | literals without metacharacters, the groups that occur; greedy matching with backtracking | C53, C91 |
| `click` | each option at most once, conversion of values (`CliSpec.Sound`) | C55, C86, C87, C98 |
| file system | a map from paths to bytes; no links or permissions; POSIX paths; `Path.suffix` as before Python 3.14 | C63, C79, C86, C87, C89, C91, C98 |
| readers and writers in the dispatcher | arbitrary functions of the bytes | C63, C79, C86 |
| custom batch parameters | do not change the heights | C48-C51 |
| numpy views | integer and slice indices, scalar assignments; arrays the caller keeps are not tracked | C05, C06, C70 |

## What is modelled and what is not

Modelled (see the citations in `Verif/Model`): `cache.py`, `base.py`, `surface.py`, `profile.py` and `plotting.py` (of plots: which values are drawn where), `filter.py`,
`mathutils.py`, `utils.py`, `examples.py`, `abbottfirestone.py`, `autocorrelation.py`, `fourier.py`, `batch.py`, `cli.py`, `file/common.py`, the
dispatcher, and the formats SUR, TMD, AL3D, SDF, SFLZ (read and write), GWY, FITS, DAT, XYZ, NMS, PLU, OPD, VK4/6/7, ZMG, OS3D,
PLUX, X3P (read) and CAG archives.

Not modelled: the look of plots (colours, labels, ticks, camera), `show`, the layout of the PDF reports (their table is modelled), docstring rewriting
(`utils.remove_parameter_from_docstring`), `Image.save/show`, logging, performance
and memory use, floating-point rounding of computations, index arrays of more than one dimension, and reads of
SFLZ with 8-byte integer heights.

## Plan and outcome per property

"partial" nearly always means that the code violates the property as stated; then the negation is proved as well and the
remaining part is proved under the hypotheses the code needs.

### C01 Cached parameters are never stale — proved

* Model: Model/Cache: an object is (heights, cache); a class is an arbitrary family of cached methods that may call each other; keys (name, args text, kwargs text).
* Proof: Invariant "every cache entry equals an evaluation from scratch on the present heights", by induction over histories of reads, assignments and in-place operations, for every class whose keys determine the arguments (counterexample without).
* Theorems (`Props/Cache.lean`): `C01_cache_transparent`, `C01_read_is_fresh`, `C01_mutation_clears`, `C01_second_call_hits`, `C01_needs_faithful_keys`.

### C02 A failed cached evaluation leaves no trace — proved

* Model: Model/Cache: evaluation returns Except together with the cache.
* Proof: Induction over nested evaluation: an error result leaves the cache as it was.
* Theorems (`Props/Cache.lean`): `C02_failure_not_cached`, `C02_guard_leaves_cache`, `C02_retry`.

### C03 inplace=True and inplace=False compute the same heights — partial

* Model: Model/Object: every method with an inplace flag as one function of (object, arguments) with the branch for inplace; numerical routines are parameters.
* Proof: Case analysis over the operations; repeated stepheight_level uses Model/LevelCache.
* Theorems (`Props/LevelCache.lean, Object.lean`): `C03_inplace_eq_copy_partial`, `C03_both_not_inplace`, `C93_second_inplace_violated`.
* Outcome: All methods with an inplace flag, all arguments and data, any numerical routines, on a cold cache. False of the code: filter('both') raises in place (C03_both_not_inplace), and a repeated stepheight_level in place does nothing while the copy is levelled (C93_second_inplace_violated).

### C04 Extents always match the data and the step sizes — proved

* Model: Model/Object: construction, setters, in-place operations, slices, crop, zoom.
* Proof: Invariant over histories.
* Theorems (`Props/Object.lean`): `C04_extents`, `C04_step_assignment_breaks`.
* Outcome: Every history of API operations; direct assignment of step_x/step_y is excluded by the statement and shown to break the invariant.

### C05 Distinct Surface objects do not share heights — partial

* Model: Model/Heap: arrays as (buffer, offset, strides, shape) on a heap, numpy views, read-only flags, caches.
* Proof: Separation invariant over histories (families of surfaces that share a buffer); negation by a two-step history.
* Theorems (`Props/Heap.lean`): `C05_families_partial`, `C05_reads_partial`, `C05_operations`, `C05_results`, `C05_marks`, `C05_no_sharing_partial`, `C05_reads_current_without_edits_partial`, `C05_slice_shares`, `C05_crop_shares`.
* Outcome: For every history (slices, crops, zooms, in-place operations, .data passed on, fills, edits, reads): surfaces of different families are isolated from each other's edits, relatives change at most to the assigned value, no other operation changes any surface but its in-place target, results are computed from current heights, and reads are current unless a relative was edited after the first read. The full property is false: slices and crops share memory with the original (C05_slice_shares, C05_crop_shares).

### C06 Returned results are isolated from the cache — partial

* Model: Model/Heap / Model/Cache: returned dictionaries and step assignments.
* Proof: Invariant over histories; negations.
* Theorems (`Props/Heap.lean`): `C06_isolated_partial`, `C06_dict_mutation`, `C06_step_assignment`.
* Outcome: Proved for callers that neither modify a returned dictionary nor reassign steps; both excluded actions are shown to break the property.

### C07 center removes exactly the mean — proved

* Model: Model/BaseOps: center.
* Proof: Finite sums over the measured values.
* Theorems (`Props/BaseOps.lean`): `C07_center`, `C07_center_all_missing`.
* Outcome: Any container shape, any mask.

### C08 zero shifts the minimum to zero — proved

* Model: Model/BaseOps: zero.
* Proof: min characterisation.
* Theorems (`Props/BaseOps.lean`): `C08_zero`.

### C09 invert is an involution on fully measured data — partial

* Model: Model/BaseOps: invert with NaN-propagating min and max.
* Proof: Algebra; negation witness.
* Theorems (`Props/BaseOps.lean`): `C09_invert_measured_partial`, `C09_invert_missing_destroys`, `C09_invert_not_mask_preserving`.
* Outcome: Proved on fully measured data. The second sentence (mask preserved) is false of the code: base.py:256 uses NaN-propagating min/max, so one non-measured point destroys everything; negation proved.

### C10 remove_outliers keeps exactly the points within the stated band — proved

* Model: Model/BaseOps: remove_outliers with mean/std and median/MAD.
* Proof: Chebyshev count and median counting argument.
* Theorems (`Props/BaseOps.lean`): `C10_median`, `C10_mean`, `C10_dispatch`.

### C11 threshold removes only the stated material-ratio tails — proved

* Model: Model/BaseOps: threshold with the index arithmetic of the sorted heights (round half even).
* Proof: Counting lemmas on sorted lists.
* Theorems (`Props/BaseOps.lean`): `C11_threshold_error`, `C11_threshold`, `C11_threshold_distinct`, `C11_scalar`, `C11_threshold_fails`.

### C12 filter modes are validated and complementary — proved

* Model: Model/Filter: dispatch, validation and composition for an arbitrary smoothing kernel.
* Proof: Case analysis, pointwise algebra.
* Theorems (`Props/Filter.lean`): `C12_validation`, `C12_complement`, `C12_both`, `C12_bandpass`.
* Outcome: For every smoothing kernel (parameter), 1-d and 2-d data.

### C13 The Gaussian filter transmits 50% at the cutoff wavelength on both axes — proved

* Model: Model/Filter: sigma of the Gaussian as a function of cutoff and steps; continuous transfer function exp(-2 pi^2 sigma^2 / lambda^2).
* Proof: Real analysis (exp, log, monotonicity).
* Theorems (`Props/Filter.lean`): `C13_cutoff`, `C13_transmission`.
* Outcome: Exact continuous Gaussian; the kernel as implemented (sampled, truncated) is treated in C96.

### C14 Height parameters obey the ISO ordering — proved

* Model: Model/HeightParams over the reals.
* Proof: Cauchy-Schwarz, (max-x)(x-min) >= 0 summed.
* Theorems (`Props/HeightParams.lean`): `C14_success`, `C14_definitions`, `C14_ordering`, `C14_failure`.
* Outcome: All non-empty fully measured 2-d arrays, exact reals.

### C15 Height parameters are invariant under offset and scale correctly — proved

* Model: Model/HeightParams.
* Proof: Sums under affine maps; sqrt.
* Theorems (`Props/HeightParams.lean`): `C15_offset`, `C15_scale`, `C15_invert`.
* Outcome: Offset, positive scaling and invert.

### C16 Kurtosis dominates skewness — proved

* Model: Model/HeightParams.
* Proof: Cauchy-Schwarz for the third moment.
* Theorems (`Props/HeightParams.lean`): `C16_kurtosis`.
* Outcome: Power-mean inequality for every non-flat surface.

### C17 Height parameters ignore the arrangement of points — proved

* Model: Model/HeightParams, Abbott, Stepheight.
* Proof: Permutation invariance of sums, sorting and histograms.
* Theorems (`Props/Abbott.lean, HeightParams.lean, Stepheight.lean`): `C17_arrangement`, `C17_flip`, `C36_arrangement`, `C17_functional_parameters`, `C72_order`.
* Outcome: Height parameters, Abbott curve with all functional and volume parameters, and the Otsu threshold, for every permutation.

### C18 Profile sectioning partitions the profile — proved

* Model: Model/HeightParams: np.array_split.
* Proof: Induction on the sections.
* Theorems (`Props/HeightParams.lean`): `C18_sections`.
* Outcome: np.array_split modelled; every profile and every n_sections.

### C19 Profile height parameters are ordered — partial

* Model: Model/HeightParams: profile parameters per section.
* Proof: Order lemmas on min/max of sublists; negation witness.
* Theorems (`Props/HeightParams.lean`): `C19_bounds`, `C19_rz_partial`, `C19_one_section`, `C19_rz_not_rp_plus_rv`, `C19_ra_le_rq`, `C19_profile_is_one_row_surface`.
* Outcome: All orderings proved; the clause Rz = Rp + Rv is false of the code for more than one section (C19_rz_not_rp_plus_rv), proved for one section.

### C20 Surface arithmetic is pointwise and dimension-checked — partial

* Model: Model/Object: operators.
* Proof: Pointwise algebra on Option; division by zero gives a non-number.
* Theorems (`Props/Object.lean`): `C20_pointwise`, `C20_division_partial`, `C20_zero_divisor`, `C20_dimension_check`, `C20_cancel`, `C20_scalar`.
* Outcome: +,-,* pointwise, dimension checks, cancellation and scalars proved; division produces non-numbers at zero divisors (C20_zero_divisor), proved elsewhere.

### C21 Surface equality is reflexive, symmetric, mask-aware and compatible with hash — partial

* Model: Model/Object: __eq__ with allclose and isnan masks; __hash__.
* Proof: Characterisation; negations by witnesses.
* Theorems (`Props/Object.lean`): `C21_eq_iff`, `C21_refl_symm_partial`, `C21_not_transitive`, `C21_hash_incompatible`.
* Outcome: Exact meaning of ==, reflexivity, symmetry, mask awareness proved; transitivity and hash compatibility are false of the code (C21_not_transitive, C21_hash_incompatible).

### C22 crop returns exactly the requested rectangle — partial

* Model: Model/Geometry: crop in pixels and units, Python slice semantics for negative bounds.
* Proof: pySlice lemmas; error condition as an iff.
* Theorems (`Props/Geometry.lean`): `C22_crop_px`, `C22_crop_px_error_partial`, `C22_crop_units`, `C22_crop_profile`, `C22_crop_accepts_inverted_box`, `C22_crop_profile_units`.
* Outcome: Block, unit boxes and the exact error condition proved. 'Any box not inside raises' is false of the code for boxes ending before pixel 0 (negation proved).

### C23 zoom keeps a centred window — proved

* Model: Model/Geometry: zoom.
* Proof: Integer arithmetic.
* Theorems (`Props/Geometry.lean`): `C23_zoom`, `C23_zoom_profile`, `C23_zoom_below_one_not_centred`.

### C24 Slicing scales the step sizes — proved

* Model: Model/Geometry: __getitem__ with integers and slices.
* Proof: Slice index arithmetic.
* Theorems (`Props/Geometry.lean`): `C24_slice_points`, `C24_slice_steps`, `C24_slice_rows`, `C24_int_index_error`, `C24_negative_step_size`.
* Outcome: Slices with any start/stop/step (masks, index arrays and ...: C120). Finding: negative slice steps give negative step sizes.

### C25 Horizontal and vertical profiles hit the requested row/column — partial

* Model: Model/Geometry: get_horizontal_profile / vertical.
* Proof: int() truncation and slices; negations.
* Theorems (`Props/Geometry.lean`): `C25_horizontal_partial`, `C25_vertical_partial`, `C25_outside_error`, `C25_average_odd`, `C25_last_row_is_nan`, `C25_last_column_is_nan`, `C25_average_even_uses_one_more`, `C25_not_nearest`.
* Outcome: Proved for all rows but the last and odd averaging; last row/column, even averaging and nearest-rounding are violated by the code (negations proved).

### C26 Oblique profiles run from the start to the end point — partial

* Model: Model/Geometry: get_oblique_profile; sampling positions.
* Proof: Exact characterisation; negations.
* Theorems (`Props/Geometry.lean`): `C26_oblique_partial`, `C26_oblique_ignores_offset`, `C26_vertical_segment_fails`, `C26_inside`, `C26_outside`.
* Outcome: Characterised exactly: right iff the line passes through the origin; offset ignored and vertical segments fail (negations proved).

### C27 level/detrend split the surface into trend plus residual — proved

* Model: Model/Detrend: design matrices and subtraction for an arbitrary least squares solver (Spec.IsLstsq).
* Proof: Normal-equation-free: minimality of the solver transferred through pointwise equalities.
* Theorems (`Props/Detrend.lean`): `C27_surface`, `C27_level`, `C27_profile`, `C27_defined`, `C27_solver_exists`, `C27_level_profile`.
* Outcome: Any least-squares solver returning a minimiser; existence of such a solver proved (C27_solver_exists). 1-D for >=2 points.

### C28 Detrending is idempotent and blind to added polynomials — proved

* Model: Model/Detrend.
* Proof: Uniqueness of the projection of the residual (parallelogram identity).
* Theorems (`Props/Detrend.lean`): `C28_blind`, `C28_idempotent`, `C28_mean_zero`, `C28_profile`.
* Outcome: Exact arithmetic; residual mean 0 for all data, no rank assumption.

### C29 fill_nonmeasured keeps measured points and fills the rest — proved

* Model: Model/FillRotate: griddata nearest as an arbitrary choice among nearest points.
* Proof: Pointwise.
* Theorems (`Props/FillRotate.lean`): `C29_heights`, `C29_object`, `C29_profile`, `C29_pick_exists`.
* Outcome: Nearest-neighbour search is a parameter with ties open; existence proved.

### C30 rotate by 0 is the identity; aspect ratio and extent are preserved — partial

* Model: Model/FillRotate: rotate: size, crop indices; resampling at 0 degrees as identity.
* Proof: Index computation; negation.
* Theorems (`Props/FillRotate.lean`): `C30_straight_partial`, `C30_not_identity`.
* Outcome: Property is false of the code: rotate(0) drops the first row and column (C30_not_identity); steps are kept exactly at 0/180 degrees.

### C31 Developed area parameters — partial

* Model: Model/Areas: surface area as the sum of the triangle/quadrilateral formula used.
* Proof: Inequalities of sqrt; exact value for planes; negations.
* Theorems (`Props/Areas.lean`): `C31_area_ge_projected`, `C31_flat_partial`, `C31_corner_ignored`, `C31_sdr_pos`, `C31_plane_partial`, `C31_plane_wrong_for_unequal_steps`.
* Outcome: Area >= projected area; Sdr strictly positive (>=3x3). 'Sdr=0 iff flat' is refuted for every surface (C31_sdr_pos), the plane area is proved for equal steps and refuted for unequal steps, and the last corner is shown to be ignored.

### C32 Root-mean-square gradient — proved

* Model: Model/Areas: Sdq/Rdq.
* Proof: Sums of squares.
* Theorems (`Props/Areas.lean`): `C32_offset`, `C32_scale`, `C32_zero_iff_flat`, `C32_le_rms_slope`, `C32_rdq`.
* Outcome: Sdq and Rdq for all fully measured data.

### C33 Homogeneity is a Gini-type index in [0,1] — partial

* Model: Model/Homogeneity: cells, Lorenz curve, Gini, rounding.
* Proof: Rearrangement of sums over sorted lists.
* Theorems (`Props/Homogeneity.lean`): `C33_range`, `C33_one_iff_equal`, `C33_order`, `C33_scale_partial`, `C33_reported`, `C33_equal_cells`, `C33_cells`, `C33_scale_fails_when_rounded`, `C33_period_below_one_pixel`, `C33_nan_cell`, `C33_flat_cell_violated`, `C33_names`.
* Outcome: All four parts hold for the unrounded index of a value list (the code's Gini/Lorenz computation); the number homogeneity() reports is rounded (values to 8, result to 4 digits) and stays in [0,1], but scaling invariance fails through that rounding (C33_scale_fails_when_rounded). A cell with all heights equal makes the result NaN (C33_flat_cell_violated).

### C34 Step height and Otsu threshold separate two non-empty classes — proved

* Model: Model/Stepheight: histogram, otsu_threshold, mask, medians.
* Proof: Histogram counting lemmas.
* Theorems (`Props/Stepheight.lean`): `C34_threshold`, `C34_classes`, `C34_stepheight`, `C34_undefined`, `C34_affine`, `C34_arrangement`.
* Outcome: For every ordered field, every data set. Also: NaN exactly on flat surfaces or surfaces with missing points; equivariance; independence of arrangement.

### C35 Cavity volume — proved

* Model: Model/Stepheight: cavity_volume.
* Proof: Monotone sums.
* Theorems (`Props/Stepheight.lean`): `C35_value`, `C35_undefined`, `C35_nonneg`, `C35_antitone`, `C35_steps`, `C35_affine`, `C35_arrangement`, `C35_unit`.
* Outcome: C35_undefined: flat surfaces and surfaces with missing points silently give 0.

### C36 The material ratio curve is monotone with exact end points — proved

* Model: Model/Abbott: histogram and cumulated curve.
* Proof: Counting and sorting lemmas.
* Theorems (`Props/Abbott.lean`): `C36_curve`, `C36_material_ratio`, `C36_arrangement`, `C36_missing`, `C36_defined`.
* Outcome: Any number of classes n >= 2; also the counting meaning of the ratio.

### C37 Smr and Smc are monotone and inverse to each other — partial

* Model: Model/Abbott: Smc, Smr through interp1d.
* Proof: Piecewise linear interpolation lemmas; negation on plateaus.
* Theorems (`Props/Abbott.lean`): `C37_smc`, `C37_smc_bounds`, `C37_smr_range`, `C37_smr_antitone_across`, `C37_distinct`, `C37_smr_partial`, `C37_plateau`.
* Outcome: Smc: all data. Smr: all data for the range and for monotonicity across plateaus; monotone/inverse/end values proved for curves without plateaus (implied by distinct heights). On plateaus the property is false of the code (C37_plateau).

### C38 The 40% secant search terminates and picks the flattest secant — proved

* Model: Model/Abbott: the search loop of the 40 percent secant.
* Proof: Loop invariant with termination.
* Theorems (`Props/Abbott.lean`): `C38_window`.
* Outcome: Includes which points enter the least squares line.

### C39 Functional parameters Sk, Spk, Svk are non-negative and Smr1<=Smr2 — partial

* Model: Model/Abbott.
* Proof: Order lemmas for line and curve.
* Theorems (`Props/Abbott.lean`): `C39_sk`, `C39_pk_vk`, `C39_extreme`, `C39_smr_order_partial`, `C39_smr_order_fails`.
* Outcome: Everything for all data (n >= 4 classes) except Smr1 <= Smr2, which is proved for curves without plateaus and false of the code on plateaus (C39_smr_order_fails).

### C40 Sdc/Sxp are height differences of the curve — proved

* Model: Model/Abbott.
* Proof: Telescoping.
* Theorems (`Props/Abbott.lean`): `C40_sdc`.

### C41 Volume parameters are non-negative and consistent — proved

* Model: Model/Abbott: trapezoidal integrals.
* Proof: Non-negative trapezoids; monotonicity.
* Theorems (`Props/Abbott.lean`): `C41_volumes`, `C41_ends`.

### C42 The autocorrelation is symmetric with its maximum at the origin — proved

* Model: Model/Autocorr: fftconvolve as exact linear convolution; normalisation by overlap.
* Proof: Reindexing of finite sums; Cauchy-Schwarz.
* Theorems (`Props/Autocorr.lean`): `C42_mean_of_products`, `C42_symmetric`, `C42_bound`, `C42_missing`, `C42_zero_lag`, `C42_unweighted_exceeds`.
* Outcome: fftconvolve is taken as exact linear convolution. C42_unweighted_exceeds shows the unweighted values may exceed the zero-lag one.

### C43 Fourier period, direction and orientation agree — proved

* Model: Model/Fourier: exact DFT, fftshift, fftfreq, choice of the second largest peak.
* Proof: Argument for every argsort (Spec.IsArgsort).
* Theorems (`Props/Fourier.lean`): `C43_argsort_exists`, `C43_consistent`, `C43_errors`.
* Outcome: For every index order np.argsort may return.

### C44 The angular power spectrum conserves power; Std is a direction — proved

* Model: Model/Fourier: angular bins.
* Proof: Partition of indices; arithmetic of angles.
* Theorems (`Props/Angular.lean`): `C44_bins`, `C44_power`, `C44_errors`, `C44_std`, `C44_grating`.
* Outcome: Exact arithmetic: bin boundaries as real numbers.

### C45 Sinusoid normalisation and extrema — partial

* Model: Model/Sinusoid.
* Proof: Trigonometric identities, floor arithmetic.
* Theorems (`Props/Sinusoid.lean`): `C45_normalised`, `C45_extrema_partial`, `C45_negative_period`.
* Outcome: Proved for positive fitted periods; the fit is unbounded and a negative period gives positions <= 0 (C45_negative_period), so the range claim is false of the code in general.

### C46 Linear interpolation and nearest search — proved

* Model: Model/Interp: interp1d, argclosest.
* Proof: Sorted list search.
* Theorems (`Props/Interp.lean`): `C46_sort_exists`, `C46_samples`, `C46_linear`, `C46_outside`, `C46_range`, `C46_monotone`, `C46_order`, `C46_ties_order_matters`, `C46_argclosest`.
* Outcome: The order np.argsort gives to ties is open; with distinct abscissae the result does not depend on it (C46_order), with ties it does (C46_ties_order_matters).

### C47 argmax_all / argmin_all return exactly the extremal positions — partial

* Model: Model/Interp.
* Proof: List filtering.
* Theorems (`Props/Interp.lean`): `C47_positions_partial`, `C47_nan_empty`.
* Outcome: Proved for arrays of numbers; one NaN makes both return an empty list (C47_nan_empty).

### C48 Batch results do not depend on scheduling — proved

* Model: Model/Batch: workers as arbitrary interleavings of atomic steps on per-file objects and a result queue.
* Proof: Simulation: any interleaving commutes to the sequential run; permutation of rows.
* Theorems (`Props/Batch.lean`): `C48_any_schedule`, `C48_delivered_so_far`, `C48_same_rows`, `C48_failure`, `C48_finishes`, `C48_table`.
* Outcome: Thread pool as arbitrary interleaving of per-file work items over the cached-object model; queue is always a permutation of the per-file outcomes; termination; table equality up to row order

### C49 Batch runs operations and parameters in the documented order — proved

* Model: Model/Batch: preserve_chaining_order; steps in order.
* Proof: Induction over the registered steps on the cache model.
* Theorems (`Props/Batch.lean`): `C49_row`, `C49_sites_chained`, `C49_sites_unordered`, `C49_cell`, `C49_row_columns`, `C49_file_column`.
* Outcome: row = evaluation from scratch on the heights transformed by the preceding operations (via the cache model, for key-faithful classes below the recursion limit)

### C50 Batch registration rules — partial

* Model: Model/Batch: _add_step, parameters, custom parameters, roughness_parameters.
* Proof: Case analysis; negations.
* Theorems (`Props/Batch.lean`): `C50_duplicate_rejected_partial`, `C50_accepted`, `C50_operations_repeat`, `C50_history`, `C50_custom_name`, `C50_fixed_arguments`, `C50_no_steps`, `C50_bulk`, `C50_custom_duplicate_wrong_error`, `C50_bulk_not_atomic`.
* Outcome: violated by custom parameters (AttributeError instead of BatchError) and roughness_parameters is not atomic

### C51 Parameter failures become NaN columns exactly when ignore_errors is set — partial

* Model: Model/Batch: Parameter.calculate_from, error handling.
* Proof: Case analysis; negations.
* Theorems (`Props/Batch.lean`): `C51_failure_single_partial`, `C51_failure_labels_partial`, `C51_values`, `C51_values_columns`, `C51_same_columns`, `C51_not_ignored`, `C51_other_errors_raised`, `C51_cell_nan`, `C51_custom_violates`.
* Outcome: violated by custom parameters (UnboundLocalError); only CalculationError is ignored

### C52 The batch table joins metadata by file — partial

* Model: Model/Batch: data frames as lists of rows, pd.merge inner join.
* Proof: List lemmas.
* Theorems (`Props/Batch.lean, BatchMerge.lean`): `C52_plain`, `C52_join_rows_partial`, `C52_files`, `C52_both_columns`, `C52_join_count`, `C52_shared_columns`, `C52_empty_batch_raises`.
* Outcome: empty batch with additional data raises KeyError (C52_empty_batch_raises)

### C53 Filename templates round-trip — partial

* Model: Model/Filename: template parsing, the regular expression for the item model, matching with backtracking, conversion.
* Proof: Induction over templates; uniqueness of the match.
* Theorems (`Props/Filename.lean`): `C53_token_forms`, `C53_token_malformed_partial`, `C53_token_too_many_parts`, `C53_parse`, `C53_unclosed`, `C53_nested`, `C53_bad_token`, `C53_stray_close`, `C53_regex`, `C53_items`, `C53_unknown_type`, `C53_extracted_occurs`, `C53_matched`, `C53_roundtrip`, `C53_int_value`, `C53_float_value`, `C53_roundtrip_values`, `C53_unmatched`, `C53_columns`.
* Outcome: Parsing of tokens and templates, the generated pattern, extraction, round trip and conversion of field values are proved for every template and name. Partial because the code violates the full property: more than four token parts raise a bare ValueError, a stray closing bracket repeats the previous token, template text is not escaped (literals with regex metacharacters are outside the item model), a name without a match aborts for int columns.

### C54 roughness_parameters evaluates exactly the requested names — proved

* Model: Model/Roughness.
* Proof: Induction over names on the cache model.
* Theorems (`Props/Roughness.lean`): `C54_success`, `C54_failure`, `C54_no_trace`, `C54_default`, `C54_documented`, `C54_documented_refused`.
* Outcome: For every class, history and name list; the exception is exactly that of the first name that is unavailable (ValueError) or whose method raises.

### C55 CLI processing order is fixed and options exclusive — proved

* Model: Model/Cli: click options, order of operations.
* Proof: Case analysis over the option set.
* Theorems (`Props/Cli.lean`): `C55_plan`, `C55_option_order`, `C55_filter_last`, `C55_no_missing`, `C55_unfilled`, `C55_sound_exists`.
* Outcome: For every command line giving each option at most once. Outlier removal is assumed with n >= 1 (n = 0 can remove every point, after which nothing can be filled and the filter raises).

### C56 Unit conversions compose — partial

* Model: Model/Units: lookup table, lower-casing, sanitising by codecs as parameters.
* Proof: Case analysis.
* Theorems (`Props/Units.lean`): `C56_conversion_partial`, `C56_compose`, `C56_writings`, `C56_target_signs`, `C56_faithful_exists`.
* Outcome: str.lower on non-ASCII characters and the codec table are parameters (UnitsSpec.Faithful). Partial: as the target unit the square sign is rejected and Greek mu accepted only through the codec pair.

### C57 Fixed header fields round-trip — partial

* Model: Model/Layout: struct formats, Entry/Reserved/FormatFromPrevious, decode.
* Proof: Induction over layouts; little-endian byte lemmas.
* Theorems (`Props/Layout.lean`): `C57_round_trip_partial`, `C57_offsets`, `C57_text_iff`, `C57_no_short_read`, `C57_reserved`.
* Outcome: Proved for every layout, dictionary and following bytes: fields read back as written, widths and offsets are the declared ones, text reads back iff it does not end in strip characters and is not cut inside a multi-byte character. Missing: text cut in the middle of a multi-byte character is written but cannot be read (C57_text_iff).

### C58 SUR files preserve heights within one quantisation step — partial

* Model: Model/Sur: header layout, writer (quantisation to int32), reader (plain and compressed).
* Proof: Byte-level round trip and error bounds for FloatCodec.Nearest single precision.
* Theorems (`Props/Sur.lean`): `C58_round_trip_partial`, `C58_one_step_partial`, `C58_not_one_step`, `C58_flat`, `C58_flat_missing_lost`, `C58_compressed_unreadable`, `C58_saves`.
* Outcome: Step and midpoint are stored in single precision, so the one-step bound holds only when both are representable (C58_one_step_partial); the general bound has the single-precision terms added; C58_not_one_step, C58_flat_missing_lost and C58_compressed_unreadable prove where the English claim is false of the code.

### C59 SDF files round-trip — partial

* Model: Model/Sdf: binary and ASCII writer and reader.
* Proof: Byte-level round trip.
* Theorems (`Props/Sdf.lean, SdfRead.lean, SdfText.lean`): `C59_round_trip_partial`, `C59_saves`, `C59_too_large`, `C59_no_points`, `C59_ascii_saves`, `C59_ascii_unreadable`, `C59_ascii_heights`, `C59_ascii_header`, `C59_ascii_read`, `C59_ascii_rest`, `C59_ascii_name`.
* Outcome: Binary variant proved (C59_round_trip_partial) to the precision of the stored doubles. The claim is false of the ASCII variant: what the writer produces the reader always rejects (C59_ascii_unreadable, C59_ascii_saves).

### C60 AL3D files round-trip — proved

* Model: Model/Al3d.
* Proof: Byte-level round trip.
* Theorems (`Props/Al3d.lean`): `C60_round_trip`, `C60_offset`.

### C61 TMD files round-trip — partial

* Model: Model/Tmd.
* Proof: Byte-level round trip.
* Theorems (`Props/Tmd.lean`): `C61_round_trip_partial`, `C61_exact`, `C61_comment_too_long`, `C61_ascii`, `C61_saves`, `C61_unreadable`.
* Outcome: Heights are stored in single precision after conversion to millimetres, so the round trip is exact only for representable values (C61_exact); C61_round_trip_partial gives the bound for all. A comment cut inside a multi-byte character is written but not readable (C61_unreadable).

### C62 SFLZ files round-trip — partial

* Model: Model/Sflz.
* Proof: Byte-level round trip, quantisation bounds.
* Theorems (`Props/Sflz.lean`): `C62_round_trip_partial`, `C62_unsigned_partial`, `C62_missing_lost`, `C62_signed_wrong`, `C62_saves`, `C62_no_points`, `C62_names_partial`, `C62_name_violated`, `C62_name_unreadable`, `C62_compressed`, `C62_names_collide`, `C62_dtype_names`.
* Outcome: Float dtypes: size, mask, steps, image layers and heights to the precision of the type, for all surfaces, compressions and both byte orders. Unsigned integers up to 4 bytes without missing points: within one quantisation step; flat surfaces exactly. The code violates the rest: C62_missing_lost (one missing point loses every height with an integer dtype), C62_signed_wrong (every height too low by more than the whole range). 8-byte integers are not covered (2^64-1 is no double; arithmetic here is exact). Layer names beyond ASCII come back cut (C62_names_partial gives what is left, C62_name_violated that it differs) or make the file unreadable (C62_name_unreadable).

### C63 Files are recognised by content when the suffix is wrong — partial

* Model: Model/FileHandler: suffix table, magic numbers, probing, buffers.
* Proof: Case analysis over an arbitrary family of readers.
* Theorems (`Props/FileHandler.lean, SdfText.lean`): `C63_magic_unique`, `C63_asked`, `C63_path_magic`, `C63_path_probe`, `C63_path_iff`, `C63_buffer_magic_partial`, `C63_position_restored`, `C63_position_moved`, `C63_buffer_not_probed`, `C63_buffer_wrong_format`, `C63_plux_shadowed`, `C63_save_path`, `C63_save_format_ignored`, `C63_save_no_suffix`, `C63_save_buffer`, `C63_save_case`, `C63_register`, `C63_register_other`, `C63_register_magic`, `C63_documented`, `C63_documented_writing`.
* Outcome: Paths: the loading decision is characterised completely (C63_path_iff, C63_path_magic, C63_path_probe, C63_asked) for arbitrary readers and the registered suffixes and magic numbers, which are shown to be unambiguous. Buffers: recognised by magic number at the beginning, position restored when no reader failed. The code violates the rest: buffers are never probed (C63_buffer_not_probed), a wrong format argument hides the magic number of a buffer and moves the position (C63_buffer_wrong_format, C63_position_moved), PLUX archives are shadowed by X3P (C63_plux_shadowed), the format argument is ignored when saving to a path (C63_save_format_ignored, C63_save_no_suffix), saving does not lower-case (C63_save_case).

### C64 Readers terminate on truncated input — partial

* Model: Model/Gwy, Fits with fuel (Run: more/fail/done).
* Proof: Measure: bytes left.
* Theorems (`Props/Fits.lean, Gwy.lean, GwyImages.lean`): `C64_gwy_tree`, `C64_gwy`, `C64_fits_header`, `C64_fits_endless`, `C64_fits_violated`, `C64_fits_extensions`, `C64_fits_partial`, `C102_file`.
* Outcome: GWY: parsing any byte string ends within one step more than there are bytes (fuel model, more steps change nothing). FITS: violated – the header loop ends exactly if a block has an END line or cannot be parsed; a file cut off within its header is never finished (C64_fits_endless, C64_fits_violated); otherwise it ends. Other readers have no loops whose end depends on the content (they are total functions in the model).

### C65 GWY containers decode what they encode — partial

* Model: Model/Gwy, GwyRead: containers, choice of channel.
* Proof: Mutual structural induction on trees; order independence.
* Theorems (`Props/Gwy.lean, GwyImages.lean`): `C65_round_trip_partial`, `C65_file_partial`, `C65_long_text_lost`, `C65_order_irrelevant`, `C65_choice`, `C65_found`, `C65_surface`, `C65_leading_zeros_lost`, `C65_repeated`, `C65_other_numbers_lost`.
* Outcome: Round trip of every tree with text below 4096 bytes; longer text is lost (C65_long_text_lost). Height channel independent of the order of entries and of Python's set order; which channel is chosen; heights, steps, mask. Channel numbers with leading zeros cannot be read when there are several (C65_leading_zeros_lost); a number used for a graph or a volume only makes the file unreadable (C65_other_numbers_lost). Image layers: C102.

### C66 Grid formats recover the lateral step — partial

* Model: Model/Xyz, Nms, Dat, Opd, Fits.
* Proof: Reader computed on the layout; negations.
* Theorems (`Props/Dat.lean, Fits.lean, FitsFile.lean, FitsLines.lean, Nms.lean, Opd.lean, Xyz.lean`): `C66_dat`, `C66_dat_reads`, `C66_dat_images`, `C66_dat_invalid_intensity`, `C66_fits_partial`, `C66_fits_unit_y_ignored`, `C66_nms_partial`, `C66_nms_violated`, `C66_nms_reads`, `C66_nms_images`, `C66_xyz_order`, `C66_xyz_partial`, `C66_xyz_violated`, `C66_xyz_transposed`, `C66_xyz_incomplete`, `C66_opd`, `C66_opd_image`, `C66_opd_same_name`, `C66_xyz_no_table`, `C66_fits_file_partial`, `C66_opd_array_size`, `C66_fits_lines_violated`.
* Outcome: DAT: heights and both steps follow the header's scale, obliquity and camera resolution, invalid points exactly (full). OPD: steps, heights and invalid points follow the blocks for files with distinct block names (full); two blocks of one name derail all offsets (C66_opd_same_name). FITS: unit factors for heights and steps; the unit of the second axis is ignored (C66_fits_unit_y_ignored), and a HISTORY line or a value with an equals sign makes the file unreadable (C66_fits_lines_violated). NMS: heights are zmax + raw*(zmax-zmin)/65534, i.e. all lie above the stated range (C66_nms_violated). XYZ: the step is d*(n-1)/n, violated (C66_xyz_violated); the order of the points is not checked (C66_xyz_order/transposed).

### C67 Out-of-range and sentinel values become non-measured points exactly — partial

* Model: all readers.
* Proof: Pointwise characterisation of masked arrays.
* Theorems (`Props/Al3dRead.lean, Dat.lean, Fits.lean, FitsFile.lean, Opd.lean, Os3d.lean, Plu.lean, Plux.lean, Sdf.lean, SurRead.lean, Vk.lean, X3p.lean, Zmg.lean`): `C67_sur`, `C67_sur_compressed`, `C67_al3d`, `C67_sdf_integers`, `C67_sdf_doubles`, `C66_dat`, `C66_opd`, `C67_plu`, `C67_plu_reads`, `C67_plu_images`, `C67_fits_mask_lost`, `C66_fits_file_partial`, `C67_fits_file_mask_lost`, `C80_vk4`, `C80_vk4_info`, `C80_vk4_images`, `C80_vk4_reads`, `C80_vk4_corrupt`, `C80_vk67`, `C82_zmg`, `C82_zmg_reads`, `C82_zmg_magic`, `C83_os3d`, `C83_os3d_reads`, `C83_os3d_magic`, `C84_plux`, `C84_plux_reads`, `C84_plux_info`, `C84_plux_layer`, `C84_plux_images`, `C85_x3p_partial`, `C85_x3p_reads`, `C85_x3p_checksum`, `C85_x3p_members`, `C85_x3p_metadata`, `C85_x3p_violated`, `C67_sur_kinds`.
* Outcome: SUR (plain and compressed), AL3D, SDF (integers, doubles), DAT, OPD, PLU, VK, ZMG, OS3D, PLUX and X3P floating-point heights proved for all raw data (C80, C82-C85). FITS loses the mask when it follows data that fills its blocks exactly (C67_fits_mask_lost); SUR adds the offset in um whatever the unit; X3P integer heights are not scaled (C85_x3p_violated).

### C68 A levelled surface reports its own step parameters — partial

* Model: Model/Stepheight, LevelCache.
* Proof: Negation witnesses.
* Theorems (`Props/LevelCache.lean, Stepheight.lean`): `C68_own_parameters_partial`, `C68_foreign_mask`, `C93_edited_copy_violated`.
* Outcome: Violated by the code: the returned surface carries the mask of the original heights (surface.py:811), witness C68_foreign_mask. The aliasing of two copying calls (the result object itself is cached) is recorded in DESIGN.md.

### C69 depth samples profiles inside the surface — partial

* Model: Model/Depth: profile indices.
* Proof: Integer arithmetic, iff.
* Theorems (`Props/Depth.lean`): `C69_depth_partial`, `C69_two_profiles_fail`, `C69_errors`.
* Outcome: IndexError exactly when (nprofiles-1) divides the number of available profiles; nprofiles=2 always fails (C69_two_profiles_fail), so the property is false of the code.

### C70 Every surface an operation returns can be edited item by item — partial

* Model: Model/Heap: __setitem__.
* Proof: Characterisation of assignments over histories; negation for crop/zoom.
* Theorems (`Props/Editable.lean`): `C70_assignment`, `C70_partial`, `C70_crop_not_editable`, `C70_violated`.
* Outcome: Assignments s[item]=z with integer and slice indices: exact success condition and exact effect for every history (C70_assignment); every surface obtained without crop/zoom/passing .data on is editable (C70_partial). Results of crop and zoom are always read-only, so the property is false for them (C70_crop_not_editable, C70_violated).

### C71 rotate crops to the largest valid rectangle — partial

* Model: Model/FillRotate: crop rectangle.
* Proof: Real geometry.
* Theorems (`Props/Align.lean, FillRotate.lean, RotateWide.lean`): `C71_crop_rectangle`, `C71_crop_indices`, `C71_inside_partial`, `C71_wide_partial`, `C71_wide_violated`, `C71_zero_exists`.
* Outcome: Continuous crop rectangle for the exact bounding size, pixel indices, and (C71_inside_partial) every kept pixel of an array not wider than high shows a place inside the original, however the turned shape is rounded. Violated by wide arrays: the crop is computed from the rounded shape and may keep points off the surface (C71_wide_violated: a flat 11x18 surface at height 1 turned by 73.7 degrees shows a height 0), but never by a pixel or more (C71_wide_partial). Interpolation is idealised.

### C72 Otsu's threshold is optimal, order-free and equivariant — proved

* Model: Model/Stepheight.
* Proof: Optimality over cuts from argmax; affine equivariance of histograms.
* Theorems (`Props/Stepheight.lean`): `C72_optimal`, `C72_affine`, `C72_order`, `C72_threshold_not_cut`.
* Outcome: Optimality is that of the cut at the upper edge of the chosen bin; the returned number is the centre of that bin (C72_threshold_not_cut shows a value classified differently).

### C73 Step levelling subtracts a zero-mean least squares plane of the upper level — proved

* Model: Model/Stepheight, levelPlane.
* Proof: Least squares minimality, sums.
* Theorems (`Props/Stepheight.lean`): `C73_level`, `C73_mean`.
* Outcome: np.linalg.lstsq is a parameter assumed to return a minimiser (exists: C27_solver_exists).

### C74 Functional parameters follow the heights — proved

* Model: Model/Abbott.
* Proof: Affine equivariance through histogram, search and fit.
* Theorems (`Props/Abbott.lean`): `C74_affine`, `C74_sort_exists`.
* Outcome: numpy's sort assumed to depend only on comparisons (satisfiable: C74_sort_exists); n >= 4 classes.

### C75 Sal is defined for every non-flat surface and bounded by the shortest decayed lag — proved

* Model: Model/Autocorr: labelling by 4-connectivity, edge, decay lengths; spline interpolation as parameter.
* Proof: Reachability argument for existence of an edge point; minimal distance.
* Theorems (`Props/Autocorr.lean, Spline.lean`): `C75_sal`, `C75_flat`, `C75_affine`, `C75_spline`.
* Outcome: ndimage.label/binary_dilation modelled by 4-connectivity; of the interpolation along the line only the length (1000) and, for C75_affine, homogeneity is assumed; C75_spline proves both for the cubic spline of map_coordinates.

### C76 The spectral period of a grating is its spatial period — partial

* Model: Model/Fourier.
* Proof: DFT of a cosine by orthogonality of characters.
* Theorems (`Props/Fourier.lean`): `C76_grating_partial`, `C76_period_too_small`.
* Outcome: The period is the grating's period computed with the extents (n-1)*step instead of n*step: C76_period_too_small shows it is off by (n-1)/n for every axis-parallel grating, so the property itself is false of the code.

### C77 depth stays within the range of the heights — proved

* Model: Model/Depth: fit as arbitrary function.
* Proof: Bounds on medians and means.
* Theorems (`Props/Depth.lean`): `C77_depth_bounded`.
* Outcome: For every behaviour of the optimiser.

### C78 depth samples stay inside the profile; the aspect ratio is mean depth over period — proved

* Model: Model/Depth: windows.
* Proof: Index bounds.
* Theorems (`Props/DepthWindow.lean`): `C78_window`, `C78_interval`, `C78_aspect_ratio`, `C78_aspect_ratio_error`.

### C79 Saving is all or nothing — partial

* Model: Model/FileHandler: save.
* Proof: Case analysis; negation.
* Theorems (`Props/FileHandler.lean`): `C79_refused_partial`, `C79_success`, `C79_failed_save_destroys`, `C79_failed_save_buffer`.
* Outcome: Holds for saves refused because of the suffix or format (C79_refused_partial) and for successful saves (C79_success). The code violates the rest: a writer that fails destroys the file, C79_failed_save_destroys; the same for a buffer, whose position moves too, C79_failed_save_buffer.

### C80 VK4, VK6 and VK7 files give the surface their headers describe — proved

* Model: Model/Vk: VK4, VK6/7.
* Proof: Reader computed on layouts.
* Theorems (`Props/Vk.lean`): `C80_vk4`, `C80_vk4_info`, `C80_vk4_images`, `C80_vk4_reads`, `C80_vk4_corrupt`, `C80_vk67`.
* Outcome: Exact arithmetic; PIL/zip decoding of the VK6/7 container as modelled in Model/Vk.

### C81 Title and lens name of VK files come back unchanged — partial

* Model: Model/Vk: texts.
* Proof: UTF-16 / Latin-1 bytes; negations.
* Theorems (`Props/Vk.lean`): `C81_partial`, `C81_utf8`, `C81_violated`.
* Outcome: Only texts of characters below 256 with encoding 'auto' come back (C81_partial); UTF-8 refuses every other character than ASCII (C81_utf8), and characters from 256 to 2047 come back wrong (C81_violated).

### C82 ZMG files give the surface their header describes — proved

* Model: Model/Zmg.
* Proof: Reader computed on layouts.
* Theorems (`Props/Zmg.lean`): `C82_zmg`, `C82_zmg_reads`, `C82_zmg_magic`.
* Outcome: Exact arithmetic; distances that are not finite are an error in the model.

### C83 OS3D files give the surface their header describes — proved

* Model: Model/Os3d.
* Proof: Reader computed on layouts.
* Theorems (`Props/Os3d.lean`): `C83_os3d`, `C83_os3d_reads`, `C83_os3d_magic`.
* Outcome: The threshold is the single-precision number nearest to -3e38.

### C84 PLUX files give the surface their index describes — proved

* Model: Model/Plux: zipfile and XML as parameters.
* Proof: Reader computed.
* Theorems (`Props/Plux.lean`): `C84_plux`, `C84_plux_reads`, `C84_plux_info`, `C84_plux_layer`, `C84_plux_images`.
* Outcome: zipfile, XML parser, date parser are parameters. C84_plux_images: asking for images makes a file without one unreadable (UnboundLocalError).

### C85 X3P files give the surface their document describes, and only if its checksum matches — partial

* Model: Model/X3p.
* Proof: Reader computed; negation for integers.
* Theorems (`Props/X3p.lean`): `C85_x3p_partial`, `C85_x3p_reads`, `C85_x3p_checksum`, `C85_x3p_members`, `C85_x3p_metadata`, `C85_x3p_violated`.
* Outcome: Proved: checksum, sizes, distances, floating-point heights, metadata. Missing: integer heights ignore sign and increment of the vertical axis (C85_x3p_violated).

### C86 surfalize convert converts every file and loses none — partial

* Model: Model/Convert: file system as a map, click command.
* Proof: Induction over the list of files; negations.
* Theorems (`Props/Convert.lean`): `C86_file_partial`, `C86_file_violated`, `C86_dir_partial`, `C86_dir_stops`, `C86_dir_violated`, `C86_same_dir_violated`, `C86_options`.
* Outcome: Proved: one file whose output exists or whose suffix is --format; directories into another directory (last file of a stem wins, the rest of the file system unchanged), and where an unreadable file stops the command. The property itself is false of the code, proved: a new output that is not SUR without --format ends in a TypeError and an empty file, files with the same stem overwrite each other, in-place conversion overwrites a file before it is read.

### C87 A batch made from a directory holds every supported file exactly once — partial

* Model: Model/Convert: globbing.
* Proof: List lemmas for every set order.
* Theorems (`Props/Convert.lean`): `C87_partial`, `C87_append`, `C87_add`, `C87_violated`, `C87_report`.
* Outcome: Proved for suffixes in lower case and every iteration order of the set; order and completeness over any calls; report names. False of the code, proved: a suffix in capitals can be loaded but is not found.

### C88 The refined orientation is the direction of the texture — partial

* Model: Model/Orientation: refined orientation.
* Proof: Slope of unwrapped extrema for an ideal fit; negations.
* Theorems (`Props/Orientation.lean`): `C88_square_partial`, `C88_rows`, `C88_columns`, `C88_rectangular_violated`, `C88_parallel_violated`, `C88_short_violated`, `C88_inside`, `C88_rejects`, `C88_recovers_exists`, `C88_parallel_rows_violated`.
* Outcome: Exact for all gratings on square points with an ideal fit (which is shown to exist), a period of at least ten points, at least five profiles and half a period of drift; never samples outside. False of the code, proved: rectangular points give the angle counted in points, gratings parallel to an axis give NaN (0/0) whatever is fitted, periods below ten points a ZeroDivisionError.

### C89 A saved surface can be loaded again — partial

* Model: Model/SaveLoad: save followed by load through FileHandler.
* Proof: Composition of the round trips with the dispatch theorems.
* Theorems (`Props/SaveLoad.lean`): `C89_path`, `C89_buffer_partial`, `C89_tmd_reused_buffer`, `C89_sound_exists`, `C89_demo_holds`.
* Outcome: Round trip through every writable format (SUR, TMD, AL3D, SDF, SFLZ) by path and by buffer, incl. format dispatch. Fails for TMD written over a longer buffer (C89_tmd_reused_buffer proves it: the reader raises). SFLZ needs no missing points, and all need two different heights (see C58/C62 for the proved failures).

### C90 Functional parameters of profiles mean the same as those of surfaces — proved

* Model: Model/Functional.
* Proof: Permutation invariance of the curve; table of methods.
* Theorems (`Props/Functional.lean`): `C90_same`, `C90_values`, `C90_errors`.
* Outcome: All functional and volume methods of Profile and Surface with defaults, values and errors. Parameters: least squares (IsLstsq), order of ties (IsSort); caching is C01.

### C91 Extraction of CAG archives — partial

* Model: Model/Cag: index regular expressions (greedy matching), zip members as list, file system as map.
* Proof: Induction over members and lines; negations.
* Theorems (`Props/Cag.lean`): `C91_index`, `C91_extract_partial`, `C91_safe`, `C91_errors`, `C91_same_name_violated`, `C91_one_line_violated`, `C91_misaligned_violated`, `C91_windows_violated`, `C91_indexed_example`.
* Outcome: Proved: the index lists identifiers and names line by line; every measurement whose name no later one has is written byte for byte and nothing else changes; path safety for arbitrary archives, also after a failure; errors. Missing because the code violates it: measurements with the same base name overwrite each other, two entries on one line merge, an entry without name shifts all following names, Windows paths are not taken apart on POSIX.

### C92 Batch methods run the surface's methods with the arguments of the call — partial

* Model: Model/BatchCall: Python argument binding, batch_method marks, method resolution order.
* Proof: Equality with a declarative specification of binding; case analysis over the table of operations.
* Theorems (`Props/BatchCall.lean`): `C92_bind`, `C92_call_partial`, `C92_operations_partial`, `C92_positional_violated`, `C92_filter_violated`, `C92_methods`, `opInfo_eq`.
* Outcome: Argument passing is proved equal to a separate specification (C92_bind); availability for every hierarchy (C92_methods); every allowed call of every operation but filter, and of filter with at most three positional arguments, runs with the given arguments in place. False of the code: filter's endeffect_mode given by position, which the displayed signature allows, is a TypeError during execution (C92_filter_violated, C92_positional_violated in general).

### C93 Every call of stepheight_level levels the present heights — partial

* Model: Model/LevelCache: numbered surfaces with cached masks and results.
* Proof: Invariant over histories; negations for every least squares solver.
* Theorems (`Props/LevelCache.lean`): `C93_fresh_partial`, `C93_others`, `C93_second_inplace_noop`, `C93_second_inplace_violated`, `C93_edited_copy_violated`, `C93_copy_of_copy`, `C93_copy_violated`, `C93_package`.
* Outcome: Proved for every history in which, since the last assignment of heights, the surface was not levelled in place or by a call spelled in the same way; a levelling never changes other surfaces. False of the code: a second in-place call does nothing although levelling would change the heights (witness for every solver), a repeated copying call returns the first copy with whatever was done to it, and the copy is levelled with the original's mask.

### C94 The period of a periodic profile is its period — partial

* Model: Model/Period: DFT of a profile, scipy find_peaks (local maxima, distance, prominence), argsort.
* Proof: Spectrum of a sinusoid by orthogonality; loop lemmas for the distance selection and the walks of the prominence.
* Theorems (`Props/Period.lean`): `C94_dominant_partial`, `C94_sinusoid_partial`, `C94_range`, `C94_shallow_violated`, `C94_single_violated`, `C94_single`, `C94_missing`, `C94_profile`, `C94_short`.
* Outcome: Proved for k >= 2 periods that exceed the others and the absolute prominence 10, and for one period when the amplitude is large compared with the offset. Missing because the code violates it: shallow profiles and single periods with an offset raise IndexError (negations proved). Exact DFT; find_peaks modelled from scipy's source.

### C95 Gaussian filtering averages heights — proved

* Model: Model/Gauss: scipy gaussian_filter (continuation beyond the ends, truncated and normalised kernel, one axis after the other).
* Proof: Weights positive with sum 1; sums over a period of the continued axis; case analysis over the end treatments.
* Theorems (`Props/FilterObject.lean, Gauss.lean`): `C95_surface`, `C95_bandpass`, `C95_linear`, `C95_mirror`, `C95_profile`, `C95_small_cutoff`, `C95_constant_pads`, `C95_object`.
* Outcome: scipy.ndimage.gaussian_filter is modelled from its source with exact arithmetic. Findings: cutoffs below about two thirds of the steps, zero and negative cutoffs are accepted and do nothing (C95_small_cutoff); endeffect_mode='constant' assumes zeros beyond the ends, so that flat surfaces do not stay flat (C95_constant_pads); the range and shift statements exclude that mode.

### C96 A filtered wave keeps its shape and the filter as implemented transmits half at the cutoff — proved

* Model: Model/Gauss.
* Proof: Waves are eigenfunctions of the reflected kernel; the factor is estimated by Poisson summation (sampling) and a geometric tail (truncation).
* Theorems (`Props/GaussWave.lean`): `C96_profile`, `C96_surface`, `C96_bands`.
* Outcome: scipy.ndimage.gaussian_filter modelled from its source, exact arithmetic.

### C97 Period, Ssw and orientation measure the strongest wave, whatever noise, units or datum — proved

* Model: Model/Fourier, Spec/Spectrum.
* Proof: The two largest points of the spectrum are the strongest wave and its opposite; Cauchy-Schwarz bounds the spectrum of the deviation; the transform is linear and mirrored with the surface.
* Theorems (`Props/Spectrum.lean`): `C97_dominant_wave`, `C97_noise`, `C97_mirror`, `C97_transpose`, `C97_affine`, `C97_argsort_exists`.
* Outcome: Extents are width_um and height_um, which are one step short of the sampled period (C76). C97_affine assumes that argsort depends on comparisons only (ScaleFree); all others hold for every argsort.

### C98 surfalize report shows the parameters of the processed surface for every file — partial

* Model: Model/Report, Model/Cli, Model/Convert.
* Proof: Loop invariant over the files: reports never have a supported suffix, so that no file to be read is overwritten; rounding to even bounds the text.
* Theorems (`Props/Report.lean`): `C98_number`, `C98_order`, `C98_table`, `C98_file`, `C98_directory`, `C98_stops`, `C98_usage`, `C98_flat_violated`, `C98_ties`, `C98_special`.
* Outcome: Violated in one point: a parameter that is not shown can prevent the report, because all 27 ISO parameters are computed; a flat surface never gets one (C98_flat_violated). Everything else is proved. Layout of the PDF and the plots are not modelled.

### C99 Hybrid parameters do not depend on how the sample lies, on the datum or on the unit — partial

* Model: Model/Areas.
* Proof: Reflection and exchange of the finite sums; square roots are homogeneous; a 2 by 2 surface refutes mirror invariance of the developed area.
* Theorems (`Props/Placement.lean`): `C99_mirror_partial`, `C99_transpose`, `C99_datum`, `C99_unit`, `C99_area_not_mirror_invariant`.
* Outcome: Proved for Sdq, and for surface_area and Sdr under turning, inversion, datum and unit. Mirror invariance of surface_area and Sdr is false in the code (one corner of every cell is ignored): C99_area_not_mirror_invariant.

### C100 Height parameters of profiles follow the heights and do not depend on the direction of reading — partial

* Model: Model/HeightParams, Model/Areas.
* Proof: Splitting commutes with mapping and, for equal sections, with reversal; central moments are homogeneous and order-free.
* Theorems (`Props/ProfileParams.lean`): `C100_affine`, `C100_inverted`, `C100_exchange_partial`, `C100_exchange_one_section`, `C100_exchange_fails`, `C100_reversed_partial`, `C100_direction_matters`.
* Outcome: Datum, unit, inversion (except the exchange of Rp and Rv) and reversal (except Rp, Rv, Rz with sections of unequal length) are proved. Both exceptions are false in the code: C100_exchange_fails (Rv takes the absolute value of the lowest point of a section above the mean line) and C100_direction_matters.

### C101 Summary statistics ignore non-measured points, are ordered and agree with the height parameters — proved

* Model: Model/Stats, Model/BaseOps, Model/HeightParams.
* Proof: The median minimises the sum of absolute distances (pairing of the sorted heights from both ends); the rest by order and moment lemmas.
* Theorems (`Props/Stats.lean`): `C101_defined`, `C101_ignore_missing`, `C101_order`, `C101_affine`, `C101_operations`, `C101_height_parameters`.

### C102 Image layers of a Gwyddion file are exactly its images with the raster of the heights, by title, and asking for them never changes the heights — partial

* Model: Model/GwyImages, Model/GwyRead. Spec/GwyImages.
* Proof: The channel tests are total on files whose height channel was found; induction over the list of image channels with the dictionary as accumulator; independence of the order from the characterisation of the result as a set. Two negations.
* Theorems (`Props/GwyImages.lean`): `C102_heights`, `C102_default`, `C102_images_partial`, `C102_order_partial`, `C102_untitled_violated`, `C102_same_title_violated`, `C102_file`.
* Outcome: Proved for files whose images have titles that differ, and as many values as points; the two failing cases are C102_untitled_violated and C102_same_title_violated. The stored values are modelled as their 64-bit patterns; the float32/uint8 conversion that Image or matplotlib may do is not modelled.

### C103 Parameters in file names become columns row by row, and results are independent of each other — partial

* Model: Model/ResultTable on Model/Filename and Model/Batch.
* Proof: Normal form of a successful extraction as a map over the rows; invariant over histories that no two results share a DataFrame; induction over the recursion limit.
* Theorems (`Props/ResultTable.lean`): `C103_shape`, `C103_kept`, `C103_cells`, `C103_values`, `C103_rowwise`, `C103_twice`, `C103_commute`, `C103_deferred`, `C103_fails_iff`, `C103_template`, `C103_independent`, `C103_source`, `C103_wrap`, `C103_set`, `C103_dataframe`, `C103_attributes`, `C103_copy_violated`, `C103_taken_name_violated`, `C103_misfit_violated`, `C103_not_a_text`, `C103_methods`.
* Outcome: Full statement except the three violated cases (C103_taken_name_violated, C103_misfit_violated, C103_copy_violated). Literal text of templates without regex metacharacters, as in C53; integers beyond 64 bits and pandas column types are not modelled.

### C104 Asking for the image layers never changes the heights — partial

* Model: Model/SurImages, Model/FitsImages, and the readers of the other formats with the flag as a parameter.
* Proof: Case analysis on the run of the reader with images; reading one SUR object from the position where the last ended; invariant of the loop over FITS extensions.
* Theorems (`Props/Dat.lean, FitsImages.lean, GwyImages.lean, ImageLayers.lean, Nms.lean, Plux.lean, SurImages.lean`): `C104_dat`, `C104_nms`, `C104_opd`, `C104_os3d`, `C104_plu`, `C104_plux`, `C104_vk4`, `C104_vk67`, `C104_sflz`, `C104_sur_heights`, `C104_sur_default`, `C104_sur_images`, `C104_sur_kind`, `C104_fits_heights`, `C104_fits_default`, `C104_fits_always`, `C104_fits_images`, `C102_heights`, `C66_dat_invalid_intensity`, `C66_nms_images`, `C84_plux_images`, `C102_untitled_violated`.
* Outcome: The stated direction (images never change the heights) is proved for every format with images and arbitrary bytes, with the contents of the images for SUR and FITS (GWY: C102; DAT, NMS, OPD, OS3D, PLU, VK: C66/C84). Partial: the converse fails - files readable without images may be rejected with them (C66_dat_invalid_intensity, C66_nms_images, C84_plux_images, C102_untitled_violated); FITS is the exception (C104_fits_always).

### C105 Plots show every value at its place — partial

* Model: Model/Plots: the arguments of imshow, plot, barh, Polygon and StructuredGrid.
* Proof: Linear arithmetic: n equal pixels between first and last of n samples contain the samples; shift of the transform; histogram bins.
* Theorems (`Props/Plots.lean`): `C105_heights`, `C105_images`, `C105_points3d`, `C105_profile`, `C105_vertical_profile`, `C105_horizontal_profile_partial`, `C105_crop`, `C105_horizontal_profile_violated`, `C105_cropped_image_violated`, `C105_shadowed_violated`, `C105_detail_partial`, `C105_detail_violated`, `C105_autocorrelation`, `C105_spectrum`, `C105_spectrum_drawn`, `C105_spectrum_data`, `C105_spectrum_limits_partial`, `C105_spectrum_limits_violated`, `C105_spectrum_small_limit_violated`, `C105_bars`, `C105_triangles`, `C105_polar`, `C105_polar_place_partial`, `C105_polar_place_violated`.
* Outcome: violated for: y of horizontal profiles, images after crop in place, an image called Topography, reduced detail of the 3d plot, limits of the spectrum for odd sizes; polar axes in place of axes over several cells

### C106 Metadata and image layers stay with their surface — partial

* Model: Model/Attachments: surfaces refer to dictionary objects; every action of Model/Object on a world of surfaces.
* Proof: Invariants by induction over histories: references exist; references are pairwise different if the caller hands over none; sizes kept by every non-geometric method.
* Theorems (`Props/Attachments.lean`): `C106_load`, `C106_kept`, `C106_isolated_partial`, `C106_shared_violated`, `C106_copies`, `C106_copy_violated`, `C106_raster_partial`, `C106_raster_violated`.
* Outcome: Edits are isolated unless the caller hands one dictionary to two surfaces (C106_shared_violated); copies lose metadata and images (C106_copy_violated); geometric methods in place leave images at the old size (C106_raster_violated).

### C107 Parameters taken from analysis objects are those of the present heights, and an analysis object describes one state of the surface — partial

* Model: Model/Analysis: a surface with its analysis objects, each with the part computed in `__init__` and a method cache (Model/Cache); method bodies of the three classes.
* Proof: Invariant by induction over histories: the remembered object and parameters are those a new object gives; caches only grow; caches of curves contain nothing but values of their curve. Negations on gratings (C76) and on lowered heights (C74).
* Theorems (`Props/Analysis.lean`): `C107_params`, `C107_fourier`, `C107_acf`, `C107_held_partial`, `C107_abbott_kept`, `C107_stale`, `C107_mixed`, `C107_fourier_violated`, `C107_acf_violated`, `C107_abbott_violated`, `C107_render_exists`, `C107_abbott`, `C107_same`, `C107_acf_stale`.
* Outcome: Parameters read from the surface are always those of the present heights (C107_params, for all three classes; C107_fourier and C107_acf spell it out in the functions of C43, C44, C76 and C42, C75), objects answer as new ones until heights are stored (C107_held_partial), curves keep their functional parameters for ever (C107_abbott_kept). Violated for objects held while the heights change (C107_stale, C107_mixed, C107_fourier_violated, C107_acf_violated, C107_abbott_violated).

### C108 Sal and Str do not depend on how the sample lies or on the unit of length — partial

* Model: Model.Autocorr, Props.AutocorrPlace
* Proof: the autocorrelation array of a turned sample is the same array and of a mirrored or transposed one the mirrored or transposed array (pairs of pixels at a lag are in bijection); the connected region around the centre, its edge, the lengths and the values at the edge are carried along (induction over paths), so the same lag is followed unless two lags tie. For ties, which the code breaks by row-major order, the theorems assume that only opposite lags have the same length and the same autocorrelation; the spline along a line is assumed to follow mirroring and transposition of the array
* Theorems (`Props/AutocorrPlace.lean, Spline.lean, SplineTies.lean`): `C108_turn`, `C108_mirror_partial`, `C108_flip_partial`, `C108_transpose_partial`, `C108_unit`, `C108_spline_moves`, `C108_spline_partial`, `C108_ties_violated`.
* Outcome: Turning (C108_turn) and units (C108_unit) are proved for all surfaces. Mirroring and transposing are proved when no two lags, apart from opposite ones, have both the same length and the same autocorrelation (NoTies): the code breaks such ties by the row-major order of the array, which depends on the placement. Without that hypothesis the claim is false: C108_ties_violated gives a sample of 2 × 3 heights whose Str changes when it is mirrored. C108_spline_moves proves for the cubic spline of map_coordinates (Model/SplineLine) what C108_mirror_partial etc. assume of the interpolation; of the spline filter only that the spline interpolates is assumed (satisfiable: exists_interpolates). Inversion and the datum are C75_affine.

### C109 The literal text of a filename template stands for itself — partial

* Model: Model.Regex, Props.Regex
* Proof: Python's re is modelled for the constructs that can occur: a character-by-character parser and a backtracking matcher with continuations. For literal text without special characters the parser yields exactly one item per character and per field (induction over the template), the greedy quantifiers try the lengths in the order of the item model of C53 (induction over the text), hence both searches agree on every file name. The full statement is false: a dot matches any character, brackets, plus signs and names with blanks change or break the expression (proved)
* Theorems (`Props/Regex.lean`): `C109_literal_partial`, `C109_read_partial`, `C109_roundtrip_partial`, `C109_duplicate`, `C109_point_violated`, `C109_brackets_violated`, `C109_plus_violated`, `C109_rejected_violated`.
* Outcome: Proved for literal text without the characters \ . | ( ) [ { ^ $ * + ? and names that are identifiers: the template is accepted and reads exactly the file names that contain the literal text verbatim, under the right names. The full statement is false, and the negation is proved: construct_regex pastes the literal text into the expression without escaping it, so that a dot matches any character (C109_point_violated, for every text before it, every other character and every number), 'sample(1)_<n|int>' does not match 'sample(1)_5', 'a+b_<n|int>' does not match 'a+b_5', 'a)_<n|int>' and '<laser power|int>' raise re.error. Sets, counted repetitions, anchors and lazy quantifiers in literal text are outside of the model of re.

### C110 Cutting out parts composes — partial

* Model: Model.Geometry, Props.Cutting
* Proof: blocks of blocks are blocks and a block is determined by its place; rounding to the nearest pixel commutes with shifts by whole pixels unless a bound lies exactly half-way and the shift is odd (Python rounds halves to even); the indices that a slice selects are an arithmetic progression inside the sequence, and every such progression is selected by a slice. False for half-way bounds and, through C25, for the last row of the cut (both proved)
* Theorems (`Props/Cutting.lean`): `C110_crop_px`, `C110_crop_units_partial`, `C110_slices`, `C110_profile_partial`, `C110_profile_violated`, `C110_crop_units_violated`.
* Outcome: Pixel boxes (C110_crop_px) and slices (C110_slices) in full. Boxes in units: proved unless a bound of the second box lies exactly half-way between two points and the corner of the first is odd; there the claim is false (C110_crop_units_violated: round() goes to the even pixel). Profiles: proved for all rows of the cut but its last, where the code returns only non-measured points for every surface (C110_profile_violated).

### C111 The 3d picture shows the surface from the stated direction and loses nothing that was drawn — partial

* Model: Model/Scene, Props/Scene
* Proof: Camera position over the reals with sine and cosine (Pythagoras); pictures as pixel functions, the renderer, the colour bar and Pillow's resampling are parameters. The bounding box is the least interval of columns with a pixel that is not white (sorted list). Distance from the width alone: the camera stands on the surface when the area is four times as high as wide (C111_narrow_violated).
* Theorems (`Props/Scene.lean`): `C111_camera`, `C111_degrees`, `C111_middle`, `C111_outside_partial`, `C111_narrow_violated`, `C111_crop`, `C111_colorbar`, `C111_save`, `C111_picture`, `C111_grayscale`.
* Outcome: Everything but 'the camera is outside the measured area', which is proved for areas at most three times as high as wide (C111_outside_partial) and false of narrow ones (C111_narrow_violated). Colours, axes box, projection and the renderer are not modelled.

### C112 Batches of buffers: threads and repetition do not change what is loaded — partial

* Model: Model/Threads, Props/Threads
* Proof: Readers are programs of calls on the buffer; FileHandler.read is such a program and refines the model of C63 (C112_load). Machine with one indivisible call per step; the invariant is what each thread would do alone from here (outlook), preserved by every step as long as no two threads have the same buffer. Violated for shared buffers (C112_shared_violated) and after a load that raises, because open_file_like has no finally (C112_again_violated).
* Theorems (`Props/Threads.lean`): `C112_load`, `C112_restored`, `C112_any_schedule`, `C112_finishes`, `C112_threads_partial`, `C112_again_partial`, `C112_shared_violated`, `C112_again_violated`.
* Outcome: Proved for batches without shared buffers under every schedule (C112_any_schedule, C112_threads_partial), and, one after the other, for direct loads that succeed, shared buffers included (C112_again_partial, C112_restored). False of the code, proved: entries that share a buffer get each other's bytes under threads (C112_shared_violated), and a load that raises leaves the buffer elsewhere, so that the same batch executed again loads other data (C112_again_violated).

### C113 Parameters are stable — proved

* Model: `Model/HeightParams`, `Model/Abbott`, `Model/Areas` with `Spec/Stable` (near surfaces and profiles)
* Proof: the extremes, means and order statistics of near lists are near; a triangle inequality for root mean squares; interpolation between near points with the same weights; combined with C89 for files
* Theorems (`Props/Stable.lean`): `C113_height`, `C113_curve`, `C113_area`, `C113_sdq`, `C113_sdr`, `C113_profile`, `C113_sections`, `C113_rq`, `C113_rdq`, `C113_saved`, `C113_sound_exists`, `C113_demo`.
* Outcome: bounds for every named parameter; nothing is claimed for Ssk and Sku, which are ratios of moments

### C114 Operations are stable — proved

* Model: `Model/BaseOps`, `Model/Gauss`, `Model/FillRotate`, `Model/Detrend` with `Spec/Stable`
* Proof: means and extremes of near heights are near; the Gaussian filter is a linear average; the residual of least squares is an orthogonal projection, which does not lengthen differences
* Theorems (`Props/StableOps.lean`): `C114_center`, `C114_zero`, `C114_invert`, `C114_fill`, `C114_filter`, `C114_detrend`, `C114_pick_exists`.
* Outcome: the neighbour search of fill_nonmeasured is assumed to look at positions only (C114_pick_exists)

### C115 Test surfaces give the textbook values — partial

* Model: Spec/TestSurface, Props/TestSurface, Props/TestRamp over Model/HeightParams and Model/Abbott
* Proof: Orthogonality of the sampled waves (sums of roots of unity) for the powers of the sine, closed forms for power sums, and uniqueness of the least squares line for the Abbott-Firestone curve.
* Theorems (`Props/SquareGrating.lean, TestRamp.lean, TestStep.lean, TestSurface.lean, WaveDepth.lean`): `C115_two_levels`, `C115_step`, `C115_wave`, `C115_wave_profile`, `C115_plane`, `C115_profile_slope`, `C115_plane_slope_partial`, `C115_plane_slope_violated`, `C115_ramp_partial`, `C115_ramp_violated`, `C115_square_period`, `C115_square_depth`, `C115_square_aspect_ratio`, `C115_square_period_y`, `C115_square_depth_y`, `C115_wave_depth`.
* Outcome: Violated by the code: Spk and Svk of evenly spaced heights are NaN (0/0) instead of 0 (C115_ramp_violated); Sdq of an inclined plane is below its slope (C115_plane_slope_violated; what it is: C115_plane_slope_partial). Everything else is proved.

### C116 Std and orientation describe the same texture — partial

* Model: Model/Fourier, Model/Angular
* Proof: Both are evaluated on a sampled wave with the transform of the grating (C44, C97) and the directions compared with the arctangent.
* Theorems (`Props/Direction.lean`): `C116_consistent_partial`, `C116_axes`, `C116_violated`.
* Outcome: Proved for every sampled wave: Std is the orientation with the opposite sign modulo 180 degrees, up to angle_step (C116_consistent_partial); both agree for textures along the axes (C116_axes). Missing: agreement for oblique textures, which the code violates (C116_violated).

### C117 A profile drawn out to a surface has the parameters of the profile — partial

* Model: Model/HeightParams, Model/Geometry, Model/Areas, Model/Functional, Model/Fourier, Model/Period; specification Spec/Extruded (RowsAre, ColumnsAre)
* Proof: sums, minima and maxima over copies; slices of equal rows; explicit quantiles; combination of C76 and C94
* Theorems (`Props/Extruded.lean`): `C117_heights`, `C117_profile`, `C117_profile_y`, `C117_slope_violated`, `C117_functional_violated`, `C117_period_violated`.
* Outcome: Height parameters of rows and columns (C117_heights) and extracted profiles with any averaging (C117_profile, C117_profile_y) are those of the profile. The code violates the rest: Sdq is Rdq times sqrt((n-1)/n) (C117_slope_violated), Smc differs from Rmc (C117_functional_violated), the surface period is (n-1)/n times the profile period (C117_period_violated).

### C118 Operations do not depend on how the sample lies, on the unit or on the datum — partial

* Model: `Spec/Lying` (moves of a rectangle, `Laid`, `Rescaled`); the operations are the models of C22-C28, C95, C96
* Proof: statistics are invariant under permutation of the points and equivariant under affine maps; least-squares trends correspond by uniqueness of the minimiser on the measured points; the extension of the ends commutes with reversal; sums of the two axes commute; negations on concrete surfaces for zoom, ties of fill_nonmeasured and zero ends
* Theorems (`Props/Lying.lean, Rescaled.lean`): `C118_center`, `C118_zero`, `C118_invert`, `C118_threshold`, `C118_detrend`, `C118_outliers`, `C118_filter`, `C118_crop`, `C118_zoom_partial`, `C118_zoom_violated`, `C118_fill_partial`, `C118_fill_violated`, `C118_center_units`, `C118_zero_units`, `C118_invert_units`, `C118_threshold_units`, `C118_detrend_units`, `C118_fill_units`, `C118_outliers_units`, `C118_filter_units_partial`, `C118_filter_lateral`, `C118_filter_datum_violated`.
* Outcome: Proved in full for center, zero, invert, threshold, remove_outliers, detrending and crop. zoom by an even number of left-out points keeps one more point on one side (C118_zoom_violated), fill_nonmeasured decides ties by position (C118_fill_violated), and filter with zeros beyond the ends depends on the datum (C118_filter_datum_violated); elsewhere they satisfy it.

### C119 Processing steps that do not interact can be given in any order — partial

* Model: Props/Order.lean, Lemmas/Order.lean
* Proof: datum: equivariance of each operation under a shift (C118); detrend: uniqueness of the least-squares fit and nesting of the polynomial spaces; filters: with symmetric or periodic continuation the continuation of the smoothed axis is the smoothing of the continued axis, so smoothings are commuting linear maps; counterexamples for the other end treatments by explicit kernels of radius 1 and 2
* Theorems (`Props/Order.lean`): `C119_center_zero`, `C119_zero_center`, `C119_detrend_shift`, `C119_center_detrend`, `C119_detrend_detrend`, `C119_filters_partial`, `C119_profile_filters_partial`, `C119_filters_violated`, `C119_center_filter_partial`.
* Outcome: proved for reflect (default), mirror and wrap; for endeffect_mode 'constant' and 'nearest' two low-pass filters do not commute (C119_filters_violated)

### C120 Selecting and assigning heights through masks, lists of indices, slices and ... — partial

* Model: Model/Indexing.lean (numpy's indexing of two-dimensional arrays), Spec/Indexing.lean, Props/Indexing.lean
* Proof: an assignment is a list of writes; the last write to each point counts (induction over the list); selections of slices and masks have no point twice; row-major positions by induction over the rows
* Theorems (`Props/Indexing.lean`): `C120_refused`, `C120_accepted`, `C120_mask`, `C120_mask_array`, `C120_mask_shape`, `C120_slices`, `C120_points`, `C120_points_outside`, `C120_put_back`, `C120_rows`, `C120_mask_rows`, `C120_mask_rows_length`, `C120_no_surface`, `C120_slices_select`, `C120_rows_step_violated`, `C120_ellipsis_steps_violated`, `C120_one_tuple_violated`, `C120_too_many`, `C120_mask_matrix`, `C120_points_repeat`.
* Outcome: Assignments: proved in full. Selections: rows by lists and masks, slices and '...' proved; violated by the code: step sizes of listed rows (C120_rows_step_violated), slices behind '...' scale the wrong axis (C120_ellipsis_steps_violated), tuples of one component and the empty tuple raise IndexError (C120_one_tuple_violated). New axes, index arrays of more than one dimension and Booleans as indices are not modelled.

### C121 Example files behave like the same files on disk — partial

* Model: Model/Examples.lean on Model/FileHandler.lean; the web is a function from addresses to contents that may fail
* Proof: Reduction to the theorems of C63 on buffers and paths.
* Theorems (`Props/Examples.lean`): `C121_listing`, `C121_no_connection`, `C121_load_partial`, `C121_probe_violated`, `C121_misnamed_violated`.
* Outcome: Listing proved; loading proved for files readable in the format of their suffix and for files without suffix that begin with a magic number. Violated: an example is never probed (C121_probe_violated) and a misnamed example is not recognised by its content (C121_misnamed_violated), while the same file on disk is read.

### C122 Unequal pixel sizes are announced — partial

* Model: Model/Construct.lean: the comparison and the warning
* Proof: Ordered-field arithmetic; the last part of the claim is refuted for every ratio of the steps.
* Theorems (`Props/Construct.lean`): `C122_warns`, `C122_scale_violated`.
* Outcome: The condition for the warning is proved. Violated: the tolerance is absolute, so for every ratio of the steps there are surfaces without a warning, and for every ratio other than 1 surfaces with one (C122_scale_violated).

### C123 Registered formats and their groups — proved

* Model: Model/Registry.lean: registrations as a history, dictionaries as association lists that keep the first position and the last value
* Proof: induction over the history; the groups by their key function
* Theorems (`Props/Registry.lean`): `C123_formats`, `C123_groups`, `C123_package`, `C123_writer`.
* Outcome: Functions are known by identity; sets as duplicate-free lists.

### C124 A warning says when a file is not what its name says — partial

* Model: Model/Registry.lean: the warnings of read beside the result modelled in Model/FileHandler.lean; the outcome of each reader is a parameter
* Proof: case analysis on which of the three stages loads the file, using that the magic numbers of the formats exclude one another
* Theorems (`Props/Registry.lean`): `C124_silent`, `C124_warned`, `C124_buffer`, `C124_damaged_partial`, `C124_own_format_violated`.
* Outcome: Violated for damaged FITS, VK6 and VK7 files with the right name: their _suffix is the tuple of suffixes, never equal to the suffix, so a warning says they are of another type. Everything else proved; buffers never warn.

### C125 Step levelling does not depend on how the sample lies, on the unit or on the datum — partial

* Model: Model/Stepheight.lean: levelData with the least-squares solver as a parameter; Spec/Lying.lean: Laid and Rescaled; Spec/StepLevel.lean: three points of the upper level not on one line
* Proof: uniqueness of the fitted plane on the upper level, equivariance of the Otsu threshold; ridges as counterexamples with the solver of least coefficients
* Theorems (`Props/StepLying.lean`): `C125_lying_partial`, `C125_units_partial`, `C125_lying_violated`, `C125_datum_violated`, `C125_solver_exists`.
* Outcome: Proved when the upper level contains three points not on one line. Violated otherwise: numpy's solver returns the plane with the smallest coefficients, which depends on the position of the origin and on the datum (C125_lying_violated, C125_datum_violated); C125_solver_exists shows that the assumptions on the solver can be met.

### C126 The documentation of a batch method describes its parameters — partial

* Model: Model/Docs.lean: the text as lines, the regular expression as a function on them
* Proof: the occurrences of the word and the run of indented lines; induction over the text
* Theorems (`Props/Docs.lean`): `C126_untouched`, `C126_cut`, `C126_entry_partial`, `C126_next_violated`, `C126_prose_violated`.
* Outcome: Proved for entries followed by a line at the left margin or an empty line. Violated: in texts that keep their common indentation (Python before 3.13) all entries that follow directly are lost, as endeffect_mode of filter (C126_next_violated, example); sentences that mention the parameter are cut (C126_prose_violated). C126_cut says exactly what is removed.

### C127 Aligned textures are parallel to the axis — partial

* Model: Model/Align (on Orientation, Fourier, FillRotate), Spec/Align, Props/Align
* Proof: orientation from C97/C88, rotation as documented by scipy with ideal interpolation (`Turned`), the phase gradient of the turned grating along the axis vanishes; crop indices stay inside the array
* Theorems (`Props/Align.lean`): `C127_aligned_partial`, `C127_refined_partial`, `C127_axis`, `C127_stretched_violated`, `C127_rotation_exists`, `C127_errors`.
* Outcome: Proved for every grating on arrays not wider than high (and not too narrow), both axes: coarse method if the surface's width is to its height as the numbers of points; refined (default) method for all steps, under C88's conditions. Violated by the coarse method in all other cases on such arrays (C127_stretched_violated): the angle is measured on the surface but the array is turned as if its points were square, so every oblique grating stays oblique. Wide arrays are not covered (see C71_wide_violated).

## Findings (behaviour of the code the proofs exposed)

Each is a proved theorem unless marked (observed).

*Objects and caching.* Slices and crops share memory with the original, so editing one changes the other and leaves its
cached parameters stale (C05). Returned dictionaries are the cached ones; assigning `step_x` leaves widths and parameters
stale (C06, C04). Crop and zoom results are read-only (C70). `stepheight_level` is cached although it changes the surface: a
second in-place call does nothing, a repeated copying call returns the first copy with whatever was done to it, and the copy
carries the mask of the original (C68, C93). `invert` with one missing point loses every height (C09). Equality is not
transitive and not compatible with the hash (C21). `filter('both')` in place raises (C03). Boxes that end before pixel 0 are
accepted by `crop` (C22). `zoom` keeps one more point on the right and below when the number of points left out is even, so zooming and mirroring do not commute; which of two equally near points fills a missing one depends on the side; with `endeffect_mode='constant'` the filtered heights depend on the datum (C118). With `endeffect_mode='constant'` and `'nearest'` two low-pass filters give different results in different orders (C119). `s[[0, 2]]` keeps `step_y`, `s[..., ::2, ::3]` scales the wrong axis, `s[(key,)]` raises IndexError (C120).

*Profiles.* The last row/column gives NaN, even averaging uses one row more, oblique profiles ignore the offset of the
line (C25, C26). Rz is not Rp + Rv for several sections (C19). `Profile.period` raises IndexError for shallow profiles (the
prominence 10 is absolute; the total deviation must reach 10) and for one period around a height that is not small (C94).

*Objects.* Copies, results of arithmetic and slices have neither metadata nor image layers; crop, zoom, rotate and align in place
leave the image layers as they were; dictionaries handed to the constructor are not copied (C106). An analysis object held while the heights
change mixes both states: a FourierTransform tells the old period and the new dominant wavelength, the Spkx of a curve may be negative (C107). Ties of lags make Sal and Str depend on the placement: the Str of the heights -2, 0, 0; -1, 0, 1 changes when they are mirrored (C108_ties_violated).

*Parameters.* Sdr is positive for every surface including flat ones, plane areas are wrong for unequal steps, the last
corner is ignored (C31). Smr and Smr1 <= Smr2 fail on plateaus (C37, C39); Spk and Svk of evenly spaced heights are NaN instead of 0, Sdq of every inclined plane is below its slope (C115). Sdq, Smc and the period of a profile drawn out to a surface differ from Rdq, Rmc and the period of the profile (C117). Homogeneity:
a flat cell makes it NaN and it is not scale invariant through rounding (C33). Spectral periods are computed with (n-1)*step (C76). `depth` raises IndexError when `nprofiles-1` divides the
number of profiles (C69). A negative fitted period gives negative positions (C45). The refined orientation is NaN for textures
parallel to an axis, raises ZeroDivisionError for short periods and ignores unequal steps (C88). `rotate(0)` drops a row and
a column (C30). Std of an oblique texture is the orientation with the opposite sign (C116). Std, the orientation and the names Smrk1, Smrk2 are listed as supported but refused by `roughness_parameters` (C54). One NaN empties `argmin_all` (C47). The developed area ignores one
corner of every cell, so that mirroring changes it (C99). `Rv` counts the lowest point of a section above the mean line as a
pit; sections of unequal length make `Rp`, `Rv`, `Rz` depend on the direction (C100).

*Examples and construction.* An example file that has no suffix, or the wrong one, is not recognised by its content although the same file on disk is (C121). The warning about unequal
steps has an absolute tolerance: small steps of any ratio pass without a warning (C122).

*Batch and command line.* Custom parameters raise AttributeError/UnboundLocalError, `roughness_parameters` is not atomic,
only CalculationError is ignored, an empty batch with additional data raises KeyError (C50-C52). Template text is not
escaped: dots match anything, brackets and plus signs make it match other names or none (C53, C109); a text field at the end swallows the extension (C53); a field named like a computed parameter replaces it, one
misfitting name makes an integer template fail for all files, results cannot be copied or pickled (C103). `batch.filter` with `endeffect_mode` by position is a TypeError
although the displayed signature allows it (C92). `convert` to a new file without `--format` ends in a TypeError and an
empty file, files with the same stem overwrite each other, conversion within a directory loses files, suffixes in capitals
are not found (C86, C87). A parameter that the report does not show can prevent it; flat surfaces get none (C98). Entries
of a batch that share a buffer read each other's bytes under threads; a load that raises leaves the buffer elsewhere (C112).

*Plots.* The `y` of a horizontal profile counts from the top, that of plots and crops from the bottom; image layers are not
cropped in place with the heights; a layer called "Topography" cannot be shown; reduced detail changes the drawn width;
frequency limits are asymmetric for odd numbers of columns, and small limits fail (C105). The camera of the 3d plot stands on areas more than
four times as high as wide (C111).

*Files.* SUR stores step and offset in single precision, compressed SUR cannot be read back, flat surfaces with missing points
lose everything, the offset is not unit-converted (C58, C67). Text fields cut inside a character are unreadable (C57, C61).
ASCII SDF cannot be read back (C59). SFLZ with signed integers or with integers and missing points is wrong, layer names beyond ASCII are cut or make the file unreadable (C62). Buffers are
never probed; a wrong format hides the magic number; PLUX is shadowed by X3P; saving ignores the format argument for
paths (C63). A damaged FITS, VK6 or VK7 file with the right name warns that it is of another type (C124). A failed save destroys the file (C79). Step levelling with an upper level on one line of points depends on the corner where counting starts and on the datum (C125). The FITS header loop is endless on cut files (C64), the mask extension
is skipped after data that fill their block, UNITY is ignored, a HISTORY line or a value with an equals sign makes the file unreadable (C66, C67). GWY text of 4096 bytes or more derails the parser,
channel numbers with leading zeros are lost, a number used only for a graph or a volume makes the file unreadable (C65); an
untitled image makes it unreadable with images, of two images with one title one is lost at random (C102). XYZ steps are d*(n-1)/n and the order of points is not checked; NMS
heights lie above the stated range; OPD blocks of one name derail all offsets (C66). VK texts beyond Latin-1 are garbled (C81).
PLUX with images requested but absent raises UnboundLocalError (C84). X3P integer heights ignore increment and sign (C85).
TMD written over a longer buffer is unreadable (C89). CAG: equal names overwrite each other, entries on one line merge, an
entry without a name shifts all others, Windows paths are not taken apart (C91). The documentation of batch.filter loses endeffect_mode and part of a sentence (C126). `align(method='fft')` turns pixels by an angle of the surface: every oblique texture stays oblique unless width and height are as the numbers of points (C127). rotate keeps points off the surface (height 0) on some arrays wider than high, because the crop is computed from the rounded shape of the turned array (C71).

## Testing the theorems

`seeded/LOG.jsonl` has one line per wrong program: the definition edited, the edit, the claim it breaks, the theorems whose
proofs failed, and theorems that were added or tightened when an edit survived. Edits that no theorem noticed and that do not
make any English claim false are recorded as such.
