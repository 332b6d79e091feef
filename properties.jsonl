{"id": "C01", "title": "Cached parameters are never stale", "statement": "After any sequence of parameter reads, whole-data assignments, item assignments and in-place operations on a Surface or Profile, reading a cached parameter returns exactly what evaluating it from scratch on the current heights returns.", "quantifier": "all histories of reads and mutations through the API, all methods and argument lists (whose textual form determines the result), all data", "why_tests_cant": "staleness depends on the interleaving of reads and writes; a test samples a handful of interleavings", "anchors": ["surfalize/cache.py:cache", "surfalize/cache.py:CachedInstance.clear_cache", "surfalize/base.py:BaseTopography.__setitem__", "surfalize/surface.py:Surface.data", "surfalize/surface.py:Surface._set_data", "surfalize/profile.py:Profile._set_data"]}
{"id": "C02", "title": "A failed cached evaluation leaves no trace", "statement": "If evaluating a cached parameter raises, nothing is stored: the cache is unchanged, and the same call made again raises again (or succeeds once the data has been repaired).", "quantifier": "all cache states, methods, arguments and data on which evaluation raises", "why_tests_cant": "needs every cache state and every point of failure", "anchors": ["surfalize/cache.py:cache", "surfalize/base.py:no_nonmeasured_points"]}
{"id": "C03", "title": "inplace=True and inplace=False compute the same heights", "statement": "For every operation accepting inplace, the copy returned with inplace=False carries exactly the heights, step sizes and extents that inplace=True leaves in the object, and inplace=False leaves the receiver's heights, steps and cached values untouched.", "quantifier": "all operations with an inplace flag, all arguments, all data", "why_tests_cant": "quantifies over every operation, argument and data array", "anchors": ["surfalize/base.py:BaseTopography.center", "surfalize/base.py:BaseTopography.threshold", "surfalize/surface.py:Surface.zoom", "surfalize/surface.py:Surface.crop", "surfalize/surface.py:Surface.detrend_polynomial", "surfalize/profile.py:Profile.crop"]}
{"id": "C04", "title": "Extents always match the data and the step sizes", "statement": "After construction and after every data assignment, in-place operation, slice, crop or zoom, width_um = (size.x-1)*step_x and height_um = (size.y-1)*step_y.", "quantifier": "all operation sequences on a Surface", "why_tests_cant": "an invariant over unbounded operation histories", "anchors": ["surfalize/surface.py:Surface.__init__", "surfalize/surface.py:Surface.data", "surfalize/surface.py:Surface._set_data", "surfalize/surface.py:Surface._with_data"]}
{"id": "C05", "title": "Distinct Surface objects do not share heights", "statement": "Editing heights of a surface obtained by slicing another surface does not change the other surface, nor make its cached parameters stale.", "quantifier": "all slices, all edits, all histories", "why_tests_cant": "aliasing shows only under specific histories of slicing, caching and editing", "anchors": ["surfalize/surface.py:Surface.__getitem__", "surfalize/surface.py:Surface.crop", "surfalize/base.py:BaseTopography.__setitem__"]}
{"id": "C06", "title": "Returned results are isolated from the cache", "statement": "A value returned by a parameter call can be modified by the caller, and step_x/step_y can be reassigned, without changing what later parameter calls return for unchanged heights (and with new values reflecting the new steps).", "quantifier": "all histories of calls and caller-side modifications", "why_tests_cant": "needs the interleaving of a caller's mutation between two calls", "anchors": ["surfalize/cache.py:cache", "surfalize/surface.py:Surface.stepheight_level", "surfalize/surface.py:Surface.projected_area"]}
{"id": "C07", "title": "center removes exactly the mean", "statement": "center() subtracts the mean of the measured points: the result has mean 0, height differences between any two points are unchanged, the non-measured points are the same, and centering twice equals centering once.", "quantifier": "all height arrays with at least one measured point", "why_tests_cant": "for every array and every pattern of non-measured points", "anchors": ["surfalize/base.py:BaseTopography.center", "surfalize/base.py:BaseTopography.mean"]}
{"id": "C08", "title": "zero shifts the minimum to zero", "statement": "zero() makes the minimum measured height exactly 0, all measured heights non-negative, keeps height differences and non-measured points, and is idempotent.", "quantifier": "all height arrays with at least one measured point", "why_tests_cant": "for every array", "anchors": ["surfalize/base.py:BaseTopography.zero", "surfalize/base.py:BaseTopography.min"]}
{"id": "C09", "title": "invert is an involution on fully measured data", "statement": "On data without non-measured points, invert() keeps minimum and maximum, reverses the order of heights, and invert(invert(s)) = s. Non-measured points stay non-measured and measured points stay measured.", "quantifier": "all height arrays", "why_tests_cant": "for every array and mask; the code violates the second sentence", "anchors": ["surfalize/base.py:BaseTopography.invert"]}
{"id": "C10", "title": "remove_outliers keeps exactly the points within the stated band", "statement": "remove_outliers(n,'mean') keeps a measured point with its value iff it is within n standard deviations of the mean, turns every other point into a non-measured one, never restores one, removes at most a fraction 1/n^2 of the measured points; 'median' keeps a point iff its distance to the median is at most n times the median distance and for n>=1 keeps at least half; any other method raises ValueError.", "quantifier": "all arrays, all n, all method strings", "why_tests_cant": "universal over data and n", "anchors": ["surfalize/base.py:BaseTopography.remove_outliers"]}
{"id": "C11", "title": "threshold removes only the stated material-ratio tails", "statement": "threshold(u,l) leaves surviving heights unchanged, never restores non-measured points, keeps at least one point, removes at most the topmost u% of measured points (plus at most half a sample of rounding) and at most the bottom l% (plus half a sample), removes highest/lowest points only (an interval of heights survives), and raises ValueError iff u+l>=100.", "quantifier": "all arrays with a measured point, all non-negative u,l", "why_tests_cant": "rounding of the ratio and ties make every n and u a separate case", "anchors": ["surfalize/base.py:BaseTopography.threshold", "surfalize/mathutils.py:argclosest"]}
{"id": "C12", "title": "filter modes are validated and complementary", "statement": "filter raises ValueError on unknown modes, on 'both' with inplace, on 'bandpass' without cutoff2 or with cutoff2<=cutoff, and on data with non-measured points; otherwise lowpass+highpass at the same cutoff reproduces the surface, 'both' returns (highpass, lowpass), and 'bandpass' is the lowpass at cutoff followed by the highpass at cutoff2.", "quantifier": "all mode strings, cutoffs, flags, data and any smoothing kernel", "why_tests_cant": "universal over kernels and data", "anchors": ["surfalize/base.py:BaseTopography.filter", "surfalize/filter.py:GaussianFilter.apply"]}
{"id": "C13", "title": "The Gaussian filter transmits 50% at the cutoff wavelength on both axes", "statement": "For every cutoff and step size the Gaussian used has transmission exactly 1/2 at the cutoff wavelength, measured in micrometres along each axis, more than 1/2 for longer and less for shorter wavelengths.", "quantifier": "all positive cutoffs and step sizes, both axes", "why_tests_cant": "a real-analytic identity for all cutoffs", "anchors": ["surfalize/filter.py:GaussianFilter.sigma", "surfalize/filter.py:GaussianFilter.apply"]}
{"id": "C14", "title": "Height parameters obey the ISO ordering", "statement": "For every surface: 0<=Sa<=Sq, Sq^2<=Sp*Sv, Sq<=Sz/2, Sz=Sp+Sv=max-min, Sp,Sv>=0 and Sz=0 iff the surface is flat.", "quantifier": "all non-empty fully measured surfaces", "why_tests_cant": "inequalities for all data", "anchors": ["surfalize/surface.py:Surface.height_parameters"]}
{"id": "C15", "title": "Height parameters are invariant under offset and scale correctly", "statement": "Adding a constant to all heights changes none of Sa,Sq,Sp,Sv,Sz,Ssk,Sku; multiplying heights by c>0 multiplies Sa,Sq,Sp,Sv,Sz by c and keeps Ssk,Sku; inverting swaps Sp and Sv, keeps Sa,Sq,Sz,Sku and negates Ssk.", "quantifier": "all surfaces, offsets, positive factors", "why_tests_cant": "for all data", "anchors": ["surfalize/surface.py:Surface.height_parameters", "surfalize/base.py:BaseTopography.invert"]}
{"id": "C16", "title": "Kurtosis dominates skewness", "statement": "For every non-flat surface Sku >= Ssk^2 + 1, hence Sku >= 1.", "quantifier": "all non-flat surfaces", "why_tests_cant": "an inequality on all data", "anchors": ["surfalize/surface.py:Surface.height_parameters"]}
{"id": "C17", "title": "Height parameters ignore the arrangement of points", "statement": "Any rearrangement of the points (flips, transposition, rotation by 90 degrees, re-slicing of rows) leaves all height parameters, the Abbott curve and the histogram-based step threshold unchanged.", "quantifier": "all surfaces and all permutations of their points", "why_tests_cant": "permutations of arbitrary arrays", "anchors": ["surfalize/surface.py:Surface.height_parameters", "surfalize/abbottfirestone.py:AbbottFirestoneCurve._calculate_curve_raw"]}
{"id": "C18", "title": "Profile sectioning partitions the profile", "statement": "For 1<=n_sections<=size the sampling sections are n_sections non-empty contiguous pieces whose concatenation is the whole centred profile and whose lengths differ by at most one; any other n_sections raises ValueError.", "quantifier": "all profiles, all n_sections", "why_tests_cant": "all sizes and section counts", "anchors": ["surfalize/profile.py:Profile._sectioned_data"]}
{"id": "C19", "title": "Profile height parameters are ordered", "statement": "Ra<=Rq, Rt=max-min, Rz with one section equals Rt, Rz<=Rt and Rp<=max, Rv bounded for every number of sections; and Rz = Rp + Rv.", "quantifier": "all profiles, all section counts", "why_tests_cant": "for all data; the equality Rz=Rp+Rv fails for some data", "anchors": ["surfalize/profile.py:Profile.Ra", "surfalize/profile.py:Profile.Rq", "surfalize/profile.py:Profile.Rz", "surfalize/profile.py:Profile.Rp", "surfalize/profile.py:Profile.Rv", "surfalize/profile.py:Profile.Rt"]}
{"id": "C20", "title": "Surface arithmetic is pointwise and dimension-checked", "statement": "a+b, a-b, a*b, a/b on equally sized surfaces with equal steps act point by point, keep the steps, and mark a point non-measured iff it is in an operand; differing size or step raises ValueError; (a+b)-b = a on measured points; scalar - a = -(a - scalar).", "quantifier": "all surfaces and scalars", "why_tests_cant": "for all data", "anchors": ["surfalize/surface.py:Surface._arithmetic_operation", "surfalize/surface.py:Surface.__add__", "surfalize/surface.py:Surface.__rsub__"]}
{"id": "C21", "title": "Surface equality is reflexive, symmetric, mask-aware and compatible with hash", "statement": "s==s holds; a==b iff b==a; a==b implies equal steps, size and non-measured mask and heights within 1e-10; equality is an equivalence and equal surfaces have equal hashes.", "quantifier": "all pairs and triples of surfaces", "why_tests_cant": "all data incl. non-measured points; transitivity and the hash contract fail", "anchors": ["surfalize/surface.py:Surface.__eq__", "surfalize/surface.py:Surface.__hash__"]}
{"id": "C22", "title": "crop returns exactly the requested rectangle", "statement": "crop(box) in pixels with 0<=x0<=x1<=nx-1 and 0<=y0<=y1<=ny-1 yields the (y1-y0+1) x (x1-x0+1) block with each point equal to the original at the offset; in units it selects the columns nearest x0,x1 and rows counted from the bottom; any box not inside the surface raises ValueError.", "quantifier": "all surfaces, all boxes", "why_tests_cant": "all boxes incl. negative, reversed and out of range ones", "anchors": ["surfalize/surface.py:Surface.crop"]}
{"id": "C23", "title": "zoom keeps a centred window", "statement": "zoom(f) with f>=1 keeps a contiguous centred block of the surface, at most one pixel larger than size/f on each axis, margins differing by at most one pixel; zoom(1) is the identity.", "quantifier": "all surfaces and factors", "why_tests_cant": "integer truncation makes each size/factor a case; factors below 1 break it", "anchors": ["surfalize/surface.py:Surface.zoom", "surfalize/profile.py:Profile.zoom"]}
{"id": "C24", "title": "Slicing scales the step sizes", "statement": "s[::k] and s[a:b:k, c:d:m] keep the points selected by Python slicing with step sizes multiplied by the slice steps, so that every kept point keeps its physical distance to the others.", "quantifier": "all surfaces, all slices with positive steps", "why_tests_cant": "all slices", "anchors": ["surfalize/surface.py:Surface.__getitem__"]}
{"id": "C25", "title": "Horizontal and vertical profiles hit the requested row/column", "statement": "For y on the grid (y = i*step_y, 0<=i<ny) get_horizontal_profile(y) returns exactly row i; for any 0<=y<=height_um it returns a row of the surface; average=k averages k rows.", "quantifier": "all surfaces, positions and averaging settings", "why_tests_cant": "position scaling interacts with truncation for every size; the last row and even averages fail", "anchors": ["surfalize/surface.py:Surface.get_horizontal_profile", "surfalize/surface.py:Surface.get_vertical_profile"]}
{"id": "C26", "title": "Oblique profiles run from the start to the end point", "statement": "get_oblique_profile(x0,y0,x1,y1) samples the surface along the segment from (x0,y0) to (x1,y1) for every pair of distinct points inside the surface.", "quantifier": "all surfaces and pairs of points", "why_tests_cant": "all point pairs; false unless the line passes through the origin", "anchors": ["surfalize/surface.py:Surface.get_oblique_profile"]}
{"id": "C27", "title": "level/detrend split the surface into trend plus residual", "statement": "detrend_polynomial returns residual and trend with residual+trend = original at every measured point, keeps the non-measured mask, and is the least-squares choice: no polynomial surface of the degree leaves a smaller sum of squared residuals.", "quantifier": "all surfaces, degrees and masks", "why_tests_cant": "an optimality claim over all polynomials and data", "anchors": ["surfalize/surface.py:Surface.detrend_polynomial", "surfalize/surface.py:Surface.level", "surfalize/profile.py:Profile.detrend_polynomial"]}
{"id": "C28", "title": "Detrending is idempotent and blind to added polynomials", "statement": "Detrending an already detrended surface changes nothing; adding any polynomial surface of the degree first gives the same detrended surface; for full-rank data the residual has mean 0.", "quantifier": "all surfaces, degrees, polynomials", "why_tests_cant": "for all polynomials and data", "anchors": ["surfalize/surface.py:Surface.detrend_polynomial"]}
{"id": "C29", "title": "fill_nonmeasured keeps measured points and fills the rest", "statement": "fill_nonmeasured('nearest') keeps every measured height, leaves no non-measured point (when one point is measured), fills only with heights that occur, and on fully measured data returns the object itself.", "quantifier": "all surfaces", "why_tests_cant": "all masks", "anchors": ["surfalize/surface.py:Surface.fill_nonmeasured", "surfalize/profile.py:Profile.fill_nonmeasured"]}
{"id": "C30", "title": "rotate by 0 is the identity; aspect ratio and extent are preserved", "statement": "rotate(0) returns the same surface, and rotation by multiples of 180 degrees keeps size and steps.", "quantifier": "all surfaces", "why_tests_cant": "all sizes; the code drops the outermost row and column", "anchors": ["surfalize/surface.py:Surface.rotate"]}
{"id": "C31", "title": "Developed area parameters", "statement": "For every surface the developed area is at least the projected area, so Sdr>=0, with Sdr=0 exactly for flat surfaces; surface_area of a tilted plane is its true area.", "quantifier": "all surfaces, steps", "why_tests_cant": "all data and steps; projected_area is computed on a smaller grid than surface_area", "anchors": ["surfalize/surface.py:Surface.surface_area", "surfalize/surface.py:Surface.projected_area", "surfalize/surface.py:Surface.Sdr"]}
{"id": "C32", "title": "Root-mean-square gradient", "statement": "Sdq is invariant under offset, scales linearly with heights, is 0 iff the surface is flat and is never above the rms slope over the existing point pairs.", "quantifier": "all surfaces", "why_tests_cant": "all data", "anchors": ["surfalize/surface.py:Surface.Sdq", "surfalize/profile.py:Profile.Rdq"]}
{"id": "C33", "title": "Homogeneity is a Gini-type index in [0,1]", "statement": "homogeneity of non-negative cell values with positive sum lies in (0,1], equals 1 iff all cells are equal, does not depend on the order of cells nor on scaling the values by a positive factor.", "quantifier": "all cell value lists", "why_tests_cant": "inequality over all lists", "anchors": ["surfalize/surface.py:Surface.homogeneity"]}
{"id": "C34", "title": "Step height and Otsu threshold separate two non-empty classes", "statement": "The Otsu threshold lies between minimum and maximum; for non-constant data both classes are non-empty, every upper point is above every lower point, and stepheight() >= 0.", "quantifier": "all non-constant data", "why_tests_cant": "all data", "anchors": ["surfalize/mathutils.py:otsu_threshold", "surfalize/surface.py:Surface._stepheight_get_mask", "surfalize/surface.py:Surface.stepheight"]}
{"id": "C35", "title": "Cavity volume", "statement": "cavity_volume(threshold) is non-negative for threshold>=0, non-increasing in the threshold, and scales with step_x*step_y.", "quantifier": "all surfaces, thresholds", "why_tests_cant": "all data", "anchors": ["surfalize/surface.py:Surface.cavity_volume"]}
{"id": "C36", "title": "The material ratio curve is monotone with exact end points", "statement": "The Abbott-Firestone height curve is non-increasing in the material ratio, starts at the maximum height and ends at the minimum height, and depends only on the multiset of heights; data with non-measured points raises ValueError.", "quantifier": "all fully measured data", "why_tests_cant": "all data", "anchors": ["surfalize/abbottfirestone.py:AbbottFirestoneCurve._calculate_curve_raw", "surfalize/abbottfirestone.py:AbbottFirestoneCurve.__init__"]}
{"id": "C37", "title": "Smr and Smc are monotone and inverse to each other", "statement": "Smc(p) is non-increasing in p and bounded by max and min; Smr(c) is non-increasing in c, is 0 above the maximum and 100 below the minimum; Smr(Smc(p)) = p and Smc(Smr(c)) = c inside the range.", "quantifier": "all data, ratios and heights", "why_tests_cant": "all curves; plateaus of equal height break Smr", "anchors": ["surfalize/abbottfirestone.py:AbbottFirestoneCurve.Smr", "surfalize/abbottfirestone.py:AbbottFirestoneCurve.Smc", "surfalize/mathutils.py:interp1d"]}
{"id": "C38", "title": "The 40% secant search terminates and picks the flattest secant", "statement": "The search for the equivalent straight line always terminates, its window has width at least 40% of material ratio, and no other 40% window on the grid has a larger (less steep) secant slope, the first such being chosen.", "quantifier": "all curves", "why_tests_cant": "a loop over all curves", "anchors": ["surfalize/abbottfirestone.py:AbbottFirestoneCurve._calculate_curve"]}
{"id": "C39", "title": "Functional parameters Sk, Spk, Svk are non-negative and Smr1<=Smr2", "statement": "Sk>=0; Smr1<=Smr2; Spkx and Svkx are the distances of the extreme heights to the core; Sak1 = Spk*Smr1/2 is the hill area.", "quantifier": "all data", "why_tests_cant": "all data", "anchors": ["surfalize/abbottfirestone.py:AbbottFirestoneCurve.Sk", "surfalize/abbottfirestone.py:AbbottFirestoneCurve.Spk", "surfalize/abbottfirestone.py:AbbottFirestoneCurve.Svk"]}
{"id": "C40", "title": "Sdc/Sxp are height differences of the curve", "statement": "Sdc(p,q) = Smc(p)-Smc(q) >= 0 for p<=q, Sdc(p,r)=Sdc(p,q)+Sdc(q,r), never above Sz; Sxp equals Sdc with its defaults.", "quantifier": "all data, all ratios", "why_tests_cant": "all data and ratios", "anchors": ["surfalize/abbottfirestone.py:AbbottFirestoneCurve.Sdc", "surfalize/surface.py:Surface.Sxp"]}
{"id": "C41", "title": "Volume parameters are non-negative and consistent", "statement": "Vm(p)>=0 non-decreasing and Vv(p)>=0 non-increasing in p; Vmp=Vm(p), Vvv=Vv(q), Vmc(p,q)=Vm(q)-Vm(p)>=0, Vvc(p,q)=Vv(p)-Vv(q)>=0 for p<=q.", "quantifier": "all data, ratios", "why_tests_cant": "all data and ratios", "anchors": ["surfalize/abbottfirestone.py:AbbottFirestoneCurve.Vm", "surfalize/abbottfirestone.py:AbbottFirestoneCurve.Vv", "surfalize/base.py:BaseTopography.Vmc"]}
{"id": "C42", "title": "The autocorrelation is symmetric with its maximum at the origin", "statement": "The autocorrelation has value Sq^2 at zero shift, is symmetric under reversing the shift, and the (overlap-weighted) correlation never exceeds the zero-shift value in magnitude; data with non-measured points raises ValueError.", "quantifier": "all surfaces, all shifts", "why_tests_cant": "all data and shifts", "anchors": ["surfalize/autocorrelation.py:AutocorrelationFunction"]}
{"id": "C43", "title": "Fourier period, direction and orientation agree", "statement": "The spectral period p and its axis periods px,py satisfy 1/p^2 = 1/px^2+1/py^2 (infinite axis period contributing 0), the orientation lies in (-90,90] and is perpendicular to the wave vector.", "quantifier": "all peak positions", "why_tests_cant": "all peak positions", "anchors": ["surfalize/fourier.py:FourierTransform"]}
{"id": "C44", "title": "The angular power spectrum conserves power; Std is a direction", "statement": "Every off-centre spectral component is counted in exactly one angular bin (bin indices are always in range), the bins sum to the total power, and Std is in [0,180).", "quantifier": "all spectra, all step sizes", "why_tests_cant": "all spectra; boundary angles", "anchors": ["surfalize/fourier.py:FourierTransform._angular_spectrum", "surfalize/fourier.py:FourierTransform.Std"]}
{"id": "C45", "title": "Sinusoid normalisation and extrema", "statement": "A fit with negative amplitude is reported with positive amplitude and describes the same function; first_extremum() is an extremum in [0, period/2), the first for x>=0; first_peak() is a maximum in [0, period), the first for x>=0.", "quantifier": "all amplitudes, periods, offsets", "why_tests_cant": "real-valued for all parameters; negative periods break the range", "anchors": ["surfalize/mathutils.py:Sinusoid.from_fit", "surfalize/mathutils.py:Sinusoid.first_extremum", "surfalize/mathutils.py:Sinusoid.first_peak"]}
{"id": "C46", "title": "Linear interpolation and nearest search", "statement": "interp1d passes through its sample points, is piecewise linear between neighbours, stays within the range of the sampled values and is monotone if the samples are, independent of the order in which the samples are given; argclosest returns the first index whose value is nearest.", "quantifier": "all sample lists and queries", "why_tests_cant": "all inputs", "anchors": ["surfalize/mathutils.py:interp1d", "surfalize/mathutils.py:argclosest", "surfalize/mathutils.py:closest"]}
{"id": "C47", "title": "argmax_all / argmin_all return exactly the extremal positions", "statement": "They return, in increasing order, exactly the indices at which the array attains its maximum (minimum), never an empty list for non-empty input.", "quantifier": "all arrays", "why_tests_cant": "all arrays", "anchors": ["surfalize/mathutils.py:argmax_all", "surfalize/mathutils.py:argmin_all"]}
{"id": "C48", "title": "Batch results do not depend on scheduling", "statement": "Whatever order worker processes finish in, the batch result table has the same rows as sequential processing, one per file, each row depending on its own file only.", "quantifier": "all completion orders, file lists, steps", "why_tests_cant": "schedules", "anchors": ["surfalize/batch.py:Batch._disptach_tasks", "surfalize/batch.py:_task"]}
{"id": "C49", "title": "Batch runs operations and parameters in the documented order", "statement": "With preserve_chaining_order every parameter is evaluated on the surface as transformed by exactly the operations registered before it; without it all operations run before all parameters; operations are always applied in registration order.", "quantifier": "all step sequences", "why_tests_cant": "all sequences", "anchors": ["surfalize/batch.py:_task", "surfalize/batch.py:Batch.execute"]}
{"id": "C50", "title": "Batch registration rules", "statement": "Registering two parameters with the same name raises BatchError and leaves the batch unchanged, distinct names (custom_name) are accepted, operations may repeat, and executing with no step raises BatchError.", "quantifier": "all registration sequences", "why_tests_cant": "all histories", "anchors": ["surfalize/batch.py:Batch._add_step", "surfalize/batch.py:Batch.execute"]}
{"id": "C51", "title": "Parameter failures become NaN columns exactly when ignore_errors is set", "statement": "A parameter whose calculation fails yields NaN under every one of its column names when errors are ignored and propagates otherwise; multi-value parameters yield one column per label; wrong label counts raise BatchError; custom parameters behave the same.", "quantifier": "all parameters, labels, outcomes", "why_tests_cant": "all outcomes; custom parameters violate it", "anchors": ["surfalize/batch.py:_Parameter.calculate_from", "surfalize/batch.py:_CustomParameter.calculate_from"]}
{"id": "C52", "title": "The batch table joins metadata by file", "statement": "The result table has a row for a file iff the file was processed and (when additional data is given) has an entry there, with both sets of columns.", "quantifier": "all result lists and additional tables", "why_tests_cant": "all tables", "anchors": ["surfalize/batch.py:Batch._construct_dataframe"]}
{"id": "C53", "title": "Filename templates round-trip", "statement": "Parsing a template built from literal text and tokens recovers exactly the tokens and literals in order; a filename rendered from the template with field values yields those values back; malformed tokens raise ParsingError.", "quantifier": "all templates, all field values without separator characters", "why_tests_cant": "unbounded strings", "anchors": ["surfalize/batch.py:FilenameParser", "surfalize/batch.py:_Token.extract"]}
{"id": "C54", "title": "roughness_parameters evaluates exactly the requested names", "statement": "It returns one entry per distinct requested name in first-occurrence order, each equal to calling the method, and raises ValueError iff a name is not available.", "quantifier": "all name lists", "why_tests_cant": "all lists", "anchors": ["surfalize/base.py:BaseTopography.roughness_parameters"]}
{"id": "C55", "title": "CLI processing order is fixed and options exclusive", "statement": "The command line applies requested operations in one documented order independent of option order, fills again after thresholding or outlier removal so that later filters never see missing points, and rejects combinations of exclusive filter options.", "quantifier": "all option combinations", "why_tests_cant": "all combinations", "anchors": ["surfalize/cli.py:perform_surface_operations", "surfalize/cli.py:common_options"]}
{"id": "C56", "title": "Unit conversions compose", "statement": "get_unit_conversion(a,a)=1, conv(a,b)*conv(b,c)=conv(a,c), conv(a,b)*conv(b,a)=1 for all known units in any capitalisation and with either micro sign; unknown units raise ValueError.", "quantifier": "all unit strings", "why_tests_cant": "all strings", "anchors": ["surfalize/file/common.py:get_unit_conversion"]}
{"id": "C57", "title": "Fixed header fields round-trip", "statement": "A header written by a Layout and read back yields the written values: integers in range exactly, strings up to trailing spaces/NULs and truncation to the field width; every field occupies its declared width, so following fields are never shifted.", "quantifier": "all layouts, all values in range", "why_tests_cant": "all layouts and values", "anchors": ["surfalize/file/common.py:Layout", "surfalize/file/common.py:Entry"]}
{"id": "C58", "title": "SUR files preserve heights within one quantisation step", "statement": "Saving as SUR and loading returns the same size, steps and non-measured mask, every measured height within (max-min)/(2^32-4) of the original, min and max included; constant surfaces survive too; and the compressed variant reads back as the same surface.", "quantifier": "all surfaces", "why_tests_cant": "all data; compressed and constant cases fail", "anchors": ["surfalize/file/sur.py:write_sur", "surfalize/file/sur.py:read_sur"]}
{"id": "C59", "title": "SDF files round-trip", "statement": "Saving as SDF (binary or ASCII) and loading returns the same size, non-measured points, and the heights and steps to the precision of the stored double-precision numbers; more than 65535 points per axis raise an error.", "quantifier": "all surfaces up to 65535 points per axis", "why_tests_cant": "all data; the ASCII variant is never readable", "anchors": ["surfalize/file/sdf.py:write_sdf", "surfalize/file/sdf.py:read_sdf"]}
{"id": "C60", "title": "AL3D files round-trip", "statement": "Saving as AL3D and loading returns the same size and non-measured points, heights to single precision and steps to double precision; the heights begin where the header says and the reader looks for them.", "quantifier": "all surfaces", "why_tests_cant": "all sizes", "anchors": ["surfalize/file/al3d.py:write_al3d", "surfalize/file/al3d.py:read_al3d"]}
{"id": "C61", "title": "TMD files round-trip", "statement": "Saving as TMD and loading returns the same size and non-measured points and heights and steps to single precision; comments that do not fit raise ValueError.", "quantifier": "all surfaces", "why_tests_cant": "all sizes and comments", "anchors": ["surfalize/file/tmd.py:write_tmd", "surfalize/file/tmd.py:read_tmd"]}
{"id": "C62", "title": "SFLZ files round-trip", "statement": "Saving as SFLZ with any dtype and compression and loading returns the same size, steps, mask and heights (exactly for floats, within one quantisation step for integer dtypes), and the image layers with their names, shapes and values (violated for names beyond ASCII: the name is cut to as many bytes as it has characters, or the file becomes unreadable).", "quantifier": "all surfaces, dtypes, compressions", "why_tests_cant": "all data, all names; signed integers, missing points and names beyond ASCII fail", "anchors": ["surfalize/file/sflz.py:write_sflz", "surfalize/file/sflz.py:read_sflz"]}
{"id": "C63", "title": "Files are recognised by content when the suffix is wrong", "statement": "Loading a valid file with a missing or wrong suffix or format, from a path or a buffer, finds the format by its magic number or by probing; a buffer position is restored; saving to a path uses the format argument over the suffix.", "quantifier": "all inputs, formats, positions", "why_tests_cant": "all reader outcomes", "anchors": ["surfalize/file/common.py:FileHandler"]}
{"id": "C64", "title": "Readers terminate on truncated input", "statement": "Reading any byte string with any reader terminates with a surface or an exception.", "quantifier": "all byte strings", "why_tests_cant": "all byte strings; the FITS header loop does not terminate", "anchors": ["surfalize/file/fits.py:read_header", "surfalize/file/gwy.py:Container"]}
{"id": "C65", "title": "GWY containers decode what they encode", "statement": "Any container tree encoded in the GWY format is decoded to the same tree, and the height channel chosen does not depend on the order of entries.", "quantifier": "all container trees", "why_tests_cant": "unbounded nesting", "anchors": ["surfalize/file/gwy.py:Container", "surfalize/file/gwy.py:Component"]}
{"id": "C66", "title": "Grid formats recover the lateral step", "statement": "Importing an XYZ grid with spacing d in x and y yields step d; importing FITS/NMS/DAT/OPD scales heights and steps by the unit factors stated in the header.", "quantifier": "all grids", "why_tests_cant": "all sizes; XYZ is off by n/(n-1)", "anchors": ["surfalize/file/xyz.py:read_xyz", "surfalize/file/nms.py:read_nms", "surfalize/file/dat.py:read_dat", "surfalize/file/opd.py:read_opd"]}
{"id": "C67", "title": "Out-of-range and sentinel values become non-measured points exactly", "statement": "Readers mark a point non-measured iff the file stores the format's invalid sentinel there, and scale all others linearly.", "quantifier": "all raw data", "why_tests_cant": "all raw data", "anchors": ["surfalize/file/sur.py:read_sur", "surfalize/file/dat.py:read_dat", "surfalize/file/plu.py:read_plu"]}
{"id": "C68", "title": "A levelled surface reports its own step parameters", "statement": "stepheight(), the upper/lower medians and cavity_volume() of the surface returned by stepheight_level() are those computed from its own heights, as for any other surface with these heights, and two copying calls return two independent surfaces.", "quantifier": "all surfaces", "why_tests_cant": "Only histories mixing step levelling with later evaluations show a mask or object carried over through the cache.", "anchors": ["surfalize/surface.py:Surface.stepheight_level", "surfalize/cache.py:CachedInstance.create_cache_entry"]}
{"id": "C69", "title": "depth samples profiles inside the surface", "statement": "depth() with nprofiles>=2 samples only existing rows: every index nprofiles-fold spacing it uses is below the number of rows.", "quantifier": "all sizes and numbers of profiles", "why_tests_cant": "The failing index arithmetic occurs only for particular combinations of size and number of profiles.", "anchors": ["surfalize/surface.py:Surface.depth"]}
{"id": "C70", "title": "Every surface an operation returns can be edited item by item", "statement": "For every surface s returned by an operation (or after an in-place operation) s[i,j]=x succeeds for in-range indices and changes exactly that height.", "quantifier": "all surfaces, operations, indices", "why_tests_cant": "Whether the underlying array is writable depends on the operation history.", "anchors": ["surfalize/base.py:BaseTopography.__setitem__", "surfalize/surface.py:Surface.crop", "surfalize/surface.py:Surface.zoom"]}
{"id": "C71", "title": "rotate crops to the largest valid rectangle", "statement": "The crop rectangle of rotate has the aspect ratio of the original, contains only points of the rotated original, is the largest such centred rectangle, and the pixels kept lie inside it and inside the array.", "quantifier": "all shapes and angles", "why_tests_cant": "Holds for a continuum of angles and all shapes.", "anchors": ["surfalize/surface.py:Surface.rotate"]}
{"id": "C72", "title": "Otsu's threshold is optimal, order-free and equivariant", "statement": "otsu_threshold(values, nbins) returns a threshold taken from the histogram cut with the largest between-class variance among all cuts at bin edges; it does not depend on the order of the values, and scaling (by a>0) and shifting the values scales and shifts the threshold.", "quantifier": "all non-constant finite value lists, all nbins >= 2", "why_tests_cant": "optimality over all cuts for all data", "anchors": ["surfalize/mathutils.py:otsu_threshold"]}
{"id": "C73", "title": "Step levelling subtracts a zero-mean least squares plane of the upper level", "statement": "stepheight_level() subtracts from every height a plane in the pixel coordinates whose mean over the grid is zero and which, up to a constant, is a least squares plane of the points of the upper level; the mean height of a fully measured surface is unchanged.", "quantifier": "all non-empty surfaces, all least squares solvers", "why_tests_cant": "optimality among all planes for all data", "anchors": ["surfalize/surface.py:Surface.stepheight_level"]}
{"id": "C74", "title": "Functional parameters follow the heights", "statement": "Adding a constant to all heights and multiplying them by a positive factor a multiplies Sk, Spk, Svk, Spkx, Svkx and all volume parameters by a, leaves Smr1 and Smr2 unchanged and transforms Smc and Smr(c) accordingly.", "quantifier": "all fully measured data, all offsets and positive factors", "why_tests_cant": "all data, offsets and factors", "anchors": ["surfalize/abbottfirestone.py:AbbottFirestoneCurve._calculate_curve", "surfalize/surface.py:Surface.Sk"]}
{"id": "C75", "title": "Sal is defined for every non-flat surface and bounded by the shortest decayed lag", "statement": "For every fully measured non-flat surface and 0 <= s < 1, Sal and Str are computed without error; 0 <= Sal <= the length of the shortest lag at which the autocorrelation is at most s times its value at the origin; shifting or rescaling the heights changes neither; a flat surface raises ValueError.", "quantifier": "all fully measured surfaces, all step sizes, all s in [0,1)", "why_tests_cant": "existence of a decayed lag and minimality must hold for every surface", "anchors": ["surfalize/autocorrelation.py:AutocorrelationFunction._calculate_decay_lengths", "surfalize/autocorrelation.py:AutocorrelationFunction.Sal", "surfalize/autocorrelation.py:AutocorrelationFunction.Str"]}
{"id": "C76", "title": "The spectral period of a grating is its spatial period", "statement": "For a cosine grating with whole periods over the measured area, sampled above the Nyquist limit, period(), period_x_y() and Ssw() return the spatial period of the grating and its axis components, and orientation() its direction, independently of offset, amplitude and phase.", "quantifier": "all gratings: amplitude, offset, phase, integer frequencies, sizes and step sizes", "why_tests_cant": "an exact statement about all sizes and phases; the (n-1)/n bias of the extent is hidden by test tolerances", "anchors": ["surfalize/fourier.py:FourierTransform._get_peak_dx_dy", "surfalize/fourier.py:FourierTransform.period", "surfalize/fourier.py:FourierTransform.dominant_wavelength"]}
{"id": "C77", "title": "depth stays within the range of the heights", "statement": "Whenever depth() returns numbers, mean and standard deviation lie between 0 and the peak-to-valley height of the surface.", "quantifier": "all surfaces, numbers of profiles, sampling widths and results of the sinusoid fits (including negative fitted periods)", "why_tests_cant": "must hold for whatever the optimiser returns", "anchors": ["surfalize/surface.py:Surface.depth"]}
{"id": "C78", "title": "depth samples stay inside the profile; the aspect ratio is mean depth over period", "statement": "Every number that depth() averages is the height difference of a peak and a valley sample window of one profile; each window lies inside the profile (periods whose window would leave it are skipped), and aspect_ratio() is the mean depth divided by the spatial period, or the error that either of the two raises.", "quantifier": "all surfaces, numbers of profiles, sampling widths and results of the sinusoid fits", "why_tests_cant": "out-of-range windows depend on the fitted phase and period, so no finite set of surfaces covers the boundary cases", "anchors": ["surfalize/surface.py:Surface.depth", "surfalize/surface.py:Surface.aspect_ratio"]}
{"id": "C79", "title": "Saving is all or nothing", "statement": "A save that raises leaves the file or buffer it was given as it was, whatever the writer does and whatever was there before; a save that succeeds leaves exactly what the writer of the format wrote.", "quantifier": "all writers, failures, file contents and buffer positions", "why_tests_cant": "Every point at which a writer can fail would have to be tried; files are opened for writing before the writer runs.", "anchors": ["surfalize/file/common.py:FileHandler.write", "surfalize/file/common.py:open_file_like"]}
{"id": "C80", "title": "VK4, VK6 and VK7 files give the surface their headers describe", "statement": "Reading a VK4 file (alone, or wrapped in a VK6/VK7 container) that succeeds gives as many columns and rows as the height image states, the distances of the measurement conditions in micrometres and, at every point, the stored number times the vertical resolution; a file without the magic number is refused, and every complete file is read.", "quantifier": "all files, encodings and image layer options", "why_tests_cant": "the offsets of the sections are stored in the file itself; every combination of offsets and sizes would have to be tried", "anchors": ["surfalize/file/vk.py:read_vk4", "surfalize/file/vk.py:read_vk6_vk7"]}
{"id": "C81", "title": "Title and lens name of VK files come back unchanged", "statement": "The texts stored in the measurement conditions of a VK4 file appear unchanged in the metadata.", "quantifier": "all texts and encodings", "why_tests_cant": "every character that a title can contain would have to be tried in every encoding", "anchors": ["surfalize/file/vk.py:read_vk4"]}
{"id": "C82", "title": "ZMG files give the surface their header describes", "statement": "Reading a ZMG file that succeeds gives the columns, rows and distances of the header and, at every point, the signed stored number times the stored digit height, behind a comment of any length; complete files with the magic number are read, others are refused.", "quantifier": "all files", "why_tests_cant": "the comment and the sizes are free", "anchors": ["surfalize/file/zmg.py:read_zmg"]}
{"id": "C83", "title": "OS3D files give the surface their header describes", "statement": "Reading an OS3D file that succeeds gives the columns, rows and distances of the header and, at every point, the stored number, missing exactly where it lies below the threshold for invalid points; files without the magic number are refused.", "quantifier": "all files and encodings", "why_tests_cant": "the header contains texts of any length", "anchors": ["surfalize/file/os3d.py:read_os3d"]}
{"id": "C84", "title": "PLUX files give the surface their index describes", "statement": "Reading a PLUX file that succeeds gives the columns, rows and distances of the index and, at every point, the stored number, missing exactly where it is not finite; the metadata are the last items stored under each of the listed names; the image layer, if asked for, is the stored one, grey exactly if the channels agree.", "quantifier": "all archives, index documents and encodings", "why_tests_cant": "the index can have any structure", "anchors": ["surfalize/file/plux.py:read_plux"]}
{"id": "C85", "title": "X3P files give the surface their document describes, and only if its checksum matches", "statement": "Reading an X3P file that succeeds gives the columns and rows of the document, the increments of the axes in micrometres and, at every point, the height that the type of the vertical axis and its increment define for the stored number; a document that does not match the stored checksum is refused; every text of the general information appears in the metadata under its joined tags.", "quantifier": "all archives, documents, types and encodings", "why_tests_cant": "documents can be nested to any depth, and every corrupted document would have to be tried", "anchors": ["surfalize/file/x3p.py:read_x3p", "surfalize/file/x3p.py:xml_to_flat_dict"]}
{"id": "C86", "title": "surfalize convert converts every file and loses none", "statement": "`surfalize convert in out` loads the input and leaves in the output exactly what the writer of the output's suffix writes for that surface; no other file changes. For a directory, every readable file is converted to a file with its stem and the new suffix, no measurement of the input directory is lost or overwritten, and a file that cannot be loaded stops the command with its exception without touching files behind it.", "quantifier": "all readers and writers, all surfaces, all file systems, names, listings and orders of listings, all formats, with and without --compressed", "why_tests_cant": "Depends on the names and order of arbitrary directory listings and on every combination of suffixes, formats and existing outputs.", "anchors": ["surfalize/cli.py:convert", "surfalize/cli.py:convert_file", "surfalize/surface.py:Surface.load", "surfalize/surface.py:Surface.save"]}
{"id": "C87", "title": "A batch made from a directory holds every supported file exactly once", "statement": "Batch.from_dir and add_dir find exactly the files of the directory that Surface.load recognises by their suffix, each once, in whatever order the set of formats is iterated; files added before stay, in their order; `surfalize report` writes one report per file under a name of its own that replaces no measurement.", "quantifier": "all directory listings, all iteration orders of the set of supported formats, all sequences of add_files and add_dir calls, all file names", "why_tests_cant": "Set iteration order and directory listings are arbitrary; a test shows only one of them.", "anchors": ["surfalize/batch.py:Batch.from_dir", "surfalize/batch.py:Batch.add_files", "surfalize/batch.py:Batch.add_dir", "surfalize/cli.py:report"]}
{"id": "C88", "title": "The refined orientation is the direction of the texture", "statement": "Surface.orientation('fft_refined'), the default, returns the angle between the lines of the texture and the vertical axis: for a periodic grating the direction in which its heights do not change. It samples profiles only inside the surface, and rejects unknown methods and missing points with ValueError.", "quantifier": "all gratings (any amplitude, offset, phase, numbers of periods along both axes), all surface sizes and step sizes, all curve fits", "why_tests_cant": "Directions, phases and sizes form a continuum; wrap-around of the fitted phase happens at different profiles for each of them.", "anchors": ["surfalize/surface.py:Surface._orientation_refined", "surfalize/surface.py:Surface.orientation", "surfalize/mathutils.py:Sinusoid"]}
{"id": "C89", "title": "A saved surface can be loaded again", "statement": "Surface.save to a path with a writable suffix, followed by Surface.load of that path, succeeds whenever the format can hold the surface, and returns a surface with the same number of points, the same missing points, step sizes equal to single precision and heights equal to within 2^-22 of the largest height (SFLZ with its default data type: no missing points). The same holds for an open buffer written and read from its start, whatever the buffer held before.", "quantifier": "all surfaces within the limits of the formats (65535x65535, 2^28 points, heights up to 2^100 um), all writable formats, all suffixes in whatever case, all previous buffer contents, all zlib/lzma/clock/number-printing environments that are sound", "why_tests_cant": "Needs every height field, every size and every pattern of missing points; rounding of each stored number depends on the data.", "anchors": ["surfalize/surface.py:Surface.save", "surfalize/surface.py:Surface.load", "surfalize/surface.py:Surface.from_raw_surface", "surfalize/file/common.py:FileHandler"]}
{"id": "C90", "title": "Functional parameters of profiles mean the same as those of surfaces", "statement": "For a profile and a surface with the same heights in any arrangement, Rk, Rpk, Rvk, Rpkx, Rvkx, Rak1, Rak2, Rmr1, Rmr2, Rmrk1, Rmrk2, Rmr(c), Rmc(mr), Rxp, Rdc and the volume parameters equal their S counterparts, with the same default arguments and errors. Rk >= 0, Rpkx + Rk + Rvkx is the total height, Rak1 = Rpk*Rmr1/2, Rak2 = Rvk*(100-Rmr2)/2, Rmc is non-increasing from maximum to minimum, Rxp and Rdc are its differences, the volumes are monotone, non-negative and consistent. A missing point is a ValueError, a wrong number of arguments a TypeError.", "quantifier": "all profiles and surfaces, all arrangements of heights, all arguments and argument counts, all least-squares solvers and sorts of equal heights", "why_tests_cant": "Ranges over all height distributions and arguments; agreement of two classes with separate methods must hold for each.", "anchors": ["surfalize/profile.py:Profile.Rk", "surfalize/profile.py:Profile.Rdc", "surfalize/surface.py:Surface.Sk", "surfalize/base.py:BaseSurface.Vmp", "surfalize/abbottfirestone.py:AbbottFirestoneCurve"]}
{"id": "C91", "title": "Extraction of CAG archives", "statement": "extract_cag writes every measurement of the archive (member starting with VK3/VK4/VK6/VK7) byte for byte, under the file name the archive's index gives for the directory it lies in, directly into the target directory; no other file is written or changed, whatever names the index or the archive contain. A measurement not in the index is a KeyError, an archive without an index a TypeError.", "quantifier": "all archives (any number of members, contents, paths), all index texts, all previous contents of the target directory", "why_tests_cant": "a test extracts one archive; path safety, greedy matching of the index and colliding names need all archives and index texts", "anchors": ["surfalize/file/cag.py:parse_idx_table", "surfalize/file/cag.py:extract_cag"]}
{"id": "C92", "title": "Batch methods run the surface's methods with the arguments of the call", "statement": "A batch has a method of a name exactly if the method Python resolves on Surface under that name is marked for batch use. A call of a batch operation that its displayed signature allows (positional or keyword) is executed on every surface with exactly these arguments, the fixed ones (inplace=True, return_trend=False) at their fixed values.", "quantifier": "all class hierarchies, all method signatures, all operations of the package, all positional and keyword arguments", "why_tests_cant": "tests call each batch method in one way; the combinations of positional and keyword arguments and of signatures are unbounded", "anchors": ["surfalize/base.py:batch_method", "surfalize/batch.py:Batch.__init__", "surfalize/batch.py:Batch._create_batch_method", "surfalize/batch.py:_Operation.execute_on"]}
{"id": "C93", "title": "Every call of stepheight_level levels the present heights", "statement": "Whatever was computed or levelled before, surface.stepheight_level(...) returns a surface whose heights are the present heights of the surface minus the zero-mean plane fitted to their own upper level, and changes no other surface.", "quantifier": "all histories of creating, editing, measuring and levelling surfaces (in place or not, in every spelling of the call), all surfaces", "why_tests_cant": "the result depends on what the cache holds after an arbitrary history of calls", "anchors": ["surfalize/surface.py:Surface.stepheight_level", "surfalize/cache.py:cache", "surfalize/cache.py:CachedInstance.create_cache_entry"]}
{"id": "C94", "title": "The period of a periodic profile is its period", "statement": "The period reported for a profile is the length n*d of the profile over the number of periods of its dominant component: for k whole periods of a sinusoid with more than two points per period it is n*d/k, whatever amplitude, phase and offset, and a component weaker than the dominant one does not change it. Any period that is returned is n*d/m for a whole number 1 <= m <= n/2, hence between two point distances and the length of the profile. A profile with missing points is rejected with a ValueError.", "quantifier": "all profiles of any length, all phases, amplitudes, offsets and point distances, every order in which ties are sorted", "why_tests_cant": "Tests use one profile of one amplitude; the statement holds for every length, number of periods, phase, amplitude and disturbance below the dominant component, and the failures depend on the unit of the heights and the offset.", "anchors": ["surfalize/mathutils.py:get_period_fft_1d", "surfalize/profile.py:Profile.period"]}
{"id": "C95", "title": "Gaussian filtering averages heights", "statement": "Filtering a fully measured surface or profile succeeds for every cutoff. The lowpass heights lie between the lowest and the highest height of the surface; scaling and shifting the heights scales and shifts the lowpass result, scales the highpass result and leaves it unchanged by a shift; the result for a sum of two surfaces is the sum of the results; mirrored surfaces give mirrored results. With the default treatment of the ends (and with 'wrap') the lowpass result has the mean of the surface and the highpass and bandpass results have mean zero.", "quantifier": "all sizes, heights, cutoffs, step sizes and end treatments", "why_tests_cant": "Tests compare a few filtered arrays with stored ones; the statement ranges over all heights, sizes (also smaller than the kernel, where the continuation beyond the ends repeats) and cutoffs.", "anchors": ["surfalize/filter.py:GaussianFilter.apply", "surfalize/base.py:filter", "surfalize/surface.py:Surface.filter", "surfalize/profile.py:Profile.filter"]}
{"id": "C96", "title": "A filtered wave keeps its shape and the filter as implemented transmits half at the cutoff", "statement": "With the default treatment of the ends, the lowpass filter as implemented (kernel sampled at the points, truncated at four standard deviations and normalised, axes filtered one after the other) multiplies a cosine wave with whole half waves along x, along y or both by a factor and keeps the offset; the highpass filter keeps the rest. The factor differs from the ideal 2^-(cutoff/wavelength)^2 by at most 3*2^-(cutoff/step - cutoff/wavelength)^2 + 1/5000: at the cutoff wavelength half of the amplitude passes within one percent for cutoffs of at least four points, more than 83% at twice the cutoff and beyond, less than 6.3% at half the cutoff and below for cutoffs of at least eight points.", "quantifier": "all sizes, steps, cutoffs of at least one step, wavelengths of at least two steps, amplitudes and offsets", "why_tests_cant": "the deviation of the sampled kernel from the ideal filter is a bound over a continuum of cutoffs, steps and wavelengths", "anchors": ["surfalize/filter.py:GaussianFilter.apply", "surfalize/filter.py:GaussianFilter.sigma", "surfalize/base.py:filter"]}
{"id": "C97", "title": "Period, Ssw and orientation measure the strongest wave, whatever noise, units or datum", "statement": "If one wave of a fully measured surface is stronger than all others, period and Ssw are its wavelength, the periods along the axes and the orientation are those of its wave vector (in terms of width_um and height_um), however ties are broken. A deviation of any form with a root mean square below a quarter of the amplitude of a grating does not change them at all. Multiplying all heights by the same non-zero number (also a negative one) and shifting them changes neither them nor Std, for every surface; the angular spectrum scales with it. Mirroring the surface changes the sign of the orientation only; exchanging rows and columns exchanges the axis periods and reflects the orientation at the diagonal.", "quantifier": "all shapes, heights, extents, deviations, scale factors, offsets, and all tie-breaking behaviours of argsort", "why_tests_cant": "the deviation, the heights and the order in which equal amplitudes are sorted range over infinitely many possibilities", "anchors": ["surfalize/fourier.py:FourierTransform._get_peak_dx_dy", "surfalize/fourier.py:FourierTransform.period", "surfalize/fourier.py:FourierTransform.orientation", "surfalize/fourier.py:FourierTransform.dominant_wavelength", "surfalize/fourier.py:FourierTransform._angular_spectrum", "surfalize/surface.py:Surface.period"]}
{"id": "C98", "title": "surfalize report shows the parameters of the processed surface for every file", "statement": "The report command writes, next to every file with a supported suffix of the directory (or the given file), a report under its whole name and .pdf that shows Sa, Sq, Sv, Sp, Sz, Sk, Spk, Svk (with --periodic-parameters also period, depth, aspect ratio and homogeneity) of the surface the file holds after the requested processing, with units and three places, each within half a unit of the last place of the computed value and in its order; it changes no other file and reports on no report. It does so whenever the file can be loaded and processed and the parameters shown can be computed; otherwise the command stops at that file with the files before it reported and the ones behind it untouched. Contradictory options are rejected before any file is touched.", "quantifier": "all directories, file contents, readers, options, values and orders in which the set of formats is iterated", "why_tests_cant": "ranges over all directory contents and iteration orders, all values to be formatted and all failure points", "anchors": ["surfalize/cli.py:report", "surfalize/cli.py:PARAMETER_UNITS", "surfalize/cli.py:common_options", "surfalize/cli.py:perform_surface_operations", "surfalize/base.py:roughness_parameters"]}
{"id": "C99", "title": "Hybrid parameters do not depend on how the sample lies, on the datum or on the unit", "statement": "Sdq, surface_area and Sdr have the same value for a surface and for the same surface mirrored left and right or top and bottom, turned so that rows become columns (with the step sizes exchanged), inverted, or with a constant added to all heights; converting heights and steps to another unit keeps Sdq and Sdr and multiplies the area by the square of the factor. On surfaces with non-measured points all of them raise the same error.", "quantifier": "all surfaces of any shape, with or without non-measured points, all steps, offsets and unit factors", "why_tests_cant": "an equality between the parameters of two surfaces for every surface; a test can only try some surfaces, and smooth ones hide that one corner of every cell is ignored", "anchors": ["surfalize/surface.py:Surface.Sdq", "surfalize/surface.py:Surface.surface_area", "surfalize/surface.py:Surface.Sdr", "surfalize/surface.py:Surface.projected_area"]}
{"id": "C100", "title": "Height parameters of profiles follow the heights and do not depend on the direction of reading", "statement": "Multiplying the heights of a profile by a positive number and adding a constant multiplies Ra, Rq, Rp, Rv, Rz and Rt by that number and keeps Rsk and Rku, for any number of sections. Inverting the profile keeps Ra, Rq, Rz, Rt and Rku, negates Rsk and exchanges Rp and Rv. Reading it backwards changes none of Ra, Rq, Rp, Rv, Rz, Rt, Rsk, Rku, Rdq. What raises an error for the one raises it for the other.", "quantifier": "all profiles with or without non-measured points, all factors, offsets and numbers of sections", "why_tests_cant": "an equality between the parameters of two profiles for every profile and every number of sections; it fails only for sections above the mean line or of unequal length", "anchors": ["surfalize/profile.py:Profile.Ra", "surfalize/profile.py:Profile.Rq", "surfalize/profile.py:Profile.Rp", "surfalize/profile.py:Profile.Rv", "surfalize/profile.py:Profile.Rz", "surfalize/profile.py:Profile.Rt", "surfalize/profile.py:Profile.Rsk", "surfalize/profile.py:Profile.Rku", "surfalize/profile.py:Profile.Rdq", "surfalize/profile.py:Profile._sectioned_data"]}
{"id": "C101", "title": "Summary statistics ignore non-measured points, are ordered and agree with the height parameters", "statement": "min(), max(), mean(), median() and std() of a surface or profile are the statistics of its measured heights alone and are numbers exactly when something is measured (min and max raise ValueError exactly for data without points). The extremes are measured heights; median and mean lie between them; mean and median differ by at most the mean absolute deviation, which is at most std(), which is at most half the range. The statistics follow a change of unit and datum. After center() the mean is 0, after zero() the minimum, with unchanged std() and range. On fully measured surfaces std() = Sq, max()-min() = Sz, max()-mean() = Sp and mean()-min() = Sv.", "quantifier": "all surfaces and profiles of any size with any pattern of non-measured points, all units and offsets", "why_tests_cant": "inequalities and equalities over all height data and all patterns of missing points", "anchors": ["surfalize/base.py:BaseTopography.min", "surfalize/base.py:BaseTopography.max", "surfalize/base.py:BaseTopography.mean", "surfalize/base.py:BaseTopography.median", "surfalize/base.py:BaseTopography.std", "surfalize/base.py:BaseTopography.center", "surfalize/base.py:BaseTopography.zero", "surfalize/surface.py:Surface.height_parameters"]}
{"id": "C102", "title": "Image layers of a Gwyddion file are exactly its images with the raster of the heights, by title, and asking for them never changes the heights", "statement": "Reading a Gwyddion file with read_image_layers=True returns the same heights and steps as without. The attached image layers are exactly the channels without a unit of their values whose number of points and lateral unit are those of the height channel; each appears under its title with every stored value at its row and column, whatever the order in which the interpreter lists the channels. (Violated: a file with an untitled image can be read without images but not with them; of two images with one title only one survives, and which one depends on the order of a set.)", "quantifier": "all Gwyddion files with any number of channels, any numbering, raster, titles and values, and every order in which the set of channel numbers may be listed", "why_tests_cant": "the order of a Python set of strings changes from run to run, and the claim ranges over all files", "anchors": ["surfalize/file/gwy.py:read_gwy", "surfalize/file/gwy.py:guess_image_channels", "surfalize/file/gwy.py:get_image_related_layer_keys"]}
{"id": "C103", "title": "Parameters in file names become columns row by row, and results are independent of each other", "statement": "extract_from_filename neither adds, drops nor reorders rows; the columns named by the template stand right behind 'file' in template order, existing ones stay in place, and every column the template does not name keeps its values. Each row gets the values of its own file name, whatever the other files are called; a second extraction with the same template changes nothing, two templates with different names may be applied in either order, and setting the template on the batch is the same as extracting from the result. Wrapping a DataFrame copies it: no history of assignments and extractions on one result changes another result or the original; get_dataframe() is the live table until the next extraction. Other attributes are those of the DataFrame. (Violated: a field named like a computed parameter or 'file' replaces that column silently; one misfitting file name makes an integer template fail for all files; results cannot be copied or pickled: endless recursion at every recursion limit.)", "quantifier": "all tables of any size, all templates, all selections and orders of rows, all histories of operations on any number of results, every recursion limit", "why_tests_cant": "independence must hold for every history of operations and every table; the recursion exists for every limit", "anchors": ["surfalize/batch.py:BatchResult", "surfalize/batch.py:FilenameParser.extract_from", "surfalize/batch.py:FilenameParser.apply_on", "surfalize/batch.py:Batch._construct_dataframe", "surfalize/batch.py:Batch.execute"]}
{"id": "C104", "title": "Asking for the image layers never changes the heights", "statement": "For every format whose reader can load image layers (DAT, NMS, OPD, OS3D, PLU, PLUX, VK4, VK6, VK7, SFLZ, SUR, FITS, GWY): if a file can be read with read_image_layers=True, it can be read without, with the same heights, sizes and steps, and without images. For SUR and FITS the images are the ones stored: the four objects behind the heights point by point (grey exactly if the three channels agree), all FITS extensions but heights and mask in file order. FITS images never make reading fail. (Violated in the other direction: in other formats a file whose heights are readable may be rejected because of its images, e.g. a MetroPro file with one invalid intensity or an NMS file that is not square, a PLUX file without images; 'surfalize convert' asks for images by default.)", "quantifier": "all files (arbitrary bytes), all formats, all sizes and numbers of images", "why_tests_cant": "must hold for every sequence of bytes, also for damaged files, and for every position at which the heights may stand relative to the images", "anchors": ["surfalize/file/sur.py:read_sur", "surfalize/file/fits.py:read_fits", "surfalize/file/dat.py:read_dat", "surfalize/file/nms.py:read_nms", "surfalize/file/opd.py:read_opd", "surfalize/file/os3d.py:read_os3d", "surfalize/file/plu.py:read_plu", "surfalize/file/plux.py:read_plux", "surfalize/file/vk.py:read_vk4", "surfalize/file/gwy.py:read_gwy", "surfalize/file/sflz.py:read_sflz", "surfalize/cli.py:convert_file"]}
{"id": "C105", "title": "Plots show every value at its place", "statement": "plot_2d shows all heights (or, for another layer name, the pixels of that image layer; ValueError without such a layer) so that the pixel of each point covers its place: x counts columns from the left, y rows from the bottom; the legend for missing points is shown exactly if there are some. plot_3d at full detail has the same points at the same places. A profile is drawn at multiples of its step. The coordinates read off the plot mean the same to get_vertical_profile and crop (violated for get_horizontal_profile, whose y counts from the top; image layers keep their uncropped pixels after crop in place). The autocorrelation plot shows each lag at its offset with zero in the middle. The spectrum plot shows each spectral component of the (mean-subtracted, windowed) data at its frequency; fxmax/fymax cut symmetrically at the closest frequency (violated for odd numbers of points). The polar plot has a point for every multiple of angle_step below 180 degrees, drawn at that angle, whose radius is the spectral power in the sector beginning there; it takes the place of axes passed in (violated for axes over several cells). The bars of the Abbott plot divide the height range evenly and show the percentage of heights between their edges, 100 in total; the triangles of the parameter study have the areas of the hills above and dales below the core.", "quantifier": "all heights, sizes, steps, layers, options, frequencies, numbers of bars", "why_tests_cant": "the place of every pixel for every size and step, and agreement of two coordinate systems, cannot be seen from a sample of pictures", "anchors": ["surfalize/surface.py:Surface.plot_2d", "surfalize/surface.py:Surface.plot_3d", "surfalize/plotting.py:plot_3d", "surfalize/profile.py:Profile.plot_2d", "surfalize/autocorrelation.py:AutocorrelationFunction.plot_autocorrelation", "surfalize/fourier.py:FourierTransform.plot", "surfalize/abbottfirestone.py:AbbottFirestoneCurve.plot", "surfalize/abbottfirestone.py:AbbottFirestoneCurve.visual_parameter_study"]}
{"id": "C106", "title": "Metadata and image layers stay with their surface", "statement": "A loaded surface has the metadata and the image layers of its file, and get_image_layer_names lists the layers in the order of the file. No operation, in place or not, on this or any other surface changes the metadata or image layers of an existing surface. An edit of one surface's metadata or image layers is seen by no other surface (violated for dictionaries that the caller hands to two constructors: they are not copied). Copies have the attributes of the surface they were made from (violated: whatever is returned by a method without inplace, by arithmetic or slicing has empty metadata and no image layers). Image layers of the size of the heights keep that size (violated after crop, zoom, rotate and align in place).", "quantifier": "all histories of construction, loading, methods, arithmetic, slicing, assignment and edits, on any number of surfaces", "why_tests_cant": "sharing between objects depends on the whole history; tests look at single calls", "anchors": ["surfalize/surface.py:Surface.__init__", "surfalize/surface.py:Surface._with_data", "surfalize/surface.py:Surface.from_raw_surface", "surfalize/surface.py:Surface.get_image_layer_names", "surfalize/surface.py:Surface.__getitem__", "surfalize/base.py:BaseTopography"]}
{"id": "C107", "title": "Parameters taken from analysis objects are those of the present heights, and an analysis object describes one state of the surface", "statement": "After any history of get_fourier_transform, get_autocorrelation_function and get_abbott_firestone_curve, questions to the objects so obtained, parameters read, heights stored and caches cleared, the parameters of a surface that are computed by such an object (period, period_x_y, orientation, Ssw, Std, Sal, Str, the functional parameters) are those of the present heights and steps. An object handed out answers every question as a new object would until heights are stored; k, mr1, mr2, pk, vk, ak1 and ak2 of an Abbott-Firestone curve stay those of the heights it was made for, whatever follows. An object held while the heights change describes one state of the surface (violated: a FourierTransform tells the period of the old and the dominant wavelength of the new heights, the Spkx of a curve mixes both and can be negative, Sal takes the old autocorrelation with the new steps).", "quantifier": "all histories of obtaining and asking analysis objects, reading parameters, storing heights and clearing caches; any number of objects", "why_tests_cant": "two caches and references to the surface make every answer depend on the order of all earlier calls", "anchors": ["surfalize/surface.py:Surface.get_fourier_transform", "surfalize/surface.py:Surface.get_autocorrelation_function", "surfalize/base.py:BaseTopography.get_abbott_firestone_curve", "surfalize/fourier.py:FourierTransform", "surfalize/autocorrelation.py:AutocorrelationFunction", "surfalize/abbottfirestone.py:AbbottFirestoneCurve", "surfalize/cache.py:CachedInstance"]}
{"id": "C108", "title": "Sal and Str do not depend on how the sample lies or on the unit of length", "statement": "Turning a surface by 180 degrees, mirroring it left-right or top-bottom, or exchanging its axes together with the steps leaves Surface.Sal(s) and Surface.Str(s) unchanged, errors included. Giving the steps in another unit multiplies Sal by the factor and leaves Str unchanged.", "quantifier": "every surface, every step, every threshold s, every positive factor", "why_tests_cant": "the tests compute Sal and Str for a few stored surfaces in one position; the claim ranges over all surfaces and all placements", "anchors": ["surfalize/autocorrelation.py: AutocorrelationFunction._calculate_decay_lengths, Sal, Str", "surfalize/surface.py: Surface.Sal, Surface.Str", "surfalize/mathutils.py: interpolate_line_on_2d_array, argmin_all, argmax_all"]}
{"id": "C109", "title": "The literal text of a filename template stands for itself", "statement": "For a template whose text is given to Batch.extract_from_filename / FilenameParser, the values are read from exactly those file names that contain the literal text of the template verbatim, with a number or text of the right type in place of each field, and under the name of the field. Templates are accepted whatever their literal text is; field names that occur twice are rejected.", "quantifier": "every template (literal texts, names, types, prefixes, suffixes), every file name", "why_tests_cant": "the tests try a few templates with letters and underscores; the claim is about every text that can occur in a file name, including dots, brackets and plus signs, and about every file name, matching or not", "anchors": ["surfalize/batch.py: FilenameParser.parse_template, construct_regex, extract_from, apply_on", "surfalize/batch.py: Batch.extract_from_filename"]}
{"id": "C110", "title": "Cutting out parts composes", "statement": "Cropping a surface and then cropping the result is the same as cropping once to the second box moved by the corner of the first, in pixels and in units of length. Slicing a slice is slicing once, with the product of the slice steps and of the step sizes. The profile of a cropped surface is the cropped profile of the surface at the same place.", "quantifier": "every surface, every pair of boxes and slices (also with negative steps), every step size, every row", "why_tests_cant": "tests crop and slice once, at positions on the grid; the law ranges over all pairs of boxes and over positions between the points", "anchors": ["surfalize/surface.py: Surface.crop, Surface.__getitem__, Surface.get_horizontal_profile", "surfalize/profile.py: Profile.crop"]}
{"id": "C111", "title": "The 3d picture shows the surface from the stated direction and loses nothing that was drawn", "statement": "Surface.plot_3d looks at the middle of the measured area from a distance of 2*width/zoom, vertical_angle above the plane and from the direction horizontal_angle, with the light at the camera unless a position is given; at zoom <= 1 the camera is outside the measured area. Removing the white border removes no pixel that is not white and no row; the colour bar is set beside the picture, cbar_pad white columns away, as high as the picture; the file saved is exactly the picture returned, and an interactive plot with a file name is refused before anything is drawn. Image.is_grayscale holds exactly if all channels of all pixels agree.", "quantifier": "all angles, zooms, sizes and steps, all renderings, all pads >= 0, all file names", "why_tests_cant": "angles, sizes and pictures are unbounded, and the repository's tests do not render 3d plots", "anchors": ["surfalize/plotting.py: plot_3d", "surfalize/surface.py: Surface.plot_3d", "surfalize/image.py: Image.is_grayscale"]}
{"id": "C112", "title": "Batches of buffers: threads and repetition do not change what is loaded", "statement": "A Batch of FileInput buffers loads every entry exactly as Surface.load of that buffer alone would, with and without multiprocessing, under every interleaving of the threads' calls on the buffers; no thread waits for another; and executing the batch again loads the same data.", "quantifier": "all readers that use the file through tell, read and seek, all buffers, positions and formats, all interleavings, all numbers of entries", "why_tests_cant": "interleavings of threads are chosen by the scheduler; a test sees a few of them", "anchors": ["surfalize/batch.py: FileInput, _task, Batch._disptach_tasks", "surfalize/file/common.py: open_file_like, FileHandler.read"]}
{"id": "C113", "title": "Parameters are stable", "statement": "If two surfaces of the same size miss the same points and their heights differ by at most e everywhere, then Sa, Sp, Sv and Sz differ by at most 2e, Sq by at most e, the heights of the material ratio curve (Smc at any material ratio) by at most e, Sdc and Sxp by at most 2e, Sdq by at most 2e*sqrt(1/step_x^2 + 1/step_y^2), the surface area by at most (rows-1)*(columns-1)*2e*sqrt(step_x^2+step_y^2) and Sdr accordingly; for profiles Ra, Rp, Rv, Rz and Rt (for every number of sections) by at most 2e, Rq by at most e and Rdq by at most 2e/step. In particular a fully measured surface that is saved in any writable format and loaded again has the same height parameters up to 2^-21 of its largest absolute height.", "quantifier": "all sizes of surfaces and profiles, all heights, all e, all steps, all numbers of sections and bins, all material ratios, all writable formats", "why_tests_cant": "a test compares two particular measurements; the bound has to hold for every change of the heights, however many points change and however the order of the heights changes with it", "anchors": ["surfalize/surface.py:height_parameters", "surfalize/surface.py:surface_area", "surfalize/surface.py:Sdr", "surfalize/surface.py:Sdq", "surfalize/abbottfirestone.py:AbbottFirestoneCurve", "surfalize/profile.py:Ra", "surfalize/profile.py:Rz", "surfalize/profile.py:Rdq"]}
{"id": "C114", "title": "Operations are stable", "statement": "If two surfaces of the same size miss the same points and their heights differ by at most e everywhere, then after center or zero they differ by at most 2e, after invert by at most 3e, after filling the missing points with the nearest heights and after the low pass filter by at most e, after the high pass and the band pass filter by at most 2e, for every end treatment and every cutoff; after leveling or detrending with a polynomial of any degree the sum of the squared differences of the heights is at most what it was before. The same points are missing afterwards in both.", "quantifier": "all sizes of surfaces, all heights and missing points, all e, all cutoffs, steps, end treatments and degrees", "why_tests_cant": "a test compares two particular measurements; the bound has to hold for every change of the heights", "anchors": ["surfalize/base.py:center", "surfalize/base.py:zero", "surfalize/base.py:invert", "surfalize/base.py:filter", "surfalize/surface.py:fill_nonmeasured", "surfalize/surface.py:detrend_polynomial", "surfalize/surface.py:level"]}
{"id": "C115", "title": "Test surfaces give the textbook values", "statement": "The roughness parameters of the surfaces every textbook computes come out as in the textbook. Two plateaus a height h apart with the share p of the points on the upper one (a step, a square grating, a chessboard, in any arrangement) have Sa = 2p(1-p)h, Sq = h sqrt(p(1-p)), Sp = (1-p)h, Sv = ph, Sz = h, Ssk = (1-2p)/sqrt(p(1-p)) and Sku = 1/(p(1-p)) - 3. A sine wave of amplitude a sampled at more than four points per period has Sq = a/sqrt(2), Ssk = 0 and Sku = 3/2 at every wavelength, direction and phase, and the same holds for Rq, Rsk and Rku of a profile. The step height of the two plateaus is h and their cavity volume is the number of low points times h times the pixel area. An inclined plane has Sdq equal to its slope (a straight profile has Rdq equal to its slope), Sz equal to its rise along both axes, Sp = Sv = Sz/2, the variance of its two slopes, and Ssk = 0. A square grating with k periods over the width has the period width/k and the orientation 0, its depth is the difference of the two heights with standard deviation 0, and its aspect ratio is that difference over the period. The depth of a sine wave of amplitude a and p points per period lies between 2a cos(pi sampling_width + 2 pi/p) and 2a. Evenly spaced heights have a straight Abbott-Firestone curve with Sk equal to the height range, Smr1 = 0 %, Smr2 = 100 % and Spk = Svk = 0.", "quantifier": "all sizes of the surface, all arrangements of the two plateaus, all amplitudes, offsets, wavelengths, directions and phases, all slopes, all numbers of classes of the curve (at least 4)", "why_tests_cant": "A test compares one wave of one size with the formula up to a tolerance. That the formula is exact for every size, phase and direction needs orthogonality of the sampled waves and summation of powers for every n.", "anchors": ["surfalize/surface.py:Surface.height_parameters", "surfalize/profile.py:Profile.Rq", "surfalize/profile.py:Profile.Rsk", "surfalize/profile.py:Profile.Rku", "surfalize/abbottfirestone.py:AbbottFirestoneCurve", "surfalize/surface.py:Surface.stepheight", "surfalize/surface.py:Surface.cavity_volume", "surfalize/surface.py:Surface.Sdq", "surfalize/profile.py:Profile.Rdq", "surfalize/surface.py:Surface.depth", "surfalize/surface.py:Surface.aspect_ratio", "surfalize/fourier.py:FourierTransform.period"]}
{"id": "C116", "title": "Std and orientation describe the same texture", "statement": "On a surface with one sinusoidal texture, the texture direction Std and the orientation describe the same direction, up to the angular resolution of Std and modulo 180 degrees. The code violates this: both are 0 for grooves along y and 90 for grooves along x, but for every oblique texture Std is the orientation with the opposite sign, because Std counts the angle in the sense of increasing row numbers and the orientation in the other.", "quantifier": "all sizes of surfaces, all directions, wavelengths, phases and amplitudes of the texture, all extents, all angular resolutions", "why_tests_cant": "a test compares the two for a few textures; the sign and the resolution bound have to be established for every wave vector", "anchors": ["surfalize/fourier.py:FourierTransform.Std", "surfalize/fourier.py:FourierTransform.orientation", "surfalize/surface.py:Surface.Std", "surfalize/surface.py:Surface.orientation"]}
{"id": "C117", "title": "A profile drawn out to a surface has the parameters of the profile", "statement": "A surface whose rows (or columns) are all the same profile has the height parameters of the profile (Sa=Ra, Sq=Rq, Sz=Rt=Rz(1), Sp=Rp(1), Sv=Rv(1), Ssk=Rsk, Sku=Rku), its slope Sdq=Rdq, its functional parameters (Smc=Rmc, ...) and its period; and every horizontal (vertical) profile taken from it, with any averaging, is the profile again.", "quantifier": "all profiles, any number of copies, rows and columns, all positions and averaging widths", "why_tests_cant": "holds for all profiles and sizes or not at all; the deviations of Sdq, Smc and the period vanish with growing size", "anchors": ["surfalize/surface.py:height_parameters", "surfalize/surface.py:get_horizontal_profile", "surfalize/surface.py:get_vertical_profile", "surfalize/surface.py:Sdq", "surfalize/profile.py:Rdq", "surfalize/profile.py:Ra", "surfalize/abbottfirestone.py:AbbottFirestoneCurve", "surfalize/profile.py:period"]}
{"id": "C118", "title": "Operations do not depend on how the sample lies, on the unit or on the datum", "statement": "center, zero, invert, threshold, remove_outliers, level/detrend_polynomial, filter, crop, zoom and fill_nonmeasured give, for a surface laid another way (mirrored, turned upside down, rows and columns exchanged, with the steps and boxes exchanged accordingly), the same result laid that way, or the same error. For heights given in another unit and from another datum they give the same result in that unit: with the datum (invert, threshold, remove_outliers, low-pass, fill_nonmeasured) or without it (center, zero, detrending, high-pass, band-pass). filter depends on the lateral unit only through the ratio of cutoff and step.", "quantifier": "all surfaces of any size with any missing points, all moves, all units c>0 and datums d, all arguments of the operations", "why_tests_cant": "it relates the results of an operation on infinitely many pairs of surfaces; a test compares a few pairs and cannot rule out a surface, a size or a box for which an operation prefers one side", "anchors": ["surfalize/base.py:center", "surfalize/base.py:zero", "surfalize/base.py:invert", "surfalize/base.py:threshold", "surfalize/base.py:remove_outliers", "surfalize/base.py:filter", "surfalize/surface.py:detrend_polynomial", "surfalize/surface.py:zoom", "surfalize/surface.py:crop", "surfalize/surface.py:fill_nonmeasured"]}
{"id": "C119", "title": "Processing steps that do not interact can be given in any order", "statement": "Shifting the datum (center, zero) before another shift has no effect on the result of the latter; shifting it before detrending has no effect on the detrended surface, and a detrended surface is already centred; detrending with degree a and then with degree b gives what detrending once with the larger degree gives, in either order; two Gaussian filters (low-pass, high-pass, band-pass, of any cutoffs) give the same result in either order; center and a low-pass filter can be swapped, and a high-pass or band-pass filter makes center superfluous before and after it.", "quantifier": "all surfaces and profiles of any size, all degrees, all filter types, cutoffs and pixel sizes, all end treatments for which the claim is made, all least-squares solvers that meet their specification", "why_tests_cant": "The orders of two steps with arbitrary parameters agree for every surface or not at all; agreement rests on algebraic identities of the continued kernel at the ends of the axes and on uniqueness of the least-squares fit, of which any set of test surfaces shows a few values only.", "anchors": ["surfalize/base.py: center, zero, filter", "surfalize/surface.py: detrend_polynomial", "surfalize/filter.py: GaussianFilter"]}
{"id": "C120", "title": "Selecting and assigning heights through masks, lists of indices, slices and ...", "statement": "s[mask] = z changes exactly the marked heights; s[mask] = values gives the values to the marked points row by row; s[a:b:c, d:e:f] = array puts every entry where the slices say; s[rows, columns] = values puts value k at (rows[k], columns[k]), the last one if a point is named twice; everything else stays. An assignment that does not fit (shape of the mask, number of values, index outside, read-only array) raises an error and changes nothing, one that fits keeps size and step sizes, and parameters read afterwards are those of the new heights. Assigning s[key] to s[key] changes nothing. s[key] has the selected rows and columns, and step sizes that fit their distances.", "quantifier": "all surfaces of any size, all keys made of integers, slices, ..., lists of integers, masks and tuples of them, all assigned numbers, rows and arrays, all parameters read afterwards", "why_tests_cant": "Keys, masks and values range over unboundedly many shapes and contents; that no other point changes, that errors leave the surface whole and that kept parameters are dropped must hold for all of them.", "anchors": ["surfalize/base.py: __setitem__", "surfalize/surface.py: __getitem__, data"]}
{"id": "C121", "title": "Example files behave like the same files on disk", "statement": "list_examples() lists all files of the example directory in its order, list_examples(format) exactly those whose name ends in that suffix; loading an example gives the surface that Surface.load gives for the downloaded file.", "quantifier": "all directory listings, names, contents and readers", "why_tests_cant": "all contents and names; the tests have no network, and the buffer path differs from the file path only for files that no listed example exercises", "anchors": ["surfalize/examples.py:list_examples", "surfalize/examples.py:ExampleFile.load", "surfalize/file/common.py:FileHandler.read"]}
{"id": "C122", "title": "Unequal pixel sizes are announced", "statement": "Constructing a surface warns exactly if step_x and step_y differ by at least one millionth of a micrometre; square pixels never cause a warning and clearly oblong ones always do.", "quantifier": "all pairs of steps", "why_tests_cant": "all steps; the tolerance is absolute, so the claim fails for small steps only", "anchors": ["surfalize/surface.py:Surface.__init__", "surfalize/utils.py:approximately_equal"]}
{"id": "C123", "title": "Registered formats and their groups", "statement": "After any sequence of registrations the supported formats are exactly the suffixes registered so far; the reader groups partition the supported suffixes, every suffix being in exactly one group, and two suffixes are in the same group exactly if the function registered last for them is the same; the groups of the package are its 18 formats. The writer registered last for a suffix decides how files of that suffix are saved and has no influence on others.", "quantifier": "all sequences of reader and writer registrations, with one or several suffixes each, including repeated ones", "why_tests_cant": "Tests see one registration history, that of the package; a third party registering a format at run time produces any other.", "anchors": ["surfalize/file/common.py:FileHandler.get_supported_formats_read", "surfalize/file/common.py:FileHandler.get_supported_formats_write", "surfalize/file/common.py:FileHandler.get_reader_suffix_groups", "surfalize/file/common.py:FileHandler.register_reader", "surfalize/file/common.py:FileHandler.register_writer"]}
{"id": "C124", "title": "A warning says when a file is not what its name says", "statement": "A file that its own reader reads is loaded without a warning. A file that is loaded as a format other than the one its name says is loaded with exactly one warning, which states its suffix and suffixes of the format it was loaded as. A damaged file with the right name raises its reader's error and no warning of another type is given.", "quantifier": "all files, names, explicit formats, and behaviours of the readers", "why_tests_cant": "Tests try one mismatching file; the claim is about every combination of name, content and reader outcome.", "anchors": ["surfalize/file/common.py:FileHandler.read", "surfalize/file/common.py:FileHandler.register_reader"]}
{"id": "C125", "title": "Step levelling does not depend on how the sample lies, on the unit or on the datum", "statement": "Mirroring, flipping or transposing the data before stepheight_level gives the same as doing so afterwards; the same holds of measuring the heights in another unit or from another datum.", "quantifier": "all surfaces, with and without non-measured points, all positive scale factors and all offsets", "why_tests_cant": "Tests level one synthetic cavity in one position; the fit to the upper level must commute with every move of every surface, and does not where the fit is not unique.", "anchors": ["surfalize/surface.py:Surface.stepheight_level", "surfalize/surface.py:Surface._stepheight_get_mask"]}
{"id": "C126", "title": "The documentation of a batch method describes its parameters", "statement": "The documentation of a batch method is that of the surface method without the entries of the parameters that cannot be given on a batch: the entry of such a parameter, its line and the lines indented below it, is removed, and nothing else.", "quantifier": "all documentations and parameter names without pattern characters", "why_tests_cant": "A test compares one docstring; the removal is a pattern that must stop at the right line for every text, in particular for every order of the entries.", "anchors": ["surfalize/utils.py:remove_parameter_from_docstring", "surfalize/batch.py:Batch._create_batch_method"]}
{"id": "C127", "title": "Aligned textures are parallel to the axis", "statement": "`Surface.align(axis)` turns a surface so that its texture runs parallel to the named axis: after aligning a cosine grating with 'y' the heights do not change down any column, after aligning with 'x' they do not change along any row; the result is not empty and fully measured, for any amplitude, offset, phase, direction and period the array can represent, and for both methods of finding the orientation. Any other axis name raises ValueError.", "quantifier": "for every grating on every array, both axes, every step", "why_tests_cant": "a test aligns one texture by one angle; the sign of the angle, the offset of 90 degrees, the direction of the rotation, the crop and the interplay of steps and pixels must fit together for all directions", "anchors": ["surfalize/surface.py: Surface.align", "surfalize/surface.py: Surface.rotate", "surfalize/surface.py: Surface.orientation", "surfalize/fourier.py"]}
