{"id": "C01", "title": "get_indice_on_axe(kind='bounds') brackets the value", "statement": "On a strictly increasing axis, a lookup of a value inside [first, last] returns [i, i] when the value is the i-th grid coordinate and otherwise [i, i+1] with axe[i] < value < axe[i+1]; a value outside the axis is refused with ValueError and is never silently clamped.", "quantifier": "every strictly increasing axis of every length, every value", "why_tests_cant": "infinitely many axes and values; the boundary and exact-hit cases interact with axis length", "anchors": ["IMTreatment/core/field.py:Field.get_indice_on_axe"]}
{"id": "C02", "title": "get_indice_on_axe(kind='nearest') returns a closest grid index", "statement": "The index returned by the 'nearest' lookup designates a grid coordinate whose distance to the value is minimal among all grid coordinates; at an exact tie the upper neighbour is returned.", "quantifier": "every strictly increasing axis, every value in range", "why_tests_cant": "minimality quantifies over every other grid point of every axis", "anchors": ["IMTreatment/core/field.py:Field.get_indice_on_axe"]}
{"id": "C03", "title": "get_indice_on_axe(kind='decimal') inverts linear interpolation", "statement": "The fractional index returned by the 'decimal' lookup, fed to linear interpolation of the axis, gives back the value; it lies between the two bracketing indices.", "quantifier": "every strictly increasing axis, every value in range", "why_tests_cant": "identity over a continuum of values and all uneven spacings", "anchors": ["IMTreatment/core/field.py:Field.get_indice_on_axe"]}
{"id": "C04", "title": "crop by values keeps exactly the grid coordinates in the closed window", "statement": "crop(intervx=[a, b]) by value yields an axis that is exactly, in order, the original coordinates c with a <= c <= b (both ends included; possibly none); a reversed window, or a window entirely outside the axis, raises ValueError.", "quantifier": "every strictly increasing axis, every window", "why_tests_cant": "boundary inclusion must hold for windows falling on, between and beyond grid points of any axis", "anchors": ["IMTreatment/core/field.py:Field.crop"]}
{"id": "C05", "title": "crop by indices keeps exactly the inclusive index range", "statement": "crop(intervx=[i, j], ind=True) keeps exactly the grid points number i to j included; a negative first index or an upper index 0 raises ValueError.", "quantifier": "every axis, every pair of indices", "why_tests_cant": "all sizes and index pairs including beyond-the-end ones", "anchors": ["IMTreatment/core/field.py:Field.crop"]}
{"id": "C06", "title": "Cropping a scalar or vector field never alters, moves or loses a surviving value", "statement": "After crop by values, the reading (value or masked) at a coordinate inside the window is the reading of the original field there, and no coordinate outside the window is left.", "quantifier": "every field (any shape, values, mask), every window pair", "why_tests_cant": "an off-by-one between axis, value and mask slices shows only for particular shapes", "anchors": ["IMTreatment/core/scalarfield.py:ScalarField.crop", "IMTreatment/core/vectorfield.py:VectorField.crop", "IMTreatment/core/field.py:Field.crop"]}
{"id": "C07", "title": "A non-inplace crop is independent of its source", "statement": "After g = f.crop(..., inplace=False), no later operation on g (set_origin, scale, change_unit, assignment) changes what f reports.", "quantifier": "every field, window and later operation history", "why_tests_cant": "aliasing depends on which array buffers are shared after arbitrary later mutation", "anchors": ["IMTreatment/core/field.py:Field.crop", "IMTreatment/core/field.py:Field.set_origin", "IMTreatment/core/scalarfield.py:ScalarField.crop"]}
{"id": "C08", "title": "rotate moves every value to its rotated coordinate", "statement": "rotate(90) moves the reading at (x, y) to (-y, x), rotate(180) to (-x, -y), rotate(270) to (y, -x), for values and mask together, with the axes sorted again and x/y units exchanged for 90 and 270; other angles that are not multiples of 90 raise ValueError.", "quantifier": "every scalar field of any shape, values, mask and axes", "why_tests_cant": "index reversal arithmetic for all non square shapes", "anchors": ["IMTreatment/core/scalarfield.py:ScalarField.rotate", "IMTreatment/core/field.py:Field.rotate"]}
{"id": "C09", "title": "rotations compose as the group of quarter turns", "statement": "Four rotate(90) give back the field; rotate(90) then rotate(270) is the identity; rotate(90) twice equals rotate(180).", "quantifier": "every scalar field with at least two points per axis", "why_tests_cant": "algebraic law over all fields", "anchors": ["IMTreatment/core/scalarfield.py:ScalarField.rotate", "IMTreatment/core/field.py:Field.rotate"]}
{"id": "C10", "title": "scale multiplies coordinates and values and keeps them attached", "statement": "scale(scalex=a, scaley=b, scalev=c), with a and b non zero of either sign, moves the reading r at (x, y) to c*r at (a*x, b*y); axes stay increasing and masked cells stay masked at their scaled coordinate.", "quantifier": "every scalar field, every non-zero scale factors", "why_tests_cant": "sign-dependent axis reversal must be mirrored on values and mask for all shapes", "anchors": ["IMTreatment/core/scalarfield.py:ScalarField.scale", "IMTreatment/core/field.py:Field.scale"]}
{"id": "C11", "title": "VectorField.scale keeps the mask attached to the vectors", "statement": "scale on a vector field with negative factors mirrors components and mask together: the cell at (a*x, b*y) is masked after exactly when the cell at (x, y) was before, and its components are (sign-corrected) those of (x, y).", "quantifier": "every vector field, every non-zero scale factors", "why_tests_cant": "only asymmetric masks reveal a lost reversal", "anchors": ["IMTreatment/core/vectorfield.py:VectorField.scale"]}
{"id": "C12", "title": "set_origin translates the field", "statement": "set_origin(x0, y0) makes the reading formerly at (x, y) available at (x-x0, y-y0), changes nothing else, and set_origin(0, 0) is the identity; successive set_origin calls add up.", "quantifier": "every field, every origin, every sequence of calls", "why_tests_cant": "composition over arbitrary sequences", "anchors": ["IMTreatment/core/field.py:Field.set_origin"]}
{"id": "C13", "title": "change_unit preserves the physical quantities", "statement": "change_unit on an axis or on values multiplies the numbers and divides the unit by the same factor: number times unit is unchanged, ordering of the axis is kept and changing back restores the field.", "quantifier": "every axis/values and every positive unit factor", "why_tests_cant": "relation over all unit factors and all data", "anchors": ["IMTreatment/core/field.py:Field.change_unit", "IMTreatment/core/scalarfield.py:ScalarField.change_unit"]}
{"id": "C14", "title": "extend keeps old readings and adds masked cells around", "statement": "extend(nmb_left, nmb_right, nmb_up, nmb_down) produces a field whose readings on the old grid coordinates are unchanged, whose added cells are masked (or hold the given value), whose axes stay strictly increasing and have exactly the requested number of extra points.", "quantifier": "every field, every number of added rows and columns", "why_tests_cant": "index shifts over all sizes", "anchors": ["IMTreatment/core/field.py:Field.extend", "IMTreatment/core/scalarfield.py:ScalarField.extend"]}
{"id": "C15", "title": "import_from_arrays delivers the data whatever the axis direction", "statement": "After import_from_arrays(axe_x, axe_y, values, mask) with strictly monotonic axes (increasing or decreasing), reading the field at coordinate (axe_x[i], axe_y[j]) gives values[i, j], or masked exactly when mask[i, j] is set or values[i, j] is NaN.", "quantifier": "every pair of strictly monotonic axes, every values and mask arrays", "why_tests_cant": "orientation combinations times arbitrary masks", "anchors": ["IMTreatment/core/scalarfield.py:ScalarField.import_from_arrays", "IMTreatment/core/vectorfield.py:VectorField.import_from_arrays"]}
{"id": "C16", "title": "Scalar field addition is pointwise with mask union", "statement": "On equal grids, (f+g) at a cell is masked exactly when f or g is masked there and otherwise holds f + g expressed in f's unit; addition is commutative up to units; subtraction is addition of the opposite.", "quantifier": "every two fields on one grid, every unit ratio", "why_tests_cant": "all masks and values", "anchors": ["IMTreatment/core/scalarfield.py:ScalarField.__add__", "IMTreatment/core/scalarfield.py:ScalarField.__sub__"]}
{"id": "C17", "title": "Adding fields on different grids restricts to shared coordinates", "statement": "When grids differ, f+g lives exactly on the coordinates common to both fields, with the pointwise sum there, and raises ValueError when there are none.", "quantifier": "every two fields with increasing axes", "why_tests_cant": "arbitrary overlaps of arbitrary axes", "anchors": ["IMTreatment/core/scalarfield.py:ScalarField.__add__"]}
{"id": "C18", "title": "Division masks what cannot be divided", "statement": "f/g on one grid is masked exactly where f or g is masked or g is zero, and otherwise holds the quotient; no cell ever exposes an infinite or undefined number. The reversed division a/f obeys the same rule.", "quantifier": "every two fields/arrays on one grid", "why_tests_cant": "zero patterns are arbitrary", "anchors": ["IMTreatment/core/scalarfield.py:ScalarField.__truediv__", "IMTreatment/core/scalarfield.py:ScalarField.__rtruediv__"]}
{"id": "C19", "title": "crop_masked_border(hard=False) keeps exactly the bounding box of the valid data", "statement": "The soft variant keeps every unmasked value at its coordinate and removes exactly the fully masked border rows and columns: each remaining border line contains at least one unmasked value.", "quantifier": "every partially masked field", "why_tests_cant": "bounding boxes of arbitrary masks", "anchors": ["IMTreatment/core/scalarfield.py:ScalarField.crop_masked_border"]}
{"id": "C20", "title": "crop_masked_border(hard=True) terminates with a mask-free sub-rectangle", "statement": "The hard variant terminates and returns a sub-rectangle of the original field without any masked value.", "quantifier": "every field", "why_tests_cant": "termination and result of a greedy loop over arbitrary masks", "anchors": ["IMTreatment/core/scalarfield.py:ScalarField.crop_masked_border"]}
{"id": "C21", "title": "reduce_spatial_resolution averages the unmasked values of each block", "statement": "For an even factor, each output cell is the mean of the unmasked values of its block, masked exactly when the whole block is masked, at the middle of the block; the global mean of a mask-free field whose sizes are multiples of the factor is preserved.", "quantifier": "every field, every factor", "why_tests_cant": "all sizes, masks and factors", "anchors": ["IMTreatment/core/scalarfield.py:ScalarField.reduce_spatial_resolution"]}
{"id": "C22", "title": "Iterating over a field visits each valid point once", "statement": "Iterating over a scalar field yields exactly one entry per unmasked cell, with that cell's coordinates and value, in x-major order; masked cells are never yielded.", "quantifier": "every field", "why_tests_cant": "all shapes and masks", "anchors": ["IMTreatment/core/scalarfield.py:ScalarField.__iter__", "IMTreatment/core/field.py:Field.__iter__"]}
{"id": "C23", "title": "get_value agrees with the grid and stays between neighbours", "statement": "get_value at a grid coordinate returns the stored value; on an edge between two grid points it returns their linear interpolation, hence lies between them; a point whose surrounding cell has a masked corner gives NaN; out of range raises ValueError.", "quantifier": "every field, every point", "why_tests_cant": "continuum of points", "anchors": ["IMTreatment/core/scalarfield.py:ScalarField.get_value"]}
{"id": "C24", "title": "Points keep positions and values aligned", "statement": "Starting from a consistent set (no value, or one value per point), every sequence of public operations add, remove, crop, cut, scale, sort, remove_nans leaves a set that has either no value or exactly one per point.", "quantifier": "every history of operations with every argument", "why_tests_cant": "histories are unbounded and error paths matter", "anchors": ["IMTreatment/core/points.py:Points.add", "IMTreatment/core/points.py:Points.remove", "IMTreatment/core/points.py:Points.crop", "IMTreatment/core/points.py:Points.cut", "IMTreatment/core/points.py:Points.xy", "IMTreatment/core/points.py:Points.v"]}
{"id": "C25", "title": "Points.crop keeps exactly the points inside the closed windows, with their value", "statement": "crop(intervx, intervy, intervv) keeps, in order, exactly the points whose coordinates (and value, when there are values) lie in the given closed intervals, each with its own value.", "quantifier": "every point set, every optional intervals", "why_tests_cant": "all sets, all intervals", "anchors": ["IMTreatment/core/points.py:Points.crop"]}
{"id": "C26", "title": "Points.cut is the complement of crop", "statement": "cut with an interval removes exactly the points inside it and keeps all others with their values.", "quantifier": "every point set, every interval", "why_tests_cant": "all sets, all intervals", "anchors": ["IMTreatment/core/points.py:Points.cut"]}
{"id": "C27", "title": "Adding two point sets concatenates physical points and leaves operands unchanged", "statement": "p+q holds the points of p followed by the points of q expressed in p's units, and neither p nor q is modified.", "quantifier": "every two sets with compatible units", "why_tests_cant": "unit ratio and aliasing for all data", "anchors": ["IMTreatment/core/points.py:Points.__add__"]}
{"id": "C28", "title": "Points.reverse exchanges the two coordinates", "statement": "reverse swaps x and y of every point together with their units, and is an involution.", "quantifier": "every set", "why_tests_cant": "all sets and units", "anchors": ["IMTreatment/core/points.py:Points.reverse"]}
{"id": "C29", "title": "Oriented points stay aligned and iterate in step", "statement": "An OrientedPoints set keeps one orientation entry per point through add, remove and crop, and iterating yields each point with its own orientations.", "quantifier": "every history", "why_tests_cant": "unbounded histories", "anchors": ["IMTreatment/core/orientedpoints.py:OrientedPoints.add", "IMTreatment/core/orientedpoints.py:OrientedPoints.remove", "IMTreatment/core/orientedpoints.py:OrientedPoints.crop", "IMTreatment/core/orientedpoints.py:OrientedPoints.__iter__"]}
{"id": "C30", "title": "A profile is always sorted by x and never separates x, y and mask", "statement": "Building a profile sorts the abscissae and carries each y and each mask flag with its x; NaN values are masked.", "quantifier": "every x, y, mask of equal lengths", "why_tests_cant": "all permutations and ties", "anchors": ["IMTreatment/core/profile.py:Profile.__init__"]}
{"id": "C31", "title": "Profile.crop by values keeps exactly the points in the closed interval", "statement": "crop(intervx=[a, b]) keeps exactly the points with a <= x <= b.", "quantifier": "every profile and interval", "why_tests_cant": "all abscissae/interval configurations", "anchors": ["IMTreatment/core/profile.py:Profile.crop"]}
{"id": "C32", "title": "Profile.crop by indices is the half-open slice", "statement": "crop(intervx=[i, j], ind=True) keeps exactly points i..j-1 with y and mask.", "quantifier": "every profile and index pair", "why_tests_cant": "all sizes", "anchors": ["IMTreatment/core/profile.py:Profile.crop"]}
{"id": "C33", "title": "Profile.fill fills the masked points and only them", "statement": "fill leaves every valid value unchanged and gives a value to every masked point (linear interpolation inside, nearest valid value at the ends, or the given constant).", "quantifier": "every partially masked profile, every kind", "why_tests_cant": "arbitrary mask patterns", "anchors": ["IMTreatment/core/profile.py:Profile.fill"]}
{"id": "C34", "title": "Interpolated profile values lie on the polyline", "statement": "get_interpolated_values at a stored abscissa returns the stored values; between two abscissae it returns the linear interpolation, which lies between the neighbouring values (masked if a neighbour is masked); out of range no value is given (empty result, NaN in an array of abscissae).", "quantifier": "every profile and abscissa", "why_tests_cant": "continuum of abscissae", "anchors": ["IMTreatment/core/profile.py:Profile.get_interpolated_values", "IMTreatment/core/profile.py:Profile._get_interpolated_single_value"]}
{"id": "C35", "title": "Profile point insertion and removal keep order and content", "statement": "add_point, add_points and remove_point keep the profile sorted and change its multiset of (x, y) points by exactly the inserted or removed points.", "quantifier": "every history", "why_tests_cant": "unbounded histories, ties", "anchors": ["IMTreatment/core/profile.py:Profile.add_point", "IMTreatment/core/profile.py:Profile.add_points", "IMTreatment/core/profile.py:Profile.remove_point"]}
{"id": "C36", "title": "Profile arithmetic respects units and leaves operands unchanged", "statement": "p+q adds q expressed in p's unit; p/q masks points where q is zero; neither operation modifies p or q.", "quantifier": "every two profiles on the same abscissae", "why_tests_cant": "aliasing and all data", "anchors": ["IMTreatment/core/profile.py:Profile.__add__", "IMTreatment/core/profile.py:Profile.__truediv__"]}
{"id": "C37", "title": "Profile.crop_masked_border removes exactly the masked ends", "statement": "The result starts and ends with a valid point, contains every valid point, and is a contiguous part of the profile.", "quantifier": "every profile with a valid point and distinct abscissae", "why_tests_cant": "all mask patterns", "anchors": ["IMTreatment/core/profile.py:Profile.crop_masked_border"]}
{"id": "C38", "title": "Temporal fields keep times and fields paired and sorted", "statement": "Every sequence of add_field, remove_fields and time crop keeps as many times as fields, times in increasing order, and each field attached to the time it was added with.", "quantifier": "every history of operations", "why_tests_cant": "unbounded histories, failing calls included", "anchors": ["IMTreatment/core/temporalfields.py:TemporalFields.add_field", "IMTreatment/core/temporalfields.py:TemporalFields.remove_fields", "IMTreatment/core/temporalfields.py:TemporalFields.crop"]}
{"id": "C39", "title": "remove_fields removes exactly the requested fields", "statement": "remove_fields([i, j, ...]) removes the fields that had those indices when the call was made, and no others.", "quantifier": "every set of fields and every index list", "why_tests_cant": "index shifts depend on list order and contents", "anchors": ["IMTreatment/core/temporalfields.py:TemporalFields.remove_fields", "IMTreatment/core/fields.py:Fields.remove_field"]}
{"id": "C40", "title": "Temporal crop keeps exactly the fields in the closed time interval", "statement": "crop(intervt=[t1, t2]) keeps exactly the fields whose time lies in [t1, t2].", "quantifier": "every sorted times and interval", "why_tests_cant": "all time sets and intervals", "anchors": ["IMTreatment/core/temporalfields.py:TemporalFields.crop"]}
{"id": "C41", "title": "get_mean_field is the mean over the unmasked fields", "statement": "Each cell of the mean field is the arithmetic mean of the fields that are unmasked there, and is masked exactly when too few fields are valid there (fewer than nmb_min).", "quantifier": "every list of fields with every mask pattern, every nmb_min", "why_tests_cant": "all mask patterns and counts", "anchors": ["IMTreatment/core/temporalfields.py:TemporalFields.get_mean_field"]}
{"id": "C42", "title": "get_min_field / get_max_field are bounds reached by some field", "statement": "At each cell with enough valid fields the min (max) field equals the smallest (largest) value over the fields valid there.", "quantifier": "every list of fields", "why_tests_cant": "all mask patterns", "anchors": ["IMTreatment/core/temporalscalarfields.py:TemporalScalarFields.get_min_field", "IMTreatment/core/temporalscalarfields.py:TemporalScalarFields.get_max_field"]}
{"id": "C43", "title": "get_interpolated_field is exact at stored times and a convex combination between them", "statement": "At a stored time the stored field is returned; between two stored times every cell is the linear interpolation in time of the two neighbouring fields, hence lies between them.", "quantifier": "every sorted times and time in range", "why_tests_cant": "continuum of times", "anchors": ["IMTreatment/core/temporalfields.py:TemporalFields.get_interpolated_field"]}
{"id": "C44", "title": "reduce_temporal_resolution averages consecutive fields without losing any", "statement": "reduce_temporal_resolution(n) replaces each run of n consecutive fields by their mean and uses every complete run.", "quantifier": "every number of fields and every n", "why_tests_cant": "divisibility cases of all sizes", "anchors": ["IMTreatment/core/temporalfields.py:TemporalFields.reduce_temporal_resolution"]}
{"id": "C45", "title": "augment_temporal_resolution keeps the original times", "statement": "augment_temporal_resolution(fact) yields (n-1)*fact+1 increasing times that contain every original time.", "quantifier": "every times and factor", "why_tests_cant": "all sizes and factors", "anchors": ["IMTreatment/core/temporalfields.py:TemporalFields.augment_temporal_resolution"]}
{"id": "C46", "title": "add_field only accepts fields on the same grid and converts the time unit", "statement": "A field whose grid differs from the stored one is refused; the time of an accepted field is stored as the same physical instant in the container's unit.", "quantifier": "every field and every unit ratio", "why_tests_cant": "all mismatches of either axis", "anchors": ["IMTreatment/core/temporalfields.py:TemporalFields.add_field"]}
{"id": "C47", "title": "Arithmetic on temporal fields keeps the times", "statement": "Adding or multiplying temporal fields acts field by field and the result keeps the times of the operand.", "quantifier": "every temporal fields, every operand", "why_tests_cant": "all lengths", "anchors": ["IMTreatment/core/temporalfields.py:TemporalFields.__add__", "IMTreatment/core/temporalfields.py:TemporalFields.__mul__", "IMTreatment/core/temporalfields.py:TemporalFields.__truediv__"]}
{"id": "C48", "title": "TemporalPoints.crop is independent of its source", "statement": "A non-inplace spatial crop of a set of time-resolved points returns cropped sets and leaves the original untouched.", "quantifier": "every set and window", "why_tests_cant": "aliasing", "anchors": ["IMTreatment/core/temporalpoints.py:TemporalPoints.crop"]}
{"id": "C49", "title": "Adding a field to a spatial collection does not modify the caller's field", "statement": "SpatialFields.add_field(field) leaves the caller's field unchanged.", "quantifier": "every field", "why_tests_cant": "aliasing", "anchors": ["IMTreatment/core/spatialfields.py:SpatialFields.add_field"]}
{"id": "C50", "title": "Trajectories partition the critical points", "statement": "compute_traj puts every detected point in exactly one trajectory: the points of all trajectories together are exactly the input points, none lost, none duplicated.", "quantifier": "every list of per-time point sets, every epsilon", "why_tests_cant": "greedy matching over arbitrary point clouds and histories", "anchors": ["IMTreatment/vortex_detection/vortex_detection.py:CritPoints.compute_traj", "IMTreatment/vortex_detection/vortex_detection.py:CritPoints._get_cp_time_evolution"]}
{"id": "C51", "title": "A trajectory never skips or repeats a time step", "statement": "Consecutive points of one trajectory belong to consecutive stored times.", "quantifier": "every input", "why_tests_cant": "unbounded sequences", "anchors": ["IMTreatment/vortex_detection/vortex_detection.py:CritPoints._get_cp_time_evolution"]}
{"id": "C52", "title": "Trajectory links are no longer than epsilon", "statement": "compute_traj(epsilon) never links two points further apart than epsilon.", "quantifier": "every input, every epsilon", "why_tests_cant": "all distances", "anchors": ["IMTreatment/vortex_detection/vortex_detection.py:CritPoints._get_cp_time_evolution"]}
{"id": "C53", "title": "Linking is one-to-one, greedy and maximal", "statement": "At each time step a point continues at most one trajectory and a trajectory receives at most one point; no point and open trajectory that are both left unmatched are within the linking distance.", "quantifier": "every step of every input", "why_tests_cant": "matching over arbitrary clouds", "anchors": ["IMTreatment/vortex_detection/vortex_detection.py:CritPoints._get_cp_time_evolution"]}
{"id": "C54", "title": "Topological simplification conserves the Poincare index", "statement": "The total Poincare-Bendixson index of the points is the same before and after simplification.", "quantifier": "every point set, every radius, both algorithms", "why_tests_cant": "arbitrary merge orders", "anchors": ["IMTreatment/vortex_detection/vortex_detection.py:TopoPoints.simplify"]}
{"id": "C55", "title": "Topological simplification terminates with well separated points", "statement": "The 'replacement' algorithm terminates and the remaining (merged) points are pairwise further apart than the requested distance.", "quantifier": "every point set and finite radius", "why_tests_cant": "termination and separation of an iterative merge", "anchors": ["IMTreatment/vortex_detection/vortex_detection.py:TopoPoints.simplify"]}
{"id": "C56", "title": "Merged points sit at the centre of mass of what they replace", "statement": "Each simplified point is the barycentre, with equal weights, of the original points it stands for; the overall centre of mass is conserved by merging.", "quantifier": "every point set and radius", "why_tests_cant": "arbitrary merge trees", "anchors": ["IMTreatment/vortex_detection/vortex_detection.py:TopoPoints.simplify"]}
{"id": "C57", "title": "The Poincare-Bendixson index of a loop is an integer and adds up", "statement": "The index computed from the angles around any cell or strip of cells is an integer before rounding, and the index of a strip is the sum of the indices of its cells.", "quantifier": "every angle field of every shape", "why_tests_cant": "discrete Stokes theorem over all fields", "anchors": ["IMTreatment/vortex_detection/vortex_detection.py:VF.get_pbi", "IMTreatment/vortex_detection/vortex_detection.py:VF._check_struct_number"]}
{"id": "C58", "title": "The fast sign test never discards a critical point", "statement": "A cell discarded because one velocity component does not change sign over its corners has index 0.", "quantifier": "every 2x2 velocity cell", "why_tests_cant": "continuum of velocities", "anchors": ["IMTreatment/vortex_detection/vortex_detection.py:VF.get_cp_cell_position"]}
{"id": "C59", "title": "A refined critical point stays in its cell and is a zero of the interpolated field", "statement": "The position returned for a detected cell lies in that cell and the bilinear interpolation of the velocity vanishes there.", "quantifier": "every cell", "why_tests_cant": "continuum of corner velocities", "anchors": ["IMTreatment/vortex_detection/vortex_detection.py:VF.get_cp_position"]}
{"id": "C60", "title": "Merging critical points does not depend on the processing order", "statement": "Summing per-field results gives the same time-sorted collection whatever the order in which the fields were processed, and refuses two results at one time.", "quantifier": "every list of results and every processing order", "why_tests_cant": "all schedules", "anchors": ["IMTreatment/vortex_detection/vortex_detection.py:CritPoints.__add__", "IMTreatment/vortex_detection/vortex_detection.py:get_critical_points"]}
{"id": "C61", "title": "Critical point collections keep times and point sets paired, sorted and distinct", "statement": "After any sequence of add_point and remove_point the collection has one entry of each type per time, times strictly increasing, each entry attached to the time it was added with; a duplicate time is refused and leaves the collection unchanged.", "quantifier": "every history", "why_tests_cant": "unbounded histories", "anchors": ["IMTreatment/vortex_detection/vortex_detection.py:CritPoints.add_point", "IMTreatment/vortex_detection/vortex_detection.py:CritPoints.remove_point", "IMTreatment/vortex_detection/vortex_detection.py:CritPoints._sort_by_time"]}
{"id": "C62", "title": "Changing the points invalidates the trajectories", "statement": "After add_point, remove_point or a spatial crop no trajectory computed from the old points remains available.", "quantifier": "every history", "why_tests_cant": "histories", "anchors": ["IMTreatment/vortex_detection/vortex_detection.py:CritPoints._remove_trajectories"]}
{"id": "C63", "title": "Mean trajectories use each trajectory at most once", "statement": "get_mean_trajectory terminates and every input trajectory is either dropped as too short, skipped, or used in exactly one mean trajectory.", "quantifier": "every set of trajectories and every similarity outcome", "why_tests_cant": "iterated clustering with arbitrary similarity", "anchors": ["IMTreatment/vortex_detection/vortex_detection.py:CritPoints.get_mean_trajectory"]}
{"id": "C64", "title": "ASCII export/import round trip of a scalar field", "statement": "import_sf_from_ascii applied to the table written by export_to_ascii gives back the same axes, values and mask.", "quantifier": "every scalar field with at least two points per axis", "why_tests_cant": "all shapes, values, masks", "anchors": ["IMTreatment/file_operation/file_operation.py:export_to_ascii", "IMTreatment/file_operation/file_operation.py:import_sf_from_ascii"]}
{"id": "C65", "title": "ASCII export/import round trip of a vector field", "statement": "import_vf_from_ascii applied to the table written by export_to_ascii gives back the same axes, components and mask, in whatever order the rows come.", "quantifier": "every vector field, every row order", "why_tests_cant": "all shapes and row permutations", "anchors": ["IMTreatment/file_operation/file_operation.py:export_to_ascii", "IMTreatment/file_operation/file_operation.py:import_vf_from_ascii"]}
{"id": "C66", "title": "Picture export/import round trip", "statement": "Exporting a field as a picture and importing it gives the same pixel at the same place; exporting one field and a list of fields orient the picture identically.", "quantifier": "every picture", "why_tests_cant": "all shapes", "anchors": ["IMTreatment/file_operation/file_operation.py:export_to_picture", "IMTreatment/file_operation/file_operation.py:export_to_pictures", "IMTreatment/file_operation/file_operation.py:import_from_picture"]}
{"id": "C67", "title": "export_to_file and import_from_file agree on the file name", "statement": "What export_to_file(obj, name) wrote can be found by import_from_file at the name obtained by the documented extension rule, and a second export with that name writes the same file.", "quantifier": "every file name and compression flag", "why_tests_cant": "all names", "anchors": ["IMTreatment/file_operation/file_operation.py:export_to_file", "IMTreatment/file_operation/file_operation.py:import_from_file"]}
{"id": "C68", "title": "Importing with reversed scales puts each value at its physical coordinate", "statement": "Importing a DaVis scalar picture with a negative step reverses the axis together with values and mask, so that the value of pixel i is read at x0 + i*dx, on increasing axes.", "quantifier": "every size, origin and step", "why_tests_cant": "all sizes and signs", "anchors": ["IMTreatment/file_operation/file_operation.py:import_from_IM7", "IMTreatment/file_operation/file_operation.py:import_from_VC7"]}
{"id": "C69", "title": "Video import picks the requested frames at their physical time", "statement": "Frames are numbered from 0, exactly the frames i in [first, last) with i multiple of the increment are returned, in order, at time i*dt.", "quantifier": "every video length, window and increment", "why_tests_cant": "all sizes", "anchors": ["IMTreatment/file_operation/file_operation.py:import_from_video"]}
{"id": "C70", "title": "Recursive file search returns exactly the matching folders", "statement": "find_file_in_path returns exactly the folders under the root that contain a file of a requested extension.", "quantifier": "every directory tree", "why_tests_cant": "all trees", "anchors": ["IMTreatment/file_operation/file_operation.py:find_file_in_path"]}
{"id": "C71", "title": "A memoised function returns what the function returns", "statement": "Across any sequence of calls and process restarts sharing one cache file, each call returns the value of the wrapped function on its arguments, computing it at most once per distinct argument.", "quantifier": "every call history with restarts", "why_tests_cant": "unbounded histories", "anchors": ["IMTreatment/utils/memoization.py:memoize_to_file"]}
{"id": "C72", "title": "A crash while the cache is written does not make the function unusable", "statement": "After a crash at any point of the cache file update the decorated function can be loaded again and still returns right values.", "quantifier": "every crash point", "why_tests_cant": "all crash points", "anchors": ["IMTreatment/utils/memoization.py:memoize_to_file"]}
{"id": "C73", "title": "Files collections keep their three lists parallel", "statement": "paths, existence flags and directory flags have the same length and describe the same file index by index after any sequence of add and remove.", "quantifier": "every history", "why_tests_cant": "unbounded histories", "anchors": ["IMTreatment/utils/files.py:Files.add_file", "IMTreatment/utils/files.py:Files.remove_files"]}
{"id": "C74", "title": "The progress counter reports and finishes", "statement": "After exactly nmb_max calls the counter has reported 100% last; the number of reports is bounded by the report period whatever nmb_max.", "quantifier": "every nmb_max and period", "why_tests_cant": "all sizes", "anchors": ["IMTreatment/utils/progresscounter.py:ProgressCounter.print_progress"]}
{"id": "C75", "title": "Durations are displayed without loss", "statement": "The displayed days, hours, minutes and seconds of a duration represent that duration.", "quantifier": "every duration", "why_tests_cant": "unbounded durations", "anchors": ["IMTreatment/utils/progresscounter.py:ProgressCounter._format_time"]}
{"id": "C76", "title": "Type-checking decorators reject exactly ill-typed calls", "statement": "A decorated function runs with unchanged arguments when each checked argument has an admissible type and otherwise raises TypeError without running.", "quantifier": "every signature and call", "why_tests_cant": "all argument splits positional/keyword", "anchors": ["IMTreatment/utils/types.py:TypeTest"]}
{"id": "C77", "title": "Output silencing restores the descriptors and leaks none", "statement": "Leaving the context restores stdout and stderr and leaves as many open descriptors as before.", "quantifier": "every number of uses and nesting", "why_tests_cant": "unbounded histories", "anchors": ["IMTreatment/utils/codeinteraction.py:RemoveFortranOutput"]}
{"id": "C78", "title": "The processing protocol resumes after a crash and ends with all products up to date", "statement": "After a crash at any point, running compute_everything again produces every missing product, recomputes every product depending on a recomputed one, and a further run does nothing.", "quantifier": "every crash point, every subset of existing products", "why_tests_cant": "all crash points", "anchors": ["IMTreatment/protocols/protocols.py:POD_CP_protocol.compute_everything"]}
{"id": "C79", "title": "Unit objects assigned to an axis are pure units", "statement": "Only units whose numeric factor is 1 can be stored as axis or value units, so that numbers are never silently rescaled.", "quantifier": "every unit assignment", "why_tests_cant": "continuum of factors", "anchors": ["IMTreatment/core/field.py:Field.unit_x", "IMTreatment/core/scalarfield.py:ScalarField.unit_values", "IMTreatment/core/vectorfield.py:VectorField.unit_values"]}
{"id": "C80", "title": "get_points_around returns the grid points of the disc", "statement": "get_points_around((x, y), r, ind=True) returns exactly the index pairs of the field at distance at most r from the center, each once.", "quantifier": "every center, every radius, every field", "why_tests_cant": "the disc boundary and the inscribed-square shortcut interact for arbitrary radii", "anchors": ["IMTreatment/core/field.py:Field.get_points_around"]}
{"id": "C81", "title": "Products of scalar fields are pointwise with mask union", "statement": "On one grid, f*g is masked exactly where f or g is masked and designates otherwise the physical product of the two values; (f*g)/g gives back f wherever g is neither masked nor zero; different grids raise ValueError.", "quantifier": "every two fields on one grid, every unit pair", "why_tests_cant": "all masks, values and unit pairs", "anchors": ["IMTreatment/core/scalarfield.py:ScalarField.__mul__", "IMTreatment/core/scalarfield.py:ScalarField.__truediv__"]}
{"id": "C82", "title": "fill(kind='value') touches the masked points only", "statement": "After fill(kind='value', value=v) every point that was masked reads v, every other reading is unchanged and nothing is masked; without inplace the source keeps its own readings and grid.", "quantifier": "every field, every fill value", "why_tests_cant": "all masks", "anchors": ["IMTreatment/core/scalarfield.py:ScalarField.fill"]}
{"id": "C83", "title": "Trajectories are returned longest first", "statement": "compute_traj returns the trajectories of each type sorted by decreasing number of points, a permutation of the trajectories that were built.", "quantifier": "every input", "why_tests_cant": "the order must hold for every set of trajectories", "anchors": ["IMTreatment/vortex_detection/vortex_detection.py:CritPoints._get_cp_time_evolution"]}
{"id": "C84", "title": "'only_delete' simplification removes only close opposite pairs", "statement": "simplify(kind='only_delete') removes disjoint pairs of points of opposite index closer than the radius, keeps every other point (with non-zero index) unchanged and in order, and leaves no such pair among the kept points.", "quantifier": "every point set, every radius", "why_tests_cant": "greedy removal over arbitrary clouds", "anchors": ["IMTreatment/vortex_detection/vortex_detection.py:TopoPoints.simplify"]}
{"id": "C85", "title": "The indices of the detected critical points add up to the index of the border", "statement": "For a field without masked point, the sum of the Poincare-Bendixson indices of the cells reported by the detection equals the index computed along the border of the whole field.", "quantifier": "every velocity field of every size", "why_tests_cant": "arbitrary velocity fields; relates local detection to a global quantity", "anchors": ["IMTreatment/vortex_detection/vortex_detection.py:VF.get_cp_cell_position", "IMTreatment/vortex_detection/vortex_detection.py:VF.get_pbi"]}
{"id": "C86", "title": "Points.sort rearranges points and values together", "statement": "sort(ref) gives a permutation of the points, each with its own value, in increasing order of the reference (x, y or v).", "quantifier": "every consistent point set, every reference", "why_tests_cant": "all sets, ties and missing values included", "anchors": ["IMTreatment/core/points.py:Points.sort"]}
{"id": "C87", "title": "Points.remove removes the given points and no other", "statement": "remove(ind) deletes exactly the points at the given indices; the others stay in order, each with its value.", "quantifier": "every consistent point set, every list of valid indices", "why_tests_cant": "all sets and index lists", "anchors": ["IMTreatment/core/points.py:Points.remove"]}
{"id": "C88", "title": "A boolean mask argument applies to every point", "statement": "Profile(x, y, mask=True) masks every point and mask=False masks only the NaN values.", "quantifier": "every x and y of equal lengths", "why_tests_cant": "all data", "anchors": ["IMTreatment/core/profile.py:Profile.__init__"]}
{"id": "C89", "title": "Points.scale and Points.set_origin act on every point and only on the named quantity", "statement": "scale multiplies the abscissae, ordinates and values of all points by their own factor; set_origin gives all positions relative to the new origin; no point is lost or moved in the list.", "quantifier": "every consistent point set, every factor and origin", "why_tests_cant": "all sets", "anchors": ["IMTreatment/core/points.py:Points.scale", "IMTreatment/core/points.py:Points.set_origin"]}
{"id": "C90", "title": "Profile.crop by y keeps exactly the points in the open interval", "statement": "crop(intervy=[a, b]) keeps exactly the unmasked points with a < y < b, in order; a reversed interval is refused.", "quantifier": "every profile and interval", "why_tests_cant": "all value configurations", "anchors": ["IMTreatment/core/profile.py:Profile.crop"]}
{"id": "C91", "title": "Profile.scale and Profile.change_unit keep the physical curve", "statement": "scale multiplies abscissae and values by the given factors, keeping the profile sorted (negative factors included); change_unit changes numbers and unit so that every point designates the same quantities, and refuses another dimension.", "quantifier": "every profile, factor and unit", "why_tests_cant": "all data and units", "anchors": ["IMTreatment/core/profile.py:Profile.scale", "IMTreatment/core/profile.py:Profile.change_unit"]}
{"id": "C92", "title": "Sums with numbers, products with numbers, opposites and powers of profiles act pointwise and keep masks", "statement": "p+c, p*c, -p and p**k apply the operation to each valid value and leave masked points masked.", "quantifier": "every profile, number and exponent", "why_tests_cant": "all data and masks", "anchors": ["IMTreatment/core/profile.py:Profile.__add__", "IMTreatment/core/profile.py:Profile.__mul__", "IMTreatment/core/profile.py:Profile.__neg__", "IMTreatment/core/profile.py:Profile.__pow__"]}
{"id": "C93", "title": "Reverse lookup on a profile returns exactly the positions where the polyline takes the value", "statement": "get_interpolated_values(y=v) and get_value_position(v) return every abscissa at which the polyline of the unmasked points takes the value v, and nothing else; interpolating at a returned abscissa gives v back.", "quantifier": "every profile with distinct abscissae, every value", "why_tests_cant": "continuum of values, arbitrary shapes", "anchors": ["IMTreatment/core/profile.py:Profile.get_interpolated_values", "IMTreatment/core/profile.py:Profile.get_value_position"]}
{"id": "C94", "title": "Profile.remove_nans removes exactly the masked points", "statement": "After remove_nans the points are exactly the unmasked ones, in order, and nothing is masked.", "quantifier": "every profile", "why_tests_cant": "all masks", "anchors": ["IMTreatment/core/profile.py:Profile.remove_nans"]}
{"id": "C95", "title": "Profile.max and Profile.min are the extrema of the valid values", "statement": "max (min) is attained by a valid point, bounds every valid value, and is None exactly when every point is masked.", "quantifier": "every profile", "why_tests_cant": "all data and masks", "anchors": ["IMTreatment/core/profile.py:Profile.max", "IMTreatment/core/profile.py:Profile.min"]}
{"id": "C96", "title": "Profile.get_integral is the area under the polyline of the valid points", "statement": "The integral is the trapezium area on a segment, additive when the profile is cut at a valid point, insensitive to masked points, linear in the values and non-negative for non-negative values; its unit is the product of the units.", "quantifier": "every profile", "why_tests_cant": "all shapes and masks", "anchors": ["IMTreatment/core/profile.py:Profile.get_integral"]}
{"id": "C97", "title": "Scaling temporal fields scales every field and every time alike", "statement": "scale(scalex, scaley, scalev, scalet) shows, in every field, the scaled values at the scaled points, and multiplies every time; the fields stay on the grid of the container.", "quantifier": "every container, every non-zero factors with their units", "why_tests_cant": "all numbers of fields and sign combinations", "anchors": ["IMTreatment/core/temporalfields.py:TemporalFields.scale"]}
{"id": "C98", "title": "Changing a unit of temporal fields keeps every physical quantity", "statement": "change_unit('x'|'y'|'values'|'time', unit) leaves the physical position, value and instant of every point of every field unchanged, keeps the fields on the grid of the container, and refuses a unit of another dimension.", "quantifier": "every container and unit", "why_tests_cant": "all units and numbers of fields", "anchors": ["IMTreatment/core/temporalfields.py:TemporalFields.change_unit"]}
{"id": "C99", "title": "Moving the origin and rotating temporal fields acts on every field alike", "statement": "set_origin and rotate move each contained field exactly as the same operation on a single field does, keep the times, and keep all fields on the grid of the container; angles that are not multiples of 90 are refused.", "quantifier": "every container with at least two points per axis, every origin and angle", "why_tests_cant": "all containers", "anchors": ["IMTreatment/core/temporalfields.py:TemporalFields.set_origin"]}
{"id": "C100", "title": "A collection of point sets keeps each set with its instant through any history", "statement": "After any sequence of add_pts and remove_pts the times are sorted and each point set is found with the instant it was added at; removal deletes the chosen instants and no other.", "quantifier": "every sequence of additions and removals", "why_tests_cant": "histories of unbounded length", "anchors": ["IMTreatment/core/temporalpoints.py:TemporalPoints.add_pts", "IMTreatment/core/temporalpoints.py:TemporalPoints.remove_pts"]}
{"id": "C101", "title": "Adding a point set to a collection leaves the caller's object independent", "statement": "After add_pts(pts), operating in place on the collection does not change the caller's pts, and conversely.", "quantifier": "every collection, every point set, every later operation", "why_tests_cant": "aliasing shows only in later histories", "anchors": ["IMTreatment/core/temporalpoints.py:TemporalPoints.add_pts", "IMTreatment/core/temporalpoints.py:TemporalPoints.crop"]}
{"id": "C102", "title": "TemporalPoints.scale scales positions, values and instants and leaves the source unchanged", "statement": "scale(scalex, scaley, scalev, scalet) multiplies each position, value and instant by its factor, keeps sets and instants paired, and without inplace leaves the source as it was.", "quantifier": "every collection, every factor", "why_tests_cant": "all collections and shared objects", "anchors": ["IMTreatment/core/temporalpoints.py:TemporalPoints.scale"]}
{"id": "C103", "title": "Changing a unit of a collection of points keeps every physical position and instant", "statement": "change_unit('x'|'y'|'v'|'time', unit) leaves the physical position, value and instant of every point unchanged and refuses a unit of another dimension.", "quantifier": "every collection and unit", "why_tests_cant": "all units and numbers of sets", "anchors": ["IMTreatment/core/temporalpoints.py:TemporalPoints.change_unit"]}
{"id": "C104", "title": "SpatialFields.get_value is the mean of the fields that cover the point", "statement": "get_value(x, y) returns the mean of the values of the fields whose rectangle holds (x, y), and refuses a point covered by no field.", "quantifier": "every collection of fields, every point", "why_tests_cant": "all overlaps of arbitrary grids", "anchors": ["IMTreatment/core/spatialfields.py:SpatialFields.get_value"]}
{"id": "C105", "title": "A collection of spatial fields shows the physical content of each added field", "statement": "add_field appends a field in the units of the collection that shows every valid value of the given field at its physical position and nothing else; a field with a unit of another dimension is refused and the collection is unchanged.", "quantifier": "every collection and field", "why_tests_cant": "all masks, units and grids", "anchors": ["IMTreatment/core/spatialfields.py:SpatialFields.add_field"]}
{"id": "C106", "title": "Rotating a vector field by multiples of 90 degrees turns positions and vectors together", "statement": "rotate(angle) moves every grid point and turns every vector by the angle, masked points staying masked, units following the axes; any other angle is refused.", "quantifier": "every vector field with at least two points per axis, every angle", "why_tests_cant": "all grids, masks and angles", "anchors": ["IMTreatment/core/vectorfield.py:VectorField.rotate"]}
{"id": "C107", "title": "Cropping a vector field keeps exactly the vectors inside the window", "statement": "crop(intervx, intervy) shows the same vectors at the same coordinates inside the closed window and nothing outside; a missing interval stands for the whole axis; crops by indices keep the designated points.", "quantifier": "every vector field, window and index interval", "why_tests_cant": "all grids, masks and windows", "anchors": ["IMTreatment/core/vectorfield.py:VectorField.crop"]}
{"id": "C108", "title": "Moving the origin and changing a unit of a vector field keep its physical content", "statement": "set_origin shifts every position and nothing else; change_unit leaves the physical position and physical vector of every point unchanged and refuses a unit of another dimension.", "quantifier": "every vector field, origin and unit", "why_tests_cant": "all data and units", "anchors": ["IMTreatment/core/vectorfield.py:VectorField.change_unit", "IMTreatment/core/vectorfield.py:VectorField.set_origin"]}
{"id": "C109", "title": "Extending a vector field keeps every vector and masks the new points", "statement": "extend(nmb_left, nmb_right, nmb_up, nmb_down, inplace=True) keeps every vector at its coordinates and adds only masked points outside.", "quantifier": "every vector field with at least two points per axis, every numbers of lines", "why_tests_cant": "all sizes and masks", "anchors": ["IMTreatment/core/vectorfield.py:VectorField.extend"]}
{"id": "C110", "title": "Iterating over a vector field yields each valid vector once", "statement": "Iteration yields exactly the unmasked grid points, each with its indices, coordinates and components.", "quantifier": "every vector field", "why_tests_cant": "all masks and sizes", "anchors": ["IMTreatment/core/vectorfield.py:VectorField.__iter__"]}
{"id": "C111", "title": "Importing component arrays gives a vector field showing each vector at its coordinates", "statement": "import_from_arrays accepts strictly monotone axes, increasing or decreasing, and arrays in both layouts; the field shows each pair of components at its coordinates and is masked exactly where the mask says so or a component is NaN.", "quantifier": "every pair of monotone axes, arrays and mask", "why_tests_cant": "all orientations and masks", "anchors": ["IMTreatment/core/vectorfield.py:VectorField.import_from_arrays"]}
{"id": "C112", "title": "Sums and differences of vector fields on one grid act on each physical vector", "statement": "f+g and f-g on one grid are masked exactly where f or g is, hold the sum (difference) of the physical vectors elsewhere, do not depend physically on the order, and refuse other dimensions.", "quantifier": "every pair of vector fields on one grid", "why_tests_cant": "all data, units and masks", "anchors": ["IMTreatment/core/vectorfield.py:VectorField.__add__", "IMTreatment/core/vectorfield.py:VectorField.__sub__", "IMTreatment/core/vectorfield.py:VectorField.__neg__"]}
{"id": "C113", "title": "Sums of vector fields on different grids are the sums on the shared points", "statement": "f+g on different grids is a field on the coordinates shared by both axes, holding there the sum of the physical vectors, masked where f or g is.", "quantifier": "every pair of vector fields", "why_tests_cant": "all overlaps of grids", "anchors": ["IMTreatment/core/vectorfield.py:VectorField.__add__"]}
{"id": "C114", "title": "Products of a vector field with a number or a scalar field act pointwise and combine units", "statement": "f*c multiplies every vector; f*s on one grid multiplies each vector by the scalar at its point, is masked where f or s is, has the product of the units, and a scalar field on another grid is refused.", "quantifier": "every vector field, number and scalar field", "why_tests_cant": "all data, units and masks", "anchors": ["IMTreatment/core/vectorfield.py:VectorField.__mul__"]}
{"id": "C115", "title": "Cropping the masked borders of a vector field returns the bounding box or a mask-free sub-rectangle", "statement": "crop_masked_border(hard=False) returns the bounding rectangle of the valid vectors; hard=True terminates and returns a sub-rectangle without masked point; values and coordinates are kept.", "quantifier": "every vector field", "why_tests_cant": "all masks and sizes", "anchors": ["IMTreatment/core/vectorfield.py:VectorField.crop_masked_border"]}
{"id": "C116", "title": "Importing a text table of a scalar field shows each value at its coordinates", "statement": "import_sf_from_ascii shows each value of the table at its coordinates, in whatever order the rows of a complete table come, and shows the points missing from the table as masked.", "quantifier": "every table", "why_tests_cant": "all row orders, shapes and missing rows", "anchors": ["IMTreatment/file_operation/file_operation.py:import_sf_from_ascii"]}
{"id": "C117", "title": "Importing a DaVis vector file puts each vector at its physical coordinate", "statement": "import_from_VC7 gives increasing axes and shows at x0+i*dx, y0+j*dy the scaled vector of rank (i, j), each component counted along its axis; vectors that the file masks, and null ones, are masked.", "quantifier": "every size, origin, step, scale and mask", "why_tests_cant": "all signs of the steps and masks", "anchors": ["IMTreatment/file_operation/file_operation.py:import_from_VC7"]}
{"id": "C118", "title": "Pictures exported from a collection are read back in the same order", "statement": "The names written by export_to_pictures are all different and sort, as import_from_pictures does, in the order of the fields.", "quantifier": "every number of fields", "why_tests_cant": "unbounded numbers of pictures", "anchors": ["IMTreatment/file_operation/file_operation.py:export_to_pictures", "IMTreatment/file_operation/file_operation.py:import_from_pictures"]}
{"id": "C119", "title": "Gradients of a scalar field are the slopes to its neighbours in physical units", "statement": "get_gradients shows at every point the slope between the readings of the neighbours on both sides (between the point and its only neighbour on the borders), in the unit of the values over the unit of the axis, on the same axes, masked where one of these readings is.", "quantifier": "every scalar field", "why_tests_cant": "all grids, masks and units", "anchors": ["IMTreatment/field_treatment/field_treatment.py:get_gradients"]}
{"id": "C120", "title": "Gradients of an affine field are its coefficients", "statement": "On evenly spaced axes, get_gradients of a field showing a*x+b*y+c shows a and b wherever it is not masked, for every mask.", "quantifier": "every affine field, grid and mask", "why_tests_cant": "all coefficients, sizes and masks", "anchors": ["IMTreatment/field_treatment/field_treatment.py:get_gradients"]}
{"id": "C121", "title": "Gradients and divergence of a vector field act on each component", "statement": "get_gradients of a vector field shows the slopes of both components along both axes, and get_divergence the sum dVx/dx + dVy/dy, in physical units; axes of different dimensions are refused by the divergence.", "quantifier": "every vector field", "why_tests_cant": "all grids, masks and units", "anchors": ["IMTreatment/field_treatment/field_treatment.py:get_gradients", "IMTreatment/field_treatment/field_treatment.py:get_divergence"]}
{"id": "C122", "title": "The gradient field of a component holds its two gradients", "statement": "get_grad_field shows at each point the two gradients of the chosen component with their unit.", "quantifier": "every vector field and component", "why_tests_cant": "all grids, masks and units", "anchors": ["IMTreatment/field_treatment/field_treatment.py:get_grad_field"]}
{"id": "C123", "title": "Track and field lines are streamlines of the field turned by a quarter turn", "statement": "get_track_field turns every vector by a quarter turn and keeps the mask and units; get_tracklines and get_fieldlines return the streamlines of the turned field from the given seeds, forwards or backwards as asked.", "quantifier": "every vector field, list of seeds and direction", "why_tests_cant": "all data and masks", "anchors": ["IMTreatment/field_treatment/field_treatment.py:get_track_field", "IMTreatment/field_treatment/field_treatment.py:get_tracklines", "IMTreatment/field_treatment/field_treatment.py:get_fieldlines"]}
{"id": "C124", "title": "Reconstruction from gradients gives the field back up to its mean", "statement": "reconstruct_from_gradients of the gradients of a field shows the field minus its mean over the grid, in physical units: exactly for gradients consistent with the trapezoidal rule, among them the exact gradients of quadratic polynomials and what get_gradients gives for affine fields.", "quantifier": "every pair of gradient fields on an evenly spaced grid", "why_tests_cant": "unbounded grid sizes, sweeps in four directions", "anchors": ["IMTreatment/field_treatment/field_treatment.py:reconstruct_from_gradients"]}
{"id": "C125", "title": "Fast streamlines start at their seeds and follow the velocity", "statement": "get_streamlines_fast returns one streamline per seed of the field, in order, starting at the seed; every point follows the previous one at a fixed distance in the direction of the velocity (or its opposite); all but the last are in the field; the number of points is bounded; reversed streamlines are those of the opposite field.", "quantifier": "every velocity field, seeds and step", "why_tests_cant": "unbounded number of points; all velocity fields", "anchors": ["IMTreatment/field_treatment/field_treatment.py:get_streamlines_fast"]}
{"id": "C126", "title": "Streamlines start at the given seeds", "statement": "get_streamlines returns one streamline per seed inside the field, starting at that seed, whatever the numeric type of the coordinates.", "quantifier": "every list of seeds", "why_tests_cant": "all axes and seeds", "anchors": ["IMTreatment/field_treatment/field_treatment.py:get_streamlines"]}
{"id": "C127", "title": "Extrapolation to a wall puts the zero line at the wall", "statement": "extrapolate_until_wall extends the field with its own step up to the given position, sets to zero the line nearest to the wall and keeps the data.", "quantifier": "every axis and wall position", "why_tests_cant": "all positions and lengths", "anchors": ["IMTreatment/field_treatment/field_treatment.py:extrapolate_until_wall"]}
{"id": "C128", "title": "Non-local vortex criteria use the whole disc around a point and are masked without it", "statement": "get_gamma and get_kappa use all the grid points within the given radius of a point, each once; they show a value exactly where all of them are in the field and not masked, and that value depends on the velocities at these points only, for a radius in number of vectors or in axis units.", "quantifier": "every field, mask and radius", "why_tests_cant": "all sizes, masks and radii", "anchors": ["IMTreatment/vortex_criterions/vortex_criterions.py:get_gamma", "IMTreatment/vortex_criterions/vortex_criterions.py:get_kappa", "IMTreatment/vortex_criterions/vortex_criterions.py:_non_local_criterion_precomputation"]}
{"id": "C129", "title": "Gamma and kappa lie between -1 and 1", "statement": "Every value shown by get_gamma and get_kappa, of kinds gamma1, gamma2, kappa1 and kappa2, lies between -1 and 1; 'gamma1b' is gamma1 times the norm of the mean velocity around the point, 'gamma2b' is at most gamma2 in size.", "quantifier": "every field, mask, radius and kind", "why_tests_cant": "all velocities", "anchors": ["IMTreatment/vortex_criterions/vortex_criterions.py:get_gamma", "IMTreatment/vortex_criterions/vortex_criterions.py:get_kappa"]}
{"id": "C130", "title": "Gamma and kappa do not depend on the intensity of the flow, nor gamma2 and kappa2 on a uniform flow", "statement": "A velocity multiplied by a positive number leaves gamma and kappa unchanged; adding a uniform velocity leaves gamma2 and kappa2 unchanged; kappa1 is gamma1 of the velocity turned by a quarter turn.", "quantifier": "every field, factor and uniform velocity", "why_tests_cant": "all velocities and factors", "anchors": ["IMTreatment/vortex_criterions/vortex_criterions.py:get_gamma", "IMTreatment/vortex_criterions/vortex_criterions.py:get_kappa"]}
{"id": "C131", "title": "Gamma1 is one at the centre of a vortex, and only there", "statement": "At the centre of a vortex of any velocity profile gamma1 is 1 (counter-clockwise) or -1 (clockwise); a solid rotation around any point has gamma2 1 or -1 everywhere; conversely gamma1 is 1 only if all the velocities around the point turn around it.", "quantifier": "every field, radius, point and velocity profile", "why_tests_cant": "all velocity profiles", "anchors": ["IMTreatment/vortex_criterions/vortex_criterions.py:get_gamma", "IMTreatment/vortex_criterions/vortex_criterions.py:get_kappa"]}
{"id": "C132", "title": "Kappa2 measures the source around a point relatively to the mean velocity", "statement": "kappa2 at a point uses the velocities relative to the mean velocity of its neighbourhood.", "quantifier": "every field, radius and point", "why_tests_cant": "all velocities", "anchors": ["IMTreatment/vortex_criterions/vortex_criterions.py:get_kappa"]}
{"id": "C133", "title": "Vorticity and divergence are made of the slopes of the components", "statement": "get_vorticity shows dVy/dx - dVx/dy and get_divergence (of the vortex criteria) dVx/dx + dVy/dy, in physical units, at every point whose neighbours are not masked, whatever was interpolated elsewhere.", "quantifier": "every vector field", "why_tests_cant": "all grids, masks and units", "anchors": ["IMTreatment/vortex_criterions/vortex_criterions.py:get_vorticity", "IMTreatment/vortex_criterions/vortex_criterions.py:get_divergence"]}
{"id": "C134", "title": "Vorticity and divergence obey the identities of vector calculus", "statement": "The vorticity of a numerical gradient is zero everywhere; a uniform flow changes neither vorticity nor divergence; the divergence of the field turned by a quarter turn is given by its vorticity.", "quantifier": "every vector field and potential", "why_tests_cant": "unbounded grids, borders included", "anchors": ["IMTreatment/vortex_criterions/vortex_criterions.py:get_vorticity", "IMTreatment/vortex_criterions/vortex_criterions.py:get_divergence"]}
{"id": "C135", "title": "Residual and shear vorticity split the vorticity", "statement": "At each point residual and shear vorticities add up to the vorticity with sizes that add up too; a solid rotation is residual only, a simple shear has no residual part, and the split does not depend on the axes.", "quantifier": "every velocity gradient and angle", "why_tests_cant": "all real gradients and rotations", "anchors": ["IMTreatment/vortex_criterions/vortex_criterions.py:get_residual_vorticity", "IMTreatment/vortex_criterions/vortex_criterions.py:get_shear_vorticity"]}
{"id": "C136", "title": "Q and Nk compare rotation and strain", "statement": "get_q_criterion shows half the difference of the squared norms of rotation and strain, positive where rotation dominates; get_Nk_criterion their ratio, above one exactly there; both are independent of the axes.", "quantifier": "every velocity gradient", "why_tests_cant": "all real gradients and rotations", "anchors": ["IMTreatment/vortex_criterions/vortex_criterions.py:get_q_criterion", "IMTreatment/vortex_criterions/vortex_criterions.py:get_Nk_criterion"]}
{"id": "C137", "title": "Delta tells where streamlines turn", "statement": "get_delta_criterion is masked exactly where the gradient has a real eigenvalue, is negative where the streamlines turn, and scales as its unit says.", "quantifier": "every velocity gradient", "why_tests_cant": "all real gradients", "anchors": ["IMTreatment/vortex_criterions/vortex_criterions.py:get_delta_criterion"]}
{"id": "C138", "title": "lambda2 and the swirling strength are what they are named after, and agree", "statement": "get_lambda2 shows the smallest eigenvalue of S^2 + Omega^2, with or without raw; get_swirling_strength the imaginary part of the eigenvalues of the gradient; in a flow without divergence lambda2, swirling strength, residual vorticity, Delta and Nk find the same vortices.", "quantifier": "every velocity gradient", "why_tests_cant": "all real gradients", "anchors": ["IMTreatment/vortex_criterions/vortex_criterions.py:get_lambda2", "IMTreatment/vortex_criterions/vortex_criterions.py:get_swirling_strength"]}
{"id": "C139", "title": "The Stokes vorticity is the circulation over the area of the window", "statement": "get_stokes_vorticity shows at the centre of each window its circulation divided by its area (the curl for a constant gradient), is masked exactly where the window has a masked point, and gives zero for a potential flow.", "quantifier": "every field, mask and window size", "why_tests_cant": "unbounded windows (sum over cells by induction)", "anchors": ["IMTreatment/vortex_criterions/vortex_criterions.py:get_stokes_vorticity"]}
{"id": "C140", "title": "The non-local residual vorticity fits the gradient", "statement": "On a flow with constant gradient, get_NL_residual_vorticity shows the residual vorticity of that gradient whatever the radius, wherever the neighbourhood is complete.", "quantifier": "every gradient, radius and mask", "why_tests_cant": "all radii", "anchors": ["IMTreatment/vortex_criterions/vortex_criterions.py:get_NL_residual_vorticity"]}
{"id": "C141", "title": "The enstrophy integrates the squared vorticity around each point", "statement": "get_enstrophy shows the sum of the squared vorticities over the disc around the point, itself included, times the area of a cell: never negative, zero only where the vorticity is zero on the whole disc.", "quantifier": "every field, radius and mask", "why_tests_cant": "all fields and radii", "anchors": ["IMTreatment/vortex_criterions/vortex_criterions.py:get_enstrophy"]}
{"id": "C142", "title": "Each analytic vortex is the flow it is named after", "statement": "get_vector of each vortex gives at every point, whatever the quadrant, the closed formula of its kind: solid rotation, free vortex, Lamb-Oseen, Burger, Rankine (continuous at its radius), with the sense of rotation given by the sign of its strength, and nothing at its centre.", "quantifier": "every centre, strength and point", "why_tests_cant": "all real points; every quadrant of the angle", "anchors": ["IMTreatment/vortex_creation/vortex_creation.py:SolidVortex", "IMTreatment/vortex_creation/vortex_creation.py:FreeVortex", "IMTreatment/vortex_creation/vortex_creation.py:BurgerVortex", "IMTreatment/vortex_creation/vortex_creation.py:LambOseenVortex", "IMTreatment/vortex_creation/vortex_creation.py:RankineVortex", "IMTreatment/vortex_creation/vortex_creation.py:PersoVortex", "IMTreatment/vortex_creation/vortex_creation.py:HillVortex", "IMTreatment/vortex_creation/vortex_creation.py:LambChaplyginVortex"]}
{"id": "C143", "title": "No fluid goes through the walls of a vortex system", "statement": "At any point of a wall, the velocity of the system has no component across the wall.", "quantifier": "every history of a vortex system, every number of walls and vortices", "why_tests_cant": "unbounded numbers of vortices and walls", "anchors": ["IMTreatment/vortex_creation/vortex_creation.py:VortexSystem.get_vector", "IMTreatment/vortex_creation/vortex_creation.py:VortexSystem.refresh_imaginary_vortex", "IMTreatment/vortex_creation/vortex_creation.py:Wall.get_symmetry"]}
{"id": "C144", "title": "A vortex system always shows its present content", "statement": "After any sequence of added vortices, walls and fields, removals, questions and evolutions, get_vector and get_vector_field give the velocity of the vortices now present, seen in all the walls, plus the custom fields.", "quantifier": "every history of a vortex system", "why_tests_cant": "histories: caches of images and renumbered identifiers", "anchors": ["IMTreatment/vortex_creation/vortex_creation.py:VortexSystem.add_vortex", "IMTreatment/vortex_creation/vortex_creation.py:VortexSystem.add_wall", "IMTreatment/vortex_creation/vortex_creation.py:VortexSystem.add_custom_field", "IMTreatment/vortex_creation/vortex_creation.py:VortexSystem.remove_vortex", "IMTreatment/vortex_creation/vortex_creation.py:VortexSystem.get_vector", "IMTreatment/vortex_creation/vortex_creation.py:VortexSystem.get_vector_field", "IMTreatment/vortex_creation/vortex_creation.py:VortexSystem.get_evolution"]}
{"id": "C145", "title": "The parts of a vortex system add up", "statement": "Asking for some vortices gives their velocity and the one of their images; the parts of get_compounded_vector add up to get_vector; get_velocity_map asks for a vortex at each point and leaves the system as it was.", "quantifier": "every history of a vortex system, every selection", "why_tests_cant": "histories and selections", "anchors": ["IMTreatment/vortex_creation/vortex_creation.py:VortexSystem.get_vector", "IMTreatment/vortex_creation/vortex_creation.py:VortexSystem.get_compounded_vector", "IMTreatment/vortex_creation/vortex_creation.py:VortexSystem.get_velocity_map"]}
{"id": "C146", "title": "Vortices are carried along by the flow", "statement": "get_evolution moves each movable vortex by dt times the velocity at its place, all from the old positions, leaves the others and refuses a time step that is not positive; get_vortex_evolution gives one trajectory per vortex, whose point k is the place after k evolutions, at time k dt.", "quantifier": "every system, time step and number of iterations", "why_tests_cant": "unbounded number of steps", "anchors": ["IMTreatment/vortex_creation/vortex_creation.py:VortexSystem.get_evolution", "IMTreatment/vortex_creation/vortex_creation.py:VortexSystem.get_vortex_evolution"]}
{"id": "C147", "title": "Free vortices keep their impulse", "statement": "For free vortices that all move, the sums of circulation times x and times y do not change however long the evolution; near one wall the sum of the coordinate across the wall does not, so a vortex alone goes along the wall at the speed of its image; two equal vortices turn at a constant distance.", "quantifier": "every number of vortices, time steps and iterations", "why_tests_cant": "unbounded number of vortices and steps", "anchors": ["IMTreatment/vortex_creation/vortex_creation.py:VortexSystem.get_evolution", "IMTreatment/vortex_creation/vortex_creation.py:FreeVortex.get_vector"]}
{"id": "C148", "title": "Reconstructing a decomposition loses exactly what its missing modes hold", "statement": "After modal_decomposition(kind='pod'), reconstruct with any choice of distinct modes gives fields at the times of the originals; the squared differences with the originals are the squared fluctuations less the eigenvalues of the chosen modes, so that all modes give the originals back. Modes that cannot exist are refused.", "quantifier": "every set of fields, every choice of modes, every eigendecomposition that modred may return", "why_tests_cant": "all numbers of fields, points and modes", "anchors": ["IMTreatment/pod/pod.py:modal_decomposition", "IMTreatment/pod/pod.py:ModalFields.reconstruct"]}
{"id": "C149", "title": "Modes are orthonormal and their energies are their eigenvalues", "statement": "The modes of a pod base are orthonormal, their evolutions uncorrelated with zero mean, with squares adding up to the eigenvalue; get_modes_energy gives each its part of the mean energy of the fluctuations.", "quantifier": "every set of fields, every eigendecomposition that modred may return", "why_tests_cant": "all numbers of fields, points and modes", "anchors": ["IMTreatment/pod/pod.py:modal_decomposition", "IMTreatment/pod/pod.py:ModalFields.get_modes_energy"]}
{"id": "C150", "title": "Cropping a modal base keeps the chosen modes whole", "statement": "crop_modal_base(modes_to_keep) keeps these modes with their evolutions, eigenvalues and eigenvectors: reconstructing all that is left is reconstructing these modes; modes_to_remove keeps the others; modes that do not exist are refused.", "quantifier": "every base and choice of modes", "why_tests_cant": "all bases and index lists", "anchors": ["IMTreatment/pod/pod.py:ModalFields.crop_modal_base", "IMTreatment/pod/pod.py:ModalFields.reconstruct"]}
{"id": "C151", "title": "A modal base can be reconstructed at any time in its range", "statement": "Asked at times between two of its own, reconstruct goes linearly from one reconstructed field to the next; each field depends on its own time only; times out of range are refused.", "quantifier": "every base, choice of modes and times", "why_tests_cant": "continuum of times", "anchors": ["IMTreatment/pod/pod.py:ModalFields.reconstruct"]}
{"id": "C152", "title": "Cropping and scaling a modal base commute with its reconstruction", "statement": "crop in time keeps the times in the interval and reconstruct then gives the same fields at these times; crop in space and scale give the cropped and scaled reconstruction.", "quantifier": "every base, interval, region and positive time factor", "why_tests_cant": "all bases and intervals", "anchors": ["IMTreatment/pod/pod.py:ModalFields.crop", "IMTreatment/pod/pod.py:ModalFields.scale", "IMTreatment/pod/pod.py:ModalFields.reconstruct"]}
{"id": "C153", "title": "The rates of a dynamic mode decomposition are those of its modes", "statement": "With kind='dmd', growth rate s and pulsation w are such that exp((s + iw)dt) is the Ritz value; the evolution of a mode at the field k is the real part of the k-th power of its Ritz value; reconstructing one field alone gives the same coefficients.", "quantifier": "every Ritz value, time step and field", "why_tests_cant": "all complex numbers", "anchors": ["IMTreatment/pod/pod.py:modal_decomposition", "IMTreatment/pod/pod.py:ModalFields.reconstruct"]}
{"id": "C154", "title": "No fluid goes through the panels of a potential flow", "statement": "Coming to the centre of a panel from the side of its normal, the velocity tends to a vector along the panel, which is the one compute_velocity gives on the panel; elsewhere compute_velocity gives the free stream with all the sources.", "quantifier": "every set of panels, free stream and panel", "why_tests_cant": "all geometries; a limit", "anchors": ["IMTreatment/potential_flow/potential_flow.py:System.solving_sigma", "IMTreatment/potential_flow/potential_flow.py:System.compute_velocity", "IMTreatment/potential_flow/potential_flow.py:Panel.on_panel"]}
{"id": "C155", "title": "A potential flow is undisturbed far away and proportional to the free stream", "statement": "At distance d of all the panels the velocity differs from the free stream by at most a constant over d; multiplying the free stream multiplies the velocity everywhere.", "quantifier": "every set of panels, point and free stream", "why_tests_cant": "all geometries and points", "anchors": ["IMTreatment/potential_flow/potential_flow.py:System.compute_velocity", "IMTreatment/potential_flow/potential_flow.py:integral"]}
{"id": "C156", "title": "A potential flow shows its present objects", "statement": "After any sequence of additions, solutions, questions, changes of free stream and inversions of normals, compute_velocity gives the velocity around the objects now present, in the present free stream.", "quantifier": "every history of a system", "why_tests_cant": "histories: the sources are cached", "anchors": ["IMTreatment/potential_flow/potential_flow.py:System.add_object", "IMTreatment/potential_flow/potential_flow.py:System.solving_sigma", "IMTreatment/potential_flow/potential_flow.py:System.compute_velocity", "IMTreatment/potential_flow/potential_flow.py:object_1D.inverse_normals"]}
{"id": "C157", "title": "Objects are cut into panels along their path", "statement": "The panels of an object follow its path, edge after edge, in equal parts whose length is about the shortest edge over the resolution; a solid is closed, a boundary ends where it is asked to.", "quantifier": "every path and resolution", "why_tests_cant": "all paths", "anchors": ["IMTreatment/potential_flow/potential_flow.py:object_1D.refine", "IMTreatment/potential_flow/potential_flow.py:object_2D.__init__", "IMTreatment/potential_flow/potential_flow.py:System.add_object"]}
{"id": "C158", "title": "Velocities along a line are given at their distance along the line", "statement": "compute_velocity_on_line shows the velocities at equally spaced points between the two ends, at their distance from the first one; the pressure coefficient made from them is one at rest, never more, and goes down with speed.", "quantifier": "every line, resolution and system", "why_tests_cant": "all lines", "anchors": ["IMTreatment/potential_flow/potential_flow.py:System.compute_velocity_on_line", "IMTreatment/potential_flow/potential_flow.py:System.compute_pressure_from_velocity"]}
{"id": "C159", "title": "The radius of a vortex is that of its zone", "statement": "get_vortex_radius gives the radius of the disk with the area of the connected zone around the given point where the vorticity is above the given part of its peak; it works for both directions of rotation and gives 0 when there is no vortex.", "quantifier": "every field, point and threshold", "why_tests_cant": "all fields and connected shapes", "anchors": ["IMTreatment/vortex_properties/vortex_properties.py:get_vortex_radius"]}
{"id": "C160", "title": "The radius of a vortex follows the lengths and not the velocities", "statement": "Multiplying the velocities leaves the radius as it is; multiplying the lengths multiplies it.", "quantifier": "every field, point, threshold and factor", "why_tests_cant": "all fields", "anchors": ["IMTreatment/vortex_properties/vortex_properties.py:get_vortex_radius"]}
{"id": "C161", "title": "The centre of a vortex is the barycentre of its vorticity", "statement": "get_vortex_radius(output_center=True) gives the barycentre of the zone weighted by the vorticity, hence a point within the bounds of the zone.", "quantifier": "every field, point and threshold", "why_tests_cant": "all fields and shapes", "anchors": ["IMTreatment/vortex_properties/vortex_properties.py:get_vortex_radius"]}
{"id": "C162", "title": "A vortex property is an integral on the zone of the vortex", "statement": "get_vortex_property gives the integral of the chosen field on the zone: it only depends on the zone, is proportional to the velocities, positive for a positive field, and defined at the centre of any vortex.", "quantifier": "every field, criteria and threshold", "why_tests_cant": "all fields and shapes", "anchors": ["IMTreatment/vortex_properties/vortex_properties.py:get_vortex_property"]}
{"id": "C163", "title": "The circulation of a vortex is the flux of vorticity through its zone", "statement": "get_vortex_circulation gives the sum on the connected zone of strong vorticity around the point; it is zero out of such zones, changes sign with the velocities, grows when the threshold is lowered for vorticities of one sign, and never adds vortices of opposite signs.", "quantifier": "every field, point and threshold", "why_tests_cant": "all fields and shapes", "anchors": ["IMTreatment/vortex_properties/vortex_properties.py:get_vortex_circulation"]}
{"id": "C164", "title": "Vortex evolutions follow the trajectory", "statement": "get_vortex_radius_time_evolution gives the radius at each point of the trajectory in the field of its time, masked when there is no vortex; get_vortex_property_time_evolution gives the property for each field whose time is in the trajectory.", "quantifier": "every sequence of fields and trajectory", "why_tests_cant": "all sequences", "anchors": ["IMTreatment/vortex_properties/vortex_properties.py:get_vortex_radius_time_evolution", "IMTreatment/vortex_properties/vortex_properties.py:get_vortex_property_time_evolution"]}
{"id": "C165", "title": "The flat plate layer grows as theory says", "statement": "BlasiusBL gives at each position a layer as thick as the square root of the distance (laminar) or its power 4/5 (turbulent), that gets thicker downstream, whose momentum thickness grows at half the friction coefficient; positions of an array are independent; unknown percentages are refused.", "quantifier": "every fluid, velocity, position and array of positions", "why_tests_cant": "continuum of positions, fluids and velocities", "anchors": ["IMTreatment/boundary_layer/boundary_layer.py:BlasiusBL.get_BL_properties"]}
{"id": "C166", "title": "The position is found back from the thickness", "statement": "get_x_from_delta gives the position at which the layer has the given thickness: it is the inverse of the thickness and grows with it.", "quantifier": "every fluid, velocity and position", "why_tests_cant": "continuum of positions", "anchors": ["IMTreatment/boundary_layer/boundary_layer.py:BlasiusBL.get_x_from_delta"]}
{"id": "C167", "title": "A confined layer fits in the water", "statement": "get_thickness_with_confinement gives at each position a thickness between zero and both the free thickness and the depth, which tends to the free one in deep water.", "quantifier": "every depth and position", "why_tests_cant": "continuum of depths and positions", "anchors": ["IMTreatment/boundary_layer/boundary_layer.py:BlasiusBL.get_thickness_with_confinement"]}
{"id": "C168", "title": "Similar profiles obey the boundary layer equations", "statement": "The velocities of FalknerSkanBL.get_profile and of laminar BlasiusBL.get_profile, for any solution of the differential system they integrate, obey Prandtl's equations at every point, with rest at the wall and the outer velocity far away; get_mu and get_y are inverses of each other.", "quantifier": "every pressure gradient, fluid, position and solution of the system", "why_tests_cant": "differential equations on a continuum", "anchors": ["IMTreatment/boundary_layer/boundary_layer.py:FalknerSkanBL.get_profile", "IMTreatment/boundary_layer/boundary_layer.py:FalknerSkanBL.get_y", "IMTreatment/boundary_layer/boundary_layer.py:FalknerSkanBL.get_mu", "IMTreatment/boundary_layer/boundary_layer.py:BlasiusBL.get_profile"]}
{"id": "C169", "title": "The shooting method finds the wall slope within the wanted accuracy", "statement": "The slope at the wall used by FalknerSkanBL lies between the two first guesses, is exact for an affine response, and its error is below the wanted accuracy unless the allowed number of shots is spent; messages do not change it.", "quantifier": "every response, guesses, accuracy and number of iterations", "why_tests_cant": "unbounded number of iterations and arbitrary responses", "anchors": ["IMTreatment/boundary_layer/boundary_layer.py:FalknerSkanBL.get_f_function"]}
{"id": "C170", "title": "Thwaites' method integrates the momentum equation", "statement": "ThwaitesBL gives a momentum thickness that starts from zero and obeys Thwaites' equation for every outer velocity, with the known values for flat plates and power laws; the pressure gradient parameter is theta^2 u_e'/nu; shape factor and displacement thickness are consistent.", "quantifier": "every outer velocity and position", "why_tests_cant": "every function as outer velocity", "anchors": ["IMTreatment/boundary_layer/boundary_layer.py:ThwaitesBL.get_momentum_thikness", "IMTreatment/boundary_layer/boundary_layer.py:ThwaitesBL.get_BL_properties"]}
{"id": "C171", "title": "Wall laws give the velocity above a wall", "statement": "WallLaw and WakeLaw give, at each height in the water, a velocity that vanishes at the wall with the given stress, follows the logarithmic law, increases with the height up to the edge of the layer and is constant outside; the wake only adds velocity.", "quantifier": "every wall stress, fluid, layer and height", "why_tests_cant": "continuum of heights", "anchors": ["IMTreatment/boundary_layer/boundary_layer.py:WallLaw.get_profile", "IMTreatment/boundary_layer/boundary_layer.py:WallLaw.__init__", "IMTreatment/boundary_layer/boundary_layer.py:WakeLaw"]}
{"id": "C172", "title": "The thickness is where the velocity reaches its part of the largest one", "statement": "get_bl_thickness of a Profile gives the first distance at which the interpolated velocity is perc times the largest one, whenever the profile goes through it; it follows the lengths and not the velocities; 0 for a masked profile.", "quantifier": "every profile and percentage", "why_tests_cant": "all profiles", "anchors": ["IMTreatment/boundary_layer/boundary_layer.py:get_bl_thickness"]}
{"id": "C173", "title": "Displacement and momentum thicknesses are the integrals of the deficit", "statement": "get_displ_thickness and get_momentum_thickness give the integrals over the layer of 1-u/U and u/U(1-u/U), U being the velocity outside; masked points are ignored; without reversed flow 0 <= momentum <= displacement <= thickness; both follow the lengths and not the velocities.", "quantifier": "every profile", "why_tests_cant": "all profiles", "anchors": ["IMTreatment/boundary_layer/boundary_layer.py:get_displ_thickness", "IMTreatment/boundary_layer/boundary_layer.py:get_momentum_thickness"]}
{"id": "C174", "title": "The shape factor is the quotient of the thicknesses", "statement": "get_shape_factor is the displacement thickness over the momentum one, at least 1 without reversed flow, independent of the scales of lengths and velocities, and defined for every profile.", "quantifier": "every profile", "why_tests_cant": "all profiles", "anchors": ["IMTreatment/boundary_layer/boundary_layer.py:get_shape_factor"]}
{"id": "C175", "title": "The shear stress is the viscosity times the slope", "statement": "get_shear_stress of a Profile gives nu rho times the slope of the velocity at each point, exactly for affine velocities, in the unit of a stress; masked points stay masked; the linear law of the wall gives nu rho u/x off the wall; uneven spacing, bad viscosities, directions and methods are refused.", "quantifier": "every profile, viscosity and density", "why_tests_cant": "all profiles", "anchors": ["IMTreatment/boundary_layer/boundary_layer.py:get_shear_stress"]}
{"id": "C176", "title": "The trajectory of a film is the sum of its transforms", "statement": "In both modes Stabilizer keeps one transform per frame after the first and a trajectory which is their running sum; in mode 'continuous' each transform is the translation and angle estimated from the previous frame, in mode 'from_first' each point of the trajectory is the one estimated from the first frame; a failed estimate is no motion; frames without features, dense flow and other modes are refused.", "quantifier": "every film, mode and estimate", "why_tests_cant": "films of any length, any result of the estimation", "anchors": ["IMTreatment/stabilize/stabilize.py:Stabilizer._compute_transform"]}
{"id": "C177", "title": "Tracked points move with the picture", "statement": "The places given to a point on the frames start at the point, keep the distances between points, follow the trajectory when nothing turns, and are the true places of a point carried by the estimated motions, in both modes.", "quantifier": "every film, point and motion", "why_tests_cant": "films of any length, continuum of motions", "anchors": ["IMTreatment/stabilize/stabilize.py:Stabilizer._apply_transform_to_point"]}
{"id": "C178", "title": "The stabilised film keeps times, units and coordinates", "statement": "get_stabilized_obj keeps the times, units and number of frames, widens each frame by the border on each side with axes continued accordingly, and shows the first frame unchanged at its coordinates.", "quantifier": "every evenly spaced film, border and transform", "why_tests_cant": "films and borders of any size", "anchors": ["IMTreatment/stabilize/stabilize.py:Stabilizer.get_stabilized_obj", "IMTreatment/stabilize/stabilize.py:Stabilizer._apply_transform"]}
{"id": "C179", "title": "The stabilised picture follows the smoothed trajectory", "statement": "On the film returned by get_stabilized_obj, a detail of the first frame which the trajectory follows is shown on each frame where the smoothed trajectory says.", "quantifier": "every film, smoothing and frame", "why_tests_cant": "films of any length, any smoothing", "anchors": ["IMTreatment/stabilize/stabilize.py:Stabilizer._smooth_transform", "IMTreatment/stabilize/stabilize.py:Stabilizer._apply_transform"]}
{"id": "C180", "title": "The border does not change the stabilisation", "statement": "border_size only adds pixels around the frames: whatever its value a detail of a frame is shown at the same coordinates.", "quantifier": "every border, transform and pixel", "why_tests_cant": "continuum of transforms", "anchors": ["IMTreatment/stabilize/stabilize.py:Stabilizer._apply_transform"]}
{"id": "C181", "title": "Stabilizing again gives the same film", "statement": "get_stabilized_obj gives what a new Stabilizer would give, whatever was called before; smoothing before computing and applying before smoothing are refused and change nothing; the steps made by hand use the latest transforms.", "quantifier": "every history of calls", "why_tests_cant": "unbounded histories", "anchors": ["IMTreatment/stabilize/stabilize.py:Stabilizer.get_stabilized_obj", "IMTreatment/stabilize/stabilize.py:Stabilizer._smooth_transform", "IMTreatment/stabilize/stabilize.py:Stabilizer._apply_transform"]}
{"id": "C182", "title": "A displaced particle has travelled for the time asked, or has left", "statement": "get_pts_displacement moves a particle by Runge-Kutta steps that start inside the field; the steps last exactly |dt| together unless the particle is reported out, and then it is outside; a null dt, a non positive rel_err and a damping outside [0, 1] are refused.", "quantifier": "every velocity field, field of view, starting point, duration and accuracy", "why_tests_cant": "functions and continuum of values, unbounded number of steps", "anchors": ["IMTreatment/vortex_criterions/FTLE/ftle.py:FTLE.get_pts_displacement"]}
{"id": "C183", "title": "In a uniform flow particles travel by velocity times time", "statement": "In a uniform flow get_pts_displacement displaces a particle by exactly velocity times dt whatever the accuracy, forwards and backwards, and ends for every damping accepted; particles at rest stay; a negative dt is the reversed flow.", "quantifier": "every uniform velocity, starting point, duration, accuracy and damping", "why_tests_cant": "continuum of values; termination", "anchors": ["IMTreatment/vortex_criterions/FTLE/ftle.py:FTLE.get_pts_displacement"]}
{"id": "C184", "title": "A displacement step is accurate to the fourth order", "statement": "In linear flows a step of get_pts_displacement is the exact motion up to the fourth order of the step; in vortices, sources and spirals the error of a step, and in a solid rotation that of the whole displacement, are bounded explicitly.", "quantifier": "every linear flow, starting point, step and duration", "why_tests_cant": "continuum of flows; the number of steps is unbounded", "anchors": ["IMTreatment/vortex_criterions/FTLE/ftle.py:FTLE.get_pts_displacement"]}
{"id": "C185", "title": "The FTLE particles are a regular grid of the resolution asked, inside the field", "statement": "generate_point_field places the particles strictly inside the field, regularly spaced from half a spacing after the beginning to less than a spacing before the end, as many along each axis as asked.", "quantifier": "every field of view and resolution", "why_tests_cant": "continuum of extents", "anchors": ["IMTreatment/vortex_criterions/FTLE/ftle.py:FTLE.generate_point_field"]}
{"id": "C186", "title": "The FTLE is the largest stretching rate of the flow", "statement": "get_FTLE gives 1/|dt| times the logarithm of the largest stretching of the motion of the neighbouring particles: zero in a uniform flow, the stretching rate where the motion is affine; it is masked exactly where a particle used left the field.", "quantifier": "every velocity field, resolution, duration and particle", "why_tests_cant": "functions and continuum of values", "anchors": ["IMTreatment/vortex_criterions/FTLE/ftle.py:FTLE.get_FTLE", "IMTreatment/vortex_criterions/FTLE/ftle.py:FTLE.get_displaced_point_field"]}
{"id": "C187", "title": "Profiles of a field follow its grid lines", "statement": "get_profile of a ScalarField at a grid position shows what the field shows on that line, between two lines their linear interpolation, over an interval (or 'all') the mean of the lines of the closed interval; masked points stay masked; interp='nearest' gives the nearest line; positions outside are refused; the same by index.", "quantifier": "every field, direction, position and interval", "why_tests_cant": "all grids and positions", "anchors": ["IMTreatment/core/scalarfield.py:ScalarField.get_profile"]}
{"id": "C188", "title": "The integral over a line is the area under the mean profile", "statement": "integrate_over_line gives the area under the broken line of the means of the values over the interval, exactly for fields affine in each coordinate, in the unit of the values times that of the positions along the line; masked values are refused.", "quantifier": "every field, direction and interval", "why_tests_cant": "all grids and values", "anchors": ["IMTreatment/core/scalarfield.py:ScalarField.integrate_over_line"]}
{"id": "C189", "title": "The integral over a surface is the mean times the area", "statement": "integrate_over_surface gives the integral over the window: mean of the values times the extents, between area times smallest and area times largest value, exact for fields affine in each coordinate on even grids, additive over windows; masked values are refused; without intervals the window is the whole field.", "quantifier": "every field and window", "why_tests_cant": "all grids and values", "anchors": ["IMTreatment/core/scalarfield.py:ScalarField.integrate_over_surface"]}
{"id": "C190", "title": "Export to scattered points keeps exactly the visible values", "statement": "export_to_scatter gives each position that neither the field nor the given mask hides once, with its value; masks of another shape are refused; a field without visible point gives no point.", "quantifier": "every field and mask", "why_tests_cant": "all grids, values and masks", "anchors": ["IMTreatment/core/scalarfield.py:ScalarField.export_to_scatter"]}
{"id": "C191", "title": "Histograms count each value once", "statement": "get_histogram counts in each bin the visible values between its edges, the counts adding up to the number of values of the range; cumulated it counts the values up to each edge; normalized it is a density of integral one (ending at one when cumulated); the abscissae are the middles of the bins, in the unit of the values; masked points are ignored.", "quantifier": "every field, number of bins and range", "why_tests_cant": "all grids, values and bins", "anchors": ["IMTreatment/core/scalarfield.py:ScalarField.get_histogram"]}
{"id": "C192", "title": "The auto-correlation is one at lag zero", "statement": "get_auto_correlation of a Profile, and get_spatial_autocorrelation of a ScalarField as the mean over its lines, give normalized sums of products of shifted values: one at the centre of the window, one for constant values, independent of the scale of the values, bounded by Cauchy-Schwarz, shown against the shift; too large windows are refused.", "quantifier": "every profile or field without masked value, window", "why_tests_cant": "profiles of any length", "anchors": ["IMTreatment/core/profile.py:Profile.get_auto_correlation", "IMTreatment/core/scalarfield.py:ScalarField.get_spatial_autocorrelation"]}
{"id": "C193", "title": "The norm of a field is a norm", "statement": "get_norm is the norm of order p of the visible values: zero only for null fields, homogeneous, subadditive for p >= 1, at least each absolute value; per point it is a mean value, independent of the number of points for a constant field.", "quantifier": "every field, order and pair of fields", "why_tests_cant": "all grids and values, continuum of orders", "anchors": ["IMTreatment/core/scalarfield.py:ScalarField.get_norm"]}
{"id": "C194", "title": "Mirroring a scalar field completes it with its mirror image", "statement": "mirroring keeps every visible value on the larger side of the mirror and adds on the other side, at each mirror point, the value times mir_coef; as many lines as asked (all of them with 'all') are mirrored; the gap stays masked or takes the value given; units are kept; a mirror in the middle is refused.", "quantifier": "every field, mirror position, coefficient and number of lines", "why_tests_cant": "all grids, values, masks and mirror positions", "anchors": ["IMTreatment/core/scalarfield.py:ScalarField.mirroring"]}
{"id": "C195", "title": "Mirroring a vector field mirrors both components consistently", "statement": "VectorField.mirroring keeps every visible vector on the larger side of the mirror and adds at each mirror point the vector whose component across the mirror changed sign, times mir_coef (or the components times the two given coefficients); as many lines as asked; the gap stays masked or takes the value given; units are kept.", "quantifier": "every field, mirror position, coefficients and number of lines", "why_tests_cant": "all grids, values, masks and mirror positions", "anchors": ["IMTreatment/core/vectorfield.py:VectorField.mirroring", "IMTreatment/core/vectorfield.py:VectorField.comp_x_as_sf", "IMTreatment/core/vectorfield.py:VectorField.comp_y_as_sf"]}
{"id": "C196", "title": "The mean of a record of vector fields averages what is seen", "statement": "get_mean_field of TemporalVectorFields shows at each point the mean of the vectors shown there, masked points left out, and is masked where fewer than nmb_min fields show a vector; axes and units are kept.", "quantifier": "every record of vector fields and nmb_min", "why_tests_cant": "records, grids and masks of any size", "anchors": ["IMTreatment/core/temporalfields.py:TemporalFields.get_mean_field"]}
{"id": "C197", "title": "Fluctuations of velocity are the deviations from the mean", "statement": "get_fluctuant_fields of TemporalVectorFields gives at each time the field minus the mean field, masked where the field or the mean is; at each point the fluctuations add up to zero; times, axes and units are kept.", "quantifier": "every record of vector fields and nmb_min_mean", "why_tests_cant": "records, grids and masks of any size", "anchors": ["IMTreatment/core/temporalfields.py:TemporalFields.get_fluctuant_fields"]}
{"id": "C198", "title": "Kinetic energy splits into mean and turbulent parts", "statement": "get_mean_kinetic_energy is half the square of the mean velocity, get_tke at each time half the square of the fluctuation, get_mean_tke its mean, never negative; the mean kinetic energy of the vectors shown at a point is the sum of the two; they are in the square of the velocity unit.", "quantifier": "every record of vector fields and point", "why_tests_cant": "records, grids and masks of any size", "anchors": ["IMTreatment/core/temporalvectorfields.py:TemporalVectorFields.get_mean_kinetic_energy", "IMTreatment/core/temporalvectorfields.py:TemporalVectorFields.get_tke", "IMTreatment/core/temporalvectorfields.py:TemporalVectorFields.get_mean_tke"]}
{"id": "C199", "title": "Reynolds stresses are the covariances of the velocity", "statement": "get_reynolds_stress gives at each point the mean products of the velocity fluctuations, masked where fewer than nmb_val_min vectors are shown; normal stresses are not negative, the shear stress squared is at most their product, and their sum is twice the mean turbulent kinetic energy.", "quantifier": "every record of vector fields and nmb_val_min", "why_tests_cant": "records, grids and masks of any size", "anchors": ["IMTreatment/core/temporalvectorfields.py:TemporalVectorFields.get_reynolds_stress"]}
{"id": "C200", "title": "The time auto-correlation starts at one", "statement": "get_time_auto_correlation gives at each time the sum of the scalar products of the field with the first one over the squared norm of the first one: one at the first time, bounded by Cauchy-Schwarz; masked points are left out.", "quantifier": "every record of vector fields", "why_tests_cant": "records and grids of any size", "anchors": ["IMTreatment/core/temporalvectorfields.py:TemporalVectorFields.get_time_auto_correlation"]}
{"id": "C201", "title": "Fluctuations of scalars are the deviations from the mean", "statement": "get_fluctuant_fields of TemporalScalarFields gives at each time the field minus the mean field, masked where the field or the mean is; at each point the fluctuations add up to zero; times, axes and units are kept.", "quantifier": "every record of scalar fields and nmb_min_mean", "why_tests_cant": "records, grids and masks of any size", "anchors": ["IMTreatment/core/temporalfields.py:TemporalFields.get_fluctuant_fields"]}
{"id": "C202", "title": "The turbulent intensity is available for every record", "statement": "get_turbulent_intensity gives at each time the square root of two thirds of the turbulent kinetic energy over the magnitude of the velocity.", "quantifier": "every record of vector fields", "why_tests_cant": "records of any size", "anchors": ["IMTreatment/core/temporalvectorfields.py:TemporalVectorFields.get_turbulent_intensity"]}
{"id": "C203", "title": "The history at a point is what each field shows there", "statement": "get_time_profile at a position shows, for each time of the closed interval wanted (all by default), what the field of this time shows at the grid point nearest to the position, against the time, in the units of the times and of the values; with ind=True the pair is the indices of the point; positions outside the field, other indices and empty intervals are refused.", "quantifier": "every record of scalar fields, position and time interval", "why_tests_cant": "records, grids and masks of any size", "anchors": ["IMTreatment/core/temporalfields.py:TemporalFields.get_time_profile"]}
{"id": "C204", "title": "The history along a trajectory follows the trajectory", "statement": "get_time_profile given a Points object shows, for each time wanted, what the field of this time shows at the grid point nearest to the position at this time.", "quantifier": "every record of scalar fields, trajectory and time interval", "why_tests_cant": "records and trajectories of any length", "anchors": ["IMTreatment/core/temporalfields.py:TemporalFields.get_time_profile"]}
{"id": "C205", "title": "A history can be written back in the fields", "statement": "inject_time_profile puts the values of a profile of as many points as there are fields at the grid point nearest to the position (or along a trajectory), one in each field, and changes nothing else: reading the point gives the profile back, and injecting the profile taken at a point changes nothing; other lengths and positions outside are refused.", "quantifier": "every record of scalar fields, position and profile", "why_tests_cant": "records, grids, masks and profiles of any size", "anchors": ["IMTreatment/core/temporalfields.py:TemporalFields.inject_time_profile"]}
{"id": "C206", "title": "The cumulated mask tells the points never seen", "statement": "mask_cum is True exactly at the points masked in every field of the record.", "quantifier": "every record of scalar fields and point", "why_tests_cant": "records, grids and masks of any size", "anchors": ["IMTreatment/core/temporalfields.py:TemporalFields.mask_cum"]}
{"id": "C207", "title": "Cropping the masked borders of a record keeps every value", "statement": "TemporalFields.crop_masked_border(hard=False) returns the record on the smallest window holding every point that some field shows, at the same times, every reading of every field inside being kept.", "quantifier": "every record of scalar fields", "why_tests_cant": "records, grids and masks of any size", "anchors": ["IMTreatment/core/temporalfields.py:TemporalFields.crop_masked_border"]}
{"id": "C208", "title": "Hard cropping of a record stops with borders that are seen", "statement": "TemporalFields.crop_masked_border(hard=True) stops for every record and returns a window of it whose four borders hold only points that some field shows.", "quantifier": "every record of scalar fields", "why_tests_cant": "the loop must stop for every mask", "anchors": ["IMTreatment/core/temporalfields.py:TemporalFields.crop_masked_border"]}
{"id": "C209", "title": "Extending a record extends every field alike", "statement": "TemporalFields.extend keeps the times and every reading of every field, adds around them the numbers of lines of masked points asked for, and leaves the record and its fields on the same axes.", "quantifier": "every record of scalar fields and numbers of lines", "why_tests_cant": "records, grids and masks of any size", "anchors": ["IMTreatment/core/temporalfields.py:TemporalFields.extend", "IMTreatment/core/scalarfield.py:ScalarField.extend"]}
{"id": "C210", "title": "Mirroring a record mirrors every field alike", "statement": "TemporalFields.mirroring keeps the times and, in every field, the values on the larger side of the mirror, adds their mirror images, and leaves the record and its fields on the same axes.", "quantifier": "every record of scalar fields, mirror position and coefficient", "why_tests_cant": "records, grids, masks and mirror positions", "anchors": ["IMTreatment/core/temporalfields.py:TemporalFields.mirroring", "IMTreatment/core/scalarfield.py:ScalarField.mirroring"]}
{"id": "C211", "title": "Equality of vector fields is having the same points, vectors and units", "statement": "== of VectorField is True exactly when both fields have the same coordinates, show the same vectors at the same points and the same points masked, in the same units; every field is equal to itself, and every two fields in compatible units get an answer, whatever their sizes.", "quantifier": "every two vector fields", "why_tests_cant": "grids and masks of any size", "anchors": ["IMTreatment/core/vectorfield.py:VectorField.__eq__"]}
{"id": "C212", "title": "Equality of scalar fields is having the same points, values and units", "statement": "== of ScalarField is True exactly when both fields have the same coordinates, show the same values at the same points (within the rounding tolerance) and the same points masked, in the same units; it is reflexive, symmetric and transitive, and answers for all fields.", "quantifier": "every two scalar fields", "why_tests_cant": "grids, masks and values of any size", "anchors": ["IMTreatment/core/scalarfield.py:ScalarField.__eq__"]}
{"id": "C213", "title": "Equality of point sets is having the same points, values and units", "statement": "== of Points is True exactly when both sets hold the same points with the same values in the same order, in the same units.", "quantifier": "every two point sets", "why_tests_cant": "sets of any length", "anchors": ["IMTreatment/core/points.py:Points.__eq__"]}
{"id": "C214", "title": "Equality of profiles is having the same points and units", "statement": "== of Profile is True exactly when both profiles have the same points masked and the others the same, in the same units.", "quantifier": "every two profiles", "why_tests_cant": "profiles of any length", "anchors": ["IMTreatment/core/profile.py:Profile.__eq__"]}
{"id": "C215", "title": "The magnitude is the length of the vectors", "statement": "magnitude_as_sf of every vector field is a scalar field on the same points in the same units, masked at the same points, which shows at the others the length of the vector.", "quantifier": "every vector field and point", "why_tests_cant": "grids, masks and vectors are arbitrary", "anchors": ["IMTreatment/core/vectorfield.py:VectorField.magnitude", "IMTreatment/core/vectorfield.py:VectorField.magnitude_as_sf"]}
{"id": "C216", "title": "The magnitude and the angle give the vector back", "statement": "theta_as_sf of every vector field is a scalar field of angles in [0, 2 pi[ on the same points, masked at the same points: the vector is the magnitude times (cos theta, sin theta), null vectors have the angle 0.", "quantifier": "every vector field and point", "why_tests_cant": "grids, masks and vectors are arbitrary", "anchors": ["IMTreatment/core/vectorfield.py:VectorField.theta", "IMTreatment/core/vectorfield.py:VectorField.theta_as_sf"]}
{"id": "C217", "title": "Smallest and largest magnitudes are reached and are bounds", "statement": "min and max of a vector field are the magnitudes of vectors of the field that are not masked, and no such vector is shorter or longer; a field masked everywhere raises ValueError.", "quantifier": "every vector field", "why_tests_cant": "grids, masks and vectors are arbitrary", "anchors": ["IMTreatment/core/vectorfield.py:VectorField.min", "IMTreatment/core/vectorfield.py:VectorField.max"]}
{"id": "C218", "title": "Components and mask of a vector field as scalar fields", "statement": "comp_x_as_sf and comp_y_as_sf of every vector field show the components at the points that are not masked and are masked at the others, mask_as_sf shows 1 at the masked points and 0 at the others, on the same points and in the same units.", "quantifier": "every vector field and point", "why_tests_cant": "grids, masks and vectors are arbitrary", "anchors": ["IMTreatment/core/vectorfield.py:VectorField.comp_x_as_sf", "IMTreatment/core/vectorfield.py:VectorField.comp_y_as_sf", "IMTreatment/core/vectorfield.py:VectorField.mask_as_sf"]}
{"id": "C219", "title": "A lone critical point is detected once, where it is", "statement": "Cell detection (get_critical_points(kind='pbi_cell')) on a linear flow, sampled on any increasing axes, reports exactly one critical point when the critical point of the flow is in the field, in the cell that holds it, and none when it is outside of the field.", "quantifier": "every linear flow with one critical point, every increasing axes", "why_tests_cant": "flows, steps and sizes of grids are arbitrary", "anchors": ["IMTreatment/vortex_detection/vortex_detection.py:VF.get_cp_cell_position", "IMTreatment/vortex_detection/vortex_detection.py:VF._check_struct_number"]}
{"id": "C220", "title": "The type of a critical point is the nature of the flow around it", "statement": "The type given to the critical point of a linear flow is 0 for a saddle point (a line of departure and a line of arrival), 1 when the flow turns clockwise, 2 when it turns anticlockwise, 3 for an outgoing node (all straight lines depart), 4 for an ingoing node; these cover all flows with one critical point.", "quantifier": "every linear flow with one critical point, every grid", "why_tests_cant": "flows, steps and positions are arbitrary reals", "anchors": ["IMTreatment/vortex_detection/vortex_detection.py:VF.get_cp_cell_position", "IMTreatment/vortex_detection/vortex_detection.py:_get_jacobian_matrix"]}
{"id": "C221", "title": "Every detected critical point is in exactly one set of the report", "statement": "get_critical_points(kind='pbi_cell') puts the centre of each detected cell in the set of its type, in the order of detection, and nothing else; for a linear flow on an even grid with square cells the report holds one point, within half a step of the critical point, in the set of its nature.", "quantifier": "every velocity field; every linear flow on even square grids", "why_tests_cant": "fields of any size, any number of critical points", "anchors": ["IMTreatment/vortex_detection/vortex_detection.py:_get_cp_cell_pbi_on_VF"]}
{"id": "C222", "title": "The directions of a saddle point are those of departure and arrival", "statement": "The orientations given to a saddle point are non-zero vectors: the flow departs along the first and arrives along the second.", "quantifier": "every linear saddle flow, every even grid, every cell", "why_tests_cant": "flows, steps and sizes are arbitrary", "anchors": ["IMTreatment/vortex_detection/vortex_detection.py:_get_saddle_orientations", "IMTreatment/vortex_detection/vortex_detection.py:_get_jacobian_matrix"]}
{"id": "C223", "title": "The velocity of a trajectory is displacement over duration", "statement": "get_velocity of a set of points with one instant each (all different, in any order) gives two profiles: for each instant and the next one (or the incr-th next), at the middle of both, the displacement along x and along y divided by the duration; with xaxis='x' or 'y' the same velocities stand at the middles of the positions, in the unit of the positions; without instants it is refused.", "quantifier": "every set of points with distinct instants, in any stored order, every increment", "why_tests_cant": "trajectories of any length in any order", "anchors": ["IMTreatment/core/points.py:Points.get_velocity"]}
{"id": "C224", "title": "The velocity of a trajectory accounts for its displacement", "statement": "A bound on all the velocities given by get_velocity bounds the displacement between any two instants, and the velocities are all equal exactly for uniform motions, whose speed they give.", "quantifier": "every set of points with distinct instants", "why_tests_cant": "trajectories of any length", "anchors": ["IMTreatment/core/points.py:Points.get_velocity"]}
{"id": "C225", "title": "The evolution of a scalar field along points shows the field at each point", "statement": "get_evolution_on_sf gives a profile with one point per point of the set: its coordinate on the chosen axis (the values when there are, x otherwise) and what get_value of the field gives there; one point outside of the field raises ValueError; an empty set gives an empty profile.", "quantifier": "every set of points, scalar field and choice of axis", "why_tests_cant": "sets and grids of any size", "anchors": ["IMTreatment/core/points.py:Points.get_evolution_on_sf"]}
{"id": "C226", "title": "The evolution of a record along a trajectory reads each field at its time", "statement": "get_evolution_on_tsf reads each value in the field of the point's own instant, at the point; points at instants without field and sets without instants are refused.", "quantifier": "every set of points with instants and every record of scalar fields", "why_tests_cant": "sets, records and grids of any size", "anchors": ["IMTreatment/core/points.py:Points.get_evolution_on_tsf"]}
{"id": "C227", "title": "Exporting and decomposing points loses nothing", "statement": "export_to_profile gives the points with each abscissa keeping its own ordinate, in the order of the abscissae and with the units of the two columns; decompose gives one set of one point for each point, with its value and units; asking for values that are not there is refused.", "quantifier": "every set of points", "why_tests_cant": "sets of any length", "anchors": ["IMTreatment/core/points.py:Points.export_to_profile", "IMTreatment/core/points.py:Points.decompose"]}
{"id": "C228", "title": "Only values far from the mean are removed", "statement": "Profile.remove_marginal_values(fact) masks exactly the values farther from the mean of the unmasked values than fact times their standard deviation, and changes nothing else: at most one value out of fact squared is masked, and some value is left when fact is at least 1.", "quantifier": "every profile with an unmasked value, every factor", "why_tests_cant": "profiles and masks of any size", "anchors": ["IMTreatment/core/profile.py:Profile.remove_marginal_values"]}
{"id": "C229", "title": "Augmenting the resolution keeps the points and the broken line", "statement": "augment_resolution(fact) keeps every unmasked point of the profile, gives values on the segments between unmasked neighbours at all other abscissae, fact - 1 at regular fractions of each interval, without any masked point; the abscissae stay those of the profile plus the new ones. Points.augment_resolution does it for each coordinate. A factor 0 and fewer than two points are refused.", "quantifier": "every profile in increasing order and every factor; every set of points", "why_tests_cant": "profiles, masks and factors of any size", "anchors": ["IMTreatment/core/profile.py:Profile.augment_resolution", "IMTreatment/core/points.py:Points.augment_resolution"]}
{"id": "C230", "title": "Evenly spacing a profile resamples its broken line", "statement": "evenly_space gives a profile whose abscissae go by equal steps from the first to the last one, as many as before or with the step asked for (the number of intervals is the largest with steps not shorter), whose values are on the broken line through the unmasked points and whose points are all unmasked, in the same units; it works for every profile of at least two unmasked points, steps longer than the profile and profiles of one point being refused.", "quantifier": "every profile in increasing order, every step", "why_tests_cant": "profiles, masks and steps of any size", "anchors": ["IMTreatment/core/profile.py:Profile.evenly_space"]}
{"id": "C231", "title": "The convolution of profiles is the discrete convolution", "statement": "get_convolution of two profiles in equal steps holds the discrete convolutions of their values, as many as the mode says, a step apart, in the product of the units, masked exactly where a masked value takes part; it does not depend on the order of the profiles; profiles of different or unequal steps or units are refused; the abscissae are the sums of those of the profiles.", "quantifier": "every two profiles, every mode", "why_tests_cant": "profiles and masks of any size", "anchors": ["IMTreatment/core/profile.py:Profile.get_convolution"]}
{"id": "C232", "title": "The product of profiles multiplies values at the same abscissa", "statement": "The product of two profiles with the same abscissae shows at each abscissa the product of the two values, masked where one of them is, in the product of the units; values at different abscissae are never multiplied: other abscissae, units or numbers of points are refused.", "quantifier": "every two profiles", "why_tests_cant": "profiles and masks of any size", "anchors": ["IMTreatment/core/profile.py:Profile.__mul__"]}
{"id": "C233", "title": "Removing doublons leaves one point per abscissa with the merged value", "statement": "Profile.remove_doublons leaves one point for each abscissa (after rounding), in strictly increasing order, with the mean, the smallest or the largest of the unmasked values merged; nothing changes without doublons.", "quantifier": "every profile, every method, every rounding", "why_tests_cant": "profiles and masks of any size", "anchors": ["IMTreatment/core/profile.py:Profile.remove_doublons"]}
{"id": "C234", "title": "Smoothing averages neighbours and invents no extremum", "statement": "smooth('uniform', size) fills the profile, then replaces the values, the abscissae or both by their means over size neighbours, the ends being repeated; abscissae stay in strictly increasing order, nothing is masked, and the values stay between the bounds of the unmasked values (a constant profile stays constant).", "quantifier": "every profile with two unmasked points, every size and direction", "why_tests_cant": "profiles, masks and sizes are arbitrary", "anchors": ["IMTreatment/core/profile.py:Profile.smooth"]}
{"id": "C235", "title": "Rotating points and profiles turns them by the angle", "statement": "rotate(angle) of a set of points, and of a profile, turns every point anticlockwise by the angle around the origin: distances are kept, rotations add up, the opposite rotation brings the points back; the points of a profile are sorted again.", "quantifier": "every set of points or profile and every angle", "why_tests_cant": "sets of any size, all real angles", "anchors": ["IMTreatment/core/points.py:Points.rotate", "IMTreatment/core/profile.py:Profile.rotate"]}
{"id": "C236", "title": "The background of pictures is what they show most of the time", "statement": "get_background(noise_level) looks at each point at the values of all the fields, keeps by rounds those within one standard deviation of their mean until the deviation is below the noise or does not change or few are left, and gives the mean of the values left, which lies between the values shown; the rounds come to an end; where the fields show one of two values it is the most frequent one; a point that never changes has this value as background; adding a number to all the pictures adds it to the background, which is in the unit of the pictures.", "quantifier": "every record of scalar fields, every level of noise", "why_tests_cant": "records of any length, values of any kind; the number of rounds is not bounded in advance", "anchors": ["IMTreatment/core/temporalscalarfields.py:TemporalScalarFields.get_background"]}
{"id": "C237", "title": "Subtracting the background touches the background only", "statement": "substract_background gives the filling value (or the mean of the background) to every point that differs from the background by less than the noise, and leaves every other point as it is, with the same times, axes and units.", "quantifier": "every record of scalar fields, every background on its grid, every level of noise and filling value", "why_tests_cant": "records, fields and masks of any size", "anchors": ["IMTreatment/core/temporalscalarfields.py:TemporalScalarFields.substract_background"]}
{"id": "C238", "title": "The recurrence map holds the distances between the fields", "statement": "get_recurrence_map(norm, bandwidth) has the times on both axes and holds for each pair of instants within the bandwidth the norm of the difference of the two fields divided by the number of values, over the points shown; it is symmetric, zero on its diagonal, masked out of the bandwidth; without bandwidth it is zero only for equal fields and satisfies the triangle inequality for norms of order at least 1.", "quantifier": "every record of at least two scalar or vector fields, every norm and bandwidth", "why_tests_cant": "records and fields of any size, all real orders", "anchors": ["IMTreatment/core/temporalfields.py:TemporalFields.get_recurrence_map"]}
{"id": "C239", "title": "Weird fields are replaced or removed, and the others are left alone", "statement": "remove_weird_fields(c) calls weird the fields whose mean magnitude is farther from its mean over the record than c standard deviations (at most one in c squared); with 'interpolate' each is replaced by an interpolation in time of the nearest fields around it that are not weird, with 'remove' it is removed with its time; all other fields and times are left as they are.", "quantifier": "every record, every coefficient", "why_tests_cant": "records and fields of any size, any set of weird fields", "anchors": ["IMTreatment/core/temporalfields.py:TemporalFields.remove_weird_fields"]}
{"id": "C240", "title": "Cropping critical points in time crops everything and nothing else", "statement": "CritPoints.crop(intervt=[a, b]) leaves exactly the instants of the interval with their points, and of each trajectory the points of the interval, without the trajectories that have none; indices (ind=True) mean the instants of these numbers, for the points and the trajectories; inplace=False gives such a result and leaves the object as it was; it works before the trajectories are computed and whatever their number.", "quantifier": "every collection of critical points, every interval of times or indices", "why_tests_cant": "collections and trajectories of any size, with any number of trajectories of each kind", "anchors": ["IMTreatment/vortex_detection/vortex_detection.py:CritPoints.crop"]}
{"id": "C241", "title": "Cleaning trajectories removes the short ones and their points only", "statement": "clean_traj(n) leaves the trajectories of at least n points, in order and unchanged; afterwards the points of each kind at each time are exactly the points of these trajectories at this time. It is refused before the trajectories are computed.", "quantifier": "every collection of critical points with its trajectories, every n", "why_tests_cant": "collections and trajectories of any size", "anchors": ["IMTreatment/vortex_detection/vortex_detection.py:CritPoints.clean_traj"]}
{"id": "C242", "title": "Moving the origin of critical points moves everything once", "statement": "CritPoints.set_origin(x, y) moves all points and trajectories by the same vector, whether the trajectories are computed or not, and keeps times and units.", "quantifier": "every collection, every origin", "why_tests_cant": "collections and trajectories of any size, all coordinates", "anchors": ["IMTreatment/vortex_detection/vortex_detection.py:CritPoints.set_origin"]}
{"id": "C243", "title": "Changing a unit of critical points changes no physical quantity", "statement": "CritPoints.change_unit('x' | 'y' | 'time', unit) gives the points, the trajectories and the collection the new unit and leaves all physical positions and times as they are, whether the trajectories are computed or not; other axes and units of another dimension are refused.", "quantifier": "every collection, every axis and unit", "why_tests_cant": "collections and trajectories of any size, all units", "anchors": ["IMTreatment/vortex_detection/vortex_detection.py:CritPoints.change_unit"]}
{"id": "C244", "title": "Scaling critical points multiplies positions and times", "statement": "CritPoints.scale(scalex, scaley, scalev) multiplies the physical positions and times of all points and trajectories, and the times of the collection, by the given numbers or quantities; the times of the collection stay in increasing order.", "quantifier": "every collection, all scales", "why_tests_cant": "collections and trajectories of any size, all scales and units", "anchors": ["IMTreatment/vortex_detection/vortex_detection.py:CritPoints.scale"]}
{"id": "C245", "title": "Critical points can be simplified", "statement": "CritPoints.topo_simplify(dist_min) gives for each instant of the collection the simplified set of its points.", "quantifier": "every collection of critical points", "why_tests_cant": "collections of any size", "anchors": ["IMTreatment/vortex_detection/vortex_detection.py:CritPoints.topo_simplify", "IMTreatment/vortex_detection/vortex_detection.py:TopoPoints.import_from_CP"]}
{"id": "C246", "title": "Breaking trajectories cuts them in pieces", "statement": "break_trajectories replaces each trajectory by pieces of it between the times of breaking: each point of the trajectory is in exactly one piece, the points of a piece are those of an interval of time in their order, and trajectories of at most two points are kept; the result can be used as any collection with trajectories.", "quantifier": "every collection with its trajectories, every choice of the times of breaking", "why_tests_cant": "trajectories of any length, broken anywhere any number of times", "anchors": ["IMTreatment/vortex_detection/vortex_detection.py:CritPoints.break_trajectories"]}
{"id": "C247", "title": "Filling with the nearest point copies values of nearest visible points", "statement": "ScalarField.fill(kind='nearest') leaves the visible values, axes and units as they are, leaves nothing masked, and gives each masked point the value of a visible point at the smallest distance of it, with and without reduce_tri.", "quantifier": "every field with a visible point", "why_tests_cant": "grids and masks of any size and shape; reduce_tri keeps only some of the visible points", "anchors": ["IMTreatment/core/scalarfield.py:ScalarField.fill"]}
{"id": "C248", "title": "Linear filling invents no extremum and is exact on affine functions", "statement": "ScalarField.fill() leaves the visible values as they are, leaves nothing masked, keeps all values between the bounds of the visible ones, and gives the points masked between two visible points of their line or column the right value when the field is affine; it works for every mask that leaves visible points.", "quantifier": "every field with visible points", "why_tests_cant": "grids and masks of any size and shape", "anchors": ["IMTreatment/core/scalarfield.py:ScalarField.fill"]}
{"id": "C249", "title": "Filling with a value or a spline fills all masked points and nothing else", "statement": "fill(kind='value', value=v) gives v to exactly the masked points; fill(kind='cubic') leaves the visible values and nothing masked; without masked point the field is unchanged; other kinds, and interpolation without visible point, are refused.", "quantifier": "every field, every kind and value", "why_tests_cant": "grids and masks of any size and shape", "anchors": ["IMTreatment/core/scalarfield.py:ScalarField.fill"]}
{"id": "C250", "title": "Filling a vector field fills both components at the same points", "statement": "VectorField.fill leaves the visible vectors and nothing masked; with kind='nearest' each masked point gets the whole vector of one visible point at the smallest distance, with kind='linear' the components stay within their bounds and an affine velocity is found back between visible points, with a value both components are given.", "quantifier": "every vector field with a visible point, every kind", "why_tests_cant": "grids and masks of any size and shape, ties between nearest points", "anchors": ["IMTreatment/core/vectorfield.py:VectorField.fill"]}
{"id": "C251", "title": "Smoothing averages around each point and keeps the mean", "statement": "smooth(tos='uniform', size=n) fills the field then gives each point the mean of the n by n points around it (repeating the field by reflection at the borders): axes and units stay, the values stay between the bounds of the visible ones, the sum of the values stays, and affine fields are unchanged far from the borders, for each component of a vector field too.", "quantifier": "every scalar or vector field, every size", "why_tests_cant": "grids, masks and sizes of any value, borders included", "anchors": ["IMTreatment/core/scalarfield.py:ScalarField.smooth", "IMTreatment/core/vectorfield.py:VectorField.smooth"]}
{"id": "C252", "title": "Filling in time interpolates between the neighbouring instants", "statement": "fill(tof='temporal') of a record gives a point masked at some time the linear interpolation between the last value seen before and the first seen after, and leaves it masked when there is none; visible values, times and units stay; inplace=False leaves the record as it was; a record with nothing to fill comes back unchanged. For scalar and vector fields.", "quantifier": "every record of at least three fields", "why_tests_cant": "records, grids and histories of masking of any size", "anchors": ["IMTreatment/core/temporalvectorfields.py:TemporalVectorFields.fill", "IMTreatment/core/temporalscalarfields.py:TemporalScalarFields.fill"]}
{"id": "C253", "title": "Filling in space fills each field on its own", "statement": "fill(tof='spatial') of a record fills each field as the field itself would be filled and keeps the times; with a value or the nearest point it always succeeds on fields with visible points and leaves nothing masked.", "quantifier": "every record, every kind", "why_tests_cant": "records of any length", "anchors": ["IMTreatment/core/temporalvectorfields.py:TemporalVectorFields.fill", "IMTreatment/core/temporalscalarfields.py:TemporalScalarFields.fill"]}
{"id": "C254", "title": "The centres of zones are one point for each connected zone", "statement": "get_zones_centers(bornes=[a, b], rel, kind) gives one point for each connected zone of visible values between the bounds (absolute, or parts of the way from the smallest to the greatest value), None without such values: its barycentre for kind='center', the barycentre weighted by the absolute values for 'ponderated', the place of its greatest value (smallest for negative bounds) for 'extremum'. Bounds out of order are refused. It holds for every axis and every field.", "quantifier": "every scalar field, bounds and kind", "why_tests_cant": "zones of any number and shape, axes of any spacing", "anchors": ["IMTreatment/core/scalarfield.py:ScalarField.get_zones_centers"]}
{"id": "C255", "title": "Asking twice for the centres of zones gives the same points", "statement": "get_zones_centers gives the same points each time it is called with the same arguments on the same field, and leaves its argument as it was.", "quantifier": "every field, every number of calls", "why_tests_cant": "histories of calls of any length", "anchors": ["IMTreatment/core/scalarfield.py:ScalarField.get_zones_centers"]}
{"id": "C256", "title": "Even spacing resamples a field bilinearly", "statement": "make_evenly_spaced(res=r) of a scalar field without masked points gives evenly spaced axes between the same ends, with the smallest step of the axis over r, and the bilinear interpolation of the field on them: affine fields stay what they are, no value leaves the range of the field, units are kept, and a field that is evenly spaced already stays as it is (r = 1).", "quantifier": "every scalar field without masked points, every positive resolution", "why_tests_cant": "axes of any length and spacing", "anchors": ["IMTreatment/core/scalarfield.py:ScalarField.make_evenly_spaced"]}
{"id": "C257", "title": "Even spacing of a vector field resamples both components on the same axes", "statement": "make_evenly_spaced of a vector field without masked points gives both components interpolated bilinearly on the same evenly spaced axes, with the units of the field.", "quantifier": "every vector field without masked points, every positive resolution", "why_tests_cant": "axes of any length and spacing", "anchors": ["IMTreatment/core/vectorfield.py:VectorField.make_evenly_spaced"]}
{"id": "C258", "title": "Even spacing of a record resamples each field", "statement": "make_evenly_spaced of a record (of scalar or vector fields) without masked points resamples each field on one pair of evenly spaced axes, which become those of the record; times and units stay.", "quantifier": "every non-empty record without masked points", "why_tests_cant": "records of any length", "anchors": ["IMTreatment/core/temporalfields.py:TemporalFields.make_evenly_spaced"]}
{"id": "C259", "title": "Reducing the resolution of a vector field averages blocks", "statement": "VectorField.reduce_spatial_resolution(n) gives one point per complete block of n by n points, in its middle, with the mean of the visible vectors of the block, masked if there is none; units are kept; inplace=True puts the same result in the field itself.", "quantifier": "every vector field, every factor", "why_tests_cant": "axes of any length, any mask", "anchors": ["IMTreatment/core/vectorfield.py:VectorField.reduce_spatial_resolution"]}
{"id": "C260", "title": "Reducing the resolution of a record reduces each field", "statement": "reduce_spatial_resolution(n) of a record reduces each field; the axes of the result are those of its fields, times and units stay, and the record itself stays as it was unless inplace=True.", "quantifier": "every non-empty record of scalar or vector fields, every factor", "why_tests_cant": "records and axes of any length", "anchors": ["IMTreatment/core/temporalfields.py:TemporalFields.reduce_spatial_resolution"]}
{"id": "C261", "title": "Phase maps show at each point the spectrum of its history", "statement": "get_phase_map(freq, tf) of a record of scalar fields gives two fields on the grid and in the units of the record: at each point the modulus and the argument, at the frequency nearest to the wanted one, of the transform of the values shown at that point at the times from 0 to tf (all the times by default).", "quantifier": "every record with at least two times in the interval, every frequency", "why_tests_cant": "records and grids of any size, square ones included", "anchors": ["IMTreatment/core/temporalscalarfields.py:TemporalScalarFields.get_phase_map"]}
{"id": "C262", "title": "Equality of records is equality of what they show", "statement": "Two records are equal exactly when they have the same times, coordinates and units and their fields, one by one, are equal; comparing never raises, whatever the version of Python.", "quantifier": "every pair of records of vector or scalar fields", "why_tests_cant": "pairs of records of any length", "anchors": ["IMTreatment/core/temporalfields.py:TemporalFields.__eq__"]}
{"id": "C263", "title": "Units given as text are expressions, never calls", "statement": "make_unit(text) gives the value of the text as an expression of units, '^' meaning the power; texts holding an assignment, an import, quotes, several instructions, or a call are refused before anything is executed; no unit is refused for its name.", "quantifier": "every text", "why_tests_cant": "texts of any length", "anchors": ["IMTreatment/utils/units.py:make_unit"]}
{"id": "C264", "title": "Adding a number, a vector or a quantity shifts what a field shows", "statement": "Field + c shows at each visible point its value plus c, in the unit of the field and with its mask: for numbers, for single vectors (field - [a, b] subtracts it), and for quantities, written in the unit of the field; quantities of another dimension are refused.", "quantifier": "every scalar or vector field, number, vector and quantity", "why_tests_cant": "grids of any size, quantities in any unit", "anchors": ["IMTreatment/core/scalarfield.py:ScalarField.__add__", "IMTreatment/core/scalarfield.py:ScalarField.__sub__", "IMTreatment/core/scalarfield.py:ScalarField.__rsub__", "IMTreatment/core/vectorfield.py:VectorField.__add__", "IMTreatment/core/vectorfield.py:VectorField.__sub__"]}
{"id": "C265", "title": "Products and quotients with a quantity designate the physical product", "statement": "Multiplying a field by a quantity, dividing it by a quantity that is not null, or dividing a quantity by it gives a field with the same mask whose values, in its unit, designate the product or quotient of the physical values; its unit has the dimension of the product or quotient.", "quantifier": "every scalar or vector field, every quantity", "why_tests_cant": "grids of any size, quantities in any unit", "anchors": ["IMTreatment/core/scalarfield.py:ScalarField.__mul__", "IMTreatment/core/scalarfield.py:ScalarField.__truediv__", "IMTreatment/core/scalarfield.py:ScalarField.__rtruediv__", "IMTreatment/core/vectorfield.py:VectorField.__mul__", "IMTreatment/core/vectorfield.py:VectorField.__truediv__"]}
{"id": "C266", "title": "Arrays, absolute values and powers act point by point", "statement": "A field combined with an array of its shape shows at each point its value combined with the number of the array there (a null divisor masks the point), arrays of other shapes being refused; abs and ** act on each visible value (each component), ** on the unit too; masks, grids and units of length stay.", "quantifier": "every scalar or vector field, array and natural exponent", "why_tests_cant": "grids of any size", "anchors": ["IMTreatment/core/scalarfield.py:ScalarField.__mul__", "IMTreatment/core/scalarfield.py:ScalarField.__abs__", "IMTreatment/core/scalarfield.py:ScalarField.__pow__", "IMTreatment/core/vectorfield.py:VectorField.__add__", "IMTreatment/core/vectorfield.py:VectorField.__mul__", "IMTreatment/core/vectorfield.py:VectorField.__truediv__", "IMTreatment/core/vectorfield.py:VectorField.__abs__", "IMTreatment/core/vectorfield.py:VectorField.__pow__"]}
{"id": "C267", "title": "Removing doublons merges the points of equal value", "statement": "remove_doublons(eps, method) of a set of points with values merges the points whose values are equal within eps times the root mean square of the values, and only those: each new point has the mean (smallest, greatest) of the positions merged and a value that is one of the values merged or their mean; units are kept.", "quantifier": "every set of points with values, every positive eps, every method", "why_tests_cant": "sets of any size with any values", "anchors": ["IMTreatment/core/points.py:Points.remove_doublons"]}
{"id": "C268", "title": "Ordering points on a line permutes them", "statement": "order_on_line() gives the same points, each with its value, in an order that follows the line: the path is no longer (in squared lengths) than the others it tries.", "quantifier": "every set of points", "why_tests_cant": "sets of any size in any position", "anchors": ["IMTreatment/core/points.py:Points.order_on_line"]}
{"id": "C269", "title": "The gradient of a profile at a position agrees with its gradients at the points", "statement": "get_gradient(position) of an evenly spaced profile is what get_gradient() shows at the point of the profile at that position, is linear between two points, is the slope of the nearest segment outside of the profile, and is the slope of an affine profile everywhere and for any interval.", "quantifier": "every evenly spaced profile without masked point, every position, every interval", "why_tests_cant": "profiles of any length with any values and units", "anchors": ["IMTreatment/core/profile.py:Profile.get_gradient"]}
{"id": "C270", "title": "Local marginal values are the outliers of the gap to the smoothed profile", "statement": "remove_local_marginal_values(fact, neighb) masks exactly the values whose gap to the smoothed profile is more than fact standard deviations away from the mean gap, whatever the number of masked points; abscissae, units and the other values stay; for fact >= 1 some value is left, and where all the gaps are equal nothing is masked.", "quantifier": "every profile, every factor, every smoothing filter keeping the length", "why_tests_cant": "profiles of any length with any mask", "anchors": ["IMTreatment/core/profile.py:Profile.remove_local_marginal_values"]}
{"id": "C271", "title": "Extrema of a profile are where its gradient is null", "statement": "get_extrema_position() gives the positions of the local minima and of the local maxima of a profile: positions inside of the profile where its gradient is null, minima where the values are the smallest around and maxima where they are the greatest, each of them being reported; a strictly monotone profile has none.", "quantifier": "every evenly spaced profile without masked point", "why_tests_cant": "profiles of any length with any values", "anchors": ["IMTreatment/core/profile.py:Profile.get_extrema_position"]}
{"id": "C272", "title": "Values and profiles of a vector field are those of its components", "statement": "get_value(x, y) of a vector field gives the vector shown at (x, y): the one of the grid point, the linear interpolation between grid points, exactly the vector of an affine field inside of a cell; get_profile gives the profile of the component asked, at the coordinate, index, nearest coordinate or over the interval given; points outside and other names of components are refused.", "quantifier": "every vector field, point, component, direction, position and interval", "why_tests_cant": "continuum of points, grids of any size", "anchors": ["IMTreatment/core/vectorfield.py:VectorField.get_value", "IMTreatment/core/vectorfield.py:VectorField.get_profile"]}
{"id": "C273", "title": "The norm of a vector field is a norm of its visible vectors", "statement": "get_norm of a vector field is the norm of order p of the components of the visible vectors: zero only for null fields, homogeneous, for p = 2 a function of the magnitudes only; per point it is a mean value, independent of the number of points for a uniform flow.", "quantifier": "every vector field and order", "why_tests_cant": "all grids and values, continuum of orders", "anchors": ["IMTreatment/core/vectorfield.py:VectorField.get_norm"]}
{"id": "C274", "title": "Vortices are the zones of strong criterion", "statement": "get_vortex_position(field or record, criterion, threshold, rel) gives, for each time, one point for each connected zone where the criterion is above the threshold (foc) and one for each connected zone where it is below its opposite (foc_c): the barycentre of the zone weighted by the absolute criterion, in the units of the field; a relative threshold is a part of the greatest absolute value and always finds something in a non-null criterion; the masked borders do not count; thresholds that make no sense are refused.", "quantifier": "every field and record, criterion, threshold", "why_tests_cant": "fields and zones of any size and shape, records of any length", "anchors": ["IMTreatment/vortex_detection/vortex_detection.py:get_vortex_position", "IMTreatment/vortex_detection/vortex_detection.py:_get_vortex_position_on_VF"]}
{"id": "C275", "title": "Walls, smoothing and records in the detection of critical points", "statement": "get_critical_points with walls returns the critical points of the mirrored field that are in front of the walls or at most one grid line behind, none being lost in front; without walls, those of the field, smoothed or not; for a record, those of its fields, each found with the same arguments; the fields given are not changed; masked fields are refused.", "quantifier": "every field and record, list of walls, size of smoothing, detection method", "why_tests_cant": "fields of any size, any number of walls and fields", "anchors": ["IMTreatment/vortex_detection/vortex_detection.py:get_critical_points"]}
{"id": "C276", "title": "Reading a value commutes with the transformations of a field", "statement": "The value get_value returns after a crop, a change of origin, a scaling, a change of unit, a product with a number, a change of sign or a sum is the one obtained by reading the field first and transforming the value (and the position) afterwards; the same positions are refused.", "quantifier": "every field, position and transformation", "why_tests_cant": "continuum of positions, grids of any size, any mask", "anchors": ["IMTreatment/core/scalarfield.py:ScalarField.get_value", "IMTreatment/core/scalarfield.py:ScalarField.crop", "IMTreatment/core/scalarfield.py:ScalarField.scale", "IMTreatment/core/scalarfield.py:ScalarField.__add__", "IMTreatment/core/scalarfield.py:ScalarField.__mul__", "IMTreatment/core/scalarfield.py:ScalarField.__neg__", "IMTreatment/core/scalarfield.py:ScalarField.change_unit", "IMTreatment/core/field.py:Field.set_origin"]}
{"id": "C277", "title": "Transforming a collection of fields transforms what is read from it", "statement": "The opposite, the product with a number, the scaling and the change of origin of a SpatialScalarFields apply to every field, keep the units of the collection in agreement with those of its fields, and get_value at the moved position gives the transformed value, the same positions being refused.", "quantifier": "every collection made of add_field, every position, number, factor and origin", "why_tests_cant": "collections of any size, overlapping fields, histories of add_field", "anchors": ["IMTreatment/core/spatialfields.py:SpatialFields.__neg__", "IMTreatment/core/spatialfields.py:SpatialFields.__mul__", "IMTreatment/core/spatialfields.py:SpatialFields.get_value", "IMTreatment/core/spatialfields.py:SpatialFields.add_field", "IMTreatment/core/fields.py:Fields.scale", "IMTreatment/core/fields.py:Fields.set_origin"]}
{"id": "C278", "title": "The angle deviation tells how evenly the directions around a point are spread", "statement": "get_angle_deviation lies between zero and one wherever it is shown; it is zero exactly when all the neighbours go in the same direction and one exactly when their directions are evenly spread over the turn, as around a vortex, a source or a spiral; it does not change when the velocities are multiplied by a positive number and, with 'galilean_inv' and 'local', in a frame in translation; nor, with 'galilean_inv', when all the velocities turn together.", "quantifier": "every field, mask, radius in number of vectors, order of at least one", "why_tests_cant": "continuum of velocities and orders, motifs of any size", "anchors": ["IMTreatment/vortex_criterions/vortex_criterions.py:get_angle_deviation", "IMTreatment/vortex_criterions/vortex_criterions.py:_get_angles", "IMTreatment/vortex_criterions/vortex_criterions.py:_non_local_criterion_precomputation"]}
{"id": "C279", "title": "The points of a mean trajectory and what is associated to them", "statement": "Every point of the trajectories get_mean_trajectory returns is the mean of the positions of the group at one time step, for every step with enough values and in order of time, with the standard deviations and the real times of these values; crop, scale, sort and remove keep each point with its own time, standard deviations and real times, and scale does not change the trajectories of the critical points.", "quantifier": "every group of trajectories, least number of values, window, factor", "why_tests_cant": "groups and trajectories of any size, continuum of times and positions", "anchors": ["IMTreatment/vortex_detection/vortex_detection.py:CritPoints.get_mean_trajectory", "IMTreatment/vortex_detection/vortex_detection.py:MeanTrajectory.crop", "IMTreatment/vortex_detection/vortex_detection.py:MeanTrajectory.scale", "IMTreatment/core/points.py:Points.sort", "IMTreatment/core/points.py:Points.remove", "IMTreatment/core/profile.py:Profile.remove_doublons"]}
{"id": "C280", "title": "The vector field of a system of vortices is the sum of its parts in metres per second", "statement": "get_vector_field(axe_x, axe_y) of a VortexSystem gives a field on the axes asked, in metres per second, which shows at each point the sum of the physical velocities of the vortices, of their images and of the custom fields, agrees there with get_vector, and is masked exactly where a custom field is not known.", "quantifier": "every system, every pair of axes, every custom field and unit", "why_tests_cant": "systems of any size, all functions and units, grids of any size", "anchors": ["IMTreatment/vortex_creation/vortex_creation.py:VortexSystem.get_vector_field", "IMTreatment/vortex_creation/vortex_creation.py:VortexSystem.get_vector", "IMTreatment/vortex_creation/vortex_creation.py:CustomField.get_vector_field", "IMTreatment/vortex_creation/vortex_creation.py:Vortex.get_vector_field"]}
{"id": "C281", "title": "The changes of direction of a trajectory are on it, where it stops along the direction", "statement": "get_traj_direction_changement(cp_type, direction) reports, for each trajectory of the type with more than two points, the points of its broken line where the coordinate reaches a minimum and those where it reaches a maximum, with their time: the speed along the direction is null there, each is reported, a trajectory going one way has none; names of direction other than x and y are refused.", "quantifier": "every set of trajectories, every direction", "why_tests_cant": "trajectories of any length and number, continuum of positions and times", "anchors": ["IMTreatment/vortex_detection/vortex_detection.py:CritPoints.get_traj_direction_changement", "IMTreatment/core/profile.py:Profile.get_extrema_position", "IMTreatment/core/profile.py:Profile.get_interpolated_values", "IMTreatment/core/profile.py:Profile.get_value_position"]}
{"id": "C282", "title": "Clusters are made of the points, each once, and of points of a dense zone", "statement": "get_clusters(eps, min_samples) returns sets of points which together hold each point exactly once, with its value and the units of the source; core points closer than eps are in the same set, and each set is a dense zone: each of its points is within eps of a core point of the set. Points close to no core point belong to no cluster.", "quantifier": "every set of points, with or without values, every labelling DBSCAN can give, every order of the labels", "why_tests_cant": "any number of points and labels; the order in which a set lists its elements is not specified", "anchors": ["IMTreatment/core/points.py:Points.get_clusters"]}
{"id": "C283", "title": "Changing a unit of points keeps every physical position and value", "statement": "change_unit(axe, unit) gives the set the asked unit along the axis and keeps each physical position (value); the other axes are untouched; a unit of another dimension is refused and the set left unchanged; coming back restores the set.", "quantifier": "every set of points, every unit, the three axes", "why_tests_cant": "continuum of positions and units", "anchors": ["IMTreatment/core/points.py:Points.change_unit"]}
{"id": "C284", "title": "Moving a set of points leaves the array it was made of alone", "statement": "A set of points made from an array is independent of it: whatever is done to the set (origin moved, scaled, unit changed, points added or cropped), the array of the caller, and any other set made from it, is unchanged; the set itself shows the effect of each operation.", "quantifier": "every array, every history of operations", "why_tests_cant": "histories of any length; aliasing is not visible in a single result", "anchors": ["IMTreatment/core/points.py:Points.__init__", "IMTreatment/core/points.py:Points.xy", "IMTreatment/core/points.py:Points.set_origin", "IMTreatment/core/points.py:Points.scale", "IMTreatment/core/points.py:Points.change_unit", "IMTreatment/core/points.py:Points.add", "IMTreatment/core/points.py:Points.crop"]}
{"id": "C285", "title": "The velocity field of a potential system shows the velocity of each position", "statement": "compute_velocity_on_grid(grid_x, grid_y) shows at each position of the grid the velocity compute_velocity gives there, as arrays indexed by x then y like every field; with remove_solid, exactly the positions inside a solid are masked (also along a line); compute_pressure_from_velocity gives, with the same axes and mask, one minus the square of the speed over that of the free stream.", "quantifier": "every system, every increasing grid, every set of solids, raw or not", "why_tests_cant": "continuum of positions, any number of panels and grid points", "anchors": ["IMTreatment/potential_flow/potential_flow.py:System.compute_velocity_on_grid", "IMTreatment/potential_flow/potential_flow.py:System.compute_velocity_on_line", "IMTreatment/potential_flow/potential_flow.py:System.compute_pressure_from_velocity", "IMTreatment/potential_flow/potential_flow.py:System.get_solid_paths"]}
{"id": "C286", "title": "The field around a point holds the asked lines and columns around it", "statement": "get_field_around_pt(xy, n) returns the part of the field around the point: the values and mask at the positions less than n/2 steps (rounded up) away, nothing else; it has n lines and n columns when the point is far enough from the borders.", "quantifier": "every field, every point, every number of lines", "why_tests_cant": "any grid, continuum of points", "anchors": ["IMTreatment/vortex_detection/vortex_detection.py:VF.get_field_around_pt"]}
{"id": "C287", "title": "Refined critical points are at the extremum of the criterion near their cell", "statement": "get_critical_points(kind='pbi_crit', window_size=w) reports one point per cell holding a critical point, less than half a window away from the centre of the cell; a saddle stays a saddle; each point whose window fits in the field and is not masked is placed at the extremum of the criterion of its kind in the window.", "quantifier": "every field, every window size, every criterion value", "why_tests_cant": "any field and window; the criterion is a function of the whole window", "anchors": ["IMTreatment/vortex_detection/vortex_detection.py:_get_cp_crit_on_VF", "IMTreatment/vortex_detection/vortex_detection.py:_min_detection", "IMTreatment/vortex_detection/vortex_detection.py:VF.get_field_around_pt", "IMTreatment/vortex_detection/vortex_detection.py:VF.get_cp_cell_position"]}
{"id": "C288", "title": "Two sets of critical points are equal exactly when they hold the same points", "statement": "a == b between two CritPoints is true exactly when both hold the same points of each kind at the same instants, the same trajectories and the same units; a set is equal to a copy of itself.", "quantifier": "every pair of sets of critical points", "why_tests_cant": "any number of instants, points and trajectories, with numpy's broadcasting in between", "anchors": ["IMTreatment/vortex_detection/vortex_detection.py:CritPoints.__eq__", "IMTreatment/vortex_detection/vortex_detection.py:CritPoints"]}
{"id": "C289", "title": "A VTK file of a field shows the field", "statement": "export_to_vtk(field, path, axis) writes a file in which each position of the field, put along the chosen axes, holds the value (or the vector, along the chosen axes) the field has there, and masked points hold NaN; the same axis twice and folders that do not exist are refused, other paths are accepted.", "quantifier": "every scalar or vector field, every pair of axes, every path", "why_tests_cant": "any grid; the order of the points in the file depends on the axes", "anchors": ["IMTreatment/file_operation/file_operation.py:export_to_vtk", "IMTreatment/file_operation/file_operation.py:__export_sf_to_vtk", "IMTreatment/file_operation/file_operation.py:__export_vf_to_vtk"]}
{"id": "C290", "title": "A VTK file of points shows the points", "statement": "export_to_vtk(points, path, axis, line) writes the points in their order, along the chosen axes, with one value per point, and as a line if asked.", "quantifier": "every set of points, every pair of axes", "why_tests_cant": "any number of points", "anchors": ["IMTreatment/file_operation/file_operation.py:export_to_vtk", "IMTreatment/file_operation/file_operation.py:__export_pts_to_vtk"]}
{"id": "C291", "title": "Text files of points, profiles and critical points give back what was written", "statement": "What export_to_ascii writes for a set of points or a profile is read back by import_pts_from_ascii or import_profile_from_ascii (given the units) as the same object; for critical points there is one file per kind and instant, which holds the points of this kind at this instant.", "quantifier": "every set of points, profile and set of critical points", "why_tests_cant": "any number of points, instants and masked values", "anchors": ["IMTreatment/file_operation/file_operation.py:export_to_ascii", "IMTreatment/file_operation/file_operation.py:import_pts_from_ascii", "IMTreatment/file_operation/file_operation.py:import_profile_from_ascii"]}
{"id": "C292", "title": "A series of pictures is read in order, each picture at its time", "statement": "import_from_pictures(pattern, times, fieldnumbers=(first, last), incr) gives a record of exactly the pictures of rank first <= i < last, one out of incr, in the order of the file names whatever the order of the folder, the picture of rank i at times[i] (at i by default) in the given unit; windows that end after the last picture end at the last picture; the arguments of the caller are not changed.", "quantifier": "every folder of pictures, list of times, window and increment", "why_tests_cant": "any number of pictures, windows and orders of the folder", "anchors": ["IMTreatment/file_operation/file_operation.py:import_from_pictures"]}
{"id": "C293", "title": "A series of DaVis files is read in order, each file at its time", "statement": "import_from_IM7s and import_from_VC7s give a record of the files of rank first <= i < last, one out of incr, in the order of the names, each at the same time as when all the files are read, the first file being at time 0; files are one time step apart.", "quantifier": "every folder of DaVis files, window and increment", "why_tests_cant": "any number of files, windows and increments", "anchors": ["IMTreatment/file_operation/file_operation.py:import_from_IM7s", "IMTreatment/file_operation/file_operation.py:import_from_VC7s"]}
{"id": "C294", "title": "Saved fields are gathered in one record", "statement": "imts_to_imt(folder, path, kind) saves a record of the fields of the .imt and .cimt files of the folder, each once, other files being left aside, at successive times in the order of the files.", "quantifier": "every folder of saved objects", "why_tests_cant": "any number of files, any order of the folder", "anchors": ["IMTreatment/file_operation/file_operation.py:imts_to_imt"]}
{"id": "C295", "title": "DaVis files are converted to saved fields", "statement": "IM7_to_imt and VC7_to_imt save the field of each DaVis file of a folder under its own name, or that of a single file under the given name, compressed or not as asked; nothing else is changed.", "quantifier": "every folder of files, every name, every file", "why_tests_cant": "any number of files and names", "anchors": ["IMTreatment/file_operation/file_operation.py:IM7_to_imt", "IMTreatment/file_operation/file_operation.py:VC7_to_imt"]}
{"id": "C296", "title": "Matlab files give back the fields and profiles that were written", "statement": "What export_to_matlab writes for a scalar field, a vector field or a profile is read back by import_from_matlab as the same object: same positions, values, masked points and units; the matrices X and Y of the file hold the coordinates of the values.", "quantifier": "every field, every profile", "why_tests_cant": "any grid and mask", "anchors": ["IMTreatment/file_operation/file_operation.py:export_to_matlab", "IMTreatment/file_operation/file_operation.py:import_from_matlab", "IMTreatment/file_operation/file_operation.py:matlab_parser"]}
{"id": "C297", "title": "A browsed figure always shows one of its frames", "statement": "Whatever the history of buttons, keys, timer ticks and slider moves, the index of the frame shown by a ButtonManager stays between 0 and the index of the last frame.", "quantifier": "every number of frames, every history of events", "why_tests_cant": "all interleavings of keys, timer and slider", "anchors": ["IMTreatment/plotlib/plotlib.py:ButtonManager.keyf", "IMTreatment/plotlib/plotlib.py:ButtonManager.prevf", "IMTreatment/plotlib/plotlib.py:ButtonManager.nextf", "IMTreatment/plotlib/plotlib.py:ButtonManager.timer_play", "IMTreatment/plotlib/plotlib.py:ButtonManager.goto", "IMTreatment/plotlib/plotlib.py:ButtonManager.goto_lims", "IMTreatment/plotlib/plotlib.py:ButtonManager.slid"]}
{"id": "C298", "title": "Next and previous move by the step, within the frames", "statement": "Next and previous move by the current step and stop at the last and first frames; a number typed before multiplies the move of one event only; typing a number then i sets the step; previous after next gives the same frame back unless an end was met.", "quantifier": "every state of a browsed figure, every typed number", "why_tests_cant": "all numbers of digits and states", "anchors": ["IMTreatment/plotlib/plotlib.py:ButtonManager.prevf", "IMTreatment/plotlib/plotlib.py:ButtonManager.nextf", "IMTreatment/plotlib/plotlib.py:ButtonManager._get_key_number", "IMTreatment/plotlib/plotlib.py:ButtonManager._update_incr"]}
{"id": "C299", "title": "Going to a frame by its number shows this frame", "statement": "Typing a number and enter (or g) shows the frame of this number if there is one and changes nothing otherwise; down and up show the first and last frames.", "quantifier": "every state, every number", "why_tests_cant": "all numbers of frames and digits", "anchors": ["IMTreatment/plotlib/plotlib.py:ButtonManager.goto", "IMTreatment/plotlib/plotlib.py:ButtonManager.goto_end", "IMTreatment/plotlib/plotlib.py:ButtonManager.goto_beg", "IMTreatment/plotlib/plotlib.py:ButtonManager.keyf"]}
{"id": "C300", "title": "Playing goes round the frames", "statement": "While a figure plays, each tick shows the next frame, and after the last one (or the second limit) the first one (or the first limit) again, so that all of them are shown.", "quantifier": "every number of frames, all limits, every number of ticks", "why_tests_cant": "unbounded playing time", "anchors": ["IMTreatment/plotlib/plotlib.py:ButtonManager.playf", "IMTreatment/plotlib/plotlib.py:ButtonManager.timer_play"]}
{"id": "C301", "title": "Limits of a browsed figure", "statement": "Setting two limits keeps them in increasing order, setting a limit again removes it, clearing removes both, going to limits visits them in turn; no key makes a figure fail.", "quantifier": "every state, every history of limits", "why_tests_cant": "all histories", "anchors": ["IMTreatment/plotlib/plotlib.py:ButtonManager.set_lims", "IMTreatment/plotlib/plotlib.py:ButtonManager.goto_lims", "IMTreatment/plotlib/plotlib.py:ButtonManager.keyf"]}
{"id": "C302", "title": "An animation holds the frames asked for, in order, and leaves the figure as it was", "statement": "save_animation(path, fields) grabs the frames asked for, each once and in order, and the figure shows the same frame as before when it returns.", "quantifier": "every figure state, every list of frames", "why_tests_cant": "all numbers of frames", "anchors": ["IMTreatment/plotlib/plotlib.py:ButtonManager.save_animation", "IMTreatment/plotlib/plotlib.py:save_animation"]}
{"id": "C303", "title": "The axes hold the drawing of the current frame only", "statement": "After any sequence of drawings of frames, what is visible on the axes of a Displayer is exactly the drawing of the last frame, whatever the size of the buffer.", "quantifier": "every buffer size, every sequence of frames", "why_tests_cant": "unbounded histories of frames and evictions", "anchors": ["IMTreatment/plotlib/plotlib.py:Displayer.draw", "IMTreatment/plotlib/plotlib.py:Displayer._toggle_visibility"]}
{"id": "C304", "title": "The buffer keeps the frames drawn last and draws them once", "statement": "A Displayer keeps the drawings of exactly the distinct frames drawn last, at most as many as its buffer holds, and drawing one of them again makes no new drawing.", "quantifier": "every buffer size, every sequence of frames", "why_tests_cant": "unbounded histories", "anchors": ["IMTreatment/plotlib/plotlib.py:Displayer.draw"]}
{"id": "C305", "title": "Links between figures go both ways", "statement": "After any sequence of link_to_other_graph, two figures are linked exactly when one was linked to the other, and then both know of it.", "quantifier": "every sequence of links between any number of figures", "why_tests_cant": "all sequences", "anchors": ["IMTreatment/plotlib/plotlib.py:ButtonManager.link_to_other_graph"]}
{"id": "C306", "title": "Linked figures show the same frame", "statement": "When one of several figures, linked directly or through others, goes to a frame, all of them go to it, and the figures that are not linked to it stay where they are.", "quantifier": "every graph of links, all frames", "why_tests_cant": "arbitrary graphs with cycles; termination of mutual updates", "anchors": ["IMTreatment/plotlib/plotlib.py:ButtonManager._update_linked_graphs", "IMTreatment/plotlib/plotlib.py:ButtonManager.link_to_other_graph"]}
{"id": "C307", "title": "Deleting listed files deletes nothing else", "statement": "Files.delete_existing_files asks first; after a no nothing changes; after a yes the listed files and folders are gone, the object says so, and nothing that is neither listed nor in a listed folder is touched, whatever happens on the way; without recursive, only listed files and empty folders are deleted.", "quantifier": "every disk, every object, every sequence of answers", "why_tests_cant": "all disks and orders of deletions; deletions cannot be undone", "anchors": ["IMTreatment/utils/files.py:Files.delete_existing_files"]}
{"id": "C308", "title": "remove_files_in_dirs deletes exactly the files asked for", "statement": "remove_files_in_dirs(root, dir_regex, file_regex, depth, remove_dir, remove_files) deletes, after a yes, exactly the files whose name matches in the folders below the root whose path matches, down to the given depth, and nothing after a no or with remove_files=False.", "quantifier": "every disk, root, regular expressions and answers", "why_tests_cant": "all disks", "anchors": ["IMTreatment/utils/files.py:remove_files_in_dirs"]}
{"id": "C309", "title": "A search of files lists exactly the paths asked for", "statement": "Files.load_files_from_regex(root, regex, load_files, load_dirs, depth) lists every file or folder below the root, down to the given depth, whose path matches, each once with its kind, a folder before its content, and nothing else.", "quantifier": "every disk, root, regular expression and depth", "why_tests_cant": "all trees of folders", "anchors": ["IMTreatment/utils/files.py:Files.load_files_from_regex"]}
{"id": "C310", "title": "The tree of a list of files shows the list", "statement": "Files.build_tree makes a tree that shows exactly the listed files, the listed folders and the folders they are in, each folder once.", "quantifier": "every list of paths", "why_tests_cant": "all paths and orders", "anchors": ["IMTreatment/utils/files.py:Files.build_tree"]}
{"id": "C311", "title": "Adding oriented points keeps each point with its directions", "statement": "The sum of two OrientedPoints holds the points of both, each at its physical place with its own value and its own directions, and leaves the operands as they are; points without directions can be added to it or are refused with a clear error.", "quantifier": "every pair of sets, units, values and numbers of directions", "why_tests_cant": "all pairs of sets", "anchors": ["IMTreatment/core/orientedpoints.py:OrientedPoints.__add__", "IMTreatment/core/orientedpoints.py:OrientedPoints.import_from_Points", "IMTreatment/core/orientedpoints.py:OrientedPoints.orientations"]}
{"id": "C312", "title": "Decomposing oriented points gives one set per point", "statement": "OrientedPoints.decompose gives, for each point, a set of that point only, with its value, its directions and the units, in order.", "quantifier": "every set of oriented points", "why_tests_cant": "all sets", "anchors": ["IMTreatment/core/orientedpoints.py:OrientedPoints.decompose"]}
{"id": "C313", "title": "Streamlines from directions start on both sides of each point", "statement": "get_streamlines_from_orientations gives, for each point and each direction that is not zero, the streamlines of the field from two places on the direction, on both sides of the point, in the sense asked for that direction, each with the point in front; delta and interp set how they are computed.", "quantifier": "every set, field, step and sense", "why_tests_cant": "all sets and fields", "anchors": ["IMTreatment/core/orientedpoints.py:OrientedPoints.get_streamlines_from_orientations"]}
{"id": "C314", "title": "The shared colour scale of a series holds all its colours", "statement": "The shared scale (Displayer.get_global_norm) goes from the lowest to the highest colour of all the frames, masked cells apart, and does not change from one frame to the next.", "quantifier": "every series of frames with masked cells", "why_tests_cant": "all series", "anchors": ["IMTreatment/plotlib/plotlib.py:Displayer.get_global_norm", "IMTreatment/plotlib/plotlib.py:ButtonManager._get_cb_norm_from_displs"]}
{"id": "C315", "title": "The colour scale of a frame goes from its lowest to its highest colour", "statement": "Without a shared scale, the scale of each frame (Displayer.get_norm) goes from its lowest to its highest colour, masked cells apart.", "quantifier": "every frame", "why_tests_cant": "all frames", "anchors": ["IMTreatment/plotlib/plotlib.py:Displayer.get_norm"]}
{"id": "C316", "title": "A discrete colour map gives each value the colour of the nearest centre", "statement": "make_discrete_cmap(interv_centers) has one colour per centre, and a value drawn with the map and its norm gets the colour of the centre nearest to it.", "quantifier": "every list of centres and every value", "why_tests_cant": "all lists of centres and all values", "anchors": ["IMTreatment/plotlib/plotlib.py:make_discrete_cmap"]}
{"id": "C317", "title": "A gradient has the number of colours asked for", "statement": "get_color_gradient(cmap, number) gives number colours, from the beginning to the end of the map in equal steps.", "quantifier": "every number", "why_tests_cant": "all numbers", "anchors": ["IMTreatment/plotlib/plotlib.py:get_color_gradient"]}
{"id": "C318", "title": "A coloured line has one segment between consecutive points", "statement": "The segments of a coloured line join each point to the next one, in order, and there is one fewer than points.", "quantifier": "every line", "why_tests_cant": "all lengths", "anchors": ["IMTreatment/plotlib/plotlib.py:make_segments", "IMTreatment/plotlib/plotlib.py:colored_plot"]}
{"id": "C319", "title": "The aspect of a figure follows its displayers", "statement": "A figure has equal scales as soon as one of its displayers asks for them, automatic ones otherwise, and the way to adjust that is asked for first.", "quantifier": "every list of displayers", "why_tests_cant": "all lists", "anchors": ["IMTreatment/plotlib/plotlib.py:ButtonManager._get_aspect_from_displs"]}
{"id": "C320", "title": "Drawing several frames gives each one its own axes", "statement": "draw_multiple(inds, ncol, nrow) draws each frame on axes of its own, in order of rows, on a grid with a place for each and no empty row, and respects the numbers of rows and columns asked for.", "quantifier": "every number of frames, rows and columns", "why_tests_cant": "all numbers", "anchors": ["IMTreatment/plotlib/plotlib.py:Displayer.draw_multiple"]}
{"id": "C321", "title": "The data under the mouse is the nearest one", "statement": "Displayer.get_data_at_point(x, y) gives the coordinates and the values of the node (or of the point, or of the abscissa of a profile) nearest to (x, y), and nothing out of the limits of the data.", "quantifier": "every drawing and every place of the mouse", "why_tests_cant": "all places and data", "anchors": ["IMTreatment/plotlib/plotlib.py:Displayer.get_data_at_point", "IMTreatment/plotlib/plotlib.py:is_sorted"]}
{"id": "C322", "title": "The text under the mouse is always given", "statement": "Moving the mouse over a figure shows the name and number of each quantity under it, and nothing outside, wherever the mouse is.", "quantifier": "every drawing and every place of the mouse", "why_tests_cant": "all places and data", "anchors": ["IMTreatment/plotlib/plotlib.py:DataCursorTextDisplayer"]}
{"id": "C323", "title": "Detected critical points go to the class of their kind", "statement": "The critical points detected on a field by the Poincare-Bendixson method are put, in the order of the detection and at the time of the field, in the class of their kind, each in one class only, and none is lost.", "quantifier": "every list of detected positions and kinds", "why_tests_cant": "all lists", "anchors": ["IMTreatment/vortex_detection/vortex_detection.py:_get_cp_pbi_on_VF"]}
{"id": "C324", "title": "Refining critical points puts each one on the extremum next to it", "statement": "CritPoints.refine_cp_position(cp_type, fields) moves each point of the class to the extremum reached from it in the field of its own time; the number of points, their times and the other classes do not change, and without inplace neither does the object.", "quantifier": "every set of critical points, record of fields and class", "why_tests_cant": "all sets and records", "anchors": ["IMTreatment/vortex_detection/vortex_detection.py:CritPoints.refine_cp_position", "IMTreatment/core/scalarfield.py:ScalarField.get_nearest_extrema", "IMTreatment/field_treatment/field_treatment.py:get_streamlines"]}
{"id": "C325", "title": "Fields averaged along a mean trajectory are the means of the real fields", "statement": "MeanTrajectory.reconstruct_fields(TF) gives, for each time of the mean trajectory and in order of time, the mean of the fields of TF at the real times tied to it, masked where one of them is; a real time that is not in TF is an error.", "quantifier": "every record and every table of times", "why_tests_cant": "all records and tables", "anchors": ["IMTreatment/vortex_detection/vortex_detection.py:MeanTrajectory.reconstruct_fields"]}
{"id": "C326", "title": "The coherence of modes is that of the present modes", "statement": "get_temporal_coherence and get_spatial_coherence give the coherence of the temporal evolutions and modes that the object holds when they are called, whatever was called before.", "quantifier": "every history of calls (coherence, smoothing, crops, scaling, augmentation, choice of modes)", "why_tests_cant": "all histories", "anchors": ["IMTreatment/pod/pod.py:ModalFields.get_temporal_coherence", "IMTreatment/pod/pod.py:ModalFields.get_spatial_coherence", "IMTreatment/pod/pod.py:ModalFields.smooth_temporal_evolutions", "IMTreatment/pod/pod.py:ModalFields.smooth_spatial_evolutions", "IMTreatment/pod/pod.py:ModalFields.crop"]}
{"id": "C327", "title": "Asking for the coherence does not change the modes", "statement": "get_spatial_coherence leaves the modes as they are, so that fields reconstructed before and after are the same.", "quantifier": "every decomposition, with masked values or not", "why_tests_cant": "all modes", "anchors": ["IMTreatment/pod/pod.py:ModalFields.get_spatial_coherence", "IMTreatment/pod/pod.py:ModalFields.reconstruct"]}
{"id": "C328", "title": "A profile can be taken across a set of fields in space", "statement": "SpatialFields.get_profile(direction, position, component) gives the profile of the fields that the line crosses, put together, and None when it crosses none.", "quantifier": "every set of fields, direction, position and component", "why_tests_cant": "all sets and positions", "anchors": ["IMTreatment/core/spatialfields.py:SpatialFields.get_profile", "IMTreatment/core/scalarfield.py:ScalarField.get_profile"]}
{"id": "C329", "title": "A set of fields can be put on one grid", "statement": "SpatialFields.get_values_on_grid(axe_x, axe_y) gives a field whose value at each node of the grid is that of the set at that place, masked out of the fields.", "quantifier": "every set of scalar or vector fields and every grid", "why_tests_cant": "all sets and grids", "anchors": ["IMTreatment/core/spatialfields.py:SpatialFields.get_values_on_grid"]}
{"id": "C330", "title": "Two profiles are compared at every shift on the points both have", "statement": "get_convolution_of_difference(other) gives, at the abscissa D, the mean absolute difference between the values of the profile at x and of the other at x + D, over the points where both are available, divided by the mean absolute value of the other if asked; profiles of different units are refused.", "quantifier": "every pair of profiles on regular axes, with masked values", "why_tests_cant": "all pairs and shifts", "anchors": ["IMTreatment/core/profile.py:Profile.get_convolution_of_difference"]}
{"id": "C331", "title": "The shift between two profiles is found", "statement": "get_dephasage(other) gives the shift for which the two profiles differ the least; when the profile is a moved piece of the other, the profiles have the same values at that shift.", "quantifier": "every pair of profiles on regular axes", "why_tests_cant": "all pairs", "anchors": ["IMTreatment/core/profile.py:Profile.get_dephasage", "IMTreatment/core/profile.py:Profile.get_value_position"]}
{"id": "C332", "title": "The eigenproperties of the velocity gradient are those of its matrix", "statement": "get_jacobian_eigenproperties(field) gives at each node the two eigenvalues of the Jacobian matrix of the field, the largest first, each with an eigenvector for it, in the unit of the values over that of the lengths, masked where the gradients are.", "quantifier": "every field of 2x2 matrices", "why_tests_cant": "all matrices, with real or complex eigenvalues", "anchors": ["IMTreatment/field_treatment/field_treatment.py:get_jacobian_eigenproperties"]}
{"id": "C333", "title": "The lines of Kenwright are where the velocity keeps its direction", "statement": "The values of get_Kenwright_field vanish exactly at the places where the velocity is an eigenvector of its gradient.", "quantifier": "every velocity and every gradient matrix", "why_tests_cant": "all matrices", "anchors": ["IMTreatment/field_treatment/field_treatment.py:get_Kenwright_field", "IMTreatment/field_treatment/field_treatment.py:get_jacobian_eigenproperties"]}
{"id": "C334", "title": "A Blasius profile has the thickness of its layer", "statement": "BlasiusBL.get_profile and get_profile_with_confinement give velocity profiles, laminar or turbulent, whose thickness is the one given by the object at that position, with the effect of confinement when asked.", "quantifier": "every layer, position, height of channel and list of ordinates", "why_tests_cant": "all real parameters", "anchors": ["IMTreatment/boundary_layer/boundary_layer.py:BlasiusBL.get_profile", "IMTreatment/boundary_layer/boundary_layer.py:BlasiusBL.get_profile_with_confinement", "IMTreatment/boundary_layer/boundary_layer.py:BlasiusBL.get_thickness_with_confinement"]}
{"id": "C335", "title": "Thicknesses of a field are those of its profiles", "statement": "get_bl_thickness, get_displ_thickness, get_momentum_thickness and get_shear_stress of a field give, for each position of the axis asked for, the quantity of the profile taken there, with the units of the axis and of the thickness.", "quantifier": "every field, both directions", "why_tests_cant": "all fields and directions", "anchors": ["IMTreatment/boundary_layer/boundary_layer.py:get_bl_thickness", "IMTreatment/boundary_layer/boundary_layer.py:get_displ_thickness", "IMTreatment/boundary_layer/boundary_layer.py:get_momentum_thickness", "IMTreatment/boundary_layer/boundary_layer.py:get_shear_stress"]}
{"id": "C336", "title": "The separation position of a boundary layer is returned", "statement": "get_separation_position(field, wall_direction, wall_position) gives the position at the wall at which the flow along it changes its direction.", "quantifier": "every field, wall and number of lines", "why_tests_cant": "all fields and walls", "anchors": ["IMTreatment/boundary_layer/boundary_layer.py:get_separation_position"]}
{"id": "C337", "title": "The density of the values of a profile is a probability density", "statement": "get_pdf(bw_method, resolution) gives the density of the values of the profile at evenly spaced values, with gaussians of the bandwidth asked for; it is positive and its integral over the values that are returned is one.", "quantifier": "every profile, resolution and bandwidth", "why_tests_cant": "integrals over all real values", "anchors": ["IMTreatment/core/profile.py:Profile.get_pdf"]}
{"id": "C338", "title": "The distribution of the values of a profile follows them", "statement": "get_distribution(output_format, resolution, bw_method) gives the distribution of the values in the format asked for (normalised, ponderated, percentage, concentration), with the bandwidth and units of the values; adding a number to all the values moves the distribution by it.", "quantifier": "every profile, format, resolution and bandwidth", "why_tests_cant": "integrals over all real values", "anchors": ["IMTreatment/core/profile.py:Profile.get_distribution"]}
{"id": "C339", "title": "The density of points has the mass of its format", "statement": "get_points_density(bw_method, resolution, output_format) gives a field over the region of the points, positive, whose integral is one (normalised), a hundred (percentage) or the number of points (ponderated, concentration), for every set of at least two distinct points.", "quantifier": "every set of points, resolution and format", "why_tests_cant": "all clouds of points", "anchors": ["IMTreatment/core/points.py:Points.get_points_density"]}
{"id": "C340", "title": "Counting points on a grid counts each of them once", "statement": "get_points_density2(res, subres) gives at each node of the grid the weight of the points nearest to it per surface of a cell; the integral is the total weight.", "quantifier": "every set of points and resolution, with and without subgrid", "why_tests_cant": "all clouds and ties", "anchors": ["IMTreatment/core/points.py:Points.get_points_density2"]}
{"id": "C341", "title": "The envelope of points keeps short edges only", "statement": "The edges behind get_envelope(alpha) are the sides of the triangles kept by alpha, each once, and no kept edge is longer than alpha.", "quantifier": "every triangulation, every alpha", "why_tests_cant": "all triangulations", "anchors": ["IMTreatment/core/points.py:Points.get_envelope"]}
{"id": "C342", "title": "Iota measures how much the directions turn", "statement": "get_iota(field, mask) gives at each node half the norm of the rates at which the direction of the vectors turns along both axes, whatever the direction the angles are counted from; nodes masked by the field or by the argument are masked and are not used for the others.", "quantifier": "every vector field and mask", "why_tests_cant": "all directions at the reals", "anchors": ["IMTreatment/vortex_criterions/vortex_criterions.py:get_iota"]}
{"id": "C343", "title": "The spectrum of a profile shares its energy between frequencies", "statement": "get_spectrum(wanted_x, welch_seglen, scaling, detrend) gives the one-sided spectrum of the values on the interval asked for, once detrended as asked: for the scaling 'spectrum' the magnitudes add up to the mean square of the values, 'base' gives their roots, 'density' their densities, in the right units, for regular profiles.", "quantifier": "every profile, interval, scaling and detrending", "why_tests_cant": "Parseval's identity for all sizes and values", "anchors": ["IMTreatment/core/profile.py:Profile.get_spectrum"]}
{"id": "C344", "title": "Spectral filtering is linear and filters the asked frequencies", "statement": "spectral_filtering(fmin, fmax, order) gives the values filtered between the frequencies asked for, lowpass or highpass if only one is given; the filtering of a sum is the sum of the filterings and the mean of the values is kept.", "quantifier": "every profile and frequencies", "why_tests_cant": "all values and sizes", "anchors": ["IMTreatment/core/profile.py:Profile.spectral_filtering"]}
{"id": "C345", "title": "The text of a set of files shows its folders and files", "statement": "get_tree_representation(max_file_list, hide_top) gives indented lines in which a reader finds each folder once, the files of the folders that hold at most max_file_list and the number of the others, each in its folder, and nothing else.", "quantifier": "every set of paths and limit", "why_tests_cant": "trees of any depth", "anchors": ["IMTreatment/utils/files.py:Files.get_tree_representation"]}
{"id": "C346", "title": "A counter without maximum counts every call", "statement": "A ProgressCounter without nmb_max prints a line for each multiple of its interval, with the number of things done, the time since the beginning and the time each thing takes, and the end once, when finish is called.", "quantifier": "every history of calls and times", "why_tests_cant": "histories of any length", "anchors": ["IMTreatment/utils/progresscounter.py:ProgressCounter.print_progress", "IMTreatment/utils/progresscounter.py:ProgressCounter.finish"]}
{"id": "C347", "title": "A spectrum over an area is the mean of those of its nodes", "statement": "get_temporal_spectrum_over_area(component, intervx, intervy, ind) gives, at each frequency, the mean of the magnitudes of get_temporal_spectrum at all the nodes in the intervals, masked nodes excepted; intervals that go out of the axes or that hold no node are refused.", "quantifier": "every temporal field and intervals", "why_tests_cant": "grids, times and values of any size", "anchors": ["IMTreatment/core/temporalfields.py:TemporalFields.get_temporal_spectrum", "IMTreatment/core/temporalfields.py:TemporalFields.get_temporal_spectrum_over_area"]}
{"id": "C348", "title": "The map of spectra shows the main frequencies of each node", "statement": "get_spectrum_map(comp, nmb_pic) gives nmb_pic scalar fields: at each node, the frequencies of the highest magnitudes of the temporal spectrum of this node, the highest first, in the unit of frequencies; nodes masked more than half of the times are masked.", "quantifier": "every temporal field and number of peaks", "why_tests_cant": "grids, times and values of any size", "anchors": ["IMTreatment/core/temporalfields.py:TemporalFields.get_spectrum_map"]}
{"id": "C349", "title": "Temporal filtering filters the values of each node along time", "statement": "get_spectral_filtering(fmin, fmax, order, inplace) of temporal scalar fields gives fields in which the values of each node along time are the filtered ones (masked nodes stay masked), and changes the object only if inplace is true.", "quantifier": "every temporal scalar field and frequencies", "why_tests_cant": "grids, times and values of any size; sharing of fields between objects", "anchors": ["IMTreatment/core/temporalfields.py:TemporalFields._get_comp_spectral_filtering", "IMTreatment/core/temporalscalarfields.py:TemporalScalarFields.get_spectral_filtering"]}
{"id": "C350", "title": "A spatial spectrum is the mean of those of the lines of the window", "statement": "get_spatial_spectrum(direction, intervx, intervy, fill) of a scalar field gives, at each frequency, the mean of the magnitudes of the spectra of all the lines of the field along the direction that are in the intervals, masked values being filled first; parts of the intervals out of the axes are ignored, and intervals that do not meet them are refused.", "quantifier": "every scalar field, direction, intervals and filling", "why_tests_cant": "grids and values of any size", "anchors": ["IMTreatment/core/scalarfield.py:ScalarField.get_spatial_spectrum"]}
{"id": "C351", "title": "The spatial spectrum of a record is the mean of those of its fields", "statement": "get_spatial_spectrum(component, direction, intervx, intervy, intervtime) of temporal fields gives, at each frequency, the mean of the spatial spectra of the fields whose time is in the interval.", "quantifier": "every temporal field and interval of time", "why_tests_cant": "records of any length", "anchors": ["IMTreatment/core/temporalfields.py:TemporalFields.get_spatial_spectrum"]}
{"id": "C352", "title": "The wavelet transform shows the coefficients of each width at each abscissa", "statement": "get_wavelet_transform(widths) of a regular profile gives a scalar field with the abscissas of the profile and the widths as axes, in the same unit, that shows the wavelet coefficients of the centred values and is masked where the profile is; profiles that are not regular are refused.", "quantifier": "every profile and widths", "why_tests_cant": "profiles and widths of any number", "anchors": ["IMTreatment/core/profile.py:Profile.get_wavelet_transform"]}
{"id": "C353", "title": "The length of pressure is where the pressure has the wanted value", "statement": "get_gradP_length(perc, eps) gives a distance upstream of the obstacle, on its axis, at which the pressure is the wanted part of the reference, up to eps, whenever there is one.", "quantifier": "every pressure, obstacle, part and precision", "why_tests_cant": "a search with an unbounded number of steps over real functions", "anchors": ["IMTreatment/potential_flow/potential_flow.py:System.get_gradP_length"]}
{"id": "C354", "title": "The momentum thickness at a point is that of Thwaites", "statement": "get_separation_position uses at each point of the path the square of the momentum thickness of Thwaites: 0.45 nu / U^6 times the integral of U^5 from the first point to this one, with its maximal value as bound.", "quantifier": "every path and velocities", "why_tests_cant": "paths of any number of points and real velocities", "anchors": ["IMTreatment/potential_flow/potential_flow.py:System.get_separation_position"]}
{"id": "C355", "title": "The temporal coherence of a mode is positive when its kappa is above the critical one", "statement": "get_critical_kappa decreases with the size of the sample and is positive; the temporal coherence of a mode has the sign of the difference of its kappa with the critical one, and increases with the kappa.", "quantifier": "every number of times and every kappa", "why_tests_cant": "real exponentials for all sizes", "anchors": ["IMTreatment/pod/pod.py:ModalFields.get_critical_kappa", "IMTreatment/pod/pod.py:ModalFields.get_temporal_coherence"]}
{"id": "C356", "title": "The density of a kind of critical points counts all of them", "statement": "get_points_density(kind, bw_method, resolution, output_format) of critical points is the density of all the points of the kind, at all times; with 'absolute' its mass is the part of the critical points that are of this kind, so that the kinds add up to one; a kind without enough points has no density.", "quantifier": "every record of critical points, kind and format", "why_tests_cant": "records with any number of times and points", "anchors": ["IMTreatment/vortex_detection/vortex_detection.py:CritPoints.get_points_density"]}
{"id": "C357", "title": "Temporal filtering of vectors filters both components of each node along time", "statement": "get_spectral_filtering(fmin, fmax, order, inplace) of temporal vector fields gives fields in which both components of each node along time are the filtered ones (masked nodes stay masked), and changes the object only if inplace is true.", "quantifier": "every temporal vector field and frequencies", "why_tests_cant": "grids, times and values of any size", "anchors": ["IMTreatment/core/temporalvectorfields.py:TemporalVectorFields.get_spectral_filtering"]}
{"id": "C358", "title": "Smoothing a set of points averages its points along the set", "statement": "Points.smooth('uniform', size) replaces each coordinate and each value by the mean of the size neighbouring ones in the order of the set (3 by default); so smoothed points stay in the box of the points; the set is changed only if inplace is true; another kind of smoothing is refused.", "quantifier": "every set of points and size", "why_tests_cant": "sets of any number of points with any coordinates", "anchors": ["IMTreatment/core/points.py:Points.smooth"]}
{"id": "C359", "title": "Smoothing a collection of points smooths each of its sets once", "statement": "TemporalPoints.smooth smooths the set of each time once and leaves the times and the units; without inplace the sets of the object are left unchanged, and nothing is changed when an exception is raised.", "quantifier": "every collection of points, including those that hold a set several times", "why_tests_cant": "collections of any size that share objects", "anchors": ["IMTreatment/core/temporalpoints.py:TemporalPoints.smooth"]}
{"id": "C360", "title": "The shear stress of a field holds the cross derivatives of the velocity", "statement": "get_shear_stress shows at each point the derivative of the second component along x and that of the first one along y, of the filled field, in the unit of a velocity divided by a length.", "quantifier": "every vector field", "why_tests_cant": "grids of any size, mask and values", "anchors": ["IMTreatment/field_treatment/field_treatment.py:get_shear_stress", "IMTreatment/field_treatment/field_treatment.py:get_swirling_vector"]}
{"id": "C361", "title": "The thickness of Clauser is the integral of the velocity defect over the friction velocity", "statement": "get_clauser_thickness is the integral over the layer of the outer velocity minus the velocity, divided by the friction velocity sqrt(tau/rho), for a profile and for each line of a field.", "quantifier": "every profile, field, wall stress and density", "why_tests_cant": "profiles of any number of points and real numbers", "anchors": ["IMTreatment/boundary_layer/boundary_layer.py:get_clauser_thickness"]}
{"id": "C362", "title": "The improved swirling strength is the ratio of the parts of the eigenvalues", "statement": "get_improved_swirling_strength shows at each point the real part over the positive imaginary part of the eigenvalues of the velocity gradient, and masks the points where they are real; it depends neither on the orientation of the axes nor on the scale of the velocities; masked points are filled first.", "quantifier": "every vector field", "why_tests_cant": "grids of any size and real gradients", "anchors": ["IMTreatment/vortex_criterions/vortex_criterions.py:get_improved_swirling_strength"]}
{"id": "C363", "title": "The marks on the slider are those of the frames that are kept", "statement": "Whatever frames of a buffered figure are shown, the slider has exactly one mark for each frame whose drawing is kept, and no other mark.", "quantifier": "every number of frames, size of the buffer and history of frames", "why_tests_cant": "histories of any length", "anchors": ["IMTreatment/plotlib/plotlib.py:ButtonManager._update_slider_faces", "IMTreatment/plotlib/plotlib.py:ButtonManager.update", "IMTreatment/plotlib/plotlib.py:Displayer.draw"]}
{"id": "C364", "title": "The interpolator of a profile goes through its unmasked points", "statement": "get_interpolator() gives at each point that is not masked its value, between two such points the value on the line that joins them, and outside of them raises ValueError or gives the filling value; get_interpolated_values(ind=True) takes or gives indices instead of abscissae.", "quantifier": "every profile and abscissa", "why_tests_cant": "profiles of any number of points, with any mask", "anchors": ["IMTreatment/core/profile.py:Profile.get_interpolator", "IMTreatment/core/profile.py:Profile.get_interpolated_values"]}
{"id": "C365", "title": "Series of vector fields can be read from ascii files", "statement": "import_vfs_from_ascii returns the fields of the files of the interval, one out of incr; it refuses increments below one and intervals that are not made of two indices.", "quantifier": "every set of files and arguments", "why_tests_cant": "any number of files, any interval and increment", "anchors": ["IMTreatment/file_operation/file_operation.py:import_vfs_from_ascii"]}
{"id": "C366", "title": "A coloured line goes through its points", "statement": "colored_plot(x, y, z) draws the line through the points that have no NaN, in order, coloured by z from its lowest to its highest value; a line of fewer than min_colors points is drawn with more vertices, all on that line, from its first to its last point, the given points included; the axes are logarithmic as asked.", "quantifier": "every line, colours, type of axes and number of colours", "why_tests_cant": "lines of any number of points, with any NaN", "anchors": ["IMTreatment/plotlib/plotlib.py:colored_plot", "IMTreatment/plotlib/plotlib.py:make_segments"]}
{"id": "C367", "title": "A colour map made by hand goes through the given colours", "statement": "make_cmap(colors, position) returns a usable colour map that has each given colour at its position, evenly spread by default, and mixtures of the two neighbouring colours between; it refuses colours that are not of three values and another number of positions than of colours.", "quantifier": "every list of colours and of positions", "why_tests_cant": "lists of any length", "anchors": ["IMTreatment/plotlib/plotlib.py:make_cmap"]}
{"id": "C368", "title": "The background flows of the ready-made systems follow the boundary layer and the obstacle", "statement": "The background flow of HsvSystem is horizontal, the velocity of the boundary layer times the slowing down in front of the obstacle; that of StepSystem is the potential flow slowed down by the layers; there is no flow on the wall, and the free stream far from it and from the obstacle.", "quantifier": "every position, velocity, thickness, height and obstacle", "why_tests_cant": "real positions and velocities", "anchors": ["IMTreatment/vortex_creation/vortex_creation.py:HsvSystem", "IMTreatment/vortex_creation/vortex_creation.py:StepSystem"]}
{"id": "C369", "title": "A video of fields shows them in place, on one scale of greys", "statement": "export_to_video makes one frame for each field, with x to the right and y upwards, whose grey levels go from 0 for the lowest value of all the fields to 255 for the highest one, in the order of the values.", "quantifier": "every list or series of scalar fields of one shape", "why_tests_cant": "any number of fields of any size, with any mask", "anchors": ["IMTreatment/file_operation/file_operation.py:export_to_video"]}
{"id": "C370", "title": "The velocity fields of a vortex system in time follow its vortices", "statement": "get_temporal_vector_field(dt, axe_x, axe_y, nmb_it) returns nmb_it + 1 fields, the field k at the time k dt, showing at each point of the grid the velocity of the vortices where k steps have put them, of their images and of the custom fields; these are the positions given by get_vortex_evolution for the same steps; vortices that feel no velocity give the same field at all times; a time step that is not positive is refused.", "quantifier": "every history of a vortex system, grid, time step and number of steps", "why_tests_cant": "any number of vortices, walls, fields and steps, real positions", "anchors": ["IMTreatment/vortex_creation/vortex_creation.py:VortexSystem.get_temporal_vector_field", "IMTreatment/vortex_creation/vortex_creation.py:VortexSystem.get_evolution", "IMTreatment/vortex_creation/vortex_creation.py:VortexSystem.get_vortex_evolution"]}
{"id": "C371", "title": "Vortex centres found by the gamma criterion are the centres of the turning zones", "statement": "get_critical_points(kind='gam_vort') gives one focus for each connected zone where the mean sine between the distance and the velocity around a point is above 2/pi, one clockwise focus for each where it is below -2/pi, at the barycentre of the zone weighted by this mean, whatever the size of the field and whatever the velocity of the frame, as gamma2 promises.", "quantifier": "every unmasked vector field on a regular grid, radius and labelling of zones", "why_tests_cant": "any size of field and any number and shape of zones", "anchors": ["IMTreatment/vortex_detection/vortex_detection.py:get_critical_points", "IMTreatment/vortex_detection/vortex_detection.py:_get_gamma2_vortex_center_on_VF", "IMTreatment/vortex_detection/vortex_detection.py:_get_vortex_position_on_SF", "IMTreatment/vortex_criterions/vortex_criterions.py:get_gamma"]}
{"id": "C372", "title": "Smoothing trajectories of critical points changes only their positions", "statement": "CritPoints.smooth_traj replaces each trajectory of each kind, in order, by the one with positions averaged over its neighbours; the points, their times and the other properties of the object are unchanged, and so are the times of the trajectories; before compute_traj it is refused and changes nothing; clean_traj can then be used on the smoothed trajectories.", "quantifier": "every collection of critical points with its trajectories, smoothing size", "why_tests_cant": "any number of trajectories of any length, rational positions and times", "anchors": ["IMTreatment/vortex_detection/vortex_detection.py:CritPoints.smooth_traj", "IMTreatment/vortex_detection/vortex_detection.py:CritPoints.clean_traj", "IMTreatment/core/points.py:Points.smooth"]}
{"id": "C373", "title": "A drawing shows each set of data given, within limits that hold all of them", "statement": "A Displayer made from a series of sets has one frame per set, which shows that set, and one made from a single set shows it in all frames; in both cases the limits are the smallest interval that holds all the numbers, ignoring NaN; sets may be lists or arrays, some may be empty.", "quantifier": "every series of sets or single set of numbers, frame", "why_tests_cant": "any number of sets of any length with NaN anywhere", "anchors": ["IMTreatment/plotlib/plotlib.py:Displayer.__init__", "IMTreatment/plotlib/plotlib.py:Displayer.get_data"]}
{"id": "C374", "title": "Changing the type of the values of a field changes nothing else", "statement": "change_dtype keeps the axes, the units, the masked points and the values, made whole towards zero if whole numbers are asked for; asking for the type the values have changes nothing.", "quantifier": "every scalar or vector field, type of values before and after", "why_tests_cant": "any size of grid, mask and rational values", "anchors": ["IMTreatment/core/scalarfield.py:ScalarField.change_dtype", "IMTreatment/core/scalarfield.py:ScalarField.values", "IMTreatment/core/vectorfield.py:VectorField.change_dtype"]}
{"id": "C375", "title": "The colour bar of a window gives the value of each colour drawn in it", "statement": "In a window with a colour bar, a value drawn with some colour is the value that the bar gives to this colour: with a shared bar the bounds are the extreme values over all the frames, bounds that are asked for are those of the bar and of the drawings, and other displayers may be in the window.", "quantifier": "every list of displayers with values, NaN and frames, every bounds asked for", "why_tests_cant": "any number of displayers, frames and values", "anchors": ["IMTreatment/plotlib/plotlib.py:ButtonManager.__init__", "IMTreatment/plotlib/plotlib.py:ButtonManager._get_cb_norm_from_displs", "IMTreatment/plotlib/plotlib.py:Displayer.get_global_norm", "IMTreatment/plotlib/plotlib.py:Displayer.draw_new"]}
{"id": "C376", "title": "A collection of fields in space can be raised to a power", "statement": "The power of a SpatialFields has the fields of the collection, on the same grids, with the same masked points, each value being raised, and the unit of the values as well.", "quantifier": "every collection made by add_field, natural exponent", "why_tests_cant": "any number of fields of any size", "anchors": ["IMTreatment/core/spatialfields.py:SpatialFields.__pow__", "IMTreatment/core/spatialfields.py:SpatialFields.add_field"]}
{"id": "C377", "title": "A field of displaced points holds the place of every particle", "statement": "get_displaced_point_field gives one place for each point of the grid of particles, the one that get_pts_displacement gives for this particle, masked exactly when the particle left the field; bad parameters are refused; there are particles in every field.", "quantifier": "every velocity, field, resolution, time, accuracy and damping", "why_tests_cant": "any number of particles and any number of Runge-Kutta steps", "anchors": ["IMTreatment/vortex_criterions/FTLE/ftle.py:FTLE.get_displaced_point_field", "IMTreatment/vortex_criterions/FTLE/ftle.py:FTLE.get_pts_displacement", "IMTreatment/vortex_criterions/FTLE/ftle.py:FTLE.generate_point_field"]}
{"id": "C378", "title": "The modes of a decomposition make a series of fields", "statement": "modes_as_tf gives a series with each mode of the base, unchanged and in order, the mode number n being at the time n + 1, and refuses modes on other grids.", "quantifier": "every base of any number of modes of any size, complete or reduced", "why_tests_cant": "any number of modes, of any size", "anchors": ["IMTreatment/pod/pod.py:ModalFields.modes_as_tf", "IMTreatment/pod/pod.py:ModalFields.crop_modal_base", "IMTreatment/core/temporalfields.py:TemporalFields.add_field"]}
{"id": "C379", "title": "An animation is made of the figure that is asked for", "statement": "save_animation(path, fig, fields) writes the frames of the figure given, or of the current one when none is given, leaves the other figures alone, and refuses unknown writers; record_animation writes a file of the kind asked for or fails.", "quantifier": "every set of open figures, current figure, interval of fields and kind", "why_tests_cant": "any number of figures and any state of their managers", "anchors": ["IMTreatment/plotlib/plotlib.py:save_animation", "IMTreatment/plotlib/plotlib.py:ButtonManager.save_animation", "IMTreatment/core/temporalfields.py:TemporalFields.record_animation"]}
{"id": "C380", "title": "A function fitted to a profile is the closest one", "statement": "get_fitting gives a profile with the abscissas and units of the profile and the values of the function for the parameters that make the sum of the squared differences with the unmasked points least, from the guess or from ones; a profile that follows the function is given back.", "quantifier": "every profile, function with parameters and first guess", "why_tests_cant": "any number of points and of parameters, every function", "anchors": ["IMTreatment/core/profile.py:Profile.get_fitting"]}
{"id": "C381", "title": "The number of structures along an axis counts the columns and rows that hold one", "statement": "The number of structures of a field along x is the number of columns of cells that hold a structure, a cell of which the index is not zero, and along y the number of rows.", "quantifier": "every field of angles of any size", "why_tests_cant": "any number of rows and columns", "anchors": ["IMTreatment/vortex_detection/vortex_detection.py:VF._check_struct_number", "IMTreatment/vortex_detection/vortex_detection.py:VF._calc_pbi", "IMTreatment/vortex_detection/vortex_detection.py:VF.get_pbi"]}
{"id": "C382", "title": "Smoothing a collection of fields smooths each of its fields once", "statement": "smooth on a collection of scalar or vector fields fills and smooths the field of each time once and leaves the times and the units; without inplace the fields of the object are left unchanged, and nothing is changed when an exception is raised.", "quantifier": "every collection of fields, including those that hold a field several times", "why_tests_cant": "collections of any size that share objects, grids and masks of any kind", "anchors": ["IMTreatment/core/fields.py:Fields.smooth", "IMTreatment/core/scalarfield.py:ScalarField.smooth", "IMTreatment/core/vectorfield.py:VectorField.smooth"]}
{"id": "C383", "title": "The modes of vector fields combine the vectors point by point", "statement": "In modal_decomposition of vector fields the product of two fields is the sum over the points of the scalar products of their vectors, and each mode is a field on the grid of the record, with its units, showing at each point the combination of the vectors of the fields for the coefficients of the mode.", "quantifier": "every record of vector fields on any grid, any number of modes and any coefficients", "why_tests_cant": "grids of any size, any number of fields and of modes", "anchors": ["IMTreatment/pod/pod.py:modal_decomposition", "IMTreatment/pod/pod.py:_tvf_to_POD", "IMTreatment/pod/pod.py:_POD_to_tvf"]}
{"id": "C384", "title": "A mask given as a field tells where points are masked", "statement": "mask_as_sf of a scalar field, or of each field of a record, and mask_cum_as_sf of a record give a field without unit on the same grid, holding 1 at the masked points (for the last one, at the points masked at every time) and 0 at the others, nothing being masked.", "quantifier": "every scalar field and record of scalar fields, every mask", "why_tests_cant": "grids, masks and numbers of fields of any size", "anchors": ["IMTreatment/core/scalarfield.py:ScalarField.mask_as_sf", "IMTreatment/core/temporalfields.py:TemporalFields.mask_as_sf", "IMTreatment/core/temporalfields.py:TemporalFields.mask_cum_as_sf"]}
{"id": "C385", "title": "Rotation in place turns each field of a collection once", "statement": "Fields.rotate(angle, inplace=True), for a number of quarter turns, turns each field of the collection once: what was read at a point is read at the point turned. The fields are on the grid of the collection afterwards, its times and every field it does not hold are left. Another angle raises ValueError and changes nothing.", "quantifier": "every collection of fields on its grid, with shared fields or not, every angle", "why_tests_cant": "any number of fields, of any size, held by the same or other collections", "anchors": ["IMTreatment/core/fields.py:Fields.rotate", "IMTreatment/core/fields.py:Fields.add_field", "IMTreatment/core/field.py:Field.rotate"]}
{"id": "C386", "title": "Changes in place of a collection act on each field once", "statement": "Fields.set_origin and Fields.scale(inplace=True) move, or multiply, each field of the collection once and leave every field it does not hold. Fields.scale(inplace=False) leaves every existing field and gives a collection holding, in the same order, the fields multiplied once.", "quantifier": "every collection of scalar fields, with shared fields or not, every origin, and factors that are not zero along the axes", "why_tests_cant": "any number of fields, of any size, held by the same or other collections", "anchors": ["IMTreatment/core/fields.py:Fields.set_origin", "IMTreatment/core/fields.py:Fields.scale", "IMTreatment/core/fields.py:Fields.add_field", "IMTreatment/core/field.py:Field.set_origin", "IMTreatment/core/scalarfield.py:ScalarField.scale"]}
{"id": "C387", "title": "Changing a unit of a record keeps what its fields show, shared or not", "statement": "After change_unit('x'|'y'|'values', unit) of a record of scalar fields, whether it raised an exception or not and however the fields are shared, every field shows the same physical values at the same physical places and the fields that are not in the record are unchanged. Without exception all its fields have the new unit and are on the grid of the record; a unit of the same dimension is accepted, and a refused change leaves every field as it was.", "quantifier": "every record of scalar fields, with shared fields or not, every quantity and unit", "why_tests_cant": "any number of fields of any size, any sharing, the state after an exception", "anchors": ["IMTreatment/core/temporalfields.py:TemporalFields.change_unit", "IMTreatment/core/temporalfields.py:TemporalFields.add_field", "IMTreatment/core/field.py:Field.change_unit", "IMTreatment/core/scalarfield.py:ScalarField.change_unit"]}
{"id": "C388", "title": "Cropping a record in place cuts each field once, shared or not", "statement": "crop(intervx, intervy, inplace=True) of a record of scalar fields, by coordinates or by indices and however the fields are shared, leaves in every field what it showed in the window and nothing else, keeps the fields on the grid of the record, which holds the coordinates of the window, and changes neither the times nor the fields that are not in the record.", "quantifier": "every record of scalar fields, with shared fields or not, every window", "why_tests_cant": "any number of fields of any size, any sharing", "anchors": ["IMTreatment/core/temporalfields.py:TemporalFields.crop", "IMTreatment/core/temporalfields.py:TemporalFields.add_field", "IMTreatment/core/field.py:Field.crop", "IMTreatment/core/scalarfield.py:ScalarField.crop"]}
{"id": "C389", "title": "The extent of a collection of fields in space holds every point", "statement": "x_min, x_max, y_min and y_max of a SpatialFields bound the smallest rectangle that holds every grid point of every field; a collection without field raises ValueError. Iterating on the collection gives its fields, and mask gives their masks.", "quantifier": "every collection of scalar fields", "why_tests_cant": "any number of fields, of any size and place", "anchors": ["IMTreatment/core/spatialfields.py:SpatialFields.x_min", "IMTreatment/core/spatialfields.py:SpatialFields.x_max", "IMTreatment/core/spatialfields.py:SpatialFields.y_min", "IMTreatment/core/spatialfields.py:SpatialFields.y_max", "IMTreatment/core/spatialfields.py:SpatialFields.__iter__", "IMTreatment/core/spatialfields.py:SpatialFields.mask"]}
