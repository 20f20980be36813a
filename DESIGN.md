# Formal model of IMTreatment — design

The repository under study is `/repo` (IMTreatment, python).  It is read as text only and never executed.
`/verif/lean` contains a Lean 4 model of it and theorems about that model.

## Trusted base

* Lean's kernel (4.33.0) and the Mathlib modules the files import (checked by the same kernel).
* Axioms: only `propext`, `Classical.choice`, `Quot.sound` occur.  `AXIOMS.md` lists, for each theorem of the manifest, the axioms it
  depends on.  No axiom is added; there is no `sorry`, no `native_decide`, no `bv_decide`, no `implemented_by`.
* The tie between model and code is reading: each definition of a model cites the file and lines it models, and says where it
  simplifies.  `seeded/LOG.jsonl` records edits of the models as realistic bugs would make, and the theorems that then fail.

## Conventions of the model

* **Numbers.** A float is modelled as a rational number (`Rat`), NaN as `none` in `Option Rat`; where an angle or a root is
  needed, as a real number.  Rounding, overflow, infinities (except where explicitly represented) and signed zeros are not
  modelled.
* **Arrays.** 1-D arrays are `List`s.  2-D arrays are `Grid α`: a shape and an accessor; only in-range cells are ever
  mentioned in a statement.
* **Exceptions** are values: a function that can raise returns `Except Err α`, with `Err` the python exception kind.
  Where a call raises midway after having already changed the object, the model returns the changed object too.
* **In-place methods** are functions returning the new object.  Aliasing (numpy views, shared buffers) is modelled by
  an explicit heap, only in the modules about aliasing.
* **Units** (`unum`) are a number and a symbol, a symbol being a dimension and a positive size.
* **External routines** (scipy interpolation, eigenvalues, pickling, the file system) are parameters, or replaced by
  their documented mathematical meaning; each is named in the comment of the definition.
* **Loops whose termination is not obvious** are fuelled functions returning an `Option`, with a theorem giving a sufficient fuel.

## Layout

`Verif/<Part>/Model.lean` (and `*Model.lean`) hold the models; `*Lemmas.lean` helper lemmas; the other files hold the property
theorems, each named after its property, the specification it is stated with, and `example`s meeting its hypotheses.

## When the code does not satisfy the property

The model follows the code.  If the English property fails, the negation is proved, for a whole class of inputs whenever possible
(theorem name ending in `_violated`) and the strongest part that does hold is proved under the name `..._partial`.
The MANIFEST status is then `partial` and the note says what is missing.

## Not modelled

* Plotting: `plotlib`, every `display*` method.
* Numerics of scipy and modred: Delaunay interpolation and splines beyond their values on the nodes, gaussian filters, ODE
  integration, eigenvalue routines, POD numerics.
* Binary formats: IM7/VC7 buffers, pickle, gzip, images, video codecs (taken to give back what was written).
* Floating-point rounding and integer dtypes.
* The operating system beyond the files, descriptors and process deaths the models name.

## Per property

For each property: where it is proved, how, and what is missing.  The statements are in `properties.jsonl`.

### C01 — get_indice_on_axe(kind='bounds') brackets the value

*proved.* `lean/Verif/Axis/Props.lean`  
Modelled: index lookup and one-axis crop on sorted lists (core/field.py). Proof: induction on sorted lists.  
Theorems: `C01_bounds_bracket`, `C01_bounds_refused_iff`.

### C02 — get_indice_on_axe(kind='nearest') returns a closest grid index

*proved.* `lean/Verif/Axis/Props.lean`  
Modelled: index lookup and one-axis crop on sorted lists (core/field.py). Proof: induction on sorted lists.  
Theorems: `C02_nearest_minimal`.

### C03 — get_indice_on_axe(kind='decimal') inverts linear interpolation

*proved.* `lean/Verif/Axis/Props.lean`  
Modelled: index lookup and one-axis crop on sorted lists (core/field.py). Proof: induction on sorted lists.  
Theorems: `C03_decimal_inverts`.

### C04 — crop by values keeps exactly the grid coordinates in the closed window

*proved.* `lean/Verif/Axis/Props.lean`  
Modelled: index lookup and one-axis crop on sorted lists (core/field.py). Proof: induction on sorted lists.  
Theorems: `C04_crop_keeps_window`, `C04_crop_refused`.

### C05 — crop by indices keeps exactly the inclusive index range

*proved.* `lean/Verif/Axis/Props.lean`  
Modelled: index lookup and one-axis crop on sorted lists (core/field.py). Proof: induction on sorted lists.  
Theorems: `C05_cropInd_keeps_range`, `C05_cropInd_refused`.

### C06 — Cropping a scalar or vector field never alters, moves or loses a surviving value

*proved.* `lean/Verif/Scalar/Geom.lean`  
Modelled: ScalarField as two axes, a value grid and a mask (core/field.py, core/scalarfield.py). Specification: the reading of the field at a coordinate (`SF.Reads`). Proof: refinement, each operation commutes with the reading.  
Theorems: `C06_crop_keeps_readings`, `C06_crop_consistent`, `C06_crop_missing_interval`, `C06_cropInd_keeps_readings`.

### C07 — A non-inplace crop is independent of its source

*partial.* `lean/Verif/Field/Alias.lean`  
Modelled: index sets and an explicit memory of shared buffers (core/field.py). Proof: non-interference invariant over histories, witnesses of interference.  
Proved for an explicit copy and for a copied crop, over all histories of operations. The crop itself returns views of the source arrays (core/field.py:545-575), so set_origin or scale on the crop changes the source: C07_crop_axis_violated, C07_crop_values_violated.  
Theorems: `C07_copy_independent`, `C07_crop_copy_partial`, `C07_crop_axis_violated`, `C07_crop_values_violated`.

### C08 — rotate moves every value to its rotated coordinate

*partial.* `lean/Verif/Scalar/Geom.lean`  
Modelled: ScalarField as two axes, a value grid and a mask (core/field.py, core/scalarfield.py). Specification: the reading of the field at a coordinate (`SF.Reads`). Proof: refinement, each operation commutes with the reading.  
Proved for every consistent field with at least two points per axis; the single-point axis case is refuted by C08_single_point_violated (core/field.py:418-422).  
Theorems: `C08_rotate_moves_readings`, `C08_rotate_refused`, `C08_single_point_violated`.

### C09 — rotations compose as the group of quarter turns

*proved.* `lean/Verif/Scalar/Geom.lean`  
Modelled: ScalarField as two axes, a value grid and a mask (core/field.py, core/scalarfield.py). Specification: the reading of the field at a coordinate (`SF.Reads`). Proof: refinement, each operation commutes with the reading.  
Theorems: `C09_rotate_compose`, `C09_full_turn`, `C09_rotate_back`.

### C10 — scale multiplies coordinates and values and keeps them attached

*proved.* `lean/Verif/Scalar/Geom.lean`  
Modelled: ScalarField as two axes, a value grid and a mask (core/field.py, core/scalarfield.py). Specification: the reading of the field at a coordinate (`SF.Reads`). Proof: refinement, each operation commutes with the reading.  
Theorems: `C10_scale_moves_readings`, `C10_scale_units`.

### C11 — VectorField.scale keeps the mask attached to the vectors

*partial.* `lean/Verif/Vector/Geom.lean`  
Modelled: VectorField (core/vectorfield.py). Specification: `VF.Reads`. Proof: refinement. DtypeModel.lean/Dtype.lean: change_dtype of scalar and vector fields (C374).  
Proved for positive factors and for fields without masked point. With a negative factor the mask is not mirrored with the components (core/vectorfield.py:730-738): C11_mask_violated.  
Theorems: `C11_scale_partial`, `C11_mask_violated`.

### C12 — set_origin translates the field

*proved.* `lean/Verif/Scalar/Geom.lean`  
Modelled: ScalarField as two axes, a value grid and a mask (core/field.py, core/scalarfield.py). Specification: the reading of the field at a coordinate (`SF.Reads`). Proof: refinement, each operation commutes with the reading.  
Theorems: `C12_setOrigin_shifts`.

### C13 — change_unit preserves the physical quantities

*proved.* `lean/Verif/Scalar/Geom.lean`  
Modelled: ScalarField as two axes, a value grid and a mask (core/field.py, core/scalarfield.py). Specification: the reading of the field at a coordinate (`SF.Reads`). Proof: refinement, each operation commutes with the reading.  
Theorems: `C13_changeUnit_physical`, `C13_changeUnit_refused`.

### C14 — extend keeps old readings and adds masked cells around

*partial.* `lean/Verif/Scalar/Import.lean`  
Modelled: ScalarField as two axes, a value grid and a mask (core/field.py, core/scalarfield.py). Specification: the reading of the field at a coordinate (`SF.Reads`). Proof: refinement, each operation commutes with the reading.  
In-place form proved; the default (not in place) form always raises NameError (core/scalarfield.py:1493), C14_extend_copy_violated.  
Theorems: `C14_extend_reads`, `C14_extend_axis`, `C14_extend_copy_violated`.

### C15 — import_from_arrays delivers the data whatever the axis direction

*partial.* `lean/Verif/Scalar/Import.lean`  
Modelled: ScalarField as two axes, a value grid and a mask (core/field.py, core/scalarfield.py). Specification: the reading of the field at a coordinate (`SF.Reads`). Proof: refinement, each operation commutes with the reading.  
Proved for increasing axes and for unmasked data on decreasing axes; masked data on a decreasing axis is misplaced (core/scalarfield.py:503-508), C15_import_mask_violated.  
Theorems: `C15_import_reads_partial`, `C15_import_transposed`, `C15_import_single_point`, `C15_import_mask_violated`.

### C16 — Scalar field addition is pointwise with mask union

*partial.* `lean/Verif/Scalar/Arith.lean`  
Modelled: ScalarField as two axes, a value grid and a mask (core/field.py, core/scalarfield.py). Specification: the reading of the field at a coordinate (`SF.Reads`). Proof: refinement, each operation commutes with the reading.  
Proved for fields whose axis units are equal. With axis units of one dimension but different sizes the coordinates are compared as bare numbers (core/scalarfield.py:84-92): C16_axis_units_violated.  
Theorems: `C16_add_pointwise`, `C16_add_comm`, `C16_sub_pointwise`, `C16_add_refused`, `C16_axis_units_violated`.

### C17 — Adding fields on different grids restricts to shared coordinates

*partial.* `lean/Verif/Scalar/Arith.lean`  
Modelled: ScalarField as two axes, a value grid and a mask (core/field.py, core/scalarfield.py). Specification: the reading of the field at a coordinate (`SF.Reads`). Proof: refinement, each operation commutes with the reading.  
Proved with at least two shared coordinates per axis; with exactly one the import of the result raises IndexError: C17_single_shared_violated.  
Theorems: `C17_add_shared_partial`, `C17_add_disjoint_refused`, `C17_single_shared_violated`.

### C18 — Division masks what cannot be divided

*partial.* `lean/Verif/Scalar/Arith.lean`  
Modelled: ScalarField as two axes, a value grid and a mask (core/field.py, core/scalarfield.py). Specification: the reading of the field at a coordinate (`SF.Reads`). Proof: refinement, each operation commutes with the reading.  
Field/field and field/array (array without NaN) proved. Reversed division by a zero shows unmasked infinities (core/scalarfield.py:207-227) and an array holding NaN gives unmasked NaN.  
Theorems: `C18_div_pointwise`, `C18_divArr_pointwise`, `C18_div_refused`, `C18_rdiv_violated`, `C18_rdivArr_violated`, `C18_divArr_nan_violated`.

### C19 — crop_masked_border(hard=False) keeps exactly the bounding box of the valid data

*partial.* `lean/Verif/Scalar/Border.lean`  
Modelled: ScalarField as two axes, a value grid and a mask (core/field.py, core/scalarfield.py). Specification: the reading of the field at a coordinate (`SF.Reads`). Proof: refinement, each operation commutes with the reading.  
Everything the soft variant returns is proved right. It returns nothing when the field has no masked value, and raises ValueError when only the first row or column holds valid values.  
Theorems: `C19_soft_bounding_box`, `C19_soft_returns_partial`, `C19_soft_none_violated`, `C19_soft_first_row_violated`.

### C20 — crop_masked_border(hard=True) terminates with a mask-free sub-rectangle

*partial.* `lean/Verif/Scalar/Border.lean`  
Modelled: ScalarField as two axes, a value grid and a mask (core/field.py, core/scalarfield.py). Specification: the reading of the field at a coordinate (`SF.Reads`). Proof: refinement, each operation commutes with the reading.  
Termination and mask-freeness proved for every field; the result can be empty and a ValueError can be raised (two witnesses).  
Theorems: `C20_hard_terminates`, `C20_hard_mask_free_partial`, `C20_hard_nothing_to_do`, `C20_hard_error_violated`, `C20_hard_empty_violated`.

### C21 — reduce_spatial_resolution averages the unmasked values of each block

*partial.* `lean/Verif/Scalar/Reduce.lean`  
Modelled: ScalarField as two axes, a value grid and a mask (core/field.py, core/scalarfield.py). Specification: the reading of the field at a coordinate (`SF.Reads`). Proof: refinement, each operation commutes with the reading.  
Even factors proved (block means, masks, positions, conservation of the mean). Odd factors always raise, factor 1 in place raises TypeError, in-place reduction loses the units.  
Theorems: `C21_reduce_blocks`, `C21_mean_preserved`, `C21_reduce_copy_units`, `C21_inplace_units_violated`, `C21_odd_violated`, `C21_one_inplace_violated`.

### C22 — Iterating over a field visits each valid point once

*proved.* `lean/Verif/Scalar/Import.lean`  
Modelled: ScalarField as two axes, a value grid and a mask (core/field.py, core/scalarfield.py). Specification: the reading of the field at a coordinate (`SF.Reads`). Proof: refinement, each operation commutes with the reading.  
Theorems: `C22_iter_complete`, `C22_iter_order`.

### C23 — get_value agrees with the grid and stays between neighbours

*partial.* `lean/Verif/Scalar/Value.lean`  
Modelled: ScalarField as two axes, a value grid and a mask (core/field.py, core/scalarfield.py). Specification: the reading of the field at a coordinate (`SF.Reads`). Proof: refinement, each operation commutes with the reading.  
Nodes, edges, interior bounds, affine exactness and range errors proved for both triangulations; a masked off-diagonal corner is not detected when the cell is split along the main diagonal.  
Theorems: `C23_node`, `C23_out_of_range`, `C23_edge_y`, `C23_edge_x`, `C23_edge_between`, `C23_inside_between`, `C23_inside_affine`, `C23_masked_corner_partial`, `C23_masked_corner_violated`.

### C24 — Points keep positions and values aligned

*partial.* `lean/Verif/Points/Props.lean`  
Modelled: Points and OrientedPoints as position and value lists, operation histories (core/points.py, core/orientedpoints.py). Proof: the list of rows as specification, invariants by induction on histories. GroupModel.lean/Group.lean: clusters for any labelling (C282), change of unit (C283), the array shared with the caller through histories (C284). OrientModel.lean/Orient.lean: sums, decomposition and streamlines of oriented points (C311-C313, C27_place_violated). DensityModel.lean/Density.lean: densities of points and edges of the envelope (C339-C341), trapezium masses, nearest nodes, an invariant on the list of edges. KindsModel.lean/Kinds.lean: densities of the kinds of critical points (C356), on top of C339.  
Holds for histories whose additions give a value exactly when the set has values. add stores the position before checking the value (C24_add_missing_violated) and accepts a value on a set without values (C24_add_extra_violated).  
Theorems: `C24_history_partial`, `C24_add_missing_violated`, `C24_add_extra_violated`.

### C25 — Points.crop keeps exactly the points inside the closed windows, with their value

*partial.* `lean/Verif/Points/Props.lean`  
Modelled: Points and OrientedPoints as position and value lists, operation histories (core/points.py, core/orientedpoints.py). Proof: the list of rows as specification, invariants by induction on histories. GroupModel.lean/Group.lean: clusters for any labelling (C282), change of unit (C283), the array shared with the caller through histories (C284). OrientModel.lean/Orient.lean: sums, decomposition and streamlines of oriented points (C311-C313, C27_place_violated). DensityModel.lean/Density.lean: densities of points and edges of the envelope (C339-C341), trapezium masses, nearest nodes, an invariant on the list of edges. KindsModel.lean/Kinds.lean: densities of the kinds of critical points (C356), on top of C339.  
Full characterisation of the kept rows; a NaN coordinate or value is outside no window and is kept (C25_nan_violated).  
Theorems: `C25_crop_partial`, `C25_nan_violated`, `C25_crop_ind`.

### C26 — Points.cut is the complement of crop

*partial.* `lean/Verif/Points/Props.lean`  
Modelled: Points and OrientedPoints as position and value lists, operation histories (core/points.py, core/orientedpoints.py). Proof: the list of rows as specification, invariants by induction on histories. GroupModel.lean/Group.lean: clusters for any labelling (C282), change of unit (C283), the array shared with the caller through histories (C284). OrientModel.lean/Orient.lean: sums, decomposition and streamlines of oriented points (C311-C313, C27_place_violated). DensityModel.lean/Density.lean: densities of points and edges of the envelope (C339-C341), trapezium masses, nearest nodes, an invariant on the list of edges. KindsModel.lean/Kinds.lean: densities of the kinds of critical points (C356), on top of C339.  
Positions are right; all values are lost as soon as a point is removed (C26_values_violated) and a call without interval raises TypeError (C26_no_interval_violated).  
Theorems: `C26_cut_partial`, `C26_values_violated`, `C26_no_interval_violated`.

### C27 — Adding two point sets concatenates physical points and leaves operands unchanged

*partial.* `lean/Verif/Points/Orient.lean`, `lean/Verif/Points/Props.lean`  
Modelled: Points and OrientedPoints as position and value lists, operation histories (core/points.py, core/orientedpoints.py). Proof: the list of rows as specification, invariants by induction on histories. GroupModel.lean/Group.lean: clusters for any labelling (C282), change of unit (C283), the array shared with the caller through histories (C284). OrientModel.lean/Orient.lean: sums, decomposition and streamlines of oriented points (C311-C313, C27_place_violated). DensityModel.lean/Density.lean: densities of points and edges of the envelope (C339-C341), trapezium masses, nearest nodes, an invariant on the list of edges. KindsModel.lean/Kinds.lean: densities of the kinds of critical points (C356), on top of C339.  
Right for equal units. The conversion factor is inverted (C27_units_violated) and written into the right operand's array (C27_operand_violated).  
Theorems: `C27_place_violated`, `C27_sum_partial`, `C27_mixed_refused`, `C27_units_violated`, `C27_operand_violated`.

### C28 — Points.reverse exchanges the two coordinates

*partial.* `lean/Verif/Points/Props.lean`  
Modelled: Points and OrientedPoints as position and value lists, operation histories (core/points.py, core/orientedpoints.py). Proof: the list of rows as specification, invariants by induction on histories. GroupModel.lean/Group.lean: clusters for any labelling (C282), change of unit (C283), the array shared with the caller through histories (C284). OrientModel.lean/Orient.lean: sums, decomposition and streamlines of oriented points (C311-C313, C27_place_violated). DensityModel.lean/Density.lean: densities of points and edges of the envelope (C339-C341), trapezium masses, nearest nodes, an invariant on the list of edges. KindsModel.lean/Kinds.lean: densities of the kinds of critical points (C356), on top of C339.  
Coordinates are exchanged and the operation is an involution; the units are not exchanged (C28_units_violated).  
Theorems: `C28_reverse_partial`, `C28_units_violated`.

### C29 — Oriented points stay aligned and iterate in step

*partial.* `lean/Verif/Points/Props.lean`  
Modelled: Points and OrientedPoints as position and value lists, operation histories (core/points.py, core/orientedpoints.py). Proof: the list of rows as specification, invariants by induction on histories. GroupModel.lean/Group.lean: clusters for any labelling (C282), change of unit (C283), the array shared with the caller through histories (C284). OrientModel.lean/Orient.lean: sums, decomposition and streamlines of oriented points (C311-C313, C27_place_violated). DensityModel.lean/Density.lean: densities of points and edges of the envelope (C339-C341), trapezium masses, nearest nodes, an invariant on the list of edges. KindsModel.lean/Kinds.lean: densities of the kinds of critical points (C356), on top of C339.  
Alignment holds for histories whose additions respect the values; a refused addition leaves a point without orientation (C29_add_missing_violated); iteration yields the first point only (C29_iter_violated).  
Theorems: `C29_history_partial`, `C29_crop`, `C29_remove`, `C29_add_missing_violated`, `C29_iter_violated`.

### C30 — A profile is always sorted by x and never separates x, y and mask

*proved.* `lean/Verif/Profile/Props.lean`  
Modelled: Profile as three parallel lists with the sort as a parameter (core/profile.py). Proof: permutations, sortedness, induction. C330, C331: the padded profile read through an infinite signal. DensityModel.lean/Density.lean: kernel densities at the reals with Mathlib's gaussian; the mass is compared with the integral over the whole line (C337, C338). SpectrumModel.lean/Spectrum.lean: discrete Fourier transform at the reals, least squares, Parseval's identity and folding of the one-sided spectrum (C343, C344). InterpolModel.lean/Interpol.lean: interpolators and values at indices (C364). FitModel.lean/Fit.lean: fitting of a function (C380); specification `Best`.  
Theorems: `C30_new`, `C30_lengths`.

### C31 — Profile.crop by values keeps exactly the points in the closed interval

*partial.* `lean/Verif/Profile/Crop.lean`  
Modelled: Profile as three parallel lists with the sort as a parameter (core/profile.py). Proof: permutations, sortedness, induction. C330, C331: the padded profile read through an infinite signal. DensityModel.lean/Density.lean: kernel densities at the reals with Mathlib's gaussian; the mass is compared with the integral over the whole line (C337, C338). SpectrumModel.lean/Spectrum.lean: discrete Fourier transform at the reals, least squares, Parseval's identity and folding of the one-sided spectrum (C343, C344). InterpolModel.lean/Interpol.lean: interpolators and values at indices (C364). FitModel.lean/Fit.lean: fitting of a function (C380); specification `Best`.  
Proved for intervals whose lower bound is a stored abscissa or before the profile and whose upper bound is inside it. Otherwise the first, resp. last, point of the interval is lost (core/profile.py:1430-1447): C31_lower_violated, C31_upper_violated; giving both intervals raises IndexError: C31_both_violated.  
Theorems: `C31_crop_partial`, `C31_lower_violated`, `C31_upper_violated`, `C31_both_violated`, `C31_refused`.

### C32 — Profile.crop by indices is the half-open slice

*partial.* `lean/Verif/Profile/History.lean`, `lean/Verif/Profile/Props.lean`  
Modelled: Profile as three parallel lists with the sort as a parameter (core/profile.py). Proof: permutations, sortedness, induction. C330, C331: the padded profile read through an infinite signal. DensityModel.lean/Density.lean: kernel densities at the reals with Mathlib's gaussian; the mass is compared with the integral over the whole line (C337, C338). SpectrumModel.lean/Spectrum.lean: discrete Fourier transform at the reals, least squares, Parseval's identity and folding of the one-sided spectrum (C343, C344). InterpolModel.lean/Interpol.lean: interpolators and values at indices (C364). FitModel.lean/Fit.lean: fitting of a function (C380); specification `Best`.  
Proved. The in-place form sorts y and then assigns the unsorted mask: with an unstable sort, tied abscissae can receive each other's mask (C32_inplace_ties_violated); proved for distinct abscissae or a stable sort (C32_inplace_partial, C35_history).  
Theorems: `C32_inplace_ties_violated`, `C32_inplace_partial`, `C32_crop_ind`, `C32_crop_ind_refused`.

### C33 — Profile.fill fills the masked points and only them

*partial.* `lean/Verif/Profile/Fill.lean`  
Modelled: Profile as three parallel lists with the sort as a parameter (core/profile.py). Proof: permutations, sortedness, induction. C330, C331: the padded profile read through an infinite signal. DensityModel.lean/Density.lean: kernel densities at the reals with Mathlib's gaussian; the mass is compared with the integral over the whole line (C337, C338). SpectrumModel.lean/Spectrum.lean: discrete Fourier transform at the reals, least squares, Parseval's identity and folding of the one-sided spectrum (C343, C344). InterpolModel.lean/Interpol.lean: interpolators and values at indices (C364). FitModel.lean/Fit.lean: fitting of a function (C380); specification `Best`.  
Proved for the piecewise linear kind with at least two valid points. kind='value' overwrites the valid values and leaves the masked ones (core/profile.py:1589-1591): C33_value_violated; crop=True raises TypeError: C33_crop_violated; a single valid point raises ValueError: C33_single_violated.  
Theorems: `C33_fill_partial`, `C33_fill_inplace_partial`, `C33_value_violated`, `C33_crop_violated`, `C33_single_violated`, `C33_no_value`.

### C34 — Interpolated profile values lie on the polyline

*proved.* `lean/Verif/Profile/Interp.lean`  
Modelled: Profile as three parallel lists with the sort as a parameter (core/profile.py). Proof: permutations, sortedness, induction. C330, C331: the padded profile read through an infinite signal. DensityModel.lean/Density.lean: kernel densities at the reals with Mathlib's gaussian; the mass is compared with the integral over the whole line (C337, C338). SpectrumModel.lean/Spectrum.lean: discrete Fourier transform at the reals, least squares, Parseval's identity and folding of the one-sided spectrum (C343, C344). InterpolModel.lean/Interpol.lean: interpolators and values at indices (C364). FitModel.lean/Fit.lean: fitting of a function (C380); specification `Best`.  
Theorems: `C34_node`, `C34_between`, `C34_no_overshoot`, `C34_outside`, `C34_array`.

### C35 — Profile point insertion and removal keep order and content

*proved.* `lean/Verif/Profile/History.lean`, `lean/Verif/Profile/Props.lean`  
Modelled: Profile as three parallel lists with the sort as a parameter (core/profile.py). Proof: permutations, sortedness, induction. C330, C331: the padded profile read through an infinite signal. DensityModel.lean/Density.lean: kernel densities at the reals with Mathlib's gaussian; the mass is compared with the integral over the whole line (C337, C338). SpectrumModel.lean/Spectrum.lean: discrete Fourier transform at the reals, least squares, Parseval's identity and folding of the one-sided spectrum (C343, C344). InterpolModel.lean/Interpol.lean: interpolators and values at indices (C364). FitModel.lean/Fit.lean: fitting of a function (C380); specification `Best`.  
Theorems: `C35_history`, `C35_add_point`, `C35_add_points`, `C35_remove_point`, `C35_insertions`.

### C36 — Profile arithmetic respects units and leaves operands unchanged

*partial.* `lean/Verif/Profile/Arith.lean`  
Modelled: Profile as three parallel lists with the sort as a parameter (core/profile.py). Proof: permutations, sortedness, induction. C330, C331: the padded profile read through an infinite signal. DensityModel.lean/Density.lean: kernel densities at the reals with Mathlib's gaussian; the mass is compared with the integral over the whole line (C337, C338). SpectrumModel.lean/Spectrum.lean: discrete Fourier transform at the reals, least squares, Parseval's identity and folding of the one-sided spectrum (C343, C344). InterpolModel.lean/Interpol.lean: interpolators and values at indices (C364). FitModel.lean/Fit.lean: fitting of a function (C380); specification `Best`.  
Sums proved for equal units; with units of different size the conversion factor is inverted (core/profile.py:118): C36_add_units_violated. Quotients proved; the zeros of the divisor are overwritten by 1 (core/profile.py:205): C36_div_operand_violated.  
Theorems: `C36_add_partial`, `C36_add_units_violated`, `C36_add_refused`, `C36_div`, `C36_div_operand_violated`, `C36_div_operand_partial`.

### C37 — Profile.crop_masked_border removes exactly the masked ends

*proved.* `lean/Verif/Profile/Props.lean`  
Modelled: Profile as three parallel lists with the sort as a parameter (core/profile.py). Proof: permutations, sortedness, induction. C330, C331: the padded profile read through an infinite signal. DensityModel.lean/Density.lean: kernel densities at the reals with Mathlib's gaussian; the mass is compared with the integral over the whole line (C337, C338). SpectrumModel.lean/Spectrum.lean: discrete Fourier transform at the reals, least squares, Parseval's identity and folding of the one-sided spectrum (C343, C344). InterpolModel.lean/Interpol.lean: interpolators and values at indices (C364). FitModel.lean/Fit.lean: fitting of a function (C380); specification `Best`.  
Theorems: `C37_border`, `C37_all_masked`.

### C38 — Temporal fields keep times and fields paired and sorted

*partial.* `lean/Verif/Temporal/History.lean`  
Modelled: TemporalFields as times and fields (core/temporalfields.py). Specification: the list of (time, field) entries and the reading of a frame. Proof: invariants by induction on histories, refinement. ModesModel.lean/Modes.lean: modes of a base as a series (C378). ShareModel.lean/Share.lean: rotation in place of collections that share fields (C385); specifications `OnGrid` and `Turned`. UnitShareModel.lean/UnitShare.lean: changes of unit of records that share fields, with the state after an exception (C387); specifications `Shows`, `SameThings`, `unitOf` and `Sized`. CropShareModel.lean/CropShare.lean: crops in place of records that share fields (C388); specifications `Windowed` and `Hit`.  
Proved for every history of additions, removals and temporal crops in which no removal of several fields raises. remove_fields([0, n-1]) raises IndexError and leaves more fields than times on every container, and a negative time scale leaves the times unsorted.  
Theorems: `C38_add`, `C38_remove_one`, `C38_history_partial`, `C38_removal_violated`, `C38_scale_violated`.

### C39 — remove_fields removes exactly the requested fields

*partial.* `lean/Verif/Temporal/History.lean`  
Modelled: TemporalFields as times and fields (core/temporalfields.py). Specification: the list of (time, field) entries and the reading of a frame. Proof: invariants by induction on histories, refinement. ModesModel.lean/Modes.lean: modes of a base as a series (C378). ShareModel.lean/Share.lean: rotation in place of collections that share fields (C385); specifications `OnGrid` and `Turned`. UnitShareModel.lean/UnitShare.lean: changes of unit of records that share fields, with the state after an exception (C387); specifications `Shows`, `SameThings`, `unitOf` and `Sized`. CropShareModel.lean/CropShare.lean: crops in place of records that share fields (C388); specifications `Windowed` and `Hit`.  
Proved for one index and for strictly decreasing lists of indices. For increasing indices i < j the code removes i and j+1, or raises (temporalfields.py:1155-1156): C39_two_violated.  
Theorems: `C39_remove_partial`, `C39_negative`, `C39_two_violated`.

### C40 — Temporal crop keeps exactly the fields in the closed time interval

*proved.* `lean/Verif/Temporal/Crop.lean`  
Modelled: TemporalFields as times and fields (core/temporalfields.py). Specification: the list of (time, field) entries and the reading of a frame. Proof: invariants by induction on histories, refinement. ModesModel.lean/Modes.lean: modes of a base as a series (C378). ShareModel.lean/Share.lean: rotation in place of collections that share fields (C385); specifications `OnGrid` and `Turned`. UnitShareModel.lean/UnitShare.lean: changes of unit of records that share fields, with the state after an exception (C387); specifications `Shows`, `SameThings`, `unitOf` and `Sized`. CropShareModel.lean/CropShare.lean: crops in place of records that share fields (C388); specifications `Windowed` and `Hit`.  
Theorems: `C40_crop`, `C40_refused`, `C40_accepted`.

### C41 — get_mean_field is the mean over the unmasked fields

*partial.* `lean/Verif/Temporal/Mean.lean`  
Modelled: TemporalFields as times and fields (core/temporalfields.py). Specification: the list of (time, field) entries and the reading of a frame. Proof: invariants by induction on histories, refinement. ModesModel.lean/Modes.lean: modes of a base as a series (C378). ShareModel.lean/Share.lean: rotation in place of collections that share fields (C385); specifications `OnGrid` and `Turned`. UnitShareModel.lean/UnitShare.lean: changes of unit of records that share fields, with the state after an exception (C387); specifications `Shows`, `SameThings`, `unitOf` and `Sized`. CropShareModel.lean/CropShare.lean: crops in place of records that share fields (C388); specifications `Windowed` and `Hit`.  
Mean over the valid fields proved for every mask pattern, with cells of exactly nmb_min valid fields masked although documented as sufficient (<= instead of <, temporalfields.py:316): C41_limit_violated.  
Theorems: `C41_mean_partial`, `C41_limit_violated`.

### C42 — get_min_field / get_max_field are bounds reached by some field

*partial.* `lean/Verif/Temporal/Mean.lean`  
Modelled: TemporalFields as times and fields (core/temporalfields.py). Specification: the list of (time, field) entries and the reading of a frame. Proof: invariants by induction on histories, refinement. ModesModel.lean/Modes.lean: modes of a base as a series (C378). ShareModel.lean/Share.lean: rotation in place of collections that share fields (C385); specifications `OnGrid` and `Turned`. UnitShareModel.lean/UnitShare.lean: changes of unit of records that share fields, with the state after an exception (C387); specifications `Shows`, `SameThings`, `unitOf` and `Sized`. CropShareModel.lean/CropShare.lean: crops in place of records that share fields (C388); specifications `Windowed` and `Hit`.  
Proved for cells where the first field is valid, values in one unit. Where the first field is masked the result shows an unmasked NaN; units are ignored.  
Theorems: `C42_min_partial`, `C42_max_partial`, `C42_first_violated`, `C42_units_violated`.

### C43 — get_interpolated_field is exact at stored times and a convex combination between them

*proved.* `lean/Verif/Temporal/Interp.lean`  
Modelled: TemporalFields as times and fields (core/temporalfields.py). Specification: the list of (time, field) entries and the reading of a frame. Proof: invariants by induction on histories, refinement. ModesModel.lean/Modes.lean: modes of a base as a series (C378). ShareModel.lean/Share.lean: rotation in place of collections that share fields (C385); specifications `OnGrid` and `Turned`. UnitShareModel.lean/UnitShare.lean: changes of unit of records that share fields, with the state after an exception (C387); specifications `Shows`, `SameThings`, `unitOf` and `Sized`. CropShareModel.lean/CropShare.lean: crops in place of records that share fields (C388); specifications `Windowed` and `Hit`.  
Theorems: `C43_stored`, `C43_stored_unique`, `C43_between`, `C43_convex`, `C43_out`.

### C44 — reduce_temporal_resolution averages consecutive fields without losing any

*partial.* `lean/Verif/Temporal/Reduce.lean`  
Modelled: TemporalFields as times and fields (core/temporalfields.py). Specification: the list of (time, field) entries and the reading of a frame. Proof: invariants by induction on histories, refinement. ModesModel.lean/Modes.lean: modes of a base as a series (C378). ShareModel.lean/Share.lean: rotation in place of collections that share fields (C385); specifications `OnGrid` and `Turned`. UnitShareModel.lean/UnitShare.lean: changes of unit of records that share fields, with the state after an exception (C387); specifications `Shows`, `SameThings`, `unitOf` and `Sized`. CropShareModel.lean/CropShare.lean: crops in place of records that share fields (C388); specifications `Windowed` and `Hit`.  
The runs used are proved to be averaged exactly; they are all the complete runs unless the number of fields is a multiple of n, when the last run is dropped (or the call refused).  
Theorems: `C44_mean_partial`, `C44_first_partial`, `C44_all_runs`, `C44_last_run_violated`.

### C45 — augment_temporal_resolution keeps the original times

*partial.* `lean/Verif/Temporal/Interp.lean`  
Modelled: TemporalFields as times and fields (core/temporalfields.py). Specification: the list of (time, field) entries and the reading of a frame. Proof: invariants by induction on histories, refinement. ModesModel.lean/Modes.lean: modes of a base as a series (C378). ShareModel.lean/Share.lean: rotation in place of collections that share fields (C385); specifications `OnGrid` and `Turned`. UnitShareModel.lean/UnitShare.lean: changes of unit of records that share fields, with the state after an exception (C387); specifications `Shows`, `SameThings`, `unitOf` and `Sized`. CropShareModel.lean/CropShare.lean: crops in place of records that share fields (C388); specifications `Windowed` and `Hit`.  
Proved for containers whose fields are a numpy array; the result holds a python list and cannot be augmented again (TypeError): C45_again_violated.  
Theorems: `C45_augment_partial`, `C45_again_violated`.

### C46 — add_field only accepts fields on the same grid and converts the time unit

*partial.* `lean/Verif/Temporal/History.lean`  
Modelled: TemporalFields as times and fields (core/temporalfields.py). Specification: the list of (time, field) entries and the reading of a frame. Proof: invariants by induction on histories, refinement. ModesModel.lean/Modes.lean: modes of a base as a series (C378). ShareModel.lean/Share.lean: rotation in place of collections that share fields (C385); specifications `OnGrid` and `Turned`. UnitShareModel.lean/UnitShare.lean: changes of unit of records that share fields, with the state after an exception (C387); specifications `Shows`, `SameThings`, `unitOf` and `Sized`. CropShareModel.lean/CropShare.lean: crops in place of records that share fields (C388); specifications `Windowed` and `Hit`.  
A different x axis with the same y axis is refused; a different y axis is always accepted (operator precedence, temporalfields.py:1131-1134). The time factor is inverted unless both units have the same size, and a unit of another dimension is accepted.  
Theorems: `C46_refused_partial`, `C46_accepted`, `C46_grid_violated`, `C46_time_partial`, `C46_time_violated`, `C46_dimension_violated`.

### C47 — Arithmetic on temporal fields keeps the times

*partial.* `lean/Verif/Temporal/Arith.lean`, `lean/Verif/Temporal/Power.lean`  
Modelled: TemporalFields as times and fields (core/temporalfields.py). Specification: the list of (time, field) entries and the reading of a frame. Proof: invariants by induction on histories, refinement. ModesModel.lean/Modes.lean: modes of a base as a series (C378). ShareModel.lean/Share.lean: rotation in place of collections that share fields (C385); specifications `OnGrid` and `Turned`. UnitShareModel.lean/UnitShare.lean: changes of unit of records that share fields, with the state after an exception (C387); specifications `Shows`, `SameThings`, `unitOf` and `Sized`. CropShareModel.lean/CropShare.lean: crops in place of records that share fields (C388); specifications `Windowed` and `Hit`.  
Sums with the same times, with a field, with a number and opposites keep the times. Products and quotients put every field at time 0, division by a number raises TypeError, sums with other times insert fields at time 0, time units are ignored.  
Theorems: `C47_add_partial`, `C47_add_field`, `C47_add_number`, `C47_neg`, `C47_mul_number_violated`, `C47_product_violated`, `C47_div_number_violated`, `C47_add_times_violated`, `C47_add_units_violated`, `C47_pow_violated`, `C47_div_field_violated`.

### C48 — TemporalPoints.crop is independent of its source

*partial.* `lean/Verif/TPoints/Crop.lean`  
Modelled: TemporalPoints over an explicit heap of point sets (core/temporalpoints.py). Proof: invariants over heap histories. SmoothModel.lean/Smooth.lean: smoothing of sets of points and of collections of them, on the heap of sets (C358, C359).  
Consistency and exactness of the crop for point sets over a common time axis are proved; see the suffix of each theorem for what is left out.  
Theorems: `C48_in_place`, `C48_time_partial`, `C48_source_violated`, `C48_refused`.

### C49 — Adding a field to a spatial collection does not modify the caller's field

*partial.* `lean/Verif/Spatial/Props.lean`  
Modelled: SpatialFields (core/spatialfields.py). Proof: refinement to physical readings (`Phys`). C277: lists of fields related one by one (`Forall₂`), invariant `Good` of the collections made of add_field. C328, C329: the loops that fill the grid, cell by cell; the errors of get_profile for all arguments. PowerModel.lean/Power.lean: powers (C376). ShareModel.lean/Share.lean: changes in place of collections that share fields (C386), by counting how often an object is held; specifications `MovedBy` and `ScaledBy`. BoundModel.lean/Bound.lean: extent, iteration and mask of collections (C389).  
Proved for the first field of a collection, without masked point: the caller's field is untouched. Fails: other units (C49_units_violated), fully masked borders (C49_border_violated).  
Theorems: `C49_first_partial`, `C49_units_violated`, `C49_border_violated`.

### C50 — Trajectories partition the critical points

*proved.* `lean/Verif/Traj/Props.lean`  
Modelled: greedy linking of critical points into trajectories (vortex_detection.py). Proof: invariant of the linking loop, induction on time steps.  
Theorems: `C50_partition`.

### C51 — A trajectory never skips or repeats a time step

*proved.* `lean/Verif/Traj/Props.lean`  
Modelled: greedy linking of critical points into trajectories (vortex_detection.py). Proof: invariant of the linking loop, induction on time steps.  
Theorems: `C51_consecutive`.

### C52 — Trajectory links are no longer than epsilon

*partial.* `lean/Verif/Traj/Props.lean`  
Modelled: greedy linking of critical points into trajectories (vortex_detection.py). Proof: invariant of the linking loop, induction on time steps.  
compute_traj compares the squared distance with epsilon (vortex_detection.py:1680-1760): links are shorter than epsilon when epsilon >= 1 (C52_links_partial); for epsilon < 1 a link longer than epsilon exists (C52_small_epsilon_violated).  
Theorems: `C52_links_partial`, `C52_small_epsilon_violated`.

### C53 — Linking is one-to-one, greedy and maximal

*partial.* `lean/Verif/Traj/Props.lean`  
Modelled: greedy linking of critical points into trajectories (vortex_detection.py). Proof: invariant of the linking loop, induction on time steps.  
One-to-one, greedy and maximal with respect to the threshold the code really uses, distance squared <= epsilon (C53_step_greedy_partial); points closer than epsilon can stay unlinked when epsilon > 1 (C53_reach_violated).  
Theorems: `C53_step_greedy_partial`, `C53_step_terminates`, `C53_reach_violated`.

### C54 — Topological simplification conserves the Poincare index

*partial.* `lean/Verif/Topo/Props.lean`  
Modelled: the topological simplification loop with its distance matrix (vortex_detection.py). Proof: loop invariant with ghost clusters, explicit bound on the rounds.  
'only_delete' conserves the index always; 'replacement' conserves it when no returned point has type 0. A group whose index is neither -1 nor 1 gets type 0, whose index is 0, so its index is lost (vortex_detection.py:2305-2320): C54_replacement_violated.  
Theorems: `C54_replacement_partial`, `C54_only_delete`, `C54_replacement_violated`.

### C55 — Topological simplification terminates with well separated points

*proved.* `lean/Verif/Topo/Props.lean`  
Modelled: the topological simplification loop with its distance matrix (vortex_detection.py). Proof: loop invariant with ghost clusters, explicit bound on the rounds.  
Termination with an explicit bound on the number of rounds; separation for every finite radius. An empty collection is refused and an infinite radius, outside the property, diverges.  
Theorems: `C55_terminates_separated`, `C55_empty_refused`, `C55_infinite_radius_diverges`.

### C56 — Merged points sit at the centre of mass of what they replace

*proved.* `lean/Verif/Topo/Props.lean`  
Modelled: the topological simplification loop with its distance matrix (vortex_detection.py). Proof: loop invariant with ghost clusters, explicit bound on the rounds.  
Theorems: `C56_barycentre`, `C56_mass_conserved`.

### C57 — The Poincare-Bendixson index of a loop is an integer and adds up

*proved.* `lean/Verif/Pbi/Border.lean`, `lean/Verif/Pbi/Props.lean`  
Modelled: wrapped angle differences, Poincare-Bendixson index of a cell, border walk, in-cell position (vortex_detection.py, core/vectorfield.py theta). Proof: telescoping path sums, real angles. StructModel.lean/Struct.lean: number of structures (C381).  
Theorems: `C57_velocity_cell`, `C57_integer`, `C57_additive_x`, `C57_additive_y`, `C57_cell_range`.

### C58 — The fast sign test never discards a critical point

*partial.* `lean/Verif/Pbi/Theta.lean`  
Modelled: wrapped angle differences, Poincare-Bendixson index of a cell, border walk, in-cell position (vortex_detection.py, core/vectorfield.py theta). Proof: telescoping path sums, real angles. StructModel.lean/Struct.lean: number of structures (C381).  
Proved over the real angles of VectorField.theta for cells without a null corner and without corners pointing exactly left and right at once; both exclusions are necessary (two witnesses, vd.py:107-108 counts strictly positive components).  
Theorems: `C58_sign_test_partial`, `C58_horizontal_violated`, `C58_null_corner_violated`.

### C59 — A refined critical point stays in its cell and is a zero of the interpolated field

*partial.* `lean/Verif/Pbi/Border.lean`, `lean/Verif/Pbi/Cell.lean`, `lean/Verif/Pbi/Detect.lean`  
Modelled: wrapped angle differences, Poincare-Bendixson index of a cell, border walk, in-cell position (vortex_detection.py, core/vectorfield.py theta). Proof: telescoping path sums, real angles. StructModel.lean/Struct.lean: number of structures (C381).  
For a non-degenerate cell of non-zero index the interpolated velocity has exactly one zero in the cell and it is the returned position (C59_detected_partial, degree argument over the reals); every returned position lies in its cell (C59_in_cell); the cell is found back on evenly spaced axes. Witnesses: affine cells, null components and NaN are dropped, a corner with vx+vy=0 is returned instead of the zero (with row and column exchanged), irregular axes designate another cell.  
Theorems: `C59_lookup_partial`, `C59_lookup_violated`, `C59_affine_dropped_violated`, `C59_corner_violated`, `C59_corner_swapped_violated`, `C59_null_component_violated`, `C59_unique_zero_partial`, `C59_in_cell`, `C59_affine_violated`, `C59_detected_has_zero`, `C59_detected_partial`.

### C60 — Merging critical points does not depend on the processing order

*proved.* `lean/Verif/Cp/Props.lean`  
Modelled: the CritPoints collection, merge and mean trajectories (vortex_detection.py). Proof: relation `At` between collections and points, invariants over histories. C279: averaging of a group (rounded times with exact decimal rounding, tolerance compared by squares) and the MeanTrajectory object (crop, scale with a store for the base trajectories, inherited sort and remove): rows of points with their associated values. C281: extrema by index along trajectories (TurnModel.lean), from the model of get_extrema_position (Tidy), interpolation at fractional indices; affine map from indices to times.  
Collections of equal units with at least one time each, as get_critical_points produces them; the sum is compared as a whole, trajectories and linking distance included.  
Theorems: `C60_sum`, `C60_refused`, `C60_order`.

### C61 — Critical point collections keep times and point sets paired, sorted and distinct

*proved.* `lean/Verif/Cp/Props.lean`  
Modelled: the CritPoints collection, merge and mean trajectories (vortex_detection.py). Proof: relation `At` between collections and points, invariants over histories. C279: averaging of a group (rounded times with exact decimal rounding, tolerance compared by squares) and the MeanTrajectory object (crop, scale with a store for the base trajectories, inherited sort and remove): rows of points with their associated values. C281: extrema by index along trajectories (TurnModel.lean), from the model of get_extrema_position (Tidy), interpolation at fractional indices; affine map from indices to times.  
Histories of add_point, remove_point (by time or index) and in-place spatial crops, refused calls included. Time crop and changes of units are not in the history.  
Theorems: `C61_add`, `C61_add_refused`, `C61_remove_index`, `C61_remove_index_refused`, `C61_remove_time`, `C61_remove_time_refused`, `C61_crop`, `C61_history`.

### C62 — Changing the points invalidates the trajectories

*partial.* `lean/Verif/Cp/Props.lean`  
Modelled: the CritPoints collection, merge and mean trajectories (vortex_detection.py). Proof: relation `At` between collections and points, invariants over histories. C279: averaging of a group (rounded times with exact decimal rounding, tolerance compared by squares) and the MeanTrajectory object (crop, scale with a store for the base trajectories, inherited sort and remove): rows of points with their associated values. C281: extrema by index along trajectories (TurnModel.lean), from the model of get_extrema_position (Tidy), interpolation at fractional indices; affine map from indices to times.  
_remove_trajectories assigns local variables only: for every collection and every operation the old trajectories stay (C62_trajectories_violated). What holds is that the stored linking distance is erased (C62_epsilon_partial).  
Theorems: `C62_trajectories_violated`, `C62_epsilon_partial`.

### C63 — Mean trajectories use each trajectory at most once

*proved.* `lean/Verif/Cp/Mean.lean`  
Modelled: the CritPoints collection, merge and mean trajectories (vortex_detection.py). Proof: relation `At` between collections and points, invariants over histories. C279: averaging of a group (rounded times with exact decimal rounding, tolerance compared by squares) and the MeanTrajectory object (crop, scale with a store for the base trajectories, inherited sort and remove): rows of points with their associated values. C281: extrema by index along trajectories (TurnModel.lean), from the model of get_extrema_position (Tidy), interpolation at fractional indices; affine map from indices to times.  
The resemblance and averaging tests are arbitrary functions of the group and the candidate; exceptions inside them are not modelled.  
Theorems: `C63_terminates`, `C63_partition`, `C63_saturated`.

### C64 — ASCII export/import round trip of a scalar field

*proved.* `lean/Verif/Ascii/Props.lean`  
Modelled: text tables (file_operation.py). Proof: round trips over tables by columns, by rows and in any order. SeriesModel.lean/Series.lean: import_vfs_from_ascii, that never returns (C365).  
The round trip is proved for every consistent field with at least two points per axis (text formatting of numbers is taken to be exact).  
Theorems: `C64_roundtrip`.

### C65 — ASCII export/import round trip of a vector field

*partial.* `lean/Verif/Ascii/Props.lean`  
Modelled: text tables (file_operation.py). Proof: round trips over tables by columns, by rows and in any order. SeriesModel.lean/Series.lean: import_vfs_from_ascii, that never returns (C365).  
Import shows each row's vector at its coordinates for rows in any order; the round trip is proved for every row order when masked points hold a NaN component, and fails exactly by un-masking points whose stored components are numbers (C65_masked_violated).  
Theorems: `C65_import_rows`, `C65_roundtrip_partial`, `C65_masked_violated`.

### C66 — Picture export/import round trip

*partial.* `lean/Verif/File/Props.lean`  
Modelled: names and contents of saved files, search of files, pictures, DaVis buffers, videos (file_operation.py). Proof: round trips, orientation lemmas, loop invariants.  
Geometry of the pixels only: codes of pixels are not modelled. New files cannot be created (C66_new_file_violated) and lists of fields are written unturned (C66_list_violated).  
Theorems: `C66_roundtrip_partial`, `C66_orientation`, `C66_default_axes`, `C66_bad_axes`, `C66_new_file_violated`, `C66_list_violated`.

### C67 — export_to_file and import_from_file agree on the file name

*partial.* `lean/Verif/File/Props.lean`  
Modelled: names and contents of saved files, search of files, pictures, DaVis buffers, videos (file_operation.py). Proof: round trips, orientation lemmas, loop invariants.  
Proved for every store and every name whose basename is not made of dots only; for those the written file can never be read (C67_dots_violated).  
Theorems: `C67_roundtrip_partial`, `C67_second_export_partial`, `C67_two_formats`, `C67_dots_violated`, `C67_other_names`.

### C68 — Importing with reversed scales puts each value at its physical coordinate

*proved.* `lean/Verif/File/Davis.lean`  
Modelled: names and contents of saved files, search of files, pictures, DaVis buffers, videos (file_operation.py). Proof: round trips, orientation lemmas, loop invariants.  
Proved for every size, scale, origin and non-zero steps of any sign; decoding of the buffers is not modelled.  
Theorems: `C68_im7`.

### C69 — Video import picks the requested frames at their physical time

*partial.* `lean/Verif/File/Davis.lean`  
Modelled: names and contents of saved files, search of files, pictures, DaVis buffers, videos (file_operation.py). Proof: round trips, orientation lemmas, loop invariants.  
Frame selection, times and geometry are proved; the unit of the values is dropped (C69_unit_violated).  
Theorems: `C69_frames`, `C69_undecodable`, `C69_frame_field`, `C69_unit_violated`.

### C70 — Recursive file search returns exactly the matching folders

*partial.* `lean/Verif/File/Props.lean`  
Modelled: names and contents of saved files, search of files, pictures, DaVis buffers, videos (file_operation.py). Proof: round trips, orientation lemmas, loop invariants.  
Proved for trees in which every folder holds a file; folders without file raise NameError or are reported by mistake (C70_empty_*_violated).  
Theorems: `C70_search_partial`, `C70_member_partial`, `C70_empty_first_violated`, `C70_empty_after_violated`.

### C71 — A memoised function returns what the function returns

*partial.* `lean/Verif/Utils/Memo.lean`  
Modelled: memoization, file lists, progress counter, decorators, descriptor table, unit setters, make_unit (executing an expression is a parameter) (utils/, setters of core/). Proof: invariants over histories, arithmetic. CountModel.lean/Count.lean: histories of calls of a counter without maximum (C346).  
Over all histories of calls, restarts and kills without in-place changes, results are those of the wrapped function and each key is run once. Violated for unpicklable values, and for callers changing a returned object in place (the change is returned later, and persisted). Two functions of the same name share a file.  
Theorems: `C71_history_partial`, `C71_restart_partial`, `C71_unpicklable_violated`, `C71_mutation_violated`, `C71_mutation_persists_violated`, `C71_shared_violated`.

### C72 — A crash while the cache is written does not make the function unusable

*partial.* `lean/Verif/Utils/Memo.lean`  
Modelled: memoization, file lists, progress counter, decorators, descriptor table, unit setters, make_unit (executing an expression is a parameter) (utils/, setters of core/). Proof: invariants over histories, arithmetic. CountModel.lean/Count.lean: histories of calls of a counter without maximum (C346).  
A death outside the write keeps the cache; a death during the write leaves a truncated file and the next start raises EOFError.  
Theorems: `C72_kill_partial`, `C72_crash_violated`.

### C73 — Files collections keep their three lists parallel

*partial.* `lean/Verif/Utils/FilesProps.lean`  
Modelled: memoization, file lists, progress counter, decorators, descriptor table, unit setters, make_unit (executing an expression is a parameter) (utils/, setters of core/). Proof: invariants over histories, arithmetic. CountModel.lean/Count.lean: histories of calls of a counter without maximum (C346).  
Adding, merging and removing one index keep the three lists parallel. Removing an array of indices removes shifted ones, removing by expression drops the wrong rows.  
Theorems: `C73_parallel`, `C73_add`, `C73_remove_index`, `C73_remove_negative`, `C73_remove_array_partial`, `C73_remove_array_violated`, `C73_remove_regex_violated`.

### C74 — The progress counter reports and finishes

*partial.* `lean/Verif/Utils/Progress.lean`  
Modelled: memoization, file lists, progress counter, decorators, descriptor table, unit setters, make_unit (executing an expression is a parameter) (utils/, setters of core/). Proof: invariants over histories, arithmetic. CountModel.lean/Count.lean: histories of calls of a counter without maximum (C346).  
Lines, their number and the last line are proved for every number of things but 0, for which finish() raises ZeroDivisionError.  
Theorems: `C74_last`, `C74_lines`, `C74_count`, `C74_finish`, `C74_zero_violated`.

### C75 — Durations are displayed without loss

*partial.* `lean/Verif/Utils/Progress.lean`  
Modelled: memoization, file lists, progress counter, decorators, descriptor table, unit setters, make_unit (executing an expression is a parameter) (utils/, setters of core/). Proof: invariants over histories, arithmetic. CountModel.lean/Count.lean: histories of calls of a counter without maximum (C346).  
Proved below one day; from one day on, the number of minutes is shown instead of the days.  
Theorems: `C75_display_partial`, `C75_canonical`, `C75_days_violated`.

### C76 — Type-checking decorators reject exactly ill-typed calls

*partial.* `lean/Verif/Utils/TypeTest.lean`  
Modelled: memoization, file lists, progress counter, decorators, descriptor table, unit setters, make_unit (executing an expression is a parameter) (utils/, setters of core/). Proof: invariants over histories, arithmetic. CountModel.lean/Count.lean: histories of calls of a counter without maximum (C346).  
Proved for calls Python would accept without *args, for functions with at least one argument; functions with *args and functions without variables raise IndexError.  
Theorems: `C76_checks_partial`, `C76_variadic_violated`, `C76_no_argument_violated`, `C76_return`.

### C77 — Output silencing restores the descriptors and leaks none

*partial.* `lean/Verif/Utils/Fds.lean`  
Modelled: memoization, file lists, progress counter, decorators, descriptor table, unit setters, make_unit (executing an expression is a parameter) (utils/, setters of core/). Proof: invariants over histories, arithmetic. CountModel.lean/Count.lean: histories of calls of a counter without maximum (C346).  
Restoration proved for all nestings; two descriptors leak at every use.  
Theorems: `C77_restore_partial`, `C77_leak_violated`.

### C78 — The processing protocol resumes after a crash and ends with all products up to date

*partial.* `lean/Verif/Protocol/Props.lean`  
Modelled: products on the disk, stages, every crash point (protocols.py). Proof: states of the trace, idempotence.  
Proved for crashes outside the writing of a file and not between the cleaned fields and their mean; the other crash points and the detailed products are shown to violate it. Stages are abstract functions.  
Theorems: `C78_run_partial`, `C78_crash_partial`, `C78_rebuild`, `C78_mean_violated`, `C78_broken_violated`, `C78_silent_violated`, `C78_stale_violated`, `C78_default_violated`.

### C79 — Unit objects assigned to an axis are pure units

*partial.* `lean/Verif/Utils/UnitSetters.lean`  
Modelled: memoization, file lists, progress counter, decorators, descriptor table, unit setters, make_unit (executing an expression is a parameter) (utils/, setters of core/). Proof: invariants over histories, arithmetic. CountModel.lean/Count.lean: histories of calls of a counter without maximum (C346).  
Vector values and times accept exactly factor 1, axes a tolerance around 1; scalar values accept every factor up to 1, point sets and profiles everything, strings are not tested, a string given as unit of times is ignored.  
Theorems: `C79_history_partial`, `C79_exact`, `C79_axis_partial`, `C79_other`, `C79_scalar_violated`, `C79_points_violated`, `C79_string_violated`, `C79_time_string_violated`.

### C80 — get_points_around returns the grid points of the disc

*partial.* `lean/Verif/Field/Disc.lean`  
Modelled: index sets and an explicit memory of shared buffers (core/field.py). Proof: non-interference invariant over histories, witnesses of interference.  
The returned indices are exactly the lattice points of the disc; nothing clips them to the field, so near a border indices that designate no point are returned: C80_disc_outside_violated.  
Theorems: `C80_disc_exact_partial`, `C80_disc_refused`, `C80_disc_outside_violated`.

### C81 — Products of scalar fields are pointwise with mask union

*proved.* `lean/Verif/Scalar/Arith.lean`  
Modelled: ScalarField as two axes, a value grid and a mask (core/field.py, core/scalarfield.py). Specification: the reading of the field at a coordinate (`SF.Reads`). Proof: refinement, each operation commutes with the reading.  
Theorems: `C81_mul_pointwise`, `C81_mul_refused`, `C81_mul_div`.

### C82 — fill(kind='value') touches the masked points only

*partial.* `lean/Verif/Scalar/Border.lean`  
Modelled: ScalarField as two axes, a value grid and a mask (core/field.py, core/scalarfield.py). Specification: the reading of the field at a coordinate (`SF.Reads`). Proof: refinement, each operation commutes with the reading.  
Proved without crop; crop=True crops the source of a non-inplace call: C82_fill_crop_violated.  
Theorems: `C82_fill_value`, `C82_fill_copy_partial`, `C82_fill_crop_violated`.

### C83 — Trajectories are returned longest first

*proved.* `lean/Verif/Traj/Props.lean`  
Modelled: greedy linking of critical points into trajectories (vortex_detection.py). Proof: invariant of the linking loop, induction on time steps.  
Theorems: `C83_longest_first`.

### C84 — 'only_delete' simplification removes only close opposite pairs

*proved.* `lean/Verif/Topo/Props.lean`  
Modelled: the topological simplification loop with its distance matrix (vortex_detection.py). Proof: loop invariant with ghost clusters, explicit bound on the rounds.  
Theorems: `C84_only_delete`.

### C85 — The indices of the detected critical points add up to the index of the border

*partial.* `lean/Verif/Pbi/Border.lean`  
Modelled: wrapped angle differences, Poincare-Bendixson index of a cell, border walk, in-cell position (vortex_detection.py, core/vectorfield.py theta). Proof: telescoping path sums, real angles. StructModel.lean/Struct.lean: number of structures (C381).  
Proved for unmasked fields without null vectors and without a cell having corners pointing exactly right and exactly left; fails without the last hypothesis (C85_horizontal_violated, from C58).  
Theorems: `C85_total_index_partial`, `C85_horizontal_violated`.

### C86 — Points.sort rearranges points and values together

*proved.* `lean/Verif/Points/Props.lean`  
Modelled: Points and OrientedPoints as position and value lists, operation histories (core/points.py, core/orientedpoints.py). Proof: the list of rows as specification, invariants by induction on histories. GroupModel.lean/Group.lean: clusters for any labelling (C282), change of unit (C283), the array shared with the caller through histories (C284). OrientModel.lean/Orient.lean: sums, decomposition and streamlines of oriented points (C311-C313, C27_place_violated). DensityModel.lean/Density.lean: densities of points and edges of the envelope (C339-C341), trapezium masses, nearest nodes, an invariant on the list of edges. KindsModel.lean/Kinds.lean: densities of the kinds of critical points (C356), on top of C339.  
Theorems: `C86_sort`.

### C87 — Points.remove removes the given points and no other

*partial.* `lean/Verif/Points/Props.lean`  
Modelled: Points and OrientedPoints as position and value lists, operation histories (core/points.py, core/orientedpoints.py). Proof: the list of rows as specification, invariants by induction on histories. GroupModel.lean/Group.lean: clusters for any labelling (C282), change of unit (C283), the array shared with the caller through histories (C284). OrientModel.lean/Orient.lean: sums, decomposition and streamlines of oriented points (C311-C313, C27_place_violated). DensityModel.lean/Density.lean: densities of points and edges of the envelope (C339-C341), trapezium masses, nearest nodes, an invariant on the list of edges. KindsModel.lean/Kinds.lean: densities of the kinds of critical points (C356), on top of C339.  
Positions are right; the values of all points are lost (C87_values_violated).  
Theorems: `C87_remove_partial`, `C87_values_violated`.

### C88 — A boolean mask argument applies to every point

*partial.* `lean/Verif/Profile/Props.lean`  
Modelled: Profile as three parallel lists with the sort as a parameter (core/profile.py). Proof: permutations, sortedness, induction. C330, C331: the padded profile read through an infinite signal. DensityModel.lean/Density.lean: kernel densities at the reals with Mathlib's gaussian; the mass is compared with the integral over the whole line (C337, C338). SpectrumModel.lean/Spectrum.lean: discrete Fourier transform at the reals, least squares, Parseval's identity and folding of the one-sided spectrum (C343, C344). InterpolModel.lean/Interpol.lean: interpolators and values at indices (C364). FitModel.lean/Fit.lean: fitting of a function (C380); specification `Best`.  
mask=True masks nothing (core/profile.py:66-72): C88_mask_flag_violated; mask=False proved.  
Theorems: `C88_mask_flag_violated`, `C88_mask_false_partial`.

### C89 — Points.scale and Points.set_origin act on every point and only on the named quantity

*proved.* `lean/Verif/Points/Props.lean`  
Modelled: Points and OrientedPoints as position and value lists, operation histories (core/points.py, core/orientedpoints.py). Proof: the list of rows as specification, invariants by induction on histories. GroupModel.lean/Group.lean: clusters for any labelling (C282), change of unit (C283), the array shared with the caller through histories (C284). OrientModel.lean/Orient.lean: sums, decomposition and streamlines of oriented points (C311-C313, C27_place_violated). DensityModel.lean/Density.lean: densities of points and edges of the envelope (C339-C341), trapezium masses, nearest nodes, an invariant on the list of edges. KindsModel.lean/Kinds.lean: densities of the kinds of critical points (C356), on top of C339.  
Theorems: `C89_scale`, `C89_set_origin`.

### C90 — Profile.crop by y keeps exactly the points in the open interval

*proved.* `lean/Verif/Profile/Crop.lean`  
Modelled: Profile as three parallel lists with the sort as a parameter (core/profile.py). Proof: permutations, sortedness, induction. C330, C331: the padded profile read through an infinite signal. DensityModel.lean/Density.lean: kernel densities at the reals with Mathlib's gaussian; the mass is compared with the integral over the whole line (C337, C338). SpectrumModel.lean/Spectrum.lean: discrete Fourier transform at the reals, least squares, Parseval's identity and folding of the one-sided spectrum (C343, C344). InterpolModel.lean/Interpol.lean: interpolators and values at indices (C364). FitModel.lean/Fit.lean: fitting of a function (C380); specification `Best`.  
Theorems: `C90_crop_y`, `C90_crop_y_refused`.

### C91 — Profile.scale and Profile.change_unit keep the physical curve

*proved.* `lean/Verif/Profile/History.lean`  
Modelled: Profile as three parallel lists with the sort as a parameter (core/profile.py). Proof: permutations, sortedness, induction. C330, C331: the padded profile read through an infinite signal. DensityModel.lean/Density.lean: kernel densities at the reals with Mathlib's gaussian; the mass is compared with the integral over the whole line (C337, C338). SpectrumModel.lean/Spectrum.lean: discrete Fourier transform at the reals, least squares, Parseval's identity and folding of the one-sided spectrum (C343, C344). InterpolModel.lean/Interpol.lean: interpolators and values at indices (C364). FitModel.lean/Fit.lean: fitting of a function (C380); specification `Best`.  
Theorems: `C91_scale`, `C91_change_unit_x`, `C91_change_unit_y`.

### C92 — Sums with numbers, products with numbers, opposites and powers of profiles act pointwise and keep masks

*partial.* `lean/Verif/Profile/Arith.lean`  
Modelled: Profile as three parallel lists with the sort as a parameter (core/profile.py). Proof: permutations, sortedness, induction. C330, C331: the padded profile read through an infinite signal. DensityModel.lean/Density.lean: kernel densities at the reals with Mathlib's gaussian; the mass is compared with the integral over the whole line (C337, C338). SpectrumModel.lean/Spectrum.lean: discrete Fourier transform at the reals, least squares, Parseval's identity and folding of the one-sided spectrum (C343, C344). InterpolModel.lean/Interpol.lean: interpolators and values at indices (C364). FitModel.lean/Fit.lean: fitting of a function (C380); specification `Best`.  
Proved except for the power 0, where masked points get the value 1: C92_pow_zero_violated.  
Theorems: `C92_mul`, `C92_add_number`, `C92_neg`, `C92_pow_partial`, `C92_pow_zero_violated`.

### C93 — Reverse lookup on a profile returns exactly the positions where the polyline takes the value

*partial.* `lean/Verif/Profile/Interp.lean`  
Modelled: Profile as three parallel lists with the sort as a parameter (core/profile.py). Proof: permutations, sortedness, induction. C330, C331: the padded profile read through an infinite signal. DensityModel.lean/Density.lean: kernel densities at the reals with Mathlib's gaussian; the mass is compared with the integral over the whole line (C337, C338). SpectrumModel.lean/Spectrum.lean: discrete Fourier transform at the reals, least squares, Parseval's identity and folding of the one-sided spectrum (C343, C344). InterpolModel.lean/Interpol.lean: interpolators and values at indices (C364). FitModel.lean/Fit.lean: fitting of a function (C380); specification `Best`.  
Soundness and round trip proved for all values; completeness proved for values that are not stored. When the value is stored, crossings elsewhere, and for get_value_position all but the first stored position, are lost: C93_interpolated_violated, C93_position_violated.  
Theorems: `C93_interpolated_sound`, `C93_round_trip`, `C93_interpolated_complete_partial`, `C93_interpolated_violated`, `C93_position_sound`, `C93_position_complete_partial`, `C93_position_violated`.

### C94 — Profile.remove_nans removes exactly the masked points

*proved.* `lean/Verif/Profile/History.lean`  
Modelled: Profile as three parallel lists with the sort as a parameter (core/profile.py). Proof: permutations, sortedness, induction. C330, C331: the padded profile read through an infinite signal. DensityModel.lean/Density.lean: kernel densities at the reals with Mathlib's gaussian; the mass is compared with the integral over the whole line (C337, C338). SpectrumModel.lean/Spectrum.lean: discrete Fourier transform at the reals, least squares, Parseval's identity and folding of the one-sided spectrum (C343, C344). InterpolModel.lean/Interpol.lean: interpolators and values at indices (C364). FitModel.lean/Fit.lean: fitting of a function (C380); specification `Best`.  
Theorems: `C94_remove_nans`.

### C95 — Profile.max and Profile.min are the extrema of the valid values

*proved.* `lean/Verif/Profile/History.lean`  
Modelled: Profile as three parallel lists with the sort as a parameter (core/profile.py). Proof: permutations, sortedness, induction. C330, C331: the padded profile read through an infinite signal. DensityModel.lean/Density.lean: kernel densities at the reals with Mathlib's gaussian; the mass is compared with the integral over the whole line (C337, C338). SpectrumModel.lean/Spectrum.lean: discrete Fourier transform at the reals, least squares, Parseval's identity and folding of the one-sided spectrum (C343, C344). InterpolModel.lean/Interpol.lean: interpolators and values at indices (C364). FitModel.lean/Fit.lean: fitting of a function (C380); specification `Best`.  
Theorems: `C95_extrema`.

### C96 — Profile.get_integral is the area under the polyline of the valid points

*proved.* `lean/Verif/Profile/Integral.lean`  
Modelled: Profile as three parallel lists with the sort as a parameter (core/profile.py). Proof: permutations, sortedness, induction. C330, C331: the padded profile read through an infinite signal. DensityModel.lean/Density.lean: kernel densities at the reals with Mathlib's gaussian; the mass is compared with the integral over the whole line (C337, C338). SpectrumModel.lean/Spectrum.lean: discrete Fourier transform at the reals, least squares, Parseval's identity and folding of the one-sided spectrum (C343, C344). InterpolModel.lean/Interpol.lean: interpolators and values at indices (C364). FitModel.lean/Fit.lean: fitting of a function (C380); specification `Best`.  
Theorems: `C96_additive`, `C96_segment`, `C96_masked`, `C96_nonneg`, `C96_linear`.

### C97 — Scaling temporal fields scales every field and every time alike

*partial.* `lean/Verif/Temporal/Geom.lean`  
Modelled: TemporalFields as times and fields (core/temporalfields.py). Specification: the list of (time, field) entries and the reading of a frame. Proof: invariants by induction on histories, refinement. ModesModel.lean/Modes.lean: modes of a base as a series (C378). ShareModel.lean/Share.lean: rotation in place of collections that share fields (C385); specifications `OnGrid` and `Turned`. UnitShareModel.lean/UnitShare.lean: changes of unit of records that share fields, with the state after an exception (C387); specifications `Shows`, `SameThings`, `unitOf` and `Sized`. CropShareModel.lean/CropShare.lean: crops in place of records that share fields (C388); specifications `Windowed` and `Hit`.  
Times proved for all factors, fields for positive factors. A negative axis factor reverses the axis of each field but not its values: C97_negative_violated.  
Theorems: `C97_times`, `C97_fields_partial`, `C97_negative_violated`.

### C98 — Changing a unit of temporal fields keeps every physical quantity

*proved.* `lean/Verif/Temporal/Geom.lean`  
Modelled: TemporalFields as times and fields (core/temporalfields.py). Specification: the list of (time, field) entries and the reading of a frame. Proof: invariants by induction on histories, refinement. ModesModel.lean/Modes.lean: modes of a base as a series (C378). ShareModel.lean/Share.lean: rotation in place of collections that share fields (C385); specifications `OnGrid` and `Turned`. UnitShareModel.lean/UnitShare.lean: changes of unit of records that share fields, with the state after an exception (C387); specifications `Shows`, `SameThings`, `unitOf` and `Sized`. CropShareModel.lean/CropShare.lean: crops in place of records that share fields (C388); specifications `Windowed` and `Hit`.  
Theorems: `C98_change_unit`, `C98_change_unit_time`, `C98_refused`, `C98_refused_axes`.

### C99 — Moving the origin and rotating temporal fields acts on every field alike

*proved.* `lean/Verif/Temporal/Geom.lean`  
Modelled: TemporalFields as times and fields (core/temporalfields.py). Specification: the list of (time, field) entries and the reading of a frame. Proof: invariants by induction on histories, refinement. ModesModel.lean/Modes.lean: modes of a base as a series (C378). ShareModel.lean/Share.lean: rotation in place of collections that share fields (C385); specifications `OnGrid` and `Turned`. UnitShareModel.lean/UnitShare.lean: changes of unit of records that share fields, with the state after an exception (C387); specifications `Shows`, `SameThings`, `unitOf` and `Sized`. CropShareModel.lean/CropShare.lean: crops in place of records that share fields (C388); specifications `Windowed` and `Hit`.  
Theorems: `C99_set_origin`, `C99_rotate`, `C99_rotate_refused`.

### C100 — A collection of point sets keeps each set with its instant through any history

*partial.* `lean/Verif/TPoints/History.lean`  
Modelled: TemporalPoints over an explicit heap of point sets (core/temporalpoints.py). Proof: invariants over heap histories. SmoothModel.lean/Smooth.lean: smoothing of sets of points and of collections of them, on the heap of sets (C358, C359).  
History theorem over all additions and crops with times in the unit of the collection; after any removal every addition raises AttributeError, and a time in another unit is converted with the inverse factor.  
Theorems: `C100_add`, `C100_remove_one`, `C100_removed_violated`, `C100_unit_violated`, `C100_history_partial`.

### C101 — Adding a point set to a collection leaves the caller's object independent

*partial.* `lean/Verif/TPoints/Crop.lean`  
Modelled: TemporalPoints over an explicit heap of point sets (core/temporalpoints.py). Proof: invariants over heap histories. SmoothModel.lean/Smooth.lean: smoothing of sets of points and of collections of them, on the heap of sets (C358, C359).  
The collection keeps the caller's object itself; C101_crop_violated shows, for every collection, that an in-place crop reaches it.  
Theorems: `C101_crop_violated`.

### C102 — TemporalPoints.scale scales positions, values and instants and leaves the source unchanged

*partial.* `lean/Verif/TPoints/History.lean`  
Modelled: TemporalPoints over an explicit heap of point sets (core/temporalpoints.py). Proof: invariants over heap histories. SmoothModel.lean/Smooth.lean: smoothing of sets of points and of collections of them, on the heap of sets (C358, C359).  
Proved when the three factors of the points are given; with a default factor TypeError is raised (C102_default_violated).  
Theorems: `C102_scale_partial`, `C102_default_violated`.

### C103 — Changing a unit of a collection of points keeps every physical position and instant

*partial.* `lean/Verif/TPoints/History.lean`  
Modelled: TemporalPoints over an explicit heap of point sets (core/temporalpoints.py). Proof: invariants over heap histories. SmoothModel.lean/Smooth.lean: smoothing of sets of points and of collections of them, on the heap of sets (C358, C359).  
Positions and times proved; changing the unit of the values always raises, and the units the collection displays stay the former ones.  
Theorems: `C103_points`, `C103_time`, `C103_refused`, `C103_values_violated`, `C103_stale_violated`, `C103_sets_partial`.

### C104 — SpatialFields.get_value is the mean of the fields that cover the point

*partial.* `lean/Verif/Spatial/Props.lean`  
Modelled: SpatialFields (core/spatialfields.py). Proof: refinement to physical readings (`Phys`). C277: lists of fields related one by one (`Forall₂`), invariant `Good` of the collections made of add_field. C328, C329: the loops that fill the grid, cell by cell; the errors of get_profile for all arguments. PowerModel.lean/Power.lean: powers (C376). ShareModel.lean/Share.lean: changes in place of collections that share fields (C386), by counting how often an object is held; specifications `MovedBy` and `ScaledBy`. BoundModel.lean/Bound.lean: extent, iteration and mask of collections (C389).  
Proved strictly inside the rectangles of fields that show a value there; on the border of a field the point is refused (C104_border_violated).  
Theorems: `C104_mean_partial`, `C104_outside`, `C104_border_violated`.

### C105 — A collection of spatial fields shows the physical content of each added field

*proved.* `lean/Verif/Spatial/Props.lean`  
Modelled: SpatialFields (core/spatialfields.py). Proof: refinement to physical readings (`Phys`). C277: lists of fields related one by one (`Forall₂`), invariant `Good` of the collections made of add_field. C328, C329: the loops that fill the grid, cell by cell; the errors of get_profile for all arguments. PowerModel.lean/Power.lean: powers (C376). ShareModel.lean/Share.lean: changes in place of collections that share fields (C386), by counting how often an object is held; specifications `MovedBy` and `ScaledBy`. BoundModel.lean/Bound.lean: extent, iteration and mask of collections (C389).  
Theorems: `C105_add`, `C105_refused`.

### C106 — Rotating a vector field by multiples of 90 degrees turns positions and vectors together

*proved.* `lean/Verif/Vector/Geom.lean`  
Modelled: VectorField (core/vectorfield.py). Specification: `VF.Reads`. Proof: refinement. DtypeModel.lean/Dtype.lean: change_dtype of scalar and vector fields (C374).  
Theorems: `C106_rotate`, `C106_refused`.

### C107 — Cropping a vector field keeps exactly the vectors inside the window

*proved.* `lean/Verif/Vector/Crop.lean`  
Modelled: VectorField (core/vectorfield.py). Specification: `VF.Reads`. Proof: refinement. DtypeModel.lean/Dtype.lean: change_dtype of scalar and vector fields (C374).  
Theorems: `C107_crop_keeps_readings`, `C107_crop_consistent`, `C107_crop_missing_interval`, `C107_cropInd_keeps_readings`.

### C108 — Moving the origin and changing a unit of a vector field keep its physical content

*proved.* `lean/Verif/Vector/Crop.lean`  
Modelled: VectorField (core/vectorfield.py). Specification: `VF.Reads`. Proof: refinement. DtypeModel.lean/Dtype.lean: change_dtype of scalar and vector fields (C374).  
Theorems: `C108_setOrigin_shifts`, `C108_changeUnit_physical`, `C108_changeUnit_refused`.

### C109 — Extending a vector field keeps every vector and masks the new points

*proved.* `lean/Verif/Vector/Crop.lean`  
Modelled: VectorField (core/vectorfield.py). Specification: `VF.Reads`. Proof: refinement. DtypeModel.lean/Dtype.lean: change_dtype of scalar and vector fields (C374).  
Theorems: `C109_extend_reads`.

### C110 — Iterating over a vector field yields each valid vector once

*proved.* `lean/Verif/Vector/Crop.lean`  
Modelled: VectorField (core/vectorfield.py). Specification: `VF.Reads`. Proof: refinement. DtypeModel.lean/Dtype.lean: change_dtype of scalar and vector fields (C374).  
Theorems: `C110_iter_complete`.

### C111 — Importing component arrays gives a vector field showing each vector at its coordinates

*partial.* `lean/Verif/Vector/Arith.lean`  
Modelled: VectorField (core/vectorfield.py). Specification: `VF.Reads`. Proof: refinement. DtypeModel.lean/Dtype.lean: change_dtype of scalar and vector fields (C374).  
Proved for increasing axes and for unmasked data; on a decreasing axis the mask is not reversed with the components: C111_import_mask_violated.  
Theorems: `C111_import_reads_partial`, `C111_import_mask_violated`, `C111_import_transposed`, `C111_import_single_point`.

### C112 — Sums and differences of vector fields on one grid act on each physical vector

*proved.* `lean/Verif/Vector/Arith.lean`  
Modelled: VectorField (core/vectorfield.py). Specification: `VF.Reads`. Proof: refinement. DtypeModel.lean/Dtype.lean: change_dtype of scalar and vector fields (C374).  
Theorems: `C112_add_pointwise`, `C112_neg`, `C112_sub_pointwise`, `C112_add_comm`, `C112_add_refused`.

### C113 — Sums of vector fields on different grids are the sums on the shared points

*partial.* `lean/Verif/Vector/Arith.lean`  
Modelled: VectorField (core/vectorfield.py). Specification: `VF.Reads`. Proof: refinement. DtypeModel.lean/Dtype.lean: change_dtype of scalar and vector fields (C374).  
Proved for shared coordinates other than 0, with at least two of them per axis; the coordinate 0 is always dropped: C113_zero_violated.  
Theorems: `C113_add_shared_partial`, `C113_zero_violated`.

### C114 — Products of a vector field with a number or a scalar field act pointwise and combine units

*partial.* `lean/Verif/Vector/Arith.lean`  
Modelled: VectorField (core/vectorfield.py). Specification: `VF.Reads`. Proof: refinement. DtypeModel.lean/Dtype.lean: change_dtype of scalar and vector fields (C374).  
Values and masks proved; the unit of the scalar field is ignored and its grid not compared: C114_unit_violated, C114_grid_violated.  
Theorems: `C114_mulNum`, `C114_mulSF_partial`, `C114_unit_violated`, `C114_grid_violated`.

### C115 — Cropping the masked borders of a vector field returns the bounding box or a mask-free sub-rectangle

*partial.* `lean/Verif/Vector/Border.lean`  
Modelled: VectorField (core/vectorfield.py). Specification: `VF.Reads`. Proof: refinement. DtypeModel.lean/Dtype.lean: change_dtype of scalar and vector fields (C374).  
Everything the soft variant returns is proved right, the hard variant terminates and is mask-free. Nothing is returned when nothing is masked, and ValueError can be raised.  
Theorems: `C115_soft_bounding_box`, `C115_soft_returns_partial`, `C115_nothing_returned_violated`, `C115_hard_terminates`, `C115_hard_mask_free_partial`, `C115_hard_error_violated`.

### C116 — Importing a text table of a scalar field shows each value at its coordinates

*partial.* `lean/Verif/Ascii/Props.lean`  
Modelled: text tables (file_operation.py). Proof: round trips over tables by columns, by rows and in any order. SeriesModel.lean/Series.lean: import_vfs_from_ascii, that never returns (C365).  
Proved for tables by increasing columns, by rows from the top (abscissae not closer than the np.allclose tolerance) and for complete tables in other orders on non-square grids; all other listed layouts are shown mirrored, transposed or refused (C116_*_violated).  
Theorems: `C116_columns`, `C116_columns_violated`, `C116_rows_partial`, `C116_rows_violated`, `C116_close_violated`, `C116_incomplete_violated`, `C116_any_order_partial`, `C116_square_violated`.

### C117 — Importing a DaVis vector file puts each vector at its physical coordinate

*partial.* `lean/Verif/File/Davis.lean`  
Modelled: names and contents of saved files, search of files, pictures, DaVis buffers, videos (file_operation.py). Proof: round trips, orientation lemmas, loop invariants.  
Proved except when the y axis is in pixels with a positive step and some vector is masked or null: the mask is then mirrored (C117_pixel_violated).  
Theorems: `C117_vc7_partial`, `C117_pixel_violated`.

### C118 — Pictures exported from a collection are read back in the same order

*partial.* `lean/Verif/File/Props.lean`  
Modelled: names and contents of saved files, search of files, pictures, DaVis buffers, videos (file_operation.py). Proof: round trips, orientation lemmas, loop invariants.  
Proved up to 100000 pictures; beyond, the order is lost (C118_order_violated).  
Theorems: `C118_order_partial`, `C118_injective`, `C118_order_violated`.

### C119 — Gradients of a scalar field are the slopes to its neighbours in physical units

*partial.* `lean/Verif/Treat/Grad.lean`, `lean/Verif/Treat/Uneven.lean`  
Modelled: field_treatment/field_treatment.py: gradients, divergence, track field, reconstruction from gradients, fast streamlines (over any ordered field), seeds of the streamlines, extension to a wall along its axis. Not modelled: the algorithm of numpy's eig (a parameter, EigenModel.lean), the VODE integrator, interpolation splines, least squares, the filling after the wall. Proof: slopes between neighbours; the border integrations and four sweeps all equal the field up to one constant; loop invariant on the chain of points. C332, C333: algebra of 2x2 matrices from the equations of eigenvectors. ShearModel.lean/Shear.lean: shear stress of fields, cropped, not filled (C360). Uneven.lean: gradients on uneven axes (C119, C121).  
Even axes; on uneven axes the code uses the first step everywhere (C119_uneven_violated, C120_uneven_violated).  
Theorems: `C119_gradients_partial`, `C119_uneven_violated`.

### C120 — Gradients of an affine field are its coefficients

*partial.* `lean/Verif/Treat/Grad.lean`  
Modelled: field_treatment/field_treatment.py: gradients, divergence, track field, reconstruction from gradients, fast streamlines (over any ordered field), seeds of the streamlines, extension to a wall along its axis. Not modelled: the algorithm of numpy's eig (a parameter, EigenModel.lean), the VODE integrator, interpolation splines, least squares, the filling after the wall. Proof: slopes between neighbours; the border integrations and four sweeps all equal the field up to one constant; loop invariant on the chain of points. C332, C333: algebra of 2x2 matrices from the equations of eigenvectors. ShearModel.lean/Shear.lean: shear stress of fields, cropped, not filled (C360). Uneven.lean: gradients on uneven axes (C119, C121).  
Uneven axes give other slopes (C120_uneven_violated).  
Theorems: `C120_affine_partial`, `C120_shown`, `C120_uneven_violated`.

### C121 — Gradients and divergence of a vector field act on each component

*partial.* `lean/Verif/Treat/Grad.lean`, `lean/Verif/Treat/Uneven.lean`  
Modelled: field_treatment/field_treatment.py: gradients, divergence, track field, reconstruction from gradients, fast streamlines (over any ordered field), seeds of the streamlines, extension to a wall along its axis. Not modelled: the algorithm of numpy's eig (a parameter, EigenModel.lean), the VODE integrator, interpolation splines, least squares, the filling after the wall. Proof: slopes between neighbours; the border integrations and four sweeps all equal the field up to one constant; loop invariant on the chain of points. C332, C333: algebra of 2x2 matrices from the equations of eigenvectors. ShearModel.lean/Shear.lean: shear stress of fields, cropped, not filled (C360). Uneven.lean: gradients on uneven axes (C119, C121).  
Even axes; fails on uneven ones (C121_uneven_violated). Profile gradients are not modelled.  
Theorems: `C121_gradients_partial`, `C121_divergence_partial`, `C121_divergence_refused`, `C121_uneven_violated`.

### C122 — The gradient field of a component holds its two gradients

*partial.* `lean/Verif/Treat/Grad.lean`  
Modelled: field_treatment/field_treatment.py: gradients, divergence, track field, reconstruction from gradients, fast streamlines (over any ordered field), seeds of the streamlines, extension to a wall along its axis. Not modelled: the algorithm of numpy's eig (a parameter, EigenModel.lean), the VODE integrator, interpolation splines, least squares, the filling after the wall. Proof: slopes between neighbours; the border integrations and four sweeps all equal the field up to one constant; loop invariant on the chain of points. C332, C333: algebra of 2x2 matrices from the equations of eigenvectors. ShearModel.lean/Shear.lean: shear stress of fields, cropped, not filled (C360). Uneven.lean: gradients on uneven axes (C119, C121).  
The numbers are right, the unit is the one of the original field instead of the one of the gradient (C122_unit_violated).  
Theorems: `C122_numbers_partial`, `C122_unit_violated`.

### C123 — Track and field lines are streamlines of the field turned by a quarter turn

*partial.* `lean/Verif/Treat/Track.lean`  
Modelled: field_treatment/field_treatment.py: gradients, divergence, track field, reconstruction from gradients, fast streamlines (over any ordered field), seeds of the streamlines, extension to a wall along its axis. Not modelled: the algorithm of numpy's eig (a parameter, EigenModel.lean), the VODE integrator, interpolation splines, least squares, the filling after the wall. Proof: slopes between neighbours; the border integrations and four sweeps all equal the field up to one constant; loop invariant on the chain of points. C332, C333: algebra of 2x2 matrices from the equations of eigenvectors. ShearModel.lean/Shear.lean: shear stress of fields, cropped, not filled (C360). Uneven.lean: gradients on uneven axes (C119, C121).  
get_tracklines ignores reverse (C123_reverse_violated); get_fieldlines forwards it.  
Theorems: `C123_track_field`, `C123_fieldlines`, `C123_tracklines_partial`, `C123_reverse_violated`.

### C124 — Reconstruction from gradients gives the field back up to its mean

*partial.* `lean/Verif/Treat/Recon.lean`  
Modelled: field_treatment/field_treatment.py: gradients, divergence, track field, reconstruction from gradients, fast streamlines (over any ordered field), seeds of the streamlines, extension to a wall along its axis. Not modelled: the algorithm of numpy's eig (a parameter, EigenModel.lean), the VODE integrator, interpolation splines, least squares, the filling after the wall. Proof: slopes between neighbours; the border integrations and four sweeps all equal the field up to one constant; loop invariant on the chain of points. C332, C333: algebra of 2x2 matrices from the equations of eigenvectors. ShearModel.lean/Shear.lean: shear stress of fields, cropped, not filled (C360). Uneven.lean: gradients on uneven axes (C119, C121).  
Exact for all fields satisfying the trapezoidal rule, one unit product for both gradients, no masked point. With other units for y the result is scaled (C124_units_violated); one masked point masks everything (C124_masked_violated).  
Theorems: `C124_reconstruct_partial`, `C124_quadratic_partial`, `C124_units_violated`, `C124_masked_violated`, `C124_roundtrip_partial`.

### C125 — Fast streamlines start at their seeds and follow the velocity

*proved.* `lean/Verif/Treat/Stream.lean`  
Modelled: field_treatment/field_treatment.py: gradients, divergence, track field, reconstruction from gradients, fast streamlines (over any ordered field), seeds of the streamlines, extension to a wall along its axis. Not modelled: the algorithm of numpy's eig (a parameter, EigenModel.lean), the VODE integrator, interpolation splines, least squares, the filling after the wall. Proof: slopes between neighbours; the border integrations and four sweeps all equal the field up to one constant; loop invariant on the chain of points. C332, C333: algebra of 2x2 matrices from the equations of eigenvectors. ShearModel.lean/Shear.lean: shear stress of fields, cropped, not filled (C360). Uneven.lean: gradients on uneven axes (C119, C121).  
Over every ordered field with floor and every norm function with the square property; instantiated at the real numbers.  
Theorems: `C125_streamlines`, `C125_reverse`, `C125_refused`.

### C126 — Streamlines start at the given seeds

*partial.* `lean/Verif/Treat/Stream.lean`  
Modelled: field_treatment/field_treatment.py: gradients, divergence, track field, reconstruction from gradients, fast streamlines (over any ordered field), seeds of the streamlines, extension to a wall along its axis. Not modelled: the algorithm of numpy's eig (a parameter, EigenModel.lean), the VODE integrator, interpolation splines, least squares, the filling after the wall. Proof: slopes between neighbours; the border integrations and four sweeps all equal the field up to one constant; loop invariant on the chain of points. C332, C333: algebra of 2x2 matrices from the equations of eigenvectors. ShearModel.lean/Shear.lean: shear stress of fields, cropped, not filled (C360). Uneven.lean: gradients on uneven axes (C119, C121).  
Integer arrays of seeds are rescaled in place and truncated: every seed inside goes to the lower left corner (C126_integers_violated).  
Theorems: `C126_starts_partial`, `C126_integers_violated`.

### C127 — Extrapolation to a wall puts the zero line at the wall

*partial.* `lean/Verif/Treat/Track.lean`  
Modelled: field_treatment/field_treatment.py: gradients, divergence, track field, reconstruction from gradients, fast streamlines (over any ordered field), seeds of the streamlines, extension to a wall along its axis. Not modelled: the algorithm of numpy's eig (a parameter, EigenModel.lean), the VODE integrator, interpolation splines, least squares, the filling after the wall. Proof: slopes between neighbours; the border integrations and four sweeps all equal the field up to one constant; loop invariant on the chain of points. C332, C333: algebra of 2x2 matrices from the equations of eigenvectors. ShearModel.lean/Shear.lean: shear stress of fields, cropped, not filled (C360). Uneven.lean: gradients on uneven axes (C119, C121).  
Left and lower walls within one step; walls nearer than one step overwrite data, right and upper walls overshoot by n-2 steps, a wall on the first line raises.  
Theorems: `C127_left_partial`, `C127_near_violated`, `C127_right_violated`, `C127_first_violated`.

### C128 — Non-local vortex criteria use the whole disc around a point and are masked without it

*partial.* `lean/Verif/Crit/Motif.lean`, `lean/Verif/Crit/Units.lean`  
Modelled: vortex_criterions/vortex_criterions.py: motif and masks of the non-local criteria, gamma, kappa, vorticity and divergence of whole fields with units, residual and shear vorticity, Q, Nk, Delta, lambda2, swirling strength, Stokes vorticity and its axis, fitted gradients, enstrophy. The criteria with square roots are functions over any ordered field with the root as a parameter, instantiated at the reals. Not modelled: iota, improved swirling strength, temporal versions (one field after the other), the interpolation of fill (a parameter). Proof: the motif equals its own reverse, so odd sums vanish; Cauchy-Schwarz per term; difference operators commute; sums over cells telescope. C278 (get_angle_deviation, over the reals): each term lies below its chord by convexity of the power, strictly between the ends; turning the angles swaps the two parts of the sorted list. IotaModel.lean/Iota.lean: circular distance of angles at the reals (C342). ImprovedModel.lean/Improved.lean: improved swirling strength, at one point and on fields (C362).  
Radius in number of vectors: proved in full. Radius in axis units: proved for equal steps along both axes; with different steps it fails (IndexError, C128_units_violated).  
Theorems: `C128_motif`, `C128_shown`, `C128_local`, `C128_units_partial`, `C128_units_violated`.

### C129 — Gamma and kappa lie between -1 and 1

*proved.* `lean/Verif/Crit/Gamma.lean`  
Modelled: vortex_criterions/vortex_criterions.py: motif and masks of the non-local criteria, gamma, kappa, vorticity and divergence of whole fields with units, residual and shear vorticity, Q, Nk, Delta, lambda2, swirling strength, Stokes vorticity and its axis, fitted gradients, enstrophy. The criteria with square roots are functions over any ordered field with the root as a parameter, instantiated at the reals. Not modelled: iota, improved swirling strength, temporal versions (one field after the other), the interpolation of fill (a parameter). Proof: the motif equals its own reverse, so odd sums vanish; Cauchy-Schwarz per term; difference operators commute; sums over cells telescope. C278 (get_angle_deviation, over the reals): each term lies below its chord by convexity of the power, strictly between the ends; turning the angles swaps the two parts of the sorted list. IotaModel.lean/Iota.lean: circular distance of angles at the reals (C342). ImprovedModel.lean/Improved.lean: improved swirling strength, at one point and on fields (C362).  
Theorems: `C129_bounds`, `C129_bounds_units`, `C129_gamma2b`, `C129_gamma1b`.

### C130 — Gamma and kappa do not depend on the intensity of the flow, nor gamma2 and kappa2 on a uniform flow

*proved.* `lean/Verif/Crit/Gamma.lean`  
Modelled: vortex_criterions/vortex_criterions.py: motif and masks of the non-local criteria, gamma, kappa, vorticity and divergence of whole fields with units, residual and shear vorticity, Q, Nk, Delta, lambda2, swirling strength, Stokes vorticity and its axis, fitted gradients, enstrophy. The criteria with square roots are functions over any ordered field with the root as a parameter, instantiated at the reals. Not modelled: iota, improved swirling strength, temporal versions (one field after the other), the interpolation of fill (a parameter). Proof: the motif equals its own reverse, so odd sums vanish; Cauchy-Schwarz per term; difference operators commute; sums over cells telescope. C278 (get_angle_deviation, over the reals): each term lies below its chord by convexity of the power, strictly between the ends; turning the angles swaps the two parts of the sorted list. IotaModel.lean/Iota.lean: circular distance of angles at the reals (C342). ImprovedModel.lean/Improved.lean: improved swirling strength, at one point and on fields (C362).  
Theorems: `C130_scale`, `C130_galilean`, `C130_turn`.

### C131 — Gamma1 is one at the centre of a vortex, and only there

*partial.* `lean/Verif/Crit/Gamma.lean`, `lean/Verif/Crit/Units.lean`  
Modelled: vortex_criterions/vortex_criterions.py: motif and masks of the non-local criteria, gamma, kappa, vorticity and divergence of whole fields with units, residual and shear vorticity, Q, Nk, Delta, lambda2, swirling strength, Stokes vorticity and its axis, fitted gradients, enstrophy. The criteria with square roots are functions over any ordered field with the root as a parameter, instantiated at the reals. Not modelled: iota, improved swirling strength, temporal versions (one field after the other), the interpolation of fill (a parameter). Proof: the motif equals its own reverse, so odd sums vanish; Cauchy-Schwarz per term; difference operators commute; sums over cells telescope. C278 (get_angle_deviation, over the reals): each term lies below its chord by convexity of the power, strictly between the ends; turning the angles swaps the two parts of the sorted list. IotaModel.lean/Iota.lean: circular distance of angles at the reals (C342). ImprovedModel.lean/Improved.lean: improved swirling strength, at one point and on fields (C362).  
Proved for a radius in number of vectors; with a radius in axis units the point counts itself and gamma1 is n/(n+1) (C131_units_violated).  
Theorems: `C131_vortex`, `C131_source`, `C131_rotation`, `C131_vortex_only`, `C131_units_violated`.

### C132 — Kappa2 measures the source around a point relatively to the mean velocity

*partial.* `lean/Verif/Crit/Gamma.lean`  
Modelled: vortex_criterions/vortex_criterions.py: motif and masks of the non-local criteria, gamma, kappa, vorticity and divergence of whole fields with units, residual and shear vorticity, Q, Nk, Delta, lambda2, swirling strength, Stokes vorticity and its axis, fitted gradients, enstrophy. The criteria with square roots are functions over any ordered field with the root as a parameter, instantiated at the reals. Not modelled: iota, improved swirling strength, temporal versions (one field after the other), the interpolation of fill (a parameter). Proof: the motif equals its own reverse, so odd sums vanish; Cauchy-Schwarz per term; difference operators commute; sums over cells telescope. C278 (get_angle_deviation, over the reals): each term lies below its chord by convexity of the power, strictly between the ends; turning the angles swaps the two parts of the sorted list. IotaModel.lean/Iota.lean: circular distance of angles at the reals (C342). ImprovedModel.lean/Improved.lean: improved swirling strength, at one point and on fields (C362).  
kappa2 subtracts the velocity of the point itself instead of the mean (C132_centre_violated); what it computes is C132_kappa2_partial.  
Theorems: `C132_kappa2_partial`, `C132_centre_violated`.

### C133 — Vorticity and divergence are made of the slopes of the components

*partial.* `lean/Verif/Crit/Vort.lean`  
Modelled: vortex_criterions/vortex_criterions.py: motif and masks of the non-local criteria, gamma, kappa, vorticity and divergence of whole fields with units, residual and shear vorticity, Q, Nk, Delta, lambda2, swirling strength, Stokes vorticity and its axis, fitted gradients, enstrophy. The criteria with square roots are functions over any ordered field with the root as a parameter, instantiated at the reals. Not modelled: iota, improved swirling strength, temporal versions (one field after the other), the interpolation of fill (a parameter). Proof: the motif equals its own reverse, so odd sums vanish; Cauchy-Schwarz per term; difference operators commute; sums over cells telescope. C278 (get_angle_deviation, over the reals): each term lies below its chord by convexity of the power, strictly between the ends; turning the angles swaps the two parts of the sorted list. IotaModel.lean/Iota.lean: circular distance of angles at the reals (C342). ImprovedModel.lean/Improved.lean: improved swirling strength, at one point and on fields (C362).  
Half of the curl is returned (C133_half_violated) and the unit of x is used for both axes (C133_unit_violated); evenly spaced axes assumed.  
Theorems: `C133_slopes_partial`, `C133_never_masked`, `C133_half_violated`, `C133_unit_violated`.

### C134 — Vorticity and divergence obey the identities of vector calculus

*proved.* `lean/Verif/Crit/Vort.lean`  
Modelled: vortex_criterions/vortex_criterions.py: motif and masks of the non-local criteria, gamma, kappa, vorticity and divergence of whole fields with units, residual and shear vorticity, Q, Nk, Delta, lambda2, swirling strength, Stokes vorticity and its axis, fitted gradients, enstrophy. The criteria with square roots are functions over any ordered field with the root as a parameter, instantiated at the reals. Not modelled: iota, improved swirling strength, temporal versions (one field after the other), the interpolation of fill (a parameter). Proof: the motif equals its own reverse, so odd sums vanish; Cauchy-Schwarz per term; difference operators commute; sums over cells telescope. C278 (get_angle_deviation, over the reals): each term lies below its chord by convexity of the power, strictly between the ends; turning the angles swaps the two parts of the sorted list. IotaModel.lean/Iota.lean: circular distance of angles at the reals (C342). ImprovedModel.lean/Improved.lean: improved swirling strength, at one point and on fields (C362).  
Theorems: `C134_curl_of_gradient`, `C134_galilean`, `C134_turned`.

### C135 — Residual and shear vorticity split the vorticity

*partial.* `lean/Verif/Crit/Local.lean`  
Modelled: vortex_criterions/vortex_criterions.py: motif and masks of the non-local criteria, gamma, kappa, vorticity and divergence of whole fields with units, residual and shear vorticity, Q, Nk, Delta, lambda2, swirling strength, Stokes vorticity and its axis, fitted gradients, enstrophy. The criteria with square roots are functions over any ordered field with the root as a parameter, instantiated at the reals. Not modelled: iota, improved swirling strength, temporal versions (one field after the other), the interpolation of fill (a parameter). Proof: the motif equals its own reverse, so odd sums vanish; Cauchy-Schwarz per term; difference operators commute; sums over cells telescope. C278 (get_angle_deviation, over the reals): each term lies below its chord by convexity of the power, strictly between the ends; turning the angles swaps the two parts of the sorted list. IotaModel.lean/Iota.lean: circular distance of angles at the reals (C342). ImprovedModel.lean/Improved.lean: improved swirling strength, at one point and on fields (C362).  
The strain assumes a flow without divergence; with one, the split depends on the axes (C135_turned_violated, C135_expansion_violated).  
Theorems: `C135_split`, `C135_rotation`, `C135_shear`, `C135_turned_partial`, `C135_turned_violated`, `C135_expansion_violated`.

### C136 — Q and Nk compare rotation and strain

*partial.* `lean/Verif/Crit/Local.lean`  
Modelled: vortex_criterions/vortex_criterions.py: motif and masks of the non-local criteria, gamma, kappa, vorticity and divergence of whole fields with units, residual and shear vorticity, Q, Nk, Delta, lambda2, swirling strength, Stokes vorticity and its axis, fitted gradients, enstrophy. The criteria with square roots are functions over any ordered field with the root as a parameter, instantiated at the reals. Not modelled: iota, improved swirling strength, temporal versions (one field after the other), the interpolation of fill (a parameter). Proof: the motif equals its own reverse, so odd sums vanish; Cauchy-Schwarz per term; difference operators commute; sums over cells telescope. C278 (get_angle_deviation, over the reals): each term lies below its chord by convexity of the power, strictly between the ends; turning the angles swaps the two parts of the sorted list. IotaModel.lean/Iota.lean: circular distance of angles at the reals (C342). ImprovedModel.lean/Improved.lean: improved swirling strength, at one point and on fields (C362).  
Q: the half multiplies the rotation only (C136_q_violated, C136_missed_violated). Nk: proved in full.  
Theorems: `C136_q_partial`, `C136_q_violated`, `C136_missed_violated`, `C136_nk`, `C136_nk_invariant`, `C136_nk_undefined`.

### C137 — Delta tells where streamlines turn

*partial.* `lean/Verif/Crit/Local.lean`  
Modelled: vortex_criterions/vortex_criterions.py: motif and masks of the non-local criteria, gamma, kappa, vorticity and divergence of whole fields with units, residual and shear vorticity, Q, Nk, Delta, lambda2, swirling strength, Stokes vorticity and its axis, fitted gradients, enstrophy. The criteria with square roots are functions over any ordered field with the root as a parameter, instantiated at the reals. Not modelled: iota, improved swirling strength, temporal versions (one field after the other), the interpolation of fill (a parameter). Proof: the motif equals its own reverse, so odd sums vanish; Cauchy-Schwarz per term; difference operators commute; sums over cells telescope. C278 (get_angle_deviation, over the reals): each term lies below its chord by convexity of the power, strictly between the ends; turning the angles swaps the two parts of the sorted list. IotaModel.lean/Iota.lean: circular distance of angles at the reals (C342). ImprovedModel.lean/Improved.lean: improved swirling strength, at one point and on fields (C362).  
Mask proved. Sign and unit fail (C137_sign_violated, C137_unit_violated).  
Theorems: `C137_masked`, `C137_sign_violated`, `C137_rotation_violated`, `C137_unit_violated`.

### C138 — lambda2 and the swirling strength are what they are named after, and agree

*partial.* `lean/Verif/Crit/Local.lean`  
Modelled: vortex_criterions/vortex_criterions.py: motif and masks of the non-local criteria, gamma, kappa, vorticity and divergence of whole fields with units, residual and shear vorticity, Q, Nk, Delta, lambda2, swirling strength, Stokes vorticity and its axis, fitted gradients, enstrophy. The criteria with square roots are functions over any ordered field with the root as a parameter, instantiated at the reals. Not modelled: iota, improved swirling strength, temporal versions (one field after the other), the interpolation of fill (a parameter). Proof: the motif equals its own reverse, so odd sums vanish; Cauchy-Schwarz per term; difference operators commute; sums over cells telescope. C278 (get_angle_deviation, over the reals): each term lies below its chord by convexity of the power, strictly between the ends; turning the angles swaps the two parts of the sorted list. IotaModel.lean/Iota.lean: circular distance of angles at the reals (C342). ImprovedModel.lean/Improved.lean: improved swirling strength, at one point and on fields (C362).  
Proved, but raw=True always raises (C138_raw_violated).  
Theorems: `C138_lambda2`, `C138_swirl`, `C138_agree`, `C138_raw_violated`.

### C139 — The Stokes vorticity is the circulation over the area of the window

*partial.* `lean/Verif/Crit/Stokes.lean`  
Modelled: vortex_criterions/vortex_criterions.py: motif and masks of the non-local criteria, gamma, kappa, vorticity and divergence of whole fields with units, residual and shear vorticity, Q, Nk, Delta, lambda2, swirling strength, Stokes vorticity and its axis, fitted gradients, enstrophy. The criteria with square roots are functions over any ordered field with the root as a parameter, instantiated at the reals. Not modelled: iota, improved swirling strength, temporal versions (one field after the other), the interpolation of fill (a parameter). Proof: the motif equals its own reverse, so odd sums vanish; Cauchy-Schwarz per term; difference operators commute; sums over cells telescope. C278 (get_angle_deviation, over the reals): each term lies below its chord by convexity of the power, strictly between the ends; turning the angles swaps the two parts of the sorted list. IotaModel.lean/Iota.lean: circular distance of angles at the reals (C342). ImprovedModel.lean/Improved.lean: improved swirling strength, at one point and on fields (C362).  
The circulation is divided by the number of points of the window, not its area (C139_area_violated); the rest is proved.  
Theorems: `C139_sum`, `C139_masked`, `C139_border`, `C139_affine_partial`, `C139_area_violated`, `C139_potential`, `C139_axis`.

### C140 — The non-local residual vorticity fits the gradient

*proved.* `lean/Verif/Crit/Stokes.lean`  
Modelled: vortex_criterions/vortex_criterions.py: motif and masks of the non-local criteria, gamma, kappa, vorticity and divergence of whole fields with units, residual and shear vorticity, Q, Nk, Delta, lambda2, swirling strength, Stokes vorticity and its axis, fitted gradients, enstrophy. The criteria with square roots are functions over any ordered field with the root as a parameter, instantiated at the reals. Not modelled: iota, improved swirling strength, temporal versions (one field after the other), the interpolation of fill (a parameter). Proof: the motif equals its own reverse, so odd sums vanish; Cauchy-Schwarz per term; difference operators commute; sums over cells telescope. C278 (get_angle_deviation, over the reals): each term lies below its chord by convexity of the power, strictly between the ends; turning the angles swaps the two parts of the sorted list. IotaModel.lean/Iota.lean: circular distance of angles at the reals (C342). ImprovedModel.lean/Improved.lean: improved swirling strength, at one point and on fields (C362).  
Theorems: `C140_affine`.

### C141 — The enstrophy integrates the squared vorticity around each point

*partial.* `lean/Verif/Crit/Stokes.lean`  
Modelled: vortex_criterions/vortex_criterions.py: motif and masks of the non-local criteria, gamma, kappa, vorticity and divergence of whole fields with units, residual and shear vorticity, Q, Nk, Delta, lambda2, swirling strength, Stokes vorticity and its axis, fitted gradients, enstrophy. The criteria with square roots are functions over any ordered field with the root as a parameter, instantiated at the reals. Not modelled: iota, improved swirling strength, temporal versions (one field after the other), the interpolation of fill (a parameter). Proof: the motif equals its own reverse, so odd sums vanish; Cauchy-Schwarz per term; difference operators commute; sums over cells telescope. C278 (get_angle_deviation, over the reals): each term lies below its chord by convexity of the power, strictly between the ends; turning the angles swaps the two parts of the sorted list. IotaModel.lean/Iota.lean: circular distance of angles at the reals (C342). ImprovedModel.lean/Improved.lean: improved swirling strength, at one point and on fields (C362).  
The point itself is left out with a radius in number of vectors (C141_centre_violated).  
Theorems: `C141_sign`, `C141_centre_violated`.

### C142 — Each analytic vortex is the flow it is named after

*partial.* `lean/Verif/Vortex/Shape.lean`  
Modelled: vortex_creation/vortex_creation.py over the reals: every vortex class, walls and images, the vortex system with its caches and identifiers, evolution, trajectories, velocity map. The Bessel functions of the Lamb-Chaplygin dipole are parameters. Not modelled: HsvSystem, StepSystem, drawings. Proof: refinement of the cached system to its content (images = sum over the sublists of the walls) by induction on the history; reflection of a round vortex; antisymmetric double sums. C280: fields made from a system, with units and masks, on top of the vector field model (Vector/Model.lean), by induction on the parts; a vortex is there any function with rational values. SystemsModel.lean/Systems.lean: background flows of HsvSystem and StepSystem (C368). SeriesModel.lean/Series.lean: velocity fields of a system in time (C370).  
Proved for solid, free, Lamb-Oseen, Burger, Rankine and Perso vortices (given by their circulation). Not so: a Perso vortex given by its peak vorticity has twice this vorticity; outside a Lamb-Chaplygin dipole the speed grows without bound.  
Theorems: `C142_solid`, `C142_free`, `C142_lamb_oseen`, `C142_burger`, `C142_rankine`, `C142_burger_as_lamb`, `C142_perso`, `C142_perso_vorticity_violated`, `C142_dipole_violated`.

### C143 — No fluid goes through the walls of a vortex system

*partial.* `lean/Verif/Vortex/Walls.lean`  
Modelled: vortex_creation/vortex_creation.py over the reals: every vortex class, walls and images, the vortex system with its caches and identifiers, evolution, trajectories, velocity map. The Bessel functions of the Lamb-Chaplygin dipole are parameters. Not modelled: HsvSystem, StepSystem, drawings. Proof: refinement of the cached system to its content (images = sum over the sublists of the walls) by induction on the history; reflection of a round vortex; antisymmetric double sums. C280: fields made from a system, with units and masks, on top of the vector field model (Vector/Model.lean), by induction on the parts; a vortex is there any function with rational values. SystemsModel.lean/Systems.lean: background flows of HsvSystem and StepSystem (C368). SeriesModel.lean/Series.lean: velocity fields of a system in time (C370).  
Proved for round vortices and the last wall, or walls followed by perpendicular ones only, whatever the history. Violated with two parallel walls (one reflection order only), for Hill vortices, and when a custom field is added (fields are not reflected).  
Theorems: `C143_wall_partial`, `C143_position`, `C143_parallel_violated`, `C143_hill_violated`, `C143_custom_violated`.

### C144 — A vortex system always shows its present content

*partial.* `lean/Verif/Vortex/History.lean`  
Modelled: vortex_creation/vortex_creation.py over the reals: every vortex class, walls and images, the vortex system with its caches and identifiers, evolution, trajectories, velocity map. The Bessel functions of the Lamb-Chaplygin dipole are parameters. Not modelled: HsvSystem, StepSystem, drawings. Proof: refinement of the cached system to its content (images = sum over the sublists of the walls) by induction on the history; reflection of a round vortex; antisymmetric double sums. C280: fields made from a system, with units and masks, on top of the vector field model (Vector/Model.lean), by induction on the parts; a vortex is there any function with rational values. SystemsModel.lean/Systems.lean: background flows of HsvSystem and StepSystem (C368). SeriesModel.lean/Series.lean: velocity fields of a system in time (C370).  
Proved for all histories whose removals do not count further back than the first vortex. Violated otherwise: the index wraps twice; nmb_vortex is not updated by removals; a custom field given to two systems shares its identifier.  
Theorems: `C144_history_partial`, `C144_field`, `C144_kept`, `C144_index_violated`, `C144_count_violated`, `C144_shared_field_violated`.

### C145 — The parts of a vortex system add up

*partial.* `lean/Verif/Vortex/History.lean`  
Modelled: vortex_creation/vortex_creation.py over the reals: every vortex class, walls and images, the vortex system with its caches and identifiers, evolution, trajectories, velocity map. The Bessel functions of the Lamb-Chaplygin dipole are parameters. Not modelled: HsvSystem, StepSystem, drawings. Proof: refinement of the cached system to its content (images = sum over the sublists of the walls) by induction on the history; reflection of a round vortex; antisymmetric double sums. C280: fields made from a system, with units and masks, on top of the vector field model (Vector/Model.lean), by induction on the parts; a vortex is there any function with rational values. SystemsModel.lean/Systems.lean: background flows of HsvSystem and StepSystem (C368). SeriesModel.lean/Series.lean: velocity fields of a system in time (C370).  
Proved for selections, the parts of get_compounded_vector and the velocity map. With detailed=True the parts miss the images when they were not refreshed.  
Theorems: `C145_one`, `C145_sum`, `C145_detailed_violated`, `C145_map`.

### C146 — Vortices are carried along by the flow

*proved.* `lean/Verif/Vortex/Motion.lean`  
Modelled: vortex_creation/vortex_creation.py over the reals: every vortex class, walls and images, the vortex system with its caches and identifiers, evolution, trajectories, velocity map. The Bessel functions of the Lamb-Chaplygin dipole are parameters. Not modelled: HsvSystem, StepSystem, drawings. Proof: refinement of the cached system to its content (images = sum over the sublists of the walls) by induction on the history; reflection of a round vortex; antisymmetric double sums. C280: fields made from a system, with units and masks, on top of the vector field model (Vector/Model.lean), by induction on the parts; a vortex is there any function with rational values. SystemsModel.lean/Systems.lean: background flows of HsvSystem and StepSystem (C368). SeriesModel.lean/Series.lean: velocity fields of a system in time (C370).  
Theorems: `C146_trajectories`, `C146_refused`, `C146_step`.

### C147 — Free vortices keep their impulse

*partial.* `lean/Verif/Vortex/Motion.lean`  
Modelled: vortex_creation/vortex_creation.py over the reals: every vortex class, walls and images, the vortex system with its caches and identifiers, evolution, trajectories, velocity map. The Bessel functions of the Lamb-Chaplygin dipole are parameters. Not modelled: HsvSystem, StepSystem, drawings. Proof: refinement of the cached system to its content (images = sum over the sublists of the walls) by induction on the history; reflection of a round vortex; antisymmetric double sums. C280: fields made from a system, with units and masks, on top of the vector field model (Vector/Model.lean), by induction on the parts; a vortex is there any function with rational values. SystemsModel.lean/Systems.lean: background flows of HsvSystem and StepSystem (C368). SeriesModel.lean/Series.lean: velocity fields of a system in time (C370).  
Impulses conserved for any number of vortices and steps. Two equal vortices drift apart at each step (explicit Euler step).  
Theorems: `C147_conserved`, `C147_along_wall`, `C147_pair_violated`.

### C148 — Reconstructing a decomposition loses exactly what its missing modes hold

*partial.* `lean/Verif/Pod/Energy.lean`  
Modelled: pod/pod.py over the reals: snapshots, mean, modes, evolutions and eigenvalues of a pod base (modred is a parameter: any orthonormal eigenvectors of the correlation matrix with positive eigenvalues), reconstruct, crop_modal_base, crop, scale, energies; Ritz values of the dmd. Not modelled: masks (a base lives on its unmasked cells), units, bpod, drawings, the spectra behind the coherence. Proof: orthogonality of the modes from the one of the eigenvectors, Bessel's inequality, induction on the list of modes; filters of increasing lists for crops; half angle formula and complex exponential. C326, C327: the kept answers as a state machine over calls, invariant on all histories; removing a mean is idempotent. KappaModel.lean/Kappa.lean: critical kappa and sign of the temporal coherence, by bounds of real powers and exponentials (C355). SnapModel.lean/Snap.lean: snapshots of vector fields and fields of modes (C383); specifications `Shows`, `scalar`, `blend`.  
Proved for every eigendecomposition satisfying what modred guarantees (orthonormal eigenvectors of the correlation matrix, positive eigenvalues); 'all modes give the originals back' needs that no kept-out eigenvalue is non-zero.  
Theorems: `C148_residual`, `C148_all`, `C148_wanted`, `C148_wanted_violated`.

### C149 — Modes are orthonormal and their energies are their eigenvalues

*proved.* `lean/Verif/Pod/Energy.lean`  
Modelled: pod/pod.py over the reals: snapshots, mean, modes, evolutions and eigenvalues of a pod base (modred is a parameter: any orthonormal eigenvectors of the correlation matrix with positive eigenvalues), reconstruct, crop_modal_base, crop, scale, energies; Ritz values of the dmd. Not modelled: masks (a base lives on its unmasked cells), units, bpod, drawings, the spectra behind the coherence. Proof: orthogonality of the modes from the one of the eigenvectors, Bessel's inequality, induction on the list of modes; filters of increasing lists for crops; half angle formula and complex exponential. C326, C327: the kept answers as a state machine over calls, invariant on all histories; removing a mean is idempotent. KappaModel.lean/Kappa.lean: critical kappa and sign of the temporal coherence, by bounds of real powers and exponentials (C355). SnapModel.lean/Snap.lean: snapshots of vector fields and fields of modes (C383); specifications `Shows`, `scalar`, `blend`.  
Theorems: `C149_orthonormal`, `C149_evolutions`, `C149_energies`.

### C150 — Cropping a modal base keeps the chosen modes whole

*partial.* `lean/Verif/Pod/Base.lean`  
Modelled: pod/pod.py over the reals: snapshots, mean, modes, evolutions and eigenvalues of a pod base (modred is a parameter: any orthonormal eigenvectors of the correlation matrix with positive eigenvalues), reconstruct, crop_modal_base, crop, scale, energies; Ritz values of the dmd. Not modelled: masks (a base lives on its unmasked cells), units, bpod, drawings, the spectra behind the coherence. Proof: orthogonality of the modes from the one of the eigenvectors, Bessel's inequality, induction on the list of modes; filters of increasing lists for crops; half angle formula and complex exponential. C326, C327: the kept answers as a state machine over calls, invariant on all histories; removing a mean is idempotent. KappaModel.lean/Kappa.lean: critical kappa and sign of the temporal coherence, by bounds of real powers and exponentials (C355). SnapModel.lean/Snap.lean: snapshots of vector fields and fields of modes (C383); specifications `Shows`, `scalar`, `blend`.  
Keeping modes proved. Violated: modes_to_remove always raises AttributeError; the eigenvectors lose rows (fields) along with columns; an index equal to the number of modes raises IndexError instead of ValueError.  
Theorems: `C150_keep_partial`, `C150_vectors_violated`, `C150_remove_violated`, `C150_index_violated`.

### C151 — A modal base can be reconstructed at any time in its range

*proved.* `lean/Verif/Pod/Base.lean`  
Modelled: pod/pod.py over the reals: snapshots, mean, modes, evolutions and eigenvalues of a pod base (modred is a parameter: any orthonormal eigenvectors of the correlation matrix with positive eigenvalues), reconstruct, crop_modal_base, crop, scale, energies; Ritz values of the dmd. Not modelled: masks (a base lives on its unmasked cells), units, bpod, drawings, the spectra behind the coherence. Proof: orthogonality of the modes from the one of the eigenvectors, Bessel's inequality, induction on the list of modes; filters of increasing lists for crops; half angle formula and complex exponential. C326, C327: the kept answers as a state machine over calls, invariant on all histories; removing a mean is idempotent. KappaModel.lean/Kappa.lean: critical kappa and sign of the temporal coherence, by bounds of real powers and exponentials (C355). SnapModel.lean/Snap.lean: snapshots of vector fields and fields of modes (C383); specifications `Shows`, `scalar`, `blend`.  
Theorems: `C151_each`, `C151_between`, `C151_outside`.

### C152 — Cropping and scaling a modal base commute with its reconstruction

*partial.* `lean/Verif/Pod/Base.lean`  
Modelled: pod/pod.py over the reals: snapshots, mean, modes, evolutions and eigenvalues of a pod base (modred is a parameter: any orthonormal eigenvectors of the correlation matrix with positive eigenvalues), reconstruct, crop_modal_base, crop, scale, energies; Ritz values of the dmd. Not modelled: masks (a base lives on its unmasked cells), units, bpod, drawings, the spectra behind the coherence. Proof: orthogonality of the modes from the one of the eigenvectors, Bessel's inequality, induction on the list of modes; filters of increasing lists for crops; half angle formula and complex exponential. C326, C327: the kept answers as a state machine over calls, invariant on all histories; removing a mean is idempotent. KappaModel.lean/Kappa.lean: critical kappa and sign of the temporal coherence, by bounds of real powers and exponentials (C355). SnapModel.lean/Snap.lean: snapshots of vector fields and fields of modes (C383); specifications `Shows`, `scalar`, `blend`.  
Space and scale proved; in time proved when the interval does not begin at a time after the first. Violated otherwise: such a time is dropped, and the interval beginning at the last time is refused.  
Theorems: `C152_space`, `C152_scale`, `C152_time_partial`, `C152_accepted`, `C152_start_violated`, `C152_last_violated`.

### C153 — The rates of a dynamic mode decomposition are those of its modes

*partial.* `lean/Verif/Pod/Dmd.lean`  
Modelled: pod/pod.py over the reals: snapshots, mean, modes, evolutions and eigenvalues of a pod base (modred is a parameter: any orthonormal eigenvectors of the correlation matrix with positive eigenvalues), reconstruct, crop_modal_base, crop, scale, energies; Ritz values of the dmd. Not modelled: masks (a base lives on its unmasked cells), units, bpod, drawings, the spectra behind the coherence. Proof: orthogonality of the modes from the one of the eigenvectors, Bessel's inequality, induction on the list of modes; filters of increasing lists for crops; half angle formula and complex exponential. C326, C327: the kept answers as a state machine over calls, invariant on all histories; removing a mean is idempotent. KappaModel.lean/Kappa.lean: critical kappa and sign of the temporal coherence, by bounds of real powers and exponentials (C355). SnapModel.lean/Snap.lean: snapshots of vector fields and fields of modes (C383); specifications `Shows`, `scalar`, `blend`.  
Growth rate and pulsation proved. Evolutions proved for real Ritz values; violated for all oscillating modes (imaginary part lost in the profile), and when a field is asked alone (shifted by one step less the first time).  
Theorems: `C153_rates`, `C153_grows`, `C153_real_partial`, `C153_oscillating_violated`, `C153_shift_violated`.

### C154 — No fluid goes through the panels of a potential flow

*partial.* `lean/Verif/Panel/Wall.lean`  
Modelled: potential_flow/potential_flow.py over the reals: panels, refinement of paths, objects, systems with cached sources, velocity (quadrature = exact integral, np.linalg.solve = a parameter that returns solutions), lines, pressure. Not modelled: grids of velocities, remove_solid, the end of get_separation_position, drawings. Proof: the half-angle normal, the fundamental theorem of calculus for the influence of a panel near its own centre (arctan and log), continuity of parametric integrals for the other panels, invariant on histories for the cache, induction on the edges of a path. GridModel.lean/Grid.lean: velocity on grids, removal of solids and pressure fields (C285). SearchModel.lean/Search.lean: the search of the length of pressure as a loop with fuel, whose end is a relation, bisection of a Lipschitz function; the thickness of Thwaites (C353, C354).  
Proved for any panels whose centres are not on other panels. Violated on the prolongation of a panel: up to a fifth of its length beyond its ends, points are taken as on the panel.  
Theorems: `C154_wall`, `C154_on`, `C154_off`, `C154_extent_violated`.

### C155 — A potential flow is undisturbed far away and proportional to the free stream

*proved.* `lean/Verif/Panel/Wall.lean`  
Modelled: potential_flow/potential_flow.py over the reals: panels, refinement of paths, objects, systems with cached sources, velocity (quadrature = exact integral, np.linalg.solve = a parameter that returns solutions), lines, pressure. Not modelled: grids of velocities, remove_solid, the end of get_separation_position, drawings. Proof: the half-angle normal, the fundamental theorem of calculus for the influence of a panel near its own centre (arctan and log), continuity of parametric integrals for the other panels, invariant on histories for the cache, induction on the edges of a path. GridModel.lean/Grid.lean: velocity on grids, removal of solids and pressure fields (C285). SearchModel.lean/Search.lean: the search of the length of pressure as a loop with fuel, whose end is a relation, bisection of a Lipschitz function; the thickness of Thwaites (C353, C354).  
Theorems: `C155_far`, `C155_proportional`.

### C156 — A potential flow shows its present objects

*partial.* `lean/Verif/Panel/History.lean`  
Modelled: potential_flow/potential_flow.py over the reals: panels, refinement of paths, objects, systems with cached sources, velocity (quadrature = exact integral, np.linalg.solve = a parameter that returns solutions), lines, pressure. Not modelled: grids of velocities, remove_solid, the end of get_separation_position, drawings. Proof: the half-angle normal, the fundamental theorem of calculus for the influence of a panel near its own centre (arctan and log), continuity of parametric integrals for the other panels, invariant on histories for the cache, induction on the edges of a path. GridModel.lean/Grid.lean: velocity on grids, removal of solids and pressure fields (C285). SearchModel.lean/Search.lean: the search of the length of pressure as a loop with fuel, whose end is a relation, bisection of a Lipschitz function; the thickness of Thwaites (C353, C354).  
Proved for all histories of additions, solutions and questions. Violated after inverse_normals (the sources vanish until solving_sigma is called) and after a change of the free stream.  
Theorems: `C156_solve`, `C156_asked`, `C156_inverse_violated`, `C156_stream_violated`.

### C157 — Objects are cut into panels along their path

*partial.* `lean/Verif/Panel/Cut.lean`  
Modelled: potential_flow/potential_flow.py over the reals: panels, refinement of paths, objects, systems with cached sources, velocity (quadrature = exact integral, np.linalg.solve = a parameter that returns solutions), lines, pressure. Not modelled: grids of velocities, remove_solid, the end of get_separation_position, drawings. Proof: the half-angle normal, the fundamental theorem of calculus for the influence of a panel near its own centre (arctan and log), continuity of parametric integrals for the other panels, invariant on histories for the cache, induction on the edges of a path. GridModel.lean/Grid.lean: velocity on grids, removal of solids and pressure fields (C285). SearchModel.lean/Search.lean: the search of the length of pressure as a loop with fuel, whose end is a relation, bisection of a Lipschitz function; the thickness of Thwaites (C353, C354).  
Proved for closed paths (solids). Violated for boundaries: an open path is cut up to its last vertex, then goes back to its first; a single straight wall is refused with the resolution by default.  
Theorems: `C157_closed`, `C157_close`, `C157_open_violated`, `C157_wall_violated`.

### C158 — Velocities along a line are given at their distance along the line

*partial.* `lean/Verif/Panel/Cut.lean`  
Modelled: potential_flow/potential_flow.py over the reals: panels, refinement of paths, objects, systems with cached sources, velocity (quadrature = exact integral, np.linalg.solve = a parameter that returns solutions), lines, pressure. Not modelled: grids of velocities, remove_solid, the end of get_separation_position, drawings. Proof: the half-angle normal, the fundamental theorem of calculus for the influence of a panel near its own centre (arctan and log), continuity of parametric integrals for the other panels, invariant on histories for the cache, induction on the edges of a path. GridModel.lean/Grid.lean: velocity on grids, removal of solids and pressure fields (C285). SearchModel.lean/Search.lean: the search of the length of pressure as a loop with fuel, whose end is a relation, bisection of a Lipschitz function; the thickness of Thwaites (C353, C354).  
Proved when both coordinates increase along the line; violated otherwise: negative abscissae backwards, wrong ones on a slanted line.  
Theorems: `C158_line_partial`, `C158_backwards_violated`, `C158_slanted_violated`, `C158_pressure`.

### C159 — The radius of a vortex is that of its zone

*partial.* `lean/Verif/Zone/Radius.lean`, `lean/Verif/Zone/Value.lean`  
Modelled: vortex_properties.py on cells with optional values; scipy's label is a parameter with the specification `IsLabel` (labels = connected parts by edges), shown to exist. Criteria (vorticities) are given. Not modelled: drawings, the unit of the circulation out of zones, nan inside a property. Proof: zones are connected parts for reflexive transitive closure, weighted moments, induction on Simpson's rule.  
Proved for positive vorticity at the point when the point is above the threshold of its peak. Violated: below it, and for clockwise vortices, the area is the one of the background; never 0; the whole field without vorticity.  
Theorems: `C159_zone_partial`, `C159_peak`, `C159_outside_violated`, `C159_clockwise_violated`, `C159_none_violated`, `C159_still_violated`, `C159_position`.

### C160 — The radius of a vortex follows the lengths and not the velocities

*proved.* `lean/Verif/Zone/Radius.lean`  
Modelled: vortex_properties.py on cells with optional values; scipy's label is a parameter with the specification `IsLabel` (labels = connected parts by edges), shown to exist. Criteria (vorticities) are given. Not modelled: drawings, the unit of the circulation out of zones, nan inside a property. Proof: zones are connected parts for reflexive transitive closure, weighted moments, induction on Simpson's rule.  
Theorems: `C160_velocity`, `C160_length`.

### C161 — The centre of a vortex is the barycentre of its vorticity

*proved.* `lean/Verif/Zone/Radius.lean`  
Modelled: vortex_properties.py on cells with optional values; scipy's label is a parameter with the specification `IsLabel` (labels = connected parts by edges), shown to exist. Criteria (vorticities) are given. Not modelled: drawings, the unit of the circulation out of zones, nan inside a property. Proof: zones are connected parts for reflexive transitive closure, weighted moments, induction on Simpson's rule.  
Theorems: `C161_barycentre`, `C161_within`.

### C162 — A vortex property is an integral on the zone of the vortex

*partial.* `lean/Verif/Zone/Value.lean`  
Modelled: vortex_properties.py on cells with optional values; scipy's label is a parameter with the specification `IsLabel` (labels = connected parts by edges), shown to exist. Criteria (vorticities) are given. Not modelled: drawings, the unit of the circulation out of zones, nan inside a property. Proof: zones are connected parts for reflexive transitive closure, weighted moments, induction on Simpson's rule.  
Proved: dependence on the zone only, proportionality, bounds 1/9 and 16/9 of the sum. Violated: Simpson's rule on a masked field weighs cells by parity; a point at rest (the centre of a vortex) is refused.  
Theorems: `C162_bounds_partial`, `C162_only_zone`, `C162_scale`, `C162_rest_violated`, `C162_parity_violated`.

### C163 — The circulation of a vortex is the flux of vorticity through its zone

*partial.* `lean/Verif/Zone/Value.lean`  
Modelled: vortex_properties.py on cells with optional values; scipy's label is a parameter with the specification `IsLabel` (labels = connected parts by edges), shown to exist. Criteria (vorticities) are given. Not modelled: drawings, the unit of the circulation out of zones, nan inside a property. Proof: zones are connected parts for reflexive transitive closure, weighted moments, induction on Simpson's rule.  
Violated only for touching vortices of opposite signs, which are one zone.  
Theorems: `C163_zone`, `C163_out`, `C163_scale`, `C163_grows`, `C163_dipole_violated`.

### C164 — Vortex evolutions follow the trajectory

*partial.* `lean/Verif/Zone/Value.lean`  
Modelled: vortex_properties.py on cells with optional values; scipy's label is a parameter with the specification `IsLabel` (labels = connected parts by edges), shown to exist. Criteria (vorticities) are given. Not modelled: drawings, the unit of the circulation out of zones, nan inside a property. Proof: zones are connected parts for reflexive transitive closure, weighted moments, induction on Simpson's rule.  
Violated: radii are masked when zero, which never happens.  
Theorems: `C164_radius`, `C164_missing`, `C164_mask_violated`, `C164_property`, `C164_nothing`.

### C165 — The flat plate layer grows as theory says

*partial.* `lean/Verif/Bl/Blasius.lean`  
Modelled: boundary_layer.py. Analytic layers at the reals (Model.lean): Blasius properties, Falkner-Skan profiles with the solution of the differential system as a parameter, the shooting method with the response as a parameter, Thwaites' integral (the exact integral instead of scipy's quadrature), wall and wake laws. Measured profiles at the rationals (Thick.lean), on the Profile model. Not modelled: the integration of ordinary differential equations and quadratures by scipy, the logarithmic wall law fit, drawings. Proof: derivatives of similar solutions, the fundamental theorem of calculus, an invariant of the bracket of the shooting method, sums over trapezia. FieldModel.lean/OnField.lean: Blasius profiles and their confinement (C334), thicknesses of fields and separation position (C335, C336). ClauserModel.lean/Clauser.lean: Clauser's thickness of profiles and fields (C361), on top of the thicknesses of C36.  
Momentum balance proved in the laminar part only; violated in the turbulent part, where the momentum and displacement thicknesses are zero.  
Theorems: `C165_pointwise`, `C165_laminar`, `C165_turbulent`, `C165_grows`, `C165_karman_partial`, `C165_karman_violated`, `C165_percent`, `C165_refused`.

### C166 — The position is found back from the thickness

*partial.* `lean/Verif/Bl/Blasius.lean`  
Modelled: boundary_layer.py. Analytic layers at the reals (Model.lean): Blasius properties, Falkner-Skan profiles with the solution of the differential system as a parameter, the shooting method with the response as a parameter, Thwaites' integral (the exact integral instead of scipy's quadrature), wall and wake laws. Measured profiles at the rationals (Thick.lean), on the Profile model. Not modelled: the integration of ordinary differential equations and quadratures by scipy, the logarithmic wall law fit, drawings. Proof: derivatives of similar solutions, the fundamental theorem of calculus, an invariant of the bracket of the shooting method, sums over trapezia. FieldModel.lean/OnField.lean: Blasius profiles and their confinement (C334), thicknesses of fields and separation position (C335, C336). ClauserModel.lean/Clauser.lean: Clauser's thickness of profiles and fields (C361), on top of the thicknesses of C36.  
Proved in the turbulent part. Violated in the laminar part, where the constant 4.92 is used instead of 4.91, and at the transition, where a thicker layer may be located upstream.  
Theorems: `C166_turbulent_partial`, `C166_laminar_violated`, `C166_monotone_violated`.

### C167 — A confined layer fits in the water

*partial.* `lean/Verif/Bl/Blasius.lean`  
Modelled: boundary_layer.py. Analytic layers at the reals (Model.lean): Blasius properties, Falkner-Skan profiles with the solution of the differential system as a parameter, the shooting method with the response as a parameter, Thwaites' integral (the exact integral instead of scipy's quadrature), wall and wake laws. Measured profiles at the rationals (Thick.lean), on the Profile model. Not modelled: the integration of ordinary differential equations and quadratures by scipy, the logarithmic wall law fit, drawings. Proof: derivatives of similar solutions, the fundamental theorem of calculus, an invariant of the bracket of the shooting method, sums over trapezia. FieldModel.lean/OnField.lean: Blasius profiles and their confinement (C334), thicknesses of fields and separation position (C335, C336). ClauserModel.lean/Clauser.lean: Clauser's thickness of profiles and fields (C361), on top of the thicknesses of C36.  
Proved: upper bounds, limit, and positivity for layers thinner than the depth. Violated: thick layers get a negative thickness.  
Theorems: `C167_confined_partial`, `C167_negative_violated`.

### C168 — Similar profiles obey the boundary layer equations

*partial.* `lean/Verif/Bl/Falkner.lean`  
Modelled: boundary_layer.py. Analytic layers at the reals (Model.lean): Blasius properties, Falkner-Skan profiles with the solution of the differential system as a parameter, the shooting method with the response as a parameter, Thwaites' integral (the exact integral instead of scipy's quadrature), wall and wake laws. Measured profiles at the rationals (Thick.lean), on the Profile model. Not modelled: the integration of ordinary differential equations and quadratures by scipy, the logarithmic wall law fit, drawings. Proof: derivatives of similar solutions, the fundamental theorem of calculus, an invariant of the bracket of the shooting method, sums over trapezia. FieldModel.lean/OnField.lean: Blasius profiles and their confinement (C334), thicknesses of fields and separation position (C335, C336). ClauserModel.lean/Clauser.lean: Clauser's thickness of profiles and fields (C361), on top of the thicknesses of C36.  
Equations proved for every pressure gradient. Violated: get_mu multiplies by sqrt((m+1)/2) with respect to the inverse of get_y.  
Theorems: `C168_y`, `C168_prandtl`, `C168_blasius`, `C168_inverse_violated`.

### C169 — The shooting method finds the wall slope within the wanted accuracy

*partial.* `lean/Verif/Bl/Falkner.lean`  
Modelled: boundary_layer.py. Analytic layers at the reals (Model.lean): Blasius properties, Falkner-Skan profiles with the solution of the differential system as a parameter, the shooting method with the response as a parameter, Thwaites' integral (the exact integral instead of scipy's quadrature), wall and wake laws. Measured profiles at the rationals (Thick.lean), on the Profile model. Not modelled: the integration of ordinary differential equations and quadratures by scipy, the logarithmic wall law fit, drawings. Proof: derivatives of similar solutions, the fundamental theorem of calculus, an invariant of the bracket of the shooting method, sums over trapezia. FieldModel.lean/OnField.lean: Blasius profiles and their confinement (C334), thicknesses of fields and separation position (C335, C336). ClauserModel.lean/Clauser.lean: Clauser's thickness of profiles and fields (C361), on top of the thicknesses of C36.  
Proved: position between the guesses, exact for affine responses, and with messages the stopping rule, which also stops when two shots are close. Violated: without messages the accuracy is ignored.  
Theorems: `C169_between`, `C169_affine`, `C169_tolerance_violated`, `C169_verbose_violated`, `C169_stops_partial`.

### C170 — Thwaites' method integrates the momentum equation

*partial.* `lean/Verif/Bl/Laws.lean`  
Modelled: boundary_layer.py. Analytic layers at the reals (Model.lean): Blasius properties, Falkner-Skan profiles with the solution of the differential system as a parameter, the shooting method with the response as a parameter, Thwaites' integral (the exact integral instead of scipy's quadrature), wall and wake laws. Measured profiles at the rationals (Thick.lean), on the Profile model. Not modelled: the integration of ordinary differential equations and quadratures by scipy, the logarithmic wall law fit, drawings. Proof: derivatives of similar solutions, the fundamental theorem of calculus, an invariant of the bracket of the shooting method, sums over trapezia. FieldModel.lean/OnField.lean: Blasius profiles and their confinement (C334), thicknesses of fields and separation position (C335, C336). ClauserModel.lean/Clauser.lean: Clauser's thickness of profiles and fields (C361), on top of the thicknesses of C36.  
Violated: the derivative of the outer velocity in the pressure gradient parameter ignores the spacing of the positions.  
Theorems: `C170_equation`, `C170_plate`, `C170_power`, `C170_rest`, `C170_shape`, `C170_displacement`, `C170_lambda_violated`.

### C171 — Wall laws give the velocity above a wall

*partial.* `lean/Verif/Bl/Laws.lean`  
Modelled: boundary_layer.py. Analytic layers at the reals (Model.lean): Blasius properties, Falkner-Skan profiles with the solution of the differential system as a parameter, the shooting method with the response as a parameter, Thwaites' integral (the exact integral instead of scipy's quadrature), wall and wake laws. Measured profiles at the rationals (Thick.lean), on the Profile model. Not modelled: the integration of ordinary differential equations and quadratures by scipy, the logarithmic wall law fit, drawings. Proof: derivatives of similar solutions, the fundamental theorem of calculus, an invariant of the bracket of the shooting method, sums over trapezia. FieldModel.lean/OnField.lean: Blasius profiles and their confinement (C334), thicknesses of fields and separation position (C335, C336). ClauserModel.lean/Clauser.lean: Clauser's thickness of profiles and fields (C361), on top of the thicknesses of C36.  
Violated: the velocity drops when leaving the viscous sublayer, and beyond the edge when the edge is in the logarithmic region.  
Theorems: `C171_domain`, `C171_sublayer`, `C171_log`, `C171_outside_partial`, `C171_edge_violated`, `C171_increasing_violated`, `C171_wake`, `C171_rest`.

### C172 — The thickness is where the velocity reaches its part of the largest one

*partial.* `lean/Verif/Bl/Reach.lean`  
Modelled: boundary_layer.py. Analytic layers at the reals (Model.lean): Blasius properties, Falkner-Skan profiles with the solution of the differential system as a parameter, the shooting method with the response as a parameter, Thwaites' integral (the exact integral instead of scipy's quadrature), wall and wake laws. Measured profiles at the rationals (Thick.lean), on the Profile model. Not modelled: the integration of ordinary differential equations and quadratures by scipy, the logarithmic wall law fit, drawings. Proof: derivatives of similar solutions, the fundamental theorem of calculus, an invariant of the bracket of the shooting method, sums over trapezia. FieldModel.lean/OnField.lean: Blasius profiles and their confinement (C334), thicknesses of fields and separation position (C335, C336). ClauserModel.lean/Clauser.lean: Clauser's thickness of profiles and fields (C361), on top of the thicknesses of C36.  
First place proved when no stored velocity is exactly the wanted one, existence without masked points. Violated: stored exact values hide earlier crossings; profiles that start above the wanted velocity, or whose crossing is masked, raise IndexError.  
Theorems: `C172_reached`, `C172_first_partial`, `C172_stored`, `C172_first_violated`, `C172_exists_partial`, `C172_uniform_violated`, `C172_gap_violated`, `C172_masked`, `C172_scale`.

### C173 — Displacement and momentum thicknesses are the integrals of the deficit

*partial.* `lean/Verif/Bl/Layer.lean`  
Modelled: boundary_layer.py. Analytic layers at the reals (Model.lean): Blasius properties, Falkner-Skan profiles with the solution of the differential system as a parameter, the shooting method with the response as a parameter, Thwaites' integral (the exact integral instead of scipy's quadrature), wall and wake laws. Measured profiles at the rationals (Thick.lean), on the Profile model. Not modelled: the integration of ordinary differential equations and quadratures by scipy, the logarithmic wall law fit, drawings. Proof: derivatives of similar solutions, the fundamental theorem of calculus, an invariant of the bracket of the shooting method, sums over trapezia. FieldModel.lean/OnField.lean: Blasius profiles and their confinement (C334), thicknesses of fields and separation position (C335, C336). ClauserModel.lean/Clauser.lean: Clauser's thickness of profiles and fields (C361), on top of the thicknesses of C36.  
Formula proved with the largest velocity stored below the edge. Violated: that velocity is used instead of the one outside, so the displacement thickness is too small by at least 1/19 of the velocity integral; a masked point in the layer gives NaN.  
Theorems: `C173_formula_partial`, `C173_order`, `C173_flow`, `C173_masked_violated`, `C173_normal_violated`, `C173_scale`.

### C174 — The shape factor is the quotient of the thicknesses

*partial.* `lean/Verif/Bl/Layer.lean`  
Modelled: boundary_layer.py. Analytic layers at the reals (Model.lean): Blasius properties, Falkner-Skan profiles with the solution of the differential system as a parameter, the shooting method with the response as a parameter, Thwaites' integral (the exact integral instead of scipy's quadrature), wall and wake laws. Measured profiles at the rationals (Thick.lean), on the Profile model. Not modelled: the integration of ordinary differential equations and quadratures by scipy, the logarithmic wall law fit, drawings. Proof: derivatives of similar solutions, the fundamental theorem of calculus, an invariant of the bracket of the shooting method, sums over trapezia. FieldModel.lean/OnField.lean: Blasius profiles and their confinement (C334), thicknesses of fields and separation position (C335, C336). ClauserModel.lean/Clauser.lean: Clauser's thickness of profiles and fields (C361), on top of the thicknesses of C36.  
Violated: ZeroDivisionError for a masked profile (and NaN for a masked point in the layer, C173_masked_violated).  
Theorems: `C174_shape`, `C174_scale`, `C174_masked_violated`.

### C175 — The shear stress is the viscosity times the slope

*partial.* `lean/Verif/Bl/Shear.lean`  
Modelled: boundary_layer.py. Analytic layers at the reals (Model.lean): Blasius properties, Falkner-Skan profiles with the solution of the differential system as a parameter, the shooting method with the response as a parameter, Thwaites' integral (the exact integral instead of scipy's quadrature), wall and wake laws. Measured profiles at the rationals (Thick.lean), on the Profile model. Not modelled: the integration of ordinary differential equations and quadratures by scipy, the logarithmic wall law fit, drawings. Proof: derivatives of similar solutions, the fundamental theorem of calculus, an invariant of the bracket of the shooting method, sums over trapezia. FieldModel.lean/OnField.lean: Blasius profiles and their confinement (C334), thicknesses of fields and separation position (C335, C336). ClauserModel.lean/Clauser.lean: Clauser's thickness of profiles and fields (C361), on top of the thicknesses of C36.  
Violated: a masked point between two shown ones gets a stress. Not modelled: the logarithmic law, respace, scalar fields.  
Theorems: `C175_simple`, `C175_affine`, `C175_pascal`, `C175_masked_violated`, `C175_uneven`, `C175_lin`, `C175_refused`.

### C176 — The trajectory of a film is the sum of its transforms

*proved.* `lean/Verif/Stab/Motion.lean`  
Modelled: stabilize.py: the loop over the frames, trajectories, smoothing, axes, borders, the transform of the pixels, the tracking of points, the state of a Stabilizer. Opencv (features, optical flow, estimation, interpolation) and the gaussian filter are parameters. Not modelled: byte conversion, display. Proof: induction on the frames, running sums, rotations over the reals, histories.  
Theorems: `C176_running`, `C176_continuous`, `C176_from_first`, `C176_found`.

### C177 — Tracked points move with the picture

*partial.* `lean/Verif/Stab/Motion.lean`  
Modelled: stabilize.py: the loop over the frames, trajectories, smoothing, axes, borders, the transform of the pixels, the tracking of points, the state of a Stabilizer. Opencv (features, optical flow, estimation, interpolation) and the gaussian filter are parameters. Not modelled: byte conversion, display. Proof: induction on the frames, running sums, rotations over the reals, histories.  
Exact in mode 'continuous' when the estimated motions are rotations and translations (C177_follows_partial), in mode 'from_first' when nothing turns. Violated: the scale of an estimate is dropped; in mode 'from_first' a picture shifted then turned is tracked wrongly.  
Theorems: `C177_refused`, `C177_places`, `C177_rigid`, `C177_translation`, `C177_follows_partial`, `C177_zoom_violated`, `C177_first_partial`, `C177_first_violated`.

### C178 — The stabilised film keeps times, units and coordinates

*partial.* `lean/Verif/Stab/Film.lean`  
Modelled: stabilize.py: the loop over the frames, trajectories, smoothing, axes, borders, the transform of the pixels, the tracking of points, the state of a Stabilizer. Opencv (features, optical flow, estimation, interpolation) and the gaussian filter are parameters. Not modelled: byte conversion, display. Proof: induction on the frames, running sums, rotations over the reals, histories.  
y axis right when the x step is not larger than the y step. Violated otherwise: the end of the y axis is computed with the x step, so the axis is longer than the pictures.  
Theorems: `C178_film_partial`, `C178_axis_violated`, `C178_first`.

### C179 — The stabilised picture follows the smoothed trajectory

*partial.* `lean/Verif/Stab/Cases.lean`, `lean/Verif/Stab/Film.lean`  
Modelled: stabilize.py: the loop over the frames, trajectories, smoothing, axes, borders, the transform of the pixels, the tracking of points, the state of a Stabilizer. Opencv (features, optical flow, estimation, interpolation) and the gaussian filter are parameters. Not modelled: byte conversion, display. Proof: induction on the frames, running sums, rotations over the reals, histories.  
Proved: the detail is shown at the smoothed trajectory plus the last frame to frame displacement, without rotation. Violated: the transform applied is raw + smoothed - trajectory instead of smoothed - trajectory, so the shaking is left in.  
Theorems: `C179_example`, `C179_residual_partial`, `C179_residual_violated`.

### C180 — The border does not change the stabilisation

*partial.* `lean/Verif/Stab/Film.lean`  
Modelled: stabilize.py: the loop over the frames, trajectories, smoothing, axes, borders, the transform of the pixels, the tracking of points, the state of a Stabilizer. Opencv (features, optical flow, estimation, interpolation) and the gaussian filter are parameters. Not modelled: byte conversion, display. Proof: induction on the frames, running sums, rotations over the reals, histories.  
Proved when the picture does not turn. Violated: with a border, rotations are made around the corner of the widened picture.  
Theorems: `C180_border_partial`, `C180_place`, `C180_border_violated`.

### C181 — Stabilizing again gives the same film

*partial.* `lean/Verif/Stab/Film.lean`  
Modelled: stabilize.py: the loop over the frames, trajectories, smoothing, axes, borders, the transform of the pixels, the tracking of points, the state of a Stabilizer. Opencv (features, optical flow, estimation, interpolation) and the gaussian filter are parameters. Not modelled: byte conversion, display. Proof: induction on the frames, running sums, rotations over the reals, histories.  
Violated for the steps made by hand: computing new transforms leaves the old smoothed ones in use.  
Theorems: `C181_history`, `C181_order`, `C181_unchanged`, `C181_stale_violated`.

### C182 — A displaced particle has travelled for the time asked, or has left

*proved.* `lean/Verif/Ftle/Travel.lean`  
Modelled: FTLE/ftle.py: the Runge-Kutta-Fehlberg steps, step size control, the displacement loop (with a number of rounds as fuel, C182_rounds shows it does not matter), the grid of particles, gradients, the largest eigenvalue and the masking. The interpolated velocity is an arbitrary function of the plane. Not modelled: interpolation by scipy, rounding. Proof: fold of steps, induction on the rounds, Taylor polynomials, exponential bounds, Rayleigh quotient. CloudModel.lean/Cloud.lean: field of displaced points (C377).  
Theorems: `C182_time`, `C182_refused`, `C182_rounds`.

### C183 — In a uniform flow particles travel by velocity times time

*partial.* `lean/Verif/Ftle/Travel.lean`  
Modelled: FTLE/ftle.py: the Runge-Kutta-Fehlberg steps, step size control, the displacement loop (with a number of rounds as fuel, C182_rounds shows it does not matter), the grid of particles, gradients, the largest eigenvalue and the masking. The interpolated velocity is an arbitrary function of the plane. Not modelled: interpolation by scipy, rounding. Proof: fold of steps, induction on the rounds, Taylor polynomials, exponential bounds, Rayleigh quotient. CloudModel.lean/Cloud.lean: field of displaced points (C377).  
Violated: with dampl = 1, which is accepted, the step is multiplied by 1 - dampl = 0 after the first step in a uniform flow and the loop never ends. Proved for every damping below 1.  
Theorems: `C183_uniform_partial`, `C183_back`, `C183_rest`, `C183_reverse`, `C183_endless_violated`.

### C184 — A displacement step is accurate to the fourth order

*partial.* `lean/Verif/Ftle/Control.lean`, `lean/Verif/Ftle/Travel.lean`  
Modelled: FTLE/ftle.py: the Runge-Kutta-Fehlberg steps, step size control, the displacement loop (with a number of rounds as fuel, C182_rounds shows it does not matter), the grid of particles, gradients, the largest eigenvalue and the masking. The interpolated velocity is an arbitrary function of the plane. Not modelled: interpolation by scipy, rounding. Proof: fold of steps, induction on the rounds, Taylor polynomials, exponential bounds, Rayleigh quotient. CloudModel.lean/Cloud.lean: field of displaced points (C377).  
Proved: fourth and fifth order Taylor polynomials of both estimates in linear flows, explicit bounds, and the step control. Violated: the next step is NaN for a particle at rest and infinite where both estimates agree.  
Theorems: `C184_fifth`, `C184_estimate`, `C184_control`, `C184_control_violated`, `C184_linear`, `C184_centre`, `C184_spiral`, `C184_rotation`.

### C185 — The FTLE particles are a regular grid of the resolution asked, inside the field

*partial.* `lean/Verif/Ftle/Exponent.lean`  
Modelled: FTLE/ftle.py: the Runge-Kutta-Fehlberg steps, step size control, the displacement loop (with a number of rounds as fuel, C182_rounds shows it does not matter), the grid of particles, gradients, the largest eigenvalue and the masking. The interpolated velocity is an arbitrary function of the plane. Not modelled: interpolation by scipy, rounding. Proof: fold of steps, induction on the rounds, Taylor polynomials, exponential bounds, Rayleigh quotient. CloudModel.lean/Cloud.lean: field of displaced points (C377).  
Proved: regular, inside, from half a spacing to less than a spacing of the end. Violated: the spacing used is half the diagonal of the cell, the same along both axes, so in a square field there are more points than asked.  
Theorems: `C185_points`, `C185_number_violated`.

### C186 — The FTLE is the largest stretching rate of the flow

*partial.* `lean/Verif/Ftle/Exponent.lean`  
Modelled: FTLE/ftle.py: the Runge-Kutta-Fehlberg steps, step size control, the displacement loop (with a number of rounds as fuel, C182_rounds shows it does not matter), the grid of particles, gradients, the largest eigenvalue and the masking. The interpolated velocity is an arbitrary function of the plane. Not modelled: interpolation by scipy, rounding. Proof: fold of steps, induction on the rounds, Taylor polynomials, exponential bounds, Rayleigh quotient. CloudModel.lean/Cloud.lean: field of displaced points (C377).  
Proved: the value is the logarithm of the largest stretching (greatest over the unit vectors), the masking rule. Violated: gradients are taken with the spacing asked while the particles are at another spacing, so the exponent of a uniform flow is not zero; for equal spacings the value is off by log 2 / (2 |dt|), which is what C186_affine_partial proves.  
Theorems: `C186_stretch`, `C186_masked`, `C186_affine_partial`, `C186_uniform_violated`.

### C187 — Profiles of a field follow its grid lines

*partial.* `lean/Verif/Line/Section.lean`  
Modelled: get_profile of ScalarField (positions, indices, intervals, 'all', interpolation), integrate_over_line, integrate_over_surface (through crop) and export_to_scatter. Not modelled: rounding, cubic or other interpolators. Proof: positions of increasing lists (Inc), the profiles are described by the relation Along against what the field shows (Sees), sums of means.  
Proved for positions, indices, intervals and 'all'. Violated: interp='nearest' raises NameError on a field with one line only; intervals of indices (and 'all' with ind=True) never give a profile.  
Theorems: `C187_grid`, `C187_between`, `C187_refused`, `C187_index`, `C187_nearest_partial`, `C187_nearest_violated`, `C187_interval`, `C187_all`, `C187_indices_violated`.

### C188 — The integral over a line is the area under the mean profile

*partial.* `lean/Verif/Line/Sum.lean`  
Modelled: get_profile of ScalarField (positions, indices, intervals, 'all', interpolation), integrate_over_line, integrate_over_surface (through crop) and export_to_scatter. Not modelled: rounding, cubic or other interpolators. Proof: positions of increasing lists (Inc), the profiles are described by the relation Along against what the field shows (Sees), sums of means.  
Violated: for lines of constant x the unit is that of the wrong axis.  
Theorems: `C188_area`, `C188_exact`, `C188_refused`, `C188_unit_partial`, `C188_unit_violated`.

### C189 — The integral over a surface is the mean times the area

*partial.* `lean/Verif/Line/Sum.lean`  
Modelled: get_profile of ScalarField (positions, indices, intervals, 'all', interpolation), integrate_over_line, integrate_over_surface (through crop) and export_to_scatter. Not modelled: rounding, cubic or other interpolators. Proof: positions of increasing lists (Inc), the profiles are described by the relation Along against what the field shows (Sees), sums of means.  
Violated: the integral is not additive over windows (plain mean times extents).  
Theorems: `C189_mean`, `C189_exact`, `C189_bounds`, `C189_masked`, `C189_whole`, `C189_additive_violated`.

### C190 — Export to scattered points keeps exactly the visible values

*partial.* `lean/Verif/Line/Sum.lean`  
Modelled: get_profile of ScalarField (positions, indices, intervals, 'all', interpolation), integrate_over_line, integrate_over_surface (through crop) and export_to_scatter. Not modelled: rounding, cubic or other interpolators. Proof: positions of increasing lists (Inc), the profiles are described by the relation Along against what the field shows (Sees), sums of means.  
Violated: a field whose points are all masked raises TypeError.  
Theorems: `C190_scatter`, `C190_refused`, `C190_masked_violated`.

### C191 — Histograms count each value once

*partial.* `lean/Verif/Stat/Hist.lean`  
Modelled: get_histogram with numpy's binning, get_auto_correlation, get_spatial_autocorrelation and get_norm (over the reals). Not modelled: rounding. Proof: counting over Finsets of grid points, floor lemmas, Cauchy-Schwarz and Minkowski inequalities.  
Violated: the abscissae are shifted by the start of the range; a cumulated density does not end at one; without given range a masked point makes it fail.  
Theorems: `C191_counts`, `C191_total`, `C191_cumulative`, `C191_density`, `C191_cumulative_density_violated`, `C191_positions_partial`, `C191_positions_violated`, `C191_masked_violated`, `C191_refused`.

### C192 — The auto-correlation is one at lag zero

*partial.* `lean/Verif/Stat/Corr.lean`  
Modelled: get_histogram with numpy's binning, get_auto_correlation, get_spatial_autocorrelation and get_norm (over the reals). Not modelled: rounding. Proof: counting over Finsets of grid points, floor lemmas, Cauchy-Schwarz and Minkowski inequalities.  
Violated: the last value of the profile is never used; the lags start at zero instead of being centred; a line without energy makes the mean of a field NaN.  
Theorems: `C192_values`, `C192_centre`, `C192_scale`, `C192_bound`, `C192_refused`, `C192_last_violated`, `C192_lag_violated`, `C192_field`, `C192_zero_line_violated`.

### C193 — The norm of a field is a norm

*partial.* `lean/Verif/Stat/Norm.lean`  
Modelled: get_histogram with numpy's binning, get_auto_correlation, get_spatial_autocorrelation and get_norm (over the reals). Not modelled: rounding. Proof: counting over Finsets of grid points, floor lemmas, Cauchy-Schwarz and Minkowski inequalities.  
Proved: value, zero, homogeneity, bound, triangle inequality. Violated: the norm per point of a constant field c on n points is |c| n^(1/p-1).  
Theorems: `C193_norm`, `C193_zero`, `C193_bound`, `C193_scale`, `C193_triangle`, `C193_triangle_perpoint`, `C193_perpoint_violated`.

### C194 — Mirroring a scalar field completes it with its mirror image

*partial.* `lean/Verif/Mirror/Props.lean`  
Modelled: ScalarField.mirroring and VectorField.mirroring without interp or with interp='value' (trim, crop, extension, the loop over the points reading the field being filled). Not modelled: interp='linear' and 'nearest', rounding. Proof: on an even axis the mirror is an involution of the indices of the extended field; invariant of the loop over a list of distinct indices; both components have the same masked points, hence the same axes.  
Proved: kept values (any mirror position); every reading, and which lines are mirrored, on an even axis with the mirror on a line or halfway between two lines. Violated: 'all' mirrors all lines but one; with masked first lines fewer lines than asked are mirrored.  
Theorems: `C194_keeps`, `C194_values`, `C194_fill`, `C194_middle`, `C194_lines_before`, `C194_lines_after`, `C194_all_violated`, `C194_masked_violated`, `C194_defined`.

### C195 — Mirroring a vector field mirrors both components consistently

*proved.* `lean/Verif/Mirror/Vec.lean`  
Modelled: ScalarField.mirroring and VectorField.mirroring without interp or with interp='value' (trim, crop, extension, the loop over the points reading the field being filled). Not modelled: interp='linear' and 'nearest', rounding. Proof: on an even axis the mirror is an involution of the indices of the extended field; invariant of the loop over a list of distinct indices; both components have the same masked points, hence the same axes.  
Proved: kept vectors (any mirror position); every reading, and which lines are mirrored, on an even axis with the mirror on a line or halfway between two lines. 'all' mirrors all lines but one, as for C194.  
Theorems: `C195_keeps`, `C195_values`, `C195_lines_before`, `C195_lines_after`, `C195_fill`, `C195_defined`.

### C196 — The mean of a record of vector fields averages what is seen

*partial.* `lean/Verif/Turb/Props.lean`  
Modelled: get_mean_field, get_fluctuant_fields, get_mean_kinetic_energy, get_tke, get_mean_tke, get_reynolds_stress, get_time_auto_correlation of TemporalVectorFields, get_fluctuant_fields of TemporalScalarFields, get_turbulent_intensity with the square root and the magnitude as parameters. Not modelled: rounding; the order of equal times depends on the sorting function, a parameter (IsArgsort). Proof: specification of each field operation cell by cell (OnV, OnS), sums over the fields by induction, energy balance and Cauchy-Schwarz by algebra.  
Proved: the mean of the vectors shown. Violated: with exactly nmb_min vectors the mean is masked; more than nmb_min are needed.  
Theorems: `C196_mean_partial`, `C196_limit_violated`.

### C197 — Fluctuations of velocity are the deviations from the mean

*proved.* `lean/Verif/Turb/Props.lean`  
Modelled: get_mean_field, get_fluctuant_fields, get_mean_kinetic_energy, get_tke, get_mean_tke, get_reynolds_stress, get_time_auto_correlation of TemporalVectorFields, get_fluctuant_fields of TemporalScalarFields, get_turbulent_intensity with the square root and the magnitude as parameters. Not modelled: rounding; the order of equal times depends on the sorting function, a parameter (IsArgsort). Proof: specification of each field operation cell by cell (OnV, OnS), sums over the fields by induction, energy balance and Cauchy-Schwarz by algebra.  
Theorems: `C197_fluctuations`, `C197_zero_sum`.

### C198 — Kinetic energy splits into mean and turbulent parts

*proved.* `lean/Verif/Turb/Props.lean`  
Modelled: get_mean_field, get_fluctuant_fields, get_mean_kinetic_energy, get_tke, get_mean_tke, get_reynolds_stress, get_time_auto_correlation of TemporalVectorFields, get_fluctuant_fields of TemporalScalarFields, get_turbulent_intensity with the square root and the magnitude as parameters. Not modelled: rounding; the order of equal times depends on the sorting function, a parameter (IsArgsort). Proof: specification of each field operation cell by cell (OnV, OnS), sums over the fields by induction, energy balance and Cauchy-Schwarz by algebra.  
Theorems: `C198_tke`, `C198_means`, `C198_balance`.

### C199 — Reynolds stresses are the covariances of the velocity

*partial.* `lean/Verif/Turb/Props.lean`  
Modelled: get_mean_field, get_fluctuant_fields, get_mean_kinetic_energy, get_tke, get_mean_tke, get_reynolds_stress, get_time_auto_correlation of TemporalVectorFields, get_fluctuant_fields of TemporalScalarFields, get_turbulent_intensity with the square root and the magnitude as parameters. Not modelled: rounding; the order of equal times depends on the sorting function, a parameter (IsArgsort). Proof: specification of each field operation cell by cell (OnV, OnS), sums over the fields by induction, energy balance and Cauchy-Schwarz by algebra.  
Proved with the strict threshold of the code (more than nmb_val_min and at least two vectors). Violated: with nmb_val_min = 0 a point seen once is masked.  
Theorems: `C199_stresses_partial`, `C199_realizable`, `C199_single_violated`.

### C200 — The time auto-correlation starts at one

*partial.* `lean/Verif/Turb/Corr.lean`  
Modelled: get_mean_field, get_fluctuant_fields, get_mean_kinetic_energy, get_tke, get_mean_tke, get_reynolds_stress, get_time_auto_correlation of TemporalVectorFields, get_fluctuant_fields of TemporalScalarFields, get_turbulent_intensity with the square root and the magnitude as parameters. Not modelled: rounding; the order of equal times depends on the sorting function, a parameter (IsArgsort). Proof: specification of each field operation cell by cell (OnV, OnS), sums over the fields by induction, energy balance and Cauchy-Schwarz by algebra.  
Proved for records without masked points. Violated: one masked point in the first field makes every correlation NaN.  
Theorems: `C200_correlation_partial`, `C200_first`, `C200_bound`, `C200_masked_violated`.

### C201 — Fluctuations of scalars are the deviations from the mean

*proved.* `lean/Verif/Turb/Scal.lean`  
Modelled: get_mean_field, get_fluctuant_fields, get_mean_kinetic_energy, get_tke, get_mean_tke, get_reynolds_stress, get_time_auto_correlation of TemporalVectorFields, get_fluctuant_fields of TemporalScalarFields, get_turbulent_intensity with the square root and the magnitude as parameters. Not modelled: rounding; the order of equal times depends on the sorting function, a parameter (IsArgsort). Proof: specification of each field operation cell by cell (OnV, OnS), sums over the fields by induction, energy balance and Cauchy-Schwarz by algebra.  
Theorems: `C201_fluctuations`, `C201_zero_sum`.

### C202 — The turbulent intensity is available for every record

*partial.* `lean/Verif/Turb/Scal.lean`  
Modelled: get_mean_field, get_fluctuant_fields, get_mean_kinetic_energy, get_tke, get_mean_tke, get_reynolds_stress, get_time_auto_correlation of TemporalVectorFields, get_fluctuant_fields of TemporalScalarFields, get_turbulent_intensity with the square root and the magnitude as parameters. Not modelled: rounding; the order of equal times depends on the sorting function, a parameter (IsArgsort). Proof: specification of each field operation cell by cell (OnV, OnS), sums over the fields by induction, energy balance and Cauchy-Schwarz by algebra.  
Violated: for every record of two fields or more the method raises an exception.  
Theorems: `C202_raises_violated`.

### C203 — The history at a point is what each field shows there

*proved.* `lean/Verif/Trace/Props.lean`  
Modelled: get_time_profile and inject_time_profile (position, indices, Points), mask_cum, crop_masked_border, extend and mirroring of TemporalFields on scalar fields. Not modelled: rounding, vector fields in these methods. Proof: nearest grid point by C02, cell by cell descriptions of the fields; the cumulated mask is seen as a scalar field on which C19 applies; termination by the number of lines; C14 and C194 for every field. SpecModel.lean/Spectra.lean: temporal spectra over areas, maps of the main frequencies and temporal filtering, with the spectrum of a profile as parameter (C347-C349): sums over the nodes of a rectangle, selection of the highest entries as permutations, induction over the nodes of a loop that reads and writes the same fields. VecSpecModel.lean/VecSpectra.lean: temporal filtering of vector fields (C357). MaskModel.lean/Mask.lean: masks given as fields (C384); specification `Tells`.  
Theorems: `C203_profile`, `C203_refused`, `C203_index`.

### C204 — The history along a trajectory follows the trajectory

*partial.* `lean/Verif/Trace/Props.lean`  
Modelled: get_time_profile and inject_time_profile (position, indices, Points), mask_cum, crop_masked_border, extend and mirroring of TemporalFields on scalar fields. Not modelled: rounding, vector fields in these methods. Proof: nearest grid point by C02, cell by cell descriptions of the fields; the cumulated mask is seen as a scalar field on which C19 applies; termination by the number of lines; C14 and C194 for every field. SpecModel.lean/Spectra.lean: temporal spectra over areas, maps of the main frequencies and temporal filtering, with the spectrum of a profile as parameter (C347-C349): sums over the nodes of a rectangle, selection of the highest entries as permutations, induction over the nodes of a loop that reads and writes the same fields. VecSpecModel.lean/VecSpectra.lean: temporal filtering of vector fields (C357). MaskModel.lean/Mask.lean: masks given as fields (C384); specification `Tells`.  
Proved without a time interval, for points given at the times of the fields. Violated: when the interval leaves the first time out, each field is read at the position of the preceding time.  
Theorems: `C204_follow_partial`, `C204_interval_violated`.

### C205 — A history can be written back in the fields

*partial.* `lean/Verif/Trace/Props.lean`  
Modelled: get_time_profile and inject_time_profile (position, indices, Points), mask_cum, crop_masked_border, extend and mirroring of TemporalFields on scalar fields. Not modelled: rounding, vector fields in these methods. Proof: nearest grid point by C02, cell by cell descriptions of the fields; the cumulated mask is seen as a scalar field on which C19 applies; termination by the number of lines; C14 and C194 for every field. SpecModel.lean/Spectra.lean: temporal spectra over areas, maps of the main frequencies and temporal filtering, with the spectrum of a profile as parameter (C347-C349): sums over the nodes of a rectangle, selection of the highest entries as permutations, induction over the nodes of a loop that reads and writes the same fields. VecSpecModel.lean/VecSpectra.lean: temporal filtering of vector fields (C357). MaskModel.lean/Mask.lean: masks given as fields (C384); specification `Tells`.  
Proved for fields not masked at the point. Violated: at a masked point the value is lost; a masked value of the profile leaves a NaN that is not masked; a Points object is always refused (unbound name).  
Theorems: `C205_inject_partial`, `C205_readback`, `C205_roundtrip`, `C205_refused`, `C205_masked_violated`, `C205_nan_violated`, `C205_points_violated`.

### C206 — The cumulated mask tells the points never seen

*proved.* `lean/Verif/Trace/Border.lean`  
Modelled: get_time_profile and inject_time_profile (position, indices, Points), mask_cum, crop_masked_border, extend and mirroring of TemporalFields on scalar fields. Not modelled: rounding, vector fields in these methods. Proof: nearest grid point by C02, cell by cell descriptions of the fields; the cumulated mask is seen as a scalar field on which C19 applies; termination by the number of lines; C14 and C194 for every field. SpecModel.lean/Spectra.lean: temporal spectra over areas, maps of the main frequencies and temporal filtering, with the spectrum of a profile as parameter (C347-C349): sums over the nodes of a rectangle, selection of the highest entries as permutations, induction over the nodes of a loop that reads and writes the same fields. VecSpecModel.lean/VecSpectra.lean: temporal filtering of vector fields (C357). MaskModel.lean/Mask.lean: masks given as fields (C384); specification `Tells`.  
Theorems: `C206_mask_cum`.

### C207 — Cropping the masked borders of a record keeps every value

*partial.* `lean/Verif/Trace/Border.lean`  
Modelled: get_time_profile and inject_time_profile (position, indices, Points), mask_cum, crop_masked_border, extend and mirroring of TemporalFields on scalar fields. Not modelled: rounding, vector fields in these methods. Proof: nearest grid point by C02, cell by cell descriptions of the fields; the cumulated mask is seen as a scalar field on which C19 applies; termination by the number of lines; C14 and C194 for every field. SpecModel.lean/Spectra.lean: temporal spectra over areas, maps of the main frequencies and temporal filtering, with the spectrum of a profile as parameter (C347-C349): sums over the nodes of a rectangle, selection of the highest entries as permutations, induction over the nodes of a loop that reads and writes the same fields. VecSpecModel.lean/VecSpectra.lean: temporal filtering of vector fields (C357). MaskModel.lean/Mask.lean: masks given as fields (C384); specification `Tells`.  
Proved whenever a record is returned, and that one is returned when some point is never seen and the points seen reach past the first row and column. Violated: None is returned when every point is seen; ValueError when the points seen are all on the first row.  
Theorems: `C207_soft_partial`, `C207_none_violated`, `C207_soft_returns_partial`, `C207_first_row_violated`.

### C208 — Hard cropping of a record stops with borders that are seen

*partial.* `lean/Verif/Trace/Border.lean`  
Modelled: get_time_profile and inject_time_profile (position, indices, Points), mask_cum, crop_masked_border, extend and mirroring of TemporalFields on scalar fields. Not modelled: rounding, vector fields in these methods. Proof: nearest grid point by C02, cell by cell descriptions of the fields; the cumulated mask is seen as a scalar field on which C19 applies; termination by the number of lines; C14 and C194 for every field. SpecModel.lean/Spectra.lean: temporal spectra over areas, maps of the main frequencies and temporal filtering, with the spectrum of a profile as parameter (C347-C349): sums over the nodes of a rectangle, selection of the highest entries as permutations, induction over the nodes of a loop that reads and writes the same fields. VecSpecModel.lean/VecSpectra.lean: temporal filtering of vector fields (C357). MaskModel.lean/Mask.lean: masks given as fields (C384); specification `Tells`.  
Termination is proved for every record, the shape of the result whenever one is returned. Fails: None for a record with nothing to crop (C208_none_violated), ValueError for a record seen on its first row only (C208_first_row_violated), points masked inside the grid stay (C208_hole_violated).  
Theorems: `C208_hard_terminates`, `C208_hard_borders_partial`, `C208_none_violated`, `C208_first_row_violated`, `C208_hole_violated`.

### C209 — Extending a record extends every field alike

*proved.* `lean/Verif/Trace/Grid.lean`  
Modelled: get_time_profile and inject_time_profile (position, indices, Points), mask_cum, crop_masked_border, extend and mirroring of TemporalFields on scalar fields. Not modelled: rounding, vector fields in these methods. Proof: nearest grid point by C02, cell by cell descriptions of the fields; the cumulated mask is seen as a scalar field on which C19 applies; termination by the number of lines; C14 and C194 for every field. SpecModel.lean/Spectra.lean: temporal spectra over areas, maps of the main frequencies and temporal filtering, with the spectrum of a profile as parameter (C347-C349): sums over the nodes of a rectangle, selection of the highest entries as permutations, induction over the nodes of a loop that reads and writes the same fields. VecSpecModel.lean/VecSpectra.lean: temporal filtering of vector fields (C357). MaskModel.lean/Mask.lean: masks given as fields (C384); specification `Tells`.  
Theorems: `C209_extend`.

### C210 — Mirroring a record mirrors every field alike

*partial.* `lean/Verif/Trace/Grid.lean`  
Modelled: get_time_profile and inject_time_profile (position, indices, Points), mask_cum, crop_masked_border, extend and mirroring of TemporalFields on scalar fields. Not modelled: rounding, vector fields in these methods. Proof: nearest grid point by C02, cell by cell descriptions of the fields; the cumulated mask is seen as a scalar field on which C19 applies; termination by the number of lines; C14 and C194 for every field. SpecModel.lean/Spectra.lean: temporal spectra over areas, maps of the main frequencies and temporal filtering, with the spectrum of a profile as parameter (C347-C349): sums over the nodes of a rectangle, selection of the highest entries as permutations, induction over the nodes of a loop that reads and writes the same fields. VecSpecModel.lean/VecSpectra.lean: temporal filtering of vector fields (C357). MaskModel.lean/Mask.lean: masks given as fields (C384); specification `Tells`.  
Proved for the fields. Violated: the axes of the record itself are never updated (name mangling), so the record returned disagrees with its fields.  
Theorems: `C210_fields_partial`, `C210_values_partial`, `C210_axes_violated`, `C210_grid_violated`, `C210_empty`.

### C211 — Equality of vector fields is having the same points, vectors and units

*proved.* `lean/Verif/Same/Props.lean`  
Modelled: __eq__ of VectorField, ScalarField, Points and Profile with numpy's comparison and broadcasting of arrays of different shapes (the outcome when no broadcasting is possible depends on the version of numpy and is a parameter, as is the comparison of incompatible units), the tolerance of np.allclose in exact arithmetic. Proof: pointwise characterisation of the array comparisons, induction on the lists. Also TemporalFields.__eq__ (Records), the truth value of NotImplemented being a parameter. CritModel.lean/Crit.lean: CritPoints.__eq__ (C288).  
Theorems: `C211_vector`, `C211_self`, `C211_answers`.

### C212 — Equality of scalar fields is having the same points, values and units

*partial.* `lean/Verif/Same/Props.lean`  
Modelled: __eq__ of VectorField, ScalarField, Points and Profile with numpy's comparison and broadcasting of arrays of different shapes (the outcome when no broadcasting is possible depends on the version of numpy and is a parameter, as is the comparison of incompatible units), the tolerance of np.allclose in exact arithmetic. Proof: pointwise characterisation of the array comparisons, induction on the lists. Also TemporalFields.__eq__ (Records), the truth value of NotImplemented being a parameter. CritModel.lean/Crit.lean: CritPoints.__eq__ (C288).  
Proved for fields with as many points in each direction, with the tolerance of np.allclose (1e-8 + 1e-5 relative to the second field). Violated: fields of small values are equal whatever they are, the equality is neither symmetric nor transitive, and fields of different sizes raise ValueError.  
Theorems: `C212_scalar_partial`, `C212_self`, `C212_small_violated`, `C212_shape_violated`, `C212_symmetric_violated`, `C212_transitive_violated`.

### C213 — Equality of point sets is having the same points, values and units

*partial.* `lean/Verif/Same/Lists.lean`  
Modelled: __eq__ of VectorField, ScalarField, Points and Profile with numpy's comparison and broadcasting of arrays of different shapes (the outcome when no broadcasting is possible depends on the version of numpy and is a parameter, as is the comparison of incompatible units), the tolerance of np.allclose in exact arithmetic. Proof: pointwise characterisation of the array comparisons, induction on the lists. Also TemporalFields.__eq__ (Records), the truth value of NotImplemented being a parameter. CritModel.lean/Crit.lean: CritPoints.__eq__ (C288).  
Proved for sets with as many points and values, without NaN. Violated: a single point is equal to any number of copies of itself, and to itself with a value; a set with a NaN value is not equal to itself.  
Theorems: `C213_points_partial`, `C213_copies_violated`, `C213_against_single_violated`, `C213_value_violated`, `C213_nan_violated`.

### C214 — Equality of profiles is having the same points and units

*partial.* `lean/Verif/Same/Lists.lean`  
Modelled: __eq__ of VectorField, ScalarField, Points and Profile with numpy's comparison and broadcasting of arrays of different shapes (the outcome when no broadcasting is possible depends on the version of numpy and is a parameter, as is the comparison of incompatible units), the tolerance of np.allclose in exact arithmetic. Proof: pointwise characterisation of the array comparisons, induction on the lists. Also TemporalFields.__eq__ (Records), the truth value of NotImplemented being a parameter. CritModel.lean/Crit.lean: CritPoints.__eq__ (C288).  
Proved for profiles with as many points. Violated: every profile of one point is equal to the empty profile.  
Theorems: `C214_profile_partial`, `C214_empty_violated`.

### C215 — The magnitude is the length of the vectors

*partial.* `lean/Verif/Polar/Props.lean`  
Modelled: magnitude, theta, min, max, comp_x_as_sf, comp_y_as_sf, mask_as_sf of VectorField; square roots and angles over the reals. Not modelled: rounding. Proof: cell by cell, with the angle lemmas of Pbi and the import theorem C15; fold of min and max.  
Proved for fields with at least two points in each direction, over the reals. Violated: fields of one line or one column raise IndexError.  
Theorems: `C215_magnitude_partial`, `C215_line_violated`.

### C216 — The magnitude and the angle give the vector back

*partial.* `lean/Verif/Polar/Props.lean`  
Modelled: magnitude, theta, min, max, comp_x_as_sf, comp_y_as_sf, mask_as_sf of VectorField; square roots and angles over the reals. Not modelled: rounding. Proof: cell by cell, with the angle lemmas of Pbi and the import theorem C15; fold of min and max.  
Proved at the points that are not masked. Violated: masked points show the angle 0 and are not masked, and the angles bear the unit of the vectors.  
Theorems: `C216_theta_partial`, `C216_masked_violated`, `C216_unit_violated`.

### C217 — Smallest and largest magnitudes are reached and are bounds

*proved.* `lean/Verif/Polar/Props.lean`  
Modelled: magnitude, theta, min, max, comp_x_as_sf, comp_y_as_sf, mask_as_sf of VectorField; square roots and angles over the reals. Not modelled: rounding. Proof: cell by cell, with the angle lemmas of Pbi and the import theorem C15; fold of min and max.  
Theorems: `C217_min`, `C217_max`, `C217_masked`.

### C218 — Components and mask of a vector field as scalar fields

*partial.* `lean/Verif/Polar/Props.lean`  
Modelled: magnitude, theta, min, max, comp_x_as_sf, comp_y_as_sf, mask_as_sf of VectorField; square roots and angles over the reals. Not modelled: rounding. Proof: cell by cell, with the angle lemmas of Pbi and the import theorem C15; fold of min and max.  
Proved for fields with at least two points in each direction. Violated: fields of one line or one column raise IndexError.  
Theorems: `C218_parts_partial`, `C218_line_violated`.

### C219 — A lone critical point is detected once, where it is

*partial.* `lean/Verif/Linear/Props.lean`  
Modelled: the types given by VF.get_cp_cell_position, _get_jacobian_matrix, the distribution by _get_cp_cell_pbi_on_VF and _get_saddle_orientations, over the reals; np.linalg.eig is any function giving the eigenvalues (sum and product) and eigenvectors. Not modelled: rounding (a centre has exactly zero real parts here), masks in the orientations. Proof: the turns of the velocity along the sides have the sign of the determinant, the theorem C59 (a detected cell has a zero of its bilinear interpolation) excludes the other cells; eigenvalues against straight lines of the flow by algebra.  
Proved for a critical point strictly inside a cell, on any increasing axes, and for one outside of the field. Violated: a solid rotation centred on a point of the grid is not reported at all.  
Theorems: `C219_inside`, `C219_outside`, `C219_node_violated`.

### C220 — The type of a critical point is the nature of the flow around it

*partial.* `lean/Verif/Linear/Props.lean`  
Modelled: the types given by VF.get_cp_cell_position, _get_jacobian_matrix, the distribution by _get_cp_cell_pbi_on_VF and _get_saddle_orientations, over the reals; np.linalg.eig is any function giving the eigenvalues (sum and product) and eigenvectors. Not modelled: rounding (a centre has exactly zero real parts here), masks in the orientations. Proof: the turns of the velocity along the sides have the sign of the determinant, the theorem C59 (a detected cell has a zero of its bilinear interpolation) excludes the other cells; eigenvalues against straight lines of the flow by algebra.  
Proved for square cells (saddle points: for all cells). Violated: in every cell that is not square some anticlockwise focus is taken for an outgoing node, the jacobian being computed with steps 1; the documentation names the types 1 and 2 unstable and stable focus whereas the code tells the sense of rotation.  
Theorems: `C220_type`, `C220_saddle_any_step`, `C220_steps_violated`, `C220_documented_violated`, `C220_natures`.

### C221 — Every detected critical point is in exactly one set of the report

*proved.* `lean/Verif/Linear/Props.lean`  
Modelled: the types given by VF.get_cp_cell_position, _get_jacobian_matrix, the distribution by _get_cp_cell_pbi_on_VF and _get_saddle_orientations, over the reals; np.linalg.eig is any function giving the eigenvalues (sum and product) and eigenvectors. Not modelled: rounding (a centre has exactly zero real parts here), masks in the orientations. Proof: the turns of the velocity along the sides have the sign of the determinant, the theorem C59 (a detected cell has a zero of its bilinear interpolation) excludes the other cells; eigenvalues against straight lines of the flow by algebra.  
Theorems: `C221_sorted`, `C221_linear`.

### C222 — The directions of a saddle point are those of departure and arrival

*partial.* `lean/Verif/Linear/Props.lean`  
Modelled: the types given by VF.get_cp_cell_position, _get_jacobian_matrix, the distribution by _get_cp_cell_pbi_on_VF and _get_saddle_orientations, over the reals; np.linalg.eig is any function giving the eigenvalues (sum and product) and eigenvectors. Not modelled: rounding (a centre has exactly zero real parts here), masks in the orientations. Proof: the turns of the velocity along the sides have the sign of the determinant, the theorem C59 (a detected cell has a zero of its bilinear interpolation) excludes the other cells; eigenvalues against straight lines of the flow by algebra.  
Proved when the 4 x 4 points around the saddle point are in the field. Violated: the cells of the border get null vectors.  
Theorems: `C222_orientations`, `C222_border_violated`.

### C223 — The velocity of a trajectory is displacement over duration

*partial.* `lean/Verif/Path/Props.lean`  
Modelled: get_velocity, get_evolution_on_sf, get_evolution_on_tsf, export_to_profile and decompose of Points, on top of the models of profiles and scalar fields. Not modelled: rounding, verbosity, interpolations other than those of get_value. Proof: the sorted points by index, permutation lemmas of the constructor of profiles, the theorems on get_value (C23).  
Violated: with xaxis='x' or 'y' the positions are labelled with the unit of the instants.  
Theorems: `C223_increment`, `C223_velocity`, `C223_no_times`, `C223_positions`, `C223_unit_violated`.

### C224 — The velocity of a trajectory accounts for its displacement

*proved.* `lean/Verif/Path/Props.lean`  
Modelled: get_velocity, get_evolution_on_sf, get_evolution_on_tsf, export_to_profile and decompose of Points, on top of the models of profiles and scalar fields. Not modelled: rounding, verbosity, interpolations other than those of get_value. Proof: the sorted points by index, permutation lemmas of the constructor of profiles, the theorems on get_value (C23).  
Theorems: `C224_bound`, `C224_uniform`.

### C225 — The evolution of a scalar field along points shows the field at each point

*proved.* `lean/Verif/Path/Evolution.lean`  
Modelled: get_velocity, get_evolution_on_sf, get_evolution_on_tsf, export_to_profile and decompose of Points, on top of the models of profiles and scalar fields. Not modelled: rounding, verbosity, interpolations other than those of get_value. Proof: the sorted points by index, permutation lemmas of the constructor of profiles, the theorems on get_value (C23).  
Theorems: `C225_evolution`, `C225_nodes`, `C225_default`, `C225_outside`, `C225_empty`.

### C226 — The evolution of a record along a trajectory reads each field at its time

*proved.* `lean/Verif/Path/Evolution.lean`  
Modelled: get_velocity, get_evolution_on_sf, get_evolution_on_tsf, export_to_profile and decompose of Points, on top of the models of profiles and scalar fields. Not modelled: rounding, verbosity, interpolations other than those of get_value. Proof: the sorted points by index, permutation lemmas of the constructor of profiles, the theorems on get_value (C23).  
Theorems: `C226_evolution`, `C226_default`, `C226_missing`, `C226_no_times`.

### C227 — Exporting and decomposing points loses nothing

*proved.* `lean/Verif/Path/Evolution.lean`  
Modelled: get_velocity, get_evolution_on_sf, get_evolution_on_tsf, export_to_profile and decompose of Points, on top of the models of profiles and scalar fields. Not modelled: rounding, verbosity, interpolations other than those of get_value. Proof: the sorted points by index, permutation lemmas of the constructor of profiles, the theorems on get_value (C23).  
Theorems: `C227_export`, `C227_no_values`, `C227_decompose`, `C227_decompose_refused`.

### C228 — Only values far from the mean are removed

*proved.* `lean/Verif/Reshape/Marginal.lean`  
Modelled: remove_marginal_values, augment_resolution, evenly_space, get_convolution, the product of two profiles, remove_doublons, smooth (uniform) and rotate of Profile, and their use by Points; the standard deviation over the reals, everything else in exact rational arithmetic, np.round as a parameter. Proof: the interpolation lemmas of Profile, lists by index, inequality of Chebyshev by induction.  
Theorems: `C228_masked`, `C228_few`, `C228_some_left`, `C228_no_value`.

### C229 — Augmenting the resolution keeps the points and the broken line

*partial.* `lean/Verif/Reshape/Augment.lean`  
Modelled: remove_marginal_values, augment_resolution, evenly_space, get_convolution, the product of two profiles, remove_doublons, smooth (uniform) and rotate of Profile, and their use by Points; the standard deviation over the reals, everything else in exact rational arithmetic, np.round as a parameter. Proof: the interpolation lemmas of Profile, lists by index, inequality of Chebyshev by induction.  
Violated: the abscissae of masked points inside are replaced by regular fractions between the unmasked neighbours, even with a factor 1.  
Theorems: `C229_polyline`, `C229_grid`, `C229_abscissa_violated`, `C229_refused`, `C229_points`, `C229_one_point`.

### C230 — Evenly spacing a profile resamples its broken line

*partial.* `lean/Verif/Reshape/Even.lean`  
Modelled: remove_marginal_values, augment_resolution, evenly_space, get_convolution, the product of two profiles, remove_doublons, smooth (uniform) and rotate of Profile, and their use by Points; the standard deviation over the reals, everything else in exact rational arithmetic, np.round as a parameter. Proof: the interpolation lemmas of Profile, lists by index, inequality of Chebyshev by induction.  
Proved for profiles whose first and last points are unmasked. Violated: the step is ignored when the steps are already equal; a masked end makes it fail when a new abscissa falls out of the unmasked points.  
Theorems: `C230_already`, `C230_step_violated`, `C230_one_point`, `C230_even_partial`, `C230_long_step`, `C230_masked_end_violated`.

### C231 — The convolution of profiles is the discrete convolution

*partial.* `lean/Verif/Reshape/Conv.lean`  
Modelled: remove_marginal_values, augment_resolution, evenly_space, get_convolution, the product of two profiles, remove_doublons, smooth (uniform) and rotate of Profile, and their use by Points; the standard deviation over the reals, everything else in exact rational arithmetic, np.round as a parameter. Proof: the interpolation lemmas of Profile, lists by index, inequality of Chebyshev by induction.  
Proved for equal steps on non-negative abscissae (values, length, masks, units, symmetry). Violated: the result starts at 0 wherever the profiles start; profiles that end at 0 or before are refused; a first profile with unequal steps, none longer than the first, is accepted.  
Theorems: `C231_convolution_partial`, `C231_comm`, `C231_refused`, `C231_origin_violated`, `C231_negative_violated`, `C231_uneven_violated`.

### C232 — The product of profiles multiplies values at the same abscissa

*partial.* `lean/Verif/Reshape/Product.lean`  
Modelled: remove_marginal_values, augment_resolution, evenly_space, get_convolution, the product of two profiles, remove_doublons, smooth (uniform) and rotate of Profile, and their use by Points; the standard deviation over the reals, everything else in exact rational arithmetic, np.round as a parameter. Proof: the interpolation lemmas of Profile, lists by index, inequality of Chebyshev by induction.  
Proved for the same abscissae and at least two points. Violated: a second profile shifted down by up to half a step is accepted and multiplied index by index; profiles of one point raise IndexError.  
Theorems: `C232_product_partial`, `C232_shift_violated`, `C232_refused`, `C232_one_point_violated`.

### C233 — Removing doublons leaves one point per abscissa with the merged value

*partial.* `lean/Verif/Reshape/Doublons.lean`  
Modelled: remove_marginal_values, augment_resolution, evenly_space, get_convolution, the product of two profiles, remove_doublons, smooth (uniform) and rotate of Profile, and their use by Points; the standard deviation over the reals, everything else in exact rational arithmetic, np.round as a parameter. Proof: the interpolation lemmas of Profile, lists by index, inequality of Chebyshev by induction.  
Proved for every rounding function. Violated: a masked point masks all the points merged with it; an abscissa that is not its own rounding is replaced even without doublon.  
Theorems: `C233_abscissae`, `C233_average`, `C233_extremum`, `C233_unmasked_partial`, `C233_masked_violated`, `C233_rounded_violated`, `C233_nothing`.

### C234 — Smoothing averages neighbours and invents no extremum

*proved.* `lean/Verif/Reshape/Smooth.lean`  
Modelled: remove_marginal_values, augment_resolution, evenly_space, get_convolution, the product of two profiles, remove_doublons, smooth (uniform) and rotate of Profile, and their use by Points; the standard deviation over the reals, everything else in exact rational arithmetic, np.round as a parameter. Proof: the interpolation lemmas of Profile, lists by index, inequality of Chebyshev by induction.  
Theorems: `C234_smooth`, `C234_bounds`.

### C235 — Rotating points and profiles turns them by the angle

*partial.* `lean/Verif/Reshape/Rotate.lean`  
Modelled: remove_marginal_values, augment_resolution, evenly_space, get_convolution, the product of two profiles, remove_doublons, smooth (uniform) and rotate of Profile, and their use by Points; the standard deviation over the reals, everything else in exact rational arithmetic, np.round as a parameter. Proof: the interpolation lemmas of Profile, lists by index, inequality of Chebyshev by induction.  
Proved for points. Violated for profiles: they are turned clockwise.  
Theorems: `C235_points`, `C235_distance`, `C235_group`, `C235_profile_partial`, `C235_sense_violated`.

### C236 — The background of pictures is what they show most of the time

*partial.* `lean/Verif/Back/Props.lean`  
Modelled: get_background and substract_background of TemporalScalarFields, in exact rational arithmetic (deviations are compared by their squares), the gaussian filter of the blending as a parameter. Not modelled: rounding, verbosity. Proof: the loop by well-founded recursion on the number of values left; two-valued lists by counting.  
Proved at the points that every field shows. Violated: a point that never changes, or shows two values equally often, is masked; the unit is lost; a point masked in one field has a background or not according to whether the values of this field have been read before.  
Theorems: `C236_rounds`, `C236_between`, `C236_majority`, `C236_constant_violated`, `C236_tie_violated`, `C236_shift`, `C236_unit_violated`, `C236_masked_violated`.

### C237 — Subtracting the background touches the background only

*partial.* `lean/Verif/Back/Blend.lean`, `lean/Verif/Back/Clear.lean`  
Modelled: get_background and substract_background of TemporalScalarFields, in exact rational arithmetic (deviations are compared by their squares), the gaussian filter of the blending as a parameter. Not modelled: rounding, verbosity. Proof: the loop by well-founded recursion on the number of values left; two-valued lists by counting.  
Without blending: full. With blending (the default): the mixture is proved for fields without masked point and a linear filter (scipy gaussian_filter is a parameter; C237_blend_partial, C237_uniform). Violated: one masked point in a field masks all that is not background in it (C237_blend_violated).  
Theorems: `C237_blend_partial`, `C237_uniform`, `C237_background`, `C237_foreground_partial`, `C237_blend_violated`.

### C238 — The recurrence map holds the distances between the fields

*partial.* `lean/Verif/Recur/Props.lean`  
Modelled: get_recurrence_map of TemporalFields, not normalized, over the reals. Not modelled: rounding, verbosity, normalized=True. Proof: the flattened fields as sums over the points of the grid, inequality of Minkowski from Mathlib.  
Proved for fields without masked points. Violated: a masked point in a field masks its whole line of the map.  
Theorems: `C238_distance`, `C238_vectors`, `C238_symmetric`, `C238_metric`, `C238_masked_violated`, `C238_single`.

### C239 — Weird fields are replaced or removed, and the others are left alone

*partial.* `lean/Verif/Weird/Props.lean`  
Modelled: remove_weird_fields of TemporalFields, over the reals, not in place. Not modelled: rounding. Proof: the list of the weird fields against the specification; the fields read by the replacements are never written; inequality of Chebyshev.  
Proved for weird fields that have a partner on both sides. Violated: a weird first field is averaged with the end of the record; a weird last field raises IndexError; the times are not used; the sum of the magnitudes is used instead of the mean, so that masks count; with the default coefficient no record of at most ten fields has a weird field; removing leaves the second weird field; scalar fields raise AttributeError.  
Theorems: `C239_interpolated_partial`, `C239_none`, `C239_first_violated`, `C239_last_violated`, `C239_times_violated`, `C239_few`, `C239_short_violated`, `C239_remove_one`, `C239_remove_violated`, `C239_refused`, `C239_scalar_violated`, `C239_mean_violated`.

### C240 — Cropping critical points in time crops everything and nothing else

*partial.* `lean/Verif/Cps/Crop.lean`  
Modelled: crop in time, clean_traj, set_origin, change_unit, scale, topo_simplify (up to the point where it fails) and break_trajectories of CritPoints, with the kind of container of the trajectories. Not modelled: crop in space (Verif/Cp), the choice of the times of breaking (arbitrary), what an exception leaves behind except for set_origin and change_unit. Proof: zipped lists of times and sets; rows of points. SmoothModel.lean/Smooth.lean: smoothing of trajectories (C372).  
Proved in place, with times, when every kind has at least two trajectories. Violated: TypeError before the trajectories are computed, and when a kind has at most one trajectory; not in place the trajectories of the object are cropped and those of the result are not; with indices each trajectory is cropped by its own numbering.  
Theorems: `C240_crop_partial`, `C240_none_violated`, `C240_single_violated`, `C240_copy_violated`, `C240_indices_violated`.

### C241 — Cleaning trajectories removes the short ones and their points only

*proved.* `lean/Verif/Cps/Crop.lean`  
Modelled: crop in time, clean_traj, set_origin, change_unit, scale, topo_simplify (up to the point where it fails) and break_trajectories of CritPoints, with the kind of container of the trajectories. Not modelled: crop in space (Verif/Cp), the choice of the times of breaking (arbitrary), what an exception leaves behind except for set_origin and change_unit. Proof: zipped lists of times and sets; rows of points. SmoothModel.lean/Smooth.lean: smoothing of trajectories (C372).  
Proved for trajectories in the units of the collection.  
Theorems: `C241_clean`, `C241_refused`.

### C242 — Moving the origin of critical points moves everything once

*partial.* `lean/Verif/Cps/Props.lean`  
Modelled: crop in time, clean_traj, set_origin, change_unit, scale, topo_simplify (up to the point where it fails) and break_trajectories of CritPoints, with the kind of container of the trajectories. Not modelled: crop in space (Verif/Cp), the choice of the times of breaking (arbitrary), what an exception leaves behind except for set_origin and change_unit. Proof: zipped lists of times and sets; rows of points. SmoothModel.lean/Smooth.lean: smoothing of trajectories (C372).  
Proved when the trajectories are computed. Violated otherwise: the points are moved, then TypeError is raised.  
Theorems: `C242_origin_partial`, `C242_none_violated`.

### C243 — Changing a unit of critical points changes no physical quantity

*partial.* `lean/Verif/Cps/Props.lean`  
Modelled: crop in time, clean_traj, set_origin, change_unit, scale, topo_simplify (up to the point where it fails) and break_trajectories of CritPoints, with the kind of container of the trajectories. Not modelled: crop in space (Verif/Cp), the choice of the times of breaking (arbitrary), what an exception leaves behind except for set_origin and change_unit. Proof: zipped lists of times and sets; rows of points. SmoothModel.lean/Smooth.lean: smoothing of trajectories (C372).  
Proved for x and y, and for time when the trajectories are computed. Violated otherwise: the times of the points are converted, those of the collection are not, and TypeError is raised.  
Theorems: `C243_axis`, `C243_time_partial`, `C243_time_violated`, `C243_refused`.

### C244 — Scaling critical points multiplies positions and times

*partial.* `lean/Verif/Cps/Props.lean`  
Modelled: crop in time, clean_traj, set_origin, change_unit, scale, topo_simplify (up to the point where it fails) and break_trajectories of CritPoints, with the kind of container of the trajectories. Not modelled: crop in space (Verif/Cp), the choice of the times of breaking (arbitrary), what an exception leaves behind except for set_origin and change_unit. Proof: zipped lists of times and sets; rows of points. SmoothModel.lean/Smooth.lean: smoothing of trajectories (C372).  
Proved. Violated: a negative factor of time leaves the times in decreasing order.  
Theorems: `C244_scale`, `C244_order_partial`, `C244_negative_violated`.

### C245 — Critical points can be simplified

*partial.* `lean/Verif/Cps/Props.lean`  
Modelled: crop in time, clean_traj, set_origin, change_unit, scale, topo_simplify (up to the point where it fails) and break_trajectories of CritPoints, with the kind of container of the trajectories. Not modelled: crop in space (Verif/Cp), the choice of the times of breaking (arbitrary), what an exception leaves behind except for set_origin and change_unit. Proof: zipped lists of times and sets; rows of points. SmoothModel.lean/Smooth.lean: smoothing of trajectories (C372).  
Violated on every collection that is not empty: TypeError, numbers of np.arange not being int for Python 3.  
Theorems: `C245_simplify_violated`.

### C246 — Breaking trajectories cuts them in pieces

*partial.* `lean/Verif/Cps/Props.lean`  
Modelled: crop in time, clean_traj, set_origin, change_unit, scale, topo_simplify (up to the point where it fails) and break_trajectories of CritPoints, with the kind of container of the trajectories. Not modelled: crop in space (Verif/Cp), the choice of the times of breaking (arbitrary), what an exception leaves behind except for set_origin and change_unit. Proof: zipped lists of times and sets; rows of points. SmoothModel.lean/Smooth.lean: smoothing of trajectories (C372).  
Proved: pieces of intervals, every point in a piece. Violated: points up to one time step after the breaking are in two pieces; afterwards crop in time always raises TypeError.  
Theorems: `C246_break_partial`, `C246_overlap_violated`, `C246_all`, `C246_crop_violated`, `C246_refused`.

### C247 — Filling with the nearest point copies values of nearest visible points

*proved.* `lean/Verif/Fill/Props.lean`  
Modelled: fill of scalar and vector fields (crop=False), their uniform smoothing, fill of records of both in space and in time (kinds value, nearest, linear). The interpolators of scipy are parameters with stated assumptions (a nearest point; barycentric weights inside the convex hull, NaN outside; error for points on one line), shown to be satisfiable. Not modelled: gaussian smoothing, cubic filling in time, crop=True. Proof: one grid step towards a masked point shows that nearest visible points touch the mask; barycentric sums; sums over a period of the reflected array; consecutive knots of increasing lists. SeriesModel.lean/Series.lean: smoothing of collections of scalar or vector fields that may share objects (C382); specifications `Softened`, `VSoftened`.  
Proved for any choice among nearest points; scipy assumed to choose a nearest one.  
Theorems: `C247_nearest`.

### C248 — Linear filling invents no extremum and is exact on affine functions

*partial.* `lean/Verif/Fill/Props.lean`  
Modelled: fill of scalar and vector fields (crop=False), their uniform smoothing, fill of records of both in space and in time (kinds value, nearest, linear). The interpolators of scipy are parameters with stated assumptions (a nearest point; barycentric weights inside the convex hull, NaN outside; error for points on one line), shown to be satisfiable. Not modelled: gaussian smoothing, cubic filling in time, crop=True. Proof: one grid step towards a masked point shows that nearest visible points touch the mask; barycentric sums; sums over a period of the reflected array; consecutive knots of increasing lists. SeriesModel.lean/Series.lean: smoothing of collections of scalar or vector fields that may share objects (C382); specifications `Softened`, `VSoftened`.  
Proved when the visible points next to masked ones are not on one line. Violated: with the default arguments a field masked beyond some abscissa raises an error.  
Theorems: `C248_linear_partial`, `C248_wall_violated`.

### C249 — Filling with a value or a spline fills all masked points and nothing else

*partial.* `lean/Verif/Fill/Props.lean`  
Modelled: fill of scalar and vector fields (crop=False), their uniform smoothing, fill of records of both in space and in time (kinds value, nearest, linear). The interpolators of scipy are parameters with stated assumptions (a nearest point; barycentric weights inside the convex hull, NaN outside; error for points on one line), shown to be satisfiable. Not modelled: gaussian smoothing, cubic filling in time, crop=True. Proof: one grid step towards a masked point shows that nearest visible points touch the mask; barycentric sums; sums over a period of the reflected array; consecutive knots of increasing lists. SeriesModel.lean/Series.lean: smoothing of collections of scalar or vector fields that may share objects (C382); specifications `Softened`, `VSoftened`.  
Proved; cubic when the visible points next to masked ones are not on one line.  
Theorems: `C249_cubic_partial`, `C249_value`, `C249_unmasked`, `C249_refused`.

### C250 — Filling a vector field fills both components at the same points

*partial.* `lean/Verif/Fill/Vec.lean`  
Modelled: fill of scalar and vector fields (crop=False), their uniform smoothing, fill of records of both in space and in time (kinds value, nearest, linear). The interpolators of scipy are parameters with stated assumptions (a nearest point; barycentric weights inside the convex hull, NaN outside; error for points on one line), shown to be satisfiable. Not modelled: gaussian smoothing, cubic filling in time, crop=True. Proof: one grid step towards a masked point shows that nearest visible points touch the mask; barycentric sums; sums over a period of the reflected array; consecutive knots of increasing lists. SeriesModel.lean/Series.lean: smoothing of collections of scalar or vector fields that may share objects (C382); specifications `Softened`, `VSoftened`.  
Proved; linear when the visible points next to masked ones are not on one line. Violated otherwise, as for scalar fields.  
Theorems: `C250_nearest`, `C250_value`, `C250_linear_partial`, `C250_wall_violated`.

### C251 — Smoothing averages around each point and keeps the mean

*partial.* `lean/Verif/Fill/Smooth.lean`  
Modelled: fill of scalar and vector fields (crop=False), their uniform smoothing, fill of records of both in space and in time (kinds value, nearest, linear). The interpolators of scipy are parameters with stated assumptions (a nearest point; barycentric weights inside the convex hull, NaN outside; error for points on one line), shown to be satisfiable. Not modelled: gaussian smoothing, cubic filling in time, crop=True. Proof: one grid step towards a masked point shows that nearest visible points touch the mask; barycentric sums; sums over a period of the reflected array; consecutive knots of increasing lists. SeriesModel.lean/Series.lean: smoothing of collections of scalar or vector fields that may share objects (C382); specifications `Softened`, `VSoftened`.  
Proved for odd sizes when the filling succeeds; the size is the width of the square, not its radius as documented. Violated: even sizes move the field by half a step; fields masked beyond some abscissa raise an error.  
Theorems: `C251_smooth_partial`, `C251_affine`, `C251_even_violated`, `C251_wall_violated`, `C251_vector_partial`.

### C252 — Filling in time interpolates between the neighbouring instants

*partial.* `lean/Verif/Fill/TProps.lean`  
Modelled: fill of scalar and vector fields (crop=False), their uniform smoothing, fill of records of both in space and in time (kinds value, nearest, linear). The interpolators of scipy are parameters with stated assumptions (a nearest point; barycentric weights inside the convex hull, NaN outside; error for points on one line), shown to be satisfiable. Not modelled: gaussian smoothing, cubic filling in time, crop=True. Proof: one grid step towards a masked point shows that nearest visible points touch the mask; barycentric sums; sums over a period of the reflected array; consecutive knots of increasing lists. SeriesModel.lean/Series.lean: smoothing of collections of scalar or vector fields that may share objects (C382); specifications `Softened`, `VSoftened`.  
Proved for points visible at three instants or more of records of vector fields. Violated: inplace=False changes the record; NameError when nothing can be filled, always with three fields; scalar fields always fail.  
Theorems: `C252_temporal_partial`, `C252_value_partial`, `C252_source_violated`, `C252_nothing_violated`, `C252_scalar_violated`.

### C253 — Filling in space fills each field on its own

*proved.* `lean/Verif/Fill/TProps.lean`  
Modelled: fill of scalar and vector fields (crop=False), their uniform smoothing, fill of records of both in space and in time (kinds value, nearest, linear). The interpolators of scipy are parameters with stated assumptions (a nearest point; barycentric weights inside the convex hull, NaN outside; error for points on one line), shown to be satisfiable. Not modelled: gaussian smoothing, cubic filling in time, crop=True. Proof: one grid step towards a masked point shows that nearest visible points touch the mask; barycentric sums; sums over a period of the reflected array; consecutive knots of increasing lists. SeriesModel.lean/Series.lean: smoothing of collections of scalar or vector fields that may share objects (C382); specifications `Softened`, `VSoftened`.  
Proved.  
Theorems: `C253_scalar`, `C253_vector`, `C253_filled`.

### C254 — The centres of zones are one point for each connected zone

*partial.* `lean/Verif/Centre/Calls.lean`, `lean/Verif/Centre/Negative.lean`, `lean/Verif/Centre/Props.lean`  
Modelled: get_zones_centers of ScalarField, what it leaves in its argument bornes and in the default of this argument. scipy.ndimage.label and the choice made by scipy.ndimage.extrema are parameters with stated assumptions, shown to be satisfiable. Not modelled: rounding. Proof: one representative for each label; the positions of the centres of mass are affine in the indices on regular axes; powers of 1 - 1e-5 go to zero.  
Proved for scipy's label and extrema as specified in Centre/Props.lean (shown to be satisfiable). The bounds used are the given ones widened by 1e-5 of their absolute value. Barycentres: regular axes only; on other axes the first step is used everywhere and the point may lie outside of its zone. kind='ponderated' fails with ValueError as soon as a zone has only null values and there are two points between the bounds. C254_negative_partial covers negative relative bounds.  
Theorems: `C254_uneven_violated`, `C254_zero_violated`, `C254_negative_partial`, `C254_centres_partial`, `C254_relative_partial`, `C254_extremum`, `C254_minimum`, `C254_order`.

### C255 — Asking twice for the centres of zones gives the same points

*partial.* `lean/Verif/Centre/Calls.lean`  
Modelled: get_zones_centers of ScalarField, what it leaves in its argument bornes and in the default of this argument. scipy.ndimage.label and the choice made by scipy.ndimage.extrema are parameters with stated assumptions, shown to be satisfiable. Not modelled: rounding. Proof: one representative for each label; the positions of the centres of mass are affine in the indices on regular axes; powers of 1 - 1e-5 go to zero.  
Violated: the default of bornes is one list, widened by each call, so the zones drift to everything above the minimum; lists given are widened in place, arrays of floats given with rel=True become absolute.  
Theorems: `C255_default_violated`, `C255_drift_violated`, `C255_list_violated`, `C255_array_violated`.

### C256 — Even spacing resamples a field bilinearly

*partial.* `lean/Verif/Even/Props.lean`  
Modelled: make_evenly_spaced (interp='linear') of ScalarField, VectorField and TemporalFields; reduce_spatial_resolution of VectorField and TemporalFields. scipy.interpolate.interp2d is a parameter, taken to be bilinear in each mesh and shown to be satisfiable. Not modelled: NaN among interpolated values, rounding, the scale xy_scale of plots. Proof: each new point is in a mesh of the old axes; bilinear blends are convex combinations; the block means of both components are those of scalar fields.  
Proved for scipy's interp2d taken to be bilinear (shown to be satisfiable). The number of points is the integer part of the length times r over the smallest step, one less than needed for that step: the step is always greater than asked for (C256_step_violated), a regular field of n points comes back with n-1 (C256_even_violated) and one with two points along x is refused with IndexError (C256_two_violated).  
Theorems: `C256_resample_partial`, `C256_affine`, `C256_bounds`, `C256_step_violated`, `C256_even_violated`, `C256_two_violated`.

### C257 — Even spacing of a vector field resamples both components on the same axes

*partial.* `lean/Verif/Even/Props.lean`  
Modelled: make_evenly_spaced (interp='linear') of ScalarField, VectorField and TemporalFields; reduce_spatial_resolution of VectorField and TemporalFields. scipy.interpolate.interp2d is a parameter, taken to be bilinear in each mesh and shown to be satisfiable. Not modelled: NaN among interpolated values, rounding, the scale xy_scale of plots. Proof: each new point is in a mesh of the old axes; bilinear blends are convex combinations; the block means of both components are those of scalar fields.  
As for scalar fields (C256): the step is greater than asked for.  
Theorems: `C257_vector_partial`.

### C258 — Even spacing of a record resamples each field

*partial.* `lean/Verif/Even/Props.lean`  
Modelled: make_evenly_spaced (interp='linear') of ScalarField, VectorField and TemporalFields; reduce_spatial_resolution of VectorField and TemporalFields. scipy.interpolate.interp2d is a parameter, taken to be bilinear in each mesh and shown to be satisfiable. Not modelled: NaN among interpolated values, rounding, the scale xy_scale of plots. Proof: each new point is in a mesh of the old axes; bilinear blends are convex combinations; the block means of both components are those of scalar fields.  
As for fields (C256): the step is greater than asked for.  
Theorems: `C258_record_partial`, `C258_vectors_partial`.

### C259 — Reducing the resolution of a vector field averages blocks

*partial.* `lean/Verif/Even/Props.lean`  
Modelled: make_evenly_spaced (interp='linear') of ScalarField, VectorField and TemporalFields; reduce_spatial_resolution of VectorField and TemporalFields. scipy.interpolate.interp2d is a parameter, taken to be bilinear in each mesh and shown to be satisfiable. Not modelled: NaN among interpolated values, rounding, the scale xy_scale of plots. Proof: each new point is in a mesh of the old axes; bilinear blends are convex combinations; the block means of both components are those of scalar fields.  
Even factors with two blocks or more along each axis. Odd factors, 1 included, always fail (C259_odd_violated); in place, units are lost (C259_units_violated).  
Theorems: `C259_blocks_partial`, `C259_units_violated`, `C259_odd_violated`.

### C260 — Reducing the resolution of a record reduces each field

*partial.* `lean/Verif/Even/Reduce.lean`  
Modelled: make_evenly_spaced (interp='linear') of ScalarField, VectorField and TemporalFields; reduce_spatial_resolution of VectorField and TemporalFields. scipy.interpolate.interp2d is a parameter, taken to be bilinear in each mesh and shown to be satisfiable. Not modelled: NaN among interpolated values, rounding, the scale xy_scale of plots. Proof: each new point is in a mesh of the old axes; bilinear blends are convex combinations; the block means of both components are those of scalar fields.  
Even factors with two blocks or more along each axis. The fields lose their units in place or not while the record keeps them (C260_units_violated); the copy keeps the axes of the record, which are those of none of its fields (C260_copy_violated, C260_copies_violated).  
Theorems: `C260_inplace_partial`, `C260_units_violated`, `C260_copy_violated`, `C260_vectors_partial`, `C260_copies_violated`.

### C261 — Phase maps show at each point the spectrum of its history

*partial.* `lean/Verif/Phase/Props.lean`  
Modelled: get_phase_map of TemporalScalarFields, without display; the FFT, its modulus and its argument are a parameter. Proof: from the time profiles of Trace and the import of arrays.  
Proved (C261_map_partial) on grids that have not as many points along x as along y, for the times from 0 to tf; numpy's FFT is a parameter. The code violates the rest: on square grids the maps are transposed (C261_square_violated), and the default of tf is the number of fields used as a time, so that records whose second time is greater are refused (C261_default_violated).  
Theorems: `C261_map_partial`, `C261_square_violated`, `C261_default_violated`.

### C262 — Equality of records is equality of what they show

*partial.* `lean/Verif/Same/Records.lean`  
Modelled: __eq__ of VectorField, ScalarField, Points and Profile with numpy's comparison and broadcasting of arrays of different shapes (the outcome when no broadcasting is possible depends on the version of numpy and is a parameter, as is the comparison of incompatible units), the tolerance of np.allclose in exact arithmetic. Proof: pointwise characterisation of the array comparisons, induction on the lists. Also TemporalFields.__eq__ (Records), the truth value of NotImplemented being a parameter. CritModel.lean/Crit.lean: CritPoints.__eq__ (C288).  
Proved for Python up to 3.13 (C262_vectors_partial, C262_scalars_partial; scalar values are compared with a tolerance as in C212, grids of the same size). From Python 3.14 on every comparison of two distinct records raises TypeError, since the truth value of NotImplemented is used (C262_python_violated).  
Theorems: `C262_vectors_partial`, `C262_scalars_partial`, `C262_python_violated`.

### C263 — Units given as text are expressions, never calls

*partial.* `lean/Verif/Utils/UnitText.lean`  
Modelled: memoization, file lists, progress counter, decorators, descriptor table, unit setters, make_unit (executing an expression is a parameter) (utils/, setters of core/). Proof: invariants over histories, arithmetic. CountModel.lean/Count.lean: histories of calls of a counter without maximum (C346).  
Proved: forbidden texts and texts starting with a call are refused whatever executing them would do; every other text is executed with ** for ^. The code violates the rest: calls that are not at the start are executed (C263_call_violated), and names holding 're' or 'np' are refused (C263_names_violated). What Python gives for an expression is a parameter.  
Theorems: `C263_refused`, `C263_call_partial`, `C263_executed`, `C263_call_violated`, `C263_names_violated`.

### C264 — Adding a number, a vector or a quantity shifts what a field shows

*partial.* `lean/Verif/Quant/Props.lean`  
Modelled: the arithmetic of ScalarField and VectorField with numbers, quantities, single vectors and arrays, abs and powers with natural exponents. Infinities are excluded by hypotheses. Proof: each operation is a map over the visible cells; units by algebra on their sizes.  
Proved for numbers, arrays of two numbers, and quantities of the dimension of the field. The code violates the rest: vector fields accept quantities of any dimension (C264_dimension_violated), and a vector given as a list cannot be subtracted (C264_list_violated).  
Theorems: `C264_scalar_number`, `C264_scalar_quantity`, `C264_vector`, `C264_vector_quantity_partial`, `C264_dimension_violated`, `C264_list_violated`.

### C265 — Products and quotients with a quantity designate the physical product

*partial.* `lean/Verif/Quant/Props.lean`  
Modelled: the arithmetic of ScalarField and VectorField with numbers, quantities, single vectors and arrays, abs and powers with natural exponents. Infinities are excluded by hypotheses. Proof: each operation is a map over the visible cells; units by algebra on their sizes.  
Proved for quantities that are not null; for scalar fields times a quantity (or a quantity over a scalar field) when the unit of the product has a dimension or is at most 1. The code violates the rest: null quantities raise ZeroDivisionError (C265_zero_violated) and products without dimension in a unit greater than 1 are refused (C265_unit_violated).  
Theorems: `C265_number`, `C265_scalar_div`, `C265_scalar_mul_partial`, `C265_unit_violated`, `C265_zero_violated`, `C265_scalar_rdiv_partial`, `C265_vector_mul_partial`, `C265_vector_div`.

### C266 — Arrays, absolute values and powers act point by point

*proved.* `lean/Verif/Quant/Props.lean`  
Modelled: the arithmetic of ScalarField and VectorField with numbers, quantities, single vectors and arrays, abs and powers with natural exponents. Infinities are excluded by hypotheses. Proof: each operation is a map over the visible cells; units by algebra on their sizes.  
Proved for natural exponents; negative and fractional ones are not modelled.  
Theorems: `C266_scalar_array`, `C266_vector_array`, `C266_abs`, `C266_power`.

### C267 — Removing doublons merges the points of equal value

*partial.* `lean/Verif/Tidy/Doublons.lean`  
Modelled: Points.remove_doublons and order_on_line, Profile.get_gradient (of the whole profile and at a position) remove_local_marginal_values and get_extrema_position. Parameters: the number of decimals (IsDec), the neighbours of sklearn (IsNear), the traversal of networkx (IsDfs) and the gaussian filter of scipy (keeps the length). Proof: counting and rounding bounds; reachability in the graph of the neighbours; induction on the broken line in reduced coordinates; Chebyshev's inequality on the gaps.  
Proved for values that are not all null, with a tolerance between eps and sqrt(10) eps (the number of decimals is rounded) and a rounded value. The code violates the rest: values all null raise OverflowError (C267_null_violated), and values are rounded even where nothing is merged (C267_rounded_violated).  
Theorems: `C267_merge_partial`, `C267_null_violated`, `C267_rounded_violated`.

### C268 — Ordering points on a line permutes them

*partial.* `lean/Verif/Tidy/Order.lean`  
Modelled: Points.remove_doublons and order_on_line, Profile.get_gradient (of the whole profile and at a position) remove_local_marginal_values and get_extrema_position. Parameters: the number of decimals (IsDec), the neighbours of sklearn (IsNear), the traversal of networkx (IsDfs) and the gaussian filter of scipy (keeps the length). Proof: counting and rounding bounds; reachability in the graph of the neighbours; induction on the broken line in reduced coordinates; Chebyshev's inequality on the gaps.  
Proved for the positions when the graph of the two nearest neighbours is in one piece. The code violates the rest: values are not reordered (C268_values_violated), and a whole group of points is lost when the points are in separate groups (C268_lost_violated).  
Theorems: `C268_order_partial`, `C268_values_violated`, `C268_lost_violated`, `C268_small_refused`.

### C269 — The gradient of a profile at a position agrees with its gradients at the points

*partial.* `lean/Verif/Tidy/Slope.lean`  
Modelled: Points.remove_doublons and order_on_line, Profile.get_gradient (of the whole profile and at a position) remove_local_marginal_values and get_extrema_position. Parameters: the number of decimals (IsDec), the neighbours of sklearn (IsNear), the traversal of networkx (IsDfs) and the gaussian filter of scipy (keeps the length). Proof: counting and rounding bounds; reachability in the graph of the neighbours; induction on the broken line in reduced coordinates; Chebyshev's inequality on the gaps.  
C269_between, C269_outside and C269_affine are proved for all evenly spaced profiles; C269_profile says what get_gradient() shows. The two agree except where the quotient of the units is a number other than 1: the gradient at a position then ignores it (C269_units_violated).  
Theorems: `C269_between`, `C269_outside`, `C269_affine`, `C269_profile`, `C269_units_violated`.

### C270 — Local marginal values are the outliers of the gap to the smoothed profile

*partial.* `lean/Verif/Tidy/Local.lean`  
Modelled: Points.remove_doublons and order_on_line, Profile.get_gradient (of the whole profile and at a position) remove_local_marginal_values and get_extrema_position. Parameters: the number of decimals (IsDec), the neighbours of sklearn (IsNear), the traversal of networkx (IsDfs) and the gaussian filter of scipy (keeps the length). Proof: counting and rounding bounds; reachability in the graph of the neighbours; induction on the broken line in reduced coordinates; Chebyshev's inequality on the gaps.  
Proved for strictly increasing abscissae and at least two values. With masked points and fewer than two values the call raises (C270_single_violated).  
Theorems: `C270_masked_partial`, `C270_some_left`, `C270_smooth_kept`, `C270_single_violated`.

### C271 — Extrema of a profile are where its gradient is null

*partial.* `lean/Verif/Tidy/Extrema.lean`  
Modelled: Points.remove_doublons and order_on_line, Profile.get_gradient (of the whole profile and at a position) remove_local_marginal_values and get_extrema_position. Parameters: the number of decimals (IsDec), the neighbours of sklearn (IsNear), the traversal of networkx (IsDfs) and the gaussian filter of scipy (keeps the length). Proof: counting and rounding bounds; reachability in the graph of the neighbours; induction on the broken line in reduced coordinates; Chebyshev's inequality on the gaps.  
C271_null_gradient and C271_monotone hold for all evenly spaced profiles; a profile that is concave everywhere has exactly one maximum, within one step of its greatest value (C271_concave_partial), exactly the top for a parabola (C271_parabola). The code violates the rest: a peak is reported as a minimum (C271_zigzag_violated), and peaks are not reported as soon as one gradient is exactly null (C271_hidden_violated). Smoothing and ind=True are not modelled.  
Theorems: `C271_null_gradient`, `C271_monotone`, `C271_concave_partial`, `C271_parabola`, `C271_zigzag_violated`, `C271_hidden_violated`.

### C272 — Values and profiles of a vector field are those of its components

*partial.* `lean/Verif/Probe/Value.lean`  
Modelled: VectorField.get_value, get_profile and get_norm, on top of the models of ScalarField.get_value (Scalar) and get_profile (Line). Proof: the components are scalar fields showing the components of the vectors; sums over the grid for the norm. C276: the value read is a function of the values shown at the corners around the position (`value_of_corners`), and corners are transported by the transformations.  
Proved for grids with at least two lines in each direction; on a thinner grid every call raises IndexError (C272_thin_violated). Inside of a cell, masked corners behave as for scalar fields (C23). unit=True and get_value(ind=True) are not modelled.  
Theorems: `C272_node`, `C272_edge_y`, `C272_edge_x`, `C272_affine`, `C272_out`, `C272_profile`, `C272_profile_between`, `C272_nearest`, `C272_index`, `C272_interval`, `C272_refused`, `C272_thin_violated`.

### C273 — The norm of a vector field is a norm of its visible vectors

*partial.* `lean/Verif/Probe/Norm.lean`  
Modelled: VectorField.get_value, get_profile and get_norm, on top of the models of ScalarField.get_value (Scalar) and get_profile (Line). Proof: the components are scalar fields showing the components of the vectors; sums over the grid for the norm. C276: the value read is a function of the values shown at the corners around the position (`value_of_corners`), and corners are transported by the transformations.  
All proved but the last clause: the norm per point of a uniform flow tends to zero with the number of points when p > 1 (C273_perpoint_violated).  
Theorems: `C273_norm`, `C273_zero`, `C273_magnitude`, `C273_scale`, `C273_perpoint_violated`.

### C274 — Vortices are the zones of strong criterion

*partial.* `lean/Verif/Detect/Vortex.lean`  
Modelled: get_vortex_position on top of the zones (Centre) and collections of critical points (Cp); get_critical_points around the detection itself: mirroring, smoothing, removal of the points behind the walls, records. Proof: the bands given to the zones are half-lines cut at the greatest absolute value; invariant on the bounds of the window; sums of collections. AroundModel.lean/Around.lean: windows cut around points (C286) and refined critical points (C287), by counting the nodes of even axes in an interval. GammaModel.lean/Gamma.lean: vortex centres by the gamma criterion (C371); specification `turning`, `ShowsTurning`.  
Barycentres proved for regular axes and non-null thresholds (C274_zones_partial, C274_found_partial); the threshold has the tolerance of 1e-5 of get_zones_centers. Records proved when the first field has a vortex (C274_record_partial); otherwise the call raises ValueError as soon as a later field has one (C274_first_violated). Criteria are arbitrary functions.  
Theorems: `C274_crop`, `C274_zones_partial`, `C274_found_partial`, `C274_field`, `C274_record_partial`, `C274_first_violated`, `C274_refused`.

### C275 — Walls, smoothing and records in the detection of critical points

*partial.* `lean/Verif/Detect/Wall.lean`  
Modelled: get_vortex_position on top of the zones (Centre) and collections of critical points (Cp); get_critical_points around the detection itself: mirroring, smoothing, removal of the points behind the walls, records. Proof: the bands given to the zones are half-lines cut at the greatest absolute value; invariant on the bounds of the window; sums of collections. AroundModel.lean/Around.lean: windows cut around points (C286) and refined critical points (C287), by counting the nodes of even axes in an interval. GammaModel.lean/Gamma.lean: vortex centres by the gamma criterion (C371); specification `turning`, `ShowsTurning`.  
The mirroring, the smoothing and the detection are parameters. Walls: at most one on each side (C275_walls_partial, C275_front). Violated: a smoothing without wall changes the field of the caller (C275_argument_violated); for a record mirror_interp is ignored (C275_interp_violated).  
Theorems: `C275_walls_partial`, `C275_front`, `C275_plain`, `C275_argument_partial`, `C275_argument_violated`, `C275_record_partial`, `C275_record_argument_partial`, `C275_interp_violated`.

### C276 — Reading a value commutes with the transformations of a field

*partial.* `lean/Verif/Probe/Commute.lean`  
Modelled: VectorField.get_value, get_profile and get_norm, on top of the models of ScalarField.get_value (Scalar) and get_profile (Line). Proof: the components are scalar fields showing the components of the vectors; sums over the grid for the norm. C276: the value read is a function of the values shown at the corners around the position (`value_of_corners`), and corners are transported by the transformations.  
Scalings proved for positive factors of the axes (C276_scale_partial); a mirrored field can lose values, because only two corners of a cell are tested for a mask (C276_mirror_violated). The diagonal taken by Qhull in a cell is a parameter, the same before and after.  
Theorems: `C276_crop`, `C276_origin`, `C276_scale_partial`, `C276_unit`, `C276_sum`, `C276_product`, `C276_opposite`, `C276_mirror_violated`.

### C277 — Transforming a collection of fields transforms what is read from it

*partial.* `lean/Verif/Spatial/Algebra.lean`, `lean/Verif/Spatial/Grid.lean`, `lean/Verif/Spatial/Power.lean`  
Modelled: SpatialFields (core/spatialfields.py). Proof: refinement to physical readings (`Phys`). C277: lists of fields related one by one (`Forall₂`), invariant `Good` of the collections made of add_field. C328, C329: the loops that fill the grid, cell by cell; the errors of get_profile for all arguments. PowerModel.lean/Power.lean: powers (C376). ShareModel.lean/Share.lean: changes in place of collections that share fields (C386), by counting how often an object is held; specifications `MovedBy` and `ScaledBy`. BoundModel.lean/Bound.lean: extent, iteration and mask of collections (C389).  
Positive factors of the axes (C277_scale_partial); with a factor that has a unit, the units of the collection are not changed (C277_units_violated). Products proved whenever the call returns (C277_product_partial, C277_reachable); it returns for fields with several rows and columns (C277_computed_partial) and raises for a single line with a masked point (C277_line_violated).  
Theorems: `C277_opposite`, `C277_scale_partial`, `C277_units_violated`, `C277_origin`, `C277_product_partial`, `C277_reachable`, `C277_line_violated`, `C277_divide_violated`, `C277_computed_partial`.

### C278 — The angle deviation tells how evenly the directions around a point are spread

*partial.* `lean/Verif/Crit/Deviation.lean`  
Modelled: vortex_criterions/vortex_criterions.py: motif and masks of the non-local criteria, gamma, kappa, vorticity and divergence of whole fields with units, residual and shear vorticity, Q, Nk, Delta, lambda2, swirling strength, Stokes vorticity and its axis, fitted gradients, enstrophy. The criteria with square roots are functions over any ordered field with the root as a parameter, instantiated at the reals. Not modelled: iota, improved swirling strength, temporal versions (one field after the other), the interpolation of fill (a parameter). Proof: the motif equals its own reverse, so odd sums vanish; Cauchy-Schwarz per term; difference operators commute; sums over cells telescope. C278 (get_angle_deviation, over the reals): each term lies below its chord by convexity of the power, strictly between the ends; turning the angles swaps the two parts of the sorted list. IotaModel.lean/Iota.lean: circular distance of angles at the reals (C342). ImprovedModel.lean/Improved.lean: improved swirling strength, at one point and on fields (C362).  
The option 'local' takes the x component of the centre off both components: in a uniform flow it shows a direction where every relative velocity is null (C278_local_violated). Extremes proved where no velocity used is null (without treatment a null velocity counts as an angle of zero). Real numbers; radius in number of vectors (ind=True).  
Theorems: `C278_bounds`, `C278_extremes`, `C278_shown`, `C278_scale`, `C278_galilean`, `C278_turned`, `C278_departure`, `C278_local_violated`, `C278_vortex`.

### C279 — The points of a mean trajectory and what is associated to them

*partial.* `lean/Verif/Cp/MeanTraj.lean`  
Modelled: the CritPoints collection, merge and mean trajectories (vortex_detection.py). Proof: relation `At` between collections and points, invariants over histories. C279: averaging of a group (rounded times with exact decimal rounding, tolerance compared by squares) and the MeanTrajectory object (crop, scale with a store for the base trajectories, inherited sort and remove): rows of points with their associated values. C281: extrema by index along trajectories (TurnModel.lean), from the model of get_extrema_position (Tidy), interpolation at fractional indices; affine map from indices to times.  
Means proved when the rounding of the times is finer than the tolerance with which values are looked for (C279_average_partial); otherwise time steps are lost (C279_steps_violated: three points per unit of time, eighteen points). crop is right (C279_crop, C279_crop_ind); scale is right for positive factors (C279_scale_partial), gives negative standard deviations for negative ones (C279_negative_violated) and changes the base trajectories in place (C279_inplace_violated); sort and remove leave the associated values behind (C279_sort_violated, C279_remove_violated). min_nmb_to_avg of at least one.  
Theorems: `C279_points`, `C279_average_partial`, `C279_steps_violated`, `C279_crop`, `C279_crop_ind`, `C279_scale_partial`, `C279_negative_violated`, `C279_inplace_violated`, `C279_remove_violated`, `C279_sort_violated`.

### C280 — The vector field of a system of vortices is the sum of its parts in metres per second

*partial.* `lean/Verif/Vortex/FieldUnits.lean`  
Modelled: vortex_creation/vortex_creation.py over the reals: every vortex class, walls and images, the vortex system with its caches and identifiers, evolution, trajectories, velocity map. The Bessel functions of the Lamb-Chaplygin dipole are parameters. Not modelled: HsvSystem, StepSystem, drawings. Proof: refinement of the cached system to its content (images = sum over the sublists of the walls) by induction on the history; reflection of a round vortex; antisymmetric double sums. C280: fields made from a system, with units and masks, on top of the vector field model (Vector/Model.lean), by induction on the parts; a vortex is there any function with rational values. SystemsModel.lean/Systems.lean: background flows of HsvSystem and StepSystem (C368). SeriesModel.lean/Series.lean: velocity fields of a system in time (C370).  
C280_field for increasing axes of at least two points and custom fields in units of velocity. get_vector agrees with the field when the custom fields are in metres per second (C280_vector_partial); otherwise it adds numbers of different units (C280_unit_violated gives the exact gap), and the field is refused for a custom field without a unit of velocity, among them the default unit, though get_vector answers (C280_refused_violated, C280_default_violated). On a decreasing axis the mask of a custom field is put at the mirrored points (C280_reversed_violated). Velocities are rational here.  
Theorems: `C280_field`, `C280_vector_partial`, `C280_unit_violated`, `C280_refused_violated`, `C280_default_violated`, `C280_reversed_violated`.

### C281 — The changes of direction of a trajectory are on it, where it stops along the direction

*partial.* `lean/Verif/Cp/Turn.lean`  
Modelled: the CritPoints collection, merge and mean trajectories (vortex_detection.py). Proof: relation `At` between collections and points, invariants over histories. C279: averaging of a group (rounded times with exact decimal rounding, tolerance compared by squares) and the MeanTrajectory object (crop, scale with a store for the base trajectories, inherited sort and remove): rows of points with their associated values. C281: extrema by index along trajectories (TurnModel.lean), from the model of get_extrema_position (Tidy), interpolation at fractional indices; affine map from indices to times.  
Without smoothing. C281_points, C281_null, C281_monotone and C281_turn for evenly spaced times; uneven times refuse the whole call (C281_uneven_violated); turns falling exactly on points are lost after the first (C281_lost_violated); no trajectory gives an IndexError (C281_empty_violated); a wrong direction is refused only if some trajectory is long enough (C281_direction_partial, C281_direction_violated).  
Theorems: `C281_points`, `C281_null`, `C281_monotone`, `C281_turn`, `C281_direction_violated`, `C281_direction_partial`, `C281_empty_violated`, `C281_uneven_violated`, `C281_lost_violated`.

### C282 — Clusters are made of the points, each once, and of points of a dense zone

*partial.* `lean/Verif/Points/Group.lean`  
Modelled: Points and OrientedPoints as position and value lists, operation histories (core/points.py, core/orientedpoints.py). Proof: the list of rows as specification, invariants by induction on histories. GroupModel.lean/Group.lean: clusters for any labelling (C282), change of unit (C283), the array shared with the caller through histories (C284). OrientModel.lean/Orient.lean: sums, decomposition and streamlines of oriented points (C311-C313, C27_place_violated). DensityModel.lean/Density.lean: densities of points and edges of the envelope (C339-C341), trapezium masses, nearest nodes, an invariant on the list of edges. KindsModel.lean/Kinds.lean: densities of the kinds of critical points (C356), on top of C339.  
Any labels and any order of the set of labels; DBSCAN itself is described by IsDbscan (scikit-learn is not modelled). Noise points come back as one more set (C282_noise_violated).  
Theorems: `C282_sets`, `C282_all`, `C282_dense_partial`, `C282_noise_violated`.

### C283 — Changing a unit of points keeps every physical position and value

*partial.* `lean/Verif/Points/Group.lean`  
Modelled: Points and OrientedPoints as position and value lists, operation histories (core/points.py, core/orientedpoints.py). Proof: the list of rows as specification, invariants by induction on histories. GroupModel.lean/Group.lean: clusters for any labelling (C282), change of unit (C283), the array shared with the caller through histories (C284). OrientModel.lean/Orient.lean: sums, decomposition and streamlines of oriented points (C311-C313, C27_place_violated). DensityModel.lean/Density.lean: densities of points and edges of the envelope (C339-C341), trapezium masses, nearest nodes, an invariant on the list of edges. KindsModel.lean/Kinds.lean: densities of the kinds of critical points (C356), on top of C339.  
Values stored as integers raise TypeError (C283_integers_violated).  
Theorems: `C283_positions`, `C283_values_partial`, `C283_refused`, `C283_back`, `C283_integers_violated`.

### C284 — Moving a set of points leaves the array it was made of alone

*partial.* `lean/Verif/Points/Group.lean`  
Modelled: Points and OrientedPoints as position and value lists, operation histories (core/points.py, core/orientedpoints.py). Proof: the list of rows as specification, invariants by induction on histories. GroupModel.lean/Group.lean: clusters for any labelling (C282), change of unit (C283), the array shared with the caller through histories (C284). OrientModel.lean/Orient.lean: sums, decomposition and streamlines of oriented points (C311-C313, C27_place_violated). DensityModel.lean/Density.lean: densities of points and edges of the envelope (C339-C341), trapezium masses, nearest nodes, an invariant on the list of edges. KindsModel.lean/Kinds.lean: densities of the kinds of critical points (C356), on top of C339.  
The positions are np.asarray of the caller's array: in-place operations write in it (C284_array_violated, C284_origin_violated) until the set has an array of its own (C284_array_partial). C284_set: the set itself is right.  
Theorems: `C284_array_partial`, `C284_array_violated`, `C284_origin_violated`, `C284_set`.

### C285 — The velocity field of a potential system shows the velocity of each position

*partial.* `lean/Verif/Panel/Grid.lean`  
Modelled: potential_flow/potential_flow.py over the reals: panels, refinement of paths, objects, systems with cached sources, velocity (quadrature = exact integral, np.linalg.solve = a parameter that returns solutions), lines, pressure. Not modelled: grids of velocities, remove_solid, the end of get_separation_position, drawings. Proof: the half-angle normal, the fundamental theorem of calculus for the influence of a panel near its own centre (arctan and log), continuity of parametric integrals for the other panels, invariant on histories for the cache, induction on the edges of a path. GridModel.lean/Grid.lean: velocity on grids, removal of solids and pressure fields (C285). SearchModel.lean/Search.lean: the search of the length of pressure as a loop with fuel, whose end is a relation, bisection of a Lipschitz function; the thickness of Thwaites (C353, C354).  
The containment test of matplotlib is a parameter. raw=True gives transposed arrays (C285_raw_violated), without mask and with uninitialised values in solids (C285_junk_violated).  
Theorems: `C285_grid`, `C285_refused`, `C285_raw_violated`, `C285_junk_violated`, `C285_line`, `C285_pressure`.

### C286 — The field around a point holds the asked lines and columns around it

*partial.* `lean/Verif/Detect/Around.lean`  
Modelled: get_vortex_position on top of the zones (Centre) and collections of critical points (Cp); get_critical_points around the detection itself: mirroring, smoothing, removal of the points behind the walls, records. Proof: the bands given to the zones are half-lines cut at the greatest absolute value; invariant on the bounds of the window; sums of collections. AroundModel.lean/Around.lean: windows cut around points (C286) and refined critical points (C287), by counting the nodes of even axes in an interval. GammaModel.lean/Gamma.lean: vortex centres by the gamma criterion (C371); specification `turning`, `ShowsTurning`.  
Content for every field and point; the count of lines for centres of cells of even grids: right for even numbers (C286_size_partial), one too many for odd ones (C286_size_violated).  
Theorems: `C286_window`, `C286_size_partial`, `C286_size_violated`.

### C287 — Refined critical points are at the extremum of the criterion near their cell

*partial.* `lean/Verif/Detect/Around.lean`  
Modelled: get_vortex_position on top of the zones (Centre) and collections of critical points (Cp); get_critical_points around the detection itself: mirroring, smoothing, removal of the points behind the walls, records. Proof: the bands given to the zones are half-lines cut at the greatest absolute value; invariant on the bounds of the window; sums of collections. AroundModel.lean/Around.lean: windows cut around points (C286) and refined critical points (C287), by counting the nodes of even axes in an interval. GammaModel.lean/Gamma.lean: vortex centres by the gamma criterion (C371); specification `turning`, `ShowsTurning`.  
The criterions and the spline minimum are parameters. Saddles are never refined, since the stored index is never -1 (C287_saddle_violated); with an odd window no point is (C287_odd_violated).  
Theorems: `C287_points`, `C287_refined_partial`, `C287_masked`, `C287_saddle_violated`, `C287_odd_violated`, `C287_kinds`.

### C288 — Two sets of critical points are equal exactly when they hold the same points

*partial.* `lean/Verif/Same/Crit.lean`  
Modelled: __eq__ of VectorField, ScalarField, Points and Profile with numpy's comparison and broadcasting of arrays of different shapes (the outcome when no broadcasting is possible depends on the version of numpy and is a parameter, as is the comparison of incompatible units), the tolerance of np.allclose in exact arithmetic. Proof: pointwise characterisation of the array comparisons, induction on the lists. Also TemporalFields.__eq__ (Records), the truth value of NotImplemented being a parameter. CritModel.lean/Crit.lean: CritPoints.__eq__ (C288).  
Without NaN and when numpy does not stretch the arrays (C288_equal_partial). The empty set is equal to every set of one instant (C288_empty_violated), removed trajectories to trajectories not computed (C288_uncomputed_violated), oriented points with other orientations (C288_orientations_violated).  
Theorems: `C288_equal_partial`, `C288_refl`, `C288_empty_violated`, `C288_uncomputed_violated`, `C288_orientations_violated`.

### C289 — A VTK file of a field shows the field

*partial.* `lean/Verif/Export/Vtk.lean`  
Modelled: the VTK files of fields and points (VtkModel.lean: header, order of the points with the first axis varying fastest, axes; C289, C290) and the text files of points, profiles and critical points (TextModel.lean, C291). Floats are written and read exactly, the existence of folders is a parameter. Proof: the relation Shows gives the position of each line of the file from the order defined by the format; folds over distinct file names. SeriesModel.lean/Series.lean: records made of several files and conversions (C292-C295), by induction on the files with the specification of add_field. MatModel.lean/Mat.lean: matlab files of fields and profiles, with the removal of dimensions of length one (C296). VideoModel.lean/Video.lean: grey levels of the frames of a video (C369).  
For the axes put in the reverse order of the file (C289_scalar_partial, C289_vector_partial); with the default axes the positions are exchanged (C289_order_violated). Masked vectors are written with their hidden values (C289_mask_violated); bare file names are refused (C289_bare_violated).  
Theorems: `C289_scalar_partial`, `C289_order_violated`, `C289_vector_partial`, `C289_mask_violated`, `C289_refused`, `C289_accepted`, `C289_bare_violated`.

### C290 — A VTK file of points shows the points

*partial.* `lean/Verif/Export/Vtk.lean`  
Modelled: the VTK files of fields and points (VtkModel.lean: header, order of the points with the first axis varying fastest, axes; C289, C290) and the text files of points, profiles and critical points (TextModel.lean, C291). Floats are written and read exactly, the existence of folders is a parameter. Proof: the relation Shows gives the position of each line of the file from the order defined by the format; folds over distinct file names. SeriesModel.lean/Series.lean: records made of several files and conversions (C292-C295), by induction on the files with the specification of add_field. MatModel.lean/Mat.lean: matlab files of fields and profiles, with the removal of dimensions of length one (C296). VideoModel.lean/Video.lean: grey levels of the frames of a video (C369).  
For the default axes (C290_points_partial); other axes are ignored (C290_axis_violated), points without values make a file with too few of them (C290_values_violated).  
Theorems: `C290_points_partial`, `C290_axis_violated`, `C290_values_violated`.

### C291 — Text files of points, profiles and critical points give back what was written

*partial.* `lean/Verif/Export/Text.lean`  
Modelled: the VTK files of fields and points (VtkModel.lean: header, order of the points with the first axis varying fastest, axes; C289, C290) and the text files of points, profiles and critical points (TextModel.lean, C291). Floats are written and read exactly, the existence of folders is a parameter. Proof: the relation Shows gives the position of each line of the file from the order defined by the format; folds over distinct file names. SeriesModel.lean/Series.lean: records made of several files and conversions (C292-C295), by induction on the files with the specification of add_field. MatModel.lean/Mat.lean: matlab files of fields and profiles, with the removal of dimensions of length one (C296). VideoModel.lean/Video.lean: grey levels of the frames of a video (C369).  
For at least two points (C291_points_partial, C291_profile_partial); the file of a single point cannot be read (C291_single_violated, C291_single_profile_violated). Critical points: C291_crit. Floats are written exactly.  
Theorems: `C291_points_partial`, `C291_single_violated`, `C291_profile_partial`, `C291_single_profile_violated`, `C291_crit`.

### C292 — A series of pictures is read in order, each picture at its time

*partial.* `lean/Verif/Export/Series.lean`  
Modelled: the VTK files of fields and points (VtkModel.lean: header, order of the points with the first axis varying fastest, axes; C289, C290) and the text files of points, profiles and critical points (TextModel.lean, C291). Floats are written and read exactly, the existence of folders is a parameter. Proof: the relation Shows gives the position of each line of the file from the order defined by the format; folds over distinct file names. SeriesModel.lean/Series.lean: records made of several files and conversions (C292-C295), by induction on the files with the specification of add_field. MatModel.lean/Mat.lean: matlab files of fields and profiles, with the removal of dimensions of length one (C296). VideoModel.lean/Video.lean: grey levels of the frames of a video (C369).  
Windows within the pictures (C292_pictures_partial, C292_order, C292_refused). Windows that end after them change the list of the caller (C292_argument_violated) and are refused as tuples (C292_tuple_violated).  
Theorems: `C292_pictures_partial`, `C292_order`, `C292_refused`, `C292_argument_violated`, `C292_tuple_violated`.

### C293 — A series of DaVis files is read in order, each file at its time

*partial.* `lean/Verif/Export/Series.lean`  
Modelled: the VTK files of fields and points (VtkModel.lean: header, order of the points with the first axis varying fastest, axes; C289, C290) and the text files of points, profiles and critical points (TextModel.lean, C291). Floats are written and read exactly, the existence of folders is a parameter. Proof: the relation Shows gives the position of each line of the file from the order defined by the format; folds over distinct file names. SeriesModel.lean/Series.lean: records made of several files and conversions (C292-C295), by induction on the files with the specification of add_field. MatModel.lean/Mat.lean: matlab files of fields and profiles, with the removal of dimensions of length one (C296). VideoModel.lean/Video.lean: grey levels of the frames of a video (C369).  
Order, content and spacing for files of the same time step (C293_davis_partial). The time of a file depends on the window and the increment (C293_part_violated), is never 0 (C293_origin_violated); spatial records of vector files cannot be made (C293_spatial_violated). import_from_VC7s with additional fields is not modelled.  
Theorems: `C293_davis_partial`, `C293_part_violated`, `C293_origin_violated`, `C293_spatial_violated`.

### C294 — Saved fields are gathered in one record

*partial.* `lean/Verif/Export/Series.lean`  
Modelled: the VTK files of fields and points (VtkModel.lean: header, order of the points with the first axis varying fastest, axes; C289, C290) and the text files of points, profiles and critical points (TextModel.lean, C291). Floats are written and read exactly, the existence of folders is a parameter. Proof: the relation Shows gives the position of each line of the file from the order defined by the format; folds over distinct file names. SeriesModel.lean/Series.lean: records made of several files and conversions (C292-C295), by induction on the files with the specification of add_field. MatModel.lean/Mat.lean: matlab files of fields and profiles, with the removal of dimensions of length one (C296). VideoModel.lean/Video.lean: grey levels of the frames of a video (C369).  
Content (C294_content_partial, C294_files); all the fields are at time 0 (C294_times_violated).  
Theorems: `C294_content_partial`, `C294_files`, `C294_times_violated`.

### C295 — DaVis files are converted to saved fields

*partial.* `lean/Verif/Export/Series.lean`  
Modelled: the VTK files of fields and points (VtkModel.lean: header, order of the points with the first axis varying fastest, axes; C289, C290) and the text files of points, profiles and critical points (TextModel.lean, C291). Floats are written and read exactly, the existence of folders is a parameter. Proof: the relation Shows gives the position of each line of the file from the order defined by the format; folds over distinct file names. SeriesModel.lean/Series.lean: records made of several files and conversions (C292-C295), by induction on the files with the specification of add_field. MatModel.lean/Mat.lean: matlab files of fields and profiles, with the removal of dimensions of length one (C296). VideoModel.lean/Video.lean: grey levels of the frames of a video (C369).  
Folders (C295_folder, for IM7 files of different names). A single file is always compressed (C295_compressed_violated), a single vector file cannot be converted (C295_vector_violated), nor any vector file to a new name (C295_new_violated).  
Theorems: `C295_folder`, `C295_compressed_violated`, `C295_vector_violated`, `C295_new_violated`.

### C296 — Matlab files give back the fields and profiles that were written

*partial.* `lean/Verif/Export/Mat.lean`  
Modelled: the VTK files of fields and points (VtkModel.lean: header, order of the points with the first axis varying fastest, axes; C289, C290) and the text files of points, profiles and critical points (TextModel.lean, C291). Floats are written and read exactly, the existence of folders is a parameter. Proof: the relation Shows gives the position of each line of the file from the order defined by the format; folds over distinct file names. SeriesModel.lean/Series.lean: records made of several files and conversions (C292-C295), by induction on the files with the specification of add_field. MatModel.lean/Mat.lean: matlab files of fields and profiles, with the removal of dimensions of length one (C296). VideoModel.lean/Video.lean: grey levels of the frames of a video (C369).  
At least two points per axis (C296_scalar_partial, C296_vector_partial, C296_profile_partial, C296_grids); files of an axis of one point cannot be read (C296_thin_violated, C296_single_violated). Points and critical points are not modelled.  
Theorems: `C296_scalar_partial`, `C296_vector_partial`, `C296_grids`, `C296_thin_violated`, `C296_profile_partial`, `C296_single_violated`.

### C297 — A browsed figure always shows one of its frames

*partial.* `lean/Verif/Display/Browse.lean`  
BrowseModel.lean: the state machine of ButtonManager (keys, buttons, timer, slider, limits, animations) without the widgets; Browse.lean, Moves.lean, Limits.lean (C297-C302) by induction on histories of events. BufferModel.lean/BufferLemmas.lean/Buffer.lean: the buffer of drawings of a Displayer as an LRU list, with an invariant on what is visible (C303, C304). LinkModel.lean/Link.lean: linked figures, the update being a depth-first flood of the graph of links, by induction on the number of figures not yet on the frame (C305, C306). ColorModel.lean/Color.lean: bounds of colour scales, discrete maps, gradients, segments, aspects and grids of axes (C314-C320). CursorModel.lean/Cursor.lean: the data under the mouse (C321, C322). The drawing itself and the widgets are not modelled. MarksModel.lean/Marks.lean: marks of the slider as a state beside that of the displayer, invariant over histories of frames (C363). LineModel.lean/Line.lean: coloured lines (C366) and colour maps made by hand (C367). FramesModel.lean/Frames.lean: data and limits of a displayer (C373); specification `Hull`. BarModel.lean/Bar.lean: colour bar of a window (C375); specification `Extremes`. DeskModel.lean/Desk.lean: open figures and animations (C379).  
Histories without a typed 0 before up or down and with limits among the frames (C297_range_partial); 0 then up or down goes to index -1 (C297_zero_violated), and a number beyond the frames is accepted as a limit (C297_limit_violated).  
Theorems: `C297_range_partial`, `C297_zero_violated`, `C297_limit_violated`.

### C298 — Next and previous move by the step, within the frames

*proved.* `lean/Verif/Display/Moves.lean`  
BrowseModel.lean: the state machine of ButtonManager (keys, buttons, timer, slider, limits, animations) without the widgets; Browse.lean, Moves.lean, Limits.lean (C297-C302) by induction on histories of events. BufferModel.lean/BufferLemmas.lean/Buffer.lean: the buffer of drawings of a Displayer as an LRU list, with an invariant on what is visible (C303, C304). LinkModel.lean/Link.lean: linked figures, the update being a depth-first flood of the graph of links, by induction on the number of figures not yet on the frame (C305, C306). ColorModel.lean/Color.lean: bounds of colour scales, discrete maps, gradients, segments, aspects and grids of axes (C314-C320). CursorModel.lean/Cursor.lean: the data under the mouse (C321, C322). The drawing itself and the widgets are not modelled. MarksModel.lean/Marks.lean: marks of the slider as a state beside that of the displayer, invariant over histories of frames (C363). LineModel.lean/Line.lean: coloured lines (C366) and colour maps made by hand (C367). FramesModel.lean/Frames.lean: data and limits of a displayer (C373); specification `Hull`. BarModel.lean/Bar.lean: colour bar of a window (C375); specification `Extremes`. DeskModel.lean/Desk.lean: open figures and animations (C379).  
Every state, every number of digits.  
Theorems: `C298_next`, `C298_prev`, `C298_back`, `C298_number`, `C298_step`, `C298_interval`.

### C299 — Going to a frame by its number shows this frame

*partial.* `lean/Verif/Display/Moves.lean`  
BrowseModel.lean: the state machine of ButtonManager (keys, buttons, timer, slider, limits, animations) without the widgets; Browse.lean, Moves.lean, Limits.lean (C297-C302) by induction on histories of events. BufferModel.lean/BufferLemmas.lean/Buffer.lean: the buffer of drawings of a Displayer as an LRU list, with an invariant on what is visible (C303, C304). LinkModel.lean/Link.lean: linked figures, the update being a depth-first flood of the graph of links, by induction on the number of figures not yet on the frame (C305, C306). ColorModel.lean/Color.lean: bounds of colour scales, discrete maps, gradients, segments, aspects and grids of axes (C314-C320). CursorModel.lean/Cursor.lean: the data under the mouse (C321, C322). The drawing itself and the widgets are not modelled. MarksModel.lean/Marks.lean: marks of the slider as a state beside that of the displayer, invariant over histories of frames (C363). LineModel.lean/Line.lean: coloured lines (C366) and colour maps made by hand (C367). FramesModel.lean/Frames.lean: data and limits of a displayer (C373); specification `Hull`. BarModel.lean/Bar.lean: colour bar of a window (C375); specification `Extremes`. DeskModel.lean/Desk.lean: open figures and animations (C379).  
All the frames but the last (C299_goto_partial, C299_ends); the last frame cannot be reached by its number (C299_last_violated).  
Theorems: `C299_goto_partial`, `C299_last_violated`, `C299_ends`.

### C300 — Playing goes round the frames

*partial.* `lean/Verif/Display/Limits.lean`, `lean/Verif/Display/Moves.lean`  
BrowseModel.lean: the state machine of ButtonManager (keys, buttons, timer, slider, limits, animations) without the widgets; Browse.lean, Moves.lean, Limits.lean (C297-C302) by induction on histories of events. BufferModel.lean/BufferLemmas.lean/Buffer.lean: the buffer of drawings of a Displayer as an LRU list, with an invariant on what is visible (C303, C304). LinkModel.lean/Link.lean: linked figures, the update being a depth-first flood of the graph of links, by induction on the number of figures not yet on the frame (C305, C306). ColorModel.lean/Color.lean: bounds of colour scales, discrete maps, gradients, segments, aspects and grids of axes (C314-C320). CursorModel.lean/Cursor.lean: the data under the mouse (C321, C322). The drawing itself and the widgets are not modelled. MarksModel.lean/Marks.lean: marks of the slider as a state beside that of the displayer, invariant over histories of frames (C363). LineModel.lean/Line.lean: coloured lines (C366) and colour maps made by hand (C367). FramesModel.lean/Frames.lean: data and limits of a displayer (C373); specification `Hull`. BarModel.lean/Bar.lean: colour bar of a window (C375); specification `Extremes`. DeskModel.lean/Desk.lean: open figures and animations (C379).  
The frames played are consecutive and start again (C300_play_partial, C300_limits_partial), but the last frame and the second limit are never shown (C300_last_violated, C300_limit_violated), and playing with only a second limit fails (C300_alone_violated).  
Theorems: `C300_alone_violated`, `C300_play_partial`, `C300_last_violated`, `C300_limits_partial`, `C300_limit_violated`.

### C301 — Limits of a browsed figure

*partial.* `lean/Verif/Display/Limits.lean`  
BrowseModel.lean: the state machine of ButtonManager (keys, buttons, timer, slider, limits, animations) without the widgets; Browse.lean, Moves.lean, Limits.lean (C297-C302) by induction on histories of events. BufferModel.lean/BufferLemmas.lean/Buffer.lean: the buffer of drawings of a Displayer as an LRU list, with an invariant on what is visible (C303, C304). LinkModel.lean/Link.lean: linked figures, the update being a depth-first flood of the graph of links, by induction on the number of figures not yet on the frame (C305, C306). ColorModel.lean/Color.lean: bounds of colour scales, discrete maps, gradients, segments, aspects and grids of axes (C314-C320). CursorModel.lean/Cursor.lean: the data under the mouse (C321, C322). The drawing itself and the widgets are not modelled. MarksModel.lean/Marks.lean: marks of the slider as a state beside that of the displayer, invariant over histories of frames (C363). LineModel.lean/Line.lean: coloured lines (C366) and colour maps made by hand (C367). FramesModel.lean/Frames.lean: data and limits of a displayer (C373); specification `Hull`. BarModel.lean/Bar.lean: colour bar of a window (C375); specification `Extremes`. DeskModel.lean/Desk.lean: open figures and animations (C379).  
First limits, removal, clearing and visits (C301_first, C301_second, C301_remove, C301_clear, C301_visit, C301_no_error); the order is lost when the first limit is removed and set again beyond the second (C301_order_violated), and playing is then stuck (C301_stuck_violated).  
Theorems: `C301_first`, `C301_second`, `C301_remove`, `C301_clear`, `C301_visit`, `C301_order_violated`, `C301_stuck_violated`, `C301_no_error`.

### C302 — An animation holds the frames asked for, in order, and leaves the figure as it was

*partial.* `lean/Verif/Display/Limits.lean`  
BrowseModel.lean: the state machine of ButtonManager (keys, buttons, timer, slider, limits, animations) without the widgets; Browse.lean, Moves.lean, Limits.lean (C297-C302) by induction on histories of events. BufferModel.lean/BufferLemmas.lean/Buffer.lean: the buffer of drawings of a Displayer as an LRU list, with an invariant on what is visible (C303, C304). LinkModel.lean/Link.lean: linked figures, the update being a depth-first flood of the graph of links, by induction on the number of figures not yet on the frame (C305, C306). ColorModel.lean/Color.lean: bounds of colour scales, discrete maps, gradients, segments, aspects and grids of axes (C314-C320). CursorModel.lean/Cursor.lean: the data under the mouse (C321, C322). The drawing itself and the widgets are not modelled. MarksModel.lean/Marks.lean: marks of the slider as a state beside that of the displayer, invariant over histories of frames (C363). LineModel.lean/Line.lean: coloured lines (C366) and colour maps made by hand (C367). FramesModel.lean/Frames.lean: data and limits of a displayer (C373); specification `Hull`. BarModel.lean/Bar.lean: colour bar of a window (C375); specification `Extremes`. DeskModel.lean/Desk.lean: open figures and animations (C379).  
The figure is restored and the frames are in order (C302_animation_partial); the first field is missing (C302_first_violated).  
Theorems: `C302_animation_partial`, `C302_first_violated`.

### C303 — The axes hold the drawing of the current frame only

*partial.* `lean/Verif/Display/Buffer.lean`  
BrowseModel.lean: the state machine of ButtonManager (keys, buttons, timer, slider, limits, animations) without the widgets; Browse.lean, Moves.lean, Limits.lean (C297-C302) by induction on histories of events. BufferModel.lean/BufferLemmas.lean/Buffer.lean: the buffer of drawings of a Displayer as an LRU list, with an invariant on what is visible (C303, C304). LinkModel.lean/Link.lean: linked figures, the update being a depth-first flood of the graph of links, by induction on the number of figures not yet on the frame (C305, C306). ColorModel.lean/Color.lean: bounds of colour scales, discrete maps, gradients, segments, aspects and grids of axes (C314-C320). CursorModel.lean/Cursor.lean: the data under the mouse (C321, C322). The drawing itself and the widgets are not modelled. MarksModel.lean/Marks.lean: marks of the slider as a state beside that of the displayer, invariant over histories of frames (C363). LineModel.lean/Line.lean: coloured lines (C366) and colour maps made by hand (C367). FramesModel.lean/Frames.lean: data and limits of a displayer (C373); specification `Hull`. BarModel.lean/Bar.lean: colour bar of a window (C375); specification `Extremes`. DeskModel.lean/Desk.lean: open figures and animations (C379).  
Buffers of positive size and successive drawings of different frames (C303_one_drawing_partial, C303_current); without a buffer the drawings pile up (C303_pile_violated), and drawing the same frame twice without removal hides it (C303_twice_violated).  
Theorems: `C303_one_drawing_partial`, `C303_pile_violated`, `C303_twice_violated`, `C303_current`.

### C304 — The buffer keeps the frames drawn last and draws them once

*proved.* `lean/Verif/Display/Buffer.lean`  
BrowseModel.lean: the state machine of ButtonManager (keys, buttons, timer, slider, limits, animations) without the widgets; Browse.lean, Moves.lean, Limits.lean (C297-C302) by induction on histories of events. BufferModel.lean/BufferLemmas.lean/Buffer.lean: the buffer of drawings of a Displayer as an LRU list, with an invariant on what is visible (C303, C304). LinkModel.lean/Link.lean: linked figures, the update being a depth-first flood of the graph of links, by induction on the number of figures not yet on the frame (C305, C306). ColorModel.lean/Color.lean: bounds of colour scales, discrete maps, gradients, segments, aspects and grids of axes (C314-C320). CursorModel.lean/Cursor.lean: the data under the mouse (C321, C322). The drawing itself and the widgets are not modelled. MarksModel.lean/Marks.lean: marks of the slider as a state beside that of the displayer, invariant over histories of frames (C363). LineModel.lean/Line.lean: coloured lines (C366) and colour maps made by hand (C367). FramesModel.lean/Frames.lean: data and limits of a displayer (C373); specification `Hull`. BarModel.lean/Bar.lean: colour bar of a window (C375); specification `Extremes`. DeskModel.lean/Desk.lean: open figures and animations (C379).  
Every positive buffer size and sequence of frames.  
Theorems: `C304_kept`, `C304_reuse`.

### C305 — Links between figures go both ways

*proved.* `lean/Verif/Display/Link.lean`  
BrowseModel.lean: the state machine of ButtonManager (keys, buttons, timer, slider, limits, animations) without the widgets; Browse.lean, Moves.lean, Limits.lean (C297-C302) by induction on histories of events. BufferModel.lean/BufferLemmas.lean/Buffer.lean: the buffer of drawings of a Displayer as an LRU list, with an invariant on what is visible (C303, C304). LinkModel.lean/Link.lean: linked figures, the update being a depth-first flood of the graph of links, by induction on the number of figures not yet on the frame (C305, C306). ColorModel.lean/Color.lean: bounds of colour scales, discrete maps, gradients, segments, aspects and grids of axes (C314-C320). CursorModel.lean/Cursor.lean: the data under the mouse (C321, C322). The drawing itself and the widgets are not modelled. MarksModel.lean/Marks.lean: marks of the slider as a state beside that of the displayer, invariant over histories of frames (C363). LineModel.lean/Line.lean: coloured lines (C366) and colour maps made by hand (C367). FramesModel.lean/Frames.lean: data and limits of a displayer (C373); specification `Hull`. BarModel.lean/Bar.lean: colour bar of a window (C375); specification `Extremes`. DeskModel.lean/Desk.lean: open figures and animations (C379).  
Every sequence of links from figures without links.  
Theorems: `C305_both_ways`.

### C306 — Linked figures show the same frame

*partial.* `lean/Verif/Display/Link.lean`  
BrowseModel.lean: the state machine of ButtonManager (keys, buttons, timer, slider, limits, animations) without the widgets; Browse.lean, Moves.lean, Limits.lean (C297-C302) by induction on histories of events. BufferModel.lean/BufferLemmas.lean/Buffer.lean: the buffer of drawings of a Displayer as an LRU list, with an invariant on what is visible (C303, C304). LinkModel.lean/Link.lean: linked figures, the update being a depth-first flood of the graph of links, by induction on the number of figures not yet on the frame (C305, C306). ColorModel.lean/Color.lean: bounds of colour scales, discrete maps, gradients, segments, aspects and grids of axes (C314-C320). CursorModel.lean/Cursor.lean: the data under the mouse (C321, C322). The drawing itself and the widgets are not modelled. MarksModel.lean/Marks.lean: marks of the slider as a state beside that of the displayer, invariant over histories of frames (C363). LineModel.lean/Line.lean: coloured lines (C366) and colour maps made by hand (C367). FramesModel.lean/Frames.lean: data and limits of a displayer (C373); specification `Hull`. BarModel.lean/Bar.lean: colour bar of a window (C375); specification `Extremes`. DeskModel.lean/Desk.lean: open figures and animations (C379).  
Every graph of links: figures that agree keep agreeing (C306_same_frame), and all follow to a new frame (C306_all_follow_partial). A figure already on the frame stops the update (C306_behind_violated), linking does not bring the figures together (C306_link_violated), and shorter figures are given an index of no frame (C306_length_violated).  
Theorems: `C306_all_follow_partial`, `C306_same_frame`, `C306_behind_violated`, `C306_link_violated`, `C306_length_violated`.

### C307 — Deleting listed files deletes nothing else

*partial.* `lean/Verif/Cleaning/Delete.lean`, `lean/Verif/Cleaning/Search.lean`  
Model.lean: a disk is a forest of folders and files, with os.walk, os.remove, os.rmdir and shutil.rmtree on it; load_files_from_regex, delete_existing_files and remove_files_in_dirs over it. Spec.lean: what a disk holds (Has) and what deletions do to it, by induction on the forest. Lemmas.lean, Walk.lean: loops of deletions, content and order of walks. Delete.lean (C307, C308), Search.lean (C309). TreeModel.lean/Tree.lean: the dictionaries of build_tree (C310). Regular expressions are predicates; links and access rights are not modelled. ShowModel.lean/Show.lean: the lines of a tree and how a reader understands indented lines (C345).  
Safety holds for every disk and outcome (C307_only_listed, C307_files_kept, C307_refused, C307_all_gone); it returns when the folders are not nested and recursive is given (C307_returns_partial). Folders inside one another, as a search lists them, end with an exception after the files are deleted (C307_nested_violated, C307_searched_violated); a folder that is not empty is a NameError on POSIX instead of a question (C307_full_violated); an empty object is an IndexError (C307_empty_violated).  
Theorems: `C307_only_listed`, `C307_files_kept`, `C307_refused`, `C307_all_gone`, `C307_returns_partial`, `C307_nested_violated`, `C307_full_violated`, `C307_empty_violated`, `C307_searched_violated`.

### C308 — remove_files_in_dirs deletes exactly the files asked for

*partial.* `lean/Verif/Cleaning/Delete.lean`  
Model.lean: a disk is a forest of folders and files, with os.walk, os.remove, os.rmdir and shutil.rmtree on it; load_files_from_regex, delete_existing_files and remove_files_in_dirs over it. Spec.lean: what a disk holds (Has) and what deletions do to it, by induction on the forest. Lemmas.lean, Walk.lean: loops of deletions, content and order of walks. Delete.lean (C307, C308), Search.lean (C309). TreeModel.lean/Tree.lean: the dictionaries of build_tree (C310). Regular expressions are predicates; links and access rights are not modelled. ShowModel.lean/Show.lean: the lines of a tree and how a reader understands indented lines (C345).  
C308_exactly, C308_refused; depth, remove_dir and remove_files are never read (C308_arguments_violated).  
Theorems: `C308_exactly`, `C308_refused`, `C308_arguments_violated`.

### C309 — A search of files lists exactly the paths asked for

*partial.* `lean/Verif/Cleaning/Search.lean`  
Model.lean: a disk is a forest of folders and files, with os.walk, os.remove, os.rmdir and shutil.rmtree on it; load_files_from_regex, delete_existing_files and remove_files_in_dirs over it. Spec.lean: what a disk holds (Has) and what deletions do to it, by induction on the forest. Lemmas.lean, Walk.lean: loops of deletions, content and order of walks. Delete.lean (C307, C308), Search.lean (C309). TreeModel.lean/Tree.lean: the dictionaries of build_tree (C310). Regular expressions are predicates; links and access rights are not modelled. ShowModel.lean/Show.lean: the lines of a tree and how a reader understands indented lines (C345).  
Any depth (C309_all); with a depth, soundness (C309_depth_bound) and completeness when nothing is deeper (C309_depth_partial); otherwise the search stops at the first folder that is too deep (C309_depth_violated).  
Theorems: `C309_all`, `C309_depth_bound`, `C309_depth_partial`, `C309_depth_violated`.

### C310 — The tree of a list of files shows the list

*partial.* `lean/Verif/Cleaning/Tree.lean`  
Model.lean: a disk is a forest of folders and files, with os.walk, os.remove, os.rmdir and shutil.rmtree on it; load_files_from_regex, delete_existing_files and remove_files_in_dirs over it. Spec.lean: what a disk holds (Has) and what deletions do to it, by induction on the forest. Lemmas.lean, Walk.lean: loops of deletions, content and order of walks. Delete.lean (C307, C308), Search.lean (C309). TreeModel.lean/Tree.lean: the dictionaries of build_tree (C310). Regular expressions are predicates; links and access rights are not modelled. ShowModel.lean/Show.lean: the lines of a tree and how a reader understands indented lines (C345).  
Without a folder called 'files' (C310_tree_partial); with one, an AttributeError or a lost folder (C310_files_violated, C310_lost_violated).  
Theorems: `C310_tree_partial`, `C310_files_violated`, `C310_lost_violated`.

### C311 — Adding oriented points keeps each point with its directions

*partial.* `lean/Verif/Points/Orient.lean`  
Modelled: Points and OrientedPoints as position and value lists, operation histories (core/points.py, core/orientedpoints.py). Proof: the list of rows as specification, invariants by induction on histories. GroupModel.lean/Group.lean: clusters for any labelling (C282), change of unit (C283), the array shared with the caller through histories (C284). OrientModel.lean/Orient.lean: sums, decomposition and streamlines of oriented points (C311-C313, C27_place_violated). DensityModel.lean/Density.lean: densities of points and edges of the envelope (C339-C341), trapezium masses, nearest nodes, an invariant on the list of edges. KindsModel.lean/Kinds.lean: densities of the kinds of critical points (C356), on top of C339.  
Same units and as many directions (C311_sum_partial), alignment of every result (C311_aligned), refusal of other numbers of directions; other units put the points elsewhere (C311_place_violated) and points without directions are an AttributeError (C311_plain_violated).  
Theorems: `C311_sum_partial`, `C311_directions_refused`, `C311_aligned`, `C311_place_violated`, `C311_plain_violated`.

### C312 — Decomposing oriented points gives one set per point

*partial.* `lean/Verif/Points/Orient.lean`  
Modelled: Points and OrientedPoints as position and value lists, operation histories (core/points.py, core/orientedpoints.py). Proof: the list of rows as specification, invariants by induction on histories. GroupModel.lean/Group.lean: clusters for any labelling (C282), change of unit (C283), the array shared with the caller through histories (C284). OrientModel.lean/Orient.lean: sums, decomposition and streamlines of oriented points (C311-C313, C27_place_violated). DensityModel.lean/Density.lean: densities of points and edges of the envelope (C339-C341), trapezium masses, nearest nodes, an invariant on the list of edges. KindsModel.lean/Kinds.lean: densities of the kinds of critical points (C356), on top of C339.  
With values (C312_decompose_partial); several points without values are refused (C312_no_values_violated).  
Theorems: `C312_decompose_partial`, `C312_no_values_violated`.

### C313 — Streamlines from directions start on both sides of each point

*partial.* `lean/Verif/Points/Orient.lean`  
Modelled: Points and OrientedPoints as position and value lists, operation histories (core/points.py, core/orientedpoints.py). Proof: the list of rows as specification, invariants by induction on histories. GroupModel.lean/Group.lean: clusters for any labelling (C282), change of unit (C283), the array shared with the caller through histories (C284). OrientModel.lean/Orient.lean: sums, decomposition and streamlines of oriented points (C311-C313, C27_place_violated). DensityModel.lean/Density.lean: densities of points and edges of the envelope (C339-C341), trapezium masses, nearest nodes, an invariant on the list of edges. KindsModel.lean/Kinds.lean: densities of the kinds of critical points (C356), on top of C339.  
get_streamlines is any function; delta and interp are not used (C313_options_violated).  
Theorems: `C313_streams`, `C313_starts`, `C313_refused`, `C313_options_violated`.

### C314 — The shared colour scale of a series holds all its colours

*proved.* `lean/Verif/Display/Color.lean`  
BrowseModel.lean: the state machine of ButtonManager (keys, buttons, timer, slider, limits, animations) without the widgets; Browse.lean, Moves.lean, Limits.lean (C297-C302) by induction on histories of events. BufferModel.lean/BufferLemmas.lean/Buffer.lean: the buffer of drawings of a Displayer as an LRU list, with an invariant on what is visible (C303, C304). LinkModel.lean/Link.lean: linked figures, the update being a depth-first flood of the graph of links, by induction on the number of figures not yet on the frame (C305, C306). ColorModel.lean/Color.lean: bounds of colour scales, discrete maps, gradients, segments, aspects and grids of axes (C314-C320). CursorModel.lean/Cursor.lean: the data under the mouse (C321, C322). The drawing itself and the widgets are not modelled. MarksModel.lean/Marks.lean: marks of the slider as a state beside that of the displayer, invariant over histories of frames (C363). LineModel.lean/Line.lean: coloured lines (C366) and colour maps made by hand (C367). FramesModel.lean/Frames.lean: data and limits of a displayer (C373); specification `Hull`. BarModel.lean/Bar.lean: colour bar of a window (C375); specification `Extremes`. DeskModel.lean/Desk.lean: open figures and animations (C379).  
Every series; fails exactly when no frame has a colour.  
Theorems: `C314_global`.

### C315 — The colour scale of a frame goes from its lowest to its highest colour

*partial.* `lean/Verif/Display/Color.lean`  
BrowseModel.lean: the state machine of ButtonManager (keys, buttons, timer, slider, limits, animations) without the widgets; Browse.lean, Moves.lean, Limits.lean (C297-C302) by induction on histories of events. BufferModel.lean/BufferLemmas.lean/Buffer.lean: the buffer of drawings of a Displayer as an LRU list, with an invariant on what is visible (C303, C304). LinkModel.lean/Link.lean: linked figures, the update being a depth-first flood of the graph of links, by induction on the number of figures not yet on the frame (C305, C306). ColorModel.lean/Color.lean: bounds of colour scales, discrete maps, gradients, segments, aspects and grids of axes (C314-C320). CursorModel.lean/Cursor.lean: the data under the mouse (C321, C322). The drawing itself and the widgets are not modelled. MarksModel.lean/Marks.lean: marks of the slider as a state beside that of the displayer, invariant over histories of frames (C363). LineModel.lean/Line.lean: coloured lines (C366) and colour maps made by hand (C367). FramesModel.lean/Frames.lean: data and limits of a displayer (C373); specification `Hull`. BarModel.lean/Bar.lean: colour bar of a window (C375); specification `Extremes`. DeskModel.lean/Desk.lean: open figures and animations (C379).  
The lower bound only (C315_lower_partial): the upper bound is the lowest colour too (C315_upper_violated), and a masked cell makes both NaN (C315_masked_violated).  
Theorems: `C315_lower_partial`, `C315_upper_violated`, `C315_masked_violated`.

### C316 — A discrete colour map gives each value the colour of the nearest centre

*partial.* `lean/Verif/Display/Color.lean`  
BrowseModel.lean: the state machine of ButtonManager (keys, buttons, timer, slider, limits, animations) without the widgets; Browse.lean, Moves.lean, Limits.lean (C297-C302) by induction on histories of events. BufferModel.lean/BufferLemmas.lean/Buffer.lean: the buffer of drawings of a Displayer as an LRU list, with an invariant on what is visible (C303, C304). LinkModel.lean/Link.lean: linked figures, the update being a depth-first flood of the graph of links, by induction on the number of figures not yet on the frame (C305, C306). ColorModel.lean/Color.lean: bounds of colour scales, discrete maps, gradients, segments, aspects and grids of axes (C314-C320). CursorModel.lean/Cursor.lean: the data under the mouse (C321, C322). The drawing itself and the widgets are not modelled. MarksModel.lean/Marks.lean: marks of the slider as a state beside that of the displayer, invariant over histories of frames (C363). LineModel.lean/Line.lean: coloured lines (C366) and colour maps made by hand (C367). FramesModel.lean/Frames.lean: data and limits of a displayer (C373); specification `Hull`. BarModel.lean/Bar.lean: colour bar of a window (C375); specification `Extremes`. DeskModel.lean/Desk.lean: open figures and animations (C379).  
Three centres, or centres whose steps repeat every other time, among them the evenly spaced ones (C316_discrete_partial); for every other list some value has the colour of another centre (C316_uneven_violated); one or two centres are an IndexError (C316_few_violated). The rule of matplotlib for listed colour maps is part of the model.  
Theorems: `C316_discrete_partial`, `C316_uneven_violated`, `C316_few_violated`.

### C317 — A gradient has the number of colours asked for

*partial.* `lean/Verif/Display/Color.lean`  
BrowseModel.lean: the state machine of ButtonManager (keys, buttons, timer, slider, limits, animations) without the widgets; Browse.lean, Moves.lean, Limits.lean (C297-C302) by induction on histories of events. BufferModel.lean/BufferLemmas.lean/Buffer.lean: the buffer of drawings of a Displayer as an LRU list, with an invariant on what is visible (C303, C304). LinkModel.lean/Link.lean: linked figures, the update being a depth-first flood of the graph of links, by induction on the number of figures not yet on the frame (C305, C306). ColorModel.lean/Color.lean: bounds of colour scales, discrete maps, gradients, segments, aspects and grids of axes (C314-C320). CursorModel.lean/Cursor.lean: the data under the mouse (C321, C322). The drawing itself and the widgets are not modelled. MarksModel.lean/Marks.lean: marks of the slider as a state beside that of the displayer, invariant over histories of frames (C363). LineModel.lean/Line.lean: coloured lines (C366) and colour maps made by hand (C367). FramesModel.lean/Frames.lean: data and limits of a displayer (C373); specification `Hull`. BarModel.lean/Bar.lean: colour bar of a window (C375); specification `Extremes`. DeskModel.lean/Desk.lean: open figures and animations (C379).  
Two colours or more (C317_gradient_partial); one colour is a ZeroDivisionError (C317_one_violated).  
Theorems: `C317_gradient_partial`, `C317_one_violated`.

### C318 — A coloured line has one segment between consecutive points

*proved.* `lean/Verif/Display/Color.lean`  
BrowseModel.lean: the state machine of ButtonManager (keys, buttons, timer, slider, limits, animations) without the widgets; Browse.lean, Moves.lean, Limits.lean (C297-C302) by induction on histories of events. BufferModel.lean/BufferLemmas.lean/Buffer.lean: the buffer of drawings of a Displayer as an LRU list, with an invariant on what is visible (C303, C304). LinkModel.lean/Link.lean: linked figures, the update being a depth-first flood of the graph of links, by induction on the number of figures not yet on the frame (C305, C306). ColorModel.lean/Color.lean: bounds of colour scales, discrete maps, gradients, segments, aspects and grids of axes (C314-C320). CursorModel.lean/Cursor.lean: the data under the mouse (C321, C322). The drawing itself and the widgets are not modelled. MarksModel.lean/Marks.lean: marks of the slider as a state beside that of the displayer, invariant over histories of frames (C363). LineModel.lean/Line.lean: coloured lines (C366) and colour maps made by hand (C367). FramesModel.lean/Frames.lean: data and limits of a displayer (C373); specification `Hull`. BarModel.lean/Bar.lean: colour bar of a window (C375); specification `Extremes`. DeskModel.lean/Desk.lean: open figures and animations (C379).  
Every line.  
Theorems: `C318_segments`.

### C319 — The aspect of a figure follows its displayers

*proved.* `lean/Verif/Display/Color.lean`  
BrowseModel.lean: the state machine of ButtonManager (keys, buttons, timer, slider, limits, animations) without the widgets; Browse.lean, Moves.lean, Limits.lean (C297-C302) by induction on histories of events. BufferModel.lean/BufferLemmas.lean/Buffer.lean: the buffer of drawings of a Displayer as an LRU list, with an invariant on what is visible (C303, C304). LinkModel.lean/Link.lean: linked figures, the update being a depth-first flood of the graph of links, by induction on the number of figures not yet on the frame (C305, C306). ColorModel.lean/Color.lean: bounds of colour scales, discrete maps, gradients, segments, aspects and grids of axes (C314-C320). CursorModel.lean/Cursor.lean: the data under the mouse (C321, C322). The drawing itself and the widgets are not modelled. MarksModel.lean/Marks.lean: marks of the slider as a state beside that of the displayer, invariant over histories of frames (C363). LineModel.lean/Line.lean: coloured lines (C366) and colour maps made by hand (C367). FramesModel.lean/Frames.lean: data and limits of a displayer (C373); specification `Hull`. BarModel.lean/Bar.lean: colour bar of a window (C375); specification `Extremes`. DeskModel.lean/Desk.lean: open figures and animations (C379).  
Every list; a numeric ratio alone is refused (last clause of C319_aspect).  
Theorems: `C319_aspect`, `C319_adjustable`.

### C320 — Drawing several frames gives each one its own axes

*partial.* `lean/Verif/Display/Color.lean`  
BrowseModel.lean: the state machine of ButtonManager (keys, buttons, timer, slider, limits, animations) without the widgets; Browse.lean, Moves.lean, Limits.lean (C297-C302) by induction on histories of events. BufferModel.lean/BufferLemmas.lean/Buffer.lean: the buffer of drawings of a Displayer as an LRU list, with an invariant on what is visible (C303, C304). LinkModel.lean/Link.lean: linked figures, the update being a depth-first flood of the graph of links, by induction on the number of figures not yet on the frame (C305, C306). ColorModel.lean/Color.lean: bounds of colour scales, discrete maps, gradients, segments, aspects and grids of axes (C314-C320). CursorModel.lean/Cursor.lean: the data under the mouse (C321, C322). The drawing itself and the widgets are not modelled. MarksModel.lean/Marks.lean: marks of the slider as a state beside that of the displayer, invariant over histories of frames (C363). LineModel.lean/Line.lean: coloured lines (C366) and colour maps made by hand (C367). FramesModel.lean/Frames.lean: data and limits of a displayer (C373); specification `Hull`. BarModel.lean/Bar.lean: colour bar of a window (C375); specification `Extremes`. DeskModel.lean/Desk.lean: open figures and animations (C379).  
Two frames or more, number of rows not given (C320_grid_partial), axes used again (C320_reuse); one frame on a new figure is an AttributeError (C320_one_violated), rows alone are refused when floor(sqrt n) columns are too few (C320_rows_violated).  
Theorems: `C320_grid_partial`, `C320_reuse`, `C320_one_violated`, `C320_rows_violated`.

### C321 — The data under the mouse is the nearest one

*partial.* `lean/Verif/Display/Cursor.lean`  
BrowseModel.lean: the state machine of ButtonManager (keys, buttons, timer, slider, limits, animations) without the widgets; Browse.lean, Moves.lean, Limits.lean (C297-C302) by induction on histories of events. BufferModel.lean/BufferLemmas.lean/Buffer.lean: the buffer of drawings of a Displayer as an LRU list, with an invariant on what is visible (C303, C304). LinkModel.lean/Link.lean: linked figures, the update being a depth-first flood of the graph of links, by induction on the number of figures not yet on the frame (C305, C306). ColorModel.lean/Color.lean: bounds of colour scales, discrete maps, gradients, segments, aspects and grids of axes (C314-C320). CursorModel.lean/Cursor.lean: the data under the mouse (C321, C322). The drawing itself and the widgets are not modelled. MarksModel.lean/Marks.lean: marks of the slider as a state beside that of the displayer, invariant over histories of frames (C363). LineModel.lean/Line.lean: coloured lines (C366) and colour maps made by hand (C367). FramesModel.lean/Frames.lean: data and limits of a displayer (C373); specification `Hull`. BarModel.lean/Bar.lean: colour bar of a window (C375); specification `Extremes`. DeskModel.lean/Desk.lean: open figures and animations (C379).  
Fields (C321_field), profiles (C321_profile_partial), out of the limits (C321_outside); for points the ordinate does not count (C321_points_violated).  
Theorems: `C321_outside`, `C321_field`, `C321_profile_partial`, `C321_points_violated`, `C321_guess`.

### C322 — The text under the mouse is always given

*partial.* `lean/Verif/Display/Cursor.lean`  
BrowseModel.lean: the state machine of ButtonManager (keys, buttons, timer, slider, limits, animations) without the widgets; Browse.lean, Moves.lean, Limits.lean (C297-C302) by induction on histories of events. BufferModel.lean/BufferLemmas.lean/Buffer.lean: the buffer of drawings of a Displayer as an LRU list, with an invariant on what is visible (C303, C304). LinkModel.lean/Link.lean: linked figures, the update being a depth-first flood of the graph of links, by induction on the number of figures not yet on the frame (C305, C306). ColorModel.lean/Color.lean: bounds of colour scales, discrete maps, gradients, segments, aspects and grids of axes (C314-C320). CursorModel.lean/Cursor.lean: the data under the mouse (C321, C322). The drawing itself and the widgets are not modelled. MarksModel.lean/Marks.lean: marks of the slider as a state beside that of the displayer, invariant over histories of frames (C363). LineModel.lean/Line.lean: coloured lines (C366) and colour maps made by hand (C367). FramesModel.lean/Frames.lean: data and limits of a displayer (C373); specification `Hull`. BarModel.lean/Bar.lean: colour bar of a window (C375); specification `Extremes`. DeskModel.lean/Desk.lean: open figures and animations (C379).  
Unmasked data (C322_text_partial); over a masked node the text raises ValueError, and only there (C322_masked_violated). The text of a number is any function.  
Theorems: `C322_text_partial`, `C322_masked_violated`.

### C323 — Detected critical points go to the class of their kind

*proved.* `lean/Verif/Refine/Props.lean`  
Modelled: the classes of detected points, CritPoints.refine_cp_position, MeanTrajectory.reconstruct_fields (vortex_detection/vortex_detection.py), with the streamline of a gradient as an abstract function. Not modelled: the integration of the streamline, the directions of saddles. Proof: induction on the points, the instants and the fields.  
The detection itself (positions and kinds of points in cells) is the subject of other properties; the directions of saddles are left out.  
Theorems: `C323_classes`, `C323_count`, `C323_other`.

### C324 — Refining critical points puts each one on the extremum next to it

*partial.* `lean/Verif/Refine/Props.lean`  
Modelled: the classes of detected points, CritPoints.refine_cp_position, MeanTrajectory.reconstruct_fields (vortex_detection/vortex_detection.py), with the streamline of a gradient as an abstract function. Not modelled: the integration of the streamline, the directions of saddles. Proof: induction on the points, the instants and the fields.  
Proved when all the points are within the axes of the fields. Fails otherwise: a point out of the axes has no streamline, it disappears and the times of all the points of its set are dropped with it (C324_outside_violated). The streamline is an abstract function of the starting point.  
Theorems: `C324_refine_partial`, `C324_instants`, `C324_outside_violated`.

### C325 — Fields averaged along a mean trajectory are the means of the real fields

*proved.* `lean/Verif/Refine/Props.lean`  
Modelled: the classes of detected points, CritPoints.refine_cp_position, MeanTrajectory.reconstruct_fields (vortex_detection/vortex_detection.py), with the streamline of a gradient as an abstract function. Not modelled: the integration of the streamline, the directions of saddles. Proof: induction on the points, the instants and the fields.  
Proved for records of fields with the same axes; a real time missing from the record, or a mean time without real times, raises IndexError.  
Theorems: `C325_average`, `C325_missing`.

### C326 — The coherence of modes is that of the present modes

*partial.* `lean/Verif/Pod/Coherence.lean`  
Modelled: pod/pod.py over the reals: snapshots, mean, modes, evolutions and eigenvalues of a pod base (modred is a parameter: any orthonormal eigenvectors of the correlation matrix with positive eigenvalues), reconstruct, crop_modal_base, crop, scale, energies; Ritz values of the dmd. Not modelled: masks (a base lives on its unmasked cells), units, bpod, drawings, the spectra behind the coherence. Proof: orthogonality of the modes from the one of the eigenvectors, Bessel's inequality, induction on the list of modes; filters of increasing lists for crops; half angle formula and complex exponential. C326, C327: the kept answers as a state machine over calls, invariant on all histories; removing a mean is idempotent. KappaModel.lean/Kappa.lean: critical kappa and sign of the temporal coherence, by bounds of real powers and exponentials (C355). SnapModel.lean/Snap.lean: snapshots of vector fields and fields of modes (C383); specifications `Shows`, `scalar`, `blend`.  
Proved for histories without smoothing (and without spatial crops, for the spatial coherence). Fails after a smoothing or a spatial crop: the former answer is given again (C326_smooth_violated, C326_space_violated). Smoothing the modes of a copy always raises AttributeError (C326_copy_violated).  
Theorems: `C326_temporal_partial`, `C326_spatial_partial`, `C326_smooth_violated`, `C326_space_violated`, `C326_copy_violated`.

### C327 — Asking for the coherence does not change the modes

*partial.* `lean/Verif/Pod/Coherence.lean`  
Modelled: pod/pod.py over the reals: snapshots, mean, modes, evolutions and eigenvalues of a pod base (modred is a parameter: any orthonormal eigenvectors of the correlation matrix with positive eigenvalues), reconstruct, crop_modal_base, crop, scale, energies; Ritz values of the dmd. Not modelled: masks (a base lives on its unmasked cells), units, bpod, drawings, the spectra behind the coherence. Proof: orthogonality of the modes from the one of the eigenvectors, Bessel's inequality, induction on the list of modes; filters of increasing lists for crops; half angle formula and complex exponential. C326, C327: the kept answers as a state machine over calls, invariant on all histories; removing a mean is idempotent. KappaModel.lean/Kappa.lean: critical kappa and sign of the temporal coherence, by bounds of real powers and exponentials (C355). SnapModel.lean/Snap.lean: snapshots of vector fields and fields of modes (C383); specifications `Shows`, `scalar`, `blend`.  
Fails: the mean of each component is removed from the modes themselves (C327_mean_violated), a masked value wipes the whole component (C327_masked_violated) and reconstructed fields are off by the means (C327_reconstruct_violated). Kept: modes of null mean, or an answer already known (C327_modes_partial).  
Theorems: `C327_modes_partial`, `C327_mean_violated`, `C327_masked_violated`, `C327_reconstruct_violated`.

### C328 — A profile can be taken across a set of fields in space

*partial.* `lean/Verif/Spatial/Grid.lean`  
Modelled: SpatialFields (core/spatialfields.py). Proof: refinement to physical readings (`Phys`). C277: lists of fields related one by one (`Forall₂`), invariant `Good` of the collections made of add_field. C328, C329: the loops that fill the grid, cell by cell; the errors of get_profile for all arguments. PowerModel.lean/Power.lean: powers (C376). ShareModel.lean/Share.lean: changes in place of collections that share fields (C386), by counting how often an object is held; specifications `MovedBy` and `ScaledBy`. BoundModel.lean/Bound.lean: extent, iteration and mask of collections (C389).  
Fails for all arguments: the direction 1 or 2 needed to choose the fields is refused by the profile of a field, and 'x' or 'y' choose no field (C328_profile_violated, C328_crossed_violated). Kept: None when no field is crossed.  
Theorems: `C328_nothing_partial`, `C328_profile_violated`, `C328_crossed_violated`.

### C329 — A set of fields can be put on one grid

*partial.* `lean/Verif/Spatial/Grid.lean`  
Modelled: SpatialFields (core/spatialfields.py). Proof: refinement to physical readings (`Phys`). C277: lists of fields related one by one (`Forall₂`), invariant `Good` of the collections made of add_field. C328, C329: the loops that fill the grid, cell by cell; the errors of get_profile for all arguments. PowerModel.lean/Power.lean: powers (C376). ShareModel.lean/Share.lean: changes in place of collections that share fields (C386), by counting how often an object is held; specifications `MovedBy` and `ScaledBy`. BoundModel.lean/Bound.lean: extent, iteration and mask of collections (C389).  
Proved for vector fields. Fails for all scalar fields: the class is used in place of an instance (C329_scalar_violated).  
Theorems: `C329_grid_partial`, `C329_scalar_violated`.

### C330 — Two profiles are compared at every shift on the points both have

*partial.* `lean/Verif/Profile/Shift.lean`  
Modelled: Profile as three parallel lists with the sort as a parameter (core/profile.py). Proof: permutations, sortedness, induction. C330, C331: the padded profile read through an infinite signal. DensityModel.lean/Density.lean: kernel densities at the reals with Mathlib's gaussian; the mass is compared with the integral over the whole line (C337, C338). SpectrumModel.lean/Spectrum.lean: discrete Fourier transform at the reals, least squares, Parseval's identity and folding of the one-sided spectrum (C343, C344). InterpolModel.lean/Interpol.lean: interpolators and values at indices (C364). FitModel.lean/Fit.lean: fitting of a function (C380); specification `Best`.  
The abscissa and the ordinate are proved for regular axes of the same step, with the other profile taken as zero out of its axis. The documentation says that the average is on the available points: this fails, the zeros are counted (C330_available_violated).  
Theorems: `C330_shift_partial`, `C330_units`, `C330_available_violated`.

### C331 — The shift between two profiles is found

*proved.* `lean/Verif/Profile/Shift.lean`  
Modelled: Profile as three parallel lists with the sort as a parameter (core/profile.py). Proof: permutations, sortedness, induction. C330, C331: the padded profile read through an infinite signal. DensityModel.lean/Density.lean: kernel densities at the reals with Mathlib's gaussian; the mass is compared with the integral over the whole line (C337, C338). SpectrumModel.lean/Spectrum.lean: discrete Fourier transform at the reals, least squares, Parseval's identity and folding of the one-sided spectrum (C343, C344). InterpolModel.lean/Interpol.lean: interpolators and values at indices (C364). FitModel.lean/Fit.lean: fitting of a function (C380); specification `Best`.  
Proved for profiles on regular axes of the same step; the other profile is taken as zero out of its axis (see C330).  
Theorems: `C331_smallest`, `C331_copy`.

### C332 — The eigenproperties of the velocity gradient are those of its matrix

*partial.* `lean/Verif/Treat/Eigen.lean`  
Modelled: field_treatment/field_treatment.py: gradients, divergence, track field, reconstruction from gradients, fast streamlines (over any ordered field), seeds of the streamlines, extension to a wall along its axis. Not modelled: the algorithm of numpy's eig (a parameter, EigenModel.lean), the VODE integrator, interpolation splines, least squares, the filling after the wall. Proof: slopes between neighbours; the border integrations and four sweeps all equal the field up to one constant; loop invariant on the chain of points. C332, C333: algebra of 2x2 matrices from the equations of eigenvectors. ShearModel.lean/Shear.lean: shear stress of fields, cropped, not filled (C360). Uneven.lean: gradients on uneven axes (C119, C121).  
numpy's eig is a parameter with its algebraic specification (IsEig). The eigenvalues are proved for all matrices, the vectors when the eigenvalues are real. Fails where the flow turns: both vectors are the same and an eigenvector of nothing (C332_turning_violated). No unit is given (C332_unit_violated).  
Theorems: `C332_values`, `C332_masked`, `C332_vectors_partial`, `C332_turning_violated`, `C332_unit_violated`.

### C333 — The lines of Kenwright are where the velocity keeps its direction

*partial.* `lean/Verif/Treat/Eigen.lean`  
Modelled: field_treatment/field_treatment.py: gradients, divergence, track field, reconstruction from gradients, fast streamlines (over any ordered field), seeds of the streamlines, extension to a wall along its axis. Not modelled: the algorithm of numpy's eig (a parameter, EigenModel.lean), the VODE integrator, interpolation splines, least squares, the filling after the wall. Proof: slopes between neighbours; the border integrations and four sweeps all equal the field up to one constant; loop invariant on the chain of points. C332, C333: algebra of 2x2 matrices from the equations of eigenvectors. ShearModel.lean/Shear.lean: shear stress of fields, cropped, not filled (C360). Uneven.lean: gradients on uneven axes (C119, C121).  
Proved for two different real eigenvalues. Fails where the flow turns (C333_turning_violated).  
Theorems: `C333_lines_partial`, `C333_turning_violated`, `C333_masked`.

### C334 — A Blasius profile has the thickness of its layer

*partial.* `lean/Verif/Bl/OnField.lean`  
Modelled: boundary_layer.py. Analytic layers at the reals (Model.lean): Blasius properties, Falkner-Skan profiles with the solution of the differential system as a parameter, the shooting method with the response as a parameter, Thwaites' integral (the exact integral instead of scipy's quadrature), wall and wake laws. Measured profiles at the rationals (Thick.lean), on the Profile model. Not modelled: the integration of ordinary differential equations and quadratures by scipy, the logarithmic wall law fit, drawings. Proof: derivatives of similar solutions, the fundamental theorem of calculus, an invariant of the bracket of the shooting method, sums over trapezia. FieldModel.lean/OnField.lean: Blasius profiles and their confinement (C334), thicknesses of fields and separation position (C335, C336). ClauserModel.lean/Clauser.lean: Clauser's thickness of profiles and fields (C361), on top of the thicknesses of C36.  
Fails for all turbulent profiles (AttributeError) and for confined thicknesses whose laminar position is beyond a Reynolds number of 5e5. The derivative of the Blasius function is an abstract function.  
Theorems: `C334_turbulent_violated`, `C334_stretched_partial`, `C334_switch_violated`.

### C335 — Thicknesses of a field are those of its profiles

*partial.* `lean/Verif/Bl/OnField.lean`  
Modelled: boundary_layer.py. Analytic layers at the reals (Model.lean): Blasius properties, Falkner-Skan profiles with the solution of the differential system as a parameter, the shooting method with the response as a parameter, Thwaites' integral (the exact integral instead of scipy's quadrature), wall and wake laws. Measured profiles at the rationals (Thick.lean), on the Profile model. Not modelled: the integration of ordinary differential equations and quadratures by scipy, the logarithmic wall law fit, drawings. Proof: derivatives of similar solutions, the fundamental theorem of calculus, an invariant of the bracket of the shooting method, sums over trapezia. FieldModel.lean/OnField.lean: Blasius profiles and their confinement (C334), thicknesses of fields and separation position (C335, C336). ClauserModel.lean/Clauser.lean: Clauser's thickness of profiles and fields (C361), on top of the thicknesses of C36.  
Proved for the direction 'y'. Fails for the documented directions 1 and 2 (TypeError), for 'x' (positions of the other axis), for the units of 'y' and for the shear stress, never returned.  
Theorems: `C335_letter_partial`, `C335_three_partial`, `C335_number_violated`, `C335_x_violated`, `C335_unit_violated`, `C335_shear_violated`.

### C336 — The separation position of a boundary layer is returned

*partial.* `lean/Verif/Bl/OnField.lean`  
Modelled: boundary_layer.py. Analytic layers at the reals (Model.lean): Blasius properties, Falkner-Skan profiles with the solution of the differential system as a parameter, the shooting method with the response as a parameter, Thwaites' integral (the exact integral instead of scipy's quadrature), wall and wake laws. Measured profiles at the rationals (Thick.lean), on the Profile model. Not modelled: the integration of ordinary differential equations and quadratures by scipy, the logarithmic wall law fit, drawings. Proof: derivatives of similar solutions, the fundamental theorem of calculus, an invariant of the bracket of the shooting method, sums over trapezia. FieldModel.lean/OnField.lean: Blasius profiles and their confinement (C334), thicknesses of fields and separation position (C335, C336). ClauserModel.lean/Clauser.lean: Clauser's thickness of profiles and fields (C361), on top of the thicknesses of C36.  
Fails for all fields: the position is never returned (C336_separation_violated, C336_error).  
Theorems: `C336_separation_violated`, `C336_error`.

### C337 — The density of the values of a profile is a probability density

*partial.* `lean/Verif/Profile/Density.lean`  
Modelled: Profile as three parallel lists with the sort as a parameter (core/profile.py). Proof: permutations, sortedness, induction. C330, C331: the padded profile read through an infinite signal. DensityModel.lean/Density.lean: kernel densities at the reals with Mathlib's gaussian; the mass is compared with the integral over the whole line (C337, C338). SpectrumModel.lean/Spectrum.lean: discrete Fourier transform at the reals, least squares, Parseval's identity and folding of the one-sided spectrum (C343, C344). InterpolModel.lean/Interpol.lean: interpolators and values at indices (C364). FitModel.lean/Fit.lean: fitting of a function (C380); specification `Best`.  
The points are proved with the default bandwidth. Fails: the tails out of the range of the values are cut (C337_mass_violated), the bandwidth is ignored (C337_bandwidth_violated).  
Theorems: `C337_points_partial`, `C337_mass_violated`, `C337_bandwidth_violated`.

### C338 — The distribution of the values of a profile follows them

*partial.* `lean/Verif/Profile/Density.lean`  
Modelled: Profile as three parallel lists with the sort as a parameter (core/profile.py). Proof: permutations, sortedness, induction. C330, C331: the padded profile read through an infinite signal. DensityModel.lean/Density.lean: kernel densities at the reals with Mathlib's gaussian; the mass is compared with the integral over the whole line (C337, C338). SpectrumModel.lean/Spectrum.lean: discrete Fourier transform at the reals, least squares, Parseval's identity and folding of the one-sided spectrum (C343, C344). InterpolModel.lean/Interpol.lean: interpolators and values at indices (C364). FitModel.lean/Fit.lean: fitting of a function (C380); specification `Best`.  
Formats proved for all arguments; points with the rule of Scott. Fails: mass, bandwidth given as a number, masked points, unit, translation of the positions (the _violated theorems).  
Theorems: `C338_formats`, `C338_points_partial`, `C338_translated`, `C338_window_violated`, `C338_mass_violated`, `C338_bandwidth_violated`, `C338_masked_violated`, `C338_unit_violated`.

### C339 — The density of points has the mass of its format

*partial.* `lean/Verif/Points/Density.lean`  
Modelled: Points and OrientedPoints as position and value lists, operation histories (core/points.py, core/orientedpoints.py). Proof: the list of rows as specification, invariants by induction on histories. GroupModel.lean/Group.lean: clusters for any labelling (C282), change of unit (C283), the array shared with the caller through histories (C284). OrientModel.lean/Orient.lean: sums, decomposition and streamlines of oriented points (C311-C313, C27_place_violated). DensityModel.lean/Density.lean: densities of points and edges of the envelope (C339-C341), trapezium masses, nearest nodes, an invariant on the list of edges. KindsModel.lean/Kinds.lean: densities of the kinds of critical points (C356), on top of C339.  
The gaussian kernel is an abstract positive function. Fails for points on a line parallel to an axis (None) and for flat clouds (ValueError).  
Theorems: `C339_mass_partial`, `C339_few`, `C339_line_violated`, `C339_flat_violated`.

### C340 — Counting points on a grid counts each of them once

*partial.* `lean/Verif/Points/Density.lean`  
Modelled: Points and OrientedPoints as position and value lists, operation histories (core/points.py, core/orientedpoints.py). Proof: the list of rows as specification, invariants by induction on histories. GroupModel.lean/Group.lean: clusters for any labelling (C282), change of unit (C283), the array shared with the caller through histories (C284). OrientModel.lean/Orient.lean: sums, decomposition and streamlines of oriented points (C311-C313, C27_place_violated). DensityModel.lean/Density.lean: densities of points and edges of the envelope (C339-C341), trapezium masses, nearest nodes, an invariant on the list of edges. KindsModel.lean/Kinds.lean: densities of the kinds of critical points (C356), on top of C339.  
Proved without subgrid; with a subgrid TypeError always (C340_subgrid_violated).  
Theorems: `C340_counts_partial`, `C340_subgrid_violated`.

### C341 — The envelope of points keeps short edges only

*partial.* `lean/Verif/Points/Density.lean`  
Modelled: Points and OrientedPoints as position and value lists, operation histories (core/points.py, core/orientedpoints.py). Proof: the list of rows as specification, invariants by induction on histories. GroupModel.lean/Group.lean: clusters for any labelling (C282), change of unit (C283), the array shared with the caller through histories (C284). OrientModel.lean/Orient.lean: sums, decomposition and streamlines of oriented points (C311-C313, C27_place_violated). DensityModel.lean/Density.lean: densities of points and edges of the envelope (C339-C341), trapezium masses, nearest nodes, an invariant on the list of edges. KindsModel.lean/Kinds.lean: densities of the kinds of critical points (C356), on top of C339.  
The triangulation is an argument (scipy's Delaunay). The length of an edge is not bounded by alpha (C341_length_violated).  
Theorems: `C341_edges_partial`, `C341_length_violated`.

### C342 — Iota measures how much the directions turn

*partial.* `lean/Verif/Crit/Iota.lean`  
Modelled: vortex_criterions/vortex_criterions.py: motif and masks of the non-local criteria, gamma, kappa, vorticity and divergence of whole fields with units, residual and shear vorticity, Q, Nk, Delta, lambda2, swirling strength, Stokes vorticity and its axis, fitted gradients, enstrophy. The criteria with square roots are functions over any ordered field with the root as a parameter, instantiated at the reals. Not modelled: iota, improved swirling strength, temporal versions (one field after the other), the interpolation of fill (a parameter). Proof: the motif equals its own reverse, so odd sums vanish; Cauchy-Schwarz per term; difference operators commute; sums over cells telescope. C278 (get_angle_deviation, over the reals): each term lies below its chord by convexity of the power, strictly between the ends; turning the angles swaps the two parts of the sorted list. IotaModel.lean/Iota.lean: circular distance of angles at the reals (C342). ImprovedModel.lean/Improved.lean: improved swirling strength, at one point and on fields (C362).  
Proved, with the invariance by rotation, where the row and the column have no masked or null vector. Fails: the argument mask is ignored, masked and null vectors count as vectors along the first axis, the rates are per step and not per length (the _violated theorems).  
Theorems: `C342_angle_partial`, `C342_turned_partial`, `C342_mask_violated`, `C342_hole_violated`, `C342_quarter_violated`, `C342_axes_violated`.

### C343 — The spectrum of a profile shares its energy between frequencies

*partial.* `lean/Verif/Profile/Spectrum.lean`  
Modelled: Profile as three parallel lists with the sort as a parameter (core/profile.py). Proof: permutations, sortedness, induction. C330, C331: the padded profile read through an infinite signal. DensityModel.lean/Density.lean: kernel densities at the reals with Mathlib's gaussian; the mass is compared with the integral over the whole line (C337, C338). SpectrumModel.lean/Spectrum.lean: discrete Fourier transform at the reals, least squares, Parseval's identity and folding of the one-sided spectrum (C343, C344). InterpolModel.lean/Interpol.lean: interpolators and values at indices (C364). FitModel.lean/Fit.lean: fitting of a function (C380); specification `Best`.  
Proved with the best line removed, whatever the detrending. Fails: detrending and interval have no effect, irregular abscissas are accepted (the _violated theorems). scipy's periodogram is written out (DFT at the reals), welch is a parameter.  
Theorems: `C343_energy_partial`, `C343_trend_violated`, `C343_interval_violated`, `C343_irregular_violated`, `C343_arguments`.

### C344 — Spectral filtering is linear and filters the asked frequencies

*partial.* `lean/Verif/Profile/Spectrum.lean`  
Modelled: Profile as three parallel lists with the sort as a parameter (core/profile.py). Proof: permutations, sortedness, induction. C330, C331: the padded profile read through an infinite signal. DensityModel.lean/Density.lean: kernel densities at the reals with Mathlib's gaussian; the mass is compared with the integral over the whole line (C337, C338). SpectrumModel.lean/Spectrum.lean: discrete Fourier transform at the reals, least squares, Parseval's identity and folding of the one-sided spectrum (C343, C344). InterpolModel.lean/Interpol.lean: interpolators and values at indices (C364). FitModel.lean/Fit.lean: fitting of a function (C380); specification `Best`.  
The Butterworth filter is a parameter, assumed linear in C344_sum_partial. Fails: frequencies multiplied by (n-1)/n (C344_cutoff_violated), TypeError with one frequency (C344_one_violated).  
Theorems: `C344_sum_partial`, `C344_offset`, `C344_cutoff_violated`, `C344_one_violated`.

### C345 — The text of a set of files shows its folders and files

*partial.* `lean/Verif/Cleaning/Show.lean`  
Model.lean: a disk is a forest of folders and files, with os.walk, os.remove, os.rmdir and shutil.rmtree on it; load_files_from_regex, delete_existing_files and remove_files_in_dirs over it. Spec.lean: what a disk holds (Has) and what deletions do to it, by induction on the forest. Lemmas.lean, Walk.lean: loops of deletions, content and order of walks. Delete.lean (C307, C308), Search.lean (C309). TreeModel.lean/Tree.lean: the dictionaries of build_tree (C310). Regular expressions are predicates; links and access rights are not modelled. ShowModel.lean/Show.lean: the lines of a tree and how a reader understands indented lines (C345).  
C345_lines is about all trees, C345_shown_partial about the sets without a folder called files. Fails for these (C345_files_violated).  
Theorems: `C345_lines`, `C345_shown_partial`, `C345_heading`, `C345_files_violated`.

### C346 — A counter without maximum counts every call

*partial.* `lean/Verif/Utils/Count.lean`  
Modelled: memoization, file lists, progress counter, decorators, descriptor table, unit setters, make_unit (executing an expression is a parameter) (utils/, setters of core/). Proof: invariants over histories, arithmetic. CountModel.lean/Count.lean: histories of calls of a counter without maximum (C346).  
Fails: the end is printed again by each later call, and the time of each thing is too short (the _violated theorems).  
Theorems: `C346_lines`, `C346_end`, `C346_again_violated`, `C346_each_violated`.

### C347 — A spectrum over an area is the mean of those of its nodes

*partial.* `lean/Verif/Trace/Spectra.lean`  
Modelled: get_time_profile and inject_time_profile (position, indices, Points), mask_cum, crop_masked_border, extend and mirroring of TemporalFields on scalar fields. Not modelled: rounding, vector fields in these methods. Proof: nearest grid point by C02, cell by cell descriptions of the fields; the cumulated mask is seen as a scalar field on which C19 applies; termination by the number of lines; C14 and C194 for every field. SpecModel.lean/Spectra.lean: temporal spectra over areas, maps of the main frequencies and temporal filtering, with the spectrum of a profile as parameter (C347-C349): sums over the nodes of a rectangle, selection of the highest entries as permutations, induction over the nodes of a loop that reads and writes the same fields. VecSpecModel.lean/VecSpectra.lean: temporal filtering of vector fields (C357). MaskModel.lean/Mask.lean: masks given as fields (C384); specification `Tells`.  
Proved when each node of the area shows a value at some time; a node masked at all times raises an exception (C347_masked_violated). Intervals out of the axes are refused (C347_outside), but indices in the wrong order can give a number instead of a profile (C347_reversed_violated). The magnitudes of the spectrum of a profile without masked point are a parameter (see C343). C347_point gives the spectrum of one node, the masked values being interpolated.  
Theorems: `C347_mean_partial`, `C347_masked_violated`, `C347_outside`, `C347_reversed_violated`, `C347_point`.

### C348 — The map of spectra shows the main frequencies of each node

*partial.* `lean/Verif/Trace/Spectra.lean`  
Modelled: get_time_profile and inject_time_profile (position, indices, Points), mask_cum, crop_masked_border, extend and mirroring of TemporalFields on scalar fields. Not modelled: rounding, vector fields in these methods. Proof: nearest grid point by C02, cell by cell descriptions of the fields; the cumulated mask is seen as a scalar field on which C19 applies; termination by the number of lines; C14 and C194 for every field. SpecModel.lean/Spectra.lean: temporal spectra over areas, maps of the main frequencies and temporal filtering, with the spectrum of a profile as parameter (C347-C349): sums over the nodes of a rectangle, selection of the highest entries as permutations, induction over the nodes of a loop that reads and writes the same fields. VecSpecModel.lean/VecSpectra.lean: temporal filtering of vector fields (C357). MaskModel.lean/Mask.lean: masks given as fields (C384); specification `Tells`.  
Proved for the frequencies and the masks when a node at least is kept. Fails: the maps have the unit of the values (C348_unit_violated), NameError when all nodes are masked (C348_masked_violated). The maps of quality and the smoothing are not modelled.  
Theorems: `C348_map_partial`, `C348_unit_violated`, `C348_masked_violated`.

### C349 — Temporal filtering filters the values of each node along time

*partial.* `lean/Verif/Trace/Spectra.lean`  
Modelled: get_time_profile and inject_time_profile (position, indices, Points), mask_cum, crop_masked_border, extend and mirroring of TemporalFields on scalar fields. Not modelled: rounding, vector fields in these methods. Proof: nearest grid point by C02, cell by cell descriptions of the fields; the cumulated mask is seen as a scalar field on which C19 applies; termination by the number of lines; C14 and C194 for every field. SpecModel.lean/Spectra.lean: temporal spectra over areas, maps of the main frequencies and temporal filtering, with the spectrum of a profile as parameter (C347-C349): sums over the nodes of a rectangle, selection of the highest entries as permutations, induction over the nodes of a loop that reads and writes the same fields. VecSpecModel.lean/VecSpectra.lean: temporal filtering of vector fields (C357). MaskModel.lean/Mask.lean: masks given as fields (C384); specification `Tells`.  
Proved at every node that shows a value at some time, the masked values being interpolated first. Fails: without inplace the object is changed too (C349_original_violated), and a node masked at all times raises an exception (C349_masked_violated). The filter is a parameter.  
Theorems: `C349_values_partial`, `C349_original_violated`, `C349_masked_violated`.

### C350 — A spatial spectrum is the mean of those of the lines of the window

*partial.* `lean/Verif/Wave/Spatial.lean`  
Modelled: get_spatial_spectrum of scalar fields and of temporal fields, get_wavelet_transform of profiles, with the spectrum of a profile and scipy's cwt as parameters. Not modelled: welch, rounding, raw=True. Proof: windows as filters of the axes (C04, C06), lines of a grid (C187), filling (C247-C249), means of lists by induction.  
Proved for bounds given as floats. Fails for whole numbers, whose array truncates the bounds of the axis (C350_integers_violated, C350_truncated_violated). The magnitudes of the spectrum of a profile are a parameter (C343); the filling is that of C247-C249.  
Theorems: `C350_filled_partial`, `C350_mean_partial`, `C350_integers_violated`, `C350_truncated_violated`, `C350_refused`.

### C351 — The spatial spectrum of a record is the mean of those of its fields

*partial.* `lean/Verif/Wave/Spatial.lean`  
Modelled: get_spatial_spectrum of scalar fields and of temporal fields, get_wavelet_transform of profiles, with the spectrum of a profile and scipy's cwt as parameters. Not modelled: welch, rounding, raw=True. Proof: windows as filters of the axes (C04, C06), lines of a grid (C187), filling (C247-C249), means of lists by induction.  
Proved for bounds given as floats, the spectrum of a field being any function. Fails: a record with one field is refused (C351_single_violated), bounds given as whole numbers (C351_integers_violated).  
Theorems: `C351_mean_partial`, `C351_single_violated`, `C351_integers_violated`.

### C352 — The wavelet transform shows the coefficients of each width at each abscissa

*partial.* `lean/Verif/Wave/Wavelet.lean`  
Modelled: get_spatial_spectrum of scalar fields and of temporal fields, get_wavelet_transform of profiles, with the spectrum of a profile and scipy's cwt as parameters. Not modelled: welch, rounding, raw=True. Proof: windows as filters of the axes (C04, C06), lines of a grid (C187), filling (C247-C249), means of lists by induction.  
Proved for regular profiles and two widths at least; scipy's transform is a parameter. Fails: IndexError for one width (C352_single_violated), profiles with smaller gaps than the first one are accepted (C352_uneven_violated).  
Theorems: `C352_shows_partial`, `C352_default`, `C352_refused`, `C352_uneven_violated`, `C352_single_violated`.

### C353 — The length of pressure is where the pressure has the wanted value

*partial.* `lean/Verif/Panel/Search.lean`  
Modelled: potential_flow/potential_flow.py over the reals: panels, refinement of paths, objects, systems with cached sources, velocity (quadrature = exact integral, np.linalg.solve = a parameter that returns solutions), lines, pressure. Not modelled: grids of velocities, remove_solid, the end of get_separation_position, drawings. Proof: the half-angle normal, the fundamental theorem of calculus for the influence of a panel near its own centre (arctan and log), continuity of parametric integrals for the other panels, invariant on histories for the cache, induction on the edges of a path. GridModel.lean/Grid.lean: velocity on grids, removal of solids and pressure fields (C285). SearchModel.lean/Search.lean: the search of the length of pressure as a loop with fuel, whose end is a relation, bisection of a Lipschitz function; the thickness of Thwaites (C353, C354).  
C353_found: any distance given is right. C353_converges_partial: one is given when the pressure is Lipschitz and goes below the wanted value within the hundred turns. Fails: endless search when the pressure is never below (C353_endless_violated), IndexError when it is below at the wall (C353_wall_violated). The pressure on the axis is a parameter, numbers are reals.  
Theorems: `C353_found`, `C353_converges_partial`, `C353_endless_violated`, `C353_wall_violated`.

### C354 — The momentum thickness at a point is that of Thwaites

*partial.* `lean/Verif/Panel/Search.lean`  
Modelled: potential_flow/potential_flow.py over the reals: panels, refinement of paths, objects, systems with cached sources, velocity (quadrature = exact integral, np.linalg.solve = a parameter that returns solutions), lines, pressure. Not modelled: grids of velocities, remove_solid, the end of get_separation_position, drawings. Proof: the half-angle normal, the fundamental theorem of calculus for the influence of a panel near its own centre (arctan and log), continuity of parametric integrals for the other panels, invariant on histories for the cache, induction on the edges of a path. GridModel.lean/Grid.lean: velocity on grids, removal of solids and pressure fields (C285). SearchModel.lean/Search.lean: the search of the length of pressure as a loop with fuel, whose end is a relation, bisection of a Lipschitz function; the thickness of Thwaites (C353, C354).  
Fails: the integral stops at the point before (C354_late_violated), which gives too small a thickness (C354_small_violated). True at the first point only (C354_first).  
Theorems: `C354_late_violated`, `C354_small_violated`, `C354_first`.

### C355 — The temporal coherence of a mode is positive when its kappa is above the critical one

*partial.* `lean/Verif/Pod/Kappa.lean`  
Modelled: pod/pod.py over the reals: snapshots, mean, modes, evolutions and eigenvalues of a pod base (modred is a parameter: any orthonormal eigenvectors of the correlation matrix with positive eigenvalues), reconstruct, crop_modal_base, crop, scale, energies; Ritz values of the dmd. Not modelled: masks (a base lives on its unmasked cells), units, bpod, drawings, the spectra behind the coherence. Proof: orthogonality of the modes from the one of the eigenvectors, Bessel's inequality, induction on the list of modes; filters of increasing lists for crops; half angle formula and complex exponential. C326, C327: the kept answers as a state machine over calls, invariant on all histories; removing a mean is idempotent. KappaModel.lean/Kappa.lean: critical kappa and sign of the temporal coherence, by bounds of real powers and exponentials (C355). SnapModel.lean/Snap.lean: snapshots of vector fields and fields of modes (C383); specifications `Shows`, `scalar`, `blend`.  
The critical value decreases and is positive; the sign is right with eighteen times at least (C355_sign_partial) and inverted with fewer (C355_few_violated), where the critical value is above one.  
Theorems: `C355_decreasing`, `C355_field_decreasing`, `C355_positive`, `C355_sign_partial`, `C355_few_violated`.

### C356 — The density of a kind of critical points counts all of them

*partial.* `lean/Verif/Points/Kinds.lean`  
Modelled: Points and OrientedPoints as position and value lists, operation histories (core/points.py, core/orientedpoints.py). Proof: the list of rows as specification, invariants by induction on histories. GroupModel.lean/Group.lean: clusters for any labelling (C282), change of unit (C283), the array shared with the caller through histories (C284). OrientModel.lean/Orient.lean: sums, decomposition and streamlines of oriented points (C311-C313, C27_place_violated). DensityModel.lean/Density.lean: densities of points and edges of the envelope (C339-C341), trapezium masses, nearest nodes, an invariant on the list of edges. KindsModel.lean/Kinds.lean: densities of the kinds of critical points (C356), on top of C339.  
Proved for the densities that are given, scipy's kernel density being a parameter (C339). Fails: TypeError with 'absolute' for a kind with one point or none (C356_few_violated), NameError for a record without field (C356_empty_violated).  
Theorems: `C356_mass_partial`, `C356_absolute_partial`, `C356_sum_partial`, `C356_few_violated`, `C356_empty_violated`, `C356_unknown`.

### C357 — Temporal filtering of vectors filters both components of each node along time

*partial.* `lean/Verif/Trace/VecSpectra.lean`  
Modelled: get_time_profile and inject_time_profile (position, indices, Points), mask_cum, crop_masked_border, extend and mirroring of TemporalFields on scalar fields. Not modelled: rounding, vector fields in these methods. Proof: nearest grid point by C02, cell by cell descriptions of the fields; the cumulated mask is seen as a scalar field on which C19 applies; termination by the number of lines; C14 and C194 for every field. SpecModel.lean/Spectra.lean: temporal spectra over areas, maps of the main frequencies and temporal filtering, with the spectrum of a profile as parameter (C347-C349): sums over the nodes of a rectangle, selection of the highest entries as permutations, induction over the nodes of a loop that reads and writes the same fields. VecSpecModel.lean/VecSpectra.lean: temporal filtering of vector fields (C357). MaskModel.lean/Mask.lean: masks given as fields (C384); specification `Tells`.  
Proved when each node shows a vector at some time; a node masked at all times raises an exception (C357_masked_violated). The filter is a parameter.  
Theorems: `C357_vectors_partial`, `C357_original`, `C357_masked_violated`.

### C358 — Smoothing a set of points averages its points along the set

*partial.* `lean/Verif/TPoints/Smooth.lean`  
Modelled: TemporalPoints over an explicit heap of point sets (core/temporalpoints.py). Proof: invariants over heap histories. SmoothModel.lean/Smooth.lean: smoothing of sets of points and of collections of them, on the heap of sets (C358, C359).  
Proved for 'uniform' and values that are not whole numbers in an integer array. Fails: values of integer type are truncated (C358_integers_violated); 'lowpass' raises ValueError with nine points or less (C358_few_violated). The lowpass filter itself is a parameter.  
Theorems: `C358_uniform_partial`, `C358_box`, `C358_constant`, `C358_refused`, `C358_integers_violated`, `C358_few_violated`.

### C359 — Smoothing a collection of points smooths each of its sets once

*partial.* `lean/Verif/TPoints/Smooth.lean`  
Modelled: TemporalPoints over an explicit heap of point sets (core/temporalpoints.py). Proof: invariants over heap histories. SmoothModel.lean/Smooth.lean: smoothing of sets of points and of collections of them, on the heap of sets (C358, C359).  
Proved for distinct sets. Fails: a set held twice is smoothed twice (C359_shared_violated); an exception leaves the sets before it smoothed (C359_halfway_violated).  
Theorems: `C359_inplace_partial`, `C359_copy_partial`, `C359_shared_violated`, `C359_halfway_violated`.

### C360 — The shear stress of a field holds the cross derivatives of the velocity

*partial.* `lean/Verif/Treat/Shear.lean`  
Modelled: field_treatment/field_treatment.py: gradients, divergence, track field, reconstruction from gradients, fast streamlines (over any ordered field), seeds of the streamlines, extension to a wall along its axis. Not modelled: the algorithm of numpy's eig (a parameter, EigenModel.lean), the VODE integrator, interpolation splines, least squares, the filling after the wall. Proof: slopes between neighbours; the border integrations and four sweeps all equal the field up to one constant; loop invariant on the chain of points. C332, C333: algebra of 2x2 matrices from the equations of eigenvectors. ShearModel.lean/Shear.lean: shear stress of fields, cropped, not filled (C360). Uneven.lean: gradients on uneven axes (C119, C121).  
Proved on evenly spaced axes for points whose neighbours are not masked. Fails: the unit is that of the velocity (C360_unit_violated); the field is not filled (C360_filled_violated); get_swirling_vector has no result (C360_swirling_violated). The filling is a parameter.  
Theorems: `C360_slopes_partial`, `C360_total_partial`, `C360_unit_violated`, `C360_filled_violated`, `C360_swirling_violated`.

### C361 — The thickness of Clauser is the integral of the velocity defect over the friction velocity

*partial.* `lean/Verif/Bl/Clauser.lean`  
Modelled: boundary_layer.py. Analytic layers at the reals (Model.lean): Blasius properties, Falkner-Skan profiles with the solution of the differential system as a parameter, the shooting method with the response as a parameter, Thwaites' integral (the exact integral instead of scipy's quadrature), wall and wake laws. Measured profiles at the rationals (Thick.lean), on the Profile model. Not modelled: the integration of ordinary differential equations and quadratures by scipy, the logarithmic wall law fit, drawings. Proof: derivatives of similar solutions, the fundamental theorem of calculus, an invariant of the bracket of the shooting method, sums over trapezia. FieldModel.lean/OnField.lean: Blasius profiles and their confinement (C334), thicknesses of fields and separation position (C335, C336). ClauserModel.lean/Clauser.lean: Clauser's thickness of profiles and fields (C361), on top of the thicknesses of C36.  
Proved for a profile whose velocity at the top is the largest of the layer. Fails: too small a thickness otherwise (C361_small_violated), and no result at all for a field (C361_field_violated).  
Theorems: `C361_profile_partial`, `C361_small_violated`, `C361_field_violated`.

### C362 — The improved swirling strength is the ratio of the parts of the eigenvalues

*partial.* `lean/Verif/Crit/Improved.lean`  
Modelled: vortex_criterions/vortex_criterions.py: motif and masks of the non-local criteria, gamma, kappa, vorticity and divergence of whole fields with units, residual and shear vorticity, Q, Nk, Delta, lambda2, swirling strength, Stokes vorticity and its axis, fitted gradients, enstrophy. The criteria with square roots are functions over any ordered field with the root as a parameter, instantiated at the reals. Not modelled: iota, improved swirling strength, temporal versions (one field after the other), the interpolation of fill (a parameter). Proof: the motif equals its own reverse, so odd sums vanish; Cauchy-Schwarz per term; difference operators commute; sums over cells telescope. C278 (get_angle_deviation, over the reals): each term lies below its chord by convexity of the power, strictly between the ends; turning the angles swaps the two parts of the sorted list. IotaModel.lean/Iota.lean: circular distance of angles at the reals (C342). ImprovedModel.lean/Improved.lean: improved swirling strength, at one point and on fields (C362).  
At a point the ratio, the mask, the invariances are proved for all gradients; for fields with nothing masked on evenly spaced axes. Fails: the field is not filled, and a masked neighbour raises LinAlgError (C362_filled_violated).  
Theorems: `C362_ratio`, `C362_masked`, `C362_turned`, `C362_scaled`, `C362_incompressible`, `C362_field_partial`, `C362_filled_violated`.

### C363 — The marks on the slider are those of the frames that are kept

*partial.* `lean/Verif/Display/Marks.lean`  
BrowseModel.lean: the state machine of ButtonManager (keys, buttons, timer, slider, limits, animations) without the widgets; Browse.lean, Moves.lean, Limits.lean (C297-C302) by induction on histories of events. BufferModel.lean/BufferLemmas.lean/Buffer.lean: the buffer of drawings of a Displayer as an LRU list, with an invariant on what is visible (C303, C304). LinkModel.lean/Link.lean: linked figures, the update being a depth-first flood of the graph of links, by induction on the number of figures not yet on the frame (C305, C306). ColorModel.lean/Color.lean: bounds of colour scales, discrete maps, gradients, segments, aspects and grids of axes (C314-C320). CursorModel.lean/Cursor.lean: the data under the mouse (C321, C322). The drawing itself and the widgets are not modelled. MarksModel.lean/Marks.lean: marks of the slider as a state beside that of the displayer, invariant over histories of frames (C363). LineModel.lean/Line.lean: coloured lines (C366) and colour maps made by hand (C367). FramesModel.lean/Frames.lean: data and limits of a displayer (C373); specification `Hull`. BarModel.lean/Bar.lean: colour bar of a window (C375); specification `Extremes`. DeskModel.lean/Desk.lean: open figures and animations (C379).  
Proved for a figure with one displayer and a buffer of one drawing at least. Fails: with a buffer of no drawing the shown frame is marked (C363_none_violated); when two marked frames leave the buffer between two updates, a mark stays for ever (C363_leftover_violated).  
Theorems: `C363_marks_partial`, `C363_leftover_violated`, `C363_none_violated`.

### C364 — The interpolator of a profile goes through its unmasked points

*partial.* `lean/Verif/Profile/Interpol.lean`  
Modelled: Profile as three parallel lists with the sort as a parameter (core/profile.py). Proof: permutations, sortedness, induction. C330, C331: the padded profile read through an infinite signal. DensityModel.lean/Density.lean: kernel densities at the reals with Mathlib's gaussian; the mass is compared with the integral over the whole line (C337, C338). SpectrumModel.lean/Spectrum.lean: discrete Fourier transform at the reals, least squares, Parseval's identity and folding of the one-sided spectrum (C343, C344). InterpolModel.lean/Interpol.lean: interpolators and values at indices (C364). FitModel.lean/Fit.lean: fitting of a function (C380); specification `Best`.  
Proved for linear interpolation. Fails: the index of a value, get_interpolated_values(y=v, ind=True), raises TypeError (C364_value_violated).  
Theorems: `C364_between`, `C364_node`, `C364_outside`, `C364_agrees`, `C364_index`, `C364_value_violated`.

### C365 — Series of vector fields can be read from ascii files

*partial.* `lean/Verif/Ascii/Series.lean`  
Modelled: text tables (file_operation.py). Proof: round trips over tables by columns, by rows and in any order. SeriesModel.lean/Series.lean: import_vfs_from_ascii, that never returns (C365).  
Fails for all arguments: VectorField has no method import_from_ascii (C365_never_violated, C365_expected_violated). Only the refusals hold.  
Theorems: `C365_never_violated`, `C365_expected_violated`, `C365_refused`.

### C366 — A coloured line goes through its points

*partial.* `lean/Verif/Display/Line.lean`  
BrowseModel.lean: the state machine of ButtonManager (keys, buttons, timer, slider, limits, animations) without the widgets; Browse.lean, Moves.lean, Limits.lean (C297-C302) by induction on histories of events. BufferModel.lean/BufferLemmas.lean/Buffer.lean: the buffer of drawings of a Displayer as an LRU list, with an invariant on what is visible (C303, C304). LinkModel.lean/Link.lean: linked figures, the update being a depth-first flood of the graph of links, by induction on the number of figures not yet on the frame (C305, C306). ColorModel.lean/Color.lean: bounds of colour scales, discrete maps, gradients, segments, aspects and grids of axes (C314-C320). CursorModel.lean/Cursor.lean: the data under the mouse (C321, C322). The drawing itself and the widgets are not modelled. MarksModel.lean/Marks.lean: marks of the slider as a state beside that of the displayer, invariant over histories of frames (C363). LineModel.lean/Line.lean: coloured lines (C366) and colour maps made by hand (C367). FramesModel.lean/Frames.lean: data and limits of a displayer (C373); specification `Hull`. BarModel.lean/Bar.lean: colour bar of a window (C375); specification `Extremes`. DeskModel.lean/Desk.lean: open figures and animations (C379).  
Proved for lines with at least min_colors points; with fewer points, for the versions of numpy that take a float as a number of points. Fails: numpy from 1.18 on refuses these lines (C366_count_violated); corners are not drawn (C366_corner_violated); without z the axes stay linear (C366_log_violated).  
Theorems: `C366_line`, `C366_refined_partial`, `C366_count_violated`, `C366_corner_violated`, `C366_log_violated`, `C366_refused`, `C366_alone`.

### C367 — A colour map made by hand goes through the given colours

*partial.* `lean/Verif/Display/Line.lean`  
BrowseModel.lean: the state machine of ButtonManager (keys, buttons, timer, slider, limits, animations) without the widgets; Browse.lean, Moves.lean, Limits.lean (C297-C302) by induction on histories of events. BufferModel.lean/BufferLemmas.lean/Buffer.lean: the buffer of drawings of a Displayer as an LRU list, with an invariant on what is visible (C303, C304). LinkModel.lean/Link.lean: linked figures, the update being a depth-first flood of the graph of links, by induction on the number of figures not yet on the frame (C305, C306). ColorModel.lean/Color.lean: bounds of colour scales, discrete maps, gradients, segments, aspects and grids of axes (C314-C320). CursorModel.lean/Cursor.lean: the data under the mouse (C321, C322). The drawing itself and the widgets are not modelled. MarksModel.lean/Marks.lean: marks of the slider as a state beside that of the displayer, invariant over histories of frames (C363). LineModel.lean/Line.lean: coloured lines (C366) and colour maps made by hand (C367). FramesModel.lean/Frames.lean: data and limits of a displayer (C373); specification `Hull`. BarModel.lean/Bar.lean: colour bar of a window (C375); specification `Extremes`. DeskModel.lean/Desk.lean: open figures and animations (C379).  
Proved for at least two colours at increasing positions from 0 to 1; the table of matplotlib is modelled. Fails: one colour, or positions that do not go from 0 to 1, give a map that cannot be used (C367_one_violated, C367_places_violated).  
Theorems: `C367_map_partial`, `C367_even`, `C367_one_violated`, `C367_places_violated`, `C367_refused`.

### C368 — The background flows of the ready-made systems follow the boundary layer and the obstacle

*partial.* `lean/Verif/Vortex/Systems.lean`  
Modelled: vortex_creation/vortex_creation.py over the reals: every vortex class, walls and images, the vortex system with its caches and identifiers, evolution, trajectories, velocity map. The Bessel functions of the Lamb-Chaplygin dipole are parameters. Not modelled: HsvSystem, StepSystem, drawings. Proof: refinement of the cached system to its content (images = sum over the sublists of the walls) by induction on the history; reflection of a round vortex; antisymmetric double sums. C280: fields made from a system, with units and masks, on top of the vector field model (Vector/Model.lean), by induction on the parts; a vortex is there any function with rational values. SystemsModel.lean/Systems.lean: background flows of HsvSystem and StepSystem (C368). SeriesModel.lean/Series.lean: velocity fields of a system in time (C370).  
The Blasius profile and the potential flow are parameters. Proved inside of the tabulated zone. Fails: no flow above the height or farther than 5 D (C368_stream_violated), none farther than h from the step (C368_far_violated), a velocity that does not follow u_D farther than 3 H (C368_speed_violated).  
Theorems: `C368_hsv_partial`, `C368_wall`, `C368_stream_violated`, `C368_step_partial`, `C368_far_violated`, `C368_speed_violated`.

### C369 — A video of fields shows them in place, on one scale of greys

*partial.* `lean/Verif/Export/Video.lean`  
Modelled: the VTK files of fields and points (VtkModel.lean: header, order of the points with the first axis varying fastest, axes; C289, C290) and the text files of points, profiles and critical points (TextModel.lean, C291). Floats are written and read exactly, the existence of folders is a parameter. Proof: the relation Shows gives the position of each line of the file from the order defined by the format; folds over distinct file names. SeriesModel.lean/Series.lean: records made of several files and conversions (C292-C295), by induction on the files with the specification of add_field. MatModel.lean/Mat.lean: matlab files of fields and profiles, with the removal of dimensions of length one (C296). VideoModel.lean/Video.lean: grey levels of the frames of a video (C369).  
Proved for series of complete fields that are not uniform. Fails: one masked point anywhere spoils all the frames (C369_mask_violated), as does a uniform value (C369_uniform_violated); frames of a list of fields are not turned (C369_array_violated).  
Theorems: `C369_levels_partial`, `C369_order`, `C369_mask_violated`, `C369_uniform_violated`, `C369_array_violated`, `C369_empty`.

### C370 — The velocity fields of a vortex system in time follow its vortices

*proved.* `lean/Verif/Vortex/Series.lean`  
Modelled: vortex_creation/vortex_creation.py over the reals: every vortex class, walls and images, the vortex system with its caches and identifiers, evolution, trajectories, velocity map. The Bessel functions of the Lamb-Chaplygin dipole are parameters. Not modelled: HsvSystem, StepSystem, drawings. Proof: refinement of the cached system to its content (images = sum over the sublists of the walls) by induction on the history; reflection of a round vortex; antisymmetric double sums. C280: fields made from a system, with units and masks, on top of the vector field model (Vector/Model.lean), by induction on the parts; a vortex is there any function with rational values. SystemsModel.lean/Systems.lean: background flows of HsvSystem and StepSystem (C368). SeriesModel.lean/Series.lean: velocity fields of a system in time (C370).  
Theorems: `C370_fields`, `C370_positions`, `C370_steady`, `C370_refused`.

### C371 — Vortex centres found by the gamma criterion are the centres of the turning zones

*partial.* `lean/Verif/Detect/Gamma.lean`  
Modelled: get_vortex_position on top of the zones (Centre) and collections of critical points (Cp); get_critical_points around the detection itself: mirroring, smoothing, removal of the points behind the walls, records. Proof: the bands given to the zones are half-lines cut at the greatest absolute value; invariant on the bounds of the window; sums of collections. AroundModel.lean/Around.lean: windows cut around points (C286) and refined critical points (C287), by counting the nodes of even axes in an interval. GammaModel.lean/Gamma.lean: vortex centres by the gamma criterion (C371); specification `turning`, `ShowsTurning`.  
Proved for unmasked fields with regular axes and more than 2 r points per axis. Fails: IndexError on smaller fields (C371_small_violated); gamma1 is used and not gamma2, so that a vortex carried by a uniform flow is lost (C371_moving_violated).  
Theorems: `C371_centres_partial`, `C371_small_violated`, `C371_moving_violated`.

### C372 — Smoothing trajectories of critical points changes only their positions

*partial.* `lean/Verif/Cps/Smooth.lean`  
Modelled: crop in time, clean_traj, set_origin, change_unit, scale, topo_simplify (up to the point where it fails) and break_trajectories of CritPoints, with the kind of container of the trajectories. Not modelled: crop in space (Verif/Cp), the choice of the times of breaking (arbitrary), what an exception leaves behind except for set_origin and change_unit. Proof: zipped lists of times and sets; rows of points. SmoothModel.lean/Smooth.lean: smoothing of trajectories (C372).  
Uniform smoothing. Fails: the times of the trajectories are averaged too (C372_times_violated), so that clean_traj finds no point at its time (C372_lost_violated).  
Theorems: `C372_smoothed_partial`, `C372_refused`, `C372_times_violated`, `C372_lost_violated`.

### C373 — A drawing shows each set of data given, within limits that hold all of them

*partial.* `lean/Verif/Display/Frames.lean`  
BrowseModel.lean: the state machine of ButtonManager (keys, buttons, timer, slider, limits, animations) without the widgets; Browse.lean, Moves.lean, Limits.lean (C297-C302) by induction on histories of events. BufferModel.lean/BufferLemmas.lean/Buffer.lean: the buffer of drawings of a Displayer as an LRU list, with an invariant on what is visible (C303, C304). LinkModel.lean/Link.lean: linked figures, the update being a depth-first flood of the graph of links, by induction on the number of figures not yet on the frame (C305, C306). ColorModel.lean/Color.lean: bounds of colour scales, discrete maps, gradients, segments, aspects and grids of axes (C314-C320). CursorModel.lean/Cursor.lean: the data under the mouse (C321, C322). The drawing itself and the widgets are not modelled. MarksModel.lean/Marks.lean: marks of the slider as a state beside that of the displayer, invariant over histories of frames (C363). LineModel.lean/Line.lean: coloured lines (C366) and colour maps made by hand (C367). FramesModel.lean/Frames.lean: data and limits of a displayer (C373); specification `Hull`. BarModel.lean/Bar.lean: colour bar of a window (C375); specification `Extremes`. DeskModel.lean/Desk.lean: open figures and animations (C379).  
Arrays, or series whose first set is not empty. Fails: a python list of numbers gives a TypeError (C373_list_violated), a series of arrays beginning with an empty one is taken as a single set (C373_empty_first_violated), sets without numbers give a ValueError (C373_nothing_violated), no set at all an IndexError (C373_none_violated).  
Theorems: `C373_series_partial`, `C373_single_partial`, `C373_list_violated`, `C373_empty_first_violated`, `C373_nothing_violated`, `C373_none_violated`.

### C374 — Changing the type of the values of a field changes nothing else

*partial.* `lean/Verif/Vector/Dtype.lean`  
Modelled: VectorField (core/vectorfield.py). Specification: `VF.Reads`. Proof: refinement. DtypeModel.lean/Dtype.lean: change_dtype of scalar and vector fields (C374).  
Proved for vector fields and for scalar fields without masked points. Fails for scalar fields: masked points appear, as 0 or as the whole number made of NaN (C374_unmasked_violated). Floating-point rounding is not modelled.  
Theorems: `C374_scalar_partial`, `C374_same`, `C374_vector`, `C374_unmasked_violated`.

### C375 — The colour bar of a window gives the value of each colour drawn in it

*partial.* `lean/Verif/Display/Bar.lean`  
BrowseModel.lean: the state machine of ButtonManager (keys, buttons, timer, slider, limits, animations) without the widgets; Browse.lean, Moves.lean, Limits.lean (C297-C302) by induction on histories of events. BufferModel.lean/BufferLemmas.lean/Buffer.lean: the buffer of drawings of a Displayer as an LRU list, with an invariant on what is visible (C303, C304). LinkModel.lean/Link.lean: linked figures, the update being a depth-first flood of the graph of links, by induction on the number of figures not yet on the frame (C305, C306). ColorModel.lean/Color.lean: bounds of colour scales, discrete maps, gradients, segments, aspects and grids of axes (C314-C320). CursorModel.lean/Cursor.lean: the data under the mouse (C321, C322). The drawing itself and the widgets are not modelled. MarksModel.lean/Marks.lean: marks of the slider as a state beside that of the displayer, invariant over histories of frames (C363). LineModel.lean/Line.lean: coloured lines (C366) and colour maps made by hand (C367). FramesModel.lean/Frames.lean: data and limits of a displayer (C373); specification `Hull`. BarModel.lean/Bar.lean: colour bar of a window (C375); specification `Extremes`. DeskModel.lean/Desk.lean: open figures and animations (C379).  
Proved for one displayer, and for bounds given to the displayers too. Fails: two displayers with other extremes share the bar of the first one (C375_two_violated), a displayer without numbers as colours makes a TypeError (C375_points_violated), bounds asked for are not passed to the displayers (C375_asked_violated).  
Theorems: `C375_shared_partial`, `C375_one_partial`, `C375_given_partial`, `C375_two_violated`, `C375_points_violated`, `C375_asked_violated`, `C375_unshared_partial`.

### C376 — A collection of fields in space can be raised to a power

*partial.* `lean/Verif/Spatial/Power.lean`  
Modelled: SpatialFields (core/spatialfields.py). Proof: refinement to physical readings (`Phys`). C277: lists of fields related one by one (`Forall₂`), invariant `Good` of the collections made of add_field. C328, C329: the loops that fill the grid, cell by cell; the errors of get_profile for all arguments. PowerModel.lean/Power.lean: powers (C376). ShareModel.lean/Share.lean: changes in place of collections that share fields (C386), by counting how often an object is held; specifications `MovedBy` and `ScaledBy`. BoundModel.lean/Bound.lean: extent, iteration and mask of collections (C389).  
Natural exponents. Computed for fields with several rows and columns; a field of one column with a masked point between its values makes a ValueError (C376_line_violated). The quotient is in C277.  
Theorems: `C376_power_partial`, `C376_computed_partial`, `C376_line_violated`.

### C377 — A field of displaced points holds the place of every particle

*partial.* `lean/Verif/Ftle/Cloud.lean`  
Modelled: FTLE/ftle.py: the Runge-Kutta-Fehlberg steps, step size control, the displacement loop (with a number of rounds as fuel, C182_rounds shows it does not matter), the grid of particles, gradients, the largest eigenvalue and the masking. The interpolated velocity is an arbitrary function of the plane. Not modelled: interpolation by scipy, rounding. Proof: fold of steps, induction on the rounds, Taylor polynomials, exponential bounds, Rayleigh quotient. CloudModel.lean/Cloud.lean: field of displaced points (C377).  
Computed as soon as every particle ends (C183 shows travels that never end). Fails in long fields: no particle is followed and nothing is refused (C377_long_violated).  
Theorems: `C377_points`, `C377_computed_partial`, `C377_refused`, `C377_uniform_partial`, `C377_long_violated`.

### C378 — The modes of a decomposition make a series of fields

*partial.* `lean/Verif/Temporal/Modes.lean`  
Modelled: TemporalFields as times and fields (core/temporalfields.py). Specification: the list of (time, field) entries and the reading of a frame. Proof: invariants by induction on histories, refinement. ModesModel.lean/Modes.lean: modes of a base as a series (C378). ShareModel.lean/Share.lean: rotation in place of collections that share fields (C385); specifications `OnGrid` and `Turned`. UnitShareModel.lean/UnitShare.lean: changes of unit of records that share fields, with the state after an exception (C387); specifications `Shows`, `SameThings`, `unitOf` and `Sized`. CropShareModel.lean/CropShare.lean: crops in place of records that share fields (C388); specifications `Windowed` and `Hit`.  
Scalar fields with the same abscissas. Fails: in a reduced base the times are the places, not the numbers (C378_number_violated); modes on other grids are accepted when both axes differ (C378_grid_violated).  
Theorems: `C378_series_partial`, `C378_number_violated`, `C378_grid_violated`.

### C379 — An animation is made of the figure that is asked for

*partial.* `lean/Verif/Display/Desk.lean`  
BrowseModel.lean: the state machine of ButtonManager (keys, buttons, timer, slider, limits, animations) without the widgets; Browse.lean, Moves.lean, Limits.lean (C297-C302) by induction on histories of events. BufferModel.lean/BufferLemmas.lean/Buffer.lean: the buffer of drawings of a Displayer as an LRU list, with an invariant on what is visible (C303, C304). LinkModel.lean/Link.lean: linked figures, the update being a depth-first flood of the graph of links, by induction on the number of figures not yet on the frame (C305, C306). ColorModel.lean/Color.lean: bounds of colour scales, discrete maps, gradients, segments, aspects and grids of axes (C314-C320). CursorModel.lean/Cursor.lean: the data under the mouse (C321, C322). The drawing itself and the widgets are not modelled. MarksModel.lean/Marks.lean: marks of the slider as a state beside that of the displayer, invariant over histories of frames (C363). LineModel.lean/Line.lean: coloured lines (C366) and colour maps made by hand (C367). FramesModel.lean/Frames.lean: data and limits of a displayer (C373); specification `Hull`. BarModel.lean/Bar.lean: colour bar of a window (C375); specification `Extremes`. DeskModel.lean/Desk.lean: open figures and animations (C379).  
Right for the current figure. Fails: the figure given is ignored (C379_figure_violated, C379_plain_violated), an empty figure is opened (C379_empty_violated), other kinds of files are silently not written and mp4 asks for the writer 'fmpeg' (C379_kind_violated).  
Theorems: `C379_current_partial`, `C379_all_partial`, `C379_writer`, `C379_figure_violated`, `C379_plain_violated`, `C379_empty_violated`, `C379_kind_violated`.

### C380 — A function fitted to a profile is the closest one

*partial.* `lean/Verif/Profile/Fit.lean`  
Modelled: Profile as three parallel lists with the sort as a parameter (core/profile.py). Proof: permutations, sortedness, induction. C330, C331: the padded profile read through an infinite signal. DensityModel.lean/Density.lean: kernel densities at the reals with Mathlib's gaussian; the mass is compared with the integral over the whole line (C337, C338). SpectrumModel.lean/Spectrum.lean: discrete Fourier transform at the reals, least squares, Parseval's identity and folding of the one-sided spectrum (C343, C344). InterpolModel.lean/Interpol.lean: interpolators and values at indices (C364). FitModel.lean/Fit.lean: fitting of a function (C380); specification `Best`.  
The optimiser is a parameter. Fails with a masked point: what is made least is NaN (C380_masked_violated).  
Theorems: `C380_values`, `C380_target_partial`, `C380_exact_partial`, `C380_masked_violated`.

### C381 — The number of structures along an axis counts the columns and rows that hold one

*partial.* `lean/Verif/Pbi/Struct.lean`  
Modelled: wrapped angle differences, Poincare-Bendixson index of a cell, border walk, in-cell position (vortex_detection.py, core/vectorfield.py theta). Proof: telescoping path sums, real angles. StructModel.lean/Struct.lean: number of structures (C381).  
What is counted are the columns and rows of non zero total index. Fails: opposite structures in a column hide each other (C381_hidden_violated).  
Theorems: `C381_count`, `C381_cell`, `C381_none_partial`, `C381_hidden_violated`.

### C382 — Smoothing a collection of fields smooths each of its fields once

*partial.* `lean/Verif/Fill/Series.lean`  
Modelled: fill of scalar and vector fields (crop=False), their uniform smoothing, fill of records of both in space and in time (kinds value, nearest, linear). The interpolators of scipy are parameters with stated assumptions (a nearest point; barycentric weights inside the convex hull, NaN outside; error for points on one line), shown to be satisfiable. Not modelled: gaussian smoothing, cubic filling in time, crop=True. Proof: one grid step towards a masked point shows that nearest visible points touch the mask; barycentric sums; sums over a period of the reflected array; consecutive knots of increasing lists. SeriesModel.lean/Series.lean: smoothing of collections of scalar or vector fields that may share objects (C382); specifications `Softened`, `VSoftened`.  
For the uniform filter, distinct fields that can be filled. Fails: a field held twice is smoothed twice (C382_shared_violated), a field that cannot be filled stops the loop after the fields before (C382_halfway_violated), an unknown filter raises once the first field has been filled (C382_kind_violated).  
Theorems: `C382_inplace_partial`, `C382_copy_partial`, `C382_vector_inplace_partial`, `C382_vector_copy_partial`, `C382_shared_violated`, `C382_halfway_violated`, `C382_kind_violated`, `C382_vector_kind_violated`.

### C383 — The modes of vector fields combine the vectors point by point

*partial.* `lean/Verif/Pod/Snap.lean`  
Modelled: pod/pod.py over the reals: snapshots, mean, modes, evolutions and eigenvalues of a pod base (modred is a parameter: any orthonormal eigenvectors of the correlation matrix with positive eigenvalues), reconstruct, crop_modal_base, crop, scale, energies; Ritz values of the dmd. Not modelled: masks (a base lives on its unmasked cells), units, bpod, drawings, the spectra behind the coherence. Proof: orthogonality of the modes from the one of the eigenvectors, Bessel's inequality, induction on the list of modes; filters of increasing lists for crops; half angle formula and complex exponential. C326, C327: the kept answers as a state machine over calls, invariant on all histories; removing a mean is idempotent. KappaModel.lean/Kappa.lean: critical kappa and sign of the temporal coherence, by bounds of real powers and exponentials (C355). SnapModel.lean/Snap.lean: snapshots of vector fields and fields of modes (C383); specifications `Shows`, `scalar`, `blend`.  
For records without masked points (they are filled before). Fails for fields of one column: the modes cannot be made into fields (C383_line_violated).  
Theorems: `C383_product`, `C383_modes_partial`, `C383_back_partial`, `C383_line_violated`.

### C384 — A mask given as a field tells where points are masked

*partial.* `lean/Verif/Trace/Mask.lean`  
Modelled: get_time_profile and inject_time_profile (position, indices, Points), mask_cum, crop_masked_border, extend and mirroring of TemporalFields on scalar fields. Not modelled: rounding, vector fields in these methods. Proof: nearest grid point by C02, cell by cell descriptions of the fields; the cumulated mask is seen as a scalar field on which C19 applies; termination by the number of lines; C14 and C194 for every field. SpecModel.lean/Spectra.lean: temporal spectra over areas, maps of the main frequencies and temporal filtering, with the spectrum of a profile as parameter (C347-C349): sums over the nodes of a rectangle, selection of the highest entries as permutations, induction over the nodes of a loop that reads and writes the same fields. VecSpecModel.lean/VecSpectra.lean: temporal filtering of vector fields (C357). MaskModel.lean/Mask.lean: masks given as fields (C384); specification `Tells`.  
For grids of two columns and two rows at least. Fails: the mask of a field has the unit of its values (C384_unit_violated), and a field of one column or row raises an exception (C384_line_violated).  
Theorems: `C384_field_partial`, `C384_each_partial`, `C384_cum_partial`, `C384_unit_violated`, `C384_line_violated`.

### C385 — Rotation in place turns each field of a collection once

*partial.* `lean/Verif/Temporal/Share.lean`  
Modelled: TemporalFields as times and fields (core/temporalfields.py). Specification: the list of (time, field) entries and the reading of a frame. Proof: invariants by induction on histories, refinement. ModesModel.lean/Modes.lean: modes of a base as a series (C378). ShareModel.lean/Share.lean: rotation in place of collections that share fields (C385); specifications `OnGrid` and `Turned`. UnitShareModel.lean/UnitShare.lean: changes of unit of records that share fields, with the state after an exception (C387); specifications `Shows`, `SameThings`, `unitOf` and `Sized`. CropShareModel.lean/CropShare.lean: crops in place of records that share fields (C388); specifications `Windowed` and `Hit`.  
For distinct scalar fields and grids of two columns and two rows at least. Fails: a field added twice without copy is turned twice, and for an odd number of quarter turns of a grid that is not square it leaves the grid of the collection (C385_twice_violated).  
Theorems: `C385_once_partial`, `C385_refused`, `C385_twice_violated`.

### C386 — Changes in place of a collection act on each field once

*partial.* `lean/Verif/Spatial/Share.lean`  
Modelled: SpatialFields (core/spatialfields.py). Proof: refinement to physical readings (`Phys`). C277: lists of fields related one by one (`Forall₂`), invariant `Good` of the collections made of add_field. C328, C329: the loops that fill the grid, cell by cell; the errors of get_profile for all arguments. PowerModel.lean/Power.lean: powers (C376). ShareModel.lean/Share.lean: changes in place of collections that share fields (C386), by counting how often an object is held; specifications `MovedBy` and `ScaledBy`. BoundModel.lean/Bound.lean: extent, iteration and mask of collections (C389).  
For fields held once. Fails: a field added twice without copy is moved or multiplied as often as it is held (C386_origin_violated, C386_scale_violated).  
Theorems: `C386_origin_partial`, `C386_scale_partial`, `C386_copy_partial`, `C386_origin_violated`, `C386_scale_violated`.

### C387 — Changing a unit of a record keeps what its fields show, shared or not

*partial.* `lean/Verif/Temporal/UnitShare.lean`  
Modelled: TemporalFields as times and fields (core/temporalfields.py). Specification: the list of (time, field) entries and the reading of a frame. Proof: invariants by induction on histories, refinement. ModesModel.lean/Modes.lean: modes of a base as a series (C378). ShareModel.lean/Share.lean: rotation in place of collections that share fields (C385); specifications `OnGrid` and `Turned`. UnitShareModel.lean/UnitShare.lean: changes of unit of records that share fields, with the state after an exception (C387); specifications `Shows`, `SameThings`, `unitOf` and `Sized`. CropShareModel.lean/CropShare.lean: crops in place of records that share fields (C388); specifications `Windowed` and `Hit`.  
For fields on the grid of the record, in its units. Fails: when a later field refuses the unit the fields before it are already in the new one (C387_halfway_violated), and a field added with the same numbers in another unit is moved to other physical places (C387_foreign_violated).  
Theorems: `C387_content_partial`, `C387_accepted`, `C387_refused_partial`, `C387_halfway_violated`, `C387_foreign_violated`.

### C388 — Cropping a record in place cuts each field once, shared or not

*partial.* `lean/Verif/Temporal/CropShare.lean`  
Modelled: TemporalFields as times and fields (core/temporalfields.py). Specification: the list of (time, field) entries and the reading of a frame. Proof: invariants by induction on histories, refinement. ModesModel.lean/Modes.lean: modes of a base as a series (C378). ShareModel.lean/Share.lean: rotation in place of collections that share fields (C385); specifications `OnGrid` and `Turned`. UnitShareModel.lean/UnitShare.lean: changes of unit of records that share fields, with the state after an exception (C387); specifications `Shows`, `SameThings`, `unitOf` and `Sized`. CropShareModel.lean/CropShare.lean: crops in place of records that share fields (C388); specifications `Windowed` and `Hit`.  
By coordinates, for fields on the grid of the record and a window that holds a column and a row, shared or not; by indices, for distinct fields. Fails: by indices, a field held twice is cut twice and leaves the grid of the record (C388_indices_violated).  
Theorems: `C388_window_partial`, `C388_indices_partial`, `C388_indices_violated`.

### C389 — The extent of a collection of fields in space holds every point

*partial.* `lean/Verif/Spatial/Bound.lean`  
Modelled: SpatialFields (core/spatialfields.py). Proof: refinement to physical readings (`Phys`). C277: lists of fields related one by one (`Forall₂`), invariant `Good` of the collections made of add_field. C328, C329: the loops that fill the grid, cell by cell; the errors of get_profile for all arguments. PowerModel.lean/Power.lean: powers (C376). ShareModel.lean/Share.lean: changes in place of collections that share fields (C386), by counting how often an object is held; specifications `MovedBy` and `ScaledBy`. BoundModel.lean/Bound.lean: extent, iteration and mask of collections (C389).  
The extent is proved. Fails: a collection with a field cannot be iterated on (C389_iterate_violated) and no collection gives its mask (C389_mask_violated), both read attributes it does not have.  
Theorems: `C389_bounds_partial`, `C389_empty`, `C389_iterate_violated`, `C389_mask_violated`.

## Violations found

Each line is a proved statement that the code departs from the property.

* `C07_crop_axis_violated` — C07 fails: moving the origin of a crop moves the axis of the source.
* `C07_crop_values_violated` — C07 fails: scaling the values of a crop scales those of the source.
* `C08_single_point_violated` — C08 fails for a single-point axis: the coordinate of the only column is not negated.
* `C11_mask_violated` — C11 fails for every field with a valid point whose mirror image (same row, symmetric rank on the x axis) is masked: after a negative scaling of x, the image of the valid point is masked, and the image of the masked point shows an unmasked NaN.
* `C14_extend_copy_violated` — C14 fails for the default call (not in place): it always raises.
* `C15_import_mask_violated` — C15 fails for masked points on a decreasing axis: the value at the coordinate 0, which is valid, is reported masked, and the NaN given at the coordinate 2 is reported unmasked.
* `C16_axis_units_violated` — C16 fails when the two axes carry different units of one dimension: the coordinates are compared as bare numbers, so a field on millimetres is added to a field on metres point by point (core/scalarfield.py:84-92).
* `C17_single_shared_violated` — C17 fails when the grids share exactly one coordinate on an axis: IndexError from the import.
* `C18_rdiv_violated` — C18 fails for `number / field`: an unmasked infinite value is shown where the field is zero (core/scalarfield.py:207-211).
* `C18_rdivArr_violated` — C18 fails for `array / field`: an unmasked infinity where the field is zero, and a masked point where the array is zero although the quotient is 0 (core/scalarfield.py:218-227).
* `C18_divArr_nan_violated` — C18 fails for an array holding NaN: the quotient shows an unmasked undefined number.
* `C19_soft_none_violated` — C19 fails when nothing is masked: no field is returned at all (core/scalarfield.py:1745-1746).
* `C19_soft_first_row_violated` — C19 fails when only the first row holds valid values: ValueError (the upper index 0 is refused, core/field.py:541-553).
* `C20_hard_error_violated` — C20 fails on a 2 × 3 field with one masked point on its last row: ValueError instead of a sub-rectangle.
* `C20_hard_empty_violated` — C20 fails on a checkerboard of masked points: the returned field is empty although three points are valid.
* `C21_inplace_units_violated` — C21 fails in place: the units of the field are lost, whatever they were (core/scalarfield.py:2052).
* `C21_odd_violated` — C21 fails for odd factors: no field is ever returned (core/scalarfield.py:2037-2042).
* `C21_one_inplace_violated` — C21 fails for the factor 1 in place, which should do nothing.
* `C23_masked_corner_violated` — C23 fails for a masked upper left corner when the interpolator splits the cell along the main diagonal: the mask is tested at two corners only (core/scalarfield.py:572).
* `C24_add_missing_violated` — C24 is violated: adding a point without value to any set with values raises ValueError, but the point has been stored.
* `C24_add_extra_violated` — C24 is violated: adding a point with a value to any non-empty set without values is accepted and leaves one value for several points.
* `C25_nan_violated` — C25 is violated for NaN: whatever the window, a point without coordinates stays.
* `C26_values_violated` — C26 is violated: for every set with values, as soon as one point is removed the values of all the others are lost.
* `C26_no_interval_violated` — C26 is violated: without interval nothing should be removed, but the call raises TypeError.
* `C27_place_violated` — C27 is violated: whenever the x units have different sizes, a point of the right operand which is not on the y axis is found at another physical place in the sum.
* `C27_units_violated` — C27 is violated: a point at 1 mm added to a set in metres is found at 1000 m.
* `C27_operand_violated` — C27 is violated: whenever the x units differ in size, a right operand with a point off the y axis is changed.
* `C28_units_violated` — C28 is violated: for every set whose two units differ, the units are not exchanged.
* `C29_add_missing_violated` — C29 is violated: a point refused because its value is missing stays, without orientation.
* `C29_iter_violated` — C29 is violated: whatever the set, iterating yields the first point again and again.
* `C31_lower_violated` — C31 fails: when the lower bound lies strictly between two neighbouring abscissae, the first point of the interval is lost.
* `C31_upper_violated` — C31 fails: when the upper bound lies beyond the last abscissa, the last point is lost.
* `C31_both_violated` — C31 fails: giving both intervals raises IndexError as soon as the interval along x removes a point.
* `C32_inplace_ties_violated` — C32 in place: the mask is stored after the abscissae have been sorted again, so with a sort that is not stable (numpy's default) a repeated abscissa can lose its valid value: the slice `[0:3]` of this profile has a valid point and the result has none.
* `C33_value_violated` — C33 fails for the kind 'value': every valid value is overwritten by the filling value, and every masked point stays masked.
* `C33_crop_violated` — C33 fails with `crop=True`: any profile with a masked point raises TypeError.
* `C33_single_violated` — C33 fails with a single valid point: the nearest value exists, but the interpolation raises ValueError.
* `C36_add_units_violated` — C36 fails: the second profile is converted with the inverse factor, so that whenever the units have different (positive) sizes and the second value is not zero, the stored number is not the sum expressed in the unit of the first.
* `C36_div_operand_violated` — C36 fails: wherever the divisor was zero it now reads one.
* `C38_removal_violated` — C38 fails: for every container that is not empty, `remove_fields([0, n - 1])`, where `n` is the number of fields, raises IndexError and leaves more fields than times.
* `C38_scale_violated` — C38 fails after a scaling of the times by a negative number: any container with two fields at different times is then no longer sorted.
* `C39_two_violated` — C39 fails for every list of two increasing indices: asking for fields `i < j` removes fields `i` and `j + 1` (and raises IndexError, after damaging the container, when `j` is the last one).
* `C41_limit_violated` — C41 fails at the limit: a cell where exactly `nmb_min` fields are valid is masked, although `nmb_min` is documented as the smallest sufficient number of values. With the default `nmb_min=1` the mean of a single field is masked everywhere.
* `C42_first_violated` — C42 fails wherever the first field is masked: however many other fields are valid, the minimal and the maximal fields show NaN there, in a cell that is not masked.
* `C42_units_violated` — C42 fails when the values of the fields are in different units: `1 s` and `500 ms` give `1 s` as minimum.
* `C44_last_run_violated` — C44 fails whenever the number of fields is a multiple of `n`: the last complete run is lost; when there is a single complete run the call is refused.
* `C45_again_violated` — C45 fails on its own results: a container obtained by `augment_temporal_resolution(fact)`, `fact ≥ 2`, cannot be augmented again, for its fields became a python list: TypeError.
* `C46_grid_violated` — C46 fails: a field with another y axis is accepted, whatever its x axis, and the container then holds fields on different grids.
* `C46_time_violated` — C46 fails: for every other unit of time the conversion factor is inverted, so that the field is stored at another instant (unless it is the origin of times).
* `C46_dimension_violated` — C46 fails too for units that are not units of time: they are accepted and the number is stored as it is.
* `C47_mul_number_violated` — C47 fails for the product by a number: every field of the result is at time 0, whatever the times were.
* `C47_product_violated` — C47 fails for the product and the quotient of two containers: every field of an accepted result is at time 0.
* `C47_div_number_violated` — C47 fails for the quotient by a number: TypeError for every container that is not empty.
* `C47_add_times_violated` — C47 fails for the sum of containers with different times: no field is added to another; the fields of the second one are put in the first, all of them at time 0.
* `C47_add_units_violated` — C47 fails when the units of time differ: the times are compared as bare numbers, so that fields of different instants are added together.
* `C47_pow_violated` — C47 fails for the power of a record: the fields are the powers of the fields, but every one of them is at time 0.
* `C47_div_field_violated` — C47 fails for the quotient of a record by a field: the fields are the quotients, but every one of them is at time 0.
* `C48_source_violated` — C48 fails for every window that excludes a point: the crop that is not in place returns the sets with all their points, and removes the points from the collection it was called on.
* `C49_units_violated` — C49 fails for every accepted field that is not in the units of the collection: the caller's object is rewritten in the units of the collection.
* `C49_border_violated` — C49 fails for every accepted field with a fully masked first row: the caller's object loses it.
* `C52_small_epsilon_violated` — C52 fails for `epsilon < 1`: with `epsilon = 1/4` two points at distance 2/5 are linked.
* `C53_reach_violated` — C53 fails for `epsilon > 1`: with `epsilon = 2` two points at distance 3/2 are not linked, although nothing else competes for them.
* `C54_replacement_violated` — C54 fails for 'replacement': two close foci (total index 2) become one point of type 0, of index 0.
* `C58_horizontal_violated` — C58 fails for opposite horizontal corners: with the velocities (-1, 0), (1, 0) in the first row of points and (0, -1), (0, -1) above, `vy` is never positive, the cell is not examined, and yet its index is not 0 (vd.py:107-108 counts `vy > 0` only).
* `C58_null_corner_violated` — C58 fails for a null corner: the velocities (0, 1), (-1, 0) in the first row of points and (0, 0), (0, -1) above have no positive `vx`, the cell is not examined, and the angle 0 given to the null vector makes the index 1.
* `C59_lookup_violated` — C59: on an irregular axis another cell is used, or `IndexError` is raised.
* `C59_affine_dropped_violated` — C59: a detected vortex with an affine velocity, corners (2, -1), (1, 3) below and (-1, -3), (-2, 1) above: its index is 1, its velocity vanishes at the centre of the cell, and the code drops it.
* `C59_corner_violated` — C59: one corner with `vx + vy = 0`. For the vortex (2, -1), (1, 2), (-1, -2), (-2, 2) the code returns the upper right corner, where the velocity is (-2, 2).
* `C59_corner_swapped_violated` — C59: the row and the column of that corner are exchanged: with (3, -3) at the lower right the code returns the upper left corner.
* `C59_null_component_violated` — C59: one velocity component that is exactly 0 at a corner drops the critical point (vd.py:242-249).
* `C59_affine_violated` — C59 fails for degenerate cells: when `dd` is zero, in particular whenever the velocity is an affine function of the position over the cell, no position is ever computed from the formulas: the cell is dropped (or `IndexError` is raised).
* `C62_trajectories_violated` — C62 is violated: whatever the collection and the operation, refused or not, the trajectories computed before are still there.
* `C65_masked_violated` — C65 fails for masked points that hold numbers: they come back as valid vectors.
* `C66_new_file_violated` — C66 fails for every field when the file does not exist yet: it cannot be created.
* `C66_list_violated` — C66 fails for lists of fields: for every field which is not square, the picture made from a list differs from the picture made from the field alone (it has the columns of the field as lines).
* `C67_dots_violated` — C67 fails for names whose basename is made of dots only: the written file can never be read again.
* `C69_unit_violated` — C69 fails for the unit of the values: the given one is dropped, for every frame.
* `C70_empty_first_violated` — C70 fails for every tree whose root holds no file: an error is raised.
* `C70_empty_after_violated` — C70 fails for every folder without file walked just after a folder with a match: it is returned.
* `C71_unpicklable_violated` — C71 fails when a value cannot be pickled: the call raises although the function returned, and the decoration fails ever after.
* `C71_mutation_violated` — C71 fails when a caller changes in place what it was given: the next call returns the changed object, for every function, key and object.
* `C71_mutation_persists_violated` — … and the changed object is written to the file by the next computation, so that it is returned by later processes.
* `C71_shared_violated` — C71 fails when a file serves two functions: the second one returns the values of the first.
* `C72_crash_violated` — C72 fails: after a death while the file is written, whatever happened before and whatever happens next, no process can decorate the function any more.
* `C73_remove_array_violated` — C73 fails for increasing indices: of two indices `i < j`, the file of index `j + 1` is removed and the one of index `j` stays.
* `C73_remove_regex_violated` — C73 fails for regular expressions: as soon as one path matches, the removal raises TypeError and removes nothing, for every collection.
* `C74_zero_violated` — C74 fails for nothing to count: `finish()` raises ZeroDivisionError, whatever the period.
* `C75_days_violated` — C75 fails from one day on: the number of minutes is displayed instead of the number of days, so that every duration in which they differ is displayed wrong by a whole number of days.
* `C76_variadic_violated` — C76 fails for functions taking `*args`: more positional arguments than named ones raise IndexError, well typed or not.
* `C76_no_argument_violated` — C76 fails for functions without variables: decorating them raises IndexError.
* `C77_leak_violated` — C77 fails: every use of the context leaves two descriptors open for ever.
* `C78_mean_violated` — C78 fails when the process dies between the writing of the cleaned fields and that of their mean, which happens in every first run: however often the protocol is run again, the mean is never produced.
* `C78_broken_violated` — C78 fails when the process dies while a file other than the last is written: from then on every run ends with EOFError and changes nothing.
* `C78_silent_violated` — C78 fails silently when the process dies while the trajectories are written: further runs end well and leave the broken file.
* `C78_stale_violated` — C78 fails for the detailed products: when the rest is recomputed, by deleting the cleaned fields or by `recompute_everything`, they are kept as they were, whatever they contain.
* `C78_default_violated` — C78: with the default number of threads no protocol can be built.
* `C79_scalar_violated` — C79 fails for the values of scalar fields: every factor below 1, negative ones included, is stored.
* `C79_points_violated` — C79 fails for point sets and profiles: every unit is stored.
* `C79_string_violated` — C79 fails for strings: whatever unit the string stands for is stored, its factor being ignored.
* `C79_time_string_violated` — C79 fails for the unit of times: assigning a string succeeds and changes nothing.
* `C80_disc_outside_violated` — C80 fails near the border of the field: indices that designate no point of the field (here a negative one) are returned.
* `C82_fill_crop_violated` — C82 fails with `crop=True`: asking for a filled copy crops the source.
* `C85_horizontal_violated` — C85 without the hypothesis on the horizontal vectors: there is a field of two rows and two columns, without mask nor null vector, whose border has an index that is not 0 although no cell is reported.
* `C87_values_violated` — C87 is violated: for every set with values and every removal of at least one point, all the values are lost.
* `C88_mask_flag_violated` — C88 fails: `mask=True` gives the same profile as `mask=False`, with every finite value left valid.
* `C92_pow_zero_violated` — C92 fails for the power 0: every masked point gets the value 1.
* `C93_interpolated_violated` — C93 fails: as soon as one stored value is the wanted one, the crossings elsewhere are not returned.
* `C93_position_violated` — C93 fails: a value that is stored several times is only reported at the first place.
* `C97_negative_violated` — C97 fails for a negative factor: the axis of every field is reversed but not its values, so that a field that differs between its first and its last column no longer shows its values at the images of their points.
* `C100_removed_violated` — C100 fails after any removal: every later addition raises AttributeError, and leaves behind a time without a set.
* `C100_unit_violated` — C100 fails for a time given in another unit: the instant stored is not the instant given, unless it is zero or the units have the same size.
* `C101_crop_violated` — C101 fails: the collection holds the caller's own object, so that cropping the collection in place crops the object that was added.
* `C102_default_violated` — C102 fails as soon as one of the three scales of the points is left to its default: TypeError, whatever the others.
* `C103_values_violated` — C103 fails for the values: a collection that holds a set refuses every unit for its values.
* `C103_stale_violated` — C103 fails for the units of the collection itself: they stay the former ones after a change of the unit of an axis.
* `C104_border_violated` — C104 fails on the border of a field: its first and last rows and columns belong to the field, but are refused unless another field holds them inside.
* `C111_import_mask_violated` — C111 fails on a decreasing x axis: for every pair of arrays of the right shape, a valid vector given at `ax[i]` is reported masked as soon as the point of symmetric rank was given masked, and the field is inconsistent when the latter was NaN.
* `C113_zero_violated` — C113 fails on the coordinate 0, for every two fields on different grids: whatever the result, it has no point on the lines `x = 0` and `y = 0`, even where both fields have one.
* `C114_unit_violated` — C114 fails for the unit: the product with any scalar field has the unit of the vector field, whatever the unit of the scalar field.
* `C114_grid_violated` — C114 fails for the grid: a scalar field of the same shape on any other grid is accepted.
* `C115_nothing_returned_violated` — C115: when nothing is masked nothing is cropped, and nothing is returned.
* `C115_hard_error_violated` — C115 fails on a 2 × 3 field with one masked point on its last row: ValueError instead of a sub-rectangle.
* `C116_columns_violated` — C116 fails when the ordinates decrease in each column: every value is shown at the mirrored ordinate.
* `C116_rows_violated` — C116 fails for a table listed row by row with increasing ordinates: every value is shown at the mirrored ordinate.
* `C116_close_violated` — C116 fails for abscissae closer than the tolerance of `np.allclose`: the table of the values `10 x' + y'` on a grid of two columns one micrometre apart and two rows, listed by rows in the right order, is read as a table by columns.
* `C116_incomplete_violated` — C116 fails for incomplete tables: when one point of the grid is missing, and no row is repeated, the table is refused (the code that handles missing points comes after a reshape which does not accept them).
* `C116_square_violated` — C116 fails for such an order on a square grid: the field is transposed. Here the value given at `(1, 0)` is shown at `(0, 2)` and the one given at `(0, 2)` is shown at `(1, 0)`.
* `C117_pixel_violated` — C117 fails when the y axis is in pixels with a positive step: for every file, a valid vector is reported masked as soon as the one of symmetric rank in its column is masked or null.
* `C118_order_violated` — C118 fails for more than 100000 pictures: the picture 100000 comes before the picture 99999.
* `C119_uneven_violated` — C119 fails at every point inside the grid where the distance of the two neighbours is not twice the first step of the axis, when the values of the two neighbours differ: the gradient shown is their difference over twice the first step, not over their distance.
* `C120_uneven_violated` — C120 fails on every uneven axis: for a field without masked point that varies along x as `a x + b y + c` with `a ≠ 0`, if all the x-gradients are exact, then the x axis is evenly spaced (the code uses the first step everywhere, field_treatment.py:57-61).
* `C121_uneven_violated` — C121 fails in the same way for the derivative of each component along x, for instance the first one.
* `C122_unit_violated` — C122 fails for every field whose x axis has a dimension: the gradient field carries the unit of the velocity itself, not divided by the unit of the axis (field_treatment.py:579-582).
* `C123_reverse_violated` — C123 fails backwards: asking for reversed track lines gives the forward ones, whatever the field, the seeds and the integrator.
* `C124_units_violated` — C124 fails when the y-gradient does not share the units of the x-gradient: for the gradients of `U = q y` (x-gradient zero), what is reconstructed is `U` multiplied by the ratio of the two unit products (field_treatment.py:233-235 look at the x-gradient only).
* `C124_masked_violated` — C124 fails with masked points: one masked point in one of the gradients masks the whole reconstructed field.
* `C126_integers_violated` — C126 fails for seeds with integer coordinates: every seed inside the field, but off its upper and right edges, gives the streamline of the lower left corner.
* `C127_near_violated` — C127 fails for a wall nearer than one step on the left: nothing is added and the first line of data becomes the wall.
* `C127_right_violated` — C127 fails for a wall on the right of (or above) an evenly spaced field of at least three points: the line set to zero lies beyond the wall, by the number of points minus two steps, up to one step.
* `C127_first_violated` — C127 fails for a wall on the first line of the field, although no check forbids it: ValueError.
* `C128_units_violated` — C128 fails with a radius in axis units on a grid with different steps: the number of neighbours is counted with the mean of the two steps, and so is the border left aside. With steps `d` and `3 d` and a radius of `4 d`, the criterion of any field without masked points raises an IndexError.
* `C131_units_violated` — C131 fails with a radius in axis units: the point itself is counted among its neighbours, so that at the centre of a perfect vortex gamma1 is `n / (n + 1)`, with `n` the number of neighbours, instead of 1: 4/5 for the nearest four.
* `C132_centre_violated` — C132 fails: kappa2 is documented as kappa1 of the relative velocities, which gives one for a source whatever it is carried by. The velocity it subtracts is that of the point itself, not that of its neighbourhood: with neighbours flowing exactly away from a point, of which the velocity alone is not zero, kappa2 is below one, although the neighbours' mean velocity is zero.
* `C133_half_violated` — C133 fails for the vorticity: it is documented as the z component of the vorticity, that is the curl of the velocity; at every point where the curl is not zero, the value returned is another one.
* `C133_unit_violated` — C133 fails for axes in different units: everything is divided by the unit of x. The value returned is the half curl of the field only where Vx does not change along y.
* `C135_turned_violated` — C135 fails in general: if the rates of stretching along x and y have different sizes, the residual vorticity, where it is not zero, is changed by turning the axes by a quarter turn.
* `C135_expansion_violated` — C135 fails in general: a rotation together with an expansion equal in all directions has no shear, yet part of its vorticity, as large as the rate of expansion if the rotation is faster, is taken for shear.
* `C136_q_violated` — C136 fails for Q: the half applies to the rotation only. The value returned is the documented one at no point where there is any strain.
* `C136_missed_violated` — C136 fails for Q: every point where the squared rotation lies between the squared strain and twice it belongs to a vortex by the documented criterion (positive Q), but the value returned is not positive.
* `C137_sign_violated` — C137 fails for the sign: "negative values of Delta mean that the local streamline pattern is closed or spiraled"; the value is positive at every shown point where Q is not negative, in particular at every solid rotation.
* `C137_rotation_violated` — C137, the rotation: shown and positive.
* `C137_unit_violated` — C137 fails for the unit: the value is given the unit of the sixth power of a velocity gradient, but for a velocity `k` times larger it is never multiplied by `k⁶`: values given in two systems of units disagree.
* `C138_raw_violated` — C138 fails with `raw=True`: `get_lambda2` raises for every field of more than one point.
* `C139_area_violated` — C139 fails for the value: the circulation is divided by the number of points of the window instead of its area. For every flow with constant gradient and non-zero curl, whatever the window, the value returned is neither the curl nor, for windows of two points, half of it: a quarter of the curl with the default window.
* `C141_centre_violated` — C141 fails with a radius in number of vectors (and with the default one): the point itself is left out of its neighbourhood, so that the enstrophy of an isolated vortex point is zero at it.
* `C142_perso_vorticity_violated` — The fluid of a `PersoVortex` asked with the peak vorticity `w` has twice this vorticity (the limit of the circulation over the area of smaller and smaller circles) at its centre.
* `C142_dipole_violated` — Outside of a Lamb-Chaplygin dipole, on the axis of its motion, the speed at the distance `r` is `U (r - rv²/r)`: it grows without bound, where the potential flow `U (1 - rv²/r²)` tends to the given convection velocity.
* `C143_parallel_violated` — Two parallel walls: the flow of a free vortex goes through the first one, except in front of the vortex.
* `C143_hill_violated` — A Hill vortex and its image: fluid goes through the wall.
* `C143_custom_violated` — A custom field is not seen in the walls: the flow through the wall at a point is the one of the custom field.
* `C144_index_violated` — Removing with an index before the first vortex, down to twice the number of vortices, removes a vortex instead of raising.
* `C144_count_violated` — The attribute `nmb_vortex` is not lowered by a removal.
* `C144_shared_field_violated` — A custom field added to one system, then to another one already holding as many fields as the first has ever had, is no longer in the velocities of the first one, although it still is in the fields made from it.
* `C145_detailed_violated` — The detailed vectors asked before anything else leave out the images: those of a vortex and a wall just added.
* `C147_pair_violated` — Two equal free vortices should turn around each other at a constant distance: each evolution takes them further apart.
* `C148_wanted_violated` — The mode just beyond the last one is not refused: it is missing in the base.
* `C150_vectors_violated` — The eigenvectors of the cropped base have as many rows as modes are kept, where they had one row per field.
* `C150_remove_violated` — No mode can be removed by giving the modes to remove.
* `C150_index_violated` — An index equal to the number of modes is not refused as the larger ones are.
* `C152_start_violated` — A time of the base which is neither the first nor the last is dropped by the interval that begins there.
* `C152_last_violated` — The interval beginning at the last time is refused, though it holds this time.
* `C153_oscillating_violated` — It is wrong, already at the third field, for all the modes that oscillate: the imaginary part is lost before the power.
* `C153_shift_violated` — Asking the field `k` alone does not give the coefficients of the evolution, but the ones of the field `k + t0/dt - 1`; they agree for a mode that grows or decays monotonically only if the first time is one step.
* `C154_extent_violated` — Beyond the ends of a panel, up to a fifth of its length, points that are off the panel are found on it and get its vector.
* `C156_inverse_violated` — Turning the normals of the solid of a system that was solved makes it vanish: the sources are gone, and are not computed again, so that the velocity next to the solid is the free stream.
* `C156_stream_violated` — Changing the free stream of a system that was solved leaves sources that do not solve the problem any more, as soon as one panel is not along the stream.
* `C157_open_violated` — An open boundary does not end where it is asked to: the last panel goes back to its beginning.
* `C157_wall_violated` — A single straight wall is refused with the resolution by default.
* `C158_backwards_violated` — Going the other way, the abscissae are minus the distances.
* `C158_slanted_violated` — On a line where one coordinate increases and the other decreases, the last abscissa is the difference of the sides instead of the length of the line.
* `C159_outside_violated` — C159 is violated when the vorticity at the given centre is less than the given part of the peak: the area is then the one of everything which is not in a vortex.
* `C159_clockwise_violated` — C159 is violated for clockwise vortices: the area is the one of all the cells under some value, connected to the centre or not; all the cells with a vorticity as strong as the centre are among them.
* `C159_none_violated` — C159 is violated: "if no vortex is found, 0 is returned" never happens.
* `C159_still_violated` — C159 is violated without any vorticity: the vortex is then the whole field.
* `C162_rest_violated` — C162 is violated at a point where the fluid is at rest, as the centre of a vortex that does not move: it is refused.
* `C162_parity_violated` — C162 is violated: on a field with odd numbers of points, a vortex of one cell has a property of 16/9, 8/9 or 4/9 of the value times the area of a cell, depending on the parity of its position only.
* `C163_dipole_violated` — C163 is violated when vortices of opposite signs touch each other: they are one zone, and a dipole has no circulation.
* `C164_mask_violated` — C164 is violated: the radii are masked when they are zero, which never happens.
* `C165_karman_violated` — C165: the momentum balance is lost in the turbulent part: the momentum and displacement thicknesses are zero at every turbulent position, although the friction is positive and the shape factor still pretends to be 2.59.
* `C166_laminar_violated` — C166: in the laminar part it is not: the position found is `(4.91 / 4.92)^2` times the right one, at every laminar position.
* `C166_monotone_violated` — C166: a thicker layer does not mean a position further downstream: for every fluid and velocity there are two thicknesses, one twice the other, the larger one being located upstream of the smaller one.
* `C167_negative_violated` — C167: a confined layer can have a negative thickness: at every position where the free layer is thicker than `h / 0.26547`.
* `C168_inverse_violated` — C168: `get_mu` is not the inverse of `get_y`: one after the other multiply by `√((m + 1) / 2)`, so that they cancel only for `m = 1`.
* `C169_tolerance_violated` — C169: without messages, the wanted accuracy is ignored: the answer is the same for every `relerr`.
* `C169_verbose_violated` — C169: asking for messages changes the answer: with messages, a first shot within the accuracy is returned; without, the search goes on.
* `C170_lambda_violated` — C170: the pressure gradient parameter `theta^2 u_e' / nu` is wrong as soon as the positions are not spaced by 1: for positions spaced by `h` and a velocity of slope `s`, the slope used is `h s`.
* `C171_edge_violated` — C171: when the edge is closer to the wall, it is not: the velocity goes on growing up to 450 wall units, then falls back to its value at the edge.
* `C171_increasing_violated` — C171: the velocity drops when leaving the viscous sublayer, for every wall: it is not an increasing function of the distance to the wall.
* `C172_first_violated` — C172 fails: when a stored velocity is exactly the wanted one, earlier places where the velocity goes through the wanted one are missed, and the layer is found too thick.
* `C172_uniform_violated` — C172 fails: a profile whose velocities are all close to the largest one (no slow point near the wall was measured) has no thickness: IndexError.
* `C172_gap_violated` — C172 fails: when a masked point separates the slow points from the fast ones there is no thickness either: IndexError.
* `C173_masked_violated` — C173, C174 fail: as soon as one point of the layer is masked the thicknesses are NaN, and so is the shape factor.
* `C173_normal_violated` — C173 fails: the velocities are divided by the largest one stored below the edge of the layer, not by the one outside: the displacement thickness is too small, by at least a nineteenth of the integral of the velocity.
* `C174_masked_violated` — C174 fails: a profile that is entirely masked raises ZeroDivisionError, while its thicknesses are 0.
* `C175_masked_violated` — C175 fails: a masked point between two shown ones has a stress that is shown.
* `C177_zoom_violated` — **C177** Pictures that grow or shrink are not followed: the scale of an estimate is dropped. If the picture is only scaled, by any factor but 1, around its corner, every tracked point except the corner is wrong from the second frame.
* `C177_first_violated` — **C177** In mode 'from_first', if the picture is first shifted, then turned by any angle, no point is tracked to its place on the third frame.
* `C178_axis_violated` — **C178** When the x step is larger than the y step, the y axis of every stabilised film has too many points: it does not have the length of the pictures.
* `C179_residual_violated` — **C179** So the picture follows the smoothed trajectory on the frames where nothing moved, and on these frames only.
* `C180_border_violated` — **C180** When the picture turns, a border changes what is shown: the transform is applied around the corner of the widened picture. For a frame turned by an angle that is no multiple of `2π`, with a border, no pixel is shown at its place.
* `C181_stale_violated` — **C181** But the steps made by hand are not independent of the history: new transforms are applied only once they are smoothed.
* `C183_endless_violated` — **C183** With the largest damping allowed, 1, the displacement in a uniform flow never ends, as soon as one step neither leaves the field nor uses up the time.
* `C184_control_violated` — **C184** But the next time step is not always a number: it is not one at rest, and it is infinite, or not a number, where the two estimates agree.
* `C185_number_violated` — **C185** The number of points is not the resolution asked for: in a square field there are more points along each axis than asked.
* `C186_uniform_violated` — **C186** In a uniform flow nothing is stretched and the exponent is zero; but the value is `log(delta / min(sx, sy)) / |dt|`, whatever the velocity: not zero, and `-log 2 / (2 |dt|)` for equal spacings.
* `C187_nearest_violated` — **C187** In a field with one line only, `interp='nearest'` fails even at the position of the line.
* `C187_indices_violated` — **C187** An interval of indices, and 'all' with `ind=True`, never give a profile.
* `C188_unit_violated` — **C188** For lines of constant x it is the unit of the wrong axis: an integral along `y` in the unit of `x`.
* `C189_additive_violated` — **C189** The integral is not additive: cut in its middle, a field of three columns has the sum of the integrals of its halves only if its middle column has the mean of the sums of its sides.
* `C190_masked_violated` — **C190** In particular a field whose points are all masked has no export.
* `C191_cumulative_density_violated` — **C191** Cumulated, a normalized histogram does not end at one, but at the inverse of the width of the bins.
* `C191_positions_violated` — **C191** With any other range they are shifted by the start of the range.
* `C191_masked_violated` — **C191** Without given range, a field with a masked point has no histogram.
* `C192_last_violated` — **C192** Not all the possible windows are used: the last value of the profile is never looked at.
* `C192_lag_violated` — **C192** The lags are not the distances to the centre: the full correlation of a point with itself is shown at half the window.
* `C192_zero_line_violated` — **C192** One line without energy (zero at the centres of the windows) leaves nothing of the correlation of the field.
* `C193_perpoint_violated` — **C193** But the norm per point of a field depends on how fine its grid is: for a constant field it is not the constant, and it tends to zero with the number of points.
* `C194_all_violated` — C194 fails for 'all': with a mirror before the field (or on its first line), the image of the last line is never in the result.
* `C194_masked_violated` — C194 fails for a field whose first lines are entirely masked: with a mirror before the field, `k` asked lines and `c` masked ones, the image of the first visible line is not in the result unless `k > 2 c`.
* `C196_limit_violated` — C196 fails at the limit: a point where exactly `nmb_min` fields are valid is masked.
* `C199_single_violated` — C199 fails for `nmb_val_min=0`: a point seen by a single field stays masked, although one value is more than none.
* `C200_masked_violated` — C200 fails as soon as one point of the first field is masked (masked components hold NaN): the correlation is NaN at every time.
* `C202_raises_violated` — C202 fails for every record of at least two fields: whatever the square root and the magnitude compute, the turbulent intensity is never obtained. The energies lose their times when they are multiplied, the magnitudes keep theirs, and the quotient refuses containers with different times.
* `C204_interval_violated` — C204 fails with a time interval: when it leaves the first time out, each field is read at the position of the preceding time.
* `C205_masked_violated` — C205 fails at a masked point: the value of the profile is lost, the point stays masked.
* `C205_nan_violated` — C205 fails for a masked value of the profile: the point then shows NaN without being masked.
* `C205_points_violated` — C205 fails for a trajectory: a `Points` object is always refused (an unbound name), unless there is nothing to write.
* `C207_none_violated` — C207 fails for a record in which every point is shown by some field: nothing (`None`) is returned instead of the record.
* `C207_first_row_violated` — C207 fails when the points shown are all on the first row of the grid: ValueError.
* `C208_none_violated` — C208: a record with nothing to crop gives no record (python's `None`) although a cropped copy is asked for.
* `C208_first_row_violated` — C208: a record whose fields show points of their first row only cannot be cropped.
* `C208_hole_violated` — C208: the loop looks at the borders only: a record with a point masked in all its fields inside the grid is returned whole, this point still being masked, although the comment of the loop says "until there is no more masked values".
* `C210_axes_violated` — C210 fails for the axes of the record, which stay as they were.
* `C210_grid_violated` — C210 fails for a mirror before the grid: the record returned does not have the axes of its fields.
* `C212_small_violated` — C212 fails for small values: two fields on one grid, masked at the same points, are equal whatever their values are, as soon as they are all at most 5e-9 in absolute value.
* `C212_shape_violated` — C212 fails for fields with different numbers of points: an exception is raised instead of an answer.
* `C212_symmetric_violated` — C212 fails: the equality of scalar fields is not symmetric.
* `C212_transitive_violated` — C212 fails: the equality of scalar fields is not transitive.
* `C213_copies_violated` — C213 fails for a single point: it is equal to any number of copies of itself, none included.
* `C213_against_single_violated` — C213 fails for a single point on the other side: any set without values, of any length, is equal to a single point as soon as all its points are this point (and only then).
* `C213_value_violated` — C213 fails for a single point: with a value it is equal to the same point without value.
* `C213_nan_violated` — C213 fails for points with a NaN value: such a set is not equal to itself.
* `C214_empty_violated` — C214 fails for profiles of one point: they are all equal to the empty profile.
* `C215_line_violated` — C215 fails for fields of one line or one column: IndexError.
* `C216_masked_violated` — C216 fails at masked points: the angle field is not masked there, it shows the angle 0.
* `C216_unit_violated` — C216 fails for the unit: the angles bear the unit of the vectors.
* `C218_line_violated` — C218 fails for fields of one line or one column: IndexError.
* `C219_node_violated` — C219 fails for a critical point on a point of the grid: a vortex in solid rotation (anticlockwise) centred on any point of the grid, the middle of the field included, is not reported at all.
* `C220_steps_violated` — C220 fails when the steps of the grid are different: in every cell that is not square, some flow spiralling anticlockwise around the middle of the cell is taken for an outgoing node, because the jacobian is computed with steps 1.
* `C220_documented_violated` — C220: the documentation calls the types 1 and 2 unstable and stable focus; an unstable anticlockwise focus is given the type 2, whatever its growth rate.
* `C222_border_violated` — C222 fails for the cells of the border: null vectors are given as directions, for any field.
* `C223_unit_violated` — C223: but these positions are labelled with the unit of the instants.
* `C229_abscissa_violated` — C229: with a factor 1 a masked point between two unmasked ones is not given a value: unless it is exactly in the middle, its abscissa **disappears** from the profile.
* `C230_step_violated` — C230: the step asked for is **ignored** when the steps are already equal: the profile keeps its own.
* `C230_masked_end_violated` — C230: a new abscissa strictly inside the profile but out of the unmasked points makes it **fail**, although the profile has unmasked points: masked ends are not handled.
* `C231_origin_violated` — C231: wherever the two profiles start, the result **starts at 0**: shifting a profile by any length does not change the convolution.
* `C231_negative_violated` — C231: a profile that ends at 0 or before is **refused**, however even it is.
* `C231_uneven_violated` — C231: a profile whose steps **are not equal** is accepted when none is longer than the first one; its values are convolved as if they were even.
* `C232_shift_violated` — C232: another profile **shifted down** by up to half a step is accepted, and its values are multiplied with those of different abscissae.
* `C232_one_point_violated` — C232: two profiles of **one point**, at the same abscissa, cannot be multiplied.
* `C233_masked_violated` — C233: one masked point **masks all the points** merged with it: their values are lost.
* `C233_rounded_violated` — C233: an abscissa that is not equal to its rounding is **replaced** even without any doublon.
* `C235_sense_violated` — C235: so a point of a profile is not turned as a point of a set of points, unless the sine of the angle is 0.
* `C236_constant_violated` — **C236** A pixel that never changes has no background: it is masked, whatever the level of noise.
* `C236_tie_violated` — **C236** Nor has a pixel that shows two values equally often.
* `C236_unit_violated` — **C236** The background of values with a unit is given without unit.
* `C236_masked_violated` — **C236** A point masked in one field has no background once the values of the fields have been looked at; before, the value hidden under the mask counts as any other, and the point may have one: looking at the fields changes the background.
* `C237_blend_violated` — **C237** With blending, which is the default, one masked point in a field erases every perturbation of this field: all that is not background becomes masked. The filter is any one that gives NaN where it sees only NaN.
* `C238_masked_violated` — **C238** A field with one masked point is at no distance of any other field: its line of the map is masked but for the diagonal.
* `C239_first_violated` — C239 fails when the first field is weird: it is replaced by the mean of a field after it and of a field counted from the end of the record.
* `C239_last_violated` — C239 fails when the last field is weird: there is no result, whatever the record.
* `C239_times_violated` — C239, the times play no part: with other times the new fields are the same, so that on uneven times they are not interpolations in time.
* `C239_short_violated` — C239 fails on short records: with the default coefficient a record of at most ten fields has no weird field, whatever the fields are.
* `C239_remove_violated` — C239 fails for `treatment='remove'` as soon as two fields are weird: the second of them is still there, with its time.
* `C239_scalar_violated` — C239 fails on scalar fields: they have no magnitude, so that every record with a field is refused.
* `C239_mean_violated` — C239 fails as a look at the mean magnitude: on fields of vectors of length 1, whose mean magnitude is always 1, a field is weird when the number of points that it shows is unusual.
* `C240_none_violated` — **C240** Before the trajectories are computed, cropping in time is refused whatever the collection and the interval.
* `C240_single_violated` — **C240** It is refused too as soon as a kind has one trajectory or none.
* `C240_copy_violated` — **C240** Cropping a copy leaves the trajectories of the copy as they were and crops those of the object itself.
* `C240_indices_violated` — **C240** With indices, the times kept are those of the indices, but each trajectory is cropped by its own numbering: a trajectory of more than `i` points is still there, with its points number `i` to `j`, even if it has no time in common with the times kept.
* `C242_none_violated` — **C242** Before the trajectories are computed, `set_origin` raises an error after having moved all the points: calling it again moves them again.
* `C243_time_violated` — **C243** Before the trajectories are computed it raises an error, having converted the times of the points and not those of the collection: the times of the points are no longer those of the times they are stored for.
* `C244_negative_violated` — **C244** A negative factor of time is accepted and leaves the times in decreasing order.
* `C245_simplify_violated` — **C245** `topo_simplify` raises an error on every collection that holds at least an instant, whatever the simplification does.
* `C246_overlap_violated` — **C246** The pieces overlap: when a trajectory of more than two points is broken once, at the time `b`, every point from `b` to `b` plus the first time step is in both pieces.
* `C246_crop_violated` — **C246** Afterwards cropping in time is refused, the trajectories being stored as lists: for every collection, however many trajectories.
* `C248_wall_violated` — **C248** When the masked points are all those beyond some abscissa (a wall, a shadow), the default filling raises an error, whatever the values and the numbers of visible points.
* `C250_wall_violated` — **C250** A vector field masked beyond some abscissa cannot be filled with the default arguments.
* `C251_even_violated` — **C251** With an even size the smoothed field is that of the point half a step below: the same field is shifted.
* `C251_wall_violated` — **C251** A field masked beyond some abscissa cannot be smoothed.
* `C252_source_violated` — **C252** `inplace=False` changes the record itself: a masked point seen before and after is visible in the record after the call.
* `C252_nothing_violated` — **C252** When nothing can be filled the result is an error: without masked points, with three fields, and with every point masked in none or in all fields but two at most.
* `C252_scalar_violated` — **C252** The temporal filling of a record of scalar fields never succeeds.
* `C254_uneven_violated` — **C254** The centre may be outside its zone: the two cells of columns `i` and `i+1` get the centre `x[i] + (x[1] - x[0]) / 2`, the first step of the axis being used everywhere.
* `C254_zero_violated` — **C254** With kind='ponderated', a zone where the field is null makes the call fail, although the zone and its points exist.
* `C255_default_violated` — **C255** Two calls may give other bounds: without `bornes`, the n-th call uses 3/4 (1 - 1e-5)^n and (1 + 1e-5)^n.
* `C255_drift_violated` — **C255** Repeated calls without `bornes` on the same field drift: after enough calls the points are those of the zones where the field is above its minimum, not those of the upper quarter of its range.
* `C255_list_violated` — **C255** The list given as `bornes` is changed by every call, unless it is `[0, 0]`.
* `C255_array_violated` — **C255** Relative bounds given as an array of floating numbers become absolute: the next call with this array has other bounds.
* `C256_step_violated` — **C256** The step is never the one asked for, the smallest one of the axis over `res`: it is always greater.
* `C256_even_violated` — **C256** A field that is evenly spaced already changes: `n` points become `n - 1`.
* `C256_two_violated` — **C256** A field with two points along x is refused (at the resolution 1), though it is evenly spaced.
* `C259_units_violated` — **C259** In place, the units of the field are lost whatever they were.
* `C259_odd_violated` — **C259** The factor 1, which changes nothing in a scalar field, and the odd ones are refused.
* `C260_units_violated` — **C260** Whatever the units of the record were, its reduced fields have none, in place or not, while the record says it has kept them.
* `C260_copy_violated` — **C260** Not in place, the record itself stays as it was, but the copy that is returned keeps the axes of the record: its fields, which have been reduced, are no more on them.
* `C260_copies_violated` — **C260** The same for copies of records of vector fields.
* `C261_square_violated` — **C261** On a square grid the maps are transposed: what is given at the point of indices `i`, `j` is the spectrum of the point of indices `j`, `i`.
* `C261_default_violated` — **C261** Without `tf` the number of fields is taken for the last time: a record whose second time is greater, such as one of three fields at the times 0, 10 and 20, is refused with IndexError.
* `C262_python_violated` — **C262** From Python 3.14 on, no two distinct records can be compared, not even a record and its copy.
* `C263_call_violated` — **C263** Calls are looked for at the start of the text only: after a digit, a space or a parenthesis any call is executed, provided that its text holds none of the forbidden texts and no `^`.
* `C263_names_violated` — **C263** The names of the module are looked for inside words: every unit whose name holds "re" or "np" is refused, whatever else is written.
* `C264_dimension_violated` — **C264** Any quantity can be added to a vector field, seconds to metres as well: the sum has the unit of the field.
* `C264_list_violated` — **C264** A vector given as a list can be added, but not subtracted.
* `C265_unit_violated` — **C265** A product whose unit has no dimension and is greater than 1 is refused: a field in 1/mm cannot be multiplied by a length in m.
* `C265_zero_violated` — **C265** Multiplying a field, scalar or vector, by a null quantity raises ZeroDivisionError.
* `C267_null_violated` — **C267** With values that are all null the call raises OverflowError.
* `C267_rounded_violated` — **C267** Values are rounded even where there is nothing to merge: a value that is not its own rounding is not in the result.
* `C268_values_violated` — **C268** The values are not reordered: whenever the order changes and the values are distinct, some point has the value of another.
* `C268_lost_violated` — **C268** Points far from the others are lost: if the points are in two groups of at least three, such that each point is nearer to those of its group than to those of the other, a whole group is missing from the result, and all the values are.
* `C269_units_violated` — **C269** The gradient at a position does not take the units into account: where the quotient of the units is a number other than 1 (mm over m), it differs from what the profile of gradients shows at the same point, unless it is null.
* `C270_single_violated` — **C270** fails for a profile with masked points and less than two values: the smoothing raises.
* `C271_zigzag_violated` — **C271** On a zigzag between two values, the position returned as a minimum is that of a maximum.
* `C271_hidden_violated` — **C271** Of the maxima of a wave with four points per period, only the first is returned.
* `C272_thin_violated` — **C272** On a grid with a single line of points none of this works.
* `C273_perpoint_violated` — **C273** The norm per point of a uniform flow is not its magnitude, and depends on how fine the grid is: it tends to zero with the number of points.
* `C274_first_violated` — **C274** A record whose first field has no vortex while its second field has one is refused with ValueError, unless the axes have no unit: the empty first entry fixes the units of the collection.
* `C275_argument_violated` — **C275** With a smoothing and no wall, the field of the caller is smoothed.
* `C275_interp_violated` — **C275** For a record of one field the method given to fill the gap at the walls is not used: the result is that of the field with the default one.
* `C276_mirror_violated` — C276 fails for a mirrored field: only two opposite corners of the cell are tested for a mask (core/scalarfield.py:572), and they are other points once the axis is reversed, so that a value read in a field is lost in its mirror image, whatever the diagonal taken.
* `C277_units_violated` — C277 fails for the units: a scaling by a factor with a unit changes the unit of every field and not the one of the collection, so that the two no longer agree.
* `C277_line_violated` — C277 fails for a collection holding a single line with a masked point: it can be read, and its product with any number raises ValueError, from the crop of a border it does not have (core/spatialfields.py:57, 170).
* `C277_divide_violated` — C277 fails for the division: a set of fields is never divided by a number.
* `C278_local_violated` — C278 fails for 'local': the x component of the centre is taken off both components. In a uniform flow, where every velocity relative to the centre is null and has no direction, a value is shown at every point computed, and it says that all the neighbours go the same way, unless the two components are equal.
* `C279_steps_violated` — C279 fails: of a trajectory of eighteen points, three per unit of time, whatever the positions, a mean over one trajectory or more keeps the six points at whole times only: the rounding of the other times is larger than the tolerance with which samples are looked for.
* `C279_negative_violated` — C279 fails for negative factors: every standard deviation that is not null becomes negative.
* `C279_inplace_violated` — C279 fails for the in place scaling: the base trajectories are the objects of the set of critical points, and every one of them that has a point with an abscissa other than zero changes there too.
* `C279_remove_violated` — C279 fails for removed points: the times and the standard deviations of the removed points stay, so that nothing is aligned any more.
* `C279_sort_violated` — C279 fails for sorted points: a mean trajectory sorted on `x` keeps its real times and standard deviations in the old order. For two points, the second further left, the first point gets those of the second one.
* `C280_unit_violated` — C280 fails for the velocity at a position: it adds the numbers of the custom fields whatever their units. For every system whose custom fields are known at a point, all in units of velocity, it differs from the vector shown there by the field by the sum over the custom fields of their numbers times one minus the size of their unit.
* `C280_refused_violated` — C280: the field of a system is refused as soon as one custom field is not given in a unit of velocity, while the velocity at each position is returned.
* `C280_default_violated` — C280: a custom field made without a unit is dimensionless, hence refused by the field of every system it is added to.
* `C280_reversed_violated` — C280 fails on a decreasing x axis: at a point where the custom field of a system is known, the field of the system is masked as soon as the custom field is not known at the point of the grid of symmetric rank.
* `C281_direction_violated` — C281: nothing is asked of trajectories of at most two points: they give nothing, and any name of direction is accepted with them.
* `C281_empty_violated` — C281 fails when there is no trajectory of the type: IndexError instead of no point.
* `C281_uneven_violated` — C281 fails for a record with uneven times: when one step of time of a trajectory differs from the first one by a millionth of the largest, nothing is reported for any trajectory from there on, the whole call is refused.
* `C281_lost_violated` — C281 fails for a trajectory that turns exactly at points: for one that goes to and fro with four points per period, whatever the number of periods, the only maximum reported is the first.
* `C282_noise_violated` — C282 is violated for the points that belong to no cluster: whatever their number and however far they are from each other, they come back as one set among the clusters.
* `C283_integers_violated` — C283 is violated: the unit of values given as integers cannot be changed to one of another size.
* `C284_array_violated` — C284 is violated: as long as a set is moved, scaled or has its unit changed, the array from which it was made holds, at every moment, the positions of the set.
* `C284_origin_violated` — C284 is violated by every displacement: setting the origin of a set to another point changes the array from which the set was made, and so every other set made from it.
* `C285_raw_violated` — C285 is violated by `raw=True`: the arrays have one row per ordinate and one column per abscissa, unlike the components of every field; reading them like a field gives the velocity of the position mirrored across the diagonal.
* `C285_junk_violated` — C285 is violated by `raw=True, remove_solid=True`: nothing tells the positions inside a solid, where the arrays hold whatever was in memory.
* `C286_size_violated` — C286 is violated for an odd number of lines: around the center of a cell one gets one more line and one more column.
* `C287_saddle_violated` — C287 is violated for the saddles: whatever the field and the window, a saddle is left at the center of its cell.
* `C287_odd_violated` — C287 is violated for the odd windows: on an even grid, no point at all is refined, each is left at the center of its cell.
* `C288_empty_violated` — C288 is violated for the empty set: it is equal to every set with a single instant in the same units, whatever the points, in both orders.
* `C288_uncomputed_violated` — C288 is violated for the trajectories: a set whose trajectories are all removed (an empty array) is equal to the same set without computed trajectories.
* `C288_orientations_violated` — C288 is violated for the saddles: sets of oriented points that differ by all their orientations are equal.
* `C289_order_violated` — C289 is violated by the default axes (x, y), and whenever the axes are in the order of the file: at the second abscissa and the first ordinate the file shows the value of the first abscissa and the second ordinate.
* `C289_mask_violated` — C289 is violated for masked vectors: the file shows the hidden components of a masked point, like those of any other point.
* `C289_bare_violated` — C289 is violated for bare file names: no field can be written in the current folder under a name without a separator (the empty path does not exist for `path.exists`).
* `C290_axis_violated` — C290 is violated for every other choice of axes: it is ignored, the coordinates are put along x and y.
* `C290_values_violated` — C290 is violated for points without values: the file has fewer values (none) than points.
* `C291_single_violated` — C291 is violated for the sets of one point and for the empty ones: the file that was written cannot be read, whatever the columns.
* `C291_single_profile_violated` — C291 is violated for the profiles of less than two points.
* `C292_argument_violated` — C292 is violated for the windows that end after the last picture: the list given by the caller is changed.
* `C292_tuple_violated` — C292 is violated for such windows given as a tuple: they are refused.
* `C293_part_violated` — C293 is violated for the times: a file has not the same time when a part of the files or all of them are read, except when the increment is the rank of the first file plus one.
* `C293_origin_violated` — C293 is violated for the origin: the first file is never at time 0.
* `C293_spatial_violated` — C293 is violated for spatial records of vector files: they cannot be made, unless of no file.
* `C294_times_violated` — C294 is violated for the times: all the fields of the record are at time 0.
* `C295_compressed_violated` — C295 is violated for single files: they are compressed even if asked not to be.
* `C295_vector_violated` — C295 is violated for single vector files: none can be converted.
* `C295_new_violated` — C295 is violated for new names: nothing can be converted into a file or a folder that does not exist.
* `C296_thin_violated` — C296 is violated for the fields of which an axis has a single point: their files cannot be read.
* `C296_single_violated` — C296 is violated for the profiles of one point: their files cannot be read.
* `C297_zero_violated` — **C297 fails** on a zero: in any state, `0` then `up` or `down` leaves the index at minus one.
* `C297_limit_violated` — **C297 fails** on limits: the number of no frame is accepted as a limit, and going to the limit leaves the frames.
* `C299_last_violated` — **C299 fails** on the last frame: its number followed by `enter` does nothing.
* `C300_alone_violated` — **C300 fails** when the first of two limits was removed: playing then stops on an error as soon as the second limit is reached.
* `C300_last_violated` — **C300 fails** on the last frame: however long the figure plays, it is never shown.
* `C300_limit_violated` — **C300 fails** on the second limit: playing between two limits never shows it.
* `C301_order_violated` — **C301 fails** when the first limit is removed and set again beyond the second one: the limits are then out of order.
* `C301_stuck_violated` — **C301 fails**: with limits out of order, playing shows the same frame over and over, once it is past the second limit.
* `C302_first_violated` — **C302 fails** on the first field: it is never part of the animation, which is one frame short.
* `C303_pile_violated` — **C303 fails** without a buffer, or with a buffer of no drawing: nothing is ever removed, the drawings of all the frames asked for are on the axes together.
* `C303_twice_violated` — **C303 fails** when a displayer is asked twice for the same frame without removing the current drawing (what `draw` and `draw_multiple` do by default): the frame disappears.
* `C306_behind_violated` — **C306 fails** behind a figure that is already on the frame: the figures linked to it alone are left where they are.
* `C306_link_violated` — **C306 fails** when a figure is linked: linking alone does not bring the two figures to the same frame.
* `C306_length_violated` — **C306 fails** on figures with fewer frames: the index they are given is that of no frame of theirs.
* `C307_nested_violated` — **C307 fails** on folders inside one another, listed as a search lists them, the outer one first: an exception leaves the object as it was although files are deleted, with `recursive` or without.
* `C307_full_violated` — **C307 fails** on a listed folder that holds a file that is not listed: without `recursive`, instead of the question there is a `NameError`.
* `C307_empty_violated` — **C307 fails** on an empty object: there is an exception.
* `C307_searched_violated` — **C307 fails** after a search: whatever holds two folders in one another that the search finds, `delete_existing_files` ends with an exception.
* `C308_arguments_violated` — **C308 fails** for `remove_files=False` and for `depth`: the files are deleted all the same, however deep they are.
* `C309_depth_violated` — **C309 fails** for a depth: the search stops at the first folder that is too deep, so that the files of folders it has not reached yet are left out although they are no deeper than what it has listed.
* `C310_files_violated` — **C310 fails** next to a folder called `files`: the tree of a file and of a file of that folder cannot be built, in either order.
* `C310_lost_violated` — **C310 fails** for a folder called `files` listed after a file: the tree does not show it.
* `C311_place_violated` — C311 is violated: when the x units have different sizes, a point of the right operand is found at another physical place.
* `C311_plain_violated` — C311 is violated: points without directions that are not empty are never added, and AttributeError comes after the units were found to agree (and after the coordinates of the right operand were converted).
* `C312_no_values_violated` — C312 is violated: several points without values are never decomposed.
* `C313_options_violated` — C313 is violated: the spatial discretisation and the interpolation asked for are not used.
* `C315_upper_violated` — C315 is violated: the upper bound of the scale of a frame is its lowest colour, so that every value takes the first colour of the map, whatever the colours of the frame.
* `C315_masked_violated` — C315 is violated: a frame with one masked cell has no bounds.
* `C316_uneven_violated` — C316 is violated for all other centres: some value does not get the colour of the centre nearest to it.
* `C316_few_violated` — C316 is violated: one or two centres are refused.
* `C317_one_violated` — C317 is violated: a gradient of one colour is refused.
* `C320_one_violated` — C320 is violated: one frame on a new figure is never drawn, except with more places than needed.
* `C320_rows_violated` — C320 is violated: asking for a number of rows alone is refused as soon as that many rows of `⌊√n⌋` places are too few, though enough columns would do.
* `C321_points_violated` — C321 is violated for points: when a point `k` is nearer in abscissa than all the others and a point `l` is nearer to the mouse than `k`, the point shown is not the nearest.
* `C322_masked_violated` — C322 is violated: over a node of a field that is masked, and in no other place, the text raises ValueError.
* `C324_outside_violated` — C324 fails as soon as a point is out of the axes of the field: the point is not left where it was but disappears, and the instants of the other points of its set are lost with it.
* `C326_smooth_violated` — C326 fails when the evolutions are smoothed after the coherence has been asked for: the answer remains the former one, whatever the object is and whatever came before.
* `C326_space_violated` — C326 fails when the modes are cropped in space, or smoothed, after the coherence has been asked for: the answer remains the former one.
* `C326_copy_violated` — C326: smoothing the modes of a copy always raises AttributeError, unless there is no mode.
* `C327_mean_violated` — C327 fails for every mode with a component whose mean is not null: the first request removes that mean from the mode.
* `C327_masked_violated` — C327 fails even more for a mode with a masked value: the first request wipes the whole component.
* `C327_reconstruct_violated` — C327, what it does to a reconstruction: once the spatial coherence has been asked for, every value of a reconstructed field is off by the sum, over the modes, of the coefficient times the mean of the mode.
* `C328_profile_violated` — C328 fails for every set of fields and every argument: no call ever gives a profile.
* `C328_crossed_violated` — C328 fails as the documentation says to call it: with the direction 1 or 2 and a position that a field crosses, TypeError is raised, or NameError for vector fields without a component.
* `C329_scalar_violated` — C329 fails for scalar fields: whatever they are, TypeError is raised.
* `C330_available_violated` — C330 fails for shifts that push the profile out of the other: the points out of the other are not left out of the average, they count as differences with zero. For two profiles without masked values, at the first shift, the mean is not taken on the single common point but on all the points of the profile.
* `C332_turning_violated` — C332 fails at every node where the eigenvalues are not real, that is where the flow turns: the two vectors are the same one, and it is an eigenvector for no number at all.
* `C332_unit_violated` — C332: the eigenvalues are rates, in the unit of the values over the unit of the lengths, but they are given without unit.
* `C333_turning_violated` — C333 fails where the flow turns: no velocity but zero keeps its direction there, yet both values, that are the same, vanish for some velocities that are not zero.
* `C334_turbulent_violated` — C334: no turbulent profile is ever returned, confined or not: `AttributeError`.
* `C334_switch_violated` — C334: beyond, the position is that of a turbulent layer but the profile is the laminar one, so that it has not the confined thickness: the height `d` is not at 4.92 units of similarity.
* `C335_number_violated` — C335 fails for the directions of the documentation: with 1 or 2, as with any other number, `TypeError`, for every field that has a node.
* `C335_x_violated` — C335: with the direction 'x', the positions are not those of the first axis but those of the second one.
* `C335_unit_violated` — C335: with the direction 'y', the units of the two axes of the result are exchanged.
* `C335_shear_violated` — C335: the shear stress of a field is never returned: `ValueError` for a direction that is not 1 or 2, `TypeError` for 1 and 2.
* `C336_separation_violated` — C336: the position of the separation of a field is never returned, whatever the field, the wall, the interval and the number of lines: `TypeError` for a vector field, or `Exception` when there is no line to look at.
* `C337_mass_violated` — C337: the mass of the density over the values that are returned is less than one, whatever the values.
* `C337_bandwidth_violated` — C337: the bandwidth asked for has no effect.
* `C338_window_violated` — C338: but the positions do not follow them: for every family of values there is a translation that changes what is shown below the smallest value.
* `C338_mass_violated` — C338: the mass of the normalised distribution, over all the positions that are returned, is less than one.
* `C338_bandwidth_violated` — C338: a number given as bandwidth is not the standard deviation of the gaussians: when no point is masked and the values are not more spread than the positions, the gaussians are always narrower than asked.
* `C338_masked_violated` — C338: and when a point is masked, it is divided by the width of the positions, whatever the values.
* `C338_unit_violated` — C338: a density is in the inverse of the unit of the values, but only the concentration is given so.
* `C339_line_violated` — C339: no density for points on a line parallel to an axis, although their number is sufficient and a grid was prepared for them.
* `C339_flat_violated` — C339: `ValueError` for points that are too close to a line parallel to the first axis, for the resolution.
* `C340_subgrid_violated` — C340: with a subgrid, always `TypeError`.
* `C341_length_violated` — C341: `alpha` is not the largest distance between two points of the hull: for every `alpha` there are points of which an edge is kept although it is longer.
* `C342_mask_violated` — C342: the masked nodes are those of the field: the nodes masked by the argument have a value.
* `C342_hole_violated` — C342: a masked or null vector counts as a vector along the first axis in the value of the nodes around it, that are not masked.
* `C342_quarter_violated` — C342: in particular the vectors are not turned together: next to a masked vector, at the node on the other side of which the vector is along the first axis, the value is 0 along that axis, and it is not when the vectors are turned by a quarter.
* `C342_axes_violated` — C342: the angles are per step, not per length: the axes do not count, and the values have no unit.
* `C343_trend_violated` — C343: the asked detrending has no effect without segments, and a line added to the values is always removed.
* `C343_interval_violated` — C343: the interval `wanted_x` has no effect.
* `C343_irregular_violated` — C343: the abscissas beyond the first two are not looked at: a profile with other points there, regular or not, has the same spectrum.
* `C344_cutoff_violated` — C344: on a regular axis of step `dx`, the filter is not the one for the asked frequencies: they are multiplied by `(n - 1) / n` before being compared to the highest one that can be seen, `1 / (2 dx)`.
* `C344_one_violated` — C344: no highpass or lowpass filter: `TypeError` without `fmin` or without `fmax`.
* `C345_files_violated` — **C345 fails** for a folder called `files`: whatever is in it, it is not shown, and its folders are shown as files of the folder it is in.
* `C346_again_violated` — C346: after it, each further call prints the end again, and no line.
* `C346_each_violated` — C346: the calls are made at the beginning of each loop, so that the time shown for a thing is always too short: when each takes `D`, it is `D` less `D` over the number of things.
* `C347_masked_violated` — C347 fails as soon as one node of the area is masked at all times: an exception, although it should be left out of the mean.
* `C347_reversed_violated` — C347 fails for intervals of indices given in the reverse order, further than one apart: a number is returned instead of a profile.
* `C348_unit_violated` — C348 fails for the unit: the maps of the frequencies have the unit of the values.
* `C348_masked_violated` — C348 fails when all the nodes are masked more than half of the times: `NameError` instead of masked maps.
* `C349_original_violated` — C349 fails for the object itself, that should be left as it is without `inplace`: its values are replaced by the filtered ones.
* `C349_masked_violated` — C349 fails when a node is masked at all times: an exception.
* `C350_integers_violated` — C350 fails for whole numbers: an axis between 0 and 1 is refused for the interval from 0 (or less) to 1 (or more), that holds it.
* `C350_truncated_violated` — C350 fails for whole numbers: when the end asked for is after the axis, the positions after the whole part of its end are left out.
* `C351_single_violated` — C351 fails for a record with one field: it is refused whatever the interval.
* `C351_integers_violated` — C351 fails for whole numbers: times between 0 and 1 are refused for the interval from 0 (or less) to 1 (or more), that holds them.
* `C352_uneven_violated` — C352 fails for irregular profiles, that should be refused: those with smaller gaps than the first one are transformed.
* `C352_single_violated` — C352 fails for one width: `IndexError`.
* `C353_endless_violated` — C353 fails when the pressure is never below: the call does not end.
* `C353_wall_violated` — C353 fails when the pressure wanted is larger than that at the wall: `IndexError`.
* `C354_late_violated` — C354 fails: at a point, the square of the momentum thickness is computed with the integral up to the point before.
* `C354_small_violated` — C354 fails for flows that go towards the obstacle: the thickness is too small everywhere, but at the first point.
* `C355_few_violated` — C355 fails with fewer times: the coherence is positive when the kappa is below the critical value, negative when it is above, and smaller when the kappa is larger.
* `C356_few_violated` — C356 fails with 'absolute' for a kind with one point or none, whose density is `None`: `TypeError`.
* `C356_empty_violated` — C356 fails in the other formats for a record without any field, where the answer should be `None`: the name is not defined.
* `C357_masked_violated` — C357 fails when a node is masked at all times: an exception.
* `C358_integers_violated` — C358 fails for values that are whole numbers: their means are truncated.
* `C358_few_violated` — C358 fails with 'lowpass' for nine points or less: an exception.
* `C359_shared_violated` — C359 fails when the same set is held at two times: it is smoothed twice.
* `C359_halfway_violated` — C359 fails with 'lowpass' when a set has nine points or less: an exception, after the sets before have been smoothed.
* `C360_unit_violated` — C360 fails: the result has the unit of the velocity, not that of its derivatives, when the axes have a dimension.
* `C360_filled_violated` — C360 fails near masked points: the field is not filled, and the points that have a masked neighbour are masked in the result.
* `C360_swirling_violated` — `get_swirling_vector` has no result.
* `C361_small_violated` — C361 fails when the velocity at the top is larger than those of the points below the edge of the layer: the thickness that is given is too small.
* `C361_field_violated` — C361 fails for every field: there is no result.
* `C362_filled_violated` — C362 fails when a point that is not masked has a masked neighbour: the field is not filled, and there is no result.
* `C363_leftover_violated` — C363 fails when two marked frames have left the buffer since the marks were last updated, as when the displayer is also drawn elsewhere: only one of the spans is used again, and from then on, whatever is shown, there are more marks on the slider than marked frames.
* `C363_none_violated` — C363 fails with a buffer of no drawing: the frame that is shown first is marked, although nothing is kept.
* `C364_value_violated` — C364 fails for the index of a value: an exception, for all the profiles but those of one point.
* `C365_never_violated` — C365 fails for all files and arguments: no fields are ever returned.
* `C365_expected_violated` — C365 fails for the arguments and the files that are expected: AttributeError.
* `C366_count_violated` — C366 fails with numpy from its version 1.18 on: every line with fewer complete points than wanted colours (1000 by default) is refused.
* `C366_corner_violated` — C366 fails at the corners: of a line made of two parts, refined by an even factor (as with 1000 colours), the corner is not drawn.
* `C366_log_violated` — C366 fails without colours: the axes stay linear whatever is asked for.
* `C367_one_violated` — C367 fails with one colour: a map is returned, but none of its tables can be made.
* `C367_places_violated` — C367 fails with places that do not start at 0, do not end at 1, or go back: a map is returned, but none of its tables can be made.
* `C368_stream_violated` — C368 fails above the height `h` given for the profile, and farther than `5 D` from the obstacle: the flow vanishes, whereas it is the free stream there.
* `C368_far_violated` — C368 fails farther than `h` in front of the step: there is no flow at all, whatever the height and the velocity that were asked for.
* `C368_speed_violated` — C368 fails farther than `3 H` in front of the step: for flows `u` of the same shape the velocity does not follow the wanted one `u_D`, it stays that of a flow of velocity 1.
* `C369_mask_violated` — C369 fails as soon as one point of one field is masked: no pixel of any frame has a level.
* `C369_uniform_violated` — C369 fails for fields that have the same value everywhere: no pixel has a level.
* `C369_array_violated` — C369 fails for an array of fields: the frames are not turned, the line of a pixel is the index along x and its column the index along y.
* `C371_small_violated` — C371 is violated: with `2 r` points or less along one axis there is no empty result but an IndexError.
* `C371_moving_violated` — C371 is violated: the vortices found depend on the velocity of the frame, as gamma1 and not gamma2 is used: a vortex found in a fluid at rest is not found when the whole is carried by a uniform flow.
* `C372_times_violated` — **C372** is violated: the times of the trajectory are averaged too, as if they were positions: it starts later than it did.
* `C372_lost_violated` — **C372** is violated: on two instants, when `clean_traj` then rebuilds the points from the smoothed trajectories, no point is left at all, as no trajectory is any more at a time of the object.
* `C373_list_violated` — C373 is violated: the same numbers in a python list are refused with a TypeError.
* `C373_empty_first_violated` — C373 is violated: a series of arrays beginning with an empty one is taken as one frame, that shows everything at once.
* `C373_nothing_violated` — C373 is violated: nothing but NaN, or nothing but empty sets, gives a ValueError instead of an empty drawing.
* `C373_none_violated` — C373 is violated: without any set the error is an IndexError.
* `C374_unmasked_violated` — C374 is violated: on a scalar field the masked points appear: as zeros when whole numbers become floating, as the number made of NaN when floating ones become whole.
* `C375_two_violated` — C375 is violated: two displayers with other lowest colours share one bar; the lowest value of the second is drawn with the first colour, to which the bar gives another value.
* `C375_points_violated` — C375 is violated: a window with points or lines drawn over a field, without colours that are numbers, cannot be made with a shared bar: TypeError.
* `C375_asked_violated` — C375 is violated: bounds asked for are those of the bar only; the lowest value of a frame is drawn with the first colour, which the bar gives to another value.
* `C376_line_violated` — C376 and C277 are violated: a collection that begins with a field of one column, with a masked point between its values, is neither raised to a power nor multiplied by a number: ValueError.
* `C377_long_violated` — **C377** fails for long fields: when one side is at least `4 (res + 1)` times the other, no particle at all is followed, whatever the resolution asked along each axis, and nothing is refused, not even a time of zero.
* `C378_number_violated` — C378 is violated: in a base that was reduced to the modes `ks`, the time of a mode is not given by its number: a mode which is not at its own place is at the time of another one.
* `C378_grid_violated` — C378 is violated: a mode on other abscissas is refused when it has the ordinates of the first one, and accepted when it has not.
* `C379_figure_violated` — **C379 fails** when another figure than the current one is given: the frames written are those of the current figure, and the one given is not touched.
* `C379_plain_violated` — **C379 fails** when the figure given has a manager and the current one has none: an exception.
* `C379_empty_violated` — **C379 fails** without a current figure: an exception, and an empty figure is opened.
* `C379_kind_violated` — **C379 fails** for `record_animation`: any other kind than `gif` and `mp4` writes nothing, without a word, and `mp4` asks for a writer which is not the one of matplotlib, `ffmpeg`.
* `C380_masked_violated` — C380 is violated: with a masked point, what the optimiser is asked to make least is NaN whatever the parameters, although the other points may follow the function.
* `C381_hidden_violated` — C381 is violated: structures of opposite indices in the columns of a field are not counted along x.
* `C382_shared_violated` — C382 fails when the same field is held at two times (`add_field(copy=False)`): it is smoothed twice.
* `C382_halfway_violated` — C382 fails for a collection whose second field is masked beyond some abscissa: an exception, after the first one has been smoothed.
* `C382_kind_violated` — C382 fails with an unknown filter: the exception that is raised leaves the first field with its masked points filled.
* `C382_vector_kind_violated` — C382 fails with an unknown filter, for vector fields too.
* `C383_line_violated` — C383 fails for fields of one column: their modes cannot be made into fields.
* `C384_unit_violated` — C384 fails for the units: the field of the mask of a field has the unit of its values.
* `C384_line_violated` — C384 fails for fields of one column or one row: an exception.
* `C385_twice_violated` — C385 fails when the same field is held at two times: it is turned twice, and for an odd number of quarter turns of a grid that is not square it is no more on the grid of the collection.
* `C386_origin_violated` — C386 fails for a field held more than once: its origin is moved as often, and its columns are not where one change puts them.
* `C386_scale_violated` — C386 fails for a field held more than once: its values are multiplied as often.
* `C387_halfway_violated` — C387 fails when a later field refuses the unit: the exception leaves the first field in the new unit, the second one and the record in the old.
* `C387_foreign_violated` — C387 fails for a field whose axis has the numbers of the axis of the record in another unit, which `add_field` accepts: after a change of the unit along x it shows its values at other physical places.
* `C388_indices_violated` — C388 fails for a window given by indices when a field is held twice: it is cut twice, and no more on the grid of the record.
* `C389_iterate_violated` — C389 fails: no collection with a field can be iterated on.
* `C389_mask_violated` — C389 fails: no collection gives its mask.
