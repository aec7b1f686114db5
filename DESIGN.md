# Design

Target: chainladder-python 0.8.24 (`/repo`), read as text.  Model and proofs: Lean 4
(`/verif/lean`, library `Verif`).

## Trusted base

* The Lean 4.33.0 kernel.  Every property theorem depends at most on `propext`,
  `Classical.choice` and `Quot.sound` (the last section lists the axioms per file).  No axiom
  is added, no `sorry`, no `native_decide`, no `bv_decide`.
* Mathlib definitions used in statements: `Finset.sum/prod`, `List`, ordered fields,
  `Real.sqrt/exp/rpow/log`, `Filter.Tendsto`.
* The reading of the Python source: each model definition cites the file and lines it
  follows, and says where it simplifies.  This step is by inspection, not machine checked.
* Semantics assumed for numpy, pandas, sparse, scikit-learn: written down as Lean
  definitions (basic slicing, broadcasting, `nansum`, `cumsum`, `nan_to_num`, `lexsort`,
  period arithmetic, `sparse._slicing.normalize_index`, group-by-sum, ...).

## Numbers

`Num K` = NaN, +inf, -inf, or a finite element of an arbitrary linearly ordered field `K`.
IEEE rules are followed for NaN/inf/zero-division; **rounding is not modelled** (arithmetic on
finite numbers is exact) and the sign of zero is ignored.  `nan_to_num` maps infinities to
+-(2^1024-2^971), the largest double.  Theorems hold for every `K`; examples use the
rationals.  Where sqrt/exp/rpow appear, `K` is the real numbers.

## Arrays and triangles

A 4-D array is a shape and a function from four indices.  A triangle has label lists for its
four axes, grains, valuation date, flags and a 4-D array, as in `core/triangle.py`.  Dates are
month numbers (12*year+month-1): origins are first days of months, valuations last instants of
months; `Calendar.lean` treats days where the code does (development age).  The development
axis holds either ages in months or valuation months (`ddims` as integers or as a
`DatetimeIndex` in the code).  Exceptions are `Except` values.

## Layout

* `Verif/Model/*`  - functions of the code, with citations.
* `Verif/Lemmas/*` - helper lemmas.
* `Verif/Spec/*`   - small independent specifications.
* `Verif/Props/*`  - one file per property `Cxx`, theorems only, each with an `example` meeting its hypotheses.

## What is modelled

Code cited by each model file (path below `chainladder/` and lines):

* `Model/Additive` - IncrementalAdditive (`development/incremental.py`), dense backend: development/incremental.py 74-89, 91-175, 151, 159, 196-208; development/base.py 15-27, 359-375; utils/weighted_regression.py 72-92
  Not modelled: triangles that carry `trend_` or `w_`, exposures that are not a single column of developments.
* `Model/Agg` - Aggregation along an axis (`core/pandas.py`), dense backend: core/pandas.py 347-384, 354-358, 365-374, 379-382
* `Model/Arith` - Triangle arithmetic (`core/dunders.py`), dense backend: core/dunders.py 20-32, 33-40, 42-46, 62-99, 101-136, 138-209, 140-147, 148-159, 242-252, 254-255, 257-267, 279-282, 291-300, 324-334, 336-340, 342-357, 362-366, 368-372; core/slice.py 200-202, 204-243; core/triangle.py 985-990
* `Model/Berquist` - Berquist-Sherman adjustment (`adjustments/berqsherm.py`), dense backend: adjustments/berqsherm.py 47-61, 63-189, 191-211; core/pandas.py 347-384; core/slice.py 205-237
  `np.log` and `np.exp` are parameters, `fac m` is `(1 / (1 + trend)) ** (m / 12)`, and `est` is fitting `reported_count_estimator` and reading its `ultimate_`. No column is virtual and no column has the name of an index label.
* `Model/Bootstrap` - Bootstrap samples (`adjustments/bootstrap.py`), dense backend: adjustments/bootstrap.py 71-176, 101-106, 128-137, 138, 143-147, 148-153, 154, 155-176, 178-193
  Triangles with one index entry and one column (several columns are sampled one after the other in the code). The hat matrix adjustment `hat` is an arbitrary function of the expected increments (that of the code is `Boot.hat` in Model/Hat; `none` for `hat_adj=False` or a matrix that cannot be inverted), `root` is the square root, and `draw k o d` is the position drawn by `random_state.choice` for cell `(o, d)` of sample `k`.
* `Model/Calendar` - Development lags from dates (`core/base.py:260-264`): core/base.py 260-264
  Months are numbered `12 * year + month - 1`. Timestamps are nanoseconds; pandas uses the proleptic Gregorian calendar.
* `Model/CapeCod` - Cape Cod (`methods/capecod.py`), dense backend: methods/capecod.py 69-96, 98-127, 109, 113-115, 113-123, 161-171
  Without `groupby`. The on-level factors (`olf_`) and the trend factors are arrays; `trendFactors` is the trend array of a triangle that has no `trend_` attribute.
* `Model/CaseOut` - Case outstanding method (`development/outstanding.py`), dense backend: development/outstanding.py 62-101, 80-85, 87-88, 90-91, 93-94, 96-97, 103-142, 103-179, 104-106, 110-123, 126-128, 131-133, 143-148, 149-154, 155-169, 181-198, 200-216
  Not modelled: `groupby`; triangles with one origin, index and column, whose latest diagonal is a number.
* `Model/Clark` - Clark's growth curves: development/clark.py 56-71, 65-71, 73-95, 127, 128, 134-135, 185-195, 203-218
  The curve, the age-to-age factors and the fitted increments of `development/clark.py`, over the reals, for the parameters found by the optimiser (`scipy.optimize.minimize`, not modelled; its bounds make them positive). Not modelled: groupby, the Cape Cod variant's loss ratio; `scale_` and the residuals are in `Model/ClarkScale`.
* `Model/ClarkScale` - `scale_` and `norm_resid_` of `ClarkLDF`, dense backend: development/clark.py 258-284, 269-273, 286-293
* `Model/Concat` - Concatenation (`utils/utility_functions.py:274-351`), dense backend: utils/utility_functions.py 274-351; utility_functions.py 274-351, 308-319, 309-313, 314-319, 322-338
* `Model/Constant` - External patterns (`development/constant.py`), dense backend: development/constant.py 42-75, 66, 66-69
  `patterns` is a dictionary; the callable form is not modelled.
* `Model/Construct` - The constructor (`core/triangle.py:109-278`): core/triangle.py 109-278, 129-257, 155-157, 159-161, 203-210, 213-230, 233-249; core/base.py 84-113, 115-165, 178-205, 293-302, 295, 303-316, 308-312
  Dates are given as month number and day of the month. The development lag in months is that of `Model/Calendar` (C17). Not modelled: semi-annual grains, missing `development`, records valued within a year of the ultimate date 2261-12-31 (`_split_ult`), `pattern=True`, parsing of dates (`_to_datetime`), dask data frames, missing index keys.
* `Model/Convert` - Cumulative / incremental conversion, link ratios (`core/triangle.py`), dense backend: core/triangle.py 427-480, 442-448, 449-454, 457-461, 475, 482-518
* `Model/Correlation` - Correlation tests (`core/correlation.py`): core/correlation.py 50-121, 63-65, 84-110, 131-141, 165-204, 168-169, 183-185, 191-192, 193-198, 199-200, 201-202, 203, 204, 205-232, 234-235, 237-244, 263-277; core/dunders.py 306-316
  Not modelled: the labels of the result (only its arrays), and the quantile function of the normal distribution, which is a parameter.
* `Model/Development` - Development: core/common.py 202-215; development/development.py 103-192, 145-168, 146, 147-149, 150, 151, 164-166, 167, 235-249; development/base.py 50-84, 53-71, 56-61, 66-67, 75-84, 86-123, 102, 126-239, 176, 242-303, 305-325, 327-337, 359-375, 377-412, 384-402, 386-391, 414-436, 438-458
  `development/base.py` and `development/development.py`, dense backend, without `groupby` and `fillna`. Assumptions given as a scalar, list, dictionary or function are modelled as functions of the position of the age (`_validate_assumption`, `core/common.py:202-215`).
* `Model/Diagnostics` - `model_diagnostics` (`utils/utility_functions.py:428-512`), dense backend: utils/utility_functions.py 428-512, 453-459
  The vectors of all columns at once; the code writes them, one column of the triangle after the other, as the columns of a new triangle and concatenates those (C20, C22).
* `Model/Elementwise` - `exp`, `log` and `sqrt` (`core/pandas.py:328-332,340-341`, `core/base.py:411-418`), dense backend: core/pandas.py 328-332, 328-329, 331-332, 340-341; core/base.py 411-418
  numpy hands `np.exp(triangle)` to `__array_ufunc__` of the triangle. Powers are `pow` in `Model/Mack`.
* `Model/FillDev` - `fillna` of `Development` (`development/development.py:125-128`), dense backend: development/development.py 103-192, 125-128
  Only without `drop_high`, `drop_low`, `drop_above` and `drop_below`, which look at the link ratios of the filled array.
* `Model/Filter` - Valuation filters, latest diagonal, link ratios, dense backend: core/slice.py 183-191, 245-254; core/triangle.py 396-398, 404-406, 408-425
* `Model/Full` - Full expectation and full triangle (`core/common.py`), dense backend: core/pandas.py 273-297; core/triangle.py 377-380; core/common.py 14-26, 29-58, 33-49
* `Model/Grain` - Changing the grain (`core/triangle.py:639-757`): core/triangle.py 639-757, 662-667, 669-757, 692-709, 711-735, 737-752, 738-742, 748
  Only `trailing=False` and periods that close in December.
* `Model/GroupArith` - Arithmetic between triangles with different index labels (`core/dunders.py:62-99,211-241,291-334`),: core/dunders.py 20-29, 20-32, 62-99, 63-84, 85-87, 88-91, 211-241, 211-226, 233-241, 242-334, 252, 291-334; core/pandas.py 16-27; core/slice.py 111-112, 138-140
* `Model/Groupby` - Grouping (`core/pandas.py:16-36,387-446`), dense backend: core/pandas.py 16-36, 387-446, 406-414, 415-428, 429-430, 431-438; core/base.py 266-293; utils/utility_functions.py 274-351
* `Model/Hat` - The hat matrix adjustment of `BootstrapODPSample`, dense backend: adjustments/bootstrap.py 107-116, 178-193, 183-192, 187, 195-230, 198-200, 201-215, 216
  Simplification: the origins are in order, so the known cells of an age are those of the first origins, and every first amount is known; a matrix with NaN is not modelled. `np.linalg.inv` is the inverse of a matrix with a determinant other than zero and raises otherwise.
* `Model/HeadTail` - `head`, `tail` and `append` (`core/pandas.py:257-271,318-322`): core/pandas.py 257-271, 318-322, 318-319, 321-322
* `Model/Json` - `to_json` and `read_json` (`core/io.py`, `utils/utility_functions.py`), dense backend: core/pandas.py 65-83, 70-101; core/io.py 28-55; utils/utility_functions.py 118-145
  `enc` is what writing a finite amount as text and reading it does to it: pandas writes 10 decimals. Not modelled: `sub_tris` and `dfs` (fitted attributes), virtual columns, patterns, keys and column names that pandas reads back as numbers or dates, duplicate index keys, and triangles without a stored cell.
* `Model/Mack` - `MackChainladder` (`methods/mack.py`), dense backend: methods/mack.py 98-112, 117-119, 121-157, 125-132, 134-135, 141-144, 141-157, 146-152, 147-152, 150-151, 153-156, 159-161, 167-173; core/dunders.py 306-316; core/pandas.py 340-341; core/base.py 411-418
  The square root is a parameter `s` of the functions. `sigma_`, `std_err_` and `w_` are arrays given from outside.
* `Model/MackFit` - `MackChainladder.fit` after `Development`: methods/mack.py 43-69, 104-106, 175-188; methods/chainladder.py 44-74; methods/base.py 18-24; tails/constant.py 53-79; tails/base.py 108-134
* `Model/MackPredict` - `MackChainladder.predict`: methods/base.py 18-24; development/development.py 200-216; methods/mack.py 71-92, 78-90; core/triangle.py 837-842
* `Model/Memory` - Triangle objects: identity, copies and assignment (`core/triangle.py`, `core/slice.py`), dense backend: core/slice.py 193-203, 219-245, 239-245, 266-270, 340-360, 341-343, 355-357; core/triangle.py 439-476, 494-515, 837-842; core/pandas.py 206-211
  The other modules model what a method returns. Here a triangle is an object on a heap: it has labels and flags of its own, a reference to the numpy array with its values and a reference to the dictionary of its virtual columns. A method may rebind the references, write into the array or the dictionary, or only rebind the local name `self`.
* `Model/Methods` - Reserving methods (`methods/`), dense backend: core/base.py 207-219; methods/base.py 26-40, 30-31, 42-55; core/common.py 79-84, 93-105; methods/chainladder.py 63-74; core/pandas.py 325-326; methods/benktander.py 45-68, 92-135, 123-130, 127; methods/bornferg.py 46-67; methods/expectedloss.py 46-67
  Input triangles are development triangles (`validate_X` converts valuation triangles first) that already carry a pattern `ldf_` (the argument `f`). Process variance, which is only computed for bootstrap samples, is not modelled, and neither are virtual columns.
* `Model/Munich` - `MunichAdjustment` (`development/munich.py`), dense backend: development/munich.py 61-121, 84, 84-100, 114-118, 186-195, 205-216, 217, 218-229, 238-240, 241-259, 273-318, 280-299, 303-305, 311-313, 320-341, 330, 343-347, 357-367; utils/weighted_regression.py 98-169
  `ldf_` and `sigma_` of the triangle are given. They have one row and one column for each age but the last, as after `Development()`; other patterns (groups, tails) are left out.
* `Model/MunichTransform` - `MunichAdjustment.transform` (`development/munich.py:122-166`), dense backend: development/munich.py 122-166, 142-143, 187, 279-317, 369-375
  The triangle to transform has the pattern `ldf_` and the deviations `sigma_`: its own, or those that `Development()` finds for it (`development/munich.py:142-143`). Indices of another length than that of the fit, patterns with groups or tails, and the attributes `rho_`, `lambda_` and `lambda_coef_`, which are those of the fit, are left out.
* `Model/Num` - Floating point numbers as used by numpy, without rounding: utils/sparse.py 28-34; utils/utility_functions.py 354-378, 354-369
  `Num K` is what a float64 cell of `Triangle.values` can hold: NaN, an infinity, or a finite number. Simplifications: finite arithmetic is exact (an arbitrary linearly ordered field `K` instead of the doubles) and the sign of zero is ignored.
* `Model/Olf` - Parallelogram on-level factors (`utils/utility_functions.py:155-265`): utils/utility_functions.py 155-265; adjustments/parallelogram.py 78-84
  The start date is the first day of month `s`, the end date the last day of month `e`, as they are in `ParallelogramOLF.fit` (`adjustments/parallelogram.py:78-84`). `daily` is `approximation_grain == "D"`, otherwise it is `"M"`.
* `Model/Options` - Global options (`chainladder/__init__.py`): __init__.py 3-28, 9-11, 13-15, 17-21
  The options are attributes of the class `Options`; its methods are attributes of the same class, so `set_option` can overwrite a method. Simplifications: attributes inherited from `object` (dunder names) are not modelled, and values are immutable (the default list `ARRAY_PRIORITY` is returned by reference in the code).
* `Model/Predict` - Predicting with a fitted method (`methods/base.py`), dense backend: methods/base.py 93-118, 112, 120-137; methods/chainladder.py 46-61; methods/benktander.py 70-90; methods/bornferg.py 62-77; methods/expectedloss.py 62-77; methods/capecod.py 129-159
  `validate_weight` only warns and is left out.
* `Model/ProcessVariance` - Process variance of bootstrap samples (`adjustments/bootstrap.py:256-270`, `methods/base.py:143-151`), dense backend: adjustments/bootstrap.py 80, 252, 256-270, 262-264, 265-267; methods/base.py 143-151
  A standard gamma draw for the cell `(i, c, o, d)` is `draw i c o d shape`, an arbitrary function: the generator is not modelled. `scale_` is a number for one column and an array of one number per column otherwise (`adjustments/bootstrap.py:80`); both are lists here.
* `Model/Regression` - WeightedRegression: utils/weighted_regression.py 41-68, 69, 75-81, 80, 82-85, 84-88, 89
  `utils/weighted_regression.py`, dense backend, one column of an array at a time: `n` observations along the axis of the fit.
* `Model/Relabel` - Assignment of labels (`core/triangle.py:306-389`, `core/pandas.py:273-299`): core/triangle.py 306-389, 306-314, 320-326, 377-380; core/pandas.py 273-299, 290-294; core/base.py 170-176
  The setter of `origin`, which goes through pandas periods, is not modelled.
* `Model/Reshape` - shift, fillna, dropna, dense backend: core/pandas.py 163-184, 186-214, 273-297; core/triangle.py 345-354, 377-380, 885-949, 911-927, 928-945, 946-949
* `Model/Residuals` - `std_residuals_` of `Development`: development/development.py 181-184, 182-183
* `Model/Search` - `GridSearch` and `Pipeline` (`workflow/gridsearch.py`): workflow/gridsearch.py 84-101, 90-95, 91-92, 144-149, 145-148, 148, 151-155, 152-154, 157-159
  scikit-learn's `ParameterGrid`, `clone` and `Pipeline` and joblib's `Parallel` are not part of the repository; what is used of them is written down here. Estimators, models, triangles and parameter values are arbitrary types.
* `Model/SetItem` - Assignment to a block of cells: `iloc[…] = v`, `loc[…] = v`, `at[…] = v` (`core/slice.py`), dense backend: core/slice.py 58-66, 63-65, 129-144, 146-157, 160-170, 178-179, 273-286, 295-306
  `a[k0, k1, k2, k3] = v` of numpy with slices and lists of positions (external library, assumed): every slice is an axis of the selection; all lists together are a single axis of it, in the place of the first list when the lists are next to each other and in front otherwise. The value is broadcast to the shape of the selection, leading axes of length one being removed when it has too many; of two values for one cell the later one stays.
* `Model/Sigma` - `sigma_` and `std_err_` of `Development` (`development/development.py:167-192`), dense backend: development/development.py 103-187, 167-192, 168-177, 179-183; utils/weighted_regression.py 75-94, 75-95
  Over the reals, with their square root, logarithm and exponential. `average_` is not modelled; `std_residuals_` is in `Model/Residuals`.
* `Model/Slice` - Positional indexing of one axis: core/slice.py 35-56, 68-81
  Python slices, `sparse._slicing.normalize_index` (external) and the two index rewriting steps of `core/slice.py`.
* `Model/Sort` - Sorting an axis (`core/triangle.py:950-983`), dense backend: core/triangle.py 365-375, 950-983, 978-979; utils/utility_functions.py 348-349
* `Model/Sparse` - The sparse backend (`utils/sparse.py`, `sparse.COO`): utils/sparse.py 28-34, 41-44, 57-65, 77-78; core/common.py 174-175; utils/utility_functions.py 356-366, 372-378; core/slice.py 83-100; core/dunders.py 33-36, 42-46, 279-282, 302-313; core/triangle.py 451-454, 463-475
  A `sparse.COO` is the list of its stored cells and a fill value for all others. Of the `sparse` library we assume: arithmetic gives `f(x, y)` at every cell, stores the cells at which one operand has a stored cell and the result differs from the result of the fill values, and broadcasts like numpy; a sum adds the stored cells; `todense` and the constructor from an array copy every cell. Arrays of four axes.
* `Model/TailFit` - Fitted tails (`tails/bondy.py`, `tails/clark.py`), dense backend: tails/bondy.py 54-137, 69-70, 79-91, 88, 114-121; tails/clark.py 57-111, 82-91, 92
  The argument `f` is `X.ldf_` (or the `ldf_` of a default `Development`), `t` is `X`. The parameters found by `scipy.optimize` are arguments. Not modelled: `sigma_` and `std_err_`.
* `Model/TailStats` - `sigma_` and `std_err_` of the tail estimators (`tails/base.py`), dense backend: utils/weighted_regression.py 22-68, 69; tails/base.py 32-35, 36-37, 108-131, 117-128, 121-134, 125, 136-152, 142-145, 146-148, 150, 154-166
  For a pattern with one row of factors per index and column.
* `Model/Tails` - Tails (`tails/`), dense backend: tails/base.py 13-44, 18-21, 30-38, 74-80, 82-88, 90-110, 97-103, 112-141; tails/constant.py 53-79, 71-75; tails/curve.py 44-47, 81-175, 101-112, 114-160, 124-144, 145-151, 166-169, 177-184, 186-192
  The argument `f` is `X.ldf_` (or the `ldf_` of a default `Development`), `t` is `X`. Not modelled: `sigma_` and `std_err_` (`tails/base.py:30-38,112-141`). `TailBondy` and `TailClark` are in `Model/TailFit`.
* `Model/Trend` - Trending (`core/triangle.py:759-827`), dense backend: core/triangle.py 330-331, 759-827, 803-811, 812-822
  Dates only enter through their year and month, and clamping keeps the order of months, so that a date is represented by its month number.
* `Model/TrendFit` - The `Trend` estimator (`adjustments/trend.py:40-69`), dense backend: adjustments/trend.py 40-69, 55-57, 55-68, 63-66; methods/capecod.py 69-96, 161-168
  A single trend or a single pair of dates is a list of one (`adjustments/trend.py:55-57`). Dates are month numbers as in `Model/Trend`.
* `Model/Tri` - Arrays and triangles: core/triangle.py 109-278, 520-526; __init__.py 7; core/base.py 207-219, 367-391; core/slice.py 15-33, 25-33, 172-176, 186-187, 188-191, 256-264
  Dates are month numbers `12*year + month - 1`. An entry of `odims` is the first instant of its month, a valuation date the last instant of its month.
* `Model/Ufunc` - `minimum` and `maximum` (`core/pandas.py:334-338`, `core/base.py:411-418`, `utils/utility_functions.py`), dense backend: core/pandas.py 334-338, 334-335, 337-338; core/base.py 411-418
  numpy hands `np.minimum(triangle, other)` to `__array_ufunc__` of the triangle.
* `Model/ValDev` - Development and valuation axes (`core/triangle.py:520-637`): core/triangle.py 400-402, 520-637, 528-555, 557-598, 600-637
  The code shifts the coordinates of a sparse array; here the same on the dense array, its coordinates being those of the cells that are not NaN.
* `Model/Voting` - `VotingChainladder` (`workflow/voting.py`), dense backend: workflow/voting.py 22-41, 50-88, 90-95, 101-144, 219-241, 256-282, 292-313, 296-306; core/dunders.py 254-255
  Joblib runs the fits in any order and returns them in the order of the list; the sample weight is part of the members. Weight arrays with fewer than two or more than four axes are left out.
* `Model/Workflow` - Estimators in sequence: methods/base.py 18-24; tails/constant.py 48-52; methods/chainladder.py 44-74

## What is not modelled

* Rounding, overflow and the sign of zero; time and memory.
* The cupy and dask backends.  The sparse backend is modelled separately (`Model/Sparse`) for
  arithmetic, powers, cumulation, sums, conversion and assignment; all other models are of the dense
  backend.
* `core/display.py`, plotting, `core/io.py` other than JSON of a triangle (pickle, `sub_tris`,
  fitted attributes), `utils/cupy.py`, `utils/data`.
* `DevelopmentML`, `TweedieGLM`, `BarnettZehnwirth` (scikit-learn and patsy regressions),
  of `CaseOutstanding` the parameter `groupby`.
* Groupby inside estimators, callable assumptions other than as functions of the age; `fillna` in
  `Development` together with `drop_high`, `drop_low`, `drop_above` or `drop_below`, and its `sigma_`, `std_err_` and residuals.
* Virtual columns, except for `Model/Memory`.
* Parsing of dates and strings; the constructor starts from dates.
* Of external libraries the models assume: numpy slicing, broadcasting and reductions as defined in
  `Model/Tri`, `Model/Slice`, `Model/Regression`, numpy's element by element functions (`Model/Ufunc`,
  `Model/Elementwise`), `normalize_index` of sparse (`Model/Slice`); pandas group-by-sum, sorting, `pivot_table` and
  JSON round trip (`enc` in `Model/Json`); scikit-learn `ParameterGrid`, `clone`, `Pipeline` and joblib
  `Parallel` (`Model/Search`, `Model/Voting`); `scipy.optimize.minimize` and `scipy.stats` results are
  parameters.

## Properties

Approach, theorems (`Verif/Props/Cxx.lean`) and what they leave out.  A name ending in `_partial` covers the stated subclass only, one ending in `_false` is a proved counterexample.

* **C01** Cumulative/incremental round trip. Model cum_to_incr (slices, subtraction with cleanup, concat) and incr_to_cum; prove the telescoping identity by induction over developments; state in amounts.
  Status: partial. Cumulative first: every ordinary triangle with at least two developments. Incremental first: at least three developments or a single origin; false with exactly two developments (witness), and cum_to_incr raises with a single development (witness).
  Refuted: `C01_incr_cum_incr_false`, `C01_single_development_false`.
* **C02** incr_to_cum is the running total. Same model; running sum by induction; flags, labels unchanged; second call no-op.
  Status: partial. Full for at least two origins and developments; observed cells for any shape. With a single origin later cells are filled (witness).
  Refuted: `C02_single_origin_false`.
* **C03** No amount is invented after the valuation date. Model nan_triangle with its length-one path. The property is false: witness with two developments and one with one origin; `_partial` for >=2 origins and >=3 developments.
  Status: partial. cum_to_incr for at least two origins and three developments; false with two developments or one origin (witnesses). Addition and subtraction for all operands on common axes, and for any operands when the result has two origins and developments.
  Refuted: `C03_two_developments_false`, `C03_single_origin_false`.
* **C04** Age-to-ultimate factors are products of age-to-age factors. Pattern branch: reversed cumprod = suffix product, quotient restores factors.
  Status: proved. All cumulative patterns with nonzero factors.
* **C05** latest_diagonal picks the cell at the valuation date. Model valuation, boolean __getitem__, edge trimming, sum; refinement to "the cell whose valuation is the valuation date".
  Status: partial. Triangles with two or more developments, whenever latest_diagonal returns; it returns on every regular triangle. The single-development case is proved separately. Origins with no cell at the valuation date are dropped (witness).
  Refuted: `C05_dropped_origin_false`.
* **C06** link_ratio is next amount over current amount. Model link_ratio; cell-wise characterisation.
  Status: partial. Every ordinary triangle with no stored zero and at least two developments. A stored zero makes the ratio infinite (witness).
  Refuted: `C06_zero_false`.
* **C07** dev_to_val and val_to_dev are inverse and keep every amount at its (origin, valuation) position. Model the index shift on dense functions (sparse coordinates shifted by origin position * scale); refinement to the (origin, valuation) map.
  Status: partial. Proved for triangles on a regular grid (any number of origins and ages, any origin and development grain of the table, first origin fully aged, nothing after the valuation date) with at least one amount after the first origin: dev_to_val puts every amount at its origin and valuation and val_to_dev gives everything back. False when all amounts are in the first origin: the special case of _val_dev shifts them by (n-1) origins (C07_first_false). Not covered: full triangles and ultimate columns, gaps in the axes, first origin not fully aged.
  Refuted: `C07_first_false`.
* **C08** grain aggregates without creating or losing amounts. Model the grain decision table and the regrouping of origins/developments; totals by summation over fibres.
  Status: partial. Proved for triangles by age on a regular grid, any pair of grains and any number of origins and ages: every cell of the coarser triangle is the total of the amounts of its block (same valuation if cumulative, valued in its development period if incremental), nothing after the valuation date, labels, grains and flags as expected (C08_grain_partial), incremental totals and the cumulative latest diagonal are kept (C08_total, C08_latest), and a string is accepted only if neither grain is finer than the old one and the origins are not finer than the developments (C08_sound, every string). When the origin grain changes the development grain must be months (and the axis must have as many columns as are put before the first origin), or quarters with nothing to put before. False in the other cases: quarters over a year end are taken for months (C08_quarters_false), quarterly developments with a first origin not in the first quarter get ages 1, 4, 7 (C08_ages_false), half-yearly developments raise (C08_halfyears_false), with fewer ages than months before the first origin the amounts move to earlier ages (C08_few_false). Not covered: trailing=True, closes other than December, valuation triangles as input.
  Refuted: `C08_quarters_false`, `C08_ages_false`, `C08_few_false`, `C08_halfyears_false`.
* **C09** Addition and subtraction of triangles with the same axes are cell-wise and obey the usual algebra. Model __add__/__sub__/__radd__; algebraic laws by cases on Num.
  Status: proved. Operands on common axes; sums over any nonempty list.
* **C10** Triangle comparison operators. == refines to equality of amounts (equivalence); `<=` is implemented with `<`: negation with witness and `_partial`.
  Status: partial. Equality is the exact cell comparison; it is not transitive because shapes broadcast and labels are ignored (witness); <= is false against its own order laws (witness).
  Refuted: `C10_not_transitive_false`, `C10_le_false`.
* **C11** Binary arithmetic aligns origins and developments by label. Model _prep_origin_development; false in general (same-length axes compared with all(!=)); witness, `_partial` for arithmetic-progression axes.
  Status: partial. Sums and differences, for operands with neighbouring or overlapping date ranges that leave no gap in each other. False for a development axis with a gap, where amounts are summed under the wrong label, and an operand filling a gap raises (witnesses).
  Refuted: `C11_overlap_false`, `C11_gap_false`.
* **C12** Binary arithmetic aligns columns by name. Model _prep_columns with its unbound variable as an error value; false; witness, `_partial`.
  Status: partial. Proved when the right operand has a column the left one lacks. When the columns of the right operand are among those of the left and differ, the sum raises UnboundLocalError (proved in general).
  Refuted: `C12_subset_false`.
* **C13** Positional slicing selects exactly what Python slicing selects. Model Python slice semantics, normalize_index, _normalize_index; false for full-range steps; witness, `_partial`.
  Status: partial. Integers, unit-step slices and reversed slices in range. False for steps >= 2 without bounds, stops beyond the axis, and reversed slices from position 0 (witnesses).
  Refuted: `C13_step_dropped_false`, `C13_far_negative_stop_false`, `C13_reverse_from_zero_false`, `C13_tri_false`.
* **C14** List and boolean selection keep the requested positions in the requested order. Model _contig_slice; denotation of the slice equals the list; duplicates rejected (step 0).
  Status: partial. Lists of positions on every axis and masks on origin and development. A list repeating one position raises instead (proved for every triangle); unevenly spaced lists on origin and development are refused.
  Refuted: `C14_repeated_false`.
* **C15** Valuation filters keep exactly the cells satisfying the filter. Model _slice_valuation + get_idx.
  Status: partial. Filters on two or more developments; success and failure characterised. With a single development column the mask is read as an origin mask and valuation dates are not lowered (witness).
  Refuted: `C15_single_development_false`.
* **C16** Constructing a triangle loses no record. Model the constructor on records (period mapping, group-by-sum, axes, coordinates); refinement to the record sum; permutation invariance.
  Status: partial. Proved for annual, quarterly and monthly data whose origin periods close with calendar periods. Refuted for fiscal origin periods: the constructor replaces their labels by calendar periods (C16_fiscal_false). Not covered: semi-annual grains, missing development, records valued at the ultimate date, date parsing.
  Refuted: `C16_fiscal_false`.
* **C17** Development age in months is computed exactly. Model the proleptic Gregorian day number; prove the rounding bound by integer arithmetic.
  Status: proved. Proved for dates up to 12000 months apart (the representable range of pandas dates is 585 years), and robust to floating point error of up to a hundredth of a day in the average month length.
* **C18** Shape and labels stay coherent under any sequence of operations. Invariant over an operation datatype, induction over traces.
  Status: partial. Proved by induction over any sequence of the modelled operations (slicing, masks, valuation filters, column selection, arithmetic between triangles and with numbers, comparisons, accumulation, link ratios, development and valuation axes, development grain, sums, latest diagonal, groupings on every axis, concatenation, shift, fillna, dropna), operands of binary operations being themselves results of such sequences. False for a sum over an axis without labels (C18_sum_false), arithmetic of one label with none (C18_add_false), and a change of the origin grain when there are fewer valuations than columns to put in front (C18_grain_false); these are excluded from the theorem. Not covered: estimators, assignment of columns, trend, string accessors.
  Refuted: `C18_sum_false`, `C18_add_false`, `C18_grain_false`.
* **C19** sum and groupby(...).sum() conserve totals. Model agg_func/groupby; fibre sums.
  Status: proved. Sum over each axis, groupby sum over each axis and the total of the groups, for triangles without infinite amounts. groupby on development is by position of the period in the axis.
* **C20** Concatenation. Model concat; split/rejoin; column-order problem: witness and `_partial`.
  Status: partial. Split and concatenation on every axis; rejection of repeated labels and different axes; amounts kept under their labels when the columns are in the same order. False for columns in different orders (witness).
  Refuted: `C20_column_order_false`.
* **C21** JSON round trip of a triangle. Model to_json/read_json on the record level and the constructor; refinement on the cell map.
  Status: partial. Proved for development triangles on a regular grid of calendar periods (no semi-annual grain, no patterns) with enough recorded amounts to find the axes (Savable; Savable.of_recorded gives a simple sufficient condition): C21_json_partial (all amounts by label, labels, flags, when increments survive writing), C21_rounding_partial and C21_decimals_partial (error at most D times the writing error), C21_same_partial (cell by cell). False of the code: C21_unset_false (is_cumulative None), C21_precision_false, C21_two_false (2x2 cumulative raises), C21_first_false (data only in first origin raises), C21_fiscal_false. Missing: valuation triangles, patterns, fitted attributes (sub_tris, dfs), numeric or date-like labels.
  Refuted: `C21_unset_false`, `C21_precision_false`, `C21_two_false`, `C21_first_false`, `C21_fiscal_false`.
* **C22** Trending is exponential, invertible and composable. Model trend over the reals (rpow).
  Status: proved. Trending multiplies each cell by (1+rate)^(years between its date and the valuation date), with start/end clipping; zero rate is the identity, trends compose and invert; the power (1+rate)^(months/12) is a parameter that takes sums of months to products.
* **C23** shift moves amounts by the requested number of periods. Model the recursion of shift; index arithmetic by induction.
  Status: partial. Proved for the origin axis of every triangle and for the development axis of triangles by age. The development labels of valuation triangles and patterns are strings and not modelled.
* **C24** fillna and dropna. Model fillna/dropna.
  Status: partial. fillna proved for triangles with at least two origins and two developments and false for one origin (witness); dropna proved for triangles with increasing labels, including the error when nothing is left.
  Refuted: `C24_fillna_false`.
* **C25** Sparse and dense backends agree. COO model with fill value; abstraction function commutes with operations.
  Status: partial. C25_store, C25_dense: conversion both ways for every array; C25_zeros: nan_to_num and num_to_nan; C25_run_partial: any sequence of + - * / neg, positive powers, cumulation and sums gives the same error or the same value at every cell with both backends (infinities and other methods left out); C25_assign_partial: assignment of a number. False of the code: C25_pattern_false (missing factor in a pattern), C25_power_false (power 0 then sum), C25_infinity_false, C25_missing_false (assigning NaN makes sums NaN), C25_empty_false (assignment to an array without stored cells raises).
  Refuted: `C25_pattern_false`, `C25_power_false`, `C25_infinity_false`, `C25_missing_false`, `C25_empty_false`.
* **C26** inplace=True updates the object it is called on. Methods return (object after, result); equality of both; false for cum_to_incr, grain.
  Status: partial. incr_to_cum and fillna update the object in place and agree with the copying variant; cum_to_incr and grain with inplace=True only rebind the local name, so the object is unchanged (C26_cumToIncr_false, C26_grain_false)
  Refuted: `C26_cumToIncr_false`, `C26_grain_false`.
* **C27** A copy is independent of the original. Heap model of shared virtual-column dictionaries; false when the dictionary is nonempty; `_partial` otherwise.
  Status: partial. labels and values of a triangle never change by operations on its copies; everything it returns is unchanged when it has no virtual columns; false with virtual columns, whose dictionary is shared by copies (C27_false, C27_shared)
  Refuted: `C27_false`.
* **C28** Development averages are the documented averages. Model DevelopmentBase.fit + _fit_OLS_thru_orig; closed forms.
  Status: proved. The fitted factor equals the documented average of the included link ratios, for every set of 0/1 weights and for the whole fit when nothing is excluded.
* **C29** The fitted factor minimises the weighted squared error. Sum-of-squares argument over an ordered field.
  Status: partial. Through the origin the fitted factor minimises the weighted squared error for all nonnegative weights. Lines: proved for 0/1 weights when a line is produced; false for unequal weights and for flat data (witnesses).
  Refuted: `C29_line_false`, `C29_flat_false`.
* **C30** Fitted factors lie between the smallest and largest link ratio and do not depend on units. Weighted average bounds; homogeneity.
  Status: proved. Bounds for every fit (all parameters) and scale invariance, per age for all weights and for the fit without exclusions.
* **C31** drop_high/drop_low exclude exactly the extreme link ratios. Model ranks and the drop rule; counting argument; tall triangles: witness.
  Status: partial. C31_fit_partial: for ages with no more available link ratios than the triangle has link ratio columns (or than n_periods), the factor is the average over what remains without the l smallest and h largest (Trimmed). False otherwise: C31_columns_false (count capped by the number of columns) and C31_zero_false (n_periods=0 with drop_high/drop_low gives a missing factor).
  Refuted: `C31_columns_false`, `C31_zero_false`.
* **C32** n_periods uses exactly the latest diagonals. Model the weight rule; grain table as partial map.
  Status: partial. C32_weights_partial/C32_fit_partial: on triangles whose known diagonals are evenly spaced (Diagonals) n_periods=n averages the latest n diagonals. C32_latest/C32_grid: on a regular grid with at least three origins that reaches the current origin period, fit averages exactly the n latest link ratios of each age. Missing: triangles with fewer ages than origins raise ValueError (C32_shape_false) and half-year origins raise KeyError (C32_half_year_false).
  Refuted: `C32_shape_false`, `C32_half_year_false`.
* **C33** Chainladder ultimate and IBNR. Model _align_cdf and _get_ultimate on the triangle model.
  Status: partial. Model of Chainladder._get_ultimate, _align_cdf and ibnr_ for cumulative development triangles that already carry a pattern; incremental triangles (val_to_dev) are not modelled. False for a single-cell diagonal (AttributeError) and for origins without a cell at the valuation date (dropped); both witnessed.
  Refuted: `C33_single_cell_false`, `C33_dropped_origin_false`.
* **C34** full_triangle_ keeps the known data and ends at the ultimate. Model _get_full_triangle; end value algebra; factor-1 case: witness.
  Status: partial. C34_partial: for cumulative triangles on a regular grid with at least two origins before the valuation date, known cells are kept and the last column is the ultimate iff the ultimate is not zero and the age-to-ultimate factor is not one, or the ultimate is the latest amount. C34_chainladder_partial: always for chain ladder. C34_incremental_partial: incremental triangles. C34_false: expected loss method with a factor of exactly one (common.py:33-49 divides by num_to_nan of zero).
  Refuted: `C34_false`.
* **C35** Benktander, Bornhuetter-Ferguson and expected loss. Model the power-sum; recursion by induction; limit with Filter.Tendsto.
  Status: partial. Benktander, Bornhuetter-Ferguson and expected loss, for cumulative development triangles with apriori_sigma = 0, a multiplicative one-row pattern and an exposure with one development. Proved for triangles in which every origin has a cell at the valuation date, latest + expectation does not cancel, 1 - 1/cdf is not exactly -1e-16 and the diagonal has more than one cell; each exclusion except the third has a counterexample. The result comes with a sorted index. Limit over the reals.
  Refuted: `C35_cancel_false`, `C35_dropped_origin_false`, `C35_single_cell_false`.
* **C36** Cape Cod expected loss ratio. Model the decay-weighted average; bounds and special cases.
  Status: partial. Cape Cod a-priori is the decay-weighted average of trended loss ratios over used-up exposure; between the smallest and largest ratio, overall ratio without decay, own ratio with full decay. Partial: exposure with one column per origin and complete current data. False for a single exposure cell covering all origins: the decay is ignored and one value is labelled with all origins.
  Refuted: `C36_single_exposure_false`.
* **C37** A constant tail multiplies out to the requested tail factor. Model TailBase.fit and _apply_decay; product by telescoping.
  Status: partial. Partial: attachment age not the first age, at most 1000 factors from the attachment age on, solvable seed quadratic and decay in [0,1]. Negations: C37_first_age_false (attachment index 0 is treated as missing), C37_small_tail_false, C37_long_false. sigma_ and std_err_ of the tail are not modelled.
  Refuted: `C37_first_age_false`, `C37_small_tail_false`, `C37_long_false`.
* **C38** Mack standard errors. Model the recursion over the reals; closed form by induction.
  Status: partial. Proved for regular cumulative triangles with at least two origins having an earlier cell, a pattern that extends past the last age, any finite standard errors, and any square root function: zero up to the valuation date, Mack's recursion, closed form, std err and totals, scaling. False for more than one index entry or column (the weights cannot be concatenated) and for tails that add no age (last column missing). The regression producing sigma and std_err is an input.
  Refuted: `C38_many_false`, `C38_no_extension_false`.
* **C39** Voting ensemble is the weighted average of its members. Model weights/validation/enumeration; false for default weights on non-square triangles and for dropped members; witnesses, `_partial`.
  Status: partial. Weighted average of member ultimates for any list of members and weights of 2, 3 or 4 axes, dictionary weights, agreement of identical members, and the plain average for the default weights when there are as many origins as ages. False of the code: default weights raise ValueError when origins and ages differ in number; a member set to 'drop' misaligns the weights and is still counted in the divisor. predict on another triangle: C39_predict_partial (same shape, weights by position); false: C39_dict_false (weights of another year), C39_origins_false (another number of origins raises).
  Refuted: `C39_default_false`, `C39_drop_false`, `C39_drop_weights_false`, `C39_dict_false`, `C39_origins_false`.
* **C40** GridSearch covers the grid, Pipeline composes. Model ParameterGrid product, tasks completing in any order, Pipeline fold.
  Status: partial. The grid of a search is exactly the cartesian product, without repetition, in sorted-key order with the last key fastest; a finished search gives the same rows for every interleaving of its tasks and finishes under every schedule that runs the tasks to their end; a row holds the scores of the model fitted with exactly its parameters. Pipeline.fit chains the steps and gives each its own keyword arguments and the sample weight. False of the code: a score named like a parameter overwrites it; error_score is ignored; step names ending in an underscore make fit with a sample weight raise KeyError; fit_predict passes the fit arguments unsplit to the last step's predict. scikit-learn's ParameterGrid, clone and Pipeline and joblib's Parallel are assumptions of the model.
  Refuted: `C40_rows_false`, `C40_error_score_false`, `C40_underscore_false`, `C40_fit_predict_false`.
* **C41** DevelopmentConstant reproduces the given pattern. Telescoping quotient/product.
  Status: proved. Both styles, for any number of ages and whatever amounts the triangle holds; a missing age is a KeyError. Patterns given as a dictionary; the callable form and groupby are not modelled.
* **C42** Valuation correlation test. Binomial identities by induction; total branch never rejects: theorem.
  Status: partial. z_expectation, z_variance and the p-value are proved exact for every n. The counts of large and small ratios are proved for regular triangles without stored zeros. With total=True z_critical is always false; a witness is given.
  Refuted: `C42_total_false`.
* **C43** Development correlation test. Spearman bound by rearrangement; validation.
  Status: partial. The coefficient of any two lists of numbers lies in [-1,1], is 1 exactly when the orders agree, and is the correlation of the ranks when there are no ties. The code computes it for triangles with as many ages as origins and no missing amount. False when an amount is missing (T_k = -3) and when there are more ages than origins (opposite rankings get 1/5).
  Refuted: `C43_range_false`, `C43_pairs_false`.
* **C44** Berquist-Sherman keeps the latest diagonal. Model the adjustments per cell; latest-diagonal factor is 1.
  Status: partial. Square triangles with three or more origins, any index and columns, any log/exp, trend and estimator of nonzero ultimate counts. C44_adjusted gives every cell; C44_latest_partial: same latest diagonal when no origin has case reserves without open claims; C44_chainladder_partial: with the default estimator and positive reported counts; C44_exponential: payments before the diagonal; C44_transform; C44_columns: missing columns raise. False of the code: C44_two_origins_false (with two origins the earlier payment is broadcast and added to the diagonal, C44_two_origins), C44_no_open_claims_false (reserves vanish where no claim is open).
  Refuted: `C44_two_origins_false`, `C44_no_open_claims_false`.
* **C45** Clark growth curves give proper development. Real analysis on the curve.
  Status: partial. range, growth and limit of both curves for all positive parameters; factors above 1 telescoping to the ratio of the curve; fitted increments add up to the latest diagonal; the labels fit only triangles with as many origins as ages (C45_labels_false); unknown curves fail with UnboundLocalError instead of ValueError (C45_unknown_false)
  Refuted: `C45_labels_false`, `C45_unknown_false`.
* **C46** Munich chain-ladder keeps known data and is consistent. Model the recursion; retention; telescoping.
  Status: partial. Square triangles of positive paid and incurred amounts, any size, any number of columns, pairs and indices. C46_known_partial: full triangle = data on known cells when the coefficients are numbers; C46_ultimate_partial: amount x fitted age-to-ultimate factor = last amount; C46_lambda_partial and C46_ratio give the coefficients; C46_zero_partial: correlation 0 gives the chain ladder; C46_gaps: gaps are filled from fillna, without it they raise; C46_unknown: an unknown column raises; C46_others_partial: columns outside the pairs keep their factors. False of the code: C46_known_false (proportional paid/incurred: known cells become NaN), C46_ultimate_false (then all factors are 1), C46_zero_false (zero correlation gives NaN), C46_columns_false (a paired column after a column in no pair: KeyError), C46_shape_false (last origin with more than one age raises). Not covered: patterns with groups or tails, sparse backend.
  Refuted: `C46_known_false`, `C46_ultimate_false`, `C46_zero_false`, `C46_shape_false`, `C46_columns_false`.
* **C47** Options are a simple store. State machine, induction over call sequences.
  Status: partial. False for options named like a method of the store (witness); proved for all other sequences of calls.
  Refuted: `C47_method_name_false`.
* **C48** predict applies the model to new data. Model predict age check and alignment.
  Status: partial. A triangle with an age beyond the pattern is rejected (chain ladder and Benktander); a development triangle whose ages are the first ages of the model's triangle, with the same index and at least two origins and ages, and not dated before it, gets latest amount times the model's factor of its own age. Benktander (with Bornhuetter-Ferguson and expected loss) and Cape Cod predictions are proved on regular triangles: new latest amounts, new exposure, the model's factors, and for Cape Cod a-prioris of the new data; predicting the triangle of the fit gives the ultimates of the fit. Not covered: single origins, valuation triangles, indexes that differ from the model's, incremental triangles, Cape Cod models with fewer key labels. False for triangles dated before the model (all ultimates missing) and for a single age (age-12 amounts get later factors).
  Refuted: `C48_earlier_false`, `C48_one_age_false`.
* **C49** full_expectation_ adds up to the ultimate. Model _get_full_expectation; sign problem in incremental branch: witness.
  Status: partial. Cumulative: full statement. Incremental: partial, the last increment has the wrong sign, so the increments add up to the ultimate only when the last factor of the pattern is one (C49_incremental_false).
  Refuted: `C49_incremental_false`.
* **C50** Parallelogram on-level factors. Model the monthly approximation; bounds of averages.
  Status: partial. monthly approximation: one row per period in order, factors between 1 and the total change, 1 without changes and at the current level, the total before all changes on first days of months; daily approximation from a January after a year without 29 February; false: changes within a month are ignored (C50_midmonth_false), quarters and half-years raise (C50_grain_false), after a leap year the daily table has an extra row and NaN factors (C50_daily_rows_false, C50_daily_nan_false)
  Refuted: `C50_midmonth_false`, `C50_grain_false`, `C50_daily_rows_false`, `C50_daily_nan_false`.
* **C51** drop_valuation excludes exactly the link ratios starting at the listed valuations. Model the drop masks of Development; refinement to the set of listed cells under Leading; witnesses.
  Status: partial. C51_fit_partial: when the listed dates only touch the leading origins and ages (Leading) and the first triangle has an amount wherever another one has. False otherwise: C51_shape_false (fewer ages than origins: the mask is padded at the wrong end and drops other link ratios), C51_first_false (the mask is read off the first index and column only) and C51_two_ages_false (with two ages fit raises).
  Refuted: `C51_shape_false`, `C51_first_false`, `C51_two_ages_false`.
* **C52** drop_above/drop_below keep exactly the link ratios strictly between the bounds. Characterise dropX by counting; preserve rule.
  Status: proved. Proved for every finite, known triangle and every per-age bound and preserve count, with n_periods off and no other drop option.
* **C53** drop excludes exactly the listed link ratios. drop_valuation mask equals the set of cells on the listed valuations.
  Status: proved. Proved for regular triangles with distinct labels and at least two origins, with n_periods off and no other drop option.
* **C54** An operand with a single index, column, origin or development is used with every one of the other operand. Broadcasting arithmetic on every axis, cell by cell.
  Status: proved. Multiplication, division, addition, subtraction with broadcasting in either direction on every axis; addition and subtraction for finite or missing amounts up to the valuation date.
* **C55** The inferred grain divides the spacing of the dates and is the coarsest such grain. Grain inference from the set of dates; soundness for every list; coarsest by cases.
  Status: partial. Soundness and dependence on the set of dates for all lists; coarsest for annual and semi-annual spacing; for quarterly spacing only without gaps (C55_gap_false: January and October give a monthly grain).
  Refuted: `C55_gap_false`.
* **C56** Chain ladder of a plain triangle, end to end. Compose constructor-level grid, Development, Chainladder: pipeline theorem on standard triangles.
  Status: proved. Standard: regular origin and development axes, first origin at the last age, at least two origins, positive recorded amounts. Development without exclusions.
* **C57** A fitted tail curve extrapolates the least-squares curve. Model TailCurve; regression on transformed factors; extrapolation by product.
  Status: partial. Partial: errors='ignore', tuple fit_period, extrap_periods at least the number of added periods, fitted coefficients (two usable factors, nonzero covariance). Negations: C57_short_false (fewer extrapolated than added periods gives a mis-shaped result), C57_flat_false (equal factors give a missing tail), C57_start_false (fit_period starting at 0).
  Refuted: `C57_short_false`, `C57_flat_false`, `C57_start_false`.
* **C58** full_triangle_ of the chain ladder method develops the latest amounts. Full triangle of expected-loss type methods, age by age.
  Status: partial. C58_partial for age-to-ultimate factors other than one; C58_factor_one_false (factors 3/2 and 2/3) and C58_two_origins_false (two origins of which only one has an earlier cell: the known part is one cell and broadcasts over the rest).
  Refuted: `C58_factor_one_false`, `C58_two_origins_false`.
* **C59** Berquist-Sherman leaves a steady triangle alone. Steady triangles are fixed points of Berquist-Sherman.
  Status: proved. C59_steady: the adjusted triangle equals the triangle for every steady square triangle of three or more origins; C44_exponential gives the adjusted payments in general.
* **C60** Incremental additive method. Model IncrementalAdditive.fit; rates as averages over the chosen origins; completion cell by cell.
  Status: partial. Square triangles with nonzero exposures; labels of drop in the triangle, dates of drop_valuation past (Drops). The rates are the averages over the origins described by Chosen (n_periods, drop, drop_valuation, drop_above/drop_below, drop_high/drop_low, preserve); known increments are kept and future ones are exposure x rate x trend; without a future trend ldf_ reproduces the completed triangle. False of the code: an increment of zero is left out of the exposures (C60_zero_false), known increments of an age whose rate is zero are lost (C60_known_false), ldf_ ignores the future trend (C60_future_false), fit raises if ages outnumber origins (C60_wide_false), drop with an unknown label excludes a cell that is not listed (C60_drop_false), with drop_valuation an increment is excluded in all columns where the first column has none (C60_first_false).
  Refuted: `C60_zero_false`, `C60_drop_false`, `C60_first_false`, `C60_known_false`, `C60_future_false`, `C60_wide_false`.
* **C61** Bootstrap samples of the chain ladder. Model BootstrapODPSample.fit with arbitrary draws; expected increments through the chain ladder; sum over all tables of draws.
  Status: partial. One index entry and one column, dense backend, cumulative triangles on a regular grid. The draws of the random generator are an arbitrary table, the hat adjustment an arbitrary function of the expected increments. C61_columns, C61_pool and C61_scale need all data in use and positive amounts. False of the code: a triangle whose origins develop in the same proportions has no residuals to draw from and raises ValueError (C61_exact, C61_exact_false). The residuals of recorded increments that are zero are left out because cum_to_incr turns them to NaN (C61_pool_partial).
  Refuted: `C61_exact_false`.
* **C62** Bondy tail. Model TailBondy.fit with the decay as argument; positions of the ages on a grid; geometric series for the last factor.
  Status: partial. The decay found by scipy.optimize.least_squares and the refitted earliest_ldf_ are outside the model (decay as argument). C62_tail_partial and C62_chainladder_partial: one added period, because otherwise labels and values are out of step (C62_labels, C62_labels_false). The factors at the earliest age are positive.
  Refuted: `C62_labels_false`.
* **C63** Clark tail. Model TailClark.fit with the curve parameters as arguments; telescoping of ratios of the curve.
  Status: partial. The parameters theta and omega are arguments (found by ClarkLDF with scipy). C63_tail_partial and C63_chainladder_partial: attachment not after the last age of the triangle; after the last projected age values and labels are out of step (C63_late, C63_late_false). sigma_ and std_err_ are not modelled.
  Refuted: `C63_late_false`.
* **C64** Trend estimator. Model Trend.fit as repeated trends; induction over the list of trends; real powers for the windows.
  Status: partial. Cape Cod: as C36_fit_partial (one trend factor per origin, exposure for every origin), and no latest amount is zero; for a zero amount the factor is missing (C64_zero_false).
  Refuted: `C64_zero_false`.
* **C65** Case outstanding method. Model fit and _set_ldf; the completed amounts are the unique solution of the recursion; blocks of valuation triangles.
  Status: partial. Partial: at least three origins, no groupby; with n_periods the triangle reaches the current origin period (D <= q*n) and the origin grain is not half-years; reserves, factors and completed amounts not zero, latest reserves not adding up to zero. Two origins, a zero total of the latest reserves, an origin without payments and two ages have _false witnesses.
  Refuted: `C65_two_origins_false`, `C65_latest_false`, `C65_no_payment_false`, `C65_two_ages_false`.
* **C66** Sorting an axis. Model sort_axis; positions are permutations of the labels; cells by their four labels; patterns compare strings.
  Status: partial. Partial: increasing order not for the developments of patterns, which are compared as strings (C66_pattern_false); concatenation of two triangles with the same columns.
  Refuted: `C66_pattern_false`.
* **C67** The vectors of model_diagnostics. Model the vectors over the blocks of C11; sums over cells since a date by induction on periods; telescoping of increments; witnesses without groupby.
  Status: partial. _partial: Latest, Year and Quarter Incremental with groupby for cumulative triangles on regular grids of three or more ages whose second origin has a cell before the date (without one C67_two_origins_false). Without groupby the sums are of cumulative amounts: C67_latest_false and C67_year_false hold for every such triangle. C67_run_off_false: the quarterly run-off starts with past quarters; the annual one is only an example. The columns are modelled one by one, not their assembly by concat (C20), and month is stated in the model only.
  Refuted: `C67_latest_false`, `C67_year_false`, `C67_two_origins_false`, `C67_run_off_false`.
* **C68** Sigma and standard error of the development factors. Reduce mse_ and std_err_ of the regression to sums over the origins in use; the weights w/x**e turn residuals into deviations of link ratios; interpolation rules from C29 and C42.
  Status: partial. _partial: no drop options, n_periods -1; Mack's rule for the first missing age after two positive sigmas (others C68_gap_false), log-linear rule for two or more positive sigmas that do not give a flat line; a zero sigma is lost with the log-linear rule (C68_zero_false); the fill of std_err_ uses the first origin (C68_single_false). C68_age is for any 0/1 weights.
  Refuted: `C68_gap_false`, `C68_zero_false`, `C68_single_false`.
* **C69** Sigma and standard error of the tail. Express the regressions with weight one as sums over the known ages; least squares by C29; tail product and age-to-ultimate factor by C37.
  Status: partial. Proved: for patterns whose factors are all above one, with trends that are not flat, the tail entries of sigma_ and std_err_ are the exponential of the least-squares line of the logarithms at the age where the least-squares line of the log factors less one meets the log tail less one; zero for a tail of one; also for Development followed by TailConstant. False: with a factor up to one among others the line is not the least-squares line (C69_mixed_false); NaN without a factor above one, with two ages, or with equal sigmas. Not covered: tail_ as a data frame; statistics of patterns with several rows (one row per origin).
  Refuted: `C69_no_factor_false`, `C69_two_ages_false`, `C69_flat_false`, `C69_mixed_false`.
* **C70** MackChainladder gives Mack's standard errors. Compose C56 (factors), C68 (sigma and standard errors), C69 (tail of one), C58 (full triangle) and C38 (recursions); closed form of the recursion.
  Status: partial. The fit is proved for one index and column (with more the code raises, C38_many_false) when no projected ultimate equals the latest amount (C58_factor_one_false) and the link ratios of ages with two of them differ. C70_no_trend_false: without a trend of the factors above one or of the standard errors the parameter risk of every origin is zero; C70_total_partial holds without trends.
  Refuted: `C70_no_trend_false`.
* **C71** Standardised residuals of Development. Cells of the residual triangle from the run of the model (resid_run); weights are zero or one (C68); centring is the normal equation of the average, the sum of squares the definition of sigma.
  Status: partial. Partial: dense backend, positive amounts on a regular grid with at least three ages and one sigma positive; C71_zero_false: a link ratio to a zero amount is not in the fit but has a residual.
  Refuted: `C71_zero_false`.
* **C72** Scale and normalised residuals of ClarkLDF. Cells of incremental_fits_ (C45) and of cum_to_incr give the cells of the quotient; the two sums and the mask of the degrees of freedom follow; squares by splitting off the increments of zero.
  Status: partial. Partial: regular grids with positive latest amounts and positive parameters, dense backend; the optimiser that finds the parameters is not modelled, so they are arbitrary; the sum of squares needs non-zero first increments and a positive statistic. False of increments of zero (C72_zero_false).
  Refuted: `C72_zero_false`.
* **C73** Hat matrix adjustment of BootstrapODPSample. The design matrix has full rank once its first column is dropped (a fit of zero everywhere has zero coefficients), so the normal matrix is invertible; the matrix sends an amount to its weighted two-way fit, whose values are unique; leverage one exactly where removing the cell disconnects origins and ages; recorded and expected increments balance along both, so they agree at such cells.
  Status: partial. Partial: regular grids, positive expected increments, dense backend, one index and one column; exact real arithmetic in place of floating point (in floats 1 - h may be a rounding error rather than zero at cells of leverage one). The pool and C73_memory_partial need volume averages, all data in use and increasing amounts. False of cells of leverage one: hat_ is uninitialised memory there (C73_memory_false).
  Refuted: `C73_memory_false`.
* **C74** Process variance of bootstrap samples. Increments of the full triangle and of the triangle differ by zero at known cells, so nothing is drawn there; sub_blocks and add_blocks give the cells, and the sums telescope to the recorded amounts and the drawn increments.
  Status: partial. Partial: cumulative triangles on a regular grid with at least two link ratio origins, one positive scale (one column sampled), dense backend; the gamma draws are an arbitrary function of the cell and the shape. False of the seed 0 (C74_zero_false), of generators in place of seeds (C74_generator_false) and of several columns (C74_columns_false).
  Refuted: `C74_zero_false`, `C74_columns_false`, `C74_ages_false`, `C74_generator_false`.
* **C75** Mack standard errors of a predicted triangle. The recursions are run once for any amounts that grow by given factors (RiskParts), then for the new triangle, whose pattern and statistics are those of the fit; predicting adds a row of zeros and leaves the amounts as they are.
  Status: partial. Partial: no statistics of its own, as many origins and ages as the fitted triangle, one index and column, a tail of one, and the hypotheses of MackReady for the fit. False for another number of origins and for triangles that carry the statistics of Development.
  Refuted: `C75_origins_false`, `C75_transformed_false`.
* **C76** Munich chain ladder of a transformed triangle. The coefficients after the transformation are the factors and sigmas of the new triangle with the ratios, deviations and correlation of the fit (newCoef); the recursion keeps known amounts as in C46 and its quotients telescope (last_amount).
  Status: partial. Partial: the fit is that of C46 (square triangle, positive pairs); the new triangle is a regular grid with as many indices and at most as many ages, whose paired amounts are numbers other than zero; factors and sigmas are numbers. False for triangles with a column in no pair, with zeros filled in the fit, and with two or more ages more than the fit.
  Refuted: `C76_columns_false`, `C76_ages_false`, `C76_gaps_false`.
* **C77** Assignment to a block of cells. Normalising a key twice is normalising it once (normalize_again_pos/neg); with at most one list the selection has the four axes of the array (slots_four), and a cell is written when it is in every slot (writeSlots_num, setItem_block).
  Status: partial. Partial: slices for which the rewriting of C13 is harmless, at most one list; loc for one row, a number and labels on one axis; labels are given as such, partial date strings and boolean keys are not modelled. False for two lists, for loc with several rows and for loc with a triangle as the value. at holds in general.
  Refuted: `C77_pairs_false`, `C77_lengths_false`, `C77_loc_rows_false`, `C77_loc_triangle_false`.
* **C78** Arithmetic with an aggregate over index labels. The rows of the groups, one group after the other, are a permutation of all rows (groups_perm); a product with one row is cell by cell whatever the labels (validate_row, mul_row); each position of the concatenation lies in one group (flatMap_at, concat_core), and sorting permutes the rows.
  Status: partial. Products and quotients with a triangle of fewer index labels, same other axes, no row of y without rows of x (there the code puts NaN into index labels; not modelled). C78_order_false: the index is sorted; C78_missing_false: rows of a group that y does not have become zero or infinite, not NaN.
  Refuted: `C78_order_false`, `C78_missing_false`.
* **C79** Arithmetic between triangles with the same rows in another order. Sorting permutes the rows (sortIndex_spec), the positions of the sorted keys in the other index are distinct (idxOf_nodup), so that both sides of the operator have the same key at each place (arr_equal).
  Status: partial. Same columns, origins and developments on both sides; the same index labels in the same order; more than one row, all distinct. The operators pow and the sparse backend are not covered.
  Refuted: `C79_order_false`, `C79_labels_false`.
* **C80** Sums and differences of triangles with different rows. The key of a full row determines the row (keyOf_inj), so that each group is one row of both triangles or zeros under its key (slice_ok); slicing keeps the valuation date (ilocAx_reached), hence all masks agree and masking twice changes nothing (mask_twice).
  Status: partial. Same columns, origins, developments and valuation date on both sides, with a cell valued at or after that date; the same index labels in the same order; at least two distinct rows on each side. Products and quotients with different rows are not covered.
* **C81** Renaming columns and index. The position of a new name is the position of the old one (pos_unique), and tri[[name]] reads the array at that position (getCols_one).
  Status: partial. The setter of origin, which goes through pandas periods, is not modelled; new development labels are integers.
  Refuted: `C81_setter_false`, `C81_development_false`.
* **C82** head, tail and append. The slices normalise to a range of positions for every n (selS_upto_min, selS_from_neg_min); iloc reads those rows (ilocAx_of_sel); concat_core puts the two parts together.
  Status: partial. tail(0) and head(-n) beyond the number of rows are false of the code (C82_tail_false, C82_head_negative_false); C82_tail_partial and C82_head_negative_partial cover the other numbers.
  Refuted: `C82_tail_false`, `C82_head_negative_false`.
* **C83** minimum and maximum. The operation is cell by cell (ufunc_scalar, ufunc_same) and keeps an ordinary triangle ordinary (regular_cells), so that the sums and differences of C09 apply.
  Status: partial. Two triangles: amounts not negative on common axes (minimum), the same missing cells (maximum). Zero amounts under maximum and other labels are false of the code.
  Refuted: `C83_limit_false`, `C83_maximum_false`, `C83_shape_false`, `C83_order_false`.
* **C84** Exponential, logarithm, square root and powers. Cell by cell, with the laws of the real logarithm, exponential and square root; the sum of logarithms is C09.
  Status: partial. Product: the same cells missing. exp of zero amounts and powers of future cells are false of the code.
  Refuted: `C84_log_mul_false`, `C84_pow_false`, `C84_exp_false`.
* **C85** Development with fillna. The filled array is a sum with a scalar, cleaned up (C85_filled); the factor is factor_eq over the origins known at the next age.
  Status: partial. fillna adds its value to every known amount; factors without the drop options that look at link ratios.
  Refuted: `C85_fill_false`.

## Further findings

Found while reading the code; those above with a `_false` theorem are not repeated.

* `VirtualColumns.__getitem__` renames the columns of the triangle its callable returns;
  `__setitem__` appends to `vdims` before concatenating.
* `__getitem__` with a column named like an index label returns the index labels.
* `rename` changes the labels of `self`.
* `Triangle.is_full` sums in float16.
* An additive pattern with `is_additive` False is not accumulated.
* `==` broadcasts and ignores labels; `<=` is `<`; `obj_arr` uses `self.shape[1]`.
* `groupby(axis='columns')` takes the wrong branch; `groupby(axis=3)` labels the result 0..n-1.
* `shift` on valuation triangles stores string labels; `dropna` raises when every origin total is zero.
* The constructor passes unsorted coordinates with `sorted=True` to `sparse.COO`.
* Tails: `sigma_.ddims` has as many labels as there are origins.
* `to_json` rounds to 10 decimals; fiscal origins shift.
* Clark: an invalid `growth` raises UnboundLocalError; `_G` writes into its age argument; labels are wrong
  when origins and ages differ in number.
* Parallelogram: the "M" approximation ignores changes within a month; quarterly and semi-annual grains
  raise; the daily table is wrong after a leap year; fiscal-year origins do not match.
* Munich: `transform` takes q_f and rho from the data of `fit`; `w[w==0]=nan` writes into `residual_`;
  both coefficients use the weights of the incurred residuals.
* Sparse: `cumsum` of additive patterns uses a function COO does not have; `nan_to_num` leaves infinities;
  `num_to_value` ignores its `value`.
* `BerquistSherman.set_params` raises KeyError when no `reported_count_estimator` was given.
* `IncrementalAdditive` and `Development`: the grain table of `_assign_n_periods_weight_func` lacks
  quarterly or monthly origins with half-year developments.
* `DevelopmentML`: grain 'S' is mapped to 6 periods per year instead of 2.
* `BootstrapODPSample`: the fallback for a singular hat matrix sets `had_adj`; `w_[:, 1:] * w_[:, 1:]` has no
  effect; `deg_free_adj_fctr` is computed and not used; `kdims` of the samples is one-dimensional; an exactly
  proportional triangle raises (C61); residuals of zero increments are left out.
* `TailBondy`: an `attachment_age` without an `earliest_age` compares a number with None and raises TypeError;
  the variable `tail` is not used.
* `TailBondy`: values and labels of `ldf_` differ in number unless one period is added (quarterly ages, or a
  projection of 24 months) (C62); `earliest_ldf_` is fitted and not used in `ldf_`; attached at the last age, the
  factor there stays one.
* `TailClark`: an attachment age after the last age doubles the columns through `-0:` (C63); the ages are moved
  back by half a period, the truncation age is not; the default attachment replaces the last fitted factor.
* `Trend`: the factor of a zero amount is 0/0, so an origin whose latest amount is zero has no a-priori and no
  ultimate in Cape Cod (C64); `dates` whose first entry is not a pair raise AttributeError.
* `CaseOutstanding` (C65): with two origins the single future reserve is broadcast over the whole triangle, known
  incurred amounts change; if the latest reserves of all origins add up to zero there are no future payments
  (`ld` is latest / latest of the sum); an origin without payments in an age is left out of the average of that
  age; with two ages `fit` raises AttributeError, `mean` of a single ratio being a number.
* `_drop_func`: labels of `drop` that are not in the triangle are skipped separately on the two axes, so the
  remaining labels are paired wrongly and cells that are not listed are excluded. `_drop_valuation_func` takes
  its mask from the first index and column, and raises for a single column of link ratios.
* `sort_axis` of the development axis of a pattern compares the labels as strings: `'108-120'` comes before
  `'96-108'`, so `concat(..., axis='development', sort=True)` of patterns disorders the ages (C66).
* `model_diagnostics` without `groupby` keeps the triangle cumulative: `Latest` adds the amounts of all ages (always
  too large for positive amounts) and `Year Incremental` of annual triangles is the whole latest amount. With
  `groupby` both are right, unless only one origin has a cell before the year: that one cell is then subtracted from
  every origin. The quarterly run-off begins with past quarters, `'2020Q1' > '2020-09-30 ...'` being a comparison of
  strings (C67).
* `Development.fit` (C68): with the log-linear rule a sigma of zero (all link ratios the same) becomes missing instead
  of staying zero; with Mack's rule and more than one development period per origin period only the first missing
  sigma is filled, the others stay missing with standard error 0; if the only link ratio in use is not of the first
  origin, its standard error is computed with the amount of the first origin.
* Tail statistics (C69): `WeightedRegression` gives weight one also to ages whose factor is not above one, so their ages
  enter the regression while their values do not.  With factors 2, 3/2, 1, sigmas 4, 2, 1 and a tail of 5/4 the tail is
  put at age -1 and gets sigma 16 instead of age 3 and sigma 1 (`C69_mixed_false`).  If no factor is above one
  (`C69_no_factor_false`), if there are only two ages (`C69_two_ages_false`), or if all ages have the same sigma
  (`C69_flat_false`), the statistics of the tail are NaN.
* Mack (C70): with the tail of one that the methods add, the standard error of the tail should be zero.  If there is no
  trend of the factors above one (for example, no factor above one) it is NaN, the last step of the recursion turns the
  parameter risk of every origin into zero, and `mack_std_err_` at ultimate is the process risk alone
  (`C70_no_trend_false`); `total_parameter_risk_` is right (`C70_total_partial`).
* Standardised residuals (C71): a link ratio from a positive amount to a zero is not in the fit, but has a residual, with
  the weight one in place of the weight of its average (`C71_zero_false`); it then also breaks the sum of the squares.
* Residuals of `ClarkLDF` (C72): `cum_to_incr` turns an increment of zero into NaN; it counts in `scale_` and in the degrees of
  freedom (arithmetic fills NaN with zero) but has no residual, so the squares do not add up (`C72_zero_false`,
  `C72_squares_partial`).
* Hat matrix of `BootstrapODPSample` (C73): `np.divide(..., where=(1 - hat) != 0)` without `out` leaves whatever is in memory at
  cells of leverage one, and every triangle has such a cell (the first origin at the last age), so `hat_` is not a function of
  the triangle (`C73_memory_false`).  With volume averages and all data the recorded and the expected increment agree at
  those cells, their residual is zero and is dropped, and the samples do not depend on it (`C73_memory_partial`).
* Process variance of `BootstrapODPSample` (C74): `None if not self.random_state` treats the seed 0 as no seed, so the samples
  are reproducible and the ultimates are not (`C74_zero_false`); a `RandomState` in place of a seed raises `TypeError`
  (`C74_generator_false`); with several columns `scale_` has one number per column and is divided along the ages, so that a
  method fitted to the samples raises `ValueError` (`C74_columns_false`), or, with as many columns as ages,
  takes the scale of the column for that of the age (`C74_ages_false`).
* `MackChainladder.predict` (C75): a new triangle with another number of origins raises `ValueError`, because `w_` of the fit
  has a row for each fitted origin (`C75_origins_false`); a new triangle that went through `Development`, as in
  `Pipeline.predict`, raises `ValueError`, because its own `std_err_` without a tail column is preferred to that of the fit
  (`C75_transformed_false`).
* `MunichAdjustment` (C46, C76): when a paired column comes after a column in no pair, `fit` raises `KeyError`, because `_reshape`
  looks up the columns from 0 on (`C46_columns_false`); with a column in no pair that comes last, `fit` succeeds but every
  `transform` raises `ValueError` in `lambda_` (`C76_columns_false`); `transform` does not apply `fillna`, so zeros that the fit
  filled stay zero or become missing (`C76_gaps_false`); a triangle with two more ages than the fit raises (`C76_ages_false`).
* `VotingChainladder.predict` (C39): weights given by origin (dict or callable) are kept as an array by position, so an origin of a
  new triangle gets the weights of another year (`C39_dict_false`); a triangle with another number of origins raises `ValueError`
  (`C39_origins_false`).
* Assignment (C77): `tri.iloc[:, [..], [..]] = v` with two lists pairs their entries or raises `IndexError`, although reading the
  same key gives the whole block (`C77_pairs_false`, `C77_lengths_false`); `tri.loc` turns `:` on the index into a list, so
  `tri.loc[:, [a, b]] = x` on two rows sets column `a` of the first row and `b` of the second only (`C77_loc_rows_false`), and
  `tri.loc[..., ages] = triangle` raises `ValueError` for a value of the right shape (`C77_loc_triangle_false`).
* Arithmetic with an aggregate (C78): the result of `x * y` with a `y` that has fewer index labels is sorted by index, whereas with a
  single-row `y` the rows stay in place (`C78_order_false`); rows of `x` whose group `y` does not have become zero, or infinite in a
  quotient, although `_slice_or_nan` promises NaN (`C78_missing_false`).
* Arithmetic between triangles with the same rows in different orders (C79) keeps neither order; the result is sorted
  (`C79_order_false`).  When the index labels of the two triangles are the same but in another order and the lists of keys coincide,
  rows with different keys are combined (`C79_labels_false`): `_prep_index` compares the labels as sets and the keys without the labels.
* `tri.columns = 'Paid'` (C81) is accepted for a triangle with four columns, because the length of the string is compared with the number of
  columns, and leaves one label for four columns; for one column it raises (`C81_setter_false`).  Assigning the development labels
  of a valuation triangle, even its own, turns it into a triangle of ages (`C81_development_false`).
* `tri.tail(0)` (C82) is `iloc[-0:]` and returns every row instead of none (`C82_tail_false`); so does
  `tri.head(-n)` with n beyond the number of rows (`C82_head_negative_false`).
* `tri.maximum(floor)` (C83) leaves an amount of zero, which is stored as missing, below the floor (`C83_maximum_false`),
  and `tri.minimum(cap)` above a negative limit (`C83_limit_false`).
  `tri.minimum(other)` combines the arrays by position: rows in another order are not matched (`C83_order_false`), and more rows
  in the other triangle leave more rows than labels (`C83_shape_false`).
* `tri.exp()` (C84) of an amount of zero, which is stored as missing, is missing instead of one (`C84_exp_false`); `tri ** n` has a
  number in every cell after the valuation date, one for n = 0 (`C84_pow_false`); `(x * y).log()` is missing where one amount is, `x.log() + y.log()` is not (`C84_log_mul_false`).
* `Development(fillna=v)` (C85) adds `v` to every known amount, where the documentation says that zero or nan values are filled
  (`C85_fill_false`); the volume-weighted factors of a triangle in which nothing is missing change (`C85_fit`, `C85_pull`).

## Mutation tests

`seeded/LOG.jsonl` has 736 edits of model definitions, one line per attempt, with the theorems that stopped proving; 13 of them led to a tightened theorem.  An edit that survived has `survived` true and, where the claim was affected, a later line with the repeated attempt; one that does not compile has `invalid` and says nothing about the theorems.  A theorem counts as failed when its proof no longer checks.  Per model file: ? 2, Additive 39, Agg 4, Arith 12, Berquist 69, Bootstrap 20, Calendar 4, CapeCod 12, CaseOut 36, Clark 11, Concat 5, Constant 5, Construct 14, Convert 6, Correlation 24, Development 19, Elementwise 4, FillDev 9, Filter 5, Full 17, Grain 17, GroupArith 20, Groupby 7, Hat 6, HeadTail 7, Json 19, Mack 30, MackPredict 6, Memory 12, Methods 22, Munich 38, MunichTransform 9, Olf 13, Options 3, Predict 15, ProcessVariance 10, Regression 5, Relabel 8, Reshape 6, Search 13, SetItem 15, Slice 3, Sparse 43, TailFit 20, Tails 20, Trend 8, TrendFit 9, Tri 5, Ufunc 7, ValDev 12, Voting 8, Workflow 3.

## Axioms

From `#print axioms` on every theorem listed in MANIFEST.json, union per file:

* `Classical.choice`, `Quot.sound`, `propext`: C01, C02, C03, C04, C05, C06, C07, C08, C09, C10, C11, C12, C13, C14, C15, C16, C17, C18, C19, C20, C21, C22, C23, C24, C25, C26, C27, C28, C29, C30, C31, C32, C33, C34, C35, C36, C37, C38, C39, C40, C41, C42, C43, C44, C45, C46, C47, C48, C49, C50, C51, C52, C53, C54, C55, C56, C57, C58, C59, C60, C61, C62, C63, C64, C65, C66, C67, C68, C69, C70, C71, C72, C73, C74, C75, C76, C77, C78, C79, C80, C81, C82, C83, C84, C85
