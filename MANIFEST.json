{
 "claims": [
  {
   "property": "C01",
   "status": "partial",
   "theorems": [
    "CL.Tri.C01_cum_incr_cum",
    "CL.Tri.C01_incr_cum_incr_partial",
    "CL.Tri.C01_incr_cum_incr_false",
    "CL.Tri.C01_single_development_false"
   ],
   "note": "Cumulative first: every ordinary triangle with at least two developments. Incremental first: at least three developments or a single origin; false with exactly two developments (witness), and cum_to_incr raises with a single development (witness)."
  },
  {
   "property": "C02",
   "status": "partial",
   "theorems": [
    "CL.Tri.C02_running_total_partial",
    "CL.Tri.C02_observed",
    "CL.Tri.C02_idempotent",
    "CL.Tri.C02_twice",
    "CL.Tri.C02_single_origin_false"
   ],
   "note": "Full for at least two origins and developments; observed cells for any shape. With a single origin later cells are filled (witness)."
  },
  {
   "property": "C03",
   "status": "partial",
   "theorems": [
    "CL.Tri.C03_cum_to_incr_partial",
    "CL.Tri.C03_add",
    "CL.Tri.C03_sub",
    "CL.Tri.C03_add_any",
    "CL.Tri.C03_sub_any",
    "CL.Tri.C03_two_developments_false",
    "CL.Tri.C03_single_origin_false"
   ],
   "note": "cum_to_incr for at least two origins and three developments; false with two developments or one origin (witnesses). Addition and subtraction for all operands on common axes, and for any operands when the result has two origins and developments."
  },
  {
   "property": "C04",
   "status": "proved",
   "theorems": [
    "CL.Tri.C04_cdf",
    "CL.Tri.C04_recursion",
    "CL.Tri.C04_round_trip"
   ],
   "note": "All cumulative patterns with nonzero factors."
  },
  {
   "property": "C05",
   "status": "partial",
   "theorems": [
    "CL.Tri.C05_latest_diagonal_partial",
    "CL.Tri.C05_single_development",
    "CL.Tri.C05_regular",
    "CL.Tri.C05_dropped_origin_false"
   ],
   "note": "Triangles with two or more developments, whenever latest_diagonal returns; it returns on every regular triangle. The single-development case is proved separately. Origins with no cell at the valuation date are dropped (witness)."
  },
  {
   "property": "C06",
   "status": "partial",
   "theorems": [
    "CL.Tri.C06_link_ratio_partial",
    "CL.Tri.C06_ages",
    "CL.Tri.C06_next_amount",
    "CL.Tri.C06_succeeds",
    "CL.Tri.C06_zero_false"
   ],
   "note": "Every ordinary triangle with no stored zero and at least two developments. A stored zero makes the ratio infinite (witness)."
  },
  {
   "property": "C07",
   "status": "partial",
   "theorems": [
    "CL.C07_dev_to_val_partial",
    "CL.C07_round_trip_partial",
    "CL.C07_first_false",
    "CL.C07_diagonal"
   ],
   "note": "Proved for triangles on a regular grid (any number of origins and ages, any origin and development grain of the table, first origin fully aged, nothing after the valuation date) with at least one amount after the first origin: dev_to_val puts every amount at its origin and valuation and val_to_dev gives everything back. False when all amounts are in the first origin: the special case of _val_dev shifts them by (n-1) origins (C07_first_false). Not covered: full triangles and ultimate columns, gaps in the axes, first origin not fully aged."
  },
  {
   "property": "C08",
   "status": "partial",
   "theorems": [
    "CL.C08_grain_partial",
    "CL.C08_sound",
    "CL.C08_total",
    "CL.C08_latest",
    "CL.C08_quarters_false",
    "CL.C08_ages_false",
    "CL.C08_few_false",
    "CL.C08_halfyears_false"
   ],
   "note": "Proved for triangles by age on a regular grid, any pair of grains and any number of origins and ages: every cell of the coarser triangle is the total of the amounts of its block (same valuation if cumulative, valued in its development period if incremental), nothing after the valuation date, labels, grains and flags as expected (C08_grain_partial), incremental totals and the cumulative latest diagonal are kept (C08_total, C08_latest), and a string is accepted only if neither grain is finer than the old one and the origins are not finer than the developments (C08_sound, every string). When the origin grain changes the development grain must be months (and the axis must have as many columns as are put before the first origin), or quarters with nothing to put before. False in the other cases: quarters over a year end are taken for months (C08_quarters_false), quarterly developments with a first origin not in the first quarter get ages 1, 4, 7 (C08_ages_false), half-yearly developments raise (C08_halfyears_false), with fewer ages than months before the first origin the amounts move to earlier ages (C08_few_false). Not covered: trailing=True, closes other than December, valuation triangles as input."
  },
  {
   "property": "C09",
   "status": "proved",
   "theorems": [
    "CL.Tri.C09_add",
    "CL.Tri.C09_sub",
    "CL.Tri.C09_comm",
    "CL.Tri.C09_assoc",
    "CL.Tri.C09_sub_self",
    "CL.Tri.C09_add_sub",
    "CL.Tri.C09_sum"
   ],
   "note": "Operands on common axes; sums over any nonempty list."
  },
  {
   "property": "C10",
   "status": "partial",
   "theorems": [
    "CL.Tri.C10_eq",
    "CL.Tri.C10_equivalence_partial",
    "CL.Tri.C10_not_transitive_false",
    "CL.Tri.C10_lt",
    "CL.Tri.C10_le_partial",
    "CL.Tri.C10_le_false"
   ],
   "note": "Equality is the exact cell comparison; it is not transitive because shapes broadcast and labels are ignored (witness); <= is false against its own order laws (witness)."
  },
  {
   "property": "C11",
   "status": "partial",
   "theorems": [
    "CL.Tri.C11_add_partial",
    "CL.Tri.C11_sub_partial",
    "CL.Tri.C11_overlap_false",
    "CL.Tri.C11_gap_false"
   ],
   "note": "Sums and differences, for operands with neighbouring or overlapping date ranges that leave no gap in each other. False for a development axis with a gap, where amounts are summed under the wrong label, and an operand filling a gap raises (witnesses)."
  },
  {
   "property": "C12",
   "status": "partial",
   "theorems": [
    "CL.Tri.C12_add_partial",
    "CL.Tri.C12_subset_false"
   ],
   "note": "Proved when the right operand has a column the left one lacks. When the columns of the right operand are among those of the left and differ, the sum raises UnboundLocalError (proved in general)."
  },
  {
   "property": "C13",
   "status": "partial",
   "theorems": [
    "CL.Tri.C13_iloc_partial",
    "CL.Tri.C13_out_of_range",
    "CL.Tri.C13_step_dropped_false",
    "CL.Tri.C13_far_negative_stop_false",
    "CL.Tri.C13_reverse_from_zero_false",
    "CL.Tri.C13_tri_false"
   ],
   "note": "Integers, unit-step slices and reversed slices in range. False for steps >= 2 without bounds, stops beyond the axis, and reversed slices from position 0 (witnesses)."
  },
  {
   "property": "C14",
   "status": "partial",
   "theorems": [
    "CL.Tri.C14_list_partial",
    "CL.Tri.C14_uneven_rejected",
    "CL.Tri.C14_repeated_false",
    "CL.Tri.C14_mask_origin",
    "CL.Tri.C14_mask_development",
    "CL.Tri.C14_empty_mask"
   ],
   "note": "Lists of positions on every axis and masks on origin and development. A list repeating one position raises instead (proved for every triangle); unevenly spaced lists on origin and development are refused."
  },
  {
   "property": "C15",
   "status": "partial",
   "theorems": [
    "CL.Tri.C15_filter_partial",
    "CL.Tri.C15_succeeds",
    "CL.Tri.C15_raises",
    "CL.Tri.C15_single_development_false"
   ],
   "note": "Filters on two or more developments; success and failure characterised. With a single development column the mask is read as an origin mask and valuation dates are not lowered (witness)."
  },
  {
   "property": "C16",
   "status": "partial",
   "theorems": [
    "CL.C16_cell_partial",
    "CL.C16_covered_partial",
    "CL.C16_total_partial",
    "CL.C16_proper_partial",
    "CL.C16_ok",
    "CL.C16_order",
    "CL.C16_grid_partial",
    "CL.C16_standard_partial",
    "CL.C16_fiscal_false"
   ],
   "note": "Proved for annual, quarterly and monthly data whose origin periods close with calendar periods. Refuted for fiscal origin periods: the constructor replaces their labels by calendar periods (C16_fiscal_false). Not covered: semi-annual grains, missing development, records valued at the ultimate date, date parsing."
  },
  {
   "property": "C17",
   "status": "proved",
   "theorems": [
    "CL.Cal.C17_lag_rounded",
    "CL.Cal.C17_lag"
   ],
   "note": "Proved for dates up to 12000 months apart (the representable range of pandas dates is 585 years), and robust to floating point error of up to a hundredth of a day in the average month length."
  },
  {
   "property": "C18",
   "status": "partial",
   "theorems": [
    "CL.C18_partial",
    "CL.C18_sum_false",
    "CL.C18_add_false",
    "CL.C18_grain_false"
   ],
   "note": "Proved by induction over any sequence of the modelled operations (slicing, masks, valuation filters, column selection, arithmetic between triangles and with numbers, comparisons, accumulation, link ratios, development and valuation axes, development grain, sums, latest diagonal, groupings on every axis, concatenation, shift, fillna, dropna), operands of binary operations being themselves results of such sequences. False for a sum over an axis without labels (C18_sum_false), arithmetic of one label with none (C18_add_false), and a change of the origin grain when there are fewer valuations than columns to put in front (C18_grain_false); these are excluded from the theorem. Not covered: estimators, assignment of columns, trend, string accessors."
  },
  {
   "property": "C19",
   "status": "proved",
   "theorems": [
    "CL.Tri.C19_sum",
    "CL.Tri.C19_sum_result",
    "CL.Tri.C19_groupby_index",
    "CL.Tri.C19_groupby_columns",
    "CL.Tri.C19_groupby_origin",
    "CL.Tri.C19_groupby_development",
    "CL.Tri.C19_total"
   ],
   "note": "Sum over each axis, groupby sum over each axis and the total of the groups, for triangles without infinite amounts. groupby on development is by position of the period in the axis."
  },
  {
   "property": "C20",
   "status": "partial",
   "theorems": [
    "CL.Tri.C20_rejects",
    "CL.Tri.C20_concat_partial",
    "CL.Tri.C20_split",
    "CL.Tri.C20_column_order_false"
   ],
   "note": "Split and concatenation on every axis; rejection of repeated labels and different axes; amounts kept under their labels when the columns are in the same order. False for columns in different orders (witness)."
  },
  {
   "property": "C21",
   "status": "partial",
   "theorems": [
    "CL.C21_json_partial",
    "CL.C21_rounding_partial",
    "CL.C21_same_partial",
    "CL.C21_decimals_partial",
    "CL.C21_unset_false",
    "CL.C21_precision_false",
    "CL.C21_two_false",
    "CL.C21_first_false",
    "CL.C21_fiscal_false"
   ],
   "note": "Proved for development triangles on a regular grid of calendar periods (no semi-annual grain, no patterns) with enough recorded amounts to find the axes (Savable; Savable.of_recorded gives a simple sufficient condition): C21_json_partial (all amounts by label, labels, flags, when increments survive writing), C21_rounding_partial and C21_decimals_partial (error at most D times the writing error), C21_same_partial (cell by cell). False of the code: C21_unset_false (is_cumulative None), C21_precision_false, C21_two_false (2x2 cumulative raises), C21_first_false (data only in first origin raises), C21_fiscal_false. Missing: valuation triangles, patterns, fitted attributes (sub_tris, dfs), numeric or date-like labels."
  },
  {
   "property": "C22",
   "status": "proved",
   "theorems": [
    "CL.Tri.C22_trend",
    "CL.Tri.C22_ultimate_lag",
    "CL.Tri.C22_zero",
    "CL.Tri.C22_compose",
    "CL.Tri.C22_inverse",
    "CL.Tri.C22_rejects"
   ],
   "note": "Trending multiplies each cell by (1+rate)^(years between its date and the valuation date), with start/end clipping; zero rate is the identity, trends compose and invert; the power (1+rate)^(months/12) is a parameter that takes sums of months to products."
  },
  {
   "property": "C23",
   "status": "partial",
   "theorems": [
    "CL.Tri.C23_forward_partial",
    "CL.Tri.C23_backward_partial",
    "CL.Tri.C23_zero",
    "CL.Tri.C23_axes"
   ],
   "note": "Proved for the origin axis of every triangle and for the development axis of triangles by age. The development labels of valuation triangles and patterns are strings and not modelled."
  },
  {
   "property": "C24",
   "status": "partial",
   "theorems": [
    "CL.Tri.C24_fillna_partial",
    "CL.Tri.C24_fillna_false",
    "CL.Tri.C24_dropna",
    "CL.Tri.C24_dropna_empty"
   ],
   "note": "fillna proved for triangles with at least two origins and two developments and false for one origin (witness); dropna proved for triangles with increasing labels, including the error when nothing is left."
  },
  {
   "property": "C25",
   "status": "partial",
   "theorems": [
    "CL.C25_store",
    "CL.C25_dense",
    "CL.C25_zeros",
    "CL.C25_run_partial",
    "CL.C25_assign_partial",
    "CL.C25_pattern_false",
    "CL.C25_power_false",
    "CL.C25_infinity_false",
    "CL.C25_missing_false",
    "CL.C25_empty_false"
   ],
   "note": "C25_store, C25_dense: conversion both ways for every array; C25_zeros: nan_to_num and num_to_nan; C25_run_partial: any sequence of + - * / neg, positive powers, cumulation and sums gives the same error or the same value at every cell with both backends (infinities and other methods left out); C25_assign_partial: assignment of a number. False of the code: C25_pattern_false (missing factor in a pattern), C25_power_false (power 0 then sum), C25_infinity_false, C25_missing_false (assigning NaN makes sums NaN), C25_empty_false (assignment to an array without stored cells raises)."
  },
  {
   "property": "C26",
   "status": "partial",
   "theorems": [
    "CL.Mem.C26_incrToCum",
    "CL.Mem.C26_fillna",
    "CL.Mem.C26_cumToIncr_false",
    "CL.Mem.C26_grain_false",
    "CL.Mem.C26_cumToIncr_partial"
   ],
   "note": "incr_to_cum and fillna update the object in place and agree with the copying variant; cum_to_incr and grain with inplace=True only rebind the local name, so the object is unchanged (C26_cumToIncr_false, C26_grain_false)"
  },
  {
   "property": "C27",
   "status": "partial",
   "theorems": [
    "CL.Mem.C27_values",
    "CL.Mem.C27_partial",
    "CL.Mem.C27_shared",
    "CL.Mem.C27_false"
   ],
   "note": "labels and values of a triangle never change by operations on its copies; everything it returns is unchanged when it has no virtual columns; false with virtual columns, whose dictionary is shared by copies (C27_false, C27_shared)"
  },
  {
   "property": "C28",
   "status": "proved",
   "theorems": [
    "CL.Dev.C28_average",
    "CL.Dev.C28_fit"
   ],
   "note": "The fitted factor equals the documented average of the included link ratios, for every set of 0/1 weights and for the whole fit when nothing is excluded."
  },
  {
   "property": "C29",
   "status": "partial",
   "theorems": [
    "CL.Reg.C29_factor",
    "CL.Reg.C29_line_partial",
    "CL.Reg.C29_line_false",
    "CL.Reg.C29_flat_false"
   ],
   "note": "Through the origin the fitted factor minimises the weighted squared error for all nonnegative weights. Lines: proved for 0/1 weights when a line is produced; false for unequal weights and for flat data (witnesses)."
  },
  {
   "property": "C30",
   "status": "proved",
   "theorems": [
    "CL.Dev.C30_bounds",
    "CL.Dev.C30_scale",
    "CL.Dev.C30_fit_scale",
    "CL.Dev.C30_fit_bounds"
   ],
   "note": "Bounds for every fit (all parameters) and scale invariance, per age for all weights and for the fit without exclusions."
  },
  {
   "property": "C31",
   "status": "partial",
   "theorems": [
    "CL.Dev.C31_fit_partial",
    "CL.Dev.C31_columns_false",
    "CL.Dev.C31_zero_false"
   ],
   "note": "C31_fit_partial: for ages with no more available link ratios than the triangle has link ratio columns (or than n_periods), the factor is the average over what remains without the l smallest and h largest (Trimmed). False otherwise: C31_columns_false (count capped by the number of columns) and C31_zero_false (n_periods=0 with drop_high/drop_low gives a missing factor)."
  },
  {
   "property": "C32",
   "status": "partial",
   "theorems": [
    "CL.Dev.C32_weights_partial",
    "CL.Dev.C32_all",
    "CL.Dev.C32_fit_partial",
    "CL.Dev.C32_shape_false",
    "CL.Dev.C32_half_year_false",
    "CL.Dev.C32_latest",
    "CL.Dev.C32_grid"
   ],
   "note": "C32_weights_partial/C32_fit_partial: on triangles whose known diagonals are evenly spaced (Diagonals) n_periods=n averages the latest n diagonals. C32_latest/C32_grid: on a regular grid with at least three origins that reaches the current origin period, fit averages exactly the n latest link ratios of each age. Missing: triangles with fewer ages than origins raise ValueError (C32_shape_false) and half-year origins raise KeyError (C32_half_year_false)."
  },
  {
   "property": "C33",
   "status": "partial",
   "theorems": [
    "CL.Tri.C33_ultimate_partial",
    "CL.Tri.C33_single_cell",
    "CL.Tri.C33_ibnr",
    "CL.Tri.C33_regular",
    "CL.Tri.C33_fully_developed",
    "CL.Tri.C33_scale",
    "CL.Tri.C33_single_cell_false",
    "CL.Tri.C33_dropped_origin_false"
   ],
   "note": "Model of Chainladder._get_ultimate, _align_cdf and ibnr_ for cumulative development triangles that already carry a pattern; incremental triangles (val_to_dev) are not modelled. False for a single-cell diagonal (AttributeError) and for origins without a cell at the valuation date (dropped); both witnessed."
  },
  {
   "property": "C34",
   "status": "partial",
   "theorems": [
    "CL.Tri.C34_partial",
    "CL.Tri.C34_chainladder_partial",
    "CL.Tri.C34_incremental_partial",
    "CL.Tri.C34_false"
   ],
   "note": "C34_partial: for cumulative triangles on a regular grid with at least two origins before the valuation date, known cells are kept and the last column is the ultimate iff the ultimate is not zero and the age-to-ultimate factor is not one, or the ultimate is the latest amount. C34_chainladder_partial: always for chain ladder. C34_incremental_partial: incremental triangles. C34_false: expected loss method with a factor of exactly one (common.py:33-49 divides by num_to_nan of zero)."
  },
  {
   "property": "C35",
   "status": "partial",
   "theorems": [
    "CL.Tri.C35_benktander_partial",
    "CL.Tri.C35_sorted_partial",
    "CL.Tri.C35_expected_loss_partial",
    "CL.Tri.C35_bornhuetter_ferguson_partial",
    "CL.Tri.C35_distance",
    "CL.Tri.C35_fixed_point_partial",
    "CL.Tri.C35_limit_partial",
    "CL.Tri.C35_no_exposure",
    "CL.Tri.C35_cancel_false",
    "CL.Tri.C35_dropped_origin_false",
    "CL.Tri.C35_single_cell_false"
   ],
   "note": "Benktander, Bornhuetter-Ferguson and expected loss, for cumulative development triangles with apriori_sigma = 0, a multiplicative one-row pattern and an exposure with one development. Proved for triangles in which every origin has a cell at the valuation date, latest + expectation does not cancel, 1 - 1/cdf is not exactly -1e-16 and the diagonal has more than one cell; each exclusion except the third has a counterexample. The result comes with a sorted index. Limit over the reals."
  },
  {
   "property": "C36",
   "status": "partial",
   "theorems": [
    "CL.Tri.C36_apriori_partial",
    "CL.Tri.C36_between",
    "CL.Tri.C36_no_decay",
    "CL.Tri.C36_full_decay",
    "CL.Tri.C36_trend",
    "CL.Tri.C36_fit_partial",
    "CL.Tri.C36_no_exposure",
    "CL.Tri.C36_single_exposure_false"
   ],
   "note": "Cape Cod a-priori is the decay-weighted average of trended loss ratios over used-up exposure; between the smallest and largest ratio, overall ratio without decay, own ratio with full decay. Partial: exposure with one column per origin and complete current data. False for a single exposure cell covering all origins: the decay is ignored and one value is labelled with all origins."
  },
  {
   "property": "C37",
   "status": "partial",
   "theorems": [
    "CL.Tail.C37_late_attachment",
    "CL.Tail.C37_tail_partial",
    "CL.Tail.C37_factors_partial",
    "CL.Tail.C37_chainladder_partial",
    "CL.Tail.C37_first_age_false",
    "CL.Tail.C37_small_tail_false",
    "CL.Tail.C37_long_false"
   ],
   "note": "Partial: attachment age not the first age, at most 1000 factors from the attachment age on, solvable seed quadratic and decay in [0,1]. Negations: C37_first_age_false (attachment index 0 is treated as missing), C37_small_tail_false, C37_long_false. sigma_ and std_err_ of the tail are not modelled."
  },
  {
   "property": "C38",
   "status": "partial",
   "theorems": [
    "CL.Tri.C38_risk_partial",
    "CL.Tri.C38_process_partial",
    "CL.Tri.C38_std_err_partial",
    "CL.Tri.C38_scale_partial",
    "CL.Tri.C38_scale_process_partial",
    "CL.Tri.C38_many_false",
    "CL.Tri.C38_no_extension_false"
   ],
   "note": "Proved for regular cumulative triangles with at least two origins having an earlier cell, a pattern that extends past the last age, any finite standard errors, and any square root function: zero up to the valuation date, Mack's recursion, closed form, std err and totals, scaling. False for more than one index entry or column (the weights cannot be concatenated) and for tails that add no age (last column missing). The regression producing sigma and std_err is an input."
  },
  {
   "property": "C39",
   "status": "partial",
   "theorems": [
    "CL.C39_weighted_partial",
    "CL.C39_average_partial",
    "CL.C39_agree_partial",
    "CL.C39_dict_partial",
    "CL.C39_default_false",
    "CL.C39_drop_false",
    "CL.C39_drop_weights_false",
    "CL.C39_predict_partial",
    "CL.C39_dict_false",
    "CL.C39_origins_false"
   ],
   "note": "Weighted average of member ultimates for any list of members and weights of 2, 3 or 4 axes, dictionary weights, agreement of identical members, and the plain average for the default weights when there are as many origins as ages. False of the code: default weights raise ValueError when origins and ages differ in number; a member set to 'drop' misaligns the weights and is still counted in the divisor. predict on another triangle: C39_predict_partial (same shape, weights by position); false: C39_dict_false (weights of another year), C39_origins_false (another number of origins raises)."
  },
  {
   "property": "C40",
   "status": "partial",
   "theorems": [
    "CL.Search.C40_grid",
    "CL.Search.C40_count",
    "CL.Search.C40_nodup",
    "CL.Search.C40_order",
    "CL.Search.C40_schedule",
    "CL.Search.C40_finishes",
    "CL.Search.C40_rows_partial",
    "CL.Search.C40_rows_false",
    "CL.Search.C40_error_score_false",
    "CL.Search.C40_pipeline_partial",
    "CL.Search.C40_underscore_false",
    "CL.Search.C40_fit_predict_partial",
    "CL.Search.C40_fit_predict_false"
   ],
   "note": "The grid of a search is exactly the cartesian product, without repetition, in sorted-key order with the last key fastest; a finished search gives the same rows for every interleaving of its tasks and finishes under every schedule that runs the tasks to their end; a row holds the scores of the model fitted with exactly its parameters. Pipeline.fit chains the steps and gives each its own keyword arguments and the sample weight. False of the code: a score named like a parameter overwrites it; error_score is ignored; step names ending in an underscore make fit with a sample weight raise KeyError; fit_predict passes the fit arguments unsplit to the last step's predict. scikit-learn's ParameterGrid, clone and Pipeline and joblib's Parallel are assumptions of the model."
  },
  {
   "property": "C41",
   "status": "proved",
   "theorems": [
    "CL.Tri.C41_ldf",
    "CL.Tri.C41_cdf",
    "CL.Tri.C41_development",
    "CL.Tri.C41_missing_age"
   ],
   "note": "Both styles, for any number of ages and whatever amounts the triangle holds; a missing age is a KeyError. Patterns given as a dictionary; the callable form and groupby are not modelled."
  },
  {
   "property": "C42",
   "status": "partial",
   "theorems": [
    "CL.C42_expectation",
    "CL.C42_variance",
    "CL.C42_probability",
    "CL.C42_counts_partial",
    "CL.C42_rejects",
    "CL.C42_total_never_critical",
    "CL.C42_total_false"
   ],
   "note": "z_expectation, z_variance and the p-value are proved exact for every n. The counts of large and small ratios are proved for regular triangles without stored zeros. With total=True z_critical is always false; a witness is given."
  },
  {
   "property": "C43",
   "status": "partial",
   "theorems": [
    "CL.C43_range",
    "CL.C43_one_iff",
    "CL.C43_pearson",
    "CL.C43_value_partial",
    "CL.C43_statistic_partial",
    "CL.C43_variance",
    "CL.C43_verdict",
    "CL.C43_rejects",
    "CL.C43_range_false",
    "CL.C43_pairs_false"
   ],
   "note": "The coefficient of any two lists of numbers lies in [-1,1], is 1 exactly when the orders agree, and is the correlation of the ranks when there are no ties. The code computes it for triangles with as many ages as origins and no missing amount. False when an amount is missing (T_k = -3) and when there are more ages than origins (opposite rankings get 1/5)."
  },
  {
   "property": "C44",
   "status": "partial",
   "theorems": [
    "CL.Berq.C44_adjusted",
    "CL.Berq.C44_latest_partial",
    "CL.Berq.C44_columns",
    "CL.Berq.C44_exponential",
    "CL.Berq.C44_chainladder_partial",
    "CL.Berq.C44_transform",
    "CL.Berq.C44_two_origins",
    "CL.Berq.C44_two_origins_false",
    "CL.Berq.C44_no_open_claims_false"
   ],
   "note": "Square triangles with three or more origins, any index and columns, any log/exp, trend and estimator of nonzero ultimate counts. C44_adjusted gives every cell; C44_latest_partial: same latest diagonal when no origin has case reserves without open claims; C44_chainladder_partial: with the default estimator and positive reported counts; C44_exponential: payments before the diagonal; C44_transform; C44_columns: missing columns raise. False of the code: C44_two_origins_false (with two origins the earlier payment is broadcast and added to the diagonal, C44_two_origins), C44_no_open_claims_false (reserves vanish where no claim is open)."
  },
  {
   "property": "C45",
   "status": "partial",
   "theorems": [
    "CL.Clark.C45_range",
    "CL.Clark.C45_increasing",
    "CL.Clark.C45_limit",
    "CL.Clark.C45_factors_partial",
    "CL.Clark.C45_fits",
    "CL.Clark.C45_labels_false",
    "CL.Clark.C45_unknown_false"
   ],
   "note": "range, growth and limit of both curves for all positive parameters; factors above 1 telescoping to the ratio of the curve; fitted increments add up to the latest diagonal; the labels fit only triangles with as many origins as ages (C45_labels_false); unknown curves fail with UnboundLocalError instead of ValueError (C45_unknown_false)"
  },
  {
   "property": "C46",
   "status": "partial",
   "theorems": [
    "CL.Munich.C46_ratio",
    "CL.Munich.C46_lambda_partial",
    "CL.Munich.C46_known_partial",
    "CL.Munich.C46_known_false",
    "CL.Munich.C46_ultimate_partial",
    "CL.Munich.C46_ultimate_false",
    "CL.Munich.C46_zero_partial",
    "CL.Munich.C46_zero_false",
    "CL.Munich.C46_shape_false",
    "CL.Munich.C46_gaps",
    "CL.Munich.C46_unknown",
    "CL.Munich.C46_columns_false",
    "CL.Munich.C46_others_partial"
   ],
   "note": "Square triangles of positive paid and incurred amounts, any size, any number of columns, pairs and indices. C46_known_partial: full triangle = data on known cells when the coefficients are numbers; C46_ultimate_partial: amount x fitted age-to-ultimate factor = last amount; C46_lambda_partial and C46_ratio give the coefficients; C46_zero_partial: correlation 0 gives the chain ladder; C46_gaps: gaps are filled from fillna, without it they raise; C46_unknown: an unknown column raises; C46_others_partial: columns outside the pairs keep their factors. False of the code: C46_known_false (proportional paid/incurred: known cells become NaN), C46_ultimate_false (then all factors are 1), C46_zero_false (zero correlation gives NaN), C46_columns_false (a paired column after a column in no pair: KeyError), C46_shape_false (last origin with more than one age raises). Not covered: patterns with groups or tails, sparse backend."
  },
  {
   "property": "C47",
   "status": "partial",
   "theorems": [
    "CL.Options.C47_get_partial",
    "CL.Options.C47_set",
    "CL.Options.C47_reset",
    "CL.Options.C47_method_name_false"
   ],
   "note": "False for options named like a method of the store (witness); proved for all other sequences of calls."
  },
  {
   "property": "C48",
   "status": "partial",
   "theorems": [
    "CL.Tri.C48_rejects",
    "CL.Tri.C48_predict_partial",
    "CL.Tri.C48_regular_partial",
    "CL.Tri.C48_earlier_false",
    "CL.Tri.C48_one_age_false",
    "CL.Tri.C48_benktander_partial",
    "CL.Tri.C48_refit_partial",
    "CL.Tri.C48_rejects_exposure",
    "CL.Tri.C48_no_exposure",
    "CL.Tri.C48_capecod_partial"
   ],
   "note": "A triangle with an age beyond the pattern is rejected (chain ladder and Benktander); a development triangle whose ages are the first ages of the model's triangle, with the same index and at least two origins and ages, and not dated before it, gets latest amount times the model's factor of its own age. Benktander (with Bornhuetter-Ferguson and expected loss) and Cape Cod predictions are proved on regular triangles: new latest amounts, new exposure, the model's factors, and for Cape Cod a-prioris of the new data; predicting the triangle of the fit gives the ultimates of the fit. Not covered: single origins, valuation triangles, indexes that differ from the model's, incremental triangles, Cape Cod models with fewer key labels. False for triangles dated before the model (all ultimates missing) and for a single age (age-12 amounts get later factors)."
  },
  {
   "property": "C49",
   "status": "partial",
   "theorems": [
    "CL.Tri.C49_cumulative",
    "CL.Tri.C49_chainladder",
    "CL.Tri.C49_incremental_partial",
    "CL.Tri.C49_no_tail",
    "CL.Tri.C49_incremental_false"
   ],
   "note": "Cumulative: full statement. Incremental: partial, the last increment has the wrong sign, so the increments add up to the ultimate only when the last factor of the pattern is one (C49_incremental_false)."
  },
  {
   "property": "C50",
   "status": "partial",
   "theorems": [
    "CL.Olf.C50_monthly",
    "CL.Olf.C50_unchanged",
    "CL.Olf.C50_current",
    "CL.Olf.C50_before_partial",
    "CL.Olf.C50_daily_partial",
    "CL.Olf.C50_midmonth_false",
    "CL.Olf.C50_grain_false",
    "CL.Olf.C50_daily_rows_false",
    "CL.Olf.C50_daily_nan_false"
   ],
   "note": "monthly approximation: one row per period in order, factors between 1 and the total change, 1 without changes and at the current level, the total before all changes on first days of months; daily approximation from a January after a year without 29 February; false: changes within a month are ignored (C50_midmonth_false), quarters and half-years raise (C50_grain_false), after a leap year the daily table has an extra row and NaN factors (C50_daily_rows_false, C50_daily_nan_false)"
  },
  {
   "property": "C51",
   "status": "partial",
   "theorems": [
    "CL.Dev.C51_fit_partial",
    "CL.Dev.C51_shape_false",
    "CL.Dev.C51_first_false",
    "CL.Dev.C51_two_ages_false"
   ],
   "note": "C51_fit_partial: when the listed dates only touch the leading origins and ages (Leading) and the first triangle has an amount wherever another one has. False otherwise: C51_shape_false (fewer ages than origins: the mask is padded at the wrong end and drops other link ratios), C51_first_false (the mask is read off the first index and column only) and C51_two_ages_false (with two ages fit raises)."
  },
  {
   "property": "C52",
   "status": "proved",
   "theorems": [
    "CL.Dev.C52_fit"
   ],
   "note": "Proved for every finite, known triangle and every per-age bound and preserve count, with n_periods off and no other drop option."
  },
  {
   "property": "C53",
   "status": "proved",
   "theorems": [
    "CL.Dev.C53_fit",
    "CL.Dev.C53_error"
   ],
   "note": "Proved for regular triangles with distinct labels and at least two origins, with n_periods off and no other drop option."
  },
  {
   "property": "C54",
   "status": "proved",
   "theorems": [
    "CL.Tri.C54_mul",
    "CL.Tri.C54_div",
    "CL.Tri.C54_add",
    "CL.Tri.C54_sub"
   ],
   "note": "Multiplication, division, addition, subtraction with broadcasting in either direction on every axis; addition and subtraction for finite or missing amounts up to the valuation date."
  },
  {
   "property": "C55",
   "status": "partial",
   "theorems": [
    "CL.C55_sound",
    "CL.C55_annual",
    "CL.C55_annual_iff",
    "CL.C55_semiannual_iff",
    "CL.C55_quarterly_partial",
    "CL.C55_gap_false",
    "CL.C55_set"
   ],
   "note": "Soundness and dependence on the set of dates for all lists; coarsest for annual and semi-annual spacing; for quarterly spacing only without gaps (C55_gap_false: January and October give a monthly grain)."
  },
  {
   "property": "C56",
   "status": "proved",
   "theorems": [
    "CL.Work.C56_development",
    "CL.Work.C56_pipeline",
    "CL.Work.C56_chainladder",
    "CL.Work.C56_labels"
   ],
   "note": "Standard: regular origin and development axes, first origin at the last age, at least two origins, positive recorded amounts. Development without exclusions."
  },
  {
   "property": "C57",
   "status": "partial",
   "theorems": [
    "CL.Tail.C57_tail_partial",
    "CL.Tail.C57_projection_partial",
    "CL.Tail.C57_decreasing",
    "CL.Tail.C57_fit_partial",
    "CL.Tail.C57_exact_partial",
    "CL.Tail.C57_chainladder_partial",
    "CL.Tail.C57_short_false",
    "CL.Tail.C57_flat_false",
    "CL.Tail.C57_start_false"
   ],
   "note": "Partial: errors='ignore', tuple fit_period, extrap_periods at least the number of added periods, fitted coefficients (two usable factors, nonzero covariance). Negations: C57_short_false (fewer extrapolated than added periods gives a mis-shaped result), C57_flat_false (equal factors give a missing tail), C57_start_false (fit_period starting at 0)."
  },
  {
   "property": "C58",
   "status": "partial",
   "theorems": [
    "CL.Tri.C58_partial",
    "CL.Tri.C58_factor_one_false",
    "CL.Tri.C58_two_origins_false"
   ],
   "note": "C58_partial for age-to-ultimate factors other than one; C58_factor_one_false (factors 3/2 and 2/3) and C58_two_origins_false (two origins of which only one has an earlier cell: the known part is one cell and broadcasts over the rest)."
  },
  {
   "property": "C59",
   "status": "proved",
   "theorems": [
    "CL.Berq.C59_steady"
   ],
   "note": "C59_steady: the adjusted triangle equals the triangle for every steady square triangle of three or more origins; C44_exponential gives the adjusted payments in general."
  },
  {
   "property": "C60",
   "status": "partial",
   "theorems": [
    "CL.Additive.C60_chosen_partial",
    "CL.Additive.C60_rates_partial",
    "CL.Additive.C60_periods_partial",
    "CL.Additive.C60_incremental_partial",
    "CL.Additive.C60_ldf_partial",
    "CL.Additive.C60.C60_zero_false",
    "CL.Additive.C60.C60_drop_false",
    "CL.Additive.C60.C60_first_false",
    "CL.Additive.C60.C60_known_false",
    "CL.Additive.C60.C60_future_false",
    "CL.Additive.C60.C60_wide_false"
   ],
   "note": "Square triangles with nonzero exposures; labels of drop in the triangle, dates of drop_valuation past (Drops). The rates are the averages over the origins described by Chosen (n_periods, drop, drop_valuation, drop_above/drop_below, drop_high/drop_low, preserve); known increments are kept and future ones are exposure x rate x trend; without a future trend ldf_ reproduces the completed triangle. False of the code: an increment of zero is left out of the exposures (C60_zero_false), known increments of an age whose rate is zero are lost (C60_known_false), ldf_ ignores the future trend (C60_future_false), fit raises if ages outnumber origins (C60_wide_false), drop with an unknown label excludes a cell that is not listed (C60_drop_false), with drop_valuation an increment is excluded in all columns where the first column has none (C60_first_false)."
  },
  {
   "property": "C61",
   "status": "partial",
   "theorems": [
    "CL.Boot.C61_samples_partial",
    "CL.Boot.C61_expected_partial",
    "CL.Boot.C61_columns_partial",
    "CL.Boot.C61_mean_partial",
    "CL.Boot.C61_pool_partial",
    "CL.Boot.C61_scale_partial",
    "CL.Boot.C61_exact",
    "CL.Boot.C61_rejects",
    "CL.Boot.C61_runs_partial",
    "CL.Boot.C61_exact_false"
   ],
   "note": "One index entry and one column, dense backend, cumulative triangles on a regular grid. The draws of the random generator are an arbitrary table, the hat adjustment an arbitrary function of the expected increments. C61_columns, C61_pool and C61_scale need all data in use and positive amounts. False of the code: a triangle whose origins develop in the same proportions has no residuals to draw from and raises ValueError (C61_exact, C61_exact_false). The residuals of recorded increments that are zero are left out because cum_to_incr turns them to NaN (C61_pool_partial)."
  },
  {
   "property": "C62",
   "status": "partial",
   "theorems": [
    "CL.Tail.C62_factors",
    "CL.Tail.C62_tail_partial",
    "CL.Tail.C62_chainladder_partial",
    "CL.Tail.C62_labels",
    "CL.Tail.C62_attachment_alone",
    "CL.Tail.C62_order",
    "CL.Tail.C62_labels_false"
   ],
   "note": "The decay found by scipy.optimize.least_squares and the refitted earliest_ldf_ are outside the model (decay as argument). C62_tail_partial and C62_chainladder_partial: one added period, because otherwise labels and values are out of step (C62_labels, C62_labels_false). The factors at the earliest age are positive."
  },
  {
   "property": "C63",
   "status": "partial",
   "theorems": [
    "CL.Tail.C63_factors",
    "CL.Tail.C63_tail_partial",
    "CL.Tail.C63_chainladder_partial",
    "CL.Tail.C63_unknown",
    "CL.Tail.C63_late",
    "CL.Tail.C63_late_false"
   ],
   "note": "The parameters theta and omega are arguments (found by ClarkLDF with scipy). C63_tail_partial and C63_chainladder_partial: attachment not after the last age of the triangle; after the last projected age values and labels are out of step (C63_late, C63_late_false). sigma_ and std_err_ are not modelled."
  },
  {
   "property": "C64",
   "status": "partial",
   "theorems": [
    "CL.Tri.C64_factors",
    "CL.Tri.C64_applied",
    "CL.Tri.C64_order",
    "CL.Tri.C64_split",
    "CL.Tri.C64_rejects",
    "CL.Tri.C64_few_dates",
    "CL.Tri.C64_capecod_partial",
    "CL.Tri.C64_zero_false"
   ],
   "note": "Cape Cod: as C36_fit_partial (one trend factor per origin, exposure for every origin), and no latest amount is zero; for a zero amount the factor is missing (C64_zero_false)."
  },
  {
   "property": "C65",
   "status": "partial",
   "theorems": [
    "CL.CaseOut.C65_fit_partial",
    "CL.CaseOut.C65_completion",
    "CL.CaseOut.C65.C65_two_origins_false",
    "CL.CaseOut.C65.C65_latest_false",
    "CL.CaseOut.C65.C65_no_payment_false",
    "CL.CaseOut.C65.C65_two_ages_false"
   ],
   "note": "Partial: at least three origins, no groupby; with n_periods the triangle reaches the current origin period (D <= q*n) and the origin grain is not half-years; reserves, factors and completed amounts not zero, latest reserves not adding up to zero. Two origins, a zero total of the latest reserves, an origin without payments and two ages have _false witnesses."
  },
  {
   "property": "C66",
   "status": "partial",
   "theorems": [
    "CL.Tri.C66_amounts",
    "CL.Tri.C66_order_partial",
    "CL.Tri.C66_sorted_partial",
    "CL.Tri.C66_concat_partial",
    "CL.Tri.C66_pattern_false"
   ],
   "note": "Partial: increasing order not for the developments of patterns, which are compared as strings (C66_pattern_false); concatenation of two triangles with the same columns."
  },
  {
   "property": "C67",
   "status": "partial",
   "theorems": [
    "CL.Diagn.C67_since_partial",
    "CL.Diagn.C67_year_partial",
    "CL.Diagn.C67_quarter_partial",
    "CL.Diagn.C67_latest_partial",
    "CL.Diagn.C67_latest_false",
    "CL.Diagn.C67_year_false",
    "CL.Diagn.C67_two_origins_false",
    "CL.Diagn.C67_run_off_false"
   ],
   "note": "_partial: Latest, Year and Quarter Incremental with groupby for cumulative triangles on regular grids of three or more ages whose second origin has a cell before the date (without one C67_two_origins_false). Without groupby the sums are of cumulative amounts: C67_latest_false and C67_year_false hold for every such triangle. C67_run_off_false: the quarterly run-off starts with past quarters; the annual one is only an example. The columns are modelled one by one, not their assembly by concat (C20), and month is stated in the model only."
  },
  {
   "property": "C68",
   "status": "partial",
   "theorems": [
    "CL.Dev.C68_age",
    "CL.Dev.C68_plain_partial",
    "CL.Dev.C68_mack_partial",
    "CL.Dev.C68_gap_false",
    "CL.Dev.C68_log_partial",
    "CL.Dev.C68_zero_false",
    "CL.Dev.C68_single_false"
   ],
   "note": "_partial: no drop options, n_periods -1; Mack's rule for the first missing age after two positive sigmas (others C68_gap_false), log-linear rule for two or more positive sigmas that do not give a flat line; a zero sigma is lost with the log-linear rule (C68_zero_false); the fill of std_err_ uses the first origin (C68_single_false). C68_age is for any 0/1 weights."
  },
  {
   "property": "C69",
   "status": "partial",
   "theorems": [
    "CL.Tail.C69_tail_partial",
    "CL.Tail.C69_one_partial",
    "CL.Tail.C69_no_factor_false",
    "CL.Tail.C69_two_ages_false",
    "CL.Tail.C69_flat_false",
    "CL.Tail.C69_mixed_false",
    "CL.Tail.C69_constant_partial"
   ],
   "note": "Proved: for patterns whose factors are all above one, with trends that are not flat, the tail entries of sigma_ and std_err_ are the exponential of the least-squares line of the logarithms at the age where the least-squares line of the log factors less one meets the log tail less one; zero for a tail of one; also for Development followed by TailConstant. False: with a factor up to one among others the line is not the least-squares line (C69_mixed_false); NaN without a factor above one, with two ages, or with equal sigmas. Not covered: tail_ as a data frame; statistics of patterns with several rows (one row per origin)."
  },
  {
   "property": "C70",
   "status": "partial",
   "theorems": [
    "CL.Work.C70_partial",
    "CL.Work.C70_total_partial",
    "CL.Work.C70_no_trend_false",
    "CL.Work.C70_summary_partial"
   ],
   "note": "The fit is proved for one index and column (with more the code raises, C38_many_false) when no projected ultimate equals the latest amount (C58_factor_one_false) and the link ratios of ages with two of them differ. C70_no_trend_false: without a trend of the factors above one or of the standard errors the parameter risk of every origin is zero; C70_total_partial holds without trends."
  },
  {
   "property": "C71",
   "status": "partial",
   "theorems": [
    "CL.Dev.C71_residuals_partial",
    "CL.Dev.C71_centred_partial",
    "CL.Dev.C71_squares_partial",
    "CL.Dev.C71_plain_partial",
    "CL.Dev.C71_zero_false"
   ],
   "note": "Partial: dense backend, positive amounts on a regular grid with at least three ages and one sigma positive; C71_zero_false: a link ratio to a zero amount is not in the fit but has a residual."
  },
  {
   "property": "C72",
   "status": "partial",
   "theorems": [
    "CL.Clark.C72_scale_partial",
    "CL.Clark.C72_residuals_partial",
    "CL.Clark.C72_squares_partial",
    "CL.Clark.C72_zero_false"
   ],
   "note": "Partial: regular grids with positive latest amounts and positive parameters, dense backend; the optimiser that finds the parameters is not modelled, so they are arbitrary; the sum of squares needs non-zero first increments and a positive statistic. False of increments of zero (C72_zero_false)."
  },
  {
   "property": "C73",
   "status": "partial",
   "theorems": [
    "CL.Boot.C73_hat_partial",
    "CL.Boot.C73_memory_false",
    "CL.Boot.C73_pool_partial",
    "CL.Boot.C73_memory_partial",
    "CL.Boot.C73_runs_partial"
   ],
   "note": "Partial: regular grids, positive expected increments, dense backend, one index and one column; exact real arithmetic in place of floating point (in floats 1 - h may be a rounding error rather than zero at cells of leverage one). The pool and C73_memory_partial need volume averages, all data in use and increasing amounts. False of cells of leverage one: hat_ is uninitialised memory there (C73_memory_false)."
  },
  {
   "property": "C74",
   "status": "partial",
   "theorems": [
    "CL.Boot.C74_process_partial",
    "CL.Boot.C74_sign_partial",
    "CL.Boot.C74_mean_partial",
    "CL.Boot.C74_seed_partial",
    "CL.Boot.C74_zero_false",
    "CL.Boot.C74_columns_false",
    "CL.Boot.C74_ages_false",
    "CL.Boot.C74_generator_false",
    "CL.Boot.C74_chainladder_partial",
    "CL.Boot.C74_samples_partial"
   ],
   "note": "Partial: cumulative triangles on a regular grid with at least two link ratio origins, one positive scale (one column sampled), dense backend; the gamma draws are an arbitrary function of the cell and the shape. False of the seed 0 (C74_zero_false), of generators in place of seeds (C74_generator_false) and of several columns (C74_columns_false)."
  },
  {
   "property": "C75",
   "status": "partial",
   "theorems": [
    "CL.Work.C75_partial",
    "CL.Work.C75_total_partial",
    "CL.Work.C75_same_partial",
    "CL.Work.C75_origins_false",
    "CL.Work.C75_transformed_false"
   ],
   "note": "Partial: no statistics of its own, as many origins and ages as the fitted triangle, one index and column, a tail of one, and the hypotheses of MackReady for the fit. False for another number of origins and for triangles that carry the statistics of Development."
  },
  {
   "property": "C76",
   "status": "partial",
   "theorems": [
    "CL.Munich.C76_same_partial",
    "CL.Munich.C76_partial",
    "CL.Munich.C76_ultimate_partial",
    "CL.Munich.C76_columns_false",
    "CL.Munich.C76_ages_false",
    "CL.Munich.C76_gaps_false"
   ],
   "note": "Partial: the fit is that of C46 (square triangle, positive pairs); the new triangle is a regular grid with as many indices and at most as many ages, whose paired amounts are numbers other than zero; factors and sigmas are numbers. False for triangles with a column in no pair, with zeros filled in the fit, and with two or more ages more than the fit."
  },
  {
   "property": "C77",
   "status": "partial",
   "theorems": [
    "CL.Tri.C77_iloc_partial",
    "CL.Tri.C77_read_partial",
    "CL.Tri.C77_pairs_false",
    "CL.Tri.C77_pairs_array",
    "CL.Tri.C77_lengths_false",
    "CL.Tri.C77_loc_partial",
    "CL.Tri.C77_loc_rows_false",
    "CL.Tri.C77_loc_triangle_false",
    "CL.Tri.C77_at_lists",
    "CL.Tri.C77_at"
   ],
   "note": "Partial: slices for which the rewriting of C13 is harmless, at most one list; loc for one row, a number and labels on one axis; labels are given as such, partial date strings and boolean keys are not modelled. False for two lists, for loc with several rows and for loc with a triangle as the value. at holds in general."
  },
  {
   "property": "C78",
   "status": "partial",
   "theorems": [
    "CL.Tri.C78_mul_partial",
    "CL.Tri.C78_div_partial",
    "CL.Tri.C78_sets_partial",
    "CL.Tri.C78_order_false",
    "CL.Tri.C78_missing_false"
   ],
   "note": "Products and quotients with a triangle of fewer index labels, same other axes, no row of y without rows of x (there the code puts NaN into index labels; not modelled). C78_order_false: the index is sorted; C78_missing_false: rows of a group that y does not have become zero or infinite, not NaN."
  },
  {
   "property": "C79",
   "status": "partial",
   "theorems": [
    "CL.Tri.C79_partial",
    "CL.Tri.C79_order_false",
    "CL.Tri.C79_labels_false"
   ],
   "note": "Same columns, origins and developments on both sides; the same index labels in the same order; more than one row, all distinct. The operators pow and the sparse backend are not covered."
  },
  {
   "property": "C80",
   "status": "partial",
   "theorems": [
    "CL.Tri.C80_partial",
    "CL.Tri.C80_sets_partial",
    "CL.Tri.C80_comm_partial",
    "CL.Tri.C80_total_partial"
   ],
   "note": "Same columns, origins, developments and valuation date on both sides, with a cell valued at or after that date; the same index labels in the same order; at least two distinct rows on each side. Products and quotients with different rows are not covered."
  },
  {
   "property": "C81",
   "status": "partial",
   "theorems": [
    "CL.Tri.C81_columns",
    "CL.Tri.C81_single",
    "CL.Tri.C81_index",
    "CL.Tri.C81_setter_false",
    "CL.Tri.C81_development_false"
   ],
   "note": "The setter of origin, which goes through pandas periods, is not modelled; new development labels are integers."
  },
  {
   "property": "C82",
   "status": "partial",
   "theorems": [
    "CL.Tri.C82_head",
    "CL.Tri.C82_tail_partial",
    "CL.Tri.C82_tail_false",
    "CL.Tri.C82_head_negative_partial",
    "CL.Tri.C82_tail_negative",
    "CL.Tri.C82_head_negative_false",
    "CL.Tri.C82_append",
    "CL.Tri.C82_total"
   ],
   "note": "tail(0) and head(-n) beyond the number of rows are false of the code (C82_tail_false, C82_head_negative_false); C82_tail_partial and C82_head_negative_partial cover the other numbers."
  },
  {
   "property": "C83",
   "status": "partial",
   "theorems": [
    "CL.Tri.C83_limit",
    "CL.Tri.C83_layers",
    "CL.Tri.C83_between",
    "CL.Tri.C83_limit_false",
    "CL.Tri.C83_twice",
    "CL.Tri.C83_minimum_partial",
    "CL.Tri.C83_maximum_partial",
    "CL.Tri.C83_maximum_false",
    "CL.Tri.C83_shape_false",
    "CL.Tri.C83_order_false"
   ],
   "note": "Two triangles: amounts not negative on common axes (minimum), the same missing cells (maximum). Zero amounts under maximum and other labels are false of the code."
  },
  {
   "property": "C84",
   "status": "partial",
   "theorems": [
    "CL.Tri.C84_exp_log",
    "CL.Tri.C84_log_exp",
    "CL.Tri.C84_sqrt",
    "CL.Tri.C84_log_mul_partial",
    "CL.Tri.C84_log_mul_false",
    "CL.Tri.C84_sqrt_mul",
    "CL.Tri.C84_sqrt_pow",
    "CL.Tri.C84_pow",
    "CL.Tri.C84_pow_false",
    "CL.Tri.C84_exp_false"
   ],
   "note": "Product: the same cells missing. exp of zero amounts and powers of future cells are false of the code."
  },
  {
   "property": "C85",
   "status": "partial",
   "theorems": [
    "CL.Dev.C85_none",
    "CL.Dev.C85_filled",
    "CL.Dev.C85_fill_false",
    "CL.Dev.C85_fit",
    "CL.Dev.C85_simple",
    "CL.Dev.C85_regression",
    "CL.Dev.C85_defined",
    "CL.Dev.C85_pull"
   ],
   "note": "fillna adds its value to every known amount; factors without the drop options that look at link ratios."
  }
 ]
}
