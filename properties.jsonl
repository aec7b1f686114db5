{"id": "C01", "title": "Cumulative/incremental round trip", "statement": "For a cumulative triangle, cum_to_incr() followed by incr_to_cum() gives back the same amount in every cell, and for an incremental triangle incr_to_cum() followed by cum_to_incr() gives back the same amount in every cell (a missing amount and 0 count as the same amount, cells beyond the valuation date stay missing).", "quantifier": "every triangle shape, every origin/development axis, every valuation date, every real cell content including missing cells", "why_tests_cant": "The statement ranges over all shapes and all real cell contents; a test fixes a handful of triangles and cannot exclude the shapes (one origin, two developments) that take a different masking path.", "anchors": ["chainladder/core/triangle.py:Triangle.incr_to_cum", "chainladder/core/triangle.py:Triangle.cum_to_incr", "chainladder/core/base.py:TriangleBase.nan_triangle", "chainladder/core/dunders.py:TriangleDunders.__sub__", "chainladder/utils/utility_functions.py:concat"]}
{"id": "C02", "title": "incr_to_cum is the running total", "statement": "After incr_to_cum(), each cell at or before the valuation date holds the sum of all incremental amounts of that origin up to and including that development period; cells after the valuation date are missing; labels, valuation date and shape are unchanged; calling it on a cumulative triangle changes nothing.", "quantifier": "every non-pattern triangle with at least two origins and two developments, every content", "why_tests_cant": "Needs induction over the development axis for arbitrary length.", "anchors": ["chainladder/core/triangle.py:Triangle.incr_to_cum"]}
{"id": "C03", "title": "No amount is invented after the valuation date", "statement": "cum_to_incr(), addition and subtraction never put a number in a cell whose valuation is later than the triangle's valuation date when the operands have none there.", "quantifier": "every triangle, every shape", "why_tests_cant": "The masking has a separate path for axes of length one that example triangles (10x10) never reach.", "anchors": ["chainladder/core/base.py:TriangleBase.nan_triangle", "chainladder/core/dunders.py:TriangleDunders._arithmetic_cleanup", "chainladder/core/triangle.py:Triangle.cum_to_incr"]}
{"id": "C04", "title": "Age-to-ultimate factors are products of age-to-age factors", "statement": "For a multiplicative development pattern, the cumulative pattern (cdf_) at each age is the product of the age-to-age factors from that age to the last (missing factors count as 1), and cum_to_incr() of the cumulative pattern gives the factors back.", "quantifier": "every pattern of any length with nonzero factors", "why_tests_cant": "Product over an axis of arbitrary length; requires induction.", "anchors": ["chainladder/core/triangle.py:Triangle.incr_to_cum", "chainladder/core/triangle.py:Triangle.cum_to_incr", "chainladder/core/common.py:Common.cdf_"]}
{"id": "C05", "title": "latest_diagonal picks the cell at the valuation date", "statement": "latest_diagonal has one development column, and for each origin holds exactly the amount in the cell whose valuation equals the triangle's valuation date (missing if there is no such cell or it is zero).", "quantifier": "every triangle of any shape, origin axis and development axis with distinct valuations per origin", "why_tests_cant": "Ranges over all axes; selection goes through a boolean mask, edge trimming and a sum whose interaction is only exercised on a few triangles.", "anchors": ["chainladder/core/triangle.py:Triangle.latest_diagonal", "chainladder/core/slice.py:TriangleSlicer._slice_valuation", "chainladder/core/slice.py:TriangleSlicer.__getitem__", "chainladder/core/pandas.py:add_triangle_agg_func"]}
{"id": "C06", "title": "link_ratio is next amount over current amount", "statement": "For a triangle that is not full, every link ratio cell equals the next development amount divided by the current amount when both are observed and nonzero, and is missing otherwise; multiplying it by the current amount gives the next amount.", "quantifier": "every non-pattern triangle, any shape and content", "why_tests_cant": "All contents including zeros and missing cells, all shapes.", "anchors": ["chainladder/core/triangle.py:Triangle.link_ratio", "chainladder/core/dunders.py:TriangleDunders.__rtruediv__", "chainladder/core/dunders.py:TriangleDunders.__mul__"]}
{"id": "C07", "title": "dev_to_val and val_to_dev are inverse and keep every amount at its (origin, valuation) position", "statement": "dev_to_val() keeps, for each origin and each valuation date, exactly the amount the triangle had for that origin and valuation; val_to_dev() of the result is the original triangle.", "quantifier": "every triangle that is not full, every origin/development grain pair, any length", "why_tests_cant": "The conversion is an index shift whose correctness depends on an arithmetic relation between grain, origin position and development position for all positions.", "anchors": ["chainladder/core/triangle.py:Triangle._val_dev", "chainladder/core/triangle.py:Triangle.dev_to_val", "chainladder/core/triangle.py:Triangle.val_to_dev", "chainladder/core/base.py:TriangleBase.valuation"]}
{"id": "C08", "title": "grain aggregates without creating or losing amounts", "statement": "Coarsening the grain of a triangle produces, for each coarse origin and coarse valuation, the sum over the fine origins it contains of the amount known at that valuation (cumulative) or over the fine cells it contains (incremental); the grand total of an incremental triangle and the latest valuation of a cumulative triangle are preserved; an incompatible grain string is rejected with an error and never a wrong triangle.", "quantifier": "every triangle, every pair of old and new grain", "why_tests_cant": "Requires the regrouping arithmetic to be right for every axis length and offset.", "anchors": ["chainladder/core/triangle.py:Triangle.grain", "chainladder/core/triangle.py:Triangle._dstep", "chainladder/core/pandas.py:add_groupby_agg_func"]}
{"id": "C09", "title": "Addition and subtraction of triangles with the same axes are cell-wise and obey the usual algebra", "statement": "For triangles on identical axes, each cell of x+y is the sum of the two amounts (missing counts as 0), x-y the difference; addition is commutative and associative as amounts, 0+x is x, x-x is empty, and sum([x1..xn]) is the cell-wise total.", "quantifier": "all triangles on common axes of any size, any content", "why_tests_cant": "Universally quantified algebraic laws over arbitrary contents.", "anchors": ["chainladder/core/dunders.py:TriangleDunders.__add__", "chainladder/core/dunders.py:TriangleDunders.__radd__", "chainladder/core/dunders.py:TriangleDunders.__sub__", "chainladder/core/dunders.py:TriangleDunders._arithmetic_cleanup"]}
{"id": "C10", "title": "Triangle comparison operators", "statement": "x == y is an equivalence relation on triangles that identifies missing with zero; x <= v marks exactly the cells whose amount is at most v, and x < v exactly those strictly below.", "quantifier": "all triangles, all thresholds", "why_tests_cant": "Equality cases (amount exactly equal to threshold) are a measure-zero set that tests do not hit.", "anchors": ["chainladder/core/dunders.py:TriangleDunders.__eq__", "chainladder/core/dunders.py:TriangleDunders.__le__", "chainladder/core/dunders.py:TriangleDunders.__lt__"]}
{"id": "C11", "title": "Binary arithmetic aligns origins and developments by label", "statement": "When two triangles of the same grain are added, amounts are combined only when they carry the same origin and development label; labels present in only one operand keep that operand's amount.", "quantifier": "all pairs of triangles of equal grain with more than one origin and development, whatever the origin and development labels", "why_tests_cant": "The alignment code decides by comparing label arrays; a test covers particular overlaps only.", "anchors": ["chainladder/core/dunders.py:TriangleDunders._prep_origin_development"]}
{"id": "C12", "title": "Binary arithmetic aligns columns by name", "statement": "When two triangles with several columns each are added, the result has the union of the columns and each column is the sum of the like-named columns, whatever the order of the columns.", "quantifier": "all pairs of column lists", "why_tests_cant": "All orders, subsets and overlaps of column lists.", "anchors": ["chainladder/core/dunders.py:TriangleDunders._prep_columns", "chainladder/core/triangle.py:Triangle.reindex"]}
{"id": "C13", "title": "Positional slicing selects exactly what Python slicing selects", "statement": "iloc with integers and slices (any start, stop, step) selects on each axis exactly the positions the same Python slice would select on a list of that length, and returns the amounts and labels at these positions.", "quantifier": "every axis length, every start/stop/step", "why_tests_cant": "Boundary and step combinations are unbounded.", "anchors": ["chainladder/core/slice.py:_LocBase._normalize_index", "chainladder/core/slice.py:_LocBase.get_idx", "chainladder/core/slice.py:Ilocation.__getitem__"]}
{"id": "C14", "title": "List and boolean selection keep the requested positions in the requested order", "statement": "Selecting by a list of positions (or the positions of a boolean mask) returns exactly those positions in that order: the internal conversion of the list to a slice never changes the selection.", "quantifier": "every nonempty list of positions within the axis", "why_tests_cant": "All integer lists.", "anchors": ["chainladder/core/slice.py:_LocBase._contig_slice", "chainladder/core/slice.py:TriangleSlicer._slice"]}
{"id": "C15", "title": "Valuation filters keep exactly the cells satisfying the filter", "statement": "tri[tri.valuation OP date] keeps the amount of every cell whose valuation satisfies the filter, makes every other cell missing, and removes only origins and developments with no satisfying cell; the valuation date of the result is the latest kept valuation, never later than before.", "quantifier": "every triangle and every filter date", "why_tests_cant": "All triangles, all filters.", "anchors": ["chainladder/core/slice.py:TriangleSlicer._slice_valuation", "chainladder/core/slice.py:_LocBase.get_idx"]}
{"id": "C16", "title": "Constructing a triangle loses no record", "statement": "Each cell of a newly constructed triangle equals the sum of the amounts of the input records with that index, origin period and development period (missing if that sum is 0); the grand total equals the total of all records whose origin is not after their development; the order of the input rows does not matter.", "quantifier": "every list of records, any dates and amounts", "why_tests_cant": "Arbitrary data sets; aggregation is order dependent in code.", "anchors": ["chainladder/core/triangle.py:Triangle.__init__", "chainladder/core/base.py:TriangleBase._aggregate_data", "chainladder/core/base.py:TriangleBase._set_values", "chainladder/core/base.py:TriangleBase._set_odims", "chainladder/core/base.py:TriangleBase._set_ddims", "chainladder/core/base.py:TriangleBase._get_date_axes"]}
{"id": "C17", "title": "Development age in months is computed exactly", "statement": "The development age of a record, computed from the number of days between the start of its origin month and the end of its valuation month divided by 365.25/12 and rounded, is exactly the number of calendar months between them.", "quantifier": "every origin month and every later valuation month in the range of representable dates (1677-2262)", "why_tests_cant": "About 5*10^7 date pairs across leap-year rules; a test samples a few.", "anchors": ["chainladder/core/base.py:TriangleBase._development_lag"]}
{"id": "C18", "title": "Shape and labels stay coherent under any sequence of operations", "statement": "After any sequence of slicing, arithmetic, accumulation, aggregation and concatenation that does not raise, the shape of the values equals the number of labels on each of the four axes.", "quantifier": "every sequence of operations of any length, from every coherent triangle", "why_tests_cant": "Unbounded histories.", "anchors": ["chainladder/core/slice.py:_LocBase.get_idx", "chainladder/core/pandas.py:add_triangle_agg_func", "chainladder/utils/utility_functions.py:concat", "chainladder/core/triangle.py:Triangle.cum_to_incr"]}
{"id": "C19", "title": "sum and groupby(...).sum() conserve totals", "statement": "Summing over an axis gives the total of the amounts along it; grouping by any key and summing gives for each group the total of its members; summing the groups gives the ungrouped total.", "quantifier": "every triangle, every grouping function", "why_tests_cant": "All partitions of an axis of any length.", "anchors": ["chainladder/core/pandas.py:add_triangle_agg_func", "chainladder/core/pandas.py:add_groupby_agg_func", "chainladder/core/pandas.py:TriangleGroupBy"]}
{"id": "C20", "title": "Concatenation", "statement": "Concatenating the two parts of a triangle split at any position of any axis gives the triangle back; concatenating triangles along index/origin/development keeps every amount under its own column label, and duplicated labels or different other axes are rejected.", "quantifier": "every triangle, axis and split; every pair of column lists", "why_tests_cant": "All splits and all column orders.", "anchors": ["chainladder/utils/utility_functions.py:concat"]}
{"id": "C21", "title": "JSON round trip of a triangle", "statement": "read_json(x.to_json()) has, for every index, column, origin and valuation, the same amount as x, and the same cumulative, pattern and valuation/development flags.", "quantifier": "every triangle", "why_tests_cant": "All triangles.", "anchors": ["chainladder/core/io.py:TriangleIO.to_json", "chainladder/utils/utility_functions.py:read_json", "chainladder/core/pandas.py:TrianglePandas.to_frame"]}
{"id": "C22", "title": "Trending is exponential, invertible and composable", "statement": "trend(t) multiplies each observed amount by (1+t)^(m/12), m being the months between the start date and the cell's date after clamping into the start/end window; trend(0) changes nothing; trending by t and then by 1/(1+t)-1 gives the triangle back; trending by a then b equals trending once by (1+a)(1+b)-1; an unsupported axis is rejected.", "quantifier": "every triangle, every trend above -1, every window", "why_tests_cant": "Real-valued parameters.", "anchors": ["chainladder/core/triangle.py:Triangle.trend"]}
{"id": "C23", "title": "shift moves amounts by the requested number of periods", "statement": "shift(k) along origin or development moves each amount exactly k positions towards the start (end for negative k), drops what leaves the axis, fills vacated positions with no amount, and keeps the labels; shift(0) is the identity; other axes are rejected.", "quantifier": "every triangle, every k of magnitude below the axis length", "why_tests_cant": "Recursive implementation, unbounded k.", "anchors": ["chainladder/core/triangle.py:Triangle.shift"]}
{"id": "C24", "title": "fillna and dropna", "statement": "fillna(v) changes exactly the observed cells that are missing or zero, to v; dropna removes only leading and trailing origins and developments that carry no amount in total and keeps all cells in between.", "quantifier": "every triangle, every nonzero v", "why_tests_cant": "All contents.", "anchors": ["chainladder/core/pandas.py:TrianglePandas.fillna", "chainladder/core/pandas.py:TrianglePandas.dropna"]}
{"id": "C25", "title": "Sparse and dense backends agree", "statement": "Storing a triangle sparse or dense makes no difference: conversion there and back is the identity, and sum, cumulation, arithmetic and zero-handling give the same amounts on both.", "quantifier": "every array content without infinities", "why_tests_cant": "All contents and sparsity patterns.", "anchors": ["chainladder/utils/sparse.py:nan_to_num", "chainladder/utils/sparse.py:nansum", "chainladder/utils/utility_functions.py:num_to_value", "chainladder/core/triangle.py:Triangle.incr_to_cum", "chainladder/core/common.py:Common.set_backend", "chainladder/core/slice.py:_LocBase._sparse_setitem"]}
{"id": "C26", "title": "inplace=True updates the object it is called on", "statement": "After obj.incr_to_cum(inplace=True), obj.cum_to_incr(inplace=True), obj.fillna(v, inplace=True) or obj.grain(g, inplace=True), the object itself holds what the method returned.", "quantifier": "every triangle", "why_tests_cant": "All triangles and all methods with the flag; needs object identity.", "anchors": ["chainladder/core/triangle.py:Triangle.incr_to_cum", "chainladder/core/triangle.py:Triangle.cum_to_incr", "chainladder/core/triangle.py:Triangle.grain", "chainladder/core/pandas.py:TrianglePandas.fillna"]}
{"id": "C27", "title": "A copy is independent of the original", "statement": "After y = x.copy(), no sequence of value assignments, column assignments or virtual-column definitions on y changes what x returns.", "quantifier": "every sequence of assignments to the copy", "why_tests_cant": "Unbounded histories over shared state.", "anchors": ["chainladder/core/triangle.py:Triangle.copy", "chainladder/core/slice.py:VirtualColumns", "chainladder/core/slice.py:TriangleSlicer.__setitem__", "chainladder/core/slice.py:TriangleSlicer._set_slicers"]}
{"id": "C28", "title": "Development averages are the documented averages", "statement": "With no exclusions, the fitted factor of each age is: for 'volume' the sum of next amounts over the sum of current amounts, for 'simple' the arithmetic mean of the link ratios, for 'regression' sum(xy)/sum(x^2), over exactly the origins where both amounts are observed and nonzero and the weight is nonzero.", "quantifier": "every triangle, every choice of averages per age, every 0/1 weight pattern", "why_tests_cant": "All contents and weight patterns.", "anchors": ["chainladder/development/base.py:DevelopmentBase.fit", "chainladder/utils/weighted_regression.py:WeightedRegression._fit_OLS_thru_orig", "chainladder/development/development.py:Development.fit"]}
{"id": "C29", "title": "The fitted factor minimises the weighted squared error", "statement": "The factor fitted through the origin minimises sum w (y - b x)^2 over all b, and the slope/intercept fit minimises the sum of squared errors over all lines.", "quantifier": "every data vector with nonnegative weights, every competing factor", "why_tests_cant": "Competing factors range over all reals.", "anchors": ["chainladder/utils/weighted_regression.py:WeightedRegression._fit_OLS_thru_orig", "chainladder/utils/weighted_regression.py:WeightedRegression._fit_OLS"]}
{"id": "C30", "title": "Fitted factors lie between the smallest and largest link ratio and do not depend on units", "statement": "With positive amounts, each fitted factor lies between the smallest and the largest included link ratio of its age; multiplying the whole triangle by a nonzero constant leaves the factors unchanged.", "quantifier": "every positive triangle, every average, every weight pattern with an included cell, every scale", "why_tests_cant": "Inequalities over all reals.", "anchors": ["chainladder/development/base.py:DevelopmentBase.fit", "chainladder/utils/weighted_regression.py:WeightedRegression._fit_OLS_thru_orig"]}
{"id": "C31", "title": "drop_high/drop_low exclude exactly the extreme link ratios", "statement": "drop_high=h and drop_low=l exclude, in each age, the h largest and the l smallest of the available link ratios and nothing else, provided at least `preserve` remain; otherwise nothing is excluded for that age.", "quantifier": "every triangle shape and content, all h, l, preserve", "why_tests_cant": "Rank based rule over arbitrary data; interacts with n_periods and shape.", "anchors": ["chainladder/development/base.py:DevelopmentBase._drop_n", "chainladder/development/base.py:DevelopmentBase._drop_adjustment"]}
{"id": "C32", "title": "n_periods uses exactly the latest diagonals", "statement": "n_periods=n gives weight 1 to exactly the link ratios starting within the n latest valuation periods before the latest, and 0 to all earlier ones; a value below 1 or at least the number of available periods uses all; it is accepted for every origin grain.", "quantifier": "every triangle, every n, every grain pair", "why_tests_cant": "All shapes, n and grains.", "anchors": ["chainladder/development/base.py:DevelopmentBase._assign_n_periods_weight", "chainladder/development/base.py:DevelopmentBase._assign_n_periods_weight_func"]}
{"id": "C33", "title": "Chainladder ultimate and IBNR", "statement": "The chainladder ultimate of each origin is its latest amount times the product of all age-to-age factors from its current age on (including the tail); IBNR is ultimate minus latest; ultimate of a scaled triangle scales; a fully developed origin with factor 1 has ultimate equal to latest.", "quantifier": "every triangle, every pattern of nonzero factors", "why_tests_cant": "All triangles and patterns.", "anchors": ["chainladder/methods/chainladder.py:Chainladder._get_ultimate", "chainladder/methods/base.py:MethodBase._align_cdf", "chainladder/core/common.py:Common.ibnr_"]}
{"id": "C34", "title": "full_triangle_ keeps the known data and ends at the ultimate", "statement": "full_triangle_ equals the input triangle on every cell at or before the valuation date, and its last column equals ultimate_.", "quantifier": "every triangle, pattern and method", "why_tests_cant": "All contents; needs the algebra of emergence factors.", "anchors": ["chainladder/core/common.py:_get_full_triangle"]}
{"id": "C35", "title": "Benktander, Bornhuetter-Ferguson and expected loss", "statement": "The Benktander ultimate with n iterations is obtained by n times replacing the expectation U by latest + (1-1/cdf) U starting from the a-priori expectation; n=0 is the expectation, n=1 Bornhuetter-Ferguson; if the a-priori equals the chainladder ultimate every n returns it; for cdf > 1/2 the ultimates converge to the chainladder ultimate; missing sample_weight is an error.", "quantifier": "every n, latest amount, factor and expectation", "why_tests_cant": "All n (limit statement) and all reals.", "anchors": ["chainladder/methods/benktander.py:Benktander._get_ultimate", "chainladder/methods/bornferg.py:BornhuetterFerguson.fit", "chainladder/methods/expectedloss.py:ExpectedLoss.fit"]}
{"id": "C36", "title": "Cape Cod expected loss ratio", "statement": "The Cape Cod a-priori of an origin is the average of the trended on-level latest/used-up-exposure ratios of all origins weighted by used-up exposure times decay^distance; hence it lies between the smallest and largest ratio; with decay 1 it is the same for all origins, total latest over total used-up exposure; with decay 0 it is the origin's own ratio.", "quantifier": "every number of origins, all positive exposures, latest amounts, decay in [0,1]", "why_tests_cant": "All reals and lengths.", "anchors": ["chainladder/methods/capecod.py:CapeCod._get_capecod_aprioris"]}
{"id": "C37", "title": "A constant tail multiplies out to the requested tail factor", "statement": "After fitting TailConstant, the product of the factors from the attachment age to the end equals the requested tail factor whatever decay and projection period; factors before the attachment age are unchanged and the development axis grows by projection_period worth of periods plus one.", "quantifier": "every pattern, tail, decay, attachment age and projection period", "why_tests_cant": "All reals and lengths; product telescopes.", "anchors": ["chainladder/tails/base.py:TailBase.fit", "chainladder/tails/base.py:TailBase._apply_decay", "chainladder/tails/constant.py:TailConstant.fit"]}
{"id": "C38", "title": "Mack standard errors", "statement": "Process and parameter risk are zero up to the valuation date, satisfy Mack's recursion r(k+1)^2 = (f_k r(k))^2 + (C_k s_k)^2 afterwards, so equal the closed-form sum; mack_std_err^2 is the sum of the two squared risks; total process risk^2 is the sum over origins; scaling the triangle scales them.", "quantifier": "every triangle, any number of developments", "why_tests_cant": "Recursion over arbitrary length with square roots.", "anchors": ["chainladder/methods/mack.py:MackChainladder._mack_recursion", "chainladder/methods/mack.py:MackChainladder.mack_std_err_", "chainladder/methods/mack.py:MackChainladder.total_process_risk_"]}
{"id": "C39", "title": "Voting ensemble is the weighted average of its members", "statement": "VotingChainladder's ultimate is the weighted average of the member ultimates with the given weights; default weights give the plain average for every triangle; dropping a member gives the ensemble of the others; if all members agree the ensemble agrees.", "quantifier": "every list of members and weights, every triangle shape", "why_tests_cant": "All shapes and weight vectors.", "anchors": ["chainladder/workflow/voting.py:_BaseTriangleEnsemble", "chainladder/workflow/voting.py:VotingChainladder"]}
{"id": "C40", "title": "GridSearch covers the grid, Pipeline composes", "statement": "GridSearch evaluates exactly the cartesian product of the parameter lists, one result per combination, in grid order regardless of parallel scheduling, each scored on an estimator with exactly these parameters; Pipeline.fit applies the steps in order, each to the output of the previous, passing the sample weight to every step.", "quantifier": "every grid, every list of steps, every completion order", "why_tests_cant": "All grids and schedules.", "anchors": ["chainladder/workflow/gridsearch.py:GridSearch.fit", "chainladder/workflow/gridsearch.py:Pipeline.fit"]}
{"id": "C41", "title": "DevelopmentConstant reproduces the given pattern", "statement": "With style 'ldf' the fitted factors are the given ones; with style 'cdf' the fitted cdf_ is the given one.", "quantifier": "every pattern with nonzero factors, every length", "why_tests_cant": "All patterns.", "anchors": ["chainladder/development/constant.py:DevelopmentConstant.fit"]}
{"id": "C42", "title": "Valuation correlation test", "statement": "For each calendar period, z_expectation and z_variance are the exact mean and variance of min(L,S) for a fair binomial split of n; with total=True, z_critical is true exactly when the total Z lies outside its confidence interval.", "quantifier": "every n, every triangle and confidence level", "why_tests_cant": "Identity over all n; decision over all data.", "anchors": ["chainladder/core/correlation.py:ValuationCorrelation"]}
{"id": "C43", "title": "Development correlation test", "statement": "Each T_k is a Spearman coefficient between -1 and 1 that equals 1 exactly for identical rankings, and the test statistic is their weighted average; a critical probability outside [0,1] is rejected.", "quantifier": "every pair of rankings of any length", "why_tests_cant": "All permutations of all lengths.", "anchors": ["chainladder/core/correlation.py:DevelopmentCorrelation", "chainladder/core/correlation.py:validate_critical"]}
{"id": "C44", "title": "Berquist-Sherman keeps the latest diagonal", "statement": "The adjusted incurred, paid and closed-count triangles have the same latest diagonal as the unadjusted ones.", "quantifier": "every triangle, trend and pattern", "why_tests_cant": "All contents.", "anchors": ["chainladder/adjustments/berqsherm.py:BerquistSherman"]}
{"id": "C45", "title": "Clark growth curves give proper development", "statement": "For positive parameters the loglogistic and weibull growth curves lie strictly between 0 and 1 and increase with age, so every fitted age-to-age factor is at least 1, and the factors from an age to the last multiply to the ratio of the curve values.", "quantifier": "all positive parameters and ages", "why_tests_cant": "All reals.", "anchors": ["chainladder/development/clark.py:ClarkLDF._G", "chainladder/development/clark.py:ClarkLDF.fit"]}
{"id": "C46", "title": "Munich chain-ladder keeps known data and is consistent", "statement": "The Munich full triangle equals the data on known cells, and latest amount times the Munich age-to-ultimate factor of each origin equals the last column of the full triangle; with zero correlation it is the chain ladder.", "quantifier": "every pair of paid/incurred triangles", "why_tests_cant": "Recursion over arbitrary length.", "anchors": ["chainladder/development/munich.py:MunichAdjustment"]}
{"id": "C47", "title": "Options are a simple store", "statement": "get_option returns the last value set by set_option for that option (or the default), other options are unaffected, and reset_option restores all defaults, after any sequence of calls.", "quantifier": "every sequence of set/reset calls", "why_tests_cant": "Unbounded histories.", "anchors": ["chainladder/__init__.py:Options"]}
{"id": "C48", "title": "predict applies the model to new data", "statement": "predict(X) raises when X has an age beyond the model's pattern and otherwise applies to each origin the factor of its own age; factors do not depend on X.  Benktander, Bornhuetter-Ferguson and expected loss use the new exposure as expectation, Cape Cod recomputes its a-prioris from the new triangle and exposure with the model's factors, and predicting the triangle of the fit gives the ultimates of the fit.", "quantifier": "every X and fitted pattern", "why_tests_cant": "All X.", "anchors": ["chainladder/methods/base.py:MethodBase.predict", "chainladder/methods/benktander.py:Benktander.predict", "chainladder/methods/capecod.py:CapeCod.predict"]}
{"id": "C49", "title": "full_expectation_ adds up to the ultimate", "statement": "full_expectation_ of a cumulative model ends at ultimate_, and of an incremental model sums over development to ultimate_; cell by cell it is ultimate divided by the age-to-ultimate factor.", "quantifier": "every ultimate and pattern", "why_tests_cant": "All contents.", "anchors": ["chainladder/core/common.py:_get_full_expectation"]}
{"id": "C50", "title": "Parallelogram on-level factors", "statement": "Without rate changes every on-level factor is 1; with nonnegative rate changes every factor is at least 1 and at most the total rate change; a period whose rates are all at the current level has factor 1.", "quantifier": "every list of rate changes and dates", "why_tests_cant": "All inputs.", "anchors": ["chainladder/utils/utility_functions.py:parallelogram_olf"]}
{"id": "C51", "title": "drop_valuation excludes exactly the link ratios starting at the listed valuations", "statement": "With drop_valuation=v, Development averages exactly the link ratios that do not start in a cell valued at one of the listed dates.", "quantifier": "every triangle of any shape and content, every list of dates", "why_tests_cant": "Positions after filtering depend on the shape of the triangle; the mask is computed from one index/column only.", "anchors": ["chainladder/development/base.py:DevelopmentBase._drop_valuation"]}
{"id": "C52", "title": "drop_above/drop_below keep exactly the link ratios strictly between the bounds", "statement": "drop_above=a and drop_below=b keep, in each age, the link ratios strictly between b and a, provided at least `preserve` of them remain; otherwise all link ratios of that age are kept.", "quantifier": "every triangle, all bounds per age, every preserve", "why_tests_cant": "All contents and bounds, including ties with the bound.", "anchors": ["chainladder/development/base.py:DevelopmentBase._drop_x"]}
{"id": "C53", "title": "drop excludes exactly the listed link ratios", "statement": "drop=[(origin, development), ...] excludes exactly the link ratios starting in the listed cells; a label not on the axis is an error.", "quantifier": "every triangle with distinct labels, every list of cells", "why_tests_cant": "All shapes and lists.", "anchors": ["chainladder/development/base.py:DevelopmentBase._drop"]}
{"id": "C54", "title": "An operand with a single index, column, origin or development is used with every one of the other operand", "statement": "For +, -, * and / between two triangles with equal key labels and grains whose axes are pairwise equal or of length one (in either direction), the result has on each axis the labels of the longer operand, its valuation date is the later one, and each cell combines the cell of each operand at the same position, or at the only position of an axis of length one.", "quantifier": "every pair of triangles with such axes, any contents", "why_tests_cant": "All shapes on four axes in both directions (256 combinations of which axes are short), all contents.", "anchors": ["chainladder/core/dunders.py:TriangleDunders._validate_arithmetic", "chainladder/core/dunders.py:TriangleDunders._prep_columns", "chainladder/core/dunders.py:TriangleDunders._prep_origin_development", "chainladder/core/dunders.py:TriangleDunders._prep_index"]}
{"id": "C55", "title": "The inferred grain divides the spacing of the dates and is the coarsest such grain", "statement": "All dates lie a whole number of periods of the inferred grain (12, 6, 3 or 1 months) apart, and no coarser grain has this property; the result depends only on the set of dates.", "quantifier": "every list of dates", "why_tests_cant": "Any list of dates of any length.", "anchors": ["chainladder/core/base.py:TriangleBase._get_grain"]}
{"id": "C56", "title": "Chain ladder of a plain triangle, end to end", "statement": "For a regular cumulative triangle with positive recorded amounts, Chainladder().fit(X) without any prior estimator succeeds and gives for every origin its latest amount times the volume-weighted average factors of all later ages; after Development(average=...), TailConstant(tail, decay, projection_period) and Chainladder() it gives the latest amount times the chosen averages times the tail.", "quantifier": "every number of index entries, columns, origins and ages, every grain, every number of development periods per origin, every positive content, every choice of averages", "why_tests_cant": "All shapes and contents, through four estimators.", "anchors": ["chainladder/methods/base.py:MethodBase.validate_X", "chainladder/methods/chainladder.py:Chainladder.fit", "chainladder/development/development.py:Development.fit", "chainladder/tails/constant.py:TailConstant.fit", "chainladder/core/triangle.py:Triangle.link_ratio"]}
{"id": "C57", "title": "A fitted tail curve extrapolates the least-squares curve", "statement": "TailCurve keeps the factors before the attachment age, replaces later ones by one plus the fitted exponential or inverse power curve, puts the product of all further extrapolated factors in the last one (so that the age-to-ultimate factors do not depend on projection_period), and the curve is the least-squares line of log(factor-1) over the factors in fit_period and within reg_threshold; factors lying on a curve give that curve back.", "quantifier": "every pattern, fit period, threshold, attachment age, number of extrapolated and projected periods", "why_tests_cant": "All patterns of all lengths and all parameters.", "anchors": ["chainladder/tails/curve.py:TailCurve.fit", "chainladder/tails/base.py:TailBase._get_tail_prediction", "chainladder/utils/weighted_regression.py:WeightedRegression._fit_OLS"]}
{"id": "C58", "title": "full_triangle_ of the chain ladder method develops the latest amounts", "statement": "Every cell of full_triangle_ after the valuation date is the latest amount of its origin times the age-to-age factors from its current age up to the age of the cell.", "quantifier": "every triangle, every pattern of nonzero factors", "why_tests_cant": "All triangles and patterns; needs the algebra of the emergence ratios, including patterns whose product is one.", "anchors": ["chainladder/core/common.py:_get_full_triangle"]}
{"id": "C59", "title": "Berquist-Sherman leaves a steady triangle alone", "statement": "If claims are closed at the same rate for all origins (closed counts are a rate of the age times the ultimate count), closed counts and payments are positive and counts increase, and the average case reserves follow the trend, then the adjusted triangle equals the triangle. Otherwise each adjusted payment before the latest diagonal is the exponential through the two recorded payments whose closed counts enclose the adjusted count.", "quantifier": "every square triangle of three origins or more, every trend, every estimator of the ultimate counts", "why_tests_cant": "All sizes and contents; needs the algebra of the two-point exponential regression and the index lookup.", "anchors": ["chainladder/adjustments/berqsherm.py:BerquistSherman.fit"]}
{"id": "C60", "title": "Incremental additive method", "statement": "IncrementalAdditive: the rate of each age is the volume-weighted, simple or regression average of the increments, trended to the valuation date, over the exposures of the origins left by n_periods and the exclusions. incremental_ keeps the known increments; a future increment is the exposure times the rate, trended from the valuation date. Without a future trend the factors ldf_ of an origin take its latest amount to the total of its completed increments.", "quantifier": "every triangle with as many ages as origins, every nonzero exposure, every trend, average, n_periods, drop, drop_valuation, drop_high, drop_low, drop_above, drop_below and preserve", "why_tests_cant": "All triangle sizes, contents and parameter combinations; tests compare one sample triangle with published numbers.", "anchors": ["chainladder/development/incremental.py:IncrementalAdditive.fit", "chainladder/development/base.py:DevelopmentBase._set_weight_func"]}
{"id": "C61", "title": "Bootstrap samples of the chain ladder", "statement": "BootstrapODPSample: every sample has the labels of the triangle and is known exactly where the triangle is; a sampled amount is the running total of the expected increments, each plus a drawn residual times the root of the expected increment. The expected increments discount the latest amount with the fitted factors, add up to it by origin and, for volume-weighted factors, add up to the recorded increments by age. The residuals drawn from are the centred Pearson residuals, so that the mean over all draws is the expectation. The scale is Pearson's statistic over the degrees of freedom.", "quantifier": "every cumulative triangle on a regular grid, every number of samples, every table of draws, every hat adjustment and, for samples and expectation, all Development parameters", "why_tests_cant": "Random numbers: tests fix a seed and compare one total with a tolerance; the statement is for all draws and its mean is over all of them.", "anchors": ["chainladder/adjustments/bootstrap.py:BootstrapODPSample.fit", "chainladder/adjustments/bootstrap.py:BootstrapODPSample._get_simulation"]}
{"id": "C62", "title": "Bondy tail", "statement": "TailBondy keeps the factors up to the attachment age; the logarithm of the factors after it starts from the factor at the earliest age and shrinks by the fitted decay with each age; the last factor is the limit of the product of all that would follow. With one added period labels and values agree, and chain-ladder ultimates are the latest amounts times the remaining factors times the tail.", "quantifier": "every regular grid of origins and ages, every grain, every pattern with positive factor at the earliest age, every decay of absolute value below one, every earliest age and attachment age on the grid, every projection period", "why_tests_cant": "The last factor stands for an infinite product; tests compare with a few numbers for annual data and one projection period.", "anchors": ["chainladder/tails/bondy.py:TailBondy.fit"]}
{"id": "C63", "title": "Clark tail", "statement": "TailClark keeps the factors before the attachment age and replaces the others by ratios of the growth curve at the middles of consecutive periods; each is greater than one and together they multiply to the curve at the truncation age over the curve at the middle of the period attached to, whatever the projection period. Chain-ladder ultimates use the curve from the later of the origin's age and the attachment age.", "quantifier": "every regular grid, every grain, both growth curves, all positive parameters, every attachment age, truncation age and projection period", "why_tests_cant": "The product telescopes over a number of ages that depends on the triangle and the projection; tests check one triangle with a tolerance.", "anchors": ["chainladder/tails/clark.py:TailClark.fit"]}
{"id": "C64", "title": "Trend estimator", "statement": "Trend(trends, dates, axis).fit gives, for every nonzero cell, the product over the trends of (1 + trend) to the years between the cell's date (moved into the window of that trend) and the start of the window; applying trend_ to the triangle gives the amounts trended one after another. The order of the pairs of trends and dates does not matter, and one trend in two adjoining windows is the trend in both together. Cape Cod of a triangle with trend_ trends each origin by the factor of its latest cell and takes it out again.", "quantifier": "every triangle with dates, every non-empty list of trends above -100% and windows, both axes, every exposure and pattern with positive factors", "why_tests_cant": "Tests fit the estimator with one or two trends on one triangle; the product formula, the order and the adjoining windows are about all lists of trends and all dates.", "anchors": ["chainladder/adjustments/trend.py:Trend.fit", "chainladder/methods/capecod.py:CapeCod._trend"]}
{"id": "C65", "title": "Case outstanding method", "statement": "CaseOutstanding(paid_to_incurred).fit: case_ldf_ is the average over the case_n_periods latest origins of the ratio of reserves (incurred less paid) to the reserves one age before, paid_ldf_ the average over the paid_n_periods latest origins of the ratio of payments to the reserves one age before. Future reserves are the prior reserves times the case factor of the age, future paid amounts add the prior reserves times the paid factor, and incurred is paid plus reserves. ldf_ holds, for each origin, the ratios from age to age of the known and completed paid and incurred amounts.", "quantifier": "every triangle with a paid and an incurred column, at least three origins, any index, any two grains, all amounts", "why_tests_cant": "The tests fit one sample triangle and compare a number; the recursion along the ages goes through valuation-based triangles and label-aligned sums whose behaviour depends on the shape.", "anchors": ["chainladder/development/outstanding.py:CaseOutstanding.fit", "chainladder/development/outstanding.py:CaseOutstanding._set_ldf"]}
{"id": "C66", "title": "Sorting an axis", "statement": "sort_axis puts the labels of one axis in increasing order and moves every amount with its label: the amount at four labels is the same before and after, no label is lost and the other axes stay as they are; a sorted axis does not change. concat(..., sort=True) has the amounts of both triangles at their labels, and its result does not depend on the order of the triangles. Ages of development patterns are to be in order of age as well.", "quantifier": "every triangle with at least one key and age, each of the four axes, every pair of triangles that can be concatenated", "why_tests_cant": "The tests sort one shuffled sample; that labels and amounts stay together for every order of the labels, and where the string labels of patterns are out of order, is about all labels.", "anchors": ["chainladder/core/triangle.py:Triangle.sort_axis", "chainladder/utils/utility_functions.py:concat"]}
{"id": "C67", "title": "The vectors of model_diagnostics", "statement": "Latest is the latest diagonal of the model's triangle. Year Incremental and Quarter Incremental are what each origin has gained since the start of the year or quarter of the valuation date: the latest amount less the amount at the last age valued before that date, if there is one. The Run Off columns are the expected increments of the periods after the valuation date.", "quantifier": "every cumulative triangle on a regular grid, with and without groupby", "why_tests_cant": "The test only calls the function. Whether the sums over the developments telescope to the latest amount, for triangles of every size and grain, is about all amounts.", "anchors": ["chainladder/utils/utility_functions.py:model_diagnostics"]}
{"id": "C68", "title": "Sigma and standard error of the development factors", "statement": "Development.fit: sigma_ of an age is Mack's estimate, the root of the sum of the weighted squared deviations of the link ratios in use from their average over one less than their number, for volume, simple and regression averages; std_err_ is sigma_ over the root of the sum of the weights. Ages with a single link ratio get sigma_ from sigma_interpolation (Mack's rule, or the exponential of the least-squares line through the logarithms of the others) and std_err_ is that sigma_ over the root of the weight of the link ratio.", "quantifier": "every triangle on a regular grid with positive amounts, any index and columns, each average, both interpolation rules; for given 0/1 weights every finite triangle", "why_tests_cant": "The tests compare a few sample triangles with R. That the regression with weights w/x**exponent has exactly Mack's residual variance for every triangle and average, and which ages are filled from what, is about all amounts and shapes.", "anchors": ["chainladder/development/development.py:Development.fit", "chainladder/utils/weighted_regression.py:WeightedRegression.std_err_", "chainladder/utils/weighted_regression.py:WeightedRegression.sigma_fill"]}
{"id": "C69", "title": "Sigma and standard error of the tail", "statement": "Tail estimators keep sigma_ and std_err_ of the ages and add one entry for the tail: the log-linear least-squares trend of the statistic over the ages, evaluated at the age at which the log-linear least-squares trend of the factors less one equals the tail factor less one. If there is no tail (factor 1), both are zero.", "quantifier": "every pattern of two or more factors above one, every tail factor, any index and columns; for Development with TailConstant every triangle on a regular grid with positive amounts", "why_tests_cant": "The tests compare the standard errors of one sample triangle with R. Whether the two regressions are least-squares lines for every pattern, also when some factors are one, is a statement about all patterns.", "anchors": ["chainladder/tails/base.py:_get_tail_stats", "chainladder/tails/base.py:_get_tail_weighted_time_period", "chainladder/utils/weighted_regression.py:WeightedRegression"]}
{"id": "C70", "title": "MackChainladder gives Mack's standard errors", "statement": "MackChainladder().fit(Development(...).fit_transform(X)): the squared mack_std_err_ of the ultimate of an origin is U^2 times the sum over its future ages of sigma_k^2 / f_k^2 (1 / C_k^(2 - alpha) + 1 / S_k), with f_k the fitted factors, C_k the projected amounts, S_k the sum of the weights of the link ratios of the age and alpha the exponent of the average; parameter_risk_ and process_risk_ are the two parts; the squared total process risk is the sum over the origins, and the squared total parameter risk is the sum over the ages of sigma_k^2 / f_k^2 / S_k times the squared sum of the ultimates still developing at that age; total_mack_std_err_ is the root of the sum of the two squared totals; summary_ lists for each origin the latest amount, the ultimate less the latest amount, the ultimate (latest amount times the factors of its future ages) and the standard error.", "quantifier": "every triangle with one index and column on a regular grid with positive amounts, each average and both interpolation rules of sigma, no link ratio excluded, no tail", "why_tests_cant": "The tests compare the standard errors of sample triangles with R. The formula involves the whole chain of fit, default tail, full triangle and recursion, and whether it holds for every triangle (it does not when all factors are at most one: the parameter risk is then zero) cannot be sampled.", "anchors": ["chainladder/methods/mack.py:MackChainladder.fit", "chainladder/methods/mack.py:MackChainladder._mack_recursion", "chainladder/methods/mack.py:MackChainladder._get_full_std_err_", "chainladder/methods/base.py:MethodBase.validate_X", "chainladder/methods/mack.py:MackChainladder._get_total_mack_std_err_", "chainladder/methods/mack.py:MackChainladder.summary_"]}
{"id": "C71", "title": "Standardised residuals of Development", "statement": "Development(...).fit(X): std_residuals_ has one row per origin with a link ratio and one column per age; a link ratio in use has the residual (Y - f X) / (sigma sqrt(X^alpha)) with f and sigma the fitted factor and sigma of its age and alpha the exponent of the average, every other cell is missing; the residuals of an age, weighted by sqrt(X^(2 - alpha)), add up to zero, and their squares add up to the number of link ratios in use less one.", "quantifier": "every regular grid of at least three ages with positive amounts, each average and both interpolation rules of sigma, all parameters that exclude link ratios", "why_tests_cant": "Only one test looks at std_residuals_, for one triangle. That the residuals are centred and of unit variance for every triangle and pattern of exclusions, and that a zero amount (whose link ratio is not in the fit) still gets a residual, needs all inputs.", "anchors": ["chainladder/development/development.py:Development.fit", "chainladder/utils/weighted_regression.py:WeightedRegression.fit"]}
{"id": "C72", "title": "Scale and normalised residuals of ClarkLDF", "statement": "ClarkLDF(...).fit(X): with the increment expected of a known cell being the latest amount of its origin times the growth of the curve over the age, divided by the curve at the age of the latest amount, scale_ is the sum over the known cells of (observed - expected)^2 / expected over the degrees of freedom (known cells less two and less the number of origins, for the Cape Cod method less three); norm_resid_ is (observed - expected) / sqrt(scale expected) at known cells and missing elsewhere, and its squares add up to the degrees of freedom.", "quantifier": "every regular grid with positive latest amounts, both curves, all positive parameters, both methods, any number of indices and columns", "why_tests_cant": "The tests fix scale_ of one triangle to two decimals and do not look at norm_resid_. The identity of the squares must hold of every triangle, and fails exactly where an increment is zero.", "anchors": ["chainladder/development/clark.py:ClarkLDF.scale_", "chainladder/development/clark.py:ClarkLDF.norm_resid_"]}
{"id": "C73", "title": "Hat matrix adjustment of BootstrapODPSample", "statement": "BootstrapODPSample(hat_adj=True).fit(X): with positive expected increments m the design matrix (one parameter per origin and per age beyond the first) has full rank, X'WX can be inverted, and hat_ of a known cell is sqrt(1 / (1 - h)) where h, the leverage, is the share of a unit amount in the cell that its least squares two-way fit (origin + age on the log scale, weights m) returns to it; leverages add up to the number of parameters. The residuals drawn from are the centred values (recorded - m) / (sqrt(m) sqrt(1 - h)) of the recorded increments that are not as expected, and do not depend on anything but the triangle.", "quantifier": "every regular grid with any number of origins and ages, all positive expected increments, all contents of uninitialised memory; the pool for volume averages, all data and increasing amounts", "why_tests_cant": "The tests compare the mean of one resampled triangle. That the normal matrix is invertible, that the diagonal is the leverage of the two-way fit, and that the cells at which np.divide returns uninitialised memory never reach the samples are statements about all triangles and all contents of memory.", "anchors": ["chainladder/adjustments/bootstrap.py:BootstrapODPSample._get_hat", "chainladder/adjustments/bootstrap.py:BootstrapODPSample._get_design_matrix", "chainladder/adjustments/bootstrap.py:BootstrapODPSample._get_simulation"]}
{"id": "C74", "title": "Process variance of bootstrap samples", "statement": "A method fitted to BootstrapODPSample().fit_transform(X) with scale phi > 0: adding process variance to full_triangle_ leaves every recorded amount as it is (process_variance_ is zero there), replaces every later expected increment x by sign(x) * phi * g where g is a standard gamma draw of shape |x| / phi, and ultimate_ becomes the last column; draws that are not negative keep the direction of every increment, draws equal to their mean give full_triangle_ back; a seed makes the result reproducible.", "quantifier": "every regular grid with any number of origins, ages, tail periods, indices; every table of draws; every pattern and every ultimate", "why_tests_cant": "The tests check the mean of the simulated ultimates of one triangle within a tolerance. That no recorded amount is touched, that no increment changes its direction, and that seeds other than zero determine the result hold for all draws.", "anchors": ["chainladder/adjustments/bootstrap.py:_get_process_variance", "chainladder/adjustments/bootstrap.py:BootstrapODPSample.transform", "chainladder/methods/base.py:MethodBase._include_process_variance"]}
{"id": "C75", "title": "Mack standard errors of a predicted triangle", "statement": "MackChainladder().fit(Development(...).fit_transform(T)).predict(X): for a triangle X on the ages of T with as many origins, valued no earlier than T, ultimate_ is the latest amount of X times the factors of T, and parameter_risk_, process_risk_, mack_std_err_ and the totals at ultimate are Mack's formulas with the amounts of X and the factors, sigmas, weights and averages of T; for X = T they repeat the fit.", "quantifier": "every regular grid with any number of origins and ages, every average, every positive amounts of T, every positive latest amounts of X", "why_tests_cant": "The only test predicts the fitted triangle and checks that the result is truthy. The formulas hold for all amounts, and the proof shows which other triangles raise an error: every one with another number of origins, and every one that carries the statistics of a Development without a tail.", "anchors": ["chainladder/methods/mack.py:MackChainladder.predict", "chainladder/methods/mack.py:MackChainladder._mack_recursion", "chainladder/methods/mack.py:MackChainladder._get_full_std_err_", "chainladder/methods/base.py:MethodBase.predict"]}
{"id": "C76", "title": "Munich chain ladder of a transformed triangle", "statement": "MunichAdjustment(pairs).fit(T).transform(X) gives every origin of X a full triangle with its known amounts, continued with the factors and sigmas of X, the correlation of T and the paid to incurred ratios and deviations of T; latest amount times the factor to ultimate in ldf_ is its last amount; for X = T the factors are those of the fit.", "quantifier": "every square triangle T of positive amounts, any number of pairs and indices, every regular grid X with at most as many ages as T", "why_tests_cant": "The tests transform the fitted triangle of one sample. The recursion holds for all amounts and lengths, and the proof shows which other triangles raise an error or are treated differently from the fit: a third column, two more ages, zeros.", "anchors": ["chainladder/development/munich.py:MunichAdjustment.transform", "chainladder/development/munich.py:MunichAdjustment.lambda_", "chainladder/development/munich.py:MunichAdjustment._reshape"]}
{"id": "C77", "title": "Assignment to a block of cells", "statement": "tri.iloc[key] = v changes exactly the cells that tri.iloc[key] selects and puts v, broadcast, into them; reading the key back gives v. tri.loc[...] = x changes exactly the cells whose labels are asked for, tri.at[...] = x exactly one cell. tri.at with any number of labels other than one on an axis raises ValueError. With two lists of equal length iloc pairs the entries and an array is put into the pairs in order.", "quantifier": "every triangle, every key of integers, slices and one list of positions (iloc), labels on one axis of a triangle of one row (loc), every cell (at), every number or array that broadcasts", "why_tests_cant": "The tests assign to a handful of cells of one sample. Which cells change depends on two rounds of index rewriting and on numpy's rules for mixing slices and lists; the proof covers all keys and finds the combinations where other cells than the selected ones are written or an error is raised.", "anchors": ["chainladder/core/slice.py:_LocBase.__setitem__", "chainladder/core/slice.py:Ilocation.__setitem__", "chainladder/core/slice.py:Location.__setitem__", "chainladder/core/slice.py:At.__setitem__"]}
{"id": "C78", "title": "Arithmetic with an aggregate over index labels", "statement": "x * y and x / y, where y has fewer index labels than x (such as x.groupby('LOB').sum()), combine each row of x with the row of y that has its key, and a row without one with zero times the first row of y; the result has the rows of x in sorted order and does not depend on the order in which Python iterates over the sets of labels and keys.", "quantifier": "every pair of triangles of the same columns, origins and developments in which every row of y has a row of x with its key, every order of the sets", "why_tests_cant": "The tests compare one sample by its sum. The result is assembled from a slice per key, in the order of a set of strings that changes with the hash seed, and concatenated; that each row meets its own group for every index and every order needs a proof.", "anchors": ["chainladder/core/dunders.py:TriangleDunders._prep_index", "chainladder/core/dunders.py:TriangleDunders._slice_or_nan", "chainladder/core/dunders.py:TriangleDunders._get_key_union", "chainladder/core/dunders.py:TriangleDunders._arithmetic_mapper", "chainladder/core/dunders.py:TriangleDunders.__mul__", "chainladder/core/dunders.py:TriangleDunders.__truediv__"]}
{"id": "C79", "title": "Arithmetic between triangles with the same rows in another order", "statement": "x + y, x - y, x * y and x / y of triangles with the same index labels and the same rows in another order combine each row of x with the row of y of the same key, not with the row at the same place; the result has these rows in sorted order. False when the index labels of y come in another order than those of x.", "quantifier": "every pair of well-formed triangles of the same columns, origins and developments whose distinct rows are a permutation of each other, all four operators", "why_tests_cant": "The rows are realigned by sorting one side and looking its keys up in the other, and nothing in the values shows afterwards which rows met. A test of one index with one permutation says nothing about the others.", "anchors": ["chainladder/core/dunders.py:TriangleDunders._prep_index", "chainladder/core/dunders.py:TriangleDunders.__add__", "chainladder/core/dunders.py:TriangleDunders.__sub__", "chainladder/core/dunders.py:TriangleDunders.__mul__", "chainladder/core/dunders.py:TriangleDunders.__truediv__", "chainladder/core/slice.py:Location.index_key", "chainladder/core/pandas.py:TrianglePandas.sort_index"]}
{"id": "C80", "title": "Sums and differences of triangles with different rows", "statement": "x + y and x - y of triangles with the same index labels and different rows have exactly the rows of both, each once and in sorted order; each amount is the sum or difference of the two amounts of its row, a row that one triangle lacks counting as zero there, and nothing after the valuation date; x + y and y + x are the same, totals over the rows add up, and the order of Python's sets does not matter.", "quantifier": "every pair of well-formed triangles of the same columns, origins, developments and valuation date with at least two distinct rows each, whose indexes have different lengths or a row of x that y lacks, every order of the sets of labels and keys", "why_tests_cant": "There are two code paths, one by the number of rows and one by an exception caught in between, and the result is pieced together in the order of a set of tuples. A test fixes one index, one path and one order.", "anchors": ["chainladder/core/dunders.py:TriangleDunders._prep_index", "chainladder/core/dunders.py:TriangleDunders._slice_or_nan", "chainladder/core/dunders.py:TriangleDunders._get_key_union", "chainladder/core/dunders.py:TriangleDunders._arithmetic_mapper", "chainladder/core/dunders.py:TriangleDunders.__add__", "chainladder/core/dunders.py:TriangleDunders.__sub__"]}
{"id": "C81", "title": "Renaming columns and index", "statement": "rename('columns', names) and set_index with as many names or rows as the axis has leave a coherent triangle in which each new name or row holds the amounts that were at its place; any other number raises ValueError. False of tri.columns = 'name', which compares the length of the string with the number of columns, and of assigning the development labels of a valuation triangle, which turns dates into ages.", "quantifier": "every well-formed triangle with distinct column names, every list of distinct new names, every new index", "why_tests_cant": "Tests rename one column of one sample. That labels and array never disagree, for any number and choice of names, is an invariant; the string that happens to have as many letters as there are columns is never sampled.", "anchors": ["chainladder/core/pandas.py:TrianglePandas.rename", "chainladder/core/triangle.py:Triangle.columns", "chainladder/core/triangle.py:Triangle.index", "chainladder/core/triangle.py:Triangle.development", "chainladder/core/triangle.py:Triangle.set_index", "chainladder/core/base.py:TriangleBase._len_check"]}
{"id": "C82", "title": "head, tail and append", "statement": "head(n) has the first n rows and tail(n), for n > 0, the last n rows (all rows when there are fewer), with labels, columns, origins, ages and amounts unchanged; appending tail(len - n) to head(n) gives every row of the triangle again with its amounts, and the totals of both parts add up to the total of the triangle. head(-n) and tail(-n) leave out the last and the first n rows, n being at most the number of rows. tail(0) is false: it returns every row instead of none; so is head(-n) for n beyond the number of rows, which also returns every row.", "quantifier": "every well-formed triangle with at least one age, every number of rows n; for append, distinct index rows", "why_tests_cant": "Tests look at one or two fixed n of one sample. That the slices cover every row once for all n, including n beyond the number of rows, is a statement about the slice arithmetic.", "anchors": ["chainladder/core/pandas.py:TrianglePandas.head", "chainladder/core/pandas.py:TrianglePandas.tail", "chainladder/core/pandas.py:TrianglePandas.append", "chainladder/core/slice.py:Ilocation"]}
{"id": "C83", "title": "minimum and maximum", "statement": "x.minimum(cap) with cap >= 0 limits every amount and keeps labels, valuation date and missing cells; x - x.minimum(cap) is the excess over cap, never negative, and both layers add up to x; x.minimum(b) - x.minimum(a) is the part of every amount between a and b; two limits are the lower one. The minimum of two triangles on common axes with amounts that are not negative is the lower amount of each cell; where the same cells are missing, minimum and maximum add up to x + y. False of negative limits and of maximum where an amount is zero (stored as missing, it stays missing), and of triangles whose labels differ: the arrays are combined by position, and the result may have more rows than labels.", "quantifier": "every ordinary triangle (shape, order and known cells), every limit; for two triangles, common axes", "why_tests_cant": "Tests cap one column of one sample at one amount. That layers add up for every limit and triangle, and what happens to missing cells and other labels, needs a proof over all cells.", "anchors": ["chainladder/core/pandas.py:TrianglePandas.minimum", "chainladder/core/pandas.py:TrianglePandas.maximum", "chainladder/core/base.py:TriangleBase.__array_ufunc__", "chainladder/utils/utility_functions.py:minimum"]}
{"id": "C84", "title": "Exponential, logarithm, square root and powers", "statement": "x.log().exp() gives a triangle without negative amounts back, x.exp().log() any triangle, and the square of x.sqrt() has the amounts of x; the logarithm of x * y has the amounts of the sum of the logarithms for positive numbers with the same cells missing; the amounts of x ** n are the powers of the amounts; the square root of x * y has the amounts of the product of the square roots, that of x ** 2 the absolute amounts. False of the logarithm of a product where only one amount is missing, of exp where an amount is zero (stored as missing, it stays missing), and of powers after the valuation date: every unknown cell becomes a number.", "quantifier": "every ordinary triangle over the reals (powers: any ordered field), every natural exponent", "why_tests_cant": "Tests apply the functions to one sample and compare with numpy. The laws over all amounts, and what happens to missing and future cells, need a proof.", "anchors": ["chainladder/core/pandas.py:TrianglePandas.exp", "chainladder/core/pandas.py:TrianglePandas.log", "chainladder/core/pandas.py:TrianglePandas.sqrt", "chainladder/core/base.py:TriangleBase.__array_ufunc__", "chainladder/core/dunders.py:TriangleDunders.__pow__"]}
{"id": "C85", "title": "Development with fillna", "statement": "Development(fillna=v) computes its factors from a triangle in which v is added to every cell up to the valuation date and no later cell is filled; the factors are the volume-weighted, simple and regression averages of the amounts so increased, and none is missing where an origin has a weight. False of the documentation, which says that zero or nan values are filled: every known amount changes, and a factor above one is pulled towards one.", "quantifier": "every ordinary cumulative triangle (factors: without negative amounts), every positive v, every n_periods, drop and drop_valuation", "why_tests_cant": "The tests compare one sample with a recorded number. That amounts which are not missing are changed as well, for every triangle, and by how much the factor moves, needs a proof.", "anchors": ["chainladder/development/development.py:Development.fit"]}
