#!/usr/bin/env python3
# Generates /verif/properties.jsonl (single source of truth for the property list).
import json, os
P = []
def p(title, statement, quantifier, why, anchors):
    P.append(dict(id="C%02d" % (len(P)+1), title=title, statement=statement,
                  quantifier=quantifier, why_tests_cant=why, anchors=anchors))

p("Slice expansion agrees with Python",
  "When a View (or var.slice[...]) is given a Python slice whose start/stop are None or lie within [-n, n] (n the axis length; for descending slices a start of -n-1..n-1), the integer positions it selects are exactly the positions Python/numpy itself would select from a length-n sequence, in the same order.",
  "every axis length n, every step (positive or negative, any size), every start/stop None or within the in-range window",
  "infinitely many (start, stop, step, n) combinations; sign and None cases interact",
  ["pygeode/view.py:expand"])
p("Index lists compress to slices without changing meaning",
  "View stores a compressed form of an index list; applying the compressed form to any array long enough yields the same elements, in the same order, with the same multiplicity, as applying the list, and re-expanding the compressed form gives the original list back.",
  "every list of non-negative indices (any length, ascending, descending, constant, irregular), every array whose length exceeds the largest index",
  "the corner cases (single element, constant step, step 0, descending through 0, stop = -1) are a finite set of bugs but the claim ranges over all lists",
  ["pygeode/view.py:simplify", "pygeode/view.py:expand"])
p("Contiguous runs partition a request",
  "Splitting an index list into contiguous runs loses nothing: the runs, concatenated in order, are the original list; within each run indices rise by exactly 1; and no two adjacent runs could have been merged.",
  "every index list of any length",
  "all lists of all lengths",
  ["pygeode/view.py:contiguate"])
p("Contiguous block loop reassembles the whole request",
  "Reading a request as the sequence of (output block, start, count) hyper-rectangles and storing each block into the output array fills every output cell exactly once with the value at the requested source position.",
  "every number of axes, every list of requested indices per axis, every source array",
  "product over unboundedly many axes and index lists",
  ["pygeode/view.py:View.loop_contiguous", "pygeode/view.py:View.get"])
p("Memory-limited chunks partition a view",
  "Iterating over a view in memory-limited chunks visits every requested cell exactly once; along each axis the chunk index lists concatenate to the requested index list in order; axes listed in `preserve` are never split.",
  "every number of axes, all axis request lengths >= 1, every memory limit >= 1, every set of preserved axes",
  "depends on integer division cascades for all shapes and limits",
  ["pygeode/view.py:View.loop_mem", "pygeode/view.py:View._loop_mem"])
p("Memory-limited chunks respect the limit",
  "Each chunk produced by the memory loop holds at most max(limit, product of the preserved axes' lengths) values; with no preserved axes each chunk holds at most `limit` values.",
  "every shape, every limit >= 1, every preserve set",
  "size bound over all shapes and limits",
  ["pygeode/view.py:View.loop_mem"])
p("Repeated or unsorted indices return the requested values",
  "Asking for indices in any order, with repeats, returns exactly the values at those positions in that order, although the implementation reads each distinct position once in ascending order.",
  "every request list over every axis, every source",
  "needs search-in-sorted-unique correctness for every list",
  ["pygeode/view.py:View.get"])
p("Reading a view is pointwise and independent of how a variable stores its data",
  "The array obtained for a view of a variable has, at each output cell, the value of the variable at the position given by the view's indices; the result is the same whether the variable holds its values in memory, implements getview, or implements getvalues (contiguous block reads); axes of the view the variable does not have appear with length 1.",
  "every variable, every view whose axes include the variable's axes in any order",
  "all ranks, axis orders and index lists",
  ["pygeode/view.py:View.get", "pygeode/view.py:View.map_to"])
p("Axis selection keywords intersect",
  "var(lat=(a,b), n_lat=..., i_lat=..., l_lat=...) keeps exactly the positions that satisfy every condition given, in the axis's original order, and the outcome does not depend on the order of the keywords.",
  "every axis, every finite collection of selection keywords in any order",
  "unbounded number of conditions and orders",
  ["pygeode/axis.py:Axis.get_slice", "pygeode/var.py:Var.__call__"])
p("Range selection is inclusive and order-insensitive",
  "Selecting an axis by a 2-tuple (a,b) keeps exactly the values v with min(a,b) <= v <= max(a,b), so (a,b) and (b,a) select the same thing; the n_ prefix keeps exactly the complement.",
  "every axis and every pair of bounds",
  "all values and bounds",
  ["pygeode/axis.py:Axis.get_slice"])
p("Scalar selection picks a nearest value",
  "Selecting an axis by a single float keeps exactly one position, whose value is at minimal distance from the request (the first such position when tied).",
  "every non-empty axis and every request",
  "argmin over lists of all lengths",
  ["pygeode/axis.py:Axis.get_slice"])
p("Coordinate sort is a correct index sort",
  "The C sort used for coordinate matching returns the input values in non-decreasing order together with a permutation of positions such that value k of the output is the input value at position k of the permutation.",
  "every array of every length",
  "all arrays; three code paths (sorted, reverse-sorted, merge sort)",
  ["pygeode/tools.c:sort", "pygeode/tools.c:msort"])
p("Coordinate matching is sound",
  "When matching requested coordinates against an axis, every reported position holds a coordinate whose distance to the requested one is at most rtol times the requested magnitude; requested coordinates with no such match are dropped and the matches come back in the order requested.",
  "every axis array, every request array, every tolerance",
  "two-pointer walk over arbitrary arrays",
  ["pygeode/tools.c:map_to", "pygeode/tools.py:map_to", "pygeode/axis.py:Axis.map_to"])
p("Coordinate matching is complete on distinct coordinates",
  "If the axis coordinates are pairwise distinct and some coordinate lies within tolerance of the requested value, a match is reported, and it is a nearest coordinate.",
  "every axis with pairwise distinct values, every request, every tolerance",
  "needs a walk invariant over all arrays",
  ["pygeode/tools.c:map_to"])
p("Slicing then reading returns the data at the sliced positions",
  "var.slice[s] locates its data by matching sliced coordinates back to the original axis; for axes whose coordinates are pairwise distinguishable at the tolerance of axis equality (1e-8 + 1e-5|y|) the data read are exactly those at s, whatever the order or repetition in s, along every axis at once. (For coordinates that are distinct but closer than that, e.g. [1000000, 1000001], the code reads the wrong positions.)",
  "every variable with axes of different kinds and pairwise distinguishable coordinates, all index lists s, every request on the sliced variable, every matching tolerance >= 0",
  "composition of slicing, sorting and matching for all arrays",
  ["pygeode/varoperations.py:SlicedVar", "pygeode/axis.py:Axis.map_to", "pygeode/tools.c:map_to"])
p("Common coordinates of two axes",
  "common_map of two coordinate arrays reports pairs of positions holding equal coordinates.",
  "every pair of arrays",
  "all arrays of doubles, including coordinates closer than 1 apart",
  ["pygeode/tools.c:common_map", "pygeode/tools.py:common_map"])
p("Binned sums accumulate every value exactly once",
  "Accumulating data into bins along one axis adds each value to the cell of its bin and nothing else, and the counts are the numbers of values per bin; summing in several chunks gives the same totals as summing at once.",
  "every outer/inner/bin size, every bin assignment, every split of the data into chunks",
  "strided pointer arithmetic over all sizes",
  ["pygeode/tools.c:partial_sum", "pygeode/tools.py:partial_sum"])
p("NaN-aware binned sums ignore exactly the NaNs",
  "The NaN-skipping accumulation gives for each bin the sum and count of the non-NaN values only.",
  "every size, bin assignment and NaN pattern",
  "all NaN patterns",
  ["pygeode/tools.c:partial_nan_sum", "pygeode/tools.py:partial_nan_sum"])
p("Date lookup by binary search is exact",
  "Looking up a date tuple in a sorted list of distinct date tuples returns its position if present and a failure otherwise.",
  "every tuple width, every sorted list of every length, every tuple looked up",
  "binary search over all sizes",
  ["pygeode/timeaxis.c:get_index", "pygeode/timeaxis.c:get_indices"])
p("Uniquifying dates",
  "Removing duplicate date tuples from a lexicographically sorted list returns a strictly increasing list with exactly the same set of tuples.",
  "every sorted list of tuples",
  "relies on the lookup invariant at each step",
  ["pygeode/timeaxis.c:uniquify", "pygeode/timeutils.py:_uniquify"])
p("Standard calendar round trip",
  "Converting a valid Gregorian date (with optional time) to seconds relative to any start date and back gives the same date.",
  "every year (negative too), month, day, time and every start date",
  "unbounded years, leap-year rules, loops in the C code",
  ["pygeode/timeaxis.c:date_as_val_std", "pygeode/timeaxis.c:val_as_date_std", "pygeode/timeaxis.c:ndays"])
p("Standard calendar inverse round trip",
  "Converting any number of seconds relative to a start date to a date gives valid fields (month 1..12, day within the month, time within the day), and converting that date back gives the same number of seconds.",
  "every integer offset, every valid start date",
  "unbounded offsets, both signs",
  ["pygeode/timeaxis.c:val_as_date_std", "pygeode/timeaxis.c:date_as_val_std"])
p("365-day calendar round trips",
  "On the 365-day calendar, date to offset to date and offset to date to offset are both the identity, and decoded fields are always valid.",
  "every year, month, day, time, offset and start date",
  "unbounded domain",
  ["pygeode/timeaxis.c:date_as_val_365", "pygeode/timeaxis.c:val_as_date_365"])
p("360-day calendar round trips",
  "On the 360-day calendar, date to offset to date and offset to date to offset are both the identity, and decoded fields are always valid.",
  "every year, month, day, time, offset and start date",
  "unbounded domain",
  ["pygeode/timeaxis.c:date_as_val_360", "pygeode/timeaxis.c:val_as_date_360"])
p("Yearless calendar round trips",
  "On the yearless calendar (running day counter) both conversions are inverse to each other.",
  "every day, time, offset and start day",
  "unbounded domain",
  ["pygeode/timeaxis.c:date_as_val_yearless", "pygeode/timeaxis.c:val_as_date_yearless"])
p("Month overflow wraps to neighbouring years",
  "A month outside 1..12 passed to the standard or 365-day calendar means the same date as the wrapped month in the adjusted year (13 = January of the next year, 0 = December of the previous year).",
  "every integer month and year",
  "all integers; C truncating division",
  ["pygeode/timeaxis.c:date_as_val_std", "pygeode/timeaxis.c:date_as_val_365"])
p("Offsets order dates chronologically",
  "For valid dates, a date is earlier than another iff its offset from any common start date is smaller; equal iff equal.",
  "every pair of valid dates, every start date, every calendar",
  "all pairs",
  ["pygeode/timeaxis.c:date_as_val_std", "pygeode/timeaxis.c:date_as_val_365", "pygeode/timeaxis.c:date_as_val_360"])
p("Changing the start date shifts all offsets by one constant",
  "The offset of a date relative to start A equals its offset relative to start B plus the offset of B relative to A.",
  "every date and every pair of start dates, every calendar",
  "all triples",
  ["pygeode/timeaxis.c:date_as_val_std", "pygeode/timeaxis.py:CalendarTime.date_as_val", "pygeode/timeutils.py:reltime"])
p("Day counts between years",
  "The number of days between 1 January of two years is the sum of the lengths of the years in between, 366 for Gregorian leap years and 365 otherwise, and is negative when the years are swapped.",
  "every pair of integer years",
  "unbounded",
  ["pygeode/timeaxis.c:ndays", "pygeode/timeaxis.c:isleap"])
p("Compact dates decode to their digits",
  "Time axes built from yyyymmdd or yyyymmddhh values get the year, month, day, hour those digits spell.",
  "every year >= 0, month 1..12, day 1..31, hour 0..23",
  "all dates",
  ["pygeode/timeaxis.py:CalendarTime.__init__"])
p("Dataset variables have unique names",
  "After building a Dataset from any list of variables, no two variables share a name, none is blank, and each can be looked up by its name.",
  "every list of variable names, including names that already look like generated ones",
  "adversarial name collisions",
  ["pygeode/dataset.py:Dataset.__init__"])
p("Dataset axes: equal axes share a name, unequal axes do not",
  "After building a Dataset, two axes of its variables have the same name only if they are equivalent.",
  "every list of variables and axes",
  "adversarial name collisions",
  ["pygeode/dataset.py:Dataset.__init__", "pygeode/dataset.py:axis_name_clumping"])
p("Attribute merging keeps exactly the agreed attributes",
  "Merging attribute dictionaries keeps a key iff every dictionary has it with the same value.",
  "every finite list of dictionaries",
  "all lists",
  ["pygeode/tools.py:common_dict"])
p("Arithmetic broadcasts by axis, not by position",
  "Combining variables elementwise gives at each coordinate of the combined axes the operation applied to each operand's value at that operand's own coordinates; swapping operands of a commutative operation does not change the value at any coordinate.",
  "every operand rank, axis order and shared-axis pattern",
  "all axis patterns",
  ["pygeode/ufunc.py:UfuncVar", "pygeode/tools.py:combine_axes"])
p("Axis lookup returns the first match",
  "whichaxis by name returns the smallest position whose axis answers to that name, and fails iff none does.",
  "every axis list and name",
  "all lists",
  ["pygeode/tools.py:whichaxis", "pygeode/axis.py:Axis.has_alias"])
p("Transposition relabels without changing data",
  "Transposing to any order of axes gives at each permuted index the same value, transposing twice composes, and axes left out are appended in their original order.",
  "every rank, every (partial) order",
  "all permutations",
  ["pygeode/varoperations.py:TransposedVar"])
p("Squeeze and extend are inverse up to degenerate axes",
  "Squeezing removes exactly length-one axes and no data; extending adds an axis of length n along which the data are constant.",
  "every shape",
  "all shapes",
  ["pygeode/varoperations.py:SqueezedVar", "pygeode/varoperations.py:ExtendedVar"])
p("Concatenation puts each piece at its place",
  "Concatenating variables along an axis gives at position p of the joined axis the value from the piece that contributed that position.",
  "every number of pieces and lengths, every request",
  "all partitions and requests",
  ["pygeode/concat.py:ConcatVar"])
p("Fill and unfill",
  "fill(v) replaces exactly the NaNs by v and unfill(v) exactly the values equal to v by NaN; unfilling what was filled with a value absent from the data restores the data.",
  "every data array and fill value",
  "all NaN patterns",
  ["pygeode/varoperations.py:FillVar", "pygeode/varoperations.py:UnfillVar"])
p("Sum, mean, min and max do not depend on chunking",
  "Reducing a variable over axes gives the sum, mean, minimum, maximum over exactly the cells of the reduced axes, whatever the memory limit.",
  "every data set, every partition of the request into chunks",
  "all chunkings",
  ["pygeode/reduce.py:SumVar", "pygeode/reduce.py:MeanVar", "pygeode/reduce.py:MinVar", "pygeode/reduce.py:MaxVar", "pygeode/tools.py:loopover"])
p("Argmin/argmax do not depend on chunking",
  "argmax/argmin over an axis gives the first position attaining the extreme over the whole axis, whatever the memory limit.",
  "every data set and chunking",
  "all chunkings",
  ["pygeode/reduce.py:ArgMaxVar", "pygeode/reduce.py:ArgMinVar"])
p("NaN-aware reductions ignore exactly the NaNs",
  "nansum, nanmean, nanmin, nanmax, nanvariance equal the plain reductions over the non-NaN cells; cells with no valid data give NaN (mean).",
  "every data set, NaN pattern and chunking",
  "all patterns",
  ["pygeode/reduce.py:NANSumVar", "pygeode/reduce.py:NANMeanVar", "pygeode/reduce.py:NANVarianceVar"])
p("Variance formula",
  "The one-pass variance (sum of squares minus N times squared mean, over N-1) equals the definition: sum of squared deviations from the mean over N-1; it is non-negative in exact arithmetic.",
  "every data set with at least two values",
  "algebraic identity over all data",
  ["pygeode/reduce.py:VarianceVar"])
p("Weighted mean",
  "The weighted mean equals sum(w*x)/sum(w) over the reduced cells, whatever the chunking and whatever axes the weights lack.",
  "every data set, weights and chunking",
  "all chunkings",
  ["pygeode/reduce.py:WeightedMeanVar"])
p("Forward difference",
  "diff(n) at position i is the n-th forward difference of the data at i, for any requested subset of positions in any order.",
  "every data set, order n and request",
  "all requests",
  ["pygeode/diff.py:ForwardDifferenceVar"])
p("Derivative stencil stays in bounds and is exact on linear data",
  "deriv at every position uses two distinct in-range neighbours and returns the exact slope for data linear in the coordinate.",
  "every axis of at least two points, every differencing type, every request",
  "all positions and lengths",
  ["pygeode/deriv.py:DerivativeVar"])
p("Integration is a running sum",
  "integrate/cumsum at position i is v0 plus the sum of the increments up to i (from the far end for order=-1), so differencing the integral gives back the increments.",
  "every data set, coordinate, start value, direction and rule",
  "all lengths",
  ["pygeode/intgr.py:IntegrateVar"])
p("Longitude rotation",
  "rotatelon(origin) maps every longitude to a value congruent to it modulo 360 inside [origin, origin+360) and sorted.",
  "every longitude array and origin",
  "modular arithmetic over all values",
  ["pygeode/axis.py:rotatelon"])
p("Nested progress stays in range and monotone",
  "Progress reported through nested subset/part bars lies between 0 and 100 and within the parent's interval; consecutive parts tile the parent's interval without gap.",
  "every nesting depth, every part count",
  "unbounded nesting",
  ["pygeode/progress.py:PBar"])
p("CF names are valid and stable",
  "The CF-safe version of a non-empty name contains only letters, digits and underscores, does not start with a digit, keeps already-valid names unchanged, and applying the conversion twice changes nothing more.",
  "every non-empty string",
  "all strings",
  ["pygeode/formats/cfmeta.py:fix_name"])
p("CF time units round trip",
  "Writing a time axis's start date as CF units and parsing the text back gives the same start date and units.",
  "every start date with non-negative year",
  "formatting and parsing over all numbers",
  ["pygeode/formats/cfmeta.py:encode_cf", "pygeode/formats/cfmeta.py:decode_cf"])
p("CF fill values",
  "When a variable carries a _FillValue, decoding turns exactly the cells equal to it into NaN and applies scale and offset to all others.",
  "every data array, fill value, scale and offset",
  "includes the fill value 0",
  ["pygeode/formats/cfmeta.py:var_newaxes", "pygeode/formats/cfmeta.py:decode_cf"])
p("Seasonal binning",
  "Every date falls in exactly one meteorological season, December counts to the DJF season of the following year.",
  "every date",
  "all dates and years",
  ["pygeode/timeaxis.py:SeasonalTime._get_seasons"])
p("Climatological means are group means",
  "climatology / monthly / yearly means give for each output time the mean of exactly the input values whose retained date fields equal it, whatever the chunking.",
  "every time axis, data set and chunking",
  "all groupings and chunkings",
  ["pygeode/climat.py:Mean", "pygeode/climat.py:loopover", "pygeode/timeutils.py:modify"])
p("Lagged copies",
  "lag(v) at (t, l) is v at t+l when that position exists and NaN otherwise.",
  "every lag list, request and length",
  "all requests",
  ["pygeode/timeutils.py:LagVar"])
p("Multifile reads route each time to its file",
  "A multi-file variable returns for each requested time the value stored under that time in the file whose start is the latest not after it, and raises an error rather than returning data if some time is found in no file.",
  "every set of files, every request order",
  "all file layouts and request orders",
  ["pygeode/formats/multifile.py:Multifile_Var.getview"])
p("Smoothing mirrors at the ends",
  "smooth at position i is the kernel-weighted average of the data extended by reflection, for any requested subset; smoothing constant data returns it unchanged.",
  "every data set, kernel and request",
  "all requests and lengths",
  ["pygeode/smooth.py:SmoothVar"])

p("Time values in any unit round trip",
  "A date converted to a value on the time axis (in seconds, minutes, hours or days) and back is the same date; a value converted to a date and back changes by at most half a second.",
  "every calendar, start date, unit, valid date and rational value",
  "all values, units, and dates",
  ["pygeode/timeaxis.py:CalendarTime.val_as_date", "pygeode/timeaxis.py:CalendarTime.date_as_val"])
p("days_in_month is the length of the month",
  "days_in_month(year, month) returns the number of days of that month in the calendar of the axis.",
  "every calendar, year and month 1..12",
  "all years",
  ["pygeode/timeaxis.py:CalendarTime.days_in_month"])
p("Day of the year",
  "The day-of-year ($j when formatting) of a date is the number of days since the start of its own year, counting 1 January as 1.",
  "every calendar and valid date",
  "depends on every year's leap status",
  ["pygeode/timeaxis.py:CalendarTime._getdoy"])

p("Common dates of two time axes",
  "common_map of two time axes reports only pairs of positions with equal common date fields; if the common fields are distinct on at least one axis it reports all such pairs, and they fit the buffers allocated.",
  "every pair of time axes in any storage order",
  "sort, merge walk and index translation over all inputs",
  ["pygeode/timeaxis.c:common_map", "pygeode/timeaxis.py:Time.common_map"])
p("Nearest earlier date",
  "The nearest-lower lookup returns the last position whose date is not after the requested one, and failure exactly when all dates are after it.",
  "every sorted list of date tuples and every request",
  "binary search over all sizes",
  ["pygeode/timeaxis.c:nearest_lower"])
p("Mapping a time axis to other dates",
  "For a time axis with distinct full dates, map_to another time axis returns, in the other axis's order, exactly the positions of its dates that occur on the axis.",
  "every calendar, start date, axis order and request",
  "combines calendar order, argsort and binary search",
  ["pygeode/timeaxis.py:Time.map_to", "pygeode/timeaxis.c:get_indices"])

p("The trend is the least squares line",
  "The two coefficients returned by the trend operations for each output time are the constant and slope of the unique line that minimises the sum of squared residuals over exactly the input times of that output time, whatever the chunking.",
  "every time axis, data set, grouping and chunking in which the times of the group are not all equal",
  "all data sets and chunkings",
  ["pygeode/climat.py:Trend"])

p("What equality of axes means",
  "Axes that compare equal have compatible classes, the same length and values within 1e-8 + 1e-5|y| position by position (generic axes also the same name), and a copy of an axis compares equal to it. (Equality is neither symmetric nor transitive.)",
  "every pair of axes",
  "ranges over all value arrays",
  ["pygeode/axis.py:is_equivalent"])

p("Slicing, sorting and relabelling move data with their coordinates",
  "Sorting a variable orders each sorted axis and moves the data along with the axis values; replacing or renaming axes keeps the data at every position; slicing a slice reads the positions of the positions; selecting and transposing commute; slices with an Ellipsis apply to the first and last axes.",
  "every variable, order, replacement, pair of slices and request",
  "must hold for every chain of operations and every shape",
  ["pygeode/varoperations.py:SortedVar", "pygeode/varoperations.py:Replace_axes", "pygeode/varoperations.py:RenamedVar", "pygeode/varoperations.py:SlicedVar"])

p("Joining datasets groups variables by name",
  "pygeode.dataset.concat makes one variable for every name found in any of the datasets, in the order in which the names are first found, from all variables with that name in the order of the datasets.",
  "every list of datasets", "any number of datasets with different sets of variables", ["pygeode/dataset.py:concat"])
p("Axis kinds and auxiliary arrays survive CF metadata",
  "Latitude, longitude, pressure and hybrid-level axes written with CF metadata are recognised as such when read back, whatever other attributes they carry; plain x/y/z/t axes keep their kind unless their name or attributes claim another; auxiliary arrays come back under their names.",
  "every axis name, attribute set and list of auxiliary array names without blanks",
  "all attribute combinations",
  ["pygeode/formats/cfmeta.py:encode_cf", "pygeode/formats/cfmeta.py:decode_cf"])
p("Interpolated rows depend only on their own finite points",
  "Given rows of values with coordinates that all increase or all decrease (one set of coordinates for all rows or one for each), each output value is the method's value for exactly the finite points of its own row: NaN with too few points, outside the points a straight line with the given slope, and values or coordinates that are not finite count as absent. With omit_nonmonotonic, points that step back behind an earlier point are left out; without it, folded coordinates give an error and never a value.",
  "every number of rows and points, every placing of NaNs, both directions, shared or separate coordinates",
  "ranges over all data, missing-value patterns and coordinate layouts",
  ["pygeode/interp.c:interpgsl"])
p("Linear interpolation",
  "Linear interpolation passes through all its points, lies on the straight line between the two neighbouring points elsewhere, and reproduces data that depend linearly on the coordinate.",
  "every strictly increasing list of at least two points and every coordinate between them",
  "ranges over all point lists and coordinates",
  ["pygeode/interp.c:interpgsl", "pygeode/interp.py:interpolate"])
p("Interpolated variables",
  "interpolate replaces one axis of a variable by another; at every position of the other axes the result holds what the finite values along the old axis at that position give, with coordinates taken from the axes or from variables that may depend on the other axes too. With transpose=True (the default) the new axis takes the place of the old one.",
  "every variable, axis, new axis, coordinate variables and request",
  "ranges over all shapes, axis orders, coordinate fields and requested views",
  ["pygeode/interp.py:Interp", "pygeode/interp.py:interpolate"])
p("Regression is least squares over the pairs of valid values",
  "regress(X, Y, axes) returns, at every position of the axes that are not regressed over, the slope and intercept of the unique straight line with the least sum of squared residuals through the pairs of values of X and Y there, counting exactly the pairs in which neither is NaN; r2 is one minus the residual over the total sum of squares, the standard errors are the textbook ones with N - 2 (or N / N_fac - 2) degrees of freedom; all are NaN with too few pairs or if X takes only one value. X and Y may have different axes; by default the common ones are regressed over, and naming one that is not common is an error.",
  "every pair of variables, axis orders, placing of NaNs, choice of axes and memory limit",
  "ranges over all data, shapes, missing-value patterns and chunkings",
  ["pygeode/stats.py:regress", "pygeode/tools.py:shared_axes"])
p("Correlation is Pearson's coefficient of the pairs of valid values",
  "correlate(X, Y, axes) returns, at every position of the axes left, Pearson's correlation coefficient of the pairs of values in which neither is NaN, a number between -1 and 1 that is 1 or -1 exactly if the pairs lie on a straight line, and NaN if there is no pair or one variable takes only one value.",
  "every pair of variables, axis orders, placing of NaNs, choice of axes and memory limit",
  "ranges over all data, shapes, missing-value patterns and chunkings",
  ["pygeode/stats.py:correlate"])
p("Differences of means",
  "difference(X, Y, axes) returns, at every position of the axes left, the difference of the means of the valid values of X and Y, the Welch-Satterthwaite degrees of freedom and (through p and ci) the standard error of the difference; NaN where one variable has fewer than two valid values. axes may be left out; the order of the axes of X and Y does not matter.",
  "every pair of variables with the same axes, placing of NaNs, choice of axes and memory limit",
  "ranges over all data, shapes, missing-value patterns and chunkings",
  ["pygeode/stats.py:difference"])
p("Paired differences",
  "paired_difference(X, Y, axes) returns, at every position of the axes left, the mean of the differences X - Y over the pairs in which neither is NaN, N - 1 degrees of freedom, and (through p and ci) the standard error of that mean, the square root of the sample variance divided by N; NaN with fewer than two pairs.",
  "every pair of variables, placing of NaNs, choice of axes and memory limit",
  "ranges over all data, shapes, missing-value patterns and chunkings",
  ["pygeode/stats.py:paired_difference"])
p("Tests of a mean",
  "isnonzero(X, axes) returns, at every position of the axes left, the mean of the valid values and (through p and ci) the standard error of that mean, the square root of the sample variance divided by their (effective) number; NaN without valid values.",
  "every variable, placing of NaNs, choice of axes and memory limit",
  "ranges over all data, shapes, missing-value patterns and chunkings",
  ["pygeode/stats.py:isnonzero"])
p("Datasets made from a set of files cover the files' data, no more and no less",
  "The search of from_files for datasets ends, and its datasets cover exactly the points (variable and coordinates) that some file has: no dataset offers a point that no file holds, and every point of a file is offered by some dataset. No dataset is repeated or contained in another, and each has the axes of one of the pieces, in that order.",
  "every collection of pieces of data (variables with their axes) in which pieces with the same axes have them in the same order, however they overlap, and every order in which Python visits its sets",
  "the search is a fixed-point iteration over sets of merged pieces; ranges over all collections and overlaps, and includes termination",
  ["pygeode/formats/data_scanner.py:_get_domains", "pygeode/formats/data_scanner.py:_merge_domains", "pygeode/formats/data_scanner.py:_cleanup_subdomains", "pygeode/formats/data_scanner.py:from_files"])
p("A manifest never hides that a file has changed",
  "from_files with a manifest file answers, for every file listed, with what is in that file now, as a scan without a manifest would; files that changed since the manifest was saved are read again.",
  "every history of files written, replaced and removed, of runs listing any files in any order, and of runs killed at any point",
  "ranges over all histories and crash points of a state that lives on disk between processes",
  ["pygeode/formats/data_scanner.py:_Manifest", "pygeode/formats/data_scanner.py:from_files"])
p("A killed run leaves a usable manifest",
  "Whenever a run of from_files with a manifest file is interrupted, a later run with the same manifest can start.",
  "every history of writes and runs, and every point at which a run is killed",
  "ranges over all crash points of the saving",
  ["pygeode/formats/data_scanner.py:_Manifest.save", "pygeode/formats/data_scanner.py:_Manifest.__init__"])
p("A variable put together from several files has their values",
  "Reading any part of a variable returned by from_files gives at every requested point the value stored by a file that has this point (the last one listed if there are several), and NaN at points no file has.",
  "every collection of files, overlapping or not, with gaps or not, and every request",
  "ranges over all data, overlaps and requests; the place of each piece is found by a search whose result depends on the order of the axis",
  ["pygeode/formats/data_scanner.py:_DataVar.getview", "pygeode/formats/data_scanner.py:AxisManager._get_axis_intersection"])
p("A dataset saved to netCDF and opened again is the same",
  "save followed by open gives a dataset with the same variables in the same order, each with the same name, the same axes (names, values, order; an axis without values keeps its name and length) and the same value at every position, whatever the memory limit (the number of pieces in which the data are written).",
  "every dataset, any number of variables and axes of any length sharing axes in any way, and every memory limit",
  "ranges over all datasets, shapes and memory limits; the pieces in which data are written depend on the limit",
  ["pygeode/formats/netcdf4.py:save", "pygeode/formats/netcdf4.py:write_var", "pygeode/formats/netcdf4.py:tidy_axes", "pygeode/formats/netcdf4.py:open", "pygeode/formats/netcdf4.py:dims2axes", "pygeode/formats/netcdf4.py:NCVar.getvalues"])
p("Packed variables come back within the packing error",
  "Saving with pack stores every value of a variable as a 16-bit integer together with a scale and an offset. When the file is read, every number comes back as a number within one part in 65534 of the range of the variable's values, the least and the greatest come back exactly, the order of values is kept, no stored integer overflows, a constant variable comes back exactly, and missing values (NaN) stay missing.",
  "every variable of any shape, any values with or without NaN, any memory limit of the reductions, any result of converting NaN to an integer",
  "The bound must hold for every set of values, including the ends of the range where the integers would overflow and constant fields where the scale is zero; tests pack a few arrays.",
  ["pygeode/formats/__init__.py: PackVar", "pygeode/formats/cfmeta.py: var_newaxes.getview", "pygeode/reduce.py: ReducedVar.__new__"])
p("Station arrays survive saving and opening",
  "The auxiliary arrays of an axis without coordinates (station names, latitudes, longitudes, heights, ...) are stored as variables; when the dataset is read back the axis has the same arrays under the same names with the same contents, text included, no variable is lost or added, and the stored variables all have different names.",
  "every dataset with one such axis, any number of auxiliary arrays of numbers or texts with any names, any other variables on any axes",
  "The names travel through space-separated attribute texts and suffixes, so whether they come back depends on every combination of names; tests use one or two station files.",
  ["pygeode/formats/cfmeta.py: encode_cf", "pygeode/formats/cfmeta.py: decode_cf", "pygeode/formats/cfmeta.py: encode_string_var", "pygeode/formats/cfmeta.py: decode_string_var"])
p("Stations are matched by their values",
  "Two axes without coordinates are equal exactly if they are of the same class and have the same auxiliary arrays; mapping one to another finds for each entry of the other the first entry with the same values under all common names, leaving out those that do not exist; a station name stands for its first position, and that position is shown under that name.",
  "every pair of axes of any length with any auxiliary arrays in any order, every name",
  "It must hold for every order and combination of entries, repeated entries included.",
  ["pygeode/axis.py: NonCoordinateAxis.__eq__", "pygeode/axis.py: NonCoordinateAxis.map_to", "pygeode/axis.py: NonCoordinateAxis.str_as_val", "pygeode/axis.py: NonCoordinateAxis.formatvalue"])
p("Removing leap days removes the leap days",
  "With its default arguments removeleapyears removes from data on the standard calendar exactly the times that fall on a 29 February, and every other value keeps its date on the new 365-day axis. With any other lists of different days of the year it removes exactly the times on these days, gives as many dates as values are left, and moves each later day of that year down by the number of days removed before it.",
  "every list of dates whose years do not decrease, at any time of day, every list of different days to remove from leap years and from other years, every pair of calendars",
  "The positions are computed over all years and the dates year by year; that they stay aligned depends on every mix of leap years, times of day and gaps.",
  ["pygeode/timeutils.py: removeleapyears", "pygeode/timeutils.py: reltime"])
p("An ensemble holds its members",
  "ensemble of variables with the same axes has one more axis in front with one place for each of them and holds at place p what the p-th holds; ensemble of datasets does this for every name of the first dataset, whatever the order of the variables in the others, and refuses datasets with other names or other axes under a name.",
  "every number of variables or datasets, every order of their variables, every data, every part of the ensemble that is read",
  "Members are read one at a time through a view of the first one's axes and joined; that this is right for every selection of members and positions is a statement about all requests.",
  ["pygeode/ensemble.py: ensemble", "pygeode/ensemble.py: EnsembleVar.getview"])
p("Dates written as texts are read as what they say", "With the configured patterns, a text passed where a date is expected (str_as_val, selection, time ranges) is accepted exactly if it has one of the forms D Mon Y (with hh:mm and a space, or hh:mm:ss and no space, before it), Y, Y-MM, Y-MM-DD or Y-DDD (with Thh:mm[:ss] after it), possibly with a newline at its end, and gives the numbers written; anything else raises ValueError. A date from year 100 on that formatvalue writes in the first form is read back as the same date in every calendar, so the text of a time selects that time to the second; Y-DDD is day DDD of the year.", "all texts; all dates, calendars, units and values", "the set of texts is infinite and the patterns backtrack; tests try a few well-formed dates", ["pygeode/timeaxis.py:CalendarTime.str_as_date", "pygeode/timeaxis.py:CalendarTime.str_as_val", "pygeode/timeaxis.py:CalendarTime.formatvalue", "pygeode/pygrc"])
p("Time ranges start at the start and stop before the end", "standardtimerange, modeltime365range and modeltime360range give the axis whose k-th time is k steps after the start date, for all k whose time is before the end date and no others, with values counted from the reference date; with inc=True, if the end is a whole number of steps after the start, the end is the last time. standardtimen etc. give exactly n times, step apart.", "all start, end and reference texts, calendars, units and positive steps (any non-zero step for the n forms)", "off-by-one errors depend on the dates, the step and the calendar; tests use one range", ["pygeode/timeaxis.py:standardtimerange", "pygeode/timeaxis.py:modeltime365range", "pygeode/timeaxis.py:modeltime360range", "pygeode/timeaxis.py:standardtimen", "pygeode/timeutils.py:date_diff"])
p("Ticks are exactly the dates on the grid", "The ticks of a year, month, day, hour, minute or second generator between vmin and vmax are exactly the values of the dates on its grid (1 January of years that are multiples; every mult-th month, hour, minute, second counted from the beginning of the year, day, hour, minute, for multiples that divide it; every day) that are at or after vmin and before vmax, in increasing order and each once; the loop that makes them always ends; nticks for the multiple in use is their number.", "every calendar, start date and units, every vmin and vmax, rational and outside the axis included, every multiple that divides the next larger unit", "Each tick is found by converting values to dates and back, with rounding to seconds and carries over months and years; that none is missed, repeated or off the grid must hold for every pair of limits.", ["pygeode/timeticker.py: TickGenerator.ticks", "pygeode/timeticker.py: YearTickGen", "pygeode/timeticker.py: MonthTickGen", "pygeode/timeticker.py: DayOfMonthTickGen", "pygeode/timeticker.py: HourTickGen", "pygeode/timeticker.py: MinuteTickGen", "pygeode/timeticker.py: SecondTickGen", "pygeode/timeutils.py: wrapdate"])
p("The multiple with the best number of ticks is found", "best_mult always ends, whatever numbers of ticks the multiples give and wherever it starts, and returns one of the multiples with its number of ticks; if the multiples are listed from fewest ticks to most, no other multiple has a number of ticks nearer to the one wanted.", "every list of multiples, every number wanted, every starting position, every numbers of ticks", "The search walks up or down from where it was left the last time and stops early; that it never runs forever or stops at the wrong place must hold for all lists and starting positions.", ["pygeode/timeticker.py: TickGenerator.best_mult"])
p("A dataset saved with its metadata and opened again has the same axes", "Saving a dataset of any number of variables to a netCDF file and opening it with the default options gives the same variables in the same order, each with its name and data, on axes of the same kind (latitude, longitude, pressure, hybrid, plain x, y, z, t, named; times of each calendar, with or without years), with the same names, values, auxiliary arrays, units, start dates and dates, whatever the memory limit, provided names are valid and different (also from the names of auxiliary arrays) and no name or attribute suggests another kind.", "all datasets: any number of variables and axes of any lengths and kinds, any attributes, any dates, any memory limit", "the round trip goes through eight functions of three files and a file; only whole families of datasets show what gets lost", ["pygeode/formats/cfmeta.py: encode_cf, decode_cf, var_newaxes", "pygeode/formats/netcdf4.py: save, open, tidy_axes, write_var, make_dataset, dims2axes"])
p("Composites show the data around each event", "composite(var, <axis>=events, evlen=n, evoff=m) replaces the axis by an event axis (the positions the keyword selects, in the order of the axis) and an offset axis, and shows for each event the data of the variable evoff steps before its centre up to evlen steps later; positions outside the event or past either end of the axis are NaN, whatever part of the composite is read and in whatever order.", "every variable, axis, list of events, common or individual lengths and offsets, every request", "each event is read through a different piece of the axis, clipped at its ends and at the event's; off-by-one errors show only for certain events and requests", ["pygeode/composite.py: composite", "pygeode/composite.py: CompositeVar", "pygeode/composite.py: get_event_indices"])
p("Flattening keeps the order of the data", "flatten(var, inner) joins the inner axis and the axis before it into one: position p of the result shows the data at position p // n of the outer and p % n of the inner axis (n its length), for every request of consecutive positions, within one row, across rows and over many rows; the coordinate is that of the inner axis moved on by n for each row.", "every variable, pair of neighbouring axes, and request of consecutive positions along the flattened axis together with any request along the others", "the request is cut into a first part row, whole rows and a last part row, each with its own arithmetic; tests read the whole variable", ["pygeode/composite.py: flatten", "pygeode/composite.py: FlatVar"])
p("Weighted reductions weigh what they reduce", "var.mean(axes, weights=w), sum, variance, nansum and nanmean give every cell reduced the weight asked for: 1 with False or None; with True (the default of mean, nanmean and nansum) the product of the weights of the reduced axes that have any, in whatever order the axes are named; with a variable its value at the cell. The mean is the weighted sum over the sum of the weights also when some of the reduced axes carry no weights and however the data are cut into chunks; weights along axes that are not reduced are refused.", "every variable, choice of axes, axis weights, variable of weights, chunk size and request", "weights are read beside each chunk and counted with a correction factor that depends on the chunk; tests use chunks that hold everything and one set of weights", ["pygeode/var.py: Var.getweights", "pygeode/reduce.py: WeightedMeanVar", "pygeode/reduce.py: WeightedSumVar", "pygeode/reduce.py: WeightedVarianceVar", "pygeode/reduce.py: WeightedNANMeanVar", "pygeode/reduce.py: mean"])
p("A call selects, averages and squeezes as its keywords say","`var(**keywords)` returns a variable whose axes are those of `var` that are neither averaged over (prefix m) nor squeezed (prefix s with a single position selected), in their order and restricted to the positions that satisfy all keywords for that axis; its values are the data of `var` at these positions, averaged with the axes' weights over the positions selected along the m axes. A keyword that is for no axis raises an exception unless `ignore_mismatch` is set, in which case it has no effect.","for every variable whose axes are of unrelated kinds with distinct aliases, every list of keywords (any prefixes, any values), every request for positions of the result, every memory limit","keywords, prefixes, orders of keywords, axes, weights, positions and chunk sizes combine in unboundedly many ways",["pygeode/var.py:Var.__call__","pygeode/var.py:Var._getitem_asvar","pygeode/axis.py:Axis.get_slice","pygeode/reduce.py:mean","pygeode/varoperations.py:squeeze"])
p("Editing and merging datasets",
  "Dataset(vars) of any variables has different non-empty variable names and one axis per axis name, each variable with its data on axes equal to its own, names changed only where they clash. remove, rename_vars, replace_vars, add, map and asdataset give exactly the variables asked for, in order, with nothing else changed; adding and removing again gives the dataset back; dataset[name] finds the variable, else the axis, with that name. dataset(**keywords) gives each variable called with the keywords, and an axis shared by several variables is restricted in the same way in all of them, so that no axis is renamed. concat of datasets with the same variables joins each variable along the axis that differs and keeps the attributes that all datasets share.",
  "all datasets (any number of variables, axes, names), all names and replacements, all keywords for one axis each, any number of datasets joined",
  "The names and axes of a dataset come from the interplay of all its variables; tests only try a few collections.",
  ["pygeode/dataset.py:Dataset.__init__","pygeode/dataset.py:Dataset.__getitem__","pygeode/dataset.py:Dataset.rename_vars","pygeode/dataset.py:Dataset.remove","pygeode/dataset.py:Dataset.add","pygeode/dataset.py:Dataset.replace_vars","pygeode/dataset.py:Dataset.map","pygeode/dataset.py:Dataset.__call__","pygeode/dataset.py:asdataset","pygeode/dataset.py:concat"])
p("Options of opening and saving only do what they say",
"open(file, dimtypes, varlist, namemap): the variables of the dataset are those of varlist that the file has, in the order of varlist (all of them when varlist is empty), under the names namemap gives them; each axis named in dimtypes is the one asked for (an axis, one of the class with the values of the file, or what the function makes of it) and of the same length, every other axis is that of the file, and axes named in namemap change their name and nothing else; the data of each variable are those of the file, position by position. An axis of the wrong length is refused. The format is found from the extension of the last part of the path. save(pack) packs exactly the variables it is asked to.",
"all datasets, dimtypes, varlists and name maps, file names and pack options",
"the options combine, over arbitrary names, aliases and axes; a test opens one file with one option",
["pygeode/formats/__init__.py:autodetectformat","pygeode/formats/__init__.py:set_axistypes","pygeode/formats/__init__.py:whitelist","pygeode/formats/__init__.py:finalize_open","pygeode/formats/__init__.py:finalize_save","pygeode/varoperations.py:rename_axes","pygeode/varoperations.py:Replace_axes"])
p("Opening many files as one dataset gives the data of all of them in time order","open_multi(files) returns a dataset whose time axis consists of exactly the times of all files, in chronological order whatever the file names, and reading any of these times gives what the file it belongs to holds - although only the first and the last file are opened, provided all times are evenly spaced with at least two of them in the first or the last file, or every file has one time at the same offset from the date in its name; with a single file its own dataset is returned. When check_multi reports no problem with the times, every time of the dataset can be read, what is read comes from a file that holds that time, and no time of a file is missing from the dataset.","all calendars, all numbers of files and orders of their names, all numbers of times per file, all steps and offsets, all reference dates and units of the files, all requests of distinct times","the axis is reconstructed by rounding a quotient of offsets between two files and decoding dates again on three calendars; a test fixes a set of files and a step",["pygeode/formats/multifile.py:open_multi","pygeode/formats/multifile.py:Multifile_Var.getview","pygeode/formats/multifile.py:check_multi","pygeode/timeutils.py:delta","pygeode/timeutils.py:reltime","pygeode/axis.py:Axis.withnewvalues"])
p("Square brackets read what numpy would",
  "var[...] returns the values numpy returns for the array of all values of the variable, each axis being indexed by itself: an integer, also a negative one, takes one position and removes the axis; a slice with any bounds and step follows Python; a list picks positions in its order; an Ellipsis, or else the end of the key, stands for whole axes. An index that does not exist, a step of zero and too many indices raise. var.slice[...] is the variable of these values, with the axes kept. var.get() gives all values, and var.load() is a variable with the same axes and values held in memory.",
  "all variables with axes of unrelated classes and well separated values, all keys, all data sources",
  "tests index a few variables; bounds, steps, signs, list orders, positions of the Ellipsis and ways of storing the data combine without end",
  ["pygeode/var.py: Var.__getitem__, Var._getitem_asvar, Var.get, Var.load", "pygeode/varoperations.py: SlicedVar", "pygeode/axis.py: Axis._getitem_asvar"])
p("EOFs are the orthonormal patterns of largest variance",
"EOF(x, num), EOF_svd and EOF_cov return num patterns (at most as many as there are records or cells of a pattern) on a new axis of orders before the axes of the pattern, eigenvalues on the axis of orders and principal components on it and the record axes. With the weights asked for, divided by their average, the patterns are orthonormal; each has the largest sum of squared projections of the data among the patterns orthogonal to those before; the eigenvalues are non-negative, fall, and are the roots of these sums; the principal components are the projections of the records on the patterns divided by the eigenvalues, are orthogonal and all of the same size, and projecting the data on them gives the patterns back; the first element of a pattern is not negative. VAR is the weighted sum of squares of the data, FRAC the squared eigenvalues divided by it, EIG2 the squares. What the patterns leave of the data is the variance less the squared eigenvalues, and all patterns together rebuild the data. The eigenvalues do not depend on the method. Outputs come in the order asked for, whatever the case of the keywords. The record axis is the one named by iaxis, by default the time axis.",
"all variables, record axes, weights (none, those of the axes, a variable), numbers of patterns, memory limits, decompositions numpy may return, lists of outputs",
"an optimum over all patterns and decompositions of all matrices, for every chunking of the data",
["pygeode/eof.py:EOF","pygeode/eof.py:EOF_svd","pygeode/eof.py:EOF_cov","pygeode/eof.py:prep","pygeode/eof.py:finalize","pygeode/eof.py:apply_weights","pygeode/eof.py:remove_weights","pygeode/eof.py:whichout"])
p("The values of a GRIB record are decoded as the format says",
  "Reading at the place where a record of a GRIB (edition 1) file begins gives, for every point of its grid, the reference value plus the packed number of that point times two to the binary scale, divided by ten to the decimal scale; whatever surrounds the record in the file and whatever is in memory after it.",
  "every file, every record in it with a non-negative decimal scale and a number of bits of 1 to 26, 28 or 32, every number of points, every bit pattern of the packed data",
  "bit offsets of packed values differ for every point and width, and exponents, signs and byte boundaries combine; a few sample files reach a handful of them",
  ["pygeode/formats/grib.c: read_head, read_IS, decode_PDS, decode_GDS, decode_float, read_data", "pygeode/formats/grib.h: PDS, GDS, BDS"])
p("The index of a GRIB file lists all its records, and leads to them",
  "Making the index of a GRIB file and reading it back gives one variable for each combination of centre, table, parameter and level type, in the order of first appearance, each with the grid and vertical coordinate of its first record and one entry for every time and every level of its records; at a time and level the values of the last record for them are read.",
  "every sequence of records with arbitrary bytes (not containing the word GRIB) between and after them, in any order of variables, times and levels, with repetitions",
  "the result depends on the whole sequence of records of a file and on linked lists that grow with it; there are unboundedly many orders and repetitions",
  ["pygeode/formats/grib.c: make_index, read_Index, encode_PDS, encode_GDS, skip_BDS, read_EOR, get_var_t, get_var_z, read_data"])
p("Variables of a GRIB file hold the values of the records",
  "A variable opened from a GRIB file has the times of its records, their levels in increasing order and evenly spaced longitudes (and latitudes, on a regular grid) from the first to the last point; every request for positions in time, level, latitude and longitude returns the values of the records for these times and levels at these points. Fields on a surface have no vertical axis.",
  "every file whose records for one variable are complete (a record for each time and level on one grid, levels below 256), every request in any order and with repetitions",
  "requests range over all subsets of four axes, and levels are stored in the file in any order while the axis is sorted",
  ["pygeode/formats/grib.py: GribVar.__init__, GribVar.getview", "pygeode/formats/grib.c: read_data_loop, get_grid, get_var_z"])
p("Multiple regression is the least-squares fit at every position",
  "multiple_regress(Xs, Y, axes, N_fac, output) returns, for every position on the axes not regressed over, coefficients of the regressors for which the sum over the other axes of the squared difference between Y and the combination of the Xs is the smallest possible, and no other coefficients reach it; R2, the residual variance, the covariances and standard deviations of the coefficients and the argument of the p-value are those of this fit; each requested output appears once, with the regressors as its last axis (axes). It raises if the regressors are linearly dependent at some position. Broken: the documented output 'B' does not exist (only 'beta'), 'p' and 'sb' fail or are scrambled when two or more axes are left, and a regressor that lacks one of the axes regressed over is not repeated along it, which gives wrong coefficients.",
  "all lists of regressors, axes, lengths, values, memory limits, requested outputs and degrees-of-freedom factors",
  "The claim compares with all other coefficients, over all data and all ways the data are cut into chunks.",
  ["pygeode/stats.py: multiple_regress", "pygeode/tools.py: loopover, npsum, combine_axes, shared_axes"])
p("fft_smooth keeps the first harmonics",
  "fft_smooth(axis, maxharm) of a real variable gives a variable with the same axes whose values, along every line of the axis, are the part of that line made of the harmonics 0 to maxharm-1: a sum of sines and cosines going round fewer than maxharm times, such that what has been removed has no component along any of them. This part is unique and the nearest such series in the least squares sense; harmonics below maxharm pass unchanged, those from maxharm to half the number of points vanish; smoothing twice is smoothing once; the mean is kept; the answer does not depend on the part of the variable that is read. The same for complex variables with waves in both directions.",
  "every variable, axis, length of axis, maxharm of at least 0, data, and every way of reading parts of the result",
  "a test compares a few series; that the result is the orthogonal part for every series, length (even or odd) and number of harmonics needs the orthogonality of the discrete harmonics",
  ["pygeode/fft_smooth.py:FFTSmoothVar.getview","pygeode/fft_smooth.py:fft_smooth"])
p("Time averages of variables combine the values of the same date",
  "climatology, dailymean, monthlymean, yearlymean and diurnalmean of a variable, and their nan, count and stdev versions, give a variable with the same axes except that the time axis holds the dates that occur in the data with the fields not kept forgotten (the year for a climatology; year, month and day for a diurnal cycle; everything finer than the day, month or year otherwise), each once and in chronological order. Its value at a date and a place is the mean (count, standard deviation) of exactly the values of the variable at the times of that date and at that place, at least one of them; the nan versions leave missing values out and give NaN where there are only missing values. This holds for whichever part of the result is read, however the data are cut into chunks.",
  "every variable of floating type with one calendar time axis, every calendar, units, start date and list of valid dates in any order, also repeated ones, every position of the time axis, all data, every request without repetitions",
  "a test compares some years of one calendar read as a whole; that every value goes into its date, once, for all lists of dates, all chunk sizes and all requests is a statement about all inputs",
  ["pygeode/climat.py: loopover, Clim, Diurnal, Daily, Monthly, Yearly, TimeOp, Mean, NANMean, Count, Stdev, NANStdev", "pygeode/timeutils.py: modify, _uniquify", "pygeode/timeaxis.py: Time.common_map, CalendarTime.__init__", "pygeode/tools.py: partial_sum, partial_nan_sum"])
p("climtrend fits a line for every date of the year",
  "climtrend of a variable gives for every date of the year and every place the coefficients of a line in seconds since the start of the time axis, the constant at coefficient 0 and the slope at coefficient 1: of all lines it has the least sum of squared distances from the values at that date and place, and is the only one, unless all times of that date are the same. A variable with a single time is refused.",
  "every variable with one calendar time axis, all dates and data, every request without repetitions, every way of cutting the data into chunks",
  "least squares compares with all other lines, over all data and all chunkings",
  ["pygeode/climat.py: Trend, climtrend, loopover"])
p("Series and climatologies are matched date by date",
  "An operation between a variable and another whose time axis has fewer date fields (a series and its climatology, daily data and monthly means, and so on), in either order, has the axes of the first variable; at every time it combines the value of the series with the value of the other at the date on which that time falls, and the other axes are matched as usual. In particular x - climatology(x), x - dailymean(x) and so on give at every time the value minus the mean of all values of that date.",
  "every pair of time axes of which one has some of the date fields of the other and every date is found, in any order of the times, every position of the axes, every operation, all data and requests, except, for averages computed when they are read, requests for several times that all fall on one date",
  "the mapping of the times of one axis into another depends on all their dates, and the request on every subset of times; tests compare a few whole arrays",
  ["pygeode/timeaxis.py: Time.__eq__, Time.map_to", "pygeode/tools.py: can_map, combine_axes", "pygeode/ufunc.py: UfuncVar", "pygeode/view.py: View.map_to, View.get", "pygeode/climat.py: TimeOp"])
p("detrend removes the best line of every date",
  "detrend(x) has the axes of x; at every time and place it is the value minus that of a line in time, of all lines the one with the least sum of squared distances from the values at all times of the same date (the same day of the year) and the same place, provided there are two different times; also for requests of parts, in any order and with repetitions.",
  "every variable with one calendar time axis that has a year and other fields, every calendar and list of valid dates, all data and requests",
  "least squares compares with all other lines, over all data, dates and chunkings",
  ["pygeode/climat.py: detrend, from_trend, climtrend, Trend", "pygeode/var.py: Var.load", "pygeode/timeaxis.py: Time.map_to"])
p("Data scanned from many files can be found, and reads back what the files hold",
  "`from_files` on any list of files whose variables have consistent axes (each variable with the same axes in every file, common axes in the same order, one class per name, increasing values that refer to the same origin) ends, and returns datasets such that: every variable of a dataset has the axes it has in the files, with increasing values, and shares them with the other variables of the dataset; every value in every file can be reached, i.e. some dataset has that variable with that point on its axes; and whatever has been read before, reading any part of any variable gives at every point the value held by the last file that has the point - some file always does.",
  "all lists of files with any number of variables, axes and values, all orders of the files, all histories of reads, all parts read, all points",
  "the search for domains and the memory of axes depend on the combination of all files and on what was read before; tests try a few fixed collections",
  ["pygeode/formats/data_scanner.py:from_files","pygeode/formats/data_scanner.py:AxisManager","pygeode/formats/data_scanner.py:_domain_as_dataset","pygeode/formats/data_scanner.py:_DataVar"])
p("find_best returns the best of the datasets that qualify",
  "For a list of datasets, `find(*names, requirement)` yields, in the order of the datasets, the members of these names of exactly those datasets that meet the requirement and have all of them; `have(name)` is true exactly if some dataset has a member of that name; `find_best` returns the members of a qualifying dataset to which no other qualifying dataset is preferred - by the scores of `maximize` (the first that differs decides), without it by `minimize`, and then by names and shapes - and the first of those; it raises KeyError exactly if no dataset qualifies.",
  "all lists of datasets, names, requirements and score functions",
  "ties, several score functions and the order of datasets combine in unboundedly many ways",
  ["pygeode/formats/data_scanner.py:DataInterface.find","pygeode/formats/data_scanner.py:DataInterface.have","pygeode/formats/data_scanner.py:DataInterface.find_best"])
p("Splitting a time axis lays data out by years and days, losing nothing","For every variable with a calendar time axis that has years, x.splittimeaxis() has, in the place of the time axis, the years that occur (increasing, each once) and the dates without their years (chronological, each once). Reading any part of it gives, for a year and a day, the value of the input at the time of that date (the last, if there are several), NaN if there is none; if no date occurs twice, every value of the input is found in exactly the cell of its year and day.","all variables, time axes (irregular, with gaps, unsorted), calendars and requests","The cells are found by sorting, merging and broadcasting dates of the part requested; gaps, repeated dates and leap days make the number of combinations unbounded.",["pygeode/timeutils.py:_splittime","pygeode/timeutils.py:_jointime","pygeode/timeutils.py:SplitTime","pygeode/timeutils.py:splittimeaxis"])
p("Joining years and days gives the values at their dates","For every variable with an axis of years followed by an axis of days, jointimeaxes(x) has one time axis in their place: all days of the first year, then all days of the second year, and so on. Reading any part of it, in any order, gives at each time the value of its year and day.","all variables, years, days of the year, calendars and requests, also requests that take a few days of some years","Each request is split into years and days, read, and selected from again; whether the three steps agree depends on which days of which years are asked for.",["pygeode/timeutils.py:_jointime","pygeode/timeutils.py:JoinTime","pygeode/timeutils.py:jointimeaxes"])
p("Exchange with xarray keeps every value",
"The array that to_xarray makes of a variable has the variable's shape and shows its value at every position, whatever the limit on the size of a chunk. If the values are not in memory, the array is cut into pieces of at most that size; the pieces of each axis add up to its length and there is exactly one piece, of the announced shape, for every combination. A variable made from an array of xarray has axes with the names and lengths of its dimensions, and any selection of it shows the values of the array; there and back, the values are the same.",
"all variables that are in memory or have a getview method, with axes of any number and length, all limits of at least 1, all arrays of xarray with distinct dimension names, all selections",
"The grid of pieces is guessed from the order in which loop_mem happens to visit them; a test fixes one shape and one limit.",
["pygeode/ext_xarray.py: to_xarray, XArray_DataArray", "pygeode/view.py: View.loop_mem"])
p("Contours chosen for data reach all of it",
  "When showvar is given no contour interval it chooses one from the data: it is a round number (1, 1.5, 2, 3, 4, 5, 6 or 10 times a power of ten); the style is the one asked for, or else divergent exactly if the data (but for 2% at each end) lie on both sides of zero or are constant; divergent contours have levels on both sides of every value that is not an outlier, and none more than 5/3 as far from zero as some value; sequential contours start at or below every value that is not an outlier and go on at least until less than one interval below the highest such value.",
  "all arrays of rational values, any of them missing, every style and positive number of divisions, filled contours and lines",
  "the spacing depends on the leading digits, the sign, the spread and the outliers of the data; a test tries a few arrays",
  ["pygeode/plot/cnt_helpers.py: guessclimits, clfdict, cldict", "pygeode/plot/pyg_helpers.py: _parse_autofmt_kwargs"])
p("Contour levels are the multiples asked for",
  "clfdict(cdelt, ...) and cldict(cdelt, ...) give exactly the evenly spaced levels their arguments describe: colours cdelt/nf apart and lines cdelt/nl apart over ndiv intervals on each side of mid (divergent, no colour boundary at mid) or ndiv intervals from min (sequential), ticks cdelt apart; with nozero the same lines without the one at zero; line contours from mid-range to mid+range or from min, both ends included.",
  "all intervals, middles, minima and numbers of divisions, colours and lines",
  "number and positions of the levels are computed from products of the arguments, with half-open ranges",
  ["pygeode/plot/cnt_helpers.py: clfdict, cldict"])
p("The register of axes gives equal axes and keeps them",
  "AxisManager.lookup_axis: whatever was looked up before, made and forgotten in between, the answer is the axis given or one that compares equal to it with the same hash (name, class and values); it stays in memory; looking up the same object again, or the answer itself, always gives the same answer; copies of an axis (and equal axes, where comparison is an equivalence) all get one object; the set of values remembered for an axis is that of its answer. An identity that the register has seen is never reused for another axis.",
  "every history of making, forgetting and looking up axes, every hash function (collisions included) and comparison",
  "the register is keyed by identities of objects, which Python reuses for new objects; a test sees one history and no reuse at the wrong time",
  ["pygeode/formats/data_scanner.py: AxisManager.lookup_axis", "pygeode/formats/data_scanner.py: AxisManager._settify_axis"])
p("Tick marks of a time axis: the search ends and finds the best number",
  "AutoCalendarLocator answers every call: the walk between tick generators (years, months, ..., seconds) always ends, whatever the views before and wherever the search starts, at one of the generators and one of its multiples; if the numbers of ticks grow from the coarsest multiple of the first generator to the finest of the last, no other generator and multiple has a number of ticks nearer to the one wanted.",
  "every sequence of views, every number wanted, every list of generators with at least two multiples each, every numbers of ticks for which no generator has both too few with its finest and too many with its coarsest multiple",
  "the search starts where the last one ended and walks up or down until it gets worse; that it never walks up and down for ever must hold for all tick counts and all histories",
  ["pygeode/timeticker.py: AutoCalendarLocator", "pygeode/timeticker.py: TickGenerator.best_mult"])
p("Two-sided logarithmic colours are invertible and even",
  "LogNorm2Sided maps values to colours strictly increasingly, vmin to 0, -vin to 0.5-cin, 0 to 0.5, vin to 0.5+cin and vmax to 1, and inverse undoes it in both directions; the colour boundaries, contour lines and ticks of log2sdict are exactly evenly spaced in colour (nf or nl to a division, ndiv divisions on each side of zero, none or one at zero), those of log1sdict on the logarithmic scale from cmin to cmin*cdelt**ndiv.",
  "all real values, all limits with vmin < -vin < 0 < vin < vmax and 0 < cin < 0.5, all cmin > 0, cdelt > 1, numbers of colours, lines and (at least two) divisions",
  "three formulas are joined at two points; that they meet, that both directions use the same points and that the levels fall evenly must hold for all limits",
  ["pygeode/plot/cnt_helpers.py: LogNorm2Sided", "pygeode/plot/cnt_helpers.py: log2sdict", "pygeode/plot/cnt_helpers.py: log1sdict"])
p("A table of panels is laid out without gaps or overlaps",
  "plot.grid(rows) puts every panel in the cell it has in the table: the columns are as wide as their widest panels and stand side by side, the rows are as high as their highest panels and stand below each other from the top, every panel is centred in its cell at its own size, and no two panels overlap or leave the page. The new panel has the size of the whole table, or the size asked for. It is made exactly when the table is rectangular and no row and no column is empty, and nothing else is changed.",
  "all tables of panels, with any cells left empty, of any sizes",
  "The layout is a fold over two nested loops with accumulated offsets; a test sees a few tables.",
  ["pygeode/plot/wrappers.py: grid, AxesWrapper.add_axis"])
p("Every panel of a page is drawn once, at its size, apart from the others",
  "Drawing a page made of panels, tables, colour bars and annotations nested to any depth draws every panel which has a plot exactly once, in the area its holders give it (with its margins taken off in inches, or the fraction asked for); every panel has the size on paper it was made with; two panels neither of which holds the other do not overlap; and nothing leaves the page. A part of a page can be drawn by itself.",
  "all pages built with grid, colorbar and annotate to any depth, and all wrappers in them",
  "The position of a panel is the composition of the boxes of all its holders, found by walking up and down a mutable graph; the depth is unbounded.",
  ["pygeode/plot/wrappers.py: AxesWrapper.render, AxesWrapper._build_axes, AxesWrapper.get_transform"])
p("Colour bars and annotations stand beside their panel",
  "colorbar(panel, .., pos=..) makes a new panel in which the panel has its size and the colour bar, of the thickness asked for, stands on the side asked for along the whole of the panel; annotate adds half an inch below the panel.",
  "all panels, positions and thicknesses",
  "The sizes are arbitrary real numbers and panels may themselves be tables.",
  ["pygeode/plot/wrappers.py: colorbar, annotate"])
p("Functions of variables apply to every value",
  "The functions of variables (those in degrees, minimum, maximum, clip, vsum, vprod and map with a function of the user's) give a variable on the combined axes whose value at each point is the function of the values there; vsum and vprod take any number of variables and numbers. The functions in degrees are those in radians of the converted angle and their inverses undo them. Keywords and further arguments given to map are passed to the function.",
  "all variables, numbers of arguments, functions and values",
  "The number of arguments, the axes and the functions are arbitrary.",
  ["pygeode/ufunc.py: UfuncVar, map, chain, vsum, vprod, clip, cosd, arctand2"])
p("A spectral axis lists every harmonic once",
  "Spectral(t), and Spectral(values) with as many values as there are harmonics of truncation t, has every order m and degree n with m <= n <= t exactly once, ordered by order and then degree; any other number of values is refused.",
  "all truncations and all numbers of values",
  "The truncation is unbounded, and is inferred from the length with a square root.",
  ["pygeode/spectral.py: Spectral"])
p("Tables of coefficients can be made and taken apart",
  "merge_coefs(c1, ..., cn) has the axes of c1 and a last axis of n coefficients, and shows ci at position i of it, at the same coordinates; it is refused iff there are no coefficients or their shapes differ. split_coefs gives one variable per position of the axis of coefficients, wherever that axis is, with the data at that position; taking a merged table apart gives the coefficients back. from_trend(taxis, A=A, B=B) is A t + B on the time axis asked for.",
  "every list of variables on the same axes in any order, every variable with an axis of coefficients, every view of the results",
  "all shapes, orders of axes and views",
  ["pygeode/tools.py:merge_coefs", "pygeode/tools.py:split_coefs", "pygeode/climat.py:from_trend"])
p("Coupled patterns of two fields",
  "If SVD returns, then however the data are split into chunks: the series are the sizes of the patterns in the fields up to the tolerance (1e-5 of each element of a pattern), no pair of series has a negative covariance, every pattern has size 1, and patterns the iteration does not change any more are coupled: the covariance of one field with the size of a pattern in the other is the partner of that pattern times a factor, the same in both directions and equal to the covariance of the two series, and the pairs come in the order of these factors.",
  "every pair of fields, every number of patterns and size of subspace, every seed, every limit on the size of chunks",
  "iteration from random seeds over data of any size",
  ["pygeode/svd.py:SVD", "pygeode/svd.c:build_svds", "pygeode/svd.c:fixcov", "pygeode/svd.c:normalize", "pygeode/eof.py:EOF_iter"])
p("The one-pass estimate of EOFs is orthonormal, never has too much variance, and is exact when enough patterns are asked for",
"EOF_guess always returns (the stack of partial results never overflows): `num` patterns, sizes and series of the length of the data. Patterns with a size other than 0 are orthonormal, and so are their series; the sizes are not negative and do not increase; the sum of their squares is at most the sum of squares of the data; each pattern begins with a number that is not negative, and its series is turned with it. If the data is made of no more than `num` patterns (in particular if there are no more places or no more records than `num`), the result is the exact decomposition: series times size times pattern adds up to the data, the patterns are eigenvectors of the covariance matrix with the squares of the sizes as eigenvalues, each series is the projection of the data divided by the size, and the sizes do not depend on how the data was cut into chunks.",
"all data, numbers of patterns, places and records (up to 2^99), all cuts into chunks, any LAPACK that gives orthonormal eigenvectors with ascending eigenvalues; exact arithmetic",
"The result comes from a tree of merges whose shape depends on the number of records and on the sizes of the chunks; a test can only try a few of these, and cannot tell an estimate from an error unless it knows when it has to be exact.",
["pygeode/eof.c: dot, transform, svd, merge_eof, add_to_stack, process, endloop","pygeode/eof.py: EOF_guess"])
p("Numbers sent by the OPeNDAP server arrive",
  "Every array the OPeNDAP server sends (any type of numbers, any shape, whatever the pieces in which it is produced) is decoded by the OPeNDAP client as the same numbers in row-major order; a 64-bit integer arrives as the double nearest to it.",
  "all arrays of all types numpy knows, all values, all sizes of pieces, whatever bytes follow",
  "A test covers a few types and small arrays in one piece; signs, unsigned ranges and the order across pieces must hold for every value and every split.",
  ["pygeode/formats/opendap.py: write_xdr, load_array, np2dap, dap2np", "pygeode/formats/opendap.c: int32toStr, float32toStr, float64toStr, str2int32, str2float32, str2float64"])
p("A dataset served by OPeNDAP opens as the same dataset",
  "If a dataset whose names are plain words (letters, digits, _ + -; axes not named like integers) is served, then opening it at the client gives the same axes with the same values in the same order, and the same variables with their axes and (widened) types; and reading any box of any variable through the client returns exactly the values of that box of the served variable.",
  "all datasets with plain distinct names, all boxes inside a variable, all sizes of pieces",
  "Description texts are written, tokenized by regular expressions and parsed again; requests are texts too. A test tries a few names and boxes; the round trip must hold for all.",
  ["pygeode/formats/opendap.py: ServerDataset-side DAPHandler (fields, make_entry, DDS, DODS)", "pygeode/formats/opendap.py: tokenize, parse_dataset, parse_grid, parse_array, load_array, OpenDAP_Var.getvalues, open", "pygeode/formats/opendap.c"])
p("Attributes served by OPeNDAP arrive",
  "The attributes of axes, variables and dataset that the OPeNDAP server sends are read by the client under the same names, in the same order, with the same values: texts character by character (quotes, apostrophes, newlines, tabs, backslashes and the signs of the format included), integers and floats as the same numbers, 64-bit integers as floats.",
  "all lists of variables with plain names, all attributes with plain names, all texts and all numbers",
  "The texts are escaped, cut into tokens by a backtracking regular expression and decoded by five substitutions; only a proof covers every combination of quotes and backslashes.",
  ["pygeode/formats/opendap.py: DAS response (lines 314-347), tokenize, parse_attributes"])
p("Opening many files at once",
  "openall expands the patterns, opens every file, joins the datasets and sorts them. The result does not depend on the order in which the directory lists the files. If the files have the same variables and each variable differs between files along one axis only, then a variable of the result has a value v at some coordinates exactly if one of the files has v at these coordinates; its axes have the kinds and names of those of the files and are in their natural order (increasing, or decreasing for pressure and depth-like axes); its names are those of the files and the global attributes those that all files share. A single file is opened and sorted. No matching file, or a missing one, is refused.",
  "all patterns, directory listings and listings' orders, any number of files, any variables, axes and values in them, any coordinates",
  "tests open a few small files in an order the file system happens to give; the claim ranges over all orders, numbers of files, shapes and values",
  ["pygeode/formats/multifile.py: expand_file_list, openall", "pygeode/dataset.py: concat, dataset_method", "pygeode/varoperations.py: sorted", "pygeode/axis.py: argsort"])
p("Texts of coordinates",
  "formatvalue of a longitude with a format 'pE' or 'pE<b' shows a longitude of the same place, at least b - 360 and below b (b is 180 by default), with E if it is not negative and W with its absolute value otherwise; if the number format tells numbers apart, two longitudes get the same text exactly if they are a whole number of turns apart. A latitude with a format ending in N shows its absolute value and N or S, the equator EQ; different latitudes get different texts. A pressure with a format 'p<b' is shown as an integer from b on, and by p below. Other formats are used as they are, and the units asked for follow.",
  "all values, formats, number formats and units",
  "tests format a few values; the claim ranges over all values, including negative longitudes and those beyond one turn, and all break points",
  ["pygeode/var.py: Var.formatvalue", "pygeode/axis.py: Lon.formatvalue, Lat.formatvalue, Pres.formatvalue, AxisFormatter"])
p("Plots show every value at its coordinates",
  "vcontour, vstreamplot and vquiver of variables with two axes longer than one draw, for every position, the value there (times scalefactor, plus offset) at the point given by its coordinates, whatever other axes of length one the variable has and in whatever order its axes come; a vertical axis is drawn upwards and latitudes against longitudes, or as transpose asks; variables with another number of axes are refused. vplot draws the points (coordinate, value) of a variable with one such axis, between the first and the last coordinate; vscatter one point per position of two variables. vsigmask draws what lies beyond mjsig as significant on both sides and, if mnsig is given, what lies between mnsig and mjsig as less significant.",
  "all variables, axes, sizes, values, scale factors, offsets and orientations",
  "tests draw a few variables and do not look at the picture; the claim ranges over all axis orders, lengths and values",
  ["pygeode/plot/pyg_helpers.py: vcontour, vstreamplot, vquiver, vplot, vscatter, vsigmask, build_title, decorate, scalevalues, axes_parm"])
p("Pages of figures",
  "savepages prints every figure once, in the order given and at the scale asked for, on consecutive pages none of which is blank; figures on one page do not cover each other; and figures that are not larger than the space between the margins stay between the margins.",
  "all lists of figures, sizes, paper sizes, margins and scales",
  "a test prints a few figures; the claim ranges over all sequences of sizes and so over all ways in which rows and pages fill up",
  ["pygeode/plot/pyg_helpers.py: savepages"])
p("Tables of contour plots",
  "showgrid draws filled contours of every variable of vf and lines of every variable of vl, those of the same number in the same panel, row by row in ncol columns (a single variable of one kind is drawn in all panels); every plot has the size asked for; the plots of a column begin at the same distance from the left and those of a row at the same distance from the top, at equal steps; and coordinates are written left of the first column and below the lowest panel of every column.",
  "all numbers of variables and columns, sizes and margins",
  "a test draws a few tables; the claim ranges over all numbers of variables and columns and so over all ways in which the last row is filled",
  ["pygeode/plot/pyg_helpers.py: showgrid, set_xaxis, set_yaxis", "pygeode/plot/wrappers.py: grid, AxesWrapper._build_axes"])
p("Opening HDF4 files",
  "The dataset opened from an HDF4 file has one variable for every data set of the file that does not give coordinates of a dimension (and is not replaced by a twin named ...:EOSGRID), with its name and data; along every dimension it has the coordinates given by the one-dimensional data set that is the coordinate of the dimension or the only one along it, and the name and size of the dimension if there is none.",
  "all files: numbers and orders of data sets, dimensions, shapes and values",
  "a test opens one file; the claim ranges over all orders of data sets in the file, with and without several one-dimensional data sets along one dimension",
  ["pygeode/formats/hdf4.py: open, HDF4_SD, HDF4_Var, load_values"])
p("Numbers and attributes survive a classic netCDF file",
  "Saving a dataset with the classic netCDF library and opening the file again gives every attribute with its name, in order, with the same text or the same numbers (a single number as a number, more as an array), and every variable and axis with the same numbers: numbers are stored in the same type in version 4 and in a wider one in version 3. What cannot be stored is refused with a warning or an exception that concerns nothing else.",
  "every list of attributes, every type of numbers, every value, both versions of the format",
  "Which values survive depends on the table of types for the version and the range of every value; tests save small integers and floats, and attributes of one kind at a time, so one attribute that ends the loop is not noticed.",
  ["pygeode/formats/netcdf.py: nc_type, numpy_type, get_attributes, put_attributes, save"])
p("Values and dates of a time axis agree however it is made",
  "Every time axis that the constructor gives - from values, units and a start date, from date fields, or from both - has values that are the time from its start date to its dates in its units. Made from values, the dates are the moments that many units after the start, to the nearest second, and the values stay within half a second. Made from date fields, it has exactly these fields, and values given along with them play no role. Values are in the order of the dates. Without date fields, values are accepted only together with units and a start date. Slicing an axis keeps its units and start date and the dates and values at the chosen positions.",
  "every calendar with years, every list of values or dates, every set of date fields, every start date with any of its fields missing, every unit, every choice of positions",
  "Values and dates are computed from each other in both directions, with different defaults for missing fields in different places (the year 1 or the year 0); tests build axes with complete start dates.",
  ["pygeode/timeaxis.py: CalendarTime.__init__, Time.__init__, val_as_date, date_as_val, _get_dates", "pygeode/axis.py: Axis._getitem_asvar"])
p("Relative times, wrapped dates and conformed axes measure elapsed time",
  "reltime(axis, startdate, units) gives the time from that start date to every date. wrapdate of a date to which days, hours, minutes or seconds were added is the date that much later. conform_values of two axes, one with the leading date fields of the other, gives the dates of both in the same units with values whose differences are the times between the dates; other axes are refused.",
  "every time axis, start date, unit, date and number of days, hours, minutes and seconds added; every pair of axes with any fields",
  "The start date of one axis is used with the fields of the other, where missing fields are filled in with defaults that must agree with those used elsewhere; this can only be seen for axes with different fields.",
  ["pygeode/timeutils.py: reltime, wrapdate, conform_values", "pygeode/timeaxis.py: CalendarTime.__init__, CalendarTime.date_as_val"])
p("Seasonal time axes and means over seasons","A seasonal time axis made from seasons and a start date has these seasons, its values are the times from the start date to the middle of each season (16 January, 15 April, 16 July, 16 October), and the dates made from the values are the same seasons. Made from values, its seasons are those of the months of their dates. The seasonal mean of a variable has one time for each season in which the variable has a date, in chronological order; its values are the means of the variable over the dates in that season, December counting with the January and February that follow; likewise for means without NaN, counts and standard deviations.","every variable with a time axis of the standard or the 365-day calendar with years, every list of dates in any order, every unit and start date, every size limit of the loop, every choice of positions read","The grouping goes through the values of the axis, the day of the year and boundaries given as days; every value of the input axis is replaced by that of the middle of its season. Tests compare one season of one year.",["pygeode/timeaxis.py: makeSeasonalAxis","pygeode/climat.py: Seasonal, seasonalmean, seasonalnanmean, seasonalstdev, seasonalnanstdev, seasonalcount"])
p("Time axes without years count days","A time axis without years and months (`Yearless`), however it was made, has for every date the value that is the time from the start to that date in the units of the axis, days being counted without end in both directions; made from values, units and a start it has the dates that many units after the start, to the nearest second; made from fields it has exactly these fields; a start with a year is refused; slicing keeps units and start and gives the chosen dates and values; written to a file (CF metadata) and read again an axis of days, hours, minutes and seconds that starts at day 0 or later has the same units, start, dates and values.","every list of values, every unit, every start, every set of fields and list of dates, every list of positions, every axis made in one of these ways","a test compares a few dates; the claim is about every integer day, negative ones included, and about the agreement of two arrays that are kept side by side through every construction",["pygeode/timeaxis.py:1013-1056","pygeode/timeaxis.py:355-420","pygeode/timeaxis.c:547-598","pygeode/formats/cfmeta.py:165-188","pygeode/formats/cfmeta.py:383-422"])
p("Labels of a time plot show what the distance of the ticks calls for","A plot over a time axis (formatter of the axis, calendars with years) gives every tick one label, whatever was plotted before. Which labels are equal depends only on the mean distance of the ticks: from about a year on exactly the ticks of one year, from about a month on exactly those of one date (of one month with 360 days), from about a day on those of one day of the year, from about an hour on those of one hour and minute, and below that those of one time of the day; the text beside the axis is then empty, or the year, or the date of the first tick. Ticks at beginnings of months, the same number of months apart (not 11), always have different labels. One tick shows the time of its day; a format given by the user is used as it is.","every calendar, start date, unit, list of two or more ticks with any mean distance, every number of months between ticks, and every formatter left by earlier plots","the format depends on a quotient of extremes of the ticks and the calendar; tests plot a few axes and look at no label",["pygeode/timeticker.py: TimeFormatter.__init__, __call__, set_locs, autoformat_range, get_offset","pygeode/timeaxis.py: Time.formatter, CalendarTime.autofmts, ModelTime360.autofmts, formatvalue"])
p("A name reaches the axis, variable or array of that name",
"var.getaxis(id) gives the first axis of the variable that answers to id (its own name or the name of one of its classes, in any case; a class; an equal axis), and raises KeyError exactly if none does; hasaxis says beforehand which. var.name is the same axis, so an axis can be reached by its own name if no other axis answers to that name. axis.name is the auxiliary array of this name, or else the auxiliary attribute, or else the axis itself. 'name in dataset' is true exactly if dataset[name] succeeds, and dataset.name is dataset[name]. dataset.load() has the same variables, axes, attributes and data, all in memory.",
"every list of axes, every name, class or axis looked for; every dataset with distinct names; every source of data",
"which object a name reaches depends on all the names the other axes of the same object answer to, and on the order of the axes",
["pygeode/var.py: Var.__getattr__, Var.getaxis, Var.hasaxis","pygeode/axis.py: Axis.__getattr__","pygeode/dataset.py: Dataset.__getattr__, Dataset.__contains__, Dataset.getaxis, Dataset.hasaxis, Dataset.load"])
p("A getview that needs complete axes is given complete axes",
"With the decorator need_full_axes on a getview that can only work on some axes when it has them completely, every request for any part of the variable is answered with the same data as the whole: if these axes are the last ones of the variable and fit in memory together, and at most one of them is asked for at positions that are not a slice. (Otherwise they are not: an axis that is not the last is not made complete, and what is computed from a part of it is returned.)",
"every variable with axes of unrelated classes and distinct values, every number of axes to be completed, every request of increasing positions, every size of memory that holds these axes, every getview that is right for complete axes",
"the request is cut into pieces by the size of memory, put into another order of axes, completed, and cut again; a test sees a few shapes",
["pygeode/tools.py: need_full_axes"])
p("Sorting by the axes asked for",
  "var.sorted(...) accepts axes by position, name, class or axis and by keyword with the order 1, 0 or -1, and refuses anything else. Each axis is put in the order of the last keyword that means it, or in its natural order if only named or if nothing is named at all; axes not meant stay as they are; the data move with the values. interp.sorted sorts just one axis the same way, and returns the variable itself if it is in that order already.",
  "every variable, list of keys and orders, natural orders of the axes, data",
  "the keys, their repetition and their orders form an unbounded domain; tests sort one or two axes",
  ["pygeode/varoperations.py: sorted, SortedVar", "pygeode/axis.py: Axis.argsort, Axis.sorted", "pygeode/interp.py: sorted, SortedVar"])
p("Logarithmic colours and labels made from data",
  "LogNorm2Sided without limits takes them from the data: from minus to plus the largest size, linear up to the smallest size above 1e-16, whereas limits that are set are kept. Then every value of the data has a colour between 0 and 1 and opposite values have opposite colours. The labels of the scale are within a twentieth of numbers of size 0.1 to 100, and otherwise within half a unit of the first digit; ticks with one digit are shown exactly.",
  "all data, all limits set or not, all numbers",
  "each datum is compared with the largest and smallest of all; the exponent of a label has boundaries at every power of ten",
  ["pygeode/plot/cnt_helpers.py: LogNorm2Sided.autoscale", "pygeode/plot/cnt_helpers.py: LogNorm2Sided.autoscale_None", "pygeode/plot/cnt_helpers.py: lfmt"])
p("Requests to an OPeNDAP directory reach their dataset",
 "In a directory of several datasets served by OPeNDAP, a request for the description, attributes or data of a dataset (name.dds, name.das, name.dods, with or without arguments) is answered by this dataset with these arguments, whatever else is in the directory and in whatever order; so opening the address of a dataset gives its axes and variables, and reading a box of a variable gives the values of that box of this dataset. The address alone gives the page for browsers.",
 "all directories in which no name has a question mark and none begins with another name followed by .das, .dds or .dods; all datasets with plain names; all arguments without a question mark; all boxes",
 "the first entry of a dictionary that fits the beginning of the path is taken; whether it is the right one depends on all names together and on their order",
 ["pygeode/formats/opendap.py: DAP_Dir.handle, DAPHandler.handle", "pygeode/formats/opendap.py: open, OpenDAP_Var.getvalues"])
p("Which library is loaded",
 "A library is searched in the directories of the package, below the Python prefix, in two directories of the system and in those of LD_LIBRARY_PATH, in this order; the one in the first directory that has it is taken, a .so before a .dll before a .dylib, and only if there is none the one the system knows. A library in the directory of the package is always taken. A name with an absolute directory is looked for there only, and then in the system.",
 "all sets of installed files, all search paths of non-empty directories, all names without a slash (or with an absolute directory)",
 "the result depends on everything installed on the computer and on the environment; tests see one computer",
 ["pygeode/libhelper.py: get_library_paths, find_library"])
p("Values given on opening replace those of the file",
 "open(..., value_override={name: values}) gives a dataset in which every variable named in the dictionary has the values given, on its own axes; all other variables, all names, their order and the global attributes are those of the file. Values of another shape are refused; names that are not in the file are ignored with a warning.",
 "all datasets (variables and axes each with their own name), all dictionaries of values that fit",
 "the variables are replaced by name in a new dataset, which may change names and axes; any combination of names can be given",
 ["pygeode/formats/netcdf4.py: override_values", "pygeode/formats/netcdf.py: override_values", "pygeode/dataset.py: Dataset.replace_vars"])
out = os.path.join(os.path.dirname(os.path.abspath(__file__)), "..", "properties.jsonl")
with open(out, "w") as f:
    for q in P: f.write(json.dumps(q) + "\n")
print(len(P))
