{"id": "C01", "title": "Slice expansion agrees with Python", "statement": "When a View (or var.slice[...]) is given a Python slice whose start/stop are None or lie within [-n, n] (n the axis length; for descending slices a start of -n-1..n-1), the integer positions it selects are exactly the positions Python/numpy itself would select from a length-n sequence, in the same order.", "quantifier": "every axis length n, every step (positive or negative, any size), every start/stop None or within the in-range window", "why_tests_cant": "infinitely many (start, stop, step, n) combinations; sign and None cases interact", "anchors": ["pygeode/view.py:expand"]}
{"id": "C02", "title": "Index lists compress to slices without changing meaning", "statement": "View stores a compressed form of an index list; applying the compressed form to any array long enough yields the same elements, in the same order, with the same multiplicity, as applying the list, and re-expanding the compressed form gives the original list back.", "quantifier": "every list of non-negative indices (any length, ascending, descending, constant, irregular), every array whose length exceeds the largest index", "why_tests_cant": "the corner cases (single element, constant step, step 0, descending through 0, stop = -1) are a finite set of bugs but the claim ranges over all lists", "anchors": ["pygeode/view.py:simplify", "pygeode/view.py:expand"]}
{"id": "C03", "title": "Contiguous runs partition a request", "statement": "Splitting an index list into contiguous runs loses nothing: the runs, concatenated in order, are the original list; within each run indices rise by exactly 1; and no two adjacent runs could have been merged.", "quantifier": "every index list of any length", "why_tests_cant": "all lists of all lengths", "anchors": ["pygeode/view.py:contiguate"]}
{"id": "C04", "title": "Contiguous block loop reassembles the whole request", "statement": "Reading a request as the sequence of (output block, start, count) hyper-rectangles and storing each block into the output array fills every output cell exactly once with the value at the requested source position.", "quantifier": "every number of axes, every list of requested indices per axis, every source array", "why_tests_cant": "product over unboundedly many axes and index lists", "anchors": ["pygeode/view.py:View.loop_contiguous", "pygeode/view.py:View.get"]}
{"id": "C05", "title": "Memory-limited chunks partition a view", "statement": "Iterating over a view in memory-limited chunks visits every requested cell exactly once; along each axis the chunk index lists concatenate to the requested index list in order; axes listed in `preserve` are never split.", "quantifier": "every number of axes, all axis request lengths >= 1, every memory limit >= 1, every set of preserved axes", "why_tests_cant": "depends on integer division cascades for all shapes and limits", "anchors": ["pygeode/view.py:View.loop_mem", "pygeode/view.py:View._loop_mem"]}
{"id": "C06", "title": "Memory-limited chunks respect the limit", "statement": "Each chunk produced by the memory loop holds at most max(limit, product of the preserved axes' lengths) values; with no preserved axes each chunk holds at most `limit` values.", "quantifier": "every shape, every limit >= 1, every preserve set", "why_tests_cant": "size bound over all shapes and limits", "anchors": ["pygeode/view.py:View.loop_mem"]}
{"id": "C07", "title": "Repeated or unsorted indices return the requested values", "statement": "Asking for indices in any order, with repeats, returns exactly the values at those positions in that order, although the implementation reads each distinct position once in ascending order.", "quantifier": "every request list over every axis, every source", "why_tests_cant": "needs search-in-sorted-unique correctness for every list", "anchors": ["pygeode/view.py:View.get"]}
{"id": "C08", "title": "Reading a view is pointwise and independent of how a variable stores its data", "statement": "The array obtained for a view of a variable has, at each output cell, the value of the variable at the position given by the view's indices; the result is the same whether the variable holds its values in memory, implements getview, or implements getvalues (contiguous block reads); axes of the view the variable does not have appear with length 1.", "quantifier": "every variable, every view whose axes include the variable's axes in any order", "why_tests_cant": "all ranks, axis orders and index lists", "anchors": ["pygeode/view.py:View.get", "pygeode/view.py:View.map_to"]}
{"id": "C09", "title": "Axis selection keywords intersect", "statement": "var(lat=(a,b), n_lat=..., i_lat=..., l_lat=...) keeps exactly the positions that satisfy every condition given, in the axis's original order, and the outcome does not depend on the order of the keywords.", "quantifier": "every axis, every finite collection of selection keywords in any order", "why_tests_cant": "unbounded number of conditions and orders", "anchors": ["pygeode/axis.py:Axis.get_slice", "pygeode/var.py:Var.__call__"]}
{"id": "C10", "title": "Range selection is inclusive and order-insensitive", "statement": "Selecting an axis by a 2-tuple (a,b) keeps exactly the values v with min(a,b) <= v <= max(a,b), so (a,b) and (b,a) select the same thing; the n_ prefix keeps exactly the complement.", "quantifier": "every axis and every pair of bounds", "why_tests_cant": "all values and bounds", "anchors": ["pygeode/axis.py:Axis.get_slice"]}
{"id": "C11", "title": "Scalar selection picks a nearest value", "statement": "Selecting an axis by a single float keeps exactly one position, whose value is at minimal distance from the request (the first such position when tied).", "quantifier": "every non-empty axis and every request", "why_tests_cant": "argmin over lists of all lengths", "anchors": ["pygeode/axis.py:Axis.get_slice"]}
{"id": "C12", "title": "Coordinate sort is a correct index sort", "statement": "The C sort used for coordinate matching returns the input values in non-decreasing order together with a permutation of positions such that value k of the output is the input value at position k of the permutation.", "quantifier": "every array of every length", "why_tests_cant": "all arrays; three code paths (sorted, reverse-sorted, merge sort)", "anchors": ["pygeode/tools.c:sort", "pygeode/tools.c:msort"]}
{"id": "C13", "title": "Coordinate matching is sound", "statement": "When matching requested coordinates against an axis, every reported position holds a coordinate whose distance to the requested one is at most rtol times the requested magnitude; requested coordinates with no such match are dropped and the matches come back in the order requested.", "quantifier": "every axis array, every request array, every tolerance", "why_tests_cant": "two-pointer walk over arbitrary arrays", "anchors": ["pygeode/tools.c:map_to", "pygeode/tools.py:map_to", "pygeode/axis.py:Axis.map_to"]}
{"id": "C14", "title": "Coordinate matching is complete on distinct coordinates", "statement": "If the axis coordinates are pairwise distinct and some coordinate lies within tolerance of the requested value, a match is reported, and it is a nearest coordinate.", "quantifier": "every axis with pairwise distinct values, every request, every tolerance", "why_tests_cant": "needs a walk invariant over all arrays", "anchors": ["pygeode/tools.c:map_to"]}
{"id": "C15", "title": "Slicing then reading returns the data at the sliced positions", "statement": "var.slice[s] locates its data by matching sliced coordinates back to the original axis; for axes whose coordinates are pairwise distinguishable at the tolerance of axis equality (1e-8 + 1e-5|y|) the data read are exactly those at s, whatever the order or repetition in s, along every axis at once. (For coordinates that are distinct but closer than that, e.g. [1000000, 1000001], the code reads the wrong positions.)", "quantifier": "every variable with axes of different kinds and pairwise distinguishable coordinates, all index lists s, every request on the sliced variable, every matching tolerance >= 0", "why_tests_cant": "composition of slicing, sorting and matching for all arrays", "anchors": ["pygeode/varoperations.py:SlicedVar", "pygeode/axis.py:Axis.map_to", "pygeode/tools.c:map_to"]}
{"id": "C16", "title": "Common coordinates of two axes", "statement": "common_map of two coordinate arrays reports pairs of positions holding equal coordinates.", "quantifier": "every pair of arrays", "why_tests_cant": "all arrays of doubles, including coordinates closer than 1 apart", "anchors": ["pygeode/tools.c:common_map", "pygeode/tools.py:common_map"]}
{"id": "C17", "title": "Binned sums accumulate every value exactly once", "statement": "Accumulating data into bins along one axis adds each value to the cell of its bin and nothing else, and the counts are the numbers of values per bin; summing in several chunks gives the same totals as summing at once.", "quantifier": "every outer/inner/bin size, every bin assignment, every split of the data into chunks", "why_tests_cant": "strided pointer arithmetic over all sizes", "anchors": ["pygeode/tools.c:partial_sum", "pygeode/tools.py:partial_sum"]}
{"id": "C18", "title": "NaN-aware binned sums ignore exactly the NaNs", "statement": "The NaN-skipping accumulation gives for each bin the sum and count of the non-NaN values only.", "quantifier": "every size, bin assignment and NaN pattern", "why_tests_cant": "all NaN patterns", "anchors": ["pygeode/tools.c:partial_nan_sum", "pygeode/tools.py:partial_nan_sum"]}
{"id": "C19", "title": "Date lookup by binary search is exact", "statement": "Looking up a date tuple in a sorted list of distinct date tuples returns its position if present and a failure otherwise.", "quantifier": "every tuple width, every sorted list of every length, every tuple looked up", "why_tests_cant": "binary search over all sizes", "anchors": ["pygeode/timeaxis.c:get_index", "pygeode/timeaxis.c:get_indices"]}
{"id": "C20", "title": "Uniquifying dates", "statement": "Removing duplicate date tuples from a lexicographically sorted list returns a strictly increasing list with exactly the same set of tuples.", "quantifier": "every sorted list of tuples", "why_tests_cant": "relies on the lookup invariant at each step", "anchors": ["pygeode/timeaxis.c:uniquify", "pygeode/timeutils.py:_uniquify"]}
{"id": "C21", "title": "Standard calendar round trip", "statement": "Converting a valid Gregorian date (with optional time) to seconds relative to any start date and back gives the same date.", "quantifier": "every year (negative too), month, day, time and every start date", "why_tests_cant": "unbounded years, leap-year rules, loops in the C code", "anchors": ["pygeode/timeaxis.c:date_as_val_std", "pygeode/timeaxis.c:val_as_date_std", "pygeode/timeaxis.c:ndays"]}
{"id": "C22", "title": "Standard calendar inverse round trip", "statement": "Converting any number of seconds relative to a start date to a date gives valid fields (month 1..12, day within the month, time within the day), and converting that date back gives the same number of seconds.", "quantifier": "every integer offset, every valid start date", "why_tests_cant": "unbounded offsets, both signs", "anchors": ["pygeode/timeaxis.c:val_as_date_std", "pygeode/timeaxis.c:date_as_val_std"]}
{"id": "C23", "title": "365-day calendar round trips", "statement": "On the 365-day calendar, date to offset to date and offset to date to offset are both the identity, and decoded fields are always valid.", "quantifier": "every year, month, day, time, offset and start date", "why_tests_cant": "unbounded domain", "anchors": ["pygeode/timeaxis.c:date_as_val_365", "pygeode/timeaxis.c:val_as_date_365"]}
{"id": "C24", "title": "360-day calendar round trips", "statement": "On the 360-day calendar, date to offset to date and offset to date to offset are both the identity, and decoded fields are always valid.", "quantifier": "every year, month, day, time, offset and start date", "why_tests_cant": "unbounded domain", "anchors": ["pygeode/timeaxis.c:date_as_val_360", "pygeode/timeaxis.c:val_as_date_360"]}
{"id": "C25", "title": "Yearless calendar round trips", "statement": "On the yearless calendar (running day counter) both conversions are inverse to each other.", "quantifier": "every day, time, offset and start day", "why_tests_cant": "unbounded domain", "anchors": ["pygeode/timeaxis.c:date_as_val_yearless", "pygeode/timeaxis.c:val_as_date_yearless"]}
{"id": "C26", "title": "Month overflow wraps to neighbouring years", "statement": "A month outside 1..12 passed to the standard or 365-day calendar means the same date as the wrapped month in the adjusted year (13 = January of the next year, 0 = December of the previous year).", "quantifier": "every integer month and year", "why_tests_cant": "all integers; C truncating division", "anchors": ["pygeode/timeaxis.c:date_as_val_std", "pygeode/timeaxis.c:date_as_val_365"]}
{"id": "C27", "title": "Offsets order dates chronologically", "statement": "For valid dates, a date is earlier than another iff its offset from any common start date is smaller; equal iff equal.", "quantifier": "every pair of valid dates, every start date, every calendar", "why_tests_cant": "all pairs", "anchors": ["pygeode/timeaxis.c:date_as_val_std", "pygeode/timeaxis.c:date_as_val_365", "pygeode/timeaxis.c:date_as_val_360"]}
{"id": "C28", "title": "Changing the start date shifts all offsets by one constant", "statement": "The offset of a date relative to start A equals its offset relative to start B plus the offset of B relative to A.", "quantifier": "every date and every pair of start dates, every calendar", "why_tests_cant": "all triples", "anchors": ["pygeode/timeaxis.c:date_as_val_std", "pygeode/timeaxis.py:CalendarTime.date_as_val", "pygeode/timeutils.py:reltime"]}
{"id": "C29", "title": "Day counts between years", "statement": "The number of days between 1 January of two years is the sum of the lengths of the years in between, 366 for Gregorian leap years and 365 otherwise, and is negative when the years are swapped.", "quantifier": "every pair of integer years", "why_tests_cant": "unbounded", "anchors": ["pygeode/timeaxis.c:ndays", "pygeode/timeaxis.c:isleap"]}
{"id": "C30", "title": "Compact dates decode to their digits", "statement": "Time axes built from yyyymmdd or yyyymmddhh values get the year, month, day, hour those digits spell.", "quantifier": "every year >= 0, month 1..12, day 1..31, hour 0..23", "why_tests_cant": "all dates", "anchors": ["pygeode/timeaxis.py:CalendarTime.__init__"]}
{"id": "C31", "title": "Dataset variables have unique names", "statement": "After building a Dataset from any list of variables, no two variables share a name, none is blank, and each can be looked up by its name.", "quantifier": "every list of variable names, including names that already look like generated ones", "why_tests_cant": "adversarial name collisions", "anchors": ["pygeode/dataset.py:Dataset.__init__"]}
{"id": "C32", "title": "Dataset axes: equal axes share a name, unequal axes do not", "statement": "After building a Dataset, two axes of its variables have the same name only if they are equivalent.", "quantifier": "every list of variables and axes", "why_tests_cant": "adversarial name collisions", "anchors": ["pygeode/dataset.py:Dataset.__init__", "pygeode/dataset.py:axis_name_clumping"]}
{"id": "C33", "title": "Attribute merging keeps exactly the agreed attributes", "statement": "Merging attribute dictionaries keeps a key iff every dictionary has it with the same value.", "quantifier": "every finite list of dictionaries", "why_tests_cant": "all lists", "anchors": ["pygeode/tools.py:common_dict"]}
{"id": "C34", "title": "Arithmetic broadcasts by axis, not by position", "statement": "Combining variables elementwise gives at each coordinate of the combined axes the operation applied to each operand's value at that operand's own coordinates; swapping operands of a commutative operation does not change the value at any coordinate.", "quantifier": "every operand rank, axis order and shared-axis pattern", "why_tests_cant": "all axis patterns", "anchors": ["pygeode/ufunc.py:UfuncVar", "pygeode/tools.py:combine_axes"]}
{"id": "C35", "title": "Axis lookup returns the first match", "statement": "whichaxis by name returns the smallest position whose axis answers to that name, and fails iff none does.", "quantifier": "every axis list and name", "why_tests_cant": "all lists", "anchors": ["pygeode/tools.py:whichaxis", "pygeode/axis.py:Axis.has_alias"]}
{"id": "C36", "title": "Transposition relabels without changing data", "statement": "Transposing to any order of axes gives at each permuted index the same value, transposing twice composes, and axes left out are appended in their original order.", "quantifier": "every rank, every (partial) order", "why_tests_cant": "all permutations", "anchors": ["pygeode/varoperations.py:TransposedVar"]}
{"id": "C37", "title": "Squeeze and extend are inverse up to degenerate axes", "statement": "Squeezing removes exactly length-one axes and no data; extending adds an axis of length n along which the data are constant.", "quantifier": "every shape", "why_tests_cant": "all shapes", "anchors": ["pygeode/varoperations.py:SqueezedVar", "pygeode/varoperations.py:ExtendedVar"]}
{"id": "C38", "title": "Concatenation puts each piece at its place", "statement": "Concatenating variables along an axis gives at position p of the joined axis the value from the piece that contributed that position.", "quantifier": "every number of pieces and lengths, every request", "why_tests_cant": "all partitions and requests", "anchors": ["pygeode/concat.py:ConcatVar"]}
{"id": "C39", "title": "Fill and unfill", "statement": "fill(v) replaces exactly the NaNs by v and unfill(v) exactly the values equal to v by NaN; unfilling what was filled with a value absent from the data restores the data.", "quantifier": "every data array and fill value", "why_tests_cant": "all NaN patterns", "anchors": ["pygeode/varoperations.py:FillVar", "pygeode/varoperations.py:UnfillVar"]}
{"id": "C40", "title": "Sum, mean, min and max do not depend on chunking", "statement": "Reducing a variable over axes gives the sum, mean, minimum, maximum over exactly the cells of the reduced axes, whatever the memory limit.", "quantifier": "every data set, every partition of the request into chunks", "why_tests_cant": "all chunkings", "anchors": ["pygeode/reduce.py:SumVar", "pygeode/reduce.py:MeanVar", "pygeode/reduce.py:MinVar", "pygeode/reduce.py:MaxVar", "pygeode/tools.py:loopover"]}
{"id": "C41", "title": "Argmin/argmax do not depend on chunking", "statement": "argmax/argmin over an axis gives the first position attaining the extreme over the whole axis, whatever the memory limit.", "quantifier": "every data set and chunking", "why_tests_cant": "all chunkings", "anchors": ["pygeode/reduce.py:ArgMaxVar", "pygeode/reduce.py:ArgMinVar"]}
{"id": "C42", "title": "NaN-aware reductions ignore exactly the NaNs", "statement": "nansum, nanmean, nanmin, nanmax, nanvariance equal the plain reductions over the non-NaN cells; cells with no valid data give NaN (mean).", "quantifier": "every data set, NaN pattern and chunking", "why_tests_cant": "all patterns", "anchors": ["pygeode/reduce.py:NANSumVar", "pygeode/reduce.py:NANMeanVar", "pygeode/reduce.py:NANVarianceVar"]}
{"id": "C43", "title": "Variance formula", "statement": "The one-pass variance (sum of squares minus N times squared mean, over N-1) equals the definition: sum of squared deviations from the mean over N-1; it is non-negative in exact arithmetic.", "quantifier": "every data set with at least two values", "why_tests_cant": "algebraic identity over all data", "anchors": ["pygeode/reduce.py:VarianceVar"]}
{"id": "C44", "title": "Weighted mean", "statement": "The weighted mean equals sum(w*x)/sum(w) over the reduced cells, whatever the chunking and whatever axes the weights lack.", "quantifier": "every data set, weights and chunking", "why_tests_cant": "all chunkings", "anchors": ["pygeode/reduce.py:WeightedMeanVar"]}
{"id": "C45", "title": "Forward difference", "statement": "diff(n) at position i is the n-th forward difference of the data at i, for any requested subset of positions in any order.", "quantifier": "every data set, order n and request", "why_tests_cant": "all requests", "anchors": ["pygeode/diff.py:ForwardDifferenceVar"]}
{"id": "C46", "title": "Derivative stencil stays in bounds and is exact on linear data", "statement": "deriv at every position uses two distinct in-range neighbours and returns the exact slope for data linear in the coordinate.", "quantifier": "every axis of at least two points, every differencing type, every request", "why_tests_cant": "all positions and lengths", "anchors": ["pygeode/deriv.py:DerivativeVar"]}
{"id": "C47", "title": "Integration is a running sum", "statement": "integrate/cumsum at position i is v0 plus the sum of the increments up to i (from the far end for order=-1), so differencing the integral gives back the increments.", "quantifier": "every data set, coordinate, start value, direction and rule", "why_tests_cant": "all lengths", "anchors": ["pygeode/intgr.py:IntegrateVar"]}
{"id": "C48", "title": "Longitude rotation", "statement": "rotatelon(origin) maps every longitude to a value congruent to it modulo 360 inside [origin, origin+360) and sorted.", "quantifier": "every longitude array and origin", "why_tests_cant": "modular arithmetic over all values", "anchors": ["pygeode/axis.py:rotatelon"]}
{"id": "C49", "title": "Nested progress stays in range and monotone", "statement": "Progress reported through nested subset/part bars lies between 0 and 100 and within the parent's interval; consecutive parts tile the parent's interval without gap.", "quantifier": "every nesting depth, every part count", "why_tests_cant": "unbounded nesting", "anchors": ["pygeode/progress.py:PBar"]}
{"id": "C50", "title": "CF names are valid and stable", "statement": "The CF-safe version of a non-empty name contains only letters, digits and underscores, does not start with a digit, keeps already-valid names unchanged, and applying the conversion twice changes nothing more.", "quantifier": "every non-empty string", "why_tests_cant": "all strings", "anchors": ["pygeode/formats/cfmeta.py:fix_name"]}
{"id": "C51", "title": "CF time units round trip", "statement": "Writing a time axis's start date as CF units and parsing the text back gives the same start date and units.", "quantifier": "every start date with non-negative year", "why_tests_cant": "formatting and parsing over all numbers", "anchors": ["pygeode/formats/cfmeta.py:encode_cf", "pygeode/formats/cfmeta.py:decode_cf"]}
{"id": "C52", "title": "CF fill values", "statement": "When a variable carries a _FillValue, decoding turns exactly the cells equal to it into NaN and applies scale and offset to all others.", "quantifier": "every data array, fill value, scale and offset", "why_tests_cant": "includes the fill value 0", "anchors": ["pygeode/formats/cfmeta.py:var_newaxes", "pygeode/formats/cfmeta.py:decode_cf"]}
{"id": "C53", "title": "Seasonal binning", "statement": "Every date falls in exactly one meteorological season, December counts to the DJF season of the following year.", "quantifier": "every date", "why_tests_cant": "all dates and years", "anchors": ["pygeode/timeaxis.py:SeasonalTime._get_seasons"]}
{"id": "C54", "title": "Climatological means are group means", "statement": "climatology / monthly / yearly means give for each output time the mean of exactly the input values whose retained date fields equal it, whatever the chunking.", "quantifier": "every time axis, data set and chunking", "why_tests_cant": "all groupings and chunkings", "anchors": ["pygeode/climat.py:Mean", "pygeode/climat.py:loopover", "pygeode/timeutils.py:modify"]}
{"id": "C55", "title": "Lagged copies", "statement": "lag(v) at (t, l) is v at t+l when that position exists and NaN otherwise.", "quantifier": "every lag list, request and length", "why_tests_cant": "all requests", "anchors": ["pygeode/timeutils.py:LagVar"]}
{"id": "C56", "title": "Multifile reads route each time to its file", "statement": "A multi-file variable returns for each requested time the value stored under that time in the file whose start is the latest not after it, and raises an error rather than returning data if some time is found in no file.", "quantifier": "every set of files, every request order", "why_tests_cant": "all file layouts and request orders", "anchors": ["pygeode/formats/multifile.py:Multifile_Var.getview"]}
{"id": "C57", "title": "Smoothing mirrors at the ends", "statement": "smooth at position i is the kernel-weighted average of the data extended by reflection, for any requested subset; smoothing constant data returns it unchanged.", "quantifier": "every data set, kernel and request", "why_tests_cant": "all requests and lengths", "anchors": ["pygeode/smooth.py:SmoothVar"]}
{"id": "C58", "title": "Time values in any unit round trip", "statement": "A date converted to a value on the time axis (in seconds, minutes, hours or days) and back is the same date; a value converted to a date and back changes by at most half a second.", "quantifier": "every calendar, start date, unit, valid date and rational value", "why_tests_cant": "all values, units, and dates", "anchors": ["pygeode/timeaxis.py:CalendarTime.val_as_date", "pygeode/timeaxis.py:CalendarTime.date_as_val"]}
{"id": "C59", "title": "days_in_month is the length of the month", "statement": "days_in_month(year, month) returns the number of days of that month in the calendar of the axis.", "quantifier": "every calendar, year and month 1..12", "why_tests_cant": "all years", "anchors": ["pygeode/timeaxis.py:CalendarTime.days_in_month"]}
{"id": "C60", "title": "Day of the year", "statement": "The day-of-year ($j when formatting) of a date is the number of days since the start of its own year, counting 1 January as 1.", "quantifier": "every calendar and valid date", "why_tests_cant": "depends on every year's leap status", "anchors": ["pygeode/timeaxis.py:CalendarTime._getdoy"]}
{"id": "C61", "title": "Common dates of two time axes", "statement": "common_map of two time axes reports only pairs of positions with equal common date fields; if the common fields are distinct on at least one axis it reports all such pairs, and they fit the buffers allocated.", "quantifier": "every pair of time axes in any storage order", "why_tests_cant": "sort, merge walk and index translation over all inputs", "anchors": ["pygeode/timeaxis.c:common_map", "pygeode/timeaxis.py:Time.common_map"]}
{"id": "C62", "title": "Nearest earlier date", "statement": "The nearest-lower lookup returns the last position whose date is not after the requested one, and failure exactly when all dates are after it.", "quantifier": "every sorted list of date tuples and every request", "why_tests_cant": "binary search over all sizes", "anchors": ["pygeode/timeaxis.c:nearest_lower"]}
{"id": "C63", "title": "Mapping a time axis to other dates", "statement": "For a time axis with distinct full dates, map_to another time axis returns, in the other axis's order, exactly the positions of its dates that occur on the axis.", "quantifier": "every calendar, start date, axis order and request", "why_tests_cant": "combines calendar order, argsort and binary search", "anchors": ["pygeode/timeaxis.py:Time.map_to", "pygeode/timeaxis.c:get_indices"]}
{"id": "C64", "title": "The trend is the least squares line", "statement": "The two coefficients returned by the trend operations for each output time are the constant and slope of the unique line that minimises the sum of squared residuals over exactly the input times of that output time, whatever the chunking.", "quantifier": "every time axis, data set, grouping and chunking in which the times of the group are not all equal", "why_tests_cant": "all data sets and chunkings", "anchors": ["pygeode/climat.py:Trend"]}
{"id": "C65", "title": "What equality of axes means", "statement": "Axes that compare equal have compatible classes, the same length and values within 1e-8 + 1e-5|y| position by position (generic axes also the same name), and a copy of an axis compares equal to it. (Equality is neither symmetric nor transitive.)", "quantifier": "every pair of axes", "why_tests_cant": "ranges over all value arrays", "anchors": ["pygeode/axis.py:is_equivalent"]}
{"id": "C66", "title": "Slicing, sorting and relabelling move data with their coordinates", "statement": "Sorting a variable orders each sorted axis and moves the data along with the axis values; replacing or renaming axes keeps the data at every position; slicing a slice reads the positions of the positions; selecting and transposing commute; slices with an Ellipsis apply to the first and last axes.", "quantifier": "every variable, order, replacement, pair of slices and request", "why_tests_cant": "must hold for every chain of operations and every shape", "anchors": ["pygeode/varoperations.py:SortedVar", "pygeode/varoperations.py:Replace_axes", "pygeode/varoperations.py:RenamedVar", "pygeode/varoperations.py:SlicedVar"]}
{"id": "C67", "title": "Joining datasets groups variables by name", "statement": "pygeode.dataset.concat makes one variable for every name found in any of the datasets, in the order in which the names are first found, from all variables with that name in the order of the datasets.", "quantifier": "every list of datasets", "why_tests_cant": "any number of datasets with different sets of variables", "anchors": ["pygeode/dataset.py:concat"]}
{"id": "C68", "title": "Axis kinds and auxiliary arrays survive CF metadata", "statement": "Latitude, longitude, pressure and hybrid-level axes written with CF metadata are recognised as such when read back, whatever other attributes they carry; plain x/y/z/t axes keep their kind unless their name or attributes claim another; auxiliary arrays come back under their names.", "quantifier": "every axis name, attribute set and list of auxiliary array names without blanks", "why_tests_cant": "all attribute combinations", "anchors": ["pygeode/formats/cfmeta.py:encode_cf", "pygeode/formats/cfmeta.py:decode_cf"]}
{"id": "C69", "title": "Interpolated rows depend only on their own finite points", "statement": "Given rows of values with coordinates that all increase or all decrease (one set of coordinates for all rows or one for each), each output value is the method's value for exactly the finite points of its own row: NaN with too few points, outside the points a straight line with the given slope, and values or coordinates that are not finite count as absent. With omit_nonmonotonic, points that step back behind an earlier point are left out; without it, folded coordinates give an error and never a value.", "quantifier": "every number of rows and points, every placing of NaNs, both directions, shared or separate coordinates", "why_tests_cant": "ranges over all data, missing-value patterns and coordinate layouts", "anchors": ["pygeode/interp.c:interpgsl"]}
{"id": "C70", "title": "Linear interpolation", "statement": "Linear interpolation passes through all its points, lies on the straight line between the two neighbouring points elsewhere, and reproduces data that depend linearly on the coordinate.", "quantifier": "every strictly increasing list of at least two points and every coordinate between them", "why_tests_cant": "ranges over all point lists and coordinates", "anchors": ["pygeode/interp.c:interpgsl", "pygeode/interp.py:interpolate"]}
{"id": "C71", "title": "Interpolated variables", "statement": "interpolate replaces one axis of a variable by another; at every position of the other axes the result holds what the finite values along the old axis at that position give, with coordinates taken from the axes or from variables that may depend on the other axes too. With transpose=True (the default) the new axis takes the place of the old one.", "quantifier": "every variable, axis, new axis, coordinate variables and request", "why_tests_cant": "ranges over all shapes, axis orders, coordinate fields and requested views", "anchors": ["pygeode/interp.py:Interp", "pygeode/interp.py:interpolate"]}
{"id": "C72", "title": "Regression is least squares over the pairs of valid values", "statement": "regress(X, Y, axes) returns, at every position of the axes that are not regressed over, the slope and intercept of the unique straight line with the least sum of squared residuals through the pairs of values of X and Y there, counting exactly the pairs in which neither is NaN; r2 is one minus the residual over the total sum of squares, the standard errors are the textbook ones with N - 2 (or N / N_fac - 2) degrees of freedom; all are NaN with too few pairs or if X takes only one value. X and Y may have different axes; by default the common ones are regressed over, and naming one that is not common is an error.", "quantifier": "every pair of variables, axis orders, placing of NaNs, choice of axes and memory limit", "why_tests_cant": "ranges over all data, shapes, missing-value patterns and chunkings", "anchors": ["pygeode/stats.py:regress", "pygeode/tools.py:shared_axes"]}
{"id": "C73", "title": "Correlation is Pearson's coefficient of the pairs of valid values", "statement": "correlate(X, Y, axes) returns, at every position of the axes left, Pearson's correlation coefficient of the pairs of values in which neither is NaN, a number between -1 and 1 that is 1 or -1 exactly if the pairs lie on a straight line, and NaN if there is no pair or one variable takes only one value.", "quantifier": "every pair of variables, axis orders, placing of NaNs, choice of axes and memory limit", "why_tests_cant": "ranges over all data, shapes, missing-value patterns and chunkings", "anchors": ["pygeode/stats.py:correlate"]}
{"id": "C74", "title": "Differences of means", "statement": "difference(X, Y, axes) returns, at every position of the axes left, the difference of the means of the valid values of X and Y, the Welch-Satterthwaite degrees of freedom and (through p and ci) the standard error of the difference; NaN where one variable has fewer than two valid values. axes may be left out; the order of the axes of X and Y does not matter.", "quantifier": "every pair of variables with the same axes, placing of NaNs, choice of axes and memory limit", "why_tests_cant": "ranges over all data, shapes, missing-value patterns and chunkings", "anchors": ["pygeode/stats.py:difference"]}
{"id": "C75", "title": "Paired differences", "statement": "paired_difference(X, Y, axes) returns, at every position of the axes left, the mean of the differences X - Y over the pairs in which neither is NaN, N - 1 degrees of freedom, and (through p and ci) the standard error of that mean, the square root of the sample variance divided by N; NaN with fewer than two pairs.", "quantifier": "every pair of variables, placing of NaNs, choice of axes and memory limit", "why_tests_cant": "ranges over all data, shapes, missing-value patterns and chunkings", "anchors": ["pygeode/stats.py:paired_difference"]}
{"id": "C76", "title": "Tests of a mean", "statement": "isnonzero(X, axes) returns, at every position of the axes left, the mean of the valid values and (through p and ci) the standard error of that mean, the square root of the sample variance divided by their (effective) number; NaN without valid values.", "quantifier": "every variable, placing of NaNs, choice of axes and memory limit", "why_tests_cant": "ranges over all data, shapes, missing-value patterns and chunkings", "anchors": ["pygeode/stats.py:isnonzero"]}
{"id": "C77", "title": "Datasets made from a set of files cover the files' data, no more and no less", "statement": "The search of from_files for datasets ends, and its datasets cover exactly the points (variable and coordinates) that some file has: no dataset offers a point that no file holds, and every point of a file is offered by some dataset. No dataset is repeated or contained in another, and each has the axes of one of the pieces, in that order.", "quantifier": "every collection of pieces of data (variables with their axes) in which pieces with the same axes have them in the same order, however they overlap, and every order in which Python visits its sets", "why_tests_cant": "the search is a fixed-point iteration over sets of merged pieces; ranges over all collections and overlaps, and includes termination", "anchors": ["pygeode/formats/data_scanner.py:_get_domains", "pygeode/formats/data_scanner.py:_merge_domains", "pygeode/formats/data_scanner.py:_cleanup_subdomains", "pygeode/formats/data_scanner.py:from_files"]}
{"id": "C78", "title": "A manifest never hides that a file has changed", "statement": "from_files with a manifest file answers, for every file listed, with what is in that file now, as a scan without a manifest would; files that changed since the manifest was saved are read again.", "quantifier": "every history of files written, replaced and removed, of runs listing any files in any order, and of runs killed at any point", "why_tests_cant": "ranges over all histories and crash points of a state that lives on disk between processes", "anchors": ["pygeode/formats/data_scanner.py:_Manifest", "pygeode/formats/data_scanner.py:from_files"]}
{"id": "C79", "title": "A killed run leaves a usable manifest", "statement": "Whenever a run of from_files with a manifest file is interrupted, a later run with the same manifest can start.", "quantifier": "every history of writes and runs, and every point at which a run is killed", "why_tests_cant": "ranges over all crash points of the saving", "anchors": ["pygeode/formats/data_scanner.py:_Manifest.save", "pygeode/formats/data_scanner.py:_Manifest.__init__"]}
{"id": "C80", "title": "A variable put together from several files has their values", "statement": "Reading any part of a variable returned by from_files gives at every requested point the value stored by a file that has this point (the last one listed if there are several), and NaN at points no file has.", "quantifier": "every collection of files, overlapping or not, with gaps or not, and every request", "why_tests_cant": "ranges over all data, overlaps and requests; the place of each piece is found by a search whose result depends on the order of the axis", "anchors": ["pygeode/formats/data_scanner.py:_DataVar.getview", "pygeode/formats/data_scanner.py:AxisManager._get_axis_intersection"]}
{"id": "C81", "title": "A dataset saved to netCDF and opened again is the same", "statement": "save followed by open gives a dataset with the same variables in the same order, each with the same name, the same axes (names, values, order; an axis without values keeps its name and length) and the same value at every position, whatever the memory limit (the number of pieces in which the data are written).", "quantifier": "every dataset, any number of variables and axes of any length sharing axes in any way, and every memory limit", "why_tests_cant": "ranges over all datasets, shapes and memory limits; the pieces in which data are written depend on the limit", "anchors": ["pygeode/formats/netcdf4.py:save", "pygeode/formats/netcdf4.py:write_var", "pygeode/formats/netcdf4.py:tidy_axes", "pygeode/formats/netcdf4.py:open", "pygeode/formats/netcdf4.py:dims2axes", "pygeode/formats/netcdf4.py:NCVar.getvalues"]}
{"id": "C82", "title": "Packed variables come back within the packing error", "statement": "Saving with pack stores every value of a variable as a 16-bit integer together with a scale and an offset. When the file is read, every number comes back as a number within one part in 65534 of the range of the variable's values, the least and the greatest come back exactly, the order of values is kept, no stored integer overflows, a constant variable comes back exactly, and missing values (NaN) stay missing.", "quantifier": "every variable of any shape, any values with or without NaN, any memory limit of the reductions, any result of converting NaN to an integer", "why_tests_cant": "The bound must hold for every set of values, including the ends of the range where the integers would overflow and constant fields where the scale is zero; tests pack a few arrays.", "anchors": ["pygeode/formats/__init__.py: PackVar", "pygeode/formats/cfmeta.py: var_newaxes.getview", "pygeode/reduce.py: ReducedVar.__new__"]}
{"id": "C83", "title": "Station arrays survive saving and opening", "statement": "The auxiliary arrays of an axis without coordinates (station names, latitudes, longitudes, heights, ...) are stored as variables; when the dataset is read back the axis has the same arrays under the same names with the same contents, text included, no variable is lost or added, and the stored variables all have different names.", "quantifier": "every dataset with one such axis, any number of auxiliary arrays of numbers or texts with any names, any other variables on any axes", "why_tests_cant": "The names travel through space-separated attribute texts and suffixes, so whether they come back depends on every combination of names; tests use one or two station files.", "anchors": ["pygeode/formats/cfmeta.py: encode_cf", "pygeode/formats/cfmeta.py: decode_cf", "pygeode/formats/cfmeta.py: encode_string_var", "pygeode/formats/cfmeta.py: decode_string_var"]}
{"id": "C84", "title": "Stations are matched by their values", "statement": "Two axes without coordinates are equal exactly if they are of the same class and have the same auxiliary arrays; mapping one to another finds for each entry of the other the first entry with the same values under all common names, leaving out those that do not exist; a station name stands for its first position, and that position is shown under that name.", "quantifier": "every pair of axes of any length with any auxiliary arrays in any order, every name", "why_tests_cant": "It must hold for every order and combination of entries, repeated entries included.", "anchors": ["pygeode/axis.py: NonCoordinateAxis.__eq__", "pygeode/axis.py: NonCoordinateAxis.map_to", "pygeode/axis.py: NonCoordinateAxis.str_as_val", "pygeode/axis.py: NonCoordinateAxis.formatvalue"]}
{"id": "C85", "title": "Removing leap days removes the leap days", "statement": "With its default arguments removeleapyears removes from data on the standard calendar exactly the times that fall on a 29 February, and every other value keeps its date on the new 365-day axis. With any other lists of different days of the year it removes exactly the times on these days, gives as many dates as values are left, and moves each later day of that year down by the number of days removed before it.", "quantifier": "every list of dates whose years do not decrease, at any time of day, every list of different days to remove from leap years and from other years, every pair of calendars", "why_tests_cant": "The positions are computed over all years and the dates year by year; that they stay aligned depends on every mix of leap years, times of day and gaps.", "anchors": ["pygeode/timeutils.py: removeleapyears", "pygeode/timeutils.py: reltime"]}
{"id": "C86", "title": "An ensemble holds its members", "statement": "ensemble of variables with the same axes has one more axis in front with one place for each of them and holds at place p what the p-th holds; ensemble of datasets does this for every name of the first dataset, whatever the order of the variables in the others, and refuses datasets with other names or other axes under a name.", "quantifier": "every number of variables or datasets, every order of their variables, every data, every part of the ensemble that is read", "why_tests_cant": "Members are read one at a time through a view of the first one's axes and joined; that this is right for every selection of members and positions is a statement about all requests.", "anchors": ["pygeode/ensemble.py: ensemble", "pygeode/ensemble.py: EnsembleVar.getview"]}
{"id": "C87", "title": "Dates written as texts are read as what they say", "statement": "With the configured patterns, a text passed where a date is expected (str_as_val, selection, time ranges) is accepted exactly if it has one of the forms D Mon Y (with hh:mm and a space, or hh:mm:ss and no space, before it), Y, Y-MM, Y-MM-DD or Y-DDD (with Thh:mm[:ss] after it), possibly with a newline at its end, and gives the numbers written; anything else raises ValueError. A date from year 100 on that formatvalue writes in the first form is read back as the same date in every calendar, so the text of a time selects that time to the second; Y-DDD is day DDD of the year.", "quantifier": "all texts; all dates, calendars, units and values", "why_tests_cant": "the set of texts is infinite and the patterns backtrack; tests try a few well-formed dates", "anchors": ["pygeode/timeaxis.py:CalendarTime.str_as_date", "pygeode/timeaxis.py:CalendarTime.str_as_val", "pygeode/timeaxis.py:CalendarTime.formatvalue", "pygeode/pygrc"]}
{"id": "C88", "title": "Time ranges start at the start and stop before the end", "statement": "standardtimerange, modeltime365range and modeltime360range give the axis whose k-th time is k steps after the start date, for all k whose time is before the end date and no others, with values counted from the reference date; with inc=True, if the end is a whole number of steps after the start, the end is the last time. standardtimen etc. give exactly n times, step apart.", "quantifier": "all start, end and reference texts, calendars, units and positive steps (any non-zero step for the n forms)", "why_tests_cant": "off-by-one errors depend on the dates, the step and the calendar; tests use one range", "anchors": ["pygeode/timeaxis.py:standardtimerange", "pygeode/timeaxis.py:modeltime365range", "pygeode/timeaxis.py:modeltime360range", "pygeode/timeaxis.py:standardtimen", "pygeode/timeutils.py:date_diff"]}
{"id": "C89", "title": "Ticks are exactly the dates on the grid", "statement": "The ticks of a year, month, day, hour, minute or second generator between vmin and vmax are exactly the values of the dates on its grid (1 January of years that are multiples; every mult-th month, hour, minute, second counted from the beginning of the year, day, hour, minute, for multiples that divide it; every day) that are at or after vmin and before vmax, in increasing order and each once; the loop that makes them always ends; nticks for the multiple in use is their number.", "quantifier": "every calendar, start date and units, every vmin and vmax, rational and outside the axis included, every multiple that divides the next larger unit", "why_tests_cant": "Each tick is found by converting values to dates and back, with rounding to seconds and carries over months and years; that none is missed, repeated or off the grid must hold for every pair of limits.", "anchors": ["pygeode/timeticker.py: TickGenerator.ticks", "pygeode/timeticker.py: YearTickGen", "pygeode/timeticker.py: MonthTickGen", "pygeode/timeticker.py: DayOfMonthTickGen", "pygeode/timeticker.py: HourTickGen", "pygeode/timeticker.py: MinuteTickGen", "pygeode/timeticker.py: SecondTickGen", "pygeode/timeutils.py: wrapdate"]}
{"id": "C90", "title": "The multiple with the best number of ticks is found", "statement": "best_mult always ends, whatever numbers of ticks the multiples give and wherever it starts, and returns one of the multiples with its number of ticks; if the multiples are listed from fewest ticks to most, no other multiple has a number of ticks nearer to the one wanted.", "quantifier": "every list of multiples, every number wanted, every starting position, every numbers of ticks", "why_tests_cant": "The search walks up or down from where it was left the last time and stops early; that it never runs forever or stops at the wrong place must hold for all lists and starting positions.", "anchors": ["pygeode/timeticker.py: TickGenerator.best_mult"]}
{"id": "C91", "title": "A dataset saved with its metadata and opened again has the same axes", "statement": "Saving a dataset of any number of variables to a netCDF file and opening it with the default options gives the same variables in the same order, each with its name and data, on axes of the same kind (latitude, longitude, pressure, hybrid, plain x, y, z, t, named; times of each calendar, with or without years), with the same names, values, auxiliary arrays, units, start dates and dates, whatever the memory limit, provided names are valid and different (also from the names of auxiliary arrays) and no name or attribute suggests another kind.", "quantifier": "all datasets: any number of variables and axes of any lengths and kinds, any attributes, any dates, any memory limit", "why_tests_cant": "the round trip goes through eight functions of three files and a file; only whole families of datasets show what gets lost", "anchors": ["pygeode/formats/cfmeta.py: encode_cf, decode_cf, var_newaxes", "pygeode/formats/netcdf4.py: save, open, tidy_axes, write_var, make_dataset, dims2axes"]}
{"id": "C92", "title": "Composites show the data around each event", "statement": "composite(var, <axis>=events, evlen=n, evoff=m) replaces the axis by an event axis (the positions the keyword selects, in the order of the axis) and an offset axis, and shows for each event the data of the variable evoff steps before its centre up to evlen steps later; positions outside the event or past either end of the axis are NaN, whatever part of the composite is read and in whatever order.", "quantifier": "every variable, axis, list of events, common or individual lengths and offsets, every request", "why_tests_cant": "each event is read through a different piece of the axis, clipped at its ends and at the event's; off-by-one errors show only for certain events and requests", "anchors": ["pygeode/composite.py: composite", "pygeode/composite.py: CompositeVar", "pygeode/composite.py: get_event_indices"]}
{"id": "C93", "title": "Flattening keeps the order of the data", "statement": "flatten(var, inner) joins the inner axis and the axis before it into one: position p of the result shows the data at position p // n of the outer and p % n of the inner axis (n its length), for every request of consecutive positions, within one row, across rows and over many rows; the coordinate is that of the inner axis moved on by n for each row.", "quantifier": "every variable, pair of neighbouring axes, and request of consecutive positions along the flattened axis together with any request along the others", "why_tests_cant": "the request is cut into a first part row, whole rows and a last part row, each with its own arithmetic; tests read the whole variable", "anchors": ["pygeode/composite.py: flatten", "pygeode/composite.py: FlatVar"]}
{"id": "C94", "title": "Weighted reductions weigh what they reduce", "statement": "var.mean(axes, weights=w), sum, variance, nansum and nanmean give every cell reduced the weight asked for: 1 with False or None; with True (the default of mean, nanmean and nansum) the product of the weights of the reduced axes that have any, in whatever order the axes are named; with a variable its value at the cell. The mean is the weighted sum over the sum of the weights also when some of the reduced axes carry no weights and however the data are cut into chunks; weights along axes that are not reduced are refused.", "quantifier": "every variable, choice of axes, axis weights, variable of weights, chunk size and request", "why_tests_cant": "weights are read beside each chunk and counted with a correction factor that depends on the chunk; tests use chunks that hold everything and one set of weights", "anchors": ["pygeode/var.py: Var.getweights", "pygeode/reduce.py: WeightedMeanVar", "pygeode/reduce.py: WeightedSumVar", "pygeode/reduce.py: WeightedVarianceVar", "pygeode/reduce.py: WeightedNANMeanVar", "pygeode/reduce.py: mean"]}
{"id": "C95", "title": "A call selects, averages and squeezes as its keywords say", "statement": "`var(**keywords)` returns a variable whose axes are those of `var` that are neither averaged over (prefix m) nor squeezed (prefix s with a single position selected), in their order and restricted to the positions that satisfy all keywords for that axis; its values are the data of `var` at these positions, averaged with the axes' weights over the positions selected along the m axes. A keyword that is for no axis raises an exception unless `ignore_mismatch` is set, in which case it has no effect.", "quantifier": "for every variable whose axes are of unrelated kinds with distinct aliases, every list of keywords (any prefixes, any values), every request for positions of the result, every memory limit", "why_tests_cant": "keywords, prefixes, orders of keywords, axes, weights, positions and chunk sizes combine in unboundedly many ways", "anchors": ["pygeode/var.py:Var.__call__", "pygeode/var.py:Var._getitem_asvar", "pygeode/axis.py:Axis.get_slice", "pygeode/reduce.py:mean", "pygeode/varoperations.py:squeeze"]}
{"id": "C96", "title": "Editing and merging datasets", "statement": "Dataset(vars) of any variables has different non-empty variable names and one axis per axis name, each variable with its data on axes equal to its own, names changed only where they clash. remove, rename_vars, replace_vars, add, map and asdataset give exactly the variables asked for, in order, with nothing else changed; adding and removing again gives the dataset back; dataset[name] finds the variable, else the axis, with that name. dataset(**keywords) gives each variable called with the keywords, and an axis shared by several variables is restricted in the same way in all of them, so that no axis is renamed. concat of datasets with the same variables joins each variable along the axis that differs and keeps the attributes that all datasets share.", "quantifier": "all datasets (any number of variables, axes, names), all names and replacements, all keywords for one axis each, any number of datasets joined", "why_tests_cant": "The names and axes of a dataset come from the interplay of all its variables; tests only try a few collections.", "anchors": ["pygeode/dataset.py:Dataset.__init__", "pygeode/dataset.py:Dataset.__getitem__", "pygeode/dataset.py:Dataset.rename_vars", "pygeode/dataset.py:Dataset.remove", "pygeode/dataset.py:Dataset.add", "pygeode/dataset.py:Dataset.replace_vars", "pygeode/dataset.py:Dataset.map", "pygeode/dataset.py:Dataset.__call__", "pygeode/dataset.py:asdataset", "pygeode/dataset.py:concat"]}
{"id": "C97", "title": "Options of opening and saving only do what they say", "statement": "open(file, dimtypes, varlist, namemap): the variables of the dataset are those of varlist that the file has, in the order of varlist (all of them when varlist is empty), under the names namemap gives them; each axis named in dimtypes is the one asked for (an axis, one of the class with the values of the file, or what the function makes of it) and of the same length, every other axis is that of the file, and axes named in namemap change their name and nothing else; the data of each variable are those of the file, position by position. An axis of the wrong length is refused. The format is found from the extension of the last part of the path. save(pack) packs exactly the variables it is asked to.", "quantifier": "all datasets, dimtypes, varlists and name maps, file names and pack options", "why_tests_cant": "the options combine, over arbitrary names, aliases and axes; a test opens one file with one option", "anchors": ["pygeode/formats/__init__.py:autodetectformat", "pygeode/formats/__init__.py:set_axistypes", "pygeode/formats/__init__.py:whitelist", "pygeode/formats/__init__.py:finalize_open", "pygeode/formats/__init__.py:finalize_save", "pygeode/varoperations.py:rename_axes", "pygeode/varoperations.py:Replace_axes"]}
{"id": "C98", "title": "Opening many files as one dataset gives the data of all of them in time order", "statement": "open_multi(files) returns a dataset whose time axis consists of exactly the times of all files, in chronological order whatever the file names, and reading any of these times gives what the file it belongs to holds - although only the first and the last file are opened, provided all times are evenly spaced with at least two of them in the first or the last file, or every file has one time at the same offset from the date in its name; with a single file its own dataset is returned. When check_multi reports no problem with the times, every time of the dataset can be read, what is read comes from a file that holds that time, and no time of a file is missing from the dataset.", "quantifier": "all calendars, all numbers of files and orders of their names, all numbers of times per file, all steps and offsets, all reference dates and units of the files, all requests of distinct times", "why_tests_cant": "the axis is reconstructed by rounding a quotient of offsets between two files and decoding dates again on three calendars; a test fixes a set of files and a step", "anchors": ["pygeode/formats/multifile.py:open_multi", "pygeode/formats/multifile.py:Multifile_Var.getview", "pygeode/formats/multifile.py:check_multi", "pygeode/timeutils.py:delta", "pygeode/timeutils.py:reltime", "pygeode/axis.py:Axis.withnewvalues"]}
{"id": "C99", "title": "Square brackets read what numpy would", "statement": "var[...] returns the values numpy returns for the array of all values of the variable, each axis being indexed by itself: an integer, also a negative one, takes one position and removes the axis; a slice with any bounds and step follows Python; a list picks positions in its order; an Ellipsis, or else the end of the key, stands for whole axes. An index that does not exist, a step of zero and too many indices raise. var.slice[...] is the variable of these values, with the axes kept. var.get() gives all values, and var.load() is a variable with the same axes and values held in memory.", "quantifier": "all variables with axes of unrelated classes and well separated values, all keys, all data sources", "why_tests_cant": "tests index a few variables; bounds, steps, signs, list orders, positions of the Ellipsis and ways of storing the data combine without end", "anchors": ["pygeode/var.py: Var.__getitem__, Var._getitem_asvar, Var.get, Var.load", "pygeode/varoperations.py: SlicedVar", "pygeode/axis.py: Axis._getitem_asvar"]}
{"id": "C100", "title": "EOFs are the orthonormal patterns of largest variance", "statement": "EOF(x, num), EOF_svd and EOF_cov return num patterns (at most as many as there are records or cells of a pattern) on a new axis of orders before the axes of the pattern, eigenvalues on the axis of orders and principal components on it and the record axes. With the weights asked for, divided by their average, the patterns are orthonormal; each has the largest sum of squared projections of the data among the patterns orthogonal to those before; the eigenvalues are non-negative, fall, and are the roots of these sums; the principal components are the projections of the records on the patterns divided by the eigenvalues, are orthogonal and all of the same size, and projecting the data on them gives the patterns back; the first element of a pattern is not negative. VAR is the weighted sum of squares of the data, FRAC the squared eigenvalues divided by it, EIG2 the squares. What the patterns leave of the data is the variance less the squared eigenvalues, and all patterns together rebuild the data. The eigenvalues do not depend on the method. Outputs come in the order asked for, whatever the case of the keywords. The record axis is the one named by iaxis, by default the time axis.", "quantifier": "all variables, record axes, weights (none, those of the axes, a variable), numbers of patterns, memory limits, decompositions numpy may return, lists of outputs", "why_tests_cant": "an optimum over all patterns and decompositions of all matrices, for every chunking of the data", "anchors": ["pygeode/eof.py:EOF", "pygeode/eof.py:EOF_svd", "pygeode/eof.py:EOF_cov", "pygeode/eof.py:prep", "pygeode/eof.py:finalize", "pygeode/eof.py:apply_weights", "pygeode/eof.py:remove_weights", "pygeode/eof.py:whichout"]}
{"id": "C101", "title": "The values of a GRIB record are decoded as the format says", "statement": "Reading at the place where a record of a GRIB (edition 1) file begins gives, for every point of its grid, the reference value plus the packed number of that point times two to the binary scale, divided by ten to the decimal scale; whatever surrounds the record in the file and whatever is in memory after it.", "quantifier": "every file, every record in it with a non-negative decimal scale and a number of bits of 1 to 26, 28 or 32, every number of points, every bit pattern of the packed data", "why_tests_cant": "bit offsets of packed values differ for every point and width, and exponents, signs and byte boundaries combine; a few sample files reach a handful of them", "anchors": ["pygeode/formats/grib.c: read_head, read_IS, decode_PDS, decode_GDS, decode_float, read_data", "pygeode/formats/grib.h: PDS, GDS, BDS"]}
{"id": "C102", "title": "The index of a GRIB file lists all its records, and leads to them", "statement": "Making the index of a GRIB file and reading it back gives one variable for each combination of centre, table, parameter and level type, in the order of first appearance, each with the grid and vertical coordinate of its first record and one entry for every time and every level of its records; at a time and level the values of the last record for them are read.", "quantifier": "every sequence of records with arbitrary bytes (not containing the word GRIB) between and after them, in any order of variables, times and levels, with repetitions", "why_tests_cant": "the result depends on the whole sequence of records of a file and on linked lists that grow with it; there are unboundedly many orders and repetitions", "anchors": ["pygeode/formats/grib.c: make_index, read_Index, encode_PDS, encode_GDS, skip_BDS, read_EOR, get_var_t, get_var_z, read_data"]}
{"id": "C103", "title": "Variables of a GRIB file hold the values of the records", "statement": "A variable opened from a GRIB file has the times of its records, their levels in increasing order and evenly spaced longitudes (and latitudes, on a regular grid) from the first to the last point; every request for positions in time, level, latitude and longitude returns the values of the records for these times and levels at these points. Fields on a surface have no vertical axis.", "quantifier": "every file whose records for one variable are complete (a record for each time and level on one grid, levels below 256), every request in any order and with repetitions", "why_tests_cant": "requests range over all subsets of four axes, and levels are stored in the file in any order while the axis is sorted", "anchors": ["pygeode/formats/grib.py: GribVar.__init__, GribVar.getview", "pygeode/formats/grib.c: read_data_loop, get_grid, get_var_z"]}
{"id": "C104", "title": "Multiple regression is the least-squares fit at every position", "statement": "multiple_regress(Xs, Y, axes, N_fac, output) returns, for every position on the axes not regressed over, coefficients of the regressors for which the sum over the other axes of the squared difference between Y and the combination of the Xs is the smallest possible, and no other coefficients reach it; R2, the residual variance, the covariances and standard deviations of the coefficients and the argument of the p-value are those of this fit; each requested output appears once, with the regressors as its last axis (axes). It raises if the regressors are linearly dependent at some position. Broken: the documented output 'B' does not exist (only 'beta'), 'p' and 'sb' fail or are scrambled when two or more axes are left, and a regressor that lacks one of the axes regressed over is not repeated along it, which gives wrong coefficients.", "quantifier": "all lists of regressors, axes, lengths, values, memory limits, requested outputs and degrees-of-freedom factors", "why_tests_cant": "The claim compares with all other coefficients, over all data and all ways the data are cut into chunks.", "anchors": ["pygeode/stats.py: multiple_regress", "pygeode/tools.py: loopover, npsum, combine_axes, shared_axes"]}
{"id": "C105", "title": "fft_smooth keeps the first harmonics", "statement": "fft_smooth(axis, maxharm) of a real variable gives a variable with the same axes whose values, along every line of the axis, are the part of that line made of the harmonics 0 to maxharm-1: a sum of sines and cosines going round fewer than maxharm times, such that what has been removed has no component along any of them. This part is unique and the nearest such series in the least squares sense; harmonics below maxharm pass unchanged, those from maxharm to half the number of points vanish; smoothing twice is smoothing once; the mean is kept; the answer does not depend on the part of the variable that is read. The same for complex variables with waves in both directions.", "quantifier": "every variable, axis, length of axis, maxharm of at least 0, data, and every way of reading parts of the result", "why_tests_cant": "a test compares a few series; that the result is the orthogonal part for every series, length (even or odd) and number of harmonics needs the orthogonality of the discrete harmonics", "anchors": ["pygeode/fft_smooth.py:FFTSmoothVar.getview", "pygeode/fft_smooth.py:fft_smooth"]}
{"id": "C106", "title": "Time averages of variables combine the values of the same date", "statement": "climatology, dailymean, monthlymean, yearlymean and diurnalmean of a variable, and their nan, count and stdev versions, give a variable with the same axes except that the time axis holds the dates that occur in the data with the fields not kept forgotten (the year for a climatology; year, month and day for a diurnal cycle; everything finer than the day, month or year otherwise), each once and in chronological order. Its value at a date and a place is the mean (count, standard deviation) of exactly the values of the variable at the times of that date and at that place, at least one of them; the nan versions leave missing values out and give NaN where there are only missing values. This holds for whichever part of the result is read, however the data are cut into chunks.", "quantifier": "every variable of floating type with one calendar time axis, every calendar, units, start date and list of valid dates in any order, also repeated ones, every position of the time axis, all data, every request without repetitions", "why_tests_cant": "a test compares some years of one calendar read as a whole; that every value goes into its date, once, for all lists of dates, all chunk sizes and all requests is a statement about all inputs", "anchors": ["pygeode/climat.py: loopover, Clim, Diurnal, Daily, Monthly, Yearly, TimeOp, Mean, NANMean, Count, Stdev, NANStdev", "pygeode/timeutils.py: modify, _uniquify", "pygeode/timeaxis.py: Time.common_map, CalendarTime.__init__", "pygeode/tools.py: partial_sum, partial_nan_sum"]}
{"id": "C107", "title": "climtrend fits a line for every date of the year", "statement": "climtrend of a variable gives for every date of the year and every place the coefficients of a line in seconds since the start of the time axis, the constant at coefficient 0 and the slope at coefficient 1: of all lines it has the least sum of squared distances from the values at that date and place, and is the only one, unless all times of that date are the same. A variable with a single time is refused.", "quantifier": "every variable with one calendar time axis, all dates and data, every request without repetitions, every way of cutting the data into chunks", "why_tests_cant": "least squares compares with all other lines, over all data and all chunkings", "anchors": ["pygeode/climat.py: Trend, climtrend, loopover"]}
{"id": "C108", "title": "Series and climatologies are matched date by date", "statement": "An operation between a variable and another whose time axis has fewer date fields (a series and its climatology, daily data and monthly means, and so on), in either order, has the axes of the first variable; at every time it combines the value of the series with the value of the other at the date on which that time falls, and the other axes are matched as usual. In particular x - climatology(x), x - dailymean(x) and so on give at every time the value minus the mean of all values of that date.", "quantifier": "every pair of time axes of which one has some of the date fields of the other and every date is found, in any order of the times, every position of the axes, every operation, all data and requests, except, for averages computed when they are read, requests for several times that all fall on one date", "why_tests_cant": "the mapping of the times of one axis into another depends on all their dates, and the request on every subset of times; tests compare a few whole arrays", "anchors": ["pygeode/timeaxis.py: Time.__eq__, Time.map_to", "pygeode/tools.py: can_map, combine_axes", "pygeode/ufunc.py: UfuncVar", "pygeode/view.py: View.map_to, View.get", "pygeode/climat.py: TimeOp"]}
{"id": "C109", "title": "detrend removes the best line of every date", "statement": "detrend(x) has the axes of x; at every time and place it is the value minus that of a line in time, of all lines the one with the least sum of squared distances from the values at all times of the same date (the same day of the year) and the same place, provided there are two different times; also for requests of parts, in any order and with repetitions.", "quantifier": "every variable with one calendar time axis that has a year and other fields, every calendar and list of valid dates, all data and requests", "why_tests_cant": "least squares compares with all other lines, over all data, dates and chunkings", "anchors": ["pygeode/climat.py: detrend, from_trend, climtrend, Trend", "pygeode/var.py: Var.load", "pygeode/timeaxis.py: Time.map_to"]}
{"id": "C110", "title": "Data scanned from many files can be found, and reads back what the files hold", "statement": "`from_files` on any list of files whose variables have consistent axes (each variable with the same axes in every file, common axes in the same order, one class per name, increasing values that refer to the same origin) ends, and returns datasets such that: every variable of a dataset has the axes it has in the files, with increasing values, and shares them with the other variables of the dataset; every value in every file can be reached, i.e. some dataset has that variable with that point on its axes; and whatever has been read before, reading any part of any variable gives at every point the value held by the last file that has the point - some file always does.", "quantifier": "all lists of files with any number of variables, axes and values, all orders of the files, all histories of reads, all parts read, all points", "why_tests_cant": "the search for domains and the memory of axes depend on the combination of all files and on what was read before; tests try a few fixed collections", "anchors": ["pygeode/formats/data_scanner.py:from_files", "pygeode/formats/data_scanner.py:AxisManager", "pygeode/formats/data_scanner.py:_domain_as_dataset", "pygeode/formats/data_scanner.py:_DataVar"]}
{"id": "C111", "title": "find_best returns the best of the datasets that qualify", "statement": "For a list of datasets, `find(*names, requirement)` yields, in the order of the datasets, the members of these names of exactly those datasets that meet the requirement and have all of them; `have(name)` is true exactly if some dataset has a member of that name; `find_best` returns the members of a qualifying dataset to which no other qualifying dataset is preferred - by the scores of `maximize` (the first that differs decides), without it by `minimize`, and then by names and shapes - and the first of those; it raises KeyError exactly if no dataset qualifies.", "quantifier": "all lists of datasets, names, requirements and score functions", "why_tests_cant": "ties, several score functions and the order of datasets combine in unboundedly many ways", "anchors": ["pygeode/formats/data_scanner.py:DataInterface.find", "pygeode/formats/data_scanner.py:DataInterface.have", "pygeode/formats/data_scanner.py:DataInterface.find_best"]}
{"id": "C112", "title": "Splitting a time axis lays data out by years and days, losing nothing", "statement": "For every variable with a calendar time axis that has years, x.splittimeaxis() has, in the place of the time axis, the years that occur (increasing, each once) and the dates without their years (chronological, each once). Reading any part of it gives, for a year and a day, the value of the input at the time of that date (the last, if there are several), NaN if there is none; if no date occurs twice, every value of the input is found in exactly the cell of its year and day.", "quantifier": "all variables, time axes (irregular, with gaps, unsorted), calendars and requests", "why_tests_cant": "The cells are found by sorting, merging and broadcasting dates of the part requested; gaps, repeated dates and leap days make the number of combinations unbounded.", "anchors": ["pygeode/timeutils.py:_splittime", "pygeode/timeutils.py:_jointime", "pygeode/timeutils.py:SplitTime", "pygeode/timeutils.py:splittimeaxis"]}
{"id": "C113", "title": "Joining years and days gives the values at their dates", "statement": "For every variable with an axis of years followed by an axis of days, jointimeaxes(x) has one time axis in their place: all days of the first year, then all days of the second year, and so on. Reading any part of it, in any order, gives at each time the value of its year and day.", "quantifier": "all variables, years, days of the year, calendars and requests, also requests that take a few days of some years", "why_tests_cant": "Each request is split into years and days, read, and selected from again; whether the three steps agree depends on which days of which years are asked for.", "anchors": ["pygeode/timeutils.py:_jointime", "pygeode/timeutils.py:JoinTime", "pygeode/timeutils.py:jointimeaxes"]}
{"id": "C114", "title": "Exchange with xarray keeps every value", "statement": "The array that to_xarray makes of a variable has the variable's shape and shows its value at every position, whatever the limit on the size of a chunk. If the values are not in memory, the array is cut into pieces of at most that size; the pieces of each axis add up to its length and there is exactly one piece, of the announced shape, for every combination. A variable made from an array of xarray has axes with the names and lengths of its dimensions, and any selection of it shows the values of the array; there and back, the values are the same.", "quantifier": "all variables that are in memory or have a getview method, with axes of any number and length, all limits of at least 1, all arrays of xarray with distinct dimension names, all selections", "why_tests_cant": "The grid of pieces is guessed from the order in which loop_mem happens to visit them; a test fixes one shape and one limit.", "anchors": ["pygeode/ext_xarray.py: to_xarray, XArray_DataArray", "pygeode/view.py: View.loop_mem"]}
{"id": "C115", "title": "Contours chosen for data reach all of it", "statement": "When showvar is given no contour interval it chooses one from the data: it is a round number (1, 1.5, 2, 3, 4, 5, 6 or 10 times a power of ten); the style is the one asked for, or else divergent exactly if the data (but for 2% at each end) lie on both sides of zero or are constant; divergent contours have levels on both sides of every value that is not an outlier, and none more than 5/3 as far from zero as some value; sequential contours start at or below every value that is not an outlier and go on at least until less than one interval below the highest such value.", "quantifier": "all arrays of rational values, any of them missing, every style and positive number of divisions, filled contours and lines", "why_tests_cant": "the spacing depends on the leading digits, the sign, the spread and the outliers of the data; a test tries a few arrays", "anchors": ["pygeode/plot/cnt_helpers.py: guessclimits, clfdict, cldict", "pygeode/plot/pyg_helpers.py: _parse_autofmt_kwargs"]}
{"id": "C116", "title": "Contour levels are the multiples asked for", "statement": "clfdict(cdelt, ...) and cldict(cdelt, ...) give exactly the evenly spaced levels their arguments describe: colours cdelt/nf apart and lines cdelt/nl apart over ndiv intervals on each side of mid (divergent, no colour boundary at mid) or ndiv intervals from min (sequential), ticks cdelt apart; with nozero the same lines without the one at zero; line contours from mid-range to mid+range or from min, both ends included.", "quantifier": "all intervals, middles, minima and numbers of divisions, colours and lines", "why_tests_cant": "number and positions of the levels are computed from products of the arguments, with half-open ranges", "anchors": ["pygeode/plot/cnt_helpers.py: clfdict, cldict"]}
{"id": "C117", "title": "The register of axes gives equal axes and keeps them", "statement": "AxisManager.lookup_axis: whatever was looked up before, made and forgotten in between, the answer is the axis given or one that compares equal to it with the same hash (name, class and values); it stays in memory; looking up the same object again, or the answer itself, always gives the same answer; copies of an axis (and equal axes, where comparison is an equivalence) all get one object; the set of values remembered for an axis is that of its answer. An identity that the register has seen is never reused for another axis.", "quantifier": "every history of making, forgetting and looking up axes, every hash function (collisions included) and comparison", "why_tests_cant": "the register is keyed by identities of objects, which Python reuses for new objects; a test sees one history and no reuse at the wrong time", "anchors": ["pygeode/formats/data_scanner.py: AxisManager.lookup_axis", "pygeode/formats/data_scanner.py: AxisManager._settify_axis"]}
{"id": "C118", "title": "Tick marks of a time axis: the search ends and finds the best number", "statement": "AutoCalendarLocator answers every call: the walk between tick generators (years, months, ..., seconds) always ends, whatever the views before and wherever the search starts, at one of the generators and one of its multiples; if the numbers of ticks grow from the coarsest multiple of the first generator to the finest of the last, no other generator and multiple has a number of ticks nearer to the one wanted.", "quantifier": "every sequence of views, every number wanted, every list of generators with at least two multiples each, every numbers of ticks for which no generator has both too few with its finest and too many with its coarsest multiple", "why_tests_cant": "the search starts where the last one ended and walks up or down until it gets worse; that it never walks up and down for ever must hold for all tick counts and all histories", "anchors": ["pygeode/timeticker.py: AutoCalendarLocator", "pygeode/timeticker.py: TickGenerator.best_mult"]}
{"id": "C119", "title": "Two-sided logarithmic colours are invertible and even", "statement": "LogNorm2Sided maps values to colours strictly increasingly, vmin to 0, -vin to 0.5-cin, 0 to 0.5, vin to 0.5+cin and vmax to 1, and inverse undoes it in both directions; the colour boundaries, contour lines and ticks of log2sdict are exactly evenly spaced in colour (nf or nl to a division, ndiv divisions on each side of zero, none or one at zero), those of log1sdict on the logarithmic scale from cmin to cmin*cdelt**ndiv.", "quantifier": "all real values, all limits with vmin < -vin < 0 < vin < vmax and 0 < cin < 0.5, all cmin > 0, cdelt > 1, numbers of colours, lines and (at least two) divisions", "why_tests_cant": "three formulas are joined at two points; that they meet, that both directions use the same points and that the levels fall evenly must hold for all limits", "anchors": ["pygeode/plot/cnt_helpers.py: LogNorm2Sided", "pygeode/plot/cnt_helpers.py: log2sdict", "pygeode/plot/cnt_helpers.py: log1sdict"]}
{"id": "C120", "title": "A table of panels is laid out without gaps or overlaps", "statement": "plot.grid(rows) puts every panel in the cell it has in the table: the columns are as wide as their widest panels and stand side by side, the rows are as high as their highest panels and stand below each other from the top, every panel is centred in its cell at its own size, and no two panels overlap or leave the page. The new panel has the size of the whole table, or the size asked for. It is made exactly when the table is rectangular and no row and no column is empty, and nothing else is changed.", "quantifier": "all tables of panels, with any cells left empty, of any sizes", "why_tests_cant": "The layout is a fold over two nested loops with accumulated offsets; a test sees a few tables.", "anchors": ["pygeode/plot/wrappers.py: grid, AxesWrapper.add_axis"]}
{"id": "C121", "title": "Every panel of a page is drawn once, at its size, apart from the others", "statement": "Drawing a page made of panels, tables, colour bars and annotations nested to any depth draws every panel which has a plot exactly once, in the area its holders give it (with its margins taken off in inches, or the fraction asked for); every panel has the size on paper it was made with; two panels neither of which holds the other do not overlap; and nothing leaves the page. A part of a page can be drawn by itself.", "quantifier": "all pages built with grid, colorbar and annotate to any depth, and all wrappers in them", "why_tests_cant": "The position of a panel is the composition of the boxes of all its holders, found by walking up and down a mutable graph; the depth is unbounded.", "anchors": ["pygeode/plot/wrappers.py: AxesWrapper.render, AxesWrapper._build_axes, AxesWrapper.get_transform"]}
{"id": "C122", "title": "Colour bars and annotations stand beside their panel", "statement": "colorbar(panel, .., pos=..) makes a new panel in which the panel has its size and the colour bar, of the thickness asked for, stands on the side asked for along the whole of the panel; annotate adds half an inch below the panel.", "quantifier": "all panels, positions and thicknesses", "why_tests_cant": "The sizes are arbitrary real numbers and panels may themselves be tables.", "anchors": ["pygeode/plot/wrappers.py: colorbar, annotate"]}
{"id": "C123", "title": "Functions of variables apply to every value", "statement": "The functions of variables (those in degrees, minimum, maximum, clip, vsum, vprod and map with a function of the user's) give a variable on the combined axes whose value at each point is the function of the values there; vsum and vprod take any number of variables and numbers. The functions in degrees are those in radians of the converted angle and their inverses undo them. Keywords and further arguments given to map are passed to the function.", "quantifier": "all variables, numbers of arguments, functions and values", "why_tests_cant": "The number of arguments, the axes and the functions are arbitrary.", "anchors": ["pygeode/ufunc.py: UfuncVar, map, chain, vsum, vprod, clip, cosd, arctand2"]}
{"id": "C124", "title": "A spectral axis lists every harmonic once", "statement": "Spectral(t), and Spectral(values) with as many values as there are harmonics of truncation t, has every order m and degree n with m <= n <= t exactly once, ordered by order and then degree; any other number of values is refused.", "quantifier": "all truncations and all numbers of values", "why_tests_cant": "The truncation is unbounded, and is inferred from the length with a square root.", "anchors": ["pygeode/spectral.py: Spectral"]}
{"id": "C125", "title": "Tables of coefficients can be made and taken apart", "statement": "merge_coefs(c1, ..., cn) has the axes of c1 and a last axis of n coefficients, and shows ci at position i of it, at the same coordinates; it is refused iff there are no coefficients or their shapes differ. split_coefs gives one variable per position of the axis of coefficients, wherever that axis is, with the data at that position; taking a merged table apart gives the coefficients back. from_trend(taxis, A=A, B=B) is A t + B on the time axis asked for.", "quantifier": "every list of variables on the same axes in any order, every variable with an axis of coefficients, every view of the results", "why_tests_cant": "all shapes, orders of axes and views", "anchors": ["pygeode/tools.py:merge_coefs", "pygeode/tools.py:split_coefs", "pygeode/climat.py:from_trend"]}
{"id": "C126", "title": "Coupled patterns of two fields", "statement": "If SVD returns, then however the data are split into chunks: the series are the sizes of the patterns in the fields up to the tolerance (1e-5 of each element of a pattern), no pair of series has a negative covariance, every pattern has size 1, and patterns the iteration does not change any more are coupled: the covariance of one field with the size of a pattern in the other is the partner of that pattern times a factor, the same in both directions and equal to the covariance of the two series, and the pairs come in the order of these factors.", "quantifier": "every pair of fields, every number of patterns and size of subspace, every seed, every limit on the size of chunks", "why_tests_cant": "iteration from random seeds over data of any size", "anchors": ["pygeode/svd.py:SVD", "pygeode/svd.c:build_svds", "pygeode/svd.c:fixcov", "pygeode/svd.c:normalize", "pygeode/eof.py:EOF_iter"]}
{"id": "C127", "title": "The one-pass estimate of EOFs is orthonormal, never has too much variance, and is exact when enough patterns are asked for", "statement": "EOF_guess always returns (the stack of partial results never overflows): `num` patterns, sizes and series of the length of the data. Patterns with a size other than 0 are orthonormal, and so are their series; the sizes are not negative and do not increase; the sum of their squares is at most the sum of squares of the data; each pattern begins with a number that is not negative, and its series is turned with it. If the data is made of no more than `num` patterns (in particular if there are no more places or no more records than `num`), the result is the exact decomposition: series times size times pattern adds up to the data, the patterns are eigenvectors of the covariance matrix with the squares of the sizes as eigenvalues, each series is the projection of the data divided by the size, and the sizes do not depend on how the data was cut into chunks.", "quantifier": "all data, numbers of patterns, places and records (up to 2^99), all cuts into chunks, any LAPACK that gives orthonormal eigenvectors with ascending eigenvalues; exact arithmetic", "why_tests_cant": "The result comes from a tree of merges whose shape depends on the number of records and on the sizes of the chunks; a test can only try a few of these, and cannot tell an estimate from an error unless it knows when it has to be exact.", "anchors": ["pygeode/eof.c: dot, transform, svd, merge_eof, add_to_stack, process, endloop", "pygeode/eof.py: EOF_guess"]}
{"id": "C128", "title": "Numbers sent by the OPeNDAP server arrive", "statement": "Every array the OPeNDAP server sends (any type of numbers, any shape, whatever the pieces in which it is produced) is decoded by the OPeNDAP client as the same numbers in row-major order; a 64-bit integer arrives as the double nearest to it.", "quantifier": "all arrays of all types numpy knows, all values, all sizes of pieces, whatever bytes follow", "why_tests_cant": "A test covers a few types and small arrays in one piece; signs, unsigned ranges and the order across pieces must hold for every value and every split.", "anchors": ["pygeode/formats/opendap.py: write_xdr, load_array, np2dap, dap2np", "pygeode/formats/opendap.c: int32toStr, float32toStr, float64toStr, str2int32, str2float32, str2float64"]}
{"id": "C129", "title": "A dataset served by OPeNDAP opens as the same dataset", "statement": "If a dataset whose names are plain words (letters, digits, _ + -; axes not named like integers) is served, then opening it at the client gives the same axes with the same values in the same order, and the same variables with their axes and (widened) types; and reading any box of any variable through the client returns exactly the values of that box of the served variable.", "quantifier": "all datasets with plain distinct names, all boxes inside a variable, all sizes of pieces", "why_tests_cant": "Description texts are written, tokenized by regular expressions and parsed again; requests are texts too. A test tries a few names and boxes; the round trip must hold for all.", "anchors": ["pygeode/formats/opendap.py: ServerDataset-side DAPHandler (fields, make_entry, DDS, DODS)", "pygeode/formats/opendap.py: tokenize, parse_dataset, parse_grid, parse_array, load_array, OpenDAP_Var.getvalues, open", "pygeode/formats/opendap.c"]}
{"id": "C130", "title": "Attributes served by OPeNDAP arrive", "statement": "The attributes of axes, variables and dataset that the OPeNDAP server sends are read by the client under the same names, in the same order, with the same values: texts character by character (quotes, apostrophes, newlines, tabs, backslashes and the signs of the format included), integers and floats as the same numbers, 64-bit integers as floats.", "quantifier": "all lists of variables with plain names, all attributes with plain names, all texts and all numbers", "why_tests_cant": "The texts are escaped, cut into tokens by a backtracking regular expression and decoded by five substitutions; only a proof covers every combination of quotes and backslashes.", "anchors": ["pygeode/formats/opendap.py: DAS response (lines 314-347), tokenize, parse_attributes"]}
{"id": "C131", "title": "Opening many files at once", "statement": "openall expands the patterns, opens every file, joins the datasets and sorts them. The result does not depend on the order in which the directory lists the files. If the files have the same variables and each variable differs between files along one axis only, then a variable of the result has a value v at some coordinates exactly if one of the files has v at these coordinates; its axes have the kinds and names of those of the files and are in their natural order (increasing, or decreasing for pressure and depth-like axes); its names are those of the files and the global attributes those that all files share. A single file is opened and sorted. No matching file, or a missing one, is refused.", "quantifier": "all patterns, directory listings and listings' orders, any number of files, any variables, axes and values in them, any coordinates", "why_tests_cant": "tests open a few small files in an order the file system happens to give; the claim ranges over all orders, numbers of files, shapes and values", "anchors": ["pygeode/formats/multifile.py: expand_file_list, openall", "pygeode/dataset.py: concat, dataset_method", "pygeode/varoperations.py: sorted", "pygeode/axis.py: argsort"]}
{"id": "C132", "title": "Texts of coordinates", "statement": "formatvalue of a longitude with a format 'pE' or 'pE<b' shows a longitude of the same place, at least b - 360 and below b (b is 180 by default), with E if it is not negative and W with its absolute value otherwise; if the number format tells numbers apart, two longitudes get the same text exactly if they are a whole number of turns apart. A latitude with a format ending in N shows its absolute value and N or S, the equator EQ; different latitudes get different texts. A pressure with a format 'p<b' is shown as an integer from b on, and by p below. Other formats are used as they are, and the units asked for follow.", "quantifier": "all values, formats, number formats and units", "why_tests_cant": "tests format a few values; the claim ranges over all values, including negative longitudes and those beyond one turn, and all break points", "anchors": ["pygeode/var.py: Var.formatvalue", "pygeode/axis.py: Lon.formatvalue, Lat.formatvalue, Pres.formatvalue, AxisFormatter"]}
{"id": "C133", "title": "Plots show every value at its coordinates", "statement": "vcontour, vstreamplot and vquiver of variables with two axes longer than one draw, for every position, the value there (times scalefactor, plus offset) at the point given by its coordinates, whatever other axes of length one the variable has and in whatever order its axes come; a vertical axis is drawn upwards and latitudes against longitudes, or as transpose asks; variables with another number of axes are refused. vplot draws the points (coordinate, value) of a variable with one such axis, between the first and the last coordinate; vscatter one point per position of two variables. vsigmask draws what lies beyond mjsig as significant on both sides and, if mnsig is given, what lies between mnsig and mjsig as less significant.", "quantifier": "all variables, axes, sizes, values, scale factors, offsets and orientations", "why_tests_cant": "tests draw a few variables and do not look at the picture; the claim ranges over all axis orders, lengths and values", "anchors": ["pygeode/plot/pyg_helpers.py: vcontour, vstreamplot, vquiver, vplot, vscatter, vsigmask, build_title, decorate, scalevalues, axes_parm"]}
{"id": "C134", "title": "Pages of figures", "statement": "savepages prints every figure once, in the order given and at the scale asked for, on consecutive pages none of which is blank; figures on one page do not cover each other; and figures that are not larger than the space between the margins stay between the margins.", "quantifier": "all lists of figures, sizes, paper sizes, margins and scales", "why_tests_cant": "a test prints a few figures; the claim ranges over all sequences of sizes and so over all ways in which rows and pages fill up", "anchors": ["pygeode/plot/pyg_helpers.py: savepages"]}
{"id": "C135", "title": "Tables of contour plots", "statement": "showgrid draws filled contours of every variable of vf and lines of every variable of vl, those of the same number in the same panel, row by row in ncol columns (a single variable of one kind is drawn in all panels); every plot has the size asked for; the plots of a column begin at the same distance from the left and those of a row at the same distance from the top, at equal steps; and coordinates are written left of the first column and below the lowest panel of every column.", "quantifier": "all numbers of variables and columns, sizes and margins", "why_tests_cant": "a test draws a few tables; the claim ranges over all numbers of variables and columns and so over all ways in which the last row is filled", "anchors": ["pygeode/plot/pyg_helpers.py: showgrid, set_xaxis, set_yaxis", "pygeode/plot/wrappers.py: grid, AxesWrapper._build_axes"]}
{"id": "C136", "title": "Opening HDF4 files", "statement": "The dataset opened from an HDF4 file has one variable for every data set of the file that does not give coordinates of a dimension (and is not replaced by a twin named ...:EOSGRID), with its name and data; along every dimension it has the coordinates given by the one-dimensional data set that is the coordinate of the dimension or the only one along it, and the name and size of the dimension if there is none.", "quantifier": "all files: numbers and orders of data sets, dimensions, shapes and values", "why_tests_cant": "a test opens one file; the claim ranges over all orders of data sets in the file, with and without several one-dimensional data sets along one dimension", "anchors": ["pygeode/formats/hdf4.py: open, HDF4_SD, HDF4_Var, load_values"]}
{"id": "C137", "title": "Numbers and attributes survive a classic netCDF file", "statement": "Saving a dataset with the classic netCDF library and opening the file again gives every attribute with its name, in order, with the same text or the same numbers (a single number as a number, more as an array), and every variable and axis with the same numbers: numbers are stored in the same type in version 4 and in a wider one in version 3. What cannot be stored is refused with a warning or an exception that concerns nothing else.", "quantifier": "every list of attributes, every type of numbers, every value, both versions of the format", "why_tests_cant": "Which values survive depends on the table of types for the version and the range of every value; tests save small integers and floats, and attributes of one kind at a time, so one attribute that ends the loop is not noticed.", "anchors": ["pygeode/formats/netcdf.py: nc_type, numpy_type, get_attributes, put_attributes, save"]}
{"id": "C138", "title": "Values and dates of a time axis agree however it is made", "statement": "Every time axis that the constructor gives - from values, units and a start date, from date fields, or from both - has values that are the time from its start date to its dates in its units. Made from values, the dates are the moments that many units after the start, to the nearest second, and the values stay within half a second. Made from date fields, it has exactly these fields, and values given along with them play no role. Values are in the order of the dates. Without date fields, values are accepted only together with units and a start date. Slicing an axis keeps its units and start date and the dates and values at the chosen positions.", "quantifier": "every calendar with years, every list of values or dates, every set of date fields, every start date with any of its fields missing, every unit, every choice of positions", "why_tests_cant": "Values and dates are computed from each other in both directions, with different defaults for missing fields in different places (the year 1 or the year 0); tests build axes with complete start dates.", "anchors": ["pygeode/timeaxis.py: CalendarTime.__init__, Time.__init__, val_as_date, date_as_val, _get_dates", "pygeode/axis.py: Axis._getitem_asvar"]}
{"id": "C139", "title": "Relative times, wrapped dates and conformed axes measure elapsed time", "statement": "reltime(axis, startdate, units) gives the time from that start date to every date. wrapdate of a date to which days, hours, minutes or seconds were added is the date that much later. conform_values of two axes, one with the leading date fields of the other, gives the dates of both in the same units with values whose differences are the times between the dates; other axes are refused.", "quantifier": "every time axis, start date, unit, date and number of days, hours, minutes and seconds added; every pair of axes with any fields", "why_tests_cant": "The start date of one axis is used with the fields of the other, where missing fields are filled in with defaults that must agree with those used elsewhere; this can only be seen for axes with different fields.", "anchors": ["pygeode/timeutils.py: reltime, wrapdate, conform_values", "pygeode/timeaxis.py: CalendarTime.__init__, CalendarTime.date_as_val"]}
{"id": "C140", "title": "Seasonal time axes and means over seasons", "statement": "A seasonal time axis made from seasons and a start date has these seasons, its values are the times from the start date to the middle of each season (16 January, 15 April, 16 July, 16 October), and the dates made from the values are the same seasons. Made from values, its seasons are those of the months of their dates. The seasonal mean of a variable has one time for each season in which the variable has a date, in chronological order; its values are the means of the variable over the dates in that season, December counting with the January and February that follow; likewise for means without NaN, counts and standard deviations.", "quantifier": "every variable with a time axis of the standard or the 365-day calendar with years, every list of dates in any order, every unit and start date, every size limit of the loop, every choice of positions read", "why_tests_cant": "The grouping goes through the values of the axis, the day of the year and boundaries given as days; every value of the input axis is replaced by that of the middle of its season. Tests compare one season of one year.", "anchors": ["pygeode/timeaxis.py: makeSeasonalAxis", "pygeode/climat.py: Seasonal, seasonalmean, seasonalnanmean, seasonalstdev, seasonalnanstdev, seasonalcount"]}
{"id": "C141", "title": "Time axes without years count days", "statement": "A time axis without years and months (`Yearless`), however it was made, has for every date the value that is the time from the start to that date in the units of the axis, days being counted without end in both directions; made from values, units and a start it has the dates that many units after the start, to the nearest second; made from fields it has exactly these fields; a start with a year is refused; slicing keeps units and start and gives the chosen dates and values; written to a file (CF metadata) and read again an axis of days, hours, minutes and seconds that starts at day 0 or later has the same units, start, dates and values.", "quantifier": "every list of values, every unit, every start, every set of fields and list of dates, every list of positions, every axis made in one of these ways", "why_tests_cant": "a test compares a few dates; the claim is about every integer day, negative ones included, and about the agreement of two arrays that are kept side by side through every construction", "anchors": ["pygeode/timeaxis.py:1013-1056", "pygeode/timeaxis.py:355-420", "pygeode/timeaxis.c:547-598", "pygeode/formats/cfmeta.py:165-188", "pygeode/formats/cfmeta.py:383-422"]}
{"id": "C142", "title": "Labels of a time plot show what the distance of the ticks calls for", "statement": "A plot over a time axis (formatter of the axis, calendars with years) gives every tick one label, whatever was plotted before. Which labels are equal depends only on the mean distance of the ticks: from about a year on exactly the ticks of one year, from about a month on exactly those of one date (of one month with 360 days), from about a day on those of one day of the year, from about an hour on those of one hour and minute, and below that those of one time of the day; the text beside the axis is then empty, or the year, or the date of the first tick. Ticks at beginnings of months, the same number of months apart (not 11), always have different labels. One tick shows the time of its day; a format given by the user is used as it is.", "quantifier": "every calendar, start date, unit, list of two or more ticks with any mean distance, every number of months between ticks, and every formatter left by earlier plots", "why_tests_cant": "the format depends on a quotient of extremes of the ticks and the calendar; tests plot a few axes and look at no label", "anchors": ["pygeode/timeticker.py: TimeFormatter.__init__, __call__, set_locs, autoformat_range, get_offset", "pygeode/timeaxis.py: Time.formatter, CalendarTime.autofmts, ModelTime360.autofmts, formatvalue"]}
{"id": "C143", "title": "A name reaches the axis, variable or array of that name", "statement": "var.getaxis(id) gives the first axis of the variable that answers to id (its own name or the name of one of its classes, in any case; a class; an equal axis), and raises KeyError exactly if none does; hasaxis says beforehand which. var.name is the same axis, so an axis can be reached by its own name if no other axis answers to that name. axis.name is the auxiliary array of this name, or else the auxiliary attribute, or else the axis itself. 'name in dataset' is true exactly if dataset[name] succeeds, and dataset.name is dataset[name]. dataset.load() has the same variables, axes, attributes and data, all in memory.", "quantifier": "every list of axes, every name, class or axis looked for; every dataset with distinct names; every source of data", "why_tests_cant": "which object a name reaches depends on all the names the other axes of the same object answer to, and on the order of the axes", "anchors": ["pygeode/var.py: Var.__getattr__, Var.getaxis, Var.hasaxis", "pygeode/axis.py: Axis.__getattr__", "pygeode/dataset.py: Dataset.__getattr__, Dataset.__contains__, Dataset.getaxis, Dataset.hasaxis, Dataset.load"]}
{"id": "C144", "title": "A getview that needs complete axes is given complete axes", "statement": "With the decorator need_full_axes on a getview that can only work on some axes when it has them completely, every request for any part of the variable is answered with the same data as the whole: if these axes are the last ones of the variable and fit in memory together, and at most one of them is asked for at positions that are not a slice. (Otherwise they are not: an axis that is not the last is not made complete, and what is computed from a part of it is returned.)", "quantifier": "every variable with axes of unrelated classes and distinct values, every number of axes to be completed, every request of increasing positions, every size of memory that holds these axes, every getview that is right for complete axes", "why_tests_cant": "the request is cut into pieces by the size of memory, put into another order of axes, completed, and cut again; a test sees a few shapes", "anchors": ["pygeode/tools.py: need_full_axes"]}
{"id": "C145", "title": "Sorting by the axes asked for", "statement": "var.sorted(...) accepts axes by position, name, class or axis and by keyword with the order 1, 0 or -1, and refuses anything else. Each axis is put in the order of the last keyword that means it, or in its natural order if only named or if nothing is named at all; axes not meant stay as they are; the data move with the values. interp.sorted sorts just one axis the same way, and returns the variable itself if it is in that order already.", "quantifier": "every variable, list of keys and orders, natural orders of the axes, data", "why_tests_cant": "the keys, their repetition and their orders form an unbounded domain; tests sort one or two axes", "anchors": ["pygeode/varoperations.py: sorted, SortedVar", "pygeode/axis.py: Axis.argsort, Axis.sorted", "pygeode/interp.py: sorted, SortedVar"]}
{"id": "C146", "title": "Logarithmic colours and labels made from data", "statement": "LogNorm2Sided without limits takes them from the data: from minus to plus the largest size, linear up to the smallest size above 1e-16, whereas limits that are set are kept. Then every value of the data has a colour between 0 and 1 and opposite values have opposite colours. The labels of the scale are within a twentieth of numbers of size 0.1 to 100, and otherwise within half a unit of the first digit; ticks with one digit are shown exactly.", "quantifier": "all data, all limits set or not, all numbers", "why_tests_cant": "each datum is compared with the largest and smallest of all; the exponent of a label has boundaries at every power of ten", "anchors": ["pygeode/plot/cnt_helpers.py: LogNorm2Sided.autoscale", "pygeode/plot/cnt_helpers.py: LogNorm2Sided.autoscale_None", "pygeode/plot/cnt_helpers.py: lfmt"]}
{"id": "C147", "title": "Requests to an OPeNDAP directory reach their dataset", "statement": "In a directory of several datasets served by OPeNDAP, a request for the description, attributes or data of a dataset (name.dds, name.das, name.dods, with or without arguments) is answered by this dataset with these arguments, whatever else is in the directory and in whatever order; so opening the address of a dataset gives its axes and variables, and reading a box of a variable gives the values of that box of this dataset. The address alone gives the page for browsers.", "quantifier": "all directories in which no name has a question mark and none begins with another name followed by .das, .dds or .dods; all datasets with plain names; all arguments without a question mark; all boxes", "why_tests_cant": "the first entry of a dictionary that fits the beginning of the path is taken; whether it is the right one depends on all names together and on their order", "anchors": ["pygeode/formats/opendap.py: DAP_Dir.handle, DAPHandler.handle", "pygeode/formats/opendap.py: open, OpenDAP_Var.getvalues"]}
{"id": "C148", "title": "Which library is loaded", "statement": "A library is searched in the directories of the package, below the Python prefix, in two directories of the system and in those of LD_LIBRARY_PATH, in this order; the one in the first directory that has it is taken, a .so before a .dll before a .dylib, and only if there is none the one the system knows. A library in the directory of the package is always taken. A name with an absolute directory is looked for there only, and then in the system.", "quantifier": "all sets of installed files, all search paths of non-empty directories, all names without a slash (or with an absolute directory)", "why_tests_cant": "the result depends on everything installed on the computer and on the environment; tests see one computer", "anchors": ["pygeode/libhelper.py: get_library_paths, find_library"]}
{"id": "C149", "title": "Values given on opening replace those of the file", "statement": "open(..., value_override={name: values}) gives a dataset in which every variable named in the dictionary has the values given, on its own axes; all other variables, all names, their order and the global attributes are those of the file. Values of another shape are refused; names that are not in the file are ignored with a warning.", "quantifier": "all datasets (variables and axes each with their own name), all dictionaries of values that fit", "why_tests_cant": "the variables are replaced by name in a new dataset, which may change names and axes; any combination of names can be given", "anchors": ["pygeode/formats/netcdf4.py: override_values", "pygeode/formats/netcdf.py: override_values", "pygeode/dataset.py: Dataset.replace_vars"]}
