{
 "claims": [
  {
   "property": "C01",
   "status": "proved",
   "theorems": [
    "PyGeode.expand_slice_eq_python",
    "PyGeode.expand_slice_beyond_end_violated",
    "PyGeode.expand_list",
    "PyGeode.expand_int"
   ],
   "note": "Proved for slices whose bounds need no clamping (NoClampNeeded); outside that window the code differs from Python (counterexample theorem)."
  },
  {
   "property": "C02",
   "status": "proved",
   "theorems": [
    "PyGeode.expand_simplify",
    "PyGeode.simplify_same_elements"
   ],
   "note": ""
  },
  {
   "property": "C03",
   "status": "proved",
   "theorems": [
    "PyGeode.contiguate_covers",
    "PyGeode.contiguate_runs_consecutive",
    "PyGeode.contiguate_maximal"
   ],
   "note": ""
  },
  {
   "property": "C04",
   "status": "proved",
   "theorems": [
    "PyGeode.loopContiguous_piece",
    "PyGeode.loopContiguous_covers_once",
    "PyGeode.readContiguous_correct"
   ],
   "note": "non-empty index lists (an empty list is short-circuited by View.get)"
  },
  {
   "property": "C05",
   "status": "proved",
   "theorems": [
    "PyGeode.loopMem_splits",
    "PyGeode.loopMem_partition",
    "PyGeode.loopMem_order",
    "PyGeode.loopMem_trailing",
    "PyGeode.Loop.loopover_spec"
   ],
   "note": "no empty axis in the view (the code raises ValueError/ZeroDivisionError there) and a positive limit"
  },
  {
   "property": "C06",
   "status": "proved",
   "theorems": [
    "PyGeode.loopMem_size_le",
    "PyGeode.loopMem_size_le_limit"
   ],
   "note": ""
  },
  {
   "property": "C07",
   "status": "proved",
   "theorems": [
    "PyGeode.readUnique_correct",
    "PyGeode.duplicate_correct",
    "PyGeode.sources_agree"
   ],
   "note": ""
  },
  {
   "property": "C08",
   "status": "proved",
   "theorems": [
    "PyGeode.get_correct",
    "PyGeode.get_shared_axes",
    "PyGeode.get_empty_violated"
   ],
   "note": "non-empty requests; for empty requests the shape returned is wrong (get_empty_violated)"
  },
  {
   "property": "C09",
   "status": "proved",
   "theorems": [
    "PyGeode.Axis.getSlice_correct",
    "PyGeode.Axis.getSlice_perm",
    "PyGeode.Axis.varSlices_correct",
    "PyGeode.Axis.newArgs_distinct",
    "PyGeode.Axis.newArgs_collision_violated",
    "PyGeode.Axis.aux_underscore_violated"
   ],
   "note": "values are exact rationals after str_as_val; violated for two keywords that differ only in m/s prefixes (the first is dropped) and for auxiliary arrays with an underscore in their name"
  },
  {
   "property": "C10",
   "status": "proved",
   "theorems": [
    "PyGeode.Axis.indexMask_scalar_accepted",
    "PyGeode.Axis.indexMask_list_accepted",
    "PyGeode.Axis.range_correct",
    "PyGeode.Axis.range_swap",
    "PyGeode.Axis.complement_correct",
    "PyGeode.Axis.complement_succeeds"
   ],
   "note": ""
  },
  {
   "property": "C11",
   "status": "proved",
   "theorems": [
    "PyGeode.Axis.nearest_correct"
   ],
   "note": ""
  },
  {
   "property": "C12",
   "status": "proved",
   "theorems": [
    "PyGeode.sort_correct",
    "PyGeode.msort_stable",
    "PyGeode.sort_stable_violated"
   ],
   "note": "Also shown: the recursive sort is stable, the whole sort is not (reverse-sorted shortcut)."
  },
  {
   "property": "C13",
   "status": "proved",
   "theorems": [
    "PyGeode.mapTo_sound",
    "PyGeode.mapTo_wrapper"
   ],
   "note": ""
  },
  {
   "property": "C14",
   "status": "proved",
   "theorems": [
    "PyGeode.mapTo_complete",
    "PyGeode.mapTo_complete_violated"
   ],
   "note": "Proved for source axes with distinct values; false with repeated values (counterexample)."
  },
  {
   "property": "C15",
   "status": "proved",
   "theorems": [
    "PyGeode.Axis.slicedVar_read",
    "PyGeode.Axis.axisMapTo_slice",
    "PyGeode.mapTo_of_slice",
    "PyGeode.Axis.axisMapTo_slice_violated",
    "PyGeode.Axis.slicedVar_read_violated"
   ],
   "note": "for distinct values that compare equal the code reads the wrong positions (slicedVar_read_violated)"
  },
  {
   "property": "C16",
   "status": "partial",
   "theorems": [
    "PyGeode.commonMap_sound_partial",
    "PyGeode.commonMap_integer_sound_partial",
    "PyGeode.commonMap_equal_violated"
   ],
   "note": "The C comparison truncates the difference to int, so pairs can be unequal (counterexample); proved: truncated differences are 0, and for integer-valued axes the pairs are equal."
  },
  {
   "property": "C17",
   "status": "proved",
   "theorems": [
    "PyGeode.PartialSum.partialSumC_correct",
    "PyGeode.PartialSum.partialSumC_frame",
    "PyGeode.PartialSum.partialSum_correct",
    "PyGeode.Climat.sums_correct"
   ],
   "note": ""
  },
  {
   "property": "C18",
   "status": "proved",
   "theorems": [
    "PyGeode.PartialSum.partialNanSumC_correct",
    "PyGeode.PartialSum.partialNanSum_correct",
    "PyGeode.Climat.nansums_correct"
   ],
   "note": ""
  },
  {
   "property": "C19",
   "status": "proved",
   "theorems": [
    "PyGeode.TimeC.get_index_correct",
    "PyGeode.TimeC.get_index_exact",
    "PyGeode.TimeC.get_indices_correct"
   ],
   "note": ""
  },
  {
   "property": "C20",
   "status": "proved",
   "theorems": [
    "PyGeode.TimeC.uniquify_correct",
    "PyGeode.TimeC.uniquify_unsorted_violated"
   ],
   "note": ""
  },
  {
   "property": "C21",
   "status": "proved",
   "theorems": [
    "PyGeode.Calendar.standard_date_roundtrip",
    "PyGeode.Calendar.date_roundtrip",
    "PyGeode.Calendar.bad_start_month"
   ],
   "note": ""
  },
  {
   "property": "C22",
   "status": "proved",
   "theorems": [
    "PyGeode.Calendar.standard_offset_roundtrip",
    "PyGeode.Calendar.offset_roundtrip",
    "PyGeode.Calendar.decode_is_clock",
    "PyGeode.Calendar.offset_start",
    "PyGeode.Calendar.offset_nextSecond"
   ],
   "note": ""
  },
  {
   "property": "C23",
   "status": "proved",
   "theorems": [
    "PyGeode.Calendar.noleap_date_roundtrip",
    "PyGeode.Calendar.noleap_offset_roundtrip",
    "PyGeode.Calendar.decode_is_clock"
   ],
   "note": ""
  },
  {
   "property": "C24",
   "status": "proved",
   "theorems": [
    "PyGeode.Calendar.d360_date_roundtrip",
    "PyGeode.Calendar.d360_offset_roundtrip",
    "PyGeode.Calendar.decode_is_clock"
   ],
   "note": ""
  },
  {
   "property": "C25",
   "status": "proved",
   "theorems": [
    "PyGeode.Calendar.yearless_date_roundtrip",
    "PyGeode.Calendar.yearless_offset_roundtrip",
    "PyGeode.Calendar.yearless_bad_month"
   ],
   "note": ""
  },
  {
   "property": "C26",
   "status": "proved",
   "theorems": [
    "PyGeode.Calendar.month_wrap",
    "PyGeode.Calendar.month_wrap_decoded"
   ],
   "note": ""
  },
  {
   "property": "C27",
   "status": "proved",
   "theorems": [
    "PyGeode.Calendar.offset_order"
   ],
   "note": ""
  },
  {
   "property": "C28",
   "status": "proved",
   "theorems": [
    "PyGeode.Calendar.start_shift",
    "PyGeode.Calendar.start_shift_decode"
   ],
   "note": ""
  },
  {
   "property": "C29",
   "status": "proved",
   "theorems": [
    "PyGeode.Calendar.ndays_sum",
    "PyGeode.Calendar.ndays_swap"
   ],
   "note": ""
  },
  {
   "property": "C30",
   "status": "proved",
   "theorems": [
    "PyGeode.Cf.compact_hours",
    "PyGeode.Cf.compact_days",
    "PyGeode.Cf.compact_refused"
   ],
   "note": ""
  },
  {
   "property": "C31",
   "status": "partial",
   "theorems": [
    "PyGeode.Dataset.names_unique_partial",
    "PyGeode.Dataset.names_unique_violated",
    "PyGeode.Dataset.uniqueNames_ne",
    "PyGeode.Dataset.uniqueNames_kept",
    "PyGeode.Dataset.vardict_lookup"
   ],
   "note": "for names shared by at most 99 variables; false beyond that (counterexample: 101 variables `a` and two `a1` give two variables `a101`, one of which cannot be looked up)"
  },
  {
   "property": "C32",
   "status": "partial",
   "theorems": [
    "PyGeode.Dataset.axes_unique_partial",
    "PyGeode.Dataset.axes_unique_violated",
    "PyGeode.Dataset.newAxis_equal",
    "PyGeode.Dataset.newAxis_name_kept",
    "PyGeode.Dataset.withAxes_correct"
   ],
   "note": "for names shared by at most 99 different axes; false beyond that (counterexample)"
  },
  {
   "property": "C33",
   "status": "proved",
   "theorems": [
    "PyGeode.Combine.commonDict_correct",
    "PyGeode.Combine.commonDict_general",
    "PyGeode.Combine.commonDict_perm",
    "PyGeode.Combine.combineName_correct",
    "PyGeode.Combine.combineName_differ"
   ],
   "note": "value comparison is an arbitrary `!=` in commonDict_general (NaN attributes are dropped)"
  },
  {
   "property": "C34",
   "status": "proved",
   "theorems": [
    "PyGeode.Combine.ufunc_correct",
    "PyGeode.Combine.ufunc_comm",
    "PyGeode.Combine.combineAxes_clean",
    "PyGeode.Combine.ufunc_subset",
    "PyGeode.Combine.combineAxes_slice",
    "PyGeode.Combine.combineAxes_partial_overlap_error",
    "PyGeode.Combine.combineAxes_pair"
   ],
   "note": "operands whose axes are pairwise identical or of unrelated classes (any number of operands, any axis orders), and a variable with a variable on any slice of its grid; the operation is an arbitrary function; dtype promotion is not modelled"
  },
  {
   "property": "C35",
   "status": "proved",
   "theorems": [
    "PyGeode.Combine.whichaxis_correct",
    "PyGeode.Combine.whichaxis_int",
    "PyGeode.Combine.whichaxis_int_violated"
   ],
   "note": "integers outside the range raise TypeError instead of KeyError"
  },
  {
   "property": "C36",
   "status": "proved",
   "theorems": [
    "PyGeode.VarOps.transpose_correct",
    "PyGeode.VarOps.transpose_twice",
    "PyGeode.VarOps.transposeOrder_spec",
    "PyGeode.VarOps.sameData_unique",
    "PyGeode.VarOps.transpose_repeated_violated"
   ],
   "note": "axes of pairwise unrelated classes; a request that names an axis twice gives that axis twice"
  },
  {
   "property": "C37",
   "status": "proved",
   "theorems": [
    "PyGeode.VarOps.squeeze_correct",
    "PyGeode.VarOps.extend_correct",
    "PyGeode.VarOps.squeeze_extend"
   ],
   "note": "axes of pairwise unrelated classes"
  },
  {
   "property": "C38",
   "status": "proved",
   "theorems": [
    "PyGeode.Concat.concat_correct",
    "PyGeode.Concat.concatAxis_aux",
    "PyGeode.Concat.stack_correct",
    "PyGeode.Concat.findAxis_axis",
    "PyGeode.Concat.findAxis_newAxis",
    "PyGeode.Concat.findAxis_error",
    "PyGeode.Concat.pieceEx_joinable"
   ],
   "note": "axes of one class along the joined axis, whose joined values do not compare equal at different positions; axes of pairwise unrelated classes"
  },
  {
   "property": "C39",
   "status": "proved",
   "theorems": [
    "PyGeode.VarOps.fill_correct",
    "PyGeode.VarOps.unfill_correct",
    "PyGeode.VarOps.unfill_fill"
   ],
   "note": "exact values; NaN is a separate value; dtype conversion to float32 for integer data is not modelled"
  },
  {
   "property": "C40",
   "status": "proved",
   "theorems": [
    "PyGeode.Loop.sum_shows",
    "PyGeode.Loop.mean_shows",
    "PyGeode.Loop.min_shows",
    "PyGeode.Loop.max_shows",
    "PyGeode.Loop.mean_repeated_violated",
    "PyGeode.Reduce.sum_correct",
    "PyGeode.Reduce.mean_correct",
    "PyGeode.Reduce.mean_count_pos",
    "PyGeode.Reduce.min_correct",
    "PyGeode.Reduce.max_correct",
    "PyGeode.Reduce.sum_chunk_independent",
    "PyGeode.Reduce.mean_integer_violated"
   ],
   "note": "exact arithmetic, distinct reduced axes, end to end for axes of pairwise unrelated classes whose values do not compare equal at different positions, requests of one or of at least two different positions per axis (one position asked for several times gives wrong results when the request is split: mean_repeated_violated); the mean of an integer-typed variable is truncated (mean_integer_violated)"
  },
  {
   "property": "C41",
   "status": "partial",
   "theorems": [
    "PyGeode.Reduce.argmax_correct_partial",
    "PyGeode.Reduce.loopMem_single",
    "PyGeode.Reduce.argmaxList_spec",
    "PyGeode.Reduce.argmax_chunked_violated",
    "PyGeode.Reduce.argmin_correct_partial",
    "PyGeode.Reduce.argminList_spec",
    "PyGeode.Reduce.argmin_chunked_violated",
    "PyGeode.Reduce.argmax_fits",
    "PyGeode.Reduce.argmin_fits"
   ],
   "note": "violated by the code when the reduced axis is split over chunks (argmax_chunked_violated, argmin_chunked_violated); holds when it is not"
  },
  {
   "property": "C42",
   "status": "proved",
   "theorems": [
    "PyGeode.Loop.nansum_shows",
    "PyGeode.Loop.nanmean_shows",
    "PyGeode.Loop.nanmin_shows",
    "PyGeode.Loop.nanmax_shows",
    "PyGeode.Reduce.nansum_correct",
    "PyGeode.Reduce.nanmean_correct",
    "PyGeode.Reduce.nanmin_correct",
    "PyGeode.Reduce.nanmax_correct",
    "PyGeode.Reduce.nanvariance_correct"
   ],
   "note": ""
  },
  {
   "property": "C43",
   "status": "proved",
   "theorems": [
    "PyGeode.Weights.nanvariance_shows",
    "PyGeode.Loop.variance_shows",
    "PyGeode.Reduce.variance_correct",
    "PyGeode.Reduce.variance_nonneg",
    "PyGeode.Reduce.nanvariance_correct"
   ],
   "note": "exact arithmetic; stdev's square root is not modelled"
  },
  {
   "property": "C44",
   "status": "proved",
   "theorems": [
    "PyGeode.Reduce.weightedSum_correct",
    "PyGeode.Reduce.weightedMean_correct",
    "PyGeode.Reduce.weightedMean_const",
    "PyGeode.Reduce.weightedVariance_correct",
    "PyGeode.Reduce.weightedNanMean_correct",
    "PyGeode.Reduce.weights_correct"
   ],
   "note": ""
  },
  {
   "property": "C45",
   "status": "proved",
   "theorems": [
    "PyGeode.Along.diff_correct",
    "PyGeode.Along.diff_one",
    "PyGeode.Along.diff_refused",
    "PyGeode.Along.diff_zero_violated"
   ],
   "note": "n \u2265 1; axes of pairwise unrelated classes; exact arithmetic. diff(n=0) gives an empty axis (diff_zero_violated)"
  },
  {
   "property": "C46",
   "status": "proved",
   "theorems": [
    "PyGeode.Along.stencil_in_bounds",
    "PyGeode.Along.deriv_correct",
    "PyGeode.Along.deriv_linear",
    "PyGeode.Along.stencil2_in_bounds",
    "PyGeode.Along.deriv2_correct",
    "PyGeode.Along.deriv2_quadratic",
    "PyGeode.Along.stencil3_two_points_violated",
    "PyGeode.Along.deriv_integer_violated"
   ],
   "note": "exact arithmetic; the second derivative needs three points (the code accepts two and reads outside the axis: stencil3_two_points_violated); integer variables are truncated (deriv_integer_violated)"
  },
  {
   "property": "C47",
   "status": "proved",
   "theorems": [
    "PyGeode.Along.integrate_correct",
    "PyGeode.Along.integrate_refuses",
    "PyGeode.Along.integral_start",
    "PyGeode.Along.integral_step",
    "PyGeode.Along.diff_integrate",
    "PyGeode.Along.cumsum_first_value_violated"
   ],
   "note": "exact arithmetic; cumsum leaves out the first value (cumsum_first_value_violated)"
  },
  {
   "property": "C48",
   "status": "proved",
   "theorems": [
    "PyGeode.Rotate.rotateValues_spec",
    "PyGeode.Rotate.rotatelon_correct",
    "PyGeode.Rotate.rotatelon_without",
    "PyGeode.Rotate.duplicate_violated"
   ],
   "note": "exact arithmetic; longitudes that coincide after the rotation are excluded; with duplicate=True the added end point repeats the value at longitude 0 instead of the origin (duplicate_violated)"
  },
  {
   "property": "C49",
   "status": "proved",
   "theorems": [
    "PyGeode.Progress.scale_range",
    "PyGeode.Progress.run_range",
    "PyGeode.Progress.runAll_range",
    "PyGeode.Progress.scale_ends",
    "PyGeode.Progress.parts_tile",
    "PyGeode.Progress.reports_in_order",
    "PyGeode.Progress.finish_only_at_end"
   ],
   "note": "exact arithmetic; what is shown on the terminal is left to the progressbar package"
  },
  {
   "property": "C50",
   "status": "proved",
   "theorems": [
    "PyGeode.Cf.fixName_none",
    "PyGeode.Cf.fixName_valid",
    "PyGeode.Cf.fixName_id",
    "PyGeode.Cf.fixName_idem",
    "PyGeode.Cf.fixName_keeps",
    "PyGeode.Cf.fixName_collision"
   ],
   "note": "ASCII classes; two names may become one (fixName_collision)"
  },
  {
   "property": "C51",
   "status": "proved",
   "theorems": [
    "PyGeode.Cf.units_roundtrip",
    "PyGeode.Cf.calendar_roundtrip",
    "PyGeode.Cf.time_roundtrip",
    "PyGeode.Cf.climatology_roundtrip",
    "PyGeode.Cf.negative_year_violated",
    "PyGeode.Cf.month_climatology_violated"
   ],
   "note": "exact arithmetic; dates with year >= 0 as start; negative years cannot be read back (negative_year_violated); climatologies with fewer fields come back with more (month_climatology_violated); yearless axes are in C141"
  },
  {
   "property": "C52",
   "status": "partial",
   "theorems": [
    "PyGeode.Cf.unpack_correct",
    "PyGeode.Cf.pickFill_first_partial",
    "PyGeode.Cf.pickFill_zero_violated"
   ],
   "note": "exact arithmetic; a fill value 0 is ignored by the code (pickFill_zero_violated), all others are covered"
  },
  {
   "property": "C53",
   "status": "partial",
   "theorems": [
    "PyGeode.Calendar.season_noleap",
    "PyGeode.Calendar.season_standard_partial",
    "PyGeode.Calendar.season_standard_violated"
   ],
   "note": "Proved for the 365-day calendar; on the standard calendar it is false on 29 Feb, 31 May, 31 Aug, 30 Nov (counterexample) and proved on all other dates."
  },
  {
   "property": "C54",
   "status": "proved",
   "theorems": [
    "PyGeode.Climat.climMean_correct",
    "PyGeode.Climat.climNanMean_correct",
    "PyGeode.Climat.climCount_correct",
    "PyGeode.Climat.climVariance_correct",
    "PyGeode.Climat.climNanVariance_correct",
    "PyGeode.Climat.outTime_correct",
    "PyGeode.Climat.timesWith_ne",
    "PyGeode.Climat.commonMap_nodup"
   ],
   "note": "exact arithmetic; requests without repeated output times; the grouping is an arbitrary list of kept date fields; the variance of a single value is NaN in the code and 0/0 = 0 in the model"
  },
  {
   "property": "C55",
   "status": "proved",
   "theorems": [
    "PyGeode.Lag.lag_correct",
    "PyGeode.Lag.lag_refused"
   ],
   "note": "floating variable; lists of slices are taken as tuples (numpy >= 1.23 refuses them); the date fields of the lag axis are not modelled"
  },
  {
   "property": "C56",
   "status": "proved",
   "theorems": [
    "PyGeode.Multifile.multifile_sound",
    "PyGeode.Multifile.multifile_complete",
    "PyGeode.Multifile.multifile_missing",
    "PyGeode.Multifile.fileIndex_home",
    "PyGeode.Multifile.overlap_violated"
   ],
   "note": "files that hold only times from their start up to the start of the next (what check_multi verifies), requests without repeated dates; with overlapping files the result depends on the order of the request (overlap_violated). The axes other than time are one opaque value per time"
  },
  {
   "property": "C57",
   "status": "proved",
   "theorems": [
    "PyGeode.Smooth.smooth_shows",
    "PyGeode.Smooth.smooth_short",
    "PyGeode.Smooth.smooth_long",
    "PyGeode.Smooth.smoothed_constant",
    "PyGeode.Smooth.smoothed_between",
    "PyGeode.Smooth.reflect_inside",
    "PyGeode.Smooth.smooth_repeated_violated"
   ],
   "note": "exact arithmetic, floating variable (an integer variable is truncated); requests that ask for one position several times may raise (smooth_repeated_violated); scipy's convolve in mode 'same' is taken as the middle part of the full convolution"
  },
  {
   "property": "C58",
   "status": "proved",
   "theorems": [
    "PyGeode.Calendar.py_date_roundtrip",
    "PyGeode.Calendar.py_value_roundtrip",
    "PyGeode.Calendar.py_value_is_clock"
   ],
   "note": ""
  },
  {
   "property": "C59",
   "status": "proved",
   "theorems": [
    "PyGeode.Calendar.days_in_month_correct"
   ],
   "note": ""
  },
  {
   "property": "C60",
   "status": "partial",
   "theorems": [
    "PyGeode.Calendar.getdoy_correct_partial",
    "PyGeode.Calendar.getdoy_violated",
    "PyGeode.Calendar.getdoy_eq"
   ],
   "note": "The code drops the year (year 0, a leap year): wrong after February in non-leap years of the standard calendar."
  },
  {
   "property": "C61",
   "status": "proved",
   "theorems": [
    "PyGeode.TimeC.time_common_map_sound",
    "PyGeode.TimeC.time_common_map_complete",
    "PyGeode.TimeC.commonMap_fits",
    "PyGeode.TimeC.commonMap_repeats_violated"
   ],
   "note": "With repeats on both sides pairs are missed and the buffer overflows (counterexample)."
  },
  {
   "property": "C62",
   "status": "proved",
   "theorems": [
    "PyGeode.TimeC.nearest_lower_correct"
   ],
   "note": ""
  },
  {
   "property": "C63",
   "status": "proved",
   "theorems": [
    "PyGeode.TimeC.time_map_to_exact"
   ],
   "note": ""
  },
  {
   "property": "C64",
   "status": "proved",
   "theorems": [
    "PyGeode.Climat.climTrend_least_squares"
   ],
   "note": "exact arithmetic"
  },
  {
   "property": "C65",
   "status": "proved",
   "theorems": [
    "PyGeode.Axis.axEq_sound",
    "PyGeode.Axis.axEq_name",
    "PyGeode.Axis.isEquivalent_refl",
    "PyGeode.Axis.axEq_symm_violated",
    "PyGeode.Axis.axEq_trans_violated"
   ],
   "note": ""
  },
  {
   "property": "C66",
   "status": "proved",
   "theorems": [
    "PyGeode.Axis.sliceAxis_aux",
    "PyGeode.Axis.sliceAxis_aux_violated",
    "PyGeode.VarOps.sorted_correct",
    "PyGeode.VarOps.argsort_spec",
    "PyGeode.VarOps.replaceAxes_correct",
    "PyGeode.VarOps.replaceAxes_refused",
    "PyGeode.VarOps.rename_correct",
    "PyGeode.VarOps.slice_correct",
    "PyGeode.VarOps.slice_slice",
    "PyGeode.VarOps.slice_transpose",
    "PyGeode.VarOps.ellipsisSlices_spec",
    "PyGeode.VarOps.ellipsisSlices_none",
    "PyGeode.VarOps.ellipsisSlices_refused"
   ],
   "note": "slicing and sorting need axis values that do not compare equal at different positions (see C15)"
  },
  {
   "property": "C67",
   "status": "proved",
   "theorems": [
    "PyGeode.Dataset.segments_correct"
   ],
   "note": ""
  },
  {
   "property": "C68",
   "status": "proved",
   "theorems": [
    "PyGeode.Cf.aux_roundtrip",
    "PyGeode.Cf.aux_blank_violated",
    "PyGeode.Cf.class_roundtrip",
    "PyGeode.Cf.plain_roundtrip",
    "PyGeode.Cf.class_violated"
   ],
   "note": "height axes become plain z axes, and an axis whose name suggests another kind changes kind (class_violated)"
  },
  {
   "property": "C69",
   "status": "proved",
   "theorems": [
    "PyGeode.Interp.interp_rows",
    "PyGeode.Interp.interp_skip",
    "PyGeode.Interp.interp_refuses",
    "PyGeode.Interp.interp_mixed_violated"
   ],
   "note": "exact arithmetic; the GSL method is a parameter that passes through its points; the two neighbouring coordinates that give the direction must be finite; rows going different ways are refused (interp_mixed_violated)"
  },
  {
   "property": "C70",
   "status": "proved",
   "theorems": [
    "PyGeode.Interp.linear_through",
    "PyGeode.Interp.linear_between",
    "PyGeode.Interp.linear_exact"
   ],
   "note": "exact arithmetic; linear interpolation as documented by GSL"
  },
  {
   "property": "C71",
   "status": "partial",
   "theorems": [
    "PyGeode.Interp.interp_correct_partial",
    "PyGeode.Interp.interpolate_in_place",
    "PyGeode.Interp.interpolate_transpose_violated"
   ],
   "note": "the data are as claimed; the transpose flag works the wrong way round (interpolate_transpose_violated): with True the new axis is last, with False it takes the place of the old one"
  },
  {
   "property": "C72",
   "status": "proved",
   "theorems": [
    "PyGeode.Stats.regress_correct",
    "PyGeode.Stats.regressCell_fits",
    "PyGeode.Stats.split_spec",
    "PyGeode.Stats.split_refuses",
    "PyGeode.Stats.dev2_pos_iff"
   ],
   "note": "exact arithmetic; any two axes are the same or unrelated, none is empty; p-values (Student's t) are not modelled; standard errors before the square root"
  },
  {
   "property": "C73",
   "status": "proved",
   "theorems": [
    "PyGeode.Stats.correlate_correct",
    "PyGeode.Stats.pearson_abs_le",
    "PyGeode.Stats.pearson_abs_eq_one"
   ],
   "note": "exact arithmetic with a real square root; p-values are not modelled"
  },
  {
   "property": "C74",
   "status": "partial",
   "theorems": [
    "PyGeode.Stats.difference_correct_partial",
    "PyGeode.Stats.differenceCell_few_violated",
    "PyGeode.Stats.difference_default_violated",
    "PyGeode.Stats.difference_order_violated"
   ],
   "note": "proved for variables with the axes left in the same order and cells with at least two valid values on both sides; otherwise the code reports the difference of the sums (differenceCell_few_violated), mixes up positions (difference_order_violated), and leaving axes out raises (difference_default_violated); p and ci (Student's t) are not modelled"
  },
  {
   "property": "C75",
   "status": "partial",
   "theorems": [
    "PyGeode.Stats.paired_correct_partial",
    "PyGeode.Stats.paired_error_violated",
    "PyGeode.Stats.difference_default_violated"
   ],
   "note": "the code divides the sample variance by N - 1 (paired_error_violated) and reports p = 0 with fewer than two pairs (se2 none in the model)"
  },
  {
   "property": "C76",
   "status": "partial",
   "theorems": [
    "PyGeode.Stats.isnonzero_correct_partial",
    "PyGeode.Stats.isnonzeroCell_empty_violated"
   ],
   "note": "proved where there are valid values; without any the code reports mean 0 and p = 0 (isnonzeroCell_empty_violated)"
  },
  {
   "property": "C77",
   "status": "proved",
   "theorems": [
    "PyGeode.Domains.getDomains_correct",
    "PyGeode.Domains.getDomains_ends",
    "PyGeode.Domains.getDomains_antichain",
    "PyGeode.Domains.getDomains_order_violated"
   ],
   "note": "coordinates are elements of an arbitrary type with equality; the axis objects made from the sets of coordinates are not modelled; when two files order the same axes differently the datasets may all be removed (getDomains_order_violated)"
  },
  {
   "property": "C78",
   "status": "partial",
   "theorems": [
    "PyGeode.Manifest.manifest_current_partial",
    "PyGeode.Manifest.getTable_current",
    "PyGeode.Manifest.order_violated",
    "PyGeode.Manifest.sublist_violated",
    "PyGeode.Manifest.same_second_violated",
    "PyGeode.Manifest.write_during_run_violated",
    "PyGeode.Manifest.older_violated",
    "PyGeode.Manifest.killed_before_time_violated",
    "PyGeode.Manifest.norm_violated"
   ],
   "note": "proved for all histories, with crashes at any point, in which every run lists the changed files in the order of their changes after files of earlier seconds, files are written between runs, in another second than the last run, and keep the time of writing; each of these conditions is needed (the _violated theorems), and file names must be as normpath writes them (norm_violated)"
  },
  {
   "property": "C79",
   "status": "partial",
   "theorems": [
    "PyGeode.Manifest.restart_partial",
    "PyGeode.Manifest.torn_violated"
   ],
   "note": "proved for all crash points but those between opening and writing the manifest; after such a crash no run can ever start (torn_violated)"
  },
  {
   "property": "C80",
   "status": "partial",
   "theorems": [
    "PyGeode.Scan.getview_correct_partial",
    "PyGeode.Scan.searchsorted_place",
    "PyGeode.Scan.getview_down_violated",
    "PyGeode.Scan.getview_irregular_violated"
   ],
   "note": "proved for requests whose axes do not start downwards and pieces with the axes in the order of the variable; on an axis that goes downwards all values are NaN (getview_down_violated), and a request with irregular matches on two axes raises (getview_irregular_violated)"
  },
  {
   "property": "C81",
   "status": "partial",
   "theorems": [
    "PyGeode.NetCdf.save_open_partial",
    "PyGeode.NetCdf.save_name_clash",
    "PyGeode.NetCdf.writeVar_correct",
    "PyGeode.NetCdf.tidyAxes_correct",
    "PyGeode.NetCdf.fileEx_saveable",
    "PyGeode.NetCdf.save_open_case_violated",
    "PyGeode.NetCdf.save_open_case_fails",
    "PyGeode.NetCdf.save_open_alias_violated",
    "PyGeode.NetCdf.save_empty_violated",
    "PyGeode.NetCdf.save_unencoded_violated"
   ],
   "note": "proved for datasets as encode_cf makes them (axes known by name), with axis names that differ in more than case, are no class names, and no empty axis; each of these is needed (the _violated theorems). Attributes and CF encoding are C50-C52 and C68"
  },
  {
   "property": "C82",
   "status": "partial",
   "theorems": [
    "PyGeode.Pack.pack_unpack_partial",
    "PyGeode.Pack.pack_ex",
    "PyGeode.Pack.pack_nan_number",
    "PyGeode.Pack.pack_nan_violated",
    "PyGeode.Pack.pack_fill_violated"
   ],
   "note": "proved for numbers (error, ends, order, range, constant variables); missing values are lost: NaN always comes back as a number (pack_nan_number, pack_nan_violated), and a fill value left among the attributes may hit a packed number (pack_fill_violated)"
  },
  {
   "property": "C83",
   "status": "partial",
   "theorems": [
    "PyGeode.Station.station_roundtrip_partial",
    "PyGeode.Station.strings_roundtrip",
    "PyGeode.Station.stationEx_ok",
    "PyGeode.Station.strings_nul_violated",
    "PyGeode.Station.station_substring_violated",
    "PyGeode.Station.station_two_violated",
    "PyGeode.Station.station_clash_violated"
   ],
   "note": "proved for one such axis, names that are single words and not parts of the text 'lat lon', texts not all empty and without NUL, and no clash with variables; each is needed (the _violated theorems): an array named lo beside lon is lost, and of two such axes of one variable only the last keeps its arrays"
  },
  {
   "property": "C84",
   "status": "partial",
   "theorems": [
    "PyGeode.Station.eq_iff",
    "PyGeode.Station.mapTo_correct_partial",
    "PyGeode.Station.strAsVal_correct",
    "PyGeode.Station.eq_nan_violated"
   ],
   "note": "all axes for equality and names, axes without NaN for mapping; with NaN among its auxiliary values an axis is not equal to itself (eq_nan_violated)"
  },
  {
   "property": "C85",
   "status": "proved",
   "theorems": [
    "PyGeode.LeapDays.removeleapyears_correct",
    "PyGeode.LeapDays.removeleapyears_default",
    "PyGeode.LeapDays.leapEx_ok",
    "PyGeode.LeapDays.unordered_violated",
    "PyGeode.LeapDays.duplicate_violated"
   ],
   "note": "the order of years and the difference of the days are needed (unordered_violated, duplicate_violated)"
  },
  {
   "property": "C86",
   "status": "proved",
   "theorems": [
    "PyGeode.Ensemble.ensembleVar_correct",
    "PyGeode.Ensemble.ensemble_correct",
    "PyGeode.Ensemble.ensemble_refused",
    "PyGeode.Ensemble.ensemble_axes_refused",
    "PyGeode.Ensemble.runEx_ok"
   ],
   "note": ""
  },
  {
   "property": "C87",
   "status": "proved",
   "theorems": [
    "PyGeode.DateText.strAsDate_iff",
    "PyGeode.DateText.format_parse",
    "PyGeode.DateText.format_select",
    "PyGeode.DateText.dayOfYear_value",
    "PyGeode.DateText.second_space_violated",
    "PyGeode.DateText.format_default_violated",
    "PyGeode.DateText.full_month_violated",
    "PyGeode.DateText.early_year_violated",
    "PyGeode.DateText.iso_month_violated",
    "PyGeode.DateText.smarch_violated"
   ],
   "note": "the accepted texts and their fields are characterised completely, but the form documented with seconds, '06:00:00 1 Jan 1979', is refused, and dates in the default format cannot be read back"
  },
  {
   "property": "C88",
   "status": "proved",
   "theorems": [
    "PyGeode.TimeRange.timeRange_correct",
    "PyGeode.TimeRange.timeRange_dates",
    "PyGeode.TimeRange.timeRange_inc",
    "PyGeode.TimeRange.timeN_correct",
    "PyGeode.TimeRange.timeRange_inc_violated"
   ],
   "note": "exact arithmetic; with inc=True and an end that is not a whole number of steps after the start the axis goes beyond the end (timeRange_inc_violated)"
  },
  {
   "property": "C89",
   "status": "proved",
   "theorems": [
    "PyGeode.Ticks.ticks_correct",
    "PyGeode.Ticks.nticks_correct",
    "PyGeode.Ticks.month_ticks_violated",
    "PyGeode.Ticks.nticks_violated"
   ],
   "note": "for multiples that divide the next larger unit (days: 1); with other multiples the ticks depend on vmin and can go beyond vmax (month_ticks_violated), and nticks of hours, minutes, seconds ignores the multiple asked for where it looks for the first tick (nticks_violated). Seasons and plain days are not modelled; exact arithmetic"
  },
  {
   "property": "C90",
   "status": "proved",
   "theorems": [
    "PyGeode.Ticks.bestMult_correct",
    "PyGeode.Ticks.bestMult_ends"
   ],
   "note": ""
  },
  {
   "property": "C91",
   "status": "partial",
   "theorems": [
    "PyGeode.CfFile.save_open_cf_partial",
    "PyGeode.CfFile.weights_violated",
    "PyGeode.CfFile.named_aux_violated",
    "PyGeode.CfFile.units_violated",
    "PyGeode.CfFile.dimension_name_violated",
    "PyGeode.CfFile.climatology_name_violated"
   ],
   "note": "Proved for datasets without station axes, yearless times (C141), packed data or attributes on variables. Missing because false: a variable named like an auxiliary array of any axis (`weights` for every latitude axis) is dropped when the file is opened, auxiliary arrays of a named axis are lost, units or names can change the kind of an axis, the time axis of a climatology comes back as `time` whatever its name was (climatology_name_violated)."
  },
  {
   "property": "C92",
   "status": "partial",
   "theorems": [
    "PyGeode.Composite.composite_correct_partial",
    "PyGeode.Composite.composite_uniform",
    "PyGeode.Composite.composite_overrun",
    "PyGeode.Composite.composite_raises",
    "PyGeode.Composite.composite_events",
    "PyGeode.Composite.composite_coords"
   ],
   "note": "Proved for events that do not begin before the axis, or end on it and no earlier than any other. Missing because false: other events that begin before the axis show values past their end (composite_overrun) or raise (composite_raises)."
  },
  {
   "property": "C93",
   "status": "proved",
   "theorems": [
    "PyGeode.Flatten.flatten_correct",
    "PyGeode.Flatten.flatten_scrambled",
    "PyGeode.Flatten.flatValues_getD"
   ],
   "note": "Proved for requests of consecutive positions along the flattened axis (any along the others). Requests with gaps that are out of order are silently scrambled (flatten_scrambled)."
  },
  {
   "property": "C94",
   "status": "partial",
   "theorems": [
    "PyGeode.Weights.sum_shows_partial",
    "PyGeode.Weights.mean_shows_partial",
    "PyGeode.Weights.variance_shows_partial",
    "PyGeode.Weights.nansum_shows_partial",
    "PyGeode.Weights.nanmean_shows_partial",
    "PyGeode.Weights.rejects",
    "PyGeode.Weights.scalar_weight_violated"
   ],
   "note": "Proved for axes of unrelated classes, requests with one or at least two different positions along each axis, and weights with at least one axis. Missing because false: a variable without axes given as weights is ignored, also in sums (scalar_weight_violated)."
  },
  {
   "property": "C95",
   "status": "partial",
   "theorems": [
    "PyGeode.Call.call_correct_partial",
    "PyGeode.Call.call_defined",
    "PyGeode.Call.order_violated"
   ],
   "note": "Missing: keywords that become equal when the letters m and s are removed (newArgs_collision_violated, C09), two keywords that both average over one axis, axes of related kinds or with common aliases, values of an axis closer than the comparison tolerance; requests that repeat one single position of the result. Violated: whether an axis may be squeezed by one keyword and averaged by another depends on the order of the keywords."
  },
  {
   "property": "C96",
   "status": "partial",
   "theorems": [
    "PyGeode.DatasetOps.make_id",
    "PyGeode.DatasetOps.make_correct_partial",
    "PyGeode.DatasetOps.getitem_correct",
    "PyGeode.DatasetOps.remove_correct",
    "PyGeode.DatasetOps.rename_correct",
    "PyGeode.DatasetOps.replace_correct",
    "PyGeode.DatasetOps.map_correct",
    "PyGeode.DatasetOps.add_correct",
    "PyGeode.DatasetOps.add_remove",
    "PyGeode.DatasetOps.asDataset_correct",
    "PyGeode.DatasetOps.add_clash",
    "PyGeode.DatasetOps.call_correct_partial",
    "PyGeode.DatasetOps.joinVars_correct",
    "PyGeode.DatasetOps.join_static",
    "PyGeode.DatasetOps.concat_correct_partial",
    "PyGeode.DatasetOps.concat_mixed_partial",
    "PyGeode.DatasetOps.add_atts_violated"
   ],
   "note": "Missing: names shared by 100 or more variables or axes (C31, C32); calls with keywords that two axes of the dataset accept, or that are themselves names of axes with an underscore. concat_mixed_partial: joining datasets whose variables differ (missing there: axes whose name 100 different axes share). join_static: a variable that is the same in all datasets gets a new axis when they are joined. add_atts_violated: add keeps the attributes of the first dataset, the common ones are computed and dropped."
  },
  {
   "property": "C97",
   "status": "partial",
   "theorems": [
    "PyGeode.OpenOptions.finalizeOpen_correct_partial",
    "PyGeode.OpenOptions.nameChanged_kept",
    "PyGeode.OpenOptions.setAxisTypes_refused",
    "PyGeode.OpenOptions.autodetect_correct",
    "PyGeode.OpenOptions.finalizeSave_correct",
    "PyGeode.OpenOptions.namemap_case_violated",
    "PyGeode.OpenOptions.dimtypes_alias_violated",
    "PyGeode.OpenOptions.dimtypes_namemap_violated",
    "PyGeode.OpenOptions.pack_text_violated"
   ],
   "note": "Proved for names that no axis answers to unless it is its name: an axis also answers to the names of its classes, and in any case, so that namemap and dimtypes may reach other axes (violated theorems). After a class with arguments or an axis in dimtypes, namemap no longer finds the axis by its name in the file, and a text given to pack is searched for the names (violated theorems)."
  },
  {
   "property": "C98",
   "status": "partial",
   "theorems": [
    "PyGeode.OpenMulti.open_multi_partial",
    "PyGeode.OpenMulti.check_multi_correct",
    "PyGeode.OpenMulti.misaligned_violated"
   ],
   "note": "Proved for one variable with a time axis, dates with all six fields and exact arithmetic; missing: variables without a time axis, several time axes in one file, files that cannot be opened (see C56), the data comparison of check_multi, floating point rounding of dt. The guard against misaligned files never refuses steps of five units or more (misaligned_violated)."
  },
  {
   "property": "C99",
   "status": "partial",
   "theorems": [
    "PyGeode.GetItem.getItem_correct_partial",
    "PyGeode.GetItem.asVar_correct",
    "PyGeode.GetItem.getItem_refused",
    "PyGeode.GetItem.getItem_toomany",
    "PyGeode.GetItem.get_correct",
    "PyGeode.GetItem.load_correct",
    "PyGeode.GetItem.npInt_violated",
    "PyGeode.GetItem.list_violated",
    "PyGeode.GetItem.duplicate_violated"
   ],
   "note": "Proved for axes of unrelated classes with separated values and selections that are not empty. Missing because false (violated theorems): an integer taken from an array keeps its axis, a list as the whole key is taken as one index per axis, and axes with equal values."
  },
  {
   "property": "C100",
   "status": "partial",
   "theorems": [
    "PyGeode.Eof.eofSvd_correct_partial",
    "PyGeode.Eof.eofCov_correct_partial",
    "PyGeode.Eof.eofCov_large",
    "PyGeode.Eof.eof_small",
    "PyGeode.Eof.eof_narrow",
    "PyGeode.Eof.eofs_unique",
    "PyGeode.Eof.eofs_residual",
    "PyGeode.Eof.eofs_rebuild",
    "PyGeode.Eof.answer_names",
    "PyGeode.Eof.answer_text",
    "PyGeode.Eof.answer_default",
    "PyGeode.Eof.decompositions",
    "PyGeode.Eof.fieldEx_input",
    "PyGeode.Eof.methods_differ",
    "PyGeode.Eof.record_axis_violated",
    "PyGeode.Eof.long_names_violated",
    "PyGeode.Eof.weight_none_violated",
    "PyGeode.Eof.record_name_violated",
    "PyGeode.Svd.eofIter_result",
    "PyGeode.Svd.eofStep_fixed",
    "PyGeode.Svd.npEx_right"
   ],
   "note": "Proved in exact arithmetic for record axes that come first, positive weights on axes of the patterns, and any decompositions with the properties numpy documents (they exist: decompositions). Of the iterative method (EOF of large data): what it returns if it returns, and that patterns it does not change any more are eigenvectors. Missing: that it converges (the one-pass estimate EOF_guess: C127). Missing because false: eigenvalues and the size of principal components depend on the method, which depends on the size of the data (methods_differ); a record axis, also the default time axis, that is not the first mixes records and places (record_axis_violated); weight=None, a record axis given by name or as an axis, and the long keywords for outputs fail (the other violated theorems)."
  },
  {
   "property": "C101",
   "status": "partial",
   "theorems": [
    "PyGeode.Grib.readAt_correct_partial",
    "PyGeode.Grib.unpack_correct",
    "PyGeode.Grib.readHead_found",
    "PyGeode.Grib.readHead_none",
    "PyGeode.Grib.negative_scale_violated",
    "PyGeode.Grib.constant_field_violated",
    "PyGeode.Grib.wide_field_violated"
   ],
   "note": "Proved for the C functions, in exact arithmetic, for records without a bitmap and with a product section of 28 bytes. Missing because false (violated theorems): negative decimal scales, constant fields (0 bits), 27 and 29 to 31 bits. Through Python nothing can be read at all: every wrapper makes a new capsule out of the capsule it is given (grib.c:1020) where it means to open it."
  },
  {
   "property": "C102",
   "status": "partial",
   "theorems": [
    "PyGeode.Grib.index_correct_partial",
    "PyGeode.Grib.index_round",
    "PyGeode.Grib.gds_round",
    "PyGeode.Grib.recordsEx_ok",
    "PyGeode.Grib.missing_record_violated",
    "PyGeode.Grib.forecast_violated",
    "PyGeode.Grib.average_violated",
    "PyGeode.Grib.odd_coords_violated"
   ],
   "note": "Proved for files below 2^63 bytes with fewer than 256 variables and 256 times and levels for each, and averages of fewer than 256 values. Missing because false: a time and level without a record shows the first record of the file or what is at a random place (missing_record_violated), times of forecasts that start together (forecast_violated), averages of 256 or more values (average_violated), an odd number of vertical parameters (odd_coords_violated)."
  },
  {
   "property": "C103",
   "status": "partial",
   "theorems": [
    "PyGeode.Grib.openVar_correct_partial",
    "PyGeode.Grib.isSurface_iff",
    "PyGeode.Grib.readDataLoop_correct",
    "PyGeode.Grib.recordsEx_complete",
    "PyGeode.Grib.level_violated",
    "PyGeode.Grib.lon_violated"
   ],
   "note": "Proved for complete variables with levels below 256 and at least two points along each axis; the time axis and the Gaussian latitudes are given, names and attributes are not modelled. Missing because false: of a level only the low byte is used (level_violated: 1000, 850, 500 hPa become 232, 82, 244), grids that cross Greenwich run backwards (lon_violated). The wrappers of the C functions are taken to work (see C101)."
  },
  {
   "property": "C104",
   "status": "partial",
   "theorems": [
    "PyGeode.MultiRegress.multipleRegress_correct_partial",
    "PyGeode.MultiRegress.multipleRegress_refuses",
    "PyGeode.MultiRegress.output_B_violated",
    "PyGeode.MultiRegress.output_sb_violated",
    "PyGeode.MultiRegress.missing_axis_violated",
    "PyGeode.MultiRegress.invEx_spec"
   ],
   "note": "Proved in exact arithmetic for regressors that all have the axes regressed over, and 'p' and 'sb' with at most one axis left; square roots and Student's distribution are not modelled, NaNs are excluded. Missing because false: the violated theorems."
  },
  {
   "property": "C105",
   "status": "partial",
   "theorems": [
    "PyGeode.FftSmooth.fftSmooth_correct",
    "PyGeode.FftSmooth.fftSmooth_refused",
    "PyGeode.FftSmooth.fftSmoothC_correct_partial",
    "PyGeode.FftSmooth.lowHarmonics_unique",
    "PyGeode.FftSmooth.lowHarmonics_nearest",
    "PyGeode.FftSmooth.lowHarmonics_keep",
    "PyGeode.FftSmooth.lowHarmonics_stop",
    "PyGeode.FftSmooth.lowHarmonics_twice",
    "PyGeode.FftSmooth.lowHarmonics_mean",
    "PyGeode.FftSmooth.lowHarmonics_all",
    "PyGeode.FftSmooth.lowHarmonics_add",
    "PyGeode.FftSmooth.complex_one_violated",
    "PyGeode.FftSmooth.complex_one_not_low",
    "PyGeode.FftSmooth.negative_violated"
   ],
   "note": "Proved in exact real and complex arithmetic, the transforms of numpy.fft described by their defining sums. Missing because false: complex variables with maxharm 0 or 1 (complex_one_violated); on numpy 1.23 and later every complex variable is refused, because the coefficients are indexed with a list of slices."
  },
  {
   "property": "C106",
   "status": "proved",
   "theorems": [
    "PyGeode.ClimVar.mean_correct",
    "PyGeode.ClimVar.nanmean_correct",
    "PyGeode.ClimVar.count_correct",
    "PyGeode.ClimVar.variance_correct",
    "PyGeode.ClimVar.nanvariance_correct",
    "PyGeode.ClimVar.remake_correct",
    "PyGeode.ClimVar.repeated_time_violated"
   ],
   "note": "Proved in exact arithmetic, the standard deviation before its square root; integer data are excluded (`sum /= count` fails on them), seasonal means are C53. Missing because false: a request that names a time of the result twice (repeated_time_violated)."
  },
  {
   "property": "C107",
   "status": "proved",
   "theorems": [
    "PyGeode.ClimVar.climtrend_correct",
    "PyGeode.ClimVar.remake_correct"
   ],
   "note": "Proved in exact arithmetic; the seconds are a parameter (relative times are C58 to C63). Missing because false: requests that name a time of the result twice, as in C106."
  },
  {
   "property": "C108",
   "status": "proved",
   "theorems": [
    "PyGeode.TimeMatch.op_dates",
    "PyGeode.TimeMatch.op_dates_memory",
    "PyGeode.TimeMatch.anomaly_correct",
    "PyGeode.TimeMatch.anomaly_dates",
    "PyGeode.TimeMatch.same_date_violated"
   ],
   "note": "Proved in exact arithmetic; with both variables in memory (or in a file) for all requests. Missing because false (`same_date_violated`): requests for several times that all fall on the same date, if the second variable is an average computed when it is read."
  },
  {
   "property": "C109",
   "status": "proved",
   "theorems": [
    "PyGeode.TimeMatch.detrend_correct",
    "PyGeode.TimeMatch.fromTrend_correct"
   ],
   "note": "Proved in exact arithmetic; the seconds are a parameter (relative times are C58 to C63), and coefficients with a constant year field (read back from a file) are not modelled."
  },
  {
   "property": "C110",
   "status": "proved",
   "theorems": [
    "PyGeode.FromFiles.from_files_correct",
    "PyGeode.FromFiles.name_violated",
    "PyGeode.FromFiles.origin_violated",
    "PyGeode.FromFiles.order_violated"
   ],
   "note": "Proved for every consistent collection; the order of the returned datasets is Python's set order, here any. Missing because false: two axes of one class with equal values (`name_violated`), times with different reference dates (`origin_violated`), common axes in different orders (`order_violated`), decreasing axes (C80). Reading can also stop with an assertion when the parts have irregular gaps on two axes (C80). Auxiliary arrays and attributes are not modelled."
  },
  {
   "property": "C111",
   "status": "proved",
   "theorems": [
    "PyGeode.FindBest.find_correct",
    "PyGeode.FindBest.find_best_correct",
    "PyGeode.FindBest.minimize_ignored"
   ],
   "note": "Proved for all datasets, requirements and scores. The scores are functions of the list of variables found, not of the dataset as documented (see findings)."
  },
  {
   "property": "C112",
   "status": "proved",
   "theorems": [
    "PyGeode.SplitTime.split_correct",
    "PyGeode.SplitTime.split_keeps",
    "PyGeode.SplitTime.fromFields_rejoins"
   ],
   "note": "Proved for every time axis with years and at least one other field, and all its dates; seasonal axes are not modelled, integer data fail (no NaN). Indexing with a list of slices (line 471) needs numpy below 1.23."
  },
  {
   "property": "C113",
   "status": "proved",
   "theorems": [
    "PyGeode.SplitTime.join_correct",
    "PyGeode.SplitTime.fromFields_joins"
   ],
   "note": "Proved for a day axis right after the year axis, years that are whole numbers in increasing order and combinations that are all valid dates. Missing because false: a day axis further on (line 544 joins the axes between as well), see findings. Indexing with a list of slices (line 555) needs numpy below 1.23."
  },
  {
   "property": "C114",
   "status": "proved",
   "theorems": [
    "PyGeode.XArray.toXarray_correct",
    "PyGeode.XArray.stored_array",
    "PyGeode.XArray.fromXarray_correct",
    "PyGeode.XArray.xarray_round_trip",
    "PyGeode.XArray.toXarray_getvalues_violated"
   ],
   "note": "Proved for the values; dask arrays are described, not modelled, and metadata (CF encoding, xarray's coding of dates) are left out. Missing because false: variables read with getvalues raise an exception (`toXarray_getvalues_violated`)."
  },
  {
   "property": "C115",
   "status": "partial",
   "theorems": [
    "PyGeode.Contours.guess_style",
    "PyGeode.Contours.contours_div",
    "PyGeode.Contours.contours_seq_partial",
    "PyGeode.Contours.contours_seq_violated"
   ],
   "note": "Everything is proved but that sequential contours reach the highest value, which is false: values from 5 to 35 get contours from 0 to 30 (`contours_seq_violated`), as the lowest contour is rounded down and the number of intervals is not raised. They do reach it if the lowest value is zero. Exact arithmetic."
  },
  {
   "property": "C116",
   "status": "proved",
   "theorems": [
    "PyGeode.Contours.fill_div",
    "PyGeode.Contours.fill_seq",
    "PyGeode.Contours.fill_nozero",
    "PyGeode.Contours.lines_mid",
    "PyGeode.Contours.lines_min",
    "PyGeode.Contours.lines_nozero",
    "PyGeode.Contours.nozero_mid_violated",
    "PyGeode.Contours.nozero_lines_violated"
   ],
   "note": "nozero is proved for divergent contours around zero; with another mid it is false (`nozero_mid_violated`, `nozero_lines_violated`)."
  },
  {
   "property": "C117",
   "status": "proved",
   "theorems": [
    "PyGeode.LookupAxis.lookup_correct",
    "PyGeode.LookupAxis.lookup_stable",
    "PyGeode.LookupAxis.lookup_equal",
    "PyGeode.LookupAxis.lookup_identical",
    "PyGeode.LookupAxis.settify_correct",
    "PyGeode.LookupAxis.lookup_answers",
    "PyGeode.LookupAxis.lookup_axes"
   ],
   "note": "lookup_axes is the case of axes as modelled for C65, with a hash that does not collide."
  },
  {
   "property": "C118",
   "status": "proved",
   "theorems": [
    "PyGeode.Locator.locator_correct",
    "PyGeode.Locator.locate_ends",
    "PyGeode.Locator.locate_best"
   ],
   "note": "The numbers of ticks are given; for hours, minutes and seconds they depend slightly on the multiple in use, which the proof that the search ends allows."
  },
  {
   "property": "C119",
   "status": "proved",
   "theorems": [
    "PyGeode.LogNorm.inverse_apply",
    "PyGeode.LogNorm.apply_inverse",
    "PyGeode.LogNorm.apply_mono",
    "PyGeode.LogNorm.apply_ends",
    "PyGeode.LogNorm.log2s_fills",
    "PyGeode.LogNorm.log2s_lines",
    "PyGeode.LogNorm.log2s_ticks",
    "PyGeode.LogNorm.log1s_even",
    "PyGeode.LogNorm.log2s_one_violated"
   ],
   "note": "Real arithmetic; single numbers: the inverse of arrays raises an exception (val[min], line 79), and __call__ uses np.float, which numpy 1.24 removed. With one division the scale is degenerate (log2s_one_violated)."
  },
  {
   "property": "C120",
   "status": "proved",
   "theorems": [
    "PyGeode.Layout.grid_table",
    "PyGeode.Layout.grid_works",
    "PyGeode.Layout.grid_keeps",
    "PyGeode.Layout.grid_apart"
   ],
   "note": "Exact rationals. Panels have positive sizes."
  },
  {
   "property": "C121",
   "status": "partial",
   "theorems": [
    "PyGeode.Layout.render_partial",
    "PyGeode.Layout.area_size",
    "PyGeode.Layout.area_within",
    "PyGeode.Layout.area_apart",
    "PyGeode.Layout.render_held",
    "PyGeode.Layout.render_inner_violated",
    "PyGeode.Layout.render_twice_violated",
    "PyGeode.Layout.render_moved_violated"
   ],
   "note": "Proved for the outermost wrapper of a page whose panels are each used once. False of a wrapper drawn by itself though another holds it: get_transform does not pass the root on, so what it holds is drawn where it is on the larger page (render_held). A panel used twice is drawn twice in one place."
  },
  {
   "property": "C122",
   "status": "proved",
   "theorems": [
    "PyGeode.Layout.colorbar_beside",
    "PyGeode.Layout.annotate_below"
   ],
   "note": "With the orientation that goes with the position (the default)."
  },
  {
   "property": "C123",
   "status": "partial",
   "theorems": [
    "PyGeode.Functions.func_partial",
    "PyGeode.Functions.vsum_correct",
    "PyGeode.Functions.vprod_eq",
    "PyGeode.Functions.map_correct",
    "PyGeode.Functions.chain_spec",
    "PyGeode.Functions.degrees_spec",
    "PyGeode.Functions.degrees_inverse",
    "PyGeode.Functions.clip_spec",
    "PyGeode.Functions.arctand2_violated",
    "PyGeode.Functions.map_keywords_violated",
    "PyGeode.Functions.map_array_violated"
   ],
   "note": "Proved for functions called with numbers and variables. False of arctand2, which cannot be called at all; of map with keywords (TypeError); and of map with any argument that is not a number or a variable (it returns NotImplemented)."
  },
  {
   "property": "C124",
   "status": "proved",
   "theorems": [
    "PyGeode.Spectral.harmonics_spec",
    "PyGeode.Spectral.harmonics_refused"
   ],
   "note": "Real square root."
  },
  {
   "property": "C125",
   "status": "proved",
   "theorems": [
    "PyGeode.Coefs.merge_correct",
    "PyGeode.Coefs.merge_error",
    "PyGeode.Coefs.split_correct",
    "PyGeode.Coefs.split_merge",
    "PyGeode.Coefs.fromTrend_AB"
   ],
   "note": "Axes of the coefficients may come in different orders; names and kinds of numbers are not modelled."
  },
  {
   "property": "C126",
   "status": "partial",
   "theorems": [
    "PyGeode.Svd.svd_result",
    "PyGeode.Svd.svdStep_fixed_partial",
    "PyGeode.Svd.pass_correct",
    "PyGeode.Svd.chunks_following",
    "PyGeode.Svd.dot_correct",
    "PyGeode.Svd.transform_correct",
    "PyGeode.Svd.normalize_correct",
    "PyGeode.Svd.fixcov_correct",
    "PyGeode.Svd.npEx_right",
    "PyGeode.Svd.svd_fixedEx"
   ],
   "note": "Proved in exact arithmetic for the iteration between the preparation of the data and the making of the variables, for any numpy that solves solvable systems and gives sorted eigenvectors. That the patterns are coupled is proved for patterns the iteration does not change any more (with distinct couplings); missing: that the iteration converges and that patterns that agree to 1e-5 are close to coupled ones."
  },
  {
   "property": "C127",
   "status": "proved",
   "theorems": [
    "PyGeode.EofGuess.guess_correct",
    "PyGeode.EofGuess.guess_eigen",
    "PyGeode.EofGuess.sizes_unique",
    "PyGeode.EofGuess.enough_of_small",
    "PyGeode.EofGuess.svd_correct",
    "PyGeode.EofGuess.merge_decomposes",
    "PyGeode.EofGuess.piece_decomposes",
    "PyGeode.EofGuess.mergeWhile_correct",
    "PyGeode.EofGuess.lapackEx_right"
   ],
   "note": "Exact arithmetic, for any LAPACK that gives orthonormal eigenvectors in order, up to 2^99 records. Preparation of the data and making of the variables: C100."
  },
  {
   "property": "C128",
   "status": "partial",
   "theorems": [
    "PyGeode.OpenDap.decode_sent_partial",
    "PyGeode.OpenDap.writeXdr_eq",
    "PyGeode.OpenDap.pieces_order",
    "PyGeode.OpenDap.load_sent",
    "PyGeode.OpenDap.unsigned_violated",
    "PyGeode.OpenDap.byte_violated"
   ],
   "note": "Proved for all types but uint8 and strings, and for uint32 below 2^31; for the rest the claim is false: uint32 values from 2^31 on arrive negative (unsigned_violated), bytes and texts are sent but cannot be read (byte_violated)."
  },
  {
   "property": "C129",
   "status": "proved",
   "theorems": [
    "PyGeode.OpenDap.getvalues_correct",
    "PyGeode.OpenDap.open_correct",
    "PyGeode.OpenDap.dods_load",
    "PyGeode.OpenDap.load_axis",
    "PyGeode.OpenDap.dds_read",
    "PyGeode.OpenDap.dds_all",
    "PyGeode.OpenDap.exServed_servable",
    "PyGeode.OpenDap.numbered_violated",
    "PyGeode.OpenDap.dotted_violated"
   ],
   "note": "For carried types (C128). Beyond plain names the claim is false: an axis named like an integer (numbered_violated), names with a dot (dotted_violated). HTTP and CF conversion are not modelled."
  },
  {
   "property": "C130",
   "status": "partial",
   "theorems": [
    "PyGeode.OpenDap.attributes_correct_partial",
    "PyGeode.OpenDap.unescape_escape",
    "PyGeode.OpenDap.das_tokens",
    "PyGeode.OpenDap.pyInt_fmtInt",
    "PyGeode.OpenDap.empty_violated",
    "PyGeode.OpenDap.trailing_violated",
    "PyGeode.OpenDap.newline_violated",
    "PyGeode.OpenDap.byteAtt_violated"
   ],
   "note": "Proved for texts that are not empty, do not end with a backslash and have no backslash right before a newline, tab or quote, and for numbers of all types but uint8 (at least one). For the others the claim is false: the client cannot read any attribute (empty_violated, trailing_violated, byteAtt_violated) or another text arrives (newline_violated). Texts of floats and their reading are parameters."
  },
  {
   "property": "C131",
   "status": "proved",
   "theorems": [
    "PyGeode.OpenAll.openAll_order",
    "PyGeode.OpenAll.openAll_correct",
    "PyGeode.OpenAll.openAll_one",
    "PyGeode.OpenAll.openAll_none"
   ],
   "note": "expand_file_list, the loop over the files, concat and sorted of datasets; the choice of the format's open is a parameter (C97). Hypotheses: the values of the joined axis of all files compare unequal at different positions, every later file differs from the first along the axis joined (otherwise the files are stacked along a new axis, C96 join_static)."
  },
  {
   "property": "C132",
   "status": "partial",
   "theorems": [
    "PyGeode.FormatValue.lon_correct",
    "PyGeode.FormatValue.lon_same",
    "PyGeode.FormatValue.lat_correct",
    "PyGeode.FormatValue.lat_same",
    "PyGeode.FormatValue.pres_correct",
    "PyGeode.FormatValue.other_formats_partial",
    "PyGeode.FormatValue.unitstr_violated",
    "PyGeode.FormatValue.lon_scientific_violated"
   ],
   "note": "Proved but for the units: longitudes, latitudes and pressures ignore the argument unitstr (and so the plot attribute plotunits) and always show the units of the axis (unitstr_violated); a longitude cannot be written in a scientific format with E (lon_scientific_violated). Python's % and float() are parameters."
  },
  {
   "property": "C133",
   "status": "partial",
   "theorems": [
    "PyGeode.Plot.vcontour_correct",
    "PyGeode.Plot.vcontour_refused",
    "PyGeode.Plot.vstreamplot_correct",
    "PyGeode.Plot.vquiver_correct",
    "PyGeode.Plot.vquiver_refused",
    "PyGeode.Plot.vplot_correct",
    "PyGeode.Plot.vscatter_correct",
    "PyGeode.Plot.sigmask_correct_partial",
    "PyGeode.Plot.sigmask_swapped",
    "PyGeode.Plot.title_correct",
    "PyGeode.Plot.orient_spec",
    "PyGeode.Plot.squeezed",
    "PyGeode.Plot.field_correct",
    "PyGeode.Plot.limits_spec",
    "PyGeode.Plot.sigmask_minor_violated"
   ],
   "note": "Proved but for mnsig: with a minor level below the major one, as documented, the levels given to matplotlib do not increase and it raises (sigmask_minor_violated). What matplotlib draws from coordinates and values is not modelled but for the bands between levels; histograms (vhist) are not."
  },
  {
   "property": "C134",
   "status": "partial",
   "theorems": [
    "PyGeode.Pages.savePages_correct",
    "PyGeode.Pages.savePages_right",
    "PyGeode.Pages.savePages_bottom_partial",
    "PyGeode.Pages.savePages_violated"
   ],
   "note": "Proved but for the bottom margin, which is kept if the figures come from the tallest to the lowest; otherwise a taller figure put beside a lower one runs off the page (savePages_violated). Exact arithmetic."
  },
  {
   "property": "C135",
   "status": "partial",
   "theorems": [
    "PyGeode.ShowGrid.showGrid_partial",
    "PyGeode.ShowGrid.wide_violated",
    "PyGeode.ShowGrid.lines_violated",
    "PyGeode.ShowGrid.labels_violated"
   ],
   "note": "Proved for at least one filled variable and not more columns than panels, but for the labels along x, which only the panels of the last row have. False with more columns than panels (grid raises, wide_violated), for lines only (vf[0] raises, lines_violated) and of panels above empty places of the last row (labels_violated). Maps and the colour bar are not modelled here."
  },
  {
   "property": "C136",
   "status": "partial",
   "theorems": [
    "PyGeode.Hdf4.open_partial",
    "PyGeode.Hdf4.axisFor_right",
    "PyGeode.Hdf4.isDim_iff",
    "PyGeode.Hdf4.good_ex2",
    "PyGeode.Hdf4.open_violated"
   ],
   "note": "Proved for files in which one-dimensional data sets that give no coordinates come after those that do. Otherwise false: the axes are numbered in the list of all one-dimensional data sets, so that a dimension gets the coordinates of another (open_violated). The HDF4 library, attributes and finalize_open (C97) are not modelled."
  },
  {
   "property": "C137",
   "status": "partial",
   "theorems": [
    "PyGeode.Classic.attributes_partial",
    "PyGeode.Classic.numbers_partial",
    "PyGeode.Classic.types_partial",
    "PyGeode.Classic.refused",
    "PyGeode.Classic.attributes_violated",
    "PyGeode.Classic.unsigned_violated",
    "PyGeode.Classic.rounded_violated",
    "PyGeode.Classic.null_violated"
   ],
   "note": "Proved for texts without null characters and numbers that the type of storage holds. False otherwise: an attribute of an unsupported type loses all attributes after it (return instead of continue, attributes_violated), unsigned 32-bit numbers from 2^31 become negative in version 3 (unsigned_violated), 64-bit integers beyond 2^53 are rounded (rounded_violated), texts are cut at null characters (null_violated). The C library is taken to store what it is given; texts are sequences of characters."
  },
  {
   "property": "C138",
   "status": "proved",
   "theorems": [
    "PyGeode.TimeInit.values_agree",
    "PyGeode.TimeInit.from_values",
    "PyGeode.TimeInit.from_fields",
    "PyGeode.TimeInit.values_order",
    "PyGeode.TimeInit.slice_correct",
    "PyGeode.TimeInit.days_made",
    "PyGeode.TimeInit.days_valid",
    "PyGeode.TimeInit.months_made",
    "PyGeode.TimeInit.months_valid",
    "PyGeode.TimeInit.needs_all"
   ],
   "note": "For the three calendars with years; values are exact rationals and date fields unbounded integers. Encoded dates (datefmt) are C30."
  },
  {
   "property": "C139",
   "status": "proved",
   "theorems": [
    "PyGeode.TimeInit.reltime_correct",
    "PyGeode.TimeInit.wrapdate_correct",
    "PyGeode.TimeInit.conform_correct",
    "PyGeode.TimeInit.conform_refuses"
   ],
   "note": "conform_values returns the axis with more fields first, whichever it was given first. Months that are out of range are C26."
  },
  {
   "property": "C140",
   "status": "partial",
   "theorems": [
    "PyGeode.Seasonal.from_seasons",
    "PyGeode.Seasonal.from_values_partial",
    "PyGeode.Seasonal.no_start_violated",
    "PyGeode.Seasonal.mean_partial",
    "PyGeode.Seasonal.nanmean_partial",
    "PyGeode.Seasonal.count_partial",
    "PyGeode.Seasonal.variance_partial",
    "PyGeode.Seasonal.nanvariance_partial"
   ],
   "note": "Full on the 365-day calendar for axes with a start date; on the standard calendar the last days of the seasons are missing, since the code puts them into the next season (season_standard_violated, C53). The last part fails for axes made without a start date: the seasons made from their values are all winter. The season numbers given are 1 to 4. Standard deviations are proved before the square root."
  },
  {
   "property": "C141",
   "status": "proved",
   "theorems": [
    "PyGeode.Yearless.values_agree",
    "PyGeode.Yearless.from_values",
    "PyGeode.Yearless.from_fields",
    "PyGeode.Yearless.year_refused",
    "PyGeode.Yearless.slice_correct",
    "PyGeode.Yearless.file_roundtrip",
    "PyGeode.Yearless.negative_day_violated",
    "PyGeode.Yearless.fewer_fields_violated"
   ],
   "note": "exact arithmetic; the name of the axis is not part of it (it is lost, see climatology_name_violated of C91). Outside the conditions: a start before day 0 cannot be read back (negative_day_violated), an axis with fewer fields comes back with all four (fewer_fields_violated)."
  },
  {
   "property": "C142",
   "status": "proved",
   "theorems": [
    "PyGeode.TimeLabels.labels_correct",
    "PyGeode.TimeLabels.labels_single",
    "PyGeode.TimeLabels.labels_fixed",
    "PyGeode.TimeLabels.month_labels_distinct",
    "PyGeode.TimeLabels.half_days_violated",
    "PyGeode.TimeLabels.eleven_months_violated",
    "PyGeode.TimeLabels.single_year_violated"
   ],
   "note": "Findings: ticks every twelve hours (which the locator of the axis makes for a few days) are labelled 00:00 and 12:00 again and again, so the labels do not tell the days; ticks eleven months apart can both be labelled with the same year; a single tick is labelled with its time of day even if the ticks are years."
  },
  {
   "property": "C143",
   "status": "proved",
   "theorems": [
    "PyGeode.Lookup.getaxis_correct",
    "PyGeode.Lookup.varAttr_correct",
    "PyGeode.Lookup.axisAttr_correct",
    "PyGeode.Lookup.dataAttr_correct",
    "PyGeode.Lookup.data_getaxis",
    "PyGeode.Lookup.load_correct",
    "PyGeode.Lookup.getaxis_name_violated",
    "PyGeode.Lookup.hasaxis_violated",
    "PyGeode.Lookup.axisAttr_violated"
   ],
   "note": "Findings: an axis named like a class of an earlier axis is not found by getaxis (getaxis_name_violated), though dataset[name] finds it; hasaxis raises an error for a position outside the axes; an auxiliary array can hide the axis. Attributes of the Python object itself come before these lookups and are not modelled."
  },
  {
   "property": "C144",
   "status": "proved",
   "theorems": [
    "PyGeode.FullAxes.fullView_correct",
    "PyGeode.FullAxes.fullView_last",
    "PyGeode.FullAxes.first_axis_violated",
    "PyGeode.FullAxes.first_axis_part_violated",
    "PyGeode.FullAxes.limit_violated"
   ],
   "note": "Findings: the axes are put last, but made complete at their old positions, so that an axis which is not the last one is not completed: for a request of one position the result is silently that of a part (first_axis_violated), for others an error. Axes that do not fit in memory are an error (limit_violated). Nothing in the package uses the decorator; it is there for getviews of users and plugins."
  },
  {
   "property": "C145",
   "status": "proved",
   "theorems": [
    "PyGeode.SortKeys.found_iff",
    "PyGeode.SortKeys.sorted_accepted",
    "PyGeode.SortKeys.sorted_request",
    "PyGeode.SortKeys.sortedOne_correct",
    "PyGeode.SortKeys.sortedOne_same",
    "PyGeode.SortKeys.argsortOf_correct",
    "PyGeode.SortKeys.sortedOne_axis_violated",
    "PyGeode.SortKeys.reverse_violated"
   ],
   "note": "Findings: interp.sorted(var, axis) with an axis object raises KeyError whenever something is to be sorted, as the old axis is looked up in the new variable (sortedOne_axis_violated); argsort(reverse=1) sorts upwards, only the object True counts (reverse_violated)."
  },
  {
   "property": "C146",
   "status": "proved",
   "theorems": [
    "PyGeode.LogLabels.autoscale_limits",
    "PyGeode.LogLabels.autoscale_keeps",
    "PyGeode.LogLabels.autoscale_colours",
    "PyGeode.LogLabels.lfmt_close",
    "PyGeode.LogLabels.lfmt_ticks",
    "PyGeode.LogLabels.autoscale_vin_violated",
    "PyGeode.LogLabels.lfmt_violated"
   ],
   "note": "Exact real arithmetic; labels as numbers (Python's % is not modelled), masks as values left out. Findings: if only vmin and vmax are set and all data are larger, vin is taken above vmax and the colours go backwards (autoscale_vin_violated); ticks as far apart as 150 and 250 have the same label, and 999 is written 10 times 10^2 (lfmt_violated)."
  },
  {
   "property": "C147",
   "status": "proved",
   "theorems": [
    "PyGeode.DapRoute.ask_correct",
    "PyGeode.DapRoute.ask_page",
    "PyGeode.DapRoute.openUrl_correct",
    "PyGeode.DapRoute.readUrl_correct",
    "PyGeode.DapRoute.clash_violated",
    "PyGeode.DapRoute.query_violated",
    "PyGeode.DapRoute.unknown_violated"
   ],
   "note": "On C128 and C129; the address alone gives the page if it does not itself end with an extension. Findings: a dataset named a.dds is never reached beside an earlier dataset a, which answers for it (clash_violated); arguments with a question mark and paths that only begin like a request get the page for browsers with status 200 instead of data or an error. HTTP, the page and the missing package pygeode.server are not modelled."
  },
  {
   "property": "C148",
   "status": "proved",
   "theorems": [
    "PyGeode.LibSearch.findLibrary_correct",
    "PyGeode.LibSearch.own_first",
    "PyGeode.LibSearch.absolute",
    "PyGeode.LibSearch.working_directory_violated",
    "PyGeode.LibSearch.root_violated"
   ],
   "note": "Names without wildcards; dlopen itself is not modelled. Findings: with LD_LIBRARY_PATH unset (or with an empty part) the search path has an empty directory, so a file in the working directory is found before the system's library, and dlopen gets its name without a directory (working_directory_violated); a library in the root directory is looked for in the search path (root_violated)."
  },
  {
   "property": "C149",
   "status": "proved",
   "theorems": [
    "PyGeode.Override.override_correct",
    "PyGeode.Override.override_refused",
    "PyGeode.Override.override_axis_violated"
   ],
   "note": "Types and attributes of variables are not modelled (the attributes are copied, the type is that of the values given). Finding: values given for a dimension that has no coordinate variable in the file are silently ignored (override_axis_violated), although avoiding the values of an axis is the documented use."
  }
 ]
}