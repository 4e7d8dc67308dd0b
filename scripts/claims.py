
c("C01","proved", "PyGeode.expand_slice_eq_python PyGeode.expand_slice_beyond_end_violated PyGeode.expand_list PyGeode.expand_int",
  "Proved for slices whose bounds need no clamping (NoClampNeeded); outside that window the code differs from Python (counterexample theorem).")
c("C02", "proved", "PyGeode.expand_simplify PyGeode.simplify_same_elements")
c("C03", "proved", "PyGeode.contiguate_covers PyGeode.contiguate_runs_consecutive PyGeode.contiguate_maximal")
c("C12", "proved", "PyGeode.sort_correct PyGeode.msort_stable PyGeode.sort_stable_violated", "Also shown: the recursive sort is stable, the whole sort is not (reverse-sorted shortcut).")
c("C13", "proved", "PyGeode.mapTo_sound PyGeode.mapTo_wrapper")
c("C14", "proved", "PyGeode.mapTo_complete PyGeode.mapTo_complete_violated", "Proved for source axes with distinct values; false with repeated values (counterexample).")
c("C16", "partial", "PyGeode.commonMap_sound_partial PyGeode.commonMap_integer_sound_partial PyGeode.commonMap_equal_violated",
  "The C comparison truncates the difference to int, so pairs can be unequal (counterexample); proved: truncated differences are 0, and for integer-valued axes the pairs are equal.")
K="PyGeode.Calendar."
c("C21", "proved", K+"standard_date_roundtrip "+K+"date_roundtrip "+K+"bad_start_month")
c("C22", "proved", K+"standard_offset_roundtrip "+K+"offset_roundtrip "+K+"decode_is_clock "+K+"offset_start "+K+"offset_nextSecond")
c("C23", "proved", K+"noleap_date_roundtrip "+K+"noleap_offset_roundtrip "+K+"decode_is_clock")
c("C24", "proved", K+"d360_date_roundtrip "+K+"d360_offset_roundtrip "+K+"decode_is_clock")
c("C25", "proved", K+"yearless_date_roundtrip "+K+"yearless_offset_roundtrip "+K+"yearless_bad_month")
c("C26", "proved", K+"month_wrap "+K+"month_wrap_decoded")
c("C27", "proved", K+"offset_order")
c("C28", "proved", K+"start_shift "+K+"start_shift_decode")
c("C29", "proved", K+"ndays_sum "+K+"ndays_swap")
c("C53", "partial", K+"season_noleap "+K+"season_standard_partial "+K+"season_standard_violated",
  "Proved for the 365-day calendar; on the standard calendar it is false on 29 Feb, 31 May, 31 Aug, 30 Nov (counterexample) and proved on all other dates.")
c("C58", "proved", K+"py_date_roundtrip "+K+"py_value_roundtrip "+K+"py_value_is_clock")
c("C59", "proved", K+"days_in_month_correct")
c("C60", "partial", K+"getdoy_correct_partial "+K+"getdoy_violated "+K+"getdoy_eq", "The code drops the year (year 0, a leap year): wrong after February in non-leap years of the standard calendar.")

T="PyGeode.TimeC."
c("C19", "proved", T+"get_index_correct "+T+"get_index_exact "+T+"get_indices_correct")
c("C20", "proved", T+"uniquify_correct "+T+"uniquify_unsorted_violated")
c("C61", "proved", T+"time_common_map_sound "+T+"time_common_map_complete "+T+"commonMap_fits "+T+"commonMap_repeats_violated", "With repeats on both sides pairs are missed and the buffer overflows (counterexample).")
c("C62", "proved", T+"nearest_lower_correct")
c("C63", "proved", T+"time_map_to_exact")
c("C04","proved","PyGeode.loopContiguous_piece PyGeode.loopContiguous_covers_once PyGeode.readContiguous_correct","non-empty index lists (an empty list is short-circuited by View.get)")
c("C05","proved","PyGeode.loopMem_splits PyGeode.loopMem_partition PyGeode.loopMem_order PyGeode.loopMem_trailing PyGeode.Loop.loopover_spec","no empty axis in the view (the code raises ValueError/ZeroDivisionError there) and a positive limit")
c("C06","proved","PyGeode.loopMem_size_le PyGeode.loopMem_size_le_limit","")
c("C07","proved","PyGeode.readUnique_correct PyGeode.duplicate_correct PyGeode.sources_agree","")
c("C08","proved","PyGeode.get_correct PyGeode.get_shared_axes PyGeode.get_empty_violated","non-empty requests; for empty requests the shape returned is wrong (get_empty_violated)")
c("C40","proved","PyGeode.Loop.sum_shows PyGeode.Loop.mean_shows PyGeode.Loop.min_shows PyGeode.Loop.max_shows PyGeode.Loop.mean_repeated_violated PyGeode.Reduce.sum_correct PyGeode.Reduce.mean_correct PyGeode.Reduce.mean_count_pos PyGeode.Reduce.min_correct PyGeode.Reduce.max_correct PyGeode.Reduce.sum_chunk_independent PyGeode.Reduce.mean_integer_violated","exact arithmetic, distinct reduced axes, end to end for axes of pairwise unrelated classes whose values do not compare equal at different positions, requests of one or of at least two different positions per axis (one position asked for several times gives wrong results when the request is split: mean_repeated_violated); the mean of an integer-typed variable is truncated (mean_integer_violated)")
c("C41","partial","PyGeode.Reduce.argmax_correct_partial PyGeode.Reduce.loopMem_single PyGeode.Reduce.argmaxList_spec PyGeode.Reduce.argmax_chunked_violated PyGeode.Reduce.argmin_correct_partial PyGeode.Reduce.argminList_spec PyGeode.Reduce.argmin_chunked_violated PyGeode.Reduce.argmax_fits PyGeode.Reduce.argmin_fits","violated by the code when the reduced axis is split over chunks (argmax_chunked_violated, argmin_chunked_violated); holds when it is not")
c("C42","proved","PyGeode.Loop.nansum_shows PyGeode.Loop.nanmean_shows PyGeode.Loop.nanmin_shows PyGeode.Loop.nanmax_shows PyGeode.Reduce.nansum_correct PyGeode.Reduce.nanmean_correct PyGeode.Reduce.nanmin_correct PyGeode.Reduce.nanmax_correct PyGeode.Reduce.nanvariance_correct","")
c("C43","proved","PyGeode.Weights.nanvariance_shows "+"PyGeode.Loop.variance_shows PyGeode.Reduce.variance_correct PyGeode.Reduce.variance_nonneg PyGeode.Reduce.nanvariance_correct","exact arithmetic; stdev's square root is not modelled")
c("C44","proved","PyGeode.Reduce.weightedSum_correct PyGeode.Reduce.weightedMean_correct PyGeode.Reduce.weightedMean_const PyGeode.Reduce.weightedVariance_correct PyGeode.Reduce.weightedNanMean_correct PyGeode.Reduce.weights_correct","")

P="PyGeode.PartialSum."
c("C17","proved",P+"partialSumC_correct "+P+"partialSumC_frame "+P+"partialSum_correct PyGeode.Climat.sums_correct","")
c("C18","proved",P+"partialNanSumC_correct "+P+"partialNanSum_correct PyGeode.Climat.nansums_correct","")
M="PyGeode.Climat."
c("C54","proved",M+"climMean_correct "+M+"climNanMean_correct "+M+"climCount_correct "+M+"climVariance_correct "+M+"climNanVariance_correct "+M+"outTime_correct "+M+"timesWith_ne "+M+"commonMap_nodup","exact arithmetic; requests without repeated output times; the grouping is an arbitrary list of kept date fields; the variance of a single value is NaN in the code and 0/0 = 0 in the model")
c("C64","proved",M+"climTrend_least_squares","exact arithmetic")

A="PyGeode.Axis."
c("C09","proved",A+"getSlice_correct "+A+"getSlice_perm "+A+"varSlices_correct "+A+"newArgs_distinct "+A+"newArgs_collision_violated "+A+"aux_underscore_violated","values are exact rationals after str_as_val; violated for two keywords that differ only in m/s prefixes (the first is dropped) and for auxiliary arrays with an underscore in their name")
c("C10","proved",A+"indexMask_scalar_accepted "+A+"indexMask_list_accepted "+A+"range_correct "+A+"range_swap "+A+"complement_correct "+A+"complement_succeeds","")
c("C11","proved",A+"nearest_correct","")
c("C15","proved",A+"slicedVar_read "+A+"axisMapTo_slice PyGeode.mapTo_of_slice "+A+"axisMapTo_slice_violated "+A+"slicedVar_read_violated","for distinct values that compare equal the code reads the wrong positions (slicedVar_read_violated)")
c("C65","proved",A+"axEq_sound "+A+"axEq_name "+A+"isEquivalent_refl "+A+"axEq_symm_violated "+A+"axEq_trans_violated","")
K="PyGeode.Combine."
c("C33","proved",K+"commonDict_correct "+K+"commonDict_general "+K+"commonDict_perm "+K+"combineName_correct "+K+"combineName_differ","value comparison is an arbitrary `!=` in commonDict_general (NaN attributes are dropped)")
c("C34","proved",K+"ufunc_correct "+K+"ufunc_comm "+K+"combineAxes_clean "+K+"ufunc_subset "+K+"combineAxes_slice "+K+"combineAxes_partial_overlap_error "+K+"combineAxes_pair","operands whose axes are pairwise identical or of unrelated classes (any number of operands, any axis orders), and a variable with a variable on any slice of its grid; the operation is an arbitrary function; dtype promotion is not modelled")
c("C35","proved",K+"whichaxis_correct "+K+"whichaxis_int "+K+"whichaxis_int_violated","integers outside the range raise TypeError instead of KeyError")

V="PyGeode.VarOps."
c("C36","proved",V+"transpose_correct "+V+"transpose_twice "+V+"transposeOrder_spec "+V+"sameData_unique "+V+"transpose_repeated_violated","axes of pairwise unrelated classes; a request that names an axis twice gives that axis twice")
c("C37","proved",V+"squeeze_correct "+V+"extend_correct "+V+"squeeze_extend","axes of pairwise unrelated classes")
c("C39","proved",V+"fill_correct "+V+"unfill_correct "+V+"unfill_fill","exact values; NaN is a separate value; dtype conversion to float32 for integer data is not modelled")
c("C66","proved",A+"sliceAxis_aux "+A+"sliceAxis_aux_violated "+V+"sorted_correct "+V+"argsort_spec "+V+"replaceAxes_correct "+V+"replaceAxes_refused "+V+"rename_correct "+V+"slice_correct "+V+"slice_slice "+V+"slice_transpose "+V+"ellipsisSlices_spec "+V+"ellipsisSlices_none "+V+"ellipsisSlices_refused","slicing and sorting need axis values that do not compare equal at different positions (see C15)")

N="PyGeode.Concat."
c("C38","proved",N+"concat_correct "+N+"concatAxis_aux "+N+"stack_correct "+N+"findAxis_axis "+N+"findAxis_newAxis "+N+"findAxis_error "+N+"pieceEx_joinable","axes of one class along the joined axis, whose joined values do not compare equal at different positions; axes of pairwise unrelated classes")

D="PyGeode.Dataset."
c("C31","partial",D+"names_unique_partial "+D+"names_unique_violated "+D+"uniqueNames_ne "+D+"uniqueNames_kept "+D+"vardict_lookup","for names shared by at most 99 variables; false beyond that (counterexample: 101 variables `a` and two `a1` give two variables `a101`, one of which cannot be looked up)")
c("C32","partial",D+"axes_unique_partial "+D+"axes_unique_violated "+D+"newAxis_equal "+D+"newAxis_name_kept "+D+"withAxes_correct","for names shared by at most 99 different axes; false beyond that (counterexample)")
c("C67","proved",D+"segments_correct","")

L="PyGeode.Along."
c("C45","proved",L+"diff_correct "+L+"diff_one "+L+"diff_refused "+L+"diff_zero_violated","n ≥ 1; axes of pairwise unrelated classes; exact arithmetic. diff(n=0) gives an empty axis (diff_zero_violated)")
c("C46","proved",L+"stencil_in_bounds "+L+"deriv_correct "+L+"deriv_linear "+L+"stencil2_in_bounds "+L+"deriv2_correct "+L+"deriv2_quadratic "+L+"stencil3_two_points_violated "+L+"deriv_integer_violated","exact arithmetic; the second derivative needs three points (the code accepts two and reads outside the axis: stencil3_two_points_violated); integer variables are truncated (deriv_integer_violated)")
c("C47","proved",L+"integrate_correct "+L+"integrate_refuses "+L+"integral_start "+L+"integral_step "+L+"diff_integrate "+L+"cumsum_first_value_violated","exact arithmetic; cumsum leaves out the first value (cumsum_first_value_violated)")

S="PyGeode.Smooth."
c("C57","proved",S+"smooth_shows "+S+"smooth_short "+S+"smooth_long "+S+"smoothed_constant "+S+"smoothed_between "+S+"reflect_inside "+S+"smooth_repeated_violated","exact arithmetic, floating variable (an integer variable is truncated); requests that ask for one position several times may raise (smooth_repeated_violated); scipy's convolve in mode 'same' is taken as the middle part of the full convolution")
G="PyGeode.Lag."
c("C55","proved",G+"lag_correct "+G+"lag_refused","floating variable; lists of slices are taken as tuples (numpy >= 1.23 refuses them); the date fields of the lag axis are not modelled")
R="PyGeode.Rotate."
c("C48","proved",R+"rotateValues_spec "+R+"rotatelon_correct "+R+"rotatelon_without "+R+"duplicate_violated","exact arithmetic; longitudes that coincide after the rotation are excluded; with duplicate=True the added end point repeats the value at longitude 0 instead of the origin (duplicate_violated)")
P="PyGeode.Progress."
c("C49","proved",P+"scale_range "+P+"run_range "+P+"runAll_range "+P+"scale_ends "+P+"parts_tile "+P+"reports_in_order "+P+"finish_only_at_end","exact arithmetic; what is shown on the terminal is left to the progressbar package")
F="PyGeode.Cf."
c("C50","proved",F+"fixName_none "+F+"fixName_valid "+F+"fixName_id "+F+"fixName_idem "+F+"fixName_keeps "+F+"fixName_collision","ASCII classes; two names may become one (fixName_collision)")
c("C51","proved",F+"units_roundtrip "+F+"calendar_roundtrip "+F+"time_roundtrip "+F+"climatology_roundtrip "+F+"negative_year_violated "+F+"month_climatology_violated","exact arithmetic; dates with year >= 0 as start; negative years cannot be read back (negative_year_violated); climatologies with fewer fields come back with more (month_climatology_violated); yearless axes are in C141")
c("C52","partial",F+"unpack_correct "+F+"pickFill_first_partial "+F+"pickFill_zero_violated","exact arithmetic; a fill value 0 is ignored by the code (pickFill_zero_violated), all others are covered")
c("C68","proved",F+"aux_roundtrip "+F+"aux_blank_violated "+F+"class_roundtrip "+F+"plain_roundtrip "+F+"class_violated","height axes become plain z axes, and an axis whose name suggests another kind changes kind (class_violated)")
c("C30","proved",F+"compact_hours "+F+"compact_days "+F+"compact_refused","")

M="PyGeode.Multifile."
c("C56","proved",M+"multifile_sound "+M+"multifile_complete "+M+"multifile_missing "+M+"fileIndex_home "+M+"overlap_violated","files that hold only times from their start up to the start of the next (what check_multi verifies), requests without repeated dates; with overlapping files the result depends on the order of the request (overlap_violated). The axes other than time are one opaque value per time")

I="PyGeode.Interp."
c("C69","proved",I+"interp_rows "+I+"interp_skip "+I+"interp_refuses "+I+"interp_mixed_violated","exact arithmetic; the GSL method is a parameter that passes through its points; the two neighbouring coordinates that give the direction must be finite; rows going different ways are refused (interp_mixed_violated)")
c("C70","proved",I+"linear_through "+I+"linear_between "+I+"linear_exact","exact arithmetic; linear interpolation as documented by GSL")
c("C71","partial",I+"interp_correct_partial "+I+"interpolate_in_place "+I+"interpolate_transpose_violated","the data are as claimed; the transpose flag works the wrong way round (interpolate_transpose_violated): with True the new axis is last, with False it takes the place of the old one")

T="PyGeode.Stats."
c("C72","proved",T+"regress_correct "+T+"regressCell_fits "+T+"split_spec "+T+"split_refuses "+T+"dev2_pos_iff","exact arithmetic; any two axes are the same or unrelated, none is empty; p-values (Student's t) are not modelled; standard errors before the square root")
c("C73","proved",T+"correlate_correct "+T+"pearson_abs_le "+T+"pearson_abs_eq_one","exact arithmetic with a real square root; p-values are not modelled")
c("C74","partial",T+"difference_correct_partial "+T+"differenceCell_few_violated "+T+"difference_default_violated "+T+"difference_order_violated","proved for variables with the axes left in the same order and cells with at least two valid values on both sides; otherwise the code reports the difference of the sums (differenceCell_few_violated), mixes up positions (difference_order_violated), and leaving axes out raises (difference_default_violated); p and ci (Student's t) are not modelled")
c("C75","partial",T+"paired_correct_partial "+T+"paired_error_violated "+T+"difference_default_violated","the code divides the sample variance by N - 1 (paired_error_violated) and reports p = 0 with fewer than two pairs (se2 none in the model)")
c("C76","partial",T+"isnonzero_correct_partial "+T+"isnonzeroCell_empty_violated","proved where there are valid values; without any the code reports mean 0 and p = 0 (isnonzeroCell_empty_violated)")

O="PyGeode.Domains."
c("C77","proved",O+"getDomains_correct "+O+"getDomains_ends "+O+"getDomains_antichain "+O+"getDomains_order_violated","coordinates are elements of an arbitrary type with equality; the axis objects made from the sets of coordinates are not modelled; when two files order the same axes differently the datasets may all be removed (getDomains_order_violated)")
Z="PyGeode.Manifest."
c("C78","partial",Z+"manifest_current_partial "+Z+"getTable_current "+Z+"order_violated "+Z+"sublist_violated "+Z+"same_second_violated "+Z+"write_during_run_violated "+Z+"older_violated "+Z+"killed_before_time_violated "+Z+"norm_violated","proved for all histories, with crashes at any point, in which every run lists the changed files in the order of their changes after files of earlier seconds, files are written between runs, in another second than the last run, and keep the time of writing; each of these conditions is needed (the _violated theorems), and file names must be as normpath writes them (norm_violated)")
c("C79","partial",Z+"restart_partial "+Z+"torn_violated","proved for all crash points but those between opening and writing the manifest; after such a crash no run can ever start (torn_violated)")
Y="PyGeode.Scan."
c("C80","partial",Y+"getview_correct_partial "+Y+"searchsorted_place "+Y+"getview_down_violated "+Y+"getview_irregular_violated","proved for requests whose axes do not start downwards and pieces with the axes in the order of the variable; on an axis that goes downwards all values are NaN (getview_down_violated), and a request with irregular matches on two axes raises (getview_irregular_violated)")
W="PyGeode.NetCdf."
c("C81","partial",W+"save_open_partial "+W+"save_name_clash "+W+"writeVar_correct "+W+"tidyAxes_correct "+W+"fileEx_saveable "+W+"save_open_case_violated "+W+"save_open_case_fails "+W+"save_open_alias_violated "+W+"save_empty_violated "+W+"save_unencoded_violated","proved for datasets as encode_cf makes them (axes known by name), with axis names that differ in more than case, are no class names, and no empty axis; each of these is needed (the _violated theorems). Attributes and CF encoding are C50-C52 and C68")
Q="PyGeode.Pack."
c("C82","partial",Q+"pack_unpack_partial "+Q+"pack_ex "+Q+"pack_nan_number "+Q+"pack_nan_violated "+Q+"pack_fill_violated","proved for numbers (error, ends, order, range, constant variables); missing values are lost: NaN always comes back as a number (pack_nan_number, pack_nan_violated), and a fill value left among the attributes may hit a packed number (pack_fill_violated)")
X="PyGeode.Station."
c("C83","partial",X+"station_roundtrip_partial "+X+"strings_roundtrip "+X+"stationEx_ok "+X+"strings_nul_violated "+X+"station_substring_violated "+X+"station_two_violated "+X+"station_clash_violated","proved for one such axis, names that are single words and not parts of the text 'lat lon', texts not all empty and without NUL, and no clash with variables; each is needed (the _violated theorems): an array named lo beside lon is lost, and of two such axes of one variable only the last keeps its arrays")
c("C84","partial",X+"eq_iff "+X+"mapTo_correct_partial "+X+"strAsVal_correct "+X+"eq_nan_violated","all axes for equality and names, axes without NaN for mapping; with NaN among its auxiliary values an axis is not equal to itself (eq_nan_violated)")
U="PyGeode.LeapDays."
c("C85","proved",U+"removeleapyears_correct "+U+"removeleapyears_default "+U+"leapEx_ok "+U+"unordered_violated "+U+"duplicate_violated","the order of years and the difference of the days are needed (unordered_violated, duplicate_violated)")
E_="PyGeode.Ensemble."
c("C86","proved",E_+"ensembleVar_correct "+E_+"ensemble_correct "+E_+"ensemble_refused "+E_+"ensemble_axes_refused "+E_+"runEx_ok","")
H_="PyGeode.DateText."
c("C87","proved",H_+"strAsDate_iff "+H_+"format_parse "+H_+"format_select "+H_+"dayOfYear_value "+H_+"second_space_violated "+H_+"format_default_violated "+H_+"full_month_violated "+H_+"early_year_violated "+H_+"iso_month_violated "+H_+"smarch_violated","the accepted texts and their fields are characterised completely, but the form documented with seconds, '06:00:00 1 Jan 1979', is refused, and dates in the default format cannot be read back")
J_="PyGeode.TimeRange."
c("C88","proved",J_+"timeRange_correct "+J_+"timeRange_dates "+J_+"timeRange_inc "+J_+"timeN_correct "+J_+"timeRange_inc_violated","exact arithmetic; with inc=True and an end that is not a whole number of steps after the start the axis goes beyond the end (timeRange_inc_violated)")
TK_="PyGeode.Ticks."
c("C89","proved",TK_+"ticks_correct "+TK_+"nticks_correct "+TK_+"month_ticks_violated "+TK_+"nticks_violated","for multiples that divide the next larger unit (days: 1); with other multiples the ticks depend on vmin and can go beyond vmax (month_ticks_violated), and nticks of hours, minutes, seconds ignores the multiple asked for where it looks for the first tick (nticks_violated). Seasons and plain days are not modelled; exact arithmetic")
c("C90","proved",TK_+"bestMult_correct "+TK_+"bestMult_ends","")
B_ = "PyGeode.CfFile."
c("C91","partial",B_+"save_open_cf_partial "+B_+"weights_violated "+B_+"named_aux_violated "+B_+"units_violated "+B_+"dimension_name_violated "+B_+"climatology_name_violated","Proved for datasets without station axes, yearless times (C141), packed data or attributes on variables. Missing because false: a variable named like an auxiliary array of any axis (`weights` for every latitude axis) is dropped when the file is opened, auxiliary arrays of a named axis are lost, units or names can change the kind of an axis, the time axis of a climatology comes back as `time` whatever its name was (climatology_name_violated).")
CO_ = "PyGeode.Composite."
FL_ = "PyGeode.Flatten."
c("C92","partial",CO_+"composite_correct_partial "+CO_+"composite_uniform "+CO_+"composite_overrun "+CO_+"composite_raises "+CO_+"composite_events "+CO_+"composite_coords","Proved for events that do not begin before the axis, or end on it and no earlier than any other. Missing because false: other events that begin before the axis show values past their end (composite_overrun) or raise (composite_raises).")
c("C93","proved",FL_+"flatten_correct "+FL_+"flatten_scrambled "+FL_+"flatValues_getD","Proved for requests of consecutive positions along the flattened axis (any along the others). Requests with gaps that are out of order are silently scrambled (flatten_scrambled).")
WT_ = "PyGeode.Weights."
c("C94","partial",WT_+"sum_shows_partial "+WT_+"mean_shows_partial "+WT_+"variance_shows_partial "+WT_+"nansum_shows_partial "+WT_+"nanmean_shows_partial "+WT_+"rejects "+WT_+"scalar_weight_violated","Proved for axes of unrelated classes, requests with one or at least two different positions along each axis, and weights with at least one axis. Missing because false: a variable without axes given as weights is ignored, also in sums (scalar_weight_violated).")
CA_="PyGeode.Call."
c("C95","partial",CA_+"call_correct_partial "+CA_+"call_defined "+CA_+"order_violated","Missing: keywords that become equal when the letters m and s are removed (newArgs_collision_violated, C09), two keywords that both average over one axis, axes of related kinds or with common aliases, values of an axis closer than the comparison tolerance; requests that repeat one single position of the result. Violated: whether an axis may be squeezed by one keyword and averaged by another depends on the order of the keywords.")
DO_="PyGeode.DatasetOps."
c("C96","partial"," ".join(DO_+x for x in "make_id make_correct_partial getitem_correct remove_correct rename_correct replace_correct map_correct add_correct add_remove asDataset_correct add_clash call_correct_partial joinVars_correct join_static concat_correct_partial concat_mixed_partial add_atts_violated".split()),"Missing: names shared by 100 or more variables or axes (C31, C32); calls with keywords that two axes of the dataset accept, or that are themselves names of axes with an underscore. concat_mixed_partial: joining datasets whose variables differ (missing there: axes whose name 100 different axes share). join_static: a variable that is the same in all datasets gets a new axis when they are joined. add_atts_violated: add keeps the attributes of the first dataset, the common ones are computed and dropped.")
OO_="PyGeode.OpenOptions."
c("C97","partial"," ".join(OO_+x for x in "finalizeOpen_correct_partial nameChanged_kept setAxisTypes_refused autodetect_correct finalizeSave_correct namemap_case_violated dimtypes_alias_violated dimtypes_namemap_violated pack_text_violated".split()),"Proved for names that no axis answers to unless it is its name: an axis also answers to the names of its classes, and in any case, so that namemap and dimtypes may reach other axes (violated theorems). After a class with arguments or an axis in dimtypes, namemap no longer finds the axis by its name in the file, and a text given to pack is searched for the names (violated theorems).")
OM_="PyGeode.OpenMulti."
c("C98","partial",f"{OM_}open_multi_partial {OM_}check_multi_correct {OM_}misaligned_violated","Proved for one variable with a time axis, dates with all six fields and exact arithmetic; missing: variables without a time axis, several time axes in one file, files that cannot be opened (see C56), the data comparison of check_multi, floating point rounding of dt. The guard against misaligned files never refuses steps of five units or more (misaligned_violated).")
GI_="PyGeode.GetItem."
c("C99","partial"," ".join(GI_+x for x in "getItem_correct_partial asVar_correct getItem_refused getItem_toomany get_correct load_correct npInt_violated list_violated duplicate_violated".split()),"Proved for axes of unrelated classes with separated values and selections that are not empty. Missing because false (violated theorems): an integer taken from an array keeps its axis, a list as the whole key is taken as one index per axis, and axes with equal values.")
EO_="PyGeode.Eof."
c("C100","partial"," ".join(EO_+x for x in "eofSvd_correct_partial eofCov_correct_partial eofCov_large eof_small eof_narrow eofs_unique eofs_residual eofs_rebuild answer_names answer_text answer_default decompositions fieldEx_input methods_differ record_axis_violated long_names_violated weight_none_violated record_name_violated".split())+" PyGeode.Svd.eofIter_result PyGeode.Svd.eofStep_fixed PyGeode.Svd.npEx_right","Proved in exact arithmetic for record axes that come first, positive weights on axes of the patterns, and any decompositions with the properties numpy documents (they exist: decompositions). Of the iterative method (EOF of large data): what it returns if it returns, and that patterns it does not change any more are eigenvectors. Missing: that it converges (the one-pass estimate EOF_guess: C127). Missing because false: eigenvalues and the size of principal components depend on the method, which depends on the size of the data (methods_differ); a record axis, also the default time axis, that is not the first mixes records and places (record_axis_violated); weight=None, a record axis given by name or as an axis, and the long keywords for outputs fail (the other violated theorems).")
GB_="PyGeode.Grib."
c("C101","partial"," ".join(GB_+x for x in "readAt_correct_partial unpack_correct readHead_found readHead_none negative_scale_violated constant_field_violated wide_field_violated".split()),"Proved for the C functions, in exact arithmetic, for records without a bitmap and with a product section of 28 bytes. Missing because false (violated theorems): negative decimal scales, constant fields (0 bits), 27 and 29 to 31 bits. Through Python nothing can be read at all: every wrapper makes a new capsule out of the capsule it is given (grib.c:1020) where it means to open it.")
c("C102","partial"," ".join(GB_+x for x in "index_correct_partial index_round gds_round recordsEx_ok missing_record_violated forecast_violated average_violated odd_coords_violated".split()),"Proved for files below 2^63 bytes with fewer than 256 variables and 256 times and levels for each, and averages of fewer than 256 values. Missing because false: a time and level without a record shows the first record of the file or what is at a random place (missing_record_violated), times of forecasts that start together (forecast_violated), averages of 256 or more values (average_violated), an odd number of vertical parameters (odd_coords_violated).")
c("C103","partial"," ".join(GB_+x for x in "openVar_correct_partial isSurface_iff readDataLoop_correct recordsEx_complete level_violated lon_violated".split()),"Proved for complete variables with levels below 256 and at least two points along each axis; the time axis and the Gaussian latitudes are given, names and attributes are not modelled. Missing because false: of a level only the low byte is used (level_violated: 1000, 850, 500 hPa become 232, 82, 244), grids that cross Greenwich run backwards (lon_violated). The wrappers of the C functions are taken to work (see C101).")
MR_="PyGeode.MultiRegress."
c("C104","partial"," ".join(MR_+x for x in "multipleRegress_correct_partial multipleRegress_refuses output_B_violated output_sb_violated missing_axis_violated invEx_spec".split()),"Proved in exact arithmetic for regressors that all have the axes regressed over, and 'p' and 'sb' with at most one axis left; square roots and Student's distribution are not modelled, NaNs are excluded. Missing because false: the violated theorems.")
FS_="PyGeode.FftSmooth."
c("C105","partial"," ".join(FS_+x for x in "fftSmooth_correct fftSmooth_refused fftSmoothC_correct_partial lowHarmonics_unique lowHarmonics_nearest lowHarmonics_keep lowHarmonics_stop lowHarmonics_twice lowHarmonics_mean lowHarmonics_all lowHarmonics_add complex_one_violated complex_one_not_low negative_violated".split()),"Proved in exact real and complex arithmetic, the transforms of numpy.fft described by their defining sums. Missing because false: complex variables with maxharm 0 or 1 (complex_one_violated); on numpy 1.23 and later every complex variable is refused, because the coefficients are indexed with a list of slices.")
CV_="PyGeode.ClimVar."
c("C106","proved"," ".join(CV_+x for x in "mean_correct nanmean_correct count_correct variance_correct nanvariance_correct remake_correct repeated_time_violated".split()),"Proved in exact arithmetic, the standard deviation before its square root; integer data are excluded (`sum /= count` fails on them), seasonal means are C53. Missing because false: a request that names a time of the result twice (repeated_time_violated).")
c("C107","proved"," ".join(CV_+x for x in "climtrend_correct remake_correct".split()),"Proved in exact arithmetic; the seconds are a parameter (relative times are C58 to C63). Missing because false: requests that name a time of the result twice, as in C106.")
TM_="PyGeode.TimeMatch."
c("C108","proved"," ".join(TM_+x for x in "op_dates op_dates_memory anomaly_correct anomaly_dates same_date_violated".split()),"Proved in exact arithmetic; with both variables in memory (or in a file) for all requests. Missing because false (`same_date_violated`): requests for several times that all fall on the same date, if the second variable is an average computed when it is read.")
c("C109","proved"," ".join(TM_+x for x in "detrend_correct fromTrend_correct".split()),"Proved in exact arithmetic; the seconds are a parameter (relative times are C58 to C63), and coefficients with a constant year field (read back from a file) are not modelled.")
FF_="PyGeode.FromFiles."
c("C110","proved"," ".join(FF_+x for x in "from_files_correct name_violated origin_violated order_violated".split()),"Proved for every consistent collection; the order of the returned datasets is Python's set order, here any. Missing because false: two axes of one class with equal values (`name_violated`), times with different reference dates (`origin_violated`), common axes in different orders (`order_violated`), decreasing axes (C80). Reading can also stop with an assertion when the parts have irregular gaps on two axes (C80). Auxiliary arrays and attributes are not modelled.")
FB_="PyGeode.FindBest."
c("C111","proved"," ".join(FB_+x for x in "find_correct find_best_correct minimize_ignored".split()),"Proved for all datasets, requirements and scores. The scores are functions of the list of variables found, not of the dataset as documented (see findings).")
ST_="PyGeode.SplitTime."
c("C112","proved"," ".join(ST_+x for x in "split_correct split_keeps fromFields_rejoins".split()),"Proved for every time axis with years and at least one other field, and all its dates; seasonal axes are not modelled, integer data fail (no NaN). Indexing with a list of slices (line 471) needs numpy below 1.23.")
c("C113","proved"," ".join(ST_+x for x in "join_correct fromFields_joins".split()),"Proved for a day axis right after the year axis, years that are whole numbers in increasing order and combinations that are all valid dates. Missing because false: a day axis further on (line 544 joins the axes between as well), see findings. Indexing with a list of slices (line 555) needs numpy below 1.23.")
XA_="PyGeode.XArray."
c("C114","proved"," ".join(XA_+x for x in "toXarray_correct stored_array fromXarray_correct xarray_round_trip toXarray_getvalues_violated".split()),"Proved for the values; dask arrays are described, not modelled, and metadata (CF encoding, xarray's coding of dates) are left out. Missing because false: variables read with getvalues raise an exception (`toXarray_getvalues_violated`).")
CT_="PyGeode.Contours."
c("C115","partial"," ".join(CT_+x for x in "guess_style contours_div contours_seq_partial contours_seq_violated".split()),"Everything is proved but that sequential contours reach the highest value, which is false: values from 5 to 35 get contours from 0 to 30 (`contours_seq_violated`), as the lowest contour is rounded down and the number of intervals is not raised. They do reach it if the lowest value is zero. Exact arithmetic.")
c("C116","proved"," ".join(CT_+x for x in "fill_div fill_seq fill_nozero lines_mid lines_min lines_nozero nozero_mid_violated nozero_lines_violated".split()),"nozero is proved for divergent contours around zero; with another mid it is false (`nozero_mid_violated`, `nozero_lines_violated`).")
LA_="PyGeode.LookupAxis."
c("C117","proved"," ".join(LA_+x for x in "lookup_correct lookup_stable lookup_equal lookup_identical settify_correct lookup_answers lookup_axes".split()),"lookup_axes is the case of axes as modelled for C65, with a hash that does not collide.")
LO_="PyGeode.Locator."
c("C118","proved"," ".join(LO_+x for x in "locator_correct locate_ends locate_best".split()),"The numbers of ticks are given; for hours, minutes and seconds they depend slightly on the multiple in use, which the proof that the search ends allows.")
LN_="PyGeode.LogNorm."
c("C119","proved"," ".join(LN_+x for x in "inverse_apply apply_inverse apply_mono apply_ends log2s_fills log2s_lines log2s_ticks log1s_even log2s_one_violated".split()),"Real arithmetic; single numbers: the inverse of arrays raises an exception (val[min], line 79), and __call__ uses np.float, which numpy 1.24 removed. With one division the scale is degenerate (log2s_one_violated).")
LY_="PyGeode.Layout."
c("C120","proved"," ".join(LY_+x for x in "grid_table grid_works grid_keeps grid_apart".split()),"Exact rationals. Panels have positive sizes.")
c("C121","partial"," ".join(LY_+x for x in "render_partial area_size area_within area_apart render_held render_inner_violated render_twice_violated render_moved_violated".split()),"Proved for the outermost wrapper of a page whose panels are each used once. False of a wrapper drawn by itself though another holds it: get_transform does not pass the root on, so what it holds is drawn where it is on the larger page (render_held). A panel used twice is drawn twice in one place.")
c("C122","proved"," ".join(LY_+x for x in "colorbar_beside annotate_below".split()),"With the orientation that goes with the position (the default).")
FN_="PyGeode.Functions."
c("C123","partial"," ".join(FN_+x for x in "func_partial vsum_correct vprod_eq map_correct chain_spec degrees_spec degrees_inverse clip_spec arctand2_violated map_keywords_violated map_array_violated".split()),"Proved for functions called with numbers and variables. False of arctand2, which cannot be called at all; of map with keywords (TypeError); and of map with any argument that is not a number or a variable (it returns NotImplemented).")
SP_="PyGeode.Spectral."
c("C124","proved"," ".join(SP_+x for x in "harmonics_spec harmonics_refused".split()),"Real square root.")
CO_="PyGeode.Coefs."
c("C125","proved"," ".join(CO_+x for x in "merge_correct merge_error split_correct split_merge fromTrend_AB".split()),"Axes of the coefficients may come in different orders; names and kinds of numbers are not modelled.")
SV_="PyGeode.Svd."
c("C126","partial"," ".join(SV_+x for x in "svd_result svdStep_fixed_partial pass_correct chunks_following dot_correct transform_correct normalize_correct fixcov_correct npEx_right svd_fixedEx".split()),"Proved in exact arithmetic for the iteration between the preparation of the data and the making of the variables, for any numpy that solves solvable systems and gives sorted eigenvectors. That the patterns are coupled is proved for patterns the iteration does not change any more (with distinct couplings); missing: that the iteration converges and that patterns that agree to 1e-5 are close to coupled ones.")
EG_="PyGeode.EofGuess."
c("C127","proved"," ".join(EG_+x for x in "guess_correct guess_eigen sizes_unique enough_of_small svd_correct merge_decomposes piece_decomposes mergeWhile_correct lapackEx_right".split()),"Exact arithmetic, for any LAPACK that gives orthonormal eigenvectors in order, up to 2^99 records. Preparation of the data and making of the variables: C100.")
OD_="PyGeode.OpenDap."
c("C128","partial"," ".join(OD_+x for x in "decode_sent_partial writeXdr_eq pieces_order load_sent unsigned_violated byte_violated".split()),"Proved for all types but uint8 and strings, and for uint32 below 2^31; for the rest the claim is false: uint32 values from 2^31 on arrive negative (unsigned_violated), bytes and texts are sent but cannot be read (byte_violated).")
c("C129","proved"," ".join(OD_+x for x in "getvalues_correct open_correct dods_load load_axis dds_read dds_all exServed_servable numbered_violated dotted_violated".split()),"For carried types (C128). Beyond plain names the claim is false: an axis named like an integer (numbered_violated), names with a dot (dotted_violated). HTTP and CF conversion are not modelled.")
c("C130","partial"," ".join(OD_+x for x in "attributes_correct_partial unescape_escape das_tokens pyInt_fmtInt empty_violated trailing_violated newline_violated byteAtt_violated".split()),"Proved for texts that are not empty, do not end with a backslash and have no backslash right before a newline, tab or quote, and for numbers of all types but uint8 (at least one). For the others the claim is false: the client cannot read any attribute (empty_violated, trailing_violated, byteAtt_violated) or another text arrives (newline_violated). Texts of floats and their reading are parameters.")
OA_="PyGeode.OpenAll."
c("C131","proved",f"{OA_}openAll_order {OA_}openAll_correct {OA_}openAll_one {OA_}openAll_none","expand_file_list, the loop over the files, concat and sorted of datasets; the choice of the format's open is a parameter (C97). Hypotheses: the values of the joined axis of all files compare unequal at different positions, every later file differs from the first along the axis joined (otherwise the files are stacked along a new axis, C96 join_static).")
FV_="PyGeode.FormatValue."
c("C132","partial",f"{FV_}lon_correct {FV_}lon_same {FV_}lat_correct {FV_}lat_same {FV_}pres_correct {FV_}other_formats_partial {FV_}unitstr_violated {FV_}lon_scientific_violated","Proved but for the units: longitudes, latitudes and pressures ignore the argument unitstr (and so the plot attribute plotunits) and always show the units of the axis (unitstr_violated); a longitude cannot be written in a scientific format with E (lon_scientific_violated). Python's % and float() are parameters.")
PL_="PyGeode.Plot."
c("C133","partial"," ".join(PL_+x for x in "vcontour_correct vcontour_refused vstreamplot_correct vquiver_correct vquiver_refused vplot_correct vscatter_correct sigmask_correct_partial sigmask_swapped title_correct orient_spec squeezed field_correct limits_spec sigmask_minor_violated".split()),"Proved but for mnsig: with a minor level below the major one, as documented, the levels given to matplotlib do not increase and it raises (sigmask_minor_violated). What matplotlib draws from coordinates and values is not modelled but for the bands between levels; histograms (vhist) are not.")
PG_="PyGeode.Pages."
c("C134","partial",f"{PG_}savePages_correct {PG_}savePages_right {PG_}savePages_bottom_partial {PG_}savePages_violated","Proved but for the bottom margin, which is kept if the figures come from the tallest to the lowest; otherwise a taller figure put beside a lower one runs off the page (savePages_violated). Exact arithmetic.")
SG_="PyGeode.ShowGrid."
c("C135","partial",f"{SG_}showGrid_partial {SG_}wide_violated {SG_}lines_violated {SG_}labels_violated","Proved for at least one filled variable and not more columns than panels, but for the labels along x, which only the panels of the last row have. False with more columns than panels (grid raises, wide_violated), for lines only (vf[0] raises, lines_violated) and of panels above empty places of the last row (labels_violated). Maps and the colour bar are not modelled here.")
H4_="PyGeode.Hdf4."
c("C136","partial",f"{H4_}open_partial {H4_}axisFor_right {H4_}isDim_iff {H4_}good_ex2 {H4_}open_violated","Proved for files in which one-dimensional data sets that give no coordinates come after those that do. Otherwise false: the axes are numbered in the list of all one-dimensional data sets, so that a dimension gets the coordinates of another (open_violated). The HDF4 library, attributes and finalize_open (C97) are not modelled.")
CL_="PyGeode.Classic."
c("C137","partial",f"{CL_}attributes_partial {CL_}numbers_partial {CL_}types_partial {CL_}refused {CL_}attributes_violated {CL_}unsigned_violated {CL_}rounded_violated {CL_}null_violated","Proved for texts without null characters and numbers that the type of storage holds. False otherwise: an attribute of an unsupported type loses all attributes after it (return instead of continue, attributes_violated), unsigned 32-bit numbers from 2^31 become negative in version 3 (unsigned_violated), 64-bit integers beyond 2^53 are rounded (rounded_violated), texts are cut at null characters (null_violated). The C library is taken to store what it is given; texts are sequences of characters.")
TI_="PyGeode.TimeInit."
c("C138","proved",f"{TI_}values_agree {TI_}from_values {TI_}from_fields {TI_}values_order {TI_}slice_correct {TI_}days_made {TI_}days_valid {TI_}months_made {TI_}months_valid {TI_}needs_all","For the three calendars with years; values are exact rationals and date fields unbounded integers. Encoded dates (datefmt) are C30.")
c("C139","proved",f"{TI_}reltime_correct {TI_}wrapdate_correct {TI_}conform_correct {TI_}conform_refuses","conform_values returns the axis with more fields first, whichever it was given first. Months that are out of range are C26.")
SE_="PyGeode.Seasonal."
c("C140","partial",f"{SE_}from_seasons {SE_}from_values_partial {SE_}no_start_violated {SE_}mean_partial {SE_}nanmean_partial {SE_}count_partial {SE_}variance_partial {SE_}nanvariance_partial","Full on the 365-day calendar for axes with a start date; on the standard calendar the last days of the seasons are missing, since the code puts them into the next season (season_standard_violated, C53). The last part fails for axes made without a start date: the seasons made from their values are all winter. The season numbers given are 1 to 4. Standard deviations are proved before the square root.")
Y_="PyGeode.Yearless."
c("C141","proved",Y_+"values_agree "+Y_+"from_values "+Y_+"from_fields "+Y_+"year_refused "+Y_+"slice_correct "+Y_+"file_roundtrip "+Y_+"negative_day_violated "+Y_+"fewer_fields_violated","exact arithmetic; the name of the axis is not part of it (it is lost, see climatology_name_violated of C91). Outside the conditions: a start before day 0 cannot be read back (negative_day_violated), an axis with fewer fields comes back with all four (fewer_fields_violated).")
c("C142","proved","PyGeode.TimeLabels.labels_correct PyGeode.TimeLabels.labels_single PyGeode.TimeLabels.labels_fixed PyGeode.TimeLabels.month_labels_distinct PyGeode.TimeLabels.half_days_violated PyGeode.TimeLabels.eleven_months_violated PyGeode.TimeLabels.single_year_violated","Findings: ticks every twelve hours (which the locator of the axis makes for a few days) are labelled 00:00 and 12:00 again and again, so the labels do not tell the days; ticks eleven months apart can both be labelled with the same year; a single tick is labelled with its time of day even if the ticks are years.")
L_="PyGeode.Lookup."
c("C143","proved",L_+"getaxis_correct "+L_+"varAttr_correct "+L_+"axisAttr_correct "+L_+"dataAttr_correct "+L_+"data_getaxis "+L_+"load_correct "+L_+"getaxis_name_violated "+L_+"hasaxis_violated "+L_+"axisAttr_violated","Findings: an axis named like a class of an earlier axis is not found by getaxis (getaxis_name_violated), though dataset[name] finds it; hasaxis raises an error for a position outside the axes; an auxiliary array can hide the axis. Attributes of the Python object itself come before these lookups and are not modelled.")
F_="PyGeode.FullAxes."
c("C144","proved",F_+"fullView_correct "+F_+"fullView_last "+F_+"first_axis_violated "+F_+"first_axis_part_violated "+F_+"limit_violated","Findings: the axes are put last, but made complete at their old positions, so that an axis which is not the last one is not completed: for a request of one position the result is silently that of a part (first_axis_violated), for others an error. Axes that do not fit in memory are an error (limit_violated). Nothing in the package uses the decorator; it is there for getviews of users and plugins.")
K_="PyGeode.SortKeys."
c("C145","proved",K_+"found_iff "+K_+"sorted_accepted "+K_+"sorted_request "+K_+"sortedOne_correct "+K_+"sortedOne_same "+K_+"argsortOf_correct "+K_+"sortedOne_axis_violated "+K_+"reverse_violated","Findings: interp.sorted(var, axis) with an axis object raises KeyError whenever something is to be sorted, as the old axis is looked up in the new variable (sortedOne_axis_violated); argsort(reverse=1) sorts upwards, only the object True counts (reverse_violated).")
N_="PyGeode.LogLabels."
c("C146","proved",N_+"autoscale_limits "+N_+"autoscale_keeps "+N_+"autoscale_colours "+N_+"lfmt_close "+N_+"lfmt_ticks "+N_+"autoscale_vin_violated "+N_+"lfmt_violated","Exact real arithmetic; labels as numbers (Python's % is not modelled), masks as values left out. Findings: if only vmin and vmax are set and all data are larger, vin is taken above vmax and the colours go backwards (autoscale_vin_violated); ticks as far apart as 150 and 250 have the same label, and 999 is written 10 times 10^2 (lfmt_violated).")
R_="PyGeode.DapRoute."
c("C147","proved",R_+"ask_correct "+R_+"ask_page "+R_+"openUrl_correct "+R_+"readUrl_correct "+R_+"clash_violated "+R_+"query_violated "+R_+"unknown_violated","On C128 and C129; the address alone gives the page if it does not itself end with an extension. Findings: a dataset named a.dds is never reached beside an earlier dataset a, which answers for it (clash_violated); arguments with a question mark and paths that only begin like a request get the page for browsers with status 200 instead of data or an error. HTTP, the page and the missing package pygeode.server are not modelled.")
B2_="PyGeode.LibSearch."
c("C148","proved",B2_+"findLibrary_correct "+B2_+"own_first "+B2_+"absolute "+B2_+"working_directory_violated "+B2_+"root_violated","Names without wildcards; dlopen itself is not modelled. Findings: with LD_LIBRARY_PATH unset (or with an empty part) the search path has an empty directory, so a file in the working directory is found before the system's library, and dlopen gets its name without a directory (working_directory_violated); a library in the root directory is looked for in the search path (root_violated).")
V2_="PyGeode.Override."
c("C149","proved",V2_+"override_correct "+V2_+"override_refused "+V2_+"override_axis_violated","Types and attributes of variables are not modelled (the attributes are copied, the type is that of the values given). Finding: values given for a dimension that has no coordinate variable in the file are silently ignored (override_axis_violated), although avoiding the values of an axis is the documented use.")
