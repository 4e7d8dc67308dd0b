# Axioms used by the theorems of MANIFEST.json

Generated by scripts/axioms.py (`#print axioms`).

## none

* PyGeode.expand_list
* PyGeode.Calendar.yearless_bad_month
* PyGeode.Along.stencil3_two_points_violated
* PyGeode.Station.strings_nul_violated

## Classical.choice, Quot.sound, propext

* PyGeode.expand_slice_eq_python
* PyGeode.expand_int
* PyGeode.expand_simplify
* PyGeode.simplify_same_elements
* PyGeode.contiguate_covers
* PyGeode.contiguate_runs_consecutive
* PyGeode.contiguate_maximal
* PyGeode.loopContiguous_piece
* PyGeode.loopContiguous_covers_once
* PyGeode.readContiguous_correct
* PyGeode.loopMem_splits
* PyGeode.loopMem_partition
* PyGeode.loopMem_order
* PyGeode.loopMem_trailing
* PyGeode.Loop.loopover_spec
* PyGeode.loopMem_size_le
* PyGeode.loopMem_size_le_limit
* PyGeode.readUnique_correct
* PyGeode.duplicate_correct
* PyGeode.sources_agree
* PyGeode.get_correct
* PyGeode.get_shared_axes
* PyGeode.Axis.getSlice_correct
* PyGeode.Axis.getSlice_perm
* PyGeode.Axis.varSlices_correct
* PyGeode.Axis.newArgs_collision_violated
* PyGeode.Axis.aux_underscore_violated
* PyGeode.Axis.indexMask_scalar_accepted
* PyGeode.Axis.indexMask_list_accepted
* PyGeode.Axis.range_correct
* PyGeode.Axis.range_swap
* PyGeode.Axis.complement_correct
* PyGeode.Axis.complement_succeeds
* PyGeode.Axis.nearest_correct
* PyGeode.sort_correct
* PyGeode.msort_stable
* PyGeode.sort_stable_violated
* PyGeode.mapTo_sound
* PyGeode.mapTo_wrapper
* PyGeode.mapTo_complete
* PyGeode.mapTo_complete_violated
* PyGeode.Axis.slicedVar_read
* PyGeode.Axis.axisMapTo_slice
* PyGeode.mapTo_of_slice
* PyGeode.Axis.axisMapTo_slice_violated
* PyGeode.Axis.slicedVar_read_violated
* PyGeode.commonMap_sound_partial
* PyGeode.commonMap_integer_sound_partial
* PyGeode.commonMap_equal_violated
* PyGeode.PartialSum.partialSumC_correct
* PyGeode.PartialSum.partialSumC_frame
* PyGeode.PartialSum.partialSum_correct
* PyGeode.Climat.sums_correct
* PyGeode.PartialSum.partialNanSumC_correct
* PyGeode.PartialSum.partialNanSum_correct
* PyGeode.Climat.nansums_correct
* PyGeode.TimeC.get_index_correct
* PyGeode.TimeC.get_index_exact
* PyGeode.TimeC.get_indices_correct
* PyGeode.TimeC.uniquify_correct
* PyGeode.Calendar.standard_date_roundtrip
* PyGeode.Calendar.date_roundtrip
* PyGeode.Calendar.standard_offset_roundtrip
* PyGeode.Calendar.offset_roundtrip
* PyGeode.Calendar.decode_is_clock
* PyGeode.Calendar.offset_nextSecond
* PyGeode.Calendar.noleap_date_roundtrip
* PyGeode.Calendar.noleap_offset_roundtrip
* PyGeode.Calendar.d360_date_roundtrip
* PyGeode.Calendar.d360_offset_roundtrip
* PyGeode.Calendar.yearless_date_roundtrip
* PyGeode.Calendar.yearless_offset_roundtrip
* PyGeode.Calendar.month_wrap_decoded
* PyGeode.Calendar.offset_order
* PyGeode.Calendar.start_shift_decode
* PyGeode.Calendar.ndays_sum
* PyGeode.Cf.compact_hours
* PyGeode.Cf.compact_days
* PyGeode.Cf.compact_refused
* PyGeode.Dataset.names_unique_partial
* PyGeode.Dataset.names_unique_violated
* PyGeode.Dataset.uniqueNames_ne
* PyGeode.Dataset.uniqueNames_kept
* PyGeode.Dataset.vardict_lookup
* PyGeode.Dataset.axes_unique_partial
* PyGeode.Dataset.axes_unique_violated
* PyGeode.Dataset.newAxis_equal
* PyGeode.Dataset.newAxis_name_kept
* PyGeode.Dataset.withAxes_correct
* PyGeode.Combine.commonDict_correct
* PyGeode.Combine.commonDict_general
* PyGeode.Combine.commonDict_perm
* PyGeode.Combine.combineName_correct
* PyGeode.Combine.combineName_differ
* PyGeode.Combine.ufunc_correct
* PyGeode.Combine.ufunc_comm
* PyGeode.Combine.combineAxes_clean
* PyGeode.Combine.ufunc_subset
* PyGeode.Combine.combineAxes_slice
* PyGeode.Combine.combineAxes_partial_overlap_error
* PyGeode.Combine.combineAxes_pair
* PyGeode.Combine.whichaxis_correct
* PyGeode.Combine.whichaxis_int
* PyGeode.Combine.whichaxis_int_violated
* PyGeode.VarOps.transpose_correct
* PyGeode.VarOps.transpose_twice
* PyGeode.VarOps.transposeOrder_spec
* PyGeode.VarOps.sameData_unique
* PyGeode.VarOps.transpose_repeated_violated
* PyGeode.VarOps.squeeze_correct
* PyGeode.VarOps.extend_correct
* PyGeode.VarOps.squeeze_extend
* PyGeode.Concat.concat_correct
* PyGeode.Concat.concatAxis_aux
* PyGeode.Concat.stack_correct
* PyGeode.Concat.findAxis_axis
* PyGeode.Concat.findAxis_newAxis
* PyGeode.Concat.findAxis_error
* PyGeode.Concat.pieceEx_joinable
* PyGeode.VarOps.fill_correct
* PyGeode.VarOps.unfill_correct
* PyGeode.VarOps.unfill_fill
* PyGeode.Loop.sum_shows
* PyGeode.Loop.mean_shows
* PyGeode.Loop.min_shows
* PyGeode.Loop.max_shows
* PyGeode.Loop.mean_repeated_violated
* PyGeode.Reduce.sum_correct
* PyGeode.Reduce.mean_correct
* PyGeode.Reduce.mean_count_pos
* PyGeode.Reduce.min_correct
* PyGeode.Reduce.max_correct
* PyGeode.Reduce.sum_chunk_independent
* PyGeode.Reduce.mean_integer_violated
* PyGeode.Reduce.argmax_correct_partial
* PyGeode.Reduce.loopMem_single
* PyGeode.Reduce.argmaxList_spec
* PyGeode.Reduce.argmax_chunked_violated
* PyGeode.Reduce.argmin_correct_partial
* PyGeode.Reduce.argminList_spec
* PyGeode.Reduce.argmin_chunked_violated
* PyGeode.Reduce.argmax_fits
* PyGeode.Reduce.argmin_fits
* PyGeode.Loop.nansum_shows
* PyGeode.Loop.nanmean_shows
* PyGeode.Loop.nanmin_shows
* PyGeode.Loop.nanmax_shows
* PyGeode.Reduce.nansum_correct
* PyGeode.Reduce.nanmean_correct
* PyGeode.Reduce.nanmin_correct
* PyGeode.Reduce.nanmax_correct
* PyGeode.Reduce.nanvariance_correct
* PyGeode.Weights.nanvariance_shows
* PyGeode.Loop.variance_shows
* PyGeode.Reduce.variance_correct
* PyGeode.Reduce.variance_nonneg
* PyGeode.Reduce.weightedSum_correct
* PyGeode.Reduce.weightedMean_correct
* PyGeode.Reduce.weightedMean_const
* PyGeode.Reduce.weightedVariance_correct
* PyGeode.Reduce.weightedNanMean_correct
* PyGeode.Reduce.weights_correct
* PyGeode.Along.diff_correct
* PyGeode.Along.diff_one
* PyGeode.Along.diff_refused
* PyGeode.Along.diff_zero_violated
* PyGeode.Along.stencil_in_bounds
* PyGeode.Along.deriv_correct
* PyGeode.Along.deriv_linear
* PyGeode.Along.stencil2_in_bounds
* PyGeode.Along.deriv2_correct
* PyGeode.Along.deriv2_quadratic
* PyGeode.Along.deriv_integer_violated
* PyGeode.Along.integrate_correct
* PyGeode.Along.integrate_refuses
* PyGeode.Along.integral_start
* PyGeode.Along.integral_step
* PyGeode.Along.diff_integrate
* PyGeode.Along.cumsum_first_value_violated
* PyGeode.Rotate.rotateValues_spec
* PyGeode.Rotate.rotatelon_correct
* PyGeode.Rotate.rotatelon_without
* PyGeode.Rotate.duplicate_violated
* PyGeode.Progress.scale_range
* PyGeode.Progress.run_range
* PyGeode.Progress.runAll_range
* PyGeode.Progress.scale_ends
* PyGeode.Progress.parts_tile
* PyGeode.Progress.reports_in_order
* PyGeode.Progress.finish_only_at_end
* PyGeode.Cf.fixName_collision
* PyGeode.Cf.units_roundtrip
* PyGeode.Cf.calendar_roundtrip
* PyGeode.Cf.time_roundtrip
* PyGeode.Cf.climatology_roundtrip
* PyGeode.Cf.negative_year_violated
* PyGeode.Cf.month_climatology_violated
* PyGeode.Cf.unpack_correct
* PyGeode.Cf.pickFill_zero_violated
* PyGeode.Calendar.season_noleap
* PyGeode.Calendar.season_standard_partial
* PyGeode.Calendar.season_standard_violated
* PyGeode.Climat.climMean_correct
* PyGeode.Climat.climNanMean_correct
* PyGeode.Climat.climCount_correct
* PyGeode.Climat.climVariance_correct
* PyGeode.Climat.climNanVariance_correct
* PyGeode.Climat.outTime_correct
* PyGeode.Climat.timesWith_ne
* PyGeode.Climat.commonMap_nodup
* PyGeode.Lag.lag_correct
* PyGeode.Lag.lag_refused
* PyGeode.Multifile.multifile_sound
* PyGeode.Multifile.multifile_complete
* PyGeode.Multifile.multifile_missing
* PyGeode.Multifile.fileIndex_home
* PyGeode.Multifile.overlap_violated
* PyGeode.Smooth.smooth_shows
* PyGeode.Smooth.smooth_short
* PyGeode.Smooth.smooth_long
* PyGeode.Smooth.smoothed_constant
* PyGeode.Smooth.smoothed_between
* PyGeode.Smooth.smooth_repeated_violated
* PyGeode.Calendar.py_date_roundtrip
* PyGeode.Calendar.py_value_roundtrip
* PyGeode.Calendar.py_value_is_clock
* PyGeode.Calendar.days_in_month_correct
* PyGeode.Calendar.getdoy_correct_partial
* PyGeode.Calendar.getdoy_violated
* PyGeode.Calendar.getdoy_eq
* PyGeode.TimeC.time_common_map_sound
* PyGeode.TimeC.time_common_map_complete
* PyGeode.TimeC.commonMap_fits
* PyGeode.TimeC.commonMap_repeats_violated
* PyGeode.TimeC.nearest_lower_correct
* PyGeode.TimeC.time_map_to_exact
* PyGeode.Climat.climTrend_least_squares
* PyGeode.Axis.axEq_sound
* PyGeode.Axis.axEq_name
* PyGeode.Axis.isEquivalent_refl
* PyGeode.Axis.axEq_symm_violated
* PyGeode.Axis.axEq_trans_violated
* PyGeode.Axis.sliceAxis_aux
* PyGeode.Axis.sliceAxis_aux_violated
* PyGeode.VarOps.sorted_correct
* PyGeode.VarOps.argsort_spec
* PyGeode.VarOps.replaceAxes_correct
* PyGeode.VarOps.replaceAxes_refused
* PyGeode.VarOps.rename_correct
* PyGeode.VarOps.slice_correct
* PyGeode.VarOps.slice_slice
* PyGeode.VarOps.slice_transpose
* PyGeode.VarOps.ellipsisSlices_spec
* PyGeode.VarOps.ellipsisSlices_none
* PyGeode.Dataset.segments_correct
* PyGeode.Cf.aux_blank_violated
* PyGeode.Cf.class_roundtrip
* PyGeode.Cf.plain_roundtrip
* PyGeode.Cf.class_violated
* PyGeode.Interp.interp_rows
* PyGeode.Interp.interp_skip
* PyGeode.Interp.interp_refuses
* PyGeode.Interp.interp_mixed_violated
* PyGeode.Interp.linear_through
* PyGeode.Interp.linear_between
* PyGeode.Interp.linear_exact
* PyGeode.Interp.interp_correct_partial
* PyGeode.Interp.interpolate_in_place
* PyGeode.Interp.interpolate_transpose_violated
* PyGeode.Stats.regress_correct
* PyGeode.Stats.regressCell_fits
* PyGeode.Stats.split_spec
* PyGeode.Stats.split_refuses
* PyGeode.Stats.dev2_pos_iff
* PyGeode.Stats.correlate_correct
* PyGeode.Stats.pearson_abs_le
* PyGeode.Stats.pearson_abs_eq_one
* PyGeode.Stats.difference_correct_partial
* PyGeode.Stats.differenceCell_few_violated
* PyGeode.Stats.difference_default_violated
* PyGeode.Stats.difference_order_violated
* PyGeode.Stats.paired_correct_partial
* PyGeode.Stats.paired_error_violated
* PyGeode.Stats.isnonzero_correct_partial
* PyGeode.Stats.isnonzeroCell_empty_violated
* PyGeode.Domains.getDomains_correct
* PyGeode.Domains.getDomains_ends
* PyGeode.Domains.getDomains_antichain
* PyGeode.Domains.getDomains_order_violated
* PyGeode.Manifest.manifest_current_partial
* PyGeode.Manifest.getTable_current
* PyGeode.Manifest.order_violated
* PyGeode.Manifest.sublist_violated
* PyGeode.Manifest.same_second_violated
* PyGeode.Manifest.write_during_run_violated
* PyGeode.Manifest.older_violated
* PyGeode.Manifest.killed_before_time_violated
* PyGeode.Manifest.norm_violated
* PyGeode.Manifest.restart_partial
* PyGeode.Manifest.torn_violated
* PyGeode.Scan.getview_correct_partial
* PyGeode.Scan.searchsorted_place
* PyGeode.Scan.getview_down_violated
* PyGeode.NetCdf.save_open_partial
* PyGeode.NetCdf.save_name_clash
* PyGeode.NetCdf.writeVar_correct
* PyGeode.NetCdf.tidyAxes_correct
* PyGeode.NetCdf.fileEx_saveable
* PyGeode.NetCdf.save_open_case_violated
* PyGeode.NetCdf.save_open_case_fails
* PyGeode.NetCdf.save_open_alias_violated
* PyGeode.NetCdf.save_empty_violated
* PyGeode.NetCdf.save_unencoded_violated
* PyGeode.Pack.pack_unpack_partial
* PyGeode.Pack.pack_ex
* PyGeode.Pack.pack_nan_number
* PyGeode.Pack.pack_nan_violated
* PyGeode.Pack.pack_fill_violated
* PyGeode.Station.station_roundtrip_partial
* PyGeode.Station.strings_roundtrip
* PyGeode.Station.stationEx_ok
* PyGeode.Station.station_substring_violated
* PyGeode.Station.station_two_violated
* PyGeode.Station.station_clash_violated
* PyGeode.Station.eq_iff
* PyGeode.Station.mapTo_correct_partial
* PyGeode.Station.strAsVal_correct
* PyGeode.Station.eq_nan_violated
* PyGeode.LeapDays.removeleapyears_correct
* PyGeode.LeapDays.removeleapyears_default
* PyGeode.LeapDays.unordered_violated
* PyGeode.LeapDays.duplicate_violated
* PyGeode.Ensemble.ensembleVar_correct
* PyGeode.Ensemble.ensemble_correct
* PyGeode.Ensemble.ensemble_refused
* PyGeode.Ensemble.ensemble_axes_refused
* PyGeode.Ensemble.runEx_ok
* PyGeode.DateText.strAsDate_iff
* PyGeode.DateText.format_parse
* PyGeode.DateText.format_select
* PyGeode.DateText.dayOfYear_value
* PyGeode.DateText.second_space_violated
* PyGeode.DateText.format_default_violated
* PyGeode.DateText.full_month_violated
* PyGeode.DateText.early_year_violated
* PyGeode.DateText.iso_month_violated
* PyGeode.DateText.smarch_violated
* PyGeode.TimeRange.timeRange_correct
* PyGeode.TimeRange.timeRange_dates
* PyGeode.TimeRange.timeRange_inc
* PyGeode.TimeRange.timeN_correct
* PyGeode.TimeRange.timeRange_inc_violated
* PyGeode.Ticks.ticks_correct
* PyGeode.Ticks.nticks_correct
* PyGeode.Ticks.month_ticks_violated
* PyGeode.Ticks.nticks_violated
* PyGeode.Ticks.bestMult_correct
* PyGeode.Ticks.bestMult_ends
* PyGeode.CfFile.save_open_cf_partial
* PyGeode.CfFile.weights_violated
* PyGeode.CfFile.named_aux_violated
* PyGeode.CfFile.units_violated
* PyGeode.CfFile.dimension_name_violated
* PyGeode.CfFile.climatology_name_violated
* PyGeode.Composite.composite_correct_partial
* PyGeode.Composite.composite_uniform
* PyGeode.Composite.composite_overrun
* PyGeode.Composite.composite_raises
* PyGeode.Composite.composite_events
* PyGeode.Composite.composite_coords
* PyGeode.Flatten.flatten_correct
* PyGeode.Flatten.flatten_scrambled
* PyGeode.Flatten.flatValues_getD
* PyGeode.Weights.sum_shows_partial
* PyGeode.Weights.mean_shows_partial
* PyGeode.Weights.variance_shows_partial
* PyGeode.Weights.nansum_shows_partial
* PyGeode.Weights.nanmean_shows_partial
* PyGeode.Weights.rejects
* PyGeode.Weights.scalar_weight_violated
* PyGeode.Call.call_correct_partial
* PyGeode.Call.call_defined
* PyGeode.Call.order_violated
* PyGeode.DatasetOps.make_id
* PyGeode.DatasetOps.make_correct_partial
* PyGeode.DatasetOps.getitem_correct
* PyGeode.DatasetOps.remove_correct
* PyGeode.DatasetOps.rename_correct
* PyGeode.DatasetOps.replace_correct
* PyGeode.DatasetOps.map_correct
* PyGeode.DatasetOps.add_correct
* PyGeode.DatasetOps.add_remove
* PyGeode.DatasetOps.asDataset_correct
* PyGeode.DatasetOps.add_clash
* PyGeode.DatasetOps.call_correct_partial
* PyGeode.DatasetOps.joinVars_correct
* PyGeode.DatasetOps.join_static
* PyGeode.DatasetOps.concat_correct_partial
* PyGeode.DatasetOps.concat_mixed_partial
* PyGeode.DatasetOps.add_atts_violated
* PyGeode.OpenOptions.finalizeOpen_correct_partial
* PyGeode.OpenOptions.setAxisTypes_refused
* PyGeode.OpenOptions.autodetect_correct
* PyGeode.OpenOptions.finalizeSave_correct
* PyGeode.OpenOptions.namemap_case_violated
* PyGeode.OpenOptions.dimtypes_alias_violated
* PyGeode.OpenOptions.dimtypes_namemap_violated
* PyGeode.OpenOptions.pack_text_violated
* PyGeode.OpenMulti.open_multi_partial
* PyGeode.OpenMulti.check_multi_correct
* PyGeode.OpenMulti.misaligned_violated
* PyGeode.GetItem.getItem_correct_partial
* PyGeode.GetItem.asVar_correct
* PyGeode.GetItem.getItem_refused
* PyGeode.GetItem.getItem_toomany
* PyGeode.GetItem.get_correct
* PyGeode.GetItem.load_correct
* PyGeode.GetItem.npInt_violated
* PyGeode.GetItem.list_violated
* PyGeode.GetItem.duplicate_violated
* PyGeode.Eof.eofSvd_correct_partial
* PyGeode.Eof.eofCov_correct_partial
* PyGeode.Eof.eofCov_large
* PyGeode.Eof.eof_small
* PyGeode.Eof.eof_narrow
* PyGeode.Eof.eofs_unique
* PyGeode.Eof.eofs_residual
* PyGeode.Eof.eofs_rebuild
* PyGeode.Eof.answer_names
* PyGeode.Eof.answer_text
* PyGeode.Eof.answer_default
* PyGeode.Eof.decompositions
* PyGeode.Eof.fieldEx_input
* PyGeode.Eof.methods_differ
* PyGeode.Eof.record_axis_violated
* PyGeode.Eof.long_names_violated
* PyGeode.Eof.weight_none_violated
* PyGeode.Eof.record_name_violated
* PyGeode.Svd.eofIter_result
* PyGeode.Svd.eofStep_fixed
* PyGeode.Svd.npEx_right
* PyGeode.Grib.readAt_correct_partial
* PyGeode.Grib.unpack_correct
* PyGeode.Grib.readHead_found
* PyGeode.Grib.readHead_none
* PyGeode.Grib.index_correct_partial
* PyGeode.Grib.index_round
* PyGeode.Grib.gds_round
* PyGeode.Grib.recordsEx_ok
* PyGeode.Grib.missing_record_violated
* PyGeode.Grib.forecast_violated
* PyGeode.Grib.average_violated
* PyGeode.Grib.odd_coords_violated
* PyGeode.Grib.openVar_correct_partial
* PyGeode.Grib.isSurface_iff
* PyGeode.Grib.readDataLoop_correct
* PyGeode.Grib.recordsEx_complete
* PyGeode.Grib.level_violated
* PyGeode.Grib.lon_violated
* PyGeode.MultiRegress.multipleRegress_correct_partial
* PyGeode.MultiRegress.multipleRegress_refuses
* PyGeode.MultiRegress.output_B_violated
* PyGeode.MultiRegress.output_sb_violated
* PyGeode.MultiRegress.missing_axis_violated
* PyGeode.MultiRegress.invEx_spec
* PyGeode.FftSmooth.fftSmooth_correct
* PyGeode.FftSmooth.fftSmooth_refused
* PyGeode.FftSmooth.fftSmoothC_correct_partial
* PyGeode.FftSmooth.lowHarmonics_unique
* PyGeode.FftSmooth.lowHarmonics_nearest
* PyGeode.FftSmooth.lowHarmonics_keep
* PyGeode.FftSmooth.lowHarmonics_stop
* PyGeode.FftSmooth.lowHarmonics_twice
* PyGeode.FftSmooth.lowHarmonics_mean
* PyGeode.FftSmooth.lowHarmonics_all
* PyGeode.FftSmooth.lowHarmonics_add
* PyGeode.FftSmooth.complex_one_violated
* PyGeode.FftSmooth.complex_one_not_low
* PyGeode.FftSmooth.negative_violated
* PyGeode.ClimVar.mean_correct
* PyGeode.ClimVar.nanmean_correct
* PyGeode.ClimVar.count_correct
* PyGeode.ClimVar.variance_correct
* PyGeode.ClimVar.nanvariance_correct
* PyGeode.ClimVar.remake_correct
* PyGeode.ClimVar.repeated_time_violated
* PyGeode.ClimVar.climtrend_correct
* PyGeode.TimeMatch.op_dates
* PyGeode.TimeMatch.op_dates_memory
* PyGeode.TimeMatch.anomaly_correct
* PyGeode.TimeMatch.anomaly_dates
* PyGeode.TimeMatch.same_date_violated
* PyGeode.TimeMatch.detrend_correct
* PyGeode.TimeMatch.fromTrend_correct
* PyGeode.FromFiles.from_files_correct
* PyGeode.FromFiles.name_violated
* PyGeode.FromFiles.origin_violated
* PyGeode.FromFiles.order_violated
* PyGeode.FindBest.find_best_correct
* PyGeode.FindBest.minimize_ignored
* PyGeode.SplitTime.split_correct
* PyGeode.SplitTime.split_keeps
* PyGeode.SplitTime.fromFields_rejoins
* PyGeode.SplitTime.join_correct
* PyGeode.SplitTime.fromFields_joins
* PyGeode.XArray.toXarray_correct
* PyGeode.XArray.stored_array
* PyGeode.XArray.fromXarray_correct
* PyGeode.XArray.xarray_round_trip
* PyGeode.XArray.toXarray_getvalues_violated
* PyGeode.Contours.guess_style
* PyGeode.Contours.contours_div
* PyGeode.Contours.contours_seq_partial
* PyGeode.Contours.contours_seq_violated
* PyGeode.Contours.fill_div
* PyGeode.Contours.fill_seq
* PyGeode.Contours.fill_nozero
* PyGeode.Contours.lines_mid
* PyGeode.Contours.lines_min
* PyGeode.Contours.lines_nozero
* PyGeode.Contours.nozero_mid_violated
* PyGeode.Contours.nozero_lines_violated
* PyGeode.LookupAxis.lookup_correct
* PyGeode.LookupAxis.lookup_stable
* PyGeode.LookupAxis.lookup_equal
* PyGeode.LookupAxis.lookup_identical
* PyGeode.LookupAxis.settify_correct
* PyGeode.LookupAxis.lookup_axes
* PyGeode.Locator.locator_correct
* PyGeode.Locator.locate_ends
* PyGeode.Locator.locate_best
* PyGeode.LogNorm.inverse_apply
* PyGeode.LogNorm.apply_inverse
* PyGeode.LogNorm.apply_mono
* PyGeode.LogNorm.apply_ends
* PyGeode.LogNorm.log2s_fills
* PyGeode.LogNorm.log2s_lines
* PyGeode.LogNorm.log2s_ticks
* PyGeode.LogNorm.log1s_even
* PyGeode.LogNorm.log2s_one_violated
* PyGeode.Layout.grid_table
* PyGeode.Layout.grid_works
* PyGeode.Layout.grid_keeps
* PyGeode.Layout.grid_apart
* PyGeode.Layout.render_partial
* PyGeode.Layout.area_size
* PyGeode.Layout.area_within
* PyGeode.Layout.area_apart
* PyGeode.Layout.render_held
* PyGeode.Layout.render_inner_violated
* PyGeode.Layout.render_twice_violated
* PyGeode.Layout.render_moved_violated
* PyGeode.Layout.colorbar_beside
* PyGeode.Layout.annotate_below
* PyGeode.Functions.func_partial
* PyGeode.Functions.vsum_correct
* PyGeode.Functions.vprod_eq
* PyGeode.Functions.map_correct
* PyGeode.Functions.chain_spec
* PyGeode.Functions.degrees_spec
* PyGeode.Functions.degrees_inverse
* PyGeode.Functions.clip_spec
* PyGeode.Functions.arctand2_violated
* PyGeode.Functions.map_keywords_violated
* PyGeode.Functions.map_array_violated
* PyGeode.Spectral.harmonics_spec
* PyGeode.Spectral.harmonics_refused
* PyGeode.Coefs.merge_correct
* PyGeode.Coefs.merge_error
* PyGeode.Coefs.split_correct
* PyGeode.Coefs.split_merge
* PyGeode.Coefs.fromTrend_AB
* PyGeode.Svd.svd_result
* PyGeode.Svd.svdStep_fixed_partial
* PyGeode.Svd.pass_correct
* PyGeode.Svd.dot_correct
* PyGeode.Svd.transform_correct
* PyGeode.Svd.normalize_correct
* PyGeode.Svd.fixcov_correct
* PyGeode.Svd.svd_fixedEx
* PyGeode.EofGuess.guess_correct
* PyGeode.EofGuess.guess_eigen
* PyGeode.EofGuess.sizes_unique
* PyGeode.EofGuess.enough_of_small
* PyGeode.EofGuess.svd_correct
* PyGeode.EofGuess.merge_decomposes
* PyGeode.EofGuess.piece_decomposes
* PyGeode.EofGuess.mergeWhile_correct
* PyGeode.EofGuess.lapackEx_right
* PyGeode.OpenDap.decode_sent_partial
* PyGeode.OpenDap.writeXdr_eq
* PyGeode.OpenDap.pieces_order
* PyGeode.OpenDap.load_sent
* PyGeode.OpenDap.unsigned_violated
* PyGeode.OpenDap.getvalues_correct
* PyGeode.OpenDap.open_correct
* PyGeode.OpenDap.dods_load
* PyGeode.OpenDap.load_axis
* PyGeode.OpenDap.dds_read
* PyGeode.OpenDap.dds_all
* PyGeode.OpenDap.exServed_servable
* PyGeode.OpenDap.numbered_violated
* PyGeode.OpenDap.dotted_violated
* PyGeode.OpenDap.attributes_correct_partial
* PyGeode.OpenDap.das_tokens
* PyGeode.OpenDap.pyInt_fmtInt
* PyGeode.OpenDap.empty_violated
* PyGeode.OpenDap.trailing_violated
* PyGeode.OpenDap.newline_violated
* PyGeode.OpenDap.byteAtt_violated
* PyGeode.OpenAll.openAll_order
* PyGeode.OpenAll.openAll_correct
* PyGeode.OpenAll.openAll_one
* PyGeode.OpenAll.openAll_none
* PyGeode.FormatValue.lon_correct
* PyGeode.FormatValue.lon_same
* PyGeode.FormatValue.lat_correct
* PyGeode.FormatValue.lat_same
* PyGeode.FormatValue.pres_correct
* PyGeode.FormatValue.other_formats_partial
* PyGeode.FormatValue.unitstr_violated
* PyGeode.FormatValue.lon_scientific_violated
* PyGeode.Plot.vcontour_correct
* PyGeode.Plot.vcontour_refused
* PyGeode.Plot.vstreamplot_correct
* PyGeode.Plot.vquiver_correct
* PyGeode.Plot.vquiver_refused
* PyGeode.Plot.vplot_correct
* PyGeode.Plot.vscatter_correct
* PyGeode.Plot.sigmask_correct_partial
* PyGeode.Plot.sigmask_swapped
* PyGeode.Plot.title_correct
* PyGeode.Plot.orient_spec
* PyGeode.Plot.squeezed
* PyGeode.Plot.field_correct
* PyGeode.Plot.limits_spec
* PyGeode.Plot.sigmask_minor_violated
* PyGeode.Pages.savePages_correct
* PyGeode.Pages.savePages_right
* PyGeode.Pages.savePages_bottom_partial
* PyGeode.Pages.savePages_violated
* PyGeode.ShowGrid.showGrid_partial
* PyGeode.ShowGrid.wide_violated
* PyGeode.ShowGrid.lines_violated
* PyGeode.ShowGrid.labels_violated
* PyGeode.Hdf4.open_partial
* PyGeode.Hdf4.axisFor_right
* PyGeode.Hdf4.isDim_iff
* PyGeode.Hdf4.good_ex2
* PyGeode.Hdf4.open_violated
* PyGeode.Classic.attributes_partial
* PyGeode.Classic.numbers_partial
* PyGeode.TimeInit.values_agree
* PyGeode.TimeInit.from_values
* PyGeode.TimeInit.from_fields
* PyGeode.TimeInit.values_order
* PyGeode.TimeInit.slice_correct
* PyGeode.TimeInit.days_made
* PyGeode.TimeInit.days_valid
* PyGeode.TimeInit.months_made
* PyGeode.TimeInit.months_valid
* PyGeode.TimeInit.needs_all
* PyGeode.TimeInit.reltime_correct
* PyGeode.TimeInit.wrapdate_correct
* PyGeode.TimeInit.conform_correct
* PyGeode.TimeInit.conform_refuses
* PyGeode.Seasonal.from_seasons
* PyGeode.Seasonal.from_values_partial
* PyGeode.Seasonal.no_start_violated
* PyGeode.Seasonal.mean_partial
* PyGeode.Seasonal.nanmean_partial
* PyGeode.Seasonal.count_partial
* PyGeode.Seasonal.variance_partial
* PyGeode.Seasonal.nanvariance_partial
* PyGeode.Yearless.values_agree
* PyGeode.Yearless.from_values
* PyGeode.Yearless.from_fields
* PyGeode.Yearless.year_refused
* PyGeode.Yearless.slice_correct
* PyGeode.Yearless.file_roundtrip
* PyGeode.Yearless.negative_day_violated
* PyGeode.Yearless.fewer_fields_violated
* PyGeode.TimeLabels.labels_correct
* PyGeode.TimeLabels.labels_single
* PyGeode.TimeLabels.labels_fixed
* PyGeode.TimeLabels.month_labels_distinct
* PyGeode.TimeLabels.half_days_violated
* PyGeode.TimeLabels.eleven_months_violated
* PyGeode.TimeLabels.single_year_violated
* PyGeode.Lookup.getaxis_correct
* PyGeode.Lookup.varAttr_correct
* PyGeode.Lookup.axisAttr_correct
* PyGeode.Lookup.dataAttr_correct
* PyGeode.Lookup.data_getaxis
* PyGeode.Lookup.load_correct
* PyGeode.Lookup.getaxis_name_violated
* PyGeode.Lookup.hasaxis_violated
* PyGeode.Lookup.axisAttr_violated
* PyGeode.FullAxes.fullView_correct
* PyGeode.FullAxes.fullView_last
* PyGeode.FullAxes.first_axis_violated
* PyGeode.FullAxes.first_axis_part_violated
* PyGeode.FullAxes.limit_violated
* PyGeode.SortKeys.found_iff
* PyGeode.SortKeys.sorted_accepted
* PyGeode.SortKeys.sorted_request
* PyGeode.SortKeys.sortedOne_correct
* PyGeode.SortKeys.sortedOne_same
* PyGeode.SortKeys.argsortOf_correct
* PyGeode.SortKeys.sortedOne_axis_violated
* PyGeode.SortKeys.reverse_violated
* PyGeode.LogLabels.autoscale_limits
* PyGeode.LogLabels.autoscale_keeps
* PyGeode.LogLabels.autoscale_colours
* PyGeode.LogLabels.lfmt_close
* PyGeode.LogLabels.lfmt_ticks
* PyGeode.LogLabels.autoscale_vin_violated
* PyGeode.LogLabels.lfmt_violated
* PyGeode.DapRoute.ask_correct
* PyGeode.DapRoute.ask_page
* PyGeode.DapRoute.openUrl_correct
* PyGeode.DapRoute.readUrl_correct
* PyGeode.DapRoute.clash_violated
* PyGeode.DapRoute.query_violated
* PyGeode.DapRoute.unknown_violated
* PyGeode.LibSearch.findLibrary_correct
* PyGeode.LibSearch.own_first
* PyGeode.LibSearch.absolute
* PyGeode.LibSearch.working_directory_violated
* PyGeode.LibSearch.root_violated
* PyGeode.Override.override_correct
* PyGeode.Override.override_refused
* PyGeode.Override.override_axis_violated

## Quot.sound, propext

* PyGeode.get_empty_violated
* PyGeode.Axis.newArgs_distinct
* PyGeode.TimeC.uniquify_unsorted_violated
* PyGeode.Calendar.bad_start_month
* PyGeode.Calendar.offset_start
* PyGeode.Calendar.month_wrap
* PyGeode.Calendar.start_shift
* PyGeode.Calendar.ndays_swap
* PyGeode.Cf.fixName_valid
* PyGeode.Cf.fixName_id
* PyGeode.Cf.fixName_idem
* PyGeode.Cf.pickFill_first_partial
* PyGeode.Smooth.reflect_inside
* PyGeode.VarOps.ellipsisSlices_refused
* PyGeode.Cf.aux_roundtrip
* PyGeode.Scan.getview_irregular_violated
* PyGeode.OpenOptions.nameChanged_kept
* PyGeode.Grib.negative_scale_violated
* PyGeode.FindBest.find_correct
* PyGeode.LookupAxis.lookup_answers
* PyGeode.Svd.chunks_following
* PyGeode.OpenDap.byte_violated
* PyGeode.OpenDap.unescape_escape
* PyGeode.Classic.types_partial
* PyGeode.Classic.refused
* PyGeode.Classic.attributes_violated
* PyGeode.Classic.unsigned_violated
* PyGeode.Classic.rounded_violated
* PyGeode.Classic.null_violated

## propext

* PyGeode.expand_slice_beyond_end_violated
* PyGeode.Cf.fixName_none
* PyGeode.Cf.fixName_keeps
* PyGeode.LeapDays.leapEx_ok
* PyGeode.Grib.constant_field_violated
* PyGeode.Grib.wide_field_violated
