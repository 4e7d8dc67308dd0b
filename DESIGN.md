# Formal model of pygeode — design

## Method

* The code is modelled in Lean 4, function by function, as total computable
  functions on mathematical data (lists, integers, rationals).  Exceptions are
  values (`Option`/`Except`).  Every definition cites the file and lines it models.
* Each property is stated in a `Verif/Props/*.lean` file, in terms of the model's
  *entry points* and of a small independent specification (`Verif/Spec/*.lean`
  or plain Mathlib notions such as `List.Perm`, `List.map`, `Finset.sum`).
* Beside each theorem an `example` instantiates it on a concrete, non-trivial
  case.
* Where the code does not satisfy the English property, the model keeps the
  code's behaviour, a theorem with suffix `_violated` proves the negation with a
  concrete witness, and a `_partial` theorem proves what does hold.

## Numbers, arrays, NaN

* C `int`/`long long`/numpy int32 are modelled by `ℤ`/`ℕ` (no overflow).
* doubles are modelled by `ℚ` (exact arithmetic, no rounding); NaN by `Option ℚ`
  (`none`) where NaN handling is the point.
* n-d arrays are a shape (list of lengths) with a function from multi-indices
  (`List ℕ`) to values; two arrays are equal when shapes agree and they agree on
  every in-range multi-index.  C code that works on flat buffers is modelled on
  flat lists.

## Plan per property

| id | model | proof |
|----|-------|-------|
| C01 | `expand`, with Python's `slice.indices` as spec | case split on None/sign, arithmetic progression lemma |
| C02 | `simplify`, numpy slice semantics | constant-difference lists are arithmetic progressions |
| C03 | `contiguate` | induction on the list |
| C04 | `loop_contiguous` (product of runs) | product of partitions |
| C05, C06 | `loop_mem` | induction over axes; chunk lists concatenate; size bound by division cascade |
| C07 | `np.unique` + `searchsorted` | sorted list lemmas |
| C08 | `View.map_to` + `View.get` | composition of C04, C07, transposition |
| C09-C11 | `get_slice` as fold over conditions | mask intersection commutative |
| C12 | `msort`/`sort` | recursion invariants, permutation + sortedness |
| C13, C14, C15 | C `map_to` two-pointer loop | loop invariant |
| C16 | C `common_map` with int-truncated comparison | witness + partial |
| C17, C18 | `partial_sum` pointer loops on flat buffers | induction on loops, div/mod indexing |
| C19, C20 | `get_index`, `uniquify` | binary search invariant |
| C21-C29 | calendars | integer arithmetic, loop termination measures |
| C30 | divmod decoding | omega |
| C31, C32 | `Dataset.__init__` renaming | freshness; witness of collision |
| C33 | `common_dict` | induction |
| C34 | `combine_axes` + ufunc | broadcasting lemma |
| C35 | `whichaxis` | list find |
| C36, C37 | transposition/squeeze/extend | permutation lemmas |
| C38 | `ConcatVar` | segment lemma |
| C39 | fill/unfill | pointwise |
| C40-C44 | reductions as folds over chunks | algebra of finite sums, invariance under partition |
| C45-C47 | diff, deriv, integrate | list induction |
| C48 | rotatelon | floor arithmetic |
| C49 | PBar | interval arithmetic |
| C50-C52 | cfmeta | string/character lists, parsing |
| C53 | seasons | case split |
| C54 | climatology | C17+C20 |
| C55 | lag | pointwise |
| C56 | multifile | searchsorted + last-writer semantics |
| C57 | smooth | mirrored index arithmetic |
| C58, C59 | Python wrappers of the calendars (`val_as_date`, `date_as_val`, units, `days_in_month`) | from C21-C26 |
| C60 | `_getdoy` | witness + partial |
| C61-C63 | `Time.common_map`, `map_to`, nearest earlier date | merge walk and binary search invariants |
| C64 | trend | normal equations of least squares |
| C65 | axis equality | case analysis |
| C66 | slicing, sorting, replacing, renaming compose | `Contains`/`Shows` |
| C67 | dataset concat grouping | fold invariant |
| C68 | CF axis kinds, auxiliary arrays | case analysis on classes, string lemmas |
| C69 | interpolated rows | loop invariant over the pointers; running maxima for `omit_nonmonotonic` |
| C70 | linear interpolation | induction over the points |
| C71 | interpolated variables | buffers as arrays (ravel), `Contains` |
| C72 | regression | the loop's sums are sums over the valid pairs (C40's loop invariant on two broadcast reads); quadratic completion |
| C73 | correlation | the same sums; Cauchy-Schwarz from the least misfit |
| C74–C76 | tests of means | the same sums for one variable; algebra |
| C77 | the search for datasets of the file scanner: sets of coordinates per axis | every step (aggregate, merge, clean up) keeps the union of the boxes; the loops end since the domains lie in a finite set and the down-set grows |
| C78, C79 | the manifest as a state machine: writes, removals, runs, each scanned file, the three steps of saving, kills at any point | invariant over all histories: every entry is right or its file is seen to be newer |
| C80 | `_DataVar.getview` with numpy's binary search (its loop over keys with carried bounds) | loop invariant of the search, then induction over the files |
| C81 | `tidy_axes`, `write_var`, `NCVar.getvalues`, `make_dataset`, `dims2axes` with the Dataset constructor; the file is its dimensions and arrays | pieces of `loop_mem` cover each cell (C05), each read by C08; replacing axes by name is followed through `whichaxis` |
| C82 | `PackVar`, `ReducedVar.__new__` without axes, then `var_newaxes` (C52); what NaN becomes as an integer is a parameter | least and greatest value by C42, bounds of truncation towards zero, order by monotonicity of truncation |
| C83 | the non-coordinate branch of `encode_cf` and `decode_cf`, `encode_string_var`, `decode_string_var`; numbers opaque, texts as characters | the stored names are a permutation of the arrays' names; words of an intercalated text; membership of dependencies both ways |
| C84 | `NonCoordinateAxis.__eq__`, `map_to`, `str_as_val`, `formatvalue`; NaN is equal to nothing | permutations of dictionaries, `findIdx?` |
| C85 | `removeleapyears` with the calendar arithmetic of C21–C24: days of the year, loop over omitted days, dates rebuilt year by year | grouping of a list sorted by year, induction over the omitted days, round trip of the 365-day calendar |
| C86 | `ensemble`, `EnsembleVar` on variables and on lists of named variables | aligned reads (C08) and `np.concatenate` of single rows, induction over the members |
| C87 | the three patterns of pygrc on a model of `re.search` (all matches in order of preference), `str_as_date`, `str_as_val`, `string.Template`, `formatvalue` | inversion of the matcher for each pattern, uniqueness of the parse, disjointness of the patterns; round trip with `valAsDate_spec` (C21) |
| C88 | the time range helpers, `np.arange` in exact arithmetic | length of `arange` as a ceiling; dates by `valAsDate_spec` |
| C89 | the tick generators for years, months, days, hours, minutes, seconds over the calendar model, the loop with fuel | positions of the ticks as a strictly increasing sequence of seconds; `prior` and `next` move along it; the loop yields an interval of it |
| C90 | `best_mult` with the numbers of ticks as an arbitrary function | induction downwards and upwards; nearest by monotonicity |
| C91 | `encode_cf`, the file of C81, `decode_cf` in one piece: axes of nine kinds and times with their attributes, auxiliary arrays as variables | one axis at a time (C51, C68), the fold over the axes with the variables left as invariant, then C81 |
| C92 | `composite`, `CompositeVar.getview`, `get_event_indices`, `delta`: events, key masks, reading each event and putting its rows in place | the fold over events with the rows written so far as invariant; each row's indices by arithmetic on clipped ranges |
| C93 | `flatten`, `FlatVar.getview`: first, whole and last rows and their reshaping | each piece is a read of a product of ranges (C08, C15), merging two indices into one by div and mod |
| C94 | `getweights` (products of axis weights by `vprod`), the `weights` argument of sum, mean, variance, nansum, nanmean, the loops over data and weights | the loops are those of C44 over positions; the weights of a chunk are a read broadcast along the other axes; the default weights are a ufunc (C34) of one-axis variables |
| C95 | `Var.__call__` as a whole: the loop over the keywords (prefixes, lists of means and squeezes), `get_slice` of every axis, `_getitem_asvar`, mean and squeeze | the loop by induction over the keywords; the selection is C09-C11, the slice C66, the mean C94 on the sliced axes (their weights are the weights at the selected positions), and squeezing is proved again for variables that only answer increasing requests |
| C96 | `Dataset.__init__` as a whole, `__getitem__`, `rename_vars`, `remove`, `add`, `replace_vars`, `map`, `__call__`, `asdataset`, dataset `concat` with `ConcatVar` (`Model/DatasetOps`) | a collection with different names and one axis per name is left as it is (from C31, C32), so each operation is exact; the general constructor from the theorems of C31 and C32; the positions selected along an axis are shown not to depend on the other axes of the variable; the segments collected by name are computed, joined by C38, and the joined axes of different variables compared; `Props/DatasetJoin`: two datasets of which some variables are joined and others are in one only or the same in both |
| C97 | `autodetectformat`, `set_axistypes`, `whitelist`, `finalize_open` (after the decoding), `finalize_save` (before the encoding), `rename_axes` and `replace_axes` by name (`Model/OpenOptions`) | the loop over the replacements is the simultaneous replacement of all axes when each key is found under its name only; each step leaves the data in place (C66) and the result a dataset (C96); the extension by splitting at the last separator |
| C98 | `open_multi` (`sortFiles`, `timeAxis`, `openMulti`), `delta`, `reltime`, `withnewvalues`, the times part of `check_multi` (`Model/OpenMulti`), reading by `Multifile.getview` | the day count of the calendars (C21–C23) turns dates into seconds; evenly spaced seconds make the rounded quotient exact; sorting by date undoes any order of names; the files then meet the conditions of C56, whose two theorems give the data |
| C99 | `var[...]`, `var.slice[...]`, `var.get()`, `var.load()` (`Model/GetItem`) on numpy's indices | slices of numpy equal the positions Python's documentation gives (membership and order determine the list); the slicing of variables of C15 gives the read; integers are dropped by induction over the axes |
| C100 | `EOF`, `EOF_svd`, `EOF_cov` with weights, record axes, outputs (`Model/Eof`) over the reals; `np.linalg.svd` and `eigh` are parameters constrained by numpy's documentation (`IsSvd`, `IsEigh`), which every matrix can meet (spectral theorem, `Props/EofExists`) | the decomposition gives the energy of the data along any pattern as a weighted sum of squares, Bessel's inequality the optimum; chunks of `loop_mem` hold whole patterns in row-major order (induction over axes), so the accumulated covariance is that of the data; the min-max argument makes the eigenvalues unique |
| C101 | the GRIB decoder in C (`Model/Grib`): search for the word GRIB, the four sections, bit unpacking; the format itself is specified separately (`Spec/Grib`: records, their bytes, the value of a point as a sum over bits) | every section is cut out of the file at the sum of the lengths before it; the bits of one value are a slice of 32 bits (splitting of bit fields); the search is an automaton that never misses the word (suffix invariant) |
| C102 | `make_index`, the index file and `read_Index`, `read_data` through the index | invariant of the record list under one more record (levels, times, first record, last offset for each pair); byte-level round trip of the index file; the file as a concatenation gives every offset its record |
| C103 | `GribVar` and its `getview` (`Model/GribVar`) | the four loops of `read_data_loop` are a Cartesian product; sorted levels are found back in the list of levels; then the reader is a variable with those contents (`Contains`), to which all other theorems apply |
| C104 | `multiple_regress` (`Model/MultiRegress`) | the sums of C72, with numpy's repetition of axes of length one (repeating commutes with summing over the other axes); then the normal equations: `XᵀX` has an inverse iff the regressors are independent, and moving away from the coefficients adds a sum of squares |
| C105 | `fft_smooth` (`Model/FftSmooth`, over ℝ and ℂ) | roots of unity: the sum of a harmonic over the line is 0 or n (geometric sum); so the transform of an inverse transform is the list of coefficients, zeroing the slice of coefficients keeps exactly the harmonics below `maxharm`, and the Hermitian extension that `irfft` makes is the same selection on both halves; uniqueness and nearness from orthogonality |
| C106 | time averages of variables (`Model/ClimVar` on top of `Model/Climat`): the fields kept by `modify`, the output axis (`remake`), `loopover` on views of axes, the sums | the loop on views of axes is the loop of C54 on positions (`accumulate_eq`), reading the chunks through the clipped axes by `slicedVar_read_whole`; the axis made out of the kept fields has these fields and distinct values (`remake_correct`, from the calendar theorems) |
| C107 | `climtrend` | the four sums by `accumulate_eq` on pairs (value, seconds), then completing the square (`line_best`) |
| C108 | `Model/TimeMatch`: equality and mapping of time axes with different fields, in views, `can_map`, `combine_axes` and operations; anomalies | the mapping of the slice of a finer time axis is the position of its date (`timeMap_coarser`, from C13/C14's exact search), the reordering and uniquifying of `View.get` for one mapped axis (`get_any`, `read_out`), combination of axes by absorbing the coarser one (`combine_out`), then C106 |
| C109 | `from_trend`, `detrend` | C107 loaded into memory (`load_shows`), read on the axes of the series through the mapping of C108 (`fromTrend_correct`), subtracted on equal axes (`op_self`) |
| C110 | `from_files`: manager with its memories, domains (C77), datasets, reading (C80) | invariant `Sound` of what the manager remembers, kept by every read (`sound_after`); no axis of a domain is empty (`getDomains_nonempty`); a point of a domain is covered by an entry with the same variable (`found_in`), so the axes of a variable are those of its files (`construct_spec`) and every cell read has a file (`read_says`) |
| C111 | `DataInterface.find`, `have`, `find_best` | head of two stable sorts (`head_two`, on the numbered candidates), lexicographic scores (`higher_iff`) |
| C112 | `splittimeaxis`: the axes of years and days, the joined request, the common map with the input times, the layout of the output | years by sorting distinct years, days by `distinct_good`; the pairs of the common map for one date come in the order of the input (`commonMap_tie`), so the last one wins (`last_pair`) |
| C113 | `jointimeaxes`: the joined axis, the years and days of a request, reading them, the map back | positions of the years and days of a request on the axes of the input (`split_slice`), reading axis by axis (`read_places`), the map of the request into the joined years and days (`timeMap_rows`) |
| C114 | `to_xarray`: the pieces, their keys, the sizes of the pieces; `XArray_DataArray` | the loop keeps, for each axis, the slices met so far: at the end they are the pieces of `loop_mem` in order (`fold_product`), and keys given early stay valid (`loop_state`) |
| C115 | `guessclimits`, and `clfdict`/`cldict` as `showvar` calls them | percentiles lie between the least and the greatest value, in order; the spacing is between the range over the number of divisions and 5/3 of it (`spacing_spec`), so that number of spacings covers the range |
| C116 | `clfdict`, `cldict` with `np.linspace` and `np.arange` described | both are progressions: first value, step and number are computed from the arguments (`lattice`, `arange_eq`) |
| C117 | `AxisManager.lookup_axis` and `_settify_axis`, with a heap in which identities are reused | invariant over all histories: every object looked up is kept and alive, bins hold representatives of their hash, `_id_lookup` is the first match in the bin (bins only grow at the end) |
| C118 | the loop of `AutoCalendarLocator.__call__` and the state it leaves | no generator is left upwards and downwards; between one with too few ticks and the next with too many the search turns at most twice; a stop is a local optimum, which is global for graded counts |
| C119 | `LogNorm2Sided.__call__` and `inverse` on numbers, levels of `log1sdict`, `log2sdict` | real analysis (`Real.log`, `Real.rpow`); levels are numbered from zero and each number has its colour (`level_colour`) |
| C120 | `grid`, `AxesWrapper.add_axis` on a heap of wrappers | the boxes of a row and of the table by induction over the loops; positions as sums of the columns and rows before |
| C121 | `render`, `_build_axes`, `get_transform` | invariant of all heaps made by the constructors (`Made`); induction up the holders for the transform, down them for what is drawn |
| C122 | the layout part of `colorbar`, `annotate` | from C120 for two panels |
| C123 | `chain`, the functions in degrees, `vsum`, `vprod`, `clip`, `map`, `UfuncVar` with its check of the arguments | Python functions as partial functions of lists of numbers; C34 for the variables |
| C124 | `Spectral.__init__` | the lists of degrees and orders zipped into blocks; Gauss's sum; real square root |
| C125 | `merge_coefs`, `SplitCoefs`, `split_coefs`, the keywords `A`, `B` of `from_trend` | reading a coefficient in a view of the table is a read of C08 with one more axis; concatenation of C38; C107/C108 for the line |
| C126 | the functions of svd.c on flat arrays, the chunks and iterations of `SVD` and `EOF_iter`; `lstsq` and `eig` are parameters | loops as folds (`scatter`, `rows_write`); the sums over chunks add up (`pass_correct`); translation to matrices; at a fixed point `A1 = G2ᵀ`, `A2 = G1ᵀ` for the factors of the patterns, so that both commute with a diagonal matrix with distinct entries (`fixed_svd`) |
| C127 | the functions of eof.c on flat arrays, the stack of pieces, the calls of `EOF_guess`; LAPACK's `dsyev` is a parameter | `svd` gives a matrix decomposition (`svd_correct`); merging keeps orthonormality and, if `N` patterns are enough, rebuilds both pieces exactly (rank of the merged matrix, `sizes_vanish`); the stack is as high as the binary digits of the count have ones (`mergeWhile_correct`); induction over pieces, chunks and the last merges; sizes do not depend on the cut by traces of powers |
| C128 | the C conversions between numbers and bytes, `write_xdr` with its pieces, the decoding of `load_array`; floats are their bits | bytes of a number read back (`str2int32_sent`, `str2float64_sent`), the pieces concatenate to row-major order (`loopMem_order`), so `decode_sent_partial`; counterexamples for the types the client cannot read |
| C129 | the server's parsing of requests, its descriptions, the client's tokenizer (regular expressions as functions), parser and reading | tokens of a text by composition from the right (`Tok`), every description parses to its declarations (`dds_read`), requests parse to slices (`fieldsOf_request`), hence `getvalues_correct` and `open_correct` |
| C130 | the escaping of the server, the pattern of quoted texts with its backtracking, the five substitutions of the client, the parser of attributes; texts of floats are parameters | each substitution undoes the escape of one character (`subEscape_pass`), the pattern matches the whole text (`quotedRest_text`), tokens by continuations (`LexC`), the parser by induction: `attributes_correct_partial`; counterexamples for the texts outside |
| C131 | `openall` = expansion of patterns, joining of datasets (C96) and sorting (C66) composed; gathered set of (coordinates, value) pairs shown equal to the union over the files by a bijection of positions; permutation invariance by uniqueness of sorted lists |
| C132 | `formatvalue` with Python's `%` and `float()` as parameters; uniqueness of the longitude shown by bounds on integers, texts told apart by their last letter |
| C133 | the `v…` functions of the plot module up to the call of matplotlib (`Model/Plot`): the arrays of coordinates and values they pass on; `squeeze` and `transpose` by C36, C37; levels of `vsigmask` as bands |
| C134 | the loop of `savepages` (`Model/Pages`), figures being their sizes; an invariant says that what is on the page is above the current row, or in it and to the left |
| C135 | the loop of `showgrid` (`Model/ShowGrid`) on top of `grid` (`Model/Layout`): the table after `n` panels by induction, widths and heights from C120, places of the plots in inches |
| C136 | `open` of hdf4.py (`Model/Hdf4`) on the list of data sets the library gives; the condition of the code is shown to be "gives coordinates", the dictionary of axes computed as a list |
| C137 | tables of types, `put_attributes`, `get_attributes` and the numbers of `save` of netcdf.py (`Model/Classic`); cases on version and type, wrap-around as integer arithmetic, rounding to doubles as a parameter; counterexamples for the general claim |
| C138 | constructors of time axes and slicing (`Model/TimeInit`); every construction is shown to compute the values from the dates, and elapsed time is counted in ticks of the clock of `Spec/Calendar` |
| C139 | `reltime`, `wrapdate`, `conform_values` (`Model/TimeInit`); the test on field names is shown to be "leading fields" by going through all 4096 pairs of sets of fields (a finite domain), the defaults to agree by cases |
| C140 | seasonal axes as lists of (year, season) over the calendar model; the operations reuse the loop of C106, whose lemmas hold for any list of date fields; replacing the time axis is C66; the value of a season is that of its middle date, increasing with the season |
| C141 | construction, slicing, writing and reading of `Yearless` axes | a clock of days as specification, seconds since day 0 as measure; the file by C25 and C51 |
| C142 | `TimeFormatter` with the tables `autofmts`, on the texts of C87 | each format tells apart exactly the fields it shows; the choice by the mean distance; for beginnings of months, bounds on the days between them in every calendar |
| C143 | the lookups `getaxis`, `hasaxis`, `__getattr__`, `__contains__` and `Dataset.load`, on `whichaxis` (C35) and datasets (C96) | split the axes at the first that answers; a dataset of loaded variables is the loaded dataset |
| C144 | `need_full_axes`, on `loop_mem`, `clip` and `map_to` as in the reductions (`Loop`), with numpy's indexing by slices and arrays | what each chunk writes is right, each place is written by a chunk; the places by `loopover_spec` with no axis removed; trailing axes whole by `loopMem_trailing` |
| C145 | the dictionary of orders of `var.sorted`, `argsort`'s step, `interp.sorted`, on `sortedVar` of C66 | keys located by `whichaxis_correct`, the last entry of a key wins; then `sorted_correct`; slices keep names and classes, so the axis is found again |
| C146 | limits taken from data and labels of logarithmic colours, on `LogNorm` (C119); logarithm to base 10 as `Int.log` | largest and smallest element; the three branches on both sides of zero; bounds of the logarithm and of rounding |
| C147 | the way of a request through `DAP_Dir.handle` and the head of `DAPHandler.handle`; the addresses the client asks for | which beginnings of a path are possible when extensions have their only dot in front; then C128 and C129 for the dataset reached |
| C148 | `get_library_paths`, `find_library`; the files present, wildcards and the search of the system as parameters | the two nested loops as first of a list; joining of paths |
| C149 | `override_values` on `replace_vars` (C96) and looking up by name (C143) | induction over the dictionary; a dataset whose variables keep names and axes is a dataset |

## Trusted base

* Lean 4.33.0's kernel. The axioms used are `propext`, `Classical.choice` and `Quot.sound`, nothing else;
  `AXIOMS.md` (generated by `scripts/axioms.py` with `#print axioms`) lists them theorem by theorem. No axioms of
  our own, no `native_decide`, `bv_decide` or unfinished proofs.
* The definitions of `Verif/Model`: that they say what /repo says was checked by reading. Each definition cites its
  lines; simplifications are named there.
* The definitions of `Verif/Spec` and the statements of the theorems in `Verif/Props`.
* The description of numpy in `Model/NArr.lean` (arrays, reshape, transpose, fancy indexing of one axis, `ix_`, box
  assignment, `unique`, `searchsorted`), `Model/Combine.lean` (`broadcast`), `Model/Concat.lean` (`concatenate`),
  `Model/Along.lean` (`np.diff`, `np.add.accumulate`), `Model/Smooth.lean` (`scipy.signal.convolve(..., 'same')`),
  `Model/CalendarPy.lean` (`round`).
* Exact numbers: integers do not overflow, floats are rationals, NaN is `none`. Claims hold up to rounding in the
  real program; no theorem bounds the rounding error.

## What is modelled

| file of /repo/pygeode | modelled | not modelled |
|---|---|---|
| view.py | `expand`, `simplify_slice`, `contiguate_slices`, `View.__init__` (positions), `clip`, `map_to`, `get` (values, getview, getvalues), `loop_contiguous`, `loop_mem`, `replace_axis`, `unslice` by its effect | dtype promotion, progress display inside `get`, `modify_slice`, `index` |
| tools.c, tools.py | `msort`/`sort`, `map_to`, `common_map`, `partial_sum`, `partial_nan_sum` and wrappers, `common_dict`, `whichaxis`, `can_map`, `combine_axes`, `loopover`, `npsum`… | `eof.c`, `svdcalc`, `load_lib`, `need_full_axes`, `order` |
| axis.py | class relation, `is_equivalent`, `map_to`, `_getitem_asvar`, `get_slice`, aliases, `argsort`, `concat`, `rotatelon` | `formatvalue`, plotting attributes, `NamedAxis` and the other string axes, spectral axes, gaussian weights |
| timeaxis.c, timeaxis.py | `get_index`, `get_indices` search, `uniquify`, `common_map`, `map_to`, the three calendars and the yearless one (`val_as_date`, `date_as_val`, in C and the Python wrapper with units), `days_in_month`, `_getdoy`, compact dates, dates as texts (`str_as_date`, `formatvalue`), time range helpers | `$j`, `$v`, `$V` of `formatvalue`, patterns other than those of pygrc, `reltime` across calendars |
| timeutils.py, climat.py | `modify`/`uniquify`, `lag`, `date_diff`, `removeleapyears`, daily/monthly/seasonal/… means, standard deviations, counts, trends, detrending | `splittimeaxis`, `jointimeaxes` |
| var.py, varoperations.py | `__call__` keywords, `__getitem__` slicing, squeeze, extend, transpose, sorted, replace_axes, rename, fill, unfill | `Cast`, attributes, loading into memory (`load`) |
| reduce.py | sum, mean, min, max, variance (stdev before the root), their NaN and weighted variants, argmax; the `weights` argument and `Var.getweights` (`Model/Weights`) | `ReducedVar` name and metadata, NaN weights |
| ufunc.py | element by element operations, broadcasting over combined axes | the list of ufuncs |
| concat.py, dataset.py | concat along an existing or new axis, unique names, axis sharing, dataset concat grouping | arithmetic on datasets, `__str__` |
| diff.py, deriv.py, intgr.py, smooth.py | all getviews | `fft_smooth` |
| interp.c, interp.py | `interpgsl`, `Interp`, `interpolate`; linear interpolation | the other GSL methods (a parameter that passes through its points) |
| progress.py | `PBar` | the display |
| formats/__init__.py | `PackVar` | `autodetectformat`, dispatch |
| formats/netcdf4.py | `make_var`, `make_dataset`, `tidy_axes`, `write_var`, `dims2axes`, `save` and `open` without CF metadata | attributes, groups, `unlimited`, the library and its types |
| formats/cfmeta.py | names, units, calendars, axis kinds, auxiliary arrays, non-coordinate axes, strings, fill, scale, offset; `encode_cf` and `decode_cf` as a whole without stations, yearless times and attributes of variables | custom axes, `formula_terms` |
| timeticker.py | tick generators, `ticks`, `nticks`, `best_mult` | `AutoCalendarLocator`, `TimeFormatter`, `SeasonTickGen`, `DayTickGen` |
| formats/multifile.py | `Multifile_Var.getview` | file name patterns, `open_multi` scanning |
| stats.py, tools.py `shared_axes` | `regress`, `correlate`, `difference`, `paired_difference`, `isnonzero` up to the t statistic | `multiple_regress`, the distribution function of Student's t, square roots of variances |
| formats/data_scanner.py | `_Domain`, `_get_axis_names`, `_aggregate_along_axis`, `_get_prime_domains`, `_merge_domains`, `_merge_all_domains`, `_cleanup_subdomains`, `_get_domains`, `_Manifest`, `_get_axis_intersection` (values), `_DataVar.getview` | caches of `AxisManager`, auxiliary arrays, `DataInterface` |
| composite.py | `composite`, `CompositeVar`, `FlattenVar`, `flatten` (`Model/Composite`, `Model/Flatten`) | attributes; `delta` of units other than those of the axis |
| dataset.py | everything that makes, edits, selects from and joins datasets (`Model/Dataset`, `Model/DatasetOps`) | printing, `load`, the wrappers that turn functions of variables into functions of datasets |
| formats/__init__.py:22-88, 206-306, varoperations.py:275-306 and 480-486 | `Model/OpenOptions` | what a class makes of values is a parameter; CF decoding and encoding are in `CfFile`; attributes of variables other than scale and offset are left out |
| `Model/OpenMulti` | formats/multifile.py `open_multi`, `check_multi` (times), timeutils.py `delta`, `reltime` | one variable with a time axis; all six date fields; the data comparison and the gap search of `check_multi` left out; exact arithmetic |
| var.py | `__getitem__`, `_getitem_asvar`, `get` without keywords, `load` (`Model/GetItem`) | the lock and the progress bar |
| Model/Eof | eof.py:1-169 (weights, outputs, record axes), 349-413 (`EOF_svd`, `EOF_cov`), 421-506 (`EOF`) | data are reals; numpy's decompositions are parameters; `EOF_iter` is a parameter of `EOF`; names of the results not modelled (`EOF_guess`: Model/EofGuess, `EOF_iter`: Model/Svd) |
| formats/grib.c:20-983, formats/grib.py:22-146 | Model/Grib, Model/GribVar | a file is a list of bytes; failed reads, assertions and undefined shifts are `none`; numbers are exact. Not modelled: the wrappers for Python, printing, names and attributes of variables |
| `stats.py` `multiple_regress` | `Model/MultiRegress` | exact arithmetic without NaNs; `np.linalg.inv` is a parameter assumed to give the inverse or raise; square roots, Student's distribution, attributes and the dataset made of the results are left out |
| `fft_smooth.py` | all of it, real and complex branch; `numpy.fft` by its defining sums |
| climat.py | `Model/ClimVar`: the time averages of variables, `climtrend`; `Model/TimeMatch`: `from_trend`, `detrend` | `from_trend` of coefficients with a `year` field or given as A and B; the seasonal averages only as in C53 |
| timeaxis.py, tools.py | `Model/TimeMatch`: `Time.__eq__`, `Time.map_to` within `can_map`, `combine_axes`, views and operations | |
| FromFiles | formats/data_scanner.py `AxisManager`, `from_files`, `_domain_as_dataset`, `_DataVar.construct/getview` | auxiliary arrays, attributes, manifest (in Manifest), progress bar; a value of an axis is a rational; `fuel` bounds the search for domains and is proved to suffice |
| FindBest | formats/data_scanner.py `DataInterface` | datasets are lists of members |
| SplitTime | timeutils.py `_splittime`, `_jointime`, `SplitTime`, `JoinTime` | names and attributes of variables; integer data; a day axis that is not right after the year axis |
| XArray | ext_xarray.py `to_xarray` (values), `XArray_DataArray` | metadata, dates, progress bars; a dask array is described by its pieces |
| Contours | plot/cnt_helpers.py `guessclimits`, `clfdict`, `cldict`; pyg_helpers.py `_parse_autofmt_kwargs` (levels) | colour maps and other keywords; rounding |
| LookupAxis | data_scanner.py `AxisManager.lookup_axis`, `_settify_axis` (memory) | `_unsettified_axes` and `_intersections` are in FromFiles |
| Locator | timeticker.py `AutoCalendarLocator` | matplotlib, formats of labels |
| LogNorm | plot/cnt_helpers.py `LogNorm2Sided`, `log1sdict`, `log2sdict` | masks, clipping, autoscale, labels, colour maps |
| Layout | plot/wrappers.py: sizes, boxes, rectangles and holders of `AxesWrapper`; `add_axis`, `grid`, `colorbar`, `annotate`, `get_transform`, `_build_axes`, `render` | plots, their arguments and their order, projections, maps; rcParams are matplotlib's defaults; Python's limit on recursion is a parameter |
| Functions | ufunc.py: `__new__`, `chain`, `map`, `vsum`, `vprod`, functions in degrees, `clip` | names, types, `nan` and infinities, complex numbers |
| Spectral | spectral.py | axes with degrees and orders of their own |
| Coefs | tools.py:525-567, climat.py:502-511 | names and kinds of numbers |
| Svd | svd.c:22-159, svd.py:70-259, eof.py:182-292 | weights and scaling before the iteration, the variables built afterwards, printed lines; numbers are exact, `np.linalg.lstsq`, `np.linalg.eig` and the random seed are parameters; 0/0 is 0 |
| EofGuess | eof.c:65-165, 177-312, 398-535, eof.py:303-338 | later passes (`target`, never used by `EOF_guess`), memory, `prep` and the variables built afterwards; numbers are exact, `dsyev` is a parameter, `int` is unbounded |
| OpenDap | opendap.py:9-15, 48-92, 185-419, 543-770, 798-873 (attributes: 314-347, 658-697), opendap.c | HTTP, `urllib.unquote`, errors while data are read, conversion from and to CF (C91); floats are their bits, `lower` and blanks are ASCII |
| formats/multifile.py `expand_file_list`, `openall` | `Model/OpenAll` (the directory, the existence test and the format's `open` are parameters) |
| var.py, axis.py `formatvalue`, `AxisFormatter` | `Model/FormatValue` (`%` and `float()` are parameters) |
| plot/pyg_helpers.py `vplot`, `vscatter`, `vcontour`, `vsigmask`, `vstreamplot`, `vquiver`, `build_title`, `scalevalues` | `Model/Plot` (matplotlib, legends, colours, `vhist` and styles are not modelled) |
| plot/pyg_helpers.py `savepages` | `Model/Pages` (sizes only) |
| plot/pyg_helpers.py `showgrid` | `Model/ShowGrid` (maps, styles and the colour bar are not modelled) |
| formats/hdf4.py `open`, `HDF4_Var` | `Model/Hdf4` (the library and attributes are not modelled) |
| formats/netcdf.py 10-31, 46-130, 257, 513-514, 547 | `Model/Classic`: types, numbers, attributes | the C library; encodings of texts; arrays of more than one dimension as attributes |
| timeaxis.py 72-126, 355-420; timeutils.py 86-93, 124-129, 141-177; axis.py 357-378 (time axes) | `Model/TimeInit` | rounding of floats; overflow of 32-bit fields; axes without years (Yearless, seasons) |
| `timeaxis.py` makeSeasonalAxis (construction, `_get_cdates`, `date_as_val`, `val_as_date`), `climat.py` Seasonal and the seasonal operations | `Model/Seasonal` | season numbers outside 1..4 (they would change the array of years in place) are in the model but not in the theorems; axes with years only are left out; `formatvalue` of seasons is left out |
| Yearless | timeaxis.py:1013-1056 with 355-420, 72-126; cfmeta.py:165-188, 383-422 for them | tick generators, labels; arrays `year`, `month` given alone |
| TimeLabels | timeticker.py:515-560; timeaxis.py:128-134, 338-344, 807-811 | seasonal and yearless axes; `$j`, `$v`, `$V` in formats of the user |
| Lookup | var.py:443-459, 496-580; axis.py:493-504; dataset.py:46-60, 533-544, 580-605 | attributes of the Python objects, which come first |
| FullAxes | tools.py:604-662 | names of the axes; two arrays of positions at once, repetition of an axis of length 1 by numpy |
| SortKeys | varoperations.py:198-271, axis.py:292-331, interp.py:11-31 | attributes |
| LogLabels | plot/cnt_helpers.py:88-107, 341-350 | masked arrays (left-out values), the text of a label |
| DapRoute | opendap.py:134-181, 425-479, 717-719, 798-805 | HTTP, pages, `Dir` of the missing package `pygeode.server` |
| ArgMin | reduce.py:151-180 | as for Reduce |
| LibSearch | libhelper.py:3-50 | `dlopen` |
| Override | formats/netcdf4.py:151-168 | types, attributes of variables |
| not at all | | formats/{netcdf,hdf,…} (netcdf4.py, opendap.py and grib excepted), drawing by matplotlib, the web server around opendap.py |

## Variables with data on demand

`Var α` is a list of axes with a data source (array, `getview` or `getvalues`). `Spec.Contains x data` says that the
variable, asked for any positions on its own axes, answers with the values of `data : List ℕ → α` there;
`Spec.Shows nr y data` says so for requests made through any view that pygeode itself makes (`Var.read`, with axis
matching). Theorems about derived variables have the form: if `x` contains `data` then `op x` exists, has these
axes, and contains `f data`. They compose: the output of one is an input of the next.

## Findings: where the code does not do what it says

Theorems with the suffix `_violated` prove the counterexample for the model. The rest was found while modelling.

* Slice bounds beyond the axis are not clamped (C01, `expand_slice_beyond_end_violated`).
* `map_to` with repeated values in the first axis misses matches (C14); the axis `common_map` truncates differences to
  integers and so pairs values less than 1 apart (C16, `commonMap_equal_violated`).
* `Time.common_map` with repeats on both sides misses pairs (C61).
* Day of year ignores the year (C60, `getdoy_violated`); the seasons of 29 February, 31 May, 31 August and 30 November
  are wrong on the standard calendar (C53, `season_standard_violated`).
* `uniquify` of unsorted dates leaves duplicates; `get_index` without date fields never ends.
* Reading an empty view gives the wrong shape; `loop_mem` fails on empty axes.
* Axis equality is not symmetric or transitive (tolerance); a reversed slice of an axis with nearly equal values is read
  unreversed (`slicedVar_read_violated`).
* `whichaxis(-1)` raises TypeError; partially overlapping axes raise ValueError instead of being combined.
* `argmin`/`argmax` are wrong when the reduced axis is split into chunks (C41, `argmax_chunked_violated`); reductions
  of one position requested several times are wrong when split (`mean_repeated_violated`); reducing an axis named twice
  reduces another one too; integer means are truncated.
* Dataset variable and axis names collide when more than 99 share a name (C31, C32).
* The fill value 0 is ignored (C52, `pickFill_zero_violated`); negative start years cannot be read back from CF.
* Multi-file variables with overlapping files answer differently for different request orders (`overlap_violated`).
* `rotatelon(duplicate=True)` repeats the values at longitude 0, not those at the origin (`duplicate_violated`).
* The second derivative needs three points but accepts two; `cumsum` leaves out the first value; `diff(n=0)` is empty;
  derivatives and smoothing of integer variables are truncated; `lag` of an integer variable raises.
* `difference`: with fewer than two valid values on one side `d` is the difference of the sums (`differenceCell_few_violated`);
  the default `axes=None` raises (also in `paired_difference`; `difference_default_violated`); if the axes left are in
  different orders, values are taken from wrong positions (`difference_order_violated`). `paired_difference` uses the sample
  variance over N - 1 instead of N (`paired_error_violated`) and p = 0 with fewer than two pairs; `isnonzero` reports mean 0 and
  p = 0 without data (`isnonzeroCell_empty_violated`).
* `interpolate(transpose=…)` works the wrong way round (C71, `interpolate_transpose_violated`); only the first row's first
  finite step decides the direction, rows going the other way raise (`interp_mixed_violated`); the search for that step
  reads one coordinate past the end; if no two neighbouring coordinates are finite, -1 is returned without a Python
  exception set; without valid points `local_xin[-1]` is read.
* Manifest (C78, C79): one time stands for the whole table, so a changed file is missed for good when a file that changed later
  is scanned before it (`order_violated`, `sublist_violated`), when it changes in the second of the last scan, during a run, or
  gets an older time; `get_table` looks for the names as given, the table has them normalised (`norm_violated`); a run killed while it
  saves leaves a file on which every later run raises (`torn_violated`).
* Variables of `from_files` are NaN everywhere along an axis that goes downwards (C80, `getview_down_violated`); requests with
  irregular matches on two axes raise (`getview_irregular_violated`). The cache of `_unsettify_axis` is keyed by the kind of axis and
  the set of values only, so two axes of one kind with the same values get the name and the direction of the first.
* Packing (C82): missing values do not survive `save(pack=True)`: NaN is converted to an integer and read back as a number; the fill value
  attribute of the variable is kept and may be one of the packed integers, which are then read as missing.
* `Axis.rename` calls `type(self)(values=...)`, but `Index.__init__` takes its values as `n`: renaming an `Ensemble`, `Coef` or other `Index` axis raises a TypeError (axis.py:570 and 1225; not modelled).
* `removeleapyears` (C85): `doy` is collected year by year but compared position by position, so on an axis whose years are not in order the wrong days are removed (`unordered_violated`); a day listed twice leaves fewer dates than values (`duplicate_violated`).
* Station axes (C83, C84): `auxname in coordinates` is a substring test on the text "lat lon", so an auxiliary array named `lo`, `at`, `l`... is silently
  not saved beside latitudes or longitudes; a variable with two non-coordinate axes keeps the attributes of the last one only; `lat` and `lon`
  are written as variables even if the dataset has variables or axes of these names; an axis with NaN in an auxiliary array is not equal to itself.
* netCDF (C81): dimensions are replaced by axes through `whichaxis`, which ignores case and also matches class names. In a file with
  dimensions `x` and `X` the wrong axis is replaced, silently if the lengths agree (`save_open_case_violated`), otherwise the file
  cannot be opened (`save_open_case_fails`); a dimension named `axis` takes the place of others (`save_open_alias_violated`). An empty
  axis cannot be saved (`save_empty_violated`: `range(0, 0, 0)`), nor, without CF metadata, axes of one kind that overlap in part
  (`save_unencoded_violated`).
* CF files (C91): `decode_cf` drops every variable whose name is that of an auxiliary array of some axis (line 452), so a variable `weights` beside a
  latitude axis is lost without a word (`weights_violated`); auxiliary arrays of a `NamedAxis` are written and then thrown away
  (`named_aux_violated`); a bare dimension called `latitude` becomes a latitude axis 0, 1, ... (`dimension_name_violated`); a `DummyAxis` is never
  equal to any axis, itself included (axis.py:766 wants exactly `NamedAxis`), which the model does not follow: it takes equal objects as one.
* Dates as texts (C87): the documented form `06:00:00 1 Jan 1979` is refused, `06:00:001 Jan 1979` is read (`second_space_violated`); the
  default format of time axes, full month names and years before 100 are written but cannot be read; `Smarch` is month 0. The message
  of the ValueError is never filled in ('String "%s" not recognized'). Without pygrc the class default has no anchors at all.
* Time ranges (C88): `inc=True` uses `arange(0, n + step, step)`, which goes beyond the end unless the end is a whole number of steps away.
* Ticks (C89): month ticks with a multiple that does not divide 12 depend on `vmin` and can go beyond `vmax` (`month_ticks_violated`); `nticks` of hours,
  minutes and seconds looks for the first tick with the multiple in use, not the one asked for (`nticks_violated`). `DayTickGen.get_tick_prior` takes the
  day of the month for the day (`{'day': d}` is in year 0), `SeasonTickGen` writes the season into the month (line 180).
* A variable with the name of an axis cannot be saved even if that axis has no values to write (`save_name_clash`).
* File scanner: when files have the same axes in different orders (time excepted), all their datasets may be removed
  (`getDomains_order_violated`).
* Slicing an axis with repeated values so that the selected values equal its own leaves the auxiliary arrays as they were
  (`sliceAxis_aux_violated`).
* Keyword prefixes: `var(lon=…, s_lon=…)` drops one condition; auxiliary names with `_` are split.
* `transpose` with one axis named twice repeats it; `asdataset(copy=…)` calls the parameter; `Dataset.add` computes the
  common attributes and then ignores them.
* Composites (C92): an event that begins before the axis and is not the longest shows values past its end (`composite_overrun`); one that goes
  beyond both ends raises (`composite_raises`); lengths and offsets given for each event are attached in the order of the axis, not of the list;
  one length with an offset for each event cuts the offset axis; `clim_detrend`, `clim_anoms` and `time_ave` call `composite` with positional arguments
  it does not take and always raise.
* Flattening (C93): a time composite cannot be flattened with `inner=-1` (no attribute `offset`); requests that are out of order with gaps are scrambled
  without an error (`flatten_scrambled`), other irregular ones raise.
* Weights (C94): a variable without axes given as `weights` is silently ignored (`scalar_weight_violated`), so `sum(weights=w)` is not scaled.
* Calls (C95): `var(s_lon=…, m_lon=…)` raises a KeyError while the same keywords in the other order work (`order_violated`); two `m` keywords for one axis make `mean` reduce twice.

- C96: `Dataset.add` computes the global attributes common to all arguments and then uses those of the first dataset
  (`add_atts_violated`, dataset.py:408-419). Adding a variable under a name in use renames both (`add_clash`), so that existing
  references by name break. Joining datasets adds an axis `concat` to every variable that is the same in all of them, such as a
  land mask (`join_static`). `replace_axes(keep_old_name=True)` has no effect for axes given as objects (varoperations.py:286-302).
- C97: `namemap` of `open` renames variables and axes with the same dictionary, and axes are found by any alias and in any case: renaming a variable
  V renames an axis v as well; `dimtypes` for an axis `lon` also replaces another longitude axis in variables without an axis `lon`; with an axis or a
  class with arguments in `dimtypes`, `namemap` no longer finds the axis by its name in the file; `pack='temperature'` packs every variable whose
  name is a part of this text
- C98: the guard of `open_multi` against first and last files that are not aligned compares a number of steps with a tenth of
  a step in the units of the axis; for 6-hourly data in hours (or anything in seconds) it never refuses, and the axis gets
  times that no file has (`misaligned_violated`).
- C99: `v[np.int64(2)]` keeps the axis although `v[2]` drops it (the test is for `int`); `v[[0, 1]]` is read as `v[0, 1]`; two equal
  values on an axis make `v[:, k]` return the data of the first of them.
- `formats/opendap.py` imports `pygeode.server`, which does not exist in the repository: the module cannot be imported
  unless another package provides it (the protocol is modelled all the same: C128-C130, C147).
- C100: `EOF` picks the method by the size of the data, and `EOF_svd` and `EOF_cov` scale differently: eigenvalues differ by the factor
  √(records − 1), so that the same analysis of slightly more data changes its eigenvalues by orders of magnitude (`methods_differ`);
  the principal components of `EOF_svd` have the sum of squares 1, not unit variance as documented. A record axis that is not the first,
  also the time axis found by default, is not moved to the front: records and places are mixed without a message
  (`record_axis_violated`). `weight=None` and `iaxis` given by name or as an axis raise although documented; the outputs `eofs`,
  `timeseries`, `variance`, … are accepted and then raise `KeyError` after the whole computation.
- C101: no function of the GRIB module can work from Python: the wrappers call `PyCapsule_New` on the capsule they are given (grib.c:1020,
  1031, ...) where `PyCapsule_GetPointer` is meant, and take the new Python object for the index. What the C functions underneath do is
  the content of C101 to C103.
- C101: a negative decimal scale is read into an unsigned number (`negative_scale_violated`); constant fields and some widths shift by 32
  or more (`constant_field_violated`, `wide_field_violated`); the tests for bitmaps and other packings read `(!flag) & 128` and never fire.
- C102: a time and level without a record reads the first record of the file or whatever offset is in memory
  (`missing_record_violated`); forecasts for different times get the same date (`forecast_violated`); averages are told apart modulo 256
  (`average_violated`); an odd number of vertical parameters makes an index that cannot be read (`odd_coords_violated`).
- C103: of the two bytes of a level only the second is used, so that pressure levels above 255 hPa are wrong (`level_violated`);
  grids across Greenwich get longitudes that run the wrong way round (`lon_violated`).
- C104: `multiple_regress` documents the output `'B'` and has it as a default, but knows only `'beta'` (`output_B_violated`); its
  outputs `'p'` and `'sb'` are transposed the wrong way for two or more axes left (`output_sb_violated`); a regressor without one
  of the axes regressed over is summed once instead of once per position (`missing_axis_violated`: Y equal to the first regressor
  gets the coefficient 2).
- C105: `fft_smooth` of a complex variable with `maxharm=1` removes nothing and with 0 removes only the mean (the slice `maxharm:-maxharm+1`, fft_smooth.py:40); on numpy 1.23 and later line 41 (a list of slices as index) refuses every complex variable. A negative `maxharm` removes the highest harmonics instead of being refused (`negative_violated`).
- C106: a time of a climatology (daily mean, ...) requested twice and no other, as in `yearlymean(x)(li_time=[0,0])`, is wrong the second time (`View.get` removes repetitions, view.py:235-245, except when all are the same, because `np.all(u == ind)` broadcasts): all values but the last go to the first copy (`repeated_time_violated`). Averages of integer variables raise an exception (`sum /= count`). The standard deviation of a single value is NaN (0/0).
- C108: `x - climatology(x)` (or any operation with an average that is computed when it is read) is wrong when it is read at several times that all fall on the same date and no others, as in `(x - climatology(x))(month=1, day=5)`: the mapped positions are all the same, `np.all(u == ind)` broadcasts (view.py:235-238), and the climatology is asked for one date twice, which C106's finding gets wrong. With `climatology(x).load()` it is right (`op_dates_memory`). Theorem `same_date_violated`.

- C110: `AxisManager._unsettify_axis` remembers axes by class and values only (data_scanner.py:296-297): the second of two axes of one class with equal values gets the name of the first (`name_violated`). Times with different reference dates are merged by their relative values (`origin_violated`). Variables with common axes in different orders are read with the axes mixed up (`order_violated`).
- C111: `find_best` calls `maximize`/`minimize` with the list (or tuple) of variables and not with the dataset, so the documented example `lambda dataset: len(dataset.zaxis)` raises AttributeError; a list of functions (documented) fails, only tuples work; `minimize` is ignored if `maximize` is given. `have` also finds axes.
- Not modelled because they cannot run: composite.py `clim_detrend`, `clim_anoms` and `time_ave` pass positional arguments to `composite(var, **kwargs)` (TypeError always); opendap.py uses modules of Python 2; `ufunc.map` documents keyword arguments that `UfuncVar` does not take.
- C112/C113: the assertion `'year' not in days` (timeutils.py:382) looks among the values of the axis and always holds. Integer variables cannot be split (NaN is assigned to an integer array, line 455). `out[sl]` and `data[slices]` with a list of slices (lines 471, 555) fail on numpy 1.23 and later. If the day axis is not right after the year axis, line 544 drops the axes between from the shape, and the data of these axes are mixed with the times. With 29 February among the days of a standard calendar, joining with a year that has none makes 29 February and 1 March the same time.

- `to_xarray` (C114) looks up `var.getview`: on a variable that only has `getvalues` (a variable of a file that nothing has
  been done to) it raises an exception (`toXarray_getvalues_violated`). The graph it makes calls `getview(view, False)`;
  methods that report progress (`pbar.update`, `pbar.subset`: ufuncs, reductions, `XArray_DataArray` itself) fail on `False`
  when the array is computed. This is read off the code, not modelled.
- plot/cnt_helpers.py `guessclimits`: sequential contours need not reach the highest value (`contours_seq_violated`). The
  "degenerate case" of line 175 cannot occur (and returns three values where two are expected). Without finite values and
  `type='cl'`, the keywords `ndiv` and `style` it returns are passed on to the plot, which does not know them.
- `clfdict(nozero=True)` with `mid` other than zero gives lines that are not multiples of anything (`nozero_mid_violated`), and
  ignores `nozero` for sequential contours; `cldict` with `nozero` or `cidelt` forgets `mid` and `min` (`nozero_lines_violated`).
- plot/cnt_helpers.py: `LogNorm2Sided.inverse` of an array raises an exception (`val[min]` for `val[ineg]`, line 79), and what it would
  return (line 81) is another formula; `log2sdict(ndiv=1)` makes a scale that divides by zero (`log2s_one_violated`).

- `AxesWrapper.get_transform(root)` (plot/wrappers.py:111) asks its holder for a transform without passing the root on. Drawing a wrapper which is held by another one (to look at one row of a page, say) gives it the whole page but leaves the panels in it where they are on the larger page (`render_held`, `render_inner_violated`).
- A panel used twice in a `grid`, or moved from one to another, is looked up with `axes.index(self)` in the last holder only: it is drawn twice in one place, or drawn by its former holder where the new one has it (`render_twice_violated`, `render_moved_violated`).
- `AxesWrapper.add_plot(plot, order=..)` (plot/wrappers.py:60) calls `insert(plot, order)` with its arguments exchanged: it raises TypeError (not modelled).

- `arctand2` (ufunc.py:258) is a `chain`, which takes one argument, of `arctan2`, which takes two: every call raises TypeError (`arctand2_violated`).
- `map` (ufunc.py:111-147) documents keywords passed to the function; they go to `UfuncVar.__new__`, which takes none (`map_keywords_violated`). An argument which is neither a number nor a variable makes it return `NotImplemented` (`map_array_violated`).
- `interp.sorted` (interp.py:13-31) makes a variable whose `getview` does not take the progress bar it is called with; it cannot be read (not modelled; `Var.sorted` is another function, C66).

- C126: `SVD` and `EOF_iter` return the series of the patterns of the iteration before (they differ by 1e-5 of each element at most); if
  they converge exactly in the last iteration allowed they report a failure (svd.py:256, eof.py:279). `SVD` of two constant fields or of
  data with fewer modes than the subspace leaves the answers of `lstsq` undetermined.
- `clim_detrend`, `clim_anoms` and `time_ave` of composite.py:299-376 call `composite(var, **kwargs)`, which takes no positional
  arguments: they always raise `TypeError`.
- C127: `svd` takes the square root of eigenvalues of a positive semidefinite matrix without a guard (eof.c:157). Whenever that matrix is singular
  (the last piece is padded with zeros, a merge of 2·num patterns when there are fewer places), LAPACK may return a tiny negative eigenvalue: the size is NaN, `eig[i] != 0`
  holds, and the NaN gets into the patterns. In exact arithmetic this cannot happen, so the theorems do not see it.
- C127: `assert(work->stacksize < 100)` and the stack of pieces: proved to hold for up to 2^99 records.

- C128: unsigned 32-bit integers from 2^31 on arrive as negative numbers (opendap.py:761 casts to `int32`); `uint8` arrays and texts are served but
  the client raises on them; `str2float64` asserts that an 8-byte type has 4 bytes (opendap.c:44, 187), which fails unless NDEBUG is set.
- C129: an axis named like an integer (`1_0`) and names with a dot cannot be read back; a request for some of a grid's parts gets a `Structure`,
  which the client does not parse. Neither side runs on Python 3 as it is (`httplib`, `urllib.unquote`, str written to binary streams, tokens' `next`).

- C130: one empty attribute text, one that ends with a backslash, or a `uint8` attribute makes all attributes of the dataset unreadable; a newline, tab
  or quote after a backslash arrives as backslash and letter, because each substitution looks one character back only (opendap.py:680-684).

- `formatvalue` of longitudes, latitudes and pressures ignores `unitstr` (axis.py:861, 1014, 1199), and with it the plot attribute `plotunits` (`unitstr_violated`).

- `vsigmask` with `mnsig` below `mjsig`, as documented, gives matplotlib the levels -1.1, -mnsig, -mjsig, mjsig, mnsig, 1.1, which do not increase: it raises (`sigmask_minor_violated`).
- `savepages` puts a figure beside the last one without looking whether it is taller than the row: it can run off the page (`savePages_violated`).

- `showgrid` raises when there are more columns than panels (`grid` takes the width of an empty column) and for lines only (`vf[0]`); panels above empty places of the last row have
  no coordinates along x (`wide_violated`, `lines_violated`, `labels_violated`).

- `hdf4.open` numbers the axes in `dimids`, the list of all one-dimensional data sets, instead of those that are axes (hdf4.py:216): when a one-dimensional data set that gives no
  coordinates comes first, a dimension gets the coordinates of another one (`Hdf4.open_violated`).

- `put_attributes` of netcdf.py:118, 121 leaves the loop (`return`) at the first attribute of an unsupported type, so that all later attributes are lost although the warning names only one (C137, `Classic.attributes_violated`). In version 3 `uint32` is stored as `int32` without a check, so that numbers from 2^31 become negative (`Classic.unsigned_violated`).

- A seasonal axis made without a start date (`SeasonalStandardTime(year=..., season=...)`) gets a start date without month and day, so `val_as_date`, and with it every label, takes all its times for DJF (`no_start_violated`, C140). `seasonalmean` on another calendar raises `TypeError: 'NotImplementedType' object is not callable` instead of the intended message (climat.py:131, 155).
- C91: `decode_cf` makes the time axis of a climatology (and every yearless axis) with `modify` (cfmeta.py:421), which does not hand on the name (timeutils.py:81): the axis is called `time` afterwards, whatever it was called (`climatology_name_violated`). An earlier version of the model kept the name; it was corrected.
- C141: a yearless axis that starts before day 0 is written as `days since 0000-01--5`, which cannot be read (`negative_day_violated`); one with fewer fields comes back with all four (`fewer_fields_violated`).
- C142: with ticks every twelve hours the labels repeat (`half_days_violated`); ticks eleven months apart can share a year (`eleven_months_violated`); one tick is labelled with the time of its day (`single_year_violated`).
- C143: `getaxis` of a dataset gives an earlier axis with a class of that name (`getaxis_name_violated`); `hasaxis` can raise an error (`hasaxis_violated`); an auxiliary array can hide its axis (`axisAttr_violated`).
- C144: `need_full_axes` completes the wrong axes unless they are the last ones (`first_axis_violated`, `first_axis_part_violated`).
- C145: `interp.sorted` with an axis object raises KeyError (`sortedOne_axis_violated`); `reverse=1` is not `reverse=True` (`reverse_violated`).
- C146: `LogNorm2Sided` may take `vin` above a `vmax` that is set (`autoscale_vin_violated`); `lfmt` gives 150 and 250 one label (`lfmt_violated`).
- C147: in a directory with datasets `a` and `a.dds` all requests for the second are answered by the first if it comes first in the dictionary
  (`clash_violated`); arguments with a question mark and paths such as `/a.ddsx` get the page for browsers with status 200
  (`query_violated`, `unknown_violated`).
- C148: with LD_LIBRARY_PATH unset, `''.split(':')` puts an empty directory into the search path: a file `libnetcdf.so` in the working directory
  hides the library of the system (`working_directory_violated`). (`tools.load_lib`, an older version that nothing uses, removes `plugins/` from
  a name with `strip`, which removes letters.)
- C149: `value_override` for a dimension without a coordinate variable is silently ignored (`override_axis_violated`).

## Testing the theorems

`seeded/mutations.py` lists edits of the model, `scripts/mutate.py` applies each to a copy outside /verif, rebuilds and
writes `seeded/LOG.jsonl`. An edit no theorem notices is either equivalent for the claims (said so in its note) or led
to a new theorem (field `tightened`).
