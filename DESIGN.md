# Formal model of tablite

Target: `root-11/tablite` at the pinned commit, read as text from `/repo` (Python package `tablite`, Nim package `nimlite`).
Nothing in `/repo` is run or changed.

## 1. Trusted base

* Lean 4.33.0 kernel. Mathlib is used for ordinary lemmas only (imported one module at a time).
* Axioms: no theorem depends on more than `propext`, `Classical.choice`, `Quot.sound`. No own axioms, no `sorry`/`admit`,
  no `native_decide`, no `bv_decide`.
* The hand translation Python/Nim -> Lean. Each model definition cites file and lines and states its simplifications.
* Things outside the model, assumed to work as documented: CPython `list/dict/range/slice`, numpy slicing/concatenate/take/put,
  the Nim runtime, the file system, zip archives, multiprocessing start-up and the operating system scheduler.

### Modelling conventions

* A *page* is the list of the values it stores; a *column* is the list of its pages (`List (List α)`), so page limits are explicit.
  Where page identity matters (copy isolation, save/load, refcounts) pages carry an id and a store maps ids to contents.
* Element type `α` is arbitrary. In the models of columns and tables over `α`, numpy dtype coercion (`np_type_unify`, `list_to_np_array`,
  `numpy_to_python`) is treated as identity on values. Where it is not the identity is the subject of C79-C81 and C85 (`Model/TypedCol.lean`), which model
  arrays with numpy types; other parts that are about types (type counts, filter comparison, hashing) use a concrete value type.
* Python `int` = `Int`/`Nat`. Floating point is replaced by exact rationals where numbers matter (statistics, rounding); IEEE rounding is not modelled.
* Exceptions are values (`Except Err _`).
* If the code violates the property: the model follows the code, the file proves the negation by a concrete witness (`..._fails`), and the
  strongest true part found is proved under `..._partial`.

### Layout

* `lean/Verif/Spec/`   specifications independent of the model (Python list slicing, calendar, relational joins, ...)
* `lean/Verif/Model/`  the code, function by function, with citations
* `lean/Verif/Lemmas/` helper lemmas
* `lean/Verif/Props/`  property theorems, non-vacuity `example`s and counterexample witnesses

## 2. Plan per property

| id | modelled | proof |
|----|----------|-------|
| C01 | `_paginate`, `extend`, `__iter__` | induction on pages; concat = input, sizes 1..PAGE_SIZE |
| C02 | `intercept`, `getpages`, `__getitem__` (slices) | refinement to Python slice spec; code loses \|step\| for step <= -2 -> witness + partial; `C02_exact`: with a negative step right iff the step is -1 or the slice has at most one value |
| C03 | `getpages`, `__getitem__` (int) | refinement; double wrap for i < -len -> witness + partial; `C03_exact`: right iff not -2·len <= i <= -len-2 |
| C04 | `_setitem_integer_key` | refinement to list `set` |
| C05 | `__setitem__` dispatch, replace_all/extend/prextend/insert | refinement to Python slice assignment; negative start / stop beyond the end -> witnesses + partials; `C05_exact`: iff |
| C06 | `_setitem_update` | partial (slice inside one/two adjacent pages), witness for three pages; `C06_exact`: an if-and-only-if for columns of different values (`StrideExact` lists the layouts and slices for which the assignment is right) |
| C07 | `_del_by_int`, `_del_by_slice` | partial (first page), witnesses; `C07_int_effect` gives what any index does; `C07_int_exact` and `C07_exact`: if-and-only-if for columns of different values (first page that is not empty, or everything in the last pages) |
| C08 | page store + columns as lists of page ids, operations | invariant: pages are immutable, other columns unchanged; `replace` mutates shared dtype -> witness on types |
| C09 | `__imul__`, `__mul__`, `__iadd__`, table versions | refinement to list append/replicate |
| C10 | `Column.__eq__`, `__ne__` | decision logic, all branches; `C10_exact`: equal values or all pages shared |
| C11 | `get_by_indices` | refinement for in-range indices; -1 -> witness |
| C12 | page metadata counts | invariant by induction over operations; stale after deletion -> witness `C12_drop_effect`, `C12_drop_exact`: deleting positions or values never changes `types()`; the counts are right afterwards exactly if nothing was deleted. |
| C13 | `index`, `histogram` | induction; layout independence; `C13_count_exact`: the count is right iff no typed page holds a value equal to the item but of another type |
| C14 | `remove_all`, `replace` | refinement to filter/map |
| C15 | `rows`, `__len__` | refinement |
| C16 | table `__getitem__` | from C02; row -1 -> witness; `C16_row_exact`, `C16_slice_exact`: iff |
| C17 | `stack` | refinement |
| C18 | `BaseTable.__eq__` | decision logic; zero-length short cut -> witness; `C18_exact`: same table or no rows at all |
| C19 | `BaseTable.index` | induction |
| C20 | `unique_index` with CPython integer hash | witness hash(-1)=hash(-2); partial under injective hash; `C20_effect`, `C20_exact`: right iff no two keys collide |
| C21 | `save`/`load` with page names | round trip under page-id injectivity; `C21_exact`: iff some column has a page |
| C22 | refcount table + file set transition system | invariant over all interleavings |
| C23-C26 | `_sp_*_mapping` | refinement to relational spec; `C24_order_exact`: order kept iff equal keys stand together; `C26_exact`: right iff neither table is empty |
| C27 | `_mp_reindex_page`, chunking | chunked = whole, any completion order |
| C28 | `_lookup` with cache | transparency of cache; hash collision witness; `C28_effect`/`C28_exact`: right iff the first match of the first row with the same hash is also right for the row itself; `C28_no_column_raises`; in rows, with the pages of the result: `C28_rows_partial` (`Props/LookupRel.lean`) |
| C29 | Nim `filter` page loop | refinement; partition; `C29_exact`: iff no rows or some expression names a column |
| C30 | Nim comparison methods | decision table; witness for != across types; `C30_eq_ne_exact`, `C30_le_ge_exact`: the exact kinds for which the operators agree |
| C31 | `filter_all`, `filter_any`, `drop` | refinement |
| C32 | `sort_index` | permutation, sortedness, stability; for ranks by text the exact order and when it is the order of the values |
| C33 | `groupby` page zipping and dictionary | refinement if layouts agree; witness otherwise; `C33_effect`/`C33_exact`: misaligned pages are cut to their common lengths, the answer is right iff no row is lost |
| C34 | accumulators | fold = closed form over the rationals |
| C35 | median accumulator | partial (distinct values), witness; `C35_exact`: iff |
| C36 | `_numeric_statistics_summary` | fold = closed form |
| C37 | CSV state machine | round trip by induction over characters; `C37_exact`: for quoted fields, iff no field holds what the reader changes |
| C38 | task partition | arithmetic induction |
| C39 | `guessDate`, `wordsToDate`, `inferDate` | decision logic; December witness; `C39_bounds_exact`: exactly which texts make the reader of dates write behind the end of its array |
| C40 | `inferInt` | round trip; `C40_effect`/`C40_exact`: the value is reduced to 64 bits, right iff it fits |
| C41 | `updateRank`, `sortRanks`, `insertSort` | invariant by induction over input; `C41_total_exact`: exactly when the ranking of a page ends in an exception |
| C42 | `days2YearsDays`, `days2Components` | inverse to day count spec |
| C43 | `toTimedelta64`, `divmodF`: sums of 64 bits that wrap, quotients in floating point | arithmetic; a double is exact below 2^53. False in full: sums beyond 64 bits |
| C44 | `calcRepaginationSteps`, `repaginate` | induction |
| C45 | mask handling, `unusedMaskSearch`, `makePage` | partition; same-type page witness. `C45_effect`: the two tables hold exactly the rows of the pages some request looks at; `C45_exact`: nothing is lost exactly when the names worked out are distinct and every page with rows is looked at (`Props/SelectRows.lean`) |
| C46 | output naming | witness + partial; `C46_effect`/`C46_exact`: right iff the worked-out names are distinct |
| C47 | `unique_name` | termination by pigeonhole, freshness, minimality |
| C48 | `calc_col_count` | bijectivity |
| C49 | `page_steps` | induction |
| C50 | `split_by_sequence` | round trip |
| C51, C52 | `to_bytes`/`from_*`, JSON | round trip per type, witnesses; `C51_durations_exact`, `C51_texts_exact`, `C51_decode_exact`, `C52_exact`: iff |
| C53 | `round` | arithmetic over rationals; `C53_up_exact`, `C53_near_exact`: iff |
| C54 | temporary page encoding | round trip |
| C55 | header arithmetic | modular arithmetic |
| C56 | `carry_forward` | induction; in rows, with the pages of the result: `C56_rows_partial` (`Props/CarryRel.lean`) |
| C57 | page-wise imputation | witness + partial; `C57_exact` (`Props/NearestKept.lean`): exactly which missing cells are filled when there are several kinds of missing values and several pages: those whose page is not left and worked on again later |
| C58-C60 | pivots | refinement; `C58_exact`: iff first header and first column are distinct; `C59_exact` (`Props/PivotExact.lean`): a counting pivot is right iff the group-by loses no row; `C60_exact`: the rows are the cells of the listed columns; in rows, with the pages of the result: `C59_relation_partial` (`Props/PivotRel.lean`), `C60_rows_partial` (`Props/UnpivotRel.lean`) |
| C61 | `diff` | edit-script reconstruction; `C61_exact`: which rows can be recovered |
| C62 | `reindex`, `sortation.reindex` | refinement; `C62_exact`, `C62_checked_exact`: iff. False in full: an empty index raises in `sortation.reindex` (`C62_checked_fails`) |
| C63 | `where` | witness for several pages + partial; `C63_exact`: iff; `C63_rows_partial`: on lists of rows |
| C64 | `match` | witness + partial; every pair agrees in the first criterion that found a row; `C64_exact`: when exactly the claim holds |

| C65 | `Mode`, dictionary of counts | fold = most frequent value; ties; `C65_effect`, `C65_exact`: iff |
| C66 | quartiles, dominant type of a summary | arithmetic on sorted lists |
| C67 | page type chosen by ranking, reading of a page as that type | case analysis over types seen; `C67_width_exact` (`Props/WidthExact.lean`): a page with guessed types cannot be imported exactly if most of its values were counted as text and one value is longer than one character and than all values counted as text |
| C68 | `inferFloat` | round trip, separators `C68_exact`: which texts the loose float reader takes and with which value, as a grammar. |
| C69 | object pages: pickle writer and reader of the Nim code | round trip by induction over the values |
| C70 | `.npy` headers, readers and writers of the Nim code | round trip `C70_exact`: which pages survive the round trip through a file. |
| C71 | `add_rows` | case analysis over call forms; witnesses for ambiguous forms; `C71_exact`, `C71_unknown`: keyword arguments; `C71_named`: what each keyword argument adds (specification `KwGives`) |
| C72 | tables as references to columns | independence invariant; sharing witnesses. `C72_exact`: two tables are independent exactly when they have no column object in common; `C72_names_exact`: a selection of two or more names never is |
| C73 | `Table(...)` | case analysis; `C73_exact`: iff |
| C74 | `Table.__getitem__` | case analysis; duplicate names witness; `C74_exact`: iff no name is given twice |
| C75 | `text_writer` with csv.writer composed with C37/C38 | round trip by induction over rows; witnesses; `C75_effect`: what every text comes back as (backslashes dropped, line feeds and tabs as a backslash and a letter) and `C75_exact`: exactly which tables come back, for texts without CR and without a backslash at the end or before a quote; with the default settings `C75_default_exact` (`Props/ExportDefault.lean`) says exactly which texts come back |
| C76 | `to_dict`, `to_json`, `from_json`, `as_json_serializable` | round trip; `C76_exact`: iff every value is None, an int, a float or a text |
| C77 | `intercept` | set equality by arithmetic; `C77_exact`, `C77_exact_descending`: iff |
| C78 | imputation by mean and mode | refinement to the statistic; witnesses; `C78_exact` and `C78_mode_exact`: exactly when imputation leaves the columns of the receiver as they were |
| C79-C81, C85 | columns with numpy types | which values survive; invariant over all writes. `C80_exact`: strided assignment to a typed column stores the values exactly when each survives the cast; `C80_kept` says which do (`Props/TypedExact.lean`) |
| C82 | joins with `merge_keys` | refinement to the joins of C23-C26; `C82_inner_effect`, `C82_inner_exact` (`Props/MergeExact.lean`): exactly when an inner join with merged keys succeeds, what it then has, and exactly when that is the expected set of columns |
| C83 | alphanumeric sort | refinement to C32; witnesses; `C83_exact`: it succeeds exactly when no two different values of a key column have the same text |
| C84 | `_filter_using_expression` | refinement to a filter; witnesses for name search; `C84_exact`: right exactly when there are no rows, or at least two column names occur in the text and all that occur are identifiers |
| C86 | `DataTypes.guess`, `Rank` | ranking invariant over all histories; witnesses for order dependence `C86_first`, `C86_first_exact`: if one type accepts all values, the first value alone decides whether the column is read as that type. |
| C87 | `_infer_date`, `date_formats` | equivalence with the accepted spellings; the days accepted are those of the calendar; columns; `C87_column_exact`, `C87_order` (`Props/GuessExact.lean`): a column of spelled dates becomes dates exactly if its first text is not `YYYY-MM-DD`, so the order matters |
| C88 | `_infer_datetime`, `datetime_formats`, `pattern_to_datetime` | reading of every style; rounding bounds; witnesses `C88_int_exact`: a column of integer texts is guessed as integers exactly if the first spells neither a day nor a moment. |
| C89 | `excel_reader`, `_fix_xls_page`, `calc_true_dims`: rows, page files, names | invariant of the loop over the rows, with C54 for the page files; witness for `limit`; `C89_limit_exact` (`Props/SheetExact.lean`): an Excel import has at most `limit` rows exactly if the sheet has no more behind the start |
| C90 | `ods_reader`: filter, slice, names | the filter as take and filter; equality with the Excel reader; witnesses for `start` and for the differences; `C90_start_exact`, `C90_parity_exact` (`Props/SheetExact.lean`): exactly when `start` leaves out rows of an ODS sheet (0, or nothing to leave out) and when both readers agree |
| C91 | the search of `from_html` | induction over the reads: the position stays at -1 |
| C92 | `parse_hh_mm_ss_ff`, `inferTime`, `inferDatetime` | case analysis on lengths and separators, both directions; witnesses for 99:99 and dates with blanks; `C92_raises_exact`: exactly which texts of time characters raise something else than the ValueError that is caught |
| C93 | the casters, `delta2Date`, `datetime2Date`, `seconds2Duration`, text formats | days and dates are inverse over the years 1 to 9999 (finite table per kind of year), error bounds for the float, digits of padded numbers; `isRound_double` shows rounding to doubles meets the assumption; `C93_truth_exact`: exactly which numbers become the truth value of being non-zero; `C93_clock_exact`: which datetimes and times come back from their text (those of whole seconds); `C93_time_exact`: which datetimes give their time of day; `C93_forms`, `C93_forms_exact` (`Props/CastText.lean`): which reading of a text as a date wins, exactly which texts of at most nine characters become dates, are rejected, or make the reader write behind the end of its array |
| C94 | `summary_statistics` and its methods for types other than numbers | reduced to C36 by mapping the histogram; all ten entries of each method stated from the quantities of C36 (`C94_*_entries`) and which method runs (`C94_method`); error bounds for the seconds of times; witnesses for time deltas, quartiles of dates, microseconds; `C94_exact` |
| C95 | `Model/Preview.lean`: `detectSeparator`, `headersLoop`, `nimHeaders`, `textHeaders`, `getDelimiter`, `pyTextLines` | separator = most frequent candidate, unique (sorted head); preview = records from the header row on, lazily (induction over the lines); names and cells against the import theorem of C38. False in full: cells with tabs or line ends, files with more colons than commas, lone CR, `is_empty` with linecount 0, default delimiter of the import (always a comma); `C95_lines_exact`, `C95_separator_exact`, `C95_empty_exact` |
| C96 | `Model/Display.lean`: `pickTag`, `sliceDict`, `cutColumn`, `displayDict`, `typeLabel`, `asciiCols`, `asciiLines`, `toAscii`, `dictToRows` | name of the row numbers by pigeonhole; rows shown as positions of the slice of the filled column; long tables by the slices of C02; frame by an invariant over the dictionary of centred names; texts up to blanks at the ends. False in full: 15 names taken, columns that end within the last seven rows, fill values longer than `None`, names that differ only in blanks; `C96_tag_exact` and `C96_long_exact` say exactly when the first two happen; `C96_dict_rows_exact`: `dict_to_rows` raises exactly for columns of different lengths (and for no columns) |
| C97 | `Model/Encoded.lean`: `readLine8`, `readUnits`, `wideText`, `encReadLine`, `openFile`, `fileLines`, `findNewlineBytes`, `importFile`, `pyEncoding` | files as bytes; the lines from a position found while scanning are the lines the scan saw from there (induction over the lines); UTF-8 and UTF-16 of a text read back line by line; code pages as a map of bytes. False in full: CR LF inside quotes differs between UTF-8 and UTF-16; `C97_crlf_partial`: texts with CR LF line ends are imported alike in all encodings when every line is a record of its own |
| C98 | `Model/Import.lean`, `Model/Csv.lean` on the bytes of `Model/Encoded.lean` | simulation: the parser on UTF-8 bytes follows the parser on characters state by state (a byte of a character beyond ASCII is never special), names and choice of columns by injectivity of UTF-8. False in full: the limit of a field counts bytes `C98_exact`: the bytes of a UTF-8 file are read as its characters exactly when no field takes more than 128 × 1024 bytes on the way. |
| C99 | `Model/Tracker.lean` | invariant (the open files are those listed, at most the limit) kept by every write; contents by induction on the writes. False in full: a limit of 0; `C99_exact`: iff the limit is not 0 or nothing is written |
| C100 | `Model/DateRange.lean` | floor division against `range`. False in full: the last moment is missing if the last step is cut short; `C100_exact`: `range` iff a whole number of steps, or steps leading away |
| C101 | `Model/Sql.lean` | a reader of SQL literals as specification, round trip by induction on cells, rows and columns. False in full: None is the text 'NULL', rows of one column end in a comma, apostrophes and backslashes are written as Python does. `C101_exact`: the script reads back exactly for two or more columns of equal length with at least one row and plain values (`Props/SqlExact.lean`) |
| C102 | `Model/SortDates.lean` | sort values as rationals with a rounding function, monotony of rounding. False in full: a date beside its own midnight raises, times and timedeltas use different units; `C102_exact`: exactly which columns of dates and datetimes can be sorted at all |
| C103 | `Model/Hdf5.lean` | write and read column by column, keys sorted. False in full: the order of columns is lost, texts that look like numbers come back as numbers, mixed columns as texts; `C103_exact`: the order is kept iff the names are in alphabetical order |
| C104 | `Model/Replace.lean` | fold over the names, count of each name. False in full: a column named twice is mapped twice; `C104_exact`: iff mapping `k` times equals mapping once |
| C105 | `Model/Unique.lean` | sorting as a contract, runs of equal values, sets as a contract. False in full: an empty column raises, 1 and True are merged unless a None stands on their page; `C105_exact`: right iff there is a page and no two equal values of different types |
| C106 | `Model/Pandas.lean` | construction of tables (C73). False in full: `to_pandas` always raises UnboundLocalError |
| C107 | `Model/SheetWrite.lean` | cell by cell. False in full: bools, dates and numbers beyond 2^32 - 1 are written as text in .xls and .ods; `C107_exact` |
| C108 | `Model/NdSlice.lean` | rows by type of page, composed with the page files of C70. False in full: datetimes with fractions of a second, texts that end in NUL; `C108_exact` (`Props/NdSliceExact.lean`) says exactly which rows taken from a page come back |
| C109 | `Model/Procs.lean` | invariant over all histories of several processes, on top of C37. False in full: forked processes that drop a page or run `shutdown`; `C109_exit_exact`: exactly which exits keep the other processes whole |
| C110 | no new model: `Model/{Sort,Filter,Table}.lean` composed | two programs compared by what `tview` of their results shows; sorted lists that are permutations of each other are equal, first rows by `isFirst` |
| C111 | no new model: `Model/{Join,Lookup,Filter,Table}.lean` composed | rows compared by `List.Perm`; nested loops as the spec; pairs of rows without repetition and with the same members are permutations; `C111_lookup_exact` (`Props/LookupJoin.lean`): counting partners, lookup and left join agree exactly if no row has two; `C111_size` (`Props/JoinSize.lean`): the number of rows as a sum over the keys |
| C112 | no new model: `Model/{GroupBy,Table}.lean` composed | rows collected by key are a permutation of the rows; pages of a group-by result are cut alike, so it can be grouped again |
| C113 | no new model: `Model/Store.lean` against lists (`Props/ListSim.lean`) | simulation: every step that is right (`OpRight`, the exact conditions of C05-C07) keeps the columns equal to the lists and raises the same error; `C113_always_partial` has no condition on the state. False in full: `c[-1:] = [9]`; `C113_step_exact`: exactly which steps behave as on a list |
| C114 | no new model: `Model/{Table,Filter}.lean` composed (`Props/StackLaws.lean`) | both programs are brought to what `tview` shows of them; `valsOr` of a stack is the concatenation for every name, also missing ones. Columns of one length are needed: `C114_ragged_fails` |
| C115 | `Model/FilterIn.lean` (`contains`, `toRepr`) | Python's `str` as a relation; False in full: Nim writes booleans in small letters and drops fractions of a second; right on all other values. `C115_exact`: which texts a value contains, for every value |
| C116 | `Model/FilterIn.lean` (`_in`, `not_in`) | False: the arguments are exchanged; `C116_exact`: right iff the texts are equal or neither contains the other |
| C117 | `Model/FilterIn.lean` (`filter_non_primitive`) | refinement for all lists of expressions; agreement with C29 |
| C118 | `Model/ApiArgs.lean`: `imputeTargets`, `imputeSources`, `tableSortIndex` | case analysis for every table and argument. False: `targets='a'` raises TypeError for a column a of the table; `Table.sort_index` with a mode always raises. Exact conditions |
| C119 | `Model/ApiArgs.lean`: `importAny` (checks, table of readers; the readers themselves are parameters here and modelled elsewhere) | exact conditions for every suffix and setting. False: `.json`, `.fods`, `.simple`, `.rst`, `.mediawiki`, `.xls` are named as supported but handed to openpyxl, which opens none of them; html and hdf5 ignore start and limit |
| C120 | `Model/GroupBy.lean`, `Model/Table.lean` | the group rows are characterised by the rows (`GroupsOf`), then permutation, filter, append and merge laws; reindexed tables have equally long pages by induction over the steps. False in full: the mode of an int and a float of the same number depends on the order |
| C121 | `Model/SheetPreview.lean` | the loops over the rows by induction; the width kept is the smallest that holds every cell that is not None. False in full: `None` in place of rows (`C121_exact`), formulas shown as text, one row more in Excel than in ODS (`C121_parity_exact`), an Excel sheet named "delimiter" is lost (`C121_book_exact`) |
| C122 | `Model/Types.lean` | adding counters over pages is counting in the concatenation, by induction on the pages; the predominant type is characterised and unique |
| C123 | `Model/TextEscape.lean` | Python's csv reader as a state machine; reading line by line is reading character by character (`pyRecords_mid`), then simulation over fields in quotes and plain fields; `C123_plain_exact`, `C123_constructor_exact`: iff. False in full: brackets have no effect at all (`C123_brackets_ignored`), blanks stay with a quote character, the empty line raises; `C123_open` (`Props/TextEscapeOpen.lean`): an unclosed quote makes one field of the rest of the text |
| C124 | `Model/ApiArgs.lean` | the table of readers against the suffixes; `C124_exact`, `C124_formats_exact`: iff. False in full: HTML and HDF5 have no preview |
| C125 | `Model/Reshape.lean`, `Model/Replace.lean`, `Model/Impute.lean`, `Model/Diff.lean` | second runs: carry forward and mode change nothing; `C125_replace_twice_exact`: iff the mapping leaves its own values alone. False in full (`C125_fails`: a mapping that swaps) |
| C126 | `Model/ColumnStats.lean`: `columnStatistics` (the histogram of C13 into the summary of C36 and C94) | the histogram written out is a permutation of the values; statistics of permuted lists agree. False in full: with a tie between types or between texts the first one is taken (`C126_fails`, `C126_type_fails`); `C126_exact` (`Props/StatsOrder.lean`): the statistics are independent of order and pages exactly if one type, and for `str` one text, outnumbers the others |
| C127 | no new model; `Props/TableSim.lean` has the specification (`Rel`: names and rows) and `Query`, pipelines of the modelled operations (filter, sort, slice, reindex, drop_duplicates, replace, columns, `*`, stack, `+`, inner and cross join) | refinement: `Shows t r` relates a table of any layout to names and rows; one simulation lemma per operation, then induction on the pipeline (`C127_partial`); `C127_pages`: two layouts and page sizes give the same rows. False in full: `t * 0`, steps below -1, filters without columns, a single column, cross joins with an empty table (`C127_fails`, `C127_slice_fails`). Left and outer joins, groupby and pivot are not part of pipelines |
| C128 | no new model; `Props/Script.lean` adds statements (`Stmt`: pipelines of C127, group-by, pivot, `pivot_transpose`, nearest neighbour imputation of one column, carry forward imputation, lookup, left and outer join) and scripts of assignments | refinement with an invariant on pages: every operation gives columns cut at the same places, without empty pages, from such columns (`run_shape` in `Props/TableShape.lean`, one lemma per operation), and under it group-by, pivot, imputation and the left and outer joins give the rows of the specification (`Shows.groupby`, `C59_relation_partial`, `C60_rows_partial`, `C143_rows_partial`, `C56_rows_partial`, `C28_rows_partial`, `Shows.left`, `Shows.outer`); induction on the script (`C128_partial`). False in full: the stack of tables with different columns pads with one page, and group-by of it loses rows (`C128_fails`); values carried forward in some columns only, and columns looked up, are cut anew while the others stay as they were, and group-by counts half of the rows (`C128_carry_fails`), unless the table was sorted, picked by rows, freed of duplicates or joined (inner or cross join) just before (`run_recut`). `transpose` and `where` are not part of scripts |
| C129 | `Model/ImportTyped.lean`: the import of C38 with any way of writing a page (`importWith`), and with the ranking and writing of `Model/Rank.lean` (`typedCells`, `importTyped`), fields missing at the end of a row included | `C129_shape`: every import that returns a table has the names, pages and rows of the import as text, and each value is a reading of its text under some type, without hypotheses; `C129_import`: with C38, against the records of the file; `C129_missing`: a missing field is `None` unless the page consists of texts, then it is the empty text |
| C130 | model of C129 | false: an empty field next to texts is a text, in a page of its own `None` (`C130_effect`, `C130_fails`); an import fails if skipped rows fill a page (`C130_skip_fails`).  `C130_partial`: columns of one type, with missing values unless the type is text, give the same table for all page sizes, by an invariant on the ranking (`RankState`: at most two types are counted, the others keep their order); `C130_exact` (`Props/PageAgree.lean`): texts are read in all pages as on their own if and only if they agree (`TextsAgree`: none is read as the type of another one with another value, no ints next to floats, no eight digit dates next to numbers), by an invariant of the ranking over any counted types; `C130_agree_partial`: files whose columns agree are imported alike for all page sizes, including columns of several types; `C130_skip_exact` (`Props/AgreeScript.lean`, over `importWith_kept` and `importWith_skipped` in `Props/SkipExact.lean`): with rows skipped, such a file is imported if and only if none of the pages it is cut into loses all its rows (`KeptEach`), otherwise the import fails |
| C131 | `Model/ExportTyped.lean`: `csvText` (`txt` of `text_writer` with `to_json`: `None`, bools, integers, floats, texts, dates, times, datetimes), then the writer of C75 and the import of C129 with the default settings; `str` of a float and Nim's `parseFloat` are parameters; timedeltas and time zones are not modelled | false: an integer of 8 to 10 digits that begins with a date comes back as the date, 1.125 comes back as 1125 (`C131_numbers_fails`); texts of other values come back as these, `None` among texts as empty text (`C131_texts_fails`); `None` in a table of one column comes back as two quotes (`C131_single_fails`). `C131_partial`: columns of one type, with `None` unless the type is text, come back, for every page size. Integers must be negative or of less than 8 or more than 10 digits; floats must be written with a point and not three digits after it; Nim's `parseFloat` must refuse the texts of dates and times (it does: `-` and `:` follow the digits); `C131_exact` (`Props/ExportAgree.lean`): if the written texts of every column agree, a table comes back if and only if the text of every value, read on its own, is the value |
| C132 | no new model: the import of C38 and C129, then scripts of C128 on its tables (`Props/ImportScript.lean`) | false: if rows are skipped and all rows of a page are, the table has an empty page, and a left join raises IndexError (`C132_effect`, `C132_fails`). `C132_import`: an import of texts has the requested rows, its columns are cut at the same places, and no page is empty if and only if no page loses all its rows to skipping (`KeptEach`); `C132_partial`: then every script with a meaning gives the rows of the same script on the records. `C132_typed`: an import with guessed types that succeeds never has empty pages |
| C133 | no new model: `tInit`, `tSet`, `tAddRows` of C71-C73 and `groupby` of C33 (`Props/BuildGroup.lean`) | false: two rows, one row added, then a column of three values assigned: group-by loses the third row (`C133_effect`, `C133_fails`). `C133_partial`: lists of the same length, then any calls of `add_rows` with complete rows: no row is lost. `C133_exact`: a column assigned later is grouped rightly exactly when the others are cut into full pages |
| C134 | no new model: `imputeCarry` of C56, `tblLookup` of C28, `tblWhere` of C63 and `groupby` of C33 (`Props/AddedCols.lean`) | false: two tables of one row are stacked, a gap is filled, and group-by by the other column loses the second row, which it had before (`C134_effect`, `C134_fails`). `C134_exact`, `C134_lookup_exact`, `C134_where_exact`: counting the computed column by another is right exactly when the other is cut into full pages. `C134_partial`: tables of full pages stay so, and every group-by is right |
| C135 | no new model: `excelRead` and `odsRead` of C89/C90, `fromHdf5` of C115, `jsonRoundtrip`, `fromPandas`, `tblSave`/`tblLoad` of C21 and `groupby` of C33 (`Props/Readers.lean`) | false for `load`, which appends the saved pages one by one: a table extended by rows and then by a column is saved, loaded with the same values, and group-by loses the second row (`C135_effect`, `C135_fails`). `C135_exact`: counting one loaded column by another is right exactly if the loaded pages end at the same rows. `C135_load` gives the pages. `C135_kept`: a table with aligned pages stays groupable; `C135_page_one`: with pages of one row every loaded table is groupable. `C135_partial`, `C135_pages`: the other readers cut full pages, so their tables can be grouped |
| C136 | `nbytes`, `statPages`, `addPages`, `rMul`, `rIAdd`, `rUnpickle` (`Model/Bytes.lean`): page objects with identity and path; the size of a file is a parameter | false: pages are dictionary keys by identity, so the file of two page objects (a table and its unpickled copy, concatenated) is counted twice (`C136_effect`, `C136_fails`). `C136_exact`: the first number is at least the bytes on disk, and equal exactly if no file with content belongs to two objects. `C136_partial` gives both numbers, `C136_shared` when they agree, `C136_repeat` those of a repeated table, `C136_missing` the error for a missing file (`Props/Bytes.lean`) |
| C137 | `guessTypes` (`Model/GuessTypes.lean`): `Rank` with its items as objects, of which lists cannot be hashed; the ranking and the `_infer_*` functions of C86; the rounded share is a parameter | false: `Rank` is called with the list of the types as its only item, so TypeError is raised for every call (`C137_raises`, `C137_fails`); `C137_partial`: with the types as separate items every value is counted for one type |
| C138 | `Model/Html.lean`: `htmlRow`, `htmlWarning`, `reprHtml` on top of `htmlRows` (C96) | false: nothing is escaped (`C138_fails`: `a<b>c` is shown as `ac`; `C138_effect`: the cell `</table>` hides what follows); `C138_exact`: shown as it is exactly if no text has a `<` that opens a tag nor a named character, by counting the characters that are shown; `C138_partial`: texts without `<` and `&`; `C138_total`, `C138_warning`: when the view fails and when the warning follows |
| C139 | `TpzFile`, `fileLoad`, `writtenEntries`, `saveTo`, `interruptedAt`, `killedAfter` (`Model/SaveCrash.lean`): the archive after a save that ends early | `C139_fails` (the old table is gone, the file is truncated first); `C139_partial`: the path gives an error or the whole new table, never a part; `C139_exact` (unreadable pages), `C139_interrupt_exact` (exception after k entries), `C139_killed_exact` (process killed) |
| C140 | `Reopened`, `Sessions` (`Props/Sessions.lean`) over `scriptRun`, `tblSave`, `tblLoad` | `C140_fails` (a table without rows cannot be saved); `C140_exact`, `C140_possible`: a table without empty pages can be reopened exactly if it has a row; `C140_reopened`; `C140_partial`: the tables after all sessions have the rows of the whole script on lists of rows, by induction over the sessions |
| C141 | `textRel`, `relText`, `Readable` (`Props/FilesToFile.lean`) over `importText`, `Sessions`, `textWriter`, `fromFile` | `C141_export`: the exported text depends on names and rows only; `C141_back`: what it is read back as; `C141_exact`: exactly when the texts come back; `C141_fails` (a text of two lines); `C141_partial`: import, scripts in sessions with saving and loading, and export together give the text of the rows the scripts compute on the records of the files; rows may be skipped if no page loses all its rows |
| C142 | `readAs`, `typedRel`, `OneType` (`Props/TypedScript.lean`) over `importTyped`, `Sessions`, `textWriter` | `C142_import`: a file with one type per column is imported, for every page size, as the table of its typed records; `C142_partial`: scripts in sessions on such imports, and the exported text, give what the scripts compute on the typed records; `C142_fails`: an empty field next to a text is an empty text or no value depending on the page size; `C142_agree`, `C142_agree_partial` (`Props/AgreeScript.lean`): the same for columns of several types whose texts agree; `oneType_agree`: columns of one type do; rows may be skipped if no page loses all its rows (`KeptEach`) |
| C143 | `rowDist`, `ReadyFor` (`Props/NearestRow.lean`) over `nearest` | `C143_partial`: a missing value becomes the value of the first of the nearest rows, among the rows with a known value and the rows before, by a loop invariant over the visited rows (`nnVisits_near`); `C143_first`: the nearest row with a known value if all values before are known; `C143_fails`: a filled value is passed on to the next row although a row with a known value is as near; `C143_rank`, `C143_order_partial` (`Props/NearestOrder.lean`): with the order of `unixSort` (`nnSort`) the rank of a value is the number of different values before it, no row that could be taken lies between a row and the one its value is taken from, and a row with the same sources is preferred; `C143_pages_partial`: the outcome does not depend on the pages; `C143_rows_partial` (`Props/NearestRel.lean`): the same as a step from rows to rows, which determines the rows of the result |
| C144 | no new model: `pivotTranspose`, `tblFilter` and `selectCols` composed | `C144_partial` (`Props/UnpivotLaws.lean`): on lists of rows, the rows of a name among different names, by `C60_rows_partial`, `C29_filter_partial` and `Shows.select`. False in full: a number beside a text comes back as a text (`C144_fails`) |
| C145 | no new model: `tblJoin` (left) and `tblFilter` composed | `C145_anti_join`, `C145_exact` (`Props/LeftJoinLaws.lean`): by `Shows.left` and `C29_filter_partial`, filters of permutations, and the place of a right column in a joined row |
| C146 | no new model: `groupby` and `tblJoin` (inner) composed | `C146_partial` (`Props/GroupJoinBack.lean`): each key is once among the keys of the groups, so each row has one partner; by `Shows.groupby` and `Shows.inner`. False in full: columns cut at different places (`C146_fails`) |
| C147 | as C146, with two tables | `C147_partial` (`Props/GroupJoinBack.lean`): as C146, rows without a partner have none among the groups; `C147_fails` |
| C147- | see `properties.jsonl` | see section 3 |

## 3. Results

`MANIFEST.json` lists, per property, the theorems and whether the full statement was proved. `proved`: the statement in `properties.jsonl` holds of the model and is
proved. `partial`: the full statement is false of the code (there are `_fails` theorems with concrete witnesses) or is only proved under extra hypotheses; the
theorems ending in `_partial` carry the hypotheses, and the comment above each says what is missing. Each theorem that has hypotheses has an `example`
beside it that meets them.

`seeded/LOG.jsonl` records the wrong programs the theorems were tried against: the model definition that was edited, the edit, the claim it breaks, and the
theorems that stopped compiling. Edits that no theorem noticed led to the theorems named under `tightened`.

## 4. What is assumed and what is left out, by part

Every model file begins with what it covers, and every definition cites lines and simplifications. In summary:

* **Columns, pages** (`Paging`, `ColumnWrite`, `ColumnQuery`, `Store`): a page file holds what was written; `PAGE_SIZE` is any positive number fixed during a run.
* **Page files** (`Refcount`, `SaveLoad`): garbage collection of CPython reference counts as events; a save that is interrupted is in `SaveCrash` (entries of the archive are written whole or not at all); other crashes of the process and failures of the file system are left out.
* **Joins, lookup, filters, sort** (`Join`, `Lookup`, `Filter`, `Sort`, `MergeKeys`, `TextSort`, `ExprFilter`): worker tasks run sequentially, in any order where order
  matters; equal keys are identified; collation and `str` are parameters; Python's compiler and evaluation of an expression are parameters.
* **Group-by, statistics** (`GroupBy`, `Stats`): doubles as exact rationals.
* **Text import** (`Csv`, `Import`, `Infer`, `Rank`): the Nim code compiled with `-d:danger` (no overflow or range checks); `parseFloat` is a parameter; doubles as exact
  rationals; encodings are left out (text is a list of characters).
* **Reshape** (`Reshape`): what a page array does to a value is the parameter `store`; `SINGLE_PROCESSING_LIMIT` 0 is left out.
* **Diff, match** (`Diff`, `Match`): `difflib` opcodes satisfy their contract `Covers`; `argsort` sorts a total order; no broadcasting of arrays of length 1.
* **Codec**: the functions of the Python runtime are a record `Runtime` with the contract `RuntimeOk`; the sign of zero and numpy scalars are left out.
* **Repaginate, Pickle, Npy** (Nim): reading back a file gives the bytes written; a pickle memo keyed by value; calendar of std/times; opcodes the code does not
  implement are errors; time deltas in page files are left out.
* **Nearest, Impute**: exact rational distances; what a page array does to a value is the parameter `store`.
* **Select**: casts are a record of functions; processes and page files are left out; results come back in the order of the tasks.
* **TableObj, Export, JsonTable**: conversions by `list_to_np_array` are left out (C79 covers them); CPython's csv.writer is modelled, with Linux line ends;
  `json.loads(json.dumps(x))` is the identity on the values used.
* **TypedCol, TypedOk**: numpy's conversions are a record `NpRt` with the contract `NpOk`; sequences as cell values, numpy scalars and subclasses of Python types are left out;
  `np.save` and `np.load` are inverse.
* **DateText**: `fromisoformat` as in CPython 3.8 to 3.10 (later versions accept more); UTC offsets with seconds and fractions that `float` accepts but are no digits are left out; doubles are rationals with a rounding function.
* **Sheet**: a sheet is a rectangular list of rows as openpyxl (rows padded, missing rows empty) or pandas (after `data[isna(data)] = None`) deliver it; the workbook, choice of the sheet, XML and progress bar are left out, as is the conversion of lists to numpy arrays (C79). `from_html` is modelled up to the first row it finds, which is enough because it finds none.
* **Guess**: `float(text)`, formatting of doubles, the tables of date formats and `str` are a record `GuessRt`; numpy scalars are left out.
* **StatsAny**: the summary of the seconds is computed exactly, conversions of times are rounded; the clock (time zone) is a parameter; results are entries with units, not their text.
* **Preview**: a file is its text; encodings, byte order marks and the guess of the encoding are left out; previews of Excel and ODS files are not modelled.
* **SortDates**: dates and times are whole microseconds; float division is the exact quotient rounded by a function with the contract `IsRound`; the rest of sorting is C32.
* **Hdf5**: h5py as documented (arrays of int64, float and bool as they are, texts as UTF-8 without NUL, keys in alphabetical order); names with `/`, the empty name and integers from 2^63 to 2^64 are left out.
* **Replace**: values only (numpy types of pages are C79); two names never share one Column object.
* **Unique**: NaN and MemoryError are left out; order of sets and choice of representative by contract.
* **Pandas**: a data frame is its dictionary of lists; what pandas makes of missing values is left out.
* **SheetWrite**: pyexcel writes the rows it is given.
* **NdSlice**: indices are in range (the native code is built without bound checks); `toRunes` of invalid UTF-8 is an error here.
* **Procs**: a page number and its file are one step; a directory is the number in its name; processes of one machine share one disk.
* **Operators `in`, `not in`**: texts are lists of characters (Nim searches bytes of UTF-8); the text of a float is a parameter; dates are those of Python.
* **ApiArgs**: arguments are texts, lists of texts or something else; lists that hold other things than texts are left out; openpyxl is known by the suffixes it opens; the readers are parameters.
* **SheetPreview**: `excel_reader_headers` and `ods_reader_headers`. A book is the list of its sheets as openpyxl and pyexcel give them: a cell is its formula (if any) and its stored value, all rows have `max_column` cells. The libraries themselves, `total_lines` and thumbnails are not modelled.
* **Types**: `types()` and `get_predominant_types`; the type of a value is a function that is given, the page counters are those of `Page.types` (C12 treats the stored counters and their ageing).
* **TextEscape**: Python's `csv.reader` is modelled by its documented state machine (CPython `_csv.c`, not strict); checks of the dialect made by later
  versions of Python are left out.
* **Guessed types** (C129-C131): timedeltas and time zones of datetimes are left out of the exported values; `str` of a float and Nim's `parseFloat` are parameters. A missing field in a page of numbers is modelled as a failed import.
* **Tracker**: a file is the list of what was written to it; failures of the operating system are left out.
* **DateRange**: a datetime is its microseconds since year 1, up to the end of year 9999.
* **Sql**: `repr` of texts and integers is modelled, `repr` of other values and `str.isprintable` beyond ASCII are parameters; the specification reads literals, not expressions.
* **Encoded**: a string of Nim is a list of bytes (characters below 256); `readLine` of a plain file ends at LF and drops one CR before it, `$` of a wide string joins surrogate pairs and stops at NUL, as Nim's `system/widestrs` describes; the converter of code pages is a parameter (a map of single bytes that keeps LF and CR for the theorems); all lines are read before they are parsed.
* **Display**: names of columns are texts; `str`, `type(v).__name__` and the text of row numbers are parameters; two types of the same name count as one; the HTML text is in `Model/Html.lean`; the browser is a specification (`htmlShown` in `Props/Html.lean`): it knows rows, cells, the end of the table and four named characters, and drops every other tag.
* **Cast**: dates and datetimes are microseconds since 1970; `parseFloat`, `$` of a float and rounding are a record `CastRt` with the contract `CastRtOk` (met by `doubleRt`); text of dates is modelled for the years 1 to 9999; infinities and NaN are left out.
