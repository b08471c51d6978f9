{
 "claims": [
  {
   "property": "C01",
   "status": "proved",
   "theorems": [
    "Tablite.C01_construct",
    "Tablite.C01_extend_history",
    "Tablite.C01_full_pages"
   ],
   "note": "C01_construct: `list(Column(values)) == values` and every stored page holds between 1 and `ps` values. C01_extend_history: histories: any sequence of `extend` calls yields the concatenation of the data, all pages bounded. C01_full_pages: only the last page of a freshly built column may be shorter than the page size; the number of pages is `ceil(len/ps)`."
  },
  {
   "property": "C02",
   "status": "partial",
   "theorems": [
    "Tablite.C02_slice_read_partial",
    "Tablite.C02_negative_step_ignored",
    "Tablite.C02_layout_independent",
    "Tablite.C02_fails",
    "Tablite.C02_exact"
   ],
   "note": "C02_slice_read_partial: slice reads agree with list slices for every page layout and every slice whose step is absent, positive or -1. Missing: steps below -1, where the code is wrong (`C02_fails`). C02_fails (the full statement is refuted): does not hold of the code: `Column([0..5])[::-2]` is `[5,4,3,2,1,0]` instead of `[5,3,1]`. C02_exact (exactly when): exactly when: with a negative step, `column[a:b:k]` is the list slice if and only if the step is -1 or the slice has at most one value. (For all other steps it always is, `C02_slice_read_partial`.)"
  },
  {
   "property": "C03",
   "status": "partial",
   "theorems": [
    "Tablite.C03_int_read_partial",
    "Tablite.C03_double_wrap",
    "Tablite.C03_fails",
    "Tablite.C03_exact"
   ],
   "note": "C03_int_read_partial: for every index `i ≥ -len-1`, and every `i < -2*len`, reading `column[i]` is list indexing: the value for `-len ≤ i < len`, IndexError otherwise. Missing: `-2*len ≤ i ≤ -len-2`, where the code wraps around twice (`C03_double_wrap`). C03_fails (the full statement is refuted): does not hold of the code: `Column([7,8,9])[-5]` returns 8. C03_exact (exactly when): exactly when: reading `column[i]` is list indexing if and only if `i` is not in `-2*len .. -len-2`"
  },
  {
   "property": "C04",
   "status": "proved",
   "theorems": [
    "Tablite.C04_int_assign",
    "Tablite.C04_read_back"
   ],
   "note": "C04_int_assign: integer assignment is list item assignment for every layout and integer (IndexError included), and keeps all page lengths. C04_read_back: read back: after `column[i] = v`, position `i` reads `v` and any other position reads as before."
  },
  {
   "property": "C05",
   "status": "partial",
   "theorems": [
    "Tablite.C05_insert",
    "Tablite.C05_replace_all",
    "Tablite.C05_extend_partial",
    "Tablite.C05_extend_negative",
    "Tablite.C05_extend_unpaginated",
    "Tablite.C05_prextend_partial",
    "Tablite.C05_prextend_beyond",
    "Tablite.C05_slice_assign_partial",
    "Tablite.C05_fails",
    "Tablite.C05_fails_prextend",
    "Tablite.C05_exact"
   ],
   "note": "C05_extend_partial: `column[a:] = values` for `a ≥ 0` is list slice assignment. Negative `a`: see `C05_extend_negative`. C05_prextend_partial: `column[:b] = values` for `b ≤ len` (and a non-empty column if `b < 0`) is list slice assignment. `b > len`: see `C05_prextend_beyond`. C05_slice_assign_partial: all contiguous forms together. Missing: `column[a:] = v` with `a < 0` (appends), `column[:b] = v` with `b > len` or with `b < 0` on an empty column (no effect). C05_fails (the full statement is refuted): fails: `c = Column([1,2,3]); c[-1:] = [9]` gives `[1,2,3,9]` (list: `[1,2,9]`). C05_fails_prextend (the full statement is refuted): fails also for `c[:9] = [7]` on a column of three values: nothing happens. C05_exact (exactly when): exactly when: `column[a:b] = v` is list slice assignment if and only if: if only the start is given, it is not negative or the column is empty; if only the stop is given, it is not beyond the end and not negative for an empty column, unless `v` is what the column holds already"
  },
  {
   "property": "C06",
   "status": "partial",
   "theorems": [
    "Tablite.C06_stride_partial",
    "Tablite.C06_too_long",
    "Tablite.C06_fails",
    "Tablite.C06_fails_whole_column",
    "Tablite.C06_fails_short",
    "Tablite.C06_exact_partial",
    "Tablite.C06_exact"
   ],
   "note": "C06_stride_partial: under `StrideOk`, a value list not longer than the slice is written position by position; with equal length this is exactly the Python result. A longer value list raises ValueError in every layout. Missing: slices spanning three or more pages, slices ending at the column's end from an earlier page, and negative steps across pages — there the code misplaces pages or raises (`C06_fails`, `C06_fails_whole_column`). C06_exact_partial: partial: under `StrideExact`, a value list not longer than the slice is written position by position, in every layout; with equal length this is what Python does to a list. Missing: nothing can be added for columns of different values, see `C06_exact`. C06_fails (the full statement is refuted): fails: with pages `[0,1] [2,3] [4,5]`, `c[0:5:2] = [7,8,9]` moves the middle page to the end. C06_fails_whole_column (the full statement is refuted): fails: `c[::2] = values` raises IndexError as soon as the column has two pages. C06_fails_short (the full statement is refuted): fails: a value list shorter than the slice is accepted (lists raise ValueError). C06_exact (exactly when): exactly when: in a column of pairwise different values, none of which is among the new ones, `column[a:b:k] = values` writes the values one by one to the positions of the slice and changes nothing else if and only if `StrideExact` holds"
  },
  {
   "property": "C07",
   "status": "partial",
   "theorems": [
    "Tablite.C07_del_int_partial",
    "Tablite.C07_int_silent",
    "Tablite.C07_fails_int",
    "Tablite.C07_fails_int_negative",
    "Tablite.C07_del_slice_partial",
    "Tablite.C07_fails_slice",
    "Tablite.C07_fails_reverse",
    "Tablite.C07_int_effect",
    "Tablite.C07_int_exact",
    "Tablite.C07_exact_partial",
    "Tablite.C07_exact"
   ],
   "note": "C07_del_int_partial: deleting a position on the first page is list deletion. Missing: positions on later pages (`C07_fails_int`), negative and out-of-range positions (silently ignored, `C07_int_silent`). C07_del_slice_partial: slice deletion (any non-zero step) is list deletion under `DelOk`. Missing: all slices that start on a later page or reach beyond the second page; there the code reorders pages or raises (`C07_fails_slice`). C07_exact_partial: partial: under `DelExact`, deleting a slice with a positive step is list deletion, in every layout. Missing: nothing can be added for columns of different values, see `C07_exact`; negative steps, see `C07_fails_reverse`. C07_fails_int (the full statement is refuted): fails: with pages `[0] [1,2,3]`, `del c[1]` deletes the value at position 2. C07_fails_int_negative (the full statement is refuted): fails: `del c[-1]` has no effect. C07_fails_slice (the full statement is refuted): fails: with pages `[0,1] [2,3]`, `del c[2:3]` leaves `[3,0,1]`. C07_fails_reverse (the full statement is refuted): fails: `del c[::-1]` raises ValueError for every column. C07_int_exact (exactly when): exactly when: in a column of pairwise different values `del column[i]` does what it does to a list if and only if `i` is on the first page that is not empty C07_exact (exactly when): exactly when: in a column of pairwise different values, `del column[a:b:k]` with `k > 0` and `a` before `b` does what it does to a list if and only if `DelExact` holds"
  },
  {
   "property": "C08",
   "status": "proved",
   "theorems": [
    "Tablite.C08_step_refines",
    "Tablite.C08_step_isolated",
    "Tablite.C08_history_isolated",
    "Tablite.C08_copy"
   ],
   "note": "C08_step_refines: One step from a well-formed state: it succeeds, keeps well-formedness, and an operation on column `c` makes `c` hold exactly what the page-level operation computes, or leaves it unchanged if that raises. C08_step_isolated: one step: no step changes the values of a column it does not target; the step always succeeds. C08_history_isolated: over every history of steps (creations, copies, assignments, deletions, extends, repeats, replaces on any columns) the values of a column that is never targeted stay the same. C08_copy: a copy reads like the original, and after any history that only works on the original (and on further columns) the copy still does; symmetrically for the original."
  },
  {
   "property": "C09",
   "status": "proved",
   "theorems": [
    "Tablite.C09_repeat",
    "Tablite.C09_iadd",
    "Tablite.C09_table_repeat",
    "Tablite.C09_table_add"
   ],
   "note": "C09_repeat: `column * n` / `column *= n` for `n ≥ 1` is list repetition, other `n` raise TypeError. C09_iadd: `column += other` appends, for lists and columns; both sides' values are kept in order. C09_table_repeat: `t * n` repeats every column `n` times; a non-positive `n` is refused. C09_table_add: `t1 + t2` (and `+=`) is refused with ValueError unless both have the same column names; otherwise every column is followed by the values of the column of the same name."
  },
  {
   "property": "C10",
   "status": "partial",
   "theorems": [
    "Tablite.C10_eq_partial",
    "Tablite.C10_eq_lawful_partial",
    "Tablite.C10_ne",
    "Tablite.C10_eq_list",
    "Tablite.C10_eq_array",
    "Tablite.C10_fails",
    "Tablite.C10_exact"
   ],
   "note": "C10_eq_partial: `c == d` holds exactly when both columns have the same length and equal values position by position, whatever the page layouts, provided every stored value equals itself. Missing: values with `v != v` (NaN), for which the identity short cut answers True (`C10_fails`). C10_eq_lawful_partial: for a lawful equality the answer is equality of the value lists: it does not depend on the layout. C10_fails (the full statement is refuted): fails for NaN: a column sharing its pages with another is declared equal although the values are not (values `none` = NaN); the same values in separately stored pages are declared different. C10_exact (exactly when): (exact). `c == d` holds exactly when the values are equal position by position, or when the columns share all their pages."
  },
  {
   "property": "C11",
   "status": "proved",
   "theorems": [
    "Tablite.C11_gather",
    "Tablite.C11_minus_one",
    "Tablite.C11_minus_one_raises"
   ],
   "note": "C11_gather: for every page layout and every array of row numbers in range, in any order and with repetitions, slot `j` receives the value at row `idx[j]`. C11_minus_one: index -1 (used for \"last row\"): if no page is empty every slot with -1 receives the last value of the column. C11_minus_one_raises: with an empty page the same request raises IndexError (a column may have empty pages, e.g. after `c[:] = []` of a whole page)"
  },
  {
   "property": "C12",
   "status": "partial",
   "theorems": [
    "Tablite.C12_types_history_partial",
    "Tablite.C12_replace_partial",
    "Tablite.C12_fails_delete",
    "Tablite.C12_fails_remove_all",
    "Tablite.C12_fails_replace_shared",
    "Tablite.C12_fails",
    "Tablite.C12_drop_effect",
    "Tablite.C12_drop_exact"
   ],
   "note": "C12_types_history_partial: after every history that does not use `del column[i]`, `remove_all` or `replace`, `column.types()` is exactly the number of values per Python type, for every column. Missing: those three operations, where the code keeps or shares the old dictionary (`C12_fails_delete`, `C12_fails_remove_all`, `C12_fails_replace_shared`; `C12_replace_partial` covers unshared pages). C12_replace_partial: `replace`: if the counts of the column's pages are right and no two of its page slots share a dictionary, then after `replace` the counts of that column are right, and so are those of every column that has no dictionary in common with it. Missing: shared dictionaries (copies, `c *= n`), where the claim is false (`C12_fails_replace_shared`). C12_fails_delete (the full statement is refuted): fails: after `del c[0]` the deleted value is still counted. C12_fails_remove_all (the full statement is refuted): fails: `remove_all` leaves the removed values in the counts. C12_fails_replace_shared (the full statement is refuted): /C08 fail for type counts: `replace` on the original changes `types()` of an untouched copy. C12_fails: refutes the full statement. C12_drop_exact (exactly when): (exact for `del column[i]` and `remove_all`). If the counts of a column are right before, they are right afterwards exactly when the operation deleted nothing."
  },
  {
   "property": "C13",
   "status": "partial",
   "theorems": [
    "Tablite.C13_index",
    "Tablite.C13_histogram_partial",
    "Tablite.C13_count_partial",
    "Tablite.C13_contains",
    "Tablite.C13_fails_histogram",
    "Tablite.C13_fails_histogram_layout",
    "Tablite.C13_fails_count_layout",
    "Tablite.C13_count_exact"
   ],
   "note": "C13_histogram_partial: `histogram()`: every value of the column occurs exactly once among the keys, with its number of occurrences, no other key occurs, and the counts add up to the length; hence the result (up to order) is independent of the layout. Hypothesis: no page mixes values numpy calls equal but which have different types (`1`, `True`, `1.0`); see `C13_fails_histogram`. C13_count_partial: `count(item)`: exact if numpy's `==` with the item is the model's equality on the values of the column. C13_fails_histogram (the full statement is refuted): fails: in one object page `[1, True]` `np.unique` merges the two values; the same values on two pages are kept apart. C13_fails_histogram_layout: refutes the full statement. C13_fails_count_layout (the full statement is refuted): fails for `count`: `[1, True].count(True)` is 1 in one (object) page but 2 when the values sit on two typed pages. C13_count_exact (exactly when): (exact, `count`). The count is the number of values of the item's type and value exactly when no page with a numpy type holds a value that numpy calls equal to the item but that has another type."
  },
  {
   "property": "C14",
   "status": "proved",
   "theorems": [
    "Tablite.C14_remove_all",
    "Tablite.C14_replace"
   ],
   "note": "C14_remove_all: `remove_all(values)` keeps exactly the other values in order. C14_replace: `replace(mapping)` maps each listed value through the mapping and leaves every other value unchanged, position by position."
  },
  {
   "property": "C15",
   "status": "proved",
   "theorems": [
    "Tablite.C15_len",
    "Tablite.C15_rows"
   ],
   "note": "C15_len: `len(table)` is the length of the longest column. C15_rows: row iteration never fails; it yields `len(table)` rows; row `i` holds for each column, in column order, its `i`-th value, or None where the column is shorter."
  },
  {
   "property": "C16",
   "status": "partial",
   "theorems": [
    "Tablite.C16_row_exact",
    "Tablite.C16_slice_exact",
    "Tablite.C16_slice_partial",
    "Tablite.C16_row_partial",
    "Tablite.C16_row_is_row_partial",
    "Tablite.C16_last_row_raises",
    "Tablite.C16_fails"
   ],
   "note": "C16_slice_partial: `table[a:b:k]` has the same columns in the same order and each is the list slice of that column, for every step > 0 and step -1. Missing: other negative steps, where columns themselves do not follow list slicing (`C02_fails`). C16_row_partial: for every `i ≠ -1`, `table[i]` is the tuple of `column[i]` for all columns (an IndexError if that is out of range). C16_row_is_row_partial: in a rectangular table, `table[i]` is row `i` of `table.rows` for `0 ≤ i < n`, and row `n + i` for `-n ≤ i < -1`. C16_fails: refutes the full statement. C16_row_exact (exactly when): (exact, rows). `table[i]` does what lists do exactly when `i` is not -1, or the table has no columns, or some column has no values. C16_slice_exact (exactly when): (exact, slices). `table[a:b:k]` is the list slice of every column exactly when each column is read that way: for every step that is positive or -1, and for other negative steps if each column has at most one value in the range."
  },
  {
   "property": "C17",
   "status": "proved",
   "theorems": [
    "Tablite.C17_stack",
    "Tablite.C17_stack_rows"
   ],
   "note": "C17_stack: for every pair of tables with distinct column names, any overlap and any page layouts, the stacked table has the columns of the first followed by the new columns of the second, and each column holds the first table's values followed by the second's, a missing column counting as `len(table)` Nones. C17_stack_rows: rows: for rectangular tables the rows of the stack are the rows of the first followed by the rows of the second, a cell reading None where its table lacks the column."
  },
  {
   "property": "C18",
   "status": "partial",
   "theorems": [
    "Tablite.C18_exact",
    "Tablite.C18_eq_partial",
    "Tablite.C18_fails"
   ],
   "note": "C18_eq_partial: for tables with at least one row `t1 == t2` holds exactly when both have the same column names and equal columns, whatever the layouts and the order of the columns. Missing: tables without rows, which always compare equal (`C18_fails`); NaN values (`C10_fails`). C18_fails (the full statement is refuted): fails: two tables without rows compare equal although their columns differ. C18_exact (exactly when): (exact). `t == o` holds exactly when the tables agree in names and columns, or when neither has a single row."
  },
  {
   "property": "C19",
   "status": "proved",
   "theorems": [
    "Tablite.C19_index",
    "Tablite.C19_partition",
    "Tablite.C19_unknown"
   ],
   "note": "C19_index: `table.index(cols)` lists the key tuples that occur, in first-occurrence order, each with the ascending list of exactly the rows that have this key. C19_partition: every row number occurs exactly once in the whole index, under its own key: the index is a partition of the rows. C19_unknown: an unknown column name raises KeyError."
  },
  {
   "property": "C20",
   "status": "partial",
   "theorems": [
    "Tablite.C20_effect",
    "Tablite.C20_exact",
    "Tablite.C20_unique_index_partial",
    "Tablite.C20_drop_duplicates_partial",
    "Tablite.C20_fails"
   ],
   "note": "C20_unique_index_partial: if no two different keys of the table have the same hash, `unique_index(cols)` is the ascending list of exactly those rows whose key occurs in no earlier row. C20_drop_duplicates_partial: if no two different rows have the same hash, `drop_duplicates()` returns a table with the same columns whose rows are the distinct rows in first-occurrence order. C20_fails (the full statement is refuted): fails: -1 and -2 have the same hash, so the row with -2 is dropped as a duplicate of the row with -1. (The tuple hash is a function of the hashes of the elements.) C20_exact (exactly when): (exact). `unique_index` returns exactly the first row of every key if and only if no two different keys of the table have the same hash."
  },
  {
   "property": "C21",
   "status": "partial",
   "theorems": [
    "Tablite.C21_exact",
    "Tablite.C21_partial",
    "Tablite.C21_no_pages_fails",
    "Tablite.C21_fails"
   ],
   "note": "C21_partial: a table with at least one page is saved, and loading it gives the same names in the same order and the same values, whatever the page layout, also with pages that are repeated or shared between columns; the loaded pages respect the page size. Missing: tables without any page, see `C21_fails`. C21_no_pages_fails (the full statement is refuted): the case missing in `C21_partial`: without pages `save` raises ZeroDivisionError, for every such table C21_fails: refutes the full statement. C21_exact (exactly when): (exact). A saved table is read back as it was exactly when some column has a page."
  },
  {
   "property": "C22",
   "status": "proved",
   "theorems": [
    "Tablite.C22_live_files",
    "Tablite.C22_untouched",
    "Tablite.C22_removed",
    "Tablite.C22_fresh",
    "Tablite.C22_ids_grow",
    "Tablite.C22_numbers_once"
   ],
   "note": "C22_live_files: a** in every history, whatever is created, shared, unpickled, dropped and collected in between: every page to which a column refers is alive, and if its path belongs to this process, its file exists and holds the data the page was created with. C22_untouched: b** no step changes or removes the file of a page of this process that is alive before and after the step C22_removed: c** when the last page object with a path of this process is collected, the file is removed and the path is forgotten by the reference counts; as long as another object (a second unpickled copy, say) uses the path, the file stays. C22_fresh: d** a new page gets a path at which there is no file, also in the presence of files written by other code; the numbers given out grow, so no name is given out twice; afterwards the file holds the data and exactly one object refers to it C22_ids_grow: e** numbers given out never go back C22_numbers_once: f** a number given out, for a page or for a name that Nim code fills later, is never given out again: whatever happens in between, every later number is greater; and at the time it is given out no file has that name"
  },
  {
   "property": "C23",
   "status": "proved",
   "theorems": [
    "Tablite.C23_inner"
   ],
   "note": "C23_inner: the inner join has exactly one row for every pair (left row, right row) with equal keys, and no other row; each row shows the left row's values and the right row's values. For every page size and layout, any number of keys, duplicates on both sides."
  },
  {
   "property": "C24",
   "status": "partial",
   "theorems": [
    "Tablite.C24_order_exact",
    "Tablite.C24_left_partial",
    "Tablite.C24_order_fails",
    "Tablite.C24_order_partial"
   ],
   "note": "C24_left_partial: the left join has exactly the rows of the inner join plus, for every left row without partner, one row with None in all right columns. Hypothesis: no column of the right table contains an empty page (it is needed only if some left row has no partner). Missing from the English claim: the left row order, see `C24_order_fails`. C24_order_partial: the left row order is kept if the left keys are pairwise different. C24_order_fails (the full statement is refuted): fails as to order: equal left keys are grouped, so rows 0, 1, 2 with keys a, b, a come out as 0, 2, 1. C24_order_exact (exactly when): (order, exact). A left join keeps the order of the left rows exactly when rows with the same left key stand next to each other."
  },
  {
   "property": "C25",
   "status": "proved",
   "theorems": [
    "Tablite.C25_outer"
   ],
   "note": "C25_outer: the outer join is the left join's row pairs followed by, for every right row whose key does not occur on the left, exactly one row with None in all left columns; `ord` is the arbitrary order in which Python iterates over the set of unused keys. Hypothesis as in C24: columns without empty pages."
  },
  {
   "property": "C26",
   "status": "partial",
   "theorems": [
    "Tablite.C26_exact",
    "Tablite.C26_cross_partial",
    "Tablite.C26_empty_raises",
    "Tablite.C26_fails"
   ],
   "note": "C26_cross_partial: the cross join of non-empty tables has `n * m` rows, row `i * m + j` showing left row `i` and right row `j`. C26_fails: refutes the full statement. C26_exact (exactly when): (exact). A cross join returns the `n * m` rows of the product exactly when neither table is empty."
  },
  {
   "property": "C27",
   "status": "proved",
   "theorems": [
    "Tablite.C27_page_independent",
    "Tablite.C27_worker_independent"
   ],
   "note": "C27_page_independent: pages: the joined table depends only on the names and values of the two tables and on the row mapping, not on the page size nor on how the source columns are cut into pages. C27_worker_independent: workers: in whatever order a pool of workers finishes the tasks, the list of results equals running them one after another."
  },
  {
   "property": "C28",
   "status": "partial",
   "theorems": [
    "Tablite.C28_lookup_partial",
    "Tablite.C28_fails",
    "Tablite.C28_effect",
    "Tablite.C28_exact",
    "Tablite.C28_no_column_raises",
    "Tablite.C28_rows_partial"
   ],
   "note": "C28_lookup_partial: the result has the columns of `t` unchanged, followed by the columns of `o` under fresh names, in which row `i` shows the first row of `o` that satisfies the criteria together with row `i` of `t`, or None if there is none. Hypotheses: the rows of the left criteria columns have distinct hashes unless they are equal (`C28_fails`), and, if some row has no match, the table fits one page and `o` has no empty pages (`reindex`, `C62_raises`). C28_rows_partial: partial, in rows: `lookup` gives a table with the rows of the spec; if the left table was cut by the page size, the columns of the result are cut at the same places. Missing: rows with equal hashes (`C28_fails`) and rows without a match in tables longer than a page. C28_fails (the full statement is refuted): fails: results are cached under the hash of the row and -1 and -2 have the same hash, so the row with -2 gets the match of -1. C28_exact (exactly when): (exact). Every row gets its own first match exactly when the first match of each row and that of the first row with the same hash have the same values."
  },
  {
   "property": "C29",
   "status": "partial",
   "theorems": [
    "Tablite.C29_exact",
    "Tablite.C29_filter_partial",
    "Tablite.C29_fails",
    "Tablite.C29_constants_raise",
    "Tablite.C29_compress_both"
   ],
   "note": "C29_filter_partial: for a non-empty list of expressions over existing columns, at least one of which names a column, `t.filter` returns the rows that satisfy all (any) expressions and the remaining rows, each in order and with all columns, for any layout of each column, any page size and any comparison functions. Missing: the empty list of expressions and lists of expressions that compare only constants (`C29_fails`, `C29_constants_raise`). C29_fails (the full statement is refuted): fails for an empty list of expressions: the second table has no columns (and with \"any\" no row should pass). C29_exact (exactly when): (exact). For expressions over existing columns, `filter` splits the rows exactly when there are none or some expression names a column."
  },
  {
   "property": "C30",
   "status": "partial",
   "theorems": [
    "Tablite.C30_eq_ne_exact",
    "Tablite.C30_le_ge_exact",
    "Tablite.C30_fails",
    "Tablite.C30_eq_ne_partial",
    "Tablite.C30_incomparable",
    "Tablite.C30_le_ge_partial",
    "Tablite.C30_none",
    "Tablite.C30_flip",
    "Tablite.C30_eq_symm",
    "Tablite.C30_numeric"
   ],
   "note": "C30_eq_ne_partial: `==` and `!=` give opposite answers for comparable operands. Missing: operands of different kinds, for which both are false unless the left one is None (`C30_incomparable`). C30_le_ge_partial: `<=` holds exactly when `<` or `==` does, and `>=` when `>` or `==` does, unless the left operand is None. C30_fails (the full statement is refuted): fails: an int and a string are neither equal nor unequal. C30_eq_ne_exact (exactly when): (exact, `==` and `!=`). They give opposite answers exactly when the kinds can be compared or the left operand is None. C30_le_ge_exact (exactly when): (exact, `<=` and `>=`). They are `<` or `==`, and `>` or `==`, exactly when not both operands are None."
  },
  {
   "property": "C31",
   "status": "proved",
   "theorems": [
    "Tablite.C31_all",
    "Tablite.C31_any",
    "Tablite.C31_drop",
    "Tablite.C31_unknown"
   ],
   "note": "C31_all: `t.all(**kw)` keeps exactly the rows in which every named column satisfies its condition, in order, for every layout. C31_any: `t.any(**kw)` keeps exactly the rows in which at least one named column satisfies its condition. C31_drop: `t.drop(values)` keeps exactly the rows that contain none of the values in any column. C31_unknown: an unknown column name is refused."
  },
  {
   "property": "C32",
   "status": "partial",
   "theorems": [
    "Tablite.C32_excel_partial",
    "Tablite.C32_unix_partial",
    "Tablite.C32_is_sorted",
    "Tablite.C32_fails",
    "Tablite.C32_unix_fails",
    "Tablite.C32_excel_effect",
    "Tablite.C32_excel_exact",
    "Tablite.C32_unix_effect"
   ],
   "note": "C32_excel_partial: (Excel order, the default): the sorted table consists of the rows of `t` rearranged (`idx` is a permutation of the row numbers), ordered by the keys in their directions, rows equal on all keys in their original order. Excluded: columns in which a number equals a bool, and columns in which values of different incomparable types have the same sort value (TypeError). C32_unix_partial: (Unix order): as above for every column sorted ascending, and for columns sorted descending that do not mix text with other types. The value `same` here is identity of type and value. C32_fails (the full statement is refuted): fails: the rank dictionary is keyed by Python equality, so True overwrites the rank of 1, and sorting [1, 2, True] gives [2, 1, True] C32_unix_fails (the full statement is refuted): and for Unix order: descending, text stays after the numbers C32_excel_exact (exactly when): (Excel order, exactly when it ends): a table can be sorted exactly if no key column has two values of types without an order between them and with the same sort value, such as a time and a number."
  },
  {
   "property": "C33",
   "status": "partial",
   "theorems": [
    "Tablite.C33_partial",
    "Tablite.C33_raises",
    "Tablite.C33_fails",
    "Tablite.C33_effect",
    "Tablite.C33_layout",
    "Tablite.C33_exact"
   ],
   "note": "C33_partial: every row of the result is a distinct key in first-occurrence order with the aggregates of exactly its rows, provided the columns used have pages of the same lengths. Missing: columns with the same rows in different pages (see `C33_fails`). C33_fails: refutes the full statement. C33_exact (exactly when): (exact). Counting the rows of each key is right exactly when the pages of the columns used have the same lengths up to empty pages, so that no row is lost."
  },
  {
   "property": "C34",
   "status": "proved",
   "theorems": [
    "Tablite.C34_count",
    "Tablite.C34_first",
    "Tablite.C34_last",
    "Tablite.C34_sum",
    "Tablite.C34_product",
    "Tablite.C34_average",
    "Tablite.C34_stdev",
    "Tablite.C34_stdev_single",
    "Tablite.C34_count_unique",
    "Tablite.C34_max",
    "Tablite.C34_min",
    "Tablite.C34_mixed_kinds",
    "Tablite.C34_sum_bools"
   ],
   "note": "C34_max: the maximum: a value of the group that none exceeds C34_min: the minimum: a value of the group that exceeds none C34_mixed_kinds: values of different kinds (an int and a float, a date and None) have no extremum: the group-by raises C34_sum_bools: booleans count for nothing in a sum"
  },
  {
   "property": "C35",
   "status": "partial",
   "theorems": [
    "Tablite.C35_exact",
    "Tablite.C35_partial",
    "Tablite.C35_fails",
    "Tablite.C35_raises_fails"
   ],
   "note": "C35_partial: the median is right when the values are pairwise different, when there is only one value, and when both the number of values and the number of different values are odd. Missing: the code takes its decision from the number of different values instead of the number of values. C35_fails (the full statement is refuted): the median of 1, 2, 2 comes out as 3/2 C35_raises_fails (the full statement is refuted): the median of 1, 1, 1, 2 raises C35_exact (exactly when): exactly when: let `s` be the numbers in ascending order. The median of a group is right if and only if: the number of *different* values is odd exactly when the two middle values (for an odd number of values: the one middle value, twice) are equal. Values that are the same number have the same type here."
  },
  {
   "property": "C36",
   "status": "proved",
   "theorems": [
    "Tablite.C36_order",
    "Tablite.C36_summary"
   ],
   "note": "C36_order: the summary does not depend on the order of the histogram C36_summary: every value of the dictionary equals its definition on the values the histogram stands for"
  },
  {
   "property": "C37",
   "status": "partial",
   "theorems": [
    "Tablite.C37_parse",
    "Tablite.C37_partial",
    "Tablite.C37_crlf",
    "Tablite.C37_strip_fails",
    "Tablite.C37_exact",
    "Tablite.C37_limit"
   ],
   "note": "C37_partial: fields of at most 131072 characters, which do not end in white space if the dialect strips it C37_strip_fails (the full statement is refuted): With the setting the importer uses by default (`strip_leading_and_tailing_whitespace`), white space inside the quotes is lost. C37_exact (exactly when): exactly**: rows of fields written in quotes, of at most 131072 characters and without CR, are read back as they were if and only if no field has a newline or a tab in it and, where the dialect strips blanks, none ends in a blank"
  },
  {
   "property": "C38",
   "status": "proved",
   "theorems": [
    "Tablite.C38_import"
   ],
   "note": "C38_import: . If the file can be parsed into records `recs`, has the header row, and the wanted columns are among the headers, then the import succeeds. Its columns are the wanted ones in order, under their own names (numbered when repeated), and each holds exactly the values of its field in the requested rows, in order, split into pages of at most `pageSize` rows. This holds for every quoting mode, also when records span several lines, and although each task starts to parse in the middle of the file."
  },
  {
   "property": "C39",
   "status": "partial",
   "theorems": [
    "Tablite.C39_bounds_exact",
    "Tablite.C39_exact",
    "Tablite.C39_partial",
    "Tablite.C39_year_first",
    "Tablite.C39_december_fails",
    "Tablite.C39_day_zero_fails",
    "Tablite.C39_fails",
    "Tablite.C39_bounds_fails",
    "Tablite.C39_short_partial",
    "Tablite.C39_short_fails"
   ],
   "note": "C39_partial: partial: the full statement for every `x` with year and day at least 1 that is not a date after the 12th of December. Missing: those dates, which are rejected when the year comes last, and the year 0 and day 0, which are accepted (see `C39_fails`). C39_short_partial: partial: eight digits are inferred as the date YYYYMMDD exactly when the month and the day are not too large C39_december_fails (the full statement is refuted): the last day of the year is not recognised C39_day_zero_fails (the full statement is refuted): a day that does not exist is recognised C39_fails (the full statement is refuted): fails in both directions C39_bounds_fails (the full statement is refuted): text with more separators than a date has makes the parser write behind the end of its array C39_short_fails (the full statement is refuted): text after the eighth character is ignored: a number of ten digits is inferred as a date, which loses its last two digits C39_bounds_exact (exactly when): exactly which texts make the reader of dates write behind the end of its array: 8 to 10 characters of ASCII that start with one to four digits and in which four times the same separator - blank, point, hyphen or slash - occurs with nothing but digits between C39_exact (exactly when): exactly which texts are inferred as dates: text in one of the forms whose month is 1 to 12 and whose day is not beyond the end of the month; with the year last the day is at least 1, and in December at most 12."
  },
  {
   "property": "C40",
   "status": "partial",
   "theorems": [
    "Tablite.C40_effect",
    "Tablite.C40_exact",
    "Tablite.C40_accepts",
    "Tablite.C40_partial",
    "Tablite.C40_fails",
    "Tablite.C40_render",
    "Tablite.C40_simple",
    "Tablite.C40_float"
   ],
   "note": "C40_partial: partial: text that stands for a 64 bit integer is accepted exactly when it is a grouped rendering, and has the value that was written. Missing: longer numbers, for which see `C40_fails`. C40_fails (the full statement is refuted): fails for numbers that need more than 64 bit: the value is silently reduced C40_exact (exactly when): (exact). A grouped rendering is read as the number written exactly when that fits into 64 bits."
  },
  {
   "property": "C41",
   "status": "partial",
   "theorems": [
    "Tablite.C41_ranking",
    "Tablite.C41_first",
    "Tablite.C41_total",
    "Tablite.C41_total_fails",
    "Tablite.C41_total_exact"
   ],
   "note": "C41_total_fails (the full statement is refuted): the reader of times does raise another exception, which ends the ranking: text such as \"08:00-12\" cannot be imported with guessed types C41_total_exact (exactly when): exactly when the ranking of a page ends in an exception: for some value, with the types in their order after the values before it, a type raises something else than a ValueError and no type before it accepts the value"
  },
  {
   "property": "C42",
   "status": "proved",
   "theorems": [
    "Tablite.C42_valid",
    "Tablite.C42_epoch",
    "Tablite.C42_next"
   ],
   "note": "C42_valid: the conversion never fails and always gives a calendar date C42_epoch: day 0 is 1970-01-01 C42_next: the next day number is the next calendar day, for every integer day number: with `C42_epoch` this determines the conversion for all days before and after the epoch"
  },
  {
   "property": "C43",
   "status": "partial",
   "theorems": [
    "Tablite.C43_exact",
    "Tablite.C43_float",
    "Tablite.C43_partial",
    "Tablite.C43_fails"
   ],
   "note": "C43_partial: partial: it holds whenever the days, the seconds and the microseconds of the sums fit in 64 bits, and so do the days of the result. Missing: other sums, which wrap. C43_fails (the full statement is refuted): 2^62 hours come out as no time at all C43_exact (exactly when): exact quotients: nothing is lost and the parts are in range, for all integers"
  },
  {
   "property": "C44",
   "status": "proved",
   "theorems": [
    "Tablite.C44_repaginate",
    "Tablite.C44_twice"
   ],
   "note": "C44_repaginate: repagination succeeds for every page layout, keeps the values, and all pages but the last are full; the last is not empty. C44_twice: repaginating twice changes nothing"
  },
  {
   "property": "C45",
   "status": "partial",
   "theorems": [
    "Tablite.C45_partial",
    "Tablite.C45_fails",
    "Tablite.C45_aligned_fails",
    "Tablite.C45_effect",
    "Tablite.C45_exact"
   ],
   "note": "C45_fails (the full statement is refuted): a column with a page of numbers and a page of texts, asked for as numbers: the rows of the page of numbers are in neither table C45_aligned_fails (the full statement is refuted): it fails: the pages are converted together although their rows do not belong together C45_exact (exactly when): (exact). On a proper table a selection keeps all rows and gives all the columns asked for exactly when the names worked out are distinct and, unless nothing is asked for, every page with rows is looked at by some request."
  },
  {
   "property": "C46",
   "status": "partial",
   "theorems": [
    "Tablite.C46_partial",
    "Tablite.C46_fails",
    "Tablite.C46_effect",
    "Tablite.C46_exact"
   ],
   "note": "C46_partial: it holds, and the `m`-th further request for a name `b` gets `b_m`, when no requested name is itself of the form `b_m` for a requested `b` C46_fails (the full statement is refuted): `[a, a_1, a]`: the name made for the third column is already taken, and the second column is lost C46_exact (exactly when): (exact). The passed table has as many columns as were asked for exactly when the names worked out are distinct; its names are distinct always."
  },
  {
   "property": "C47",
   "status": "proved",
   "theorems": [
    "Tablite.C47_unique_name",
    "Tablite.C47_unique_name_string"
   ],
   "note": "C47_unique_name: whatever the names present, the generated name is free, it is the wanted name if that is free, and otherwise the wanted name with the smallest free number ≥ 1 (`mk d i` is `d` with suffix `i`). C47_unique_name_string: for Python's naming scheme."
  },
  {
   "property": "C48",
   "status": "proved",
   "theorems": [
    "Tablite.C48_value",
    "Tablite.C48_shortlex",
    "Tablite.C48_unique"
   ],
   "note": "C48_value: the value is the base-26 number with digits A=1 … Z=26 read from the left C48_shortlex: strictly increasing in shortlex order C48_unique: every positive number is the value of exactly one string of letters"
  },
  {
   "property": "C49",
   "status": "proved",
   "theorems": [
    "Tablite.C49_page_steps",
    "Tablite.C49_page_steps_cut"
   ],
   "note": "C49_page_steps: the steps cover `0 … n-1` exactly once and in order, none is longer than the page size, none is empty unless `n = 0`, and there is at least one. C49_page_steps_cut: cutting any list at the page steps and joining the pieces gives the list back."
  },
  {
   "property": "C50",
   "status": "proved",
   "theorems": [
    "Tablite.C50_split",
    "Tablite.C50_first",
    "Tablite.C50_missing",
    "Tablite.C50_succeeds"
   ],
   "note": "C50_split: pieces and delimiters joined give the line back and there is one more piece than delimiters C50_first: each piece ends at the first occurrence of its delimiter in the remaining text C50_missing: a delimiter that does not occur is a ValueError C50_succeeds: when the delimiters occur in order, with any texts between them, splitting succeeds"
  },
  {
   "property": "C51",
   "status": "partial",
   "theorems": [
    "Tablite.C51_partial",
    "Tablite.C51_microseconds_lost",
    "Tablite.C51_surrogate_raises",
    "Tablite.C51_fails",
    "Tablite.C51_durations_exact",
    "Tablite.C51_texts_exact",
    "Tablite.C51_decode_exact"
   ],
   "note": "C51_partial: for texts without surrogates and durations of whole seconds up to 50000 days; all other values without restriction. Missing: the values the code does not restore, see `C51_fails` and the theorems after it. C51_fails (the full statement is refuted): is false: a duration of one microsecond does not come back C51_durations_exact (exactly when): (durations, exact). A duration of at most 50000 days comes back from its bytes exactly when it has no microseconds. C51_texts_exact (exactly when): (texts, exact). A text comes back from its bytes exactly when it holds no lone surrogate. C51_decode_exact (exactly when): exactly for bytes taken as text: the bytes give a text if and only if they are the bytes of that text, which has no surrogates: stray, missing or superfluous bytes are refused, and no two byte strings give the same text."
  },
  {
   "property": "C52",
   "status": "partial",
   "theorems": [
    "Tablite.C52_partial",
    "Tablite.C52_timedelta_raises",
    "Tablite.C52_none_texts",
    "Tablite.C52_fails",
    "Tablite.C52_exact"
   ],
   "note": "C52_partial: for every value but NaN and the texts `null`, `Null`, `NULL`, `#N/A`, `#n/a` and `None`. Missing: those texts, which come back as `None`, see `C52_fails`. C52_fails (the full statement is refuted): is false: the text \"None\" comes back as `None` C52_exact (exactly when): (exact). A value (no NaN, no bytes, no object) comes back from JSON exactly when it is none of the six texts that stand for a missing value."
  },
  {
   "property": "C53",
   "status": "partial",
   "theorems": [
    "Tablite.C53_up_exact",
    "Tablite.C53_near_exact",
    "Tablite.C53_fails",
    "Tablite.C53_half_fails",
    "Tablite.C53_partial"
   ],
   "note": "C53_partial: what holds: rounding down is exact; rounding up gives the smallest multiple strictly above v (except that 0 stays 0); without direction the result is a closest multiple and halves go down. Missing: rounding up an exact multiple moves it by m; halves do not go up. C53_fails (the full statement is refuted): fails: rounding 2 up to a multiple of 1 gives 3 C53_half_fails (the full statement is refuted): and a value halfway between two multiples is rounded down: 3/2 to 1 C53_up_exact (exactly when): exactly when: rounding up gives the smallest multiple at or above `v` if and only if `v` is 0 or no multiple C53_near_exact (exactly when): exactly when: rounding without direction gives the closest multiple, halves up, if and only if `v` is not half-way between two multiples"
  },
  {
   "property": "C54",
   "status": "proved",
   "theorems": [
    "Tablite.C54_roundtrip",
    "Tablite.C54_raises"
   ],
   "note": "C54_roundtrip: the cells written to a temporary page are read back in order, whatever their number C54_raises: the other half: a cell outside that range stops the import with an error, nothing wrong is stored"
  },
  {
   "property": "C55",
   "status": "proved",
   "theorems": [
    "Tablite.C55_header",
    "Tablite.C55_total"
   ],
   "note": "C55_header: the header has a length that is a multiple of 64, its length field (little endian, bytes 8 and 9) is the number of bytes that follow the field, and the last byte is a newline C55_total: it is written whenever the field can hold the length"
  },
  {
   "property": "C56",
   "status": "partial",
   "theorems": [
    "Tablite.C56_rows_partial",
    "Tablite.C56_exact",
    "Tablite.C56_partial",
    "Tablite.C56_raises",
    "Tablite.C56_string_target",
    "Tablite.C56_fails"
   ],
   "note": "C56_rows_partial: partial, in rows: carry forward gives a table with the rows of the spec; if all columns are filled, or were cut by the page size, its columns are cut at the same places. Missing: leading missing values that are not None (`C56_fails`, `C56_raises`). C56_partial: carry forward does what is claimed if no target begins with a missing value, or if None is the only missing value (the default) and the arrays of the targets are object arrays. Missing: leading missing values other than None (`C56_fails`, `C56_raises`). C56_fails (the full statement is refuted): a leading 0 that counts as missing becomes None C56_exact (exactly when): exactly: a missing value becomes the closest earlier value that is not missing; the leading missing values of a target become what its array makes of None."
  },
  {
   "property": "C57",
   "status": "partial",
   "theorems": [
    "Tablite.C57_safe_partial",
    "Tablite.C57_partial",
    "Tablite.C57_fails",
    "Tablite.C57_pages_fails",
    "Tablite.C57_aligned_fails",
    "Tablite.C57_order_fails",
    "Tablite.C57_exact"
   ],
   "note": "C57_safe_partial: what never goes wrong when the targets are listed in the order of the table: for every page layout, every method of ordering values and all sources, columns keep their names and lengths, only missing cells of targets change, and they change to values of the same column that are not missing. Missing: that every missing cell is filled, see `C57_partial` and `C57_fails`, and other orders of the targets, see `C57_order_fails`. C57_partial: for one target whose sources are paged alike and have no missing values, see `FillCond`: imputation succeeds, fills every missing cell of the target with a value of that column and changes nothing else. Missing: the other cases, in which cells stay missing or columns are exchanged, see `C57_fails`, `C57_pages_fails`, `C57_aligned_fails` and `C57_order_fails`. C57_fails (the full statement is refuted): an unknown value in a source column: the distances to all other rows are infinite, so the search stops at the first row again and again C57_pages_fails (the full statement is refuted): several kinds of missing values and several pages: pages are read anew from the original for every kind, so only the last kind is filled C57_aligned_fails (the full statement is refuted): columns paged differently: the places within the pages of the source are used for the target C57_order_fails (the full statement is refuted): targets listed in another order than in the table: the columns are exchanged C57_exact (exactly when): exactly**: imputation of one target from sources that are cut into pages alike and have no missing values, when the target has a known value. It succeeds; a missing value is filled if and only if its page is not left for another one and worked on again afterwards: then the original page is read again and what was fill"
  },
  {
   "property": "C58",
   "status": "partial",
   "theorems": [
    "Tablite.C58_exact",
    "Tablite.C58_transpose",
    "Tablite.C58_partial",
    "Tablite.C58_fails"
   ],
   "note": "C58_partial: transposing twice gives the table back if the values of the first column are distinct, the headers are distinct and no value of the first column is its own header. Missing: a first column that contains its own header (`C58_fails`). C58_fails: refutes the full statement. C58_exact (exactly when): (exact). Transposing a table with distinct headers twice gives it back exactly when the values of the first column are distinct and none is its own header."
  },
  {
   "property": "C59",
   "status": "partial",
   "theorems": [
    "Tablite.C59_rows_partial",
    "Tablite.C59_cols_partial",
    "Tablite.C59_fails",
    "Tablite.C59_same_function_fails",
    "Tablite.C59_exact",
    "Tablite.C59_relation_partial"
   ],
   "note": "C59_rows_partial: with values as rows: one row per row key and function, one column per column key, each cell the value of the function on exactly the source rows with both keys. Missing from the full statement: tables whose columns have different page layouts, where the group-by itself is wrong (C33). C59_cols_partial: with values as columns: one row per row key, one column per column key and function. Missing from the full statement: different page layouts, as above, and colliding column names. C59_relation_partial: partial, in rows: a pivot of a table cut at the same places has the rows of the spec, and is again cut at the same places. Missing: as in `C59_rows_partial` and `C59_cols_partial`, and pivots whose columns get names that are taken. C59_fails (the full statement is refuted): different page layouts: the row of key 2 is lost C59_same_function_fails (the full statement is refuted): the same function twice: the group-by keeps one column, the second row of every key holds nothing C59_exact (exactly when): (exact) a pivot that counts rows is right exactly when the pages of the columns used have the same lengths up to empty pages, so that no row is lost"
  },
  {
   "property": "C60",
   "status": "partial",
   "theorems": [
    "Tablite.C60_partial",
    "Tablite.C60_refute",
    "Tablite.C60_none_fails",
    "Tablite.C60_mixed_fails",
    "Tablite.C60_overlap_fails",
    "Tablite.C60_names_fails",
    "Tablite.C60_fails",
    "Tablite.C60_exact",
    "Tablite.C60_rows_partial"
   ],
   "note": "C60_partial: every cell of the listed columns, None or not, gives one output row with the kept values of its row, the name of its column and the value, row after row; for distinct names and values that `np.array` keeps as they are. Missing: None cells are not left out (`C60_none_fails`), a kept column that is also listed (`C60_overlap_fails`), values of mixed types (`C60_mixed_fails`), colliding new names (`C60_names_fails`). C60_rows_partial: partial, in rows: `pivot_transpose` gives a table with the rows of the spec, its columns cut at the same places. Missing: as in `C60_partial`. C60_none_fails (the full statement is refuted): a None cell gives an output row C60_mixed_fails: refutes the full statement. C60_overlap_fails (the full statement is refuted): a kept column that is also listed: the value of `mon` appears under the name `k`, and the cell of `k` not at all C60_names_fails (the full statement is refuted): new names that collide after one of them was made unique: names and values end up in one column C60_fails: refutes the full statement. C60_exact (exactly when): exactly**: with the assumptions of `C60_partial`, the outcome has one row for each cell of the listed columns; so it has the rows a user expects, one for each cell that is not None, if and only if no cell of the listed columns is None"
  },
  {
   "property": "C61",
   "status": "partial",
   "theorems": [
    "Tablite.C61_partial",
    "Tablite.C61_fails",
    "Tablite.C61_columns_fails",
    "Tablite.C61_exact"
   ],
   "note": "C61_partial: for two tables with the same columns and values numpy leaves alone: the outcome is a list of rows with marks; the rows not marked \"-\" in the second column are the rows of the second table, and if difflib reports no replacement, the rows not marked \"-\" in the first column are the rows of the first table up to the equality difflib used. Missing from the full statement: replacements (the rows of the first table are dropped) and tables with different columns. C61_fails (the full statement is refuted): one row each, different: the row of the first table is lost C61_columns_fails (the full statement is refuted): only column `b` is shared: the rows compared are those of the whole table, and the values of column `a` appear under the name `b` C61_exact (exactly when): exactly**, for two tables with the same columns and values numpy leaves alone: the rows marked \"+\" or \"=\" in the first column of marks are, in order and up to the equality difflib used, the rows of the first table outside the blocks difflib calls replaced; as many rows of the first table are missing as these blocks have. So the first table can be read off its marks if and only if no row of it is in a replaced block."
  },
  {
   "property": "C62",
   "status": "partial",
   "theorems": [
    "Tablite.C62_checked_exact",
    "Tablite.C62_checked_fails",
    "Tablite.C62_checked_partial",
    "Tablite.C62_exact",
    "Tablite.C62_reindex_partial",
    "Tablite.C62_raises",
    "Tablite.C62_fails",
    "Tablite.C62_fails_extra_rows"
   ],
   "note": "C62_checked_partial: (`sortation.reindex`, partial): every non-empty selection of rows gives these rows, every page size and layout C62_reindex_partial: `t.reindex(index)` gives every column's values at the given rows in that order, None at -1, for every layout and page size: for indices without -1 always, with -1 if the index fits one page and no page is empty. Missing: -1 in an index longer than a page (`C62_raises`, `C62_fails`). C62_checked_fails (the full statement is refuted): fails: the empty selection raises ValueError C62_fails: refutes the full statement. C62_fails_extra_rows (the full statement is refuted): the other failure: a -1 alone in the last page of row numbers silently yields too many rows. C62_checked_exact (exactly when): (`sortation.reindex`), exactly: an empty index raises ValueError, an index with a number outside of `-len(T)` to `len(T) - 1` raises IndexError, and all others give what `Table.reindex` gives. C62_exact (exactly when): exactly when, for a column without empty pages: `reindex` gives the values at the row numbers, None at -1, if and only if there is no -1 among them or they fit one page"
  },
  {
   "property": "C63",
   "status": "partial",
   "theorems": [
    "Tablite.C63_exact",
    "Tablite.C63_rows_partial",
    "Tablite.C63_where_partial",
    "Tablite.C63_raises",
    "Tablite.C63_fails",
    "Tablite.C63_fails_leftover"
   ],
   "note": "C63_rows_partial: partial, in rows: merging two columns of a table that fits a page gives the rows of the spec. Missing: tables longer than a page (`C63_raises`, `C63_exact`), and a target that names a third column (`C63_fails_leftover`). C63_where_partial: for tables no longer than a page, `where` produces `left[i]` where the criterion holds and `right[i]` elsewhere, under the new name, removes the two source columns (unless one of them is the target) and leaves all other columns alone. Missing: tables longer than a page (`C63_raises`) and a target name that already belongs to a third column (`C63_fails_leftover`). C63_fails: refutes the full statement. C63_fails_leftover (the full statement is refuted): a target name that already names a third column leaves a second copy of the result behind under a generated name. C63_exact (exactly when): exactly when: the column computed by `where` has the chosen values if and only if the table fits one page"
  },
  {
   "property": "C64",
   "status": "partial",
   "theorems": [
    "Tablite.C64_pairs",
    "Tablite.C64_partial",
    "Tablite.C64_exact",
    "Tablite.C64_empty_raises",
    "Tablite.C64_fails"
   ],
   "note": "C64_partial: for one criterion: every left row whose value occurs in the right column is joined once, and joined rows agree. Missing from the full statement: several criteria, of which joined rows may satisfy only one. C64_fails (the full statement is refuted): two criteria of which one holds: the rows are joined C64_exact (exactly when): (exact) if no value occurs twice in a right column of the criteria, the joined rows agree on all criteria exactly when, for every left row, the right row found by the first criterion that finds one agrees on all others"
  },
  {
   "property": "C65",
   "status": "partial",
   "theorems": [
    "Tablite.C65_effect",
    "Tablite.C65_exact",
    "Tablite.C65_partial",
    "Tablite.C65_fails"
   ],
   "note": "C65_partial: the mode is a most frequent value when all values are text or none is. Missing: with both, a non-text value is always preferred. C65_fails (the full statement is refuted): the mode of \"a\", \"a\", 1 comes out as 1 C65_exact (exactly when): exactly when: the mode is a most frequent value if and only if all values are text or some value that is no text is a most frequent one"
  },
  {
   "property": "C66",
   "status": "proved",
   "theorems": [
    "Tablite.C66_quartiles",
    "Tablite.C66_dominant"
   ],
   "note": "C66_quartiles: the quartiles split the values: at most a quarter below the first, at most three quarters above, and conversely for the third C66_dominant: the summary is that of a type no other type outnumbers, the first such type in the order of the values, and of all its values"
  },
  {
   "property": "C67",
   "status": "partial",
   "theorems": [
    "Tablite.C67_partial",
    "Tablite.C67_width_fails",
    "Tablite.C67_dateshort_fails",
    "Tablite.C67_time_fails",
    "Tablite.C67_fails",
    "Tablite.C67_order_fails",
    "Tablite.C67_width_exact"
   ],
   "note": "C67_partial: partial: all texts are imported, each as its reading under a type that accepts it, provided that no reader raises anything but a ValueError, no text is taken for a short date (YYYYMMDD), texts that are integers are also floats, and either every text is accepted by some type other than text or the longest text is accepted by no other type. Missing: see the witnesses below. C67_width_fails (the full statement is refuted): the width of a text page is that of the values counted as text: a longer value of another type does not fit, and its padding never ends C67_dateshort_fails (the full statement is refuted): short dates, missing values and one integer: the page is taken for integers and the missing values raise C67_time_fails (the full statement is refuted): text that looks like a time with an incomplete time zone ends the import C67_fails: refutes the full statement. C67_order_fails (the full statement is refuted): the types found depend on the order of the rows: behind a text, numbers are texts C67_width_exact (exactly when): (width), exactly: provided that no reader raises anything but a ValueError, no text is taken for a short date and texts that are integers are also floats, a page cannot be imported if and only if more of its values were counted as text than as any other type and one of its values is longer than one character and than all those counted as text. `ts` are the types under which the values were counted."
  },
  {
   "property": "C68",
   "status": "partial",
   "theorems": [
    "Tablite.C68_exact",
    "Tablite.C68_partial",
    "Tablite.C68_group_fails",
    "Tablite.C68_fails"
   ],
   "note": "C68_partial: partial: every decimal number is read as the number that is written; for integers see `C40_float`. Missing: that nothing else is accepted, which is false (`C68_fails`). C68_group_fails (the full statement is refuted): separators need not stand between groups of three: a decimal number written in the European way is taken for a large number of the US locale C68_fails: refutes the full statement. C68_exact (exactly when): (exact). Text is read as a float of a locale exactly when it is of the form `LooseFloat`, which says for every text what its value is: separators may stand anywhere before the point with three characters or more behind them, and an exponent needs a sign but may have many."
  },
  {
   "property": "C69",
   "status": "partial",
   "theorems": [
    "Tablite.C69_exact",
    "Tablite.C69_iff",
    "Tablite.C69_partial",
    "Tablite.C69_python",
    "Tablite.C69_int_fails",
    "Tablite.C69_us_fails",
    "Tablite.C69_fails"
   ],
   "note": "C69_partial: the claim holds for pages without integers beyond 32 bits and without fractions of a second. Missing: those C69_int_fails (the full statement is refuted): 2147483648 beside a `None` comes back negative C69_us_fails (the full statement is refuted): one microsecond comes back as 256 C69_fails (the full statement is refuted): the whole claim is false C69_exact (exactly when): an object page read back by the Nim code (or, with `pyUs`, by Python) is the list written, in order and with its length, where integers are cut to 32 bits and the microseconds are decoded by `us`"
  },
  {
   "property": "C70",
   "status": "partial",
   "theorems": [
    "Tablite.C70_partial",
    "Tablite.C70_typed",
    "Tablite.C70_datetime_iff",
    "Tablite.C70_us_fails",
    "Tablite.C70_fails",
    "Tablite.C70_exact"
   ],
   "note": "C70_partial: typed pages of booleans, numbers, texts and dates come back exactly; datetimes without fractions of a second; object pages when their values survive in the chosen format. Missing: datetimes with fractions of a second, and in mixed pages integers beyond 32 bits C70_us_fails (the full statement is refuted): a tenth of a second becomes a hundred microseconds C70_fails (the full statement is refuted): the whole claim is false C70_exact (exactly when): (exact). A page comes back with its values exactly if its datetimes have no fraction of a second and, in an object page of mixed kinds, its integers have 32 bits and its times no fraction of a second."
  },
  {
   "property": "C71",
   "status": "partial",
   "theorems": [
    "Tablite.C71_args",
    "Tablite.C71_args_error",
    "Tablite.C71_kwargs",
    "Tablite.C71_partial",
    "Tablite.C71_kwargs_fails",
    "Tablite.C71_fails",
    "Tablite.C71_alias_fails",
    "Tablite.C71_named",
    "Tablite.C71_exact",
    "Tablite.C71_unknown"
   ],
   "note": "C71_partial: the claim holds of every call whose keyword arguments, if there are any, name all columns with lists of the same length. Missing: the other keyword arguments, of which it is false C71_kwargs_fails (the full statement is refuted): a keyword argument is missing: the columns get different lengths. One is unknown: the exception comes after a column was extended C71_fails: refutes the full statement. C71_alias_fails (the full statement is refuted): one object under two names gets both values C71_exact (exactly when): exactly**, keyword arguments that name columns of the table: the call does not raise, and leaves a rectangular table if and only if all columns get the same number of values, where a column that is not named gets none"
  },
  {
   "property": "C72",
   "status": "partial",
   "theorems": [
    "Tablite.C72_separate",
    "Tablite.C72_step",
    "Tablite.C72_run",
    "Tablite.C72_partial",
    "Tablite.C72_names_fails",
    "Tablite.C72_assign_fails",
    "Tablite.C72_fails",
    "Tablite.C72_exact",
    "Tablite.C72_names_exact"
   ],
   "note": "C72_partial: copies and tables selected with a slice are independent. Missing: tables selected by names alone, of which it is false C72_names_fails (the full statement is refuted): `u = t['a', 'b']` holds the columns of `t`: after `u['a'].append(9)` the table `t` has the 9 as well C72_assign_fails (the full statement is refuted): a `Column` assigned to another name or another table stays one object: after `u['b'] = t['a']` extending `u['b']` extends `t['a']` C72_fails: refutes the full statement. C72_exact (exactly when): exactly when: two tables of the heap, the names of whose columns are different, are independent if and only if they have no column object in common. C72_names_exact (exactly when): tables selected by names: a selection of two or more different columns is never independent of the table, whatever the columns hold"
  },
  {
   "property": "C73",
   "status": "partial",
   "theorems": [
    "Tablite.C73_columns",
    "Tablite.C73_partial",
    "Tablite.C73_loses_fails",
    "Tablite.C73_conflict",
    "Tablite.C73_fails",
    "Tablite.C73_add_columns_fails",
    "Tablite.C73_exact"
   ],
   "note": "C73_partial: headers and rows give the table with these columns and rows, if there is a row, the headers are different and every row has a value for each. Missing: the other cases, in which values or columns are lost without an exception C73_loses_fails (the full statement is refuted): a short row cuts all rows; two equal headers leave one column; without rows the headers are lost C73_fails: refutes the full statement. C73_add_columns_fails (the full statement is refuted): `add_columns` with a name that exists empties that column; `add_column` refuses C73_exact (exactly when): exactly**: a table made from headers and rows has the headers as its columns and every row if and only if the headers are different, there is a row, and every row has as many values as there are headers (or there are no headers and no values)"
  },
  {
   "property": "C74",
   "status": "partial",
   "theorems": [
    "Tablite.C74_names",
    "Tablite.C74_slice",
    "Tablite.C74_rows",
    "Tablite.C74_fails",
    "Tablite.C74_cell_fails",
    "Tablite.C74_exact"
   ],
   "note": "C74_fails (the full statement is refuted): `t['b', 'a', 'a']` has two columns C74_cell_fails (the full statement is refuted): `t['a', 3]` is the whole column, not the value in row 3 C74_exact (exactly when): exactly**: a table selected by names, with or without slices, has one column for every name given, in the order of the names, if and only if no name was given twice"
  },
  {
   "property": "C75",
   "status": "partial",
   "theorems": [
    "Tablite.C75_roundtrip_partial",
    "Tablite.C75_default_partial",
    "Tablite.C75_csv_partial",
    "Tablite.C75_given_partial",
    "Tablite.C75_fails",
    "Tablite.C75_newline_fails",
    "Tablite.C75_suffix_fails",
    "Tablite.C75_quotes_fails",
    "Tablite.C75_default_fails",
    "Tablite.C75_empty_fails",
    "Tablite.C75_default_exact",
    "Tablite.C75_effect",
    "Tablite.C75_exact",
    "Tablite.C75_tame_fails"
   ],
   "note": "C75_roundtrip_partial: an exported table, imported with its delimiter, with quotes and without stripping, has the same columns with the texts of the values in the same order; None and missing values come back as `txt nul`, the empty text. Missing: texts with line ends, tabs or backslashes, or too long ones C75_default_partial: `Table.from_file(path, guess_datatypes=False)` of an export to `.csv` gives the texts of the values back, if there is no text with a comma, a quote, a line end, a tab or a backslash, with a blank at its start or white space at its end, and no empty text in a table of one column C75_csv_partial: so an export to `.csv` comes back with the default settings C75_given_partial: so an export to `.csv`, `.tsv` or `.txt` comes back when the delimiter of the suffix and the text qualifier are given C75_fails (the full statement is refuted): a backslash is taken for an escape character: the text `a\\b` comes back as `ab` C75_newline_fails (the full statement is refuted): a line end inside a text comes back as a backslash and an n C75_suffix_fails (the full statement is refuted): `Table.from_file(path)` of an export to `.tsv` takes the comma for the delimiter: two columns come back as one C75_quotes_fails (the full statement is refuted): without a text qualifier the quotes that the export writes become part of the values, and values with a comma are cut C75_default_fails: refutes the full statement. C75_empty_fails (the full statement is refuted): with a single column an empty text is written as two quotes, which come back as a text of two quotes C75_tame_fails (the full statement is refuted): the assumption is needed: a backslash at the end of a text takes the delimiter into the text, and the last column is lost C75_default_exact (exactly when): exactly which "
  },
  {
   "property": "C76",
   "status": "partial",
   "theorems": [
    "Tablite.C76_exact",
    "Tablite.C76_raises",
    "Tablite.C76_dict",
    "Tablite.C76_dict_slice",
    "Tablite.C76_dict_error",
    "Tablite.C76_serializable",
    "Tablite.C76_part",
    "Tablite.C76_partial",
    "Tablite.C76_fails",
    "Tablite.C76_types_fails",
    "Tablite.C76_step_fails",
    "Tablite.C76_ragged_fails"
   ],
   "note": "C76_partial: a table of None, integers, floats and texts without a column \"row id\" comes back behind a new column \"row id\". Missing: without the new column; other types C76_fails (the full statement is refuted): the empty table does not come back empty C76_types_fails (the full statement is refuted): booleans and dates come back as texts C76_step_fails (the full statement is refuted): with a step of −2 the row numbers do not belong to the values: the list of values is longer C76_ragged_fails (the full statement is refuted): in a table with columns of different lengths a slice from the end gives row numbers that do not belong to the values: 20 is in row 2 C76_exact (exactly when): exactly**: a table without a column \"row id\", of values with a form in JSON, comes back through JSON behind the new column \"row id\" if and only if every value is None, an integer, a float or a text"
  },
  {
   "property": "C77",
   "status": "partial",
   "theorems": [
    "Tablite.C77_partial",
    "Tablite.C77_equal_steps",
    "Tablite.C77_fails",
    "Tablite.C77_factor_fails",
    "Tablite.C77_descending_fails",
    "Tablite.C77_exact",
    "Tablite.C77_exact_descending"
   ],
   "note": "C77_partial: ranges of which one has step 1 (or −1), or with different steps that have no common factor, or of which one step divides the other. Missing: equal steps, other steps with a common factor, descending steps below −1. C77_fails (the full statement is refuted): the intersection of a range of step 2 with itself raises C77_factor_fails (the full statement is refuted): steps 4 and 6: 6 is said to be a number of both ranges C77_descending_fails (the full statement is refuted): a descending range of step −2: 9 is said to be a number of both ranges C77_exact (exactly when): exactly**: for ranges that are ascending or descend by 1, `range_intercept` is right if and only if * one of the steps is 1, or the steps differ and have no common factor or one divides the other; or * the steps are equal and the ranges have no number in common; or * the steps differ, and the ranges have at most one number in common: after a common number there is no room for the larger of the steps."
  },
  {
   "property": "C78",
   "status": "partial",
   "theorems": [
    "Tablite.C78_partial",
    "Tablite.C78_source_fails",
    "Tablite.C78_fails",
    "Tablite.C78_least_fails",
    "Tablite.C78_text_fails",
    "Tablite.C78_all_missing_fails",
    "Tablite.C78_integer_fails",
    "Tablite.C78_none_fails",
    "Tablite.C78_exact",
    "Tablite.C78_mode_exact"
   ],
   "note": "C78_partial: the imputed table has in every target the mean (a mode) of the values that are not missing in place of the missing values; the other values and the other columns are those of the source. Missing: the returned table holds the columns of the source themselves, so the source shows the new values too; columns as in `Imputable` only; pages with missing values that keep the new value as it is (arrays of objects) only. C78_source_fails (the full statement is refuted): after the imputation of 1, None, 3 the source has 2 in place of None C78_fails: refutes the full statement. C78_least_fails (the full statement is refuted): a missing value that is smaller than all others: 0 in 0, 2, 4 raises ZeroDivisionError C78_text_fails (the full statement is refuted): the empty text as missing value raises ZeroDivisionError C78_all_missing_fails (the full statement is refuted): a column without other values raises KeyError C78_integer_fails (the full statement is refuted): in a column of integers the mean 3/2 of 1 and 2 is put in as 1 C78_none_fails (the full statement is refuted): where None is most frequent and not missing, a text is put in as mean C78_exact (exactly when): exactly**: under the conditions of `C78_partial` the table returned is the source itself. Its values are as before if and only if every missing value of a target happens to be the mean (for the mode: there is none, as a mode is not missing) C78_mode_exact (exactly when): with the mode: the source keeps its values only if no target has a missing value"
  },
  {
   "property": "C79",
   "status": "partial",
   "theorems": [
    "Tablite.C79_exact",
    "Tablite.C79_partial",
    "Tablite.C79_fails",
    "Tablite.C79_integer_fails",
    "Tablite.C79_zone_fails"
   ],
   "note": "C79_partial: for the lists that can be stored, and only for these. Missing: texts and byte strings with trailing NULs, aware datetimes, timedeltas beyond 64 bit of microseconds and integers partly above 2^63, each in lists of a single type C79_fails (the full statement is refuted): the text `a` followed by a NUL comes back as `a` C79_integer_fails (the full statement is refuted): 2^63 and 1 come back as floats C79_zone_fails (the full statement is refuted): an aware datetime comes back as a naive one, two hours earlier C79_exact (exactly when): the array made from a list has the values of the list exactly if the list can be stored"
  },
  {
   "property": "C80",
   "status": "partial",
   "theorems": [
    "Tablite.C80_int",
    "Tablite.C80_slice_partial",
    "Tablite.C80_stride_partial",
    "Tablite.C80_delete",
    "Tablite.C80_history",
    "Tablite.C80_text_fails",
    "Tablite.C80_number_fails",
    "Tablite.C80_fails",
    "Tablite.C80_effect",
    "Tablite.C80_exact",
    "Tablite.C80_kept"
   ],
   "note": "C80_slice_partial: `column[a:b] = l` stores the values of a list that can be stored, and keeps all others, whatever the dtypes of the pages. Missing: the slices of `C05_slice_assign_partial` C80_stride_partial: `column[a:b:k] = l` stores the values if each of them fits the dtype of every page. Missing: other values, see `C80_fails`; the layouts of `C06_stride_partial` C80_text_fails (the full statement is refuted): `c[::2] = ['xyz', 'q']` in a column of texts with one letter stores `x` instead of `xyz` C80_number_fails (the full statement is refuted): `c[::2] = [1.5, 2.5]` in a column of integers stores 1 and 2 C80_fails: refutes the full statement. C80_exact (exactly when): exactly when: on a column of one dtype a strided assignment stores the values given if and only if the dtype keeps each of them."
  },
  {
   "property": "C81",
   "status": "partial",
   "theorems": [
    "Tablite.C81_exact",
    "Tablite.C81_partial",
    "Tablite.C81_text_fails",
    "Tablite.C81_number_fails",
    "Tablite.C81_fails",
    "Tablite.C81_keys_fails",
    "Tablite.C81_empty_fails"
   ],
   "note": "C81_partial: every occurrence is replaced if the new values fit the dtypes of the pages. Missing: other new values, see `C81_fails`; keys for which `np.isin` finds other values than the keys, see `C81_keys_fails` C81_text_fails (the full statement is refuted): `c.replace({'a': 'apple'})` in a column of texts with one letter changes nothing: `apple` is cut to `a` C81_number_fails (the full statement is refuted): `c.replace({2: 2.5})` in a column of integers stores 2 C81_fails: refutes the full statement. C81_keys_fails (the full statement is refuted): `c.replace({1: 5, 'x': 'y'})` raises KeyError in a column with the text `1`: the keys become the texts `1` and `x` C81_empty_fails (the full statement is refuted): a page of empty texts has room for one character, so `c.replace({'': 'ab'})` stores `a` C81_exact (exactly when): (exactly when): after `column.replace(mapping)` every value has been replaced as given exactly if, in each page, every value which `np.isin` finds is a key whose new value survives the conversion to the dtype of the page, and every other value is no key (or a key that stands for itself)."
  },
  {
   "property": "C82",
   "status": "partial",
   "theorems": [
    "Tablite.C82_inner_effect",
    "Tablite.C82_inner_exact",
    "Tablite.C82_merge_partial",
    "Tablite.C82_disjoint_partial",
    "Tablite.C82_missing_raises",
    "Tablite.C82_wrong_column_fails",
    "Tablite.C82_subset_fails",
    "Tablite.C82_unselected_fails",
    "Tablite.C82_fails"
   ],
   "note": "C82_merge_partial: a join of any kind with `merge_keys=True` has the rows of the plain join; the left key columns hold the key of the row (of the left row if there is one, else of the right row), and the right key columns are gone; all other columns are those of the plain join. For every page size, layout, number of keys. Hypotheses beyond those of the plain join: the keys are among the selected columns, no name is repeated, and every right key got the name `unique_name(key, T.columns)` in the join (`hname`; missing from the English claim, see `C82_wrong_column_fails`, `C82_subset_fails`). C82_disjoint_partial: no name condition is left if no selected right column has the name of a column of the left table: the join with merged keys then succeeds for every selection of columns that contains the keys, and shows the merged table. C82_wrong_column_fails (the full statement is refuted): fails: left table `k`, right table `k_1`, `k`, joined by `k`. The right key is named `k_2` in the result, but the code merges and deletes `k_1`: the row without left partner gets 7 as key, not 2, and the data column `k_1` is lost. C82_subset_fails (the full statement is refuted): fails: the left table's column `k` was not selected; the right key `k` then keeps its name, but the code looks for `k_1` and raises KeyError. C82_unselected_fails (the full statement is refuted): fails: with the selection of the documentation's examples (keys not selected) the call raises KeyError. C82_fails (the full statement is refuted): the full statement is false C82_inner_exact (exactly when): (inner), exactly: an inner join with merged keys succeeds and has the columns it should have - those of the left table and those of the right table that are not keys - if and only if the names the code looks for are, in "
  },
  {
   "property": "C83",
   "status": "partial",
   "theorems": [
    "Tablite.C83_exact",
    "Tablite.C83_text_partial",
    "Tablite.C83_collision_raises",
    "Tablite.C83_one_fails",
    "Tablite.C83_fails",
    "Tablite.C83_mixed_fails"
   ],
   "note": "C83_text_partial: sorting in mode \"alphanumeric\" rearranges the rows by the texts of the keys, in the given directions, rows equal on all keys in their original order. Excluded: key columns in which two different values have the same text (1 and \"1\"; `C83_collision_raises`) or are equal for Python (1, 1.0 and True; `C83_mixed_fails`). For every collation and every `str`. C83_one_fails (the full statement is refuted): fails: a column with 1 and \"1\" cannot be sorted, for any `str` with `str(1) == \"1\"`. C83_fails (the full statement is refuted): the full statement is false C83_mixed_fails (the full statement is refuted): fails without exception as well: with 1, \"a\" and True in a column, 1 gets the rank of True and is sorted behind \"a\", though \"1\" comes first. C83_exact (exactly when): exactly**, for key columns in which values that are equal for Python are the same: sorting in mode \"alphanumeric\" succeeds if and only if in no key column two different values have the same text; it then orders the rows by the texts (`C83_text_partial`), and otherwise raises KeyError"
  },
  {
   "property": "C84",
   "status": "partial",
   "theorems": [
    "Tablite.C84_exact",
    "Tablite.C84_filter_partial",
    "Tablite.C84_raises",
    "Tablite.C84_one_column_raises",
    "Tablite.C84_no_column_raises",
    "Tablite.C84_name_raises",
    "Tablite.C84_fails"
   ],
   "note": "C84_filter_partial: filtering by the text of an expression gives, in order, the rows for which it holds and those for which it does not, with the columns' names standing for the row's values. Missing: texts in which fewer than two column names occur (`C84_one_column_raises`, `C84_no_column_raises`), and column names that occur in the text without being identifiers (`C84_name_raises`). C84_fails (the full statement is refuted): the full statement is false: \"A > 1\" C84_exact (exactly when): exactly**: filtering by an expression that can be parsed and evaluated on every row gives the rows for which it holds and the others if and only if the table has no rows, or at least two column names occur in the text, and all that do are identifiers. Names are counted wherever they occur in the text, within other words and quotes too."
  },
  {
   "property": "C85",
   "status": "proved",
   "theorems": [
    "Tablite.C85_consistent"
   ],
   "note": "C85_consistent: whatever list a column is made of and whatever is then written to it, replaced in it or deleted from it, every page holds values of its numpy type only, and so does the array that reading the column gives."
  },
  {
   "property": "C86",
   "status": "partial",
   "theorems": [
    "Tablite.C86_rank",
    "Tablite.C86_guess",
    "Tablite.C86_raises",
    "Tablite.C86_homogeneous",
    "Tablite.C86_int_text",
    "Tablite.C86_int_column",
    "Tablite.C86_values_partial",
    "Tablite.C86_changed_fails",
    "Tablite.C86_infinity_fails",
    "Tablite.C86_values_fails",
    "Tablite.C86_decimal_order_fails",
    "Tablite.C86_missing_order_fails",
    "Tablite.C86_bool_fails",
    "Tablite.C86_time_text",
    "Tablite.C86_decimal_text",
    "Tablite.C86_exponent_text",
    "Tablite.C86_exponent_fails",
    "Tablite.C86_first",
    "Tablite.C86_first_exact"
   ],
   "note": "C86_values_partial: the part that holds: columns of datetimes, of times, of ints, of bools, and of doubles that are no integers, are left as they are. Missing: dates (read as datetimes), doubles equal to an integer (read as ints, until another double has come first), NaN (None), infinity (raises), timedeltas and bytes (their text), columns of several types. C86_changed_fails (the full statement is refuted): values with a type are changed: a double equal to an integer becomes an int, a date a datetime, NaN None, a timedelta its text; a list is lost. C86_infinity_fails (the full statement is refuted): an infinite double raises OverflowError. C86_values_fails: refutes the full statement. C86_decimal_order_fails (the full statement is refuted): it does: `1,5` is 15 in a column that begins with it, and 1.5 in a column that begins with `1.5`. C86_missing_order_fails (the full statement is refuted): the empty text before other text is None, after it the empty text. C86_bool_fails (the full statement is refuted): a bool after a double is read as a double. C86_exponent_fails (the full statement is refuted): but a mantissa whose double Python writes with an exponent of its own is not read as a number. C86_first_exact (exactly when): and only then, if no type before it reads the first value as the same"
  },
  {
   "property": "C87",
   "status": "partial",
   "theorems": [
    "Tablite.C87_iso_column",
    "Tablite.C87_column",
    "Tablite.C87_column_fails",
    "Tablite.C87_date",
    "Tablite.C87_calendar",
    "Tablite.C87_raises",
    "Tablite.C87_column_exact",
    "Tablite.C87_order"
   ],
   "note": "C87_column_fails (the full statement is refuted): the ISO form is read as a datetime C87_column_exact (exactly when): exactly: a column of texts that spell dates becomes the column of these dates exactly if the first text does not have the form `YYYY-MM-DD`; the form of the other texts does not matter."
  },
  {
   "property": "C88",
   "status": "partial",
   "theorems": [
    "Tablite.C88_compact",
    "Tablite.C88_compact_colons",
    "Tablite.C88_datetime_column",
    "Tablite.C88_int_partial",
    "Tablite.C88_int_fails",
    "Tablite.C88_datetime_partial",
    "Tablite.C88_micro_partial",
    "Tablite.C88_fraction_partial",
    "Tablite.C88_fraction_fails",
    "Tablite.C88_milliseconds",
    "Tablite.C88_dots_raise",
    "Tablite.C88_day_dots_raise",
    "Tablite.C88_int_exact"
   ],
   "note": "C88_int_partial: integers with another number of digits than 8, 10, 12 and 14, and all negative ones, become integers. Missing: the others, see `C88_int_fails`. C88_datetime_partial: a datetime written with `-`, `/` or spaces, year or day first, `T` or space, with or without seconds, is read as that datetime. Missing: dates with dots (see `C88_dots_fail`), fractions of seconds (see `C88_fraction_partial`). C88_micro_partial: up to nine digits of a second become microseconds: cut off after six digits, but when there is nothing to cut off, one microsecond may be missing C88_fraction_partial: with a fraction of up to nine digits the datetime is read, and the fraction is cut off after six digits; one microsecond may be missing when there is nothing to cut off. After the minutes, too, the digits count as a fraction of a second. Missing: that microsecond, see `C88_fraction_fails`. C88_int_fails (the full statement is refuted): a number of ten digits is read as a datetime, one of eight digits as a date C88_fraction_fails (the full statement is refuted): the fraction `.0157` loses a microsecond with doubles C88_int_exact (exactly when): (integers, exactly)** A column of texts of integers is guessed as these integers exactly if the first of them spells neither a day (eight digits) nor a moment (ten, twelve or fourteen digits). The others may: once an integer has been read, integers are tried first."
  },
  {
   "property": "C89",
   "status": "partial",
   "theorems": [
    "Tablite.C89_excel",
    "Tablite.C89_bad_range",
    "Tablite.C89_no_header",
    "Tablite.C89_missing",
    "Tablite.C89_limit_fails",
    "Tablite.C89_limit_partial",
    "Tablite.C89_raises",
    "Tablite.C89_letters",
    "Tablite.C89_dims",
    "Tablite.C89_limit_exact"
   ],
   "note": "Whole import proved for all rectangular sheets (C89_excel), with names, pages, refusals and sheet size. `limit` is false as documented: limit + 1 rows (C89_limit_fails); the exact number is C89_limit_partial."
  },
  {
   "property": "C90",
   "status": "partial",
   "theorems": [
    "Tablite.C90_ods",
    "Tablite.C90_start_ignored",
    "Tablite.C90_start_fails",
    "Tablite.C90_no_header",
    "Tablite.C90_no_rows",
    "Tablite.C90_parity_fails",
    "Tablite.C90_parity_partial",
    "Tablite.C90_start_exact",
    "Tablite.C90_parity_exact"
   ],
   "note": "Import proved (C90_ods); `start` has no effect (C90_start_ignored, C90_start_fails); the readers differ (C90_parity_fails) and agree on plain imports (C90_parity_partial)."
  },
  {
   "property": "C91",
   "status": "partial",
   "theorems": [
    "Tablite.C91_no_table",
    "Tablite.C91_fails"
   ],
   "note": "The claim is false for every file (C91_no_table, C91_fails)."
  },
  {
   "property": "C92",
   "status": "partial",
   "theorems": [
    "Tablite.C92_partial",
    "Tablite.C92_accepts",
    "Tablite.C92_fails",
    "Tablite.C92_zone",
    "Tablite.C92_zone_raises",
    "Tablite.C92_datetime_partial",
    "Tablite.C92_blank_fails",
    "Tablite.C92_raises_exact"
   ],
   "note": "C92_partial: partial: a text of digits, colons and points is read as a time exactly when it is two digits each of hours, minutes and seconds in one of the forms, with the numbers written in it. Missing: the numbers are not checked (`C92_fails`). C92_datetime_partial: partial: a date written with separators, a blank or `T` that is not the separator of the date, and a time are read as that date and that time. Missing: December dates after the twelfth with the day first (`C39_december_fails`). C92_fails (the full statement is refuted): 99:99 is read as a time C92_blank_fails (the full statement is refuted): a date written with blanks is not recognised before a blank and a time C92_raises_exact (exactly when): exactly when the reader of times raises an exception that ends the import: a text of digits, colons, points and signs is HH, HH:MM, HH:MM:SS or HH:MM:SS with a fraction, a sign, and then any text with a number of characters other than 5, 8 and 15 (without the other sign, and with a colon if there was none before)"
  },
  {
   "property": "C93",
   "status": "partial",
   "theorems": [
    "Tablite.C93_kind",
    "Tablite.C93_same",
    "Tablite.C93_rejects",
    "Tablite.C93_bool",
    "Tablite.C93_truth_partial",
    "Tablite.C93_truth_fails",
    "Tablite.C93_int_partial",
    "Tablite.C93_date",
    "Tablite.C93_day",
    "Tablite.C93_clock_partial",
    "Tablite.C93_clock_fails",
    "Tablite.C93_int_fails",
    "Tablite.C93_float_partial",
    "Tablite.C93_float_fails",
    "Tablite.C93_time_partial",
    "Tablite.C93_time_fails",
    "Tablite.C93_int_time",
    "Tablite.C93_text_date",
    "Tablite.C93_text_partial",
    "Tablite.C93_text_fails",
    "Tablite.C93_reject_partial",
    "Tablite.C93_reject_fails",
    "Tablite.C93_truth_exact",
    "Tablite.C93_clock_exact",
    "Tablite.C93_time_exact",
    "Tablite.C93_forms",
    "Tablite.C93_forms_exact"
   ],
   "note": "C93_truth_partial: partial: this holds for whole numbers that are not negative. Missing: negative numbers and fractions below one, which become False. C93_int_partial: partial: this holds up to 2^53, for datetimes without that bound. Missing: larger numbers, as text is read as a float. C93_clock_partial: partial: this holds for whole seconds. Missing: fractions of a second, which the text drops. C93_float_partial: partial: whole seconds survive, and the rest comes back within a microsecond, as long as there are at most 2^53 microseconds (285 years from 1970). Missing: the last microsecond. C93_time_partial: partial: this holds from 1970 on. Missing: datetimes before, for which no time results. C93_text_partial: partial: the datetime is that of the text, and so is the date from 1970 on. Missing: dates before, for which the day after is stored (`C93_text_fails`). C93_reject_partial: partial: this holds of all values but text, as long as the years of dates written as text have four digits. Missing: text. C93_truth_fails: refutes the full statement. C93_clock_fails: refutes the full statement. C93_int_fails: refutes the full statement. C93_float_fails: refutes the full statement. C93_time_fails: refutes the full statement. C93_text_fails (the full statement is refuted): noon of the last day of 1969 is stored as the first day of 1970 C93_reject_fails (the full statement is refuted): a time with a time zone of another length than HH:MM, HH:MM:SS or HH:MM:SS.ffffff raises another exception, which ends the selection C93_truth_exact (exactly when): exactly: an integer converted to bool is true when it is not zero if and only if it is not negative, a float if and only if it is zero or at least one; smaller numbers become False C93_clock_exact (exactly when): exactly: a datetime o"
  },
  {
   "property": "C94",
   "status": "partial",
   "theorems": [
    "Tablite.C94_bool",
    "Tablite.C94_text",
    "Tablite.C94_datetime",
    "Tablite.C94_date",
    "Tablite.C94_quartile_fails",
    "Tablite.C94_time_back",
    "Tablite.C94_time_partial",
    "Tablite.C94_time_fails",
    "Tablite.C94_time_total",
    "Tablite.C94_whole",
    "Tablite.C94_partial",
    "Tablite.C94_timedelta_raises",
    "Tablite.C94_other_raises",
    "Tablite.C94_fails",
    "Tablite.C94_number_entries",
    "Tablite.C94_bool_entries",
    "Tablite.C94_text_entries",
    "Tablite.C94_datetime_entries",
    "Tablite.C94_date_entries",
    "Tablite.C94_time_entries",
    "Tablite.C94_method",
    "Tablite.C94_exact"
   ],
   "note": "C94_time_partial: partial: this holds of times in whole seconds. Missing: fractions, of which a microsecond may be lost (`C94_time_back`). C94_partial: partial: there are statistics when the most frequent type is bool, int, float, str, date, datetime or None. Missing: time deltas and other types, for which an exception is raised, and times, for which it is shown without rounding only (`C94_time_total`). C94_quartile_fails (the full statement is refuted): the quartiles of dates are numbers of seconds C94_time_fails (the full statement is refuted): of a second and a microsecond the microsecond is lost C94_fails: refutes the full statement. C94_exact (exactly when): exactly: a column of values (times being times of a day) has statistics if and only if the type no other outnumbers, the first of several, is neither `timedelta` nor one of the types without a method; times are taken without rounding."
  },
  {
   "property": "C95",
   "status": "partial",
   "theorems": [
    "Tablite.C95_separator",
    "Tablite.C95_no_separator",
    "Tablite.C95_separator_fails",
    "Tablite.C95_separator_partial",
    "Tablite.C95_rows",
    "Tablite.C95_prefix",
    "Tablite.C95_names",
    "Tablite.C95_cells",
    "Tablite.C95_fails",
    "Tablite.C95_partial",
    "Tablite.C95_file",
    "Tablite.C95_empty",
    "Tablite.C95_empty_fails",
    "Tablite.C95_empty_partial",
    "Tablite.C95_default_fails",
    "Tablite.C95_same_fails",
    "Tablite.C95_get_delimiter",
    "Tablite.C95_lines_fails",
    "Tablite.C95_lines_partial",
    "Tablite.C95_lines_exact",
    "Tablite.C95_separator_exact",
    "Tablite.C95_empty_exact"
   ],
   "note": "C95_separator_partial: (separator, what holds): when `c` occurs more often than any other candidate, it is found. C95_partial: (what holds): cells without tabs, line ends and their escapes are shown as they are imported. C95_empty_partial: (empty, what holds): the claim is true for every other `linecount`. C95_lines_partial: (lines, what holds): files whose lines end with LF or CR LF have the same lines in both. C95_separator_fails (the full statement is refuted): (separator, the claim in full is false): in a file with times the colons win, even when both occur equally often. C95_fails (the full statement is refuted): (the claim in full is false): a line end within quotes is imported as a backslash and `n`, but is not shown in the preview. C95_empty_fails (the full statement is refuted): (empty, the claim in full is false): with `linecount` 0 a column of words is marked as empty, whatever follows the first line. C95_default_fails (the full statement is refuted): (default delimiter, the claim is false): every text file is read with commas. C95_same_fails (the full statement is refuted): (preview and import without a delimiter differ): the preview finds the tab in a `.tsv` file, the import does not. C95_lines_fails (the full statement is refuted): (lines, the claim in full is false): a CR alone ends a line in the sample, but not in the import. C95_lines_exact (exactly when): (lines), exactly: preview and import have the same lines if and only if every carriage return stands before a line feed. C95_separator_exact (exactly when): (separator), exactly: `c` is found if and only if it is the candidate that occurs most often (of several the greatest character), or none occurs and `c` is a blank of the text, or none occurs and no blank and `c` is an end of line of the text. C95"
  },
  {
   "property": "C96",
   "status": "partial",
   "theorems": [
    "Tablite.C96_tag",
    "Tablite.C96_tag_free",
    "Tablite.C96_tag_fails",
    "Tablite.C96_slice",
    "Tablite.C96_slice_zero",
    "Tablite.C96_long_fails",
    "Tablite.C96_long_partial",
    "Tablite.C96_types",
    "Tablite.C96_grid_fails",
    "Tablite.C96_grid_partial",
    "Tablite.C96_columns_fails",
    "Tablite.C96_columns_partial",
    "Tablite.C96_warning",
    "Tablite.C96_tag_exact",
    "Tablite.C96_long_exact",
    "Tablite.C96_dict_rows_exact"
   ],
   "note": "C96_long_partial: (long tables, what holds): the claim is true if every column has all the rows, or none of the last seven. C96_grid_partial: (frame, what holds): if the fill value is no longer than the text of None, all lines of the picture are of the same length; there are four lines besides the rows. C96_columns_partial: (the picture): if the names differ in more than blanks at their ends, the picture has the names of the display in the order of its columns, and below them each row with the text of each cell, `blanks` in place of None. C96_tag_fails (the full statement is refuted): (row numbers, the claim in full is false): if all fifteen names are taken, the row numbers are filed under `*` and then replaced by the column `*`. C96_long_fails (the full statement is refuted): (long tables, the claim in full is false): of a column that is one row shorter than the table, the last values are shown as blanks. C96_grid_fails (the full statement is refuted): (frame, the claim in full is false): a fill value longer than `None` breaks the frame, since the width is that of `None`. C96_columns_fails (the full statement is refuted): (columns of the picture, the claim in full is false): centred names are used as keys; with `a` three places wide, a column named `a` between blanks replaces it. C96_tag_exact (exactly when): exactly** (name of the row numbers): it is not the name of a column if and only if one of the fifteen candidates is not C96_long_exact (exactly when): exactly** (long tables): rows 0 to 6 and the last seven rows are shown with the values of these rows, if and only if every column has all the rows, or none of the last seven, or nothing but `blanks` in them C96_dict_rows_exact (exactly when): (rows of a dictionary), exactly: `dict_to_rows` raises ValueError for a di"
  },
  {
   "property": "C97",
   "status": "partial",
   "theorems": [
    "Tablite.C97_positions",
    "Tablite.C97_utf8",
    "Tablite.C97_utf8_bom",
    "Tablite.C97_utf16",
    "Tablite.C97_page",
    "Tablite.C97_utf16_refused",
    "Tablite.C97_fails",
    "Tablite.C97_partial",
    "Tablite.C97_names",
    "Tablite.C97_crlf_partial"
   ],
   "note": "C97_partial: (same import in every encoding, what holds): a text without NUL and without CR is imported alike from UTF-8 with or without byte order mark, and from UTF-16 in both orders of bytes; missing are texts with CR. C97_crlf_partial: (line ends of Windows): a text without NUL is imported alike from UTF-8 with or without byte order mark, and from UTF-16 in both orders of bytes, also where lines end in CR LF, if every line is a record of its own that does not end in an escape character C97_fails (the full statement is refuted): (the claim in full is false): a line end CR LF within quotes is imported as `\\n` from UTF-8, and as CR and `\\n` from UTF-16."
  },
  {
   "property": "C98",
   "status": "partial",
   "theorems": [
    "Tablite.C98_import",
    "Tablite.C98_file",
    "Tablite.C98_records_partial",
    "Tablite.C98_fails",
    "Tablite.C98_exact"
   ],
   "note": "C98_records_partial: (records)** The records of a UTF-8 file are the UTF-8 of the records of its characters. C98_fails (the full statement is refuted): (limit)** The largest field, 128 × 1024, is counted in bytes: a field of 70000 letters é is refused, though 70000 letters e are not. C98_exact (exactly when): (exactly)** The records of a UTF-8 file are the UTF-8 of the records of its characters exactly when no field takes more than 128 × 1024 bytes on the way; otherwise the import stops with an error. So the limit is the only trace of the bytes."
  },
  {
   "property": "C99",
   "status": "partial",
   "theorems": [
    "Tablite.C99_exact",
    "Tablite.C99_partial",
    "Tablite.C99_fails"
   ],
   "note": "C99_partial: (contents and limit). Every task of a text import gets its page files right, however many columns there are and whatever `MAX_FILES_OPEN` is, if it is not 0: for every sequence of writes, no write meets a closed file, each file ends up with exactly what was written to it, in order, and what was in the files before is gone; at no time are more files open than allowed, and after `close` none is. Missing is a limit of 0. C99_fails (the full statement is refuted): (limit of 0): with `MAX_FILES_OPEN=0` the first write takes the head of an empty list. C99_exact (exactly when): (exact). The page files are right exactly when some file may be open or nothing is written."
  },
  {
   "property": "C100",
   "status": "partial",
   "theorems": [
    "Tablite.C100_moments",
    "Tablite.C100_errors",
    "Tablite.C100_fails",
    "Tablite.C100_partial",
    "Tablite.C100_exact"
   ],
   "note": "C100_partial: (whole steps). If a whole number of steps leads from `start` to `stop`, or if the steps lead away from `stop`, `date_range` is `range`; in general it lacks at most the last moment of `range`. C100_fails (the full statement is refuted): (last step). The last moment is missing if the last step is cut short: from 0 to 5 in steps of 2 there are 0, 2 and 4. C100_exact (exactly when): (exact). `date_range` is `range` exactly when a whole number of steps leads from `start` to `stop`, or the steps lead away from `stop`."
  },
  {
   "property": "C101",
   "status": "partial",
   "theorems": [
    "Tablite.C101_types",
    "Tablite.C101_partial",
    "Tablite.C101_fails",
    "Tablite.C101_fails_apostrophe",
    "Tablite.C101_fails_backslash",
    "Tablite.C101_fails_single",
    "Tablite.C101_exact"
   ],
   "note": "C101_partial: What holds: a table of two or more columns of equal length, of integers and of texts of printable characters without `'` and `\\`, is written as a script that creates these columns and inserts these rows. Missing: None, one column, apostrophes, backslashes, other characters and types. C101_fails (the full statement is refuted): None is written as the text `'NULL'` C101_fails_apostrophe (the full statement is refuted): a text with an apostrophe is written in double quotes, which are not the quotes of a text in SQL C101_fails_backslash (the full statement is refuted): a backslash is written twice, and read twice C101_fails_single (the full statement is refuted): no script of a table of one column and at least one row can be read, whatever its integers and plain texts: each row has a comma before the bracket C101_exact (exactly when): Exactly when: a table with plain names, of integers, texts and missing values, is written as a script that creates its columns and inserts its rows if and only if it has two or more columns and at least one row, its columns have the same length, and its values are integers and texts of printable characters without `'` and `\\`."
  },
  {
   "property": "C102",
   "status": "partial",
   "theorems": [
    "Tablite.C102_excel_partial",
    "Tablite.C102_unix",
    "Tablite.C102_day_number_raises",
    "Tablite.C102_same_second_raises",
    "Tablite.C102_fails",
    "Tablite.C102_mixed_fails",
    "Tablite.C102_exact"
   ],
   "note": "C102_excel_partial: (Excel order, the default). Sorting by columns of times, of dates, of datetimes or of timedeltas, with None, is chronological to the microsecond although the sort value drops microseconds and is rounded: it never fails, rearranges the rows, and puts the earlier before the later (or after it, if descending), None last (first), rows that agree on all keys in their order. Dates and datetimes may be mixed as long as no date is in the same second as a datetime. C102_fails (the full statement is refuted): 1 January 1900 and its midnight C102_mixed_fails (the full statement is refuted): a time and a timedelta are put in the wrong order: half a second after nine tenths of a second C102_exact (exactly when): exactly** (Excel order): a table is sorted by columns of dates, datetimes and None if and only if in no key column a date is in the same second as a datetime. If it is sorted, the order is that of `C102_excel_partial`; if not, TypeError is raised by `C102_same_second_raises`"
  },
  {
   "property": "C103",
   "status": "partial",
   "theorems": [
    "Tablite.C103_exact",
    "Tablite.C103_partial",
    "Tablite.C103_fails",
    "Tablite.C103_number_fails",
    "Tablite.C103_mixed_fails",
    "Tablite.C103_objects",
    "Tablite.C103_bools",
    "Tablite.C103_floats",
    "Tablite.C103_texts"
   ],
   "note": "C103_partial: partial: a table whose columns an HDF5 file can hold comes back with the same columns, each with its values in order, but in alphabetical order of the names. Missing: the order of columns, texts that can be read as numbers, dates or missing values, columns of mixed types. C103_fails (the full statement is refuted): the columns `b` and `a` come back as `a` and `b` C103_number_fails (the full statement is refuted): a column of texts that are written like integers (not readable as dates) comes back as integers C103_mixed_fails (the full statement is refuted): in a column of a text and an integer, the integer comes back as text C103_exact (exactly when): exactly**, for tables whose columns an HDF5 file can hold: the columns come back in their order if and only if their names are in alphabetical order"
  },
  {
   "property": "C104",
   "status": "partial",
   "theorems": [
    "Tablite.C104_exact",
    "Tablite.C104_count",
    "Tablite.C104_partial",
    "Tablite.C104_fails"
   ],
   "note": "C104_partial: partial: this holds if no column is named twice. C104_fails (the full statement is refuted): a column named twice is mapped twice: 1 becomes 2 and then 3 C104_exact (exactly when): (exact). For existing columns, `replace` maps each of them once exactly when every value of a column that is named `k` times has the same image under the mapping applied once and `k` times."
  },
  {
   "property": "C105",
   "status": "partial",
   "theorems": [
    "Tablite.C105_exact",
    "Tablite.C105_values",
    "Tablite.C105_partial",
    "Tablite.C105_ascending",
    "Tablite.C105_merges_fails",
    "Tablite.C105_empty_fails",
    "Tablite.C105_fails",
    "Tablite.C105_layout_fails"
   ],
   "note": "C105_partial: partial: each value exactly once, for a column that has a page and no two values that are equal but of different types (`1`, `True`, `1.0`). C105_merges_fails (the full statement is refuted): so two equal values of different types are never both in the result C105_empty_fails (the full statement is refuted): an empty column raises ValueError C105_fails: refutes the full statement. C105_layout_fails (the full statement is refuted): `[1, True]` has one distinct value, `[1, True, None]` has three; the pages decide too C105_exact (exactly when): (exact). For values that numpy can sort, the distinct values are right exactly when the column has a page and no two values that are equal but of different types."
  },
  {
   "property": "C106",
   "status": "partial",
   "theorems": [
    "Tablite.C106_partial",
    "Tablite.C106_raises_fails",
    "Tablite.C106_fails"
   ],
   "note": "C106_partial: partial: `from_pandas` of a data frame is the table with its columns in order. Missing: `to_pandas`, which raises (`C106_raises_fails`). C106_raises_fails (the full statement is refuted): `to_pandas` raises UnboundLocalError for every table, with pandas or without C106_fails: refutes the full statement."
  },
  {
   "property": "C107",
   "status": "partial",
   "theorems": [
    "Tablite.C107_exact",
    "Tablite.C107_partial",
    "Tablite.C107_large_fails",
    "Tablite.C107_bool_fails",
    "Tablite.C107_fails",
    "Tablite.C107_xlsx"
   ],
   "note": "C107_partial: partial: true of None, texts and numbers up to 2^32 - 1 in size. Missing: larger numbers, bools, dates and times are written as text, bytes and other objects raise. C107_large_fails (the full statement is refuted): a larger integer is written as its digits C107_bool_fails (the full statement is refuted): a bool is written as text C107_fails: refutes the full statement. C107_exact (exactly when): exactly**: an .xls or .ods file shows the names and values of a table if and only if every one of them is None, a text, NaN, or a number up to 2^32 - 1 in size"
  },
  {
   "property": "C108",
   "status": "partial",
   "theorems": [
    "Tablite.C108_rows",
    "Tablite.C108_partial",
    "Tablite.C108_fails",
    "Tablite.C108_text_fails",
    "Tablite.C108_exact"
   ],
   "note": "C108_partial: partial: true of pages of booleans, numbers, texts and dates, of datetimes without fractions of a second, and of objects that survive both alone and among others. C108_fails (the full statement is refuted): rows of a mixed page that are all datetimes with fractions of a second are saved as datetimes and come back wrong C108_text_fails (the full statement is refuted): a text that ends in a zero loses it if the rows taken are all texts C108_exact (exactly when): exactly which rows come back when they are taken out of a page, saved and read again"
  },
  {
   "property": "C109",
   "status": "partial",
   "theorems": [
    "Tablite.C109_overwrite",
    "Tablite.C109_partial",
    "Tablite.C109_spawn",
    "Tablite.C109_exit",
    "Tablite.C109_fails",
    "Tablite.C109_exit_fails",
    "Tablite.C109_exit_exact"
   ],
   "note": "C109_partial: partial: in every history of any number of processes, with their starts and ends in any order, with numbers used again, and with files left behind by processes that were killed, the pages of every process are intact, if no forked process drops a page or runs `shutdown`. Missing: forked processes that do, see `C109_fails`. C109_fails (the full statement is refuted): process 1 makes a page, process 2 is forked and drops the page it inherited, and the file is gone while process 1 uses it C109_exit_fails (the full statement is refuted): the full statement also fails when a forked process just ends: its `shutdown` removes the directory of its parent C109_exit_exact (exactly when): exactly** (end of a process): when a process ends with `shutdown`, the pages of another process stay intact if and only if the two have different directories or no column of the other refers to a page in the common directory. As a forked process has the directory of its parent, the end of either takes the pages of the other away"
  },
  {
   "property": "C110",
   "status": "proved",
   "theorems": [
    "Tablite.C110_sort_filter",
    "Tablite.C110_sort_sort",
    "Tablite.C110_sort_again",
    "Tablite.C110_filter_filter",
    "Tablite.C110_filter_all",
    "Tablite.C110_filter_any",
    "Tablite.C110_drop_drop",
    "Tablite.C110_drop_filter",
    "Tablite.C110_drop_sort"
   ],
   "note": "C110_sort_filter: sorting and filtering in either order give the same two tables C110_sort_sort: sorting by some columns and then by others is sorting by the others first C110_sort_again: a sorted table is sorted, and sorting it again changes nothing C110_filter_filter: a filter of the rows that pass a filter: the rows that pass both, and of those that pass the first the rows that fail the second C110_filter_all: filtering for all of some conditions and then for all of others is filtering for all of both, and the order does not matter C110_filter_any: what fails a filter for any of some conditions and then one for any of others fails a filter for any of both C110_drop_drop: removing duplicates again changes nothing C110_drop_filter: removing duplicates and filtering in either order give the same tables C110_drop_sort: removing duplicates and sorting in either order give the same table"
  },
  {
   "property": "C111",
   "status": "proved",
   "theorems": [
    "Tablite.C111_inner",
    "Tablite.C111_left",
    "Tablite.C111_swap",
    "Tablite.C111_filter",
    "Tablite.C111_cross",
    "Tablite.C111_stack",
    "Tablite.C111_unique",
    "Tablite.C111_outer_swap",
    "Tablite.C111_lookup",
    "Tablite.C111_size",
    "Tablite.C111_lookup_exact",
    "Tablite.C111_lookup_several_partners"
   ],
   "note": "C111_inner: an inner join has the rows of the nested loops, each as often C111_left: a left join is the inner join and the rows of the left table without a partner C111_swap: exchanging the two tables of an inner join only exchanges the columns C111_filter: filtering the left table before an inner join is filtering the joined table C111_cross: an inner join is the cross join filtered by equality of the keys C111_stack: an inner join of two tables stacked is the join of the first and the join of the second C111_unique: if no key is twice in the right table, a left join has exactly one row for each row of the left table C111_outer_swap: exchanging the two tables of an outer join only exchanges the columns C111_lookup: a lookup by equal keys in a table where no key is twice is a left join: the same columns and rows C111_size: sizes: an inner join has, for each key, as many rows as there are pairs of rows with this key; a left join has one more for each row without a partner. C111_lookup_exact: lookups, exact: on tables without empty pages whose rows all have a partner, `lookup` by equal keys and the left join with all columns both succeed, have the same names, and have the same rows up to their order exactly if no row of the first table has two partners in the second one. C111_lookup_several_partners: a row with two partners stays one row in a lookup and becomes two in a join"
  },
  {
   "property": "C112",
   "status": "proved",
   "theorems": [
    "Tablite.C112_count",
    "Tablite.C112_sum",
    "Tablite.C112_rollup_sum",
    "Tablite.C112_rollup_count",
    "Tablite.C112_rollup_max",
    "Tablite.C112_rollup_min",
    "Tablite.C112_distinct"
   ],
   "note": "C112_count: the numbers of rows of the groups add up to the number of rows of the table, and no group is empty C112_sum: the sums of the groups add up to the sum of the column C112_rollup_sum: summing the sums of finer groups is summing by the coarser keys C112_rollup_count: summing the counts of finer groups is counting by the coarser keys C112_rollup_max: the maximum of the maxima of finer groups is the maximum by the coarser keys C112_rollup_min: the minimum of the minima of finer groups is the minimum by the coarser keys C112_distinct: a group-by without functions is `drop_duplicates` of the key columns"
  },
  {
   "property": "C113",
   "status": "partial",
   "theorems": [
    "Tablite.C113_partial",
    "Tablite.C113_always_partial",
    "Tablite.C113_fails",
    "Tablite.C113_step_exact"
   ],
   "note": "C113_partial: (what holds). A program on columns – creating, copying and clearing columns, adding values and other columns, writing and deleting positions and slices, repeating, removing and replacing values – leaves the columns with the values that the same program on Python lists leaves in the lists, and raises the same errors at the same steps, if every step is right (`OpRight`) in the state in which it is done. Columns may share pages in any way. C113_always_partial: (whatever the state). A program whose steps create, copy and clear columns, add values and other columns, write positions, write slices `[:]`, `[a:]` with `a ≥ 0` and `[a:b]`, repeat columns, remove and replace values does to columns what it does to lists, whatever the columns hold, however they are divided into pages and whatever pages they share. C113_fails (the full statement is refuted): fails: `c[-1:] = [9]` on a column of two values appends C113_step_exact (exactly when): exactly**, for one step on a column of pairwise different values: it leaves the column with what the list would be left with, or raises the error of the list, if and only if it is right in the sense of `C113_partial`"
  },
  {
   "property": "C114",
   "status": "proved",
   "theorems": [
    "Tablite.C114_len",
    "Tablite.C114_stack_assoc",
    "Tablite.C114_stack_empty",
    "Tablite.C114_add_assoc",
    "Tablite.C114_add_stack",
    "Tablite.C114_repeat",
    "Tablite.C114_repeat_succ",
    "Tablite.C114_cut",
    "Tablite.C114_slice_slice",
    "Tablite.C114_reindex_reindex",
    "Tablite.C114_slice_reindex",
    "Tablite.C114_filter_stack",
    "Tablite.C114_drop_twice",
    "Tablite.C114_ragged_fails"
   ],
   "note": "All laws are proved for tables whose columns have one length; C114_ragged_fails shows that associativity of stacking needs it."
  },
  {
   "property": "C115",
   "status": "partial",
   "theorems": [
    "Tablite.C115_partial",
    "Tablite.C115_fails",
    "Tablite.C115_fraction_fails",
    "Tablite.C115_exact",
    "Tablite.C115_order",
    "Tablite.C115_antisymm",
    "Tablite.C115_filter"
   ],
   "note": "C115_partial: . On texts, whole numbers, dates, None, and times and datetimes without a fraction of a second, in any combination, the criterion `in` is a search of the text of the left value in the text of the right value. So it is on floats if Nim writes them as Python does. Missing: booleans, fractions of a second. C115_fails (the full statement is refuted): (the claim in full is false): True is not in the text \"True\". C115_fraction_fails (the full statement is refuted): a fraction of a second is not searched for: 10:30:15.5 is in the text \"10:30:15\", though its own text is longer C115_exact (exactly when): exactly when: searched for in texts, a value is found where its Python text occurs if and only if it is no boolean and has no fraction of a second; and so it is for the value searched in."
  },
  {
   "property": "C116",
   "status": "partial",
   "theorems": [
    "Tablite.C116_fails",
    "Tablite.C116_effect",
    "Tablite.C116_exact",
    "Tablite.C116_partial",
    "Tablite.C116_lookup_fails"
   ],
   "note": "C116_partial: on texts of the same length it is. Missing: other texts. C116_fails (the full statement is refuted): (the claim is false): \"a\" is in \"ab\" and, at the same time, not in \"ab\" C116_lookup_fails (the full statement is refuted): (lookup): looking up the row of \"ab\" whose value does not contain \"a\" finds the very row C116_exact (exactly when): (exact): `not in` is the opposite of `in` exactly when the two texts are equal or neither of them contains the other"
  },
  {
   "property": "C117",
   "status": "proved",
   "theorems": [
    "Tablite.C117_filter",
    "Tablite.C117_agree",
    "Tablite.C117_unknown"
   ],
   "note": "C117_filter: . `filter_non_primitive` returns the rows that satisfy all (any) of the expressions, and the others, for every list of expressions over existing columns, whatever the pages: also for the empty list and for expressions without a column, with which `filter` cannot deal (`C29_fails`, `C29_constants_raise`). An operator that raises TypeError on two values counts as not satisfied by them. C117_agree: (agreement). Wherever `filter` is right, the two filters return the same rows if their operators agree. C117_unknown: an unknown column raises ValueError"
  },
  {
   "property": "C118",
   "status": "partial",
   "theorems": [
    "Tablite.C118_fails",
    "Tablite.C118_exact",
    "Tablite.C118_partial",
    "Tablite.C118_sort_index_fails",
    "Tablite.C118_sort_index_exact"
   ],
   "note": "C118_partial: what holds: as `sources` of `imputation` and as `columns` of `replace` the name of a column stands for the list with this name, and if they are left out – for `sources` also if the list is empty – all columns are taken; all other texts raise. Missing: `targets`. C118_fails (the full statement is refuted): fails: a column name as `targets` of `imputation` raises TypeError, as the condition that wraps it into a list has a `not` too many C118_sort_index_fails (the full statement is refuted): (sort_index) fails: with a mode `Table.sort_index` raises TypeError always, as it hands the mode on as the criteria C118_exact (exactly when): (what a text as `targets` does): it raises, whatever it is – TypeError exactly if it is a column, ValueError otherwise; a list is accepted exactly if it consists of columns. So a single name is accepted in a list only. C118_sort_index_exact (exactly when): (sort_index, what it does): it gives the index of `sort` exactly when no keyword is given and the mapping is given in place of the mode; all else raises TypeError, whatever the table."
  },
  {
   "property": "C119",
   "status": "partial",
   "theorems": [
    "Tablite.C119_fails",
    "Tablite.C119_exact",
    "Tablite.C119_formats_exact",
    "Tablite.C119_settings_fails",
    "Tablite.C119_settings_partial"
   ],
   "note": "C119_settings_partial: what holds: for text files, Excel and ODS files the settings are honoured; for HTML and HDF5 files valid settings make no difference at all, and invalid ones raise ValueError whatever the format. Missing: settings for HTML and HDF5 (ignored without an exception). C119_fails (the full statement is refuted): fails: `.json` (and five other formats) goes to the Excel reader, which refuses it C119_settings_fails (the full statement is refuted): (settings) fails: `from_file('x.html', start=1)` imports all rows C119_exact (exactly when): (exactly what is imported): a table results exactly if the file exists, the settings are valid, the suffix is one of the eight that have a reader which opens it – `csv`, `tsv`, `txt`, `xlsx`, `xlsm`, `ods`, `html`, `hdf5`, in lower case – and this reader reads the file: it gets the settings, except for HTML and HDF5. C119_formats_exact (exactly when): the six formats named as supported that are never imported"
  },
  {
   "property": "C120",
   "status": "partial",
   "theorems": [
    "Tablite.C120_order",
    "Tablite.C120_filter",
    "Tablite.C120_parts",
    "Tablite.C120_merge_sum",
    "Tablite.C120_merge_max",
    "Tablite.C120_merge_min",
    "Tablite.C120_order_fails",
    "Tablite.C120_sorted"
   ],
   "note": "C120_order and C120_sorted leave out `first` and `last`, which depend on the order by definition, and for median and mode columns with an int and a float of the same number; floats are exact numbers, so the order of additions does not matter in the model. C120_order_fails refutes the statement for mode with such a column. Filter, parts and merging are proved for all functions (merging for sum, max, min)."
  },
  {
   "property": "C121",
   "status": "partial",
   "theorems": [
    "Tablite.C121_effect",
    "Tablite.C121_exact",
    "Tablite.C121_fails",
    "Tablite.C121_import",
    "Tablite.C121_formula_fails",
    "Tablite.C121_formula_partial",
    "Tablite.C121_ods",
    "Tablite.C121_parity_fails",
    "Tablite.C121_parity_exact",
    "Tablite.C121_book_exact",
    "Tablite.C121_book_fails",
    "Tablite.C121_ods_book"
   ],
   "note": "C121_formula_partial: the part of `C121_formula_statement` that holds: nothing is different if no cell is calculated C121_fails: refutes the full statement. C121_formula_fails (the full statement is refuted): False: a calculated cell is shown as the text of its formula, where the import has its value C121_parity_fails: refutes the full statement. C121_book_fails: refutes the full statement. C121_exact (exactly when): exactly**: an Excel preview holds no `None` in place of a row if and only if it starts at the first row, or the sheet has enough rows below the header row C121_parity_exact (exactly when): exactly**: the two previews have the same number of rows if and only if the sheet has at most `linecount` rows and the header row is the first of them, or the sheet is empty C121_book_exact (exactly when): exactly**: a sheet of an Excel book is found in the preview under its name if and only if its name is not \"delimiter\"; the other sheets do not matter"
  },
  {
   "property": "C122",
   "status": "proved",
   "theorems": [
    "Tablite.C122_types",
    "Tablite.C122_counts",
    "Tablite.C122_predominant",
    "Tablite.C122_table"
   ],
   "note": "C122_types: types of a column**: the types of its values in the order in which they first occur, each with the number of values that have it, however the values are paged and whatever the numpy types of empty pages are C122_counts: the number of values of each type, and the total C122_predominant: predominant type**: of a column, `get_predominant_types` gives the type that most values have, `None` not counted, and of types that equally many values have the one that occurs first; it gives \"empty\" if and only if the column holds nothing but `None`. The pages do not matter. C122_table: tables: one entry for every column, in order, with the types and the predominant type of that column"
  },
  {
   "property": "C123",
   "status": "partial",
   "theorems": [
    "Tablite.C123_quoted",
    "Tablite.C123_return",
    "Tablite.C123_plain",
    "Tablite.C123_plain_exact",
    "Tablite.C123_strip",
    "Tablite.C123_brackets_fails",
    "Tablite.C123_brackets_ignored",
    "Tablite.C123_strip_fails",
    "Tablite.C123_strip_ignored",
    "Tablite.C123_empty_line",
    "Tablite.C123_constructor_exact",
    "Tablite.C123_open"
   ],
   "note": "C123_brackets_fails (the full statement is refuted): (brackets) fails: `(a,b)` is split into two fields C123_strip_fails (the full statement is refuted): (blanks) fails: with a quote character blanks are kept C123_plain_exact (exactly when): (no quotes), exactly: fields joined by a delimiter of one character are found again if and only if there is a field and none of them has the delimiter in it. C123_constructor_exact (exactly when): what the constructor accepts, exactly: openings and closures texts or None, the delimiter a text, and a quote character only with two texts that do not have it in them or with two None. So openings None with closures given, or the reverse, cannot be used with quotes."
  },
  {
   "property": "C124",
   "status": "partial",
   "theorems": [
    "Tablite.C124_fails",
    "Tablite.C124_exact",
    "Tablite.C124_formats_exact",
    "Tablite.C124_errors"
   ],
   "note": "C124_fails (the full statement is refuted): fails: `.html` is imported and has no preview C124_exact (exactly when): (exactly what is previewed): a preview results exactly if the file exists, the delimiter is None or a text, the suffix is one of the six `csv`, `tsv`, `txt`, `xlsx`, `xlsm`, `ods`, in lower case, and the reader of the suffix reads the file; it gets delimiter, header row and line count as given. C124_formats_exact (exactly when): what is previewed is imported by the same kind of reader; of the formats imported `html` and `hdf5` have no preview, and no others"
  },
  {
   "property": "C125",
   "status": "partial",
   "theorems": [
    "Tablite.C125_carry_twice",
    "Tablite.C125_carry_left",
    "Tablite.C125_replace_replace",
    "Tablite.C125_replace_twice_exact",
    "Tablite.C125_diff_self",
    "Tablite.C125_mode_twice",
    "Tablite.C125_mean_left",
    "Tablite.C125_fails"
   ],
   "note": "C125_fails (the full statement is refuted): a mapping that swaps two values undoes itself C125_replace_twice_exact (exactly when): exactly: a second replacement changes nothing if and only if the mapping leaves alone every value it has put into the table."
  },
  {
   "property": "C126",
   "status": "partial",
   "theorems": [
    "Tablite.C126_whole",
    "Tablite.C126_integers",
    "Tablite.C126_floats",
    "Tablite.C126_partial",
    "Tablite.C126_fails",
    "Tablite.C126_type_fails",
    "Tablite.C126_exact"
   ],
   "note": "C126_partial: partial: the statistics do not depend on the order of the values nor on the pages, if one type outnumbers every other type and, where that is `str`, one text is more frequent than every other text. Missing: ties (`C126_fails`, `C126_type_fails`). C126_fails (the full statement is refuted): two texts, each once: the first one is called the most frequent C126_type_fails (the full statement is refuted): one integer and one text: the first type is the summary type C126_exact (exactly when): exactly: the statistics of the values `l` (times being times of a day, taken without rounding) are the same in every order and for every layout of pages if and only if one type outnumbers every other type and, where that is `str`, one text is more frequent than every other text."
  },
  {
   "property": "C127",
   "status": "partial",
   "theorems": [
    "Tablite.C127_partial",
    "Tablite.C127_pages",
    "Tablite.C127_fails",
    "Tablite.C127_slice_fails"
   ],
   "note": "C127_partial: . A pipeline of filters, sorts, slices, selections of rows and columns, replacements, repetitions, stacks, sums and joins, run on tables of any page sizes and layouts, gives a table with the rows which the same pipeline gives on lists of rows, provided the limits of the code (`strict`) are respected at each step. Missing: pipelines beyond those limits (`C127_fails`). C127_fails: refutes the full statement. C127_slice_fails (the full statement is refuted): (slices): a step of -2 gives other rows than the list of rows"
  },
  {
   "property": "C128",
   "status": "partial",
   "theorems": [
    "Tablite.C128_partial",
    "Tablite.C128_fails",
    "Tablite.C128_carry_fails"
   ],
   "note": "C128_partial: partial: a script of assignments, each with a pipeline, a group-by, a pivot, a `pivot_transpose`, an imputation (from the nearest rows, or from the rows above in all columns or in some columns of a pipeline that ends with a sort, a choice of rows, the removal of duplicates or a join), a lookup (in a table that ends likewise), a left join or an outer join of pipelines, run on tables whose columns are cut into pages at the same places, none empty, succeeds and leaves tables with the rows which the same script computes on lists of rows; their columns are again cut at the same places. Missing: scripts that stack tables with different columns (`C128_fails`) or carry values forward in some columns of other tables, or look up from them (`C128_carry_fails`, `C134_exact`). C128_fails (the full statement is refuted): group-by loses a row of a stack of tables with different columns C128_carry_fails (the full statement is refuted): The full claim fails in another way: values carried forward in some columns only. These columns are cut anew by the page size, the others are not, and a later group-by counts two of the four rows."
  },
  {
   "property": "C129",
   "status": "proved",
   "theorems": [
    "Tablite.C129_missing",
    "Tablite.C129_shape",
    "Tablite.C129_import"
   ],
   "note": "C129_missing: fields that are missing**: the value of a field that a record does not have is `None`, unless the page consists of texts only; then it is the empty text C129_shape: . An import with guessed types has the columns of the import of the same file as text, under the same names, cut into the same pages, and each value is a reading of the text at the same place under some type: no row or value is lost, added or moved, and a field missing at the end of a row is read as an empty one. This holds for every file, every dialect, all options and every page size. C129_import: with `C38_import`: if the file is parsed into records `recs`, the columns of an import with guessed types hold one reading of each field of the requested rows, in order."
  },
  {
   "property": "C130",
   "status": "partial",
   "theorems": [
    "Tablite.C130_agree_partial",
    "Tablite.C130_skip_exact",
    "Tablite.C130_partial",
    "Tablite.C130_effect",
    "Tablite.C130_fails",
    "Tablite.C130_skip_fails",
    "Tablite.C130_exact"
   ],
   "note": "C130_agree_partial: (partial, several types): if the texts of every wanted column agree, see `C130_exact`, an import with guessed types gives the same table for every page size: every text is read as it is on its own. Rows may be skipped, if no page loses all its rows, see `C130_skip_exact`. Missing: columns whose texts do not agree. C130_partial: partial: if no rows are skipped for being empty and every wanted column is of one type - its texts are read as this type and as no type tried before it, or, unless the type is text, stand for no value and are not read as this type - then the import succeeds for every page size, with one and the same table: every value is the reading of its text as the type of the column, or `None`. Missing: columns of several types, and texts with empty fields, see `C130_fails`; skipped rows, see `C130_skip_fails`. C130_fails: refutes the full statement. C130_skip_fails (the full statement is refuted): rows skipped for being empty: the import fails if they fill a page C130_skip_exact (exactly when): (exact, skipped rows): if the texts of every wanted column agree, an import with guessed types that skips rows gives the requested rows exactly if none of the pages the file is cut into loses all its rows; otherwise there is no table at all, though every row that is wanted could be read C130_exact (exactly when): exactly: texts are read, in whatever pages they come, as each of them is read on its own, if and only if they agree - none can be read as the type of another one with another value, and their types are not turned into one another (ints next to floats, eight digit dates next to numbers)"
  },
  {
   "property": "C131",
   "status": "partial",
   "theorems": [
    "Tablite.C131_alone",
    "Tablite.C131_exact",
    "Tablite.C131_partial",
    "Tablite.C131_numbers_fails",
    "Tablite.C131_texts_fails",
    "Tablite.C131_single_fails",
    "Tablite.C131_fails"
   ],
   "note": "C131_partial: partial: a table of at least two columns, or without `None` and empty text, comes back with its values and their types, for every page size, if every column holds values of one type, as described by `CsvColumn`. Missing: columns of several types and values that are read as another type, see `C131_fails`; timedeltas and time zones C131_numbers_fails (the full statement is refuted): fails for numbers: an integer of eight to ten digits that begins with a date comes back as this date, a float with three digits after the point as an integer C131_texts_fails (the full statement is refuted): fails for texts: the text of another value comes back as this value, an empty text and `None` in a column of texts come back the same C131_single_fails (the full statement is refuted): fails for tables of one column with `None`: it comes back as a text of two quotes C131_fails: refutes the full statement. C131_exact (exactly when): exactly: if the texts of every column agree, the table comes back with its values and their types if and only if the text of every value is read, on its own, as this value"
  },
  {
   "property": "C132",
   "status": "partial",
   "theorems": [
    "Tablite.C132_import",
    "Tablite.C132_typed",
    "Tablite.C132_partial",
    "Tablite.C132_effect",
    "Tablite.C132_fails"
   ],
   "note": "C132_partial: partial: text files are imported as texts, no page losing all its rows to skipping, and a script works on the tables (its meaning given by C128): it succeeds and leaves tables with the rows which the same script computes on the records of the files, for all page sizes. Missing: imports where a page loses all its rows (`C132_fails`) and what is missing in `C128_partial`. C132_fails: refutes the full statement."
  },
  {
   "property": "C133",
   "status": "partial",
   "theorems": [
    "Tablite.C133_partial",
    "Tablite.C133_exact",
    "Tablite.C133_effect",
    "Tablite.C133_fails"
   ],
   "note": "C133_partial: partial: a table made of lists of the same length, then extended by any number of calls of `add_rows` (each with complete rows, or with keyword arguments for all columns; calls that raise leave the table as it was), is grouped without losing a row. Missing: columns assigned after rows were added (`C133_fails`, `C133_exact`). C133_fails: refutes the full statement. C133_exact (exactly when): (exact): a new column of as many values as there are rows is assigned to a table built as in `C133_partial`. Counting its rows by an old column is right exactly when the old columns are cut into full pages, as the new one."
  },
  {
   "property": "C134",
   "status": "partial",
   "theorems": [
    "Tablite.C134_exact",
    "Tablite.C134_lookup_exact",
    "Tablite.C134_where_exact",
    "Tablite.C134_partial",
    "Tablite.C134_effect",
    "Tablite.C134_fails"
   ],
   "note": "C134_partial: partial: a table of full pages to which columns are computed, with as many rows as before, is grouped without losing a row, by any columns. Missing: tables that are cut otherwise (`C134_fails`, `C134_exact`). C134_fails: refutes the full statement. C134_exact (exactly when): (exact), carry forward: counting a column whose gaps were filled by a column that was not is right exactly when the latter is cut into full pages C134_lookup_exact (exactly when): (exact), lookup: counting a looked up column by a column of the table is right exactly when the latter is cut into full pages C134_where_exact (exactly when): (exact), merge: counting the merged column by a column of the table is right exactly when the latter is cut into full pages"
  },
  {
   "property": "C135",
   "status": "partial",
   "theorems": [
    "Tablite.C135_pages",
    "Tablite.C135_load",
    "Tablite.C135_exact",
    "Tablite.C135_kept",
    "Tablite.C135_page_one",
    "Tablite.C135_partial",
    "Tablite.C135_fails",
    "Tablite.C135_effect"
   ],
   "note": "C135_partial: a table read from a worksheet, an HDF5 file, JSON or a data frame, with columns of one length, can be grouped by any columns with any functions. Missing: saved tables whose columns end their pages at different rows, see `C135_exact` and `C135_fails`. C135_fails: refutes the full statement. C135_exact (exactly when): (exact) a saved table is loaded with any page size and its rows are counted by another column: the counts are right exactly if the loaded pages of the two columns end at the same rows"
  },
  {
   "property": "C136",
   "status": "partial",
   "theorems": [
    "Tablite.C136_partial",
    "Tablite.C136_exact",
    "Tablite.C136_shared",
    "Tablite.C136_repeat",
    "Tablite.C136_missing",
    "Tablite.C136_effect",
    "Tablite.C136_fails"
   ],
   "note": "C136_partial: `nbytes` tells the bytes of the page objects, every object once, and the bytes of all pages. Missing: the first number is the bytes on disk only if no file belongs to two page objects, see `C136_exact`. C136_fails: refutes the full statement. C136_exact (exactly when): (exact) the first number of `nbytes` is never less than the bytes on disk, and it is the bytes on disk exactly if no file with content belongs to two page objects of the table"
  },
  {
   "property": "C137",
   "status": "partial",
   "theorems": [
    "Tablite.C137_raises",
    "Tablite.C137_fails",
    "Tablite.C137_partial"
   ],
   "note": "C137_partial: with the types as separate items (`Rank(*DataTypes.types)`): every value that can be hashed is counted for exactly one type. Missing: the call of the code, which raises C137_fails: refutes the full statement."
  },
  {
   "property": "C138",
   "status": "partial",
   "theorems": [
    "Tablite.C138_exact",
    "Tablite.C138_partial",
    "Tablite.C138_total",
    "Tablite.C138_warning",
    "Tablite.C138_fails",
    "Tablite.C138_effect"
   ],
   "note": "C138_partial: names and texts without `<` and `&` are shown as they are. Missing: texts with these characters, which are written without escaping. C138_fails (the full statement is refuted): (the claim in full is false): the cell `a<b>c` is shown as `ac`. C138_exact (exactly when): a table is shown as it is exactly if no name and no text of a cell has a `<` before a letter, `/`, `!` or `?`, and none has one of the named characters, whatever the lengths of the columns, the rows that are asked for and the fill value."
  },
  {
   "property": "C139",
   "status": "partial",
   "theorems": [
    "Tablite.C139_exact",
    "Tablite.C139_partial",
    "Tablite.C139_interrupt_exact",
    "Tablite.C139_killed_exact",
    "Tablite.C139_fails"
   ],
   "note": "C139_partial: however a save is ended - a page cannot be read, an exception after any number of entries, the process killed at any point - the path afterwards gives the whole table that was to be saved, or an error, unless the process was killed before the file was opened, in which case nothing has changed. A mixture of two tables or a part of one is never loaded. Missing: that the table saved before is kept, which is false. C139_fails (the full statement is refuted): (the claim in full is false): a table was saved; saving another one to the same path fails, since a page cannot be read, and the path gives no table any more. C139_exact (exactly when): exactly: after `save` the path gives the table if and only if the files of all its pages could be read; if not it gives a KeyError, whatever it gave before. C139_interrupt_exact (exactly when): (interrupt), exactly: after an exception behind `k` entries the path gives the table if and only if `table.yml` and all pages are among the first `k` entries. C139_killed_exact (exactly when): (killed), exactly: when the process is killed, the path gives something afterwards if and only if nothing was done yet and it did before, or the archive was closed."
  },
  {
   "property": "C140",
   "status": "partial",
   "theorems": [
    "Tablite.C140_reopened",
    "Tablite.C140_exact",
    "Tablite.C140_possible",
    "Tablite.C140_fails",
    "Tablite.C140_partial"
   ],
   "note": "C140_partial: whatever is saved and loaded between sessions, and whatever the page size of each session, the tables at the end have the rows which all the scripts, one after the other, compute on lists of rows. Missing: tables without rows, which cannot be saved (`C140_exact`), and what is missing in `C128_partial`. C140_fails (the full statement is refuted): a table whose rows were all filtered away cannot be saved C140_exact (exactly when): (one table), exactly: a table without empty pages can be saved and loaded if and only if it has a row."
  },
  {
   "property": "C141",
   "status": "partial",
   "theorems": [
    "Tablite.C141_export",
    "Tablite.C141_back",
    "Tablite.C141_exact",
    "Tablite.C141_partial",
    "Tablite.C141_fails"
   ],
   "note": "C141_partial: text files are imported as texts, no page losing all its rows to skipping; scripts work on the tables in sessions, any tables being saved and loaded between them. Then there are rows which all the scripts, one after the other, compute on the records of the files, and the exported file is the text of these rows, whatever the page sizes; imported again it has their texts. Missing: what is missing in `C132_partial`, `C140_partial` and `C141_exact`. C141_fails (the full statement is refuted): a text of two lines comes back as one line C141_exact (exactly when): (back again), exactly: what is imported again has the texts of the values if and only if none of them has a line feed, a tab or a backslash."
  },
  {
   "property": "C142",
   "status": "partial",
   "theorems": [
    "Tablite.C142_agree",
    "Tablite.C142_agree_partial",
    "Tablite.C142_import",
    "Tablite.C142_partial",
    "Tablite.C142_fails"
   ],
   "note": "C142_agree_partial: (partial, several types): as `C142_partial`, for files whose columns may have several types, if their texts agree. Missing: columns whose texts do not agree, see `C130_exact` and `C142_fails`, and what is missing in `C140_partial`. C142_partial: files whose columns are of one type each are imported with guessed types; scripts work on the tables in sessions, any tables being saved and loaded between them. Then there are rows which all the scripts compute on the typed records of the files, and the tables at the end have these rows, whatever the page sizes of the imports and of the sessions; so does the exported text. Missing: columns of several types, whose values depend on the page size (`C142_fails`), and what is missing in `C140_partial`. C142_fails (the full statement is refuted): an empty field is an empty text next to a text and no value in a page of its own"
  },
  {
   "property": "C143",
   "status": "partial",
   "theorems": [
    "Tablite.C143_rank",
    "Tablite.C143_order_partial",
    "Tablite.C143_pages_partial",
    "Tablite.C143_rows_partial",
    "Tablite.C143_partial",
    "Tablite.C143_first",
    "Tablite.C143_fails"
   ],
   "note": "C143_order_partial: (order). With the order of values the code uses: a row with a missing value takes the value of a row such that no other row it could be taken from lies between the two in all source columns; and if there is a row with the same values in all source columns, the first such row is taken. C143_pages_partial: (pages). Two tables with the same rows, cut into pages in different ways, are imputed alike, provided that in each the sources are cut like the target. C143_rows_partial: partial, in rows: imputation of one column with one kind of missing values, on a table cut at the same places: the rows are those of the spec, which are determined by the rows before, and the result is cut as before. Missing: what `C143_partial` misses. C143_partial: with the rows before counted as known: a missing value becomes the value that the nearest row has in the result, among the rows whose value was known and the rows before, which have been filled; of several nearest rows the first one is taken. Nothing else changes. Missing: that values filled in before are not passed on, see `C143_fails`. C143_fails (the full statement is refuted): a value that was filled in is passed on: the row before is as near as the row after, and got its value from further away"
  },
  {
   "property": "C144",
   "status": "partial",
   "theorems": [
    "Tablite.C144_partial",
    "Tablite.C144_fails"
   ],
   "note": "C144_partial: partial: `pivot_transpose`, then the rows with the name of a column `x`, then the kept columns and the values: these are the rows of the kept columns and `x`, in their order, whatever the pages. Missing: what `C60_partial` misses, like numbers beside texts (`C144_fails`). C144_fails (the full statement is refuted): the number beside a text comes back as a text"
  },
  {
   "property": "C145",
   "status": "proved",
   "theorems": [
    "Tablite.C145_anti_join",
    "Tablite.C145_exact"
   ],
   "note": "C145_anti_join: the left join, filtered for None in a column of the right table in which there is no None: the rows that pass are those without a partner, the others are the inner join, up to their order. C145_exact: exact: if the column may hold None, the rows that do not pass are still rows of the inner join, and all of them exactly if no row of the inner join has None there."
  },
  {
   "property": "C146",
   "status": "partial",
   "theorems": [
    "Tablite.C146_partial",
    "Tablite.C146_fails"
   ],
   "note": "C146_partial: partial: group-by, then the inner join of the table with it on the keys: every row of the table once, beside the aggregates of the rows with its keys. Missing: columns that are not cut at the same places, where group-by loses rows (`C146_fails`). C146_fails (the full statement is refuted): group-by drops a key of a table whose columns are cut at different places, and with it the row"
  },
  {
   "property": "C147",
   "status": "partial",
   "theorems": [
    "Tablite.C147_partial",
    "Tablite.C147_fails"
   ],
   "note": "C147_partial: partial: the inner join with the group-by of another table on its keys: the rows that have a partner there, each once however many partners it has, beside its keys and the aggregates of its partners. Without functions this is the semi-join. Missing: columns of the other table that are not cut at the same places, where group-by loses rows or raises (`C146_fails`, `C147_fails`). C147_fails (the full statement is refuted): group-by raises on a table whose key columns are cut at different places"
  }
 ]
}