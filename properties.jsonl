{"id": "C01", "title": "Building a column keeps the values and bounds the page size", "statement": "Column(values) followed by list(column) gives back exactly `values` in order, and data written through extend/assignment is stored in pages holding between 1 and Config.PAGE_SIZE values.", "quantifier": "every list of values, every page size >= 1, every sequence of extend calls", "why_tests_cant": "Tests use a handful of lengths around one or two page sizes; an off-by-one in the page arithmetic shows only at particular length/page-size combinations.", "anchors": ["tablite/base.py:Column._paginate", "tablite/base.py:Column.extend", "tablite/base.py:Column.__iter__"]}
{"id": "C02", "title": "Slice reads behave like list slices", "statement": "column[start:stop:step] returns the same values in the same order as list(column)[start:stop:step], however the column is split into pages.", "quantifier": "every page layout (including empty pages and shared pages), every start/stop/step including None and negatives, step != 0", "why_tests_cant": "The number of layouts times slices is unbounded; the page-intersection arithmetic has many branches that only specific alignments reach.", "anchors": ["tablite/base.py:Column.getpages", "tablite/base.py:Column.__getitem__", "tablite/utils.py:intercept"]}
{"id": "C03", "title": "Integer reads behave like list indexing", "statement": "column[i] returns list(column)[i] when -len <= i < len and raises IndexError for every other integer.", "quantifier": "every page layout and every integer i", "why_tests_cant": "Out-of-range indices are an infinite set; tests probe one or two just outside the bounds.", "anchors": ["tablite/base.py:Column.__getitem__", "tablite/base.py:Column.getpages"]}
{"id": "C04", "title": "Integer assignment changes exactly one position", "statement": "column[i] = v replaces the value at position i (negative i counted from the end), leaves every other position and the length unchanged, and raises IndexError without changing the column for any other i.", "quantifier": "every page layout, every integer i, every value", "why_tests_cant": "A page-offset mistake corrupts a neighbouring row only for particular (layout, i) pairs.", "anchors": ["tablite/base.py:Column._setitem_integer_key"]}
{"id": "C05", "title": "Contiguous slice assignment behaves like list slice assignment", "statement": "column[a:b] = values, column[a:] = values, column[:b] = values and column[:] = values leave list(column) equal to what the same statement does to a Python list.", "quantifier": "every page layout, every a and b (also negative, out of range, crossing), every list of values", "why_tests_cant": "Four code paths times page alignment; wrong results only appear when a or b falls on specific page boundaries or outside the column.", "anchors": ["tablite/base.py:Column.__setitem__", "tablite/base.py:Column._setitem_insert", "tablite/base.py:Column._setitem_extend", "tablite/base.py:Column._setitem_prextend", "tablite/base.py:Column._setitem_replace_all"]}
{"id": "C06", "title": "Strided slice assignment behaves like list slice assignment", "statement": "column[a:b:k] = values with k not 1 writes values[j] to the j-th position of the slice and nothing else; a value list longer than the slice raises ValueError and changes nothing.", "quantifier": "every page layout, every a, b, k != 0, every list of values", "why_tests_cant": "Page classification into head/changed/tail depends on where the slice starts and ends relative to page limits.", "anchors": ["tablite/base.py:Column._setitem_update"]}
{"id": "C07", "title": "Deleting rows behaves like list deletion", "statement": "del column[i] and del column[a:b:k] remove exactly those positions and keep the remaining values in their order; an out-of-range integer raises an error.", "quantifier": "every page layout, every index or slice", "why_tests_cant": "Tests delete from short single-page columns; the multi-page path depends on alignment.", "anchors": ["tablite/base.py:Column._del_by_int", "tablite/base.py:Column._del_by_slice"]}
{"id": "C08", "title": "Copies are isolated", "statement": "After b = a.copy() (columns or tables), no sequence of element/slice assignments, deletions, extends, repeats or replace calls on one changes the values read from the other.", "quantifier": "every history of operations on any set of columns that share pages by copy, slicing, concatenation or repetition", "why_tests_cant": "Sharing of pages between columns makes bugs depend on which history created the sharing.", "anchors": ["tablite/base.py:Column.copy", "tablite/base.py:BaseTable.copy", "tablite/base.py:Column.__setitem__"]}
{"id": "C09", "title": "Repetition and concatenation behave like lists", "statement": "column * n, column *= n, column += other and table * n, table += other, table1 + table2 give the list repetition/concatenation of the values column by column; t1 + t2 is refused unless both have the same column names.", "quantifier": "all columns, page layouts, positive n, all pairs of tables", "why_tests_cant": "Unbounded sizes and layouts.", "anchors": ["tablite/base.py:Column.__imul__", "tablite/base.py:Column.__iadd__", "tablite/base.py:BaseTable.__iadd__", "tablite/base.py:BaseTable.__add__"]}
{"id": "C10", "title": "Column equality ignores the page layout", "statement": "c1 == c2 is true exactly when both have the same length and equal values position by position, and c1 != c2 is exactly its negation, whatever the page layouts, and also when compared with a list or array.", "quantifier": "all pairs of columns, lists and arrays, all layouts", "why_tests_cant": "Different code branches are taken for identical, equally sized and differently sized pages; agreement between them cannot be sampled exhaustively.", "anchors": ["tablite/base.py:Column.__eq__", "tablite/base.py:Column.__ne__"]}
{"id": "C11", "title": "Gathering by indices", "statement": "reading a column at an array of row numbers returns, slot by slot, the value at that row for every row number in range.", "quantifier": "every page layout and every array of indices, in any order and with repetitions", "why_tests_cant": "Per-page masks and offsets interact with the layout.", "anchors": ["tablite/base.py:Column.get_by_indices"]}
{"id": "C12", "title": "Type counts stay truthful", "statement": "column.types() equals the number of values of each Python type actually in the column after any history of extend, integer assignment, slice assignment, copy, repeat and concatenation.", "quantifier": "all histories of column operations", "why_tests_cant": "The counts are cached per page and patched incrementally; drift needs a particular sequence.", "anchors": ["tablite/base.py:Column.types", "tablite/base.py:Column._setitem_integer_key", "tablite/base.py:Column.replace", "tablite/base.py:Column.remove_all"]}
{"id": "C13", "title": "Column index, histogram, count and unique agree with the data", "statement": "index() lists for each value exactly its positions in ascending order; histogram() counts add up to the length and each equals the number of occurrences; the results do not depend on the page layout.", "quantifier": "every column and layout", "why_tests_cant": "Aggregation over pages for unbounded data.", "anchors": ["tablite/base.py:Column.index", "tablite/base.py:Column.histogram", "tablite/base.py:BaseTable.index"]}
{"id": "C14", "title": "remove_all and replace touch only the requested values", "statement": "remove_all(values) leaves exactly the values not listed, in order; replace(mapping) maps each listed value and leaves all others, position by position.", "quantifier": "every column, layout, value set and mapping", "why_tests_cant": "Unbounded data and layouts.", "anchors": ["tablite/base.py:Column.remove_all", "tablite/base.py:Column.replace"]}
{"id": "C15", "title": "Row iteration is rectangular and aligned", "statement": "table.rows yields len(table) = longest column rows; row i holds for each column its i-th value or None when the column is shorter.", "quantifier": "every table with columns of any lengths and layouts", "why_tests_cant": "Ragged tables of arbitrary shape.", "anchors": ["tablite/base.py:BaseTable.rows", "tablite/base.py:BaseTable.__len__"]}
{"id": "C16", "title": "Table row slices", "statement": "table[a:b:k] has the same columns, each being that column's list slice, and table[i] is the i-th row for -len <= i < len.", "quantifier": "every table, layout, slice and row number", "why_tests_cant": "Same page-intersection logic as the column reads, per column with different layouts.", "anchors": ["tablite/base.py:BaseTable.__getitem__"]}
{"id": "C17", "title": "Stacking tables keeps every row and fills missing columns with None", "statement": "t1.stack(t2) has the union of the columns; its rows are t1's rows followed by t2's rows where a column missing on one side reads None.", "quantifier": "every pair of tables with equal-length columns and any overlap of names", "why_tests_cant": "All overlap patterns and lengths.", "anchors": ["tablite/base.py:BaseTable.stack"]}
{"id": "C18", "title": "Table equality", "statement": "t1 == t2 holds exactly when both have the same column names and equal columns.", "quantifier": "all pairs of tables, layouts, including tables without rows", "why_tests_cant": "Short-cut branches (identity, empty) must agree with the definition for every table.", "anchors": ["tablite/base.py:BaseTable.__eq__"]}
{"id": "C19", "title": "The multi-column index is an exact partition of the rows", "statement": "table.index(cols) maps each key tuple that occurs to the ascending list of exactly the rows with that key; keys appear in first-occurrence order; every row number occurs exactly once.", "quantifier": "every table and column selection", "why_tests_cant": "Unbounded data.", "anchors": ["tablite/base.py:BaseTable.index"]}
{"id": "C20", "title": "Duplicate removal keeps one row per distinct key", "statement": "unique_index(cols)/drop_duplicates keep exactly the first row of each distinct key: two rows with different keys are both kept, equal keys keep the earliest.", "quantifier": "every table, every pair of key values (including those whose hashes collide)", "why_tests_cant": "Hash collisions are rare in test data but certain to exist.", "anchors": ["tablite/base.py:BaseTable.unique_index", "tablite/core.py:Table.drop_duplicates"]}
{"id": "C21", "title": "save/load round trip", "statement": "loading a saved table gives the same column names in the same order and the same values, for every page layout, also when pages are repeated or shared between columns, and loaded pages respect the page size.", "quantifier": "every table and page sharing pattern", "why_tests_cant": "Sharing patterns and layouts are unbounded; page names must be unambiguous inside the archive.", "anchors": ["tablite/base.py:BaseTable.save", "tablite/base.py:BaseTable.load"]}
{"id": "C22", "title": "Page files live exactly as long as someone uses them", "statement": "no operation removes a page file that a live column still references; when the last reference disappears the file is removed; a fresh page never reuses a path that exists.", "quantifier": "all interleavings of page creation, sharing, unpickling in the owning process and garbage collection", "why_tests_cant": "Depends on histories of object lifetimes that tests cannot enumerate.", "anchors": ["tablite/base.py:SimplePage._incr_refcount", "tablite/base.py:SimplePage.__del__", "tablite/base.py:SimplePage.next_id"]}
{"id": "C23", "title": "Inner join is the relational inner join", "statement": "the inner join returns one row for every pair (left row, right row) whose key columns are equal (None equals None), with the left and right row values side by side; no other rows.", "quantifier": "all tables, keys (any number), duplicates on both sides, page sizes", "why_tests_cant": "Multiplicities and None handling over unbounded data.", "anchors": ["tablite/joins.py:_sp_left_mapping", "tablite/joins.py:_sp_inner_mapping", "tablite/joins.py:_join"]}
{"id": "C24", "title": "Left join keeps every left row", "statement": "the left join returns the inner join's pairs plus, for every left row without partner, one row with None for the right columns; left row order is kept.", "quantifier": "all tables and keys", "why_tests_cant": "Unbounded multiplicities.", "anchors": ["tablite/joins.py:_sp_left_mapping", "tablite/joins.py:_join"]}
{"id": "C25", "title": "Outer join keeps every row of both tables", "statement": "the outer join is the left join followed by each right row whose key does not occur on the left exactly once with None on the left side.", "quantifier": "all tables and keys", "why_tests_cant": "Unbounded multiplicities.", "anchors": ["tablite/joins.py:_sp_outer_mapping", "tablite/joins.py:_join"]}
{"id": "C26", "title": "Cross join is the cartesian product", "statement": "the cross join returns len(left) * len(right) rows, every pair once, left-major.", "quantifier": "all pairs of tables including empty ones", "why_tests_cant": "Unbounded sizes.", "anchors": ["tablite/joins.py:_sp_cross_mapping"]}
{"id": "C27", "title": "Join results do not depend on the number of worker processes or page size", "statement": "reindexing the source columns by the row mapping chunk by chunk gives the same table as doing it in one piece, for every page size and chunk order in which workers finish.", "quantifier": "all mappings, page sizes, chunkings and completion orders", "why_tests_cant": "Worker scheduling and chunk limits cannot be enumerated.", "anchors": ["tablite/joins.py:_mp_reindex_page", "tablite/joins.py:_mp_where", "tablite/joins.py:_join"]}
{"id": "C28", "title": "Lookup returns the first matching row", "statement": "t1.lookup(t2, criteria) yields for each row of t1 the first (or last) row of t2 that satisfies all criteria, or None when there is none.", "quantifier": "all tables and comparison criteria", "why_tests_cant": "The result cache keyed by value hashes must be transparent for every data set.", "anchors": ["tablite/lookup.py:lookup", "tablite/lookup.py:_lookup"]}
{"id": "C29", "title": "Filtering partitions the rows", "statement": "t.filter(expressions) returns (pass, fail) tables: a row is in pass exactly when all/any of its expressions hold, in fail otherwise; both keep row order and all columns, for any page layout of each column.", "quantifier": "all tables with per-column layouts, all expression lists, page sizes", "why_tests_cant": "Mask/page bookkeeping over independent layouts per column.", "anchors": ["nimlite/funcs/filter.nim:filter", "tablite/redux.py:filter"]}
{"id": "C30", "title": "Filter comparison operators are consistent", "statement": "for the same operands '==' and '!=' give opposite answers, '<=' holds exactly when '<' or '==' does, and mixed int/float operands compare by numeric value.", "quantifier": "all pairs of values of all supported types", "why_tests_cant": "All type combinations and values.", "anchors": ["nimlite/pytypes/pycmp.nim:addCmpMethod", "nimlite/funcs/filter.nim:checkExpression"]}
{"id": "C31", "title": "all / any / drop select exactly the matching rows", "statement": "t.all(**kw) keeps the rows where every condition holds, t.any(**kw) those where at least one holds and t.drop(values) those containing none of the values; rows keep their order.", "quantifier": "all tables and conditions", "why_tests_cant": "Unbounded data.", "anchors": ["tablite/redux.py:filter_all", "tablite/redux.py:filter_any", "tablite/redux.py:drop"]}
{"id": "C32", "title": "Sorting is a stable permutation ordered by the keys", "statement": "t.sort(mapping) contains the same rows (each as often as before), ordered by the given columns in the given directions, and rows equal on all sort keys keep their original relative order.", "quantifier": "all tables, key lists and directions", "why_tests_cant": "Permutation and stability over unbounded data.", "anchors": ["tablite/sortation.py:sort_index", "tablite/sortation.py:sort", "tablite/sort_utils.py:unix_sort"]}
{"id": "C33", "title": "Group-by groups rows exactly by key", "statement": "groupby(keys, functions) returns one row per distinct key in first-occurrence order and each aggregate is computed from exactly the rows of that key.", "quantifier": "all tables and aggregate lists", "why_tests_cant": "Unbounded data and page layouts.", "anchors": ["nimlite/funcs/groupby.nim:groupby"]}
{"id": "C34", "title": "Group-by aggregates", "statement": "count, count_unique, first, last, min, max, sum, product, average and standard deviation equal their textbook definitions on the values of the group (rational arithmetic).", "quantifier": "every non-empty list of numbers", "why_tests_cant": "Streaming updates must agree with the closed form for every list.", "anchors": ["nimlite/funcs/groupby.nim:GroupBySum", "nimlite/funcs/groupby.nim:GroupByStandardDeviation", "nimlite/funcs/groupby.nim:GroupbyMax"]}
{"id": "C35", "title": "Group-by median", "statement": "median of a group is the middle value of its sorted values (mean of the two middle values for even counts).", "quantifier": "every non-empty list of numbers", "why_tests_cant": "Correctness depends on multiplicities of values.", "anchors": ["nimlite/funcs/groupby.nim:GroupByMedian"]}
{"id": "C36", "title": "Summary statistics equal their definitions", "statement": "statistics() of a numeric column gives the true sum, mean, min, max, mode, median, and sample variance of the values, independent of the order of the histogram.", "quantifier": "every non-empty multiset of rationals given as a histogram with positive counts", "why_tests_cant": "The weighted one-pass update has to agree with the two-pass definition for every histogram.", "anchors": ["tablite/utils.py:_numeric_statistics_summary"]}
{"id": "C37", "title": "CSV parsing inverts CSV quoting", "statement": "importing a line in which every field is quoted (quote characters doubled, escape character escaped) yields exactly the original fields.", "quantifier": "every list of fields over any characters without line breaks and tabs, every delimiter/quote/escape choice that differ", "why_tests_cant": "A character-level state machine with nine states; field contents are unbounded.", "anchors": ["nimlite/funcs/text_reader/csvparse.nim:parseProcessChar", "nimlite/funcs/text_reader/csvparse.nim:parseCSV"]}
{"id": "C38", "title": "Text import splits the file into tasks that cover every requested row once", "statement": "with start/limit/page size given, the import tasks cover exactly the rows from header+start up to min(end of file, start+limit), contiguous, non-overlapping, none larger than the page size.", "quantifier": "all numbers of lines, starts, limits, page sizes, header positions", "why_tests_cant": "Arithmetic edge cases (exact multiples, limit beyond the end).", "anchors": ["nimlite/funcs/text_reader/text_reader.nim:importTextFile"]}
{"id": "C39", "title": "Date text is recognised exactly when it denotes a date", "statement": "every calendar date written D/M/YYYY, M/D/YYYY (US) or YYYY-MM-DD is inferred as that date and no other text is inferred as a date.", "quantifier": "all dates of years 1..9999 in all supported notations, all strings", "why_tests_cant": "Three notations, tie-breaking and month limits: more combinations than a test enumerates.", "anchors": ["nimlite/infertypes.nim:guessDate", "nimlite/infertypes.nim:wordsToDate", "nimlite/infertypes.nim:inferDate"]}
{"id": "C40", "title": "Integer text with thousand separators", "statement": "text accepted as a US/EU grouped integer has the value obtained by deleting the separators, and a grouped rendering of any integer is accepted and gives that integer back.", "quantifier": "all integers and all strings", "why_tests_cant": "Unbounded digit strings.", "anchors": ["nimlite/infertypes.nim:inferInt"]}
{"id": "C41", "title": "Type ranking finds a type that accepts every value", "statement": "while importing a text column the per-column type ranking stays a permutation of all types with counts adding up to the number of values, sorted by count; each value is counted under a type that accepts it.", "quantifier": "all sequences of field values", "why_tests_cant": "A self-reordering list over arbitrary input sequences.", "anchors": ["nimlite/ranking.nim:updateRank", "nimlite/ranking.nim:sortRanks", "nimlite/insertsort.nim:insertSort"]}
{"id": "C42", "title": "Day numbers convert to the right calendar date", "statement": "the conversion of a day number (days since 1970-01-01) to year/month/day is the proleptic Gregorian calendar: it is inverse to counting days, for days before and after the epoch.", "quantifier": "every integer day number in the supported years", "why_tests_cant": "3.6 million days, with leap-year rules; an arithmetic slip shows on few of them.", "anchors": ["nimlite/dateutils.nim:days2YearsDays", "nimlite/dateutils.nim:days2Components"]}
{"id": "C43", "title": "Durations normalise without loss", "statement": "normalising weeks/days/hours/minutes/seconds/milliseconds/microseconds to (days, seconds, microseconds) preserves the total and gives 0 <= seconds < 86400 and 0 <= microseconds < 1000000.", "quantifier": "all integers, positive and negative", "why_tests_cant": "Carry handling for negative values.", "anchors": ["nimlite/dateutils.nim:toTimedelta"]}
{"id": "C44", "title": "Repagination preserves the data and fills pages", "statement": "column.repaginate() keeps list(column) unchanged and leaves all pages exactly Config.PAGE_SIZE long except possibly the last, which is non-empty.", "quantifier": "every page layout including empty pages, every page size", "why_tests_cant": "Two-cursor arithmetic over arbitrary layouts.", "anchors": ["nimlite/numpy.nim:calcRepaginationSteps", "nimlite/numpy.nim:repaginate"]}
{"id": "C45", "title": "Column selection splits rows into passed and rejected without loss", "statement": "column_select returns (passed, failed): every input row is in exactly one of them, in passed exactly when every requested conversion succeeds (and empties are allowed where present); row order is kept.", "quantifier": "all tables with matching layouts, all requested conversions", "why_tests_cant": "Mask bookkeeping across columns and page types.", "anchors": ["nimlite/funcs/column_selector/sliceconv.nim:doSliceConvert", "nimlite/funcs/column_selector/mask.nim:unusedMaskSearch", "nimlite/funcs/column_selector/makepage.nim:makePage"]}
{"id": "C46", "title": "Column selection keeps every requested output column", "statement": "renaming/duplicating columns in column_select yields as many distinct output columns as requested.", "quantifier": "all lists of requested columns and renames", "why_tests_cant": "Name collisions among generated names.", "anchors": ["nimlite/funcs/column_selector/collectinfo.nim:collectColumnSelectInfo"]}
{"id": "C47", "title": "Generated names are unique and minimal", "statement": "unique_name(name, names) terminates, returns a name not in names, equals name when that is free, and otherwise name_i with the smallest free i.", "quantifier": "all names and finite sets of names", "why_tests_cant": "Termination and freshness over all sets.", "anchors": ["tablite/utils.py:unique_name", "nimlite/utils.nim:uniqueName"]}
{"id": "C48", "title": "Spreadsheet column letters", "statement": "the column count computed from an Excel range reference is the bijective base-26 value of the letters: A=1..Z=26, AA=27, strictly increasing in shortlex order, and every positive number has exactly one name.", "quantifier": "all letter strings", "why_tests_cant": "Unbounded strings.", "anchors": ["tablite/utils.py:calc_col_count"]}
{"id": "C49", "title": "Page steps partition a range", "statement": "Config.page_steps(n) yields consecutive (start,end) pairs that cover [0,n) exactly, each at most PAGE_SIZE long and at least one pair.", "quantifier": "every n >= 0 and page size >= 1", "why_tests_cant": "Exact multiples and zero are the edge cases.", "anchors": ["tablite/config.py:Config.page_steps"]}
{"id": "C50", "title": "Text splitting with a delimiter sequence", "statement": "splitting a line by the format's delimiter sequence and joining the pieces with those delimiters gives the line back; the number of pieces is number of delimiters + 1.", "quantifier": "all lines and delimiter sequences that occur in order", "why_tests_cant": "Unbounded strings.", "anchors": ["tablite/file_reader_utils.py:split_by_sequence"]}
{"id": "C51", "title": "Binary type codes round trip", "statement": "DataTypes.to_bytes followed by from_type_code returns the same value of the same type for all supported types.", "quantifier": "all values of the supported types", "why_tests_cant": "Unbounded value domains.", "anchors": ["tablite/datatypes.py:DataTypes.to_bytes", "tablite/datatypes.py:DataTypes.from_type_code"]}
{"id": "C52", "title": "JSON conversion round trip", "statement": "DataTypes.from_json(DataTypes.to_json(v), type(v)) == v.", "quantifier": "all values of the supported types", "why_tests_cant": "Unbounded value domains.", "anchors": ["tablite/datatypes.py:DataTypes.to_json", "tablite/datatypes.py:DataTypes.from_json"]}
{"id": "C53", "title": "Rounding to a multiple", "statement": "DataTypes.round(v, m, up) returns a multiple of m: nearest below-or-equal, above-or-equal, or closest (half up) as asked, within one multiple of v.", "quantifier": "all rationals v and positive multiples m", "why_tests_cant": "Unbounded domain; boundaries are the exact multiples and halves.", "anchors": ["tablite/datatypes.py:DataTypes.round"]}
{"id": "C54", "title": "Imported Excel values survive the temporary page format", "statement": "values written to the temporary import page (tag, length, bytes) and re-read give the same sequence of values.", "quantifier": "every sequence of cells", "why_tests_cant": "Unbounded sequences and lengths.", "anchors": ["tablite/import_utils.py:excel_reader", "tablite/import_utils.py:_fix_xls_page"]}
{"id": "C55", "title": "Page file headers are aligned", "statement": "the .npy header written for imported pages has a total length that is a multiple of 64 and its length field equals the number of bytes that follow up to the data.", "quantifier": "every dtype string and shape", "why_tests_cant": "Length arithmetic modulo 64.", "anchors": ["tablite/import_utils.py:_create_numpy_header"]}
{"id": "C56", "title": "Carry-forward imputation", "statement": "carry_forward replaces each missing value in the target columns by the closest earlier non-missing value in the same column and leaves everything else (including leading missing values) as it was.", "quantifier": "all columns, missing sets", "why_tests_cant": "Unbounded data.", "anchors": ["tablite/imputation.py:carry_forward"]}
{"id": "C57", "title": "Nearest-neighbour imputation fills gaps and nothing else", "statement": "nearest_neighbour imputation changes only missing cells of target columns, and fills them with non-missing values of the same column when one exists, for any page layout.", "quantifier": "all tables, page layouts, missing sets", "why_tests_cant": "Depends on which rows share pages.", "anchors": ["nimlite/funcs/imputation.nim:nearestNeighbourImputation"]}
{"id": "C58", "title": "Transpose", "statement": "transposing a table twice returns the original when the first column has unique values and headers are distinct.", "quantifier": "all rectangular tables with distinct labels", "why_tests_cant": "Unbounded shape.", "anchors": ["tablite/pivots.py:transpose"]}
{"id": "C59", "title": "Pivot places every aggregate in its cell", "statement": "pivot(rows, columns, functions) has one row per distinct row key and one column block per distinct column key, and each cell holds the aggregate of exactly the source rows with both keys (None if there are none).", "quantifier": "all tables", "why_tests_cant": "Unbounded data.", "anchors": ["tablite/pivots.py:pivot"]}
{"id": "C60", "title": "pivot_transpose (unpivot) keeps every cell", "statement": "pivot_transpose(columns, keep) yields one row for each non-None cell of the listed columns with its column name, the kept values of its row and the value.", "quantifier": "all tables and disjoint column lists", "why_tests_cant": "Unbounded data.", "anchors": ["tablite/pivots.py:pivot_transpose"]}
{"id": "C61", "title": "Table diff", "statement": "t1.diff(t2) lists the rows of both tables in order with markers such that removing the '+' rows gives t1 and removing the '-' rows gives t2.", "quantifier": "all pairs of tables", "why_tests_cant": "Edit scripts of arbitrary shape.", "anchors": ["tablite/diff.py:diff"]}
{"id": "C62", "title": "Reindexing a table", "statement": "t.reindex(index) returns the rows of t at the given row numbers in that order, with None where the index is -1, for every page size.", "quantifier": "all tables, indices and page sizes", "why_tests_cant": "Page-chunked code.", "anchors": ["tablite/reindex.py:reindex"]}
{"id": "C63", "title": "Conditional merge (where)", "statement": "t.where(criteria, left, right, new) puts left[i] where criteria[i] is true and right[i] elsewhere, row by row.", "quantifier": "all tables longer or shorter than a page", "why_tests_cant": "Depends on number of pages.", "anchors": ["tablite/merge.py:where"]}
{"id": "C64", "title": "match operator", "statement": "t1.match(t2, criteria) joins only rows whose values agree on all given column pairs.", "quantifier": "all tables and criteria lists", "why_tests_cant": "Multi-criteria combinations.", "anchors": ["tablite/match.py:match", "tablite/match.py:find_indices", "tablite/match.py:merge_indices"]}
{"id": "C65", "title": "Group-by mode", "statement": "mode of a group is a value of the group that no other value occurs more often than.", "quantifier": "every non-empty list of values", "why_tests_cant": "Depends on all multiplicities and on mixtures of text and other values.", "anchors": ["nimlite/funcs/groupby.nim:GroupByMode"]}
{"id": "C66", "title": "Quartiles and dominant type of the summary", "statement": "iqr_low and iqr_high of statistics() leave at most one quarter (three quarters) of the values below and at most three quarters (one quarter) above, and the summary is computed from all values of a type that no other type outnumbers.", "quantifier": "every histogram with positive counts", "why_tests_cant": "Quartile boundaries depend on the exact cumulative counts.", "anchors": ["tablite/utils.py:_numeric_statistics_summary", "tablite/utils.py:summary_statistics"]}
{"id": "C67", "title": "Pages imported with guessed types", "statement": "Importing text with guess_datatypes=True stores every field of every column as its reading under some type that accepts it, or as the text itself; it never fails because of the contents of a field, and the types do not depend on the order of the rows.", "quantifier": "every non-empty sequence of texts in a column of a page", "why_tests_cant": "The page type depends on counts and on the order of all values of the page; the failing mixtures are rare.", "anchors": ["nimlite/ranking.nim:updateRank", "nimlite/funcs/text_reader/paging.nim:collectPageInfo", "nimlite/funcs/text_reader/paging.nim:dumpPageHeader", "nimlite/funcs/text_reader/paging.nim:dumpPageBody"]}
{"id": "C68", "title": "Decimal numbers in text", "statement": "Text is read as a float of the US or European locale exactly when it is a decimal number of that locale, with thousands separators between groups of three digits only, and the value is the number that is written.", "quantifier": "every text", "why_tests_cant": "The accepted language is infinite; wrong acceptances change values silently.", "anchors": ["nimlite/infertypes.nim:inferFloat"]}
{"id": "C69", "title": "Object pages survive a round trip through the native code", "statement": "A page of mixed values written by the native code and read again holds the same values in the same order, with the same length and the same number of values of each type.", "quantifier": "every list of values: None, booleans, 64-bit integers, floats, texts, dates, times, datetimes", "why_tests_cant": "The file is a program for a stack machine whose length, memo indices and encodings depend on every value; only some integers and times are encoded wrongly.", "anchors": ["nimlite/pickling.nim:writePickleBinint", "nimlite/pickling.nim:writePickleDatetime", "nimlite/pickling.nim:writePickleStart", "nimlite/unpickling.nim:unpickle", "nimlite/unpickling.nim:newReducePickle", "nimlite/unpickling.nim:readPickledPage"]}
{"id": "C70", "title": "Page files survive a round trip through the native code", "statement": "Any page written to a file by the native code and read again has the same length and the same values, whichever of the typed formats or the object format was chosen for the file.", "quantifier": "every page of booleans, integers, floats, texts, dates, datetimes or mixed values of any length", "why_tests_cant": "The header length, padding and descriptor depend on the page length and the longest text; the choice of format depends on all values; the wrong conversions only touch fractions of a second.", "anchors": ["nimlite/numpy.nim:writeNumpyHeader", "nimlite/numpy.nim:parseHeader", "nimlite/numpy.nim:readNumpy", "nimlite/numpy.nim:save", "nimlite/numpy.nim:saveAsUnicode", "nimlite/numpy.nim:newDateTimeArray_Microseconds"]}
{"id": "C71", "title": "Adding rows keeps the table rectangular", "statement": "table.add_rows(...) with lists, tuples, dictionaries, lists of rows or keyword arguments appends exactly the given rows, each value under its name; afterwards all columns have the same length; a call that raises changes nothing.", "quantifier": "every rectangular table, every call with any mix and number of row arguments and keyword arguments", "why_tests_cant": "The call dispatches on the shape of its arguments, extends columns one after the other and can fail between them.", "anchors": ["tablite/base.py:BaseTable.add_rows", "tablite/base.py:Column.extend"]}
{"id": "C72", "title": "Derived tables are independent of their source", "statement": "After u = t.copy() or u = t[keys] (a table), no sequence of operations on one of the two changes the names or values of the other.", "quantifier": "every table, every selection, every interleaved history of assignments, aliases, deletions, element writes, add_rows, add_columns and clear on both tables", "why_tests_cant": "Tables hold references to column objects; a shared object only shows after some later write through the other table.", "anchors": ["tablite/base.py:BaseTable.copy", "tablite/base.py:BaseTable.__getitem__", "tablite/base.py:BaseTable.__setitem__"]}
{"id": "C73", "title": "Construction of tables", "statement": "Table(columns=d) has the columns of d in order with the same values; Table(headers=h, rows=r) has the headers as column names in order and value j of row i in column j, row i.", "quantifier": "every dictionary of lists; every list of headers and every list of rows", "why_tests_cant": "Rows of different lengths, repeated headers and empty inputs are combined freely.", "anchors": ["tablite/base.py:BaseTable.__init__", "tablite/base.py:BaseTable.add_columns", "tablite/base.py:BaseTable.add_column"]}
{"id": "C74", "title": "Selection of columns and rows by keys", "statement": "table[name, name, ...] has the named columns in the order given; with a slice among the keys every column holds the values of that slice of the named column; with one integer the value or values of that row.", "quantifier": "every table, every non-empty list of names, integers and slices", "why_tests_cant": "The result depends on how many keys there are of each kind.", "anchors": ["tablite/base.py:BaseTable.__getitem__"]}
{"id": "C75", "title": "Export to a text file and import", "statement": "A table exported with to_csv, to_tsv or to_text and imported again with Table.from_file has the same column names in the same order and in every column the same texts in the same order.", "quantifier": "every table with different column names, any number of rows, any texts, any page size", "why_tests_cant": "Writer and reader are different programs (Python's csv module and a native state machine) that agree only on some characters and settings; import splits the file into tasks.", "anchors": ["tablite/export_utils.py:text_writer", "tablite/import_utils.py:text_reader", "tablite/core.py:Table.from_file", "nimlite/funcs/text_reader/csvparse.nim:parseProcessChar", "nimlite/funcs/text_reader/text_reader.nim:importTextFile"]}
{"id": "C76", "title": "Tables as dictionaries and as JSON", "statement": "to_dict gives every requested column under its name with the values of the requested rows, in order; as_json_serializable gives the same values converted, together with the numbers of the rows they come from, under names that are all different; and a table written with to_json and read with Table.from_json is the same table.", "quantifier": "every table with different column names, any slice, any starting number, any page size", "why_tests_cant": "Three different loops read the table and must agree on which rows a slice means, for columns of different lengths and for every step; the names given to columns must never collide whatever names are already there.", "anchors": ["tablite/base.py:BaseTable.to_dict", "tablite/base.py:BaseTable.as_json_serializable", "tablite/export_utils.py:to_json", "tablite/import_utils.py:from_json", "tablite/datatypes.py:DataTypes.to_json"]}
{"id": "C77", "title": "Intersection of ranges", "statement": "tools.range_intercept(A, B) returns a range that holds, in ascending order, exactly the numbers that are in both ranges.", "quantifier": "all ranges A and B with any start, stop and step", "why_tests_cant": "The code chooses between several formulas for the first common number and the step according to divisibility of the steps; every pair of steps and offsets is a new case.", "anchors": ["tablite/utils.py:intercept", "tablite/tools.py:range_intercept"]}
{"id": "C78", "title": "Imputation by mean and mode", "statement": "imputation(T, targets, missing, method) with method 'mean' or 'mode' returns a table in which every missing value of a target column is replaced by the mean (a most frequent value) of the values of this column that are not missing; all other values and columns are the same, and the table T is not changed.", "quantifier": "every table, any set of missing values, any targets, any page layout", "why_tests_cant": "The statistics are computed from a histogram in which counts of missing values are set to 0, by a loop that divides by running counts; whether it works depends on the order of missing and other values. Whether T is changed depends on which column objects are shared.", "anchors": ["tablite/imputation.py:imputation", "tablite/imputation.py:stats_method", "tablite/utils.py:summary_statistics", "tablite/base.py:Column.replace", "tablite/base.py:Column.histogram"]}
{"id": "C79", "title": "A column keeps the values and types it is given", "statement": "Column(values), iterated or read with [:], gives back the values of the list with their Python types and without change.", "quantifier": "every list of None, bool, int, float, str, bytes, date, datetime, time, timedelta and other scalar values, every page size >= 1", "why_tests_cant": "numpy chooses the storage type from all values of the list together; the lists for which that loses something (mixed large integers, trailing NULs, time zones) are rare.", "anchors": ["tablite/datatypes.py:pytype_from_iterable", "tablite/datatypes.py:list_to_np_array", "tablite/datatypes.py:np_type_unify", "tablite/base.py:Column._paginate", "tablite/base.py:Column.extend"]}
{"id": "C80", "title": "Writes to a column store the values given, whatever the column held before", "statement": "After column[i] = v, column[a:b] = l, column[a:b:k] = l and deletions, in any order, the written positions hold exactly the values given, with their types, and all other values are unchanged, also when the new values have another type or are longer than the old ones.", "quantifier": "all columns with pages of any numpy types, all histories of writes, all values", "why_tests_cant": "The result depends on the numpy type of the pages touched and on the values written; tests write values of the type and width already present.", "anchors": ["tablite/base.py:Column.__setitem__", "tablite/base.py:Column._setitem_integer_key", "tablite/base.py:Column._setitem_insert", "tablite/base.py:Column._setitem_update", "tablite/base.py:Column._del_by_slice", "tablite/datatypes.py:np_type_unify"]}
{"id": "C81", "title": "Replaced values are stored as given", "statement": "After column.replace(mapping) every value that is a key of the mapping is the mapped value, with its type and in full, and all other values are unchanged.", "quantifier": "all columns with pages of any numpy types, all mappings", "why_tests_cant": "The new value is written into an array of the type of the page; whether it survives depends on that type and, for texts, on the longest text of the page.", "anchors": ["tablite/base.py:Column.replace"]}
{"id": "C82", "title": "Joins with merged keys", "statement": "A join with merge_keys=True has one column per key, holding the key value of every row whichever side it came from, no second key column, and otherwise the same columns and values as the join without merging.", "quantifier": "all tables, all keys, all column selections, every join kind, all page sizes", "why_tests_cant": "The right key column is found by recomputing a unique name from another set of names than the one it was given under; which column is merged and deleted depends on the names of both tables and on the selection.", "anchors": ["tablite/joins.py:_join", "tablite/joins.py:_mp_where"]}
{"id": "C83", "title": "Sorting by text", "statement": "Sorting in mode alphanumeric rearranges the rows so that the texts of the key values are in the order of the collation, in the given directions, with ties in their original order; no row is lost and no value changed.", "quantifier": "all tables, all keys and directions, every collation, every iteration order of the set of values", "why_tests_cant": "Ranks pass through two dictionaries, one keyed by text and one by value with Python equality; collisions in either depend on which values occur together.", "anchors": ["tablite/sort_utils.py:text_sort", "tablite/sortation.py:sort_index"]}
{"id": "C84", "title": "Filtering by an expression text", "statement": "table.filter(\"<python expression>\") returns two tables: the rows for which the expression is true with the column names standing for the row's values, and the rows for which it is not, each in order and with all columns; an exception of the expression is raised.", "quantifier": "all tables, all expressions, all page sizes", "why_tests_cant": "The arguments of the compiled function are found by searching column names in the text of the expression; what happens depends on which names occur in it, as words or not.", "anchors": ["tablite/redux.py:_filter_using_expression", "tablite/redux.py:filter", "tablite/utils.py:expression_interpreter"]}
{"id": "C85", "title": "Pages hold values of their numpy type", "statement": "Whatever list a column is made of and whatever is then assigned, extended, replaced or deleted, every page holds only values of its numpy type, and so does the array read from the column.", "quantifier": "all lists of values, all sequences of changes, all page sizes", "why_tests_cant": "Pages of different types are joined and split by every kind of write; a page whose type does not match its values would be misread by the code that reads pages by type.", "anchors": ["tablite/datatypes.py:list_to_np_array", "tablite/datatypes.py:np_type_unify", "tablite/base.py:Column.__setitem__", "tablite/base.py:Column.replace"]}
{"id": "C86", "title": "Guessing the types of a column of values", "statement": "DataTypes.guess(values) returns one value per value. Each value becomes what the most successful type that accepts it makes of it: types are tried in the order of how many earlier values of the column they accepted, ties in the order in which they reached that count, untouched types in the order datetime, date, time, int, bool, float, str. A column that one type accepts throughout, and no type before it accepts at all, is read as that type; in particular integer text with quotes, spaces and thousands commas is read as those integers, and columns of datetimes, times, ints, bools and non-integral floats are left as they are. The full claims that values which are no text are never changed, and that what a value becomes does not depend on the order of the column, are false.", "quantifier": "all columns of values of any types and lengths, all ways of reading dates, times and decimals", "why_tests_cant": "The outcome for a value depends on the whole history of values before it through a ranking that is reordered in place; only an invariant over all histories settles which type is tried first.", "anchors": ["tablite/datatypes.py:454-697", "tablite/datatypes.py:729-753", "tablite/import_utils.py:107", "tablite/import_utils.py:169-173"]}
{"id": "C87", "title": "Dates from text", "statement": "Reading text as a date (DataTypes.infer(text, date)) succeeds exactly for the accepted spellings of real dates: four digits of the year and one or two digits of month and day, year first or day first, with the same separator - . / or space twice, or eight digits; it gives the date spelled, and every other text raises ValueError. A column of such texts other than the form YYYY-MM-DD is guessed as those dates. The full claim, that every column of such texts is guessed as dates, is false: YYYY-MM-DD becomes a datetime at midnight.", "quantifier": "all texts, all columns of texts", "why_tests_cant": "33 patterns with 4 separators, two orders and all dates; that nothing else is accepted and no date is taken for another is a statement about all texts.", "anchors": ["tablite/datatypes.py:182-217", "tablite/datatypes.py:628-645", "tablite/datatypes.py:483-504"]}
{"id": "C88", "title": "Datetimes from text", "statement": "Text that spells a date with - / or space, year or day first, then T or space and hours, minutes and optionally seconds, or a compact form of digits, is read by DataTypes.infer(text, datetime) as that datetime. A fraction of a second of up to nine digits after a dot or comma is cut off after the microseconds, except that a microsecond may be lost when there is nothing to cut off. Columns of such texts are guessed as datetimes; columns of integer texts are guessed as integers unless they have 8, 10, 12 or 14 digits. The full claims that fractions of up to six digits are exact, that the forms with dots in the table are read, and that integer texts become integers, are false.", "quantifier": "all dates and times, all styles, all digits of the fraction, every rounding of doubles with relative error 2^-53", "why_tests_cant": "All dates, times and fractions in dozens of styles; the error of the fraction comes from rounding of doubles and shows only for some digits.", "anchors": ["tablite/datatypes.py:220-325", "tablite/datatypes.py:647-671", "tablite/datatypes.py:483-504"]}
{"id": "C89", "title": "Excel import", "statement": "Table.from_file on an Excel sheet gives, for every wanted column in the order asked for, a column with a name of its own (a repeated header gets the first free number) that holds the cells of the imported rows in order, tabs and line breaks removed from texts, in pages of PAGE_SIZE values; the rows are those after the header row and `start` rows, up to `limit`, without those skip_empty leaves out. A wanted column the sheet does not have raises ValueError, a cell that cannot be stored stops the import with an exception. The size of the sheet is computed from the names of its cells. The full claim about `limit` is false: limit + 1 rows are imported.", "quantifier": "all rectangular sheets, all options, all page sizes", "why_tests_cant": "The columns go through page files of a private format that are flushed every PAGE_SIZE rows; that no row is lost, doubled or moved to another column for every number of rows, selection of columns and page size is a statement about all sheets.", "anchors": ["tablite/import_utils.py:178-363", "tablite/import_utils.py:652-688", "tablite/utils.py:421-475"]}
{"id": "C90", "title": "ODS import", "statement": "Table.from_file on an ODS sheet gives, for every column whose name is wanted, in the order of the sheet, a column with a name of its own that holds the first `limit` cells of the rows after the header row that skip_empty keeps; names the sheet does not have are ignored, and a header row outside of the sheet raises IndexError. The full claims that `start` leaves out rows and that the same sheet read from Excel and from ODS with the same options gives the same table are false: `start` is ignored, and the readers name columns, take columns, skip rows and count the limit differently; they agree on sheets with headers when all columns and rows are imported and no text holds a tab or line break.", "quantifier": "all rectangular sheets, all options", "why_tests_cant": "Agreement of two readers on all sheets and options, and the effect of an option on every sheet, cannot be settled by example files.", "anchors": ["tablite/import_utils.py:366-421", "tablite/import_utils.py:178-363"]}
{"id": "C91", "title": "HTML import finds rows", "statement": "Table.from_file on an HTML file imports the rows of its table. The full claim is false for every file: the first search for a row is made on empty text, and its result -1 is then used as the position to search from, so no row is ever found and None is returned.", "quantifier": "all files, every way the file is cut into reads", "why_tests_cant": "That no file at all is imported is a statement about all files.", "anchors": ["tablite/import_utils.py:125-174"]}
{"id": "C92", "title": "Times and datetimes in text (native code)", "statement": "Text is read as a time exactly when it is HH, HHMM, HHMMSS, HH:MM, HH:MM:SS, HH:MM:SS.fff or HH:MM:SS.ffffff, with the numbers written; followed by a sign and HH:MM, HH:MM:SS or HH:MM:SS.ffffff that much is added or taken away; an offset of any other length raises an exception that is not a ValueError. A date with separators, a blank or T and a time is read as that datetime. The full claim that only times of day are accepted is false: 99:99 is accepted, and dates separated by blanks are not accepted before a time.", "quantifier": "all texts of digits, colons and points; all dates and times in the listed forms; all offsets", "why_tests_cant": "Both directions quantify over all texts; a test suite samples a handful of spellings.", "anchors": ["nimlite/infertypes.nim:365-509", "nimlite/pytypes.nim:22-45", "nimlite/dateutils.nim:119-139"]}
{"id": "C93", "title": "Conversion of values by column_select", "statement": "A conversion gives a value of the type asked for or rejects the value; a value of that type already is kept. Truth values survive conversion to every other type (but dates) and back; whole numbers up to 2^53 survive text and float, and datetime within the years 1 to 9999; dates of the years 1 to 9999 survive text, int, float and datetime; datetimes and times in whole seconds survive text and float; other datetimes come back from float within one microsecond for 285 years around 1970; the date of a datetime is its day and its time (from 1970 on) its time of day. The full claims that all whole numbers survive text, that fractions of a second survive text or float, that a number is true exactly if not zero, that text of a datetime before 1970 converted to a date gives its date, that the time of a datetime before 1970 can be taken, and that only ValueErrors arise are false.", "quantifier": "all values of all types, all datetimes of the years 1 to 9999, any rounding that meets the assumptions (double rounding is shown to)", "why_tests_cant": "Losses occur only beyond 2^53, at single microseconds, or before 1970; samples miss them.", "anchors": ["nimlite/funcs/column_selector/casters.nim:120-243", "nimlite/dateutils.nim:75-139", "nimlite/pyobjs.nim:8-10", "nimlite/pytypes.nim:22-97", "nimlite/numpy.nim:945-981"]}
{"id": "C94", "title": "Statistics of truth values, text, dates and times", "statement": "statistics() of a column gives for truth values the least, greatest and a most frequent one, the number of True as sum and their share as mean; for text the shortest and greatest length, the total length and the first of the most frequent texts; for dates and datetimes the least, greatest and a most frequent one; for times in whole seconds likewise. They are computed from all values of a type no other outnumbers, and the number of distinct values and the histogram cover all types. The full claims that there are statistics of every column, that quartiles of dates are dates and that times with microseconds are reported exactly are false: time deltas raise AttributeError, other types TypeError, quartiles are seconds since 1970, and a microsecond may be lost.", "quantifier": "every histogram with positive counts; any clock that keeps the order and leads back; any rounding within the assumptions", "why_tests_cant": "Loss of a microsecond depends on the rounding of single values; totals and modes quantify over all histograms.", "anchors": ["tablite/utils.py:168-400"]}
{"id": "C95", "title": "Preview of a text file", "statement": "get_headers(path) shows the header row and the rows below it as Table.from_file with the same delimiter and text qualifier imports them: linecount rows (at least one) from header_row_index on, the first giving the names of the columns, the others the cells; nothing after them matters. Without a delimiter the one found is the candidate among , tab ; : | that occurs most often, and preview and import agree on it. A preview is marked is_empty only if there is nothing below the header.", "quantifier": "all file texts, dialects, header rows, line counts, suffixes and text qualifiers", "why_tests_cant": "The preview runs the parser on a prefix of the file and the import plans tasks over offsets in it; agreement has to hold for every mix of quoting, line ends, missing fields and separators, and tests compare a few sample files.", "anchors": ["tablite/file_reader_utils.py:114-200", "tablite/file_reader_utils.py:329-340", "nimlite/funcs/text_reader/text_reader.nim:115-142", "tablite/import_utils.py:588-630"]}
{"id": "C96", "title": "Display of tables", "statement": "show, to_ascii and _repr_html_ show the table: a column of row numbers under a name that no column has, then every column in order; with a slice or at most 20 rows, the row numbered i shows row i of every column and the fill value where a column is shorter; longer tables show the first and the last seven rows. The picture of to_ascii is a frame with lines of one length, it names every column and contains the text of every cell shown, it warns exactly if the columns differ in length, and dtype adds the type of each column, mixed or empty.", "quantifier": "all tables including columns of different lengths and names, slices with any start, stop and step, fill values, with and without types", "why_tests_cant": "Each test looks at one picture; that no name, length of column, text or fill value breaks the frame or hides a column is a statement about all tables.", "anchors": ["tablite/base.py:1685-1767", "tablite/base.py:1768-1820", "tablite/base.py:1832-1857", "tablite/utils.py:412-421"]}
{"id": "C97", "title": "Encodings of text files", "statement": "A text file means the same in every supported encoding: the same text saved as UTF-8, as UTF-8 with byte order mark, or as UTF-16 in either order of bytes is imported as the same table, a byte order mark is never part of the first name, a file in a code page is imported as the text it stands for, and a UTF-16 file without mark or with half a character is refused. The positions in bytes at which later tasks start reading are the starts of the rows they are meant for.", "quantifier": "all texts, all separators and options, all encodings, all page sizes", "why_tests_cant": "The test files are few and mostly ASCII; that jumping to a byte position gives the same lines as reading from the start must hold for every mix of one to four byte characters.", "anchors": ["nimlite/funcs/text_reader/encfile.nim:1-173", "nimlite/funcs/text_reader/csvparse.nim:219-354", "nimlite/funcs/text_reader/text_reader.nim:144-274", "tablite/utils.py:506-514"]}
{"id": "C98", "title": "Characters beyond ASCII in text files", "statement": "The import works on bytes, the user on characters: whatever is imported from a UTF-8 file is what the rules for separators, text qualifiers, escapes, blanks, empty fields, names, numbering of equal names and choice of columns give on the characters. No byte of a character is taken for a separator, quote, escape or blank, and no character is cut.", "quantifier": "all texts, all dialects with ASCII separators, all options, all page sizes", "why_tests_cant": "There are over a million characters and their bytes meet the parser in every state; tests try a few letters.", "anchors": ["nimlite/funcs/text_reader/csvparse.nim:61-265", "nimlite/funcs/text_reader/text_reader.nim:144-274", "nimlite/utils.nim:18-27", "nimlite/utils.nim:76-84"]}
{"id": "C99", "title": "Page files of an import with a limit of open files", "statement": "Importing a text file with more columns than files may be open at a time (MAX_FILES_OPEN) gives the same page files as importing it without a limit: each page file holds exactly what was written to its column, in order, nothing from before the import and nothing of other columns; and never more page files are open than the limit says.", "quantifier": "all limits, all numbers of columns, all sequences of writes", "why_tests_cant": "The eviction of open files depends on the order of writes and on the ratio of columns to the limit; tests use tables with few columns, for which the code is not reached.", "anchors": ["nimlite/funcs/text_reader/file_tracker.nim:4-76"]}
{"id": "C100", "title": "Ranges of dates", "statement": "date_range(start, stop, step) is range for dates: it returns start, start + step, ... up to but not including stop, in both directions, returns nothing if the steps lead away from stop, and refuses a step of zero and arguments of other types.", "quantifier": "all datetimes of years 1 to 9999, all steps other than zero", "why_tests_cant": "Tests use steps that divide the distance; whether the last moment is present for every other step and near the limits of datetime needs an argument for all.", "anchors": ["tablite/utils.py:401-409"]}
{"id": "C101", "title": "Scripts of SQL", "statement": "to_sql(table, name) is a script that any reader of ANSI SQL understands as the table: it creates the columns, with INTEGER or REAL exactly for columns of only int or only float, and inserts the rows in order with the same integers and texts, and NULL where the table has None.", "quantifier": "all tables of integers, texts and None, all names that need no quotes", "why_tests_cant": "The test compares one script with a literal; whether quotes, backslashes, brackets or commas inside a text end the text early must hold for all texts.", "anchors": ["tablite/export_utils.py:12-48", "tablite/export_utils.py:190-194"]}
{"id": "C102", "title": "Sorting by dates and times", "statement": "Sorting a column of dates, datetimes, times or timedeltas (excel or unix order) puts them in chronological order, with no exception, also where they lie less than a second apart, on the same day, or before 1900 or 1970; moments of different types are ordered by the moment.", "quantifier": "all values of datetime.date, datetime.datetime, datetime.time and datetime.timedelta, and None", "why_tests_cant": "The sort value is a float of days or seconds; whether rounding changes the order or makes two different values equal must be known for all pairs of values.", "anchors": ["tablite/sort_utils.py:23-132"]}
{"id": "C103", "title": "Round trip through HDF5", "statement": "from_hdf5 of the file that to_hdf5 wrote gives back the table: the same column names in the same order, and the same values with the same types.", "quantifier": "all tables of int, float, bool, str and None", "why_tests_cant": "Tests write one table; the code chooses a dataset type per column and guesses the type from texts on the way back, so that the values decide what comes back.", "anchors": ["tablite/export_utils.py:63-105", "tablite/import_utils.py:72-109"]}
{"id": "C104", "title": "Replacing values in columns of a table", "statement": "Table.replace(mapping, columns) changes exactly the named columns (all if none are named), each value once through the mapping; other columns stay; a name that is not a column is refused before anything changes.", "quantifier": "all tables, mappings and arguments for columns", "why_tests_cant": "Tests use one mapping and distinct columns; whether a value can go through the mapping twice depends on the mapping and the list of names together.", "anchors": ["tablite/core.py:500-528"]}
{"id": "C105", "title": "Distinct values of a column", "statement": "Column.unique() returns each value of the column exactly once, values of different types (1, True, 1.0) kept apart, in ascending order where the values can be ordered, independent of how the column is split into pages.", "quantifier": "all columns without NaN, all page layouts", "why_tests_cant": "The code sorts page by page and once more, and falls back to sets if values cannot be ordered; which path is taken depends on the values of each page.", "anchors": ["tablite/base.py:956-979", "tablite/datatypes.py:854-870"]}
{"id": "C106", "title": "Exchange with pandas", "statement": "Table.from_pandas(df) has the columns and values of the data frame in order, and from_pandas(t.to_pandas()) is t.", "quantifier": "all data frames with different column names, all tables", "why_tests_cant": "to_pandas has no test; from_pandas is tested on one frame.", "anchors": ["tablite/export_utils.py:51-60", "tablite/import_utils.py:40-69"]}
{"id": "C107", "title": "Tables as spreadsheets", "statement": "A table written as spreadsheet (.xlsx, .xls, .ods) has its column names in the first row and its rows below, and each cell holds the value of the table.", "quantifier": "all tables of Python values", "why_tests_cant": "The writer converts cells depending on type and size; tests write a few small values.", "anchors": ["tablite/export_utils.py:108-136", "tablite/datatypes.py:373-407"]}
{"id": "C108", "title": "Rows taken out of a page by the native code", "statement": "When filter or column_select takes rows out of a page, saves them as a new page and reads them again, they are the rows of the old page in the order asked for, whatever type the new page has (a page of objects whose remaining values have one type becomes a typed page).", "quantifier": "all pages, all lists of row numbers within the page", "why_tests_cant": "The type of the new page depends on which rows remain; tests cover a few combinations of types and rows.", "anchors": ["nimlite/numpy.nim:245-317", "nimlite/utils.nim:56-71", "nimlite/funcs/filter.nim:218-228"]}
{"id": "C109", "title": "Page files of several processes", "statement": "Processes that use tablite on one machine at the same time do not disturb each other: the page files of a table of a running process exist and hold what was written, whatever other processes create, drop, leave behind when killed, or remove when they end; no page file that exists is ever overwritten.", "quantifier": "all numbers of processes, all interleavings of starts, forks, operations on pages and ends, process numbers used again", "why_tests_cant": "It concerns all interleavings of any number of processes, including killed ones and reused process numbers; tests run one process.", "anchors": ["tablite/base.py:43-61", "tablite/base.py:94-146", "tablite/config.py:47"]}
{"id": "C110", "title": "Laws between sorting, filtering and removing duplicates", "statement": "For a table whose sort columns can be sorted in excel mode (C32), filter conditions that name at least one column, and rows whose hashes differ when the rows do (C20): filtering a sorted table equals sorting the filtered table, for the rows kept and the rows rejected; sorting by ls and then by ks equals sorting once by ks followed by ls; a sorted table is_sorted and sorting it again changes nothing; filtering by es and then by fs (all) equals filtering by fs then es and by es ++ fs at once; what two filters (any) both reject is what their union rejects; drop_duplicates twice is drop_duplicates once and commutes with filter and with sort.", "quantifier": "all tables, columns, conditions, page sizes and page layouts", "why_tests_cant": "The laws relate the results of two different programs on every table; a test compares single tables, and stability of the sort or the choice among duplicates shows only with particular ties.", "anchors": ["tablite/core.py:337-404", "tablite/sortation.py:20-142", "tablite/redux.py:34-166", "nimlite/funcs/filter.nim:100-330"]}
{"id": "C111", "title": "Laws of joins", "statement": "Up to the order of rows: an inner join has the rows of two nested loops, each as often; a left join is the inner join and the rows of the left table without partner; exchanging the tables of an inner or outer join only exchanges the columns; filtering the left table before an inner join by conditions on its columns is filtering the joined table; an inner join is the cross join (of tables with rows) filtered by equality of the keys; the inner join of two stacked tables with the same columns is the stack of the two joins; if no key is twice in the right table, a left join has exactly one row per row of the left table, and a lookup by equal keys gives the same columns and rows (when every row has a match or the table fits in one page, and different keys have different hashes); if every row has a partner, the lookup by equal keys has the rows of the left join with all columns exactly if no row has two partners; an inner join has, summed over the keys, as many rows as pairs of rows with the key, and a left join one more for each row without a partner.", "quantifier": "all tables with pages that hold rows, key columns, selections of columns, page sizes and page layouts", "why_tests_cant": "Each law compares two programs on all tables; multiplicities of rows differ only for particular combinations of repeated keys.", "anchors": ["tablite/joins.py:18-430", "tablite/lookup.py:14-119", "tablite/redux.py:34-166"]}
{"id": "C112", "title": "Laws of group-by", "statement": "For columns whose pages have the same lengths (C33): the counts of the groups are positive and add up to the number of rows; the sums of the groups of a column of numbers add up to the sum of the column; grouping by fewer keys the sums (counts, maxima, minima) that a group-by with more keys gave, with sum (sum, max, min), gives the same keys in the same order and the same values as grouping the table by the fewer keys at once; groupby(keys, []) is drop_duplicates of the key columns when different keys have different hashes.", "quantifier": "all tables, lists of keys, columns and page sizes", "why_tests_cant": "The laws relate results of different programs on every table; order of groups and totals over all groups cannot be settled by samples.", "anchors": ["nimlite/funcs/groupby.nim:588-689", "tablite/core.py:394-404"]}
{"id": "C113", "title": "A program on columns is a program on lists", "statement": "A program that creates, copies and clears columns, extends them by values or by other columns, writes and deletes positions and slices, repeats columns, removes and replaces values leaves every column with the values that the same program on Python lists leaves in the lists, and raises the same errors at the same steps, however the columns are divided into pages and whatever pages they share.", "quantifier": "all programs (finite sequences of steps), numbers of columns, contents, page sizes, layouts and ways of sharing pages", "why_tests_cant": "The claim is about every finite history: errors of single operations depend on the page layout that earlier operations leave behind, and on which pages are shared.", "anchors": ["tablite/base.py:395-709", "tablite/base.py:791-925"]}
{"id": "C114", "title": "Laws of stacking, adding, repeating, slicing and reindexing tables", "statement": "For tables whose columns have one length: stacking is associative and a table without columns is neutral; for the same names `t + u` is `t.stack(u)` and adding is associative; `t * m * n` is `t * (m * n)` and `t * (n + 1)` is `t * n + t`; `t[:k] + t[k:]` is `t` for every integer k; a slice of a slice is the slice of the combined bounds and the reindexing by its rows; reindexing twice is reindexing by the composed index; filtering a stack gives the stack of the filtered tables; and `t + t` without duplicates is `t` without duplicates.", "quantifier": "all tables, names, values, page layouts, page sizes, cut positions, indices, filter expressions and hash functions", "why_tests_cant": "Every law compares two different programs on all tables; the pages the two programs build differ, so only a statement about all layouts settles them.", "anchors": ["tablite/base.py:1262-1287", "tablite/base.py:1464-1537", "tablite/base.py:1640-1663", "tablite/reindex.py:8-50", "tablite/core.py:394-404"]}
{"id": "C115", "title": "The filter criterion `in`", "statement": "A row satisfies the criterion `in` exactly when the text (Python's str) of its left value occurs in the text of its right value; every value is in itself, `in` is transitive, and two values are in each other exactly when they are written alike; `filter` returns the rows that satisfy it and the others.", "quantifier": "all values of all kinds on both sides, tables, page layouts and page sizes", "why_tests_cant": "The texts of the values are written by another language than Python; that they agree for every value of every kind, or for which they do not, cannot be sampled.", "anchors": ["nimlite/pytypes/pycmp.nim:181-189", "nimlite/pytypes/pyobjs.nim:57-65", "nimlite/funcs/filter.nim:62-76", "tablite/mp_utils.py:13-17"]}
{"id": "C116", "title": "`not in` is the opposite of `in`", "statement": "In the criteria of a lookup, `not in` holds for two values exactly when `in` does not hold for them.", "quantifier": "all pairs of values", "why_tests_cant": "The operators agree on many samples (texts of one length, texts without a common part); the claim is about all pairs.", "anchors": ["tablite/mp_utils.py:9-30", "tablite/lookup.py:48-62"]}
{"id": "C117", "title": "The filter for values of any type", "statement": "`filter_non_primitive` returns the rows that satisfy all (any) of the expressions and the remaining rows, in order and with all columns, also for the empty list of expressions and for expressions that compare constants; an operator that raises TypeError on the values of a row counts as not satisfied by it, and does not change the result for other rows; where `filter` is right, both give the same tables.", "quantifier": "all tables, page layouts, page sizes, lists of expressions and operators that raise nothing but TypeError", "why_tests_cant": "The evaluation is done page by page, on arrays first and element by element after an error; that the result does not depend on this must hold for all layouts.", "anchors": ["tablite/redux.py:169-343"]}
{"id": "C118", "title": "A column name where names are expected", "statement": "Where an argument may be a column name or a list of column names, a name means the same as the list with this name: `imputation(targets='a')` equals `imputation(targets=['a'])`, likewise for `sources`; and `Table.sort_index(sort_mode, **criteria)` gives the index of these criteria in this mode.", "quantifier": "all tables, names, modes and criteria", "why_tests_cant": "Tests call the entry points with lists; the claim is about every table and every name.", "anchors": ["tablite/imputation.py:61-89", "tablite/core.py:366-373"]}
{"id": "C119", "title": "Which files from_file opens", "statement": "`Table.from_file(path, start=s, limit=k)` imports a file of every format it names as supported, and of no other; bad settings and missing files are errors; for each format the result has at most `limit` rows, those from row `start` on.", "quantifier": "all paths, suffixes, settings and contents", "why_tests_cant": "A table of suffixes and a chain of cases decide; each test tries one suffix with default settings.", "anchors": ["tablite/core.py:150-218", "tablite/import_utils.py:633-650"]}
{"id": "C120", "title": "Group-by, the order of rows, and parts of a table", "statement": "A group-by depends on the rows of the table only, not on their order: rearranged or sorted tables have the same groups. Filtering by the keys before or after the group-by is the same. The group-by of a stack of tables without a common key is the stack of their group-bys; with common keys, sums, maxima and minima of the parts can be summed (maximised, minimised) again.", "quantifier": "all tables, page layouts, keys and functions", "why_tests_cant": "Laws about pairs of executions over all orders, splits and layouts.", "anchors": ["nimlite/funcs/groupby.nim:groupby", "tablite/reindex.py:8-50"]}
{"id": "C121", "title": "Preview of a spreadsheet", "statement": "`get_headers` of an Excel or ODS file shows, for every sheet under its name, the header row and the rows below it, with the values that the import of the sheet has, and nothing else; the two formats show the same rows of the same sheet.", "quantifier": "all books, sheets, header rows, line counts and cells", "why_tests_cant": "Header rows beyond the first, short sheets, formulas, empty columns and sheet names combine; each test previews one fixed book.", "anchors": ["tablite/file_reader_utils.py:202-254", "tablite/import_utils.py:37-95"]}
{"id": "C122", "title": "Types of columns and the predominant type", "statement": "`Column.types()` counts for every type the values of the column that have it, whatever the pages are, and `Table.types()` does so for every column. `get_predominant_types` gives for every column the type most of its values have, None not counted, the first one in case of a tie, and 'empty' just for columns of nothing but None.", "quantifier": "all tables, values, page layouts and numpy types of pages", "why_tests_cant": "Counts are merged over pages and empty pages, ties and None interact.", "anchors": ["tablite/base.py:927-938", "tablite/base.py:1665-1683", "tablite/utils.py:483-503"]}
{"id": "C123", "title": "Lines split into fields by TextEscape", "statement": "`TextEscape(...)(line)` gives the fields of the line: fields in quotes keep delimiters, doubled quotes and line ends; a delimiter between an opening and its closure does not end a field; without a quote character the pieces joined by the delimiter are the line; blanks around fields are taken off when this is asked for; every line, also the empty one, has its fields.", "quantifier": "all lines, fields, delimiters, quote characters, openings and closures", "why_tests_cant": "The text is free; quoting, escapes, line ends inside of quotes and empty fields combine in any order.", "anchors": ["tablite/file_reader_utils.py:28-112"]}
{"id": "C124", "title": "Which files get_headers previews", "statement": "`get_headers(path, ...)` previews every file that `from_file` imports, with the reader of the same format and the delimiter, header row and line count as given; other paths, delimiters and formats raise.", "quantifier": "all paths, suffixes, delimiters, header rows and line counts", "why_tests_cant": "Suffixes are free texts; two tables of readers must agree with each other and with what openpyxl opens.", "anchors": ["tablite/file_reader_utils.py:256-316", "tablite/import_utils.py:633-648"]}
{"id": "C125", "title": "Laws of cleaning a table", "statement": "A cleaning step that is run again changes nothing: imputation by carry forward or by mode of an imputed table gives the same values; no missing value is left in a target except leading ones that carry forward cannot fill (and a mean that is itself a missing value); two replace calls map every value through both mappings in order, and a second replace with the same mapping changes nothing if and only if the mapping leaves alone the values it has put in; diff of a table with itself shows every row with '=' in both columns of marks.", "quantifier": "every table, page layout, choice of targets, set of missing values, mapping", "why_tests_cant": "a law relates two runs over all tables; a test looks at one table and one mapping", "anchors": ["tablite/imputation.py:97-158", "tablite/core.py:500-528", "tablite/base.py:904-925", "tablite/diff.py"]}
{"id": "C126", "title": "Statistics of a column", "statement": "Column.statistics() gives, for the predominant type of the column, the minimum, maximum, mean, median, standard deviation, mode, quartiles and sum of the values of that type; 'distinct' is the number of distinct values and 'histogram' tells how often each occurs; the result is empty exactly for an empty column; it does not depend on the order of the rows nor on how the column is cut into pages.", "quantifier": "every column, page layout and order of rows", "why_tests_cant": "ties between types and between texts decide; no finite set of columns shows that order and pages never matter elsewhere", "anchors": ["tablite/base.py:981-1024", "tablite/utils.py:185-298"]}
{"id": "C127", "title": "Pipelines of table operations are pipelines on lists of rows", "statement": "A sequence of operations on tables - filters, sorts, slices, selections of rows and of columns, removal of duplicates, replacement of values, repetition, stacking, addition, inner and cross joins, nested in any way - gives a table whose names and rows are those which the same operations give on plain lists of rows; how the tables are cut into pages and the page size have no influence on the result.", "quantifier": "every pipeline of any depth, every set of input tables, page layout and page size", "why_tests_cant": "pipelines nest without bound and each step produces new page layouts; only an induction over pipelines with a relation between tables and rows covers them", "anchors": ["tablite/base.py:1207-1262", "tablite/base.py:1464-1537", "tablite/base.py:1637-1665", "tablite/core.py:394-404", "tablite/sortation.py:60-160", "tablite/joins.py:430-520", "nimlite/funcs/filter.nim:100-260"]}
{"id": "C128", "title": "Scripts with group-by, pivot, imputation, lookup and left or outer joins are scripts on lists of rows", "statement": "A program that assigns tables one after another, each computed from the tables at hand by a pipeline of table operations, by group-by, pivot or pivot_transpose of a pipeline, by filling a column of it from the nearest rows or columns of it from the rows above, by a lookup, or by a left or outer join of two pipelines, ends with tables whose names and rows are those the same program computes on plain lists of rows (rows of joins in any order); no row is lost or paired with a value of another row, whatever the page size.", "quantifier": "every script of any length, every pipeline in it, every starting set of tables, every group-by function and page size", "why_tests_cant": "group-by and left joins read pages of several columns side by side, so they depend on how every earlier step cut its columns; only an invariant kept by all operations covers scripts of any length", "anchors": ["nimlite/funcs/groupby.nim:588-689", "tablite/joins.py:100-300", "tablite/base.py:1637-1665", "tablite/core.py:394-404", "tablite/pivots.py:11-288", "nimlite/funcs/imputation.nim:116-275", "tablite/imputation.py:103-125", "tablite/lookup.py:16-169"]}
{"id": "C129", "title": "An import with guessed types has the rows of the file", "statement": "Table.from_file of a text file with guess_datatypes=True gives the columns of the import without guessing, under the same names and cut into the same pages, and each value is a reading of the text at the same place under some type; a field missing at the end of a row is read as an empty one. No row or value is lost, added or moved, whatever types are found.", "quantifier": "every text file, dialect, set of options (columns, start, limit, header row, skipping of empty rows) and page size for which the import returns a table", "why_tests_cant": "each page ranks the types of its own texts and picks one of several ways of writing them; only a proof over all texts and all rankings covers every choice", "anchors": ["nimlite/funcs/text_reader/paging.nim:18-349", "nimlite/funcs/text_reader/text_reader.nim:44-274", "nimlite/ranking.nim:16-99", "tablite/nimlite.py:130-200"]}
{"id": "C130", "title": "Guessed types do not depend on the page size", "statement": "Importing a text file with guess_datatypes=True gives the same values whatever Config.PAGE_SIZE is: the type of a value does not depend on which other rows share its page.", "quantifier": "every text file, dialect, set of options and pair of page sizes", "why_tests_cant": "tests use files of one page; types are guessed per page, so the claim is about all ways of cutting a file", "anchors": ["nimlite/funcs/text_reader/paging.nim:18-349", "nimlite/funcs/text_reader/text_reader.nim:226-253", "nimlite/ranking.nim:16-99", "tablite/config.py:1-120"]}
{"id": "C131", "title": "A table exported to CSV comes back with its values and types", "statement": "table.to_csv(path) followed by Table.from_file(path) with the default settings gives a table with the same column names, the same number of rows and equal values of the same types (None, bool, int, float, str, date, time, datetime) at the same places.", "quantifier": "every table with distinct names whose names and texts hold no delimiter, quote, tab, backslash or line end and no white space at their ends, every way of cutting it into pages and every page size of the import", "why_tests_cant": "the import guesses types from text with fifteen readers in a fixed order; whether a value comes back depends on all of them, so samples miss integers that look like dates and floats that look like grouped integers", "anchors": ["tablite/export_utils.py:145-190", "tablite/datatypes.py:374-407", "tablite/core.py:46-210", "nimlite/infertypes.nim:11-500", "nimlite/funcs/text_reader/paging.nim:18-349", "nimlite/ranking.nim:16-99"]}
{"id": "C132", "title": "Files imported as text and worked on by a script", "statement": "After Table.from_file of text files (types not guessed), a script of filters, sorts, slices, joins, stacks and group-bys on the tables leaves tables with exactly the rows which the same script computes on the requested records of the files, whatever the page size of the import and of the operations.", "quantifier": "every set of files, dialects, import options (header row, columns, start, limit, skip_empty), every page size, every script whose statements have a meaning on the rows", "why_tests_cant": "test files are far smaller than a page, so an import never has two pages, and a page whose rows are all skipped never occurs in a test", "anchors": ["nimlite/funcs/text_reader/text_reader.nim:44-274", "nimlite/funcs/text_reader/paging.nim:221-349", "tablite/nimlite.py:148-193", "tablite/joins.py:1-400", "tablite/base.py:740-800"]}
{"id": "C133", "title": "A table built step by step can be grouped", "statement": "A table is built by assigning lists to columns and by add_rows, in any order. If its columns have the same number of rows, groupby of it gives every distinct key once with the aggregate of all rows of the key.", "quantifier": "every sequence of assignments and add_rows calls, every page size, every choice of keys and functions", "why_tests_cant": "the result depends on where each column was cut into pages, which depends on the whole history of the table; no test sees page boundaries", "anchors": ["tablite/base.py:252-269", "tablite/base.py:1080-1203", "tablite/base.py:1539-1616", "nimlite/funcs/groupby.nim:560-687"]}
{"id": "C134", "title": "A table with a computed column can be grouped", "statement": "A table is grouped without losing rows. If gaps in one of its columns are filled by carrying values forward, if columns are looked up in another table, or if two columns are merged, and the result has as many rows as before, then groupby of the result gives every distinct key once with the aggregate of all rows of the key.", "quantifier": "every table whose columns are cut alike, every page size, every such step, every choice of keys and functions", "why_tests_cant": "the computed column is cut into pages afresh while the other columns keep their pages; whether rows are lost depends on how the table came about, and no test of one step sees page boundaries", "anchors": ["tablite/imputation.py:103-125", "tablite/lookup.py:113-119", "tablite/merge.py:7-50", "tablite/reindex.py:32-47", "nimlite/funcs/groupby.nim:560-687"]}
{"id": "C135", "title": "A table read from a file can be grouped without losing rows", "statement": "A table read by Table.from_file / import_file from a worksheet, an HDF5 file or JSON, made by from_pandas, or restored by Table.load, with columns of one length, can be grouped: groupby counts every row once.", "quantifier": "for all files, page sizes at saving and at loading, page layouts of the saved table, key columns and aggregation functions", "why_tests_cant": "Whether the loaded table groups correctly depends on how the saved table was cut into pages and on the page size at loading; test tables fit in one page.", "anchors": ["tablite/base.py:1350-1453", "tablite/import_utils.py:40-122", "tablite/import_utils.py:180-421", "tablite/groupbys.py"]}
{"id": "C136", "title": "nbytes tells the bytes of the table on disk", "statement": "Table.nbytes() returns the bytes of the files of the table, counting a file that several columns or rows share once, and the bytes the table would take if every page had its own file; repeating a table (t * n) leaves the first number and multiplies the second.", "quantifier": "for all tables, all sharing of pages between and within columns, all file sizes, all numbers of repetitions", "why_tests_cant": "Tests measure a few tables; which numbers come out depends on every way pages can be shared, repeated, unpickled or missing.", "anchors": ["tablite/base.py:1134-1149", "tablite/base.py:84-119", "tablite/base.py:1464-1491"]}
{"id": "C137", "title": "guess_types gives the share of every type among the values", "statement": "For one or more values that can be hashed DataTypes.guess_types returns a dictionary with the types found and, for each, the share of the values guessed to be of that type; every value is counted for exactly one type, so the counts add up to the number of values.", "quantifier": "for all values and all ways in which the runtime reads dates, times and floats from text", "why_tests_cant": "the function is not called by any test; a test could only show single inputs, not that no input at all gives a result", "anchors": ["tablite/datatypes.py:455-480", "tablite/datatypes.py:729-753"]}
{"id": "C138", "title": "The HTML view shows the names and cells of the table", "statement": "What a browser shows for the HTML view of a table in a notebook is a grid of cells: a first row with the column names and then one row for each row displayed, and the text of every cell is the text of the name or value in the table.", "quantifier": "for all tables, slices, fill values and texts of names and values, with and without the row of types", "why_tests_cant": "the texts are arbitrary and written between tags: a test shows that some texts come out, not which ones do not, nor that a text in one cell cannot hide the rest of the table", "anchors": ["tablite/base.py:1832-1857", "tablite/base.py:1693-1768"]}
{"id": "C139", "title": "A save that does not complete leaves the table that was saved before", "statement": "When saving a table to a path does not complete - a page file cannot be read, an exception ends the save, or the process is killed - then loading the path gives the table that was saved there before; and in no case does loading it give a part of the new table, or a mixture of old and new.", "quantifier": "for all tables, all page files that cannot be read, all orders in which pages are written, and all moments at which the save ends", "why_tests_cant": "the moment of failure and the set of unreadable pages are arbitrary: a test shows one failed save, not that no failed save can be loaded as a shorter table", "anchors": ["tablite/base.py:1350-1417", "tablite/base.py:1419-1453"]}
{"id": "C140", "title": "Work may be spread over sessions with saving and loading between them", "statement": "When a script of table operations is cut into sessions, each with its own page size, and between sessions any of the tables are saved and loaded, the tables at the end have the same rows as when the whole script is run on the original tables.", "quantifier": "for all scripts of pipelines, group-by and joins, all ways to cut them into sessions, all choices of the tables saved and all page sizes", "why_tests_cant": "the claim is about every script and every way to cut it; loading changes the pages of a table, and operations work page by page, so each combination would need a test of its own", "anchors": ["tablite/base.py:1350-1453", "tablite/core.py:1-954"]}
{"id": "C141", "title": "From text files to a text file", "statement": "Text files are imported as texts, scripts of table operations run on the tables in one or several sessions, with any tables saved and loaded between them, and the outcome is exported with to_csv (or another delimiter). The exported file is the text of exactly the rows which the scripts compute on the records of the files, and importing it again with the same delimiter and quotes gives these texts back.", "quantifier": "all files that can be parsed, scripts within the limits of C128, ways of cutting them into sessions, choices of tables to save and load, page sizes of every session and import, delimiters", "why_tests_cant": "the claim is about the composition of import, arbitrary scripts, storage and export for all page sizes; tests run each step on a few files", "anchors": ["tablite/core.py:46-210", "tablite/import_utils.py:570-690", "tablite/base.py:1350-1470", "tablite/export_utils.py:153-187"]}
{"id": "C142", "title": "Scripts on files imported with guessed types", "statement": "Text files are imported with guessed types, scripts of table operations run on the tables in sessions, with any tables saved and loaded between them, and the outcome is exported as text. Rows, types and the exported text are those which the scripts compute on the records of the files, each field read as the type of its column, and do not depend on the page sizes of the imports or of the sessions.", "quantifier": "all files that can be parsed, scripts within the limits of C128, ways of cutting them into sessions, choices of tables to save and load, page sizes", "why_tests_cant": "types are guessed page by page in separate tasks, so the claim compares the outcomes of all page sizes over all files and scripts; tests use one page size and a few files", "anchors": ["nimlite/funcs/text_reader/paging.nim:18-349", "nimlite/funcs/text_reader/text_reader.nim:226-253", "tablite/core.py:46-210", "tablite/export_utils.py:153-187"]}
{"id": "C143", "title": "Nearest-neighbour imputation takes the value of the nearest row", "statement": "nearest_neighbour imputation of one column replaces each missing value by the value of the row whose ranks in the source columns are nearest, among the rows with a known value; of several nearest rows the first one counts; the distance is the sum over the source columns of the differences of the normalised ranks.", "quantifier": "all tables and page layouts with sources paged like the target and without missing values, all orders of values, one kind of missing value", "why_tests_cant": "the nearest row is a minimum over all rows of all tables, found by a loop that strikes out rows and reads through a cache of filled values; tests compare a few outcomes", "anchors": ["nimlite/funcs/imputation.nim:130-148", "nimlite/funcs/imputation.nim:211-269"]}
{"id": "C144", "title": "An unpivoted column can be taken out again", "statement": "T.pivot_transpose(columns, keep), filtered by the name of one of the columns and reduced to the kept columns and the values, has the rows of T reduced to the kept columns and this column, in the same order: no value is lost, doubled, or set beside the keys of another row.", "quantifier": "for all tables, page layouts, page sizes, sizes of the batches in which rows are written, lists of columns and kept columns without repetition, and all listed columns, when np.array keeps the values", "why_tests_cant": "Three operations that cut columns into pages in different ways have to agree for every table and every page size, and rows are written in batches whose ends need not be those of pages; tests try small tables that fit a page.", "anchors": ["tablite/pivots.py:201-288", "nimlite/funcs/filter.nim:100-230", "tablite/base.py:1205-1260"]}
{"id": "C145", "title": "A left join filtered for None gives the rows without a partner", "statement": "If a column of T2 holds no None, then filtering T1.left_join(T2, ...) for None in this column takes it apart, up to the order of rows: the rows that pass are the rows of T1 that have no partner in T2, beside None, and the rows that do not pass are those of the inner join. If the column may hold None, the rows that do not pass are all rows of the inner join exactly if no row of the inner join has None there.", "quantifier": "for all tables, keys, columns, page layouts without empty pages in T2, page sizes, naming functions, and comparison operators that recognise None", "why_tests_cant": "The claim combines two operations that number rows by different means, over pages cut at different places, for every pairing of keys; a test shows a few tables with a few partners.", "anchors": ["tablite/joins.py:118-150", "tablite/joins.py:409-523", "nimlite/funcs/filter.nim:100-230"]}
{"id": "C146", "title": "Aggregates joined back to the rows of the table", "statement": "The inner join of T with T.groupby(keys, functions) on the keys has every row of T exactly once, up to the order of rows, and beside it the aggregates of exactly the rows of T with the same keys.", "quantifier": "for all tables whose columns are cut into pages at the same places, keys, aggregate functions that do not fail, page sizes and naming functions", "why_tests_cant": "That no row is lost, doubled or set beside the aggregate of another group depends on the hashing of keys in group-by and on the key index of the join agreeing for all tables and page layouts; the failing layouts do not arise from tables built at once, as tests build them.", "anchors": ["nimlite/funcs/groupby.nim:1-689", "tablite/nimlite.py:331-332", "tablite/joins.py:409-523"]}
{"id": "C147", "title": "Joining with the group-by of another table keeps each row with a partner once", "statement": "The inner join of T1 with T2.groupby(keys, functions) on the keys has, up to the order of rows, each row of T1 that has a partner in T2 exactly once, however many partners it has, beside its keys and the aggregates of exactly its partners; rows of T1 without a partner are absent. Without functions this is the semi-join.", "quantifier": "for all tables T1, tables T2 whose columns are cut into pages at the same places, keys, aggregate functions that do not fail, page sizes and naming functions", "why_tests_cant": "It relates the number of rows of a join to the distinct keys of another table for all multiplicities of keys and all page layouts; tests fix a few multiplicities.", "anchors": ["nimlite/funcs/groupby.nim:1-689", "tablite/nimlite.py:331-332", "tablite/joins.py:409-523"]}
