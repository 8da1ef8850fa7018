{"id": "C01", "title": "Excel write/read round trip", "statement": "Writing a table of strings with clevercsv.writer in the default 'excel' dialect and reading the produced text with clevercsv.reader in the 'excel' dialect returns exactly the original table: same rows, same cells, including cells that contain commas, quotes, CR, LF, leading/trailing quotes, empty cells, rows with one empty cell and empty rows.", "quantifier": "every table (any number of rows and columns, ragged or not) of NUL-free cells whose written length fits the field size limit", "why_tests_cant": "the interplay of quoting, quote doubling, embedded newlines and line splitting has unboundedly many combinations; tests only sample a few cells", "anchors": ["src/cparser.c:Parser_iternext", "src/cparser.c:parse_process_char", "clevercsv/read.py:reader", "clevercsv/write.py:writer"]}
{"id": "C02", "title": "Write/read round trip for a custom dialect", "statement": "For a SimpleDialect whose delimiter and quotechar are single, distinct, non-newline characters (with no escapechar, or with an escapechar distinct from both), writing a table with clevercsv.writer and reading it back with clevercsv.reader under the same dialect returns the original table.", "quantifier": "every such dialect and every table of NUL-free cells within the field size limit", "why_tests_cant": "ranges over all dialects and all cell contents", "anchors": ["clevercsv/dialect.py:to_csv_dialect", "clevercsv/write.py:writer", "clevercsv/read.py:reader", "src/cparser.c:parse_process_char"]}
{"id": "C03", "title": "Write/read round trip without a quote character", "statement": "For a SimpleDialect with no quotechar, whatever clevercsv.writer accepts and writes is read back by clevercsv.reader under the same dialect as the original row; rows that cannot be represented make the writer raise Error instead of writing something else.", "quantifier": "every dialect with empty quotechar, with or without escapechar, and every row of NUL-free cells", "why_tests_cant": "the claim is about every cell content the writer might let through", "anchors": ["clevercsv/dialect.py:to_csv_dialect", "clevercsv/write.py:writer.writerow", "src/cparser.c:ESCAPED_CHAR"]}
{"id": "C04", "title": "Unquoted parsing is plain splitting", "statement": "Parsing a text with a dialect that has a delimiter but neither quotechar nor escapechar gives, line by line (lines end in LF, CRLF or CR), the pieces of the line between delimiters; a blank line gives an empty row; nothing else is added, dropped or changed.", "quantifier": "every NUL-free text and every non-newline delimiter", "why_tests_cant": "an equality with an independent definition over all texts", "anchors": ["clevercsv/cparser_util.py:parse_string", "src/cparser.c:parse_process_char"]}
{"id": "C05", "title": "Quoted parsing follows quote parity", "statement": "Parsing a text with a non-strict dialect without escapechar gives: records are separated by newlines, and cells by delimiters, exactly where the number of preceding quote characters is even; inside quotes a doubled quote stands for one quote; a cell that begins and ends with the quotechar loses that outer pair.", "quantifier": "every NUL-free text, every delimiter and quotechar that are distinct and not newlines", "why_tests_cant": "equality with an independent whole-text definition for all texts, including unbalanced quotes and text after a closing quote", "anchors": ["clevercsv/cparser_util.py:parse_string", "src/cparser.c:parse_process_char", "src/cparser.c:parse_save_field"]}
{"id": "C06", "title": "Parsing a text fails only for the documented reasons", "statement": "Parsing a string (or a file opened with newline='') raises Error only if the text contains a NUL character, a field exceeds the field size limit, or strict mode is on. In particular the 'new-line character seen in unquoted field' error never occurs, and a non-strict parse of a NUL-free text under a limit larger than the text always succeeds.", "quantifier": "every text and every dialect, including escapechars and degenerate choices", "why_tests_cant": "absence of an error over all inputs", "anchors": ["clevercsv/cparser_util.py:parse_string", "src/cparser.c:Parser_iternext"]}
{"id": "C07", "title": "No NUL and no oversized cell is ever returned", "statement": "No cell of a row returned by the reader contains a NUL character, and no cell is longer than the field size limit in force when the iteration started.", "quantifier": "every iterable of lines, every dialect (strict or not, with or without escapechar), every limit and every row returned before any error", "why_tests_cant": "a safety invariant over all parser executions", "anchors": ["src/cparser.c:parse_add_char", "src/cparser.c:Parser_iternext", "clevercsv/cparser_util.py:field_size_limit"]}
{"id": "C08", "title": "Reading is incremental and terminates", "statement": "Every row request consumes at least one input line, so iteration over finitely many lines terminates with at most as many rows as lines; rows already returned do not depend on lines that have not been consumed.", "quantifier": "every finite sequence of lines and every dialect", "why_tests_cant": "termination and causality over all inputs", "anchors": ["src/cparser.c:Parser_iternext", "clevercsv/read.py:reader.__next__"]}
{"id": "C09", "title": "Record boundaries make parsing compositional", "statement": "If the lines read so far end exactly at a record boundary, parsing those lines followed by more lines gives the rows of the first part followed by the rows of the second part.", "quantifier": "every pair of line sequences and every dialect", "why_tests_cant": "an equation over all pairs of inputs", "anchors": ["src/cparser.c:parse_reset", "src/cparser.c:Parser_iternext"]}
{"id": "C10", "title": "return_quoted changes only the shape of cells", "statement": "Parsing with return_quoted=True returns the same rows and cells as without, each paired with a flag; the flag is False for every cell when the dialect has no quotechar; failures are the same in both modes.", "quantifier": "every iterable of lines and every dialect", "why_tests_cant": "a simulation between two runs of the parser on all inputs", "anchors": ["src/cparser.c:parse_save_field", "clevercsv/cparser_util.py:parse_data"]}
{"id": "C11", "title": "No record is silently dropped", "statement": "Every line that is not blank contributes to a returned row or to an error: the reader never reaches the end of the input having consumed a non-blank line without returning a row for it.", "quantifier": "every text and every non-strict dialect", "why_tests_cant": "data loss can hide in any end-of-input configuration of the parser", "anchors": ["src/cparser.c:Parser_iternext (end of input branch)"]}
{"id": "C12", "title": "Strict mode accepts well-formed quoted data", "statement": "With strict=True the reader still accepts correctly quoted data, e.g. whatever clevercsv.writer produced; strict mode only rejects malformed quoting ('same as in the csv module').", "quantifier": "every table written by the writer with a quoting dialect", "why_tests_cant": "ranges over all tables", "anchors": ["clevercsv/dialect.py:SimpleDialect", "src/cparser.c:IN_QUOTED_FIELD"]}
{"id": "C13", "title": "An unterminated quoted cell keeps its content", "statement": "When the input ends inside a quoted cell (non-strict), the last cell returned is the text after the opening quote with doubled quotes halved.", "quantifier": "every text ending inside a quoted cell", "why_tests_cant": "all texts, in particular those whose last characters are quotes or escapes", "anchors": ["src/cparser.c:parse_save_field (trailing)"]}
{"id": "C14", "title": "C buffers are never indexed out of bounds", "statement": "Reading any input and scoring any data never writes outside an allocated buffer of the C extension: the field buffer of the parser, the abstraction stack, and the quote index arrays are grown before they are full.", "quantifier": "every input string and every dialect", "why_tests_cant": "memory safety over all inputs; a test can at best crash on a lucky size", "anchors": ["src/cparser.c:parse_add_char", "src/cparser.c:parse_grow_buff", "src/abstraction.c:base_abstraction", "src/abstraction.c:c_merge_with_quotechar"]}
{"id": "C15", "title": "line_num counts the rows returned", "statement": "At any time reader.line_num equals the number of rows successfully returned by that reader so far; failed or exhausted requests leave it unchanged.", "quantifier": "every history of next()/iter() calls on a reader over any input", "why_tests_cant": "an invariant over call histories", "anchors": ["clevercsv/read.py:reader.__next__", "clevercsv/read.py:reader.__iter__"]}
{"id": "C16", "title": "Re-iterating a reader over a stream loses nothing", "statement": "Calling iter() on a reader between rows (as a for loop after next() does) neither loses nor repeats rows when the input is an iterator such as an open file.", "quantifier": "every history of next()/iter() calls over any stream and dialect", "why_tests_cant": "an equivalence over all interleavings of the two calls", "anchors": ["clevercsv/read.py:reader.__iter__", "clevercsv/detect.py:Detector.has_header"]}
{"id": "C17", "title": "The caller's dialect object is not modified", "statement": "Constructing a reader from a dialect object leaves that object unchanged, also when format parameters are given as overrides.", "quantifier": "every dialect object and every set of format parameters", "why_tests_cant": "aliasing: depends on which objects are shared", "anchors": ["clevercsv/read.py:reader._make_simple_dialect"]}
{"id": "C18", "title": "Dialect ordering is a strict total order", "statement": "The < on SimpleDialect objects is irreflexive, transitive and total on dialects with string components, and two dialects are incomparable exactly when they are equal; comma dialects come first, then semicolon dialects.", "quantifier": "all pairs and triples of dialects", "why_tests_cant": "order axioms quantify over all triples", "anchors": ["clevercsv/dialect.py:SimpleDialect.__lt__", "clevercsv/dialect.py:SimpleDialect.__eq__"]}
{"id": "C19", "title": "Dialect serialization round trip", "statement": "SimpleDialect.deserialize(d.serialize()) == d for every valid dialect, and serialize raises ValueError exactly for invalid ones.", "quantifier": "every dialect, i.e. every choice of three characters including control and non-BMP characters", "why_tests_cant": "all Unicode characters must survive JSON escaping", "anchors": ["clevercsv/dialect.py:serialize", "clevercsv/dialect.py:deserialize", "clevercsv/dialect.py:validate"]}
{"id": "C20", "title": "Conversion to a csv dialect and back", "statement": "Converting a SimpleDialect to a csv.Dialect and back gives an equal SimpleDialect.", "quantifier": "every valid dialect", "why_tests_cant": "all dialects", "anchors": ["clevercsv/dialect.py:to_csv_dialect", "clevercsv/dialect.py:from_csv_dialect"]}
{"id": "C21", "title": "Abstractions are well formed", "statement": "The abstraction of any data under any dialect contains only the letters C, D, R, Q; it has no two adjacent C's, no empty cell (no D next to a D, an R, or an end), and does not end in R; there is no Q when the dialect has no quotechar.", "quantifier": "every data string and every dialect", "why_tests_cant": "an invariant of a rewriting pipeline over all strings", "anchors": ["clevercsv/detect_pattern.py:make_abstraction", "clevercsv/detect_pattern.py:fill_empties", "src/abstraction.c:base_abstraction"]}
{"id": "C22", "title": "Row patterns agree with the parser", "statement": "For a dialect without quotechar and escapechar the row patterns of the abstraction list, in order, the numbers of cells of the non-blank rows that the parser returns for the same data.", "quantifier": "every NUL-free data string that does not begin with a newline and every delimiter", "why_tests_cant": "an agreement between two independently written components on all inputs", "anchors": ["clevercsv/detect_pattern.py:make_abstraction", "src/cparser.c:Parser_iternext"]}
{"id": "C23", "title": "Pattern score ignores the newline convention", "statement": "Replacing the line terminators of the data by others (LF, CR, CRLF), inserting blank lines between rows, or adding trailing newlines does not change the pattern score.", "quantifier": "every data string and every dialect", "why_tests_cant": "an invariance over all data and all rewritings", "anchors": ["src/abstraction.c:base_abstraction", "clevercsv/detect_pattern.py:strip_trailing"]}
{"id": "C24", "title": "Pattern score range", "statement": "The pattern score is strictly positive and at most the number of row patterns divided by the number of distinct row patterns; it is unaffected by the order of the rows.", "quantifier": "every data string and every dialect", "why_tests_cant": "an inequality over all inputs", "anchors": ["clevercsv/detect_pattern.py:pattern_score"]}
{"id": "C25", "title": "Type score range", "statement": "The type score lies between eps and 1 for every data and dialect on which parsing succeeds.", "quantifier": "every data string and every dialect", "why_tests_cant": "an inequality over all inputs", "anchors": ["clevercsv/consistency.py:compute_type_score", "clevercsv/detect_type.py:type_score"]}
{"id": "C26", "title": "Type detection cache is transparent", "statement": "Caching type detection does not change results: for any cache capacity and any history of queries, the cached answer equals the uncached one.", "quantifier": "every capacity and every sequence of cells", "why_tests_cant": "an invariant over query histories with eviction", "anchors": ["clevercsv/consistency.py:cached_is_known_type"]}
{"id": "C27", "title": "Type detection ignores surrounding whitespace", "statement": "The detected type of a cell does not change when whitespace is added or removed at its ends; whitespace-only cells are of type 'empty'.", "quantifier": "every cell and both values of is_quoted", "why_tests_cant": "an invariance over all strings", "anchors": ["clevercsv/detect_type.py:detect_type"]}
{"id": "C28", "title": "Time cells are exactly the valid clock times", "statement": "A cell is classified by the time test exactly when it is h:mm or hh:mm with hour 0-23 and minute 0-59, or hh:mm:ss with two-digit hour, or hh:mm:ss followed by a +hh:mm or -hh:mm offset with offset hour at most 19.", "quantifier": "every string", "why_tests_cant": "a characterization of a language", "anchors": ["clevercsv/detect_type.py:is_time", "clevercsv/_regexes.py:PATTERN_TIME_HHMM_1"]}
{"id": "C29", "title": "ISO timestamps with hour-only offsets are recognised", "statement": "A cell [date]T[time]+HH or [date]T[time]-HH (ISO 8601, hour-only UTC offset) is a known type (datetime).", "quantifier": "every valid date, time and hour offset", "why_tests_cant": "a family of strings", "anchors": ["clevercsv/detect_type.py:is_datetime", "clevercsv/_regexes.py:PATTERN_TIME_HH"]}
{"id": "C30", "title": "Candidate dialects come from the data", "statement": "Every candidate dialect considered for a text has as delimiter the empty string or a character of the text (with URLs removed), as quotechar the empty string or one of ' \" ~ ` occurring in the text, and as escapechar the empty string or an unblocked Po character that occurs immediately before the delimiter or quotechar; conversely every such combination is a candidate, and the all-empty dialect is always one. There are no duplicates.", "quantifier": "every data string and every list of allowed delimiters", "why_tests_cant": "soundness and completeness of an enumeration over all inputs", "anchors": ["clevercsv/potential_dialects.py:get_dialects", "clevercsv/potential_dialects.py:get_delimiters", "clevercsv/potential_dialects.py:get_quotechars"]}
{"id": "C31", "title": "Masked-by-quotes test", "statement": "masked_by_quotechar returns True exactly when the tested character never occurs outside quoted segments, taking doubled quotes and escaped quotes into account.", "quantifier": "every data string, quotechar, escapechar and tested character", "why_tests_cant": "a characterization over all strings", "anchors": ["clevercsv/potential_dialects.py:masked_by_quotechar"]}
{"id": "C32", "title": "Skipping does not change the result", "statement": "Detection with skip=True returns the same dialect as with skip=False: dialects whose type score is not computed can never have been best.", "quantifier": "every data string, every list of delimiters, and every way the scores can come out", "why_tests_cant": "an optimisation argument over all score assignments", "anchors": ["clevercsv/consistency.py:compute_consistency_scores", "clevercsv/consistency.py:get_best_dialects"]}
{"id": "C33", "title": "Best dialects are the maximal ones", "statement": "The dialects kept for tie breaking are exactly those with the highest consistency score among all scored candidates, there is at least one, and they are listed in dialect order.", "quantifier": "every data string", "why_tests_cant": "an optimality statement over all score assignments", "anchors": ["clevercsv/consistency.py:get_best_dialects"]}
{"id": "C34", "title": "Tie breaking picks one of the tied dialects", "statement": "The tie breaker returns either None or one of the dialects it was given; the detected dialect is always one of the candidates with the best score.", "quantifier": "every data string and every list of dialects", "why_tests_cant": "membership over all execution paths", "anchors": ["clevercsv/break_ties.py:tie_breaker", "clevercsv/consistency.py:ConsistencyDetector.detect"]}
{"id": "C35", "title": "Detection is reproducible across runs", "statement": "The detected dialect does not depend on the iteration order of Python sets (hash randomisation): any enumeration order of the candidate sets gives the same result.", "quantifier": "every data string and every order in which the sets may be enumerated", "why_tests_cant": "quantifies over all hash seeds", "anchors": ["clevercsv/potential_dialects.py:get_dialects", "clevercsv/consistency.py:compute_consistency_scores", "clevercsv/break_ties.py:reduce_pairwise"]}
{"id": "C36", "title": "Breaking a tie between two dialects does not depend on their order", "statement": "Breaking the tie between A and B gives the same dialect as breaking the tie between B and A.", "quantifier": "every data string and every pair of dialects", "why_tests_cant": "symmetry over all inputs", "anchors": ["clevercsv/break_ties.py:break_ties_two"]}
{"id": "C37", "title": "Detection restores the field size limit", "statement": "After Detector.detect (or detect_dialect) the value of field_size_limit() is what it was before, whether detection succeeds, is inconclusive, or raises.", "quantifier": "every data string, every prior limit, every outcome", "why_tests_cant": "the limit is global state; the claim covers every exit path", "anchors": ["clevercsv/consistency.py:ConsistencyDetector.detect", "clevercsv/cparser_util.py:field_size_limit"]}
{"id": "C38", "title": "Detection does not fail on ordinary text", "statement": "Detector.detect on a NUL-free text returns a dialect or None and never raises a parse error, whatever the current field size limit.", "quantifier": "every NUL-free text and every prior field size limit", "why_tests_cant": "absence of exceptions over all inputs", "anchors": ["clevercsv/detect.py:Detector.detect", "clevercsv/consistency.py:ConsistencyDetector.detect"]}
{"id": "C39", "title": "Requested delimiters are respected", "statement": "If a list of delimiters is passed to detect, the detected dialect's delimiter is one of them or empty.", "quantifier": "every data string, list of delimiters and detection method", "why_tests_cant": "all execution paths of both detection methods", "anchors": ["clevercsv/detect.py:Detector.detect", "clevercsv/normal_form.py:detect_dialect_normal", "clevercsv/potential_dialects.py:get_delimiters"]}
{"id": "C40", "title": "Detected dialects are valid", "statement": "A dialect returned by detect passes SimpleDialect.validate, so it can be passed on to the reader.", "quantifier": "every data string, list of single-character delimiters and method", "why_tests_cant": "all execution paths", "anchors": ["clevercsv/detect.py:Detector.detect", "clevercsv/dialect.py:validate"]}
{"id": "C41", "title": "The detection method is honoured", "statement": "method='consistency' never uses normal forms, method='normal' uses normal-form detection exclusively, and method='auto' uses the consistency measure only if normal-form detection is inconclusive; the attribute method_ tells which one produced the result.", "quantifier": "every data string and method", "why_tests_cant": "all execution paths", "anchors": ["clevercsv/detect.py:Detector.detect", "clevercsv/detect.py:DetectionMethod"]}
{"id": "C42", "title": "Normal-form results agree with the parser", "statement": "If normal-form detection returns a dialect, then parsing the data with that dialect gives rows that all have the same number of cells (ignoring blank rows).", "quantifier": "every NUL-free data string and the default delimiters", "why_tests_cant": "connects string tests with the parser on all inputs", "anchors": ["clevercsv/normal_form.py:detect_dialect_normal", "clevercsv/normal_form.py:is_form_2", "src/cparser.c:Parser_iternext"]}
{"id": "C43", "title": "Normal forms exclude escapes", "statement": "Normal-form detection never returns a dialect with an escapechar, and returns None whenever some potential escape character immediately precedes a candidate delimiter or quote character.", "quantifier": "every data string and list of delimiters", "why_tests_cant": "all inputs", "anchors": ["clevercsv/normal_form.py:detect_dialect_normal", "clevercsv/normal_form.py:maybe_has_escapechar"]}
{"id": "C44", "title": "Header detection looks at a bounded prefix", "statement": "Given the detected dialect, has_header depends only on the first max_rows_to_check + 2 rows of the sample.", "quantifier": "every sample and every max_rows_to_check", "why_tests_cant": "independence from all possible continuations", "anchors": ["clevercsv/detect.py:Detector.has_header"]}
{"id": "C45", "title": "Header detection works for every newline convention", "statement": "has_header accepts every sample that the parser accepts, whichever of LF, CRLF or CR terminates its lines, and raises NoDetectionResult if no dialect is found.", "quantifier": "every non-empty sample", "why_tests_cant": "all samples and newline conventions", "anchors": ["clevercsv/detect.py:Detector.has_header"]}
{"id": "C46", "title": "DictReader rows correspond to reader rows", "statement": "DictReader yields exactly one dictionary per non-empty row after the header; with distinct field names every cell can be recovered: the i-th field name maps to the i-th cell, surplus cells are listed under restkey and missing ones get restval.", "quantifier": "every file, dialect, restkey/restval", "why_tests_cant": "all row shapes", "anchors": ["clevercsv/dict_read_write.py:DictReader"]}
{"id": "C47", "title": "DictWriter writes every known field and rejects unknown ones", "statement": "DictWriter.writerow writes, in field name order, the value of each field or restval; with extrasaction 'raise' (in any letter case accepted by the constructor) a dictionary with unknown keys raises ValueError and nothing is written, with 'ignore' unknown keys are dropped.", "quantifier": "every dictionary and field name list", "why_tests_cant": "all dictionaries", "anchors": ["clevercsv/dict_read_write.py:DictWriter"]}
{"id": "C48", "title": "write_dicts/read_dicts round trip", "statement": "Writing a non-empty list of dictionaries with the same keys in the same order and string values with write_dicts and reading the file with read_dicts(dialect='excel') returns the same dictionaries.", "quantifier": "every list of dictionaries with at least one key and NUL-free values", "why_tests_cant": "all dictionaries", "anchors": ["clevercsv/wrappers.py:write_dicts", "clevercsv/wrappers.py:read_dicts", "clevercsv/dict_read_write.py"]}
{"id": "C49", "title": "write_table/read_table round trip", "statement": "write_table(T, f) followed by read_table(f, dialect='excel') returns T, for a rectangular table of strings in an encoding that can represent it; with transpose=True the transposed table is read back.", "quantifier": "every non-empty rectangular table", "why_tests_cant": "all tables", "anchors": ["clevercsv/wrappers.py:write_table", "clevercsv/wrappers.py:read_table"]}
{"id": "C50", "title": "write_table refuses ragged tables without touching the file", "statement": "write_table raises ValueError if the rows differ in length, also with transpose=True, and in that case (and for an empty table) no file is created or modified.", "quantifier": "every table and every file system state", "why_tests_cant": "all tables; the effect on the file system", "anchors": ["clevercsv/wrappers.py:write_table"]}
{"id": "C51", "title": "Reading wrappers detect on the requested prefix and read the whole file", "statement": "read_table/read_dicts detect the dialect on the first num_chars characters (the whole file if num_chars is None or 0) and then return the rows of the whole file under that dialect; they raise NoDetectionResult exactly if detection returns None; a given dialect is used without detection. Streaming and reading variants return the same rows.", "quantifier": "every file content, num_chars and dialect", "why_tests_cant": "all contents", "anchors": ["clevercsv/wrappers.py:stream_table", "clevercsv/wrappers.py:read_table", "clevercsv/wrappers.py:stream_dicts", "clevercsv/wrappers.py:read_dicts"]}
{"id": "C52", "title": "standardize preserves the table", "statement": "The output of 'clevercsv standardize' read in the excel dialect has exactly the rows of the input under the detected dialect.", "quantifier": "every input file and detected dialect", "why_tests_cant": "all files", "anchors": ["clevercsv/console/commands/standardize.py:_write_direct", "clevercsv/read.py:reader", "clevercsv/write.py:writer"]}
{"id": "C53", "title": "standardize is idempotent", "statement": "Standardizing a standardized file (read in the excel dialect) writes the same text again.", "quantifier": "every input file", "why_tests_cant": "all files", "anchors": ["clevercsv/console/commands/standardize.py:_write_direct"]}
{"id": "C54", "title": "In-place standardize is safe and its exit code truthful", "statement": "With --in-place the input file is replaced only after the complete output has been written; if reading or writing fails the input file is unchanged; exit code 0 means the file is unchanged and 2 that it now holds the standardized text.", "quantifier": "every file, every failure point before the final move (assuming no SHA1 collision)", "why_tests_cant": "all contents and failure points", "anchors": ["clevercsv/console/commands/standardize.py:_in_place", "clevercsv/utils.py:sha1sum"]}
{"id": "C55", "title": "standardize argument checks and exit code", "statement": "standardize with inconsistent numbers of outputs or encodings, or with -i and -o together, exits with 1 without touching any file; otherwise files are processed in order, processing stops at the first failing file with exit code 1, and the exit code is 2 if some file was altered and 0 otherwise.", "quantifier": "every list of paths, outputs, encodings and every per-file outcome", "why_tests_cant": "all argument combinations and outcome sequences", "anchors": ["clevercsv/console/commands/standardize.py:handle"]}
{"id": "C56", "title": "Transposing loses no cells", "statement": "Transposing with standardize --transpose, write_table(transpose=True) or view --transpose keeps every cell: entry (i,j) moves to (j,i).", "quantifier": "every table, ragged or not", "why_tests_cant": "all tables", "anchors": ["clevercsv/console/commands/standardize.py:_write_transposed", "clevercsv/console/commands/view.py:handle", "clevercsv/wrappers.py:write_table"]}
{"id": "C57", "title": "Generated code reproduces the dialect", "statement": "The string literals for delimiter, quotechar and escapechar in the code printed by 'clevercsv code' evaluate to the components of the detected dialect.", "quantifier": "every dialect that detection can return", "why_tests_cant": "all characters", "anchors": ["clevercsv/console/commands/_utils.py:generate_code"]}
{"id": "C58", "title": "Chunked file scans see the whole file", "statement": "sha1sum hashes exactly the bytes of the file, and get_encoding feeds the detector the file's bytes in order, stopping only at the end of the file or once the detector is done; both terminate.", "quantifier": "every file content and chunk size", "why_tests_cant": "loop invariants over all lengths, in particular multiples of the block size", "anchors": ["clevercsv/utils.py:sha1sum", "clevercsv/encoding.py:get_encoding"]}
{"id": "C59", "title": "field_size_limit is a well-behaved setting", "statement": "field_size_limit() returns the last value that was set (initially 131072) and never changes it; field_size_limit(n) returns the previous value; a call with a non-integer or with several arguments raises TypeError and changes nothing.", "quantifier": "every history of calls", "why_tests_cant": "a history property", "anchors": ["clevercsv/cparser_util.py:field_size_limit"]}
{"id": "C60", "title": "Keyword arguments override the dialect's settings", "statement": "A delimiter, quotechar, escapechar or strict keyword given to reader() or writer() replaces the corresponding setting of the dialect and leaves the others alone: the object behaves as one built from the changed dialect without keywords.", "quantifier": "every dialect and every combination of keywords", "why_tests_cant": "all combinations of keywords and dialects", "anchors": ["clevercsv/read.py:reader.__init__", "clevercsv/write.py:writer.__init__", "clevercsv/_types.py"]}
{"id": "C61", "title": "Running standardize twice changes nothing the second time", "statement": "Running 'clevercsv standardize -i' on the output of a previous run leaves the file unchanged.", "quantifier": "every input file", "why_tests_cant": "the second run detects a dialect anew; the claim is about the detection result for every possible output", "anchors": ["clevercsv/console/commands/standardize.py:handle_path"]}
{"id": "C62", "title": "In-place standardize leaves no temporary file behind", "statement": "When 'clevercsv standardize -i' fails, the temporary file it created is removed.", "quantifier": "every file and every failure point", "why_tests_cant": "all failure points of the input and output operations", "anchors": ["clevercsv/console/commands/standardize.py:_in_place"]}
{"id": "C63", "title": "In-place standardize replaces the file in one step", "statement": "Whatever operation fails while 'clevercsv standardize -i' runs, the file afterwards holds either its old contents or the complete standardized text.", "quantifier": "every file, every failure point including the final move, temporary directory on the same or on another file system", "why_tests_cant": "all failure points and file system layouts", "anchors": ["clevercsv/console/commands/standardize.py:_in_place"]}
{"id": "C64", "title": "standardize -o never destroys its input", "statement": "After 'clevercsv standardize -o OUT IN' the file IN has the contents it had before, or (if OUT is the same file) the standardized text.", "quantifier": "every pair of paths and every file", "why_tests_cant": "includes the case of equal paths, which tests leave out", "anchors": ["clevercsv/console/commands/standardize.py:_to_file"]}
{"id": "C65", "title": "Lowering the field size limit never changes data", "statement": "Parsing a text with a lower field size limit gives the same rows, or stops with the field-size error after a prefix of the same rows.", "quantifier": "every text, every dialect, every two limits", "why_tests_cant": "relates two runs of the parser on every text", "anchors": ["src/cparser.c:parse_add_char", "clevercsv/cparser_util.py:field_size_limit"]}
{"id": "C66", "title": "Cells contain only characters of the text", "statement": "Every character of every parsed cell occurs in the text, except for a newline that an escape character at the end of the input produces; no cell contains NUL.", "quantifier": "every text and every dialect", "why_tests_cant": "all texts and dialects", "anchors": ["src/cparser.c:parse_process_char"]}
{"id": "C67", "title": "view shows every file that can be read", "statement": "clevercsv view passes a table to the viewer whenever the file can be decoded, a dialect is detected and its rows can be parsed; with --transpose it passes the transposed table.", "quantifier": "every file, with and without --transpose", "why_tests_cant": "all files; the tests do not run view on an empty file", "anchors": ["clevercsv/console/commands/view.py:handle"]}
{"id": "C68", "title": "A NUL character is always reported", "statement": "Parsing a text that contains a NUL character ends with an exception, whatever the dialect and wherever the character is; no dialect is detected by the consistency measure for such a text.", "quantifier": "every text, dialect and limit", "why_tests_cant": "all positions of the NUL in all parser states", "anchors": ["src/cparser.c:Parser_iternext", "clevercsv/consistency.py:detect"]}
{"id": "C69", "title": "The generated code opens the file", "statement": "The string literal in the open() or read_dataframe() call of the generated code evaluates to the name of the file.", "quantifier": "every file name", "why_tests_cant": "all names", "anchors": ["clevercsv/console/commands/_utils.py:generate_code"]}
{"id": "C70", "title": "The generated reader call reads the same rows", "statement": "clevercsv.reader with the delimiter, quotechar and escapechar of a detected dialect gives for every text the same rows, or the same exception, as parsing it with the detected dialect.", "quantifier": "every dialect that detection can return and every text", "why_tests_cant": "all texts and dialects", "anchors": ["clevercsv/read.py:_make_simple_dialect", "clevercsv/console/commands/_utils.py:generate_code"]}
{"id": "C71", "title": "The detect command reports the detected dialect", "statement": "With exit code 0 the detect command prints one line from which the components of the detected dialect can be read back: by evaluating the literals of the default output, or by deserializing the JSON output; with exit code 1 nothing was detected and nothing is printed.", "quantifier": "every file, method, skip setting and dialect", "why_tests_cant": "all characters in the components", "anchors": ["clevercsv/console/commands/detect.py:handle", "clevercsv/dialect.py:__repr__"]}
{"id": "C72", "title": "The plain output determines the dialect", "statement": "Different detected dialects give different output of clevercsv detect --plain.", "quantifier": "every pair of dialects", "why_tests_cant": "all pairs of dialects", "anchors": ["clevercsv/console/commands/detect.py:handle"]}
{"id": "C73", "title": "The dialect of a plain table is detected", "statement": "For a rectangular table with at least two columns and cells of ASCII letters, digits, spaces and . _ & - @ + % ( ) /, joined with comma, semicolon, bar or tab and with any of the three line ends, detection returns exactly that delimiter without quote and escape character.", "quantifier": "every such table, delimiter and line end, with or without the last line end", "why_tests_cant": "unboundedly many tables", "anchors": ["clevercsv/normal_form.py:detect_dialect_normal", "clevercsv/detect.py:detect"]}
{"id": "C74", "title": "Plain tables are read back without naming the dialect", "statement": "A plain table (as in C73, no cell before the last column ending in / or @) written with write_table in a dialect with one of the delimiters comma, semicolon, bar and tab, minimal or no quoting, is returned by read_table without a dialect argument.", "quantifier": "every plain table within the field size limit, dialect, encoding and file system", "why_tests_cant": "unboundedly many tables; interplay of writer, detection and reader", "anchors": ["clevercsv/wrappers.py:write_table", "clevercsv/wrappers.py:read_table"]}
{"id": "C75", "title": "Plain dictionaries are read back without naming the dialect", "statement": "Dictionaries with the same keys that make up a plain table, written with write_dicts, are returned by read_dicts without a dialect argument.", "quantifier": "every list of such dictionaries", "why_tests_cant": "unboundedly many inputs", "anchors": ["clevercsv/wrappers.py:write_dicts", "clevercsv/wrappers.py:read_dicts"]}
{"id": "C76", "title": "Standardizing a plain table", "statement": "standardize turns a file with a plain table into the same table with commas and CRLF line ends, on standard output or in place, with exit code 0 or 2.", "quantifier": "every plain table within the field size limit, delimiter and line end", "why_tests_cant": "unboundedly many tables", "anchors": ["clevercsv/console/commands/standardize.py:handle_path"]}
{"id": "C77", "title": "URLs and IPv4 addresses", "statement": "A cell gets the type url exactly when it is a URL, and the type ipv4 exactly when it is four numbers of one to three digits separated by points.", "quantifier": "every cell", "why_tests_cant": "the set of cells is infinite, and the order of the tests matters where two of them accept the same text", "anchors": ["clevercsv/detect_type.py:TypeDetector.detect_type", "clevercsv/_regexes.py:PATTERN_URL", "clevercsv/_regexes.py:PATTERN_IPV4"]}
{"id": "C78", "title": "Numbers", "statement": "A cell gets the type number exactly when it is a numeral: an optional sign, digits that may be separated into thousands, an optional fraction and an optional exponent.", "quantifier": "every cell", "why_tests_cant": "the set of cells is infinite, and the order of the tests matters where two of them accept the same text", "anchors": ["clevercsv/detect_type.py:TypeDetector.is_number", "clevercsv/_regexes.py:PATTERN_NUMBER_1"]}
{"id": "C79", "title": "Percentages and amounts of money", "statement": "A cell gets the type percentage exactly when it is a number followed by a percent sign, and the type currency exactly when it is a currency sign followed by a number.", "quantifier": "every cell", "why_tests_cant": "the set of cells is infinite, and the order of the tests matters where two of them accept the same text", "anchors": ["clevercsv/detect_type.py:TypeDetector.is_percentage", "clevercsv/detect_type.py:TypeDetector.is_currency"]}
{"id": "C80", "title": "Dates", "statement": "A cell gets the type date exactly when it denotes a day of the calendar: day, month and year with or without separators.", "quantifier": "every cell", "why_tests_cant": "the set of cells is infinite, and the order of the tests matters where two of them accept the same text", "anchors": ["clevercsv/detect_type.py:TypeDetector.is_date", "clevercsv/_regexes.py:PATTERN_DATE"]}
{"id": "C81", "title": "Dates with times", "statement": "A cell gets the type datetime exactly when it is a date, a space or T, and a clock time with an optional UTC offset.", "quantifier": "every cell", "why_tests_cant": "the set of cells is infinite, and the order of the tests matters where two of them accept the same text", "anchors": ["clevercsv/detect_type.py:TypeDetector.is_datetime"]}
{"id": "C82", "title": "E-mail addresses, paths, missing values and words", "statement": "A cell gets the type email, unix_path or nan exactly when it is an e-mail address, a path or one of n/a, na, nan; and every cell of words has a known type.", "quantifier": "every cell", "why_tests_cant": "the set of cells is infinite, and the order of the tests matters where two of them accept the same text", "anchors": ["clevercsv/detect_type.py:TypeDetector.detect_type", "clevercsv/_regexes.py:PATTERN_EMAIL", "clevercsv/_regexes.py:PATTERN_UNIX_PATH", "clevercsv/detect_type.py:TypeDetector.is_nan"]}
{"id": "C83", "title": "Rules for ties between two dialects", "statement": "A tie between two dialects is broken by the documented rules and by no others: an ineffective quotechar loses and an effective one wins; comma wins against space and everything against hyphen; with and without escapechar, the escapechar wins exactly when it precedes the quotechar a positive even number of times in each cell that differs; with and without quotechar and escapechar, both win exactly when the cells that differ contain the two.", "quantifier": "every text and every pair of dialects", "why_tests_cant": "each rule compares the parses of an arbitrary text under two dialects; a test sees a few texts", "anchors": ["clevercsv/break_ties.py:break_ties_two"]}
{"id": "C84", "title": "Rules for ties among more dialects", "statement": "A tie among three dialects that differ only in the quotechar is decided between the one without quotechar and one with the same parsing result; with different escapechars it is decided between the two with a quotechar; ties between dialects of different delimiters and among five or more are left.", "quantifier": "every text and every list of tied dialects", "why_tests_cant": "the branches depend on which of the parses of an arbitrary text coincide", "anchors": ["clevercsv/break_ties.py:break_ties_three", "clevercsv/break_ties.py:break_ties_four", "clevercsv/break_ties.py:tie_breaker"]}
{"id": "C85", "title": "JSON cells", "statement": "A cell gets the type json exactly when, without the white space around it, it is a JSON object as defined in RFC 8259.", "quantifier": "every cell, quoted or not, every recursion limit and digit limit", "why_tests_cant": "the grammar is recursive; tests try a few objects, not the numbers, escapes and nesting that must be rejected or that exceed the limits of the parser", "anchors": ["clevercsv/detect_type.py:is_json_obj", "clevercsv/detect_type.py:detect_type"]}
{"id": "C86", "title": "Cells of known type", "statement": "A cell counts as being of known type exactly when, without the white space around it, it is empty or a URL, email address, number, time, percentage, amount of money, path, missing value, date, date with time, word, bytearray or JSON object, each as described independently of the patterns; and quoting a cell never makes its type unknown.", "quantifier": "every ASCII cell, quoted or not, with and without stripping", "why_tests_cant": "tests list texts that should have a type; that nothing else has a type is a statement about all texts", "anchors": ["clevercsv/detect_type.py:is_known_type", "clevercsv/detect_type.py:detect_type", "clevercsv/_regexes.py"]}
{"id": "C87", "title": "Detection and the order of the rows", "statement": "The detected dialect does not depend on the order of the rows of the text.", "quantifier": "every text and every permutation of its rows", "why_tests_cant": "tests run the detector on a text in one order; the statement compares all orders, and it fails only through rounding errors of a sum", "anchors": ["clevercsv/detect.py:detect", "clevercsv/consistency.py:detect", "clevercsv/cparser_util.py", "clevercsv/detect_pattern.py:pattern_score", "clevercsv/normal_form.py:detect_dialect_normal"]}
{"id": "C88", "title": "Optional dependencies", "statement": "An optional dependency is used exactly when it is installed in a sufficiently recent version; with raise_on_missing=False a dependency that cannot be used is ignored instead of raising an exception, so that get_encoding falls back on chardet.", "quantifier": "every set of installed modules and versions", "why_tests_cant": "the tests run with one set of installed packages", "anchors": ["clevercsv/_optional.py:import_optional_dependency", "clevercsv/encoding.py:get_encoding"]}
{"id": "C89", "title": "read_dataframe", "statement": "read_dataframe calls pandas.read_csv with the file, the dialect that detect_dialect finds for the same number of characters and encoding, the encoding that was used in detection, and all other arguments unchanged; the dialect is a valid csv dialect; in all other cases it raises an exception without calling read_csv.", "quantifier": "every file, file system state, encoding, number of characters, positional and keyword arguments", "why_tests_cant": "tests compare the data frames of a few files; they do not cover all combinations of arguments and failures", "anchors": ["clevercsv/wrappers.py:read_dataframe", "clevercsv/dialect.py:to_csv_dialect"]}
{"id": "C90", "title": "The explore command", "statement": "The explore command feeds the interactive console exactly the lines that the code command prints for the same arguments, does not change the file, and exits with 1 without starting a session if no dialect is detected or the console needs more input after the last line.", "quantifier": "every file, option and console", "why_tests_cant": "an interactive session is hard to test; the repository has no test for this command", "anchors": ["clevercsv/console/commands/explore.py:handle", "clevercsv/console/commands/_utils.py:generate_code"]}
{"id": "C91", "title": "The dialect of a table with quoted cells is detected", "statement": "For a rectangular table with at least two columns whose cells are in quotes (possibly containing delimiters) or made of plain characters, with either all cells in quotes and free of the quote character, or at least two rows and no empty cell, and without punctuation that could be an escape character before a delimiter or quote, joined with comma, semicolon, bar or tab and with any of the three line ends, detection returns exactly that delimiter and quote character without escape character, and parsing returns the cells with their quote flags.", "quantifier": "every such table, delimiter, quote character and line end, with or without the last line end, every Unicode category assignment", "why_tests_cant": "unboundedly many tables", "anchors": ["clevercsv/normal_form.py:detect_dialect_normal", "clevercsv/normal_form.py:is_form_1", "clevercsv/normal_form.py:is_form_3", "clevercsv/detect.py:detect"]}
{"id": "C92", "title": "Tables with quoted cells are read back without naming the dialect", "statement": "A table written with write_table in a dialect with one of the delimiters comma, semicolon, bar and tab, one of the quote characters, doubled quotes and minimal quoting or quoting of all cells, which as written is a table as in C91, is returned by read_table without a dialect argument.", "quantifier": "every such table within the field size limit, dialect, encoding and file system", "why_tests_cant": "unboundedly many tables; interplay of writer, detection and reader", "anchors": ["clevercsv/wrappers.py:write_table", "clevercsv/wrappers.py:read_table"]}
{"id": "C93", "title": "Standardizing a table with quoted cells", "statement": "standardize turns a file with a table as in C91 into the same values with commas, CRLF line ends and quotes around exactly the cells that contain commas, quotes or line breaks, on standard output or in place, with exit code 0 or 2.", "quantifier": "every such table within the field size limit, delimiter, quote character and line end", "why_tests_cant": "unboundedly many tables", "anchors": ["clevercsv/console/commands/standardize.py:handle_path"]}
{"id": "C94", "title": "A call of the parser gives back every reference and block it takes", "statement": "For every configuration, input and pattern of failing API calls, a call of Parser_iternext uses or releases nothing it does not own, leaves the parser owning exactly its members, and either returns what it would have returned without failures or ends with an exception; over the life of a parser (made, iterated and cleared in any order, dropped) all references and blocks are given back.", "quantifier": "every input, configuration, sequence of calls, and every pattern of failing allocations", "why_tests_cant": "failing allocations at every possible place cannot be provoked by tests", "anchors": ["src/cparser.c:Parser_iternext", "src/cparser.c:parse_save_field", "src/cparser.c:_strstrip", "src/cparser.c:parse_grow_buff", "src/cparser.c:Parser_dealloc"]}
{"id": "C95", "title": "Making a parser leaves the reference counts of its arguments alone", "statement": "Whatever arguments are passed and whatever calls fail, the constructor keeps one reference to the input iterator and to the new list on success, and none on an exception.", "quantifier": "every choice of arguments and every pattern of failing calls", "why_tests_cant": "leaked references are invisible in results; all combinations of arguments and failures", "anchors": ["src/cparser.c:cparser_parser"]}
{"id": "C96", "title": "The abstraction functions free what they allocate", "statement": "For every string and every pattern of failing allocations, base_abstraction and c_merge_with_quotechar free each block exactly once, do not use it afterwards, and return the abstraction or MemoryError.", "quantifier": "every string, every pattern of failing allocations", "why_tests_cant": "failing allocations at every possible place cannot be provoked by tests", "anchors": ["src/abstraction.c:base_abstraction", "src/abstraction.c:c_merge_with_quotechar"]}
{"id": "C97", "title": "The C code has no undefined behaviour whatever Python code does with it", "statement": "No sequence of calls, no argument and no behaviour of the input iterator makes the C functions use a NULL pointer, something already released, or an object of the wrong type.", "quantifier": "every sequence of calls, every argument, every behaviour of the input iterator", "why_tests_cant": "arbitrary behaviour of the caller and of the iterator", "anchors": ["src/cparser.c:Parser_iternext", "src/abstraction.c:base_abstraction", "src/abstraction.c:c_merge_with_quotechar"]}
{"id": "C98", "title": "Parsing does not depend on the newline convention", "statement": "If each line feed of a text is replaced by a carriage return, or by a carriage return and a line feed, parse_string gives the same rows (with the line breaks inside the cells replaced) and the same error.", "quantifier": "every text without carriage returns, every dialect, both other newline conventions", "why_tests_cant": "every text, dialect and position of line breaks relative to quotes, escapes and the field size limit", "anchors": ["clevercsv/cparser_util.py:parse_string", "src/cparser.c:parse_process_char"]}
{"id": "C99", "title": "Detection does not depend on the newline convention", "statement": "If each line feed of a text is replaced by a carriage return, or by a carriage return and a line feed, Detector.detect gives the same dialect by the same method.", "quantifier": "every text without carriage returns, every method and list of delimiters, both other newline conventions", "why_tests_cant": "relates two runs of the detector for every text", "anchors": ["clevercsv/detect.py:Detector.detect", "clevercsv/normal_form.py:split_file", "clevercsv/consistency.py:ConsistencyDetector.detect", "clevercsv/potential_dialects.py:get_dialects", "clevercsv/break_ties.py:tie_breaker"]}
{"id": "C100", "title": "Dialects given by name", "statement": "A reader or writer that is given the name of a registered dialect behaves like one with the corresponding explicit dialect (delimiter comma or tab, double quotes, all cells quoted for unix); rows written by a name are read back by any name with the same delimiter; every other name raises csv.Error.", "quantifier": "every name, row and field size limit, all format parameters", "why_tests_cant": "every name, every row of strings, combinations of reader and writer", "anchors": ["clevercsv/read.py:_make_simple_dialect", "clevercsv/write.py:_make_python_dialect", "clevercsv/dialect.py:from_csv_dialect"]}
{"id": "C101", "title": "Parsing delivers no more than it reads", "statement": "For every text and dialect the cells of parse_string together have at most as many characters as the text, there are at most as many rows as lines, and at most as many cells as rows and delimiters; an abstraction has at most as many delimiters and row ends as the text has characters and is at most twice as long (plus one).", "quantifier": "every text, dialect and field size limit, also when an error ends the parse; every row of a parser object that reads any strings", "why_tests_cant": "every text and dialect; a duplicated or invented character may need a rare sequence of states", "anchors": ["src/cparser.c:parse_process_char", "src/cparser.c:parse_save_field", "clevercsv/cparser_util.py:parse_string", "src/abstraction.c:base_abstraction", "clevercsv/detect_pattern.py:make_abstraction"]}
{"id": "C102", "title": "Scores are computed without overflow, underflow or loss of integers", "statement": "For texts below 2^53 characters every integer converted in the computation of pattern, type and consistency scores is a double, and every operation gives the normal double nearest to the exact result (ties to even).", "quantifier": "every text below 2^53 characters, every dialect, every epsilon between 2^-500 and 1", "why_tests_cant": "texts of any size below 2^53 characters and any number of row patterns", "anchors": ["clevercsv/detect_pattern.py:pattern_score", "clevercsv/detect_type.py:type_score", "clevercsv/consistency.py:ConsistencyDetector.compute_consistency_scores"]}
{"id": "C103", "title": "Dialects are read from any JSON text of their members", "statement": "deserialize makes the dialect from every JSON text of an object with the four keys, whatever the order, the white space, the escapes, other keys and repeated keys (the last counts) are; it raises KeyError if a key is missing; serialize gives such a text, in printable ASCII.", "quantifier": "every text; every dialect that can be serialized", "why_tests_cant": "unboundedly many ways to write the same object", "anchors": ["clevercsv/dialect.py:SimpleDialect.serialize", "clevercsv/dialect.py:SimpleDialect.deserialize", "clevercsv/dialect.py:SimpleDialect.from_dict"]}
{"id": "C104", "title": "Candidates for any encoding", "statement": "For every encoding the delimiters are the tab and the characters of the text that are not blocked and whose character after encoding and decoding is of no blocked category, or those in the given list, and the empty one; a character is a potential escape character exactly if what it becomes by encoding and decoding is of category Po and not blocked; getting delimiters raises exactly if some character of the text does not become one character again; with an encoding that gives every character back the candidates are those of UTF-8; the quote characters are the given ones that occur in the text, and the empty one.", "quantifier": "every text, encoding, list of blocked categories, blocked and accepted characters, and order of sets", "why_tests_cant": "every encoding and every list of categories and characters", "anchors": ["clevercsv/potential_dialects.py:get_dialects", "clevercsv/potential_dialects.py:get_delimiters", "clevercsv/potential_dialects.py:get_quotechars", "clevercsv/escape.py:is_potential_escapechar", "clevercsv/potential_dialects.py:unicode_category"]}
{"id": "C105", "title": "Dictionaries of rows with repeated field names", "statement": "The keys of the dictionary of a row are the field names without repetitions in the order of their first occurrence, then the rest key if there are surplus cells; the value of a name is the cell in the column of its last occurrence, or the rest value; surplus cells are under the rest key also if it is a field name; the earlier columns of a repeated name are lost.", "quantifier": "all lists of field names, rest keys and values, and rows", "why_tests_cant": "all patterns of repetitions, lengths and rest keys", "anchors": ["clevercsv/dict_read_write.py:DictReader.__next__"]}
{"id": "C106", "title": "Type detection with given patterns", "statement": "Without patterns or with an empty dictionary TypeDetector uses the default patterns; with a dictionary that has no pattern url every cell that is not empty raises AssertionError; the answer depends on the seventeen named patterns only and is one of fifteen names; with all patterns present, and a group in every match of currency, only json.loads raises.", "quantifier": "every dictionary of patterns with any matching functions, every cell, quoted or not, with or without stripping", "why_tests_cant": "every dictionary of patterns", "anchors": ["clevercsv/detect_type.py:TypeDetector.__init__", "clevercsv/detect_type.py:TypeDetector.detect_type", "clevercsv/detect_type.py:TypeDetector._run_regex", "clevercsv/detect_type.py:TypeDetector.is_currency", "clevercsv/_regexes.py:DEFAULT_TYPE_REGEXES"]}
{"id": "C107", "title": "Scores depend on the set of dialects", "statement": "The scores that compute_consistency_scores gives depend only on the set of the dialects it is given, not on their order or on repetitions, and not on what the detector was used for before with the same data cache; the keys of the dictionary are the dialects; the best dialects are those with the largest score.", "quantifier": "every list of dialects with string components, text, and history of calls on either detector", "why_tests_cant": "every order and multiplicity of every set of dialects, and every history of the cache", "anchors": ["clevercsv/consistency.py:ConsistencyDetector.compute_consistency_scores", "clevercsv/consistency.py:ConsistencyDetector.get_best_dialects", "clevercsv/dialect.py:SimpleDialect.__lt__"]}
{"id": "C108", "title": "The option verbose", "statement": "With verbose the results, exceptions, files and the field size limit are those without it; the messages name the normal form that matched and give the scores of every candidate in order with six decimals; the data on the standard output (a JSON text, a CSV text) is not mixed with messages.", "quantifier": "every text, file system, failure of operations, encoding, method and command", "why_tests_cant": "every text and command and every point of failure", "anchors": ["clevercsv/consistency.py:ConsistencyDetector.compute_consistency_scores", "clevercsv/normal_form.py:detect_dialect_normal", "clevercsv/detect.py:Detector.detect", "clevercsv/wrappers.py:stream_table", "clevercsv/console/commands/standardize.py:StandardizeCommand.handle", "clevercsv/console/commands/detect.py:DetectCommand.handle"]}
{"id": "C109", "title": "Parsing commutes with renaming characters", "statement": "Let a map of characters send the delimiter, quote and escape characters of a dialect to those of another dialect, leave line breaks and the null character alone, and send no other character to one of these. Parsing the renamed text with the renamed dialect gives the renamed cells with the same quoted flags and the same exceptions; the writer commutes with the map too. So which characters serve as delimiter, quote and escape is immaterial, and the characters that are none of these do not influence the shape of the table, the abstraction or the pattern score.", "quantifier": "every map of characters, dialect, field size limit, text or iterable of objects, and row", "why_tests_cant": "every map of characters; tests use a few fixed delimiters and quotes", "anchors": ["src/cparser.c:parse_process_char", "clevercsv/cparser_util.py:parse_string", "clevercsv/cparser_util.py:parse_data", "src/abstraction.c:base_abstraction", "clevercsv/detect_pattern.py:pattern_score", "clevercsv/write.py:writer.writerow"]}
{"id": "C110", "title": "Any sequence of calls on a DictReader", "statement": "However calls of next, looks at fieldnames and assignments to it follow one another on a DictReader: the field names are those given or set, or else the cells of the first row; every other row that is not blank gives one dictionary, in order, with the field names known at that time, and StopIteration follows; exceptions of the reader come out of the call that reads the row; line_num is that of the reader.", "quantifier": "every source, dialect, restkey, field size limit and finite sequence of calls", "why_tests_cant": "every interleaving of calls, with exceptions at every row", "anchors": ["clevercsv/dict_read_write.py:DictReader.fieldnames", "clevercsv/dict_read_write.py:DictReader.__next__", "clevercsv/read.py:reader.__next__"]}
{"id": "C111", "title": "Running the generated program", "statement": "The program printed by the code command can be run and gives the rows that parsing the text of the file with the detected dialect gives; for a table without quotes, or with quoted cells, of the kinds whose dialect is known to be detected, the command succeeds and the program gives the table.", "quantifier": "every file, encoding, number of characters and world in which the command succeeds", "why_tests_cant": "every file name, dialect and text", "anchors": ["clevercsv/console/commands/_utils.py:generate_code", "clevercsv/console/commands/code.py:CodeCommand.handle", "clevercsv/read.py:reader"]}
{"id": "C112", "title": "Sizes of allocated blocks stay in proportion to the input", "statement": "The field buffer of the parser never has more than 4096 characters or twice as many as the parser was fed, whatever the field size limit; the blocks of the abstraction functions never have more than a fixed number of elements or twice as many as the text; so for inputs below 2^59 characters no size computed before an allocation exceeds the range of its type.", "quantifier": "every dialect, input, split into chunks and number of calls", "why_tests_cant": "inputs of every length, also those that no test machine can hold", "anchors": ["src/cparser.c:parse_grow_buff", "src/abstraction.c:base_abstraction", "src/abstraction.c:c_merge_with_quotechar"]}
{"id": "C113", "title": "Header detection of tables", "statement": "For a file written as a plain table, or with quoted cells, header detection gives the vote on the table itself; the vote does not depend on the order of the rows of data nor on the order of the columns, a single row is taken as a header, and if all data are integers there is a header exactly when fewer header cells are integers than are not.", "quantifier": "every table, delimiter, quote character, line end and permutation", "why_tests_cant": "every table and every permutation of it", "anchors": ["clevercsv/detect.py:Detector.has_header"]}
{"id": "C114", "title": "The detect and view commands on tables", "statement": "For a file written as a plain table, or with quoted cells, the detect command reports the delimiter and quote character the file was written with, and the view command shows the table, or its transpose.", "quantifier": "every table, delimiter, quote character, line end and world", "why_tests_cant": "every table", "anchors": ["clevercsv/console/commands/detect.py:DetectCommand.handle", "clevercsv/console/commands/view.py:ViewCommand.handle"]}
{"id": "C115", "title": "The option --add-runtime", "statement": "Without the option nothing changes; with it the detect command behaves in the same way except that the default and the plain output have one more line at the end, and that the JSON output has one more member, such that SimpleDialect.deserialize reads from it the same dialect as from the output without the option.", "quantifier": "every file, option, world and measured time", "why_tests_cant": "every detected dialect and every time", "anchors": ["clevercsv/console/commands/detect.py:DetectCommand.handle", "clevercsv/dialect.py:SimpleDialect.deserialize"]}
{"id": "C116", "title": "What runs in the console of the explore command", "statement": "When the explore command starts a session, the console has run the lines of the generated program in order, grouped into complete statements, with nothing left over; a session starts whenever the code command succeeds; and when it announces that the data has been loaded, the program that it ran has loaded the data.", "quantifier": "every file, option, world and every judgement of the interpreter which sources are incomplete", "why_tests_cant": "an interactive session; every file name and dialect", "anchors": ["clevercsv/console/commands/explore.py:ExploreCommand.handle", "clevercsv/console/commands/_utils.py:generate_code"]}
{"id": "C117", "title": "Files with a single column and files whose rows are in quotes as a whole", "statement": "For a file of at least two lines that are words (ASCII letters, digits, . _ & -; in quotes also spaces and nothing) all without quotes or all in the same quotes, detection finds the dialect without delimiter with that quote character; read_table and view give one cell per line, the word; the detect command reports that dialect; standardize prints one word per line, with empty words as two double quotes. For a file whose lines are the rows of a plain table each in quotes as a whole, detection finds the delimiter and the quote character; read_table gives one cell per row, the whole row; and standardize prints a single column, in quotes exactly if the delimiter is the comma.", "quantifier": "every number of words and rows, line end, quote character, delimiter, limit and world", "why_tests_cant": "unbounded files; the forms are tried in an order in which any earlier one must fail", "anchors": ["clevercsv/normal_form.py:is_form_4", "clevercsv/normal_form.py:is_form_5", "clevercsv/normal_form.py:detect_dialect_normal", "clevercsv/wrappers.py:read_table", "clevercsv/console/commands/standardize.py:StandardizeCommand.handle_path"]}
{"id": "C118", "title": "The consistency measure prefers delimiters that give rows of the same length", "statement": "Let every nonempty line of a text have n cells of known types, 2 <= n <= 2^25, for an ASCII delimiter d that get_delimiters may return and that does not occur in URLs. Then every dialect that the consistency measure returns gives all rows of the text the same pattern with at least n cells: a dialect without quote and escape character gives every nonempty line the same number of cells, at least n, and the empty delimiter is never returned. If d is the only character that can be a delimiter and no quote or escape characters occur, d is returned. In particular the delimiters , ; | and tab are found for all tables with cells of letters, digits, points and parentheses. The same holds with quotes: if the quotes q are balanced on every line and every nonempty line has n cells of known types for d and q, the returned dialect gives all rows the same pattern with at least n cells; and for tables of such words with at least one cell in quotes both the delimiter and the quote character are found.", "quantifier": "every text of fewer than 2^50 characters, set order, limit, allowed delimiters and value of skip", "why_tests_cant": "a statement about the winner among all candidates on unbounded texts, with the rounding of double arithmetic in the scores", "anchors": ["clevercsv/consistency.py:ConsistencyDetector.detect", "clevercsv/consistency.py:ConsistencyDetector.compute_consistency_scores", "clevercsv/potential_dialects.py:get_dialects", "src/abstraction.c", "clevercsv/detect_pattern.py:pattern_score", "clevercsv/detect_type.py:type_score"]}
{"id": "C119", "title": "Row patterns of texts with quotes agree with the parser", "statement": "For a dialect with a delimiter and a quote character and without escape character, and a nonempty text without NUL that does not start with a line break and in which the quotes are balanced: the row patterns that the abstraction gives are, in order, those of the non-blank rows that the parser returns, with as many cells. Delimiters, line breaks and doubled quotes between quotes do not count. With unbalanced quotes or an escape character the two can differ.", "quantifier": "every text, delimiter, quote character and limit for which parsing succeeds", "why_tests_cant": "two independent programs (C abstraction and C parser) compared on all texts", "anchors": ["src/abstraction.c", "clevercsv/detect_pattern.py:make_abstraction", "src/cparser.c"]}
{"id": "C120", "title": "The patterns of the type detection do not backtrack catastrophically", "statement": "A backtracking search for each of the seventeen default patterns decides a cell of n characters in a number of steps that is at most polynomial in n, of degree at most four (bounded for times and IP addresses, linear for dates and currencies, quadratic for numbers with thousands separators and alphanumeric cells, cubic for mail addresses). The removal of URLs from the sample takes at most polynomially many steps, of degree five, and is at least quadratic on a long word. A repetition inside a repetition, which none of the patterns has without a separator, takes exponentially many steps.", "quantifier": "every cell and sample text of any length, every table of character classes that agrees with ASCII", "why_tests_cant": "catastrophic backtracking shows on adversarial inputs only; a bound must hold for all of them", "anchors": ["clevercsv/_regexes.py", "clevercsv/detect_type.py:TypeDetector._run_regex", "clevercsv/potential_dialects.py:filter_urls"]}
{"id": "C121", "title": "The normal forms accept exactly the documented files", "statement": "Each of the five normal forms holds for exactly the lists of lines that are built from a table as the comments of the forms say (all cells quoted; all elementary; some quoted; a single column; lines quoted as a whole), with the additional cases that the code admits: a delimiter after the last cell of a line with quotes, and quotes inside the quoted cells of form 3. The dialect detected is that of the first of the fifteen candidates, in the fixed order, whose condition the lines meet; there is none exactly if no candidate is met or a potential escape character precedes a delimiter or a quote.", "quantifier": "every text, every list of lines, every delimiter and quote character", "why_tests_cant": "an equivalence between splitting code and a grammar, for all texts", "anchors": ["clevercsv/normal_form.py"]}
{"id": "C122", "title": "The command line is understood as written", "statement": "For each of the five commands, a command line with options in any of their spellings (letters, also joined; names, also abbreviated as long as only one option fits; values attached or in the next word), before and after the path or the paths standing together, or with the paths after `--`, runs the command with exactly the options written: flags are set if and only if they are written, the last value counts for options with one value, and all values in their order for `--encoding` and `--output` of standardize. Only the order of values of the same option matters. `--plain` with `--json`, a missing path, unknown options, a number of characters that is no number, a second path for the other commands and options between paths give exit code 2 without any effect. Every call of the standardize command can be written, except with the text `--` as a value.", "quantifier": "every command line of this kind, every system", "why_tests_cant": "unboundedly many orders, spellings and values", "anchors": ["clevercsv/console/commands/detect.py:29-139", "clevercsv/console/commands/view.py:33-95", "clevercsv/console/commands/code.py:32-78", "clevercsv/console/commands/explore.py:37-98", "clevercsv/console/commands/standardize.py:49-174"]}
{"id": "C123", "title": "Files are read in chunks", "statement": "A text file that is read in chunks gives the same text, the same first characters and the same lines (with LF, CR and CRLF as line ends) as decoding all of it at once, however it is divided into chunks: also if a chunk ends within a character or between CR and LF. If a chunk cannot be decoded, if a read fails or if the file ends within a character, reading everything raises; reading the first characters succeeds exactly if the chunks before give them; and iterating over the lines gives exactly the lines that have certainly ended in the chunks before, and then raises.", "quantifier": "every incremental decoder, every division of every file into chunks", "why_tests_cant": "unboundedly many divisions of unboundedly many files", "anchors": ["clevercsv/wrappers.py:93-104", "clevercsv/wrappers.py:275-283", "clevercsv/wrappers.py:396-401", "clevercsv/console/commands/standardize.py:207-226"]}
{"id": "C124", "title": "Chunks and buffers make no difference", "statement": "However the reads divide a file into chunks and whenever the output buffer is flushed: if the standardize command, stream_table or write_table succeeds, it has had exactly the effect and result that it has if files are decoded at once and written without a buffer and nothing fails; and if nothing fails, it succeeds whenever that does. If a read, a decoder, a write or anything else fails: in place, the input file is unchanged (or, if the temporary file is on another file system, the temporary file still holds the complete output); with an output file, only the output file has changed, and it holds a beginning of the complete output; with the standard output, nothing is printed; stream_table has given the rows of the complete file up to some point, and raises.", "quantifier": "every division of files into chunks, every sequence of flushes, every sequence of failures, every decoder that agrees with its codec, every file", "why_tests_cant": "unboundedly many divisions and interleavings of failures", "anchors": ["clevercsv/wrappers.py:225-283", "clevercsv/wrappers.py:350-458", "clevercsv/console/commands/standardize.py:176-288"]}
{"id": "C125", "title": "Files in UTF-8", "statement": "The UTF-8 codec encodes every text, and decodes exactly the bytes of texts, to these texts (no overlong forms, no surrogates, nothing beyond U+10FFFF); its incremental decoder raises as soon as the bytes are not the beginning of a text in UTF-8, and not before. A file in UTF-8 gives its text, first characters and lines however it is divided into chunks. With UTF-8, write_table/read_table and write_dicts/read_dicts give back every rectangular table (dictionaries with the same keys) of strings without NUL within the field size limit, and the standardize command can write every table that it reads.", "quantifier": "every byte string, every text, every table, every division into chunks", "why_tests_cant": "unboundedly many byte strings and texts", "anchors": ["clevercsv/wrappers.py:404-507", "clevercsv/wrappers.py:225-283", "clevercsv/console/commands/standardize.py:240-288"]}
{"id": "C126", "title": "Chunks and buffers make no difference for dictionaries", "statement": "However the reads divide a file into chunks and whenever the output buffer is flushed: if stream_dicts, read_dicts, read_table or write_dicts succeeds, it has had exactly the effect and result that it has if files are decoded at once and written without a buffer and nothing fails; and if nothing fails and the file can be decoded, it does what that does. If a read or a decoder fails, stream_dicts has given the dictionaries of the complete file up to some point and raises, and read_dicts and read_table return nothing. If a write fails, only the output file has changed, and it holds a beginning of the complete output.", "quantifier": "every division of files into chunks, every sequence of flushes, every sequence of failures, every decoder that agrees with its codec, every file, every list of dictionaries", "why_tests_cant": "unboundedly many divisions and interleavings of failures", "anchors": ["clevercsv/wrappers.py:43-222", "clevercsv/wrappers.py:461-507", "clevercsv/dict_read_write.py:40-155"]}
{"id": "C127", "title": "A standardize run over several files stops cleanly", "statement": "However files are divided into chunks and whenever buffers are flushed: if clevercsv standardize succeeds for a list of files, it has had exactly the effect that it has if every file is decoded at once and written without a buffer and nothing fails, and if nothing fails it succeeds whenever that does. If it stops early, because no dialect is detected for a file or because of an exception, it has had exactly the effect of the command for the files before that one, except for: the output file of that file; or, in place, the temporary file, and the file itself if the temporary file is on another file system. Nothing is printed for that file. Inconsistent arguments have no effect.", "quantifier": "every list of files, outputs and encodings, every division into chunks, every sequence of flushes and failures, every state of the file system; an output path must not be the path of its own input", "why_tests_cant": "unboundedly many lists of files, divisions and failures", "anchors": ["clevercsv/console/commands/standardize.py:115-288"]}
{"id": "C128", "title": "What the commands print reaches standard output", "statement": "Redirecting the output of standardize gives the same bytes as an output file, whatever the encoding of standard output and the platform. What cannot be encoded raises an exception and is not printed in part: every file is printed as a whole or not at all, the files before it have been printed, and no file is changed. With an encoding that has all characters nothing is lost. The JSON output of detect needs ASCII only.", "quantifier": "all encodings of standard output, line separators, files, arguments, and failures of the system", "why_tests_cant": "Tests capture standard output on one platform in one encoding, where print cannot fail and line ends are not replaced.", "anchors": ["clevercsv/console/commands/standardize.py:269-276", "clevercsv/console/commands/standardize.py:160-198", "clevercsv/console/commands/detect.py:124-138", "clevercsv/console/commands/code.py:60-78"]}
{"id": "C129", "title": "The option verbose on a standard output that lacks characters", "statement": "With verbose=True detection gives the same dialect and leaves the same field size limit as without, whatever the encoding of standard output. The messages are written in the encoding of standard output; a message that cannot be encoded raises UnicodeEncodeError at that point, the messages before have been written, and this can only be a line with the scores of a potential dialect that has a character outside the encoding. Without verbose nothing is written.", "quantifier": "all samples, methods, delimiters, encodings of standard output that have ASCII, line separators, and the commands detect, code and standardize", "why_tests_cant": "Tests capture standard output, where every character can be printed; whether a message fails depends on the candidates that the sample gives and on the encoding.", "anchors": ["clevercsv/consistency.py:90-179", "clevercsv/detect.py:64-127", "clevercsv/normal_form.py:33-102", "clevercsv/wrappers.py:350-401"]}
{"id": "C130", "title": "DictReader warns when columns are dropped", "statement": "A call of next on a DictReader warns just if the field names are not distinct, and the dictionary it returns has fewer items than the row has columns just if it warned. The value of a key is that of its last column. The warnings do not change what is read. With warnings turned into errors a reader with repeated names never returns a dictionary and does not read beyond the header, and a reader with distinct names is not affected.", "quantifier": "all sources, dialects, field names, restkeys, field size limits, and numbers of calls", "why_tests_cant": "Tests look at a few headers; that columns are never lost silently is a statement about all headers, rows and states of the reader.", "anchors": ["clevercsv/dict_read_write.py:66-91", "clevercsv/dict_read_write.py:97-114"]}
{"id": "C131", "title": "The exit status of the process tells what happened", "statement": "Without a usable wilderness package the process ends with status 1 and has done nothing. Otherwise the status is that of the command, 0, 1 or 2, or 1 after an exception. The view command gives the table that was read to tabview exactly once and reports status 0 just if the table was shown; without a usable tabview package it raises an exception; if no dialect is found it writes one line on standard error and the status is 1.", "quantifier": "all hosts, sets of installed packages and versions, files, arguments, and failures of the system", "why_tests_cant": "Tests run with the packages of one environment on one platform and call the command objects instead of the process; that no combination reports success without showing anything needs a proof.", "anchors": ["clevercsv/__main__.py:14-21", "clevercsv/console/__init__.py", "clevercsv/console/commands/view.py:55-95", "clevercsv/_optional.py:41-104"]}
{"id": "C132", "title": "Failures are explained on standard error", "statement": "A command that returns the exit code 1 has written exactly one line to standard error, which names the reason; a command that returns another code or raises an exception has written none. Wrong numbers of outputs and encodings are refused with their own message before any file is touched. The messages change neither the results nor the files nor standard output.", "quantifier": "all files, arguments, failures of the system, and consoles", "why_tests_cant": "Tests check a few messages; that no path through the commands fails silently, or writes a message and succeeds, needs a proof over all of them.", "anchors": ["clevercsv/console/commands/standardize.py:115-198", "clevercsv/console/commands/detect.py:103-123", "clevercsv/console/commands/code.py:60-78", "clevercsv/console/commands/explore.py:62-98"]}
