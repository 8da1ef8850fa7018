# Design

Formal model of CleverCSV (sources in /repo: `clevercsv/*.py`, `clevercsv/console/commands/*.py`, `src/*.c`) in
Lean 4, with machine-checked proofs of the properties in properties.jsonl.  MANIFEST.json says for every property
which theorems belong to it and whether it is proved in full.

## Method

* Each modelled function is a total, computable Lean definition, annotated with the file and lines it transcribes.
  Exceptions are values (`Except`, or a generator `Gen` that ends with an exception), never stuck states.
* Loops of the code that consume a list are structural recursions.  Where a loop has no such argument the model has
  fuel, and a theorem shows that the fuel suffices or that the result does not depend on it.
* Properties are stated against small specifications (`Verif/Spec`, or definitions in namespace `Clever.Spec` at the
  head of a property file) that do not use the helpers of the model.
* When the code does not satisfy a property, the negation is proved with a concrete witness (suffix `_violated`) and
  what does hold is proved as theorems with suffix `_partial`.
* Beside each theorem an `example` shows a non-trivial case that meets its hypotheses.
* Unit tests of the repository are transcribed as `example`s in `Verif/Tests`: test_abstraction.py and test_detect_pattern.py (30
  cases), test_detect_type.py, test_cparser.py (all 49 cases), test_normal_forms.py (all 41), test_reader.py, test_potential_dialects.py,
  test_consistency.py, test_write.py, test_dict.py, test_fuzzing.py, and those of test_detect.py, test_wrappers.py and test_console.py
  that need neither pandas nor other encodings.  Two larger checks are outside of the build, in `checks`: the remaining samples of
  test_detect.py (`lake env lean ../checks/detect_samples.txt`, some minutes), and the 78 cases of
  tests/test_unit/data/abstraction_testcases.json.gz with 3.6 million characters (`checks/abstraction_cases.py`).  All agree with the
  model.  They are evidence for the fidelity of the model, not proofs.
* Wrong variants of the model are built in a scratch copy; seeded/LOG.jsonl records for each which theorems fail. An entry with an
  empty `failed` is a wrong variant that no theorem notices; its note says why. Up to C124 automatic variants that survived were
  not logged; those on record that still apply to the model were built again and logged later, so the earlier part of the log shows mostly kills.
  A failing proof is counted as a kill, also where it is a helper lemma or where the claim would still be true with another proof.
  Where none failed, a theorem was added or tightened.

## Trusted base

* The Lean 4.33.0 kernel.  Every theorem depends on a subset of `propext`, `Classical.choice` and `Quot.sound`;
  AXIOMS.md lists the axioms of each theorem of the manifest.  No axioms are declared; `sorry`, `native_decide` and
  `bv_decide` are not used.
* The transcription from C and Python to Lean, and the models of library functions below.
* The statements: definitions in `Verif/Spec` and the theorem statements in `Verif/Props`.

## What is modelled

| code | model | remarks |
| --- | --- | --- |
| src/cparser.c | Model/Parser, ParserBuffer, Ownership | the state machine over lists; the same with the explicit buffer, where an access out of bounds is an error value; owned references and blocks with arbitrary failures of calls |
| clevercsv/cparser_util.py | Model/Lines, Model/Dialect, Model/FieldLimit | `parse_data`, `parse_string`, `field_size_limit` |
| clevercsv/dialect.py | Model/Dialect, DialectOrder, CsvDialect, Json, Code | validation, order, equality, conversion, (de)serialisation, `__repr__` |
| clevercsv/read.py, write.py | Model/Reader, DialectHeap, Writer | `reader` as an object with call histories; a small heap for aliasing of dialect objects |
| clevercsv/dict_read_write.py | Model/DictIO, Model/DictWarnings | `DictReader`, `DictWriter`; Model/DictIO without the warning about repeated names, Model/DictWarnings with it (every call of `warnings.warn` counted, or raised as an error) |
| src/abstraction.c, clevercsv/detect_pattern.py | Model/Abstraction, AbstractionBuffer, Ownership, PatternScore, Double | lists, explicit buffers, and owned blocks with failures of calls; scores are doubles |
| clevercsv/_regexes.py, detect_type.py | Model/Regex, Regexes, Backtrack, JsonValid, TypeDetect, TypePatterns | a backtracking matcher for the default patterns; Backtrack counts its steps (a plain engine, without the optimisations of the regex package); given patterns as functions (TypePatterns) |
| clevercsv/escape.py, potential_dialects.py | Model/Potential, PySet, Encodings | UTF-8 with the default block lists, used in the rest of the model; any encoding and block lists (Encodings) |
| clevercsv/break_ties.py | Model/BreakTies | every function |
| clevercsv/consistency.py | Model/Consistency, TypeCache | scores, skipping, the LRU cache |
| clevercsv/normal_form.py | Model/NormalForm | every function |
| clevercsv/detect.py | Model/Detect, HasHeader | `detect`, `sniff`, `has_header` |
| clevercsv/utils.py, encoding.py | Model/Scans, Potential | `sha1sum`, `get_encoding`, `pairwise` |
| clevercsv/wrappers.py | Model/World, Streams, Chunked, Wrappers, DataFrame | every function; `read_dataframe` up to the call of pandas |
| the option `verbose` everywhere | Model/Verbose | the functions of detection, the wrappers and the commands with this option; the lines printed |
| `verbose` on a standard output that lacks characters | Model/VerboseTerminal | detection, `detect_dialect`, and the commands detect, code and standardize; the exception of a message that cannot be encoded |
| clevercsv/_optional.py | Model/Optional | importing and comparing versions are parameters |
| clevercsv/__main__.py | Model/Process | exit status; the end of the interpreter is library behaviour |
| clevercsv/console/commands | Model/Standardize, View, Code, Runtime, DataFrame, CommandLine, Process, Messages | `standardize`, `view` (with `tabview` and its absence), `code`, `detect`, `explore` (up to the interactive session), and the tables of options (`register`), with the rules of `argparse` (CPython 3.8 to 3.11) for taking a command line apart as library behaviour |

## What is not modelled

* pandas, the interactive session (the console only groups lines, Model/Runtime), `console/application.py`, the options of the application (`-v`, `-V`), help, the messages of `argparse`, what the `wilderness` package does besides handing the arguments of a command to `argparse`,
  which warnings the `warnings` module prints, what library code writes to standard error.
* `cchardet` versus `chardet`.  Detection as a whole is modelled with the default patterns and with the candidates for UTF-8
  (C104 and C106 tell when other encodings and patterns make no difference).
* The widths of the C integer types for sizes (C112 bounds the sizes), the making of exception objects and of the module objects (`PyInit_*`), what the
  garbage collector does (other than calling `Parser_clear`).
* File descriptors instead of file names; links between files.

## Models of library functions and their assumptions

* Python strings are lists of `Char`, that is Unicode scalar values; lone surrogates cannot be represented.
* `io.StringIO` and text files: lines end after LF, CR or CRLF with `newline=""`, after LF otherwise.
* Character tables (`str.isdigit`, `str.isspace`, `str.lower`, Unicode categories, the classes of the `regex`
  package) are parameters (`PyEnv`); where needed a theorem assumes that they agree with ASCII (`PyEnv.Ascii`),
  that decimal digits (`\d`) satisfy `str.isdigit` (`DecimalDigits`) or that no currency sign can start a number (`CurrencyApart`).
* `regex.fullmatch` and `sub`: a backtracking matcher with the leftmost-first semantics.
* `json.loads`: a recogniser with the recursion limit and the limit on integer digits as parameters of `PyEnv`;
  `json.dumps` with `ensure_ascii` for flat dictionaries of strings, booleans and `None`, and `json.loads` with values for
  all objects; numbers, arrays and objects are kept as texts (C103 characterises the texts that are read).
* Floating point numbers (Model/Double): a double is its value, and every operation rounds to 53 binary digits, ties to
  even (`fl`).  The exponent is unbounded, and counts are converted exactly.  C102 justifies this for texts below 2^53
  characters: each result is the normal IEEE double nearest to the exact result (Spec/Double), so nothing overflows or
  becomes subnormal.  `fl_nearest` and `roundEven_even` show that `fl` is rounding to nearest even.
* `csv` from the standard library: dialect registry with `excel`, `excel-tab` and `unix`; `_csv.writer` of
  CPython >= 3.10 (which escapes the escapechar).
* Sets: the order of enumeration is a parameter (`SetOrder`), an arbitrary permutation of the distinct elements that
  depends on the sequence of insertions only.
* `sorted` and `functools.total_ordering`, `functools.lru_cache` from their documentation.
* `int`, `float`, `complex` of a string (`Casts`): only whether they raise.
* Encodings of files (`Codec`; `CharCodec` for single characters): an incremental encoder and a decoder for whole files.  A file is decoded when it is opened,
  and read as a whole; the code reads it in chunks and would meet an undecodable byte later.  Model/Streams models
  `TextIOWrapper` with `newline=""` and incremental decoders, and C123 shows that the chunks make no other difference.
  Model/Chunked models `stream_table`, `read_table`, `detect_dialect`, `write_table` and the standardize command on top of it,
  Model/ChunkedDicts `stream_dicts`, `read_dicts` and `write_dicts`, and Model/ChunkedRun the command for several files;
  C124 relates them to the simpler model in both directions, and states what is left after a failure.  UTF-8 is modelled in
  full (Model/Utf8, after CPython's codec), and shown to meet the assumptions on codecs (C125).
* The operating system (`Sys`, `World`): files are byte lists; every operation has a number and may fail
  (`fault`), a failing write after any number of bytes.  There is no output buffering: bytes arrive when
  written.  In Model/Chunked bytes arrive when the buffer is flushed, which is at arbitrary times (C124).
  `shutil.move` is `rename`, or copy and unlink between file systems.  `mkstemp` returns a name that is not in use.
* Standard output: everything can be printed, except in Model/Terminal and Model/VerboseTerminal, where it has an encoding and a line separator (C128, C129).
  Errors of the file descriptor behind it are not modelled.
* `repr` of strings: printability of characters outside ASCII is a parameter (`Printer`).  Python string literals are
  evaluated by `Spec.literal`, for literals without octal escapes, `\N{...}` and triple quotes.

## Findings

Properties that the code does not have, with the theorem that gives a witness:

* **C02** (Write/read round trip for a custom dialect): `C02_strict_violated`, `C02_newline_escapechar_violated`
* **C03** (Write/read round trip without a quote character): `C03_quote_violated`
* **C11** (No record is silently dropped): `C11_no_record_dropped_violated`
* **C12** (Strict mode accepts well-formed quoted data): `C12_strict_accepts_quoted_violated`
* **C13** (An unterminated quoted cell keeps its content): `C13_open_cell_violated`
* **C17** (The caller's dialect object is not modified): `C17_fmtparams_violated`, `C17_failed_construction_violated`
* **C20** (Conversion to a csv dialect and back): `C20_conversion_violated`
* **C21** (Abstractions are well formed): `C21_letters_violated`, `C21_no_quote_violated`
* **C24** (Pattern score range): `C24_order_violated`
* **C29** (ISO timestamps with hour-only offsets are recognised): `C29_hour_offset_violated`
* **C30** (Candidate dialects come from the data): `C30_placeholder_violated`
* **C31** (Masked-by-quotes test): `C31_violated`
* **C35** (Detection is reproducible across runs): `C35_violated`
* **C36** (Breaking a tie between two dialects does not depend on their order): `C36_violated`
* **C37** (Detection restores the field size limit): `C37_violated`
* **C38** (Detection does not fail on ordinary text): `C38_violated`
* **C41** (The detection method is honoured): `C41_violated`
* **C42** (Normal-form results agree with the parser): `C42_violated`, `C42_nested_violated`
* **C44** (Header detection looks at a bounded prefix): `C44_violated`
* **C45** (Header detection works for every newline convention): `C45_violated`, `C45_cr_violated`
* **C46** (DictReader rows correspond to reader rows): `C46_violated`
* **C47** (DictWriter writes every known field and rejects unknown ones): `C47_violated`, `C47_spelling_violated`
* **C48** (write_dicts/read_dicts round trip): `C48_violated`
* **C49** (write_table/read_table round trip): `C49_violated`
* **C50** (write_table refuses ragged tables without touching the file): `C50_violated`, `C50_iterator_violated`
* **C52** (standardize preserves the table): `C52_violated`
* **C56** (Transposing loses no cells): `C56_violated`, `C56_write_table_violated`
* **C57** (Generated code reproduces the dialect): `C57_violated`
* **C61** (Running standardize twice changes nothing the second time): `C61_violated`
* **C62** (In-place standardize leaves no temporary file behind): `C62_violated`, `C62_always_violated`
* **C63** (In-place standardize replaces the file in one step): `C63_violated`
* **C64** (standardize -o never destroys its input): `C64_always_violated`, `C64_violated`
* **C67** (view shows every file that can be read): `C67_violated`
* **C69** (The generated code opens the file): `C69_violated`
* **C72** (The plain output determines the dialect): `C72_violated`
* **C73** (The dialect of a plain table is detected): `C73_violated`
* **C77** (URLs and IPv4 addresses): `C77_ipv4_violated`
* **C78** (Numbers): `C78_sign_violated`, `C78_thousands_violated`
* **C79** (Percentages and amounts of money): `C79_percent_violated`
* **C80** (Dates): `C80_calendar_violated`, `C80_year_violated`, `C80_compact_violated`
* **C81** (Dates with times): `C81_spaces_violated`, `C81_rest_violated`
* **C83** (Rules for ties between two dialects): `C83_each_cell_violated`
* **C84** (Rules for ties among more dialects): `C84_three_violated`
* **C85** (JSON cells): `C85_words_violated`
* **C87** (Detection and the order of the rows): `C87_order_violated`
* **C88** (Optional dependencies): `C88_violated`
* **C89** (read_dataframe): `C89_column_violated`
* **C94** (A call of the parser gives back every reference and block it takes): `C94_violated`
* **C95** (Making a parser leaves the reference counts of its arguments alone): `C95_violated`
* **C97** (The C code has no undefined behaviour whatever Python code does with it): `C97_reentrant_violated`, `C97_reentrant_stops_violated`, `C97_not_a_string_violated`
* **C98** (Parsing does not depend on the newline convention): `C98_escaped_violated`, `C98_end_violated`, `C98_limit_violated`
* **C99** (Detection does not depend on the newline convention): `C99_blank_line_violated`, `C99_escaped_violated`, `C99_type_violated`
* **C108** (The option verbose): `C108_json_violated`, `C108_standardize_violated`
* **C110** (Any sequence of calls on a DictReader): `C110_line_num_violated`, `C110_header_violated`
* **C111** (Running the generated program): `C111_violated`
* **C116** (What runs in the console of the explore command): `C116_announcement_violated`
* **C128** (What the commands print reaches standard output): `C128_windows_violated`, `C128_encoding_violated`
* **C129** (The option verbose on a standard output that lacks characters): `C129_detect_violated`, `C129_standardize_violated`
* **C130** (DictReader warns when columns are dropped): `C130_violated`
* **C131** (The exit status of the process tells what happened): `C131_windows_violated`
* **C132** (Failures are explained on standard error): `C132_explore_violated`

## Status per property

* **C01** Excel write/read round trip — *proved*. C01_exact: a table is read back if and only if its cells have no NUL and fit the field size limit, the quotes counted (doubled quotes once); otherwise reading raises, the field-size error if there is no NUL. C01_any_limit: for any limit what is read back is the table or the field-size error, never something else.
* **C02** Write/read round trip for a custom dialect — *partial*. Round trip for every non-strict dialect with non-newline characters, exactly for the tables without NUL whose cells fit the field size limit with their quotes (C02_exact_partial); fails for strict=True and for a newline escapechar (witnesses). In strict mode exactly the tables in which nothing is quoted come back (C02_strict_iff_partial). C02_any_limit_partial: for any limit what is read back is the table or the field-size error.
* **C03** Write/read round trip without a quote character — *partial*. Violated when an escapechar is set and a cell contains a double quote (witness). C03_exact gives what is read for every table that the writer accepts (the escapechar is kept in front of double quotes), C03_iff exactly when that is the table; with the exact reasons for which the writer refuses a row.
* **C04** Unquoted parsing is plain splitting — *proved*. For every delimiter character (newlines included), strict or not; pieces within the field size limit, otherwise the limit error.
* **C05** Quoted parsing follows quote parity — *proved*. No assumption on delimiter/quotechar is needed. Cells of an unterminated last record follow the code (see C13).
* **C06** Parsing a text fails only for the documented reasons — *proved*. All dialects incl. escapechar and strict; field-limit errors require a text longer than the limit (exact condition without escapechar: C05_limited).
* **C07** No NUL and no oversized cell is ever returned — *proved*. Limits below zero count as zero (no character can be stored).
* **C08** Reading is incremental and terminates — *proved*. 
* **C09** Record boundaries make parsing compositional — *proved*. Record boundary is defined by what has been consumed, not by the parser state.
* **C10** return_quoted changes only the shape of cells — *proved*. 
* **C11** No record is silently dropped — *partial*. False as stated: a last line ending in the escapechar at the start of a cell is dropped. Proved for all other inputs, and exactly: a text ending in the escapechar has as many records as with an ordinary character instead, unless that character would be a cell on its own, when the last record is dropped (C11_exact).
* **C12** Strict mode accepts well-formed quoted data — *partial*. False as stated: strict mode rejects correctly closed quotes. Exactly: strict mode accepts a text iff it has no quote that is not escaped, its last record is not open at the end because of an escapechar, and non-strict mode accepts it (C12_escape_iff; C12_iff without an escapechar, C12_no_quotechar_iff without a quotechar). Strict mode only adds errors; unquoted data are not affected.
* **C13** An unterminated quoted cell keeps its content — *partial*. False as stated: a content ending in a quote loses it; with an escapechar a newline can be added. Without escapechar: the exact value (C13_exact), and the content is kept iff it does not end in a quote (C13_iff).
* **C14** C buffers are never indexed out of bounds — *proved*. Buffer-level models of Parser_iternext, base_abstraction and c_merge_with_quotechar; allocation failure is the subject of C79, sizes that of C112.
* **C15** line_num counts the rows returned — *proved*. 
* **C16** Re-iterating a reader over a stream loses nothing — *proved*. For streams; for sequences iter() restarts (also proved).
* **C17** The caller's dialect object is not modified — *partial*. Violated: format parameters are assigned to the caller's SimpleDialect. C17_iff says exactly when an existing dialect object is left alone: it is not the argument, or each of the four keys that is given already has the given value.
* **C18** Dialect ordering is a strict total order — *proved*. 
* **C19** Dialect serialization round trip — *proved*. json.dumps/json.loads; the recursion limit allows one level; surrogate code points are not representable.
* **C20** Conversion to a csv dialect and back — *partial*. Violated for every dialect: the csv dialect has no attribute strict. The three characters survive.
* **C21** Abstractions are well formed — *partial*. False as stated: NUL letters for an unclosed block with a doubled quote, and data NULs count as quotes without quotechar (witnesses). Everything else holds for all data and dialects.
* **C22** Row patterns agree with the parser — *proved*. Exact row patterns C(DC)^(n-1), for data on which the parser raises no field-limit error.
* **C23** Pattern score ignores the newline convention — *proved*. Arbitrary stretches of text, arbitrary nonempty newline runs between them, any run at the end.
* **C24** Pattern score range — *partial*. False in floating point arithmetic: with three different row patterns the score depends on the order of the rows (C24_order_violated). Proved: the score is positive, at most the double nearest to rows / distinct patterns, equal to the exact formula up to one rounding per distinct pattern and three more, and independent of the order for at most two distinct patterns or unchanged first occurrences.
* **C25** Type score range — *proved*. Range of type_score and of compute_type_score (with any cache contents), and the exact value, with division rounded to double precision.
* **C26** Type detection cache is transparent — *proved*. LRU cache with any capacity (0, bounded, unbounded), any history; functools.lru_cache is modelled from its documentation.
* **C27** Type detection ignores surrounding whitespace — *proved*. For all whitespace tables; whitespace only iff type empty.
* **C28** Time cells are exactly the valid clock times — *proved*. For all character tables that agree with ASCII; exact language of the time test and of the detected type 'time'.
* **C29** ISO timestamps with hour-only offsets are recognised — *partial*. False of the code: a time stamp with an hour-only offset never has a known type (proved for all such stamps); offsets hhmm and hh:mm are recognised.
* **C30** Candidate dialects come from the data — *partial*. C30_candidates_iff gives the exact set of candidates; no duplicates and the all-empty dialect are proved. False in one detail: the text from which delimiters are drawn has its URLs replaced by the letter U, so with U requested as delimiter a candidate delimiter need not occur in the text (C30_placeholder_violated); C30_from_text_partial proves the claim when U is not requested.
* **C31** Masked-by-quotes test — *partial*. C31_computes gives the exact meaning of the scan. As stated the property is false (C31_violated: the state 'escaped' is never left, so every quote after the first escape character is ignored); C31_no_escape_partial proves it for texts in which no quote follows an escape character.
* **C32** Skipping does not change the result — *proved*. Without skipping more type scores are computed, which may raise where skip=True does not; the theorems say that whenever skip=False returns, skip=True returns the same.
* **C33** Best dialects are the maximal ones — *proved*. Scores are double precision numbers with unbounded exponent.
* **C34** Tie breaking picks one of the tied dialects — *proved*. 
* **C35** Detection is reproducible across runs — *partial*. Violated for ties of four dialects with two different escapechars (C35_violated); proved for ties with at most one escapechar, for set orders that agree on dialects, and for ties of other sizes.
* **C36** Breaking a tie between two dialects does not depend on their order — *partial*. Violated (C36_violated): for two dialects that differ only in their non-empty escapechars the answer can depend on the order. Proved in all other cases (C36_symmetric_partial, C36_differ_partial). In the remaining case it is said exactly when the order matters: C36_iff_partial for parsed tables with a quotechar, C36_no_quotechar_partial without one, C36_failing_partial for texts that one of the dialects cannot parse.
* **C37** Detection restores the field size limit — *partial*. Violated when detection raises (C37_violated). Exactly: the limit is kept iff detection returns or the limit was already len(sample)+1 (C37_iff).
* **C38** Detection does not fail on ordinary text — *partial*. Violated for JSON-like cells (C38_violated). Exactly when it raises on NUL-free samples, with and without skipping (C38_iff); no parse error, only ValueError or RecursionError from json.loads; skipping can hide an exception but not cause one (C38_skip).
* **C39** Requested delimiters are respected — *proved*. 
* **C40** Detected dialects are valid — *proved*. For requested delimiters of at most one character, as in the property's quantifier.
* **C41** The detection method is honoured — *partial*. Violated for method='normal' (C41_violated), which falls through to the consistency measure; proved for the other methods and for the attribute method_.
* **C42** Normal-form results agree with the parser — *partial*. False of the code for rows ending with the delimiter (C42_violated) and for quotechars inside quoted cells (C42_nested_violated). Proved for dialects without quotechar, for single columns, and otherwise when no quotechar is inside a quoted cell: then the parsed rows have equal length if and only if all or none of the lines end with the delimiter (C42_iff_partial).
* **C43** Normal forms exclude escapes — *proved*. For character tables that agree with ASCII.
* **C44** Header detection looks at a bounded prefix — *partial*. has_header equals a small majority-vote specification on the rows (C44_vote_partial). The claimed bound of max_rows_to_check + 2 rows is off by one: the next row is read too, so an error in it matters (C44_violated); proved when there is no such error, and for one more row unconditionally.
* **C45** Header detection works for every newline convention — *partial*. False for samples with lone carriage returns (C45_violated). Proved for samples whose carriage returns are followed by line feeds; for dialects without quotechar and escapechar exactly which samples are rejected (C45_iff, C45_detected).
* **C46** DictReader rows correspond to reader rows — *partial*. One dictionary per non-empty row after the header, for every source, dialect, field name argument and exception. C46_exact gives the dictionary for all field names, also repeated ones, and every restkey; violated when restkey is a field name and a row has surplus cells (the cell is overwritten).
* **C47** DictWriter writes every known field and rejects unknown ones — *partial*. Known fields, 'ignore' in any letter case, the header and writerows are proved. C47_exact: keys are refused if and only if extrasaction is 'raise' in lower case and a key is unknown. Violated for every other spelling that the constructor accepts (C47_spelling_violated).
* **C48** write_dicts/read_dicts round trip — *partial*. Proved for lists and iterators, in every encoding that represents the file's characters; C48_exact_partial: the dictionaries are always written, and read back if and only if keys and values have no NUL and fit field_size_limit with their quotes; otherwise reading raises (C48_violated).
* **C49** write_table/read_table round trip — *partial*. With and without transpose; C49_exact_partial: the table is always written, and read back if and only if its strings have no NUL and fit field_size_limit with their quotes; violated for strings with a NUL character.
* **C50** write_table refuses ragged tables without touching the file — *partial*. C50_iff: write_table is sure to leave all files alone if and only if the table is an empty list, or transpose is off and the rows differ in length. Violated with transpose=True (zip truncates a ragged table, the file is overwritten) and for an iterator without rows (the file is truncated).
* **C51** Reading wrappers detect on the requested prefix and read the whole file — *proved*. Given dialect, detection on the requested prefix, rows of the whole text, NoDetectionResult exactly if detection gives None, reading equals streaming; assuming a readable, decodable file and no I/O faults.
* **C52** standardize preserves the table — *partial*. Proved for standard output, another file, and in place, with arbitrary faults: if the command reports no failure the output reads (excel) as the rows of the input under the detected dialect exactly if each cell with its quotes fits the field size limit, and otherwise its reading stops with the field-size error. C52_completes: without faults the command does finish. C52_violated: at the field size limit the added quotes make the output unreadable. Missing: nothing else; the property is false at the limit.
* **C53** standardize is idempotent — *proved*. Any successful excel reading of a standardized text is written as the same text; to stdout and in place (exit code 0, no change).
* **C54** In-place standardize is safe and its exit code truthful — *proved*. Exit codes 0, 1, 2 and every failure at every operation; across file systems a failure during the final copy leaves the complete output in the temporary file (the property excludes the final move).
* **C55** standardize argument checks and exit code — *proved*. Bad arguments; order, stopping and exit codes for every list of jobs and every outcome; exceptions are passed on.
* **C56** Transposing loses no cells — *partial*. view --transpose shows the padded transpose of every table that is not empty (C56_padded, C56_view). standardize --transpose transposes rectangular tables, and of ragged ones the columns that every row has; transposing twice gives a rectangular table back. False in general: zip drops cells of ragged tables in standardize and write_table (C56_violated, C56_write_table_violated).
* **C57** Generated code reproduces the dialect — *partial*. The literals evaluate to the components if and only if the delimiter is not the backslash (C57_iff); C57_violated gives a file where the program that is printed is not valid. C57_code and C57_command tie the line to the output of the command.
* **C58** Chunked file scans see the whole file — *proved*. sha1sum and get_encoding for every positive block size, every detector and every content; the loops end (the outcome does not depend on the fuel) and the blocks fed are unique.
* **C59** field_size_limit is a well-behaved setting — *proved*. 
* **C60** Keyword arguments override the dialect's settings — *proved*. Reader and writer keyword arguments.
* **C61** Running standardize twice changes nothing the second time — *partial*. False in general: C61_violated is a file whose second run changes the table. It holds when the second run reads the same rows (C61_same_rows_partial), in particular when it detects the excel dialect and the encoding decodes what it encodes (C61_excel_partial).
* **C62** In-place standardize leaves no temporary file behind — *partial*. False: every failure after the temporary file has been made leaves it behind (C62_always_violated, C62_violated). Without a failure no new file remains (C62_success_partial), and a failure leaves no other new file than the temporary one (C62_failure_partial).
* **C63** In-place standardize replaces the file in one step — *partial*. Holds with the temporary directory on the same file system (C63_atomic_partial). C63_violated: a failing copy between file systems leaves a damaged file; C63_damage_partial: it then has the first bytes of the new contents, and the temporary file has all of them.
* **C64** standardize -o never destroys its input — *partial*. False: whenever the output file is the input file, a run that reports no failure leaves an empty file and exit code 0 (C64_always_violated; C64_violated is a concrete case). Files that are not named as outputs are unchanged whatever happens (C64_other_files_partial).
* **C65** Lowering the field size limit never changes data — *proved*. All texts, dialects and limits.
* **C66** Cells contain only characters of the text — *proved*. All texts, dialects and limits.
* **C67** view shows every file that can be read — *partial*. C67_iff: view shows a table if and only if read_table returns one, except for an empty table with --transpose, which raises ValueError (C67_violated).
* **C68** A NUL character is always reported — *proved*. Parsing and consistency detection. A NUL in the sample makes detection by the consistency measure return no dialect: it raises or finds none.
* **C69** The generated code opens the file — *partial*. Exactly the names that stand for themselves between double quotes (C69_iff); false for others (C69_violated).
* **C70** The generated reader call reads the same rows — *proved*. For every detected dialect and every text, including the exceptions.
* **C71** The detect command reports the detected dialect — *proved*. Default format for all dialects (the literals can be read back, and the text is printable), JSON for detected ones, and the command around them.
* **C72** The plain output determines the dialect — *partial*. Exactly determines the components up to whitespace (C72_iff); false for a tab against no delimiter (C72_violated).
* **C73** The dialect of a plain table is detected — *partial*. Proved when no cell outside the last column ends in / or @; C73_violated shows that nothing is detected for cells ending in @.
* **C74** Plain tables are read back without naming the dialect — *proved*. For every writer dialect with these delimiters; C74_other_tables shows that tables that are not plain need not come back.
* **C75** Plain dictionaries are read back without naming the dialect — *proved*. For every writer dialect as in C74.
* **C76** Standardizing a plain table — *proved*. Standard output and in place, in a file system without faults.
* **C77** URLs and IPv4 addresses — *partial*. the language of the URL test and of the type url exactly; no cell ever gets the type ipv4, since the URL test comes first
* **C78** Numbers — *partial*. the language of the type number exactly; false: a sign alone is a number, and whole numbers with two or more separated thousands are not
* **C79** Percentages and amounts of money — *partial*. the languages of both types exactly; false: several percent signs are accepted
* **C80** Dates — *partial*. the language of the date test exactly, and the type for ASCII cells; false: days like 30 February are accepted, years from 3000 on are not, and dates without separators are numbers
* **C81** Dates with times — *partial*. the language of the test exactly, and the type for ASCII cells; false: dates with spaces are not accepted before a time, and any text is accepted after an offset and its sign
* **C82** E-mail addresses, paths, missing values and words — *proved*. the languages exactly; nan for ASCII cells, words in any script
* **C83** Rules for ties between two dialects — *partial*. False for the escapechar: only the first cell that differs is looked at (C83_each_cell_violated). The other rules are proved in full.
* **C84** Rules for ties among more dialects — *partial*. False for three quotechars: the tie is broken only if all three parses are equal (C84_three_violated); otherwise the documented branch is never taken. The exact behaviour is proved.
* **C85** JSON cells — *partial*. False as stated: the words NaN, Infinity and -Infinity are accepted, and objects beyond the recursion or digit limit raise. Proved: json.loads accepts exactly the grammar with these words and limits; the type is json exactly for such texts that begin with a brace; every RFC 8259 object gets json or raises.
* **C86** Cells of known type — *proved*. ASCII cells; the character tables agree with ASCII and decimal digits satisfy isdigit.
* **C87** Detection and the order of the rows — *partial*. False: rounding in the pattern score depends on the order of the rows and can break a tie (C87_order_violated). The normal forms do not depend on the order (C87_normal_partial); the consistency measure and the whole detector do not for plain texts in which no candidate delimiter gives more than two different numbers of cells per line, provided detection succeeds (C87_consistency_partial, C87_detect_partial).
* **C88** Optional dependencies — *partial*. The exact conditions are proved (C88_found, C88_none, C88_versions). False: raise_on_missing=False does not prevent ImportError for outdated versions, so an outdated cchardet makes get_encoding fail (C88_violated); otherwise a detector is chosen (C88_encoding_partial). Importing and comparing versions are parameters.
* **C89** read_dataframe — *partial*. The call of pandas.read_csv is modelled by its arguments. Proved for all arguments and failures; false in one point: for a file with a single column the dialect has an empty delimiter, which is not a valid csv dialect (C89_column_violated).
* **C90** The explore command — *proved*. The console is a parameter; the interactive session itself is not modelled.
* **C91** The dialect of a table with quoted cells is detected — *proved*. Independent of the Unicode data. Tables outside these two shapes (single rows with plain cells, empty cells beside plain ones, line breaks in cells) are decided by the consistency measure and are not covered.
* **C92** Tables with quoted cells are read back without naming the dialect — *proved*. Cells with quotes of the writer must make up a table as in C91; excel, detected dialects and QUOTE_ALL classes are instances.
* **C93** Standardizing a table with quoted cells — *proved*. With the transposition off and the whole file used for detection.
* **C94** A call of the parser gives back every reference and block it takes — *partial*. Proved for every pattern of failing calls except PyUnicode_New; C94_violated: _strstrip uses the NULL that a failing PyUnicode_New returns. C94_all_patterns: the patterns quantified over are all there are.
* **C95** Making a parser leaves the reference counts of its arguments alone — *partial*. Proved for iterable first arguments; C95_not_iterable says exactly what is lost otherwise, C95_violated: Parser(5, delimiter=',') loses a reference to the delimiter.
* **C96** The abstraction functions free what they allocate — *proved*. For string arguments; other arguments are the subject of C97.
* **C97** The C code has no undefined behaviour whatever Python code does with it — *partial*. Proved for iterators that do not call the parser they feed and for string arguments; three counterexamples (re-entrant iterator, arguments that are not strings).
* **C98** Parsing does not depend on the newline convention — *partial*. False as stated: an escapechar before a line break, or at the end of the text in quotes, and a field size limit that the longer line breaks exceed (three witnesses).  Proved for all other texts and dialects: any limit for carriage returns, a limit not below the length of the text for CRLF.
* **C99** Detection does not depend on the newline convention — *partial*. False as stated: a blank line at the end (CRLF), an escapechar before a line break, and a cell whose type depends on the line break inside it (three witnesses).  Proved for every text without these, for every method, order of sets and list of delimiters; C99_unquoted_partial has conditions on the text only.
* **C100** Dialects given by name — *proved*. For the three dialects that CPython registers; the registry is not modelled otherwise. Cells are strings.
* **C101** Parsing delivers no more than it reads — *proved*. C101_parse_string and C101_parse_string_quoted for every text, dialect and limit; C101_next_row for a parser object on any strings; C101_abstraction for the pattern abstraction.
* **C102** Scores are computed without overflow, underflow or loss of integers — *proved*. Spec/Double describes the IEEE 754 doubles and rounding to nearest even independently of fl; C102_pattern_score is an equivalence with a run of the loop in doubles, C102_type_score and C102_consistency_score for the other scores.
* **C103** Dialects are read from any JSON text of their members — *proved*. Spec/JsonText describes the texts: all JSON objects, also with numbers and nested values; C103_deserialize is an equivalence; other JSON values give TypeError, other texts ValueError (or RecursionError).
* **C104** Candidates for any encoding — *proved*. 
* **C105** Dictionaries of rows with repeated field names — *proved*. 
* **C106** Type detection with given patterns — *proved*. 
* **C107** Scores depend on the set of dialects — *proved*. Any order and multiplicity of the dialects, any history of both detectors.
* **C108** The option verbose — *partial*. Results, files and exceptions are those without the option and the lines are given exactly; the messages go to the standard output, so the output of detect --json and of standardize is mixed with them (violated).
* **C109** Parsing commutes with renaming characters — *proved*. for every map of characters that keeps NUL and the line breaks and does not merge a character of the dialect with another
* **C110** Any sequence of calls on a DictReader — *partial*. The field names are wrong after an exception in the first row and line_num counts trailing blank rows (violated); the calls, rows and line numbers are otherwise given exactly.
* **C111** Running the generated program — *partial*. Fails for a backslash as delimiter and for file names that do not stand for themselves between double quotes (violated); otherwise the program gives the rows, and the table for plain and quoted tables.
* **C112** Sizes of allocated blocks stay in proportion to the input — *proved*. Lengths in the buffer models are unbounded numbers; the bounds keep the sizes within Py_ssize_t, Py_ssize_t and size_t for inputs below 2^59 characters.
* **C113** Header detection of tables — *proved*. Plain tables end their lines in LF or CRLF; quoted tables have no carriage return other than before a line feed.
* **C114** The detect and view commands on tables — *proved*. For tables whose dialect is known to be detected (C73, C91), in a world where no operation fails.
* **C115** The option --add-runtime — *proved*. The measured time is a parameter, given by its two texts; its repr must be a JSON number (finite floats are).
* **C116** What runs in the console of the explore command — *partial*. Sources and start of the session are characterised for every console that judges sources by their text; the announcement is false for a file with a quote in its name, where the program is no Python program (C116_announcement_violated). The interpreter is given by its judgement which sources are incomplete.
* **C117** Files with a single column and files whose rows are in quotes as a whole — *proved*. normal forms 4 and 5 (single columns and rows in quotes as a whole), from detection to the commands
* **C118** The consistency measure prefers delimiters that give rows of the same length — *proved*. The type score of d is 1 and its pattern score is bounded from below; the pattern score of every dialect with two or more row patterns, or with one pattern of fewer than n cells, is bounded from above, since no dialect gives more rows than the text has nonempty lines. Scores are the correctly rounded doubles of the model (C102); n <= 2^25 and length < 2^50 keep the rounding below the differences. An example shows that the types matter: with unknown cells an inconsistent delimiter wins. With quotes: C118_quoted for texts with balanced quotes on every line, C118_quoted_tables for tables of words with a cell in quotes.
* **C119** Row patterns of texts with quotes agree with the parser — *proved*. Texts with balanced quotes, dialects with a quote character and without escape character: the patterns and the rows of the parser have the same cell counts; witnesses show that balance and the absence of escape characters are needed. Without quotes this is C22/C118.
* **C120** The patterns of the type detection do not backtrack catastrophically — *proved*. Steps of a plain backtracking engine (Model/Backtrack), whose results are those of the matcher of the model (C120_search, C120_sub); the optimisations of the regex package are not modelled.
* **C121** The normal forms accept exactly the documented files — *proved*. Exact: grammars in Spec/NormalForms, for the default delimiters in C121_detect and C121_none.
* **C122** The command line is understood as written — *proved*. Model/CommandLine has the tables of options and the rules of argparse; Spec/CommandLine says how options are written. The conversion int(...) is a parameter.
* **C123** Files are read in chunks — *proved*. Model/Streams models TextIOWrapper, IncrementalNewlineDecoder and incremental decoders of CPython, for files opened with newline=''. C123_ended characterises the lines that have ended independently of the decoder.
* **C124** Chunks and buffers make no difference — *proved*. Model/Chunked. Exit code 1 (no dialect detected) is C124_one. An unknown encoding is C124_lookup. An output path equal to the input path without -i is excluded (the file is truncated before it is read, see C52/C54).
* **C125** Files in UTF-8 — *proved*. The codec is that of CPython with the error handler strict; the specification uses String.utf8EncodeChar of the Lean library.
* **C126** Chunks and buffers make no difference for dictionaries — *proved*. Model/ChunkedDicts. A read that fails while the dialect is detected raises before any dictionary. C126_close: which exception is raised if closing fails.
* **C127** A standardize run over several files stops cleanly — *proved*. Model/ChunkedRun. What happens to the file at which the command stops is C124_failure_file and C124_failure_in_place, for the state after the files before.
* **C128** What the commands print reaches standard output — *partial*. False in general: on Windows print turns CRLF into CR CR LF, so that reading the redirected output gives an empty row after every row (C128_windows_violated), and an encoding of standard output without a character makes the command fail although an output file could be written, whatever --target-encoding says (C128_encoding_violated, C128_target). Proved: the same bytes if standard output has the encoding of the output file and LF is left alone, in both directions; whole files or nothing; complete encodings; JSON in ASCII.
* **C129** The option verbose on a standard output that lacks characters — *partial*. Violated: with standard output in ASCII detection of a sample with the candidate delimiter § succeeds, but with verbose=True it raises UnicodeEncodeError and leaves the field size limit at len(sample)+1 (C129_detect_violated), and clevercsv standardize --verbose -o fails where it works without (C129_standardize_violated). Proved for all inputs: without verbose nothing is written (C129_quiet, C129_commands_quiet), with an encoding that has all characters all is as without (C129_complete), with ASCII these are the only two outcomes and only the scores of a candidate with a character that is not ASCII can fail (C129_outcome_partial), and the same for the commands (C129_commands).
* **C130** DictReader warns when columns are dropped — *partial*. All calls of next in both modes of the warnings module, and loops over the reader. The full property is violated if restkey is one of the field names: then a cell is lost without a warning (C130_violated).
* **C131** The exit status of the process tells what happened — *partial*. Proved: the entry point, the exit codes of detect, code and standardize, and the view command with tabview. False on Windows, where view reports an error, shows nothing and ends with status 0 (C131_windows_violated); C131_view_status_partial excludes Windows. The status 2 means both wrong arguments and a file changed in place (C131_two_meanings). The explore command is not part of the statement about the codes.
* **C132** Failures are explained on standard error — *partial*. Proved for standardize, detect and code, with the exact conditions for the messages about options; C131_view_fails has the messages of view. False for explore: if the console does not accept the generated code the command returns 1 and the explanation goes to standard output (C132_explore_violated); C132_explore_partial says when it writes a line.

## Layout

* `Verif/Model/*`: transcription of the code.
* `Verif/Spec/*`: specifications.
* `Verif/Proofs/*`: helper lemmas.
* `Verif/Props/*`: property theorems with non-vacuity examples.
* `Verif/Tests/*`: unit tests of the repository run against the model.
* `MANIFEST.json`: theorems per property; `AXIOMS.md`: their axioms; `seeded/LOG.jsonl`: tests with wrong programs.
