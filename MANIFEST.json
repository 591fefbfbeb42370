{
 "claims": [
  {
   "property": "C01",
   "status": "proved",
   "theorems": [
    "Nd.Props.C01_file_read_exactly",
    "Nd.Props.C01_alignment",
    "Nd.Props.C01_mock",
    "Nd.Props.C01_mock_read"
   ],
   "note": "StreamBuf/RawStream under every read() schedule and every client. Also the stream that the unit tests of the program read from (MockSource), for every sequence of random numbers."
  },
  {
   "property": "C02",
   "status": "proved",
   "theorems": [
    "Nd.Props.C02_cat_concatenates",
    "Nd.Props.C02_cat_any_sources"
   ],
   "note": "CatStream over raw inputs and over arbitrary protocol-respecting sources."
  },
  {
   "property": "C03",
   "status": "proved",
   "theorems": [
    "Nd.Props.C03_zip_interleaves",
    "Nd.Props.C03_zip_any_sources"
   ],
   "note": "ZipStream over raw inputs and arbitrary sources; inputs are finite and shorter than 2^64 bytes."
  },
  {
   "property": "C04",
   "status": "partial",
   "theorems": [
    "Nd.Props.C04_pad_exact",
    "Nd.Props.C04_pad_params",
    "Nd.Props.C04_clip_stream",
    "Nd.Props.C04_from_raw_partial",
    "Nd.Props.C04_from_raw_counterexample"
   ],
   "note": "--pad is proved; for seek/range parameters (not reachable from the command line) from_raw is wrong when head padding remains in front of a limited range, shown by the counterexample."
  },
  {
   "property": "C05",
   "status": "proved",
   "theorems": [
    "Nd.Props.C05_cut_union",
    "Nd.Props.C05_new_ok",
    "Nd.Props.C05_overflow_check_counterexample"
   ],
   "note": "CutStream over every protocol-respecting stream; ranges are given after expression parsing (C18). Builds with overflow checks abort on E-anchored start with end 0, shown separately."
  },
  {
   "property": "C06",
   "status": "proved",
   "theorems": [
    "Nd.Props.C06_hex_input",
    "Nd.Props.C06_rejects_overlap",
    "Nd.Props.C06_gapless",
    "Nd.Props.C06_open",
    "Nd.Props.C06_place_record",
    "Nd.Props.C06_place_gaps",
    "Nd.Props.C06_dev_zero",
    "Nd.Props.C06_first_line_panics"
   ],
   "note": "TextStream and GaplessTextStream over every record source; a malformed first line aborts the program, shown separately."
  },
  {
   "property": "C07",
   "status": "proved",
   "theorems": [
    "Nd.Props.C07_patch",
    "Nd.Props.C07_rejects_overlap",
    "Nd.Props.C07_ordered_ok",
    "Nd.Props.C07_overlap_not_ok",
    "Nd.Props.C07_single",
    "Nd.Props.C07_same_length",
    "Nd.Props.C07_prefix_kept",
    "Nd.Props.C07_append_counterexample",
    "Nd.Props.C07_overlap_beyond_end_counterexample"
   ],
   "note": "PatchStream over every stream and record source. Records at or after the end of the stream are dropped without notice (counterexamples), which the statement's specification makes explicit."
  },
  {
   "property": "C08",
   "status": "proved",
   "theorems": [
    "Nd.Props.C08_copy_exact",
    "Nd.Props.C08_copy_all"
   ],
   "note": "consume_stream on every stream that respects the protocol."
  },
  {
   "property": "C09",
   "status": "partial",
   "theorems": [
    "Nd.Props.C09_crash_partial",
    "Nd.Props.C09_old_or_new_partial",
    "Nd.Props.C09_end_partial",
    "Nd.Props.C09_turn",
    "Nd.Props.C09_new_content",
    "Nd.Props.C09_tmp_input_counterexample",
    "Nd.Props.C09_tmp_lost_counterexample",
    "Nd.Props.C09_output_counterexample"
   ],
   "note": "For every list of inputs none of which is called like the temporary file of another one, every pipeline outcome (which may depend on the files found on the disk when it comes to an input) and every prefix of the file system operations. Missing: files called NAME.tmp, which the code destroys (counterexamples), --inplace with --output (accepted, the input becomes empty: counterexample), links, concurrent changes."
  },
  {
   "property": "C10",
   "status": "proved",
   "theorems": [
    "Nd.Props.C10_hex_round_trip",
    "Nd.Props.C10_line",
    "Nd.Props.C10_mosaic",
    "Nd.Props.C10_offset_truncated_counterexample"
   ],
   "note": "Every slice with fewer than 2^56 bytes; the offset is printed modulo 2^48. C10_line is about the line itself, C10_hex_round_trip about parsing the file, for lines shorter than (block size - 1777)/8."
  },
  {
   "property": "C11",
   "status": "proved",
   "theorems": [
    "Nd.Props.C11_dump_restores",
    "Nd.Props.C11_dump_patches",
    "Nd.Props.C11_word_size_counterexample"
   ],
   "note": "Formatter -> file -> RawStream -> TextParser -> TextStream / PatchStream. With --cat N the text itself is padded before parsing, so dumps are unreadable unless their size is a multiple of N (counterexample)."
  },
  {
   "property": "C12",
   "status": "proved",
   "theorems": [
    "Nd.Props.C12_accepts_exactly",
    "Nd.Props.C12_documented_accepted",
    "Nd.Props.C12_short_arrays",
    "Nd.Props.C12_leniency",
    "Nd.Props.C12_lenient_counterexample"
   ],
   "note": "Exact characterisation of the accepted lines; the deviations from the documentation are listed by the counterexample."
  },
  {
   "property": "C13",
   "status": "proved",
   "theorems": [
    "Nd.Props.C13_any_chunking",
    "Nd.Props.C13_chunking_irrelevant",
    "Nd.Props.C13_split_column",
    "Nd.Props.C13_continued_line",
    "Nd.Props.C13_long_line_counterexample"
   ],
   "note": "For lines shorter than (block size - 1777)/8, i.e. 261921 characters; beyond that the code loses bytes at chunk boundaries (counterexample with a small block)."
  },
  {
   "property": "C14",
   "status": "proved",
   "theorems": [
    "Nd.Props.C14_dec_round_trip"
   ],
   "note": "Offsets and lengths below 2^64."
  },
  {
   "property": "C15",
   "status": "partial",
   "theorems": [
    "Nd.Props.C15_value_partial",
    "Nd.Props.C15_sound",
    "Nd.Props.C15_exa_counterexample",
    "Nd.Props.C15_long_counterexample"
   ],
   "note": "parse_val accepts exactly the literals and yields digits-in-base times multiplier, for up to 32 digits (values modulo 2^64). Missing because the code does not do it: the documented suffix E (taken as a hexadecimal digit, rejected) and more than 32 digits (aborts), both shown."
  },
  {
   "property": "C16",
   "status": "partial",
   "theorems": [
    "Nd.Props.C16_value_partial",
    "Nd.Props.C16_usize_partial",
    "Nd.Props.C16_literal_partial",
    "Nd.Props.C16_precedence_counterexample",
    "Nd.Props.C16_compare_counterexample",
    "Nd.Props.C16_complement_counterexample",
    "Nd.Props.C16_bang_counterexample",
    "Nd.Props.C16_stacked_counterexample"
   ],
   "note": "For every constant expression tree, redundant parentheses and white space: tokenizer, prefix marking, shunting yard, simplifier and evaluator together return the integer value when intermediate results fit. Missing because the code does not do it: C precedences among comparison and bitwise operators, stacked unary operators, complements in a row, comparisons of values 2^63 or more apart, `!` as logical negation (all shown). The undocumented operator @ is not covered."
  },
  {
   "property": "C17",
   "status": "partial",
   "theorems": [
    "Nd.Props.C17_same_partial",
    "Nd.Props.C17_value_partial",
    "Nd.Props.C17_array_value_partial",
    "Nd.Props.C17_merge_counterexample",
    "Nd.Props.C17_array_counterexample",
    "Nd.Props.C17_rotate_counterexample",
    "Nd.Props.C17_plus_counterexample",
    "Nd.Props.C17_vanish_counterexample",
    "Nd.Props.C17_abort_counterexample"
   ],
   "note": "For every expression with plain variables of the class Tame, every white space and all values of the variables: whenever the simplifier returns, evaluating the simplified tokens gives the value of the parsed ones. The same for expressions of the class Lone: one element of an array with a literal index and no variables. Missing because the code does not do it: unary plus on compound operands, compound subtrahends or negations inside right operands of sums, common variables of the operands of products and bitwise operators, several elements of arrays or elements next to variables (some of these are changed, see the counterexamples); the simplifier aborts on others."
  },
  {
   "property": "C18",
   "status": "proved",
   "theorems": [
    "Nd.Props.C18_range",
    "Nd.Props.C18_sum",
    "Nd.Props.C18_stream",
    "Nd.Props.C18_form",
    "Nd.Props.C18_plus_counterexample",
    "Nd.Props.C18_square_counterexample"
   ],
   "note": "Every S..E text whose sides are empty, constant, or a sum of one anchor (positive) and constant expressions, with any parentheses, signs and white space: accepted, and the parsed mapper adds the signed sum to the chosen end of every slice. Expressions outside this class that the code accepts with a wrong meaning are shown separately."
  },
  {
   "property": "C19",
   "status": "partial",
   "theorems": [
    "Nd.Props.C19_width_slices_partial",
    "Nd.Props.C19_pieces",
    "Nd.Props.width_delivers",
    "Nd.Props.wide_delivers",
    "Nd.Props.C19_tiling",
    "Nd.Props.C19_wide_start_counterexample",
    "Nd.Props.C19_chunking_counterexample",
    "Nd.Props.C19_many_clipped_counterexample",
    "Nd.Props.C19_zero_width_counterexample"
   ],
   "note": "Proved for ranges S..E with E >= 1 (relative to the unit), at most 15 slices clipped at the start of the stream and a first slice that ends in the first block, or begins in the first two units, or is not longer than two units; apart from that of any size, in particular --width N for every N > 0 (C19_pieces). Outside of that the code is wrong: with E < 1 the slices depend on the chunking, with more clipped slices consume() underflows, with a first slice far from the start that is longer than a block the first fill aborts, with N = 0 the setup loops (counterexamples)."
  },
  {
   "property": "C20",
   "status": "proved",
   "theorems": [
    "Nd.Props.C20_slice",
    "Nd.Props.C20_file",
    "Nd.Props.C20_new_ok",
    "Nd.Props.C20_slices_unique",
    "Nd.Props.C20_same_start_counterexample",
    "Nd.Props.C20_overflow_check_counterexample"
   ],
   "note": "RangeSlicer over every byte stream shorter than 2^64-1, every list of ranges and every consume sequence. The printed output is proved when the start-anchored ranges begin at different places; otherwise the drain miscounts retained slices and aborts (counterexample). Debug builds abort on ranges like e-1..0."
  },
  {
   "property": "C21",
   "status": "partial",
   "theorems": [
    "Nd.Props.C21_occurrences_meaning",
    "Nd.Props.C21_array",
    "Nd.Props.C21_too_long",
    "Nd.Props.C21_find_partial",
    "Nd.Props.C21_file_partial",
    "Nd.Props.C21_overlapping_partial",
    "Nd.Props.C21_pipelines_partial",
    "Nd.Props.C21_chunking_counterexample"
   ],
   "note": "For arrays that do not overlap themselves: every client of every sufficiently lending byte stream, every file, schedule and chunking, sees exactly all occurrences; the stages behind --find are composed as well. For every non-empty array: everything shown is an occurrence, in ascending order, every occurrence overlaps one that is shown, and the end is reached. Missing because the code does not do it: the choice among overlapping occurrences depends on the chunking (counterexample)."
  },
  {
   "property": "C22",
   "status": "proved",
   "theorems": [
    "Nd.Props.C22_merge_fold",
    "Nd.Props.C22_fold_meaning",
    "Nd.Props.C22_width_merge",
    "Nd.Props.C22_odd_client_counterexample",
    "Nd.Props.C22_wide_counterexample"
   ],
   "note": "MergeStream over every stream of sorted slices that keeps lent slices lent (kind `steady`, `honest`, `early`), for every consume sequence the source tolerates; instantiated for --width --merge on files, including the printed output. With clients that stop in the middle of a slice the fixed-width source takes back slices and --merge duplicates them (counterexample; nd's drains do not do that). If the slices of --width are further apart than a block, --merge loses slices (counterexample), because the source is not `steady` then."
  },
  {
   "property": "C23",
   "status": "partial",
   "theorems": [
    "Nd.Props.C23_invert_partial",
    "Nd.Props.C23_gaps_meaning",
    "Nd.Props.C23_width_invert_partial",
    "Nd.Props.C23_unread_counterexample",
    "Nd.Props.C23_early_end_counterexample"
   ],
   "note": "BridgeStream over every slice stream that lends all bytes up to the end and keeps what it lends, for every list of ranges whose images do not end behind the gap they come from (S..e-y) and are sorted; instantiated for --width --invert on files. Outside of that the code shows unread bytes or loses gaps (counterexamples)."
  },
  {
   "property": "C24",
   "status": "partial",
   "theorems": [
    "Nd.Props.C24_extend_partial",
    "Nd.Props.C24_width_extend_partial",
    "Nd.Props.C24_unread_counterexample",
    "Nd.Props.C24_early_end_counterexample"
   ],
   "note": "ExtendStream over every slice stream that lends all bytes up to the end and keeps what it lends, for every list of ranges whose images do not end behind their slice and are sorted; instantiated for --width --extend on files. Outside of that the code shows unread bytes or clips at the wrong place (counterexamples)."
  },
  {
   "property": "C25",
   "status": "partial",
   "theorems": [
    "Nd.Props.C25_new_ok",
    "Nd.Props.C25_lines_partial",
    "Nd.Props.C25_disjoint_partial",
    "Nd.Props.C25_width_from_end_partial",
    "Nd.Props.C25_width",
    "Nd.Props.C25_end_ordered",
    "Nd.Props.C25_overlap_counterexample",
    "Nd.Props.C25_duplicate_counterexample"
   ],
   "note": "Every range list is accepted. With at least one range end counted from the last slice: over every strictly sorted slice stream that lends all bytes, every client sees exactly the slices whose index lies in a range. For all ranges: over disjoint slices (every --width N file) the drains print exactly those slices. At the end of any source, what is shown is in order and without duplicates. Missing because the code does not do it: overlapping slices with ranges counted from the start only (the program can abort), equal slices (merged at the end)."
  },
  {
   "property": "C26",
   "status": "partial",
   "theorems": [
    "Nd.Props.C26_regex_partial",
    "Nd.Props.C26_overlapping_partial",
    "Nd.Props.C26_pipelines_partial",
    "Nd.Props.C26_files_partial",
    "Nd.Props.C26_sound_partial",
    "Nd.Props.C26_program_partial",
    "Nd.Props.C26_block_counterexample"
   ],
   "note": "For every searcher that finds parts of a string from left to right, every slice stream that reports the end with its first fill, and every client: exactly the matches in the slices are seen (overlapping slices: the drains, matches not empty). Files that are together shorter than the block size (2 MiB) are such streams for all read schedules. Missing because the code does not do it: longer inputs; slices retained at the end of a block are never searched (counterexample). For adjacent slices of files of any length the drains (and the program) print exactly the matches in some of the slices, in order, among them all slices in the first eighth of a block. The regex crate is a parameter."
  },
  {
   "property": "C27",
   "status": "partial",
   "theorems": [
    "Nd.Props.C27_walk_partial",
    "Nd.Props.C27_lens_meaning",
    "Nd.Props.C27_lengths_partial",
    "Nd.Props.C27_text_partial",
    "Nd.Props.C27_small_text_partial",
    "Nd.Props.C27_file_partial",
    "Nd.Props.C27_small_partial",
    "Nd.Props.C27_length_byte",
    "Nd.Props.C27_head_tail",
    "Nd.Props.C27_clipped_counterexample",
    "Nd.Props.C27_output_counterexample",
    "Nd.Props.C27_short_reads_counterexample",
    "Nd.Props.C27_full_reads"
   ],
   "note": "For every list of expressions and every content that divides into groups of slices whose lengths are their positive values (elements being signed little-endian numbers; the values are those of the expressions as written, for expressions of the class Lone): every client sees exactly these slices and the drain prints them, over every stream that lends H more bytes with every call, H bounding how far behind the group start the expressions look. Single files of any size when every read() returns at least H bytes (H = 1: all schedules; two closed instances), several files together shorter than the block size for all schedules and H. Missing because the code does not do it: short reads within a length (abort), a last slice that overhangs the end (dropped; the program never ends with --output)."
  },
  {
   "property": "C28",
   "status": "partial",
   "theorems": [
    "Nd.Props.C28_guide_partial",
    "Nd.Props.C28_file_partial",
    "Nd.Props.C28_long_counterexample",
    "Nd.Props.C28_abort_counterexample",
    "Nd.Props.C28_overhang_counterexample",
    "Nd.Props.C28_unsorted_counterexample"
   ],
   "note": "For every guide whose records are strictly sorted, not empty, end within the stream and are not longer than an eighth of the block size: over every stream that lends what is asked for, every file, guide text, read schedule and block size, the drain prints exactly the slices of the records. Missing because the code does not do it: longer records (wrong bytes or an abort when the input comes in small pieces), records that end behind the end (dropped on the standard output). A guide that is not sorted can abort the program (counterexample)."
  },
  {
   "property": "C29",
   "status": "partial",
   "theorems": [
    "Nd.Props.C29_prints_every_slice_partial",
    "Nd.Props.C29_width_partial",
    "Nd.Props.C29_columns_partial",
    "Nd.Props.C29_retained_counterexample",
    "Nd.Props.C29_full_reads_counterexample",
    "Nd.Props.C29_wide_clipped_counterexample"
   ],
   "note": "Proved for slice streams that consume every slice they have lent (kind `exact`), e.g. --width with slices of any size that are at least as long as their distance (if some are clipped at the start: not longer than about half a block, else slices are skipped, counterexample). Slices with gaps: proved for every file if the reads are never short and the distance divides the block. Otherwise streams retain slices, and there the code is wrong (src_consumed counts retained slices twice): counterexamples."
  },
  {
   "property": "C30",
   "status": "partial",
   "theorems": [
    "Nd.Props.C30_template_partial",
    "Nd.Props.C30_names_partial",
    "Nd.Props.C30_output_partial",
    "Nd.Props.C30_plain_name",
    "Nd.Props.C30_plain_file_partial",
    "Nd.Props.C30_prints_nothing",
    "Nd.Props.C30_not_truncated_counterexample",
    "Nd.Props.C30_numbers_counterexample",
    "Nd.Props.C30_dropped_counterexample",
    "Nd.Props.C30_dropped_panics_counterexample"
   ],
   "note": "Proved for slice streams of kind `exact`: for every template built from text and placeholders {EXPRESSION}, {(EXPRESSION):FORMAT}, the names are the documented ones and the files hold exactly their slices. The formatting of one number (crate num_runtime_fmt) is a parameter. Expressions are limited as in C17. A plain output file is not truncated by the code, and text between a placeholder's expression and its format is ignored or panics: counterexamples."
  },
  {
   "property": "C31",
   "status": "partial",
   "theorems": [
    "Nd.Props.C31_patient_partial",
    "Nd.Props.C31_thread_ends",
    "Nd.Props.C31_reaches",
    "Nd.Props.C31_width_partial",
    "Nd.Props.C31_pipes_partial",
    "Nd.Props.C31_reads_all",
    "Nd.Props.C31_resumes",
    "Nd.Props.C31_early_end",
    "Nd.Props.C31_race_counterexample",
    "Nd.Props.C31_ahead_counterexample",
    "Nd.Props.C31_cut_off_counterexample",
    "Nd.Props.C31_repeated_counterexample",
    "Nd.Props.C31_failure_ignored_counterexample",
    "Nd.Props.C31_deadlock_counterexample",
    "Nd.Props.C31_out_format_counterexample"
   ],
   "note": "For commands that read all of their input before they print: in every reachable state of the two-thread system in which the main thread has begun to patch, the slicing thread has ended, the command has received every slice once, and the output is the stream patched with the command's records (any chunking), unless reading failed. Instantiated for --width N (end to end, with the parser) and available for --find. Missing because the code does not do it: commands that print or close their output earlier (the shared file position and the early end of the temporary file lose bytes), slicers that stop early, retained slices, failures of the slicing thread. C31_pipes_partial: with pipes of any capacity and the command as a process, the system cannot get stuck and ends after a bounded number of steps, if the main thread reads what the command prints to its end, which it does if no record lies behind the end of the stream (C31_reads_all); otherwise there can be a deadlock (counterexample)."
  },
  {
   "property": "C32",
   "status": "proved",
   "theorems": [
    "Nd.Props.C32_accepts",
    "Nd.Props.C32_order",
    "Nd.Props.C32_spawn",
    "Nd.Props.C32_formats"
   ],
   "note": "from_args for every option set: accepted iff the combination makes sense; the nodes are exactly those asked for (plus the defaults), strictly ordered by the documented rank; spawn_stream is the composition of the constructors in that order and reaches neither internal error nor cache.unwrap() on None; the default formats are the documented ones. The constructors of the streams are parameters."
  },
  {
   "property": "C33",
   "status": "proved",
   "theorems": [
    "Nd.Props.C33_hexdump",
    "Nd.Props.C33_restored"
   ],
   "note": "RawStream -> CatStream -> ConstSlicer(16) -> ScatterDrain -> consume_stream, for every set of files shorter than 2^48 bytes in total and every read() schedule; block size at least 2176 (nd uses 2 MiB)."
  },
  {
   "property": "C34",
   "status": "proved",
   "theorems": [
    "Nd.Props.C34_number_exact",
    "Nd.Props.C34_builds_agree"
   ],
   "note": "Lane by lane model of the AVX2 and NEON code, equal to the portable parser on every text of at least 16 bytes."
  },
  {
   "property": "C35",
   "status": "proved",
   "theorems": [
    "Nd.Props.C35_documented_alike",
    "Nd.Props.C35_vectorised_alike",
    "Nd.Props.C35_leniency",
    "Nd.Props.C35_same_bytes_partial",
    "Nd.Props.C35_array_in_bounds",
    "Nd.Props.C35_number_in_bounds",
    "Nd.Props.C35_builds_counterexample"
   ],
   "note": "Documented lines give the same records in every build; the two vectorised builds agree on every text; arrays of at most sixteen columns that two builds accept are read as the same bytes. The portable and vectorised builds accept different undocumented texts (counterexample). Every call of the parsers gets more bytes than it loads. C10 to C14, C21, C28, C31, C33 hold for every build."
  },
  {
   "property": "C36",
   "status": "proved",
   "theorems": [
    "Nd.Props.C36_stores"
   ],
   "note": "Slices shorter than 2^56 bytes at offsets below 2^64, with 15 bytes behind them for the vectorised builds (the margin of every stream is 256). C10 and C14 describe the lines, so they hold for every build."
  },
  {
   "property": "C37",
   "status": "partial",
   "theorems": [
    "Nd.Props.C37_run_partial",
    "Nd.Props.C37_success_partial",
    "Nd.Props.C37_pieces",
    "Nd.Props.C37_columns_partial",
    "Nd.Props.C37_slices_unique",
    "Nd.Props.C37_slices_exist",
    "Nd.Props.C37_roundtrip_partial",
    "Nd.Props.C37_gaps_counterexample",
    "Nd.Props.C37_slice_invert_counterexample",
    "Nd.Props.C37_text_word_counterexample"
   ],
   "note": "End to end over the model of the whole program, which is itself checked against the commands recorded in README.md and test.md. For streams of any length (below 2^48): all listed options but --regex, --guide with records as in C28 and --walk on a single unchanged file as in C27, both without a later change of their slices, the others in any combination, for slices that are contiguous or overlapping with --width (at least the pitch long; of any size if no later stage changes them, else small compared to the block), ranges with distinct starts, arrays that do not overlap themselves; --invert s+x..e-y, or one range of --extend that begins at or a little before the slice and ends in it, after --find; --lines directly after --width N, or after --find with slices that stay apart and are not merged. Slices with gaps of a regular file of any length, alone, at a distance that divides the block (for other distances the code is wrong: counterexample). For streams that are shorter than a block: all listed options in any combination whose slices are in order where the next stage needs it, except that --invert and --extend do not follow --slice (the code is wrong there: counterexample), the array of --find does not overlap itself and the expressions of --walk are those of C27. Text input whose length is a multiple of the word size of --cat N or --zip N (otherwise the code fails: counterexample); no overflow checks. Missing here: --inplace (C40), --output (C41), --patch-back (C42), and the calls for which the code is wrong (counterexamples of the other properties)."
  },
  {
   "property": "C38",
   "status": "partial",
   "theorems": [
    "Nd.Props.C38_documented",
    "Nd.Props.C38_read",
    "Nd.Props.C38_writable",
    "Nd.Props.C38_panic_counterexample",
    "Nd.Props.C38_panic_input_counterexample",
    "Nd.Props.C38_empty_counterexample",
    "Nd.Props.C38_nnx_counterexample",
    "Nd.Props.C38_columns_counterexample"
   ],
   "note": "The documented signatures select the documented formats; an accepted --out-format can be written if and only if it is one of fourteen listed signatures. The claim fails for the others: the code accepts them and panics."
  },
  {
   "property": "C39",
   "status": "partial",
   "theorems": [
    "Nd.Props.C39_stdin_partial",
    "Nd.Props.C39_inplace",
    "Nd.Props.C39_stdin_counterexample"
   ],
   "note": "Holds for calls with input files; fails without (counterexample). With --inplace the standard input is never accepted."
  },
  {
   "property": "C40",
   "status": "partial",
   "theorems": [
    "Nd.Props.C40_inplace_partial",
    "Nd.Props.C40_columns_partial",
    "Nd.Props.C40_stdin_counterexample",
    "Nd.Props.C40_patch_input_counterexample"
   ],
   "note": "The commands of C37 with --inplace, with its limits on options and sizes; C40_columns_partial: --width with gaps whose distance divides the block, on files of any length whose reads are full. Excluded, as the code is wrong there: input files whose temporary names collide (C09), --patch or --guide reading the standard input with several inputs, or naming one of the files that are being replaced or a temporary file (counterexamples)."
  },
  {
   "property": "C41",
   "status": "partial",
   "theorems": [
    "Nd.Props.C41_file_partial",
    "Nd.Props.C41_template_partial",
    "Nd.Props.C41_columns_partial",
    "Nd.Props.C41_columns_template_partial",
    "Nd.Props.C41_lines_counterexample",
    "Nd.Props.C41_numbers_counterexample"
   ],
   "note": "The commands of C37 with --output, with its limits on options and sizes; on streams that are shorter than a block without --lines (the code can abort there: counterexample), and --regex not behind empty slices. Slices with gaps on files of any length as in C37. Slices that reach over a block can get the number of another one (counterexample). Templates with the expressions of C17. A plain file is not truncated (C30), so its old end stays. The model keeps the files that are read apart from those that are written."
  },
  {
   "property": "C42",
   "status": "partial",
   "theorems": [
    "Nd.Props.C42_run_partial",
    "Nd.Props.C42_threads_partial",
    "Nd.Props.C42_unchanged_partial",
    "Nd.Props.C42_inplace_partial",
    "Nd.Props.C42_inplace_threads_partial",
    "Nd.Props.C42_slice_counterexample",
    "Nd.Props.C42_lines_counterexample",
    "Nd.Props.C42_failure_counterexample",
    "Nd.Props.C42_repeated_counterexample"
   ],
   "note": "The commands of C37 with --patch-back, with its limits on options and sizes, without --slice and --lines (the output is cut off there: counterexamples), and without --width with gaps on files longer than a block (a slice can be sent twice: counterexample), if no read fails (a failure in the thread is ignored: counterexample), with a command that reads all of its input before it writes; with --inplace, --patch and --guide as in C40. C42_threads_partial, C42_unchanged_partial and C42_inplace_threads_partial cover every interleaving of the threads (with --inplace, another one for each file); the others the one in which the thread ends before the patching starts. C31 has the counterexamples for other commands."
  },
  {
   "property": "C43",
   "status": "partial",
   "theorems": [
    "Nd.Props.C43_patch_partial",
    "Nd.Props.C43_unchanged_partial",
    "Nd.Props.C43_dump_is_patch",
    "Nd.Props.C43_guide_partial",
    "Nd.Props.C43_unzip_partial",
    "Nd.Props.C43_columns_partial"
   ],
   "note": "The calls of C37 with its limits, followed by a call with --patch, --guide or --width. The lines of the text that is read must be shorter than about an eighth of the block (C13, C28: the code fails on longer ones). The way back from --zip on streams shorter than the block, or on regular files of any length if the bytes of one row divide the block: the slices leave gaps, which the code gets wrong in general (C29)."
  },
  {
   "property": "C44",
   "status": "partial",
   "theorems": [
    "Nd.Props.C44_reserve",
    "Nd.Props.C44_gather",
    "Nd.Props.C44_zip_in_bounds",
    "Nd.Props.C44_zip_interleaves",
    "Nd.Props.C44_array_stores",
    "Nd.Props.C44_lines_in_bounds",
    "Nd.Props.C44_append",
    "Nd.Props.C44_message_partial",
    "Nd.Props.C44_ascii",
    "Nd.Props.C44_utf8_counterexample"
   ],
   "note": "All but the last item: the part of a line that is printed in a message is valid text only if the first 32 bytes of the line are UTF-8; the code does not check this, and it can fail even for a line that is UTF-8. The stores of the formatters are C36. Buffers longer than 2^63 bytes are excluded."
  },
  {
   "property": "C45",
   "status": "partial",
   "theorems": [
    "Nd.Props.C45_same_partial",
    "Nd.Props.C45_equal_partial",
    "Nd.Props.C45_file_partial",
    "Nd.Props.C45_template_partial",
    "Nd.Props.C45_back_partial",
    "Nd.Props.C45_inplace_partial",
    "Nd.Props.C45_reads_counterexample",
    "Nd.Props.C45_blocks_counterexample"
   ],
   "note": "The commands of C37 with its limits on both machines, the output format spelled equally (C38_columns_counterexample); with --output, --patch-back and --inplace also the limits of C41, C42 and C40 and no failing reads; the counterexamples show that outside of them (slices with gaps) the output does depend on the reads and on the size of the blocks."
  },
  {
   "property": "C46",
   "status": "partial",
   "theorems": [
    "Nd.Props.C46_file",
    "Nd.Props.C46_cat",
    "Nd.Props.C46_dump_partial",
    "Nd.Props.C46_clip",
    "Nd.Props.C46_cut_partial",
    "Nd.Props.C46_zip_counterexample",
    "Nd.Props.C46_cut_counterexample",
    "Nd.Props.C46_width_partial",
    "Nd.Props.C46_find_partial",
    "Nd.Props.C46_find_files_partial",
    "Nd.Props.C46_guide_counterexample",
    "Nd.Props.C46_guide_partial",
    "Nd.Props.C46_guide_files_partial",
    "Nd.Props.C46_regex_partial",
    "Nd.Props.C46_regex_files_partial",
    "Nd.Props.C46_slice_partial",
    "Nd.Props.C46_slice_files_partial",
    "Nd.Props.C46_lines_partial",
    "Nd.Props.C46_lines_files_partial",
    "Nd.Props.C46_find_lines_partial",
    "Nd.Props.C46_find_lines_files_partial",
    "Nd.Props.C46_merge_counterexample",
    "Nd.Props.C46_cut_files_partial",
    "Nd.Props.C46_cut_dump_partial",
    "Nd.Props.C46_gapless_partial",
    "Nd.Props.C46_text_partial",
    "Nd.Props.C46_text_dump_partial",
    "Nd.Props.C46_gapless_dump_partial",
    "Nd.Props.C46_patch_counterexample",
    "Nd.Props.C46_patch_partial",
    "Nd.Props.C46_patch_dump_partial"
   ],
   "note": "Files and --cat for every client within its limits; --pad, --seek and --range of concatenated files until the end of the range is reported; --cut of concatenated files with ranges within the head or within the tail; text inputs whose records have a limited length; --patch of concatenated files with records of a limited length that replace at least one byte each. Fails for --zip: when one input has ended the others are read into memory to their ends, and for --cut X.., which waits for the end of the file, and for --patch with many insertions at one place, and for --guide, which reads everything in front of its next record into memory, and for --merge of slices without gaps, which lends them as one slice (counterexamples). The dump of any stream that lends and holds a bounded amount (C46_width_partial), among them concatenated files, --cut, --patch and text inputs, for --width N,S..E whose slices are small compared with the block (E - S + E + N below about an eighth of it, the default among them), as in C19. The same for --find on any such stream and on concatenated files, and for --guide if the records are in order and neither long nor far apart (what the reader of the guide holds is not counted), and for --regex within adjacent slices, given a searcher with at most one match per place, and for --slice with ranges of limited length, counted from the start or within a limited tail, until the end of the slices is reported, and for --lines behind --width without gaps and behind --find, with ranges counted from the first slice, until then. Counted are the lengths of the buffers, not their capacities."
  },
  {
   "property": "C47",
   "status": "partial",
   "theorems": [
    "Nd.Props.C47_any_client",
    "Nd.Props.C47_file",
    "Nd.Props.C47_cat",
    "Nd.Props.C47_clip",
    "Nd.Props.C47_zip",
    "Nd.Props.C47_cut",
    "Nd.Props.C47_text",
    "Nd.Props.C47_gapless",
    "Nd.Props.C47_patch",
    "Nd.Props.C47_drain_partial",
    "Nd.Props.C47_merge_partial",
    "Nd.Props.C47_guide_partial",
    "Nd.Props.C47_extend_partial",
    "Nd.Props.C47_expression_partial",
    "Nd.Props.C47_body",
    "Nd.Props.C47_active",
    "Nd.Props.C47_hexdump",
    "Nd.Props.C47_walk_counterexample",
    "Nd.Props.C47_merge_counterexample",
    "Nd.Props.C47_guide_counterexample",
    "Nd.Props.C47_extend_counterexample",
    "Nd.Props.C47_expression_counterexample",
    "Nd.Props.C47_clip_strip_counterexample"
   ],
   "note": "The assertions of StreamBuf, CatStream, ClipStream, the accumulator of --merge, the slicer of --guide, --extend and the printing drain; whole program for nd FILE... Fails for --walk with a last slice beyond the end of the stream and for --merge on empty slices and for --guide with slices longer than what is lent at once, and for --extend after an --invert whose slices reach behind what has been read (counterexamples); the assertion of ClipStream about stripped bytes fails only for parameters that the command line cannot produce. Expressions with two bitwise operators in a row panic (counterexample); the others without such operators are parsed alike. Of the text parser and formatter: the array parser and the width of the length; not covered: the assertions about the lengths of slices handed to the vectorised functions (C36, C44 treat the accesses they guard) and in filluninit.rs (a buffer of less than 2^63 bytes), and arithmetic overflow checks (C05)."
  }
 ]
}