{"id": "C01", "title": "A file is read back exactly, padded only at its end", "statement": "Whatever sizes the operating system's read() calls return, and however a consumer alternates between asking for more data and consuming part of what it was lent, the bytes obtained from one input file are exactly the file's bytes in order, followed by just enough filler bytes to make the length a multiple of the alignment N of --cat N; end-of-stream is reported exactly when everything is lent.", "quantifier": "every file content, every alignment and filler, every sequence of read() return sizes, every client sequence of fill requests and consume amounts, every block size", "why_tests_cant": "read sizes and the positions at which the internal buffer is unwound depend on the OS and on the consumer; a test fixes one schedule", "anchors": ["src/streambuf.rs: StreamBuf::{fill_buf,consume,mark_eof,as_slice}", "src/byte/raw.rs: RawStream"]}
{"id": "C02", "title": "--cat concatenates all inputs in order", "statement": "With --cat N the stream seen by the rest of the pipeline is the concatenation, in command line order, of every input padded to a multiple of N; no byte is lost, duplicated or reordered at the boundary between two inputs or at any block boundary.", "quantifier": "every list of inputs, all lengths (including empty inputs), every chunking of each input, every consumer request/consume sequence", "why_tests_cant": "the duplicated-tail cache has a path per relation between request size, chunk size and input boundary; tests only sample random ones", "anchors": ["src/byte/cat.rs: CatStream"]}
{"id": "C03", "title": "--zip interleaves inputs word by word up to the shortest", "statement": "With --zip N the stream is word 0 of input 0, word 0 of input 1, ..., word 1 of input 0, ..., where a word is N bytes, for as many whole words as the shortest (padded) input has.", "quantifier": "every non-empty list of inputs, every word size, every chunking of each input, every consumer sequence", "why_tests_cant": "inputs deliver chunks of unrelated sizes, so alignment of the gather step depends on the schedule", "anchors": ["src/byte/zip.rs: Zipper, ZipStream"]}
{"id": "C04", "title": "--pad adds exactly N filler bytes before and M after", "statement": "--pad N,M yields N filler bytes, then the stream, then M filler bytes; more generally the pad/seek/range operation pads, drops the first `seek` bytes and keeps the bytes in `range`.", "quantifier": "every stream, every N, M, seek and range, every chunking and consumer sequence", "why_tests_cant": "the padded stream is a concatenation whose parts are lent in schedule-dependent pieces; the parameter conversion has overlapping cases", "anchors": ["src/byte/clip.rs: ClipperParams::from_raw, ClipStream", "src/byte/zero.rs: ZeroStream"]}
{"id": "C05", "title": "--cut keeps exactly the union of the ranges", "statement": "--cut S..E,... yields, in order, exactly the bytes whose offset lies in at least one of the ranges (each end counted from the start or from the end of the stream), each such byte once.", "quantifier": "every stream, every list of ranges with ends anchored at the start or the end, every chunking and consumer sequence", "why_tests_cant": "end-anchored ranges are only known at end of input; which bytes must be held back depends on chunk boundaries", "anchors": ["src/byte/cut.rs: Cutter, CutStream", "src/mapper.rs: RangeMapper"]}
{"id": "C06", "title": "Hex input records are placed at their offsets", "statement": "Reading a hexdump as input (--in-format x) yields each record's bytes at the record's offset, with filler bytes in the gaps; records whose [offset, offset+length) interval starts before the previous one ended are rejected with an error.", "quantifier": "every list of records, every filler, alignment and block size, every consumer sequence", "why_tests_cant": "gap filling is done block by block and interleaved with record parsing", "anchors": ["src/byte/text.rs: TextStream, GaplessTextStream"]}
{"id": "C07", "title": "Binary patching replaces exactly the addressed intervals", "statement": "--patch FILE replaces, for every record that starts inside the stream, the bytes [offset, offset+length) of the original stream by the record's array (which may be shorter or longer), leaves all other bytes untouched and in order, and rejects records that overlap a record starting inside the stream; records that start at or after the end of the stream change nothing.", "quantifier": "every stream, every list of records (sorted or not), every chunking of the original stream, every consumer sequence", "why_tests_cant": "a record may straddle any number of chunk boundaries; tests use fixed chunks", "anchors": ["src/byte/patch.rs: PatchFeeder, PatchStream"]}
{"id": "C08", "title": "Output equals the pipeline's stream", "statement": "For every byte stream that honours the stream protocol the final copy loop writes exactly the stream's content to the output and stops; if the stream fails, what was written is a prefix of the content and the failure is reported.", "quantifier": "every protocol-respecting stream, every content, every failure point", "why_tests_cant": "termination and completeness quantify over all stream behaviours", "anchors": ["src/main.rs: consume_stream"]}
{"id": "C09", "title": "--inplace never damages the file", "statement": "During --inplace at every point (including a crash after any file system operation or an error in the pipeline) the target file holds either its complete old content or the complete new content; it holds the new content exactly when the pipeline succeeded, and other inputs are not touched.", "quantifier": "every set of files, every pipeline result, every crash point in the sequence of file system operations", "why_tests_cant": "crash points and failure points cannot be enumerated by unit tests", "anchors": ["src/main.rs: main_impl"]}
{"id": "C10", "title": "A hexdump record parses back to what was dumped", "statement": "Formatting a slice as an `offset length | array | mosaic` line and parsing that line yields the same offset (below 2^48), the same length and the same bytes, for every byte content and every column width.", "quantifier": "every offset, every byte array, every minimum width", "why_tests_cant": "the space of byte arrays and widths is infinite; the mosaic may contain any printable character including the delimiter", "anchors": ["src/text/formatter/mod.rs: format_line_hhh", "src/text/formatter/hex.rs", "src/text/parser/mod.rs: TextParser", "src/text/parser/naive.rs"]}
{"id": "C11", "title": "A hexdump of a stream restores the stream", "statement": "Dumping a stream with the default format and reading the dump with --in-format x gives the stream back; applying the dump of B as a patch to any stream A of the same length gives B (lines shorter than an eighth of the block size, offsets below 2^48).", "quantifier": "every stream, every width, every chunking", "why_tests_cant": "composition of formatter, parser, gap filler and patcher over all contents", "anchors": ["src/drain/scatter.rs", "src/text", "src/byte/text.rs", "src/byte/patch.rs"]}
{"id": "C12", "title": "Malformed records are rejected, not misread", "statement": "A header is accepted exactly if it is two numbers (hexadecimal with at most 15 digits, or decimal) separated by one space and followed by end of line or ` | `; an array is accepted exactly if it consists of two-digit hexadecimal columns separated by single spaces up to a blank column, a single stray character, the delimiter or the end of line, read in windows of 64 columns; every documented line is accepted with its documented meaning, any other text is an error and never yields bytes.", "quantifier": "every line of text", "why_tests_cant": "all malformed inputs cannot be enumerated", "anchors": ["src/text/parser/naive.rs", "src/text/parser/mod.rs: TextParser::{read_head,read_body,read_line}"]}
{"id": "C13", "title": "Record parsing does not depend on chunk boundaries", "statement": "The records obtained from a text stream are the same whatever the sizes of the chunks in which the text arrives and whatever the block size, as long as every line is shorter than (block size - 1777)/8 characters.", "quantifier": "every text, every chunking, every block size", "why_tests_cant": "block boundaries can fall at every position of a line", "anchors": ["src/text/parser/mod.rs: TextParser::{read_line,read_line_continued,read_body}"]}
{"id": "C14", "title": "Decimal headers round-trip", "statement": "A line formatted with decimal offset and length parses back to the same offset and length.", "quantifier": "every offset and length", "why_tests_cant": "unbounded numbers of digits", "anchors": ["src/text/formatter/dec.rs", "src/text/parser/naive.rs: parse_dec_single"]}
{"id": "C15", "title": "Number literals denote their documented values", "statement": "An integer literal with an optional 0b/0o/0d/0x (or leading 0 octal) prefix, underscores as separators and an optional SI or binary suffix evaluates to digits-in-base times the multiplier; digits outside the base are rejected.", "quantifier": "every literal", "why_tests_cant": "infinitely many literals", "anchors": ["src/eval.rs: parse_val"]}
{"id": "C16", "title": "Constant expressions evaluate to their mathematical value", "statement": "For every constant expression built from literals, parentheses, unary and binary operators, whose intermediate results fit the 64-bit range, evaluation returns the value of the expression tree determined by the operator precedences and associativity.", "quantifier": "every expression tree, every spacing and redundant parentheses choice of the printer", "why_tests_cant": "expression trees are unbounded", "anchors": ["src/eval.rs: tokenize, mark_prefices, sort_into_rpn, eval_rpn, apply_op"]}
{"id": "C17", "title": "Simplification does not change an expression's value", "statement": "The value of an expression with variables is the same before and after the internal simplification.", "quantifier": "every expression, every variable assignment", "why_tests_cant": "unbounded expressions and assignments", "anchors": ["src/eval.rs: simplify_rpn, canonize_rpn, Rpn::new"]}
{"id": "C18", "title": "S..E range expressions denote anchored offsets", "statement": "An S..E expression made of an optional anchor s or e plus or minus integer constants (constant expressions in the sense of C16) is accepted and maps an input interval [a,b) to [x,y) where each end is the chosen anchor of the input plus the signed sum of the constants; empty ends mean s and e.", "quantifier": "every linear expression, every interval", "why_tests_cant": "unbounded expressions", "anchors": ["src/mapper.rs: SegmentMapper, RangeMapper"]}
{"id": "C19", "title": "--width N,S..E slices the stream regularly", "statement": "Slice k is [kN,(k+1)N) mapped by S..E and clipped to the stream; for every k with kN inside the stream the non-empty slices are produced once and in order, with the right contents.", "quantifier": "every N>0, every S..E, every stream, every chunking, every consumer consume amount", "why_tests_cant": "segments are cached, recycled and re-phased depending on chunk sizes and consumed amounts", "anchors": ["src/segment/stride.rs: ConstSlicerParams::from_raw, ConstSegments, ConstSlicer"]}
{"id": "C20", "title": "--slice produces exactly the requested slices", "statement": "--slice S..E,... yields the distinct non-empty intervals obtained by evaluating each range on the stream and clipping it, sorted by (start,end), with the right contents.", "quantifier": "every stream, every list of ranges, every chunking and consume sequence", "why_tests_cant": "end-anchored ranges and pending ranges depend on chunk boundaries", "anchors": ["src/segment/range.rs"]}
{"id": "C21", "title": "--find reports the locations of the array", "statement": "Every slice reported by --find ARRAY is an occurrence of ARRAY, and the set of reported occurrences does not depend on how the input is chunked: the occurrences found by scanning from left to right without overlaps.", "quantifier": "every stream, every non-empty array, every chunking", "why_tests_cant": "matches may straddle every chunk boundary", "anchors": ["src/segment/exact.rs"]}
{"id": "C22", "title": "--merge N is the documented fold", "statement": "--merge N yields exactly the result of the documented left fold (merge when acc.end + N >= next.start) over the input slices, for every chunking.", "quantifier": "every sorted slice sequence, every N, every chunking of the slice stream that keeps lent slices lent, every consume sequence the source supports", "why_tests_cant": "an accumulator is carried over arbitrary chunk boundaries", "anchors": ["src/segment/merge.rs"]}
{"id": "C23", "title": "--invert S..E covers the gaps", "statement": "--invert s..e yields exactly the maximal intervals not covered by the input slices, in order; S..E is applied to each.", "quantifier": "every sorted slice sequence, every mapper list, every chunking", "why_tests_cant": "gaps are discovered across chunk boundaries", "anchors": ["src/segment/bridge.rs"]}
{"id": "C24", "title": "--extend maps every slice", "statement": "--extend S..E,... yields, for each input slice and each expression, the mapped and clipped non-empty interval, sorted by (start,end), with the right contents.", "quantifier": "every slice sequence, every mapper list, every chunking", "why_tests_cant": "extended slices reach over chunk boundaries", "anchors": ["src/segment/extend.rs"]}
{"id": "C25", "title": "--lines keeps slices by index", "statement": "--lines S..E,... keeps exactly the slices whose 0-origin index lies in the union of the ranges, in order.", "quantifier": "every slice sequence, every range list, every chunking", "why_tests_cant": "indices are counted across chunks with hold-back for end-anchored ranges", "anchors": ["src/segment/filter.rs"]}
{"id": "C26", "title": "--regex searches every slice", "statement": "--regex reports exactly the matches of the pattern in every slice, searched independently.", "quantifier": "every slice sequence, every matcher, every chunking", "why_tests_cant": "slices retained across chunk boundaries", "anchors": ["src/segment/regex.rs"]}
{"id": "C27", "title": "--walk cuts the stream by computed lengths", "statement": "--walk cuts the stream into consecutive slices whose lengths are the values of the expressions evaluated at the slice starts.", "quantifier": "every stream, every length function, every chunking", "why_tests_cant": "headers and chunks may straddle block boundaries", "anchors": ["src/segment/walk.rs"]}
{"id": "C28", "title": "--guide slices at the guide's records", "statement": "--guide FILE yields the slices [offset, offset+length) of the guide records in order.", "quantifier": "every stream, every sorted guide, every chunking", "why_tests_cant": "guide records may end beyond the buffered part of the stream", "anchors": ["src/segment/guided.rs"]}
{"id": "C29", "title": "Every slice is printed exactly once, in order", "statement": "The default drain prints each slice of the slice stream exactly once, in order, with its absolute offset and contents.", "quantifier": "every slice stream respecting the protocol, every chunking", "why_tests_cant": "requires all chunkings and retained slices", "anchors": ["src/drain/scatter.rs: ScatterDrain"]}
{"id": "C30", "title": "--output TEMPLATE distributes slices to files", "statement": "Each slice is written to the file named by rendering the template with the slice's offset and index; at the end each named file contains exactly its slices, in order, and nothing else.", "quantifier": "every slice list, every template, every initial file system content, every chunking", "why_tests_cant": "histories of opens, truncations and appends over all name sequences", "anchors": ["src/drain/scatter.rs", "src/template.rs"]}
{"id": "C31", "title": "--patch-back applies the command's output to the stream", "statement": "The final output of --patch-back is the stream patched with the records printed by the command, whatever the interleaving of the slicing thread and the patching thread.", "quantifier": "every interleaving of the two threads, every stream", "why_tests_cant": "thread schedules cannot be enumerated by tests", "anchors": ["src/drain/patch.rs", "src/byte/tee.rs"]}
{"id": "C32", "title": "Pipeline stages are applied in the documented order", "statement": "Whatever order the options are given, accepted option sets produce a pipeline whose stages follow the documented order, with at most one slicer, and invalid combinations are rejected.", "quantifier": "every option set", "why_tests_cant": "the option space is exponential", "anchors": ["src/pipeline.rs: Pipeline::from_args, validate"]}
{"id": "C33", "title": "Default hexdump of a file", "statement": "nd FILE prints, for every file, one line per 16 bytes with ascending offsets whose arrays concatenate to the file.", "quantifier": "every file, every read schedule", "why_tests_cant": "end-to-end over all contents and schedules", "anchors": ["src/main.rs", "src/pipeline.rs", "src/segment/stride.rs", "src/drain/scatter.rs", "src/text/formatter"]}
{"id": "C34", "title": "Number parsing is the same in every build", "statement": "parse_hex_single gives, on every text of at least 16 bytes, the same result in the portable, AVX2 and NEON builds: the value of at most fifteen hexadecimal digits followed by a space, colon or line break, and None for everything else.", "quantifier": "every text of at least 16 bytes, every build", "why_tests_cant": "256^16 inputs; the vector code handles all lanes at once with masks and carries, and each test machine runs only one build", "anchors": ["src/text/parser/x86_64.rs: parse_hex_single_avx2", "src/text/parser/aarch64.rs: parse_hex_single_neon", "src/text/parser/naive.rs: parse_hex_single_naive"]}
{"id": "C35", "title": "Text is read alike in every build", "statement": "Every text of documented lines gives the same records in the portable, AVX2 and NEON builds, and no vector load leaves the bytes lent by the stream.", "quantifier": "every text, read schedule, block size and build", "why_tests_cant": "each machine runs only one build; out-of-bounds loads usually go unnoticed; the space of texts is infinite", "anchors": ["src/text/parser/mod.rs: parse_hex_body, TextParser::read_head, TextParser::read_body", "src/text/parser/x86_64.rs: parse_hex_body_avx2", "src/text/parser/aarch64.rs: parse_hex_body_neon"]}
{"id": "C36", "title": "Formatters store the same bytes in every build, within their regions", "statement": "For slices with the stream's margin behind them, the portable, AVX2 and NEON formatters append exactly the documented lines; no vector load leaves the stream, no vector store leaves the reserved region, and nothing that was in the uninitialised region shows up.", "quantifier": "every style, offset, minimum width, stream, list of slices, previous content of the buffer memory, and build", "why_tests_cant": "each machine runs only one build; out-of-bounds stores and stale bytes depend on lengths modulo 16 and on what the allocator returned", "anchors": ["src/text/formatter/mod.rs: format_line_hhh, format_line_ddh, format_segments_hhh", "src/text/formatter/hex.rs: format_hex_single_avx2, format_hex_body_avx2, format_mosaic_avx2 and the naive and neon ones", "src/text/formatter/dec.rs"]}
{"id": "C37", "title": "A call prints the slices that its options ask for", "statement": "For the documented texts of the options --in-format, --out-format, --filler, --cat, --zip, --cut, --pad, --patch, --width, --slice, --find, --walk, --guide, --regex, --invert, --extend, --merge, --lines: the program prints exactly the slices, of the stream joined, cut, padded and patched as asked, that the slicer, the search, the inversion, the extension, the merge and the line selection denote, one documented line per slice (or their bytes), and succeeds; if a read fails it prints a prefix of that and fails. What nd prints for --width N is read back as the stream by nd -F x -f b.", "quantifier": "every option text in the documented syntax, every content of the files, every sequence of sizes returned by read(), every block size large enough for the slices, every build", "why_tests_cant": "the combinations of options, contents and chunk boundaries are infinite; the tests of the project check components with small blocks and a few recorded commands", "anchors": ["src/main.rs: main_impl, consume_stream", "src/pipeline.rs: PipelineArgs, Pipeline::from_args, Pipeline::spawn_stream", "src/eval.rs: parse_usize, parse_usize_pair", "src/text/mod.rs: InoutFormat"]}
{"id": "C38", "title": "Format signatures are rejected or usable", "statement": "A signature given to --in-format or --out-format that is accepted can be read or written; the documented ones (x, d, b, nnx) select the documented formats.", "quantifier": "every string", "why_tests_cant": "tests try the documented signatures only", "anchors": ["src/text/mod.rs: InoutFormat::from_str_with_columns, ColumnFormat::from_str", "src/text/formatter/mod.rs: TextFormatter::new", "src/text/parser/mod.rs: TextParser::new"]}
{"id": "C39", "title": "The standard input is read by at most one stream", "statement": "A call that would read the standard input more than once is rejected.", "quantifier": "every list of input files and every --patch and --guide option", "why_tests_cant": "the effect of two readers on one pipe depends on who reads first", "anchors": ["src/main.rs: Args::count_stdin, main_impl", "src/pipeline.rs: PipelineArgs::count_stdin"]}
{"id": "C40", "title": "With --inplace every file is replaced by what its options ask for", "statement": "With --inplace, each input file is replaced by the output that the documented meaning of the options assigns to its content alone: decoded with the input format, cut, patched and padded, sliced, and printed with the output format, raw bytes by default. At every moment of the run, also if it is interrupted or if a file cannot be read, each input holds its old content or this new content, and no other file but the temporary ones has changed. If every file can be read, the program succeeds, every input holds its new content, and no temporary file is left.", "quantifier": "every list of input files, every content, every combination of the listed options, every way the reads deliver the content, every moment of the run", "why_tests_cant": "the result is a function of all options and contents together, and the moments at which a run can be interrupted are not enumerable", "anchors": ["src/main.rs: main_impl", "src/pipeline.rs: Pipeline::from_args, Pipeline::spawn_stream"]}
{"id": "C41", "title": "With --output the files hold the documented slices", "statement": "With --output NAME, nothing is printed and the slices that the documented meaning of the options assigns to the inputs are written to files in the output format. A plain NAME gets all of them, in order, from its beginning; a NAME with values in braces gives every slice the file whose name is the template with the slice's offset and index filled in, and that file holds exactly the slices with its name, in order. All other files stay as they were.", "quantifier": "every input, every combination of the listed options, every template of literal text and values, every previous content of the files, every way the reads deliver the content", "why_tests_cant": "the content of a file is a function of all options, all slices and the rendered names together; a slice that is written twice, dropped or put into a wrong file depends on how the stages pass slices on", "anchors": ["src/main.rs: main_impl", "src/drain/scatter.rs: ScatterDrain::fill_buf_impl_scatter, ScatterContext::dump_segment", "src/pipeline.rs: Pipeline::spawn_stream"]}
{"id": "C42", "title": "--patch-back prints the stream patched by the command", "statement": "With --patch-back COMMAND, the command gets the slices that the documented meaning of the options assigns to the inputs, as text with offset, length and array, and nd prints the whole stream of the inputs with the spans that the command's records name replaced by their arrays; nothing outside those spans changes and nothing is lost. A command that repeats its input, with slices that do not overlap, changes nothing. With --inplace each file is replaced by its own patched stream.", "quantifier": "every input, every combination of the listed options, every command that reads its input to the end and answers with documented records, every way the reads deliver the content", "why_tests_cant": "the stream reaches the output through a temporary file that the slicing thread feeds while a patching stage reads it; the bytes that are kept back, dropped or repeated depend on the block size, the slicer and the way the reads split the content", "anchors": ["src/drain/patch.rs: PatchDrain::new, PatchDrain::fill_buf", "src/byte/tee.rs: TeeStream", "src/pipeline.rs: Pipeline::spawn_stream", "src/main.rs: main_impl"]}
{"id": "C43", "title": "What nd prints is a patch and a guide for another call", "statement": "The records printed for slices that are not empty and do not overlap, given to --patch with a file in which these spans exist, put the contents of the slices in their places and change nothing else: the stream the slices come from stays as it is, and the dump of one file turns another file of the same length into it. Given to --guide, the records select the same spans of the other file. The stream that --zip N makes of K files, printed and read back with --in-format x --width KN,IN..(I+1)N --out-format b, is file I up to the last chunk that every file has.", "quantifier": "every first call of the options of C37 with its inputs, every second file, every way the reads of either call deliver their files", "why_tests_cant": "the second call reads the text of the first one in pieces that the block size, the lengths of the lines and the reads determine, while the records it has read decide how much of the other file it may consume; a record that falls on a border in one of the two streams shows only for particular sizes", "anchors": ["README.md: Interpreting hexdump as a binary patch", "src/main.rs: main_impl", "src/pipeline.rs: Pipeline::spawn_stream", "src/byte/patch.rs: PatchStream::fill_buf", "src/segment/guided.rs: GuidedSlicer::fill_segment_buf", "src/byte/zip.rs: Zipper::fill_buf", "src/text/parser/mod.rs: TextParser", "src/text/formatter/mod.rs: TextFormatter"]}
{"id": "C44", "title": "Raw memory accesses stay within their bounds", "statement": "The code that bypasses the checks of the language keeps its obligations. --zip copies words of every input through raw pointers only within the bytes that the inputs lend and the memory that has been reserved, and all that is kept afterwards has been written, so that the output is the interleaving of the inputs whatever the memory contained. The array parsers load only bytes of the text and its margin and store within the 64 bytes reserved. A buffer is made as long as needed before it is filled. The 32 bytes of a line that are kept for error messages are lent bytes, and the part of them that is printed is valid text.", "quantifier": "every number of inputs, word size and content, every text with its margin, every build of the parsers, every previous content of the memory, every way the reads deliver the content", "why_tests_cant": "an access behind the end of a buffer, or memory that is used without having been written, usually goes unnoticed: it depends on what happens to be there", "anchors": ["src/byte/zip.rs: Zipper::gather, Zipper::fill_buf", "src/filluninit.rs: Vec::fill_uninit_with_ret", "src/text/parser/mod.rs: LineCache::append, LineCache::format, TextParser::read_body", "src/text/parser/x86_64.rs: parse_multi, parse_hex_body_avx2", "src/text/parser/aarch64.rs: parse_multi, parse_hex_body_neon"]}
{"id": "C45", "title": "What is printed depends only on what is asked for and on what the inputs contain", "statement": "The same command on inputs of the same contents prints the same bytes, whether the inputs are files or pipes, however long the pieces are in which the reads deliver them, however long the blocks of the program are, and however the values of the options are spelled. With --output and with --inplace they leave the same files, and with --patch-back they hand the same text to the command and print the same if its answers agree. If a read fails, what has been printed before is the beginning of that output.", "quantifier": "every command of C37, every two documented spellings of its options, every content of the inputs, every two ways of splitting each input into reads, every two sizes of the blocks, every two interleavings of the threads of --patch-back, every point at which a read fails", "why_tests_cant": "a test sees a file that arrives in one piece; the boundaries that matter arise from the interplay of the reads with the blocks, the slices and the text parser, and their number grows exponentially with the length of the input", "anchors": ["src/byte/raw.rs: RawStream::fill_buf", "src/byte/mod.rs: ByteStream", "src/streambuf.rs: StreamBuf::fill_buf", "src/segment/stride.rs: ConstSlicer::fill_segment_buf", "src/drain/scatter.rs: ScatterDrain::fill_buf", "src/main.rs: main_impl"]}
{"id": "C46", "title": "Inputs of any length are processed in bounded memory", "statement": "nd works on streams that do not fit into memory: a file being read, files concatenated by --cat or interleaved by --zip, texts whose lines have a limited length, ranges taken by --seek, --range and --cut, patched streams, and the slices of --width N,S..E printed from them are held in buffers whose total size has a bound that depends on the size of the blocks, the sizes of the slices, the number of columns and the number of files, but not on the lengths of the files. A client of a stream that asks for a limited amount at once and leaves a limited amount for the next time is never lent more than such a bound.", "quantifier": "every content and length of the files, every number of files, every way the reads deliver them, every client within its limits, every moment at which the final loop asks for text or has been lent some", "why_tests_cant": "a test sees one file and one allocation pattern; the buffers grow and are compacted by rules that depend on how much each stage has consumed, and a stage that leaves a little more each round shows only on inputs far longer than those of a test", "anchors": ["src/streambuf.rs: StreamBuf::fill_buf", "src/streambuf.rs: StreamBuf::consume", "src/byte/raw.rs: RawStream::fill_buf", "src/byte/cat.rs: CatStream::fill_buf", "src/segment/stride.rs: ConstSegments::consume", "src/drain/scatter.rs: ScatterDrain::fill_buf_impl_through", "src/main.rs: consume_stream", "src/byte/zip.rs: ZipStream::fill_buf", "src/byte/cut.rs: CutStream::fill_buf", "src/byte/clip.rs: ClipStream::fill_buf"]}
{"id": "C47", "title": "The assertions of the debug build hold", "statement": "The assertions that only the debug build checks (debug_assert!) never fail, so that a debug build prints what a release build prints: the buffers keep their margins and targets and never have more consumed than they hold, --cat duplicates no more than it has cached, --seek and --range have skipped everything before they lend, merged slices are not empty and in order, the slices that --guide keeps and --extend maps end within what has been read, every pair of operators in an expression has a known precedence, nothing is parsed behind the end of an array, and at the end of the stream the drain consumes everything.", "quantifier": "every closure that appends to a buffer, every sequence of calls of a client, every content of the files, every way the reads deliver them, every number of files, all parameters of the command line", "why_tests_cant": "the tests are run with the assertions on, but they see the states that a few random clients reach; a release build that violates one goes on silently with a wrong state", "anchors": ["src/streambuf.rs: StreamBuf::len", "src/streambuf.rs: StreamBuf::as_slice", "src/streambuf.rs: StreamBuf::consume", "src/byte/cat.rs: CatStream::fill_buf", "src/byte/cat.rs: CatStream::consume", "src/byte/clip.rs: ClipStream::fill_buf", "src/segment/merge.rs: Accumulator::pop", "src/segment/merge.rs: Accumulator::append", "src/segment/guided.rs: GuidedSlicer::extend_segment_buf", "src/segment/extend.rs: ExtendStream::extend_segment_buf", "src/drain/scatter.rs: ScatterDrain::fill_buf_impl_through", "src/eval.rs: latter_precedes", "src/text/parser/mod.rs: TextParser::read_body", "src/text/formatter/hex.rs: format_hex_single_avx2"]}
