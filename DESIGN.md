# Formal model of `nd` in Lean 4

## Approach

`nd` is a pipeline of pull-based streams. The two Rust traits (`ByteStream`, `SegmentStream`) become
Lean structures of step functions over an explicit state (`ByteSrc σ`, `SegSrc σ`); every component is a
function-by-function transcription of the Rust code with the same state fields, and every source of
nondeterminism (sizes returned by `read()`, thread interleavings, crash points) is an explicit parameter
that theorems quantify over.

* **Byte protocol contract** (`Verif/Spec/Stream.lean`): `Faithful S F M R`, with a relation `R s phase w rem`
  saying "state `s` still has to deliver the byte list `rem`; at most `w` more fills will not report the end".
  A component is *faithful* if fill/consume preserve the relation. Component theorems have the form "if the
  sources are faithful to contents c1..cn then the component is faithful to spec(c1..cn)", which is
  chunk-independence by construction: chunk sizes never appear in the spec. `Reads` restates the contract in
  terms of what an arbitrary client observes (safety for every sequence of calls, liveness for every client
  that keeps consuming); every property theorem about a stream ends in `Reads`.
* **Minimum lending** (`Verif/Proof/Ample.lean`): components that rely on being lent a minimum amount before
  the end (stride slicer, line reader) take a `ServesAmply`/roomy source; files are shown to be such.
* **Segment contract** (`Verif/Spec/Segment.lean`): the same for slices (`SegFaithful`, `SegReads`): remaining
  bytes, remaining slices relative to the cursor, and which prefix of them is exposed. A kind (`SegKind`)
  records which of the optional promises of the protocol a stream keeps: whether lent slices stay lent
  (`steady`), whether `max_consume` covers every lent slice (`early`) or is positive before the end (`moving`),
  whether a full consume drops every lent slice (`exact`), whether a consume ending at the start of a lent slice
  is carried out (`snap`), and which partial consumes it supports at all (`policy`). `SegReads` is about a client
  issuing any consumes (kinds without a policy), `SegDrains` about one always consuming what is offered.
* **Keeping** (`Verif/Proof/SegKeeps.lean`): `SegServes` adds that a slice stream does not take back lent bytes.
* **Record contract** (`Verif/Spec/Record.lean`): what a source of parsed patch records yields.
* **Specifications** (`Verif/Spec/*.lean`) are plain list functions written without reference to the
  streaming code.
* **Layout**: `Verif/Model` (transcription), `Verif/Spec` (contracts, specifications), `Verif/Proof`
  (invariants, refinement), `Verif/Props` (the property theorems, examples and counterexamples).
* **Errors and panics** are data: `Except Err`, `Err.panic` models an `unwrap`/index/overflow abort.
* `usize` is modelled by `Nat` (with explicit `usizeMax` where the code uses `usize::MAX` as a sentinel);
  subtraction that would underflow is either shown impossible or returned as `Err.panic`.

## Where the code is modelled

| source | modules under `Verif/Model` that cite it |
|---|---|
| `src/byte/cat.rs` | `Asserts`, `Byte` |
| `src/byte/clip.rs` | `Asserts`, `Byte` |
| `src/byte/cut.rs` | `Cut`, `Filter`, `Program`, `Range`, `StreamBuf` |
| `src/byte/mock.rs` | `Mock` (compiled for the unit tests only) |
| `src/byte/mod.rs` | `Basic` |
| `src/byte/patch.rs` | `Record`, `StreamBuf` |
| `src/byte/raw.rs` | `StreamBuf` |
| `src/byte/tee.rs` | `Asserts`, `PatchBack` |
| `src/byte/text.rs` | `Record`, `StreamBuf` |
| `src/byte/zero.rs` | `Byte` |
| `src/byte/zip.rs` | `Byte`, `Memory`, `Program`, `StreamBuf` |
| `src/drain/mod.rs` | none: re-exports |
| `src/drain/patch.rs` | `PatchBack`, `Pipes`, `Program` |
| `src/drain/scatter.rs` | `Asserts`, `Program`, `Scatter`, `Template` |
| `src/eval.rs` | `AssertsEval`, `Eval`, `Program`, `Walk` |
| `src/filluninit.rs` | `Memory`, `SimdFormat` |
| `src/main.rs` | `Byte`, `Hexdump`, `Inplace`, `Program` |
| `src/mapper.rs` | `Mapper`, `MapperParse` |
| `src/params.rs` | `Basic` |
| `src/pipeline.rs` | `Hexdump`, `Pipeline`, `Program` |
| `src/segment/bridge.rs` | `Map`, `Program` |
| `src/segment/exact.rs` | `Exact` |
| `src/segment/extend.rs` | `Asserts`, `Map`, `Program` |
| `src/segment/filter.rs` | `Cut`, `Filter`, `Program` |
| `src/segment/guided.rs` | `Asserts`, `Guided` |
| `src/segment/merge.rs` | `Asserts`, `Merge`, `Segment` |
| `src/segment/mod.rs` | `Basic` |
| `src/segment/range.rs` | `Program`, `Range` |
| `src/segment/regex.rs` | `Regex` |
| `src/segment/stride.rs` | `Hexdump`, `Program`, `Stride` |
| `src/segment/walk.rs` | `Walk` |
| `src/streambuf.rs` | `Asserts`, `StreamBuf` |
| `src/template.rs` | `Template` |
| `src/text/formatter/dec.rs` | `Format` |
| `src/text/formatter/hex.rs` | `Format`, `SimdFormat`, `Vector` |
| `src/text/formatter/mod.rs` | `Format`, `InoutFormat`, `Scatter`, `SimdFormat` |
| `src/text/mod.rs` | `InoutFormat` |
| `src/text/parser/aarch64.rs` | `Memory`, `Simd`, `Vector` |
| `src/text/parser/mod.rs` | `InoutFormat`, `Memory`, `Parser`, `Program`, `Record`, `Simd` |
| `src/text/parser/naive.rs` | `Memory`, `Parser` |
| `src/text/parser/x86_64.rs` | `Memory`, `Simd`, `Vector` |

## Plan per property

| id | what is modelled | how proved |
|----|------------------|-----------|
| C01 | `StreamBuf`, `RawStream`, `read()` oracle | invariant `abs(state) = rem`, faithful-stream theorem, induction on client op list |
| C02 | `CatStream` with its cache and `dup` | refinement to list concatenation, given faithful sources |
| C03 | `Zipper`/`ZipStream` | refinement to word interleave |
| C04 | `ZeroStream`, `ClipStream`, `ClipperParams::from_raw` | refinement to pad/drop/take |
| C05 | `Cutter`/`CutStream` | invariant relating emitted bytes to filtered index set; refinement |
| C06 | `TextStream`, `GaplessTextStream` over a record source | refinement to a "place records" list function |
| C07 | `PatchFeeder`/`PatchStream` | refinement to a "splice" list function |
| C08 | `consume_stream` | induction on remaining content |
| C09 | in-place write as an FS operation sequence | invariant over every prefix of the operation sequence |
| C10 | `format_line_hhh`, `TextParser` on one line | round-trip theorem by induction on the bytes |
| C11 | composition | corollary of C06/C07/C10/C33 |
| C12 | `parse_hex_single_naive`, `parse_hex_body_naive`, `read_head` | soundness/completeness against a grammar |
| C13 | `read_line` over an arbitrary faithful source | positive theorem for records that fit in the lent chunk; counterexample beyond |
| C14 | `format_dec_single`, `parse_dec_single` | round trip by strong induction on the number |
| C15 | `parse_val` | equality with positional value |
| C16 | tokenizer, unary marking, shunting yard, `eval_rpn` | structural induction over expression trees |
| C17 | `simplify_rpn` etc. | the rewriting mirrored on trees (`Proof/Mirror*.lean`), value preserved by induction over its recursion (`Proof/Keep.lean`) for the classes `Tame` (variables) and `Lone` (one array element) of `Spec/Simplify.lean`; counterexamples outside |
| C18 | `SegmentMapper`, `RangeMapper`, parsed (mapper.rs 18-77, 177-193) | the simplifier keeps a sum of one variable and constants in normal form (induction over the tree) |
| C19 | `ConstSegments`, `ConstSlicer` | invariant; refinement to arithmetic progression of clipped intervals |
| C20 | `range.rs` | invariant; refinement to sorted dedup list |
| C21 | `exact.rs` | soundness + chunk independence for border-free arrays; counterexample otherwise |
| C22 | `merge.rs` | invariant; refinement to fold |
| C25 | `filter.rs` | invariant relating the kept slices to the index set; two contracts: any client if the end is the source's end (`Proof/Loose.lean`), the drains if it may come early |
| C23, C24 | bridge, extend | refinement under the conditions where true, counterexamples where the code deviates |
| C26 | `regex.rs` over a searcher | refinement over streams that report the end with the first fill (`Proof/Whole.lean`), counterexample otherwise; over longer streams the rounds of a drain are told one by one (`Trace` in `Proof/RegexFlow.lean`), which shows that only matches are printed |
| C27 | `walk.rs` with the compiled expressions | refinement over streams that lend more with every call (`Proof/Grow.lean`); the evaluation with effects simulates the one on the remaining bytes (`Proof/WalkEval.lean`); for the class `Lone` the lengths are the C values of the expressions as written (`Props/WalkText.lean`) |
| C28 | `guided.rs` over a record source | refinement over streams that lend what is asked for (`Proof/Far.lean`); invariant over the records read ahead |
| C29 | `ScatterDrain` | refinement under the no-retention condition, counterexample otherwise; slices with gaps over full reads by an invariant that counts blocks (`Paced` in `Proof/Gaps.lean`: every fill takes one block, and the slices it adds are one block apart in all) |
| C30 | scatter mode + templates (`Model/Template.lean`) | induction over slice history; template scanner against a small template syntax (`Spec/Template.lean`) |
| C31 | two-thread transition system of tee + patch (`World.Step`) | invariant over all interleavings for commands that print at the end (`Proof/PatchBack.lean`); counterexample schedules for others; the command as a process between two bounded pipes (`Model/Pipes.lean`, `Net.Step`): no deadlock, bounded number of steps, simulated by `World` |
| C32 | `Pipeline::from_args`, `validate` | case analysis over option records |
| C33 | composition of C01, C19, C29, C10 | corollary |
| C34 | `parse_hex_single` of `x86_64.rs` and `aarch64.rs`: vector registers are functions from lanes to bytes, masks natural numbers | lane by lane: facts about single characters by evaluating all 256, carry-free arithmetic of the masks by induction; equal to the portable parser |
| C35 | `parse_hex_body` of `x86_64.rs` and `aarch64.rs` | as C34, then equality with a scalar reference (`refBody`), and that with the grammar `Blocks 48 VecColumns`; the readers above take the build as a parameter |
| C36 | `format_hex_single_*`, `format_hex_body_*`, `format_mosaic_*`, `format_line_hhh/ddh`, `fill_uninit` of the three builds, store by store | each line kept as an invariant on the region: what is final, what may still be overwritten; then equality with the list model of C10/C14 |
| C37 | the whole program (`Model/Program.lean`): option parsers, pipeline, every stage, `consume_stream` | composition: option texts parse to their meaning (C15, C16, C18), the pipeline has the documented nodes (C32), every stage keeps the stream contract (C01 to C08, C19 to C22, C25, C29), the printed text has the documented lines (C10, C14); for streams shorter than a block the slicers and segment filters are run once on the whole stream (`Proof/Shot.lean`, `Proof/ProgramSmall.lean`), which covers `--walk`, `--guide`, `--regex`, `--invert`, `--extend` (C23, C24, C26, C27, C28); on longer streams `--invert` and `--extend` are right if no slice that may still change is lent and the source never gives back less than it is told to consume (`SegTight` in `Proof/Tight.lean`), which `--find` does; `--guide` needs a stream that lends what is asked for (`Proof/Far.lean`, `Proof/Follow.lean`), `--walk` one that lends more with every call, which a single file does (`Proof/Grow.lean`, `Proof/Stroll.lean`); the drains consume all they may, so `--lines` behind them is only watched in whole rounds (`Proof/Rounds.lean`); slices that are large compared to the block (`Proof/Wide.lean`) and slices with gaps over files read in whole blocks (`Proof/GapsRun.lean`) have their own invariants |
| C38 | `InoutFormat::from_str`, `TextFormatter::new`, `TextParser::new` | case analysis; counterexamples for signatures that are accepted and then panic |
| C39 | `count_stdin` of the program and its options | case analysis; counterexample |
| C40 | the loop of `main_impl` over the inputs with `--inplace`, on the model of the whole program | C37 for one file (`job_runs`, `column_runs`) composed with the crash invariant of C09 |
| C41 | `--output` on the model of the whole program | the stream of slices of C37 (`pipeline_drains`) poured into the scatter drain: one call for all of it, so beyond C37 the stages must report nothing new after their end (`Dry` in `Proof/Shot.lean`); names by C30; slices with gaps by `Proof/Gaps.lean` (`gap_round`, shared by printing and writing) |
| C42 | `--patch-back` on the model of the whole program | C37's stream of slices runs in the thread (`pipeline_threads`, `Proof/Thread.lean`): the text given to the command is that of the slices, and the bytes the tee saw are the whole stream, because the slicers consume everything they are given (all but `--slice` and `--lines`); then the patching stage of C05 over the temporary file (`back_delivers`). All interleavings: before a command that waits for the end of its input prints anything, only rounds of the thread can happen (`World.Reachable.settled`), so that every reachable situation in which the patching starts holds the same text and the same contents of the temporary file (`backs_deliver`) |
| C43 | two calls of the whole program, the second one with the text of the first one among its files (`Props/ProgramPatch.lean`) | C37 for both calls; the text of the first one consists of documented records (C10, C11), which C05 and C28 take as patch and guide; the patched stream is compared byte by byte with the second file and the first stream (`Overlay`) |
| C44 | copies, loads and stores one by one, with the memory they go to (`Model/Memory.lean`) | the inner and outer loops of `gather` by induction over inputs and rows; the chunks of the array parsers by induction, with the lengths of C35; UTF-8 as defined in Lean's library (`ByteArray.IsValidUTF8`) |
| C45 | two hosts with the same contents of the inputs, but different reads and blocks (`Props/Arrival.lean`, `Props/ArrivalOutput.lean`, `Props/ArrivalInplace.lean`) | C37 in the form `job_runs_as`: the output is the lines of the slices in the format that the options name, and neither depends on the host; with `--output` and `--patch-back` the same from C41 (`job_writes_as`) and C42 (`job_backs_as`), and with `--inplace` the whole disk afterwards (`inplace_disk`, from `inplace_files` of C40) |
| C46 | the lengths of the buffers in every state that a client within its limits can leave a stream in (`Visited`, `LentTo` in `Proof/Bounded.lean`) | an invariant of `StreamBuf` over fills and consumes, for closures that append a limited amount (`Adds`); `RawStream`, then `CatStream` over modest sources (`Proof/BoundedCat.lean`), `CutStream` (`Proof/BoundedCut.lean`) `ClipStream` over padded files (`Proof/BoundedClip.lean`) and `PatchStream` over a stream that settles after a partial consume (`Settles`, `Proof/BoundedPatch.lean`; `--cat` does so, `Proof/SettledCat.lean`), then `ConstSlicer` and `ScatterDrain` as clients of it (`Proof/BoundedText.lean`; over any bounded stream in `Props/BoundedDump.lean`), or `ExactMatchSlicer` (`Proof/BoundedFind.lean`), or `GuidedSlicer` for records that are not far apart (`Proof/BoundedGuide.lean`), or `RegexSlicer` within adjacent slices (`Proof/BoundedRegex.lean`), or `RangeSlicer` for short ranges (`Proof/BoundedRange.lean`), or `FilterStream` behind a slicer (`Proof/BoundedLines.lean`), then `consume_stream` |
| C47 | the streams of the debug build (`Model/Asserts.lean`): a call whose `debug_assert!` fails panics | an invariant of `StreamBuf` (`Sound`) and of `CatStream` (`Undup`) that implies the assertions in every state that a client can reach (`Proof/Asserts.lean`, `Proof/AssertsBytes.lean`); for `--guide` and `--extend` the slices end within what is lent (`Proof/AssertsGuided.lean`, `Proof/AssertsExtend.lean`); the operators that can meet on the stack of the expression parser (`Model/AssertsEval.lean`, `Proof/AssertsEval.lean`); the contracts of the release build then carry over |

## Trusted base

* Lean 4.33.0 kernel; axioms at most `propext`, `Classical.choice`, `Quot.sound`.
* The faithfulness of the transcription (each definition cites file and lines).
* Not modelled: clap argument parsing, the `regex` crate (a parameter), the `num_runtime_fmt` crate (a parameter `NumFmts`), the match of the template's regular expression (transcribed by hand as `Template.findBrace`, leftmost and greedy), the `memchr` crate (`find_iter` is taken to return the leftmost non-overlapping occurrences),
  pagers and process spawning, allocation failure, 64-bit overflow of byte offsets.

## Evidence that the model is the program

`Verif/Conformance` runs the model (`Host.run`, by kernel evaluation) on the commands recorded in `README.md` and in `test.md` (the project's own test records), and checks that it prints what is recorded there.
Records that need a terminal, the pager, or the messages of clap are left out.

The unit tests of the project are checked in the same way (`Conformance/Unit*.lean`, about 880 cases): the expressions and mappers (`UnitEval`), the slicers (`UnitSegment`, `UnitLong`), the byte streams
(`UnitByte`, `UnitTee`), the parsers, formatters, templates and the pipeline (`UnitText`). `Conformance/Mock.lean` transcribes the random source and the clients of these tests. Contents of more than 2000 bytes are
shortened, and `open_ended` slicers are left out. The model passes all of them, including those cases where the theorems show disagreements: the random source of the tests (`MockSource`) lends
the bytes that follow the filled part, where a `StreamBuf` lends line feeds, so the tests cannot see that slices reach behind what has been read (C23, C24).

## Simplifications

* `Model/Program.lean` gives every open of a file the whole content: a standard input that is opened twice (`C39_stdin_counterexample`) is outside of the model; C37 excludes it. With `--inplace` the files of `--patch` and `--guide` are opened anew for every input, on the disk as it is then, and what is left of the standard input for the inputs after the first is arbitrary. The files that `--output` writes are kept apart from the inputs (C41). clap is modelled as far as the values of the options are
  concerned (not option names, abbreviations, or conflicts that clap reports itself).

* The parsers are modelled in all three builds (`Impl`: portable, AVX2, NEON), the formatters too (`Model/SimdFormat.lean`, store by store). The meaning of each vector instruction used
  (`Verif/Model/Vector.lean`) is transcribed from the instruction set manuals. Loads behind the end of a list give 0; C35 shows that no call gets a text that short.
  The parser's line cache (for messages) is in `Model/Memory.lean`; the messages themselves are not part of the model of the program.
* `open_ended` of the stride slicer is always `(false, false)` in the code and is omitted.
* File systems are maps from names to contents: different names are different files, operations succeed
  except where an error is an explicit parameter. `debug_assert!`s are only modelled in `Model/Asserts.lean` and `Model/AssertsEval.lean` (C47); the other models describe release builds.
* `--inplace`: the pipeline is a function from the disk and the old content to what is written, split into arbitrary writes; files
  written by the pipeline itself (`--output`) are assumed to be others. A crash or a failing operation is
  any prefix of the operations.
* `spawn_stream` is modelled over arbitrary stream constructors; the stages are the subject of the other properties.
* `partition_point` is modelled as the longest prefix satisfying the predicate (the two agree on lists that
  are partitioned, which the theorems assume or show).
* `ExtendStream`'s heap is emptied in every call and is modelled by sorting; of its elements only the segment is kept
  (`original_end` only orders elements that denote the same segment).
* `i64` is Lean's `Int64` (wrapping). The 64-bit mask of the literal parser is a list of 64 bits. Expressions are trimmed of ASCII
  white space only; the expression simplifier is transcribed with the token array as a list.
* `--walk`: offsets are natural numbers; the wrap-around of `usize` in `index * elem_size` (indices of 2^60 or more) is not modelled.
* `--patch-back`: threads are interleaved in rounds (one fill-format-consume round of the slicing thread, one access of the main thread); the mutex makes each access of the
  temporary file atomic. In `World`, writes to the command never fail and never block, and a command is a function from what it has received, and whether that is all, to what it
  has printed and whether it has closed its output. In `Net` (`Model/Pipes.lean`) the command is a process that reads and prints single bytes, the pipes have a capacity, and a write to a
  command that has ended fails; there the main thread is reduced to what it reads from the command.
* Fuel: loops whose termination depends on other components take a fuel argument; the theorems say how much
  is enough, running out is the distinct error `Err.diverge`.

## Disagreements between code and documentation or intent

Each is proved in Lean on a concrete witness.

| where | what | theorem |
|-------|------|---------|
| byte/clip: `ClipperParams::from_raw` | head padding left in front of a limited range is counted twice | `C04_from_raw_counterexample` |
| mapper: `RangeMapper::trans_offset` | underflow for `E`-anchored start with end 0 | `C05_overflow_check_counterexample`, `C20_overflow_check_counterexample` |
| byte/text: `TextStream::new` | a malformed first line aborts the program | `C06_first_line_panics` |
| byte/patch | records at or behind the end are dropped, overlaps there unnoticed | `C07_append_counterexample`, `C07_overlap_beyond_end_counterexample` |
| text/formatter | offsets are printed modulo 2^48 | `C10_offset_truncated_counterexample` |
| `--cat N` with text input | the text is padded before parsing | `C11_word_size_counterexample` |
| text/parser | accepts lines outside the documented grammar | `C12_lenient_counterexample` |
| text/parser | the vectorised builds accept other arrays than the portable one: separators at the end of a block are not checked, colons count as blanks, columns behind a blank one are checked (and in the next block read) | `C35_builds_counterexample` |
| text/parser | a line longer than the lent chunk loses a byte | `C13_long_line_counterexample` |
| segment/stride | `S..E` with `E < 1`: the last slices depend on the read sizes | `C19_chunking_counterexample` |
| segment/stride | more than 15 clipped slices: `consume` underflows | `C19_many_clipped_counterexample` |
| segment/stride | a first slice that begins behind the first two units, is longer than two units and ends behind the first block: the first fill aborts | `C19_wide_start_counterexample` |
| drain/scatter behind segment/stride | clipped slices that are longer than about half a block: slices are skipped, later the program aborts | `C29_wide_clipped_counterexample` |
| segment/merge behind segment/stride | slices further apart than a block: `--merge` loses slices | `C22_wide_counterexample` |
| segment/stride | `--width 0,s-8..e` loops forever | `C19_zero_width_counterexample` |
| segment/stride below merge | after a partial consume ending at no slice start, stride takes back slices it had lent and merge counts them twice | `C22_odd_client_counterexample` |
| segment/range with drain/scatter | two ranges with the same start that end in different chunks abort the program | `C20_same_start_counterexample` |
| segment/filter with segment/stride | overlapping slices and ranges counted from the start only: the early end is reported for bytes the source does not yet release; the drain aborts | `C25_overlap_counterexample` |
| segment/filter | at the end equal slices are merged (they are not if all ranges have been passed before) | `C25_duplicate_counterexample` |
| segment/exact | which occurrences of an array that overlaps itself are shown depends on the sizes of the chunks, and those shown may overlap | `C21_chunking_counterexample` |
| segment/guided | a record longer than the bytes that arrive with the next read is shown before its bytes have been read: newlines of the margin are printed, or the program aborts | `C28_long_counterexample`, `C28_abort_counterexample` |
| segment/guided | a record that ends behind the end of the stream is dropped instead of being clipped | `C28_overhang_counterexample` |
| segment/guided | a record in front of what has been consumed makes the difference of two offsets wrap around, and the program aborts (not a sorted guide, so outside C28) | `C28_unsorted_counterexample` |
| segment/regex | slices retained at the end of a block are not searched, and more of them after every further block: `--regex` misses matches in files longer than 2 MiB | `C26_block_counterexample` |
| segment/walk | a last slice that extends beyond the end is not clipped but dropped; with `--output` the program never ends | `C27_clipped_counterexample`, `C27_output_counterexample` |
| segment/walk | a length of which only a part has been read, the next `read()` returning less than the rest (a pipe), counts as zero: the program panics | `C27_short_reads_counterexample` |
| byte/tee | the threads share one file position: if the main thread reads while the slicing thread writes, later bytes overwrite earlier ones | `C31_race_counterexample` |
| byte/tee | the end of the temporary file is taken for the end of the stream: if the main thread is ahead, the output is cut off | `C31_ahead_counterexample` |
| drain/patch | slicers that end early (`--slice 0..2`): what follows is not consumed, hence missing in the output | `C31_cut_off_counterexample` |
| drain/patch | slices that are retained are sent to the command again | `C31_repeated_counterexample` |
| drain/patch | the slicing thread is joined only if two fills in a row lend the same number of bytes: its failure is ignored and truncated output is written (with `--inplace`, over the input) | `C31_failure_ignored_counterexample` |
| segment/extend, segment/bridge | before the end, images are not limited to the bytes read: `--extend s..e+20` and `--invert s..e+30` show the newlines of the margin or bytes behind the end | `C24_unread_counterexample`, `C23_unread_counterexample` |
| segment/range below bridge, extend | the end is reported after the last range: `--slice 3..5 --invert s..e` loses the last gap, `--slice 3..5 --extend s..e+3` is cut at 5 | `C23_early_end_counterexample`, `C24_early_end_counterexample`; end to end `C37_slice_invert_counterexample` |
| drain/scatter behind segment/filter | `--width 4,s+1..e --invert s..e --lines 0..1` prints one slice, but aborts with `--output`: the slicer does not give up the single byte that is needed, and the drain counts the slice twice | `C41_lines_counterexample` |
| drain/scatter behind segment/stride | with blocks of 16 bytes `--width 8,s-3..s+12 --output 'o{l}'` writes two slices to `o0`: the drain numbers the slices from the first one that is lent, even if that one has been written before | `C41_numbers_counterexample` |
| drain/patch with `--slice` | `--slice 0..3 --patch-back cat` prints the first three bytes only; with `--inplace` the rest of the file is lost | `C42_slice_counterexample` |
| drain/patch with `--lines` | `--width 4 --lines 1..3 --patch-back cat` prints the first twelve bytes only | `C42_lines_counterexample` |
| drain/patch, failing reads | a read that fails in the thread is not reported: the output ends early and the exit status is 0; with `--inplace` the file is replaced by a truncated one | `C42_failure_counterexample` |
| segment/stride, drain/patch | with blocks of 64 bytes `--width 2,s..s+1 --patch-back cat` of a regular file of 157 bytes fails: a slice that is kept back is sent twice, and the records overlap | `C42_repeated_counterexample` |
| byte/zip | when the shortest input has ended, the others are read to their ends and kept in memory, although nothing more is printed | `C46_zip_counterexample` |
| byte/cut | `--cut X..` prints nothing before the end of the file and then holds everything from `X` on in memory | `C46_cut_counterexample` |
| byte/patch | all insertions (records of length 0) in front of one byte are collected in memory before any of them is passed on | `C46_patch_counterexample` |
| segment/guided | everything in front of the next record of `--guide` is read into memory, although nothing of it is printed | `C46_guide_counterexample` |
| segment/merge | slices that are merged into one are kept in memory until it is complete; `--merge` of slices without gaps holds the whole file | `C46_merge_counterexample` |
| drain/scatter | the debug build panics if the last slice of `--walk` extends beyond the end of the stream | `C47_walk_counterexample` |
| segment/merge | the debug build panics if an empty slice is merged | `C47_merge_counterexample` |
| segment/guided | the debug build panics if a slice of `--guide` is longer than what the source lends at once | `C47_guide_counterexample` |
| segment/extend | the debug build panics if `--extend` follows an `--invert` whose slices reach behind what has been read | `C47_extend_counterexample` |
| eval | the debug build panics on two bitwise operators in a row (`1\|2\|4`), or one next to a comparison | `C47_expression_counterexample` |
| drain/scatter | a slice retained by the stream is counted twice: slices are skipped, then the program aborts. No short reads are needed: `--width 3,0..1` of a regular file of several blocks loses slices silently or aborts | `C29_retained_counterexample`, `C29_full_reads_counterexample`; end to end `C37_gaps_counterexample`, `C45_reads_counterexample`, `C45_blocks_counterexample` |
| drain/scatter | after a slice has been retained, `{l}` of `--output` numbers the following slices from it again: two slices end up in one file | `C30_numbers_counterexample` |
| drain/scatter | a plain `--output FILE` is not truncated | `C30_not_truncated_counterexample` |
| text/parser, messages | the first 32 bytes of a line are taken for UTF-8 without a check: undefined behaviour if they are not, even if the line is but a character crosses the 32nd byte | `C44_utf8_counterexample` |
| template | text between the variable of a placeholder and its format is dropped, first character first: `{n08x}` is taken as `{n:8x}`; a multi-byte character there panics | `C30_dropped_counterexample`, `C30_dropped_panics_counterexample` |
| drain/patch | records behind the end of the stream are not read; if the main thread then waits for the command, which has more to print than fits into the pipe, both wait for ever | `C31_deadlock_counterexample` |
| pipeline: `PatchDrain::new` | `--out-format` is ignored with `--patch-back`; README: it applies to the records fed to the command | `C31_out_format_counterexample` |
| main: `count_stdin` | without input files, `--patch -` and `--guide -` are accepted although the stream reads the standard input too | `C39_stdin_counterexample` |
| text: `InoutFormat` | signatures like `n`, `b,b`, `@xx` are accepted by `--in-format` and `--out-format`, then the program panics; an empty column panics at once | `C38_panic_counterexample`, `C38_panic_input_counterexample`, `C38_empty_counterexample` |
| text: `InoutFormat` | `--out-format nnx` prints headers; `--out-format x` pads lines to 16 columns while the default (also `x`) pads to the width | `C38_nnx_counterexample`, `C38_columns_counterexample` |
| main: `--inplace` | `--inplace --output FILE` is accepted and replaces the input by an empty file | `C09_output_counterexample` |
| pipeline: text input | with `--cat N` or `--zip N` a text input is itself padded to a multiple of `N`, and the padding is read as another line: `-f x --cat 4` fails on texts of other lengths | `C37_text_word_counterexample` |
| main: `--inplace` | `--patch` and `--guide` are opened again for every input: from the standard input only the first file is patched (the others silently stay as they are), and a patch that is itself an input is applied to the later files in its changed form | `C40_stdin_counterexample`, `C40_patch_input_counterexample` |
| main: `--inplace` | an input, or any other file, called like the temporary file of an input is lost | `C09_tmp_input_counterexample`, `C09_tmp_lost_counterexample` |
| eval: `parse_val` | the documented suffixes `E`, `Ei` are rejected | `C15_exa_counterexample` |
| eval: `parse_val` | more than 32 digits abort the program | `C15_long_counterexample` |
| eval: `latter_precedes` | comparisons, `&`, `^` and `\|` have one precedence level, unlike C (README: "the same as the C") | `C16_precedence_counterexample` |
| eval: `expand_op` | comparisons test the sign of the (wrapping) difference | `C16_compare_counterexample` |
| eval: `fuse_sign_op` | `+` in front of a negated sum drops the negation, e.g. `!(+(!(!(-(1+2)))))` | `C16_complement_counterexample` |
| eval: `apply_prefix` | `!` is the bitwise complement, not the negation of C | `C16_bang_counterexample` |
| eval: `mark_prefices`, `apply_op` | stacked unary operators are rejected; division by zero aborts the program | `C16_stacked_counterexample` |
| mapper: `SegmentMapperAnchor::from_str` | nonlinear expressions are accepted with a wrong meaning: `s*s..e` is taken as `s..e`, `+((-(s+1))*1)..e` as `s+1..e` | `C18_square_counterexample`, `C18_plus_counterexample` |
| eval: `sort_tokens` | operands of products and bitwise operators are merged like those of sums: `x*x` becomes `x`, `2*x & x` becomes 0; different elements of an array are merged: `b[0]+b[1]` becomes `2*b[0]` | `C17_merge_counterexample`, `C17_array_counterexample` |
| eval: `rotate_left` | the signs of a difference in parentheses on the right of a sum are exchanged: `x + (x*y - y/x)` | `C17_rotate_counterexample` |
| eval: `remove_prefix_unary` | `+((-(x+y))*1)` becomes `x+y` | `C17_plus_counterexample` |
| eval: `remove_identity` | `x*0 + b[1]` becomes `b[0]` | `C17_vanish_counterexample` |
| eval: `peel_sign_from_op`, `fuse_sign2` | nested products, complements and comparisons in sums abort the program | `C17_abort_counterexample` |
