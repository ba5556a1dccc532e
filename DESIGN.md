# A machine-checked model of ikawaha/kagome (Lean 4)

`/repo` is read as text; nothing is built or run. The Lean project is `/verif/lean` (`lake build`).

* `properties.jsonl` lists the properties, `MANIFEST.json` the theorems that prove them.
* `seeded/LOG.jsonl` lists wrong programs that were tried against the theorems.

## Layout

| place | content |
|---|---|
| `Verif/Go/*` | the parts of the Go standard library the code relies on, as total functions over bytes |
| `Verif/Model/*` | the code of `/repo`, function by function; every definition cites file and lines |
| `Verif/Spec/*` | what the properties mean, written without the model's helpers |
| `Verif/Proof/*` | helper lemmas |
| `Verif/Props/*` | the property theorems, one file per group, with examples that meet the hypotheses, and counterexamples |

## Modelling conventions

* A Go string or `[]byte` is `List UInt8`. A rune is `Nat`. Go `int` is unbounded (`Nat`/`Int`), except where overflow matters:
  path costs are converted with an explicit 32-bit wrap (`int32`). Dictionary weights and connection costs are `Int16`, so
  their range is not a hypothesis.
* A run-time panic (index out of range, slice bounds, nil) is `none`. "Does not panic" is `∃ r, f x = some r`.
* A loop is a structural recursion over the sequence it visits. A loop without a syntactic bound (following `prev`,
  calling a split function) takes fuel, and running out of fuel is `none`; theorems of the form `∃ r, … = some r` therefore
  include termination.
* A `*Node` is modelled twice: as a coordinate (column, index) of the lattice in the sequential model (`Model/Lattice`), and as a
  heap address in `Model/Prog`, where recycling, stale contents and interleaving are visible. `C13_results` relates both.
* In-place changes of a slice are functions returning the new contents.

## Trusted base

1. Lean's kernel (4.33.0) and the axioms listed at the end. No axioms were added; no `sorry`, `native_decide` or `bv_decide`.
   Mathlib is not used.
2. The reading of `/repo` as the definitions in `Verif/Model`. Each cites its lines. Nothing checks the citation but a reader.
3. The definitions in `Verif/Spec`, which say what the English words mean, and the theorem statements in `Verif/Props`.
4. The models of the Go standard library in `Verif/Go`, written from the documentation and the library source:
   `unicode/utf8` and range over strings (`Utf8`), `unicode.IsSpace` (`Space`), `bufio.Scanner` (`Scanner`), `bufio.ScanLines`
   (`Lines`), `flag.FlagSet.Parse` with string and bool flags, its messages and `PrintDefaults` (`Flag`), `filepath.Base` (`Model/Usage`), `json.Marshal` of strings, integers, string slices and
   structs (`Json`), `json.Decoder.Decode` into a struct of strings (`JsonDecode`, a scanner of one pass instead of the byte-fed machine of the package), `url.ParseQuery` and `Request.FormValue` (`Form`), `strconv.Quote` (`Quote`), `bufio.Writer` (`Writer`), `%v` of a pointer to a struct (`Model/LatticeText`), `strings.Join`, slicing and indexing (`Str`), `slices.Compact` and SQLite's FTS4 (`Model/Examples`). `io.Pipe`, the copying of `os/exec`, `signal.Notify` and `select`
   are steps of `Model/Pipe` and `Model/Lifetime`.
5. `sync.Pool`: `Get` returns any object that was `Put` and not yet taken or dropped, or a new one; objects may be dropped at any
   time; a `Put` happens before the `Get` that returns the object.
6. The memory of `Model/Machine` and of `Model/FilterRun` is sequentially consistent. This is justified by the Go memory model for programs
   without data races; `C13_no_race` and `C90_no_race` prove their absence in the machines.

## Modelled

| file of `/repo` | modelled in | left out |
|---|---|---|
| tokenizer/tokenizer.go | `Model/Tokenizer`, `Model/Prog`, `Model/ProgDot`, `Model/Text` | — |
| tokenizer/tokenizer_option.go | `Model/Tokenizer` | |
| tokenizer/token.go | `Model/Token`, `Model/Text` | — |
| tokenizer/lattice/lattice.go | `Model/Lattice`, `Model/LatticeApi`, `Model/Dot`, `Model/Prog`, `Model/ProgDot`, `Model/ProgLattice`, `Model/LatticeText` | — |
| tokenizer/lattice/node.go, mem/pool.go | `Model/Lattice`, `Model/Prog`, `Model/Machine` | |
| filter/*.go, filter/ja/*.go and its assets | `Model/Filter`, `Model/FilterRun`, `Model/Splitter`, `Asset/Stop.lean`, `Model/Text` | — |
| kagome.go, cmd/*/cmd.go | `Model/Cmd`, `Model/Usage`, `Model/Lifetime`, `Model/Sink`, `Model/Dialog` | the time stamps of `log` |
| cmd/server/api.go, demo.go, asset/*.html | `Model/Server`, `Model/Request`, `Model/Live`, `Model/Form`, `Model/Pipe`, `Model/Page`, `Asset/Page.lean` | `net/http`, Graphviz: parameters; of `html/template` the escaping in text and `textarea` and the removal of comments; the script of demo.html without the objects of the browser (`Model/Live`) |
| _examples, docs/index.html | `Model/Examples`, `Model/Browser` | SQLite (the FTS4 tokenizer `simple` is modelled), `syscall/js` and `wasm_exec.js` (texts go through `TextEncoder`, modelled, and `TextDecoder`, a parameter) |

Not in `/repo`, hence parameters with a stated contract:

* The dictionary package `kagome-dict`. `Dict` and `UserDict` are structures of tables and lookup functions. The common-prefix search
  is an arbitrary function of the rest of the input. `Spec.WellFormed` is the contract: every hit is a non-empty prefix ending at
  a character boundary with an id that has table entries, every category has an unknown-word entry, every connection exists. It is
  needed: see (b) below. Loading dictionaries from files is a parameter of `World`.
* `unicode.Ideographic`: an arbitrary predicate.
* Reading files and standard input: an arbitrary list of `Read` results.
* Memory and time limits.

## Does the model do what the code does?

The code cannot be run here, but the repository says what it does: its `_test.go` files. `Verif/Example/TestsSentence`, `TestsFilter`,
`TestsTokenizer`, `TestsCmd` and `TestsReadme` run the tests, and the examples of the README files, that do not need the network, another program or the contents of the IPA dictionary on the
model, with a small dictionary (`Verif/Example/Mini`) made of the words the tests name. Each expected value is copied from the test
cited beside it. All agree; words have other numbers. They are tests of the model, not proofs of properties, and no claim cites them.

## Disagreements between the code and what a user may expect

All are proved as theorems with a concrete witness unless noted.

* (a) An encoded U+FFFD whose category does not group loses two of its three bytes (`C02_replacement_counterexample`).
* (b) Dictionary keys must be non-empty and valid UTF-8. An empty key of negative weight gives a node that precedes itself,
  and `Backward` does not end (`C01_empty_key`); under a key that ends inside a character part of the text is in no token
  (`C02_broken_key`). Hence the hypotheses of `WellFormed`.
* (c) Path costs saturate only upwards and only at the top: a long text of heavy words loses its beginning, together with BOS
  (`C46_fails`, `Heavy.C46_lost`).
* (d) Extended mode gives DUMMY tokens with the id of the unknown word; a broken byte becomes U+FFFD (`C03_*`, `C15_extended`).
* (e) `AnalyzeGraph` ignores `OmitBosEos` and leaves `Index` and `Position` zero (`C16_deviation`).
* (f) `-json` drops the unigrams of Extended mode (`C42_extended_differs`). The body of a 400 answer is not always JSON
  (`C66_error_body`). Labels in the Dot output are not escaped (`C17_quote`): the file can be
  unreadable, and a text of nothing but symbols can add nodes to it (`C53_unreadable`, `C53_injected`). In Extended mode the graph shows no unknown word
  (`C17_extended_gap`).
* (g) The sentence splitter: `nn` is not cleared (`C37_single_violated`; for all such texts: `C37_second_feed`, `C37_two_lines`); the result depends on the chunks (`C38_violated`, and `C38_cut_needed` for cuts in the middle of a sentence);
  white space cut by a refill survives (`C34_cut_character`); a long gap ends the scan (`C34_long_gap`);
  its own output, read again, can be split differently (`C78_violated`); pending white space is read again at every read (`C79_rescan`).
* (h) Feature filters with `Any` beside a literal miss and invent matches (`C26_clash_*`, `C27_clash`).
* (i) `FeatureAt` accepts a POS id equal to the length of the name table (`C19_name_check_off_by_one`); a negative POS start makes
  `POS` panic (`C20_negative_start`).
* (j) The Japanese filter may yield a base form that is a stop word (`C30_base_form_not_filtered`).
* (k) `-sysdict ""` passes the option check and then fails (`C44_empty_name`).
* (l) The handler of the demo page writes the graph into a pipe. If `dot` ends before it has read everything (a syntax error, a crash, the
  time limit), the handler waits for ever in that write and keeps its lattice (`C50_stuck`, `C50_every_request`). With (f) a client can
  provoke it: a long sentence with a `"` in it.
* (m) The server command does not shut the server down: open requests are cut off, an error can get lost, a signal that comes very early
  ends the process (`C51_cut_off`, `C51_error_lost`, `C51_early_signal`).
* (n) The radio buttons of the demo page send "Search" and "Extended" but the page compares with lower-case names, so no choice stays
  checked. (`C64_radio`, `C64_radio_small`). The picture is put into the page unescaped. A sentence that starts with a line feed is shown in the form without it (`C64_field_wrong`).
* (o) `TokenizeMode.String` prints `extend` for the mode that `-mode` calls `extended` (`C52_mode_flag`).
* (p) `Lattice.Build` called twice without `Free` keeps the nodes of the first text; if the second text is shorter, `Free` does not empty the columns behind it,
  and an unrelated `Analyze` that gets the object from the pool returns words that are not in its text (`C54_build_twice`, `C54_left_over`, `C54_same_length`). A text with more characters
  than any before is safe (`C54_longer`, `C54_growing`).
* (q) The usage line of `tokenize` shows `-userdict` (the flag is `-udict`) and a value for the switch `-simple`; both are refused
  (`C61_tokenize_wrong`). `tokenize` does not say why it refuses a mode, a dictionary or an extra argument (`C60_tokenize_silent`); `lattice` and
  `server` tell a faulty flag twice.
* (r) The script of the demo page writes the texts of the tokens into its table without escaping them: the row of the token `<!--` vanishes, and a
  word of a user dictionary can bring in tags (`C65_row_wrong`, `C65_tags_wrong`); a token with an empty part of speech has no star there, unlike on the
  lattice page (`C65_pos_wrong`). Choosing another mode posts to `./a`, which is not the API (`C65_routes`, `C65_answer`). It does not look which request an
  answer belongs to: if answers overtake each other the table ends with the analysis of an older text (`C67_stale_wrong`).
* (s) Submitted, a text of several lines has CR LF for each line break, while the live table analyses it with LF (`C68_lines`, `C68_differs`). A form of more
  than 10 MB is answered with the empty form, without an error (`C68_large`).
* (t) No error of writing is looked at: on a full disk `tokenize`, `sentence` and `lattice` exit with status 0 and say nothing, although nothing or only a part
  was written (`C70_silent`, `C70_lost`, `C70_gap`).
* (u) The page of the browser example does not escape either, and does not show what was typed before the program was loaded (`C74_row_wrong`,
  `C74_early_wrong`). The stars it prepares for missing features are never used.
* (v) `Free` gives the nodes back as they are: a node in the pool keeps a part of the text it came from, and so the whole text, until it is used again or collected; a
  lattice in the pool keeps its system dictionary (`Toy.C84_text_kept`).
* (w) `Lattice.Free` called twice puts the lattice into the pool twice; two later calls of `Analyze` can then work on the same lattice
  (`Toy.C85_free_twice`).

## Per-property plan

C01 `analyze` in `Option`; induct over the runes of the input: every `addNode` lands in range. Backward: `prev` strictly
 decreases the column, so fuel `columns+1` is enough.
C02-C05, C11 lattice invariant: each node spans rune boundaries `start..start+runeCount surface`; every boundary has an
 outgoing node, so EOS is reachable; a cost argument shows that the chosen predecessor chain ends in BOS while costs
 stay in int32. Then the chain telescopes.
C06, C14-C16, C18 direct inductions over the token loop.
C07 soundness and optimality of Viterbi by induction over columns against a separate definition of admissible words and
 path cost.
C08-C10 characterisation of the nodes that Build adds, lifted along the path.
C12, C13, C45 pointer-level program in a small language with atomic steps (`get`/`put`/`read`/`write`); weakest
 preconditions with ownership; an invariant over all interleavings; `analyze` at pointer level refines the sequential model.
 The goroutines are arbitrary clients (the next call is a function of the replies so far; panics are recovered: `Prog.recovered`), and a writer may panic after
 any number of pieces (`Prog.cut`). Writers that call the tokenizer from their `Write`: C86.
C17 Dot as a list of declared nodes and edges.
C19-C25 token accessors in `Option` with nil modelled.
C26-C32 filters: trie model, in-place compaction over arrays, the assets generated into a Lean file from /repo.
C33-C39 splitter loop over an in-place buffer and a `bufio.Scanner` driver over an arbitrary list of chunks.
C40-C44 command and server logic with flag parsing, JSON decoding and file access as parameters.
C46 counterexample family for saturating costs; a counterexample for costs that wrap around below -2^31.
C47, C48 the commands `sentence` and `lattice`, over the scanner and graph theorems.
C49 the demo page, over the token and graph theorems. C50, C51 state machines of the goroutines of the demo handler and of the server
 command: invariants over every run, a measure for termination, witnesses for what fails.
C52 readers for the printed forms (`Spec/Quote`, `Spec/Text`) and round trips.
C53 a reader for DOT (`Spec/DotText`) and the round trip through the text of the graph.
C54 the exported methods of the lattice as operations on one object with its backing array (`Model/LatticeApi`); a simulation between calls and the
 functions behind `Analyze`.
C55 the predecessor kept by `Forward` is the first of the cheapest; costs of Search are never below those of Normal; induction along the best path.
C56 a map on nodes that renames ids commutes with `Build`, `Forward`, `Backward` and the token loop.
C57 the loops of `Build`, `Forward` and `Backward` with counters (`Model/Effort`); double counting of pairs by the column between them; the nodes and edges of the graph are among the nodes and pairs counted (`Proof/GraphSize`).
C58 the order of nodes in a column (earlier start first, then the order of the dictionaries) and "first of the cheapest"; two analyses compared at their last difference.
C59 a chain of calls: each keeps a filter of the tokens (C26, C28, C29); filters of lists compose, commute and split.
C60 refusals: each `parse` returns an error exactly for the faults of `Spec/Refusal` (induction over the arguments for the flag package, then the checks in order); the notes are rendered to the bytes of stderr.
C61 help: the usage lines and `PrintDefaults` are read back by the readers of `Spec/Usage`; command lines built from them are shown to be in the grammar of C44.
C62 the terms of the stored text are those of its words (induction along the bytes, with the term read so far); `Compact` keeps membership.
C63 the loops of the example programs against `printTokens` and `NewTokenData`; with C02, C04, C14.
C64 pages: the template's static text is read by the kernel piece by piece with the HTML reader of `Spec/Html`; escaped texts leave the reader in the same state and read back (induction along the text).
C65 live table: the rows the script writes, read with the same reader; negations by witnesses on the small dictionary.
C66 requests: the scanner of `Go/JsonDecode` accepts exactly the texts of the grammar in `Spec/JsonText` (soundness by induction on fuel, completeness by induction on the derivation); a wrong byte is the first that cannot be continued (each part of the scanner is shown to look one byte ahead only); the stored fields against `Spec/Request`.
C67 typing: `JSON.stringify` on UTF-16 is shown to write a text of the grammar of `Spec/JsonText` for what the code units stand for (`Spec/Live`, induction on the reading; the case of a lone surrogate needs that an escape of a low surrogate comes from one); with C66 and C43 this gives the rows. The page is a state machine; the two statements about histories are inductions over the events.
C68 forms: `QueryUnescape`, the cutting into pieces and `FormValue` against the relations of `Spec/Form` (induction on the text; pieces are unique); the serializer of the browser, by a table over bytes, writes a text that stands for the given one and has no separators.
C69 failures: case analysis along the order in which the commands look for things; the reasons are relations over `World` (`Spec/Failure`), shown to be exclusive and complete.
C70 lost output: an invariant of `bufio.Writer` (what was given = what the file got ++ what is buffered, or the file got a strict beginning), by induction over the writes; the commands with an output that may fail are compared with the commands of `Model/Cmd` step by step. The full statement is refuted by evaluation.
C71 unused words: the characterisation of results by `Chosen` (C58): an analysis with the smaller dictionaries is one with the larger, not cheaper; the order among ties is that of the offers, which filtering keeps; so the chosen analysis stays the chosen one. The need of the side condition by a concrete pair of dictionaries.
C72 costs: both results are of least cost (C07); lowering by `δ` changes the cost of every analysis by `δ` times its number of marks, so the number cannot go down. That places may change by evaluation.
C73 word lists: the contract `WellFormed` is derived from conditions on lists (`Spec/Tables`); the rest follows from C01, C02, C07, C08.
C74 the browser page: the UTF-16 reading of `Spec/Live` against `TextEncoder`; C63 for the call; rows read with the HTML reader of `Spec/Html`; the statement about histories is an induction over the events. Negations by evaluation.
C75 unit and place of costs: total costs of all analyses change by the same factor (the moved parts cancel along a path), so the chosen analysis of C58 is the same. The limits by evaluation.
C76 dialog: `Model/Dialog` is the scan with its reads and writes in order; induction over the reads. Its output is that of the command (C76_same), so both models say the same.
C77 locality: the chosen analyses (C58) of two texts are cut at the common word and put together crosswise; the costs split at that word and the preference looks at the first difference from the end, so two different halves would each have to beat the other. Conditions on the dictionaries only for the words before; needed, by evaluation.
C78 splitting again: on the direct definition of sentences (`Spec/Sentence`), the characters of a cut-off sentence are read again with the same counters (`body_again`), and white space behind a sentence with an end of its own is dropped (`body_then_blanks`); then C38 and C47 for scanner and command. The negation by evaluation.
C79 work of the splitter: the loops with a counter (`Model/SplitEffort`), erased to the originals; by induction over the rounds each of which goes at least one and at most four bytes further; added up over the calls (C35: every token comes with progress) and the reads (less than 64 KiB pending). The quadratic lower bound by induction over the reads.
C80 reading back: a small reader of tables (`Spec/ReadBack`); by induction over the rows and texts on top of C41; the words of a text without line feeds have none (C08, C15), a bare row is one character. Ambiguity without the condition by evaluation.
C81 reading the JSON back: a reader of values one after another (`Spec/ReadJson`), by induction over the texts on top of the readings of C42; places from C04 (the characters of the text are those of its pieces, in order). The loss in Extended mode by evaluation.
C82 the server under load: the handlers as clients of the machine of C13 (`Model/Connection`); the answers alone from the trace of the calls (`Client.Alone`), by induction over the requests; totality from C43, C49, C66.
C83 ownership of the lists: the accessors on a memory of arrays (`Model/Slices`: a slice is array, offset, length, capacity; `append` in place when there is room); a program that calls and scribbles (`Model/Handed`); refinement to lists without memory by an invariant (every slice that was handed out is alone in an array made after the dictionaries). Limitation: writes into the room beyond the length by re-slicing past `len` (`s[:cap(s)]`) and two parts kept of one list are the caller's own sharing and not among the steps.
C84 what is kept: reachability from the two pools (`Spec/Keep`) over whole arrays; the invariant of C45 extended (no pointers behind the ends of the slices of any lattice in use or free; input and user dictionary empty in the pool). The nodes keep their text: a finished run, by evaluation.
C85 own lattices: `New`, `Build`, any `Forward` and `Backward`, a look at `Output`, deferred `Free` as programs on shared memory (`Model/ProgLattice`), a further kind of call in the machine of C13; refinement to the object of C54 (pointers of `Output` into the lattice or to nodes of its own; `Forward` by the frame rule). Not modelled: a second `Build` before `Free` (C54 shows what it does) and reading `Output` after `Free` (`Toy.C85_read_late` shows what it does). `Dot`: C87.
C86 nested calls: a program before each of whose steps another one runs (`Prog.visited`); visitors make calls with visitors inside, to any depth, and are clients of the machine of C13 (`Client.during`), so the invariant of C13 and C45 is about them; frame rule for lattices and nodes (`wp_join`), induction over the visitor (`wp_visitor`). More than the code allows: visits also before steps between which Go runs no code of the client.
C87 own `Dot`: `Lattice.dot` is the graph of C17 for whatever pointers are in `Output`; the invariant of C54 says the columns are solved in the mode of the last `Forward`, from which `ShowsWords` follows for any set of marked nodes; the program on shared memory (`drawP`) refines it as that of `AnalyzeGraph` does (C13), with a writer that may panic. Costs and predecessors do not enter the graph (`dotGraph_skel`), so it may also come before the first `Forward`. `Dot` between other calls: C89.
C88 split first: a sentence is a body of at most `MaxRuneLen` characters and a run of delimiters and followers (`Whole` of C37), a factor of the text (C33, C34), so `Tame` (the bound of C02) holds without a bound on the text; C02, C03, C04, C80, C81 for the sentences; the pipe by `scan_lines` on the output of `sentence`, which has no line feed or carriage return within a sentence. Limit: readers that deliver whole characters (C37 is partial otherwise).
C89 looking at a lattice in use: `Forward`, `Backward`, looks at `Output` and `Dot` with recovered panics, in any order, as programs on shared memory (`sessionP`); refinement by induction over the list (`wp_acts`), the addresses of the nodes staying the same from `Build` to `Free`; positions of the sights by splitting the list.
C90 filters in goroutines: series of calls of `Drop` and `Keep` as a machine with one access to a cell per step (`Model/FilterRun`); invariant over the schedule: what a goroutine still has to do, done alone on its slice as it is now, gives what its calls give alone on the slice as it was (`resume`); writes stay within the slice; a measure for the end. Then C29 for the tokens and the filters of the library.

## Axioms

From `collectAxioms`, for the theorems named in MANIFEST.json (namespace `Kagome`):

* [propext]: `C22_nil`, `C23_equal`, `C23_equal_equiv`, `C23_equal_position`, `C28_words`, `C30_options`, `C40_status`, `C50_stuck`
* [propext, Quot.sound]: `C29_generic`, `C29_idempotent`, `C29_pure`, `C29_word`, `C32_lines`, `C32_load`, `C32_too_long`, `C50_ends`, `C50_goes_on`, `C50_prefix`, `C50_reaches_partial`, `C50_returns_partial`, `C50_violated`, `C57_rounds`, `C58_offers`, `C68_encoded`, `C68_lines`, `C77_tables`, `C79_counts_call`, `C79_counts_scan`
* [propext, Classical.choice, Quot.sound]: `C01_empty_key`, `C01_total`, `C02_broken_key`, `C02_lossless`, `C02_lossless_short`, `C02_replacement_counterexample`, `C02_valid`, `C03_lossless_repaired`, `C03_lossless_valid`, `C03_repaired_spec`, `C04_offsets`, `C04_slices`, `C05_frame`, `C06_index`, `C07_minimal_cost`, `C07_mode`, `C08_source`, `C09_user_first`, `C10_unknown`, `C11_empty`, `C11_words`, `C12_history`, `C12_text`, `C13_list`, `C13_no_panic`, `C13_no_race`, `C13_progress`, `C13_results`, `C13_terminates`, `C13_tokens`, `C14_modes`, `C14_wakati`, `C14_wakati_join`, `C15_extended`, `C16_deviation`, `C16_graph`, `C17_extended`, `C17_extended_gap`, `C17_graph`, `C17_quote`, `C18_message`, `C18_new`, `C19_feature_at`, `C19_features_unique`, `C19_name_check_off_by_one`, `C20_dummy`, `C20_known`, `C20_negative_start`, `C20_unknown`, `C20_user`, `C21_named`, `C21_none`, `C22_user`, `C23_equal_features`, `C23_equal_features_equiv`, `C23_equal_pos_equiv`, `C23_token_features`, `C23_token_pos`, `C24_token_data`, `C25_harmless`, `C26_clash_missed`, `C26_clash_spurious`, `C26_exact`, `C26_literal`, `C26_matches`, `C26_noclash`, `C27_again`, `C27_clash`, `C27_less`, `C27_more`, `C27_order`, `C29_nil`, `C29_pos`, `C30_base_form_not_filtered`, `C30_drop_nil`, `C30_yield_drop`, `C31_broken`, `C31_broken_text`, `C31_default`, `C32_entries`, `C33_exact`, `C33_never_too_long`, `C34_any_chunks`, `C34_cut_character`, `C34_long_gap`, `C34_white_space`, `C34_whole_characters`, `C35_contract`, `C35_scan_ends`, `C36_default`, `C36_default_cut`, `C36_no_early_cut`, `C36_shape`, `C37_apart_partial`, `C37_claim_false`, `C37_double`, `C37_second_feed`, `C37_single_partial`, `C37_single_violated`, `C37_two_lines`, `C38_at_once_partial`, `C38_claim_false`, `C38_cut_needed`, `C38_each_read`, `C38_one_read_partial`, `C38_parts`, `C38_safe_cuts_partial`, `C38_same_text_partial`, `C38_violated`, `C39_in_place`, `C39_unread`, `C40_default`, `C40_named`, `C41_first_column`, `C41_lines`, `C41_long`, `C41_no_silent_loss`, `C41_texts`, `C42_agree`, `C42_command`, `C42_extended`, `C42_extended_differs`, `C43_answer`, `C43_any`, `C43_empty`, `C43_mode`, `C43_total`, `C43_undecoded`, `C44_empty_name`, `C44_lattice`, `C44_other_dict`, `C44_sentence`, `C44_server`, `C44_tokenize`, `C44_tokenize_dict`, `C44_unique`, `C45_clean`, `C45_ok`, `C45_one_owner`, `C45_returned`, `C46_fails`, `C46_suffix`, `C47_complete`, `C47_each_read`, `C47_lines`, `C47_no_file`, `C47_sentences`, `C48_graph`, `C48_no_file`, `C48_no_user_dict`, `C48_verbose`, `C49_form`, `C49_page`, `C50_claim_false`, `C50_every_request`, `C50_graph_partial`, `C51_claim_false`, `C51_cut_off`, `C51_early_signal`, `C51_error_lost`, `C51_goes_on`, `C51_open`, `C51_reason`, `C51_returns`, `C52_filter`, `C52_filter_line_break`, `C52_lattice`, `C52_lattice_line_break`, `C52_mode`, `C52_mode_flag`, `C52_token`, `C52_token_determined`, `C53_analyze`, `C53_backslash`, `C53_injected`, `C53_text`, `C53_unreadable`, `C54_analyze`, `C54_any`, `C54_build_twice`, `C54_growing`, `C54_kept`, `C54_left_over`, `C54_longer`, `C54_same_length`, `C54_session`, `C54_sessions`, `C55_differs`, `C55_extended`, `C55_same`, `C55_surplus`, `C56_data`, `C56_example`, `C56_no_user`, `C56_no_user_data`, `C56_renumber`, `C56_wakati`, `C57_counts`, `C57_drawn`, `C57_graph`, `C57_linear`, `C57_tokens`, `C57_toy`, `C58_chosen`, `C58_determined`, `C58_tie`, `C58_unique`, `C59_chain`, `C59_order`, `C59_share`, `C59_words`, `C60_default`, `C60_reason`, `C60_tokenize`, `C60_tokenize_silent`, `C60_told`, `C60_version`, `C61_commands`, `C61_flags`, `C61_program`, `C61_readme`, `C61_tokenize_partial`, `C61_tokenize_wrong`, `C61_usage`, `C61_values`, `C62_printed`, `C62_search`, `C62_words`, `C63_tokenize`, `C63_user_dict`, `C63_wakati`, `C63_wasm`, `C63_wasm_null`, `C64_cells`, `C64_field_lost`, `C64_field_partial`, `C64_field_wrong`, `C64_form`, `C64_lattice`, `C64_radio`, `C64_radio_small`, `C64_tags`, `C65_answer`, `C65_pos_wrong`, `C65_routes`, `C65_row_partial`, `C65_row_wrong`, `C65_same_partial`, `C65_tags_wrong`, `C66_client`, `C66_error_body`, `C66_error_json`, `C66_marshal`, `C66_ok`, `C66_refused`, `C66_status`, `C66_total`, `C66_valid`, `C67_any_order`, `C67_history`, `C67_last_partial`, `C67_request`, `C67_rows`, `C67_stale_wrong`, `C68_differs`, `C68_large`, `C68_submit`, `C68_value`, `C69_default`, `C69_lattice`, `C69_sentence`, `C69_server`, `C69_tokenize`, `C70_gap`, `C70_lattice`, `C70_lost`, `C70_room_partial`, `C70_sentence`, `C70_silent`, `C70_tokenize`, `C71_added`, `C71_suppresses`, `C71_unused`, `C72_connections`, `C72_moves`, `C72_words`, `C73_user_word`, `C73_well_formed`, `C73_words`, `C74_early_wrong`, `C74_history_partial`, `C74_row_wrong`, `C75_place`, `C75_search_differs`, `C75_unit`, `C75_user_differs`, `C76_lines`, `C76_same`, `C76_sentence`, `C76_split`, `C77_apart`, `C77_before`, `C77_reaches`, `C77_rest`, `C78_claim_false`, `C78_command_no_feed`, `C78_command_partial`, `C78_contained`, `C78_each`, `C78_lines_partial`, `C78_merged`, `C78_one`, `C78_reflow_partial`, `C78_violated`, `C79_any_reader`, `C79_at_once`, `C79_call`, `C79_rescan`, `C80_ambiguous`, `C80_injective`, `C80_lines`, `C80_split`, `C80_table`, `C80_words`, `C81_extended`, `C81_injective`, `C81_lines`, `C81_places`, `C81_split`, `C81_stream`, `C81_words`, `C82_answers`, `C82_api`, `C82_every`, `C82_progress`, `C83_dictionary`, `C83_tokens`, `C83_values`, `C84_collected_partial`, `C84_no_nodes`, `C84_only_nodes_partial`, `C84_user_dict`, `C85_alone`, `C85_output`, `C86_finishes`, `C86_inner`, `C86_lattice`, `C86_nested`, `C86_outer`, `C86_returned`, `C87_between`, `C87_dot`, `C87_same`, `C87_shared`, `C87_writer`, `C88_command`, `C88_json`, `C88_lossless`, `C88_pipe`, `C88_places`, `C88_short`, `C88_tame`, `C89_kept`, `C89_session`, `C90_alone`, `C90_filters`, `C90_finishes`, `C90_no_race`, `C90_results`, `C90_yield`, `Heavy.C46_lost`, `Heavy.C88_heavy`, `Heavy.C88_runs_needed`, `Light.C46_wraps`, `Toy.C84_text_kept`, `Toy.C85_free_twice`, `Toy.C85_read_late`, `Toy.C88_differs`, `Toy.C88_pipe_toy`, `Toy.C88_places_toy`, `Toy.C88_toy`, `Toy.C90_overlap`, `printTokensJSON_spec`
