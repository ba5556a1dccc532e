{
 "claims": [
  {
   "property": "C01",
   "status": "proved",
   "theorems": [
    "Kagome.C01_total",
    "Kagome.C01_empty_key"
   ],
   "note": "Hypotheses: well-formed dictionary (needed: C01_empty_key, an empty key makes Backward endless)."
  },
  {
   "property": "C02",
   "status": "proved",
   "theorems": [
    "Kagome.C02_lossless",
    "Kagome.C02_valid",
    "Kagome.C02_lossless_short",
    "Kagome.C02_replacement_counterexample",
    "Kagome.C02_broken_key"
   ],
   "note": "Hypotheses: well-formed dictionary (needed: C02_broken_key), costs in int32 range, U+FFFD in a grouping category (needed: counterexample)."
  },
  {
   "property": "C03",
   "status": "proved",
   "theorems": [
    "Kagome.C03_lossless_repaired",
    "Kagome.C03_lossless_valid",
    "Kagome.C03_repaired_spec"
   ],
   "note": ""
  },
  {
   "property": "C04",
   "status": "proved",
   "theorems": [
    "Kagome.C04_offsets",
    "Kagome.C04_slices"
   ],
   "note": ""
  },
  {
   "property": "C05",
   "status": "proved",
   "theorems": [
    "Kagome.C05_frame"
   ],
   "note": ""
  },
  {
   "property": "C06",
   "status": "proved",
   "theorems": [
    "Kagome.C06_index"
   ],
   "note": ""
  },
  {
   "property": "C07",
   "status": "proved",
   "theorems": [
    "Kagome.C07_minimal_cost",
    "Kagome.C07_mode"
   ],
   "note": ""
  },
  {
   "property": "C08",
   "status": "proved",
   "theorems": [
    "Kagome.C08_source"
   ],
   "note": ""
  },
  {
   "property": "C09",
   "status": "proved",
   "theorems": [
    "Kagome.C09_user_first"
   ],
   "note": "The DUMMY unigrams of Extended mode are excepted: they may stand inside an unknown word."
  },
  {
   "property": "C10",
   "status": "proved",
   "theorems": [
    "Kagome.C10_unknown"
   ],
   "note": ""
  },
  {
   "property": "C11",
   "status": "proved",
   "theorems": [
    "Kagome.C11_words",
    "Kagome.C11_empty"
   ],
   "note": ""
  },
  {
   "property": "C12",
   "status": "proved",
   "theorems": [
    "Kagome.C12_history",
    "Kagome.C12_text",
    "Kagome.C13_results"
   ],
   "note": "Calls of Analyze and AnalyzeGraph (graphs agree up to the printed addresses). Pointer-level model of the lattice and its pools (Model/Prog, Model/ProgDot, Model/Machine). Reachable states include every history, every recycling choice and every dropped object; recycled nodes keep their old contents. Examples run concrete schedules."
  },
  {
   "property": "C13",
   "status": "proved",
   "theorems": [
    "Kagome.C13_results",
    "Kagome.C13_tokens",
    "Kagome.C13_list",
    "Kagome.C13_no_panic",
    "Kagome.C13_no_race",
    "Kagome.C13_progress",
    "Kagome.C13_terminates"
   ],
   "note": "Every interleaving of atomic reads, writes, Get, Put of any number of goroutines. A goroutine is any client (Model/Machine: Client): its next call may depend on the replies so far, and it goes on after a panic it recovers; AnalyzeGraph may get a writer that panics after any number of pieces. Writers that themselves call the tokenizer are not modelled. Race freedom justifies the sequentially consistent memory of the machine."
  },
  {
   "property": "C14",
   "status": "proved",
   "theorems": [
    "Kagome.C14_modes",
    "Kagome.C14_wakati",
    "Kagome.C14_wakati_join"
   ],
   "note": ""
  },
  {
   "property": "C15",
   "status": "proved",
   "theorems": [
    "Kagome.C15_extended"
   ],
   "note": ""
  },
  {
   "property": "C16",
   "status": "proved",
   "theorems": [
    "Kagome.C16_graph",
    "Kagome.C16_deviation"
   ],
   "note": ""
  },
  {
   "property": "C17",
   "status": "proved",
   "theorems": [
    "Kagome.C17_graph",
    "Kagome.C17_extended",
    "Kagome.C17_extended_gap",
    "Kagome.C17_quote"
   ],
   "note": "Under well-formed dictionary tables, Spec.PosTables (Dot's own unchecked lookups) and the condition on U+FFFD of C02 (ReplacementOk). Extended mode: the graph shows no unknown word (C17_extended, C17_extended_gap). Labels are not escaped (C17_quote)."
  },
  {
   "property": "C18",
   "status": "proved",
   "theorems": [
    "Kagome.C18_new",
    "Kagome.C18_message"
   ],
   "note": ""
  },
  {
   "property": "C19",
   "status": "proved",
   "theorems": [
    "Kagome.C19_feature_at",
    "Kagome.C19_features_unique",
    "Kagome.C19_name_check_off_by_one"
   ],
   "note": "the bound check on POS names is off by one for dictionaries whose name table is too short"
  },
  {
   "property": "C20",
   "status": "proved",
   "theorems": [
    "Kagome.C20_known",
    "Kagome.C20_unknown",
    "Kagome.C20_user",
    "Kagome.C20_dummy",
    "Kagome.C20_negative_start"
   ],
   "note": "for metadata whose start is not negative; a negative start makes POS panic (shown)"
  },
  {
   "property": "C21",
   "status": "proved",
   "theorems": [
    "Kagome.C21_named",
    "Kagome.C21_none"
   ],
   "note": ""
  },
  {
   "property": "C22",
   "status": "proved",
   "theorems": [
    "Kagome.C22_nil",
    "Kagome.C22_user"
   ],
   "note": "slices modelled as heap addresses"
  },
  {
   "property": "C23",
   "status": "proved",
   "theorems": [
    "Kagome.C23_equal_features",
    "Kagome.C23_token_features",
    "Kagome.C23_token_pos",
    "Kagome.C23_equal_features_equiv",
    "Kagome.C23_equal_pos_equiv",
    "Kagome.C23_equal",
    "Kagome.C23_equal_equiv",
    "Kagome.C23_equal_position"
   ],
   "note": ""
  },
  {
   "property": "C24",
   "status": "proved",
   "theorems": [
    "Kagome.C24_token_data"
   ],
   "note": ""
  },
  {
   "property": "C25",
   "status": "proved",
   "theorems": [
    "Kagome.C25_harmless"
   ],
   "note": ""
  },
  {
   "property": "C26",
   "status": "proved",
   "theorems": [
    "Kagome.C26_matches",
    "Kagome.C26_literal",
    "Kagome.C26_clash_missed",
    "Kagome.C26_clash_spurious",
    "Kagome.C26_exact",
    "Kagome.C26_noclash"
   ],
   "note": "C26_exact holds for all patterns (Spec.Accepts); for patterns that do not clash it is the plain prefix rule (C26_matches)"
  },
  {
   "property": "C27",
   "status": "proved",
   "theorems": [
    "Kagome.C27_order",
    "Kagome.C27_clash",
    "Kagome.C27_again",
    "Kagome.C27_more",
    "Kagome.C27_less"
   ],
   "note": "order: for patterns that do not clash, false otherwise (shown); repetition and growth at the end: for all patterns"
  },
  {
   "property": "C28",
   "status": "proved",
   "theorems": [
    "Kagome.C28_words"
   ],
   "note": ""
  },
  {
   "property": "C29",
   "status": "proved",
   "theorems": [
    "Kagome.C29_generic",
    "Kagome.C29_nil",
    "Kagome.C29_pure",
    "Kagome.C29_idempotent",
    "Kagome.C29_pos",
    "Kagome.C29_word"
   ],
   "note": ""
  },
  {
   "property": "C30",
   "status": "proved",
   "theorems": [
    "Kagome.C30_yield_drop",
    "Kagome.C30_drop_nil",
    "Kagome.C30_options",
    "Kagome.C30_base_form_not_filtered"
   ],
   "note": ""
  },
  {
   "property": "C31",
   "status": "proved",
   "theorems": [
    "Kagome.C31_default",
    "Kagome.C31_broken",
    "Kagome.C31_broken_text"
   ],
   "note": "the embedded files are in the model byte by byte"
  },
  {
   "property": "C32",
   "status": "proved",
   "theorems": [
    "Kagome.C32_load",
    "Kagome.C32_lines",
    "Kagome.C32_too_long",
    "Kagome.C32_entries"
   ],
   "note": "bufio.Scanner with ScanLines modelled by its contract"
  },
  {
   "property": "C33",
   "status": "proved",
   "theorems": [
    "Kagome.C33_exact",
    "Kagome.C33_never_too_long"
   ],
   "note": "The in-place loop and a bufio.Scanner driver over arbitrary read results. Regular end gives exact equality; other ends give a prefix. ErrTooLong is excluded for MaxRuneLen <= 16384."
  },
  {
   "property": "C34",
   "status": "proved",
   "theorems": [
    "Kagome.C34_whole_characters",
    "Kagome.C34_any_chunks",
    "Kagome.C34_cut_character",
    "Kagome.C34_long_gap",
    "Kagome.C34_white_space"
   ],
   "note": "Exact for readers delivering whole characters; for arbitrary chunkings of valid UTF-8 nothing but white space disappears, though some may survive (C34_cut_character). C34_long_gap: a long run of white space inside a sentence ends the scan with ErrTooLong."
  },
  {
   "property": "C35",
   "status": "proved",
   "theorems": [
    "Kagome.C35_contract",
    "Kagome.C35_scan_ends"
   ],
   "note": "Every data slice, flag, configuration and finite reader."
  },
  {
   "property": "C36",
   "status": "proved",
   "theorems": [
    "Kagome.C36_shape",
    "Kagome.C36_no_early_cut",
    "Kagome.C36_default",
    "Kagome.C36_default_cut"
   ],
   "note": ""
  },
  {
   "property": "C37",
   "status": "partial",
   "theorems": [
    "Kagome.C37_double",
    "Kagome.C37_single_violated",
    "Kagome.C37_claim_false",
    "Kagome.C37_single_partial",
    "Kagome.C37_apart_partial",
    "Kagome.C37_second_feed",
    "Kagome.C37_two_lines"
   ],
   "note": "First half proved. Second half (C37_claim) is false of the code: C37_single_violated, C37_claim_false; proved for texts with at most one line feed after the skipped beginning, and more generally when any two line feeds of the consumed text have other white space and an ordinary character between them. What the code does instead is proved for all texts with such line feeds: C37_second_feed (one call), C37_two_lines (a whole text of lines is cut behind every second line)."
  },
  {
   "property": "C38",
   "status": "partial",
   "theorems": [
    "Kagome.C38_each_read",
    "Kagome.C38_parts",
    "Kagome.C38_violated",
    "Kagome.C38_claim_false",
    "Kagome.C38_at_once_partial",
    "Kagome.C38_one_read_partial",
    "Kagome.C38_safe_cuts_partial",
    "Kagome.C38_same_text_partial",
    "Kagome.C38_cut_needed"
   ],
   "note": "Chunk independence (C38_claim) is false of the code (two counterexamples, C38_claim_false). Proved: when the text is delivered at once, in one read, or in any number of reads cut only in front of ordinary characters, white space aside, or behind one in the middle of a sentence below the length limit (and not after a line feed that is the last white space, unless the end of a sentence, a delimiter and its followers, stands before it; C38_cut_needed shows by witnesses that the conditions are needed), the result equals the direct definition Spec.sentences. C38_each_read: reads that each end with a delimiter, or with followers behind one, (and white space) are split each on its own, also where that differs from the whole text. C38_parts: if they also begin with ordinary characters, the sentences of the parts are those of the text."
  },
  {
   "property": "C39",
   "status": "proved",
   "theorems": [
    "Kagome.C39_unread",
    "Kagome.C39_in_place"
   ],
   "note": "The loop of the client is Spec/InPlace.splitInPlace."
  },
  {
   "property": "C40",
   "status": "proved",
   "theorems": [
    "Kagome.C40_named",
    "Kagome.C40_default",
    "Kagome.C40_status"
   ],
   "note": "main with a subcommand name runs that subcommand; otherwise the arguments are options of tokenize if they form a legal command line (grammar in Spec/CommandLine), else usage and exit status 1."
  },
  {
   "property": "C41",
   "status": "proved",
   "theorems": [
    "Kagome.C41_texts",
    "Kagome.C41_lines",
    "Kagome.C41_long",
    "Kagome.C41_no_silent_loss",
    "Kagome.C41_first_column"
   ],
   "note": "For every legal command line without -json, every reader and chunking: per text the token lines and EOS; without -split the texts are the lines of the input (a line of 65536 bytes or more ends the run of a file with an error that says so, after everything before it, C41_long)."
  },
  {
   "property": "C42",
   "status": "proved",
   "theorems": [
    "Kagome.C42_command",
    "Kagome.C41_long",
    "Kagome.C42_agree",
    "Kagome.C42_extended",
    "Kagome.C42_extended_differs",
    "Kagome.printTokensJSON_spec"
   ],
   "note": "The bytes are read back by a strict JSON reader (Spec/Json). A text that is not valid UTF-8 is carried with U+FFFD in place of each bad byte, as encoding/json does. The shorter escapes of newer Go versions are a parameter."
  },
  {
   "property": "C43",
   "status": "proved",
   "theorems": [
    "Kagome.C43_answer",
    "Kagome.C43_empty",
    "Kagome.C43_undecoded",
    "Kagome.C43_total",
    "Kagome.C43_mode",
    "Kagome.C43_any"
   ],
   "note": "The decoding of the request body is a parameter here; see C66 for the decoder."
  },
  {
   "property": "C44",
   "status": "proved",
   "theorems": [
    "Kagome.C44_tokenize",
    "Kagome.C44_lattice",
    "Kagome.C44_server",
    "Kagome.C44_sentence",
    "Kagome.C44_unique",
    "Kagome.C44_tokenize_dict",
    "Kagome.C44_empty_name",
    "Kagome.C44_other_dict"
   ],
   "note": "Option checks accept exactly the legal command lines of an independent grammar; Run then goes on with the options the line gives."
  },
  {
   "property": "C45",
   "status": "proved",
   "theorems": [
    "Kagome.C45_one_owner",
    "Kagome.C45_returned",
    "Kagome.C45_ok",
    "Kagome.C45_clean"
   ],
   "note": "Includes calls that panic (broken dictionaries, writers that panic): the deferred Free still gives the lattice back; at most a node taken but not yet linked stays out of the pool."
  },
  {
   "property": "C46",
   "status": "proved",
   "theorems": [
    "Kagome.C46_suffix",
    "Kagome.Heavy.C46_lost",
    "Kagome.C46_fails",
    "Kagome.Light.C46_wraps",
    "Kagome.C02_lossless_short"
   ],
   "note": "For every length the surfaces are a suffix of the input and something is missing exactly when BOS is missing; with costs in range (Fits, e.g. up to 16000 characters for any 16-bit costs) nothing is missing; an infinite family of texts where the beginning is lost; a text for which a cost below -2^31 wraps around and the result is not the cheapest (C07)."
  },
  {
   "property": "C47",
   "status": "proved",
   "theorems": [
    "Kagome.C47_lines",
    "Kagome.C47_complete",
    "Kagome.C47_sentences",
    "Kagome.C47_each_read",
    "Kagome.C47_no_file"
   ],
   "note": "Writes to stdout do not fail in the model."
  },
  {
   "property": "C48",
   "status": "proved",
   "theorems": [
    "Kagome.C48_graph",
    "Kagome.C48_verbose",
    "Kagome.C48_no_file",
    "Kagome.C48_no_user_dict"
   ],
   "note": "Writes do not fail in the model. What the graph shows is C17."
  },
  {
   "property": "C49",
   "status": "proved",
   "theorems": [
    "Kagome.C49_form",
    "Kagome.C49_page"
   ],
   "note": "html/template is not modelled: the page is the values given to it. Graphviz is an arbitrary function. That the handler gets this far is C50."
  },
  {
   "property": "C50",
   "status": "partial",
   "theorems": [
    "Kagome.C50_every_request",
    "Kagome.C50_violated",
    "Kagome.C50_stuck",
    "Kagome.C50_claim_false",
    "Kagome.C50_prefix",
    "Kagome.C50_ends",
    "Kagome.C50_goes_on",
    "Kagome.C50_returns_partial",
    "Kagome.C50_reaches_partial",
    "Kagome.C50_graph_partial"
   ],
   "note": "The claim (C50_claim) is false of the code: if the process ends before it has read its input the handler never returns and keeps its lattice. Proved for processes that read to the end; no run is infinite; the process never gets anything but a prefix of the text."
  },
  {
   "property": "C51",
   "status": "partial",
   "theorems": [
    "Kagome.C51_reason",
    "Kagome.C51_returns",
    "Kagome.C51_open",
    "Kagome.C51_cut_off",
    "Kagome.C51_claim_false",
    "Kagome.C51_goes_on",
    "Kagome.C51_error_lost",
    "Kagome.C51_early_signal"
   ],
   "note": "The reasons for returning and the ability to return are proved for every schedule. The orderly end (C51_claim) is false of the code: no shutdown, errors can be lost, early signals kill the process."
  },
  {
   "property": "C52",
   "status": "proved",
   "theorems": [
    "Kagome.C52_token",
    "Kagome.C52_token_determined",
    "Kagome.C52_mode",
    "Kagome.C52_mode_flag",
    "Kagome.C52_filter",
    "Kagome.C52_filter_line_break",
    "Kagome.C52_lattice",
    "Kagome.C52_lattice_line_break"
   ],
   "note": "strconv.Quote is modelled with the set of printable characters as a parameter. The printed form of the third mode is not a value of -mode. The filter half needs features without line breaks and leading spaces (false otherwise, shown)."
  },
  {
   "property": "C53",
   "status": "proved",
   "theorems": [
    "Kagome.C53_text",
    "Kagome.C53_analyze",
    "Kagome.C53_unreadable",
    "Kagome.C53_injected",
    "Kagome.C53_backslash"
   ],
   "note": "Reader for the part of DOT that is used (Spec/DotText). Needs texts without quotation marks, backslashes and line feeds; fails otherwise (three witnesses)."
  },
  {
   "property": "C54",
   "status": "proved",
   "theorems": [
    "Kagome.C54_session",
    "Kagome.C54_any",
    "Kagome.C54_analyze",
    "Kagome.C54_sessions",
    "Kagome.C54_kept",
    "Kagome.C54_longer",
    "Kagome.C54_growing",
    "Kagome.C54_build_twice",
    "Kagome.C54_left_over",
    "Kagome.C54_same_length"
   ],
   "note": "What Output has to hold is said through the tokens of Analyze (Spec/LatticeApi). C54_longer and C54_growing say when a second Build without Free is safe; the three last theorems are witnesses for what happens otherwise."
  },
  {
   "property": "C55",
   "status": "proved",
   "theorems": [
    "Kagome.C55_same",
    "Kagome.C55_extended",
    "Kagome.C55_surplus",
    "Kagome.C55_differs"
   ],
   "note": "C55_same and C55_extended need well-formed dictionaries and costs that fit; C55_surplus also the condition on U+FFFD (Tame). C55_differs: the example of the README on a small dictionary."
  },
  {
   "property": "C56",
   "status": "proved",
   "theorems": [
    "Kagome.C56_renumber",
    "Kagome.C56_wakati",
    "Kagome.C56_data",
    "Kagome.C56_no_user",
    "Kagome.C56_no_user_data",
    "Kagome.C56_example"
   ],
   "note": "C56_renumber, C56_wakati and C56_no_user need no hypothesis on the dictionaries besides that they answer alike; the two about data need a well-formed dictionary."
  },
  {
   "property": "C57",
   "status": "proved",
   "theorems": [
    "Kagome.C57_linear",
    "Kagome.C57_tokens",
    "Kagome.C57_counts",
    "Kagome.C57_rounds",
    "Kagome.C57_graph",
    "Kagome.C57_drawn",
    "Kagome.C57_toy"
   ],
   "note": "Rounds of loops are counted, not time: the dictionary look-ups (outside /repo) and the decoding of characters count as one step. C57_counts ties the counted functions to those of the analysis."
  },
  {
   "property": "C58",
   "status": "proved",
   "theorems": [
    "Kagome.C58_chosen",
    "Kagome.C58_unique",
    "Kagome.C58_determined",
    "Kagome.C58_offers",
    "Kagome.C58_tie"
   ],
   "note": "Chosen (Spec/Choice.lean) is stated from the dictionaries' answers and the costs of whole analyses, without the lattice; C58_unique shows that it singles out one analysis, C58_tie a text with three cheapest analyses."
  },
  {
   "property": "C59",
   "status": "proved",
   "theorems": [
    "Kagome.C59_chain",
    "Kagome.C59_order",
    "Kagome.C59_words",
    "Kagome.C59_share"
   ],
   "note": "The filters' calls are run on one slice with its backing array (Spec/FilterChain.lean); whether a token stays is stated from its surface, its POS and the words or patterns alone. The patterns may clash (C26_exact); the tokens must have a POS (C25)."
  },
  {
   "property": "C60",
   "status": "partial",
   "theorems": [
    "Kagome.C60_reason",
    "Kagome.C60_told",
    "Kagome.C60_tokenize",
    "Kagome.C60_tokenize_silent",
    "Kagome.C60_default",
    "Kagome.C60_version"
   ],
   "note": "Faults are defined by an independent grammar (Spec/Refusal). The full claim fails for tokenize: two different faults give the same text (C60_tokenize_silent); everything else of the claim is proved for it (C60_tokenize) and all of it for the others."
  },
  {
   "property": "C61",
   "status": "partial",
   "theorems": [
    "Kagome.C61_usage",
    "Kagome.C61_tokenize_wrong",
    "Kagome.C61_tokenize_partial",
    "Kagome.C61_flags",
    "Kagome.C61_commands",
    "Kagome.C61_program",
    "Kagome.C61_values",
    "Kagome.C61_readme"
   ],
   "note": "The texts are read by small readers in Spec/Usage. False for two of the eight options in the usage line of tokenize (C61_tokenize_wrong), proved for the other six and for the other subcommands. C61_flags assumes that printable ASCII is printable (IsPrint)."
  },
  {
   "property": "C62",
   "status": "proved",
   "theorems": [
    "Kagome.C62_search",
    "Kagome.C62_words",
    "Kagome.C62_printed"
   ],
   "note": "SQLite's FTS4 with its simple tokenizer is modelled as documented (terms are runs of ASCII letters, digits and non-ASCII bytes; a row matches if it has the term)."
  },
  {
   "property": "C63",
   "status": "proved",
   "theorems": [
    "Kagome.C63_wakati",
    "Kagome.C63_tokenize",
    "Kagome.C63_user_dict",
    "Kagome.C63_wasm",
    "Kagome.C63_wasm_null"
   ],
   "note": "The programs are modelled for any text and dictionary; conversions between Go and JavaScript values are left out."
  },
  {
   "property": "C64",
   "status": "partial",
   "theorems": [
    "Kagome.C64_cells",
    "Kagome.C64_tags",
    "Kagome.C64_lattice",
    "Kagome.C64_form",
    "Kagome.C64_field_wrong",
    "Kagome.C64_field_lost",
    "Kagome.C64_field_partial",
    "Kagome.C64_radio",
    "Kagome.C64_radio_small"
   ],
   "note": "HTML reader in Spec/Html (simplifications stated there). False for the form when the sentence starts with a line feed (C64_field_wrong; C64_field_lost: exactly that line feed is missing); everything else is proved for all texts. Pictures are assumed to be closed HTML without table cells."
  },
  {
   "property": "C65",
   "status": "partial",
   "theorems": [
    "Kagome.C65_row_partial",
    "Kagome.C65_same_partial",
    "Kagome.C65_row_wrong",
    "Kagome.C65_tags_wrong",
    "Kagome.C65_pos_wrong",
    "Kagome.C65_routes",
    "Kagome.C65_answer"
   ],
   "note": "The script does not escape: the full claim is false (three witnesses); proved for texts without < and &."
  },
  {
   "property": "C66",
   "status": "proved",
   "theorems": [
    "Kagome.C66_ok",
    "Kagome.C66_total",
    "Kagome.C66_valid",
    "Kagome.C66_status",
    "Kagome.C66_client",
    "Kagome.C66_marshal",
    "Kagome.C66_refused",
    "Kagome.C66_error_json",
    "Kagome.C66_error_body"
   ],
   "note": "encoding/json is modelled (Go/JsonDecode) and proved against a grammar (Spec/JsonText). The body of a refusal is JSON when no character is wrong (C66_error_json) but not always (C66_error_body)."
  },
  {
   "property": "C67",
   "status": "partial",
   "theorems": [
    "Kagome.C67_request",
    "Kagome.C67_rows",
    "Kagome.C67_history",
    "Kagome.C67_last_partial",
    "Kagome.C67_any_order",
    "Kagome.C67_stale_wrong"
   ],
   "note": "JSON.stringify is modelled from ECMA-262; the page is a state machine of inputs, answers in any order and losses. That the table shows what was typed last is false when answers overtake each other (C67_stale_wrong); proved for answers in order; in any order it shows the request whose answer came last (C67_any_order). What a row looks like to the reader is C65."
  },
  {
   "property": "C68",
   "status": "proved",
   "theorems": [
    "Kagome.C68_value",
    "Kagome.C68_encoded",
    "Kagome.C68_submit",
    "Kagome.C68_large",
    "Kagome.C68_lines",
    "Kagome.C68_differs"
   ],
   "note": "url.ParseQuery and ParseForm of net/http are modelled (Go/Form); the Content-Type header is not parsed and multipart bodies are left out. The browser's part is modelled from the HTML and URL standards."
  },
  {
   "property": "C69",
   "status": "proved",
   "theorems": [
    "Kagome.C69_tokenize",
    "Kagome.C69_default",
    "Kagome.C69_lattice",
    "Kagome.C69_server",
    "Kagome.C69_sentence"
   ],
   "note": "Files, dictionaries and addresses are parameters of World with arbitrary errors."
  },
  {
   "property": "C70",
   "status": "partial",
   "theorems": [
    "Kagome.C70_room_partial",
    "Kagome.C70_silent",
    "Kagome.C70_tokenize",
    "Kagome.C70_sentence",
    "Kagome.C70_lattice",
    "Kagome.C70_lost",
    "Kagome.C70_gap"
   ],
   "note": "False as stated: no error of Write is looked at (C70_silent for every command line, C70_lost with a full disk). Proved: complete if no write falls short; otherwise what arrives is, of each text, sentence or line, the whole or its beginning. bufio.Writer is modelled. A broken pipe on stdout ends the process by a signal and is not considered."
  },
  {
   "property": "C71",
   "status": "proved",
   "theorems": [
    "Kagome.C71_unused",
    "Kagome.C71_added",
    "Kagome.C71_suppresses"
   ],
   "note": "Fewer (Spec/Fewer) compares the dictionaries only at the places of the text; C71_suppresses shows that its condition on the kinds of words is needed."
  },
  {
   "property": "C72",
   "status": "proved",
   "theorems": [
    "Kagome.C72_words",
    "Kagome.C72_connections",
    "Kagome.C72_moves"
   ],
   "note": "From C07 (minimal cost) for both tokenizers. In Extended mode unknown words are cut into characters, so there only entries of the system dictionary are counted; connections are counted in Normal and Search mode."
  },
  {
   "property": "C73",
   "status": "proved",
   "theorems": [
    "Kagome.C73_well_formed",
    "Kagome.C73_words",
    "Kagome.C73_user_word"
   ],
   "note": "The dictionary package is not in /repo: Spec/Tables builds a Dict from lists, with the prefix search said by its meaning (all words the text starts with)."
  },
  {
   "property": "C74",
   "status": "partial",
   "theorems": [
    "Kagome.C74_history_partial",
    "Kagome.C74_row_wrong",
    "Kagome.C74_early_wrong"
   ],
   "note": "The full claim is false (two witnesses: unescaped markup, and text typed before the program is loaded); proved for the rows of plain texts and for what is typed after loading. wasm_exec.js of the Go distribution is assumed to hand over texts with TextEncoder and TextDecoder."
  },
  {
   "property": "C75",
   "status": "proved",
   "theorems": [
    "Kagome.C75_unit",
    "Kagome.C75_place",
    "Kagome.C75_search_differs",
    "Kagome.C75_user_differs"
   ],
   "note": "For a related pair of tokenizers (`Spec/Scale`) and a tame text (well-formed dictionary, size within the limits of the cost arithmetic) both analyses are the one chosen analysis of C58, and the relation changes the total cost of every analysis by the same factor, so the words are the same. The last two theorems show that the restrictions (Normal mode; no user dictionary) are needed."
  },
  {
   "property": "C76",
   "status": "proved",
   "theorems": [
    "Kagome.C76_same",
    "Kagome.C76_lines",
    "Kagome.C76_split",
    "Kagome.C76_sentence"
   ],
   "note": "`Model/Dialog` has the reads and writes in order; C76_same ties it to the command of `Model/Cmd`. With -split and for `sentence` the reader is assumed to deliver whole characters (a terminal does). That a write reaches the reader at once is the flush at the end of each answer in the code."
  },
  {
   "property": "C77",
   "status": "proved",
   "theorems": [
    "Kagome.C77_rest",
    "Kagome.C77_before",
    "Kagome.C77_apart",
    "Kagome.C77_tables",
    "Kagome.C77_reaches"
   ],
   "note": "C77_rest: same word, same text after, same words after. C77_before: the same for the words before, under SameWithin (Spec/Local); C77_apart gives a sufficient condition (nothing reaches over the place, look-up by prefix, which C77_tables proves for dictionaries made of lists); C77_reaches shows that a condition is needed."
  },
  {
   "property": "C78",
   "status": "partial",
   "theorems": [
    "Kagome.C78_one",
    "Kagome.C78_each",
    "Kagome.C78_reflow_partial",
    "Kagome.C78_contained",
    "Kagome.C78_lines_partial",
    "Kagome.C78_command_partial",
    "Kagome.C78_command_no_feed",
    "Kagome.C78_violated",
    "Kagome.C78_claim_false",
    "Kagome.C78_merged"
   ],
   "note": "The full claim (C78_claim: the sentences of a text, written on lines, are split into the same sentences, for every text) is false of the default splitter (C78_claim_false). C78_one: each sentence alone is one sentence, any splitter, any reader of whole characters. C78_reflow_partial: sentences with any white space behind each. C78_contained, C78_lines_partial: texts without line feeds or splitters that do not count them. C78_command_*: kagome sentence on its own output. C78_merged: how it fails, for all texts of paragraphs without white space and delimiters."
  },
  {
   "property": "C79",
   "status": "proved",
   "theorems": [
    "Kagome.C79_counts_call",
    "Kagome.C79_counts_scan",
    "Kagome.C79_call",
    "Kagome.C79_at_once",
    "Kagome.C79_any_reader",
    "Kagome.C79_rescan"
   ],
   "note": "`Model/SplitEffort` is the splitter and the scan with a counter (characters looked at, bytes moved, bytes overwritten); C79_counts_* show that without the counter they are the functions of the other properties. Not counted: the loops over the lists of delimiters and followers (a constant factor) and the copying of the Scanner's own buffer."
  },
  {
   "property": "C80",
   "status": "proved",
   "theorems": [
    "Kagome.C80_table",
    "Kagome.C80_words",
    "Kagome.C80_lines",
    "Kagome.C80_split",
    "Kagome.C80_injective",
    "Kagome.C80_ambiguous"
   ],
   "note": "The reader is Spec/ReadBack. C80_table needs only a well-formed dictionary without tabs and line feeds in its texts (CellTexts); C80_words, C80_lines, C80_split and C80_injective also the conditions of C02 on each text. C80_ambiguous shows that the condition on the dictionary is needed."
  },
  {
   "property": "C81",
   "status": "proved",
   "theorems": [
    "Kagome.C81_stream",
    "Kagome.C81_places",
    "Kagome.C81_words",
    "Kagome.C81_lines",
    "Kagome.C81_split",
    "Kagome.C81_injective",
    "Kagome.C81_extended"
   ],
   "note": "The values are read by a strict JSON reader that goes on where a value ends (Spec/ReadJson). C81_words for any scanner result, C81_lines for the lines of valid UTF-8 input; C81_extended is the witness that Extended mode loses unknown words."
  },
  {
   "property": "C82",
   "status": "proved",
   "theorems": [
    "Kagome.C82_answers",
    "Kagome.C82_every",
    "Kagome.C82_api",
    "Kagome.C82_progress"
   ],
   "note": "Model/Connection has the two handlers with their call of the tokenizer as a call of the machine of C13; serveRequest is the handler alone (C43, C49, C65, C66, C71). Graphviz is a fixed function of the text it gets; net/http (one goroutine for each connection, recovered panics) is as its documentation says."
  },
  {
   "property": "C83",
   "status": "proved",
   "theorems": [
    "Kagome.C83_values",
    "Kagome.C83_dictionary",
    "Kagome.C83_tokens"
   ],
   "note": "Model/Slices has the accessors once more with slices as parts of arrays that can be shared; C83_values is a refinement to lists without memory (Spec/Handed), which use the functions of the other properties. inMemory_of: every dictionary can be laid out in memory. Slices of tokens are C29."
  },
  {
   "property": "C84",
   "status": "partial",
   "theorems": [
    "Kagome.C84_no_nodes",
    "Kagome.C84_user_dict",
    "Kagome.C84_only_nodes_partial",
    "Kagome.C84_collected_partial",
    "Kagome.Toy.C84_text_kept"
   ],
   "note": "The full claim is false: `Free` empties the lattice but not the nodes it gives back (each keeps its surface, hence the text, and a pointer to the node before it) and leaves the system dictionary in the lattice (C84_text_kept, a finished run). Proved: no node is reachable from the lattices in the pool, not even behind the ends of their slices; no user dictionary is kept; a text is kept only by nodes in the pool, so not once they have been collected."
  },
  {
   "property": "C85",
   "status": "proved",
   "theorems": [
    "Kagome.C85_output",
    "Kagome.C85_alone",
    "Kagome.C13_results",
    "Kagome.C13_no_panic",
    "Kagome.Toy.C85_free_twice",
    "Kagome.Toy.C85_read_late"
   ],
   "note": "Lattices of the client are calls of the machine of C13, so C12, C13, C45 and C84 cover them too. C85_free_twice shows why Free has to be called once: after a second call two goroutines get the same lattice and return tokens of each other's texts. C85_read_late: Output has to be read before Free."
  },
  {
   "property": "C86",
   "status": "proved",
   "theorems": [
    "Kagome.C86_nested",
    "Kagome.C86_outer",
    "Kagome.C86_lattice",
    "Kagome.C86_inner",
    "Kagome.C86_finishes",
    "Kagome.C86_returned",
    "Kagome.C13_results",
    "Kagome.C45_one_owner"
   ],
   "note": "Nested calls are part of the clients of C13, so C12, C13, C45 and C84 cover them too. A writer that panics in the end is `analyzeGraphTo`. Not covered: code that takes the lattice of the call around it (it has no way to get at it)."
  },
  {
   "property": "C87",
   "status": "proved",
   "theorems": [
    "Kagome.C87_dot",
    "Kagome.C87_same",
    "Kagome.C87_shared",
    "Kagome.C87_writer",
    "Kagome.C87_between",
    "Kagome.C13_results"
   ],
   "note": "`Dot` is a call of the object of C54 and, as a further kind of call (`drawing`), of the machine of C13, so C12, C13, C45, C84 and C86 cover it too. C87_between: after two Backward an edge between words of different analyses is bold."
  },
  {
   "property": "C88",
   "status": "proved",
   "theorems": [
    "Kagome.C88_short",
    "Kagome.C88_tame",
    "Kagome.C88_lossless",
    "Kagome.C88_places",
    "Kagome.C88_command",
    "Kagome.C88_json",
    "Kagome.C88_pipe",
    "Kagome.Heavy.C88_heavy",
    "Kagome.Heavy.C88_runs_needed",
    "Kagome.Toy.C88_toy",
    "Kagome.Toy.C88_places_toy",
    "Kagome.Toy.C88_differs",
    "Kagome.Toy.C88_pipe_toy"
   ],
   "note": "The bound on runs of delimiters and followers is Spec/SplitFirst.RunsUpTo; C88_runs_needed shows it is needed. C88_heavy: the texts that C46 shows to be lost, complete when split first. C88_pipe: the second command reads what the first printed, in any pieces. C88_differs: the words need not be those of the whole text."
  },
  {
   "property": "C89",
   "status": "proved",
   "theorems": [
    "Kagome.C89_session",
    "Kagome.C89_kept",
    "Kagome.C12_history",
    "Kagome.C13_results",
    "Kagome.C45_returned"
   ],
   "note": "Sessions are a further kind of call (`session`) of the machine of C13, so C12, C13, C45, C84 and C86 cover them too. What a session has to show is `Sees` of Spec/Calls.lean, in terms of the object of C54 that nobody else uses; C89_session says it position by position. A Dot of C87 whose panic is not recovered is `drawing`."
  },
  {
   "property": "C90",
   "status": "proved",
   "theorems": [
    "Kagome.C90_results",
    "Kagome.C90_no_race",
    "Kagome.C90_finishes",
    "Kagome.C90_alone",
    "Kagome.C90_filters",
    "Kagome.C90_yield",
    "Kagome.Toy.C90_overlap"
   ],
   "note": "What match functions remember belongs to their goroutine. A panic that is not recovered ends the program in Go; here it ends the goroutine, the others go on. C90_overlap: two goroutines on the same slice, where the result depends on the order."
  }
 ]
}