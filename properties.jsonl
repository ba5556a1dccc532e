{"id": "C01", "title": "Tokenizing never crashes and always returns", "statement": "With a well-formed dictionary (every character class has its invoke/group flags, every id the dictionary hands out has a morph entry, every dictionary key is non-empty valid UTF-8), Analyze, Tokenize, Wakati and AnalyzeGraph return a token list for every byte string, valid UTF-8 or not, in every mode: no index is ever out of range and the walk back over the best path always ends.", "quantifier": "every byte string, every mode value, every well-formed system dictionary, every well-formed or absent user dictionary", "why_tests_cant": "the input space is every byte string (including truncated and invalid UTF-8) times every dictionary; a test samples a few", "anchors": ["tokenizer/lattice/lattice.go: Build, addNode, Forward, Backward", "tokenizer/tokenizer.go: Analyze, AnalyzeGraph, Tokenize, Wakati"]}
{"id": "C02", "title": "Normal and Search segmentation is lossless", "statement": "In Normal and Search mode the Surface values of the tokens between BOS and EOS, concatenated in order, are exactly the input bytes. In every mode the surfaces of a text in UTF-8 are UTF-8: no token begins or ends inside a character.", "quantifier": "every byte string whose path costs stay inside int32 (in particular every string of at most 16000 characters with any int16 dictionary costs), every well-formed dictionary that groups the character class of U+FFFD", "why_tests_cant": "losslessness must hold for arbitrary inputs and dictionaries, including broken UTF-8 and positions no path reaches", "anchors": ["tokenizer/lattice/lattice.go: Build, Forward, Backward", "tokenizer/tokenizer.go: Analyze"]}
{"id": "C03", "title": "Extended segmentation is lossless up to replacement of broken bytes", "statement": "In Extended mode the concatenated Surface values are the input with each byte that is not part of valid UTF-8 replaced by U+FFFD, hence exactly the input when it is valid UTF-8.", "quantifier": "same as C02, Extended mode", "why_tests_cant": "needs every mix of valid and invalid bytes inside unknown words", "anchors": ["tokenizer/lattice/lattice.go: Backward", "tokenizer/tokenizer.go: Analyze"]}
{"id": "C04", "title": "Token offsets locate the token in the input", "statement": "For each token other than BOS/EOS, Surface is the input slice that begins at byte offset Position (outside Extended-mode unigrams of broken bytes), Start is the number of characters before Position, End is Start plus the number of characters in Surface, the first token begins at 0, and each token begins where the previous one ends, in bytes and in characters; EOS sits at the end of the input.", "quantifier": "every token of every result of Analyze under the hypotheses of C02", "why_tests_cant": "byte and rune offsets are updated by separate code paths, and agree only by an invariant over the whole lattice", "anchors": ["tokenizer/lattice/lattice.go: Build, addNode, Backward", "tokenizer/tokenizer.go: Analyze"]}
{"id": "C05", "title": "BOS and EOS frame the result and OmitBosEos removes just those", "statement": "Without OmitBosEos the first token is BOS, the last is EOS and no token in between has the reserved id; with OmitBosEos the result is the same list without these two, renumbered.", "quantifier": "every input, mode and dictionary under the hypotheses of C02", "why_tests_cant": "depends on the best path really reaching the start of the sentence for every input", "anchors": ["tokenizer/tokenizer.go: Analyze", "tokenizer/tokenizer_option.go: OmitBosEos"]}
{"id": "C06", "title": "Token indices count from zero without gaps", "statement": "The i-th token returned by Analyze has Index i, with and without OmitBosEos.", "quantifier": "every input, mode, dictionary, option set (no cost bound needed)", "why_tests_cant": "must hold for lists of any length", "anchors": ["tokenizer/tokenizer.go: Analyze"]}
{"id": "C07", "title": "The segmentation has minimal cost", "statement": "Among all segmentations of the input into words that the dictionaries and the unknown-word rule allow, the one returned has minimal total cost: word weights plus connection costs of neighbours (zero next to a user word), plus in Search/Extended mode 3000 per character beyond two for kanji-only words or 1700 per character beyond seven otherwise.", "quantifier": "every input within the int32 cost range, every well-formed dictionary, every mode; minimum over all allowed segmentations", "why_tests_cant": "the set of segmentations is exponential in the input and optimality is a statement about all of them", "anchors": ["tokenizer/lattice/lattice.go: Forward, Backward, additionalCost, kanjiOnly"]}
{"id": "C08", "title": "Each token comes from the source its class names", "statement": "A KNOWN token's id and surface are a system dictionary entry found at that place, a USER token's are a user dictionary entry, and an UNKNOWN token's id is one of the unknown-word entries of the character class of its first character.", "quantifier": "every token of every result", "why_tests_cant": "must hold for arbitrary dictionaries and inputs", "anchors": ["tokenizer/lattice/lattice.go: Build, addNode", "tokenizer/tokenizer.go: Analyze"]}
{"id": "C09", "title": "User dictionary entries take precedence", "statement": "If a user dictionary entry matches at the place where a token starts, the token is a USER token: neither system entries nor unknown words are ever chosen at that place.", "quantifier": "every input, dictionary pair and mode, every token", "why_tests_cant": "must hold at every position of every input", "anchors": ["tokenizer/lattice/lattice.go: Build"]}
{"id": "C10", "title": "Unknown words are bounded and homogeneous", "statement": "Every UNKNOWN token has between 1 and 1024 characters, all of the same character class, and starts where the system dictionary has no match or the class always invokes unknown-word processing; a class that does not group yields single characters.", "quantifier": "every UNKNOWN token of every result in Normal and Search mode", "why_tests_cant": "runs of any length must be cut correctly", "anchors": ["tokenizer/lattice/lattice.go: Build, maximumUnknownWordLength"]}
{"id": "C11", "title": "Non-empty input gives at least one word", "statement": "If the input is non-empty the result holds at least one token besides BOS and EOS, and none of the tokens between has an empty surface; for the empty input it is exactly BOS, EOS.", "quantifier": "every input under the hypotheses of C02", "why_tests_cant": "needs a path through every possible lattice", "anchors": ["tokenizer/tokenizer.go: Analyze, Wakati", "cmd/server/api.go: ServeHTTP"]}
{"id": "C12", "title": "Results do not depend on earlier calls", "statement": "Whatever calls were made before (including calls that panicked and were recovered, and writers that panicked in the middle of a graph), and whatever stale contents recycled lattices and nodes hold, Analyze and AnalyzeGraph return the same tokens (and write the same graph, up to node addresses) as in a fresh process.", "quantifier": "every finite sequence of calls, every recycling choice of the pools (including dropped objects), every stale content", "why_tests_cant": "histories and pool choices are unbounded", "anchors": ["tokenizer/lattice/lattice.go: New, Free, addNode, Build", "tokenizer/lattice/node.go: nodePool", "tokenizer/lattice/mem/pool.go: Pool.Get, Pool.Put"]}
{"id": "C13", "title": "Concurrent calls do not interfere", "statement": "When any number of goroutines use one tokenizer (or several) at the same time, every call returns what it would return alone, for every interleaving of their steps. The goroutines may choose each call from the results of the ones before, and may recover from panics and go on.", "quantifier": "any number of goroutines, any programs of calls (next call chosen from earlier results, panics recovered), every schedule of atomic steps on the shared pools and objects", "why_tests_cant": "schedules cannot be enumerated by tests", "anchors": ["tokenizer/lattice/lattice.go: New, Free, latticePool", "tokenizer/lattice/mem/pool.go", "tokenizer/tokenizer.go: Analyze"]}
{"id": "C14", "title": "Modes, Tokenize and Wakati agree", "statement": "Tokenize is Analyze in Normal mode; a mode value outside the three defined ones behaves as Normal; Wakati is the list of surfaces of Tokenize without BOS/EOS, no entry is empty, and joining it gives back the input.", "quantifier": "every input, mode value and dictionary (joining: hypotheses of C02)", "why_tests_cant": "must hold for every integer mode and every input", "anchors": ["tokenizer/tokenizer.go: Tokenize, Wakati, Analyze"]}
{"id": "C15", "title": "Extended mode is Search mode with unknown words cut into characters", "statement": "The Extended result is obtained from the Search result by replacing every UNKNOWN token by one DUMMY token per character with the same id and consecutive Start and Position, leaving every other token unchanged up to Index.", "quantifier": "every input and dictionary", "why_tests_cant": "relates two runs on every input", "anchors": ["tokenizer/lattice/lattice.go: Forward, Backward", "tokenizer/tokenizer.go: Analyze"]}
{"id": "C16", "title": "AnalyzeGraph and Dot return the tokens of Analyze", "statement": "AnalyzeGraph returns the tokens of Analyze without OmitBosEos, with equal ID, Class, Start, End and Surface; (deviation of the code:) it ignores OmitBosEos and leaves Index and Position at zero.", "quantifier": "every input, mode, dictionary", "why_tests_cant": "relates two functions on every input", "anchors": ["tokenizer/tokenizer.go: AnalyzeGraph, Dot, Analyze"]}
{"id": "C17", "title": "The exported graph is closed and complete", "statement": "Every edge of the exported lattice graph joins two nodes the graph declares, the to-node starts where the from-node ends, every node on the best path is declared and marked in Normal and Search mode, and the connection label is the cost Forward used.", "quantifier": "every input, every mode, every well-formed dictionary that groups the character class of U+FFFD", "why_tests_cant": "must hold for every lattice", "anchors": ["tokenizer/lattice/lattice.go: Dot"]}
{"id": "C18", "title": "Tokenizer construction validates and applies options in order", "statement": "New fails exactly when the dictionary is nil or some option fails (a nil user dictionary); otherwise the last UserDict option wins, OmitBosEos is set iff it was given, and Nop changes nothing.", "quantifier": "every option list", "why_tests_cant": "option lists are unbounded", "anchors": ["tokenizer/tokenizer.go: New", "tokenizer/tokenizer_option.go: Nop, UserDict, OmitBosEos"]}
{"id": "C19", "title": "FeatureAt agrees with Features", "statement": "For every token over a well-formed dictionary and every integer i, FeatureAt(i) is (Features()[i], true) when 0 <= i < len(Features()), and (\"\", false) otherwise; neither panics.", "quantifier": "every token class, id in range, every integer i", "why_tests_cant": "two separately coded lookups must agree at every index of every entry", "anchors": ["tokenizer/token.go: Features, FeatureAt"]}
{"id": "C20", "title": "POS is a contiguous part of Features", "statement": "POS of KNOWN and USER tokens is a prefix of Features; of UNKNOWN tokens it is the block of Features given by the dictionary's POS start and hierarchy metadata, or nil when that block does not fit.", "quantifier": "every token over a well-formed dictionary and every metadata value", "why_tests_cant": "metadata values and feature lengths are unbounded", "anchors": ["tokenizer/token.go: POS, Features"]}
{"id": "C21", "title": "Named features come from Features at the position the metadata gives", "statement": "BaseForm, Reading, Pronunciation, InflectionalType and InflectionalForm return (Features()[k], true) where k is the metadata entry for that name when it is present and in range and (\"\", false) otherwise; for USER and DUMMY tokens they are always (\"\", false).", "quantifier": "every token, every dictionary metadata map", "why_tests_cant": "metadata maps are arbitrary", "anchors": ["tokenizer/token.go: pickupFromFeatures, BaseForm, Reading, Pronunciation, InflectionalType, InflectionalForm"]}
{"id": "C22", "title": "UserExtra exposes copies of user data for USER tokens only", "statement": "UserExtra is nil exactly for non-USER tokens; otherwise it holds the entry's tokens and readings, and changing the returned slices never changes what later calls return.", "quantifier": "every token, every later modification of the returned slices", "why_tests_cant": "aliasing needs all mutation sequences", "anchors": ["tokenizer/token.go: UserExtra"]}
{"id": "C23", "title": "Token and feature comparisons are equivalences", "statement": "EqualFeatures is true exactly when both lists are equal element by element; EqualFeatures/EqualPOS on tokens and Equal are reflexive, symmetric and transitive, and Equal ignores where the token stands.", "quantifier": "all pairs and triples of feature lists and tokens", "why_tests_cant": "an equivalence law quantifies over all triples", "anchors": ["tokenizer/token.go: EqualFeatures, EqualPOS, Equal"]}
{"id": "C24", "title": "TokenData mirrors the token and never holds nil lists", "statement": "NewTokenData copies id, start, end, surface and class name, its POS and Features equal those of the token with nil replaced by an empty list, and missing named features become empty strings.", "quantifier": "every token", "why_tests_cant": "must hold for every token and dictionary", "anchors": ["tokenizer/token.go: NewTokenData"]}
{"id": "C25", "title": "Accessors never panic on tokens from Analyze", "statement": "Features, FeatureAt, POS, UserExtra, the named feature accessors and NewTokenData return normally on every token that Analyze or AnalyzeGraph returned.", "quantifier": "every token of every result over a well-formed dictionary", "why_tests_cant": "links the ids chosen by Build to the tables the accessors index", "anchors": ["tokenizer/token.go: Features, FeatureAt, POS, UserExtra", "tokenizer/tokenizer.go: Analyze"]}
{"id": "C26", "title": "A feature filter matches exactly the given patterns", "statement": "A filter built from patterns no two of which first differ at a place where one of them has Any matches a feature vector iff some non-empty pattern is a prefix of it, position by position, where Any matches every feature. For clashing patterns both directions fail, and what the filter matches is this: after a feature that some pattern begins with, before the first pattern that begins with Any, only the patterns that begin with it count; after any other feature, all the other patterns count as if they began with Any; and so on with the rests of those patterns, until one of them is used up.", "quantifier": "every list of patterns, clashing or not, and every feature vector", "why_tests_cant": "pattern sets interact through the shared tree; tests try a few sets", "anchors": ["filter/feature.go: NewFeaturesFilter, add, has, Match", "filter/pos.go: NewPOSFilter, Match"]}
{"id": "C27", "title": "Pattern order and repetition do not matter", "statement": "Two filters built from the same set of patterns in any order and with any repetition match the same feature vectors, if the patterns do not clash. For all patterns, giving one again at the end changes nothing, and more patterns at the end never take a match away; the order of clashing patterns does matter.", "quantifier": "all permutations and repetitions of all pattern lists", "why_tests_cant": "permutations are unbounded", "anchors": ["filter/feature.go: NewFeaturesFilter, add, Match"]}
{"id": "C28", "title": "A word filter matches exactly its words", "statement": "WordFilter.Match(w) is true iff w was in the list the filter was built from.", "quantifier": "every word list and word", "why_tests_cant": "unbounded lists", "anchors": ["filter/word.go: NewWordFilter, Match"]}
{"id": "C29", "title": "Keep and Drop partition the tokens in place", "statement": "Keep leaves exactly the matching tokens and Drop exactly the others, each in the original order and with unchanged contents; the match function is called exactly once per token, in order; the result is a prefix of the same backing array whose remaining cells are untouched; a nil pointer is a no-op; doing it twice changes nothing more (for a pure match function).", "quantifier": "every token list, every (possibly stateful) match function, for the generic, POS and word filters", "why_tests_cant": "in-place compaction must be right for every pattern of kept and dropped tokens", "anchors": ["filter/filter.go: Drop, Keep, applyFilter", "filter/pos.go: apply", "filter/word.go: apply"]}
{"id": "C30", "title": "The Japanese filter drops and yields consistently", "statement": "Yield produces words for exactly the tokens that Drop keeps, in order: the base form for tokens matching the base-form filter that have one (nothing if they have none) and the surface otherwise; options replace the corresponding default filter, the last one winning.", "quantifier": "every token list, every filter configuration, every option list", "why_tests_cant": "unbounded lists and configurations", "anchors": ["filter/ja/filter.go: Yield, Drop, NewFilter, BaseFormFilterOption, StopTagsFilterOption, StopWordsFilterOption"]}
{"id": "C31", "title": "The default stop filters are the listed tags and words", "statement": "The default filter drops a token iff its first four POS levels equal (padded with '*') one of the tags listed in stop_tags.txt, or its surface is one of the words listed in stop_words.txt.", "quantifier": "every POS vector and surface", "why_tests_cant": "the POS and word spaces are infinite", "anchors": ["filter/ja/filter.go: newDefaultLuceneStopTagPOSFilter, newDefaultLuceneStopWordFilter", "filter/ja/loader.go: loadConfig", "filter/ja/asset/stop_tags.txt", "filter/ja/asset/stop_words.txt"]}
{"id": "C32", "title": "The asset loader yields the non-comment lines", "statement": "loadConfig returns, in order, each line that is non-empty and does not begin with '#', cut at its first '#'; it never returns an empty entry or one holding '#'. A line of more than 65535 bytes is an error.", "quantifier": "every byte string", "why_tests_cant": "arbitrary file contents", "anchors": ["filter/ja/loader.go: loadConfig"]}
{"id": "C33", "title": "Without whitespace skipping, sentences reproduce the text", "statement": "With SkipWhiteSpace off, the sentences a bufio.Scanner produces with ScanSentences, concatenated, are exactly the bytes read, however the reader cuts them into chunks, when the Scanner reports no error; otherwise they are a prefix of them. With MaxRuneLen up to 16384 it never reports that a token is too long.", "quantifier": "every text, splitter configuration and chunking", "why_tests_cant": "chunkings and texts are unbounded", "anchors": ["filter/sentence_splitter.go: SentenceSplitter.ScanSentences", "cmd/sentence/cmd.go: command"]}
{"id": "C34", "title": "With whitespace skipping, only whitespace disappears", "statement": "With SkipWhiteSpace on, the concatenated sentences are the text without its whitespace characters (a prefix of that, if the Scanner reports an error, as it does for a run of white space of 64 KB inside a sentence), for every reader that delivers whole characters; no other byte is lost, duplicated or reordered.", "quantifier": "every valid UTF-8 text, configuration and chunking into whole characters", "why_tests_cant": "in-place compaction plus re-scanning after refill is a stateful protocol over all chunkings", "anchors": ["filter/sentence_splitter.go: SentenceSplitter.ScanSentences"]}
{"id": "C35", "title": "The splitter honours the SplitFunc contract and always makes progress", "statement": "ScanSentences never panics, never advances past the data, returns an error never, returns a token only together with a positive advance, at end of input always consumes all or returns a token, and therefore a Scanner over any finite reader ends without panicking.", "quantifier": "every data slice, atEOF flag, configuration (including negative MaxRuneLen) and reader", "why_tests_cant": "needs all inputs; a single stuck input hangs the scan", "anchors": ["filter/sentence_splitter.go: SentenceSplitter.ScanSentences"]}
{"id": "C36", "title": "Sentences are bounded and end at delimiters", "statement": "Each sentence is a body of at most max(1, MaxRuneLen) characters followed by delimiters and followers only, and the body holds no delimiter except possibly as its last character.", "quantifier": "every data slice and configuration", "why_tests_cant": "unbounded texts and configurations", "anchors": ["filter/sentence_splitter.go: SentenceSplitter.ScanSentences"]}
{"id": "C37", "title": "Double line feeds split sentences, single ones do not", "statement": "With DoubleLineFeedSplit a sentence ends at two consecutive line feeds and a text whose line feeds are never adjacent is not split by them. The code violates the second half: the second line feed after the start of a sentence splits even when other characters stand between. So every text of lines without white space or delimiters is cut behind each second line.", "quantifier": "every text", "why_tests_cant": "state left over from an earlier line feed only matters for particular character sequences", "anchors": ["filter/sentence_splitter.go: SentenceSplitter.ScanSentences (nn)"]}
{"id": "C38", "title": "Splitting does not depend on how the reader chunks the text", "statement": "The list of sentences depends only on the text. The code violates this: line feeds, followers and characters that straddle a refill are treated differently. It holds when the reader delivers the whole text at once, or whole characters with every cut in front of an ordinary character (no delimiter, follower or white space; white space may come before it) or behind one in the middle of a sentence shorter than MaxRuneLen, and no line feed as the last white space before the cut unless it stands behind the end of a sentence (these conditions are needed); the result then equals a direct recursive definition of sentence splitting. Reads that each end with a delimiter or with followers directly behind one, white space aside, are split each on its own; if they also begin with an ordinary character, these are the sentences of the whole text, so a text can be split in such parts.", "quantifier": "every text and chunking; every splitter of which the space is no delimiter (where what holds is stated)", "why_tests_cant": "chunkings are unbounded and depend on buffer sizes tests do not reach", "anchors": ["filter/sentence_splitter.go: SentenceSplitter.ScanSentences"]}
{"id": "C39", "title": "The splitter's in-place edits never touch unread text", "statement": "When ScanSentences returns a token, the bytes after the returned advance are unchanged, the length of the buffer is unchanged, and the token is a slice of the consumed part. So a client can split a text in its own memory, by calling ScanSentences on the rest until nothing is left: at the end the tokens, which are slices of the text, hold the sentences of the text as it was, one behind the other.", "quantifier": "every data slice and configuration", "why_tests_cant": "aliasing of token, buffer and unread part must be right for every layout", "anchors": ["filter/sentence_splitter.go: SentenceSplitter.ScanSentences"]}
{"id": "C40", "title": "The command line dispatches to the named subcommand", "statement": "kagome NAME ARGS runs subcommand NAME with ARGS when NAME is one of tokenize, server, lattice, sentence, version, and otherwise runs tokenize with all arguments if these pass its option check and exits with status 1 after printing usage if not.", "quantifier": "every argument vector", "why_tests_cant": "argument vectors are unbounded", "anchors": ["kagome.go: main, subcommands, defaultSubcommand"]}
{"id": "C41", "title": "Plain command output lists the tokens and ends with EOS", "statement": "For each line tokenize prints one line per token other than BOS/EOS, the surface alone for tokens without features and surface, tab, comma-joined features otherwise, then EOS; the first columns joined give back the input line (hypotheses of C02).", "quantifier": "every line, mode, well-formed dictionary and set of options without -json (joining the first columns: hypotheses of C02)", "why_tests_cant": "unbounded inputs", "anchors": ["cmd/tokenize/cmd.go: printTokens"]}
{"id": "C42", "title": "JSON command output and API response carry the same words", "statement": "The -json output is a JSON array with one object per token whose class is not DUMMY, and the /tokenize endpoint returns one object per token other than BOS/EOS; these agree in Normal and Search mode. In Extended mode they do not: the command drops every unigram of an unknown word.", "quantifier": "every input, mode and dictionary", "why_tests_cant": "relates two programs on every input", "anchors": ["cmd/tokenize/cmd.go: printTokensJSON", "cmd/server/api.go: ServeHTTP"]}
{"id": "C43", "title": "The API answers every well-formed request with a token array", "statement": "For a decodable request the endpoint answers status true; tokens is [] for the empty sentence and a non-empty array (never null) otherwise; an undecodable body gives status code 400.", "quantifier": "every request body, under the hypotheses of C02 for the sentence", "why_tests_cant": "unbounded requests", "anchors": ["cmd/server/api.go: ServeHTTP"]}
{"id": "C44", "title": "Option checking and running accept the same arguments", "statement": "For tokenize, lattice, server and sentence, OptionCheck accepts an argument list iff Run gets past option parsing with it. An accepted option set still fails at dictionary selection exactly when the dictionary name is empty and no dictionary file is given.", "quantifier": "every parsed flag set", "why_tests_cant": "unbounded argument values", "anchors": ["cmd/tokenize/cmd.go: parse, OptionCheck, Run, selectDict, selectMode", "cmd/lattice/cmd.go", "cmd/server/cmd.go", "cmd/sentence/cmd.go"]}
{"id": "C45", "title": "Pool objects are never shared or lost to two owners", "statement": "At every moment of every schedule each lattice and each node is either free or owned by exactly one running call, and a finished call owns nothing; a call that panics (a broken dictionary, a writer that panics) gives its lattice back.", "quantifier": "every schedule of any number of goroutines and calls, panics included", "why_tests_cant": "an ownership invariant over all interleavings", "anchors": ["tokenizer/lattice/lattice.go: New, Free, addNode", "tokenizer/lattice/mem/pool.go"]}
{"id": "C46", "title": "Very long inputs: the cost arithmetic is the only limit", "statement": "The guarantees C02-C05, C07 and C11 need path costs inside int32. Beyond it they fail: there are dictionaries and inputs for which the returned tokens do not cover the input because costs saturate at 2^31-1. And there are others for which they cover it but are not the cheapest, because costs below -2^31 wrap around.", "quantifier": "existence of a dictionary and an input; bound for every input below it", "why_tests_cant": "failure needs tens of thousands of characters and particular costs", "anchors": ["tokenizer/lattice/lattice.go: Forward, maximumCost"]}
{"id": "C47", "title": "The sentence command prints every sentence on a line of its own", "statement": "With legal options the sentence command ends and prints the sentences the splitter gives, each followed by one line feed and none containing one. Without an error, for input delivered in whole characters, what is printed is the text without its white space, and with harmless chunk boundaries (C38) the non-empty lines are the sentences of the text. A failing reader, a too long gap or a stuck reader gives an error; a file that cannot be opened gives its error and no output.", "quantifier": "every legal command line, every reader and chunking", "why_tests_cant": "unbounded inputs and chunkings, error paths of readers", "anchors": ["cmd/sentence/cmd.go: command, Run"]}
{"id": "C48", "title": "The lattice command writes the graph to one place and -v prints what tokenize prints", "statement": "With legal options that name what exists, the graph AnalyzeGraph writes for the text goes to standard output, or exactly to the file of -output, and there is no error. With -v the lines on stderr are exactly what tokenize prints for that text; without it there are none. If the file cannot be created or the user dictionary cannot be loaded, that error is returned and nothing is written.", "quantifier": "every legal command line, text, mode and well-formed dictionary (for -v under the hypotheses of C02)", "why_tests_cant": "relates two programs on every input", "anchors": ["cmd/lattice/cmd.go: command, Run", "cmd/tokenize/cmd.go: printTokens"]}
{"id": "C49", "title": "The demo page shows the analysis", "statement": "Without the parameter lattice the demo page shows the form with the sentence and mode of the request. With it, it shows them and, if Graphviz works, one row for each token other than BOS and EOS (text, parts of speech joined by commas or *, base form, reading and pronunciation or *) of the analysis in Normal mode (Search mode for Search and Extended), and the picture of the graph of the same analysis from its first <svg on. If Graphviz is missing, fails or takes too long it shows no rows, no picture and the error.", "quantifier": "every request, every behaviour of Graphviz, every well-formed dictionary", "why_tests_cant": "unbounded requests, behaviours of an external program", "anchors": ["cmd/server/demo.go: ServeHTTP, analyzeGraph, toRecords, newRecord"]}
{"id": "C50", "title": "A request of the demo page ends", "statement": "Whatever the Graphviz process does (reads slowly, fails, is killed when its time is up), the handler of the demo page returns, and a process that reads its input gets exactly the text of the graph.", "quantifier": "every schedule of the handler, the copying goroutine and the process, every text and buffer size", "why_tests_cant": "all schedules and all behaviours of an external process", "anchors": ["cmd/server/demo.go: analyzeGraph"]}
{"id": "C51", "title": "The server command ends when told to, and in an orderly way", "statement": "Run returns nil only after a signal or a cancellation by its caller and an error only when the server has failed with it; after either it can always return; when it returns nil no request is left open and no more are taken, and failures of the server are reported.", "quantifier": "every schedule of the three goroutines and every history of signals, cancellations, requests and failures", "why_tests_cant": "all schedules and histories", "anchors": ["cmd/server/cmd.go: command, Run"]}
{"id": "C52", "title": "Printed forms tell what they print", "statement": "From the printed form of a token its index, surface (byte by byte), offsets, class and id can be read back, so two tokens print alike exactly if they agree in these. Different modes print differently, but the printed form of the third mode is not accepted by -mode. Two features filters that print alike match the same features, provided the features they were built from have no line break and no space in front. Two lattices with the same debug text have the same nodes at the same places, provided no surface has a line break.", "quantifier": "every token with every surface, every mode value, every two lists of features, every two lattices", "why_tests_cant": "injectivity over all values", "anchors": ["tokenizer/token.go: Token.String", "tokenizer/tokenizer.go: TokenizeMode.String", "filter/feature.go: FeaturesFilter.String", "tokenizer/lattice/lattice.go: Lattice.String"]}
{"id": "C53", "title": "The text of the graph is a DOT file that says exactly the graph", "statement": "What AnalyzeGraph writes can be read by the rules of the DOT language, and what is read are exactly the nodes (with surface, part of speech and cost as the three lines of the label, and a double border on the best path) and edges (with their costs, bold on the best path) of the graph of C17, provided neither the text nor the part-of-speech names contain quotation marks, backslashes or line feeds. With them the file can be unreadable, declare nodes that are not in the graph, or lose a line of a label.", "quantifier": "every text, mode, well-formed dictionary and assignment of addresses", "why_tests_cant": "a parser relation over unbounded outputs", "anchors": ["tokenizer/lattice/lattice.go: Dot, posFeature", "tokenizer/tokenizer.go: AnalyzeGraph"]}
{"id": "C54", "title": "A lattice can be used directly", "statement": "On an object from New, Build followed by any calls of Forward and Backward goes through; each Backward appends to Output the words Analyze finds for the mode of the last Forward, last word first (characters of unknown words in Extended mode), or only the end of the text if there was no Forward; after Free the object serves the next user, with other dictionaries and texts, as if it were new. Until Free, no call of any of these methods in any order changes what has been seen in Output; only Backward appends to it. A second Build without Free starts over, and what follows it is as on a new object, if the text has more characters than the object has had room for so far, so that one object can serve texts that get longer and longer. Otherwise a second Build breaks this: words of the earlier text appear in the results, and after Free even in those of an unrelated Analyze that gets the object from the pool.", "quantifier": "every text, well-formed dictionaries, every sequence of calls after Build, every sequence of uses of one pooled object", "why_tests_cant": "all call histories of a pooled object", "anchors": ["tokenizer/lattice/lattice.go: New, Free, Build, Forward, Backward", "tokenizer/lattice/mem/pool.go"]}
{"id": "C55", "title": "Search mode differs from Normal mode only because of long words", "statement": "If no word of the result of Normal mode is long (more than two characters all of which are ideographs, or more than seven characters), Search mode returns exactly the same tokens, and Extended mode the same with unknown words cut into characters. In any case the result of Search mode has at most the surplus of characters in long words (weighted as documented) that the result of Normal mode has, and if the surplus is equal, so are the costs by the dictionary.", "quantifier": "every text whose costs fit into 32 bits, every well-formed dictionary with or without user dictionary, every notion of ideograph", "why_tests_cant": "compares two optimisations, ties included, over all texts and dictionaries", "anchors": ["tokenizer/lattice/lattice.go: Forward, additionalCost, kanjiOnly, Backward", "tokenizer/tokenizer.go: Analyze"]}
{"id": "C56", "title": "Dictionary entries that do not occur in the text do not matter", "statement": "If two sets of dictionaries give the same answers at every character of the text (whatever else they contain, and whatever numbers their entries have), Analyze returns the same tokens in every mode except for the ids, Wakati the same strings, and, if the entries found have the same features, every accessor of every token and its data agree. In particular a user dictionary none of whose entries occurs in the text changes nothing.", "quantifier": "every text, mode and pair of dictionaries that answer alike on it, with any renumbering of entries", "why_tests_cant": "a relation between runs with two arbitrary dictionaries", "anchors": ["tokenizer/tokenizer.go: Analyze, Wakati", "tokenizer/lattice/lattice.go: Build, addNode, Forward, Backward", "tokenizer/token.go: Features, FeatureAt, POS, NewTokenData"]}
{"id": "C57", "title": "The work for a text is proportional to its length", "statement": "For fixed dictionaries the number of lattice nodes made, of neighbouring pairs compared, of characters looked at for unknown words and of nodes visited on the way back by Analyze are each at most a constant times the number of characters of the text plus a constant, whatever the text; and there are at most two tokens more than characters. The same holds for the nodes and for the edges of the graph that AnalyzeGraph, or Dot on a lattice used directly, writes.", "quantifier": "every text (valid UTF-8 or not), mode and well-formed dictionary", "why_tests_cant": "a bound over all texts; benchmarks sample it", "anchors": ["tokenizer/lattice/lattice.go: Build, Forward, Backward, Dot, maximumUnknownWordLength", "tokenizer/tokenizer.go: Analyze, AnalyzeGraph"]}
{"id": "C58", "title": "Among equally cheap analyses the choice is fixed", "statement": "The result of Analyze is determined by the dictionaries, the costs and the text, also when several analyses cost the same: of the cheapest analyses it is the one that, read from the end of the text, has the longer word at the first place where they differ, or, if the two words are the same text, the entry that the dictionaries offer earlier (user dictionary; otherwise system dictionary in the order of its answer, then unknown words entry by entry, the word without its last character first). There is exactly one such analysis.", "quantifier": "every well-formed dictionary pair, every mode, every text whose costs fit 32 bits, every other analysis of that text", "why_tests_cant": "a test sees one tie; that no tie is ever decided otherwise, and that the rule leaves nothing open, ranges over all analyses of all texts", "anchors": ["tokenizer/lattice/lattice.go: Lattice.Build, Lattice.addNode, Lattice.Forward, Lattice.Backward", "tokenizer/tokenizer.go: Tokenizer.Analyze"]}
{"id": "C59", "title": "Filters combine", "statement": "Applying any number of word and POS filters, Drop or Keep, one after the other to the same slice of tokens leaves exactly the tokens that every one of them lets stay, in their order; neither the order of the filters nor repeating one matters, dropping two word lists is dropping their union, keeping two is keeping their intersection, Drop and Keep of one filter share the tokens out between them, and the cells of the array beyond the slice are never written", "quantifier": "all sequences of filter calls, all word lists and patterns, all slices and lengths", "why_tests_cant": "the calls work in place on one array that still holds stale tokens of earlier calls; a test sees a few orders only", "anchors": ["filter/word.go:WordFilter.Drop", "filter/word.go:WordFilter.Keep", "filter/pos.go:POSFilter.Drop", "filter/pos.go:POSFilter.Keep"]}
{"id": "C60", "title": "A refused command line is told why", "statement": "Every list of arguments of a subcommand is either legal or has exactly one fault. With a fault the process writes nothing to stdout and to no file, starts no server, ends with status 1, and stderr names the fault (the flag or text that is wrong), the usage line and the flags. (tokenize names only faults of flags; of a wrong -mode, -sysdict or extra argument it says nothing.) The version subcommand names the program's version and that of every dictionary among the dependencies.", "quantifier": "all argument lists of tokenize, lattice, server, sentence and version, all program names, all printable sets", "why_tests_cant": "tests try a few wrong options; that no list of arguments falls through the checks or gets another fault's message is a statement about all lists", "anchors": ["kagome.go main", "cmd/tokenize/cmd.go Run, OptionCheck", "cmd/lattice/cmd.go Run", "cmd/server/cmd.go Run", "cmd/sentence/cmd.go Run", "kagome.go ShowVersion"]}
{"id": "C61", "title": "The help texts are true", "statement": "Whoever follows a usage line - any options it shows, in any order and number, with any values or those shown - is not refused (false for tokenize, whose line shows -userdict and a value for -simple). The flags listed by -h are exactly those the subcommand knows, and leaving one out is the same as giving it the default shown. The list of subcommands is that of the subcommands there are. The values a usage line offers with bars are exactly those that can be given, and the address it shows is the default. What the README shows for kagome -h is what every refused command line without a subcommand gets, to the byte.", "quantifier": "all argument lists that follow a usage line; all argument lists with a default prepended; all program paths", "why_tests_cant": "the set of argument lists that follow a usage line is infinite, and the claim about defaults is an equivalence between two command lines for every rest of the arguments", "anchors": ["cmd/tokenize/cmd.go usageMessage, newOption", "cmd/lattice/cmd.go usageMessage, newOption", "cmd/server/cmd.go usageMessage, newOption", "cmd/sentence/cmd.go usageMessage, newOption", "kagome.go Usage, PrintDefaults"]}
{"id": "C62", "title": "The search example finds a word where it is a word", "statement": "After any list of lines has been put into the database of the search example, a search for any non-empty word of non-ASCII characters lists, in order and each once, exactly the lines of whose words (Wakati) one is that word, or has it between ASCII punctuation - not the lines that merely contain its characters - and the content shown for a hit is the line that was put in. The program prints for every word, in order, these lines with their numbers, or that there is no result.", "quantifier": "all lists of lines under the hypotheses of C02, all search words without ASCII characters, all well-formed dictionaries", "why_tests_cant": "the example checks four words against six lines; the claim is about every corpus and every word", "anchors": ["_examples/db_search/main.go insertSearchToken, searchFTS4, retrieveContent"]}
{"id": "C63", "title": "The other examples show the analysis faithfully", "statement": "The wakati example prints the words so that, for a text without slashes, the line split at slashes gives them back and they make up the text; the tokenize example prints what the tokenize command prints but for the last line; the user dictionary example prints a line per word with its features; the browser example returns one object per word with the data the API gives, and the words make up the text.", "quantifier": "all texts (within the limits of C02) and dictionaries", "why_tests_cant": "the examples run on one text each", "anchors": ["_examples/wakati/main.go main", "_examples/tokenize/main.go main", "_examples/user_dict/main.go main", "_examples/wasm/main.go tokenize"]}
{"id": "C64", "title": "The demo pages show the texts and nothing of them becomes markup", "statement": "Whatever the sentence, the mode and the features of the tokens contain (tags, quotes, references, NUL), the lattice page has the same tags as with plain texts in their place, and its table cells read by an HTML reader are the sentence, the mode and, row by row, the texts of the tokens (U+FFFD for NUL); an error is shown as it is. The form shows the sentence in its field, likewise without new tags (false for a sentence that starts with a line feed, which loses it). The form forgets the chosen mode: only Normal is ever marked for the values it sends.", "quantifier": "all sentences, modes, token texts, error texts and pictures that are closed HTML", "why_tests_cant": "The reader of the page sees arbitrary user text; a test shows a few hostile inputs, not that no input can leave its cell.", "anchors": ["cmd/server/demo.go:TokenizeDemoHandler.ServeHTTP", "cmd/server/asset/graph.html", "cmd/server/asset/demo.html"]}
{"id": "C65", "title": "The live table of the demo page shows the tokens of the answer", "statement": "For every token whose texts have no < and no &, the row that the script of the demo page writes has five cells: surface, parts of speech, base form, reading, pronunciation (a star for an empty one of the last three), the same as on the lattice page if the token has parts of speech. For other texts the claim is false: the row can vanish or have other tags. Typing reaches the API; choosing another mode does not, and its answer is never JSON.", "quantifier": "all token data; all texts and modes of requests", "why_tests_cant": "Which texts break the table depends on how the dictionary cuts them; tests of the API do not look at the page.", "anchors": ["cmd/server/asset/demo.html", "cmd/server/api.go:TokenizeHandler.ServeHTTP", "cmd/server/cmd.go:command"]}
{"id": "C66", "title": "The API understands every JSON text of a request", "statement": "Every body posted to the tokenize endpoint gets an answer. The status is 200 exactly if the body begins, after white space, with a JSON text of an object (or null) whose members named sentence and mode, up to the case of the letters, are strings or null; in whatever notation: any white space, order, escapes, surrogate pairs, further members of any depth up to 10000 brackets, anything behind the value. The request has the last of the strings of each name, with U+FFFD for what is not Unicode. The answer is then JSON and its surfaces joined are the sentence; its tokens are those of Analyze in the mode. Otherwise the status is 400 and the reason is right: nothing there; the body is only the beginning of a JSON text; the first character with which it is not the beginning of any JSON text, shown as a character literal and with the name of its place (in a string, behind a key and so on); the first member of another type. A request written by json.Marshal is understood, whatever its bytes.", "quantifier": "all byte strings as bodies, all tokenizers with a well-formed dictionary (that the surfaces joined are the sentence: hypotheses of C02 on the sentence)", "why_tests_cant": "the JSON texts of one request are infinitely many, and every byte string may be posted; tests try some spellings and some errors", "anchors": ["cmd/server/api.go: TokenizeHandler.ServeHTTP, TokenizerRequestBody"]}
{"id": "C67", "title": "The live table shows what is in the field", "statement": "Whatever is typed into the field of the demo page - any UTF-16 text, also with surrogates that have no partner, which become U+FFFD - the server understands the request of the script, and when its answer has come the table has one row per token of the text in the mode of the checked button and nothing else (no rows for the empty text); the surfaces joined are the text. Whatever the order in which things are typed, buttons chosen and answers come or get lost, the table shows what it showed at first or the analysis of something that was typed; if the answers come in the order of the requests it is in the end what was typed last. (In another order this is false: the table then shows an older text and stays so.)", "quantifier": "all texts of code units and modes, all sequences of inputs, choices of a button, answers in any order and losses (that the surfaces joined are the text: hypotheses of C02)", "why_tests_cant": "the texts and the orders of events are unbounded; a browser test tries a few in the order the network happens to give", "anchors": ["cmd/server/asset/demo.html cb, tokenize", "cmd/server/api.go ServeHTTP"]}
{"id": "C68", "title": "The demo page gets what the form sends", "statement": "For every request, the sentence, the mode and the wish for a lattice that the demo page works with are the values of the first piece of that name in the body, if it is a form of at most 10 MB that is posted, and then in the query: names and values with their escapes resolved; pieces with a semicolon or a broken escape do not count; a missing one is the empty text. What a browser submits for any text in the field (UTF-16, surrogates without a partner become U+FFFD) arrives as that text with CR LF for its line breaks, and the page is the one of this sentence and mode. So the sentence is the text of the field exactly if that has one line; for more lines the page and the live table analyse different texts. A larger form is dropped without a word.", "quantifier": "all requests (any bytes in body and query); all texts of code units (that the tokens of page and live table differ: hypotheses of C02)", "why_tests_cant": "requests and texts are unbounded; the encodings of one text are many", "anchors": ["cmd/server/demo.go ServeHTTP", "cmd/server/asset/demo.html form"]}
{"id": "C69", "title": "A command that cannot start says why and touches nothing", "statement": "With legal options each command first looks for what it needs: the dictionary, the user dictionary, then the input file, the output file or the address. If something is missing, the first missing thing is named on stderr in one line, nothing is written to stdout, no file is touched, and the exit status is 1. If nothing is missing the command does its work.", "quantifier": "every legal command line of tokenize (with and without its name), lattice, server and sentence, in every environment of files and addresses", "why_tests_cant": "every combination of missing files, in every order of options", "anchors": ["cmd/tokenize/cmd.go: command, selectDict", "cmd/lattice/cmd.go: command, selectDict", "cmd/server/cmd.go: command, selectDict", "cmd/sentence/cmd.go: command", "kagome.go: main"]}
{"id": "C70", "title": "Exit status 0 means that everything was printed", "statement": "If kagome exits with status 0, what it had to write to stdout or to the file named by -output has been written completely. (False: errors of Write are dropped. What holds: if no write falls short everything arrives, and otherwise, of what is to be printed for each text, sentence or line of the graph, the whole or the beginning arrives, in order; but exit status and stderr are the same whatever gets lost.)", "quantifier": "every command line, every environment, every sequence of writes that fall short by any amount", "why_tests_cant": "every place at which writing can stop, with any buffering", "anchors": ["cmd/tokenize/cmd.go: printTokens, printTokensJSON", "cmd/sentence/cmd.go: command", "cmd/lattice/cmd.go: command", "tokenizer/lattice/lattice.go: Dot", "kagome.go: main"]}
{"id": "C71", "title": "Words that are not in the result do not matter", "statement": "Take words away from the system dictionary or the user dictionary, or make words dearer: as long as the words of the result are still there at the old cost, Analyze gives the same result (classes, ids, surfaces, positions). So after adding words, a result that contains none of the new words is the old result. This holds if no place of the text loses its last word of a kind (user, system) there; where it does, words of another kind come in, and an added word can change a result that does not contain it.", "quantifier": "every pair of dictionaries of which one has fewer or dearer words at the places of the text, every text under the hypotheses of C02 and every mode", "why_tests_cant": "all pairs of dictionaries and all texts, including ties between equally cheap analyses", "anchors": ["tokenizer/lattice/lattice.go: Build, Forward, Backward", "tokenizer/tokenizer.go: Analyze"]}
{"id": "C72", "title": "What is made cheaper is chosen at least as often", "statement": "Lower the costs of some entries of the system dictionary or of the unknown words, all by the same amount: in the result of Analyze for any text, the number of tokens with these entries does not go down. The same for connections between classes: the number of neighbours with these classes does not go down. So raising costs never makes the affected words more frequent. (It is the number that is kept, not the places: a word can leave a place because it has become cheaper.)", "quantifier": "every pair of tokenizers that differ in the costs of a set of entries or connections by one amount, every text under the hypotheses of C02 and every mode", "why_tests_cant": "all dictionaries, sets of entries, amounts and texts; the effect of a cost on a segmentation is global", "anchors": ["tokenizer/lattice/lattice.go: Forward, Backward", "tokenizer/tokenizer.go: Analyze"]}
{"id": "C73", "title": "Any list of words makes a working dictionary", "statement": "Given any list of non-empty words with costs, a square matrix with their connection classes and at least one unknown word for every character, with or without a user dictionary of non-empty words: every text is analysed; KNOWN tokens are words of the list under the number they have there, USER tokens those of the user dictionary; together the tokens are the text. A text that is a word of the user dictionary is one USER token (if the user dictionary has no other word that the text starts with).", "quantifier": "every list of words, matrix, table of categories, user dictionary, text and mode (that the tokens together are the text: at most 16000 characters, U+FFFD of a grouping category or not in the text, Normal and Search mode)", "why_tests_cant": "all dictionaries; tests use a few", "anchors": ["tokenizer/lattice/lattice.go: Build", "tokenizer/tokenizer.go: Analyze, Tokenize", "tokenizer/tokenizer_option.go: UserDict"]}
{"id": "C74", "title": "The browser demo shows the words of what is in its field", "statement": "In the page of the WebAssembly example, whatever is typed - any UTF-16 text, also with surrogates that have no partner - and whenever the program has been loaded, the table has one row per word of the text that was typed last, the words joined are the text, and the row of a word whose texts have no < and no & shows its surface, parts of speech, base form, reading and pronunciation. (In full the claim is false: the row of <!-- vanishes, and what was typed before the program was loaded is not shown until something else is typed.)", "quantifier": "all texts of code units under the hypotheses of C02, all histories of typing and loading, all well-formed dictionaries", "why_tests_cant": "the texts and the histories are unbounded, and no test runs the page", "anchors": ["_examples/wasm/main.go tokenize, registerCallbacks, main", "_examples/wasm/kagome.html tokenize", "docs/index.html tokenize"]}
{"id": "C75", "title": "The unit of the costs does not matter, nor where they are charged", "statement": "Multiplying all costs of a dictionary (words, unknown words, connections) by the same positive number changes no segmentation in Normal mode. Without a user dictionary, charging a part of the cost of words with the connections from or to their class instead changes no segmentation in any mode. Neither holds beyond that: in Search mode the surcharge for long words is a fixed number, so doubling all costs can undo a split; next to a user word no connection is charged, so moving costs there can change the words.", "quantifier": "all pairs of dictionaries related that way, all texts of a tame size, Normal mode (unit) or all modes (place)", "why_tests_cant": "two dictionaries per test out of all rescalings, and all texts", "anchors": ["tokenizer/lattice/lattice.go Lattice.Forward, additionalCost", "tokenizer/lattice/lattice.go maximumCost", "tokenizer/tokenizer.go Tokenizer.Analyze"]}
{"id": "C76", "title": "Whenever a command waits for input it has answered what was entered", "statement": "At every moment at which tokenize reads its input, exactly the lines that have been ended by then have been answered - plain or as JSON - in order, and nothing of the line begun. With -split, and for the sentence command, the texts answered by then make up what was entered, without white space, but for an end of less than 128 characters that contains no character ending a sentence. What is read is the input from its beginning, and all of it if no error is reported.", "quantifier": "all inputs, all ways in which the reader cuts the input into pieces (whole characters for sentences), all options and dictionaries, all moments of a run", "why_tests_cant": "a test feeds one input in one or two ways; whether the program hangs on to an answer depends on how the pieces arrive", "anchors": ["cmd/tokenize/cmd.go: command, PrintTokens, PrintTokensAsJSON", "cmd/sentence/cmd.go: command", "filter/sentence_splitter.go: ScanSentences"]}
{"id": "C77", "title": "Only the word in between connects the two sides", "statement": "If Analyze puts the same word into the results for two texts and the same text follows that word in both, then the same words follow it, whatever stands before. Likewise for the words before it when the same text precedes it, provided the words the dictionaries offer within that text do not depend on what comes after, for example because no word reaches over the beginning of the common word. Without that condition it is false: a longer dictionary word that is never chosen can change the words before.", "quantifier": "all tokenizers, all pairs of texts of a tame size, all modes, all tokens that are words of the dictionaries or unknown words (in Extended mode not the single characters)", "why_tests_cant": "two texts per test, out of all pairs of texts that agree on one side of a word", "anchors": ["tokenizer/lattice/lattice.go:Forward", "tokenizer/lattice/lattice.go:Backward", "tokenizer/lattice/lattice.go:Build", "tokenizer/tokenizer.go:Tokenizer.Analyze"]}
{"id": "C78", "title": "Splitting what has been split", "statement": "Every non-empty sentence that the scanner gives for a reader delivering whole characters is one sentence: given alone to the same splitter, it is given back unchanged. Sentences written one after the other with any white space (or none) behind each are split into these sentences again (white space left out), if each but the last has an end of its own (a delimiter or the maximal length) and none but the first begins with a delimiter or follower; the sentences of a text are like that if double line feeds do not count or the text has no line feed. So kagome sentence, run on its own output, prints the same lines for such texts. The full claim, that it does so for every text, is false: two paragraphs without a delimiter become one sentence (a, b from a/empty line/b; ab from the output).", "quantifier": "all splitters, readers of whole characters, texts, numbers of sentences and white-space texts between them", "why_tests_cant": "The texts, chunkings and the white space between sentences are unbounded; a test sees a few of them.", "anchors": ["filter/sentence_splitter.go: SentenceSplitter.ScanSentences", "cmd/sentence/cmd.go: command"]}
{"id": "C79", "title": "Splitting into sentences takes work in proportion to the text", "statement": "One call of ScanSentences that gives a sentence looks at, moves or overwrites at most two bytes for every byte it consumes, and one more; it does not go through the rest of the buffer. A call that asks for more input costs at most three steps for every byte in the buffer. So a text handed over at once is split in at most three steps per byte, however many sentences it has and whatever the limit on their length. When the text comes in pieces, what is pending (less than 64 KiB) is gone through again after every read: the cost is at most three steps for every byte and every byte pending at a read, and a letter with n blanks arriving one at a time does cost n*n/8 steps.", "quantifier": "all splitters, all texts, all readers", "why_tests_cant": "Tests measure the time on a few texts; the bound is about all texts and all ways in which they can arrive.", "anchors": ["filter/sentence_splitter.go:ScanSentences", "cmd/sentence/cmd.go:Run"]}
{"id": "C80", "title": "What tokenize prints can be read back", "statement": "From the plain output of kagome tokenize alone a program can tell the texts that were analysed, their words and the features of each word: it cuts the output at the rows EOS, and each row at its last tab (a row without a tab, or with nothing but a tab, is a character of an unknown word in Extended mode). This holds for every input, tabs and the word EOS included, if no text of the dictionaries has a tab or a line feed. The words of the tables, joined, are the lines of the input (with -split its characters other than white space), so two inputs with the same output have the same lines. A tab in a feature makes outputs ambiguous.", "quantifier": "all inputs, readers, modes and dictionaries (that the words joined are the lines: Normal and Search mode, lines of less than 65536 bytes, with -split reads of whole characters, hypotheses of C02 on each text)", "why_tests_cant": "A test reads back the outputs it has; that the format is unambiguous is about all pairs of inputs.", "anchors": ["cmd/tokenize/cmd.go:printTokens", "cmd/tokenize/cmd.go:tokenize"]}
{"id": "C81", "title": "What tokenize -json prints can be read back", "statement": "The output of tokenize -json, whatever the input, the mode and the options, is a sequence of JSON values, one array for every line (or sentence) and in their order, each with the objects of the words. Every object says where its word is: the characters from start to end, counted in the line, are the surface. In Normal and Search mode the surfaces of an array, joined, are the line (bytes that are not UTF-8 replaced), so that equal outputs come from equal lines. With -split they are, all joined, the characters of the input that are not white space. In Extended mode lines of unknown words cannot be told apart.", "quantifier": "every command line with -json, input, way of delivering it, mode and dictionary (places: hypotheses of C02 on each text; joined surfaces: also Normal and Search mode, lines of less than 65536 bytes and of valid UTF-8, with -split reads of whole characters)", "why_tests_cant": "reads the concatenation of unboundedly many arrays and relates it to every input", "anchors": ["cmd/tokenize/cmd.go: printTokensJSON", "cmd/tokenize/cmd.go: command", "tokenizer/token.go: NewTokenData"]}
{"id": "C82", "title": "Every request to the server is answered as if it were the only one", "statement": "With any number of connections served at the same time, every request on every connection gets the answer (status, content type and body of an API answer; body of a page) it would get alone in a fresh server, in the order of the requests; with dictionaries in order every request is answered; a handler that panics ends its own connection only and changes no other answer; no connection has to wait for another. The only thing that may differ are the addresses printed in the drawing of the lattice.", "quantifier": "any number of connections, any requests on each, any other goroutines using the library, every schedule of atomic steps", "why_tests_cant": "schedules and request sequences are unbounded", "anchors": ["cmd/server/cmd.go: Run", "cmd/server/api.go: TokenizeHandler.ServeHTTP", "cmd/server/demo.go: TokenizeDemoHandler.ServeHTTP, analyzeGraph", "tokenizer/lattice/lattice.go: New, Free"]}
{"id": "C83", "title": "The lists of strings that the library hands out belong to the caller", "statement": "The lists that Features, POS, UserExtra, NewTokenData, Wakati and Yield return may be overwritten, extended and cut by the caller in any way: this never changes a dictionary, another list that was handed out before or is handed out later, or what FeatureAt and the named features say. Every call returns what it would return if nothing had ever been written.", "quantifier": "all dictionaries (their tables may share memory in any way), all tokens of a tokenizer, all sequences of calls and of writes, appends and cuts by the caller, any growth policy of append", "why_tests_cant": "aliasing shows only after a particular later write; the sequences are unbounded", "anchors": ["tokenizer/token.go: Token.Features, Token.FeatureAt, Token.UserExtra, Token.POS, NewTokenData", "tokenizer/tokenizer.go: Tokenizer.Wakati", "filter/ja/filter.go: Filter.Yield"]}
{"id": "C84", "title": "What the library keeps in memory between calls", "statement": "Once the calls have returned, nothing they were given stays reachable from the library: no part of a text, no node of a lattice through a lattice waiting for reuse, no user dictionary, no system dictionary.", "quantifier": "every state of every schedule of any number of goroutines and calls, panics included; whole arrays, also behind the ends of slices", "why_tests_cant": "what stays reachable is not visible in any result", "anchors": ["tokenizer/lattice/lattice.go: New, Free, addNode, Build, Backward", "tokenizer/lattice/mem/pool.go"]}
{"id": "C85", "title": "Lattices used directly in goroutines", "statement": "Code may take a lattice of its own (New), call Build, then any calls of Forward and Backward, read Output and Free it once, in any number of goroutines and beside calls of Analyze and AnalyzeGraph. What it reads in Output is what a lattice nobody else uses would hold: for each Backward the words Analyze finds in that text for the mode of the last Forward (none before the first Forward); where such a lattice panics it panics. The other calls give what they give alone.", "quantifier": "every schedule, any number of goroutines, texts, dictionaries, lists of calls, and whatever the pools hold", "why_tests_cant": "the object and its nodes come from pools shared with every other call; what they hold depends on the history and the schedule", "anchors": ["tokenizer/lattice/lattice.go: New, Free, Build, Forward, Backward, Output", "tokenizer/lattice/mem/pool.go"]}
{"id": "C86", "title": "Code that runs inside a call may use the library", "statement": "While a call is under way, code of the client can run in the same goroutine: the Write method of the writer given to AnalyzeGraph is called in the middle of it, and a client that holds a lattice of its own does other things between its calls on it. This code may call the same or other tokenizers and use further lattices, with writers that do the same, to any depth, and recover panics. The call around it still returns the tokens, writes the graph or has in Output the nodes that it has when the code does nothing. Each call made inside gives what it gives on its own, a panic reaches only who recovers it, nothing blocks, and at the end every lattice is back in the pool, and every node too unless a dictionary was broken.", "quantifier": "All calls, tokenizers, texts, modes; all code that runs before any of the steps of a call and depends on the number of the step and on all replies so far; all depths; all other goroutines and schedules", "why_tests_cant": "A test uses one writer at one place; what pools hand out depends on all that is in use at the moment", "anchors": ["tokenizer/tokenizer.go Tokenizer.AnalyzeGraph", "tokenizer/lattice/lattice.go Lattice.Dot, New, Lattice.Free", "tokenizer/lattice/mem/pool.go Pool"]}
{"id": "C87", "title": "Dot on a lattice used directly", "statement": "After lattice.New, Build and any calls of Forward and Backward, in any order and any modes, Lattice.Dot does not panic (with a writer that does not) and writes a graph of the words that may stand in the text: each dictionary word at each place once, with its part of speech and cost, an edge with the connection cost exactly where one ends and the next starts. Marked are exactly the nodes that Output has pointers to, whichever Backward has put them there; all of these are shown, and no other unknown words are. An edge is bold exactly if both its ends are marked, so that after two Backward an edge can be bold that no analysis takes. After Build, Forward and Backward in one mode the graph is that of AnalyzeGraph in that mode. In any number of goroutines, beside any other calls, a client gets the same graph up to the addresses of the nodes; a writer that panics costs nothing but its own graph.", "quantifier": "all well-formed dictionaries with part-of-speech tables, texts, lists of calls of Forward and Backward, schedules and pool histories", "why_tests_cant": "A test draws a few lattices after the usual three calls; the claim is about every sequence of calls, every text and every schedule.", "anchors": ["tokenizer/lattice/lattice.go: Lattice.Dot, Lattice.Forward, Lattice.Backward, New, Free", "tokenizer/tokenizer.go: Tokenizer.AnalyzeGraph"]}
{"id": "C88", "title": "Splitting a text into sentences first", "statement": "A text of any length, even one too long to be analysed at once (C46), is analysed completely if it is split into sentences first and these are analysed one by one: each sentence is short enough for every well-formed dictionary, and the surfaces of the words of all the sentences, joined in order, are the text (without its white space if the splitter skips it), or the beginning of it if the reader failed. This holds for every splitter, every mode and every reader of whole characters, as long as delimiters and followers do not come in runs so long that a sentence has more than 16000 characters. If white space is kept, a word is found in the text at its position plus the length of the sentences before. kagome tokenize -split does this with the splitter of the package, and kagome sentence | kagome tokenize prints the same, byte for byte. The words need not be those of the whole text: a sentence may end within a word.", "quantifier": "all splitters, texts of valid characters, ways they are read, tokenizers with well-formed dictionaries, modes; all runs of the commands", "why_tests_cant": "The texts are unboundedly long and the reads arbitrary; no test text exceeds one buffer.", "anchors": ["filter/sentence_splitter.go:ScanSentences", "tokenizer/tokenizer.go:Analyze", "cmd/tokenize/cmd.go:command", "cmd/sentence/cmd.go:command"]}
{"id": "C89", "title": "A lattice in use can be looked at any time", "statement": "A client that holds a lattice (New, Build) may read Output and call Dot wherever it likes between its calls of Forward and Backward, in any number of goroutines and beside any other calls. Each look at Output shows what the calls made so far have put there (C54), each Dot the graph of the lattice as it is then (C87); looking changes nothing for what is seen later. What has been seen in Output stays at its beginning. The nodes keep their names from one graph to the next, and different nodes have different names in all of them. A Dot whose writer panics shows nothing; if the client recovers the panic it can go on as if the Dot had not been called, and everything is back in the pools after Free.", "quantifier": "all sequences of calls of Forward, Backward, Dot (on writers that panic at any point or not) and looks at Output, texts, well-formed dictionaries with part-of-speech tables, schedules and pool histories", "why_tests_cant": "The sequences of calls and the schedules are unbounded; the writer can panic at any step.", "anchors": ["tokenizer/lattice/lattice.go: New, Build, Forward, Backward, Dot, Free, Lattice.Output"]}
{"id": "C90", "title": "Filters can be used in several goroutines", "statement": "Filters may be shared by goroutines: goroutines that at the same time call Drop and Keep (of the package, of word filters, part-of-speech filters, the Japanese filter), one call after the other, on slices without a common cell, leave in each slice what the same calls leave there when nobody else runs, and change nothing else; never are two of them about to access the same cell; calls that change no token (Yield of the Japanese filter, loops of the client) may even run on the same cells, and each gets what it gets alone; each ends after a number of steps in proportion to its slice and its calls, whatever the others do; a match function that panics stops its own goroutine only. (Slices of one array that overlap have to be filtered one after the other.)", "quantifier": "all sets of goroutines, series of calls, filters, match functions with and without state, tokens, slices without common cells (or only read), and all interleavings of the single accesses", "why_tests_cant": "The interleavings are unbounded in number; tests see a few.", "anchors": ["filter/filter.go: Drop, Keep, applyFilter", "filter/word.go: WordFilter.Drop, WordFilter.Keep", "filter/pos.go: POSFilter.Drop, POSFilter.Keep", "filter/feature.go: FeaturesFilter.Match", "filter/ja/filter.go: Filter.Drop, Filter.Yield"]}
