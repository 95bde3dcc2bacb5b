# Formal model of youthlin/t in Lean 4 — design

## 1. Trusted base

* Lean 4.33.0's kernel. No axioms of our own, no `sorry`, `admit`, `native_decide`, `bv_decide`.
  Theorems depend at most on `propext`, `Classical.choice`, `Quot.sound` (section 6 lists them per theorem).
* The faithfulness of the model to `/repo` (read as text; the code was not run). Every definition under
  `lean/Verif/Model/` cites the file and lines it models and says where it simplifies.
* The specifications under `lean/Verif/Spec/` (and the `def`s next to a theorem in `lean/Verif/Props/`),
  which say in the theorem statements what the English of `properties.jsonl` says.
* Behaviour of Go's standard library and of third-party packages, as modelled or as parameters (next section).

## 2. What is modelled, what is not

Go strings and `[]byte` are `List UInt8` (`Str`). Go maps are association lists with unique keys (`GMap`); iteration order is
never fixed: wherever the code ranges over a map, the model is a relation that allows every order, or takes an arbitrary
permutation as input, and the theorem quantifies over it.
A panic is an explicit outcome (`Res.panic`), a returned error is `Res.err`.

| part of /repo | model | remarks |
|---|---|---|
| `f/format.go` | `Model/Fmt.lean` | `fmt.Sprintf`'s directive loop (`doPrintf`, `parsenum`, `argNumber`, `intFromArg`) is modelled byte by byte; how one argument looks under a verb is a parameter of the environment (for integers, strings, booleans and nil: `Model/Render.lean`) |
| `plurals/exp.go, common.go, stack.go, err.go, plural.g4, parser/` | `Model/Plural.lean` | lexer (maximal munch), parser (the generated precedence-climbing procedure), listener with operand stack, fast-path table; int64 is `Int64` with wrap-around. ANTLR's extra diagnostics (ambiguity / full-context reports, which the code turns into errors) are an arbitrary parameter `diag`; ANTLR error recovery is in `Model/AtnRecover.lean` (here an error is an error). `debug.go` is in `Model/PluralDebug.lean` |
| `plurals/parser/plural_lexer.go, plural_parser.go` | `Model/Atn.lean, AtnLexer.lean, AtnParser.lean` | the serialized automata are copied; the ANTLR runtime (`antlr4-go v4.13.0`, not in the repository) is modelled from its published algorithm: deserialisation, lexer simulation, the first step of SLL prediction, `Sync`, `Match`, the generated rules. Its DFA caches are left out. The theorems show that the parts left out (rule calls while predicting, a second token of lookahead) are never reached and that `diag` is constantly false |
| `translator/entry.go, file.go, plural.go, util.go, wrap.go` | `Model/File.lean, Quote.lean` | the lazily initialised header and plural caches are part of the state |
| `translator/reader.go, po.go, pot.go` | `Model/Po.lean` | line by line |
| `translator/file.go:19, translator/plural.go:19, cmd/xtemplate/internal/run.go:26` (regular expressions) | `Model/File.lean, Model/Run.lean` (hand-written matchers), `Model/Regexp.lean` (the patterns themselves) | package `regexp` is modelled by its documented semantics (what a backtracking search finds first), for the syntax the three patterns use; C71 proves both models equal |
| `translator/mo.go` | `Model/Mo.lean` | reader (with every `io` error) and writer |
| `strconv.Quote/Unquote/ParseInt/Itoa`, UTF-8 coding, `strings.*` | `Model/Quote, Num, Utf8, GoStr.lean` | from the Go source; `strconv.IsPrint` above ASCII is an arbitrary parameter `P` |
| `translaton.go` | `Model/Domain.lean` | file system walk = sequence of visited files with content or failure |
| `translations.go, init.go, gettext.go, translator.go, context.go, http.go, matcher.go, mark.go` | `Model/World.lean` | pointers and aliasing are modelled with a heap; `golang.org/x/text/language` (Make, Matcher, ParseAcceptLanguage), `go-locale` are parameters (ParseAcceptLanguage and the cookies of a request: `Model/Http.lean`) |
| `translations.go`, `init.go`, `gettext.go`, `context.go` under concurrency, one memory access at a time | `Model/Serve.lean` | sequentially consistent memory; an object is filled when it is allocated; a map is read in one access; no `AddOrReplace`/`LoadFS` on a shared `Translation` |
| `tag.go`, `sync.Once`-free lazy initialisation of `translator/file.go` under concurrency | `Model/Conc.lean` | interleaving of atomic steps, sequentially consistent memory |
| `errors/errors.go` | `Model/Errors.lean, Errorf.lean` | errors as trees of wrapped causes; `fmt.Errorf`'s choice of wrapped operands on top of the directive loop; message texts are written out where they are used (`Model/PoError.lean`) |
| `translator/po.go`, the messages of its errors | `Model/PoError.lean` | line by line |
| `translator/mo.go`, the errors of `ReadMo` | `Model/MoError.lean` | line by line |
| `cmd/xtemplate/internal/keyword.go`, the messages of its errors; `strconv.ParseInt` | `Model/KeywordError.lean` | cockroachdb's `errors.Errorf` and `Wrapf` are `fmt.Sprintf` of the format, its redaction marks and stack traces are left out |
| `cmd/xtemplate/internal/keyword.go` | `Model/Keyword.lean` | |
| `cmd/xtemplate/internal/run.go, helper.go` | `Model/Xtemplate.lean` | starts at the syntax tree of text/template's parser, which is a parameter |
| `cmd/xtemplate/internal/run.go (Run, resolveOneFile), param.go` | `Model/Run.lean` | disk, glob, parser, clock and write failures are parameters |
| `filepath.Glob` (called at `cmd/xtemplate/internal/run.go:52`; path/filepath of Go 1.23 on Unix: `Match`, `Glob`, `scanChunk`, `matchChunk`, `getEsc`, `globWithLimit`) | `Model/Glob.lean` | `Lstat` and the names in a directory are parameters; loops are bounded recursions |
| `template.New("").Delims(..).Funcs(..).Parse(..)` (run.go:105-113) | `Model/TmplLex.lean, TmplParse.lean, TmplRun.lean` | scanner and parser of text/template/parse, from the published source of Go 1.23 (standard library, not in /repo); messages and positions are left out, which numbers are accepted and the Unicode letters and digits are parameters. The general theorems about runs hold for any parser; C74-C76 and C79 are about this one |
| variadic slices in `f/format.go`, `translator/file.go`, `errors/errors.go` | `Model/Slice.lean` | backing arrays, offset, length and capacity; Go's `append` (growth policy is a parameter) |
| `cmd/xtemplate/main.go` | `Model/Main.lean` | with the parser of package `flag`; debug output is an arbitrary text after its first words |
| what is written to stderr by `cmd/xtemplate/main.go:38-53`, `internal/run.go:55-70, 81-83, 93, 110, 284-290`, `param.go:84-87`, `keyword.go:131` | `Model/Stderr.lean` | texts of errors of the system, of the template parser and of panics are parameters, as is what `%+v` shows of an error |
| `cmd/xtemplate/main.go:22-36` and `cmd/xtemplate/lang/zh_CN.po` (the embedded translations, byte by byte) | `Model/Embed.lean` | the environment variable, what is found under a path, and the locale of the system are parameters |
| what is written about flags: `cmd/xtemplate/main.go:57-106`, package flag (`parseOne`, `failf`, `UnquoteUsage`, `PrintDefaults`) | `Model/Usage.lean` | the few directives in the messages of package flag are written as concatenations |
| what `http.go:25` and `http.go:35-36` get from the headers of a request: `Request.Cookie`, `Header.Get` (net/http, net/textproto of Go 1.23), `language.ParseAcceptLanguage` (x/text v0.23.0) | `Model/Http.lean` | `language.Parse`, the table `acceptFallback` and `ParseFloat` are parameters; weights are a linear order, so `q=NaN` is not modelled; `sort.Stable` is insertion |
| how `fmt.Sprintf` (`f/format.go:22`) shows one argument: `fmt`, `fmtInteger`, `fmtS`, `fmtQ`, `fmtSbx`, `fmtC`, `fmtUnicode`, `pad`, `badVerb`, `printArg` of package fmt, Go 1.23 | `Model/Render.lean` | arguments are int, uint (64 bits), string, bool or nil; floats, composite values, pointers and values with `Format`, `Error` or `String` methods are left out (they stay with the parameter of `Model/Fmt.lean`); `strconv.IsPrint` and `strconv.QuoteRune` are parameters; `%06s` pads with zeros, as Go 1.23 does |
| `locale/detect.go` | `Model/Locale.lean`; parameter `norm` elsewhere | `language.Make`, the base and region of a tag and the tag of the system are parameters; in the other properties `Normalize` is an arbitrary function `Str → Str` |
| `fs.go`, and `translaton.go:67-91` by the names given to `Open` | `Model/Path.lean` | with `filepath.Clean`, `Join` and `fs.WalkDir` of Go; Unix paths, no links, the disk does not change during a walk |
| what `-d` prints: `debugPrint` and its calls in `cmd/xtemplate/internal/param.go`, `run.go` | `Model/Debug.lean` | the calls are a list of events in order, beside the functions of `Model/Xtemplate.lean` and `Model/Run.lean`; the name of a template, the position of a command and `%#v` of a node are arbitrary texts, the template tree having none of these; the POT is the only other text for stdout |
| what `Eval` prints with a debug context: `plurals/debug.go` and its calls in `plurals/exp.go` | `Model/PluralDebug.lean` | beside the walk of `Model/Plural.lean`; only trees without syntax errors (what is printed for others is an arbitrary parameter; it is the subject of the next line) |
| the same for any text | `Model/AtnDebug.lean` | beside the walk of `Model/AtnRecover.lean`; `GetText` of an expression in parentheses, which contains tokens that were dropped or made up, is an arbitrary parameter for each place in the tree |
| `buf.WriteTo(w)` at `translator/po.go:71`, `pot.go:50`, `mo.go:276` | `Model/Write.lean` | `bytes.Buffer.WriteTo`, `os.File.Write` and `poll.FD.Write` of Go 1.23 on Unix; `write(2)` returns -1 and an error number or the number of bytes it took |
| `io.ReadAll(file)` at `translaton.go:100`, `os.ReadFile` at `cmd/xtemplate/internal/run.go:91` | `Model/Read.lean` | `io.ReadAll`, `os.ReadFile`, `os.File.Read`, `poll.FD.Read` and `embed`'s `openFile.Read` of Go 1.23 on Unix; the file does not change while it is read; `read(2)` returns -1 and an error number or the number of bytes it put into the buffer, 0 only at the end |
| the error `Eval` returns: `plurals/err.go`, `plurals/exp.go:16-20,46` | `Model/PluralError.lean` | beside the walk of `Model/Plural.lean`; what ANTLR reports for a text with syntax errors and what the walk of the tree it makes then does are arbitrary parameters, which C111 determines |
| the buffers `ReadMo` asks for: `translator/mo.go:92-196` | `Model/MoAlloc.lean` | the reader of `Model/Mo.lean` with its reads of descriptors and its `make` calls in order; buffers inside `encoding/binary` are not counted |
| `time.Now().Format("2006-01-02 15:04:05-0700")` at `cmd/xtemplate/internal/param.go:136` | `Model/Time.lean`, `Model/Layout.lean` | `Time.locabs`, `absDate`, `absClock`, `appendInt` `nextStdChunk`, the loop of `appendFormat` and its branches for the parts of this layout, of Go 1.23; what other parts of layouts are written as is a parameter; instant and zone offset are parameters. Elsewhere the date is an arbitrary text |
| error recovery of the generated parser: `plurals/parser/plural_parser.go`, the listener of `plurals/err.go`, `exp.go:29-46` | `Model/AtnRecover.lean` | positions of tokens, the lazily filled token stream, and `DefaultErrorStrategy` (`Sync`, `RecoverInline`, `ReportError`, `Recover`, the sets of expected tokens) of the runtime, modelled from its published algorithm; error nodes of the tree, which the listener does not look at, are left out |
| what depends on the size of `int`: `translator/plural.go:34,41`, `file.go:44-66`, `mo.go:92-316`, `cmd/xtemplate/internal/keyword.go:54-118` | `Model/Word.lean` | the functions of the other models with `w` bits for `int`; lengths of strings and slices fit; `make` panics if a length does not |
| nested calls of `plurals/exp.go:15-47` and `plurals/parser/plural_parser.go:240-1095` | `Model/EvalStack.lean` | the parser of `Model/AtnRecover.lean` and the tree walk of the runtime once more, with a limit for nested calls of rules and of `Walk`; tokens dropped where an operand was not found are children of its node. Bytes of stack and the calls of the runtime within a rule (the prediction, the error strategy) are not counted; nor is the node that ANTLR adds if the end of the text is consumed |
| the calls and copies of `split0`, `translator/wrap.go:10-35` | `Model/WrapCost.lean` | nested calls and pieces appended; not the copying by which `append` enlarges a slice |
| not modelled | | error message texts other than those of the PO and MO readers, of the keyword parser and of plural evaluation, memory exhaustion, the Go memory model beyond sequential consistency and the absence of conflicting unordered accesses (C77) |

## 3. Plan per property

* **C01** Eval never panics and its error cases are exactly the documented ones — Model/Plural: `eval` wraps an inner evaluator that can panic; case analysis plus the parser completeness theorem (C05) and the stack theorem (C04) give the exact success condition.
* **C02** The built-in plural rules agree with the general evaluator — Parse each literal key by kernel evaluation, then case analysis on the comparisons for symbolic n.
* **C03** The built-in plural rules select an existing form — Case analysis; independent GNU table in Spec.
* **C04** The operand stack is used consistently — Listener events are the post-order of the tree; induction on the tree with an arbitrary stack below.
* **C05** Expressions are parsed with the grammar's precedence and associativity, unambiguously — Fuel-indexed precedence climbing; soundness and completeness against a declarative level predicate, by induction on fuel / tree.
* **C06** When plural expressions mean what they mean in C — Lazy C evaluator in Spec; induction over boolean-guarded expressions; counterexamples by evaluation.
* **C07** White space between tokens does not matter — Induction over the token list with separators.
* **C08** Text after a complete plural expression — Corollary of C05 completeness with an arbitrary remainder; counterexample to the rejecting reading.
* **C09** Format without arguments is the identity — Unfolding (case split on the argument list).
* **C10** Format behaves like Sprintf without the EXTRA report — The directive loop is compositional over closed formats: induction over the loop; counterexample for unclosed ones.
* **C11** Default plural choice — Case analysis.
* **C12** Lookup returns the translation last added for that context and message — Induction over the AddEntry history, refinement to a map keyed by pairs.
* **C13** Distinct messages have distinct keys — List lemma on first occurrence of EOT.
* **C14** Plural lookup returns the selected form; when it panics — Complete case analysis of XN64 incl. the panic outcome; exact panic condition proved.
* **C15** Headers are read from the header entry, first occurrence wins, and are frozen once read — State invariant: once set, headers never change; header text parser against a declarative first-match spec.
* **C16** The language of a PO file — Invariant over the ReadPo loop; counterexample.
* **C17** Lookups are pure — Invariant: caches are empty or equal to what would be computed now... over sequences of lookups.
* **C18** Plural-Forms header syntax — Matcher equivalence with a declarative decomposition.
* **C19** Quoting is lossless — UTF-8 decode/encode lemmas; induction on the decoded units.
* **C20** Line splitting is lossless — Well-founded induction on the string.
* **C21** PO save/load round trip — Parser run over printed lines: induction over entries, with state lemmas per keyword block.
* **C22** ReadPo is total — Termination by construction (Lean accepts the definition with a measure), panic freedom by the invariant that state strN implies a non-empty form list.
* **C23** When ReadPot panics — Lock-step comparison of the pot and non-pot loops; counterexample.
* **C24** Line ends and blank lines do not matter — ReplaceAll idempotence; the entry reader skips blank lines in every state.
* **C25** ReadPo keeps translated entries only, the last one per message — Invariant over the loop + C12.
* **C26** Malformed PO input is reported — Declarative line-by-line acceptance relation; equivalence with the loop.
* **C27** POT template round trip — As C21 with the POT printer.
* **C28** Saved output is deterministic and starts with the header — Uniqueness of sorted permutations under a strict total order on keys; counterexample for ties.
* **C29** Entries of one source file are sorted by line number — Order of padded decimal numerals = order of numbers.
* **C30** MO save/load round trip — Offsets arithmetic: reading at offset = take/drop lemmas; induction over entries.
* **C31** MO files of either byte order read the same — Image writer parametrised by byte order; same reader lemma for both.
* **C32** ReadMo is total and memory-safe — Reader modelled with explicit panic; bounds invariants.
* **C33** SaveAsMo writes a valid GNU MO layout — Independent layout predicate in Spec; same arithmetic lemmas as C30.
* **C34** When MO ids are sorted — Counterexample and the exact condition for files without references.
* **C35** PO and MO forms of a file translate identically — From C21, C30 and C12/C17.
* **C36** D, L and Global return independent copies — Heap model; frame lemma for each operation; induction over histories.
* **C37** The set of domains follows bind, remove and clear — Refinement of histories to an abstract set.
* **C38** The current domain follows set, remove and clear — Same refinement.
* **C39** A failed bind changes nothing, a successful bind replaces the whole domain — Case analysis of BindFS with the characterisation of LoadFS (C40).
* **C40** PO files win over MO files — Fold over the two walks, last-writer lemma.
* **C41** One translator per normalized language — Same last-writer lemma over AddOrReplace histories.
* **C42** Choosing a locale by any equivalent name finds the translation — Unfolding of the lookup path with normalisation as a parameter.
* **C43** UsedLocale tells whether a translation is in use — Case analysis.
* **C44** Locales is sorted, duplicate-free and complete — Any iteration order; sortedness + nodup + membership; uniqueness.
* **C45** The short names agree with XN64 and X — Definitional in the model (each facade modelled separately from its source line).
* **C46** Unknown domains and locales fall back to the source text — Invariant over histories: heap cell of trNoop untouched.
* **C47** MostMatchLocale answers for the global instance — Matcher as parameter with in-range contract; counterexample.
* **C48** GetUserLang returns the cookie or a supported locale — Options fold; membership.
* **C49** WithContext applies the innermost locale and domain — Induction over the context chain.
* **C50** The tag cache is transparent under concurrency — Small-step interleaving machine; cache invariant.
* **C51** Concurrent lookups on one File agree with sequential ones — Small-step interleaving machine with atomic reads/writes of the two lazy fields; Go's data-race semantics is not modelled.
* **C52** Marking functions return their arguments — Definitional.
* **C53** Keyword declarations — Declarative grammar; equivalence.
* **C54** Extraction finds exactly the keyword calls with literal arguments — Inductive call-site relation over the tree vs. the recursive extractor.
* **C55** Piped literals are extracted like direct ones — From the extractor equations.
* **C56** Collected entries are merged per message — Induction over the sequence of Add calls.
* **C57** The POT keeps its header — Counterexample.
* **C58** A run writes the POT only if every file was processed — Induction over the file list.
* **C59** Every identifier of a template can be called — Scanner spec: maximal identifier runs.
* **C60** Wrapped errors keep their causes — Error tree model, structural induction.
* **C61** Invalid function names make a run panic — Scanner and `goodName` against declarative names; the loop panics at the first readable file.

* **C62** Formatting calls write only behind the argument slice — Memory of backing arrays, Go's `append`; case analysis on capacity.
* **C63** The POT of a run can be read — Composition of C57/C58 with the PO round trip C27.
* **C64** What the order of maps changes in a POT — Uniqueness of sorted permutations; permutation of merged entries; counterexamples.
* **C65** Exit status of the extraction command — Grammar of command lines vs. Go's flag parser, by induction on the arguments; composition with C58 and C63.
* **C66** A saved message reaches the caller — Composition of C14, C21, C30, C39, C40 and C42, with an invariant over histories that leave the domain alone.
* **C67** A path is bound as the tree it leads to — `Clean` as a stack machine, uniqueness of shortest forms; mutual induction over trees between the walk by names and the walk of the tree.
* **C68** The generated lexer cuts longest tokens — Bisimulation between the automaton's configuration sets (computed by the kernel) and prefixes of tokens, then induction on the text.
* **C69** The generated parser decides by precedence — The predictions depend on the precedence only through comparisons with the levels of the automaton; computed by the kernel for each outcome, lifted to all precedences.
* **C70** Eval through the generated tables — Simulation of the generated rules by the climbing parser, by induction on fuel; induction on the cutting for the lexers; both only up to the first error.
* **C71** The regular expressions do what they are used for — Runs of a pattern as a list in order of preference; induction on the text by runes for each star; the declarative relation `Matches` for all patterns.
* **C72** The message about a malformed PO file names the first bad line — Reader replaced by the list of unread lines and a counter (induction), then the items of C26 as invariant.
* **C73** The message about bad keyword declarations — Case analysis over the shapes of an item; the loop of ParseUint by induction on the digits; formats without arguments by strong induction on the part behind the first directive.
* **C74** No template needs -f — Invariant of the scanner (what was read ends a word, or no word goes on), by induction on the items; the functions only relabel items; no function of the parser reads over an unknown name (mutual induction on the depth).
* **C75** Templates are read to their end — Each item takes a byte (case analysis); mutual induction on the depth with weights per function.
* **C76** What is written is what is extracted — Mutual induction on the derivations of the grammar: the items of each piece are computed by the scanner whatever follows it, and the parser reads them for all large enough bounds (then C75's argument removes the bound).
* **C77** Loaded translations are only read — Invariant of the interleaving semantics: no goroutine is on its way to a write once the lazy fields are set; AddEntry of a header entry sets them; for the converse an explicit schedule of two goroutines.
* **C78** Who sees an added translator — Heap reasoning on the views of the Translations values (C36), with the map lookup after AddOrReplace (C41).
* **C79** Nothing is extracted that is not written — Refinement: induction over the state functions of the scanner shows that the items lie in the text (`Laid`), induction over the parser that every pipe is read from the items of one action; with C54 and C74.
* **C80** Any PO text is shown as the PO grammar reads it — Composition of C16/C25/C26 (the grammar), C40 (the walk) and the invariants of C66, from the text instead of from a saved file.
* **C81** From the template to the translated message — Composition of C58 (the run), the PO grammar on the written POT, C80 and, for template texts, C76.
* **C82** Requests do not interfere — Interleaving semantics with calls divided into single accesses; ownership invariant: each goroutine has a set of objects of its own, what is left of its call is safe in every heap that agrees on these and on the objects of the start (`Safe`, stable by induction over the program of the call).
* **C83** Languages are told apart by language and region only — Evaluation of the one `Sprintf`; a name is split at its first underscore; the map laws of C41.
* **C84** Every listed language can be chosen and no other is used — From C43, C44 and the invariants that translators are filed under their normal name and that the locale of the source code is a normal name.
* **C85** A translation may use the arguments in any order — Messages as lists of texts and directives with a direct meaning; the directive loop computes it, by induction over the message; the directive `Format` appends is one more item.
* **C86** A truncated MO file is never misread — Everything the MO description says of a content is said of its extensions too; the last string of an image ends one byte before the end of the content. For PO, the round trip of the entries before the cut.
* **C87** A file that was read can be saved without loss — Invariant of the PO grammar: an entry never has both a translation and forms, its comments are lines of the text; so the conditions of C21 hold for every file read. For MO the conditions of C30 follow from the description of the messages but one.
* **C88** Where answers come from, and the only panic of lookups — Invariant over all histories: every translator in any Translation object was handed over or is a file of a loaded tree; then C14's characterization for files read.
* **C89** The error about a malformed MO file names the first defect — A second model of the reader that returns the error; it refines the first; the loops are characterized by the least index at which data are missing.
* **C90** The package is an abstract machine of plain records — Simulation: values numbered in the order they are made against addresses, kept in step by each call (frame lemmas of C36), then the questions one by one.
* **C91** Which quoted strings are read, and as what — Grammar in Spec/Literal (characters and UTF-8 of Lean's library); one round of the loop against one character of the grammar, then induction over the text; the fast paths agree with the loop.
* **C92** Joined PO texts — Parse of the second text moved behind the first by induction, the first step being Parse.next; the fold of AddEntry splits; headers frozen or, without any, the same as from the empty file.
* **C93** Cut PO texts — Every beginning of a parse is a parse (induction over Parse); quoted strings are prefix-free by the determinism of the loop (C91), white space characters are a prefix code.
* **C94** Widths and precisions that are arguments — The parts of the loop (index, width, precision, index, verb) are stepped through with a relation between the loop's state and the place the specification looks at; the cases where an index is read by an earlier part than the one it is written for are separate.
* **C95** Which files a pattern names — Patterns split into chunks without stars; a chunk does what its pieces do. The first place where a chunk fits leaves a longer rest than any other place where it fits character by character (the first byte of a character is no continuation byte), and the next star takes the difference; hence searching without going back is complete. Glob by recursion over the slashes.
* **C96** A run over a directory — C95 gives the list of files, C81_pot the POT for the entries of these files, C76_exact and C79_text what the entries have to do with the texts; the output is emptied before anything is read, hence C96_before.
* **C97** What a run says on stderr — phrase_sprintf (from C94) fills phrases; the invariant Inv of C56 tells which entry is kept when the next one comes; induction over the entries of a file and over the files.
* **C98** The language of the messages of the command — the kernel evaluates the reader on the embedded file; its entries are those of the table; the global functions reduce to one translation (t_loaded); C40_po_wins for LANG_PATH.
* **C99** What the command says about its flags — the scanner of flags consumes what Options describes; the first argument it cannot consume is exactly a WrongArg; UnquoteUsage and PrintDefaults against Names, Indented and FlagHelp.
* **C100** What a request says about the language — the loops over parts are a filterMap over the pieces between separators; the insertion keeps sortedness and, for each quality, the order.
* **C101** How numbers, texts and truth values look in a message — each formatting function is shown equal to the relation, then widths, reading back and quoting follow from the relation.
* **C102** What a run with -d prints — the traversal with events is related to the traversal of C54 by the same induction (entries in order, verdicts up to order); the run is then the run of C58 with more text on stdout.
* **C103** What an evaluation of a plural expression prints with a debug context — the walk with lines has the walk as its second component; by induction on the tree the walk on a stack has a trace and the stack is that of the waiting operands; the relation is deterministic.
* **C104** A save that succeeds has written everything — inversion of WriteTo; for files induction on the loop of poll.FD.Write with the invariant that the file has the bytes before the position.
* **C105** A file is loaded from all of its bytes or not at all — induction on the loop of io.ReadAll with the invariant that the buffer holds what the reader delivered; for files inversion of poll.FD.Read.
* **C106** What the error of a failed evaluation says — structural induction on the tree, against a relation that names the first failure; induction on the list of reports.
* **C107** What reading an MO file costs — the reader with events has the reader as its second component; induction on the loops over tables and messages; families of files for the lower bounds.
* **C108** What the tag cache holds — the invariants hold initially and after every step of any goroutine; a call returns by the measure of C50_progress.
* **C109** The date in the header of a POT — a formula for the number of a day is strictly monotone and grows by one with the next day; the algorithm inverts it; induction on digits for the text and its order.
* **C110** A later run changes one line of the POT — the text of the date is quoted as it is and is a line of its own for `split0`; the header sorts first and the rest of the POT is unique (C57, C64).
* **C111** What ANTLR reports about a malformed plural expression — a parser with the state of the error strategy next to the one of C70: by induction on the fuel it ends, and either nothing is reported and both agree, or something is reported and the other one fails.
* **C112** The first thing ANTLR reports about a malformed plural expression — invariant that relates the chain of calling rules to the tokens that an expression can go on with; the follow sets computed from the ATN are those of the grammar; induction on the fuel of the parser.
* **C113** All that ANTLR reports about a plural expression — a scheme of induction for what every operation of the error strategy keeps; invariant: reports are a shuffle of the lexer's and the parser's, the last one of the parser is in front of the current token unless the parser is recovering. For errors of the evaluation: no literal of the tree is longer than the text (the same scheme).
* **C114** Where int has 32 bits — the conversion is the only number in range that is congruent; the functions with the conversions follow those without; offsets are congruent modulo 2^32 throughout; the reader with events of C107 decides about the panic.
* **C115** The value returned next to the error about a malformed plural expression — a calculator on a list of postfix steps (`Tree.steps`, inductive relation `Calculates`), missing numbers are 0; induction over the tree with arbitrary following steps; literals of the tree are digits by induction over the recovering parser.
* **C116** PO files are exchanged with GNU gettext — Spec/GnuPo.lean states the strings and files of GNU gettext. Strings: an induction over the text written by %q, one case for each form of a character, with a length argument where a hexadecimal escape swallows what follows. Files: the pieces of the split are portable; each field, message and file is composed. Reading: a simulation of the file grammar of GNU gettext by the entry parser of Spec/Po.
* **C117** Which messages C programs find in a saved MO file — the search on bytes equals a search among abstract keys (C33); it finds the sorted by induction on the range, and if it finds each key in its place the halves are sorted and lie on the right sides, by the same induction.
* **C118** The order of the messages of a PO file — pieces join by induction with the two-text lemma of C92; a file is determined by the entries of each key and, for the cached fields, by those with an empty id; both lists are unchanged by permutations if one piece at most contributes.
* **C119** How large a PO file becomes in memory — each character form of a Go literal costs at least a third (if UTF-8: all) of the bytes it denotes; sum over literals, lines, items, entries; the map of entries is no larger than the list added to it.
* **C120** How deep the calls of Eval are nested — simulation: with k calls the parser returns the same nodes if their calls are k at most; the walk likewise with levels; every token adds at most two levels (induction over the parser); families of texts that meet the bounds.
* **C121** The header of a POT records the parameters of the run — the fields of a text of lines with distinct keys are the lines; the POT of a run begins with the header (C57), is read entry by entry (C27), and the headers are those of the first entry without message (C22).
* **C122** Where the texts of a saved file are broken, and what that costs — strong induction over the text for the existence of the pieces; a text has one way to be cut into lines and a line one last blank for their uniqueness; induction over the lines for the cost.
* **C123** Which messages Python programs find in a saved MO file — from the layout of the file (C33) the loop is a fold over the entries; every entry makes its own keys, so that the last assignment is the only one.
* **C124** A PO file and the MO file that msgfmt makes of it — the MO file loads to the kept entries (C31, C33) and the PO text to the translated ones (C25, C26); with one entry per message both have the same entry under each key and the same header.
* **C125** C programs and Go programs show the same plural form — the scanner returns the tokens written (by induction on the tokens, as C07 for Go's lexer); grouping and signed values agree with Go's by C06; unsigned values agree with signed ones by induction on the tree; the rest is C18 and C117.
* **C126** How large saved PO and POT files are — every byte takes four bytes at most when quoted and a line end two (induction on the text along the decoder's steps); C122 says where texts are broken, so quotation marks and line ends are counted per line; sums over entries and forms.
* **C127** MO files of four gigabytes and more — descriptors hold remainders (induction on the tables); remainders are not larger than the numbers, so every descriptor lies in the file; the rest as C30, with lengths instead of computations for the examples.
* **C128** Templates translated with GNU gettext — comments of extracted entries begin with #: or #, so they belong to messages for GNU gettext; C116_pot on the collection of C58; the reading relation is deterministic (a string ends at the first quotation mark that is not escaped, octal and hexadecimal digits are taken as far as they go, fields differ in their keywords); then C116's reading of written files and C80.
* **C129** MO files in use — reading an MO file folds its messages in order (C21), a later one replaces an earlier one, and lookups go by context and id (C09, C80); for the compiled file the kept messages are those of the translator's file, each once, so the last message for a call is the translated one.
* **C130** Plural rules of the usual shape always select a form — structural induction on the expression: a safe expression has a value, one of the usual shape a value below nplurals; the built-in rules agree with the general evaluator (C02), so leaving out blanks does not matter; C06 for the value of C.
* **C131** Remarks and obsolete messages in PO files — induction over the lines: remarks in front become comments of the first entry, and those at the end an entry without a translation; dropping the comments of all entries commutes with AddEntry and every lookup.
* **C132** The encoding of PO files — the first line is no item (C26, C23); strings that are unquoted are Go literals (C91), of which only raw strings and numbered bytes can be no UTF-8; induction over the lines.
* **C133** What is printed about a malformed plural expression — the walk with lines projects to the walk without (structural induction); it prints the log of a postfix calculator that keeps the numbers in a list, by induction over the tree with what follows as a continuation; the log is unique; for trees without gaps the walk prints what the walk of C103 prints.
## 4. Findings (places where a natural claim is false of the code)

Each is proved, usually by a counterexample theorem, unless marked *(read)*: seen in the code, not stated as a theorem.

* **plurals** (C06, C08): `^` is computed as `&`; `!`, `&&`, `||` and `?:` take only the value 1 for true; `>=`/`<=` bind
  looser than `>`/`<`; all operands are evaluated, so a division by zero in a branch C would skip is an error; text after a
  complete expression is ignored (`nn` means `n`).
* **f.Format** (C10): a format string that ends inside a directive (`"100%"`) prints `[2]s` and an EXTRA report when
  arguments are given.
* **XN64** (C14): panics when the plural rule selects the index just beyond the stored forms (`>` instead of `>=` on the length).
* **Headers** (C15–C17): computed once and frozen: a call of `Lang`/`GetHeader`, or the insertion of an entry with a context
  and an empty msgid, before the header entry is added leaves the file without headers for ever.
* **ReadPot** (C23): panics (nil entry) on every content with a malformed line; a trailing comment-only block becomes an entry
  with an empty msgid and replaces the header (C27).
* **SaveAsPo** (C21, C28): an empty file is written as an empty text, which ReadPo rejects; an entry with both `MsgStr` and
  `MsgStrN` comes back as two entries; entries with equal sort keys come out in map order; line numbers of 10^10 and more are
  misordered (C29).
* **Keys** (C13): contexts containing EOT collide.
* **SaveAsMo** (C34): ids are not sorted as the GNU format demands. **ReadMo** *(read)*: allocates announced lengths (up to
  4 GiB) before reading.
* **errors.Wrapf** (C60): a stray `%` in the format, or unconsumed arguments, lose the wrapped error; `keyword.go:58-113` passes
  user text as format, so a keyword containing `%` loses its cause.
* **Translations**: `MostMatchLocale` answers for the global instance (C47); binding a file system whose only PO file has no
  Language replaces the domain by an empty one (C39); an unreadable directory aborts the walk (C40); removing a domain that is
  current but not loaded does not reset the current domain (C38); the zero value `Translations{}` panics in BindFS *(read)*;
  `T("")` returns the header text (C12); `GetOrNoop` of an unknown domain hands out one object shared by the whole program, so
  that a translator added to it speaks for every unknown domain, and one added through a copy for a request speaks for the
  original (C78); lookups on a `File` assembled by `AddEntry` without a header entry race on its lazy fields (C77).
* **xtemplate**: `{{ T "" }}` replaces the POT header (C57); calls through a parenthesised receiver (`ChainNode`) are not found
  (C54); the positions of a keyword must be exactly 1..n (C53); the output is truncated before anything is processed, also when
  the run fails, also when it is one of the inputs (C58); keywords and `-f` names that are no identifiers panic (C61);
  identifiers with letters beyond ASCII are not registered (C59), so that a template that
  calls such a function fails unless it is given by `-f`, and so does one with a left delimiter such as `<t` that runs into the name (C74); templates of one file are visited in map order, so the order of
  merged comments is not determined, and whether a message used both ways is plural (C64); a line end in the name of an input
  file makes the POT unreadable (C63); line breaks in a delimiter are not counted in the references (C79);
  a call without plural of a message that another template calls with one stays untranslated (C81); `-d` prints to stdout, where the POT goes by default (C65).
* **Slices** (C62): `Format` and `Wrapf` append to the variadic slice; a caller that passes `args[:n]...` of a longer slice gets
  the element behind it overwritten.
* C67: `Load("")` and `Bind(d, "")` read the whole tree below the working directory (`filepath.Join("", ".")` is `.`); an
  unset configuration value is not an error.
* The line numbers in the messages of `ReadPo` count from 0, one less than editors show (C72). For a plural form the message has a
  doubled blank (`unquote msgstr[0]  failed`), since the prefix it prints ends with one.
* `ParseKeywords` passes its assembled message, with the user's text in it, to `errors.Errorf` and `Wrapf` as the format: a `%` in
  the declarations garbles the message (`100%d;` is reported as `100%!d(MISSING);`), C73. The same holds for the file name in
  `Writer`. The detail is glued to the declarations without a separator.
* Scripts are dropped from the names of languages (C83): a program with translations for `sr-Latn-RS` and `sr-Cyrl-RS`, or `zh-Hans-HK` and `zh-Hant-HK`, uses those loaded last for both.
* A PO file cut between two entries, or between two forms of an entry, is read without an error (C86); a cut MO file is refused unless only its last NUL is missing.
* A PO file with two headers has the language and plural rule of the first as long as it is in memory, and those of the last once it was saved and read again (C87).
* **PO lines** (C91, C93): a text may also be a character literal or a raw (back-quoted) one, and `''` is read as the empty text;
  a PO file cut between two plural forms is read without an error, and lookups of that message panic for numbers whose form
  was cut off.
* **xtemplate's input** (C95): an input file that does not exist, or a pattern that matches nothing, is no failure: a POT with the header only
  replaces the old output. A file with `[` in its name has to be given with `\\[`; `*//x` finds nothing, and a slash cannot be escaped or be in a set.
* **xtemplate's messages** (C73, C97): texts with arguments already filled in are used as formats (`errors.Wrapf(err, t.T("can not open output file: %s",
  fileName))`): with a percent sign in the name of the output or in the keywords the message is garbled (`T:%d` is reported as `T:%!d(MISSING)`).
* The Chinese messages of the command (C98): `zh_CN.po` has no translation for "failed to read file %v", and the translations of
  "context index is not a number: %v" and "context index must end with 'c': %v" drop the directive, so in Chinese these two do not say
  what was wrong (the argument is silently dropped). With `LANG_PATH` set, the embedded translations are not used at all, even if
  nothing is found there.
* `GetUserLang` (C100): the value of the cookie is returned as it is, it need not be a supported locale or a locale at all. A single part
  of the Accept-Language header that is not understood (`zh, de;q=high`) makes all of it be ignored, since the error is dropped
  (http.go:36). Of several Accept-Language headers only the first is read.
* **MO files** (C107): a length in the file is believed before the string is read, so 36 bytes make `ReadMo` ask for up to 4 GiB (a panic where
  `int` has 32 bits), and overlapping strings make the memory quadratic in the size of the file.
* **Tag cache** (C108): it only grows, so a server that calls `Match` or `Tag` with names from requests grows without bound.
* **POT-Creation-Date** (C109): it has seconds, which the dates of GNU gettext (`YEAR-MO-DA HO:MI+ZONE`) do not have.
* **Malformed plural expressions** (C111, C115): after a syntax error the tree is walked all the same. A missing right operand is then replaced by the left one and the left one by 0 (`n/` gives 0/n), so `Eval` may return ErrAntlr together with a non-zero result, or, depending on n, the text of a panic that has nothing to do with what is wrong (`n/` with n = 0: integer divide by zero). A conditional expression without its colon gives its second part whatever the condition.
* **32-bit platforms** (C114): the value of a plural expression is cut to 32 bits before it is compared with nplurals, so a value that is out of range may select a form; an MO file of 36 bytes makes `ReadMo` panic.
* **Exchange with GNU gettext** (C116): texts are saved with `%q`, so an unprintable character outside ASCII, such as the no-break space U+00A0, is written as `\u00a0`, which GNU gettext does not accept, and a control character before a hexadecimal digit is read by it as another byte. `SaveAsPo` writes no `msgstr` for a message without translation, which GNU gettext does not accept either.
* **MO files for C programs** (C34, C117): `SortedEntry` puts references before ids, so the original strings of a saved MO file are in general not sorted, and programs that use GNU libintl do not find all messages. The tables begin at byte 75, not at a multiple of 4, so programs that use musl find none.
* **Entries with a context and an empty id** (C118): `AddEntry` reads the header fields when it meets the first entry with an empty id, whatever its context (`entry.go`, `isHeader`). If such an entry with a context stands before the header, the fields are read while there is no header yet and stay empty: language and plural rule of the file are lost.
* **Long plural expressions** (C120): the calls of the parser and of the tree walk are nested as deep as the expression, and nothing limits the length of the Plural-Forms header. A file whose header has a very long expression ends the process at the first plural lookup (Go's stack limit is 1 GB on 64-bit platforms; the overflow is not a panic, so `Eval` does not recover from it).
* **Recorded parameters** (C121): the header of a POT records the parameters without the white space at their ends, so `{{ ` and `{{` are recorded alike; a line end in one parameter adds a field to the header, which can hide another.
* **Long lines** (C122): `split` is meant to break long texts into lines of at most 77 bytes, but it breaks only the last line of a text, and only once, behind its last blank: the left part ends with that blank, so the recursive call finds nothing to break. Copying the pieces at every level makes it quadratic in the number of lines.
* **MO files for Python programs** (C123): Python's gettext does not need the order and finds everything in a saved MO file, if its header states the character set; a file without a header and with text that is not ASCII is not loaded at all. Messages that have not been translated are saved with an empty translation (GNU msgfmt leaves them out), so Python and C programs show an empty text for them instead of the original.
* **Fuzzy translations** (C124): ReadPo does not look at the flag `fuzzy`, so translations that still have to be checked, and that GNU msgfmt leaves out, are shown if the PO file is loaded; loading an MO file compiled from it with msgfmt instead gives the source texts for them, and the same answers for all other messages.
* **Plural forms in C programs** (C125): where libintl and this package both understand the rule, they choose the same form; they differ if a condition or an operand of `!`, `&&`, `||` is a number other than 0 and 1 (`!n`, `n ? 1 : 0`), if the operand of a comparison or division is negative (`n-2<1`), or if a message has too few forms (C: the first form; here a panic or the source text). Without a rule in the header C programs use the English rule; this package shows the source texts and ignores the translated forms.
* **MO files over 4 GiB** (C127). `SaveAsMo` converts lengths and offsets to `uint32` without a check (translator/mo.go:229, 233, 246, 250). Where a
  string begins at 4 GiB or later, or is that long, neither saving nor reading fails, and messages come back cut or with pieces of other texts.
* **Remarks in PO files** (C131): a comment between `msgid` and `msgstr` makes the translation the header of the file, without an error;
  obsolete messages (`#~`) at the end of a file are lost when it is saved.
* **Encodings** (C132): a PO file with a byte order mark is refused (and makes ReadPot panic); the charset of the header is ignored, and in
  a Latin-1 file all letters outside ASCII become U+FFFD, so that different messages become one, without an error.
* **Debug output** (C65, C102): `-d` prints on stdout, which is also where the POT goes by default, so with `-d` the POT has to be written to a file.

## 5. File layout

`lean/Verif/Model/*` model, `lean/Verif/Spec/*` independent specifications, `lean/Verif/Lemmas/*` helper lemmas,
`lean/Verif/Props/*` the property theorems with their non-vacuity examples. `lean/Verif/Tests/*` repeats the repository's own tests and examples
(f/format_test.go, plurals/exp_test.go, translator/*_test.go, cmd/xtemplate/*_test.go, example_test.go, n1_test.go, translations_test.go,
context_test.go) on the model, evaluated by the kernel; the golden files the real program wrote (translator/testdata/messages.new.pot,
zh_CN_save.mo) are reproduced byte for byte. These are tests of the model's faithfulness, not proofs of properties. `seeded/LOG.jsonl`: one line per wrong program tried
against the theorems.

## 6. Axioms

Axioms of the theorems named in `MANIFEST.json`, as printed by `#print axioms`.
* none: `Tr.C13_collision`, `W.C41_returns`, `W.C52_marks`, `Xt.C56_eot`, `Read.C105_embed`
* propext: `Fmt.C09_no_args`, `Fmt.C10_counterexample`, `Fmt.C11_default_plural`, `Tr.C13_key_injective`, `Tr.C28_tie`, `W.C40_all_files`, `W.C43_used_locale`, `W.C45_short_names`, `W.C45_package`, `W.C46_unknown_locale`, `W.C47_receiver_ignored`, `Re.C71_compile`, `Serve.C82_locales`, `W.C83_form`, `W.C83_same`, `W.C83_idempotent`, `W.C83_settled`, `W.C83_scripts`, `Http.C100_order`, `Fmt.C101_plain`, `Libintl.C117_musl`, `Xt.C121_fuzzy`, `Tr.C131_obsolete`
* propext, Quot.sound: `Plural.C01_no_panic`, `Plural.C01_eval_iff`, `Plural.C02_builtin_eq_general`, `Plural.C04_stack`, `Plural.C04_final_stack`, `Plural.C05_parse_iff`, `Plural.C05_unambiguous`, `Plural.C05_parenthesised`, `Plural.C05_parens_value`, `Plural.C06_c_semantics`, `Plural.C06_parse`, `Plural.C06_builtin`, `Plural.C06_counterexamples`, `Plural.C07_lex`, `Plural.C07_blank_inside_token`, `Plural.C08_trailing_ignored`, `Plural.C08_counterexample`, `Tr.C12_lookup_last_added`, `Tr.C12_other_messages`, `Tr.C14_counterexample`, `Tr.C15_first_wins`, `Tr.C17_lookups_pure`, `Tr.C17_lookups_keep_entries`, `Tr.C17_lookup_freezes_headers`, `Tr.C21_consistent`, `Tr.C23_counterexample`, `Tr.C28_deterministic`, `Tr.C28_header_first`, `Tr.C33_length`, `Tr.C34_sorted_iff`, `Tr.C34_sorted`, `W.C37_fresh`, `W.C40_po_wins`, `W.C41_last_added`, `W.C47_global`, `W.C48_user_lang`, `W.C48_last_option`, `Conc.C50_tags`, `Conc.C50_progress`, `Conc.C51_agree`, `Conc.C51_progress`, `Xt.C54_gaps`, `Xt.C54_receiver`, `Xt.C54_gap_example`, `Xt.C55_parens`, `Xt.C57_exists`, `Xt.C58_total`, `Xt.C61_only`, `Errors.C60_errorf`, `Errors.C60_secondary_is`, `Errors.C60_only_causes`, `Errors.C60_exact`, `Errors.C60_false`, `Errors.C60_unused_argument`, `Errors.C60_stray_percent`, `Xt.C64_permuted`, `Xt.C64_order`, `Xt.C64_comments`, `Xt.C65_total`, `Xt.C65_version`, `W.C67_empty`, `Antlr.C69_tables`, `Antlr.C69_loopAlt`, `Tr.C72_empty`, `Tr.C72_syntax`, `Tr.C72_is`, `Conc.C77_read_only`, `W.C78_settings`, `W.C78_seen`, `W.C78_unseen`, `Serve.C82_ends`, `Serve.C82_shared`, `Tr.C87_mo_conditions`, `Tr.C93_hazard`, `Xt.C97_english`, `Xt.C98_complete`, `Xt.C98_speaks`, `Xt.C99_headline`, `Fmt.C101_star`, `Xt.C102_quiet`, `Xt.C102_same`, `Plural.C103_same`, `Plural.C103_quiet`, `Write.C104_pieces`, `Read.C105_opened`, `Read.C105_file`, `Plural.C106_cause`, `Plural.C106_value`, `Tr.C107_same`, `Tr.C107_greedy`, `Time.C109_seconds`, `Time.C109_layout`, `Word.C114_differs`, `Word.C114_mo_saved`, `Antlr.C115_whole`, `Tr.C118_conditions`, `Xt.C121_fields`, `Xt.C121_back`, `Xt.C121_spaces`, `Xt.C121_line_end`, `Tr.C122_pieces`, `Tr.C122_inner`, `Tr.C122_once`, `Libintl.C125_unique`, `Tr.formWords_ten`, `Tr.C127_each`, `GnuFlow.C128_unique`, `Antlr.C133_same`
* propext, Classical.choice, Quot.sound: `Antlr.C70_value`, `Antlr.C70_builtin`, `Plural.C03_gnu_rules`, `Plural.C07_eval`, `Fmt.C10_no_extra`, `Fmt.C10_eq_sprintf`, `Fmt.C10_plain_text`, `Fmt.C10_too_many`, `Tr.C14_plural_lookup`, `Tr.C14_panic_iff`, `Tr.C15_before_first_use`, `Tr.C15_first_use_fixes`, `Tr.C18_syntax`, `Tr.C18_parse`, `Tr.C18_reject`, `Tr.C18_unique`, `Tr.C16_exact`, `Tr.C16_counterexample`, `Tr.C19_unquote_quote`, `Tr.C19_one_line`, `Tr.C20_split`, `Tr.C21_round_trip`, `Tr.C22_total`, `Tr.C23_exact`, `Tr.C24_meaningful_lines`, `Tr.C24_carriage_return`, `Tr.C24_blank_line`, `Tr.C25_last_translated`, `Tr.C25_all_translated`, `Tr.C25_joined`, `Tr.C26_error_iff`, `Tr.C26_ok_iff`, `Tr.C26_exclusive`, `Tr.C27_round_trip`, `Tr.C28_counterexample`, `Tr.C29_line_order`, `Tr.C29_number`, `Tr.C30_round_trip`, `Tr.C31_byte_order`, `Tr.C31_image`, `Tr.C32_total`, `Tr.C32_substrings`, `Tr.C33_layout`, `Tr.C34_counterexample`, `Tr.C35_same_lookups`, `W.C36_frame`, `W.C36_independent`, `W.C36_copies`, `W.C37_hasDomain`, `W.C37_domains`, `W.C37_remove`, `W.C38_domain`, `W.C38_locales`, `W.C39_failed`, `W.C39_bound`, `W.C42_locale`, `W.C46_fallback`, `W.C44_locales`, `W.C44_idempotent`, `W.C44_deterministic`, `W.C44_exists`, `W.C47_false`, `W.C48_exists`, `W.C49_with_context`, `Xt.C53_exact`, `Xt.C53_rejects`, `Xt.C53_unique`, `Xt.C54_exact`, `Xt.C54_count`, `Xt.C54_file`, `Xt.C55_piped`, `Xt.C56_merge`, `Xt.C56_reported`, `Xt.C56_plural_header`, `Xt.C57_pot`, `Xt.C57_header_first`, `Xt.C57_false`, `Xt.C58_run`, `Xt.C58_early`, `Xt.C59_scan`, `Xt.C59_registered`, `Xt.C59_no_keyword`, `Xt.C61_panic`, `Errors.C60_wrapf`, `Errors.C60_wrapf_is`, `Errors.C60_call_sites`, `Slice.C62_format`, `Slice.C62_lookup`, `Slice.C62_plural_lookup`, `Slice.C62_wrapf`, `Slice.C62_aliasing`, `Xt.C63_readable`, `Xt.C63_run`, `Xt.C63_line_end`, `Xt.C64_unique`, `Xt.C64_run`, `Xt.C65_main`, `Xt.C65_readable`, `Xt.C65_debug`, `W.C66_po`, `W.C66_mo`, `W.C66_usual`, `W.C67_clean`, `W.C67_clean_unique`, `W.C67_join`, `W.C67_bind`, `Antlr.C68_match`, `Antlr.C68_tokens`, `Antlr.C68_unique`, `Antlr.C69_whether`, `Antlr.C69_how`, `Antlr.C69_one_token`, `Antlr.C70_tree`, `Antlr.C70_eval`, `Re.C71_runs`, `Re.C71_leftmost`, `Re.C71_header`, `Re.C71_plurals`, `Re.C71_idents`, `Re.C71_headerLine`, `Re.C71_headers`, `Re.C71_parsePlural`, `Re.C71_scan`, `Tr.C72_message`, `Tr.C72_line`, `Tr.C72_unique`, `Xt.C73_plain`, `Xt.C73_exists`, `Xt.C73_message`, `Xt.C73_unique`, `Xt.C73_exclusive`, `Xt.C73_faithful`, `Tmpl.C74_suffices`, `Tmpl.C74_all_known`, `Tmpl.C74_builtin`, `Tmpl.C74_unknown`, `Tmpl.C74_nonascii`, `Tmpl.C74_ascii`, `Tmpl.C75_items`, `Tmpl.C75_count`, `Tmpl.C75_comments`, `Tmpl.C75_depth`, `Tmpl.C76_parsed`, `Tmpl.C76_entries`, `Tmpl.C76_exact`, `Tmpl.C76_action`, `Tmpl.C76_message`, `Conc.C77_race`, `Conc.C77_loaded`, `Conc.C77_bound`, `W.C78_copies_share`, `W.C78_through_copy`, `W.C78_unknown_shared`, `W.C78_bound_private`, `Tmpl.C79_items`, `Tmpl.C79_entry`, `Tmpl.C79_text`, `Tmpl.C79_none`, `W.C80_text`, `Flow.C81_pot`, `Flow.C81_translated`, `Flow.C81_conflict`, `Flow.C81_rest`, `Flow.C81_message`, `Serve.C82_alone`, `Serve.C82_no_race`, `Serve.C82_unchanged`, `Serve.C82_requests`, `Serve.C82_calls`, `W.C84_used`, `W.C84_choice`, `W.C84_request`, `Fmt.C85_sprintf`, `Fmt.C85_format`, `Fmt.C85_fits`, `Fmt.C85_any_order`, `Tr.C86_extend`, `Tr.C86_truncated`, `Tr.C86_refused`, `Tr.C86_saved`, `Tr.C86_po`, `Tr.C87_entries`, `Tr.C87_no_loss`, `Tr.C87_stable`, `Tr.C87_same_lookups`, `Tr.C87_two_headers`, `Tr.C87_mo`, `Tr.C87_mo_to_po`, `W.C88_provenance`, `W.C88_blame`, `W.C88_panics`, `W.C88_no_panic`, `Tr.C89_refused`, `Tr.C89_message`, `Tr.C89_unique`, `Tr.C89_cut`, `W.C90_machine`, `Literal.C91_unquote`, `Literal.C91_quotes`, `Literal.C91_message`, `Tr.C92_joined`, `Tr.C92_lookups`, `Tr.C93_line_end`, `Tr.C93_torn`, `Fmt.C94_sprintf`, `Fmt.C94_format`, `Glob.C95_match_bad`, `Glob.C95_match_sound`, `Glob.C95_match_complete`, `Glob.C95_match_exact`, `Glob.C95_glob_bad`, `Glob.C95_glob_sound`, `Glob.C95_glob_complete`, `Glob.C95_glob_exact`, `Glob.C95_glob_plain`, `Glob.C95_glob_nodup`, `Glob.C95_glob_order`, `Xt.C95_run_nothing`, `Xt.C95_run_bad`, `Flow.C96_pot`, `Flow.C96_message`, `Flow.C96_before`, `Flow.C96_again`, `Flow.C96_more`, `Xt.C97_run`, `Xt.C97_named`, `Xt.C97_silent`, `Xt.C97_keyword`, `Xt.C97_output`, `Xt.C97_pattern`, `Xt.C97_panic`, `Xt.C98_chinese`, `Xt.C98_other`, `Xt.C98_path`, `Xt.C98_lang`, `Xt.C99_kinds`, `Xt.C99_usage`, `Xt.C99_stderr`, `Xt.C99_refines`, `Http.C100_cookie`, `Http.C100_accept`, `Http.C100_request`, `Fmt.C101_shows`, `Fmt.C101_width`, `Fmt.C101_reads`, `Fmt.C101_quoted`, `Fmt.C101_extra`, `Fmt.C101_format`, `Xt.C102_lines`, `Xt.C102_announced`, `Xt.C102_verdicts`, `Xt.C102_one`, `Xt.C102_run`, `Xt.C102_early`, `Xt.C102_main`, `Xt.C102_unreadable`, `Plural.C103_lines`, `Plural.C103_value`, `Plural.C103_count`, `Write.C104_once`, `Write.C104_saved`, `Write.C104_po`, `Write.C104_pot`, `Write.C104_mo`, `Write.C104_file`, `Write.C104_sink`, `Read.C105_all`, `Read.C105_load`, `Read.C105_embedded`, `Read.C105_possible`, `Read.C105_template`, `Read.C105_saved`, `Plural.C106_same`, `Plural.C106_malformed`, `Tr.C107_bounded`, `Tr.C107_success`, `Tr.C107_saved`, `Tr.C107_quadratic`, `Tr.C107_int`, `Conc.C108_holds`, `Conc.C108_quiet`, `Conc.C108_stays`, `Conc.C108_unbounded`, `Time.C109_calendar`, `Time.C109_civil`, `Time.C109_stamp`, `Time.C109_unique`, `Time.C109_back`, `Time.C109_order`, `Time.C109_header`, `Xt.C110_line`, `Xt.C110_empty`, `Xt.C110_run`, `Antlr.C111_reported`, `Antlr.C111_tree`, `Antlr.C111_eval`, `Antlr.C111_same`, `Antlr.C111_error`, `Antlr.C112_first`, `Antlr.C112_unique`, `Antlr.C113_told`, `Antlr.C113_count`, `Antlr.C113_size`, `Antlr.C113_any`, `Word.C114_lookup`, `Word.C114_agree`, `Word.C114_keywords`, `Word.C114_mo_read`, `Word.C114_mo_good`, `Word.C114_mo_panic`, `Antlr.C115_value`, `Antlr.C115_right`, `Antlr.C115_colon`, `GnuPo.C116_agree`, `GnuPo.C116_written`, `GnuPo.C116_saved`, `GnuPo.C116_field`, `GnuPo.C116_pot`, `GnuPo.C116_po`, `GnuPo.C116_text`, `GnuPo.C116_read`, `GnuPo.C116_untranslated`, `Libintl.C117_sorted`, `Libintl.C117_iff`, `Libintl.C117_saved`, `Libintl.C117_form`, `Libintl.C117_plain`, `Tr.C118_order`, `Tr.C118_saved`, `Tr.C118_read`, `Tr.C118_written`, `Tr.C119_size`, `Tr.C119_tight`, `Antlr.C120_same`, `Antlr.C120_levels`, `Antlr.C120_enough`, `Antlr.C120_tokens`, `Antlr.C120_nots`, `Antlr.C120_over`, `Antlr.C120_opens`, `Xt.C121_read`, `Xt.C121_run`, `Xt.C121_now`, `Tr.C122_cost`, `Py.C123_saved`, `Py.C123_untranslated`, `Py.C123_noheader`, `Msgfmt.C124_compiled`, `Msgfmt.C124_fuzzy`, `Libintl.C125_same`, `Libintl.C125_beyond`, `Libintl.C125_usual`, `Libintl.C125_programs`, `Libintl.C125_norule`, `Tr.C126_text`, `Tr.C126_tight`, `Tr.C126_po`, `Tr.C126_pot`, `Tr.C127_read`, `Tr.C127_whole`, `Tr.C127_short`, `Tr.C127_lost`, `Tr.C127_wrong`, `Tr.C127_edge`, `GnuFlow.C128_back`, `GnuFlow.C128_pot`, `GnuFlow.C128_run`, `GnuFlow.C128_shown`, `GnuFlow.C128_rest`, `GnuFlow.C128_flow`, `W.C129_accepted`, `W.C129_mo`, `GnuFlow.C129_compiled`, `Tr.C130_selects`, `Tr.C130_shown`, `Tr.C130_checked`, `Tr.C130_rules`, `Tr.C130_generated`, `Tr.C131_front`, `Tr.C131_between`, `Tr.C131_behind`, `Tr.C131_inside`, `Tr.C132_foreign`, `Tr.C132_mark`, `Tr.C132_utf8`, `Tr.C132_alone`, `Tr.C132_merged`, `Antlr.C133_quiet`, `Antlr.C133_lines`, `Antlr.C133_whole`
