{"id": "C01", "title": "Eval never panics and its error cases are exactly the documented ones", "statement": "plurals.Eval always returns (a value or a non-nil error) and never lets a panic escape. Off the built-in table, it returns a value exactly when some prefix of the token stream is an expression of the grammar that the next token cannot continue, every integer literal fits int64, and no division or remainder by zero and no negative shift count is met anywhere in the tree, including in branches that C would not evaluate.", "quantifier": "every expression byte string and every int64 n", "why_tests_cant": "the space of strings and of n is infinite; a panic hides behind any unsampled string", "anchors": ["plurals/exp.go:Eval", "plurals/exp.go:myListener", "plurals/stack.go:Int64Stack"]}
{"id": "C02", "title": "The built-in plural rules agree with the general evaluator", "statement": "For each of the built-in common expressions, the hand-written Go function gives, for every n, the same value as lexing, parsing and evaluating the expression text with the general evaluator.", "quantifier": "all 12 built-in expressions and all 2^64 values of n", "why_tests_cant": "2^64 values of n; the tests only sample 0..214 and always take the fast path, so they never compare the two paths", "anchors": ["plurals/common.go:commons", "plurals/exp.go:Eval"]}
{"id": "C03", "title": "The built-in plural rules select an existing form", "statement": "For every n (negative n included) each built-in expression returns an index >= 0 and below the number of plural forms of its language family (1, 2, 2, 3, 3, 3, 3, 3, 3, 3, 4, 6), and equals the rule in the GNU gettext manual.", "quantifier": "all 12 built-in expressions and every int64 n", "why_tests_cant": "2^64 values of n", "anchors": ["plurals/common.go:commons"]}
{"id": "C04", "title": "The operand stack is used consistently", "statement": "Evaluating any syntactically valid expression leaves exactly one value on the operand stack and never pops an empty stack; the value is the compositional value of the expression tree.", "quantifier": "every expression tree and every n", "why_tests_cant": "trees are unbounded in depth and shape; Pop errors are ignored by the code so a mismatch would be silent", "anchors": ["plurals/exp.go:ExitExp", "plurals/exp.go:ExitPrimary", "plurals/stack.go:Pop", "plurals/stack.go:Push"]}
{"id": "C05", "title": "Expressions are parsed with the grammar's precedence and associativity, unambiguously", "statement": "A token sequence parses to tree t if and only if it spells t and t respects the precedence levels of plural.g4 (left-associative binary operators, right-associative ?:, prefix operators binding tighter than binary ones); hence there is at most one tree, and any tree written with the parentheses its levels require is read back unchanged.", "quantifier": "every token sequence and every expression tree", "why_tests_cant": "expression nesting is unbounded; precedence errors show only on particular operator combinations", "anchors": ["plurals/plural.g4", "plurals/parser/plural_parser.go:exp"]}
{"id": "C06", "title": "When plural expressions mean what they mean in C", "statement": "If an expression evaluates without error, its value is the value C gives to it. False of the code in general, with a counterexample for each cause: ^ is computed as &; !, &&, || and the condition of ?: treat only the value 1 as true; >= and <= bind looser than > and <. True, for every n, of every expression that does not use ^, ++ or --, has no bare > or < as the right operand of >= or <=, and in which the operands of !, && and || and the conditions of ?: have C values 0 or 1 for that n (as comparisons always do); true of all built-in expressions.", "quantifier": "every expression and every n", "why_tests_cant": "value-level disagreement appears only for conditions with values other than 0 and 1", "anchors": ["plurals/exp.go:handleExpPrefix", "plurals/exp.go:handleExpBop", "plurals/plural.g4"]}
{"id": "C07", "title": "White space between tokens does not matter", "statement": "Inserting or removing blanks and tabs between the tokens of a plural expression (keeping at least one where two tokens would otherwise merge) never changes the token sequence and thus never changes the result of Eval.", "quantifier": "every token sequence and every choice of separators", "why_tests_cant": "unbounded number of spacings", "anchors": ["plurals/plural.g4:WS", "plurals/exp.go:Eval"]}
{"id": "C08", "title": "Text after a complete plural expression", "statement": "Rejecting every string that is not a plural expression is false of the code: after a complete expression, a following token that cannot continue it ends the parse without error and everything after it is ignored (\"nn\" evaluates like \"n\" for every n). What holds instead, exactly: the value is that of the longest leading expression, whatever follows the token that ends it.", "quantifier": "every expression and every trailing text", "why_tests_cant": "unbounded trailing text", "anchors": ["plurals/exp.go:Eval", "plurals/plural.g4:start", "plurals/exp_test.go:errCase"]}
{"id": "C09", "title": "Format without arguments is the identity", "statement": "f.Format(s) with no arguments returns s byte for byte, even if s contains formatting verbs.", "quantifier": "every string", "why_tests_cant": "all strings", "anchors": ["f/format.go:Format"]}
{"id": "C10", "title": "Format behaves like Sprintf without the EXTRA report", "statement": "For a format string that does not end inside a formatting directive and fewer than 10000009 arguments, f.Format(s, args...) equals what fmt.Sprintf writes for the directives of s given args followed by an empty string, with no %!(EXTRA ...) report; in particular it equals fmt.Sprintf(s, args...) whenever s uses exactly the given arguments. Both limits are needed: strings that end inside a directive such as \"100%\" get literal text [2]s and an EXTRA report appended, and with 10000009 or more arguments %!s(BADINDEX) is appended.", "quantifier": "every format string and every argument list", "why_tests_cant": "all strings; the directive grammar (flags, width, precision, explicit indexes) is combinatorial", "anchors": ["f/format.go:Format"]}
{"id": "C11", "title": "Default plural choice", "statement": "f.DefaultPlural formats the plural string exactly when it is non-empty and n != 1, otherwise the singular one.", "quantifier": "every pair of strings, every int64 n, every argument list", "why_tests_cant": "all n", "anchors": ["f/format.go:DefaultPlural", "translator.go:nooptor"]}
{"id": "C12", "title": "Lookup returns the translation last added for that context and message", "statement": "After any sequence of AddEntry calls, X(ctxt, id) yields (formatted) the MsgStr of the last entry added with that context and id if it is non-empty, and the source text id otherwise; adding entries for other messages does not matter. Holds for contexts that contain no EOT (0x04) byte.", "quantifier": "every AddEntry history and every lookup", "why_tests_cant": "unbounded histories", "anchors": ["translator/file.go:X", "translator/file.go:AddEntry", "translator/util.go:key"]}
{"id": "C13", "title": "Distinct messages have distinct keys", "statement": "Two (context, id) pairs get the same lookup key only if they are equal, provided the contexts contain no EOT byte; without that proviso two different pairs can collide.", "quantifier": "every two pairs of byte strings", "why_tests_cant": "all strings", "anchors": ["translator/util.go:key", "translator/entry.go:Key", "cmd/xtemplate/internal/helper.go:key"]}
{"id": "C14", "title": "Plural lookup returns the selected form; when it panics", "statement": "XN64 returns the plural form selected by the Plural-Forms header if it exists, is inside nplurals and is non-empty, else the default plural of the source strings; it panics with index out of range exactly if the selected index equals the number of stored forms and is below nplurals (so the claim that it never panics is false of the code). As in C12, for contexts that contain no EOT (0x04) byte.", "quantifier": "every file state, message, int64 n and argument list", "why_tests_cant": "depends on header, entry and n together", "anchors": ["translator/file.go:XN64", "translator/plural.go:parsePlural"]}
{"id": "C15", "title": "Headers are read from the header entry, first occurrence wins, and are frozen once read", "statement": "GetHeader(k) returns the trimmed text after the first ': ' of the first line of the header entry whose trimmed key is k; the first time headers are needed (any GetHeader, Lang, plural lookup or the addition of any entry with an empty id) fixes them for the life of the File. Contexts without EOT byte, as in C12.", "quantifier": "every header text and every history of AddEntry and lookups", "why_tests_cant": "unbounded histories and texts", "anchors": ["translator/file.go:initHeader", "translator/file.go:GetHeader", "translator/file.go:AddEntry"]}
{"id": "C16", "title": "The language of a PO file", "statement": "A File read by ReadPo reports as Lang() the Language field of its first translated entry with an empty msgid if that entry has no context, and the empty string otherwise. The claim that it is the Language of the header entry wherever that stands is therefore false of the code: an entry with a context and an empty msgid before the header entry freezes empty headers.", "quantifier": "every PO content", "why_tests_cant": "unbounded contents", "anchors": ["translator/file.go:Lang", "translator/file.go:AddEntry", "translator/entry.go:isHeader"]}
{"id": "C17", "title": "Lookups are pure", "statement": "X, XN64, Lang and GetHeader calls, in any number and order, never change the result of any later X, XN64, Lang or GetHeader call on the same File (lazy caches are transparent), although they may freeze the headers seen by later AddEntry calls.", "quantifier": "every file state and every sequence of lookups", "why_tests_cant": "unbounded call sequences", "anchors": ["translator/file.go:getPlural", "translator/file.go:initPlural", "translator/file.go:initHeader"]}
{"id": "C18", "title": "Plural-Forms header syntax", "statement": "parsePlural accepts exactly the strings of the form ws 'nplurals' ws '=' ws digit ws ';' ws 'plural' ws '=' ws expr ';' (no newline in expr), yielding that digit and that expression; for any other string every plural lookup falls back to the default plural.", "quantifier": "every header value", "why_tests_cant": "all strings", "anchors": ["translator/plural.go:parsePlural", "translator/plural.go:rePlurals"]}
{"id": "C19", "title": "Quoting is lossless", "statement": "strconv.Unquote of the %q form of any byte string (valid UTF-8 or not) is that byte string, and the %q form contains no raw newline or carriage return.", "quantifier": "every byte string", "why_tests_cant": "all byte strings, including invalid UTF-8 and every code point", "anchors": ["translator/pot.go:writeString", "translator/util.go:removePrefixAndUnquote"]}
{"id": "C20", "title": "Line splitting is lossless", "statement": "The pieces a long message is split into concatenate to the message, no piece contains a newline other than at its end, and pieces other than the leading marker are non-empty for a non-empty message; splitting always terminates.", "quantifier": "every byte string and threshold", "why_tests_cant": "all strings", "anchors": ["translator/wrap.go:split0"]}
{"id": "C21", "title": "PO save/load round trip", "statement": "Reading back what SaveAsPo wrote gives the same set of entries (comments, context, id, plural id, translations), for every non-empty file whose entries are well-formed (an empty file is saved as the empty text, which ReadPo rejects): comment lines start with # and contain no CR/LF, each entry is translated, plural data only in plural entries, not both msgstr and msgstr[N]. The order the unstable sort happens to choose does not matter.", "quantifier": "every well-formed set of entries and every admissible write order", "why_tests_cant": "unbounded files; arbitrary bytes in messages", "anchors": ["translator/po.go:SaveAsPo", "translator/po.go:readPo", "translator/po.go:readEntry", "translator/pot.go:writeString"]}
{"id": "C22", "title": "ReadPo is total", "statement": "ReadPo terminates on every input and returns either a file or an error; it never panics.", "quantifier": "every byte string", "why_tests_cant": "all inputs; non-termination and panics hide in unsampled inputs", "anchors": ["translator/po.go:readPo", "translator/po.go:readEntry", "translator/reader.go"]}
{"id": "C23", "title": "When ReadPot panics", "statement": "ReadPot panics exactly on the contents with a malformed line (nil entry), i.e. exactly where ReadPo returns a malformed-entry error; on every other content it returns a file, or an error if the content is empty. The claim that it never panics is therefore false of the code.", "quantifier": "every byte string", "why_tests_cant": "all inputs", "anchors": ["translator/po.go:readPo", "translator/po.go:ReadPot"]}
{"id": "C24", "title": "Line ends and blank lines do not matter", "statement": "Removing carriage returns, or inserting and removing blank lines anywhere, does not change what ReadPo or ReadPot return (up to line numbers in error messages); the empty content, which is an error of its own, excepted.", "quantifier": "every content and every placement", "why_tests_cant": "unbounded placements", "anchors": ["translator/po.go:readPo", "translator/po.go:readEntry"]}
{"id": "C25", "title": "ReadPo keeps translated entries only, the last one per message", "statement": "Every entry of a file read by ReadPo has a translation, and for each message the stored entry is the last translated one in the text; untranslated entries never shadow or appear. Messages are told apart by context, EOT byte and id joined, so by context and id if no context contains an EOT byte (C13).", "quantifier": "every PO content", "why_tests_cant": "unbounded contents", "anchors": ["translator/po.go:readPo", "translator/entry.go:isValid", "translator/file.go:AddEntry"]}
{"id": "C26", "title": "Malformed PO input is reported", "statement": "ReadPo returns an error exactly when the content is empty or some non-blank line, in the state reached there, is not a comment, not a keyword line with a validly quoted string and not a quoted continuation line; a malformed line is never mistaken for end of input.", "quantifier": "every PO content", "why_tests_cant": "unbounded contents", "anchors": ["translator/po.go:readEntry", "errors/errors.go:Is", "errors/errors.go:WithSecondaryError"]}
{"id": "C27", "title": "POT template round trip", "statement": "For every non-empty file whose comments are comment lines: reading with ReadPot what SaveAsPot wrote gives, for every non-header entry, the same comments, context, id and plural id with empty translations (two empty forms for plurals), and the header entry unchanged.", "quantifier": "every well-formed set of entries and every admissible write order", "why_tests_cant": "unbounded files", "anchors": ["translator/pot.go:SaveAsPot", "translator/po.go:ReadPot"]}
{"id": "C28", "title": "Saved output is deterministic and starts with the header", "statement": "If no two entries have the same sort key, SaveAsPo, SaveAsPot and SaveAsMo write the same bytes whatever the map iteration order and sort algorithm, and the header entry comes first. Without the proviso the output may differ from run to run (entries with empty ids and different contexts; contexts that imitate a line comment).", "quantifier": "every set of entries, every map iteration order, every sorting algorithm", "why_tests_cant": "map iteration order is random per run", "anchors": ["translator/file.go:SortedEntry", "translator/entry.go:getSortKey"]}
{"id": "C29", "title": "Entries of one source file are sorted by line number", "statement": "Two non-header entries whose only reference comments are '#: file:line' with the same file name are written in numerical order of their line numbers (non-negative, below 10^10).", "quantifier": "every file name without blanks and colons and every pair of line numbers", "why_tests_cant": "all pairs of numbers", "anchors": ["translator/entry.go:getLineString", "translator/entry.go:getSortKey"]}
{"id": "C30", "title": "MO save/load round trip", "statement": "Reading back what SaveAsMo wrote gives the same entries without comments, for every file with total size below 2^32 whose contexts contain no EOT, whose ids and plural ids contain no EOT unless there is a context, whose ids contain no NUL, whose plural entries carry at least one form and no NUL in forms, and whose singular entries carry no plural data.", "quantifier": "every well-formed set of entries and every admissible write order", "why_tests_cant": "unbounded files; offsets and lengths are computed arithmetic", "anchors": ["translator/mo.go:SaveAsMo", "translator/mo.go:ReadMo", "translator/mo.go:moMsgID", "translator/mo.go:moMsgStr"]}
{"id": "C31", "title": "MO files of either byte order read the same", "statement": "An MO image written in big-endian byte order reads to the same file as the little-endian image with the same logical content.", "quantifier": "every header/table/string content", "why_tests_cant": "unbounded contents; only little-endian samples exist in the tests", "anchors": ["translator/mo.go:ReadMo"]}
{"id": "C32", "title": "ReadMo is total and memory-safe", "statement": "ReadMo terminates on every byte string and returns a file or an error without panicking; on success every id and string it stores is a substring of the input at the announced offset and the number of strings is the announced one.", "quantifier": "every byte string", "why_tests_cant": "all inputs, adversarial ones included", "anchors": ["translator/mo.go:ReadMo"]}
{"id": "C33", "title": "SaveAsMo writes a valid GNU MO layout", "statement": "The bytes written have the magic number, revision 0, N, and tables at O and T such that for each i the i-th descriptor gives the exact length and offset of the i-th id and translation, each followed by a NUL byte, all inside the file and without overlap.", "quantifier": "every set of entries below 2^32 bytes in total", "why_tests_cant": "arithmetic over unbounded contents", "anchors": ["translator/mo.go:SaveAsMo", "translator/mo.go:writeMoHeader"]}
{"id": "C34", "title": "When MO ids are sorted", "statement": "The GNU MO format requires the original strings in increasing order. False of the code (entries are ordered by source reference comments first, and context-free ids sort before ids with context). True exactly if every id without context is smaller than every id with context, for files in which no entry carries a reference comment and only the header has an empty id (no NUL in contexts and ids, contexts start with a byte above EOT); so in particular if all or none of the messages have a context.", "quantifier": "every set of entries", "why_tests_cant": "unbounded sets", "anchors": ["translator/mo.go:SaveAsMo", "translator/file.go:SortedEntry"]}
{"id": "C35", "title": "PO and MO forms of a file translate identically", "statement": "For a non-empty file that both formats can express, whose only entry with an empty id is the header, loading its saved PO form or its saved MO form gives translators with the same Lang, X and XN64 results for every sequence of lookups.", "quantifier": "every well-formed file and every lookup", "why_tests_cant": "unbounded files and lookups", "anchors": ["translator/po.go", "translator/mo.go", "translator/file.go"]}
{"id": "C36", "title": "D, L and Global return independent copies", "statement": "No operation on the result of D, L, Global or WithContext (SetDomain, SetLocale, SetSourceCodeLocale, BindFS, RemoveDomain, ClearDomains) ever changes what the original, or any other Translations value, returns, and conversely; only changing a shared Translation object is visible through both.", "quantifier": "every history of operations on any number of Translations values", "why_tests_cant": "unbounded histories, aliasing", "anchors": ["translations.go:clone", "translations.go:D", "translations.go:L", "init.go:Global"]}
{"id": "C37", "title": "The set of domains follows bind, remove and clear", "statement": "After any history, HasDomain(d) holds iff the last successful bind of d was not followed by a successful RemoveDomain(d) or ClearDomains; Domains() lists exactly those domains once each; RemoveDomain returns true iff it removed something and \"\" is never removed.", "quantifier": "every history of operations", "why_tests_cant": "unbounded histories", "anchors": ["translations.go:RemoveDomain", "translations.go:ClearDomains", "translations.go:HasDomain", "translations.go:Domains", "translations.go:BindFS"]}
{"id": "C38", "title": "The current domain follows set, remove and clear", "statement": "Domain() is the last domain set, except that removing the current domain or clearing resets it to \"default\"; locale and source-code locale are never changed by domain operations.", "quantifier": "every history of operations", "why_tests_cant": "unbounded histories", "anchors": ["translations.go:SetDomain", "translations.go:RemoveDomain", "translations.go:ClearDomains"]}
{"id": "C39", "title": "A failed bind changes nothing, a successful bind replaces the whole domain", "statement": "BindFS with a file system from which no file loads leaves every Translations value unchanged; if at least one file loads, the domain afterwards provides exactly the (non-empty, normalized) languages of the loaded files and nothing of its previous content, and nothing else changes.", "quantifier": "every file tree, every prior state", "why_tests_cant": "unbounded file trees", "anchors": ["translations.go:BindFS", "translaton.go:LoadFS"]}
{"id": "C40", "title": "PO files win over MO files", "statement": "After loading a file tree, the translator for a language is that of the last loadable .po file of that language in walk order if there is one, else of the last loadable .mo file, else the one there was. The walk visits the files in order up to the first directory that cannot be read.", "quantifier": "every file tree (any mix of loadable, broken, unreadable files) and every language", "why_tests_cant": "unbounded trees", "anchors": ["translaton.go:LoadFS", "translaton.go:LoadFile", "translaton.go:AddOrReplace"]}
{"id": "C41", "title": "One translator per normalized language", "statement": "After any sequence of AddOrReplace calls a Translation holds, for each normalized language, the translator last added whose non-empty language normalizes to it; AddOrReplace returns the one it replaced, or nil.", "quantifier": "every sequence of AddOrReplace calls", "why_tests_cant": "unbounded histories", "anchors": ["translaton.go:AddOrReplace", "translaton.go:Get", "translaton.go:NewTranslation"]}
{"id": "C42", "title": "Choosing a locale by any equivalent name finds the translation", "statement": "If the current domain holds a translator whose language normalizes like the argument of SetLocale or L, lookups after it use that translator; otherwise lookups return the formatted source text (for an unknown domain with the proviso of C46).", "quantifier": "every state and every locale string", "why_tests_cant": "all locale strings", "anchors": ["translations.go:SetLocale", "translations.go:X", "translations.go:XN64", "translaton.go:GetOrNoop"]}
{"id": "C43", "title": "UsedLocale tells whether a translation is in use", "statement": "UsedLocale() equals Locale() if the current domain has a translator for it, and the source-code locale otherwise; in the latter case every lookup returns the formatted source text, as long as nobody adds translators to the object that unknown domains share (C46).", "quantifier": "every state", "why_tests_cant": "all states", "anchors": ["translations.go:UsedLocale"]}
{"id": "C44", "title": "Locales is sorted, duplicate-free and complete", "statement": "Locales() returns in increasing order, without duplicates, the source-code locale and the normalized languages of the current domain (normalized twice: once when filed, once when listed) and nothing else, independently of map iteration order.", "quantifier": "every state and every iteration order", "why_tests_cant": "map iteration order is random", "anchors": ["translations.go:Locales"]}
{"id": "C45", "title": "The short names agree with XN64 and X", "statement": "T, N, N64, N1, N1_64, X, XN, XN1, XN1_64, on a Translations value and as package functions on the global one, are X or XN64 with empty context and/or empty plural as named.", "quantifier": "every state and every argument", "why_tests_cant": "all arguments", "anchors": ["gettext.go", "translations.go", "init.go"]}
{"id": "C46", "title": "Unknown domains and locales fall back to the source text", "statement": "With an unknown domain or locale, T/X return the formatted msgID and N/XN the default plural, whatever has been loaded elsewhere, as long as nobody adds translators to the Translation object GetOrNoop returns for unknown domains (all unknown domains share it).", "quantifier": "every history", "why_tests_cant": "unbounded histories", "anchors": ["translations.go:GetOrNoop", "translaton.go:trNoop", "translator.go:nooptor"]}
{"id": "C47", "title": "MostMatchLocale answers for the global instance", "statement": "ts.MostMatchLocale() matches the global instance's locale against the global instance's locales whatever ts is; for the global instance the result is a supported locale of it and there is no panic (index in range). The claim that it answers for its receiver is false of the code.", "quantifier": "every state", "why_tests_cant": "all states", "anchors": ["translations.go:MostMatchLocale", "matcher.go:Match"]}
{"id": "C48", "title": "GetUserLang returns the cookie or a supported locale", "statement": "GetUserLang returns the value of the configured cookie if the request has it (the last WithCookieName option wins, default 'lang'), else an element of Locales(); it never panics.", "quantifier": "every request, option list and state", "why_tests_cant": "all requests", "anchors": ["http.go:GetUserLang", "http.go:WithCookieName"]}
{"id": "C49", "title": "WithContext applies the innermost locale and domain", "statement": "WithContext(ctx) is the global Translations with the locale most recently set by SetCtxLocale (normalized) and the domain most recently set by SetCtxDomain, independently of the order they were set in, and does not change the global one.", "quantifier": "every context chain and every global state", "why_tests_cant": "unbounded chains", "anchors": ["context.go"]}
{"id": "C50", "title": "The tag cache is transparent under concurrency", "statement": "Under every interleaving of concurrent Tag/Tags calls, each call returns language.Make of its argument.", "quantifier": "every number of goroutines and every interleaving", "why_tests_cant": "schedules cannot be enumerated by tests", "anchors": ["tag.go:Tag", "tag.go:Tags"]}
{"id": "C51", "title": "Concurrent lookups on one File agree with sequential ones", "statement": "Any number of goroutines doing X, XN64, Lang and GetHeader on one shared File get the same results as if run alone, under every interleaving of the lazy initialisation steps (sequentially consistent memory).", "quantifier": "every number of goroutines and every interleaving", "why_tests_cant": "schedules cannot be enumerated by tests", "anchors": ["translator/file.go:initHeader", "translator/file.go:initPlural"]}
{"id": "C52", "title": "Marking functions return their arguments", "statement": "Mark.T/N/X/XN return their arguments unchanged.", "quantifier": "every string", "why_tests_cant": "all strings", "anchors": ["mark.go"]}
{"id": "C53", "title": "Keyword declarations", "statement": "ParseKeywords accepts exactly the ';'-separated lists whose items are name, name:i, name:i,j, name:ic,j or name:ic,j,k (blanks trimmed, non-empty name, int64 numbers) and returns the declared positions in order; it rejects everything else.", "quantifier": "every string", "why_tests_cant": "all strings", "anchors": ["cmd/xtemplate/internal/keyword.go:ParseKeywords"]}
{"id": "C54", "title": "Extraction finds exactly the keyword calls with literal arguments", "statement": "The entries reported for a template are exactly those of the command positions whose last name is a keyword and whose following arguments (with a piped literal appended) begin with string literals at the declared positions, in all of list, action, if/else, range/else, with/else, template and parenthesised pipelines; each such site and keyword contributes one entry. The declared positions must be exactly 1..n for some n: a keyword with a gap (T:2) extracts nothing. Calls inside a parenthesised receiver of a field chain are not found.", "quantifier": "every template tree and keyword list", "why_tests_cant": "unbounded trees", "anchors": ["cmd/xtemplate/internal/run.go:resolveNode", "cmd/xtemplate/internal/run.go:resolveCmds", "cmd/xtemplate/internal/run.go:filter", "cmd/xtemplate/internal/run.go:extract"]}
{"id": "C55", "title": "Piped literals are extracted like direct ones", "statement": "A pipeline \"s\" | F args extracts the same entries as F args \"s\" (and F (\"s\") the same as F \"s\").", "quantifier": "every keyword, argument list and literal", "why_tests_cant": "unbounded argument lists", "anchors": ["cmd/xtemplate/internal/run.go:pipedStringArg", "cmd/xtemplate/internal/run.go:stringLiteral"]}
{"id": "C56", "title": "Collected entries are merged per message", "statement": "After any sequence of extracted entries whose contexts contain no EOT byte the collection holds one entry per message (context and msgid): the first one, with the comments of all entries for the message that agree with it on being plural, in order; exactly the others are reported and dropped; and, parameters being free of newlines, the header declares plural forms iff some collected entry is plural. With EOT bytes two different messages can be merged.", "quantifier": "every sequence of entries", "why_tests_cant": "unbounded sequences", "anchors": ["cmd/xtemplate/internal/param.go:Add", "cmd/xtemplate/internal/param.go:header"]}
{"id": "C57", "title": "The POT keeps its header", "statement": "The POT written for a run contains the generated header entry and every collected entry, by sort key, the header first if no message is empty. False of the code when a template contains a keyword call with an empty message and no context: its entry replaces the header; true otherwise. As in C56, for contexts without EOT byte.", "quantifier": "every collection", "why_tests_cant": "unbounded collections", "anchors": ["cmd/xtemplate/internal/param.go:pot", "cmd/xtemplate/internal/param.go:header"]}
{"id": "C58", "title": "A run writes the POT only if every file was processed", "statement": "Run processes every matched file even if some fail, prints every failure, returns the first failure if any and then writes nothing to the output (which has already been truncated), and otherwise writes the POT of all files (that of C57, for contexts without EOT byte). An invalid keyword or an output that cannot be opened changes nothing on disk; an invalid pattern leaves a truncated output.", "quantifier": "every list of files and every failure pattern", "why_tests_cant": "unbounded failure patterns", "anchors": ["cmd/xtemplate/internal/run.go:Run", "cmd/xtemplate/internal/keyword.go:Writer"]}
{"id": "C59", "title": "Every identifier of a template can be called", "statement": "Before parsing a template exactly the following are registered as functions: every maximal ASCII identifier of its source (digits right before it being ignored) that is not a template keyword, every extraction keyword and every -f function.", "quantifier": "every source text", "why_tests_cant": "all texts", "anchors": ["cmd/xtemplate/internal/run.go:scanFuncNames", "cmd/xtemplate/internal/run.go:resolveOneFile", "cmd/xtemplate/internal/param.go:newCtx"]}
{"id": "C60", "title": "Wrapped errors keep their causes", "statement": "With a format of plain directives for exactly its arguments, none of them %w, errors.Is(Wrapf(e, format, args...), t) holds iff t is e or one of its causes (t not being the new error); likewise for WithSecondaryError(a, b) and the causes of a and b. Whatever the format, also with flags, widths that are arguments and explicit argument indexes, Is finds on what Errorf returns exactly the causes of the arguments that Sprintf prints with the verb w, and so nothing that is not a cause of an argument. All calls of Wrapf in package translator have such a format. With a stray % in the format, or unused arguments, e is lost.", "quantifier": "every error tree, format and argument list", "why_tests_cant": "unbounded nesting", "anchors": ["errors/errors.go"]}
{"id": "C61", "title": "Invalid function names make a run panic", "statement": "A run of the extractor panics iff the keywords are valid, the output can be opened, the pattern is valid, some matched file can be read, and some extraction keyword or -f name is not an identifier for the template package; the output has then been truncated and nothing written.", "quantifier": "every parameter, disk and template parser", "why_tests_cant": "all names, disks and parsers", "anchors": ["cmd/xtemplate/internal/run.go:resolveOneFile", "cmd/xtemplate/internal/param.go:newCtx"]}
{"id": "C62", "title": "Formatting calls write only behind the argument slice", "statement": "Format, lookups and plural lookups with a slice passed as variadic arguments return what the slice's contents determine. The only memory they write is the element just behind the slice, when the slice is not empty and has spare capacity; it becomes an empty string. Wrapf likewise writes at most the element behind its argument slice. So f.Format(s, a[:n]...) changes a[n]: callers of args[:n]... see their other arguments change.", "quantifier": "every memory, slice (array, offset, length, capacity), format, file and number", "why_tests_cant": "all slices and memories", "anchors": ["f/format.go:Format", "translator/file.go", "errors/errors.go:Wrapf"]}
{"id": "C63", "title": "The POT of a run can be read", "statement": "After a run of the extractor that returns no error with a file as output, ReadPot reads that file: for every context and message it has exactly the collected entry (plural ones with two empty forms), or the header for the empty message, or nothing, provided the names of the input files have no line ends and no context has an EOT byte. With a line end in a file name the POT is malformed and ReadPot panics on it.", "quantifier": "every environment, parameter, disk and template parser", "why_tests_cant": "all templates, files and map orders", "anchors": ["cmd/xtemplate/internal/param.go:Write", "translator/po.go:ReadPot", "translator/pot.go:SaveAsPot"]}
{"id": "C64", "title": "What the order of maps changes in a POT", "statement": "Two runs on the same input have the same outcome unless sort keys of collected entries tie or an empty message has a context (contexts without EOT byte). If the entries of all templates agree, for each message, on being plural and on the second message, then the order of templates (a Go map) changes only the order of the comments of collected entries. If they disagree, the order decides whether the message is plural in the POT, and the other use is dropped.", "quantifier": "every environment, sequence of entries and permutation", "why_tests_cant": "all map orders", "anchors": ["cmd/xtemplate/internal/run.go:resolveOneFile", "cmd/xtemplate/internal/param.go:Add", "translator/file.go:SortedEntry"]}
{"id": "C65", "title": "Exit status of the extraction command", "statement": "For every command line: -help exits 0 and a command line that is not of the form of Go flags exits 2, nothing else happening; otherwise the last value of each flag counts and arguments after the first non-flag are ignored: -v prints the version and exits 0, else -h exits 0, else a blank -i or -k exits 2, else the extraction runs and the status is 0 iff Run returned no error, 2 after an error or a panic. Status 0 with -o a file means that ReadPot reads the messages of all files from it. With -d stdout starts with debug output, so a POT written to stdout cannot be read. The version string is as set at link time, else of the module, else from version control settings, else dev.", "quantifier": "every argument list, environment and disk", "why_tests_cant": "unbounded command lines", "anchors": ["cmd/xtemplate/main.go:main", "cmd/xtemplate/main.go:buildParam", "cmd/xtemplate/main.go:versionString"]}
{"id": "C66", "title": "A saved message reaches the caller", "statement": "Take any set of messages with a header naming a language and optionally a plural rule, saved as PO (or as MO), and any file tree in which that file is the last .po file for its language (for MO: the last .mo file, and no .po file has the language). After binding the tree to a domain of a Translations value, and after any further calls on any values that do not bind or remove that domain of that value or change its Translation object, whenever the current domain and locale are these, every lookup shows what the file says: the stored translation if it is not empty, the form the plural rule selects if it is stored and not empty, the source text otherwise; it panics exactly when the selected form is the one just beyond the stored ones.", "quantifier": "every message set, order of saving, file tree, reachable program state, sequence of further calls, message, number and arguments", "why_tests_cant": "unbounded catalogues, trees and histories", "anchors": ["translator/po.go:SaveAsPo", "translator/mo.go:SaveAsMo", "translaton.go:LoadFS", "translations.go:BindFS", "translations.go:XN64", "translator/file.go:XN64"]}
{"id": "C67", "title": "A path is bound as the tree it leads to", "statement": "filepath.Clean writes every path in the one shortest form that leads to the same place from every working directory and stays absolute or relative; joining a path with names leads to those names below it. For every operating system that answers for paths in shortest form with the nodes of a tree without links, Bind(domain, path) and Load(path) always finish with exactly the effect of BindFS on the subtree (or single file) at the place the path leads to, or on a file system that cannot be read if nothing is there, however the path is spelled and in whatever order directories list their entries; every path given to os.Open leads to that place or below it. The empty path is the working directory, not an error.", "quantifier": "every path, working directory, file tree, operating system serving it, listing order, program state and domain", "why_tests_cant": "unbounded paths and trees", "anchors": ["fs.go:asFS", "fs.go:Open", "init.go:Load", "init.go:Bind", "translaton.go:LoadFS"]}
{"id": "C68", "title": "The generated lexer cuts longest tokens", "statement": "The serialized automaton in plural_lexer.go, read and interpreted as the ANTLR runtime does, finds at the beginning of every text the longest token of plural.g4 (the 27 literals, INT, WS), with its type and with the action skip exactly for WS, and reports an error exactly if no token begins there. So the token stream of a text is the one cutting of it into longest tokens, without white space, up to the first error; that cutting is unique.", "quantifier": "every text (any code points, any bytes)", "why_tests_cant": "unbounded texts", "anchors": ["plurals/parser/plural_lexer.go", "plurals/plural.g4", "plurals/exp.go:Eval"]}
{"id": "C69", "title": "The generated parser decides by precedence", "statement": "In the serialized automaton of plural_parser.go, interpreted as ANTLR's adaptive prediction does: for every precedence an operand is required to have and every next token, the loop of rule exp goes on exactly if the token begins the rest of a left-recursive alternative of plural.g4 whose level (16 minus its position) is at least that precedence, and then it takes the alternative of that token. One token always decides, so ambiguity, full-context and context-sensitivity reports never occur.", "quantifier": "every precedence (all naturals) and every token or end of input", "why_tests_cant": "unbounded precedences; the reports depend on the automaton", "anchors": ["plurals/parser/plural_parser.go", "plurals/plural.g4", "plurals/err.go:ReportAttemptingFullContext"]}
{"id": "C70", "title": "Eval through the generated tables", "statement": "For every text and every n, Eval computed with the serialized automata (lexer, predictions, error checks, the generated rules start, exp and primary, the listener) returns exactly what Eval returns with the lexer and the precedence-climbing parser of the hand-written model when ANTLR raises no further diagnostic. Hence off the built-in table it returns v iff the leading expression has the value v, and each built-in function computes what the tables compute from its text.", "quantifier": "every byte string and every int64", "why_tests_cant": "unbounded texts", "anchors": ["plurals/exp.go:Eval", "plurals/parser/plural_lexer.go", "plurals/parser/plural_parser.go", "plurals/common.go"]}
{"id": "C71", "title": "The regular expressions do what they are used for", "statement": "The three patterns of the repository, compiled and matched as package regexp documents (leftmost match, then the preference of a backtracking search; the loop of FindAllString and FindAllStringSubmatch): reHeader on a line gives exactly the texts before and behind the first \": \", rePlurals gives exactly the digit and the expression of the Plural-Forms syntax and nothing for other texts, identPattern gives exactly the ASCII identifiers of a text, whatever bytes (also invalid UTF-8) it contains. Hence header texts, parsePlural and scanFuncNames computed with the patterns are the ones of the hand-written matchers. For every pattern the matcher finds a match exactly if there is one, and none begins before the one found.", "quantifier": "every byte string; the last sentence for every pattern of characters, classes, stars, groups and anchors", "why_tests_cant": "unbounded texts; greedy and lazy repetition compete for the same text", "anchors": ["translator/file.go:reHeader", "translator/plural.go:rePlurals", "cmd/xtemplate/internal/run.go:identPattern"]}
{"id": "C72", "title": "The message about a malformed PO file names the first bad line", "statement": "ReadPo returns an error with a message exactly if the file is not well formed. For a non-empty file the message is determined by one line: the lines before it are well formed, it is the first that cannot follow them, the message gives its number (counted from 0), quotes it whole and says what is wrong with it (the text of which keyword or of which continued string cannot be unquoted, or that the line is none of the known kinds). Nothing behind that line has an influence on the message. For errors.Is, every error of readEntry is errInvalidEntry and none is io.EOF; the error about a line is strconv.ErrSyntax exactly if the line begins with a keyword that can come next or with a quote.", "quantifier": "every file content (byte string)", "why_tests_cant": "unbounded files; the line counter and the un-reading of a line between two entries interact", "anchors": ["translator/po.go:readEntry", "translator/po.go:ReadPo", "translator/reader.go:nextLine", "translator/reader.go:unGetLine", "errors/errors.go:Wrapf", "errors/errors.go:WithSecondaryError"]}
{"id": "C73", "title": "The message about bad keyword declarations", "statement": "ParseKeywords returns an error with a message exactly if the text is not a list of declarations. The message is about the first item that is no declaration; what it says about the item (which index is not a number and whether strconv calls it malformed or out of range, a missing c, too many indexes, or nothing for a missing name or too many colons) is a function of the item. Without translations the message repeats the whole text and then the detail exactly if the text has no '%': the assembled text is handed on as a format, and a format without arguments is printed as it is exactly if it has no '%'.", "quantifier": "every keyword text (byte string), every translation function, every format", "why_tests_cant": "unbounded texts; that no format with a '%' ever prints as itself needs an argument about all formats", "anchors": ["cmd/xtemplate/internal/keyword.go:ParseKeywords", "f/format.go:Format"]}
{"id": "C74", "title": "No template needs -f", "statement": "If the parser of text/template accepts a template with some set of functions, a run of the extractor accepts it with the same trees, whichever -f functions are given: every name of a function that the scanner of text/template finds is registered. This holds if that set treats `break` and `continue` as the run does (as functions or as keywords), the left delimiter does not end with an ASCII letter, digit or underscore and the names of the functions are ASCII (which they are in an ASCII text). A template with a name that has a byte beyond ASCII fails unless the name is a keyword or given by -f; so does one whose left delimiter ends with a letter that runs into the name.", "quantifier": "every template text, all delimiters, keywords, -f lists and sets of functions, all tables of letters and digits that are right for ASCII", "why_tests_cant": "the scan for identifiers and the scanner of text/template are different algorithms that must agree on every text", "anchors": ["cmd/xtemplate/internal/run.go:scanFuncNames", "cmd/xtemplate/internal/run.go:resolveOneFile"]}
{"id": "C75", "title": "Templates are read to their end", "statement": "On every text and for all delimiters the scanner of templates ends with exactly one end-of-text or error item, each item taking at least a byte, and the parser calls itself to a depth of at most eight per item: the model's bounds on items, comments and depth make no difference.", "quantifier": "every text, all delimiters, functions and letter tables, all larger bounds", "why_tests_cant": "all texts", "anchors": ["cmd/xtemplate/internal/run.go:resolveOneFile"]}
{"id": "C76", "title": "What is written is what is extracted", "statement": "A grammar says how templates are written with given delimiters: text, comments, trim markers, names, fields, variables and declarations, string literals, numbers (decimal ones with sign, fraction and exponent, hexadecimal, octal and binary ones, imaginary and complex ones), character constants, parentheses and chains of fields, pipelines, actions, if, range, with, else, else if, else with, break, continue, template, block, define. Every text written by the grammar for some trees is read by a run of the extractor as exactly these trees, whichever functions it calls, with the line each pipeline begins on; so the file's entries are exactly those its trees ask for. In particular a call of a keyword with a string literal anywhere in a text is extracted, with the literal's value and the place file:line.", "quantifier": "every text and trees related by the grammar (unbounded nesting and length), all delimiters that nothing else is mistaken for (left: not beginning with white space nor ending with a letter, digit or underscore; right: beginning with an ASCII character that is neither white space, a letter, digit or underscore nor one of \"$'()+,-.:=`|; no line breaks), all keywords and -f lists, all rules which numbers are accepted that accept at least those of the grammar (integers of up to 18 digits, exponents of up to two, ASCII characters), all letter tables right for ASCII, all file names and disks", "why_tests_cant": "unbounded texts and nesting; scanner, parser and identifier scan have to agree on all of them", "anchors": ["cmd/xtemplate/internal/run.go:resolveOneFile", "cmd/xtemplate/internal/run.go:scanFuncNames"]}
{"id": "C77", "title": "Loaded translations are only read", "statement": "Every translator that a domain gets from a file system is a File whose headers and plural rule are already set up, and under every interleaving of any number of lookups (X, XN64, Lang, GetHeader) nobody writes to such a file, so there is no data race. Exactly the files whose headers have not been read, or that have plural entries and no plural rule yet, can be raced on.", "quantifier": "all files, all file system trees, any number of goroutines and calls, all interleavings", "why_tests_cant": "a race detector sees only the interleavings that happen; unbounded numbers of goroutines and contents", "anchors": ["translator/file.go:AddEntry", "translator/file.go:initHeader", "translator/file.go:initPlural", "translaton.go:AddOrReplace", "translaton.go:LoadFS"]}
{"id": "C78", "title": "Who sees an added translator", "statement": "After a translator with a language is added to a domain object obtained from Get or GetOrNoop, the Translations values that answer from it are exactly those whose current domain is that very object and whose locale is the canonical form of the translator's language; everybody else answers as before, and no locale, current domain or set of domains changes. Copies made by D, L, Global and WithContext share the objects of the original, so an addition through a copy speaks for the original; unknown domains share one object program-wide; the domain made by a successful BindFS is at first held by nobody else.", "quantifier": "all histories of calls, all Translations values, domains, translators and languages", "why_tests_cant": "aliasing has to be right after every history of calls", "anchors": ["translations.go:Get", "translations.go:GetOrNoop", "translations.go:clone", "translaton.go:AddOrReplace"]}
{"id": "C79", "title": "Nothing is extracted that is not written", "statement": "The items of a template text are written in it one after the other, with only removed white space, trim markers and comments between them, each on the line where the parser says it is. Every entry that is extracted comes from one action of the text: between a left and a right delimiter stand the name of a declared keyword (after a dot or alone) and string literals whose values are its msgid, its context and its plural, and the line the entry refers to is that of the first item of the action that is not a template keyword. Text outside of actions and inside comments gives no entries; a text without the left delimiter has none.", "quantifier": "all template texts, all delimiters without line breaks, all keyword declarations and options, all classes of letters and digits that are right on ASCII, all entries", "why_tests_cant": "the converse of finding every call: no text at all may give an entry that is not there, at a wrong line or mixed from several actions", "anchors": ["cmd/xtemplate/internal/run.go:resolveOneFile", "cmd/xtemplate/internal/run.go:resolveTmpl"]}
{"id": "C80", "title": "Any PO text is shown as the PO grammar reads it", "statement": "Whatever wrote a PO text and however its lines are broken: while it is the last .po file for its language in the bound tree and a value is in that domain and language, every lookup shows what the text says when read by the PO grammar: for a message the last translated entry for it, with the form the header's rule selects; for a message without a translated entry the source text, with the default plural. Calls in between on whatever values that leave the domain alone change nothing.", "quantifier": "all PO texts the grammar accepts whose contexts have no EOT and whose header names a language, all trees, all sequences of calls, all states, messages, contexts, numbers and arguments, all formatters and number semantics", "why_tests_cant": "texts, trees, call sequences and messages are unbounded; the PO comes from editors and merge tools, not from the writers of the package", "anchors": ["translator/po.go:ReadPo", "translations.go:BindFS", "translaton.go:LoadFS", "translator/file.go:X", "translator/file.go:XN64"]}
{"id": "C81", "title": "From the template to the translated message", "statement": "After a successful run of xtemplate into a file, that file, read by the PO grammar, has exactly one entry for every message of the templates and, but for the header, no others. If then a PO text that answers every entry of the POT is in use, every call a template makes (one that agrees with the first call for its message on having a plural) shows the translation: `{{T \"m\"}}` anywhere in a template comes out as the string the PO has for m, a plural call as the selected form. A call without plural of a message first called with one is shown as the source text if the PO answers the POT only; a message no template asks for is shown as it is.", "quantifier": "all environments of the run whose output is a file that is written completely, templates, delimiters as in C76, options and keyword declarations, names of input files without line breaks; all PO texts, trees, call sequences, states and arguments, all messages that are not empty, with contexts without the byte EOT", "why_tests_cant": "the composition of the scanner, parser, extractor, POT writer, PO reader, loader and lookup over unbounded templates, catalogues and call sequences; the tests cover each alone on samples", "anchors": ["cmd/xtemplate/internal/run.go:Run", "cmd/xtemplate/internal/run.go:resolveOneFile", "translator/po.go:ReadPo", "translations.go:BindFS", "gettext.go:T"]}
{"id": "C82", "title": "Requests do not interfere", "statement": "Any number of goroutines, each running any code that calls the package and the Translations values it has made itself (NewTranslations, Global, D, L, WithContext, the setters, BindFS, RemoveDomain, ClearDomains, all queries and lookups; what it does next may depend on the answers) but changes only its own values: in every interleaving of their single memory accesses each of them is told exactly what it would be told alone with Translations being plain values. No two of them are ever about to access the same variable with one of them writing, the global value and all values made before stay as they are, and each can go on to its end. In particular each of any number of simultaneous requests gets its message in the language and domain of its own context. With the package's SetLocale in one goroutine both fail: another is told something else, and the two race.", "quantifier": "all reachable states, numbers of goroutines, codes, interleavings at the granularity of single accesses, contexts, languages, domains, trees and arguments", "why_tests_cant": "interleavings and codes are unbounded; the race detector reports only the schedules that happen", "anchors": ["translations.go:clone", "translations.go:D", "translations.go:L", "translations.go:X", "translations.go:XN64", "translations.go:BindFS", "translations.go:RemoveDomain", "translations.go:ClearDomains", "context.go:WithContext", "init.go:Global", "gettext.go:T"]}
{"id": "C83", "title": "Languages are told apart by language and region only", "statement": "Normalize returns the base language, an underscore and the region of the tag the language package makes of the name, GetDefault the same of the tag of the system. Two names are the same to the package iff their tags have the same base language and region, whatever they say about script, variant or extensions. Normal names are left as they are, so choosing what Locale returns changes nothing. A translator is replaced by one added later for the same language and region, also if it is for another script: of sr-Latn-RS and sr-Cyrl-RS only the later can be reached.", "quantifier": "all names, tags and language packages that print codes as themselves, use no underscore in base languages and read ll_CC as written", "why_tests_cant": "the names of languages are unbounded; the tests use two", "anchors": ["locale/detect.go:Normalize", "locale/detect.go:NormalizeTag", "locale/detect.go:GetDefault", "translaton.go:AddOrReplace", "translations.go:SetLocale"]}
{"id": "C84", "title": "Every listed language can be chosen and no other is used", "statement": "After SetLocale the locale UsedLocale reports is the chosen one if Locales lists it and the language of the source code otherwise. Every name Locales lists can be chosen: after SetLocale with it, UsedLocale is this name. So also for what GetUserLang finds for a request without the cookie, and for what MostMatchLocale finds.", "quantifier": "all histories of calls, Translations values whose domain is loaded or for which nothing was added to the shared empty Translation, languages, normalizations that leave normal names and en_US alone and never give an empty name, matchers whose answer is in range", "why_tests_cant": "histories and languages are unbounded", "anchors": ["translations.go:SetLocale", "translations.go:UsedLocale", "translations.go:Locales", "translations.go:MostMatchLocale", "http.go:GetUserLang"]}
{"id": "C85", "title": "A translation may use the arguments in any order", "statement": "For a message made of texts, %% and directives with flags, width, precision, an optional index [k] and a letter as verb: Sprintf shows a directive with an index as argument k and one without as the argument behind the last one shown, with the flags, width and precision as written; MISSING or BADINDEX stand for arguments that are not there; arguments behind the last one shown are reported unless some directive has an index. Format shows the same for the arguments followed by an empty one, and reports nothing. So a translation whose directives all have an index shows exactly these arguments, in whatever order and however often it names them, whatever the order in the source text.", "quantifier": "all messages of this form, argument lists (for Format not empty and shorter than a million) and renderings of single arguments", "why_tests_cant": "messages and argument lists are unbounded", "anchors": ["f/format.go:Format"]}
{"id": "C86", "title": "A truncated MO file is never misread", "statement": "Whatever the content and wherever it is cut, ReadMo of the truncated content is an error or gives exactly what the whole content gives; bytes after the content change nothing. What SaveAsMo wrote, with a non-empty translation in the last place, can be read exactly if at most the final NUL is missing. A PO file has no such protection: what SaveAsPo wrote, cut after any of its entries, is read without error as a file with the entries before the cut.", "quantifier": "all contents, all lengths of the part kept, all entry lists with an MO file below 4 GiB; for PO files all lists of entries with a translation that is single or in forms, a plural id only with forms or a plural, and comments of one line that begin with #", "why_tests_cant": "contents and the places to cut are unbounded", "anchors": ["translator/mo.go:ReadMo", "translator/mo.go:SaveAsMo", "translator/po.go:ReadPo"]}
{"id": "C87", "title": "A file that was read can be saved without loss", "statement": "For every text that ReadPo accepts with at least one translated message, saving the file and reading it again gives the same entries with the same comments, without any condition on the text; saving once more gives the same bytes if no two entries have the same sort key; with at most one header, and no translated message with a context and an empty id, the file read again also answers every sequence of lookups alike (with two headers it does not: the first is in force before, the last after). The same holds for the entries of an MO file without EOT in the ids of messages without context, and an MO file all of whose messages are translated can be turned into a PO file without loss; both conditions are needed.", "quantifier": "all texts and contents (of MO files that are below 4 GiB when saved), map orders, sort results, lookups and argument values", "why_tests_cant": "texts and sequences of lookups are unbounded; the map order is not under a test's control", "anchors": ["translator/po.go:ReadPo", "translator/po.go:SaveAsPo", "translator/mo.go:ReadMo", "translator/mo.go:SaveAsMo", "translator/file.go:AddEntry"]}
{"id": "C88", "title": "Where answers come from, and the only panic of lookups", "statement": "After any sequence of calls, each Translations value answers all lookups with the source texts, or with one translator whose language normalizes to the current locale: one the program handed over, or the content of a PO or MO file in a tree that was loaded. Hence a singular lookup panics only if a translator handed over does, and a plural lookup only if such a translator does or the loaded file in force has, for this message, an entry with a plural id or forms for which the rule selects the form just behind the last stored (and then it does panic). If all loaded files have as many forms as their header announces in all entries with a plural, no lookup of any value ever panics.", "quantifier": "all sequences of calls, trees, file contents, values, messages, numbers and arguments", "why_tests_cant": "unboundedly many programs, trees and files; absence of a panic cannot be tested", "anchors": ["translations.go:XN64", "translations.go:X", "translaton.go:LoadFS", "translaton.go:AddOrReplace", "translator/file.go:XN64"]}
{"id": "C89", "title": "The error about a malformed MO file names the first defect", "statement": "ReadMo refuses a content exactly if something is wrong with it: the magic number is missing or unknown, the header is incomplete or of an unknown version, a descriptor of the first or then of the second table is missing, or the i-th original or then translated string is; checked in this order. The message is 'read mo: ' with the name of the first defect, the number or index concerned, and EOF if the content ends before or at the missing data, unexpected EOF if within them. errors.Is holds for the package's error always, and for io.EOF and io.ErrUnexpectedEOF exactly in these two cases. A beginning of a readable file that is not read as the whole is refused for missing data and nothing else.", "quantifier": "all contents; all cuts", "why_tests_cant": "contents are unbounded; that the first of several defects is named, for every combination of them, is beyond samples", "anchors": ["translator/mo.go:ReadMo", "errors/errors.go:Wrapf", "errors/errors.go:WithSecondaryError"]}
{"id": "C90", "title": "The package is an abstract machine of plain records", "statement": "For every sequence of calls of the package functions and of the methods of any number of Translations values (NewTranslations, Global, SetGlobal, D, L, WithContext, SetLocale, SetDomain, SetSourceCodeLocale, BindFS, LoadFS, RemoveDomain, ClearDomains, as package functions and as methods): each RemoveDomain returns, and afterwards every question (Locale, Domain, SourceCodeLocale, UsedLocale, HasDomain, Domains, Locales, and the ten lookups) put to the package or to any value is answered, as in a machine whose values are plain records of a locale, a domain, a source-code locale and a table of domains, and in which the package is one of the records by number.", "quantifier": "all sequences of calls on existing values, file trees, normalizations, default locales, questions", "why_tests_cant": "histories are unbounded and values may alias through maps and pointers in unboundedly many ways; a refinement covers all of them", "anchors": ["init.go:SetGlobal", "init.go:LoadFS", "init.go:ClearDomains", "translations.go:clone", "translations.go:BindFS", "translations.go:RemoveDomain", "gettext.go:T", "context.go:WithContext"]}
{"id": "C91", "title": "Which quoted strings are read, and as what", "statement": "What follows the keyword of a PO line is accepted exactly if it is, up to white space around it, a quoted string of the Go language (interpreted string, character or raw string; also two single quotes), and it is read as the bytes the Go specification gives it, with U+FFFD for bytes that are no UTF-8; a file of one message is read exactly if both texts are such strings, and the message is then shown as the second.", "quantifier": "all byte strings as quoted texts and meanings; all pairs of lines", "why_tests_cant": "escapes, code points and lengths make an infinite language; the theorem is an equivalence with a grammar that uses Lean's own UTF-8", "anchors": ["translator/util.go:removePrefixAndUnquote", "translator/po.go:readEntry", "translator/po.go:ReadPo"]}
{"id": "C92", "title": "Joined PO texts", "statement": "If two PO texts are read, the last entry of the first is finished (its last field is a translation) and the second begins with a comment, a context or an id, then the second written behind the first (after a line end) is read too, and as both together: a message is translated as in the second text if that translates it and otherwise as in the first, the header fields and the language are those of the first text if that has a translated entry with an empty id and otherwise those of the second, and plural messages are chosen as in the text they come from if both texts have the same Plural-Forms field.", "quantifier": "all pairs of byte strings that can be read and meet the two conditions, all messages, counts, arguments", "why_tests_cant": "both texts are unbounded; the reader carries state over the junction, which only an induction over the lines of the second text covers", "anchors": ["translator/po.go:readPo", "translator/po.go:readEntry", "translator/file.go:AddEntry", "translator/file.go:initHeader"]}
{"id": "C93", "title": "Cut PO texts", "statement": "If a PO text can be read, then so can every non-empty part of it up to the end of a line, and its entries are those before the cut and what is left of the entry in which the cut lies: beginnings of its texts, and its first plural forms, the last of them possibly cut. A part that ends inside a line which is no comment, before the white space at its end, is refused with an error. A cut between the plural forms of one message goes unnoticed and makes lookups of that message panic that did not before.", "quantifier": "all PO texts that can be read and all places to cut them", "why_tests_cant": "texts and places to cut are unbounded; that no quoted string begins another and that every beginning of a parse is a parse are inductions", "anchors": ["translator/po.go:readPo", "translator/po.go:readEntry", "translator/util.go:removePrefixAndUnquote", "translator/file.go:XN64"]}
{"id": "C94", "title": "Widths and precisions that are arguments", "statement": "As C85, for messages whose widths and precisions may be '*', each with an optional index: a directive uses its arguments from left to right, the width, the precision, and what is shown; an index moves to its argument, and each use moves one on. A negative width aligns to the left without zeros. A width that is no number is reported as BADWIDTH, a precision that is none or negative as BADPREC, and the directive is shown without them; a wrong index anywhere in a directive gives BADINDEX, no argument left MISSING. Sprintf reports arguments behind the last one used unless there is an index; Format shows the same for the arguments followed by an empty one and reports nothing.", "quantifier": "all messages of texts, %% and directives of this form, argument lists (for Format not empty and shorter than a million), renderings of single arguments and meanings of arguments as numbers", "why_tests_cant": "messages and argument lists are unbounded, and the places where indexes and stars may stand combine freely", "anchors": ["f/format.go:Format"]}
{"id": "C95", "title": "Which files a pattern names", "statement": "The input of xtemplate is a pattern of stars, question marks, sets, escaped bytes and bytes. It is refused iff it, or what stands before one of its slashes, is not written as such a pattern. Otherwise the files processed are those whose path is found part by part: in each directory that the parts before the last slash stand for, the names that fit the last part, where a star stands for any bytes but slashes, and ? and sets for one character (a byte that begins no character counts as U+FFFD; after a star the bytes of a character may be taken so). A path without special bytes stands for itself if it exists. No path comes twice, and the order does not depend on the order in which directories are listed. A pattern that stands for nothing is no failure: the POT of no files is written.", "quantifier": "all patterns (with fewer than 10000 slashes), names, file systems whose directories list each name once and only names a file may have, and environments of a run", "why_tests_cant": "patterns, names and directory trees are unbounded; the greedy search from left to right without going back has to find every fit", "anchors": ["cmd/xtemplate/internal/run.go:Run"]}
{"id": "C96", "title": "A run over a directory", "statement": "After a run of xtemplate that ends well with a file as output, this file is a POT for the directory: every file the pattern names could be read, every message asked for in such a file (other than the output itself) has an entry, every entry but the header is for a message written as literals between delimiters together with the name of a keyword in a file the pattern names, and no message has two entries. If {{T \"m\"}} stands in a file the pattern names and a PO that answers the POT is in use, T(\"m\") is the translation of the PO. What the output file was before the run, or whether there was one, has no influence, even if the pattern names it: a second run has exactly the possible outcomes of the first. With more files, and the old ones unchanged, no message is lost.", "quantifier": "all patterns with a file that can be opened and is written completely as output, whose files have names without line breaks and contexts without EOT (for more files: ASCII names); for the lookup all messages not empty and nowhere used with a plural; all keyword declarations, delimiters (plain ones), file systems, texts of files and earlier outputs", "why_tests_cant": "the inputs are whole directory trees and texts; the statement spans the pattern, the template parser, the extraction, the POT writer and reader, and the translation", "anchors": ["cmd/xtemplate/internal/run.go:Run", "cmd/xtemplate/internal/keyword.go:Writer", "cmd/xtemplate/internal/param.go:Context.Write"]}
{"id": "C97", "title": "What a run says on stderr", "statement": "A run over files writes to stderr, in the order of the files: for each file that cannot be read or parsed one line with its name and the reason; for each message that disagrees with the entry kept so far for its context and text about having a plural, one line with the message and where both are; and at the end, if the run fails, the message for the error it returns. Nothing else is written: stderr is empty exactly if the run succeeds and no message is used both with and without plural. Wrong keywords, an output that cannot be opened and a wrong pattern are each reported alone. A run that panics has reported the files before and then says what happened. The name of an output that cannot be opened is shown as it is exactly if there is no percent sign in it (the text is used as a format). All this in any language whose translations have the directives of the messages, in particular without translations.", "quantifier": "all files, templates, keyword declarations, patterns, outputs, translations of the messages with their directives, texts of errors of the system, with and without -d (that a name with a percent sign is not shown as it is: without)", "why_tests_cant": "the number of files, entries and conflicts is unbounded, and the lines depend on all the entries collected before", "anchors": ["cmd/xtemplate/main.go:main", "cmd/xtemplate/internal/run.go:Run", "cmd/xtemplate/internal/run.go:printErr", "cmd/xtemplate/internal/param.go:Context.Add", "cmd/xtemplate/internal/keyword.go:ParseKeywords"]}
{"id": "C98", "title": "The language of the messages of the command", "statement": "Without LANG_PATH, or with one of only white space, and with the locale zh_CN of the system, every message of xtemplate is its Chinese text formatted with the arguments as far as the embedded file has one, else the message itself; with any other locale it is the message itself. With LANG_PATH the translation is that of the last PO file found there for the locale, else that of the last MO file, else the message itself; the embedded translations are then not used. Of the messages in the code all but one have a Chinese text, and all but two of these have the directives of the message in the same order, so that what C97 says about stderr holds in Chinese as well.", "quantifier": "all locales, normalizations of locales, values of LANG_PATH, directory trees, messages (also those not in the code, but not empty) and arguments", "why_tests_cant": "locales, directory trees with damaged files, messages and arguments are unbounded; tests run in one locale", "anchors": ["cmd/xtemplate/main.go:initTranslation", "cmd/xtemplate/lang/zh_CN.po", "gettext.go:T"]}
{"id": "C99", "title": "What the command says about its flags", "statement": "Every command line either gives flags, or asks for help, or has a first wrong argument, and exactly one of these. In the last case the command writes one line about that argument (bad syntax, unknown flag, wrong boolean value, missing text), and then the usage. Asked for help with -help or -h it writes the usage, and nothing for -v. If -i or -k is missing or blank it writes the usage and then that they are required. Otherwise it writes what C97 says of the run. The usage is the headline with the name of the command and the nine flags in alphabetical order, each with the name for what is given to it (taken from back quotes in the translated text if there are any), its text with further lines indented, and the default of -left and -right. Exit status and output are as in C65.", "quantifier": "all argument lists, translations of the messages (with the directive in the headline), names of the command, disks and environments", "why_tests_cant": "argument lists are unbounded and translations arbitrary (also with back quotes and line breaks)", "anchors": ["cmd/xtemplate/main.go:buildParam", "cmd/xtemplate/main.go:main"]}
{"id": "C100", "title": "What a request says about the language", "statement": "GetUserLang returns the value of the first cookie with the configured name in the Cookie headers of the request: headers in order, parts between semicolons, blanks around the part and around the name dropped, names that are tokens, values of printable ASCII without quote, semicolon and backslash, possibly in double quotes; parts not of this form are passed over. If there is no such cookie, the result is the locale the matcher finds for the languages of the first Accept-Language header: the parts between commas, each a language with an optional ;q= quality (1 without), those of quality 0 left out, by descending quality and in the order of the header where equal. If a part is not understood, or there are more than 1000 hyphens, the matcher is asked with no language at all. These are determined: there is one reading and one order.", "quantifier": "all headers, options, worlds, matchers in range, tag parsers, fallback tables and linearly ordered weights", "why_tests_cant": "headers are unbounded byte strings, and the order has to be stable for any number of languages", "anchors": ["http.go:GetUserLang"]}
{"id": "C101", "title": "How numbers, texts and truth values look in a message", "statement": "What a directive writes for an argument that is an int, a uint, a string, a bool or nil is what one relation says, and nothing else: numbers in the base of the verb, with at least as many digits as the precision, with sign and prefix as the flags ask, filled up to the width with blanks or zeros on the side the flags choose; texts cut to the precision in characters, quoted, or byte by byte in hexadecimal; truth values as words; what the verb does not know as %!verb(type=value), nil as %!verb(<nil>) or <nil>. The output for a verb that the argument knows is never shorter in characters than the width. %d, whatever flags but blank, and unless number and precision are both 0, writes a text that reads back as the number with only blanks around it; %q without width and precision writes a Go literal for the text; %s and %v write a text as it is. The report of arguments left over lists them as type=value. A width or precision may come from a number up to a million. With these arguments Format shows what C94 says without any assumption on package fmt.", "quantifier": "all arguments, flags, widths, precisions and verbs, and all choices of printable characters", "why_tests_cant": "the flags, widths and precisions combine without bound with all numbers and byte strings", "anchors": ["f/format.go:Format", "gettext.go:T"]}
{"id": "C102", "title": "What a run with -d prints", "statement": "With -d a run does exactly what it does without, with one difference: before the POT it prints lines on stdout. These are, in order, one with the parameters, one with the files the pattern matches (or that the pattern is wrong), for each file one with its name and, if it can be processed, the lines of its templates, and at the end, unless a file failed or the run panicked, one with the number of different messages extracted. The lines of a template have exactly one verdict on each call of a keyword in it: too few arguments, the position of the first argument that is no literal, the position the keyword declares for which there is no argument, or the entry; the entries announced are those extracted. Without -d nothing of this is printed. A POT written to stdout with -d cannot be read: ReadPo fails and ReadPot panics.", "quantifier": "all parameters, file systems, template trees, keywords and outcomes; for the text of a line all numbers of lines and entries below 2^63, for the number of messages contexts without EOT", "why_tests_cant": "template trees, keyword tables and directories are unbounded, and one verdict per call is a statement on all of them", "anchors": ["cmd/xtemplate/internal/param.go:debugPrint", "cmd/xtemplate/internal/run.go:Run", "cmd/xtemplate/internal/run.go:resolveOneFile", "cmd/xtemplate/internal/run.go:filter", "cmd/xtemplate/internal/run.go:extract"]}
{"id": "C103", "title": "What an evaluation of a plural expression prints with a debug context", "statement": "Evaluating a plural expression with a debug context gives the same result as without, and prints lines on stdout: for each operand, in the order of the text, one line with its text and the operand values that wait, itself last; for each operator, after the lines of its operands, one line with the operator and the waiting values before it is applied, and for binary operators and ?: one with those after (for ?: one more in between); for a parenthesis, after its contents, two lines, the second with the text without white space. If an operation has no value (division by zero, a literal too large) the lines stop there. The number of lines is given by the shape of the expression. The built-in expressions print nothing, and without a debug context nothing is printed.", "quantifier": "all expressions, numbers n and diagnostics of the parser generator", "why_tests_cant": "expressions are unbounded trees; the waiting values depend on everything to the left of an operand", "anchors": ["plurals/debug.go:DebugCtx", "plurals/exp.go:Eval", "plurals/exp.go:ExitExp", "plurals/exp.go:ExitPrimary", "plurals/exp.go:debug"]}
{"id": "C104", "title": "A save that succeeds has written everything", "statement": "SaveAsPo, SaveAsPot and SaveAsMo hand their whole text to the writer in one call of Write, or make no call if the text is empty. They return no error only if the writer took everything, and return the writer's error otherwise; a writer that takes less without an error makes them fail as well. With a writer that keeps what io.Writer promises, the destination has then the whole text, and after an error a beginning of it; so what was saved without an error is read back as the same entries, and an MO file whose saving failed is refused or read as the whole. An operating system file is such a writer, whatever write(2) does: taking few bytes at a time, interrupting calls, not being ready, failing anywhere; and taken in pieces of any positive lengths a save succeeds. Hence a run of xtemplate that ends without an error has written its whole output.", "quantifier": "all files (for reading back: not empty, of entries that the format can express, MO files below 4 GiB), writers, states of the destination, and sequences of partial writes, interruptions and failures of the system", "why_tests_cant": "partial writes and failures at every byte cannot be provoked in a unit test", "anchors": ["translator/po.go:SaveAsPo", "translator/pot.go:SaveAsPot", "translator/mo.go:SaveAsMo", "cmd/xtemplate/internal/param.go:Write"]}
{"id": "C105", "title": "A file is loaded from all of its bytes or not at all", "statement": "LoadFile reads a file to its end before it looks at it. With a file that keeps what io.Reader promises, however its content is cut into pieces, reading does not panic; it ends with the whole content, or with the error of the file and a beginning of the content, and in that case LoadFile returns the error and changes nothing. So loading does what loading the whole content does, or nothing. Files of the operating system are such readers, whatever read(2) does: few bytes at a time, interrupted calls, not being ready, failing anywhere; so are embedded files, and these are always loaded. The extraction parses the whole template file or reports that it cannot be read. A PO file saved on a disk without an error and loaded from there without an error gives the translations that were saved.", "quantifier": "all files (for what is saved: not empty, of entries that a PO file can express), readers, contents, buffer growths, and sequences of partial reads, interruptions and failures of the system", "why_tests_cant": "short reads and failures at every byte cannot be provoked in a unit test", "anchors": ["translaton.go:LoadFile", "cmd/xtemplate/internal/run.go:resolveOneFile", "cmd/xtemplate/main.go"]}
{"id": "C106", "title": "What the error of a failed evaluation says", "statement": "A well-formed plural expression either has a value, and Eval returns it without an error, or something goes wrong in it, and then exactly one thing goes wrong first when it is evaluated from the left with operands before operators: a division or remainder by zero, a shift by a negative count, or a literal of 2^63 or more. Then Eval returns 0 and an error whose message is 'unexpected error: ' and the run-time error of Go or 'assert error: not a number: ' and the literal's digits; that error is not ErrAntlr. For a text that does not begin with an expression Eval returns an error: if walking the tree ANTLR recovers does not panic, the error is ErrAntlr and its message 'err antlr' followed by ': ' and each report of ANTLR in order, a syntax error with line, column and ANTLR's text; otherwise it is 'unexpected error: ' and what the panic was about, and not ErrAntlr.", "quantifier": "all expression texts, values of n, reports of ANTLR and outcomes of walking a tree with errors", "why_tests_cant": "all trees, all positions of the failing operation", "anchors": ["plurals/err.go", "plurals/exp.go:Eval", "plurals/exp.go:ExitPrimary", "plurals/exp.go:handleExpBop"]}
{"id": "C107", "title": "What reading an MO file costs", "statement": "Whatever the bytes of a content and the counts, lengths and offsets in it, ReadMo reads at most a quarter of its length plus two descriptors and asks for at most a quarter of its length in buffers; every buffer but the last is at most as long as the content, the last one is shorter than 4 GiB, and together they are below a quarter of the square of the length plus 4 GiB. A file that is read takes two descriptors and two buffers per message, of exactly the lengths of its strings; for a file written by SaveAsMo and smaller than 4 GiB their sum is less than the length of the file. The bounds are reached: for every k there is a file of 28+8k bytes that is read without an error with 2k buffers as long as the file, and for every v above 36 and below 2^32 there is a file of 36 bytes for which ReadMo asks for a buffer of v bytes and then fails; so where int has 32 bits a file of 36 bytes makes ReadMo panic, and where it has 64 bits no buffer makes it panic by its length.", "quantifier": "all contents; all entries saved; all k and v for which the numbers fit in 32 bits", "why_tests_cant": "all byte strings; the bounds have no largest case", "anchors": ["translator/mo.go:ReadMo", "translator/mo.go:SaveAsMo"]}
{"id": "C108", "title": "What the tag cache holds", "statement": "Under any interleaving of calls of Tag and Tags, at any time: a name is in the cache at most once, with language.Make of it; every name in it is an argument of some call; and the names a call has gone through are in it. When all calls have returned the cache holds exactly the names asked for, each once, however often and in whatever order they were asked for. Nothing ever leaves the cache or changes in it, so nothing bounds it: for every n some calls leave n entries, and two spellings of one language are two entries.", "quantifier": "all numbers of calls, argument lists, interleavings and functions in the place of language.Make", "why_tests_cant": "all interleavings of any number of goroutines", "anchors": ["tag.go:Tag", "tag.go:Tags"]}
{"id": "C109", "title": "The date in the header of a POT", "statement": "For every instant an int64 can hold from the year -292277022399 on and every offset of the local zone, the formatting cuts the layout 2006-01-02 15:04:05-0700 into year, month, day, hour, minute, second and offset, and those it finds for the instant are those of the Gregorian calendar, whose days are counted one by one from 1 January 1970 forwards and backwards; that calendar has one date for every day and one day for every date. From the year 0 to 9999 and for offsets below 100 hours, the text is YYYY-MM-DD hh:mm:ss, the sign of the offset, and its hours and minutes in two digits each; it stands for at most one instant and offset in whole minutes, so runs in different seconds have different texts; at one offset the later instant has the greater text. The header entry of the POT of a run has this text as its POT-Creation-Date whatever the parameters of the run are. Of an offset with seconds only the minutes are shown, and then the text also stands for another instant.", "quantifier": "all instants, offsets, parameters and sets of entries", "why_tests_cant": "all days of the calendar in both directions", "anchors": ["cmd/xtemplate/internal/param.go:header"]}
{"id": "C110", "title": "A later run changes one line of the POT", "statement": "If no context contains an EOT byte and no sort keys tie, then for every set of parameters and collected entries without an empty message there are a beginning, which ends with a line end, and an end such that the texts `Write` may produce at any instant and offset (years 0 to 9999) are exactly: the beginning, the one line with the date of C109, and the end. So two successful runs that write to a file and differ only in when they are made, even the second over the output of the first, leave files that differ in the line of the date alone. With an empty message, which replaces the header, the text does not depend on the time at all.", "quantifier": "all parameters, collected entries, environments, instants and offsets", "why_tests_cant": "all instants and inputs", "anchors": ["cmd/xtemplate/internal/param.go:Write", "cmd/xtemplate/internal/param.go:header", "translator/pot.go:writeString", "translator/wrap.go:split0"]}
{"id": "C111", "title": "What ANTLR reports about a malformed plural expression", "statement": "The generated parser goes on behind a syntax error: it drops a token, pretends that one is there, or skips to a token with which a calling rule can go on. For every text this ends. Something is reported exactly if the text does not begin with a well-formed expression (so the assumption of C106 holds), and every report is a syntax error with the line and column of a place in the text or of its end. If the text begins with an expression, nothing is reported and the tree is that of the expression. So `Eval` is determined for every text: it returns a result without an error exactly if it succeeds in the sense of the other properties, with the same result; for a malformed text it returns ErrAntlr with all reports in order, of which there is at least one, or, if the walk of the tree with its gaps panics, the text of the panic.", "quantifier": "all expression texts (any bytes), all n", "why_tests_cant": "all texts, also with errors inside the recovery from errors; the recovery has to terminate", "anchors": ["plurals/exp.go:Eval", "plurals/err.go:SyntaxError", "plurals/parser/plural_parser.go:exp", "plurals/parser/plural_parser.go:Primary"]}
{"id": "C112", "title": "The first thing ANTLR reports about a malformed plural expression", "statement": "The text is cut into items: always the longest token, without spaces; where there is none, up to the first character with which no token goes on. The first report about a malformed text is about the first place at which the text cannot go on. If characters that are not part of a token are there, the lexer reports them, with their text, line and column. Otherwise it is a token, or the end, with which no expression goes on that begins with the tokens in front of it. Exactly one of an operand, a colon and a closing parenthesis is wanted there, and the report, at the line and column of this token, says that the token is extraneous (if the token behind it is what is wanted), or that the colon or the parenthesis is missing (if the token could follow it), or that the token does not match, and names what is wanted; only errors of the lexer between the two tokens are reported before. This leaves no choice: the items of a text and their first report are unique.", "quantifier": "all malformed expression texts (any bytes)", "why_tests_cant": "whether an expression goes on with a token is a question about all expressions; all texts, with any nesting of parentheses and conditional expressions", "anchors": ["plurals/err.go:SyntaxError", "plurals/plural.g4", "plurals/parser/plural_parser.go:exp", "plurals/parser/plural_lexer.go:NewpluralLexer"]}
{"id": "C113", "title": "All that ANTLR reports about a plural expression", "statement": "The text is cut into items as in C112. The reports about a text are those of the lexer about a first part of the items, one for each item that is not a token, from left to right, and among them those of the parser, also from left to right: at most one about each token and one about the end, each at its line and column, and each says that the token is extraneous, that a colon or a closing parenthesis is missing in front of it, or that it does not match, and names an operand, a colon or a closing parenthesis as wanted (\"no viable alternative\" is never reported). The parser does not complain about a token before the lexer has complained about all in front of it. So there are at most as many reports as there are items and one, and there are no more items than bytes. Every error of Eval has a text of at most 160 bytes for each byte of the expression and one more; that of a failed evaluation has at most 55 bytes more than the expression.", "quantifier": "all expression texts (any bytes), all n; for the size, texts shorter than 2^63 - 1 bytes", "why_tests_cant": "all texts, also with any number of errors; that error recovery makes progress and reports nothing twice is an invariant of the state of the parser", "anchors": ["plurals/err.go:SyntaxError", "plurals/err.go:addError", "plurals/exp.go:Eval", "plurals/parser/plural_parser.go:exp", "plurals/parser/plural_lexer.go:NewpluralLexer"]}
{"id": "C114", "title": "Where int has 32 bits", "statement": "The size of Go's int depends on the platform. With w bits an int holds of a number v the number in the range of w bits that is a multiple of 2^w away from v. A plural lookup uses as the form what an int holds of the value of the plural expression, and behaves as in C14 otherwise; so all platforms answer alike if the value is in the range, in particular for every rule whose values are below nplurals. They differ for others: with plural=n and n = 4294967297, a 32-bit platform uses the second form and a 64-bit platform the text of the program. Keyword declarations are accepted alike, and of each position an int is held (T:4294967297 means T:1 on 32 bits). The MO file that is saved is the same on all platforms. ReadMo panics exactly if it asks for a buffer longer than the largest int, which never happens on 64 bits; it is otherwise the same. So a file shorter than 2^31 bytes that is read on one platform is read on the other with the same result, and some files of 36 bytes that are refused on 64 bits end in a panic on 32 bits.", "quantifier": "all sizes of int of at least 32 bits (and smaller ones where stated), all histories of calls on a File, all messages, numbers and arguments; all keyword declarations; all lists of entries; all byte sequences", "why_tests_cant": "tests run on one platform; all numbers, histories and files", "anchors": ["translator/plural.go:parsePlural", "translator/file.go:XN64", "translator/mo.go:SaveAsMo", "translator/mo.go:ReadMo", "cmd/xtemplate/internal/keyword.go:ParseKeywords"]}
{"id": "C115", "title": "The value returned next to the error about a malformed plural expression", "statement": "When a plural expression is malformed, Eval still returns a number next to the error. The tree that error recovery put together is worked through from left to right, operands before operators, on a stack: an operand that was not found contributes nothing, an operator takes its operands from what is on the stack, and a number that is not there is 0. This has exactly one outcome. If nothing goes wrong, the number on top (or 0) is returned with an error that is ErrAntlr and lists all the reports; otherwise 0 is returned with an error that is not ErrAntlr and names the first thing that went wrong (division by zero, negative shift count, literal that does not fit). For a tree without gaps the outcome is the value of the expression. If only the right operand of the last operator is missing, the left operand is taken for it and 0 for the left one (so n- gives -n); a conditional expression without its colon gives its second part whatever the condition.", "quantifier": "For all byte strings shorter than 2^63-1 that are malformed and not among the built-in expressions, all n; for the last two all subexpressions and operators.", "why_tests_cant": "The repository's tests of malformed expressions look at a few texts and only at whether there is an error. The outcome depends on which operands are missing anywhere in a tree of any depth and on every int64 n.", "anchors": ["plurals/exp.go:Eval", "plurals/exp.go:ExitStart", "plurals/exp.go:handleExpPrefix", "plurals/exp.go:handleExpBop", "plurals/exp.go:handleExpPostfix", "plurals/exp.go:ExitPrimary", "plurals/stack.go:Pop"]}
{"id": "C116", "title": "PO files are exchanged with GNU gettext", "statement": "GNU gettext reads strings in PO files as C does (octal escapes, hexadecimal escapes with all the digits that follow, no \\u). (1) A string in valid UTF-8 that both Go and GNU gettext accept, without a hexadecimal escape of three or more digits, means the same bytes to both. (2) Every string that GNU gettext writes is read here as the bytes meant; a whole PO file written by GNU gettext (no carriage returns) is well-formed for ReadPo, and for each context and id the last translated message with them is found. (3) The string saved for a text is read by GNU gettext as that text exactly if the text is portable: no unprintable character outside ASCII, and no control character (other than those with letter escapes) and no stray byte before a hexadecimal digit. (4) SaveAsPot, and SaveAsPo when every message is translated, write files that GNU gettext reads as the messages meant; for a message without translation SaveAsPo writes a file that it does not accept.", "quantifier": "all strings, all texts, all PO files of the grammar, all lists of entries, all sets of printable characters that agree with ASCII", "why_tests_cant": "The texts, the files and the splits into lines are unbounded; where the two languages of escapes differ depends on what follows an escape, and a test with a few translations shows neither the differences nor their absence elsewhere.", "anchors": ["translator/pot.go:writeString", "translator/pot.go:SaveAsPot", "translator/po.go:SaveAsPo", "translator/po.go:ReadPo", "translator/util.go:removePrefixAndUnquote"]}
{"id": "C117", "title": "Which messages C programs find in a saved MO file", "statement": "The C library functions that look messages up in MO files without a hash table search the table of original strings by halving. GNU libintl (_nl_find_msg), on a file written by SaveAsMo, finds for every message its translation, with the forms in order, if and only if the original strings are in increasing order; in that case it finds nothing else. Without references and contexts this is so. musl (__mo_lookup) finds no message in any file written by SaveAsMo, because the tables do not begin at a multiple of 4.", "quantifier": "all files with distinct messages without NUL and EOT bytes, all arrangements SortedEntry may return, all files below 4 GiB; for musl all entries and all questions", "why_tests_cant": "Tests read saved files back with this library only. Whether halving meets a message depends on the order of all others; the equivalence needs all numbers of messages and all orders.", "anchors": ["translator/mo.go:SaveAsMo", "translator/mo.go:writeMoHeader", "translator/mo.go:moMsgID", "translator/file.go:SortedEntry"]}
{"id": "C118", "title": "The order of the messages of a PO file", "statement": "A PO text put together from any number of pieces, each beginning with a comment, a context or an id and ending in a finished entry, is read as all of them: of several translations of a message that in the last piece counts, and the header fields are those of the first piece with an entry with an empty id. If no message is translated in two pieces and no two pieces have an entry with an empty id, the pieces may stand in any order: the files read answer every sequence of lookups alike and are saved with the same bytes if no sort keys tie. So may the entries of a written file. The conditions are needed; in particular an entry with a context and an empty id before the header makes all header fields disappear.", "quantifier": "all numbers of pieces, all texts of pieces, all permutations, all sequences of lookups, all formatting environments; for written files all well-formed entries", "why_tests_cant": "Tests read a few fixed files in one order. There are factorially many orders, and the reader carries state (the open entry, the cached header and plural rule) from one entry to the next.", "anchors": ["translator/po.go:readPo", "translator/po.go:readEntry", "translator/file.go:AddEntry", "translator/file.go:initHeader", "translator/file.go:initPlural"]}
{"id": "C119", "title": "How large a PO file becomes in memory", "statement": "Reading a PO text of n bytes makes a file whose texts (comments, contexts, ids, translations of all entries) have 3 n bytes at most, and n at most if the text is valid UTF-8; the file has no more entries than the text has lines that are not blank. The factor 3 is needed: for every n > 0 there is a text of n + 19 bytes that makes a file of 3 n + 1 bytes, since each byte that is not part of a UTF-8 character becomes the three bytes of U+FFFD.", "quantifier": "all PO texts that are accepted, of any length, valid UTF-8 or not", "why_tests_cant": "A bound on memory is a claim about every text; a test measures a few. That the reader never expands its input (no escape, no repetition, no plural form makes more than it costs) is an induction over the text.", "anchors": ["translator/po.go:readPo", "translator/po.go:readEntry", "translator/file.go:AddEntry"]}
{"id": "C120", "title": "How deep the calls of Eval are nested", "statement": "Go ends the process when the stack of a goroutine outgrows its limit, and recover does not see that. With at most k nested calls of grammar rules (of Walk, when the tree is walked), Eval either ends the process or returns what it returns without a limit. If the expression is not built in and the walk does not panic, it ends the process exactly if k is not larger than the number of levels of the parse tree; there are 2 |exp| + 1 levels at most, whatever the text, so k = 2 |exp| + 2 is always enough, and it is the least number for m opening parentheses. For a text that begins with an expression the number of its tokens plus 3 is enough, and it is the least number for m times ~ before n: so, whatever the limit, an expression that is not longer than it ends the process for every n.", "quantifier": "all expression texts, well formed or not, of any length, all n, all limits k", "why_tests_cant": "A fatal stack overflow shows only for inputs that are too long to be tested, and no test can tell that all shorter ones are safe; the number of levels is bounded by induction over the run of the parser with error recovery.", "anchors": ["plurals/exp.go:Eval", "plurals/parser/plural_parser.go:exp", "plurals/parser/plural_parser.go:Primary"]}
{"id": "C121", "title": "The header of a POT records the parameters of the run", "statement": "If no parameter has a line end, the header entry of a POT has exactly these fields: the date, the six parameters of the run, the plural forms if some collected entry is plural, the creator, and the fields of the gettext manual that are still to be filled in; each parameter is there without white space at its ends, and the entry is marked fuzzy. So different parameters without white space at their ends have different headers. After a run that returns no error, with a file as output, the names of the input files without line ends, contexts without EOT byte and no empty message, ReadPot and GetHeader give these fields and no others. The delimiters `{{` and `{{ ` have the same fields, and a line end in one parameter can make the header say something else about another.", "quantifier": "all parameters without line ends, all times, all disks and templates", "why_tests_cant": "the parameters are arbitrary bytes, with colons, quotes and anything but line ends, which pass through the writer and the reader of PO files", "anchors": ["cmd/xtemplate/internal/param.go:header", "translator/file.go:GetHeader"]}
{"id": "C122", "title": "Where the texts of a saved file are broken, and what that costs", "statement": "Whatever the limit, split cuts a text into exactly these pieces: an empty one if the text has more than one line, then its lines with their line ends; only the last line can be broken further, once, behind its last blank, if it is longer than the limit and has something behind that blank. So a line that is not the last is never broken, however long, and of m words of one letter in one line all but the last stay in one piece: the limit of 77 bytes does not bound the lines of a saved file. For n lines and a last one in t pieces (1 or 2), n + t calls of split0 are nested, and (n² - n) / 2 + n t + t - 1 pieces are copied: the work is quadratic in the number of lines.", "quantifier": "all texts and limits", "why_tests_cant": "the pieces are characterised for all texts and limits; the quadratic cost shows only for long texts", "anchors": ["translator/wrap.go:split", "translator/wrap.go:split0"]}
{"id": "C123", "title": "Which messages Python programs find in a saved MO file", "statement": "Python's gettext loads any MO file that SaveAsMo writes from a file with one entry with an empty id, the header, that states a character set in which all strings can be decoded, whatever the order of the other entries (if no string contains NUL, no id or context EOT, and exactly the plural entries have forms). Then it finds, under the id or the context, EOT and the id, the translation of every singular entry, under the id and the number of a form every form of every plural entry, and nothing else; an entry without translation is found with the empty text. A saved file without header cannot be loaded at all if one id, context or translation in it is not ASCII.", "quantifier": "all files with one entry per context and id and orders of their entries, all decoding functions that are injective, all readings of the header", "why_tests_cant": "all files and orders; the other reader is not part of the project, and the header that all files of the tests have decides whether it reads anything", "anchors": ["translator/mo.go:SaveAsMo", "translator/mo.go:moMsgID", "translator/mo.go:moMsgStr"]}
{"id": "C124", "title": "A PO file and the MO file that msgfmt makes of it", "statement": "GNU msgfmt leaves out of an MO file the messages whose translation, or whose first form, is empty, and the fuzzy ones, but not the header. Take any PO text without two translations of one message and without translated messages with empty id other than the header, which is itself kept, and any MO file compiled from it, in either byte order, with strings and tables in whatever places and order. Then both can be loaded, are for the same language, and give the same results for every lookup, singular or plural, of every message but the translated ones that were left out; for those the MO file shows the source text. So a fuzzy translation is shown from the PO file, and not from the MO file.", "quantifier": "all PO texts and MO files as described, all messages, contexts, numbers and arguments, all formatters and number semantics", "why_tests_cant": "the files, their layouts and the messages are unbounded; the MO file is written by another program", "anchors": ["translator/po.go:ReadPo", "translator/mo.go:ReadMo", "translator/file.go:X", "translator/file.go:XN64"]}
{"id": "C125", "title": "C programs and Go programs show the same plural form", "statement": "Take any MO file saved by SaveAsMo whose original strings are in increasing order (C117), without NULs, and whose header has the field Plural-Forms written as `nplurals=` digit `;` blanks `plural=` expression `;`, with neither `plural=` nor `nplurals=` earlier in the header. Let the expression use only the operators that GNU libintl knows (no bitwise operators, no signs, no ++ and --), let the right operand of >= and <= not be a bare < or > comparison, and let, for the number n, the operands of ! && || and the conditions of ?: be 0 or 1 in C, and the operands of / % < > <= >= not be negative. Then, if the Go package selects form i for n, with text s, ngettext in a C program with libintl, which scans, parses and evaluates the rule by itself and with unsigned numbers, shows exactly s for that message and n; if the message has fewer forms than i + 1, ngettext shows its first form (where the Go package panics or shows the source text, C14). Expressions whose conditions and logical operands are comparisons or the like, and that have no + - *, meet the conditions for every n from 0 on. A Go program that has loaded the file shows s with the arguments filled in. If the header has no plural rule at all (no `plural=` in it), a Go program shows the source texts of plural messages for all numbers, while ngettext shows the first form for 1 and the second form, if there is one, for all other numbers.", "quantifier": "all files as described, all expressions of any size with any blanks between their tokens, all messages, forms and non-negative numbers (any number where the conditions hold), all formatters and ANTLR diagnostics", "why_tests_cant": "expressions, files and numbers are unbounded; the other side is another program, in another language", "anchors": ["plurals/exp.go:Eval", "plurals/plural.g4", "translator/mo.go:SaveAsMo", "translator/file.go:XN64", "translator/plural.go:parsePlural"]}
{"id": "C126", "title": "How large saved PO and POT files are", "statement": "Let all ASCII characters from blank to tilde count as printable, as they do for strconv.IsPrint. A text of n bytes of any content that writeString saves takes at most 5 n + 5 bytes after its keyword and the blank, and at least n + 3; the upper limit is reached by n - 1 line ends followed by a control character, for every n from 2 on (where line ends and that character do not count as printable). A PO file that SaveAsPo writes from any set of messages therefore has at most five times the bytes of all its comments and texts, plus 55 bytes for each message, one for each comment, and for each plural form 14 and the digits of its number (15 for the first ten); and where only plural messages have a plural source text, it has at least the bytes of its comments and texts and one more for each message. A POT file has at most five times the bytes of the comments and texts, plus 69 bytes for each message and one for each comment. So saving cannot blow up: it is linear in what is saved, with these constants.", "quantifier": "all sets of messages of any number with comments, contexts and texts of any bytes and length, including invalid UTF-8, any number of plural forms, every printability predicate that accepts ASCII 32 to 126", "why_tests_cant": "texts, message sets and the printability table are unbounded; the worst case mixes escaping, line breaking and the empty first line", "anchors": ["translator/po.go:SaveAsPo", "translator/pot.go:SaveAsPot", "translator/wrap.go:split"]}
{"id": "C127", "title": "MO files of four gigabytes and more", "statement": "SaveAsMo states lengths and offsets with 32 bits and does not check that they fit. For every list of fewer than about 2^29 entries with texts of any length, what it writes can be read by ReadMo without an error, and each string is read as the bytes at its offset modulo 2^32, as many as its length modulo 2^32. An entry whose strings begin below 4 GiB and are shorter than that is read as it is (C30's condition on separators assumed), and a file all of whose strings are so is restored, even if it is itself larger than 4 GiB. ReadMo never gives a text of 4 GiB or more, whatever the content; so a file with such a text is not restored, though no error is reported. With a translation of 2^32 + m times the letter x for one message, that message comes back with m letters and a second one, translated as B, as x. The limit is exact: if the second translation begins at 4 GiB it comes back as the first byte of the file, one byte earlier it comes back right.", "quantifier": "all lists of entries with texts of any bytes and lengths, below 2^29 - 9 entries; all contents for the bound on what is read; all m below 2^32 - 112", "why_tests_cant": "files of more than 4 GiB are not practical in tests, and lengths and offsets are unbounded", "anchors": ["translator/mo.go:SaveAsMo", "translator/mo.go:ReadMo"]}
{"id": "C128", "title": "Templates translated with GNU gettext", "statement": "After an xtemplate run that succeeds with a file as output, GNU gettext reads that file (its string and file grammar, as in C116): it finds for every message called in the templates the first call for it, with its context and plural and with empty translations, no message twice, nothing else but the message with the empty id, and there the text of the header unless a template calls the empty message. What GNU gettext reads is determined by the text, and it reads back what it writes. If a translator's file as GNU gettext writes it has each of these messages once with the same plural and no empty form, and its first message with an empty id is a header with a language, then, with that file in use for its language, every call of a non-empty message in the templates that is not in conflict with the first call for it (C81) shows what the translator wrote: the translation, or the form the rule selects. A message that file does not have, or has untranslated, is shown as it is. Conditions: texts, context and header can be exchanged (C116's condition on control and non-printable characters), no context has an EOT byte, file names of templates have no line ends, and the translator's file no carriage return.", "quantifier": "all sets of templates, options, keywords, messages, translator's files in the grammar of C116, languages, plural rules, and all reachable states of the package in which the file is in use", "why_tests_cant": "templates, messages, the ways a PO file can be written and the sequences of calls before the message is shown are unbounded, and the tests do not run GNU gettext", "anchors": ["cmd/xtemplate/internal/run.go:Run", "cmd/xtemplate/internal/param.go:Write", "translator/pot.go:SaveAsPot", "translator/po.go:ReadPo", "translations.go:BindFS"]}
{"id": "C129", "title": "MO files in use", "statement": "ReadMo accepts exactly the contents that are MO files (C21's format), in either byte order. While an MO file, whichever program wrote it, is the last .mo file for its language in the bound tree and no .po file there is for that language, every lookup with a context without an EOT byte shows the last message of the file for that context and id: its translation or the form its rule selects if it has one, the source text formatted if it is untranslated or absent. In particular, when templates are extracted, translated with GNU gettext (C128) and the translator's file is compiled with msgfmt (C124), then with the compiled file in use every call of a non-empty message in the templates that is not in conflict with the first call for it shows what the translator wrote. Conditions beside those of C128: no message but the header is marked fuzzy, no form has a NUL byte, and the message with the empty id has no context.", "quantifier": "all byte strings offered as MO files, byte orders, messages, contexts, plural rules, translator's files, and all reachable states of the package in which the file is in use", "why_tests_cant": "MO files come from other programs with tables, gaps and orders no test enumerates, and the calls between binding and showing are unbounded", "anchors": ["translator/mo.go:ReadMo", "translator/file.go:AddEntry", "translations.go:BindFS", "translaton.go:LoadFS", "cmd/xtemplate/internal/run.go:Run"]}
{"id": "C130", "title": "Plural rules of the usual shape always select a form", "statement": "Take a Plural-Forms value whose expression chooses with ?: between literals below nplurals, or is a comparison, !, && or || and nplurals is at least 2, where literals are below 2^63, divisors are literals other than zero, nothing is shifted, and no blank stands inside a token. Then for every 64-bit number, also a negative one, the rule selects exactly one form, below nplurals; and if the operands of !, && and || and the conditions are truth values, and the expression is one that is grouped and computed as in C (C06), it is the form C selects. So a plural message with nplurals forms, none of them empty, is shown translated for every number: the lookup neither panics nor falls back to the source text. The conditions can be checked by looking at the value, and the rules that GNU msginit writes, and those in use for Arabic, Icelandic, Irish, Macedonian, Maltese and Welsh, meet them.", "quantifier": "all expressions of this shape of any size, all Plural-Forms values with them, all int64 numbers, all messages and arguments", "why_tests_cant": "expressions are unbounded and every number counts: one number for which a rule fails is a panic or an untranslated text in production", "anchors": ["plurals/exp.go:Eval", "plurals/common.go:commons", "translator/plural.go:parsePlural", "translator/file.go:XN64"]}
{"id": "C131", "title": "Remarks and obsolete messages in PO files", "statement": "Lines that begin with # never change what a PO file answers as long as they stand between messages: the obsolete messages (#~) and previous ids (#|) that GNU msgmerge writes are never used as translations. In front of a text that can be read, or between two texts the first of which ends with a finished entry and the second of which begins with a comment, a context or an id, they leave the file readable, and every sequence of lookups (translations, plural translations, header fields, language) is answered as without them. At the end of a text that can be read they leave no trace at all: the file read is the same, so obsolete messages are gone when the file is saved. Between the id and the translation of a message, however, they cut the message in two, whatever comes before and behind: its translation, if it is one line, is read as that of the empty id, the header.", "quantifier": "all byte strings before and behind, all remarks of any number of lines, all sequences of lookups, all arguments", "why_tests_cant": "texts, remarks and sequences of lookups are unbounded, and the reader carries state over each of the lines", "anchors": ["translator/po.go:readPo", "translator/po.go:readEntry", "translator/file.go:AddEntry", "translator/file.go:XN64"]}
{"id": "C132", "title": "The encoding of PO files", "statement": "PO files are read as UTF-8, whatever charset their header names. A file that begins with a byte order mark (of UTF-8, UTF-16 or UTF-32), or with any other byte with which no comment, keyword, quoted string or white space begins, is refused by ReadPo, and ReadPot panics. If a file in any encoding is read, and has no back quotes and no bytes written as octal or hexadecimal numbers, all contexts, ids and translations read are valid UTF-8. A byte outside ASCII among ASCII characters, as for an accented letter in Latin-1, is read as U+FFFD whichever it is, in ids and in translations alike, so that messages whose ids differ only there become one.", "quantifier": "all byte strings behind the first byte, all byte strings that are read and meet the condition, all ASCII texts around the byte and all bytes from 0x80", "why_tests_cant": "every content in every encoding counts, and validity of what is read needs an induction over characters, lines and entries", "anchors": ["translator/po.go:readPo", "translator/po.go:readEntry", "translator/util.go:removePrefixAndUnquote"]}
{"id": "C133", "title": "What is printed about a malformed plural expression", "statement": "With a debug context Eval prints how it works through the tree of any expression that is not built in, also one that error recovery put together: a line for each operand that was found, with its text; two for each pair of parentheses; one for each prefix and postfix operator, two for each binary operator and three for each conditional, also one whose second part is missing. Each line shows the numbers on the stack, the latest last, before the operator or (\"bop done\" and operands) after it; a number an operator does not find is 0 and nothing is printed about an operand that is missing. Where an operator has no result (division by zero, negative shift count) its first line is the last one; a literal that does not fit ends the lines before its own. This determines all lines, up to the text shown for a pair of parentheses, in the order printed. For an expression without gaps they are those of C103. Without a debug context, and for built-in expressions, nothing is printed. What Eval returns (C111, C115) does not depend on whether lines are printed.", "quantifier": "all expression texts (any bytes), all n, all texts of the parentheses", "why_tests_cant": "the stack shown depends on which operands are missing anywhere in a tree of any depth, and on every n; that printing changes no result is a claim about all texts", "anchors": ["plurals/exp.go:debug", "plurals/exp.go:handleExpPrefix", "plurals/exp.go:handleExpBop", "plurals/exp.go:handleExpPostfix", "plurals/exp.go:ExitPrimary", "plurals/debug.go:DebugCtx"]}
