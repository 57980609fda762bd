{"id": "C01", "title": "Line and column of an offset are exact", "statement": "For a source without NUL bytes that is accepted by the reader, Locator.LineForOffset(o) is one plus the number of newlines among the first o bytes, and PosOnLine(o) is one plus the number of runes between the start of that line and o.", "quantifier": "every source text and every byte offset 0..len", "why_tests_cant": "the binary search over the line index and the rune count have to be right for every text, line length and offset; tests sample a handful of positions", "anchors": ["parser/expression.go: Locator.LineForOffset, PosOnLine, getLineIndex, offsetOnLine", "parser/reader.go: stringReader.Next"]}
{"id": "C02", "title": "Positions are monotone and injective", "statement": "If o1 < o2 are offsets of two runes of the source, the (line, column) pair of o1 is lexicographically smaller than that of o2, so two different runes never share a reported location.", "quantifier": "every source text and every pair of offsets", "why_tests_cant": "quantifies over pairs of positions of arbitrary texts", "anchors": ["parser/expression.go: Locator.LineForOffset, PosOnLine"]}
{"id": "C03", "title": "Quoted strings in PN text can be unquoted", "statement": "DoubleQuote output starts and ends with a double quote, contains no raw control character and no unescaped quote inside, and determines the quoted (valid UTF-8) string uniquely; for byte strings that are not valid UTF-8 the information is lost.", "quantifier": "every Go string", "why_tests_cant": "round trip over an infinite set of strings incl. control characters and multi-byte runes", "anchors": ["pn/quote.go: DoubleQuote"]}
{"id": "C04", "title": "PN text is unambiguous", "statement": "For two PN trees (with call names and keys free of delimiters and no floats) the Format outputs are equal only if the trees are equal: a reader can recover the tree.", "quantifier": "every PN tree of any depth", "why_tests_cant": "needs a structural induction over arbitrary trees", "anchors": ["pn/pn.go: Format, formatElements, formatEntry, ToString"]}
{"id": "C05", "title": "PN data form is lossless and self-describing", "statement": "ToData of a PN contains only primitives, slices, and one-entry maps keyed '^' (call, first element is the name) or '#' (alternating keys and values in order), and the PN can be rebuilt from it.", "quantifier": "every PN tree", "why_tests_cant": "structural induction over arbitrary trees; order retention for every map", "anchors": ["pn/pn.go: ToData (all receivers)", "pn.md"]}
{"id": "C06", "title": "AsCall / AsParameters / WithName laws", "statement": "AsCall renames a call without touching its arguments, spreads a list into arguments and wraps a map or literal as the single argument; AsParameters inverts AsCall for calls and lists.", "quantifier": "every PN and every name", "why_tests_cant": "algebraic law over all trees", "anchors": ["pn/pn.go: AsCall, AsParameters, WithName"]}
{"id": "C07", "title": "ToPN panics exactly on unrepresentable parameter names", "statement": "ToPN of a parsed program succeeds unless some function, class, define, plan, application or lambda parameter has a name that is not a valid PN key (then it panics).", "quantifier": "every expression the parser can return", "why_tests_cant": "a panic condition over arbitrarily nested definitions", "anchors": ["parser/expression.go: ToPN, parametersEntry", "pn/pn.go: Map, keyPattern"]}
{"id": "C08", "title": "A program that validates can be rendered", "statement": "If validation of a parsed program reports no illegal parameter name, ToPN on it does not panic, so the command line tool never crashes while printing an AST.", "quantifier": "every program", "why_tests_cant": "links validator and renderer over all programs", "anchors": ["parse/parser.go: main", "validator/checker.go: checkParameter", "parser/expression.go: parametersEntry"]}
{"id": "C09", "title": "AllContents visits every contained expression exactly once with its ancestors as path", "statement": "AllContents calls the visitor for each proper descendant exactly once, parents before children and siblings left to right, and the path argument is exactly the chain of ancestors from the root.", "quantifier": "every expression tree", "why_tests_cant": "trees of any shape and depth", "anchors": ["parser/expression.go: DeepVisit, AllContents of every class"]}
{"id": "C10", "title": "Contents is the one level restriction of AllContents", "statement": "Contents calls the visitor exactly for the direct children, in the order in which AllContents first reaches them, with the path extended by the expression itself.", "quantifier": "every expression tree", "why_tests_cant": "65 classes each with their own child list, any shape", "anchors": ["parser/expression.go: ShallowVisit, Contents of every class"]}
{"id": "C11", "title": "ToLiteral succeeds exactly on literal expressions", "statement": "ToLiteral reports ok exactly when the expression is built from literal values, names, single-segment concatenated strings, heredocs of those, lists and hashes of those; the value mirrors the expression. It panics (instead of reporting not ok) exactly when a hash key is itself a list or hash.", "quantifier": "every expression", "why_tests_cant": "nested lists and hashes of any depth", "anchors": ["literal/literal.go: ToLiteral, toLiteral"]}
{"id": "C12", "title": "Only three issue codes have adjustable severity", "statement": "Every validation issue other than duplicate key, idem expression not last and future reserved word is reported with severity error, whatever the strictness; future reserved word is always a deprecation; the other two are reported with exactly the chosen strictness and not at all when it is off.", "quantifier": "every validator, strictness and program", "why_tests_cant": "must hold at each of the ~60 reporting sites for every program", "anchors": ["validator/validator.go: Demote, Accept", "validator/checker.go: initialize"]}
{"id": "C13", "title": "Strictness only filters", "statement": "The issues reported with strictness off are exactly those reported with strictness error minus duplicate key and idem-not-last, in the same order; warning and error report the same codes at the same expressions.", "quantifier": "every program and pair of strictness values", "why_tests_cant": "relational property between two runs over every program", "anchors": ["validator/validator.go: Accept", "validator/checker.go"]}
{"id": "C14", "title": "Validation does not depend on what the validator validated before", "statement": "Validate on a reused validator reports exactly the issues a fresh validator reports.", "quantifier": "every history of validations and every program", "why_tests_cant": "histories are unbounded", "anchors": ["validator/validator.go: Validate, Clear, setPathAndSubject"]}
{"id": "C15", "title": "Every issue points into the validated tree", "statement": "Every reported issue is located at an expression contained in the validated expression (or at the expression itself).", "quantifier": "every program and validator", "why_tests_cant": "all reporting sites on all trees", "anchors": ["validator/validator.go: Validate, Accept", "validator/checker.go"]}
{"id": "C16", "title": "The tasks validator rejects every catalog operation and nothing else as such", "statement": "ValidateTasks reports VALIDATE_CATALOG_OPERATION_NOT_SUPPORTED exactly once for every application, capability mapping, collector, class, node, relationship, resource, resource defaults, resource override, define or site contained anywhere in the program, and for nothing else.", "quantifier": "every program", "why_tests_cant": "exact count over arbitrary nesting", "anchors": ["validator/tasks_checker.go", "validator/checker.go: Check"]}
{"id": "C17", "title": "Steps are only accepted by the workflow validator", "statement": "ValidatePuppet and ValidateTasks report VALIDATE_WORKFLOW_OPERATION_NOT_SUPPORTED once for every step in the program; ValidateWorkflow never does and never reports an invalid step style for a parsed program.", "quantifier": "every program", "why_tests_cant": "arbitrary nesting", "anchors": ["validator/checker.go: checkStepExpression", "validator/workflow_checker.go"]}
{"id": "C18", "title": "Duplicate parameters are reported exactly", "statement": "For a function, class or define, the duplicate parameter issues are reported exactly at the parameters whose name occurs earlier in the list; for plans nothing is reported.", "quantifier": "every parameter list", "why_tests_cant": "lists of any length and any duplication pattern", "anchors": ["validator/checker.go: checkParameterNameUniqueness, Check"]}
{"id": "C19", "title": "Duplicate defaults are reported exactly", "statement": "In a case or selector expression, duplicate default is reported exactly at each default value / entry after the first.", "quantifier": "every list of options", "why_tests_cant": "any number of options and values", "anchors": ["validator/checker.go: checkCaseExpression, checkSelectorExpression"]}
{"id": "C20", "title": "Duplicate hash keys are reported exactly", "statement": "Duplicate key is reported exactly at entries whose literal key equals an earlier literal key of the same hash.", "quantifier": "every hash expression", "why_tests_cant": "any number of entries and nesting of keys", "anchors": ["validator/checker.go: checkLiteralHash", "literal/literal.go"]}
{"id": "C21", "title": "An expression reported as having no effect has no effect where statements are looked for", "statement": "When validation reports that a value was produced and forgotten, neither the expression nor anything evaluated as a statement or test inside it (through blocks, conditionals, case expressions and parentheses) is an assignment, match, relationship, call, resource, collector, definition or rendering; and in every block the first such statement other than the last one is reported. (Effects in operands, list elements, keys and arguments are not looked for: [f()] followed by another statement is reported.)", "quantifier": "every block of statements in every tree, checker and strictness", "why_tests_cant": "semantic claim over arbitrary nesting; the unchanged code violates it for lists, hashes and operators", "anchors": ["validator/checker.go: checkBlockExpression, isIdem"]}
{"id": "C22", "title": "Definitions are only accepted at top level or inside classes", "statement": "checkTop accepts a class, define or node exactly when all its containers up to the program are blocks or classes up to the nearest class; function, type alias and type mapping only directly in the program's block (or directly under a class).", "quantifier": "every nesting of definitions", "why_tests_cant": "paths of any length", "anchors": ["validator/checker.go: checkTop", "validator/validator.go: ContainerOf"]}
{"id": "C23", "title": "Captures-rest is reported exactly", "statement": "For functions and lambdas captures-rest is reported exactly at the non-last parameters that have it; for classes, defines and EPP at every parameter that has it.", "quantifier": "every parameter list", "why_tests_cant": "lists of any length", "anchors": ["validator/checker.go: checkCaptureLast, checkNoCapture"]}
{"id": "C24", "title": "Validation of a parsed program panics only on two kinds of hash keys", "statement": "Validate on a program returned by Parse panics only if some hash in the program has a key that contains a hash with a list or hash as key, or has a key whose byte range is outside of the source (step properties have such keys); on all other programs it returns normally. Both panics occur, and a literal key of the first kind always panics.", "quantifier": "every program returned by Parse", "why_tests_cant": "type assertions and slice accesses over arbitrary trees", "anchors": ["validator/checker.go: checkLiteralHash, checkNoIdemLast, checkParameterNameUniqueness, checkCaseExpression"]}
{"id": "C25", "title": "Illegal assignment targets are reported exactly", "statement": "For an '=' assignment whose left side is any nesting of lists, one issue is reported per index access, per qualified variable and per numeric variable in it, and nothing for plain variables.", "quantifier": "every assignment target", "why_tests_cant": "nested lists of any depth", "anchors": ["validator/checker.go: checkAssignmentExpression, checkAssign"]}
{"id": "C26", "title": "Parse terminates", "statement": "Parse returns (or panics) on every input; it never loops or recurses forever, despite backtracking and heredoc position jumps.", "quantifier": "every byte string and option set", "why_tests_cant": "non-termination cannot be observed by tests, and the space of inputs is infinite", "anchors": ["parser/parser.go", "parser/lexer.go: nextToken, skipWhite, consumeHeredocString"]}
{"id": "C27", "title": "Parse reports problems as errors and panics only at three places", "statement": "Parse returns an error value for every malformed input, except for three panics: an empty heredoc with '-' margin, `type X = Y {..} op`, and a step keyword followed by a numeric variable. Each of them occurs, and no other panic does.", "quantifier": "every byte string and option set", "why_tests_cant": "needs unreachability of every other panic site for all inputs", "anchors": ["parser/parser.go: parseTopExpression, typeAliasOrDefinition, stepDeclaration, tokenString", "parser/lexer.go: consumeHeredocString"]}
{"id": "C28", "title": "Parse depends on what was parsed before only in named ways", "statement": "After any calls of Parse that succeeded, no token and no enclosing name is left behind, and if the line start left behind is 0 a program (or expression) of the specified grammar is read exactly as by a new parser. (The unrestricted claim is false: the line start of an earlier multi-line text, and names and token of a rejected text, change later results.)", "quantifier": "every history of Parse calls on one parser", "why_tests_cant": "histories are unbounded", "anchors": ["parser/parser.go: Parse", "parser/lexer.go: context"]}
{"id": "C29", "title": "Byte ranges of nodes lie in the source and nest", "statement": "For every source without `@(` (heredocs) that is not parsed as workflow, and whatever the parser was used for before: ByteOffset and ByteOffset+ByteLength of every node of the result, and of every node of the program's definitions, lie within the source, so String() on a node cannot panic. A node starts no later than its parts, except blocks, capability mappings, case options and selector entries; outside of interpolations a node ends no earlier than its parts. The program starts at byte 0 and ends where reading ended. For every source at all, a node starts at most one byte after the end of the source. (Heredocs at the end of the source and names in workflow properties violate the first claim; witnesses are proved.)", "quantifier": "every parser state, source, parser options (except workflow where stated), every node of the result", "why_tests_cant": "all nodes of all programs", "anchors": ["parser/factory.go", "parser/expression.go: Positioned.String", "parser/parser.go: identifierExpr, returnParameter"]}
{"id": "C30", "title": "Errors are located in the source", "statement": "The location carried by an error returned from Parse is an offset between 0 and one past the end of the source.", "quantifier": "every failing input", "why_tests_cant": "every error site for every input", "anchors": ["parser/lexer.go: parseIssue, parseIssue2", "parser/parser.go"]}
{"id": "C31", "title": "Parser options gate language features", "statement": "Without WorkflowEnabled the result contains no step; without TasksEnabled no plan; without EppMode no EPP, render-expression or render-string node.", "quantifier": "every input and option set", "why_tests_cant": "absence over all results", "anchors": ["parser/parser.go: CreateParser, step, atomExpression", "parser/lexer.go: consumeQualifiedName, nextToken"]}
{"id": "C32", "title": "Definitions lists every definition in the program", "statement": "Every class, define, function, plan, node, site, application, type alias/definition/mapping, capability mapping and top level step in the AST returned by Parse is an element of Program.Definitions. (The converse fails.)", "quantifier": "every program", "why_tests_cant": "arbitrary nesting, backtracking", "anchors": ["parser/parser.go: addDefinition, Parse"]}
{"id": "C33", "title": "Names are qualified by the enclosing constructs only", "statement": "In every tree returned by Parse, a class, step or capability mapping written with name n inside constructs (classes, plans, workflows) named a, b, ... is named a::b::...::n, so a class directly inside class X is named X::n and a class after other classes is not affected; nothing is left on the parser. (Exception: in an interpolated string right after such a construct its name still counts.)", "quantifier": "every source, options and single/program mode, on a new parser or after any successful calls", "why_tests_cant": "arbitrary nesting and order of definitions", "anchors": ["parser/parser.go: nameStack, classExpression, planDefinition, stepDeclaration, qualifiedName"]}
{"id": "C34", "title": "A successful parse consumed the whole source", "statement": "When Parse returns no error, the lexer has reached the end of the source (or a NUL byte).", "quantifier": "every accepted input", "why_tests_cant": "all inputs; silent truncation is invisible to tests that look at the AST", "anchors": ["parser/parser.go: parse, parseTopExpression", "parser/lexer.go: nextToken"]}
{"id": "C35", "title": "Operator precedence and associativity", "statement": "An expression built from unary and binary operators over literals, names and variables, written with parentheses wherever precedence or associativity require them (and possibly elsewhere), is accepted and read as exactly that expression, for every layout of the written text.", "quantifier": "every operator tree over all operator levels, every admissible parenthesisation and every layout", "why_tests_cant": "trees of any size", "anchors": ["parser/parser.go: relationship .. unaryExpression"]}
{"id": "C36", "title": "Integer literals denote their value", "statement": "A decimal, octal or hexadecimal integer literal, in any context and after any white space, is one token whose value is the number that its digits denote, or 2^63-1 if that is larger; Parse of a literal alone gives that number, and Parse of the decimal rendering of any number below 2^63 gives it back. The one exception, stated exactly: a literal of one digit directly followed by a sign swallows the sign and the digits after it and has the value 0.", "quantifier": "every digit string", "why_tests_cant": "infinite set of literals", "anchors": ["parser/lexer.go: nextToken, skipDecimalDigits, consumeFloat"]}
{"id": "C37", "title": "Single quoted strings round trip", "statement": "The text between single quotes means itself, except that backslash-quote means a quote and two backslashes mean one; in any context it is one string token with that value. Every text without NUL and U+FFFD, with quotes and backslashes escaped and put between single quotes, is parsed as a string with exactly that text.", "quantifier": "every text without NUL/U+FFFD", "why_tests_cant": "all texts", "anchors": ["parser/lexer.go: consumeDelimitedString, consumeSingleQuotedString"]}
{"id": "C38", "title": "Double quoted strings round trip", "statement": "A double quoted string without unescaped $ is one plain string token; its value is given by the escapes \\\\ \\' \\\" \\$ \\n \\r \\t \\s \\uXXXX \\u{X...} (and \\xXX in pspec mode), any other backslash stands for itself. Every text without NUL and U+FFFD, with backslash, double quote and $ escaped (newline, tab and return optionally), is parsed as a plain string with exactly that text; no interpolation is performed.", "quantifier": "every text without NUL/U+FFFD", "why_tests_cant": "all texts", "anchors": ["parser/lexer.go: consumeDoubleQuotedString"]}
{"id": "C39", "title": "The text of a template is rendered as written", "statement": "In EPP mode a template without '<%' and '%%' parses to one lambda without parameters around an epp node with one render-string that is exactly the template; '<%%' stands for '<%', '%%>' for '%>', '<%# ... %>' for nothing. After the end of a tag the next token is the text up to the next tag; blanks before '<%-' and blanks with one newline after '-%>' are not part of it.", "quantifier": "every template text", "why_tests_cant": "all texts", "anchors": ["parser/lexer.go: consumeEPP", "parser/parser.go: parseTopExpression"]}
{"id": "C40", "title": "White space and comments do not matter between tokens", "statement": "Blanks, tabs, returns, newlines, # comments and /* */ comments before a token are skipped exactly: reading from before them gives the same token, value and location as reading from behind them, for every token except '['. '[' starts a list exactly after white space or at the start of the source; '(' starts a parenthesized expression exactly if it is the first token of its line.", "quantifier": "every text", "why_tests_cant": "all texts and all mixes of comments", "anchors": ["parser/lexer.go: skipWhite, nextToken"]}
{"id": "C41", "title": "The simple lexer produces the tokens of the first line as they are and then starts again", "statement": "A lexer built with NewSimpleLexer yields, up to the first line break it passes over, exactly the tokens of the source, each once; for a source without a line break these are all tokens, each exactly once. At the first line break it does not go on with the second line but with the first token of the source once more, so that the tokens of the first line are produced twice (the unchanged code does not set nextLineStart; this is a defect that the theorem C41_violated states for every source).", "quantifier": "every source; every number of tokens read before the line break; any white space and comment before it", "why_tests_cant": "all sources", "anchors": ["parser/parser.go: NewSimpleLexer", "parser/lexer.go: skipWhite"]}
{"id": "C42", "title": "A heredoc's value is the text of its lines", "statement": "Wherever a heredoc without interpolation is declared, it is one token; its value is the text between the line after the declaration (or after the text of the heredoc declared before it on the same line) and the line with the end tag, with the margin removed, the declared escapes replaced and, if the end tag has a dash, without the last newline; without quotes, flags and margin it is that text verbatim. The rest of the declaring line is read next and then the line after the end tag. Required: no text line begins with '-' or '|', a slash on the declaring line is followed by two more one-byte characters, and '|' is not the last token of the declaring line; the unchanged code violates the claim in these cases (theorems C42_violated_*). A heredoc with interpolation that is the first token of a source is one token as well: its value is the concatenation of the parts of its text (text with its escapes replaced, variables, expressions) in the order in which they are written, and, if it is alone on its line, the program goes on behind the line with the end tag.", "quantifier": "every source, every heredoc (tag, syntax, flags, margin, text) in it, every position", "why_tests_cant": "all texts, all positions, all combinations of heredocs on a line", "anchors": ["parser/lexer.go: consumeHeredocString, applyEscapes, stripIndent"]}
{"id": "C43", "title": "Parse results are well formed", "statement": "In a parse result hash entries are keyed entries, case options and selector entries have their class, parameters are Parameters, bodies of class, define, node, function, plan, site and lambda are blocks, variables wrap a name or an index, and method calls have a named access functor.", "quantifier": "every accepted input", "why_tests_cant": "all results; consumers rely on unchecked type assertions", "anchors": ["parser/parser.go", "validator/checker.go", "parser/expression.go"]}
{"id": "C44", "title": "Keyed entries in lists and arguments are merged without loss", "statement": "In a list or argument list every longest run of key => value entries becomes one hash reaching from its first to its last entry, all other elements stay, order and content are unchanged, and no key => value is left among list elements, arguments or access keys of any parse result.", "quantifier": "every list of expressions", "why_tests_cant": "lists of any length and mix", "anchors": ["parser/parser.go: joinHashEntries, processHashEntries, newHashWithoutBraces"]}
{"id": "C45", "title": "Statement calls take exactly the following expression", "statement": "In a block a statement-call name followed by an expression becomes one call with that expression (or the comma separated list) as its arguments; all other statements are kept in order, calls among them marked as statements; a left-over comma list is rejected unless the block ends in a statement call.", "quantifier": "every statement list", "why_tests_cant": "lists of any length", "anchors": ["parser/parser.go: transformCalls, statementCalls"]}
{"id": "C46", "title": "Exit status of the command line tool", "statement": "The parse command exits non-zero exactly when parsing failed or some issue has severity error, and prints an AST only when it exits zero and -v is not given.", "quantifier": "every outcome of parse and validate", "why_tests_cant": "all outcomes and flag combinations", "anchors": ["parse/parser.go: main"]}
{"id": "C47", "title": "Lexing makes progress", "statement": "From the start of any text, every token other than end of input moves the position forward unless a heredoc is pending; at most 2(n+3)^2 tokens precede the end, heredocs included; positions never run past one beyond the end of the source; NextToken never runs forever.", "quantifier": "every source and lexer state", "why_tests_cant": "all texts and states", "anchors": ["parser/lexer.go: nextToken"]}
{"id": "C48", "title": "Keywords, booleans and names are classified exactly", "statement": "A word of letters, digits, underscores, '::' segments and inner dashes is one token: a string if it has dashes, else true/false, default, one of the 21 other reserved words (token text = word), plan only with tasks enabled, else a name; words with '::' are never keywords; upper case words are type names; $name is a variable.", "quantifier": "every word", "why_tests_cant": "all words", "anchors": ["parser/lexer.go: consumeQualifiedName, keywords"]}
{"id": "C49", "title": "Strictness names round trip", "statement": "Strict(s.String()) = s for each strictness, Strict ignores case, and every other string panics.", "quantifier": "every string", "why_tests_cant": "all strings", "anchors": ["validator/validator.go: Strict, Strictness.String"]}
{"id": "C50", "title": "Operators start where their left operand starts", "statement": "In every parse result a binary operator expression has the byte offset of its left operand.", "quantifier": "every operator node of every parse result", "why_tests_cant": "chains of any length", "anchors": ["parser/parser.go: relationship .. inExpression, primaryExpression"]}
{"id": "C51", "title": "The parser accepts the language with its meaning", "statement": "A source text whose tokens form a program (or single expression) of the specified grammar (Spec/Grammar.lean, Spec/Layout.lean: expressions, strings with interpolation, heredocs without interpolation, calls, lambdas, collections, conditionals, resources (also virtual and exported), resource defaults and overrides, collectors, class/define/node/function/plan/application/site definitions, capability mappings, type aliases with and without a parent, type definitions with and without inherits, type mappings; with the option for workflows also steps, see C56) is accepted, and the syntax tree is, up to positions, the meaning that grammar assigns; hence no accepted source of that language has two meanings.", "quantifier": "every token sequence of the grammar, every nesting and length, every layout", "why_tests_cant": "programs of any size and nesting", "anchors": ["parser/parser.go: Parse, parse, syntacticStatement .. atomExpression", "parser/lexer.go: nextToken"]}
{"id": "C52", "title": "Layout independence", "statement": "Two sources made of the same tokens of the specified grammar, laid out with different white space, newlines and comments (respecting the few places where white space is significant), are both accepted and give the same syntax tree up to positions.", "quantifier": "every token sequence of the grammar, every two layouts", "why_tests_cant": "infinitely many layouts", "anchors": ["parser/lexer.go: nextToken, skipWhite", "parser/parser.go"]}
{"id": "C53", "title": "Interpolation", "statement": "A double quoted string made of text (with escapes), `$name` and `${expression}` in any order, where the expressions (which may again contain such strings, to any depth) are of the language of C51, is accepted and becomes the list of its parts in order: text with escapes replaced (empty text is dropped), variables, and the meanings of the expressions, where a name at the root of the expression, of an index or of a method call means the variable of that name. A string without interpolation becomes its text.", "quantifier": "every string, every number of parts, every nesting", "why_tests_cant": "strings and expressions of any size and nesting", "anchors": ["parser/lexer.go: consumeDoubleQuotedString, consumeDelimitedString, handleInterpolation, interpolate, convertNamedAccessLHS"]}
{"id": "C54", "title": "Malformed lexemes are rejected with their code and location, and nothing else is", "statement": "Wherever a token is expected, after any white space and comments, a text that starts with an unterminated comment, an unterminated string or backtick string, a regular expression that ends in a backslash, a malformed \\u or \\x escape, a `$` in a string that starts no interpolation, a number with a missing or wrong digit, a name with `::` that no segment follows, a `$` or `::` without a name, a `~` that is not `~>`, or a character that starts no token makes Parse return the error with the code of this kind at the location given for it; in every other case (heredocs and interpolated strings aside) a token is read. A heredoc whose declaration is not closed on its line, has no tag or an empty one, more than one tag, syntax or escape specification or an escape that does not exist, and a heredoc without the line that ends its text are errors with their codes and locations as well; so are a malformed \\u escape (with the escape u) and a `$` that starts no interpolation (with a quoted tag) in the text of a heredoc.", "quantifier": "All texts, all white space and comments in front of them, all previous tokens and parser states, all options except EPP", "why_tests_cant": "The malformed texts are infinitely many, with unbounded names, strings and digits before the error, and 'nothing else is an error' ranges over all other texts.", "anchors": ["parser/lexer.go: nextToken, skipWhite, consumeQualifiedName, consumeFloat, skipDecimalDigits, consumeDelimitedString, consumeBacktickedString, appendUnicode, appendHexadec, consumeRegexp, handleInterpolation", "parser/issues.go", "parser/lexer.go: consumeHeredocString, extractFlags"]}
{"id": "C55", "title": "Syntax errors: every text that goes wrong at a token is rejected with the error of that place", "statement": "If the tokens of a source are the beginning of a program up to some token and that token cannot continue it (a missing closing token, a token that cannot start an expression, a wrong separator, a missing arrow, name, title, parameter, host name, type, block, an elsif in an unless, ...), then Parse returns exactly the issue of this place, located at that token (or behind it, as documented per error), wherever the place is: at any depth inside of any statement, after any statements, in any layout. Such sources are not programs, and a source has only one syntax error. One defect is stated too: a resource title without colon before the closing brace is dropped silently.", "quantifier": "all token sequences derivable by the rules Bad/Wrong (34 places, about 110 context rules), all layouts of them (white space, comments, heredocs), programs and single expressions", "why_tests_cant": "The places in which a token can be wrong are nested without bound and combine with every construct; tests sample a few texts per error.", "anchors": ["parser/parser.go: assertToken, unexpectedToken handling in atomExpression, expressions, statements, resourceExpression, resourceBodies, attributeOperation(s), parameter(List), parameterType, className, classDefinition, functionDefinition, nodeDefinition, hostnames, dottedName, typeAliasOrDefinition, ifExpression, caseExpression, collectExpression, capabilityMapping", "parser/issues.go"]}
{"id": "C56", "title": "Workflows are read as the steps that are written", "statement": "With the option for workflows the words action, resource, stateHandler and workflow begin the definition of a step. A source whose tokens form a program with steps of the specified grammar (properties with parameters and returns, iteration with times/range/each and an optional name, bodies of actions, states of resources, nested workflows with steps and functions) is accepted and its tree is, up to positions, the meaning the grammar assigns: the steps in the order in which they are written, each qualified with the names of the workflows around it, its properties in order with the iteration last, and the variables and calls in the state of a resource replaced by Deferred values. (Defects stated too: one of the four words used as an expression makes the parser read the current token twice; parameters that are not a list in parentheses are dropped; a deferred call loses its block.)", "quantifier": "every token sequence of the grammar with steps, every nesting and length, every layout", "why_tests_cant": "steps nest without bound, and each of the properties, iterations and bodies may have any length; the four words are names in other places", "anchors": ["parser/parser.go: step, stepStyle, stepName, stepProperty, stepExpression, activities, stepDeclaration", "parser/parser.go: stateHash, stateAttribute, convertToDeferred, returnParameters, returnParameter, attributeAlias"]}
{"id": "C57", "title": "Templates have the documented meaning", "statement": "In EPP mode, a source that is a template - text, and tags '<% %>', '<%- -%>', '<%= %>' that hold the tokens of the language with any white space and comments - is accepted, and the result is one lambda around one epp node. If the first tag begins with '|parameters|', then these are the parameters of the lambda and the rest of the template is its body: the statements of the language, with every text between tags as one statement that renders it and every '<%= e %>' as the statement that renders e. Without parameters the body is the text at the beginning followed by expressions. A template has one meaning, white space and comments in tags do not matter, and the request for one expression gives the same lambda without a program around it.", "quantifier": "every template: all texts, all positions of tags, all expressions and statements of the grammar inside them (statements and blocks may span tags)", "why_tests_cant": "the set of templates is infinite; text and code alternate without bound, and blocks span tags", "anchors": ["parser/parser.go: parseTopExpression, asEppLambda, parse", "parser/lexer.go: nextToken, consumeEPP", "parser/factory.go: EppExpression"]}
{"id": "C58", "title": "Nodes start where their construct starts", "statement": "In every tree the parser gives (and in the definitions of a program), each node starts where the construct it stands for starts in the source. An operator expression, selector, resource body, comma list, hash entry, access, call and collector starts where its first part starts; a resource starts at its type or at its '@' / '@@'; '!', '-', '*', '(', '<%=' expressions, queries, '* => x' attributes and lambdas start at their symbol; if/unless/elsif, case, class, define, application, function, plan, node, site, true, false, default and reserved words start at exactly that word in the source, and a type reference starts at the text of its name. Exceptions, all stated in the specification: an access or call applied to a signed number starts at the sign, a call written inside '${...}', step properties in workflows, the types Object and Deferred that the parser supplies, the lambda of a template, and '.' expressions.", "quantifier": "every source text, every combination of the EPP, workflow and tasks options, whole programs and single expressions, every node at any depth of every result, any state the parser object is left in by earlier parses", "why_tests_cant": "positions depend on where earlier tokens, comments, heredocs and interpolations end; tests compare a handful of positions, while tools that underline or rewrite source need them for every node of every program", "anchors": ["parser/parser.go: expression, primaryExpression, atomExpression, ifExpression, caseExpression, resource, classExpression, lambda, collectExpression, statement", "parser/lexer.go: nextToken, tokenStartPos", "parser/expression.go: ByteOffset", "parser/factory.go"]}
{"id": "C59", "title": "Messages of the validators say what they are about", "statement": "The message of every issue of a validator is about the expression at which the issue is reported: the name, operator, word, key, attribute or number in the message is that of this expression, and the containing expression the message speaks of is the one the expression really belongs to (the case or selector that has the default, the class or node whose body ends with the value, the construct whose parameter it is, the call whose function name it is, ...). Every message has exactly the arguments its text asks for, so it can always be written - except for 'captures rest' parameters where they are not supported: that message asks for 'param' and gets 'name', so it never names the parameter. Messages name every kind of expression, except lambdas, parenthesized expressions and calls of a value, which are all called 'Positioned'.", "quantifier": "every expression (hence every program), every validator (puppet, tasks, workflow) at every strictness, every issue reported, every way in which the issue library prints an argument", "why_tests_cant": "arguments are untyped maps filled at some forty places; a wrong or missing key or a wrong container shows only in the text of an issue that a test happens to trigger, and the tests compare a few messages", "anchors": ["validator/checker.go: all calls of Accept", "validator/issues.go: init", "validator/validator.go: Accept, Container", "parser/label.go: Label"]}
{"id": "C60", "title": "JSON output is well-formed, faithful and complete", "statement": "With -j the command line tool writes to standard output exactly one JSON object (RFC 8259) and ends with the same status as without -j. The object has the member `ast` exactly when the tool would print the AST, with a value that reads back as the PN: a call is {\"^\": [name, args...]}, a map {\"#\": [key, value, ...]}, a list an array, with the same strings, integers, booleans and nulls in the same order; `issues` exactly when there are issues, all of them, in order, each with its code, severity and message; `error` with the message when the text is not UTF-8. Whatever characters the strings contain, reading the JSON gives them back (bytes that are not UTF-8 become U+FFFD). Two PNs without floats and with UTF-8 strings that have the same JSON are equal; the ASTs of programs without float literals are such PNs. The tool panics with -j where it panics without, and in addition exactly when the AST contains a float that is infinite. The codes of issues are pairwise different.", "quantifier": "all PN values (any depth, any bytes in strings), all runs of the command line tool: all files, options and results of parsing and validation", "why_tests_cant": "Escaping and nesting have to be right for every string and tree; sample files meet only a few of the characters, issue lists and option combinations.", "anchors": ["json/json.go: ToJson", "parse/parser.go: main, emitJson", "pn/pn.go: ReportedToPN, ToData", "parser/issues.go", "validator/issues.go"]}
{"id": "C61", "title": "The printed AST tells the program", "statement": "Two parse results, of any source texts and with any parser options, have the same AST (`ToPN`) exactly if they are the same program up to the positions and the list of definitions, up to writing `elsif c {...}` for `else { if c {...} }`, and up to a comma list that was left over in a block and is printed as an array. So nothing else of a program is lost in its AST (no two different programs share one AST), and the AST depends on nothing else. The same holds for the text of the AST and for its JSON form, for programs without float literals that are parsed without the option for hexadecimal escapes: their ASTs always meet the conditions under which those texts are unambiguous (C04, C60).", "quantifier": "all pairs of source texts, parser options and parser states, and both kinds of parse (program, single expression)", "why_tests_cant": "Faithfulness is a statement about all pairs of programs: a test can show that some ASTs differ, but not that no two different programs collide in one AST.", "anchors": ["parser/expression.go: ToPN methods, definitionPN, parametersEntry, pnBlockAsEntry, pnIf, binaryOp", "parser/workflow.go: (activityExpression) ToPN", "pn/pn.go: AsCall, WithName, Map"]}
{"id": "C62", "title": "Strings in a result are UTF-8", "statement": "If a parse succeeds, every string in the result - names, operators, string and regular expression literals, heredoc and template text, in the tree and in the listed definitions - is valid UTF-8, whatever bytes the source consists of, whatever escapes it uses, and however its heredocs are cut. This needs that hexadecimal escapes are not enabled: with that option `\"\\xff\"` gives a string that is not UTF-8. A parser that parsed successfully can be used again with the same guarantee.", "quantifier": "all source texts (arbitrary bytes), all parser options but hexadecimal escapes, both kinds of parse, new parsers and parsers that were used before", "why_tests_cant": "Strings are cut out of the source at computed byte positions and built from escapes; that no cut ever falls inside a character, for any text, is a statement about all inputs.", "anchors": ["parser/lexer.go: consumeQualifiedName, consumeDelimitedString, consumeHeredocString, consumeEPP, appendUnicode, appendHexadec, consumeRegexp", "parser/reader.go: (stringReader) Next, Peek", "parser/parser.go: Parse, qualifiedName"]}
{"id": "C63", "title": "Every other rule is reported exactly where it is broken", "statement": "For each of the remaining 23 issue codes, the expressions at which a validator reports it are exactly the places where the rule is broken in the tree, each as often and in the order in which they are visited - more than one `* =>` in a body, an expression without a value used as an operand, reserved and future reserved words, `+=`/`-=`, conditions of queries, virtual classes and defaults, `+>` and `* =>` where they are not supported, numeric and ill-formed parameter names, assignments in parameter defaults, the forms of type mappings, names of definitions and types, values as the last statement of a class or node, reserved parameters, host names, capability mappings, and expressions of a kind that cannot stand in their place. The one exception: the tasks and workflow validators refuse catalog constructs as a whole and report nothing else about how these are written.", "quantifier": "all syntax trees (parsed or not) that the validator finishes, the three validators, all strictness settings", "why_tests_cant": "A rule that is not checked for one kind of expression, or checked at one place too many, shows only in trees of that shape; exactness is a statement about all trees.", "anchors": ["validator/checker.go: basicChecker check methods", "validator/tasks_checker.go: tasksChecker check methods", "validator/workflow_checker.go", "validator/issues.go: issue codes"]}
{"id": "C64", "title": "The verdict of a validator is determined by the rules", "statement": "The rules of C16-C25 and C63 are all there is: for every issue code the reported issues are exactly the places where that rule is broken, in order, with the severity of the rule (deprecation for words that will be reserved, the strictness for repeated keys and forgotten values of the Puppet validator, error for the rest), unless the strictness says to ignore it. So a tree is accepted without issues exactly if it breaks no rule, there is an error exactly if it breaks a rule that is one, no issue has a code without a rule, and the exit status of the command line tool is nonzero exactly if the text is not a program or breaks such a rule.", "quantifier": "all syntax trees (parsed or not) that the validator finishes, all issue codes, the three validators, all strictness settings; for the tool all arguments and file contents for which it does not panic", "why_tests_cant": "That nothing is reported besides the violations of the rules, for any code, and that every violation is reported is a statement about all trees; tests only show that sample programs are accepted or refused.", "anchors": ["validator/checker.go: basicChecker.Validate and check methods", "validator/tasks_checker.go", "validator/workflow_checker.go", "validator/validator.go: Validate", "validator/issues.go: issue codes", "parse/parser.go: main"]}
