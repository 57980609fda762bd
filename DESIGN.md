# Formal model of lyraproj/puppet-parser in Lean 4

Contents: 1 what is modelled; 2 what is not; 3 trusted base; 4 modelling decisions; 5 how the proofs work; 6 the specifications;
7 the properties one by one; 8 findings about the code; 9 how the model and the theorems were tested; 10 rebuilding.

## 1. What is modelled

| module (`lean/Verif/`) | models | code |
|---|---|---|
| `Basic`      | Go strings as byte lists, UTF-8 decoding and encoding, character classes, `b!".."` literals | Go `utf8`, `strings`, lexer.go classes |
| `PN`         | PN trees, `Format`, `ToData`, `AsCall`, `AsParameters`, `WithName`, `Map` key check, `DoubleQuote` | pn/pn.go, pn/quote.go |
| `Ast`        | all node classes, child lists, `Contents`/`AllContents`, `ToPN`, factory functions | parser/expression.go, factory.go, workflow.go |
| `Locator`    | line and column of an offset | parser/expression.go `Locator`, reader.go |
| `Monad`      | the parser state, errors, tokens, options | parser/lexer.go `context`, issues.go (codes) |
| `Lexer`      | reader, white space, tokens, numbers, names, strings, interpolation, heredocs, EPP text | parser/reader.go, lexer.go |
| `Parser`     | every production, `Parse`, `CreateParser` options, backtracking of resources, workflow steps | parser/parser.go |
| `Literal`    | `ToLiteral` | literal/literal.go |
| `Validator`  | `Accept`, `Validate*`, the three checkers, strictness, severities | validator/*.go |
| `Cli`        | decisions of the command line tool | parse/parser.go |

Every definition of these modules has a comment with the file and lines that it models, and its simplifications.

## 2. What is not modelled

* the `issue` package that fills and prints messages (a parameter of Message.lean), and the arguments of the messages of parse errors: a parse error is its code and location (issues of validation have their arguments);
* `strconv.ParseFloat` / `FormatFloat`: a float literal is its text and sign, its formatting is a parameter of the model
  (`Env.fmtFloat`), equality of float hash keys is a parameter of `ToLiteral`'s model;
* `unicode.IsLetter` from U+0080 on is a parameter (`Env.uniLetter`): the theorems hold for every table;
* regexp compilation in the lexer (`regexp.Compile` is not called by this code);
* how `encoding/json` prints finite floats (a parameter of C60; the rest of its work on `ToData` values is modelled in Json.lean),
  and file access of the command line tool;
* pointer identity of nodes and the aliasing of path slices in `DeepVisit` (F28): a visitor that keeps the path after it
  returned sees it change; the model shows the path as it is at the time of the call;
* getters without logic; the `reflect` based `Label` function;
* memory and stack limits of the Go run time.

## 3. Trusted base

* Lean 4.33.0's kernel. No `sorry`, no axioms of our own, no `native_decide`/`bv_decide`; concrete cases use `decide +kernel`,
  which the kernel evaluates.
* Axioms: at most `propext`, `Quot.sound`, `Classical.choice`; AXIOMS.md (generated with `#print axioms`) lists them for every
  property theorem.
* That the model is what the Go code does: by reading, by the citations at every definition, and by the 445 expectations of the
  repository's own tests which the kernel checks against the model (section 9).
* That the specifications in `lean/Verif/Spec` and the statements in `lean/Verif/Props` say what the English properties say.

## 4. Modelling decisions

* Go `string` = `List UInt8` (`GoStr`); runes are natural numbers; `utf8.DecodeRuneInString` is modelled bit exactly, including
  U+FFFD of width 1 for invalid bytes.
* The mutable `*context` is a state record `St`; the options and the text are `Env`. `P a = Env -> St -> Res a`, where a result is
  `ok a s` or `fail err s`. `err` is `issue code pos` or `invalidUnicode pos` (panics that `Parse` recovers), `crash k` (any other
  Go panic: it escapes `Parse`), or `timeout` (fuel of the model; C26 proves that it does not occur).
* The mutual recursion of the productions is open recursion over a type `NT` of non-terminals (`step (self : NT -> P Val)`),
  closed with fuel: `run (n+1) = step (run n)`. The fuel given is a function of the length of the text; C26 proves it sufficient
  from every state and that more fuel does not change anything.
* Loops over characters have fuel `2*length+8`, with the same status.
* `nextLineStart = -1` is `none`. Offsets are `Nat`; lengths are `Int`: the code computes negative ones (F10).
* `Parse` starts with whatever an earlier call left in the state: `parseFrom env s single`; `parse` is the call on a new parser.
* Only fields the parser can leave nil are `Option`.

## 5. How the proofs work

* `Lemmas/Wp`: weakest preconditions for `P`. `Lemmas/LexChars .. LexHeredoc, LexTok`: one specification for each function of the
  lexer. `Lemmas/Inv`: the state invariant (position at most one past the end, pending heredoc line, name stack, definitions only
  grow) and a measure that decreases, which is what makes backtracking and heredoc jumps terminate. `Lemmas/Spec`, `Parse1-9`:
  one specification for each production, by induction on fuel. They give C26, C27, C30-C34, C43-C45, C47, C50 at once.
* `Lemmas/Node, NodeOps, Tree`: the local grammar of parse results, used by C07, C08, C24, C31, C32, C43.
* `Lemmas/Feed, Mono`: evaluation: "the parser with enough fuel, reading these tokens, gives this value"; monotone in fuel.
  `Gram0-9`: every phrase of `Spec/Grammar` is read as its meaning. `Layout1-4`, `Tokens`, `Puncts`, `Names`, `Strings`, `Floats`,
  `Heredoc*`: every layout of a token sequence is lexed as that token sequence. Together C35, C51, C52, C28.
* `Lemmas/Exec` (`ex` tactic): running the lexer on known characters.
* Validator: the log of issues is characterised as a `flatMap` over the visited nodes (`Lemmas/Reports`), so "reported exactly"
  is an equation of lists of places.

## 6. The specifications (`lean/Verif/Spec`)

* `Grammar`: tokens, meaning of every phrase. Left out: resource defaults and overrides, `type X inherits ..`/type mappings,
  capability mappings (`produces`/`consumes`), workflow steps, EPP templates as a grammar (text: `Spec/Epp`), `$x[1]` on a name of
  a statement function, `x.y[1]` (F33), keywords as the start of argument lists (F36).
* `Lexemes`, `Layout`: how tokens are written, where white space is free, forbidden or necessary. Left out: interpolated strings
  and heredocs (tokens exist in the grammar; their writing is not specified), NUL and U+FFFD.
* `Heredoc`: text, margin, escapes, flags, the end line. `Epp`: text between tags. `Operators`: printing with
  parentheses. `Bare`, `Shape`: words; lists and statement calls.

## 7. Properties
* **C01** Line and column of an offset are exact (proved). `Locator` model; induction over the characters of the text, against counting newlines and runes directly. *For text of valid UTF-8 without NUL; invalid text panics and NUL stops the count (both proved).*
* **C02** Positions are monotone and injective (proved). from C01's exact characterisation, strict order on (line, column). *Strict lexicographic monotonicity of (line, column) on character offsets.*
* **C03** Quoted strings in PN text can be unquoted (proved). explicit inverse of `DoubleQuote` on valid UTF-8; shape by induction. *For valid UTF-8; loss of information on invalid bytes is proved by a witness.*
* **C04** PN text is unambiguous (proved). a reader for PN text, proved to be a left inverse of `Format` with any rest of input. *Floats excluded (their formatting is a parameter); call names and keys without delimiters, the need for which is proved by a witness.*
* **C05** PN data form is lossless and self-describing (proved). explicit inverse of `ToData`, shape predicate.
* **C06** AsCall / AsParameters / WithName laws (proved). equations, for every PN.
* **C07** ToPN panics exactly on unrepresentable parameter names (proved). `ToPN` in `Except`; induction over the tree; well-formedness of parse results from C43. *For every tree (C07_toPN_ok_iff) and for every parse result (C07_parsed_toPN).*
* **C08** A program that validates can be rendered (proved). C07 + exactness of the illegal-parameter-name reports. *C08_validated_program_renders: for every parse result; C08_accepted_names_render for every tree.*
* **C09** AllContents visits every contained expression exactly once with its ancestors as path (proved). the visitor as a list of calls; specification = enumeration by addresses (paths of child numbers).
* **C10** Contents is the one level restriction of AllContents (proved). as C09.
* **C11** ToLiteral succeeds exactly on literal expressions (proved). inductive predicate 'literal'; both directions; the panic exactly characterised. *Float key equality is a parameter (symmetric and transitive).*
* **C12** Only three issue codes have adjustable severity (proved). table of severities against every `Accept` call.
* **C13** Strictness only filters (proved). list homomorphism over the log.
* **C14** Validation does not depend on what the validator validated before (proved). reset of state by `Validate`.
* **C15** Every issue points into the validated tree (proved). invariant of the log: every place is a subexpression.
* **C16** The tasks validator rejects every catalog operation and nothing else as such (proved). log filtered by code = list of catalog nodes.
* **C17** Steps are only accepted by the workflow validator (proved). as C16.
* **C18** Duplicate parameters are reported exactly (proved). log filtered by code = list of later duplicates, in order. *Exact list of reported parameters for every checker; plans and lambdas are proved to be skipped.*
* **C19** Duplicate defaults are reported exactly (proved). as C18.
* **C20** Duplicate hash keys are reported exactly (proved). as C18. *Literal keys compared as the code does (F16: a regexp and a string of the same text are conflated, proved).*
* **C21** An expression reported as having no effect has no effect where statements are looked for (proved). places of reports exact; a statement is reported iff nothing evaluated as a statement in it has an effect (two inductions over trees). *Exact places of the reports; a statement is reported iff nothing evaluated as a statement or test in it has an effect. The unrestricted claim is false, shown by a witness.*
* **C22** Definitions are only accepted at top level or inside classes (proved). placement relation over the path of containers.
* **C23** Captures-rest is reported exactly (proved). as C18.
* **C24** Validation of a parsed program panics only on two kinds of hash keys (proved). case analysis of every panic site over well-formed trees. *Panics only for the two kinds of hash keys named, both of which occur; the first always panics.*
* **C25** Illegal assignment targets are reported exactly (proved). as C18; targets of nested lists specified separately.
* **C26** Parse terminates (proved). measure on (position, pending line, rest of text); induction on it dominates fuel. *For every source, options and previous state of the parser.*
* **C27** Parse reports problems as errors and panics only at three places (proved). every other crash site is excluded by the state invariant; witnesses by kernel evaluation. *The English property is false at exactly three places: proved that no other panic exists and that each of the three occurs.*
* **C28** Parse depends on what was parsed before only in named ways (proved). reading depends on the state only through fields that a successful parse leaves fixed. *positive part for the grammar of C51; C28_violated shows the unrestricted claim to be false*
* **C29** Byte ranges of nodes lie in the source and nest (proved). a second invariant of the recursion (Lemmas/Range1-13: every function says between which bytes the node it returns lies, given where the current token starts) proved by induction over the recursion depth; the claims are read off a predicate on trees. *ranges outside of the stated limits are shown to be wrong by evaluated witnesses*
* **C30** Errors are located in the source (proved). invariant on error positions. *For every previous state of the parser.*
* **C31** Parser options gate language features (proved). local grammar of results with the options as parameter. *For the program and for its definitions.*
* **C32** Definitions lists every definition in the program (proved). definitions registered at the place where the node is built. *The activities of workflow steps are the one exception; the converse is refuted by a witness.*
* **C33** Names are qualified by the enclosing constructs only (proved). invariant of all recursive functions (Lemmas/Qual*.lean): results satisfy Named for the stack of names, which every function restores; induction on recursion depth. *Names of the whole tree and of the listed definitions (Spec/Names.lean), with the exception for interpolated strings shown by a witness.*
* **C34** A successful parse consumed the whole source (proved). last token is the end, position at the end or at NUL. *Exceptions: NUL byte, templates parsed with workflow support (both with witnesses).*
* **C35** Operator precedence and associativity (proved). printer with parentheses, C51. *Spec/Operators.lean gives the written forms; leaves are literals, names, variables*
* **C36** Integer literals denote their value (proved). `ex` runs of number lexing, digits by induction. *Token level for any context, Parse level for a literal alone, exception proved in general and by witnesses. Floats keep their text; strconv.ParseFloat is not modelled.*
* **C37** Single quoted strings round trip (proved). induction over the string's characters. *Token level for any context, Parse level for a literal alone, round trip for every text.*
* **C38** Double quoted strings round trip (proved). as C37 with escapes. *Token level for any context, Parse level for a literal alone, round trip for every text.*
* **C39** The text of a template is rendered as written (proved). induction over the segments of the template. *consumeEPP for all texts of the specification Rendered; comments whose text contains '%' are not in the specification*
* **C40** White space and comments do not matter between tokens (proved). induction over `White`. *For lexers without a pending heredoc.*
* **C41** The simple lexer produces the tokens of the first line as they are and then starts again (proved). simulation between the simple lexer and the lexer. *C41_one_line, C41_first_line: positive part; C41_violated: the restart at offset 0, for every source*
* **C42** A heredoc's value is the text of its lines (proved). specification of heredoc lines, margins, escapes and, for heredocs with interpolation, parts; induction over lines and over the derivation of the parts. *C42_heredoc (one token, at every point of every source), C42_verbatim (text means itself without quotes, flags, margin); programs with heredocs are layouts (Spec/Layout.lean), so C51_programs covers them. C42_violated_*: concrete sources where the unchanged code deviates outside of the stated conditions. C42_interpolated: a heredoc with interpolation as the first token of a source is one token whose value lists the parts of its text (Spec/HeredocText.lean); C42_interpolated_programs: a program that begins with such a heredoc, alone on its line, means what the grammar says; heredocs with interpolation further on in a source are not covered by this theorem.*
* **C43** Parse results are well formed (proved). local grammar `Node` of every production's result. *Complete local grammar of the tree.*
* **C44** Keyed entries in lists and arguments are merged without loss (proved). list induction against gathering of longest runs; no pair left by C43. *on the function for every list; API level: no pair is left (C44_no_pair), C51 for whole sources*
* **C45** Statement calls take exactly the following expression (proved). list induction against the declarative statement specification. *for every list of expressions; C45_blocks for every block of every parse result*
* **C46** Exit status of the command line tool (proved). case analysis of the tool's decisions. *the JSON output is the subject of C60; panics are listed separately in the model*
* **C47** Lexing makes progress (proved). measure of C26 for single tokens.
* **C48** Keywords, booleans and names are classified exactly (proved). word grammar; induction over segments. *For every word of the grammar, in any context.*
* **C49** Strictness names round trip (proved). case analysis and lower-casing.
* **C50** Operators start where their left operand starts (proved). positions in the local grammar.
* **C51** The parser accepts the language with its meaning (proved). grammar soundness (Gram*), layout soundness (Layout*), put together in Props/Grammar. *language and its layout are specified in Spec/Grammar.lean, Spec/Lexemes.lean and Spec/Layout.lean. Not in that language: EPP templates, workflow mode, interpolated heredocs, empty interpolations `${}`, an expression in a string whose meaning depends on the enclosing class, a call without parentheses whose argument starts with a brace*
* **C52** Layout independence (proved). C51 twice. *for the language of C51*
* **C53** Interpolation (proved). C51 for one string token; the mutual induction over Layout and Parts (Lemmas/Layout4, Lemmas/Interp) runs the whole expression parser inside of the lexer, with the `}` as the end of the token stream (class Ending). *EPP and workflow mode excluded; `${}` is finding F42*
* **C54** Malformed lexemes are rejected with their code and location, and nothing else is (proved). `Spec/Malformed.lean` lists the malformed texts inductively, each with its code and the byte offset of the error.  `C54_rejected`: reading a token from such a text, in any state, is this error; `C54_accepted` and `C54_only`: if the text is not one of those, a token is read, and an error is always one that is listed with the code and location listed (by splitting every text: numbers, names, strings, comments); `C54_every_text`: the division into white space and the rest always exists; `C54_source`: the outcome of Parse; `C54_character_classes` pins the character classes.  `C54_heredoc` and `C54_heredoc_source` are the same for heredocs: `Spec/HeredocErrors.lean` lists the malformed ones (beginnings of declarations are described by `DeclPart`, complete ones and lines of text as in C42).  `C54_heredoc_text` and `C54_heredoc_text_source`: heredocs in whose text an escape or a `$` has no meaning (`Spec/HeredocBad.lean`: `Reaches` follows the cases of `Means` up to the place; induction over it in Lemmas/HeredocBad.lean). *Errors inside interpolations and EPP are outside this property; for heredocs that nothing else is an error is not part of it, and the text in front of a malformed escape or `$` in a heredoc contains no interpolation; the letter class of unicode.IsLetter beyond ASCII is a parameter.*
* **C55** Syntax errors: every text that goes wrong at a token is rejected with the error of that place (proved). Spec/Errors.lean is a calculus of wrong beginnings: `Wrong` (the place: tokens of the phrase read so far, error, position), `Bad` (the context around it, one rule per construct and argument position). Lemmas/Err1-Err5: one lemma per rule about the parser (what it does with the good phrases before the place comes from the C51 lemmas, now generic in the outcome and with token positions); Lemmas/Err6: induction over `Bad`. Props/SyntaxErrors.lean: `Parse`. Positions are stated with `StartsAt`/`EndsBefore` of Spec/Position.lean. *Rules for files without EPP and workflow keywords. Positions of parseResourceWithoutTitle, parseInvalidResource and parseExpectedTitle are not specified. Not every rejected text is covered (no completeness of the rules is claimed).*
* **C56** Workflows are read as the steps that are written (proved). rules for steps in Spec/Grammar.lean (token `.style`), Lemmas/Gram8b.lean: one lemma per rule, Gram9: the induction; Props/Workflow.lean. *All rules for steps are part of the grammar G of C51, which holds for both values of the option; C52, C53 and C55 too.*
* **C57** Templates have the documented meaning (proved). The stream of tokens from C51 is extended with the texts between tags (`Tags`, `Layout.text`): after every token the lexer, in the state it is really in, gives the next token of the stream (`tags_ready`, mutual induction with `layout_ready`). `template_start` is the same for the text at the beginning of the template. The grammar of statements and expressions is then used as it is (G_reads); the part of the parser that is only used for templates (parameters; loop over expressions; statement calls) is Lemmas/Template.lean. *Grammar in Spec/Template.lean on top of Spec/Grammar.lean and Spec/Layout.lean. Not included: texts at the beginning that look like an unfinished comment or white space before '(', heredocs together with a header that looks like comments over several lines, heredocs whose tag is closed on the declaring line (their text is rendered twice: C57_heredoc_twice).*
* **C58** Nodes start where their construct starts (proved). Specification: Spec/Start.lean (`Starts`: for every constructor the text that is read at the node's offset, or the part it starts with). The invariant of the parser proof (Lemmas/Inv.lean) gets the field `sp`: the source spells the current token at the token's start; it is kept by the lexer (LexChars, LexSelf, LexTok) and by every production (Parse1-Parse9). The nodes' inductive predicate `Node` carries `Starts` as a premise of each constructor, so every place of the parser that builds a node has to prove it; `Tree.sub` extends it to all subexpressions. *Exceptions are listed in Spec/Start.lean; blocks, hashes, arrays, case options, selector entries, parameters and capability mappings have no claim there (F40; C32/C50 bound them).*
* **C59** Messages of the validators say what they are about (proved). Model: Message.lean (texts and formatters of issues.go, labels of label.go, the keys a text asks for) and the arguments that each call of Accept passes (Validator.lean, `Issue.args`). Specification: Spec/Messages.lean (`Describes`: one clause per code, or per cause). Each check is shown to report only issues that satisfy it (Lemmas/Messages.lean); for the container of attributes and '.' expressions the traversal lemma `visited_ok` gives the parent. The keys are compared per clause by evaluation of the text, then `C59_complete` follows by induction on the pieces of the text. `C59_formats` and `C59_label_words` fix how arguments are written and how every kind of expression is called. *The issue library that fills the texts is outside the repository: the way it prints an argument is a parameter; the syntax of placeholders is that of its use in issues.go.*
* **C60** JSON output is well-formed, faithful and complete (proved). Model: Json.lean (encoding/json for strings, integers, slices and sorted maps; `CliOut.result` and `emitJson` of parse/parser.go; codes of issues.go). Specification: Spec/Json.lean, a JSON reader that shares nothing with the encoder, and `PN.asJson`, the documented form. `ReadAs t j`: the text t is read as j whatever follows; proved for strings rune by rune, numbers, arrays and objects, then by induction on the PN. Lossless: `asJson` is injective. *encoding/json of Go's standard library is modelled for the values that ToData builds; how it prints a finite float is a parameter (any JSON number), as are the texts of the issue library. Reading the file and writing are assumed to succeed.*
* **C61** The printed AST tells the program (proved). Spec/Printed.lean defines `canon`: the tree with its positions replaced, `elsif` written as `else { if }`, left-over comma lists as arrays and a program as its body. A decoder from PN to trees (Lemmas/Decode.lean) is proved to give `canon e` back from `e.toPN` for every tree whose nodes are well formed (C43) and whose operators and keywords are those of the language (`KnownWords`, an invariant of the parser, Lemmas/Node.lean); two ASTs that are equal are decoded alike. Conversely `ToPN` of `canon e` is `ToPN` of `e` (Lemmas/Decode5.lean). For the texts (PrintedText.lean): the PN of a tree of known words, UTF-8 strings (C62) and no floats is `Neat`, node by node, hence `Clean` (C04) and `simple` (C60). *full statement; the converse is proved too (the AST depends on nothing else)*
* **C62** Strings in a result are UTF-8 (proved). Specification: Spec/Text.lean (`strings` of one node, `Utf8Tree`). A program logic for the parser monad (Lemmas/Text1.lean): `Ok x R`: from a state whose token value, definitions and names are valid, a successful run of x leads to such a state with a result in R; `Tr` also speaks of positions, with `Seg p q` (the source between p and q is a sequence of whole characters). The lexer's cuts are shown to be segments (Lemmas/Text2.lean, Text3.lean), then every production keeps `Txt` (Text4-Text6), by induction on the fuel of the recursion. *hexadecimal escapes are excluded, as the statement says; the counterexample is proved (C62_hex_escape)*
* **C63** Every other rule is reported exactly where it is broken (proved). Specification: Spec/Rules.lean, one function per code from an expression (and its container, where the rule speaks of it) to the places at which it is broken, independent of the checkers. `BrokenAt`: the issues with this code are exactly those places, over `visited e` (all contained expressions in order, C09). Proved by a small calculus (`Reports`: which nodes a check reports with a code; rules for sequence, condition and loop; Lemmas in Props/Rules.lean), one case per kind of expression. *parts of the model: regular expressions of names are automata, proved equal to their description (segments_spec); the comparison of float literals (host names) is a parameter*
* **C64** The verdict of a validator is determined by the rules (proved). Specification: `gravity` (severity of a rule) and `broken` (where the rule with a code is broken, from Spec/Rules.lean and the functions of C16-C25), both without reference to the checkers; one match over all codes, so a code without a rule would not elaborate. `C64_issues` is the equality per code, `C64_gravity` the severity, and `C64_issue_iff`, `C64_accepted_iff`, `C64_rejected_iff` follow; `C64_tool` joins it with C46. *a value of float literals (as keys, host names) is compared by a parameter assumed symmetric and transitive, as == on float64 is*

## 8. Findings about the code

Places where the unchanged code deviates from what its users would expect. Where a property is affected its statement names the
exception, and a theorem with a concrete witness (checked by the kernel) shows that it occurs.

| | finding | witness / property |
|---|---|---|
| F1 | `1-2` is one token with the value 0: `skipDecimalDigits` accepts a sign and `ParseInt` fails silently (also `$1-2`, `1.-5`) | C36_sign_swallowed |
| F2 | integers above 2^63-1 saturate silently; `1e999` becomes Inf, JSON output panics | C36 |
| F3 | an empty heredoc with `-` margin: slice bounds panic escapes `Parse` | C27_panics_occur |
| F4 | `type X = Foo {} + 1`: failed type assertion escapes `Parse` | C27_panics_occur |
| F5 | workflow: a step keyword followed by `$1`: panic escapes `Parse` | C27_panics_occur |
| F6 | reuse of a parser: token, line start and (after an error) enclosing names leak into the next `Parse` | C28_violated |
| F7 | a NUL byte ends the source silently | C34, C01_nul_stops_counting |
| F8 | a correctly encoded U+FFFD is rejected as invalid; invalid UTF-8 makes the locator panic | C01_invalid_text_panics |
| F9 | a heredoc that ends with the source: block and program reach past the end, `String()` panics | C29_violated_by_heredoc |
| F10 | lengths computed as `start - Pos()` are negative; `String()` panics; `ValidateWorkflow` panics on duplicate step properties | C24_panics_occur, C29_violated_by_workflow |
| F11 | `NewSimpleLexer` lexes the first line twice | C41_violated |
| F12, F18, F30, F39 | heredoc: lines of text that begin with `-` or `\|`, a `/` on the declaring line, `\|` at the end of the declaring line | C42_violated_* |
| F13 | `ToLiteral` and the validator panic on hash keys that are lists or hashes | C11, C24 |
| F14 | `ToPN` panics for parameter names such as `$a::b` | C07 |
| F15 | duplicate parameters of plans are not reported | C18_plan_duplicates_not_reported |
| F16 | `{'a' => 1, /a/ => 2}` is reported as duplicate key | C20_string_and_regexp_conflated |
| F17 | backtracking in resource expressions lists definitions twice | C32_definitions_listed_twice |
| F19, F37 | nodes inside of interpolation have positions of the enclosing string | C29_interpolation |
| F20 | `DoubleQuote` conflates invalid bytes | C03_invalid_bytes_are_lost |
| F21, F24, F25 | look-ahead and backtracking reset only part of the lexer state: `x [1]` as first statement of a block is an access, as a later one a list | Spec/Layout, Spec/Grammar |
| F23 | a comma list survives in a block that ends in a statement call | C45_blocks |
| F26 | `\xg` writes NUL in pspec mode | C38 |
| F27 | `-9223372036854775808` is read as -(2^63-1) | C36 |
| F28 | path slices of `DeepVisit` alias | section 2 |
| F29 | EPP without parameters: statements such as `<% $x = 1 %>` are rejected | model only |
| F31 | `@( X )` keeps blanks in the tag and never ends | model only |
| F32 | `parameters` / `returns` of a step skip a token when not followed by `(` | model only |
| F33 | `$x.a[1]` and `$x.a <\| \|>` leave a raw named access as operand | C43 |
| F34 | templates with workflow support can be accepted without reading everything | C34 |
| F35 | `- 1` as the first tokens of a block is the literal -1 | Spec/Grammar `minus` |
| F40 | blocks start at the end of their first token (even after the end of their first statement), capability mappings at the keyword after their component; case options and selector entries that begin with an interpolated string start inside of it; type definitions start at their name | C29_block_starts_after_statement, C29_mapping_starts_late, C29_entry_starts_late |
| F41 | the token after a class, plan or workflow is read before its name is dropped, so a class in an interpolated string that follows is named as if it were inside: `class a { } "${class b { }}"` declares `a::b` | C33_violated_in_string |
| F36 | `notice; 1` takes 1 as the argument | Spec/Grammar `stmtCall` |
| F42 | after an empty interpolation the parser skips white space and comments inside of the string: `"${}  text"` loses its blanks and in `"${}#text"` the closing quote is taken as a part of a comment | evaluated in Props/Interpolation |
| F43 | a `$` in a double quoted string that starts no interpolation is reported at the start of the text in front of it (after the quote or the previous interpolation), not at the `$` | `Malformed.interpolation`, C54_rejected |
| F44 | with hex escapes, `\x` that no hexadecimal digit follows is a NUL and the character that follows is lost; with one digit it is an error | `Dq.badHex`, evaluated in Props/Malformed |
| F45 | An error at an interpolated string is located inside of the string: the scanner moves the start of the token to the last part (parser/lexer.go, interpolation). | Spec/Position.lean (`StartsAt` says nothing there) |
| F46 | After a heredoc whose text ends with the source, the position of the end of the source is one character too far. | Spec/Position.lean (`AtEnd`) |
| F47 | In `file { 'x': ; 'y' }` the second title (without colon) is silently dropped: `resourceBodies` (parser/parser.go:1053) leaves its loop at `}` after it has read the title. | C55_title_is_dropped |
| F48 | With the workflow option one of the words action, resource, stateHandler, workflow used as an expression makes the parser read the current token twice: `$x = action` newline `$y = 1` has three statements; `f(action, 1)` is rejected. | C56_style_word_repeats |
| F49 | `parameters => 42` and `times 5 \|$x\|` in a step are accepted and the value is dropped; `times(5)` is rejected. | C56_dropped_parameters |
| F50 | In the state of a resource step a call loses its block, and `$1` becomes the deferred variable `$`. | C56_deferred_loses |
| F51 | A template without a tag for parameters rejects assignments, relationships, resources and `;` outside of blocks: `<% $x = 1 %>` is an error, `<% \|\| %><% $x = 1 %>` is not. | C57_no_assignment |
| F52 | Text at the beginning of a template is skipped as white space and comments of the language to decide how the first `(` is read: `/* <% foo(1) %>` is an unterminated comment. | C57_text_as_comment |
| F53 | A heredoc in a tag that ends on the same line: the text of the heredoc is rendered once more, and the next line break in a tag goes back to it. | C57_heredoc_twice |
| F54 | Text between tags is an operand: `b<%[0]%>` is an access of the text, and `<% notice %>b` passes the text to the function. Tags can be opened in tags. | C57_text_is_operand, C57_nested_tag |
| F55 | In `-1[2]` and `+1 .abs` the access and the call start at the sign, but the number itself after it; in `"a${$x.foo}"` the call starts at the text before `${`, before its functor; the property of a step starts at the end of its key. | Spec/Start.lean, examples in Props/Start.lean |
| F56 | The message of ValidateCapturesRestNotSupported asks for `%{param}`, but the argument is called `name` (validator/checker.go:669): the message never names the parameter. | C59_captures_rest_lacks_its_name |
| F57 | Lambdas, expressions in parentheses and calls of a value have no Label: messages call them "Positioned" ("This Positioned has no effect" for `(1)`). | C59_labels and examples |
| F58 | "Illegal type mapping. Expected a Type on the left side, got ..." always says "got a Type Mapping", also when it is the right side that is wrong (validator/checker.go:565-577); the container in "unacceptable as method name in ..." is not the '.' expression but what contains it (validator/checker.go:420). | `singleMapping`, `methodName` in Spec/Messages.lean, example |
| F59 | `parse -j` on a file with `1e400` ends with a Go panic (`json: unsupported value: +Inf`), while without `-j` the AST is printed (json/json.go:13-15, parser/lexer.go:977 ignores the range error). | `C60_panics_iff`, example |
| F60 | in the JSON of an AST the float `1.0` cannot be told from the integer `1` (encoding/json prints both as `1`), therefore `C60_pn_lossless` excludes floats. | `C60_pn_lossless` |
| F61 | the AST does not tell `elsif` from `else { if }`, nor a left-over comma list from an array; definitions and positions are not in it; everything else is | C61_printed_ast |
| F62 | with hexadecimal escapes enabled `"\xff"` gives a string that is not UTF-8 (a raw byte is written, lexer.go:1666-1678); without them a surrogate in an escape (`\ud800`) silently becomes U+FFFD | C62_hex_escape |

## 9. Tests of the model and of the theorems

* `lean/Verif/Conformance` (generated by tools/conformance.py from parser_test.go, checker_test.go, tasks_checker_test.go and
  workflow_checker_test.go): 296 parser and 148 validator expectations, each an example that the kernel evaluates. Six
  expectations that print floats in exponent form are left out (formatting of floats is a parameter); and the test of
  json_test.go (Conformance/Json.lean, by hand). These are tests of the
  model's fidelity only.
* `seeded/LOG.jsonl`: edits of the model as realistic bugs would change the program, with the theorems that fail then, and the
  theorems that were tightened because they did not.
* Beside the theorems, examples show that concrete cases meet the hypotheses.

## 10. Rebuilding

`cd lean && lake build`. `tools/manifest.py` regenerates MANIFEST.json (status and notes: tools/status.json), `tools/axioms.py`
AXIOMS.md, `tools/conformance.py` the conformance modules (needs /repo), `tools/design.py` this file (texts of the
properties: properties.jsonl, tools/how.json, tools/design_tail.md).
