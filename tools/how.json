{
 "C01": "`Locator` model; induction over the characters of the text, against counting newlines and runes directly.",
 "C02": "from C01's exact characterisation, strict order on (line, column).",
 "C03": "explicit inverse of `DoubleQuote` on valid UTF-8; shape by induction.",
 "C04": "a reader for PN text, proved to be a left inverse of `Format` with any rest of input.",
 "C05": "explicit inverse of `ToData`, shape predicate.",
 "C06": "equations, for every PN.",
 "C07": "`ToPN` in `Except`; induction over the tree; well-formedness of parse results from C43.",
 "C08": "C07 + exactness of the illegal-parameter-name reports.",
 "C09": "the visitor as a list of calls; specification = enumeration by addresses (paths of child numbers).",
 "C10": "as C09.",
 "C11": "inductive predicate 'literal'; both directions; the panic exactly characterised.",
 "C12": "table of severities against every `Accept` call.",
 "C13": "list homomorphism over the log.",
 "C14": "reset of state by `Validate`.",
 "C15": "invariant of the log: every place is a subexpression.",
 "C16": "log filtered by code = list of catalog nodes.",
 "C17": "as C16.",
 "C18": "log filtered by code = list of later duplicates, in order.",
 "C19": "as C18.",
 "C20": "as C18.",
 "C23": "as C18.",
 "C25": "as C18; targets of nested lists specified separately.",
 "C21": "places of reports exact; a statement is reported iff nothing evaluated as a statement in it has an effect (two inductions over trees).",
 "C22": "placement relation over the path of containers.",
 "C24": "case analysis of every panic site over well-formed trees.",
 "C26": "measure on (position, pending line, rest of text); induction on it dominates fuel.",
 "C27": "every other crash site is excluded by the state invariant; witnesses by kernel evaluation.",
 "C28": "reading depends on the state only through fields that a successful parse leaves fixed.",
 "C29": "a second invariant of the recursion (Lemmas/Range1-13: every function says between which bytes the node it returns lies, given where the current token starts) proved by induction over the recursion depth; the claims are read off a predicate on trees.",
 "C30": "invariant on error positions.",
 "C31": "local grammar of results with the options as parameter.",
 "C32": "definitions registered at the place where the node is built.",
 "C33": "invariant of all recursive functions (Lemmas/Qual*.lean): results satisfy Named for the stack of names, which every function restores; induction on recursion depth.",
 "C34": "last token is the end, position at the end or at NUL.",
 "C35": "printer with parentheses, C51.",
 "C36": "`ex` runs of number lexing, digits by induction.",
 "C37": "induction over the string's characters.",
 "C38": "as C37 with escapes.",
 "C39": "induction over the segments of the template.",
 "C40": "induction over `White`.",
 "C41": "simulation between the simple lexer and the lexer.",
 "C42": "specification of heredoc lines, margins, escapes and, for heredocs with interpolation, parts; induction over lines and over the derivation of the parts.",
 "C43": "local grammar `Node` of every production's result.",
 "C44": "list induction against gathering of longest runs; no pair left by C43.",
 "C45": "list induction against the declarative statement specification.",
 "C46": "case analysis of the tool's decisions.",
 "C47": "measure of C26 for single tokens.",
 "C48": "word grammar; induction over segments.",
 "C49": "case analysis and lower-casing.",
 "C50": "positions in the local grammar.",
 "C51": "grammar soundness (Gram*), layout soundness (Layout*), put together in Props/Grammar.",
 "C52": "C51 twice.",
 "C53": "C51 for one string token; the mutual induction over Layout and Parts (Lemmas/Layout4, Lemmas/Interp) runs the whole expression parser inside of the lexer, with the `}` as the end of the token stream (class Ending).",
 "C54": "`Spec/Malformed.lean` lists the malformed texts inductively, each with its code and the byte offset of the error.  `C54_rejected`: reading a token from such a text, in any state, is this error; `C54_accepted` and `C54_only`: if the text is not one of those, a token is read, and an error is always one that is listed with the code and location listed (by splitting every text: numbers, names, strings, comments); `C54_every_text`: the division into white space and the rest always exists; `C54_source`: the outcome of Parse; `C54_character_classes` pins the character classes.  `C54_heredoc` and `C54_heredoc_source` are the same for heredocs: `Spec/HeredocErrors.lean` lists the malformed ones (beginnings of declarations are described by `DeclPart`, complete ones and lines of text as in C42).  `C54_heredoc_text` and `C54_heredoc_text_source`: heredocs in whose text an escape or a `$` has no meaning (`Spec/HeredocBad.lean`: `Reaches` follows the cases of `Means` up to the place; induction over it in Lemmas/HeredocBad.lean).",
 "C55": "Spec/Errors.lean is a calculus of wrong beginnings: `Wrong` (the place: tokens of the phrase read so far, error, position), `Bad` (the context around it, one rule per construct and argument position). Lemmas/Err1-Err5: one lemma per rule about the parser (what it does with the good phrases before the place comes from the C51 lemmas, now generic in the outcome and with token positions); Lemmas/Err6: induction over `Bad`. Props/SyntaxErrors.lean: `Parse`. Positions are stated with `StartsAt`/`EndsBefore` of Spec/Position.lean.",
 "C56": "rules for steps in Spec/Grammar.lean (token `.style`), Lemmas/Gram8b.lean: one lemma per rule, Gram9: the induction; Props/Workflow.lean.",
 "C57": "The stream of tokens from C51 is extended with the texts between tags (`Tags`, `Layout.text`): after every token the lexer, in the state it is really in, gives the next token of the stream (`tags_ready`, mutual induction with `layout_ready`). `template_start` is the same for the text at the beginning of the template. The grammar of statements and expressions is then used as it is (G_reads); the part of the parser that is only used for templates (parameters; loop over expressions; statement calls) is Lemmas/Template.lean.",
 "C58": "Specification: Spec/Start.lean (`Starts`: for every constructor the text that is read at the node's offset, or the part it starts with). The invariant of the parser proof (Lemmas/Inv.lean) gets the field `sp`: the source spells the current token at the token's start; it is kept by the lexer (LexChars, LexSelf, LexTok) and by every production (Parse1-Parse9). The nodes' inductive predicate `Node` carries `Starts` as a premise of each constructor, so every place of the parser that builds a node has to prove it; `Tree.sub` extends it to all subexpressions.",
 "C59": "Model: Message.lean (texts and formatters of issues.go, labels of label.go, the keys a text asks for) and the arguments that each call of Accept passes (Validator.lean, `Issue.args`). Specification: Spec/Messages.lean (`Describes`: one clause per code, or per cause). Each check is shown to report only issues that satisfy it (Lemmas/Messages.lean); for the container of attributes and '.' expressions the traversal lemma `visited_ok` gives the parent. The keys are compared per clause by evaluation of the text, then `C59_complete` follows by induction on the pieces of the text. `C59_formats` and `C59_label_words` fix how arguments are written and how every kind of expression is called.",
 "C60": "Model: Json.lean (encoding/json for strings, integers, slices and sorted maps; `CliOut.result` and `emitJson` of parse/parser.go; codes of issues.go). Specification: Spec/Json.lean, a JSON reader that shares nothing with the encoder, and `PN.asJson`, the documented form. `ReadAs t j`: the text t is read as j whatever follows; proved for strings rune by rune, numbers, arrays and objects, then by induction on the PN. Lossless: `asJson` is injective.",
 "C61": "Spec/Printed.lean defines `canon`: the tree with its positions replaced, `elsif` written as `else { if }`, left-over comma lists as arrays and a program as its body. A decoder from PN to trees (Lemmas/Decode.lean) is proved to give `canon e` back from `e.toPN` for every tree whose nodes are well formed (C43) and whose operators and keywords are those of the language (`KnownWords`, an invariant of the parser, Lemmas/Node.lean); two ASTs that are equal are decoded alike. Conversely `ToPN` of `canon e` is `ToPN` of `e` (Lemmas/Decode5.lean). For the texts (PrintedText.lean): the PN of a tree of known words, UTF-8 strings (C62) and no floats is `Neat`, node by node, hence `Clean` (C04) and `simple` (C60).",
 "C62": "Specification: Spec/Text.lean (`strings` of one node, `Utf8Tree`). A program logic for the parser monad (Lemmas/Text1.lean): `Ok x R`: from a state whose token value, definitions and names are valid, a successful run of x leads to such a state with a result in R; `Tr` also speaks of positions, with `Seg p q` (the source between p and q is a sequence of whole characters). The lexer's cuts are shown to be segments (Lemmas/Text2.lean, Text3.lean), then every production keeps `Txt` (Text4-Text6), by induction on the fuel of the recursion.",
 "C63": "Specification: Spec/Rules.lean, one function per code from an expression (and its container, where the rule speaks of it) to the places at which it is broken, independent of the checkers. `BrokenAt`: the issues with this code are exactly those places, over `visited e` (all contained expressions in order, C09). Proved by a small calculus (`Reports`: which nodes a check reports with a code; rules for sequence, condition and loop; Lemmas in Props/Rules.lean), one case per kind of expression.",
 "C64": "Specification: `gravity` (severity of a rule) and `broken` (where the rule with a code is broken, from Spec/Rules.lean and the functions of C16-C25), both without reference to the checkers; one match over all codes, so a code without a rule would not elaborate. `C64_issues` is the equality per code, `C64_gravity` the severity, and `C64_issue_iff`, `C64_accepted_iff`, `C64_rejected_iff` follow; `C64_tool` joins it with C46."
}