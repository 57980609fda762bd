
## 8. Findings about the code

Places where the unchanged code deviates from what its users would expect. Where a property is affected its statement names the
exception, and a theorem with a concrete witness (checked by the kernel) shows that it occurs.

| | finding | witness / property |
|---|---|---|
| F1 | `1-2` is one token with the value 0: `skipDecimalDigits` accepts a sign and `ParseInt` fails silently (also `$1-2`, `1.-5`) | C36_sign_swallowed |
| F2 | integers above 2^63-1 saturate silently; `1e999` becomes Inf, JSON output panics | C36 |
| F3 | an empty heredoc with `-` margin: slice bounds panic escapes `Parse` | C27_panics_occur |
| F4 | `type X = Foo {} + 1`: failed type assertion escapes `Parse` | C27_panics_occur |
| F5 | workflow: a step keyword followed by `$1`: panic escapes `Parse` | C27_panics_occur |
| F6 | reuse of a parser: token, line start and (after an error) enclosing names leak into the next `Parse` | C28_violated |
| F7 | a NUL byte ends the source silently | C34, C01_nul_stops_counting |
| F8 | a correctly encoded U+FFFD is rejected as invalid; invalid UTF-8 makes the locator panic | C01_invalid_text_panics |
| F9 | a heredoc that ends with the source: block and program reach past the end, `String()` panics | C29_violated_by_heredoc |
| F10 | lengths computed as `start - Pos()` are negative; `String()` panics; `ValidateWorkflow` panics on duplicate step properties | C24_panics_occur, C29_violated_by_workflow |
| F11 | `NewSimpleLexer` lexes the first line twice | C41_violated |
| F12, F18, F30, F39 | heredoc: lines of text that begin with `-` or `\|`, a `/` on the declaring line, `\|` at the end of the declaring line | C42_violated_* |
| F13 | `ToLiteral` and the validator panic on hash keys that are lists or hashes | C11, C24 |
| F14 | `ToPN` panics for parameter names such as `$a::b` | C07 |
| F15 | duplicate parameters of plans are not reported | C18_plan_duplicates_not_reported |
| F16 | `{'a' => 1, /a/ => 2}` is reported as duplicate key | C20_string_and_regexp_conflated |
| F17 | backtracking in resource expressions lists definitions twice | C32_definitions_listed_twice |
| F19, F37 | nodes inside of interpolation have positions of the enclosing string | C29_interpolation |
| F20 | `DoubleQuote` conflates invalid bytes | C03_invalid_bytes_are_lost |
| F21, F24, F25 | look-ahead and backtracking reset only part of the lexer state: `x [1]` as first statement of a block is an access, as a later one a list | Spec/Layout, Spec/Grammar |
| F23 | a comma list survives in a block that ends in a statement call | C45_blocks |
| F26 | `\xg` writes NUL in pspec mode | C38 |
| F27 | `-9223372036854775808` is read as -(2^63-1) | C36 |
| F28 | path slices of `DeepVisit` alias | section 2 |
| F29 | EPP without parameters: statements such as `<% $x = 1 %>` are rejected | model only |
| F31 | `@( X )` keeps blanks in the tag and never ends | model only |
| F32 | `parameters` / `returns` of a step skip a token when not followed by `(` | model only |
| F33 | `$x.a[1]` and `$x.a <\| \|>` leave a raw named access as operand | C43 |
| F34 | templates with workflow support can be accepted without reading everything | C34 |
| F35 | `- 1` as the first tokens of a block is the literal -1 | Spec/Grammar `minus` |
| F40 | blocks start at the end of their first token (even after the end of their first statement), capability mappings at the keyword after their component; case options and selector entries that begin with an interpolated string start inside of it; type definitions start at their name | C29_block_starts_after_statement, C29_mapping_starts_late, C29_entry_starts_late |
| F41 | the token after a class, plan or workflow is read before its name is dropped, so a class in an interpolated string that follows is named as if it were inside: `class a { } "${class b { }}"` declares `a::b` | C33_violated_in_string |
| F36 | `notice; 1` takes 1 as the argument | Spec/Grammar `stmtCall` |
| F42 | after an empty interpolation the parser skips white space and comments inside of the string: `"${}  text"` loses its blanks and in `"${}#text"` the closing quote is taken as a part of a comment | evaluated in Props/Interpolation |
| F43 | a `$` in a double quoted string that starts no interpolation is reported at the start of the text in front of it (after the quote or the previous interpolation), not at the `$` | `Malformed.interpolation`, C54_rejected |
| F44 | with hex escapes, `\x` that no hexadecimal digit follows is a NUL and the character that follows is lost; with one digit it is an error | `Dq.badHex`, evaluated in Props/Malformed |
| F45 | An error at an interpolated string is located inside of the string: the scanner moves the start of the token to the last part (parser/lexer.go, interpolation). | Spec/Position.lean (`StartsAt` says nothing there) |
| F46 | After a heredoc whose text ends with the source, the position of the end of the source is one character too far. | Spec/Position.lean (`AtEnd`) |
| F47 | In `file { 'x': ; 'y' }` the second title (without colon) is silently dropped: `resourceBodies` (parser/parser.go:1053) leaves its loop at `}` after it has read the title. | C55_title_is_dropped |
| F48 | With the workflow option one of the words action, resource, stateHandler, workflow used as an expression makes the parser read the current token twice: `$x = action` newline `$y = 1` has three statements; `f(action, 1)` is rejected. | C56_style_word_repeats |
| F49 | `parameters => 42` and `times 5 \|$x\|` in a step are accepted and the value is dropped; `times(5)` is rejected. | C56_dropped_parameters |
| F50 | In the state of a resource step a call loses its block, and `$1` becomes the deferred variable `$`. | C56_deferred_loses |
| F51 | A template without a tag for parameters rejects assignments, relationships, resources and `;` outside of blocks: `<% $x = 1 %>` is an error, `<% \|\| %><% $x = 1 %>` is not. | C57_no_assignment |
| F52 | Text at the beginning of a template is skipped as white space and comments of the language to decide how the first `(` is read: `/* <% foo(1) %>` is an unterminated comment. | C57_text_as_comment |
| F53 | A heredoc in a tag that ends on the same line: the text of the heredoc is rendered once more, and the next line break in a tag goes back to it. | C57_heredoc_twice |
| F54 | Text between tags is an operand: `b<%[0]%>` is an access of the text, and `<% notice %>b` passes the text to the function. Tags can be opened in tags. | C57_text_is_operand, C57_nested_tag |
| F55 | In `-1[2]` and `+1 .abs` the access and the call start at the sign, but the number itself after it; in `"a${$x.foo}"` the call starts at the text before `${`, before its functor; the property of a step starts at the end of its key. | Spec/Start.lean, examples in Props/Start.lean |
| F56 | The message of ValidateCapturesRestNotSupported asks for `%{param}`, but the argument is called `name` (validator/checker.go:669): the message never names the parameter. | C59_captures_rest_lacks_its_name |
| F57 | Lambdas, expressions in parentheses and calls of a value have no Label: messages call them "Positioned" ("This Positioned has no effect" for `(1)`). | C59_labels and examples |
| F58 | "Illegal type mapping. Expected a Type on the left side, got ..." always says "got a Type Mapping", also when it is the right side that is wrong (validator/checker.go:565-577); the container in "unacceptable as method name in ..." is not the '.' expression but what contains it (validator/checker.go:420). | `singleMapping`, `methodName` in Spec/Messages.lean, example |
| F59 | `parse -j` on a file with `1e400` ends with a Go panic (`json: unsupported value: +Inf`), while without `-j` the AST is printed (json/json.go:13-15, parser/lexer.go:977 ignores the range error). | `C60_panics_iff`, example |
| F60 | in the JSON of an AST the float `1.0` cannot be told from the integer `1` (encoding/json prints both as `1`), therefore `C60_pn_lossless` excludes floats. | `C60_pn_lossless` |
| F61 | the AST does not tell `elsif` from `else { if }`, nor a left-over comma list from an array; definitions and positions are not in it; everything else is | C61_printed_ast |
| F62 | with hexadecimal escapes enabled `"\xff"` gives a string that is not UTF-8 (a raw byte is written, lexer.go:1666-1678); without them a surrogate in an escape (`\ud800`) silently becomes U+FFFD | C62_hex_escape |

## 9. Tests of the model and of the theorems

* `lean/Verif/Conformance` (generated by tools/conformance.py from parser_test.go, checker_test.go, tasks_checker_test.go and
  workflow_checker_test.go): 296 parser and 148 validator expectations, each an example that the kernel evaluates. Six
  expectations that print floats in exponent form are left out (formatting of floats is a parameter); and the test of
  json_test.go (Conformance/Json.lean, by hand). These are tests of the
  model's fidelity only.
* `seeded/LOG.jsonl`: edits of the model as realistic bugs would change the program, with the theorems that fail then, and the
  theorems that were tightened because they did not.
* Beside the theorems, examples show that concrete cases meet the hypotheses.

## 10. Rebuilding

`cd lean && lake build`. `tools/manifest.py` regenerates MANIFEST.json (status and notes: tools/status.json), `tools/axioms.py`
AXIOMS.md, `tools/conformance.py` the conformance modules (needs /repo), `tools/design.py` this file (texts of the
properties: properties.jsonl, tools/how.json, tools/design_tail.md).
