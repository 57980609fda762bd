{
 "C01": [
  "proved",
  "For text of valid UTF-8 without NUL; invalid text panics and NUL stops the count (both proved)."
 ],
 "C02": [
  "proved",
  "Strict lexicographic monotonicity of (line, column) on character offsets."
 ],
 "C03": [
  "proved",
  "For valid UTF-8; loss of information on invalid bytes is proved by a witness."
 ],
 "C04": [
  "proved",
  "Floats excluded (their formatting is a parameter); call names and keys without delimiters, the need for which is proved by a witness."
 ],
 "C05": [
  "proved",
  ""
 ],
 "C06": [
  "proved",
  ""
 ],
 "C09": [
  "proved",
  ""
 ],
 "C10": [
  "proved",
  ""
 ],
 "C11": [
  "proved",
  "Float key equality is a parameter (symmetric and transitive)."
 ],
 "C12": [
  "proved",
  ""
 ],
 "C13": [
  "proved",
  ""
 ],
 "C14": [
  "proved",
  ""
 ],
 "C15": [
  "proved",
  ""
 ],
 "C16": [
  "proved",
  ""
 ],
 "C17": [
  "proved",
  ""
 ],
 "C18": [
  "proved",
  "Exact list of reported parameters for every checker; plans and lambdas are proved to be skipped."
 ],
 "C19": [
  "proved",
  ""
 ],
 "C20": [
  "proved",
  "Literal keys compared as the code does (F16: a regexp and a string of the same text are conflated, proved)."
 ],
 "C23": [
  "proved",
  ""
 ],
 "C25": [
  "proved",
  ""
 ],
 "C07": [
  "proved",
  "For every tree (C07_toPN_ok_iff) and for every parse result (C07_parsed_toPN)."
 ],
 "C08": [
  "proved",
  "C08_validated_program_renders: for every parse result; C08_accepted_names_render for every tree."
 ],
 "C21": [
  "proved",
  "Exact places of the reports; a statement is reported iff nothing evaluated as a statement or test in it has an effect. The unrestricted claim is false, shown by a witness."
 ],
 "C22": [
  "proved",
  ""
 ],
 "C46": [
  "proved",
  "the JSON output is the subject of C60; panics are listed separately in the model"
 ],
 "C49": [
  "proved",
  ""
 ],
 "C26": [
  "proved",
  "For every source, options and previous state of the parser."
 ],
 "C27": [
  "proved",
  "The English property is false at exactly three places: proved that no other panic exists and that each of the three occurs."
 ],
 "C30": [
  "proved",
  "For every previous state of the parser."
 ],
 "C31": [
  "proved",
  "For the program and for its definitions."
 ],
 "C32": [
  "proved",
  "The activities of workflow steps are the one exception; the converse is refuted by a witness."
 ],
 "C33": [
  "proved",
  "Names of the whole tree and of the listed definitions (Spec/Names.lean), with the exception for interpolated strings shown by a witness."
 ],
 "C34": [
  "proved",
  "Exceptions: NUL byte, templates parsed with workflow support (both with witnesses)."
 ],
 "C43": [
  "proved",
  "Complete local grammar of the tree."
 ],
 "C24": [
  "proved",
  "Panics only for the two kinds of hash keys named, both of which occur; the first always panics."
 ],
 "C36": [
  "proved",
  "Token level for any context, Parse level for a literal alone, exception proved in general and by witnesses. Floats keep their text; strconv.ParseFloat is not modelled."
 ],
 "C37": [
  "proved",
  "Token level for any context, Parse level for a literal alone, round trip for every text."
 ],
 "C38": [
  "proved",
  "Token level for any context, Parse level for a literal alone, round trip for every text."
 ],
 "C40": [
  "proved",
  "For lexers without a pending heredoc."
 ],
 "C48": [
  "proved",
  "For every word of the grammar, in any context."
 ],
 "C35": [
  "proved",
  "Spec/Operators.lean gives the written forms; leaves are literals, names, variables"
 ],
 "C51": [
  "proved",
  "language and its layout are specified in Spec/Grammar.lean, Spec/Lexemes.lean and Spec/Layout.lean. Not in that language: EPP templates, workflow mode, interpolated heredocs, empty interpolations `${}`, an expression in a string whose meaning depends on the enclosing class, a call without parentheses whose argument starts with a brace"
 ],
 "C52": [
  "proved",
  "for the language of C51"
 ],
 "C28": [
  "proved",
  "positive part for the grammar of C51; C28_violated shows the unrestricted claim to be false"
 ],
 "C44": [
  "proved",
  "on the function for every list; API level: no pair is left (C44_no_pair), C51 for whole sources"
 ],
 "C45": [
  "proved",
  "for every list of expressions; C45_blocks for every block of every parse result"
 ],
 "C47": [
  "proved",
  ""
 ],
 "C50": [
  "proved",
  ""
 ],
 "C39": [
  "proved",
  "consumeEPP for all texts of the specification Rendered; comments whose text contains '%' are not in the specification"
 ],
 "C42": [
  "proved",
  "C42_heredoc (one token, at every point of every source), C42_verbatim (text means itself without quotes, flags, margin); programs with heredocs are layouts (Spec/Layout.lean), so C51_programs covers them. C42_violated_*: concrete sources where the unchanged code deviates outside of the stated conditions. C42_interpolated: a heredoc with interpolation as the first token of a source is one token whose value lists the parts of its text (Spec/HeredocText.lean); C42_interpolated_programs: a program that begins with such a heredoc, alone on its line, means what the grammar says; heredocs with interpolation further on in a source are not covered by this theorem."
 ],
 "C41": [
  "proved",
  "C41_one_line, C41_first_line: positive part; C41_violated: the restart at offset 0, for every source"
 ],
 "C29": [
  "proved",
  "ranges outside of the stated limits are shown to be wrong by evaluated witnesses"
 ],
 "C53": [
  "proved",
  "EPP and workflow mode excluded; `${}` is finding F42"
 ],
 "C54": [
  "proved",
  "Errors inside interpolations and EPP are outside this property; for heredocs that nothing else is an error is not part of it, and the text in front of a malformed escape or `$` in a heredoc contains no interpolation; the letter class of unicode.IsLetter beyond ASCII is a parameter."
 ],
 "C55": [
  "proved",
  "Rules for files without EPP and workflow keywords. Positions of parseResourceWithoutTitle, parseInvalidResource and parseExpectedTitle are not specified. Not every rejected text is covered (no completeness of the rules is claimed)."
 ],
 "C56": [
  "proved",
  "All rules for steps are part of the grammar G of C51, which holds for both values of the option; C52, C53 and C55 too."
 ],
 "C57": [
  "proved",
  "Grammar in Spec/Template.lean on top of Spec/Grammar.lean and Spec/Layout.lean. Not included: texts at the beginning that look like an unfinished comment or white space before '(', heredocs together with a header that looks like comments over several lines, heredocs whose tag is closed on the declaring line (their text is rendered twice: C57_heredoc_twice)."
 ],
 "C58": [
  "proved",
  "Exceptions are listed in Spec/Start.lean; blocks, hashes, arrays, case options, selector entries, parameters and capability mappings have no claim there (F40; C32/C50 bound them)."
 ],
 "C59": [
  "proved",
  "The issue library that fills the texts is outside the repository: the way it prints an argument is a parameter; the syntax of placeholders is that of its use in issues.go."
 ],
 "C60": [
  "proved",
  "encoding/json of Go's standard library is modelled for the values that ToData builds; how it prints a finite float is a parameter (any JSON number), as are the texts of the issue library. Reading the file and writing are assumed to succeed."
 ],
 "C61": [
  "proved",
  "full statement; the converse is proved too (the AST depends on nothing else)"
 ],
 "C62": [
  "proved",
  "hexadecimal escapes are excluded, as the statement says; the counterexample is proved (C62_hex_escape)"
 ],
 "C63": [
  "proved",
  "parts of the model: regular expressions of names are automata, proved equal to their description (segments_spec); the comparison of float literals (host names) is a parameter"
 ],
 "C64": [
  "proved",
  "a value of float literals (as keys, host names) is compared by a parameter assumed symmetric and transitive, as == on float64 is"
 ]
}