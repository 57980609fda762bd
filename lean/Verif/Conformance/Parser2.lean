import Verif.Conformance.Base

/-! Generated by tools/conformance.py from the tests in /repo. -/
namespace PP.Conformance

/-- parser_test.go:161 -/
example : heredoc (opts b!"@(END)\nThis is\nheredoc text\nEND") = .heredoc b!"This is\nheredoc text\n" := by decide +kernel

/-- parser_test.go:168 -/
example : block (opts b!"@(END)\nThis is\nheredoc text") = .error .lexHeredocUnterminated 1 1 := by decide +kernel

/-- parser_test.go:174 -/
example : dump (opts b!"{ a => @(ONE), b => @(TWO) }\nThe first\nheredoc text\n-ONE\nThe second\nheredoc text\n-TWO") = .pn b!"(hash (=> (qn \"a\") (heredoc {:text \"The first\\nheredoc text\"})) (=> (qn \"b\") (heredoc {:text \"The second\\nheredoc text\"})))" := by decide +kernel

/-- parser_test.go:185 -/
example : dump (opts b!"['first', @(SECOND), 'third', @(FOURTH), 'fifth',\n  This is the text of the\n  second entry\n  |-SECOND\n  And here is the text of the\n  fourth entry\n  |-FOURTH\n  'sixth']") = .pn b!"(array \"first\" (heredoc {:text \"This is the text of the\\nsecond entry\"}) \"third\" (heredoc {:text \"And here is the text of the\\nfourth entry\"}) \"fifth\" \"sixth\")" := by decide +kernel

/-- parser_test.go:197 -/
example : block (opts b!"@(END\n/t)\nThis\\nis\\nheredoc\\ntext\n-END") = .error .lexHeredocDeclUnterminated 1 1 := by decide +kernel

/-- parser_test.go:205 -/
example : block (opts b!"@(END)\nThis\\nis\\nheredoc\\ntext\n\n") = .error .lexHeredocUnterminated 1 1 := by decide +kernel

/-- parser_test.go:213 -/
example : block (opts b!"@(END)") = .error .lexHeredocUnterminated 1 1 := by decide +kernel

/-- parser_test.go:220 -/
example : dump (opts b!"@(END:syntax)\nThis is\nheredoc text\nEND") = .pn b!"(heredoc {:syntax \"syntax\" :text \"This is\\nheredoc text\\n\"})" := by decide +kernel

/-- parser_test.go:227 -/
example : block (opts b!"@(END:json:yaml)\nThis is\nheredoc text") = .error .lexHeredocMultipleSyntax 1 11 := by decide +kernel

/-- parser_test.go:235 -/
example : heredoc (opts b!"@(END/t)\nThis\\tis\\t\nheredoc text\n-END") = .heredoc b!"This\tis\t\nheredoc text" := by decide +kernel

/-- parser_test.go:243 -/
example : heredoc (opts b!"@(END/s)\nThis\\sis\\sheredoc\\stext\n-END") = .heredoc b!"This is heredoc text" := by decide +kernel

/-- parser_test.go:250 -/
example : heredoc (opts b!"@(END/r)\nThis\\ris\\rheredoc\\rtext\n-END") = .heredoc b!"This\ris\rheredoc\rtext" := by decide +kernel

/-- parser_test.go:257 -/
example : heredoc (opts b!"@(END/n)\nThis\\nis\\nheredoc\\ntext\n-END") = .heredoc b!"This\nis\nheredoc\ntext" := by decide +kernel

/-- parser_test.go:264 -/
example : heredoc (opts b!"@(END:syntax/n)\nThis\\nis\\nheredoc\\ntext\n-END") = .heredoc b!"This\nis\nheredoc\ntext" := by decide +kernel

/-- parser_test.go:271 -/
example : block (opts b!"@(END/k)\nThis\\nis\\nheredoc\\ntext\n-END") = .error .lexHeredocIllegalEscape 1 7 := by decide +kernel

/-- parser_test.go:278 -/
example : block (opts b!"@(END/t/s)\nThis\\nis\\nheredoc\\ntext\n-END") = .error .lexHeredocMultipleEscape 1 8 := by decide +kernel

/-- parser_test.go:287 -/
example : heredoc (opts b!"@(END)\r\nThis is\r\nheredoc text\r\n-END") = .heredoc b!"This is\r\nheredoc text" := by decide +kernel

/-- parser_test.go:293 -/
example : heredoc (opts b!"@(END/t)\n  This\\tis\n  heredoc text\n  | END\n") = .heredoc b!"This\tis\nheredoc text\n" := by decide +kernel

/-- parser_test.go:302 -/
example : heredoc (opts b!"@(END)\n  | END\n") = .heredoc b!"" := by decide +kernel

/-- parser_test.go:310 -/
example : heredoc (opts b!"@(END/t)\n  This\\tis\n heredoc text\n  | END\n") = .heredoc b!"This\tis\n heredoc text\n" := by decide +kernel

/-- parser_test.go:321 -/
example : heredoc (opts b!"@(END/t)\n  This\\tis\n  heredoc text\n  |- END") = .heredoc b!"This\tis\nheredoc text" := by decide +kernel

/-- parser_test.go:329 -/
example : heredoc (opts b!"@(END)\n  |-END\n") = .heredoc b!"" := by decide +kernel

/-- parser_test.go:338 -/
example : heredoc (opts b!"@(\"END\")\n  This is\n  heredoc $text\n  |- END") = .heredoc b!"(heredoc {:text (concat \"This is\\nheredoc \" (str (var \"text\")))})" := by decide +kernel

/-- parser_test.go:346 -/
example : heredoc (opts b!"@(\"END\")\n  This is\n  heredoc $a \\$b\n  |- END") = .heredoc b!"(heredoc {:text (concat \"This is\\nheredoc \" (str (var \"a\")) \" \\\\\" (str (var \"b\")))})" := by decide +kernel

/-- parser_test.go:354 -/
example : heredoc (opts b!"@(\"END\"/$)\n  This is\n  heredoc $a \\$b\n  |- END") = .heredoc b!"(heredoc {:text (concat \"This is\\nheredoc \" (str (var \"a\")) \" $b\")})" := by decide +kernel

/-- parser_test.go:362 -/
example : heredoc (opts b!"@(END)\n  This is\n  heredoc $text\n  |- END") = .heredoc b!"This is\nheredoc $text" := by decide +kernel

/-- parser_test.go:372 -/
example : block (opts b!"@(\"END\"\"MORE\")\n  This is\n  heredoc $text\n  |- END") = .error .lexHeredocMultipleTag 1 8 := by decide +kernel

/-- parser_test.go:380 -/
example : block (opts b!"@(\"END\n\")\n  This is\n  heredoc $text\n  |- END") = .error .lexHeredocDeclUnterminated 1 1 := by decide +kernel

/-- parser_test.go:389 -/
example : block (opts b!"@(\"\")\n  This is\n  heredoc $text\n  |-") = .error .lexHeredocEmptyTag 1 1 := by decide +kernel

/-- parser_test.go:397 -/
example : block (opts b!"@()\n  This is\n  heredoc $text\n  |-") = .error .lexHeredocEmptyTag 1 1 := by decide +kernel

/-- parser_test.go:407 -/
example : heredoc (opts b!"@(END/L)\n  Do not break \\\n  this line\n  |- END") = .heredoc b!"Do not break this line" := by decide +kernel

/-- parser_test.go:416 -/
example : heredoc (opts b!"@(END/L)\n  Do not break \\\n  this line\\\n  |- END") = .heredoc b!"Do not break this line\\" := by decide +kernel

/-- parser_test.go:425 -/
example : heredoc (opts b!"@(END/t)\n  Do break \\\n  this line\n  |- END") = .heredoc b!"Do break \\\nthis line" := by decide +kernel

/-- parser_test.go:435 -/
example : heredoc (opts b!"@(END/u)\n  A checkmark \\u2713 symbol\n  |- END") = .heredoc b!"A checkmark ✓ symbol" := by decide +kernel

/-- parser_test.go:445 -/
example : heredoc (opts b!"@(END/u)\n  A hat \\u{1f452} symbol\n  |- END") = .heredoc b!"A hat 👒 symbol" := by decide +kernel

/-- parser_test.go:453 -/
example : heredoc (opts b!"@(END/u)\n  A checkmark \\u2713 symbol\n  |- END") = .heredoc b!"A checkmark ✓ symbol" := by decide +kernel

/-- parser_test.go:461 -/
example : block (opts b!"@(END/u)\n  A hat \\u{1f452 symbol\n  |- END") = .error .lexMalformedUnicodeEscape 2 9 := by decide +kernel

/-- parser_test.go:468 -/
example : block (opts b!"@(END/u)\n  A hat \\u{1f45234} symbol\n  |- END") = .error .lexMalformedUnicodeEscape 2 9 := by decide +kernel

/-- parser_test.go:475 -/
example : block (opts b!"@(END/u)\n  A hat \\u{1} symbol\n  |- END") = .error .lexMalformedUnicodeEscape 2 9 := by decide +kernel

/-- parser_test.go:482 -/
example : block (opts b!"@(END/u)\n  A checkmark \\u271 symbol\n  |- END") = .error .lexMalformedUnicodeEscape 2 15 := by decide +kernel

/-- parser_test.go:489 -/
example : block (opts b!"@(END/u)\n  A checkmark \\ux271 symbol\n  |- END") = .error .lexMalformedUnicodeEscape 2 15 := by decide +kernel

/-- parser_test.go:498 -/
example : heredoc (opts b!"@(END) /* comment after tag */\nThis is\nheredoc text\nEND") = .heredoc b!"This is\nheredoc text\n" := by decide +kernel

/-- parser_test.go:507 -/
example : heredoc (opts b!"@(END) # comment after tag\nThis is\nheredoc text\nEND") = .heredoc b!"This is\nheredoc text\n" := by decide +kernel

/-- parser_test.go:516 -/
example : dump (opts b!"$var") = .pn b!"(var \"var\")" := by decide +kernel

/-- parser_test.go:520 -/
example : dump (opts b!"$var::b") = .pn b!"(var \"var::b\")" := by decide +kernel

/-- parser_test.go:524 -/
example : dump (opts b!"$::var::b") = .pn b!"(var \"::var::b\")" := by decide +kernel

/-- parser_test.go:528 -/
example : dump (opts b!"$::var::_b") = .pn b!"(var \"::var::_b\")" := by decide +kernel

/-- parser_test.go:532 -/
example : dump (opts b!"$2") = .pn b!"(var 2)" := by decide +kernel

/-- parser_test.go:536 -/
example : dump (opts b!"$") = .pn b!"(var \"\")" := by decide +kernel

/-- parser_test.go:540 -/
example : block (opts b!"$var:b") = .error .lexUnexpectedToken 1 5 := by decide +kernel

end PP.Conformance
