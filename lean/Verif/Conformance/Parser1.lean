import Verif.Conformance.Base

/-! Generated by tools/conformance.py from the tests in /repo. -/
namespace PP.Conformance

/-- parser_test.go:11 -/
example : block (opts b!"") = .pn b!"(block)" := by decide +kernel

/-- parser_test.go:15 -/
example : block (opts [36, 118, 97, 114, 32, 61, 32, 34, 160, 161, 34]) = .invalidUnicode 8 := by decide +kernel

/-- parser_test.go:16 -/
example : block (opts [36, 118, 97, 114, 32, 61, 32, 50, 51, 160, 161]) = .invalidUnicode 9 := by decide +kernel

/-- parser_test.go:20 -/
example : dump (opts b!"0") = .pn b!"0" := by decide +kernel

/-- parser_test.go:21 -/
example : dump (opts b!"123") = .pn b!"123" := by decide +kernel

/-- parser_test.go:22 -/
example : dump (opts b!"+123") = .pn b!"123" := by decide +kernel

/-- parser_test.go:23 -/
example : dump (opts b!"0XABC") = .pn b!"(int {:radix 16 :value 2748})" := by decide +kernel

/-- parser_test.go:24 -/
example : dump (opts b!"0772") = .pn b!"(int {:radix 8 :value 506})" := by decide +kernel

/-- parser_test.go:25 -/
example : block (opts b!"3g") = .error .lexDigitExpected 1 2 := by decide +kernel

/-- parser_test.go:26 -/
example : block (opts b!"3ö") = .error .lexDigitExpected 1 2 := by decide +kernel

/-- parser_test.go:27 -/
example : block (opts b!"0x3g21") = .error .lexHexdigitExpected 1 4 := by decide +kernel

/-- parser_test.go:28 -/
example : block (opts b!"078") = .error .lexOctaldigitExpected 1 3 := by decide +kernel

/-- parser_test.go:32 -/
example : dump (opts b!"-123") = .pn b!"-123" := by decide +kernel

/-- parser_test.go:36 -/
example : dump (opts b!"0.123") = .pn b!"0.123" := by decide +kernel

/-- parser_test.go:37 -/
example : dump (opts b!"123.32") = .pn b!"123.32" := by decide +kernel

/-- parser_test.go:38 -/
example : dump (opts b!"+123.32") = .pn b!"123.32" := by decide +kernel

/-- parser_test.go:39 -/
example : dump (opts b!"-123.32") = .pn b!"-123.32" := by decide +kernel

/-- parser_test.go:45 -/
example : block (opts b!"123.a") = .error .lexDigitExpected 1 5 := by decide +kernel

/-- parser_test.go:46 -/
example : block (opts b!"123.4a") = .error .lexDigitExpected 1 6 := by decide +kernel

/-- parser_test.go:48 -/
example : block (opts b!"123.45ex") = .error .lexDigitExpected 1 8 := by decide +kernel

/-- parser_test.go:49 -/
example : block (opts b!"123.45e3x") = .error .lexDigitExpected 1 9 := by decide +kernel

/-- parser_test.go:53 -/
example : dump (opts b!"false") = .pn b!"false" := by decide +kernel

/-- parser_test.go:54 -/
example : dump (opts b!"true") = .pn b!"true" := by decide +kernel

/-- parser_test.go:58 -/
example : dump (opts b!"default") = .pn b!"(default)" := by decide +kernel

/-- parser_test.go:62 -/
example : dump (opts b!"undef") = .pn b!"nil" := by decide +kernel

/-- parser_test.go:66 -/
example : dump (opts b!"'undef'") = .pn b!"\"undef\"" := by decide +kernel

/-- parser_test.go:67 -/
example : dump (opts b!"'escaped single \\''") = .pn b!"\"escaped single '\"" := by decide +kernel

/-- parser_test.go:68 -/
example : dump (opts b!"'unknown escape \\k'") = .pn b!"\"unknown escape \\\\k\"" := by decide +kernel

/-- parser_test.go:72 -/
example : dump (opts b!"\"string\\nwith\\t\\\\t,\\s\\\\s, \\\\r, and \\\\n\\r\\n\"") = .pn b!"\"string\\nwith\\t\\\\t, \\\\s, \\\\r, and \\\\n\\r\\n\"" := by decide +kernel

/-- parser_test.go:76 -/
example : dump (opts b!"\"unknown \\k escape\"") = .pn b!"\"unknown \\\\k escape\"" := by decide +kernel

/-- parser_test.go:80 -/
example : dump (opts b!"\"control \\u{14}\"") = .pn b!"\"control \\o024\"" := by decide +kernel

/-- parser_test.go:84 -/
example : dump (opts b!"\"$var\"") = .pn b!"(concat (str (var \"var\")))" := by decide +kernel

/-- parser_test.go:88 -/
example : dump (opts b!"\"hello $var\"") = .pn b!"(concat \"hello \" (str (var \"var\")))" := by decide +kernel

/-- parser_test.go:92 -/
example : dump (opts b!"\"hello ${var}\"") = .pn b!"(concat \"hello \" (str (var \"var\")))" := by decide +kernel

/-- parser_test.go:96 -/
example : dump (opts b!"\"hello ${}\"") = .pn b!"(concat \"hello \" (str nil))" := by decide +kernel

/-- parser_test.go:100 -/
example : dump (opts b!"\"Before ${{ a => true, b => \"hello\"}} and after\"") = .pn b!"(concat \"Before \" (str (hash (=> (qn \"a\") true) (=> (qn \"b\") \"hello\"))) \" and after\")" := by decide +kernel

/-- parser_test.go:104 -/
example : dump (opts b!"\"x\\u{1f452}y\"") = .pn b!"\"x👒y\"" := by decide +kernel

/-- parser_test.go:106 -/
example : block (opts b!"\"$Var\"") = .error .lexMalformedInterpolation 1 2 := by decide +kernel

/-- parser_test.go:110 -/
example : block (opts b!"$x = \"y\nnotice($x)") = .error .lexUnterminatedString 1 6 := by decide +kernel

/-- parser_test.go:116 -/
example : block (opts b!"$x = \"y${var\"") = .error .lexUnterminatedString 1 13 := by decide +kernel

/-- parser_test.go:121 -/
example : dump (opts b!"\"x\\u2713y\"") = .pn b!"\"x✓y\"" := by decide +kernel

/-- parser_test.go:125 -/
example : dump (opts b!"$a = /.*/") = .pn b!"(= (var \"a\") (regexp \".*\"))" := by decide +kernel

/-- parser_test.go:129 -/
example : dump (opts b!"/pattern\\/with\\/slash/") = .pn b!"(regexp \"pattern/with/slash\")" := by decide +kernel

/-- parser_test.go:130 -/
example : dump (opts b!"/pattern\\/with\\\\\\/slash/") = .pn b!"(regexp \"pattern/with\\\\\\\\/slash\")" := by decide +kernel

/-- parser_test.go:131 -/
example : dump (opts b!"/escaped \\t/") = .pn b!"(regexp \"escaped \\\\t\")" := by decide +kernel

/-- parser_test.go:133 -/
example : dump (opts b!"/escaped #rx comment\ncontinues\n.*/") = .pn b!"(regexp \"escaped #rx comment\\ncontinues\\n.*\")" := by decide +kernel

/-- parser_test.go:140 -/
example : block (opts b!"$a = /.*") = .error .lexUnexpectedToken 1 6 := by decide +kernel

/-- parser_test.go:146 -/
example : dump (opts b!"$a = attr") = .pn b!"(= (var \"a\") (reserved \"attr\"))" := by decide +kernel

/-- parser_test.go:150 -/
example : dump (opts b!"$a = private") = .pn b!"(= (var \"a\") (reserved \"private\"))" := by decide +kernel

/-- parser_test.go:156 -/
example : heredoc (opts b!"@(END)\nEND") = .heredoc b!"" := by decide +kernel

end PP.Conformance
