import Verif.Conformance.Base

/-! Generated by tools/conformance.py from the tests in /repo. -/
namespace PP.Conformance

/-- checker_test.go:14 -/
example : reports (opts b!"$x = 'y'") .puppet [] = true := by decide +kernel

/-- checker_test.go:18 -/
example : reports (opts b!"$1 = 'y'") .puppet [.illegalNumericAssignment] = true := by decide +kernel

/-- checker_test.go:22 -/
example : reports (opts b!"[$a, $b] = 'y'") .puppet [] = true := by decide +kernel

/-- checker_test.go:23 -/
example : reports (opts b!"[$a, $1] = 'y'") .puppet [.illegalNumericAssignment] = true := by decide +kernel

/-- checker_test.go:24 -/
example : reports (opts b!"[$a, $b['h']] = 'y'") .puppet [.illegalAssignmentViaIndex] = true := by decide +kernel

/-- checker_test.go:25 -/
example : reports (opts b!"[$a, $b::z] = 'y'") .puppet [.crossScopeAssignment] = true := by decide +kernel

/-- checker_test.go:29 -/
example : reports (opts b!"$x['h'] = 'y'") .puppet [.illegalAssignmentViaIndex] = true := by decide +kernel

/-- checker_test.go:30 -/
example : reports (opts b!"$::x = 'y'") .puppet [.crossScopeAssignment] = true := by decide +kernel

/-- checker_test.go:34 -/
example : reports (opts b!"$x += 'y'") .puppet [.appendsDeletesNoLongerSupported] = true := by decide +kernel

/-- checker_test.go:35 -/
example : reports (opts b!"$x -= 'y'") .puppet [.appendsDeletesNoLongerSupported] = true := by decide +kernel

/-- checker_test.go:39 -/
example : reports (opts b!"$x::z = 'y'") .puppet [.crossScopeAssignment] = true := by decide +kernel

/-- checker_test.go:43 -/
example : reports (opts b!"Service[apache] { require +> File['apache.pem'] }") .puppet [] = true := by decide +kernel

/-- checker_test.go:45 -/
example : reports (opts b!"service { apache: require +> File['apache.pem'] }") .puppet [.illegalAttributeAppend] = true := by decide +kernel

/-- checker_test.go:49 -/
example : reports (opts b!"\n      file { '/tmp/foo':\n        ensure => file,\n        * => $file_ownership\n      }") .puppet [] = true := by decide +kernel

/-- checker_test.go:55 -/
example : reports (opts b!"File <| mode == '0644' |> {\n  * => $file_ownership\n}") .puppet [.unsupportedOperatorInContext] = true := by decide +kernel

/-- checker_test.go:62 -/
example : reports (opts b!"File {\n  ensure => file,\n  * => $file_ownership\n}") .puppet [.unsupportedOperatorInContext] = true := by decide +kernel

/-- checker_test.go:70 -/
example : reports (opts b!"File['/tmp/foo'] {\n  ensure => file,\n  * => $file_ownership\n}") .puppet [.unsupportedOperatorInContext] = true := by decide +kernel

/-- checker_test.go:78 -/
example : reports (opts b!"file { '/tmp/foo':\n  ensure => file,\n  * => function foo() {}\n}") .puppet [.notTopLevel, .notRvalue] = true := by decide +kernel

/-- checker_test.go:88 -/
example : reports (opts b!"include apache\n") .puppet [] = true := by decide +kernel

/-- checker_test.go:93 -/
example : reports (opts b!"$x = String(123, 16)\n") .puppet [] = true := by decide +kernel

/-- checker_test.go:98 -/
example : reports (opts b!"$x = Enum['a', 'b']('a')\n") .puppet [] = true := by decide +kernel

/-- checker_test.go:103 -/
example : reports (opts b!"$x = enum['a', 'b']('a')\n") .puppet [.illegalExpression] = true := by decide +kernel

/-- checker_test.go:111 -/
example : reports (opts b!"notice(define foo() {} < 3)") .puppet [.notTopLevel, .notRvalue] = true := by decide +kernel

/-- checker_test.go:112 -/
example : reports (opts b!"notice(true == !false)") .puppet [] = true := by decide +kernel

/-- checker_test.go:116 -/
example : reports (opts b!"['a', 'b']\n$x = 3\n") .puppet [.idemExpressionNotLast] = true := by decide +kernel

/-- checker_test.go:123 -/
example : reports (opts b!"case $z {\n2: { true }\n3: { false }\ndefault: { false }\n}\n$x = 3\n") .puppet [.idemExpressionNotLast] = true := by decide +kernel

/-- checker_test.go:134 -/
example : reports (opts b!"case $z {\n2: { true }\n3: { false }\ndefault: { $v = 1 }\n}\n$x = 3\n") .puppet [] = true := by decide +kernel

/-- checker_test.go:144 -/
example : reports (opts b!"case ($z = 2) {\n2: { true }\n3: { false }\ndefault: { false }\n}\n$x = 3\n") .puppet [] = true := by decide +kernel

/-- checker_test.go:154 -/
example : reports (opts b!"case $z {\n($y = 2): { true }\n3: { false }\ndefault: { false }\n}\n$x = 3\n") .puppet [] = true := by decide +kernel

/-- checker_test.go:164 -/
example : reports (opts b!"if $z { 3 } else { 4 }\n$x = 3\n") .puppet [.idemExpressionNotLast] = true := by decide +kernel

/-- checker_test.go:171 -/
example : reports (opts b!"if $z { $v = 3 } else { $v = 4 }\n$x = 3\n") .puppet [] = true := by decide +kernel

/-- checker_test.go:177 -/
example : reports (opts b!"unless $z { 3 }\n$x = 3\n") .puppet [.idemExpressionNotLast] = true := by decide +kernel

/-- checker_test.go:184 -/
example : reports (opts b!"unless $z { $v = 3 }\n$x = 3\n") .puppet [] = true := by decide +kernel

/-- checker_test.go:190 -/
example : reports (opts b!"(3)\n$x = 3\n") .puppet [.idemExpressionNotLast] = true := by decide +kernel

/-- checker_test.go:197 -/
example : reports (opts b!"($v = 3)\n$x = 3\n") .puppet [] = true := by decide +kernel

/-- checker_test.go:205 -/
example : reports (opts b!"$x = $y.size()\n") .puppet [] = true := by decide +kernel

/-- checker_test.go:210 -/
example : reports (opts b!"$x = $y.Size()") .puppet [.illegalExpression] = true := by decide +kernel

/-- checker_test.go:217 -/
example : reports (opts b!"Something produces Foo {}\n") .puppet [] = true := by decide +kernel

/-- checker_test.go:222 -/
example : reports (opts b!"Something[A] produces Foo {}\n") .puppet [] = true := by decide +kernel

/-- checker_test.go:227 -/
example : reports (opts b!"something produces Foo {}\n") .puppet [.illegalClassref] = true := by decide +kernel

/-- checker_test.go:233 -/
example : reports (opts b!"Something produces foo {}\n") .puppet [.illegalClassref] = true := by decide +kernel

/-- checker_test.go:239 -/
example : reports (opts b!"Something['A', 'B'] produces Foo {}\n") .puppet [.illegalExpression] = true := by decide +kernel

/-- checker_test.go:247 -/
example : reports (opts b!"case $x {\n  'a': { true }\n  default: { 'false' }\n}") .puppet [] = true := by decide +kernel

/-- checker_test.go:254 -/
example : reports (opts b!"case $x {\n  'a': { true }\n  default: { 'false' }\n  default: { 'true' }\n}") .puppet [.duplicateDefault] = true := by decide +kernel

/-- checker_test.go:263 -/
example : reports (opts b!"case $x {\n  function foo() {}: { true }\n  default: { false }\n}") .puppet [.notTopLevel, .notRvalue] = true := by decide +kernel

/-- checker_test.go:273 -/
example : reports (opts b!"User <| groups == 'admin' |>") .puppet [] = true := by decide +kernel

/-- checker_test.go:277 -/
example : reports (opts b!"User <| (groups == 'admin') |>") .puppet [] = true := by decide +kernel

/-- checker_test.go:281 -/
example : reports (opts b!"User <| present |>") .puppet [] = true := by decide +kernel

/-- checker_test.go:285 -/
example : reports (opts b!"User <| present and groups == 'admin' |>") .puppet [] = true := by decide +kernel

/-- checker_test.go:289 -/
example : reports (opts b!"User <| $x + 1 |>") .puppet [.illegalQueryExpression] = true := by decide +kernel

end PP.Conformance
