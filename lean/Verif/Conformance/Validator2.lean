import Verif.Conformance.Base

/-! Generated by tools/conformance.py from the tests in /repo. -/
namespace PP.Conformance

/-- checker_test.go:294 -/
example : reports (opts b!"User <| groups >= 'admin' |>") .puppet [.illegalQueryExpression] = true := by decide +kernel

/-- checker_test.go:299 -/
example : reports (opts b!"user <| groups == 'admin' |>") .puppet [.illegalExpression] = true := by decide +kernel

/-- checker_test.go:304 -/
example : reports (opts b!"User <<| groups == 'admin' |>>") .puppet [] = true := by decide +kernel

/-- checker_test.go:308 -/
example : reports (opts b!"User <<| (groups == 'admin') |>>") .puppet [] = true := by decide +kernel

/-- checker_test.go:312 -/
example : reports (opts b!"User <<| present |>>") .puppet [] = true := by decide +kernel

/-- checker_test.go:316 -/
example : reports (opts b!"User <<| present and groups == 'admin' |>>") .puppet [] = true := by decide +kernel

/-- checker_test.go:320 -/
example : reports (opts b!"User <<| $x + 1 |>>") .puppet [.illegalQueryExpression] = true := by decide +kernel

/-- checker_test.go:325 -/
example : reports (opts b!"User <<| groups >= 'admin' |>>") .puppet [.illegalQueryExpression] = true := by decide +kernel

/-- checker_test.go:330 -/
example : reports (opts b!"user <<| groups == 'admin' |>>") .puppet [.illegalExpression] = true := by decide +kernel

/-- checker_test.go:337 -/
example : reports (opts b!"<%-| $a, $b |-%>\nThis is $a <%= $a %>" (epp := true)) .puppet [] = true := by decide +kernel

/-- checker_test.go:342 -/
example : reports (opts b!"<%-| $a, $b, $a |-%>\nThis is $a <%= $a %>" (epp := true)) .puppet [.duplicateParameter] = true := by decide +kernel

/-- checker_test.go:348 -/
example : reports (opts b!"<%-| $a, *$b |-%>\nThis is $a <%= $a %>" (epp := true)) .puppet [.capturesRestNotSupported] = true := by decide +kernel

/-- checker_test.go:356 -/
example : reports (opts b!"function foo() {}") .puppet [] = true := by decide +kernel

/-- checker_test.go:360 -/
example : reports (opts b!"function foo($a, *$b) {}") .puppet [] = true := by decide +kernel

/-- checker_test.go:364 -/
example : reports (opts b!"function foo($a, *$b, $c) {}") .puppet [.capturesRestNotLast] = true := by decide +kernel

/-- checker_test.go:369 -/
example : reports (opts b!"function foo($a::b) {}") .puppet [.illegalParameterName] = true := by decide +kernel

/-- checker_test.go:374 -/
example : reports (opts b!"function foo($a = ($x = 3)) {}") .puppet [.illegalAssignmentContext] = true := by decide +kernel

/-- checker_test.go:379 -/
example : reports (opts b!"function foo($a = bar() |$p| { $p = 1 }) {}") .puppet [] = true := by decide +kernel

/-- checker_test.go:383 -/
example : reports (opts b!"function foo() {\n  function bar() {}\n}") .puppet [.notAbsoluteTopLevel] = true := by decide +kernel

/-- checker_test.go:390 -/
example : reports (opts b!"function foo() >> Application {\n}") .puppet [.futureReservedWord] = true := by decide +kernel

/-- checker_test.go:396 -/
example : reports (opts b!"function foo() >> Application[X] {\n}") .puppet [.futureReservedWord] = true := by decide +kernel

/-- checker_test.go:402 -/
example : reports (opts b!"function variant() {\n}") .puppet [.reservedTypeName] = true := by decide +kernel

/-- checker_test.go:408 -/
example : reports (opts b!"function Foo() {\n}") .puppet [.illegalDefinitionName] = true := by decide +kernel

/-- checker_test.go:416 -/
example : reports (opts b!"class foo {}") .puppet [] = true := by decide +kernel

/-- checker_test.go:420 -/
example : reports (opts b!"class foo {\n  class bar {}\n}") .puppet [] = true := by decide +kernel

/-- checker_test.go:426 -/
example : reports (opts b!"class foo($a, *$b) {\n}") .puppet [.capturesRestNotSupported] = true := by decide +kernel

/-- checker_test.go:432 -/
example : reports (opts b!"class foo($title, $b) {\n}") .puppet [.reservedParameter] = true := by decide +kernel

/-- checker_test.go:438 -/
example : reports (opts b!"class foo($name, $b) {\n}") .puppet [.reservedParameter] = true := by decide +kernel

/-- checker_test.go:444 -/
example : reports (opts b!"class foo($a) {\n  [$a]\n}") .puppet [.idemNotAllowedLast] = true := by decide +kernel

/-- checker_test.go:451 -/
example : reports (opts b!"class variant {\n}") .puppet [.reservedTypeName] = true := by decide +kernel

/-- checker_test.go:457 -/
example : reports (opts b!"class Foo {\n}") .puppet [.illegalDefinitionName] = true := by decide +kernel

/-- checker_test.go:465 -/
example : reports (opts b!"$x = {\n  1 => 'one',\n  '2' => 'two',\n  3.0 => 'three',\n  true => 'true',\n  undef => 'undef',\n  default => 'default'\n}") .puppet [] = true := by decide +kernel

/-- checker_test.go:476 -/
example : reports (opts b!"$x = {\n  1 => 'one',\n  '2' => 'two',\n  1 => 'one again'\n}") .puppet [.duplicateKey] = true := by decide +kernel

/-- checker_test.go:485 -/
example : reports (opts b!"$x = {\n  'func' => define foo() {}\n}") .puppet [.notTopLevel, .notRvalue] = true := by decide +kernel

/-- checker_test.go:494 -/
example : reports (opts b!"$x = [\n  1, '2', 3.0, four, 'five', true, undef, default, [1, 2], {'one' => 1}\n]") .puppet [] = true := by decide +kernel

/-- checker_test.go:500 -/
example : reports (opts b!"$x = [define foo() {}]") .puppet [.notTopLevel, .notRvalue] = true := by decide +kernel

/-- checker_test.go:507 -/
example : reports (opts b!"define foo() {}") .puppet [] = true := by decide +kernel

/-- checker_test.go:511 -/
example : reports (opts b!"class foo() {\n  define bar() {}\n}") .puppet [] = true := by decide +kernel

/-- checker_test.go:517 -/
example : reports (opts b!"define foo() {\n  define bar() {}\n}") .puppet [.notTopLevel] = true := by decide +kernel

/-- checker_test.go:524 -/
example : reports (opts b!"define foo($a, *$b) {\n}") .puppet [.capturesRestNotSupported] = true := by decide +kernel

/-- checker_test.go:530 -/
example : reports (opts b!"define foo($title, $b) {\n}") .puppet [.reservedParameter] = true := by decide +kernel

/-- checker_test.go:536 -/
example : reports (opts b!"define foo($name, $b) {\n}") .puppet [.reservedParameter] = true := by decide +kernel

/-- checker_test.go:542 -/
example : reports (opts b!"define foo($a) {\n  [$a]\n}") .puppet [.idemNotAllowedLast] = true := by decide +kernel

/-- checker_test.go:549 -/
example : reports (opts b!"define variant() {\n}") .puppet [.reservedTypeName] = true := by decide +kernel

/-- checker_test.go:555 -/
example : reports (opts b!"define Foo() {\n}") .puppet [.illegalDefinitionName] = true := by decide +kernel

/-- checker_test.go:563 -/
example : reports (opts b!"package { 'openssh-server':\n  ensure => present,\n} ->\nfile { '/etc/ssh/sshd_config':\n  ensure => file,\n  mode   => '0600',\n  source => 'puppet:///modules/sshd/sshd_config',\n}") .puppet [] = true := by decide +kernel

/-- checker_test.go:574 -/
example : reports (opts b!"package { 'openssh-server':\n  ensure => present,\n} ->\nnode example.com {}") .puppet [.notRvalue, .notTopLevel] = true := by decide +kernel

/-- checker_test.go:582 -/
example : reports (opts b!"class my_class {} ->\npackage { 'openssh-server':\n  ensure => present,\n}") .puppet [.notRvalue, .notTopLevel] = true := by decide +kernel

/-- checker_test.go:592 -/
example : reports (opts b!"file { '/tmp/foo':\n  ensure => file,\n  * => $file_ownership\n}") .puppet [] = true := by decide +kernel

/-- checker_test.go:599 -/
example : reports (opts b!"file { '/tmp/foo':\n  ensure => file,\n  * => $file_ownership,\n  * => $file_mode_content\n}") .puppet [.multipleAttributesUnfold] = true := by decide +kernel

end PP.Conformance
