import Verif.Conformance.Base

/-! Generated by tools/conformance.py from the tests in /repo. -/
namespace PP.Conformance

/-- checker_test.go:609 -/
example : reports (opts b!"class { my: message => 'syntax ok' }") .puppet [] = true := by decide +kernel

/-- checker_test.go:611 -/
example : reports (opts b!"@foo { my: message => 'syntax ok' }") .puppet [] = true := by decide +kernel

/-- checker_test.go:613 -/
example : reports (opts b!"@@foo { my: message => 'syntax ok' }") .puppet [] = true := by decide +kernel

/-- checker_test.go:615 -/
example : reports (opts b!"@class { my: message => 'syntax ok' }") .puppet [.notVirtualizable] = true := by decide +kernel

/-- checker_test.go:617 -/
example : reports (opts b!"@@class { my: message => 'syntax ok' }") .puppet [.notVirtualizable] = true := by decide +kernel

/-- checker_test.go:621 -/
example : reports (opts b!"Something { message => 'syntax ok' }") .puppet [] = true := by decide +kernel

/-- checker_test.go:623 -/
example : reports (opts b!"@Something { message => 'syntax ok' }") .puppet [.notVirtualizable] = true := by decide +kernel

/-- checker_test.go:625 -/
example : reports (opts b!"@@Something { message => 'syntax ok' }") .puppet [.notVirtualizable] = true := by decide +kernel

/-- checker_test.go:629 -/
example : reports (opts b!"Something['here'] { message => 'syntax ok' }") .puppet [] = true := by decide +kernel

/-- checker_test.go:631 -/
example : reports (opts b!"@Something['here'] { message => 'syntax ok' }") .puppet [.notVirtualizable] = true := by decide +kernel

/-- checker_test.go:633 -/
example : reports (opts b!"@@Something['here'] { message => 'syntax ok' }") .puppet [.notVirtualizable] = true := by decide +kernel

/-- checker_test.go:637 -/
example : reports (opts b!"node foo {}") .puppet [] = true := by decide +kernel

/-- checker_test.go:639 -/
example : reports (opts b!"node 'foo' {}") .puppet [] = true := by decide +kernel

/-- checker_test.go:641 -/
example : reports (opts b!"node \"foo\" {}") .puppet [] = true := by decide +kernel

/-- checker_test.go:643 -/
example : reports (opts b!"node MyNode {}") .puppet [] = true := by decide +kernel

/-- checker_test.go:645 -/
example : reports (opts b!"node 192.168.0.10 {}") .puppet [] = true := by decide +kernel

/-- checker_test.go:647 -/
example : reports (opts b!"node /.*\\.example\\.com/ {}") .puppet [] = true := by decide +kernel

/-- checker_test.go:649 -/
example : reports (opts b!"node example.com {}") .puppet [] = true := by decide +kernel

/-- checker_test.go:651 -/
example : reports (opts b!"node 'bad char' {}") .puppet [.illegalHostnameChars] = true := by decide +kernel

/-- checker_test.go:653 -/
example : reports (opts b!"node \"bad char\" {}") .puppet [.illegalHostnameChars] = true := by decide +kernel

/-- checker_test.go:655 -/
example : reports (opts b!"node \"not${here}\" {}") .puppet [.illegalHostnameInterpolation] = true := by decide +kernel

/-- checker_test.go:659 -/
example : reports (opts b!"$x = private") .puppet [.reservedWord] = true := by decide +kernel

/-- checker_test.go:663 -/
example : reports (opts b!"$role = $facts['os']['name'] ? {\n  'Solaris'           => role::solaris,\n  'RedHat'            => role::redhat,\n  /^(Debian|Ubuntu)$/ => role::debian,\n  default             => role::generic,\n}") .puppet [] = true := by decide +kernel

/-- checker_test.go:672 -/
example : reports (opts b!"$role = $facts['os']['name'] ? {\n  'Solaris'           => role::solaris,\n  default             => role::generic,\n  'RedHat'            => role::redhat,\n  default             => role::generic,\n}") .puppet [.duplicateDefault] = true := by decide +kernel

/-- checker_test.go:683 -/
example : reports (opts b!"type MyType = Integer") .puppet [] = true := by decide +kernel

/-- checker_test.go:685 -/
example : reports (opts b!"type MyType = Variant[Integer, String]") .puppet [] = true := by decide +kernel

/-- checker_test.go:687 -/
example : reports (opts b!"type Variant = MyType") .puppet [.reservedTypeName] = true := by decide +kernel

/-- checker_test.go:689 -/
example : reports (opts b!"type ::MyType = Integer") .puppet [.illegalDefinitionName] = true := by decide +kernel

/-- checker_test.go:693 -/
example : reports (opts b!"type Runtime[ruby, 'MyModule::MyObject'] = MyPackage::MyObject") .puppet [] = true := by decide +kernel

/-- checker_test.go:695 -/
example : reports (opts b!"type Runtime[ruby, [/^MyPackage::(\\w+)$/, 'MyModule::\\1']] = [/^MyModule::(\\w+)$/, 'MyPackage::\\1']") .puppet [] = true := by decide +kernel

/-- checker_test.go:697 -/
example : reports (opts b!"type Runtime[ruby, [/^MyPackage::(\\w+)$/, 'MyModule::\\1']] = MyPackage::MyObject") .puppet [.illegalRegexpTypeMapping] = true := by decide +kernel

/-- checker_test.go:701 -/
example : reports (opts b!"type Runtime[ruby, 'MyModule::MyObject'] = [/^MyModule::(\\w+)$/, 'MyPackage::\\1']") .puppet [.illegalSingleTypeMapping] = true := by decide +kernel

/-- checker_test.go:705 -/
example : reports (opts b!"type Runtime[ruby, [/^MyPackage::(\\w+)$/, 'MyModule::\\1']] = $x") .puppet [.illegalRegexpTypeMapping] = true := by decide +kernel

/-- checker_test.go:709 -/
example : reports (opts b!"type Runtime[ruby, 'MyModule::MyObject'] = $x") .puppet [.illegalSingleTypeMapping] = true := by decide +kernel

/-- checker_test.go:713 -/
example : reports (opts b!"type Pattern[/^MyPackage::(\\w+)$/, 'MyModule::\\1'] = [/^MyModule::(\\w+)$/, 'MyPackage::\\1']") .puppet [.unsupportedExpression] = true := by decide +kernel

/-- tasks_checker_test.go:9 -/
example : reports (opts b!"class { my: message => 'syntax ok' }" (tasks := true)) .tasks [.catalogOperationNotSupported] = true := by decide +kernel

/-- tasks_checker_test.go:11 -/
example : reports (opts b!"foo { my: message => 'syntax ok' }" (tasks := true)) .tasks [.catalogOperationNotSupported] = true := by decide +kernel

/-- tasks_checker_test.go:13 -/
example : reports (opts b!"@foo { my: message => 'syntax ok' }" (tasks := true)) .tasks [.catalogOperationNotSupported] = true := by decide +kernel

/-- tasks_checker_test.go:15 -/
example : reports (opts b!"@@foo { my: message => 'syntax ok' }" (tasks := true)) .tasks [.catalogOperationNotSupported] = true := by decide +kernel

/-- tasks_checker_test.go:17 -/
example : reports (opts b!"@class { my: message => 'syntax ok' }" (tasks := true)) .tasks [.catalogOperationNotSupported] = true := by decide +kernel

/-- tasks_checker_test.go:19 -/
example : reports (opts b!"@@class { my: message => 'syntax ok' }" (tasks := true)) .tasks [.catalogOperationNotSupported] = true := by decide +kernel

/-- workflow_checker_test.go:9 -/
example : reports (opts b!"class { my: message => 'syntax ok' }" (workflow := true)) .workflow [.catalogOperationNotSupported] = true := by decide +kernel

/-- workflow_checker_test.go:11 -/
example : reports (opts b!"foo { my: message => 'syntax ok' }" (workflow := true)) .workflow [.catalogOperationNotSupported] = true := by decide +kernel

/-- workflow_checker_test.go:13 -/
example : reports (opts b!"@foo { my: message => 'syntax ok' }" (workflow := true)) .workflow [.catalogOperationNotSupported] = true := by decide +kernel

/-- workflow_checker_test.go:15 -/
example : reports (opts b!"@@foo { my: message => 'syntax ok' }" (workflow := true)) .workflow [.catalogOperationNotSupported] = true := by decide +kernel

/-- workflow_checker_test.go:17 -/
example : reports (opts b!"@class { my: message => 'syntax ok' }" (workflow := true)) .workflow [.catalogOperationNotSupported] = true := by decide +kernel

/-- workflow_checker_test.go:19 -/
example : reports (opts b!"@@class { my: message => 'syntax ok' }" (workflow := true)) .workflow [.catalogOperationNotSupported] = true := by decide +kernel

/-- workflow_checker_test.go:21 -/
example : reports (opts b!"workflow foo {}" (workflow := true)) .workflow [] = true := by decide +kernel

end PP.Conformance
