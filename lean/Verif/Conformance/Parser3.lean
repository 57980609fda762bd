import Verif.Conformance.Base

/-! Generated by tools/conformance.py from the tests in /repo. -/
namespace PP.Conformance

/-- parser_test.go:544 -/
example : block (opts b!"$Var") = .error .lexInvalidVariableName 1 2 := by decide +kernel

/-- parser_test.go:548 -/
example : block (opts b!"$:var::b") = .error .lexInvalidVariableName 1 1 := by decide +kernel

/-- parser_test.go:552 -/
example : block (opts b!"$::var::B") = .error .lexInvalidVariableName 1 1 := by decide +kernel

/-- parser_test.go:556 -/
example : block (opts b!"$::var::_b::c") = .error .lexInvalidVariableName 1 1 := by decide +kernel

/-- parser_test.go:560 -/
example : block (opts b!"$::_var::b") = .error .lexUnexpectedToken 1 4 := by decide +kernel

/-- parser_test.go:566 -/
example : dump (opts b!"[1,2,3]") = .pn b!"(array 1 2 3)" := by decide +kernel

/-- parser_test.go:570 -/
example : dump (opts b!"[1,2,3,]") = .pn b!"(array 1 2 3)" := by decide +kernel

/-- parser_test.go:574 -/
example : dump (opts b!"[1,2,a=>3]") = .pn b!"(array 1 2 (hash (=> (qn \"a\") 3)))" := by decide +kernel

/-- parser_test.go:578 -/
example : dump (opts b!"[1,2,a=>3,b=>4]") = .pn b!"(array 1 2 (hash (=> (qn \"a\") 3) (=> (qn \"b\") 4)))" := by decide +kernel

/-- parser_test.go:582 -/
example : dump (opts b!"[1,2,a=>3,b=>4,5]") = .pn b!"(array 1 2 (hash (=> (qn \"a\") 3) (=> (qn \"b\") 4)) 5)" := by decide +kernel

/-- parser_test.go:586 -/
example : dump (opts b!"[1,2,{a=>3},b=>4,5]") = .pn b!"(array 1 2 (hash (=> (qn \"a\") 3)) (hash (=> (qn \"b\") 4)) 5)" := by decide +kernel

/-- parser_test.go:590 -/
example : block (opts b!"[1,2 3]") = .error .parseExpectedOneOfTokens 1 6 := by decide +kernel

/-- parser_test.go:594 -/
example : block (opts b!"[1,2,3") = .error .parseExpectedOneOfTokens 1 7 := by decide +kernel

/-- parser_test.go:600 -/
example : dump (opts b!"{ a => true, b => false, c => undef, d => 12, e => 23.5, c => 'hello' }") = .pn b!"(hash (=> (qn \"a\") true) (=> (qn \"b\") false) (=> (qn \"c\") nil) (=> (qn \"d\") 12) (=> (qn \"e\") 23.5) (=> (qn \"c\") \"hello\"))" := by decide +kernel

/-- parser_test.go:604 -/
example : dump (opts b!"{a => 1, b => 2,}") = .pn b!"(hash (=> (qn \"a\") 1) (=> (qn \"b\") 2))" := by decide +kernel

/-- parser_test.go:608 -/
example : dump (opts b!"{type => consumes, function => site, application => produces,}") = .pn b!"(hash (=> (qn \"type\") (qn \"consumes\")) (=> (qn \"function\") (qn \"site\")) (=> (qn \"application\") (qn \"produces\")))" := by decide +kernel

/-- parser_test.go:612 -/
example : block (opts b!"{a => 1, b, 2}") = .error .parseExpectedFarrowAfterKey 1 12 := by decide +kernel

/-- parser_test.go:616 -/
example : block (opts b!"{a => 1 b => 2}") = .error .parseExpectedOneOfTokens 1 9 := by decide +kernel

/-- parser_test.go:620 -/
example : block (opts b!"{a => 1, b => 2") = .error .parseExpectedOneOfTokens 1 16 := by decide +kernel

/-- parser_test.go:650 -/
example : block (opts b!"$a = 'a',\n$b = 'b'") = .error .parseExtraneousComma 1 10 := by decide +kernel

/-- parser_test.go:658 -/
example : dump (opts b!"function myFunc(Integer[0,3] $first, $untyped, String $nxt = 'hello') >> Float {\n   23.8\n}") = .pn b!"(function {:name \"myFunc\" :params {:first {:type (access (qr \"Integer\") 0 3)} :untyped {} :nxt {:type (qr \"String\") :value \"hello\"}} :body [23.8] :returns (qr \"Float\")})" := by decide +kernel

/-- parser_test.go:672 -/
example : dump (opts b!"function myFunc(Integer *$numbers) >> Integer {\n   $numbers.size\n}") = .pn b!"(function {:name \"myFunc\" :params {:numbers {:type (qr \"Integer\") :splat true}} :body [(call-method {:functor (. (var \"numbers\") (qn \"size\")) :args []})] :returns (qr \"Integer\")})" := by decide +kernel

/-- parser_test.go:685 -/
example : block (opts b!"function foo($1) {}") = .error .parseExpectedVariable 1 16 := by decide +kernel

/-- parser_test.go:690 -/
example : block (opts b!"function myFunc(Integer *numbers) >> Integer {\n   numbers.size\n}") = .error .parseExpectedVariable 1 33 := by decide +kernel

/-- parser_test.go:697 -/
example : block (opts b!"function myFunc(Integer *$numbers) >> $var {\n   numbers.size\n}") = .error .parseExpectedTypeName 1 43 := by decide +kernel

/-- parser_test.go:704 -/
example : block (opts b!"function 'myFunc'() {\n   true\n}") = .error .parseExpectedNameAfterFunction 1 10 := by decide +kernel

/-- parser_test.go:711 -/
example : block (opts b!"function myFunc() true") = .error .parseExpectedToken 1 19 := by decide +kernel

/-- parser_test.go:716 -/
example : block (opts b!"function myFunc() >> Boolean true") = .error .parseExpectedToken 1 30 := by decide +kernel

/-- parser_test.go:723 -/
example : dump (opts b!"plan foo { }" (tasks := true)) = .pn b!"(plan {:name \"foo\" :body []})" := by decide +kernel

/-- parser_test.go:726 -/
example : dump (opts b!" plan foo {\n   $a = 10\n   $b = 20\n}" (tasks := true)) = .pn b!"(plan {:name \"foo\" :body [(= (var \"a\") 10) (= (var \"b\") 20)]})" := by decide +kernel

/-- parser_test.go:735 -/
example : dump (opts b!"plan foo($p1 = 'yo', $p2) { }" (tasks := true)) = .pn b!"(plan {:name \"foo\" :params {:p1 {:value \"yo\"} :p2 {}} :body []})" := by decide +kernel

/-- parser_test.go:738 -/
example : block (opts b!"$a = plan" (tasks := true)) = .error .parseExpectedNameAfterPlan 1 10 := by decide +kernel

/-- parser_test.go:741 -/
example : dump (opts b!"$a = plan") = .pn b!"(= (var \"a\") (qn \"plan\"))" := by decide +kernel

/-- parser_test.go:746 -/
example : dump (opts b!"workflow foo { }" (workflow := true)) = .pn b!"(step {:name \"foo\" :style \"workflow\"})" := by decide +kernel

/-- parser_test.go:749 -/
example : dump (opts b!"workflow foo {} {\n  resource bar {}\n}" (workflow := true)) = .pn b!"(step {:name \"foo\" :style \"workflow\" :definition (block (step {:name \"foo::bar\" :style \"resource\"}))})" := by decide +kernel

/-- parser_test.go:758 -/
example : dump (opts b!"workflow foo {} {\n  resource bar {\n    type => Genesis::Aws::Instance\n  } {\n    x => 2,\n    y => {\n      a => 'a'\n    }\n  }\n}" (workflow := true)) = .pn b!"(step {:name \"foo\" :style \"workflow\" :definition (block (step {:name \"foo::bar\" :style \"resource\" :properties (hash (=> (qn \"type\") (qr \"Genesis::Aws::Instance\"))) :definition (hash (=> (qn \"x\") 2) (=> (qn \"y\") (hash (=> (qn \"a\") \"a\"))))}))})" := by decide +kernel

/-- parser_test.go:776 -/
example : dump (opts b!"workflow foo {} {\n  resource bar {\n    type => Genesis::Aws::Instance,\n  } each($y) |$x| {\n    x => $x,\n  }\n}" (workflow := true)) = .pn b!"(step {:name \"foo\" :style \"workflow\" :definition (block (step {:name \"foo::bar\" :style \"resource\" :properties (hash (=> (qn \"type\") (qr \"Genesis::Aws::Instance\")) (=> (qn \"iteration\") (hash (=> (qn \"name\") (qn \"bar\")) (=> (qn \"function\") (qn \"each\")) (=> (qn \"params\") (array (param {:name \"y\"}))) (=> (qn \"vars\") (array (param {:name \"x\"})))))) :definition (hash (=> (qn \"x\") (call-method {:functor (. (qr \"Deferred\") (qn \"new\")) :args [\"$x\"]})))}))})" := by decide +kernel

/-- parser_test.go:796 -/
example : dump (opts b!"workflow foo {} {\n  action bar { guard => true } {\n    function read {\n      true\n    }\n  }\n}" (workflow := true)) = .pn b!"(step {:name \"foo\" :style \"workflow\" :definition (block (step {:name \"foo::bar\" :style \"action\" :properties (hash (=> (qn \"guard\") true)) :definition (block (function {:name \"read\" :body [true]}))}))})" := by decide +kernel

/-- parser_test.go:810 -/
example : dump (opts b!"workflow foo {} {\n  action bar {} {\n    function delete {\n      notice('hello from delete')\n    }\n    function read {\n      notice('hello from read')\n    }\n    function upsert {\n      notice('hello from upsert')\n    }\n  }\n}" (workflow := true)) = .pn b!"(step {:name \"foo\" :style \"workflow\" :definition (block (step {:name \"foo::bar\" :style \"action\" :definition (block (function {:name \"delete\" :body [(invoke {:functor (qn \"notice\") :args [\"hello from delete\"]})]}) (function {:name \"read\" :body [(invoke {:functor (qn \"notice\") :args [\"hello from read\"]})]}) (function {:name \"upsert\" :body [(invoke {:functor (qn \"notice\") :args [\"hello from upsert\"]})]}))}))})" := by decide +kernel

/-- parser_test.go:834 -/
example : dump (opts b!"node default {\n}") = .pn b!"(node {:matches [(default)] :body []})" := by decide +kernel

/-- parser_test.go:840 -/
example : dump (opts b!"node /[a-f].*/ {\n}") = .pn b!"(node {:matches [(regexp \"[a-f].*\")] :body []})" := by decide +kernel

/-- parser_test.go:846 -/
example : dump (opts b!"node /[a-f].*/, \"example.com\" {\n}") = .pn b!"(node {:matches [(regexp \"[a-f].*\") \"example.com\"] :body []})" := by decide +kernel

/-- parser_test.go:852 -/
example : dump (opts b!"node /[a-f].*/, example.com {\n}") = .pn b!"(node {:matches [(regexp \"[a-f].*\") \"example.com\"] :body []})" := by decide +kernel

/-- parser_test.go:858 -/
example : dump (opts b!"node /[a-f].*/, 192.168.0.1, 34, \"$x.$y\" {\n}") = .pn b!"(node {:matches [(regexp \"[a-f].*\") \"192.168.0.1\" \"34\" (concat (str (var \"x\")) \".\" (str (var \"y\")))] :body []})" := by decide +kernel

/-- parser_test.go:864 -/
example : dump (opts b!"node /[a-f].*/, 192.168.0.1, 34, 'some.string', {\n}") = .pn b!"(node {:matches [(regexp \"[a-f].*\") \"192.168.0.1\" \"34\" \"some.string\"] :body []})" := by decide +kernel

/-- parser_test.go:870 -/
example : dump (opts b!"node /[a-f].*/ inherits 192.168.0.1 {\n}") = .pn b!"(node {:matches [(regexp \"[a-f].*\")] :parent \"192.168.0.1\" :body []})" := by decide +kernel

/-- parser_test.go:876 -/
example : dump (opts b!"node default {\n  notify { x: message => 'node default' }\n}") = .pn b!"(node {:matches [(default)] :body [(resource {:type (qn \"notify\") :bodies [{:title (qn \"x\") :ops [(=> \"message\" \"node default\")]}]})]})" := by decide +kernel

/-- parser_test.go:883 -/
example : block (opts b!"node [hosta.com, hostb.com] {\n}") = .error .parseExpectedHostname 1 7 := by decide +kernel

/-- parser_test.go:889 -/
example : block (opts b!"node example.* {\n}") = .error .parseExpectedNameOrNumberAfterDot 1 15 := by decide +kernel

/-- parser_test.go:897 -/
example : dump (opts b!"site {\n}") = .pn b!"(site)" := by decide +kernel

end PP.Conformance
