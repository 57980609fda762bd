import Verif.Conformance.Base

/-! Generated by tools/conformance.py from the tests in /repo. -/
namespace PP.Conformance

/-- parser_test.go:903 -/
example : dump (opts b!"site {\n  notify { x: message => 'node default' }\n}") = .pn b!"(site (resource {:type (qn \"notify\") :bodies [{:title (qn \"x\") :ops [(=> \"message\" \"node default\")]}]}))" := by decide +kernel

/-- parser_test.go:912 -/
example : dump (opts b!"type MyType {\n  # What statements that can be included here is not yet speced\n}") = .pn b!"(type-definition \"MyType\" \"\" (block))" := by decide +kernel

/-- parser_test.go:919 -/
example : dump (opts b!"type MyType inherits OtherType {\n  # What statements that can be included here is not yet speced\n}") = .pn b!"(type-definition \"MyType\" \"OtherType\" (block))" := by decide +kernel

/-- parser_test.go:926 -/
example : block (opts b!"type MyType inherits OtherType [{\n  # What statements that can be included here is not yet speced\n}]") = .error .parseExpectedToken 1 32 := by decide +kernel

/-- parser_test.go:933 -/
example : block (opts b!"type MyType inherits $other {\n  # What statements that can be included here is not yet speced\n}") = .error .parseInheritsMustBeTypeName 1 28 := by decide +kernel

/-- parser_test.go:940 -/
example : block (opts b!"type MyType[a,b] {\n  # What statements that can be included here is not yet speced\n}") = .error .parseExpectedTypeNameAfterType 1 19 := by decide +kernel

/-- parser_test.go:947 -/
example : block (opts b!"type MyType << {\n  # What statements that can be included here is not yet speced\n}") = .error .lexUnexpectedToken 1 15 := by decide +kernel

/-- parser_test.go:956 -/
example : dump (opts b!"type MyType = Object[{\n  attributes => {\n  name => String,\n  number => Integer\n  }\n}]") = .pn b!"(type-alias \"MyType\" (access (qr \"Object\") (hash (=> (qn \"attributes\") (hash (=> (qn \"name\") (qr \"String\")) (=> (qn \"number\") (qr \"Integer\")))))))" := by decide +kernel

/-- parser_test.go:966 -/
example : block (opts b!"type Mod::myType[a, b] = Object[{}]") = .error .lexInvalidTypeName 1 6 := by decide +kernel

/-- parser_test.go:972 -/
example : dump (opts b!"type Runtime[ruby, 'MyModule::MyObject'] = MyPackage::MyObject") = .pn b!"(type-mapping (access (qr \"Runtime\") (qn \"ruby\") \"MyModule::MyObject\") (qr \"MyPackage::MyObject\"))" := by decide +kernel

/-- parser_test.go:976 -/
example : dump (opts b!"type Runtime[ruby, [/^MyPackage::(\\w+)$/, 'MyModule::\\1']] = [/^MyModule::(\\w+)$/, 'MyPackage::\\1']") = .pn b!"(type-mapping (access (qr \"Runtime\") (qn \"ruby\") (array (regexp \"^MyPackage::(\\\\w+)$\") \"MyModule::\\\\1\")) (array (regexp \"^MyModule::(\\\\w+)$\") \"MyPackage::\\\\1\"))" := by decide +kernel

/-- parser_test.go:982 -/
example : dump (opts b!"class myclass {\n}") = .pn b!"(class {:name \"myclass\" :body []})" := by decide +kernel

/-- parser_test.go:988 -/
example : dump (opts b!"class myclass {\n  class inner {\n  }\n}") = .pn b!"(class {:name \"myclass\" :body [(class {:name \"myclass::inner\" :body []})]})" := by decide +kernel

/-- parser_test.go:996 -/
example : dump (opts b!"class ::myclass {\n  class inner {\n  }\n}") = .pn b!"(class {:name \"myclass\" :body [(class {:name \"myclass::inner\" :body []})]})" := by decide +kernel

/-- parser_test.go:1004 -/
example : dump (opts b!"class ::myclass {\n  class ::inner {\n  }\n}") = .pn b!"(class {:name \"myclass\" :body [(class {:name \"myclass::inner\" :body []})]})" := by decide +kernel

/-- parser_test.go:1012 -/
example : dump (opts b!"class myclass inherits other {\n}") = .pn b!"(class {:name \"myclass\" :parent \"other\" :body []})" := by decide +kernel

/-- parser_test.go:1018 -/
example : dump (opts b!"class myclass inherits default {\n}") = .pn b!"(class {:name \"myclass\" :parent \"default\" :body []})" := by decide +kernel

/-- parser_test.go:1024 -/
example : dump (opts b!"class myclass($a, $b = 2) {\n}") = .pn b!"(class {:name \"myclass\" :params {:a {} :b {:value 2}} :body []})" := by decide +kernel

/-- parser_test.go:1030 -/
example : dump (opts b!"class myclass($a, $b = 2) inherits other {\n}") = .pn b!"(class {:name \"myclass\" :parent \"other\" :params {:a {} :b {:value 2}} :body []})" := by decide +kernel

/-- parser_test.go:1036 -/
example : block (opts b!"class 'myclass' {\n}") = .error .parseQuotedNotValidName 1 7 := by decide +kernel

/-- parser_test.go:1042 -/
example : block (opts b!"class class {\n}") = .error .parseClassNotValidHere 1 7 := by decide +kernel

/-- parser_test.go:1048 -/
example : block (opts b!"class [a, b] {\n}") = .error .parseExpectedClassName 1 7 := by decide +kernel

/-- parser_test.go:1056 -/
example : dump (opts b!"define apache::vhost (\n  Integer $port,\n  String[1] $docroot,\n  String[1] $servername = $title,\n  String $vhost_name = '*',\n) {\n  include apache # contains package['httpd'] and service['httpd']\n  include apache::params # contains common config settings\n\n  $vhost_dir = $apache::params::vhost_dir\n\n  # the template used below can access all of the parameters and variable from above.\n  file { \"${vhost_dir}/${servername}.conf\":\n    ensure  => file,\n    owner   => 'www',\n    group   => 'www',\n    mode    => '0644',\n    content => template('apache/vhost-default.conf.erb'),\n    require => Package['httpd'],\n    notify  => Service['httpd'],\n  }\n}") = .pn b!"(define {:name \"apache::vhost\" :params {:port {:type (qr \"Integer\")} :docroot {:type (access (qr \"String\") 1)} :servername {:type (access (qr \"String\") 1) :value (var \"title\")} :vhost_name {:type (qr \"String\") :value \"*\"}} :body [(invoke {:functor (qn \"include\") :args [(qn \"apache\")]}) (invoke {:functor (qn \"include\") :args [(qn \"apache::params\")]}) (= (var \"vhost_dir\") (var \"apache::params::vhost_dir\")) (resource {:type (qn \"file\") :bodies [{:title (concat (str (var \"vhost_dir\")) \"/\" (str (var \"servername\")) \".conf\") :ops [(=> \"ensure\" (qn \"file\")) (=> \"owner\" \"www\") (=> \"group\" \"www\") (=> \"mode\" \"0644\") (=> \"content\" (call {:functor (qn \"template\") :args [\"apache/vhost-default.conf.erb\"]})) (=> \"require\" (access (qr \"Package\") \"httpd\")) (=> \"notify\" (access (qr \"Service\") \"httpd\"))]}]})]})" := by decide +kernel

/-- parser_test.go:1106 -/
example : dump (opts b!"MyCap produces Cap {\n  attr => $value\n}") = .pn b!"(produces (qr \"MyCap\") [\"Cap\" (=> \"attr\" (var \"value\"))])" := by decide +kernel

/-- parser_test.go:1113 -/
example : dump (opts b!"attr produces Cap {}") = .pn b!"(produces (qn \"attr\") [\"Cap\"])" := by decide +kernel

/-- parser_test.go:1120 -/
example : dump (opts b!"application lamp(\n  String $db_user,\n  String $db_password,\n  String $docroot = '/var/www/html',\n){\n  lamp::web { $name:\n    docroot => $docroot,\n    export => Http[\"lamp-${name}\"],\n  }\n\n  lamp::app { $name:\n    consume => Sql[\"lamp-${name}\"],\n    export => Http[\"lamp-${name}\"],\n  }\n\n  lamp::db { $name:\n    db_user     => $db_user,\n    db_name     => $db_name,\n    export      => Sql[\"lamp-${name}\"],\n  }\n}") = .pn b!"(application {:name \"lamp\" :params {:db_user {:type (qr \"String\")} :db_password {:type (qr \"String\")} :docroot {:type (qr \"String\") :value \"/var/www/html\"}} :body [(resource {:type (qn \"lamp::web\") :bodies [{:title (var \"name\") :ops [(=> \"docroot\" (var \"docroot\")) (=> \"export\" (access (qr \"Http\") (concat \"lamp-\" (str (var \"name\")))))]}]}) (resource {:type (qn \"lamp::app\") :bodies [{:title (var \"name\") :ops [(=> \"consume\" (access (qr \"Sql\") (concat \"lamp-\" (str (var \"name\"))))) (=> \"export\" (access (qr \"Http\") (concat \"lamp-\" (str (var \"name\")))))]}]}) (resource {:type (qn \"lamp::db\") :bodies [{:title (var \"name\") :ops [(=> \"db_user\" (var \"db_user\")) (=> \"db_name\" (var \"db_name\")) (=> \"export\" (access (qr \"Sql\") (concat \"lamp-\" (str (var \"name\")))))]}]})]})" := by decide +kernel

/-- parser_test.go:1169 -/
example : dump (opts b!"$x = wrap(myFunc(3, 'vx', 'd\"x') |Integer $r| >> Integer { $r + 2 })") = .pn b!"(= (var \"x\") (call {:functor (qn \"wrap\") :args [(call {:functor (qn \"myFunc\") :args [3 \"vx\" \"d\\\"x\"] :block (lambda {:params {:r {:type (qr \"Integer\")}} :returns (qr \"Integer\") :body [(+ (var \"r\") 2)]})})]}))" := by decide +kernel

/-- parser_test.go:1174 -/
example : dump (opts b!"notice hello()") = .pn b!"(invoke {:functor (qn \"notice\") :args [(call {:functor (qn \"hello\") :args []})]})" := by decide +kernel

/-- parser_test.go:1177 -/
example : dump (opts b!"notice hello(), 'world'") = .pn b!"(invoke {:functor (qn \"notice\") :args [(call {:functor (qn \"hello\") :args []}) \"world\"]})" := by decide +kernel

/-- parser_test.go:1180 -/
example : block (opts b!"$x = $y.myFunc\ncallIt(*$x)\n(2 + 3).with() |$x| { notice $x }") = .pn b!"(block (= (var \"x\") (call-method {:functor (. (var \"y\") (qn \"myFunc\")) :args []})) (invoke {:functor (qn \"callIt\") :args [(unfold (var \"x\"))]}) (call-method {:functor (. (paren (+ 2 3)) (qn \"with\")) :args [] :block (lambda {:params {:x {}} :body [(invoke {:functor (qn \"notice\") :args [(var \"x\")]})]})}))" := by decide +kernel

/-- parser_test.go:1187 -/
example : block (opts b!"$x = myFunc(3") = .error .parseExpectedOneOfTokens 1 14 := by decide +kernel

/-- parser_test.go:1192 -/
example : block (opts b!"$x = myFunc() || $r + 2 }") = .error .parseExpectedToken 1 18 := by decide +kernel

/-- parser_test.go:1200 -/
example : dump (opts b!"$x = wrap(myFunc |Integer $r| >> Integer { $r + 2 })") = .pn b!"(= (var \"x\") (call {:functor (qn \"wrap\") :args [(call {:functor (qn \"myFunc\") :args [] :block (lambda {:params {:r {:type (qr \"Integer\")}} :returns (qr \"Integer\") :body [(+ (var \"r\") 2)]})})]}))" := by decide +kernel

/-- parser_test.go:1205 -/
example : dump (opts b!"$x = [myFunc()]") = .pn b!"(= (var \"x\") (array (call {:functor (qn \"myFunc\") :args []})))" := by decide +kernel

/-- parser_test.go:1213 -/
example : dump (opts b!"$x = $y.max(23)") = .pn b!"(= (var \"x\") (call-method {:functor (. (var \"y\") (qn \"max\")) :args [23]}))" := by decide +kernel

/-- parser_test.go:1220 -/
example : dump (opts b!"$x = $y.max(23) |$x| { $x }") = .pn b!"(= (var \"x\") (call-method {:functor (. (var \"y\") (qn \"max\")) :args [23] :block (lambda {:params {:x {}} :body [(var \"x\")]})}))" := by decide +kernel

/-- parser_test.go:1227 -/
example : dump (opts b!"$x = $y.max") = .pn b!"(= (var \"x\") (call-method {:functor (. (var \"y\") (qn \"max\")) :args []}))" := by decide +kernel

/-- parser_test.go:1232 -/
example : dump (opts b!"$x == $y.max") = .pn b!"(== (var \"x\") (call-method {:functor (. (var \"y\") (qn \"max\")) :args []}))" := by decide +kernel

/-- parser_test.go:1237 -/
example : dump (opts b!"\"${x[3].y}\"") = .pn b!"(concat (str (call-method {:functor (. (access (var \"x\") 3) (qn \"y\")) :args []})))" := by decide +kernel

/-- parser_test.go:1242 -/
example : dump (opts b!"\"${x[3].y.z}\"") = .pn b!"(concat (str (call-method {:functor (. (call-method {:functor (. (access (var \"x\") 3) (qn \"y\")) :args []}) (qn \"z\")) :args []})))" := by decide +kernel

/-- parser_test.go:1249 -/
example : dump (opts b!"$x = $y.max |$x| { $x }") = .pn b!"(= (var \"x\") (call-method {:functor (. (var \"y\") (qn \"max\")) :args [] :block (lambda {:params {:x {}} :body [(var \"x\")]})}))" := by decide +kernel

/-- parser_test.go:1256 -/
example : dump (opts b!"func |$x| { $x }.newfunc") = .pn b!"(call-method {:functor (. (call {:functor (qn \"func\") :args [] :block (lambda {:params {:x {}} :body [(var \"x\")]})}) (qn \"newfunc\")) :args []})" := by decide +kernel

/-- parser_test.go:1261 -/
example : dump (opts b!"$x = type(3)") = .pn b!"(= (var \"x\") (call {:functor (qn \"type\") :args [3]}))" := by decide +kernel

/-- parser_test.go:1266 -/
example : dump (opts b!"$x = [type(3)]") = .pn b!"(= (var \"x\") (array (call {:functor (qn \"type\") :args [3]})))" := by decide +kernel

/-- parser_test.go:1271 -/
example : dump (opts b!"$x = {type(3) => 'v'}") = .pn b!"(= (var \"x\") (hash (=> (call {:functor (qn \"type\") :args [3]}) \"v\")))" := by decide +kernel

/-- parser_test.go:1276 -/
example : dump (opts b!"$x = {'v' => type(3)}") = .pn b!"(= (var \"x\") (hash (=> \"v\" (call {:functor (qn \"type\") :args [3]}))))" := by decide +kernel

/-- parser_test.go:1281 -/
example : dump (opts b!"with |$x,$y=type| {}") = .pn b!"(invoke {:functor (qn \"with\") :args [] :block (lambda {:params {:x {} :y {:value (qn \"type\")}} :body []})})" := by decide +kernel

/-- parser_test.go:1286 -/
example : dump (opts b!"$x = $x.type(3)") = .pn b!"(= (var \"x\") (call-method {:functor (. (var \"x\") (qn \"type\")) :args [3]}))" := by decide +kernel

/-- parser_test.go:1293 -/
example : dump (opts b!"Foo(3).with |$f| { $f }") = .pn b!"(call-method {:functor (. (call {:functor (qr \"Foo\") :args [3]}) (qn \"with\")) :args [] :block (lambda {:params {:f {}} :body [(var \"f\")]})})" := by decide +kernel

/-- parser_test.go:1298 -/
example : dump (opts b!"Foo(3).type_of.with |$f| { $f }") = .pn b!"(call-method {:functor (. (call-method {:functor (. (call {:functor (qr \"Foo\") :args [3]}) (qn \"type_of\")) :args []}) (qn \"with\")) :args [] :block (lambda {:params {:f {}} :body [(var \"f\")]})})" := by decide +kernel

end PP.Conformance
