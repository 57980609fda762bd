import Verif.Conformance.Base

/-! Generated by tools/conformance.py from the tests in /repo. -/
namespace PP.Conformance

/-- parser_test.go:1303 -/
example : block (opts b!"$x = 'y'\n# The above is a variable assignment\n# and here is a notice of the assigned\n# value\n#\nnotice($y)") = .pn b!"(block (= (var \"x\") \"y\") (invoke {:functor (qn \"notice\") :args [(var \"y\")]}))" := by decide +kernel

/-- parser_test.go:1315 -/
example : dump (opts b!"name") = .pn b!"(qn \"name\")" := by decide +kernel

/-- parser_test.go:1319 -/
example : dump (opts b!"Name") = .pn b!"(qr \"Name\")" := by decide +kernel

/-- parser_test.go:1323 -/
example : dump (opts b!"Ab::Bc") = .pn b!"(qr \"Ab::Bc\")" := by decide +kernel

/-- parser_test.go:1327 -/
example : dump (opts b!"$x = ::assertType(::TheType, $y)") = .pn b!"(= (var \"x\") (call {:functor (qn \"::assertType\") :args [(qr \"::TheType\") (var \"y\")]}))" := by decide +kernel

/-- parser_test.go:1331 -/
example : block (opts b!"abc:cde") = .error .lexUnexpectedToken 1 4 := by decide +kernel

/-- parser_test.go:1335 -/
example : block (opts b!"Ab::bc") = .error .lexInvalidTypeName 1 1 := by decide +kernel

/-- parser_test.go:1339 -/
example : block (opts b!"$x = ::3m") = .error .lexDoubleColonNotFollowedByName 1 6 := by decide +kernel

/-- parser_test.go:1345 -/
example : block (opts b!"$x = 'y' # A variable assignment\nnotice($y)") = .pn b!"(block (= (var \"x\") \"y\") (invoke {:functor (qn \"notice\") :args [(var \"y\")]}))" := by decide +kernel

/-- parser_test.go:1351 -/
example : block (opts b!"# [*version*]\n#   The package version to install, used to set the package name.\n#   Defaults to undefined") = .pn b!"(block)" := by decide +kernel

/-- parser_test.go:1360 -/
example : block (opts b!"$x = 'y'\n/* The above is a variable assignment\n   and here is a notice of the assigned\n   value\n*/\nnotice($y)") = .pn b!"(block (= (var \"x\") \"y\") (invoke {:functor (qn \"notice\") :args [(var \"y\")]}))" := by decide +kernel

/-- parser_test.go:1372 -/
example : dump (opts b!"$x = 'a string'") = .pn b!"(= (var \"x\") \"a string\")" := by decide +kernel

/-- parser_test.go:1374 -/
example : dump (opts b!"$x = 'a \\'string\\' with \\\\'") = .pn b!"(= (var \"x\") \"a 'string' with \\\\\")" := by decide +kernel

/-- parser_test.go:1376 -/
example : block (opts b!"$x = 'y\nnotice($x)") = .error .lexUnterminatedString 1 6 := by decide +kernel

/-- parser_test.go:1384 -/
example : block (opts b!"$x = 'y\\") = .error .lexUnterminatedString 1 6 := by decide +kernel

/-- parser_test.go:1391 -/
example : block (opts b!"$x ~ 'y'\nnotice($x)") = .error .lexUnexpectedToken 1 4 := by decide +kernel

/-- parser_test.go:1399 -/
example : block (opts b!"$x ^ 'y'\nnotice($x)") = .error .lexUnexpectedToken 1 4 := by decide +kernel

/-- parser_test.go:1407 -/
example : block (opts b!"$x = 'y'\n/* The above is a variable assignment\nnotice($y)") = .error .lexUnterminatedComment 2 1 := by decide +kernel

/-- parser_test.go:1416 -/
example : dump (opts b!"$x = if $y {\n  true\n} else {\n  false\n}") = .pn b!"(= (var \"x\") (if {:test (var \"y\") :then [true] :else [false]}))" := by decide +kernel

/-- parser_test.go:1425 -/
example : dump (opts b!"$x = if $y > 2 {\n} else {\n  false\n}") = .pn b!"(= (var \"x\") (if {:test (> (var \"y\") 2) :then [] :else [false]}))" := by decide +kernel

/-- parser_test.go:1433 -/
example : dump (opts b!"$x = if $y != 34 {\n  true\n} else {\n}") = .pn b!"(= (var \"x\") (if {:test (!= (var \"y\") 34) :then [true] :else []}))" := by decide +kernel

/-- parser_test.go:1441 -/
example : dump (opts b!"$x = if $y {\n  1\n} elsif $z {\n  2\n} else {\n  3\n}") = .pn b!"(= (var \"x\") (if {:test (var \"y\") :then [1] :else [(if {:test (var \"z\") :then [2] :else [3]})]}))" := by decide +kernel

/-- parser_test.go:1452 -/
example : dump (opts b!"$x = if $y == if $x {\n  true\n} { false }") = .pn b!"(= (var \"x\") (if {:test (== (var \"y\") (if {:test (var \"x\") :then [true]})) :then [false]}))" := by decide +kernel

/-- parser_test.go:1459 -/
example : block (opts b!"$x = else { 3 }") = .error .lexUnexpectedToken 1 6 := by decide +kernel

/-- parser_test.go:1465 -/
example : dump (opts b!"$x = unless $y {\n  true\n} else {\n  false\n}") = .pn b!"(= (var \"x\") (unless {:test (var \"y\") :then [true] :else [false]}))" := by decide +kernel

/-- parser_test.go:1474 -/
example : dump (opts b!"$x = unless $y {\n} else {\n  false\n}") = .pn b!"(= (var \"x\") (unless {:test (var \"y\") :then [] :else [false]}))" := by decide +kernel

/-- parser_test.go:1482 -/
example : dump (opts b!"$x = unless $y {\n  true\n} else {\n}") = .pn b!"(= (var \"x\") (unless {:test (var \"y\") :then [true] :else []}))" := by decide +kernel

/-- parser_test.go:1490 -/
example : dump (opts b!"$x = if $y == unless $x {\n  true\n} { false }") = .pn b!"(= (var \"x\") (if {:test (== (var \"y\") (unless {:test (var \"x\") :then [true]})) :then [false]}))" := by decide +kernel

/-- parser_test.go:1497 -/
example : block (opts b!"$x = unless $y {\n  1\n} elsif $z {\n  2\n} else {\n  3\n}") = .error .parseElsifInUnless 3 8 := by decide +kernel

/-- parser_test.go:1510 -/
example : dump (opts b!"$rootgroup = $facts['os']['family'] ? 'Solaris' => 'wheel'") = .pn b!"(= (var \"rootgroup\") (? (access (access (var \"facts\") \"os\") \"family\") [(=> \"Solaris\" \"wheel\")]))" := by decide +kernel

/-- parser_test.go:1514 -/
example : dump (opts b!"$rootgroup = $facts['os']['family'] ? {\n  'Solaris'          => 'wheel',\n  /(Darwin|FreeBSD)/ => 'wheel',\n  default            => 'root'\n}") = .pn b!"(= (var \"rootgroup\") (? (access (access (var \"facts\") \"os\") \"family\") [(=> \"Solaris\" \"wheel\") (=> (regexp \"(Darwin|FreeBSD)\") \"wheel\") (=> (default) \"root\")]))" := by decide +kernel

/-- parser_test.go:1523 -/
example : dump (opts b!"$rootgroup = $facts['os']['family'] ? {\n  'Solaris'          => 'wheel',\n  /(Darwin|FreeBSD)/ => 'wheel',\n  default            => 'root',\n}") = .pn b!"(= (var \"rootgroup\") (? (access (access (var \"facts\") \"os\") \"family\") [(=> \"Solaris\" \"wheel\") (=> (regexp \"(Darwin|FreeBSD)\") \"wheel\") (=> (default) \"root\")]))" := by decide +kernel

/-- parser_test.go:1534 -/
example : dump (opts b!"case $facts['os']['name'] {\n  'Solaris':           { include role::solaris } # Apply the solaris class\n  'RedHat', 'CentOS':  { include role::redhat  } # Apply the redhat class\n  /^(Debian|Ubuntu)$/: { include role::debian  } # Apply the debian class\n  default:             { include role::generic } # Apply the generic class\n}") = .pn b!"(case (access (access (var \"facts\") \"os\") \"name\") [{:when [\"Solaris\"] :then [(invoke {:functor (qn \"include\") :args [(qn \"role::solaris\")]})]} {:when [\"RedHat\" \"CentOS\"] :then [(invoke {:functor (qn \"include\") :args [(qn \"role::redhat\")]})]} {:when [(regexp \"^(Debian|Ubuntu)$\")] :then [(invoke {:functor (qn \"include\") :args [(qn \"role::debian\")]})]} {:when [(default)] :then [(invoke {:functor (qn \"include\") :args [(qn \"role::generic\")]})]}])" := by decide +kernel

/-- parser_test.go:1550 -/
example : dump (opts b!"Struct[{\n  Optional[description] => String,\n  Optional[sensitive] => Boolean,\n  type => Type}]") = .pn b!"(access (qr \"Struct\") (hash (=> (access (qr \"Optional\") (qn \"description\")) (qr \"String\")) (=> (access (qr \"Optional\") (qn \"sensitive\")) (qr \"Boolean\")) (=> (qn \"type\") (qr \"Type\"))))" := by decide +kernel

/-- parser_test.go:1562 -/
example : dump (opts b!"Struct[\n  Optional[description] => String,\n  Optional[sensitive] => Boolean,\n  type => Type]") = .pn b!"(access (qr \"Struct\") (hash (=> (access (qr \"Optional\") (qn \"description\")) (qr \"String\")) (=> (access (qr \"Optional\") (qn \"sensitive\")) (qr \"Boolean\")) (=> (qn \"type\") (qr \"Type\"))))" := by decide +kernel

/-- parser_test.go:1576 -/
example : dump (opts b!"file { '/tmp/foo':\n  mode => '0640',\n  ensure => present\n}") = .pn b!"(resource {:type (qn \"file\") :bodies [{:title \"/tmp/foo\" :ops [(=> \"mode\" \"0640\") (=> \"ensure\" (qn \"present\"))]}]})" := by decide +kernel

/-- parser_test.go:1586 -/
example : dump (opts b!"file { '/tmp/foo':\n  ensure => file,\n  * => $file_ownership\n}") = .pn b!"(resource {:type (qn \"file\") :bodies [{:title \"/tmp/foo\" :ops [(=> \"ensure\" (qn \"file\")) (splat-hash (var \"file_ownership\"))]}]})" := by decide +kernel

/-- parser_test.go:1596 -/
example : dump (opts b!"@file { '/tmp/foo':\n  mode => '0640',\n  ensure => present\n}") = .pn b!"(resource {:type (qn \"file\") :bodies [{:title \"/tmp/foo\" :ops [(=> \"mode\" \"0640\") (=> \"ensure\" (qn \"present\"))]}] :form \"virtual\"})" := by decide +kernel

/-- parser_test.go:1607 -/
example : dump (opts b!"@@file { '/tmp/foo':\n  mode => '0640',\n  ensure => present\n}") = .pn b!"(resource {:type (qn \"file\") :bodies [{:title \"/tmp/foo\" :ops [(=> \"mode\" \"0640\") (=> \"ensure\" (qn \"present\"))]}] :form \"exported\"})" := by decide +kernel

/-- parser_test.go:1618 -/
example : dump (opts b!"class { some_title: }") = .pn b!"(resource {:type (qn \"class\") :bodies [{:title (qn \"some_title\") :ops []}]})" := by decide +kernel

/-- parser_test.go:1623 -/
example : dump (opts b!"file { '/tmp/foo': }") = .pn b!"(resource {:type (qn \"file\") :bodies [{:title \"/tmp/foo\" :ops []}]})" := by decide +kernel

/-- parser_test.go:1630 -/
example : dump (opts b!"package { 'openssh-server':\n  ensure => present,\n} -> # and then:\nfile { '/etc/ssh/sshd_config':\n  ensure => file,\n  mode   => '0600',\n  source => 'puppet:///modules/sshd/sshd_config',\n} ~> # and then:\nservice { 'sshd':\n  ensure => running,\n  enable => true,\n}") = .pn b!"(~> (-> (resource {:type (qn \"package\") :bodies [{:title \"openssh-server\" :ops [(=> \"ensure\" (qn \"present\"))]}]}) (resource {:type (qn \"file\") :bodies [{:title \"/etc/ssh/sshd_config\" :ops [(=> \"ensure\" (qn \"file\")) (=> \"mode\" \"0600\") (=> \"source\" \"puppet:///modules/sshd/sshd_config\")]}]})) (resource {:type (qn \"service\") :bodies [{:title \"sshd\" :ops [(=> \"ensure\" (qn \"running\")) (=> \"enable\" true)]}]}))" := by decide +kernel

/-- parser_test.go:1661 -/
example : dump (opts b!"package { 'openssh-server':\n  ensure => present,\n} <- # and then:\nfile { '/etc/ssh/sshd_config':\n  ensure => file,\n  mode   => '0600',\n  source => 'puppet:///modules/sshd/sshd_config',\n} <~ # and then:\nservice { 'sshd':\n  ensure => running,\n  enable => true,\n}") = .pn b!"(<~ (<- (resource {:type (qn \"package\") :bodies [{:title \"openssh-server\" :ops [(=> \"ensure\" (qn \"present\"))]}]}) (resource {:type (qn \"file\") :bodies [{:title \"/etc/ssh/sshd_config\" :ops [(=> \"ensure\" (qn \"file\")) (=> \"mode\" \"0600\") (=> \"source\" \"puppet:///modules/sshd/sshd_config\")]}]})) (resource {:type (qn \"service\") :bodies [{:title \"sshd\" :ops [(=> \"ensure\" (qn \"running\")) (=> \"enable\" true)]}]}))" := by decide +kernel

/-- parser_test.go:1692 -/
example : block (opts b!"file { '/tmp/foo':\n  mode => '0640',\n  ensure => present\n") = .error .parseExpectedToken 4 1 := by decide +kernel

/-- parser_test.go:1700 -/
example : block (opts b!"file { '/tmp/foo':\n  mode, '0640',\n  ensure, present\n}") = .error .parseInvalidAttribute 2 8 := by decide +kernel

/-- parser_test.go:1708 -/
example : block (opts b!"file { '/tmp/foo':\n  'mode' => '0640',\n  'ensure' => present\n}") = .error .parseExpectedAttributeName 2 3 := by decide +kernel

/-- parser_test.go:1718 -/
example : dump (opts b!"file { '/tmp/foo':\n  mode => '0640',\n  ensure => present;\n'/tmp/bar':\n  mode => '0640',\n  ensure => present;\n}") = .pn b!"(resource {:type (qn \"file\") :bodies [{:title \"/tmp/foo\" :ops [(=> \"mode\" \"0640\") (=> \"ensure\" (qn \"present\"))]} {:title \"/tmp/bar\" :ops [(=> \"mode\" \"0640\") (=> \"ensure\" (qn \"present\"))]}]})" := by decide +kernel

/-- parser_test.go:1731 -/
example : block (opts b!"file { '/tmp/foo':\n  mode => '0640',\n  ensure => present;\n'/tmp/bar'\n  mode => '0640',\n  ensure => present;\n}") = .error .parseExpectedTitle 4 1 := by decide +kernel

/-- parser_test.go:1744 -/
example : dump (opts b!"warning { message => 'syntax ok' }") = .pn b!"(invoke {:functor (qn \"warning\") :args [(hash (=> (qn \"message\") \"syntax ok\"))]})" := by decide +kernel

/-- parser_test.go:1750 -/
example : block (opts b!"something { message => 'syntax ok' }") = .error .parseResourceWithoutTitle 1 1 := by decide +kernel

end PP.Conformance
