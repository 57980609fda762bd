import Verif.Conformance.Base

/-! Generated by tools/conformance.py from the tests in /repo. -/
namespace PP.Conformance

/-- parser_test.go:1756 -/
example : dump (opts b!"Something { message => 'syntax ok' }") = .pn b!"(resource-defaults {:type (qr \"Something\") :ops [(=> \"message\" \"syntax ok\")]})" := by decide +kernel

/-- parser_test.go:1762 -/
example : dump (opts b!"Resource[Something] { message => 'syntax ok' }") = .pn b!"(resource-defaults {:type (access (qr \"Resource\") (qr \"Something\")) :ops [(=> \"message\" \"syntax ok\")]})" := by decide +kernel

/-- parser_test.go:1766 -/
example : dump (opts b!"@Resource[Something] { message => 'syntax ok' }") = .pn b!"(resource-defaults {:type (access (qr \"Resource\") (qr \"Something\")) :ops [(=> \"message\" \"syntax ok\")] :form \"virtual\"})" := by decide +kernel

/-- parser_test.go:1772 -/
example : dump (opts b!"File['/tmp/foo.txt'] { mode => '0644' }") = .pn b!"(resource-override {:resources (access (qr \"File\") \"/tmp/foo.txt\") :ops [(=> \"mode\" \"0644\")]})" := by decide +kernel

/-- parser_test.go:1776 -/
example : dump (opts b!"Service['apache'] {\n  require +> [File['apache.pem'], File['httpd.conf']]\n}") = .pn b!"(resource-override {:resources (access (qr \"Service\") \"apache\") :ops [(+> \"require\" (array (access (qr \"File\") \"apache.pem\") (access (qr \"File\") \"httpd.conf\")))]})" := by decide +kernel

/-- parser_test.go:1783 -/
example : dump (opts b!"@File['/tmp/foo.txt'] { mode => '0644' }") = .pn b!"(resource-override {:resources (access (qr \"File\") \"/tmp/foo.txt\") :ops [(=> \"mode\" \"0644\")] :form \"virtual\"})" := by decide +kernel

/-- parser_test.go:1790 -/
example : block (opts b!"'File' { mode => '0644' }") = .error .parseInvalidResource 1 1 := by decide +kernel

/-- parser_test.go:1796 -/
example : dump (opts b!"File <| |>") = .pn b!"(collect {:type (qr \"File\") :query (virtual-query)})" := by decide +kernel

/-- parser_test.go:1800 -/
example : dump (opts b!"File <| mode == '0644' |>") = .pn b!"(collect {:type (qr \"File\") :query (virtual-query (== (qn \"mode\") \"0644\"))})" := by decide +kernel

/-- parser_test.go:1805 -/
example : dump (opts b!"File <| mode == '0644' |> {\n  owner => 'root',\n  mode => 640\n}") = .pn b!"(collect {:type (qr \"File\") :query (virtual-query (== (qn \"mode\") \"0644\")) :ops [(=> \"owner\" \"root\") (=> \"mode\" 640)]})" := by decide +kernel

/-- parser_test.go:1815 -/
example : dump (opts b!"File <<| |>>") = .pn b!"(collect {:type (qr \"File\") :query (exported-query)})" := by decide +kernel

/-- parser_test.go:1819 -/
example : dump (opts b!"File <<| mode == '0644' |>>") = .pn b!"(collect {:type (qr \"File\") :query (exported-query (== (qn \"mode\") \"0644\"))})" := by decide +kernel

/-- parser_test.go:1824 -/
example : dump (opts b!"File <<| mode == '0644' |>> {\n  owner => 'root',\n  mode => 640\n}") = .pn b!"(collect {:type (qr \"File\") :query (exported-query (== (qn \"mode\") \"0644\")) :ops [(=> \"owner\" \"root\") (=> \"mode\" 640)]})" := by decide +kernel

/-- parser_test.go:1834 -/
example : dump (opts b!"$x = a or b and c < d == e << f + g * -h") = .pn b!"(= (var \"x\") (or (qn \"a\") (and (qn \"b\") (< (qn \"c\") (== (qn \"d\") (<< (qn \"e\") (+ (qn \"f\") (* (qn \"g\") (- (qn \"h\"))))))))))" := by decide +kernel

/-- parser_test.go:1838 -/
example : dump (opts b!"$x = -h / g + f << e == d <= c and b or a") = .pn b!"(= (var \"x\") (or (and (<= (== (<< (+ (/ (- (qn \"h\")) (qn \"g\")) (qn \"f\")) (qn \"e\")) (qn \"d\")) (qn \"c\")) (qn \"b\")) (qn \"a\")))" := by decide +kernel

/-- parser_test.go:1842 -/
example : dump (opts b!"$x = !a == b") = .pn b!"(= (var \"x\") (== (! (qn \"a\")) (qn \"b\")))" := by decide +kernel

/-- parser_test.go:1846 -/
example : dump (opts b!"$x = a > b") = .pn b!"(= (var \"x\") (> (qn \"a\") (qn \"b\")))" := by decide +kernel

/-- parser_test.go:1850 -/
example : dump (opts b!"$x = a >= b") = .pn b!"(= (var \"x\") (>= (qn \"a\") (qn \"b\")))" := by decide +kernel

/-- parser_test.go:1854 -/
example : dump (opts b!"$x = a +b") = .pn b!"(= (var \"x\") (+ (qn \"a\") (qn \"b\")))" := by decide +kernel

/-- parser_test.go:1858 -/
example : dump (opts b!"$x = +4") = .pn b!"(= (var \"x\") 4)" := by decide +kernel

/-- parser_test.go:1862 -/
example : dump (opts b!"$x = 10 - 5 - 3") = .pn b!"(= (var \"x\") (- (- 10 5) 3))" := by decide +kernel

/-- parser_test.go:1866 -/
example : dump (opts b!"$x = 10 - 5 * 3") = .pn b!"(= (var \"x\") (- 10 (* 5 3)))" := by decide +kernel

/-- parser_test.go:1870 -/
example : dump (opts b!"$x = a * (b + c)") = .pn b!"(= (var \"x\") (* (qn \"a\") (paren (+ (qn \"b\") (qn \"c\")))))" := by decide +kernel

/-- parser_test.go:1874 -/
example : dump (opts b!"$x = $y -= $z") = .pn b!"(= (var \"x\") (-= (var \"y\") (var \"z\")))" := by decide +kernel

/-- parser_test.go:1878 -/
example : dump (opts b!"$x = $y + $z % 5") = .pn b!"(= (var \"x\") (+ (var \"y\") (% (var \"z\") 5)))" := by decide +kernel

/-- parser_test.go:1882 -/
example : dump (opts b!"$x = $y += $z") = .pn b!"(= (var \"x\") (+= (var \"y\") (var \"z\")))" := by decide +kernel

/-- parser_test.go:1886 -/
example : block (opts b!"$x = +b") = .error .lexUnexpectedToken 1 7 := by decide +kernel

/-- parser_test.go:1892 -/
example : dump (opts b!"a =~ /^[a-z]+$/") = .pn b!"(=~ (qn \"a\") (regexp \"^[a-z]+$\"))" := by decide +kernel

/-- parser_test.go:1896 -/
example : dump (opts b!"a !~ /^[a-z]+$/") = .pn b!"(!~ (qn \"a\") (regexp \"^[a-z]+$\"))" := by decide +kernel

/-- parser_test.go:1902 -/
example : dump (opts b!"'eat' in 'eaten'") = .pn b!"(in \"eat\" \"eaten\")" := by decide +kernel

/-- parser_test.go:1906 -/
example : dump (opts b!"'eat' in ['eat', 'ate', 'eating']") = .pn b!"(in \"eat\" (array \"eat\" \"ate\" \"eating\"))" := by decide +kernel

/-- parser_test.go:1918 -/
example : dump (opts b!"" (epp := true)) = .pn b!"(lambda {:body [(epp (render-s \"\"))]})" := by decide +kernel

/-- parser_test.go:1922 -/
example : dump (opts b!"some arbitrary text\nspanning multiple lines" (epp := true)) = .pn b!"(lambda {:body [(epp (render-s \"some arbitrary text\\nspanning multiple lines\"))]})" := by decide +kernel

/-- parser_test.go:1928 -/
example : dump (opts b!"<%||%> some arbitrary text\nspanning multiple lines" (epp := true)) = .pn b!"(lambda {:body [(epp (render-s \" some arbitrary text\\nspanning multiple lines\"))]})" := by decide +kernel

/-- parser_test.go:1934 -/
example : dump (opts b!"<%||%> some <%#-%>text" (epp := true)) = .pn b!"(lambda {:body [(epp (render-s \" some text\"))]})" := by decide +kernel

/-- parser_test.go:1939 -/
example : block (opts b!"<%||%> some <%#-text" (epp := true)) = .error .lexUnbalancedEppComment 1 13 := by decide +kernel

/-- parser_test.go:1944 -/
example : dump (opts b!"<%||%> some <%%-%%-%%> text" (epp := true)) = .pn b!"(lambda {:body [(epp (render-s \" some <%-%%-%> text\"))]})" := by decide +kernel

/-- parser_test.go:1949 -/
example : dump (opts b!"<%||-%> some <-% %-> text" (epp := true)) = .pn b!"(lambda {:body [(epp (render-s \"some <-% %-> text\"))]})" := by decide +kernel

/-- parser_test.go:1954 -/
example : dump (opts b!"<%-||-%> some <%- $x = 3 %> text" (epp := true)) = .pn b!"(lambda {:body [(epp (render-s \"some\") (= (var \"x\") 3) (render-s \" text\"))]})" := by decide +kernel

/-- parser_test.go:1959 -/
example : block (opts b!"<%-||-%> some <%- $x = 3 -% $y %> text" (epp := true)) = .error .lexInvalidOperator 1 28 := by decide +kernel

/-- parser_test.go:1964 -/
example : block (opts b!"vcenter: {\n  host: \"<%= $host %>\"\n  user: \"<%= $username %>\"\n  password: \"<%= $password %>\"\n}" (epp := true)) = .pn b!"(lambda {:body [(epp (render-s \"vcenter: {\\n  host: \\\"\") (render (var \"host\")) (render-s \"\\\"\\n  user: \\\"\") (render (var \"username\")) (render-s \"\\\"\\n  password: \\\"\") (render (var \"password\")) (render-s \"\\\"\\n}\"))]})" := by decide +kernel

/-- parser_test.go:1980 -/
example : dump (opts b!"<%- | Boolean $keys_enable,\n  String  $keys_file,\n  Array   $keys_trusted,\n  String  $keys_requestkey,\n  String  $keys_controlkey\n| -%>\n<%# Parameter tag ↑ -%>\n\n<%# Non-printing tag ↓ -%>\n<% if $keys_enable { -%>\n\n<%# Expression-printing tag ↓ -%>\nkeys <%= $keys_file %>\n<% unless $keys_trusted =~ Array[Data,0,0] { -%>\ntrustedkey <%= $keys_trusted.join(' ') %>\n<% } -%>\n<% if $keys_requestkey =~ String[1] { -%>\nrequestkey <%= $keys_requestkey %>\n<% } -%>\n<% if $keys_controlkey =~ String[1] { -%>\ncontrolkey <%= $keys_controlkey %>\n<% } -%>\n\n<% } -%>" (epp := true)) = .pn b!"(lambda {:params {:keys_enable {:type (qr \"Boolean\")} :keys_file {:type (qr \"String\")} :keys_trusted {:type (qr \"Array\")} :keys_requestkey {:type (qr \"String\")} :keys_controlkey {:type (qr \"String\")}} :body [(epp (render-s \"\\n\\n\\n\") (if {:test (var \"keys_enable\") :then [(render-s \"\\n\\nkeys \") (render (var \"keys_file\")) (render-s \"\\n\") (unless {:test (=~ (var \"keys_trusted\") (access (qr \"Array\") (qr \"Data\") 0 0)) :then [(render-s \"trustedkey \") (render (call-method {:functor (. (var \"keys_trusted\") (qn \"join\")) :args [\" \"]})) (render-s \"\\n\")]}) (if {:test (=~ (var \"keys_requestkey\") (access (qr \"String\") 1)) :then [(render-s \"requestkey \") (render (var \"keys_requestkey\")) (render-s \"\\n\")]}) (if {:test (=~ (var \"keys_controlkey\") (access (qr \"String\") 1)) :then [(render-s \"controlkey \") (render (var \"keys_controlkey\")) (render-s \"\\n\")]}) (render-s \"\\n\")]}))]})" := by decide +kernel

/-- parser_test.go:2041 -/
example : block (opts b!"<% $x = 3 %> text") = .error .lexUnexpectedToken 1 1 := by decide +kernel

/-- parser_test.go:2046 -/
example : block (opts b!"$x = 3 %> 4") = .error .lexUnexpectedToken 1 9 := by decide +kernel

/-- parser_test.go:2051 -/
example : block (opts b!"$x = 3 -%> 4") = .error .lexUnexpectedToken 1 9 := by decide +kernel

/-- parser_test.go:2056 -/
example : block (opts b!"\n<% |String $x| %>\n" (epp := true)) = .error .parseIllegalEppParameters 2 5 := by decide +kernel

end PP.Conformance
