import Verif.Conformance.Base
import Verif.Json

/-! The test of parser/json_test.go.  How floats are printed is a parameter (here: as written, 0.0 as 0). -/
namespace PP.Conformance

/-- `toJSON` of parser/json_test.go:31-39. -/
def toJson (text : GoStr) : Option GoStr :=
  match parse (opts text) false with
  | .value e => match e.toPN with
    | .ok p => p.toData.json fun f => some (if f.text == b!"0.0" then b!"0" else f.text)
    | .error _ => none
  | _ => none

/-- parser/json_test.go:12-28. -/
example : toJson b!"file { '/tmp/foo':\n  mode => '0640',\n  ensure => present;\n'/tmp/bar':\n  mode => '0640',\n  ensure => present;\n}\n\n$rootgroup = $facts['os']['family'] ? 'Solaris' => 'wheel'\n\nfunction foo(Integer[2,3] $in, String $n = 'vi') >> Float[0.0] {\n    notice(\"show the ${n}\")\n  $in * 3.14\n}" =
    some b!"{\"^\":[\"block\",{\"^\":[\"resource\",{\"#\":[\"type\",{\"^\":[\"qn\",\"file\"]},\"bodies\",[{\"#\":[\"title\",\"/tmp/foo\",\"ops\",[{\"^\":[\"=>\",\"mode\",\"0640\"]},{\"^\":[\"=>\",\"ensure\",{\"^\":[\"qn\",\"present\"]}]}]]},{\"#\":[\"title\",\"/tmp/bar\",\"ops\",[{\"^\":[\"=>\",\"mode\",\"0640\"]},{\"^\":[\"=>\",\"ensure\",{\"^\":[\"qn\",\"present\"]}]}]]}]]}]},{\"^\":[\"=\",{\"^\":[\"var\",\"rootgroup\"]},{\"^\":[\"?\",{\"^\":[\"access\",{\"^\":[\"access\",{\"^\":[\"var\",\"facts\"]},\"os\"]},\"family\"]},[{\"^\":[\"=>\",\"Solaris\",\"wheel\"]}]]}]},{\"^\":[\"function\",{\"#\":[\"name\",\"foo\",\"params\",{\"#\":[\"in\",{\"#\":[\"type\",{\"^\":[\"access\",{\"^\":[\"qr\",\"Integer\"]},2,3]}]},\"n\",{\"#\":[\"type\",{\"^\":[\"qr\",\"String\"]},\"value\",\"vi\"]}]},\"body\",[{\"^\":[\"invoke\",{\"#\":[\"functor\",{\"^\":[\"qn\",\"notice\"]},\"args\",[{\"^\":[\"concat\",\"show the \",{\"^\":[\"str\",{\"^\":[\"var\",\"n\"]}]}]}]]}]},{\"^\":[\"*\",{\"^\":[\"var\",\"in\"]},3.14]}],\"returns\",{\"^\":[\"access\",{\"^\":[\"qr\",\"Float\"]},0]}]}]}]}" := by decide +kernel

end PP.Conformance
