import Verif.Basic
import Verif.PN
import Verif.Ast
import Verif.Monad
import Verif.Lexer
import Verif.Locator
import Verif.Parser
import Verif.Literal
import Verif.Validator
import Verif.Cli
import Verif.Lemmas.Utf8
import Verif.Lemmas.Dec
import Verif.Lemmas.Locator
import Verif.Props.Locator
import Verif.Props.PN
import Verif.Lemmas.Ast
import Verif.Lemmas.Validator
import Verif.Lemmas.Strictness
import Verif.Lemmas.Location
import Verif.Lemmas.Reports
import Verif.Lemmas.Parse9
import Verif.Props.Visitor
import Verif.Props.Literal
import Verif.Props.Validator
import Verif.Props.Duplicates
import Verif.Props.ToPN
import Verif.Props.Placement
import Verif.Props.Lexing
import Verif.Props.Cli
import Verif.Props.Seen
import Verif.Props.Parse
import Verif.Props.NoPanic
import Verif.Lemmas.Mono
import Verif.Spec.Grammar
import Verif.Spec.Bare
import Verif.Lemmas.Bare
import Verif.Lemmas.Feed
import Verif.Lemmas.Gram9
import Verif.Spec.Lexemes
import Verif.Spec.Layout
import Verif.Lemmas.Layout4
import Verif.Spec.Operators
import Verif.Props.Grammar
import Verif.Props.Interpolation
import Verif.Spec.Shape
import Verif.Props.Shape
import Verif.Props.History
import Verif.Props.Epp
import Verif.Spec.Heredoc
import Verif.Lemmas.Floats
import Verif.Lemmas.Heredoc
import Verif.Lemmas.Heredoc2
import Verif.Props.Heredoc
import Verif.Props.Simple
import Verif.Props.Ranges
import Verif.Props.Names
import Verif.Props.Malformed
import Verif.Conformance.Parser1
import Verif.Conformance.Parser2
import Verif.Conformance.Parser3
import Verif.Conformance.Parser4
import Verif.Conformance.Parser5
import Verif.Conformance.Parser6
import Verif.Conformance.Validator1
import Verif.Conformance.Validator2
import Verif.Conformance.Validator3
import Verif.Props.SyntaxErrors
import Verif.Props.Workflow
import Verif.Props.Template
import Verif.Props.Start
import Verif.Message
import Verif.Spec.Messages
import Verif.Lemmas.Messages
import Verif.Props.Messages
import Verif.Json
import Verif.Spec.Json
import Verif.Lemmas.Json
import Verif.Lemmas.Json2
import Verif.Props.Json
import Verif.Spec.Printed
import Verif.Spec.Words
import Verif.Lemmas.Decode
import Verif.Lemmas.Decode2
import Verif.Lemmas.Decode3
import Verif.Lemmas.Decode4
import Verif.Lemmas.Decode5
import Verif.Lemmas.Decode6
import Verif.Props.Printed
import Verif.Spec.Text
import Verif.Lemmas.Text1
import Verif.Lemmas.Text2
import Verif.Lemmas.Text3
import Verif.Lemmas.Text4
import Verif.Lemmas.Text5
import Verif.Lemmas.Text6
import Verif.Props.Text
import Verif.Spec.Rules
import Verif.Props.Rules
import Verif.Props.Rules2
import Verif.Props.PrintedText
import Verif.Conformance.Json
import Verif.Props.Verdict
import Verif.Spec.HeredocErrors
import Verif.Spec.HeredocBad
import Verif.Spec.HeredocText
import Verif.Lemmas.HeredocErrors
import Verif.Lemmas.HeredocBad
import Verif.Lemmas.HeredocText
import Verif.Lemmas.HeredocText2
import Verif.Props.HeredocErrors
import Verif.Props.HeredocBad
import Verif.Props.HeredocText
