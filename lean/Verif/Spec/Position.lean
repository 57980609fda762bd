import Verif.Spec.Layout

/-! # Where the tokens of a source are -/
namespace PP.Spec

/-- The end of the source.  After a heredoc whose text ends with the source it is one character too far. -/
def AtEnd (env : Env) (p : Nat) : Prop := p = env.text.length ∨ p = env.text.length + 1

/-- The token with which `ts`, the last tokens of the source, start is at `p`: the source has, before `p`, white space of the layout of `ts`,
and at `p` no white space. 
Nothing is said about interpolated strings: the scanner moves the start of the token to the last part of the string. -/
def StartsAt (env : Env) : List T → Nat → Prop
  | [], p => AtEnd env p
  | .interp _ :: _, _ => True
  | t :: ts, p => ∃ q prev first pend ws nl rs, env.text.drop q = utf8 (ws ++ rs) ∧ White ws nl ∧ NoSkip rs ∧
      Layout env none prev first pend (t :: ts) (ws ++ rs) ∧ p = q + (utf8 ws).length

/-- `p` is behind the token with which `ts`, the last tokens of the source, start: between this token and the next one (with heredocs:
the text from `p` on, without the text of heredocs, is a layout of the other tokens). -/
def EndsBefore (env : Env) : List T → Nat → Prop
  | [], p => AtEnd env p
  | _ :: ts, p => StartsAt env ts p ∨ ∃ prev first pend rs, env.text.drop p = utf8 rs ∧ Layout env none prev first pend ts rs

end PP.Spec
